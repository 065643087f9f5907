# Formal model of ndhistogram in Lean 4 — design

The first version of this file (the plan) was committed before the proofs; this version describes what was
built. `properties.jsonl` has the English properties, `MANIFEST.json` the theorems for each, `AXIOMS.md` the axioms
each of these theorems depends on, `seeded/LOG.jsonl` the attempts to break the theorems with wrong programs.

## 1. Layout

| directory | content |
|---|---|
| `lean/Verif/Model/*` | the model: one definition per Rust function, citing file and lines |
| `lean/Verif/Spec*.lean` | small vocabulary used in the statements of properties and nowhere in the model |
| `lean/Verif/Exact.lean`, `Lemmas/*` | supporting definitions and lemmas |
| `lean/Verif/Props/*` | the theorems `Cnn_...`, each followed by an `example` meeting its hypotheses |
| `lean/Verif/Examples/*` | every theorem of MANIFEST.json (except counterexamples) applied to a concrete case, with its hypotheses discharged; `tools/check_examples.py` checks that none is missing |
| `lean/Verif/Conformance/*` | the project's own unit tests and documentation examples, checked on the model (see 4) |
| `tools/` | generators for `properties.jsonl`, `MANIFEST.json`, `AXIOMS.md`; the mutation tool |

## 2. How the code is modelled

Rust source at `/repo/ndhistogram/src`. Each Lean definition cites file and lines.

* **Panics** are values: a function that can panic returns `Res α = Except Panic α`. A mutating method returns the new
  state *and* the panic, if any, so what a caller that catches the panic sees is part of the model
  (`Upd σ = σ → σ × Option Panic`).
* **Build profile / platform** is an instance parameter `[Cfg]`: `Cfg.checked` (debug: integer overflow
  panics; release: it wraps) and `Cfg.usizeBits`. Theorems quantify over every `Cfg` unless they say otherwise.
* **usize** is `Nat` with `uadd/usub/umul` applying the overflow rule at `2^usizeBits`.
* **Numeric types** are instances of a class `RNum` mirroring the trait bounds in the code
  (`PartialOrd + Num + NumCast + NumOps + Copy`):
  * `MInt τ`: machine integers of any width and signedness;
  * `Flt F`: IEEE-754 binary floats of any format `F` (precision, exponent range), with NaN, infinities, signed
    zeros, subnormals and round-to-nearest-even, values being exact rationals; `F64`, `F32` are instances. This is a
    model written here, not Lean's `Float`; NaN payloads are not distinguished;
  * exact fields (`ℚ`, `ℝ`), for "what the formulas mean on paper" (C40–C42).
* **std functions**: `slice::sort_by` is an arbitrary comparison decision tree that sorts whenever the
  comparison is a total order (and may panic when it is not), `slice::binary_search_by` an arbitrary function satisfying
  its documented contract (which of several matches is unspecified), plus concrete transcriptions of the two algorithms std has
  shipped, used for non-vacuity and counterexamples; `HashMap` is an association list with distinct keys, and
  every iteration takes an arbitrary order (`HMap.Order`, a permutation).
* **Tuples of axes** are heterogeneous lists of any length ≥ 2 (the macro generates 2..21), 1-tuples separately
  as in the code.
* **Histograms**: `VecHistogram` (axes + list of values), `HashHistogram` (axes + map), all methods of the `Histogram`
  trait, the inherent methods, all operator forms, conversions, `PartialEq`, `Display`, `Default`, serde, rayon.
* **Bin values**: primitive numbers, `Sum`, `WeightedSum`, `Mean`, `WeightedMean`, and in the generic theorems any type.
* **Histories** (`Model/History.lean`): a program is a list of `fill`/`fill_with`/`fill_with_weighted` calls of any
  types; both programs that stop at the first panic and programs that catch panics are covered.
* **rayon** (`Model/Parallel.lean`): one task per bin (that is what the code hands to rayon), each task a list of atomic
  steps on its own `&mut` value; a schedule is any interleaving; a panicking task stops. Work splitting and stealing are
  below this level.
* **serde** (`Model/Serde.lean`): the data model of a self-describing format (integers, floats, strings, unit, sequences,
  maps with keys in any order), derived impls with `flatten` and field names.
* **Display** (`Model/Display.lean`): the arithmetic and control flow of `fmt` with the text of numbers as a parameter
  (`Disp`), and a sink that may fail at any write.
* **Debug** (`Model/Debug.lean`): the derived impls, `{:?}` and `{:#?}`, as the relation "this object may print this text" (hash maps print in any order).

## 3. What is not modelled

* Memory layout, allocation failure (`vec![…; n]` with huge `n`, `"#".repeat(n)`), performance.
* The hash table inside `HashMap` and the hash function of `BuildHasher` (only the unspecified order, of which C81 shows that it cannot be observed; the derived `Hash` impls of the crate's types are modelled in
  `Model/Hash.lean`); a `Hash`/`Eq` implementation of a category type that violates its contract (the model uses `DecidableEq`, as `T: Eq + Hash` requires).
* How std prints numbers (what it prints is modelled: integers in decimal, `Props/LabelsInt.lean`, floats with `{}` and `{:.k}`, `Model/FloatText.lean`, both with `{:e}` and `{:E}`, `Model/FloatTextExp.lean`); the concrete text or byte formats of serde (JSON's lack of NaN, formats with numeric field keys,
  `i128` through `flatten`).
* rayon's own code (`ParallelIterator` impls are wrappers of rayon's own); its splitting is modelled as an arbitrary division of the items, for reductions (C80).
* User-written implementations of `Axis`, `Fill`, …, except through the generic theorems: most assume `LawfulAxis` of the axis, those of C102 assume nothing of it (any `index`, `bin`, `num_bins`, panics included).
* In all properties but C67 an iterator is the list it yields, and a panic in `bin` is a panic of the whole iteration. C67
  models the iterators as state machines and shows that collecting or looping over them gives these lists and panics.
  std's `Range`, `Map`, `Zip`, slice and map iterators are modelled, not verified; `DoubleEndedIterator` is not used (`dyn Iterator`).

## 4. Trusted base

* Lean 4.33.0's kernel; Mathlib as installed. Axioms `propext`, `Classical.choice`, `Quot.sound` and no others;
  `AXIOMS.md` lists them per theorem. No compiled evaluation: closed examples are checked by `decide` in the kernel.
* Faithfulness of the transcription: by reading, helped by the citations. Nothing was compiled or run. As a check on the reading, `lean/Verif/Conformance/*`
  transcribes the project's own unit tests and the examples of its documentation (`/repo/ndhistogram/tests`: axes of every kind, tuples, bin intervals, dense and sparse histograms, operators, bin
  values, the exact text of the display tests, `f32` and `f64` rounding cases) as closed statements about the model; the kernel accepts each with the result the
  project's test expects. They support the model, and prove no property. `tools/float_check.py` compares the model's `f64` and `f32` (`+ - * / %`, `sqrt`, comparison, the
  two casts to `usize`) with the machine's on random and special operands; 18000 pairs gave no difference. It evaluates the model with Lean's interpreter and no proof uses it.
* The documented contracts of std's `sort_by`, `binary_search_by`, `HashMap`; num-traits' `NumCast`/`ToPrimitive` for
  primitives (`to_usize` of a float truncates and fails when negative beyond −1, NaN or too large); IEEE-754 semantics of
  `+ - * / %`, comparison and casts of Rust floats; serde_derive's and rayon's behaviour as described above.

## 5. Properties

`P` proved, `~` partial. Every partial claim has either counterexamples proved about the code (the English claim is false of it)
or a stated missing case.

| | status | model | method, and what is missing |
|---|---|---|---|
| C01 | P | `Uniform` over `MInt` | integer division lemmas; every width, sign, profile |
| C02 | ~ | same | tiling proved while `(k+1)*num*step` is representable; otherwise `bin` panics or is wrong: `C02_bin_panics`, `C02_counterexample` |
| C03 | ~ | constructors over `MInt`, `Flt` | exact panic/accept characterisation; false for release overflow and for `with_step_size` with a step lost by rounding (counterexamples) |
| C04 | P | `Uniform*` over `Flt` | case analysis on float classes |
| C05 | P | same | monotonicity of rounding; relative error bound gives `index < num` |
| C06 | ~ | same | false in general (kernel-evaluated counterexamples on f64); proved up to rounding error for all axes, exactly for power-of-two widths |
| C07 | P | `UniformNoFlow`, any `RNum` | case analysis |
| C08 | P | `UniformCyclic` over `MInt` | modular arithmetic, for coordinates whose distance to low is representable (counterexample beyond) |
| C09 | ~ | `UniformCyclic` over `Flt` | float rounding makes the general claim false (counterexamples) |
| C10 | ~ | `Variable::new` over any comparison sort | adversary argument on decision trees; with NaN std's sort may panic instead of the documented error |
| C11, C13, C14 | P | `Variable`, `VariableNoFlow`, any correct binary search | sortedness |
| C12 | ~ | same, equal edges | false under the unspecified choice of match (counterexample); true for std ≥ 1.82 |
| C15 | ~ | `VariableCyclic` | as C08/C09 |
| C16–C18 | P | `Category*` with two maps | induction over the value list |
| C19 | P | `BinInterval`, `SingleValueBinInterval` | case analysis |
| C20–C22 | P | `AxesTuple`, any number of axes | mixed-radix induction |
| C23 | ~ | all axes | false for tuples, whose `bin` wraps modulo `num_bins` (`C23_tuple_bin_wraps`), and `bin(usize::MAX)` of no-flow axes |
| C24 | ~ | tuples | panics in checked builds; silent in release builds (counterexample) |
| C25 | P | trait default methods | lawfulness of every axis kind |
| C26–C28 | P | histograms over any axis | induction over histories: each bin is the fold of the calls in it |
| C29, C30 | P | same | permutation invariance; additive measures |
| C31, C32 | P | `HashHistogram` | simulation with the dense histogram for any history |
| C33–C36 | P | operator macros, every form | pointwise; C35: exact set of bins each sparse form computes; sparse `*`, `/` disagree (counterexamples) |
| C37, C38 | P | conversions, iterators, mutable access | |
| C39 | P | schedules | any interleaving of per-bin tasks equals the sequential loop |
| C40, C41 | P | value types over exact fields and checked integers | algebra |
| C42 | ~ | `WeightedMean` | exact arithmetic proved; with f64 variance may be negative (counterexample) |
| C43 | P | integer fills | exact characterisation, other bins untouched |
| C44 | ~ | `Display` over `F64` | bars bounded, no panic unless a bin prints as `-0`; negated histograms panic (counterexample) |
| C45 | P | `PartialEq` | observational equality |
| C46 | P | serde trees | round trip for every map order |
| C47 | P | float bins | rounding lemmas |
| C48 | ~ | `Default` | false for variable axes, tuples, dense histograms (counterexamples) |
| C49 | ~ | axis `Display` | false for `CategoryNoFlow` and default variable axes |
| C50 | ~ | derived `Deserialize` | field checks proved; nothing else is validated (counterexamples) |
| C51, C52 | P | everything together | end-to-end: bins hold exactly the data their interval contains; saturation at 2^53 |
| C53 | P | `PartialEq` of axes | congruence of every operation used by index/bin under `==` |
| C54 | P | merge trees run with dense and (as a relation over all orders and forms of +) sparse histograms | induction on the tree |
| C55 | P | operators and loops stopped by a panic | induction over the loop, split at the panic |
| C56 | P | all API calls | inductive reachability predicate, invariant |
| C57 | P | float bins: fill, merge | error invariant `Near` carried through every addition (relative error of one rounding), induction over the history or the plan |
| C58 | P | `WeightedSum`, `Mean`, `WeightedMean` over floats | the same for squares, products and quotients (with underflow term η) |
| C59 | P | integer axes and tuples in a build with overflow checks | case distinction on representability; right answer or overflow panic, no hypothesis left |
| C60 | P | derived comparison of every type (Model/Order), bins of an axis | combinators for lexicographic comparison and pull-back; induction over vectors and tuples; from C02/C13 the order of bins |
| C61 | P | tuples of axes, fills (no new model) | each covered call is counted in one cell and in the cell below it: induction over the calls, numbering of cells from C20/C21 |
| C62 | P | macros.rs: both macros, both arms | composition of C20/C21/C25/C26/C51/C59 from construction to iteration |
| C63 | P | all of the above, instantiated with two build configurations (`debugBuild`, `releaseBuild`) | a simulation relation (`Builds`, `BuildsUpd`, `TwinAxis`) shown to be preserved by every function, compositionally |
| C64 | P | fill implementations of all value types (`Upd`: state at the moment of the panic), caught histories | inductive specification `Stops` (SpecHalf.lean): how far a list of updates got; induction over histories |
| C65 | P | derived `Deserialize` on serde data trees | iff-characterisation against a declarative spec (SpecRead.lean) by case analysis on the tree |
| C66 | P | derived `Hash` as the sequence of hasher calls | contract closed under composition (product, tagged union, vector); instances for every type |
| C67 | P | iterators as state machines with `next` and `size_hint` | `Yields` predicate closed under map and zip; loops by induction over what is yielded |
| C68 | P | `Display` of dense and sparse histograms over IEEE doubles | scale characterised by IsScale (iff); case analysis of the two rounded operations; error bounds of rounding |
| C69 | P | integer axes and tuples in a build without overflow checks | arithmetic as residues modulo 2^bits; exact conditions for right answers by uniqueness of residues |
| C70 | P | labels of bins, texts of errors | texts as character lists; the first comma splits a label into its end points |
| C71 | P | programs over several histogram variables, run dense and sparse | simulation: related variables stay related through every statement |
| C72 | P | `Float::sqrt` as exact digit-by-digit root rounded once; the standard deviations of all values | nearest to the real root (SpecRoot), monotone, relative error `u`; composed with C58 for whole histograms; sign and NaN analysis of sums of squares; counterexample for `WeightedMean` |
| C73 | P | `Wrapping<T>`; fills of integers in both profiles | one abstraction (`AddsModulo`) for wrapping and unchecked integers, composed with C51/C33 for dense, sparse and merged histograms; checked: the exact total as a measure (`checked_exact`) up to the first panicking call |
| C74 | P | float fills, dense, sparse and merged | multiples of 2^e below 2^(e+p) are floats, so every addition is exact (`Flt.add_grid`), composed with C51/C33; counts: induction with the tie 2^p + 1 → 2^p (`FFmt.rs_limit`) |
| C75 | P | `Mean`, `WeightedMean` of integers with float output | the state of each bin is exact unless a fill panics (`mean_seq`, `callAll_none_iff`); the division is one correctly rounded operation on exact operands (`mean_exact`), the variance four |
| C76 | P | float `Uniform`, `UniformNoFlow`, `UniformCyclic`, `VariableCyclic` on the grid `2^e ℤ` | sums and products on the grid are exact (`FFmt.exact_grid`); the rounded quotient has the floor of the exact one (`FFmt.floor_rs_ratio`); then `FaithfulAxis`, so C51 and C74 apply |
| C77 | P | float `UniformCyclic`, `VariableCyclic` | error bound of `wrapAround` (three rounded operations) combined with C47 (edges and index within rounding) |
| C78 | P | float `Uniform` (both constructors), `UniformNoFlow`, `UniformCyclic`, `VariableCyclic`, tuples, both histograms | C06 within rounding, C47 and C77 give an axis faithful (`FaithfulAxis`) to some division of the coordinates between `inside` and `near`; the theorems about faithful axes then apply |
| C79 | P | float histograms, dense, sparse and merged; `WeightedSum`, `Mean` | an invariant of float sums (`SumOf`) kept by addition, so by folds and merge trees; C51 |
| C80 | P | `par_iter`, `par_values` with an arbitrary division of the items (`Split`) | induction over the division; the monoid law turns every division into the product of the list; C39 for the items, C30/C31 for the totals, `SumOf` (C79) and the grid argument (C74) for floats |
| C81 | P | programs over the sparse histograms of Model/Hist.lean; each iterating statement takes an arbitrary order of the map | simulation between two runs: loops over distinct keys commute |
| C82 | P | the axes, VecHistogram and HashHistogram as for C28, C51, C76 | the bin number on the coarse axis is a function of the fine bin number (Coarser.index_some); then the sum over fine bins of the calls counted in them is the sum over the calls counted in the coarse bin, by induction on the calls |
| C83 | P | No new model code: both axes of each pair are the models of C01-C15 | Coarser.of_bins: two axes that are faithful to their printed bins (C51, C76) and whose printed bins contain the same coordinates put every coordinate into the same bin; C83_dense/sparse from the filtered call list of a bin (C56) |
| C84 | P | No new model code | bins as sets of rational numbers (BinsAre), from C02/C51 for integers and C76 for floats; the affine map carries one set to the other; for Variable, the index is the number of edges not above the coordinate, which only depends on the order |
| C85 | P | No new model code | rounding commutes with multiplication by 2^k in the normal range, and for multiples of the smallest unit everywhere (Lemmas/FloatScale.lean), so sums and differences scale unconditionally; products and quotients under the stated conditions; parametricity of filling in the relation of the bin values |
| C86 | P | No new model code | bin-wise operators (C33, C36) with contents (C51); quotient of integers up to 2^p is never rounded to 0 or 1; rounded addition is monotone, so sublists give smaller sums |
| C87 | P | No new model code; HExpr (expressions of a client's program) in SpecArith.lean | induction over the expression with the bin-wise operators (C33, C35, C36); congruences modulo 2^bits (C73); rounding lemmas |
| C88 | P | Mean.new, WeightedMean.new, Sum.new, WeightedSum.new in Model/Fill.lean | the fold of fills is fillSeq (induction), and so is a history of calls on one coordinate (C27); then C41, C42, C75 |
| C89 | P | nothing new; the axes, fill, value_at_index and iter already modelled. Specification: SpecStats.lean (cumulative) | the content of each bin (C57/C86), exchanged with the sum over bins; an order argument for the bin passing k; C58/C59/C76/C77 for the axes |
| C90 | P | nothing new. Specification: SpecBatch.lean (StandsFor, oneByOne) | all calls at one coordinate are one update of one bin (induction), chains of additions of one sign stay between their ends; C40, C41, C42, C74 for the values |
| C91 | P | nothing new. Specification: SpecCheckpoint.lean (Job, RoundTripsForever, IndistVec, IndistHash) | invariant of the transition system (memory and file each indistinguishable from a prefix of the uninterrupted run); coinductive round trips of axes; C52, C54 for the counts |
| C92 | P | nothing new. Specification: SpecThreads.lean (Interleaving, Swappable) | interleavings are permutations, filters of interleavings are interleavings; permutation induction with pairwise swappable calls; the value types' calls are shown swappable; C52, C57, C73, C74 for the contents |
| C93 | P | Model/FloatText.lean, Model/FloatTextExp.lean (std's Display, LowerExp and UpperExp for floats, the latter two also for integers). Specification: SpecText.lean (reading a decimal) | decimals are read back digit by digit; the search for the shortest decimal is shown to find the largest exponent by monotonicity of rounding; labels are split at the comma; distances of edges from C47 |
| C94 | P | VecHistogram.callAll, opBorrow/opOwned/opAssign .sub, HashHistogram likewise. Specification: TakesBack (same coordinates, opposite weights) | bin by bin: the account of a bin is additive in the fills (integers, or residues without checks), so the difference of accounts is that of the fills between; fills taken back by induction on the fills of one bin |
| C95 | P | AxesTuple, AxesTuple1 and histograms as they are; AxTy is closed under both. Specification: SpecGroup.lean (Grouping: the ways to put parentheses; SameBins) | induction on the grouping: mixed-radix numbers may be grouped; the histogram level by simulation |
| C96 | P | Model/Debug.lean: core::fmt's debug_struct, debug_tuple, debug_list, debug_map, the Debug of integers, floats, strings, PhantomData, and what the derives of the crate call them with. Specification: SpecDebug.lean (DebugIdentifies, SameText) | texts are prefix-free up to the end of a number; cutting the text of a struct into those of its fields; floats by reading back |
| C97 | P | no new model code. Specification: SpecReorder.lean (IsOrder, Renumbered), SpecProject.lean (selectBin, select) | the mixed-radix bin number and C22/C25/C61 give the renumbering; then induction over the calls with C27 |
| C98 | P | no new model code. Specification: SpecWithin.lean (Within, TupWithin) | C07, C13, C14, C16 to C18 and C51 give the axes, the mixed-radix bin number with C20 to C22 the tuples; then induction over the calls with C27 |
| C99 | P | no new model code | exact running totals (C41, C42, C73), a lower bound 1/(2W) for non-zero variances of whole numbers, and an error analysis of the rounded formula (Lemmas/IntWMean.lean) |
| C100 | P | no new model code | edges continued without end in both directions; renumbering of the bins as a bijection; C83 and C51 |
| C101 | P | no new model code | bins as sets of numbers between edges; reversal of the bins as a bijection; C83 and C51 |
| C102 | P | no new model code: Axis is a class, as in the code | direct, from the effect of one call; induction over histories and over the iteration |
| C103 | P | no new model code; the user's loops are written as Lean functions over iter and calls | C78 for the axes, error bound for the centre from the rounding bounds of C47; C28 with one call per bin for the copies; induction over the items for value_mut |
| C104 | P | Model/Debug.lean (as C96). Specification: SpecLayout.lean (Prints, bracketed, structText, tupleText, shift, Nests), written without the model's styles and builders | moving the text of a struct, list, map or tuple to the right moves those of its components; each type from its components |
| C105 | P | Model/Fill.lean (Mean, WeightedMean), Model/Histogram.lean, Model/Float.lean. Specification: BetweenSamples, BinInterval.Holds (Props/Between.lean), samplesIn and Closest (as C75) | weighted averages with non-negative weights; the nearest float to a number between two floats is between them (C75); monotone rounding for two floats; C58 for more |
| C106 | P | Model/Fill.lean (Mean, WeightedMean, WeightedSum) over any ordered field | from C40, C41 and C42 and the algebra of weighted averages |
| C107 | P | Model/Hist.lean, Model/History.lean; programs in SpecProg.lean, the list of the panics that occur in SpecBlame.lean | induction over the program with the invariant that every histogram has one value per bin (dense) or keys within the bins (sparse); each loop blames its panic on a value |
| C108 | P | Model/Hist.lean, Model/History.lean; SpecStats.lean, SpecStability.lean | contents are sums over the calls counted in the bin (C28; for floats the exact sums of C74); triangle inequality; induction over the pairs of samples; quantiles by contradiction from the running totals |
| C109 | P | Model/Fill.lean, Model/Hist.lean, Model/History.lean | from the closed forms of C40-C42: Cauchy-Schwarz, Bhatia-Davis, Popoviciu and Chebyshev for lists; per bin by the sequence of calls in the bin |
| C110 | P | Model/Fill.lean, Model/Float.lean, Model/Hist.lean, Model/History.lean; SpecMore.lean | per bin a sequence of calls; induction over Mathlib's SublistForall2 with rounded addition and squaring monotone |
| C111 | P | Model/Hist.lean, Model/Float.lean, Model/Num.lean; SpecArith.lean, SpecGrow.lean | induction over the expression, from C87_binwise and C87_sparse; rounding is monotone |

## 6. Findings about the code

Each is a theorem about the model of the pinned commit.

1. Cyclic axes: unsigned coordinates below `low` panic or are misplaced (`C08_counterexample_unsigned`); float coordinates can be lost to a
   rounding of the wrap-around (`C09_counterexample_*`, `C15_counterexample_float`).
2. Integer `Uniform::bin` multiplies `k*(high-low)` before dividing by `num`, and overflows for axes whose `index` works (`C02_*`).
3. Float `Uniform`: the interval reported for a coordinate's bin may not contain it, by one rounding (`C06_counterexample`, `_gap`).
4. `Variable` with equal edges: result depends on the std version (`C12_counterexample`); all-equal `VariableCyclic` edges panic on
   every lookup (`C15_equal_edges_panic`).
5. Tuple `bin(i)` for `i ≥ num_bins` wraps instead of returning `None` (`C23_counterexample`); tuple `num_bins` overflow is silent in release
   (`C24_counterexample_release`).
6. Sparse `*` and `/`: `a*b`, `&a*&b` and `a*=b` differ when a bin is present on one side only (`C35_counterexample_mul`, `_div`).
7. `Display` of a histogram containing `-0.0` (e.g. a negated one) panics by capacity overflow (`C44_counterexample_negated`).
8. `Default`: `Variable` panics in `bin`, `VariableNoFlow::num_bins` underflows, default 2-tuples map distinct cells to one number, a default
   dense histogram ignores fills (`C48_counterexample_*`).
9. `CategoryNoFlow` prints an overflow bin it does not have (`C49_counterexample_category_noflow`).
10. Derived `Deserialize` accepts any number of values and any axis (`C50_counterexample_*`).
11. Float counters stop at 2^53 (`C52_count_float`); a `WeightedMean` of equal samples (even a single one) can have a slightly
    negative variance and a NaN standard deviation (`C42_counterexample_float`, `C72_counterexample_weighted_mean`); axes with NaN edges are unequal to themselves (`C45_counterexample_nan`).
12. A category named `overflow` prints like the overflow bin (`C70_counterexample_overflow_category`).
13. Quotients of dense integer histograms panic as soon as the divisor has one empty bin, flow bins included (`C86_int`); for floats such bins are NaN.
    The ratio of a part to a whole can exceed 1 if the two were filled in different orders (`C86_counterexample_order`).
14. A printed histogram shows bin ends with two decimals by default, so that bins narrower than 0.01 print alike (`C93_counterexample_precision`).
15. `num_dim` of a tuple that contains tuples counts the components of the outer tuple only, not the axes (`C95_counterexample_num_dim`).
16. The debug text of a sparse histogram or category axis may differ from run to run, and of floats it does not agree with `==` (`C96_counterexample_sparse_order`, `C96_counterexample_float_equal`).
17. The axes of a tuple are asked one after the other and the first one without a bin ends the search, so the order of the axes decides whether a coordinate on which a later axis would panic is ignored or panics (`C97_counterexample_panic`).
18. On a uniform float axis the start of a bin, as reported by `bin`, may be counted in the bin before it, so that copying a histogram bin by bin should use the centres (`C103_counterexample_start`, `C103_centre_uniform`).
19. Float `Mean`s: the variance is the difference of two large numbers when the samples are far from zero, and can be wrong by any factor (`C106_counterexample_float`: 2^54 in place of 1); the mean of equal samples can differ
    from the sample (`C105_counterexample_three`).

## 7. Testing the theorems

`tools/mutate.py` applies an edit to one model definition in a scratch copy of the project, rebuilds with errors tolerated, and reports
which theorems fail (directly, or because a lemma they use does). `seeded/LOG.jsonl` has one line per attempt. A mutant counts as
detected only if a theorem named in `MANIFEST.json` for a property whose English claim it breaks fails. Theorems that survived a
mutation they should not have were tightened; the log names them.
