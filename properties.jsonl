{"id": "C01", "title": "Uniform integer axis: every coordinate goes to the bin that covers it", "statement": "For an axis built by Uniform::with_step_size(num, low, step) on any integer type, index(c) never panics and returns Some(0) exactly when c < low, Some(num+1) exactly when c >= low+num*step, and otherwise the unique Some(k+1) with low+k*step <= c < low+(k+1)*step.", "quantifier": "every integer type (any width, signed or unsigned), every num/low/step accepted by the constructor for which num*step and low+num*step are representable (in a build with overflow checks the constructor panics otherwise, so this always holds), every coordinate of the type, both overflow profiles", "why_tests_cant": "the coordinate and parameter space is the whole integer type; off-by-one and sign errors live at single points of it", "anchors": ["ndhistogram/src/axis/uniform.rs: Uniform::with_step_size, Uniform::index"]}
{"id": "C02", "title": "Uniform integer axis: bins tile the range", "statement": "For the same axes bin(0) is the underflow below low, bin(num+1) the overflow from high, bin(k) for 1<=k<=num is [low+(k-1)*step, low+k*step), so consecutive bins share an edge and no gap or overlap exists; bin(i) is None for every i > num+1. No bin lookup of a representable edge should panic.", "quantifier": "every integer type, every accepted axis, every bin number", "why_tests_cant": "edge arithmetic uses an intermediate product that can overflow although the edge itself is representable: only some (num, step, width) triples show it", "anchors": ["ndhistogram/src/axis/uniform.rs: Uniform::bin"]}
{"id": "C03", "title": "Uniform constructors accept exactly the documented parameters", "statement": "Uniform::with_step_size returns InvalidNumberOfBins exactly when num is zero or not representable in the coordinate type, InvalidStepSize exactly when (num is valid and) step <= 0, and otherwise an axis with low < high = low+num*step; Uniform::new returns InvalidNumberOfBins exactly for num = 0, InvalidAxisRange exactly when low == high, and swaps reversed bounds.", "quantifier": "every num, low, high, step; every integer and floating-point type", "why_tests_cant": "the accept/reject boundary includes overflowing and non-representable parameters", "anchors": ["ndhistogram/src/axis/uniform.rs: Uniform::new, Uniform::with_step_size", "ndhistogram/src/error.rs: AxisError"]}
{"id": "C04", "title": "Uniform float axis: NaN and infinities", "statement": "On a Uniform floating-point axis with finite (or merely non-NaN) bounds, NaN maps to the overflow bin, +inf to overflow and -inf to underflow; on UniformNoFlow and UniformCyclic none of NaN, +inf, -inf maps to any bin.", "quantifier": "every float format, every axis accepted by Uniform::new with ordered bounds, every number of bins", "why_tests_cant": "tests sample one axis; the claim is about every axis, including those whose step underflows or whose range overflows", "anchors": ["ndhistogram/src/axis/uniform.rs: Uniform::index", "ndhistogram/src/axis/uniformnoflow.rs", "ndhistogram/src/axis/uniformcyclic.rs"]}
{"id": "C05", "title": "Uniform float axis: index is total, in range and monotone", "statement": "For every float coordinate index(c) returns Some(i) with i < num_bins(); i = 0 exactly when c < low; i = num+1 whenever c >= high; and index is monotone: c <= d implies index(c) <= index(d).", "quantifier": "every IEEE-754 binary format, every axis from Uniform::new or with_step_size with fewer than 2^(p-1) bins (for new: no narrower than the smallest normal number), every coordinate including subnormals, signed zeros and infinities", "why_tests_cant": "rounding errors of (c-low)/step appear only at isolated coordinates out of 2^64", "anchors": ["ndhistogram/src/axis/uniform.rs: Uniform::new, Uniform::index, Uniform::num_bins"]}
{"id": "C06", "title": "Uniform float axis: coordinate lies in the bin reported for it", "statement": "A finite coordinate in [low, high) is counted in the bin whose interval, as reported by bin(index(c)), contains it.", "quantifier": "every float coordinate and every Uniform float axis", "why_tests_cant": "the two formulas (index and bin) round independently, they disagree only for coordinates next to an edge", "anchors": ["ndhistogram/src/axis/uniform.rs: Uniform::index, Uniform::bin"]}
{"id": "C07", "title": "UniformNoFlow is Uniform without the flow bins", "statement": "UniformNoFlow::index(c) is Some(i) exactly when the Uniform axis with the same parameters gives Some(i+1) with 0 <= i < num, and None exactly when the coordinate goes to underflow or overflow; num_bins is num; bin(i) is Uniform's bin(i+1) for i < num and None otherwise.", "quantifier": "every numeric type, every axis, every coordinate and bin number", "why_tests_cant": "quantifies over all coordinates and all axes", "anchors": ["ndhistogram/src/axis/uniformnoflow.rs"]}
{"id": "C08", "title": "UniformCyclic integer axis wraps around", "statement": "On a UniformCyclic axis over integers, every coordinate maps to a bin, the bin is the one of the unique representative of c in [low, high) modulo high-low, and adding or subtracting any whole number of turns does not change the bin.", "quantifier": "every integer type, every accepted axis whose range is representable (always the case with overflow checks), every coordinate whose difference to low is representable (for unsigned types: c >= low), every number of turns", "why_tests_cant": "periodicity is a statement about infinitely many pairs of coordinates; failures sit at extreme or (for unsigned types) below-low coordinates", "anchors": ["ndhistogram/src/axis/uniformcyclic.rs: UniformCyclic::index"]}
{"id": "C09", "title": "UniformCyclic float axis: finite coordinates always land in a bin", "statement": "On a UniformCyclic floating-point axis every finite coordinate maps to some bin (only NaN and infinities map to none), and a coordinate already inside [low, high) maps to the same bin as on UniformNoFlow.", "quantifier": "every float axis and every finite coordinate", "why_tests_cant": "fails only for coordinates that round onto the upper edge after wrapping", "anchors": ["ndhistogram/src/axis/uniformcyclic.rs: UniformCyclic::index"]}
{"id": "C10", "title": "Variable::new validates and sorts its edges", "statement": "Variable::new returns InvalidNumberOfBinEdges exactly for fewer than two edges, otherwise FailedToSortBinEdges whenever an edge is NaN (incomparable), otherwise an axis whose edges are the given edges in non-decreasing order; the order in which the edges are passed is irrelevant.", "quantifier": "every list of edges of any partially ordered type, every correct comparison sort", "why_tests_cant": "depends on the sort asking about every element; must hold for every permutation and for any sort algorithm std may ship", "anchors": ["ndhistogram/src/axis/variable.rs: Variable::new"]}
{"id": "C11", "title": "Variable axis: every coordinate goes to the bin that covers it", "statement": "On a Variable axis with edges e_0 < ... < e_n, index(c) is Some(0) exactly when c < e_0, Some(n+1) exactly when c >= e_n or c is NaN, otherwise Some(k+1) with e_k <= c < e_(k+1).", "quantifier": "every strictly increasing edge list, every coordinate, every binary search satisfying std's contract (both std algorithms included)", "why_tests_cant": "binary search boundaries: every length and every position", "anchors": ["ndhistogram/src/axis/variable.rs: Variable::index"]}
{"id": "C12", "title": "Variable axis with repeated edges still puts each coordinate in a covering bin", "statement": "If some edges coincide, a coordinate is still counted in a bin whose interval contains it (zero-width bins stay empty).", "quantifier": "every non-decreasing edge list, every coordinate", "why_tests_cant": "std leaves the choice among equal elements open, so it depends on list length and position", "anchors": ["ndhistogram/src/axis/variable.rs: Variable::index, Variable::bin"]}
{"id": "C13", "title": "Variable axis: bins tile the range", "statement": "bin(0) is underflow below the first edge, bin(k) is [e_(k-1), e_k), bin(n+1) is overflow from the last edge, bin(i) is None beyond; num_bins is the number of edges plus one; no lookup panics.", "quantifier": "every edge list accepted by the constructor, every bin number", "why_tests_cant": "all lengths and all indices", "anchors": ["ndhistogram/src/axis/variable.rs: Variable::bin, Variable::num_bins, Variable::low, Variable::high"]}
{"id": "C14", "title": "VariableNoFlow is Variable without the flow bins", "statement": "VariableNoFlow::index is Some(i) exactly when Variable gives Some(i+1) strictly between the flow bins, None for coordinates outside [e_0, e_n) and for NaN; num_bins is the number of edges minus one; bin(i) is [e_i, e_(i+1)) for i < num_bins and None beyond.", "quantifier": "every edge list, coordinate, bin number", "why_tests_cant": "quantifies over all coordinates and axes", "anchors": ["ndhistogram/src/axis/variablenoflow.rs"]}
{"id": "C15", "title": "VariableCyclic wraps around", "statement": "On a VariableCyclic integer axis with first edge < last edge every coordinate maps to the bin containing its representative modulo the range, and whole turns do not change the bin; float NaN and infinities map to no bin.", "quantifier": "every strictly increasing edge list, coordinate, number of turns", "why_tests_cant": "periodicity over all coordinates; panics only for degenerate or extreme inputs", "anchors": ["ndhistogram/src/axis/variablecyclic.rs"]}
{"id": "C16", "title": "Category axis: index and bin are inverse", "statement": "For distinct categories v_0..v_(n-1), Category::index(v_i) = Some(i), bin(i) = Bin(v_i), every other value goes to the single overflow bin n, bin(n) = Overflow, bin beyond is None, num_bins = n+1; index never returns None.", "quantifier": "every list of categories of any hashable type, every queried value", "why_tests_cant": "all lists and all values", "anchors": ["ndhistogram/src/axis/category.rs"]}
{"id": "C17", "title": "Category axis with repeated categories", "statement": "If a category is listed more than once, coordinates equal to it are still all counted in one bin and that bin reports exactly that category; every index stays in range.", "quantifier": "every list of categories, with arbitrary repetitions", "why_tests_cant": "the two internal maps could disagree for particular repetition patterns", "anchors": ["ndhistogram/src/axis/category.rs: Category::insert, Category::index, Category::bin"]}
{"id": "C18", "title": "CategoryNoFlow drops unknown values", "statement": "CategoryNoFlow::index(v) is Some exactly for listed categories and agrees with Category; unknown values give None; num_bins = number of listed categories; bin(i) is None exactly for i >= num_bins.", "quantifier": "every list of categories, every value, every index", "why_tests_cant": "all lists and all values (including the empty list)", "anchors": ["ndhistogram/src/axis/categorynoflow.rs"]}
{"id": "C19", "title": "BinInterval accessors and conversions", "statement": "start()/end() return the finite end points, conversions Range/RangeTo/RangeFrom -> BinInterval -> same range kind are lossless, and conversion into a range kind succeeds exactly for the matching variant, so the three attempts never succeed together.", "quantifier": "every interval over every type", "why_tests_cant": "all values of a generic type", "anchors": ["ndhistogram/src/axis/bininterval/bininterval.rs", "ndhistogram/src/axis/bininterval/singlevaluebininterval.rs"]}
{"id": "C20", "title": "Multi-dimensional index is an injective in-range numbering", "statement": "For any number of dimensions, the bin number of a tuple is i_0 + n_0*i_1 + n_0*n_1*i_2 + ..., it is below num_bins = n_0*n_1*..., and two tuples of per-axis bins get the same number only if they agree on every axis.", "quantifier": "every dimension count, every per-axis bin count whose product fits usize, every coordinate", "why_tests_cant": "collisions would only show for particular axis-size combinations; tests use a few sizes", "anchors": ["ndhistogram/src/axes.rs: AxesTuple::from, AxesTuple::index, AxesTuple::num_bins"]}
{"id": "C21", "title": "Multi-dimensional bin inverts index", "statement": "bin(index(c)) is the tuple of the per-axis bins of c, and every bin number below num_bins is the number of exactly one tuple of per-axis bin numbers; iterating the axes yields the bins with the first axis varying fastest.", "quantifier": "every dimension count, every axis, every bin number", "why_tests_cant": "all shapes", "anchors": ["ndhistogram/src/axes.rs: AxesTuple::bin"]}
{"id": "C22", "title": "Multi-dimensional coordinate is covered iff each axis covers it", "statement": "index of a tuple is None exactly when at least one axis has no bin for its component.", "quantifier": "every dimension count, every tuple", "why_tests_cant": "all combinations of covered/uncovered components", "anchors": ["ndhistogram/src/axes.rs: AxesTuple::index"]}
{"id": "C23", "title": "bin() of an out-of-range bin number is None", "statement": "As documented on Axis::bin, bin(i) is None for every i >= num_bins, for single axes and for tuples of axes alike.", "quantifier": "every axis type, tuple, and bin number", "why_tests_cant": "only out-of-range numbers on multi-dimensional axes are affected; tests never ask for them", "anchors": ["ndhistogram/src/axis/mod.rs: Axis::bin", "ndhistogram/src/axes.rs: AxesTuple::bin"]}
{"id": "C24", "title": "Number of bins overflow is not silent", "statement": "If the product of the per-axis bin counts does not fit in usize, constructing the axes does not silently succeed with colliding bins.", "quantifier": "every dimension count and bin counts, both overflow profiles", "why_tests_cant": "needs more bins than a test can allocate, and a build profile tests do not use", "anchors": ["ndhistogram/src/axes.rs: AxesTuple::from"]}
{"id": "C25", "title": "Axis iteration visits each bin once, in order", "statement": "indices() is 0,1,...,num_bins-1; iter() pairs each of them with its bin(); bins() lists the same bins; none of them panics on an axis built by the library, except on integer Uniform axes whose num*num*step overflows (see C02, C59) and on float Uniform axes too fine for their format (see C05).", "quantifier": "every axis type and every axis", "why_tests_cant": "all axes, including degenerate ones", "anchors": ["ndhistogram/src/axis/mod.rs: Axis::indices, Axis::iter, Axis::bins"]}
{"id": "C26", "title": "A new dense histogram holds num_bins default values", "statement": "VecHistogram::new gives every bin the default value; value(c) is Some exactly when the axes cover c, value_at_index(i) exactly when i < num_bins, and they agree.", "quantifier": "every axis, coordinate and index", "why_tests_cant": "all axes and coordinates", "anchors": ["ndhistogram/src/histogram/vechistogram.rs: VecHistogram::new, value, value_at_index", "ndhistogram/src/macros.rs: ndhistogram"]}
{"id": "C27", "title": "A fill touches exactly one bin", "statement": "fill/fill_with/fill_with_weighted at c changes the value of the bin containing c by exactly one fill and leaves every other bin, the axes and the number of bins unchanged; if the axes do not cover c nothing changes at all; a panic inside the value's fill leaves all other bins intact.", "quantifier": "every reachable histogram, every coordinate, every value type and datum", "why_tests_cant": "frame conditions quantify over all other bins", "anchors": ["ndhistogram/src/histogram/histogram.rs: Histogram::fill, fill_with, fill_with_weighted", "ndhistogram/src/histogram/hashhistogram.rs: fill, fill_with, fill_with_weighted"]}
{"id": "C28", "title": "A histogram is determined by its fill history", "statement": "After any sequence of fills, the value of each bin is the default value filled, in order, with exactly the data whose coordinate lies in that bin.", "quantifier": "every axis, value type and every finite history of fills", "why_tests_cant": "unbounded histories", "anchors": ["ndhistogram/src/histogram/histogram.rs", "ndhistogram/src/histogram/vechistogram.rs"]}
{"id": "C29", "title": "Order of fills is irrelevant for commutative values", "statement": "If filling a value commutes (sums, weighted sums, means over exact arithmetic), any permutation of the fill history gives the same histogram.", "quantifier": "every history and every permutation of it", "why_tests_cant": "factorially many permutations", "anchors": ["ndhistogram/src/histogram/histogram.rs", "ndhistogram/src/histogram/fill.rs"]}
{"id": "C30", "title": "Conservation of entries", "statement": "The sum of all bin values equals the sum of the weights of the fills whose coordinate is covered by the axes (all fills, if every axis has flow bins): no entry is lost or double counted.", "quantifier": "every history, every axis, exact value types", "why_tests_cant": "unbounded histories", "anchors": ["ndhistogram/src/histogram/histogram.rs", "ndhistogram/src/histogram/vechistogram.rs", "ndhistogram/src/axes.rs"]}
{"id": "C31", "title": "Sparse histogram behaves like the dense one", "statement": "After the same history, HashHistogram::value(c) is Some(v) exactly for bins that were filled at least once, with the value v the dense histogram has, and None for bins never filled (where the dense histogram has the default). A program of fills that nothing protects against panics ends or panics on both in the same way, with the same contents.", "quantifier": "every axis with in-range indices, value type and history", "why_tests_cant": "unbounded histories on two implementations", "anchors": ["ndhistogram/src/histogram/hashhistogram.rs", "ndhistogram/src/histogram/vechistogram.rs"]}
{"id": "C32", "title": "Sparse histogram stores only filled, valid bins", "statement": "The backing map of a HashHistogram has one entry per distinct bin filled, every key is a valid bin number, and iteration (in whatever order the hash map yields, for any hasher) visits each filled bin exactly once and never panics.", "quantifier": "every history, every iteration order", "why_tests_cant": "hash iteration order is unspecified", "anchors": ["ndhistogram/src/histogram/hashhistogram.rs: iter, iter_mut, values, from_map"]}
{"id": "C33", "title": "Merging histograms equals filling one histogram with both data sets", "statement": "For sum-like values, h1 + h2 (dense or sparse) equals the histogram obtained by filling the data of h1 and then of h2, for every pair of histories on equal axes; every arithmetic operator acts bin by bin.", "quantifier": "every pair of histories, every axis, all of + - * /", "why_tests_cant": "unbounded histories", "anchors": ["ndhistogram/src/histogram/vechistogram.rs: impl_binary_op_*", "ndhistogram/src/histogram/hashhistogram.rs: impl_binary_op_*"]}
{"id": "C34", "title": "Binary operations fail exactly on incompatible axes", "statement": "&h1 op &h2 and h1 op &h2 return BinaryOperationError exactly when the axes differ; h1 op= &h2 panics exactly then (for non-panicking value operations), and then leaves h1 unchanged.", "quantifier": "every pair of histograms", "why_tests_cant": "all pairs of axes", "anchors": ["ndhistogram/src/histogram/vechistogram.rs", "ndhistogram/src/histogram/hashhistogram.rs"]}
{"id": "C35", "title": "When the three forms of a binary operation agree", "statement": "For dense histograms &h1 op &h2, h1 op &h2 and h1 op= &h2 produce the same histogram or panic alike, for each of + - * /. For sparse ones h1 op &h2 and h1 op= &h2 agree always; &h1 op &h2 operates on every bin that either has, the other forms only on the bins that h2 has (a missing value counting as the default), each panicking exactly if one of these operations does; the results differ in exactly those bins that only h1 has and whose value v does not satisfy v op default == v. So + and - of integers agree in all forms, while * and / do not (a*b keeps what &a*&b multiplies by zero).", "quantifier": "every pair of histograms with equal axes, every operator", "why_tests_cant": "the forms are separate implementations that differ only when a bin is filled on one side", "anchors": ["ndhistogram/src/histogram/vechistogram.rs: impl_binary_op_with_immutable_borrow, impl_binary_op_with_owned, impl_binary_op_assign", "ndhistogram/src/histogram/hashhistogram.rs: same"]}
{"id": "C36", "title": "Scalar operations act on every bin", "statement": "&h op &x (dense histograms) keeps the axes and number of bins and applies op with x to every bin value.", "quantifier": "every histogram and scalar", "why_tests_cant": "all sizes", "anchors": ["ndhistogram/src/histogram/vechistogram.rs: impl_binary_op_with_scalar"]}
{"id": "C37", "title": "Conversions to and from containers are lossless and validated", "statement": "from_vec succeeds exactly when the number of values equals num_bins and then Vec::from gives the values back; from_map succeeds exactly when all keys are valid bin numbers and then the map comes back; as_vec/as_slice/as_map expose the same data as value_at_index.", "quantifier": "every axis and container", "why_tests_cant": "all sizes and key sets", "anchors": ["ndhistogram/src/histogram/vechistogram.rs: from_vec, as_vec, as_slice, From", "ndhistogram/src/histogram/hashhistogram.rs: from_map, as_map, From"]}
{"id": "C38", "title": "Iteration over a histogram is faithful", "statement": "iter() on a dense histogram yields, in increasing order, every bin number with its bin interval and current value; values() yields the same values; writing through iter_mut()/values_mut()/value_mut()/value_at_index_mut() changes exactly the addressed bins.", "quantifier": "every histogram on axes whose bin() is defined on all valid numbers", "why_tests_cant": "all sizes", "anchors": ["ndhistogram/src/histogram/vechistogram.rs: iter, iter_mut, values, values_mut", "ndhistogram/src/histogram/histogram.rs: value_mut"]}
{"id": "C39", "title": "Parallel iteration is schedule independent", "statement": "Mutating every bin through par_iter_mut/par_values_mut, with the work split and ordered in any way among threads, gives the same histogram as the sequential iterator; par_iter/par_values visit the same items.", "quantifier": "every schedule (every order and split of the per-bin tasks), every histogram, every per-bin function", "why_tests_cant": "schedules are not controllable by tests", "anchors": ["ndhistogram/src/histogram/vechistogram.rs: par_values, par_values_mut, par_iter, par_iter_mut", "ndhistogram/src/histogram/hashhistogram.rs: same"]}
{"id": "C40", "title": "Sum and WeightedSum accumulate correctly", "statement": "After filling with weights w_1..w_n, Sum::get is the sum of the w_i (n for unit fills) and equals its variance; WeightedSum::get is the sum of w_i and WeightedSum::variance the sum of w_i^2; the variance is never negative.", "quantifier": "every list of weights in exact arithmetic", "why_tests_cant": "unbounded histories", "anchors": ["ndhistogram/src/value/sum.rs", "ndhistogram/src/value/weightedsum.rs", "ndhistogram/src/histogram/fill.rs"]}
{"id": "C41", "title": "Mean computes mean, variance and errors", "statement": "After n >= 1 samples, Mean::get is their arithmetic mean, num_samples is n, variance_of_samples the mean squared deviation from the mean, variance_of_mean that divided by n; all are independent of sample order and variances are non-negative.", "quantifier": "every non-empty list of samples in exact arithmetic", "why_tests_cant": "unbounded histories", "anchors": ["ndhistogram/src/value/mean.rs"]}
{"id": "C42", "title": "WeightedMean computes weighted mean, variance and errors", "statement": "For samples (x_i, w_i) with non-zero total weight, WeightedMean::get is sum(w x)/sum(w), variance_of_samples is sum(w (x-mu)^2)/sum(w), variance_of_mean is that times sum(w^2)/sum(w)^2; with unit weights it agrees with Mean; with non-negative weights the variance is non-negative, hence the standard deviation is a number.", "quantifier": "every list of weighted samples", "why_tests_cant": "unbounded histories; rounding makes the computed variance negative only for particular floats", "anchors": ["ndhistogram/src/value/weightedmean.rs"]}
{"id": "C43", "title": "Integer bin values overflow loudly or wrap, never corrupt other bins", "statement": "Filling an integer-valued histogram past the maximum of the type panics in a checked build and wraps modulo 2^bits in a release build; other bins are untouched in both cases.", "quantifier": "every integer type, every history", "why_tests_cant": "needs 2^bits fills or extreme weights in every bin", "anchors": ["ndhistogram/src/histogram/fill.rs: Fill, FillWith blanket impls"]}
{"id": "C44", "title": "Histogram Display is bounded", "statement": "Printing a dense histogram shows a header and one row per bin for at most the first 50 bins, each bar having at most 50 marks, and does not panic.", "quantifier": "every dense histogram with f64-convertible values, including zero, negative, NaN and infinite values", "why_tests_cant": "bar lengths depend on ratios of arbitrary floats", "anchors": ["ndhistogram/src/histogram/vechistogram.rs: Display for VecHistogram"]}
{"id": "C45", "title": "Equality of histograms is observational", "statement": "Two sparse histograms are equal exactly when their axes are equal and they hold equal values for the same bins, regardless of fill order or hash iteration order; for dense histograms exactly when axes and all bin values agree.", "quantifier": "every pair of histories", "why_tests_cant": "iteration order is unspecified", "anchors": ["ndhistogram/src/histogram/hashhistogram.rs: PartialEq", "ndhistogram/src/histogram/vechistogram.rs: derive(PartialEq)"]}
{"id": "C46", "title": "Serialization round trip", "statement": "Deserializing the serialized form of any axis, bin value or histogram yields an equal object (data-model level: field names and structure, not the JSON text).", "quantifier": "every axis, value and histogram", "why_tests_cant": "all values of all types", "anchors": ["ndhistogram/src/axis/uniform.rs: serde derive", "ndhistogram/src/axis/uniformcyclic.rs: serde(flatten)", "ndhistogram/src/histogram/vechistogram.rs", "ndhistogram/src/histogram/hashhistogram.rs"]}
{"id": "C47", "title": "Uniform float axis: bins are ordered and adjacent", "statement": "On a float axis from Uniform::new, bin(0) is the underflow below low, bin(num+1) the overflow from high, bin(i) beyond is None, and the inner bins are [e_0,e_1), [e_1,e_2), ... with finite, non-decreasing edges, consecutive bins sharing the very same edge, e_0 == low and every edge within a few rounding errors of low + i*(high-low)/num.", "quantifier": "every IEEE-754 binary format, every finite axis with fewer than 2^(p-1) bins, none narrower than the smallest normal number and num*(|low|+|high|) not overflowing, every bin number", "why_tests_cant": "edges are recomputed from rounded products and quotients for every bin", "anchors": ["ndhistogram/src/axis/uniform.rs: Uniform::bin"]}
{"id": "C48", "title": "Default axes and histograms are usable", "statement": "The Default of every axis type is a valid axis: num_bins does not panic, every bin number returned by index is below num_bins and has a bin; Default tuples tell bins apart like tuples built from the same axes; a Default histogram equals a new histogram on the Default axes.", "quantifier": "every axis type, coordinate and sequence of fills", "why_tests_cant": "all coordinates and histories; Default impls are derived and never exercised", "anchors": ["ndhistogram/src/axis/uniform.rs: derive(Default)", "ndhistogram/src/axis/variable.rs: derive(Default)", "ndhistogram/src/axes.rs: AxesTuple derive(Default)", "ndhistogram/src/histogram/vechistogram.rs: derive(Default)"]}
{"id": "C49", "title": "Axis Display shows the axis", "statement": "Printing an axis obtained from a constructor does not panic and shows the number of bins (without flow bins) and the range; a category axis shows its first ten bins and no bin it does not have.", "quantifier": "every axis of every type", "why_tests_cant": "all bin counts and category lists", "anchors": ["ndhistogram/src/axis/uniform.rs: Display", "ndhistogram/src/axis/variable.rs: Display", "ndhistogram/src/axis/category.rs: Display", "ndhistogram/src/axis/categorynoflow.rs: Display"]}
{"id": "C50", "title": "Deserialization only yields consistent objects", "statement": "Reading a histogram or axis either fails or yields an object that a constructor and fills could have produced: as many values as bins, bin numbers in range, a positive number of bins, sorted edges.", "quantifier": "every serialized tree, including hand-written and corrupted ones", "why_tests_cant": "arbitrary input data", "anchors": ["ndhistogram/src/histogram/vechistogram.rs: derive(Deserialize)", "ndhistogram/src/axis/uniform.rs: derive(Deserialize)", "ndhistogram/src/axis/variable.rs: derive(Deserialize)", "ndhistogram/src/axes.rs: derive(Deserialize)"]}
{"id": "C51", "title": "A bin counts exactly the fills its interval contains", "statement": "After any sequence of fill/fill_with calls, iterating the histogram (dense or sparse) gives bins whose value is the result of exactly those calls whose coordinate lies in the interval the bin reports (for several axes: component by component; for cyclic axes: after whole turns), in call order; value(c) is the value of the bin containing c, or None if there is none.", "quantifier": "every history, every tuple of any number of uniform integer, uniform float (power-of-two bin width), variable, category and integer cyclic axes, with and without flow bins; coordinates other than NaN", "why_tests_cant": "connects index(), bin(), fill and iter for all axes and histories at once", "anchors": ["ndhistogram/src/histogram/vechistogram.rs: fill, iter, value", "ndhistogram/src/histogram/hashhistogram.rs: fill, iter", "ndhistogram/src/axes.rs: index, bin"]}
{"id": "C52", "title": "Counting is exact until the counter saturates", "statement": "After filling n coordinates into a histogram of integers (n at most the maximum of the type), no call panicked and each bin holds the number of coordinates its interval contains; with floating point counters each bin holds min(count, 2^p) where p is the precision (2^53 for f64).", "quantifier": "every integer and float counter type, every list of coordinates, every faithful axis", "why_tests_cant": "needs 2^53 fills", "anchors": ["ndhistogram/src/histogram/fill.rs: Fill", "ndhistogram/src/histogram/vechistogram.rs: fill, iter"]}
{"id": "C53", "title": "Equal axes and histograms cannot be told apart", "statement": "If two axes compare equal (==), they have the same number of bins, give every coordinate the same bin number (or both None, or both panic), and report equal bins for every bin number; if two histograms compare equal they have equal axes and equal values at every coordinate. In consequence a binary operation on two histograms with equal axes combines, for every coordinate, the values the operands hold at that coordinate.", "quantifier": "every pair of axes of every type (integer and float edges, including -0.0 and +0.0), tuples of any number of axes, dense and sparse histograms, every coordinate and bin number", "why_tests_cant": "equality of float edges is not identity of their bits; all coordinates and bin numbers", "anchors": ["ndhistogram/src/axis/uniform.rs: derive(PartialEq)", "ndhistogram/src/axis/variable.rs: derive(PartialEq)", "ndhistogram/src/axis/category.rs: derive(PartialEq)", "ndhistogram/src/axes.rs: derive(PartialEq)", "ndhistogram/src/histogram/vechistogram.rs: Add"]}
{"id": "C54", "title": "Filling in parts and merging equals filling sequentially", "statement": "Split a data set into any number of shares, fill each share into a fresh histogram and add the histograms with + in any grouping and order: the result is the histogram obtained by filling everything sequentially, in any order. When counting with integers and the number of entries fits the counter type nothing panics, and each bin holds the number of coordinates its interval contains.", "quantifier": "every binary merge tree of any shape, every split and order of the data, every axis, dense and sparse histograms of values that add exactly (integers of any type); for sparse ones every form of addition (&a + &b, a + &b, a += &b) and every iteration order of the hash maps", "why_tests_cant": "all splits, merge trees and orders", "anchors": ["ndhistogram/src/histogram/vechistogram.rs: Add, fill, fill_with", "ndhistogram/src/histogram/hashhistogram.rs: Add, AddAssign, fill, fill_with"]}
{"id": "C55", "title": "A panic in the middle of an operation leaves a well-formed histogram", "statement": "If a value operation panics during h1 op= &h2 (or a closure during values_mut), the left histogram is still usable: same axes, valid bin numbers, the bins visited before the panic hold the result, the bin that panicked and all others hold their old value; the only other trace is that a sparse histogram may have gained one bin holding the default value.", "quantifier": "every pair of histograms, operator, value type, iteration order and panic point; dense and sparse", "why_tests_cant": "all crash points and all hash orders", "anchors": ["ndhistogram/src/histogram/vechistogram.rs: impl_binary_op_assign", "ndhistogram/src/histogram/hashhistogram.rs: impl_binary_op_assign, values_mut"]}
{"id": "C56", "title": "Every histogram obtained through the API is well formed", "statement": "Start from new, from_vec or from_map and make any calls in any order: fills, value_mut, value_at_index_mut, values_mut, iter_mut and their parallel forms with arbitrary closures and schedules, all operators in all forms, with panics caught at any point. The histogram always has the axes it was created with; a dense one has exactly one value for each bin, a sparse one only bins below num_bins; iteration never panics and visits each (stored) bin exactly once.", "quantifier": "every program over the API, every lawful axis, every value type and closure, every schedule and hash order", "why_tests_cant": "unbounded programs, schedules and crash points", "anchors": ["ndhistogram/src/histogram/vechistogram.rs", "ndhistogram/src/histogram/hashhistogram.rs", "ndhistogram/src/histogram/histogram.rs"]}
{"id": "C57", "title": "Rounding errors of float bins are bounded", "statement": "Filling a histogram with f32 or f64 bins with finite weights whose absolute values add up to a number in range never panics, leaves every bin finite, and each bin differs from the exact sum of its weights by at most ((1+u)^(k-1) - 1) times the sum of their absolute values, k being the number of entries of the bin and u the unit roundoff (2^-53 for f64). The same holds for sparse histograms, and for data filled in parts and merged, with the depth of the additions instead of k. With non-negative weights no bin ever gets smaller, negative or NaN.", "quantifier": "every axis, every sequence of weights of any length, every merge plan, every bin, every float format", "why_tests_cant": "Tests compare a few sums with a tolerance; the bound must hold for every sequence of roundings.", "anchors": ["ndhistogram/src/histogram/fill.rs: Fill, FillWith", "ndhistogram/src/histogram/vechistogram.rs: fill_with, Add", "ndhistogram/src/histogram/hashhistogram.rs: fill_with"]}
{"id": "C58", "title": "Rounding errors of weighted sums and means are bounded", "statement": "WeightedSum, Mean and WeightedMean over floats: for finite inputs in range nothing panics, and the sum, the sum of squared weights, the mean, the variance of the samples and of the mean, and (with non-negative weights) the weighted mean and its variances are finite and differ from their exact values by explicit bounds that grow like k*u, relative to the sum of absolute values, the sum of squares, or the square of the largest sample.", "quantifier": "every sequence of finite samples and weights of any length within the range conditions, every float format and count type", "why_tests_cant": "The error depends on the whole sequence of roundings; tests use tolerances on a few samples.", "anchors": ["ndhistogram/src/value/weightedsum.rs: fill_with, variance", "ndhistogram/src/value/mean.rs: fill_with, mean, variance_of_samples, variance_of_mean", "ndhistogram/src/value/weightedmean.rs: fill_with_weighted, mean, variance_of_samples, variance_of_mean"]}
{"id": "C59", "title": "With overflow checks, integer axes and tuples are right or panic", "statement": "In a build with overflow checks nothing about an integer axis is silently wrong: with_step_size on any arguments returns the documented error, or the exact axis, or panics because num*step or low+num*step overflows; bin returns exactly [low+k*step, low+(k+1)*step) or panics because (k+1)*num*step overflows; index on a cyclic axis returns the bin containing the coordinate moved by whole turns or panics because c-low (or high-low) overflows; combining axes gives exactly the product of the bin counts or panics because the product overflows usize. The overflow conditions are exact.", "quantifier": "every integer type and width, all arguments, coordinates and bin numbers, every combination of axes; no representability assumption", "why_tests_cant": "The interesting arguments are those at the edge of each type's range; the claim covers all arguments and types.", "anchors": ["ndhistogram/src/axis/uniform.rs: with_step_size, bin", "ndhistogram/src/axis/uniformcyclic.rs: index", "ndhistogram/src/axis/variablecyclic.rs: index", "ndhistogram/src/axes.rs: From"]}
{"id": "C60", "title": "Comparing bins, axes, values and histograms is a consistent order", "statement": "The comparison operators of bin intervals, axes, tuples of axes, bin values, iteration items and dense histograms are consistent: a == b exactly if a <= b and b <= a, a < b exactly if b > a, < is transitive, and equal things compare alike with everything else, also when float edges or values are NaN or signed zeros; over integers any two bins are comparable and only identical ones are equal. On an axis the bins between edges increase with the bin number (on a float uniform axis: past every bin that rounding has not left with zero width) and the underflow bin is below all others; the overflow bin compares below every bin between edges, or every category, although it is the last bin. WeightedSum compares by the sum and then the variance, Mean by the sum of the samples (not the mean), dense histograms with equal axes by the first bin that differs.", "quantifier": "every type of the crate that derives PartialOrd over every integer and float type, any nesting of tuples and histograms, every axis and pair of bins", "why_tests_cant": "the laws range over all triples of values, including NaN, and over all axes", "anchors": ["ndhistogram/src/axis/bininterval/bininterval.rs: derive(PartialOrd)", "ndhistogram/src/axis/uniform.rs: derive(PartialOrd)", "ndhistogram/src/axis/variable.rs: derive(PartialOrd)", "ndhistogram/src/axes.rs: derive(PartialOrd)", "ndhistogram/src/histogram/vechistogram.rs: derive(PartialOrd)", "ndhistogram/src/histogram/histogram.rs: Item"]}
{"id": "C61", "title": "Projections of a multi-dimensional histogram agree with lower-dimensional ones", "statement": "Fill an N-dimensional histogram, and another histogram of any selection of its axes in any order (one axis, several, or all of them permuted) with the corresponding components of the coordinates that lie in some bin. Then each bin of the second holds the total of the bins of the first that lie over it (same position along each selected axis, and the same intervals), for every quantity additive over fills: counts, sums of weights, sums of squared weights. In particular the histogram with its axes exchanged is the transposed histogram.", "quantifier": "every number of axes, every axis type, every selection and order of axes, every sequence of fills, dense and sparse histograms, integer counts of any type and exact weighted sums", "why_tests_cant": "all numbers of dimensions, selections and fill sequences; off-by-one errors in the bin numbering can cancel in small examples", "anchors": ["ndhistogram/src/axes.rs: index, bin, num_bins, From", "ndhistogram/src/histogram/vechistogram.rs: fill, fill_with", "ndhistogram/src/histogram/hashhistogram.rs: fill, fill_with"]}
{"id": "C62", "title": "Histograms made by the macros count what their bins say", "statement": "ndhistogram!(axes...; V) and sparsehistogram!(axes...; V) succeed whenever the number of cells is a usize; however the histogram is then filled (also if some fills panic and are caught), iterating yields one item per cell (dense) or one per cell that received something (sparse), numbered with the first axis fastest, reporting the interval of the cell on each axis, and its value is exactly the default value filled, in order, with those data whose coordinates lie in these intervals. With overflow checks both macros panic exactly if the number of cells exceeds usize.", "quantifier": "any number and mixture of faithful axes, any bin value type, any sequence of fills, dense and sparse, every storage order of the hash map", "why_tests_cant": "end to end claim over all axes, sequences of fills and panics; tests look at a few filled bins", "anchors": ["ndhistogram/src/macros.rs: ndhistogram, sparsehistogram", "ndhistogram/src/axes.rs: From", "ndhistogram/src/histogram/vechistogram.rs: new, fill, iter", "ndhistogram/src/histogram/hashhistogram.rs: new, fill, iter"]}
{"id": "C63", "title": "A release build computes what the debug build computes", "statement": "Whatever a program does with axes, bin values and histograms: if a call returns in a build with overflow checks, then the same call returns the same result (and leaves the same histogram behind) in a build without overflow checks on the same platform; if it panics there for another reason than arithmetic overflow, the release build panics too, for the same reason. So the builds can differ only after a call at which the debug build panics with overflow, and a program tested in the debug profile behaves the same in the release profile.", "quantifier": "every platform width, every axis type over integers and floats, tuples of axes of any length, all constructors, index, bin, num_bins, iteration, every sequence of fills, all value types, merges with all four operators, dense and sparse histograms", "why_tests_cant": "all inputs and call sequences in two builds at once; a test suite runs in one profile and with few inputs, and integer wrap-around is silent in release builds", "anchors": ["ndhistogram/src/axis/uniform.rs: index, bin, with_step_size", "ndhistogram/src/axis/uniformcyclic.rs: index", "ndhistogram/src/axes.rs: index, bin, num_bins, From", "ndhistogram/src/histogram/fill.rs", "ndhistogram/src/value/mean.rs", "ndhistogram/src/value/weightedmean.rs", "ndhistogram/src/histogram/vechistogram.rs", "ndhistogram/src/histogram/hashhistogram.rs"]}
{"id": "C64", "title": "A fill that panics half-way leaves a known state", "statement": "If a fill panics and the panic is caught: a number or Sum is unchanged; WeightedSum, Mean and WeightedMean have carried out exactly the updates of their running sums before the one that panicked, in a fixed order, so WeightedSum::variance and num_samples are unchanged although get may already include the datum. Hence with overflow checks, after any history of fills with every panic caught, an integer or Sum holds the exact total of the data whose fill returned, num_samples is the number of fills that returned, and each bin of an integer histogram holds the exact total of the data put into it by calls that returned.", "quantifier": "every value type, state and datum; every sequence of fills and panic points; every integer type; dense and sparse histograms", "why_tests_cant": "all crash points of all histories", "anchors": ["ndhistogram/src/value/sum.rs: fill, fill_with", "ndhistogram/src/value/weightedsum.rs: fill, fill_with", "ndhistogram/src/value/mean.rs: fill_with, num_samples", "ndhistogram/src/value/weightedmean.rs: fill_with_weighted, num_samples", "ndhistogram/src/histogram/fill.rs"]}
{"id": "C65", "title": "Deserialization accepts exactly the structurally matching data", "statement": "Data is read as an axis, tuple of axes, bin value, iteration item or histogram if and only if it is a struct with the type's fields (a map with string keys in which each field occurs exactly once, other entries being ignored; or, except for the cyclic axes, a sequence of exactly the fields in order), numbers fit their type, lists and maps consist of readable elements (the last of equal keys wins), a tuple has exactly one readable element per axis; and the result has exactly these contents. Nothing else is checked or changed.", "quantifier": "every serialized tree and every type that derives Deserialize", "why_tests_cant": "arbitrary input data, including duplicate, missing, unknown and oversized fields", "anchors": ["ndhistogram/src/axis/uniform.rs: derive(Deserialize)", "ndhistogram/src/axis/uniformcyclic.rs: serde(flatten)", "ndhistogram/src/axis/variable.rs: derive(Deserialize)", "ndhistogram/src/axis/category.rs: derive(Deserialize)", "ndhistogram/src/axes.rs: derive(Deserialize)", "ndhistogram/src/value/mean.rs: derive(Deserialize)", "ndhistogram/src/histogram/vechistogram.rs: derive(Deserialize)", "ndhistogram/src/histogram/hashhistogram.rs: derive(Deserialize)"]}
{"id": "C66", "title": "Hash agrees with equality", "statement": "For every type of the crate that implements Hash (bins, uniform and variable axes, tuples of axes, bin values, iteration items, dense histograms, errors): a == b implies that every hasher gives a and b the same hash, so the objects can be kept in hash sets and maps; and values that are not equal feed different data to the hasher, none feeding the beginning of what another feeds, so collisions come from the hasher alone, also inside larger keys. This holds for whatever coordinate and value types it holds for, in particular all integers and strings.", "quantifier": "every pair of values of every such type, any nesting, every hasher", "why_tests_cant": "all pairs of values and all hashers; a collision of two unequal values does not show in tests of equal ones", "anchors": ["ndhistogram/src/axis/bininterval/bininterval.rs: derive(Hash)", "ndhistogram/src/axis/uniform.rs: derive(Hash)", "ndhistogram/src/axis/variable.rs: derive(Hash)", "ndhistogram/src/axes.rs: derive(Hash)", "ndhistogram/src/value/mean.rs: derive(Hash)", "ndhistogram/src/histogram/histogram.rs: Item", "ndhistogram/src/histogram/vechistogram.rs: derive(Hash)", "ndhistogram/src/error.rs: derive(Hash)"]}
{"id": "C67", "title": "Iterators are lazy, in order and fused, and loops may end early", "statement": "The i-th call of next() on the iterators of an axis (indices, iter, bins), a dense histogram (iter, iter_mut) or a sparse histogram (iter, iter_mut, in the map's order) delivers the i-th bin whatever happened before, and panics exactly if that bin cannot be computed; after the last bin they keep returning None, and size_hint is exact all along. A loop over iter_mut() or values_mut() that breaks, returns or panics in its body has applied the body exactly once to each bin visited so far, in order, and left all other bins, the axes and the set of stored bins alone. One exception is documented: in a dense iter_mut() that is used again after a panic of next() was caught, the references no longer belong to the bins.", "quantifier": "every axis type, dense and sparse histograms, every number of calls, every pattern of panicking bins, every loop body and break point, every map order, every build", "why_tests_cant": "all prefixes of all iterations, all break points and all panics inside the iteration", "anchors": ["ndhistogram/src/axis/mod.rs: indices, iter, bins", "ndhistogram/src/histogram/vechistogram.rs: iter, iter_mut, values_mut", "ndhistogram/src/histogram/hashhistogram.rs: iter, iter_mut, values_mut"]}
{"id": "C68", "title": "What printing a histogram shows, for all values", "statement": "Printing a dense histogram writes a header with the number of dimensions, of bins and the sum, then one row per bin for at most the first 50 bins, in order. A full bar of 50 marks belongs to the largest of the displayed values after the last NaN (the last of equal ones). A bin has no marks if its value is NaN or zero, if this largest value is NaN or infinite, or if the signs differ; otherwise its bar is 50 times the ratio of the two, rounded down, accurate to 51 bits, exactly 50 marks for the largest value, never more for smaller ones and never fewer for larger ones. Printing panics exactly if a bar is infinite (an infinite value with a finite largest value of the same sign, or a largest value that is a zero of the value's sign) or does not fit into the address space. For whole numbers adding up to at most 2^53 the sum shown is the exact total, dense and sparse, in every map order, and on 64-bit platforms nothing panics.", "quantifier": "every dense histogram with f64-convertible values, including NaN, infinities, zeros of both signs and subnormals; every precision; sparse histograms in every map order", "why_tests_cant": "all combinations of up to 50 floats", "anchors": ["ndhistogram/src/histogram/vechistogram.rs: Display for VecHistogram", "ndhistogram/src/histogram/hashhistogram.rs: Display for HashHistogram"]}
{"id": "C69", "title": "Without overflow checks, integer axes wrap around, and it is known when that is harmless", "statement": "In a build without overflow checks the integer axes compute modulo the number of values of the type, and nothing panics except a cyclic lookup on a turn of length 0 or -1 modulo that number. with_step_size makes an axis with the wanted ends exactly if low + num*step is a value of the type (num*step need not be); then index is right exactly for the coordinates outside the range and those whose distance from low is a value of the type, and either end of a reported bin is right exactly if k*num*step or (k*step - 2^bits)*num is a value of the type. A cyclic axis whose length and upper end fit answers an existing bin for every coordinate, the right one if c - low fits or if the length of a turn divides 2^bits. A tuple of axes never panics; its number of bins and all bin numbers are those of the grid modulo the size of usize, so if there are too many cells it reports no bins or gives two cells the same number.", "quantifier": "every integer type, every platform width, all arguments and coordinates", "why_tests_cant": "all values of all integer types; wrap-around is silent and tests run in the debug profile", "anchors": ["ndhistogram/src/axis/uniform.rs: with_step_size, index, bin", "ndhistogram/src/axis/uniformcyclic.rs: index", "ndhistogram/src/axis/variablecyclic.rs: index", "ndhistogram/src/axes.rs: From, index, num_bins"]}
{"id": "C70", "title": "The printed label of a bin identifies it", "statement": "Printing bins with {}, {:e} or {:E} gives two intervals the same text exactly if they are equal, provided the end points of different value print differently and without commas (as integers and floats do) - or if one is an overflow bin and the other a bin with the same start and an end printed as inf. Hence on every variable axis with distinct edges, every integer uniform axis whose bins can be computed, every float uniform axis whose bins are wider than the rounding error and every category axis with distinct categories, none of them printed as overflow, different bins have different labels. A category printed as overflow has the same label as the overflow bin. Converting an error to the crate's Error with ? keeps its message, and different errors have different messages.", "quantifier": "every pair of bins of every such axis, every coordinate type and format with the stated property", "why_tests_cant": "all pairs of bins of all axes; a clash of two labels does not show unless exactly these two are compared", "anchors": ["ndhistogram/src/axis/bininterval/bininterval.rs: impl_display, BinInterval Display, LowerExp, UpperExp", "ndhistogram/src/axis/bininterval/singlevaluebininterval.rs: Display", "ndhistogram/src/error.rs: Error, AxisError, BinaryOperationError"]}
{"id": "C71", "title": "A program does the same with sparse and with dense histograms", "statement": "Take any program with any number of histogram variables that fills (panics of fills may be caught), reads values (a missing one counting as the default), branches on what it read, writes through value_mut, loops over iter_mut, clones, and combines histograms with operators in all forms, such that empty bins stay empty: closures and loop bodies do nothing to the default value, default op default is the default in &a op &b, and v op default is v in a op &b and a op= &b (so + and - in all forms and * by reference, for integers and, since no bin becomes negative zero by filling, adding and subtracting, for floats). Run with dense histograms and with sparse ones it ends with the same result and the same contents, or panics in both cases, in whatever order the hash maps iterate. Comparing with == is excluded: a sparse bin holding the default is not a missing bin.", "quantifier": "every such program, all axes, values and iteration orders of the maps at every statement", "why_tests_cant": "all programs over the API; hash map orders vary from run to run", "anchors": ["ndhistogram/src/histogram/histogram.rs: Histogram", "ndhistogram/src/histogram/vechistogram.rs", "ndhistogram/src/histogram/hashhistogram.rs"]}
{"id": "C72", "title": "Standard deviations of float bins", "statement": "For float values the standard deviations and standard errors of Sum, WeightedSum, Mean and WeightedMean are the correctly rounded square roots of the corresponding variances (NaN for NaN and negative ones, infinity for infinity, zeros keep their sign), an integer Sum being converted first; none of the calls panics. Larger variances give no smaller standard deviations. A Sum with unit fills has the float nearest to the root of the number of entries, exactly the root if that is an integer. In a histogram of WeightedSum filled with any weights at all, the standard deviation of a bin is NaN exactly if a NaN weight went into it, and never negative; for weights in range it differs from the root of the exact sum of squares S by at most u*sqrt(S) + (1+u)*sqrt(d), d the error of the variance. Mean never has a negative variance, so its standard deviation is NaN only if its variance is, and is as near to the exact one; WeightedMean can have a small negative variance, and a NaN standard deviation, where the exact one is 0, but not if the exact variance is above the rounding error.", "quantifier": "every float and every bin value; every sequence of fills of every histogram whose axes are faithful; every format, the accuracy for f32 and f64", "why_tests_cant": "all floats and all sequences of samples; tests check a few sums of three samples", "anchors": ["ndhistogram/src/value/sum.rs: variance, standard_deviation", "ndhistogram/src/value/weightedsum.rs: variance, standard_deviation", "ndhistogram/src/value/mean.rs: standard_deviation_of_samples, standard_error_of_mean", "ndhistogram/src/value/weightedmean.rs: standard_deviation_of_samples, standard_error_of_mean"]}
{"id": "C73", "title": "Weighted integer histograms: exact totals or an overflow panic, and totals modulo 2^bits", "statement": "In a build with overflow checks, a program of fill and fill_with calls on a histogram of integers stops at the first call whose weight takes the exact total of its bin out of the range of the type, with an overflow panic, and at no other; when it ends or stops, every bin holds the exact sum of the weights, of the calls before that one, of the coordinates its interval contains - also if a later weight would bring the total back. With std::num::Wrapping values in every build, and with primitive integers in a build without overflow checks, nothing panics and every bin holds this sum modulo 2^bits: dense, sparse, and when the data is split into any shares that are filled separately and added in any order and grouping. Squares of weights (the variance of WeightedSum) and the operators +, -, * of histograms are then also right modulo 2^bits, and a bin whose exact total fits in the type holds it exactly whatever the totals on the way. Division and remainder of Wrapping numbers panic exactly for a divisor 0; otherwise quotient*divisor + remainder is the dividend (modulo 2^bits only for MIN / -1, which wraps around), truncated toward zero.", "quantifier": "every integer type, every sequence of fills of any weights, every axis or product of axes whose bins are faithful, every way of splitting and merging", "why_tests_cant": "all sequences of weights and all positions of an overflow in them", "anchors": ["ndhistogram/src/histogram/fill.rs: Fill, FillWith", "ndhistogram/src/histogram/vechistogram.rs: fill, fill_with, Add", "ndhistogram/src/histogram/hashhistogram.rs: fill, fill_with", "ndhistogram/tests/test_fill_overflow.rs"]}
{"id": "C74", "title": "Float histograms of counts and of multiples of a power of two are exact, in any order and grouping", "statement": "Take a histogram of floats with p-bit significands (24 for f32, 53 for f64) whose weights are multiples of a power of two 2^e (whole numbers for e = 0). No fill panics, and every bin whose weights' absolute values add up to at most 2^(e+p) holds the exact sum of the weights of the coordinates its interval contains - dense, sparse, and when the data is split into any shares that are filled separately and added in any order and grouping; if this is so for all bins, any two such ways of filling the same calls in any order give equal histograms. WeightedSum bins have the exact sum, and as variance the exact sum of squares if that is at most 2^(2e+p). Filled without weights, a bin has the number of its fills, or 2^p if that is smaller: it stops counting there.", "quantifier": "every binary float format, every sequence of finite weights on the grid, every axis or product of axes whose bins are faithful, every way of splitting and merging", "why_tests_cant": "all sequences of fills; the limits of exactness are at 2^24 and 2^53 fills", "anchors": ["ndhistogram/src/histogram/fill.rs: Fill, FillWith", "ndhistogram/src/histogram/vechistogram.rs: fill, fill_with, Add", "ndhistogram/src/histogram/hashhistogram.rs: fill, fill_with", "ndhistogram/src/value/weightedsum.rs: fill, fill_with, variance"]}
{"id": "C75", "title": "Means of integer samples are correctly rounded, or the fill panics", "statement": "Take a histogram of Mean<T, O, C> with integer samples and counts that convert exactly to the float type O (the pairs for which Rust has From), in a build with overflow checks. Its fill_with calls panic exactly if in some bin the sum of the samples so far leaves the range of T at some point, or the sum of all squares does, or the number of samples that of C. Otherwise every bin counts its samples; a bin with samples has as its mean the float nearest to their exact mean, a variance v >= 0 that differs from the exact one by at most ((1+u)^2-1) times the mean square plus ((1+u)^4-1) times the square of the mean and is zero if all samples are equal, and as variance of the mean the float nearest to v/n; a bin without samples has the mean NaN. In a build without overflow checks nothing panics, counts are right modulo 2^bits, and a bin whose totals fit has these same means and variances even if the totals on the way did not fit. Dense and sparse histograms do not differ in any of this, except that a sparse one lacks the bins without samples. The mean of a WeightedMean bin with integer samples and weights whose total is not zero is the float nearest to the exact weighted mean. The results for Mean also hold for whole-number float samples whose absolute values and squares add up to at most 2^p.", "quantifier": "every sequence of samples and weights, every integer type and float format with exact conversion, every axis or product of axes whose bins are faithful", "why_tests_cant": "all sequences of samples and all points at which a sum can overflow", "anchors": ["ndhistogram/src/value/mean.rs: fill_with, mean, variance_of_samples, variance_of_mean, num_samples", "ndhistogram/src/value/weightedmean.rs: fill_with_weighted, mean, num_samples"]}
{"id": "C76", "title": "Float axes are exact for coordinates on a grid", "statement": "Take a float axis whose bounds and bin width are multiples of a power of two 2^e (whole numbers, quarters, ...; the width need not be a power of two), with the number of bins times the range at most 2^p units (2^53 for f64). A Uniform axis built with new or with_step_size, a UniformNoFlow and a UniformCyclic axis has its edges exactly at low + k*width, and although index computes in rounded arithmetic, every coordinate that is a multiple of 2^e is counted in exactly the bin whose interval contains it; on UniformCyclic and VariableCyclic, in exactly the bin that contains it after a whole number of turns, none being lost at the seam. So histograms over such axes and coordinates have exact contents.", "quantifier": "every binary float format, all such bounds, widths and numbers of bins, every coordinate on the grid", "why_tests_cant": "all numbers of bins, all widths and all coordinates on the grid", "anchors": ["ndhistogram/src/axis/uniform.rs: new, with_step_size, index, bin", "ndhistogram/src/axis/uniformnoflow.rs: new, index", "ndhistogram/src/axis/uniformcyclic.rs: new, index", "ndhistogram/src/axis/variablecyclic.rs: new, index"]}
{"id": "C77", "title": "Float cyclic axes count every coordinate near where it belongs and lose only those at the seam", "statement": "On any UniformCyclic or VariableCyclic axis of floats with finite bounds of moderate size, every finite coordinate c is either counted in a bin that contains c after some whole number of turns, up to a rounding error of 2^-p*(3|c-low| + n(|low|+|high|)), n at most 24, or is not counted at all, which happens only if c lies within this error of the upper bound after whole turns. If some whole number of turns brings c into a bin and further than this error from its edges, c is counted in exactly that bin.", "quantifier": "every binary float format, every such axis, every finite coordinate whose distance to the lower bound does not overflow", "why_tests_cant": "all coordinates, arbitrarily many turns away, and all axes; the losses at the seam occur for few coordinates", "anchors": ["ndhistogram/src/axis/uniformcyclic.rs: new, index, bin", "ndhistogram/src/axis/variablecyclic.rs: new, index, bin"]}
{"id": "C78", "title": "Contents of float histograms are right up to rounding at the bin edges", "statement": "Take any histogram over float axes with finite bounds of moderate size whose bins are not narrower than a few rounding errors of the bounds: Uniform built with new or with_step_size, UniformNoFlow, UniformCyclic, VariableCyclic, and products of these with each other and with exact axes. After any sequence of fills, every bin holds the value of filling all calls whose coordinate lies inside its reported interval and further than a rounding error from the edges, and of no call whose coordinate is further than this outside the interval (for cyclic axes, after a whole number of turns); for calls at an edge it depends on the coordinate only which of the two bins gets it. The error is 17*2^-p*(|low|+|high|) for new, 19 of these for with_step_size, and that of C77 for cyclic axes; there is none for the underflow bin and for coordinates from the upper bound on. Counts lie between the number of coordinates inside and the number near, and totals of non-negative weights, up to the rounding of the additions, between the total weight inside and that near. A sparse histogram has a bin if a coordinate is inside it and only if one is near it.", "quantifier": "every binary float format, every such axis and product of axes, every sequence of filling calls", "why_tests_cant": "all coordinates near all edges of all axes", "anchors": ["ndhistogram/src/axis/uniform.rs: new, with_step_size, index, bin", "ndhistogram/src/axis/uniformnoflow.rs: index, bin", "ndhistogram/src/axis/uniformcyclic.rs: new, index, bin", "ndhistogram/src/axis/variablecyclic.rs: new, index, bin", "ndhistogram/src/axes.rs", "ndhistogram/src/histogram/vechistogram.rs: fill, fill_with, iter", "ndhistogram/src/histogram/hashhistogram.rs: fill, fill_with, iter"]}
{"id": "C79", "title": "A bad weight spoils the bin it is counted in, and no other", "statement": "Filling a float histogram with any weights whatsoever, NaN and infinities among them, never panics, and every bin depends on the weights of the coordinates its interval contains only: it is NaN if one of these is NaN or both infinities occur, for good, whatever is filled afterwards; it is infinite or NaN if one of them is infinite, and exactly that infinity if the other one and NaN do not occur and the finite weights are in range; and if they are finite and in range it is finite and the exact sum up to rounding, however bad the weights of other bins were. The same holds for sparse histograms and for data split into any shares that are filled separately and added in any order and grouping. The variance of a WeightedSum bin is NaN exactly if a NaN weight went into it, infinite if an infinite weight and no NaN did, and never negative. A Mean bin still counts its samples, and its mean is NaN or infinite by the same rules.", "quantifier": "every binary float format, every sequence of weights, every axis or product of axes whose bins are faithful, every way of splitting and merging", "why_tests_cant": "all sequences of weights, and all bins the bad ones could leak into", "anchors": ["ndhistogram/src/histogram/fill.rs: Fill, FillWith", "ndhistogram/src/histogram/vechistogram.rs: fill, fill_with, Add", "ndhistogram/src/histogram/hashhistogram.rs: fill, fill_with", "ndhistogram/src/value/weightedsum.rs: fill_with, get, variance", "ndhistogram/src/value/mean.rs: fill_with, mean, num_samples"]}
{"id": "C80", "title": "Parallel sums and reductions do not depend on how the work is divided", "statement": "Reducing par_iter() or par_values() of a histogram with an associative operation and its identity gives what folding iter() gives, or panics as it does, however rayon divides the items; for a sparse histogram and a commutative operation also whatever the order in which the map yields its entries. In particular, with overflow checks the parallel sum of a histogram of integers filled with fill is the number of the coordinates that some bin contains, if that fits, and an overflow panic if not, always. Parallel sums of Wrapping or unchecked integers never panic and are right modulo 2^bits; those of checked integers are exact or an overflow panic, and it can depend on the division which, but not if all have the same sign. Filled with weights without a panic, the parallel sum is the sum of the weights of the coordinates that some bin contains or an overflow panic; without negative weights it is an overflow panic exactly if that sum does not fit. Parallel float sums are the sum up to one rounding for each level of the division, and exact if the values are multiples of 2^e whose absolute values add up to at most 2^(e+p). So if a histogram of floats is filled with weights within these limits its parallel sum is exactly the sum of the weights of the coordinates that some bin contains, dense and sparse.", "quantifier": "every histogram, operation and element type as stated, every way of dividing the items, every iteration order of a sparse histogram", "why_tests_cant": "the division differs from run to run and machine to machine", "anchors": ["ndhistogram/src/histogram/vechistogram.rs: par_values, par_iter", "ndhistogram/src/histogram/hashhistogram.rs: par_values, par_iter"]}
{"id": "C81", "title": "The hasher of a sparse histogram cannot be observed", "statement": "Sparse histograms have a hasher, chosen by the type or passed to with_hasher; together with the history of the map it determines the order in which the bins are visited. Any program that makes sparse histograms (new, from_map), fills them, reads and changes bins, loops over values_mut and iter_mut, compares, clones and combines them, and reads iterations only after sorting by bin number or through folds in which the order does not matter, gives the same result and the same histograms whatever the orders are, or panics for every order. What may depend on the order is only which of several panics is raised, and what an operation that panicked in the middle has left behind.", "quantifier": "all programs (branching on everything read), all orders of every map at every statement, all axes, value types and operators", "why_tests_cant": "The order depends on the hasher, its seed, capacities and the history of insertions; tests see one order per run.", "anchors": ["ndhistogram/src/histogram/hashhistogram.rs: HashHistogram::new, with_hasher, DefaultHasher, fill, iter, iter_mut, values_mut, Add/AddAssign impls, PartialEq, from_map"]}
{"id": "C82", "title": "Rebinning: merging bins equals filling the coarser axis", "statement": "If each bin of an axis B is a union of bins of an axis A (B has every r-th edge, some of the edges, or merged categories, of A), then for every sequence of filling calls and every additive quantity (count, sum of weights, sum of squared weights) the bin of the histogram over B holds the sum over the corresponding bins of the histogram over A filled with the same calls; flow bins go to flow bins, and a coordinate that A does not cover is not covered by B. This holds for dense and sparse histograms, for uniform (integer, and float on a grid), variable and category axes, with and without flow bins, for cyclic axes, and for several axes at once.", "quantifier": "all axes and coarser axes, bin numbers, merging factors, sequences of filling calls (in any order, possibly panicking), bin value types with an additive quantity, numbers of dimensions", "why_tests_cant": "a test compares a few fixed histograms; that no coordinate is moved across a coarse edge by the different arithmetic of the two axes must hold for every coordinate, edge list and number of bins", "anchors": ["ndhistogram/src/axis/uniform.rs:Uniform::index", "ndhistogram/src/axis/uniformnoflow.rs:UniformNoFlow::index", "ndhistogram/src/axis/uniformcyclic.rs:UniformCyclic::index", "ndhistogram/src/axis/variable.rs:Variable::index", "ndhistogram/src/axis/variablenoflow.rs:VariableNoFlow::index", "ndhistogram/src/axis/category.rs:Category::index", "ndhistogram/src/axes.rs", "ndhistogram/src/histogram/vechistogram.rs", "ndhistogram/src/histogram/hashhistogram.rs"]}
{"id": "C83", "title": "Axes that describe the same bins are interchangeable", "statement": "If two axes describe the same bins - a Uniform axis and a Variable axis given the same edges in any order, with or without flow bins or cyclic, or Category axes over the same distinct values in different orders - then the same sequence of fill and fill_with calls leaves the same value in corresponding bins of dense and of sparse histograms, value reads the same at every coordinate, and the same is true of every combination of such axes in a histogram of several dimensions. The numbering is the same for Uniform and Variable; the order of the categories and nothing else determines their numbering.", "quantifier": "every integer type and every uniform integer axis that can be built, every exact float grid, every order of the edges, every list of distinct categories and every permutation of it, every number of dimensions, every cell type, every sequence of calls", "why_tests_cant": "a test compares two axes at a few coordinates; the two index functions are different code (division versus binary search, linear position of a category), and agreement at every coordinate and for every history is a theorem about both", "anchors": ["ndhistogram/src/axis/uniform.rs: Uniform::index, Uniform::bin", "ndhistogram/src/axis/variable.rs: Variable::new, Variable::index", "ndhistogram/src/axis/variablenoflow.rs: VariableNoFlow", "ndhistogram/src/axis/uniformcyclic.rs: UniformCyclic::index", "ndhistogram/src/axis/variablecyclic.rs: VariableCyclic::index", "ndhistogram/src/axis/category.rs: Category::index", "ndhistogram/src/axes.rs: AxesTuple::index"]}
{"id": "C84", "title": "Converting coordinates: another type, origin or unit", "statement": "If the edges of an axis and all coordinates are converted in the same way, no coordinate changes its bin number, so (C83) the contents of the histograms are the same: Variable and VariableNoFlow under any conversion that keeps the order (to a wider type, from integers to floats, to other units, to a logarithmic scale), Uniform, UniformNoFlow and UniformCyclic under x -> s*x + d with s > 0 within and between integer and float types (floats on exact grids), Category under any injective renaming. In particular, when all values of an integer type are floats (i32 and f64), a Uniform axis over the integers and the one built from the converted low and step agree on every coordinate.", "quantifier": "every integer and float type, every pair of axes as described, every order-preserving or affine conversion, every coordinate, every sequence of calls of every cell type", "why_tests_cant": "the index of a converted coordinate is computed by different arithmetic (integer division, float division and truncation) with different rounding and overflow behaviour; a test compares finitely many coordinates", "anchors": ["ndhistogram/src/axis/uniform.rs: Uniform::with_step_size, Uniform::new, Uniform::index, Uniform::bin", "ndhistogram/src/axis/uniformnoflow.rs: UniformNoFlow", "ndhistogram/src/axis/uniformcyclic.rs: UniformCyclic::index", "ndhistogram/src/axis/variable.rs: Variable::new, Variable::index", "ndhistogram/src/axis/variablenoflow.rs: VariableNoFlow", "ndhistogram/src/axis/category.rs: Category::index", "ndhistogram/src/axis/categorynoflow.rs: CategoryNoFlow::index"]}
{"id": "C85", "title": "Changing the unit by a power of two changes nothing, not even the rounding", "statement": "If all edges, bounds and steps of a float axis and all coordinates are multiplied by the same power of two (1024, 1/8), the axis is accepted as before, every coordinate (finite or not, on a bin edge or not) has the same bin number as before, and the reported bin edges are multiplied by exactly this factor - for every Uniform and Variable axis, with or without flow bins and cyclic, in range of the normal numbers. If all weights are multiplied by a power of two, every bin is multiplied by exactly this factor (variances by its square), a mean likewise, a weighted mean does not change at all, and multiplying the filled histogram by the factor afterwards gives the same result.", "quantifier": "every float format, every power of two (positive or negative exponent), every axis constructor and every bounds, steps and edges for which the numbers stay normal and do not overflow, every coordinate, every tuple of axes, every sequence of fills with every weights, dense and sparse", "why_tests_cant": "every operation of the constructors, of index, bin and fill rounds; that no rounding differs between the units has to be shown for all of them and all operands; a test compares finitely many", "anchors": ["ndhistogram/src/axis/uniform.rs: Uniform::new, Uniform::with_step_size, Uniform::index, Uniform::bin", "ndhistogram/src/axis/uniformnoflow.rs: UniformNoFlow", "ndhistogram/src/axis/uniformcyclic.rs: UniformCyclic::index", "ndhistogram/src/axis/variable.rs: Variable::new, Variable::index, Variable::bin", "ndhistogram/src/axis/variablenoflow.rs: VariableNoFlow", "ndhistogram/src/axis/variablecyclic.rs: VariableCyclic::index", "ndhistogram/src/axes.rs: AxesTuple", "ndhistogram/src/histogram/fill.rs: FillWith", "ndhistogram/src/value/weightedsum.rs: WeightedSum", "ndhistogram/src/value/mean.rs: Mean", "ndhistogram/src/value/weightedmean.rs: WeightedMean", "ndhistogram/src/histogram/vechistogram.rs: Mul"]}
{"id": "C86", "title": "Ratios of histograms: efficiencies and normalisation", "statement": "Fill one histogram of floats with coordinates and a second one with the same axes with some of these coordinates (fill, at most 2^p of them). The quotient of the second by the first has in every bin the float closest to the fraction of the bin's coordinates that went into the second histogram: a number in [0, 1] that is 0 exactly if none and 1 exactly if all of them did; it is NaN exactly in the bins without coordinates, which the sparse quotient does not have. With non-negative weights instead (infinity included, any number of fills), whatever the roundings, no part exceeds its whole and the ratio is in [0, 1], or NaN where the whole is 0 or the part is infinite. With integers the division is integer division: 1 where all pass and 0 elsewhere, and dense histograms panic with a division by zero as soon as one bin is empty. Dividing a filled histogram by the sum of its values (however the summation is divided among threads) gives the closest floats to the fractions of the N coordinates in some bin, adding up to 1 with an error of at most 2^-p.", "quantifier": "every axes with known bins, every list of coordinates and every sublist of it, every sequence of non-negative weights, every float format, every integer type, every division of the summation, every order of the hash map", "why_tests_cant": "the claims are about the rounding of every quotient of counts and of sums of arbitrarily many weights; that the sum of a part never exceeds the sum of the whole needs monotonicity of every rounding, not examples", "anchors": ["ndhistogram/src/histogram/vechistogram.rs: Div", "ndhistogram/src/histogram/hashhistogram.rs: Div", "ndhistogram/src/histogram/vechistogram.rs: VecHistogram::par_values", "ndhistogram/src/histogram/fill.rs: FillWith"]}
{"id": "C87", "title": "Arithmetic with histograms follows arithmetic with numbers", "statement": "Take any expression built from histograms with equal axes and numbers with +, -, * and / (any size, any nesting, each histogram used any number of times). It is computed bin by bin: bin i of the result is the value of the same expression with the bins i of the histograms, and if the program panics, then because the expression panics in some bin; the error of incompatible axes is never returned. With integers and overflow checks it returns exactly if in every bin every intermediate result fits and no divisor is 0, and then has the numbers of school arithmetic; without overflow checks an expression without / always returns, with the numbers of school arithmetic modulo 2^bits, whatever overflowed in between. Division of primitive integers panics in both builds exactly for a divisor 0 and for MIN / -1 and otherwise truncates toward zero (with Wrapping values MIN / -1 is MIN). So two expressions that are equal in school arithmetic give the same histogram: a + b = b + a, (a + b) - b = a, (a - b)*c = a*c - b*c. With floats + and * of histograms are commutative to the last bit, a bin in which all intermediate results are floats is exact, and in general each operation gives the closest float. Sparse histograms: the bins of the result are those of the histograms in the expression and missing bins count as 0, so the laws hold up to bins with 0.", "quantifier": "every expression, every histogram contents, every axes equal to themselves, every integer type and float format, both builds, every order of the hash maps", "why_tests_cant": "the laws quantify over all expressions and all contents; a test fixes one expression and a few numbers, and overflow in an intermediate result is exactly what examples miss", "anchors": ["ndhistogram/src/histogram/vechistogram.rs: Add, Sub, Mul, Div for &VecHistogram and scalars", "ndhistogram/src/histogram/hashhistogram.rs: Add, Sub, Mul, Div for &HashHistogram"]}
{"id": "C88", "title": "Values outside histograms: Mean::new, WeightedMean::new, Sum::new, WeightedSum::new", "statement": "Mean::new(samples) and WeightedMean::new(weighted samples) are the values a bin of a histogram gets when it is filled with these samples one after another, and they panic exactly if the fills do, with the same panic; the other bins of the histogram stay at the value of new([]). (A sparse histogram without samples has no bin.) Without a panic get, num_samples, variance_of_samples and variance_of_mean of Mean::new(samples) are the arithmetic mean, the number, the mean squared deviation and this over the number of the samples (likewise weighted); with integer samples and overflow checks Mean::new panics exactly if a partial sum, the sum of squares or the count leaves its type, and get is the float closest to the mean. Mean::new of a list followed by fills is Mean::new of the longer list. Sum::new() and WeightedSum::new() are zero with zero variance, the value of an unfilled bin.", "quantifier": "every list of samples and weights, every value, weight, output and count type, every lawful axis and coordinate on it, dense and sparse, both builds", "why_tests_cant": "equality of two ways of computing a value for every list, including at which sample which of them panics, cannot be settled by examples", "anchors": ["ndhistogram/src/value/mean.rs: Mean::new", "ndhistogram/src/value/weightedmean.rs: WeightedMean::new", "ndhistogram/src/value/sum.rs: Sum::new", "ndhistogram/src/value/weightedsum.rs: WeightedSum::new"]}
{"id": "C89", "title": "Statistics read off the bins: cumulative distributions, quantiles, means", "statement": "On a Uniform or Variable axis (with or without flow) the running total of the bin values up to and including a bin is the number (or the total weight) of the fills on the axis whose coordinate is below the end of that bin. The k-th smallest filled coordinate (median, percentiles) lies in the one bin at which the running total passes k: the bin found from the totals is the bin in which index puts that coordinate, and its reported interval contains it (for float axes with rounding: up to the doubt of C76). The sum of the coordinates filled into the bins that are not flow bins lies between the totals of value times lower and of value times upper edge, and the mean estimated from bin centres is within half the largest bin width of the mean of these coordinates.", "quantifier": "every history of fills, every k, every bin; Uniform over integers, Uniform over floats whose edges are exact, Variable with distinct edges over any ordered type, each with and without flow, alone or as the only axis of a histogram; quantiles also for every Uniform over floats (Uniform::new, with_step_size), rounding included; dense and sparse; both builds. Counts: any integer type the number of fills fits into, or a float type with at most 2^p fills (running totals computed with floats); totals: any additive quantity of the bin values", "why_tests_cant": "relations between all the coordinates ever filled and the sums a user forms from the bins hold or fail for lists of any length and any order", "anchors": ["ndhistogram/src/axis/uniform.rs: index, bin", "ndhistogram/src/axis/uniformnoflow.rs: index, bin", "ndhistogram/src/axis/variable.rs: index, bin", "ndhistogram/src/axis/variablenoflow.rs: index, bin", "ndhistogram/src/histogram/vechistogram.rs: fill, value_at_index, iter", "ndhistogram/src/histogram/hashhistogram.rs: fill, value_at_index"]}
{"id": "C90", "title": "One fill in place of several: multiplicities and weights", "statement": "On histograms of integers one fill_with(c, n), n > 0, may be used for n calls of fill(c), and one fill_with(c, w) for several fill_with(c, w_i) of the same sign with sum w, in any mixture: the program panics exactly if the one with all the single fills does, and otherwise leaves the same histogram (likewise Sum of integers; for Wrapping numbers, or without overflow checks, the weights may have any sign and only their sum modulo 2^bits matters). Floating-point counters agree up to 2^p entries per bin, where single fills stop counting. A WeightedSum keeps get, but its variance is the sum of the squared multiplicities instead of the number of fills. A WeightedMean filled with samples weighted by their multiplicities has the get and variance_of_samples of a Mean filled with the samples one by one; num_samples and variance_of_mean differ in a known way. fill_with(c, 0) does nothing to a dense histogram, but stores the bin in a sparse one.", "quantifier": "every table of coordinates and multiplicities (or weights), every axis and initial histogram (integers), dense and sparse, both builds; every axis whose bins tile the coordinates (floats); means and variances in exact arithmetic", "why_tests_cant": "the equality of two programs of which one makes arbitrarily many more calls cannot be settled on examples, least of all at the overflow", "anchors": ["ndhistogram/src/histogram/histogram.rs: fill, fill_with, fill_with_weighted", "ndhistogram/src/histogram/fill.rs: Fill, FillWith", "ndhistogram/src/histogram/hashhistogram.rs: fill, fill_with", "ndhistogram/src/value/sum.rs", "ndhistogram/src/value/weightedsum.rs", "ndhistogram/src/value/mean.rs", "ndhistogram/src/value/weightedmean.rs"]}
{"id": "C91", "title": "Checkpoints: a job that is killed and restarted counts everything exactly once", "statement": "A job fills a histogram from a list of calls, writes the histogram with serde from time to time (with the number of calls made), is killed at any moments and each time restarted from the last file. Whenever it has made k calls its histogram cannot be told apart from that of a job that ran through: every lookup, the iteration, ==, the operators, the panics and effects of all further calls are the same. The histogram can be written at any moment and the file can always be read. In particular every coordinate is counted exactly once. Category axes, whose maps are written in a different order each time, and tuples of axes survive any number of rounds.", "quantifier": "every list of calls, every sequence of calls, saves and crashes (any number, at any point), every order in which maps are written, all axis and value types of the crate, dense and sparse histograms", "why_tests_cant": "crash points and their combinations are unbounded, and a histogram read back is written again, so one round trip does not settle it", "anchors": ["ndhistogram/src/histogram/vechistogram.rs: derive Serialize, Deserialize", "ndhistogram/src/histogram/hashhistogram.rs: derive Serialize, Deserialize", "ndhistogram/src/axis/category.rs", "ndhistogram/src/axes.rs", "ndhistogram/src/histogram/histogram.rs: fill, fill_with, fill_with_weighted"]}
{"id": "C92", "title": "Threads that share a histogram behind a lock: what does not depend on the schedule", "statement": "Several threads fill one histogram behind a lock, each taking the lock for each of its calls. Whatever the schedule and the value type, each bin ends as the default value filled with an interleaving of the calls that the threads made for it: the calls of one thread in its order, nothing else. For counts, integer weights that are not negative (any integer weights in a build without overflow checks, Wrapping numbers always), and for WeightedSum, Mean and WeightedMean of such numbers, neither whether a call panics nor the final histogram depends on the schedule; it is the one of running the threads one after another. Counts are exact in every schedule. If a call overflows and poisons the lock, the histogram under it holds the exact sums of an interleaving of beginnings of the threads. Float sums in two schedules differ by at most twice the rounding bound, and not at all for weights on a common grid.", "quantifier": "any number of threads, any calls, every schedule (interleaving), dense and sparse histograms, all axis types, both build profiles", "why_tests_cant": "the schedules of even a few threads cannot be enumerated by a test, and a test run sees one of them; it fails for mixed signs in checked builds and for floats", "anchors": ["ndhistogram/src/histogram/histogram.rs: fill, fill_with, fill_with_weighted", "ndhistogram/src/histogram/fill.rs", "ndhistogram/src/histogram/vechistogram.rs: value_at_index_mut, fill", "ndhistogram/src/histogram/hashhistogram.rs: fill", "ndhistogram/src/value/weightedsum.rs: fill_with", "ndhistogram/src/value/mean.rs: fill_with", "ndhistogram/src/value/weightedmean.rs: fill_with_weighted"]}
{"id": "C93", "title": "Printed numbers: what the text of floats, labels, axes and headers says", "statement": "With the number formats of std: a float printed with {} reads back as itself, so different floats (of bin ends, of axes) print differently; it is the shortest decimal that does, and whole numbers up to 2^53 are printed like integers. A float printed with {:.k} is the nearest decimal with k digits. So two float intervals printed with {} are the same interval (except that an overflow bin prints like a bin that ends at infinity), Uniform::new axes that print the same are the same axis, and a histogram of counts prints its exact total in decimal. The rows of a printed histogram use a fixed number of decimals (two by default): rows that print the same have ends at most 10^-k apart, and they tell the bins of uniform and variable axes apart whose bins are wider than 10^-k (plus the rounding error of the edges); otherwise they need not, as for Uniform::new(1000, 0.0, 1.0). Likewise with an exponent: a number printed with {:e} or {:E} reads back as itself, {:.ke} is a nearest decimal with k+1 digits, and it tells the bins of a variable axis apart whose edges differ by more than a relative 10^-k.", "quantifier": "all floats of all formats, all precisions, all bins of all Uniform and Variable axes within the stated range, all dense and sparse histograms of counts up to 2^53", "why_tests_cant": "there are 2^64 floats, and a label that does not tell two bins apart appears only for particular edges and precisions", "anchors": ["ndhistogram/src/axis/bininterval/bininterval.rs: fmt", "ndhistogram/src/axis/uniform.rs: fmt", "ndhistogram/src/histogram/vechistogram.rs: fmt", "ndhistogram/src/histogram/hashhistogram.rs: fmt"]}
{"id": "C94", "title": "Snapshots: differences of snapshots, and fills that are taken back", "statement": "Clone a histogram of integers (a snapshot s) and fill on to t: then &t - &s, t - &s and t -= &s give the histogram of just the fills in between, if filling a new histogram with them does not overflow (for counts and for non-negative weights it never does when the fills of t did not). Sparse: the same values, and the difference has all bins that t has, so bins filled only before the snapshot stay with value 0. Float bins: exact for weights that are multiples of a power of two up to 2^53 of it, not beyond. Fills at the same coordinates with the opposite weights, the last first, never overflow if the fills did not, and restore a dense histogram exactly (a sparse one up to bins of value 0 that stay); in any other order they restore it whenever they do not overflow.", "quantifier": "all axes, all states of the histogram at the snapshot, all histories of fills and weighted fills, all integer types, builds with and without overflow checks, all orders of keys; for floats all formats, all histories of weights on a grid", "why_tests_cant": "tests take one snapshot at one point of one history; overflow at the edges of the type and the rounding of floats appear only for particular contents", "anchors": ["ndhistogram/src/histogram/vechistogram.rs: impl Sub, SubAssign", "ndhistogram/src/histogram/hashhistogram.rs: impl Sub, SubAssign", "ndhistogram/src/histogram/fill.rs: FillWith"]}
{"id": "C95", "title": "How axes are grouped does not matter", "statement": "AxesTuple implements Axis, so tuples of axes can be components of tuples: AxesTuple<(AxesTuple<(X, Y)>, Z)>, AxesTuple<(X, AxesTuple<(Y, AxesTuple<(Z,)>)>)> and so on. However parentheses are put around consecutive axes, the inner and outer tuples can be built if the flat tuple can, and they have the same number of bins, the same bin number for every coordinate (or None, or the same panic) and the same interval for every bin number, written with the parentheses. So a dense or sparse histogram of the grouped axes does what that of the flat axes does: the same sequence of calls leaves identical values (and panics at the same call), value reads the same, and iter and iter_mut visit the same bins in the same order. The same holds of an axis and the tuple of this one axis. Only num_dim differs: it counts the components of the outer tuple.", "quantifier": "every number of axes of any types, every way to put parentheses around consecutive axes (groups in groups, groups of one), every coordinate and bin number, every cell type and every sequence of calls, every iteration order of the map", "why_tests_cant": "there are unboundedly many ways to group axes and each has its own instances of the generic code; the tests have no nested tuple", "anchors": ["ndhistogram/src/axes.rs: AxesTuple, impl Axis for AxesTuple", "ndhistogram/src/histogram/vechistogram.rs: VecHistogram", "ndhistogram/src/histogram/hashhistogram.rs: HashHistogram"]}
{"id": "C96", "title": "The debug text of an object determines it", "statement": "Every object of the crate (axes, bin intervals, bin values, tuples of axes, items, dense and sparse histograms, errors) can be printed with {:?} and {:#?}, and two objects may print the same text exactly if they are the same: the same number of bins, ends, steps and edges, the same categories with the same numbers, the same bin values including the sign of a zero, the same filled bins. Even if it is followed by other text, it is known where the text of an object ends. Floats are printed so that they read back as themselves, and never like an integer; strings are quoted and escaped so that no string ends another. Objects without hash maps have one text; a sparse histogram and a category axis have one for each order in which the hash map is iterated, and share all of them with an equal object and none with any other. For integers and other types whose == is identity, histograms are equal (==) exactly if they print the same text; for floats this is not so (0.0 == -0.0 but they print differently; NaN != NaN but they print the same).", "quantifier": "every object of every type, with coordinates, values and counters of any types whose own texts are so (integers of every width, floats including NaN, infinities and signed zeros, strings with any characters), every iteration order, {:?} and {:#?} at any depth", "why_tests_cant": "whether two different objects print the same text is a statement about all pairs of objects; the texts of strings, numbers and nested structures could run into each other in ways that examples do not show", "anchors": ["ndhistogram/src/axis/uniform.rs: derive(Debug)", "ndhistogram/src/axis/variable.rs: derive(Debug)", "ndhistogram/src/axis/category.rs: derive(Debug)", "ndhistogram/src/axis/bininterval/bininterval.rs: derive(Debug)", "ndhistogram/src/axes.rs: AxesTuple derive(Debug)", "ndhistogram/src/value/mean.rs: derive(Debug)", "ndhistogram/src/value/weightedmean.rs: derive(Debug)", "ndhistogram/src/histogram/vechistogram.rs: derive(Debug)", "ndhistogram/src/histogram/hashhistogram.rs: derive(Debug)", "ndhistogram/src/histogram/histogram.rs: Item derive(Debug)", "ndhistogram/src/error.rs: derive(Debug)"]}
{"id": "C97", "title": "The order of the axes only renumbers the bins", "statement": "Put the axes of a histogram into another order, and the components of every coordinate into the same order. The tuple of axes can be built if the original one can, it has as many bins, and there is a one-to-one renumbering of the bins, which depends only on the numbers of bins of the axes and the order (for two axes bin i + nx*j becomes j + ny*i), under which everything agrees: index gives the renumbered bin, or None, for the reordered coordinate; bin gives the interval with its components reordered; after any sequence of fills, of any value type and with any data, the program has panicked at the same call with the same panic or not at all, and every bin has the same value; value gives the same value; iter yields the same items in another order; sparse histograms have the same bins filled; operators (all forms, also with a number) return or panic alike and give the same values; two histograms are equal exactly if the reordered ones are. Only where an axis itself panics on its coordinate does the order matter: the components are looked at from the first to the last, and looking stops at the first one without a bin, so the same coordinate may be ignored in one order and panic in another.", "quantifier": "every tuple of two or more lawful axes of any types (also nested), every order of the axes, every value type, every sequence of fills at coordinates on which no axis panics, dense and sparse histograms, every iteration order, all four operators", "why_tests_cant": "it relates two programs for every number of axes, every order, every coordinate and every sequence of calls", "anchors": ["ndhistogram/src/axes.rs: AxesTuple index bin num_bins", "ndhistogram/src/histogram/vechistogram.rs: fill fill_with fill_with_weighted value iter", "ndhistogram/src/histogram/hashhistogram.rs: fill fill_with fill_with_weighted value iter"]}
{"id": "C98", "title": "What a bin holds does not depend on which other bins there are", "statement": "Take two axes, the second with some of the bins of the first in the same order: an axis with and without its flow bins (Uniform and UniformNoFlow from the same arguments, of any number type and with all roundings; Variable and VariableNoFlow; Category and CategoryNoFlow, also with repeated categories), an axis without flow bins over a part of the range (some of the edges, one after the other; the same step from one of the edges on), or, in several dimensions, axes of which some are so restricted and the others kept. Then exactly the same coordinates are counted in a bin that both have, it has the same interval, and histograms over the two axes that are filled with the same data hold the same value in it, for every value type, whatever happens in the other bins (also if fills there panic and are caught). If filling the histogram with more bins does not panic neither does filling the other one; the converse is false, as a flow bin can overflow. value reads the same where the smaller axis has a bin and None elsewhere, the items of iter are those of the larger histogram at these bins in the same order, sparse histograms have the same of these bins filled, and the binary operators agree on them.", "quantifier": "all such pairs of axes and all tuples of them, all value types, all sequences of fills at coordinates on which no axis panics, dense and sparse histograms, all iteration orders, all four operators", "why_tests_cant": "it relates two programs for all ranges, coordinates and sequences of calls; a wrong offset or a fill that leaks from a flow bin into its neighbour shows only for some", "anchors": ["ndhistogram/src/axis/uniformnoflow.rs: index bin num_bins", "ndhistogram/src/axis/variablenoflow.rs: index bin num_bins", "ndhistogram/src/axis/categorynoflow.rs: index bin num_bins", "ndhistogram/src/axes.rs: AxesTuple index bin", "ndhistogram/src/histogram/vechistogram.rs: fill value iter", "ndhistogram/src/histogram/hashhistogram.rs: fill value iter"]}
{"id": "C99", "title": "Weighted means of integers: variances are not negative, and zero exactly for equal samples", "statement": "Take a histogram of WeightedMean with integer samples and non-negative integer weights whose type has five bits to spare in the significand of the float output type (8, 16 and 32 bits with f64; 8 and 16 bits with f32). In a build with overflow checks, if no fill panics, every bin with a non-zero total weight W counts its samples and has as its mean the float nearest to sum(w x)/W; variance_of_samples is finite, not negative, within 13 roundings of sum(w x^2)/W of the exact weighted mean square deviation, and zero exactly if all samples of non-zero weight are equal; variance_of_mean is finite, not negative and within 4 roundings of variance * sum(w^2)/W^2; hence the standard deviation and the standard error are numbers, never NaN. The same holds for sparse histograms. In a build without overflow checks no fill panics, and it holds for every bin whose totals fit its types, even if the totals on the way did not. The variance of a Mean of such integers is zero exactly if all samples of the bin are equal. (Float samples do not have this property, see C42 and C72, nor do negative weights.)", "quantifier": "all axes of C51 and tuples of them, all integer and float types with these bits to spare, all sequences of samples and weights, dense and sparse histograms, both build modes", "why_tests_cant": "the subtraction in the variance formula cancels, and whether the rounded result can drop below zero depends on all the samples and weights; no finite set of them shows that it never does", "anchors": ["ndhistogram/src/value/weightedmean.rs: mean num_samples variance_of_samples variance_of_mean standard_deviation_of_samples standard_error_of_mean fill_with_weighted", "ndhistogram/src/value/mean.rs: variance_of_samples", "ndhistogram/src/histogram/vechistogram.rs: fill_with_weighted", "ndhistogram/src/histogram/hashhistogram.rs: fill_with_weighted"]}
{"id": "C100", "title": "Cyclic axes have no beginning", "statement": "(1) Moving any of the coordinates passed to fill calls by any whole number of turns of a cyclic axis changes nothing: the histogram, dense or sparse, holds the same after every call and the same calls panic. More generally this holds if every coordinate is replaced by one that the same bins contain, also for several axes. (2) Two cyclic axes with the same edges round the circle but different first edges (UniformCyclic starting a whole number of bins later, VariableCyclic built from edges of which some are moved by a turn) are the same up to numbering: what one counts in bin i the other counts in bin i+d modulo the number of bins, and the values of a histogram on one are, in order, those of a histogram on the other, rotated. The same holds if all edges and all coordinates are moved by the same amount, and in particular moving all data by d bins rotates the values by d. (3) A cyclic axis counts a coordinate where the axis without flow bins with the same edges counts its representative between the first and the last edge.", "quantifier": "all numbers of bins, edges and lengths of turns; all integer types, and floats on a grid as for C76; all sequences of fill calls and per-call numbers of turns, including calls that panic; any value type; coordinates for which subtracting the first edge does not overflow", "why_tests_cant": "the claim relates two different axes, or two different sequences of coordinates, for all coordinates, edges and offsets; off-by-one errors in the remainder show only at particular combinations of sign, offset and edge", "anchors": ["ndhistogram/src/axis/uniformcyclic.rs: index bin num_bins", "ndhistogram/src/axis/variablecyclic.rs: map_coord index bin num_bins", "ndhistogram/src/histogram/vechistogram.rs: fill values", "ndhistogram/src/histogram/hashhistogram.rs: fill", "ndhistogram/src/axis/uniform.rs: index", "ndhistogram/src/axis/variable.rs: index"]}
{"id": "C101", "title": "Mirrored data on mirrored axes", "statement": "Mirror an axis and its coordinates (x becomes m - x, the edges E_0, ..., E_n become m - E_n, ..., m - E_0). If no coordinate lies on an edge the histogram is mirrored too: bin i becomes bin n+1-i, underflow and overflow are swapped (without flow bins: bin n-1-i), and the values come out in reversed order. A coordinate on edge k is an exception: bins contain their lower edge, so it is counted in bin k+1 of the one and in bin n-k+1, not n-k, of the other. For whole numbers the coordinates can be mirrored to m-1-x instead, and then there is no exception. All this holds for any order-reversing conversion for which x is at or above an edge exactly if its image is below the mirrored edge, and for cyclic axes run through the other way round.", "quantifier": "all numbers of bins, edges, coordinates and m; uniform axes of all integer types and of floats on a grid as for C76, variable-width axes of all integer and float types with any edges in any order, with and without flow bins, cyclic axes; any value type; all sequences of fill calls", "why_tests_cant": "the half-open bins break the symmetry exactly at the edges; that nothing else breaks it is a statement about all axes and all coordinates", "anchors": ["ndhistogram/src/axis/uniform.rs: index bin", "ndhistogram/src/axis/uniformnoflow.rs: index bin", "ndhistogram/src/axis/variable.rs: index bin", "ndhistogram/src/axis/variablenoflow.rs: index bin", "ndhistogram/src/axis/uniformcyclic.rs: index bin", "ndhistogram/src/axis/variablecyclic.rs: index bin", "ndhistogram/src/histogram/vechistogram.rs: fill values"]}
{"id": "C102", "title": "User-written axes that break the contract do limited damage", "statement": "For any implementation of the Axis trait, whatever index, num_bins and bin return and even if they panic: making a dense histogram panics exactly if num_bins does, and otherwise gives num_bins default values; a fill never changes the axes or the number of values; a panic of index is passed on with the histogram unchanged; a dense fill whose index is None or not below the number of values is ignored silently, any other fill changes exactly the value of its index and panics only as the value's own fill does. After any history the value at i is the default filled in order with the calls whose index was i; dense and sparse agree below num_bins, while a sparse histogram also stores fills at or above it. Reading passes on the panic of index and otherwise reads the value of the index. Iterating over axes or a dense histogram succeeds exactly if bin is defined below num_bins and otherwise panics as the first bin that is not; iter_mut changes exactly the values up to the first panic, whatever the number of values; iterating over a sparse histogram succeeds exactly if bin is defined at every stored number. So a fill outside num_bins is lost in a dense histogram, makes every iteration over a sparse one panic, and in a tuple of axes is counted in another cell.", "quantifier": "all implementations of Axis (total functions that may panic), all value types, all histograms and all sequences of calls", "why_tests_cant": "the axis is a type parameter supplied by the user: no test can range over all implementations, and the built-in axes never show the out-of-range paths", "anchors": ["ndhistogram/src/axis/mod.rs: Axis iter", "ndhistogram/src/histogram/vechistogram.rs: new value value_at_index_mut iter", "ndhistogram/src/histogram/hashhistogram.rs: fill fill_with fill_with_weighted iter", "ndhistogram/src/histogram/histogram.rs: fill value_mut", "ndhistogram/src/axis/axes.rs: index"]}
{"id": "C103", "title": "Bins can be addressed by coordinates from their own intervals; copying bin by bin", "statement": "A coordinate inside the interval reported for a bin (beyond the rounding doubt of C78 for float axes) looks that very bin up: in particular the start of a bin of Variable axes with distinct edges and of integer Uniform axes, the category of a Category bin, and for float Uniform, Uniform without flow and UniformCyclic axes whose bins are wider than some tens of rounding errors the computed centre (start + end) / 2.0; tuples are addressed component by component. So value(&c) at such a coordinate is the value of the bin, and walking over one histogram while filling a new one with the same axes at these coordinates with the values met does not panic and gives a copy: the same integers, the same floats but for -0.0 becoming 0.0, values in exactly the same bins of a sparse histogram in whatever order it is walked; assigning through value_mut copies values of any type and leaves the other bins as they were. The start of a bin of a float axis does not always address it: 0.3 starts bin 4 of Uniform::new(10, 0.0, 1.0) and is counted in bin 3.", "quantifier": "all axes whose bins count what their intervals contain, all choices of coordinates inside the intervals, all dense and sparse histograms over them, all iteration orders, all float formats, bounds and numbers of bins within the stated ranges", "why_tests_cant": "whether the lookup of a bin's own centre gives the bin depends on the rounding of bounds, edges and centre together; a test can only try some axes", "anchors": ["ndhistogram/src/axis/uniform.rs: index bin", "ndhistogram/src/axis/variable.rs: index bin", "ndhistogram/src/axis/category.rs: index bin", "ndhistogram/src/axis/uniformcyclic.rs: index", "ndhistogram/src/histogram/histogram.rs: value value_mut iter fill_with", "ndhistogram/src/histogram/vechistogram.rs: value iter", "ndhistogram/src/histogram/hashhistogram.rs: iter fill_with"]}
{"id": "C104", "title": "Debug texts name the type and its fields; {:#?} is {:?} laid out in indented lines", "statement": "The {:?} text of an axis, bin interval, bin value, tuple of axes, item, histogram or error is the name of the type (or variant) followed by its fields, by name and in declaration order, each with its own {:?} text, separated by commas (lists in square brackets, hash maps in braces in some iteration order, tuples in parentheses with a comma after a single component, marker fields as PhantomData with the name of the type). The {:#?} text has the same fields, each with its own {:#?} text, on lines of its own, four columns further to the right than the line with the opening bracket, and with a comma after each; empty lists and maps are printed as [] and {}. What an object prints does not depend on where it stands: inside n brackets it is its own text moved to the right by 4n columns. Numbers and strings never contain a line break and print the same with both. An object prints nothing else: these are all its texts.", "quantifier": "all objects of all types of the crate that implement Debug, over all coordinate, value and counter types whose texts can be moved, any nesting, any iteration order of hash maps", "why_tests_cant": "the layout of nested objects depends on the texts of all their components, including strings with any characters", "anchors": ["ndhistogram/src/axis/uniform.rs: derive(Debug)", "ndhistogram/src/axis/variable.rs: derive(Debug)", "ndhistogram/src/axis/category.rs: derive(Debug)", "ndhistogram/src/axis/bininterval/bininterval.rs: derive(Debug)", "ndhistogram/src/axes.rs: AxesTuple derive(Debug)", "ndhistogram/src/value/mean.rs: derive(Debug)", "ndhistogram/src/value/weightedmean.rs: derive(Debug)", "ndhistogram/src/histogram/vechistogram.rs: derive(Debug)", "ndhistogram/src/histogram/hashhistogram.rs: derive(Debug)", "ndhistogram/src/histogram/histogram.rs: Item derive(Debug)", "ndhistogram/src/error.rs: derive(Debug)"]}
{"id": "C105", "title": "Means lie between the smallest and the largest sample", "statement": "In exact arithmetic the mean of a bin is at least one of its samples and at most one of them; so is the weighted mean, among the samples with a non-zero weight, if no weight is negative. With integer samples that the float type represents exactly, filled into a dense or sparse histogram over a faithful axis, the same holds of the float that get() returns, rounding included. A Mean filled with integer coordinates as their own samples therefore has its mean inside the bin: at least start, below end. The mean of two finite floats lies between them if their sum is in range; with more floats it may leave the range of the samples (three times 0.1), but by no more than the rounding error of C58. With negative weights there is no such bound.", "quantifier": "all sequences of samples (and weights), all faithful axes, dense and sparse histograms, every iteration order; all pairs of finite floats", "why_tests_cant": "a mean outside the range of the samples shows up only for particular sums and roundings", "anchors": ["ndhistogram/src/value/mean.rs: mean, get, fill_with", "ndhistogram/src/value/weightedmean.rs: mean, get, fill_with_weighted"]}
{"id": "C106", "title": "Origin and unit of samples and weights; samples in two parts", "statement": "In exact arithmetic: if every sample x is replaced by a*x + b, the mean of a Mean becomes a*mean + b, its variances are multiplied by a^2 and the number of samples stays. If moreover every weight is multiplied by the same s != 0, the same holds of a WeightedMean: only the ratios of the weights matter. If the weights of a WeightedSum are multiplied by s, its value is multiplied by s and its variance by s^2. If the samples are counted in two parts, the mean of all is the mean of the two means weighted by the number of samples (the total weight) of the parts, and the variance of all is the mean of the variances of the parts plus that of the squared distances of their means from the mean of all. With floats the variance does depend on the origin: 0 and 2 have variance 1, 2^53 and 2^53 + 2 have variance 2^54.", "quantifier": "all lists of samples and weights (total weights not zero), all a, b and s", "why_tests_cant": "relations between runs on different data, for all data", "anchors": ["ndhistogram/src/value/mean.rs: mean, variance_of_samples, variance_of_mean, fill_with", "ndhistogram/src/value/weightedmean.rs: mean, variance_of_samples, variance_of_mean, fill_with_weighted", "ndhistogram/src/value/weightedsum.rs: get, variance, fill_with"]}
{"id": "C107", "title": "Which panics a program can meet", "statement": "Take any program with any number of histograms over one axis whose methods do not panic: it fills, reads, changes and iterates bins, clones, and adds, subtracts, multiplies and divides histograms in every form, and decides what to do next from what it has read. Every panic that occurs, caught by the program or not, is a panic of one of the program's own closures or of an operation on two values; the histograms add none of their own (no index out of bounds, no failed unwrap, no mismatch of axes). So with float values and closures that do not panic nothing panics at all, whatever NaN, infinite or zero values occur; with integer values the only panics are an overflow (with overflow checks, or in a division) and a division by zero (in a division), and without checks and divisions there are none. Filling a Sum, WeightedSum, Mean or WeightedMean of floats does not panic either, except that an integer counter at its maximum overflows with overflow checks. The axes whose methods do not panic: uniform axes of floats and of integers within the documented limits, without flow bins or cyclic (floats), variable axes of every kind (cyclic: floats), category axes, and tuples of any length of such axes.", "quantifier": "all programs, all contents of the histograms, all orders of the hash maps, all coordinates, closures and values, all such axes, dense and sparse, both build profiles", "why_tests_cant": "a claim about the absence of panics over all programs and all inputs", "anchors": ["ndhistogram/src/histogram/vechistogram.rs: impl Histogram for VecHistogram, impl_binary_op_with_immutable_borrow, impl_binary_op_with_owned, impl_binary_op_assign, IterMut", "ndhistogram/src/histogram/hashhistogram.rs: impl Histogram for HashHistogram, impl_binary_op_with_immutable_borrow, impl_binary_op_with_owned, impl_binary_op_assign", "ndhistogram/src/histogram/fill.rs: Fill, FillWith", "ndhistogram/src/axis/uniform.rs: index", "ndhistogram/src/axis/variable.rs: index", "ndhistogram/src/axes.rs: impl Axis for tuples"]}
{"id": "C108", "title": "Small changes of the data change the contents little; samples that move up move quantiles up", "statement": "Fill two histograms over the same axis with two data sets that agree except for the fills xs of the one and ys of the other, in any order. Then the contents of all bins together (the sum over any set of bins of the absolute differences) differ by no more than the weights of xs and ys in absolute value; for counts, by no more than the number of xs plus the number of ys. Bins in which none of xs and ys is counted are the same. And if every sample is replaced by one that is not smaller, with the same weight, not negative, both being counted, then the running total up to any bin does not become larger, and every quantile read off the running totals stays in its bin or moves to a later one. Dense and sparse.", "quantifier": "all axes (monotone ones for the second part), all data sets, all differences between them, all sets of bins; additive values (counts, weights that add up without overflow or rounding)", "why_tests_cant": "relations between two runs, for all pairs of data sets of any length", "anchors": ["ndhistogram/src/histogram/vechistogram.rs: fill, fill_with, value_at_index", "ndhistogram/src/histogram/hashhistogram.rs: fill, fill_with, value_at_index", "ndhistogram/src/axis/uniform.rs: index", "ndhistogram/src/axis/variable.rs: index"]}
{"id": "C109", "title": "Bounds on weighted sums, means and their variances", "statement": "In exact arithmetic: the square of a WeightedSum is at most the number of fills times its variance, with equality exactly if all weights are equal; if no weight is negative it is at least the variance, so the effective number of entries get()^2/variance() lies between 1 and the number of fills; the variance is zero exactly if all weights are. For samples between lo and hi the variance_of_samples of a Mean, and of a WeightedMean without negative weights, is between 0 and (hi-mean)(mean-lo), hence at most the square of half the width; it is zero exactly if all samples (of non-zero weight) are equal; the variance of the mean lies between the variance of the samples divided by their number and the variance of the samples; at most a fraction variance/k^2 of the samples (of the weight) is k or more away from the mean. The same holds in every bin of a histogram. With floats the bounds hold up to rounding only.", "quantifier": "all lists of weights and samples, all bounds lo, hi, all distances k, all axes, bins and histories", "why_tests_cant": "inequalities over all data of any length", "anchors": ["ndhistogram/src/value/weightedsum.rs: get, variance", "ndhistogram/src/value/mean.rs: get, variance_of_samples, variance_of_mean", "ndhistogram/src/value/weightedmean.rs: get, variance_of_samples, variance_of_mean", "ndhistogram/src/histogram/vechistogram.rs: fill_with", "ndhistogram/src/histogram/hashhistogram.rs: fill_with"]}
{"id": "C110", "title": "More data, or larger weights, never lower a bin", "statement": "Fill a histogram of numbers that are not negative with weights that are not negative, with floats (rounding, zeros of both signs and infinity included) or with integers in a build with overflow checks. If some of the calls are left out and the weights of others are lowered, keeping the order, no call panics if none did before, and no bin holds more than before; so the contents never decrease while a histogram is being filled, and every bin holds at least each single weight that went into it. The same holds for the sum and the variance of a WeightedSum; the variances of float weights do not decrease with more data whatever the signs of the weights, NaN excepted. Without overflow checks integers wrap around and more data can mean less.", "quantifier": "all axes (no law assumed), all histograms with contents that are not negative, all sequences of fill and fill_with calls and all ways to thin out and lower them; all float formats and integer types", "why_tests_cant": "a relation between two runs for all data of any length, with rounding at every step", "anchors": ["ndhistogram/src/histogram/fill.rs: Fill, FillWith", "ndhistogram/src/histogram/vechistogram.rs: fill, fill_with", "ndhistogram/src/histogram/hashhistogram.rs: fill, fill_with", "ndhistogram/src/value/weightedsum.rs: fill, fill_with, get, variance"]}
{"id": "C111", "title": "Sums and products of histograms respect the order of their contents", "statement": "Take any expression of histograms with equal axes and non-negative numbers in which only + and * occur (any size and nesting, repetitions allowed), and replace the histograms by others whose bins are not negative and hold at most as much. With integers and overflow checks: if the program returned before it returns now, and no bin of the result holds more than before. With floats, whatever the roundings: in every bin in which the result was finite it is finite now, not negative and at most what it was; in expressions with + alone this holds with infinities too. Every bin of a sum of histograms with non-negative bins holds at least what each of the histograms holds there, so merging never lowers a bin. Sparse histograms: the same, a missing bin counting as 0. It does not hold without overflow checks, nor for products with infinity.", "quantifier": "all expressions with + and *, all axes with equal values equal to themselves, all histograms over them with non-negative bins, all integer types and float formats, all orders of the hash map; the general theorems: any value type and relation that the operators respect", "why_tests_cant": "a relation between the results of two programs, for all expressions and contents, with rounding in each operation", "anchors": ["ndhistogram/src/histogram/vechistogram.rs: impl_binary_op_with_immutable_borrow, impl_binary_op_with_scalar", "ndhistogram/src/histogram/hashhistogram.rs: impl_binary_op_with_immutable_borrow"]}
