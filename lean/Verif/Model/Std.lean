import Verif.Model.Basic
/-!
# The parts of `std` the crate relies on

These are not in the repository. Each is modelled by its documented contract; theorems quantify over
every implementation satisfying it (instance parameter `[StdLib]`), and `Verif.Lemmas.Std` shows that concrete
implementations (the two binary searches shipped by the supported Rust versions, and insertion sort)
satisfy the contracts.
-/
namespace NdHist

/-! ## `slice::sort_by` -/

/-- A comparison-based sorting procedure for `n` elements, which the procedure addresses by their original
position: it either asks for the comparison of two elements and continues according to the answer, or
stops with the final arrangement, or panics. Any deterministic `sort_by` that treats elements as opaque is of
this form. -/
inductive SortTree where
  | done (order : List Nat)
  | panic
  | ask (i j : Nat) (k : Ordering → SortTree)

namespace SortTree
/-- Run the procedure with a comparator on positions; `none` is a panic. -/
def run (c : Nat → Nat → Ordering) : SortTree → Option (List Nat)
  | .done l => some l
  | .panic => none
  | .ask i j k => run c (k (c i j))

/-- The comparisons asked for during a run. -/
def asked (c : Nat → Nat → Ordering) : SortTree → List (Nat × Nat)
  | .done _ => []
  | .panic => []
  | .ask i j k => (i, j) :: asked c (k (c i j))

/-- Every final arrangement is a permutation of the positions and only existing positions are compared. -/
def Wf (n : Nat) : SortTree → Prop
  | .done l => l.Perm (List.range n)
  | .panic => True
  | .ask i j k => i < n ∧ j < n ∧ ∀ o, Wf n (k o)
end SortTree

/-- `slice::sort_by`: for every length a procedure that never loses elements, and that for every comparator
implementing a total order (given by a rank function) stably sorts without panicking. For other comparators the order is
unspecified and it may panic (std documentation of `sort_by`). -/
structure SortAlg where
  tree : Nat → SortTree
  wf : ∀ n, (tree n).Wf n
  sorted : ∀ (n : Nat) (rank : Nat → Nat),
    ∃ l, (tree n).run (fun i j => compare (rank i) (rank j)) = some l ∧
      l.Pairwise (fun i j => rank i < rank j ∨ rank i = rank j ∧ i < j)

/-! ## `slice::binary_search_by` -/

/-- `Result<usize, usize>` of `binary_search_by` -/
inductive Found where
  | ok (i : Nat)
  | err (i : Nat)
deriving DecidableEq, Repr

/-- The answers of the comparator along a slice of length `n` are first `Less`, then `Equal`, then
`Greater`: the precondition in the documentation of `binary_search_by`. -/
def SearchSorted (n : Nat) (cmp : Nat → Ordering) : Prop :=
  ∀ i j, i ≤ j → j < n → (cmp j = .lt → cmp i = .lt) ∧ (cmp i = .gt → cmp j = .gt)

/-- `slice::binary_search_by` on a slice of length `n`, where `cmp i` is the comparator's answer for
the `i`-th element. Contract from the std documentation: if the slice is sorted, `Ok(i)` is the position of
some matching element ("if there are multiple matches, then any one of the matches could be
returned"), `Err(i)` the position where a matching element could be inserted. -/
structure SearchAlg where
  run : Nat → (Nat → Ordering) → Found
  ok_spec : ∀ n cmp i, SearchSorted n cmp → run n cmp = .ok i → i < n ∧ cmp i = .eq
  err_spec : ∀ n cmp i, SearchSorted n cmp → run n cmp = .err i →
    i ≤ n ∧ (∀ j, j < i → cmp j = .lt) ∧ (∀ j, i ≤ j → j < n → cmp j = .gt)

/-- An implementation of the standard library. -/
class StdLib where
  sort : SortAlg
  search : SearchAlg

/-! ## `HashMap` -/

/-- `std::collections::HashMap`: its entries, in no meaningful order. Operations that iterate over a
map take the iteration order as an explicit argument (`HMap.Order`), so theorems hold for every hasher,
seed and table layout. Keys are compared with `Eq`. -/
structure HMap (K V : Type) where
  entries : List (K × V)

namespace HMap
variable {K V : Type} [DecidableEq K]

/-- `HashMap::new` / `default` / `with_hasher` -/
def empty : HMap K V := ⟨[]⟩

/-- `HashMap::len` -/
def len (m : HMap K V) : Nat := m.entries.length

/-- lookup in an association list -/
def find (k : K) : List (K × V) → Option V
  | [] => none
  | (k', v) :: l => if k' = k then some v else find k l

/-- `HashMap::get` -/
def get (m : HMap K V) (k : K) : Option V := find k m.entries

/-- replace the value of a key, or append a new entry -/
def put (k : K) (v : V) : List (K × V) → List (K × V)
  | [] => [(k, v)]
  | (k', v') :: l => if k' = k then (k', v) :: l else (k', v') :: put k v l

/-- `HashMap::insert`; also a write through a `&mut V` obtained for an existing key. -/
def insert (m : HMap K V) (k : K) (v : V) : HMap K V := ⟨put k v m.entries⟩

/-- `HashMap::keys` in the order of the entries -/
def keys (m : HMap K V) : List K := m.entries.map (·.1)

/-- One possible order in which a map is iterated. -/
structure Order (m : HMap K V) where
  list : List (K × V)
  perm : list.Perm m.entries

/-- `iter.collect::<HashMap>()`: insertion in order. -/
def collect (l : List (K × V)) : HMap K V := l.foldl (fun m kv => m.insert kv.1 kv.2) empty

/-- Keys are unique: the invariant of every map built by `empty` and `insert` (`HMap.nodup_insert`). -/
def NodupKeys (m : HMap K V) : Prop := m.keys.Nodup

/-- `HashMap::eq`: same length, and every entry is present in the other map. `eqV` is the values'
`PartialEq`. -/
def beq (eqV : V → V → Bool) (m m' : HMap K V) : Bool :=
  m.len == m'.len && m.entries.all fun kv =>
    match m'.get kv.1 with
    | some v => eqV kv.2 v
    | none => false
end HMap

end NdHist
