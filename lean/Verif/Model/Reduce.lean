import Verif.Model.Parallel
/-!
# Parallel reductions (feature `rayon`; histogram/vechistogram.rs:373-417, histogram/hashhistogram.rs:423-466)

`par_values` and `par_iter` return parallel iterators, which are mostly consumed by `map(..).reduce(..)` or `sum()`. `rayon` is not in the repository. It divides the items where it
likes, as often as it likes, folds the items of an undivided part one after another, beginning with the identity, and combines the results of two parts, left and right; a
panic in a part is resumed after both have ended, the left one's first.
-/
namespace NdHist

/-- how rayon divides a parallel iterator -/
inductive Split (α : Type) where
  | part (items : List α)
  | join (l r : Split α)

namespace Split
variable {α β : Type}

/-- the items, in order -/
def items : Split α → List α
  | part l => l
  | join l r => l.items ++ r.items

/-- the greatest number of operations that follow one another -/
def depth : Split α → Nat
  | part l => l.length
  | join l r => max l.depth r.depth + 1

/-- `.map(f).reduce(|| id, op)`; with `+` and zero it is `.map(f).sum()` -/
def reduce (f : α → Res β) (op : β → β → Res β) (id : β) : Split α → Res β
  | part l => l.foldlM (fun acc x => do let y ← f x; op acc y) id
  | join l r => do
    let a ← l.reduce f op id
    let b ← r.reduce f op id
    op a b
end Split

/-- the sequential `.map(f).fold(id, op)` -/
def foldSeq {α β : Type} (f : α → Res β) (op : β → β → Res β) (id : β) (l : List α) : Res β :=
  l.foldlM (fun acc x => do let y ← f x; op acc y) id

/-- `par_values()` of a sparse histogram (hashhistogram.rs:427-432): the values, in whatever order the map yields its entries -/
def HashHistogram.parValues {A V : Type} (h : HashHistogram A V) (o : h.values.Order) : List V := o.list.map (·.2)
end NdHist
