import Verif.Model.BinInterval
/-!
# Bin intervals (C19)
-/
namespace NdHist
variable {T : Type}

/-- **C19 (end points).** An interval starting at a finite point reports it, and one without start reports none; same for
the end. In particular at least one end point is always finite, and the two determine the interval. -/
theorem C19_end_points (b b' : BinInterval T) :
    ((b.start = none ↔ ∃ e, b = .Underflow e) ∧ (b.stop = none ↔ ∃ s, b = .Overflow s)) ∧
    (∀ s e, b.start = some s ∧ b.stop = some e ↔ b = .Bin s e) ∧
    ¬ (b.start = none ∧ b.stop = none) ∧
    (b.start = b'.start ∧ b.stop = b'.stop → b = b') := by
  cases b <;> cases b' <;> simp [BinInterval.start, BinInterval.stop]

/-- **C19 (round trip).** Converting a range into an interval and back is lossless. -/
theorem C19_range_round_trip (r : Range T) (rt : RangeTo T) (rf : RangeFrom T) :
    (BinInterval.fromRange r).tryIntoRange = .ok r ∧
    (BinInterval.fromRangeTo rt).tryIntoRangeTo = .ok rt ∧
    (BinInterval.fromRangeFrom rf).tryIntoRangeFrom = .ok rf := ⟨rfl, rfl, rfl⟩

/-- **C19 (exactly one).** Every interval converts to exactly one of the three kinds of range, and converting the result
back gives the interval. -/
theorem C19_exactly_one_range (b : BinInterval T) :
    ((∃ r, b.tryIntoRange = .ok r ∧ BinInterval.fromRange r = b) ∧
        b.tryIntoRangeTo = .error .mk ∧ b.tryIntoRangeFrom = .error .mk) ∨
    ((∃ r, b.tryIntoRangeTo = .ok r ∧ BinInterval.fromRangeTo r = b) ∧
        b.tryIntoRange = .error .mk ∧ b.tryIntoRangeFrom = .error .mk) ∨
    ((∃ r, b.tryIntoRangeFrom = .ok r ∧ BinInterval.fromRangeFrom r = b) ∧
        b.tryIntoRange = .error .mk ∧ b.tryIntoRangeTo = .error .mk) := by
  cases b
  · exact Or.inr (Or.inl ⟨⟨_, rfl, rfl⟩, rfl, rfl⟩)
  · exact Or.inr (Or.inr ⟨⟨_, rfl, rfl⟩, rfl, rfl⟩)
  · exact Or.inl ⟨⟨_, rfl, rfl⟩, rfl, rfl⟩

/-- **C19 (end points agree with the ranges).** -/
theorem C19_range_end_points (b : BinInterval T) :
    (∀ r, b.tryIntoRange = .ok r → b.start = some r.start ∧ b.stop = some r.stop) ∧
    (∀ r, b.tryIntoRangeTo = .ok r → b.start = none ∧ b.stop = some r.stop) ∧
    (∀ r, b.tryIntoRangeFrom = .ok r → b.start = some r.start ∧ b.stop = none) := by
  cases b <;> simp [BinInterval.tryIntoRange, BinInterval.tryIntoRangeTo, BinInterval.tryIntoRangeFrom,
    BinInterval.start, BinInterval.stop]

/-- **C19 (single values).** A category interval reports its value, the overflow none. -/
theorem C19_single_value (v : T) (b : SingleValueBinInterval T) :
    (b.value = some v ↔ b = .new v) ∧ (b.value = none ↔ b = .overflow) := by
  cases b <;> simp [SingleValueBinInterval.value, SingleValueBinInterval.new, SingleValueBinInterval.overflow]

example : (BinInterval.Bin 1 2).start = some 1 ∧ (BinInterval.Underflow 3).stop = some 3 ∧
    (BinInterval.Overflow 3).tryIntoRange = (.error .mk : Except _ (Range Nat)) := ⟨rfl, rfl, rfl⟩
end NdHist
