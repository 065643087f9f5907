/-!
# Bin intervals (axis/bininterval/bininterval.rs, axis/bininterval/singlevaluebininterval.rs)
-/
namespace NdHist

/-- `BinInterval` (axis/bininterval/bininterval.rs:10-32) -/
inductive BinInterval (T : Type) where
  | Underflow (stop : T)
  | Overflow (start : T)
  | Bin (start stop : T)
deriving DecidableEq, Repr

namespace BinInterval
variable {T : Type}
/-- bininterval.rs:36-38 -/
def underflow (stop : T) : BinInterval T := .Underflow stop
/-- bininterval.rs:40-42 -/
def overflow (start : T) : BinInterval T := .Overflow start
/-- bininterval.rs:44-46 -/
def new (start stop : T) : BinInterval T := .Bin start stop
/-- bininterval.rs:53-59 -/
def start : BinInterval T → Option T
  | .Underflow _ => none
  | .Overflow s => some s
  | .Bin s _ => some s
/-- bininterval.rs:64-70 (`end` in Rust) -/
def stop : BinInterval T → Option T
  | .Underflow e => some e
  | .Overflow _ => none
  | .Bin _ e => some e
end BinInterval

/-- `std::ops::Range` -/
structure Range (T : Type) where
  start : T
  stop : T
deriving DecidableEq, Repr
/-- `std::ops::RangeTo` -/
structure RangeTo (T : Type) where
  stop : T
deriving DecidableEq, Repr
/-- `std::ops::RangeFrom` -/
structure RangeFrom (T : Type) where
  start : T
deriving DecidableEq, Repr
/-- `BinIntervalConversionError` (bininterval.rs:163-164) -/
inductive BinIntervalConversionError where
  | mk
deriving DecidableEq, Repr

namespace BinInterval
variable {T : Type}
/-- bininterval.rs:73-80 -/
def fromRange (r : Range T) : BinInterval T := .Bin r.start r.stop
/-- bininterval.rs:82-86 -/
def fromRangeTo (r : RangeTo T) : BinInterval T := .Underflow r.stop
/-- bininterval.rs:88-92 -/
def fromRangeFrom (r : RangeFrom T) : BinInterval T := .Overflow r.start
/-- bininterval.rs:94-103 -/
def tryIntoRange : BinInterval T → Except BinIntervalConversionError (Range T)
  | .Bin s e => .ok ⟨s, e⟩
  | _ => .error .mk
/-- bininterval.rs:105-114 -/
def tryIntoRangeTo : BinInterval T → Except BinIntervalConversionError (RangeTo T)
  | .Underflow e => .ok ⟨e⟩
  | _ => .error .mk
/-- bininterval.rs:116-125 -/
def tryIntoRangeFrom : BinInterval T → Except BinIntervalConversionError (RangeFrom T)
  | .Overflow s => .ok ⟨s⟩
  | _ => .error .mk
end BinInterval

/-- `SingleValueBinInterval` (axis/bininterval/singlevaluebininterval.rs:8-16) -/
inductive SingleValueBinInterval (T : Type) where
  | Overflow
  | Bin (value : T)
deriving DecidableEq, Repr

namespace SingleValueBinInterval
variable {T : Type}
/-- singlevaluebininterval.rs:20-22 -/
def new (value : T) : SingleValueBinInterval T := .Bin value
/-- singlevaluebininterval.rs:25-27 -/
def overflow : SingleValueBinInterval T := .Overflow
/-- singlevaluebininterval.rs:32-37 -/
def value : SingleValueBinInterval T → Option T
  | .Overflow => none
  | .Bin v => some v
end SingleValueBinInterval
end NdHist
