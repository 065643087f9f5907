import Verif.Model.Fill
import Verif.Model.Float
/-!
# Conversions and functions of floats used by the means
-/
namespace NdHist

/-- `From<f64> for f64`, `From<f32> for f32` (core: the identity) -/
instance {F : FFmt} : RFrom (Flt F) (Flt F) := ⟨id⟩

/-- `From<u32> for f64` and the like (core: `as` casts). Rust has these only for integers that the float type represents exactly (at most 32 bits for `f64`, 16
for `f32`); the model rounds to nearest in general. -/
instance {F : FFmt} {τ : IntTy} : RFrom (MInt τ) (Flt F) := ⟨fun n => Flt.ofRat (n.val : ℚ)⟩

/-- `Signed::abs` of floats (num-traits: `f64::abs`) -/
instance {F : FFmt} : RAbs (Flt F) := ⟨fun x => .ok x.abs⟩

end NdHist
