import Verif.Numeric
import Mathlib.Algebra.Field.Rat
/-
Fixed-point numbers as floats: klickhouse/src/values/fixed_point.rs:44-48,86-90,128-132. The arithmetic of `f64` (IEEE 754, external) is
exact arithmetic followed by rounding, `rnd`, a parameter.
-/
namespace Klick

/-- `From<FixedPoint32<P>> for f64`, and from `FixedPoint64`, `FixedPoint128`, klickhouse/src/values/fixed_point.rs:44-48,86-90,128-132. -/
def fpToF64 (rnd : Rat → Rat) (cfg : Cfg) (w p : Nat) (raw : BitVec w) : Res Rat :=
  fpInteger cfg w p raw >>= fun i => fpFraction cfg w p raw >>= fun f => fpModulus cfg w p >>= fun m =>
  .ok (rnd (rnd i + rnd (rnd f / rnd m)))

end Klick
