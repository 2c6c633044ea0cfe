import Mathlib.Algebra.Order.Ring.Rat
import Mathlib.Algebra.Order.Group.Unbundled.Abs
/-
Specification vocabulary for `f64` (C88): the numbers it can represent and IEEE 754 rounding to nearest, ties to even. The range of
exponents is left out: no number here comes near its ends. A float is the number it stands for; zero has no sign here.
-/
namespace Klick.Spec

/-- The numbers with at most 53 significant binary digits. -/
def IsF64 (q : Rat) : Prop := ∃ (m : Int) (j k : Nat), m.natAbs < 2 ^ 53 ∧ q * 2 ^ k = m * 2 ^ j

/-- Those whose significand of 53 digits is even. -/
def EvenF64 (q : Rat) : Prop := ∃ (m : Int) (j k : Nat), 2 ^ 52 ≤ m.natAbs ∧ m.natAbs < 2 ^ 53 ∧ m % 2 = 0 ∧ q * 2 ^ k = m * 2 ^ j

/-- IEEE 754 rounding to nearest, ties to even. -/
structure RoundsToNearest (rnd : Rat → Rat) : Prop where
  float : ∀ q, IsF64 (rnd q)
  nearest : ∀ q d, IsF64 d → |rnd q - q| ≤ |d - q|
  even : ∀ q d, IsF64 d → d ≠ rnd q → |rnd q - q| = |d - q| → EvenF64 (rnd q)
  neg : ∀ q, rnd (-q) = -rnd q

/-- The number a fixed-point number stands for. -/
def fixedValue (p : Nat) (raw : Int) : Rat := raw / 10 ^ p

end Klick.Spec
