import Verif.Numeric
import Verif.Spec.Sql
import Verif.Spec.Layout
/-
Specification vocabulary for numbers (C49 to C52).
-/
namespace Klick.Spec
open Klick

/-- The decimals `rust_decimal` can represent. -/
def Decimal.Valid (d : Decimal) : Prop := d.scale ≤ 28 ∧ d.mantissa.natAbs < 2 ^ 96

/-- `a/10^s` and `b/10^t` are the same rational number. -/
def SameNumber (a : Int) (s : Nat) (b : Int) (t : Nat) : Prop := a * 10 ^ t = b * 10 ^ s

/-- The number a column value stands for, as an integer over a power of ten (exponent second). Strings, dates
and so on stand for none; `Int256`, `UInt256` and `Decimal256` are left out, the conversion has no arm for them. -/
def numberOf : Value → Option (Int × Nat)
  | .int8 i => some (i.toInt, 0) | .int16 i => some (i.toInt, 0) | .int32 i => some (i.toInt, 0)
  | .int64 i => some (i.toInt, 0) | .int128 i => some (i.toInt, 0)
  | .uint8 i => some (i.toNat, 0) | .uint16 i => some (i.toNat, 0) | .uint32 i => some (i.toNat, 0)
  | .uint64 i => some (i.toNat, 0) | .uint128 i => some (i.toNat, 0)
  | .decimal32 p x => some (x.toInt, p) | .decimal64 p x => some (x.toInt, p)
  | .decimal128 p x => some (x.toInt, p)
  | _ => none

/-- Decimal columns `rust_decimal` can be written to: width in bits and scale. -/
def decimalCol : Ty → Option (Nat × Nat)
  | .decimal32 p => some (32, p)
  | .decimal64 p => some (64, p)
  | .decimal128 p => some (128, p)
  | _ => none

/-- The range of a signed integer of `w` bits. -/
def InBits (w : Nat) (m : Int) : Prop := -(2 ^ (w - 1)) ≤ m ∧ m < 2 ^ (w - 1)

/-- The octets of a UUID (16) or an address (4 or 16), in the order they are written: `00112233-...` starts
with octet 0x00, `10.0.0.1` with octet 10. -/
def octets (n : Nat) (x : Nat) : Bytes := beBytes n x

end Klick.Spec
