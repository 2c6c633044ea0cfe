import Verif.Convert
import Verif.Sql
import Verif.Dates
/-
Fixed-point numbers, 256-bit integers and decimals: klickhouse/src/values/fixed_point.rs,
klickhouse/src/values/int256.rs, klickhouse/src/values/decimal.rs. The conversions of fixed-point numbers
to `f64` are in FixedF64.
-/
namespace Klick

/-! ### Fixed-point numbers -/

/-- `10iN.pow(e)` for a signed type of `w` bits, klickhouse/src/values/fixed_point.rs:13-23. -/
def powTenS (cfg : Cfg) (w e : Nat) : Res Int :=
  if 10 ^ e < 2 ^ (w - 1) then .ok ((10 ^ e : Nat) : Int)
  else if cfg.overflowChecks then .panic else .ok (BitVec.ofNat w (10 ^ e)).toInt

/-- `modulus`, klickhouse/src/values/fixed_point.rs:13-15,73-75,115-117 (`PRECISION as u32`). -/
def fpModulus (cfg : Cfg) (w p : Nat) : Res Int := powTenS cfg w (p % 2 ^ 32)

/-- `integer`, klickhouse/src/values/fixed_point.rs:17-19,77-79,119-121. Division panics in every build
when it divides by zero or overflows. -/
def fpInteger (cfg : Cfg) (w p : Nat) (raw : BitVec w) : Res Int :=
  powTenS cfg w (p % 2 ^ 32) >>= fun m =>
  if m = 0 ∨ (m = -1 ∧ raw.toInt = -(2 ^ (w - 1))) then .panic else .ok (raw.toInt.tdiv m)

/-- `fraction`, klickhouse/src/values/fixed_point.rs:21-23,81-83,123-125. -/
def fpFraction (cfg : Cfg) (w p : Nat) (raw : BitVec w) : Res Int :=
  powTenS cfg w (p % 2 ^ 32) >>= fun m =>
  if m = 0 ∨ (m = -1 ∧ raw.toInt = -(2 ^ (w - 1))) then .panic else .ok (raw.toInt.tmod m)

/-! ### 256-bit integers -/

/-- The array inside `i256` and `u256`, klickhouse/src/values/int256.rs:13,72: most significant byte
first. -/
def bytes256 (x : BitVec 256) : Bytes := be 32 x.toNat

/-- The number whose array is `b`, klickhouse/src/values/int256.rs:13,72. -/
def ofBytes256 (b : Bytes) : BitVec 256 := BitVec.ofNat 256 (unBe b)

/-- `From<i256> for (u128, u128)` and from `u256`, klickhouse/src/values/int256.rs:39-48,98-107. -/
def halves (x : BitVec 256) : BitVec 128 × BitVec 128 :=
  (BitVec.ofNat 128 (unBe ((bytes256 x).take 16)), BitVec.ofNat 128 (unBe ((bytes256 x).drop 16)))

/-- `From<(u128, u128)> for i256` and for `u256`, klickhouse/src/values/int256.rs:50-57,109-116. -/
def ofHalves (h : BitVec 128 × BitVec 128) : BitVec 256 := ofBytes256 (be 16 h.1.toNat ++ be 16 h.2.toNat)

/-- `From<i256> for u256` and `From<u256> for i256`: the same array, klickhouse/src/values/int256.rs:15-19,
91-95. -/
def reinterpret256 (x : BitVec 256) : BitVec 256 := ofBytes256 (bytes256 x)

/-! ### Decimals -/

/-- `rust_decimal::Decimal` (external crate): a mantissa of up to 96 bits and its sign, and a scale up to 28.
It stands for `mantissa / 10^scale`, klickhouse/src/values/decimal.rs:5-88. -/
structure Decimal where
  mantissa : Int
  scale : Nat
deriving DecidableEq, Repr

/-- `Decimal::try_new` and `Decimal::try_from_i128_with_scale` (external crate), klickhouse/src/values/decimal.rs:11-38. -/
def Decimal.try (m : Int) (scale : Nat) : Res Decimal :=
  if scale ≤ 28 ∧ m.natAbs < 2 ^ 96 then .ok ⟨m, scale⟩ else .err .serialize

/-- The `out_of_range` error of klickhouse/src/values/decimal.rs:7-9. -/
def decRange (name : Str) : Err := .deserialize (name ++ ch! " out of bounds for rust_decimal")

/-- `.map_err(|_| out_of_range(name))`, klickhouse/src/values/decimal.rs:16-38. -/
def Decimal.tryNamed (name : Str) (m : Int) (scale : Nat) : Res Decimal :=
  match Decimal.try m scale with
  | .ok d => .ok d
  | .err _ => .err (decRange name)
  | .panic => .panic

/-- `Decimal::from_sql`, klickhouse/src/values/decimal.rs:5-42. The type is looked at only for the error. -/
def Decimal.fromSql (t : Ty) (v : Value) : Res Decimal :=
  match v with
  | .int8 i => .ok ⟨i.toInt, 0⟩
  | .int16 i => .ok ⟨i.toInt, 0⟩
  | .int32 i => .ok ⟨i.toInt, 0⟩
  | .int64 i => .ok ⟨i.toInt, 0⟩
  | .int128 i => Decimal.tryNamed (ch! "i128") i.toInt 0
  | .uint8 i => .ok ⟨i.toNat, 0⟩
  | .uint16 i => .ok ⟨i.toNat, 0⟩
  | .uint32 i => .ok ⟨i.toNat, 0⟩
  | .uint64 i => Decimal.tryNamed (ch! "u128") i.toNat 0
  | .uint128 i =>
    if i.toNat < 2 ^ 127 then Decimal.tryNamed (ch! "u128") i.toNat 0 else .err (decRange (ch! "u128"))
  | .decimal32 p x => Decimal.tryNamed (ch! "Decimal32") x.toInt (p % 2 ^ 32)
  | .decimal64 p x => Decimal.tryNamed (ch! "Decimal64") x.toInt (p % 2 ^ 32)
  | .decimal128 p x => Decimal.tryNamed (ch! "Decimal128") x.toInt (p % 2 ^ 32)
  | _ => .err (unexpectedType t)

/-- A number as a `w`-bit integer, if it is in range (`try_into`, `checked_mul`), klickhouse/src/values/decimal.rs:50-76. -/
def toBits (w : Nat) (m : Int) : Res (BitVec w) :=
  if -(2 ^ (w - 1)) ≤ m ∧ m < 2 ^ (w - 1) then .ok (BitVec.ofInt w m) else .err .serialize

/-- `mantissa_to_scale`, klickhouse/src/values/decimal.rs:50-59; the callers have checked
`precision >= scale`. -/
def mantissaToScale (cfg : Cfg) (m : Int) (scale precision : Nat) : Res Int :=
  if precision = scale then .ok m
  else powTenS cfg 128 (precision - scale) >>= fun f => toBits 128 (m * f) >>= fun _ => .ok (m * f)

/-- `Decimal::to_sql`, klickhouse/src/values/decimal.rs:44-88. -/
def Decimal.toSql (cfg : Cfg) (hint : Option Ty) (d : Decimal) : Res Value :=
  match hint with
  | none => toBits 128 d.mantissa >>= fun x => .ok (.decimal128 d.scale x)
  | some (.decimal32 p) =>
    if p % 2 ^ 32 ≥ d.scale then
      mantissaToScale cfg d.mantissa d.scale (p % 2 ^ 32) >>= fun m => toBits 32 m >>= fun x => .ok (.decimal32 p x)
    else .err .serialize
  | some (.decimal64 p) =>
    if p % 2 ^ 32 ≥ d.scale then
      mantissaToScale cfg d.mantissa d.scale (p % 2 ^ 32) >>= fun m => toBits 64 m >>= fun x => .ok (.decimal64 p x)
    else .err .serialize
  | some (.decimal128 p) =>
    if p % 2 ^ 32 ≥ d.scale then
      mantissaToScale cfg d.mantissa d.scale (p % 2 ^ 32) >>= fun m => toBits 128 m >>= fun x => .ok (.decimal128 p x)
    else .err .serialize
  | some _ => .err .serialize

end Klick
