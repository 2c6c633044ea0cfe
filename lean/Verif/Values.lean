import Verif.Io
/-
Values, defaults and validation: klickhouse/src/values/mod.rs, klickhouse/src/types/mod.rs.
-/
namespace Klick

/-- `Point(pub [f64; 2])`, klickhouse/src/values/geo.rs:10. Floats are kept as their bit patterns. -/
structure Pt where
  x : BitVec 64
  y : BitVec 64
deriving DecidableEq, Repr

/-- `Value`, klickhouse/src/values/mod.rs:39-89. Floats are bit patterns (`to_bits`). `i256`/`u256`
are `[u8; 32]` in big-endian order in the code (values/int256.rs:13,72); the model keeps the 256-bit
number and goes through `be`/`unBe` wherever the code touches the array. `Uuid`, `Ipv4Addr` and
`Ipv6Addr` are the numbers of their big-endian octets (`as_u128`, `u32::from`, `u128::from`).
`Ring`, `Polygon`, `MultiPolygon` (values/geo.rs:34-46) are nested lists of points. -/
inductive Value where
  | int8 (x : BitVec 8) | int16 (x : BitVec 16) | int32 (x : BitVec 32) | int64 (x : BitVec 64)
  | int128 (x : BitVec 128) | int256 (x : BitVec 256)
  | uint8 (x : BitVec 8) | uint16 (x : BitVec 16) | uint32 (x : BitVec 32) | uint64 (x : BitVec 64)
  | uint128 (x : BitVec 128) | uint256 (x : BitVec 256)
  | float32 (x : BitVec 32) | float64 (x : BitVec 64) | bfloat16 (x : BitVec 16)
  | decimal32 (p : Nat) (x : BitVec 32) | decimal64 (p : Nat) (x : BitVec 64)
  | decimal128 (p : Nat) (x : BitVec 128) | decimal256 (p : Nat) (x : BitVec 256)
  | string (b : Bytes)
  | uuid (x : BitVec 128)
  | date (d : BitVec 16)
  | dateTime (tz : Tz) (t : BitVec 32)
  | dateTime64 (tz : Tz) (t : BitVec 64) (p : Nat)
  | enum8 (x : BitVec 8) | enum16 (x : BitVec 16)
  | array (xs : List Value)
  | tuple (xs : List Value)
  | null
  | map (ks vs : List Value)
  | ipv4 (x : BitVec 32) | ipv6 (x : BitVec 128)
  | point (p : Pt) | ring (r : List Pt) | polygon (r : List (List Pt))
  | multiPolygon (r : List (List (List Pt)))
deriving Repr

/-- IEEE 754 `==` on two `f64` given by their bits (used by the derived `PartialEq` of `Point`,
klickhouse/src/values/geo.rs:5): NaN differs from everything, the two zeros are equal. -/
def f64Eq (a b : BitVec 64) : Bool :=
  let isNan (x : BitVec 64) : Bool := decide (x.toNat % 2 ^ 63 > 0x7FF0000000000000)
  let isZero (x : BitVec 64) : Bool := decide (x.toNat % 2 ^ 63 = 0)
  !isNan a && !isNan b && (a == b || (isZero a && isZero b))

/-- Derived `PartialEq` on `Point`, klickhouse/src/values/geo.rs:5-10. -/
def Pt.eqv (p q : Pt) : Bool := f64Eq p.x q.x && f64Eq p.y q.y

/-- Elementwise `Vec` equality, klickhouse/src/values/mod.rs:120-132. -/
def listEqv {α : Type} (f : α → α → Bool) : List α → List α → Bool
  | [], [] => true
  | x :: xs, y :: ys => f x y && listEqv f xs ys
  | _, _ => false

mutual
/-- `impl PartialEq for Value`, klickhouse/src/values/mod.rs:91-132. Two values of different
constructors are unequal (the final arm compares discriminants), two nulls are equal. -/
def Value.eqv : Value → Value → Bool
  | .int8 x => fun w => match w with | .int8 y => x == y | _ => false
  | .int16 x => fun w => match w with | .int16 y => x == y | _ => false
  | .int32 x => fun w => match w with | .int32 y => x == y | _ => false
  | .int64 x => fun w => match w with | .int64 y => x == y | _ => false
  | .int128 x => fun w => match w with | .int128 y => x == y | _ => false
  | .int256 x => fun w => match w with | .int256 y => x == y | _ => false
  | .uint8 x => fun w => match w with | .uint8 y => x == y | _ => false
  | .uint16 x => fun w => match w with | .uint16 y => x == y | _ => false
  | .uint32 x => fun w => match w with | .uint32 y => x == y | _ => false
  | .uint64 x => fun w => match w with | .uint64 y => x == y | _ => false
  | .uint128 x => fun w => match w with | .uint128 y => x == y | _ => false
  | .uint256 x => fun w => match w with | .uint256 y => x == y | _ => false
  | .float32 x => fun w => match w with | .float32 y => x == y | _ => false
  | .float64 x => fun w => match w with | .float64 y => x == y | _ => false
  | .bfloat16 x => fun w => match w with | .bfloat16 y => x == y | _ => false
  | .decimal32 p x => fun w => match w with | .decimal32 q y => p == q && x == y | _ => false
  | .decimal64 p x => fun w => match w with | .decimal64 q y => p == q && x == y | _ => false
  | .decimal128 p x => fun w => match w with | .decimal128 q y => p == q && x == y | _ => false
  | .decimal256 p x => fun w => match w with | .decimal256 q y => p == q && x == y | _ => false
  | .string x => fun w => match w with | .string y => x == y | _ => false
  | .uuid x => fun w => match w with | .uuid y => x == y | _ => false
  | .date x => fun w => match w with | .date y => x == y | _ => false
  | .dateTime tz x => fun w => match w with | .dateTime tz' y => tz == tz' && x == y | _ => false
  | .dateTime64 tz x p => fun w =>
    match w with | .dateTime64 tz' y q => tz == tz' && x == y && p == q | _ => false
  | .enum8 x => fun w => match w with | .enum8 y => x == y | _ => false
  | .enum16 x => fun w => match w with | .enum16 y => x == y | _ => false
  | .array xs => fun w => match w with | .array ys => Value.eqvs xs ys | _ => false
  | .tuple xs => fun w => match w with | .tuple ys => Value.eqvs xs ys | _ => false
  | .null => fun w => match w with | .null => true | _ => false
  | .map ks vs => fun w =>
    match w with | .map ks' vs' => Value.eqvs ks ks' && Value.eqvs vs vs' | _ => false
  | .ipv4 x => fun w => match w with | .ipv4 y => x == y | _ => false
  | .ipv6 x => fun w => match w with | .ipv6 y => x == y | _ => false
  | .point p => fun w => match w with | .point q => p.eqv q | _ => false
  | .ring r => fun w => match w with | .ring r' => listEqv Pt.eqv r r' | _ => false
  | .polygon r => fun w => match w with | .polygon r' => listEqv (listEqv Pt.eqv) r r' | _ => false
  | .multiPolygon r => fun w =>
    match w with | .multiPolygon r' => listEqv (listEqv (listEqv Pt.eqv)) r r' | _ => false
/-- `Vec<Value>` equality, part of klickhouse/src/values/mod.rs:120-122. -/
def Value.eqvs : List Value → List Value → Bool
  | [] => fun ys => match ys with | [] => true | _ :: _ => false
  | x :: xs => fun ys => match ys with | [] => false | y :: ys => x.eqv y && Value.eqvs xs ys
end

/-- `value == &Value::Null`, klickhouse/src/types/mod.rs:1055-1057. -/
def Value.isNull : Value → Bool
  | .null => true
  | _ => false

/-- `Type::strip_null`, klickhouse/src/types/mod.rs:135-140. -/
def Ty.stripNull : Ty → Ty
  | .nullable t => t
  | t => t

/-- `Type::is_nullable`, klickhouse/src/types/mod.rs:142-144. -/
def Ty.isNullable : Ty → Bool
  | .nullable _ => true
  | _ => false

/-- `Type::strip_low_cardinality`, klickhouse/src/types/mod.rs:190-195. -/
def Ty.stripLowCardinality : Ty → Ty
  | .lowCardinality t => t
  | t => t

mutual
/-- `Type::default_value`, klickhouse/src/types/mod.rs:146-188. Panics for `BFloat16` when the
feature is off (`default_bf16_value`, values/bfloat16.rs:66-69). -/
def Ty.defaultValue (cfg : Cfg) : Ty → Res Value
  | .int8 => .ok (.int8 0) | .int16 => .ok (.int16 0) | .int32 => .ok (.int32 0)
  | .int64 => .ok (.int64 0) | .int128 => .ok (.int128 0) | .int256 => .ok (.int256 0)
  | .uint8 => .ok (.uint8 0) | .uint16 => .ok (.uint16 0) | .uint32 => .ok (.uint32 0)
  | .uint64 => .ok (.uint64 0) | .uint128 => .ok (.uint128 0) | .uint256 => .ok (.uint256 0)
  | .float32 => .ok (.float32 0) | .float64 => .ok (.float64 0)
  | .bfloat16 => if cfg.bf16 then .ok (.bfloat16 0) else .panic
  | .decimal32 s => .ok (.decimal32 s 0) | .decimal64 s => .ok (.decimal64 s 0)
  | .decimal128 s => .ok (.decimal128 s 0) | .decimal256 s => .ok (.decimal256 s 0)
  | .string => .ok (.string []) | .fixedString _ => .ok (.string [])
  | .uuid => .ok (.uuid 0)
  | .date => .ok (.date 0)
  | .dateTime tz => .ok (.dateTime tz 0)
  | .dateTime64 p tz => .ok (.dateTime64 tz 0 p)
  | .ipv4 => .ok (.ipv4 0) | .ipv6 => .ok (.ipv6 0)
  | .point => .ok (.point ⟨0, 0⟩) | .ring => .ok (.ring []) | .polygon => .ok (.polygon [])
  | .multiPolygon => .ok (.multiPolygon [])
  | .enum8 _ => .ok (.enum8 0) | .enum16 _ => .ok (.enum16 0)
  | .lowCardinality t => Ty.defaultValue cfg t
  | .array _ => .ok (.array [])
  | .tuple ts => Ty.defaultValues cfg ts >>= fun vs => .ok (.tuple vs)
  | .nullable _ => .ok .null
  | .map _ _ => .ok (.map [] [])
/-- The `map(|x| x.default_value())` of klickhouse/src/types/mod.rs:184. -/
def Ty.defaultValues (cfg : Cfg) : List Ty → Res (List Value)
  | [] => .ok []
  | t :: ts => Ty.defaultValue cfg t >>= fun v => Ty.defaultValues cfg ts >>= fun vs => .ok (v :: vs)
end

/-- `Value::justify_null_ref`, klickhouse/src/values/mod.rs:242-248. -/
def Value.justifyNull (cfg : Cfg) (t : Ty) (v : Value) : Res Value :=
  if v.isNull then t.defaultValue cfg else .ok v

/-- Types allowed inside `LowCardinality` after `strip_null`, klickhouse/src/types/mod.rs:907-931. -/
def Ty.lcAllowed : Ty → Bool
  | .string | .fixedString _ | .date | .dateTime _ | .ipv4 | .ipv6
  | .int8 | .int16 | .int32 | .int64 | .int128 | .int256
  | .uint8 | .uint16 | .uint32 | .uint64 | .uint128 | .uint256 => true
  | _ => false

/-- Types refused directly inside `Nullable`, klickhouse/src/types/mod.rs:941-955. -/
def Ty.nullableRefused : Ty → Bool
  | .array _ | .map _ _ | .lowCardinality _ | .tuple _ | .nullable _ => true
  | _ => false

/-- Map key types, klickhouse/src/types/mod.rs:957-982. -/
def Ty.mapKeyAllowed : Ty → Bool
  | .string | .fixedString _
  | .int8 | .int16 | .int32 | .int64 | .int128 | .int256
  | .uint8 | .uint16 | .uint32 | .uint64 | .uint128 | .uint256
  | .lowCardinality _ | .uuid | .date | .dateTime _ | .dateTime64 _ _ | .enum8 _ | .enum16 _ => true
  | _ => false

mutual
/-- `Type::validate`, klickhouse/src/types/mod.rs:873-989 (`true` is `Ok(())`, `false` is the
`TypeParseError`; the texts of the errors are dropped). -/
def Ty.validate : Ty → Bool
  | .decimal32 p => !(p == 0 || decide (p > 9))
  | .dateTime64 p _ => !(p == 0 || decide (p > 18))
  | .decimal64 p => !(p == 0 || decide (p > 18))
  | .decimal128 p => !(p == 0 || decide (p > 38))
  | .decimal256 p => !(p == 0 || decide (p > 76))
  | .lowCardinality t => t.stripNull.lcAllowed && Ty.validate t
  | .array t => Ty.validate t
  | .tuple ts => Ty.validates ts
  | .nullable t => !t.nullableRefused && Ty.validate t
  | .map k v => k.mapKeyAllowed && Ty.validate k && Ty.validate v
  | _ => true
/-- The loop over tuple members, klickhouse/src/types/mod.rs:936-940. -/
def Ty.validates : List Ty → Bool
  | [] => true
  | t :: ts => Ty.validate t && Ty.validates ts
end

/-- Is the value an 8-bit integer (`Value::UInt8(_) | Value::Int8(_)`)? See klickhouse/src/types/mod.rs:1001-1064. -/
def Value.isByte : Value → Bool
  | .uint8 _ | .int8 _ => true
  | _ => false

mutual
/-- `Type::inner_validate_value`, klickhouse/src/types/mod.rs:1001-1064. -/
def Ty.innerValidate (cfg : Cfg) : Ty → Value → Bool
  | .int8 => fun v => match v with | .int8 _ => true | .uint8 _ => true | _ => false
  | .int16 => fun v => match v with | .int16 _ => true | _ => false
  | .int32 => fun v => match v with | .int32 _ => true | _ => false
  | .int64 => fun v => match v with | .int64 _ => true | _ => false
  | .int128 => fun v => match v with | .int128 _ => true | _ => false
  | .int256 => fun v => match v with | .int256 _ => true | _ => false
  | .uint8 => fun v => match v with | .uint8 _ => true | _ => false
  | .uint16 => fun v => match v with | .uint16 _ => true | _ => false
  | .uint32 => fun v => match v with | .uint32 _ => true | _ => false
  | .uint64 => fun v => match v with | .uint64 _ => true | _ => false
  | .uint128 => fun v => match v with | .uint128 _ => true | _ => false
  | .uint256 => fun v => match v with | .uint256 _ => true | _ => false
  | .float32 => fun v => match v with | .float32 _ => true | _ => false
  | .float64 => fun v => match v with | .float64 _ => true | _ => false
  | .bfloat16 => fun v => match v with | .bfloat16 _ => cfg.bf16 | _ => false
  | .decimal32 p => fun v => match v with | .decimal32 q _ => p == q | _ => false
  | .decimal64 p => fun v => match v with | .decimal64 q _ => p == q | _ => false
  | .decimal128 p => fun v => match v with | .decimal128 q _ => p == q | _ => false
  | .decimal256 p => fun v => match v with | .decimal256 q _ => p == q | _ => false
  | .string => fun v => match v with
    | .array xs => xs.all Value.isByte | .string _ => true | _ => false
  | .fixedString _ => fun v => match v with
    | .array xs => xs.all Value.isByte | .string _ => true | _ => false
  | .uuid => fun v => match v with | .uuid _ => true | _ => false
  | .date => fun v => match v with | .date _ => true | _ => false
  | .dateTime tz => fun v => match v with | .dateTime tz' _ => tz == tz' | _ => false
  | .dateTime64 p tz => fun v =>
    match v with | .dateTime64 tz' _ q => tz == tz' && p == q | _ => false
  | .ipv4 => fun v => match v with | .ipv4 _ => true | _ => false
  | .ipv6 => fun v => match v with | .ipv6 _ => true | _ => false
  | .point => fun v => match v with | .point _ => true | _ => false
  | .ring => fun v => match v with | .ring _ => true | _ => false
  | .polygon => fun v => match v with | .polygon _ => true | _ => false
  | .multiPolygon => fun v => match v with | .multiPolygon _ => true | _ => false
  | .enum8 items => fun v => match v with | .enum8 i => items.any (fun e => e.2 == i) | _ => false
  | .enum16 items => fun v => match v with | .enum16 i => items.any (fun e => e.2 == i) | _ => false
  | .lowCardinality t => fun v => Ty.innerValidate cfg t v
  | .array t => fun v =>
    match v with | .array xs => xs.all (fun x => Ty.innerValidate cfg t x) | _ => false
  | .tuple ts => fun v => match v with | .tuple xs => Ty.innerValidateZip cfg ts xs | _ => false
  | .nullable t => fun v => v.isNull || Ty.innerValidate cfg t v
  | .map k t => fun v =>
    match v with
    | .map ks vs => ks.all (fun x => Ty.innerValidate cfg k x) && vs.all (fun x => Ty.innerValidate cfg t x)
    | _ => false
/-- The `zip` of klickhouse/src/types/mod.rs:1051-1054: stops at the shorter list. -/
def Ty.innerValidateZip (cfg : Cfg) : List Ty → List Value → Bool
  | [] => fun _ => true
  | t :: ts => fun vs =>
    match vs with
    | [] => true
    | v :: vs => Ty.innerValidate cfg t v && Ty.innerValidateZip cfg ts vs
end

/-- Whether `Type::validate_value`, klickhouse/src/types/mod.rs:991-999, returns `Ok(())`. How it fails otherwise: `Ty.checkValue` (Verif/Query.lean). -/
def Ty.validateValue (cfg : Cfg) (t : Ty) (v : Value) : Bool := t.validate && t.innerValidate cfg v

end Klick
