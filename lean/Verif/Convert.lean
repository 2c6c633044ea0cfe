import Verif.TypeText
import Verif.Codec
/-
Conversions between Rust values and column values: klickhouse/src/convert/std_serialize.rs,
klickhouse/src/convert/std_deserialize.rs, klickhouse/src/convert/vec_tuple.rs,
klickhouse/src/convert/unit_value.rs, klickhouse/src/values/bytes.rs and the `ToSql`/`FromSql` impls of
the scalar wrappers. The implementors are closed under nesting, so they are described by a universe of
codes (`RT`) with their Lean types (`RT.den`). Not in the universe: `Json<T>` (user serde code),
`&T`/`&mut T`/`&str` (clone and delegate), `chrono` types and `rust_decimal` (modelled in Dates and
Numeric).
-/
namespace Klick

/-! ### Type accessors -/

/-- `Type::unarray`, klickhouse/src/types/mod.rs:93-98. -/
def Ty.unarray : Ty → Option Ty
  | .array t => some t
  | _ => none
/-- `Type::unmap`, klickhouse/src/types/mod.rs:107-112. -/
def Ty.unmap : Ty → Option (Ty × Ty)
  | .map k v => some (k, v)
  | _ => none
/-- `Type::untuple`, klickhouse/src/types/mod.rs:121-126. -/
def Ty.untuple : Ty → Option (List Ty)
  | .tuple ts => some ts
  | _ => none
/-- `Type::unnull`, klickhouse/src/types/mod.rs:128-133. -/
def Ty.unnull : Ty → Option Ty
  | .nullable t => some t
  | _ => none

mutual
/-- `Value::guess_type`, klickhouse/src/values/mod.rs:261-306 (`unimplemented!()` for enums). -/
def Value.guessType : Value → Res Ty
  | .int8 _ => .ok .int8 | .int16 _ => .ok .int16 | .int32 _ => .ok .int32 | .int64 _ => .ok .int64
  | .int128 _ => .ok .int128 | .int256 _ => .ok .int256
  | .uint8 _ => .ok .uint8 | .uint16 _ => .ok .uint16 | .uint32 _ => .ok .uint32
  | .uint64 _ => .ok .uint64 | .uint128 _ => .ok .uint128 | .uint256 _ => .ok .uint256
  | .float32 _ => .ok .float32 | .float64 _ => .ok .float64 | .bfloat16 _ => .ok .bfloat16
  | .decimal32 p _ => .ok (.decimal32 p) | .decimal64 p _ => .ok (.decimal64 p)
  | .decimal128 p _ => .ok (.decimal128 p) | .decimal256 p _ => .ok (.decimal256 p)
  | .string _ => .ok .string | .uuid _ => .ok .uuid | .date _ => .ok .date
  | .dateTime tz _ => .ok (.dateTime tz)
  | .dateTime64 tz _ p => .ok (.dateTime64 p tz)
  | .enum8 _ => .panic | .enum16 _ => .panic
  | .array xs => Value.guessFirst xs >>= fun t => .ok (.array t)
  | .tuple xs => Value.guessAll xs >>= fun ts => .ok (.tuple ts)
  | .null => .ok (.nullable .string)
  | .map ks vs => Value.guessFirst ks >>= fun k => Value.guessFirst vs >>= fun v => .ok (.map k v)
  | .ipv4 _ => .ok .ipv4 | .ipv6 _ => .ok .ipv6
  | .point _ => .ok .point | .ring _ => .ok .ring | .polygon _ => .ok .polygon
  | .multiPolygon _ => .ok .multiPolygon
/-- `x.first().map(guess_type).unwrap_or(Type::String)`, klickhouse/src/values/mod.rs:289-297. -/
def Value.guessFirst : List Value → Res Ty
  | [] => .ok .string
  | v :: _ => v.guessType
/-- `values.iter().map(guess_type)`, klickhouse/src/values/mod.rs:292. -/
def Value.guessAll : List Value → Res (List Ty)
  | [] => .ok []
  | v :: vs => v.guessType >>= fun t => Value.guessAll vs >>= fun ts => .ok (t :: ts)
end

/-- `unexpected_type`, klickhouse/src/convert/mod.rs:29-31. -/
def unexpectedType (t : Ty) : Err := .deserialize (ch! "unexpected type: " ++ t.display)

/-! ### Scalars -/

/-- The scalar Rust types with `ToSql` and `FromSql`. `bf16` exists with the feature `bfloat16` only, klickhouse/src/convert/std_serialize.rs:13-96. -/
inductive Prim where
  | bool
  | u8 | u16 | u32 | u64 | u128 | u256
  | i8 | i16 | i32 | i64 | i128 | i256
  | f32 | f64 | bf16
  | uuid | ipv4 | ipv6
  | date | dateTime | dateTime64 (p : Nat)
  | fixed32 (p : Nat) | fixed64 (p : Nat) | fixed128 (p : Nat) | fixed256 (p : Nat)
  | point | ring | polygon | multiPolygon
deriving DecidableEq, Repr

/-- The values of a scalar type: numbers as bit patterns, `DateTime(pub Tz, pub u32)` (values/date.rs:94),
`DateTime64<P>(pub Tz, pub u64)` (values/date.rs:208), `FixedPointN<P>(pub iN)` (values/fixed_point.rs:10,52,94,136). -/
def Prim.den : Prim → Type
  | .bool => Bool
  | .u8 => BitVec 8 | .u16 => BitVec 16 | .u32 => BitVec 32 | .u64 => BitVec 64
  | .u128 => BitVec 128 | .u256 => BitVec 256
  | .i8 => BitVec 8 | .i16 => BitVec 16 | .i32 => BitVec 32 | .i64 => BitVec 64
  | .i128 => BitVec 128 | .i256 => BitVec 256
  | .f32 => BitVec 32 | .f64 => BitVec 64 | .bf16 => BitVec 16
  | .uuid => BitVec 128 | .ipv4 => BitVec 32 | .ipv6 => BitVec 128
  | .date => BitVec 16 | .dateTime => Tz × BitVec 32 | .dateTime64 _ => Tz × BitVec 64
  | .fixed32 _ => BitVec 32 | .fixed64 _ => BitVec 64 | .fixed128 _ => BitVec 128
  | .fixed256 _ => BitVec 256
  | .point => Pt | .ring => List Pt | .polygon => List (List Pt)
  | .multiPolygon => List (List (List Pt))

/-- `to_sql` of the scalars (all ignore the hint): klickhouse/src/convert/std_serialize.rs:13-96,
values/int256.rs:21-25,74-78, values/date.rs:37-41,124-128,280-284, values/fixed_point.rs:26-30,54-58,
96-100,138-142, values/ip.rs:82-86,100-104, values/clickhouse_uuid.rs:9-13, values/geo.rs:50-54. -/
def Prim.toValue : (p : Prim) → p.den → Value
  | .bool => fun (b : Bool) => .uint8 (if b then 1#8 else 0#8)
  | .u8 => .uint8 | .u16 => .uint16 | .u32 => .uint32 | .u64 => .uint64 | .u128 => .uint128
  | .u256 => .uint256
  | .i8 => .int8 | .i16 => .int16 | .i32 => .int32 | .i64 => .int64 | .i128 => .int128
  | .i256 => .int256
  | .f32 => .float32 | .f64 => .float64 | .bf16 => .bfloat16
  | .uuid => .uuid | .ipv4 => .ipv4 | .ipv6 => .ipv6
  | .date => .date
  | .dateTime => fun (x : Tz × BitVec 32) => .dateTime x.1 x.2
  | .dateTime64 p => fun (x : Tz × BitVec 64) => .dateTime64 x.1 x.2 p
  | .fixed32 p => .decimal32 p | .fixed64 p => .decimal64 p
  | .fixed128 p => .decimal128 p | .fixed256 p => .decimal256 p
  | .point => .point | .ring => .ring | .polygon => .polygon | .multiPolygon => .multiPolygon

/-- The `matches!(type_, ..)` guard of the scalars' `from_sql`: klickhouse/src/convert/std_deserialize.rs:13-178,
values/date.rs:43-46,130-133,286-289, values/fixed_point.rs:32-35,60-63,102-105,144-147, and likewise
in int256.rs, ip.rs, clickhouse_uuid.rs, geo.rs. -/
def Prim.accepts : Prim → Ty → Bool
  | .bool => fun t => match t with | .uint8 => true | _ => false
  | .u8 => fun t => match t with | .uint8 => true | _ => false
  | .u16 => fun t => match t with | .uint16 => true | _ => false
  | .u32 => fun t => match t with | .uint32 => true | _ => false
  | .u64 => fun t => match t with | .uint64 => true | _ => false
  | .u128 => fun t => match t with | .uint128 => true | _ => false
  | .u256 => fun t => match t with | .uint256 => true | _ => false
  | .i8 => fun t => match t with | .int8 => true | _ => false
  | .i16 => fun t => match t with | .int16 => true | _ => false
  | .i32 => fun t => match t with | .int32 => true | _ => false
  | .i64 => fun t => match t with | .int64 => true | _ => false
  | .i128 => fun t => match t with | .int128 => true | _ => false
  | .i256 => fun t => match t with | .int256 => true | _ => false
  | .f32 => fun t => match t with | .float32 => true | _ => false
  | .f64 => fun t => match t with | .float64 => true | _ => false
  | .bf16 => fun t => match t with | .bfloat16 => true | _ => false
  | .uuid => fun t => match t with | .uuid => true | _ => false
  | .ipv4 => fun t => match t with | .ipv4 => true | _ => false
  | .ipv6 => fun t => match t with | .ipv6 => true | _ => false
  | .date => fun t => match t with | .date => true | _ => false
  | .dateTime => fun t => match t with | .dateTime _ => true | _ => false
  | .dateTime64 p => fun t => match t with | .dateTime64 q _ => q == p | _ => false
  | .fixed32 p => fun t => match t with | .decimal32 q => q == p | _ => false
  | .fixed64 p => fun t => match t with | .decimal64 q => q == p | _ => false
  | .fixed128 p => fun t => match t with | .decimal128 q => q == p | _ => false
  | .fixed256 p => fun t => match t with | .decimal256 q => q == p | _ => false
  | .point => fun t => match t with | .point => true | _ => false
  | .ring => fun t => match t with | .ring => true | _ => false
  | .polygon => fun t => match t with | .polygon => true | _ => false
  | .multiPolygon => fun t => match t with | .multiPolygon => true | _ => false

/-- The `match value` of the same functions; `none` is `unimplemented!()`. The scale or precision inside
the value is not looked at, klickhouse/src/convert/std_deserialize.rs:13-178. -/
def Prim.ofValue : (p : Prim) → Value → Option p.den
  | .bool => fun v => match v with | .uint8 x => some (x != 0#8) | _ => none
  | .u8 => fun v => match v with | .uint8 x => some x | _ => none
  | .u16 => fun v => match v with | .uint16 x => some x | _ => none
  | .u32 => fun v => match v with | .uint32 x => some x | _ => none
  | .u64 => fun v => match v with | .uint64 x => some x | _ => none
  | .u128 => fun v => match v with | .uint128 x => some x | _ => none
  | .u256 => fun v => match v with | .uint256 x => some x | _ => none
  | .i8 => fun v => match v with | .int8 x => some x | _ => none
  | .i16 => fun v => match v with | .int16 x => some x | _ => none
  | .i32 => fun v => match v with | .int32 x => some x | _ => none
  | .i64 => fun v => match v with | .int64 x => some x | _ => none
  | .i128 => fun v => match v with | .int128 x => some x | _ => none
  | .i256 => fun v => match v with | .int256 x => some x | _ => none
  | .f32 => fun v => match v with | .float32 x => some x | _ => none
  | .f64 => fun v => match v with | .float64 x => some x | _ => none
  | .bf16 => fun v => match v with | .bfloat16 x => some x | _ => none
  | .uuid => fun v => match v with | .uuid x => some x | _ => none
  | .ipv4 => fun v => match v with | .ipv4 x => some x | _ => none
  | .ipv6 => fun v => match v with | .ipv6 x => some x | _ => none
  | .date => fun v => match v with | .date x => some x | _ => none
  | .dateTime => fun v => match v with | .dateTime tz x => some (tz, x) | _ => none
  | .dateTime64 _ => fun v => match v with | .dateTime64 tz x _ => some (tz, x) | _ => none
  | .fixed32 _ => fun v => match v with | .decimal32 _ x => some x | _ => none
  | .fixed64 _ => fun v => match v with | .decimal64 _ x => some x | _ => none
  | .fixed128 _ => fun v => match v with | .decimal128 _ x => some x | _ => none
  | .fixed256 _ => fun v => match v with | .decimal256 _ x => some x | _ => none
  | .point => fun v => match v with | .point x => some x | _ => none
  | .ring => fun v => match v with | .ring x => some x | _ => none
  | .polygon => fun v => match v with | .polygon x => some x | _ => none
  | .multiPolygon => fun v => match v with | .multiPolygon x => some x | _ => none

/-- Key equality of scalars (derived `PartialEq` = equal bits; `f32`, `f64` and the geo types are no
`Eq` in Rust and cannot be keys of a map), klickhouse/src/convert/std_deserialize.rs:219-283. -/
def Prim.keyEq : (p : Prim) → p.den → p.den → Bool
  | .bool => fun (a b : Bool) => a == b
  | .u8 => fun (a b : BitVec 8) => a == b | .u16 => fun (a b : BitVec 16) => a == b
  | .u32 => fun (a b : BitVec 32) => a == b | .u64 => fun (a b : BitVec 64) => a == b
  | .u128 => fun (a b : BitVec 128) => a == b | .u256 => fun (a b : BitVec 256) => a == b
  | .i8 => fun (a b : BitVec 8) => a == b | .i16 => fun (a b : BitVec 16) => a == b
  | .i32 => fun (a b : BitVec 32) => a == b | .i64 => fun (a b : BitVec 64) => a == b
  | .i128 => fun (a b : BitVec 128) => a == b | .i256 => fun (a b : BitVec 256) => a == b
  | .f32 => fun (a b : BitVec 32) => a == b | .f64 => fun (a b : BitVec 64) => a == b
  | .bf16 => fun (a b : BitVec 16) => a == b
  | .uuid => fun (a b : BitVec 128) => a == b | .ipv4 => fun (a b : BitVec 32) => a == b
  | .ipv6 => fun (a b : BitVec 128) => a == b
  | .date => fun (a b : BitVec 16) => a == b
  | .dateTime => fun (a b : Tz × BitVec 32) => a == b
  | .dateTime64 _ => fun (a b : Tz × BitVec 64) => a == b
  | .fixed32 _ => fun (a b : BitVec 32) => a == b | .fixed64 _ => fun (a b : BitVec 64) => a == b
  | .fixed128 _ => fun (a b : BitVec 128) => a == b | .fixed256 _ => fun (a b : BitVec 256) => a == b
  | .point => fun (a b : Pt) => a == b | .ring => fun (a b : List Pt) => a == b
  | .polygon => fun (a b : List (List Pt)) => a == b
  | .multiPolygon => fun (a b : List (List (List Pt))) => a == b

/-! ### Compound types -/

/-- The Rust types: scalars, `String`, `Bytes`, `Value`, `Vec<T>`, `[T; N]`, `Option<T>`, `Box<T>`,
`VecTuple<T>`, tuples (1 to 16 members in Rust, any number here), maps (`HashMap`, `BTreeMap`,
`IndexMap`: one code, see `RT.den`). The universe also has codes Rust would refuse (a map keyed by `f64`,
an array of non-`Copy` values); statements about them are vacuous in Rust, klickhouse/src/convert/std_serialize.rs:13-246. -/
inductive RT where
  | prim (p : Prim)
  | string
  | bytes
  | value
  | vec (t : RT)
  | array (t : RT) (n : Nat)
  | option (t : RT)
  | box (t : RT)
  | vecTuple (t : RT)
  | tuple (ts : List RT)
  | map (k v : RT)

mutual
/-- The values of a Rust type. A map is the list of its entries in iteration order; that its keys are
distinct is an invariant of maps, not of this type (`Spec.Faithful`). A `HashMap` has the same entries in
some order, a `BTreeMap` in the order of its keys: equality of these maps is equality of the lists up to
order, klickhouse/src/convert/std_serialize.rs:13-246. -/
def RT.den : RT → Type
  | .prim p => p.den
  | .string => Str
  | .bytes => Bytes
  | .value => Value
  | .vec t => List t.den
  | .array t n => { xs : List t.den // xs.length = n }
  | .option t => Option t.den
  | .box t => t.den
  | .vecTuple t => List t.den
  | .tuple ts => RT.dens ts
  | .map k v => List (k.den × v.den)
/-- Tuples of values, klickhouse/src/convert/std_serialize.rs:211-246. -/
def RT.dens : List RT → Type
  | [] => Unit
  | t :: ts => t.den × RT.dens ts
end

mutual
/-- Key equality (`Eq` of the key type): structural, klickhouse/src/convert/std_deserialize.rs:219-283. -/
def RT.keyEq : (t : RT) → t.den → t.den → Bool
  | .prim p => p.keyEq
  | .string => fun (a b : Str) => a == b
  | .bytes => fun (a b : Bytes) => a == b
  | .value => Value.eqv
  | .vec t => fun (a b : List t.den) => listEqv (RT.keyEq t) a b
  | .array t n => fun (a b : { xs : List t.den // xs.length = n }) => listEqv (RT.keyEq t) a.1 b.1
  | .option t => fun (a b : Option t.den) =>
    match a, b with
    | none, none => true
    | some x, some y => RT.keyEq t x y
    | _, _ => false
  | .box t => fun (a b : t.den) => RT.keyEq t a b
  | .vecTuple t => fun (a b : List t.den) => listEqv (RT.keyEq t) a b
  | .tuple ts => RT.keyEqs ts
  | .map k v => fun (a b : List (k.den × v.den)) =>
    listEqv (fun x y => RT.keyEq k x.1 y.1 && RT.keyEq v x.2 y.2) a b
/-- Memberwise, klickhouse/src/convert/std_deserialize.rs:219-283. -/
def RT.keyEqs : (ts : List RT) → RT.dens ts → RT.dens ts → Bool
  | [] => fun _ _ => true
  | t :: ts => fun (a b : t.den × RT.dens ts) => RT.keyEq t a.1 b.1 && RT.keyEqs ts a.2 b.2
end

/-- The `transmute::<Vec<T>, Vec<u8>>` of klickhouse/src/convert/std_serialize.rs:116-122, guarded by the
two `TypeId` tests: `none` when `T` is neither `u8` nor `i8`. -/
def RT.asBytes : (t : RT) → List t.den → Option Bytes
  | .prim .u8 => fun (xs : List (BitVec 8)) => some xs
  | .prim .i8 => fun (xs : List (BitVec 8)) => some xs
  | _ => fun _ => none

/-- The converse `transmute::<Vec<u8>, Vec<T>>` of klickhouse/src/convert/std_deserialize.rs:203-208. -/
def RT.ofBytes : (t : RT) → Bytes → Option (List t.den)
  | .prim .u8 => fun (xs : List (BitVec 8)) => some xs
  | .prim .i8 => fun (xs : List (BitVec 8)) => some xs
  | _ => fun _ => none

/-- `matches!(type_hint, Some(Type::String) | Some(Type::FixedString(_)))`,
klickhouse/src/convert/std_serialize.rs:115. -/
def hintIsString : Option Ty → Bool
  | some .string => true
  | some (.fixedString _) => true
  | _ => false

/-- The element hint of `Vec` and arrays, klickhouse/src/convert/std_serialize.rs:112-114,182-184. -/
def elemHint (h : Option Ty) : Option Ty := (h.bind Ty.unarray).map Ty.stripLowCardinality

/-- The member hints of tuples, `untuple()?.get(i)`: klickhouse/src/convert/std_serialize.rs:216-220,
convert/vec_tuple.rs:15. No hints and too few hints both give `None`. -/
def memberHints (h : Option Ty) : List Ty := (h.bind Ty.untuple).getD []

/-- `enumerate().map(|(i, x)| x.to_sql(hints.get(i)))`, klickhouse/src/convert/vec_tuple.rs:11-17. -/
def mapHints {α : Type} (f : Option Ty → α → Res Value) : List Ty → List α → Res (List Value)
  | _, [] => .ok []
  | hs, x :: xs => f hs.head? x >>= fun v => mapHints f hs.tail xs >>= fun vs => .ok (v :: vs)

/-- `Bytes::to_sql`, klickhouse/src/values/bytes.rs:11-27. -/
def bytesToSql : Option Ty → Bytes → Value
  | some (.array .uint8), b => .array (b.map .uint8)
  | some (.array .int8), b => .array (b.map .int8)
  | _, b => .string b

/-- `Vec::to_sql`, klickhouse/src/convert/std_serialize.rs:110-130; `asB` is the transmute, `f` the elements'
`to_sql`. -/
def vecToSql {α : Type} (asB : List α → Option Bytes) (f : Option Ty → α → Res Value) (h : Option Ty) (xs : List α) :
    Res Value :=
  let arr := Res.mapL (f (elemHint h)) xs >>= fun vs => .ok (.array vs)
  if hintIsString (elemHint h) then
    match asB xs with
    | some b => .ok (.string b)
    | none => arr
  else arr

/-- `[T; N]::to_sql`, klickhouse/src/convert/std_serialize.rs:180-191. -/
def arrayToSql {α : Type} (f : Option Ty → α → Res Value) (h : Option Ty) (xs : List α) : Res Value :=
  Res.mapL (f (elemHint h)) xs >>= fun vs => .ok (.array vs)

/-- `Option::to_sql`, klickhouse/src/convert/std_serialize.rs:171-178. -/
def optionToSql {α : Type} (f : Option Ty → α → Res Value) (h : Option Ty) : Option α → Res Value
  | some y => f (h.bind Ty.unnull) y
  | none => .ok .null

/-- `to_sql` of maps, klickhouse/src/convert/std_serialize.rs:132-169. -/
def mapToSql {K V : Type} (fk : Option Ty → K → Res Value) (fv : Option Ty → V → Res Value) (h : Option Ty)
    (es : List (K × V)) : Res Value :=
  Res.mapL (fun e : K × V =>
    fk ((h.bind Ty.unmap).map Prod.fst) e.1 >>= fun a =>
    fv ((h.bind Ty.unmap).map Prod.snd) e.2 >>= fun b => .ok (a, b)) es >>= fun kvs =>
  .ok (.map (kvs.map Prod.fst) (kvs.map Prod.snd))

mutual
/-- `ToSql::to_sql`, klickhouse/src/convert/std_serialize.rs (whole file), convert/vec_tuple.rs:9-19,
convert/mod.rs:23-27, values/bytes.rs:11-27. The first argument after the type is the hint. -/
def RT.toSql : (t : RT) → Option Ty → t.den → Res Value
  | .prim p => fun _ x => .ok (p.toValue x)
  | .string => fun _ (s : Str) => .ok (.string (utf8Encode s))
  | .bytes => fun h b => .ok (bytesToSql h b)
  | .value => fun _ (v : Value) => .ok v
  | .vec t => fun h xs => vecToSql t.asBytes (RT.toSql t) h xs
  | .array t n => fun h (xs : { xs : List t.den // xs.length = n }) => arrayToSql (RT.toSql t) h xs.1
  | .option t => fun h x => optionToSql (RT.toSql t) h x
  | .box t => fun h x => RT.toSql t h x
  | .vecTuple t => fun h xs => mapHints (RT.toSql t) (memberHints h) xs >>= fun vs => .ok (.tuple vs)
  | .tuple ts => fun h x => RT.toSqls ts (memberHints h) x >>= fun vs => .ok (.tuple vs)
  | .map k v => fun h es => mapToSql (RT.toSql k) (RT.toSql v) h es
/-- The members of a tuple in order, klickhouse/src/convert/std_serialize.rs:216-222. -/
def RT.toSqls : (ts : List RT) → List Ty → RT.dens ts → Res (List Value)
  | [] => fun _ _ => .ok []
  | t :: ts => fun hs (x : t.den × RT.dens ts) =>
    RT.toSql t hs.head? x.1 >>= fun v => RT.toSqls ts hs.tail x.2 >>= fun vs => .ok (v :: vs)
end

/-- `Prim` part of `from_sql`: guard, then `match value`, klickhouse/src/convert/std_deserialize.rs:13-178. -/
def Prim.fromSql (p : Prim) (t : Ty) (v : Value) : Res p.den :=
  if p.accepts t then
    match p.ofValue v with
    | some x => .ok x
    | none => .panic
  else .err (unexpectedType t)

/-- `String::from_sql`, klickhouse/src/convert/std_deserialize.rs:182-192. -/
def stringFromSql (t : Ty) (v : Value) : Res Str :=
  match t with
  | .string | .fixedString _ =>
    match v with
    | .string b =>
      match utf8Decode b with
      | some s => .ok s
      | none => .err .utf8
    | _ => .panic
  | t => .err (unexpectedType t)

/-- One element of `Bytes::from_sql` on an array, klickhouse/src/values/bytes.rs:40-46. -/
def bytesElem : Value → Res Byte
  | .uint8 x => .ok x
  | .int8 x => .ok x
  | v => v.guessType >>= fun t => .err (unexpectedType t)

/-- `Bytes::from_sql`, klickhouse/src/values/bytes.rs:29-54. -/
def bytesFromSql (t : Ty) (v : Value) : Res Bytes :=
  match t with
  | .string | .fixedString _ =>
    match v with
    | .string b => .ok b
    | _ => .panic
  | .array .uint8 | .array .int8 =>
    match v with
    | .array xs => Res.mapL bytesElem xs
    | _ => .panic
  | t => .err (unexpectedType t)

/-- `*subtype == Type::UInt8 || *subtype == Type::Int8`, klickhouse/src/convert/std_deserialize.rs:202. -/
def isByteTy : Ty → Bool
  | .uint8 | .int8 => true
  | _ => false

/-- `map.insert(key, value)` (`HashMap`, `BTreeMap`, `IndexMap`): an equal key keeps its place and its key,
and gets the new value; otherwise the entry is added, klickhouse/src/convert/std_deserialize.rs:219-283. -/
def mapInsert {K V : Type} (eq : K → K → Bool) (k : K) (v : V) : List (K × V) → List (K × V)
  | [] => [(k, v)]
  | e :: es => if eq e.1 k then (e.1, v) :: es else e :: mapInsert eq k v es

/-- The loop of the maps' `from_sql`, klickhouse/src/convert/std_deserialize.rs:231-233. -/
def readEntries {K V : Type} (eq : K → K → Bool) (fk : Value → Res K) (fv : Value → Res V) :
    List (K × V) → List (Value × Value) → Res (List (K × V))
  | out, [] => .ok out
  | out, (a, b) :: r => fk a >>= fun k => fv b >>= fun v => readEntries eq fk fv (mapInsert eq k v out) r

/-- `for (type_, value) in subtype.iter().zip(values)`, klickhouse/src/convert/vec_tuple.rs:38-41. -/
def mapTypes {α : Type} (f : Ty → Value → Res α) : List Ty → List Value → Res (List α)
  | t :: ts, v :: vs => f t v >>= fun x => mapTypes f ts vs >>= fun xs => .ok (x :: xs)
  | _, _ => .ok []

/-- The length errors of klickhouse/src/convert/std_deserialize.rs:343-348 and vec_tuple.rs:31-37. -/
def lengthErr (expected got : Nat) : Err :=
  .deserialize (ch! "unexpected type: mismatch tuple length expected " ++ dec expected ++ ch! ", got " ++ dec got)

/-- The length error of klickhouse/src/convert/std_deserialize.rs:307-311. -/
def arrayLengthErr (got expected : Nat) : Err :=
  .deserialize (ch! "invalid length for array: " ++ dec got ++ ch! " expected " ++ dec expected)

/-- Keep a list of the right length, klickhouse/src/convert/std_deserialize.rs:306-321. -/
def withLength {α : Type} (n : Nat) (xs : List α) : Res { ys : List α // ys.length = n } :=
  if h : xs.length = n then .ok ⟨xs, h⟩ else .panic

/-- `Vec::from_sql`, klickhouse/src/convert/std_deserialize.rs:194-217; `ofB` is the transmute, `f` the
elements' `from_sql`. -/
def vecFromSql {α : Type} (ofB : Bytes → Option (List α)) (f : Ty → Value → Res α) (ty : Ty) (v : Value) :
    Res (List α) :=
  match ty with
  | .array s =>
    match v with
    | .string b =>
      if isByteTy s.stripLowCardinality then
        match ofB b with
        | some xs => .ok xs
        | none => .err (unexpectedType s.stripLowCardinality)
      else .panic
    | .array vs => Res.mapL (f s.stripLowCardinality) vs
    | _ => .panic
  | ty => .err (unexpectedType ty)

/-- `[T; N]::from_sql`, klickhouse/src/convert/std_deserialize.rs:298-322. -/
def arrayFromSql {α : Type} (n : Nat) (f : Ty → Value → Res α) (ty : Ty) (v : Value) :
    Res { xs : List α // xs.length = n } :=
  match ty with
  | .array s =>
    match v with
    | .array vs =>
      if vs.length = n then Res.mapL (f s.stripLowCardinality) vs >>= fun xs => withLength n xs
      else .err (arrayLengthErr vs.length n)
    | _ => .panic
  | ty => .err (unexpectedType ty)

/-- The subtype of `Option::from_sql`, klickhouse/src/convert/std_deserialize.rs:287-290. -/
def optionSub : Ty → Ty
  | .nullable s => s.stripLowCardinality
  | ty => ty

/-- `Option::from_sql`, klickhouse/src/convert/std_deserialize.rs:285-296. -/
def optionFromSql {α : Type} (f : Ty → Value → Res α) (ty : Ty) (v : Value) : Res (Option α) :=
  match v with
  | .null => .ok none
  | v => f (optionSub ty) v >>= fun x => .ok (some x)

/-- `VecTuple::from_sql`, klickhouse/src/convert/vec_tuple.rs:21-44. -/
def vecTupleFromSql {α : Type} (f : Ty → Value → Res α) (ty : Ty) (v : Value) : Res (List α) :=
  match ty with
  | .tuple ts =>
    match v with
    | .tuple vs =>
      if vs.length = ts.length then mapTypes f ts vs
      else .err (lengthErr ts.length vs.length)
    | _ => .panic
  | ty => .err (unexpectedType ty)

/-- `from_sql` of tuples, klickhouse/src/convert/std_deserialize.rs:330-359; `n` is the number of members,
`f` reads them. -/
def tupleFromSql {α : Type} (n : Nat) (f : List Ty → List Value → Res α) (ty : Ty) (v : Value) : Res α :=
  match ty with
  | .tuple ts =>
    match v with
    | .tuple vs =>
      if vs.length = ts.length then
        if vs.length = n then f ts vs
        else .err (lengthErr n vs.length)
      else .err (lengthErr ts.length vs.length)
    | _ => .panic
  | ty => .err (unexpectedType ty)

/-- `from_sql` of maps, klickhouse/src/convert/std_deserialize.rs:219-283. -/
def mapFromSql {K V : Type} (eq : K → K → Bool) (fk : Ty → Value → Res K) (fv : Ty → Value → Res V) (ty : Ty) (v : Value) :
    Res (List (K × V)) :=
  match ty with
  | .map kt vt =>
    match v with
    | .map ks vs => readEntries eq (fk kt.stripLowCardinality) (fv vt.stripLowCardinality) [] (ks.zip vs)
    | _ => .panic
  | ty => .err (unexpectedType ty)

mutual
/-- `FromSql::from_sql`, klickhouse/src/convert/std_deserialize.rs (whole file), convert/vec_tuple.rs:21-44,
convert/mod.rs:38-42, values/bytes.rs:29-54. -/
def RT.fromSql : (t : RT) → Ty → Value → Res t.den
  | .prim p => p.fromSql
  | .string => stringFromSql
  | .bytes => bytesFromSql
  | .value => fun _ v => .ok v
  | .vec t => vecFromSql t.ofBytes (RT.fromSql t)
  | .array t n => arrayFromSql n (RT.fromSql t)
  | .option t => optionFromSql (RT.fromSql t)
  | .box t => RT.fromSql t
  | .vecTuple t => vecTupleFromSql (RT.fromSql t)
  | .tuple rs => tupleFromSql rs.length (RT.fromSqls rs)
  | .map k w => mapFromSql (RT.keyEq k) (RT.fromSql k) (RT.fromSql w)
/-- The members of a tuple in order, klickhouse/src/convert/std_deserialize.rs:349-354; `subtype[$n]` and
`pop_front().unwrap()` panic when they run out. -/
def RT.fromSqls : (rs : List RT) → List Ty → List Value → Res (RT.dens rs)
  | [] => fun _ _ => .ok ()
  | r :: rs => fun ts vs =>
    match ts, vs with
    | t :: ts, v :: vs =>
      RT.fromSql r t.stripLowCardinality v >>= fun x => RT.fromSqls rs ts vs >>= fun xs => .ok (x, xs)
    | _, _ => .panic
end

/-! ### `UnitValue` -/

/-- `UnitValue::serialize_row`, klickhouse/src/convert/unit_value.rs:24-32; the hints are the types of the
columns in order. -/
def unitSerialize (t : RT) (hints : List Ty) (x : t.den) : Res (List (Str × Value)) :=
  t.toSql hints.head? x >>= fun v => .ok [(ch! "_", v)]

/-- `UnitValue::deserialize_row`, klickhouse/src/convert/unit_value.rs:16-22. -/
def unitDeserialize (t : RT) (row : List (Str × Ty × Value)) : Res t.den :=
  match row with
  | [] => .err (.missingField (ch! "<unit>"))
  | e :: _ => t.fromSql e.2.1 e.2.2

end Klick
