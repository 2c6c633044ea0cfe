import Verif.Values
/-
Specification vocabulary for columns, independent of the codecs: which values a column of a type can
hold, which types make sense, what is read back, and the size limits of the protocol.
-/
namespace Klick.Spec
open Klick

/-- Types ClickHouse can compose, as far as reading and writing columns is concerned: `Nullable` only
around a non-composite type, `LowCardinality` only around (nullable) strings, dates, addresses and
integers; `BFloat16` only when the feature is compiled in; `FixedString(n)` only with an `n` that memory can hold. -/
inductive WellFormed (cfg : Cfg) : Ty → Prop where
  | int8 : WellFormed cfg .int8 | int16 : WellFormed cfg .int16 | int32 : WellFormed cfg .int32
  | int64 : WellFormed cfg .int64 | int128 : WellFormed cfg .int128 | int256 : WellFormed cfg .int256
  | uint8 : WellFormed cfg .uint8 | uint16 : WellFormed cfg .uint16
  | uint32 : WellFormed cfg .uint32 | uint64 : WellFormed cfg .uint64
  | uint128 : WellFormed cfg .uint128 | uint256 : WellFormed cfg .uint256
  | float32 : WellFormed cfg .float32 | float64 : WellFormed cfg .float64
  | bfloat16 : cfg.bf16 = true → WellFormed cfg .bfloat16
  | decimal32 {s} : WellFormed cfg (.decimal32 s) | decimal64 {s} : WellFormed cfg (.decimal64 s)
  | decimal128 {s} : WellFormed cfg (.decimal128 s) | decimal256 {s} : WellFormed cfg (.decimal256 s)
  | string : WellFormed cfg .string | fixedString {n} : n < 2 ^ 63 → WellFormed cfg (.fixedString n)
  | uuid : WellFormed cfg .uuid | date : WellFormed cfg .date
  | dateTime {tz} : WellFormed cfg (.dateTime tz)
  | dateTime64 {p tz} : WellFormed cfg (.dateTime64 p tz)
  | ipv4 : WellFormed cfg .ipv4 | ipv6 : WellFormed cfg .ipv6
  | point : WellFormed cfg .point | ring : WellFormed cfg .ring
  | polygon : WellFormed cfg .polygon | multiPolygon : WellFormed cfg .multiPolygon
  | enum8 {items} : WellFormed cfg (.enum8 items) | enum16 {items} : WellFormed cfg (.enum16 items)
  | array {t} : WellFormed cfg t → WellFormed cfg (.array t)
  | tuple {ts} : (∀ t ∈ ts, WellFormed cfg t) → WellFormed cfg (.tuple ts)
  | map {k v} : WellFormed cfg k → WellFormed cfg v → WellFormed cfg (.map k v)
  | nullable {t} : t.nullableRefused = false → WellFormed cfg t → WellFormed cfg (.nullable t)
  | lowCardinality {t} : t.lcAllowed = true → WellFormed cfg t → WellFormed cfg (.lowCardinality t)
  | lowCardinalityNullable {t} : t.lcAllowed = true → WellFormed cfg t → WellFormed cfg (.lowCardinality (.nullable t))

/-- The byte an 8-bit integer value stands for. -/
def byteOf : Value → Byte
  | .uint8 x => x
  | .int8 x => x
  | _ => 0

/-- An 8-bit integer, of either sign. -/
def ByteValue (v : Value) : Prop := (∃ x, v = .uint8 x) ∨ ∃ x, v = .int8 x

/-- The geometric types; the code cannot store a NULL of these (see C12). -/
def isGeo : Ty → Bool
  | .point | .ring | .polygon | .multiPolygon => true
  | _ => false

mutual
/-- `Storable cfg t v`: a column of type `t` can hold `v`. Scalars must be of the type's kind (same
scale, precision and time zone), except that an `Int8` column also takes `UInt8` and a string column
also takes an array of 8-bit integers; tuples must have one member per member type; maps must have
as many keys as values. -/
def Storable (cfg : Cfg) : Ty → Value → Prop
  | .int8 => fun v => (∃ x, v = .int8 x) ∨ (∃ x, v = .uint8 x)
  | .int16 => fun v => ∃ x, v = .int16 x
  | .int32 => fun v => ∃ x, v = .int32 x
  | .int64 => fun v => ∃ x, v = .int64 x
  | .int128 => fun v => ∃ x, v = .int128 x
  | .int256 => fun v => ∃ x, v = .int256 x
  | .uint8 => fun v => ∃ x, v = .uint8 x
  | .uint16 => fun v => ∃ x, v = .uint16 x
  | .uint32 => fun v => ∃ x, v = .uint32 x
  | .uint64 => fun v => ∃ x, v = .uint64 x
  | .uint128 => fun v => ∃ x, v = .uint128 x
  | .uint256 => fun v => ∃ x, v = .uint256 x
  | .float32 => fun v => ∃ x, v = .float32 x
  | .float64 => fun v => ∃ x, v = .float64 x
  | .bfloat16 => fun v => ∃ x, v = .bfloat16 x
  | .decimal32 s => fun v => ∃ x, v = .decimal32 s x
  | .decimal64 s => fun v => ∃ x, v = .decimal64 s x
  | .decimal128 s => fun v => ∃ x, v = .decimal128 s x
  | .decimal256 s => fun v => ∃ x, v = .decimal256 s x
  | .string => fun v =>
    (∃ b, v = .string b ∧ b.length ≤ 2 ^ 30) ∨
    (∃ xs, v = .array xs ∧ xs.length ≤ 2 ^ 30 ∧ ∀ x ∈ xs, ByteValue x)
  | .fixedString _ => fun v =>
    (∃ b, v = .string b) ∨ (∃ xs, v = .array xs ∧ ∀ x ∈ xs, ByteValue x)
  | .uuid => fun v => ∃ x, v = .uuid x
  | .date => fun v => ∃ x, v = .date x
  | .dateTime tz => fun v => ∃ x, v = .dateTime tz x
  | .dateTime64 p tz => fun v => ∃ x, v = .dateTime64 tz x p
  | .ipv4 => fun v => ∃ x, v = .ipv4 x
  | .ipv6 => fun v => ∃ x, v = .ipv6 x
  | .point => fun v => ∃ x, v = .point x
  | .ring => fun v => ∃ x, v = .ring x
  | .polygon => fun v => ∃ x, v = .polygon x
  | .multiPolygon => fun v => ∃ x, v = .multiPolygon x
  | .enum8 _ => fun v => ∃ x, v = .enum8 x
  | .enum16 _ => fun v => ∃ x, v = .enum16 x
  | .lowCardinality t => fun v => Storable cfg t v
  | .array t => fun v => ∃ xs, v = .array xs ∧ ∀ x ∈ xs, Storable cfg t x
  | .tuple ts => fun v => ∃ xs, v = .tuple xs ∧ StorableAll cfg ts xs
  | .nullable t => fun v => (v = .null ∧ isGeo t = false) ∨ Storable cfg t v
  | .map k t => fun v => ∃ ks vs, v = .map ks vs ∧ ks.length = vs.length ∧
      (∀ x ∈ ks, Storable cfg k x) ∧ (∀ x ∈ vs, Storable cfg t x)
/-- One member per member type. -/
def StorableAll (cfg : Cfg) : List Ty → List Value → Prop
  | [] => fun vs => vs = []
  | t :: ts => fun vs => ∃ x xs, vs = x :: xs ∧ Storable cfg t x ∧ StorableAll cfg ts xs
end

mutual
/-- What comes back after writing `v` into a column of type `t` and reading it: the value itself, up
to three normalisations: an unsigned byte in a signed column comes back signed (same bits), an array
of bytes in a string column comes back as a string, and a fixed string comes back cut to its first
`n` bytes and at the first NUL. -/
def canon : Ty → Value → Value
  | .int8 => fun v => match v with | .uint8 x => .int8 x | v => v
  | .string => fun v => match v with | .array xs => .string (xs.map byteOf) | v => v
  | .fixedString n => fun v => match v with
    | .string b => .string ((b.take n).takeWhile (fun x => x != 0#8))
    | .array xs => .string (((xs.map byteOf).take n).takeWhile (fun x => x != 0#8))
    | v => v
  | .lowCardinality t => fun v => canon t v
  | .array t => fun v => match v with | .array xs => .array (xs.map (fun x => canon t x)) | v => v
  | .tuple ts => fun v => match v with | .tuple xs => .tuple (canonAll ts xs) | v => v
  | .nullable t => fun v => match v with | .null => .null | v => canon t v
  | .map k t => fun v => match v with
    | .map ks vs => .map (ks.map (fun x => canon k x)) (vs.map (fun x => canon t x))
    | v => v
  | _ => fun v => v
/-- Memberwise. -/
def canonAll : List Ty → List Value → List Value
  | [] => fun vs => vs
  | t :: ts => fun vs => match vs with | [] => [] | v :: vs => canon t v :: canonAll ts vs
end

/-- Elements of an array value (none for anything else). -/
def elems : Value → List Value
  | .array xs => xs
  | _ => []
/-- Members of a tuple value. -/
def members : Value → List Value
  | .tuple xs => xs
  | _ => []
/-- Keys of a map value. -/
def mapKeys : Value → List Value
  | .map ks _ => ks
  | _ => []
/-- Values of a map value. -/
def mapVals : Value → List Value
  | .map _ vs => vs
  | _ => []
/-- Points of a ring value. -/
def ringOf : Value → List Pt
  | .ring r => r
  | _ => []
/-- Rings of a polygon value. -/
def polygonOf : Value → List (List Pt)
  | .polygon r => r
  | _ => []
/-- Polygons of a multipolygon value. -/
def multiOf : Value → List (List (List Pt))
  | .multiPolygon r => r
  | _ => []

mutual
/-- The protocol's size limit: no column, and no column of elements inside it, has more than 2^30
entries (the reader refuses larger ones). A dictionary may need one more entry than there are rows. -/
def Fits : Ty → List Value → Prop
  | .array t => fun vs => vs.length ≤ 2 ^ 30 ∧ Fits t (vs.flatMap elems)
  | .tuple ts => fun vs => vs.length ≤ 2 ^ 30 ∧ FitsAll ts (vs.map members)
  | .nullable t => fun vs => vs.length ≤ 2 ^ 30 ∧ Fits t vs
  | .map k t => fun vs =>
    vs.length ≤ 2 ^ 30 ∧ Fits k (vs.flatMap mapKeys) ∧ Fits t (vs.flatMap mapVals)
  | .lowCardinality _ => fun vs => vs.length < 2 ^ 30
  | .ring => fun vs => vs.length ≤ 2 ^ 30 ∧ (vs.flatMap ringOf).length ≤ 2 ^ 30
  | .polygon => fun vs => vs.length ≤ 2 ^ 30 ∧ (vs.flatMap polygonOf).length ≤ 2 ^ 30 ∧
      (vs.flatMap polygonOf).flatten.length ≤ 2 ^ 30
  | .multiPolygon => fun vs => vs.length ≤ 2 ^ 30 ∧ (vs.flatMap multiOf).length ≤ 2 ^ 30 ∧
      (vs.flatMap multiOf).flatten.length ≤ 2 ^ 30 ∧
      (vs.flatMap multiOf).flatten.flatten.length ≤ 2 ^ 30
  | _ => fun vs => vs.length ≤ 2 ^ 30
/-- Member columns of a tuple column. -/
def FitsAll : List Ty → List (List Value) → Prop
  | [] => fun _ => True
  | t :: ts => fun rows => Fits t (rows.map (fun r => r.headD .null)) ∧ FitsAll ts (rows.map List.tail)
end

end Klick.Spec
