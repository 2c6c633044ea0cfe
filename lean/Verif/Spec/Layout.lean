import Verif.Spec.Column
/-
Specification vocabulary for the wire layout of columns, independent of the codecs.
-/
namespace Klick.Spec
open Klick

/-- Little-endian layout: byte `i` is digit `i` of the number in base 256. -/
def leBytes (n x : Nat) : Bytes := (List.range n).map (fun i => BitVec.ofNat 8 (x / 256 ^ i))
/-- Big-endian (network order) layout. -/
def beBytes (n x : Nat) : Bytes := (leBytes n x).reverse

/-- Number of bytes a value of a fixed-width type occupies on the wire. -/
def wireSize : Ty → Option Nat
  | .int8 | .uint8 | .enum8 _ => some 1
  | .int16 | .uint16 | .enum16 _ | .date | .bfloat16 => some 2
  | .int32 | .uint32 | .float32 | .decimal32 _ | .dateTime _ | .ipv4 => some 4
  | .int64 | .uint64 | .float64 | .decimal64 _ | .dateTime64 _ _ => some 8
  | .int128 | .uint128 | .decimal128 _ | .uuid | .ipv6 => some 16
  | .int256 | .uint256 | .decimal256 _ => some 32
  | _ => none

/-- The bytes ClickHouse specifies for a fixed-width value: numbers little-endian (two's complement
when signed), UUID as two little-endian 64-bit halves, the high one first, IPv6 in network order. -/
def wireBytes : Value → Bytes
  | .int8 x | .uint8 x | .enum8 x => leBytes 1 x.toNat
  | .int16 x | .uint16 x | .enum16 x | .date x | .bfloat16 x => leBytes 2 x.toNat
  | .int32 x | .uint32 x | .float32 x | .decimal32 _ x | .dateTime _ x | .ipv4 x => leBytes 4 x.toNat
  | .int64 x | .uint64 x | .float64 x | .decimal64 _ x | .dateTime64 _ x _ => leBytes 8 x.toNat
  | .int128 x | .uint128 x | .decimal128 _ x => leBytes 16 x.toNat
  | .int256 x | .uint256 x | .decimal256 _ x => leBytes 32 x.toNat
  | .uuid x => leBytes 8 (x.toNat / 2 ^ 64) ++ leBytes 8 (x.toNat % 2 ^ 64)
  | .ipv6 x => beBytes 16 x.toNat
  | _ => []

/-- The end offsets of rows of the given lengths: entry `i` is the total of lengths `0..i`. -/
def endOffsets (lens : List Nat) : List Nat :=
  (List.range lens.length).map (fun i => (lens.take (i + 1)).sum)

/-- A map seen as the array of its key/value pairs. -/
def mapAsArray : Value → Value
  | .map ks vs => .array (List.zipWith (fun k v => .tuple [k, v]) ks vs)
  | v => v

/-- Are the rows of such a column named by indices into a dictionary (`LowCardinality`, also inside `Nullable`)? Arrays, maps and tuples are
not, whatever they contain: their rows are counted by offsets or by the row count itself. -/
def rowsByIndex : Ty → Bool
  | .lowCardinality _ => true
  | .nullable t => rowsByIndex t
  | _ => false

mutual
/-- Does the type mention `LowCardinality`? -/
def usesLc : Ty → Bool
  | .lowCardinality _ => true
  | .array t | .nullable t => usesLc t
  | .map k v => usesLc k || usesLc v
  | .tuple ts => usesLcAny ts
  | _ => false
/-- Does any member type mention it? -/
def usesLcAny : List Ty → Bool
  | [] => false
  | t :: ts => usesLc t || usesLcAny ts
end

mutual
/-- Does the type mention `BFloat16`? -/
def usesBf16 : Ty → Bool
  | .bfloat16 => true
  | .array t | .nullable t | .lowCardinality t => usesBf16 t
  | .map k v => usesBf16 k || usesBf16 v
  | .tuple ts => usesBf16Any ts
  | _ => false
/-- Does any member type mention it? -/
def usesBf16Any : List Ty → Bool
  | [] => false
  | t :: ts => usesBf16 t || usesBf16Any ts
end

mutual
/-- Does the type mention `BFloat16` without the feature, or a `FixedString` longer than any buffer can be? -/
def unsupported (cfg : Cfg) : Ty → Bool
  | .bfloat16 => !cfg.bf16
  | .fixedString n => decide (2 ^ 63 ≤ n)
  | .array t | .nullable t | .lowCardinality t => unsupported cfg t
  | .map k v => unsupported cfg k || unsupported cfg v
  | .tuple ts => unsupportedAny cfg ts
  | _ => false
/-- Does any member type? -/
def unsupportedAny (cfg : Cfg) : List Ty → Bool
  | [] => false
  | t :: ts => unsupported cfg t || unsupportedAny cfg ts
end

mutual
/-- Does the type mention `Map`? -/
def usesMap : Ty → Bool
  | .map _ _ => true
  | .array t | .nullable t | .lowCardinality t => usesMap t
  | .tuple ts => usesMapAny ts
  | _ => false
/-- Does any member type mention it? -/
def usesMapAny : List Ty → Bool
  | [] => false
  | t :: ts => usesMap t || usesMapAny ts
end

mutual
/-- Does the type carry offsets of an array (arrays, rings, polygons, multipolygons)? -/
def usesOffsets : Ty → Bool
  | .array _ | .ring | .polygon | .multiPolygon => true
  | .nullable t | .lowCardinality t => usesOffsets t
  | .map k v => usesOffsets k || usesOffsets v
  | .tuple ts => usesOffsetsAny ts
  | _ => false
/-- Does any member type carry them? -/
def usesOffsetsAny : List Ty → Bool
  | [] => false
  | t :: ts => usesOffsets t || usesOffsetsAny ts
end

mutual
/-- `Nullable` is only applied to scalar and geometric types, and `LowCardinality` only to (possibly
nullable) ones of these; the shapes ClickHouse can announce. -/
def flatNullable : Ty → Bool
  | .nullable t => !t.nullableRefused
  | .array t => flatNullable t
  | .lowCardinality t => !t.stripNull.nullableRefused
  | .map k v => flatNullable k && flatNullable v
  | .tuple ts => flatNullableAll ts
  | _ => true
/-- Memberwise. -/
def flatNullableAll : List Ty → Bool
  | [] => true
  | t :: ts => flatNullable t && flatNullableAll ts
end

mutual
/-- The shape conditions that value validation does not check: tuples have one member per member
type, maps have as many keys as values, NULL does not stand for a geometric value, strings are
within the protocol's limit. -/
def Regular : Ty → Value → Prop
  | .string => fun v => match v with
    | .string b => b.length ≤ 2 ^ 30 | .array xs => xs.length ≤ 2 ^ 30 | _ => True
  | .array t => fun v => ∀ x ∈ elems v, Regular t x
  | .lowCardinality t => fun v => Regular t v
  | .nullable t => fun v => (v = .null → isGeo t = false) ∧ (v ≠ .null → Regular t v)
  | .map k t => fun v => (mapKeys v).length = (mapVals v).length ∧
      (∀ x ∈ mapKeys v, Regular k x) ∧ (∀ x ∈ mapVals v, Regular t x)
  | .tuple ts => fun v => (members v).length = ts.length ∧ RegularAll ts (members v)
  | _ => fun _ => True
/-- Memberwise. -/
def RegularAll : List Ty → List Value → Prop
  | [] => fun _ => True
  | t :: ts => fun vs => match vs with | [] => True | v :: vs => Regular t v ∧ RegularAll ts vs
end

mutual
/-- Values of an enum are among those its type declares, at every depth. -/
def EnumsDeclared : Ty → Value → Prop
  | .enum8 items => fun v => ∀ i, v = .enum8 i → ∃ name, (name, i) ∈ items
  | .enum16 items => fun v => ∀ i, v = .enum16 i → ∃ name, (name, i) ∈ items
  | .array t => fun v => ∀ x ∈ elems v, EnumsDeclared t x
  | .lowCardinality t => fun v => EnumsDeclared t v
  | .nullable t => fun v => EnumsDeclared t v
  | .map k t => fun v => (∀ x ∈ mapKeys v, EnumsDeclared k x) ∧ (∀ x ∈ mapVals v, EnumsDeclared t x)
  | .tuple ts => fun v => EnumsDeclaredAll ts (members v)
  | _ => fun _ => True
/-- Memberwise. -/
def EnumsDeclaredAll : List Ty → List Value → Prop
  | [] => fun _ => True
  | t :: ts => fun vs => match vs with | [] => True | v :: vs => EnumsDeclared t v ∧ EnumsDeclaredAll ts vs
end

end Klick.Spec
