import Verif.TypeText
/-
Specification vocabulary for type names (C18-C22).
-/
namespace Klick.Spec
open Klick

/-- Characters that separate arguments in a type name. -/
def Separator (c : Char) : Prop := c = '(' ∨ c = ')' ∨ c = ','

/-- An enum variant name with nothing that the argument syntax gives a meaning to: no parenthesis,
comma or equals sign, and no leading or trailing white space. -/
def PlainName (name : Str) : Prop :=
  trim name = name ∧ ∀ c ∈ name, ¬ Separator c ∧ c ≠ '='

/-- A zone of the time-zone database (whose names never contain a parenthesis or a comma). -/
def KnownZone (cfg : Cfg) (tz : Tz) : Prop := cfg.isTz tz = true ∧ ∀ c ∈ tz, ¬ Separator c

mutual
/-- Types whose parameters are machine integers, whose time zones exist, whose enum names are plain
and which use BFloat16 only when the feature is on. -/
def TextOk (cfg : Cfg) : Ty → Prop
  | .decimal32 s | .decimal64 s | .decimal128 s | .decimal256 s | .fixedString s => s < 2 ^ 64
  | .dateTime tz => KnownZone cfg tz
  | .dateTime64 p tz => p < 2 ^ 64 ∧ KnownZone cfg tz
  | .enum8 items => ∀ it ∈ items, PlainName it.1
  | .enum16 items => ∀ it ∈ items, PlainName it.1
  | .bfloat16 => cfg.bf16 = true
  | .lowCardinality t => TextOk cfg t
  | .array t => TextOk cfg t
  | .nullable t => TextOk cfg t
  | .map k v => TextOk cfg k ∧ TextOk cfg v
  | .tuple ts => TextsOk cfg ts
  | _ => True
/-- Every member satisfies `TextOk`. -/
def TextsOk (cfg : Cfg) : List Ty → Prop
  | [] => True
  | t :: ts => TextOk cfg t ∧ TextsOk cfg ts
end

/-- The code points of Unicode's `White_Space`, one by one. -/
def whiteCodes : List Nat :=
  [0x9, 0xA, 0xB, 0xC, 0xD, 0x20, 0x85, 0xA0, 0x1680, 0x2000, 0x2001, 0x2002, 0x2003, 0x2004, 0x2005, 0x2006, 0x2007, 0x2008, 0x2009, 0x200A,
   0x2028, 0x2029, 0x202F, 0x205F, 0x3000]

/-- White space is these characters, and no others. -/
theorem white_iff (c : Char) : isWs c = true ↔ c.toNat ∈ whiteCodes := by
  simp only [isWs, whiteCodes, List.mem_cons, List.not_mem_nil, or_false, Bool.or_eq_true, Bool.and_eq_true, beq_iff_eq, decide_eq_true_eq]
  omega

/-- Only white space. -/
def Blank (s : Str) : Prop := ∀ c ∈ s, isWs c = true

/-- The text has, somewhere, a single quote standing alone as an argument or as an enum name. -/
def LoneQuote (s : Str) : Prop :=
  ∃ a o w w' c b, s = a ++ o :: (w ++ '\'' :: (w' ++ c :: b)) ∧ (o = '(' ∨ o = ',') ∧ Blank w ∧
    Blank w' ∧ (c = ',' ∨ c = ')' ∨ c = '=')

/-- Text of the shape `name`, or `name(arg, ...)` with white space allowed around each piece, where
an argument is again such a text or any text without parentheses or commas. -/
inductive CallShape : Str → Prop
  | leaf (s : Str) : (∀ c ∈ s, ¬ Separator c) → CallShape s
  | call (head : Str) (args : List Str) (tail : Str) : (∀ c ∈ head, ¬ Separator c) →
      (∀ a ∈ args, CallShape a) → Blank tail →
      CallShape (head ++ '(' :: joinComma args ++ ')' :: tail)

end Klick.Spec

namespace Klick.Spec
open Klick

/-- Numeric ranges of the type parameters that are checked. -/
structure Ranges where
  dec32 : Nat → Prop
  dec64 : Nat → Prop
  dec128 : Nat → Prop
  dec256 : Nat → Prop
  dt64 : Nat → Prop

/-- ClickHouse: the scale of `DecimalN(S)` goes from 0 to the number of digits, the precision of
`DateTime64` from 0 to 9. -/
def serverRanges : Ranges where
  dec32 s := s ≤ 9
  dec64 s := s ≤ 18
  dec128 s := s ≤ 38
  dec256 s := s ≤ 76
  dt64 p := p ≤ 9

/-- What klickhouse accepts: 1 to the number of digits, and 1 to 18 for `DateTime64`. -/
def clientRanges : Ranges where
  dec32 s := 1 ≤ s ∧ s ≤ 9
  dec64 s := 1 ≤ s ∧ s ≤ 18
  dec128 s := 1 ≤ s ∧ s ≤ 38
  dec256 s := 1 ≤ s ∧ s ≤ 76
  dt64 p := 1 ≤ p ∧ p ≤ 18

/-- Integer types. -/
inductive IsInteger : Ty → Prop
  | int8 : IsInteger .int8 | int16 : IsInteger .int16 | int32 : IsInteger .int32
  | int64 : IsInteger .int64 | int128 : IsInteger .int128 | int256 : IsInteger .int256
  | uint8 : IsInteger .uint8 | uint16 : IsInteger .uint16 | uint32 : IsInteger .uint32
  | uint64 : IsInteger .uint64 | uint128 : IsInteger .uint128 | uint256 : IsInteger .uint256

/-- What `LowCardinality` may contain, apart from `Nullable`. -/
inductive LcInner : Ty → Prop
  | integer {t} : IsInteger t → LcInner t
  | string : LcInner .string | fixedString {n} : LcInner (.fixedString n)
  | date : LcInner .date | dateTime {tz} : LcInner (.dateTime tz)
  | ipv4 : LcInner .ipv4 | ipv6 : LcInner .ipv6

/-- What a map key may be. -/
inductive MapKey : Ty → Prop
  | integer {t} : IsInteger t → MapKey t
  | string : MapKey .string | fixedString {n} : MapKey (.fixedString n)
  | lowCardinality {t} : MapKey (.lowCardinality t)
  | uuid : MapKey .uuid | date : MapKey .date | dateTime {tz} : MapKey (.dateTime tz)
  | dateTime64 {p tz} : MapKey (.dateTime64 p tz)
  | enum8 {is} : MapKey (.enum8 is) | enum16 {is} : MapKey (.enum16 is)

/-- Composite types, which `Nullable` may not directly contain. -/
inductive Composite : Ty → Prop
  | array {t} : Composite (.array t) | map {k v} : Composite (.map k v)
  | tuple {ts} : Composite (.tuple ts) | nullable {t} : Composite (.nullable t)
  | lowCardinality {t} : Composite (.lowCardinality t)

/-- Types without a component or a checked parameter. -/
inductive Basic : Ty → Prop
  | integer {t} : IsInteger t → Basic t
  | float32 : Basic .float32 | float64 : Basic .float64 | bfloat16 : Basic .bfloat16
  | string : Basic .string | fixedString {n} : Basic (.fixedString n)
  | uuid : Basic .uuid | date : Basic .date | dateTime {tz} : Basic (.dateTime tz)
  | ipv4 : Basic .ipv4 | ipv6 : Basic .ipv6
  | point : Basic .point | ring : Basic .ring | polygon : Basic .polygon
  | multiPolygon : Basic .multiPolygon
  | enum8 {is} : Basic (.enum8 is) | enum16 {is} : Basic (.enum16 is)

/-- The types that can be composed, given the ranges of their parameters. -/
inductive Composable (r : Ranges) : Ty → Prop
  | basic {t} : Basic t → Composable r t
  | decimal32 {s} : r.dec32 s → Composable r (.decimal32 s)
  | decimal64 {s} : r.dec64 s → Composable r (.decimal64 s)
  | decimal128 {s} : r.dec128 s → Composable r (.decimal128 s)
  | decimal256 {s} : r.dec256 s → Composable r (.decimal256 s)
  | dateTime64 {p tz} : r.dt64 p → Composable r (.dateTime64 p tz)
  | array {t} : Composable r t → Composable r (.array t)
  | tuple {ts} : (∀ t ∈ ts, Composable r t) → Composable r (.tuple ts)
  | nullable {t} : ¬ Composite t → Composable r t → Composable r (.nullable t)
  | lowCardinality {t} : LcInner t → Composable r (.lowCardinality t)
  | lowCardinalityNullable {t} : LcInner t → Composable r (.lowCardinality (.nullable t))
  | map {k v} : MapKey k → Composable r k → Composable r v → Composable r (.map k v)

mutual
/-- The numeric parameters of every component lie where the client's ranges and the server's agree:
scales are not 0 and `DateTime64` precisions are between 1 and 9. -/
def AgreedRanges : Ty → Prop
  | .decimal32 s | .decimal64 s | .decimal128 s | .decimal256 s => 1 ≤ s
  | .dateTime64 p _ => 1 ≤ p ∧ p ≤ 9
  | .lowCardinality t => AgreedRanges t
  | .array t => AgreedRanges t
  | .nullable t => AgreedRanges t
  | .tuple ts => AgreedRangess ts
  | .map k v => AgreedRanges k ∧ AgreedRanges v
  | _ => True
/-- `AgreedRanges` for each member. -/
def AgreedRangess : List Ty → Prop
  | [] => True
  | t :: ts => AgreedRanges t ∧ AgreedRangess ts
end

mutual
/-- Every enum whose default is needed has a variant numbered 0, and BFloat16 is compiled in if its
default is needed. -/
def HasDefault (cfg : Cfg) : Ty → Prop
  | .enum8 items => ∃ it ∈ items, it.2 = 0
  | .enum16 items => ∃ it ∈ items, it.2 = 0
  | .bfloat16 => cfg.bf16 = true
  | .lowCardinality t => HasDefault cfg t
  | .tuple ts => HasDefaults cfg ts
  | _ => True
/-- `HasDefault` for each member. -/
def HasDefaults (cfg : Cfg) : List Ty → Prop
  | [] => True
  | t :: ts => HasDefault cfg t ∧ HasDefaults cfg ts
end

mutual
/-- ClickHouse's default for a type: zero (the number, the date, the address, the point), the empty text, the empty list or map,
NULL for `Nullable`, the member defaults for a tuple. -/
def ZeroOf : Ty → Value → Prop
  | .int8, v => v = .int8 0 | .int16, v => v = .int16 0 | .int32, v => v = .int32 0
  | .int64, v => v = .int64 0 | .int128, v => v = .int128 0 | .int256, v => v = .int256 0
  | .uint8, v => v = .uint8 0 | .uint16, v => v = .uint16 0 | .uint32, v => v = .uint32 0
  | .uint64, v => v = .uint64 0 | .uint128, v => v = .uint128 0 | .uint256, v => v = .uint256 0
  | .float32, v => v = .float32 0 | .float64, v => v = .float64 0 | .bfloat16, v => v = .bfloat16 0
  | .decimal32 s, v => v = .decimal32 s 0 | .decimal64 s, v => v = .decimal64 s 0
  | .decimal128 s, v => v = .decimal128 s 0 | .decimal256 s, v => v = .decimal256 s 0
  | .string, v => v = .string [] | .fixedString _, v => v = .string []
  | .uuid, v => v = .uuid 0 | .date, v => v = .date 0
  | .dateTime tz, v => v = .dateTime tz 0 | .dateTime64 p tz, v => v = .dateTime64 tz 0 p
  | .ipv4, v => v = .ipv4 0 | .ipv6, v => v = .ipv6 0
  | .point, v => v = .point ⟨0, 0⟩ | .ring, v => v = .ring [] | .polygon, v => v = .polygon []
  | .multiPolygon, v => v = .multiPolygon []
  | .enum8 _, v => v = .enum8 0 | .enum16 _, v => v = .enum16 0
  | .lowCardinality t, v => ZeroOf t v
  | .array _, v => v = .array []
  | .tuple ts, v => ∃ vs, v = .tuple vs ∧ ZerosOf ts vs
  | .nullable _, v => v = .null
  | .map _ _, v => v = .map [] []
/-- Member by member. -/
def ZerosOf : List Ty → List Value → Prop
  | [], vs => vs = []
  | t :: ts, vs => ∃ w ws, vs = w :: ws ∧ ZeroOf t w ∧ ZerosOf ts ws
end

end Klick.Spec
