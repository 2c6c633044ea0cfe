import Verif.Spec.TypeText
/-
Specification vocabulary: the names of types as ClickHouse writes them (C92). Unlike klickhouse's own
rendering (C18) the server puts blanks after commas and around `=`, and has more than one name for some
types.
-/
namespace Klick.Spec
open Klick

/-- An argument with white space around it. -/
def Spaced (a s : Str) : Prop := ∃ w w', s = w ++ a ++ w' ∧ Blank w ∧ Blank w'

/-- `name(arg, arg, ...)`, with white space around each argument. -/
def Call (name : Str) (args : List Str) (s : Str) : Prop :=
  ∃ pieces : List Str, s = name ++ '(' :: joinComma pieces ++ [')'] ∧ pieces.length = args.length ∧
    ∀ p ∈ args.zip pieces, Spaced p.1 p.2

/-- A text in quotes. -/
def quote (s : Str) : Str := '\'' :: s ++ ['\'']

/-- `'name' = -1`, with any white space around the equals sign. -/
def EnumText {w : Nat} (item : Str × BitVec w) (s : Str) : Prop :=
  ∃ b b', s = quote item.1 ++ b ++ '=' :: (b' ++ decInt item.2.toInt) ∧ Blank b ∧ Blank b'

/-- A name that ClickHouse writes without escapes and in which nothing has a meaning. -/
def UnescapedName (name : Str) : Prop := PlainName name ∧ ∀ c ∈ name, c ≠ '\'' ∧ c ≠ '\\'

/-- The types that are named by a word alone. `Bool` is a `UInt8`; a `DateTime` without a zone is one in
UTC. -/
inductive Plainly (cfg : Cfg) : Ty → Str → Prop
  | int8 : Plainly cfg .int8 (ch! "Int8") | int16 : Plainly cfg .int16 (ch! "Int16")
  | int32 : Plainly cfg .int32 (ch! "Int32") | int64 : Plainly cfg .int64 (ch! "Int64")
  | int128 : Plainly cfg .int128 (ch! "Int128") | int256 : Plainly cfg .int256 (ch! "Int256")
  | uint8 : Plainly cfg .uint8 (ch! "UInt8") | bool : Plainly cfg .uint8 (ch! "Bool")
  | uint16 : Plainly cfg .uint16 (ch! "UInt16") | uint32 : Plainly cfg .uint32 (ch! "UInt32")
  | uint64 : Plainly cfg .uint64 (ch! "UInt64") | uint128 : Plainly cfg .uint128 (ch! "UInt128")
  | uint256 : Plainly cfg .uint256 (ch! "UInt256")
  | float32 : Plainly cfg .float32 (ch! "Float32") | float64 : Plainly cfg .float64 (ch! "Float64")
  | bfloat16 : cfg.bf16 = true → Plainly cfg .bfloat16 (ch! "BFloat16")
  | string : Plainly cfg .string (ch! "String") | uuid : Plainly cfg .uuid (ch! "UUID")
  | date : Plainly cfg .date (ch! "Date") | dateTime : Plainly cfg (.dateTime tzUTC) (ch! "DateTime")
  | ipv4 : Plainly cfg .ipv4 (ch! "IPv4") | ipv6 : Plainly cfg .ipv6 (ch! "IPv6")
  | point : Plainly cfg .point (ch! "Point") | ring : Plainly cfg .ring (ch! "Ring")
  | polygon : Plainly cfg .polygon (ch! "Polygon") | multiPolygon : Plainly cfg .multiPolygon (ch! "MultiPolygon")

/-- `s` is a name of the type, as a server may write it. -/
inductive Written (cfg : Cfg) : Ty → Str → Prop
  | word {t s} : Plainly cfg t s → Written cfg t s
  | fixedString {n s} : n < 2 ^ 64 → Call (ch! "FixedString") [dec n] s → Written cfg (.fixedString n) s
  | decimal32 {n s} : n < 2 ^ 64 → Call (ch! "Decimal32") [dec n] s → Written cfg (.decimal32 n) s
  | decimal64 {n s} : n < 2 ^ 64 → Call (ch! "Decimal64") [dec n] s → Written cfg (.decimal64 n) s
  | decimal128 {n s} : n < 2 ^ 64 → Call (ch! "Decimal128") [dec n] s → Written cfg (.decimal128 n) s
  | decimal256 {n s} : n < 2 ^ 64 → Call (ch! "Decimal256") [dec n] s → Written cfg (.decimal256 n) s
  | digits9 {p n s} : p ≤ 9 → n < 2 ^ 64 → Call (ch! "Decimal") [dec p, dec n] s → Written cfg (.decimal32 n) s
  | digits18 {p n s} : 9 < p → p ≤ 18 → n < 2 ^ 64 → Call (ch! "Decimal") [dec p, dec n] s → Written cfg (.decimal64 n) s
  | digits38 {p n s} : 18 < p → p ≤ 38 → n < 2 ^ 64 → Call (ch! "Decimal") [dec p, dec n] s → Written cfg (.decimal128 n) s
  | digits76 {p n s} : 38 < p → p ≤ 76 → n < 2 ^ 64 → Call (ch! "Decimal") [dec p, dec n] s → Written cfg (.decimal256 n) s
  | dateTime {tz s} : KnownZone cfg tz → Call (ch! "DateTime") [quote tz] s → Written cfg (.dateTime tz) s
  | dateTime64 {p tz s} : p < 2 ^ 64 → KnownZone cfg tz → Call (ch! "DateTime64") [dec p, quote tz] s →
      Written cfg (.dateTime64 p tz) s
  | dateTime64Utc {p s} : p < 2 ^ 64 → Call (ch! "DateTime64") [dec p] s → Written cfg (.dateTime64 p tzUTC) s
  | enum8 {items s} {texts : List Str} : (∀ it ∈ items, UnescapedName it.1) → texts.length = items.length →
      (∀ p ∈ items.zip texts, EnumText p.1 p.2) → Call (ch! "Enum8") texts s → Written cfg (.enum8 items) s
  | enum16 {items s} {texts : List Str} : (∀ it ∈ items, UnescapedName it.1) → texts.length = items.length →
      (∀ p ∈ items.zip texts, EnumText p.1 p.2) → Call (ch! "Enum16") texts s → Written cfg (.enum16 items) s
  | lowCardinality {t a s} : Written cfg t a → Call (ch! "LowCardinality") [a] s → Written cfg (.lowCardinality t) s
  | array {t a s} : Written cfg t a → Call (ch! "Array") [a] s → Written cfg (.array t) s
  | nullable {t a s} : Written cfg t a → Call (ch! "Nullable") [a] s → Written cfg (.nullable t) s
  | map {k v a b s} : Written cfg k a → Written cfg v b → Call (ch! "Map") [a, b] s → Written cfg (.map k v) s
  | tuple {ts s} {texts : List Str} : texts.length = ts.length →
      (∀ t a, (t, a) ∈ ts.zip texts → Written cfg t a) → Call (ch! "Tuple") texts s → Written cfg (.tuple ts) s

end Klick.Spec
