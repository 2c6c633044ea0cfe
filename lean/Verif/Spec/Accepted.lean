import Verif.Spec.ServerText
/-
Specification vocabulary: exactly which texts the client takes for type names, and for which types (C95). This is a grammar of its own,
wider than the names a server writes (C92): a comma may follow the last argument, numbers may have a sign and leading zeros, white
space may stand before the parenthesis and at the end, and around and inside the quotes of an enum name.
-/
namespace Klick.Spec
open Klick

/-- How many parentheses are open at the end. -/
def level (s : Str) : Int := (s.count '(' : Int) - (s.count ')' : Int)

/-- A text that counts as one argument: its parentheses match in number, and no comma stands outside them. In a build with overflow checks
no parenthesis is closed before it is opened. -/
structure OnePiece (cfg : Cfg) (s : Str) : Prop where
  closed : level s = 0
  inside : ∀ a b, s = a ++ ',' :: b → level a ≠ 0
  opened : cfg.overflowChecks = true → ∀ a b, s = a ++ b → 0 ≤ level a

/-- `a` is what stands between the white space at both ends of `s`. -/
def Core (a s : Str) : Prop :=
  Spaced a s ∧ (∀ c, a.head? = some c → isWs c = false) ∧ (∀ c, a.getLast? = some c → isWs c = false)

/-- The arguments in a pair of parentheses. -/
inductive Listed (cfg : Cfg) : Str → List Str → Prop
  /-- none -/
  | none {s} : Blank s → Listed cfg s []
  /-- separated by commas, with white space around them; the last is not empty -/
  | some {pieces args : List Str} : pieces ≠ [] → (∀ p ∈ pieces, OnePiece cfg p) → args.length = pieces.length →
      (∀ x ∈ args.zip pieces, Core x.1 x.2) → args.getLast? ≠ some [] → Listed cfg (joinComma pieces) args
  /-- a comma after the last one is ignored -/
  | comma {pieces args : List Str} {w} : pieces ≠ [] → (∀ p ∈ pieces, OnePiece cfg p) → args.length = pieces.length →
      (∀ x ∈ args.zip pieces, Core x.1 x.2) → Blank w → Listed cfg (joinComma pieces ++ ',' :: w) args

/-- `name (arguments)`, with white space around the parentheses. -/
def Applied (cfg : Cfg) (name : Str) (args : List Str) (s : Str) : Prop :=
  ∃ w inner w', s = name ++ w ++ '(' :: inner ++ ')' :: w' ∧ Blank w ∧ Blank w' ∧ Listed cfg inner args

/-- A decimal number with leading zeros. -/
def Numeral (n : Nat) (s : Str) : Prop := ∃ k, s = List.replicate k '0' ++ dec n

/-- A number that fits a machine word, with or without a plus sign. -/
def Number (n : Nat) (s : Str) : Prop := n < 2 ^ 64 ∧ (Numeral n s ∨ ∃ r, s = '+' :: r ∧ Numeral n r)

/-- A number of `w` bits, with or without a sign. -/
def Signed {w : Nat} (v : BitVec w) (s : Str) : Prop :=
  ∃ n r, Numeral n r ∧ ((s = r ∧ v.toInt = n) ∨ (s = '+' :: r ∧ v.toInt = n) ∨ (s = '-' :: r ∧ v.toInt = -n))

/-- `'name' = number`; the white space at the ends of the name is ignored. -/
def Variant {w : Nat} (it : Str × BitVec w) (s : Str) : Prop :=
  ∃ left inner right value, s = left ++ '=' :: right ∧ '=' ∉ left ∧ Core (quote inner) left ∧ Core it.1 inner ∧ Core value right ∧
    Signed it.2 value

/-- A zone of the time-zone database. -/
def Zone (cfg : Cfg) (tz : Tz) (s : Str) : Prop := s = quote tz ∧ cfg.isTz tz = true

/-- `s` is accepted as a name of the type. -/
inductive Accepted (cfg : Cfg) : Ty → Str → Prop
  | word {t n w} : Plainly cfg t n → Blank w → Accepted cfg t (n ++ w)
  | fixedString {n a s} : Number n a → Applied cfg (ch! "FixedString") [a] s → Accepted cfg (.fixedString n) s
  | decimal32 {n a s} : Number n a → Applied cfg (ch! "Decimal32") [a] s → Accepted cfg (.decimal32 n) s
  | decimal64 {n a s} : Number n a → Applied cfg (ch! "Decimal64") [a] s → Accepted cfg (.decimal64 n) s
  | decimal128 {n a s} : Number n a → Applied cfg (ch! "Decimal128") [a] s → Accepted cfg (.decimal128 n) s
  | decimal256 {n a s} : Number n a → Applied cfg (ch! "Decimal256") [a] s → Accepted cfg (.decimal256 n) s
  | digits9 {p n a b s} : p ≤ 9 → Number p a → Number n b → Applied cfg (ch! "Decimal") [a, b] s → Accepted cfg (.decimal32 n) s
  | digits18 {p n a b s} : 9 < p → p ≤ 18 → Number p a → Number n b → Applied cfg (ch! "Decimal") [a, b] s → Accepted cfg (.decimal64 n) s
  | digits38 {p n a b s} : 18 < p → p ≤ 38 → Number p a → Number n b → Applied cfg (ch! "Decimal") [a, b] s → Accepted cfg (.decimal128 n) s
  | digits76 {p n a b s} : 38 < p → p ≤ 76 → Number p a → Number n b → Applied cfg (ch! "Decimal") [a, b] s → Accepted cfg (.decimal256 n) s
  | dateTime {tz a s} : Zone cfg tz a → Applied cfg (ch! "DateTime") [a] s → Accepted cfg (.dateTime tz) s
  | dateTime64 {p tz a b s} : Number p a → Zone cfg tz b → Applied cfg (ch! "DateTime64") [a, b] s → Accepted cfg (.dateTime64 p tz) s
  | dateTime64Utc {p a s} : Number p a → Applied cfg (ch! "DateTime64") [a] s → Accepted cfg (.dateTime64 p tzUTC) s
  | enum8 {items s} {args : List Str} : args.length = items.length → (∀ x ∈ items.zip args, Variant x.1 x.2) →
      Applied cfg (ch! "Enum8") args s → Accepted cfg (.enum8 items) s
  | enum16 {items s} {args : List Str} : args.length = items.length → (∀ x ∈ items.zip args, Variant x.1 x.2) →
      Applied cfg (ch! "Enum16") args s → Accepted cfg (.enum16 items) s
  | lowCardinality {t a s} : Accepted cfg t a → Applied cfg (ch! "LowCardinality") [a] s → Accepted cfg (.lowCardinality t) s
  | array {t a s} : Accepted cfg t a → Applied cfg (ch! "Array") [a] s → Accepted cfg (.array t) s
  | nullable {t a s} : Accepted cfg t a → Applied cfg (ch! "Nullable") [a] s → Accepted cfg (.nullable t) s
  | map {k v a b s} : Accepted cfg k a → Accepted cfg v b → Applied cfg (ch! "Map") [a, b] s → Accepted cfg (.map k v) s
  | tuple {ts s} {args : List Str} : args.length = ts.length → (∀ t a, (t, a) ∈ ts.zip args → Accepted cfg t a) →
      Applied cfg (ch! "Tuple") args s → Accepted cfg (.tuple ts) s

/-- White space is neither a letter nor a digit (so it is in Unicode). -/
def SpaceApart (cfg : Cfg) : Prop := ∀ c, isWs c = true → cfg.isAlphaX c = false ∧ cfg.isNumX c = false

mutual
/-- Every time zone in the type exists and every number in it fits a machine word. -/
def Vetted (cfg : Cfg) : Ty → Prop
  | .decimal32 s | .decimal64 s | .decimal128 s | .decimal256 s | .fixedString s => s < 2 ^ 64
  | .dateTime tz => tz = tzUTC ∨ cfg.isTz tz = true
  | .dateTime64 p tz => p < 2 ^ 64 ∧ (tz = tzUTC ∨ cfg.isTz tz = true)
  | .bfloat16 => cfg.bf16 = true
  | .lowCardinality t => Vetted cfg t
  | .array t => Vetted cfg t
  | .nullable t => Vetted cfg t
  | .map k v => Vetted cfg k ∧ Vetted cfg v
  | .tuple ts => Vetteds cfg ts
  | _ => True
/-- Every member. -/
def Vetteds (cfg : Cfg) : List Ty → Prop
  | [] => True
  | t :: ts => Vetted cfg t ∧ Vetteds cfg ts
end

end Klick.Spec
