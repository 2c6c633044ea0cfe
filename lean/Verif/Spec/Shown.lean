import Verif.Shown
import Verif.Spec.Serde
import Verif.Spec.Column
/-
Specification vocabulary for the texts of values (C109).
-/
namespace Klick.Spec
open Klick

/-- A value is part of itself, of the arrays and tuples it is in, and of the maps it is in as a key or a value. -/
inductive PartOf : Value → Value → Prop where
  | self (v : Value) : PartOf v v
  | array {w x : Value} {xs : List Value} (hx : x ∈ xs) (h : PartOf w x) : PartOf w (.array xs)
  | tuple {w x : Value} {xs : List Value} (hx : x ∈ xs) (h : PartOf w x) : PartOf w (.tuple xs)
  | key {w x : Value} {ks vs : List Value} (hx : x ∈ ks) (h : PartOf w x) : PartOf w (.map ks vs)
  | value {w x : Value} {ks vs : List Value} (hx : x ∈ vs) (h : PartOf w x) : PartOf w (.map ks vs)

/-- The time of a `DateTime64` of so many digits is in the calendar of chrono (up to the year 262142). A build with overflow checks
computes only with up to nine digits. -/
def InCalendar (cfg : Cfg) (p : Nat) (x : BitVec 64) : Prop :=
  ((x.toNat / 10 ^ p : Nat) : Int) ≤ chronoMax ∧ (cfg.overflowChecks = true → p ≤ 9)

/-- What may keep a value from being shown, its parts aside. -/
inductive Unshowable (cfg : Cfg) : Value → Prop where
  | decimal (p : Nat) (x : BitVec 256) : Unshowable cfg (.decimal256 p x)
  | time (tz : Tz) (x : BitVec 64) (p : Nat) (h : ¬ InCalendar cfg p x) : Unshowable cfg (.dateTime64 tz x p)
  | map (ks vs : List Value) (h : ks.length ≠ vs.length) : Unshowable cfg (.map ks vs)

/-- All precisions in a value are ones that a validated type may have (they go up to 18), or one more. -/
def Precisions (v : Value) : Prop := ∀ tz x p, PartOf (.dateTime64 tz x p) v → p < 20

/-- The template mentions the argument with this number (counted from 1). -/
def MentionsArgument (template : List Token) (i : Nat) : Prop := ∃ ds, Token.clientArgument ds ∈ template ∧ parseUsize ds = some i

/-- A type is part of itself and of the types it is in. -/
inductive TypePart : Ty → Ty → Prop where
  | self (t : Ty) : TypePart t t
  | lowCardinality {s t : Ty} (h : TypePart s t) : TypePart s (.lowCardinality t)
  | nullable {s t : Ty} (h : TypePart s t) : TypePart s (.nullable t)
  | array {s t : Ty} (h : TypePart s t) : TypePart s (.array t)
  | tuple {s t : Ty} {ts : List Ty} (ht : t ∈ ts) (h : TypePart s t) : TypePart s (.tuple ts)
  | key {s k v : Ty} (h : TypePart s k) : TypePart s (.map k v)
  | value {s k v : Ty} (h : TypePart s v) : TypePart s (.map k v)

/-- The text of a `DateTime`: the server is asked to read the quoted text as a time, and the text is what it stands for. -/
def timeCall (quoted : Str) : Str := ch! "parseDateTimeBestEffort('" ++ escapeString (utf8Encode quoted) ++ ch! "')"
/-- The text of a `DateTime64`: also its number of digits. -/
def time64Call (quoted : Str) (p : Nat) : Str :=
  ch! "parseDateTime64BestEffort('" ++ escapeString (utf8Encode quoted) ++ ch! "', " ++ dec p ++ ch! ")"

end Klick.Spec
