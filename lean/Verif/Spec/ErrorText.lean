import Verif.ErrorText
/-
Specification vocabulary for the texts of errors (C96).
-/
namespace Klick.Spec
open Klick

/-- Which of the fifteen kinds of error it is. -/
def kindOf : Fault → Nat
  | .missingRow => 0
  | .doubleFetch => 1
  | .outOfBounds => 2
  | .missingField _ => 3
  | .duplicateField _ => 4
  | .protocol _ => 5
  | .typeParse _ => 6
  | .deserialize _ => 7
  | .serialize _ => 8
  | .deserializeWithColumn _ _ => 9
  | .serverException _ _ _ _ => 10
  | .unexpectedType _ => 11
  | .unexpectedTypeWithColumn _ _ => 12
  | .io _ _ _ => 13
  | .utf8 _ _ _ => 14

/-- The text says that something already exists. -/
def SaysTaken (t : Str) : Prop := ∃ a b, t = a ++ ch! "already exists" ++ b

/-- The texts an error carries: those it was made with, and the name of a type. -/
def carried : Fault → List Str
  | .missingField n => [n]
  | .duplicateField n => [n]
  | .protocol m => [m]
  | .typeParse m => [m]
  | .deserialize m => [m]
  | .serialize m => [m]
  | .deserializeWithColumn c m => [c, m]
  | .serverException _ n m s => [n, m, s]
  | .unexpectedType t => [t.display]
  | .unexpectedTypeWithColumn c t => [c, t.display]
  | .io _ t _ => [t]
  | _ => []

/-- The words the text of an error of each kind begins with. -/
def wording : Nat → Str
  | 0 => ch! "no rows received when expecting at least one row"
  | 1 => ch! "can't fetch the same column twice from RawRow"
  | 2 => ch! "column index was out of bounds or not present"
  | 3 => ch! "missing field "
  | 4 => ch! "duplicate field "
  | 5 => ch! "protocol error: "
  | 6 => ch! "type parse error: "
  | 7 => ch! "deserialize error: "
  | 8 => ch! "serialize error: "
  | 9 => ch! "deserialize error for column "
  | 10 => ch! "server exception: "
  | 11 => ch! "unexpected type: "
  | 12 => ch! "unexpected type for column "
  | 13 => ch! "io error: "
  | _ => ch! "utf-8 conversion error: "

/-- The text has the two characters `: ` nowhere. -/
def NoColon (t : Str) : Prop := ∀ a b, t ≠ a ++ ':' :: ' ' :: b

end Klick.Spec
