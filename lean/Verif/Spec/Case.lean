import Verif.Case
/-
Specification vocabulary for the rename rules (C55): a name as a list of words.
-/
namespace Klick.Spec
open Klick

/-- The words of a name joined by a separator. -/
def joined (sep : Char) : List Str → Str
  | [] => []
  | [w] => w
  | w :: ws => w ++ sep :: joined sep ws

/-- The upper-case form of a lower-case letter, letter by letter; everything else is unchanged. -/
def upperTable : List (Char × Char) := (ch! "abcdefghijklmnopqrstuvwxyz").zip (ch! "ABCDEFGHIJKLMNOPQRSTUVWXYZ")
/-- A letter in upper case. -/
def upperOf (c : Char) : Char := ((upperTable.find? (fun e => e.1 == c)).map Prod.snd).getD c
/-- A word in upper case. -/
def upperWord (w : Str) : Str := w.map upperOf
/-- A word with its first letter in upper case. -/
def capitalised : Str → Str
  | [] => []
  | c :: cs => upperOf c :: cs

/-- A word of a snake_case name: not empty, no underscore, begins with a lower-case letter or digit. -/
def Word (w : Str) : Prop := ∃ c cs, w = c :: cs ∧ c ∈ ch! "abcdefghijklmnopqrstuvwxyz0123456789" ∧ '_' ∉ w

/-- What the documentation of each rule promises for a name with these words. -/
def promised : RenameRule → List Str → Str
  | .none, ws => joined '_' ws
  | .lowerCase, ws => joined '_' ws
  | .snakeCase, ws => joined '_' ws
  | .upperCase, ws => joined '_' (ws.map upperWord)
  | .screamingSnakeCase, ws => joined '_' (ws.map upperWord)
  | .kebabCase, ws => joined '-' ws
  | .screamingKebabCase, ws => joined '-' (ws.map upperWord)
  | .pascalCase, ws => (ws.map capitalised).flatten
  | .camelCase, ws => ws.headD [] ++ (ws.tail.map capitalised).flatten

/-- A name without upper-case letters and without a dash, as snake_case names are. -/
def NoUpper (s : Str) : Prop := ∀ c ∈ s, c ∉ ch! "ABCDEFGHIJKLMNOPQRSTUVWXYZ" ∧ c ≠ '-'

/-- A word that begins with a letter and has no upper-case letter. -/
def LetterWord (w : Str) : Prop := ∃ c cs, w = c :: cs ∧ c ∈ ch! "abcdefghijklmnopqrstuvwxyz" ∧ '_' ∉ w ∧ NoUpper w

end Klick.Spec
