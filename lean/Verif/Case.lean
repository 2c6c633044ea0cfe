import Verif.Text
/-
Renaming of fields, klickhouse_derive/src/case.rs, and the name of a field's column, klickhouse_derive/src/attr.rs:84-108,555-559.
This code runs when a struct is compiled; a panic is a compile error.
-/
namespace Klick

/-- `RenameRule`, klickhouse_derive/src/case.rs:13-36. -/
inductive RenameRule where
  | none | lowerCase | upperCase | pascalCase | camelCase | snakeCase | screamingSnakeCase | kebabCase | screamingKebabCase
deriving DecidableEq, Repr

/-- `RENAME_RULES`, klickhouse_derive/src/case.rs:38-47. -/
def renameRules : List (Str × RenameRule) :=
  [(ch! "lowercase", .lowerCase), (ch! "UPPERCASE", .upperCase), (ch! "PascalCase", .pascalCase), (ch! "camelCase", .camelCase),
   (ch! "snake_case", .snakeCase), (ch! "SCREAMING_SNAKE_CASE", .screamingSnakeCase), (ch! "kebab-case", .kebabCase),
   (ch! "SCREAMING-KEBAB-CASE", .screamingKebabCase)]

/-- `RenameRule::from_str`, klickhouse_derive/src/case.rs:50-59; the error is a compile error. -/
def RenameRule.fromStr (s : Str) : Option RenameRule := (renameRules.find? (fun e => s == e.1)).map Prod.snd

/-- `char::to_ascii_uppercase`, klickhouse_derive/src/case.rs:62-88. -/
def asciiUpper (c : Char) : Char := if 97 ≤ c.toNat ∧ c.toNat ≤ 122 then Char.ofNat (c.toNat - 32) else c
/-- `char::to_ascii_lowercase`, klickhouse_derive/src/case.rs:62-88. -/
def asciiLower (c : Char) : Char := if 65 ≤ c.toNat ∧ c.toNat ≤ 90 then Char.ofNat (c.toNat + 32) else c

/-- The loop of `PascalCase`, klickhouse_derive/src/case.rs:66-79. -/
def pascalLoop : Bool → Str → Str
  | _, [] => []
  | cap, c :: cs =>
    if c = '_' then pascalLoop true cs
    else if cap then asciiUpper c :: pascalLoop false cs
    else c :: pascalLoop false cs

/-- `str::replace('_', "-")`, klickhouse_derive/src/case.rs:62-88. -/
def dashes (s : Str) : Str := s.map (fun c => if c = '_' then '-' else c)

/-- `RenameRule::apply_to_field`, klickhouse_derive/src/case.rs:62-88. `pascal[..1]` panics when the text is empty or
its first character is not ASCII. -/
def RenameRule.apply (r : RenameRule) (field : Str) : Res Str :=
  match r with
  | .none | .lowerCase | .snakeCase => .ok field
  | .upperCase => .ok (field.map asciiUpper)
  | .pascalCase => .ok (pascalLoop true field)
  | .camelCase =>
    match pascalLoop true field with
    | [] => .panic
    | c :: cs => if c.toNat < 128 then .ok (asciiLower c :: cs) else .panic
  | .screamingSnakeCase => .ok (field.map asciiUpper)
  | .kebabCase => .ok (dashes field)
  | .screamingKebabCase => .ok (dashes (field.map asciiUpper))

/-- `unraw`, klickhouse_derive/src/attr.rs:89-95: `trim_left_matches("r#")`. -/
def unraw : Str → Str
  | 'r' :: '#' :: s => unraw s
  | s => s

/-- The column name of a field, klickhouse_derive/src/attr.rs:97-108,555-559: an explicit `rename`, or the identifier after the
container's rule. -/
def columnName (rule : RenameRule) (rename : Option Str) (ident : Str) : Res Str :=
  match rename with
  | some n => .ok n
  | none => rule.apply (unraw ident)

end Klick
