import Verif.Spec.Sql
import Verif.Lexer
/-
Scripts and templates as their authors write them: a list of pieces. Nothing here depends on how the tokenizer works.
-/
namespace Klick.Spec
open Klick

/-- The body of a quoted literal: every quote in it is escaped by a backslash, and so is every backslash. -/
inductive Closed (q : Char) : Str → Prop where
  | nil : Closed q []
  | plain {c s} : c ≠ q → c ≠ '\\' → Closed q s → Closed q (c :: s)
  | escaped {c s} : Closed q s → Closed q ('\\' :: c :: s)

/-- What is assumed of the external reader of quoted texts: it reads a text that starts with the quote, up to and including the first
quote that is not escaped. -/
structure QuoteReader (parseStr : Char → Str → Option (Str × Str)) : Prop where
  starts : ∀ q s a b, parseStr q s = some (a, b) → ∃ s', s = q :: s'
  reads : ∀ q body rest, q ≠ '\\' → Closed q body → parseStr q (q :: body ++ q :: rest) = some (q :: body ++ [q], rest)

/-- A piece of a script or template. -/
inductive SqlPiece where
  /-- words, numbers, white space, punctuation -/
  | plain (s : Str)
  /-- a quoted literal or identifier -/
  | quoted (q : Char) (body : Str)
  /-- a comment to the end of the line, `--…` -/
  | dash (body : Str)
  /-- a comment to the end of the line, `#…` -/
  | hash (body : Str)
  /-- a comment `/*…*/` -/
  | block (body : Str)
  /-- `$name$…$name$` -/
  | heredoc (name body : Str)
  | semicolon
  /-- a place for an argument, `$N` -/
  | arg (digits : Str)
  /-- `$$` -/
  | dollars
deriving Repr

/-- The text of a piece. -/
def SqlPiece.text : SqlPiece → Str
  | .plain s => s
  | .quoted q body => q :: body ++ [q]
  | .dash body => '-' :: '-' :: body
  | .hash body => '#' :: body
  | .block body => '/' :: '*' :: body ++ ['*', '/']
  | .heredoc name body => ('$' :: name ++ ['$']) ++ body ++ ('$' :: name ++ ['$'])
  | .semicolon => [';']
  | .arg ds => '$' :: ds
  | .dollars => ['$', '$']

/-- The text of a script. -/
def scriptText (ps : List SqlPiece) : Str := ps.flatMap SqlPiece.text

/-- Does `a` directly followed by `b` occur? -/
def hasPair (a b : Char) : Str → Bool
  | c :: d :: s => (c == a && d == b) || hasPair a b (d :: s)
  | _ => false

/-- Characters that begin a piece other than plain text. -/
def opensPiece (c : Char) : Bool := c == ';' || c == '\'' || c == '"' || c == '`' || c == '$' || c == '#'

/-- Plain text: no quotes, semicolons, dollars, and no beginning of a comment. -/
def isPlain (s : Str) : Bool := s.all (fun c => !opensPiece c) && !hasPair '-' '-' s && !hasPair '/' '*' s

/-- The piece can stand before `rest`: plain text reaches up to the next piece (with white space before a `--` or `/*` comment), line
comments up to the end of the line, a `/*` comment is one line and has the only `*/` of what is left (the pattern does not say which
`*/` ends it, see `C25_two_comments`), `$N` and `$$` up to something that does not make them a longer number or a heredoc. -/
def SqlPiece.Ok (parseStr : Char → Str → Option (Str × Str)) (rest : Str) : SqlPiece → Prop
  | .plain s => isPlain s = true ∧
      (rest = [] ∨ (∃ d r, rest = d :: r ∧ opensPiece d = true) ∨
        ((∃ r, rest = '-' :: '-' :: r ∨ rest = '/' :: '*' :: r) ∧ ∀ c, s.getLast? = some c → c = ' ' ∨ c = '\n' ∨ c = '\t'))
  | .quoted q body => (q = '\'' ∨ q = '"' ∨ q = '`') ∧ Closed q body
  | .dash body => '\n' ∉ body ∧ ∀ c, rest.head? = some c → c = '\n'
  | .hash body => '\n' ∉ body ∧ ∀ c, rest.head? = some c → c = '\n'
  | .block body => '\n' ∉ body ∧ hasPair '*' '/' (body ++ ['*']) = false ∧ hasPair '*' '/' rest = false
  | .heredoc name body => Closed '$' name ∧ (∀ c, name.head? = some c → isDigit c = false) ∧
      ∀ i, i < body.length → ¬ ('$' :: name ++ ['$']) <+: (body ++ ('$' :: name ++ ['$'])).drop i
  | .semicolon => True
  | .arg ds => ds ≠ [] ∧ ds.all isDigit = true ∧ (∀ c, rest.head? = some c → isDigit c = false) ∧ parseHeredoc parseStr ('$' :: ds ++ rest) = none
  | .dollars => parseHeredoc parseStr ('$' :: '$' :: rest) = none

/-- Every piece can stand where it stands. -/
def WellWritten (parseStr : Char → Str → Option (Str × Str)) : List SqlPiece → Prop
  | [] => True
  | p :: ps => p.Ok parseStr (scriptText ps) ∧ WellWritten parseStr ps

/-- The statements of a script, each with its semicolon, and what is behind the last one; with the white space around them. -/
def statements : List SqlPiece → List Str
  | [] => [[]]
  | .semicolon :: ps => [';'] :: statements ps
  | p :: ps =>
    match statements ps with
    | [] => [p.text]
    | r :: rs => (p.text ++ r) :: rs

/-- What a piece becomes, given the texts of the arguments. -/
def SqlPiece.filled (texts : List Str) : SqlPiece → Str
  | .arg ds => if 1 ≤ digitsVal ds then (texts[digitsVal ds - 1]?).getD ('$' :: ds) else '$' :: ds
  | .dollars => ['$']
  | p => p.text

end Klick.Spec
