import Verif.Spec.Sql
import Verif.Spec.Lexer
/-
How ClickHouse reads a query text down to its words, signs, quoted literals and parenthesised groups (C98, C99), written from its
lexical rules and independent of the builders: comments are dropped, a backslash in quotes takes the next character with it,
parentheses must match. Heredocs, `#` comments, semicolons and comments within comments are not read: a text with one of them (outside
quotes and comments) has no reading here, so that nothing is claimed about it.
-/
namespace Klick.Spec
open Klick

/-- What a query text is made of. -/
inductive SqlNode where
  /-- letters, digits and underscores -/
  | word (s : Str)
  /-- any other single character, a blank or a line break among them -/
  | sign (c : Char)
  /-- a quoted literal or identifier, its body as written -/
  | quoted (q : Char) (body : Str)
  /-- `( … )` -/
  | group (ns : List SqlNode)
  /-- in templates: the place of an argument, counted from 0 -/
  | place (k : Nat)

/-- Where in the text the reader is. -/
inductive ReadMode where
  | code
  /-- behind a `-` that may begin a comment -/
  | dash
  /-- behind a `/` that may begin a comment -/
  | slash
  /-- in a comment `-- …` -/
  | line
  /-- in a comment `/* …` -/
  | block
  /-- in such a comment, behind a `*` -/
  | star
  /-- in such a comment, behind a `/` -/
  | blockSlash
  | quote (q : Char) (body : Str)
  /-- in quotes, behind a backslash -/
  | escape (q : Char) (body : Str)
  /-- directly behind an argument -/
  | behind

/-- The reader: where it is, what it has read of the innermost open group, and of the groups around it. -/
structure ReadState where
  mode : ReadMode
  here : List SqlNode
  outer : List (List SqlNode)

/-- The beginning of a text. -/
def ReadState.start : ReadState := ⟨.code, [], []⟩

/-- One more sign. -/
def ReadState.put (s : ReadState) (c : Char) : ReadState := ⟨.code, s.here ++ [.sign c], s.outer⟩

/-- One more letter: of the word at hand, or of a new one. -/
def addLetter (ns : List SqlNode) (c : Char) : List SqlNode :=
  match ns.getLast? with
  | some (.word w) => ns.dropLast ++ [.word (w ++ [c])]
  | _ => ns ++ [.word [c]]

/-- A character outside quotes and comments. -/
def ReadState.plain (s : ReadState) (c : Char) : Option ReadState :=
  if c = '-' then some ⟨.dash, s.here, s.outer⟩
  else if c = '/' then some ⟨.slash, s.here, s.outer⟩
  else if c = '\'' ∨ c = '"' ∨ c = '`' then some ⟨.quote c [], s.here, s.outer⟩
  else if c = '(' then some ⟨.code, [], s.here :: s.outer⟩
  else if c = ')' then
    match s.outer with
    | [] => none
    | o :: os => some ⟨.code, o ++ [.group s.here], os⟩
  else if c = '$' ∨ c = '#' ∨ c = ';' then none
  else if isWord c then some ⟨.code, addLetter s.here c, s.outer⟩
  else some (s.put c)

/-- One character. -/
def ReadState.char (s : ReadState) (c : Char) : Option ReadState :=
  match s.mode with
  | .code => s.plain c
  | .dash => if c = '-' then some ⟨.line, s.here, s.outer⟩ else (s.put '-').plain c
  | .slash => if c = '*' then some ⟨.block, s.here, s.outer⟩ else (s.put '/').plain c
  | .line => if c = '\n' then some (s.put '\n') else some s
  | .block => if c = '*' then some ⟨.star, s.here, s.outer⟩ else if c = '/' then some ⟨.blockSlash, s.here, s.outer⟩ else some s
  | .star => if c = '/' then some (s.put ' ') else if c = '*' then some s else some ⟨.block, s.here, s.outer⟩
  | .blockSlash => if c = '*' then none else if c = '/' then some s else some ⟨.block, s.here, s.outer⟩
  | .quote q b =>
    if c = '\\' then some ⟨.escape q b, s.here, s.outer⟩
    else if c = q then some ⟨.code, s.here ++ [.quoted q b], s.outer⟩
    else some ⟨.quote q (b ++ [c]), s.here, s.outer⟩
  | .escape q b => some ⟨.quote q (b ++ ['\\', c]), s.here, s.outer⟩
  -- an argument is not part of a longer word, number or literal
  | .behind => if isWord c ∨ c = '.' ∨ c = '\'' ∨ c = '"' ∨ c = '`' then none else s.plain c

/-- What an argument must not directly follow: a word, a quoted literal, a dot, another argument. -/
def SqlNode.joins : SqlNode → Bool
  | .word _ => true
  | .quoted _ _ => true
  | .sign c => c == '.'
  | .group _ => false
  | .place _ => true

/-- The place of an argument: outside quotes and comments, not behind a `-` or `/` that the argument's text could complete to the
beginning of a comment. -/
def ReadState.hole (s : ReadState) (k : Nat) : Option ReadState :=
  match s.mode with
  | .code => if (s.here.getLast?.map SqlNode.joins).getD false then none else some ⟨.behind, s.here ++ [.place k], s.outer⟩
  | _ => none

/-- A character of a template, or the place of an argument. -/
inductive Sym where
  | ch (c : Char)
  | hole (k : Nat)

/-- One symbol. -/
def ReadState.sym (s : ReadState) : Sym → Option ReadState
  | .ch c => s.char c
  | .hole k => s.hole k

/-- A text, character by character. -/
def ReadState.text (s : ReadState) : Str → Option ReadState
  | [] => some s
  | c :: cs => (s.char c).bind (fun s' => s'.text cs)

/-- A template, symbol by symbol. -/
def ReadState.syms (s : ReadState) : List Sym → Option ReadState
  | [] => some s
  | x :: xs => (s.sym x).bind (fun s' => s'.syms xs)

/-- The text is read as these nodes, and it ends outside quotes, comments and parentheses. -/
def ReadsAs (t : Str) (ns : List SqlNode) : Prop := ReadState.start.text t = some ⟨.code, ns, []⟩

/-- The template is read as these nodes. -/
def TemplateReadsAs (t : List Sym) (ns : List SqlNode) : Prop :=
  ∃ m, ReadState.start.syms t = some ⟨m, ns, []⟩ ∧ (m = .code ∨ m = .behind)

/-! ### SELECT statements -/

/-- A text of words and signs as nodes. -/
def asNodes (s : Str) : List SqlNode := s.foldl (fun ns c => if isWord c then addLetter ns c else ns ++ [.sign c]) []

/-- A clause: nothing when it has no items. -/
def nodeClause (head sep tail : Str) (items : List (List SqlNode)) : List SqlNode :=
  if items.isEmpty then [] else asNodes head ++ (asNodes sep).intercalate items ++ asNodes tail

/-- The conditions of a clause: each one in parentheses of its own, with AND between them. -/
def conditionNodes (keyword : Str) (items : List (List SqlNode)) : List SqlNode :=
  nodeClause (keyword ++ [' ']) (ch!" AND\n") ['\n'] (items.map (fun ns => [.group ns]))

/-- Everything the caller wrote into a SELECT statement. -/
def Clauses.fragments (c : Clauses) : List Str :=
  c.withs ++ (if c.distinct then [] else c.distinctOn) ++ c.exprs ++ [c.frm] ++ c.sample.toList ++ c.arrayJoins ++ c.joins ++
  c.prewhere ++ c.where_ ++ c.groupBy ++ c.having ++ c.orderBy.toList ++ c.limit.toList ++ c.offset.toList ++ c.settings.toList ++
  c.union.toList

/-- The statement, given how each fragment is read by itself: clause by clause, each fragment's nodes in its place. -/
def Clauses.nodes (c : Clauses) (r : Str → List SqlNode) : List SqlNode :=
  nodeClause (ch!"WITH ") [','] ['\n'] (c.withs.map r) ++ asNodes (ch!"SELECT\n") ++
  (if c.distinct then asNodes (ch!"DISTINCT\n")
    else if c.distinctOn.isEmpty then []
    else asNodes (ch!"DISTINCT ON ") ++ [.group ((asNodes [',']).intercalate (c.distinctOn.map r))] ++ asNodes ['\n']) ++
  nodeClause [] (ch!",\n") ['\n'] (c.exprs.map r) ++
  asNodes (ch!"FROM ") ++ r c.frm ++ asNodes ['\n'] ++
  nodeClause (ch!"SAMPLE ") [] ['\n'] (c.sample.toList.map r) ++
  nodeClause [] ['\n'] ['\n'] (c.arrayJoins.map r) ++
  nodeClause [] ['\n'] ['\n'] (c.joins.map r) ++
  conditionNodes (ch!"PREWHERE") (c.prewhere.map r) ++
  conditionNodes (ch!"WHERE") (c.where_.map r) ++
  nodeClause (ch!"GROUP BY ") (ch!",\n") ['\n'] (c.groupBy.map r) ++
  conditionNodes (ch!"HAVING") (c.having.map r) ++
  nodeClause (ch!"ORDER BY ") [] ['\n'] (c.orderBy.toList.map r) ++
  nodeClause (ch!"LIMIT ") [] ['\n'] (c.limit.toList.map r) ++
  nodeClause (ch!"OFFSET ") [] ['\n'] (c.offset.toList.map r) ++
  nodeClause (ch!"SETTINGS ") [] ['\n'] (c.settings.toList.map r) ++
  nodeClause (ch!"UNION ") [] ['\n'] (c.union.toList.map r)

/-- The fragment of a builder call. -/
def callFrag : SelectCall → Option Frag
  | .distinct _ => none
  | .with_ f | .distinctOn f | .select f | .sample f | .arrayJoin f | .join f | .prewhere f | .where_ f | .groupBy f | .having f
  | .orderBy f | .limit f | .offset f | .settings f | .union f => some f

/-! ### templates -/

/-- A piece of a template with `n` arguments: the characters that are sent as they are, and the places of arguments. -/
def SqlPiece.syms (n : Nat) : SqlPiece → List Sym
  | .arg ds => if 1 ≤ digitsVal ds ∧ digitsVal ds ≤ n then [.hole (digitsVal ds - 1)] else ('$' :: ds).map .ch
  | .dollars => [.ch '$']
  | p => p.text.map .ch

mutual
/-- Nodes of a template with the argument's nodes in place of the argument. -/
def SqlNode.fill (r : Nat → List SqlNode) : SqlNode → List SqlNode
  | .place k => r k
  | .group ns => [.group (SqlNode.fillAll r ns)]
  | .word s => [.word s]
  | .sign c => [.sign c]
  | .quoted q b => [.quoted q b]
/-- … of several. -/
def SqlNode.fillAll (r : Nat → List SqlNode) : List SqlNode → List SqlNode
  | [] => []
  | n :: ns => n.fill r ++ SqlNode.fillAll r ns
end

/-- What is assumed of the texts made by the standard library and other crates: the texts of floating-point numbers and geometric
values are read by themselves, an IPv6 address has no quote or backslash. -/
structure PlainExt (ext : Ext) : Prop where
  f32 : ∀ x, ∃ ns, ReadsAs (ext.f32 x) ns
  f64 : ∀ x, ∃ ns, ReadsAs (ext.f64 x) ns
  bf16 : ∀ x, ∃ ns, ReadsAs (ext.bf16 x) ns
  ipv6 : ∀ x, ∀ c ∈ ext.ipv6 x, c ≠ '\'' ∧ c ≠ '\\'
  geo : ∀ v, ∃ ns, ReadsAs (ext.geo v) ns

example : ReadsAs (ch!"a = 'x\\'y' -- z\n") [.word ['a'], .sign ' ', .sign '=', .sign ' ', .quoted '\'' (ch!"x\\'y"), .sign ' ', .sign '\n'] := rfl
example : ReadsAs (ch!"f(ab, 1)/*)*/-2") [.word ['f'], .group [.word ['a', 'b'], .sign ',', .sign ' ', .word ['1']], .sign ' ', .sign '-', .word ['2']] := rfl
example : ReadState.start.text (ch!"a)") = none := rfl

/-- The fragment is what a template makes of its arguments: a template that the tokenizer `P` reads, whose arguments stand apart, read
as `ns` with their places in it. -/
def MadeFrom (P : Char → Str → Option (Str × Str)) (ext : Ext) (ns : List SqlNode) (args : List Value) (f : Frag) : Prop :=
  ∃ (ps : List SqlPiece) (ts : List Token) (texts : List Str), WellWritten P ps ∧ Lexes P (scriptText ps) ts ∧ args.length < 2 ^ 64 ∧
    Value.texts ext args = .ok texts ∧ TemplateReadsAs (ps.flatMap (SqlPiece.syms args.length)) ns ∧ f = parseQueryArguments ext ts args

end Klick.Spec
