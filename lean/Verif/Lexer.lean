import Verif.Sql
/-
The query tokenizer: klickhouse/src/query_parser.rs:7-83.

The patterns and their order are code of this repository; the matching is generated by the external crate `compiler_tools`, whose
source is not available. It is modelled as a relation, so that what is proved holds for every tokenizer of this kind: a token is a
non-empty beginning of the remaining text that one of the patterns matches; a pattern ending in a repetition matches as much as it
can; and a pattern declared earlier that matches at least as much is never passed over (so both "first declared pattern" and "longest
match" are covered). `parse_str::<Q>`, external too, is a parameter.
-/
namespace Klick

/-- Regular expressions, as far as the patterns use them, klickhouse/src/query_parser.rs:21-74. -/
inductive Rx where
  | cls (p : Char → Bool)
  | eps
  | seq (a b : Rx)
  | alt (a b : Rx)
  | star (a : Rx)

/-- A text matches a regular expression, klickhouse/src/query_parser.rs:21-74. -/
inductive Rx.Matches : Rx → Str → Prop where
  | cls {p c} : p c = true → Matches (.cls p) [c]
  | eps : Matches .eps []
  | seq {a b s t} : Matches a s → Matches b t → Matches (.seq a b) (s ++ t)
  | altL {a b s} : Matches a s → Matches (.alt a b) s
  | altR {a b s} : Matches b s → Matches (.alt a b) s
  | nil {a} : Matches (.star a) []
  | more {a s t} : Matches a s → Matches (.star a) t → Matches (.star a) (s ++ t)

/-- One character, klickhouse/src/query_parser.rs:21-74. -/
def Rx.chr (c : Char) : Rx := .cls (fun d => d == c)
/-- A fixed text, klickhouse/src/query_parser.rs:21-74. -/
def Rx.lit : Str → Rx
  | [] => .eps
  | c :: cs => .seq (.chr c) (Rx.lit cs)
/-- `r+`, klickhouse/src/query_parser.rs:21-74. -/
def Rx.plus (r : Rx) : Rx := .seq r (.star r)
/-- `r?`, klickhouse/src/query_parser.rs:72. -/
def Rx.opt (r : Rx) : Rx := .alt r .eps
/-- A letter, case-insensitively (`(?i)`); `c` is the lower-case one, klickhouse/src/query_parser.rs:72. -/
def Rx.ci (c : Char) : Rx := .cls (fun d => d == c || d.toNat + 32 == c.toNat)

/-- `[0-9a-f]` under `(?i)`, klickhouse/src/query_parser.rs:72. -/
def isHexCi (c : Char) : Bool := isDigit c || (97 ≤ c.toNat && c.toNat ≤ 102) || (65 ≤ c.toNat && c.toNat ≤ 70)
/-- `[a-zA-Z_]`, klickhouse/src/query_parser.rs:69. -/
def isWordStart (c : Char) : Bool := c == '_' || (97 ≤ c.toNat && c.toNat ≤ 122) || (65 ≤ c.toNat && c.toNat ≤ 90)
/-- `[ \n\t\r\x0C\x0B]`, klickhouse/src/query_parser.rs:63. -/
def isBlankChar (c : Char) : Bool := c == ' ' || c == '\n' || c == '\t' || c == '\r' || c.toNat == 12 || c.toNat == 11

/-- `[0-9]+`, klickhouse/src/query_parser.rs:21,72. -/
def Rx.digits : Rx := .plus (.cls isDigit)
/-- `e[+-]?[0-9]+` and `p[+-]?[0-9]+`, klickhouse/src/query_parser.rs:72. -/
def Rx.exponent (c : Char) : Rx := .seq (.ci c) (.seq (.opt (.cls (fun d => d == '+' || d == '-'))) .digits)

/-- The pattern of `Number`, klickhouse/src/query_parser.rs:71-74:
`(?i)0x[0-9a-f]+(\.[0-9a-f]*)(p[+-]?[0-9]+)|0[0-7]+|[0-9]+(\.[0-9]+|\.)?(e[+-]?[0-9]+)?|\.[0-9]+(e[+-]?[0-9]+)?|inf|infinity|nan`. -/
def Rx.number : Rx :=
  .alt (.seq (.chr '0') (.seq (.ci 'x') (.seq (.plus (.cls isHexCi))
      (.seq (.seq (.chr '.') (.star (.cls isHexCi))) (.exponent 'p')))))
    (.alt (.seq (.chr '0') (.plus (.cls (fun c => 48 ≤ c.toNat && c.toNat ≤ 55))))
      (.alt (.seq .digits (.seq (.opt (.alt (.seq (.chr '.') .digits) (.chr '.'))) (.opt (.exponent 'e'))))
        (.alt (.seq (.chr '.') (.seq .digits (.opt (.exponent 'e'))))
          (.alt (.seq (.ci 'i') (.seq (.ci 'n') (.ci 'f')))
            (.alt (.seq (.ci 'i') (.seq (.ci 'n') (.seq (.ci 'f') (.seq (.ci 'i') (.seq (.ci 'n') (.seq (.ci 'i') (.seq (.ci 't') (.ci 'y'))))))))
              (.seq (.ci 'n') (.seq (.ci 'a') (.ci 'n'))))))))

/-- `str::find`: the position of the first occurrence (in characters; the byte offsets of the code are those of the same characters),
klickhouse/src/query_parser.rs:10. -/
def findStr (p : Str) : Str → Option Nat
  | [] => if p.isEmpty then some 0 else none
  | c :: cs => if p.isPrefixOf (c :: cs) then some 0 else (findStr p cs).map (· + 1)

/-- `parse_heredoc`, klickhouse/src/query_parser.rs:7-16; `parseStr` is `compiler_tools::util::parse_str`. -/
def parseHeredoc (parseStr : Char → Str → Option (Str × Str)) (input : Str) : Option (Str × Str) :=
  match parseStr '$' input with
  | none => none
  | some (tag, remaining) =>
    match findStr tag remaining with
    | none => none
    | some i => some (input.take (tag.length * 2 + i), input.drop (tag.length * 2 + i))

/-- The variants of `Token`, klickhouse/src/query_parser.rs:20-83; those with a fixed text are numbered. -/
inductive TokKind where
  | clientArgument | heredoc | commentDash | commentBlock
  | literal (i : Nat)
  | whitespace | commentHashbang | commentHash | bareWord | number
  | stringLiteral | backtick | doubleQuote | illegal
deriving DecidableEq, Repr

/-- The fixed texts in the order of declaration, klickhouse/src/query_parser.rs:30-61 (`=` and `==` are one variant, so are `<>` and
`!=`). -/
def literals : List Str :=
  [ch! "(", ch! ")", ch! "[", ch! "]", ch! "{", ch! "}", ch! ",", ch! ";", ch! "\\g", ch! ".", ch! "*", ch! "+", ch! "-", ch! "/",
    ch! "%", ch! "->", ch! "?", ch! ":", ch! "::", ch! "=", ch! "==", ch! "<>", ch! "!=", ch! "<", ch! ">", ch! "<=", ch! ">=",
    ch! "||", ch! "@", ch! "@@", ch! "$$", ch! "$"]

/-- The order of declaration, klickhouse/src/query_parser.rs:20-83. -/
def TokKind.rank : TokKind → Nat
  | .clientArgument => 0 | .heredoc => 1 | .commentDash => 2 | .commentBlock => 3
  | .literal i => 4 + i
  | .whitespace => 100 | .commentHashbang => 101 | .commentHash => 102 | .bareWord => 103 | .number => 104
  | .stringLiteral => 105 | .backtick => 106 | .doubleQuote => 107 | .illegal => 108

/-- The regular expressions, klickhouse/src/query_parser.rs:21-28,63-74. -/
def TokKind.rx : TokKind → Option Rx
  | .clientArgument => some (.seq (.chr '$') .digits)
  | .commentDash => some (.seq (.lit (ch! "--")) (.star (.cls (fun c => c != '\n'))))
  | .commentBlock => some (.seq (.lit (ch! "/*")) (.seq (.star (.cls (fun _ => true))) (.lit (ch! "*/"))))
  | .whitespace => some (.plus (.cls isBlankChar))
  | .commentHashbang => some (.seq (.lit (ch! "#!")) (.star (.cls (fun c => c != '\n'))))
  | .commentHash => some (.seq (.chr '#') (.star (.cls (fun c => c != '\n'))))
  | .bareWord => some (.seq (.cls isWordStart) (.star (.cls (fun c => isDigit c || isWordStart c))))
  | .number => some .number
  | _ => none

/-- The functions, klickhouse/src/query_parser.rs:23,75-80. -/
def TokKind.parseFn (parseStr : Char → Str → Option (Str × Str)) : TokKind → Option (Str → Option (Str × Str))
  | .heredoc => some (parseHeredoc parseStr)
  | .stringLiteral => some (parseStr '\'')
  | .backtick => some (parseStr '`')
  | .doubleQuote => some (parseStr '"')
  | _ => none

/-- A kind of token matches the beginning `text` of `text ++ rest`. `commentBlock` ends at some `*/`; the other regular expressions
take as much as they can, klickhouse/src/query_parser.rs:18-83. -/
structure TokKind.Takes (parseStr : Char → Str → Option (Str × Str)) (k : TokKind) (text rest : Str) : Prop where
  some_text : text ≠ []
  fixed : ∀ i, k = .literal i → literals[i]? = some text
  parsed : ∀ f, k.parseFn parseStr = some f → f (text ++ rest) = some (text, rest)
  matched : ∀ r, k.rx = some r → r.Matches text
  greedy : ∀ r, k.rx = some r → k ≠ .commentBlock → ∀ u v, rest = u ++ v → u ≠ [] → ¬ r.Matches (text ++ u)
  single : k = .illegal → text.length = 1

/-- The token of a kind, with what `parse_query_arguments` and `split_query_statements` look at, klickhouse/src/query_parser.rs:89-119. -/
def TokKind.token (k : TokKind) (text : Str) : Token :=
  match k with
  | .clientArgument => .clientArgument (text.drop 1)
  | .literal _ => if text = ch! ";" then .semicolon else if text = ch! "$$" then .escapedDollar else .other text
  | _ => .other text

/-- `Tokenizer::next` (generated): the tokens a text may be read as, klickhouse/src/query_parser.rs:18-83,89,108. -/
inductive Lexes (parseStr : Char → Str → Option (Str × Str)) : Str → List Token → Prop where
  | done : Lexes parseStr [] []
  | next {k : TokKind} {text rest : Str} {ts : List Token} : k.Takes parseStr text rest →
      (∀ (k' : TokKind) (text' rest' : Str), text ++ rest = text' ++ rest' → k'.rank < k.rank → k'.Takes parseStr text' rest' → text'.length < text.length) →
      Lexes parseStr rest ts → Lexes parseStr (text ++ rest) (k.token text :: ts)

end Klick
