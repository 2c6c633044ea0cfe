import Verif.Sql
import Verif.Spec.Calendar
/-
Specification vocabulary for query text (C23-C28): how ClickHouse reads literals, written from its
documented lexical rules and independent of the renderer.
-/
namespace Klick.Spec
open Klick

/-! ### string literals -/

/-- Value of a hexadecimal digit. -/
def hexVal (c : Char) : Option Nat :=
  let n := c.toNat
  if 48 ≤ n ∧ n ≤ 57 then some (n - 48)
  else if 65 ≤ n ∧ n ≤ 70 then some (n - 55)
  else if 97 ≤ n ∧ n ≤ 102 then some (n - 87)
  else none

/-- What a backslash followed by a character denotes in a ClickHouse string literal; unknown escapes
keep the backslash. (`\x` and `\N` are handled by the reader.) -/
def unescapeChar (c : Char) : Bytes :=
  if c = 'a' then [0x07] else if c = 'b' then [0x08] else if c = 'e' then [0x1B]
  else if c = 'f' then [0x0C] else if c = 'n' then [0x0A] else if c = 'r' then [0x0D]
  else if c = 't' then [0x09] else if c = 'v' then [0x0B] else if c = '0' then [0x00]
  else if c = '\\' ∨ c = '\'' ∨ c = '"' ∨ c = '`' ∨ c = '/' ∨ c = '=' then utf8Encode [c]
  else 0x5C :: utf8Encode [c]

/-- Reading a string literal after its opening quote: its bytes and the text after its closing quote.
A quote ends the literal unless doubled; a backslash takes the next character with it. -/
def readQuoted : Str → Option (Bytes × Str)
  | [] => none
  | c :: s =>
    if c = '\'' then
      match s with
      | d :: s' => if d = '\'' then (readQuoted s').map (fun r => (0x27 :: r.1, r.2)) else some ([], s)
      | [] => some ([], [])
    else if c = '\\' then
      match s with
      | [] => none
      | d :: s' =>
        if d = 'x' then
          match s' with
          | a :: b :: s'' =>
            match hexVal a, hexVal b with
            | some h, some l => (readQuoted s'').map (fun r => (BitVec.ofNat 8 (16 * h + l) :: r.1, r.2))
            | _, _ => none
          | _ => none
        else if d = 'N' then readQuoted s'
        else (readQuoted s').map (fun r => (unescapeChar d ++ r.1, r.2))
    else (readQuoted s).map (fun r => (utf8Encode [c] ++ r.1, r.2))

/-- A text that does not begin with a quote. -/
def NoQuote (s : Str) : Prop := ∀ c, s.head? = some c → c ≠ '\''

/-! ### literals -/

/-- A literal as ClickHouse understands it. `num m k` is the number m / 10^k. -/
inductive Lit where
  | num (m : Int) (k : Nat)
  | cast (l : Lit) (type : Str)
  | str (b : Bytes)
  | null
  | arr (ls : List Lit)
  | tup (ls : List Lit)
  | map (ks vs : List Lit)
  | call (fn : Str) (args : List Lit)

/-- Characters of identifiers and numbers. -/
def isWord (c : Char) : Bool := isDigit c || c == '_' || (97 ≤ c.toNat && c.toNat ≤ 122) || (65 ≤ c.toNat && c.toNat ≤ 90)

/-- Value of a string of hexadecimal digits. -/
def hexDigitsVal (s : Str) : Nat := s.foldl (fun a c => 16 * a + (hexVal c).getD 0) 0

/-- Is the character a hexadecimal digit? -/
def isHex (c : Char) : Bool := (hexVal c).isSome

/-- Reading an unsigned decimal number: digits with at most one dot, at least one digit; its digits
as a number, how many of them are after the dot, and the text after it. -/
def readDecimal (s : Str) : Option (Nat × Nat × Str) :=
  let ds := s.takeWhile isDigit
  match s.dropWhile isDigit with
  | '.' :: r =>
    let fs := r.takeWhile isDigit
    if ds.isEmpty && fs.isEmpty then none else some (digitsVal (ds ++ fs), fs.length, r.dropWhile isDigit)
  | r => if ds.isEmpty then none else some (digitsVal ds, 0, r)

/-- Reading an unsigned number: `0x` and hexadecimal digits, or a decimal number. -/
def readUnsigned (s : Str) : Option (Nat × Nat × Str) :=
  match s with
  | '0' :: 'x' :: s =>
    let hs := s.takeWhile isHex
    if hs.isEmpty then none else some (hexDigitsVal hs, 0, s.dropWhile isHex)
  | s => readDecimal s

/-- Reading a number with an optional minus sign. -/
def readNumber (s : Str) : Option (Lit × Str) :=
  match s with
  | '-' :: s => (readUnsigned s).map (fun (m, k, r) => (.num (-(m : Int)) k, r))
  | s => (readUnsigned s).map (fun (m, k, r) => (.num (m : Int) k, r))

/-- An optional `::Type` after a literal. -/
def readCast (l : Lit) (s : Str) : Lit × Str :=
  match s with
  | ':' :: ':' :: s =>
    let t := s.takeWhile isWord
    if t.isEmpty then (l, ':' :: ':' :: s) else (.cast l t, s.dropWhile isWord)
  | s => (l, s)

/-- Dropping one space after a comma. -/
def skipSpace : Str → Str
  | ' ' :: s => s
  | s => s

mutual
/-- Reading a literal; the fuel bounds its nesting. -/
def readLit : Nat → Str → Option (Lit × Str)
  | 0, _ => none
  | n + 1, s =>
    match s with
    | [] => none
    | c :: r =>
      if c = '\'' then (readQuoted r).map (fun (b, r) => (.str b, r))
      else if c = '[' then (readItems n ']' r).map (fun (ls, r) => (.arr ls, r))
      else if c = '(' then (readItems n ')' r).map (fun (ls, r) =>
        -- parentheses around one expression only group it
        (match ls with | [l] => (l, r) | ls => (.tup ls, r)))
      else if c = '{' then (readPairs n r).map (fun (ks, vs, r) => (.map ks vs, r))
      else if isDigit c || c = '-' || c = '.' then
        (readNumber s).map (fun (l, r) => readCast l r)
      else
        let w := s.takeWhile isWord
        let r := s.dropWhile isWord
        match r with
        | '(' :: r =>
          if w.isEmpty then none else (readItems n ')' r).map (fun (ls, r) => (.call w ls, r))
        | r => if w = ['N', 'U', 'L', 'L'] then some (.null, r) else none
/-- Reading comma-separated literals up to a closing bracket. -/
def readItems : Nat → Char → Str → Option (List Lit × Str)
  | 0, _, _ => none
  | n + 1, close, s =>
    match s with
    | [] => none
    | c :: r => if c = close then some ([], r) else readMore n close s
/-- Reading at least one literal and the rest of the list. -/
def readMore : Nat → Char → Str → Option (List Lit × Str)
  | 0, _, _ => none
  | n + 1, close, s =>
    match readLit n s with
    | some (l, c :: r) =>
      if c = close then some ([l], r)
      else if c = ',' then (readMore n close (skipSpace r)).map (fun (ls, r) => (l :: ls, r))
      else none
    | _ => none
/-- Reading the pairs of a map literal up to `}`. -/
def readPairs : Nat → Str → Option (List Lit × List Lit × Str)
  | 0, _ => none
  | n + 1, s =>
    match s with
    | [] => none
    | c :: r => if c = '}' then some ([], [], r) else readMorePairs n s
/-- Reading at least one pair and the rest of the map. -/
def readMorePairs : Nat → Str → Option (List Lit × List Lit × Str)
  | 0, _ => none
  | n + 1, s =>
    match readLit n s with
    | some (k, ':' :: r) =>
      match readLit n r with
      | some (v, c :: r) =>
        if c = '}' then some ([k], [v], r)
        else if c = ',' then (readMorePairs n r).map (fun (ks, vs, r) => (k :: ks, v :: vs, r))
        else none
      | _ => none
    | _ => none
end

/-- What a literal text may be followed by for its end to be visible. -/
def Stops (s : Str) : Prop :=
  (∀ c, s.head? = some c → isWord c = false ∧ c ≠ '.' ∧ c ≠ '\'' ∧ c ≠ '(') ∧
  (∀ r, s ≠ ':' :: ':' :: r)

/-- `text` is a literal denoting `l`. -/
def Denotes (text : Str) (l : Lit) : Prop :=
  ∀ rest, Stops rest → ∃ n, ∀ m, n ≤ m → readLit m (text ++ rest) = some (l, rest)

/-- An IPv4 address in dotted form: its four octets in decimal, the highest first. -/
def dottedQuad (n : Nat) : Str :=
  dec (n / 256 ^ 3 % 256) ++ ['.'] ++ dec (n / 256 ^ 2 % 256) ++ ['.'] ++ dec (n / 256 % 256) ++ ['.'] ++ dec (n % 256)

/-- The hexadecimal digit of weight 16^k, lower case. -/
def hexDigit (n k : Nat) : Char := (ch! "0123456789abcdef").getD (n / 16 ^ k % 16) '0'

/-- The hexadecimal digits of weights 16^(hi-1) down to 16^lo. -/
def hexDigits (n hi lo : Nat) : Str := ((List.range (hi - lo)).map (fun i => hexDigit n (hi - 1 - i)))

/-- A UUID in its usual form: 8, 4, 4, 4 and 12 hexadecimal digits. -/
def uuidForm (n : Nat) : Str :=
  hexDigits n 32 24 ++ ['-'] ++ hexDigits n 24 20 ++ ['-'] ++ hexDigits n 20 16 ++ ['-'] ++ hexDigits n 16 12 ++ ['-'] ++ hexDigits n 12 0

/-- ASCII text as bytes. -/
def asciiBytes (s : Str) : Bytes := utf8Encode s

mutual
/-- The literal a value should be written as: the value's own number, bytes, date or items. `none`
for the values whose text is produced by external code (floats, IPv6, geometry). Times are calls on
the external RFC 3339 text. -/
def litOf (ext : Ext) : Value → Option Lit
  | .int8 x => some (.num x.toInt 0) | .int16 x => some (.num x.toInt 0)
  | .int32 x => some (.num x.toInt 0) | .int64 x => some (.num x.toInt 0)
  | .int128 x => some (.cast (.num x.toInt 0) (ch!"Int128"))
  | .int256 x => some (.cast (.num x.toInt 0) (ch!"Int256"))
  | .uint8 x => some (.num x.toNat 0) | .uint16 x => some (.num x.toNat 0)
  | .uint32 x => some (.num x.toNat 0) | .uint64 x => some (.num x.toNat 0)
  | .uint128 x => some (.cast (.num x.toNat 0) (ch!"UInt128"))
  | .uint256 x => some (.cast (.num x.toNat 0) (ch!"UInt256"))
  | .decimal32 p x => some (.num x.toInt p) | .decimal64 p x => some (.num x.toInt p)
  | .decimal128 p x => some (.num x.toInt p) | .decimal256 p x => some (.num x.toInt p)
  | .string b => some (.str b)
  | .uuid x => some (.call (ch!"toUUID") [.str (asciiBytes (uuidForm x.toNat))])
  | .date d =>
    let (y, m, day) := civilOf d.toNat
    some (.call (ch!"makeDate") [.num y 0, .num m 0, .num day 0])
  | .dateTime tz t => (ext.dateTime tz t).map (fun s =>
      .call (ch!"parseDateTimeBestEffort") [.str (asciiBytes s)])
  | .dateTime64 tz t p => (ext.dateTime64 tz t p).map (fun s =>
      .call (ch!"parseDateTime64BestEffort") [.str (asciiBytes s), .num p 0])
  | .enum8 x => some (.num x.toInt 0) | .enum16 x => some (.num x.toInt 0)
  | .array xs => (litsOf ext xs).map .arr
  | .tuple xs => (litsOf ext xs).map .tup
  | .null => some .null
  | .map ks vs => (litsOf ext ks).bind fun ks => (litsOf ext vs).map fun vs => .map ks vs
  | .ipv4 x => some (.str (asciiBytes (dottedQuad x.toNat)))
  | .float32 _ | .float64 _ | .bfloat16 _ | .ipv6 _ | .point _ | .ring _ | .polygon _ | .multiPolygon _ => none
/-- The literals of a list of values. -/
def litsOf (ext : Ext) : List Value → Option (List Lit)
  | [] => some []
  | v :: vs => (litOf ext v).bind fun l => (litsOf ext vs).map fun ls => l :: ls
end

/-- A decimal has at least as many digits as its scale. -/
def DigitsCover (p : Nat) (x : Int) : Prop := p ≤ (dec x.natAbs).length

mutual
/-- The values whose text the code gets right: no negative 256-bit integer, no decimal with fewer
digits than its scale, no 256-bit decimal, no one-element tuple, maps with one value per key. -/
def Literal : Value → Prop
  | .int256 x => 0 ≤ x.toInt
  | .decimal32 p x => DigitsCover p x.toInt
  | .decimal64 p x => DigitsCover p x.toInt
  | .decimal128 p x => DigitsCover p x.toInt
  | .decimal256 _ _ => False
  | .array xs => Literals xs
  | .tuple xs => xs.length ≠ 1 ∧ Literals xs
  | .map ks vs => ks.length = vs.length ∧ Literals ks ∧ Literals vs
  | _ => True
/-- Every member is `Literal`. -/
def Literals : List Value → Prop
  | [] => True
  | v :: vs => Literal v ∧ Literals vs
end

/-! ### scripts -/

/-- The source text of a token sequence. -/
def source (ts : List Token) : Str := ts.flatMap Token.text

/-- Tokens as the tokenizer produces them: a client argument has at least one digit and only digits. -/
def TokenOk : Token → Prop
  | .clientArgument ds => ds ≠ [] ∧ ds.all isDigit = true
  | _ => True

/-- What a token becomes, given the texts of the arguments: `$N` the N-th text when there is one,
`$$` a dollar, anything else itself. -/
def substitute (texts : List Str) : Token → Str
  | .clientArgument ds =>
    if 1 ≤ digitsVal ds then (texts[digitsVal ds - 1]?).getD ('$' :: ds) else '$' :: ds
  | .escapedDollar => ['$']
  | .semicolon => [';']
  | .other s => s

/-- White space only. -/
def BlankText (s : Str) : Prop := ∀ c ∈ s, isWs c = true

/-- Begins and ends with something else than white space. -/
def Trimmed (s : Str) : Prop :=
  (∀ c, s.head? = some c → isWs c = false) ∧ (∀ c, s.getLast? = some c → isWs c = false)

/-- `pieces` are the statements `stmts` in order, with white space around them and blank pieces in
between. -/
inductive Padded : List Str → List Str → Prop where
  | nil : Padded [] []
  | blank {p ps ss} : BlankText p → Padded ps ss → Padded (p :: ps) ss
  | stmt {w s w' ps ss} : BlankText w → BlankText w' → Padded ps ss → Padded ((w ++ s ++ w') :: ps) (s :: ss)

/-! ### SELECT -/

/-- Items separated by `sep`. -/
def joinWith (sep : Str) : List Str → Str
  | [] => []
  | [s] => s
  | s :: ss => s ++ sep ++ joinWith sep ss

/-- A clause: nothing when it has no items. -/
def clause (head sep tail : Str) (items : List Str) : Str :=
  if items.isEmpty then [] else head ++ joinWith sep items ++ tail

/-- The contents of a SELECT statement, clause by clause. -/
structure Clauses where
  withs : List Str
  distinct : Bool
  distinctOn : List Str
  exprs : List Str
  frm : Str
  sample : Option Str
  arrayJoins : List Str
  joins : List Str
  prewhere : List Str
  where_ : List Str
  groupBy : List Str
  having : List Str
  orderBy : Option Str
  limit : Option Str
  offset : Option Str
  settings : Option Str
  union : Option Str

/-- The statement's text: ClickHouse's clause order, conditions in parentheses joined by AND. -/
def Clauses.sql (c : Clauses) : Str :=
  clause (ch!"WITH ") [','] ['\n'] c.withs ++ ch!"SELECT\n" ++
  (if c.distinct then ch!"DISTINCT\n" else clause (ch!"DISTINCT ON (") [','] (ch!")\n") c.distinctOn) ++
  clause [] (ch!",\n") ['\n'] c.exprs ++
  ch!"FROM " ++ c.frm ++ ['\n'] ++
  clause (ch!"SAMPLE ") [] ['\n'] c.sample.toList ++
  clause [] ['\n'] ['\n'] c.arrayJoins ++
  clause [] ['\n'] ['\n'] c.joins ++
  clause (ch!"PREWHERE (") (ch!") AND\n(") (ch!")\n") c.prewhere ++
  clause (ch!"WHERE (") (ch!") AND\n(") (ch!")\n") c.where_ ++
  clause (ch!"GROUP BY ") (ch!",\n") ['\n'] c.groupBy ++
  clause (ch!"HAVING (") (ch!") AND\n(") (ch!")\n") c.having ++
  clause (ch!"ORDER BY ") [] ['\n'] c.orderBy.toList ++
  clause (ch!"LIMIT ") [] ['\n'] c.limit.toList ++
  clause (ch!"OFFSET ") [] ['\n'] c.offset.toList ++
  clause (ch!"SETTINGS ") [] ['\n'] c.settings.toList ++
  clause (ch!"UNION ") [] ['\n'] c.union.toList

/-- A builder holding these contents, all converted without error. -/
def Clauses.builder (c : Clauses) : SelectBuilder :=
  { withs := c.withs.map .ok, distinct := c.distinct, distinctOn := c.distinctOn.map .ok,
    exprs := c.exprs.map .ok, frm := .ok c.frm, sample := c.sample.map .ok,
    arrayJoins := c.arrayJoins.map .ok, joins := c.joins.map .ok, prewhere := c.prewhere.map .ok,
    where_ := c.where_.map .ok, groupBy := c.groupBy.map .ok, having := c.having.map .ok,
    orderBy := c.orderBy.map .ok, limit := c.limit.map .ok, offset := c.offset.map .ok,
    settings := c.settings.map .ok, union := c.union.map .ok }

/-- The fragments a builder would render, in clause order. -/
def retained (b : SelectBuilder) : List Frag :=
  b.withs ++ (if b.distinct then [] else b.distinctOn) ++ b.exprs ++ [b.frm] ++ b.sample.toList ++
  b.arrayJoins ++ b.joins ++ b.prewhere ++ b.where_ ++ b.groupBy ++ b.having ++ b.orderBy.toList ++
  b.limit.toList ++ b.offset.toList ++ b.settings.toList ++ b.union.toList

/-- The calls of one kind, in order. -/
def fragsOf (p : SelectCall → Option Frag) (cs : List SelectCall) : List Frag := cs.filterMap p

/-- The calls concerning DISTINCT, in order. -/
def distinctCalls (cs : List SelectCall) : List SelectCall :=
  cs.filter (fun c => match c with | .distinct _ | .distinctOn _ => true | _ => false)

def selWith : SelectCall → Option Frag | .with_ f => some f | _ => none
def selSelect : SelectCall → Option Frag | .select f => some f | _ => none
def selSample : SelectCall → Option Frag | .sample f => some f | _ => none
def selArrayJoin : SelectCall → Option Frag | .arrayJoin f => some f | _ => none
def selJoin : SelectCall → Option Frag | .join f => some f | _ => none
def selPrewhere : SelectCall → Option Frag | .prewhere f => some f | _ => none
def selWhere : SelectCall → Option Frag | .where_ f => some f | _ => none
def selGroupBy : SelectCall → Option Frag | .groupBy f => some f | _ => none
def selHaving : SelectCall → Option Frag | .having f => some f | _ => none
def selOrderBy : SelectCall → Option Frag | .orderBy f => some f | _ => none
def selLimit : SelectCall → Option Frag | .limit f => some f | _ => none
def selOffset : SelectCall → Option Frag | .offset f => some f | _ => none
def selSettings : SelectCall → Option Frag | .settings f => some f | _ => none
def selUnion : SelectCall → Option Frag | .union f => some f | _ => none

end Klick.Spec
