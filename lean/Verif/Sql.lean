import Verif.Codec
import Verif.Text
/-
Query text: klickhouse/src/values/mod.rs (Display), query_parser.rs, query/mod.rs, query/select.rs.
-/
namespace Klick

/-- Renderers outside the crate: floats (`core::fmt`), IPv6 addresses (`core::net`), time stamps
(`chrono`, `chrono_tz`; `none` when the conversion fails) and the derived `Debug` of geo types, klickhouse/src/values/mod.rs:339-461. -/
structure Ext where
  f32 : BitVec 32 → Str
  f64 : BitVec 64 → Str
  bf16 : BitVec 16 → Str
  ipv6 : BitVec 128 → Str
  dateTime : Tz → BitVec 32 → Option Str
  dateTime64 : Tz → BitVec 64 → Nat → Option Str
  geo : Value → Str

/-- One hexadecimal digit, upper case (`{:X}`), klickhouse/src/values/mod.rs:327. -/
def hexU (n : Nat) : Char := if n < 10 then Char.ofNat (48 + n) else Char.ofNat (55 + n)
/-- One hexadecimal digit, lower case (`{:x}`), klickhouse/src/values/mod.rs:395-397. -/
def hexL (n : Nat) : Char := if n < 10 then Char.ofNat (48 + n) else Char.ofNat (87 + n)

/-- One turn of the loop of `escape_string`, klickhouse/src/values/mod.rs:311-329. -/
def escapeByte (b : Byte) : Str :=
  if b.toNat < 128 then
    if b = 0x5C then ['\\', '\\']
    else if b = 0x27 then ['\\', '\'']
    else if b = 0x08 then ['\\', 'b']
    else if b = 0x0C then ['\\', 'f']
    else if b = 0x0D then ['\\', 'r']
    else if b = 0x0A then ['\\', 'n']
    else if b = 0x09 then ['\\', 't']
    else if b = 0x00 then ['\\', '0']
    else if b = 0x07 then ['\\', 'a']
    else if b = 0x0B then ['\\', 'v']
    else [Char.ofNat b.toNat]
  else ['\\', 'x', hexU (b.toNat / 16), hexU (b.toNat % 16)]

/-- `escape_string`, klickhouse/src/values/mod.rs:309-331. -/
def escapeString (s : Bytes) : Str := s.flatMap escapeByte

/-- `{b:02X}` over the bytes of a 256-bit integer, klickhouse/src/values/int256.rs:59-67, 118-126. -/
def hexText (x : BitVec 256) : Str := ['0', 'x'] ++ (be 32 x.toNat).flatMap
  (fun b => [hexU (b.toNat / 16), hexU (b.toNat % 16)])

/-- Display of decimals, klickhouse/src/values/mod.rs:357-386 (three identical arms): the text of the
raw integer with a dot put before its last `precision` characters, when there are that many. -/
def decimalText (precision : Nat) (raw : Str) : Str :=
  if raw.length < precision then raw
  else raw.take (raw.length - precision) ++ ['.'] ++ raw.drop (raw.length - precision)

/-- `Display` of `uuid::Uuid` (external crate): lower-case hexadecimal octets, hyphens after octets
4, 6, 8 and 10, klickhouse/src/values/mod.rs:395-397. -/
def uuidText (x : BitVec 128) : Str :=
  let o := (be 16 x.toNat).map (fun b => [hexL (b.toNat / 16), hexL (b.toNat % 16)])
  (o.take 4).flatten ++ ['-'] ++ ((o.drop 4).take 2).flatten ++ ['-'] ++ ((o.drop 6).take 2).flatten ++
    ['-'] ++ ((o.drop 8).take 2).flatten ++ ['-'] ++ (o.drop 10).flatten

/-- `Display` of `Ipv4Addr` (standard library): the octets in decimal with dots, klickhouse/src/values/mod.rs:454. -/
def ipv4Text (x : BitVec 32) : Str :=
  match be 4 x.toNat with
  | [a, b, c, d] => dec a.toNat ++ ['.'] ++ dec b.toNat ++ ['.'] ++ dec c.toNat ++ ['.'] ++ dec d.toNat
  | _ => []

/-- Finding the year of a day number (`NaiveDate` arithmetic of the external crate `chrono`), klickhouse/src/values/mod.rs:398-401. -/
def civilYear : Nat → Nat → Nat → Nat × Nat
  | 0, y, n => (y, n)
  | fuel + 1, y, n =>
    let len := if (y % 4 == 0 && y % 100 != 0) || y % 400 == 0 then 366 else 365
    if n < len then (y, n) else civilYear fuel (y + 1) (n - len)

/-- Finding the month of a day of a year (external crate `chrono`), klickhouse/src/values/mod.rs:398-401. -/
def civilMonth : Nat → Nat → Nat → Nat → Nat × Nat
  | 0, _, m, n => (m, n)
  | fuel + 1, y, m, n =>
    let len := if m = 2 then (if (y % 4 == 0 && y % 100 != 0) || y % 400 == 0 then 29 else 28)
      else if m = 4 ∨ m = 6 ∨ m = 9 ∨ m = 11 then 30 else 31
    if n < len then (m, n) else civilMonth fuel y (m + 1) (n - len)

/-- `NaiveDate::from_ymd(1970, 1, 1) + Duration::days(n)` as year, month, day: the conversion
`From<Date> for NaiveDate`, klickhouse/src/values/date.rs:76-80, through `chrono` (external). -/
def civilOf (n : Nat) : Nat × Nat × Nat :=
  let (y, r) := civilYear n 1970 n
  let (m, d) := civilMonth 11 y 1 r
  (y, m, d + 1)

/-- `%m`, `%d`: two digits, klickhouse/src/values/mod.rs:398-401. -/
def pad2 (n : Nat) : Str := if n < 10 then '0' :: dec n else dec n

/-- The `Date` arm of Display, klickhouse/src/values/mod.rs:398-401. -/
def dateText (d : BitVec 16) : Str :=
  let (y, m, day) := civilOf d.toNat
  ch!"makeDate(" ++ dec y ++ [','] ++ pad2 m ++ [','] ++ pad2 day ++ [')']

/-- `first, then ",{item}"` of klickhouse/src/values/mod.rs:421-440,445-451. -/
def commaTail : List Str → Str
  | [] => []
  | s :: ss => [','] ++ s ++ commaTail ss
/-- Comma-separated pieces without spaces, klickhouse/src/values/mod.rs:421-440. -/
def commas : List Str → Str
  | [] => []
  | s :: ss => s ++ commaTail ss

mutual
/-- `impl Display for Value`, klickhouse/src/values/mod.rs:339-461, as the outcome of `to_string` or
`write!(..).unwrap()`: a formatting error panics there. The map arm asserts equal lengths first. -/
def Value.text (ext : Ext) : Value → Res Str
  | .int8 x => .ok (decInt x.toInt)
  | .int16 x => .ok (decInt x.toInt)
  | .int32 x => .ok (decInt x.toInt)
  | .int64 x => .ok (decInt x.toInt)
  | .int128 x => .ok (decInt x.toInt ++ ch!"::Int128")
  | .int256 x => .ok (hexText x ++ ch!"::Int256")
  | .uint8 x => .ok (dec x.toNat)
  | .uint16 x => .ok (dec x.toNat)
  | .uint32 x => .ok (dec x.toNat)
  | .uint64 x => .ok (dec x.toNat)
  | .uint128 x => .ok (dec x.toNat ++ ch!"::UInt128")
  | .uint256 x => .ok (hexText x ++ ch!"::UInt256")
  | .float32 x => .ok (ext.f32 x)
  | .float64 x => .ok (ext.f64 x)
  | .bfloat16 x => .ok (ext.bf16 x)
  | .decimal32 p x => .ok (decimalText p (decInt x.toInt))
  | .decimal64 p x => .ok (decimalText p (decInt x.toInt))
  | .decimal128 p x => .ok (decimalText p (decInt x.toInt))
  | .decimal256 _ _ => .panic
  | .string s => .ok (['\''] ++ escapeString s ++ ['\''])
  | .uuid x => .ok (ch!"toUUID('" ++ uuidText x ++ ch!"')")
  | .date d => .ok (dateText d)
  | .dateTime tz t =>
    match ext.dateTime tz t with
    | some s => .ok (ch!"parseDateTimeBestEffort('" ++ escapeString (utf8Encode s) ++ ch!"')")
    | none => .panic
  | .dateTime64 tz t p =>
    match ext.dateTime64 tz t p with
    | some s => .ok (ch!"parseDateTime64BestEffort('" ++ escapeString (utf8Encode s) ++ ch!"', " ++ dec p ++ [')'])
    | none => .panic
  | .enum8 x => .ok (decInt x.toInt)
  | .enum16 x => .ok (decInt x.toInt)
  | .array xs => Value.texts ext xs >>= fun ss => .ok (['['] ++ commas ss ++ [']'])
  | .tuple xs => Value.texts ext xs >>= fun ss => .ok (['('] ++ commas ss ++ [')'])
  | .null => .ok (ch!"NULL")
  | .map ks vs =>
    if ks.length ≠ vs.length then .panic
    else Value.texts ext ks >>= fun ks => Value.texts ext vs >>= fun vs =>
      .ok (['{'] ++ commas ((ks.zip vs).map (fun e => e.1 ++ [':'] ++ e.2)) ++ ['}'])
  | .ipv4 x => .ok (['\''] ++ ipv4Text x ++ ['\''])
  | .ipv6 x => .ok (['\''] ++ ext.ipv6 x ++ ['\''])
  | .point p => .ok (ext.geo (.point p))
  | .ring r => .ok (ext.geo (.ring r))
  | .polygon r => .ok (ext.geo (.polygon r))
  | .multiPolygon r => .ok (ext.geo (.multiPolygon r))
/-- The items of a container, in order, klickhouse/src/values/mod.rs:421-453. -/
def Value.texts (ext : Ext) : List Value → Res (List Str)
  | [] => .ok []
  | v :: vs => Value.text ext v >>= fun s => Value.texts ext vs >>= fun ss => .ok (s :: ss)
end

/-! ### query parser -/

/-- A token of the query tokenizer, klickhouse/src/query_parser.rs:18-83. The tokenizer is generated
by the external crate `compiler_tools`; the model takes its output, and keeps apart only the tokens
the two functions below distinguish. Every token displays as its source text. -/
inductive Token where
  /-- `$` followed by one or more digits -/
  | clientArgument (digits : Str)
  /-- `$$` -/
  | escapedDollar
  /-- `;` -/
  | semicolon
  /-- any other token: words, numbers, quoted literals and identifiers, comments, heredocs, spaces,
  punctuation, illegal characters -/
  | other (text : Str)
deriving DecidableEq, Repr

/-- `Display` of a token, klickhouse/src/query_parser.rs:18-83. -/
def Token.text : Token → Str
  | .clientArgument ds => '$' :: ds
  | .escapedDollar => ['$', '$']
  | .semicolon => [';']
  | .other s => s

/-- The loop of `parse_query_arguments`, klickhouse/src/query_parser.rs:89-100; `out` is the text
written so far. -/
def argsLoop (ext : Ext) (args : List Value) : Str → List Token → Res Str
  | out, [] => .ok out
  | out, .escapedDollar :: ts => argsLoop ext args (out ++ ['$']) ts
  | out, .clientArgument ds :: ts =>
    match parseUsize ds with
    | some i =>
      if i ≤ args.length ∧ i > 0 then
        (match args[i - 1]? with
          | some v => v.text ext >>= fun s => argsLoop ext args (out ++ s) ts
          | none => .panic)
      else argsLoop ext args (out ++ (Token.clientArgument ds).text) ts
    | none => argsLoop ext args (out ++ (Token.clientArgument ds).text) ts
  | out, t :: ts => argsLoop ext args (out ++ t.text) ts

/-- `parse_query_arguments`, klickhouse/src/query_parser.rs:85-102. -/
def parseQueryArguments (ext : Ext) (ts : List Token) (args : List Value) : Res Str :=
  argsLoop ext args [] ts

/-- The loop of `split_query_statements`, klickhouse/src/query_parser.rs:108-119; `cur` is the last
entry of `out`. -/
def splitLoop : List Str → Str → List Token → List Str
  | out, cur, [] => out ++ [cur]
  | out, cur, .semicolon :: ts => splitLoop (out ++ [cur ++ [';']]) [] ts
  | out, cur, t :: ts => splitLoop out (cur ++ t.text) ts

/-- `split_query_statements`, klickhouse/src/query_parser.rs:104-124. -/
def splitQueryStatements (ts : List Token) : List Str :=
  ((splitLoop [] [] ts).map trim).filter (fun s => !s.isEmpty)

/-! ### builders -/

/-- `into_iter().collect::<Result<Vec<_>>>()`: the first error, or all values, klickhouse/src/query/mod.rs:75. -/
def collectRes {α : Type} : List (Res α) → Res (List α)
  | [] => .ok []
  | r :: rs => r >>= fun a => collectRes rs >>= fun as => .ok (a :: as)

/-- `QueryBuilder` after any number of `arg`/`args` calls and `finalize`,
klickhouse/src/query/mod.rs:41-81. `arguments` are the conversions in call order. -/
def finalizeQuery (ext : Ext) (base : List Token) (arguments : List (Res Value)) : Res Str :=
  collectRes arguments >>= fun args => parseQueryArguments ext base args

/-- A query fragment given to the builder: parsed text or the error of its conversion, klickhouse/src/query/select.rs:3-22. -/
abbrev Frag := Res Str

/-- `SelectBuilder`, klickhouse/src/query/select.rs:3-22. -/
structure SelectBuilder where
  withs : List Frag := []
  distinct : Bool := false
  distinctOn : List Frag := []
  exprs : List Frag := []
  frm : Frag
  sample : Option Frag := none
  arrayJoins : List Frag := []
  joins : List Frag := []
  prewhere : List Frag := []
  where_ : List Frag := []
  groupBy : List Frag := []
  having : List Frag := []
  orderBy : Option Frag := none
  limit : Option Frag := none
  offset : Option Frag := none
  settings : Option Frag := none
  union : Option Frag := none

/-- The builder's methods, klickhouse/src/query/select.rs:48-202 (the `_all` variants are repeated
calls of the single ones). -/
inductive SelectCall where
  | with_ (f : Frag) | distinct (b : Bool) | distinctOn (f : Frag) | select (f : Frag)
  | sample (f : Frag) | arrayJoin (f : Frag) | join (f : Frag) | prewhere (f : Frag)
  | where_ (f : Frag) | groupBy (f : Frag) | having (f : Frag) | orderBy (f : Frag)
  | limit (f : Frag) | offset (f : Frag) | settings (f : Frag) | union (f : Frag)

/-- One builder call, klickhouse/src/query/select.rs:48-202. -/
def SelectBuilder.call (b : SelectBuilder) : SelectCall → SelectBuilder
  | .with_ f => { b with withs := b.withs ++ [f] }
  | .distinct d => { b with distinct := d, distinctOn := [] }
  | .distinctOn f => { b with distinct := false, distinctOn := b.distinctOn ++ [f] }
  | .select f => { b with exprs := b.exprs ++ [f] }
  | .sample f => { b with sample := some f }
  | .arrayJoin f => { b with arrayJoins := b.arrayJoins ++ [f] }
  | .join f => { b with joins := b.joins ++ [f] }
  | .prewhere f => { b with prewhere := b.prewhere ++ [f] }
  | .where_ f => { b with where_ := b.where_ ++ [f] }
  | .groupBy f => { b with groupBy := b.groupBy ++ [f] }
  | .having f => { b with having := b.having ++ [f] }
  | .orderBy f => { b with orderBy := some f }
  | .limit f => { b with limit := some f }
  | .offset f => { b with offset := some f }
  | .settings f => { b with settings := some f }
  | .union f => { b with union := some f }

/-- `SelectBuilder::new(from)` followed by calls, klickhouse/src/query/select.rs:24-202. -/
def SelectBuilder.calls (frm : Frag) (cs : List SelectCall) : SelectBuilder :=
  cs.foldl SelectBuilder.call { frm := frm }

/-- `reverse(); while let Some(last) = pop()`: the fragments in order, each followed by `sep`, the
last one by `fin`; stops at the first error. klickhouse/src/query/select.rs:218-225 and the like. -/
def drain (sep fin : Str) : Str → List Frag → Res Str
  | out, [] => .ok out
  | out, f :: fs => f >>= fun s => drain sep fin (out ++ s ++ (if fs.isEmpty then fin else sep)) fs

/-- A clause that is left out when it has no fragments, klickhouse/src/query/select.rs:284-338. -/
def listClause (head sep fin tail : Str) (fs : List Frag) (out : Str) : Res Str :=
  if fs.isEmpty then .ok out else drain sep fin (out ++ head) fs >>= fun out => .ok (out ++ tail)

/-- A clause with at most one fragment, `if let Some(..)`, klickhouse/src/query/select.rs:260-264,340-368. -/
def optClause (head : Str) (f : Option Frag) (out : Str) : Res Str :=
  match f with
  | none => .ok out
  | some f => f >>= fun s => .ok (out ++ head ++ s ++ ['\n'])

/-- DISTINCT or DISTINCT ON, klickhouse/src/query/select.rs:231-244. -/
def distinctClause (d : Bool) (fs : List Frag) (out : Str) : Res Str :=
  if d then .ok (out ++ ch!"DISTINCT\n")
  else listClause (ch!"DISTINCT ON (") [','] [] (ch!")\n") fs out

/-- `TryInto<ParsedQuery> for SelectBuilder`, klickhouse/src/query/select.rs:210-371. -/
def SelectBuilder.build (b : SelectBuilder) : Res Str :=
  listClause (ch!"WITH ") [','] [] ['\n'] b.withs [] >>= fun out =>
  distinctClause b.distinct b.distinctOn (out ++ ch!"SELECT\n") >>= fun out =>
  drain (ch!",\n") ['\n'] out b.exprs >>= fun out =>
  b.frm >>= fun frm =>
  optClause (ch!"SAMPLE ") b.sample (out ++ ch!"FROM " ++ frm ++ ['\n']) >>= fun out =>
  listClause [] ['\n'] ['\n'] [] b.arrayJoins out >>= fun out =>
  listClause [] ['\n'] ['\n'] [] b.joins out >>= fun out =>
  listClause (ch!"PREWHERE (") (ch!") AND\n(") (ch!")\n") [] b.prewhere out >>= fun out =>
  listClause (ch!"WHERE (") (ch!") AND\n(") (ch!")\n") [] b.where_ out >>= fun out =>
  listClause (ch!"GROUP BY ") (ch!",\n") ['\n'] [] b.groupBy out >>= fun out =>
  listClause (ch!"HAVING (") (ch!") AND\n(") (ch!")\n") [] b.having out >>= fun out =>
  optClause (ch!"ORDER BY ") b.orderBy out >>= fun out =>
  optClause (ch!"LIMIT ") b.limit out >>= fun out =>
  optClause (ch!"OFFSET ") b.offset out >>= fun out =>
  optClause (ch!"SETTINGS ") b.settings out >>= fun out =>
  optClause (ch!"UNION ") b.union out

end Klick
