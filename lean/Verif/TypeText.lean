import Verif.Text
import Verif.Values
/-
Type names as text: klickhouse/src/types/mod.rs:198-595 (`FromStr` and `Display` for `Type`).
-/
namespace Klick

/-- `char::is_alphabetic`: ASCII letters, and beyond ASCII the external Unicode table, klickhouse/src/types/mod.rs:199-208. -/
def isAlphabetic (cfg : Cfg) (c : Char) : Bool := if c.toNat < 128 then c.isAlpha else cfg.isAlphaX c
/-- `char::is_numeric`: ASCII digits, and beyond ASCII the external Unicode table, klickhouse/src/types/mod.rs:199-208. -/
def isNumeric (cfg : Cfg) (c : Char) : Bool := if c.toNat < 128 then isDigit c else cfg.isNumX c

/-- The loop of `eat_identifier` past the first character, klickhouse/src/types/mod.rs:199-208. -/
def eatTail (cfg : Cfg) : Str → Str × Str
  | [] => ([], [])
  | c :: r =>
    if isAlphabetic cfg c || c == '_' || c == '$' || isNumeric cfg c then
      (c :: (eatTail cfg r).1, (eatTail cfg r).2)
    else ([], c :: r)

/-- `eat_identifier`, klickhouse/src/types/mod.rs:199-208 (a digit is refused at position 0). -/
def eatIdent (cfg : Cfg) : Str → Str × Str
  | [] => ([], [])
  | c :: r =>
    if isAlphabetic cfg c || c == '_' || c == '$' then
      (c :: (eatTail cfg r).1, (eatTail cfg r).2)
    else ([], c :: r)

/-- The loop of `parse_args`, klickhouse/src/types/mod.rs:216-246: `d` is `in_parens`, `cur` is
`input[last_start..i]`. `in_parens -= 1` at 0 panics with overflow checks; without them it wraps to
`usize::MAX`, which the model writes as `-1` (the same for any text shorter than 2^63 characters,
because only the comparison with 0 is ever made). -/
def argLoop (cfg : Cfg) : Int → Str → Str → Res (List Str)
  | d, cur, [] =>
    if d ≠ 0 then .err .typeParse else if cur.isEmpty then .ok [] else .ok [trim cur]
  | d, cur, c :: r =>
    if c = ',' then
      if d = 0 then argLoop cfg d [] r >>= fun xs => .ok (trim cur :: xs)
      else argLoop cfg d (cur ++ [c]) r
    else if c = '(' then argLoop cfg (d + 1) (cur ++ [c]) r
    else if c = ')' then
      if cfg.overflowChecks && d == 0 then .panic else argLoop cfg (d - 1) (cur ++ [c]) r
    else argLoop cfg d (cur ++ [c]) r

/-- `parse_args`, klickhouse/src/types/mod.rs:210-247. -/
def parseArgs (cfg : Cfg) (s : Str) : Res (List Str) :=
  if s.head? = some '(' ∧ s.getLast? = some ')' then argLoop cfg 0 [] (trim (s.drop 1).dropLast)
  else .err .typeParse

/-- `parse_scale`, `parse_precision`, klickhouse/src/types/mod.rs:249-257. -/
def parseNum (s : Str) : Res Nat :=
  match parseUsize s with
  | some n => .ok n
  | none => .err .typeParse

/-- `x[1..x.len() - 1]` after the check that `x` starts and ends with a quote
(klickhouse/src/types/mod.rs:267-273,373-384,388-401): for the one-character text `'` the slice
`[1..0]` panics. -/
def unquote (s : Str) : Res Str :=
  if s.head? = some '\'' ∧ s.getLast? = some '\'' then
    if s.length < 2 then .panic else .ok (s.drop 1).dropLast
  else .err .typeParse

/-- `parse_enum_variant`, klickhouse/src/types/mod.rs:259-282. -/
def parseEnumVariant (w : Nat) (s : Str) : Res (Str × BitVec w) :=
  if '=' ∈ s then
    let variant := trim (s.takeWhile (· ≠ '='))
    let value := trim ((s.dropWhile (· ≠ '=')).drop 1)
    unquote variant >>= fun inner =>
      match parseInt w value with
      | some v => .ok (trim inner, v)
      | none => .err .typeParse
  else .err .typeParse

/-- `args[i][1..len-1].parse::<Tz>()` with its quote check, klickhouse/src/types/mod.rs:373-384,388-401. -/
def parseTz (cfg : Cfg) (s : Str) : Res Tz :=
  unquote s >>= fun tz => if cfg.isTz tz then .ok tz else .err .typeParse

/-- The `match ident` with arguments, klickhouse/src/types/mod.rs:295-484. `rec` is the recursive
`Type::from_str`. -/
def withArgs (cfg : Cfg) (rec : Str → Res Ty) (ident : Str) (args : List Str) : Res Ty :=
  if ident = ch! "Decimal" then
    match args with
    | [a, b] =>
      parseNum a >>= fun p => parseNum b >>= fun s =>
        if p ≤ 9 then .ok (.decimal32 s) else if p ≤ 18 then .ok (.decimal64 s)
        else if p ≤ 38 then .ok (.decimal128 s) else if p ≤ 76 then .ok (.decimal256 s)
        else .err .typeParse
    | _ => .err .typeParse
  else if ident = ch! "Decimal32" then
    match args with | [a] => parseNum a >>= fun s => .ok (.decimal32 s) | _ => .err .typeParse
  else if ident = ch! "Decimal64" then
    match args with | [a] => parseNum a >>= fun s => .ok (.decimal64 s) | _ => .err .typeParse
  else if ident = ch! "Decimal128" then
    match args with | [a] => parseNum a >>= fun s => .ok (.decimal128 s) | _ => .err .typeParse
  else if ident = ch! "Decimal256" then
    match args with | [a] => parseNum a >>= fun s => .ok (.decimal256 s) | _ => .err .typeParse
  else if ident = ch! "FixedString" then
    match args with | [a] => parseNum a >>= fun s => .ok (.fixedString s) | _ => .err .typeParse
  else if ident = ch! "DateTime" then
    match args with | [a] => parseTz cfg a >>= fun tz => .ok (.dateTime tz) | _ => .err .typeParse
  else if ident = ch! "DateTime64" then
    match args with
    | [a, b] =>
      parseNum a >>= fun p => unquote b >>= fun tz =>
        if cfg.isTz tz then .ok (.dateTime64 p tz) else .err .typeParse
    | [a] => parseNum a >>= fun p => .ok (.dateTime64 p tzUTC)
    | _ => .err .typeParse
  else if ident = ch! "Enum8" then
    Res.mapL (fun a => parseEnumVariant 8 (trim a)) args >>= fun vs => .ok (.enum8 vs)
  else if ident = ch! "Enum16" then
    Res.mapL (fun a => parseEnumVariant 16 (trim a)) args >>= fun vs => .ok (.enum16 vs)
  else if ident = ch! "LowCardinality" then
    match args with | [a] => rec a >>= fun t => .ok (.lowCardinality t) | _ => .err .typeParse
  else if ident = ch! "Array" then
    match args with | [a] => rec a >>= fun t => .ok (.array t) | _ => .err .typeParse
  else if ident = ch! "Nested" then .err .typeParse
  else if ident = ch! "Tuple" then
    Res.mapL (fun a => rec (trim a)) args >>= fun ts => .ok (.tuple ts)
  else if ident = ch! "Nullable" then
    match args with | [a] => rec a >>= fun t => .ok (.nullable t) | _ => .err .typeParse
  else if ident = ch! "Map" then
    match args with
    | [a, b] => rec a >>= fun k => rec b >>= fun v => .ok (.map k v)
    | _ => .err .typeParse
  else .err .typeParse

/-- The `match ident` without arguments, klickhouse/src/types/mod.rs:486-523. -/
def noArgs (cfg : Cfg) (ident : Str) : Res Ty :=
  if ident = ch! "Int8" then .ok .int8 else if ident = ch! "Int16" then .ok .int16
  else if ident = ch! "Int32" then .ok .int32 else if ident = ch! "Int64" then .ok .int64
  else if ident = ch! "Int128" then .ok .int128 else if ident = ch! "Int256" then .ok .int256
  else if ident = ch! "Bool" then .ok .uint8 else if ident = ch! "UInt8" then .ok .uint8
  else if ident = ch! "UInt16" then .ok .uint16 else if ident = ch! "UInt32" then .ok .uint32
  else if ident = ch! "UInt64" then .ok .uint64 else if ident = ch! "UInt128" then .ok .uint128
  else if ident = ch! "UInt256" then .ok .uint256
  else if ident = ch! "Float32" then .ok .float32 else if ident = ch! "Float64" then .ok .float64
  else if ident = ch! "BFloat16" then (if cfg.bf16 then .ok .bfloat16 else .err .typeParse)
  else if ident = ch! "String" then .ok .string else if ident = ch! "UUID" then .ok .uuid
  else if ident = ch! "Date" then .ok .date else if ident = ch! "DateTime" then .ok (.dateTime tzUTC)
  else if ident = ch! "IPv4" then .ok .ipv4 else if ident = ch! "IPv6" then .ok .ipv6
  else if ident = ch! "Point" then .ok .point else if ident = ch! "Ring" then .ok .ring
  else if ident = ch! "Polygon" then .ok .polygon
  else if ident = ch! "MultiPolygon" then .ok .multiPolygon
  else .err .typeParse

/-- The body of `Type::from_str`, klickhouse/src/types/mod.rs:287-525. -/
def parseStep (cfg : Cfg) (rec : Str → Res Ty) (s : Str) : Res Ty :=
  let ident := (eatIdent cfg s).1
  let following := trim (eatIdent cfg s).2
  if ident.isEmpty then .err .typeParse
  else if following.isEmpty then noArgs cfg ident
  else parseArgs cfg following >>= fun args => withArgs cfg rec ident args

/-- `Type::from_str` unrolled to a given depth. The depth is never exhausted when it exceeds the
length of the text (`parse_unfold`), so the value at depth 0 is irrelevant, klickhouse/src/types/mod.rs:287-525. -/
def parseF (cfg : Cfg) : Nat → Str → Res Ty
  | 0, _ => .err .typeParse
  | n + 1, s => parseStep cfg (parseF cfg n) s

/-- `Type::from_str`, klickhouse/src/types/mod.rs:284-525. -/
def Ty.parse (cfg : Cfg) (s : Str) : Res Ty := parseF cfg (s.length + 1) s

/-- `join(",")` of the standard library, klickhouse/src/types/mod.rs:568,577,589. -/
def joinComma : List Str → Str
  | [] => []
  | [x] => x
  | x :: y :: r => x ++ ',' :: joinComma (y :: r)

/-- `format!("'{name}' = {value}")`, klickhouse/src/types/mod.rs:566,575. -/
def enumItem {w : Nat} (it : Str × BitVec w) : Str :=
  '\'' :: it.1 ++ (ch! "' = ") ++ decInt it.2.toInt

mutual
/-- `Display for Type`, klickhouse/src/types/mod.rs:527-595. -/
def Ty.display : Ty → Str
  | .int8 => ch! "Int8" | .int16 => ch! "Int16" | .int32 => ch! "Int32" | .int64 => ch! "Int64"
  | .int128 => ch! "Int128" | .int256 => ch! "Int256"
  | .uint8 => ch! "UInt8" | .uint16 => ch! "UInt16" | .uint32 => ch! "UInt32" | .uint64 => ch! "UInt64"
  | .uint128 => ch! "UInt128" | .uint256 => ch! "UInt256"
  | .float32 => ch! "Float32" | .float64 => ch! "Float64" | .bfloat16 => ch! "BFloat16"
  | .decimal32 s => (ch! "Decimal32") ++ '(' :: dec s ++ [')']
  | .decimal64 s => (ch! "Decimal64") ++ '(' :: dec s ++ [')']
  | .decimal128 s => (ch! "Decimal128") ++ '(' :: dec s ++ [')']
  | .decimal256 s => (ch! "Decimal256") ++ '(' :: dec s ++ [')']
  | .string => ch! "String"
  | .fixedString s => (ch! "FixedString") ++ '(' :: dec s ++ [')']
  | .uuid => ch! "UUID" | .date => ch! "Date"
  | .dateTime tz => (ch! "DateTime") ++ '(' :: ('\'' :: tz ++ ['\'']) ++ [')']
  | .dateTime64 p tz => (ch! "DateTime64") ++ '(' :: (dec p ++ ',' :: ('\'' :: tz ++ ['\''])) ++ [')']
  | .ipv4 => ch! "IPv4" | .ipv6 => ch! "IPv6"
  | .point => ch! "Point" | .ring => ch! "Ring" | .polygon => ch! "Polygon"
  | .multiPolygon => ch! "MultiPolygon"
  | .enum8 items => (ch! "Enum8") ++ '(' :: joinComma (items.map enumItem) ++ [')']
  | .enum16 items => (ch! "Enum16") ++ '(' :: joinComma (items.map enumItem) ++ [')']
  | .lowCardinality t => (ch! "LowCardinality") ++ '(' :: Ty.display t ++ [')']
  | .array t => (ch! "Array") ++ '(' :: Ty.display t ++ [')']
  | .tuple ts => (ch! "Tuple") ++ '(' :: joinComma (Ty.displays ts) ++ [')']
  | .nullable t => (ch! "Nullable") ++ '(' :: Ty.display t ++ [')']
  | .map k v => (ch! "Map") ++ '(' :: (Ty.display k ++ ',' :: Ty.display v) ++ [')']
/-- The texts of the members of a tuple, klickhouse/src/types/mod.rs:582-590. -/
def Ty.displays : List Ty → List Str
  | [] => []
  | t :: ts => Ty.display t :: Ty.displays ts
end

end Klick
