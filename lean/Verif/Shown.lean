import Verif.Serde
import Verif.Lexer
import Verif.Sql
/-
`Display` and `Debug` for values with the date and time arms spelled out: klickhouse/src/values/mod.rs:333-461. `Value.text` (Sql) leaves
them to a parameter; here they are the conversions of `Dates` followed by chrono's `to_rfc3339_opts`.
-/
namespace Klick

/-- A text, if there is one: `map_err(|_| fmt::Error)?`, with which every `to_string`, `format!` and `write!(..).unwrap()` panics,
klickhouse/src/values/mod.rs:403-404,410-412. -/
def shownOrNot (r : Res Str) : Option Str :=
  match r with
  | .ok s => some s
  | _ => none

/-- The `DateTime` and `DateTime64` arms of Display, klickhouse/src/values/mod.rs:402-418: the conversions to `chrono::DateTime<Tz>`, then
`to_rfc3339_opts(SecondsFormat::AutoSi, true)`, which differs from `to_rfc3339` (`Rfc3339.text`) only in writing `Z` for an offset of
zero; `lib` is taken to do so. The other texts of external crates are those of `base`. -/
def timeExt (cfg : Cfg) (lib : Rfc3339) (base : Ext) : Ext :=
  { base with
    dateTime := fun tz x => shownOrNot (dateTimeToInst x >>= fun i => .ok (lib.text tz i))
    dateTime64 := fun tz x p => shownOrNot (chronoFromSql cfg (.dateTime64 p tz) (.dateTime64 tz x p) >>= fun (z, i) => .ok (lib.text z i)) }

/-- `impl Display for Value`, and `Debug`, which is the same, klickhouse/src/values/mod.rs:333-461. -/
def Value.shown (cfg : Cfg) (lib : Rfc3339) (base : Ext) (v : Value) : Res Str := v.text (timeExt cfg lib base)

/-- `parse_query_arguments` with these texts, klickhouse/src/query_parser.rs:85-102. -/
def queryWithArguments (cfg : Cfg) (lib : Rfc3339) (base : Ext) (template : List Token) (args : List Value) : Res Str :=
  parseQueryArguments (timeExt cfg lib base) template args

end Klick
