import Verif.Case
import Verif.Derive
/-
Attributes of `#[derive(Row)]`: klickhouse_derive/src/attr.rs, ast.rs, ctxt.rs, check.rs, symbol.rs. This code runs when a
struct is compiled: errors and panics are compile errors. External (crate `syn`): parsing of the attribute syntax itself and
of the paths, types and where clauses inside string literals. Generics (bound.rs, receiver.rs) are in Bound.lean. Spans and `repr(packed)`
(which changes only how a field is moved out, row.rs:331-338) are not modelled.
-/
namespace Klick

/-- The right-hand side of `name = value`: a string literal, another literal, or any other expression (`syn::Expr`),
klickhouse_derive/src/attr.rs:142-286,403-526. -/
inductive MetaVal where
  | str (s : Str)
  | lit
  | expr
deriving DecidableEq, Repr

/-- `syn::Meta`: `word`, `word = value` or `word(...)`. Paths are their text without spaces; `Path::is_ident` (symbol.rs:37-47)
is then equality of texts. -/
inductive MetaItem where
  | path (p : Str)
  | nameValue (p : Str) (v : MetaVal)
  | list (p : Str)
deriving DecidableEq, Repr

/-- `meta_item.path()`, klickhouse_derive/src/attr.rs:142-286,403-526. -/
def MetaItem.name : MetaItem → Str
  | .path p => p
  | .nameValue p _ => p
  | .list p => p

/-- One `#[...]`: not of this crate, `#[klickhouse...]` with arguments `syn` cannot parse, or a list of items,
klickhouse_derive/src/attr.rs:594-609. -/
inductive Attribute where
  | other
  | malformed
  | items (l : List MetaItem)
deriving DecidableEq, Repr

/-- The parsers of `syn` used on string literals: `ExprPath` (as its segments), `WhereClause` (its predicates) and `Type`,
klickhouse_derive/src/attr.rs:634-672. -/
structure Syn where
  path : Str → Option (List Str)
  preds : Str → Option (List Str)
  type : Str → Option Str

/-- The compile errors this code reports (the messages are left out), klickhouse_derive/src/ctxt.rs:28-43. -/
inductive AttrErr where
  | syntax
  | duplicate (name : Str)
  | notString (name : Str)
  | badPath (text : Str)
  | badPreds (text : Str)
  | badType (name text : Str)
  | badRule (text : Str)
  | unknown (name : Str)
  | defaultOnUnnamed
  | unsupported
  | fromAndTryFrom
deriving DecidableEq, Repr

/-- `attr::Default`, klickhouse_derive/src/attr.rs:364-372. -/
inductive Dflt where
  | none
  | default
  | path (p : List Str)
deriving DecidableEq, Repr

/-- `attr::Field`, klickhouse_derive/src/attr.rs:351-361; `renamed` is that of `Name`. -/
structure FieldAttrs where
  name : Str
  renamed : Bool
  skipSer : Bool
  skipDe : Bool
  default : Dflt
  serWith : Option (List Str)
  deWith : Option (List Str)
  bound : Option (List Str)
  nested : Bool
  flatten : Bool
deriving DecidableEq, Repr

/-- `attr::Container`, klickhouse_derive/src/attr.rs:113-122, without `is_packed`. -/
structure ContainerAttrs where
  denyUnknown : Bool
  default : Dflt
  rule : RenameRule
  bound : Option (List Str)
  typeFrom : Option Str
  typeTryFrom : Option Str
  typeInto : Option Str
deriving DecidableEq, Repr

/-- The variables of `Field::from_ast` while it goes through the attributes, klickhouse_derive/src/attr.rs:382-390, with the errors
reported so far. -/
structure FieldVars where
  rename : Option Str := none
  nested : Option Unit := none
  skipSer : Option Unit := none
  skipDe : Option Unit := none
  flatten : Option Unit := none
  default : Option Dflt := none
  serWith : Option (List Str) := none
  deWith : Option (List Str) := none
  bound : Option (List Str) := none
  errs : List AttrErr := []

/-- `Attr::set`, klickhouse_derive/src/attr.rs:37-49: the value afterwards, and the error if there already was one. -/
def attrSet {α : Type} (name : Str) (cur : Option α) (v : α) : Option α × List AttrErr :=
  match cur with
  | some x => (some x, [.duplicate name])
  | none => (some v, [])

namespace FieldVars

/-- `cx.error_spanned_by`, klickhouse_derive/src/ctxt.rs:28-38. -/
def err (st : FieldVars) (e : AttrErr) : FieldVars := { st with errs := st.errs ++ [e] }
/-- `Attr::set` on the variable for this attribute, klickhouse_derive/src/attr.rs:37-49. -/
def setRename (st : FieldVars) (s : Str) : FieldVars :=
  let r := attrSet (ch! "rename") st.rename s
  { st with rename := r.1, errs := st.errs ++ r.2 }
/-- `Attr::set` on the variable for this attribute, klickhouse_derive/src/attr.rs:37-49. -/
def setNested (st : FieldVars) : FieldVars :=
  let r := attrSet (ch! "nested") st.nested ()
  { st with nested := r.1, errs := st.errs ++ r.2 }
/-- `Attr::set` on the variable for this attribute, klickhouse_derive/src/attr.rs:37-49. -/
def setSkipSer (st : FieldVars) : FieldVars :=
  let r := attrSet (ch! "skip_serializing") st.skipSer ()
  { st with skipSer := r.1, errs := st.errs ++ r.2 }
/-- `Attr::set` on the variable for this attribute, klickhouse_derive/src/attr.rs:37-49. -/
def setSkipDe (st : FieldVars) : FieldVars :=
  let r := attrSet (ch! "skip_deserializing") st.skipDe ()
  { st with skipDe := r.1, errs := st.errs ++ r.2 }
/-- `Attr::set` on the variable for this attribute, klickhouse_derive/src/attr.rs:37-49. -/
def setFlatten (st : FieldVars) : FieldVars :=
  let r := attrSet (ch! "flatten") st.flatten ()
  { st with flatten := r.1, errs := st.errs ++ r.2 }
/-- `Attr::set` on the variable for this attribute, klickhouse_derive/src/attr.rs:37-49. -/
def setDefault (st : FieldVars) (d : Dflt) : FieldVars :=
  let r := attrSet (ch! "default") st.default d
  { st with default := r.1, errs := st.errs ++ r.2 }
/-- `Attr::set` on the variable for this attribute, klickhouse_derive/src/attr.rs:37-49. -/
def setSerWith (st : FieldVars) (p : List Str) : FieldVars :=
  let r := attrSet (ch! "serialize_with") st.serWith p
  { st with serWith := r.1, errs := st.errs ++ r.2 }
/-- `Attr::set` on the variable for this attribute, klickhouse_derive/src/attr.rs:37-49. -/
def setDeWith (st : FieldVars) (p : List Str) : FieldVars :=
  let r := attrSet (ch! "deserialize_with") st.deWith p
  { st with deWith := r.1, errs := st.errs ++ r.2 }
/-- `Attr::set` on the variable for this attribute, klickhouse_derive/src/attr.rs:37-49. -/
def setBound (st : FieldVars) (ps : List Str) : FieldVars :=
  let r := attrSet (ch! "bound") st.bound ps
  { st with bound := r.1, errs := st.errs ++ r.2 }

/-- `let Expr::Lit(..) = &m.value else { continue }` followed by `get_lit_str`, klickhouse_derive/src/attr.rs:405-413,611-632. -/
def onStr (st : FieldVars) (name : Str) (v : MetaVal) (k : Str → FieldVars) : FieldVars :=
  match v with
  | .str s => k s
  | .lit => st.err (.notString name)
  | .expr => st

/-- `parse_lit_into_expr_path`, klickhouse_derive/src/attr.rs:634-643. -/
def onPath (S : Syn) (st : FieldVars) (name : Str) (v : MetaVal) (k : List Str → FieldVars) : FieldVars :=
  st.onStr name v (fun s =>
    match S.path s with
    | some p => k p
    | none => st.err (.badPath s))

/-- `parse_lit_into_where`, klickhouse_derive/src/attr.rs:645-661: the empty text means no predicate. -/
def onPreds (S : Syn) (st : FieldVars) (name : Str) (v : MetaVal) (k : List Str → FieldVars) : FieldVars :=
  st.onStr name v (fun s =>
    if s = [] then k []
    else match S.preds s with
      | some ps => k ps
      | none => st.err (.badPreds s))

/-- One turn of the loop of `Field::from_ast`, klickhouse_derive/src/attr.rs:403-526. -/
def item (S : Syn) (st : FieldVars) : MetaItem → FieldVars
  | .path p =>
    if p = ch! "default" then st.setDefault .default
    else if p = ch! "skip_serializing" then st.setSkipSer
    else if p = ch! "nested" then st.setNested
    else if p = ch! "flatten" then st.setFlatten
    else if p = ch! "skip_deserializing" then st.setSkipDe
    else if p = ch! "skip" then st.setSkipSer.setSkipDe
    else st.err (.unknown p)
  | .nameValue p v =>
    if p = ch! "rename" then st.onStr p v (fun s => st.setRename s)
    else if p = ch! "default" then st.onPath S p v (fun d => st.setDefault (.path d))
    else if p = ch! "serialize_with" then st.onPath S p v (fun q => st.setSerWith q)
    else if p = ch! "deserialize_with" then st.onPath S p v (fun q => st.setDeWith q)
    else if p = ch! "with" then
      st.onPath S p v (fun q => (st.setSerWith (q ++ [ch! "to_sql"])).setDeWith (q ++ [ch! "from_sql"]))
    else if p = ch! "bound" then st.onPreds S p v (fun ps => st.setBound ps)
    else st.err (.unknown p)
  | .list p => st.err (.unknown p)

/-- `get_klickhouse_meta_items` and the items of one attribute, klickhouse_derive/src/attr.rs:397-402,594-609. -/
def oneAttr (S : Syn) (st : FieldVars) : Attribute → FieldVars
  | .other => st
  | .malformed => st.err .syntax
  | .items l => l.foldl (item S) st

/-- The end of `Field::from_ast`, klickhouse_derive/src/attr.rs:529-548. -/
def finish (st : FieldVars) (ident : Str) (containerDefault : Dflt) : FieldAttrs :=
  let dflt :=
    if containerDefault = .none ∧ st.skipDe.isSome then (match st.default with | some d => some d | none => some Dflt.default)
    else st.default
  { name := st.rename.getD (unraw ident), renamed := st.rename.isSome, skipSer := st.skipSer.isSome, skipDe := st.skipDe.isSome,
    default := dflt.getD .none, serWith := st.serWith, deWith := st.deWith, bound := st.bound, nested := st.nested.isSome,
    flatten := st.flatten.isSome }

end FieldVars

/-- `Field::from_ast`, klickhouse_derive/src/attr.rs:375-549, of a named field: the attributes and the errors. -/
def fieldFromAst (S : Syn) (ident : Str) (attrs : List Attribute) (containerDefault : Dflt) : FieldAttrs × List AttrErr :=
  let st := attrs.foldl (FieldVars.oneAttr S) {}
  (st.finish ident containerDefault, st.errs)

/-- What the derive stands on (`syn::Data` and `syn::Fields`), klickhouse_derive/src/ast.rs:40-50,73-83. -/
inductive Shape where
  | named (fields : List (Str × List Attribute))
  | tuple
  | unit
  | enum
  | union
deriving DecidableEq, Repr

/-- Is it a struct with named fields? See klickhouse_derive/src/attr.rs:176-194. -/
def Shape.isNamed : Shape → Bool
  | .named _ => true
  | _ => false

/-- The variables of `Container::from_ast`, klickhouse_derive/src/attr.rs:127-134. -/
structure ContainerVars where
  rename : Option Str := none
  denyUnknown : Option Unit := none
  default : Option Dflt := none
  rule : Option RenameRule := none
  bound : Option (List Str) := none
  typeFrom : Option Str := none
  typeTryFrom : Option Str := none
  typeInto : Option Str := none
  errs : List AttrErr := []

namespace ContainerVars

/-- `cx.error_spanned_by`, klickhouse_derive/src/ctxt.rs:28-38. -/
def err (st : ContainerVars) (e : AttrErr) : ContainerVars := { st with errs := st.errs ++ [e] }
/-- `Attr::set` on the variable for this attribute, klickhouse_derive/src/attr.rs:37-49. -/
def setRename (st : ContainerVars) (s : Str) : ContainerVars :=
  let r := attrSet (ch! "rename") st.rename s
  { st with rename := r.1, errs := st.errs ++ r.2 }
/-- `Attr::set` on the variable for this attribute, klickhouse_derive/src/attr.rs:37-49. -/
def setDeny (st : ContainerVars) : ContainerVars :=
  let r := attrSet (ch! "deny_unknown_fields") st.denyUnknown ()
  { st with denyUnknown := r.1, errs := st.errs ++ r.2 }
/-- `Attr::set` on the variable for this attribute, klickhouse_derive/src/attr.rs:37-49. -/
def setDefault (st : ContainerVars) (d : Dflt) : ContainerVars :=
  let r := attrSet (ch! "default") st.default d
  { st with default := r.1, errs := st.errs ++ r.2 }
/-- `Attr::set` on the variable for this attribute, klickhouse_derive/src/attr.rs:37-49. -/
def setRule (st : ContainerVars) (d : RenameRule) : ContainerVars :=
  let r := attrSet (ch! "rename_all") st.rule d
  { st with rule := r.1, errs := st.errs ++ r.2 }
/-- `Attr::set` on the variable for this attribute, klickhouse_derive/src/attr.rs:37-49. -/
def setBound (st : ContainerVars) (ps : List Str) : ContainerVars :=
  let r := attrSet (ch! "bound") st.bound ps
  { st with bound := r.1, errs := st.errs ++ r.2 }
/-- `Attr::set` on the variable for this attribute, klickhouse_derive/src/attr.rs:37-49. -/
def setFrom (st : ContainerVars) (t : Str) : ContainerVars :=
  let r := attrSet (ch! "from") st.typeFrom t
  { st with typeFrom := r.1, errs := st.errs ++ r.2 }
/-- `Attr::set` on the variable for this attribute, klickhouse_derive/src/attr.rs:37-49. -/
def setTryFrom (st : ContainerVars) (t : Str) : ContainerVars :=
  let r := attrSet (ch! "try_from") st.typeTryFrom t
  { st with typeTryFrom := r.1, errs := st.errs ++ r.2 }
/-- `Attr::set` on the variable for this attribute, klickhouse_derive/src/attr.rs:37-49. -/
def setInto (st : ContainerVars) (t : Str) : ContainerVars :=
  let r := attrSet (ch! "into") st.typeInto t
  { st with typeInto := r.1, errs := st.errs ++ r.2 }

/-- As in fields: `let Expr::Lit(..) = &m.value else { continue }` and `get_lit_str`, klickhouse_derive/src/attr.rs:144-152,611-632. -/
def onStr (st : ContainerVars) (name : Str) (v : MetaVal) (k : Str → ContainerVars) : ContainerVars :=
  match v with
  | .str s => k s
  | .lit => st.err (.notString name)
  | .expr => st

/-- `parse_lit_into_expr_path`, klickhouse_derive/src/attr.rs:634-643. -/
def onPath (S : Syn) (st : ContainerVars) (name : Str) (v : MetaVal) (k : List Str → ContainerVars) : ContainerVars :=
  st.onStr name v (fun s =>
    match S.path s with
    | some p => k p
    | none => st.err (.badPath s))

/-- `parse_lit_into_where`, klickhouse_derive/src/attr.rs:645-661. -/
def onPreds (S : Syn) (st : ContainerVars) (name : Str) (v : MetaVal) (k : List Str → ContainerVars) : ContainerVars :=
  st.onStr name v (fun s =>
    if s = [] then k []
    else match S.preds s with
      | some ps => k ps
      | none => st.err (.badPreds s))

/-- `parse_lit_into_ty`, klickhouse_derive/src/attr.rs:663-672. -/
def onType (S : Syn) (st : ContainerVars) (name : Str) (v : MetaVal) (k : Str → ContainerVars) : ContainerVars :=
  st.onStr name v (fun s =>
    match S.type s with
    | some t => k t
    | none => st.err (.badType name s))

/-- One turn of the loop of `Container::from_ast`, klickhouse_derive/src/attr.rs:142-286. -/
def item (S : Syn) (shape : Shape) (st : ContainerVars) : MetaItem → ContainerVars
  | .path p =>
    if p = ch! "deny_unknown_fields" then st.setDeny
    else if p = ch! "default" then
      if shape.isNamed then st.setDefault .default else st.err .defaultOnUnnamed
    else st.err (.unknown p)
  | .nameValue p v =>
    if p = ch! "rename" then st.onStr p v (fun s => st.setRename s)
    else if p = ch! "rename_all" then
      st.onStr p v (fun s =>
        match RenameRule.fromStr s with
        | some r => st.setRule r
        | none => st.err (.badRule s))
    else if p = ch! "default" then
      st.onPath S p v (fun d => if shape.isNamed then st.setDefault (.path d) else st.err .defaultOnUnnamed)
    else if p = ch! "bound" then st.onPreds S p v (fun ps => st.setBound ps)
    else if p = ch! "from" then st.onType S p v (fun t => st.setFrom t)
    else if p = ch! "try_from" then st.onType S p v (fun t => st.setTryFrom t)
    else if p = ch! "into" then st.onType S p v (fun t => st.setInto t)
    else st.err (.unknown p)
  | .list p => st.err (.unknown p)

/-- The items of one attribute of the struct, klickhouse_derive/src/attr.rs:136-141,594-609. -/
def oneAttr (S : Syn) (shape : Shape) (st : ContainerVars) : Attribute → ContainerVars
  | .other => st
  | .malformed => st.err .syntax
  | .items l => l.foldl (item S shape) st

/-- The end of `Container::from_ast`, klickhouse_derive/src/attr.rs:305-315. The name set by `rename` is dropped. -/
def finish (st : ContainerVars) : ContainerAttrs :=
  { denyUnknown := st.denyUnknown.isSome, default := st.default.getD .none, rule := st.rule.getD .none, bound := st.bound,
    typeFrom := st.typeFrom, typeTryFrom := st.typeTryFrom, typeInto := st.typeInto }

end ContainerVars

/-- `attr::Container::from_ast`, klickhouse_derive/src/attr.rs:126-315. -/
def containerFromAst (S : Syn) (attrs : List Attribute) (shape : Shape) : ContainerAttrs × List AttrErr :=
  let st := attrs.foldl (ContainerVars.oneAttr S shape) {}
  (st.finish, st.errs)

/-- How the macro ends: with the parsed struct, with compile errors, or with a panic (also a compile error), klickhouse_derive/src/row.rs:81-91. -/
inductive Compiled (α : Type) where
  | ok (a : α)
  | errors (es : List AttrErr)
  | panic
deriving Repr

/-- `rename_by_rules`, klickhouse_derive/src/attr.rs:555-559, for all fields in order, ast.rs:52-54. -/
def renameAll (rule : RenameRule) : List FieldAttrs → Res (List FieldAttrs)
  | [] => .ok []
  | f :: fs =>
    (if f.renamed then .ok f else rule.apply f.name >>= fun n => .ok { f with name := n }) >>= fun f =>
    renameAll rule fs >>= fun fs => .ok (f :: fs)

/-- `ctxt.check()`, klickhouse_derive/src/ctxt.rs:46-52. -/
def checked {α : Type} (a : α) : List AttrErr → Compiled α
  | [] => .ok a
  | es => .errors es

/-- `ast::Container::from_ast` with `check`, klickhouse_derive/src/ast.rs:37-102 and check.rs, and the `ctxt.check()` of row.rs:84-88. -/
def structFromAst (S : Syn) (attrs : List Attribute) (shape : Shape) : Compiled (ContainerAttrs × List FieldAttrs) :=
  let c := containerFromAst S attrs shape
  match shape with
  | .enum => .errors (c.2 ++ [.unsupported])
  | .union => .errors (c.2 ++ [.unsupported])
  | .named fields =>
    let fs := fields.map (fun f => fieldFromAst S f.1 f.2 c.1.default)
    match renameAll c.1.rule (fs.map Prod.fst) with
    | .ok named =>
      checked (c.1, named) (c.2 ++ (fs.map Prod.snd).flatten ++
        (if c.1.typeFrom.isSome && c.1.typeTryFrom.isSome then [.fromAndTryFrom] else []))
    | _ => .panic
  | _ =>
    checked (c.1, []) (c.2 ++ [.unsupported] ++ (if c.1.typeFrom.isSome && c.1.typeTryFrom.isSome then [.fromAndTryFrom] else []))

end Klick
