import Verif.Attr
/-
Which bounds a derived implementation puts on the type parameters of a generic struct: klickhouse_derive/src/bound.rs and
row.rs:39-60, and what `Self` in a field's type becomes: klickhouse_derive/src/receiver.rs. The syntax tree of `syn` (external) is
cut down to what these visitors look at: macros, `_`, `!`, tokens syn keeps verbatim and the expressions the visitors pass over are
`other`, with the identifiers written in them. Spans are left out.
-/
namespace Klick

mutual
/-- `syn::Type`: `fn` types have their inputs and output in one list; `elem` is `Ptr`, `Reference` or `Slice`; `traits` is `ImplTrait` or `TraitObject`; a path without and with `<T as ..>`. The number
tells apart the kinds that are treated alike, klickhouse_derive/src/bound.rs:123-164. -/
inductive STy where
  | group (t : STy)
  | paren (t : STy)
  | elem (kind : Nat) (t : STy)
  | array (t : STy) (len : SExpr)
  | func (parts : List STy)
  | traits (kind : Nat) (bounds : List SPath)
  | path (p : SPath)
  | qpath (q : STy) (p : SPath)
  | tuple (elems : List STy)
  | other (words : List Str)
/-- `syn::Expr`, as it may stand for the length of an array: the kinds of receiver.rs:259-284. -/
inductive SExpr where
  | binary (op : Str) (l r : SExpr)
  | call (f : SExpr) (args : List SExpr)
  | cast (e : SExpr) (t : STy)
  | field (e : SExpr) (name : Str)
  | index (e i : SExpr)
  | paren (e : SExpr)
  | path (p : SPath)
  | qpath (q : STy) (p : SPath)
  | unary (op : Str) (e : SExpr)
  | other (words : List Str)
/-- `syn::Path`: `leading_colon` and the segments, klickhouse_derive/src/bound.rs:102-119. -/
inductive SPath where
  | mk (lead : Bool) (segs : List SSeg)
/-- `syn::PathSegment`, klickhouse_derive/src/bound.rs:166-168. -/
inductive SSeg where
  | mk (ident : Str) (args : SArgs)
/-- `syn::PathArguments`; `turbo` says whether `::` is written before `<`, klickhouse_derive/src/bound.rs:170-193. -/
inductive SArgs where
  | none
  | angle (turbo : Bool) (args : List SArg)
  | paren (parts : List STy)
/-- `syn::GenericArgument`; the name of a lifetime has its `'`, klickhouse_derive/src/bound.rs:174-184. -/
inductive SArg where
  | type (t : STy)
  | assoc (name : Str) (t : STy)
  | const (e : SExpr)
  | assocConst (name : Str) (e : SExpr)
  | constraint (name : Str) (bounds : List SPath)
  | lifetime (name : Str)
end

/-- The segments of a path, klickhouse_derive/src/bound.rs:102-119. -/
def SPath.segs : SPath → List SSeg
  | .mk _ s => s
/-- Does it start with `::`? See klickhouse_derive/src/bound.rs:110. -/
def SPath.lead : SPath → Bool
  | .mk l _ => l
/-- The identifier of a segment, klickhouse_derive/src/bound.rs:104,111. -/
def SSeg.ident : SSeg → Str
  | .mk i _ => i
/-- The arguments of a segment, klickhouse_derive/src/bound.rs:166-168. -/
def SSeg.args : SSeg → SArgs
  | .mk _ a => a

/-- `path.segments.last()` is `PhantomData`, klickhouse_derive/src/bound.rs:103-109. -/
def SPath.isPhantom (p : SPath) : Bool :=
  match p.segs.getLast? with
  | some s => s.ident = ch! "PhantomData"
  | none => false

/-- `path.leading_colon.is_none() && path.segments.len() == 1`: the identifier, klickhouse_derive/src/bound.rs:110-115. -/
def SPath.alone (p : SPath) : Option Str :=
  match p with
  | .mk false [s] => some s.ident
  | _ => none

mutual
/-- `FindTyParams::visit_type`, klickhouse_derive/src/bound.rs:123-164: the type parameters found, in order. -/
def STy.found (all : List Str) : STy → List Str
  | .group t => STy.found all t
  | .paren t => STy.found all t
  | .elem _ t => STy.found all t
  | .array t _ => STy.found all t
  | .func ts => STy.foundAll all ts
  | .traits _ ps => STy.foundBounds all ps
  | .path p => SPath.found all p
  | .qpath q p => STy.found all q ++ SPath.found all p
  | .tuple ts => STy.foundAll all ts
  | .other _ => []
/-- A list of types, klickhouse_derive/src/bound.rs:127-129,155-157. -/
def STy.foundAll (all : List Str) : List STy → List Str
  | [] => []
  | t :: ts => STy.found all t ++ STy.foundAll all ts
/-- `visit_type_param_bound` of a list, klickhouse_derive/src/bound.rs:202-209 (`?Sized`-like bounds syn keeps verbatim are `todo!()`
and left out). -/
def STy.foundBounds (all : List Str) : List SPath → List Str
  | [] => []
  | p :: ps => SPath.found all p ++ STy.foundBounds all ps
/-- `visit_path`, klickhouse_derive/src/bound.rs:102-119. -/
def SPath.found (all : List Str) : SPath → List Str
  | .mk lead segs =>
    if (SPath.mk lead segs).isPhantom then []
    else
      (match (SPath.mk lead segs).alone with
        | some id => if id ∈ all then [id] else []
        | none => []) ++ SSeg.foundAll all segs
/-- `for segment in &path.segments`, klickhouse_derive/src/bound.rs:116-118,166-168. -/
def SSeg.foundAll (all : List Str) : List SSeg → List Str
  | [] => []
  | .mk _ a :: segs => SArgs.found all a ++ SSeg.foundAll all segs
/-- `visit_path_arguments`, klickhouse_derive/src/bound.rs:170-200. -/
def SArgs.found (all : List Str) : SArgs → List Str
  | .none => []
  | .angle _ as => SArg.foundAll all as
  | .paren ts => STy.foundAll all ts
/-- `for arg in &arguments.args`, klickhouse_derive/src/bound.rs:174-184. -/
def SArg.foundAll (all : List Str) : List SArg → List Str
  | [] => []
  | .type t :: as => STy.found all t ++ SArg.foundAll all as
  | .assoc _ t :: as => STy.found all t ++ SArg.foundAll all as
  | .const _ :: as => SArg.foundAll all as
  | .assocConst _ _ :: as => SArg.foundAll all as
  | .constraint _ _ :: as => SArg.foundAll all as
  | .lifetime _ :: as => SArg.foundAll all as
end

/-- `ungroup`, klickhouse_derive/src/internal.rs:3-8: a `Group` (from a macro's expansion) is not a `Paren`. -/
def STy.ungroup : STy → STy
  | .group t => STy.ungroup t
  | t => t

/-- The associated type usage of a field, klickhouse_derive/src/bound.rs:91-100: the type is a path of at least two segments whose
first is a type parameter (`qself` is not looked at). -/
def STy.assocUse (all : List Str) (t : STy) : List STy :=
  let usage (p : SPath) : List STy :=
    match p.segs with
    | s :: _ :: _ => if s.ident ∈ all then [t.ungroup] else []
    | _ => []
  match t.ungroup with
  | .path p => usage p
  | .qpath _ p => usage p
  | _ => []

/-- A field as the macro sees it, klickhouse_derive/src/ast.rs:86-104. -/
structure SField where
  ty : STy
  attrs : FieldAttrs

/-- `syn::GenericParam`: a type parameter with its bounds, with or without default, a lifetime or a constant, klickhouse_derive/src/bound.rs:11-27. -/
inductive GParam where
  | type (ident : Str) (bounds : List SPath) (default : Option STy)
  | lifetime (ident : Str)
  | const (ident : Str)

/-- A where predicate: `ty: A + B` of the struct's where clause, one about lifetimes, one from a `bound` attribute, or
`ty: ::klickhouse::FromSql + ::klickhouse::ToSql`, klickhouse_derive/src/bound.rs:236-272. -/
inductive Pred where
  | clause (ty : STy) (bounds : List SPath)
  | lifetime (text : Str)
  | user (text : Str)
  | conv (ty : STy)

/-- `syn::Generics`, klickhouse_derive/src/bound.rs:11-55. -/
structure Generics where
  params : List GParam
  preds : List Pred

/-- `generics.type_params()`, klickhouse_derive/src/bound.rs:220-223. -/
def Generics.typeParams (g : Generics) : List Str :=
  g.params.filterMap fun | .type id _ _ => some id | _ => none

/-- The path of one identifier, `id.into()`, klickhouse_derive/src/bound.rs:240-243. -/
def STy.ident (id : Str) : STy := .path (.mk false [.mk id .none])

/-- `without_defaults`, klickhouse_derive/src/bound.rs:11-27. -/
def Generics.withoutDefaults (g : Generics) : Generics :=
  { g with params := g.params.map fun | .type id bs _ => .type id bs none | p => p }

/-- `needs_serialize_bound`, klickhouse_derive/src/row.rs:58-60. -/
def FieldAttrs.needsBound (a : FieldAttrs) : Bool := !a.skipSer && a.serWith.isNone && a.bound.isNone

/-- `with_bound`, klickhouse_derive/src/bound.rs:69-272. -/
def Generics.withBound (g : Generics) (fields : List SField) : Generics :=
  let relevant := (fields.filter fun f => f.attrs.needsBound)
  let found := relevant.flatMap fun f => f.ty.found g.typeParams
  let assoc := relevant.flatMap fun f => f.ty.assocUse g.typeParams
  { g with preds := g.preds ++ ((g.typeParams.filter (· ∈ found)).map STy.ident ++ assoc).map .conv }

/-- `build_generics`, klickhouse_derive/src/row.rs:39-56, with `with_where_predicates(_from_fields)`, bound.rs:29-55. -/
def buildGenerics (g : Generics) (c : ContainerAttrs) (fields : List SField) : Generics :=
  let g1 := g.withoutDefaults
  let g2 : Generics := { g1 with preds := g1.preds ++ ((fields.filterMap fun f : SField => f.attrs.bound).flatten).map Pred.user }
  match c.bound with
  | some ps => { g2 with preds := g2.preds ++ ps.map Pred.user }
  | none => g2.withBound fields

/-! ### `Self` -/

/-- `Self`, klickhouse_derive/src/receiver.rs:30-103. -/
def selfIdent : Str := ch! "Self"

/-- The arguments after `self_to_expr_path`, klickhouse_derive/src/receiver.rs:58-64: `::<` instead of `<`, unless there are none. -/
def SArgs.turbofish : SArgs → SArgs
  | .angle t as => .angle (t || !as.isEmpty) as
  | a => a

/-- `self_to_expr_path` on a path of one segment, klickhouse_derive/src/receiver.rs:55-69. -/
def SPath.turbofish : SPath → SPath
  | .mk lead segs => .mk lead (segs.map fun s => .mk s.ident s.args.turbofish)

/-- `self_to_qself` on a path without `qself`, klickhouse_derive/src/receiver.rs:30-53: `Self` becomes the receiver's path with
`::<`, `Self::A` becomes `<Receiver>::A`; the new `qself` and path. -/
def SPath.toQself (self : SPath) (p : SPath) : Option STy × SPath :=
  match p with
  | .mk false (s :: rest) =>
    if s.ident = selfIdent then
      match rest with
      | [] => (none, self.turbofish)
      | rest => (some (.path self), .mk true rest)
    else (none, p)
  | p => (none, p)

/-- `path.is_ident("Self")`, klickhouse_derive/src/receiver.rs:76. -/
def SPath.isSelf : SPath → Bool
  | .mk false [.mk id .none] => id = selfIdent
  | _ => false

/-- `visit_type_mut` of a path, klickhouse_derive/src/receiver.rs:74-95, its arguments being replaced already. -/
def SPath.asType (self : SPath) (p : SPath) : STy :=
  if p.isSelf then .path self
  else match SPath.toQself self p with
    | (some q, p) => .qpath q p
    | (none, p) => .path p

/-- `visit_expr_path_mut`, klickhouse_derive/src/receiver.rs:97-103,160-165, its arguments being replaced already. -/
def SPath.asExpr (self : SPath) (p : SPath) : SExpr :=
  match SPath.toQself self p with
  | (some q, p) => .qpath q p
  | (none, p) => .path p

mutual
/-- `visit_type_mut`, klickhouse_derive/src/receiver.rs:72-95,105-158. After `self_to_qself` the new type is visited again: the
receiver's own path holds no `Self`, so that changes only the arguments of the remaining segments, and they are replaced here first. -/
def STy.replace (self : SPath) : STy → STy
  | .group t => .group (STy.replace self t)
  | .paren t => .paren (STy.replace self t)
  | .elem k t => .elem k (STy.replace self t)
  | .array t e => .array (STy.replace self t) (SExpr.replace self e)
  | .func ts => .func (STy.replaceAll self ts)
  | .traits k ps => .traits k (STy.replaceBounds self ps)
  | .path (.mk lead segs) => SPath.asType self (.mk lead (SSeg.replaceAll self segs))
  | .qpath q (.mk lead segs) => .qpath (STy.replace self q) (.mk lead (SSeg.replaceAll self segs))
  | .tuple ts => .tuple (STy.replaceAll self ts)
  | .other ws => .other ws
/-- A list of types, klickhouse_derive/src/receiver.rs:105-158. -/
def STy.replaceAll (self : SPath) : List STy → List STy
  | [] => []
  | t :: ts => STy.replace self t :: STy.replaceAll self ts
/-- `visit_type_param_bound_mut` of a list, klickhouse_derive/src/receiver.rs:205-212: only the arguments change. -/
def STy.replaceBounds (self : SPath) : List SPath → List SPath
  | [] => []
  | .mk lead segs :: ps => .mk lead (SSeg.replaceAll self segs) :: STy.replaceBounds self ps
/-- `visit_expr_mut`, klickhouse_derive/src/receiver.rs:259-284. -/
def SExpr.replace (self : SPath) : SExpr → SExpr
  | .binary op l r => .binary op (SExpr.replace self l) (SExpr.replace self r)
  | .call f as => .call (SExpr.replace self f) (SExpr.replaceAll self as)
  | .cast e t => .cast (SExpr.replace self e) (STy.replace self t)
  | .field e n => .field (SExpr.replace self e) n
  | .index e i => .index (SExpr.replace self e) (SExpr.replace self i)
  | .paren e => .paren (SExpr.replace self e)
  | .path (.mk lead segs) => SPath.asExpr self (.mk lead (SSeg.replaceAll self segs))
  | .qpath q (.mk lead segs) => .qpath (STy.replace self q) (.mk lead (SSeg.replaceAll self segs))
  | .unary op e => .unary op (SExpr.replace self e)
  | .other ws => .other ws
/-- A list of expressions, klickhouse_derive/src/receiver.rs:259-284. -/
def SExpr.replaceAll (self : SPath) : List SExpr → List SExpr
  | [] => []
  | e :: es => SExpr.replace self e :: SExpr.replaceAll self es
/-- `visit_path_mut`, klickhouse_derive/src/receiver.rs:167-171. -/
def SSeg.replaceAll (self : SPath) : List SSeg → List SSeg
  | [] => []
  | .mk id a :: segs => .mk id (SArgs.replace self a) :: SSeg.replaceAll self segs
/-- `visit_path_arguments_mut`, klickhouse_derive/src/receiver.rs:173-203. -/
def SArgs.replace (self : SPath) : SArgs → SArgs
  | .none => .none
  | .angle t as => .angle t (SArg.replaceAll self as)
  | .paren ts => .paren (STy.replaceAll self ts)
/-- The arguments between angle brackets: lifetimes, constants and constraints are passed over,
klickhouse_derive/src/receiver.rs:178-187. -/
def SArg.replaceAll (self : SPath) : List SArg → List SArg
  | [] => []
  | .type t :: as => .type (STy.replace self t) :: SArg.replaceAll self as
  | .assoc n t :: as => .assoc n (STy.replace self t) :: SArg.replaceAll self as
  | .const e :: as => .const e :: SArg.replaceAll self as
  | .assocConst n e :: as => .assocConst n e :: SArg.replaceAll self as
  | .constraint n ps :: as => .constraint n ps :: SArg.replaceAll self as
  | .lifetime n :: as => .lifetime n :: SArg.replaceAll self as
end

/-- The struct's own type, klickhouse_derive/src/receiver.rs:11-15: its name with its parameters, which `parse_quote!` reads as
types unless they are lifetimes; without brackets when there are none. -/
def Generics.receiver (g : Generics) (name : Str) : SPath :=
  .mk false [.mk name (if g.params.isEmpty then .none else .angle false (g.params.map fun
    | .type id _ _ => .type (.ident id)
    | .const id => .type (.ident id)
    | .lifetime id => .lifetime id))]

/-- `visit_generics_mut`, klickhouse_derive/src/receiver.rs:214-239: the bounds of the type parameters and the where clause; not the
defaults. (`bound` attributes are no part of it.) -/
def Generics.replace (self : SPath) (g : Generics) : Generics where
  params := g.params.map fun
    | .type id bs d => .type id (STy.replaceBounds self bs) d
    | p => p
  preds := g.preds.map fun
    | .clause t bs => .clause (STy.replace self t) (STy.replaceBounds self bs)
    | p => p

/-- `replace_receiver`, klickhouse_derive/src/receiver.rs:10-19, with `visit_data_mut`, receiver.rs:241-257. -/
def replaceReceiver (name : Str) (g : Generics) (fields : List SField) : Generics × List SField :=
  (g.replace (g.receiver name), fields.map fun f => { f with ty := f.ty.replace (g.receiver name) })

end Klick
