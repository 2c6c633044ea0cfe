import Verif.Bound
/-
Specification vocabulary for the bounds of derived implementations (C78) and for `Self` in field types (C79).
-/
namespace Klick.Spec
open Klick

/-- Types given as arguments: `A<T>`, `A<Item = T>`, `Fn(T) -> U`. -/
def ArgOf (t : STy) : SArgs → Prop
  | .none => False
  | .angle _ as => .type t ∈ as ∨ ∃ n, .assoc n t ∈ as
  | .paren ts => t ∈ ts

/-- `t` is an argument of some segment of the path. -/
def ArgOfPath (t : STy) (p : SPath) : Prop := ∃ s ∈ p.segs, ArgOf t s.args

/-- The path names `PhantomData`. -/
def Phantom (p : SPath) : Prop := ∃ l pre a, p = .mk l (pre ++ [.mk (ch! "PhantomData") a])

/-- `t` is written directly inside `u`: an element, a member, an argument (not of `PhantomData`), a path of a bound. -/
inductive Part : STy → STy → Prop where
  | group {t} : Part t (.group t)
  | paren {t} : Part t (.paren t)
  | elem {k t} : Part t (.elem k t)
  | array {t e} : Part t (.array t e)
  | func {t ts} : t ∈ ts → Part t (.func ts)
  | tuple {t ts} : t ∈ ts → Part t (.tuple ts)
  | bound {p k ps} : p ∈ ps → Part (.path p) (.traits k ps)
  | qself {q p} : Part q (.qpath q p)
  | qualified {q p} : Part (.path p) (.qpath q p)
  | arg {t p} : ¬ Phantom p → ArgOfPath t p → Part t (.path p)

/-- `t` is written somewhere inside `u`, or is `u`. -/
inductive Within : STy → STy → Prop where
  | refl {t} : Within t t
  | step {t u w} : Part t u → Within u w → Within t w

/-- The identifier stands somewhere in the type on its own as a type (outside `PhantomData`). -/
def Mentions (x : Str) (t : STy) : Prop := ∃ a, x ≠ ch! "PhantomData" ∧ Within (.path (.mk false [.mk x a])) t

/-- `u` is the type `t` without the invisible groups around it that the expansion of another macro leaves. -/
inductive Bare : STy → STy → Prop
  | group {t u} : Bare t u → Bare (.group t) u
  | same {t} : (∀ w, t ≠ .group w) → Bare t t

/-- A type `T::A…` of a type parameter. -/
def Projection (xs : List Str) (t : STy) : Prop :=
  ∃ l x a s rest, x ∈ xs ∧ (t = .path (.mk l (.mk x a :: s :: rest)) ∨ ∃ q, t = .qpath q (.mk l (.mk x a :: s :: rest)))

/-! ### Implementations -/

/-- The two conversion traits. -/
inductive Conv where
  | toSql
  | fromSql

/-- `name<t>`. -/
def app (name : Str) (t : STy) : STy := .path (.mk false [.mk name (.angle false [.type t])])

/-- A set of implementations that has the ones of convert/std_serialize.rs and std_deserialize.rs for containers. -/
structure StdImpls (has : Conv → STy → Prop) : Prop where
  vec : ∀ c t, has c t → has c (app (ch! "Vec") t)
  option : ∀ c t, has c t → has c (app (ch! "Option") t)
  box : ∀ c t, has c t → has c (app (ch! "Box") t)
  array : ∀ c t n, has c t → has c (.array t n)
  tuple : ∀ c ts, 1 ≤ ts.length → ts.length ≤ 16 → (∀ t ∈ ts, has c t) → has c (.tuple ts)

/-- Types built from type parameters and other types by those containers. -/
inductive Built (xs : List Str) (base : STy → Prop) : STy → Prop where
  | param {x} : x ∈ xs → x ≠ ch! "PhantomData" → Built xs base (.path (.mk false [.mk x .none]))
  | base {t} : base t → Built xs base t
  | vec {t} : Built xs base t → Built xs base (app (ch! "Vec") t)
  | option {t} : Built xs base t → Built xs base (app (ch! "Option") t)
  | box {t} : Built xs base t → Built xs base (app (ch! "Box") t)
  | array {t n} : Built xs base t → Built xs base (.array t n)
  | tuple {ts} : 1 ≤ ts.length → ts.length ≤ 16 → (∀ t ∈ ts, Built xs base t) → Built xs base (.tuple ts)

/-- The where clause holds: every `t: FromSql + ToSql` in it does. -/
def WhereHolds (has : Conv → STy → Prop) (g : Generics) : Prop := ∀ t, .conv t ∈ g.preds → has .fromSql t ∧ has .toSql t

/-- The generated `serialize_row` calls `to_sql` on the field. -/
def CallsTo (a : FieldAttrs) : Prop := a.skipSer = false ∧ a.serWith = none ∧ a.nested = false ∧ a.flatten = false
/-- The generated `deserialize_row` calls `from_sql` for the field. -/
def CallsFrom (a : FieldAttrs) : Prop := a.skipDe = false ∧ a.deWith = none ∧ a.nested = false ∧ a.flatten = false

/-! ### `Self` -/

/-- The path starts with `Self`. -/
def StartsSelf (p : SPath) : Prop := ∃ a rest, p = .mk false (.mk (ch! "Self") a :: rest)

mutual
/-- The identifiers with which a path of a type or of an expression begins, somewhere in the type: in the places the macro looks at
(`seen`), or in those it passes over, which are lifetimes, macros, constants and constraints given as arguments, and the kinds of
expression it does not know; there every identifier counts. (Paths of traits do not count: no trait is called `Self`.) -/
def tyHeads (seen : Bool) : STy → List Str
  | .group t => tyHeads seen t
  | .paren t => tyHeads seen t
  | .elem _ t => tyHeads seen t
  | .array t e => tyHeads seen t ++ exprHeads seen e
  | .func ts => tysHeads seen ts
  | .traits _ ps => boundsHeads seen ps
  | .path p => pathHeads seen true p
  | .qpath q p => tyHeads seen q ++ pathHeads seen false p
  | .tuple ts => tysHeads seen ts
  | .other ws => if seen then [] else ws
/-- Of a list of types. -/
def tysHeads (seen : Bool) : List STy → List Str
  | [] => []
  | t :: ts => tyHeads seen t ++ tysHeads seen ts
/-- Of bounds. -/
def boundsHeads (seen : Bool) : List SPath → List Str
  | [] => []
  | p :: ps => pathHeads seen false p ++ boundsHeads seen ps
/-- Of an expression. -/
def exprHeads (seen : Bool) : SExpr → List Str
  | .binary _ l r => exprHeads seen l ++ exprHeads seen r
  | .call f as => exprHeads seen f ++ exprsHeads seen as
  | .cast e t => exprHeads seen e ++ tyHeads seen t
  | .field e _ => exprHeads seen e
  | .index e i => exprHeads seen e ++ exprHeads seen i
  | .paren e => exprHeads seen e
  | .path p => pathHeads seen true p
  | .qpath q p => tyHeads seen q ++ pathHeads seen false p
  | .unary _ e => exprHeads seen e
  | .other ws => if seen then [] else ws
/-- Of a list of expressions. -/
def exprsHeads (seen : Bool) : List SExpr → List Str
  | [] => []
  | e :: es => exprHeads seen e ++ exprsHeads seen es
/-- Of a path: its first identifier, if it counts, and what stands in the arguments. -/
def pathHeads (seen counts : Bool) : SPath → List Str
  | .mk lead segs => (if seen && counts && !lead then (segs.map SSeg.ident).take 1 else []) ++ segsHeads seen segs
/-- Of the arguments of segments. -/
def segsHeads (seen : Bool) : List SSeg → List Str
  | [] => []
  | .mk _ a :: segs => argsHeads seen a ++ segsHeads seen segs
/-- Of the arguments of a segment. -/
def argsHeads (seen : Bool) : SArgs → List Str
  | .none => []
  | .angle _ as => angleHeads seen as
  | .paren ts => tysHeads seen ts
/-- Of the arguments between angle brackets. -/
def angleHeads (seen : Bool) : List SArg → List Str
  | [] => []
  | .type t :: as => tyHeads seen t ++ angleHeads seen as
  | .assoc _ t :: as => tyHeads seen t ++ angleHeads seen as
  | .const e :: as => (if seen then [] else exprHeads true e ++ exprHeads false e) ++ angleHeads seen as
  | .assocConst _ e :: as => (if seen then [] else exprHeads true e ++ exprHeads false e) ++ angleHeads seen as
  | .constraint _ ps :: as => (if seen then [] else boundsHeads true ps ++ boundsHeads false ps) ++ angleHeads seen as
  | .lifetime n :: as => (if seen then [] else [n]) ++ angleHeads seen as
end

/-- The type has no `Self` in the places the macro looks at. -/
def SeenFree (t : STy) : Prop := ch! "Self" ∉ tyHeads true t
/-- The type has no `Self` in the places the macro passes over. -/
def PassedFree (t : STy) : Prop := ch! "Self" ∉ tyHeads false t
/-- The type has no `Self`. -/
def SelfFree (t : STy) : Prop := SeenFree t ∧ PassedFree t

/-- Arguments related one by one. -/
inductive SameArg (R : STy → STy → Prop) : SArg → SArg → Prop where
  | type {t u} : R t u → SameArg R (.type t) (.type u)
  | assoc {n t u} : R t u → SameArg R (.assoc n t) (.assoc n u)
  | refl {a} : SameArg R a a

/-- Lists related one by one. -/
inductive Pointwise {α : Type} (R : α → α → Prop) : List α → List α → Prop where
  | nil : Pointwise R [] []
  | cons {a b as bs} : R a b → Pointwise R as bs → Pointwise R (a :: as) (b :: bs)

/-- The arguments of a segment related one by one; `::<` is the same as `<`. -/
inductive SameArgs (R : STy → STy → Prop) : SArgs → SArgs → Prop where
  | none : SameArgs R .none .none
  | angle {c d as bs} : Pointwise (SameArg R) as bs → SameArgs R (.angle c as) (.angle d bs)
  | paren {ts us} : Pointwise R ts us → SameArgs R (.paren ts) (.paren us)

/-- The same identifiers with related arguments. -/
inductive SameSeg (R : STy → STy → Prop) : SSeg → SSeg → Prop where
  | mk {id a b} : SameArgs R a b → SameSeg R (.mk id a) (.mk id b)

/-- The same path with related arguments. -/
inductive SamePath (R : STy → STy → Prop) : SPath → SPath → Prop where
  | mk {l as bs} : Pointwise (SameSeg R) as bs → SamePath R (.mk l as) (.mk l bs)

/-- Relations "denotes the same type" and "denotes the same value" inside the struct's definition: preorders that respect how types
and expressions are built, and in which `Self` is the struct and `Self::A…` is `<Struct>::A…`. -/
structure SelfReading (me : SPath) (R : STy → STy → Prop) (E : SExpr → SExpr → Prop) : Prop where
  refl : ∀ t, R t t
  trans : ∀ t u w, R t u → R u w → R t w
  group : ∀ t u, R t u → R (.group t) (.group u)
  paren : ∀ t u, R t u → R (.paren t) (.paren u)
  elem : ∀ k t u, R t u → R (.elem k t) (.elem k u)
  array : ∀ t u e f, R t u → E e f → R (.array t e) (.array u f)
  func : ∀ ts us, Pointwise R ts us → R (.func ts) (.func us)
  tuple : ∀ ts us, Pointwise R ts us → R (.tuple ts) (.tuple us)
  traits : ∀ k ps qs, Pointwise (SamePath R) ps qs → R (.traits k ps) (.traits k qs)
  path : ∀ p q, SamePath R p q → R (.path p) (.path q)
  qpath : ∀ t u p q, R t u → SamePath R p q → R (.qpath t p) (.qpath u q)
  isSelf : ∀ a, R (.path (.mk false [.mk (ch! "Self") a])) (.path me)
  ofSelf : ∀ a s rest, R (.path (.mk false (.mk (ch! "Self") a :: s :: rest))) (.qpath (.path me) (.mk true (s :: rest)))
  erefl : ∀ e, E e e
  etrans : ∀ e f g, E e f → E f g → E e g
  binary : ∀ op l l' r r', E l l' → E r r' → E (.binary op l r) (.binary op l' r')
  call : ∀ f f' as as', E f f' → Pointwise E as as' → E (.call f as) (.call f' as')
  cast : ∀ e e' t t', E e e' → R t t' → E (.cast e t) (.cast e' t')
  field : ∀ e e' n, E e e' → E (.field e n) (.field e' n)
  index : ∀ e e' i i', E e e' → E i i' → E (.index e i) (.index e' i')
  eparen : ∀ e e', E e e' → E (.paren e) (.paren e')
  unary : ∀ op e e', E e e' → E (.unary op e) (.unary op e')
  epath : ∀ p q, SamePath R p q → E (.path p) (.path q)
  eqpath : ∀ t u p q, R t u → SamePath R p q → E (.qpath t p) (.qpath u q)
  eisSelf : ∀ a, E (.path (.mk false [.mk (ch! "Self") a])) (.path me)
  eofSelf : ∀ a s rest, E (.path (.mk false (.mk (ch! "Self") a :: s :: rest))) (.qpath (.path me) (.mk true (s :: rest)))

/-- Parameters of a struct that differ in nothing but what is the same in the bounds. -/
inductive SameParam (R : STy → STy → Prop) : GParam → GParam → Prop where
  | type {id bs cs d} : Pointwise (SamePath R) bs cs → SameParam R (.type id bs d) (.type id cs d)
  | refl {p} : SameParam R p p

/-- Predicates that say the same. -/
inductive SamePred (R : STy → STy → Prop) : Pred → Pred → Prop where
  | clause {t u bs cs} : R t u → Pointwise (SamePath R) bs cs → SamePred R (.clause t bs) (.clause u cs)
  | refl {p} : SamePred R p p

/-- The names of the parameters of a struct. -/
def paramNames (g : Generics) : List Str := g.params.map fun | .type id _ _ => id | .lifetime id => id | .const id => id

end Klick.Spec
