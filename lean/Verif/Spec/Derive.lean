import Verif.Derive
/-
Specification vocabulary for derived rows (C54). `T` gives the type of every column by name.
-/
namespace Klick.Spec
open Klick

/-- The columns of a row as a reader sees them, each with its type. -/
def cellsOf (T : Str → Ty) (cols : List (Str × Value)) : List Cell := cols.map (fun c => (c.1, T c.1, c.2))

/-- The value `x` survives: it is written to columns with these names, and reading these columns back, *in any
order*, gives `x` again. -/
def Carries {α : Type} (r : RowImpl α) (hints : IMap Ty) (T : Str → Ty) (x : α) (names : List Str) : Prop :=
  ∃ cols, r.ser hints x = .ok cols ∧ cols.map Prod.fst = names ∧
    ∀ cells : List Cell, cells.Perm (cellsOf T cols) → r.de cells = .ok x

/-- The types of the inner columns of a nested field, given the types of the array columns. -/
def innerTypes (name : Str) (T : Str → Ty) (n : Str) : Ty :=
  match T (name ++ '.' :: n) with
  | .array t => t.stripLowCardinality
  | t => t

/-- What must be known of the type of a field's value, so that the struct as a whole survives.
A plain field: its own value conversion survives. A nested field: its rows survive, and have at least one column, all
of array type. A flattened field: its row survives and declares its columns. -/
def KindLaw {α : Type} (name : Str) (hints : IMap Ty) (T : Str → Ty) : Kind α → α → Prop
  | .plain ser de _, x => ∃ v, ser (hints.get name) x = .ok v ∧ de (T name).stripLowCardinality v = .ok x
  | .nested inner, rows => ∃ names, names ≠ [] ∧ inner.columnCount = some names.length ∧ inner.columnNames = some names ∧
      (∀ n ∈ names, ∃ t, T (name ++ '.' :: n) = .array t) ∧
      ∀ row ∈ rows, Carries inner hints (innerTypes name T) row names
  | .flatten inner, x => ∃ names, inner.columnNames = some names ∧ Carries inner hints T x names

/-- Is it a plain column? -/
def KindPlain {α : Type} : Kind α → Prop
  | .plain _ _ _ => True
  | _ => False

/-- Is it a flattened struct? -/
def KindFlat {α : Type} : Kind α → Prop
  | .flatten _ => True
  | _ => False

/-- The field's value survives. `serialize_with` replaces the writing of a plain field; on a nested or flattened field it is not
provided for (see `C54_serialize_with_false`). -/
def ValueLaw {α : Type} (f : Field α) (hints : IMap Ty) (T : Str → Ty) (x : α) : Prop :=
  match f.serWith with
  | none => KindLaw f.name hints T f.kind x
  | some g => ∃ ser de an, f.kind = .plain ser de an ∧ ∃ v, g x = .ok v ∧ de (T f.name).stripLowCardinality v = .ok x

/-- The value of a field that is not read: the field's default, else the container's. -/
def Defaults {α : Type} (f : Field α) (d : Option α) (x : α) : Prop :=
  f.default = some x ∨ (f.default = none ∧ d = some x)

/-- The conditions on a field: it is both written and read and its type is faithful; or it is not written and has
the default value (a field that is not written but may be read must be a plain one). -/
def FieldLaw {α : Type} (f : Field α) (hints : IMap Ty) (T : Str → Ty) (d : Option α) (x : α) : Prop :=
  (f.skipSer = false ∧ f.skipDe = false ∧ ValueLaw f hints T x) ∨
  (f.skipSer = true ∧ Defaults f d x ∧ ¬ KindFlat f.kind ∧ (f.skipDe = true ∨ KindPlain f.kind))

/-- All fields of the struct obey their conditions; `d` is the container's default, if any. -/
def FieldsLaw : {σ τ : Type} → Fields σ τ → IMap Ty → (Str → Ty) → Option σ → σ → Prop
  | _, _, .nil, _, _, _, _ => True
  | _, _, .cons f fs, hints, T, d, (x, xs) =>
    FieldLaw f hints T (d.map Prod.fst) x ∧ FieldsLaw fs hints T (d.map Prod.snd) xs

/-- The column names a kind of field takes: its name, or for a nested field any name starting with `name.`; a
flattened field's columns are those its type declares. -/
def KindClaims {α : Type} (name : Str) (n : Str) : Kind α → Prop
  | .plain _ _ _ => n = name
  | .nested _ => ∃ m, n = name ++ '.' :: m
  | .flatten _ => False

/-- The field takes columns of this name when reading. -/
def Claims {α : Type} (f : Field α) (n : Str) : Prop := f.skipDe = false ∧ KindClaims f.name n f.kind

/-- Some field takes columns of this name. -/
def FieldsClaim : {σ τ : Type} → Fields σ τ → Str → Prop
  | _, _, .nil, _ => False
  | _, _, .cons f fs, n => Claims f n ∨ FieldsClaim fs n

/-- No column name is taken by two fields. -/
def Apart : {σ τ : Type} → Fields σ τ → Prop
  | _, _, .nil => True
  | _, _, .cons f fs => (∀ n, Claims f n → ¬ FieldsClaim fs n) ∧ Apart fs

/-- The names of the fields that are read. -/
def readLabels : {σ τ : Type} → Fields σ τ → List Str
  | _, _, .nil => []
  | _, _, .cons f fs => (if f.skip then [] else [f.name]) ++ readLabels fs

/-- The number of columns the positional reading covers. -/
def positions : {σ τ : Type} → Fields σ τ → Nat
  | _, _, .nil => 0
  | _, _, .cons f fs => (if f.skip then 0 else f.width) + positions fs

end Klick.Spec

namespace Klick.Spec
open Klick

/-- The value `x` survives *by position*: it is written to columns, and columns with these types and values in this
order are read back as `x` whatever their names, as long as no name is known to the struct. -/
def CarriesByPosition {α : Type} (r : RowImpl α) (hints : IMap Ty) (tys : List Ty) (x : α) (names : List Str) (Known : Str → Prop) : Prop :=
  ∃ cols, r.ser hints x = .ok cols ∧ cols.map Prod.fst = names ∧ cols.length = tys.length ∧
    ∀ cells : List Cell, cells.map Prod.snd = tys.zip (cols.map Prod.snd) → (∀ c ∈ cells, ¬ Known c.1) → r.de cells = .ok x

/-- The condition on a field read by position from columns of types `tys`. -/
def KindByPosition {α : Type} (name : Str) (hints : IMap Ty) (tys : List Ty) (Known : Str → Prop) : Kind α → α → Prop
  | .plain ser de _, x => ∃ t v, tys = [t] ∧ ser (hints.get name) x = .ok v ∧ de t.stripLowCardinality v = .ok x
  | .nested inner, rows => ∃ names elems, elems ≠ [] ∧ tys = elems.map Ty.array ∧ names.length = elems.length ∧
      inner.columnCount = some names.length ∧ inner.columnNames = some names ∧
      ∀ row ∈ rows, CarriesByPosition inner hints (elems.map Ty.stripLowCardinality) row names Known
  | .flatten _, _ => False

/-- The field's value survives by position, also with `serialize_with` on a plain field. -/
def ValueByPosition {α : Type} (f : Field α) (hints : IMap Ty) (tys : List Ty) (Known : Str → Prop) (x : α) : Prop :=
  match f.serWith with
  | none => KindByPosition f.name hints tys Known f.kind x
  | some g => ∃ ser de an, f.kind = .plain ser de an ∧ ∃ t v, tys = [t] ∧ g x = .ok v ∧ de t.stripLowCardinality v = .ok x

/-- A field read by position: it is written and read, or neither and has its default. -/
def FieldByPosition {α : Type} (f : Field α) (hints : IMap Ty) (tys : List Ty) (d : Option α) (x : α) (Known : Str → Prop) : Prop :=
  (f.skipSer = false ∧ f.skipDe = false ∧ ValueByPosition f hints tys Known x) ∨
  (f.skipSer = true ∧ f.skipDe = true ∧ tys = [] ∧ Defaults f d x ∧ ¬ KindFlat f.kind)

/-- All fields, each with its share of the column types in order. -/
def FieldsByPosition : {σ τ : Type} → Fields σ τ → IMap Ty → List Ty → Option σ → σ → (Str → Prop) → Prop
  | _, _, .nil, _, tys, _, _, _ => tys = []
  | _, _, .cons f fs, hints, tys, d, (x, xs), Known => ∃ a b, tys = a ++ b ∧
      FieldByPosition f hints a (d.map Prod.fst) x Known ∧ FieldsByPosition fs hints b (d.map Prod.snd) xs Known

/-- `f` is a field of the struct: `get` reads it off a struct value, `slot` is its place while reading, and `p` is
the number of columns of the fields before it. -/
inductive FieldAt {α : Type} (f : Field α) : {σ τ : Type} → Fields σ τ → (σ → α) → (τ → FieldSlot α) → Nat → Prop where
  | here {σ τ : Type} (fs : Fields σ τ) : FieldAt f (.cons f fs) Prod.fst Prod.fst 0
  | there {β σ τ : Type} (g : Field β) {fs : Fields σ τ} {get : σ → α} {slot : τ → FieldSlot α} {p : Nat}
      (h : FieldAt f fs get slot p) :
      FieldAt f (.cons g fs) (fun x => get x.2) (fun t => slot t.2) ((if g.skip then 0 else g.width) + p)

/-- Column `c` at index `i` goes to the plain field `f` at position `p`: it has the field's name, or no field has its
name and it sits at the field's position (positions are not used in a struct with a flattened field). -/
def GoesTo {α σ τ : Type} (fs : Fields σ τ) (f : Field α) (p i : Nat) (c : Cell) : Prop :=
  c.1 = f.name ∨ (fs.anyFlatten = false ∧ ¬ FieldsClaim fs c.1 ∧ i = p)

/-- The columns that belong to flattened fields. -/
def flattenedNames : {σ τ : Type} → Fields σ τ → List Str
  | _, _, .nil => []
  | _, _, .cons f fs => (match f.kind with
    | .flatten inner => inner.columnNames.getD []
    | _ => []) ++ flattenedNames fs

end Klick.Spec

namespace Klick.Spec
open Klick

/-- What a row type declares about its columns is what it writes: the number, the names, and both agree. -/
structure Truthful {α : Type} (r : RowImpl α) : Prop where
  count : ∀ hints x cols n, r.ser hints x = .ok cols → r.columnCount = some n → cols.length = n
  names : ∀ hints x cols ns, r.ser hints x = .ok cols → r.columnNames = some ns → cols.map Prod.fst = ns
  agree : ∀ n ns, r.columnCount = some n → r.columnNames = some ns → ns.length = n

/-- The row types inside a field are truthful. -/
def KindTruthful {α : Type} : Kind α → Prop
  | .plain _ _ _ => True
  | .nested inner => Truthful inner
  | .flatten inner => Truthful inner

/-- The row types inside a struct are truthful, and `serialize_with` is given for plain fields only. -/
def InnerTruthful : {σ τ : Type} → Fields σ τ → Prop
  | _, _, .nil => True
  | _, _, .cons f fs => KindTruthful f.kind ∧ (f.serWith = none ∨ KindPlain f.kind) ∧ InnerTruthful fs

/-- The errors a column can cause in a field called `name`: the conversion's error under the name of the field's column (as it
is with `deserialize_with`); for a nested field, an error naming a
column that is no array or whose array is longer or shorter than another, or an error of the inner rows; for a flattened field one of
the inner row or of its declaration. -/
def KindErr {α : Type} (name ident : Str) (cells : List Cell) (e : Err) : Kind α → Prop
  | .plain _ de an => ∃ c, c ∈ cells ∧ ∃ e0, de c.2.1.stripLowCardinality c.2.2 = .err e0 ∧ e = if an then e0.withColumn name else e0
  | .nested inner =>
      (∃ c, c ∈ cells ∧
        ((e = .unexpectedTypeWithColumn c.1 c.2.1 ∧ ((∀ vs, c.2.2 ≠ .array vs) ∨ ∀ t, c.2.1 ≠ .array t)) ∨
          ∃ vs n, c.2.2 = .array vs ∧ vs.length ≠ n ∧ e = .deserialize
            (ch! "invalid length for nested columns, mismatches previous column " ++ c.1 ++ ch! ": " ++ dec n ++ ch! " != " ++ dec vs.length))) ∨
        ∃ row, inner.de row = .err e
  | .flatten inner =>
      e = .missingField (ch! "Flattened field " ++ ident ++ ch! " has missing column") ∨
      e = .deserialize (ch! "Flattened field " ++ ident ++ ch! " should provide Row::column_names") ∨ ∃ row, inner.de row = .err e

/-- The errors of one field: two columns for it, none although it has no default, or a column it cannot take. -/
def FieldErr {α : Type} (f : Field α) (cells : List Cell) (e : Err) : Prop :=
  e = .duplicateField f.name ∨ e = .missingField f.name ∨ KindErr f.name f.ident cells e f.kind

/-- The errors of a struct: those of its fields. -/
def FieldsErr : {σ τ : Type} → Fields σ τ → List Cell → Err → Prop
  | _, _, .nil, _, _ => False
  | _, _, .cons f fs, cells, e => FieldErr f cells e ∨ FieldsErr fs cells e

end Klick.Spec
