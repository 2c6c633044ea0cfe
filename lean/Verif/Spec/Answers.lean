import Verif.Spec.Record
import Verif.Spec.Storage
/-
Words for C106: a query that selects some columns and some rows of what was inserted, read as another struct.
-/
namespace Klick.Spec
open Klick

/-- The cells of a row in the columns of these names. -/
def inColumns (names : List Str) (row : TRow) : TRow := row.filter (fun c => names.contains c.1)

/-- An answer to a query of the columns `names`: for each number of `picks`, in their order, the stored row of that number, with just these columns,
in any order. Rows may be left out (a condition, a limit), come in another order, or more than once; blocks are cut in any way. -/
def Selects (names : List Str) (picks : List Nat) (stored answer : List Block) : Prop :=
  Each (fun (i : Nat) (r : TRow) => ∃ row, (stored.flatMap rowsIn)[i]? = some row ∧ r.Perm (inColumns names row)) picks (answer.flatMap rowsIn)

/-- A row is written as one valid value for every column of the table, each in normal form, and the columns `names` of it, in any order, are read,
perhaps as another type and by other code, as something that has the relation `Q` to the row. -/
def ReadPart {R S : Type} (cfg : Cfg) (header : IMap Ty) (ser : IMap Ty → R → Res (List (Str × Value))) (names : List Str) (de : TRow → Res S)
    (Q : R → S → Prop) (x : R) : Prop :=
  ∃ cols, ser header x = .ok cols ∧ Complete cfg header cols ∧
    (∀ name v t, (name, v) ∈ cols → header.get name = some t → canon t v = v) ∧
    ∃ y, Q x y ∧ ∀ cells : List Cell, cells.Perm (inColumns names (cellsOf (typeIn header) cols)) → de cells = .ok y

variable {ι : Type} {A : ι → Type}

/-- The struct with value `x` has a field of this name and type with this value. -/
inductive HasField : {fs : List (Str × Nest ι)} → RecordVal A fs → Str → (t : Nest ι) → t.den A → Prop
  | here {f : Str × Nest ι} {fs : List (Str × Nest ι)} (a : f.2.den A) (x : RecordVal A fs) : HasField (fs := f :: fs) (a, x) f.1 f.2 a
  | there {f : Str × Nest ι} {fs : List (Str × Nest ι)} (a : f.2.den A) (x : RecordVal A fs) {n : Str} {t : Nest ι} {b : t.den A} (h : HasField x n t b) :
      HasField (fs := f :: fs) (a, x) n t b

/-- What a reader gets for a value: the same, up to what the user types make of theirs, or, where it reads an `Option`, `Some` of that. -/
inductive Gets (R : ∀ i, A i → A i → Prop) : (t u : Nest ι) → t.den A → u.den A → Prop
  | same {t : Nest ι} {x y : t.den A} (h : SameUpTo R t x y) : Gets R t t x y
  | optional {t : Nest ι} {x y : t.den A} (h : SameUpTo R t x y) : Gets R t (.option t) x (some y)

/-- Every field of the reader's struct gets the value of the field of the same name of the writer's. -/
def SeenIn (R : ∀ i, A i → A i → Prop) {fs : List (Str × Nest ι)} (x : RecordVal A fs) : (gs : List (Str × Nest ι)) → RecordVal A gs → Prop
  | [], _ => True
  | g :: gs, y => (∃ t v, HasField x g.1 t v ∧ Gets R t g.2 v y.1) ∧ SeenIn R x gs y.2

/-- The fields `gs` can read columns written by the fields `fs`: each has the name of one of these and the same type, or an `Option` of it if the
table's column cannot be NULL. -/
def ReadsFrom (header : IMap Ty) (fs gs : List (Str × Nest ι)) : Prop :=
  ∀ g ∈ gs, ∃ t, (g.1, t) ∈ fs ∧ (g.2 = t ∨ g.2 = .option t ∧ ∀ T, header.get g.1 = some T → T.stripLowCardinality.isNullable = false)

end Klick.Spec
