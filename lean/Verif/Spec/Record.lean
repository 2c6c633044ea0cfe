import Verif.Spec.Nest
/-
Words for C104 about rows: structs whose fields are containers of user types, to any depth.
-/
namespace Klick.Spec
open Klick

variable {ι : Type}

/-- A struct with these fields in this order, each with its column name and type, without further attributes: the value of the struct. -/
def RecordVal (A : ι → Type) : List (Str × Nest ι) → Type
  | [] => Unit
  | f :: fs => f.2.den A × RecordVal A fs

/-- The variables its derived reader uses. -/
def RecordSlots (A : ι → Type) : List (Str × Nest ι) → Type
  | [] => Unit
  | f :: fs => FieldSlot (f.2.den A) × RecordSlots A fs

variable {A : ι → Type}

/-- Its declaration, as the derive macro sees it. -/
def recordOf (L : ∀ i, SqlType (A i)) : (fs : List (Str × Nest ι)) → Fields (RecordVal A fs) (RecordSlots A fs)
  | [] => .nil
  | f :: fs => .cons ⟨f.1, f.1, false, false, none, .plain (f.2.toSql L) (f.2.fromSql L) true, none⟩ (recordOf L fs)

/-- Every field has a column of the table by its name, of a valid type that holds its value (`Holds`). -/
def RecordHolds (cfg : Cfg) (header : IMap Ty) (L : ∀ i, SqlType (A i)) (R : ∀ i, A i → A i → Prop) : (fs : List (Str × Nest ι)) → RecordVal A fs → Prop
  | [], _ => True
  | f :: fs, x => (∃ T, header.get f.1 = some T ∧ T.validate = true ∧ WellFormed cfg T ∧ Holds cfg L R f.2 (!isLc T) T.stripLowCardinality x.1) ∧
      RecordHolds cfg header L R fs x.2

/-- Field by field the same, up to what the user types make of their values. -/
def SameRecord (R : ∀ i, A i → A i → Prop) : (fs : List (Str × Nest ι)) → RecordVal A fs → RecordVal A fs → Prop
  | [], _, _ => True
  | f :: fs, x, y => SameUpTo R f.2 x.1 y.1 ∧ SameRecord R fs x.2 y.2

end Klick.Spec
