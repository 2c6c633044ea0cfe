import Verif.Spec.Derive
/-
Specification vocabulary: where the rows of a nested field of a derived struct come from (C54).
-/
namespace Klick.Spec
open Klick

/-- Column `c` at index `i` goes to the nested field `f`, which starts at position `p` and has `w` columns, as its inner column `label`:
it is called `name.label`, or no field has its name and it sits among the field's positions (then the inner column has its whole
name; positions are not used in a struct with a flattened field). -/
def JoinsAs {α σ τ : Type} (fs : Fields σ τ) (f : Field α) (p w i : Nat) (c : Cell) (label : Str) : Prop :=
  c.1 = f.name ++ '.' :: label ∨ (fs.anyFlatten = false ∧ ¬ FieldsClaim fs c.1 ∧ p ≤ i ∧ i < p + w ∧ label = c.1)

/-- The inner columns of a nested field: those of the columns (counted from `i`) that go to it, in order, all of them arrays. -/
inductive Gathered {α σ τ : Type} (fs : Fields σ τ) (f : Field α) (p w : Nat) : Nat → List Cell → List (Str × Ty × List Value) → Prop
  | nil {i} : Gathered fs f p w i [] []
  | mine {i n t vs cells label cols} : JoinsAs fs f p w i (n, .array t, .array vs) label → Gathered fs f p w (i + 1) cells cols →
      Gathered fs f p w i ((n, .array t, .array vs) :: cells) ((label, t.stripLowCardinality, vs) :: cols)
  | other {i c cells cols} : (∀ label, ¬ JoinsAs fs f p w i c label) → Gathered fs f p w (i + 1) cells cols → Gathered fs f p w i (c :: cells) cols

/-- Row `i` of the inner columns. -/
def RowAt (cols : List (Str × Ty × List Value)) (i : Nat) (row : List Cell) : Prop :=
  row.length = cols.length ∧ ∀ (j : Nat) label t vs, cols[j]? = some (label, t, vs) → ∃ v, vs[i]? = some v ∧ row[j]? = some (label, t, v)

end Klick.Spec
