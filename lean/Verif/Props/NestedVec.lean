import Verif.NestedVec
import Verif.Spec.NestedVec
/-
C81: nested fields are lists of rows.
-/
namespace Klick
open Spec
theorem unwrapVec_iff (t u : STy) : t.unwrapVec = some u ↔ IsVec t u := by
  constructor
  · intro h
    unfold STy.unwrapVec at h
    split at h
    · rename_i lead segs
      split at h
      · cases h
      · rename_i hl
        split at h
        · split at h
          · rename_i hid
            split at h
            · cases h
              subst hid
              simp only [Bool.not_eq_true] at hl
              subst hl
              exact ⟨_, rfl⟩
            · cases h
          · cases h
        · cases h
    · cases h
  · rintro ⟨b, rfl⟩; rfl

theorem noVec_false (fields : List SField) (used : FieldAttrs → Bool) :
    noVec fields used = false ↔ ∀ f ∈ fields, f.attrs.nested = true → used f.attrs = true → ∃ u, IsVec f.ty u := by
  unfold noVec
  rw [List.any_eq_false]
  constructor
  · intro h f hf hn hu
    have := h f hf
    rw [hn, hu] at this
    cases e : f.ty.unwrapVec with
    | none => rw [e] at this; exact absurd rfl this
    | some u => exact ⟨u, (unwrapVec_iff _ _).mp e⟩
  · intro h f hf
    simp only [Bool.and_eq_true, not_and, Bool.not_eq_true]
    rintro ⟨hu, hn⟩
    obtain ⟨u, hu⟩ := h f hf hn hu
    rw [(unwrapVec_iff _ _).mpr hu]
    rfl

namespace Props

/-- **C81** (which nested fields are accepted). The derive goes through exactly when every nested field that the struct itself writes or reads
is declared as `Vec<T>`, in these letters, and the column name of one that it reads can be part of an identifier. -/
theorem C81_accepted (part : Char → Bool) (c : ContainerAttrs) (fields : List SField) :
    (∃ r, expandNested part c fields = .ok r) ↔
    ∀ f ∈ fields, f.attrs.nested = true →
      (WritesField c f.attrs → ∃ t, IsVec f.ty t) ∧
      (ReadsField c f.attrs → (∃ t, IsVec f.ty t) ∧ ∀ x ∈ f.attrs.name, part x = true) := by
  have key : (∃ r, expandNested part c fields = .ok r) ↔
      (dePanics part c fields = false ∧ namesPanics c fields = false) := by
    unfold expandNested
    constructor
    · rintro ⟨r, h⟩
      split at h
      · cases h
      · rename_i hn
        simp only [Bool.or_eq_true, not_or, Bool.not_eq_true] at hn
        exact ⟨hn.1.1.1, hn.1.1.2⟩
    · rintro ⟨h1, h2⟩
      have h3 : serPanics c fields = false := by
        unfold serPanics namesPanics at *
        rw [Bool.and_eq_false_iff] at h2 ⊢
        refine h2.imp id fun h => ?_
        rw [noVec_false] at h ⊢
        intro f hf hn hu
        rw [Bool.and_eq_true] at hu
        exact h f hf hn hu.1
      have h4 : lengthPanics c fields = false := by
        unfold lengthPanics namesPanics at *
        rw [Bool.and_assoc, h2, Bool.and_false]
      rw [h1, h2, h3, h4]
      exact ⟨_, rfl⟩
  rw [key]
  unfold dePanics namesPanics
  constructor
  · rintro ⟨h1, h2⟩ f hf hn
    refine ⟨fun ⟨w1, w2⟩ => ?_, fun ⟨r1, r2, r3, r4⟩ => ?_⟩
    · have h2 : noVec fields (fun a => !a.skipSer) = false := by rw [w1] at h2; exact h2
      exact (noVec_false _ _).mp h2 f hf hn (by rw [w2]; rfl)
    · rw [r1, r2] at h1
      have h1 : noVec fields (fun a => !(a.skipDe || a.flatten)) = false ∧ fields.any (fun f => !(f.attrs.skipDe || f.attrs.flatten) && f.attrs.nested && !f.attrs.name.all part) = false := by
        simpa only [Option.isNone_none, Bool.true_and, Bool.and_self, Bool.or_eq_false_iff] using h1
      refine ⟨(noVec_false _ _).mp h1.1 f hf hn (by rw [r3, r4]; rfl), ?_⟩
      have := List.any_eq_false.mp h1.2 f hf
      rw [r3, r4, hn] at this
      have h5 : f.attrs.name.all part = true := by
        cases h : f.attrs.name.all part with
        | true => rfl
        | false => rw [h] at this; exact absurd rfl this
      exact List.all_eq_true.mp h5
  · intro h
    constructor
    · cases e1 : c.typeFrom with
      | some x => rfl
      | none =>
        cases e2 : c.typeTryFrom with
        | some x => rfl
        | none =>
          simp only [Option.isNone_none, Bool.true_and, Bool.or_eq_false_iff]
          have hr : ∀ f ∈ fields, f.attrs.nested = true → (!(f.attrs.skipDe || f.attrs.flatten)) = true →
              (∃ t, IsVec f.ty t) ∧ ∀ x ∈ f.attrs.name, part x = true := by
            intro f hf hn hu
            simp only [Bool.not_eq_true', Bool.or_eq_false_iff] at hu
            exact (h f hf hn).2 ⟨e1, e2, hu.1, hu.2⟩
          refine ⟨(noVec_false _ _).mpr fun f hf hn hu => (hr f hf hn hu).1, ?_⟩
          rw [List.any_eq_false]
          intro f hf
          simp only [Bool.and_eq_true, not_and]
          rintro ⟨hu, hn⟩
          rw [List.all_eq_true.mpr (hr f hf hn hu).2]
          exact Bool.false_ne_true
    · cases e1 : c.typeInto with
      | some x => rfl
      | none =>
        simp only [Option.isNone_none, Bool.true_and]
        refine (noVec_false _ _).mpr fun f hf hn hu => (h f hf hn).1 ⟨e1, ?_⟩
        simpa using hu

/-- **C81** (the rows of a nested field). When it goes through, the generated code takes the rows of a nested `Vec<T>` to be `T`s, and no other
field has rows. -/
theorem C81_row_type (part : Char → Bool) (c : ContainerAttrs) (fields : List SField) (r : List (Option STy))
    (h : expandNested part c fields = .ok r) :
    r.length = fields.length ∧ ∀ (i : Nat) (f : SField), fields[i]? = some f →
      (f.attrs.nested = false → r[i]? = some none) ∧
      (f.attrs.nested = true → ∀ t, r[i]? = some (some t) ↔ IsVec f.ty t) := by
  unfold expandNested at h
  split at h
  · cases h
  · cases h
    refine ⟨by simp, fun i f hf => ⟨fun hn => ?_, fun hn t => ?_⟩⟩
    · simp [hf, hn]
    · simp [hf, hn, unwrapVec_iff]

/-- The attributes of a plain `#[klickhouse(nested)]` field. -/
def nestedAttrs (name : Str) : FieldAttrs := ⟨name, false, false, false, .none, none, none, none, true, false⟩
/-- No container attributes. -/
def bareStruct : ContainerAttrs := ⟨false, .none, .none, none, none, none, none⟩

/-- `Vec<Item>` is accepted. -/
example (part : Char → Bool) (h : part 'a' = true) :
    expandNested part bareStruct [⟨app (ch! "Vec") (STy.ident (ch! "Item")), nestedAttrs (ch! "a")⟩] = .ok [some (STy.ident (ch! "Item"))] := by
  unfold expandNested
  rw [if_neg]
  · rfl
  · simp [dePanics, namesPanics, serPanics, lengthPanics, noVec, nestedAttrs, bareStruct, h, app, STy.unwrapVec]

/-- **C81** (its limits). Types are compared by their text: `std::vec::Vec<Item>` is the same type as `Vec<Item>` and makes the derive panic, as does every column
name with a character that cannot stand in an identifier; and a nested field of any type goes unnoticed when the struct is converted both ways. -/
theorem C81_limits (part : Char → Bool) (hp : part ' ' = false) (t : STy) :
    (∃ t', t' = .path (.mk false [.mk (ch! "std") .none, .mk (ch! "vec") .none, .mk (ch! "Vec") (.angle false [.type t])]) ∧
      expandNested part bareStruct [⟨t', nestedAttrs (ch! "a")⟩] = .panic) ∧
    expandNested part bareStruct [⟨app (ch! "Vec") t, nestedAttrs (ch! "a b")⟩] = .panic ∧
    ∀ u, ∃ r, expandNested part { bareStruct with typeFrom := some (ch! "X"), typeInto := some (ch! "X") } [⟨u, nestedAttrs (ch! "a")⟩] = .ok r := by
  refine ⟨⟨_, rfl, ?_⟩, ?_, fun u => ?_⟩
  · unfold expandNested
    rw [if_pos]
    simp [dePanics, namesPanics, serPanics, lengthPanics, noVec, nestedAttrs, bareStruct, STy.unwrapVec]
  · unfold expandNested
    rw [if_pos]
    simp [dePanics, namesPanics, serPanics, lengthPanics, noVec, nestedAttrs, bareStruct, app, STy.unwrapVec, hp]
  · rw [C81_accepted]
    intro f hf _
    refine ⟨fun h => ?_, fun h => ?_⟩
    · cases h.1
    · cases h.1

end Props
end Klick
