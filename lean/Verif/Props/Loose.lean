import Verif.Spec.Loose
import Verif.Props.Scope
/-
C108: what the code generated by `#[derive(Row)]` takes for granted about the module it is placed in.
-/
namespace Klick
namespace Props
open Spec

/-- Understood, if it is not a variable. -/
def ButVariables (p : Place) (g : Generics) : LooseName → Prop
  | .binder _ _ => True
  | b => Understood p g b

/-- All of them but the variables. -/
def Solid (p : Place) (g : Generics) (code : List LooseName) : Prop := ∀ b ∈ code, ButVariables p g b


theorem understood_append {p : Place} {g : Generics} {a b : List LooseName} :
    Solid p g (a ++ b) ↔ Solid p g a ∧ Solid p g b := List.forall_mem_append

theorem understood_flat {α : Type} {p : Place} {g : Generics} {l : List α} {f : α → List LooseName} :
    Solid p g (l.flatMap f) ↔ ∀ a ∈ l, Solid p g (f a) := by
  refine ⟨fun h a ha b hb => h b (List.mem_flatMap.mpr ⟨a, ha, hb⟩), fun h b hb => ?_⟩
  obtain ⟨a, ha, hb⟩ := List.mem_flatMap.mp hb
  exact h a ha b hb

theorem understood_cons {p : Place} {g : Generics} {b : LooseName} {bs : List LooseName} :
    Solid p g (b :: bs) ↔ ButVariables p g b ∧ Solid p g bs := List.forall_mem_cons

theorem understood_nil {p : Place} {g : Generics} : Solid p g [] ↔ True := ⟨fun _ => trivial, fun _ _ h => by cases h⟩

theorem understood_binders {p : Place} {g : Generics} (xs : List Str) : Solid p g (binders xs) := by
  intro b hb
  obtain ⟨x, hx, rfl⟩ := List.mem_map.mp hb
  trivial

theorem understood_row {p : Place} {g : Generics} {t : STy} :
    Solid p g (rowMethod g t) ↔ ((∀ x ∈ g.typeParams, t ≠ .path (.mk false [.mk x .none])) → p.traits (ch! "Row")) := by
  unfold rowMethod
  split
  · rename_i x
    by_cases hx : x ∈ g.typeParams
    · rw [if_pos hx]
      exact ⟨fun _ h => absurd rfl (h x hx), fun _ => understood_nil.mpr trivial⟩
    · rw [if_neg hx]
      refine ⟨fun h _ => h _ (List.mem_singleton.mpr rfl), fun h b hb => ?_⟩
      rw [List.mem_singleton.mp hb]
      refine h fun y hy e => hx ?_
      cases e
      exact hy
  · rename_i hne
    refine ⟨fun h _ => h _ (List.mem_singleton.mpr rfl), fun h b hb => ?_⟩
    rw [List.mem_singleton.mp hb]
    exact h fun y _ e => hne y e

/-- The conditions of the parts. -/
theorem understood_signature {p : Place} {g : Generics} :
    Solid p g signatureLoose ↔ ∀ x ∈ [ch! "Option", ch! "Vec", ch! "String", ch! "str", ch! "usize"], p.types x ∧ x ∉ g.typeParams := by
  have hb := understood_binders (p := p) (g := g) [ch! "map", ch! "type_hints"]
  unfold signatureLoose
  rw [understood_append]
  simp only [understood_cons, understood_nil, hb, ButVariables, Understood, List.forall_mem_cons, forall_const, reduceCtorEq, false_implies, and_true,
    Bool.true_eq_false, List.not_mem_nil, implies_true]
  constructor
  · rintro ⟨h1, h2, h3, h4, h5, h6⟩; exact ⟨h3, h4, h6, h5, h2⟩
  · rintro ⟨h3, h4, h6, h5, h2⟩; exact ⟨h2.1, h2, h3, h4, h5, h6⟩

theorem anyFlat_iff {fields : List SField} : anyFlat fields = true ↔ ∃ f ∈ fields, f.attrs.flatten = true := by
  unfold anyFlat; rw [List.any_eq_true]

theorem understood_length {p : Place} {g : Generics} {fields : List SField} {c : ContainerAttrs} :
    Solid p g (lengthLoose c fields) ↔
      ((c.typeInto ≠ none ∨ (∃ f ∈ fields, f.attrs.flatten = true) ∨ (∃ f ∈ fields, f.attrs.nested = true ∧ f.attrs.skipSer = false) →
        p.variants (ch! "None")) ∧
      (c.typeInto = none → (∀ f ∈ fields, f.attrs.flatten = false) → p.variants (ch! "Some"))) := by
  unfold lengthLoose
  by_cases hc : (anyFlat fields || c.typeInto.isSome) = true
  · rw [if_pos hc]
    rw [Bool.or_eq_true, anyFlat_iff, Option.isSome_iff_ne_none] at hc
    simp only [understood_cons, understood_nil, ButVariables, Understood, Bool.true_eq_false, false_implies, and_true]
    refine ⟨fun h => ⟨fun _ => h, fun h1 h2 => ?_⟩, fun h => h.1 (hc.elim (fun h => .inr (.inl h)) .inl)⟩
    rcases hc with ⟨f, hf, e⟩ | e
    · rw [h2 f hf] at e; cases e
    · exact absurd h1 e
  · rw [if_neg hc]
    rw [Bool.or_eq_true, anyFlat_iff, Option.isSome_iff_ne_none, not_or] at hc
    have hn : c.typeInto = none := Classical.byContradiction hc.2
    have hf : ∀ f ∈ fields, f.attrs.flatten = false := fun f hf => by
      cases e : f.attrs.flatten with
      | false => rfl
      | true => exact absurd ⟨f, hf, e⟩ hc.1
    rw [understood_cons, understood_flat]
    simp only [understood_cons, understood_nil, ButVariables, Understood, Bool.true_eq_false, false_implies, and_true, List.mem_filter, Bool.and_eq_true,
      Bool.not_eq_true']
    constructor
    · rintro ⟨h1, h2⟩
      refine ⟨?_, fun _ _ => h1⟩
      rintro (h | h | ⟨f, hm, e1, e2⟩)
      · exact absurd hn h
      · exact absurd h hc.1
      · exact (h2 f ⟨hm, e2, e1⟩).2.2
    · rintro ⟨h1, h2⟩
      refine ⟨h2 hn hf, fun f ⟨hm, e2, e1⟩ => ⟨h2 hn hf, trivial, h1 (.inr (.inr ⟨f, hm, e1, e2⟩))⟩⟩

theorem understood_names {p : Place} {g : Generics} {fields : List SField} {c : ContainerAttrs} :
    Solid p g (namesLoose g c fields) ↔
      ((c.typeInto ≠ none → p.variants (ch! "None") ∧ ch! "None" ∉ constParams g) ∧
      (c.typeInto = none → (p.variants (ch! "Some") ∧ ch! "Some" ∉ constParams g) ∧ ∀ f ∈ fields, f.attrs.skipSer = false →
        (f.attrs.nested = true → p.traits (ch! "Extend") ∧ p.traits (ch! "IntoIterator") ∧ p.traits (ch! "Iterator") ∧ p.macros (ch! "format")) ∧
        (f.attrs.nested = false → f.attrs.flatten = true → p.traits (ch! "Extend") ∧
          ((∀ x ∈ g.typeParams, f.ty ≠ .path (.mk false [.mk x .none])) → p.traits (ch! "Row"))))) := by
  have b1 := understood_binders (p := p) (g := g) [ch! "out"]
  have b2 := understood_binders (p := p) (g := g) [ch! "x"]
  unfold namesLoose
  cases hc : c.typeInto with
  | some t =>
    rw [if_pos (show (Option.some t).isSome = true from rfl)]
    simp only [understood_cons, understood_nil, ButVariables, Understood, forall_const, and_true, ne_eq, reduceCtorEq, not_false_eq_true, false_implies]
  | none =>
    rw [if_neg (by decide), understood_append, understood_append, understood_flat]
    simp only [b1, true_and, understood_cons, understood_nil, ButVariables, Understood, forall_const, and_true, ne_eq, not_true_eq_false, false_implies,
      List.mem_filter, Bool.not_eq_true', and_imp]
    refine and_congr Iff.rfl (forall_congr' fun f => forall_congr' fun _ => forall_congr' fun _ => ?_)
    cases hn : f.attrs.nested with
    | true =>
      rw [if_pos rfl, understood_append]
      simp only [b2, understood_cons, understood_nil, ButVariables, Understood, and_true, forall_const, Bool.true_eq_false, false_implies]
    | false =>
      rw [if_neg (by decide)]
      cases hl : f.attrs.flatten with
      | true =>
        rw [if_pos rfl, understood_cons, understood_row]
        simp only [ButVariables, Understood, Bool.false_eq_true, false_implies, true_and, forall_const]
      | false =>
        rw [if_neg (by decide)]
        simp only [understood_nil, Bool.false_eq_true, false_implies, implies_true, and_self]

theorem understood_writeField {p : Place} {g : Generics} (ht : p.types (ch! "str") ∧ ch! "str" ∉ g.typeParams)
    (f : SField) :
    Solid p g (writeFieldLoose g f) ↔ (f.attrs.skipSer = false → f.attrs.serWith = none →
      (f.attrs.nested = true → (p.variants (ch! "None") ∧ ch! "None" ∉ constParams g) ∧ (p.variants (ch! "Some") ∧ ch! "Some" ∉ constParams g) ∧
        p.macros (ch! "assert_eq") ∧ p.macros (ch! "format") ∧ p.traits (ch! "IntoIterator") ∧ p.traits (ch! "Iterator") ∧ p.traits (ch! "Into")) ∧
      (f.attrs.nested = false → f.attrs.flatten = true → p.traits (ch! "Extend") ∧
          ((∀ x ∈ g.typeParams, f.ty ≠ .path (.mk false [.mk x .none])) → p.traits (ch! "Row")))) := by
  have b1 := understood_binders (p := p) (g := g) [ch! "inner_length", ch! "outputs", ch! "row", ch! "columns", ch! "i", ch! "name", ch! "value",
    ch! "column_names", ch! "values"]
  have b2 := understood_binders (p := p) (g := g) [ch! "inner_length"]
  unfold writeFieldLoose
  cases hs : f.attrs.skipSer with
  | true => simp only [Bool.true_or, if_true, understood_nil, Bool.true_eq_false, false_implies]
  | false =>
    cases hw : f.attrs.serWith with
    | some w => simp only [Bool.false_or, Option.isSome_some, if_true, understood_nil, reduceCtorEq, false_implies, implies_true]
    | none =>
      rw [if_neg (by decide)]
      cases hn : f.attrs.nested with
      | true =>
        rw [if_pos rfl, understood_append]
        simp only [b1, understood_cons, understood_nil, ButVariables, Understood, and_true, true_and, forall_const, Bool.true_eq_false, false_implies, ht, not_false_eq_true]
      | false =>
        rw [if_neg (by decide)]
        cases hl : f.attrs.flatten with
        | true =>
          rw [if_pos rfl, understood_append, understood_append, understood_row]
          simp only [b2, ButVariables, Understood, understood_cons, understood_nil, and_true, Bool.false_eq_true, false_implies, true_and, forall_const]
        | false =>
          rw [if_neg (by decide)]
          simp only [understood_nil, Bool.false_eq_true, false_implies, implies_true, and_self]

theorem understood_readField {p : Place} {g : Generics}
    (ht : ∀ x ∈ [ch! "Option", ch! "Vec", ch! "String", ch! "str", ch! "usize"], p.types x ∧ x ∉ g.typeParams) (flat : Bool) (f : SField) (i : Nat) :
    Solid p g (readFieldLoose flat f i) ↔ (Read f → f.attrs.nested = true → (p.variants (ch! "None") ∧ ch! "None" ∉ constParams g) ∧
      (p.variants (ch! "Some") ∧ ch! "Some" ∉ constParams g) ∧ p.macros (ch! "format") ∧ p.traits (ch! "ToString") ∧ p.traits (ch! "Clone") ∧
      p.traits (ch! "IntoIterator") ∧ p.traits (ch! "Iterator")) := by
  have b1 := understood_binders (p := p) (g := g) [ch! "full_name", ch! "values", ch! "x", ch! "temp", ch! "name", ch! "type_", ch! "i", ch! "value"]
   
  have b2 := understood_binders (p := p) (g := g) [ch! "e"]
  have b3 := understood_binders (p := p) (g := g) [ch! "x"]
  have b4 := understood_binders (p := p) (g := g) [slotName i]
  have b4' : ButVariables p g (.binder false (slotName i)) := b4 _ (List.mem_singleton.mpr rfl)
  unfold readFieldLoose
  have hp : f.passed = true ↔ ¬ Read f := by
    unfold SField.passed Read
    cases f.attrs.skipDe <;> cases f.attrs.flatten <;> simp
  by_cases hr : Read f
  · rw [if_neg (fun h => hp.mp h hr), understood_cons]
    cases hn : f.attrs.nested with
    | true =>
      have b5 := understood_binders (p := p) (g := g) ((nestedVars f.attrs.name).map Prod.fst)
      rw [if_pos rfl, understood_append, understood_append]
      have t1 := ht (ch! "Vec") (by decide)
      have t2 := ht (ch! "str") (by decide)
      have t3 := ht (ch! "usize") (by decide)
      simp only [b4', b5, b1, true_and, and_true, understood_cons, understood_nil, forall_const, hr]
      simp only [ButVariables, Understood, forall_const, t1, t2, t3, not_false_eq_true, true_and, and_self]
      constructor
      · rintro ⟨h1, h2, h3, h4, h5, h6, h7⟩; exact ⟨h2, h3, h1, h4, h5, h6, h7⟩
      · rintro ⟨h2, h3, h1, h4, h5, h6, h7⟩; exact ⟨h1, h2, h3, h4, h5, h6, h7⟩
    | false =>
      rw [if_neg (by decide), understood_append]
      simp only [b4', true_and, Bool.false_eq_true, false_implies, implies_true, iff_true]
      refine ⟨?_, ?_⟩
      · cases f.attrs.deWith
        · exact b2
        · exact understood_nil.mpr trivial
      · cases flat
        · exact b3
        · exact understood_nil.mpr trivial
  · rw [if_pos (hp.mpr hr)]
    simp only [understood_nil, hr, false_implies]

theorem understood_pull {p : Place} {g : Generics} (f : SField) :
    Solid p g (pullLoose g f) ↔ (f.attrs.flatten = true → p.traits (ch! "Into") ∧ p.traits (ch! "Iterator") ∧
      ((∀ x ∈ g.typeParams, f.ty ≠ .path (.mk false [.mk x .none])) → p.traits (ch! "Row"))) := by
  have b1 := understood_binders (p := p) (g := g) [ch! "c", ch! "c2", ch! "idx", ch! "col", ch! "ty", ch! "val"]
  unfold pullLoose
  by_cases hl : f.attrs.flatten = true
  · rw [if_pos hl, understood_append, understood_append, understood_row]
    simp only [b1, understood_cons, understood_nil, ButVariables, Understood, and_true, true_and, hl, forall_const, and_assoc]
  · rw [if_neg hl]
    simp only [understood_nil, hl, false_implies, Bool.false_eq_true]

theorem understood_refill {p : Place} {g : Generics}
    (hs : p.types (ch! "str") ∧ ch! "str" ∉ g.typeParams) (f : SField) :
    Solid p g (refillLoose g f) ↔ (f.attrs.flatten = true → f.attrs.skipDe = false → p.macros (ch! "vec") ∧
      (p.types (ch! "std") ∧ ch! "std" ∉ g.typeParams) ∧ (p.types (ch! "klickhouse") ∧ ch! "klickhouse" ∉ g.typeParams) ∧
      ((∀ x ∈ g.typeParams, f.ty ≠ .path (.mk false [.mk x .none])) → p.traits (ch! "Row"))) := by
  have b1 := understood_binders (p := p) (g := g) [ch! "map2", ch! "c", ch! "ty", ch! "val"]
  unfold refillLoose
  cases hd : f.attrs.skipDe with
  | true => simp only [Bool.not_true, Bool.false_and, Bool.false_eq_true, if_false, understood_nil, Bool.true_eq_false, false_implies, implies_true]
  | false =>
    by_cases hl : f.attrs.flatten = true
    · rw [if_pos (by rw [hl]; rfl), understood_append, understood_append, understood_row]
      simp only [b1, understood_cons, understood_nil, ButVariables, Understood, and_true, true_and, hl, forall_const, and_assoc, hs, not_false_eq_true]
    · rw [if_neg (by simp only [Bool.not_false, Bool.true_and]; exact hl)]
      simp only [understood_nil, hl, false_implies, Bool.false_eq_true]

theorem understood_read {p : Place} {g : Generics} {c : ContainerAttrs} {fields : List SField}
    (ht : ∀ x ∈ [ch! "Option", ch! "Vec", ch! "String", ch! "str", ch! "usize"], p.types x ∧ x ∉ g.typeParams) :
    Solid p g (readLoose g c fields) ↔
      (p.types (ch! "std") ∧ ch! "std" ∉ g.typeParams) ∧ p.traits (ch! "IntoIterator") ∧ p.traits (ch! "Iterator") ∧
      (∀ f ∈ fields, Read f → f.attrs.nested = true → (p.variants (ch! "None") ∧ ch! "None" ∉ constParams g) ∧
        (p.variants (ch! "Some") ∧ ch! "Some" ∉ constParams g) ∧ p.macros (ch! "format") ∧ p.traits (ch! "ToString") ∧ p.traits (ch! "Clone")) ∧
      (∀ f ∈ fields, f.attrs.flatten = true → p.traits (ch! "Into") ∧
        ((∀ x ∈ g.typeParams, f.ty ≠ .path (.mk false [.mk x .none])) → p.traits (ch! "Row")) ∧
        (f.attrs.skipDe = false → p.macros (ch! "vec") ∧ p.types (ch! "klickhouse") ∧ ch! "klickhouse" ∉ g.typeParams)) := by
  have b1 := understood_binders (p := p) (g := g) [ch! "map", ch! "map_flattened_fields", ch! "_field_index", ch! "_name", ch! "_type_", ch! "_value"]
   
  have b2 := understood_binders (p := p) (g := g) [ch! "__default"]
  have hs := ht (ch! "str") (by decide)
  have b3 : Solid p g (if c.default = .none then [] else binders [ch! "__default"]) := by
    split
    · exact understood_nil.mpr trivial
    · exact b2
  unfold readLoose
  simp only [understood_append, understood_flat, b1, b3, and_true, understood_cons, understood_nil]
  constructor
  · rintro ⟨⟨⟨h1, h2⟩, h3⟩, h4⟩
    obtain ⟨h2a, h2b, h2c, h2d⟩ := h2
    refine ⟨⟨h2a.1, h2a.2 rfl⟩, h2c, h2d, fun f hf hr hn => ?_, fun f hf hl => ?_⟩
    · obtain ⟨i, hi⟩ := List.getElem?_of_mem hf
      obtain ⟨e1, e2, e3, e4, e5, _⟩ := (understood_readField ht _ f i).mp (h1 (f, i) (List.mem_zipIdx_iff_getElem?.mpr hi)) hr hn
      exact ⟨e1, e2, e3, e4, e5⟩
    · obtain ⟨e1, _, e2⟩ := (understood_pull f).mp (h3 f hf) hl
      refine ⟨e1, e2, fun hd => ?_⟩
      obtain ⟨k1, _, k2, _⟩ := (understood_refill hs f).mp (h4 f hf) hl hd
      exact ⟨k1, k2⟩
  · rintro ⟨h1, h2, h3, h4, h5⟩
    refine ⟨⟨⟨?_, ⟨h1.1, fun _ => h1.2⟩, ⟨hs.1, fun _ => hs.2⟩, h2, h3⟩, ?_⟩, ?_⟩
    · rintro ⟨f, i⟩ hm
      have hf : f ∈ fields := List.mem_of_getElem? (List.mem_zipIdx_iff_getElem?.mp hm)
      refine (understood_readField ht _ f i).mpr fun hr hn => ?_
      obtain ⟨e1, e2, e3, e4, e5⟩ := h4 f hf hr hn
      exact ⟨e1, e2, e3, e4, e5, h2, h3⟩
    · intro f hf
      refine (understood_pull f).mpr fun hl => ?_
      obtain ⟨e1, e2, _⟩ := h5 f hf hl
      exact ⟨e1, h3, e2⟩
    · intro f hf
      refine (understood_refill hs f).mpr fun hl hd => ?_
      obtain ⟨_, e2, e3⟩ := h5 f hf hl
      exact ⟨(e3 hd).1, h1, (e3 hd).2, e2⟩


/-- The names other than those of variables. -/
theorem understood_solid (p : Place) (g : Generics) (c : ContainerAttrs) (fields : List SField) :
    Solid p g (looseCode g c fields) ↔ TakesForGranted p g c fields := by
  have b0 := understood_binders (p := p) (g := g) [ch! "out"]
  have b1 := understood_binders (p := p) (g := g) [ch! "v"]
  unfold looseCode
  rw [understood_append, understood_append, understood_append, understood_append, understood_signature, understood_length, understood_names]
  have reads : Solid p g (deserializeLoose g c fields) ↔ (ReadsFields c → Solid p g (readLoose g c fields)) := by
    unfold deserializeLoose ReadsFields
    cases h1 : c.typeFrom with
    | some a => simp only [Option.isSome_some, if_true, understood_nil, reduceCtorEq, false_and, false_implies]
    | none =>
      rw [if_neg (by decide)]
      cases h2 : c.typeTryFrom with
      | some a => simp only [Option.isSome_some, if_true, b1, reduceCtorEq, and_false, false_implies]
      | none => simp only [Option.isSome_none, Bool.false_eq_true, if_false, and_self, true_implies]
  have writes : Solid p g (serializeLoose g c fields) ↔ (c.typeInto = none → p.macros (ch! "vec") ∧
      (p.variants (ch! "Ok") ∧ ch! "Ok" ∉ constParams g) ∧ ∀ f ∈ fields, Solid p g (writeFieldLoose g f)) := by
    unfold serializeLoose
    cases h1 : c.typeInto with
    | some a => simp only [Option.isSome_some, if_true, understood_nil, reduceCtorEq, false_implies]
    | none =>
      rw [if_neg (by decide), understood_append, understood_append, understood_flat]
      simp only [b0, understood_cons, understood_nil, ButVariables, Understood, and_true, true_and, forall_const, and_assoc]
  rw [writes, reads]
  constructor
  · rintro ⟨⟨⟨⟨ht, hlen⟩, hnam⟩, hwr⟩, hrd⟩
    have hs := ht (ch! "str") (by decide)
    have rd : ReadsFields c → _ := fun h => (understood_read (c := c) ht).mp (hrd h)
    have wr : c.typeInto = none → ∀ f ∈ fields, _ := fun h f hf => (understood_writeField hs f).mp ((hwr h).2.2 f hf)
    refine ⟨ht, fun h => (rd h).1, ?_, hlen.1, ?_, ?_, fun h => (hwr h).2.1, ?_, ?_, ?_, ?_, ?_, ?_, ?_, ?_⟩
    · rintro h ⟨f, hf, hl, hd⟩
      exact (((rd h).2.2.2.2 f hf hl).2.2 hd).2
    · rintro (h | ⟨f, hf, hn, h1, h2⟩ | ⟨h, f, hf, hr, hn⟩)
      · exact hnam.1 h
      · by_cases hi : c.typeInto = none
        · exact (((wr hi f hf) h1 h2).1 hn).1
        · exact hnam.1 hi
      · exact ((rd h).2.2.2.1 f hf hr hn).1
    · rintro (h | ⟨h, f, hf, hr, hn⟩)
      · exact (hnam.2 h).1
      · exact ((rd h).2.2.2.1 f hf hr hn).2.1
    · rintro (h | ⟨h, f, hf, hl, hd⟩)
      · exact (hwr h).1
      · exact (((rd h).2.2.2.2 f hf hl).2.2 hd).1
    · rintro (⟨h, f, hf, hn, h1⟩ | ⟨h, f, hf, hr, hn⟩)
      · exact (((hnam.2 h).2 f hf h1).1 hn).2.2.2
      · exact ((rd h).2.2.2.1 f hf hr hn).2.2.1
    · rintro h ⟨f, hf, hn, h1, h2⟩
      exact ((wr h f hf h1 h2).1 hn).2.2.1
    · rintro ⟨f, hf, hl, hp, ⟨h, h1, hn⟩ | h⟩
      · exact (((hnam.2 h).2 f hf h1).2 hn hl).2 hp
      · exact ((rd h).2.2.2.2 f hf hl).2.1 hp
    · rintro h ⟨f, hf, h1, hn⟩
      cases e : f.attrs.nested with
      | true => exact (((hnam.2 h).2 f hf h1).1 e).1
      | false =>
        rw [e] at hn
        exact (((hnam.2 h).2 f hf h1).2 e (hn.resolve_left (by decide))).1
    · rintro (h | ⟨h, f, hf, hn, h1⟩)
      · exact ⟨(rd h).2.1, (rd h).2.2.1⟩
      · exact ⟨(((hnam.2 h).2 f hf h1).1 hn).2.1, (((hnam.2 h).2 f hf h1).1 hn).2.2.1⟩
    · rintro (⟨h, f, hf, hn, h1, h2⟩ | ⟨h, f, hf, hl⟩)
      · exact ((wr h f hf h1 h2).1 hn).2.2.2.2.2.2
      · exact ((rd h).2.2.2.2 f hf hl).1
    · rintro h ⟨f, hf, hr, hn⟩
      exact ((rd h).2.2.2.1 f hf hr hn).2.2.2
  · intro t
    have hs := t.types (ch! "str") (by decide)
    refine ⟨⟨⟨⟨t.types, t.noneThere, fun h _ => (t.someThere (.inl h)).1⟩, fun h => t.noneInside (.inl h), fun h => ⟨t.someThere (.inl h), fun f hf h1 =>
      ⟨fun hn => ?_, fun hn hl => ?_⟩⟩⟩, fun h => ⟨t.vec (.inl h), t.okThere h, fun f hf => (understood_writeField hs f).mpr fun h1 h2 =>
        ⟨fun hn => ?_, fun hn hl => ?_⟩⟩⟩, fun h => (understood_read (c := c) t.types).mpr ⟨t.std h, (t.iterators (.inl h)).1, (t.iterators (.inl h)).2,
          fun f hf hr hn => ?_, fun f hf hl => ?_⟩⟩
    · have i := t.iterators (.inr ⟨h, f, hf, hn, h1⟩)
      exact ⟨t.extend h ⟨f, hf, h1, .inl hn⟩, i.1, i.2, t.format (.inl ⟨h, f, hf, hn, h1⟩)⟩
    · exact ⟨t.extend h ⟨f, hf, h1, .inr hl⟩, fun hp => t.row ⟨f, hf, hl, hp, .inl ⟨h, h1, hn⟩⟩⟩
    · have i := t.iterators (.inr ⟨h, f, hf, hn, h1⟩)
      exact ⟨t.noneInside (.inr (.inl ⟨f, hf, hn, h1, h2⟩)), t.someThere (.inl h), t.assert h ⟨f, hf, hn, h1, h2⟩, t.format (.inl ⟨h, f, hf, hn, h1⟩),
        i.1, i.2, t.into (.inl ⟨h, f, hf, hn, h1, h2⟩)⟩
    · exact ⟨t.extend h ⟨f, hf, h1, .inr hl⟩, fun hp => t.row ⟨f, hf, hl, hp, .inl ⟨h, h1, hn⟩⟩⟩
    · have k := t.copies h ⟨f, hf, hr, hn⟩
      exact ⟨t.noneInside (.inr (.inr ⟨h, f, hf, hr, hn⟩)), t.someThere (.inr ⟨h, f, hf, hr, hn⟩), t.format (.inr ⟨h, f, hf, hr, hn⟩), k.1, k.2⟩
    · exact ⟨t.into (.inr ⟨h, f, hf, hl⟩), fun hp => t.row ⟨f, hf, hl, hp, .inr h⟩, fun hd => ⟨t.vec (.inr ⟨h, f, hf, hl, hd⟩), t.crate h ⟨f, hf, hl, hd⟩⟩⟩


/-! ### The variables -/

theorem binder_binders {o : Bool} {x : Str} {xs : List Str} : LooseName.binder o x ∈ binders xs ↔ o = false ∧ x ∈ xs := by
  unfold binders
  rw [List.mem_map]
  constructor
  · rintro ⟨y, hy, e⟩; cases e; exact ⟨rfl, hy⟩
  · rintro ⟨rfl, hx⟩; exact ⟨x, hx, rfl⟩

theorem binder_row {o : Bool} {x : Str} {g : Generics} {t : STy} : LooseName.binder o x ∈ rowMethod g t ↔ False := by
  refine ⟨fun h => ?_, False.elim⟩
  unfold rowMethod at h
  split at h
  · split at h
    · cases h
    · cases List.mem_singleton.mp h
  · cases List.mem_singleton.mp h

theorem binder_length {o : Bool} {x : Str} {c : ContainerAttrs} {fields : List SField} :
    LooseName.binder o x ∈ lengthLoose c fields ↔ o = true ∧ x = ch! "x" ∧ c.typeInto = none ∧ (∀ f ∈ fields, f.attrs.flatten = false) ∧
      ∃ f ∈ fields, f.attrs.nested = true ∧ f.attrs.skipSer = false := by
  unfold lengthLoose
  by_cases hc : (anyFlat fields || c.typeInto.isSome) = true
  · rw [if_pos hc]
    rw [Bool.or_eq_true, anyFlat_iff, Option.isSome_iff_ne_none] at hc
    refine ⟨fun h => (by cases List.mem_singleton.mp h), ?_⟩
    rintro ⟨_, _, h1, h2, _⟩
    rcases hc with ⟨f, hf, e⟩ | e
    · rw [h2 f hf] at e; cases e
    · exact absurd h1 e
  · rw [if_neg hc]
    rw [Bool.or_eq_true, anyFlat_iff, Option.isSome_iff_ne_none, not_or] at hc
    have hn : c.typeInto = none := Classical.byContradiction hc.2
    have hf : ∀ f ∈ fields, f.attrs.flatten = false := fun f hf => by
      cases e : f.attrs.flatten with
      | false => rfl
      | true => exact absurd ⟨f, hf, e⟩ hc.1
    simp only [List.mem_cons, List.mem_flatMap, List.mem_filter, Bool.and_eq_true, Bool.not_eq_true', List.not_mem_nil, or_false, reduceCtorEq, false_or,
      LooseName.binder.injEq]
    constructor
    · rintro ⟨f, ⟨h1, h2, h3⟩, rfl, rfl⟩; exact ⟨rfl, rfl, hn, hf, f, h1, h3, h2⟩
    · rintro ⟨rfl, rfl, _, _, f, h1, h3, h2⟩; exact ⟨f, ⟨h1, h2, h3⟩, rfl, rfl⟩

theorem binder_names {o : Bool} {x : Str} {g : Generics} {c : ContainerAttrs} {fields : List SField} :
    LooseName.binder o x ∈ namesLoose g c fields ↔ o = false ∧ c.typeInto = none ∧ (x = ch! "out" ∨
      (x = ch! "x" ∧ ∃ f ∈ fields, f.attrs.nested = true ∧ f.attrs.skipSer = false)) := by
  unfold namesLoose
  cases hc : c.typeInto with
  | some t =>
    rw [if_pos (show (Option.some t).isSome = true from rfl)]
    simp only [List.mem_singleton, reduceCtorEq, false_and, and_false]
  | none =>
    rw [if_neg (by decide)]
    simp only [List.mem_append, binder_binders, List.mem_singleton, reduceCtorEq, or_false, List.mem_flatMap, List.mem_filter, Bool.not_eq_true', true_and]
    constructor
    · rintro (⟨rfl, h⟩ | ⟨f, ⟨hf, h1⟩, h⟩)
      · exact ⟨rfl, .inl h⟩
      · split at h
        · rename_i hn
          simp only [List.mem_append, binder_binders, List.mem_cons, List.not_mem_nil, or_false, reduceCtorEq, false_or] at h
          exact ⟨h.1, .inr ⟨h.2, f, hf, hn, h1⟩⟩
        · split at h
          · simp only [List.mem_cons, reduceCtorEq, false_or, binder_row] at h
          · cases h
    · rintro ⟨rfl, rfl | ⟨rfl, f, hf, hn, h1⟩⟩
      · exact .inl ⟨rfl, rfl⟩
      · refine .inr ⟨f, ⟨hf, h1⟩, ?_⟩
        rw [if_pos hn]
        exact List.mem_append_right _ (List.mem_singleton.mpr rfl)

theorem binder_write {o : Bool} {x : Str} {g : Generics} {f : SField} :
    LooseName.binder o x ∈ writeFieldLoose g f ↔ o = false ∧ f.attrs.skipSer = false ∧ f.attrs.serWith = none ∧
      ((f.attrs.nested = true ∧ x ∈ [ch! "inner_length", ch! "outputs", ch! "row", ch! "columns", ch! "i", ch! "name", ch! "value", ch! "column_names", ch! "values"]) ∨
      (f.attrs.nested = false ∧ f.attrs.flatten = true ∧ x = ch! "inner_length")) := by
  unfold writeFieldLoose
  cases hs : f.attrs.skipSer with
  | true => simp only [Bool.true_or, if_true, List.not_mem_nil, Bool.true_eq_false, false_and, and_false]
  | false =>
    cases hw : f.attrs.serWith with
    | some w => simp only [Bool.false_or, Option.isSome_some, if_true, List.not_mem_nil, reduceCtorEq, false_and, and_false]
    | none =>
      rw [if_neg (by decide)]
      cases hn : f.attrs.nested with
      | true =>
        rw [if_pos rfl, List.mem_append, binder_binders]
        have : ∀ l : List LooseName, l = [.type false (ch! "str"), .variant false (ch! "None"), .variant false (ch! "Some"), .macro (ch! "assert_eq"), .macro (ch! "format"),
          .method (ch! "IntoIterator"), .method (ch! "Iterator"), .method (ch! "Into")] → (LooseName.binder o x ∈ l ↔ False) := by
          rintro l rfl
          simp only [List.mem_cons, List.not_mem_nil, reduceCtorEq, or_false]
        rw [this _ rfl]
        simp only [or_false, true_and, Bool.true_eq_false, false_and]
      | false =>
        rw [if_neg (by decide)]
        cases hl : f.attrs.flatten with
        | true =>
          rw [if_pos rfl, List.mem_append, List.mem_append, binder_binders, binder_row]
          simp only [List.mem_singleton, reduceCtorEq, or_false, true_and, Bool.false_eq_true, false_and, false_or]
        | false =>
          rw [if_neg (by decide)]
          simp only [List.not_mem_nil, Bool.false_eq_true, false_and, or_self, and_false]

theorem binder_read {o : Bool} {x : Str} {flat : Bool} {f : SField} {i : Nat} :
    LooseName.binder o x ∈ readFieldLoose flat f i ↔ o = false ∧ Read f ∧ (x = ch! "__field" ++ dec i ∨
      (f.attrs.nested = true ∧ ((x = ch! "__" ++ f.attrs.name ++ ch! "_size" ∨ x = ch! "__ext_" ++ f.attrs.name ∨
        x = ch! "__ext_" ++ f.attrs.name ++ ch! "_iter" ∨ x = ch! "__ext_" ++ f.attrs.name ++ ch! "_len") ∨
        x ∈ [ch! "full_name", ch! "values", ch! "x", ch! "temp", ch! "name", ch! "type_", ch! "i", ch! "value"])) ∨
      (f.attrs.nested = false ∧ ((f.attrs.deWith = none ∧ x = ch! "e") ∨ (flat = false ∧ x = ch! "x")))) := by
  unfold readFieldLoose
  have hp : f.passed = true ↔ ¬ Read f := by
    unfold SField.passed Read
    cases f.attrs.skipDe <;> cases f.attrs.flatten <;> simp
  by_cases hr : Read f
  · rw [if_neg (fun h => hp.mp h hr), List.mem_cons, LooseName.binder.injEq]
    have e : slotName i = ch! "__field" ++ dec i := rfl
    rw [e]
    cases hn : f.attrs.nested with
    | true =>
      rw [if_pos rfl, List.mem_append, List.mem_append, binder_binders, binder_binders]
      have : ∀ l : List LooseName, l = [.type false (ch! "Vec"), .type false (ch! "str"), .type false (ch! "usize"), .macro (ch! "format"), .variant false (ch! "None"),
          .variant false (ch! "Some"), .method (ch! "ToString"), .method (ch! "Clone"), .method (ch! "IntoIterator"), .method (ch! "Iterator")] → (LooseName.binder o x ∈ l ↔ False) := by
        rintro l rfl
        simp only [List.mem_cons, List.not_mem_nil, reduceCtorEq, or_false]
      rw [this _ rfl]
      have m : x ∈ (nestedVars f.attrs.name).map Prod.fst ↔ x = ch! "__" ++ f.attrs.name ++ ch! "_size" ∨ x = ch! "__ext_" ++ f.attrs.name ∨
        x = ch! "__ext_" ++ f.attrs.name ++ ch! "_iter" ∨ x = ch! "__ext_" ++ f.attrs.name ++ ch! "_len" := by
        simp only [nestedVars, List.map_cons, List.map_nil, List.mem_cons, List.not_mem_nil, or_false]
      rw [m]
      simp only [or_false, true_and, Bool.true_eq_false, false_and, hr]
      rw [← and_or_left, ← and_or_left]
    | false =>
      rw [if_neg (by decide), List.mem_append]
      have m1 : (LooseName.binder o x ∈ match f.attrs.deWith with | none => binders [ch! "e"] | some _ => []) ↔ o = false ∧ f.attrs.deWith = none ∧ x = ch! "e" := by
        cases f.attrs.deWith with
        | none => simp only [binder_binders, List.mem_singleton, true_and]
        | some _ => simp only [List.not_mem_nil, reduceCtorEq, false_and, and_false]
      have m2 : (LooseName.binder o x ∈ if flat then [] else binders [ch! "x"]) ↔ o = false ∧ flat = false ∧ x = ch! "x" := by
        cases flat with
        | false => simp only [Bool.false_eq_true, if_false, binder_binders, List.mem_singleton, true_and]
        | true => simp only [if_true, List.not_mem_nil, Bool.true_eq_false, false_and, and_false]
      refine (or_congr Iff.rfl (or_congr m1 m2)).trans ?_
      simp only [hr, true_and, Bool.false_eq_true, false_and, false_or]
      rw [← and_or_left, ← and_or_left]
  · rw [if_pos (hp.mpr hr)]
    simp only [List.not_mem_nil, hr, false_and, and_false]

theorem binder_pull {o : Bool} {x : Str} {g : Generics} {f : SField} :
    LooseName.binder o x ∈ pullLoose g f ↔ o = false ∧ f.attrs.flatten = true ∧ x ∈ [ch! "c", ch! "c2", ch! "idx", ch! "col", ch! "ty", ch! "val"] := by
  unfold pullLoose
  by_cases hl : f.attrs.flatten = true
  · rw [if_pos hl, List.mem_append, List.mem_append, binder_binders, binder_row]
    simp only [List.mem_cons (a := LooseName.binder o x), List.not_mem_nil (a := LooseName.binder o x), reduceCtorEq, or_false, hl, true_and]
  · rw [if_neg hl]
    simp only [List.not_mem_nil, hl, false_and, and_false, Bool.false_eq_true]

theorem binder_refill {o : Bool} {x : Str} {g : Generics} {f : SField} :
    LooseName.binder o x ∈ refillLoose g f ↔ o = false ∧ f.attrs.flatten = true ∧ f.attrs.skipDe = false ∧ x ∈ [ch! "map2", ch! "c", ch! "ty", ch! "val"] := by
  unfold refillLoose
  cases hd : f.attrs.skipDe with
  | true => simp only [Bool.not_true, Bool.false_and, Bool.false_eq_true, if_false, List.not_mem_nil, Bool.true_eq_false, false_and, and_false]
  | false =>
    by_cases hl : f.attrs.flatten = true
    · rw [if_pos (by rw [hl]; rfl), List.mem_append, List.mem_append, binder_binders, binder_row]
      simp only [List.mem_cons (a := LooseName.binder o x), List.not_mem_nil (a := LooseName.binder o x), reduceCtorEq, or_false, hl, true_and]
    · rw [if_neg (by simp only [Bool.not_false, Bool.true_and]; exact hl)]
      simp only [List.not_mem_nil, hl, false_and, and_false, Bool.false_eq_true]

/-- The variables of the whole code. -/
theorem binder_code {x : Str} {g : Generics} {c : ContainerAttrs} {fields : List SField} (o : Bool) (h : LooseName.binder o x ∈ looseCode g c fields) :
    UsesVariable c fields x := by
  unfold looseCode at h
  simp only [List.mem_append] at h
  rcases h with (((h | h) | h) | h) | h
  · simp only [signatureLoose, List.mem_append, binder_binders, List.mem_cons (a := LooseName.binder o x), List.not_mem_nil (a := LooseName.binder o x), reduceCtorEq,
      or_false, false_or] at h
    exact .argument h.2
  · obtain ⟨_, rfl, hi, _, f, hf, hn, h1⟩ := binder_length.mp h
    exact .inner hi hf hn h1
  · obtain ⟨_, hi, rfl | ⟨rfl, f, hf, hn, h1⟩⟩ := binder_names.mp h
    · exact .out hi
    · exact .inner hi hf hn h1
  · unfold serializeLoose at h
    cases hi : c.typeInto with
    | some a => rw [hi] at h; cases h
    | none =>
      rw [hi, if_neg (by decide)] at h
      simp only [List.mem_append, binder_binders, List.mem_cons (a := LooseName.binder o x), List.not_mem_nil (a := LooseName.binder o x), reduceCtorEq, or_false,
        List.mem_flatMap, binder_write] at h
      rcases h with ⟨_, h⟩ | ⟨f, hf, _, h1, h2, ⟨hn, hm⟩ | ⟨hn, hl, rfl⟩⟩
      · rw [List.mem_singleton.mp h]; exact .out hi
      · exact .rows hi hf hn h1 h2 hm
      · exact .flat hi hf hn hl h1 h2
  · unfold deserializeLoose at h
    cases h1 : c.typeFrom with
    | some a => rw [h1] at h; cases h
    | none =>
      rw [h1, if_neg (by decide)] at h
      cases h2 : c.typeTryFrom with
      | some a =>
        rw [h2, if_pos (show (Option.some a).isSome = true from rfl), binder_binders] at h
        rw [List.mem_singleton.mp h.2]
        exact .tried h1 (by rw [h2]; exact Option.some_ne_none _)
      | none =>
        rw [h2, if_neg (by decide)] at h
        have hr : ReadsFields c := ⟨h1, h2⟩
        unfold readLoose at h
        simp only [List.mem_append, List.mem_flatMap] at h
        rcases h with ((((⟨⟨f, i⟩, hm, h⟩ | h) | h) | ⟨f, hf, h⟩) | ⟨f, hf, h⟩) | h
        · have hi := List.mem_zipIdx_iff_getElem?.mp hm
          have hf : f ∈ fields := List.mem_of_getElem? hi
          obtain ⟨_, hR, rfl | ⟨hn, h | h⟩ | ⟨hn, ⟨hd, rfl⟩ | ⟨hl, rfl⟩⟩⟩ := binder_read.mp h
          · exact .slot hr hi hR
          · exact .columnsOf hr hf hR hn h
          · exact .columns hr hf hR hn h
          · exact .error hr hf hR hn hd
          · refine .position hr hf hR hn fun k hk => ?_
            cases e : k.attrs.flatten with
            | false => rfl
            | true => rw [anyFlat_iff.mpr ⟨k, hk, e⟩] at hl; cases hl
        · exact .reading hr (binder_binders.mp h).2
        · simp only [List.mem_cons, List.not_mem_nil, reduceCtorEq, or_false] at h
        · obtain ⟨_, hl, hm⟩ := binder_pull.mp h
          exact .pulled hr hf hl hm
        · obtain ⟨_, hl, hd, hm⟩ := binder_refill.mp h
          exact .refilled hr hf hl hd hm
        · split at h
          · cases h
          · rename_i hd
            rw [List.mem_singleton.mp (binder_binders.mp h).2]
            exact .default hr hd

theorem code_binder {x : Str} (g : Generics) {c : ContainerAttrs} {fields : List SField} (h : UsesVariable c fields x) :
    LooseName.binder false x ∈ looseCode g c fields := by
  have names : c.typeInto = none → (x = ch! "out" ∨ (x = ch! "x" ∧ ∃ f ∈ fields, f.attrs.nested = true ∧ f.attrs.skipSer = false)) →
      LooseName.binder false x ∈ looseCode g c fields := fun hi h => by
    unfold looseCode
    exact List.mem_append_left _ (List.mem_append_left _ (List.mem_append_right _ (binder_names.mpr ⟨rfl, hi, h⟩)))
  have write : c.typeInto = none → (∃ f ∈ fields, LooseName.binder false x ∈ writeFieldLoose g f) → LooseName.binder false x ∈ looseCode g c fields := by
    rintro hi ⟨f, hf, h⟩
    unfold looseCode
    refine List.mem_append_left _ (List.mem_append_right _ ?_)
    unfold serializeLoose
    rw [hi, if_neg (by decide)]
    exact List.mem_append_right _ (List.mem_flatMap.mpr ⟨f, hf, h⟩)
  have read : ReadsFields c → LooseName.binder false x ∈ readLoose g c fields → LooseName.binder false x ∈ looseCode g c fields := by
    rintro ⟨h1, h2⟩ h
    unfold looseCode
    refine List.mem_append_right _ ?_
    unfold deserializeLoose
    rw [h1, if_neg (by decide), h2, if_neg (by decide)]
    exact h
  have field : ReadsFields c → (∃ f, ∃ i : Nat, fields[i]? = some f ∧ LooseName.binder false x ∈ readFieldLoose (anyFlat fields) f i) →
      LooseName.binder false x ∈ looseCode g c fields := by
    rintro hr ⟨f, i, hi, h⟩
    refine read hr ?_
    unfold readLoose
    refine List.mem_append_left _ (List.mem_append_left _ (List.mem_append_left _ (List.mem_append_left _ (List.mem_append_left _ ?_))))
    exact List.mem_flatMap.mpr ⟨(f, i), List.mem_zipIdx_iff_getElem?.mpr hi, h⟩
  cases h with
  | argument h =>
    unfold looseCode signatureLoose
    exact List.mem_append_left _ (List.mem_append_left _ (List.mem_append_left _ (List.mem_append_left _ (List.mem_append_right _ (binder_binders.mpr ⟨rfl, h⟩)))))
  | out hi => exact names hi (.inl rfl)
  | inner hi hf hn h1 => exact names hi (.inr ⟨rfl, _, hf, hn, h1⟩)
  | rows hi hf hn h1 h2 hm => exact write hi ⟨_, hf, binder_write.mpr ⟨rfl, h1, h2, .inl ⟨hn, hm⟩⟩⟩
  | flat hi hf hn hl h1 h2 => exact write hi ⟨_, hf, binder_write.mpr ⟨rfl, h1, h2, .inr ⟨hn, hl, rfl⟩⟩⟩
  | tried h1 h2 =>
    obtain ⟨t, h2⟩ := Option.ne_none_iff_exists'.mp h2
    unfold looseCode
    refine List.mem_append_right _ ?_
    unfold deserializeLoose
    rw [h1, if_neg (by decide), h2, if_pos (show (Option.some t).isSome = true from rfl)]
    exact List.mem_singleton.mpr rfl
  | reading hr hm =>
    refine read hr ?_
    unfold readLoose
    refine List.mem_append_left _ (List.mem_append_left _ (List.mem_append_left _ (List.mem_append_left _ (List.mem_append_right _ ?_))))
    exact binder_binders.mpr ⟨rfl, hm⟩
  | slot hr hi hR => exact field hr ⟨_, _, hi, binder_read.mpr ⟨rfl, hR, .inl rfl⟩⟩
  | columns hr hf hR hn hm =>
    obtain ⟨i, hi⟩ := List.getElem?_of_mem hf
    exact field hr ⟨_, i, hi, binder_read.mpr ⟨rfl, hR, .inr (.inl ⟨hn, .inr hm⟩)⟩⟩
  | columnsOf hr hf hR hn hm =>
    obtain ⟨i, hi⟩ := List.getElem?_of_mem hf
    exact field hr ⟨_, i, hi, binder_read.mpr ⟨rfl, hR, .inr (.inl ⟨hn, .inl hm⟩)⟩⟩
  | error hr hf hR hn hd =>
    obtain ⟨i, hi⟩ := List.getElem?_of_mem hf
    exact field hr ⟨_, i, hi, binder_read.mpr ⟨rfl, hR, .inr (.inr ⟨hn, .inl ⟨hd, rfl⟩⟩)⟩⟩
  | position hr hf hR hn hl =>
    obtain ⟨i, hi⟩ := List.getElem?_of_mem hf
    refine field hr ⟨_, i, hi, binder_read.mpr ⟨rfl, hR, .inr (.inr ⟨hn, .inr ⟨?_, rfl⟩⟩)⟩⟩
    cases e : anyFlat fields with
    | false => rfl
    | true =>
      obtain ⟨k, hk, e⟩ := anyFlat_iff.mp e
      rw [hl k hk] at e; cases e
  | pulled hr hf hl hm =>
    refine read hr ?_
    unfold readLoose
    refine List.mem_append_left _ (List.mem_append_left _ (List.mem_append_right _ ?_))
    exact List.mem_flatMap.mpr ⟨_, hf, binder_pull.mpr ⟨rfl, hl, hm⟩⟩
  | refilled hr hf hl hd hm =>
    refine read hr ?_
    unfold readLoose
    refine List.mem_append_left _ (List.mem_append_right _ ?_)
    exact List.mem_flatMap.mpr ⟨_, hf, binder_refill.mpr ⟨rfl, hl, hd, hm⟩⟩
  | default hr hd =>
    refine read hr ?_
    unfold readLoose
    refine List.mem_append_right _ ?_
    rw [if_neg hd]
    exact List.mem_singleton.mpr rfl

/-- **C108** (what the generated code takes for granted). The code is understood as it is meant exactly when the module is what it takes for
granted and no constant of the module, and no constant parameter, has the name of one of its variables. -/
theorem C108_exact_partial (p : Place) (g : Generics) (c : ContainerAttrs) (fields : List SField) :
    AllUnderstood p g (looseCode g c fields) ↔
      TakesForGranted p g c fields ∧ ∀ x, UsesVariable c fields x → ¬ p.consts x ∧ x ∉ constParams g := by
  rw [← understood_solid]
  constructor
  · intro h
    refine ⟨fun b hb => ?_, fun x hx => ?_⟩
    · have := h b hb
      cases b with
      | binder o x => trivial
      | _ => exact this
    · have := h _ (code_binder g hx)
      exact ⟨this.1, this.2 rfl⟩
  · rintro ⟨h1, h2⟩ b hb
    cases b with
    | binder o x => exact ⟨(h2 x (binder_code o hb)).1, fun _ => (h2 x (binder_code o hb)).2⟩
    | _ => exact h1 _ hb

theorem variable_name {c : ContainerAttrs} {fields : List SField} {x : Str} (h : UsesVariable c fields x) : VariableName fields x := by
  have sub : ∀ l : List Str, (l.all fun x => [ch! "map", ch! "type_hints", ch! "out", ch! "x", ch! "e", ch! "v", ch! "c", ch! "c2", ch! "idx", ch! "col", ch! "ty", ch! "val",
      ch! "i", ch! "row", ch! "name", ch! "type_", ch! "value", ch! "values", ch! "temp", ch! "map2", ch! "outputs", ch! "columns", ch! "full_name",
      ch! "inner_length", ch! "column_names", ch! "map_flattened_fields", ch! "_field_index", ch! "_name", ch! "_type_", ch! "_value", ch! "__default"].contains x) = true →
      x ∈ l → VariableName fields x := fun l hl hx => .inl (List.contains_iff_mem.mp (List.all_eq_true.mp hl x hx))
  cases h with
  | argument h => exact sub _ rfl h
  | out => exact .inl (by decide)
  | inner => exact .inl (by decide)
  | rows _ _ _ _ _ h => exact sub _ rfl h
  | flat => exact .inl (by decide)
  | tried => exact .inl (by decide)
  | reading _ h => exact sub _ rfl h
  | slot => exact .inr (.inl ⟨_, rfl⟩)
  | columns _ _ _ _ h => exact sub _ rfl h
  | columnsOf _ hf _ hn h => exact .inr (.inr ⟨_, hf, hn, h⟩)
  | error => exact .inl (by decide)
  | position => exact .inl (by decide)
  | pulled _ _ _ h => exact sub _ rfl h
  | refilled _ _ _ _ h => exact sub _ rfl h
  | default => exact .inl (by decide)

/-- **C108** for modules like most, with `Row` imported where there are flattened fields, and structs whose parameters have ordinary names: the
code of every struct is understood as it is meant. -/
theorem C108_usual_partial (p : Place) (g : Generics) (c : ContainerAttrs) (fields : List SField) (hu : Usual p) (ha : ParamsApart g fields)
    (hc : ∀ x, VariableName fields x → ¬ p.consts x) (hr : (∃ f ∈ fields, f.attrs.flatten = true) → p.traits (ch! "Row")) :
    AllUnderstood p g (looseCode g c fields) := by
  have hv : ∀ x, VariableName fields x → ¬ p.consts x ∧ x ∉ constParams g := fun x hx => ⟨hc x hx, fun hm => (ha.consts x hm).2 hx⟩
  have ty : ∀ x ∈ [ch! "Option", ch! "Vec", ch! "String", ch! "str", ch! "usize", ch! "std", ch! "klickhouse"], p.types x ∧ x ∉ g.typeParams :=
    fun x hx => ⟨hu.types x hx, fun hm => ha.types x hm hx⟩
  have vr : ∀ x ∈ [ch! "Some", ch! "None", ch! "Ok"], p.variants x ∧ x ∉ constParams g := fun x hx => ⟨hu.variants x hx, fun hm => (ha.consts x hm).1 hx⟩
  rw [C108_exact_partial p g c fields]
  refine ⟨?_, fun x hx => hv x (variable_name hx)⟩
  exact {
    types := fun x hx => ty x (by
      simp only [List.mem_cons, List.not_mem_nil, or_false] at hx ⊢
      rcases hx with h | h | h | h | h <;> subst h <;> simp)
    std := fun _ => ty _ (by decide)
    crate := fun _ _ => ty _ (by decide)
    noneThere := fun _ => (vr _ (by decide)).1
    noneInside := fun _ => vr _ (by decide)
    someThere := fun _ => vr _ (by decide)
    okThere := fun _ => vr _ (by decide)
    vec := fun _ => hu.macros _ (by decide)
    format := fun _ => hu.macros _ (by decide)
    assert := fun _ _ => hu.macros _ (by decide)
    row := fun ⟨f, hf, hl, _⟩ => hr ⟨f, hf, hl⟩
    extend := fun _ _ => hu.traits _ (by decide)
    iterators := fun _ => ⟨hu.traits _ (by decide), hu.traits _ (by decide)⟩
    into := fun _ => hu.traits _ (by decide)
    copies := fun _ _ => ⟨hu.traits _ (by decide), hu.traits _ (by decide)⟩ }

/-- A module with nothing of its own; `row` says whether it imports the trait `Row`. -/
def plainPlace (row : Bool) : Place where
  types x := x ∈ [ch! "Option", ch! "Vec", ch! "String", ch! "str", ch! "usize", ch! "std", ch! "klickhouse"]
  variants x := x ∈ [ch! "Some", ch! "None", ch! "Ok"]
  macros x := x ∈ [ch! "vec", ch! "format", ch! "assert_eq"]
  traits t := t ∈ [ch! "Into", ch! "Iterator", ch! "IntoIterator", ch! "Extend", ch! "ToString", ch! "Clone"] ∨ row = true ∧ t = ch! "Row"
  consts _ := False

theorem plainPlace_usual (row : Bool) : Usual (plainPlace row) := ⟨fun _ h => h, fun _ h => h, fun _ h => h, fun _ h => .inl h⟩

/-- C108_usual_partial: a struct with a flattened and a nested field, in a module that imports `Row`; and the code names much. -/
example : AllUnderstood (plainPlace true) ⟨[], []⟩ (looseCode ⟨[], []⟩ bareStruct
    [⟨.ident (ch! "Inner"), { plainAttrs (ch! "a") with flatten := true }⟩, ⟨app (ch! "Vec") (.ident (ch! "Item")), nestedAttrs (ch! "b")⟩]) ∧
    40 < (looseCode ⟨[], []⟩ bareStruct [⟨.ident (ch! "Inner"), { plainAttrs (ch! "a") with flatten := true }⟩,
      ⟨app (ch! "Vec") (.ident (ch! "Item")), nestedAttrs (ch! "b")⟩]).length :=
  ⟨C108_usual_partial _ _ _ _ (plainPlace_usual true) ⟨fun _ h => (by cases h), fun _ h => (by cases h)⟩ (fun _ _ h => h) (fun _ => .inr ⟨rfl, rfl⟩), by decide⟩

/-- **C108** is false: `#[derive(klickhouse::Row)] struct S { #[klickhouse(flatten)] a: Inner }` is accepted in a module that imports nothing,
and `Inner::column_names()` is not found there. -/
theorem C108_row_false : Usual (plainPlace false) ∧
    (∀ part : Char → Bool, ∃ code, expandRow part (ch! "S") ⟨[], []⟩ bareStruct [⟨.ident (ch! "Inner"), { plainAttrs (ch! "a") with flatten := true }⟩] = .ok code) ∧
    ¬ AllUnderstood (plainPlace false) ⟨[], []⟩ (looseCode ⟨[], []⟩ bareStruct
      [⟨.ident (ch! "Inner"), { plainAttrs (ch! "a") with flatten := true }⟩]) := by
  refine ⟨plainPlace_usual false, fun part => ⟨_, rfl⟩, fun h => ?_⟩
  rw [C108_exact_partial] at h
  rcases h.1.row ⟨_, List.mem_singleton.mpr rfl, rfl, fun _ h => (by cases h), .inr ⟨rfl, rfl⟩⟩ with h | ⟨h, _⟩
  · exact absurd h (by decide)
  · cases h

/-- **C108** fails for every struct in a module where one of five names means something else, or with a parameter of that name. -/
theorem C108_types_false (p : Place) (g : Generics) (c : ContainerAttrs) (fields : List SField) (x : Str)
    (hx : x ∈ [ch! "Option", ch! "Vec", ch! "String", ch! "str", ch! "usize"]) (h : ¬ p.types x ∨ x ∈ g.typeParams) :
    ¬ AllUnderstood p g (looseCode g c fields) := by
  intro hu
  have hm : LooseName.type false x ∈ looseCode g c fields := by
    unfold looseCode
    refine List.mem_append_left _ (List.mem_append_left _ (List.mem_append_left _ (List.mem_append_left _ ?_)))
    simp only [List.mem_cons, List.not_mem_nil, or_false] at hx
    rcases hx with h | h | h | h | h <;> subst h <;> decide
  exact h.elim (fun h => h (hu _ hm).1) fun h => (hu _ hm).2 rfl h

/-- **C108** fails for every struct in a module with a constant called `map`, or with a constant parameter of that name. -/
theorem C108_const_false (p : Place) (g : Generics) (c : ContainerAttrs) (fields : List SField) (h : p.consts (ch! "map") ∨ ch! "map" ∈ constParams g) :
    ¬ AllUnderstood p g (looseCode g c fields) := by
  intro hu
  have hm : LooseName.binder false (ch! "map") ∈ looseCode g c fields := by
    unfold looseCode
    exact List.mem_append_left _ (List.mem_append_left _ (List.mem_append_left _ (List.mem_append_left _ (by decide))))
  exact h.elim (fun h => (hu _ hm).1 h) fun h => (hu _ hm).2 rfl h

/-- **C108** fails for every struct that is written as it is in a module where `Ok` means something else, as after `use Status::*` with a variant
`Ok`. -/
theorem C108_variant_false (p : Place) (g : Generics) (c : ContainerAttrs) (fields : List SField) (hi : c.typeInto = none) (h : ¬ p.variants (ch! "Ok")) :
    ¬ AllUnderstood p g (looseCode g c fields) := by
  intro hu
  have hm : LooseName.variant false (ch! "Ok") ∈ looseCode g c fields := by
    unfold looseCode
    refine List.mem_append_left _ (List.mem_append_right _ ?_)
    unfold serializeLoose
    rw [hi, if_neg (by decide)]
    exact List.mem_append_left _ (List.mem_append_right _ (by decide))
  exact h (hu _ hm).1

/-- A struct that is converted both ways asks nothing of the module but the names of the signatures and `None`. -/
theorem C108_converted (p : Place) (g : Generics) (c : ContainerAttrs) (fields : List SField) (hi : c.typeInto ≠ none) (hf : c.typeFrom ≠ none)
    (ht : ∀ x ∈ [ch! "Option", ch! "Vec", ch! "String", ch! "str", ch! "usize"], p.types x ∧ x ∉ g.typeParams)
    (hn : p.variants (ch! "None") ∧ ch! "None" ∉ constParams g)
    (hc : ∀ x ∈ [ch! "map", ch! "type_hints"], ¬ p.consts x ∧ x ∉ constParams g) : AllUnderstood p g (looseCode g c fields) := by
  obtain ⟨i, hi⟩ := Option.ne_none_iff_exists'.mp hi
  obtain ⟨f, hf⟩ := Option.ne_none_iff_exists'.mp hf
  have e : looseCode g c fields = signatureLoose ++ [.variant true (ch! "None")] ++ [.variant false (ch! "None")] ++ [] ++ [] := by
    unfold looseCode lengthLoose namesLoose serializeLoose deserializeLoose
    rw [hi, hf]
    simp only [Option.isSome_some, Bool.or_true, if_true]
  rw [e, List.append_nil, List.append_nil]
  unfold AllUnderstood
  rw [List.forall_mem_append, List.forall_mem_append]
  refine ⟨⟨fun b hb => ?_, ?_⟩, ?_⟩
  · have t := fun x hx => ht x hx
    simp only [signatureLoose, binders, List.map_cons, List.map_nil, List.cons_append, List.nil_append, List.mem_cons, List.not_mem_nil, or_false] at hb
    rcases hb with h | h | h | h | h | h | h | h <;> subst h
    · exact ⟨(t _ (by decide)).1, fun h => by cases h⟩
    · exact ⟨(t _ (by decide)).1, fun _ => (t _ (by decide)).2⟩
    · exact ⟨(t _ (by decide)).1, fun _ => (t _ (by decide)).2⟩
    · exact ⟨(t _ (by decide)).1, fun _ => (t _ (by decide)).2⟩
    · exact ⟨(t _ (by decide)).1, fun _ => (t _ (by decide)).2⟩
    · exact ⟨(t _ (by decide)).1, fun _ => (t _ (by decide)).2⟩
    · exact ⟨(hc _ (by decide)).1, fun _ => (hc _ (by decide)).2⟩
    · exact ⟨(hc _ (by decide)).1, fun _ => (hc _ (by decide)).2⟩
  · intro b hb
    rw [List.mem_singleton.mp hb]
    exact ⟨hn.1, fun h => by cases h⟩
  · intro b hb
    rw [List.mem_singleton.mp hb]
    exact ⟨hn.1, fun _ => hn.2⟩

/-- C108_converted: in a module that has none of the macros and traits. -/
example : ∃ (p : Place) (c : ContainerAttrs), c.typeInto ≠ none ∧ c.typeFrom ≠ none ∧ ¬ p.macros (ch! "vec") ∧
    AllUnderstood p ⟨[], []⟩ (looseCode ⟨[], []⟩ c [⟨.ident (ch! "u8"), plainAttrs (ch! "a")⟩]) := by
  refine ⟨{ plainPlace false with macros := fun _ => False }, { bareStruct with typeInto := some (ch! "Raw"), typeFrom := some (ch! "Raw") }, by decide, by decide,
    fun h => h, C108_converted _ _ _ _ (by decide) (by decide) (fun x hx => ?_) ⟨by show ch! "None" ∈ _; decide, by decide⟩ (fun x _ => ⟨fun h => h, fun h => by cases h⟩)⟩
  refine ⟨?_, fun h => by cases h⟩
  show x ∈ [ch! "Option", ch! "Vec", ch! "String", ch! "str", ch! "usize", ch! "std", ch! "klickhouse"]
  simp only [List.mem_cons, List.not_mem_nil, or_false] at hx ⊢
  rcases hx with h | h | h | h | h <;> subst h <;> simp

end Props
end Klick
