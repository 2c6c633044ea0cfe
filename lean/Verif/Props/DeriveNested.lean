import Verif.Spec.DeriveNested
import Verif.Props.Derive
import Verif.Props.RawInsert
/-
C54: where the values of nested, flattened and skipped fields come from.
-/
namespace Klick
open Spec
namespace Fields

theorem put_nested {β : Type} {f : Field (List β)} {inner : RowImpl β} (hk : f.kind = .nested inner) {l : Str} {c : Cell} {s s' : FieldSlot (List β)}
    (h : f.put l c s = .ok s') : ∃ n t vs, c = (n, .array t, .array vs) ∧ s'.val = s.val ∧ s'.ext = s.ext ++ [(l, t.stripLowCardinality, vs)] ∧
      ∀ e ∈ s.ext.head?, e.2.2.length = vs.length := by
  obtain ⟨n, T, v⟩ := c
  unfold Field.put at h
  rw [hk] at h
  simp only [Field.putNested] at h
  cases hv : Field.elemsOf v with
  | none => rw [hv] at h; cases h
  | some vs =>
    have hv' : v = .array vs := by
      unfold Field.elemsOf at hv
      split at hv
      · exact congrArg _ (Option.some.inj hv)
      · cases hv
    subst hv'
    rw [hv] at h
    dsimp only at h
    cases ht : Field.elemTy T with
    | none =>
      rw [ht] at h
      cases hx : s.ext with
      | nil => rw [hx] at h; cases h
      | cons e r =>
        rw [hx] at h
        dsimp only at h
        split at h <;> cases h
    | some t =>
      have ht' : ∃ u, T = .array u ∧ t = u.stripLowCardinality := by
        unfold Field.elemTy at ht
        split at ht
        · exact ⟨_, rfl, (Option.some.inj ht).symm⟩
        · cases ht
      obtain ⟨u, rfl, rfl⟩ := ht'
      rw [ht] at h
      cases hx : s.ext with
      | nil =>
        rw [hx] at h
        cases h
        exact ⟨n, u, vs, rfl, rfl, by simp [hx], by simp⟩
      | cons e r =>
        rw [hx] at h
        dsimp only at h
        by_cases hl : e.2.2.length ≠ vs.length
        · rw [if_pos hl] at h; cases h
        · rw [if_neg hl] at h
          cases h
          refine ⟨n, u, vs, rfl, rfl, by simp [hx], ?_⟩
          intro e' he'
          simp only [List.head?_cons, Option.mem_def, Option.some.injEq] at he'
          subst he'
          exact Decidable.not_not.mp hl

/-- All columns of a slot have the length of the first. -/
def Even (ext : List (Str × Ty × List Value)) : Prop := ∀ e ∈ ext.head?, ∀ e' ∈ ext, e.2.2.length = e'.2.2.length

theorem even_snoc {ext : List (Str × Ty × List Value)} {x : Str × Ty × List Value} (h : Even ext) (hx : ∀ e ∈ ext.head?, e.2.2.length = x.2.2.length) :
    Even (ext ++ [x]) := by
  cases ext with
  | nil =>
    intro e he e' he'
    simp only [List.nil_append, List.head?_cons, Option.mem_def, Option.some.injEq] at he
    subst he
    rw [List.nil_append, List.mem_singleton] at he'
    rw [he']
  | cons a r =>
    intro e he e' he'
    simp only [List.cons_append, List.head?_cons, Option.mem_def, Option.some.injEq] at he
    subst he
    rcases List.mem_append.mp he' with he' | he'
    · exact h a rfl e' he'
    · rw [List.mem_singleton.mp he']; exact hx a rfl

theorem hit_label {β : Type} {f : Field (List β)} {inner : RowImpl β} (hk : f.kind = .nested inner) {c : Cell} {l : Str} (h : f.hit c = some l) :
    c.1 = f.name ++ '.' :: l := by
  unfold Field.hit at h
  split at h
  · cases h
  · unfold Field.matchName at h
    rw [hk] at h
    dsimp only at h
    split at h
    · rename_i hp
      cases h
      rw [List.isPrefixOf_iff_prefix] at hp
      obtain ⟨r, hr⟩ := hp
      rw [← hr, List.drop_left]
      simp [Field.dotted]
    · cases h

theorem absorb_nested {β σ τ : Type} {f : Field (List β)} {fs : Fields σ τ} {get : σ → List β} {slot : τ → FieldSlot (List β)} {p : Nat}
    (h : FieldAt f fs get slot p) (hA : Apart fs) {inner : RowImpl β} (hk : f.kind = .nested inner) (hsd : f.skipDe = false) (cells : List Cell) :
    ∀ (i : Nat) (t t' : τ), fs.absorb i cells t = .ok t' → Even (slot t).ext →
      ∃ cols, Gathered fs f p f.width i cells cols ∧ (slot t').ext = (slot t).ext ++ cols ∧ Even (slot t').ext ∧ (slot t').val = (slot t).val := by
  have hfl : f.flattened = false := by unfold Field.flattened; rw [hk]
  have hsk : f.skip = false := by simp [Field.skip, hsd, hfl]
  have hcl : ∀ n, Claims f n ↔ ∃ m, n = f.name ++ '.' :: m := by
    intro n; unfold Claims; rw [hk]; simp [KindClaims, hsd]
  induction cells with
  | nil =>
    intro i t t' hb he
    simp only [absorb, Res.ok.injEq] at hb
    subst hb
    exact ⟨[], .nil, by simp, he, rfl⟩
  | cons c cells ih =>
    intro i t t' hb he
    unfold absorb at hb
    rw [Res.bind_eq_ok] at hb
    obtain ⟨t1, h1, h2⟩ := hb
    -- one step
    have step : (∃ l, JoinsAs fs f p f.width i c l ∧ f.put l c (slot t) = .ok (slot t1)) ∨
        ((∀ l, ¬ JoinsAs fs f p f.width i c l) ∧ slot t1 = slot t) := by
      cases hn : fs.byName c t with
      | some r =>
        rw [hn] at h1
        dsimp only at h1
        subst h1
        obtain ⟨a, b⟩ := byName_at h hA c t t1 hn
        by_cases hc : Claims f c.1
        · obtain ⟨l, hl, hp⟩ := a hc
          exact .inl ⟨l, .inl (hit_label hk hl), hp⟩
        · refine .inr ⟨?_, b hc⟩
          rintro l (hg | ⟨_, hg, _⟩)
          · exact hc ((hcl _).mpr ⟨l, hg⟩)
          · rw [(byName_none fs c t).mpr hg] at hn; cases hn
      | none =>
        rw [hn] at h1
        dsimp only at h1
        have hncl := (byName_none fs c t).mp hn
        by_cases hf : fs.anyFlatten = true
        · rw [if_pos hf] at h1
          cases h1
          refine .inr ⟨?_, rfl⟩
          rintro l (hg | ⟨hg, _⟩)
          · exact hncl (fieldAt_claim h ((hcl _).mpr ⟨l, hg⟩))
          · rw [hf] at hg; cases hg
        rw [if_neg hf] at h1
        have hf' : fs.anyFlatten = false := by simpa using hf
        obtain ⟨a, b⟩ := byIndex_at h hsk i c t t1 h1
        by_cases hi : p ≤ i ∧ i < p + f.width
        · exact .inl ⟨c.1, .inr ⟨hf', hncl, hi.1, hi.2, rfl⟩, a hi⟩
        · refine .inr ⟨?_, b hi⟩
          rintro l (hg | ⟨_, _, hg1, hg2, _⟩)
          · exact hncl (fieldAt_claim h ((hcl _).mpr ⟨l, hg⟩))
          · exact hi ⟨hg1, hg2⟩
    rcases step with ⟨l, hj, hp⟩ | ⟨hj, hp⟩
    · obtain ⟨n, u, vs, rfl, hval, hext, hlen⟩ := put_nested hk hp
      obtain ⟨cols, q1, q2, q3, q4⟩ := ih (i + 1) t1 t' h2 (by rw [hext]; exact even_snoc he hlen)
      exact ⟨(l, u.stripLowCardinality, vs) :: cols, .mine hj q1, by rw [q2, hext, List.append_assoc]; rfl, q3, q4.trans hval⟩
    · obtain ⟨cols, q1, q2, q3, q4⟩ := ih (i + 1) t1 t' h2 (by rw [hp]; exact he)
      exact ⟨cols, .other hj q1, by rw [q2, hp], q3, by rw [q4, hp]⟩

theorem finish_nested {β σ τ : Type} {f : Field (List β)} {fs : Fields σ τ} {get : σ → List β} {slot : τ → FieldSlot (List β)} {p : Nat}
    (h : FieldAt f fs get slot p) {inner : RowImpl β} (hk : f.kind = .nested inner) (hsd : f.skipDe = false) :
    ∀ (d : Option σ) (t1 t2 t3 : τ) (fl : List Cell) (x : σ), fs.rectify t1 = .ok t2 → fs.settle d t2 = .ok t3 → fs.build d t3 fl = .ok x →
    Field.rectify1 inner (slot t1).ext = .ok (get x) := by
  have hfl : f.flattened = false := by unfold Field.flattened; rw [hk]
  have hsk : f.skip = false := by simp [Field.skip, hsd, hfl]
  induction h with
  | here fs =>
    rintro d ⟨s1, u1⟩ ⟨s2, u2⟩ ⟨s3, u3⟩ fl ⟨x, xs⟩ h1 h2 h3
    simp only [rectify, Res.bind_eq_ok, Res.ok.injEq, Prod.mk.injEq] at h1
    obtain ⟨a, ha, _, _, rfl, _⟩ := h1
    simp only [settle, Res.bind_eq_ok, Res.ok.injEq, Prod.mk.injEq] at h2
    obtain ⟨b, hb, _, _, rfl, _⟩ := h2
    simp only [build, Res.bind_eq_ok, Res.ok.injEq, Prod.mk.injEq] at h3
    obtain ⟨⟨c, fl'⟩, hc, _, _, rfl, _⟩ := h3
    unfold Field.rectify at ha
    rw [hsk, hk] at ha
    simp only [Bool.false_eq_true, if_false, Field.rectifyKind, Res.bind_eq_ok, Res.ok.injEq] at ha
    obtain ⟨rows, hr, rfl⟩ := ha
    unfold Field.settle at hb
    rw [hsk] at hb
    simp only [Bool.false_eq_true, if_false, Res.ok.injEq] at hb
    subst hb
    unfold Field.build at hc
    rw [hsd, hk] at hc
    simp only [Bool.false_eq_true, if_false, Res.ok.injEq, Prod.mk.injEq] at hc
    rw [← hc.1]; exact hr
  | there g h ih =>
    rintro d ⟨s1, u1⟩ ⟨s2, u2⟩ ⟨s3, u3⟩ fl ⟨x, xs⟩ h1 h2 h3
    simp only [rectify, Res.bind_eq_ok, Res.ok.injEq, Prod.mk.injEq] at h1
    obtain ⟨_, _, a, ha, _, rfl⟩ := h1
    simp only [settle, Res.bind_eq_ok, Res.ok.injEq, Prod.mk.injEq] at h2
    obtain ⟨_, _, b, hb, _, rfl⟩ := h2
    simp only [build, Res.bind_eq_ok, Res.ok.injEq, Prod.mk.injEq] at h3
    obtain ⟨⟨c, fl'⟩, _, z, hz, _, rfl⟩ := h3
    exact ih (d.map Prod.snd) u1 a b fl' z ha hb hz

theorem empty_ext {α σ τ : Type} {f : Field α} {fs : Fields σ τ} {get : σ → α} {slot : τ → FieldSlot α} {p : Nat}
    (h : FieldAt f fs get slot p) : (slot fs.empty).ext = [] := by
  induction h with
  | here => rfl
  | there g h ih => exact ih

theorem sizes_at {α σ τ : Type} {f : Field α} {fs : Fields σ τ} {get : σ → α} {slot : τ → FieldSlot α} {p : Nat}
    (h : FieldAt f fs get slot p) (hs : f.skip = false) (hc : fs.checkSizes = .ok ()) : ∃ n, f.innerCount = some n := by
  induction h with
  | here fs =>
    simp only [checkSizes, hs, Bool.false_eq_true, if_false] at hc
    cases hi : f.innerCount with
    | some n => exact ⟨n, rfl⟩
    | none => rw [hi] at hc; cases hc
  | there g h ih =>
    simp only [checkSizes] at hc
    split at hc
    · exact ih hc
    · split at hc
      · cases hc
      · exact ih hc

/-! ### Flattened fields -/

theorem swapRemove_mem {m : List Cell} {k : Str} {v : Ty × Value} {rest : List Cell} (h : IMap.swapRemove m k = (some v, rest)) :
    (k, v) ∈ m ∧ ∀ c ∈ rest, c ∈ m := by
  have := swapRemove_some h
  exact ⟨this.mem_iff.mpr (by simp), fun c hc => this.mem_iff.mpr (List.mem_cons_of_mem _ hc)⟩

theorem insert_mem {m : List Cell} {k : Str} {v : Ty × Value} : ∀ c ∈ IMap.insert m k v, c ∈ m ∨ c = (k, v) := by
  intro c hc
  unfold IMap.insert at hc
  split at hc
  · obtain ⟨e, he, h⟩ := List.mem_map.mp hc
    split at h
    · exact .inr h.symm
    · exact .inl (h ▸ he)
  · rcases List.mem_append.mp hc with hc | hc
    · exact .inl hc
    · exact .inr (List.mem_singleton.mp hc)

theorem pullNames_mem (ident : Str) (all : List Cell) (names : List Str) : ∀ (cells flat rest flat' : List Cell),
    (∀ c ∈ cells, c ∈ all) → (∀ c ∈ flat, c ∈ all) →
    Field.pullNames ident names cells flat = .ok (rest, flat') → (∀ c ∈ rest, c ∈ all) ∧ ∀ c ∈ flat', c ∈ all := by
  induction names with
  | nil => intro cells flat rest flat' h1 h2 h; cases h; exact ⟨h1, h2⟩
  | cons n names ih =>
    intro cells flat rest flat' h1 h2 h
    unfold Field.pullNames at h
    cases hs : IMap.swapRemove cells n with
    | mk o r =>
      rw [hs] at h
      cases o with
      | none => cases h
      | some x =>
        obtain ⟨m1, m2⟩ := swapRemove_mem hs
        refine ih _ _ _ _ (fun c hc => h1 c (m2 c hc)) (fun c hc => ?_) h
        rcases insert_mem c hc with hc | rfl
        · exact h2 c hc
        · exact h1 _ m1

theorem pull_mem (all : List Cell) {σ τ : Type} (fs : Fields σ τ) : ∀ (cells flat rest flat' : List Cell),
    (∀ c ∈ cells, c ∈ all) → (∀ c ∈ flat, c ∈ all) → fs.pull cells flat = .ok (rest, flat') → ∀ c ∈ flat', c ∈ all := by
  induction fs with
  | nil => intro cells flat rest flat' h1 h2 h; cases h; exact h2
  | cons f fs ih =>
    intro cells flat rest flat' h1 h2 h
    unfold pull at h
    rw [Res.bind_eq_ok] at h
    obtain ⟨⟨r, fl⟩, h3, h4⟩ := h
    have : (∀ c ∈ r, c ∈ all) ∧ ∀ c ∈ fl, c ∈ all := by
      unfold Field.pull at h3
      cases hk : f.kind with
      | plain => rw [hk] at h3; cases h3; exact ⟨h1, h2⟩
      | nested => rw [hk] at h3; cases h3; exact ⟨h1, h2⟩
      | flatten inner =>
        rw [hk] at h3
        dsimp only at h3
        cases hn : inner.columnNames with
        | none => rw [hn] at h3; cases h3
        | some names => rw [hn] at h3; exact pullNames_mem f.ident all names _ _ _ _ h1 h2 h3
    exact ih _ _ _ _ this.1 this.2 h4

theorem gather_mem (names : List Str) : ∀ (flat : List Cell) (cs rest : List Cell), Field.gather names flat = .ok (cs, rest) →
    cs.map Prod.fst = names ∧ (∀ c ∈ cs, c ∈ flat) ∧ ∀ c ∈ rest, c ∈ flat := by
  induction names with
  | nil => intro flat cs rest h; cases h; exact ⟨rfl, by simp, fun c hc => hc⟩
  | cons n names ih =>
    intro flat cs rest h
    unfold Field.gather at h
    cases hs : IMap.swapRemove flat n with
    | mk o r =>
      rw [hs] at h
      cases o with
      | none => cases h
      | some x =>
        obtain ⟨m1, m2⟩ := swapRemove_mem hs
        simp only [Res.bind_eq_ok, Res.ok.injEq, Prod.mk.injEq] at h
        obtain ⟨⟨cs', r'⟩, h1, h2, h3⟩ := h
        obtain ⟨i1, i2, i3⟩ := ih _ _ _ h1
        subst h2 h3
        refine ⟨by simp [i1], ?_, fun c hc => m2 c (i3 c hc)⟩
        intro c hc
        rcases List.mem_cons.mp hc with rfl | hc
        · exact m1
        · exact m2 c (i2 c hc)

theorem build_rest {α : Type} (f : Field α) (d : Option α) (s : FieldSlot α) (flat fl' : List Cell) (y : α) (h : f.build d s flat = .ok (y, fl')) :
    ∀ c ∈ fl', c ∈ flat := by
  unfold Field.build at h
  split at h
  · simp only [Res.bind_eq_ok, Res.ok.injEq, Prod.mk.injEq] at h
    obtain ⟨_, _, _, rfl⟩ := h
    exact fun c hc => hc
  · split at h
    · split at h
      · cases h
      · simp only [Res.bind_eq_ok, Res.ok.injEq, Prod.mk.injEq] at h
        obtain ⟨⟨cs, r⟩, h1, _, _, _, h2⟩ := h
        subst h2
        exact (gather_mem _ _ _ _ h1).2.2
    · split at h
      · simp only [Res.ok.injEq, Prod.mk.injEq] at h
        obtain ⟨_, rfl⟩ := h
        exact fun c hc => hc
      · cases h

theorem finish_flat {α σ τ : Type} {f : Field α} {fs : Fields σ τ} {get : σ → α} {slot : τ → FieldSlot α} {p : Nat}
    (h : FieldAt f fs get slot p) {inner : RowImpl α} (hk : f.kind = .flatten inner) (hsd : f.skipDe = false) :
    ∀ (d : Option σ) (t3 : τ) (fl : List Cell) (x : σ), fs.build d t3 fl = .ok x →
    ∃ mine : List Cell, inner.columnNames = some (mine.map Prod.fst) ∧ (∀ c ∈ mine, c ∈ fl) ∧ inner.de mine = .ok (get x) := by
  induction h with
  | here fs =>
    rintro d ⟨s3, u3⟩ fl ⟨x, xs⟩ h3
    simp only [build, Res.bind_eq_ok, Res.ok.injEq, Prod.mk.injEq] at h3
    obtain ⟨⟨c, fl'⟩, hc, _, _, rfl, _⟩ := h3
    unfold Field.build at hc
    rw [hsd, hk] at hc
    simp only [Bool.false_eq_true, if_false] at hc
    cases hn : inner.columnNames with
    | none => rw [hn] at hc; cases hc
    | some names =>
      rw [hn] at hc
      simp only [Res.bind_eq_ok, Res.ok.injEq, Prod.mk.injEq] at hc
      obtain ⟨⟨cs, r⟩, h1, y, h2, rfl, _⟩ := hc
      obtain ⟨g1, g2, _⟩ := gather_mem _ _ _ _ h1
      exact ⟨cs, by rw [g1], g2, h2⟩
  | there g h ih =>
    rintro d ⟨s3, u3⟩ fl ⟨x, xs⟩ h3
    simp only [build, Res.bind_eq_ok, Res.ok.injEq, Prod.mk.injEq] at h3
    obtain ⟨⟨c, fl'⟩, hc, z, hz, _, rfl⟩ := h3
    obtain ⟨mine, a, b, e⟩ := ih (d.map Prod.snd) u3 fl' z hz
    exact ⟨mine, a, fun c hc' => build_rest g _ _ _ _ _ hc c (b c hc'), e⟩

theorem finish_skipped {α σ τ : Type} {f : Field α} {fs : Fields σ τ} {get : σ → α} {slot : τ → FieldSlot α} {p : Nat}
    (h : FieldAt f fs get slot p) (hsd : f.skipDe = true) :
    ∀ (d : Option σ) (t3 : τ) (fl : List Cell) (x : σ), fs.build d t3 fl = .ok x → f.missing (d.map get) = .ok (get x) := by
  induction h with
  | here fs =>
    rintro d ⟨s3, u3⟩ fl ⟨x, xs⟩ h3
    simp only [build, Res.bind_eq_ok, Res.ok.injEq, Prod.mk.injEq] at h3
    obtain ⟨⟨c, fl'⟩, hc, _, _, rfl, _⟩ := h3
    unfold Field.build at hc
    rw [hsd] at hc
    simp only [if_true, Res.bind_eq_ok, Res.ok.injEq, Prod.mk.injEq] at hc
    obtain ⟨y, hy, rfl, _⟩ := hc
    exact hy
  | there g h ih =>
    rintro d ⟨s3, u3⟩ fl ⟨x, xs⟩ h3
    simp only [build, Res.bind_eq_ok, Res.ok.injEq, Prod.mk.injEq] at h3
    obtain ⟨⟨c, fl'⟩, hc, z, hz, _, rfl⟩ := h3
    have := ih (d.map Prod.snd) u3 fl' z hz
    simp only [Option.map_map] at this
    exact this

end Fields

namespace Props

/-- Where the rows of a nested field come from, for *every* row that is read without error: some columns go to the field (by name or by
position), all of them arrays, all of the same length; the field has one row for each element of these arrays, and row `i` is
read from the `i`-th elements. (The columns of flattened fields are taken out first; without a flattened field none are.) -/
theorem C54_nested_source {β σ τ : Type} (fs : Fields σ τ) (d : Option σ) (cells : List Cell) (x : σ) (hde : (fs.derive d).de cells = .ok x)
    (f : Field (List β)) (get : σ → List β) (slot : τ → FieldSlot (List β)) (p : Nat) (hat : FieldAt f fs get slot p) (hA : Apart fs)
    (inner : RowImpl β) (hk : f.kind = .nested inner) (hsd : f.skipDe = false) :
    ∃ (w : Nat) (taken rest : List Cell) (cols : List (Str × Ty × List Value)), inner.columnCount = some w ∧ cells.Perm (taken ++ rest) ∧
      taken.map Prod.fst = flattenedNames fs ∧ (fs.anyFlatten = false → rest = cells) ∧ Gathered fs f p w 0 rest cols ∧ cols ≠ [] ∧
      (∀ e ∈ cols, e.2.2.length = (get x).length) ∧
      ∀ (i : Nat) (row : β), (get x)[i]? = some row → ∃ inputs, RowAt cols i inputs ∧ inner.de inputs = .ok row := by
  have hfl : f.flattened = false := by unfold Field.flattened; rw [hk]
  have hsk : f.skip = false := by simp [Field.skip, hsd, hfl]
  have hde : fs.de d cells = .ok x := hde
  unfold Fields.de at hde
  rw [Res.bind_eq_ok] at hde
  obtain ⟨_, hsz, hde⟩ := hde
  rw [Res.bind_eq_ok] at hde
  obtain ⟨⟨rest, flat⟩, h0, hde⟩ := hde
  simp only [Res.bind_eq_ok] at hde
  obtain ⟨t1, h1, t2, h2, t3, h3, h4⟩ := hde
  obtain ⟨taken, k1, k2⟩ := Fields.pull_perm fs _ _ _ _ h0
  obtain ⟨w, hw⟩ := Fields.sizes_at hat hsk hsz
  have hwidth : f.width = w := by unfold Field.width; rw [hw]; rfl
  obtain ⟨cols, q1, q2, q3, q4⟩ := Fields.absorb_nested hat hA hk hsd rest 0 _ _ h1 (by rw [Fields.empty_ext hat]; intro e he; cases he)
  have hfin := Fields.finish_nested hat hk hsd d t1 t2 t3 _ x h2 h3 h4
  rw [Fields.empty_ext hat, List.nil_append] at q2
  rw [q2] at hfin q3
  rw [hwidth] at q1
  refine ⟨w, taken, rest, cols, ?_, k2, k1, ?_, q1, ?_, ?_⟩
  · unfold Field.innerCount at hw; rw [hk] at hw; exact hw
  · intro hf
    rw [Fields.pull_none fs hf] at h0
    cases h0; rfl
  · rintro rfl
    simp only [Field.rectify1, Res.bind_eq_ok] at hfin
    obtain ⟨_, _, hh⟩ := hfin
    cases hh
  · cases cols with
    | nil =>
      simp only [Field.rectify1, Res.bind_eq_ok] at hfin
      obtain ⟨_, _, hh⟩ := hfin
      cases hh
    | cons e r =>
      simp only [Field.rectify1] at hfin
      have hlen : (get x).length = e.2.2.length := by
        have := Res.mapL_length hfin
        rw [List.length_range] at this
        exact this
      have hall : ∀ e' ∈ e :: r, e'.2.2.length = (get x).length := by
        intro e' he'
        rw [hlen]
        exact (q3 e rfl e' he').symm
      refine ⟨hall, fun i row hrow => ?_⟩
      have hi : i < (get x).length := by
        rcases Nat.lt_or_ge i (get x).length with h | h
        · exact h
        · rw [List.getElem?_eq_none h] at hrow; cases hrow
      refine ⟨Field.nestedRow (e :: r) i, ⟨by simp [Field.nestedRow], ?_⟩, ?_⟩
      · intro j label t vs hj
        have hm := List.mem_of_getElem? hj
        have hv : i < vs.length := by rw [hall _ hm]; exact hi
        refine ⟨vs[i], List.getElem?_eq_getElem hv, ?_⟩
        unfold Field.nestedRow
        rw [List.getElem?_map, hj]
        simp [List.getD, List.getElem?_eq_getElem hv]
      · obtain ⟨y, hy, hf⟩ := Res.mapL_get hfin (i := i) (by rw [List.length_range, ← hlen]; exact hi)
        rw [hrow] at hy
        cases hy
        rw [List.getElem_range] at hf
        exact hf

/-- Where the value of a flattened field comes from: from the columns its type declares, in the order it declares them, each a column of
the row. -/
theorem C54_flatten_source {α σ τ : Type} (fs : Fields σ τ) (d : Option σ) (cells : List Cell) (x : σ) (hde : (fs.derive d).de cells = .ok x)
    (f : Field α) (get : σ → α) (slot : τ → FieldSlot α) (p : Nat) (hat : FieldAt f fs get slot p)
    (inner : RowImpl α) (hk : f.kind = .flatten inner) (hsd : f.skipDe = false) :
    ∃ mine : List Cell, inner.columnNames = some (mine.map Prod.fst) ∧ (∀ c ∈ mine, c ∈ cells) ∧ inner.de mine = .ok (get x) := by
  have hde : fs.de d cells = .ok x := hde
  unfold Fields.de at hde
  simp only [Res.bind_eq_ok] at hde
  obtain ⟨_, hsz, ⟨rest, flat⟩, h0, t1, h1, t2, h2, t3, h3, h4⟩ := hde
  obtain ⟨mine, a, b, e⟩ := Fields.finish_flat hat hk hsd d t3 flat x h4
  exact ⟨mine, a, fun c hc => Fields.pull_mem cells fs cells [] rest flat (fun _ h => h) (by simp) h0 c (b c hc), e⟩

/-- A field that is not read has its default, whatever the columns are. -/
theorem C54_skipped_source {α σ τ : Type} (fs : Fields σ τ) (d : Option σ) (cells : List Cell) (x : σ) (hde : (fs.derive d).de cells = .ok x)
    (f : Field α) (get : σ → α) (slot : τ → FieldSlot α) (p : Nat) (hat : FieldAt f fs get slot p) (hsd : f.skipDe = true) :
    Defaults f (d.map get) (get x) := by
  have hde : fs.de d cells = .ok x := hde
  unfold Fields.de at hde
  simp only [Res.bind_eq_ok] at hde
  obtain ⟨_, _, _, _, t1, h1, t2, h2, t3, h3, h4⟩ := hde
  exact defaults_of_missing (Fields.finish_skipped hat hsd d t3 _ x h4)

/-- Every order read without error, from any row: all its items come from array columns of one length, and its extra from the column `x`. -/
example (cells : List Cell) (o : BitVec 32 × List (BitVec 8 × Str × Unit) × (BitVec 32 × Unit) × Str × BitVec 8 × Unit)
    (h : (exOrder.derive none).de cells = .ok o) :
    (∃ cols : List (Str × Ty × List Value), cols ≠ [] ∧ ∀ e ∈ cols, e.2.2.length = o.2.1.length) ∧ (∃ v, (ch! "x", v) ∈ cells) ∧ o.2.2.2.1 = [] := by
  obtain ⟨_, _, _, cols, _, _, _, _, _, h1, h2, _⟩ :=
    C54_nested_source exOrder none cells o h _ _ _ _ (.there _ (.here _)) (C54_labels_suffice exOrder (by decide) (by decide)) _ rfl rfl
  obtain ⟨mine, m1, m2, _⟩ := C54_flatten_source exOrder none cells o h _ _ _ _ (.there _ (.there _ (.here _))) _ rfl rfl
  have hd := C54_skipped_source exOrder none cells o h _ _ _ _ (.there _ (.there _ (.there _ (.here _)))) rfl
  refine ⟨⟨cols, h1, h2⟩, ?_, ?_⟩
  · match mine, m1, m2 with
    | (n, v) :: _, m1, m2 =>
      have : ch! "x" = n := (List.cons.inj (Option.some.inj m1)).1
      exact ⟨v, this ▸ m2 _ List.mem_cons_self⟩
  · rcases hd with hd | ⟨hd, _⟩
    · exact (Option.some.inj hd).symm
    · cases hd

end Props
end Klick
