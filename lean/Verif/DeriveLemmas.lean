import Verif.Spec.Derive
import Verif.BlockLemmas
/-
Lemmas about derived rows.
-/
namespace Klick
open Spec

/-! ### Removing columns from the row -/

theorem IMap.swapRemove_perm {β : Type} {m : IMap β} (hn : m.keys.Nodup) {k : Str} {v : β} (h : (k, v) ∈ m) :
    ∃ rest, m.swapRemove k = (some v, rest) ∧ m.Perm ((k, v) :: rest) := by
  unfold IMap.swapRemove
  cases hf : m.findIdx? (fun e => e.1 == k) with
  | none =>
    rw [List.findIdx?_eq_none_iff] at hf
    have := hf _ h
    simp at this
  | some i =>
    obtain ⟨l, w, r, hm, hl, hnl⟩ := IMap.findIdx_some hf
    dsimp only
    refine ⟨m.swapRest i, by rw [IMap.get_of_mem hn h], ?_⟩
    have hw : w = v := by
      have := IMap.get_of_mem hn h
      have h2 := IMap.get_of_mem hn (k := k) (v := w) (by rw [hm]; simp)
      rw [this] at h2; exact (Option.some.inj h2).symm
    subst hw
    unfold IMap.swapRest
    rcases List.eq_nil_or_concat r with hr | ⟨r', x, hr⟩
    · subst hr
      have : i + 1 = m.length := by rw [hm]; simp; omega
      rw [if_pos this, hm]
      rw [List.dropLast_concat]
      exact (List.perm_append_comm (l₁ := l) (l₂ := [(k, w)]))
    · have hr' : r = r' ++ [x] := by simpa using hr
      have hm' : m = (l ++ (k, w) :: r') ++ [x] := by rw [hm, hr']; simp
      have : ¬ i + 1 = m.length := by rw [hm']; simp; omega
      rw [if_neg this]
      have e1 : m.getLast? = some x := by rw [hm']; exact List.getLast?_concat
      have e2 : m.dropLast = l ++ (k, w) :: r' := by rw [hm']; exact List.dropLast_concat
      rw [e1, e2]
      dsimp only
      rw [← hl, List.set_append_right _ _ (Nat.le_refl _)]
      simp only [Nat.sub_self, List.set_cons_zero]
      rw [hm']
      have p1 : (l ++ (k, w) :: r' ++ [x]).Perm (l ++ ((k, w) :: x :: r')) := by
        rw [List.append_assoc]
        exact List.Perm.append_left l (by
          exact (List.Perm.cons _ (List.perm_append_comm (l₁ := r') (l₂ := [x]))))
      exact p1.trans List.perm_middle

theorem keys_perm {β : Type} {a b : IMap β} (h : a.Perm b) : a.keys.Perm b.keys := h.map _

namespace Field
variable {α : Type}

theorem pullNames_spec (ident : Str) (fc : List Cell) : ∀ (cells rest0 flat : List Cell),
    cells.Perm (fc ++ rest0) → (IMap.keys (α := Ty × Value) cells).Nodup →
    (∀ c ∈ fc, c.1 ∉ IMap.keys (α := Ty × Value) flat) →
    ∃ rest, pullNames ident (fc.map Prod.fst) cells flat = .ok (rest, flat ++ fc) ∧ rest.Perm rest0 := by
  induction fc with
  | nil => intro cells rest0 flat h _ _; exact ⟨cells, by simp [pullNames], h⟩
  | cons c fc ih =>
    intro cells rest0 flat h hn hf
    have hmem : (c.1, c.2) ∈ cells := h.symm.subset (by simp)
    obtain ⟨rest, h1, h2⟩ := IMap.swapRemove_perm (β := Ty × Value) hn hmem
    have hp : rest.Perm (fc ++ rest0) := (h2.symm.trans h).cons_inv
    have hnd : (IMap.keys (α := Ty × Value) ((c.1, c.2) :: rest)).Nodup := (keys_perm h2).nodup_iff.mp hn
    simp only [IMap.keys, List.map_cons, List.nodup_cons] at hnd
    have hc : c.1 ∉ IMap.keys (α := Ty × Value) flat := hf c (by simp)
    obtain ⟨rest', h3, h4⟩ := ih rest rest0 (flat ++ [c]) hp hnd.2 (by
      intro e he
      simp only [IMap.keys, List.map_append, List.map_cons, List.map_nil, List.mem_append, List.mem_singleton, not_or]
      refine ⟨hf e (by simp [he]), fun hc => hnd.1 ?_⟩
      exact List.mem_map.mpr ⟨e, hp.symm.subset (by simp [he]), hc⟩)
    refine ⟨rest', ?_, h4⟩
    simp only [List.map_cons, pullNames, h1]
    rw [IMap.insert_new hc]
    simpa using h3

theorem gather_spec (fc : List Cell) : ∀ (flat rest0 : List Cell),
    flat.Perm (fc ++ rest0) → (IMap.keys (α := Ty × Value) flat).Nodup →
    ∃ rest, gather (fc.map Prod.fst) flat = .ok (fc, rest) ∧ rest.Perm rest0 := by
  induction fc with
  | nil => intro cells rest0 h _; exact ⟨cells, by simp [gather], h⟩
  | cons c fc ih =>
    intro cells rest0 h hn
    have hmem : (c.1, c.2) ∈ cells := h.symm.subset (by simp)
    obtain ⟨rest, h1, h2⟩ := IMap.swapRemove_perm (β := Ty × Value) hn hmem
    have hp : rest.Perm (fc ++ rest0) := (h2.symm.trans h).cons_inv
    have hnd : (IMap.keys (α := Ty × Value) ((c.1, c.2) :: rest)).Nodup := (keys_perm h2).nodup_iff.mp hn
    simp only [IMap.keys, List.map_cons, List.nodup_cons] at hnd
    obtain ⟨rest', h3, h4⟩ := ih rest rest0 hp hnd.2
    refine ⟨rest', ?_, h4⟩
    simp only [List.map_cons, gather, h1, h3, Res.bind_ok]

/-! ### Claims -/

/-- The label under which the field takes the column, if it does. -/
def hit (f : Field α) (c : Cell) : Option Str := if f.skip then none else f.matchName c.1

theorem matchName_claims (f : Field α) (hs : f.skip = false) (n : Str) :
    (∃ l, f.matchName n = some l) ↔ Claims f n := by
  have hd : f.skipDe = false ∧ f.flattened = false := by simpa [skip] using hs
  unfold Claims matchName
  cases hk : f.kind with
  | plain s d a =>
    simp only [KindClaims, hd.1, true_and]
    by_cases h : n = f.name <;> simp [h]
  | nested inner =>
    simp only [KindClaims, hd.1, true_and]
    by_cases h : f.dotted.isPrefixOf n = true
    · simp only [h, if_true]
      constructor
      · intro _
        rw [List.isPrefixOf_iff_prefix] at h
        obtain ⟨m, hm⟩ := h
        exact ⟨m, by rw [← hm]; simp [dotted]⟩
      · intro _; exact ⟨_, rfl⟩
    · constructor
      · rintro ⟨l, hl⟩; rw [if_neg h] at hl; cases hl
      · rintro ⟨m, hm⟩
        refine absurd ?_ h
        rw [List.isPrefixOf_iff_prefix]
        exact ⟨m, by rw [hm]; simp [dotted]⟩
  | flatten inner =>
    unfold flattened at hd
    rw [hk] at hd
    cases hd.2

theorem hit_claims (f : Field α) (c : Cell) : (∃ l, f.hit c = some l) ↔ Claims f c.1 := by
  unfold hit
  by_cases hs : f.skip = true
  · simp only [hs, if_true]
    constructor
    · rintro ⟨l, hl⟩; cases hl
    · rintro ⟨h1, h2⟩
      simp only [skip, h1, Bool.false_or] at hs
      unfold flattened at hs
      cases hk : f.kind with
      | flatten inner => rw [hk] at h2; exact h2.elim
      | plain => rw [hk] at hs; cases hs
      | nested => rw [hk] at hs; cases hs
  · have hs' : f.skip = false := by simpa using hs
    simp only [hs', Bool.false_eq_true, if_false]
    exact matchName_claims f hs' c.1

theorem hit_none (f : Field α) (c : Cell) : f.hit c = none ↔ ¬ Claims f c.1 := by
  rw [← hit_claims]
  cases f.hit c <;> simp

/-- Feeding columns to one field, by name. -/
def feed (f : Field α) : List Cell → FieldSlot α → Res (FieldSlot α)
  | [], s => .ok s
  | c :: cs, s =>
    match f.hit c with
    | some l => f.put l c s >>= fun s => feed f cs s
    | none => feed f cs s

theorem feed_filter (f : Field α) (cells : List Cell) (s : FieldSlot α) :
    f.feed (cells.filter (fun c => (f.hit c).isSome)) s = f.feed cells s := by
  induction cells generalizing s with
  | nil => rfl
  | cons c cs ih =>
    cases h : f.hit c with
    | none => simp only [List.filter_cons, h, Option.isSome_none, Bool.false_eq_true, if_false, feed, ih]
    | some l => simp only [List.filter_cons, h, Option.isSome_some, if_true, feed, ih]

end Field

namespace Fields

/-- The loop over the columns by name only. -/
def absorbN {σ τ : Type} (fs : Fields σ τ) : List Cell → τ → Res τ
  | [], t => .ok t
  | c :: cells, t =>
    (match fs.byName c t with
     | some r => r
     | none => .ok t) >>= fun t => fs.absorbN cells t

theorem byName_cons {α σ τ : Type} (f : Field α) (fs : Fields σ τ) (c : Cell) (s : FieldSlot α) (ss : τ) :
    (Fields.cons f fs).byName c (s, ss) =
      match f.hit c with
      | some l => some (f.put l c s >>= fun s => .ok (s, ss))
      | none => (fs.byName c ss).map (fun r => r >>= fun ss => .ok (s, ss)) := by
  unfold Field.hit
  by_cases hs : f.skip = true
  · simp only [byName, hs, if_true]
  · have hs' : f.skip = false := by simpa using hs
    simp only [byName, hs', Bool.false_eq_true, if_false]
    cases f.matchName c.1 <;> rfl

theorem byName_none {σ τ : Type} (fs : Fields σ τ) (c : Cell) (t : τ) : fs.byName c t = none ↔ ¬ FieldsClaim fs c.1 := by
  induction fs with
  | nil => simp [byName, FieldsClaim]
  | cons f fs ih =>
    obtain ⟨s, ss⟩ := t
    simp only [FieldsClaim, not_or, ← ih ss, ← Field.hit_none f c]
    rw [byName_cons]
    cases f.hit c <;> simp

theorem absorbN_cons {α σ τ : Type} (f : Field α) (fs : Fields σ τ) (cells : List Cell) : ∀ (s : FieldSlot α) (ss : τ) (s' : FieldSlot α) (ss' : τ),
    f.feed cells s = .ok s' → fs.absorbN (cells.filter (fun c => !(f.hit c).isSome)) ss = .ok ss' →
    (Fields.cons f fs).absorbN cells (s, ss) = .ok (s', ss') := by
  induction cells with
  | nil => intro s ss s' ss' h1 h2; simp only [Field.feed, List.filter_nil, absorbN, Res.ok.injEq] at *; simp [h1, h2]
  | cons c cells ih =>
    intro s ss s' ss' h1 h2
    unfold absorbN
    rw [byName_cons]
    cases h : f.hit c with
    | some l =>
      simp only [Field.feed, h, Res.bind_eq_ok] at h1
      obtain ⟨s1, h3, h4⟩ := h1
      simp only [List.filter_cons, h, Option.isSome_some, Bool.not_true, Bool.false_eq_true, if_false] at h2
      simp only [h3, Res.bind_ok]
      exact ih _ _ _ _ h4 h2
    | none =>
      simp only [Field.feed, h] at h1
      simp only [List.filter_cons, h, Option.isSome_none, Bool.not_false, if_true, absorbN] at h2
      cases hb : fs.byName c ss with
      | none =>
        rw [hb] at h2
        simp only [Option.map_none, Res.bind_ok] at h2 ⊢
        exact ih _ _ _ _ h1 h2
      | some r =>
        rw [hb] at h2
        simp only [Option.map_some] at h2 ⊢
        rw [Res.bind_eq_ok] at h2
        obtain ⟨ss1, h3, h4⟩ := h2
        simp only [h3, Res.bind_ok]
        exact ih _ _ _ _ h1 h4

/-- When every column is taken by name, or there is no positional reading, or the position is out of range, the
position does not matter. -/
theorem byIndex_out {σ τ : Type} (fs : Fields σ τ) (i : Nat) (c : Cell) (t : τ) (h : positions fs ≤ i) : fs.byIndex i c t = .ok t := by
  induction fs generalizing i with
  | nil => rfl
  | cons f fs ih =>
    obtain ⟨s, ss⟩ := t
    simp only [positions] at h
    unfold byIndex
    by_cases hs : f.skip = true
    · simp only [hs, if_true] at h ⊢
      rw [ih i ss (by omega)]; rfl
    · have hs' : f.skip = false := by simpa using hs
      simp only [hs', Bool.false_eq_true, if_false] at h ⊢
      rw [if_neg (by omega), ih (i - f.width) ss (by omega)]; rfl

theorem absorb_eq {σ τ : Type} (fs : Fields σ τ) (cells : List Cell) : ∀ (i : Nat) (t : τ),
    (fs.anyFlatten = true ∨ ∀ j c, cells[j]? = some c → FieldsClaim fs c.1 ∨ positions fs ≤ i + j) →
    fs.absorb i cells t = fs.absorbN cells t := by
  induction cells with
  | nil => intro i t _; rfl
  | cons c cells ih =>
    intro i t h
    unfold absorb absorbN
    have hb : ∀ g : τ → Res τ, fs.byName c t = none → ((if fs.anyFlatten then .ok t else fs.byIndex i c t) >>= g) = g t := by
      intro g hn
      rcases h with h | h
      · rw [h]; rfl
      · have := h 0 c rfl
        rcases this with h' | h'
        · exact absurd h' ((byName_none fs c t).mp hn)
        · rw [byIndex_out fs i c t (by simpa using h')]
          cases fs.anyFlatten <;> rfl
    have hr : ∀ t', fs.absorb (i + 1) cells t' = fs.absorbN cells t' := by
      intro t'
      apply ih
      rcases h with h | h
      · exact .inl h
      · refine .inr fun j c' hc => ?_
        have := h (j + 1) c' (by simpa using hc)
        rw [Nat.add_right_comm, Nat.add_assoc]
        exact this
    cases hn : fs.byName c t with
    | some r => simp only [hr]
    | none =>
      dsimp only
      rw [hb _ hn]
      exact hr t
end Fields
end Klick
