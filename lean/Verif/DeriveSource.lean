import Verif.DerivePos
/-
Derived rows: where the value of a plain field comes from.
-/
namespace Klick
open Spec

namespace Fields

theorem fieldAt_claim {α σ τ : Type} {f : Field α} {fs : Fields σ τ} {get : σ → α} {slot : τ → FieldSlot α} {p : Nat}
    (h : FieldAt f fs get slot p) {n : Str} (hc : Claims f n) : FieldsClaim fs n := by
  induction h with
  | here => exact .inl hc
  | there g h ih => exact .inr ih

theorem byName_at {α σ τ : Type} {f : Field α} {fs : Fields σ τ} {get : σ → α} {slot : τ → FieldSlot α} {p : Nat}
    (h : FieldAt f fs get slot p) (hA : Apart fs) (c : Cell) (t t' : τ) (hb : fs.byName c t = some (.ok t')) :
    (Claims f c.1 → ∃ l, f.hit c = some l ∧ f.put l c (slot t) = .ok (slot t')) ∧ (¬ Claims f c.1 → slot t' = slot t) := by
  induction h with
  | here fs =>
    obtain ⟨s, ss⟩ := t
    rw [byName_cons] at hb
    cases hh : f.hit c with
    | some l =>
      rw [hh] at hb
      simp only [Option.some.injEq, Res.bind_eq_ok, Res.ok.injEq] at hb
      obtain ⟨s', h1, rfl⟩ := hb
      refine ⟨fun _ => ⟨l, rfl, h1⟩, fun hn => ?_⟩
      rw [(Field.hit_none f c).mpr hn] at hh; cases hh
    | none =>
      rw [hh] at hb
      simp only [Option.map_eq_some_iff, Res.bind_eq_ok, Res.ok.injEq] at hb
      obtain ⟨r, _, ss', _, rfl⟩ := hb
      exact ⟨fun hc => absurd hc ((Field.hit_none f c).mp hh), fun _ => rfl⟩
  | there g h ih =>
    obtain ⟨s, ss⟩ := t
    rw [byName_cons] at hb
    cases hh : g.hit c with
    | some l =>
      rw [hh] at hb
      simp only [Option.some.injEq, Res.bind_eq_ok, Res.ok.injEq] at hb
      obtain ⟨s', h1, rfl⟩ := hb
      refine ⟨fun hc => absurd (fieldAt_claim h hc) (hA.1 _ ((Field.hit_claims g c).mp ⟨l, hh⟩)), fun _ => rfl⟩
    | none =>
      rw [hh] at hb
      simp only [Option.map_eq_some_iff, Res.bind_eq_ok, Res.ok.injEq] at hb
      obtain ⟨r, hr, ss', h1, rfl⟩ := hb
      subst h1
      exact ih hA.2 ss ss' hr

theorem byIndex_at {α σ τ : Type} {f : Field α} {fs : Fields σ τ} {get : σ → α} {slot : τ → FieldSlot α} {p : Nat}
    (h : FieldAt f fs get slot p) (hs : f.skip = false) (i : Nat) (c : Cell) (t t' : τ) (hb : fs.byIndex i c t = .ok t') :
    (p ≤ i ∧ i < p + f.width → f.put c.1 c (slot t) = .ok (slot t')) ∧ (¬ (p ≤ i ∧ i < p + f.width) → slot t' = slot t) := by
  induction h generalizing i with
  | here fs =>
    obtain ⟨s, ss⟩ := t
    simp only [byIndex, hs, Bool.false_eq_true, if_false] at hb
    by_cases hi : i < f.width
    · rw [if_pos hi] at hb
      simp only [Res.bind_eq_ok, Res.ok.injEq] at hb
      obtain ⟨s', h1, rfl⟩ := hb
      exact ⟨fun _ => h1, fun hn => absurd ⟨Nat.zero_le _, by omega⟩ hn⟩
    · rw [if_neg hi] at hb
      simp only [Res.bind_eq_ok, Res.ok.injEq] at hb
      obtain ⟨s', h1, rfl⟩ := hb
      exact ⟨fun hn => by omega, fun _ => rfl⟩
  | @there β σ τ g fs get slot p h ih =>
    obtain ⟨s, ss⟩ := t
    simp only [byIndex] at hb
    by_cases hg : g.skip = true
    · rw [if_pos hg] at hb
      simp only [Res.bind_eq_ok, Res.ok.injEq] at hb
      obtain ⟨s', h1, rfl⟩ := hb
      simp only [hg, if_true, Nat.zero_add]
      exact ih i ss s' h1
    · rw [if_neg hg] at hb
      simp only [hg, Bool.false_eq_true, if_false]
      by_cases hi : i < g.width
      · rw [if_pos hi] at hb
        simp only [Res.bind_eq_ok, Res.ok.injEq] at hb
        obtain ⟨s', h1, rfl⟩ := hb
        exact ⟨fun hn => by omega, fun _ => rfl⟩
      · rw [if_neg hi] at hb
        simp only [Res.bind_eq_ok, Res.ok.injEq] at hb
        obtain ⟨s', h1, rfl⟩ := hb
        have := ih (i - g.width) ss s' h1
        refine ⟨fun hn => this.1 ⟨by omega, by omega⟩, fun hn => this.2 (fun hc => hn ⟨by omega, by omega⟩)⟩

theorem put_plain {α : Type} {f : Field α} {sr : Option Ty → α → Res Value} {conv : Ty → Value → Res α} {an : Bool} (hk : f.kind = .plain sr conv an)
    {l : Str} {c : Cell} {s s' : FieldSlot α} (h : f.put l c s = .ok s') :
    s.val = none ∧ ∃ y, conv c.2.1.stripLowCardinality c.2.2 = .ok y ∧ s'.val = some y := by
  unfold Field.put at h
  rw [hk] at h
  dsimp only at h
  cases hv : s.val with
  | some y => rw [hv] at h; simp at h
  | none =>
    rw [hv] at h
    simp only [Option.isSome_none, Bool.false_eq_true, if_false, Res.bind_eq_ok, Res.ok.injEq] at h
    obtain ⟨y, h1, rfl⟩ := h
    refine ⟨rfl, y, ?_, rfl⟩
    cases an with
    | false => simpa using h1
    | true =>
      simp only [if_true] at h1
      cases hc : conv c.2.1.stripLowCardinality c.2.2 with
      | ok z => rw [hc] at h1; exact h1
      | err e => rw [hc] at h1; cases h1
      | panic => rw [hc] at h1; cases h1

theorem absorb_step {α σ τ : Type} {f : Field α} {fs : Fields σ τ} {get : σ → α} {slot : τ → FieldSlot α} {p : Nat}
    (h : FieldAt f fs get slot p) (hA : Apart fs) {sr : Option Ty → α → Res Value} {conv : Ty → Value → Res α} {an : Bool}
    (hk : f.kind = .plain sr conv an) (hsd : f.skipDe = false)
    {i : Nat} {c : Cell} {cells : List Cell} {t t' : τ} (hb : fs.absorb i (c :: cells) t = .ok t') :
    ∃ t1, fs.absorb (i + 1) cells t1 = .ok t' ∧
      ((GoesTo fs f p i c ∧ (slot t).val = none ∧ ∃ y, conv c.2.1.stripLowCardinality c.2.2 = .ok y ∧ (slot t1).val = some y) ∨
       (¬ GoesTo fs f p i c ∧ slot t1 = slot t)) := by
  have hfl : f.flattened = false := by unfold Field.flattened; rw [hk]
  have hsk : f.skip = false := by simp [Field.skip, hsd, hfl]
  have hw : f.width = 1 := by unfold Field.width Field.innerCount; rw [hk]; rfl
  have hcl : ∀ n, Claims f n ↔ n = f.name := by
    intro n; unfold Claims; rw [hk]; simp [KindClaims, hsd]
  unfold absorb at hb
  rw [Res.bind_eq_ok] at hb
  obtain ⟨t1, h1, h2⟩ := hb
  refine ⟨t1, h2, ?_⟩
  cases hn : fs.byName c t with
  | some r =>
    rw [hn] at h1
    dsimp only at h1
    subst h1
    obtain ⟨a, b⟩ := byName_at h hA c t t1 hn
    by_cases hc : Claims f c.1
    · obtain ⟨l, _, hp⟩ := a hc
      obtain ⟨p1, p2⟩ := put_plain hk hp
      exact .inl ⟨.inl ((hcl _).mp hc), p1, p2⟩
    · refine .inr ⟨?_, b hc⟩
      rintro (hg | ⟨_, hg, _⟩)
      · exact hc ((hcl _).mpr hg)
      · rw [(byName_none fs c t).mpr hg] at hn; cases hn
  | none =>
    rw [hn] at h1
    dsimp only at h1
    have hncl := (byName_none fs c t).mp hn
    by_cases hf : fs.anyFlatten = true
    · rw [if_pos hf] at h1
      cases h1
      refine .inr ⟨?_, rfl⟩
      rintro (hg | ⟨hg, _⟩)
      · exact hncl (fieldAt_claim h ((hcl _).mpr hg))
      · rw [hf] at hg; cases hg
    rw [if_neg hf] at h1
    have hf' : fs.anyFlatten = false := by simpa using hf
    obtain ⟨a, b⟩ := byIndex_at h hsk i c t t1 h1
    rw [hw] at a b
    by_cases hi : i = p
    · obtain ⟨p1, p2⟩ := put_plain hk (a ⟨by omega, by omega⟩)
      exact .inl ⟨.inr ⟨hf', hncl, hi⟩, p1, p2⟩
    · refine .inr ⟨?_, b (by omega)⟩
      rintro (hg | ⟨_, _, hg⟩)
      · exact hncl (fieldAt_claim h ((hcl _).mpr hg))
      · exact hi hg

theorem absorb_source {α σ τ : Type} {f : Field α} {fs : Fields σ τ} {get : σ → α} {slot : τ → FieldSlot α} {p : Nat}
    (h : FieldAt f fs get slot p) (hA : Apart fs) {sr : Option Ty → α → Res Value} {conv : Ty → Value → Res α} {an : Bool}
    (hk : f.kind = .plain sr conv an) (hsd : f.skipDe = false) (cells : List Cell) :
    ∀ (i : Nat) (t t' : τ), fs.absorb i cells t = .ok t' →
    ((∀ (j : Nat) c, cells[j]? = some c → ¬ GoesTo fs f p (i + j) c) ∧ (slot t').val = (slot t).val) ∨
    ((slot t).val = none ∧ ∃ (j : Nat) (c : Cell) (y : α), cells[j]? = some c ∧ GoesTo fs f p (i + j) c ∧
      (∀ (j' : Nat) c', cells[j']? = some c' → GoesTo fs f p (i + j') c' → j' = j) ∧
      conv c.2.1.stripLowCardinality c.2.2 = .ok y ∧ (slot t').val = some y) := by
  induction cells with
  | nil =>
    intro i t t' hb
    simp only [absorb, Res.ok.injEq] at hb
    subst hb
    exact .inl ⟨fun j c hc => by simp at hc, rfl⟩
  | cons c cells ih =>
    intro i t t' hb
    obtain ⟨t1, h1, h2⟩ := absorb_step h hA hk hsd hb
    have hidx : ∀ (j : Nat), i + 1 + j = i + (j + 1) := by intro j; omega
    rcases ih _ _ _ h1 with ⟨q1, q2⟩ | ⟨q1, j, c1, y, r1, r2, r3, r4, r5⟩
    · rcases h2 with ⟨g1, g2, y, g3, g4⟩ | ⟨g1, g2⟩
      · refine .inr ⟨g2, 0, c, y, rfl, g1, ?_, g3, by rw [q2, g4]⟩
        intro j' c' hc' hg
        cases j' with
        | zero => rfl
        | succ j' => exact absurd (hidx j' ▸ hg) (q1 j' c' (by simpa using hc'))
      · refine .inl ⟨?_, by rw [q2, g2]⟩
        intro j' c' hc'
        cases j' with
        | zero => simp at hc'; subst hc'; exact g1
        | succ j' => exact hidx j' ▸ q1 j' c' (by simpa using hc')
    · rcases h2 with ⟨g1, g2, z, g3, g4⟩ | ⟨g1, g2⟩
      · rw [g4] at q1; cases q1
      · refine .inr ⟨by rw [← g2]; exact q1, j + 1, c1, y, by simpa using r1, hidx j ▸ r2, ?_, r4, r5⟩
        intro j' c' hc' hg
        cases j' with
        | zero => simp at hc'; subst hc'; exact absurd hg g1
        | succ j' => rw [r3 j' c' (by simpa using hc') (by rw [hidx]; exact hg)]

theorem finish_at {α σ τ : Type} {f : Field α} {fs : Fields σ τ} {get : σ → α} {slot : τ → FieldSlot α} {p : Nat}
    (h : FieldAt f fs get slot p) {sr : Option Ty → α → Res Value} {conv : Ty → Value → Res α} {an : Bool}
    (hk : f.kind = .plain sr conv an) (hsd : f.skipDe = false) :
    ∀ (d : Option σ) (t1 t2 t3 : τ) (fl : List Cell) (x : σ), fs.rectify t1 = .ok t2 → fs.settle d t2 = .ok t3 → fs.build d t3 fl = .ok x →
    (slot t1).val = some (get x) ∨ ((slot t1).val = none ∧ f.missing (d.map get) = .ok (get x)) := by
  have hfl : f.flattened = false := by unfold Field.flattened; rw [hk]
  have hsk : f.skip = false := by simp [Field.skip, hsd, hfl]
  induction h with
  | here fs =>
    rintro d ⟨s1, u1⟩ ⟨s2, u2⟩ ⟨s3, u3⟩ fl ⟨x, xs⟩ h1 h2 h3
    simp only [rectify, Res.bind_eq_ok, Res.ok.injEq, Prod.mk.injEq] at h1
    obtain ⟨a, ha, _, _, rfl, _⟩ := h1
    simp only [settle, Res.bind_eq_ok, Res.ok.injEq, Prod.mk.injEq] at h2
    obtain ⟨b, hb, _, _, rfl, _⟩ := h2
    simp only [build, Res.bind_eq_ok, Res.ok.injEq, Prod.mk.injEq] at h3
    obtain ⟨⟨c, fl'⟩, hc, _, _, rfl, _⟩ := h3
    have e1 : a = s1 := by
      unfold Field.rectify at ha
      rw [hsk, hk] at ha
      simp only [Bool.false_eq_true, if_false, Field.rectifyKind, Res.ok.injEq] at ha
      exact ha.symm
    subst e1
    have e2 : b.val = some c := by
      unfold Field.build at hc
      rw [hsd, hk] at hc
      simp only [Bool.false_eq_true, if_false] at hc
      cases hv : b.val with
      | none => rw [hv] at hc; cases hc
      | some z => rw [hv] at hc; simp only [Res.ok.injEq, Prod.mk.injEq] at hc; rw [hc.1]
    unfold Field.settle at hb
    rw [hsk] at hb
    simp only [Bool.false_eq_true, if_false] at hb
    cases hv : a.val with
    | some z =>
      rw [hv] at hb
      simp only [Res.ok.injEq] at hb
      subst hb
      left
      rw [hv] at e2
      exact e2
    | none =>
      rw [hv] at hb
      simp only [Res.bind_eq_ok, Res.ok.injEq] at hb
      obtain ⟨z, hm, rfl⟩ := hb
      right
      simp only [Option.some.injEq] at e2
      subst e2
      exact ⟨rfl, hm⟩
  | there g h ih =>
    rintro d ⟨s1, u1⟩ ⟨s2, u2⟩ ⟨s3, u3⟩ fl ⟨x, xs⟩ h1 h2 h3
    simp only [rectify, Res.bind_eq_ok, Res.ok.injEq, Prod.mk.injEq] at h1
    obtain ⟨_, _, a, ha, _, rfl⟩ := h1
    simp only [settle, Res.bind_eq_ok, Res.ok.injEq, Prod.mk.injEq] at h2
    obtain ⟨_, _, b, hb, _, rfl⟩ := h2
    simp only [build, Res.bind_eq_ok, Res.ok.injEq, Prod.mk.injEq] at h3
    obtain ⟨⟨c, fl'⟩, _, z, hz, _, rfl⟩ := h3
    have := ih (d.map Prod.snd) u1 a b fl' z ha hb hz
    simp only [Option.map_map] at this
    exact this

theorem empty_at {α σ τ : Type} {f : Field α} {fs : Fields σ τ} {get : σ → α} {slot : τ → FieldSlot α} {p : Nat}
    (h : FieldAt f fs get slot p) : (slot fs.empty).val = none := by
  induction h with
  | here => rfl
  | there g h ih => exact ih

theorem de_source {α σ τ : Type} {f : Field α} {fs : Fields σ τ} {get : σ → α} {slot : τ → FieldSlot α} {p : Nat}
    (h : FieldAt f fs get slot p) (hA : Apart fs) {sr : Option Ty → α → Res Value} {conv : Ty → Value → Res α} {an : Bool}
    (hk : f.kind = .plain sr conv an) (hsd : f.skipDe = false) (hf : fs.anyFlatten = false) (d : Option σ) (cells : List Cell) (x : σ)
    (hde : fs.de d cells = .ok x) :
    (∃ (j : Nat) (c : Cell), cells[j]? = some c ∧ GoesTo fs f p j c ∧ (∀ (j' : Nat) c', cells[j']? = some c' → GoesTo fs f p j' c' → j' = j) ∧
      conv c.2.1.stripLowCardinality c.2.2 = .ok (get x)) ∨
    ((∀ (j : Nat) c, cells[j]? = some c → ¬ GoesTo fs f p j c) ∧ f.missing (d.map get) = .ok (get x)) := by
  unfold de at hde
  rw [Res.bind_eq_ok] at hde
  obtain ⟨_, _, hde⟩ := hde
  rw [pull_none fs hf, Res.bind_ok] at hde
  simp only [Res.bind_eq_ok] at hde
  obtain ⟨t1, h1, t2, h2, t3, h3, h4⟩ := hde
  have hfin := finish_at h hk hsd d t1 t2 t3 _ x h2 h3 h4
  have hem := empty_at h
  rcases absorb_source h hA hk hsd cells 0 _ _ h1 with ⟨q1, q2⟩ | ⟨_, j, c, y, r1, r2, r3, r4, r5⟩
  · simp only [Nat.zero_add] at q1
    rw [q2, hem] at hfin
    rcases hfin with hfin | hfin
    · cases hfin
    · exact .inr ⟨q1, hfin.2⟩
  · simp only [Nat.zero_add] at r2 r3
    left
    refine ⟨j, c, r1, r2, r3, ?_⟩
    rw [r5] at hfin
    rcases hfin with hfin | hfin
    · rw [r4, Option.some.inj hfin]
    · cases hfin.1

theorem swapRemove_some {β : Type} {m : IMap β} {k : Str} {v : β} {rest : IMap β} (h : m.swapRemove k = (some v, rest)) : m.Perm ((k, v) :: rest) := by
  unfold IMap.swapRemove at h
  cases hf : m.findIdx? (fun e => e.1 == k) with
  | none => rw [hf] at h; cases h
  | some i =>
    rw [hf] at h
    simp only [Prod.mk.injEq] at h
    obtain ⟨h1, rfl⟩ := h
    obtain ⟨l, w, r, hm, hl, hnl⟩ := IMap.findIdx_some hf
    have hw : w = v := by
      have : m.get k = some w := by
        rw [hm]
        clear hm hf h1 hl
        induction l with
        | nil => simp [IMap.get_cons]
        | cons e l ih =>
          obtain ⟨k', v'⟩ := e
          simp only [IMap.keys, List.map_cons, List.mem_cons, not_or] at hnl
          rw [List.cons_append, IMap.get_cons, if_neg (fun hc => hnl.1 hc.symm)]
          exact ih hnl.2
      rw [this] at h1; exact Option.some.inj h1
    subst hw
    unfold IMap.swapRest
    rcases List.eq_nil_or_concat r with hr | ⟨r', x, hr⟩
    · subst hr
      have : i + 1 = m.length := by rw [hm]; simp; omega
      rw [if_pos this, hm, List.dropLast_concat]
      exact (List.perm_append_comm (l₁ := l) (l₂ := [(k, w)]))
    · have hr' : r = r' ++ [x] := by simpa using hr
      have hm' : m = (l ++ (k, w) :: r') ++ [x] := by rw [hm, hr']; simp
      have : ¬ i + 1 = m.length := by rw [hm']; simp; omega
      rw [if_neg this]
      have e1 : m.getLast? = some x := by rw [hm']; exact List.getLast?_concat
      have e2 : m.dropLast = l ++ (k, w) :: r' := by rw [hm']; exact List.dropLast_concat
      rw [e1, e2]
      dsimp only
      rw [← hl, List.set_append_right _ _ (Nat.le_refl _)]
      simp only [Nat.sub_self, List.set_cons_zero]
      rw [hm']
      have p1 : (l ++ (k, w) :: r' ++ [x]).Perm (l ++ ((k, w) :: x :: r')) := by
        rw [List.append_assoc]
        exact List.Perm.append_left l (by
          exact (List.Perm.cons _ (List.perm_append_comm (l₁ := r') (l₂ := [x]))))
      exact p1.trans List.perm_middle

theorem pullNames_perm (ident : Str) (names : List Str) : ∀ (cells flat rest flat' : List Cell),
    Field.pullNames ident names cells flat = .ok (rest, flat') → ∃ taken : List Cell, taken.map Prod.fst = names ∧ cells.Perm (taken ++ rest) := by
  induction names with
  | nil =>
    intro cells flat rest flat' h
    simp only [Field.pullNames, Res.ok.injEq, Prod.mk.injEq] at h
    exact ⟨[], rfl, by rw [h.1]; exact List.Perm.refl _⟩
  | cons n names ih =>
    intro cells flat rest flat' h
    unfold Field.pullNames at h
    cases hs : IMap.swapRemove cells n with
    | mk o r =>
      rw [hs] at h
      cases o with
      | none => cases h
      | some x =>
        obtain ⟨taken, h1, h2⟩ := ih _ _ _ _ h
        exact ⟨(n, x) :: taken, by simp [h1], (swapRemove_some hs).trans (List.Perm.cons _ h2)⟩

theorem pull_perm {σ τ : Type} (fs : Fields σ τ) : ∀ (cells flat rest flat' : List Cell), fs.pull cells flat = .ok (rest, flat') →
    ∃ taken : List Cell, taken.map Prod.fst = flattenedNames fs ∧ cells.Perm (taken ++ rest) := by
  induction fs with
  | nil =>
    intro cells flat rest flat' h
    simp only [pull, Res.ok.injEq, Prod.mk.injEq] at h
    exact ⟨[], rfl, by rw [h.1]; exact List.Perm.refl _⟩
  | cons f fs ih =>
    intro cells flat rest flat' h
    unfold pull at h
    rw [Res.bind_eq_ok] at h
    obtain ⟨⟨r, fl⟩, h1, h2⟩ := h
    obtain ⟨t2, a1, a2⟩ := ih _ _ _ _ h2
    unfold Field.pull at h1
    unfold flattenedNames
    cases hk : f.kind with
    | plain =>
      rw [hk] at h1
      simp only [Res.ok.injEq, Prod.mk.injEq] at h1
      exact ⟨t2, by simp [a1], by rw [h1.1]; exact a2⟩
    | nested =>
      rw [hk] at h1
      simp only [Res.ok.injEq, Prod.mk.injEq] at h1
      exact ⟨t2, by simp [a1], by rw [h1.1]; exact a2⟩
    | flatten inner =>
      rw [hk] at h1
      dsimp only at h1
      cases hn : inner.columnNames with
      | none => rw [hn] at h1; cases h1
      | some names =>
        rw [hn] at h1
        obtain ⟨t1, b1, b2⟩ := pullNames_perm f.ident names _ _ _ _ h1
        refine ⟨t1 ++ t2, by simp [a1, b1, hn], ?_⟩
        rw [List.append_assoc]
        exact b2.trans (List.Perm.append_left t1 a2)

theorem filter_unique {cells : List Cell} {q : Cell → Bool} {j : Nat} {c : Cell} (hj : cells[j]? = some c) (hc : q c = true)
    (hu : ∀ (j' : Nat) c', cells[j']? = some c' → q c' = true → j' = j) : cells.filter q = [c] := by
  induction cells generalizing j with
  | nil => simp at hj
  | cons e cells ih =>
    cases j with
    | zero =>
      simp only [List.getElem?_cons_zero, Option.some.injEq] at hj
      subst hj
      rw [List.filter_cons_of_pos hc, filter_none]
      intro c' hc'
      obtain ⟨k, hk⟩ := List.getElem?_of_mem hc'
      cases hq : q c' with
      | false => rfl
      | true => have := hu (k + 1) c' (by simpa using hk) hq; omega
    | succ j =>
      have hq : q e = false := by
        cases hq : q e with
        | false => rfl
        | true => have := hu 0 e rfl hq; omega
      rw [List.filter_cons_of_neg (by simp [hq])]
      exact ih (by simpa using hj) (fun j' c' h1 h2 => by have := hu (j' + 1) c' (by simpa using h1) h2; omega)

theorem de_source_flat {α σ τ : Type} {f : Field α} {fs : Fields σ τ} {get : σ → α} {slot : τ → FieldSlot α} {p : Nat}
    (h : FieldAt f fs get slot p) (hA : Apart fs) {sr : Option Ty → α → Res Value} {conv : Ty → Value → Res α} {an : Bool}
    (hk : f.kind = .plain sr conv an) (hsd : f.skipDe = false) (hf : fs.anyFlatten = true) (hnf : f.name ∉ flattenedNames fs)
    (d : Option σ) (cells : List Cell) (x : σ) (hde : fs.de d cells = .ok x) :
    (∃ c : Cell, cells.filter (fun c => c.1 == f.name) = [c] ∧ conv c.2.1.stripLowCardinality c.2.2 = .ok (get x)) ∨
    (cells.filter (fun c => c.1 == f.name) = [] ∧ f.missing (d.map get) = .ok (get x)) := by
  unfold de at hde
  rw [Res.bind_eq_ok] at hde
  obtain ⟨_, _, hde⟩ := hde
  rw [Res.bind_eq_ok] at hde
  obtain ⟨⟨rest, flat⟩, h0, hde⟩ := hde
  simp only [Res.bind_eq_ok] at hde
  obtain ⟨t1, h1, t2, h2, t3, h3, h4⟩ := hde
  obtain ⟨taken, k1, k2⟩ := pull_perm fs _ _ _ _ h0
  have hfil : (cells.filter (fun c => c.1 == f.name)).Perm (rest.filter (fun c => c.1 == f.name)) := by
    have := k2.filter (fun c => c.1 == f.name)
    rw [List.filter_append, filter_none (l := taken)] at this
    · exact this
    · intro c hc
      cases hq : c.1 == f.name with
      | false => rfl
      | true =>
        have : c.1 = f.name := by simpa using hq
        exact absurd (by rw [← k1, ← this]; exact List.mem_map.mpr ⟨c, hc, rfl⟩) hnf
  have hgoes : ∀ i c, GoesTo fs f p i c ↔ c.1 = f.name := by
    intro i c
    constructor
    · rintro (hg | ⟨hg, _⟩)
      · exact hg
      · rw [hf] at hg; cases hg
    · exact .inl
  have hfin := finish_at h hk hsd d t1 t2 t3 _ x h2 h3 h4
  have hem := empty_at h
  rcases absorb_source h hA hk hsd rest 0 _ _ h1 with ⟨q1, q2⟩ | ⟨_, j, c, y, r1, r2, r3, r4, r5⟩
  · rw [q2, hem] at hfin
    rcases hfin with hfin | hfin
    · cases hfin
    · refine .inr ⟨?_, hfin.2⟩
      have : rest.filter (fun c => c.1 == f.name) = [] := by
        apply filter_none
        intro c hc
        obtain ⟨k, hk⟩ := List.getElem?_of_mem hc
        have := q1 k c hk
        rw [hgoes] at this
        simpa using this
      rw [this] at hfil
      exact hfil.eq_nil
  · left
    refine ⟨c, ?_, ?_⟩
    · have : rest.filter (fun c => c.1 == f.name) = [c] := by
        refine filter_unique r1 (by simpa using (hgoes _ _).mp r2) ?_
        intro j' c' h1 h2
        exact r3 j' c' h1 ((hgoes _ _).mpr (by simpa using h2))
      rw [this] at hfil
      exact List.perm_singleton.mp hfil
    · rw [r5] at hfin
      rcases hfin with hfin | hfin
      · rw [r4, Option.some.inj hfin]
      · cases hfin.1

end Fields
end Klick
