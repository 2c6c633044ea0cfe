import Verif.Spec.Convert
import Verif.CodecSafe
/-
What comes out of the column reader, on any bytes, has the shape of the column's type.
-/
namespace Klick
open Spec

theorem rep_all {α : Type} {P : α → Prop} {x : Rd α} (hx : ∀ s a s', x s = .ok (a, s') → P a) :
    ∀ (n : Nat) (s s' : Bytes) (r : List α), Rd.rep n x s = .ok (r, s') → ∀ a ∈ r, P a := by
  intro n
  induction n with
  | zero =>
    intro s s' r h
    simp only [Rd.rep, Rd.pure_apply, Res.ok.injEq, Prod.mk.injEq] at h
    intro a ha; rw [← h.1] at ha; cases ha
  | succ n ih =>
    intro s s' r h
    simp only [Rd.rep, Rd.bind_eq_ok] at h
    obtain ⟨a, s1, h1, as, s2, h2, h3⟩ := h
    simp only [Rd.pure_apply, Res.ok.injEq, Prod.mk.injEq] at h3
    intro b hb
    rw [← h3.1] at hb
    rcases List.mem_cons.mp hb with rfl | hb
    · exact hx _ _ _ h1
    · exact ih _ _ _ h2 b hb

theorem mapL_all {α β : Type} {P : β → Prop} {f : α → Res β} {xs : List α} {ys : List β}
    (h : Res.mapL f xs = .ok ys) (hf : ∀ x ∈ xs, ∀ y, f x = .ok y → P y) : ∀ y ∈ ys, P y := by
  induction xs generalizing ys with
  | nil => simp only [Res.mapL, Res.ok.injEq] at h; intro y hy; rw [← h] at hy; cases hy
  | cons x xs ih =>
    simp only [Res.mapL, Res.bind_eq_ok] at h
    obtain ⟨y, h1, ys', h2, h3⟩ := h
    simp only [Res.ok.injEq] at h3
    intro z hz
    rw [← h3] at hz
    rcases List.mem_cons.mp hz with rfl | hz
    · exact hf x (List.mem_cons_self ..) _ h1
    · exact ih h2 (fun a ha => hf a (List.mem_cons_of_mem _ ha)) z hz

theorem splitOffsets_all {α : Type} {P : α → Prop} {cfg : Cfg} (os : List Nat) :
    ∀ (prev : Nat) (items : List α) (r : List (List α)),
      splitOffsets cfg prev os items = .ok r → (∀ a ∈ items, P a) → ∀ xs ∈ r, ∀ a ∈ xs, P a := by
  induction os with
  | nil =>
    intro p i r h _ xs hxs
    simp only [splitOffsets, Res.ok.injEq] at h; rw [← h] at hxs; cases hxs
  | cons o os ih =>
    intro p i r h hP
    have key : ∀ n, (∃ r', splitOffsets cfg o os (i.drop n) = .ok r' ∧ r = i.take n :: r') →
        ∀ xs ∈ r, ∀ a ∈ xs, P a := by
      rintro n ⟨r', h1, rfl⟩ xs hxs a ha
      rcases List.mem_cons.mp hxs with rfl | hxs
      · exact hP a (List.mem_of_mem_take ha)
      · exact ih _ _ _ h1 (fun b hb => hP b (List.mem_of_mem_drop hb)) xs hxs a ha
    simp only [splitOffsets] at h
    split at h
    · split at h
      · cases h
      · rw [Res.bind_eq_ok] at h
        obtain ⟨r', h1, h2⟩ := h
        exact key _ ⟨r', h1, (Res.ok.inj h2).symm⟩
    · rw [Res.bind_eq_ok] at h
      obtain ⟨r', h1, h2⟩ := h
      exact key _ ⟨r', h1, (Res.ok.inj h2).symm⟩

theorem deArr_all {α : Type} {P : α → Prop} {cfg : Cfg} {inner : Nat → Rd (List α)} {n : Nat} {s s' : Bytes}
    {r : List (List α)} (h : deArr cfg inner n s = .ok (r, s'))
    (hi : ∀ m s s' xs, inner m s = .ok (xs, s') → ∀ a ∈ xs, P a) : ∀ xs ∈ r, ∀ a ∈ xs, P a := by
  unfold deArr at h
  split at h
  · simp only [Rd.pure_apply, Res.ok.injEq, Prod.mk.injEq] at h
    intro xs hxs; rw [← h.1] at hxs; cases hxs
  · simp only [Rd.bind_eq_ok] at h
    obtain ⟨os, s1, h1, items, s2, h2, h3⟩ := h
    exact splitOffsets_all _ _ _ _ (Rd.lift_eq_ok h3).1 (hi _ _ _ _ h2)

theorem splitMap_all {P Q : Value → Prop} (os : List Nat) :
    ∀ (prev : Nat) (ks vs : List Value) (r : List Value),
      splitMap prev os ks vs = .ok r → (∀ a ∈ ks, P a) → (∀ a ∈ vs, Q a) →
      ∀ x ∈ r, ∃ ks' vs', x = .map ks' vs' ∧ ks'.length = vs'.length ∧ (∀ a ∈ ks', P a) ∧ (∀ a ∈ vs', Q a) := by
  induction os with
  | nil =>
    intro p k v r h _ _ x hx
    simp only [splitMap, Res.ok.injEq] at h; rw [← h] at hx; cases hx
  | cons o os ih =>
    intro p k v r h hP hQ x hx
    simp only [splitMap] at h
    split at h
    · cases h
    · rename_i hn
      rw [Res.bind_eq_ok] at h
      obtain ⟨r', h1, h2⟩ := h
      have h2 := Res.ok.inj h2
      rw [← h2] at hx
      rcases List.mem_cons.mp hx with rfl | hx
      · refine ⟨_, _, rfl, ?_, fun a ha => hP a (List.mem_of_mem_take ha), fun a ha => hQ a (List.mem_of_mem_take ha)⟩
        simp only [List.length_take]; omega
      · exact ih _ _ _ _ h1 (fun b hb => hP b (List.mem_of_mem_drop hb)) (fun b hb => hQ b (List.mem_of_mem_drop hb)) x hx

theorem deMap_all {P Q : Value → Prop} {key value : Nat → Rd (List Value)} {n : Nat} {s s' : Bytes}
    {r : List Value} (h : deMap key value n s = .ok (r, s'))
    (hk : ∀ m s s' xs, key m s = .ok (xs, s') → ∀ a ∈ xs, P a)
    (hv : ∀ m s s' xs, value m s = .ok (xs, s') → ∀ a ∈ xs, Q a) :
    ∀ x ∈ r, ∃ ks' vs', x = .map ks' vs' ∧ ks'.length = vs'.length ∧ (∀ a ∈ ks', P a) ∧ (∀ a ∈ vs', Q a) := by
  unfold deMap at h
  split at h
  · simp only [Rd.pure_apply, Res.ok.injEq, Prod.mk.injEq] at h
    intro x hx; rw [← h.1] at hx; cases hx
  · simp only [Rd.bind_eq_ok] at h
    obtain ⟨os, s1, h1, ks, s2, h2, h3⟩ := h
    split at h3
    · cases h3
    · rw [Rd.bind_eq_ok] at h3
      obtain ⟨vs, s3, h3, h4⟩ := h3
      split at h4
      · cases h4
      · exact splitMap_all _ _ _ _ _ (Rd.lift_eq_ok h4).1 (hk _ _ _ _ h2) (hv _ _ _ _ h3)

theorem applyMask_all {P : Value → Prop} (ms : List Byte) : ∀ (vs r : List Value),
    applyMask ms vs = .ok r → (∀ a ∈ vs, P a) → ∀ a ∈ r, a = .null ∨ P a := by
  induction ms with
  | nil => intro vs r h hP a ha; simp only [applyMask, Res.ok.injEq] at h; rw [← h] at ha; exact .inr (hP a ha)
  | cons m ms ih =>
    intro vs r h hP
    cases vs with
    | nil =>
      simp only [applyMask] at h
      split at h
      · cases h
      · exact ih _ _ h hP
    | cons v vs =>
      simp only [applyMask] at h
      rw [Res.bind_eq_ok] at h
      obtain ⟨r', h1, h2⟩ := h
      intro a ha
      rw [← Res.ok.inj h2] at ha
      rcases List.mem_cons.mp ha with rfl | ha
      · split
        · exact .inl rfl
        · exact .inr (hP v (List.mem_cons_self ..))
      · exact ih _ _ h1 (fun b hb => hP b (List.mem_cons_of_mem _ hb)) a ha

theorem lcResolve_all {P : Value → Prop} {nullable a g : Bool} {add glob : List Value} {e : Nat} {v : Value}
    (h : lcResolve nullable a g add glob e = .ok v) (ha : ∀ x ∈ add, P x) (hg : ∀ x ∈ glob, P x) :
    (nullable = true ∧ v = .null) ∨ P v := by
  have get : ∀ (xs : List Value) (i : Nat), (∀ x ∈ xs, P x) → ∀ bad : Res Value, (∀ w, bad ≠ .ok w) →
      (match xs[i]? with | some v => Res.ok v | none => bad) = .ok v → P v := by
    intro xs i hxs bad hb hm
    cases hx : xs[i]? with
    | none => rw [hx] at hm; exact absurd hm (hb _)
    | some w =>
      rw [hx] at hm
      have := Res.ok.inj hm
      subst this
      exact hxs w (List.mem_of_getElem? hx)
  unfold lcResolve at h
  simp only at h
  split at h
  · split at h
    · rename_i hn
      rw [Bool.and_eq_true] at hn
      exact .inl ⟨hn.1, (Res.ok.inj h).symm⟩
    · exact .inr (get _ _ ha _ (by intro w hw; cases hw) h)
  · split at h
    · exact .inr (get _ _ hg _ (by intro w hw; cases hw) h)
    · split at h
      · rename_i hn
        rw [Bool.and_eq_true] at hn
        exact .inl ⟨hn.1, (Res.ok.inj h).symm⟩
      · split at h
        · exact .inr (get _ _ ha _ (by intro w hw; cases hw) h)
        · exact .inr (get _ _ hg _ (by intro w hw; cases hw) h)

theorem lcLoop_all {P : Value → Prop} {dict : Nat → Rd (List Value)} {nullable : Bool}
    (hd : ∀ m s s' xs, dict m s = .ok (xs, s') → ∀ a ∈ xs, P a) (fuel : Nat) :
    ∀ (limit : Nat) (g : Option (List Value)) (out : List Value) (s s' : Bytes) (r : List Value),
      lcLoop dict nullable fuel limit g out s = .ok (r, s') →
      (∀ d, g = some d → ∀ a ∈ d, P a) → (∀ a ∈ out, (nullable = true ∧ a = .null) ∨ P a) →
      ∀ a ∈ r, (nullable = true ∧ a = .null) ∨ P a := by
  induction fuel with
  | zero => intro l g o s s' r h; simp [lcLoop] at h
  | succ fuel ih =>
    intro l g o s s' r h hg ho
    simp only [lcLoop] at h
    split at h
    · simp only [Rd.pure_apply, Res.ok.injEq, Prod.mk.injEq] at h; rw [← h.1]; exact ho
    · rw [Rd.bind_eq_ok] at h
      obtain ⟨flags, s1, h1, h⟩ := h
      cases hw : lcWidth flags with
      | none => rw [hw] at h; simp at h
      | some w =>
        rw [hw] at h
        simp only [Rd.bind_eq_ok] at h
        obtain ⟨g', s2, h2, add, s3, h3, pending, s4, _, idx, s5, h5, vals, s6, h6, h7⟩ := h
        have hg' : ∀ d, g' = some d → ∀ a ∈ d, P a := by
          split at h2
          · simp only [Rd.bind_eq_ok] at h2
            obtain ⟨n, t1, _, d, t2, hdd, h2⟩ := h2
            simp only [Rd.pure_apply, Res.ok.injEq, Prod.mk.injEq] at h2
            intro d' e
            rw [← h2.1] at e
            cases e
            exact hd _ _ _ _ hdd
          · simp only [Rd.pure_apply, Res.ok.injEq, Prod.mk.injEq] at h2
            rw [← h2.1]; exact hg
        have hadd : ∀ a ∈ add, P a := by
          split at h3
          · simp only [Rd.bind_eq_ok] at h3
            obtain ⟨n, t1, _, hdd⟩ := h3
            exact hd _ _ _ _ hdd
          · simp only [Rd.pure_apply, Res.ok.injEq, Prod.mk.injEq] at h3
            rw [← h3.1]; intro a ha; cases ha
        have hglob : ∀ a ∈ g'.getD [], P a := by
          cases g' with
          | none => intro a ha; cases ha
          | some d => exact hg' d rfl
        have hv : ∀ a ∈ vals, (nullable = true ∧ a = .null) ∨ P a := by
          split at h6
          · exact mapL_all (Rd.lift_eq_ok h6).1 (fun x _ y hy => lcResolve_all hy hadd hglob)
          · simp only [Rd.pure_apply, Res.ok.injEq, Prod.mk.injEq] at h6
            rw [← h6.1]; intro a ha; cases ha
        refine ih _ _ _ _ _ _ h7 hg' ?_
        intro a ha
        rcases List.mem_append.mp ha with ha | ha
        · exact ho a ha
        · exact hv a ha

theorem deLc_all {P : Value → Prop} {dict : Nat → Rd (List Value)} {nullable : Bool} {n : Nat} {s s' : Bytes}
    {r : List Value} (h : deLc dict nullable n s = .ok (r, s'))
    (hd : ∀ m s s' xs, dict m s = .ok (xs, s') → ∀ a ∈ xs, P a) :
    ∀ a ∈ r, (nullable = true ∧ a = .null) ∨ P a :=
  lcLoop_all hd _ _ _ _ _ _ _ h (by intro d e; cases e) (by intro a ha; cases ha)

theorem deSized1_shaped {cfg : Cfg} {t : Ty} {s s' : Bytes} {v : Value} (h : deSized1 cfg t s = .ok (v, s')) :
    Shaped t v := by
  cases t <;> first
    | (simp only [deSized1, Rd.bind_eq_ok] at h
       obtain ⟨x, s1, _, h2⟩ := h
       simp only [Rd.pure_apply, Res.ok.injEq, Prod.mk.injEq] at h2
       exact ⟨_, h2.1.symm⟩)
    | (simp only [deSized1, Rd.bind_eq_ok] at h
       obtain ⟨x, s1, _, y, s2, _, h2⟩ := h
       simp only [Rd.pure_apply, Res.ok.injEq, Prod.mk.injEq] at h2
       exact ⟨_, h2.1.symm⟩)
    | (simp only [deSized1, Rd.bind_eq_ok] at h
       obtain ⟨x, s1, _, h2⟩ := h
       split at h2
       · simp only [Rd.pure_apply, Res.ok.injEq, Prod.mk.injEq] at h2
         exact ⟨_, h2.1.symm⟩
       · cases h2)
    | (simp [deSized1] at h)

/-- Pushing a column onto rows: every row stays or gets one value of the column at its end. -/
theorem pushCol_rows {P : Value → Prop} {R : List Value → Prop} (acc : List (List Value)) :
    ∀ (vs : List Value) (r : List (List Value)), pushCol acc vs = .ok r → (∀ v ∈ vs, P v) → (∀ x ∈ acc, R x) →
    ∀ y ∈ r, ∃ x, R x ∧ (y = x ∨ ∃ v, P v ∧ y = x ++ [v]) := by
  induction acc with
  | nil =>
    intro vs r h hv hR
    cases vs with
    | nil => simp only [pushCol, Res.ok.injEq] at h; rw [← h]; intro y hy; cases hy
    | cons => cases h
  | cons a acc ih =>
    intro vs r h hv hR
    cases vs with
    | nil =>
      simp only [pushCol, Res.ok.injEq] at h
      rw [← h]
      intro y hy
      exact ⟨y, hR y hy, .inl rfl⟩
    | cons v vs =>
      simp only [pushCol, Res.bind_eq_ok] at h
      obtain ⟨r', h1, h2⟩ := h
      intro y hy
      rw [← Res.ok.inj h2] at hy
      rcases List.mem_cons.mp hy with rfl | hy
      · exact ⟨a, hR a (List.mem_cons_self ..), .inr ⟨v, hv v (List.mem_cons_self ..), rfl⟩⟩
      · exact ih _ _ h1 (fun w hw => hv w (List.mem_cons_of_mem _ hw)) (fun w hw => hR w (List.mem_cons_of_mem _ hw)) y hy

theorem shapedAll_snoc : ∀ (ts : List Ty) (xs : List Value) (t : Ty) (x : Value), ShapedAll ts xs → Shaped t x →
    ShapedAll (ts ++ [t]) (xs ++ [x])
  | [], xs, t, x, h, hx => by
    simp only [ShapedAll] at h
    subst h
    exact ⟨x, [], rfl, hx, rfl⟩
  | u :: ts, xs, t, x, h, hx => by
    obtain ⟨y, ys, rfl, h1, h2⟩ := h
    exact ⟨y, ys ++ [x], rfl, h1, shapedAll_snoc ts ys t x h2 hx⟩

/-- A partly filled tuple row. -/
def RowSoFar (done : List Ty) (r : List Value) : Prop :=
  r.length ≤ done.length ∧ (r.length = done.length → ShapedAll done r)

theorem RowSoFar.step {done : List Ty} {t : Ty} {x y : List Value} (hx : RowSoFar done x)
    (h : y = x ∨ ∃ v, Shaped t v ∧ y = x ++ [v]) : RowSoFar (done ++ [t]) y := by
  rcases h with rfl | ⟨v, hv, rfl⟩
  · refine ⟨by rw [List.length_append]; have := hx.1; simp; omega, ?_⟩
    intro e
    rw [List.length_append] at e
    have := hx.1
    simp at e
    omega
  · refine ⟨by have := hx.1; simp; omega, ?_⟩
    intro e
    exact shapedAll_snoc _ _ _ _ (hx.2 (by simpa using e)) hv

mutual
/-- On any bytes: a value read from a column has the shape of the column's type. -/
theorem deCol_shaped {cfg : Cfg} : ∀ (t : Ty) (n : Nat) (s s' : Bytes) (vs : List Value),
    deCol cfg t n s = .ok (vs, s') → ∀ v ∈ vs, Shaped t v
  | .string, n, s, s', vs, h => by
    refine rep_all (P := Shaped .string) ?_ _ _ _ _ (guardRows_eq_ok h).2
    intro s a s' h
    simp only [Rd.bind_eq_ok] at h
    obtain ⟨b, s1, _, h2⟩ := h
    simp only [Rd.pure_apply, Res.ok.injEq, Prod.mk.injEq] at h2
    exact ⟨b, h2.1.symm⟩
  | .fixedString k, n, s, s', vs, h => by
    refine rep_all (P := Shaped (.fixedString k)) ?_ _ _ _ _ (guardRows_eq_ok h).2
    intro s a s' h
    split at h
    · cases h
    simp only [Rd.bind_eq_ok] at h
    obtain ⟨b, s1, _, h2⟩ := h
    simp only [Rd.pure_apply, Res.ok.injEq, Prod.mk.injEq] at h2
    exact ⟨_, h2.1.symm⟩
  | .array t, n, s, s', vs, h => by
    have h := (guardRows_eq_ok h).2
    rw [Rd.bind_eq_ok] at h
    obtain ⟨xss, s1, h1, h2⟩ := h
    simp only [Rd.pure_apply, Res.ok.injEq, Prod.mk.injEq] at h2
    intro v hv
    rw [← h2.1] at hv
    obtain ⟨xs, hxs, rfl⟩ := List.mem_map.mp hv
    exact ⟨xs, rfl, deArr_all h1 (fun m s s' ys hy => deCol_shaped t m s s' ys hy) xs hxs⟩
  | .tuple ts, n, s, s', vs, h => by
    have h := (guardRows_eq_ok h).2
    rw [Rd.bind_eq_ok] at h
    obtain ⟨xss, s1, h1, h2⟩ := h
    simp only [Rd.pure_apply, Res.ok.injEq, Prod.mk.injEq] at h2
    intro v hv
    rw [← h2.1] at hv
    obtain ⟨xs, hxs, rfl⟩ := List.mem_map.mp hv
    refine ⟨xs, rfl, ?_⟩
    have := deCols_shaped ts [] n _ _ _ _ h1 (by
      intro r hr
      rw [List.eq_of_mem_replicate hr]
      exact ⟨Nat.le_refl _, fun _ => rfl⟩) xs hxs
    exact this.2
  | .point, n, s, s', vs, h => by
    simp only [deCol, Rd.bind_eq_ok] at h
    obtain ⟨xss, s1, h1, h2⟩ := h
    simp only [Rd.pure_apply, Res.ok.injEq, Prod.mk.injEq] at h2
    intro v hv
    rw [← h2.1] at hv
    obtain ⟨xs, hxs, rfl⟩ := List.mem_map.mp hv
    exact ⟨xs, rfl⟩
  | .ring, n, s, s', vs, h => by
    simp only [deCol, Rd.bind_eq_ok] at h
    obtain ⟨xss, s1, h1, h2⟩ := h
    simp only [Rd.pure_apply, Res.ok.injEq, Prod.mk.injEq] at h2
    intro v hv
    rw [← h2.1] at hv
    obtain ⟨xs, hxs, rfl⟩ := List.mem_map.mp hv
    exact ⟨xs, rfl⟩
  | .polygon, n, s, s', vs, h => by
    simp only [deCol, Rd.bind_eq_ok] at h
    obtain ⟨xss, s1, h1, h2⟩ := h
    simp only [Rd.pure_apply, Res.ok.injEq, Prod.mk.injEq] at h2
    intro v hv
    rw [← h2.1] at hv
    obtain ⟨xs, hxs, rfl⟩ := List.mem_map.mp hv
    exact ⟨xs, rfl⟩
  | .multiPolygon, n, s, s', vs, h => by
    simp only [deCol, Rd.bind_eq_ok] at h
    obtain ⟨xss, s1, h1, h2⟩ := h
    simp only [Rd.pure_apply, Res.ok.injEq, Prod.mk.injEq] at h2
    intro v hv
    rw [← h2.1] at hv
    obtain ⟨xs, hxs, rfl⟩ := List.mem_map.mp hv
    exact ⟨xs, rfl⟩
  | .nullable t, n, s, s', vs, h => by
    have h := (guardRows_eq_ok h).2
    simp only [Rd.bind_eq_ok] at h
    obtain ⟨mask, s1, _, out, s2, h2, h3⟩ := h
    exact applyMask_all _ _ _ (Rd.lift_eq_ok h3).1 (deCol_shaped t n _ _ _ h2)
  | .map k v, n, s, s', vs, h =>
    deMap_all (guardRows_eq_ok h).2 (fun m s s' ys hy => deCol_shaped k m s s' ys hy)
      (fun m s s' ys hy => deCol_shaped v m s s' ys hy)
  | .lowCardinality t, n, s, s', vs, h => by
    by_cases hn : t.isNullable = true
    · match t, hn, h with
      | .nullable u, _, h =>
        intro v hv
        rcases deLc_all (guardRows_eq_ok h).2 (fun m s s' ys hy => deCol_shaped u m s s' ys hy) v hv with h | h
        · exact .inl h.2
        · exact .inr h
    · have e := deCol_lc_nonnull (cfg := cfg) (Bool.eq_false_iff.mpr hn) n
      rw [e] at h
      intro v hv
      rcases deLc_all (guardRows_eq_ok h).2 (fun m s s' ys hy => deCol_shaped t m s s' ys hy) v hv with h | h
      · exact absurd h.1 Bool.false_ne_true
      · exact h
  | .int8, n, s, s', vs, h => rep_all (fun _ _ _ => deSized1_shaped) _ _ _ _ (guardRows_eq_ok h).2
  | .int16, n, s, s', vs, h => rep_all (fun _ _ _ => deSized1_shaped) _ _ _ _ (guardRows_eq_ok h).2
  | .int32, n, s, s', vs, h => rep_all (fun _ _ _ => deSized1_shaped) _ _ _ _ (guardRows_eq_ok h).2
  | .int64, n, s, s', vs, h => rep_all (fun _ _ _ => deSized1_shaped) _ _ _ _ (guardRows_eq_ok h).2
  | .int128, n, s, s', vs, h => rep_all (fun _ _ _ => deSized1_shaped) _ _ _ _ (guardRows_eq_ok h).2
  | .int256, n, s, s', vs, h => rep_all (fun _ _ _ => deSized1_shaped) _ _ _ _ (guardRows_eq_ok h).2
  | .uint8, n, s, s', vs, h => rep_all (fun _ _ _ => deSized1_shaped) _ _ _ _ (guardRows_eq_ok h).2
  | .uint16, n, s, s', vs, h => rep_all (fun _ _ _ => deSized1_shaped) _ _ _ _ (guardRows_eq_ok h).2
  | .uint32, n, s, s', vs, h => rep_all (fun _ _ _ => deSized1_shaped) _ _ _ _ (guardRows_eq_ok h).2
  | .uint64, n, s, s', vs, h => rep_all (fun _ _ _ => deSized1_shaped) _ _ _ _ (guardRows_eq_ok h).2
  | .uint128, n, s, s', vs, h => rep_all (fun _ _ _ => deSized1_shaped) _ _ _ _ (guardRows_eq_ok h).2
  | .uint256, n, s, s', vs, h => rep_all (fun _ _ _ => deSized1_shaped) _ _ _ _ (guardRows_eq_ok h).2
  | .float32, n, s, s', vs, h => rep_all (fun _ _ _ => deSized1_shaped) _ _ _ _ (guardRows_eq_ok h).2
  | .float64, n, s, s', vs, h => rep_all (fun _ _ _ => deSized1_shaped) _ _ _ _ (guardRows_eq_ok h).2
  | .bfloat16, n, s, s', vs, h => rep_all (fun _ _ _ => deSized1_shaped) _ _ _ _ (guardRows_eq_ok h).2
  | .decimal32 _, n, s, s', vs, h => rep_all (fun _ _ _ => deSized1_shaped) _ _ _ _ (guardRows_eq_ok h).2
  | .decimal64 _, n, s, s', vs, h => rep_all (fun _ _ _ => deSized1_shaped) _ _ _ _ (guardRows_eq_ok h).2
  | .decimal128 _, n, s, s', vs, h => rep_all (fun _ _ _ => deSized1_shaped) _ _ _ _ (guardRows_eq_ok h).2
  | .decimal256 _, n, s, s', vs, h => rep_all (fun _ _ _ => deSized1_shaped) _ _ _ _ (guardRows_eq_ok h).2
  | .uuid, n, s, s', vs, h => rep_all (fun _ _ _ => deSized1_shaped) _ _ _ _ (guardRows_eq_ok h).2
  | .date, n, s, s', vs, h => rep_all (fun _ _ _ => deSized1_shaped) _ _ _ _ (guardRows_eq_ok h).2
  | .dateTime _, n, s, s', vs, h => rep_all (fun _ _ _ => deSized1_shaped) _ _ _ _ (guardRows_eq_ok h).2
  | .dateTime64 _ _, n, s, s', vs, h => rep_all (fun _ _ _ => deSized1_shaped) _ _ _ _ (guardRows_eq_ok h).2
  | .ipv4, n, s, s', vs, h => rep_all (fun _ _ _ => deSized1_shaped) _ _ _ _ (guardRows_eq_ok h).2
  | .ipv6, n, s, s', vs, h => rep_all (fun _ _ _ => deSized1_shaped) _ _ _ _ (guardRows_eq_ok h).2
  | .enum8 _, n, s, s', vs, h => rep_all (fun _ _ _ => deSized1_shaped) _ _ _ _ (guardRows_eq_ok h).2
  | .enum16 _, n, s, s', vs, h => rep_all (fun _ _ _ => deSized1_shaped) _ _ _ _ (guardRows_eq_ok h).2
/-- Tuple columns, member by member. -/
theorem deCols_shaped {cfg : Cfg} : ∀ (ts done : List Ty) (n : Nat) (acc r : List (List Value)) (s s' : Bytes),
    deCols cfg ts n acc s = .ok (r, s') → (∀ x ∈ acc, RowSoFar done x) → ∀ y ∈ r, RowSoFar (done ++ ts) y
  | [], done, n, acc, r, s, s', h, ha => by
    simp only [deCols, Rd.pure_apply, Res.ok.injEq, Prod.mk.injEq] at h
    rw [← h.1, List.append_nil]; exact ha
  | t :: ts, done, n, acc, r, s, s', h, ha => by
    simp only [deCols, Rd.bind_eq_ok] at h
    obtain ⟨vs, s1, h1, acc', s2, h2, h3⟩ := h
    have hv := deCol_shaped t n _ _ _ h1
    have := deCols_shaped ts (done ++ [t]) n acc' r _ _ h3 (by
      intro y hy
      obtain ⟨x, hx, h⟩ := pushCol_rows acc vs acc' (Rd.lift_eq_ok h2).1 hv ha y hy
      exact hx.step h)
    simpa using this
end

end Klick
