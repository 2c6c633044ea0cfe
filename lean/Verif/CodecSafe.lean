import Verif.CodecMain
import Verif.Spec.Layout
/-
What holds of the column reader on arbitrary bytes: row counts and absence of panics.
-/
namespace Klick
open Spec

theorem Res.mapL_length {α β : Type} {f : α → Res β} {xs : List α} {ys : List β}
    (h : Res.mapL f xs = .ok ys) : ys.length = xs.length := by
  induction xs generalizing ys with
  | nil => simp only [Res.mapL, Res.ok.injEq] at h; simp [← h]
  | cons x xs ih =>
    simp only [Res.mapL, Res.bind_eq_ok] at h
    obtain ⟨y, _, ys', h2, h3⟩ := h
    simp only [Res.ok.injEq] at h3
    simp [← h3, ih h2]

theorem Res.mapL_ne_panic {α β : Type} {f : α → Res β} (hf : ∀ x, f x ≠ .panic) (xs : List α) :
    Res.mapL f xs ≠ .panic := by
  induction xs with
  | nil => simp [Res.mapL]
  | cons x xs ih =>
    intro h
    simp only [Res.mapL, Res.bind_eq_panic] at h
    rcases h with h | ⟨y, _, h | ⟨ys, _, h⟩⟩
    · exact hf _ h
    · exact ih h
    · cases h

theorem Rd.lift_eq_ok {α : Type} {r : Res α} {a : α} {s s' : Bytes}
    (h : Rd.lift r s = .ok (a, s')) : r = .ok a ∧ s = s' := by
  cases r <;> simp_all [Rd.lift]

theorem Rd.lift_ne_panic {α : Type} {r : Res α} (h : r ≠ .panic) (s : Bytes) :
    Rd.lift r s ≠ .panic := by
  cases r <;> simp_all [Rd.lift]

theorem Rd.bind_ne_panic {α β : Type} {x : Rd α} {f : α → Rd β} (hx : ∀ s, x s ≠ .panic)
    (hf : ∀ s a s', x s = .ok (a, s') → f a s' ≠ .panic) : ∀ s, (x >>= f) s ≠ .panic := by
  intro s h
  rw [Rd.bind_eq_panic] at h
  rcases h with h | ⟨a, s', h1, h2⟩
  · exact hx _ h
  · exact hf _ _ _ h1 h2

theorem guardRows_eq_ok {α : Type} {n : Nat} {body : Rd α} {s : Bytes} {r : α × Bytes}
    (h : guardRows n body s = .ok r) : n ≤ 2 ^ 30 ∧ body s = .ok r := by
  unfold guardRows at h
  split at h
  · cases h
  · refine ⟨?_, h⟩
    simp only [maxStringSize] at *; omega

theorem guardRows_ne_panic {α : Type} {n : Nat} {body : Rd α} (h : ∀ s, body s ≠ .panic) :
    ∀ s, guardRows n body s ≠ .panic := by
  intro s
  unfold guardRows
  split
  · simp
  · exact h s

/-! ### row counts -/

theorem splitOffsets_length {α : Type} {cfg : Cfg} (os : List Nat) :
    ∀ (prev : Nat) (items : List α) (r : List (List α)),
      splitOffsets cfg prev os items = .ok r → r.length = os.length := by
  induction os with
  | nil => intro p i r h; simp only [splitOffsets, Res.ok.injEq] at h; simp [← h]
  | cons o os ih =>
    intro p i r h
    simp only [splitOffsets] at h
    split at h
    · split at h
      · cases h
      · rw [Res.bind_eq_ok] at h
        obtain ⟨r', h1, h2⟩ := h
        simp only [Res.ok.injEq] at h2
        simp [← h2, ih _ _ _ h1]
    · rw [Res.bind_eq_ok] at h
      obtain ⟨r', h1, h2⟩ := h
      simp only [Res.ok.injEq] at h2
      simp [← h2, ih _ _ _ h1]

theorem deArr_length {α : Type} {cfg : Cfg} {inner : Nat → Rd (List α)} {n : Nat} {s s' : Bytes}
    {r : List (List α)} (h : deArr cfg inner n s = .ok (r, s')) : r.length = n := by
  unfold deArr at h
  split at h
  · rename_i hn
    simp only [Rd.pure_apply, Res.ok.injEq, Prod.mk.injEq] at h
    simp [← h.1, hn]
  · simp only [Rd.bind_eq_ok] at h
    obtain ⟨os, s1, h1, items, s2, _, h3⟩ := h
    have := splitOffsets_length _ _ _ _ (Rd.lift_eq_ok h3).1
    rw [this, rep_length h1]

theorem splitMap_length (os : List Nat) :
    ∀ (prev : Nat) (ks vs : List Value) (r : List Value),
      splitMap prev os ks vs = .ok r → r.length = os.length := by
  induction os with
  | nil => intro p k v r h; simp only [splitMap, Res.ok.injEq] at h; simp [← h]
  | cons o os ih =>
    intro p k v r h
    simp only [splitMap] at h
    split at h
    · cases h
    · rw [Res.bind_eq_ok] at h
      obtain ⟨r', h1, h2⟩ := h
      simp only [Res.ok.injEq] at h2
      simp [← h2, ih _ _ _ _ h1]

theorem deMap_length {key value : Nat → Rd (List Value)} {n : Nat} {s s' : Bytes}
    {r : List Value} (h : deMap key value n s = .ok (r, s')) : r.length = n := by
  unfold deMap at h
  split at h
  · rename_i hn
    simp only [Rd.pure_apply, Res.ok.injEq, Prod.mk.injEq] at h
    simp [← h.1, hn]
  · simp only [Rd.bind_eq_ok] at h
    obtain ⟨os, s1, h1, ks, s2, _, h3⟩ := h
    split at h3
    · cases h3
    · rw [Rd.bind_eq_ok] at h3
      obtain ⟨vs, s3, _, h4⟩ := h3
      split at h4
      · cases h4
      · rw [splitMap_length _ _ _ _ _ (Rd.lift_eq_ok h4).1, rep_length h1]

theorem applyMask_length_le (ms : List Byte) : ∀ (vs r : List Value),
    applyMask ms vs = .ok r → r.length = vs.length := by
  induction ms with
  | nil => intro vs r h; simp only [applyMask, Res.ok.injEq] at h; simp [h]
  | cons m ms ih =>
    intro vs r h
    cases vs with
    | nil =>
      simp only [applyMask] at h
      split at h
      · cases h
      · exact ih _ _ h
    | cons v vs =>
      simp only [applyMask] at h
      rw [Res.bind_eq_ok] at h
      obtain ⟨r', h1, h2⟩ := h
      simp only [Res.ok.injEq] at h2
      simp [← h2, ih _ _ h1]

theorem pushCol_length (acc : List (List Value)) : ∀ (vs : List Value) (r : List (List Value)),
    pushCol acc vs = .ok r → r.length = acc.length := by
  induction acc with
  | nil =>
    intro vs r h
    cases vs with
    | nil => simp only [pushCol, Res.ok.injEq] at h; simp [← h]
    | cons => cases h
  | cons a acc ih =>
    intro vs r h
    cases vs with
    | nil => simp only [pushCol, Res.ok.injEq] at h; simp [← h]
    | cons v vs =>
      simp only [pushCol, Res.bind_eq_ok] at h
      obtain ⟨r', h1, h2⟩ := h
      simp only [Res.ok.injEq] at h2
      simp [← h2, ih _ _ h1]

theorem dePts_length {n : Nat} {s s' : Bytes} {r : List Pt} (h : dePts n s = .ok (r, s')) :
    r.length = n := by
  unfold dePts at h
  have := (guardRows_eq_ok h).2
  simp only [Rd.bind_eq_ok] at this
  obtain ⟨xs, s1, h1, ys, s2, h2, h3⟩ := this
  simp only [Rd.pure_apply, Res.ok.injEq, Prod.mk.injEq] at h3
  simp [← h3.1, rep_length h1, rep_length h2]

theorem lcLoop_length {dict : Nat → Rd (List Value)} {nullable : Bool} (fuel : Nat) :
    ∀ (limit : Nat) (g : Option (List Value)) (out : List Value) (s s' : Bytes) (r : List Value),
      lcLoop dict nullable fuel limit g out s = .ok (r, s') → r.length ≤ out.length + limit := by
  induction fuel with
  | zero => intro l g o s s' r h; simp [lcLoop] at h
  | succ fuel ih =>
    intro l g o s s' r h
    simp only [lcLoop] at h
    split at h
    · simp only [Rd.pure_apply, Res.ok.injEq, Prod.mk.injEq] at h; simp [← h.1]
    · rw [Rd.bind_eq_ok] at h
      obtain ⟨flags, s1, h1, h⟩ := h
      cases hw : lcWidth flags with
      | none => rw [hw] at h; simp at h
      | some w =>
        rw [hw] at h
        simp only [Rd.bind_eq_ok] at h
        obtain ⟨g', s2, _, add, s3, _, pending, s4, _, idx, s5, h5, vals, s6, h6, h7⟩ := h
        have hidx := rep_length (guardRows_eq_ok h5).2
        have hv : vals.length ≤ idx.length := by
          split at h6
          · exact Nat.le_of_eq (Res.mapL_length (Rd.lift_eq_ok h6).1)
          · simp only [Rd.pure_apply, Res.ok.injEq, Prod.mk.injEq] at h6; simp [← h6.1]
        have := ih _ _ _ _ _ _ h7
        simp only [List.length_append] at this
        omega

theorem deLc_length {dict : Nat → Rd (List Value)} {nullable : Bool} {n : Nat} {s s' : Bytes}
    {r : List Value} (h : deLc dict nullable n s = .ok (r, s')) : r.length ≤ n := by
  have := lcLoop_length _ _ _ _ _ _ _ h
  simpa using this

theorem deSized_length {cfg : Cfg} {t : Ty} {n : Nat} {s s' : Bytes} {vs : List Value}
    (h : guardRows n (deSized cfg t n) s = .ok (vs, s')) : vs.length = n :=
  rep_length (guardRows_eq_ok h).2

theorem deCols_length {cfg : Cfg} : ∀ (ts : List Ty) (n : Nat) (acc r : List (List Value))
    (s s' : Bytes), deCols cfg ts n acc s = .ok (r, s') → r.length = acc.length
  | [], n, acc, r, s, s', h => by
    simp only [deCols, Rd.pure_apply, Res.ok.injEq, Prod.mk.injEq] at h; simp [← h.1]
  | t :: ts, n, acc, r, s, s', h => by
    simp only [deCols, Rd.bind_eq_ok] at h
    obtain ⟨vs, s1, _, acc', s2, h2, h3⟩ := h
    have := pushCol_length _ _ _ (Rd.lift_eq_ok h2).1
    rw [deCols_length ts n acc' r _ _ h3, this]

/-- On any bytes: never more rows than asked for, and exactly as many when no `LowCardinality` is
involved. -/
theorem deCol_rows {cfg : Cfg} : ∀ (t : Ty) (n : Nat) (s s' : Bytes) (vs : List Value),
    deCol cfg t n s = .ok (vs, s') → vs.length ≤ n ∧ (rowsByIndex t = false → vs.length = n)
  | .string, n, s, s', vs, h => by
    have := rep_length (guardRows_eq_ok h).2; exact ⟨by omega, fun _ => this⟩
  | .fixedString k, n, s, s', vs, h => by
    have := rep_length (guardRows_eq_ok h).2; exact ⟨by omega, fun _ => this⟩
  | .array t, n, s, s', vs, h => by
    have h := (guardRows_eq_ok h).2
    rw [Rd.bind_eq_ok] at h
    obtain ⟨xss, s1, h1, h2⟩ := h
    simp only [Rd.pure_apply, Res.ok.injEq, Prod.mk.injEq] at h2
    have := deArr_length h1
    rw [← h2.1, List.length_map]; exact ⟨by omega, fun _ => this⟩
  | .tuple ts, n, s, s', vs, h => by
    have h := (guardRows_eq_ok h).2
    rw [Rd.bind_eq_ok] at h
    obtain ⟨xss, s1, h1, h2⟩ := h
    simp only [Rd.pure_apply, Res.ok.injEq, Prod.mk.injEq] at h2
    have := deCols_length _ _ _ _ _ _ h1
    rw [List.length_replicate] at this
    rw [← h2.1, List.length_map]; exact ⟨by omega, fun _ => this⟩
  | .point, n, s, s', vs, h => by
    simp only [deCol, Rd.bind_eq_ok] at h
    obtain ⟨xss, s1, h1, h2⟩ := h
    simp only [Rd.pure_apply, Res.ok.injEq, Prod.mk.injEq] at h2
    have := dePts_length h1
    rw [← h2.1, List.length_map]; exact ⟨by omega, fun _ => this⟩
  | .ring, n, s, s', vs, h => by
    simp only [deCol, Rd.bind_eq_ok] at h
    obtain ⟨xss, s1, h1, h2⟩ := h
    simp only [Rd.pure_apply, Res.ok.injEq, Prod.mk.injEq] at h2
    have := deArr_length (guardRows_eq_ok h1).2
    rw [← h2.1, List.length_map]; exact ⟨by omega, fun _ => this⟩
  | .polygon, n, s, s', vs, h => by
    simp only [deCol, Rd.bind_eq_ok] at h
    obtain ⟨xss, s1, h1, h2⟩ := h
    simp only [Rd.pure_apply, Res.ok.injEq, Prod.mk.injEq] at h2
    have := deArr_length (guardRows_eq_ok h1).2
    rw [← h2.1, List.length_map]; exact ⟨by omega, fun _ => this⟩
  | .multiPolygon, n, s, s', vs, h => by
    simp only [deCol, Rd.bind_eq_ok] at h
    obtain ⟨xss, s1, h1, h2⟩ := h
    simp only [Rd.pure_apply, Res.ok.injEq, Prod.mk.injEq] at h2
    have := deArr_length (guardRows_eq_ok h1).2
    rw [← h2.1, List.length_map]; exact ⟨by omega, fun _ => this⟩
  | .nullable t, n, s, s', vs, h => by
    have h := (guardRows_eq_ok h).2
    simp only [Rd.bind_eq_ok] at h
    obtain ⟨mask, s1, _, out, s2, h2, h3⟩ := h
    have := applyMask_length_le _ _ _ (Rd.lift_eq_ok h3).1
    have ih := deCol_rows t n _ _ _ h2
    rw [this]; exact ih
  | .map k v, n, s, s', vs, h => by
    have := deMap_length (guardRows_eq_ok h).2; exact ⟨by omega, fun _ => this⟩
  | .lowCardinality t, n, s, s', vs, h => by
    refine ⟨?_, fun h => by simp [rowsByIndex] at h⟩
    cases t <;> exact deLc_length (guardRows_eq_ok h).2
  | .int8, n, s, s', vs, h => ⟨Nat.le_of_eq (deSized_length h), fun _ => deSized_length h⟩
  | .int16, n, s, s', vs, h => ⟨Nat.le_of_eq (deSized_length h), fun _ => deSized_length h⟩
  | .int32, n, s, s', vs, h => ⟨Nat.le_of_eq (deSized_length h), fun _ => deSized_length h⟩
  | .int64, n, s, s', vs, h => ⟨Nat.le_of_eq (deSized_length h), fun _ => deSized_length h⟩
  | .int128, n, s, s', vs, h => ⟨Nat.le_of_eq (deSized_length h), fun _ => deSized_length h⟩
  | .int256, n, s, s', vs, h => ⟨Nat.le_of_eq (deSized_length h), fun _ => deSized_length h⟩
  | .uint8, n, s, s', vs, h => ⟨Nat.le_of_eq (deSized_length h), fun _ => deSized_length h⟩
  | .uint16, n, s, s', vs, h => ⟨Nat.le_of_eq (deSized_length h), fun _ => deSized_length h⟩
  | .uint32, n, s, s', vs, h => ⟨Nat.le_of_eq (deSized_length h), fun _ => deSized_length h⟩
  | .uint64, n, s, s', vs, h => ⟨Nat.le_of_eq (deSized_length h), fun _ => deSized_length h⟩
  | .uint128, n, s, s', vs, h => ⟨Nat.le_of_eq (deSized_length h), fun _ => deSized_length h⟩
  | .uint256, n, s, s', vs, h => ⟨Nat.le_of_eq (deSized_length h), fun _ => deSized_length h⟩
  | .float32, n, s, s', vs, h => ⟨Nat.le_of_eq (deSized_length h), fun _ => deSized_length h⟩
  | .float64, n, s, s', vs, h => ⟨Nat.le_of_eq (deSized_length h), fun _ => deSized_length h⟩
  | .bfloat16, n, s, s', vs, h => ⟨Nat.le_of_eq (deSized_length h), fun _ => deSized_length h⟩
  | .decimal32 _, n, s, s', vs, h => ⟨Nat.le_of_eq (deSized_length h), fun _ => deSized_length h⟩
  | .decimal64 _, n, s, s', vs, h => ⟨Nat.le_of_eq (deSized_length h), fun _ => deSized_length h⟩
  | .decimal128 _, n, s, s', vs, h => ⟨Nat.le_of_eq (deSized_length h), fun _ => deSized_length h⟩
  | .decimal256 _, n, s, s', vs, h => ⟨Nat.le_of_eq (deSized_length h), fun _ => deSized_length h⟩
  | .uuid, n, s, s', vs, h => ⟨Nat.le_of_eq (deSized_length h), fun _ => deSized_length h⟩
  | .date, n, s, s', vs, h => ⟨Nat.le_of_eq (deSized_length h), fun _ => deSized_length h⟩
  | .dateTime _, n, s, s', vs, h => ⟨Nat.le_of_eq (deSized_length h), fun _ => deSized_length h⟩
  | .dateTime64 _ _, n, s, s', vs, h => ⟨Nat.le_of_eq (deSized_length h), fun _ => deSized_length h⟩
  | .ipv4, n, s, s', vs, h => ⟨Nat.le_of_eq (deSized_length h), fun _ => deSized_length h⟩
  | .ipv6, n, s, s', vs, h => ⟨Nat.le_of_eq (deSized_length h), fun _ => deSized_length h⟩
  | .enum8 _, n, s, s', vs, h => ⟨Nat.le_of_eq (deSized_length h), fun _ => deSized_length h⟩
  | .enum16 _, n, s, s', vs, h => ⟨Nat.le_of_eq (deSized_length h), fun _ => deSized_length h⟩

/-! ### no panic -/

theorem readLe_ne_panic (n w : Nat) : ∀ s, readLe n w s ≠ .panic := by
  unfold readLe
  exact Rd.bind_ne_panic (readExact_ne_panic n) (fun _ _ _ _ => by simp)

theorem deSized1_ne_panic {cfg : Cfg} {t : Ty} (hs : t.isSized = true)
    (hb : ¬ unsupported cfg t = true) : ∀ s, deSized1 cfg t s ≠ .panic := by
  cases t <;> first
    | (cases hs; done)
    | skip
  case bfloat16 =>
    refine Rd.bind_ne_panic (readLe_ne_panic _ _) (fun _ _ _ _ => ?_)
    rw [if_pos (by simpa [unsupported] using hb)]; simp
  case uuid =>
    exact Rd.bind_ne_panic (readLe_ne_panic _ _) (fun _ _ _ _ =>
      Rd.bind_ne_panic (readLe_ne_panic _ _) (fun _ _ _ _ => by simp) _)
  all_goals first
    | exact Rd.bind_ne_panic (readLe_ne_panic _ _) (fun _ _ _ _ => by simp)
    | exact Rd.bind_ne_panic (readExact_ne_panic _) (fun _ _ _ _ => by simp)

theorem scalar_ne_panic {cfg : Cfg} {t : Ty} (hs : t.isScalar = true)
    (hb : ¬ unsupported cfg t = true) (n : Nat) : ∀ s, deCol cfg t n s ≠ .panic := by
  by_cases hz : t.isSized = true
  · rw [deCol_sized hz]
    exact guardRows_ne_panic (rep_ne_panic (deSized1_ne_panic hz hb) n)
  · cases t <;> first
      | (cases hs; done)
      | (exact absurd rfl hz)
      | skip
    · exact guardRows_ne_panic (rep_ne_panic
        (Rd.bind_ne_panic readString_ne_panic (fun _ _ _ _ => by simp)) n)
    · rename_i k
      refine guardRows_ne_panic (rep_ne_panic ?_ n)
      rw [if_neg (show ¬ k > maxAlloc by simp [unsupported] at hb; unfold maxAlloc; omega)]
      exact Rd.bind_ne_panic (readExact_ne_panic _) (fun _ _ _ _ => by simp)

theorem splitOffsets_ne_panic {α : Type} {cfg : Cfg} (hc : cfg.overflowChecks = false)
    (os : List Nat) : ∀ (prev : Nat) (items : List α), splitOffsets cfg prev os items ≠ .panic := by
  induction os with
  | nil => intro p i; simp [splitOffsets]
  | cons o os ih =>
    intro p i h
    simp only [splitOffsets, hc, Bool.false_eq_true, if_false] at h
    split at h <;>
    · rw [Res.bind_eq_panic] at h
      rcases h with h | ⟨r, _, h⟩
      · exact ih _ _ h
      · cases h

theorem deArr_ne_panic {α : Type} {cfg : Cfg} (hc : cfg.overflowChecks = false)
    {inner : Nat → Rd (List α)} (hi : ∀ n s, inner n s ≠ .panic) (n : Nat) :
    ∀ s, deArr cfg inner n s ≠ .panic := by
  intro s
  unfold deArr
  split
  · simp
  · exact Rd.bind_ne_panic (rep_ne_panic readU64_ne_panic n)
      (fun _ _ _ _ => Rd.bind_ne_panic (hi _)
        (fun _ _ _ _ => Rd.lift_ne_panic (splitOffsets_ne_panic hc _ _ _) _) _) _

theorem dePts_ne_panic (n : Nat) : ∀ s, dePts n s ≠ .panic :=
  guardRows_ne_panic (Rd.bind_ne_panic (rep_ne_panic (readLe_ne_panic _ _) n)
    (fun _ _ _ _ => Rd.bind_ne_panic (rep_ne_panic (readLe_ne_panic _ _) n)
      (fun _ _ _ _ => by simp) _))

theorem geo_ne_panic {cfg : Cfg} {t : Ty} (hg : isGeo t = true)
    (ho : usesOffsets t = true → cfg.overflowChecks = false) (n : Nat) :
    ∀ s, deCol cfg t n s ≠ .panic := by
  cases t <;> first
    | (cases hg; done)
    | skip
  · exact Rd.bind_ne_panic (dePts_ne_panic n) (fun _ _ _ _ => by simp)
  · exact Rd.bind_ne_panic (guardRows_ne_panic (deArr_ne_panic (ho rfl) dePts_ne_panic n))
      (fun _ _ _ _ => by simp)
  · exact Rd.bind_ne_panic (guardRows_ne_panic (deArr_ne_panic (ho rfl)
      (fun n => guardRows_ne_panic (deArr_ne_panic (ho rfl) dePts_ne_panic n)) n))
      (fun _ _ _ _ => by simp)
  · exact Rd.bind_ne_panic (guardRows_ne_panic (deArr_ne_panic (ho rfl)
      (fun n => guardRows_ne_panic (deArr_ne_panic (ho rfl)
        (fun n => guardRows_ne_panic (deArr_ne_panic (ho rfl) dePts_ne_panic n)) n)) n))
      (fun _ _ _ _ => by simp)

theorem leaf_ne_panic {cfg : Cfg} {t : Ty} (hn : t.nullableRefused = false)
    (ho : usesOffsets t = true → cfg.overflowChecks = false)
    (hb : ¬ unsupported cfg t = true) (n : Nat) : ∀ s, deCol cfg t n s ≠ .panic := by
  rcases scalar_or_geo hn with h | h
  · exact scalar_ne_panic h hb n
  · exact geo_ne_panic h ho n

theorem applyMask_ne_panic (ms : List Byte) : ∀ (vs : List Value), ms.length = vs.length →
    applyMask ms vs ≠ .panic := by
  induction ms with
  | nil => intro vs _; simp [applyMask]
  | cons m ms ih =>
    intro vs hl h
    cases vs with
    | nil => simp at hl
    | cons v vs =>
      simp only [applyMask, Res.bind_eq_panic] at h
      rcases h with h | ⟨r, _, h⟩
      · exact ih vs (by simpa using hl) h
      · cases h

theorem pushCol_ne_panic (acc : List (List Value)) : ∀ (vs : List Value), vs.length ≤ acc.length →
    pushCol acc vs ≠ .panic := by
  induction acc with
  | nil =>
    intro vs hl
    cases vs with
    | nil => simp [pushCol]
    | cons => simp at hl
  | cons a acc ih =>
    intro vs hl h
    cases vs with
    | nil => simp [pushCol] at h
    | cons v vs =>
      simp only [pushCol, Res.bind_eq_panic] at h
      rcases h with h | ⟨r, _, h⟩
      · exact ih vs (by simpa using hl) h
      · cases h

theorem lcResolve_ne_panic (nullable a g : Bool) (add glob : List Value) (e : Nat) :
    lcResolve nullable a g add glob e ≠ .panic := by
  unfold lcResolve
  simp only
  split
  · split
    · simp
    · split <;> simp
  · split
    · split <;> simp
    · split
      · simp
      · split
        · split <;> simp
        · split <;> simp

theorem lcLoop_ne_panic {dict : Nat → Rd (List Value)} (hd : ∀ n s, dict n s ≠ .panic)
    (nullable : Bool) (fuel : Nat) : ∀ (limit : Nat) (g : Option (List Value)) (out : List Value)
      (s : Bytes), lcLoop dict nullable fuel limit g out s ≠ .panic := by
  induction fuel with
  | zero => intro l g o s; simp [lcLoop]
  | succ fuel ih =>
    intro l g o s
    simp only [lcLoop]
    split
    · simp
    · refine Rd.bind_ne_panic readU64_ne_panic (fun _ flags s1 _ => ?_) s
      cases lcWidth flags with
      | none => simp
      | some w =>
        refine Rd.bind_ne_panic ?_ (fun _ g' s2 _ => ?_) s1
        · split
          · exact Rd.bind_ne_panic readU64_ne_panic (fun _ _ _ _ =>
              Rd.bind_ne_panic (hd _) (fun _ _ _ _ => by simp) _)
          · simp
        · refine Rd.bind_ne_panic ?_ (fun _ add s3 _ => ?_) s2
          · split
            · exact Rd.bind_ne_panic readU64_ne_panic (fun _ _ _ _ => hd _ _)
            · simp
          · refine Rd.bind_ne_panic readU64_ne_panic (fun _ pending s4 _ => ?_) s3
            refine Rd.bind_ne_panic (guardRows_ne_panic (rep_ne_panic (Rd.bind_ne_panic
              (readExact_ne_panic _) (fun _ _ _ _ => by simp)) _)) (fun _ idx s5 _ => ?_) s4
            refine Rd.bind_ne_panic ?_ (fun _ vals s6 _ => ih _ _ _ _) s5
            intro s
            split
            · exact Rd.lift_ne_panic (Res.mapL_ne_panic (lcResolve_ne_panic _ _ _ _ _) _) _
            · simp

mutual
theorem deCol_ne_panic {cfg : Cfg} : ∀ (t : Ty), usesMap t = false → flatNullable t = true →
    (usesOffsets t = true → cfg.overflowChecks = false) → (¬ unsupported cfg t = true) →
    ∀ (n : Nat) (s : Bytes), deCol cfg t n s ≠ .panic
  | .array t, hm, hf, ho, hb, n, s => by
    simp only [usesMap, flatNullable, unsupported] at hm hf hb
    exact guardRows_ne_panic (Rd.bind_ne_panic (deArr_ne_panic (ho rfl)
      (deCol_ne_panic t hm hf (fun _ => ho rfl) hb) n) (fun _ _ _ _ => by simp)) s
  | .map _ _, hm, _, _, _, _, _ => by simp [usesMap] at hm
  | .nullable t, hm, hf, ho, hb, n, s => by
    simp only [usesMap, flatNullable, unsupported, usesOffsets] at hm hf hb ho
    have hr : t.nullableRefused = false := by simpa using hf
    refine guardRows_ne_panic (Rd.bind_ne_panic (readExact_ne_panic n) (fun _ mask s1 h1 =>
      Rd.bind_ne_panic (leaf_ne_panic hr ho hb n) (fun _ out s2 h2 => ?_) s1)) s
    refine Rd.lift_ne_panic (applyMask_ne_panic _ _ ?_) _
    have e1 := (readExact_ok h1).2
    have e2 := (deCol_rows t n _ _ _ h2).2 (by
      cases t <;> first | rfl | (cases hr; done))
    omega
  | .lowCardinality t, hm, hf, ho, hb, n, s => by
    simp only [usesMap, flatNullable, unsupported, usesOffsets] at hm hf hb ho
    have hr : t.stripNull.nullableRefused = false := by simpa using hf
    by_cases hnl : t.isNullable = true
    · cases t <;> first
        | (cases hnl; done)
        | skip
      rename_i t
      simp only [unsupported, usesOffsets] at hb ho
      exact guardRows_ne_panic (fun s => lcLoop_ne_panic (leaf_ne_panic hr ho hb) _ _ _ _ _ s) s
    · have hnl : t.isNullable = false := by simpa using hnl
      rw [deCol_lc_nonnull hnl]
      have hr' : t.nullableRefused = false := by
        cases t <;> first | exact hr | (cases hnl; done)
      exact guardRows_ne_panic (fun s => lcLoop_ne_panic (leaf_ne_panic hr' ho hb) _ _ _ _ _ s) s
  | .tuple ts, hm, hf, ho, hb, n, s => by
    simp only [usesMap, flatNullable, unsupported, usesOffsets] at hm hf hb ho
    exact guardRows_ne_panic (Rd.bind_ne_panic
      (deCols_ne_panic ts hm hf ho hb n _ (by simp)) (fun _ _ _ _ => by simp)) s
  | .point, _, _, ho, _, n, s => geo_ne_panic rfl ho n s
  | .ring, _, _, ho, _, n, s => geo_ne_panic rfl ho n s
  | .polygon, _, _, ho, _, n, s => geo_ne_panic rfl ho n s
  | .multiPolygon, _, _, ho, _, n, s => geo_ne_panic rfl ho n s
  | .string, _, _, _, hb, n, s => scalar_ne_panic rfl hb n s
  | .fixedString _, _, _, _, hb, n, s => scalar_ne_panic rfl hb n s
  | .int8, _, _, _, hb, n, s => scalar_ne_panic rfl hb n s
  | .int16, _, _, _, hb, n, s => scalar_ne_panic rfl hb n s
  | .int32, _, _, _, hb, n, s => scalar_ne_panic rfl hb n s
  | .int64, _, _, _, hb, n, s => scalar_ne_panic rfl hb n s
  | .int128, _, _, _, hb, n, s => scalar_ne_panic rfl hb n s
  | .int256, _, _, _, hb, n, s => scalar_ne_panic rfl hb n s
  | .uint8, _, _, _, hb, n, s => scalar_ne_panic rfl hb n s
  | .uint16, _, _, _, hb, n, s => scalar_ne_panic rfl hb n s
  | .uint32, _, _, _, hb, n, s => scalar_ne_panic rfl hb n s
  | .uint64, _, _, _, hb, n, s => scalar_ne_panic rfl hb n s
  | .uint128, _, _, _, hb, n, s => scalar_ne_panic rfl hb n s
  | .uint256, _, _, _, hb, n, s => scalar_ne_panic rfl hb n s
  | .float32, _, _, _, hb, n, s => scalar_ne_panic rfl hb n s
  | .float64, _, _, _, hb, n, s => scalar_ne_panic rfl hb n s
  | .bfloat16, _, _, _, hb, n, s => scalar_ne_panic rfl hb n s
  | .decimal32 _, _, _, _, hb, n, s => scalar_ne_panic rfl hb n s
  | .decimal64 _, _, _, _, hb, n, s => scalar_ne_panic rfl hb n s
  | .decimal128 _, _, _, _, hb, n, s => scalar_ne_panic rfl hb n s
  | .decimal256 _, _, _, _, hb, n, s => scalar_ne_panic rfl hb n s
  | .uuid, _, _, _, hb, n, s => scalar_ne_panic rfl hb n s
  | .date, _, _, _, hb, n, s => scalar_ne_panic rfl hb n s
  | .dateTime _, _, _, _, hb, n, s => scalar_ne_panic rfl hb n s
  | .dateTime64 _ _, _, _, _, hb, n, s => scalar_ne_panic rfl hb n s
  | .ipv4, _, _, _, hb, n, s => scalar_ne_panic rfl hb n s
  | .ipv6, _, _, _, hb, n, s => scalar_ne_panic rfl hb n s
  | .enum8 _, _, _, _, hb, n, s => scalar_ne_panic rfl hb n s
  | .enum16 _, _, _, _, hb, n, s => scalar_ne_panic rfl hb n s
theorem deCols_ne_panic {cfg : Cfg} : ∀ (ts : List Ty), usesMapAny ts = false →
    flatNullableAll ts = true → (usesOffsetsAny ts = true → cfg.overflowChecks = false) →
    (¬ unsupportedAny cfg ts = true) →
    ∀ (n : Nat) (acc : List (List Value)), acc.length = n →
      ∀ (s : Bytes), deCols cfg ts n acc s ≠ .panic
  | [], _, _, _, _, _, _, _, _ => by simp [deCols]
  | t :: ts, hm, hf, ho, hb, n, acc, hl, s => by
    simp only [usesMapAny, flatNullableAll, unsupportedAny, usesOffsetsAny, Bool.or_eq_false_iff,
      Bool.and_eq_true, Bool.or_eq_true] at hm hf hb ho
    simp only [deCols]
    refine Rd.bind_ne_panic (deCol_ne_panic t hm.1 hf.1 (fun h => ho (.inl h)) (fun h => hb (.inl h)) n)
      (fun _ vs s1 h1 => ?_) s
    refine Rd.bind_ne_panic (Rd.lift_ne_panic (pushCol_ne_panic _ _ ?_)) (fun _ acc' s2 h2 => ?_) s1
    · rw [hl]; exact (deCol_rows t n _ _ _ h1).1
    · exact deCols_ne_panic ts hm.2 hf.2 (fun h => ho (.inr h)) (fun h => hb (.inr h)) n acc'
        (by rw [pushCol_length _ _ _ (Rd.lift_eq_ok h2).1, hl]) _
end

end Klick
