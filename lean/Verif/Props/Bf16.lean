import Verif.Spec.Bf16
import Verif.Props.Numeric
import Verif.Props.TypeText
import Verif.Props.Query
/-
C60: BFloat16 with and without the feature.
-/
namespace Klick
open Spec Props

theorem holdsAny_iff : ∀ (xs : List Value), HoldsBf16Any xs ↔ ∃ x ∈ xs, HoldsBf16 x
  | [] => by simp [HoldsBf16Any]
  | x :: xs => by simp [HoldsBf16Any, holdsAny_iff xs]

theorem holdsAny_false {xs : List Value} (h : ∀ x ∈ xs, ¬HoldsBf16 x) : ¬HoldsBf16Any xs := by
  rw [holdsAny_iff]; rintro ⟨x, hx, hb⟩; exact h x hx hb

mutual
/-- Equal values agree on whether they contain a BFloat16. -/
theorem eqv_holds : ∀ (v w : Value), v.eqv w = true → (HoldsBf16 v ↔ HoldsBf16 w)
  | .array xs, w, h => by
    cases w <;> first | (cases h; done) | skip
    exact eqvs_holds xs _ h
  | .tuple xs, w, h => by
    cases w <;> first | (cases h; done) | skip
    exact eqvs_holds xs _ h
  | .map ks vs, w, h => by
    cases w <;> first | (cases h; done) | skip
    simp only [Value.eqv, Bool.and_eq_true] at h
    simp only [HoldsBf16]
    rw [eqvs_holds ks _ h.1, eqvs_holds vs _ h.2]
  | .int8 _, w, h | .int16 _, w, h | .int32 _, w, h | .int64 _, w, h | .int128 _, w, h | .int256 _, w, h
  | .uint8 _, w, h | .uint16 _, w, h | .uint32 _, w, h | .uint64 _, w, h | .uint128 _, w, h | .uint256 _, w, h
  | .float32 _, w, h | .float64 _, w, h | .bfloat16 _, w, h | .decimal32 _ _, w, h | .decimal64 _ _, w, h
  | .decimal128 _ _, w, h | .decimal256 _ _, w, h | .string _, w, h | .uuid _, w, h | .date _, w, h
  | .dateTime _ _, w, h | .dateTime64 _ _ _, w, h | .enum8 _, w, h | .enum16 _, w, h | .null, w, h
  | .ipv4 _, w, h | .ipv6 _, w, h | .point _, w, h | .ring _, w, h | .polygon _, w, h | .multiPolygon _, w, h => by
    cases w <;> first | (cases h; done) | exact Iff.rfl
theorem eqvs_holds : ∀ (vs ws : List Value), Value.eqvs vs ws = true → (HoldsBf16Any vs ↔ HoldsBf16Any ws)
  | [], ws, h => by
    cases ws with
    | nil => exact Iff.rfl
    | cons => cases h
  | v :: vs, ws, h => by
    cases ws with
    | nil => cases h
    | cons w ws =>
      simp only [Value.eqvs, Bool.and_eq_true] at h
      simp only [HoldsBf16Any]
      rw [eqv_holds v w h.1, eqvs_holds vs ws h.2]
end

/-! ### with the feature -/

/-- C60 with the feature: any list of 16-bit patterns, converted to column values and written, is the patterns in
little-endian order; reading the bytes and converting gives the same patterns, and nothing after them is touched. -/
theorem C60_roundtrip (cfg : Cfg) (hb : cfg.bf16 = true) (hint : Option Ty) (xs : List (BitVec 16))
    (hn : xs.length ≤ 2 ^ 30) (rest : Bytes) :
    ∃ vs bytes, Res.mapL (RT.toSql (.prim .bf16) hint) xs = .ok vs ∧ serCol cfg .bfloat16 vs = .ok bytes ∧
      bytes = (xs.map (fun x => leBytes 2 x.toNat)).flatten ∧
      deCol cfg .bfloat16 xs.length (bytes ++ rest) = .ok (vs, rest) ∧
      Res.mapL (RT.fromSql (.prim .bf16) .bfloat16) vs = .ok xs := by
  obtain ⟨vs, h1, h2, h3, h4⟩ := prim_wire cfg .bf16 .bfloat16 2 .bf16 rfl (fun _ => hb) (by intro h; cases h)
    (fun x => ⟨x, rfl⟩) hint xs hn rest
  exact ⟨vs, _, h1, h2, rfl, h3, h4⟩

example : serCol cfgDebug .bfloat16 [.bfloat16 0x3F80#16, .bfloat16 0x7FC1#16] =
    .ok [0x80, 0x3F, 0xC1, 0x7F] := rfl

/-! ### without it -/

/-- A parse result without BFloat16. -/
def Clean (r : Res Ty) : Prop := ∀ t, r = .ok t → usesBf16 t = false

theorem Clean.ite {c : Prop} [Decidable c] {a b : Res Ty} (ha : Clean a) (hb : Clean b) : Clean (if c then a else b) := by
  split <;> assumption
theorem Clean.ok {t : Ty} (h : usesBf16 t = false) : Clean (.ok t) := by
  intro u hu; rw [← Res.ok.inj hu]; exact h
theorem Clean.err {e : Err} : Clean (.err e) := by intro t h; cases h
theorem Clean.bind {α : Type} {r : Res α} {f : α → Res Ty} (h : ∀ a, r = .ok a → Clean (f a)) : Clean (r >>= f) := by
  intro t ht
  rw [Res.bind_eq_ok] at ht
  obtain ⟨a, h1, h2⟩ := ht
  exact h a h1 t h2

theorem noArgs_clean {cfg : Cfg} (hb : cfg.bf16 = false) (ident : Str) : Clean (noArgs cfg ident) := by
  unfold noArgs
  rw [hb]
  repeat (first | exact Clean.ok rfl | exact Clean.err | apply Clean.ite)

theorem usesAny_false : ∀ {ts : List Ty}, (∀ t ∈ ts, usesBf16 t = false) → usesBf16Any ts = false
  | [], _ => rfl
  | t :: ts, h => by
    simp only [usesBf16Any, h t (List.mem_cons_self ..), usesAny_false (fun u hu => h u (List.mem_cons_of_mem _ hu)), Bool.or_self]

theorem withArgs_clean {cfg : Cfg} {rec : Str → Res Ty} (hr : ∀ s, Clean (rec s)) (ident : Str) (args : List Str) :
    Clean (withArgs cfg rec ident args) := by
  unfold withArgs
  have h1 : ∀ (C : Ty → Ty), (∀ t, usesBf16 t = false → usesBf16 (C t) = false) → ∀ a,
      Clean (rec a >>= fun t => .ok (C t)) := by
    intro C hC a
    exact Clean.bind (fun t ht => Clean.ok (hC t (hr a t ht)))
  have hp : ∀ (C : Nat → Ty), (∀ n, usesBf16 (C n) = false) → ∀ a, Clean (parseNum a >>= fun s => .ok (C s)) := by
    intro C hC a
    exact Clean.bind (fun t _ => Clean.ok (hC t))
  apply Clean.ite
  · split
    · refine Clean.bind (fun p _ => Clean.bind (fun s _ => ?_))
      repeat (first | exact Clean.ok rfl | exact Clean.err | apply Clean.ite)
    · exact Clean.err
  apply Clean.ite
  · split
    · exact hp _ (fun _ => rfl) _
    · exact Clean.err
  apply Clean.ite
  · split
    · exact hp _ (fun _ => rfl) _
    · exact Clean.err
  apply Clean.ite
  · split
    · exact hp _ (fun _ => rfl) _
    · exact Clean.err
  apply Clean.ite
  · split
    · exact hp _ (fun _ => rfl) _
    · exact Clean.err
  apply Clean.ite
  · split
    · exact hp _ (fun _ => rfl) _
    · exact Clean.err
  apply Clean.ite
  · split
    · exact Clean.bind (fun _ _ => Clean.ok rfl)
    · exact Clean.err
  apply Clean.ite
  · split
    · refine Clean.bind (fun _ _ => Clean.bind (fun _ _ => ?_))
      apply Clean.ite
      · exact Clean.ok rfl
      · exact Clean.err
    · exact hp _ (fun _ => rfl) _
    · exact Clean.err
  apply Clean.ite
  · exact Clean.bind (fun _ _ => Clean.ok rfl)
  apply Clean.ite
  · exact Clean.bind (fun _ _ => Clean.ok rfl)
  apply Clean.ite
  · split
    · exact h1 .lowCardinality (fun _ h => h) _
    · exact Clean.err
  apply Clean.ite
  · split
    · exact h1 .array (fun _ h => h) _
    · exact Clean.err
  apply Clean.ite
  · exact Clean.err
  apply Clean.ite
  · refine Clean.bind (fun ts hts => Clean.ok ?_)
    exact usesAny_false (mapL_all hts (fun x _ y hy => hr _ y hy))
  apply Clean.ite
  · split
    · exact h1 .nullable (fun _ h => h) _
    · exact Clean.err
  apply Clean.ite
  · split
    · refine Clean.bind (fun k hk => Clean.bind (fun v hv => Clean.ok ?_))
      simp only [usesBf16, hr _ k hk, hr _ v hv, Bool.or_self]
    · exact Clean.err
  · exact Clean.err

theorem parseF_clean {cfg : Cfg} (hb : cfg.bf16 = false) : ∀ (n : Nat) (s : Str), Clean (parseF cfg n s)
  | 0, _ => Clean.err
  | n + 1, s => by
    unfold parseF parseStep
    apply Clean.ite
    · exact Clean.err
    apply Clean.ite
    · exact noArgs_clean hb _
    · exact Clean.bind (fun args _ => withArgs_clean (parseF_clean hb n) _ args)

/-- C60 without the feature, type names: no text whatsoever is read as a type mentioning BFloat16, at any depth. -/
theorem C60_name_refused (cfg : Cfg) (hb : cfg.bf16 = false) (s : Str) (t : Ty) (h : Ty.parse cfg s = .ok t) :
    usesBf16 t = false := parseF_clean hb _ s t h

/-- The plain name is refused with a parse error. -/
theorem C60_name_error (cfg : Cfg) : Ty.parse cfg (ch! "BFloat16") = if cfg.bf16 then .ok .bfloat16 else .err .typeParse := rfl

theorem deSized1_clean {cfg : Cfg} (hb : cfg.bf16 = false) {t : Ty} {s s' : Bytes} {v : Value}
    (h : deSized1 cfg t s = .ok (v, s')) : ¬HoldsBf16 v := by
  cases t <;> first
    | (simp only [deSized1, Rd.bind_eq_ok] at h
       obtain ⟨x, s1, _, h2⟩ := h
       simp only [Rd.pure_apply, Res.ok.injEq, Prod.mk.injEq] at h2
       rw [← h2.1]; exact id)
    | (simp only [deSized1, Rd.bind_eq_ok] at h
       obtain ⟨x, s1, _, y, s2, _, h2⟩ := h
       simp only [Rd.pure_apply, Res.ok.injEq, Prod.mk.injEq] at h2
       rw [← h2.1]; exact id)
    | (simp only [deSized1, Rd.bind_eq_ok, hb] at h
       obtain ⟨x, s1, _, h2⟩ := h
       cases h2)
    | (simp [deSized1] at h)

mutual
theorem deCol_clean {cfg : Cfg} (hb : cfg.bf16 = false) : ∀ (t : Ty) (n : Nat) (s s' : Bytes) (vs : List Value),
    deCol cfg t n s = .ok (vs, s') → ∀ v ∈ vs, ¬HoldsBf16 v
  | .string, n, s, s', vs, h => by
    refine rep_all (P := fun v => ¬HoldsBf16 v) ?_ _ _ _ _ (guardRows_eq_ok h).2
    intro s a s' h
    simp only [Rd.bind_eq_ok] at h
    obtain ⟨b, s1, _, h2⟩ := h
    simp only [Rd.pure_apply, Res.ok.injEq, Prod.mk.injEq] at h2
    rw [← h2.1]; exact id
  | .fixedString k, n, s, s', vs, h => by
    refine rep_all (P := fun v => ¬HoldsBf16 v) ?_ _ _ _ _ (guardRows_eq_ok h).2
    intro s a s' h
    split at h
    · cases h
    simp only [Rd.bind_eq_ok] at h
    obtain ⟨b, s1, _, h2⟩ := h
    simp only [Rd.pure_apply, Res.ok.injEq, Prod.mk.injEq] at h2
    rw [← h2.1]; exact id
  | .array t, n, s, s', vs, h => by
    have h := (guardRows_eq_ok h).2
    rw [Rd.bind_eq_ok] at h
    obtain ⟨xss, s1, h1, h2⟩ := h
    simp only [Rd.pure_apply, Res.ok.injEq, Prod.mk.injEq] at h2
    intro v hv
    rw [← h2.1] at hv
    obtain ⟨xs, hxs, rfl⟩ := List.mem_map.mp hv
    exact holdsAny_false (deArr_all h1 (fun m s s' ys hy => deCol_clean hb t m s s' ys hy) xs hxs)
  | .tuple ts, n, s, s', vs, h => by
    have h := (guardRows_eq_ok h).2
    rw [Rd.bind_eq_ok] at h
    obtain ⟨xss, s1, h1, h2⟩ := h
    simp only [Rd.pure_apply, Res.ok.injEq, Prod.mk.injEq] at h2
    intro v hv
    rw [← h2.1] at hv
    obtain ⟨xs, hxs, rfl⟩ := List.mem_map.mp hv
    refine holdsAny_false (deCols_clean hb ts n _ _ _ _ h1 ?_ xs hxs)
    intro r hr
    rw [List.eq_of_mem_replicate hr]
    intro x hx; cases hx
  | .point, n, s, s', vs, h | .ring, n, s, s', vs, h | .polygon, n, s, s', vs, h | .multiPolygon, n, s, s', vs, h => by
    simp only [deCol, Rd.bind_eq_ok] at h
    obtain ⟨xss, s1, h1, h2⟩ := h
    simp only [Rd.pure_apply, Res.ok.injEq, Prod.mk.injEq] at h2
    intro v hv
    rw [← h2.1] at hv
    obtain ⟨xs, hxs, rfl⟩ := List.mem_map.mp hv
    exact id
  | .nullable t, n, s, s', vs, h => by
    have h := (guardRows_eq_ok h).2
    simp only [Rd.bind_eq_ok] at h
    obtain ⟨mask, s1, _, out, s2, h2, h3⟩ := h
    intro v hv
    rcases applyMask_all _ _ _ (Rd.lift_eq_ok h3).1 (deCol_clean hb t n _ _ _ h2) v hv with rfl | h
    · exact id
    · exact h
  | .map k v, n, s, s', vs, h => by
    intro x hx
    obtain ⟨ks', vs', rfl, _, h1, h2⟩ := deMap_all (guardRows_eq_ok h).2 (fun m s s' ys hy => deCol_clean hb k m s s' ys hy)
      (fun m s s' ys hy => deCol_clean hb v m s s' ys hy) x hx
    rintro (h | h)
    · exact holdsAny_false h1 h
    · exact holdsAny_false h2 h
  | .lowCardinality t, n, s, s', vs, h => by
    by_cases hn : t.isNullable = true
    · match t, hn, h with
      | .nullable u, _, h =>
        intro v hv
        rcases deLc_all (guardRows_eq_ok h).2 (fun m s s' ys hy => deCol_clean hb u m s s' ys hy) v hv with h | h
        · rw [h.2]; exact id
        · exact h
    · have e := deCol_lc_nonnull (cfg := cfg) (Bool.eq_false_iff.mpr hn) n
      rw [e] at h
      intro v hv
      rcases deLc_all (guardRows_eq_ok h).2 (fun m s s' ys hy => deCol_clean hb t m s s' ys hy) v hv with h | h
      · exact absurd h.1 Bool.false_ne_true
      · exact h
  | .int8, n, s, s', vs, h | .int16, n, s, s', vs, h | .int32, n, s, s', vs, h | .int64, n, s, s', vs, h
  | .int128, n, s, s', vs, h | .int256, n, s, s', vs, h | .uint8, n, s, s', vs, h | .uint16, n, s, s', vs, h
  | .uint32, n, s, s', vs, h | .uint64, n, s, s', vs, h | .uint128, n, s, s', vs, h | .uint256, n, s, s', vs, h
  | .float32, n, s, s', vs, h | .float64, n, s, s', vs, h | .bfloat16, n, s, s', vs, h
  | .decimal32 _, n, s, s', vs, h | .decimal64 _, n, s, s', vs, h | .decimal128 _, n, s, s', vs, h
  | .decimal256 _, n, s, s', vs, h | .uuid, n, s, s', vs, h | .date, n, s, s', vs, h | .dateTime _, n, s, s', vs, h
  | .dateTime64 _ _, n, s, s', vs, h | .ipv4, n, s, s', vs, h | .ipv6, n, s, s', vs, h | .enum8 _, n, s, s', vs, h
  | .enum16 _, n, s, s', vs, h =>
    rep_all (P := fun v => ¬HoldsBf16 v) (fun _ _ _ => deSized1_clean hb) _ _ _ _ (guardRows_eq_ok h).2
theorem deCols_clean {cfg : Cfg} (hb : cfg.bf16 = false) : ∀ (ts : List Ty) (n : Nat) (acc r : List (List Value)) (s s' : Bytes),
    deCols cfg ts n acc s = .ok (r, s') → (∀ x ∈ acc, ∀ v ∈ x, ¬HoldsBf16 v) → ∀ y ∈ r, ∀ v ∈ y, ¬HoldsBf16 v
  | [], n, acc, r, s, s', h, ha => by
    simp only [deCols, Rd.pure_apply, Res.ok.injEq, Prod.mk.injEq] at h
    rw [← h.1]; exact ha
  | t :: ts, n, acc, r, s, s', h, ha => by
    simp only [deCols, Rd.bind_eq_ok] at h
    obtain ⟨vs, s1, h1, acc', s2, h2, h3⟩ := h
    have hv := deCol_clean hb t n _ _ _ h1
    refine deCols_clean hb ts n acc' r _ _ h3 ?_
    intro y hy
    obtain ⟨x, hx, h⟩ := pushCol_rows (R := fun x => ∀ v ∈ x, ¬HoldsBf16 v) acc vs acc' (Rd.lift_eq_ok h2).1 hv ha y hy
    rcases h with rfl | ⟨v, hv, rfl⟩
    · exact hx
    · intro w hw
      rcases List.mem_append.mp hw with hw | hw
      · exact hx w hw
      · rw [List.mem_singleton.mp hw]; exact hv
end

/-- C60 without the feature, reading: whatever the bytes and the column type, no value read contains a BFloat16. -/
theorem C60_none_read_partial (cfg : Cfg) (hb : cfg.bf16 = false) (t : Ty) (n : Nat) (s rest : Bytes) (vs : List Value)
    (h : deCol cfg t n s = .ok (vs, rest)) : ∀ v ∈ vs, ¬HoldsBf16 v := deCol_clean hb t n s rest vs h

theorem mapL_each {α β : Type} {f : α → Res β} {xs : List α} {ys : List β} (h : Res.mapL f xs = .ok ys) :
    ∀ x ∈ xs, ∃ y ∈ ys, f x = .ok y := by
  induction xs generalizing ys with
  | nil => intro x hx; cases hx
  | cons a xs ih =>
    simp only [Res.mapL, Res.bind_eq_ok] at h
    obtain ⟨y, h1, ys', h2, h3⟩ := h
    rw [← Res.ok.inj h3]
    intro x hx
    rcases List.mem_cons.mp hx with rfl | hx
    · exact ⟨y, List.mem_cons_self .., h1⟩
    · obtain ⟨z, hz, e⟩ := ih h2 x hx
      exact ⟨z, List.mem_cons_of_mem _ hz, e⟩

theorem serSized_clean {cfg : Cfg} (hb : cfg.bf16 = false) {t : Ty} {vs : List Value} {b : Bytes}
    (h : serSized cfg t vs = .ok b) : ∀ v ∈ vs, ¬HoldsBf16 v := by
  simp only [serSized, Res.bind_eq_ok] at h
  obtain ⟨bss, h1, _⟩ := h
  intro v hv
  obtain ⟨y, _, hy⟩ := mapL_each h1 v hv
  rw [Res.bind_eq_ok] at hy
  obtain ⟨w, hw, hy⟩ := hy
  cases v <;> first
    | exact id
    | (simp only [Value.justifyNull, Value.isNull, Bool.false_eq_true, if_false, Res.ok.injEq] at hw
       subst hw
       simp only [serSized1, hb, Bool.false_eq_true, if_false] at hy
       cases hy)

theorem serStrings_clean {cfg : Cfg} {t : Ty} {vs : List Value} {b : Bytes}
    (h : serStrings cfg t vs = .ok b) : ∀ v ∈ vs, ¬HoldsBf16 v := by
  simp only [serStrings, Res.bind_eq_ok] at h
  obtain ⟨bss, h1, _⟩ := h
  intro v hv
  obtain ⟨y, _, hy⟩ := mapL_each h1 v hv
  rw [Res.bind_eq_ok] at hy
  obtain ⟨w, hw, hy⟩ := hy
  cases v <;> first
    | exact id
    | (simp only [Value.justifyNull, Value.isNull, Bool.false_eq_true, if_false, Res.ok.injEq] at hw
       subst hw
       simp only [serString1] at hy
       cases hy
       done)
    | skip
  simp only [Value.justifyNull, Value.isNull, Bool.false_eq_true, if_false, Res.ok.injEq] at hw
  subst hw
  simp only [serString1, Res.bind_eq_ok] at hy
  obtain ⟨bs, hbs, _⟩ := hy
  refine holdsAny_false (fun x hx => ?_)
  obtain ⟨z, _, hz⟩ := mapL_each hbs x hx
  cases x <;> first | exact id | cases hz

theorem pushRow_spec : ∀ (cols : List (List Value)) (r : List Value) (cols' : List (List Value)), pushRow cols r = .ok cols' →
    cols'.length = cols.length ∧ (∀ c ∈ cols, ∀ v ∈ c, ∃ c' ∈ cols', v ∈ c') ∧ (∀ v ∈ r, ∃ c' ∈ cols', v ∈ c')
  | cols, [], cols', h => by
    simp only [pushRow, Res.ok.injEq] at h
    subst h
    exact ⟨rfl, fun c hc v hv => ⟨c, hc, hv⟩, fun v hv => by cases hv⟩
  | [], v :: vs, cols', h => by cases h
  | c :: cols, v :: vs, cols', h => by
    simp only [pushRow, Res.bind_eq_ok] at h
    obtain ⟨cs, h1, h2⟩ := h
    obtain ⟨e, h3, h4⟩ := pushRow_spec cols vs cs h1
    rw [← Res.ok.inj h2]
    refine ⟨by simp [e], ?_, ?_⟩
    · intro d hd w hw
      rcases List.mem_cons.mp hd with rfl | hd
      · exact ⟨d ++ [v], List.mem_cons_self .., List.mem_append_left _ hw⟩
      · obtain ⟨c', hc, hw⟩ := h3 d hd w hw
        exact ⟨c', List.mem_cons_of_mem _ hc, hw⟩
    · intro w hw
      rcases List.mem_cons.mp hw with rfl | hw
      · exact ⟨c ++ [w], List.mem_cons_self .., by simp⟩
      · obtain ⟨c', hc, hw⟩ := h4 w hw
        exact ⟨c', List.mem_cons_of_mem _ hc, hw⟩

theorem pushRows_spec : ∀ (rs cols cols' : List (List Value)), pushRows cols rs = .ok cols' →
    cols'.length = cols.length ∧ (∀ c ∈ cols, ∀ v ∈ c, ∃ c' ∈ cols', v ∈ c') ∧ (∀ r ∈ rs, ∀ v ∈ r, ∃ c' ∈ cols', v ∈ c')
  | [], cols, cols', h => by
    simp only [pushRows, Res.ok.injEq] at h
    subst h
    exact ⟨rfl, fun c hc v hv => ⟨c, hc, hv⟩, fun v hv => by cases hv⟩
  | r :: rs, cols, cols', h => by
    simp only [pushRows, Res.bind_eq_ok] at h
    obtain ⟨cs, h1, h2⟩ := h
    obtain ⟨e, h3, h4⟩ := pushRow_spec cols r cs h1
    obtain ⟨e', h5, h6⟩ := pushRows_spec rs cs cols' h2
    refine ⟨e'.trans e, ?_, ?_⟩
    · intro c hc v hv
      obtain ⟨c', hc', hv'⟩ := h3 c hc v hv
      exact h5 c' hc' v hv'
    · intro q hq v hv
      rcases List.mem_cons.mp hq with rfl | hq
      · obtain ⟨c', hc', hv'⟩ := h4 v hv
        exact h5 c' hc' v hv'
      · exact h6 q hq v hv

theorem keyInsert_grows (vs : List Value) : ∀ (keys : List Value), ∀ k ∈ keys, k ∈ vs.foldl keyInsert keys := by
  induction vs with
  | nil => intro keys k hk; exact hk
  | cons v vs ih =>
    intro keys k hk
    refine ih _ k ?_
    unfold keyInsert
    split
    · exact hk
    · exact List.mem_append_left _ hk

theorem keyInsert_has (vs : List Value) : ∀ (keys : List Value), ∀ v ∈ vs, ∃ k ∈ vs.foldl keyInsert keys, k = v ∨ k.eqv v = true := by
  induction vs with
  | nil => intro keys v hv; cases hv
  | cons w vs ih =>
    intro keys v hv
    rcases List.mem_cons.mp hv with rfl | hv
    · by_cases hk0 : keys.any (fun k => k.eqv v) = true
      · obtain ⟨k, hk, e⟩ := List.any_eq_true.mp hk0
        refine ⟨k, keyInsert_grows vs _ k ?_, .inr e⟩
        unfold keyInsert
        rw [if_pos hk0]
        exact hk
      · refine ⟨v, keyInsert_grows vs _ v ?_, .inl rfl⟩
        unfold keyInsert
        rw [if_neg hk0]
        simp
    · exact ih _ v hv

theorem serLc_clean {inner : List Value → Res Bytes} {nullable : Bool} {vs : List Value} {b : Bytes}
    (hi : ∀ ks b, inner ks = .ok b → ∀ k ∈ ks, ¬HoldsBf16 k) (h : serLc inner nullable vs = .ok b) :
    ∀ v ∈ vs, ¬HoldsBf16 v := by
  unfold serLc at h
  split at h
  · rename_i he
    intro v hv
    rw [List.isEmpty_iff.mp he] at hv
    cases hv
  · simp only [Res.bind_eq_ok] at h
    obtain ⟨d, h1, _⟩ := h
    intro v hv
    obtain ⟨k, hk, e⟩ := keyInsert_has vs _ v hv
    have := hi _ _ h1 k hk
    rcases e with rfl | e
    · exact this
    · rw [← eqv_holds k v e]; exact this

mutual
theorem serCol_clean {cfg : Cfg} (hb : cfg.bf16 = false) : ∀ (t : Ty) (vs : List Value) (b : Bytes),
    serCol cfg t vs = .ok b → ∀ v ∈ vs, ¬HoldsBf16 v
  | .string, vs, b, h => serStrings_clean h
  | .fixedString k, vs, b, h => serStrings_clean h
  | .array t, vs, b, h => by
    simp only [serCol, Res.bind_eq_ok] at h
    obtain ⟨xss, h1, body, h2, _⟩ := h
    intro v hv
    obtain ⟨xs, hxs, e⟩ := mapL_each h1 v hv
    cases v <;> first | exact id | (cases e; done) | skip
    cases e
    refine holdsAny_false (fun x hx => serCol_clean hb t _ _ h2 x (List.mem_flatten.mpr ⟨_, hxs, hx⟩))
  | .tuple ts, vs, b, h => by
    simp only [serCol, Res.bind_eq_ok] at h
    obtain ⟨rows, h1, cols, h2, h3⟩ := h
    obtain ⟨e, _, h4⟩ := pushRows_spec _ _ _ h2
    intro v hv
    obtain ⟨xs, hxs, e'⟩ := mapL_each h1 v hv
    cases v <;> first | exact id | (cases e'; done) | skip
    cases e'
    refine holdsAny_false (fun x hx => ?_)
    obtain ⟨c, hc, hx⟩ := h4 _ hxs x hx
    exact serCols_clean hb ts cols _ (by rw [e, List.length_replicate]) h3 c hc x hx
  | .point, vs, b, h | .ring, vs, b, h | .polygon, vs, b, h | .multiPolygon, vs, b, h => by
    simp only [serCol, Res.bind_eq_ok] at h
    obtain ⟨xss, h1, _⟩ := h
    intro v hv
    obtain ⟨xs, hxs, e⟩ := mapL_each h1 v hv
    cases v <;> first | exact id | cases e
  | .nullable t, vs, b, h => by
    simp only [serCol, Res.bind_eq_ok] at h
    obtain ⟨body, h1, _⟩ := h
    exact serCol_clean hb t vs body h1
  | .map k t, vs, b, h => by
    simp only [serCol, Res.bind_eq_ok] at h
    obtain ⟨kvs, h1, kb, h2, vb, h3, _⟩ := h
    intro v hv
    obtain ⟨xs, hxs, e⟩ := mapL_each h1 v hv
    cases v <;> first | exact id | (cases e; done) | skip
    rename_i ks ws
    unfold Value.unwrapMap at e
    by_cases hl : ks.length = ws.length
    · simp only [hl, if_true, Res.ok.injEq] at e
      subst e
      rintro (hh | hh)
      · exact holdsAny_false (fun x hx => serCol_clean hb k _ _ h2 x
          (List.mem_flatten.mpr ⟨_, List.mem_map.mpr ⟨_, hxs, rfl⟩, hx⟩)) hh
      · exact holdsAny_false (fun x hx => serCol_clean hb t _ _ h3 x
          (List.mem_flatten.mpr ⟨_, List.mem_map.mpr ⟨_, hxs, rfl⟩, hx⟩)) hh
    · simp only [hl, if_false] at e
      cases e
  | .lowCardinality t, vs, b, h => by
    by_cases hn : t.isNullable = true
    · match t, hn, h with
      | .nullable u, _, h => exact serLc_clean (fun ks b hk => serCol_clean hb u ks b hk) h
    · rw [serCol_lc_nonnull (Bool.eq_false_iff.mpr hn)] at h
      exact serLc_clean (fun ks b hk => serCol_clean hb t ks b hk) h
  | .int8, vs, b, h | .int16, vs, b, h | .int32, vs, b, h | .int64, vs, b, h
  | .int128, vs, b, h | .int256, vs, b, h | .uint8, vs, b, h | .uint16, vs, b, h
  | .uint32, vs, b, h | .uint64, vs, b, h | .uint128, vs, b, h | .uint256, vs, b, h
  | .float32, vs, b, h | .float64, vs, b, h | .bfloat16, vs, b, h
  | .decimal32 _, vs, b, h | .decimal64 _, vs, b, h | .decimal128 _, vs, b, h
  | .decimal256 _, vs, b, h | .uuid, vs, b, h | .date, vs, b, h | .dateTime _, vs, b, h
  | .dateTime64 _ _, vs, b, h | .ipv4, vs, b, h | .ipv6, vs, b, h | .enum8 _, vs, b, h
  | .enum16 _, vs, b, h => serSized_clean hb h
theorem serCols_clean {cfg : Cfg} (hb : cfg.bf16 = false) : ∀ (ts : List Ty) (cols : List (List Value)) (b : Bytes),
    cols.length = ts.length → serCols cfg ts cols = .ok b → ∀ c ∈ cols, ∀ v ∈ c, ¬HoldsBf16 v
  | [], cols, b, hl, h => by
    rw [List.length_eq_zero_iff.mp hl]; intro c hc; cases hc
  | t :: ts, cols, b, hl, h => by
    cases cols with
    | nil => cases hl
    | cons c cols =>
      simp only [serCols, Res.bind_eq_ok] at h
      obtain ⟨b1, h1, b2, h2, _⟩ := h
      intro d hd
      rcases List.mem_cons.mp hd with rfl | hd
      · exact serCol_clean hb t _ _ h1
      · exact serCols_clean hb ts cols _ (by simpa using hl) h2 d hd
end

/-- C60 without the feature, writing: whatever the column type, no list of values containing a BFloat16 anywhere is
written. -/
theorem C60_none_written_partial (cfg : Cfg) (hb : cfg.bf16 = false) (t : Ty) (vs : List Value) (b : Bytes)
    (h : serCol cfg t vs = .ok b) : ∀ v ∈ vs, ¬HoldsBf16 v := serCol_clean hb t vs b h

/-- One turn of the block reader, with where type and data come from. -/
theorem readColumn_source {cfg : Cfg} {rows : Nat} {b b' : Block} {s r : Bytes} (h : readColumn cfg rows b s = .ok (b', r)) :
    ∃ name t data, b' = { b with columnTypes := b.columnTypes.insert name t, columnData := b.columnData.insert name data } ∧
      (∃ text, Ty.parse cfg text = .ok t) ∧ (data = [] ∨ ∃ s1 s2, deCol cfg t rows s1 = .ok (data, s2)) := by
  unfold readColumn at h
  obtain ⟨name, s2, _, h⟩ := Rd.bind_eq_ok.mp h
  obtain ⟨tn, s3, _, h⟩ := Rd.bind_eq_ok.mp h
  obtain ⟨t, s4, ht, h⟩ := Rd.bind_eq_ok.mp h
  have hp := (Rd.lift_eq_ok ht).1
  by_cases hr : rows > 0
  · rw [if_pos hr] at h
    obtain ⟨data, s5, h1, h⟩ := Rd.bind_eq_ok.mp h
    obtain ⟨_, s6, _, h1⟩ := Rd.bind_eq_ok.mp h1
    cases h
    exact ⟨name, t, data, rfl, ⟨_, hp⟩, .inr ⟨_, _, h1⟩⟩
  · rw [if_neg hr, Rd.bind_run_ok (Rd.pure_apply _ _)] at h
    cases h
    exact ⟨name, t, [], rfl, ⟨_, hp⟩, .inl rfl⟩

theorem readColumns_source {cfg : Cfg} {rows : Nat} {P : Ty → Prop} {Q : List Value → Prop}
    (hP : ∀ text t, Ty.parse cfg text = .ok t → P t) (hQ0 : Q [])
    (hQ : ∀ t data s1 s2, deCol cfg t rows s1 = .ok (data, s2) → Q data) :
    ∀ (n : Nat) (b b' : Block) (s r : Bytes), readColumns cfg rows n b s = .ok (b', r) →
      (∀ e ∈ b.columnTypes, P e.2) ∧ (∀ e ∈ b.columnData, Q e.2) →
      (∀ e ∈ b'.columnTypes, P e.2) ∧ (∀ e ∈ b'.columnData, Q e.2) := by
  intro n
  induction n with
  | zero => intro b b' s r h hk; cases h; exact hk
  | succ n ih =>
    intro b b' s r h hk
    simp only [readColumns] at h
    obtain ⟨b1, s1, h1, h2⟩ := Rd.bind_eq_ok.mp h
    obtain ⟨name, t, data, rfl, ⟨text, h3⟩, h4⟩ := readColumn_source h1
    refine ih _ b' s1 r h2 ⟨?_, ?_⟩
    · rintro ⟨k, u⟩ he
      rcases mem_insert_map he with he | he
      · cases he; exact hP _ _ h3
      · exact hk.1 _ he
    · rintro ⟨k, u⟩ he
      rcases mem_insert_map he with he | he
      · cases he
        rcases h4 with rfl | ⟨s1, s2, h4⟩
        · exact hQ0
        · exact hQ _ _ _ _ h4
      · exact hk.2 _ he

/-- C60 without the feature, blocks: whatever bytes the server sends, no block read has a column whose type mentions
BFloat16 or a value that contains one. -/
theorem C60_blocks (cfg : Cfg) (hb : cfg.bf16 = false) (revision : Nat) (s r : Bytes) (b : Block)
    (h : readBlock cfg revision s = .ok (b, r)) :
    (∀ e ∈ b.columnTypes, usesBf16 e.2 = false) ∧ ∀ e ∈ b.columnData, ∀ v ∈ e.2, ¬HoldsBf16 v := by
  unfold readBlock at h
  obtain ⟨i, s1, _, h⟩ := Rd.bind_eq_ok.mp h
  obtain ⟨c, s2, _, h⟩ := Rd.bind_eq_ok.mp h
  obtain ⟨n, s3, _, h⟩ := Rd.bind_eq_ok.mp h
  refine readColumns_source (P := fun t => usesBf16 t = false) (Q := fun d => ∀ v ∈ d, ¬HoldsBf16 v) ?_ ?_ ?_ c _ _ _ _ h ⟨?_, ?_⟩
  · intro text t ht; exact C60_name_refused cfg hb text t ht
  · intro v hv; cases hv
  · intro t data s1 s2 hd; exact deCol_clean hb t n s1 s2 data hd
  · intro e he; cases he
  · intro e he; cases he

/-- C60 without the feature: a BFloat16 is not a valid value of the type. -/
theorem C60_value_invalid (cfg : Cfg) (hb : cfg.bf16 = false) (v : Value) : Ty.innerValidate cfg .bfloat16 v = false := by
  cases v <;> first | rfl | exact hb

/-- The rest of C60 is false of the code: without the feature, validating the type accepts it, and writing, reading
or asking for its default value panics where the property wants an error. -/
theorem C60_refused_cleanly_false (cfg : Cfg) (hb : cfg.bf16 = false) :
    Ty.validate .bfloat16 = true ∧ serCol cfg .bfloat16 [.bfloat16 0x3F80#16] = .panic ∧
      deCol cfg .bfloat16 1 [0x80, 0x3F] = .panic ∧ Ty.defaultValue cfg .bfloat16 = .panic := by
  refine ⟨rfl, ?_, ?_, ?_⟩
  · simp [serCol, serSized, Res.mapL, Value.justifyNull, Value.isNull, serSized1, hb]
  · show (guardRows 1 (deSized cfg .bfloat16 1)) _ = _
    have : deSized1 cfg .bfloat16 [0x80, 0x3F] = .panic := by
      unfold deSized1; rw [hb]; rfl
    show (Rd.rep 1 (deSized1 cfg .bfloat16)) _ = _
    exact Rd.bind_run_panic this
  · simp [Ty.defaultValue, hb]

example : cfgRelease.bf16 = false := rfl

/-- Nested deep, a clean list is written and read also without the feature. -/
example : serCol cfgRelease (.array (.tuple [.uint8, .nullable .float32])) [.array [.tuple [.uint8 1, .null]]] =
    .ok [1, 0, 0, 0, 0, 0, 0, 0, 1, 1, 0, 0, 0, 0] := rfl

end Klick
