import Verif.Spec.Orderly
import Verif.Props.Column
/-
C08 on columns whose offsets never decrease: no panic, for every type and in every build.
-/
namespace Klick
open Spec

/-- At one stream. -/
theorem Rd.bind_safe {α β : Type} {x : Rd α} {f : α → Rd β} {s : Bytes} (hx : x s ≠ .panic)
    (hf : ∀ a s', x s = .ok (a, s') → f a s' ≠ .panic) : (x >>= f) s ≠ .panic := by
  intro h
  rw [Rd.bind_eq_panic] at h
  rcases h with h | ⟨a, s', h1, h2⟩
  · exact hx h
  · exact hf _ _ h1 h2

theorem guardRows_safe {α : Type} {n : Nat} {body : Rd α} {s : Bytes} (h : body s ≠ .panic) : guardRows n body s ≠ .panic := by
  unfold guardRows
  split
  · simp
  · exact h

theorem splitOffsets_mono {α : Type} {cfg : Cfg} (os : List Nat) : ∀ (prev : Nat) (items : List α), (prev :: os).Pairwise (· ≤ ·) →
    splitOffsets cfg prev os items ≠ .panic := by
  induction os with
  | nil => intro p i _; simp [splitOffsets]
  | cons o os ih =>
    intro p i hp h
    rw [List.pairwise_cons] at hp
    have : ¬ o < p := by have := hp.1 o (List.mem_cons_self ..); omega
    simp only [splitOffsets, if_neg this] at h
    rw [Res.bind_eq_panic] at h
    rcases h with h | ⟨r, _, h⟩
    · exact ih _ _ hp.2 h
    · cases h

theorem zero_cons {os : List Nat} (h : os.Pairwise (· ≤ ·)) : (0 :: os).Pairwise (· ≤ ·) :=
  List.pairwise_cons.mpr ⟨fun _ _ => Nat.zero_le _, h⟩

theorem deArr_safe {α : Type} {cfg : Cfg} {inner : Nat → Rd (List α)} {P : Nat → Bytes → Prop} (hi : ∀ n s, P n s → inner n s ≠ .panic)
    {n : Nat} {s : Bytes} (h : OffsetsThen P n s) : deArr cfg inner n s ≠ .panic := by
  unfold deArr
  split
  · simp
  · rename_i hn
    refine Rd.bind_safe (rep_ne_panic readU64_ne_panic n s) fun offs rest h1 => ?_
    obtain ⟨h2, h3⟩ := h hn offs rest h1
    refine Rd.bind_safe (hi _ _ h3) fun items s2 _ => Rd.lift_ne_panic (splitOffsets_mono _ _ _ (zero_cons h2)) _

theorem splitMap_mono (os : List Nat) : ∀ (last : Nat) (ks vs : List Value), (last :: os).Pairwise (· ≤ ·) →
    (last :: os).getLastD 0 ≤ last + ks.length → (last :: os).getLastD 0 ≤ last + vs.length → splitMap last os ks vs ≠ .panic := by
  induction os with
  | nil => intro l ks vs _ _ _; simp [splitMap]
  | cons o os ih =>
    intro l ks vs hp h1 h2 h
    rw [List.pairwise_cons] at hp
    have hlo := hp.1 o (List.mem_cons_self ..)
    have hlast : (l :: o :: os).getLastD 0 = (o :: os).getLastD 0 := by simp [List.getLastD]
    rw [hlast] at h1 h2
    have hol : o ≤ (o :: os).getLastD 0 := by
      cases os with
      | nil => exact Nat.le_refl _
      | cons q os =>
        have hm : (o :: q :: os).getLastD 0 ∈ q :: os := by
          have : (o :: q :: os).getLastD 0 = (q :: os).getLast (by simp) := by simp [List.getLastD]
          rw [this]
          exact List.getLast_mem _
        exact (List.pairwise_cons.mp hp.2).1 _ hm
    simp only [splitMap] at h
    rw [if_neg (by omega), Res.bind_eq_panic] at h
    rcases h with h | ⟨r, _, h⟩
    · have hmax : max l o = o := by omega
      rw [hmax] at h
      exact ih o _ _ hp.2 (by rw [List.length_drop]; omega) (by rw [List.length_drop]; omega) h
    · cases h

theorem deMap_safe {key value : Nat → Rd (List Value)} {n : Nat} {s : Bytes}
    (h : OffsetsThen (fun total s => key total s ≠ .panic ∧ ∀ ks s1, key total s = .ok (ks, s1) →
      ks.length = total ∧ value total s1 ≠ .panic ∧ ∀ vs s2, value total s1 = .ok (vs, s2) → vs.length = total) n s) :
    deMap key value n s ≠ .panic := by
  unfold deMap
  split
  · simp
  · rename_i hn
    refine Rd.bind_safe (rep_ne_panic readU64_ne_panic n s) fun offs rest h1 => ?_
    obtain ⟨h2, h3, h4⟩ := h hn offs rest h1
    refine Rd.bind_safe h3 fun ks s1 hk => ?_
    obtain ⟨h5, h6, h7⟩ := h4 ks s1 hk
    rw [if_neg (by simpa using h5)]
    refine Rd.bind_safe h6 fun vs s2 hv => ?_
    have h8 := h7 vs s2 hv
    rw [if_neg (by simpa using h8)]
    refine Rd.lift_ne_panic (splitMap_mono _ _ _ _ (zero_cons h2) ?_ ?_) _
    · cases offs with
      | nil => simp
      | cons o os => rw [h5]; simp [List.getLastD]
    · cases offs with
      | nil => simp
      | cons o os => rw [h8]; simp [List.getLastD]

theorem OffsetsThen.mono {P Q : Nat → Bytes → Prop} (hPQ : ∀ n s, P n s → Q n s) {n : Nat} {s : Bytes} (h : OffsetsThen P n s) :
    OffsetsThen Q n s := fun hn offs rest h1 => ⟨(h hn offs rest h1).1, hPQ _ _ (h hn offs rest h1).2⟩

theorem geo_safe {cfg : Cfg} {t : Ty} (hg : isGeo t = true) {n : Nat} {s : Bytes} (h : Orderly cfg t n s) : deCol cfg t n s ≠ .panic := by
  have h1 : ∀ n s, OffsetsThen (fun _ _ => True) n s → deRings cfg n s ≠ .panic :=
    fun n s h => guardRows_safe (deArr_safe (fun n s _ => dePts_ne_panic n s) h)
  have h2 : ∀ n s, OffsetsThen (OffsetsThen fun _ _ => True) n s → dePolygons cfg n s ≠ .panic :=
    fun n s h => guardRows_safe (deArr_safe h1 h)
  cases t <;> first
    | (cases hg; done)
    | skip
  · exact Rd.bind_safe (dePts_ne_panic n s) (fun _ _ _ => by simp)
  · exact Rd.bind_safe (h1 n s h) (fun _ _ _ => by simp)
  · exact Rd.bind_safe (h2 n s h) (fun _ _ _ => by simp)
  · exact Rd.bind_safe (guardRows_safe (deArr_safe h2 h)) (fun _ _ _ => by simp)

mutual
theorem deCol_safe {cfg : Cfg} : ∀ (t : Ty), t.validate = true → (¬ unsupported cfg t = true) →
    ∀ (n : Nat) (s : Bytes), Orderly cfg t n s → deCol cfg t n s ≠ .panic
  | .array t, hv, hb, n, s, h => by
    refine guardRows_safe (Rd.bind_safe (deArr_safe (deCol_safe t hv hb) h) fun _ _ _ => by simp)
  | .map k v, hv, hb, n, s, h => by
    simp only [Ty.validate, Bool.and_eq_true] at hv
    simp only [unsupported, Bool.or_eq_true] at hb
    refine guardRows_safe (deMap_safe (OffsetsThen.mono ?_ h))
    rintro m s ⟨h1, h2⟩
    refine ⟨deCol_safe k hv.1.2 (fun h => hb (.inl h)) m s h1, ?_⟩
    intro ks s1 hk
    obtain ⟨h3, h4, h5⟩ := h2 ks s1 hk
    exact ⟨h3, deCol_safe v hv.2 (fun h => hb (.inr h)) m s1 h4, h5⟩
  | .nullable t, hv, hb, n, s, h => by
    simp only [Ty.validate, Bool.and_eq_true, Bool.not_eq_true'] at hv
    simp only [unsupported] at hb
    refine guardRows_safe (Rd.bind_safe (readExact_ne_panic n s) fun mask s1 h1 => ?_)
    obtain ⟨e1, e2⟩ := readExact_ok h1
    have hd : s.drop n = s1 := by rw [e1, ← e2]; simp
    have ho : Orderly cfg t n s1 := by rw [← hd]; exact h
    have hsafe : deCol cfg t n s1 ≠ .panic := by
      rcases scalar_or_geo hv.1 with hs | hg
      · exact scalar_ne_panic hs hb n s1
      · exact geo_safe hg ho
    refine Rd.bind_safe hsafe fun out s2 h2 => Rd.lift_ne_panic (applyMask_ne_panic _ _ ?_) _
    have e3 := (deCol_rows t n _ _ _ h2).2 (by
      have hr := hv.1
      cases t <;> first | rfl | (cases hr; done))
    omega
  | .lowCardinality t, hv, hb, n, s, h => by
    simp only [Ty.validate, Bool.and_eq_true] at hv
    simp only [unsupported] at hb
    by_cases hnl : t.isNullable = true
    · cases t <;> first
        | (cases hnl; done)
        | skip
      rename_i t
      simp only [unsupported] at hb
      exact guardRows_safe (lcLoop_ne_panic (fun n s => scalar_ne_panic (lcAllowed_scalar hv.1) hb n s) _ _ _ _ _ s)
    · have hnl : t.isNullable = false := by simpa using hnl
      rw [deCol_lc_nonnull hnl]
      have hs : t.isScalar = true := by
        cases t <;> first | exact lcAllowed_scalar hv.1 | (cases hnl; done)
      exact guardRows_safe (lcLoop_ne_panic (fun n s => scalar_ne_panic hs hb n s) _ _ _ _ _ s)
  | .tuple ts, hv, hb, n, s, h => by
    refine guardRows_safe (Rd.bind_safe (deCols_safe ts hv hb n _ (by simp) s h) fun _ _ _ => by simp)
  | .point, _, _, n, s, h => geo_safe rfl h
  | .ring, _, _, n, s, h => geo_safe rfl h
  | .polygon, _, _, n, s, h => geo_safe rfl h
  | .multiPolygon, _, _, n, s, h => geo_safe rfl h
  | .string, _, hb, n, s, _ => scalar_ne_panic rfl hb n s
  | .fixedString _, _, hb, n, s, _ => scalar_ne_panic rfl hb n s
  | .int8, _, hb, n, s, _ => scalar_ne_panic rfl hb n s
  | .int16, _, hb, n, s, _ => scalar_ne_panic rfl hb n s
  | .int32, _, hb, n, s, _ => scalar_ne_panic rfl hb n s
  | .int64, _, hb, n, s, _ => scalar_ne_panic rfl hb n s
  | .int128, _, hb, n, s, _ => scalar_ne_panic rfl hb n s
  | .int256, _, hb, n, s, _ => scalar_ne_panic rfl hb n s
  | .uint8, _, hb, n, s, _ => scalar_ne_panic rfl hb n s
  | .uint16, _, hb, n, s, _ => scalar_ne_panic rfl hb n s
  | .uint32, _, hb, n, s, _ => scalar_ne_panic rfl hb n s
  | .uint64, _, hb, n, s, _ => scalar_ne_panic rfl hb n s
  | .uint128, _, hb, n, s, _ => scalar_ne_panic rfl hb n s
  | .uint256, _, hb, n, s, _ => scalar_ne_panic rfl hb n s
  | .float32, _, hb, n, s, _ => scalar_ne_panic rfl hb n s
  | .float64, _, hb, n, s, _ => scalar_ne_panic rfl hb n s
  | .bfloat16, _, hb, n, s, _ => scalar_ne_panic rfl hb n s
  | .decimal32 _, _, hb, n, s, _ => scalar_ne_panic rfl hb n s
  | .decimal64 _, _, hb, n, s, _ => scalar_ne_panic rfl hb n s
  | .decimal128 _, _, hb, n, s, _ => scalar_ne_panic rfl hb n s
  | .decimal256 _, _, hb, n, s, _ => scalar_ne_panic rfl hb n s
  | .uuid, _, hb, n, s, _ => scalar_ne_panic rfl hb n s
  | .date, _, hb, n, s, _ => scalar_ne_panic rfl hb n s
  | .dateTime _, _, hb, n, s, _ => scalar_ne_panic rfl hb n s
  | .dateTime64 _ _, _, hb, n, s, _ => scalar_ne_panic rfl hb n s
  | .ipv4, _, hb, n, s, _ => scalar_ne_panic rfl hb n s
  | .ipv6, _, hb, n, s, _ => scalar_ne_panic rfl hb n s
  | .enum8 _, _, hb, n, s, _ => scalar_ne_panic rfl hb n s
  | .enum16 _, _, hb, n, s, _ => scalar_ne_panic rfl hb n s
theorem deCols_safe {cfg : Cfg} : ∀ (ts : List Ty), Ty.validates ts = true → (¬ unsupportedAny cfg ts = true) →
    ∀ (n : Nat) (acc : List (List Value)), acc.length = n → ∀ (s : Bytes), OrderlyAll cfg ts n s → deCols cfg ts n acc s ≠ .panic
  | [], _, _, _, _, _, _, _ => by simp [deCols]
  | t :: ts, hv, hb, n, acc, hl, s, h => by
    simp only [Ty.validates, Bool.and_eq_true] at hv
    simp only [unsupportedAny, Bool.or_eq_true] at hb
    simp only [deCols]
    refine Rd.bind_safe (deCol_safe t hv.1 (fun h => hb (.inl h)) n s h.1) fun vs s1 h1 => ?_
    refine Rd.bind_safe (Rd.lift_ne_panic (pushCol_ne_panic _ _ ?_) _) fun acc' s2 h2 => ?_
    · rw [hl]; exact (deCol_rows t n _ _ _ h1).1
    · have h3 := Rd.lift_eq_ok h2
      refine deCols_safe ts hv.2 (fun h => hb (.inr h)) n acc' (by rw [pushCol_length _ _ _ h3.1, hl]) s2 ?_
      have := h.2 vs s1 h1
      rw [h3.2] at this
      exact this
end

namespace Props

/-- **C08**, every type the crate accepts, maps and arrays included, and every build: where array and map offsets do not decrease, and
dictionary columns of maps hold as many entries as announced, reading does not panic, whatever the bytes are otherwise (cut short,
indices out of range, bad text, bad flags). -/
theorem C08_orderly_partial (cfg : Cfg) (t : Ty) (hv : t.validate = true) (hb : ¬ unsupported cfg t = true) (n : Nat) (s : Bytes)
    (h : Orderly cfg t n s) : deCol cfg t n s ≠ .panic := deCol_safe t hv hb n s h

/-- Two rows of maps from strings to arrays, two keys and one: offsets 2 and 3. -/
example : Orderly cfgDebug (.map .uint8 (.array .uint8)) 2
    (le 8 2 ++ le 8 3 ++ [1, 2, 3] ++ (le 8 0 ++ le 8 1 ++ le 8 1) ++ [9]) := by
  intro _ offs rest h
  cases h
  refine ⟨by decide, trivial, ?_⟩
  intro ks s1 hk
  cases hk
  refine ⟨rfl, ?_, ?_⟩
  · intro _ offs rest h
    cases h
    exact ⟨by decide, trivial⟩
  · intro vs s2 hv
    cases hv
    rfl

/-- The streams of the refutations are not of this kind. -/
example : ¬ Orderly cfgDebug (.array .uint8) 2 (le 8 2 ++ le 8 1 ++ [5]) := by
  intro h
  have := (h (by decide) [2, 1] [5] rfl).1
  simp at this

end Props
end Klick
