import Verif.Room
/-
The column readers take at least a byte for each row and a bounded number of values for each byte (C89).
-/
namespace Klick
open Spec

section
variable {text : Bytes → Nat}

theorem Fair1.mono {k k' n : Nat} (h : k ≤ k') {vs : List Value} {c : Nat} (hf : Fair1 text k n vs c) : Fair1 text k' n vs c :=
  ⟨hf.1, Nat.le_trans hf.2 (Nat.mul_le_mul_right _ h)⟩

/-! ### Geometry -/

/-- The sum of a measure. -/
def total {α : Type} (f : α → Nat) (xs : List α) : Nat := (xs.map f).sum

theorem splitOffsets_total {α : Type} (f : α → Nat) {cfg : Cfg} (os : List Nat) : ∀ (prev : Nat) (items : List α) (r : List (List α)),
    splitOffsets cfg prev os items = .ok r → total (total f) r ≤ total f items := by
  induction os with
  | nil => intro p i r h; simp only [splitOffsets, Res.ok.injEq] at h; rw [← h]; exact Nat.zero_le _
  | cons o os ih =>
    intro p i r h
    have key : ∀ len, (splitOffsets cfg o os (i.drop len) >>= fun r => .ok (i.take len :: r)) = .ok r →
        total (total f) r ≤ total f i := by
      intro len h
      rw [Res.bind_eq_ok] at h
      obtain ⟨r', h1, h2⟩ := h
      simp only [Res.ok.injEq] at h2
      have := ih _ _ _ h1
      have e : total f i = total f (i.take len) + total f (i.drop len) := by
        simp only [total]; rw [← List.sum_append, ← List.map_append, List.take_append_drop]
      rw [← h2, e]
      simp only [total, List.map_cons, List.sum_cons] at this ⊢
      omega
    simp only [splitOffsets] at h
    split at h
    · split at h
      · cases h
      · exact key _ h
    · exact key _ h

theorem arr_total {α : Type} {f : α → Nat} {cfg : Cfg} {inner : Nat → Rd (List α)}
    (hi : ∀ n, Takes (fun xs c => n ≤ c ∧ total f xs ≤ c) (inner n)) (n : Nat) :
    Takes (fun xss c => n ≤ c ∧ total (fun xs => 1 + total f xs) xss ≤ c) (guardRows n (deArr cfg inner n)) := by
  refine Takes.guard ?_
  refine Takes.mono (Takes.also (deArr_takes (cfg := cfg) (w := total f) (ws := total (total f)) (k := 1) (Nat.le_refl _) rfl
    (fun m => Takes.mono (hi m) (fun _ _ h => by omega)) (fun os p i r h => splitOffsets_total f os p i r h) n)
    (fun s a s' h => deArr_length h)) ?_
  rintro xss c ⟨⟨h1, h2⟩, h3⟩
  refine ⟨h1, ?_⟩
  have e : ∀ ys : List (List α), total (fun xs => 1 + total f xs) ys = ys.length + total (total f) ys := by
    intro ys
    induction ys with
    | nil => rfl
    | cons y ys ih => simp only [total, List.map_cons, List.sum_cons, List.length_cons] at ih ⊢; omega
  rw [e]
  omega

theorem total_one {α : Type} (xs : List α) : total (fun _ => 1) xs = xs.length := by
  induction xs with
  | nil => rfl
  | cons x xs ih => simp only [total, List.map_cons, List.sum_cons, List.length_cons] at ih ⊢; omega

theorem dePts_takes (n : Nat) : Takes (fun ps c => n ≤ c ∧ total (fun _ => 1) ps ≤ c) (dePts n) := by
  have h : Takes (fun (ps : List Pt) c => n ≤ c) (dePts n) := by
    refine Takes.guard ?_
    refine Takes.bind (Takes.rep (R := fun os c => 8 * os.length = c) (Takes.le 8 64) rfl
      (fun a as i j h1 h2 => by simp only [List.length_cons]; omega) n) (fun xs => Takes.map (R := fun _ _ => True)
      (Takes.rep (R := fun os c => 8 * os.length = c) (Takes.le 8 64) rfl
        (fun a as i j h1 h2 => by simp only [List.length_cons]; omega) n) (fun _ _ _ => trivial)) ?_
    rintro a b i j ⟨h1, h2⟩ _
    omega
  refine Takes.mono (Takes.also h (fun s a s' hs => dePts_length hs)) ?_
  rintro ps c ⟨h1, h2⟩
  refine ⟨h1, ?_⟩
  have := total_one ps
  omega

theorem weighAll_map {α : Type} (f : α → Value) (xs : List α) : weighAll text (xs.map f) = total (fun x => weigh text (f x)) xs := by
  induction xs with
  | nil => rfl
  | cons x xs ih => simp only [List.map_cons, weighAll, ih, total, List.sum_cons]

/-! ### LowCardinality -/

/-- Every value weighs one. -/
def Ones (text : Bytes → Nat) (vs : List Value) : Prop := ∀ v ∈ vs, weigh text v = 1

theorem Ones.weighAll {vs : List Value} (h : Ones text vs) : weighAll text vs = vs.length := by
  induction vs with
  | nil => rfl
  | cons v vs ih =>
    rw [Spec.weighAll, ih (fun w hw => h w (by simp [hw])), h v (by simp), List.length_cons]; omega

theorem lcLoop_takes {dict : Nat → Rd (List Value)} {nullable : Bool} (hd : ∀ n, Takes (fun _ _ => True) (dict n)) (fuel : Nat) :
    ∀ (limit : Nat) (g : Option (List Value)) (out : List Value),
      Takes (fun _ c => limit ≤ c) (lcLoop dict nullable fuel limit g out) := by
  induction fuel with
  | zero => intro l g o; exact Takes.fail
  | succ fuel ih =>
    intro limit g out
    simp only [lcLoop]
    refine Takes.ite (fun h => Takes.pure (by omega)) (fun _ => ?_)
    refine Takes.bind (Q := fun _ _ c => limit ≤ c) Takes.u64 (fun flags => ?_) (fun _ _ _ _ h1 h2 => by omega)
    cases hw : lcWidth flags with
    | none => exact Takes.fail
    | some w =>
      have hw1 : 1 ≤ w := by
        unfold lcWidth at hw
        split at hw <;> first | (cases hw; done) | (injection hw with hw; omega)
      have hu : ∀ n, Takes (fun _ _ => True) (readU64 >>= fun _ => dict n) :=
        fun n => Takes.bind Takes.u64 (fun _ => hd n) (fun _ _ _ _ _ h => h)
      dsimp only
      refine Takes.bind (P := fun _ _ => True) (Q := fun _ _ c => limit ≤ c) ?_ (fun g' => ?_) (fun _ _ _ _ _ h => by omega)
      · exact Takes.ite (fun _ => Takes.bind Takes.u64 (fun n => Takes.map (hd n) (fun _ _ h => h)) (fun _ _ _ _ _ h => h))
          (fun _ => Takes.pure trivial)
      refine Takes.bind (P := fun _ _ => True) (Q := fun _ _ c => limit ≤ c) ?_ (fun add => ?_) (fun _ _ _ _ _ h => by omega)
      · exact Takes.ite (fun _ => Takes.bind Takes.u64 (fun n => hd n) (fun _ _ _ _ _ h => h)) (fun _ => Takes.pure trivial)
      refine Takes.bind (Q := fun _ _ c => limit ≤ c) Takes.u64 (fun pending => ?_) (fun _ _ _ _ _ h => by omega)
      refine Takes.bind (P := fun _ c => min limit pending ≤ c) (Q := fun _ _ c => limit - min limit pending ≤ c) ?_ (fun idx => ?_)
        (fun _ _ _ _ h1 h2 => by omega)
      · refine Takes.guard (Takes.mono (Takes.rep (P := fun _ c => 1 ≤ c) (R := fun as c => as.length ≤ c)
          (Takes.map (Takes.exact w) (fun _ _ h => by omega)) (Nat.le_refl _)
          (fun a as i j h1 h2 => by simp only [List.length_cons]; omega) _) (fun _ _ h => by omega))
      refine Takes.bind (P := fun _ _ => True) (Q := fun _ _ c => limit - min limit pending ≤ c) ?_ (fun vals => ih _ _ _)
        (fun _ _ _ _ _ h => by omega)
      exact Takes.ite (fun _ => Takes.lift (fun _ _ => trivial)) (fun _ => Takes.pure trivial)

theorem deLc_takes {dict : Nat → Rd (List Value)} {nullable : Bool} (hd : ∀ n, Takes (fun _ _ => True) (dict n))
    (h1 : ∀ n s vs s', dict n s = .ok (vs, s') → Ones text vs) (n : Nat) : Takes (Fair1 text 2 n) (deLc dict nullable n) := by
  intro s vs s' h
  obtain ⟨c, e, hc⟩ := lcLoop_takes hd _ _ _ _ s vs s' h
  refine ⟨c, e, hc, ?_⟩
  have ho : Ones text vs := by
    intro v hv
    rcases deLc_all (P := fun v => weigh text v = 1) h (fun m s s' ys hy => h1 m s ys s' hy) v hv with h | h
    · rw [h.2]; rfl
    · exact h
  have := deLc_length h
  rw [ho.weighAll]
  omega

theorem lcAllowed_ones {t : Ty} (h : t.lcAllowed = true) (ht : ∀ b, text b = 1) {v : Value} (hv : Shaped t v) : weigh text v = 1 := by
  cases t <;> first | (cases h; done) | (obtain ⟨x, rfl⟩ := hv; first | rfl | exact ht _)

/-! ### Maps, tuples -/

theorem deMap_takes {key value : Nat → Rd (List Value)} {k : Nat} (hk : 1 ≤ k) (h1 : ∀ n, Takes (Fair1 text k n) (key n))
    (h2 : ∀ n, Takes (Fair1 text k n) (value n)) (n : Nat) : Takes (Fair1 text k n) (deMap key value n) := by
  unfold deMap
  refine Takes.ite (fun h => Takes.pure ⟨by omega, Nat.zero_le _⟩) (fun _ => ?_)
  refine Takes.bind (P := fun os c => 8 * os.length = c ∧ os.length = n) (Q := fun os r c => weighAll text r ≤ os.length + k * c)
    (Takes.rep (R := fun os c => 8 * os.length = c) Takes.u64 rfl
    (fun a as i j h1 h2 => by simp only [List.length_cons]; omega) n) (fun os => ?_) ?_
  · dsimp only
    refine Takes.bind (Q := fun ks r c => weighAll text r ≤ os.length + weighAll text ks + k * c) (h1 _) (fun ks => ?_) ?_
    · refine Takes.ite (fun _ => Takes.panic) (fun _ => Takes.bind
        (Q := fun vs r c => c = 0 ∧ weighAll text r ≤ os.length + weighAll text ks + weighAll text vs) (h2 _)
        (fun vs => Takes.ite (fun _ => Takes.panic) (fun _ => Takes.lift (fun r hr => ⟨rfl, splitMap_weigh _ _ _ _ _ hr⟩))) ?_)
      rintro vs r i j ⟨_, h3⟩ ⟨rfl, h4⟩
      exact Nat.le_trans h4 (Nat.add_le_add_left h3 _)
    · rintro ks r i j ⟨_, h3⟩ h4
      rw [Nat.mul_add]
      omega
  · rintro os r i j ⟨h3, h4⟩ h5
    have : i ≤ k * i := Nat.le_mul_of_pos_left i (by omega)
    refine ⟨by omega, ?_⟩
    rw [Nat.mul_add]
    omega

/-- The text measures for which the bound is shown: one for a string when `LowCardinality` occurs, otherwise up to its length. -/
def Measured (text : Bytes → Nat) (lc : Bool) : Prop := (∀ b, 1 ≤ text b ∧ text b ≤ 1 + b.length) ∧ (lc = true → ∀ b, text b = 1)

theorem Measured.weaken {a b : Bool} (h : Measured text b) (hab : a = true → b = true) : Measured text a := ⟨h.1, fun ha => h.2 (hab ha)⟩

theorem deSized_takes {cfg : Cfg} {t : Ty} (h : t.isSized = true) (n : Nat) : Takes (Fair1 text 2 n) (deCol cfg t n) := by
  rw [deCol_sized h]
  refine Takes.guard (rep_fair ?_ n)
  have e : ∀ {P : Value → Nat → Prop} m w (f : BitVec w → Value), (∀ x, P (f x) m) → Takes P (readLe m w >>= fun x => pure (f x)) :=
    fun m w f h => Takes.map (Takes.le m w) (fun a i hi => by rw [hi]; exact h a)
  cases t <;> first
    | (cases h; done)
    | exact e _ _ _ (fun x => by simp only [weigh]; omega)
    | exact Takes.map (Takes.exact _) (fun a i hi => by simp only [weigh]; omega)
    | (refine Takes.bind (Q := fun _ v c => weigh text v = 1) (Takes.le 2 16) (fun x => Takes.ite (fun _ => Takes.pure rfl) (fun _ => Takes.panic))
        (fun _ _ _ _ _ _ => by omega))
    | (refine Takes.bind (Q := fun _ v c => weigh text v = 1) (Takes.le 8 64) (fun x => Takes.map (Takes.le 8 64) (fun _ _ _ => rfl))
        (fun _ _ _ _ _ _ => by omega))

theorem scalar_takes {cfg : Cfg} {t : Ty} (h : t.isScalar = true) (hr : roomy t = true) (ht : ∀ b, 1 ≤ text b ∧ text b ≤ 1 + b.length)
    (n : Nat) : Takes (Fair1 text 2 n) (deCol cfg t n) := by
  by_cases hs : t.isSized = true
  · exact deSized_takes hs n
  cases t <;> first | (cases h; done) | exact absurd rfl hs | skip
  · refine Takes.guard (rep_fair (Takes.map Takes.string ?_) n)
    intro b c h
    have := ht b
    simp only [weigh]
    omega
  · rename_i k
    have hk : k ≠ 0 := by simpa [roomy] using hr
    refine Takes.guard (rep_fair (Takes.ite (fun _ => Takes.panic) (fun _ => Takes.map (Takes.exact k) ?_)) n)
    intro b c h
    have := ht (cutAtNul b)
    have : (cutAtNul b).length ≤ b.length := (List.takeWhile_sublist _).length_le
    simp only [weigh]
    omega

mutual
theorem deCol_takes {cfg : Cfg} : ∀ (t : Ty), roomy t = true → Measured text (usesLc t) → ∀ (n : Nat),
    Takes (Fair1 text (2 + tupleDepth t) n) (deCol cfg t n)
  | .string, hr, ht, n => scalar_takes rfl hr ht.1 n
  | .fixedString _, hr, ht, n => scalar_takes rfl hr ht.1 n
  | .array t, hr, ht, n => by
    refine Takes.guard ?_
    refine Takes.map (Takes.also (deArr_takes (w := weighAll text) (ws := weighRows text) (k := 2 + tupleDepth t) (by omega) rfl
      (fun m => Takes.mono (deCol_takes t hr ht m) (fun _ _ h => h.2)) (fun os p i r h => splitOffsets_weigh os p i r h) n)
      (fun s a s' h => deArr_length h)) ?_
    rintro xss c ⟨⟨h1, h2⟩, h3⟩
    refine ⟨h1, ?_⟩
    rw [weighAll_arrays, h3]
    exact h2
  | .tuple ts, hr, ht, n => by
    simp only [roomy, Bool.and_eq_true, Bool.not_eq_true', List.isEmpty_eq_false_iff] at hr
    refine Takes.guard ?_
    refine Takes.map (Takes.also (deCols_takes ts hr.2 ht n (List.replicate n []))
      (fun s a s' h => deCols_length _ _ _ _ _ _ h)) ?_
    rintro rs c ⟨⟨h1, h2⟩, h3⟩
    refine ⟨h1 hr.1, ?_⟩
    have h1 := h1 hr.1
    rw [weighAll_tuples, h3, List.length_replicate]
    rw [weighRows_replicate] at h2
    have e : 2 + tupleDepth (.tuple ts) = 1 + (2 + tupleDepths ts) := by simp only [tupleDepth]; omega
    rw [e, Nat.add_mul]
    omega
  | .point, _, ht, n => by
    refine Takes.map (dePts_takes n) ?_
    rintro ps c ⟨h1, h2⟩
    refine ⟨h1, ?_⟩
    rw [weighAll_map]
    exact Nat.le_trans h2 (Nat.le_mul_of_pos_left _ (by omega))
  | .ring, _, ht, n => by
    refine Takes.map (arr_total dePts_takes n) ?_
    rintro ps c ⟨h1, h2⟩
    refine ⟨h1, ?_⟩
    have e : (fun x => weigh text (.ring x)) = fun xs => 1 + total (fun _ => 1) xs := by
      funext x; simp [weigh, total_one]
    rw [weighAll_map, e]
    exact Nat.le_trans h2 (Nat.le_mul_of_pos_left _ (by omega))
  | .polygon, _, ht, n => by
    refine Takes.map (arr_total (arr_total dePts_takes) n) ?_
    rintro ps c ⟨h1, h2⟩
    refine ⟨h1, ?_⟩
    have e : (fun x => weigh text (.polygon x)) = fun xs => 1 + total (fun ys => 1 + total (fun _ => 1) ys) xs := by
      funext x; simp only [weigh, total_one]; rfl
    rw [weighAll_map, e]
    exact Nat.le_trans h2 (Nat.le_mul_of_pos_left _ (by omega))
  | .multiPolygon, _, ht, n => by
    refine Takes.map (arr_total (arr_total (arr_total dePts_takes)) n) ?_
    rintro ps c ⟨h1, h2⟩
    refine ⟨h1, ?_⟩
    have e : (fun x => weigh text (.multiPolygon x)) =
        fun xs => 1 + total (fun zs => 1 + total (fun ys => 1 + total (fun _ => 1) ys) zs) xs := by
      funext x; simp only [weigh, total_one]; rfl
    rw [weighAll_map, e]
    exact Nat.le_trans h2 (Nat.le_mul_of_pos_left _ (by omega))
  | .nullable t, hr, ht, n => by
    refine Takes.guard ?_
    refine Takes.bind (Q := fun _ vs c => weighAll text vs ≤ (2 + tupleDepth t) * c) (Takes.exact n)
      (fun mask => Takes.bind (Q := fun out vs c => c = 0 ∧ weighAll text vs ≤ weighAll text out) (deCol_takes t hr ht n)
        (fun out => Takes.lift (fun r h => ⟨rfl, applyMask_weigh (fun b => (ht.1 b).1) _ _ _ h⟩)) ?_) ?_
    · rintro out vs i j ⟨_, h1⟩ ⟨rfl, h2⟩
      exact Nat.le_trans h2 h1
    · rintro mask vs i j ⟨_, h1⟩ h2
      refine ⟨by omega, Nat.le_trans h2 (Nat.mul_le_mul_left _ (by omega))⟩
  | .map k v, hr, ht, n => by
    simp only [roomy, Bool.and_eq_true] at hr
    refine Takes.guard ?_
    refine deMap_takes (by omega) (fun m => Takes.mono (deCol_takes k hr.1 (ht.weaken (fun h => by simp [usesLc, h])) m) (fun _ _ h => h.mono ?_))
      (fun m => Takes.mono (deCol_takes v hr.2 (ht.weaken (fun h => by simp [usesLc, h])) m) (fun _ _ h => h.mono ?_)) n
    · simp only [tupleDepth]; omega
    · simp only [tupleDepth]; omega
  | .lowCardinality t, hr, ht, n => by
    have h1 : ∀ b, text b = 1 := ht.2 rfl
    simp only [roomy, Bool.and_eq_true] at hr
    have hr' : roomy t.stripNull = true := by cases t <;> first | exact hr.2 | exact hr.2
    have hd : ∀ m, Takes (fun _ _ => True) (deCol cfg t.stripNull m) := fun m =>
      Takes.mono (scalar_takes (lcAllowed_scalar hr.1) hr' ht.1 m) (fun _ _ _ => trivial)
    have ho : ∀ m s vs s', deCol cfg t.stripNull m s = .ok (vs, s') → Ones text vs :=
      fun m s vs s' h v hv => lcAllowed_ones hr.1 h1 (deCol_shaped _ m s s' vs h v hv)
    by_cases hn : t.isNullable = true
    · match t, hn, hd, ho with
      | .nullable u, _, hd, ho => exact Takes.guard (deLc_takes hd ho n)
    · have hn := Bool.eq_false_iff.mpr hn
      have e : t.stripNull = t := by cases t <;> first | rfl | (cases hn; done)
      rw [deCol_lc_nonnull hn]
      rw [e] at hd ho
      exact Takes.guard (deLc_takes hd ho n)
  | .int8, _, _, n => deSized_takes rfl n
  | .int16, _, _, n => deSized_takes rfl n
  | .int32, _, _, n => deSized_takes rfl n
  | .int64, _, _, n => deSized_takes rfl n
  | .int128, _, _, n => deSized_takes rfl n
  | .int256, _, _, n => deSized_takes rfl n
  | .uint8, _, _, n => deSized_takes rfl n
  | .uint16, _, _, n => deSized_takes rfl n
  | .uint32, _, _, n => deSized_takes rfl n
  | .uint64, _, _, n => deSized_takes rfl n
  | .uint128, _, _, n => deSized_takes rfl n
  | .uint256, _, _, n => deSized_takes rfl n
  | .float32, _, _, n => deSized_takes rfl n
  | .float64, _, _, n => deSized_takes rfl n
  | .bfloat16, _, _, n => deSized_takes rfl n
  | .decimal32 _, _, _, n => deSized_takes rfl n
  | .decimal64 _, _, _, n => deSized_takes rfl n
  | .decimal128 _, _, _, n => deSized_takes rfl n
  | .decimal256 _, _, _, n => deSized_takes rfl n
  | .uuid, _, _, n => deSized_takes rfl n
  | .date, _, _, n => deSized_takes rfl n
  | .dateTime _, _, _, n => deSized_takes rfl n
  | .dateTime64 _ _, _, _, n => deSized_takes rfl n
  | .ipv4, _, _, n => deSized_takes rfl n
  | .ipv6, _, _, n => deSized_takes rfl n
  | .enum8 _, _, _, n => deSized_takes rfl n
  | .enum16 _, _, _, n => deSized_takes rfl n
theorem deCols_takes {cfg : Cfg} : ∀ (ts : List Ty), roomyAll ts = true → Measured text (usesLcAny ts) → ∀ (n : Nat) (acc : List (List Value)),
    Takes (fun rs c => (ts ≠ [] → n ≤ c) ∧ weighRows text rs ≤ weighRows text acc + (2 + tupleDepths ts) * c) (deCols cfg ts n acc)
  | [], _, _, n, acc => Takes.pure ⟨fun h => absurd rfl h, by omega⟩
  | t :: ts, hr, ht, n, acc => by
    simp only [roomyAll, Bool.and_eq_true] at hr
    have h1 := deCol_takes (cfg := cfg) t hr.1 (ht.weaken (fun h => by simp [usesLcAny, h])) n
    have h2 := fun acc' => deCols_takes (cfg := cfg) ts hr.2 (ht.weaken (fun h => by simp [usesLcAny, h])) n acc'
    refine Takes.bind (Q := fun vs rs c => weighRows text rs ≤ weighRows text acc + weighAll text vs + (2 + tupleDepths ts) * c)
      h1 (fun vs => Takes.bind (P := fun acc' c => c = 0 ∧ weighRows text acc' = weighRows text acc + weighAll text vs)
        (Takes.lift (fun r h => ⟨rfl, pushCol_weigh _ _ _ h⟩)) h2 ?_) ?_
    · rintro acc' rs i j ⟨rfl, h3⟩ ⟨_, h4⟩
      rw [Nat.zero_add]
      omega
    · rintro vs rs i j ⟨h3, h4⟩ h5
      refine ⟨fun _ => by omega, ?_⟩
      have e1 : (2 + tupleDepth t) * i ≤ (2 + tupleDepths (t :: ts)) * i := Nat.mul_le_mul_right _ (by simp only [tupleDepths]; omega)
      have e2 : (2 + tupleDepths ts) * j ≤ (2 + tupleDepths (t :: ts)) * j := Nat.mul_le_mul_right _ (by simp only [tupleDepths]; omega)
      rw [Nat.mul_add]
      omega
end

/-! ### What is taken is a prefix, whatever the type -/

theorem Takes.any {α : Type} {P : α → Nat → Prop} {x : Rd α} (h : Takes P x) : Takes (fun _ _ => True) x := h.mono (fun _ _ _ => trivial)

theorem Takes.rep_any {α : Type} {P : α → Nat → Prop} {x : Rd α} (h : Takes P x) (n : Nat) : Takes (fun _ _ => True) (Rd.rep n x) :=
  (Takes.rep (R := fun _ _ => True) h trivial (fun _ _ _ _ _ _ => trivial) n).any

theorem Takes.bind_any {α β : Type} {x : Rd α} {f : α → Rd β} (h : Takes (fun _ _ => True) x) (hf : ∀ a, Takes (fun _ _ => True) (f a)) :
    Takes (fun _ _ => True) (x >>= f) := Takes.bind h hf (fun _ _ _ _ _ _ => trivial)

theorem deArr_any {α : Type} {cfg : Cfg} {inner : Nat → Rd (List α)} (h : ∀ n, Takes (fun _ _ => True) (inner n)) (n : Nat) :
    Takes (fun _ _ => True) (deArr cfg inner n) := by
  unfold deArr
  exact Takes.ite (fun _ => Takes.pure trivial) (fun _ => Takes.bind_any (Takes.rep_any Takes.u64 n) (fun _ =>
    Takes.bind_any (h _) (fun _ => Takes.lift (fun _ _ => trivial))))

mutual
theorem deCol_any {cfg : Cfg} : ∀ (t : Ty) (n : Nat), Takes (fun _ _ => True) (deCol cfg t n)
  | .string, n => Takes.guard (Takes.rep_any (Takes.bind_any Takes.string.any (fun _ => Takes.pure trivial)) n)
  | .fixedString k, n => Takes.guard (Takes.rep_any (Takes.ite (fun _ => Takes.panic)
      (fun _ => Takes.bind_any (Takes.exact k).any (fun _ => Takes.pure trivial))) n)
  | .array t, n => Takes.guard (Takes.bind_any (deArr_any (deCol_any t) n) (fun _ => Takes.pure trivial))
  | .tuple ts, n => Takes.guard (Takes.bind_any (deCols_any ts n _) (fun _ => Takes.pure trivial))
  | .point, n => Takes.bind_any (dePts_takes n).any (fun _ => Takes.pure trivial)
  | .ring, n => Takes.bind_any (arr_total dePts_takes n).any (fun _ => Takes.pure trivial)
  | .polygon, n => Takes.bind_any (arr_total (arr_total dePts_takes) n).any (fun _ => Takes.pure trivial)
  | .multiPolygon, n => Takes.bind_any (arr_total (arr_total (arr_total dePts_takes)) n).any (fun _ => Takes.pure trivial)
  | .nullable t, n => Takes.guard (Takes.bind_any (Takes.exact n).any (fun _ => Takes.bind_any (deCol_any t n)
      (fun _ => Takes.lift (fun _ _ => trivial))))
  | .map k v, n => Takes.guard (by
      unfold deMap
      exact Takes.ite (fun _ => Takes.pure trivial) (fun _ => Takes.bind_any (Takes.rep_any Takes.u64 n) (fun _ =>
        Takes.bind_any (deCol_any k _) (fun _ => Takes.ite (fun _ => Takes.panic) (fun _ => Takes.bind_any (deCol_any v _)
          (fun _ => Takes.ite (fun _ => Takes.panic) (fun _ => Takes.lift (fun _ _ => trivial))))))))
  | .lowCardinality t, n => by
    have h := deCol_any (cfg := cfg) t
    have key : ∀ (dict : Nat → Rd (List Value)) (b : Bool), (∀ n, Takes (fun _ _ => True) (dict n)) →
        Takes (fun _ _ => True) (guardRows n (deLc dict b n)) :=
      fun dict b hd => Takes.guard (fun s a s' hs => (lcLoop_takes hd _ _ _ _).any s a s' hs)
    by_cases hn : t.isNullable = true
    · match t, hn, h with
      | .nullable u, _, h =>
        refine key (deCol cfg u) true (fun m => ?_)
        -- the dictionary of a nullable type is read as the bare type
        exact deCol_any u m
    · have hn := Bool.eq_false_iff.mpr hn
      rw [deCol_lc_nonnull hn]
      exact key _ _ h
  | .int8, n => Takes.mono (deSized_takes (text := fun _ => 1) rfl n) (fun _ _ _ => trivial)
  | .int16, n => Takes.mono (deSized_takes (text := fun _ => 1) rfl n) (fun _ _ _ => trivial)
  | .int32, n => Takes.mono (deSized_takes (text := fun _ => 1) rfl n) (fun _ _ _ => trivial)
  | .int64, n => Takes.mono (deSized_takes (text := fun _ => 1) rfl n) (fun _ _ _ => trivial)
  | .int128, n => Takes.mono (deSized_takes (text := fun _ => 1) rfl n) (fun _ _ _ => trivial)
  | .int256, n => Takes.mono (deSized_takes (text := fun _ => 1) rfl n) (fun _ _ _ => trivial)
  | .uint8, n => Takes.mono (deSized_takes (text := fun _ => 1) rfl n) (fun _ _ _ => trivial)
  | .uint16, n => Takes.mono (deSized_takes (text := fun _ => 1) rfl n) (fun _ _ _ => trivial)
  | .uint32, n => Takes.mono (deSized_takes (text := fun _ => 1) rfl n) (fun _ _ _ => trivial)
  | .uint64, n => Takes.mono (deSized_takes (text := fun _ => 1) rfl n) (fun _ _ _ => trivial)
  | .uint128, n => Takes.mono (deSized_takes (text := fun _ => 1) rfl n) (fun _ _ _ => trivial)
  | .uint256, n => Takes.mono (deSized_takes (text := fun _ => 1) rfl n) (fun _ _ _ => trivial)
  | .float32, n => Takes.mono (deSized_takes (text := fun _ => 1) rfl n) (fun _ _ _ => trivial)
  | .float64, n => Takes.mono (deSized_takes (text := fun _ => 1) rfl n) (fun _ _ _ => trivial)
  | .bfloat16, n => Takes.mono (deSized_takes (text := fun _ => 1) rfl n) (fun _ _ _ => trivial)
  | .uuid, n => Takes.mono (deSized_takes (text := fun _ => 1) rfl n) (fun _ _ _ => trivial)
  | .date, n => Takes.mono (deSized_takes (text := fun _ => 1) rfl n) (fun _ _ _ => trivial)
  | .ipv4, n => Takes.mono (deSized_takes (text := fun _ => 1) rfl n) (fun _ _ _ => trivial)
  | .ipv6, n => Takes.mono (deSized_takes (text := fun _ => 1) rfl n) (fun _ _ _ => trivial)
  | .decimal32 _, n => Takes.mono (deSized_takes (text := fun _ => 1) rfl n) (fun _ _ _ => trivial)
  | .decimal64 _, n => Takes.mono (deSized_takes (text := fun _ => 1) rfl n) (fun _ _ _ => trivial)
  | .decimal128 _, n => Takes.mono (deSized_takes (text := fun _ => 1) rfl n) (fun _ _ _ => trivial)
  | .decimal256 _, n => Takes.mono (deSized_takes (text := fun _ => 1) rfl n) (fun _ _ _ => trivial)
  | .dateTime _, n => Takes.mono (deSized_takes (text := fun _ => 1) rfl n) (fun _ _ _ => trivial)
  | .enum8 _, n => Takes.mono (deSized_takes (text := fun _ => 1) rfl n) (fun _ _ _ => trivial)
  | .enum16 _, n => Takes.mono (deSized_takes (text := fun _ => 1) rfl n) (fun _ _ _ => trivial)
  | .dateTime64 _ _, n => Takes.mono (deSized_takes (text := fun _ => 1) rfl n) (fun _ _ _ => trivial)
theorem deCols_any {cfg : Cfg} : ∀ (ts : List Ty) (n : Nat) (acc : List (List Value)), Takes (fun _ _ => True) (deCols cfg ts n acc)
  | [], _, _ => Takes.pure trivial
  | t :: ts, n, _ => Takes.bind_any (deCol_any t n) (fun _ => Takes.bind_any (Takes.lift (fun _ _ => trivial)) (fun _ => deCols_any ts n _))
end

end
end Klick
