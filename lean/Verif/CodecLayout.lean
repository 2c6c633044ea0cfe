import Verif.CodecSafe
/-
Lemmas connecting the writers with the layout specification, and validation with storability.
-/
namespace Klick
open Spec

theorem le_eq_leBytes (n x : Nat) : le n x = leBytes n x := by
  induction n generalizing x with
  | zero => rfl
  | succ n ih =>
    simp only [le, ih, leBytes, List.range_succ_eq_map, List.map_cons, List.map_map]
    congr 1
    · simp
    · apply List.map_congr_left
      intro i _
      simp only [Function.comp, Nat.pow_succ, Nat.div_div_eq_div_mul, Nat.mul_comm]

theorem leBytes_length (n x : Nat) : (leBytes n x).length = n := by simp [leBytes]

theorem le_mod (n x : Nat) : le n (x % 256 ^ n) = le n x := by
  induction n generalizing x with
  | zero => rfl
  | succ n ih =>
    simp only [le]
    have e : x % 256 ^ (n + 1) / 256 = x / 256 % 256 ^ n := by
      rw [Nat.pow_succ, Nat.mul_comm, Nat.mod_mul_right_div_self]
    rw [e, ih]
    congr 1
    apply BitVec.eq_of_toNat_eq
    simp only [BitVec.toNat_ofNat]
    rw [Nat.pow_succ, Nat.mul_comm]
    exact Nat.mod_mul_right_mod x 256 (256 ^ n)

theorem serSized1_layout {cfg : Cfg} {t : Ty} (hs : t.isSized = true) (hw : WellFormed cfg t)
    {v : Value} (hv : Storable cfg t v) : serSized1 cfg v = .ok (wireBytes v) := by
  cases t <;> first
    | (cases hs; done)
    | skip
  case int8 =>
    simp only [Storable] at hv
    rcases hv with ⟨x, rfl⟩ | ⟨x, rfl⟩ <;> simp [serSized1, wireBytes, le_eq_leBytes]
  case bfloat16 =>
    cases hw with
    | bfloat16 hb =>
    simp only [Storable] at hv
    obtain ⟨x, rfl⟩ := hv
    simp [serSized1, wireBytes, le_eq_leBytes, hb]
  case uuid =>
    simp only [Storable] at hv
    obtain ⟨x, rfl⟩ := hv
    simp only [serSized1, wireBytes, ← le_eq_leBytes]
    have h1 : (x >>> 64).toNat = x.toNat / 2 ^ 64 := by
      simp [Nat.shiftRight_eq_div_pow]
    have h2 : le 8 (x.toNat % 2 ^ 64) = le 8 x.toNat := by
      have := le_mod 8 x.toNat
      simpa using this
    rw [h1, h2]
  case ipv6 =>
    simp only [Storable] at hv
    obtain ⟨x, rfl⟩ := hv
    simp [serSized1, wireBytes, be, beBytes, le_eq_leBytes]
  all_goals
    simp only [Storable] at hv
    obtain ⟨x, rfl⟩ := hv
    simp [serSized1, wireBytes, be, le_eq_leBytes]

theorem wireBytes_length {cfg : Cfg} {t : Ty} {n : Nat} (hs : wireSize t = some n)
    {v : Value} (hv : Storable cfg t v) : (wireBytes v).length = n := by
  cases t <;> first
    | (cases hs; done)
    | skip
  case int8 =>
    simp only [Storable] at hv
    cases hs
    rcases hv with ⟨x, rfl⟩ | ⟨x, rfl⟩ <;> simp [wireBytes, leBytes]
  all_goals
    simp only [Storable] at hv
    obtain ⟨x, rfl⟩ := hv
    cases hs
    simp [wireBytes, leBytes, beBytes]

theorem wireSize_sized {t : Ty} {n : Nat} (h : wireSize t = some n) : t.isSized = true := by
  cases t <;> first | rfl | (cases h; done)

theorem offsetsFrom_prefixSums (acc : Nat) (ns : List Nat) :
    offsetsFrom acc ns = ((prefixSums acc ns).map (le 8)).flatten := by
  induction ns generalizing acc with
  | nil => rfl
  | cons n ns ih => simp [offsetsFrom, prefixSums, ih, writeU64]

theorem prefixSums_spec (acc : Nat) (ns : List Nat) :
    prefixSums acc ns = (endOffsets ns).map (acc + ·) := by
  induction ns generalizing acc with
  | nil => rfl
  | cons n ns ih =>
    simp only [prefixSums, ih, endOffsets, List.length_cons, List.range_succ_eq_map, List.map_cons,
      List.map_map]
    simp [Nat.add_assoc]

theorem offsetsFrom_spec (ns : List Nat) :
    offsetsFrom 0 ns = ((endOffsets ns).map (leBytes 8)).flatten := by
  rw [offsetsFrom_prefixSums, prefixSums_spec]
  simp only [Nat.zero_add, List.map_id']
  congr 1
  apply List.map_congr_left
  intro x _
  exact le_eq_leBytes 8 x

theorem keyInsert_nodup {keys : List Value} {v : Value} (hk : ∀ k ∈ keys, keyLike k = true)
    (h : keys.Nodup) : (keyInsert keys v).Nodup := by
  unfold keyInsert
  split
  · exact h
  · rename_i hn
    rw [List.nodup_append]
    refine ⟨h, by simp, ?_⟩
    intro a ha b hb
    simp only [List.mem_singleton] at hb
    subst hb
    rintro rfl
    apply hn
    simp only [List.any_eq_true]
    exact ⟨a, ha, (eqv_iff_eq (hk a ha) a).2 rfl⟩

theorem foldl_keyInsert_nodup (vs : List Value) (hv : ∀ v ∈ vs, keyLike v = true) :
    ∀ keys : List Value, (∀ k ∈ keys, keyLike k = true) → keys.Nodup →
      (vs.foldl keyInsert keys).Nodup := by
  induction vs with
  | nil => intro keys _ h; exact h
  | cons v vs ih =>
    intro keys hk h
    refine ih (fun w hw => hv w (by simp [hw])) _ ?_ (keyInsert_nodup hk h)
    intro k hkm
    rcases (keyInsert_mem hk).1 hkm with h | rfl
    · exact hk k h
    · exact hv k (by simp)

theorem lcKeys_nodup (nullable : Bool) (vs : List Value) (hv : ∀ v ∈ vs, keyLike v = true) :
    (lcKeys nullable vs).Nodup := by
  unfold lcKeys
  apply foldl_keyInsert_nodup vs hv
  · cases nullable <;> simp [keyLike]
  · cases nullable <;> simp

/-! ### validation -/

theorem isByte_all {xs : List Value} (h : xs.all Value.isByte = true) :
    ∀ x ∈ xs, ByteValue x := fun x hx => (isByte_iff x).mp (List.all_eq_true.mp h x hx)

mutual
theorem storable_of_valid {cfg : Cfg} : ∀ (t : Ty) (v : Value), t.innerValidate cfg v = true →
    Regular t v → Storable cfg t v
  | .array t, v, hv, hr => by
    cases v <;> first | (simp [Ty.innerValidate] at hv; done) | skip
    rename_i xs
    simp only [Ty.innerValidate, List.all_eq_true] at hv
    simp only [Regular, elems] at hr
    simp only [Storable]
    exact ⟨xs, rfl, fun x hx => storable_of_valid t x (hv x hx) (hr x hx)⟩
  | .lowCardinality t, v, hv, hr => by
    simp only [Ty.innerValidate, Regular, Storable] at *
    exact storable_of_valid t v hv hr
  | .nullable t, v, hv, hr => by
    simp only [Ty.innerValidate, Regular, Storable, Bool.or_eq_true] at *
    by_cases h0 : v = .null
    · exact .inl ⟨h0, hr.1 h0⟩
    · rcases hv with h | h
      · exact absurd (by cases v <;> first | rfl | (simp [Value.isNull] at h; done)) h0
      · exact .inr (storable_of_valid t v h (hr.2 h0))
  | .map k t, v, hv, hr => by
    cases v <;> first | (simp [Ty.innerValidate] at hv; done) | skip
    rename_i ks ws
    simp only [Ty.innerValidate, List.all_eq_true, Bool.and_eq_true] at hv
    simp only [Regular, mapKeys, mapVals] at hr
    simp only [Storable]
    exact ⟨ks, ws, rfl, hr.1, fun x hx => storable_of_valid k x (hv.1 x hx) (hr.2.1 x hx),
      fun x hx => storable_of_valid t x (hv.2 x hx) (hr.2.2 x hx)⟩
  | .tuple ts, v, hv, hr => by
    cases v <;> first | (simp [Ty.innerValidate] at hv; done) | skip
    rename_i xs
    simp only [Ty.innerValidate] at hv
    simp only [Regular, members] at hr
    simp only [Storable]
    exact ⟨xs, rfl, storableAll_of_valid ts xs hv hr.1 hr.2⟩
  | .string, v, hv, hr => by
    cases v <;> first | (simp [Ty.innerValidate] at hv; done) | skip
    · simp only [Regular] at hr; simp only [Storable]; exact .inl ⟨_, rfl, hr⟩
    · simp only [Regular] at hr; simp only [Storable]; exact .inr ⟨_, rfl, hr, isByte_all hv⟩
  | .fixedString n, v, hv, hr => by
    cases v <;> first | (simp [Ty.innerValidate] at hv; done) | skip
    · simp only [Storable]; exact .inl ⟨_, rfl⟩
    · simp only [Storable]; exact .inr ⟨_, rfl, isByte_all hv⟩
  | .int8, v, hv, _ => by
    cases v <;> first | (simp [Ty.innerValidate] at hv; done) | simp [Storable]
  | .int16, v, hv, _ => by
    cases v <;> first | (simp [Ty.innerValidate] at hv; done) | simp [Storable]
  | .int32, v, hv, _ => by
    cases v <;> first | (simp [Ty.innerValidate] at hv; done) | simp [Storable]
  | .int64, v, hv, _ => by
    cases v <;> first | (simp [Ty.innerValidate] at hv; done) | simp [Storable]
  | .int128, v, hv, _ => by
    cases v <;> first | (simp [Ty.innerValidate] at hv; done) | simp [Storable]
  | .int256, v, hv, _ => by
    cases v <;> first | (simp [Ty.innerValidate] at hv; done) | simp [Storable]
  | .uint8, v, hv, _ => by
    cases v <;> first | (simp [Ty.innerValidate] at hv; done) | simp [Storable]
  | .uint16, v, hv, _ => by
    cases v <;> first | (simp [Ty.innerValidate] at hv; done) | simp [Storable]
  | .uint32, v, hv, _ => by
    cases v <;> first | (simp [Ty.innerValidate] at hv; done) | simp [Storable]
  | .uint64, v, hv, _ => by
    cases v <;> first | (simp [Ty.innerValidate] at hv; done) | simp [Storable]
  | .uint128, v, hv, _ => by
    cases v <;> first | (simp [Ty.innerValidate] at hv; done) | simp [Storable]
  | .uint256, v, hv, _ => by
    cases v <;> first | (simp [Ty.innerValidate] at hv; done) | simp [Storable]
  | .float32, v, hv, _ => by
    cases v <;> first | (simp [Ty.innerValidate] at hv; done) | simp [Storable]
  | .float64, v, hv, _ => by
    cases v <;> first | (simp [Ty.innerValidate] at hv; done) | simp [Storable]
  | .bfloat16, v, hv, _ => by
    cases v <;> first | (simp [Ty.innerValidate] at hv; done) | simp [Storable]
  | .decimal32 _, v, hv, _ => by
    cases v <;> first | (simp [Ty.innerValidate] at hv; done) | simp_all [Storable, Ty.innerValidate]
  | .decimal64 _, v, hv, _ => by
    cases v <;> first | (simp [Ty.innerValidate] at hv; done) | simp_all [Storable, Ty.innerValidate]
  | .decimal128 _, v, hv, _ => by
    cases v <;> first | (simp [Ty.innerValidate] at hv; done) | simp_all [Storable, Ty.innerValidate]
  | .decimal256 _, v, hv, _ => by
    cases v <;> first | (simp [Ty.innerValidate] at hv; done) | simp_all [Storable, Ty.innerValidate]
  | .uuid, v, hv, _ => by
    cases v <;> first | (simp [Ty.innerValidate] at hv; done) | simp [Storable]
  | .date, v, hv, _ => by
    cases v <;> first | (simp [Ty.innerValidate] at hv; done) | simp [Storable]
  | .dateTime _, v, hv, _ => by
    cases v <;> first | (simp [Ty.innerValidate] at hv; done) | simp_all [Storable, Ty.innerValidate]
  | .dateTime64 _ _, v, hv, _ => by
    cases v <;> first | (simp [Ty.innerValidate] at hv; done) | simp_all [Storable, Ty.innerValidate]
  | .ipv4, v, hv, _ => by
    cases v <;> first | (simp [Ty.innerValidate] at hv; done) | simp [Storable]
  | .ipv6, v, hv, _ => by
    cases v <;> first | (simp [Ty.innerValidate] at hv; done) | simp [Storable]
  | .point, v, hv, _ => by
    cases v <;> first | (simp [Ty.innerValidate] at hv; done) | simp [Storable]
  | .ring, v, hv, _ => by
    cases v <;> first | (simp [Ty.innerValidate] at hv; done) | simp [Storable]
  | .polygon, v, hv, _ => by
    cases v <;> first | (simp [Ty.innerValidate] at hv; done) | simp [Storable]
  | .multiPolygon, v, hv, _ => by
    cases v <;> first | (simp [Ty.innerValidate] at hv; done) | simp [Storable]
  | .enum8 _, v, hv, _ => by
    cases v <;> first | (simp [Ty.innerValidate] at hv; done) | simp [Storable]
  | .enum16 _, v, hv, _ => by
    cases v <;> first | (simp [Ty.innerValidate] at hv; done) | simp [Storable]
theorem storableAll_of_valid {cfg : Cfg} : ∀ (ts : List Ty) (vs : List Value),
    Ty.innerValidateZip cfg ts vs = true → vs.length = ts.length → RegularAll ts vs →
    StorableAll cfg ts vs
  | [], vs, _, hl, _ => by simp only [StorableAll]; simpa using hl
  | t :: ts, vs, hv, hl, hr => by
    cases vs with
    | nil => simp at hl
    | cons v vs =>
      simp only [Ty.innerValidateZip, Bool.and_eq_true] at hv
      simp only [RegularAll] at hr
      simp only [StorableAll]
      exact ⟨v, vs, rfl, storable_of_valid t v hv.1 hr.1,
        storableAll_of_valid ts vs hv.2 (by simpa using hl) hr.2⟩
end

mutual
theorem wf_of_validate {cfg : Cfg} : ∀ (t : Ty), t.validate = true →
    (¬ unsupported cfg t = true) → WellFormed cfg t
  | .array t, h, hb => by
    simp only [Ty.validate, unsupported] at h hb
    exact .array (wf_of_validate t h hb)
  | .map k v, h, hb => by
    simp only [Ty.validate, unsupported, Bool.and_eq_true, Bool.or_eq_true] at h hb
    exact .map (wf_of_validate k h.1.2 (fun x => hb (.inl x)))
      (wf_of_validate v h.2 (fun x => hb (.inr x)))
  | .nullable t, h, hb => by
    simp only [Ty.validate, unsupported, Bool.and_eq_true] at h hb
    exact .nullable (by simpa using h.1) (wf_of_validate t h.2 hb)
  | .lowCardinality t, h, hb => by
    simp only [Ty.validate, Bool.and_eq_true] at h
    cases ht : t.isNullable with
    | true =>
      cases t <;> first | (cases ht; done) | skip
      rename_i u
      simp only [Ty.validate, Bool.and_eq_true] at h
      exact .lowCardinalityNullable h.1 (wf_of_validate u h.2.2 hb)
    | false =>
      exact .lowCardinality (by cases t <;> first | exact h.1 | (cases ht; done)) (wf_of_validate t h.2 hb)
  | .tuple ts, h, hb => by
    simp only [Ty.validate, unsupported] at h hb
    exact .tuple (wfs_of_validate ts h hb)
  | .bfloat16, _, hb => .bfloat16 (by simpa [unsupported] using hb)
  | .string, _, _ => .string | .fixedString _, _, hb => .fixedString (by simpa [unsupported] using hb)
  | .int8, _, _ => .int8 | .int16, _, _ => .int16 | .int32, _, _ => .int32
  | .int64, _, _ => .int64 | .int128, _, _ => .int128 | .int256, _, _ => .int256
  | .uint8, _, _ => .uint8 | .uint16, _, _ => .uint16 | .uint32, _, _ => .uint32
  | .uint64, _, _ => .uint64 | .uint128, _, _ => .uint128 | .uint256, _, _ => .uint256
  | .float32, _, _ => .float32 | .float64, _, _ => .float64
  | .decimal32 _, _, _ => .decimal32 | .decimal64 _, _, _ => .decimal64
  | .decimal128 _, _, _ => .decimal128 | .decimal256 _, _, _ => .decimal256
  | .uuid, _, _ => .uuid | .date, _, _ => .date | .dateTime _, _, _ => .dateTime
  | .dateTime64 _ _, _, _ => .dateTime64 | .ipv4, _, _ => .ipv4 | .ipv6, _, _ => .ipv6
  | .point, _, _ => .point | .ring, _, _ => .ring | .polygon, _, _ => .polygon
  | .multiPolygon, _, _ => .multiPolygon | .enum8 _, _, _ => .enum8 | .enum16 _, _, _ => .enum16
theorem wfs_of_validate {cfg : Cfg} : ∀ (ts : List Ty), Ty.validates ts = true →
    (¬ unsupportedAny cfg ts = true) → ∀ t ∈ ts, WellFormed cfg t
  | [], _, _ => by simp
  | t :: ts, h, hb => by
    simp only [Ty.validates, unsupportedAny, Bool.and_eq_true, Bool.or_eq_true] at h hb
    intro x hx
    simp only [List.mem_cons] at hx
    rcases hx with rfl | hx
    · exact wf_of_validate _ h.1 (fun y => hb (.inl y))
    · exact wfs_of_validate ts h.2 (fun y => hb (.inr y)) x hx
end

/-- Under `Nullable`, the inner writer sees the default wherever the row is NULL. -/
theorem serCol_justify {cfg : Cfg} {t : Ty} (hs : t.isScalar = true) {d : Value}
    (hd : t.defaultValue cfg = .ok d) (hn : d.isNull = false) (vs : List Value) :
    serCol cfg t vs = serCol cfg t (vs.map (fun v => if v.isNull then d else v)) := by
  have hj : ∀ v : Value, v.justifyNull cfg t =
      (if v.isNull then d else v).justifyNull cfg t := by
    intro v
    cases hv : v.isNull <;> simp [Value.justifyNull, hv, hd, hn]
  have hm : ∀ (f : Value → Res Bytes), Res.mapL (fun v => v.justifyNull cfg t >>= f) vs =
      Res.mapL (fun v => v.justifyNull cfg t >>= f)
        (vs.map (fun v => if v.isNull then d else v)) := by
    intro f
    induction vs with
    | nil => rfl
    | cons v vs ih => simp only [Res.mapL, List.map_cons, ih, hj v]
  by_cases hz : t.isSized = true
  · rw [serCol_sized hz, serCol_sized hz]; unfold serSized; rw [hm]
  · cases t <;> first
      | (cases hs; done)
      | (exact absurd rfl hz)
      | skip
    · show serStrings _ _ _ = serStrings _ _ _
      unfold serStrings; rw [hm]
    · show serStrings _ _ _ = serStrings _ _ _
      unfold serStrings; rw [hm]

end Klick
