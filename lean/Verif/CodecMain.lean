import Verif.CodecRt
/-
The column round trip, by induction on the type.
-/
namespace Klick
open Spec

mutual
theorem serCol_nil (cfg : Cfg) : ∀ t : Ty, serCol cfg t [] = .ok []
  | .string => rfl
  | .fixedString _ => rfl
  | .array t => by simp [serCol, Res.mapL, serCol_nil cfg t, offsetsFrom]
  | .tuple ts => by simp [serCol, Res.mapL, pushRows, serCols_nil cfg ts]
  | .point => rfl | .ring => rfl | .polygon => rfl | .multiPolygon => rfl
  | .nullable t => by simp [serCol, serCol_nil cfg t]
  | .map k v => by simp [serCol, Res.mapL, serCol_nil cfg k, serCol_nil cfg v, offsetsFrom]
  | .lowCardinality t => by cases t <;> rfl
  | .int8 => rfl | .int16 => rfl | .int32 => rfl | .int64 => rfl | .int128 => rfl | .int256 => rfl
  | .uint8 => rfl | .uint16 => rfl | .uint32 => rfl | .uint64 => rfl | .uint128 => rfl
  | .uint256 => rfl | .float32 => rfl | .float64 => rfl | .bfloat16 => rfl
  | .decimal32 _ => rfl | .decimal64 _ => rfl | .decimal128 _ => rfl | .decimal256 _ => rfl
  | .uuid => rfl | .date => rfl | .dateTime _ => rfl | .dateTime64 _ _ => rfl
  | .ipv4 => rfl | .ipv6 => rfl | .enum8 _ => rfl | .enum16 _ => rfl
theorem serCols_nil (cfg : Cfg) : ∀ ts : List Ty,
    serCols cfg ts (List.replicate ts.length []) = .ok []
  | [] => rfl
  | t :: ts => by simp [serCols, List.replicate_succ, serCol_nil cfg t, serCols_nil cfg ts]
end

theorem applyMask_map (vs : List Value) (f : Value → Value) :
    applyMask (vs.map (fun v => if v.isNull then 1#8 else 0#8)) (vs.map f) =
      .ok (vs.map (fun v => if v.isNull then .null else f v)) := by
  induction vs with
  | nil => rfl
  | cons v vs ih =>
    simp only [List.map_cons, applyMask, ih, Res.bind_ok]
    cases hv : v.isNull <;> simp

theorem lcAllowed_scalar {t : Ty} (h : t.lcAllowed = true) : t.isScalar = true := by
  cases t <;> first | rfl | (cases h; done)

theorem lcAllowed_keyLike {cfg : Cfg} {t : Ty} (h : t.lcAllowed = true) {v : Value}
    (hv : Storable cfg t v) : keyLike v = true := by
  cases v <;> first
    | rfl
    | skip
  case array xs =>
    cases t <;> first
      | (cases h; done)
      | (simp [Storable] at hv; done)
      | skip
    · simp only [Storable] at hv
      rcases hv with ⟨b, hb, _⟩ | ⟨ys, hy, _, h2⟩
      · cases hb
      · cases hy; simpa [keyLike, isByte_iff] using h2
    · simp only [Storable] at hv
      rcases hv with ⟨b, hb⟩ | ⟨ys, hy, h2⟩
      · cases hb
      · cases hy; simpa [keyLike, isByte_iff] using h2
  all_goals
    exfalso
    cases t <;> first
      | (cases h; done)
      | (simp [Storable] at hv; done)

theorem canon_null_of_nullable {t : Ty} (v : Value) :
    canon (.nullable t) v = if v.isNull then .null else canon t v := by
  cases v <;> rfl

theorem scalar_or_geo {t : Ty} (h : t.nullableRefused = false) :
    t.isScalar = true ∨ isGeo t = true := by
  cases t <;> first | exact .inl rfl | exact .inr rfl | (cases h; done)

/-- `mapL` of a destructuring function over values known to have that shape. -/
theorem mapL_shape {α : Type} {f : Value → Res α} {g : Value → α} {vs : List Value}
    (h : ∀ v ∈ vs, f v = .ok (g v)) : Res.mapL f vs = .ok (vs.map g) :=
  Res.mapL_ok_of_forall h

theorem storableAll_length {cfg : Cfg} : ∀ (ts : List Ty) (xs : List Value),
    StorableAll cfg ts xs → xs.length = ts.length
  | [], xs, h => by simp only [StorableAll] at h; simp [h]
  | t :: ts, xs, h => by
    simp only [StorableAll] at h
    obtain ⟨x, xs', rfl, _, h⟩ := h
    simp [storableAll_length ts xs' h]

/-- Statement of the round trip for one type. -/
def ColRt (cfg : Cfg) (t : Ty) : Prop :=
  ∀ vs : List Value, (∀ v ∈ vs, Storable cfg t v) → Fits t vs →
    ∃ b, serCol cfg t vs = .ok b ∧
      ∀ rest, deCol cfg t vs.length (b ++ rest) = .ok (vs.map (canon t), rest)

theorem scalar_rt {cfg : Cfg} {t : Ty} (hs : t.isScalar = true) (hw : WellFormed cfg t) :
    ColRt cfg t := by
  intro vs hv hf
  have hl : vs.length ≤ 2 ^ 30 := by
    cases t <;> first | exact hf | (cases hs; done)
  obtain ⟨b, h1, h2⟩ := scalar_col hs hw (fun v h => .inr (hv v h)) hl
  refine ⟨b, h1, fun rest => ?_⟩
  rw [h2]
  congr 2
  apply List.map_congr_left
  intro v hvm
  simp [readBack, storable_not_null hs (hv v hvm)]

theorem geo_rt (cfg : Cfg) {t : Ty} (hg : isGeo t = true) : ColRt cfg t := by
  intro vs hv hf
  cases t <;> first | (cases hg; done) | skip
  case point =>
    have hm : Res.mapL Value.unwrapPoint vs = .ok (vs.map (fun v => match v with | .point p => p | _ => ⟨0, 0⟩)) := by
      apply Res.mapL_ok_of_forall
      intro v h; have := hv v h; simp only [Storable] at this; obtain ⟨x, rfl⟩ := this; rfl
    refine ⟨_, by simp only [serCol, hm, Res.bind_ok]; rfl, fun rest => ?_⟩
    have hr := pts_roundtrip (vs.map (fun v => match v with | .point p => p | _ => ⟨0, 0⟩))
      (by simpa [Fits] using hf) rest
    rw [List.length_map] at hr
    simp only [deCol]
    rw [Rd.bind_run_ok hr]
    simp only [Rd.pure_apply, List.map_map]
    congr 2
    apply List.map_congr_left
    intro v h; have := hv v h; simp only [Storable] at this; obtain ⟨x, rfl⟩ := this; rfl
  case ring =>
    have hm : Res.mapL Value.unwrapRing vs = .ok (vs.map ringOf) := by
      apply Res.mapL_ok_of_forall
      intro v h; have := hv v h; simp only [Storable] at this; obtain ⟨x, rfl⟩ := this; rfl
    refine ⟨_, by simp only [serCol, hm, Res.bind_ok]; rfl, fun rest => ?_⟩
    simp only [Fits] at hf
    have hr := rings_roundtrip cfg (vs.map ringOf) (by simpa using hf.1)
      (by simpa [List.flatMap] using hf.2) rest
    rw [List.length_map] at hr
    simp only [deCol]
    rw [Rd.bind_run_ok hr]
    simp only [Rd.pure_apply, List.map_map]
    congr 2
    apply List.map_congr_left
    intro v h; have := hv v h; simp only [Storable] at this; obtain ⟨x, rfl⟩ := this; rfl
  case polygon =>
    have hm : Res.mapL Value.unwrapPolygon vs = .ok (vs.map polygonOf) := by
      apply Res.mapL_ok_of_forall
      intro v h; have := hv v h; simp only [Storable] at this; obtain ⟨x, rfl⟩ := this; rfl
    refine ⟨_, by simp only [serCol, hm, Res.bind_ok]; rfl, fun rest => ?_⟩
    simp only [Fits] at hf
    have hr := polygons_roundtrip cfg (vs.map polygonOf) (by simpa using hf.1)
      (by simpa [List.flatMap] using hf.2.1) (by simpa [List.flatMap] using hf.2.2) rest
    rw [List.length_map] at hr
    simp only [deCol]
    rw [Rd.bind_run_ok hr]
    simp only [Rd.pure_apply, List.map_map]
    congr 2
    apply List.map_congr_left
    intro v h; have := hv v h; simp only [Storable] at this; obtain ⟨x, rfl⟩ := this; rfl
  case multiPolygon =>
    have hm : Res.mapL Value.unwrapMultiPolygon vs = .ok (vs.map multiOf) := by
      apply Res.mapL_ok_of_forall
      intro v h; have := hv v h; simp only [Storable] at this; obtain ⟨x, rfl⟩ := this; rfl
    refine ⟨_, by simp only [serCol, hm, Res.bind_ok]; rfl, fun rest => ?_⟩
    simp only [Fits] at hf
    have hr := multiPolygons_roundtrip cfg (vs.map multiOf) (by simpa using hf.1)
      (by simpa [List.flatMap] using hf.2.1) (by simpa [List.flatMap] using hf.2.2.1)
      (by simpa [List.flatMap] using hf.2.2.2) rest
    rw [List.length_map] at hr
    simp only [deCol]
    rw [Rd.bind_run_ok hr]
    simp only [Rd.pure_apply, List.map_map]
    congr 2
    apply List.map_congr_left
    intro v h; have := hv v h; simp only [Storable] at this; obtain ⟨x, rfl⟩ := this; rfl

theorem serCol_lc_nonnull {cfg : Cfg} {t : Ty} (h : t.isNullable = false) (vs : List Value) :
    serCol cfg (.lowCardinality t) vs = serLc (serCol cfg t) false vs := by
  cases t <;> first | rfl | (cases h; done)

theorem deCol_lc_nonnull {cfg : Cfg} {t : Ty} (h : t.isNullable = false) (n : Nat) :
    deCol cfg (.lowCardinality t) n = guardRows n (deLc (deCol cfg t) false n) := by
  cases t <;> first | rfl | (cases h; done)

theorem lcAllowed_not_nullable {t : Ty} (h : t.lcAllowed = true) : t.isNullable = false := by
  cases t <;> first | rfl | (cases h; done)

theorem lc_rt {cfg : Cfg} {t : Ty} (hl : t.lcAllowed = true) (hw : WellFormed cfg t) : ColRt cfg (.lowCardinality t) := by
  intro vs hv hf
  have hn : vs.length < 2 ^ 30 := hf
  have hv' : ∀ v ∈ vs, Storable cfg t v := fun v h => by simpa only [Storable] using hv v h
  have hsc := lcAllowed_scalar hl
  have hkl : ∀ v ∈ vs, keyLike v = true := fun v h => lcAllowed_keyLike hl (hv' v h)
  obtain ⟨hk1, hk2, _⟩ := lcKeys_spec false vs hkl
  obtain ⟨b, h1, h2⟩ := scalar_col (cfg := cfg) hsc hw (vs := lcKeys false vs)
    (fun v h => by
      rcases (hk1 v).1 h with ⟨h, _⟩ | h
      · cases h
      · exact .inr (hv' v h)) (by omega)
  obtain ⟨c, c1, c2⟩ := lc_roundtrip false (serCol cfg t) (deCol cfg t) (readBack cfg t) vs hkl hn
    (fun _ v hvm hz => by subst hz; simpa [Value.isNull] using storable_not_null hsc (hv' _ hvm))
    ⟨b, h1, h2⟩
  refine ⟨c, by rw [serCol_lc_nonnull (lcAllowed_not_nullable hl)]; exact c1, fun rest => ?_⟩
  rw [deCol_lc_nonnull (lcAllowed_not_nullable hl), guardRows_le (by omega), c2]
  congr 2
  apply List.map_congr_left
  intro v hvm
  have := storable_not_null hsc (hv' v hvm)
  simp [readBack, this, canon]

theorem lc_nullable_rt {cfg : Cfg} {t : Ty} (hl : t.lcAllowed = true) (hw : WellFormed cfg t) :
    ColRt cfg (.lowCardinality (.nullable t)) := by
  intro vs hv hf
  have hn : vs.length < 2 ^ 30 := hf
  have hv' : ∀ v ∈ vs, v = .null ∨ Storable cfg t v := fun v h => by
    have := hv v h
    simp only [Storable] at this
    rcases this with ⟨h, _⟩ | h
    · exact .inl h
    · exact .inr h
  have hsc := lcAllowed_scalar hl
  have hkl : ∀ v ∈ vs, keyLike v = true := fun v h => by
    rcases hv' v h with rfl | h
    · rfl
    · exact lcAllowed_keyLike hl h
  obtain ⟨hk1, hk2, _⟩ := lcKeys_spec true vs hkl
  obtain ⟨b, h1, h2⟩ := scalar_col (cfg := cfg) hsc hw (vs := lcKeys true vs)
    (fun v h => by
      rcases (hk1 v).1 h with ⟨_, h⟩ | h
      · exact .inl h
      · exact hv' v h) (by omega)
  obtain ⟨c, c1, c2⟩ := lc_roundtrip true (serCol cfg t) (deCol cfg t) (readBack cfg t) vs hkl hn
    (fun h => by cases h) ⟨b, h1, h2⟩
  refine ⟨c, c1, fun rest => ?_⟩
  show guardRows _ (deLc (deCol cfg t) true _) _ = _
  rw [guardRows_le (by omega), c2]
  congr 2
  apply List.map_congr_left
  intro v hvm
  simp only [canon.eq_4, canon_null_of_nullable]
  cases hz : v.isNull <;> simp [readBack, hz]

theorem nullable_rt {cfg : Cfg} {t : Ty} (hr : t.nullableRefused = false) (hw : WellFormed cfg t) :
    ColRt cfg (.nullable t) := by
  intro vs hv hf
  simp only [Fits] at hf
  have key : ∃ (b : Bytes) (f : Value → Value), serCol cfg t vs = .ok b ∧
      (∀ rest, deCol cfg t vs.length (b ++ rest) = .ok (vs.map f, rest)) ∧
      ∀ v ∈ vs, v.isNull = false → f v = canon t v := by
    rcases scalar_or_geo hr with hs | hg
    · obtain ⟨b, h1, h2⟩ := scalar_col hs hw (vs := vs) (fun v h => by
        have := hv v h
        simp only [Storable] at this
        rcases this with ⟨h, _⟩ | h
        · exact .inl h
        · exact .inr h) hf.1
      exact ⟨b, readBack cfg t, h1, h2, fun v _ hn => by simp [readBack, hn]⟩
    · obtain ⟨b, h1, h2⟩ := geo_rt cfg hg vs (fun v h => by
        have := hv v h
        simp only [Storable, hg] at this
        rcases this with ⟨_, h⟩ | h
        · cases h
        · exact h) hf.2
      exact ⟨b, canon t, h1, h2, fun _ _ _ => rfl⟩
  obtain ⟨b, f, h1, h2, h3⟩ := key
  refine ⟨vs.map (fun v => if v.isNull then 1#8 else 0#8) ++ b, by simp only [serCol, h1, Res.bind_ok],
    fun rest => ?_⟩
  simp only [deCol]
  rw [guardRows_le hf.1, List.append_assoc, Rd.bind_run_ok (readExact_append _ _ (by simp)),
    Rd.bind_run_ok (h2 rest), applyMask_map]
  simp only [Rd.lift_ok]
  congr 2
  apply List.map_congr_left
  intro v hvm
  rw [canon_null_of_nullable]
  cases hz : v.isNull with
  | true => rfl
  | false => simp [h3 v hvm hz]

theorem array_rt {cfg : Cfg} {t : Ty} (ih : ColRt cfg t) : ColRt cfg (.array t) := by
  intro vs hv hf
  simp only [Fits] at hf
  have hm : Res.mapL Value.unwrapArray vs = .ok (vs.map elems) := by
    apply Res.mapL_ok_of_forall
    intro v h; have := hv v h; simp only [Storable] at this; obtain ⟨x, rfl, _⟩ := this; rfl
  have hfl : (vs.map elems).flatten = vs.flatMap elems := by simp [List.flatMap]
  obtain ⟨b, h1, h2⟩ := ih (vs.flatMap elems) (by
    intro x hx
    rw [List.mem_flatMap] at hx
    obtain ⟨v, hvm, hx⟩ := hx
    have := hv v hvm; simp only [Storable] at this; obtain ⟨xs, rfl, hxs⟩ := this
    exact hxs x hx) hf.2
  refine ⟨_, by simp only [serCol, hm, Res.bind_ok, hfl, h1]; rfl, fun rest => ?_⟩
  have hbig : (vs.flatMap elems).length ≤ 2 ^ 30 ∨ vs = [] := by
    by_cases hvs : vs = []
    · exact .inr hvs
    · left
      cases ht : t <;> subst ht <;> simp only [Fits] at hf <;> first
        | exact hf.2
        | exact hf.2.1
        | exact Nat.le_of_lt hf.2
  simp only [deCol]
  rw [guardRows_le hf.1]
  have := arr_roundtrip cfg (deCol cfg t) (canon t) (vs.map elems) b (by
      rcases hbig with h | rfl
      · rw [hfl]; exact h
      · simp) (by rw [hfl]; exact h2) (by
      intro h
      have : vs = [] := by simpa using h
      subst this
      have := serCol_nil cfg t
      simp only [List.flatMap_nil] at h1
      rw [this] at h1
      exact (Res.ok.inj h1).symm) rest
  rw [List.length_map] at this
  rw [Rd.bind_run_ok this]
  simp only [Rd.pure_apply, List.map_map]
  congr 2
  apply List.map_congr_left
  intro v h; have := hv v h; simp only [Storable] at this; obtain ⟨x, rfl, _⟩ := this; rfl

theorem fits_length {t : Ty} {vs : List Value} (h : Fits t vs) : vs.length ≤ 2 ^ 30 := by
  cases t <;> simp only [Fits] at h <;> first
    | exact h
    | exact h.1
    | exact Nat.le_of_lt h

theorem map_rt {cfg : Cfg} {k t : Ty} (ihk : ColRt cfg k) (iht : ColRt cfg t) :
    ColRt cfg (.map k t) := by
  intro vs hv hf
  simp only [Fits] at hf
  obtain ⟨hf0, hfk, hfv⟩ := hf
  let un : Value → List Value × List Value := fun v => (mapKeys v, mapVals v)
  have hm : Res.mapL Value.unwrapMap vs = .ok (vs.map un) := by
    apply Res.mapL_ok_of_forall
    intro v h; have := hv v h; simp only [Storable] at this; obtain ⟨ks, ws, rfl, hl, _⟩ := this
    simp [Value.unwrapMap, hl, un, mapKeys, mapVals]
  have hk : ((vs.map un).map Prod.fst).flatten = vs.flatMap mapKeys := by
    simp [List.flatMap, un, Function.comp_def]
  have hw : ((vs.map un).map Prod.snd).flatten = vs.flatMap mapVals := by
    simp [List.flatMap, un, Function.comp_def]
  have hlen : ∀ p ∈ vs.map un, p.1.length = p.2.length := by
    intro p hp
    rw [List.mem_map] at hp
    obtain ⟨v, hvm, rfl⟩ := hp
    have := hv v hvm; simp only [Storable] at this; obtain ⟨ks, ws, rfl, hl, _⟩ := this
    exact hl
  have hle : (vs.flatMap mapKeys).length = (vs.flatMap mapVals).length := by
    rw [← hk, ← hw, List.length_flatten, List.length_flatten]
    congr 1
    simp only [List.map_map]
    apply List.map_congr_left
    intro v hvm
    exact hlen (un v) (List.mem_map_of_mem hvm)
  obtain ⟨kb, hk1, hk2⟩ := ihk (vs.flatMap mapKeys) (by
    intro x hx
    rw [List.mem_flatMap] at hx
    obtain ⟨v, hvm, hx⟩ := hx
    have := hv v hvm; simp only [Storable] at this; obtain ⟨ks, ws, rfl, _, h, _⟩ := this
    exact h x hx) hfk
  obtain ⟨vb, hv1, hv2⟩ := iht (vs.flatMap mapVals) (by
    intro x hx
    rw [List.mem_flatMap] at hx
    obtain ⟨v, hvm, hx⟩ := hx
    have := hv v hvm; simp only [Storable] at this; obtain ⟨ks, ws, rfl, _, _, h⟩ := this
    exact h x hx) hfv
  refine ⟨_, by simp only [serCol, hm, Res.bind_ok, hk, hw, hk1, hv1]; rfl, fun rest => ?_⟩
  have hbig := fits_length hfk
  simp only [deCol]
  rw [guardRows_le hf0]
  unfold deMap
  by_cases hz : vs = []
  · subst hz
    simp only [List.flatMap_nil, serCol_nil] at hk1 hv1
    rw [← Res.ok.inj hk1, ← Res.ok.inj hv1]
    rfl
  · rw [if_neg (by simpa using hz)]
    have hr := rep_offsets 0 ((vs.map un).map (fun p => p.1.length)) (by
      have := sum_map_length ((vs.map un).map Prod.fst)
      rw [List.map_map] at this
      have e : (List.length ∘ Prod.fst : List Value × List Value → Nat) = fun p => p.1.length := rfl
      rw [e] at this
      rw [this, hk]; omega) (kb ++ (vb ++ rest))
    rw [List.length_map, List.length_map] at hr
    rw [List.append_assoc, List.append_assoc, Rd.bind_run_ok hr]
    have hg := getLastD_prefixSums 0 ((vs.map un).map (fun p => p.1.length))
    have hsum : ((vs.map un).map (fun p => p.1.length)).sum = (vs.flatMap mapKeys).length := by
      have := sum_map_length ((vs.map un).map Prod.fst)
      rw [List.map_map] at this
      have e : (List.length ∘ Prod.fst : List Value × List Value → Nat) = fun p => p.1.length := rfl
      rw [e] at this
      rw [this, hk]
    rw [hsum, Nat.zero_add] at hg
    simp only [hg]
    rw [Rd.bind_run_ok (hk2 _), if_neg (by simp)]
    rw [hle, Rd.bind_run_ok (hv2 rest), if_neg (by simp)]
    let un' : Value → List Value × List Value := fun v => ((mapKeys v).map (canon k), (mapVals v).map (canon t))
    have hs := splitMap_prefixSums 0 (vs.map un') (by
      intro p hp
      rw [List.mem_map] at hp
      obtain ⟨v, hvm, rfl⟩ := hp
      have := hlen (un v) (List.mem_map_of_mem hvm)
      simpa [un', un] using this)
    have e1 : (vs.map un').map (fun p => p.1.length) = (vs.map un).map (fun p => p.1.length) := by
      simp [un', un]
    have e2 : ((vs.map un').map Prod.fst).flatten = (vs.flatMap mapKeys).map (canon k) := by
      simp [List.flatMap, un', List.map_flatten, Function.comp_def]
    have e3 : ((vs.map un').map Prod.snd).flatten = (vs.flatMap mapVals).map (canon t) := by
      simp [List.flatMap, un', List.map_flatten, Function.comp_def]
    rw [e1, e2, e3] at hs
    rw [hs]
    simp only [Rd.lift_ok, List.map_map]
    congr 2
    apply List.map_congr_left
    intro v h; have := hv v h; simp only [Storable] at this; obtain ⟨ks, ws, rfl, _⟩ := this; rfl

mutual
theorem col_rt (cfg : Cfg) : ∀ t : Ty, WellFormed cfg t → ColRt cfg t
  | .array t, hw => by cases hw with | array hw => exact array_rt (col_rt cfg t hw)
  | .map k v, hw => by
    cases hw with | map h1 h2 => exact map_rt (col_rt cfg k h1) (col_rt cfg v h2)
  | .nullable t, hw => by cases hw with | nullable h1 h2 => exact nullable_rt h1 h2
  | .lowCardinality t, hw => by
    cases hw with
    | lowCardinality h hw => exact lc_rt h hw
    | lowCardinalityNullable h hw => exact lc_nullable_rt h hw
  | .tuple ts, hw => by
    cases hw with
    | tuple hw =>
    intro vs hv hf
    simp only [Fits] at hf
    have hm : Res.mapL Value.unwrapTuple vs = .ok (vs.map members) := by
      apply Res.mapL_ok_of_forall
      intro v h; have := hv v h; simp only [Storable] at this; obtain ⟨x, rfl, _⟩ := this; rfl
    obtain ⟨cols, b, h1, h2, h3⟩ := cols_rt cfg ts hw (vs.map members) (by
      intro r hr
      rw [List.mem_map] at hr
      obtain ⟨v, hvm, rfl⟩ := hr
      have := hv v hvm; simp only [Storable] at this; obtain ⟨x, rfl, h⟩ := this
      exact h) (by simpa using hf.1) hf.2
    refine ⟨b, by simp only [serCol, hm, Res.bind_ok, h1, h2], fun rest => ?_⟩
    simp only [deCol]
    rw [guardRows_le hf.1]
    have := h3 (List.replicate vs.length []) rest (by simp)
    rw [List.length_map] at this
    rw [Rd.bind_run_ok this]
    simp only [Rd.pure_apply]
    congr 2
    have hz : ∀ (l : List Value) (f : Value → List Value),
        List.zipWith (· ++ ·) (List.replicate l.length ([] : List Value)) (l.map f) = l.map f := by
      intro l f
      induction l with
      | nil => rfl
      | cons x l ih => simp only [List.length_cons, List.replicate_succ, List.map_cons,
          List.zipWith_cons_cons, ih, List.nil_append]
    rw [List.map_map, hz, List.map_map]
    apply List.map_congr_left
    intro v h; have := hv v h; simp only [Storable] at this; obtain ⟨x, rfl, _⟩ := this; rfl
  | .point, _ => geo_rt cfg rfl | .ring, _ => geo_rt cfg rfl
  | .polygon, _ => geo_rt cfg rfl | .multiPolygon, _ => geo_rt cfg rfl
  | .string, hw => scalar_rt rfl hw | .fixedString _, hw => scalar_rt rfl hw
  | .int8, hw => scalar_rt rfl hw | .int16, hw => scalar_rt rfl hw | .int32, hw => scalar_rt rfl hw
  | .int64, hw => scalar_rt rfl hw | .int128, hw => scalar_rt rfl hw | .int256, hw => scalar_rt rfl hw
  | .uint8, hw => scalar_rt rfl hw | .uint16, hw => scalar_rt rfl hw
  | .uint32, hw => scalar_rt rfl hw | .uint64, hw => scalar_rt rfl hw
  | .uint128, hw => scalar_rt rfl hw | .uint256, hw => scalar_rt rfl hw
  | .float32, hw => scalar_rt rfl hw | .float64, hw => scalar_rt rfl hw
  | .bfloat16, hw => scalar_rt rfl hw
  | .decimal32 _, hw => scalar_rt rfl hw | .decimal64 _, hw => scalar_rt rfl hw
  | .decimal128 _, hw => scalar_rt rfl hw | .decimal256 _, hw => scalar_rt rfl hw
  | .uuid, hw => scalar_rt rfl hw | .date, hw => scalar_rt rfl hw
  | .dateTime _, hw => scalar_rt rfl hw | .dateTime64 _ _, hw => scalar_rt rfl hw
  | .ipv4, hw => scalar_rt rfl hw | .ipv6, hw => scalar_rt rfl hw
  | .enum8 _, hw => scalar_rt rfl hw | .enum16 _, hw => scalar_rt rfl hw
theorem cols_rt (cfg : Cfg) : ∀ ts : List Ty, (∀ t ∈ ts, WellFormed cfg t) →
    ∀ rows : List (List Value), (∀ r ∈ rows, StorableAll cfg ts r) → rows.length ≤ 2 ^ 30 →
    FitsAll ts rows →
    ∃ cols b, pushRows (List.replicate ts.length []) rows = .ok cols ∧ serCols cfg ts cols = .ok b ∧
      ∀ acc rest, acc.length = rows.length → deCols cfg ts rows.length acc (b ++ rest) =
        .ok (List.zipWith (· ++ ·) acc (rows.map (canonAll ts)), rest)
  | [], _, rows, hr, _, _ => by
    have hn : ∀ r ∈ rows, r = [] := fun r h => by simpa [StorableAll] using hr r h
    refine ⟨[], [], ?_, rfl, ?_⟩
    · clear hr
      induction rows with
      | nil => rfl
      | cons r rows ih =>
        have : r = [] := hn r (by simp)
        subst this
        exact ih (by simp at *; omega) trivial (fun q hq => hn q (by simp [hq]))
    · intro acc rest hl
      show Res.ok (acc, rest) = _
      congr 2
      have : rows.map (canonAll []) = rows.map (fun _ => []) := by
        apply List.map_congr_left; intro r h; rw [hn r h]; rfl
      rw [this]
      clear this hn hr
      induction acc generalizing rows with
      | nil => simp
      | cons a acc ih => cases rows with
        | nil => simp at hl
        | cons r rows =>
          simp only [List.map_cons, List.zipWith_cons_cons, List.append_nil]
          rw [← ih rows (by simp at *; omega) trivial (by simpa using hl)]
  | t :: ts, hw, rows, hr, hn, hf => by
    simp only [FitsAll] at hf
    have hsplit : ∀ r ∈ rows, ∃ x xs, r = x :: xs ∧ Storable cfg t x ∧ StorableAll cfg ts xs :=
      fun r h => by simpa only [StorableAll] using hr r h
    obtain ⟨b1, c1, c2⟩ := col_rt cfg t (hw t (by simp)) (rows.map (fun r => r.headD .null)) (by
      intro v hv
      rw [List.mem_map] at hv
      obtain ⟨r, hrm, rfl⟩ := hv
      obtain ⟨x, xs, rfl, h, _⟩ := hsplit r hrm
      exact h) hf.1
    obtain ⟨cols, b2, d1, d2, d3⟩ := cols_rt cfg ts (fun t h => hw t (by simp [h]))
      (rows.map List.tail) (by
      intro v hv
      rw [List.mem_map] at hv
      obtain ⟨r, hrm, rfl⟩ := hv
      obtain ⟨x, xs, rfl, _, h⟩ := hsplit r hrm
      exact h) (by simpa using hn) hf.2
    refine ⟨rows.map (fun r => r.headD .null) :: cols, b1 ++ b2, ?_, ?_, ?_⟩
    · rw [List.length_cons, List.replicate_succ, pushRows_cons _ _ _ (by
        intro r h; obtain ⟨x, xs, rfl, _⟩ := hsplit r h; simp), d1]
      simp
    · simp only [serCols, c1, d2, Res.bind_ok]
    · intro acc rest hl
      simp only [deCols]
      have c2' := c2 (b2 ++ rest)
      rw [List.length_map] at c2'
      rw [List.append_assoc, Rd.bind_run_ok c2', pushCol_zip _ _ (by simpa using hl),
        Rd.bind_run_ok (Rd.lift_ok _ _)]
      have d3' := d3 (List.zipWith (fun r v => r ++ [v]) acc
        ((rows.map (fun r => r.headD .null)).map (canon t))) rest (by simp [hl])
      rw [List.length_map] at d3'
      rw [d3']
      congr 2
      rw [List.map_map, List.map_map]
      have := zipWith_snoc_append acc rows (canon t) (canonAll ts) hl
      simp only [Function.comp_def]
      rw [this]
      congr 1
      apply List.map_congr_left
      intro r h
      obtain ⟨x, xs, rfl, _⟩ := hsplit r h
      rfl
end

mutual
/-- The reader of a column's prefix accepts what the writer emitted, for well-formed types. -/
theorem prefix_rt (cfg : Cfg) : ∀ t : Ty, WellFormed cfg t → ∀ rest,
    dePrefix t (serPrefix t ++ rest) = .ok ((), rest)
  | .array t, hw => by
    cases hw with | array hw => intro rest; simpa [dePrefix, serPrefix] using prefix_rt cfg t hw rest
  | .map k v, hw => by
    cases hw with
    | map h1 h2 =>
      intro rest
      simp only [dePrefix, serPrefix, List.append_assoc]
      rw [Rd.bind_run_ok (prefix_rt cfg k h1 _)]
      exact prefix_rt cfg v h2 rest
  | .nullable t, hw => by
    cases hw with
    | nullable h1 h2 =>
      intro rest
      cases t <;> first | rfl | (cases h1; done)
  | .lowCardinality t, _ => by
    intro rest
    simp only [dePrefix, serPrefix]
    rw [Rd.bind_run_ok (readU64_le 1 (by decide) rest)]
    rfl
  | .tuple ts, hw => by
    cases hw with
    | tuple hw => intro rest; simpa [dePrefix, serPrefix] using prefixes_rt cfg ts hw rest
  | .point, _ => fun _ => rfl | .ring, _ => fun _ => rfl
  | .polygon, _ => fun _ => rfl | .multiPolygon, _ => fun _ => rfl
  | .string, _ => fun _ => rfl | .fixedString _, _ => fun _ => rfl
  | .int8, _ => fun _ => rfl | .int16, _ => fun _ => rfl | .int32, _ => fun _ => rfl
  | .int64, _ => fun _ => rfl | .int128, _ => fun _ => rfl | .int256, _ => fun _ => rfl
  | .uint8, _ => fun _ => rfl | .uint16, _ => fun _ => rfl | .uint32, _ => fun _ => rfl
  | .uint64, _ => fun _ => rfl | .uint128, _ => fun _ => rfl | .uint256, _ => fun _ => rfl
  | .float32, _ => fun _ => rfl | .float64, _ => fun _ => rfl | .bfloat16, _ => fun _ => rfl
  | .decimal32 _, _ => fun _ => rfl | .decimal64 _, _ => fun _ => rfl
  | .decimal128 _, _ => fun _ => rfl | .decimal256 _, _ => fun _ => rfl
  | .uuid, _ => fun _ => rfl | .date, _ => fun _ => rfl
  | .dateTime _, _ => fun _ => rfl | .dateTime64 _ _, _ => fun _ => rfl
  | .ipv4, _ => fun _ => rfl | .ipv6, _ => fun _ => rfl
  | .enum8 _, _ => fun _ => rfl | .enum16 _, _ => fun _ => rfl
theorem prefixes_rt (cfg : Cfg) : ∀ ts : List Ty, (∀ t ∈ ts, WellFormed cfg t) → ∀ rest,
    dePrefixes ts (serPrefixes ts ++ rest) = .ok ((), rest)
  | [], _, rest => rfl
  | t :: ts, hw, rest => by
    simp only [dePrefixes, serPrefixes, List.append_assoc]
    rw [Rd.bind_run_ok (prefix_rt cfg t (hw t (by simp)) _)]
    exact prefixes_rt cfg ts (fun t h => hw t (by simp [h])) rest
end

end Klick
