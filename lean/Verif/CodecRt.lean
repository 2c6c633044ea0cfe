import Verif.CodecLemmas
/-
Round trip of whole columns: the composite writers and readers.
-/
namespace Klick
open Spec

/-! ### offsets -/

/-- Running totals. -/
def prefixSums (acc : Nat) : List Nat → List Nat
  | [] => []
  | n :: ns => (acc + n) :: prefixSums (acc + n) ns

theorem prefixSums_length (acc : Nat) (ns : List Nat) : (prefixSums acc ns).length = ns.length := by
  induction ns generalizing acc with
  | nil => rfl
  | cons n ns ih => simp [prefixSums, ih]

theorem rep_offsets (acc : Nat) (ns : List Nat) (h : acc + ns.sum < 2 ^ 64) (rest : Bytes) :
    Rd.rep ns.length readU64 (offsetsFrom acc ns ++ rest) = .ok (prefixSums acc ns, rest) := by
  induction ns generalizing acc with
  | nil => rfl
  | cons n ns ih =>
    simp only [List.sum_cons] at h
    simp only [List.length_cons, Rd.rep, offsetsFrom, List.append_assoc]
    rw [Rd.bind_run_ok (readU64_le _ (by omega) _), Rd.bind_run_ok (ih (acc + n) (by omega))]
    rfl

theorem getLastD_prefixSums (acc : Nat) (ns : List Nat) :
    (prefixSums acc ns).getLastD acc = acc + ns.sum := by
  induction ns generalizing acc with
  | nil => rfl
  | cons n ns ih =>
    simp only [prefixSums, List.getLastD_cons, List.sum_cons]
    rw [ih]; omega

theorem splitOffsets_prefixSums {α : Type} (cfg : Cfg) (acc : Nat) (xss : List (List α)) :
    splitOffsets cfg acc (prefixSums acc (xss.map List.length)) xss.flatten = .ok xss := by
  induction xss generalizing acc with
  | nil => rfl
  | cons xs xss ih =>
    simp only [List.map_cons, prefixSums, splitOffsets, List.flatten_cons]
    rw [if_neg (by omega)]
    have e : acc + xs.length - acc = xs.length := by omega
    simp [e, ih]

theorem splitMap_prefixSums (acc : Nat) (kvs : List (List Value × List Value))
    (h : ∀ p ∈ kvs, p.1.length = p.2.length) :
    splitMap acc (prefixSums acc (kvs.map (fun p => p.1.length))) (kvs.map Prod.fst).flatten
      (kvs.map Prod.snd).flatten = .ok (kvs.map (fun p => .map p.1 p.2)) := by
  induction kvs generalizing acc with
  | nil => rfl
  | cons p kvs ih =>
    have hp := h p (by simp)
    simp only [List.map_cons, prefixSums, splitMap, List.flatten_cons]
    have e : acc + p.1.length - acc = p.1.length := by omega
    have e2 : max acc (acc + p.1.length) = acc + p.1.length := by omega
    simp only [e, e2]
    rw [if_neg (by simp only [List.length_append]; omega)]
    have hd1 : (p.1 ++ (kvs.map Prod.fst).flatten).drop p.1.length = (kvs.map Prod.fst).flatten := by simp
    have hd2 : (p.2 ++ (kvs.map Prod.snd).flatten).drop p.1.length = (kvs.map Prod.snd).flatten := by
      rw [hp]; simp
    have ht1 : (p.1 ++ (kvs.map Prod.fst).flatten).take p.1.length = p.1 := by simp
    have ht2 : (p.2 ++ (kvs.map Prod.snd).flatten).take p.1.length = p.2 := by rw [hp]; simp
    rw [hd1, hd2, ht1, ht2, ih _ (fun q hq => h q (by simp [hq]))]
    rfl

theorem map_length_map {α β : Type} (f : α → β) (xss : List (List α)) :
    (xss.map (List.map f)).map List.length = xss.map List.length := by
  simp [List.map_map, Function.comp_def]

theorem sum_map_length {α : Type} (xss : List (List α)) :
    (xss.map List.length).sum = xss.flatten.length := by
  rw [List.length_flatten]

/-- Generic array column. -/
theorem arr_roundtrip {α β : Type} (cfg : Cfg) (inner : Nat → Rd (List β)) (f : α → β)
    (xss : List (List α)) (body : Bytes) (hlen : xss.flatten.length ≤ 2 ^ 30)
    (hinner : ∀ rest, inner xss.flatten.length (body ++ rest) = .ok (xss.flatten.map f, rest))
    (h0 : xss = [] → body = []) (rest : Bytes) :
    deArr cfg inner xss.length (offsetsFrom 0 (xss.map List.length) ++ body ++ rest) =
      .ok (xss.map (List.map f), rest) := by
  unfold deArr
  by_cases hx : xss = []
  · subst hx; simp [h0 rfl, offsetsFrom]
  · rw [if_neg (by simpa using hx), List.append_assoc]
    have hr := rep_offsets 0 (xss.map List.length)
      (by rw [sum_map_length]; omega) (body ++ rest)
    rw [List.length_map] at hr
    rw [Rd.bind_run_ok hr]
    have hg := getLastD_prefixSums 0 (xss.map List.length)
    rw [hg, sum_map_length, Nat.zero_add, Rd.bind_run_ok (hinner rest)]
    have hsp := splitOffsets_prefixSums cfg 0 (xss.map (List.map f))
    rw [map_length_map, ← List.map_flatten] at hsp
    rw [hsp]
    rfl

/-! ### geometric columns -/

theorem pts_roundtrip (ps : List Pt) (h : ps.length ≤ 2 ^ 30) (rest : Bytes) :
    dePts ps.length (serPts ps ++ rest) = .ok (ps, rest) := by
  unfold dePts serPts
  rw [guardRows_le h, List.append_assoc]
  rw [Rd.bind_run_ok (rep_map (g := Pt.x) ps (fun p _ r => readLe_le (by decide) p.x r) _)]
  rw [Rd.bind_run_ok (rep_map (g := Pt.y) ps (fun p _ r => readLe_le (by decide) p.y r) _)]
  have : List.zipWith Pt.mk (ps.map Pt.x) (ps.map Pt.y) = ps := by
    clear h
    induction ps with
    | nil => rfl
    | cons p ps ih => simp [ih]
  rw [this]; rfl

theorem rings_roundtrip (cfg : Cfg) (rs : List (List Pt)) (h : rs.length ≤ 2 ^ 30)
    (h1 : rs.flatten.length ≤ 2 ^ 30) (rest : Bytes) :
    deRings cfg rs.length (serArr serPts rs ++ rest) = .ok (rs, rest) := by
  unfold deRings serArr
  rw [guardRows_le h]
  have := arr_roundtrip cfg dePts id rs (serPts rs.flatten) h1
    (fun rest => by simpa using pts_roundtrip _ h1 rest) (by rintro rfl; rfl) rest
  simpa using this

theorem polygons_roundtrip (cfg : Cfg) (rs : List (List (List Pt))) (h : rs.length ≤ 2 ^ 30)
    (h1 : rs.flatten.length ≤ 2 ^ 30) (h2 : rs.flatten.flatten.length ≤ 2 ^ 30) (rest : Bytes) :
    dePolygons cfg rs.length (serArr (serArr serPts) rs ++ rest) = .ok (rs, rest) := by
  unfold dePolygons
  rw [guardRows_le h]
  have := arr_roundtrip cfg (deRings cfg) id rs (serArr serPts rs.flatten) h1
    (fun rest => by simpa using rings_roundtrip cfg _ h1 h2 rest) (by rintro rfl; rfl) rest
  simpa [serArr] using this

theorem multiPolygons_roundtrip (cfg : Cfg) (rs : List (List (List (List Pt))))
    (h : rs.length ≤ 2 ^ 30)
    (h1 : rs.flatten.length ≤ 2 ^ 30) (h2 : rs.flatten.flatten.length ≤ 2 ^ 30)
    (h3 : rs.flatten.flatten.flatten.length ≤ 2 ^ 30) (rest : Bytes) :
    deMultiPolygons cfg rs.length (serArr (serArr (serArr serPts)) rs ++ rest) = .ok (rs, rest) := by
  unfold deMultiPolygons
  rw [guardRows_le h]
  have := arr_roundtrip cfg (dePolygons cfg) id rs (serArr (serArr serPts) rs.flatten) h1
    (fun rest => by simpa using polygons_roundtrip cfg _ h1 h2 h3 rest) (by rintro rfl; rfl) rest
  simpa [serArr] using this

/-! ### tuples -/

theorem pushRow_cons (c : List Value) (cols : List (List Value)) (r : List Value) (hr : r ≠ []) :
    pushRow (c :: cols) r =
      pushRow cols r.tail >>= fun cols' => .ok ((c ++ [r.headD .null]) :: cols') := by
  cases r with
  | nil => exact absurd rfl hr
  | cons v vs => rfl

theorem pushRows_cons (c : List Value) (cols rows : List (List Value)) (hr : ∀ r ∈ rows, r ≠ []) :
    pushRows (c :: cols) rows = pushRows cols (rows.map List.tail) >>= fun cols' =>
      .ok ((c ++ rows.map (fun r => r.headD .null)) :: cols') := by
  induction rows generalizing c cols with
  | nil => simp [pushRows]
  | cons r rows ih =>
    simp only [pushRows, List.map_cons]
    rw [pushRow_cons _ _ _ (hr r (by simp))]
    cases hp : pushRow cols r.tail with
    | ok cols' =>
      simp only [Res.bind_ok]
      rw [ih _ _ (fun q hq => hr q (by simp [hq]))]
      simp
    | err e => rfl
    | panic => rfl

theorem pushCol_zip (acc : List (List Value)) (vs : List Value) (h : acc.length = vs.length) :
    pushCol acc vs = .ok (List.zipWith (fun r v => r ++ [v]) acc vs) := by
  induction acc generalizing vs with
  | nil => cases vs with
    | nil => rfl
    | cons => simp at h
  | cons a acc ih => cases vs with
    | nil => simp at h
    | cons v vs =>
      simp only [pushCol, List.zipWith_cons_cons]
      rw [ih vs (by simpa using h)]
      rfl

theorem zipWith_snoc_append (acc : List (List Value)) (rows : List (List Value))
    (f : Value → Value) (g : List Value → List Value) (h : acc.length = rows.length) :
    List.zipWith (· ++ ·) (List.zipWith (fun r v => r ++ [v]) acc (rows.map (fun r => f (r.headD .null))))
      (rows.map (fun r => g r.tail)) =
    List.zipWith (· ++ ·) acc (rows.map (fun r => f (r.headD .null) :: g r.tail)) := by
  induction acc generalizing rows with
  | nil => simp
  | cons a acc ih => cases rows with
    | nil => simp at h
    | cons r rows =>
      simp only [List.map_cons, List.zipWith_cons_cons, ih rows (by simpa using h)]
      simp

/-! ### LowCardinality -/

/-- Values that occur as dictionary keys: scalars without float comparison, byte arrays, NULL. -/
def keyLike : Value → Bool
  | .array xs => xs.all Value.isByte
  | .tuple _ | .map _ _ | .point _ | .ring _ | .polygon _ | .multiPolygon _ => false
  | _ => true

theorem eqvs_bytes (xs ys : List Value) (h : ∀ x ∈ xs, x.isByte = true) :
    Value.eqvs xs ys = true ↔ xs = ys := by
  induction xs generalizing ys with
  | nil => cases ys <;> simp [Value.eqvs]
  | cons x xs ih => cases ys with
    | nil => simp [Value.eqvs]
    | cons y ys =>
      simp only [Value.eqvs, Bool.and_eq_true, List.cons.injEq]
      rw [ih ys (fun z hz => h z (by simp [hz]))]
      have hx := h x (by simp)
      have : x.eqv y = true ↔ x = y := by
        cases x <;> first
          | (simp [Value.isByte] at hx; done)
          | (cases y <;> simp [Value.eqv])
      rw [this]

theorem eqv_iff_eq {v : Value} (hv : keyLike v = true) (w : Value) : v.eqv w = true ↔ v = w := by
  cases v <;> first
    | (cases hv; done)
    | (cases w <;> simp [Value.eqv]; done)
    | skip
  case dateTime64 => cases w <;> simp [Value.eqv, and_assoc]
  case array xs =>
    simp only [keyLike, List.all_eq_true] at hv
    cases w <;> simp [Value.eqv]
    exact eqvs_bytes _ _ hv

theorem keyInsert_mem {keys : List Value} {v w : Value} (hk : ∀ k ∈ keys, keyLike k = true) :
    w ∈ keyInsert keys v ↔ w ∈ keys ∨ w = v := by
  unfold keyInsert
  split
  · rename_i h
    simp only [List.any_eq_true] at h
    obtain ⟨k, hk1, hk2⟩ := h
    rw [eqv_iff_eq (hk k hk1)] at hk2
    subst hk2
    constructor
    · exact .inl
    · rintro (h | rfl)
      · exact h
      · exact hk1
  · simp

theorem foldl_keyInsert (vs : List Value) (hv : ∀ v ∈ vs, keyLike v = true) :
    ∀ keys : List Value, (∀ k ∈ keys, keyLike k = true) →
      (∀ w, w ∈ vs.foldl keyInsert keys ↔ w ∈ keys ∨ w ∈ vs) ∧
      (vs.foldl keyInsert keys).length ≤ keys.length + vs.length ∧
      (keys ≠ [] → (vs.foldl keyInsert keys)[0]? = keys[0]?) := by
  induction vs with
  | nil => intro keys hk; simp
  | cons v vs ih =>
    intro keys hk
    have hk' : ∀ k ∈ keyInsert keys v, keyLike k = true := by
      intro k hkm
      rcases (keyInsert_mem hk).1 hkm with h | rfl
      · exact hk k h
      · exact hv k (by simp)
    obtain ⟨h1, h2, h3⟩ := ih (fun w hw => hv w (by simp [hw])) (keyInsert keys v) hk'
    simp only [List.foldl_cons]
    refine ⟨?_, ?_, ?_⟩
    · intro w
      rw [h1, keyInsert_mem hk]
      simp only [List.mem_cons]
      constructor
      · rintro ((h | h) | h)
        · exact .inl h
        · exact .inr (.inl h)
        · exact .inr (.inr h)
      · rintro (h | h | h)
        · exact .inl (.inl h)
        · exact .inl (.inr h)
        · exact .inr h
    · have : (keyInsert keys v).length ≤ keys.length + 1 := by
        unfold keyInsert; split <;> simp
      simp only [List.length_cons]; omega
    · intro hne
      have hne' : keyInsert keys v ≠ [] := by unfold keyInsert; split <;> simp [hne]
      rw [h3 hne']
      unfold keyInsert
      split
      · rfl
      · cases keys with
        | nil => exact absurd rfl hne
        | cons k ks => rfl

theorem lcKeys_spec (nullable : Bool) (vs : List Value) (hv : ∀ v ∈ vs, keyLike v = true) :
    (∀ w, w ∈ lcKeys nullable vs ↔ (nullable = true ∧ w = .null) ∨ w ∈ vs) ∧
    (lcKeys nullable vs).length ≤ vs.length + 1 ∧
    (nullable = true → (lcKeys nullable vs)[0]? = some .null) := by
  unfold lcKeys
  cases nullable
  · obtain ⟨h1, h2, _⟩ := foldl_keyInsert vs hv [] (by simp)
    refine ⟨fun w => by simpa using h1 w, ?_, by simp⟩
    simp only [Bool.false_eq_true, if_false]
    simp only [List.length_nil, Nat.zero_add] at h2; omega
  · obtain ⟨h1, h2, h3⟩ := foldl_keyInsert vs hv [.null] (by simp [keyLike])
    refine ⟨fun w => by simpa using h1 w, ?_, ?_⟩
    · simp only [if_true]; simp only [List.length_singleton] at h2; omega
    · intro _; simpa using h3 (by simp)

theorem lcWidth_code (n : Nat) : lcWidth (lcIndexCode n ||| 1 <<< 9) = some (lcIndexWidth n) ∧
    ((lcIndexCode n ||| 1 <<< 9) &&& 0x200 != 0) = true ∧
    ((lcIndexCode n ||| 1 <<< 9) &&& 0x100 != 0) = false ∧
    lcIndexCode n ||| 1 <<< 9 < 2 ^ 64 := by
  unfold lcIndexCode lcIndexWidth
  split
  · exact ⟨rfl, rfl, rfl, by decide⟩
  · split
    · exact ⟨rfl, rfl, rfl, by decide⟩
    · split
      · exact ⟨rfl, rfl, rfl, by decide⟩
      · exact ⟨rfl, rfl, rfl, by decide⟩

theorem lcIndex_bound {n i : Nat} (h : i < n) (hn : n < 2 ^ 64) : i < 256 ^ lcIndexWidth n := by
  unfold lcIndexWidth
  split
  · omega
  · split
    · omega
    · split
      · omega
      · omega

theorem mapL_append_ok {α β : Type} {f : α → Res β} {g : α → β} {xs : List α}
    (h : ∀ x ∈ xs, f x = .ok (g x)) : Res.mapL f xs = .ok (xs.map g) :=
  Res.mapL_ok_of_forall h

/-- First position of a key. -/
theorem findIdx_key {keys : List Value} (hk : ∀ k ∈ keys, keyLike k = true) {v : Value}
    (hv : v ∈ keys) : ∃ i, keys.findIdx? (fun k => k.eqv v) = some i ∧ keys[i]? = some v ∧
      (keys[0]? = some v → i = 0) := by
  have hex : ∃ x ∈ keys, (fun k : Value => k.eqv v) x = true :=
    ⟨v, hv, by simpa using (eqv_iff_eq (hk v hv) v).2 rfl⟩
  have hlt := List.findIdx_lt_length_of_exists hex
  refine ⟨keys.findIdx (fun k => k.eqv v), ?_, ?_, ?_⟩
  · rw [List.findIdx?_eq_some_iff_findIdx_eq]
    exact ⟨hlt, rfl⟩
  · have hp := List.findIdx_getElem (w := hlt)
    have := (eqv_iff_eq (hk _ (List.getElem_mem hlt)) v).1 hp
    rw [List.getElem?_eq_getElem hlt, this]
  · intro h0
    cases keys with
    | nil => simp at hv
    | cons k ks =>
      simp only [List.getElem?_cons_zero, Option.some.injEq] at h0
      subst h0
      rw [List.findIdx_cons, (eqv_iff_eq (hk k (by simp)) k).2 rfl]
      rfl

/-- Round trip of a dictionary-encoded column. `back` is what the dictionary column reads back. -/
theorem lc_roundtrip (nullable : Bool) (ser : List Value → Res Bytes) (dict : Nat → Rd (List Value))
    (back : Value → Value) (vs : List Value) (hv : ∀ v ∈ vs, keyLike v = true)
    (hn : vs.length < 2 ^ 30) (hnull : nullable = false → ∀ v ∈ vs, v ≠ .null)
    (hin : ∃ b, ser (lcKeys nullable vs) = .ok b ∧ ∀ rest,
      dict (lcKeys nullable vs).length (b ++ rest) = .ok ((lcKeys nullable vs).map back, rest)) :
    ∃ b, serLc ser nullable vs = .ok b ∧ ∀ rest, deLc dict nullable vs.length (b ++ rest) =
      .ok (vs.map (fun v => if v.isNull then .null else back v), rest) := by
  by_cases h0 : vs = []
  · subst h0
    exact ⟨[], rfl, fun rest => rfl⟩
  obtain ⟨hk1, hk2, hk3⟩ := lcKeys_spec nullable vs hv
  have hkl : ∀ k ∈ lcKeys nullable vs, keyLike k = true := by
    intro k hk
    rcases (hk1 k).1 hk with ⟨_, rfl⟩ | h
    · rfl
    · exact hv k h
  obtain ⟨body, hb1, hb2⟩ := hin
  have hix : ∀ v ∈ vs, ∃ i, (lcKeys nullable vs).findIdx? (fun k => k.eqv v) = some i ∧
      (lcKeys nullable vs)[i]? = some v ∧ ((lcKeys nullable vs)[0]? = some v → i = 0) :=
    fun v hvm => findIdx_key hkl ((hk1 v).2 (.inr hvm))
  generalize hkeys : lcKeys nullable vs = keys at *
  have hfind : ∀ v ∈ vs, lcIndex1 keys v = .ok (le (lcIndexWidth keys.length)
      ((keys.findIdx? (fun k => k.eqv v)).getD 0)) := by
    intro v hvm
    obtain ⟨i, hi, _⟩ := hix v hvm
    simp [lcIndex1, hi]
  refine ⟨writeU64 (lcIndexCode keys.length ||| 1 <<< 9) ++ writeU64 keys.length ++ body ++
      writeU64 vs.length ++ (vs.map (fun v => le (lcIndexWidth keys.length)
        ((keys.findIdx? (fun k => k.eqv v)).getD 0))).flatten, ?_, ?_⟩
  · unfold serLc
    rw [if_neg (by simpa using h0)]
    simp only [hkeys]
    rw [hb1, Res.bind_ok, mapL_append_ok hfind]
    rfl
  · intro rest
    obtain ⟨w1, w2, w3, w4⟩ := lcWidth_code keys.length
    unfold deLc
    simp only [List.append_assoc]
    generalize hfuel : ((_ : Bytes).length + 1) = fuel
    have hfuel2 : ∃ k, fuel = k + 2 := by
      refine ⟨fuel - 2, ?_⟩
      have : 8 ≤ fuel := by
        rw [← hfuel]; simp [writeU64]; omega
      omega
    obtain ⟨k, rfl⟩ := hfuel2
    clear hfuel
    have hl0 : vs.length ≠ 0 := by simpa using h0
    simp only [lcLoop]
    rw [if_neg hl0, Rd.bind_run_ok (readU64_le _ w4 _)]
    simp only [w1, w2, w3, Bool.false_and, Bool.false_eq_true, if_false, if_true]
    rw [Rd.bind_run_ok (x := pure none) (a := none) rfl]
    have hkn : keys.length < 2 ^ 64 := by omega
    have hd : ∀ r, (readU64 >>= fun n => dict n) (writeU64 keys.length ++ (body ++ r)) =
        .ok (keys.map back, r) := by
      intro r
      rw [Rd.bind_run_ok (readU64_le _ hkn _)]
      exact hb2 _
    rw [Rd.bind_run_ok (hd _), Rd.bind_run_ok (readU64_le _ (by omega) _)]
    rw [Nat.min_self]
    rw [guardRows_le (by omega)]
    have hrep := rep_map (f := fun v => le (lcIndexWidth keys.length)
        ((keys.findIdx? (fun k => k.eqv v)).getD 0))
      (r := (readExact (lcIndexWidth keys.length) >>= fun b => (pure (unLe b) : Rd Nat)))
      (g := fun v => (keys.findIdx? (fun k => k.eqv v)).getD 0) vs (by
        intro v hvm rest
        obtain ⟨i, hi, hi2, _⟩ := hix v hvm
        rw [Rd.bind_run_ok (readExact_append _ rest (le_length _ _))]
        have : i < keys.length := by
          rcases List.getElem?_eq_some_iff.1 hi2 with ⟨h, _⟩; exact h
        simp only [Rd.pure_apply, unLe_le, hi, Option.getD_some]
        rw [Nat.mod_eq_of_lt (lcIndex_bound this hkn)]) rest
    rw [Rd.bind_run_ok hrep]
    simp only [Bool.or_false, if_true]
    have hres : Res.mapL (lcResolve nullable true false (keys.map back) (Option.getD none []))
        (vs.map (fun v => (keys.findIdx? (fun k => k.eqv v)).getD 0)) =
        .ok (vs.map (fun v => if v.isNull then .null else back v)) := by
      have : ∀ ws : List Value, (∀ v ∈ ws, v ∈ vs) →
          Res.mapL (lcResolve nullable true false (keys.map back) (Option.getD none []))
            (ws.map (fun v => (keys.findIdx? (fun k => k.eqv v)).getD 0)) =
          .ok (ws.map (fun v => if v.isNull then .null else back v)) := by
        intro ws
        induction ws with
        | nil => intro _; rfl
        | cons v ws ih =>
          intro hm
          have hvm := hm v (by simp)
          obtain ⟨i, hi, hi2, hi3⟩ := hix v hvm
          have hone : lcResolve nullable true false (keys.map back) (Option.getD none [])
              ((keys.findIdx? (fun k => k.eqv v)).getD 0) =
              .ok (if v.isNull then .null else back v) := by
            simp only [lcResolve, hi, Option.getD_some, Bool.not_false, Bool.and_true, if_true]
            by_cases hc : (nullable && i == 0) = true
            · rw [if_pos hc]
              simp only [Bool.and_eq_true, beq_iff_eq] at hc
              rw [hc.2, hk3 hc.1] at hi2
              simp only [Option.some.injEq] at hi2
              subst hi2; rfl
            · rw [if_neg hc]
              rw [List.getElem?_map, hi2]
              have hvn : v.isNull = false := by
                cases hvz : v with
                | null =>
                  subst hvz
                  exfalso
                  cases nullable
                  · exact hnull rfl _ hvm rfl
                  · exact hc (by simp [hi3 (hk3 rfl)])
                | _ => rfl
              simp [hvn]
          simp only [List.map_cons, Res.mapL, hone, Res.bind_ok,
            ih (fun w hw => hm w (by simp [hw]))]
      exact this vs (fun v h => h)
    rw [hres, Rd.bind_run_ok (Rd.lift_ok _ _)]
    simp

end Klick
