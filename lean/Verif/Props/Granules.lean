import Verif.Spec.Granule
import Verif.Props.Column
/-
C86: LowCardinality columns in several granules, with shared dictionaries.
-/
namespace Klick
open Spec Props

theorem dict_read {cfg : Cfg} {t : Ty} (ha : t.lcAllowed = true) (hw : WellFormed cfg t) {d : List Value} {b : Bytes} (h : DictBytes cfg t d b)
    (rest : Bytes) : deCol cfg t d.length (b ++ rest) = .ok (d, rest) := by
  obtain ⟨b', h1, h2⟩ := col_rt cfg t hw d (fun v hv => (h.entries v hv).1) (by
    have hf := h.fits
    have hs := lcAllowed_scalar ha
    revert hs
    cases t <;> first | exact fun _ => hf | (intro hs; cases hs))
  rw [h.bytes] at h1
  cases h1
  rw [h2 rest]
  have : d.map (canon t) = d := by
    rw [List.map_congr_left (g := id) (fun v hv => (h.entries v hv).2), List.map_id]
  rw [this]

theorem lcResolve_named {nullable : Bool} {cur : Option (List Value)} {g : Granule} {i : Nat} {v : Value}
    (h : g.namedByClient nullable cur i = some v) :
    (g.own.isSome || g.shared) = true ∧
      lcResolve nullable g.own.isSome g.shared (g.own.getD []) ((g.next cur).getD []) i = .ok v := by
  unfold Granule.namedByClient Granule.sharedPart at h
  unfold lcResolve
  cases ho : g.own with
  | none =>
    cases hs : g.shared with
    | false => simp [ho, hs] at h
    | true =>
      simp only [ho, hs, Option.getD_none, List.nil_append, if_true, Option.isSome_none, Bool.and_false, Bool.false_and] at h ⊢
      refine ⟨rfl, ?_⟩
      cases hg : ((g.next cur).getD [])[i]? with
      | none => simp [hg] at h
      | some w => simp [hg] at h ⊢; exact h
  | some ks =>
    cases hs : g.shared with
    | false =>
      simp only [ho, hs, Option.getD_some, Bool.false_eq_true, if_false, List.append_nil, Option.isSome_some, Bool.and_true] at h ⊢
      refine ⟨rfl, ?_⟩
      cases hg : ks[i]? with
      | none => simp [hg] at h
      | some w =>
        simp only [hg, Option.some.injEq] at h
        subst h
        cases hb : (nullable && i == 0) <;> simp [hb]
    | true =>
      simp only [ho, hs, Option.getD_some, Option.isSome_some, Bool.and_true, if_true] at h ⊢
      refine ⟨rfl, ?_⟩
      by_cases hi : i < ks.length
      · rw [List.getElem?_append_left hi] at h
        rw [List.getElem?_eq_getElem hi] at h ⊢
        simp only [Option.some.injEq] at h
        subst h
        cases hb : (nullable && i == 0) <;> simp [hb, hi]
      · rw [List.getElem?_append_right (by omega)] at h
        cases hg : ((g.next cur).getD [])[i - ks.length]? with
        | none => simp [hg] at h
        | some w =>
          simp only [hg, Option.some.injEq] at h
          subst h
          cases hb : (nullable && i == 0) <;> simp [hb, hi, hg]

theorem flags_read (g : Granule) : g.flags < 2 ^ 64 ∧ lcWidth g.flags = some g.width ∧ (g.flags &&& 0x200 != 0) = g.own.isSome ∧
    (g.flags &&& 0x100 != 0) = g.shared ∧ (g.flags &&& 0x400 != 0) = g.update := by
  obtain ⟨code, shared, update, newShared, own, indices⟩ := g
  have key : ∀ (code : Fin 4) (shared update o : Bool) (f : Nat),
      f = code.val + (if shared then 256 else 0) + (if o then 512 else 0) + (if update then 1024 else 0) →
      f < 2 ^ 64 ∧ lcWidth f = some (2 ^ code.val) ∧ (f &&& 0x200 != 0) = o ∧ (f &&& 0x100 != 0) = shared ∧ (f &&& 0x400 != 0) = update := by
    intro code shared update o f hf
    subst hf
    revert code shared update o
    decide
  exact key code shared update own.isSome _ rfl

theorem mapL_named {f : Nat → Res Value} {names : Nat → Option Value} (h : ∀ i v, names i = some v → f i = .ok v) :
    ∀ (is : List Nat) (vs : List Value), is.map names = vs.map some → Res.mapL f is = .ok vs
  | [], [], _ => rfl
  | [], _ :: _, h' => by simp at h'
  | _ :: _, [], h' => by simp at h'
  | i :: is, v :: vs, h' => by
    simp only [List.map_cons, List.cons.injEq] at h'
    simp only [Res.mapL, h i v h'.1, mapL_named h is vs h'.2]
    rfl

theorem granule_length {cfg : Cfg} {t : Ty} {cur : Option (List Value)} {g : Granule} {b : Bytes} (h : g.Wire cfg t cur b) : 16 ≤ b.length := by
  cases h with
  | mk b1 b2 h1 h2 =>
    simp only [List.length_append, leBytes_length]
    omega

/-- One pass of the loop reads one granule. -/
theorem lcLoop_granule {cfg : Cfg} {t : Ty} (ha : t.lcAllowed = true) (hw : WellFormed cfg t) {nullable : Bool} {cur : Option (List Value)}
    {g : Granule} {b : Bytes} {vs : List Value} (h : g.Wire cfg t cur b) (hne : g.indices ≠ []) (hi : ∀ i ∈ g.indices, i < 256 ^ g.width)
    (hv : g.indices.map (g.namedByClient nullable cur) = vs.map some) (fuel more : Nat) (out : List Value) (rest : Bytes)
    (hl : g.indices.length + more ≤ 2 ^ 30) :
    lcLoop (deCol cfg t) nullable (fuel + 1) (g.indices.length + more) cur out (b ++ rest) =
      lcLoop (deCol cfg t) nullable fuel more (g.next cur) (out ++ vs) rest := by
  obtain ⟨f1, f2, f3, f4, f5⟩ := flags_read g
  have hpos : 0 < g.indices.length := List.length_pos_iff.mpr hne
  have hsome : (g.own.isSome || g.shared) = true := by
    cases hx : g.indices with
    | nil => exact absurd hx hne
    | cons i is =>
      cases vs with
      | nil => simp [hx] at hv
      | cons v vs =>
        simp only [hx, List.map_cons, List.cons.injEq] at hv
        exact (lcResolve_named hv.1).1
  cases h with
  | mk b1 b2 h1 h2 =>
    simp only [← le_eq_leBytes, List.append_assoc]
    have ew : leBytes g.width = le g.width := funext fun x => (le_eq_leBytes _ x).symm
    rw [ew]
    have e8 : ∀ x, le 8 x = writeU64 x := fun _ => rfl
    simp only [lcLoop, e8]
    rw [if_neg (by omega), Rd.bind_run_ok (readU64_le _ f1 _)]
    simp only [f2, f3, f4, f5]
    have hshared : ∀ r, (if (g.shared && (cur.isNone || g.update)) = true then
          readU64 >>= fun n => deCol cfg t n >>= fun d => (pure (some d) : Rd (Option (List Value)))
        else pure cur) ((if g.sends cur = true then writeU64 g.newShared.length ++ b1 else []) ++ r) = .ok (g.next cur, r) := by
      intro r
      have e : (g.shared && (cur.isNone || g.update)) = g.sends cur := rfl
      rw [e]
      unfold Granule.next
      cases hs : g.sends cur with
      | false => rfl
      | true =>
        have hd := h1 hs
        have := hd.fits
        simp only [if_true, List.append_assoc]
        rw [Rd.bind_run_ok (readU64_le _ (by omega) _), Rd.bind_run_ok (dict_read ha hw hd _)]
        rfl
    rw [Rd.bind_run_ok (hshared _)]
    have hown : ∀ r, (if g.own.isSome = true then readU64 >>= fun n => deCol cfg t n else (pure [] : Rd (List Value)))
        ((if g.own.isSome = true then writeU64 (g.own.getD []).length ++ b2 else []) ++ r) = .ok (g.own.getD [], r) := by
      intro r
      cases ho : g.own with
      | none => rfl
      | some ks =>
        have hd := h2 ks ho
        have := hd.fits
        simp only [Option.isSome_some, if_true, Option.getD_some, List.append_assoc]
        rw [Rd.bind_run_ok (readU64_le _ (by omega) _)]
        exact dict_read ha hw hd _
    rw [Rd.bind_run_ok (hown _), Rd.bind_run_ok (readU64_le _ (by omega) _)]
    have hmin : min (g.indices.length + more) g.indices.length = g.indices.length := by omega
    rw [hmin, guardRows_le (by omega)]
    have hrep := rep_map (f := le g.width) (r := (readExact g.width >>= fun b => (pure (unLe b) : Rd Nat))) (g := id) g.indices (by
        intro i him rest
        rw [Rd.bind_run_ok (readExact_append _ rest (le_length _ _))]
        simp only [Rd.pure_apply, unLe_le, id]
        rw [Nat.mod_eq_of_lt (hi i him)]) rest
    rw [List.map_id] at hrep
    rw [Rd.bind_run_ok hrep]
    rw [if_pos hsome]
    have hres := mapL_named (f := lcResolve nullable g.own.isSome g.shared (g.own.getD []) ((g.next cur).getD []))
      (fun i v h => (lcResolve_named h).2) g.indices vs hv
    rw [hres]
    rw [Rd.bind_run_ok (x := Rd.lift (.ok vs)) (a := vs) rfl]
    congr 1
    omega

/-- The whole loop. -/
theorem lcLoop_granules {cfg : Cfg} {t : Ty} (ha : t.lcAllowed = true) (hw : WellFormed cfg t) {nullable : Bool} {cur : Option (List Value)}
    {gs : List Granule} {bs : Bytes} {vs : List Value} (h : Granules cfg t (fun cur g => g.namedByClient nullable cur) cur gs bs vs) :
    ∀ (fuel : Nat) (out : List Value) (rest : Bytes), gs.length < fuel → vs.length ≤ 2 ^ 30 →
      lcLoop (deCol cfg t) nullable fuel vs.length cur out (bs ++ rest) = .ok (out ++ vs, rest) := by
  induction h with
  | done =>
    intro fuel out rest hf _
    obtain ⟨k, rfl⟩ : ∃ k, fuel = k + 1 := ⟨fuel - 1, by simp at hf; omega⟩
    simp [lcLoop]
  | @more cur g b vs gs bs ws h1 h2 h3 h4 _ ih =>
    intro fuel out rest hf hl
    obtain ⟨k, rfl⟩ : ∃ k, fuel = k + 1 := ⟨fuel - 1, by simp at hf; omega⟩
    have hlen : g.indices.length = vs.length := by
      have := congrArg List.length h4
      simpa using this
    rw [List.length_append, ← hlen] at hl ⊢
    rw [List.append_assoc, lcLoop_granule ha hw h1 h2 h3 h4 k ws.length out _ hl, ih k (out ++ vs) rest (by simp at hf; omega) (by omega),
      List.append_assoc]

theorem granules_length {cfg : Cfg} {t : Ty} {names : Option (List Value) → Granule → Nat → Option Value} {cur : Option (List Value)}
    {gs : List Granule} {bs : Bytes} {vs : List Value} (h : Granules cfg t names cur gs bs vs) : gs.length ≤ bs.length := by
  induction h with
  | done => simp
  | more h1 _ _ _ _ ih =>
    have := granule_length h1
    simp only [List.length_cons, List.length_append]
    omega

theorem deCol_lcType (cfg : Cfg) {t : Ty} (ha : t.lcAllowed = true) (nullable : Bool) (n : Nat) :
    deCol cfg (lcType nullable t) n = guardRows n (deLc (deCol cfg t) nullable n) := by
  cases nullable with
  | true => rfl
  | false => exact deCol_lc_nonnull (lcAllowed_not_nullable ha) n

/-- C86, what the client makes of any granules: the values their indices name when the own keys are counted first and only own keys have a NULL. -/
theorem C86_own_first (cfg : Cfg) (t : Ty) (ha : t.lcAllowed = true) (hw : WellFormed cfg t) (nullable : Bool) (gs : List Granule) (bs : Bytes)
    (vs : List Value) (h : Granules cfg t (fun cur g => g.namedByClient nullable cur) none gs bs vs) (hl : vs.length ≤ 2 ^ 30) (rest : Bytes) :
    deCol cfg (lcType nullable t) vs.length (bs ++ rest) = .ok (vs, rest) := by
  rw [deCol_lcType cfg ha, guardRows_le hl]
  unfold deLc
  have := granules_length h
  exact lcLoop_granules ha hw h _ [] rest (by simp only [List.length_append]; omega) hl

theorem named_plain {nullable : Bool} {g : Granule} (hp : g.Plain nullable) (cur : Option (List Value)) (i : Nat) :
    g.namedByClient nullable cur i = g.named nullable cur i := by
  unfold Granule.namedByClient Granule.named
  rcases hp with hs | ⟨ho, rfl⟩
  · unfold Granule.sharedPart
    rw [hs]
    simp only [Bool.false_eq_true, if_false, List.append_nil, List.nil_append]
    cases ho : g.own with
    | none => simp
    | some ks => simp
  · rw [ho]
    simp

/-- C86: a LowCardinality column laid out in any number of granules, each with its own keys or (unless it is nullable) with the dictionary shared by
the granules, which is sent when first needed and replaced when that is announced, in any index widths, is read as the values its indices name, and
the bytes behind it are left alone. Missing from the full claim: granules that refer to both dictionaries (`C86_both_false`), and shared
dictionaries of nullable columns (`C86_shared_null_false`). -/
theorem C86_granules_partial (cfg : Cfg) (t : Ty) (ha : t.lcAllowed = true) (hw : WellFormed cfg t) (nullable : Bool) (gs : List Granule) (bs : Bytes)
    (vs : List Value) (h : Granules cfg t (fun cur g => g.named nullable cur) none gs bs vs) (hp : ∀ g ∈ gs, g.Plain nullable)
    (hl : vs.length ≤ 2 ^ 30) (rest : Bytes) :
    deCol cfg (lcType nullable t) vs.length (bs ++ rest) = .ok (vs, rest) := by
  refine C86_own_first cfg t ha hw nullable gs bs vs ?_ hl rest
  clear hl rest
  generalize none = cur at h ⊢
  induction h with
  | done => exact .done
  | @more cur g b vs gs bs ws h1 h2 h3 h4 _ ih =>
    refine .more h1 h2 h3 ?_ (ih (fun g hg => hp g (List.mem_cons_of_mem _ hg)))
    rw [← h4]
    exact List.map_congr_left (fun i _ => named_plain (hp g (List.mem_cons_self ..)) cur i)

/-- One granule on its own. -/
theorem Granules.single {cfg : Cfg} {t : Ty} {names : Option (List Value) → Granule → Nat → Option Value} {cur : Option (List Value)} {g : Granule}
    {b : Bytes} {vs : List Value} (h1 : g.Wire cfg t cur b) (h2 : g.indices ≠ []) (h3 : ∀ i ∈ g.indices, i < 256 ^ g.width)
    (h4 : g.indices.map (names cur g) = vs.map some) : Granules cfg t names cur [g] b vs := by
  have := Granules.more h1 h2 h3 h4 (Granules.done (cfg := cfg) (t := t) (names := names) (cur := g.next cur))
  simpa using this

/-- A granule with the shared dictionary `[10]` and the own key `20`, and the index 0. -/
def exBoth : Granule := ⟨0, true, false, [.uint8 10#8], some [.uint8 20#8], [0]⟩

theorem dict_one (cfg : Cfg) (x : BitVec 8) : DictBytes cfg .uint8 [.uint8 x] (le 1 x.toNat) where
  fits := by simp
  entries v hv := by
    simp only [List.mem_singleton] at hv
    subst hv
    exact ⟨⟨x, rfl⟩, rfl⟩
  bytes := by rfl

/-- C86 is false of the code: when a granule refers to both dictionaries, the client counts through the own keys first; the server's 10 is read as 20. -/
theorem C86_both_false (cfg : Cfg) : ∃ bs, Granules cfg .uint8 (fun cur g => g.named false cur) none [exBoth] bs [.uint8 10#8] ∧
    deCol cfg (.lowCardinality .uint8) 1 bs = .ok ([.uint8 20#8], []) := by
  refine ⟨_, Granules.single (Granule.Wire.mk _ (le 1 20) (fun _ => dict_one cfg 10#8) (fun ks hk => ?_)) (by simp [exBoth]) (by decide) rfl, ?_⟩
  · cases hk; exact dict_one cfg 20#8
  · rfl

/-- A granule of a nullable column with the shared dictionary `[0]`, whose first entry stands for NULL. -/
def exSharedNull : Granule := ⟨0, true, false, [.uint8 0#8], none, [0]⟩

/-- C86 is false of the code: NULL of a shared dictionary is read as the default value that stands for it. -/
theorem C86_shared_null_false (cfg : Cfg) : ∃ bs, Granules cfg .uint8 (fun cur g => g.named true cur) none [exSharedNull] bs [.null] ∧
    deCol cfg (.lowCardinality (.nullable .uint8)) 1 bs = .ok ([.uint8 0#8], []) := by
  refine ⟨_, Granules.single (Granule.Wire.mk _ [] (fun _ => dict_one cfg 0#8) (fun ks hk => by cases hk)) (by simp [exSharedNull]) (by decide) rfl, ?_⟩
  rfl

/-- Three granules: the shared dictionary is sent, used again, and replaced. -/
def exThree : List Granule :=
  [⟨0, true, false, [.uint8 7#8], none, [0, 0]⟩, ⟨1, true, false, [], none, [0]⟩, ⟨0, true, true, [.uint8 9#8], none, [0]⟩]

theorem exThree_wire (cfg : Cfg) : ∃ bs, Granules cfg .uint8 (fun cur g => g.named false cur) none exThree bs
    ([.uint8 7#8, .uint8 7#8] ++ ([.uint8 7#8] ++ ([.uint8 9#8] ++ []))) := by
  refine ⟨_, .more (Granule.Wire.mk (le 1 7) [] (fun _ => dict_one cfg 7#8) (fun ks hk => by cases hk)) (by simp) (by decide) rfl
    (.more (Granule.Wire.mk [] [] (fun h => by cases h) (fun ks hk => by cases hk)) (by simp) (by decide) rfl
      (.more (Granule.Wire.mk (le 1 9) [] (fun _ => dict_one cfg 9#8) (fun ks hk => by cases hk)) (by simp) (by decide) rfl .done))⟩

example (cfg : Cfg) : ∃ bs, deCol cfg (.lowCardinality .uint8) 4 bs = .ok ([.uint8 7#8, .uint8 7#8, .uint8 7#8, .uint8 9#8], []) := by
  obtain ⟨bs, h⟩ := exThree_wire cfg
  refine ⟨bs ++ [], C86_granules_partial cfg .uint8 rfl .uint8 false exThree bs _ h ?_ (by decide) []⟩
  intro g hg
  simp only [exThree, List.mem_cons, List.not_mem_nil, or_false] at hg
  rcases hg with rfl | rfl | rfl <;> exact .inr ⟨rfl, rfl⟩

end Klick
