import Verif.ValueHash
import Verif.Spec.ValueEq
/-
C67: equality of values, and its agreement with hashing.
-/
namespace Klick
open Spec

theorem isNaN_iff (c : BitVec 64) : IsNaN c ↔ c.toNat % 2 ^ 63 > 0x7FF0000000000000 := by
  unfold IsNaN; have := c.isLt; omega

theorem isZero_iff (c : BitVec 64) : IsZero c ↔ c.toNat % 2 ^ 63 = 0 := by
  have := c.isLt
  constructor
  · rintro (h | h) <;> subst h <;> rfl
  · intro h
    by_cases h0 : c.toNat = 0
    · exact .inl (BitVec.eq_of_toNat_eq (by simpa using h0))
    · exact .inr (BitVec.eq_of_toNat_eq (by simp; omega))

theorem f64Eq_iff (a b : BitVec 64) : f64Eq a b = true ↔ ¬ IsNaN a ∧ ¬ IsNaN b ∧ (a = b ∨ (IsZero a ∧ IsZero b)) := by
  rw [isNaN_iff, isNaN_iff, isZero_iff, isZero_iff]
  simp only [f64Eq, Bool.and_eq_true, Bool.or_eq_true, Bool.not_eq_true', decide_eq_false_iff_not, beq_iff_eq, decide_eq_true_eq, and_assoc]

theorem f64Eq_symm {a b : BitVec 64} (h : f64Eq a b = true) : f64Eq b a = true := by
  rw [f64Eq_iff] at h ⊢
  exact ⟨h.2.1, h.1, h.2.2.elim (fun e => .inl e.symm) (fun e => .inr ⟨e.2, e.1⟩)⟩

theorem f64Eq_trans {a b c : BitVec 64} (h : f64Eq a b = true) (h' : f64Eq b c = true) : f64Eq a c = true := by
  rw [f64Eq_iff] at h h' ⊢
  refine ⟨h.1, h'.2.1, ?_⟩
  rcases h.2.2 with e | e
  · subst e; exact h'.2.2
  · rcases h'.2.2 with e' | e'
    · subst e'; exact .inr e
    · exact .inr ⟨e.1, e'.2⟩

theorem pt_symm {a b : Pt} (h : a.eqv b = true) : b.eqv a = true := by
  simp only [Pt.eqv, Bool.and_eq_true] at h ⊢; exact ⟨f64Eq_symm h.1, f64Eq_symm h.2⟩

theorem pt_trans {a b c : Pt} (h : a.eqv b = true) (h' : b.eqv c = true) : a.eqv c = true := by
  simp only [Pt.eqv, Bool.and_eq_true] at h h' ⊢; exact ⟨f64Eq_trans h.1 h'.1, f64Eq_trans h.2 h'.2⟩

theorem list_symm {α : Type} {f : α → α → Bool} (hf : ∀ (a b : α), f a b = true → f b a = true) : ∀ {xs ys : List α},
    listEqv f xs ys = true → listEqv f ys xs = true
  | [], [], _ => rfl
  | [], _ :: _, h => by cases h
  | _ :: _, [], h => by cases h
  | x :: xs, y :: ys, h => by
    simp only [listEqv, Bool.and_eq_true] at h ⊢
    exact ⟨hf _ _ h.1, list_symm hf h.2⟩

theorem list_trans {α : Type} {f : α → α → Bool} (hf : ∀ (a b c : α), f a b = true → f b c = true → f a c = true) : ∀ {xs ys zs : List α},
    listEqv f xs ys = true → listEqv f ys zs = true → listEqv f xs zs = true
  | [], [], _, _, h => h
  | [], _ :: _, _, h, _ => by cases h
  | _ :: _, [], _, h, _ => by cases h
  | _ :: _, _ :: _, [], _, h => by cases h
  | x :: xs, y :: ys, z :: zs, h, h' => by
    simp only [listEqv, Bool.and_eq_true] at h h' ⊢
    exact ⟨hf _ _ _ h.1 h'.1, list_trans hf h.2 h'.2⟩

theorem list_refl {α : Type} {f : α → α → Bool} : ∀ {xs : List α}, (∀ a, a ∈ xs → f a a = true) → listEqv f xs xs = true
  | [], _ => rfl
  | x :: xs, h => by
    simp only [listEqv, Bool.and_eq_true]
    exact ⟨h x (by simp), list_refl (fun a ha => h a (List.mem_cons_of_mem _ ha))⟩

theorem list_same {α : Type} {f : α → α → Bool} : ∀ {xs ys : List α}, (∀ a, a ∈ xs → ∀ b, f a b = true → a = b) → listEqv f xs ys = true → xs = ys
  | [], [], _, _ => rfl
  | [], _ :: _, _, h => by cases h
  | _ :: _, [], _, h => by cases h
  | x :: xs, y :: ys, hf, h => by
    simp only [listEqv, Bool.and_eq_true] at h
    rw [hf x (by simp) y h.1, list_same (fun a ha => hf a (List.mem_cons_of_mem _ ha)) h.2]

theorem pt_refl {p : Pt} (h : ∀ c, CoordOf c p → ¬ IsNaN c) : p.eqv p = true := by
  simp only [Pt.eqv, Bool.and_eq_true]
  rw [f64Eq_iff, f64Eq_iff]
  exact ⟨⟨h _ (.inl rfl), h _ (.inl rfl), .inl rfl⟩, h _ (.inr rfl), h _ (.inr rfl), .inl rfl⟩

theorem pt_same {p q : Pt} (h : ∀ c, CoordOf c p → ¬ IsZero c) (he : p.eqv q = true) : p = q := by
  obtain ⟨px, py⟩ := p
  obtain ⟨qx, qy⟩ := q
  simp only [Pt.eqv, Bool.and_eq_true, f64Eq_iff] at he
  have h1 := he.1.2.2.resolve_right (fun z => h _ (.inl rfl) z.1)
  have h2 := he.2.2.2.resolve_right (fun z => h _ (.inr rfl) z.1)
  rw [h1, h2]

set_option maxHeartbeats 2000000 in
mutual
theorem value_refl : ∀ (v : Value), (∀ c, HasCoord c v → ¬ IsNaN c) → v.eqv v = true
  | .array xs, h => by
    simp only [Value.eqv]; exact values_refl xs (fun v hv c hc => h c (.array hv hc))
  | .tuple xs, h => by
    simp only [Value.eqv]; exact values_refl xs (fun v hv c hc => h c (.tuple hv hc))
  | .map ks vs, h => by
    simp only [Value.eqv, Bool.and_eq_true]
    exact ⟨values_refl ks (fun v hv c hc => h c (.key hv hc)), values_refl vs (fun v hv c hc => h c (.val hv hc))⟩
  | .point p, h => by simp only [Value.eqv]; exact pt_refl (fun c hc => h c (.point hc))
  | .ring r, h => by
    simp only [Value.eqv]; exact list_refl (fun p hp => pt_refl (fun c hc => h c (.ring hp hc)))
  | .polygon r, h => by
    simp only [Value.eqv]
    exact list_refl (fun r hr => list_refl (fun p hp => pt_refl (fun c hc => h c (.polygon hr hp hc))))
  | .multiPolygon r, h => by
    simp only [Value.eqv]
    exact list_refl (fun m hm => list_refl (fun r hr => list_refl (fun p hp => pt_refl (fun c hc => h c (.multiPolygon hm hr hp hc)))))
  | .int8 _, _ | .int16 _, _ | .int32 _, _ | .int64 _, _ | .int128 _, _ | .int256 _, _ | .uint8 _, _ | .uint16 _, _ | .uint32 _, _
  | .uint64 _, _ | .uint128 _, _ | .uint256 _, _ | .float32 _, _ | .float64 _, _ | .bfloat16 _, _ | .decimal32 _ _, _ | .decimal64 _ _, _
  | .decimal128 _ _, _ | .decimal256 _ _, _ | .string _, _ | .uuid _, _ | .date _, _ | .dateTime _ _, _ | .dateTime64 _ _ _, _
  | .enum8 _, _ | .enum16 _, _ | .null, _ | .ipv4 _, _ | .ipv6 _, _ => by simp [Value.eqv]
theorem values_refl : ∀ (vs : List Value), (∀ v, v ∈ vs → ∀ c, HasCoord c v → ¬ IsNaN c) → Value.eqvs vs vs = true
  | [], _ => rfl
  | v :: vs, h => by
    simp only [Value.eqvs, Bool.and_eq_true]
    exact ⟨value_refl v (h v (by simp)), values_refl vs (fun w hw => h w (List.mem_cons_of_mem _ hw))⟩
end

set_option maxHeartbeats 2000000 in
mutual
theorem value_same : ∀ (v w : Value), (∀ c, HasCoord c v → ¬ IsZero c) → v.eqv w = true → v = w
  | .array xs, w, h, he => by
    cases w <;> simp [Value.eqv] at he
    rw [values_same xs _ (fun v hv c hc => h c (.array hv hc)) he]
  | .tuple xs, w, h, he => by
    cases w <;> simp [Value.eqv] at he
    rw [values_same xs _ (fun v hv c hc => h c (.tuple hv hc)) he]
  | .map ks vs, w, h, he => by
    cases w <;> simp [Value.eqv] at he
    rw [values_same ks _ (fun v hv c hc => h c (.key hv hc)) he.1, values_same vs _ (fun v hv c hc => h c (.val hv hc)) he.2]
  | .point p, w, h, he => by
    cases w <;> simp [Value.eqv] at he
    rw [pt_same (fun c hc => h c (.point hc)) he]
  | .ring r, w, h, he => by
    cases w <;> simp [Value.eqv] at he
    rw [list_same (fun p hp q hq => pt_same (fun c hc => h c (.ring hp hc)) hq) he]
  | .polygon r, w, h, he => by
    cases w <;> simp [Value.eqv] at he
    rw [list_same (fun r hr s hs => list_same (fun p hp q hq => pt_same (fun c hc => h c (.polygon hr hp hc)) hq) hs) he]
  | .multiPolygon r, w, h, he => by
    cases w <;> simp [Value.eqv] at he
    rw [list_same (fun m hm n hn => list_same (fun r hr s hs => list_same (fun p hp q hq => pt_same (fun c hc => h c (.multiPolygon hm hr hp hc)) hq) hs) hn) he]
  | .int8 _, w, _, he | .int16 _, w, _, he | .int32 _, w, _, he | .int64 _, w, _, he | .int128 _, w, _, he | .int256 _, w, _, he
  | .uint8 _, w, _, he | .uint16 _, w, _, he | .uint32 _, w, _, he | .uint64 _, w, _, he | .uint128 _, w, _, he | .uint256 _, w, _, he
  | .float32 _, w, _, he | .float64 _, w, _, he | .bfloat16 _, w, _, he | .decimal32 _ _, w, _, he | .decimal64 _ _, w, _, he
  | .decimal128 _ _, w, _, he | .decimal256 _ _, w, _, he | .string _, w, _, he | .uuid _, w, _, he | .date _, w, _, he
  | .dateTime _ _, w, _, he | .dateTime64 _ _ _, w, _, he | .enum8 _, w, _, he | .enum16 _, w, _, he | .null, w, _, he
  | .ipv4 _, w, _, he | .ipv6 _, w, _, he => by
    cases w <;> simp [Value.eqv] at he <;> simp [he]
theorem values_same : ∀ (vs ws : List Value), (∀ v, v ∈ vs → ∀ c, HasCoord c v → ¬ IsZero c) → Value.eqvs vs ws = true → vs = ws
  | [], [], _, _ => rfl
  | [], _ :: _, _, h => by cases h
  | _ :: _, [], _, h => by cases h
  | v :: vs, w :: ws, h, he => by
    simp only [Value.eqvs, Bool.and_eq_true] at he
    rw [value_same v w (h v (by simp)) he.1, values_same vs ws (fun x hx => h x (List.mem_cons_of_mem _ hx)) he.2]
end

theorem ring_symm {a b : List Pt} (h : listEqv Pt.eqv a b = true) : listEqv Pt.eqv b a = true := list_symm (f := Pt.eqv) (fun _ _ => pt_symm) h
theorem poly_symm {a b : List (List Pt)} (h : listEqv (listEqv Pt.eqv) a b = true) : listEqv (listEqv Pt.eqv) b a = true :=
  list_symm (f := listEqv Pt.eqv) (fun _ _ => ring_symm) h
theorem multi_symm {a b : List (List (List Pt))} (h : listEqv (listEqv (listEqv Pt.eqv)) a b = true) : listEqv (listEqv (listEqv Pt.eqv)) b a = true :=
  list_symm (f := listEqv (listEqv Pt.eqv)) (fun _ _ => poly_symm) h
theorem ring_trans {a b c : List Pt} (h : listEqv Pt.eqv a b = true) (h' : listEqv Pt.eqv b c = true) : listEqv Pt.eqv a c = true :=
  list_trans (f := Pt.eqv) (fun _ _ _ => pt_trans) h h'
theorem poly_trans {a b c : List (List Pt)} (h : listEqv (listEqv Pt.eqv) a b = true) (h' : listEqv (listEqv Pt.eqv) b c = true) :
    listEqv (listEqv Pt.eqv) a c = true :=
  list_trans (f := listEqv Pt.eqv) (fun _ _ _ => ring_trans) h h'
theorem multi_trans {a b c : List (List (List Pt))} (h : listEqv (listEqv (listEqv Pt.eqv)) a b = true)
    (h' : listEqv (listEqv (listEqv Pt.eqv)) b c = true) : listEqv (listEqv (listEqv Pt.eqv)) a c = true :=
  list_trans (f := listEqv (listEqv Pt.eqv)) (fun _ _ _ => poly_trans) h h'

theorem scalar_symm (v w : Value) (h : ∀ c, ¬ HasCoord c v) (he : v.eqv w = true) : w.eqv v = true := by
  have e := value_same v w (fun c hc => absurd hc (h c)) he
  subst e; exact he

theorem scalar_trans (v w u : Value) (h : ∀ c, ¬ HasCoord c v) (he : v.eqv w = true) (hf : w.eqv u = true) : v.eqv u = true := by
  have e := value_same v w (fun c hc => absurd hc (h c)) he
  subst e; exact hf

set_option maxHeartbeats 2000000 in
mutual
theorem value_symm : ∀ (v w : Value), v.eqv w = true → w.eqv v = true
  | .array xs, w, he => by
    cases w <;> simp [Value.eqv] at he
    simp only [Value.eqv]; exact values_symm xs _ he
  | .tuple xs, w, he => by
    cases w <;> simp [Value.eqv] at he
    simp only [Value.eqv]; exact values_symm xs _ he
  | .map ks vs, w, he => by
    cases w <;> simp [Value.eqv] at he
    simp only [Value.eqv, Bool.and_eq_true]; exact ⟨values_symm ks _ he.1, values_symm vs _ he.2⟩
  | .point p, w, he => by
    cases w <;> simp [Value.eqv] at he
    simp only [Value.eqv]; exact pt_symm he
  | .ring r, w, he => by
    cases w <;> simp [Value.eqv] at he
    simp only [Value.eqv]; exact ring_symm he
  | .polygon r, w, he => by
    cases w <;> simp [Value.eqv] at he
    simp only [Value.eqv]; exact poly_symm he
  | .multiPolygon r, w, he => by
    cases w <;> simp [Value.eqv] at he
    simp only [Value.eqv]; exact multi_symm he
  | .int8 a, w, he => scalar_symm (.int8 a) w (by intro c h; cases h) he
  | .int16 a, w, he => scalar_symm (.int16 a) w (by intro c h; cases h) he
  | .int32 a, w, he => scalar_symm (.int32 a) w (by intro c h; cases h) he
  | .int64 a, w, he => scalar_symm (.int64 a) w (by intro c h; cases h) he
  | .int128 a, w, he => scalar_symm (.int128 a) w (by intro c h; cases h) he
  | .int256 a, w, he => scalar_symm (.int256 a) w (by intro c h; cases h) he
  | .uint8 a, w, he => scalar_symm (.uint8 a) w (by intro c h; cases h) he
  | .uint16 a, w, he => scalar_symm (.uint16 a) w (by intro c h; cases h) he
  | .uint32 a, w, he => scalar_symm (.uint32 a) w (by intro c h; cases h) he
  | .uint64 a, w, he => scalar_symm (.uint64 a) w (by intro c h; cases h) he
  | .uint128 a, w, he => scalar_symm (.uint128 a) w (by intro c h; cases h) he
  | .uint256 a, w, he => scalar_symm (.uint256 a) w (by intro c h; cases h) he
  | .float32 a, w, he => scalar_symm (.float32 a) w (by intro c h; cases h) he
  | .float64 a, w, he => scalar_symm (.float64 a) w (by intro c h; cases h) he
  | .bfloat16 a, w, he => scalar_symm (.bfloat16 a) w (by intro c h; cases h) he
  | .decimal32 a b, w, he => scalar_symm (.decimal32 a b) w (by intro c h; cases h) he
  | .decimal64 a b, w, he => scalar_symm (.decimal64 a b) w (by intro c h; cases h) he
  | .decimal128 a b, w, he => scalar_symm (.decimal128 a b) w (by intro c h; cases h) he
  | .decimal256 a b, w, he => scalar_symm (.decimal256 a b) w (by intro c h; cases h) he
  | .string a, w, he => scalar_symm (.string a) w (by intro c h; cases h) he
  | .uuid a, w, he => scalar_symm (.uuid a) w (by intro c h; cases h) he
  | .date a, w, he => scalar_symm (.date a) w (by intro c h; cases h) he
  | .dateTime a b, w, he => scalar_symm (.dateTime a b) w (by intro c h; cases h) he
  | .dateTime64 a b c, w, he => scalar_symm (.dateTime64 a b c) w (by intro c h; cases h) he
  | .enum8 a, w, he => scalar_symm (.enum8 a) w (by intro c h; cases h) he
  | .enum16 a, w, he => scalar_symm (.enum16 a) w (by intro c h; cases h) he
  | .null, w, he => scalar_symm (.null) w (by intro c h; cases h) he
  | .ipv4 a, w, he => scalar_symm (.ipv4 a) w (by intro c h; cases h) he
  | .ipv6 a, w, he => scalar_symm (.ipv6 a) w (by intro c h; cases h) he
theorem values_symm : ∀ (vs ws : List Value), Value.eqvs vs ws = true → Value.eqvs ws vs = true
  | [], [], _ => rfl
  | [], _ :: _, h => by cases h
  | _ :: _, [], h => by cases h
  | v :: vs, w :: ws, he => by
    simp only [Value.eqvs, Bool.and_eq_true] at he ⊢
    exact ⟨value_symm v w he.1, values_symm vs ws he.2⟩
end

set_option maxHeartbeats 2000000 in
mutual
theorem value_trans : ∀ (v w u : Value), v.eqv w = true → w.eqv u = true → v.eqv u = true
  | .array xs, w, u, he, hf => by
    cases w <;> simp [Value.eqv] at he
    cases u <;> simp [Value.eqv] at hf
    simp only [Value.eqv]; exact values_trans xs _ _ he hf
  | .tuple xs, w, u, he, hf => by
    cases w <;> simp [Value.eqv] at he
    cases u <;> simp [Value.eqv] at hf
    simp only [Value.eqv]; exact values_trans xs _ _ he hf
  | .map ks vs, w, u, he, hf => by
    cases w <;> simp [Value.eqv] at he
    cases u <;> simp [Value.eqv] at hf
    simp only [Value.eqv, Bool.and_eq_true]; exact ⟨values_trans ks _ _ he.1 hf.1, values_trans vs _ _ he.2 hf.2⟩
  | .point p, w, u, he, hf => by
    cases w <;> simp [Value.eqv] at he
    cases u <;> simp [Value.eqv] at hf
    simp only [Value.eqv]; exact pt_trans he hf
  | .ring r, w, u, he, hf => by
    cases w <;> simp [Value.eqv] at he
    cases u <;> simp [Value.eqv] at hf
    simp only [Value.eqv]; exact ring_trans he hf
  | .polygon r, w, u, he, hf => by
    cases w <;> simp [Value.eqv] at he
    cases u <;> simp [Value.eqv] at hf
    simp only [Value.eqv]; exact poly_trans he hf
  | .multiPolygon r, w, u, he, hf => by
    cases w <;> simp [Value.eqv] at he
    cases u <;> simp [Value.eqv] at hf
    simp only [Value.eqv]; exact multi_trans he hf
  | .int8 a, w, u, he, hf => scalar_trans (.int8 a) w u (by intro c h; cases h) he hf
  | .int16 a, w, u, he, hf => scalar_trans (.int16 a) w u (by intro c h; cases h) he hf
  | .int32 a, w, u, he, hf => scalar_trans (.int32 a) w u (by intro c h; cases h) he hf
  | .int64 a, w, u, he, hf => scalar_trans (.int64 a) w u (by intro c h; cases h) he hf
  | .int128 a, w, u, he, hf => scalar_trans (.int128 a) w u (by intro c h; cases h) he hf
  | .int256 a, w, u, he, hf => scalar_trans (.int256 a) w u (by intro c h; cases h) he hf
  | .uint8 a, w, u, he, hf => scalar_trans (.uint8 a) w u (by intro c h; cases h) he hf
  | .uint16 a, w, u, he, hf => scalar_trans (.uint16 a) w u (by intro c h; cases h) he hf
  | .uint32 a, w, u, he, hf => scalar_trans (.uint32 a) w u (by intro c h; cases h) he hf
  | .uint64 a, w, u, he, hf => scalar_trans (.uint64 a) w u (by intro c h; cases h) he hf
  | .uint128 a, w, u, he, hf => scalar_trans (.uint128 a) w u (by intro c h; cases h) he hf
  | .uint256 a, w, u, he, hf => scalar_trans (.uint256 a) w u (by intro c h; cases h) he hf
  | .float32 a, w, u, he, hf => scalar_trans (.float32 a) w u (by intro c h; cases h) he hf
  | .float64 a, w, u, he, hf => scalar_trans (.float64 a) w u (by intro c h; cases h) he hf
  | .bfloat16 a, w, u, he, hf => scalar_trans (.bfloat16 a) w u (by intro c h; cases h) he hf
  | .decimal32 a b, w, u, he, hf => scalar_trans (.decimal32 a b) w u (by intro c h; cases h) he hf
  | .decimal64 a b, w, u, he, hf => scalar_trans (.decimal64 a b) w u (by intro c h; cases h) he hf
  | .decimal128 a b, w, u, he, hf => scalar_trans (.decimal128 a b) w u (by intro c h; cases h) he hf
  | .decimal256 a b, w, u, he, hf => scalar_trans (.decimal256 a b) w u (by intro c h; cases h) he hf
  | .string a, w, u, he, hf => scalar_trans (.string a) w u (by intro c h; cases h) he hf
  | .uuid a, w, u, he, hf => scalar_trans (.uuid a) w u (by intro c h; cases h) he hf
  | .date a, w, u, he, hf => scalar_trans (.date a) w u (by intro c h; cases h) he hf
  | .dateTime a b, w, u, he, hf => scalar_trans (.dateTime a b) w u (by intro c h; cases h) he hf
  | .dateTime64 a b c, w, u, he, hf => scalar_trans (.dateTime64 a b c) w u (by intro c h; cases h) he hf
  | .enum8 a, w, u, he, hf => scalar_trans (.enum8 a) w u (by intro c h; cases h) he hf
  | .enum16 a, w, u, he, hf => scalar_trans (.enum16 a) w u (by intro c h; cases h) he hf
  | .null, w, u, he, hf => scalar_trans (.null) w u (by intro c h; cases h) he hf
  | .ipv4 a, w, u, he, hf => scalar_trans (.ipv4 a) w u (by intro c h; cases h) he hf
  | .ipv6 a, w, u, he, hf => scalar_trans (.ipv6 a) w u (by intro c h; cases h) he hf
theorem values_trans : ∀ (vs ws us : List Value), Value.eqvs vs ws = true → Value.eqvs ws us = true → Value.eqvs vs us = true
  | [], [], _, _, h => h
  | [], _ :: _, _, h, _ => by cases h
  | _ :: _, [], _, h, _ => by cases h
  | _ :: _, _ :: _, [], _, h => by cases h
  | v :: vs, w :: ws, u :: us, he, hf => by
    simp only [Value.eqvs, Bool.and_eq_true] at he hf ⊢
    exact ⟨value_trans v w u he.1 hf.1, values_trans vs ws us he.2 hf.2⟩
end

/-- C67: `==` is symmetric on all values. -/
theorem C67_symmetric (v w : Value) : v.eqv w = w.eqv v := by
  cases h : v.eqv w with
  | true => exact (value_symm v w h).symm
  | false =>
    cases h' : w.eqv v with
    | false => rfl
    | true => rw [value_symm w v h'] at h; cases h

/-- C67: `==` is transitive on all values. -/
theorem C67_transitive (v w u : Value) (h : v.eqv w = true) (h' : w.eqv u = true) : v.eqv u = true := value_trans v w u h h'

/-- C67: a value equals itself unless a coordinate of a geometric value in it is not a number; values other than geometric ones have
no coordinates (all floats of scalar columns included). -/
theorem C67_reflexive_partial (v : Value) (h : ∀ c, HasCoord c v → ¬ IsNaN c) : v.eqv v = true := value_refl v h

/-- C67: values compare equal only if they are the same, unless a coordinate in them is zero; hence they hash equally, into any
hasher. -/
theorem C67_hash_agrees_partial (v w : Value) (hz : ∀ c, HasCoord c v → ¬ IsZero c) (h : v.eqv w = true) :
    v = w ∧ v.hashWords = w.hashWords := by
  rw [value_same v w hz h]; exact ⟨rfl, rfl⟩

/-- C67: without such coordinates `==` is identity. -/
theorem C67_identity_partial (v w : Value) (h : ∀ c, HasCoord c v → ¬ IsNaN c ∧ ¬ IsZero c) : v.eqv w = true ↔ v = w :=
  ⟨value_same v w (fun c hc => (h c hc).2), fun e => e ▸ value_refl v (fun c hc => (h c hc).1)⟩

/-- C67 fails: a point with a NaN coordinate is not equal to itself, although `Value` is declared `Eq`. -/
theorem C67_reflexive_false : ∃ v : Value, v.eqv v = false := ⟨.point ⟨0x7FF8000000000000#64, 0⟩, by decide⟩

/-- C67 fails: the points (0.0, 0.0) and (-0.0, 0.0) are equal but write different words to the hasher, so a hash map may hold both or
miss either. -/
theorem C67_hash_false : ∃ v w : Value, v.eqv w = true ∧ v.hashWords ≠ w.hashWords :=
  ⟨.point ⟨0, 0⟩, .point ⟨0x8000000000000000#64, 0⟩, by decide, by decide⟩

/-- A nested value with a NaN and a zero in float columns: no condition is violated. -/
example : (Value.array [.tuple [.float64 0x7FF8000000000000#64, .string []], .tuple [.float64 0x8000000000000000#64, .null]]).eqv
    (.array [.tuple [.float64 0x7FF8000000000000#64, .string []], .tuple [.float64 0x8000000000000000#64, .null]]) = true :=
  C67_reflexive_partial _ (by
    intro c h
    cases h with
    | array hv h =>
      simp at hv
      rcases hv with rfl | rfl <;> cases h with
      | tuple hv h => simp at hv; rcases hv with rfl | rfl <;> cases h)

example (w : Value) : (Value.ring [⟨0x3FF0000000000000#64, 0x4000000000000000#64⟩]).eqv w = true ↔ .ring [⟨0x3FF0000000000000#64, 0x4000000000000000#64⟩] = w :=
  C67_identity_partial _ _ (by
    intro c h
    cases h with
    | ring hp hc =>
      simp at hp; subst hp
      rcases hc with rfl | rfl <;> simp [IsNaN, IsZero])

end Klick
