import Verif.Spec.ValueSerde
import Verif.Props.Serde
import Verif.Props.Numeric
/-
C110: values carried by serde.
-/
namespace Klick
open Spec Props

theorem atom_bits {w : Nat} (x : BitVec w) : (SerdeAtom.ofBits x).bits w = .ok x := by
  show (if w = w then _ else _) = _
  rw [if_pos rfl, BitVec.ofNat_toNat, BitVec.setWidth_eq]

theorem atom_list {α : Type} {f : α → SerdeAtom} {g : SerdeAtom → Res α} (h : ∀ x, g (f x) = .ok x) (xs : List α) :
    (SerdeAtom.ofList f xs).list g = .ok xs := by
  show Res.mapL g (xs.map f) = _
  induction xs with
  | nil => rfl
  | cons x xs ih => rw [List.map_cons, Res.mapL, h, Res.bind_ok, ih]; rfl

theorem atom_bytes (b : Bytes) : (SerdeAtom.ofBytes b).list (SerdeAtom.bits 8) = .ok b := atom_list atom_bits b

theorem atom_wide (x : BitVec 256) : (SerdeAtom.ofBytes (be 32 x.toNat)).wide = .ok x := by
  unfold SerdeAtom.wide
  rw [atom_bytes, Res.bind_ok, if_pos (be_length ..), unBe_be]
  congr 1
  apply BitVec.eq_of_toNat_eq
  have := x.isLt
  rw [BitVec.toNat_ofNat]
  omega

theorem atom_pt (p : Pt) : (SerdeAtom.ofPt p).pt = .ok p := by
  unfold SerdeAtom.ofPt SerdeAtom.pt
  simp only [atom_bits, Res.bind_ok]

theorem timesFine_part {r : Rfc3339} {v w : Value} (h : TimesFine r v) (hp : ∀ x, PartOf x w → PartOf x v) : TimesFine r w :=
  ⟨fun tz x q => h.datetime tz x (hp _ q), fun tz x p q => h.datetime64 tz x p (hp _ q)⟩

mutual
theorem serde_back (cfg : Cfg) (r : Rfc3339) (hr : Rfc3339.Keeps r) : ∀ v : Value, TimesFine r v → ∃ c, v.ser cfg r = .ok c ∧ Value.de cfg r c = .ok (inUtc v)
  | .int8 x, _ | .int16 x, _ | .int32 x, _ | .int64 x, _ | .int128 x, _ | .uint8 x, _ | .uint16 x, _ | .uint32 x, _ | .uint64 x, _
  | .uint128 x, _ | .float32 x, _ | .float64 x, _ | .bfloat16 x, _ | .decimal32 _ x, _ | .decimal64 _ x, _ | .decimal128 _ x, _
  | .uuid x, _ | .enum8 x, _ | .enum16 x, _ | .ipv4 x, _ | .ipv6 x, _ =>
    ⟨_, rfl, by rw [Value.de, Value.dePlain, atom_bits]; rfl⟩
  | .int256 x, _ | .uint256 x, _ | .decimal256 _ x, _ => ⟨_, rfl, by rw [Value.de, Value.dePlain, atom_wide]; rfl⟩
  | .string b, _ => ⟨_, rfl, by rw [Value.de, Value.dePlain, atom_bytes]; rfl⟩
  | .null, _ => ⟨_, rfl, rfl⟩
  | .point p, _ => ⟨_, rfl, by rw [Value.de, Value.dePlain, atom_pt]; rfl⟩
  | .ring p, _ => ⟨_, rfl, by rw [Value.de, Value.dePlain, atom_list atom_pt]; rfl⟩
  | .polygon p, _ => ⟨_, rfl, by rw [Value.de, Value.dePlain, atom_list (atom_list atom_pt)]; rfl⟩
  | .multiPolygon p, _ => ⟨_, rfl, by rw [Value.de, Value.dePlain, atom_list (atom_list (atom_list atom_pt))]; rfl⟩
  | .date d, _ => ⟨.plain 21 [.text (r.formatDay (dateToDay d))], rfl, by
      have := C73_date r hr d
      rw [show r.dateSer d = .ok (r.formatDay (dateToDay d)) from rfl, Res.bind_ok] at this
      rw [Value.de, Value.dePlain, this]; rfl⟩
  | .dateTime tz x, h => by
    obtain ⟨s, h1, h2⟩ := C73_datetime_partial r hr tz x (h.datetime tz x (.self _))
    exact ⟨.plain 22 [.text s], by rw [Value.ser, h1]; rfl, by rw [Value.de, Value.dePlain, h2]; rfl⟩
  | .dateTime64 tz x p, h => by
    obtain ⟨hp, hl, hw⟩ := h.datetime64 tz x p (.self _)
    obtain ⟨s, w, h1, h2, h3⟩ := C73_dynamic_partial r hr cfg p hp tz x hl hw
    refine ⟨.plain 23 [.text s], by rw [Value.ser, h1]; rfl, ?_⟩
    rw [Value.de, Value.dePlain, h2]
    show Res.ok (Value.dateTime64 tzUTC w 6) = .ok (.dateTime64 tzUTC (BitVec.ofNat 64 (x.toNat * unitNs p / 1000)) 6)
    have e : x.toNat * unitNs p / 1000 = w.toNat := by
      have : ((x.toNat * unitNs p : Nat) : Int) = (x.toNat * unitNs p : Int) := by simp
      omega
    rw [e, BitVec.ofNat_toNat, BitVec.setWidth_eq]
  | .array xs, h => by
    obtain ⟨cs, h1, h2⟩ := serde_backs cfg r hr xs fun x hx => timesFine_part h fun _ q => .array hx q
    exact ⟨.one 26 cs, by rw [Value.ser, h1]; rfl, by rw [Value.de, h2]; rfl⟩
  | .tuple xs, h => by
    obtain ⟨cs, h1, h2⟩ := serde_backs cfg r hr xs fun x hx => timesFine_part h fun _ q => .tuple hx q
    exact ⟨.one 27 cs, by rw [Value.ser, h1]; rfl, by rw [Value.de, h2]; rfl⟩
  | .map ks vs, h => by
    obtain ⟨cs, h1, h2⟩ := serde_backs cfg r hr ks fun x hx => timesFine_part h fun _ q => .key hx q
    obtain ⟨ds, h3, h4⟩ := serde_backs cfg r hr vs fun x hx => timesFine_part h fun _ q => .value hx q
    exact ⟨.two 29 cs ds, by rw [Value.ser, h1, Res.bind_ok, h3]; rfl, by rw [Value.de, h2, Res.bind_ok, h4]; rfl⟩
theorem serde_backs (cfg : Cfg) (r : Rfc3339) (hr : Rfc3339.Keeps r) : ∀ vs : List Value, (∀ v ∈ vs, TimesFine r v) →
    ∃ cs, Value.sers cfg r vs = .ok cs ∧ Value.des cfg r cs = .ok (allInUtc vs)
  | [], _ => ⟨[], rfl, rfl⟩
  | v :: vs, h => by
    obtain ⟨c, h1, h2⟩ := serde_back cfg r hr v (h v (List.mem_cons_self ..))
    obtain ⟨cs, h3, h4⟩ := serde_backs cfg r hr vs fun x hx => h x (List.mem_cons_of_mem _ hx)
    exact ⟨c :: cs, by rw [Value.sers, h1, Res.bind_ok, h3]; rfl, by rw [Value.des, h2, Res.bind_ok, h4]; rfl⟩
end

/-- **C110**: whatever can be written comes back, with its times in UTC and `DateTime64` at six digits. -/
theorem C110_back_partial (cfg : Cfg) (r : Rfc3339) (hr : Rfc3339.Keeps r) (v : Value) (h : TimesFine r v) : serdeBack cfg r v = .ok (inUtc v) := by
  obtain ⟨c, h1, h2⟩ := serde_back cfg r hr v h
  unfold serdeBack
  rw [h1, Res.bind_ok, h2]

mutual
theorem inUtc_self : ∀ v : Value, (∀ tz x, PartOf (.dateTime tz x) v → tz = tzUTC) → (∀ tz x p, PartOf (.dateTime64 tz x p) v → tz = tzUTC ∧ p = 6) → inUtc v = v
  | .dateTime tz x, h, _ => by rw [inUtc, h tz x (.self _)]
  | .dateTime64 tz x p, _, h => by
    obtain ⟨h1, h2⟩ := h tz x p (.self _)
    subst h1; subst h2
    rw [inUtc, show unitNs 6 = 1000 from rfl, Nat.mul_div_cancel _ (by decide), BitVec.ofNat_toNat, BitVec.setWidth_eq]
  | .array xs, h, h' => by rw [inUtc, allInUtc_self xs (fun v hv tz x q => h tz x (.array hv q)) fun v hv tz x p q => h' tz x p (.array hv q)]
  | .tuple xs, h, h' => by rw [inUtc, allInUtc_self xs (fun v hv tz x q => h tz x (.tuple hv q)) fun v hv tz x p q => h' tz x p (.tuple hv q)]
  | .map ks vs, h, h' => by
    rw [inUtc, allInUtc_self ks (fun v hv tz x q => h tz x (.key hv q)) fun v hv tz x p q => h' tz x p (.key hv q),
      allInUtc_self vs (fun v hv tz x q => h tz x (.value hv q)) fun v hv tz x p q => h' tz x p (.value hv q)]
  | .int8 x, _, _ | .int16 x, _, _ | .int32 x, _, _ | .int64 x, _, _ | .int128 x, _, _ | .uint8 x, _, _ | .uint16 x, _, _ | .uint32 x, _, _ | .uint64 x, _, _
  | .uint128 x, _, _ | .float32 x, _, _ | .float64 x, _, _ | .bfloat16 x, _, _ | .decimal32 _ x, _, _ | .decimal64 _ x, _, _ | .decimal128 _ x, _, _
  | .uuid x, _, _ | .enum8 x, _, _ | .enum16 x, _, _ | .ipv4 x, _, _ | .ipv6 x, _, _ | .int256 x, _, _ | .uint256 x, _, _ | .decimal256 _ x, _, _
  | .string x, _, _ | .null, _, _ | .point x, _, _ | .ring x, _, _ | .polygon x, _, _ | .multiPolygon x, _, _ | .date x, _, _ => rfl
theorem allInUtc_self : ∀ vs : List Value, (∀ v ∈ vs, ∀ tz x, PartOf (.dateTime tz x) v → tz = tzUTC) →
    (∀ v ∈ vs, ∀ tz x p, PartOf (.dateTime64 tz x p) v → tz = tzUTC ∧ p = 6) → allInUtc vs = vs
  | [], _, _ => rfl
  | v :: vs, h, h' => by
    rw [allInUtc, inUtc_self v (h v (List.mem_cons_self ..)) (h' v (List.mem_cons_self ..)),
      allInUtc_self vs (fun x hx => h x (List.mem_cons_of_mem _ hx)) fun x hx => h' x (List.mem_cons_of_mem _ hx)]
end

/-- Every time that comes back is in UTC, and every `DateTime64` has six digits, whatever is read. -/
theorem dePlain_times {cfg : Cfg} {r : Rfc3339} {k : Nat} {as : List SerdeAtom} {v : Value} (h : Value.dePlain cfg r k as = .ok v) :
    (∀ tz x, PartOf (.dateTime tz x) v → tz = tzUTC) ∧ (∀ tz x p, PartOf (.dateTime64 tz x p) v → tz = tzUTC ∧ p = 6) := by
  unfold Value.dePlain at h
  split at h
  all_goals first
    | (cases h; done)
    | (cases h; (constructor <;> (intros; rename_i q; cases q)); done)
    | (obtain ⟨y, hy, h⟩ := (Res.bind_eq_ok ..).mp h
       cases h
       first
         | ((constructor <;> (intros; rename_i q; cases q)); done)
         | (refine ⟨?_, ?_⟩
            case refine_2 => intro tz x p q; cases q
            intro tz x q
            cases q
            by_cases e : y.1 = tzUTC
            · exact e
            · exact absurd hy (C73_zone_false r _ _ _ e))
         | (refine ⟨?_, ?_⟩
            case refine_1 => intro tz x q; cases q
            intro tz x p q
            cases q
            unfold Rfc3339.dynDe at hy
            obtain ⟨i, _, hy⟩ := (Res.bind_eq_ok ..).mp hy
            obtain ⟨w, _, hy⟩ := (Res.bind_eq_ok ..).mp hy
            cases hy
            exact ⟨rfl, rfl⟩))

mutual
theorem de_times (cfg : Cfg) (r : Rfc3339) : ∀ (c : SerdeForm) (v : Value), Value.de cfg r c = .ok v →
    (∀ tz x, PartOf (.dateTime tz x) v → tz = tzUTC) ∧ (∀ tz x p, PartOf (.dateTime64 tz x p) v → tz = tzUTC ∧ p = 6)
  | .plain k as, v, h => dePlain_times h
  | .one k cs, v, h => by
    rw [Value.de] at h
    obtain ⟨xs, hx, h⟩ := (Res.bind_eq_ok ..).mp h
    have hm := des_times cfg r cs xs hx
    split at h
    · cases h
      exact ⟨fun tz x q => by cases q with | array hy q => exact (hm _ hy).1 tz x q,
        fun tz x p q => by cases q with | array hy q => exact (hm _ hy).2 tz x p q⟩
    · split at h
      · cases h
        exact ⟨fun tz x q => by cases q with | tuple hy q => exact (hm _ hy).1 tz x q,
          fun tz x p q => by cases q with | tuple hy q => exact (hm _ hy).2 tz x p q⟩
      · cases h
  | .two k cs ds, v, h => by
    rw [Value.de] at h
    obtain ⟨ks, hk, h⟩ := (Res.bind_eq_ok ..).mp h
    obtain ⟨vs, hv, h⟩ := (Res.bind_eq_ok ..).mp h
    have h1 := des_times cfg r cs ks hk
    have h2 := des_times cfg r ds vs hv
    split at h
    · cases h
      exact ⟨fun tz x q => by cases q with | key hy q => exact (h1 _ hy).1 tz x q | value hy q => exact (h2 _ hy).1 tz x q,
        fun tz x p q => by cases q with | key hy q => exact (h1 _ hy).2 tz x p q | value hy q => exact (h2 _ hy).2 tz x p q⟩
    · cases h
theorem des_times (cfg : Cfg) (r : Rfc3339) : ∀ (cs : List SerdeForm) (vs : List Value), Value.des cfg r cs = .ok vs → ∀ v ∈ vs,
    (∀ tz x, PartOf (.dateTime tz x) v → tz = tzUTC) ∧ (∀ tz x p, PartOf (.dateTime64 tz x p) v → tz = tzUTC ∧ p = 6)
  | [], vs, h, v, hv => by rw [Value.des] at h; cases h; cases hv
  | c :: cs, vs, h, v, hv => by
    rw [Value.des] at h
    obtain ⟨w, hw, h⟩ := (Res.bind_eq_ok ..).mp h
    obtain ⟨ws, hws, h⟩ := (Res.bind_eq_ok ..).mp h
    cases h
    rcases List.mem_cons.mp hv with rfl | hv
    · exact de_times cfg r c _ hw
    · exact des_times cfg r cs ws hws v hv
end

/-- **C110**, exactly: a value whose times can be written comes back as it was if and only if its times are in UTC, and its `DateTime64` have
six digits; and no other value is ever read, whatever was written. -/
theorem C110_exact_partial (cfg : Cfg) (r : Rfc3339) (hr : Rfc3339.Keeps r) (v : Value) :
    (TimesFine r v → (serdeBack cfg r v = .ok v ↔
      (∀ tz x, PartOf (.dateTime tz x) v → tz = tzUTC) ∧ (∀ tz x p, PartOf (.dateTime64 tz x p) v → tz = tzUTC ∧ p = 6))) ∧
    (∀ c, Value.de cfg r c = .ok v →
      (∀ tz x, PartOf (.dateTime tz x) v → tz = tzUTC) ∧ (∀ tz x p, PartOf (.dateTime64 tz x p) v → tz = tzUTC ∧ p = 6)) := by
  refine ⟨fun h => ⟨fun e => ?_, fun ⟨h1, h2⟩ => ?_⟩, fun c h => de_times cfg r c v h⟩
  · obtain ⟨c, _, e⟩ := (Res.bind_eq_ok ..).mp e
    exact de_times cfg r c v e
  · rw [C110_back_partial cfg r hr v h, inUtc_self v h1 h2]

/-- **C110**: what `inUtc` says of a `DateTime64` is the instant, cut off after the microseconds: with up to six digits exactly the instant; and
it fits into its 64 bits. -/
theorem C110_instant (x : BitVec 64) (p : Nat) (hp : p ≤ 9) (hl : ((x.toNat / 10 ^ p : Nat) : Int) ≤ lastSecond - 86400) :
    (BitVec.ofNat 64 (x.toNat * unitNs p / 1000)).toNat = x.toNat * unitNs p / 1000 ∧
    (p ≤ 6 → (BitVec.ofNat 64 (x.toNat * unitNs p / 1000)).toNat * unitNs 6 = x.toNat * unitNs p) := by
  have e : x.toNat * unitNs p / 1000 < 2 ^ 64 := by
    have h1 : x.toNat < (x.toNat / 10 ^ p + 1) * 10 ^ p := Nat.lt_mul_of_div_lt (Nat.lt_succ_self _) (Nat.pow_pos (by decide))
    have h2 : x.toNat * unitNs p < (x.toNat / 10 ^ p + 1) * 10 ^ p * unitNs p := Nat.mul_lt_mul_of_pos_right h1 (Nat.pow_pos (by decide))
    have h3 : 10 ^ p * unitNs p = 1000000000 := by
      unfold unitNs
      rw [← Nat.pow_add, show p + (9 - p) = 9 by omega]
    rw [Nat.mul_assoc, h3] at h2
    unfold lastSecond at hl
    omega
  have e' : (BitVec.ofNat 64 (x.toNat * unitNs p / 1000)).toNat = x.toNat * unitNs p / 1000 := by
    rw [BitVec.toNat_ofNat, Nat.mod_eq_of_lt e]
  refine ⟨e', fun h6 => ?_⟩
  rw [e', show unitNs 6 = 1000 from rfl]
  have hd : unitNs p = 1000 * 10 ^ (6 - p) := by
    unfold unitNs
    rw [show (1000 : Nat) = 10 ^ 3 from rfl, ← Nat.pow_add, show 3 + (6 - p) = 9 - p by omega]
  rw [hd, show x.toNat * (1000 * 10 ^ (6 - p)) = x.toNat * 10 ^ (6 - p) * 1000 by rw [Nat.mul_comm 1000, Nat.mul_assoc], Nat.mul_div_cancel _ (by decide)]

/-- **C110** for values without times: they come back as they were. -/
theorem C110_timeless (cfg : Cfg) (r : Rfc3339) (hr : Rfc3339.Keeps r) (v : Value) (h : ∀ tz x, ¬ PartOf (.dateTime tz x) v)
    (h' : ∀ tz x p, ¬ PartOf (.dateTime64 tz x p) v) : serdeBack cfg r v = .ok v :=
  ((C110_exact_partial cfg r hr v).1 ⟨fun tz x q => absurd q (h tz x), fun tz x p q => absurd q (h' tz x p)⟩).mpr
    ⟨fun tz x q => absurd q (h tz x), fun tz x p q => absurd q (h' tz x p)⟩

/-- **C110** is false of every time in another zone, at any depth. -/
theorem C110_zone_false (cfg : Cfg) (r : Rfc3339) (tz : Tz) (ht : tz ≠ tzUTC) (x : BitVec 32) (v : Value) (h : PartOf (.dateTime tz x) v) :
    serdeBack cfg r v ≠ .ok v := by
  intro e
  obtain ⟨c, _, e⟩ := (Res.bind_eq_ok ..).mp e
  exact ht ((de_times cfg r c v e).1 tz x h)

/-- **C110** is false of `DateTime64` with other than six digits, at any depth. -/
theorem C110_precision_false (cfg : Cfg) (r : Rfc3339) (tz : Tz) (x : BitVec 64) (p : Nat) (hp : p ≠ 6) (v : Value) (h : PartOf (.dateTime64 tz x p) v) :
    serdeBack cfg r v ≠ .ok v := by
  intro e
  obtain ⟨c, _, e⟩ := (Res.bind_eq_ok ..).mp e
  exact hp ((de_times cfg r c v e).2 tz x p h).2

/-- **C110** is false of the second before 1970 in milliseconds, as a server sends it: writing it panics, at any depth. -/
theorem C110_panic_false (cfg : Cfg) (r : Rfc3339) (tz : Tz) :
    (Value.dateTime64 tz (BitVec.ofInt 64 (-1000)) 3).ser cfg r = .panic ∧
    serdeBack cfg r (.array [.null, .dateTime64 tz (BitVec.ofInt 64 (-1000)) 3]) = .panic := by
  have h : (Value.dateTime64 tz (BitVec.ofInt 64 (-1000)) 3).ser cfg r = .panic := by
    rw [Value.ser]
    unfold Rfc3339.dynSer
    rw [(C48_dt64_read_outcome cfg serdeErr 3 (BitVec.ofInt 64 (-1000)).toNat (by decide) (BitVec.isLt _)).1.mpr (by decide)]
    rfl
  refine ⟨h, ?_⟩
  unfold serdeBack
  rw [Value.ser, Value.sers, Value.ser, Res.bind_ok, Value.sers, h]
  rfl

/-! ### reading anything -/

/-- A result or the deserializer's error. -/
def Gentle {α : Type} (x : Res α) : Prop := (∃ v, x = .ok v) ∨ x = .err serdeErr

theorem gentle_bind {α β : Type} {x : Res α} {f : α → Res β} (h : Gentle x) (hf : ∀ a, x = .ok a → Gentle (f a)) : Gentle (x >>= f) := by
  rcases h with ⟨a, h⟩ | h
  · rw [h, Res.bind_ok]; exact hf a h
  · rw [h]; exact .inr rfl

theorem gentle_ok {α : Type} (a : α) : Gentle (Res.ok a) := .inl ⟨a, rfl⟩
theorem gentle_err {α : Type} : Gentle (Res.err serdeErr : Res α) := .inr rfl

theorem gentle_map {α β : Type} {x : Res α} {f : α → β} (h : Gentle x) : Gentle (x >>= fun a => .ok (f a)) := gentle_bind h fun _ _ => gentle_ok _

theorem gentle_bits (w : Nat) : ∀ a : SerdeAtom, Gentle (a.bits w)
  | .num k x => by show Gentle (if k = w then _ else _); split <;> first | exact gentle_ok _ | exact gentle_err
  | .size _ | .text _ | .seq _ => gentle_err

theorem gentle_mapL {α : Type} {f : SerdeAtom → Res α} (h : ∀ a, Gentle (f a)) : ∀ xs, Gentle (Res.mapL f xs)
  | [] => gentle_ok _
  | x :: xs => by rw [Res.mapL]; exact gentle_bind (h x) fun _ _ => gentle_map (gentle_mapL h xs)

theorem gentle_list {α : Type} {f : SerdeAtom → Res α} (h : ∀ a, Gentle (f a)) : ∀ a : SerdeAtom, Gentle (a.list f)
  | .seq xs => gentle_mapL h xs
  | .size _ | .text _ | .num _ _ => gentle_err

theorem gentle_wide (a : SerdeAtom) : Gentle a.wide := by
  unfold SerdeAtom.wide
  refine gentle_bind (gentle_list (gentle_bits 8) a) fun b _ => ?_
  split
  all_goals first | exact gentle_ok _ | exact gentle_err

theorem gentle_pt (a : SerdeAtom) : Gentle a.pt := by
  unfold SerdeAtom.pt
  split
  · exact gentle_bind (gentle_bits 64 _) fun _ _ => gentle_bind (gentle_bits 64 _) fun _ _ => gentle_ok _
  · exact gentle_err

theorem gentle_datetime (r : Rfc3339) (s : Str) : Gentle (r.dateTimeDe s) := by
  rcases C73_datetime_refuses r s with ⟨_, _, _, _, x, h, _⟩ | h
  · exact .inl ⟨_, h⟩
  · exact .inr h

theorem gentle_dyn (cfg : Cfg) (r : Rfc3339) (hy : FourDigitYears r) (s : Str) : Gentle (r.dynDe cfg s) := by
  unfold Rfc3339.dynDe
  refine gentle_bind ?_ fun i hi => gentle_map ?_
  · unfold Rfc3339.read; split <;> first | exact gentle_ok _ | exact gentle_err
  · by_cases h0 : 0 ≤ i.secs
    · unfold Rfc3339.read at hi
      split at hi
      · rename_i l n m hp
        cases hi
        obtain ⟨h1, h2, h3⟩ := hy s l n m hp
        obtain ⟨v, hv, _⟩ := C48_dt64_write_partial cfg serdeErr 6 ⟨l - 60 * m, n⟩ (by decide) h0 (by
          show ((l - 60 * m) * 1000000000 + n) / (1000 : Int) < _
          unfold lastSecond at h1
          omega)
        exact .inl ⟨v, hv⟩
      · cases hi
    · unfold dt64OfInst
      rw [if_neg h0]
      exact gentle_err

theorem gentle_date (r : Rfc3339) (s : Str) : Gentle (r.dateDe s) := by
  unfold Rfc3339.dateDe
  split
  all_goals first | exact gentle_ok _ | exact gentle_err

theorem gentle_plain (cfg : Cfg) (r : Rfc3339) (hy : FourDigitYears r) (k : Nat) (as : List SerdeAtom) : Gentle (Value.dePlain cfg r k as) := by
  unfold Value.dePlain
  split
  all_goals first
    | exact gentle_ok _
    | exact gentle_err
    | exact gentle_map (gentle_bits _ _)
    | exact gentle_map (gentle_wide _)
    | exact gentle_map (gentle_list (gentle_bits 8) _)
    | exact gentle_map (gentle_date r _)
    | exact gentle_map (gentle_datetime r _)
    | exact gentle_map (gentle_dyn cfg r hy _)
    | exact gentle_map (gentle_pt _)
    | exact gentle_map (gentle_list gentle_pt _)
    | exact gentle_map (gentle_list (gentle_list gentle_pt) _)
    | exact gentle_map (gentle_list (gentle_list (gentle_list gentle_pt)) _)

mutual
theorem gentle_de (cfg : Cfg) (r : Rfc3339) (hy : FourDigitYears r) : ∀ c : SerdeForm, Gentle (Value.de cfg r c)
  | .plain k as => gentle_plain cfg r hy k as
  | .one k cs => by
    rw [Value.de]
    refine gentle_bind (gentle_des cfg r hy cs) fun xs _ => ?_
    split
    · exact gentle_ok _
    · split
      all_goals first | exact gentle_ok _ | exact gentle_err
  | .two k cs ds => by
    rw [Value.de]
    refine gentle_bind (gentle_des cfg r hy cs) fun xs _ => gentle_bind (gentle_des cfg r hy ds) fun ys _ => ?_
    split
    all_goals first | exact gentle_ok _ | exact gentle_err
theorem gentle_des (cfg : Cfg) (r : Rfc3339) (hy : FourDigitYears r) : ∀ cs : List SerdeForm, Gentle (Value.des cfg r cs)
  | [] => gentle_ok _
  | c :: cs => by
    rw [Value.des]
    exact gentle_bind (gentle_de cfg r hy c) fun _ _ => gentle_map (gentle_des cfg r hy cs)
end

/-- **C110** (reading): whatever was written, by whomever, reading it as a value gives a value or an error of the deserializer, in every build. -/
theorem C110_read (cfg : Cfg) (r : Rfc3339) (hy : FourDigitYears r) (c : SerdeForm) :
    (∃ v, Value.de cfg r c = .ok v) ∨ Value.de cfg r c = .err serdeErr := gentle_de cfg r hy c

/-! ### cases -/

example : serdeBack cfgDebug exRfc (.map [.string [1#8, 255#8]] [.array [.dateTime (ch! "Europe/Berlin") 86400#32, .decimal256 3 7, .null]]) =
    .ok (.map [.string [1#8, 255#8]] [.array [.dateTime tzUTC 86400#32, .decimal256 3 7, .null]]) := by
  refine C110_back_partial cfgDebug exRfc exRfc_keeps _ ⟨?_, ?_⟩
  · intro tz x h
    cases h with
    | key hx h => rw [List.mem_singleton] at hx; subst hx; cases h
    | value hx h =>
      rw [List.mem_singleton] at hx; subst hx
      cases h with
      | array hx h => simp only [List.mem_cons, List.not_mem_nil, or_false] at hx; rcases hx with rfl | rfl | rfl <;> cases h; rfl
  · intro tz x p h
    cases h with
    | key hx h => rw [List.mem_singleton] at hx; subst hx; cases h
    | value hx h =>
      rw [List.mem_singleton] at hx; subst hx
      cases h with
      | array hx h => simp only [List.mem_cons, List.not_mem_nil, or_false] at hx; rcases hx with rfl | rfl | rfl <;> cases h
/-- A reader of texts that takes four-digit years only. -/
def exYears : Rfc3339 :=
  { exRfc with parse := fun s => (exRfc.parse s).filter fun x => decide (x.1 ≤ lastSecond ∧ x.2.1 < 2000000000 ∧ -1440 ≤ x.2.2) }
theorem exYears_years : FourDigitYears exYears := by
  intro s l n m h
  simpa using (Option.filter_eq_some_iff.mp h).2
/-- A time of no zone, and a variant with too few parts. -/
example := C110_read cfgDebug exYears exYears_years (.one 26 [.plain 22 [.text (ch! "yesterday")], .plain 15 []])
example := C110_zone_false cfgDebug exRfc (ch! "Europe/Berlin") (by decide) 86400#32 (.array [.dateTime (ch! "Europe/Berlin") 86400#32]) (.array (List.mem_singleton_self _) (.self _))
example := C110_precision_false cfgDebug exRfc tzUTC 1700000000123#64 3 (by decide) (.tuple [.dateTime64 tzUTC 1700000000123#64 3]) (.tuple (List.mem_singleton_self _) (.self _))

end Klick
