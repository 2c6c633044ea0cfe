import Verif.Spec.Convert
import Verif.ConvertLemmas
import Verif.Props.Column
/-
Conversions between Rust values and column values (C45, C46).
-/
namespace Klick
open Spec Props

/-! ### Scalars -/

theorem accepts_iff (p : Prim) (T : Ty) : p.accepts T = true ↔ Column p T := by
  constructor
  · intro h
    cases p <;> cases T <;> first
      | exact absurd h Bool.false_ne_true
      | constructor
      | (simp only [Prim.accepts, beq_iff_eq] at h; subst h; constructor)
  · intro h
    cases h <;> simp [Prim.accepts]

theorem ofValue_toValue (p : Prim) (x : p.den) : p.ofValue (p.toValue x) = some x := by
  cases p <;> first
    | rfl
    | (cases x <;> rfl)

theorem toValue_ne_null (p : Prim) (x : p.den) : p.toValue x ≠ .null := by
  cases p <;> simp [Prim.toValue]

theorem ofValue_shaped {p : Prim} {T : Ty} {v : Value} (hc : Column p T) (hs : Shaped T v) :
    ∃ x, p.ofValue v = some x ∧ (p ≠ .bool → p.toValue x = v) := by
  cases hc <;> (simp only [Shaped] at hs; obtain ⟨y, rfl⟩ := hs; first
    | exact ⟨_, rfl, fun _ => rfl⟩
    | exact ⟨_, rfl, fun h => absurd rfl h⟩)

theorem prim_fromSql_column {p : Prim} {T : Ty} {v : Value} (hc : Column p T) (hs : Shaped T v) :
    ∃ x, p.fromSql T v = .ok x ∧ (p ≠ .bool → p.toValue x = v) := by
  obtain ⟨x, h1, h2⟩ := ofValue_shaped hc hs
  refine ⟨x, ?_, h2⟩
  unfold Prim.fromSql
  rw [if_pos ((accepts_iff p T).mpr hc), h1]

theorem prim_fromSql_other {p : Prim} {T : Ty} (hc : ¬ Column p T) (v : Value) :
    p.fromSql T v = .err (unexpectedType T) := by
  unfold Prim.fromSql
  rw [if_neg (fun h => hc ((accepts_iff p T).mp h))]

/-! ### Helpers -/

theorem mapL_rt {α : Type} {f : α → Res Value} {g : Value → Res α} {xs : List α}
    (h : ∀ x ∈ xs, ∃ v, f x = .ok v ∧ g v = .ok x) :
    ∃ vs, Res.mapL f xs = .ok vs ∧ Res.mapL g vs = .ok xs := by
  induction xs with
  | nil => exact ⟨[], rfl, rfl⟩
  | cons x xs ih =>
    obtain ⟨v, h1, h2⟩ := h x (List.mem_cons_self ..)
    obtain ⟨vs, h3, h4⟩ := ih (fun y hy => h y (List.mem_cons_of_mem _ hy))
    exact ⟨v :: vs, by simp only [Res.mapL, h1, h3, Res.bind_ok], by simp only [Res.mapL, h2, h4, Res.bind_ok]⟩

theorem mapInsert_new {K V : Type} {eq : K → K → Bool} {k : K} {v : V} {es : List (K × V)}
    (h : ∀ e ∈ es, eq e.1 k = false) : mapInsert eq k v es = es ++ [(k, v)] := by
  induction es with
  | nil => rfl
  | cons e es ih =>
    have he := h e (List.mem_cons_self ..)
    simp only [mapInsert, he, Bool.false_eq_true, if_false, List.cons_append, List.cons.injEq, true_and]
    exact ih (fun y hy => h y (List.mem_cons_of_mem _ hy))

theorem entries_rt {K V : Type} {eq : K → K → Bool} {fk : K → Res Value} {fv : V → Res Value}
    {gk : Value → Res K} {gv : Value → Res V} (es : List (K × V))
    (hk : ∀ e ∈ es, ∃ v, fk e.1 = .ok v ∧ gk v = .ok e.1) (hv : ∀ e ∈ es, ∃ v, fv e.2 = .ok v ∧ gv v = .ok e.2)
    (hd : es.Pairwise (fun a b => eq a.1 b.1 = false)) (out : List (K × V))
    (ho : ∀ a ∈ out, ∀ b ∈ es, eq a.1 b.1 = false) :
    ∃ kvs, Res.mapL (fun (e : K × V) => fk e.1 >>= fun a => fv e.2 >>= fun b => .ok (a, b)) es = .ok kvs ∧
      readEntries eq gk gv out ((kvs.map Prod.fst).zip (kvs.map Prod.snd)) = .ok (out ++ es) := by
  induction es generalizing out with
  | nil => exact ⟨[], rfl, by simp [readEntries]⟩
  | cons e es ih =>
    obtain ⟨a, a1, a2⟩ := hk e (List.mem_cons_self ..)
    obtain ⟨b, b1, b2⟩ := hv e (List.mem_cons_self ..)
    rw [List.pairwise_cons] at hd
    have hn : mapInsert eq e.1 e.2 out = out ++ [e] :=
      mapInsert_new (fun y hy => ho y hy e (List.mem_cons_self ..))
    obtain ⟨kvs, k1, k2⟩ := ih (fun y hy => hk y (List.mem_cons_of_mem _ hy))
      (fun y hy => hv y (List.mem_cons_of_mem _ hy)) hd.2 (out ++ [e]) (by
        intro y hy z hz
        rcases List.mem_append.mp hy with h | h
        · exact ho y h z (List.mem_cons_of_mem _ hz)
        · rw [List.mem_singleton] at h; subst h; exact hd.1 z hz)
    refine ⟨(a, b) :: kvs, by simp only [Res.mapL, a1, b1, k1, Res.bind_ok], ?_⟩
    simp only [List.map_cons, List.zip_cons_cons, readEntries, a2, b2, Res.bind_ok, hn]
    rw [k2, List.append_assoc]; rfl

/-! ### Round trip -/

theorem bytesToSql_ne_null (h : Option Ty) (b : Bytes) : bytesToSql h b ≠ .null := by
  intro e
  unfold bytesToSql at e
  split at e <;> cases e

theorem vecToSql_ne_null {α : Type} (asB : List α → Option Bytes) (f : Option Ty → α → Res Value) (h : Option Ty)
    (xs : List α) : vecToSql asB f h xs ≠ .ok .null := by
  intro e
  unfold vecToSql at e
  simp only at e
  split at e
  · split at e
    · cases e
    · obtain ⟨_, _, h⟩ := Res.bind_eq_ok.mp e; cases h
  · obtain ⟨_, _, h⟩ := Res.bind_eq_ok.mp e; cases h

theorem nullLike_of_null (t : RT) (h : Option Ty) (x : t.den) (hx : t.toSql h x = .ok .null) : NullLike t x := by
  match t with
  | .prim p => exact absurd (Res.ok.inj hx) (toValue_ne_null p x)
  | .string => exact absurd (Res.ok.inj hx) (by intro e; cases e)
  | .bytes => exact absurd (Res.ok.inj hx) (bytesToSql_ne_null h x)
  | .value => exact Res.ok.inj hx
  | .vec t => exact absurd hx (vecToSql_ne_null _ _ _ _)
  | .array t n => obtain ⟨_, _, h⟩ := Res.bind_eq_ok.mp hx; cases h
  | .option t =>
    match x with
    | none => exact trivial
    | some y => exact nullLike_of_null t _ y hx
  | .box t => exact nullLike_of_null t _ x hx
  | .vecTuple t => obtain ⟨_, _, h⟩ := Res.bind_eq_ok.mp hx; cases h
  | .tuple ts => obtain ⟨_, _, h⟩ := Res.bind_eq_ok.mp hx; cases h
  | .map k v => obtain ⟨_, _, h⟩ := Res.bind_eq_ok.mp hx; cases h

theorem asBytes_other : ∀ {t : RT}, t ≠ .prim .u8 → t ≠ .prim .i8 → ∀ xs : List t.den, t.asBytes xs = none
  | .prim p, h1, h2 => by
    intro xs
    cases p <;> first | rfl | exact absurd rfl h1 | exact absurd rfl h2
  | .string, _, _ => fun _ => rfl
  | .bytes, _, _ => fun _ => rfl
  | .value, _, _ => fun _ => rfl
  | .vec _, _, _ => fun _ => rfl
  | .array _ _, _, _ => fun _ => rfl
  | .option _, _, _ => fun _ => rfl
  | .box _, _, _ => fun _ => rfl
  | .vecTuple _, _, _ => fun _ => rfl
  | .tuple _, _, _ => fun _ => rfl
  | .map _ _, _, _ => fun _ => rfl

theorem suits_asBytes {hinted : Bool} {t : RT} {S : Ty} (hs : Suits hinted t S) (hh : hintIsString (some S) = true)
    (xs : List t.den) : t.asBytes xs = none := by
  refine asBytes_other ?_ ?_ xs
  · rintro rfl
    simp only [Suits] at hs
    cases hs; cases hh
  · rintro rfl
    simp only [Suits] at hs
    cases hs; cases hh

theorem vecToSql_arr {α : Type} {asB : List α → Option Bytes} {f : Option Ty → α → Res Value} {h : Option Ty}
    {xs : List α} {vs : List Value} (hm : Res.mapL (f (elemHint h)) xs = .ok vs)
    (hb : hintIsString (elemHint h) = true → asB xs = none) : vecToSql asB f h xs = .ok (.array vs) := by
  unfold vecToSql
  simp only [hm, Res.bind_ok]
  split
  · rename_i hh
    rw [hb hh]
  · rfl

theorem arrayFromSql_ok {α : Type} {n : Nat} {f : Ty → Value → Res α} {S : Ty} {vs : List Value}
    {xs : { xs : List α // xs.length = n }} (hm : Res.mapL (f S.stripLowCardinality) vs = .ok xs.1) :
    arrayFromSql n f (.array S) (.array vs) = .ok xs := by
  have hl : vs.length = n := (Res.mapL_length hm).symm.trans xs.2
  unfold arrayFromSql
  simp only [hl, if_true, hm, Res.bind_ok]
  unfold withLength
  rw [dif_pos xs.2]

theorem hint_elem {hinted : Bool} {h : Option Ty} {S : Ty} (hh : Hint hinted h (.array S)) :
    Hint hinted (elemHint h) S.stripLowCardinality := by
  obtain ⟨h1, h2⟩ := hh
  constructor
  · intro e; rw [h1 e]; rfl
  · rcases h2 with rfl | rfl | rfl
    · exact .inl rfl
    · exact .inr (.inl rfl)
    · exact .inl rfl

theorem strip_of_not_lc {S : Ty} (h : isLc S = false) : S.stripLowCardinality = S := by
  cases S <;> first | rfl | cases h

/-- A hint for `S` is a hint for what the reader is given in its place. -/
theorem hint_strip {hinted : Bool} {S : Ty} (h : Option Ty) (h1 : hinted = true → h = some S)
    (h2 : h = none ∨ h = some S) : Hint (hinted && !isLc S) h S.stripLowCardinality := by
  constructor
  · intro e
    rw [Bool.and_eq_true, Bool.not_eq_true'] at e
    rw [strip_of_not_lc e.2]
    exact h1 e.1
  · rcases h2 with rfl | rfl
    · exact .inl rfl
    · cases S <;> first | exact .inr (.inl rfl) | exact .inr (.inr rfl)

theorem optionFromSql_some {α : Type} {f : Ty → Value → Res α} {T : Ty} {v : Value} {y : α} (hv : v ≠ .null)
    (h : f (someTy T) v = .ok y) : optionFromSql f T v = .ok (some y) := by
  have e : optionFromSql f T v = (f (someTy T) v >>= fun x => .ok (some x)) := by
    cases v <;> first | exact absurd rfl hv | (cases T <;> rfl)
  rw [e, h]; rfl

theorem vecTuple_rt {α : Type} {f : Option Ty → α → Res Value} {g : Ty → Value → Res α} (Us : List Ty) :
    ∀ (hU : List Ty), (hU = [] ∨ hU = Us) → ∀ ys : List α, ys.length = Us.length →
    (∀ e ∈ ys.zip Us, ∀ h, (hU = Us → h = some e.2) → (h = none ∨ h = some e.2) → ∃ v, f h e.1 = .ok v ∧ g e.2 v = .ok e.1) →
    ∃ vs, mapHints f hU ys = .ok vs ∧ vs.length = Us.length ∧ mapTypes g Us vs = .ok ys := by
  induction Us with
  | nil =>
    intro hU _ ys hl _
    have : ys = [] := List.eq_nil_of_length_eq_zero hl
    subst this
    exact ⟨[], rfl, rfl, rfl⟩
  | cons U Us ih =>
    intro hU h2 ys hl hf
    match ys, hl with
    | y :: ys, hl =>
      obtain ⟨v, k1, k2⟩ := hf (y, U) (List.mem_cons_self ..) hU.head? (by intro e; rw [e]; rfl) (by
        rcases h2 with rfl | rfl
        · exact .inl rfl
        · exact .inr rfl)
      obtain ⟨vs, m1, m2, m3⟩ := ih hU.tail (by
          rcases h2 with rfl | rfl
          · exact .inl rfl
          · exact .inr rfl) ys (by simpa using hl)
          (fun e he h h3 h4 => hf e (List.mem_cons_of_mem _ he) h (fun e' => h3 (by rw [e']; rfl)) h4)
      exact ⟨v :: vs, by simp only [mapHints, k1, m1, Res.bind_ok], by simp [m2],
        by simp only [mapTypes, k2, m3, Res.bind_ok]⟩

theorem bytesElem_uint8 (b : List Byte) : Res.mapL bytesElem (b.map Value.uint8) = .ok b := by
  induction b with
  | nil => rfl
  | cons b bs ih => simp only [List.map_cons, Res.mapL, bytesElem, Res.bind_ok, ih]

theorem bytesElem_int8 (b : List Byte) : Res.mapL bytesElem (b.map Value.int8) = .ok b := by
  induction b with
  | nil => rfl
  | cons b bs ih => simp only [List.map_cons, Res.mapL, bytesElem, Res.bind_ok, ih]

theorem prim_rt {p : Prim} {T : Ty} (hs : Column p T) (x : p.den) : p.fromSql T (p.toValue x) = .ok x := by
  unfold Prim.fromSql
  rw [if_pos ((accepts_iff p T).mpr hs), ofValue_toValue]

theorem string_rt {T : Ty} (hs : T = .string ∨ ∃ n, T = .fixedString n) (s : Str) :
    stringFromSql T (.string (utf8Encode s)) = .ok s := by
  rcases hs with rfl | ⟨n, rfl⟩ <;> simp only [stringFromSql, utf8Decode_encode]

mutual
theorem conv_rt : ∀ (t : RT) (T : Ty) (hinted : Bool) (h : Option Ty) (x : t.den), Suits hinted t T → Hint hinted h T →
    Faithful t T x → ∃ v, t.toSql h x = .ok v ∧ t.fromSql T v = .ok x
  | .prim p, T, hinted, h, x, hs, hh, hf => ⟨p.toValue x, rfl, prim_rt hs x⟩
  | .string, T, hinted, h, x, hs, hh, hf => ⟨_, rfl, string_rt hs x⟩
  | .bytes, T, hinted, h, x, hs, hh, hf => by
    refine ⟨bytesToSql h x, rfl, ?_⟩
    obtain ⟨h1, h2⟩ := hh
    rcases hs with rfl | ⟨n, rfl⟩ | ⟨e, rfl | rfl⟩
    · rcases h2 with rfl | rfl | rfl <;> rfl
    · rcases h2 with rfl | rfl | rfl <;> rfl
    · rw [h1 e]; exact bytesElem_uint8 x
    · rw [h1 e]; exact bytesElem_int8 x
  | .value, T, hinted, h, x, hs, hh, hf => ⟨x, rfl, rfl⟩
  | .vec t, T, hinted, h, xs, hs, hh, hf => by
    obtain ⟨S, rfl, hs⟩ := hs
    obtain ⟨vs, m1, m2⟩ := mapL_rt (f := t.toSql (elemHint h)) (g := t.fromSql S.stripLowCardinality) (xs := xs)
      (fun x hx => conv_rt t _ hinted (elemHint h) x hs (hint_elem hh) (hf x hx))
    refine ⟨.array vs, vecToSql_arr m1 ?_, m2⟩
    intro hb
    rcases hh.2 with rfl | rfl | rfl
    · cases hb
    · exact suits_asBytes hs hb xs
    · cases hb
  | .array t n, T, hinted, h, xs, hs, hh, hf => by
    obtain ⟨S, rfl, hs⟩ := hs
    obtain ⟨vs, m1, m2⟩ := mapL_rt (f := t.toSql (elemHint h)) (g := t.fromSql S.stripLowCardinality) (xs := xs.1)
      (fun x hx => conv_rt t _ hinted (elemHint h) x hs (hint_elem hh) (hf x hx))
    refine ⟨.array vs, ?_, arrayFromSql_ok m2⟩
    show arrayToSql _ _ _ = _
    unfold arrayToSql
    rw [m1]; rfl
  | .option t, T, hinted, h, x, hs, hh, hf => by
    match x with
    | none => exact ⟨.null, rfl, rfl⟩
    | some y =>
      obtain ⟨hn, hf⟩ := hf y rfl
      have key : ∃ v, t.toSql (h.bind Ty.unnull) y = .ok v ∧ t.fromSql (someTy T) v = .ok y := by
        rcases hs with ⟨S, rfl, hs⟩ | ⟨hT, hs⟩
        · refine conv_rt t _ _ _ y hs (hint_strip _ ?_ ?_) hf
          · intro e; rw [hh.1 e]; rfl
          · rcases hh.2 with rfl | rfl | rfl
            · exact .inl rfl
            · exact .inr rfl
            · exact .inl rfl
        · have e1 : someTy T = T := by cases T <;> first | rfl | cases hT
          have e2 : h.bind Ty.unnull = none := by
            rcases hh.2 with rfl | rfl | rfl
            · rfl
            · cases T <;> first | rfl | cases hT
            · rfl
          rw [e1] at hf ⊢
          rw [e2]
          exact conv_rt t T false none y hs ⟨(by intro e; cases e), .inl rfl⟩ hf
      obtain ⟨v, k1, k2⟩ := key
      refine ⟨v, k1, optionFromSql_some ?_ k2⟩
      rintro rfl
      exact hn (nullLike_of_null t _ y k1)
  | .box t, T, hinted, h, x, hs, hh, hf => conv_rt t T hinted h x hs hh hf
  | .vecTuple t, T, hinted, h, xs, hs, hh, hf => by
    obtain ⟨Ts, rfl, hs⟩ := hs
    obtain ⟨hl, hf⟩ := hf
    have h2 : memberHints h = [] ∨ memberHints h = Ts := by
      rcases hh.2 with rfl | rfl | rfl
      · exact .inl rfl
      · exact .inr rfl
      · exact .inl rfl
    obtain ⟨vs, m1, m2, m3⟩ := vecTuple_rt (f := t.toSql) (g := t.fromSql) Ts (memberHints h) h2 xs hl (by
      intro e he h' h3 h4
      exact conv_rt t e.2 hinted h' e.1 (hs e.2 (List.of_mem_zip he).2)
        ⟨fun e' => h3 (by rw [hh.1 e']; rfl), h4.elim .inl (fun h => .inr (.inl h))⟩ (hf e he))
    refine ⟨.tuple vs, ?_, ?_⟩
    · show (mapHints _ _ _ >>= _) = _
      rw [m1]; rfl
    · show vecTupleFromSql _ _ _ = _
      unfold vecTupleFromSql
      simp only [m2, if_true]
      exact m3
  | .tuple ts, T, hinted, h, x, hs, hh, hf => by
    obtain ⟨Ts, rfl, hs⟩ := hs
    obtain ⟨vs, m1, m2, m3, m4⟩ := convs_rt ts Ts hinted (memberHints h) x hs (by intro e; rw [hh.1 e]; rfl) (by
      rcases hh.2 with rfl | rfl | rfl
      · exact .inl rfl
      · exact .inr rfl
      · exact .inl rfl) hf
    refine ⟨.tuple vs, ?_, ?_⟩
    · show (RT.toSqls _ _ _ >>= _) = _
      rw [m1]; rfl
    · show tupleFromSql _ _ _ _ = _
      unfold tupleFromSql
      simp only [m2, if_true, m2.symm.trans m3]
      exact m4
  | .map k v, T, hinted, h, es, hs, hh, hf => by
    obtain ⟨K, V, rfl, hk, hv⟩ := hs
    obtain ⟨hd, fk, fv⟩ := hf K V rfl
    have hkh : Hint (hinted && !isLc K) ((h.bind Ty.unmap).map Prod.fst) K.stripLowCardinality := by
      apply hint_strip
      · intro e; rw [hh.1 e]; rfl
      · rcases hh.2 with rfl | rfl | rfl
        · exact .inl rfl
        · exact .inr rfl
        · exact .inl rfl
    have hvh : Hint (hinted && !isLc V) ((h.bind Ty.unmap).map Prod.snd) V.stripLowCardinality := by
      apply hint_strip
      · intro e; rw [hh.1 e]; rfl
      · rcases hh.2 with rfl | rfl | rfl
        · exact .inl rfl
        · exact .inr rfl
        · exact .inl rfl
    obtain ⟨kvs, m1, m2⟩ := entries_rt (eq := k.keyEq) es
      (fun e he => conv_rt k _ _ _ e.1 hk hkh (fk e he)) (fun e he => conv_rt v _ _ _ e.2 hv hvh (fv e he)) hd []
      (by intro a ha; cases ha)
    refine ⟨.map (kvs.map Prod.fst) (kvs.map Prod.snd), ?_, m2⟩
    show mapToSql _ _ _ _ = _
    unfold mapToSql
    rw [m1]; rfl
theorem convs_rt : ∀ (ts : List RT) (Ts : List Ty) (hinted : Bool) (hs : List Ty) (x : RT.dens ts), SuitsAll hinted ts Ts →
    (hinted = true → hs = Ts) → (hs = [] ∨ hs = Ts) → FaithfulAll ts Ts x →
    ∃ vs, RT.toSqls ts hs x = .ok vs ∧ vs.length = Ts.length ∧ vs.length = ts.length ∧ RT.fromSqls ts Ts vs = .ok x
  | [], Ts, hinted, hs, x, hsu, h1, h2, hf => by
    cases hsu
    exact ⟨[], rfl, rfl, rfl, rfl⟩
  | t :: ts, Ts, hinted, hs, x, hsu, h1, h2, hf => by
    obtain ⟨S, Ss, rfl, hS, hSs⟩ := hsu
    obtain ⟨f1, f2⟩ := hf S Ss rfl
    obtain ⟨v, k1, k2⟩ := conv_rt t _ _ hs.head? x.1 hS (hint_strip _ (by intro e; rw [h1 e]; rfl) (by
      rcases h2 with rfl | rfl
      · exact .inl rfl
      · exact .inr rfl)) f1
    obtain ⟨vs, m1, m2, m3, m4⟩ := convs_rt ts Ss hinted hs.tail x.2 hSs (by intro e; rw [h1 e]; rfl) (by
      rcases h2 with rfl | rfl
      · exact .inl rfl
      · exact .inr rfl) f2
    refine ⟨v :: vs, ?_, by simp [m2], by simp [m3], ?_⟩
    · simp only [RT.toSqls, k1, m1, Res.bind_ok]
    · simp only [RT.fromSqls, k2, m4, Res.bind_ok]
      rfl
end

/-! ### Reading any value of the column -/

theorem shaped_strip {T : Ty} {v : Value} (h : Shaped T v) : Shaped T.stripLowCardinality v := by
  cases T <;> exact h

theorem mapL_ne_panic' {α β : Type} {f : α → Res β} {xs : List α} (hf : ∀ x ∈ xs, f x ≠ .panic) :
    Res.mapL f xs ≠ .panic := by
  induction xs with
  | nil => simp [Res.mapL]
  | cons x xs ih =>
    intro h
    simp only [Res.mapL, Res.bind_eq_panic] at h
    rcases h with h | ⟨y, _, h | ⟨ys, _, h⟩⟩
    · exact hf x (List.mem_cons_self ..) h
    · exact ih (fun y hy => hf y (List.mem_cons_of_mem _ hy)) h
    · cases h

theorem bind_ok_ne_panic {α β : Type} {x : Res α} {f : α → β} (h : x ≠ .panic) : (x >>= fun a => Res.ok (f a)) ≠ .panic := by
  cases x <;> simp_all

theorem readEntries_ne_panic {K V : Type} {eq : K → K → Bool} {fk : Value → Res K} {fv : Value → Res V} (r : List (Value × Value)) :
    ∀ out, (∀ e ∈ r, fk e.1 ≠ .panic ∧ fv e.2 ≠ .panic) → readEntries eq fk fv out r ≠ .panic := by
  induction r with
  | nil => intro out _; simp [readEntries]
  | cons e r ih =>
    intro out h he
    simp only [readEntries, Res.bind_eq_panic] at he
    obtain ⟨h1, h2⟩ := h e (List.mem_cons_self ..)
    rcases he with he | ⟨k, _, he | ⟨v, _, he⟩⟩
    · exact h1 he
    · exact h2 he
    · exact ih _ (fun y hy => h y (List.mem_cons_of_mem _ hy)) he

theorem mapTypes_ne_panic {α : Type} {f : Ty → Value → Res α} : ∀ (ts : List Ty) (vs : List Value), ShapedAll ts vs →
    (∀ t v, Shaped t v → f t v ≠ .panic) → mapTypes f ts vs ≠ .panic
  | [], vs, h, _ => by simp [mapTypes]
  | t :: ts, vs, h, hf => by
    obtain ⟨x, xs, rfl, h1, h2⟩ := h
    intro he
    simp only [mapTypes, Res.bind_eq_panic] at he
    rcases he with he | ⟨_, _, he | ⟨_, _, he⟩⟩
    · exact hf t x h1 he
    · exact mapTypes_ne_panic ts xs h2 hf he
    · cases he

theorem shapedAll_length : ∀ (ts : List Ty) (vs : List Value), ShapedAll ts vs → vs.length = ts.length
  | [], vs, h => by cases h; rfl
  | t :: ts, vs, h => by
    obtain ⟨x, xs, rfl, _, h2⟩ := h
    simp [shapedAll_length ts xs h2]

theorem vecFromSql_ne_panic {α : Type} {ofB : Bytes → Option (List α)} {f : Ty → Value → Res α} {T : Ty} {v : Value}
    (hs : Shaped T v) (hf : ∀ T v, Shaped T v → f T v ≠ .panic) : vecFromSql ofB f T v ≠ .panic := by
  cases T <;> first
    | (intro h; cases h; done)
    | (obtain ⟨xs, rfl, hx⟩ := hs
       exact mapL_ne_panic' (fun x hx' => hf _ _ (shaped_strip (hx x hx'))))

theorem arrayFromSql_ne_panic {α : Type} {n : Nat} {f : Ty → Value → Res α} {T : Ty} {v : Value}
    (hs : Shaped T v) (hf : ∀ T v, Shaped T v → f T v ≠ .panic) : arrayFromSql n f T v ≠ .panic := by
  cases T <;> first
    | (intro h; cases h; done)
    | (rename_i S
       obtain ⟨xs, rfl, hx⟩ := hs
       intro he
       unfold arrayFromSql at he
       simp only at he
       split at he
       · rename_i hl
         rw [Res.bind_eq_panic] at he
         rcases he with he | ⟨ys, h1, he⟩
         · exact mapL_ne_panic' (fun x hx' => hf _ _ (shaped_strip (hx x hx'))) he
         · unfold withLength at he
           rw [dif_pos ((Res.mapL_length h1).trans hl)] at he
           cases he
       · cases he)

theorem optionFromSql_ne_panic {α : Type} {f : Ty → Value → Res α} {T : Ty} {v : Value}
    (hs : Shaped T v) (hf : ∀ T v, Shaped T v → f T v ≠ .panic) : optionFromSql f T v ≠ .panic := by
  by_cases hv : v = .null
  · subst hv; intro h; cases h; done
  · have e : optionFromSql f T v = (f (optionSub T) v >>= fun x => .ok (some x)) := by
      cases v <;> first | exact absurd rfl hv | rfl
    rw [e]
    apply bind_ok_ne_panic
    apply hf
    cases T <;> first
      | exact hs
      | (rcases hs with h | h
         · exact absurd h hv
         · exact shaped_strip h)

theorem vecTupleFromSql_ne_panic {α : Type} {f : Ty → Value → Res α} {T : Ty} {v : Value}
    (hs : Shaped T v) (hf : ∀ T v, Shaped T v → f T v ≠ .panic) : vecTupleFromSql f T v ≠ .panic := by
  cases T <;> first
    | (intro h; cases h; done)
    | (obtain ⟨xs, rfl, hx⟩ := hs
       intro he
       unfold vecTupleFromSql at he
       simp only at he
       split at he
       · rename_i hl
         exact mapTypes_ne_panic _ _ (hx hl) hf he
       · cases he)

theorem tupleFromSql_ne_panic {α : Type} {n : Nat} {f : List Ty → List Value → Res α} {T : Ty} {v : Value}
    (hs : Shaped T v) (hf : ∀ ts vs, ShapedAll ts vs → vs.length = n → f ts vs ≠ .panic) : tupleFromSql n f T v ≠ .panic := by
  cases T <;> first
    | (intro h; cases h; done)
    | (obtain ⟨xs, rfl, hx⟩ := hs
       intro he
       unfold tupleFromSql at he
       simp only at he
       split at he
       · rename_i hl
         split at he
         · rename_i hl2
           exact hf _ _ (hx hl) hl2 he
         · cases he
       · cases he)

theorem mapFromSql_ne_panic {K V : Type} {eq : K → K → Bool} {fk : Ty → Value → Res K} {fv : Ty → Value → Res V} {T : Ty} {v : Value}
    (hs : Shaped T v) (hk : ∀ T v, Shaped T v → fk T v ≠ .panic) (hv : ∀ T v, Shaped T v → fv T v ≠ .panic) :
    mapFromSql eq fk fv T v ≠ .panic := by
  cases T <;> first
    | (intro h; cases h; done)
    | (obtain ⟨ks, vs, rfl, _, h1, h2⟩ := hs
       exact readEntries_ne_panic _ _ (fun e he =>
         ⟨hk _ _ (shaped_strip (h1 _ (List.of_mem_zip he).1)), hv _ _ (shaped_strip (h2 _ (List.of_mem_zip he).2))⟩))

theorem prim_ne_panic {p : Prim} {T : Ty} {v : Value} (hs : Shaped T v) : p.fromSql T v ≠ .panic := by
  by_cases hc : Column p T
  · obtain ⟨x, h, _⟩ := prim_fromSql_column hc hs
    rw [h]; intro h; cases h
  · rw [prim_fromSql_other hc]; intro h; cases h

theorem string_ne_panic {T : Ty} {v : Value} (hs : Shaped T v) : stringFromSql T v ≠ .panic := by
  cases T <;> first
    | (intro h; cases h; done)
    | (obtain ⟨b, rfl⟩ := hs
       unfold stringFromSql
       simp only
       cases utf8Decode b <;> simp)

theorem bytes_ne_panic {T : Ty} {v : Value} (hs : Shaped T v) : bytesFromSql T v ≠ .panic := by
  cases T <;> first
    | (intro h; cases h; done)
    | (obtain ⟨b, rfl⟩ := hs; intro h; cases h; done)
    | (rename_i S
       obtain ⟨xs, rfl, hx⟩ := hs
       cases S <;> first
         | (intro h; cases h; done)
         | (exact mapL_ne_panic' (fun x hx' => by obtain ⟨y, rfl⟩ := hx x hx'; intro h; cases h; done)))

mutual
theorem fromSql_ne_panic : ∀ (t : RT) (T : Ty) (v : Value), Shaped T v → t.fromSql T v ≠ .panic
  | .prim _, _, _, hs => prim_ne_panic hs
  | .string, _, _, hs => string_ne_panic hs
  | .bytes, _, _, hs => bytes_ne_panic hs
  | .value, _, _, _ => (nomatch ·)
  | .vec t, _, _, hs => vecFromSql_ne_panic hs (fromSql_ne_panic t)
  | .array t _, _, _, hs => arrayFromSql_ne_panic hs (fromSql_ne_panic t)
  | .option t, _, _, hs => optionFromSql_ne_panic hs (fromSql_ne_panic t)
  | .box t, _, _, hs => fromSql_ne_panic t _ _ hs
  | .vecTuple t, _, _, hs => vecTupleFromSql_ne_panic hs (fromSql_ne_panic t)
  | .tuple ts, _, _, hs => tupleFromSql_ne_panic hs (fun Ts vs h hl => fromSqls_ne_panic ts Ts vs h hl)
  | .map k v, _, _, hs => mapFromSql_ne_panic hs (fromSql_ne_panic k) (fromSql_ne_panic v)
theorem fromSqls_ne_panic : ∀ (ts : List RT) (Ts : List Ty) (vs : List Value), ShapedAll Ts vs → vs.length = ts.length →
    RT.fromSqls ts Ts vs ≠ .panic
  | [], _, _, _, _ => (nomatch ·)
  | t :: ts, Ts, vs, hs, hl => by
    match Ts, vs, hs, hl with
    | [], vs, hs, hl => cases hs; cases hl
    | T :: Ts, vs, hs, hl =>
      obtain ⟨x, xs, rfl, h1, h2⟩ := hs
      intro he
      simp only [RT.fromSqls, Res.bind_eq_panic] at he
      rcases he with he | ⟨_, _, he | ⟨_, _, he⟩⟩
      · exact fromSql_ne_panic t _ _ (shaped_strip h1) he
      · exact fromSqls_ne_panic ts Ts xs h2 (by simpa using hl) he
      · cases he
end

/-! ### Nothing is lost -/

theorem mapL_back {α : Type} {f : Value → Res α} {g : α → Res Value} {vs : List Value} {xs : List α}
    (h : Res.mapL f vs = .ok xs) (hb : ∀ v ∈ vs, ∀ x, f v = .ok x → g x = .ok v) : Res.mapL g xs = .ok vs := by
  induction vs generalizing xs with
  | nil => simp only [Res.mapL, Res.ok.injEq] at h; rw [← h]; rfl
  | cons v vs ih =>
    simp only [Res.mapL, Res.bind_eq_ok] at h
    obtain ⟨x, h1, xs', h2, h3⟩ := h
    rw [← Res.ok.inj h3]
    simp only [Res.mapL, hb v (List.mem_cons_self ..) x h1, Res.bind_ok,
      ih h2 (fun w hw => hb w (List.mem_cons_of_mem _ hw))]

theorem vec_back {α : Type} {ofB : Bytes → Option (List α)} {asB : List α → Option Bytes} {f : Ty → Value → Res α}
    {g : Option Ty → α → Res Value} {T : Ty} {v : Value} {xs : List α} (hs : Shaped T v)
    (hb : ∀ T v x, Shaped T v → f T v = .ok x → g none x = .ok v) (h : vecFromSql ofB f T v = .ok xs) :
    vecToSql asB g none xs = .ok v := by
  cases T <;> first
    | (cases h)
    | (obtain ⟨vs, rfl, hx⟩ := hs
       exact vecToSql_arr (mapL_back h (fun v hv x hx' => hb _ v x (shaped_strip (hx v hv)) hx')) (by intro h; cases h))

theorem array_back {α : Type} {n : Nat} {f : Ty → Value → Res α} {g : Option Ty → α → Res Value} {T : Ty} {v : Value}
    {xs : { xs : List α // xs.length = n }} (hs : Shaped T v)
    (hb : ∀ T v x, Shaped T v → f T v = .ok x → g none x = .ok v) (h : arrayFromSql n f T v = .ok xs) :
    arrayToSql g none xs.1 = .ok v := by
  cases T <;> first
    | (cases h; done)
    | (obtain ⟨vs, rfl, hx⟩ := hs
       unfold arrayFromSql at h
       simp only at h
       split at h
       · rw [Res.bind_eq_ok] at h
         obtain ⟨ys, h1, h2⟩ := h
         unfold withLength at h2
         split at h2
         · rw [← Res.ok.inj h2]
           unfold arrayToSql
           rw [show elemHint none = none from rfl,
             mapL_back h1 (fun v hv x hx' => hb _ v x (shaped_strip (hx v hv)) hx')]
           rfl
         · cases h2
       · cases h)

theorem option_back {α : Type} {f : Ty → Value → Res α} {g : Option Ty → α → Res Value} {T : Ty} {v : Value} {x : Option α}
    (hs : Shaped T v) (hb : ∀ T v x, Shaped T v → f T v = .ok x → g none x = .ok v) (h : optionFromSql f T v = .ok x) :
    optionToSql g none x = .ok v := by
  by_cases hv : v = .null
  · subst hv
    rw [← Res.ok.inj h]; rfl
  · have e : optionFromSql f T v = (f (optionSub T) v >>= fun x => .ok (some x)) := by
      cases v <;> first | exact absurd rfl hv | rfl
    rw [e, Res.bind_eq_ok] at h
    obtain ⟨y, h1, h2⟩ := h
    rw [← Res.ok.inj h2]
    refine hb _ v y ?_ h1
    cases T <;> first
      | exact hs
      | (rcases hs with h | h
         · exact absurd h hv
         · exact shaped_strip h)

theorem mapTypes_back {α : Type} {f : Ty → Value → Res α} {g : Option Ty → α → Res Value}
    (hb : ∀ T v x, Shaped T v → f T v = .ok x → g none x = .ok v) : ∀ (Ts : List Ty) (vs : List Value) (xs : List α),
    ShapedAll Ts vs → mapTypes f Ts vs = .ok xs → mapHints g [] xs = .ok vs
  | [], vs, xs, hs, h => by
    cases hs
    rw [← Res.ok.inj h]; rfl
  | T :: Ts, vs, xs, hs, h => by
    obtain ⟨v, vs, rfl, h1, h2⟩ := hs
    simp only [mapTypes, Res.bind_eq_ok] at h
    obtain ⟨x, k1, ys, k2, k3⟩ := h
    rw [← Res.ok.inj k3]
    have := mapTypes_back hb Ts vs ys h2 k2
    simp only [mapHints, List.head?_nil, List.tail_nil, hb T v x h1 k1, Res.bind_ok, this]

theorem vecTuple_back {α : Type} {f : Ty → Value → Res α} {g : Option Ty → α → Res Value} {T : Ty} {v : Value} {xs : List α}
    (hs : Shaped T v) (hb : ∀ T v x, Shaped T v → f T v = .ok x → g none x = .ok v) (h : vecTupleFromSql f T v = .ok xs) :
    (mapHints g (memberHints none) xs >>= fun vs => .ok (.tuple vs)) = .ok v := by
  cases T <;> first
    | (cases h; done)
    | (obtain ⟨vs, rfl, hx⟩ := hs
       unfold vecTupleFromSql at h
       simp only at h
       split at h
       · rename_i hl
         rw [show memberHints none = [] from rfl, mapTypes_back hb _ _ _ (hx hl) h]
         rfl
       · cases h)

theorem tuple_back {α : Type} {n : Nat} {f : List Ty → List Value → Res α} {g : α → Res (List Value)} {T : Ty} {v : Value} {x : α}
    (hs : Shaped T v) (hb : ∀ Ts vs x, ShapedAll Ts vs → vs.length = n → f Ts vs = .ok x → g x = .ok vs)
    (h : tupleFromSql n f T v = .ok x) : (g x >>= fun vs => .ok (.tuple vs)) = .ok v := by
  cases T <;> first
    | (cases h; done)
    | (obtain ⟨vs, rfl, hx⟩ := hs
       unfold tupleFromSql at h
       simp only at h
       split at h
       · rename_i hl
         split at h
         · rename_i hl2
           rw [hb _ _ _ (hx hl) hl2 h]
           rfl
         · cases h
       · cases h)

theorem prim_back {p : Prim} (hp : p ≠ .bool) {T : Ty} {v : Value} {x : p.den} (hs : Shaped T v) (h : p.fromSql T v = .ok x) :
    p.toValue x = v := by
  by_cases hc : Column p T
  · obtain ⟨y, h1, h2⟩ := prim_fromSql_column hc hs
    rw [h1] at h
    rw [← Res.ok.inj h]
    exact h2 hp
  · rw [prim_fromSql_other hc] at h; cases h

theorem string_back {T : Ty} {v : Value} {s : Str} (hs : Shaped T v) (h : stringFromSql T v = .ok s) :
    v = .string (utf8Encode s) := by
  cases T <;> first
    | (cases h; done)
    | (obtain ⟨b, rfl⟩ := hs
       unfold stringFromSql at h
       simp only at h
       cases hd : utf8Decode b with
       | none => rw [hd] at h; cases h
       | some s' =>
         rw [hd] at h
         rw [← Res.ok.inj h, (utf8Decode_iff b s').mp hd])

mutual
theorem conv_back : ∀ (t : RT), Lossless t → ∀ (T : Ty) (v : Value) (x : t.den), Shaped T v → t.fromSql T v = .ok x →
    t.toSql none x = .ok v
  | .prim _, hp, _, _, _, hs, h => congrArg Res.ok (prim_back hp hs h)
  | .string, _, _, _, _, hs, h => congrArg Res.ok (string_back hs h).symm
  | .bytes, hp, _, _, _, _, _ => hp.elim
  | .value, _, _, _, _, _, h => congrArg Res.ok (Res.ok.inj h).symm
  | .vec t, hp, _, _, _, hs, h => vec_back (asB := t.asBytes) hs (conv_back t hp) h
  | .array t _, hp, _, _, _, hs, h => array_back hs (conv_back t hp) h
  | .option t, hp, _, _, _, hs, h => option_back hs (conv_back t hp) h
  | .box t, hp, T, v, x, hs, h => conv_back t hp T v x hs h
  | .vecTuple t, hp, _, _, _, hs, h => vecTuple_back hs (conv_back t hp) h
  | .tuple ts, hp, _, _, _, hs, h =>
    tuple_back (g := RT.toSqls ts (memberHints none)) hs (fun Ts vs x h1 h2 h3 => convs_back ts hp Ts vs x h1 h2 h3) h
  | .map _ _, hp, _, _, _, _, _ => hp.elim
theorem convs_back : ∀ (ts : List RT), LosslessAll ts → ∀ (Ts : List Ty) (vs : List Value) (x : RT.dens ts), ShapedAll Ts vs →
    vs.length = ts.length → RT.fromSqls ts Ts vs = .ok x → RT.toSqls ts [] x = .ok vs
  | [], _, Ts, vs, x, hs, hl, h => by
    rw [List.eq_nil_of_length_eq_zero hl]; rfl
  | t :: ts, hp, Ts, vs, x, hs, hl, h => by
    match Ts, vs, hs, hl, h with
    | [], vs, hs, hl, h => cases hs; cases hl
    | T :: Ts, vs, hs, hl, h =>
      obtain ⟨v, vs, rfl, h1, h2⟩ := hs
      simp only [RT.fromSqls, Res.bind_eq_ok] at h
      obtain ⟨a, k1, b, k2, k3⟩ := h
      rw [← Res.ok.inj k3]
      have e1 := conv_back t hp.1 _ v a (shaped_strip h1) k1
      have e2 := convs_back ts hp.2 Ts vs b h2 (by simpa using hl) k2
      simp only [RT.toSqls, List.head?_nil, List.tail_nil, e1, e2, Res.bind_ok]
end

/-! ### C45: round trip -/

theorem listEqv_iff {α : Type} {f : α → α → Bool} (hf : ∀ a b, f a b = true ↔ a = b) : ∀ (xs ys : List α), listEqv f xs ys = true ↔ xs = ys
  | [], [] => by simp [listEqv]
  | [], _ :: _ => by simp [listEqv]
  | _ :: _, [] => by simp [listEqv]
  | x :: xs, y :: ys => by simp [listEqv, hf, listEqv_iff hf xs ys]

theorem prim_keyEq (p : Prim) (a b : p.den) : p.keyEq a b = true ↔ a = b := by
  cases p <;> exact beq_iff_eq

mutual
theorem keyEq_iff : ∀ (t : RT), ValueFree t → ∀ (a b : t.den), t.keyEq a b = true ↔ a = b
  | .prim p, _ => prim_keyEq p
  | .string, _ => fun (a b : Str) => beq_iff_eq
  | .bytes, _ => fun (a b : Bytes) => beq_iff_eq
  | .value, h => h.elim
  | .vec t, h => fun (a b : List t.den) => listEqv_iff (keyEq_iff t h) a b
  | .array t n, h => fun (a b : { xs : List t.den // xs.length = n }) => (listEqv_iff (keyEq_iff t h) a.1 b.1).trans Subtype.ext_iff.symm
  | .option t, h => fun (a b : Option t.den) => by
    cases a with
    | none => cases b with
      | none => exact ⟨fun _ => rfl, fun _ => rfl⟩
      | some y => exact ⟨nofun, nofun⟩
    | some x => cases b with
      | none => exact ⟨nofun, nofun⟩
      | some y => exact (keyEq_iff t h x y).trans ⟨congrArg some, Option.some.inj⟩
  | .box t, h => fun (a b : t.den) => keyEq_iff t h a b
  | .vecTuple t, h => fun (a b : List t.den) => listEqv_iff (keyEq_iff t h) a b
  | .tuple ts, h => keyEqs_iff ts h
  | .map k v, h => fun (a b : List (k.den × v.den)) => by
    refine listEqv_iff (f := fun x y => RT.keyEq k x.1 y.1 && RT.keyEq v x.2 y.2) ?_ a b
    intro x y
    rw [Bool.and_eq_true, keyEq_iff k h.1, keyEq_iff v h.2]
    exact Prod.ext_iff.symm
theorem keyEqs_iff : ∀ (ts : List RT), ValueFreeAll ts → ∀ (a b : RT.dens ts), RT.keyEqs ts a b = true ↔ a = b
  | [], _ => fun _ _ => ⟨fun _ => rfl, fun _ => rfl⟩
  | t :: ts, h => fun (a b : t.den × RT.dens ts) => by
    show (RT.keyEq t a.1 b.1 && RT.keyEqs ts a.2 b.2) = true ↔ a = b
    rw [Bool.and_eq_true, keyEq_iff t h.1, keyEqs_iff ts h.2]
    exact Prod.ext_iff.symm
end

/-- Two keys of a map are the same key exactly when they are equal, so that `Faithful` asks of a map what every Rust map has: keys
that are different. -/
theorem C45_distinct_keys (k v : RT) (hk : ValueFree k) (es : List (k.den × v.den)) :
    es.Pairwise (fun a b => k.keyEq a.1 b.1 = false) ↔ (es.map Prod.fst).Nodup := by
  rw [List.Nodup, List.pairwise_map]
  have : (fun (a b : k.den × v.den) => k.keyEq a.1 b.1 = false) = (fun (a b : k.den × v.den) => a.1 ≠ b.1) := by
    funext a b
    rw [← Bool.not_eq_true, keyEq_iff k hk]
  rw [this]

example : ValueFree (.tuple [.string, .option (.vec (.prim .i64))]) := ⟨trivial, trivial, trivial⟩

/-- C45, in full for the Rust types and column types that go together (`Suits`), nested without bound,
with or without a type hint: a Rust value is converted and comes back equal. Left out (`Faithful`): `Some`
of a value that is itself NULL; a `VecTuple` of the wrong length. What the full claim misses is shown false
below (`C45_nested_option_false` and the two after it). -/
theorem C45_roundtrip_partial (t : RT) (T : Ty) (hinted : Bool) (h : Option Ty) (x : t.den) (hs : Suits hinted t T)
    (hh : Hint hinted h T) (hx : Faithful t T x) : ∃ v, t.toSql h x = .ok v ∧ t.fromSql T v = .ok x :=
  conv_rt t T hinted h x hs hh hx

/-- The same through the wire: a column of Rust values is converted, written, read and converted back. The
hypothesis on the values asks that the column keeps them (`C06` says which are changed: NUL bytes in a
`FixedString`, times in another zone). -/
theorem C45_wire_partial (cfg : Cfg) (t : RT) (T : Ty) (hwf : WellFormed cfg T) (hinted : Bool) (h : Option Ty)
    (hs : Suits hinted t T.stripLowCardinality) (hh : Hint hinted h T.stripLowCardinality) (xs : List t.den)
    (hx : ∀ x ∈ xs, Faithful t T.stripLowCardinality x)
    (hk : ∀ x ∈ xs, ∀ v, t.toSql h x = .ok v → Storable cfg T v ∧ canon T v = v)
    (hfit : ∀ vs, Res.mapL (t.toSql h) xs = .ok vs → Fits T vs) :
    ∃ vs b, Res.mapL (t.toSql h) xs = .ok vs ∧ serCol cfg T vs = .ok b ∧ ∀ rest, ∃ ws,
      deCol cfg T xs.length (b ++ rest) = .ok (ws, rest) ∧
      Res.mapL (t.fromSql T.stripLowCardinality) ws = .ok xs := by
  obtain ⟨vs, h1, h2⟩ := mapL_rt (f := t.toSql h) (g := t.fromSql T.stripLowCardinality) (xs := xs)
    (fun x m => conv_rt t _ hinted h x hs hh (hx x m))
  have hin : ∀ v ∈ vs, ∃ x ∈ xs, t.toSql h x = .ok v :=
    mapL_all (P := fun v => ∃ x ∈ xs, t.toSql h x = .ok v) h1 (fun x m v e => ⟨x, m, e⟩)
  have hl : vs.length = xs.length := Res.mapL_length h1
  obtain ⟨b, h3, h4⟩ := col_rt cfg T hwf vs
    (fun v m => by obtain ⟨x, mx, e⟩ := hin v m; exact (hk x mx v e).1) (hfit vs h1)
  refine ⟨vs, b, h1, h3, fun rest => ⟨vs, ?_, h2⟩⟩
  rw [← hl, h4 rest]
  have : vs.map (canon T) = vs := by
    conv => rhs; rw [← List.map_id vs]
    exact List.map_congr_left (fun v m => by obtain ⟨x, mx, e⟩ := hin v m; exact (hk x mx v e).2)
  rw [this]

/-- A concrete case: three optional strings in a `LowCardinality(Nullable(String))` column; the hypotheses are
met. -/
example : ∃ vs b, Res.mapL (RT.option .string |>.toSql (some (.lowCardinality (.nullable .string))))
      [some (ch! "a"), none, some (ch! "a")] = .ok vs ∧
    serCol cfgDebug (.lowCardinality (.nullable .string)) vs = .ok b ∧ ∀ rest, ∃ ws,
      deCol cfgDebug (.lowCardinality (.nullable .string)) 3 (b ++ rest) = .ok (ws, rest) ∧
      Res.mapL (RT.option .string |>.fromSql (.nullable .string)) ws = .ok [some (ch! "a"), none, some (ch! "a")] := by
  refine C45_wire_partial cfgDebug (.option .string) (.lowCardinality (.nullable .string)) (.lowCardinalityNullable rfl .string) false
    (some (.lowCardinality (.nullable .string))) (.inl ⟨_, rfl, .inl rfl⟩) ⟨fun h => (by cases h), .inr (.inr rfl)⟩
    [some (ch! "a"), none, some (ch! "a")] ?_ ?_ ?_
  · intro x _ y _; exact ⟨fun h => h, trivial⟩
  · intro x m v e
    rcases List.mem_cons.mp m with rfl | m
    · cases e; exact ⟨.inr (.inl ⟨_, rfl, by decide⟩), rfl⟩
    rcases List.mem_cons.mp m with rfl | m
    · cases e; exact ⟨.inl ⟨rfl, rfl⟩, rfl⟩
    · cases List.mem_singleton.mp m; cases e; exact ⟨.inr (.inl ⟨_, rfl, by decide⟩), rfl⟩
  · intro vs e; cases e; show (3 : Nat) < 2 ^ 30; decide

/-- `UnitValue<T>`: the single column of a row. -/
theorem C45_unit_value (t : RT) (T : Ty) (x : t.den) (name : Str) (hs : Suits true t T) (hx : Faithful t T x) :
    ∃ v, unitSerialize t [T] x = .ok [(ch! "_", v)] ∧ unitDeserialize t [(name, T, v)] = .ok x := by
  obtain ⟨v, h1, h2⟩ := conv_rt t T true (some T) x hs ⟨fun _ => rfl, .inr (.inl rfl)⟩ hx
  refine ⟨v, ?_, h2⟩
  simp only [unitSerialize, List.head?_cons, h1, Res.bind_ok]

/-- `UnitValue<T>`: a row without columns is the missing-field error, and columns after the first are not
looked at. -/
theorem C45_unit_value_columns (t : RT) :
    unitDeserialize t [] = .err (.missingField (ch! "<unit>")) ∧
    ∀ name T v rest, unitDeserialize t ((name, T, v) :: rest) = t.fromSql T v := ⟨rfl, fun _ _ _ _ => rfl⟩

/-- A nested concrete case: `Vec<(Option<String>, HashMap<u8, [i64; 2]>)>` in
`Array(Tuple(LowCardinality(Nullable(String)), Map(UInt8, Array(Int64))))`. -/
example : ∃ (t : RT) (T : Ty) (x : t.den), Suits true t T ∧ Faithful t T x ∧ Hint true (some T) T ∧
    t.toSql (some T) x = .ok (.array [.tuple [.string [104#8, 105#8], .map [.uint8 7#8] [.array [.int64 1#64, .int64 2#64]]],
      .tuple [.null, .map [] []]]) := by
  refine ⟨.vec (.tuple [.option .string, .map (.prim .u8) (.array (.prim .i64) 2)]),
    .array (.tuple [.lowCardinality (.nullable .string), .map .uint8 (.array .int64)]),
    [(some (ch! "hi"), [(7#8, (⟨[1#64, 2#64], rfl⟩ : { xs : List (BitVec 64) // xs.length = 2 }))], ()), (none, [], ())], ?_, ?_, ?_, rfl⟩
  · refine ⟨_, rfl, _, rfl, _, _, rfl, .inl ⟨_, rfl, .inl rfl⟩, _, _, rfl, ⟨_, _, rfl, Column.u8, _, rfl, Column.i64⟩, rfl⟩
  · intro x m
    rcases List.mem_cons.mp m with rfl | m
    · intro S Ss e
      refine ⟨fun y e' => ⟨fun h => h, trivial⟩, fun S Ss e => ⟨fun K V _ => ⟨List.pairwise_singleton _ _, ?_, ?_⟩, trivial⟩⟩
      · intro e _; trivial
      · intro e _ y _; trivial
    · cases List.mem_singleton.mp m
      intro S Ss e
      refine ⟨fun y e' => (by cases e'), fun S Ss e => ⟨fun K V _ => ⟨List.Pairwise.nil, ?_, ?_⟩, trivial⟩⟩
      · intro e m; cases m
      · intro e m; cases m
  · exact ⟨fun _ => rfl, .inr (.inl rfl)⟩

/-- Not in general: `Some(None)` is written as NULL and comes back as `None`. -/
theorem C45_nested_option_false (t : RT) (T : Ty) (h : Option Ty) :
    (RT.option (.option t)).toSql h (some none) = .ok .null ∧
    (RT.option (.option t)).fromSql T .null = .ok none := ⟨rfl, rfl⟩

/-- Not for `VecTuple` with a `LowCardinality` member: it cannot be read (a plain tuple can). -/
theorem C45_vecTuple_lowCardinality_false :
    (∀ h, (RT.vecTuple (.prim .u8)).toSql h [5#8] = .ok (.tuple [.uint8 5#8])) ∧
    (RT.vecTuple (.prim .u8)).fromSql (.tuple [.lowCardinality .uint8]) (.tuple [.uint8 5#8]) =
      .err (unexpectedType (.lowCardinality .uint8)) ∧
    (RT.tuple [.prim .u8]).fromSql (.tuple [.lowCardinality .uint8]) (.tuple [.uint8 5#8]) = .ok (5#8, ()) :=
  ⟨fun _ => rfl, rfl, rfl⟩

/-- Not for a vector of bytes in an array of strings: writing it gives a single string (the code looks at the
hint of the elements, where it should look at the hint of the vector), which a string column would hold,
but `Vec<u8>` cannot be read from a string column; and with the hint of a string column it is written as an array of numbers. -/
theorem C45_byte_vec_string_false (b : Bytes) :
    ((RT.vec (.prim .u8)).toSql (some (.array .string)) b = .ok (.string b) ∧
      (∀ n, (RT.vec (.prim .u8)).toSql (some (.array (.fixedString n))) b = .ok (.string b)) ∧
      (RT.vec (.prim .u8)).toSql (some .string) b = .ok (.array (b.map .uint8)) ∧
      (∀ v, (RT.vec (.prim .u8)).fromSql .string v = .err (unexpectedType .string)) ∧
      (∀ n v, (RT.vec (.prim .u8)).fromSql (.fixedString n) v = .err (unexpectedType (.fixedString n)))) ∧
    ((RT.vec (.prim .i8)).toSql (some (.array .string)) b = .ok (.string b) ∧
      (∀ n, (RT.vec (.prim .i8)).toSql (some (.array (.fixedString n))) b = .ok (.string b)) ∧
      (RT.vec (.prim .i8)).toSql (some .string) b = .ok (.array (b.map .int8)) ∧
      (∀ v, (RT.vec (.prim .i8)).fromSql .string v = .err (unexpectedType .string)) ∧
      (∀ n v, (RT.vec (.prim .i8)).fromSql (.fixedString n) v = .err (unexpectedType (.fixedString n)))) := by
  have h : ∀ f : Byte → Value, Res.mapL (fun x => Res.ok (f x)) b = .ok (b.map f) := fun f =>
    Res.mapL_ok_of_forall fun _ _ => rfl
  exact ⟨⟨rfl, fun _ => rfl, by show (Res.mapL (fun x => Res.ok (Value.uint8 x)) b >>= _) = _; rw [h]; rfl, fun _ => rfl, fun _ _ => rfl⟩,
    rfl, fun _ => rfl, by show (Res.mapL (fun x => Res.ok (Value.int8 x)) b >>= _) = _; rw [h]; rfl, fun _ => rfl, fun _ _ => rfl⟩

/-! ### C46: mismatched reads -/

/-- Scalars, for every column type and every value such a column can hold: with the matching type the very
value is returned (for a number the same bits, nothing cut off), with any other type the unexpected-type
error. -/
theorem C46_scalar_exact (p : Prim) (T : Ty) (v : Value) (hs : Shaped T v) :
    (Column p T → ∃ x, p.fromSql T v = .ok x ∧ (p ≠ .bool → p.toValue x = v)) ∧
    (¬ Column p T → p.fromSql T v = .err (unexpectedType T)) := by
  refine ⟨fun hc => ?_, fun hc => prim_fromSql_other hc v⟩
  exact prim_fromSql_column hc hs

/-- `String`: only from string columns; the bytes are those of the column, or they are no UTF-8. -/
theorem C46_string_exact (T : Ty) (v : Value) (hs : Shaped T v) :
    (T = .string ∨ (∃ n, T = .fixedString n) → ∃ b, v = .string b ∧
      ((∃ s, stringFromSql T v = .ok s ∧ utf8Encode s = b) ∨ (stringFromSql T v = .err .utf8 ∧ utf8Decode b = none))) ∧
    (¬ (T = .string ∨ ∃ n, T = .fixedString n) → stringFromSql T v = .err (unexpectedType T)) := by
  have key : ∀ b, (∃ s, (match utf8Decode b with | some s => Res.ok s | none => .err .utf8) = .ok s ∧ utf8Encode s = b) ∨
      ((match utf8Decode b with | some s => Res.ok s | none => .err .utf8 : Res Str) = .err .utf8 ∧ utf8Decode b = none) := by
    intro b
    cases h : utf8Decode b with
    | none => exact .inr ⟨rfl, rfl⟩
    | some s => exact .inl ⟨s, rfl, ((utf8Decode_iff _ _).mp h).symm⟩
  refine ⟨?_, fun hn => ?_⟩
  · rintro (rfl | ⟨n, rfl⟩)
    · obtain ⟨b, rfl⟩ := hs; exact ⟨b, rfl, key b⟩
    · obtain ⟨b, rfl⟩ := hs; exact ⟨b, rfl, key b⟩
  · cases T <;> first | rfl | (exfalso; exact hn (.inl rfl)) | (exfalso; exact hn (.inr ⟨_, rfl⟩))

/-- Compound types: asking for a vector, array, tuple or map of a column that is none is the
unexpected-type error. -/
theorem C46_compound_refused_partial (t k w : RT) (ts : List RT) (n : Nat) (T : Ty) (v : Value) :
    ((∀ S, T ≠ .array S) → (RT.vec t).fromSql T v = .err (unexpectedType T) ∧
      (RT.array t n).fromSql T v = .err (unexpectedType T)) ∧
    ((∀ Ts, T ≠ .tuple Ts) → (RT.tuple ts).fromSql T v = .err (unexpectedType T) ∧
      (RT.vecTuple t).fromSql T v = .err (unexpectedType T)) ∧
    ((∀ K V, T ≠ .map K V) → (RT.map k w).fromSql T v = .err (unexpectedType T)) := by
  refine ⟨fun h => ?_, fun h => ?_, fun h => ?_⟩
  · cases T <;> first | exact ⟨rfl, rfl⟩ | (exact absurd rfl (h _))
  · cases T <;> first | exact ⟨rfl, rfl⟩ | (exact absurd rfl (h _))
  · cases T <;> first | rfl | (exact absurd rfl (h _ _))

/-- No read of a value that came off the wire panics, whatever Rust type is asked for and whatever bytes the
server sent. -/
theorem C46_no_panic_from_wire (cfg : Cfg) (t : RT) (T : Ty) (n : Nat) (s s' : Bytes) (vs : List Value)
    (h : deCol cfg T n s = .ok (vs, s')) (v : Value) (hv : v ∈ vs) :
    t.fromSql T.stripLowCardinality v ≠ .panic ∧ t.fromSql T v ≠ .panic :=
  ⟨fromSql_ne_panic t _ v (shaped_strip (deCol_shaped T n s s' vs h v hv)),
   fromSql_ne_panic t _ v (deCol_shaped T n s s' vs h v hv)⟩

/-- Nothing is lost or cut off: when a value read off the wire is accepted by a Rust type (nested without
bound; all but `bool`, `Bytes` and maps, which by design identify some values), the Rust value determines
it. -/
theorem C46_no_loss (cfg : Cfg) (t : RT) (ht : Lossless t) (T : Ty) (n : Nat) (s s' : Bytes) (vs : List Value)
    (h : deCol cfg T n s = .ok (vs, s')) (v : Value) (hv : v ∈ vs) (x : t.den)
    (hx : t.fromSql T.stripLowCardinality v = .ok x) : t.toSql none x = .ok v :=
  conv_back t ht _ v x (shaped_strip (deCol_shaped T n s s' vs h v hv)) hx

/-- `bool` from `UInt8`: zero is `false`, everything else `true`; from any other type an error. -/
theorem C46_bool (x : BitVec 8) (T : Ty) (v : Value) :
    Prim.fromSql .bool .uint8 (.uint8 x) = .ok (x != 0#8) ∧
    (T ≠ .uint8 → Prim.fromSql .bool T v = .err (unexpectedType T)) := by
  refine ⟨rfl, fun h => prim_fromSql_other (fun c => ?_) v⟩
  cases c; exact h rfl

/-- A concrete case: 256 in a `UInt16` column is not read as a `u8`, nor as an `i16`. -/
example : Shaped .uint16 (.uint16 256#16) ∧
    Prim.fromSql .u8 .uint16 (.uint16 256#16) = .err (unexpectedType .uint16) ∧
    Prim.fromSql .i16 .uint16 (.uint16 256#16) = .err (unexpectedType .uint16) ∧
    Prim.fromSql .u16 .uint16 (.uint16 256#16) = .ok 256#16 := ⟨⟨_, rfl⟩, rfl, rfl, rfl⟩

/-- A concrete case from the wire: one row of `Array(UInt16)`, read as `Vec<u16>` and refused as `Vec<u8>`. -/
example : deCol cfgDebug (.array .uint16) 1 [1#8, 0, 0, 0, 0, 0, 0, 0, 0, 1] = .ok ([.array [.uint16 256#16]], []) ∧
    (RT.vec (.prim .u16)).fromSql (.array .uint16) (.array [.uint16 256#16]) = .ok [256#16] ∧
    (RT.vec (.prim .u8)).fromSql (.array .uint16) (.array [.uint16 256#16]) = .err (unexpectedType .uint16) ∧
    Lossless (.vec (.prim .u16)) := ⟨rfl, rfl, rfl, by intro h; cases h⟩

/-- "A type other than the matching one is always an error" is false for compound types: the elements' type is
looked at only when there is an element. An empty `Array(String)` is read as `Vec<u8>`, a NULL of
`Nullable(String)` as `Option<u8>`; and an empty map of anything as a map of anything. -/
theorem C46_mismatch_accepted :
    (RT.vec (.prim .u8)).fromSql (.array .string) (.array []) = .ok [] ∧
    (RT.option (.prim .u8)).fromSql (.nullable .string) .null = .ok none ∧
    (RT.map (.prim .u8) (.prim .u8)).fromSql (.map .string .string) (.map [] []) = .ok [] := ⟨rfl, rfl, rfl⟩

/-- Whatever the value (also one not read off the wire): a vector is read exactly from an array, element by
element, or from the bytes of a string for `u8`/`i8` elements of a byte array. -/
theorem C46_vec_source (t : RT) (S : Ty) (v : Value) (xs : List t.den) : (RT.vec t).fromSql (.array S) v = .ok xs ↔
    (∃ vs, v = .array vs ∧ Res.mapL (t.fromSql S.stripLowCardinality) vs = .ok xs) ∨
    (∃ b, v = .string b ∧ (S.stripLowCardinality = .uint8 ∨ S.stripLowCardinality = .int8) ∧ t.ofBytes b = some xs) := by
  constructor
  · intro h
    have h' : vecFromSql t.ofBytes t.fromSql (.array S) v = .ok xs := h
    cases v <;> simp only [vecFromSql] at h' <;> first
      | (cases h'; done)
      | exact .inl ⟨_, rfl, h'⟩
      | skip
    case string b =>
      by_cases hb : isByteTy S.stripLowCardinality = true
      · rw [if_pos hb] at h'
        refine .inr ⟨b, rfl, ?_, ?_⟩
        · revert hb; cases S.stripLowCardinality <;> simp [isByteTy]
        · cases e : t.ofBytes b with
          | none => rw [e] at h'; cases h'
          | some ys => rw [e] at h'; exact congrArg some (Res.ok.inj h')
      · rw [if_neg hb] at h'; cases h'
  · rintro (⟨vs, rfl, h⟩ | ⟨b, rfl, h1, h2⟩)
    · exact h
    · show vecFromSql t.ofBytes t.fromSql (.array S) (.string b) = .ok xs
      unfold vecFromSql
      have hb : isByteTy S.stripLowCardinality = true := by rcases h1 with h1 | h1 <;> rw [h1] <;> rfl
      simp only [hb, if_true, h2]

/-- A mismatched element type is refused as soon as there is an element. -/
theorem C46_elements_refused (p : Prim) (S : Ty) (v : Value) (vs : List Value) (hc : ¬ Column p S.stripLowCardinality) :
    (RT.vec (.prim p)).fromSql (.array S) (.array (v :: vs)) = .err (unexpectedType S.stripLowCardinality) := by
  show (Res.mapL (p.fromSql S.stripLowCardinality) (v :: vs)) = _
  simp only [Res.mapL, prim_fromSql_other hc v]
  rfl

end Klick
