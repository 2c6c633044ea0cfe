import Verif.Spec.Fitting
import Verif.Props.Convert
import Verif.Props.Depth
import Verif.Props.Storage
import Verif.Props.Dates
import Verif.Props.Numeric
/-
C103: a value of the Rust type that goes with a column can be stored in it.
-/
namespace Klick
open Spec Props

namespace Props

theorem validate_strip (cfg : Cfg) (T : Ty) (v : Value) : T.stripLowCardinality.innerValidate cfg v = T.innerValidate cfg v := by
  cases T <;> rfl

theorem storable_strip (cfg : Cfg) (T : Ty) (v : Value) : Storable cfg T.stripLowCardinality v ↔ Storable cfg T v := by
  cases T <;> exact Iff.rfl

theorem canon_strip (T : Ty) (v : Value) : canon T.stripLowCardinality v = canon T v := by
  cases T <;> rfl

theorem wf_strip {cfg : Cfg} {T : Ty} (h : WellFormed cfg T) : WellFormed cfg T.stripLowCardinality := by
  cases h with
  | lowCardinality _ h => exact h
  | lowCardinalityNullable ha h =>
    refine .nullable ?_ h
    rename_i t
    cases t <;> first | rfl | cases ha
  | _ => constructor <;> assumption

theorem mapL_forall {α β : Type} {f : α → Res β} {P : α → Prop} {Q : β → Prop} : ∀ {xs : List α} {ys : List β}, Res.mapL f xs = .ok ys →
    (∀ x ∈ xs, ∀ y, f x = .ok y → (Q y ↔ P x)) → ((∀ y ∈ ys, Q y) ↔ ∀ x ∈ xs, P x)
  | [], ys, h, _ => by cases h; simp
  | x :: xs, ys, h, hf => by
    simp only [Res.mapL] at h
    obtain ⟨y, hy, h⟩ := Res.bind_eq_ok.mp h
    obtain ⟨zs, hz, h⟩ := Res.bind_eq_ok.mp h
    cases h
    simp only [List.mem_cons, forall_eq_or_imp]
    rw [hf x (List.mem_cons_self ..) y hy, mapL_forall hz fun z hm => hf z (List.mem_cons_of_mem _ hm)]

theorem map_id_of {f : Value → Value} : ∀ {xs : List Value}, (∀ x ∈ xs, f x = x) → xs.map f = xs
  | [], _ => rfl
  | x :: xs, h => by rw [List.map_cons, h x (List.mem_cons_self ..), map_id_of fun y hy => h y (List.mem_cons_of_mem _ hy)]

theorem prim_fits {cfg : Cfg} {p : Prim} {T : Ty} (hc : Column p T) (hw : WellFormed cfg T) (x : p.den) :
    (T.innerValidate cfg (p.toValue x) = true ↔ InZone p T x) ∧ (InZone p T x → Storable cfg T (p.toValue x) ∧ canon T (p.toValue x) = p.toValue x) := by
  cases hc <;> first
    | exact ⟨⟨fun _ => trivial, fun _ => rfl⟩, fun _ => ⟨⟨_, rfl⟩, rfl⟩⟩
    | exact ⟨⟨fun _ => trivial, fun _ => rfl⟩, fun _ => ⟨.inl ⟨_, rfl⟩, rfl⟩⟩
    | skip
  case bf16 => cases hw with
    | bfloat16 hb => exact ⟨⟨fun _ => trivial, fun _ => hb⟩, fun _ => ⟨⟨_, rfl⟩, rfl⟩⟩
  case dateTime tz =>
    obtain ⟨z, x⟩ := x
    have e : InZone .dateTime (.dateTime tz) (z, x) ↔ z = tz := ⟨fun h => h tz rfl, fun h tz' e => by cases e; exact h⟩
    rw [e]
    refine ⟨?_, fun h => ⟨⟨x, by rw [← h]; rfl⟩, rfl⟩⟩
    show (tz == z) = true ↔ _
    rw [beq_iff_eq]; exact eq_comm
  case dateTime64 p tz =>
    obtain ⟨z, x⟩ := x
    have e : InZone (.dateTime64 p) (.dateTime64 p tz) (z, x) ↔ z = tz := ⟨fun h => h p tz rfl, fun h p' tz' e => by cases e; exact h⟩
    rw [e]
    refine ⟨?_, fun h => ⟨⟨x, by rw [← h]; rfl⟩, rfl⟩⟩
    show (tz == z && p == p) = true ↔ _
    rw [Bool.and_eq_true, beq_iff_eq, beq_iff_eq]; exact ⟨fun h => h.1.symm, fun h => ⟨h.symm, rfl⟩⟩
  all_goals exact ⟨⟨fun _ => trivial, fun _ => beq_self_eq_true _⟩, fun _ => ⟨⟨_, rfl⟩, rfl⟩⟩

theorem takeWhile_all {b : Bytes} (h : 0#8 ∉ b) : b.takeWhile (fun x => x != 0#8) = b := by
  induction b with
  | nil => rfl
  | cons x b ih =>
    rw [List.takeWhile_cons, if_pos, ih fun hm => h (List.mem_cons_of_mem _ hm)]
    rw [bne_iff_ne]; rintro rfl; exact h (List.mem_cons_self ..)

theorem text_fits {cfg : Cfg} {T : Ty} (hT : T = .string ∨ ∃ n, T = .fixedString n) (b : Bytes) :
    T.innerValidate cfg (.string b) = true ∧ (TextKept T b → Storable cfg T (.string b) ∧ canon T (.string b) = .string b) := by
  rcases hT with rfl | ⟨n, rfl⟩
  · exact ⟨rfl, fun h => ⟨.inl ⟨b, rfl, h.1 rfl⟩, rfl⟩⟩
  · refine ⟨rfl, fun h => ⟨.inl ⟨b, rfl⟩, ?_⟩⟩
    obtain ⟨h1, h2⟩ := h.2 n rfl
    show Value.string ((b.take n).takeWhile _) = _
    rw [List.take_of_length_le h1, takeWhile_all h2]

/-- What a vector is written as when its type goes with the column. -/
theorem vec_inv {hinted : Bool} {t : RT} {S : Ty} {h : Option Ty} {xs : List t.den} {v : Value} (hs : Suits hinted t S.stripLowCardinality)
    (hh : Hint hinted h (.array S)) (hv : (RT.vec t).toSql h xs = .ok v) :
    ∃ vs, v = .array vs ∧ Res.mapL (t.toSql (elemHint h)) xs = .ok vs := by
  have hb : hintIsString (elemHint h) = true → t.asBytes xs = none := by
    intro hb
    rcases hh.2 with rfl | rfl | rfl
    · cases hb
    · exact suits_asBytes hs hb xs
    · cases hb
  have : (RT.vec t).toSql h xs = (Res.mapL (t.toSql (elemHint h)) xs >>= fun vs => .ok (.array vs)) := by
    show vecToSql _ _ _ _ = _
    unfold vecToSql
    split
    · rename_i hx; rw [hb hx]
    · rfl
  rw [this] at hv
  obtain ⟨vs, h1, h2⟩ := Res.bind_eq_ok.mp hv
  cases h2
  exact ⟨vs, rfl, h1⟩

theorem array_fits {cfg : Cfg} {S : Ty} {α : Type} {f : α → Res Value} {xs : List α} {vs : List Value} {P Q : α → Prop}
    (hm : Res.mapL f xs = .ok vs)
    (hf : ∀ x ∈ xs, ∀ v, f x = .ok v → (S.stripLowCardinality.innerValidate cfg v = true ↔ P x) ∧
      (Q x → Storable cfg S.stripLowCardinality v ∧ canon S.stripLowCardinality v = v)) :
    ((Ty.array S).innerValidate cfg (.array vs) = true ↔ ∀ x ∈ xs, P x) ∧
    ((∀ x ∈ xs, Q x) → Storable cfg (.array S) (.array vs) ∧ canon (.array S) (.array vs) = .array vs) := by
  constructor
  · show (vs.all _) = true ↔ _
    rw [List.all_eq_true]
    exact mapL_forall (Q := fun v => S.innerValidate cfg v = true) hm fun x hx v hv => by
      rw [← validate_strip]; exact (hf x hx v hv).1
  · intro hq
    have key : ∀ v ∈ vs, Storable cfg S v ∧ canon S v = v := by
      intro v hv
      obtain ⟨x, hx, he⟩ := mapL_ok_mem hm v hv
      have := (hf x hx v he).2 (hq x hx)
      rw [storable_strip, canon_strip] at this
      exact this
    refine ⟨⟨vs, rfl, fun v hv => (key v hv).1⟩, ?_⟩
    show Value.array (vs.map _) = _
    rw [map_id_of fun v hv => (key v hv).2]

theorem vecTuple_fits {cfg : Cfg} {α : Type} {f : Option Ty → α → Res Value} {P Q : α × Ty → Prop} : ∀ (Us : List Ty) (hU : List Ty), (hU = [] ∨ hU = Us) →
    ∀ (ys : List α) (vs : List Value), ys.length = Us.length → mapHints f hU ys = .ok vs →
    (∀ e ∈ ys.zip Us, ∀ h, (hU = Us → h = some e.2) → (h = none ∨ h = some e.2) → ∀ v, f h e.1 = .ok v →
      (e.2.innerValidate cfg v = true ↔ P e) ∧ (Q e → Storable cfg e.2 v ∧ canon e.2 v = v)) →
    (Ty.innerValidateZip cfg Us vs = true ↔ ∀ e ∈ ys.zip Us, P e) ∧
    ((∀ e ∈ ys.zip Us, Q e) → StorableAll cfg Us vs ∧ canonAll Us vs = vs)
  | [], hU, _, ys, vs, hl, hm, _ => by
    have : ys = [] := List.eq_nil_of_length_eq_zero hl
    subst this
    cases hm
    exact ⟨⟨fun _ e he => (by cases he), fun _ => rfl⟩, fun _ => ⟨rfl, rfl⟩⟩
  | U :: Us, hU, h2, [], _, hl, _, _ => by cases hl
  | U :: Us, hU, h2, y :: ys, vs, hl, hm, hf => by
    simp only [mapHints] at hm
    obtain ⟨v, hv, hm⟩ := Res.bind_eq_ok.mp hm
    obtain ⟨ws, hw, hm⟩ := Res.bind_eq_ok.mp hm
    cases hm
    obtain ⟨a1, a2⟩ := hf (y, U) (List.mem_cons_self ..) hU.head? (by intro e; rw [e]; rfl) (by
        rcases h2 with rfl | rfl
        · exact .inl rfl
        · exact .inr rfl) v hv
    obtain ⟨b1, b2⟩ := vecTuple_fits Us hU.tail (by
        rcases h2 with rfl | rfl
        · exact .inl rfl
        · exact .inr rfl) ys ws (by simpa using hl) hw
        (fun e he h h3 h4 => hf e (List.mem_cons_of_mem _ he) h (fun e' => h3 (by rw [e']; rfl)) h4)
    constructor
    · show (U.innerValidate cfg v && Ty.innerValidateZip cfg Us ws) = true ↔ _
      rw [Bool.and_eq_true, a1, b1, List.zip_cons_cons]
      simp only [List.mem_cons, forall_eq_or_imp]
    · intro hq
      rw [List.zip_cons_cons] at hq
      have c1 := a2 (hq _ (List.mem_cons_self ..))
      have c2 := b2 fun e he => hq e (List.mem_cons_of_mem _ he)
      refine ⟨⟨v, ws, rfl, c1.1, c2.1⟩, ?_⟩
      show canon U v :: canonAll Us ws = _
      rw [c1.2, c2.2]

theorem map_fits {cfg : Cfg} {K V : Ty} {α β : Type} {fk : α → Res Value} {fv : β → Res Value} {es : List (α × β)} {kvs : List (Value × Value)}
    {P Q : α × β → Prop} {P' Q' : α × β → Prop}
    (hm : Res.mapL (fun e : α × β => fk e.1 >>= fun a => fv e.2 >>= fun b => Res.ok (a, b)) es = .ok kvs)
    (hk : ∀ e ∈ es, ∀ v, fk e.1 = .ok v → (K.stripLowCardinality.innerValidate cfg v = true ↔ P e) ∧
      (Q e → Storable cfg K.stripLowCardinality v ∧ canon K.stripLowCardinality v = v))
    (hv : ∀ e ∈ es, ∀ v, fv e.2 = .ok v → (V.stripLowCardinality.innerValidate cfg v = true ↔ P' e) ∧
      (Q' e → Storable cfg V.stripLowCardinality v ∧ canon V.stripLowCardinality v = v)) :
    ((Ty.map K V).innerValidate cfg (.map (kvs.map Prod.fst) (kvs.map Prod.snd)) = true ↔ ∀ e ∈ es, P e ∧ P' e) ∧
    ((∀ e ∈ es, Q e ∧ Q' e) → Storable cfg (.map K V) (.map (kvs.map Prod.fst) (kvs.map Prod.snd)) ∧
      canon (.map K V) (.map (kvs.map Prod.fst) (kvs.map Prod.snd)) = .map (kvs.map Prod.fst) (kvs.map Prod.snd)) := by
  constructor
  · show ((kvs.map Prod.fst).all _ && (kvs.map Prod.snd).all _) = true ↔ _
    rw [Bool.and_eq_true, List.all_eq_true, List.all_eq_true]
    rw [← mapL_forall (Q := fun p : Value × Value => K.innerValidate cfg p.1 = true ∧ V.innerValidate cfg p.2 = true) hm fun e he p hp => by
      obtain ⟨a, ha, hp⟩ := Res.bind_eq_ok.mp hp
      obtain ⟨b, hb, hp⟩ := Res.bind_eq_ok.mp hp
      cases hp
      dsimp only
      rw [← validate_strip cfg K, ← validate_strip cfg V, (hk e he a ha).1, (hv e he b hb).1]]
    simp only [List.mem_map, forall_exists_index, and_imp, forall_apply_eq_imp_iff₂]
    exact ⟨fun ⟨h1, h2⟩ p hp => ⟨h1 p hp, h2 p hp⟩, fun h => ⟨fun p hp => (h p hp).1, fun p hp => (h p hp).2⟩⟩
  · intro hq
    have key : ∀ p ∈ kvs, (Storable cfg K p.1 ∧ canon K p.1 = p.1) ∧ (Storable cfg V p.2 ∧ canon V p.2 = p.2) := by
      intro p hp
      obtain ⟨e, he, h⟩ := mapL_ok_mem hm p hp
      obtain ⟨a, ha, h⟩ := Res.bind_eq_ok.mp h
      obtain ⟨b, hb, h⟩ := Res.bind_eq_ok.mp h
      cases h
      have h1 := (hk e he a ha).2 (hq e he).1
      have h2 := (hv e he b hb).2 (hq e he).2
      rw [storable_strip, canon_strip] at h1 h2
      exact ⟨h1, h2⟩
    have k1 : ∀ x ∈ kvs.map Prod.fst, Storable cfg K x ∧ canon K x = x := by
      intro x hx
      obtain ⟨p, hp, rfl⟩ := List.mem_map.mp hx
      exact (key p hp).1
    have k2 : ∀ x ∈ kvs.map Prod.snd, Storable cfg V x ∧ canon V x = x := by
      intro x hx
      obtain ⟨p, hp, rfl⟩ := List.mem_map.mp hx
      exact (key p hp).2
    refine ⟨⟨_, _, rfl, by simp, fun x hx => (k1 x hx).1, fun x hx => (k2 x hx).1⟩, ?_⟩
    show Value.map ((kvs.map Prod.fst).map _) ((kvs.map Prod.snd).map _) = _
    rw [map_id_of fun v hv => (k1 v hv).2, map_id_of fun v hv => (k2 v hv).2]

theorem wf_array {cfg : Cfg} {S : Ty} (h : WellFormed cfg (.array S)) : WellFormed cfg S := by cases h; assumption
theorem wf_map {cfg : Cfg} {K V : Ty} (h : WellFormed cfg (.map K V)) : WellFormed cfg K ∧ WellFormed cfg V := by
  cases h; exact ⟨by assumption, by assumption⟩
theorem wf_tuple {cfg : Cfg} {Ts : List Ty} (h : WellFormed cfg (.tuple Ts)) : ∀ T ∈ Ts, WellFormed cfg T := by cases h; assumption
theorem wf_nullable {cfg : Cfg} {S : Ty} (h : WellFormed cfg (.nullable S)) : WellFormed cfg S ∧ isLc S = false := by
  cases h with
  | nullable h1 h2 => exact ⟨h2, by cases S <;> first | rfl | cases h1⟩

theorem notNull {v : Value} (h : v ≠ .null) : v.isNull = false := by
  cases v <;> first | rfl | exact absurd rfl h

theorem canon_nullable {S : Ty} {v : Value} (h : v ≠ .null) : canon (.nullable S) v = canon S v := by
  cases v <;> first | rfl | exact absurd rfl h

theorem bytes_fits {cfg : Cfg} {T : Ty} {hinted : Bool} {h : Option Ty} (hs : Suits hinted .bytes T) (hh : Hint hinted h T) (x : Bytes) :
    (T.innerValidate cfg (bytesToSql h x) = true ↔ Fitting cfg false .bytes T x) ∧
    (Fitting cfg true .bytes T x → Storable cfg T (bytesToSql h x) ∧ canon T (bytesToSql h x) = bytesToSql h x) := by
  have arr : ∀ {f : Byte → Value} {S : Ty}, (∀ b, S.innerValidate cfg (f b) = true) → (∀ b, Storable cfg S (f b)) → (∀ b, canon S (f b) = f b) →
      ((Ty.array S).innerValidate cfg (.array (x.map f)) = true ↔ Fitting cfg false .bytes (.array S) x) ∧
      (Fitting cfg true .bytes (.array S) x → Storable cfg (.array S) (.array (x.map f)) ∧ canon (.array S) (.array (x.map f)) = .array (x.map f)) := by
    intro f S h1 h2 h3
    refine ⟨⟨fun _ h => (by cases h), fun _ => ?_⟩, fun _ => ⟨⟨_, rfl, fun v hv => ?_⟩, ?_⟩⟩
    · show (x.map f).all _ = true
      rw [List.all_eq_true]
      intro v hv
      obtain ⟨b, _, rfl⟩ := List.mem_map.mp hv
      exact h1 b
    · obtain ⟨b, _, rfl⟩ := List.mem_map.mp hv
      exact h2 b
    · show Value.array ((x.map f).map _) = _
      rw [map_id_of fun v hv => by obtain ⟨b, _, rfl⟩ := List.mem_map.mp hv; exact h3 b]
  have text : (T = .string ∨ ∃ n, T = .fixedString n) → (T.innerValidate cfg (bytesToSql h x) = true ↔ Fitting cfg false .bytes T x) ∧
    (Fitting cfg true .bytes T x → Storable cfg T (bytesToSql h x) ∧ canon T (bytesToSql h x) = bytesToSql h x) := by
    intro hT
    have e : bytesToSql h x = .string x := by
      rcases hT with rfl | ⟨n, rfl⟩ <;> rcases hh.2 with rfl | rfl | rfl <;> rfl
    rw [e]
    obtain ⟨h1, h2⟩ := text_fits (cfg := cfg) hT x
    exact ⟨⟨fun _ h => (by cases h), fun _ => h1⟩, fun h => h2 (h rfl)⟩
  rcases hs with rfl | ⟨n, rfl⟩ | ⟨e, rfl | rfl⟩
  · exact text (.inl rfl)
  · exact text (.inr ⟨n, rfl⟩)
  · rw [hh.1 e]; exact arr (fun _ => rfl) (fun b => ⟨b, rfl⟩) (fun _ => rfl)
  · rw [hh.1 e]; exact arr (fun _ => rfl) (fun b => .inl ⟨b, rfl⟩) (fun _ => rfl)

theorem none_fits {cfg : Cfg} {T : Ty} {t : RT} (hw : WellFormed cfg T) :
    (T.innerValidate cfg .null = true ↔ Fitting cfg false (.option t) T none) ∧
    (Fitting cfg true (.option t) T none → Storable cfg T .null ∧ canon T .null = .null) := by
  show (_ ↔ ∃ S, T.stripLowCardinality = .nullable S ∧ _) ∧ ((∃ S, T.stripLowCardinality = .nullable S ∧ _) → _)
  have hw' := wf_strip hw
  rw [← validate_strip, ← storable_strip, ← canon_strip]
  have hl : isLc T.stripLowCardinality = false := by
    cases hw with
    | lowCardinality h _ => rename_i t _; cases t <;> first | rfl | cases h
    | _ => rfl
  generalize T.stripLowCardinality = U at *
  constructor
  · cases U <;> first
      | exact ⟨fun _ => ⟨_, rfl, fun h => (by cases h)⟩, fun _ => rfl⟩
      | exact ⟨fun h => (by cases h), fun ⟨_, h, _⟩ => (by cases h)⟩
      | cases hl
  · rintro ⟨S, rfl, hg⟩
    exact ⟨.inl ⟨rfl, hg rfl⟩, rfl⟩

mutual
/-- Validation of what a Rust value is written as, and what the column makes of it. -/
theorem fits_core (cfg : Cfg) : ∀ (t : RT) (T : Ty) (hinted : Bool) (h : Option Ty) (x : t.den), Suits hinted t T → Hint hinted h T → WellFormed cfg T →
    Faithful t T x → ∀ v, t.toSql h x = .ok v →
    (T.innerValidate cfg v = true ↔ Fitting cfg false t T x) ∧ (Fitting cfg true t T x → Storable cfg T v ∧ canon T v = v)
  | .prim p, T, hinted, h, x, hs, hh, hw, hf, v, hv => by cases hv; exact prim_fits hs hw x
  | .string, T, hinted, h, x, hs, hh, hw, hf, v, hv => by
    cases hv
    obtain ⟨h1, h2⟩ := text_fits (cfg := cfg) hs (utf8Encode x)
    exact ⟨⟨fun _ h => (by cases h), fun _ => h1⟩, fun h => h2 (h rfl)⟩
  | .bytes, T, hinted, h, x, hs, hh, hw, hf, v, hv => by
    cases hv
    exact bytes_fits hs hh x
  | .value, T, hinted, h, x, hs, hh, hw, hf, v, hv => by
    cases hv
    exact ⟨⟨fun h => ⟨h, fun h => (by cases h)⟩, fun h => h.1⟩, fun h => h.2 rfl⟩
  | .vec t, T, hinted, h, xs, hs, hh, hw, hf, v, hv => by
    obtain ⟨S, rfl, hs⟩ := hs
    obtain ⟨vs, rfl, hm⟩ := vec_inv hs hh hv
    exact array_fits hm fun x hx v hv => fits_core cfg t _ hinted _ x hs (hint_elem hh) (wf_strip (wf_array hw)) (hf x hx) v hv
  | .array t n, T, hinted, h, xs, hs, hh, hw, hf, v, hv => by
    obtain ⟨S, rfl, hs⟩ := hs
    obtain ⟨vs, hm, hv⟩ := Res.bind_eq_ok.mp hv
    cases hv
    exact array_fits hm fun x hx v hv => fits_core cfg t _ hinted _ x hs (hint_elem hh) (wf_strip (wf_array hw)) (hf x hx) v hv
  | .option t, T, hinted, h, x, hs, hh, hw, hf, v, hv => by
    match x with
    | none =>
      cases hv
      exact none_fits hw
    | some y =>
      obtain ⟨hn, hf⟩ := hf y rfl
      have hn' : v ≠ .null := by rintro rfl; exact hn (nullLike_of_null t _ y hv)
      rcases hs with ⟨S, rfl, hs⟩ | ⟨hT, hs⟩
      · have hlc := (wf_nullable hw).2
        obtain ⟨a, b⟩ := fits_core cfg t _ _ _ y hs (hint_strip (h.bind Ty.unnull) (by intro e; rw [hh.1 e]; rfl) (by
          rcases hh.2 with rfl | rfl | rfl
          · exact .inl rfl
          · exact .inr rfl
          · exact .inl rfl)) (wf_strip (wf_nullable hw).1) hf v hv
        rw [validate_strip] at a
        rw [storable_strip, canon_strip] at b
        constructor
        · show (v.isNull || S.innerValidate cfg v) = true ↔ _
          rw [notNull hn', Bool.false_or]; exact a
        · intro hq
          obtain ⟨b1, b2⟩ := b hq
          exact ⟨.inr b1, by rw [canon_nullable hn']; exact b2⟩
      · have e1 : someTy T = T := by cases T <;> first | rfl | cases hT
        have e2 : h.bind Ty.unnull = none := by
          rcases hh.2 with rfl | rfl | rfl
          · rfl
          · cases T <;> first | rfl | cases hT
          · rfl
        have hv' : t.toSql none y = .ok v := by rw [← e2]; exact hv
        rw [e1] at hf
        have := fits_core cfg t T false none y hs ⟨(by intro e; cases e), .inl rfl⟩ hw hf v hv'
        show (_ ↔ Fitting cfg false t (someTy T) y) ∧ (Fitting cfg true t (someTy T) y → _)
        rw [e1]
        exact this
  | .box t, T, hinted, h, x, hs, hh, hw, hf, v, hv => fits_core cfg t T hinted h x hs hh hw hf v hv
  | .vecTuple t, T, hinted, h, xs, hs, hh, hw, hf, v, hv => by
    obtain ⟨Ts, rfl, hs⟩ := hs
    obtain ⟨hl, hf⟩ := hf
    have h2 : memberHints h = [] ∨ memberHints h = Ts := by
      rcases hh.2 with rfl | rfl | rfl
      · exact .inl rfl
      · exact .inr rfl
      · exact .inl rfl
    obtain ⟨vs, hm, hv⟩ := Res.bind_eq_ok.mp hv
    cases hv
    obtain ⟨a, b⟩ := vecTuple_fits (cfg := cfg) (P := fun e => Fitting cfg false t e.2 e.1) (Q := fun e => Fitting cfg true t e.2 e.1) Ts _ h2 xs vs hl hm
      fun e he h' h3 h4 v hv => fits_core cfg t e.2 hinted h' e.1 (hs e.2 (List.of_mem_zip he).2)
        ⟨fun e' => h3 (by rw [hh.1 e']; rfl), h4.elim .inl (fun h => .inr (.inl h))⟩ (wf_tuple hw _ (List.of_mem_zip he).2) (hf e he) v hv
    refine ⟨a, fun hq => ⟨⟨vs, rfl, (b hq).1⟩, ?_⟩⟩
    show Value.tuple (canonAll Ts vs) = _
    rw [(b hq).2]
  | .tuple ts, T, hinted, h, x, hs, hh, hw, hf, v, hv => by
    obtain ⟨Ts, rfl, hs⟩ := hs
    obtain ⟨vs, hm, hv⟩ := Res.bind_eq_ok.mp hv
    cases hv
    obtain ⟨a, b⟩ := fits_all cfg ts Ts hinted (memberHints h) x hs (by intro e; rw [hh.1 e]; rfl) (by
      rcases hh.2 with rfl | rfl | rfl
      · exact .inl rfl
      · exact .inr rfl
      · exact .inl rfl) (wf_tuple hw) hf vs hm
    refine ⟨a, fun hq => ⟨⟨vs, rfl, (b hq).1⟩, ?_⟩⟩
    show Value.tuple (canonAll Ts vs) = _
    rw [(b hq).2]
  | .map k w, T, hinted, h, es, hs, hh, hw, hf, v, hv => by
    obtain ⟨K, V, rfl, hk, hv'⟩ := hs
    obtain ⟨hd, fk, fv⟩ := hf K V rfl
    have hkh : Hint (hinted && !isLc K) ((h.bind Ty.unmap).map Prod.fst) K.stripLowCardinality := by
      apply hint_strip
      · intro e; rw [hh.1 e]; rfl
      · rcases hh.2 with rfl | rfl | rfl
        · exact .inl rfl
        · exact .inr rfl
        · exact .inl rfl
    have hvh : Hint (hinted && !isLc V) ((h.bind Ty.unmap).map Prod.snd) V.stripLowCardinality := by
      apply hint_strip
      · intro e; rw [hh.1 e]; rfl
      · rcases hh.2 with rfl | rfl | rfl
        · exact .inl rfl
        · exact .inr rfl
        · exact .inl rfl
    obtain ⟨kvs, hm, hv⟩ := Res.bind_eq_ok.mp hv
    cases hv
    obtain ⟨a, b⟩ := map_fits (K := K) (V := V) hm
      (fun e he v hv => fits_core cfg k _ _ _ e.1 hk hkh (wf_strip (wf_map hw).1) (fk e he) v hv)
      (fun e he v hv => fits_core cfg w _ _ _ e.2 hv' hvh (wf_strip (wf_map hw).2) (fv e he) v hv)
    refine ⟨a.trans ⟨fun hq K' V' e => (by cases e; exact hq), fun hq => hq K V rfl⟩, fun hq => b (hq K V rfl)⟩
/-- Memberwise. -/
theorem fits_all (cfg : Cfg) : ∀ (ts : List RT) (Ts : List Ty) (hinted : Bool) (hs : List Ty) (x : RT.dens ts), SuitsAll hinted ts Ts →
    (hinted = true → hs = Ts) → (hs = [] ∨ hs = Ts) → (∀ T ∈ Ts, WellFormed cfg T) → FaithfulAll ts Ts x → ∀ vs, RT.toSqls ts hs x = .ok vs →
    (Ty.innerValidateZip cfg Ts vs = true ↔ FittingAll cfg false ts Ts x) ∧
    (FittingAll cfg true ts Ts x → StorableAll cfg Ts vs ∧ canonAll Ts vs = vs)
  | [], Ts, hinted, hs, x, hsu, h1, h2, hw, hf, vs, hv => by
    cases hsu
    cases hv
    exact ⟨⟨fun _ => trivial, fun _ => rfl⟩, fun _ => ⟨rfl, rfl⟩⟩
  | t :: ts, Ts, hinted, hs, x, hsu, h1, h2, hw, hf, vs, hv => by
    obtain ⟨S, Ss, rfl, hS, hSs⟩ := hsu
    obtain ⟨f1, f2⟩ := hf S Ss rfl
    obtain ⟨v, k1, hv⟩ := Res.bind_eq_ok.mp hv
    obtain ⟨ws, k2, hv⟩ := Res.bind_eq_ok.mp hv
    cases hv
    obtain ⟨a1, a2⟩ := fits_core cfg t _ _ hs.head? x.1 hS (hint_strip _ (by intro e; rw [h1 e]; rfl) (by
      rcases h2 with rfl | rfl
      · exact .inl rfl
      · exact .inr rfl)) (wf_strip (hw S (List.mem_cons_self ..))) f1 v k1
    obtain ⟨b1, b2⟩ := fits_all cfg ts Ss hinted hs.tail x.2 hSs (by intro e; rw [h1 e]; rfl) (by
      rcases h2 with rfl | rfl
      · exact .inl rfl
      · exact .inr rfl) (fun T hT => hw T (List.mem_cons_of_mem _ hT)) f2 ws k2
    constructor
    · show (S.innerValidate cfg v && Ty.innerValidateZip cfg Ss ws) = true ↔ _
      rw [Bool.and_eq_true, ← validate_strip, a1, b1]
      exact ⟨fun h S' Ss' e => (by cases e; exact h), fun h => h S Ss rfl⟩
    · intro hq
      obtain ⟨q1, q2⟩ := hq S Ss rfl
      have c1 := a2 q1
      rw [storable_strip, canon_strip] at c1
      have c2 := b2 q2
      refine ⟨⟨v, ws, rfl, c1.1, c2.1⟩, ?_⟩
      show canon S v :: canonAll Ss ws = _
      rw [c1.2, c2.2]
end

/-- The hint an insert gives is a hint for what the reader is given. -/
theorem hint_column (T : Ty) : Hint (!isLc T) (some T) T.stripLowCardinality := by
  have := hint_strip (hinted := true) (S := T) (some T) (fun _ => rfl) (.inr rfl)
  rwa [Bool.true_and] at this

/-- C103: a value of a Rust type that goes with the column is converted without an error when the column's type is given as a hint, as an
insert does, and the check made before sending accepts it if and only if its times are in the column's zone and `None` stands in
`Nullable` columns only, at every depth. -/
theorem C103_accepted (cfg : Cfg) (t : RT) (T : Ty) (hT : T.validate = true) (hw : WellFormed cfg T) (hs : Suits (!isLc T) t T.stripLowCardinality)
    (x : t.den) (hx : Faithful t T.stripLowCardinality x) :
    ∃ v, t.toSql (some T) x = .ok v ∧ (T.validateValue cfg v = true ↔ Fitting cfg false t T.stripLowCardinality x) := by
  obtain ⟨v, hv, _⟩ := conv_rt t _ _ _ x hs (hint_column T) hx
  refine ⟨v, hv, ?_⟩
  unfold Ty.validateValue
  rw [hT, Bool.true_and, ← validate_strip]
  exact (fits_core cfg t _ _ _ x hs (hint_column T) (wf_strip hw) hx v hv).1

mutual
theorem fitting_weaken (cfg : Cfg) : ∀ (t : RT) (T : Ty) (x : t.den), Fitting cfg true t T x → Fitting cfg false t T x
  | .prim p, T, x, h => h
  | .string, T, x, h => fun h => (by cases h)
  | .bytes, T, x, h => fun h => (by cases h)
  | .value, T, x, h => ⟨h.1, fun h => (by cases h)⟩
  | .vec t, T, xs, h => fun x hx => fitting_weaken cfg t _ x (h x hx)
  | .array t n, T, xs, h => fun x hx => fitting_weaken cfg t _ x (h x hx)
  | .option t, T, x, h => by
    match x with
    | none => obtain ⟨S, h, _⟩ := h; exact ⟨S, h, fun h => (by cases h)⟩
    | some y => exact fitting_weaken cfg t _ y h
  | .box t, T, x, h => fitting_weaken cfg t T x h
  | .vecTuple t, T, xs, h => fun e he => fitting_weaken cfg t _ _ (h e he)
  | .tuple ts, T, x, h => fittingAll_weaken cfg ts _ x h
  | .map k v, T, es, h => fun K V e p hp => ⟨fitting_weaken cfg k _ _ (h K V e p hp).1, fitting_weaken cfg v _ _ (h K V e p hp).2⟩
theorem fittingAll_weaken (cfg : Cfg) : ∀ (ts : List RT) (Ts : List Ty) (x : RT.dens ts), FittingAll cfg true ts Ts x → FittingAll cfg false ts Ts x
  | [], _, _, _ => trivial
  | t :: ts, Ts, x, h => fun S Ss e => ⟨fitting_weaken cfg t _ _ (h S Ss e).1, fittingAll_weaken cfg ts _ _ (h S Ss e).2⟩
end

/-- C103: if moreover its texts have room and no `None` is in a column of a geometric type, the column stores it, and stores it as it is. -/
theorem C103_kept_partial (cfg : Cfg) (t : RT) (T : Ty) (hT : T.validate = true) (hw : WellFormed cfg T)
    (hs : Suits (!isLc T) t T.stripLowCardinality) (x : t.den) (hx : Faithful t T.stripLowCardinality x) (hf : Fitting cfg true t T.stripLowCardinality x) :
    ∃ v, t.toSql (some T) x = .ok v ∧ T.validateValue cfg v = true ∧ Storable cfg T v ∧ canon T v = v ∧
      t.fromSql T.stripLowCardinality v = .ok x := by
  obtain ⟨v, hv, hb⟩ := conv_rt t _ _ _ x hs (hint_column T) hx
  obtain ⟨a, b⟩ := fits_core cfg t _ _ _ x hs (hint_column T) (wf_strip hw) hx v hv
  have c := b hf
  rw [storable_strip, canon_strip] at c
  refine ⟨v, hv, ?_, c.1, c.2, hb⟩
  unfold Ty.validateValue
  rw [hT, Bool.true_and, ← validate_strip]
  exact a.mpr (fitting_weaken cfg t _ x hf)

/-- C103: a column of such values is written, and reading it gives the same Rust values. -/
theorem C103_column_partial (cfg : Cfg) (t : RT) (T : Ty) (hT : T.validate = true) (hw : WellFormed cfg T)
    (hs : Suits (!isLc T) t T.stripLowCardinality) (xs : List t.den)
    (hx : ∀ x ∈ xs, Faithful t T.stripLowCardinality x ∧ Fitting cfg true t T.stripLowCardinality x)
    (hfit : ∀ vs, Res.mapL (t.toSql (some T)) xs = .ok vs → Fits T vs) :
    ∃ vs b, Res.mapL (t.toSql (some T)) xs = .ok vs ∧ (∀ v ∈ vs, T.validateValue cfg v = true) ∧ serCol cfg T vs = .ok b ∧ ∀ rest, ∃ ws,
      deCol cfg T xs.length (b ++ rest) = .ok (ws, rest) ∧ Res.mapL (t.fromSql T.stripLowCardinality) ws = .ok xs := by
  have key : ∀ x ∈ xs, ∀ v, t.toSql (some T) x = .ok v → T.validateValue cfg v = true ∧ Storable cfg T v ∧ canon T v = v := by
    intro x hm v hv
    obtain ⟨v', h1, h2, h3, h4, _⟩ := C103_kept_partial cfg t T hT hw hs x (hx x hm).1 (hx x hm).2
    rw [hv] at h1; cases h1
    exact ⟨h2, h3, h4⟩
  obtain ⟨vs, b, h1, h2, h3⟩ := C45_wire_partial cfg t T hw _ (some T) hs (hint_column T) xs (fun x hm => (hx x hm).1)
    (fun x hm v hv => (key x hm v hv).2) hfit
  refine ⟨vs, b, h1, fun v hv => ?_, h2, h3⟩
  obtain ⟨x, hm, he⟩ := mapL_ok_mem h1 v hv
  exact (key x hm v he).1

theorem strip_twice {cfg : Cfg} {T : Ty} (h : WellFormed cfg T) : T.stripLowCardinality.stripLowCardinality = T.stripLowCardinality := by
  cases h with
  | lowCardinality h _ => rename_i t _; cases t <;> first | rfl | cases h
  | _ => rfl

theorem struct_law {cfg : Cfg} {header : IMap Ty} : ∀ (fs : List (Str × RT)) (x : StructVal fs), FieldsFit cfg header fs x →
    FieldsLaw (structOf fs) header (typeIn header) none x
  | [], _, _ => trivial
  | f :: fs, x, h => by
    obtain ⟨⟨T, h1, _, hw, hs, hx, _⟩, h2⟩ := h
    refine ⟨.inl ⟨rfl, rfl, ?_⟩, struct_law fs x.2 h2⟩
    show ∃ v, f.2.toSql (header.get f.1) x.1 = .ok v ∧ f.2.fromSql (typeIn header f.1).stripLowCardinality v = .ok x.1
    have e : (typeIn header f.1).stripLowCardinality = T.stripLowCardinality := by
      unfold typeIn
      rw [h1]
      exact strip_twice hw
    rw [e, h1]
    exact conv_rt f.2 _ _ _ x.1 hs (hint_column T) hx

theorem struct_names : ∀ (fs : List (Str × RT)), (structOf fs).names = some (fs.map Prod.fst)
  | [] => rfl
  | f :: fs => by
    show (match some [f.1], (structOf fs).names with | some a, some b => some (a ++ b) | _, _ => none) = _
    rw [struct_names fs]; rfl

theorem struct_claims : ∀ (fs : List (Str × RT)) (n : Str), FieldsClaim (structOf fs) n → n ∈ fs.map Prod.fst
  | [], _, h => h.elim
  | f :: fs, n, h => by
    rcases h with h | h
    · rw [show n = f.1 from h.2]; exact List.mem_cons_self ..
    · exact List.mem_cons_of_mem _ (struct_claims fs n h)

theorem struct_apart : ∀ (fs : List (Str × RT)), (fs.map Prod.fst).Nodup → Apart (structOf fs)
  | [], _ => trivial
  | f :: fs, h => by
    rw [List.map_cons, List.nodup_cons] at h
    refine ⟨fun n hn hc => ?_, struct_apart fs h.2⟩
    have : n = f.1 := hn.2
    exact h.1 (this ▸ struct_claims fs n hc)

theorem struct_values {cfg : Cfg} {header : IMap Ty} : ∀ (fs : List (Str × RT)) (x : StructVal fs), FieldsFit cfg header fs x →
    ∀ cols, (structOf fs).ser header x = .ok cols → ∀ name v, (name, v) ∈ cols →
      ∃ T, header.get name = some T ∧ T.validateValue cfg v = true ∧ Storable cfg T v ∧ canon T v = v
  | [], _, _, cols, hc, name, v, hm => by cases hc; cases hm
  | f :: fs, x, h, cols, hc, name, v, hm => by
    obtain ⟨⟨T, h1, hT, hw, hs, hx, hf⟩, h2⟩ := h
    obtain ⟨a, ha, hc⟩ := Res.bind_eq_ok.mp hc
    obtain ⟨b, hb, hc⟩ := Res.bind_eq_ok.mp hc
    cases hc
    rcases List.mem_append.mp hm with hm | hm
    · obtain ⟨w, k1, k2, k3, k4, _⟩ := C103_kept_partial cfg f.2 T hT hw hs x.1 hx hf
      have e : a = [(f.1, w)] := by
        have : (f.2.toSql (header.get f.1) x.1 >>= fun v => Res.ok [(f.1, v)]) = .ok a := ha
        rw [h1, k1] at this
        cases this; rfl
      rw [e, List.mem_singleton] at hm
      cases hm
      exact ⟨T, h1, k2, k3, k4⟩
    · exact struct_values fs x.2 h2 b hb name v hm

/-- C103: a struct whose fields' values fit their columns survives insertion and selection. -/
theorem C103_struct_partial (cfg : Cfg) (header : IMap Ty) (fs : List (Str × RT)) (hn : (fs.map Prod.fst).Nodup)
    (hk : ∀ name, name ∈ fs.map Prod.fst ↔ name ∈ header.keys) (x : StructVal fs) (hx : FieldsFit cfg header fs x) :
    Survives cfg header ((structOf fs).derive none).ser ((structOf fs).derive none).de x :=
  C71_derived (structOf fs) none cfg header x _ (struct_law fs x hx) (struct_apart fs hn) (struct_names fs) hn hk
    fun cols hc name v hm => by
      obtain ⟨T, h1, h2, _, h4⟩ := struct_values fs x hx cols hc name v hm
      exact ⟨T, h1, h2, h4⟩

theorem struct_column {cfg : Cfg} {header : IMap Ty} (hn : header.keys.Nodup) {fs : List (Str × RT)} (hd : (fs.map Prod.fst).Nodup)
    (hk : ∀ name, name ∈ fs.map Prod.fst ↔ name ∈ header.keys) {rows : List (StructVal fs)} (hx : ∀ x ∈ rows, FieldsFit cfg header fs x)
    {name : Str} {T : Ty} (hm : (name, T) ∈ header) :
    ∀ v ∈ columnOf header ((structOf fs).derive none).ser name rows, Storable cfg T v := by
  intro v hv
  obtain ⟨x, hmx, rfl⟩ := List.mem_map.mp hv
  obtain ⟨cols, h1, h2, _⟩ := C103_struct_partial cfg header fs hd hk x (hx x hmx)
  rw [h1]
  have hin : name ∈ cols.map (·.1) := (h2.same name).mpr (List.mem_map.mpr ⟨_, hm, rfl⟩)
  obtain ⟨⟨n, w⟩, hw, e⟩ := List.mem_map.mp hin
  dsimp only at e
  subst e
  obtain ⟨S, g1, _, g3, _⟩ := struct_values fs x (hx x hmx) cols h1 n w hw
  rw [IMap.get_of_mem hn hm] at g1
  cases g1
  show Storable cfg T ((valueFor cols n).getD .null)
  rw [valueFor_mem h2.once hw]
  exact g3

/-- C103: rows of such a struct are inserted, and selecting them again gives them back (C71), the conditions now on the Rust values and on
the table alone. -/
theorem C103_insert_partial (cfg : Cfg) (ext : Ext) (hdr : Block) (fs : List (Str × RT)) (batches : List (List (StructVal fs)))
    (hh : hdr.columnTypes ≠ []) (hn : hdr.columnTypes.keys.Nodup) (hl : hdr.columnTypes.length < 2 ^ 63)
    (hd : (fs.map Prod.fst).Nodup) (hk : ∀ name, name ∈ fs.map Prod.fst ↔ name ∈ hdr.columnTypes.keys)
    (ht : ∀ name T, (name, T) ∈ hdr.columnTypes →
      (utf8Encode name).length ≤ maxStringSize ∧ TextOk cfg T ∧ (utf8Encode T.display).length ≤ maxStringSize ∧ WellFormed cfg T)
    (hr : ∀ rows ∈ batches, rows.length < 2 ^ 63) (hx : ∀ rows ∈ batches, ∀ x ∈ rows, FieldsFit cfg hdr.columnTypes fs x)
    (hf : ∀ rows ∈ batches, ∀ name T, (name, T) ∈ hdr.columnTypes →
      Fits T (columnOf hdr.columnTypes ((structOf fs).derive none).ser name rows))
    (acks : List Bool) (ha : acks = List.replicate ((batches.filter (fun rows => !rows.isEmpty)).length + 1) true) (revision : Nat) :
    ∃ blocks, insertNative cfg ext ((structOf fs).derive none).ser (some (.block hdr)) acks batches = (blocks ++ [endBlock], .ok ()) ∧
      (∃ received, Each (Travels cfg revision) blocks received) ∧
      ∀ received, Each (Travels cfg revision) blocks received →
        ∀ (answer : List Block) (revision' : Nat) (seen : List Block), (∀ b ∈ answer, AnswerOk cfg b ∧ b.rows ≤ 2 ^ 57) → SameRows received answer →
          Each (Travels cfg revision') answer seen →
          collectRows (queryStream ((structOf fs).derive none).de (seen.map Item.block)) = .ok batches.flatten := by
  obtain ⟨blocks, h1, _, h3⟩ := C71_roundtrip cfg ext hdr ((structOf fs).derive none).ser ((structOf fs).derive none).de batches hh hn hl hr
    (fun rows hm x hx' => C103_struct_partial cfg hdr.columnTypes fs hd hk x (hx rows hm x hx'))
    (fun rows hm name T hT => by
      obtain ⟨k1, k2, k3, k4⟩ := ht name T hT
      exact ⟨k1, k2, k3, k4, struct_column hn hd hk (hx rows hm) hT, hf rows hm name T hT⟩) acks ha revision
  exact ⟨blocks, h1, h3⟩

/-- What the claim misses: a time in another zone is refused by the column, though the type goes with it and the instant could be stored. -/
theorem C103_zone_false (cfg : Cfg) (tz z : Tz) (hz : z ≠ tz) (x : BitVec 32) : Suits true (.prim .dateTime) (.dateTime tz) ∧
    ∃ v, (RT.prim .dateTime).toSql (some (.dateTime tz)) (z, x) = .ok v ∧ Ty.validateValue cfg (.dateTime tz) v = false := by
  refine ⟨Column.dateTime, _, rfl, ?_⟩
  have h := (prim_fits (cfg := cfg) (T := .dateTime tz) Column.dateTime (by constructor) (z, x)).1
  have : ¬ Ty.innerValidate cfg (.dateTime tz) (Prim.dateTime.toValue (z, x)) = true := fun e => hz (h.mp e tz rfl)
  unfold Ty.validateValue
  rw [show Ty.innerValidate cfg (.dateTime tz) (Prim.dateTime.toValue (z, x)) = false by simpa using this]
  exact Bool.and_false _

/-- A text longer than its `FixedString` passes the check before sending and is written, cut. -/
theorem C103_fixed_false (cfg : Cfg) :
    (RT.string.toSql (some (.fixedString 2)) (ch! "abc") >>= fun v => Res.ok (Ty.validateValue cfg (.fixedString 2) v)) = .ok true ∧
    (RT.string.toSql (some (.fixedString 2)) (ch! "abc") >>= fun v => serCol cfg (.fixedString 2) [v]) = .ok [97, 98] := ⟨rfl, rfl⟩

/-- `None` for a nullable point passes the check before sending, and writing it is a panic (C12). -/
theorem C103_null_point_false (cfg : Cfg) :
    (RT.option .value).toSql (some (.nullable .point)) none = .ok .null ∧
    Ty.validateValue cfg (.nullable .point) .null = true ∧ serCol cfg (.nullable .point) [.null] = .panic := ⟨rfl, rfl, rfl⟩

theorem validate_time (cfg : Cfg) (tz : Tz) (x : BitVec 64) : ∀ T : Ty,
    T.innerValidate cfg (.dateTime64 tz x 6) = true ↔ bareTy T = .dateTime64 6 tz
  | .lowCardinality t => validate_time cfg tz x t
  | .nullable t => by
    have := validate_time cfg tz x t
    unfold Ty.innerValidate bareTy
    simpa [Value.isNull] using this
  | .dateTime64 p z => by
    unfold bareTy
    dsimp only [Ty.innerValidate]
    rw [Bool.and_eq_true, beq_iff_eq, beq_iff_eq]
    constructor
    · rintro ⟨rfl, rfl⟩; rfl
    · intro h; cases h; exact ⟨rfl, rfl⟩
  | .int8 | .int16 | .int32 | .int64 | .int128 | .int256 | .uint8 | .uint16 | .uint32 | .uint64 | .uint128 | .uint256 | .float32 | .float64
  | .bfloat16 | .decimal32 _ | .decimal64 _ | .decimal128 _ | .decimal256 _ | .string | .fixedString _ | .uuid | .date | .dateTime _
  | .ipv4 | .ipv6 | .point | .ring | .polygon | .multiPolygon | .enum8 _ | .enum16 _ | .array _ | .tuple _ | .map _ _ =>
    ⟨fun h => (by cases h), fun h => (by cases h)⟩

/-- C103, `chrono` times: whatever the hint, one from 1970 on is taken by columns `DateTime64(6)` of its zone only, bare or within `Nullable`
or `LowCardinality`. -/
theorem C103_chrono (cfg : Cfg) (tz : Tz) (i : Inst) (v : Value) (hv : chronoToSql tz i = .ok v) (T : Ty) (hT : T.validate = true) :
    T.validateValue cfg v = true ↔ bareTy T = .dateTime64 6 tz := by
  rw [chronoToSql] at hv
  split at hv
  · cases hv
    unfold Ty.validateValue
    rw [hT, Bool.true_and]
    exact validate_time cfg tz _ T
  · cases hv

/-- A case: one microsecond past the epoch. -/
example (cfg : Cfg) : ∃ v, chronoToSql tzUTC ⟨0, 1000⟩ = .ok v ∧ Ty.validateValue cfg (.nullable (.dateTime64 6 tzUTC)) v = true ∧
    Ty.validateValue cfg (.dateTime64 3 tzUTC) v = false ∧ Ty.validateValue cfg (.dateTime tzUTC) v = false :=
  ⟨.dateTime64 tzUTC 1#64 6, rfl, rfl, rfl, rfl⟩

/-- C103, `Decimal`s: a decimal column with enough digits on either side of the point takes one, and keeps it. -/
theorem C103_decimal (cfg : Cfg) (d : Decimal) (T : Ty) (hv : T.validate = true) (w p : Nat) (hT : decimalCol T = some (w, p))
    (hs : d.scale ≤ p) (hp : p ≤ 38) (hb : InBits w (d.mantissa * 10 ^ (p - d.scale))) :
    ∃ v, d.toSql cfg (some T) = .ok v ∧ T.validateValue cfg v = true ∧ Storable cfg T v ∧ canon T v = v := by
  obtain ⟨v, _, h1, h2, _⟩ := (C51_to_column cfg d T w p hT hs hp).1 hb
  refine ⟨v, h1, ?_⟩
  unfold Ty.validateValue
  rw [hv, Bool.true_and]
  cases T <;> first
    | (cases hT; done)
    | (obtain ⟨x, rfl⟩ := h2; exact ⟨beq_self_eq_true _, ⟨x, rfl⟩, rfl⟩)

/-- A case: 1.5 in a `Decimal32(4)`. -/
example (cfg : Cfg) : ∃ v, Decimal.toSql cfg (some (.decimal32 4)) ⟨15, 1⟩ = .ok v ∧ Ty.validateValue cfg (.decimal32 4) v = true ∧
    Storable cfg (.decimal32 4) v ∧ canon (.decimal32 4) v = v :=
  C103_decimal cfg ⟨15, 1⟩ (.decimal32 4) rfl 32 4 rfl (by decide) (by decide) (by unfold InBits; decide)

/-- An `Option<Decimal>` is refused by the same column, `Some` too: `Option` passes the type on for a `Nullable` only, and without it a decimal
is always written as a `Decimal128` of its own scale. -/
theorem C103_optional_decimal_false (cfg : Cfg) :
    (Decimal.toSql cfg (some (.decimal32 4)) ⟨15, 1⟩ >>= fun v => Res.ok (Ty.validateValue cfg (.decimal32 4) v)) = .ok true ∧
    (optionToSql (Decimal.toSql cfg) (some (.decimal32 4)) (some ⟨15, 1⟩) >>= fun v =>
      Res.ok (Ty.validateValue cfg (.decimal32 4) v)) = .ok false ∧
    (optionToSql (Decimal.toSql cfg) (some (.nullable (.decimal32 4))) (some ⟨15, 1⟩) >>= fun v =>
      Res.ok (Ty.validateValue cfg (.nullable (.decimal32 4)) v)) = .ok true := by
  refine ⟨?_, rfl, ?_⟩ <;> cases cfg <;> rfl

/-- A case of `C103_accepted`: a vector of optional times in `Array(Nullable(DateTime('UTC')))`; of the same shape, one with a time elsewhere
does not fit. -/
example (cfg : Cfg) (z : Tz) (hz : z ≠ tzUTC) :
    Suits true (.vec (.option (.prim .dateTime))) (.array (.nullable (.dateTime tzUTC))) ∧
    Fitting cfg true (.vec (.option (.prim .dateTime))) (.array (.nullable (.dateTime tzUTC))) [some (tzUTC, 7#32), none] ∧
    ¬ Fitting cfg false (.vec (.option (.prim .dateTime))) (.array (.nullable (.dateTime tzUTC))) [some (tzUTC, 7#32), some (z, 7#32)] := by
  refine ⟨⟨_, rfl, .inl ⟨_, rfl, Column.dateTime⟩⟩, ?_, ?_⟩
  · intro x hx
    rcases List.mem_cons.mp hx with rfl | hx
    · intro tz e
      cases e; rfl
    rcases List.mem_cons.mp hx with rfl | hx
    · exact ⟨_, rfl, fun _ => rfl⟩
    · cases hx
  · intro h
    exact hz (h _ (List.mem_cons_of_mem _ (List.mem_cons_self ..)) tzUTC rfl)

/-- A case of `C103_struct_partial`: a struct of a number and an optional text for a table of a `UInt8` and a `LowCardinality(Nullable(String))`. -/
def exNote : List (Str × RT) := [(ch! "id", .prim .u8), (ch! "text", .option .string)]
/-- Its table. -/
def exNoteTable : IMap Ty := [(ch! "text", .lowCardinality (.nullable .string)), (ch! "id", .uint8)]

theorem exNote_fits (cfg : Cfg) (x : BitVec 8) (s : Option Str) (hs : ∀ a, s = some a → (utf8Encode a).length ≤ 2 ^ 30) :
    FieldsFit cfg exNoteTable exNote (x, s, ()) := by
  refine ⟨⟨.uint8, rfl, rfl, .uint8, Column.u8, trivial, trivial⟩,
    ⟨.lowCardinality (.nullable .string), rfl, rfl, .lowCardinalityNullable rfl .string, .inl ⟨_, rfl, .inl rfl⟩, ?_, ?_⟩, trivial⟩
  · intro y _; exact ⟨fun h => h, trivial⟩
  · cases s with
    | none => exact ⟨_, rfl, fun _ => rfl⟩
    | some a => exact fun _ => ⟨fun _ => hs a rfl, fun n e => (by cases e)⟩

example (cfg : Cfg) : Survives cfg exNoteTable ((structOf exNote).derive none).ser ((structOf exNote).derive none).de (7#8, some (ch! "hi"), ()) :=
  C103_struct_partial cfg exNoteTable exNote (by decide) (by intro n; simp [exNote, exNoteTable, IMap.keys]; exact or_comm) _
    (exNote_fits cfg 7 (some (ch! "hi")) fun a e => by cases e; decide)

/-- A case of `C103_insert_partial`: any notes. -/
example (cfg : Cfg) (ext : Ext) (batches : List (List (BitVec 8 × Option Str × Unit))) (hr : ∀ rows ∈ batches, rows.length < 2 ^ 30)
    (hb : ∀ rows ∈ batches, ∀ x ∈ rows, ∀ a, x.2.1 = some a → (utf8Encode a).length ≤ 2 ^ 30) (revision : Nat) :=
  C103_insert_partial cfg ext ⟨BlockInfo.default, 0, exNoteTable, []⟩ exNote batches (by intro h; cases h)
    (show exNoteTable.keys.Nodup by decide) (show 2 < 2 ^ 63 by decide) (by decide)
    (by intro n; simp [exNote, exNoteTable, IMap.keys]; exact or_comm)
    (by
      intro name T h
      simp only [exNoteTable, List.mem_cons, Prod.mk.injEq, List.not_mem_nil, or_false] at h
      rcases h with ⟨rfl, rfl⟩ | ⟨rfl, rfl⟩
      · exact ⟨by decide, trivial, by decide, .lowCardinalityNullable rfl .string⟩
      · exact ⟨by decide, trivial, by decide, .uint8⟩)
    (fun rows hm => Nat.lt_trans (hr rows hm) (by decide))
    (fun rows hm x hx => exNote_fits cfg x.1 x.2.1 (hb rows hm x hx))
    (by
      intro rows hm name T h
      simp only [exNoteTable, List.mem_cons, Prod.mk.injEq, List.not_mem_nil, or_false] at h
      rcases h with ⟨rfl, rfl⟩ | ⟨rfl, rfl⟩
      · simp only [Fits, columnOf, List.length_map]
        exact hr rows hm
      · simp only [Fits, columnOf, List.length_map]
        exact Nat.le_of_lt (hr rows hm)) _ rfl revision

end Props
end Klick
