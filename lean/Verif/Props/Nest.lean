import Verif.Spec.Nest
import Verif.Props.Fitting
import Verif.Props.RawInsert
/-
C104: containers of user types store what their parts store.
-/
namespace Klick
open Spec Props

namespace Props

/-- The column takes the value and keeps it. -/
def Taken (cfg : Cfg) (T : Ty) (v : Value) : Prop := T.innerValidate cfg v = true ∧ Storable cfg T v ∧ canon T v = v

theorem taken_strip {cfg : Cfg} {T : Ty} {v : Value} : Taken cfg T.stripLowCardinality v ↔ Taken cfg T v := by
  unfold Taken
  rw [validate_strip, storable_strip, canon_strip]

theorem each_length {α β : Type} {P : α → β → Prop} : ∀ {xs : List α} {ys : List β}, Each P xs ys → xs.length = ys.length
  | [], [], _ => rfl
  | [], _ :: _, h => h.elim
  | _ :: _, [], h => h.elim
  | _ :: _, _ :: _, h => congrArg (· + 1) (each_length h.2)

theorem list_stored {α : Type} {f : α → Res Value} {g : Value → Res α} {K : Value → Prop} {R : α → α → Prop} : ∀ (xs : List α),
    (∀ x ∈ xs, ∃ v y, f x = .ok v ∧ K v ∧ g v = .ok y ∧ R x y) →
    ∃ vs ys, Res.mapL f xs = .ok vs ∧ (∀ v ∈ vs, K v) ∧ Res.mapL g vs = .ok ys ∧ Each R xs ys
  | [], _ => ⟨[], [], rfl, fun _ h => (by cases h), rfl, trivial⟩
  | x :: xs, h => by
    obtain ⟨v, y, h1, h2, h3, h4⟩ := h x (List.mem_cons_self ..)
    obtain ⟨vs, ys, k1, k2, k3, k4⟩ := list_stored xs fun x hx => h x (List.mem_cons_of_mem _ hx)
    refine ⟨v :: vs, y :: ys, by simp only [Res.mapL, h1, k1, Res.bind_ok], ?_, by simp only [Res.mapL, h3, k3, Res.bind_ok], h4, k4⟩
    intro w hw
    rcases List.mem_cons.mp hw with rfl | hw
    · exact h2
    · exact k2 w hw

theorem array_taken {cfg : Cfg} {S : Ty} {vs : List Value} (h : ∀ v ∈ vs, Taken cfg S.stripLowCardinality v) :
    Taken cfg (.array S) (.array vs) := by
  have h' : ∀ v ∈ vs, Taken cfg S v := fun v hv => taken_strip.mp (h v hv)
  refine ⟨?_, ⟨vs, rfl, fun v hv => (h' v hv).2.1⟩, ?_⟩
  · show vs.all _ = true
    rw [List.all_eq_true]
    exact fun v hv => (h' v hv).1
  · show Value.array (vs.map _) = _
    rw [map_id_of fun v hv => (h' v hv).2.2]

theorem pairs_stored {cfg : Cfg} {α : Type} {f : Option Ty → α → Res Value} {g : Ty → Value → Res α} {R : α → α → Prop} (Us : List Ty) :
    ∀ (hU : List Ty), (hU = [] ∨ hU = Us) → ∀ ys : List α, ys.length = Us.length →
    (∀ e ∈ ys.zip Us, ∀ h, (hU = Us → h = some e.2) → (h = none ∨ h = some e.2) →
      ∃ v y, f h e.1 = .ok v ∧ Taken cfg e.2 v ∧ g e.2 v = .ok y ∧ R e.1 y) →
    ∃ vs zs, mapHints f hU ys = .ok vs ∧ vs.length = Us.length ∧ Ty.innerValidateZip cfg Us vs = true ∧ StorableAll cfg Us vs ∧ canonAll Us vs = vs ∧
      mapTypes g Us vs = .ok zs ∧ Each R ys zs := by
  induction Us with
  | nil =>
    intro hU _ ys hl _
    have : ys = [] := List.eq_nil_of_length_eq_zero hl
    subst this
    exact ⟨[], [], rfl, rfl, rfl, rfl, rfl, rfl, trivial⟩
  | cons U Us ih =>
    intro hU h2 ys hl hf
    cases ys with
    | nil => cases hl
    | cons y ys =>
      obtain ⟨v, z, a1, a2, a3, a4⟩ := hf (y, U) (List.mem_cons_self ..) hU.head? (by intro e; rw [e]; rfl) (by
        rcases h2 with rfl | rfl
        · exact .inl rfl
        · exact .inr rfl)
      obtain ⟨vs, zs, b1, b2, b3, b4, b5, b6, b7⟩ := ih hU.tail (by
          rcases h2 with rfl | rfl
          · exact .inl rfl
          · exact .inr rfl) ys (by simpa using hl)
          (fun e he h h3 h4 => hf e (List.mem_cons_of_mem _ he) h (fun e' => h3 (by rw [e']; rfl)) h4)
      refine ⟨v :: vs, z :: zs, by simp only [mapHints, a1, b1, Res.bind_ok], by simp [b2], ?_, ⟨v, vs, rfl, a2.2.1, b4⟩, ?_,
        by simp only [mapTypes, a3, b6, Res.bind_ok], a4, b7⟩
      · show (U.innerValidate cfg v && Ty.innerValidateZip cfg Us vs) = true
        rw [a2.1, b3]; rfl
      · show canon U v :: canonAll Us vs = _
        rw [a2.2.2, b5]

theorem entries_stored {K V : Type} {eq : K → K → Bool} {fk : K → Res Value} {fv : V → Res Value} {gk : Value → Res K} {gv : Value → Res V}
    {P Q : Value → Prop} {R : V → V → Prop} (es : List (K × V))
    (hk : ∀ e ∈ es, ∃ v, fk e.1 = .ok v ∧ P v ∧ gk v = .ok e.1) (hv : ∀ e ∈ es, ∃ v y, fv e.2 = .ok v ∧ Q v ∧ gv v = .ok y ∧ R e.2 y)
    (hd : es.Pairwise (fun a b => eq a.1 b.1 = false)) (out : List (K × V)) (ho : ∀ a ∈ out, ∀ b ∈ es, eq a.1 b.1 = false) :
    ∃ kvs zs, Res.mapL (fun (e : K × V) => fk e.1 >>= fun a => fv e.2 >>= fun b => .ok (a, b)) es = .ok kvs ∧
      (∀ p ∈ kvs, P p.1 ∧ Q p.2) ∧ readEntries eq gk gv out ((kvs.map Prod.fst).zip (kvs.map Prod.snd)) = .ok (out ++ zs) ∧
      Each (fun a b => a.1 = b.1 ∧ R a.2 b.2) es zs := by
  induction es generalizing out with
  | nil => exact ⟨[], [], rfl, fun _ h => (by cases h), by simp [readEntries], trivial⟩
  | cons e es ih =>
    obtain ⟨a, a1, a2, a3⟩ := hk e (List.mem_cons_self ..)
    obtain ⟨b, y, b1, b2, b3, b4⟩ := hv e (List.mem_cons_self ..)
    rw [List.pairwise_cons] at hd
    have hn : mapInsert eq e.1 y out = out ++ [(e.1, y)] := by
      have : ∀ o : List (K × V), (∀ a ∈ o, eq a.1 e.1 = false) → mapInsert eq e.1 y o = o ++ [(e.1, y)] := by
        intro o
        induction o with
        | nil => intro _; rfl
        | cons p o ih =>
          intro h
          show (if eq p.1 e.1 = true then _ else _) = _
          rw [if_neg (by rw [h p (List.mem_cons_self ..)]; exact Bool.false_ne_true), ih fun q hq => h q (List.mem_cons_of_mem _ hq)]
          rfl
      exact this out fun p hp => ho p hp e (List.mem_cons_self ..)
    obtain ⟨kvs, zs, k1, k2, k3, k4⟩ := ih (fun y hy => hk y (List.mem_cons_of_mem _ hy)) (fun y hy => hv y (List.mem_cons_of_mem _ hy)) hd.2
      (out ++ [(e.1, y)]) (by
        intro p hp q hq
        rcases List.mem_append.mp hp with h | h
        · exact ho p h q (List.mem_cons_of_mem _ hq)
        · rw [List.mem_singleton] at h; subst h; exact hd.1 q hq)
    refine ⟨(a, b) :: kvs, (e.1, y) :: zs, by simp only [Res.mapL, a1, b1, k1, Res.bind_ok], ?_, ?_, ⟨rfl, b4⟩, k4⟩
    · intro p hp
      rcases List.mem_cons.mp hp with rfl | hp
      · exact ⟨a2, b2⟩
      · exact k2 p hp
    · simp only [List.map_cons, List.zip_cons_cons, readEntries, a3, b3, Res.bind_ok, hn]
      rw [k3, List.append_assoc]; rfl

theorem map_taken {cfg : Cfg} {K V : Ty} {kvs : List (Value × Value)} (h : ∀ p ∈ kvs, Taken cfg K.stripLowCardinality p.1 ∧ Taken cfg V.stripLowCardinality p.2) :
    Taken cfg (.map K V) (.map (kvs.map Prod.fst) (kvs.map Prod.snd)) := by
  have k1 : ∀ x ∈ kvs.map Prod.fst, Taken cfg K x := by
    intro x hx
    obtain ⟨p, hp, rfl⟩ := List.mem_map.mp hx
    exact taken_strip.mp (h p hp).1
  have k2 : ∀ x ∈ kvs.map Prod.snd, Taken cfg V x := by
    intro x hx
    obtain ⟨p, hp, rfl⟩ := List.mem_map.mp hx
    exact taken_strip.mp (h p hp).2
  refine ⟨?_, ⟨_, _, rfl, by simp, fun x hx => (k1 x hx).2.1, fun x hx => (k2 x hx).2.1⟩, ?_⟩
  · show ((kvs.map Prod.fst).all _ && (kvs.map Prod.snd).all _) = true
    rw [Bool.and_eq_true, List.all_eq_true, List.all_eq_true]
    exact ⟨fun x hx => (k1 x hx).1, fun x hx => (k2 x hx).1⟩
  · show Value.map ((kvs.map Prod.fst).map _) ((kvs.map Prod.snd).map _) = _
    rw [map_id_of fun v hv => (k1 v hv).2.2, map_id_of fun v hv => (k2 v hv).2.2]

variable {ι : Type} {A : ι → Type}

theorem notByte_asBytes {t : Nest ι} (h : isByteType t = false) (xs : List (t.den A)) : t.asBytes A xs = none := by
  cases t <;> first | rfl | skip
  rename_i t
  refine asBytes_other ?_ ?_ xs
  · rintro rfl; cases h
  · rintro rfl; cases h

theorem std_stored {cfg : Cfg} {t : RT} {T : Ty} {hinted : Bool} {h : Option Ty} {x : t.den} (hs : Suits hinted t T) (hh : Hint hinted h T)
    (hw : WellFormed cfg T) (hx : Faithful t T x) (hf : Fitting cfg true t T x) :
    ∃ v, t.toSql h x = .ok v ∧ Taken cfg T v ∧ t.fromSql T v = .ok x := by
  obtain ⟨v, h1, h2⟩ := conv_rt t T hinted h x hs hh hx
  obtain ⟨h3, h4⟩ := fits_core cfg t T hinted h x hs hh hw hx v h1
  exact ⟨v, h1, ⟨h3.mpr (fitting_weaken cfg t T x hf), h4 hf⟩, h2⟩

theorem hint_members {hinted : Bool} {h : Option Ty} {Ts : List Ty} (hh : Hint hinted h (.tuple Ts)) :
    (hinted = true → memberHints h = Ts) ∧ (memberHints h = [] ∨ memberHints h = Ts) := by
  constructor
  · intro e; rw [hh.1 e]; rfl
  · rcases hh.2 with rfl | rfl | rfl
    · exact .inl rfl
    · exact .inr rfl
    · exact .inl rfl

mutual
theorem nest_core (cfg : Cfg) (L : ∀ i, SqlType (A i)) (R : ∀ i, A i → A i → Prop) : ∀ (t : Nest ι) (hinted : Bool) (T : Ty) (x : t.den A),
    Holds cfg L R t hinted T x → WellFormed cfg T → ∀ h, Hint hinted h T →
    ∃ v y, t.toSql L h x = .ok v ∧ (v = .null → NestNull t x) ∧ Taken cfg T v ∧ t.fromSql L T v = .ok y ∧ SameUpTo R t x y
  | .std t, hinted, T, x, hx, hw, h, hh => by
    obtain ⟨hs, hf, hg⟩ := hx
    obtain ⟨v, h1, h2, h3⟩ := std_stored hs hh hw hf hg
    exact ⟨v, x, h1, fun e => nullLike_of_null t h x (by rw [← e]; exact h1), h2, h3, rfl⟩
  | .user i, hinted, T, x, hx, hw, h, hh => by
    obtain ⟨v, y, h1, h2, h3, h4, h5, h6, h7⟩ := hx h hh
    exact ⟨v, y, h1, fun e => absurd e h2, ⟨h3, h4, h5⟩, h6, h7⟩
  | .vec t, hinted, T, xs, hx, hw, h, hh => by
    obtain ⟨hb, S, rfl, hx⟩ := hx
    obtain ⟨vs, ys, h1, h2, h3, h4⟩ := list_stored (f := t.toSql L (elemHint h)) (g := t.fromSql L S.stripLowCardinality)
      (K := Taken cfg S.stripLowCardinality) (R := SameUpTo R t) xs fun x hm => by
        obtain ⟨v, y, k1, _, k2, k3, k4⟩ := nest_core cfg L R t hinted _ x (hx x hm) (wf_strip (wf_array hw)) _ (hint_elem hh)
        exact ⟨v, y, k1, k2, k3, k4⟩
    exact ⟨.array vs, ys, vecToSql_arr h1 fun _ => notByte_asBytes hb xs, fun e => (by cases e), array_taken h2, h3, h4⟩
  | .array t n, hinted, T, xs, hx, hw, h, hh => by
    obtain ⟨S, rfl, hx⟩ := hx
    obtain ⟨vs, ys, h1, h2, h3, h4⟩ := list_stored (f := t.toSql L (elemHint h)) (g := t.fromSql L S.stripLowCardinality)
      (K := Taken cfg S.stripLowCardinality) (R := SameUpTo R t) xs.1 fun x hm => by
        obtain ⟨v, y, k1, _, k2, k3, k4⟩ := nest_core cfg L R t hinted _ x (hx x hm) (wf_strip (wf_array hw)) _ (hint_elem hh)
        exact ⟨v, y, k1, k2, k3, k4⟩
    refine ⟨.array vs, ⟨ys, (each_length h4).symm.trans xs.2⟩, ?_, fun e => (by cases e), array_taken h2, arrayFromSql_ok h3, h4⟩
    show arrayToSql _ _ _ = _
    unfold arrayToSql
    rw [h1]; rfl
  | .option t, hinted, T, x, hx, hw, h, hh => by
    match x with
    | none =>
      obtain ⟨S, rfl, hg⟩ := hx
      exact ⟨.null, none, rfl, fun _ => trivial, ⟨rfl, .inl ⟨rfl, hg⟩, rfl⟩, rfl, trivial⟩
    | some y =>
      obtain ⟨hn, hx⟩ := hx
      rcases hx with ⟨S, rfl, hx⟩ | ⟨hT, hx⟩
      · obtain ⟨v, z, k1, k2, k3, k4, k5⟩ := nest_core cfg L R t _ _ y hx (wf_strip (wf_nullable hw).1) (h.bind Ty.unnull)
          (hint_strip _ (by intro e; rw [hh.1 e]; rfl) (by
            rcases hh.2 with rfl | rfl | rfl
            · exact .inl rfl
            · exact .inr rfl
            · exact .inl rfl))
        have hv : v ≠ .null := fun e => hn (k2 e)
        obtain ⟨k6, k7, k8⟩ := taken_strip.mp k3
        refine ⟨v, some z, k1, fun e => absurd e hv, ⟨?_, .inr k7, by rw [canon_nullable hv]; exact k8⟩, optionFromSql_some hv k4, k5⟩
        show (v.isNull || S.innerValidate cfg v) = true
        rw [k6, Bool.or_true]
      · have e1 : someTy T = T := by cases T <;> first | rfl | cases hT
        have e2 : h.bind Ty.unnull = none := by
          rcases hh.2 with rfl | rfl | rfl
          · rfl
          · cases T <;> first | rfl | cases hT
          · rfl
        obtain ⟨v, z, k1, k2, k3, k4, k5⟩ := nest_core cfg L R t _ _ y hx hw none ⟨(by intro e; cases e), .inl rfl⟩
        have hv : v ≠ .null := fun e => hn (k2 e)
        refine ⟨v, some z, ?_, fun e => absurd e hv, k3, optionFromSql_some hv (by rw [e1]; exact k4), k5⟩
        show t.toSql L (h.bind Ty.unnull) y = _
        rw [e2]; exact k1
  | .box t, hinted, T, x, hx, hw, h, hh => nest_core cfg L R t hinted T x hx hw h hh
  | .vecTuple t, hinted, T, xs, hx, hw, h, hh => by
    obtain ⟨Ts, rfl, hl, hx⟩ := hx
    obtain ⟨m1, m2⟩ := hint_members hh
    obtain ⟨vs, zs, a1, a2, a3, a4, a5, a6, a7⟩ := pairs_stored (cfg := cfg) (f := t.toSql L) (g := t.fromSql L) (R := SameUpTo R t) Ts (memberHints h) m2 xs hl (by
      intro e he h' h3 h4
      obtain ⟨v, y, k1, _, k2, k3, k4⟩ := nest_core cfg L R t hinted e.2 e.1 (hx e he) (wf_tuple hw _ (List.of_mem_zip he).2) h'
        ⟨fun e' => h3 (m1 e'), h4.elim .inl (fun h => .inr (.inl h))⟩
      exact ⟨v, y, k1, k2, k3, k4⟩)
    refine ⟨.tuple vs, zs, ?_, fun e => (by cases e), ⟨a3, ⟨vs, rfl, a4⟩, congrArg Value.tuple a5⟩, ?_, a7⟩
    · show (mapHints _ _ _ >>= _) = _
      rw [a1]; rfl
    · show vecTupleFromSql _ _ _ = _
      unfold vecTupleFromSql
      simp only [a2, if_true]
      exact a6
  | .tuple ts, hinted, T, x, hx, hw, h, hh => by
    obtain ⟨Ts, rfl, hx⟩ := hx
    obtain ⟨m1, m2⟩ := hint_members hh
    obtain ⟨vs, y, a1, a2, a3, a4, a5, a6, a7, a8⟩ := nest_all cfg L R ts hinted Ts x hx (wf_tuple hw) (memberHints h) m1 m2
    refine ⟨.tuple vs, y, ?_, fun e => (by cases e), ⟨a4, ⟨vs, rfl, a5⟩, congrArg Value.tuple a6⟩, ?_, a8⟩
    · show (Nest.toSqls _ _ _ _ >>= _) = _
      rw [a1]; rfl
    · show tupleFromSql _ _ _ _ = _
      unfold tupleFromSql
      simp only [a2, if_true, a2.symm.trans a3]
      exact a7
  | .map k w, hinted, T, es, hx, hw, h, hh => by
    obtain ⟨K, V, rfl, hk, hd, hx⟩ := hx
    have hkh : Hint (hinted && !isLc K) ((h.bind Ty.unmap).map Prod.fst) K.stripLowCardinality := by
      apply hint_strip
      · intro e; rw [hh.1 e]; rfl
      · rcases hh.2 with rfl | rfl | rfl
        · exact .inl rfl
        · exact .inr rfl
        · exact .inl rfl
    have hvh : Hint (hinted && !isLc V) ((h.bind Ty.unmap).map Prod.snd) V.stripLowCardinality := by
      apply hint_strip
      · intro e; rw [hh.1 e]; rfl
      · rcases hh.2 with rfl | rfl | rfl
        · exact .inl rfl
        · exact .inr rfl
        · exact .inl rfl
    obtain ⟨kvs, zs, m1, m2, m3, m4⟩ := entries_stored (eq := k.keyEq) (P := Taken cfg K.stripLowCardinality) (Q := Taken cfg V.stripLowCardinality)
      (R := SameUpTo R w) es
      (fun e he => std_stored hk hkh (wf_strip (wf_map hw).1) (hx e he).1 (hx e he).2.1)
      (fun e he => by
        obtain ⟨v, y, k1, _, k2, k3, k4⟩ := nest_core cfg L R w _ _ e.2 (hx e he).2.2 (wf_strip (wf_map hw).2) _ hvh
        exact ⟨v, y, k1, k2, k3, k4⟩) hd [] (by intro a ha; cases ha)
    refine ⟨.map (kvs.map Prod.fst) (kvs.map Prod.snd), zs, ?_, fun e => (by cases e), map_taken m2, m3, m4⟩
    show mapToSql _ _ _ _ = _
    unfold mapToSql
    rw [m1]; rfl
theorem nest_all (cfg : Cfg) (L : ∀ i, SqlType (A i)) (R : ∀ i, A i → A i → Prop) : ∀ (ts : List (Nest ι)) (hinted : Bool) (Ts : List Ty) (x : Nest.dens A ts),
    HoldsAll cfg L R ts hinted Ts x → (∀ T ∈ Ts, WellFormed cfg T) → ∀ hs : List Ty, (hinted = true → hs = Ts) → (hs = [] ∨ hs = Ts) →
    ∃ vs y, Nest.toSqls L ts hs x = .ok vs ∧ vs.length = Ts.length ∧ vs.length = ts.length ∧ Ty.innerValidateZip cfg Ts vs = true ∧
      StorableAll cfg Ts vs ∧ canonAll Ts vs = vs ∧ Nest.fromSqls L ts Ts vs = .ok y ∧ SameAll R ts x y
  | [], hinted, Ts, x, hx, hw, hs, h1, h2 => by
    cases hx
    exact ⟨[], (), rfl, rfl, rfl, rfl, rfl, rfl, rfl, trivial⟩
  | t :: ts, hinted, Ts, x, hx, hw, hs, h1, h2 => by
    obtain ⟨S, Ss, rfl, hx, hxs⟩ := hx
    obtain ⟨v, y, a1, _, a2, a3, a4⟩ := nest_core cfg L R t _ _ x.1 hx (wf_strip (hw S (List.mem_cons_self ..))) hs.head?
      (hint_strip _ (by intro e; rw [h1 e]; rfl) (by
      rcases h2 with rfl | rfl
      · exact .inl rfl
      · exact .inr rfl))
    obtain ⟨vs, z, b1, b2, b3, b4, b5, b6, b7, b8⟩ := nest_all cfg L R ts hinted Ss x.2 hxs (fun T hT => hw T (List.mem_cons_of_mem _ hT)) hs.tail
      (by intro e; rw [h1 e]; rfl) (by
      rcases h2 with rfl | rfl
      · exact .inl rfl
      · exact .inr rfl)
    obtain ⟨c1, c2, c3⟩ := taken_strip.mp a2
    refine ⟨v :: vs, (y, z), ?_, by simp [b2], by simp [b3], ?_, ⟨v, vs, rfl, c2, b5⟩, ?_, ?_, a4, b8⟩
    · simp only [Nest.toSqls, a1, b1, Res.bind_ok]
    · show (S.innerValidate cfg v && Ty.innerValidateZip cfg Ss vs) = true
      rw [c1, b4]; rfl
    · show canon S v :: canonAll Ss vs = _
      rw [c3, b6]
    · simp only [Nest.fromSqls, a3, b7, Res.bind_ok]
end

/-- C104: a container, nested to any depth, of values that are stored each by the column of its place is itself converted, passes the check made
before sending, is stored and kept by the column, and is read back the same, up to what the conversions of the user types make of theirs. -/
theorem C104_stored (cfg : Cfg) (L : ∀ i, SqlType (A i)) (R : ∀ i, A i → A i → Prop) (t : Nest ι) (T : Ty) (hT : T.validate = true)
    (hw : WellFormed cfg T) (x : t.den A) (hx : Holds cfg L R t (!isLc T) T.stripLowCardinality x) :
    ∃ v y, t.toSql L (some T) x = .ok v ∧ T.validateValue cfg v = true ∧ Storable cfg T v ∧ canon T v = v ∧
      t.fromSql L T.stripLowCardinality v = .ok y ∧ SameUpTo R t x y := by
  obtain ⟨v, y, h1, _, h2, h3, h4⟩ := nest_core cfg L R t _ _ x hx (wf_strip hw) (some T) (hint_column T)
  obtain ⟨k1, k2, k3⟩ := taken_strip.mp h2
  refine ⟨v, y, h1, ?_, k2, k3, h3, h4⟩
  unfold Ty.validateValue
  rw [hT, Bool.true_and, k1]

/-- C104: the same for a column of them, through the wire. -/
theorem C104_column (cfg : Cfg) (L : ∀ i, SqlType (A i)) (R : ∀ i, A i → A i → Prop) (t : Nest ι) (T : Ty) (hT : T.validate = true)
    (hw : WellFormed cfg T) (xs : List (t.den A)) (hx : ∀ x ∈ xs, Holds cfg L R t (!isLc T) T.stripLowCardinality x)
    (hfit : ∀ vs, Res.mapL (t.toSql L (some T)) xs = .ok vs → Fits T vs) :
    ∃ vs b, Res.mapL (t.toSql L (some T)) xs = .ok vs ∧ (∀ v ∈ vs, T.validateValue cfg v = true) ∧ serCol cfg T vs = .ok b ∧ ∀ rest, ∃ ws ys,
      deCol cfg T xs.length (b ++ rest) = .ok (ws, rest) ∧ Res.mapL (t.fromSql L T.stripLowCardinality) ws = .ok ys ∧ Each (SameUpTo R t) xs ys := by
  obtain ⟨vs, ys, h1, h2, h3, h4⟩ := list_stored (f := t.toSql L (some T)) (g := t.fromSql L T.stripLowCardinality)
    (K := fun v => T.validateValue cfg v = true ∧ Storable cfg T v ∧ canon T v = v) (R := SameUpTo R t) xs fun x hm => by
      obtain ⟨v, y, k1, k2, k3, k4, k5, k6⟩ := C104_stored cfg L R t T hT hw x (hx x hm)
      exact ⟨v, y, k1, ⟨k2, k3, k4⟩, k5, k6⟩
  have hl : vs.length = xs.length := Res.mapL_length h1
  obtain ⟨b, h5, h6⟩ := col_rt cfg T hw vs (fun v hv => (h2 v hv).2.1) (hfit vs h1)
  refine ⟨vs, b, h1, fun v hv => (h2 v hv).1, h5, fun rest => ⟨vs, ys, ?_, h3, h4⟩⟩
  rw [← hl, h6 rest, map_id_of fun v hv => (h2 v hv).2.2]

/-- C104: `chrono` times from 1970 on are stored by `DateTime64(6)` columns of their zone, to the microsecond. -/
theorem C104_chrono (cfg : Cfg) (hinted : Bool) (tz : Tz) (i : Inst) (hv : Inst.Valid i) (h0 : 0 ≤ i.secs) (hr : Inst.ns i < (chronoMax + 1) * 10 ^ 9) :
    StoredAs cfg (chronoType cfg) (fun x y => y.1 = x.1 ∧ Inst.ns y.2 = truncNs 6 (Inst.ns x.2)) hinted (.dateTime64 6 tz) (tz, i) := by
  intro h _
  obtain ⟨v, j, h1, h2, h3⟩ := C48_chrono_roundtrip_partial cfg tz i hv h0 hr
  have hval := (C103_chrono cfg tz i v h1 (.dateTime64 6 tz) rfl).mpr rfl
  obtain ⟨x, h4, _⟩ := (C48_chrono_to_sql tz i hv).1 h0
  rw [h1] at h4
  cases h4
  refine ⟨_, (tz, j), h1, (by intro e; cases e), ?_, ⟨x, rfl⟩, rfl, h2, rfl, h3⟩
  unfold Ty.validateValue at hval
  exact (Bool.and_eq_true _ _ ▸ hval).2

/-- C104: a `Decimal` is stored by a decimal column with room for it, if the writer is told the column's type. -/
theorem C104_decimal (cfg : Cfg) (d : Decimal) (T : Ty) (hv : T.validate = true) (w p : Nat) (hT : decimalCol T = some (w, p)) (hs : d.scale ≤ p)
    (hp : p ≤ 28) (hb : InBits w (d.mantissa * 10 ^ (p - d.scale))) (h96 : (d.mantissa * 10 ^ (p - d.scale)).natAbs < 2 ^ 96) :
    StoredAs cfg (decimalType cfg) (fun x y => SameNumber y.mantissa y.scale x.mantissa x.scale) true T d := by
  intro h hh
  cases hh.1 rfl
  obtain ⟨v, e, h1, h2, h3⟩ := C51_roundtrip_partial cfg d T w p hT hs hp hb h96
  obtain ⟨v', k1, k2, k3, k4⟩ := C103_decimal cfg d T hv w p hT hs (by omega) hb
  rw [h1] at k1
  cases k1
  refine ⟨v, e, h1, ?_, ?_, k3, k4, h2, h3⟩
  · rintro rfl
    cases T <;> first
      | (cases hT; done)
      | (obtain ⟨x, e⟩ := k3; cases e)
  · unfold Ty.validateValue at k2
    exact (Bool.and_eq_true _ _ ▸ k2).2

/-- C104: a `Json` value that serde_json keeps is stored by `String` columns, as long as its text is not over 2^30 bytes. -/
theorem C104_json {α : Type} (cfg : Cfg) (j : SerdeJson α) (hinted : Bool) (x : α) (hk : JsonKeeps j x)
    (hl : ∀ s, j.toString x = some s → (utf8Encode s).length ≤ 2 ^ 30) : StoredAs cfg (jsonType j) (fun x y => x = y) hinted .string x := by
  intro h _
  obtain ⟨s, s1, s2⟩ := hk
  refine ⟨.string (utf8Encode s), x, ?_, (by intro e; cases e), rfl, .inl ⟨_, rfl, hl s s1⟩, rfl, ?_, rfl⟩
  · show jsonToSql j h x = _
    unfold jsonToSql; rw [s1]
  · show jsonFromSql j .string _ = _
    unfold jsonFromSql
    simp only [stringFromSql, utf8Decode_encode, Res.bind_ok, s2]

/-- Two user types for the examples: times and decimals. -/
def ExUser : Bool → Type
  | false => Tz × Inst
  | true => Decimal
/-- Their conversions. -/
def exUsers (cfg : Cfg) : ∀ i, SqlType (ExUser i)
  | false => chronoType cfg
  | true => decimalType cfg
/-- What they keep. -/
def exKeeps : ∀ i, ExUser i → ExUser i → Prop
  | false => fun (x y : Tz × Inst) => y.1 = x.1 ∧ Inst.ns y.2 = truncNs 6 (Inst.ns x.2)
  | true => fun (x y : Decimal) => SameNumber y.mantissa y.scale x.mantissa x.scale

/-- `HashMap<String, Vec<(Option<DateTime<Utc>>, Decimal)>>`, -/
def exNest : Nest Bool := .map .string (.vec (.tuple [.option (.user false), .user true]))
/-- a column for it, -/
def exNestTy : Ty := .map .string (.array (.tuple [.nullable (.dateTime64 6 tzUTC), .decimal32 4]))
/-- and a value: one entry, two pairs. -/
def exNested : exNest.den ExUser := [(ch! "k", [(some (tzUTC, (⟨0, 1500⟩ : Inst)), (⟨15, 1⟩ : Decimal), ()), (none, (⟨-7, 0⟩ : Decimal), ())])]

theorem exNested_holds (cfg : Cfg) : Holds cfg (exUsers cfg) exKeeps exNest (!isLc exNestTy) exNestTy.stripLowCardinality exNested := by
  refine ⟨.string, _, rfl, .inl rfl, List.pairwise_singleton _ _, ?_⟩
  intro e he
  obtain rfl := List.mem_singleton.mp he
  refine ⟨trivial, fun _ => ⟨fun _ => (by decide), fun n e => (by cases e)⟩, rfl, _, rfl, ?_⟩
  have two : ∀ d : Decimal, d.scale ≤ 4 → InBits 32 (d.mantissa * 10 ^ (4 - d.scale)) → (d.mantissa * 10 ^ (4 - d.scale)).natAbs < 2 ^ 96 →
      Holds cfg (exUsers cfg) exKeeps (.user true) true (.decimal32 4) d :=
    fun d h1 h2 h3 => C104_decimal cfg d (.decimal32 4) rfl 32 4 rfl h1 (by decide) h2 h3
  intro x hx
  rcases List.mem_cons.mp hx with rfl | hx
  · refine ⟨_, rfl, _, _, rfl, ⟨(by intro h; cases h), .inl ⟨_, rfl, ?_⟩⟩, _, _, rfl, ?_, rfl⟩
    · exact C104_chrono cfg _ tzUTC ⟨0, 1500⟩ (by unfold Inst.Valid; decide) (by decide) (by decide)
    · exact two ⟨15, 1⟩ (by decide) (by unfold InBits; decide) (by decide)
  · obtain rfl := List.mem_singleton.mp hx
    exact ⟨_, rfl, _, _, rfl, ⟨_, rfl, rfl⟩, _, _, rfl, two ⟨-7, 0⟩ (by decide) (by unfold InBits; decide) (by decide), rfl⟩

example (cfg : Cfg) : ∃ v y, exNest.toSql (exUsers cfg) (some exNestTy) exNested = .ok v ∧
    exNestTy.validateValue cfg v = true ∧ exNest.fromSql (exUsers cfg) exNestTy v = .ok y ∧ SameUpTo exKeeps exNest exNested y := by
  obtain ⟨v, y, h1, h2, _, _, h3, h4⟩ := C104_stored cfg (exUsers cfg) exKeeps exNest exNestTy rfl
    (.map .string (.array (.tuple (by
      intro T hT
      rcases List.mem_cons.mp hT with rfl | hT
      · exact .nullable rfl .dateTime64
      · obtain rfl := List.mem_singleton.mp hT
        exact .decimal32)))) exNested (exNested_holds cfg)
  exact ⟨v, y, h1, h2, h3, h4⟩

/-- A `Json` inside: `Vec<Option<Json<bool>>>` in an `Array(Nullable(String))`. -/
example (cfg : Cfg) (j : SerdeJson Bool) (hj : ∀ b, JsonKeeps j b) (hl : ∀ b s, j.toString b = some s → (utf8Encode s).length ≤ 2 ^ 30)
    (xs : List (Option Bool)) :
    Holds (A := fun _ : Unit => Bool) cfg (fun _ => jsonType j) (fun _ x y => x = y) (.vec (.option (.user ()))) true (.array (.nullable .string)) xs := by
  refine ⟨rfl, _, rfl, ?_⟩
  intro x _
  cases x with
  | none => exact ⟨_, rfl, rfl⟩
  | some b => exact ⟨(by intro h; cases h), .inl ⟨_, rfl, C104_json cfg j _ b (hj b) (hl b)⟩⟩

end Props
end Klick
