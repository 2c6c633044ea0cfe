import Verif.Spec.Refuse
import Verif.Props.Convert
/-
C91: what the error of a failed conversion says.
-/
namespace Klick.Props
open Klick Spec

theorem shapedAll_mem : ∀ (Ts : List Ty) (vs : List Value), ShapedAll Ts vs → ∀ e ∈ Ts.zip vs, Shaped e.1 e.2
  | [], _, _, e, he => by cases he
  | T :: Ts, vs, h, e, he => by
    obtain ⟨x, xs, rfl, h1, h2⟩ := h
    rcases List.mem_cons.mp he with rfl | he
    · exact h1
    · exact shapedAll_mem Ts xs h2 e he

theorem shapedAll_strip_mem : ∀ (Ts : List Ty) (vs : List Value), ShapedAll Ts vs →
    ∀ e ∈ (Ts.map Ty.stripLowCardinality).zip vs, Shaped e.1 e.2
  | [], _, _, e, he => by cases he
  | T :: Ts, vs, h, e, he => by
    obtain ⟨x, xs, rfl, h1, h2⟩ := h
    rcases List.mem_cons.mp he with rfl | he
    · exact shaped_strip h1
    · exact shapedAll_strip_mem Ts xs h2 e he

/-- The parts of a value of the column are values of their columns. -/
theorem _root_.Klick.Spec.Parts.shaped {r : RT} {T : Ty} {v : Value} {ps : List Portion} (h : Parts r T v ps) (hs : Shaped T v) :
    ∀ p ∈ ps, Shaped p.2.1 p.2.2 := by
  intro p hp
  cases h with
  | scalar _ => cases hp
  | string _ _ => cases hp
  | bytes _ => cases hp
  | value => cases hp
  | null => cases hp
  | vec =>
    obtain ⟨xs, e, hx⟩ := hs
    cases e
    obtain ⟨x, hx', rfl⟩ := List.mem_map.mp hp
    exact shaped_strip (hx x hx')
  | array _ =>
    obtain ⟨xs, e, hx⟩ := hs
    cases e
    obtain ⟨x, hx', rfl⟩ := List.mem_map.mp hp
    exact shaped_strip (hx x hx')
  | nullable hv =>
    cases List.mem_singleton.mp hp
    rcases hs with hs | hs
    · exact absurd hs hv
    · exact shaped_strip hs
  | plain _ _ => cases List.mem_singleton.mp hp; exact hs
  | box => cases List.mem_singleton.mp hp; exact hs
  | vecTuple hl =>
    obtain ⟨xs, e, hx⟩ := hs
    cases e
    obtain ⟨x, hx', rfl⟩ := List.mem_map.mp hp
    exact shapedAll_mem _ _ (hx hl) x hx'
  | tuple hl _ =>
    obtain ⟨xs, e, hx⟩ := hs
    cases e
    exact shapedAll_strip_mem _ _ (hx hl) _ (List.of_mem_zip hp).2
  | map =>
    obtain ⟨ks, vs, e, _, hk, hv⟩ := hs
    cases e
    obtain ⟨x, hx, hp⟩ := List.mem_flatMap.mp hp
    have hm := List.of_mem_zip hx
    simp only [List.mem_cons, List.not_mem_nil, or_false] at hp
    rcases hp with rfl | rfl
    · exact shaped_strip (hk _ hm.1)
    · exact shaped_strip (hv _ hm.2)

/-- The parts are read as simpler types. -/
theorem _root_.Klick.Spec.Parts.smaller {r : RT} {T : Ty} {v : Value} {ps : List Portion} (h : Parts r T v ps) :
    ∀ p ∈ ps, sizeOf p.1 < sizeOf r := by
  intro p hp
  cases h with
  | scalar _ => cases hp
  | string _ _ => cases hp
  | bytes _ => cases hp
  | value => cases hp
  | null => cases hp
  | vec => obtain ⟨x, hx', rfl⟩ := List.mem_map.mp hp; simp
  | array _ => obtain ⟨x, hx', rfl⟩ := List.mem_map.mp hp; simp; omega
  | nullable hv => cases List.mem_singleton.mp hp; simp
  | plain _ _ => cases List.mem_singleton.mp hp; simp
  | box => cases List.mem_singleton.mp hp; simp
  | vecTuple hl => obtain ⟨x, hx', rfl⟩ := List.mem_map.mp hp; simp
  | tuple hl _ =>
    have := List.sizeOf_lt_of_mem (List.of_mem_zip hp).1
    simp; omega
  | map =>
    obtain ⟨x, hx, hp⟩ := List.mem_flatMap.mp hp
    simp only [List.mem_cons, List.not_mem_nil, or_false] at hp
    rcases hp with rfl | rfl <;> simp <;> omega

/-- On its own level a value is either as wanted or it is not. -/
theorem parts_or_misfit (r : RT) (T : Ty) (v : Value) (hs : Shaped T v) :
    (∃ ps, Parts r T v ps) ∨ ∃ e, Misfit r T v e := by
  cases r with
  | prim p =>
    by_cases hc : Column p T
    · exact .inl ⟨_, .scalar hc⟩
    · exact .inr ⟨_, .scalar hc⟩
  | string =>
    by_cases ht : Textual T
    · have : ∃ b, v = .string b := by
        rcases ht with rfl | ⟨n, rfl⟩
        · exact hs
        · exact hs
      obtain ⟨b, rfl⟩ := this
      by_cases hb : ∃ s, b = utf8Encode s
      · obtain ⟨s, rfl⟩ := hb; exact .inl ⟨_, .string s ht⟩
      · exact .inr ⟨_, .utf8 ht (fun s e => hb ⟨s, e⟩)⟩
    · exact .inr ⟨_, .string ht⟩
  | bytes =>
    by_cases ht : Textual T ∨ ByteArray T
    · exact .inl ⟨_, .bytes ht⟩
    · exact .inr ⟨_, .bytes ht⟩
  | value => exact .inl ⟨_, .value⟩
  | vec t =>
    by_cases ht : ∃ S, T = .array S
    · obtain ⟨S, rfl⟩ := ht
      obtain ⟨xs, rfl, _⟩ := hs
      exact .inl ⟨_, .vec⟩
    · exact .inr ⟨_, .vec (fun S e => ht ⟨S, e⟩)⟩
  | array t n =>
    by_cases ht : ∃ S, T = .array S
    · obtain ⟨S, rfl⟩ := ht
      obtain ⟨xs, rfl, _⟩ := hs
      by_cases hl : xs.length = n
      · exact .inl ⟨_, .array hl⟩
      · exact .inr ⟨_, .arrayLength hl⟩
    · exact .inr ⟨_, .array (fun S e => ht ⟨S, e⟩)⟩
  | option t =>
    by_cases hv : v = .null
    · subst hv; exact .inl ⟨_, .null⟩
    · by_cases ht : ∃ S, T = .nullable S
      · obtain ⟨S, rfl⟩ := ht; exact .inl ⟨_, .nullable hv⟩
      · exact .inl ⟨_, .plain hv (fun S e => ht ⟨S, e⟩)⟩
  | box t => exact .inl ⟨_, .box⟩
  | vecTuple t =>
    by_cases ht : ∃ S, T = .tuple S
    · obtain ⟨S, rfl⟩ := ht
      obtain ⟨xs, rfl, _⟩ := hs
      by_cases hl : xs.length = S.length
      · exact .inl ⟨_, .vecTuple hl⟩
      · exact .inr ⟨_, .vecTupleLength hl⟩
    · exact .inr ⟨_, .vecTuple (fun S e => ht ⟨S, e⟩)⟩
  | tuple ts =>
    by_cases ht : ∃ S, T = .tuple S
    · obtain ⟨S, rfl⟩ := ht
      obtain ⟨xs, rfl, _⟩ := hs
      by_cases hl : xs.length = S.length
      · by_cases hn : xs.length = ts.length
        · exact .inl ⟨_, .tuple hl hn⟩
        · exact .inr ⟨_, .tupleMembers hl hn⟩
      · exact .inr ⟨_, .tupleLength hl⟩
    · exact .inr ⟨_, .tuple (fun S e => ht ⟨S, e⟩)⟩
  | map k w =>
    by_cases ht : ∃ K V, T = .map K V
    · obtain ⟨K, V, rfl⟩ := ht
      obtain ⟨ks, vs, rfl, _⟩ := hs
      exact .inl ⟨_, .map⟩
    · exact .inr ⟨_, .map (fun K V e => ht ⟨K, V, e⟩)⟩

theorem tupleFromSql_members {α : Type} {n : Nat} {Ts : List Ty} {vs : List Value} (hl : vs.length = Ts.length)
    (hn : vs.length ≠ n) (f : List Ty → List Value → Res α) :
    tupleFromSql n f (.tuple Ts) (.tuple vs) = .err (lengthErr n vs.length) := by
  simp only [tupleFromSql, if_pos hl, if_neg hn]

theorem tupleFromSql_fits {α : Type} {n : Nat} {Ts : List Ty} {vs : List Value} (hl : vs.length = Ts.length)
    (hn : vs.length = n) (f : List Ty → List Value → Res α) :
    tupleFromSql n f (.tuple Ts) (.tuple vs) = f Ts vs := by
  simp only [tupleFromSql, if_pos hl, if_pos hn]

/-- A misfit is that error. -/
theorem _root_.Klick.Spec.Misfit.error {r : RT} {T : Ty} {v : Value} {e : Err} (h : Misfit r T v e) : r.fromSql T v = .err e := by
  cases h with
  | scalar hc => exact prim_fromSql_other hc _
  | string hc =>
    show stringFromSql T v = _
    cases T <;> first
      | rfl
      | exact absurd (.inl rfl) hc
      | exact absurd (.inr ⟨_, rfl⟩) hc
  | utf8 ht hb =>
    rename_i b
    have hd : utf8Decode b = none := by
      cases hd : utf8Decode b with
      | none => rfl
      | some s => exact absurd (utf8Decode_eq_some hd) (hb s)
    show stringFromSql T _ = _
    rcases ht with rfl | ⟨n, rfl⟩ <;> (simp only [stringFromSql, hd]; rfl)
  | bytes hc =>
    show bytesFromSql T v = _
    cases T <;> first
      | rfl
      | exact absurd (.inl (.inl rfl)) hc
      | exact absurd (.inl (.inr ⟨_, rfl⟩)) hc
      | (rename_i S
         cases S <;> first
           | rfl
           | exact absurd (.inr (.inl rfl)) hc
           | exact absurd (.inr (.inr rfl)) hc)
  | vec hc => cases T <;> first | rfl | exact absurd rfl (hc _)
  | array hc => cases T <;> first | rfl | exact absurd rfl (hc _)
  | arrayLength hl => simp only [RT.fromSql, arrayFromSql, if_neg hl]; rfl
  | vecTuple hc => cases T <;> first | rfl | exact absurd rfl (hc _)
  | vecTupleLength hl => simp only [RT.fromSql, vecTupleFromSql, if_neg hl]; rfl
  | tuple hc => cases T <;> first | rfl | exact absurd rfl (hc _)
  | tupleLength hl => simp only [RT.fromSql, tupleFromSql, if_neg hl]; rfl
  | tupleMembers hl hn => exact (tupleFromSql_members hl hn _)
  | map hc => cases T <;> first | rfl | exact absurd rfl (hc _ _)

/-- This part is read. -/
def Reads (p : Portion) : Prop := ∃ x, p.1.fromSql p.2.1 p.2.2 = .ok x

/-! Reading a list of parts: all are read, or the error is that of the first which is not. -/

theorem mapL_reads {t : RT} {S : Ty} : ∀ (vs : List Value),
    (∀ p ∈ vs.map (fun v => ((t, S, v) : Portion)), Reads p) → ∃ xs, Res.mapL (t.fromSql S) vs = .ok xs
  | [], _ => ⟨[], rfl⟩
  | v :: vs, h => by
    obtain ⟨x, hx⟩ := h (t, S, v) (List.mem_cons_self ..)
    obtain ⟨xs, hxs⟩ := mapL_reads vs (fun p hp => h p (List.mem_cons_of_mem _ hp))
    have hx : t.fromSql S v = .ok x := hx
    exact ⟨x :: xs, by simp only [Res.mapL, hx, hxs, Res.bind_ok]⟩

theorem mapL_refuses {t : RT} {S : Ty} {r' : RT} {T' : Ty} {v' : Value} {e : Err} {post : List Portion} :
    ∀ (vs : List Value) (pre : List Portion),
      vs.map (fun v => ((t, S, v) : Portion)) = pre ++ (r', T', v') :: post → (∀ p ∈ pre, Reads p) → r'.fromSql T' v' = .err e →
      Res.mapL (t.fromSql S) vs = .err e
  | [], pre, h, _, _ => by cases pre <;> cases h
  | v :: vs, [], h, _, he => by
    have h1 := (List.cons.inj h).1
    cases h1
    simp only [Res.mapL, he]; rfl
  | v :: vs, p :: pre, h, hr, he => by
    have h1 := (List.cons.inj h).1
    subst h1
    obtain ⟨x, hx⟩ := hr _ (List.mem_cons_self ..)
    have hx : t.fromSql S v = .ok x := hx
    have := mapL_refuses vs pre (List.cons.inj h).2 (fun p hp => hr p (List.mem_cons_of_mem _ hp)) he
    simp only [Res.mapL, hx, this, Res.bind_ok]; rfl

theorem mapTypes_reads {t : RT} : ∀ (Ts : List Ty) (vs : List Value),
    (∀ p ∈ (Ts.zip vs).map (fun e => ((t, e.1, e.2) : Portion)), Reads p) → ∃ xs, mapTypes t.fromSql Ts vs = .ok xs
  | [], _, _ => ⟨[], by simp [mapTypes]⟩
  | T :: Ts, [], _ => ⟨[], by simp [mapTypes]⟩
  | T :: Ts, v :: vs, h => by
    obtain ⟨x, hx⟩ := h (t, T, v) (List.mem_cons_self ..)
    obtain ⟨xs, hxs⟩ := mapTypes_reads Ts vs (fun p hp => h p (List.mem_cons_of_mem _ hp))
    have hx : t.fromSql T v = .ok x := hx
    exact ⟨x :: xs, by simp only [mapTypes, hx, hxs, Res.bind_ok]⟩

theorem mapTypes_refuses {t : RT} {r' : RT} {T' : Ty} {v' : Value} {e : Err} {post : List Portion} :
    ∀ (Ts : List Ty) (vs : List Value) (pre : List Portion),
      (Ts.zip vs).map (fun e => ((t, e.1, e.2) : Portion)) = pre ++ (r', T', v') :: post → (∀ p ∈ pre, Reads p) →
      r'.fromSql T' v' = .err e → mapTypes t.fromSql Ts vs = .err e
  | [], _, pre, h, _, _ => by cases pre <;> cases h
  | T :: Ts, [], pre, h, _, _ => by cases pre <;> cases h
  | T :: Ts, v :: vs, [], h, _, he => by
    have h1 := (List.cons.inj h).1
    cases h1
    simp only [mapTypes, he]; rfl
  | T :: Ts, v :: vs, p :: pre, h, hr, he => by
    have h1 := (List.cons.inj h).1
    subst h1
    obtain ⟨x, hx⟩ := hr _ (List.mem_cons_self ..)
    have hx : t.fromSql T v = .ok x := hx
    have := mapTypes_refuses Ts vs pre (List.cons.inj h).2 (fun p hp => hr p (List.mem_cons_of_mem _ hp)) he
    simp only [mapTypes, hx, this, Res.bind_ok]; rfl

theorem fromSqls_reads : ∀ (ts : List RT) (Ts : List Ty) (vs : List Value), vs.length = Ts.length → vs.length = ts.length →
    (∀ p ∈ ts.zip ((Ts.map Ty.stripLowCardinality).zip vs), Reads p) → ∃ xs, RT.fromSqls ts Ts vs = .ok xs
  | [], _, _, _, _, _ => ⟨(), by simp only [RT.fromSqls]⟩
  | t :: ts, [], vs, hl, hn, _ => by cases vs <;> simp at hl hn
  | t :: ts, T :: Ts, [], hl, _, _ => by simp at hl
  | t :: ts, T :: Ts, v :: vs, hl, hn, h => by
    obtain ⟨x, hx⟩ := h (t, T.stripLowCardinality, v) (List.mem_cons_self ..)
    obtain ⟨xs, hxs⟩ := fromSqls_reads ts Ts vs (by simpa using hl) (by simpa using hn)
      (fun p hp => h p (List.mem_cons_of_mem _ hp))
    have hx : t.fromSql T.stripLowCardinality v = .ok x := hx
    exact ⟨(x, xs), by simp only [RT.fromSqls, hx, hxs, Res.bind_ok]⟩

theorem fromSqls_refuses {r' : RT} {T' : Ty} {v' : Value} {e : Err} {post : List Portion} :
    ∀ (ts : List RT) (Ts : List Ty) (vs : List Value) (pre : List Portion),
      ts.zip ((Ts.map Ty.stripLowCardinality).zip vs) = pre ++ (r', T', v') :: post → (∀ p ∈ pre, Reads p) →
      r'.fromSql T' v' = .err e → RT.fromSqls ts Ts vs = .err e
  | [], _, _, pre, h, _, _ => by cases pre <;> cases h
  | t :: ts, [], _, pre, h, _, _ => by cases pre <;> cases h
  | t :: ts, T :: Ts, [], pre, h, _, _ => by cases pre <;> cases h
  | t :: ts, T :: Ts, v :: vs, [], h, _, he => by
    have h1 := (List.cons.inj h).1
    cases h1
    simp only [RT.fromSqls, he]; rfl
  | t :: ts, T :: Ts, v :: vs, p :: pre, h, hr, he => by
    have h1 := (List.cons.inj h).1
    subst h1
    obtain ⟨x, hx⟩ := hr _ (List.mem_cons_self ..)
    have hx : t.fromSql T.stripLowCardinality v = .ok x := hx
    have := fromSqls_refuses ts Ts vs pre (List.cons.inj h).2 (fun p hp => hr p (List.mem_cons_of_mem _ hp)) he
    simp only [RT.fromSqls, hx, this, Res.bind_ok]; rfl

theorem entries_reads {k w : RT} {K V : Ty} {eq : k.den → k.den → Bool} : ∀ (es : List (Value × Value)) (out : List (k.den × w.den)),
    (∀ p ∈ es.flatMap (fun e => [((k, K, e.1) : Portion), (w, V, e.2)]), Reads p) →
    ∃ xs, readEntries eq (k.fromSql K) (w.fromSql V) out es = .ok xs
  | [], out, _ => ⟨out, rfl⟩
  | (a, b) :: es, out, h => by
    obtain ⟨x, hx⟩ := h (k, K, a) (List.mem_cons_self ..)
    obtain ⟨y, hy⟩ := h (w, V, b) (List.mem_cons_of_mem _ (List.mem_cons_self ..))
    have hx : k.fromSql K a = .ok x := hx
    have hy : w.fromSql V b = .ok y := hy
    obtain ⟨xs, hxs⟩ := entries_reads es (mapInsert eq x y out)
      (fun p hp => h p (List.mem_cons_of_mem _ (List.mem_cons_of_mem _ hp)))
    refine ⟨xs, ?_⟩
    simp only [readEntries, hx, hy, Res.bind_ok]
    exact hxs

theorem entries_refuses {k w : RT} {K V : Ty} {eq : k.den → k.den → Bool} {r' : RT} {T' : Ty} {v' : Value} {e : Err}
    {post : List Portion} : ∀ (es : List (Value × Value)) (out : List (k.den × w.den)) (pre : List Portion),
      es.flatMap (fun e => [((k, K, e.1) : Portion), (w, V, e.2)]) = pre ++ (r', T', v') :: post → (∀ p ∈ pre, Reads p) →
      r'.fromSql T' v' = .err e → readEntries eq (k.fromSql K) (w.fromSql V) out es = .err e
  | [], _, pre, h, _, _ => by cases pre <;> cases h
  | (a, b) :: es, out, [], h, _, he => by
    have h1 := (List.cons.inj h).1
    cases h1
    simp only [readEntries, he]; rfl
  | (a, b) :: es, out, [p], h, hr, he => by
    have h1 := (List.cons.inj h).1
    subst h1
    have h2 := (List.cons.inj (List.cons.inj h).2).1
    cases h2
    obtain ⟨x, hx⟩ := hr _ (List.mem_cons_self ..)
    have hx : k.fromSql K a = .ok x := hx
    simp only [readEntries, hx, he, Res.bind_ok]; rfl
  | (a, b) :: es, out, p :: q :: pre, h, hr, he => by
    have h1 := (List.cons.inj h).1
    subst h1
    have h2 := (List.cons.inj (List.cons.inj h).2).1
    subst h2
    obtain ⟨x, hx⟩ := hr _ (List.mem_cons_self ..)
    obtain ⟨y, hy⟩ := hr _ (List.mem_cons_of_mem _ (List.mem_cons_self ..))
    have hx : k.fromSql K a = .ok x := hx
    have hy : w.fromSql V b = .ok y := hy
    have := entries_refuses (eq := eq) es (mapInsert eq x y out) pre (List.cons.inj (List.cons.inj h).2).2
      (fun p hp => hr p (List.mem_cons_of_mem _ (List.mem_cons_of_mem _ hp))) he
    simp only [readEntries, hx, hy, this, Res.bind_ok]

theorem optionFromSql_some' {α : Type} {f : Ty → Value → Res α} {T : Ty} {v : Value} (hv : v ≠ .null) :
    optionFromSql f T v = (f (optionSub T) v >>= fun x => .ok (some x)) := by
  cases v <;> first | exact absurd rfl hv | rfl

/-- When all the parts are read, the whole is. -/
theorem _root_.Klick.Spec.Parts.reads {r : RT} {T : Ty} {v : Value} {ps : List Portion} (h : Parts r T v ps) (hs : Shaped T v)
    (hr : ∀ p ∈ ps, Reads p) : ∃ x, r.fromSql T v = .ok x := by
  cases h with
  | scalar hc =>
    obtain ⟨x, hx, _⟩ := prim_fromSql_column hc hs
    exact ⟨x, hx⟩
  | string s ht =>
    refine ⟨s, ?_⟩
    show stringFromSql T _ = _
    rcases ht with rfl | ⟨n, rfl⟩ <;> (simp only [stringFromSql, utf8Decode_encode]; rfl)
  | bytes ht =>
    show ∃ x, bytesFromSql T v = .ok x
    rcases ht with (rfl | ⟨n, rfl⟩) | rfl | rfl
    · obtain ⟨b, rfl⟩ := hs; exact ⟨b, rfl⟩
    · obtain ⟨b, rfl⟩ := hs; exact ⟨b, rfl⟩
    · obtain ⟨xs, rfl, hx⟩ := hs
      simp only [bytesFromSql]
      clear hr
      induction xs with
      | nil => exact ⟨[], rfl⟩
      | cons y ys ih =>
        obtain ⟨b, rfl⟩ := hx y (List.mem_cons_self ..)
        obtain ⟨bs, hb⟩ := ih (fun z hz => hx z (List.mem_cons_of_mem _ hz))
        exact ⟨b :: bs, by simp only [Res.mapL, bytesElem, hb, Res.bind_ok]⟩
    · obtain ⟨xs, rfl, hx⟩ := hs
      simp only [bytesFromSql]
      clear hr
      induction xs with
      | nil => exact ⟨[], rfl⟩
      | cons y ys ih =>
        obtain ⟨b, rfl⟩ := hx y (List.mem_cons_self ..)
        obtain ⟨bs, hb⟩ := ih (fun z hz => hx z (List.mem_cons_of_mem _ hz))
        exact ⟨b :: bs, by simp only [Res.mapL, bytesElem, hb, Res.bind_ok]⟩
  | value => exact ⟨v, rfl⟩
  | vec => exact mapL_reads _ hr
  | array hl =>
    rename_i t n S vs
    obtain ⟨xs, hx⟩ := mapL_reads vs hr
    refine ⟨⟨xs, (Res.mapL_length hx).trans hl⟩, ?_⟩
    simp only [RT.fromSql, arrayFromSql, if_pos hl, hx, Res.bind_ok]
    unfold withLength
    rw [dif_pos ((Res.mapL_length hx).trans hl)]
    rfl
  | null => exact ⟨none, rfl⟩
  | nullable hv =>
    obtain ⟨x, hx⟩ := hr _ (List.mem_singleton.mpr rfl)
    refine ⟨some x, ?_⟩
    show optionFromSql _ _ v = _
    rw [optionFromSql_some' hv]
    exact Res.bind_eq_ok.mpr ⟨x, hx, rfl⟩
  | plain hv ht =>
    obtain ⟨x, hx⟩ := hr _ (List.mem_singleton.mpr rfl)
    refine ⟨some x, ?_⟩
    show optionFromSql _ _ v = _
    have e : optionSub T = T := by cases T <;> first | rfl | exact absurd rfl (ht _)
    rw [optionFromSql_some' hv, e]
    exact Res.bind_eq_ok.mpr ⟨x, hx, rfl⟩
  | box => exact hr _ (List.mem_singleton.mpr rfl)
  | vecTuple hl =>
    obtain ⟨xs, hx⟩ := mapTypes_reads _ _ hr
    exact ⟨xs, by simp only [RT.fromSql, vecTupleFromSql, if_pos hl, hx]; rfl⟩
  | tuple hl hn =>
    obtain ⟨xs, hx⟩ := fromSqls_reads _ _ _ hl hn hr
    exact ⟨xs, (tupleFromSql_fits hl hn _).trans hx⟩
  | map => exact entries_reads _ _ hr

/-- When a part is not read and those before it are, its error is that of the whole. -/
theorem _root_.Klick.Spec.Parts.refuses {r : RT} {T : Ty} {v : Value} {ps pre post : List Portion} {r' : RT} {T' : Ty} {v' : Value} {e : Err}
    (h : Parts r T v ps) (hp : ps = pre ++ (r', T', v') :: post) (hr : ∀ p ∈ pre, Reads p) (he : r'.fromSql T' v' = .err e) :
    r.fromSql T v = .err e := by
  have one : ∀ q : Portion, [q] = pre ++ (r', T', v') :: post → q = (r', T', v') := by
    intro q hq
    cases pre with
    | nil => exact (List.cons.inj hq).1
    | cons a pre => cases pre <;> cases (List.cons.inj hq).2
  cases h with
  | scalar _ => cases pre <;> cases hp
  | string _ _ => cases pre <;> cases hp
  | bytes _ => cases pre <;> cases hp
  | value => cases pre <;> cases hp
  | null => cases pre <;> cases hp
  | vec => exact mapL_refuses _ _ hp hr he
  | array hl =>
    have := mapL_refuses _ _ hp hr he
    simp only [RT.fromSql, arrayFromSql, if_pos hl, this]; rfl
  | nullable hv =>
    cases one _ hp
    show optionFromSql _ _ v = _
    rw [optionFromSql_some' hv]
    simp only [optionSub, he]; rfl
  | plain hv ht =>
    cases one _ hp
    show optionFromSql _ _ v = _
    have e : optionSub T = T := by cases T <;> first | rfl | exact absurd rfl (ht _)
    rw [optionFromSql_some' hv, e]
    simp only [he]; rfl
  | box => cases one _ hp; exact he
  | vecTuple hl =>
    have := mapTypes_refuses _ _ _ hp hr he
    simp only [RT.fromSql, vecTupleFromSql, if_pos hl, this]
    rfl
  | tuple hl hn =>
    have := fromSqls_refuses _ _ _ _ hp hr he
    exact (tupleFromSql_fits hl hn _).trans this
  | map => exact entries_refuses _ _ _ hp hr he

/-- What is readable is read. -/
theorem _root_.Klick.Spec.Readable.reads {r : RT} {T : Ty} {v : Value} (h : Readable r T v) (hs : Shaped T v) : ∃ x, r.fromSql T v = .ok x := by
  induction h with
  | mk hp _ ih => exact hp.reads hs (fun p hm => ih p.1 p.2.1 p.2.2 hm (hp.shaped hs p hm))

/-- What is not is refused with the error of the first part that is not as wanted. -/
theorem _root_.Klick.Spec.Unreadable.error {r : RT} {T : Ty} {v : Value} {e : Err} (h : Unreadable r T v e) (hs : Shaped T v) :
    r.fromSql T v = .err e := by
  induction h with
  | here hm => exact Misfit.error hm
  | @part _ _ _ _ pre r' T' v' _ _ hp hps hr _ ih =>
    have hsh := hp.shaped hs
    refine hp.refuses hps (fun p hm => ?_) (ih (hsh (r', T', v') (by rw [hps]; simp)))
    exact (hr p.1 p.2.1 p.2.2 hm).reads (hsh p (by rw [hps]; simp [hm]))

/-- Every value of the column is one or the other. -/
theorem readable_or (n : Nat) : ∀ (r : RT), sizeOf r < n → ∀ (T : Ty) (v : Value), Shaped T v →
    Readable r T v ∨ ∃ e, Unreadable r T v e := by
  induction n with
  | zero => intro r h; omega
  | succ n ih =>
    intro r hr T v hs
    rcases parts_or_misfit r T v hs with ⟨ps, hp⟩ | ⟨e, hm⟩
    · have all : ∀ p ∈ ps, Readable p.1 p.2.1 p.2.2 ∨ ∃ e, Unreadable p.1 p.2.1 p.2.2 e := fun p hm =>
        ih p.1 (by have := hp.smaller p hm; omega) _ _ (hp.shaped hs p hm)
      have scan : ∀ (qs : List Portion), (∀ p ∈ qs, Readable p.1 p.2.1 p.2.2 ∨ ∃ e, Unreadable p.1 p.2.1 p.2.2 e) →
          (∀ p ∈ qs, Readable p.1 p.2.1 p.2.2) ∨ ∃ (pre : List Portion) (q : Portion) (post : List Portion) (e : Err),
            qs = pre ++ q :: post ∧ (∀ p ∈ pre, Readable p.1 p.2.1 p.2.2) ∧ Unreadable q.1 q.2.1 q.2.2 e := by
        intro qs
        induction qs with
        | nil => intro _; exact .inl (fun p hp => by cases hp)
        | cons q qs ihq =>
          intro h
          rcases h q (List.mem_cons_self ..) with h1 | ⟨e, h1⟩
          · rcases ihq (fun p hp => h p (List.mem_cons_of_mem _ hp)) with h2 | ⟨pre, q', post, e, rfl, h2, h3⟩
            · refine .inl (fun p hp => ?_)
              rcases List.mem_cons.mp hp with rfl | hp
              · exact h1
              · exact h2 p hp
            · refine .inr ⟨q :: pre, q', post, e, rfl, fun p hp => ?_, h3⟩
              rcases List.mem_cons.mp hp with rfl | hp
              · exact h1
              · exact h2 p hp
          · exact .inr ⟨[], q, qs, e, rfl, (fun p hp => by cases hp), h1⟩
      rcases scan ps all with h | ⟨pre, ⟨r', T', v'⟩, post, e, h1, h2, h3⟩
      · exact .inl (.mk hp (fun r' T' v' hm => h (r', T', v') hm))
      · exact .inr ⟨e, .part hp h1 (fun q T₁ v₁ hm => h2 (q, T₁, v₁) hm) h3⟩
    · exact .inr ⟨e, .here hm⟩

/-- C91: for every Rust type, nested without bound, every column type and every value such a column can
hold: the conversion succeeds exactly when the value is as wanted on every level, and fails with an error
exactly when some part is not; the error is that of the first such part, and says what is wrong with it. -/
theorem C91_error_says_why (r : RT) (T : Ty) (v : Value) (hs : Shaped T v) :
    ((∃ x, r.fromSql T v = .ok x) ↔ Readable r T v) ∧
    ∀ e, r.fromSql T v = .err e ↔ Unreadable r T v e := by
  rcases readable_or (sizeOf r + 1) r (by omega) T v hs with h | ⟨e, h⟩
  · obtain ⟨x, hx⟩ := h.reads hs
    refine ⟨⟨fun _ => h, fun _ => ⟨x, hx⟩⟩, fun e => ⟨fun he => ?_, fun hu => hu.error hs⟩⟩
    rw [hx] at he; cases he
  · have he := h.error hs
    refine ⟨⟨fun hx => ?_, fun hr => ?_⟩, fun e' => ⟨fun he' => ?_, fun hu => hu.error hs⟩⟩
    · obtain ⟨x, hx⟩ := hx; rw [hx] at he; cases he
    · exact hr.reads hs
    · rw [he] at he'; cases he'; exact h

/-- The same for whatever was received from a server, in whatever way the bytes came about. -/
theorem C91_from_wire (cfg : Cfg) (r : RT) (T : Ty) (n : Nat) (s s' : Bytes) (vs : List Value)
    (h : deCol cfg T n s = .ok (vs, s')) (v : Value) (hv : v ∈ vs) :
    ((∃ x, r.fromSql T.stripLowCardinality v = .ok x) ∧ Readable r T.stripLowCardinality v) ∨
    ∃ e, r.fromSql T.stripLowCardinality v = .err e ∧ Unreadable r T.stripLowCardinality v e := by
  have hs := shaped_strip (deCol_shaped T n s s' vs h v hv)
  obtain ⟨h1, h2⟩ := C91_error_says_why r T.stripLowCardinality v hs
  rcases readable_or (sizeOf r + 1) r (by omega) T.stripLowCardinality v hs with h | ⟨e, h⟩
  · exact .inl ⟨h1.mpr h, h⟩
  · exact .inr ⟨e, (h2 e).mpr h, h⟩

/-- The elements inside the first element of an array are of the wrong type: the error names that type,
though the second element is too short as well. With the right type the second element's length is the
error. And a tuple of the wrong size. -/
theorem C91_case :
    (RT.vec (.tuple [.prim .u8, .array (.prim .u16) 2])).fromSql (.array (.tuple [.uint8, .array .string]))
      (.array [.tuple [.uint8 1#8, .array [.string [], .string []]], .tuple [.uint8 1#8, .array []]]) =
      .err (.deserialize (ch! "unexpected type: String")) ∧
    (RT.vec (.tuple [.prim .u8, .array (.prim .u16) 2])).fromSql (.array (.tuple [.uint8, .array .uint16]))
      (.array [.tuple [.uint8 1#8, .array [.uint16 1#16, .uint16 2#16]], .tuple [.uint8 1#8, .array [.uint16 1#16]]]) =
      .err (.deserialize (ch! "invalid length for array: 1 expected 2")) ∧
    (RT.tuple [.prim .u8, .prim .u8]).fromSql (.tuple [.uint8]) (.tuple [.uint8 1#8]) =
      .err (.deserialize (ch! "unexpected type: mismatch tuple length expected 2, got 1")) :=
  ⟨rfl, rfl, rfl⟩

/-- The hypotheses are met, and both outcomes occur. -/
example : Shaped (.array (.nullable .uint8)) (.array [.null, .uint8 7#8]) ∧
    Readable (.vec (.option (.prim .u8))) (.array (.nullable .uint8)) (.array [.null, .uint8 7#8]) ∧
    Unreadable (.vec (.option (.prim .u16))) (.array (.nullable .uint8)) (.array [.null, .uint8 7#8]) (WrongType .uint8) := by
  have hs : Shaped (.array (.nullable .uint8)) (.array [.null, .uint8 7#8]) := by
    refine ⟨_, rfl, ?_⟩
    intro x hx
    simp only [List.mem_cons, List.not_mem_nil, or_false] at hx
    rcases hx with rfl | rfl
    · exact .inl rfl
    · exact .inr ⟨_, rfl⟩
  exact ⟨hs, (C91_error_says_why _ _ _ hs).1.mp ⟨[none, some 7#8], rfl⟩, ((C91_error_says_why _ _ _ hs).2 _).mp rfl⟩

end Klick.Props
