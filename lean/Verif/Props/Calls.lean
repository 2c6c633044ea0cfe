import Verif.Spec.Calls
import Verif.Props.Refuse
import Verif.Props.Guess
import Verif.Props.Nest
/-
C105: a container fails exactly as the first of its parts that fails.
-/
namespace Klick.Props
open Klick Spec

/-- The end of things done in order, as a function. -/
def endOf : List Went → Went
  | [] => .fine
  | .fine :: ws => endOf ws
  | w :: _ => w

theorem endOf_inOrder : ∀ ws : List Went, InOrder ws (endOf ws)
  | [] => .inl ⟨rfl, fun u hu => by cases hu⟩
  | .fine :: ws => by
    rcases endOf_inOrder ws with ⟨h1, h2⟩ | ⟨h1, pre, post, h2, h3⟩
    · refine .inl ⟨h1, fun u hu => ?_⟩
      rcases List.mem_cons.mp hu with rfl | hu
      · rfl
      · exact h2 u hu
    · refine .inr ⟨h1, .fine :: pre, post, ?_, fun u hu => ?_⟩
      · show Went.fine :: ws = .fine :: (pre ++ endOf ws :: post)
        rw [← h2]
      · rcases List.mem_cons.mp hu with rfl | hu
        · rfl
        · exact h3 u hu
  | .failed e :: ws => .inr ⟨(fun h => by cases h), [], ws, rfl, fun u hu => by cases hu⟩
  | .crashed :: ws => .inr ⟨(fun h => by cases h), [], ws, rfl, fun u hu => by cases hu⟩

/-- One after the other. -/
def andThen : Went → Went → Went
  | .fine, w => w
  | w, _ => w

theorem endOf_append : ∀ (a b : List Went), endOf (a ++ b) = andThen (endOf a) (endOf b)
  | [], _ => rfl
  | .fine :: a, b => endOf_append a b
  | .failed _ :: _, _ => rfl
  | .crashed :: _, _ => rfl

theorem endOf_one (w : Went) : endOf [w] = w := by cases w <;> rfl

theorem went_bind {α β : Type} {r : Res α} {f : α → Res β} {w : Went} (h : ∀ x, r = .ok x → went (f x) = w) : went (r >>= f) = andThen (went r) w := by
  cases r with
  | ok x => exact h x rfl
  | err e => rfl
  | panic => rfl

theorem went_map {α β : Type} {r : Res α} {g : α → β} : went (r >>= fun x => .ok (g x)) = went r := by
  cases r <;> rfl

/-- Along a list, when each part ends as its own steps do. -/
theorem went_mapL {α β σ : Type} {f : α → Res β} {g : α → List σ} {o : σ → Went} : ∀ (xs : List α), (∀ x ∈ xs, went (f x) = endOf ((g x).map o)) →
    went (Res.mapL f xs) = endOf ((xs.flatMap g).map o)
  | [], _ => rfl
  | x :: xs, h => by
    rw [List.flatMap_cons, List.map_append, endOf_append, ← h x (List.mem_cons_self ..)]
    exact went_bind fun y _ => went_map.trans (went_mapL xs fun z hz => h z (List.mem_cons_of_mem _ hz))

variable {ι : Type} {A : ι → Type}

/-- How an asked type's conversion ends. -/
def askedWent (L : ∀ i, SqlType (A i)) (c : Asked A) : Went := went ((L c.type).toSql c.told c.value)

theorem elemHint_told (h : Option Ty) : elemHint h = toldElem h := by
  rcases h with _ | T
  · rfl
  · cases T <;> rfl

theorem unnull_told (h : Option Ty) : h.bind Ty.unnull = toldInner h := by
  rcases h with _ | T
  · rfl
  · cases T <;> rfl

theorem unmap_told (h : Option Ty) : (h.bind Ty.unmap).map Prod.snd = toldValue h := by
  rcases h with _ | T
  · rfl
  · cases T <;> rfl

theorem member_told (h : Option Ty) (j : Nat) : ((memberHints h).drop j).head? = toldMember j h := by
  rcases h with _ | T
  · simp [memberHints, toldMember]
  · cases T <;> simp [memberHints, toldMember, Ty.untuple, List.head?_drop]

theorem drop_tail {α : Type} (xs : List α) (j : Nat) : (xs.drop j).tail = xs.drop (j + 1) := by simp

theorem went_mapHints {α σ : Type} {f : Option Ty → α → Res Value} {g : Option Ty → α → List σ} {o : σ → Went} (h : Option Ty)
    (hf : ∀ k x, went (f k x) = endOf ((g k x).map o)) : ∀ (xs : List α) (j : Nat),
    went (mapHints f ((memberHints h).drop j) xs) = endOf (((xs.zipIdx j).flatMap (fun e => g (toldMember e.2 h) e.1)).map o)
  | [], _ => rfl
  | x :: xs, j => by
    rw [List.zipIdx_cons, List.flatMap_cons, List.map_append, endOf_append, ← hf]
    simp only [mapHints, member_told, drop_tail]
    exact went_bind fun y _ => went_map.trans (went_mapHints h hf xs (j + 1))

mutual
theorem write_ends (L : ∀ i, SqlType (A i)) : ∀ (t : Nest ι) (h : Option Ty) (x : t.den A),
    went (t.toSql L h x) = endOf ((calls t h x).map (askedWent L))
  | .std t, h, x => by
    obtain ⟨v, hv⟩ := toSql_total t h x
    show went (t.toSql h x) = _
    rw [hv]; rfl
  | .user i, h, x => (endOf_one _).symm
  | .vec t, h, xs => by
    show went (vecToSql (t.asBytes A) (t.toSql L) h xs) = endOf ((List.flatMap (calls t (toldElem h)) xs).map (askedWent L))
    have key := went_mapL (f := t.toSql L (elemHint h)) (g := calls t (toldElem h)) (o := askedWent L) xs
      (fun x _ => by rw [elemHint_told]; exact write_ends L t _ x)
    unfold vecToSql
    split
    · cases hb : t.asBytes A xs with
      | none => exact went_map.trans key
      | some b =>
        cases t with
        | std t =>
          show Went.fine = _
          have : List.flatMap (calls (A := A) (.std t) (toldElem h)) xs = [] := List.flatMap_eq_nil_iff.mpr fun _ _ => rfl
          rw [this]; rfl
        | _ => cases hb
    · exact went_map.trans key
  | .array t n, h, xs => by
    show went (arrayToSql (t.toSql L) h xs.1) = endOf ((List.flatMap (calls t (toldElem h)) xs.1).map (askedWent L))
    unfold arrayToSql
    refine went_map.trans (went_mapL _ fun x _ => ?_)
    rw [elemHint_told]; exact write_ends L t _ x
  | .option t, h, x => by
    show went (optionToSql (t.toSql L) h x) = _
    cases x with
    | none => rfl
    | some y =>
      show went (t.toSql L (h.bind Ty.unnull) y) = endOf ((calls t (toldInner h) y).map (askedWent L))
      rw [unnull_told]; exact write_ends L t _ y
  | .box t, h, x => write_ends L t h x
  | .vecTuple t, h, xs => by
    show went (mapHints (t.toSql L) (memberHints h) xs >>= fun vs => Res.ok (Value.tuple vs)) = _
    refine went_map.trans ?_
    exact went_mapHints (f := t.toSql L) (g := calls t) (o := askedWent L) h (fun k x => write_ends L t k x) xs 0
  | .tuple ts, h, x => by
    show went (Nest.toSqls L ts (memberHints h) x >>= fun vs => Res.ok (Value.tuple vs)) = _
    exact went_map.trans (writes_end L ts 0 h x)
  | .map k v, h, es => by
    show went (mapToSql k.toSql (v.toSql L) h es) = endOf ((List.flatMap (fun e : k.den × v.den A => calls v (toldValue h) e.2) es).map (askedWent L))
    unfold mapToSql
    refine went_map.trans (went_mapL _ fun e _ => ?_)
    obtain ⟨a, ha⟩ := toSql_total k ((h.bind Ty.unmap).map Prod.fst) e.1
    rw [ha, Res.bind_ok, unmap_told]
    exact went_map.trans (write_ends L v _ e.2)
theorem writes_end (L : ∀ i, SqlType (A i)) : ∀ (ts : List (Nest ι)) (j : Nat) (h : Option Ty) (x : Nest.dens A ts),
    went (Nest.toSqls L ts ((memberHints h).drop j) x) = endOf ((callsAll ts j h x).map (askedWent L))
  | [], _, _, _ => rfl
  | t :: ts, j, h, x => by
    show went (t.toSql L ((memberHints h).drop j).head? x.1 >>= fun v => Nest.toSqls L ts ((memberHints h).drop j).tail x.2 >>= fun vs => .ok (v :: vs)) =
      endOf ((calls t (toldMember j h) x.1 ++ callsAll ts (j + 1) h x.2).map (askedWent L))
    rw [List.map_append, endOf_append, member_told, drop_tail, ← write_ends L t]
    exact went_bind fun y _ => went_map.trans (writes_end L ts (j + 1) h x.2)
end

/-- C105, writing: for every container of user types, nested without bound, every value of it and whatever is known of the column: the user types inside are
asked in order, each for every value of it, being told the type of their part of the column; the container is written if all of them can, and otherwise
fails with the error (or panic) of the first that fails. -/
theorem C105_write (L : ∀ i, SqlType (A i)) (t : Nest ι) (h : Option Ty) (x : t.den A) :
    InOrder ((calls t h x).map fun c => went ((L c.type).toSql c.told c.value)) (went (t.toSql L h x)) := by
  have := endOf_inOrder ((calls t h x).map (askedWent L))
  rw [← write_ends] at this
  exact this

theorem went_mapTypes {α σ : Type} {f : Ty → Value → Res α} {g : Ty × Value → List σ} {o : σ → Went} : ∀ (Ts : List Ty) (vs : List Value),
    (∀ e ∈ Ts.zip vs, went (f e.1 e.2) = endOf ((g e).map o)) → went (mapTypes f Ts vs) = endOf (((Ts.zip vs).flatMap g).map o)
  | [], _, _ => by simp [mapTypes]; rfl
  | T :: Ts, [], _ => by simp [mapTypes]; rfl
  | T :: Ts, v :: vs, h => by
    rw [List.zip_cons_cons, List.flatMap_cons, List.map_append, endOf_append, ← h (T, v) (List.mem_cons_self ..)]
    simp only [mapTypes]
    exact went_bind fun y _ => went_map.trans (went_mapTypes Ts vs fun z hz => h z (List.mem_cons_of_mem _ hz))

theorem went_entries {K V σ : Type} {eq : K → K → Bool} {fk : Value → Res K} {fv : Value → Res V} {g : Value × Value → List σ} {o : σ → Went} :
    ∀ (es : List (Value × Value)) (out : List (K × V)),
    (∀ e ∈ es, andThen (went (fk e.1)) (went (fv e.2)) = endOf ((g e).map o)) →
      went (readEntries eq fk fv out es) = endOf ((es.flatMap g).map o)
  | [], _, _ => rfl
  | (a, b) :: es, out, h => by
    rw [List.flatMap_cons, List.map_append, endOf_append, ← h (a, b) (List.mem_cons_self ..)]
    simp only [readEntries]
    cases hk : fk a with
    | err e => rfl
    | panic => rfl
    | ok k =>
      cases hv : fv b with
      | err e => rfl
      | panic => rfl
      | ok v => exact went_entries es _ fun z hz => h z (List.mem_cons_of_mem _ hz)

theorem went_withLength {α : Type} {n : Nat} {r : Res (List α)} (h : ∀ xs, r = .ok xs → xs.length = n) : went (r >>= fun xs => withLength n xs) = went r := by
  cases r with
  | ok xs => show went (withLength n xs) = _; unfold withLength; rw [dif_pos (h xs rfl)]; rfl
  | err e => rfl
  | panic => rfl

mutual
theorem read_ends (L : ∀ i, SqlType (A i)) : ∀ (t : Nest ι) (T : Ty) (v : Value), Shaped T v →
    went (t.fromSql L T v) = endOf ((steps t T v).map (Step.went L))
  | .std r, T, v, _ => by
    show went (r.fromSql T v) = endOf ((steps (.std r) T v).map (Step.went L))
    unfold steps; exact (endOf_one _).symm
  | .user i, T, v, _ => by
    show went ((L i).fromSql T v) = endOf ((steps (.user i) T v).map (Step.went L))
    unfold steps; exact (endOf_one _).symm
  | .vec t, T, v, hs => by
    show went (vecFromSql (t.ofBytes A) (t.fromSql L) T v) = endOf ((steps (.vec t) T v).map (Step.went L))
    unfold steps
    cases T with
    | array S =>
      obtain ⟨xs, rfl, hx⟩ := hs
      exact went_mapL _ fun x hm => read_ends L t _ x (shaped_strip (hx x hm))
    | _ => rfl
  | .array t n, T, v, hs => by
    show went (arrayFromSql n (t.fromSql L) T v) = endOf ((steps (.array t n) T v).map (Step.went L))
    unfold steps
    cases T with
    | array S =>
      obtain ⟨xs, rfl, hx⟩ := hs
      simp only [arrayFromSql]
      by_cases hl : xs.length = n
      · rw [if_pos hl, if_pos hl]
        refine (went_withLength fun ys hy => (Res.mapL_length hy).trans hl).trans ?_
        exact went_mapL _ fun x hm => read_ends L t _ x (shaped_strip (hx x hm))
      · rw [if_neg hl, if_neg hl]; rfl
    | _ => rfl
  | .option t, T, v, hs => by
    show went (optionFromSql (t.fromSql L) T v) = endOf ((steps (.option t) T v).map (Step.went L))
    by_cases hv : v = .null
    · subst hv; unfold steps; rfl
    · rw [optionFromSql_some' hv]
      have e : steps (.option t) T v = steps t (optionSub T) v := by
        conv => lhs; unfold steps
        cases v <;> first | exact absurd rfl hv | (cases T <;> rfl)
      rw [e]
      refine went_map.trans (read_ends L t _ v ?_)
      cases T with
      | nullable S =>
        rcases hs with hs | hs
        · exact absurd hs hv
        · exact shaped_strip hs
      | _ => exact hs
  | .box t, T, v, hs => by
    show went (t.fromSql L T v) = endOf ((steps (.box t) T v).map (Step.went L))
    unfold steps; exact read_ends L t T v hs
  | .vecTuple t, T, v, hs => by
    show went (vecTupleFromSql (t.fromSql L) T v) = endOf ((steps (.vecTuple t) T v).map (Step.went L))
    unfold steps
    cases T with
    | tuple Ts =>
      obtain ⟨xs, rfl, hx⟩ := hs
      simp only [vecTupleFromSql]
      by_cases hl : xs.length = Ts.length
      · rw [if_pos hl, if_pos hl]
        exact went_mapTypes _ _ fun e hm => read_ends L t _ _ (shapedAll_mem _ _ (hx hl) e hm)
      · rw [if_neg hl, if_neg hl]; rfl
    | _ => rfl
  | .tuple ts, T, v, hs => by
    show went (tupleFromSql ts.length (Nest.fromSqls L ts) T v) = endOf ((steps (.tuple ts) T v).map (Step.went L))
    unfold steps
    cases T with
    | tuple Ts =>
      obtain ⟨xs, rfl, hx⟩ := hs
      by_cases hl : xs.length = Ts.length
      · by_cases hn : xs.length = ts.length
        · rw [tupleFromSql_fits hl hn]
          dsimp only
          rw [if_neg (not_not_intro hl), if_neg (not_not_intro hn)]
          exact reads_end L ts Ts xs hl hn (hx hl)
        · rw [tupleFromSql_members hl hn]
          dsimp only
          rw [if_neg (not_not_intro hl), if_pos hn]; rfl
      · dsimp only
        rw [if_pos hl]
        simp only [tupleFromSql, if_neg hl]; rfl
    | _ => rfl
  | .map k w, T, v, hs => by
    show went (mapFromSql k.keyEq k.fromSql (w.fromSql L) T v) = endOf ((steps (.map k w) T v).map (Step.went L))
    unfold steps
    cases T with
    | map K V =>
      obtain ⟨ks, vs, rfl, _, hk, hv⟩ := hs
      refine went_entries _ _ fun e hm => ?_
      have := List.of_mem_zip hm
      rw [read_ends L w _ _ (shaped_strip (hv _ this.2))]
      show _ = endOf (went (k.fromSql K.stripLowCardinality e.1) :: List.map (Step.went L) (steps w V.stripLowCardinality e.2))
      cases went (k.fromSql K.stripLowCardinality e.1) <;> rfl
    | _ => rfl
theorem reads_end (L : ∀ i, SqlType (A i)) : ∀ (ts : List (Nest ι)) (Ts : List Ty) (vs : List Value), vs.length = Ts.length → vs.length = ts.length →
    ShapedAll Ts vs → went (Nest.fromSqls L ts Ts vs) = endOf ((stepsAll ts (Ts.zip vs)).map (Step.went L))
  | [], _, _, _, _, _ => by unfold stepsAll; rfl
  | t :: ts, [], vs, hl, hn, _ => by cases vs <;> simp at hl hn
  | t :: ts, T :: Ts, [], hl, _, _ => by simp at hl
  | t :: ts, T :: Ts, v :: vs, hl, hn, hs => by
    obtain ⟨x, xs, e, h1, h2⟩ := hs
    cases e
    rw [List.zip_cons_cons]
    unfold stepsAll
    rw [List.map_append, endOf_append, ← read_ends L t _ v (shaped_strip h1)]
    simp only [Nest.fromSqls]
    exact went_bind fun y _ => went_map.trans (reads_end L ts Ts vs (by simpa using hl) (by simpa using hn) h2)
end

/-- C105, reading: for every container of user types, nested without bound, every column type and every value such a column can hold: the container is read
if everything in it can be, and otherwise fails as the first thing, in the order of the value, that cannot: with the error (or panic) of the user type that is
asked for its part, being told the type of that part, or with that of the part (C91), or because the value does not fit the container. -/
theorem C105_read (L : ∀ i, SqlType (A i)) (t : Nest ι) (T : Ty) (v : Value) (hs : Shaped T v) :
    InOrder ((steps t T v).map (Step.went L)) (went (t.fromSql L T v)) := by
  have := endOf_inOrder ((steps t T v).map (Step.went L))
  rw [← read_ends L t T v hs] at this
  exact this

/-- The same for whatever was received from a server. -/
theorem C105_from_wire (cfg : Cfg) (L : ∀ i, SqlType (A i)) (t : Nest ι) (T : Ty) (n : Nat) (s s' : Bytes) (vs : List Value)
    (h : deCol cfg T n s = .ok (vs, s')) (v : Value) (hv : v ∈ vs) :
    InOrder ((steps t T.stripLowCardinality v).map (Step.went L)) (went (t.fromSql L T.stripLowCardinality v)) :=
  C105_read L t _ v (shaped_strip (deCol_shaped T n s s' vs h v hv))

/-! Rows -/

theorem record_ends (L : ∀ i, SqlType (A i)) (header : IMap Ty) : ∀ (fs : List (Str × Nest ι)) (x : RecordVal A fs),
    went ((recordOf L fs).ser header x) = endOf ((recordCalls header fs x).map (askedWent L))
  | [], _ => rfl
  | f :: fs, x => by
    show went ((f.2.toSql L (header.get f.1) x.1 >>= fun v => Res.ok [(f.1, v)]) >>= fun a => (recordOf L fs).ser header x.2 >>= fun b => .ok (a ++ b)) =
      endOf ((calls f.2 (header.get f.1) x.1 ++ recordCalls header fs x.2).map (askedWent L))
    rw [List.map_append, endOf_append, ← write_ends L f.2, ← went_map (r := f.2.toSql L (header.get f.1) x.1) (g := fun v => [(f.1, v)])]
    exact went_bind fun y _ => went_map.trans (record_ends L header fs x.2)

/-- C105 for rows, writing: the user types of all fields are asked in order, and the row fails as the first that fails. -/
theorem C105_row_write (L : ∀ i, SqlType (A i)) (header : IMap Ty) (fs : List (Str × Nest ι)) (x : RecordVal A fs) :
    InOrder ((recordCalls header fs x).map fun c => went ((L c.type).toSql c.told c.value)) (went (((recordOf L fs).derive none).ser header x)) := by
  have := endOf_inOrder ((recordCalls header fs x).map (askedWent L))
  rw [← record_ends] at this
  exact this

/-- The names that have got a value. -/
def Filled : (fs : List (Str × Nest ι)) → RecordSlots A fs → Str → Prop
  | [], _, _ => False
  | f :: fs, t, n => (f.1 = n ∧ t.1.val.isSome = true) ∨ Filled fs t.2 n

theorem endOf_named (n : Str) : ∀ ws : List Went, endOf (ws.map (Went.named n)) = (endOf ws).named n
  | [] => rfl
  | .fine :: ws => endOf_named n ws
  | .failed _ :: _ => rfl
  | .crashed :: _ => rfl

theorem went_annotated {α : Type} (n : Str) (r : Res α) : went (Field.annotated n r) = (went r).named n := by cases r <;> rfl

theorem filled_mem : ∀ (fs : List (Str × Nest ι)) (t : RecordSlots A fs) (n : Str), Filled fs t n → n ∈ fs.map Prod.fst
  | [], _, _, h => h.elim
  | f :: fs, t, n, h => by
    rcases h with ⟨h, _⟩ | h
    · exact List.mem_cons.mpr (.inl h.symm)
    · exact List.mem_cons_of_mem _ (filled_mem fs t.2 n h)

/-- A field as it is declared. -/
def recordField (L : ∀ i, SqlType (A i)) (f : Str × Nest ι) : Field (f.2.den A) := ⟨f.1, f.1, false, false, none, .plain (f.2.toSql L) (f.2.fromSql L) true, none⟩

theorem record_hit (L : ∀ i, SqlType (A i)) (f : Str × Nest ι) (c : Cell) : (recordField L f).hit c = if c.1 = f.1 then some c.1 else none := rfl

/-- What becomes of the slots `t` when column `c` is read into field `f`: an error if the field has been given already. -/
def TakenInto (L : ∀ i, SqlType (A i)) (f : Str × Nest ι) (c : Cell) (fs : List (Str × Nest ι)) (t : RecordSlots A fs) (r : Res (RecordSlots A fs)) : Prop :=
  (Filled fs t f.1 → r = .err (.duplicateField f.1)) ∧
  (¬ Filled fs t f.1 → went r = endOf (columnEnds L f c) ∧ ∀ t', r = .ok t' → ∀ n, Filled fs t' n ↔ n = f.1 ∨ Filled fs t n)

theorem takenInto_here (L : ∀ i, SqlType (A i)) (f : Str × Nest ι) (c : Cell) (hs : Shaped c.2.1 c.2.2) (fs : List (Str × Nest ι)) (s : FieldSlot (f.2.den A))
    (ss : RecordSlots A fs) (hn : f.1 ∉ fs.map Prod.fst) (label : Str) :
    TakenInto L f c (f :: fs) (s, ss) ((recordField L f).put label c s >>= fun s => .ok (s, ss)) := by
  have e0 : (recordField L f).put label c s = if s.val.isSome then .err (.duplicateField f.1) else
      (Field.annotated f.1 (f.2.fromSql L c.2.1.stripLowCardinality c.2.2) >>= fun x => Res.ok { s with val := some x }) := rfl
  rw [e0]
  constructor
  · rintro (⟨_, h⟩ | h)
    · rw [if_pos h]; rfl
    · exact absurd (filled_mem fs ss _ h) hn
  · intro hf
    have h0 : ¬ s.val.isSome = true := fun h => hf (.inl ⟨rfl, h⟩)
    rw [if_neg h0]
    constructor
    · have e2 : columnEnds L f c = ((steps f.2 c.2.1.stripLowCardinality c.2.2).map (Step.went L)).map (Went.named f.1) := by
        unfold columnEnds; rw [List.map_map]; rfl
      rw [e2, endOf_named, ← read_ends L f.2 _ _ (shaped_strip hs), ← went_annotated]
      exact went_map.trans went_map
    · intro t' ht n
      obtain ⟨s', h1, h2⟩ := Res.bind_eq_ok.mp ht
      obtain ⟨x, _, h3⟩ := Res.bind_eq_ok.mp h1
      cases h3; cases h2
      show (f.1 = n ∧ true = true) ∨ Filled fs ss n ↔ n = f.1 ∨ (f.1 = n ∧ s.val.isSome = true) ∨ Filled fs ss n
      constructor
      · rintro (⟨h, _⟩ | h)
        · exact .inl h.symm
        · exact .inr (.inr h)
      · rintro (h | ⟨h, _⟩ | h)
        · exact .inl ⟨h.symm, rfl⟩
        · exact .inl ⟨h, rfl⟩
        · exact .inr h

theorem takenInto_there (L : ∀ i, SqlType (A i)) (g f : Str × Nest ι) (c : Cell) (fs : List (Str × Nest ι)) (s : FieldSlot (g.2.den A))
    (ss : RecordSlots A fs) (hne : g.1 ≠ f.1) (r : Res (RecordSlots A fs)) (h : TakenInto L f c fs ss r) :
    TakenInto L f c (g :: fs) (s, ss) (r >>= fun ss => .ok (s, ss)) := by
  constructor
  · rintro (⟨k, _⟩ | k)
    · exact absurd k hne
    · rw [h.1 k]; rfl
  · intro hf
    obtain ⟨k1, k2⟩ := h.2 (fun k => hf (.inr k))
    constructor
    · rw [← k1]; exact went_map
    · intro t' ht n
      obtain ⟨ss', h4, h5⟩ := Res.bind_eq_ok.mp ht
      cases h5
      show (g.1 = n ∧ s.val.isSome = true) ∨ Filled fs ss' n ↔ n = f.1 ∨ (g.1 = n ∧ s.val.isSome = true) ∨ Filled fs ss n
      rw [k2 ss' h4 n]
      constructor
      · rintro (h | h | h)
        · exact .inr (.inl h)
        · exact .inl h
        · exact .inr (.inr h)
      · rintro (h | h | h)
        · exact .inr (.inl h)
        · exact .inl h
        · exact .inr (.inr h)

/-- A column is given to the field of its name. -/
theorem byName_record (L : ∀ i, SqlType (A i)) (c : Cell) (hs : Shaped c.2.1 c.2.2) : ∀ (fs : List (Str × Nest ι)) (t : RecordSlots A fs), (fs.map Prod.fst).Nodup →
    match fs.find? (fun f => f.1 == c.1) with
    | some f => ∃ r, (recordOf L fs).byName c t = some r ∧ TakenInto L f c fs t r
    | none => (recordOf L fs).byName c t = none
  | [], _, _ => rfl
  | g :: fs, (s, ss), hn => by
    have hn' := List.nodup_cons.mp hn
    have e := Fields.byName_cons (recordField L g) (recordOf L fs) c s ss
    rw [record_hit L g c] at e
    by_cases hc : c.1 = g.1
    · rw [List.find?_cons_of_pos (by simpa using hc.symm)]
      rw [if_pos hc] at e
      exact ⟨_, e, takenInto_here L g c hs fs s ss hn'.1 _⟩
    · rw [List.find?_cons_of_neg (by simpa using fun h => hc h.symm)]
      rw [if_neg hc] at e
      have ih := byName_record L c hs fs ss hn'.2
      cases hf : fs.find? (fun f => f.1 == c.1) with
      | none =>
        rw [hf] at ih
        dsimp only at ih e ⊢
        rw [ih] at e
        exact e
      | some f =>
        rw [hf] at ih
        dsimp only at ih e ⊢
        obtain ⟨r, h1, h2⟩ := ih
        rw [h1] at e
        refine ⟨_, e, takenInto_there L g f c fs s ss (fun h => hn'.1 ?_) r h2⟩
        rw [h]
        exact List.mem_map_of_mem (List.mem_of_find?_eq_some hf)

/-- A column that no field has the name of is given to the field at its place. -/
theorem byIndex_record (L : ∀ i, SqlType (A i)) (c : Cell) (hs : Shaped c.2.1 c.2.2) : ∀ (fs : List (Str × Nest ι)) (i : Nat) (t : RecordSlots A fs),
    (fs.map Prod.fst).Nodup →
    match fs[i]? with
    | some f => TakenInto L f c fs t ((recordOf L fs).byIndex i c t)
    | none => (recordOf L fs).byIndex i c t = .ok t
  | [], _, _, _ => rfl
  | g :: fs, 0, (s, ss), hn => takenInto_here L g c hs fs s ss (List.nodup_cons.mp hn).1 c.1
  | g :: fs, i + 1, (s, ss), hn => by
    have hn' := List.nodup_cons.mp hn
    have ih := byIndex_record L c hs fs i ss hn'.2
    have e : (recordOf L (g :: fs)).byIndex (i + 1) c (s, ss) = (recordOf L fs).byIndex i c ss >>= fun ss => .ok (s, ss) := rfl
    rw [List.getElem?_cons_succ]
    cases hf : fs[i]? with
    | none =>
      rw [hf] at ih
      dsimp only at ih ⊢
      rw [e, ih]; rfl
    | some f =>
      rw [hf] at ih
      dsimp only at ih ⊢
      rw [e]
      refine takenInto_there L g f c fs s ss (fun h => hn'.1 ?_) _ ih
      rw [h]
      exact List.mem_map_of_mem (List.mem_of_getElem? hf)

/-- The field that a column is given to. -/
theorem record_given (L : ∀ i, SqlType (A i)) (c : Cell) (hs : Shaped c.2.1 c.2.2) (fs : List (Str × Nest ι)) (i : Nat) (t : RecordSlots A fs)
    (hn : (fs.map Prod.fst).Nodup) :
    match fieldFor fs i c.1 with
    | some f => f ∈ fs ∧ TakenInto L f c fs t (match (recordOf L fs).byName c t with | some r => r | none => (recordOf L fs).byIndex i c t)
    | none => (match (recordOf L fs).byName c t with | some r => r | none => (recordOf L fs).byIndex i c t) = .ok t := by
  have h1 := byName_record L c hs fs t hn
  have h2 := byIndex_record L c hs fs i t hn
  unfold fieldFor
  cases hf : fs.find? (fun f => f.1 == c.1) with
  | some f =>
    rw [hf] at h1
    dsimp only at h1 ⊢
    obtain ⟨r, k1, k2⟩ := h1
    rw [k1]
    exact ⟨List.mem_of_find?_eq_some hf, k2⟩
  | none =>
    rw [hf] at h1
    dsimp only at h1 ⊢
    rw [h1]
    dsimp only
    cases hi : fs[i]? with
    | some f =>
      rw [hi] at h2
      exact ⟨List.mem_of_getElem? hi, h2⟩
    | none =>
      rw [hi] at h2
      exact h2

theorem record_plain (L : ∀ i, SqlType (A i)) : ∀ fs : List (Str × Nest ι), (recordOf L fs).anyFlatten = false
  | [] => rfl
  | _ :: fs => record_plain L fs

theorem record_checkSizes (L : ∀ i, SqlType (A i)) : ∀ (fs : List (Str × Nest ι)), (recordOf L fs).checkSizes = .ok ()
  | [] => rfl
  | _ :: fs => record_checkSizes L fs

theorem record_pull (L : ∀ i, SqlType (A i)) : ∀ (fs : List (Str × Nest ι)) (cells flat : IMap (Ty × Value)), (recordOf L fs).pull cells flat = .ok (cells, flat)
  | [], _, _ => rfl
  | _ :: fs, cells, flat => record_pull L fs cells flat

theorem record_rectify (L : ∀ i, SqlType (A i)) : ∀ (fs : List (Str × Nest ι)) (t : RecordSlots A fs), (recordOf L fs).rectify t = .ok t
  | [], () => rfl
  | f :: fs, (s, ss) => by
    show (Res.ok s >>= fun s => (recordOf L fs).rectify ss >>= fun ss => .ok (s, ss)) = _
    rw [Res.bind_ok, record_rectify L fs ss]; rfl

/-- The end: the first field without a value is missing. -/
theorem record_finish (L : ∀ i, SqlType (A i)) (seen : List Str) : ∀ (fs : List (Str × Nest ι)) (t : RecordSlots A fs) (flat : IMap (Ty × Value)), (fs.map Prod.fst).Nodup →
    (∀ n ∈ fs.map Prod.fst, Filled fs t n ↔ n ∈ seen) →
    went ((recordOf L fs).settle none t >>= fun t => (recordOf L fs).build none t flat) =
      endOf ((fs.filter (fun f => !(seen.contains f.1))).map (fun f => .failed (.missingField f.1)))
  | [], _, _, _, _ => rfl
  | f :: fs, (s, ss), flat, hn, h => by
    have hn' := List.nodup_cons.mp hn
    have ih := record_finish L seen fs ss flat hn'.2 fun n hm => by
      rw [← h n (List.mem_cons_of_mem _ hm)]
      refine ⟨fun k => .inr k, fun k => k.resolve_left fun k => hn'.1 ?_⟩
      rw [k.1]; exact hm
    have h0 := h f.1 (List.mem_cons_self ..)
    cases hv : s.val with
    | none =>
      have : ¬ f.1 ∈ seen := fun k => by
        rcases h0.mpr k with ⟨_, k⟩ | k
        · have k : s.val.isSome = true := k
          rw [hv] at k; cases k
        · exact hn'.1 (filled_mem fs ss _ k)
      rw [List.filter_cons_of_pos (by simpa using this)]
      show went ((Field.settle _ none s >>= fun s => _) >>= fun t => _) = Went.failed (.missingField f.1)
      simp only [Field.settle, Field.skip, Field.flattened, hv, Field.missing]
      rfl
    | some x =>
      have : f.1 ∈ seen := h0.mp (.inl ⟨rfl, by show s.val.isSome = true; rw [hv]; rfl⟩)
      rw [List.filter_cons_of_neg (by simpa using this), ← ih]
      show went ((Field.settle _ none s >>= fun s => (recordOf L fs).settle none ss >>= fun ss => .ok (s, ss)) >>= fun t => _) = _
      have e : Field.settle (⟨f.1, f.1, false, false, none, .plain (f.2.toSql L) (f.2.fromSql L) true, none⟩ : Field (f.2.den A)) none s = .ok s := by
        simp only [Field.settle, Field.skip, Field.flattened, hv]; rfl
      rw [e, Res.bind_ok]
      cases hr : (recordOf L fs).settle none ss with
      | err e => rfl
      | panic => rfl
      | ok ss' =>
        show went (Field.build _ none s flat >>= fun r => (recordOf L fs).build none ss' r.2 >>= fun xs => .ok (r.1, xs)) = went ((recordOf L fs).build none ss' flat)
        have e' : Field.build (⟨f.1, f.1, false, false, none, .plain (f.2.toSql L) (f.2.fromSql L) true, none⟩ : Field (f.2.den A)) none s flat = .ok (x, flat) := by
          simp only [Field.build, hv]; rfl
        rw [e', Res.bind_ok]
        exact went_map

theorem record_empty (L : ∀ i, SqlType (A i)) : ∀ (fs : List (Str × Nest ι)) (n : Str), ¬ Filled fs (recordOf L fs).empty n
  | [], _, h => h
  | f :: fs, n, h => by
    rcases h with ⟨_, h⟩ | h
    · cases h
    · exact record_empty L fs n h

theorem record_absorb (L : ∀ i, SqlType (A i)) (fs : List (Str × Nest ι)) (hn : (fs.map Prod.fst).Nodup) (flat : IMap (Ty × Value)) : ∀ (cells : List Cell) (i : Nat)
    (seen : List Str) (t : RecordSlots A fs), (∀ c ∈ cells, Shaped c.2.1 c.2.2) →
    (∀ n ∈ fs.map Prod.fst, Filled fs t n ↔ n ∈ seen) →
    went ((recordOf L fs).absorb i cells t >>= fun t => (recordOf L fs).rectify t >>= fun t => (recordOf L fs).settle none t >>= fun t =>
      (recordOf L fs).build none t flat) = endOf (rowEnds L fs i seen cells)
  | [], i, seen, t, _, h => by
    show went ((recordOf L fs).rectify t >>= _) = _
    rw [record_rectify, Res.bind_ok]
    exact record_finish L seen fs t flat hn h
  | c :: cells, i, seen, t, hc, h => by
    have hg := record_given L c (hc c (List.mem_cons_self ..)) fs i t hn
    have e : (recordOf L fs).absorb i (c :: cells) t =
        (match (recordOf L fs).byName c t with | some r => r | none => (recordOf L fs).byIndex i c t) >>= fun t => (recordOf L fs).absorb (i + 1) cells t := by
      conv => lhs; unfold Fields.absorb
      rw [record_plain]
      cases (recordOf L fs).byName c t <;> rfl
    have ih := fun seen t' => record_absorb L fs hn flat cells (i + 1) seen t' (fun c hm => hc c (List.mem_cons_of_mem _ hm))
    rw [e, rowEnds]
    cases hf : fieldFor fs i c.1 with
    | none =>
      rw [hf] at hg
      dsimp only at hg ⊢
      rw [hg]
      exact ih seen t h
    | some f =>
      rw [hf] at hg
      dsimp only at hg ⊢
      obtain ⟨hm, k1, k2⟩ := hg
      have hm' : f.1 ∈ fs.map Prod.fst := List.mem_map_of_mem hm
      generalize (match (recordOf L fs).byName c t with | some r => r | none => (recordOf L fs).byIndex i c t) = r at k1 k2 ⊢
      rw [endOf_append]
      by_cases hs : f.1 ∈ seen
      · rw [k1 ((h _ hm').mpr hs), if_pos (by simpa using hs)]; rfl
      · rw [if_neg (by simpa using hs)]
        obtain ⟨k4, k5⟩ := k2 (fun k => hs ((h _ hm').mp k))
        rw [← k4]
        cases r with
        | err e => rfl
        | panic => rfl
        | ok t' =>
          refine ih (f.1 :: seen) t' fun n hm => ?_
          rw [k5 t' rfl n, h n hm, List.mem_cons]

/-- C105 for rows, reading: for a struct whose fields have different names and any columns of any names: the row ends as the first thing that fails, in
the order of the columns, each read into the field of its name or otherwise of its place, and the error names the field; if nothing fails, the first field
that no column was for is the error. -/
theorem C105_row_read (L : ∀ i, SqlType (A i)) (fs : List (Str × Nest ι)) (hn : (fs.map Prod.fst).Nodup) (cells : List Cell)
    (hc : ∀ c ∈ cells, Shaped c.2.1 c.2.2) :
    InOrder (rowEnds L fs 0 [] cells) (went (((recordOf L fs).derive none).de cells)) := by
  have := endOf_inOrder (rowEnds L fs 0 [] cells)
  rw [← record_absorb L fs hn [] cells 0 [] (recordOf L fs).empty hc
    (fun n _ => ⟨fun h => absurd h (record_empty L fs n), fun h => by cases h⟩)] at this
  have e : ((recordOf L fs).derive none).de cells = (recordOf L fs).absorb 0 cells (recordOf L fs).empty >>= fun t => (recordOf L fs).rectify t >>= fun t =>
      (recordOf L fs).settle none t >>= fun t => (recordOf L fs).build none t [] := by
    show (recordOf L fs).de none cells = _
    unfold Fields.de
    rw [record_checkSizes, Res.bind_ok, record_pull, Res.bind_ok]
  rw [e]
  exact this

/-- A struct with the fields `at: Option<DateTime<Tz>>` and `price: Decimal`: with both columns of the wrong type the error is that of the column that comes first, with its name; without a column
`at` that field is missing; a second column `price` is one too many; and a column `when` in the first place is read as `at`, which the error names. -/
theorem C105_row_case (cfg : Cfg) :
    let fs : List (Str × Nest Bool) := [(ch! "at", .option (.user false)), (ch! "price", .user true)]
    let good : Cell := (ch! "price", .decimal32 1, .decimal32 1 15#32)
    ((recordOf (exUsers cfg) fs).derive none).de [(ch! "price", .string, .string []), (ch! "at", .uint8, .uint8 1#8)] =
      .err (.deserializeWithColumn (ch! "price") (ch! "unexpected type: String")) ∧
    ((recordOf (exUsers cfg) fs).derive none).de [(ch! "at", .uint8, .uint8 1#8), (ch! "price", .string, .string [])] =
      .err (.deserializeWithColumn (ch! "at") (ch! "unexpected type: UInt8")) ∧
    ((recordOf (exUsers cfg) fs).derive none).de [good] = .err (.missingField (ch! "at")) ∧
    ((recordOf (exUsers cfg) fs).derive none).de [good, good] = .err (.duplicateField (ch! "price")) ∧
    ((recordOf (exUsers cfg) fs).derive none).de [(ch! "when", .string, .string []), good] =
      .err (.deserializeWithColumn (ch! "at") (ch! "unexpected type: String")) ∧
    (∃ x, ((recordOf (exUsers cfg) fs).derive none).de [(ch! "when", .nullable (.dateTime64 6 tzUTC), .null), good, (ch! "more", .string, .string [])] = .ok x) ∧
    (fs.map Prod.fst).Nodup ∧ ∀ c ∈ [good, good], Shaped c.2.1 c.2.2 := by
  refine ⟨rfl, rfl, rfl, rfl, rfl, ⟨_, rfl⟩, by decide, fun c hc => ?_⟩
  have : c = (ch! "price", .decimal32 1, .decimal32 1 15#32) := by simpa using hc
  subst this
  exact ⟨_, rfl⟩

/-- `Vec<(Option<DateTime<Tz>>, Decimal)>`. Written: the time of the second element is before 1970, which is the error, though its decimal and the
first part of the third element are no better; the other way round the decimal's error. Read from a column of texts: the NULL of the first element
is read, the text of the second is not, and the third is not looked at. -/
theorem C105_case (cfg : Cfg) :
    let t : Nest Bool := .vec (.tuple [.option (.user false), .user true])
    let early : Tz × Inst := (tzUTC, ⟨-1, 0⟩)
    let good : Decimal := ⟨15, 1⟩
    let wide : Decimal := ⟨1, 9⟩
    t.toSql (A := ExUser) (exUsers cfg) (some (.array (.tuple [.nullable (.dateTime64 6 tzUTC), .decimal32 1])))
      [(none, good, ()), (some early, wide, ()), (some early, good, ())] = .err chronoErr64 ∧
    t.toSql (A := ExUser) (exUsers cfg) (some (.array (.tuple [.nullable (.dateTime64 6 tzUTC), .decimal32 1])))
      [(none, wide, ()), (some early, wide, ()), (some early, good, ())] = .err .serialize ∧
    t.fromSql (A := ExUser) (exUsers cfg) (.array (.tuple [.nullable .string, .decimal32 1]))
      (.array [.tuple [.null, .decimal32 1 15#32], .tuple [.string [], .decimal32 1 15#32], .tuple [.null]]) =
      .err (.deserialize (ch! "unexpected type: String")) ∧
    steps t (.array (.tuple [.nullable .string, .decimal32 1]))
      (.array [.tuple [.null, .decimal32 1 15#32], .tuple [.string [], .decimal32 1 15#32], .tuple [.null]]) =
      [.user true (.decimal32 1) (.decimal32 1 15#32), .user false .string (.string []), .user true (.decimal32 1) (.decimal32 1 15#32),
        .refuse (.deserialize (ch! "unexpected type: mismatch tuple length expected 2, got 1"))] := by
  exact ⟨rfl, rfl, rfl, by simp [steps, stepsAll, Ty.stripLowCardinality]; rfl⟩

/-- The types asked, and what they are told, in the example of C104: the decimals and the one time there is, each told its member's type. -/
example : (calls exNest (some exNestTy) exNested).map (fun c => (c.type, c.told)) =
    [(false, some (.dateTime64 6 tzUTC)), (true, some (.decimal32 4)), (true, some (.decimal32 4))] := rfl

/-- Such a value can be received. -/
example : Shaped (.array (.tuple [.nullable .string, .decimal32 1])) (.array [.tuple [.string [], .decimal32 1 15#32], .tuple [.null]]) := by
  refine ⟨_, rfl, fun x hx => ?_⟩
  rcases List.mem_cons.mp hx with rfl | hx
  · exact ⟨_, rfl, fun _ => ⟨_, _, rfl, .inr ⟨_, rfl⟩, _, _, rfl, ⟨_, rfl⟩, rfl⟩⟩
  · obtain rfl := List.mem_singleton.mp hx
    exact ⟨_, rfl, fun h => by cases h⟩

end Klick.Props
