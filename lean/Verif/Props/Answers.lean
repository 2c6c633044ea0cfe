import Verif.Spec.Answers
import Verif.Props.Record
import Verif.Props.Storage
/-
C106: what one struct inserted, another may select in part.
-/
namespace Klick
open Spec
namespace Props

/-! ### rows -/

theorem nodup_of_map {α β : Type} (f : α → β) {l : List α} (h : (l.map f).Nodup) : l.Nodup := by
  induction l with
  | nil => exact .nil
  | cons a l ih =>
    rw [List.map_cons, List.nodup_cons] at h
    exact List.nodup_cons.mpr ⟨fun hm => h.1 (List.mem_map.mpr ⟨a, hm, rfl⟩), ih h.2⟩

theorem each_at {α β : Type} {P : α → β → Prop} : ∀ {as : List α} {bs : List β}, Each P as bs → ∀ {i : Nat} {a : α}, as[i]? = some a →
    ∃ b, bs[i]? = some b ∧ P a b
  | [], [], _, _, _, hi => by cases hi
  | [], _ :: _, h, _, _, _ => h.elim
  | _ :: _, [], h, _, _, _ => h.elim
  | a :: as, b :: bs, h, 0, _, hi => by cases hi; exact ⟨b, rfl, h.1⟩
  | _ :: as, _ :: bs, h, i + 1, _, hi => each_at (as := as) (bs := bs) h.2 hi

theorem collect_seen {S : Type} (de : TRow → Res S) {seen : List Block} (hg : ∀ b ∈ seen, Rectangular b ∧ Typed b ∧ b.rows ≤ 2 ^ 57) {ys : List S}
    (h : (seen.flatMap rowsIn).map de = ys.map .ok) : collectRows (queryStream de (seen.map Item.block)) = .ok ys := by
  have e4 : (seen.map Item.block).flatMap (expected de) = ys.map .ok := by
    rw [← h, List.map_flatMap, List.flatMap_map]
    rfl
  rw [C36_stream_partial de _ ?_ ?_, e4]
  · exact (C36_collect _).1
  · intro i hi b hb
    subst hb
    obtain ⟨b', hm, he⟩ := List.mem_map.mp hi
    cases he
    exact hg b hm
  · intro b hb row hrow hp
    obtain ⟨b', hm, he⟩ := List.mem_map.mp hb
    cases he
    have : de row ∈ ys.map Res.ok := by
      rw [← h]; exact List.mem_map.mpr ⟨row, List.mem_flatMap.mpr ⟨b, hm, hrow⟩, rfl⟩
    rw [hp] at this
    obtain ⟨_, _, h⟩ := List.mem_map.mp this
    cases h

/-- What a row of an answer shows of a row. -/
def PartAs {R : Type} (header : IMap Ty) (ser : IMap Ty → R → Res (List (Str × Value))) (names : List Str) (xs : List R) (i : Nat) (r : TRow) : Prop :=
  ∃ x, xs[i]? = some x ∧ r.Perm (inColumns names (cellsOf (typeIn header) (colsOf header ser x)))

theorem read_parts {R S : Type} {cfg : Cfg} {header : IMap Ty} {ser : IMap Ty → R → Res (List (Str × Value))} {names : List Str} {de : TRow → Res S}
    {Q : R → S → Prop} {xs : List R} (hs : ∀ x ∈ xs, ReadPart cfg header ser names de Q x) :
    ∀ {picks : List Nat} {rows : List TRow}, Each (PartAs header ser names xs) picks rows →
      ∃ ys, rows.map de = ys.map .ok ∧ Each (fun (i : Nat) y => ∃ x, xs[i]? = some x ∧ Q x y) picks ys
  | [], [], _ => ⟨[], rfl, trivial⟩
  | [], _ :: _, h => h.elim
  | _ :: _, [], h => h.elim
  | i :: picks, r :: rows, h => by
    obtain ⟨x, h1, h2⟩ := h.1
    obtain ⟨cols, c1, _, _, y, c4, c5⟩ := hs x (List.mem_of_getElem? h1)
    rw [colsOf_ok c1] at h2
    obtain ⟨ys, k1, k2⟩ := read_parts hs h.2
    exact ⟨y :: ys, by rw [List.map_cons, List.map_cons, c5 r h2, k1], ⟨x, h1, c4⟩, k2⟩

/-- C106: rows are inserted, in any batches; a query of some of the columns is answered with some of these rows, in whatever order and blocks. If what was
written of each row in these columns reads as something in the relation `Q` to it, then the query gives, for each row of the answer, one such thing. -/
theorem C106_select {R S : Type} (cfg : Cfg) (ext : Ext) (hdr : Block) (ser : IMap Ty → R → Res (List (Str × Value))) (names : List Str) (de : TRow → Res S)
    (Q : R → S → Prop)
    (batches : List (List R)) (hh : hdr.columnTypes ≠ []) (hn : hdr.columnTypes.keys.Nodup) (hl : hdr.columnTypes.length < 2 ^ 63)
    (hr : ∀ rows ∈ batches, rows.length < 2 ^ 63)
    (h : ∀ rows ∈ batches, ∀ x ∈ rows, ReadPart cfg hdr.columnTypes ser names de Q x)
    (hs : ∀ rows ∈ batches, ∀ name t, (name, t) ∈ hdr.columnTypes → Sendable cfg name t (columnOf hdr.columnTypes ser name rows))
    (acks : List Bool) (ha : acks = List.replicate ((batches.filter (fun rows => !rows.isEmpty)).length + 1) true) (revision : Nat) :
    ∃ blocks, insertNative cfg ext ser (some (.block hdr)) acks batches = (blocks ++ [endBlock], .ok ()) ∧
      (∃ received, Each (Travels cfg revision) blocks received) ∧
      ∀ received, Each (Travels cfg revision) blocks received →
        ∀ (picks : List Nat) (answer : List Block) (revision' : Nat) (seen : List Block), (∀ b ∈ answer, AnswerOk cfg b ∧ b.rows ≤ 2 ^ 57) →
          Selects names picks received answer → Each (Travels cfg revision') answer seen →
          ∃ ys, collectRows (queryStream de (seen.map Item.block)) = .ok ys ∧
            Each (fun (i : Nat) y => ∃ x, batches.flatten[i]? = some x ∧ Q x y) picks ys := by
  obtain ⟨blocks, i1, _, i2, i3⟩ := insert_rows cfg ext hdr.columnTypes ser (fun _ => .ok ()) (fun _ _ => True) batches hh hn hl hr (fun rows hm x hx => by
    obtain ⟨cols, c1, c2, c3, _⟩ := h rows hm x hx
    exact ⟨cols, c1, c2, c3, (), trivial, fun _ _ => rfl⟩) hs
  refine ⟨blocks, by rw [ha]; exact i1, travels_each revision blocks i2, ?_⟩
  intro received hrec picks answer revision' seen hans hsel hseen
  obtain ⟨r1, _⟩ := travels_all i2 hrec
  obtain ⟨s1, s2⟩ := travels_all (fun b hb => (hans b hb).1) hseen
  have e1 : Each (WrittenAs hdr.columnTypes ser) (received.flatMap rowsIn) batches.flatten :=
    Each.trans (P := List.Perm) (Q := WrittenAs hdr.columnTypes ser) (R := WrittenAs hdr.columnTypes ser) (fun _ _ _ h1 h2 => List.Perm.trans h1 h2)
      (Each.symm (fun _ _ => List.Perm.symm) r1) i3
  have e2 : Each (PartAs hdr.columnTypes ser names batches.flatten) picks (seen.flatMap rowsIn) := by
    refine Each.trans (Q := List.Perm) ?_ hsel s1
    intro i r r' ⟨row, g1, g2⟩ g3
    obtain ⟨x, x1, x2⟩ := each_at e1 g1
    exact ⟨x, x1, (g3.symm.trans g2).trans (List.Perm.filter _ x2)⟩
  obtain ⟨ys, e3, e4⟩ := read_parts (cfg := cfg) (de := de) (Q := Q) (fun x hx => by
    obtain ⟨rows, hm, hx⟩ := List.mem_flatten.mp hx
    exact h rows hm x hx) e2
  refine ⟨ys, collect_seen de (fun b hb => ?_) e3, e4⟩
  obtain ⟨k1, k2, a, k3, k4⟩ := s2 b hb
  exact ⟨k1, k2, by rw [k4]; exact (hans a k3).2⟩

/-! ### a declaration that writes given values -/

variable {ι : Type} {A : ι → Type}

/-- The same declaration, but writing always these values. -/
def givenOf (L : ∀ i, SqlType (A i)) : (fs : List (Str × Nest ι)) → List Value → Fields (RecordVal A fs) (RecordSlots A fs)
  | [], _ => .nil
  | f :: fs, vs => .cons ⟨f.1, f.1, false, false, none, .plain (fun _ _ => .ok (vs.headD .null)) (f.2.fromSql L) true, none⟩ (givenOf L fs vs.tail)

variable (L : ∀ i, SqlType (A i))

theorem given_ser (hints : IMap Ty) : ∀ (fs : List (Str × Nest ι)) (vs : List Value) (y : RecordVal A fs), vs.length = fs.length →
    (givenOf L fs vs).ser hints y = .ok ((fs.map Prod.fst).zip vs)
  | [], _, _, _ => rfl
  | f :: fs, [], _, h => by cases h
  | f :: fs, v :: vs, y, h => by
    show (_ >>= fun a => (givenOf L fs vs).ser hints y.2 >>= fun b => Res.ok (a ++ b)) = _
    rw [given_ser hints fs vs y.2 (by simpa using h)]; rfl

theorem given_flatten : ∀ (fs : List (Str × Nest ι)) (x : List Value), (givenOf L fs x).anyFlatten = (recordOf L fs).anyFlatten
  | [], _ => rfl
  | _ :: fs, x => given_flatten fs x.tail

theorem given_empty : ∀ (fs : List (Str × Nest ι)) (x : List Value), (givenOf L fs x).empty = (recordOf L fs).empty
  | [], _ => rfl
  | f :: fs, x => by
    show ((⟨none, []⟩ : FieldSlot (f.2.den A)), (givenOf L fs x.tail).empty) = _
    rw [given_empty fs x.tail]; rfl

theorem given_sizes : ∀ (fs : List (Str × Nest ι)) (x : List Value), (givenOf L fs x).checkSizes = (recordOf L fs).checkSizes
  | [], _ => rfl
  | _ :: fs, x => given_sizes fs x.tail

theorem given_byName (c : Cell) : ∀ (fs : List (Str × Nest ι)) (x : List Value) (t : RecordSlots A fs),
    (givenOf L fs x).byName c t = (recordOf L fs).byName c t
  | [], _, _ => rfl
  | f :: fs, x, (s, ss) => by
    simp only [givenOf, recordOf, Fields.byName, given_byName c fs x.tail ss]
    rfl

theorem given_byIndex (c : Cell) : ∀ (fs : List (Str × Nest ι)) (x : List Value) (i : Nat) (t : RecordSlots A fs),
    (givenOf L fs x).byIndex i c t = (recordOf L fs).byIndex i c t
  | [], _, _, _ => rfl
  | f :: fs, x, i, (s, ss) => by
    simp only [givenOf, recordOf, Fields.byIndex, given_byIndex c fs x.tail _ ss]
    rfl

theorem given_absorb (fs : List (Str × Nest ι)) (x : List Value) : ∀ (cells : List Cell) (i : Nat) (t : RecordSlots A fs),
    (givenOf L fs x).absorb i cells t = (recordOf L fs).absorb i cells t
  | [], _, _ => rfl
  | c :: cells, i, t => by
    simp only [Fields.absorb, given_byName, given_byIndex, given_flatten, given_absorb fs x cells]

theorem given_pull : ∀ (fs : List (Str × Nest ι)) (x : List Value) (cells flat : IMap (Ty × Value)),
    (givenOf L fs x).pull cells flat = (recordOf L fs).pull cells flat
  | [], _, _, _ => rfl
  | f :: fs, x, cells, flat => by
    simp only [givenOf, recordOf, Fields.pull, given_pull fs x.tail]
    rfl

theorem given_rectify : ∀ (fs : List (Str × Nest ι)) (x : List Value) (t : RecordSlots A fs), (givenOf L fs x).rectify t = (recordOf L fs).rectify t
  | [], _, _ => rfl
  | f :: fs, x, (s, ss) => by
    simp only [givenOf, recordOf, Fields.rectify, given_rectify fs x.tail ss]
    rfl

theorem given_settle : ∀ (fs : List (Str × Nest ι)) (x : List Value) (d : Option (RecordVal A fs)) (t : RecordSlots A fs),
    (givenOf L fs x).settle d t = (recordOf L fs).settle d t
  | [], _, _, _ => rfl
  | f :: fs, x, d, (s, ss) => by
    simp only [givenOf, recordOf, Fields.settle, given_settle fs x.tail _ ss]
    rfl

theorem given_build : ∀ (fs : List (Str × Nest ι)) (x : List Value) (d : Option (RecordVal A fs)) (t : RecordSlots A fs) (flat : IMap (Ty × Value)),
    (givenOf L fs x).build d t flat = (recordOf L fs).build d t flat
  | [], _, _, _, _ => rfl
  | f :: fs, x, d, (s, ss), flat => by
    simp only [givenOf, recordOf, Fields.build, given_build fs x.tail _ ss]
    rfl

theorem given_de (fs : List (Str × Nest ι)) (x : List Value) (d : Option (RecordVal A fs)) (cells : List Cell) :
    (givenOf L fs x).de d cells = (recordOf L fs).de d cells := by
  unfold Fields.de
  simp only [given_sizes, given_pull, given_absorb, given_empty, given_rectify, given_settle, given_build]

variable {L}

theorem given_names : ∀ (fs : List (Str × Nest ι)) (x : List Value), (givenOf L fs x).names = some (fs.map Prod.fst)
  | [], _ => rfl
  | f :: fs, x => by
    show (match some [f.1], (givenOf L fs x.tail).names with | some a, some b => some (a ++ b) | _, _ => none) = _
    rw [given_names fs x.tail]; rfl

theorem given_claims : ∀ (fs : List (Str × Nest ι)) (x : List Value) (n : Str), FieldsClaim (givenOf L fs x) n → n ∈ fs.map Prod.fst
  | [], _, _, h => h.elim
  | f :: fs, x, n, h => by
    rcases h with h | h
    · rw [show n = f.1 from h.2]; exact List.mem_cons_self ..
    · exact List.mem_cons_of_mem _ (given_claims fs x.tail n h)

theorem given_apart : ∀ (fs : List (Str × Nest ι)) (x : List Value), (fs.map Prod.fst).Nodup → Apart (givenOf L fs x)
  | [], _, _ => trivial
  | f :: fs, x, h => by
    rw [List.map_cons, List.nodup_cons] at h
    refine ⟨fun n hn hc => ?_, given_apart fs x.tail h.2⟩
    have : n = f.1 := hn.2
    exact h.1 (this ▸ given_claims fs x.tail n hc)

/-- Field by field, the value in the column reads as the field. -/
def ReadOff (L : ∀ i, SqlType (A i)) (T : Str → Ty) : (gs : List (Str × Nest ι)) → List Value → RecordVal A gs → Prop
  | [], vs, _ => vs = []
  | g :: gs, vs, y => ∃ v vs', vs = v :: vs' ∧ g.2.fromSql L (T g.1).stripLowCardinality v = .ok y.1 ∧ ReadOff L T gs vs' y.2

theorem readOff_law {T : Str → Ty} (hints : IMap Ty) : ∀ (gs : List (Str × Nest ι)) (vs : List Value) (y : RecordVal A gs), ReadOff L T gs vs y →
    vs.length = gs.length ∧ FieldsLaw (givenOf L gs vs) hints T none y
  | [], _, _, h => by cases h; exact ⟨rfl, trivial⟩
  | g :: gs, _, y, h => by
    obtain ⟨v, vs, rfl, h1, h2⟩ := h
    obtain ⟨k1, k2⟩ := readOff_law hints gs vs y.2 h2
    exact ⟨by simp [k1], .inl ⟨rfl, rfl, v, rfl, h1⟩, k2⟩

/-- A struct is read from columns with its names, in any order. -/
theorem readOff_de {T : Str → Ty} (gs : List (Str × Nest ι)) (hn : (gs.map Prod.fst).Nodup) (vs : List Value) (y : RecordVal A gs)
    (h : ReadOff L T gs vs y) (cells : List Cell) (hp : cells.Perm (cellsOf T ((gs.map Prod.fst).zip vs))) :
    ((recordOf L gs).derive none).de cells = .ok y := by
  obtain ⟨h1, h2⟩ := readOff_law [] gs vs y h
  obtain ⟨cols, c1, _, c3⟩ := C54_roundtrip (givenOf L gs vs) none [] T y _ h2 (given_apart gs vs hn) (given_names gs vs) hn
  have c1 : (givenOf L gs vs).ser [] y = .ok cols := c1
  rw [given_ser L [] gs vs y h1] at c1
  cases c1
  exact (given_de L gs vs none cells).symm.trans (c3 cells hp)

/-! ### structs -/

theorem valid_not_null {cfg : Cfg} {T : Ty} {v : Value} (hn : T.isNullable = false) (hl : isLc T = false) (h : T.innerValidate cfg v = true) :
    v ≠ .null := by
  rintro rfl
  cases T <;> first | (cases hn; done) | (cases hl; done) | (simp [Ty.innerValidate] at h)

theorem field_stored {cfg : Cfg} {header : IMap Ty} {R : ∀ i, A i → A i → Prop} : ∀ {fs : List (Str × Nest ι)} {x : RecordVal A fs},
    RecordHolds cfg header L R fs x → ∀ {cols : List (Str × Value)}, (recordOf L fs).ser header x = .ok cols → ∀ {n : Str} {t : Nest ι}, (n, t) ∈ fs →
      ∃ T a v y, header.get n = some T ∧ WellFormed cfg T ∧ HasField x n t a ∧ (n, v) ∈ cols ∧ T.innerValidate cfg v = true ∧
        t.fromSql L T.stripLowCardinality v = .ok y ∧ SameUpTo R t a y
  | [], _, _, _, _, _, _, hm => by cases hm
  | f :: fs, x, h, cols, hc, n, t, hm => by
    obtain ⟨⟨T, h1, hT, hw, hx⟩, h2⟩ := h
    obtain ⟨p, hp, hc⟩ := Res.bind_eq_ok.mp hc
    obtain ⟨b, hb, hc⟩ := Res.bind_eq_ok.mp hc
    cases hc
    obtain ⟨a, xs⟩ := x
    rcases List.mem_cons.mp hm with e | hm
    · subst e
      obtain ⟨w, y, k1, k2, _, _, k5, k6⟩ := C104_stored cfg L R t T hT hw a hx
      have e : p = [(n, w)] := by
        have : (t.toSql L (header.get n) a >>= fun v => Res.ok [(n, v)]) = .ok p := hp
        have h1 : header.get n = some T := h1
        rw [h1, k1] at this
        cases this; rfl
      refine ⟨T, a, w, y, h1, hw, .here (f := (n, t)) a xs, by rw [e]; exact List.mem_append_left _ (List.mem_singleton.mpr rfl), ?_, k5, k6⟩
      unfold Ty.validateValue at k2
      exact (Bool.and_eq_true _ _ ▸ k2).2
    · obtain ⟨T', a', v, y, k1, k2, k3, k4, k5⟩ := field_stored h2 hb hm
      exact ⟨T', a', v, y, k1, k2, .there a xs k3, List.mem_append_right _ k4, k5⟩

theorem reader_gets {cfg : Cfg} {header : IMap Ty} {R : ∀ i, A i → A i → Prop} {fs : List (Str × Nest ι)} {x : RecordVal A fs}
    (hx : RecordHolds cfg header L R fs x) {cols : List (Str × Value)} (hc : (recordOf L fs).ser header x = .ok cols) :
    ∀ (gs : List (Str × Nest ι)), ReadsFrom header fs gs →
      ∃ vs y, ReadOff L (typeIn header) gs vs y ∧ SeenIn R x gs y ∧ vs.length = gs.length ∧ ∀ e ∈ (gs.map Prod.fst).zip vs, e ∈ cols
  | [], _ => ⟨[], (), rfl, trivial, rfl, fun _ h => by cases h⟩
  | g :: gs, hg => by
    obtain ⟨vs, ys, k1, k2, k3, k4⟩ := reader_gets hx hc gs (fun g' hg' => hg g' (List.mem_cons_of_mem _ hg'))
    obtain ⟨t, ht, ho⟩ := hg g (List.mem_cons_self ..)
    obtain ⟨T, a, v, y, f1, fw, f2, f3, f4, f5, f6⟩ := field_stored hx hc ht
    have e : (typeIn header g.1).stripLowCardinality = T.stripLowCardinality := by
      unfold typeIn
      rw [f1]
      exact strip_twice fw
    have hz : ∀ e ∈ ((g :: gs).map Prod.fst).zip (v :: vs), e ∈ cols := by
      intro e he
      rcases List.mem_cons.mp he with rfl | he
      · exact f3
      · exact k4 e he
    obtain ⟨n, u⟩ := g
    rcases ho with rfl | ⟨rfl, ho⟩
    · exact ⟨v :: vs, (y, ys), ⟨v, vs, rfl, by rw [e]; exact f5, k1⟩, ⟨⟨_, a, f2, .same f6⟩, k2⟩, by simp [k3], hz⟩
    · have hnn : v ≠ .null := by
        refine valid_not_null (cfg := cfg) (ho T f1) ?_ (by rw [validate_strip]; exact f4)
        cases fw with
        | lowCardinality h _ => rename_i t _; cases t <;> first | rfl | cases h
        | _ => rfl
      refine ⟨v :: vs, (some y, ys), ⟨v, vs, rfl, ?_, k1⟩, ⟨⟨t, a, f2, .optional f6⟩, k2⟩, by simp [k3], hz⟩
      show optionFromSql (t.fromSql L) (typeIn header n).stripLowCardinality v = .ok (some y)
      have e : (typeIn header n).stripLowCardinality = T.stripLowCardinality := e
      have hs : optionSub T.stripLowCardinality = T.stripLowCardinality := by
        have := ho T f1
        generalize T.stripLowCardinality = S at this
        cases S <;> first | rfl | (cases this; done)
      rw [e]
      unfold optionFromSql
      split
      · exact absurd rfl hnn
      · rw [hs, f5]; rfl

/-- C106 for structs: what a struct (C104) wrote is read, from the columns that another struct declares, as that struct, every field of which gets the
value of the field of that name. -/
theorem C106_struct (cfg : Cfg) (header : IMap Ty) (L : ∀ i, SqlType (A i)) (R : ∀ i, A i → A i → Prop) (fs gs : List (Str × Nest ι))
    (hn : (fs.map Prod.fst).Nodup) (hk : ∀ name, name ∈ fs.map Prod.fst ↔ name ∈ header.keys) (x : RecordVal A fs)
    (hx : RecordHolds cfg header L R fs x) (hg : (gs.map Prod.fst).Nodup) (hr : ReadsFrom header fs gs) :
    ReadPart cfg header ((recordOf L fs).derive none).ser (gs.map Prod.fst) ((recordOf L gs).derive none).de (fun x y => SeenIn R x gs y) x := by
  obtain ⟨cols, c1, c2, c3, _⟩ := C104_struct cfg header L R fs hn hk x hx
  obtain ⟨vs, y, k1, k2, k3, k4⟩ := reader_gets hx c1 gs hr
  refine ⟨cols, c1, c2, c3, y, k2, fun cells hp => readOff_de gs hg vs y k1 cells (hp.trans ?_)⟩
  unfold inColumns cellsOf
  rw [List.filter_map]
  have hz : ((gs.map Prod.fst).zip vs).map Prod.fst = gs.map Prod.fst := by
    rw [List.map_fst_zip]; simp [k3]
  refine List.Perm.map _ ((List.perm_ext_iff_of_nodup ?_ ?_).mpr ?_)
  · exact List.Nodup.sublist List.filter_sublist (nodup_of_map Prod.fst c2.once)
  · exact nodup_of_map Prod.fst (by rw [hz]; exact hg)
  · intro e
    simp only [List.mem_filter, Function.comp, List.contains_iff_mem]
    constructor
    · intro ⟨he, hm⟩
      rw [← hz] at hm
      obtain ⟨e', he', hee⟩ := List.mem_map.mp hm
      have h1 := valueFor_mem c2.once (show (e'.1, e'.2) ∈ cols from k4 e' he')
      have h2 := valueFor_mem c2.once (show (e.1, e.2) ∈ cols from he)
      rw [hee, h2] at h1
      rw [show e = e' from Prod.ext hee.symm (Option.some.inj h1)]
      exact he'
    · intro he
      exact ⟨k4 e he, by rw [← hz]; exact List.mem_map.mpr ⟨e, he, rfl⟩⟩

/-- C106, the whole way: rows of one struct are inserted, in any batches, and a query of the columns another struct declares, answered with some of
these rows in any order and blocks, gives one value of the other struct for each row of the answer, every field of which has the value
of the field of that name in that row (up to what user types make of their values). -/
theorem C106_insert (cfg : Cfg) (ext : Ext) (hdr : Block) (L : ∀ i, SqlType (A i)) (R : ∀ i, A i → A i → Prop) (fs gs : List (Str × Nest ι))
    (batches : List (List (RecordVal A fs)))
    (hh : hdr.columnTypes ≠ []) (hn : hdr.columnTypes.keys.Nodup) (hl : hdr.columnTypes.length < 2 ^ 63)
    (hd : (fs.map Prod.fst).Nodup) (hk : ∀ name, name ∈ fs.map Prod.fst ↔ name ∈ hdr.columnTypes.keys)
    (hg : (gs.map Prod.fst).Nodup) (hrd : ReadsFrom hdr.columnTypes fs gs)
    (ht : ∀ name T, (name, T) ∈ hdr.columnTypes →
      (utf8Encode name).length ≤ maxStringSize ∧ TextOk cfg T ∧ (utf8Encode T.display).length ≤ maxStringSize ∧ WellFormed cfg T)
    (hr : ∀ rows ∈ batches, rows.length < 2 ^ 63) (hx : ∀ rows ∈ batches, ∀ x ∈ rows, RecordHolds cfg hdr.columnTypes L R fs x)
    (hf : ∀ rows ∈ batches, ∀ name T, (name, T) ∈ hdr.columnTypes →
      Fits T (columnOf hdr.columnTypes ((recordOf L fs).derive none).ser name rows))
    (acks : List Bool) (ha : acks = List.replicate ((batches.filter (fun rows => !rows.isEmpty)).length + 1) true) (revision : Nat) :
    ∃ blocks, insertNative cfg ext ((recordOf L fs).derive none).ser (some (.block hdr)) acks batches = (blocks ++ [endBlock], .ok ()) ∧
      (∃ received, Each (Travels cfg revision) blocks received) ∧
      ∀ received, Each (Travels cfg revision) blocks received →
        ∀ (picks : List Nat) (answer : List Block) (revision' : Nat) (seen : List Block), (∀ b ∈ answer, AnswerOk cfg b ∧ b.rows ≤ 2 ^ 57) →
          Selects (gs.map Prod.fst) picks received answer → Each (Travels cfg revision') answer seen →
          ∃ rows, collectRows (queryStream ((recordOf L gs).derive none).de (seen.map Item.block)) = .ok rows ∧
            Each (fun (i : Nat) y => ∃ x, batches.flatten[i]? = some x ∧ SeenIn R x gs y) picks rows :=
  C106_select cfg ext hdr _ (gs.map Prod.fst) _ (fun x y => SeenIn R x gs y) batches hh hn hl hr
    (fun rows hm x hx' => C106_struct cfg hdr.columnTypes L R fs gs hd hk x (hx rows hm x hx') hg hrd)
    (fun rows hm name T hT => by
      obtain ⟨k1, k2, k3, k4⟩ := ht name T hT
      exact ⟨k1, k2, k3, k4, record_column hn hd hk (hx rows hm) hT, hf rows hm name T hT⟩) acks ha revision

/-- C106: the other way round an `Option` cannot be left out: a column that may be NULL is not read as a plain number, whatever the value. -/
theorem C106_not_optional (p : Prim) (S : Ty) (v : Value) : p.fromSql (.nullable S) v = .err (unexpectedType (.nullable S)) := by
  cases p <;> rfl

/-- A reader of the prices alone, as if they were optional: -/
def exPriceOnly : List (Str × Nest Bool) := [(ch! "price", .option (.user true))]

example (cfg : Cfg) : ReadPart cfg exPriceTable ((recordOf (exUsers cfg) exPrice).derive none).ser [ch! "price"]
    ((recordOf (exUsers cfg) exPriceOnly).derive none).de
    (fun x y => SeenIn exKeeps x exPriceOnly y) (some (tzUTC, (⟨0, 1500⟩ : Inst)), (⟨15, 1⟩ : Decimal), ()) := by
  refine C106_struct cfg exPriceTable (exUsers cfg) exKeeps exPrice exPriceOnly (by decide) (fun name => by simp [exPrice, exPriceTable, IMap.keys, or_comm]) _ ?_
    (by decide) ?_
  · refine ⟨⟨.nullable (.dateTime64 6 tzUTC), rfl, rfl, .nullable rfl .dateTime64, (by intro h; cases h), .inl ⟨_, rfl, ?_⟩⟩,
      ⟨.decimal32 4, rfl, rfl, .decimal32, ?_⟩, trivial⟩
    · exact C104_chrono cfg _ tzUTC ⟨0, 1500⟩ (by unfold Inst.Valid; decide) (by decide) (by decide)
    · exact C104_decimal cfg ⟨15, 1⟩ (.decimal32 4) rfl 32 4 rfl (by decide) (by decide) (by unfold InBits; decide) (by decide)
  · intro g hg
    cases List.mem_singleton.mp hg
    refine ⟨.user true, by simp [exPrice], .inr ⟨rfl, ?_⟩⟩
    intro T hT
    cases hT
    rfl

/-- Of the three items received, the third and the first, only their texts. -/
example : Selects [ch! "b"] [2, 0] exReceived
    [⟨BlockInfo.default, 2, [(ch! "b", .string)], [(ch! "b", [.string [66#8], .string [65#8]])]⟩] :=
  ⟨⟨_, rfl, .refl _⟩, ⟨_, rfl, .refl _⟩, trivial⟩

end Props
end Klick
