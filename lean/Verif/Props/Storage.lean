import Verif.Spec.Storage
import Verif.Props.Insert
import Verif.Props.Query
import Verif.Props.Derive
/-
C71: rows inserted and selected again are the same rows.
-/
namespace Klick
open Spec Props

/-! ### `Each` -/

theorem Each.trans {α β γ : Type} {P : α → β → Prop} {Q : β → γ → Prop} {R : α → γ → Prop} (h : ∀ a b c, P a b → Q b c → R a c) :
    ∀ {as : List α} {bs : List β} {cs : List γ}, Each P as bs → Each Q bs cs → Each R as cs
  | [], [], [], _, _ => trivial
  | _ :: _, _ :: _, _ :: _, h1, h2 => ⟨h _ _ _ h1.1 h2.1, Each.trans h h1.2 h2.2⟩
  | [], [], _ :: _, _, h2 => h2.elim
  | [], _ :: _, _, h1, _ => h1.elim
  | _ :: _, [], _, h1, _ => h1.elim
  | _ :: _, _ :: _, [], _, h2 => h2.elim

theorem Each.symm {α β : Type} {P : α → β → Prop} {Q : β → α → Prop} (h : ∀ a b, P a b → Q b a) :
    ∀ {as : List α} {bs : List β}, Each P as bs → Each Q bs as
  | [], [], _ => trivial
  | _ :: _, _ :: _, h1 => ⟨h _ _ h1.1, Each.symm h h1.2⟩
  | [], _ :: _, h1 => h1.elim
  | _ :: _, [], h1 => h1.elim

theorem Each.append {α β : Type} {P : α → β → Prop} :
    ∀ {as : List α} {bs : List β} {as' : List α} {bs' : List β}, Each P as bs → Each P as' bs' → Each P (as ++ as') (bs ++ bs')
  | [], [], _, _, _, h2 => h2
  | _ :: _, _ :: _, _, _, h1, h2 => ⟨h1.1, Each.append h1.2 h2⟩
  | [], _ :: _, _, _, h1, _ => h1.elim
  | _ :: _, [], _, _, h1, _ => h1.elim

theorem Each.map {α β γ : Type} {P : α → β → Prop} (f : γ → α) (g : γ → β) : ∀ (l : List γ), (∀ c ∈ l, P (f c) (g c)) → Each P (l.map f) (l.map g)
  | [], _ => trivial
  | c :: l, h => ⟨h c (List.mem_cons_self ..), Each.map f g l (fun c hc => h c (List.mem_cons_of_mem _ hc))⟩

theorem Each.flatMap {α β γ δ : Type} {P : α → β → Prop} {Q : γ → δ → Prop} {f : α → List γ} {g : β → List δ} (h : ∀ a b, P a b → Each Q (f a) (g b)) :
    ∀ {as : List α} {bs : List β}, Each P as bs → Each Q (as.flatMap f) (bs.flatMap g)
  | [], [], _ => trivial
  | _ :: _, _ :: _, h1 => by
    rw [List.flatMap_cons, List.flatMap_cons]
    exact Each.append (h _ _ h1.1) (Each.flatMap h h1.2)
  | [], _ :: _, h1 => h1.elim
  | _ :: _, [], h1 => h1.elim

/-! ### one block over the wire -/

/-- Row `i` of a block as a reader sees it, column by column. -/
def cellAt (b : Block) (i : Nat) (name : Str) : Cell :=
  (name, typeIn b.columnTypes name, (((b.columnData.get name).getD [])[i]?).getD .null)

theorem typedRow_keys {b : Block} (hn : b.columnData.keys.Nodup) (i : Nat) : typedRow b i = b.columnData.keys.map (cellAt b i) := by
  unfold typedRow IMap.keys
  rw [List.map_map]
  apply List.map_congr_left
  intro e he
  have : b.columnData.get e.1 = some e.2 := IMap.get_of_mem hn he
  simp only [Function.comp, cellAt, this, Option.getD_some, typeIn]

theorem travels_rows {cfg : Cfg} {b b' : Block} (ho : AnswerOk cfg b) {revision : Nat} (ht : Travels cfg revision b b') :
    Each List.Perm (rowsIn b) (rowsIn b') ∧ Rectangular b' ∧ Typed b' ∧ b'.rows = b.rows := by
  obtain ⟨bytes, w1, w2⟩ := C14_block_roundtrip cfg b ho.block revision
  obtain ⟨bytes', t1, rest, t2⟩ := ht
  obtain ⟨b2, r1, r2, r3, r4, r5⟩ := w2 rest
  rw [t1] at w1
  cases w1
  rw [r1] at t2
  cases t2
  have hget : ∀ name ∈ b.columnTypes.keys, b'.columnData.get name = b.columnData.get name := by
    intro name hm
    obtain ⟨e, he, rfl⟩ := List.mem_map.mp hm
    obtain ⟨vs, h1, h2, _⟩ := ho.block.cols e.1 e.2 he
    rw [r5 e.1 e.2 vs he h1, ho.normal e.1 e.2 vs he h1, h1]
  have hn' : b'.columnData.keys.Nodup := by rw [r4]; exact ho.block.names.1
  refine ⟨?_, ?_, ?_, r2⟩
  · unfold rowsIn
    have hp : b.columnData.keys.Perm b'.columnData.keys := by rw [r4]; exact ho.columns
    have hl := hp.length_eq
    have he : b.columnData.isEmpty = b'.columnData.isEmpty := by
      unfold IMap.keys at hl
      cases h1 : b.columnData <;> cases h2 : b'.columnData <;> simp_all
    rw [he, r2]
    split
    · trivial
    · refine Each.map _ _ _ ?_
      intro i _
      rw [typedRow_keys ho.block.names.2, typedRow_keys hn']
      refine (hp.map _).trans (List.Perm.of_eq ?_)
      apply List.map_congr_left
      intro name hm
      unfold cellAt
      rw [hget name (by rw [r4] at hm; exact hm), r3]
  · intro e he
    have hg := IMap.get_of_mem hn' he
    have hk : e.1 ∈ b.columnTypes.keys := by rw [← r4]; exact List.mem_map.mpr ⟨e, he, rfl⟩
    rw [hget _ hk] at hg
    obtain ⟨e', he', hk'⟩ := List.mem_map.mp hk
    obtain ⟨vs, h1, h2, _⟩ := ho.block.cols e'.1 e'.2 he'
    have h1 : b.columnData.get e.1 = some vs := by rw [← hk']; exact h1
    rw [h1] at hg
    cases hg
    rw [h2, r2]
  · intro e he
    have hk : e.1 ∈ b.columnTypes.keys := by rw [← r4]; exact List.mem_map.mpr ⟨e, he, rfl⟩
    rw [r3]
    cases hg : b.columnTypes.get e.1 with
    | some t => exact ⟨t, rfl⟩
    | none => exact absurd hk (IMap.get_none.mp hg)

/-! ### one batch -/

/-- The columns of a row that can be written. -/
def colsOf {R : Type} (header : IMap Ty) (ser : IMap Ty → R → Res (List (Str × Value))) (x : R) : List (Str × Value) :=
  match ser header x with
  | .ok cols => cols
  | _ => []

theorem colsOf_ok {R : Type} {header : IMap Ty} {ser : IMap Ty → R → Res (List (Str × Value))} {x : R} {cols : List (Str × Value)}
    (h : ser header x = .ok cols) : colsOf header ser x = cols := by
  unfold colsOf; rw [h]

theorem perm_of_nodup {α : Type} [DecidableEq α] : ∀ {l l' : List α}, l.Nodup → l'.Nodup → (∀ a, a ∈ l ↔ a ∈ l') → l.Perm l' := by
  intro l l' h1 h2 h
  exact (List.perm_ext_iff_of_nodup h1 h2).mpr h

theorem valueFor_mem {cols : List (Str × Value)} (hn : (cols.map (·.1)).Nodup) {name : Str} {v : Value} (h : (name, v) ∈ cols) :
    valueFor cols name = some v := by
  induction cols with
  | nil => cases h
  | cons c cols ih =>
    unfold valueFor
    rw [List.map_cons, List.nodup_cons] at hn
    rcases List.mem_cons.mp h with rfl | h
    · simp
    · have hne : c.1 ≠ name := by
        intro e
        exact hn.1 (List.mem_map.mpr ⟨_, h, e.symm⟩)
      rw [List.find?_cons_of_neg (by simpa using hne)]
      exact ih hn.2 h

theorem each_range {α β : Type} {P : α → β → Prop} : ∀ (rows : List β) (f : Nat → α), (∀ (i : Nat) x, rows[i]? = some x → P (f i) x) →
    Each P ((List.range rows.length).map f) rows
  | [], _, _ => trivial
  | x :: rows, f, h => by
    rw [List.length_cons, List.range_succ_eq_map, List.map_cons, List.map_map]
    exact ⟨h 0 x rfl, each_range rows (f ∘ Nat.succ) (fun i y hy => h (i + 1) y hy)⟩

theorem batch_rows {R S : Type} (cfg : Cfg) (ext : Ext) (header : IMap Ty) (ser : IMap Ty → R → Res (List (Str × Value))) (de : TRow → Res S) (Q : R → S → Prop)
    (rows : List R) (hne : rows ≠ []) (hh : header ≠ []) (hn : header.keys.Nodup) (hl : header.length < 2 ^ 63) (hr : rows.length < 2 ^ 63)
    (h : ∀ x ∈ rows, ReadAs cfg header ser de Q x)
    (hs : ∀ name t, (name, t) ∈ header → Sendable cfg name t (columnOf header ser name rows)) :
    ∃ b, batchBlock cfg ext header (rows.map (ser header)) = .ok b ∧ AnswerOk cfg b ∧
      Each (fun r x => r.Perm (cellsOf (typeIn header) (colsOf header ser x))) (rowsIn b) rows := by
  have hc : ∀ r ∈ rows.map (colsOf header ser), Complete cfg header r := by
    intro r hm
    obtain ⟨x, hx, rfl⟩ := List.mem_map.mp hm
    obtain ⟨cols, h1, h2, _⟩ := h x hx
    rw [colsOf_ok h1]; exact h2
  have hser : rows.map (ser header) = (rows.map (colsOf header ser)).map Res.ok := by
    rw [List.map_map]
    apply List.map_congr_left
    intro x hx
    obtain ⟨cols, h1, _⟩ := h x hx
    rw [Function.comp, colsOf_ok h1, h1]
  have hcol : ∀ name, columnOf header ser name rows = (rows.map (colsOf header ser)).map (fun r => (valueFor r name).getD .null) := by
    intro name
    unfold columnOf
    rw [List.map_map]
    apply List.map_congr_left
    intro x hx
    obtain ⟨cols, h1, _⟩ := h x hx
    rw [Function.comp, colsOf_ok h1, h1]
  obtain ⟨b, hb, b1, b2, b3, b4⟩ := C37_columns cfg ext header (rows.map (colsOf header ser)) (by simpa using hne) hc
  have hdn : b.columnData.keys.Nodup := (C37_exact cfg ext header _ b hb).2.2.1
  have hval : ∀ name ∈ header.keys, b.columnData.get name = some (columnOf header ser name rows) := by
    intro name hm
    obtain ⟨col, c1, c2, c3⟩ := b3 name hm
    rw [c1, hcol name]
    congr 1
    apply List.ext_getElem?
    intro i
    rw [c3 i]
    clear hcol hb c3 b1
    revert hc
    generalize rows.map (colsOf header ser) = rs
    intro hc
    rw [List.getElem?_map]
    cases hi : rs[i]? with
    | none => rfl
    | some r =>
      obtain ⟨v, hv⟩ := complete_values (hc r (List.mem_of_getElem? hi)) hm
      simp [hv]
  have hkeys : ∀ name, name ∈ b.columnData.keys ↔ name ∈ header.keys := by
    intro name
    constructor
    · intro hm
      apply Classical.byContradiction
      intro hno
      exact IMap.get_none.mp (b4 name hno) hm
    · intro hm
      apply Classical.byContradiction
      intro hno
      have := IMap.get_none.mpr hno
      rw [hval name hm] at this; cases this
  have hperm : b.columnData.keys.Perm header.keys := perm_of_nodup hdn hn hkeys
  refine ⟨b, by rw [hser]; exact hb, ⟨⟨⟨by rw [b2]; exact hn, hdn⟩, by rw [b2]; exact hl, by rw [b1]; simpa using hr, ?_⟩, by rw [b2]; exact hperm, ?_⟩, ?_⟩
  · intro name t ht
    rw [b2] at ht
    refine ⟨_, hval name (List.mem_map.mpr ⟨_, ht, rfl⟩), ?_, hs name t ht⟩
    rw [b1]; simp [columnOf]
  · intro name t vs ht hv
    rw [b2] at ht
    rw [hval name (List.mem_map.mpr ⟨_, ht, rfl⟩)] at hv
    cases hv
    have hid : ∀ v ∈ columnOf header ser name rows, canon t v = id v := by
      intro v hv
      obtain ⟨x, hx, rfl⟩ := List.mem_map.mp hv
      obtain ⟨cols, h1, h2, h3, _⟩ := h x hx
      obtain ⟨v, hv⟩ := complete_values h2 (List.mem_map.mpr ⟨_, ht, rfl⟩)
      simp only [h1, hv, Option.getD_some, id]
      refine h3 name v t ?_ (IMap.get_of_mem hn ht)
      unfold valueFor at hv
      obtain ⟨e, he, rfl⟩ := Option.map_eq_some_iff.mp hv
      have hk := List.find?_some he
      have hk : e.1 = name := by simpa using hk
      rw [← hk]
      exact List.mem_of_find?_eq_some he
    rw [List.map_congr_left hid, List.map_id]
  · have he : b.columnData.isEmpty = false := by
      cases hd : b.columnData with
      | cons _ _ => rfl
      | nil =>
        rw [hd] at hperm
        have := hperm.length_eq
        unfold IMap.keys at this
        cases header with
        | nil => exact absurd rfl hh
        | cons _ _ => simp at this
    unfold rowsIn
    rw [he, b1, List.length_map, if_neg (by simp)]
    apply each_range
    intro i x hi
    obtain ⟨cols, h1, h2, h3, _⟩ := h x (List.mem_of_getElem? hi)
    rw [typedRow_keys hdn, colsOf_ok h1]
    have hk : b.columnData.keys.Perm (cols.map (·.1)) := perm_of_nodup hdn h2.once (fun a => (hkeys a).trans (h2.same a).symm)
    refine (hk.map _).trans (List.Perm.of_eq ?_)
    rw [List.map_map]
    apply List.map_congr_left
    intro e hm
    have hmk : e.1 ∈ header.keys := (h2.same e.1).mp (List.mem_map.mpr ⟨e, hm, rfl⟩)
    simp only [Function.comp, cellAt, b2, hval e.1 hmk, Option.getD_some]
    unfold columnOf
    rw [List.getElem?_map, hi]
    simp only [Option.map_some, Option.getD_some, h1, valueFor_mem h2.once (show (e.1, e.2) ∈ cols from hm)]

/-- Everything an answer shows is what the rows were written as. -/
def WrittenAs {R : Type} (header : IMap Ty) (ser : IMap Ty → R → Res (List (Str × Value))) (r : TRow) (x : R) : Prop :=
  r.Perm (cellsOf (typeIn header) (colsOf header ser x))

theorem insert_rows {R S : Type} (cfg : Cfg) (ext : Ext) (header : IMap Ty) (ser : IMap Ty → R → Res (List (Str × Value))) (de : TRow → Res S) (Q : R → S → Prop)
    (batches : List (List R)) (hh : header ≠ []) (hn : header.keys.Nodup) (hl : header.length < 2 ^ 63)
    (hr : ∀ rows ∈ batches, rows.length < 2 ^ 63)
    (h : ∀ rows ∈ batches, ∀ x ∈ rows, ReadAs cfg header ser de Q x)
    (hs : ∀ rows ∈ batches, ∀ name t, (name, t) ∈ header → Sendable cfg name t (columnOf header ser name rows)) :
    ∃ blocks, insertBatches cfg ext header (List.replicate ((batches.filter (fun rows => !rows.isEmpty)).length + 1) true) (batches.map (·.map (ser header))) =
        (blocks ++ [endBlock], .ok ()) ∧
      blocks.length = (batches.filter (fun rows => !rows.isEmpty)).length ∧
      (∀ b ∈ blocks, AnswerOk cfg b) ∧ Each (WrittenAs header ser) (blocks.flatMap rowsIn) batches.flatten := by
  induction batches with
  | nil => exact ⟨[], rfl, rfl, (by intro _ hb; cases hb), trivial⟩
  | cons rows batches ih =>
    obtain ⟨blocks, i1, i0, i2, i3⟩ := ih (fun rows hm => hr rows (List.mem_cons_of_mem _ hm)) (fun rows hm => h rows (List.mem_cons_of_mem _ hm))
      (fun rows hm => hs rows (List.mem_cons_of_mem _ hm))
    cases rows with
    | nil => exact ⟨blocks, i1, i0, i2, i3⟩
    | cons r rows =>
      obtain ⟨b, hb, ho, he⟩ := batch_rows cfg ext header ser de Q (r :: rows) (by simp) hh hn hl (hr _ (List.mem_cons_self ..)) (h _ (List.mem_cons_self ..))
        (hs _ (List.mem_cons_self ..))
      have hb' : batchBlock cfg ext header (ser header r :: rows.map (ser header)) = .ok b := hb
      refine ⟨b :: blocks, ?_, ?_, ?_, ?_⟩
      · simp only [List.map_cons, insertBatches, List.isEmpty_cons, Bool.not_false, List.filter_cons_of_pos, List.length_cons]
        rw [List.replicate_succ, hb']
        simp only
        rw [i1]
        rfl
      · simp only [List.isEmpty_cons, Bool.not_false, List.filter_cons_of_pos, List.length_cons, i0]
      · intro b' hm
        rcases List.mem_cons.mp hm with rfl | hm
        · exact ho
        · exact i2 b' hm
      · rw [List.flatMap_cons, List.flatten_cons]
        exact Each.append he i3

theorem travels_exists {cfg : Cfg} {b : Block} (ho : AnswerOk cfg b) (revision : Nat) : ∃ b', Travels cfg revision b b' := by
  obtain ⟨bytes, w1, w2⟩ := C14_block_roundtrip cfg b ho.block revision
  obtain ⟨b2, r1, _⟩ := w2 []
  exact ⟨b2, bytes, w1, [], r1⟩

theorem travels_each {cfg : Cfg} (revision : Nat) : ∀ (bs : List Block), (∀ b ∈ bs, AnswerOk cfg b) → ∃ bs', Each (Travels cfg revision) bs bs'
  | [], _ => ⟨[], trivial⟩
  | b :: bs, h => by
    obtain ⟨b', h1⟩ := travels_exists (h b (List.mem_cons_self ..)) revision
    obtain ⟨bs', h2⟩ := travels_each revision bs (fun b hb => h b (List.mem_cons_of_mem _ hb))
    exact ⟨b' :: bs', h1, h2⟩

theorem travels_all {cfg : Cfg} {revision : Nat} : ∀ {bs bs' : List Block}, (∀ b ∈ bs, AnswerOk cfg b) → Each (Travels cfg revision) bs bs' →
    Each List.Perm (bs.flatMap rowsIn) (bs'.flatMap rowsIn) ∧
      ∀ b ∈ bs', Rectangular b ∧ Typed b ∧ ∃ a ∈ bs, b.rows = a.rows
  | [], [], _, _ => ⟨trivial, fun _ hb => by cases hb⟩
  | [], _ :: _, _, h => h.elim
  | _ :: _, [], _, h => h.elim
  | b :: bs, b' :: bs', ho, h => by
    obtain ⟨h1, h2⟩ := travels_rows (ho b (List.mem_cons_self ..)) h.1
    obtain ⟨h3, h4⟩ := travels_all (fun b hb => ho b (List.mem_cons_of_mem _ hb)) h.2
    refine ⟨?_, ?_⟩
    · rw [List.flatMap_cons, List.flatMap_cons]
      exact Each.append h1 h3
    · intro c hc
      rcases List.mem_cons.mp hc with rfl | hc
      · exact ⟨h2.1, h2.2.1, _, List.mem_cons_self .., h2.2.2⟩
      · obtain ⟨k1, k2, a, k3, k4⟩ := h4 c hc
        exact ⟨k1, k2, a, List.mem_cons_of_mem _ k3, k4⟩

theorem _root_.Klick.Spec.Survives.readAs {R : Type} {cfg : Cfg} {header : IMap Ty} {ser : IMap Ty → R → Res (List (Str × Value))} {de : TRow → Res R}
    {x : R} (h : Survives cfg header ser de x) : ReadAs cfg header ser de (fun a b => a = b) x := by
  obtain ⟨cols, h1, h2, h3, h4⟩ := h
  exact ⟨cols, h1, h2, h3, x, rfl, h4⟩

theorem each_eq {α : Type} : ∀ {xs ys : List α}, Each (fun a b => a = b) xs ys → xs = ys
  | [], [], _ => rfl
  | [], _ :: _, h => h.elim
  | _ :: _, [], h => h.elim
  | _ :: _, _ :: _, h => by rw [h.1, each_eq h.2]

theorem read_each {R S : Type} {cfg : Cfg} {header : IMap Ty} {ser : IMap Ty → R → Res (List (Str × Value))} {de : TRow → Res S} {Q : R → S → Prop} :
    ∀ {rows : List TRow} {xs : List R}, (∀ x ∈ xs, ReadAs cfg header ser de Q x) → Each (WrittenAs header ser) rows xs →
      ∃ ys, rows.map de = ys.map .ok ∧ Each Q xs ys
  | [], [], _, _ => ⟨[], rfl, trivial⟩
  | [], _ :: _, _, h => h.elim
  | _ :: _, [], _, h => h.elim
  | r :: rows, x :: xs, hs, h => by
    obtain ⟨cols, h1, _, _, y, h4, h5⟩ := hs x (List.mem_cons_self ..)
    have := h.1
    unfold WrittenAs at this
    rw [colsOf_ok h1] at this
    obtain ⟨ys, k1, k2⟩ := read_each (fun x hx => hs x (List.mem_cons_of_mem _ hx)) h.2
    exact ⟨y :: ys, by rw [List.map_cons, List.map_cons, h5 r this, k1], h4, k2⟩

/-- C71, more generally: the query may read other types, by other code, than the insert wrote. If what was written of each row reads as something in
the relation `Q` to it, then the query gives one such thing for every row inserted, in order. -/
theorem C71_readers {R S : Type} (cfg : Cfg) (ext : Ext) (hdr : Block) (ser : IMap Ty → R → Res (List (Str × Value))) (de : TRow → Res S)
    (Q : R → S → Prop)
    (batches : List (List R)) (hh : hdr.columnTypes ≠ []) (hn : hdr.columnTypes.keys.Nodup) (hl : hdr.columnTypes.length < 2 ^ 63)
    (hr : ∀ rows ∈ batches, rows.length < 2 ^ 63)
    (h : ∀ rows ∈ batches, ∀ x ∈ rows, ReadAs cfg hdr.columnTypes ser de Q x)
    (hs : ∀ rows ∈ batches, ∀ name t, (name, t) ∈ hdr.columnTypes → Sendable cfg name t (columnOf hdr.columnTypes ser name rows))
    (acks : List Bool) (ha : acks = List.replicate ((batches.filter (fun rows => !rows.isEmpty)).length + 1) true) (revision : Nat) :
    ∃ blocks, insertNative cfg ext ser (some (.block hdr)) acks batches = (blocks ++ [endBlock], .ok ()) ∧
      blocks.length = (batches.filter (fun rows => !rows.isEmpty)).length ∧
      (∃ received, Each (Travels cfg revision) blocks received) ∧
      ∀ received, Each (Travels cfg revision) blocks received →
        ∀ (answer : List Block) (revision' : Nat) (seen : List Block), (∀ b ∈ answer, AnswerOk cfg b ∧ b.rows ≤ 2 ^ 57) → SameRows received answer →
          Each (Travels cfg revision') answer seen →
          ∃ ys, collectRows (queryStream de (seen.map Item.block)) = .ok ys ∧ Each Q batches.flatten ys := by
  obtain ⟨blocks, i1, i0, i2, i3⟩ := insert_rows cfg ext hdr.columnTypes ser de Q batches hh hn hl hr h hs
  refine ⟨blocks, by rw [ha]; exact i1, i0, travels_each revision blocks i2, ?_⟩
  intro received hrec answer revision' seen hans hsame hseen
  obtain ⟨r1, _⟩ := travels_all i2 hrec
  obtain ⟨s1, s2⟩ := travels_all (fun b hb => (hans b hb).1) hseen
  have e1 : Each List.Perm (blocks.flatMap rowsIn) (seen.flatMap rowsIn) :=
    Each.trans (P := List.Perm) (Q := List.Perm) (fun _ _ _ => List.Perm.trans) r1
      (Each.trans (P := List.Perm) (Q := List.Perm) (fun _ _ _ => List.Perm.trans) (show Each List.Perm _ _ from hsame) s1)
  have e2 : Each (WrittenAs hdr.columnTypes ser) (seen.flatMap rowsIn) batches.flatten :=
    Each.trans (P := List.Perm) (Q := WrittenAs hdr.columnTypes ser) (R := WrittenAs hdr.columnTypes ser) (fun _ _ _ h1 h2 => List.Perm.trans h1 h2)
      (Each.symm (fun _ _ => List.Perm.symm) e1) i3
  obtain ⟨ys, e3, e0⟩ : ∃ ys, (seen.flatMap rowsIn).map de = ys.map .ok ∧ Each Q batches.flatten ys :=
    read_each (cfg := cfg) (fun x hx => by
      obtain ⟨rows, hm, hx⟩ := List.mem_flatten.mp hx
      exact h rows hm x hx) e2
  have e4 : (seen.map Item.block).flatMap (expected de) = ys.map .ok := by
    rw [← e3, List.map_flatMap, List.flatMap_map]
    rfl
  have e5 : queryStream de (seen.map Item.block) = ys.map .ok := by
    rw [C36_stream_partial de _ ?_ ?_, e4]
    rotate_left
    · intro b hb row hrow hp
      obtain ⟨b', hm, he⟩ := List.mem_map.mp hb
      cases he
      have : de row ∈ ys.map Res.ok := by
        rw [← e3]; exact List.mem_map.mpr ⟨row, List.mem_flatMap.mpr ⟨b, hm, hrow⟩, rfl⟩
      rw [hp] at this
      obtain ⟨_, _, h⟩ := List.mem_map.mp this
      cases h
    intro i hi b hb
    subst hb
    obtain ⟨b', hm, he⟩ := List.mem_map.mp hi
    cases he
    obtain ⟨k1, k2, a, k3, k4⟩ := s2 b hm
    exact ⟨k1, k2, by rw [k4]; exact (hans a k3).2⟩
  refine ⟨ys, ?_, e0⟩
  rw [e5]
  exact (C36_collect _).1

/-- C71: whatever rows are inserted, in whatever batches, if their types survive conversion (C24, C54) and their values can be sent (C04), the
insert succeeds and what the server receives is such that, when it answers a later query with the same rows in the same order, cut into blocks in
any way, its columns in any order, at any protocol revisions, then the query gives exactly the rows inserted: none lost, none doubled, none changed,
in order. -/
theorem C71_roundtrip {R : Type} (cfg : Cfg) (ext : Ext) (hdr : Block) (ser : IMap Ty → R → Res (List (Str × Value))) (de : TRow → Res R)
    (batches : List (List R)) (hh : hdr.columnTypes ≠ []) (hn : hdr.columnTypes.keys.Nodup) (hl : hdr.columnTypes.length < 2 ^ 63)
    (hr : ∀ rows ∈ batches, rows.length < 2 ^ 63)
    (h : ∀ rows ∈ batches, ∀ x ∈ rows, Survives cfg hdr.columnTypes ser de x)
    (hs : ∀ rows ∈ batches, ∀ name t, (name, t) ∈ hdr.columnTypes → Sendable cfg name t (columnOf hdr.columnTypes ser name rows))
    (acks : List Bool) (ha : acks = List.replicate ((batches.filter (fun rows => !rows.isEmpty)).length + 1) true) (revision : Nat) :
    ∃ blocks, insertNative cfg ext ser (some (.block hdr)) acks batches = (blocks ++ [endBlock], .ok ()) ∧
      blocks.length = (batches.filter (fun rows => !rows.isEmpty)).length ∧
      (∃ received, Each (Travels cfg revision) blocks received) ∧
      ∀ received, Each (Travels cfg revision) blocks received →
        ∀ (answer : List Block) (revision' : Nat) (seen : List Block), (∀ b ∈ answer, AnswerOk cfg b ∧ b.rows ≤ 2 ^ 57) → SameRows received answer →
          Each (Travels cfg revision') answer seen →
          collectRows (queryStream de (seen.map Item.block)) = .ok batches.flatten := by
  obtain ⟨blocks, h1, h2, h3, h4⟩ := C71_readers cfg ext hdr ser de (fun a b => a = b) batches hh hn hl hr (fun rows hm x hx => (h rows hm x hx).readAs) hs acks ha revision
  refine ⟨blocks, h1, h2, h3, fun received hrec answer revision' seen hans hsame hseen => ?_⟩
  obtain ⟨ys, k1, k2⟩ := h4 received hrec answer revision' seen hans hsame hseen
  rw [k1, each_eq k2]

/-- C71 for row types: a row that survives its own conversions and whose values are valid for their columns, and in normal form there, is one
`C71_roundtrip` speaks of. -/
theorem C71_row_type {α : Type} (r : RowImpl α) (cfg : Cfg) (header : IMap Ty) (x : α) (names : List Str)
    (hc : Carries r header (typeIn header) x names) (hn : names.Nodup) (hk : ∀ name, name ∈ names ↔ name ∈ header.keys)
    (hv : ∀ cols, r.ser header x = .ok cols → ∀ name v, (name, v) ∈ cols →
      ∃ t, header.get name = some t ∧ t.validateValue cfg v = true ∧ canon t v = v) :
    Survives cfg header r.ser r.de x := by
  obtain ⟨cols, h1, h2, h3⟩ := hc
  have h2' : cols.map (·.1) = names := h2
  refine ⟨cols, h1, ⟨by rw [h2']; exact hn, fun name => by rw [h2']; exact hk name, fun name v hm => ?_⟩, ?_, ?_⟩
  · obtain ⟨t, t1, t2, _⟩ := hv cols h1 name v hm
    exact ⟨t, t1, t2⟩
  · intro name v t hm ht
    obtain ⟨t', t1, _, t3⟩ := hv cols h1 name v hm
    rw [ht] at t1
    cases t1
    exact t3
  · intro cells hp
    exact h3 cells hp

/-- C71 for a derived struct: the conditions are those of C54 on its fields, its columns being those of the table. -/
theorem C71_derived {σ τ : Type} (fs : Fields σ τ) (d : Option σ) (cfg : Cfg) (header : IMap Ty) (x : σ) (names : List Str)
    (hlaw : FieldsLaw fs header (typeIn header) d x) (hA : Apart fs) (hns : fs.names = some names) (hn : names.Nodup)
    (hk : ∀ name, name ∈ names ↔ name ∈ header.keys)
    (hv : ∀ cols, (fs.derive d).ser header x = .ok cols → ∀ name v, (name, v) ∈ cols →
      ∃ t, header.get name = some t ∧ t.validateValue cfg v = true ∧ canon t v = v) :
    Survives cfg header (fs.derive d).ser (fs.derive d).de x :=
  C71_row_type _ cfg header x names (C54_roundtrip fs d header _ x names hlaw hA hns hn) hn hk hv

/-! ### a table of items -/

/-- The table's columns are in another order than the struct's fields. -/
def exItemHeader : IMap Ty := [(ch! "b", .string), (ch! "a", .uint8)]

/-- Every item survives. -/
theorem exItem_survives (cfg : Cfg) (x : BitVec 8 × Str × Unit) :
    Survives cfg exItemHeader (exItem.derive none).ser (exItem.derive none).de x := by
  obtain ⟨a, b, _⟩ := x
  refine C71_derived exItem none cfg exItemHeader _ [ch! "a", ch! "b"] ⟨.inl ⟨rfl, rfl, ?_⟩, .inl ⟨rfl, rfl, ?_⟩, trivial⟩ ?_ rfl (by decide) ?_ ?_
  · exact C54_plain_field (.prim .u8) _ exItemHeader _ a true Column.u8 ⟨fun _ => rfl, .inr (.inl rfl)⟩ trivial
  · exact C54_plain_field .string _ exItemHeader _ b true (.inl rfl) ⟨fun _ => rfl, .inr (.inl rfl)⟩ trivial
  · exact C54_labels_suffice exItem (by decide) (by decide)
  · intro name
    simp [exItemHeader, IMap.keys, or_comm]
  · intro cols hcols name v hm
    have : (exItem.derive none).ser exItemHeader (a, b, ()) = .ok [(ch! "a", .uint8 a), (ch! "b", .string (utf8Encode b))] := rfl
    rw [this] at hcols
    cases hcols
    simp only [List.mem_cons, Prod.mk.injEq, List.not_mem_nil, or_false] at hm
    rcases hm with ⟨rfl, rfl⟩ | ⟨rfl, rfl⟩
    · exact ⟨_, rfl, rfl, rfl⟩
    · exact ⟨_, rfl, rfl, rfl⟩

/-- All items with texts and batches within the protocol's limits, in any batches, come back. -/
example (cfg : Cfg) (ext : Ext) (batches : List (List (BitVec 8 × Str × Unit))) (hr : ∀ rows ∈ batches, rows.length ≤ 2 ^ 30)
    (hb : ∀ rows ∈ batches, ∀ x ∈ rows, (utf8Encode x.2.1).length ≤ maxStringSize) (revision : Nat) :=
  C71_roundtrip cfg ext ⟨BlockInfo.default, 0, exItemHeader, []⟩ (exItem.derive none).ser (exItem.derive none).de batches
    (by intro h; cases h) (show exItemHeader.keys.Nodup by decide) (show 2 < 2 ^ 63 by decide)
    (fun rows hm => Nat.lt_of_le_of_lt (hr rows hm) (by decide))
    (fun _ _ x _ => exItem_survives cfg x) (by
      intro rows hm name t ht
      have hser : ∀ x : BitVec 8 × Str × Unit, (exItem.derive none).ser exItemHeader x = .ok [(ch! "a", .uint8 x.1), (ch! "b", .string (utf8Encode x.2.1))] := fun _ => rfl
      simp only [exItemHeader, List.mem_cons, Prod.mk.injEq, List.not_mem_nil, or_false] at ht
      rcases ht with ⟨rfl, rfl⟩ | ⟨rfl, rfl⟩
      · refine ⟨by decide, trivial, by decide, .string, ?_, by simpa [Fits, columnOf] using hr rows hm⟩
        intro v hv
        obtain ⟨x, hx, rfl⟩ := List.mem_map.mp hv
        exact .inl ⟨_, rfl, hb rows hm x hx⟩
      · refine ⟨by decide, trivial, by decide, .uint8, ?_, by simpa [Fits, columnOf] using hr rows hm⟩
        intro v hv
        obtain ⟨x, hx, rfl⟩ := List.mem_map.mp hv
        exact ⟨_, rfl⟩) _ rfl revision

/-- Two batches of items, sent, stored and sent back in one block with the columns the other way round. -/
def exStored : Block := ⟨BlockInfo.default, 3, [(ch! "a", .uint8), (ch! "b", .string)],
  [(ch! "a", [.uint8 1#8, .uint8 2#8, .uint8 3#8]), (ch! "b", [.string [65#8], .string [], .string [66#8]])]⟩

example : queryStream (exItem.derive none).de [.block exStored] =
    [.ok (1#8, ['A'], ()), .ok (2#8, [], ()), .ok (3#8, ['B'], ())] := rfl

/-- The two blocks the server received. -/
def exReceived : List Block :=
  [⟨BlockInfo.default, 2, exItemHeader, [(ch! "b", [.string [65#8], .string []]), (ch! "a", [.uint8 1#8, .uint8 2#8])]⟩,
   ⟨BlockInfo.default, 1, exItemHeader, [(ch! "b", [.string [66#8]]), (ch! "a", [.uint8 3#8])]⟩]

example : SameRows exReceived [exStored] := ⟨.swap .., .swap .., .swap .., trivial⟩

theorem exStored_ok (cfg : Cfg) : AnswerOk cfg exStored := by
  refine ⟨⟨⟨by decide, by decide⟩, by decide, by decide, ?_⟩, .refl _, ?_⟩
  · intro name t ht
    simp only [exStored, List.mem_cons, Prod.mk.injEq, List.not_mem_nil, or_false] at ht
    rcases ht with ⟨rfl, rfl⟩ | ⟨rfl, rfl⟩
    · exact ⟨_, rfl, rfl, by decide, trivial, by decide, .uint8, by simp [Storable], by simp [Fits]⟩
    · refine ⟨_, rfl, rfl, by decide, trivial, by decide, .string, ?_, by simp [Fits]⟩
      intro v hv
      simp only [List.mem_cons, List.not_mem_nil, or_false] at hv
      rcases hv with rfl | rfl | rfl
      · exact .inl ⟨_, rfl, by decide⟩
      · exact .inl ⟨_, rfl, by decide⟩
      · exact .inl ⟨_, rfl, by decide⟩
  · intro name t vs ht hv
    simp only [exStored, List.mem_cons, Prod.mk.injEq, List.not_mem_nil, or_false] at ht
    rcases ht with ⟨rfl, rfl⟩ | ⟨rfl, rfl⟩
    · cases hv; rfl
    · cases hv; rfl

end Klick
