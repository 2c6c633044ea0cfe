import Verif.Spec.Query
import Verif.Props.Block
import Verif.Props.Client
/-
C36: what callers get from a response.
-/
namespace Klick
open Spec Props

theorem rectangular_fuel {b : Block} (hr : Rectangular b) (hc : b.columnData ≠ []) : b.rows < rowFuel b := by
  unfold rowFuel
  cases h : b.columnData with
  | nil => exact absurd h hc
  | cons e m =>
    have := hr e (by rw [h]; simp)
    simp only [List.map_cons, List.sum_cons]
    omega

theorem row_ext {f : Str → Ty} {r : TRow} {cols : List (Str × List Value)} {i : Nat}
    (h1 : r.map (fun e => (e.1, some e.2.2)) = cols.map (fun e => (e.1, e.2[i]?)))
    (h2 : r.map (fun e => (e.1, e.2.1)) = cols.map (fun e => (e.1, f e.1))) :
    r = cols.map fun e => (e.1, f e.1, (e.2[i]?).getD .null) := by
  induction r generalizing cols with
  | nil =>
    cases cols with
    | nil => rfl
    | cons c cols => simp at h1
  | cons x r ih =>
    cases cols with
    | nil => simp at h1
    | cons c cols =>
      simp only [List.map_cons, List.cons.injEq, Prod.mk.injEq] at h1 h2 ⊢
      obtain ⟨⟨a1, a2⟩, a3⟩ := h1
      obtain ⟨⟨_, b2⟩, b3⟩ := h2
      refine ⟨?_, ih a3 b3⟩
      obtain ⟨x1, x2, x3⟩ := x
      simp only at a1 a2 b2
      rw [← a2, a1, b2]; rfl

theorem takeIterRows_eq {b : Block} (hr : Rectangular b) (ht : Typed b) (hc : b.columnData ≠ []) (hm : b.rows ≤ 2 ^ 57) {fuel : Nat} (hf : b.rows < fuel) :
    takeIterRows b fuel = .ok ((List.range b.rows).map (typedRow b)) := by
  obtain ⟨rows, h1, h2, h3⟩ := C17_take_iter_rows b hr ht hc hm fuel hf
  rw [h1]
  congr 1
  have hlen : rows.length = b.rows := by
    have := congrArg List.length h2
    simpa using this
  apply List.ext_getElem (by simpa using hlen)
  intro i hi1 hi2
  simp only [List.getElem_map, List.getElem_range]
  have e1 : untyped rows[i] = rowAt b i := by
    have : (rows.map untyped)[i]? = ((List.range b.rows).map (rowAt b))[i]? := by rw [h2]
    rw [List.getElem?_eq_getElem (by simpa using hi1), List.getElem?_eq_getElem (by simpa [hlen] using hi1)] at this
    simpa using this
  exact row_ext (f := fun k => ((b.columnTypes.get k).getD .uint8).stripLowCardinality) e1 (h3 _ (List.getElem_mem hi1))

theorem blockStream_eq {T : Type} (de : TRow → Res T) {b : Block} (hr : Rectangular b) (ht : Typed b) (hm : b.rows ≤ 2 ^ 57)
    (hp : ∀ row ∈ rowsIn b, de row ≠ .panic) : blockStream de b = (rowsIn b).map de := by
  unfold blockStream
  by_cases hc : b.columnData = []
  · rw [(C17_no_columns_none b hc hm _).1]
    unfold rowsIn
    rw [hc]; rfl
  · rw [takeIterRows_eq hr ht hc hm (rectangular_fuel hr hc)]
    have h0 : b.columnData.isEmpty = false := by simpa using hc
    have e : ((List.range b.rows).map (typedRow b)).filter (fun r => !r.isEmpty) = rowsIn b := by
      unfold rowsIn
      rw [h0, if_neg (by simp), List.filter_eq_self]
      intro r hr
      obtain ⟨i, _, rfl⟩ := List.mem_map.mp hr
      simp only [typedRow, List.isEmpty_map, h0, Bool.not_false]
    dsimp only
    rw [e, if_neg]
    intro ha
    obtain ⟨x, hx, hx2⟩ := List.any_eq_true.mp ha
    obtain ⟨row, hrow, rfl⟩ := List.mem_map.mp hx
    have := hp row hrow
    cases hd : de row with
    | panic => exact this hd
    | ok y => rw [hd] at hx2; cases hx2
    | err y => rw [hd] at hx2; cases hx2

/-- C36: the row stream is every row of every block in arrival order, and the error where it arrives. Missing from the full claim: blocks whose
columns do not hold the announced number of rows (see C36_read_blocks_*), blocks announcing more than 2^57 rows (`C36_stream_false`), and row
types whose conversion panics (`C36_row_panic_false`). -/
theorem C36_stream_partial {T : Type} (de : TRow → Res T) (items : List Item) (h : GoodItems items)
    (hp : ∀ b, .block b ∈ items → ∀ row ∈ rowsIn b, de row ≠ .panic) : queryStream de items = items.flatMap (expected de) := by
  induction items with
  | nil => rfl
  | cons i items ih =>
    have ih := ih (fun i hi => h i (List.mem_cons_of_mem _ hi)) (fun b hb => hp b (List.mem_cons_of_mem _ hb))
    cases i with
    | block b =>
      obtain ⟨h1, h2, h3⟩ := h _ (List.mem_cons_self ..) b rfl
      simp only [queryStream, blockStream_eq de h1 h2 h3 (hp b (List.mem_cons_self ..)), ih]
      rfl
    | error e =>
      simp only [queryStream, ih]
      rfl

/-- C36 is false of the code without the bound on announced rows: a block of 2^58 rows and no columns, which is ten bytes on the wire and which the
reader accepts, makes the row stream panic, though no row and no error is in it. -/
theorem C36_stream_false {T : Type} (de : TRow → Res T) :
    ∃ (bytes : Bytes) (b : Block), readBlock cfgDebug 0 bytes = .ok (b, []) ∧ Rectangular b ∧ Typed b ∧
      queryStream de [.block b] = [.panic] ∧ [Item.block b].flatMap (expected de) = [] := by
  refine ⟨[0, 0x80, 0x80, 0x80, 0x80, 0x80, 0x80, 0x80, 0x80, 4], ⟨BlockInfo.default, 2 ^ 58, [], []⟩, by rfl, by simp [Rectangular], by simp [Typed], ?_, rfl⟩
  have h : ∀ fuel, takeIterRows ⟨BlockInfo.default, 2 ^ 58, [], []⟩ fuel = .panic := C17_take_iter_rows_fails _ (Nat.le_refl (2 ^ 58))
  simp only [queryStream, blockStream, h]
  rfl

/-- C36 is false of the code for row types whose conversion panics: all rows of a block are converted before the first is handed out, so the
good rows before the bad one are lost too, and fetching only the first row panics although it can be read. (`exBlock` has two rows.) -/
theorem C36_row_panic_false : ∃ (de : TRow → Res TRow) (b : Block), GoodItems [.block b] ∧
    (∃ row rest, rowsIn b = row :: rest ∧ de row = .ok row) ∧
    (∃ x, ([Item.block b].flatMap (expected de)).head? = some (.ok x)) ∧
    queryStream de [.block b] = [.panic] ∧ firstRow (queryStream de [.block b]) = .panic := by
  refine ⟨fun row => match row with | [_, (_, _, .null)] => .ok row | _ => .panic, exBlock, ?_, ⟨_, _, rfl, rfl⟩, ⟨_, rfl⟩, rfl, rfl⟩
  intro i hi b hb
  rw [List.mem_singleton] at hi
  subst hi; cases hb
  exact ⟨exBlock_rect, exBlock_typed, by decide⟩

/-- Every sequence of results has a first failure or none. -/
theorem C36_dichotomy {T : Type} (xs : List (Res T)) :
    (∃ ys : List T, xs = ys.map .ok) ∨ (∃ (ys : List T) (e : Err) (rest : List (Res T)), xs = ys.map .ok ++ .err e :: rest) ∨
    (∃ (ys : List T) (rest : List (Res T)), xs = ys.map .ok ++ .panic :: rest) := by
  induction xs with
  | nil => exact .inl ⟨[], rfl⟩
  | cons x xs ih =>
    cases x with
    | err e => exact .inr (.inl ⟨[], e, xs, rfl⟩)
    | panic => exact .inr (.inr ⟨[], xs, rfl⟩)
    | ok x =>
      rcases ih with ⟨ys, rfl⟩ | ⟨ys, e, rest, rfl⟩ | ⟨ys, rest, rfl⟩
      · exact .inl ⟨x :: ys, rfl⟩
      · exact .inr (.inl ⟨x :: ys, e, rest, rfl⟩)
      · exact .inr (.inr ⟨x :: ys, rest, rfl⟩)

/-- C36: collecting returns all rows, or the first error; it panics only where the stream does before any error. -/
theorem C36_collect {T : Type} (ys : List T) :
    collectRows (ys.map .ok) = .ok ys ∧ (∀ e rest, collectRows (ys.map .ok ++ .err e :: rest) = .err e) ∧
    ∀ rest, collectRows (ys.map .ok ++ .panic :: rest) = .panic := by
  induction ys with
  | nil => exact ⟨rfl, fun _ _ => rfl, fun _ => rfl⟩
  | cons y ys ih =>
    refine ⟨?_, fun e rest => ?_, fun rest => ?_⟩
    · simp only [List.map_cons, collectRows, ih.1]; rfl
    · simp only [List.map_cons, List.cons_append, collectRows, ih.2.1 e rest]; rfl
    · simp only [List.map_cons, List.cons_append, collectRows, ih.2.2 rest]; rfl

/-- C36: fetching one returns the first row, or the error in its place, or the missing-row error when
there is neither. -/
theorem C36_one {T : Type} (xs : List (Res T)) :
    (xs = [] → firstRow xs = .err .missingRow) ∧ (∀ x rest, xs = x :: rest → firstRow xs = x) :=
  ⟨by rintro rfl; rfl, by rintro x rest rfl; rfl⟩

/-- C36: optional fetching returns none exactly when no row (and no error) arrives, otherwise what
fetching one returns. -/
theorem C36_opt {T : Type} (xs : List (Res T)) :
    (firstRow? xs = .ok none ↔ xs = []) ∧ (∀ x, firstRow? xs = .ok (some x) ↔ ∃ rest, xs = .ok x :: rest) ∧
    (∀ e, firstRow? xs = .err e ↔ ∃ rest, xs = .err e :: rest) ∧ (firstRow? xs = .panic ↔ ∃ rest, xs = .panic :: rest) := by
  cases xs with
  | nil => simp [firstRow?]
  | cons x xs => cases x <;> simp [firstRow?, bind, Res.bind]

/-- C36: executing succeeds exactly when no error arrives, and otherwise reports the first. -/
theorem C36_execute {T : Type} (ys : List T) :
    executeRows (ys.map .ok) = .ok () ∧ (∀ e rest, executeRows (ys.map .ok ++ .err e :: rest) = .err e) ∧
    ∀ rest, executeRows (ys.map .ok ++ .panic :: rest) = .panic := by
  induction ys with
  | nil => exact ⟨rfl, fun _ _ => rfl, fun _ => rfl⟩
  | cons y ys ih => exact ⟨ih.1, ih.2.1, ih.2.2⟩

/-- C36, on one connection: a caller that reads to the end of its stream gets the rows of the blocks the
server sent for its query, in order, and then the server's exception if it sent one. -/
theorem C36_connection {T : Type} (de : TRow → Res T) {s : Conn} (h : Reachable s) {t : Ticket} (hl : s.listening t = true)
    (hb : s.slots t = some (.streaming [] false)) (hg : GoodItems (itemsOf t s.log))
    (hp : ∀ b, .block b ∈ itemsOf t s.log → ∀ row ∈ rowsIn b, de row ≠ .panic) :
    ∃ (bs : List Block) (tail : List Item), itemsOf t s.log = bs.map Item.block ++ tail ∧ (tail = [] ∨ ∃ e, tail = [.error e]) ∧
      queryStream de (readsOf t s.log) = (bs.flatMap rowsIn).map de ++ tail.flatMap (expected de) := by
  obtain ⟨bs, tail, h1, h2⟩ := C31_last h t
  refine ⟨bs, tail, h1, ?_, ?_⟩
  · rcases h2 with h2 | ⟨_, h2⟩
    · exact .inl h2
    · exact .inr h2
  · rw [(C30_end_of_stream h hl hb).1, C36_stream_partial de _ hg hp, h1]
    rw [List.flatMap_append]
    congr 1
    clear h1
    induction bs with
    | nil => rfl
    | cons b bs ih => simp only [List.map_cons, List.flatMap_cons, List.map_append, ih, expected]

theorem insert_keys {α β : Type} (m : IMap α) (m' : IMap β) (k : Str) (v : α) (v' : β) (he : m.keys = m'.keys) :
    (m.insert k v).keys = (m'.insert k v').keys := by
  unfold IMap.insert
  have hany : m.any (fun e => e.1 == k) = m'.any (fun e => e.1 == k) := by
    have : ∀ {γ : Type} (m : IMap γ), m.any (fun e => e.1 == k) = m.keys.any (fun x => x == k) := by
      intro γ m; simp [IMap.keys, List.any_map]; rfl
    rw [this, this, he]
  rw [hany]
  split
  · have : ∀ {γ : Type} (m : IMap γ) (v : γ), IMap.keys (m.map (fun e => if e.1 == k then (k, v) else e)) = m.keys := by
      intro γ m v
      simp only [IMap.keys, List.map_map]
      apply List.map_congr_left
      intro e _
      simp only [Function.comp]
      split
      · rename_i h; exact (beq_iff_eq.mp h).symm
      · rfl
    rw [this, this, he]
  · simp only [IMap.keys, List.map_append, List.map_cons, List.map_nil] at he ⊢
    rw [he]

theorem mem_insert_map {α : Type} {m : IMap α} {k : Str} {v : α} {e : Str × α} (h : e ∈ m.insert k v) : e = (k, v) ∨ e ∈ m := by
  unfold IMap.insert at h
  split at h
  · obtain ⟨x, hx, rfl⟩ := List.mem_map.mp h
    split
    · exact .inl rfl
    · exact .inr hx
  · rcases List.mem_append.mp h with h | h
    · exact .inr h
    · exact .inl (by simpa using h)

/-- What one turn of the block reader adds. -/
theorem readColumn_eq_ok {cfg : Cfg} {rows : Nat} {b b' : Block} {s r : Bytes} (h : readColumn cfg rows b s = .ok (b', r)) :
    ∃ name t data, b' = { b with columnTypes := b.columnTypes.insert name t, columnData := b.columnData.insert name data } ∧
      data.length ≤ rows ∧ (rowsByIndex t = false → data.length = rows) := by
  unfold readColumn at h
  obtain ⟨name, s2, _, h⟩ := Rd.bind_eq_ok.mp h
  obtain ⟨tn, s3, _, h⟩ := Rd.bind_eq_ok.mp h
  obtain ⟨t, s4, _, h⟩ := Rd.bind_eq_ok.mp h
  by_cases hr : rows > 0
  · rw [if_pos hr] at h
    obtain ⟨data, s5, h1, h⟩ := Rd.bind_eq_ok.mp h
    obtain ⟨_, s6, _, h1⟩ := Rd.bind_eq_ok.mp h1
    cases h
    exact ⟨name, t, data, rfl, deCol_rows t rows _ _ _ h1⟩
  · rw [if_neg hr, Rd.bind_run_ok (Rd.pure_apply _ _)] at h
    cases h
    exact ⟨name, t, [], rfl, by simp, fun _ => by simp; omega⟩

/-- An invariant of the block reader's loop. -/
theorem readColumns_inv {cfg : Cfg} {rows : Nat} {P : Block → Prop}
    (hP : ∀ b name t data, P b → data.length ≤ rows → (rowsByIndex t = false → data.length = rows) →
      P { b with columnTypes := b.columnTypes.insert name t, columnData := b.columnData.insert name data }) :
    ∀ (n : Nat) (b b' : Block) (s r : Bytes), readColumns cfg rows n b s = .ok (b', r) → P b → P b' := by
  intro n
  induction n with
  | zero => intro b b' s r h hk; cases h; exact hk
  | succ n ih =>
    intro b b' s r h hk
    simp only [readColumns] at h
    obtain ⟨b1, s1, h1, h2⟩ := Rd.bind_eq_ok.mp h
    obtain ⟨name, t, data, rfl, h3, h4⟩ := readColumn_eq_ok h1
    exact ih _ b' s1 r h2 (hP b name t data hk h3 h4)

/-- C36: every block the reader accepts, on any bytes, has a type for each of its columns. -/
theorem C36_read_blocks_typed (cfg : Cfg) (revision : Nat) (s r : Bytes) (b : Block) (h : readBlock cfg revision s = .ok (b, r)) : Typed b := by
  unfold readBlock at h
  obtain ⟨i, s1, _, h⟩ := Rd.bind_eq_ok.mp h
  obtain ⟨c, s2, _, h⟩ := Rd.bind_eq_ok.mp h
  obtain ⟨n, s3, _, h⟩ := Rd.bind_eq_ok.mp h
  have := readColumns_inv (P := fun b => b.columnTypes.keys = b.columnData.keys)
    (fun b name t data hk _ _ => insert_keys _ _ _ _ _ hk) c _ _ _ _ h rfl
  intro e he
  cases hg : b.columnTypes.get e.1 with
  | some t => exact ⟨t, rfl⟩
  | none =>
    rw [IMap.get_none, this] at hg
    exact absurd (List.mem_map.mpr ⟨e, he, rfl⟩) hg

/-- C36: a block the reader accepts, on any bytes, has in each column exactly as many values as it
announces rows, provided none of its columns is a `LowCardinality` column
(arrays, maps and tuples of it are covered). -/
theorem C36_read_blocks_rectangular (cfg : Cfg) (revision : Nat) (s r : Bytes) (b : Block) (h : readBlock cfg revision s = .ok (b, r))
    (hl : ∀ e ∈ b.columnTypes, rowsByIndex e.2 = false) : Rectangular b := by
  unfold readBlock at h
  obtain ⟨i, s1, _, h⟩ := Rd.bind_eq_ok.mp h
  obtain ⟨c, s2, _, h⟩ := Rd.bind_eq_ok.mp h
  obtain ⟨n, s3, _, h⟩ := Rd.bind_eq_ok.mp h
  -- a column is full, or its (current) type involves LowCardinality
  have := readColumns_inv (P := fun b => b.rows = n ∧ b.columnTypes.keys = b.columnData.keys ∧
      ∀ k data, (k, data) ∈ b.columnData → data.length = n ∨ ∃ t, (k, t) ∈ b.columnTypes ∧ rowsByIndex t = true)
    (fun b name t data hk h1 h2 => by
      refine ⟨hk.1, insert_keys _ _ _ _ _ hk.2.1, fun k d hd => ?_⟩
      have self : (name, t) ∈ b.columnTypes.insert name t := by
        unfold IMap.insert
        split
        · rename_i ha
          obtain ⟨x, hx, hxk⟩ := List.any_eq_true.mp ha
          exact List.mem_map.mpr ⟨x, hx, by rw [if_pos hxk]⟩
        · simp
      by_cases hkn : k = name
      · subst hkn
        rcases mem_insert_map hd with hd | hd
        · cases hd
          cases hu : rowsByIndex t with
          | false => exact .inl (h2 hu)
          | true => exact .inr ⟨t, self, hu⟩
        · -- an entry with the same name is replaced
          have hany : (b.columnData.any (fun e => e.1 == k)) = true :=
            List.any_eq_true.mpr ⟨_, hd, by simp⟩
          simp only [IMap.insert, hany, if_true] at *
          obtain ⟨x, _, hx⟩ := List.mem_map.mp ‹(k, d) ∈ List.map _ _›
          by_cases hxk : (x.1 == k) = true
          · rw [if_pos hxk] at hx
            cases hx
            cases hu : rowsByIndex t with
            | false => exact .inl (h2 hu)
            | true => exact .inr ⟨t, self, hu⟩
          · rw [if_neg hxk] at hx
            subst hx
            simp at hxk
      · rcases mem_insert_map hd with hd | hd
        · cases hd; exact absurd rfl hkn
        · rcases hk.2.2 k d hd with h | ⟨t', h3, h4⟩
          · exact .inl h
          · refine .inr ⟨t', ?_, h4⟩
            show (k, t') ∈ b.columnTypes.insert name t
            unfold IMap.insert
            split
            · exact List.mem_map.mpr ⟨_, h3, by rw [if_neg (by simpa using hkn)]⟩
            · exact List.mem_append.mpr (.inl h3)) c _ _ _ _ h ⟨rfl, rfl, by simp⟩
  intro e he
  rcases this.2.2 e.1 e.2 he with h | ⟨t, h1, h2⟩
  · rw [h, this.1]
  · rw [hl _ h1] at h2; cases h2

example := C36_stream_partial (T := TRow) .ok [.block exBlock, .block (exB 0), .error .protocol] (by
  intro i hi b hb
  simp only [List.mem_cons, List.not_mem_nil, or_false] at hi
  rcases hi with rfl | rfl | rfl
  · cases hb; exact ⟨exBlock_rect, exBlock_typed, by decide⟩
  · cases hb; exact ⟨by simp [Rectangular, exB], by simp [Typed, exB]⟩
  · cases hb) (by intro _ _ _ _ h; cases h)
/-- C36_connection: a query answered with two blocks and an exception, all read. -/
example : ∃ s, Reachable s ∧ s.listening 1 = true ∧ s.slots 1 = some (.streaming [] false) ∧
    itemsOf 1 s.log = [.block exBlock, .block (exB 0), .error exX.emit] ∧ GoodItems [.block exBlock, .block (exB 0), .error exX.emit] :=
  ⟨_, ⟨[.submit 1 ['A'], .handle 2, .packet 2 (.data [] exBlock), .deliver 2, .packet 2 (.data [] (exB 0)), .deliver 2, .packet 2 (.exception exX),
    .deliver 2, .recv 1, .recv 1, .recv 1], rfl⟩, rfl, rfl, rfl, by
  intro i hi b hb
  simp only [List.mem_cons, List.not_mem_nil, or_false] at hi
  rcases hi with rfl | rfl | rfl
  · cases hb; exact ⟨exBlock_rect, exBlock_typed, by decide⟩
  · cases hb; exact ⟨by simp [Rectangular, exB], by simp [Typed, exB]⟩
  · cases hb⟩
example : queryStream (T := TRow) .ok [.block exBlock, .block (exB 0)] =
    [.ok [(['n'], .uint8, .uint8 1#8), (['s'], .nullable .string, .null)],
      .ok [(['n'], .uint8, .uint8 2#8), (['s'], .nullable .string, .string [65#8])]] := rfl

end Klick
