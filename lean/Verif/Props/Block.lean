import Verif.BlockLemmas
import Verif.Props.TypeText
/-
Properties C14 to C17: blocks.
-/
namespace Klick.Props
open Klick Klick.Spec

/-! ## C14 blocks round-trip -/

theorem info_rt (i : BlockInfo) (revision : Nat) (rest : Bytes) :
    ∃ j, readInfoAt revision ((if revision > 0 then i.write else []) ++ rest) = .ok (j, rest) := by
  unfold readInfoAt
  by_cases hr : revision > 0
  · rw [if_pos hr, if_pos hr]; exact ⟨_, readInfo_write i rest⟩
  · rw [if_neg hr, if_neg hr]; exact ⟨_, rfl⟩

theorem joined_types {b : Block} {P : Str → Ty → List Value → Prop}
    (hn : DistinctNames b)
    (h : ∀ name t, (name, t) ∈ b.columnTypes → ∃ vs, b.columnData.get name = some vs ∧ P name t vs) :
    let j := joinColumns b.columnTypes b.columnData
    j.map (fun c => (c.1, c.2.1)) = b.columnTypes ∧
      ∀ c ∈ j, (c.1, c.2.1) ∈ b.columnTypes ∧ b.columnData.get c.1 = some c.2.2 ∧ P c.1 c.2.1 c.2.2 := by
  intro j
  have e : j = _ := joinColumns_eq b.columnTypes b.columnData hn.1 hn.2
  constructor
  · rw [e]
    have hall := h
    clear h e j
    generalize b.columnTypes = ts at hall ⊢
    induction ts with
    | nil => rfl
    | cons x ts ih =>
      obtain ⟨k, t⟩ := x
      obtain ⟨vs, h1, _⟩ := hall k t (by simp)
      simp only [List.filterMap_cons, h1, Option.map_some, List.map_cons]
      rw [ih (fun name t hm => hall name t (by simp [hm]))]
  · intro c hc
    rw [e, List.mem_filterMap] at hc
    obtain ⟨⟨k, t⟩, hm, he⟩ := hc
    obtain ⟨vs, h1, h2⟩ := h k t hm
    simp only [h1, Option.map_some, Option.some.injEq] at he
    subst he
    exact ⟨hm, h1, h2⟩

theorem joined_names {b : Block} (hn : DistinctNames b)
    (h : (joinColumns b.columnTypes b.columnData).map (fun c => (c.1, c.2.1)) = b.columnTypes) :
    ((joinColumns b.columnTypes b.columnData).map (·.1)).Nodup ∧
    (joinColumns b.columnTypes b.columnData).map (·.1) = b.columnTypes.keys ∧
    (joinColumns b.columnTypes b.columnData).length = b.columnTypes.length := by
  have e : (joinColumns b.columnTypes b.columnData).map (·.1) = b.columnTypes.keys := by
    conv => rhs; rw [← h]
    simp [IMap.keys, Function.comp_def]
  refine ⟨e ▸ hn.1, e, ?_⟩
  conv => rhs; rw [← h]
  simp

/-- C14: a block whose columns all have the block's row count is written without error for every
revision, and the reader, whatever follows on the stream, consumes exactly the written bytes and
returns the same row count, the same columns in the same order with the same types, and for each
column the values written, in normal form (`canon`, see C06). -/
theorem C14_block_roundtrip (cfg : Cfg) (b : Block) (h : BlockOk cfg b) (revision : Nat) :
    ∃ bytes, b.write cfg revision = (bytes, .ok ()) ∧
      ∀ rest, ∃ b', readBlock cfg revision (bytes ++ rest) = .ok (b', rest) ∧
        b'.rows = b.rows ∧ b'.columnTypes = b.columnTypes ∧
        b'.columnData.keys = b.columnTypes.keys ∧
        ∀ name t vs, (name, t) ∈ b.columnTypes → b.columnData.get name = some vs →
          b'.columnData.get name = some (vs.map (canon t)) := by
  obtain ⟨h1, h2⟩ := joined_types (P := fun name t vs => vs.length = b.rows ∧ Sendable cfg name t vs)
    h.names h.cols
  obtain ⟨n1, n2, n3⟩ := joined_names h.names h1
  have ho := h.columns
  have hr := h.rows
  generalize hj : joinColumns b.columnTypes b.columnData = j at h1 h2 n1 n2 n3
  obtain ⟨bytes, hw, hrd⟩ := writeColumns_ok (cfg := cfg) (rows := b.rows) j
    (fun c hc => { toSendable := (h2 c hc).2.2.2, len := (h2 c hc).2.2.1 })
  refine ⟨(if revision > 0 then b.info.write else []) ++ writeVarUint j.length ++ writeVarUint b.rows ++ bytes,
    by simp only [Block.write, hj, hw], ?_⟩
  intro rest
  obtain ⟨i, hi⟩ := info_rt b.info revision (writeVarUint j.length ++ (writeVarUint b.rows ++ (bytes ++ rest)))
  refine ⟨⟨i, b.rows, j.map (fun c => (c.1, c.2.1)), j.map (fun c => (c.1, c.2.2.map (canon c.2.1)))⟩,
    ?_, rfl, h1, ?_, ?_⟩
  · unfold readBlock
    have hi' := hi
    rw [List.append_assoc, List.append_assoc, List.append_assoc, Rd.bind_run_ok hi']
    rw [Rd.bind_run_ok (readVarUint_write _ (by omega) _), Rd.bind_run_ok (readVarUint_write _ hr _)]
    rw [hrd _ rest (by simpa [IMap.keys] using n1) (by simpa [IMap.keys] using n1)]
    simp
  · rw [← n2]; simp [IMap.keys, Function.comp_def]
  · intro name t vs hm hd
    have : (name, t) ∈ j.map (fun c => (c.1, c.2.1)) := h1 ▸ hm
    obtain ⟨⟨name', t', vs'⟩, hc, he⟩ := List.mem_map.mp this
    cases he
    obtain ⟨_, h4, _⟩ := h2 _ hc
    simp only at h4
    rw [hd] at h4
    cases h4
    apply IMap.get_of_mem
    · simpa [IMap.keys, Function.comp_def] using n1
    · exact List.mem_map.mpr ⟨_, hc, rfl⟩

/-- A two-column block: `n UInt8` and `s Nullable(String)`, two rows. -/
def exBlock : Block :=
  ⟨BlockInfo.default, 2, [(['n'], .uint8), (['s'], .nullable .string)],
    [(['n'], [.uint8 1#8, .uint8 2#8]), (['s'], [.null, .string [65#8]])]⟩

theorem exBlock_ok : BlockOk cfgDebug exBlock where
  names := ⟨by decide, by decide⟩
  columns := by decide
  rows := by decide
  cols := by
    intro name t h
    simp only [exBlock, List.mem_cons, Prod.mk.injEq, List.not_mem_nil, or_false] at h
    rcases h with ⟨rfl, rfl⟩ | ⟨rfl, rfl⟩
    · exact ⟨_, rfl, rfl, by decide, trivial, by decide, .uint8,
        by simp [Storable], by simp [Fits]⟩
    · exact ⟨_, rfl, rfl, by decide, trivial, by decide, .nullable rfl .string,
        by simp [Storable, isGeo], by simp [Fits]⟩

example := C14_block_roundtrip cfgDebug exBlock exBlock_ok 54400
example : exBlock.write cfgDebug 1 =
    ([1, 2, 2, 0xFF, 0xFF, 0xFF, 0xFF, 0, 2, 2, 1, 110, 5, 85, 73, 110, 116, 56, 1, 2,
      1, 115, 16, 78, 117, 108, 108, 97, 98, 108, 101, 40, 83, 116, 114, 105, 110, 103, 41, 1, 0, 0, 1, 65], .ok ()) := rfl

/-! ## C15 block header information -/

/-- C15 is false of the code: the flag is written as 1 or 2 and read as "not zero", so a header
without overflow is read back as one with overflow. -/
theorem C15_overflow_flag_fails :
    ¬ ∀ (i : BlockInfo) (rest : Bytes), readInfo (i.write ++ rest) = .ok (i, rest) := by
  intro h
  have := h ⟨false, 0⟩ []
  rw [readInfo_write] at this
  simp at this

/-- The exact behaviour: whatever is written, the flag read back is `true`; the bucket number is the
one written and the stream is left after the header. -/
theorem C15_header_exact (i : BlockInfo) (rest : Bytes) :
    readInfo (i.write ++ rest) = .ok (⟨true, i.bucketNum⟩, rest) := readInfo_write i rest

/-- C15 without the overflow flag of ordinary blocks: the bucket number always round-trips, and the
flag does when it is set. -/
theorem C15_header_roundtrip_partial (i : BlockInfo) (rest : Bytes) :
    ∃ j, readInfo (i.write ++ rest) = .ok (j, rest) ∧ j.bucketNum = i.bucketNum ∧
      (i.isOverflows = true → j = i) := by
  refine ⟨_, readInfo_write i rest, rfl, ?_⟩
  intro h
  cases i
  simp only at h
  simp [h]

example : readInfo (BlockInfo.write ⟨true, 7⟩ ++ [9#8]) = .ok (⟨true, 7⟩, [9#8]) := rfl

/-! ## C16 ragged blocks -/

/-- C16, success: when writing succeeds every typed column with data has exactly the block's row
count. -/
theorem C16_success_rectangular (cfg : Cfg) (b : Block) (hn : DistinctNames b) (revision : Nat)
    (h : (b.write cfg revision).2 = .ok ()) (name : Str) (t : Ty) (vs : List Value)
    (ht : (name, t) ∈ b.columnTypes) (hd : b.columnData.get name = some vs) : vs.length = b.rows := by
  have := writeColumns_success _ h
  rw [joinColumns_eq _ _ hn.1 hn.2] at this
  refine this (name, t, vs) (List.mem_filterMap.mpr ⟨(name, t), ht, ?_⟩)
  simp [hd]

/-- C16, refusal: a block with a typed column whose number of values differs from the row count is
never written successfully. -/
theorem C16_ragged_refused (cfg : Cfg) (b : Block) (hn : DistinctNames b) (revision : Nat)
    (name : Str) (t : Ty) (vs : List Value) (ht : (name, t) ∈ b.columnTypes)
    (hd : b.columnData.get name = some vs) (hl : vs.length ≠ b.rows) :
    (b.write cfg revision).2 ≠ .ok () :=
  fun h => hl (C16_success_rectangular cfg b hn revision h name t vs ht hd)

/-- Splitting off the first ragged column. -/
theorem first_ragged (rows : Nat) (j : List (Str × Ty × List Value))
    (h : ∃ c ∈ j, c.2.2.length ≠ rows) :
    ∃ pre c post, j = pre ++ c :: post ∧ c.2.2.length ≠ rows ∧ ∀ x ∈ pre, x.2.2.length = rows := by
  induction j with
  | nil => obtain ⟨c, hc, _⟩ := h; cases hc
  | cons x j ih =>
    by_cases hx : x.2.2.length = rows
    · obtain ⟨c, hc, hl⟩ := h
      rcases List.mem_cons.mp hc with rfl | hc
      · exact absurd hx hl
      · obtain ⟨pre, c, post, e, h1, h2⟩ := ih ⟨c, hc, hl⟩
        exact ⟨x :: pre, c, post, by simp [e], h1, by simpa [hx] using h2⟩
    · exact ⟨[], x, j, rfl, hx, by simp⟩

/-- C16, what is on the wire: when columns that could be sent include a ragged one, writing stops
with an error, and the bytes it leaves are not a complete block for the reader, provided a cut is
visible: the block has rows and its types take space, or its last column is not ragged. -/
theorem C16_ragged_incomplete_partial (cfg : Cfg) (b : Block) (hn : DistinctNames b) (revision : Nat)
    (hcols : b.columnTypes.length < 2 ^ 63) (hrows : b.rows < 2 ^ 63)
    (h : ∀ name t, (name, t) ∈ b.columnTypes →
      ∃ vs, b.columnData.get name = some vs ∧ Sendable cfg name t vs)
    (hr : ∃ name t vs, (name, t) ∈ b.columnTypes ∧ b.columnData.get name = some vs ∧ vs.length ≠ b.rows)
    (hv : (0 < b.rows ∧ ∀ e ∈ b.columnTypes, occupies e.2 = true) ∨
      (∀ e vs, b.columnTypes.getLast? = some e → b.columnData.get e.1 = some vs → vs.length = b.rows)) :
    ∃ bytes, b.write cfg revision = (bytes, .err .protocol) ∧
      ∀ r, readBlock cfg revision bytes ≠ .ok r := by
  obtain ⟨h1, h2⟩ := joined_types (P := fun name t vs => Sendable cfg name t vs) hn h
  obtain ⟨n1, n2, n3⟩ := joined_names hn h1
  have hrag : ∃ c ∈ joinColumns b.columnTypes b.columnData, c.2.2.length ≠ b.rows := by
    obtain ⟨name, t, vs, ha, hb, hc⟩ := hr
    refine ⟨(name, t, vs), ?_, hc⟩
    rw [joinColumns_eq _ _ hn.1 hn.2]
    exact List.mem_filterMap.mpr ⟨(name, t), ha, by simp [hb]⟩
  generalize hj : joinColumns b.columnTypes b.columnData = j at *
  obtain ⟨pre, c, post, e, hc, hpre⟩ := first_ragged b.rows j hrag
  have hok : ∀ x ∈ pre, ColumnOk cfg b.rows x := fun x hx =>
    { toSendable := (h2 x (by simp [e, hx])).2.2, len := hpre x hx }
  obtain ⟨bytes, hw1, hw2⟩ := writeColumns_ragged pre c post hok hc
  obtain ⟨bytes', hw', hrd⟩ := writeColumns_ok pre hok
  rw [hw1] at hw'
  cases hw'
  have hsc := (h2 c (by simp [e])).2.2
  refine ⟨(if revision > 0 then b.info.write else []) ++ writeVarUint j.length ++ writeVarUint b.rows ++
    (bytes ++ (writeString (utf8Encode c.1) ++ writeString (utf8Encode c.2.1.display))), ?_, ?_⟩
  · unfold Block.write
    simp only [hj]
    rw [e, hw2]
  · rintro ⟨b', s'⟩ hread
    obtain ⟨i, hi⟩ := info_rt b.info revision (writeVarUint j.length ++ (writeVarUint b.rows ++
      (bytes ++ (writeString (utf8Encode c.1) ++ writeString (utf8Encode c.2.1.display)))))
    unfold readBlock at hread
    rw [List.append_assoc, List.append_assoc, Rd.bind_run_ok hi,
      Rd.bind_run_ok (readVarUint_write _ (by omega) _), Rd.bind_run_ok (readVarUint_write _ hrows _)] at hread
    have hlen : j.length = pre.length + (post.length + 1) := by simp [e]
    have hnd : (pre.map (·.1)).Nodup := by
      rw [e, List.map_append, List.nodup_append] at n1
      exact n1.1
    rw [hlen, readColumns_add, Rd.bind_run_ok (hrd _ _ (by simpa [IMap.keys] using hnd)
      (by simpa [IMap.keys] using hnd))] at hread
    simp only [readColumns] at hread
    rw [Rd.bind_eq_ok] at hread
    obtain ⟨b1, s1, hr1, hr2⟩ := hread
    obtain ⟨hs, hz⟩ := readColumn_head hsc.name hsc.textLen hsc.text hr1
    subst hs
    rcases hv with ⟨hp, hocc⟩ | hlast
    · rcases hz with hz | hz
      · omega
      · have hm := (h2 c (by simp [e])).1
        have := hocc _ hm
        simp only at this
        rw [hz] at this
        cases this
    · cases post with
      | cons x post =>
        simp only [List.length_cons, readColumns] at hr2
        rw [Rd.bind_eq_ok] at hr2
        obtain ⟨_, _, hh, _⟩ := hr2
        exact readColumn_empty hh
      | nil =>
        have : b.columnTypes.getLast? = some (c.1, c.2.1) := by
          rw [← h1, e]; simp
        have hd := (h2 c (by simp [e])).2.1
        exact hc (hlast _ _ this hd)

/-- The excluded cases are real: with no rows, a ragged last column leaves bytes that read as a
complete block. -/
theorem C16_ragged_incomplete_fails :
    ∃ (b : Block) (bytes : Bytes) (r : Block × Bytes), DistinctNames b ∧
      (∃ vs, b.columnData.get ['n'] = some vs ∧ vs.length ≠ b.rows) ∧
      b.write cfgDebug 1 = (bytes, .err .protocol) ∧ readBlock cfgDebug 1 bytes = .ok r :=
  ⟨⟨BlockInfo.default, 0, [(['n'], .uint8)], [(['n'], [.uint8 1#8])]⟩,
    [1, 2, 2, 0xFF, 0xFF, 0xFF, 0xFF, 0, 1, 0, 1, 110, 5, 85, 73, 110, 116, 56], _,
    ⟨by decide, by decide⟩, ⟨_, rfl, by decide⟩, rfl, rfl⟩

/-- A block with a short second column. -/
def exRagged : Block :=
  ⟨BlockInfo.default, 2, [(['n'], .uint8), (['s'], .nullable .string)],
    [(['n'], [.uint8 1#8, .uint8 2#8]), (['s'], [.null])]⟩

example : ∃ bytes, exRagged.write cfgDebug 54400 = (bytes, .err .protocol) ∧
    ∀ r, readBlock cfgDebug 54400 bytes ≠ .ok r := by
  refine C16_ragged_incomplete_partial cfgDebug exRagged ⟨by decide, by decide⟩ 54400 (by decide) (by decide) ?_
    ⟨['s'], .nullable .string, [.null], by simp [exRagged], rfl, by decide⟩
    (.inl ⟨by decide, by simp [exRagged, occupies]⟩)
  intro name t h
  simp only [exRagged, List.mem_cons, Prod.mk.injEq, List.not_mem_nil, or_false] at h
  rcases h with ⟨rfl, rfl⟩ | ⟨rfl, rfl⟩
  · exact ⟨_, rfl, by decide, trivial, by decide, .uint8, by simp [Storable], by simp [Fits]⟩
  · exact ⟨_, rfl, by decide, trivial, by decide, .nullable rfl .string, by simp [Storable, isGeo], by simp [Fits]⟩

/-! ## C17 row iterators -/

/-- A row with its values present. -/
def present (row : List (Str × Value)) : List (Str × Option Value) := row.map (fun e => (e.1, some e.2))

theorem iterRows_eq {b : Block} (hr : Rectangular b) :
    ∀ (k fuel row : Nat), row + k = b.rows → k < fuel →
      (iterRows b fuel row).map present = (List.range' row k).map (rowAt b) := by
  intro k
  induction k with
  | zero =>
    intro fuel row h1 h2
    obtain ⟨fuel, rfl⟩ : ∃ f, fuel = f + 1 := ⟨fuel - 1, by omega⟩
    have : refNext b row = none := by unfold refNext; rw [if_pos (by omega)]
    simp [iterRows, this]
  | succ k ih =>
    intro fuel row h1 h2
    obtain ⟨fuel, rfl⟩ : ∃ f, fuel = f + 1 := ⟨fuel - 1, by omega⟩
    have hm : b.columnData.mapM (fun e => (e.2[row]?).map (fun v => (e.1, v))) =
        some (b.columnData.map (fun e => (e.1, (e.2[row]?).getD .null))) := by
      apply mapM_option_eq
      intro e he
      have := hr e he
      rw [List.getElem?_eq_getElem (by omega)]
      rfl
    have hn : refNext b row =
        some (b.columnData.map (fun e => (e.1, (e.2[row]?).getD .null)), row + 1) := by
      unfold refNext
      rw [if_neg (by omega), hm]
      rfl
    rw [iterRows, hn]
    simp only [List.map_cons, List.range'_succ]
    rw [ih fuel (row + 1) (by omega) (by omega)]
    congr 1
    simp only [present, rowAt, List.map_map]
    apply List.map_congr_left
    intro e he
    have := hr e he
    simp only [Function.comp]
    rw [List.getElem?_eq_getElem (by omega)]
    rfl

theorem popAll_eq {β : Type} (cols : List (Str × β × List Value)) (h : ∀ c ∈ cols, c.2.2 ≠ []) :
    popAll cols = some (cols.map (fun c => (c.1, c.2.1, (c.2.2[0]?).getD .null)),
      cols.map (fun c => (c.1, c.2.1, c.2.2.drop 1))) := by
  induction cols with
  | nil => rfl
  | cons c cols ih =>
    obtain ⟨n, t, vs⟩ := c
    cases vs with
    | nil => exact absurd rfl (h (n, t, []) (by simp))
    | cons v vs =>
      simp only [popAll, ih (fun c hc => h c (by simp [hc]))]
      rfl

theorem popAll_none {β : Type} (cols : List (Str × β × List Value)) (c : Str × β × List Value)
    (hc : c ∈ cols) (h : c.2.2 = []) : popAll cols = none := by
  induction cols with
  | nil => cases hc
  | cons x cols ih =>
    obtain ⟨n, t, vs⟩ := x
    cases vs with
    | nil => rfl
    | cons v vs =>
      rcases List.mem_cons.mp hc with rfl | hc
      · cases h
      · simp [popAll, ih hc]

/-- The rows an owning iterator yields: all of them, in order. -/
theorem popRows_eq {β : Type} (n : Nat) : ∀ (fuel : Nat) (cols : List (Str × β × List Value)),
    cols ≠ [] → (∀ c ∈ cols, c.2.2.length = n) → n < fuel →
      popRows fuel cols =
        (List.range n).map (fun i => cols.map (fun c => (c.1, c.2.1, (c.2.2[i]?).getD .null))) := by
  induction n with
  | zero =>
    intro fuel cols hne h hf
    obtain ⟨fuel, rfl⟩ : ∃ f, fuel = f + 1 := ⟨fuel - 1, by omega⟩
    cases cols with
    | nil => exact absurd rfl hne
    | cons c cols =>
      have : popNext (c :: cols) = none := by
        unfold popNext
        rw [if_neg (by simp)]
        exact popAll_none _ c (by simp) (List.length_eq_zero_iff.mp (h c (by simp)))
      simp [popRows, this]
  | succ n ih =>
    intro fuel cols hne h hf
    obtain ⟨fuel, rfl⟩ : ∃ f, fuel = f + 1 := ⟨fuel - 1, by omega⟩
    have hp : popNext cols = some (cols.map (fun c => (c.1, c.2.1, (c.2.2[0]?).getD .null)),
        cols.map (fun c => (c.1, c.2.1, c.2.2.drop 1))) := by
      unfold popNext
      rw [if_neg (by cases cols <;> simp_all)]
      apply popAll_eq
      intro c hc he
      have := h c hc
      rw [he] at this
      cases this
    rw [popRows, hp]
    simp only
    rw [ih fuel _ (by simpa using hne) (by
      intro c hc
      obtain ⟨c', hc', rfl⟩ := List.mem_map.mp hc
      have := h c' hc'
      simp [this]) (by omega), List.range_succ_eq_map]
    simp [Function.comp_def]

theorem typedColumns_ok (f : Ty → Ty) (types : IMap Ty) (data : IMap (List Value))
    (h : ∀ e ∈ data, ∃ t, types.get e.1 = some t) :
    typedColumns f types data =
      .ok (data.map (fun e => (e.1, f ((types.get e.1).getD .uint8), e.2))) := by
  induction data with
  | nil => rfl
  | cons e data ih =>
    obtain ⟨n, vs⟩ := e
    obtain ⟨t, ht⟩ := h (n, vs) (by simp)
    simp only at ht
    simp only [typedColumns, ht, ih (fun e he => h e (by simp [he])), List.map_cons, Option.getD_some]
    rfl

/-- C17, by reference: `iter_rows` yields exactly the block's row count of rows; row `i` pairs every
column name, in column order, with the column's `i`-th value. -/
theorem C17_iter_rows_partial (b : Block) (hr : Rectangular b) (fuel : Nat) (hf : b.rows < fuel) :
    (iterRows b fuel 0).map present = (List.range b.rows).map (rowAt b) := by
  rw [iterRows_eq hr b.rows fuel 0 (by omega) hf, List.range_eq_range']

/-- A typed row without its types, values present. -/
def untyped (row : List (Str × Ty × Value)) : List (Str × Option Value) := row.map (fun e => (e.1, some e.2.2))

theorem owning_eq (f : Ty → Ty) (b : Block) (hr : Rectangular b) (ht : Typed b) (hc : b.columnData ≠ [])
    (fuel : Nat) (hf : b.rows < fuel) :
    ∃ rows, (typedColumns f b.columnTypes b.columnData >>= fun cols => .ok (popRows fuel cols)) = .ok rows ∧
      rows.map untyped = (List.range b.rows).map (rowAt b) ∧
      ∀ row ∈ rows, row.map (fun e => (e.1, e.2.1)) =
        b.columnData.map (fun e => (e.1, f ((b.columnTypes.get e.1).getD .uint8))) := by
  rw [typedColumns_ok f _ _ ht]
  refine ⟨_, rfl, ?_, ?_⟩
  · rw [popRows_eq b.rows fuel _ (by simpa using hc) (by
      intro c hc
      obtain ⟨e, he, rfl⟩ := List.mem_map.mp hc
      exact hr e he) hf, List.map_map]
    apply List.map_congr_left
    intro i hi
    simp only [Function.comp, untyped, rowAt, List.map_map]
    apply List.map_congr_left
    intro e he
    have := hr e he
    simp only [Function.comp]
    rw [List.getElem?_eq_getElem (by simp at hi; omega)]
    rfl
  · rw [popRows_eq b.rows fuel _ (by simpa using hc) (by
      intro c hc
      obtain ⟨e, he, rfl⟩ := List.mem_map.mp hc
      exact hr e he) hf]
    intro row hrow
    obtain ⟨i, _, rfl⟩ := List.mem_map.mp hrow
    simp [Function.comp_def]

/-- C17, by draining: for a block with at least one column, the same rows; each value comes with its
column's type without the `LowCardinality` wrapper. -/
theorem C17_take_iter_rows (b : Block) (hr : Rectangular b) (ht : Typed b) (hc : b.columnData ≠ []) (hm : b.rows ≤ 2 ^ 57)
    (fuel : Nat) (hf : b.rows < fuel) :
    ∃ rows, takeIterRows b fuel = .ok rows ∧ rows.map untyped = (List.range b.rows).map (rowAt b) ∧
      ∀ row ∈ rows, row.map (fun e => (e.1, e.2.1)) = b.columnData.map
        (fun e => (e.1, ((b.columnTypes.get e.1).getD .uint8).stripLowCardinality)) := by
  unfold takeIterRows
  rw [if_neg (show ¬ b.rows * columnEntrySize > maxAlloc by unfold columnEntrySize maxAlloc; omega)]
  exact owning_eq Ty.stripLowCardinality b hr ht hc fuel hf

/-- C17, by consuming: the same rows; each value comes with its column's type. -/
theorem C17_into_iter_rows (b : Block) (hr : Rectangular b) (ht : Typed b) (hc : b.columnData ≠ [])
    (fuel : Nat) (hf : b.rows < fuel) :
    ∃ rows, intoIterRows b fuel = .ok rows ∧ rows.map untyped = (List.range b.rows).map (rowAt b) ∧
      ∀ row ∈ rows, row.map (fun e => (e.1, e.2.1)) = b.columnData.map
        (fun e => (e.1, (b.columnTypes.get e.1).getD .uint8)) :=
  owning_eq id b hr ht hc fuel hf

/-- C17, the owning iterators on a block without columns yield nothing, whatever its row count up to 2^57. -/
theorem C17_no_columns_none (b : Block) (hc : b.columnData = []) (hm : b.rows ≤ 2 ^ 57) (fuel : Nat) :
    takeIterRows b fuel = .ok [] ∧ intoIterRows b fuel = .ok [] := by
  unfold takeIterRows intoIterRows
  rw [if_neg (show ¬ b.rows * columnEntrySize > maxAlloc by unfold columnEntrySize maxAlloc; omega)]
  rw [hc]
  cases fuel <;> exact ⟨rfl, rfl⟩

/-- C17 in full is false of the code: on a block with rows but no columns, `iter_rows` yields that
many empty rows while the owning iterators yield none. -/
theorem C17_agreement_fails :
    ∃ b : Block, Rectangular b ∧ Typed b ∧ b.columnData = [] ∧ iterRows b 4 0 = [[], [], []] ∧
      takeIterRows b 4 = .ok [] ∧ intoIterRows b 4 = .ok [] :=
  ⟨⟨BlockInfo.default, 3, [], []⟩, by simp [Rectangular], by simp [Typed], rfl, rfl, rfl, rfl⟩

/-- Beyond 2^58 announced rows draining panics, columns or not: room is reserved for as many columns as there are rows. -/
theorem C17_take_iter_rows_fails (b : Block) (h : 2 ^ 58 ≤ b.rows) (fuel : Nat) : takeIterRows b fuel = .panic := by
  unfold takeIterRows
  rw [if_pos (show b.rows * columnEntrySize > maxAlloc by unfold columnEntrySize maxAlloc; omega)]

theorem exBlock_rect : Rectangular exBlock := by simp [Rectangular, exBlock]
theorem exBlock_typed : Typed exBlock := by
  intro e he
  simp only [exBlock, List.mem_cons, List.not_mem_nil, or_false] at he
  rcases he with rfl | rfl
  · exact ⟨_, rfl⟩
  · exact ⟨_, rfl⟩

example := C17_into_iter_rows exBlock exBlock_rect exBlock_typed (by simp [exBlock]) 3 (by decide)
example : takeIterRows exBlock 10 = .ok [[(['n'], .uint8, .uint8 1#8), (['s'], .nullable .string, .null)],
    [(['n'], .uint8, .uint8 2#8), (['s'], .nullable .string, .string [65#8])]] := rfl

end Klick.Props
