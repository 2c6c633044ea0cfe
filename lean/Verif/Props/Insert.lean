import Verif.Props.Query
import Verif.PacketLemmas
import Verif.Props.Sql
/-
C37, C38, C63: inserts.
-/
namespace Klick
open Spec Props

/-! ### the block made of a batch -/

/-- The entries of a list that belong to one column. -/
def entriesFor (es : List (Str × Value)) (name : Str) : List Value := (es.filter (fun e => e.1 == name)).map (·.2)

theorem pushValue_get (data : IMap (List Value)) (k : Str) (v : Value) (name : Str) :
    (pushValue data k v).get name = if name = k then some ((data.get k).getD [] ++ [v]) else data.get name := by
  unfold pushValue
  cases h : data.get k with
  | some col =>
    simp only [IMap.get_insert, Option.getD_some]
    by_cases hk : name = k
    · rw [if_pos hk, if_pos hk.symm]
    · rw [if_neg hk, if_neg (fun e => hk e.symm)]
  | none =>
    simp only [IMap.get_insert, Option.getD_none, List.nil_append]
    by_cases hk : name = k
    · rw [if_pos hk, if_pos hk.symm]
    · rw [if_neg hk, if_neg (fun e => hk e.symm)]

theorem insert_keys_nodup {α : Type} {m : IMap α} (hn : m.keys.Nodup) (k : Str) (v : α) : (m.insert k v).keys.Nodup := by
  by_cases h : k ∈ m.keys
  · have : (m.insert k v).keys = m.keys := by
      unfold IMap.insert
      have hany : m.any (fun e => e.1 == k) = true := by
        obtain ⟨e, he, rfl⟩ := List.mem_map.mp h
        exact List.any_eq_true.mpr ⟨e, he, by simp⟩
      rw [if_pos hany]
      simp only [IMap.keys, List.map_map]
      apply List.map_congr_left
      intro e _
      simp only [Function.comp]
      split
      · rename_i h; exact (beq_iff_eq.mp h).symm
      · rfl
    rw [this]; exact hn
  · rw [IMap.insert_new h]
    simp only [IMap.keys, List.map_append, List.map_cons, List.map_nil] at hn h ⊢
    rw [List.nodup_append]
    refine ⟨hn, by simp, fun a ha b hb => ?_⟩
    have hb : b = k := by simpa using hb
    intro e
    exact h (by rw [← hb, ← e]; exact ha)

theorem pushValue_nodup {data : IMap (List Value)} (hn : data.keys.Nodup) (k : Str) (v : Value) : (pushValue data k v).keys.Nodup := by
  unfold pushValue
  split <;> exact insert_keys_nodup hn _ _

theorem pushAll_nodup (es : List (Str × Value)) : ∀ {data : IMap (List Value)}, data.keys.Nodup →
    (es.foldl (fun d e => pushValue d e.1 e.2) data).keys.Nodup := by
  induction es with
  | nil => intro data h; exact h
  | cons e es ih => intro data h; exact ih (pushValue_nodup h _ _)

theorem pushAll_get (es : List (Str × Value)) : ∀ (data : IMap (List Value)) (name : Str),
    (es.foldl (fun d e => pushValue d e.1 e.2) data).get name =
      if entriesFor es name = [] then data.get name else some ((data.get name).getD [] ++ entriesFor es name) := by
  induction es with
  | nil => intro data name; simp [entriesFor]
  | cons e es ih =>
    intro data name
    obtain ⟨k, v⟩ := e
    rw [List.foldl_cons, ih, pushValue_get]
    by_cases hk : name = k
    · subst hk
      have : entriesFor ((name, v) :: es) name = v :: entriesFor es name := by simp [entriesFor]
      rw [this]
      simp only [if_true, Option.getD_some, List.append_assoc]
      split
      · rename_i h; simp [h]
      · simp
    · have : entriesFor ((k, v) :: es) name = entriesFor es name := by
        have : (k == name) = false := by simpa using fun e : k = name => hk e.symm
        simp [entriesFor, this]
      rw [this, if_neg hk]

/-- Every value of the row may be sent. -/
def RowFine (cfg : Cfg) (header : IMap Ty) (row : List (Str × Value)) : Prop := ∀ e ∈ row, ¬ Unsendable cfg header e

theorem unsendable_iff {cfg : Cfg} {header : IMap Ty} {e : Str × Value} :
    ¬ Unsendable cfg header e ↔ ∃ t, header.get e.1 = some t ∧ t.validateValue cfg e.2 = true := by
  unfold Unsendable
  cases h : header.get e.1 with
  | none => simp
  | some t => simp

theorem checkValue_spec (cfg : Cfg) (ext : Ext) (t : Ty) (v : Value) :
    (t.validateValue cfg v = true → t.checkValue cfg ext v = .ok ()) ∧
    (t.validateValue cfg v = false → t.checkValue cfg ext v = .err .typeParse ∨ (t.checkValue cfg ext v = .panic ∧ ¬ Showable ext v)) := by
  unfold Ty.checkValue Ty.validateValue Showable
  cases t.validate <;> cases t.innerValidate cfg v <;> simp
  cases v.text ext <;> simp [Res.isPanic]

/-- `validate_value` accepts exactly the valid values. -/
theorem checkValue_ok (cfg : Cfg) (ext : Ext) (t : Ty) (v : Value) : t.checkValue cfg ext v = .ok () ↔ t.validateValue cfg v = true := by
  cases h : t.validateValue cfg v with
  | true => simp [(checkValue_spec cfg ext t v).1 h]
  | false => rcases (checkValue_spec cfg ext t v).2 h with h | ⟨h, _⟩ <;> simp [h]

/-- How a refusal ends: with a protocol or type error, or, if one of the values cannot be shown, with a panic. -/
def Refusal {α : Type} (ext : Ext) (bad : Value → Prop) (r : Res α) : Prop :=
  (∃ e, r = .err e ∧ (e = .protocol ∨ e = .typeParse)) ∨ (r = .panic ∧ ∃ v, bad v ∧ ¬ Showable ext v)

theorem insertRow_spec (cfg : Cfg) (ext : Ext) (header : IMap Ty) (row : List (Str × Value)) : ∀ (data : IMap (List Value)),
    (RowFine cfg header row → insertRow cfg ext header row data = .ok (row.foldl (fun d e => pushValue d e.1 e.2) data)) ∧
    (¬ RowFine cfg header row → Refusal ext (fun v => ∃ e ∈ row, Unsendable cfg header e ∧ e.2 = v) (insertRow cfg ext header row data)) := by
  induction row with
  | nil => intro data; exact ⟨fun _ => rfl, fun h => absurd (by intro e he; cases he) h⟩
  | cons e row ih =>
    intro data
    obtain ⟨k, v⟩ := e
    simp only [insertRow]
    cases hg : header.get k with
    | none =>
      refine ⟨fun h => ?_, fun _ => .inl ⟨_, rfl, .inl rfl⟩⟩
      obtain ⟨t, h1, _⟩ := unsendable_iff.mp (h (k, v) (List.mem_cons_self ..))
      rw [hg] at h1; cases h1
    | some t =>
      simp only
      by_cases hv : t.validateValue cfg v = true
      · rw [(checkValue_spec cfg ext t v).1 hv]
        obtain ⟨h1, h2⟩ := ih (pushValue data k v)
        have fine : RowFine cfg header ((k, v) :: row) ↔ RowFine cfg header row := by
          unfold RowFine
          simp only [List.mem_cons, forall_eq_or_imp]
          exact ⟨fun h => h.2, fun h => ⟨unsendable_iff.mpr ⟨t, hg, hv⟩, h⟩⟩
        rw [fine]
        refine ⟨h1, fun h => ?_⟩
        rcases h2 h with h | ⟨h3, v', ⟨e, he, hu⟩, h5⟩
        · exact .inl h
        · exact .inr ⟨h3, v', ⟨e, List.mem_cons_of_mem _ he, hu⟩, h5⟩
      · have hv : t.validateValue cfg v = false := by simpa using hv
        have bad : Unsendable cfg header (k, v) := by
          intro t' ht'
          rw [hg] at ht'; cases ht'; exact hv
        refine ⟨fun h => absurd bad (h (k, v) (List.mem_cons_self ..)), fun _ => ?_⟩
        rcases (checkValue_spec cfg ext t v).2 hv with h | ⟨h, hs⟩ <;> rw [h]
        · exact .inl ⟨_, rfl, .inr rfl⟩
        · exact .inr ⟨rfl, v, ⟨(k, v), List.mem_cons_self .., bad, rfl⟩, hs⟩

/-- The entries of the rows that could be serialised. -/
def allEntries (rows : List (Res (List (Str × Value)))) : List (Str × Value) :=
  rows.flatMap fun r => match r with | .ok row => row | _ => []

theorem givenFor_eq (rows : List (Res (List (Str × Value)))) (name : Str) : givenFor rows name = entriesFor (allEntries rows) name := by
  induction rows with
  | nil => rfl
  | cons r rows ih =>
    simp only [givenFor, entriesFor, allEntries, List.flatMap_cons, List.filter_append, List.map_append] at ih ⊢
    rw [ih]
    cases r <;> rfl

/-- A value of the rows that may not be sent. -/
def BadValue (cfg : Cfg) (header : IMap Ty) (rows : List (Res (List (Str × Value)))) (v : Value) : Prop :=
  ∃ row, .ok row ∈ rows ∧ ∃ e ∈ row, Unsendable cfg header e ∧ e.2 = v

theorem insertRows_spec (cfg : Cfg) (ext : Ext) (header : IMap Ty) (rows : List (Res (List (Str × Value)))) : ∀ (data : IMap (List Value)),
    ((∀ row, .ok row ∈ rows → RowFine cfg header row) → .panic ∉ rows →
      insertRows cfg ext header rows data = .ok ((allEntries rows).foldl (fun d e => pushValue d e.1 e.2) data)) ∧
    (.panic ∈ rows → ∀ d, insertRows cfg ext header rows data ≠ .ok d) ∧
    ((∃ row, .ok row ∈ rows ∧ ¬ RowFine cfg header row) →
      Refusal ext (BadValue cfg header rows) (insertRows cfg ext header rows data) ∨
      (.panic ∈ rows ∧ insertRows cfg ext header rows data = .panic)) := by
  induction rows with
  | nil => intro data; exact ⟨fun _ _ => rfl, (by intro h; cases h), by rintro ⟨row, h, _⟩; cases h⟩
  | cons r rows ih =>
    intro data
    have up : ∀ {x : Res (IMap (List Value))}, Refusal ext (BadValue cfg header rows) x → Refusal ext (BadValue cfg header (r :: rows)) x := by
      rintro x (h | ⟨h, v, ⟨row, h1, h2⟩, h3⟩)
      · exact .inl h
      · exact .inr ⟨h, v, ⟨row, List.mem_cons_of_mem _ h1, h2⟩, h3⟩
    cases r with
    | panic =>
      simp only [insertRows]
      exact ⟨fun _ h => absurd (List.mem_cons_self ..) h, (by intro _ d h; cases h), fun _ => .inr ⟨List.mem_cons_self .., trivial⟩⟩
    | err e =>
      obtain ⟨h1, h2, h3⟩ := ih data
      simp only [insertRows]
      refine ⟨fun h hp => h1 (fun row hr => h row (List.mem_cons_of_mem _ hr)) (fun h => hp (List.mem_cons_of_mem _ h)), fun h => h2 (by simpa using h),
        fun ⟨row, hr, hf⟩ => ?_⟩
      rcases h3 ⟨row, by simpa using hr, hf⟩ with h | ⟨h, h'⟩
      · exact .inl (up h)
      · exact .inr ⟨List.mem_cons_of_mem _ h, h'⟩
    | ok row =>
      simp only [insertRows]
      by_cases hf : RowFine cfg header row
      · rw [(insertRow_spec cfg ext header row data).1 hf]
        obtain ⟨h1, h2, h3⟩ := ih (row.foldl (fun d e => pushValue d e.1 e.2) data)
        refine ⟨fun h hp => ?_, fun h => h2 (by simpa using h), ?_⟩
        · show insertRows _ _ _ _ _ = _
          rw [h1 (fun row hr => h row (List.mem_cons_of_mem _ hr)) (fun h => hp (List.mem_cons_of_mem _ h))]
          simp only [allEntries, List.flatMap_cons, List.foldl_append]
        · rintro ⟨row', hr, hf'⟩
          rcases List.mem_cons.mp hr with hr | hr
          · cases hr; exact absurd hf hf'
          · rcases h3 ⟨row', hr, hf'⟩ with h | ⟨h, h'⟩
            · exact .inl (up h)
            · exact .inr ⟨List.mem_cons_of_mem _ h, h'⟩
      · have hx := (insertRow_spec cfg ext header row data).2 hf
        rcases hx with ⟨e, he, hp⟩ | ⟨he, v, hv, hs⟩
        · rw [he]
          exact ⟨fun h => absurd (h row (List.mem_cons_self ..)) hf, (by intro _ d h; cases h), fun _ => .inl (.inl ⟨e, rfl, hp⟩)⟩
        · rw [he]
          exact ⟨fun h => absurd (h row (List.mem_cons_self ..)) hf, (by intro _ d h; cases h),
            fun _ => .inl (.inr ⟨rfl, v, ⟨row, List.mem_cons_self .., hv⟩, hs⟩)⟩

theorem batchBlock_fine {cfg : Cfg} {ext : Ext} {header : IMap Ty} {rows : List (Res (List (Str × Value)))} {b : Block}
    (h : batchBlock cfg ext header rows = .ok b) : (∀ row, .ok row ∈ rows → RowFine cfg header row) ∧ .panic ∉ rows := by
  unfold batchBlock at h
  obtain ⟨d, hd, _⟩ := Res.bind_eq_ok.mp h
  refine ⟨fun row hr => Classical.byContradiction fun hn => ?_, fun hp => (insertRows_spec cfg ext header rows []).2.1 hp d hd⟩
  rcases (insertRows_spec cfg ext header rows []).2.2 ⟨row, hr, hn⟩ with (⟨e, he, _⟩ | ⟨he, _⟩) | ⟨_, he⟩ <;> (rw [he] at hd; cases hd)

/-! ## C37 -/

/-- C37, exactly: whatever the batch, when a block is made it announces one row per input row and the
types of the header, and a column holds everything the serialised rows gave for it, in row order. -/
theorem C37_exact (cfg : Cfg) (ext : Ext) (header : IMap Ty) (rows : List (Res (List (Str × Value)))) (b : Block)
    (h : batchBlock cfg ext header rows = .ok b) :
    b.rows = rows.length ∧ b.columnTypes = header ∧ b.columnData.keys.Nodup ∧
    ∀ name, b.columnData.get name = if givenFor rows name = [] then none else some (givenFor rows name) := by
  obtain ⟨hf, hp⟩ := batchBlock_fine h
  unfold batchBlock at h
  rw [(insertRows_spec cfg ext header rows []).1 hf hp] at h
  cases h
  refine ⟨rfl, rfl, pushAll_nodup _ (by simp [IMap.keys]), fun name => ?_⟩
  simp only
  rw [pushAll_get, givenFor_eq]
  simp [IMap.get]

theorem entriesFor_once {row : List (Str × Value)} (h : (row.map (·.1)).Nodup) {name : Str} (hm : name ∈ row.map (·.1)) :
    ∃ v, entriesFor row name = [v] ∧ valueFor row name = some v := by
  induction row with
  | nil => simp at hm
  | cons e row ih =>
    obtain ⟨k, v⟩ := e
    simp only [List.map_cons, List.nodup_cons] at h
    by_cases hk : k = name
    · subst hk
      refine ⟨v, ?_, by simp [valueFor]⟩
      have : row.filter (fun e => e.1 == k) = [] := by
        rw [List.filter_eq_nil_iff]
        intro e he hek
        exact h.1 (List.mem_map.mpr ⟨e, he, by simpa using hek⟩)
      simp [entriesFor, this]
    · have hm : name ∈ row.map (·.1) := by
        rcases List.mem_cons.mp hm with hm | hm
        · exact absurd hm.symm hk
        · exact hm
      obtain ⟨w, h1, h2⟩ := ih h.2 hm
      have hb : (k == name) = false := by simpa using hk
      refine ⟨w, ?_, ?_⟩
      · rw [← h1]; simp [entriesFor, hb]
      · rw [← h2]; simp [valueFor, List.find?, hb]

theorem givenFor_complete {cfg : Cfg} {header : IMap Ty} {rows : List (List (Str × Value))} (h : ∀ r ∈ rows, Complete cfg header r)
    {name : Str} (hm : name ∈ header.keys) : givenFor (rows.map .ok) name = rows.map (fun r => (valueFor r name).getD .null) := by
  induction rows with
  | nil => rfl
  | cons r rows ih =>
    have hr := h r (List.mem_cons_self ..)
    obtain ⟨v, h1, h2⟩ := entriesFor_once hr.once ((hr.same name).mpr hm)
    have ih := ih (fun r hr => h r (List.mem_cons_of_mem _ hr))
    simp only [givenFor, entriesFor, List.map_cons, List.flatMap_cons] at ih h1 ⊢
    rw [ih, h1, h2]
    rfl

theorem complete_fine {cfg : Cfg} {header : IMap Ty} {row : List (Str × Value)} (h : Complete cfg header row) : RowFine cfg header row :=
  fun e he => unsendable_iff.mpr (h.valid e.1 e.2 he)

theorem complete_values {cfg : Cfg} {header : IMap Ty} {row : List (Str × Value)} (h : Complete cfg header row) {name : Str}
    (hm : name ∈ header.keys) : ∃ v, valueFor row name = some v := by
  obtain ⟨v, _, h2⟩ := entriesFor_once h.once ((h.same name).mpr hm)
  exact ⟨v, h2⟩

/-- C37: for rows that give each header column one valid value, in whatever order they list them and
whatever the order of the header, the block has one row per input row and holds, in every header
column at every row's position, the value that row gives for that column. -/
theorem C37_columns (cfg : Cfg) (ext : Ext) (header : IMap Ty) (rows : List (List (Str × Value))) (hne : rows ≠ [])
    (h : ∀ r ∈ rows, Complete cfg header r) :
    ∃ b, batchBlock cfg ext header (rows.map .ok) = .ok b ∧ b.rows = rows.length ∧ b.columnTypes = header ∧
      (∀ name ∈ header.keys, ∃ col, b.columnData.get name = some col ∧ col.length = rows.length ∧
        ∀ i : Nat, col[i]? = rows[i]?.bind (valueFor · name)) ∧
      (∀ name, name ∉ header.keys → b.columnData.get name = none) := by
  have hf : ∀ row, (.ok row : Res _) ∈ rows.map Res.ok → RowFine cfg header row := by
    intro row hr
    obtain ⟨r, hr, e⟩ := List.mem_map.mp hr
    cases e
    exact complete_fine (h _ hr)
  obtain ⟨b, hb⟩ : ∃ b, batchBlock cfg ext header (rows.map .ok) = .ok b := by
    unfold batchBlock
    rw [(insertRows_spec cfg ext header _ []).1 hf (by simp)]
    exact ⟨_, rfl⟩
  obtain ⟨h1, h2, h3, h4⟩ := C37_exact cfg ext header _ b hb
  refine ⟨b, hb, by rw [h1]; simp, h2, fun name hm => ?_, fun name hm => ?_⟩
  · refine ⟨rows.map (fun r => (valueFor r name).getD .null), ?_, by simp, fun i => ?_⟩
    · rw [h4 name, givenFor_complete h hm, if_neg (by simpa using hne)]
    · rw [List.getElem?_map]
      cases hi : rows[i]? with
      | none => rfl
      | some r =>
        obtain ⟨v, hv⟩ := complete_values (h r (List.mem_of_getElem? hi)) hm
        simp [hv]
  · rw [h4 name, if_pos]
    simp only [givenFor, List.flatMap_eq_nil_iff]
    intro r hr
    obtain ⟨row, hrow, rfl⟩ := List.mem_map.mp hr
    simp only [List.map_eq_nil_iff, List.filter_eq_nil_iff]
    intro e he hek
    apply hm
    rw [← (h row hrow).same]
    exact List.mem_map.mpr ⟨e, he, by simpa using hek⟩

/-- C37, on the wire: what the server reads from the bytes of such a block is a block with the header's
columns in the header's order, in which column `name` holds at row `i` the value row `i` gave for
it (in the normal form of C06). -/
theorem C37_wire (cfg : Cfg) (ext : Ext) (header : IMap Ty) (rows : List (List (Str × Value))) (hne : rows ≠ [])
    (h : ∀ r ∈ rows, Complete cfg header r) (hn : header.keys.Nodup) (hl : header.length < 2 ^ 63) (hr : rows.length < 2 ^ 63)
    (hs : ∀ name t, (name, t) ∈ header → Sendable cfg name t (rows.map (fun r => (valueFor r name).getD .null))) (revision : Nat) :
    ∃ b bytes, batchBlock cfg ext header (rows.map .ok) = .ok b ∧ b.write cfg revision = (bytes, .ok ()) ∧
      ∀ rest, ∃ b', readBlock cfg revision (bytes ++ rest) = .ok (b', rest) ∧ b'.rows = rows.length ∧ b'.columnTypes = header ∧
        b'.columnData.keys = header.keys ∧
        ∀ name t, (name, t) ∈ header → ∃ col, b'.columnData.get name = some col ∧ col.length = rows.length ∧
          ∀ i : Nat, col[i]? = (rows[i]?.bind (valueFor · name)).map (canon t) := by
  obtain ⟨b, hb, h1, h2, h3, _⟩ := C37_columns cfg ext header rows hne h
  have hd : b.columnData.keys.Nodup := (C37_exact cfg ext header _ b hb).2.2.1
  have ok : BlockOk cfg b := by
    refine ⟨⟨by rw [h2]; exact hn, hd⟩, by rw [h2]; exact hl, by rw [h1]; exact hr, fun name t ht => ?_⟩
    rw [h2] at ht
    obtain ⟨col, c1, c2, c3⟩ := h3 name (List.mem_map.mpr ⟨_, ht, rfl⟩)
    refine ⟨col, c1, by rw [c2, h1], ?_⟩
    have : col = rows.map (fun r => (valueFor r name).getD .null) := by
      apply List.ext_getElem? ; intro i
      rw [c3 i, List.getElem?_map]
      cases hi : rows[i]? with
      | none => rfl
      | some r =>
        obtain ⟨v, hv⟩ := complete_values (h r (List.mem_of_getElem? hi)) (List.mem_map.mpr ⟨_, ht, rfl⟩)
        simp [hv]
    rw [this]
    exact hs name t ht
  obtain ⟨bytes, w1, w2⟩ := C14_block_roundtrip cfg b ok revision
  refine ⟨b, bytes, hb, w1, fun rest => ?_⟩
  obtain ⟨b', r1, r2, r3, r4, r5⟩ := w2 rest
  refine ⟨b', r1, by rw [r2, h1], by rw [r3, h2], by rw [r4, h2], fun name t ht => ?_⟩
  obtain ⟨col, c1, c2, c3⟩ := h3 name (List.mem_map.mpr ⟨_, ht, rfl⟩)
  refine ⟨_, r5 name t col (by rw [h2]; exact ht) c1, by simp [c2], fun i => ?_⟩
  rw [List.getElem?_map, c3 i]

/-- C37, the whole insert: with all rows complete and all blocks acknowledged, one block per non-empty
batch is sent, in order, then the block without columns that ends the data, and the insert succeeds. -/
theorem C37_insert (cfg : Cfg) (ext : Ext) (hdr : Block) (batches : List (List (List (Str × Value))))
    (h : ∀ rows ∈ batches, ∀ r ∈ rows, Complete cfg hdr.columnTypes r) (acks : List Bool)
    (ha : acks = List.replicate ((batches.filter (fun rows => !rows.isEmpty)).length + 1) true) :
    ∃ blocks, (insertNative cfg ext (fun _ r => .ok r) (some (.block hdr)) acks batches) = (blocks ++ [endBlock], .ok ()) ∧
      blocks.map Res.ok = (batches.filter (fun rows => !rows.isEmpty)).map (fun rows => batchBlock cfg ext hdr.columnTypes (rows.map .ok)) := by
  subst ha
  unfold insertNative
  simp only
  induction batches with
  | nil => exact ⟨[], rfl, rfl⟩
  | cons rows batches ih =>
    obtain ⟨blocks, i1, i2⟩ := ih (fun rows hr => h rows (List.mem_cons_of_mem _ hr))
    cases rows with
    | nil => exact ⟨blocks, i1, i2⟩
    | cons r rows =>
      obtain ⟨b, hb, _⟩ := C37_columns cfg ext hdr.columnTypes (r :: rows) (by simp) (h _ (List.mem_cons_self ..))
      have hb' : batchBlock cfg ext hdr.columnTypes (.ok r :: rows.map .ok) = .ok b := hb
      refine ⟨b :: blocks, ?_, ?_⟩
      · simp only [List.map_cons, insertBatches, List.isEmpty_cons, Bool.not_false, List.filter_cons_of_pos, List.length_cons]
        rw [List.replicate_succ, hb']
        simp only
        rw [i1]
        rfl
      · simp only [List.isEmpty_cons, Bool.not_false, List.filter_cons_of_pos, List.map_cons, i2, hb']

/-- A header of two columns and rows that list them in different orders. -/
def exHeader : IMap Ty := [(['n'], .uint8), (['s'], .nullable .string)]
def exRow1 : List (Str × Value) := [(['n'], .uint8 1#8), (['s'], .null)]
def exRow2 : List (Str × Value) := [(['s'], .string [65#8]), (['n'], .uint8 2#8)]

theorem exRows_complete : ∀ r ∈ [exRow1, exRow2], Complete cfgDebug exHeader r := by
  intro r hr
  simp only [List.mem_cons, List.not_mem_nil, or_false] at hr
  rcases hr with rfl | rfl
  · refine ⟨by decide, fun name => by simp [exRow1, exHeader, IMap.keys], fun name v h => ?_⟩
    simp only [exRow1, List.mem_cons, Prod.mk.injEq, List.not_mem_nil, or_false] at h
    rcases h with ⟨rfl, rfl⟩ | ⟨rfl, rfl⟩
    · exact ⟨_, rfl, rfl⟩
    · exact ⟨_, rfl, rfl⟩
  · refine ⟨by decide, fun name => by simp [exRow2, exHeader, IMap.keys, or_comm], fun name v h => ?_⟩
    simp only [exRow2, List.mem_cons, Prod.mk.injEq, List.not_mem_nil, or_false] at h
    rcases h with ⟨rfl, rfl⟩ | ⟨rfl, rfl⟩
    · exact ⟨_, rfl, rfl⟩
    · exact ⟨_, rfl, rfl⟩

example := C37_columns cfgDebug exExt exHeader [exRow1, exRow2] (by simp) exRows_complete
example : batchBlock cfgDebug exExt exHeader [.ok exRow1, .ok exRow2] = .ok exBlock := rfl
example := C37_wire cfgDebug exExt exHeader [exRow1, exRow2] (by simp) exRows_complete (by decide) (by decide) (by decide) (by
  intro name t h
  simp only [exHeader, List.mem_cons, Prod.mk.injEq, List.not_mem_nil, or_false] at h
  rcases h with ⟨rfl, rfl⟩ | ⟨rfl, rfl⟩
  · exact ⟨by decide, trivial, by decide, .uint8, by simp [Storable, valueFor, exRow1, exRow2], by simp [Fits]⟩
  · exact ⟨by decide, trivial, by decide, .nullable rfl .string, by simp [Storable, valueFor, exRow1, exRow2, isGeo],
      by simp [Fits, valueFor, exRow1, exRow2]⟩) 54400
example := C37_insert cfgDebug exExt ⟨BlockInfo.default, 0, exHeader, []⟩ [[exRow1], [], [exRow2, exRow1]] (by
  intro rows hr r hrr
  simp only [List.mem_cons, List.not_mem_nil, or_false] at hr
  rcases hr with rfl | rfl | rfl
  · exact exRows_complete r (by simp only [List.mem_singleton] at hrr; simp [hrr])
  · cases hrr
  · exact exRows_complete r (by simp only [List.mem_cons, List.not_mem_nil, or_false] at hrr; rcases hrr with rfl | rfl <;> simp)) [true, true, true] rfl
example : (insertNative cfgDebug exExt (fun _ r => .ok r) (some (.block ⟨BlockInfo.default, 0, exHeader, []⟩)) [true, true, true]
    [[exRow1], [], [exRow2, exRow1]]).1.map (·.rows) = [1, 2, 0] := rfl

/-! ## C38 -/

/-- C38: a batch in which some row has a value for no column of the header, or not valid for its column,
gives no block. The outcome is a protocol or type error when no row panics while it is serialised and every value that may not be sent can be
shown. Missing from the full claim: values that cannot be shown, see `C38_refusal_panics_false`. -/
theorem C38_refused (cfg : Cfg) (ext : Ext) (header : IMap Ty) (rows : List (Res (List (Str × Value)))) (row : List (Str × Value))
    (hr : .ok row ∈ rows) (e : Str × Value) (he : e ∈ row) (hu : Unsendable cfg header e) :
    (∀ b, batchBlock cfg ext header rows ≠ .ok b) ∧
    (.panic ∉ rows → (∀ row', .ok row' ∈ rows → ∀ e' ∈ row', Unsendable cfg header e' → Showable ext e'.2) →
      ∃ x, batchBlock cfg ext header rows = .err x ∧ (x = .protocol ∨ x = .typeParse)) := by
  refine ⟨fun b hb => (batchBlock_fine hb).1 row hr e he hu, fun hp hs => ?_⟩
  rcases (insertRows_spec cfg ext header rows []).2.2 ⟨row, hr, fun h => h e he hu⟩ with (⟨x, hx, h⟩ | ⟨_, v, ⟨row', h1, e', h2, h3, h4⟩, h5⟩) | ⟨h, _⟩
  · exact ⟨x, by unfold batchBlock; rw [hx]; rfl, h⟩
  · exact absurd (h4 ▸ hs row' h1 e' h2 h3) h5
  · exact absurd h hp

/-- C38 is false of the code in how an insert fails: a value that cannot be shown (here a 256-bit decimal in a column of bytes) is refused by a
panic in the caller's task, not by an error, because the error's text shows the value. -/
theorem C38_refusal_panics_false (cfg : Cfg) (ext : Ext) (p : Nat) (x : BitVec 256) :
    Unsendable cfg [(['n'], .uint8)] (['n'], .decimal256 p x) ∧
    (∀ acks, insertNative cfg ext (fun _ r => .ok r) (some (.block ⟨BlockInfo.default, 0, [(['n'], .uint8)], []⟩)) acks
      [[[(['n'], .decimal256 p x)]]] = ([], .panic)) :=
  ⟨(by intro t h; cases h; rfl), fun acks => by cases acks <;> rfl⟩

/-- C38: when no block can be made of a batch, the insert fails, and neither that block nor anything after it (nor the
end of the data) is sent; it fails with an error unless a batch panics. -/
theorem C38_insert_stops (cfg : Cfg) (ext : Ext) (header : IMap Ty) (acks : List Bool) (pre post : List (List (Res (List (Str × Value)))))
    (rows : List (Res (List (Str × Value)))) (hne : rows ≠ []) (hx : ∀ b, batchBlock cfg ext header rows ≠ .ok b) :
    (insertBatches cfg ext header acks (pre ++ rows :: post)).2 ≠ .ok () ∧
    ((∀ rs ∈ pre ++ [rows], batchBlock cfg ext header rs ≠ .panic) → ∃ x, (insertBatches cfg ext header acks (pre ++ rows :: post)).2 = .err x) ∧
    (insertBatches cfg ext header acks (pre ++ rows :: post)).1.length ≤ (pre.filter (fun r => !r.isEmpty)).length ∧
    (∀ b ∈ (insertBatches cfg ext header acks (pre ++ rows :: post)).1, ∃ rs ∈ pre, batchBlock cfg ext header rs = .ok b) := by
  induction pre generalizing acks with
  | nil =>
    cases rows with
    | nil => exact absurd rfl hne
    | cons r rows =>
      cases h : batchBlock cfg ext header (r :: rows) with
      | ok b => exact absurd h (hx b)
      | err e => simp [insertBatches, h]
      | panic => simp [insertBatches, h]
  | cons rs pre ih =>
    cases rs with
    | nil =>
      obtain ⟨h1, h1', h2, h3⟩ := ih acks
      refine ⟨h1, fun hp => h1' (fun rs hr => hp rs (List.mem_cons_of_mem _ hr)), h2, fun b hb => ?_⟩
      obtain ⟨rs, h4, h5⟩ := h3 b hb
      exact ⟨rs, List.mem_cons_of_mem _ h4, h5⟩
    | cons r rs =>
      simp only [List.cons_append, insertBatches, List.isEmpty_cons, Bool.not_false, List.filter_cons_of_pos, List.length_cons]
      cases hb : batchBlock cfg ext header (r :: rs) with
      | err e => simp
      | panic => simp [hb]
      | ok b =>
        simp only
        split
        · rename_i acks'
          obtain ⟨h1, h1', h2, h3⟩ := ih acks'
          refine ⟨h1, fun hp => h1' (fun rs hr => hp rs (List.mem_cons_of_mem _ hr)), by simpa using h2, fun c hc => ?_⟩
          rcases List.mem_cons.mp hc with rfl | hc
          · exact ⟨_, List.mem_cons_self .., hb⟩
          · obtain ⟨rs, h4, h5⟩ := h3 c hc
            exact ⟨rs, List.mem_cons_of_mem _ h4, h5⟩
        · refine ⟨(by intro h; cases h), fun _ => ⟨_, rfl⟩, by simp, fun c hc => ?_⟩
          have hc : c = b := by simpa using hc
          exact ⟨_, List.mem_cons_self .., by rw [hc]; exact hb⟩

theorem batch_valid {cfg : Cfg} {ext : Ext} {header : IMap Ty} {rows : List (Res (List (Str × Value)))} {b : Block}
    (hb : batchBlock cfg ext header rows = .ok b) {name : Str} {col : List Value} (hc : b.columnData.get name = some col) :
    ∃ t, header.get name = some t ∧ ∀ v ∈ col, t.validateValue cfg v = true := by
  have hf := (batchBlock_fine hb).1
  have hx := (C37_exact cfg ext header rows b hb).2.2.2 name
  rw [hc] at hx
  split at hx
  · cases hx
  · rename_i hne
    cases hx
    have all : ∀ v ∈ givenFor rows name, ∃ t, header.get name = some t ∧ t.validateValue cfg v = true := by
      intro v hv
      rw [givenFor_eq] at hv
      obtain ⟨e, he, rfl⟩ := List.mem_map.mp hv
      obtain ⟨he, hk⟩ := List.mem_filter.mp he
      obtain ⟨r, hr, her⟩ := List.mem_flatMap.mp he
      cases r with
      | err _ => cases her
      | panic => cases her
      | ok row =>
        have := unsendable_iff.mp (hf row hr e her)
        rw [beq_iff_eq.mp hk] at this
        exact this
    cases hl : givenFor rows name with
    | nil => exact absurd hl hne
    | cons v vs =>
      obtain ⟨t, h1, h2⟩ := all v (by rw [hl]; simp)
      refine ⟨t, h1, fun w hw => ?_⟩
      obtain ⟨t', h3, h4⟩ := all w (by rw [hl]; exact hw)
      rw [h1] at h3; cases h3
      exact h4

theorem insertBatches_blocks (cfg : Cfg) (ext : Ext) (header : IMap Ty) (batches : List (List (Res (List (Str × Value))))) : ∀ (acks : List Bool)
    (b : Block), b ∈ (insertBatches cfg ext header acks batches).1 → b = endBlock ∨ ∃ rows ∈ batches, batchBlock cfg ext header rows = .ok b := by
  induction batches with
  | nil => intro acks b hb; simp only [insertBatches, List.mem_singleton] at hb; exact .inl hb
  | cons rows batches ih =>
    have up : ∀ b, (b = endBlock ∨ ∃ rows ∈ batches, batchBlock cfg ext header rows = .ok b) →
        b = endBlock ∨ ∃ rows' ∈ rows :: batches, batchBlock cfg ext header rows' = .ok b := by
      rintro b (h | ⟨r, h1, h2⟩)
      · exact .inl h
      · exact .inr ⟨r, List.mem_cons_of_mem _ h1, h2⟩
    intro acks b hb
    cases rows with
    | nil => exact up b (ih acks b hb)
    | cons r rows =>
      simp only [insertBatches] at hb
      cases hx : batchBlock cfg ext header (r :: rows) with
      | err e => rw [hx] at hb; simp at hb
      | panic => rw [hx] at hb; simp at hb
      | ok b1 =>
        rw [hx] at hb
        simp only at hb
        split at hb
        · rename_i acks'
          rcases List.mem_cons.mp hb with rfl | hb
          · exact .inr ⟨_, List.mem_cons_self .., hx⟩
          · exact up b (ih acks' b hb)
        · have hb : b = b1 := by simpa using hb
          exact .inr ⟨_, List.mem_cons_self .., by rw [hb]; exact hx⟩

/-- C38: whatever the rows, every value in every block an insert hands over is in a column of the header
and valid for that column's type. -/
theorem C38_sent_valid {R : Type} (cfg : Cfg) (ext : Ext) (serialize : IMap Ty → R → Res (List (Str × Value))) (hdr : Block) (acks : List Bool)
    (batches : List (List R)) (b : Block) (hb : b ∈ (insertNative cfg ext serialize (some (.block hdr)) acks batches).1)
    (name : Str) (col : List Value) (hc : b.columnData.get name = some col) :
    ∃ t, hdr.columnTypes.get name = some t ∧ ∀ v ∈ col, t.validateValue cfg v = true := by
  rcases insertBatches_blocks cfg ext hdr.columnTypes _ acks b hb with rfl | ⟨rows, _, h⟩
  · simp [endBlock, IMap.get] at hc
  · exact batch_valid h hc

/-- C38, completeness, is false: when no row gives a value for a header column, the block is written
without that column and without an error. -/
theorem C38_missing_column_false : ∃ (cfg : Cfg) (ext : Ext) (header : IMap Ty) (rows : List (List (Str × Value))) (b : Block) (bytes : Bytes) (name : Str),
    name ∈ header.keys ∧ (∀ r ∈ rows, name ∉ r.map (·.1)) ∧ rows ≠ [] ∧ batchBlock cfg ext header (rows.map .ok) = .ok b ∧
    b.write cfg 54400 = (bytes, .ok ()) ∧ ∃ b', readBlock cfg 54400 bytes = .ok (b', []) ∧ b'.rows = rows.length ∧ name ∉ b'.columnTypes.keys := by
  refine ⟨cfgDebug, exExt, [(['n'], .uint8), (['s'], .string)], [[(['n'], .uint8 1#8)]], _, _, ['s'], by decide, by decide, by decide, rfl, rfl, _, rfl, rfl, ?_⟩
  decide

/-- C38: rows that cannot be serialised are left out while still being counted; when none can, the block
is written without an error, and without any column: the rows are lost. -/
theorem C38_skipped_rows_false : ∃ (cfg : Cfg) (ext : Ext) (header : IMap Ty) (rows : List (Res (List (Str × Value)))) (b : Block) (bytes : Bytes),
    rows ≠ [] ∧ (∀ r ∈ rows, ∃ e, r = .err e) ∧ batchBlock cfg ext header rows = .ok b ∧
    b.write cfg 54400 = (bytes, .ok ()) ∧ ∃ b', readBlock cfg 54400 bytes = .ok (b', []) ∧ b'.columnTypes = [] := by
  refine ⟨cfgDebug, exExt, [(['n'], .uint8)], [.err .protocol, .err .protocol], _, _, by decide, ?_, rfl, rfl, _, rfl, rfl⟩
  intro r hr
  simp only [List.mem_cons, List.not_mem_nil, or_false, or_self] at hr
  exact ⟨_, hr⟩

/-- C38: a row that lists a column twice and one that omits it make a rectangular block in which the
second row's value came from the first row. -/
theorem C38_realigned_false : ∃ (cfg : Cfg) (ext : Ext) (header : IMap Ty) (r1 r2 : List (Str × Value)) (b : Block),
    batchBlock cfg ext header [.ok r1, .ok r2] = .ok b ∧ (b.write cfg 54400).2 = .ok () ∧ valueFor r2 ['n'] = none ∧
    (b.columnData.get ['n']).map (·[1]?) = some (some (.uint8 2#8)) ∧ (['n'], Value.uint8 2#8) ∈ r1 :=
  ⟨cfgDebug, exExt, [(['n'], .uint8)], [(['n'], .uint8 1#8), (['n'], .uint8 2#8)], [], _, rfl, rfl, rfl, rfl, by simp⟩

/-- What does hold: a block that is written without an error has, in every column it carries, one value
per row announced; and it carries exactly the columns for which some row gave a value. -/
theorem C38_written_partial (cfg : Cfg) (ext : Ext) (header : IMap Ty) (hn : header.keys.Nodup) (rows : List (Res (List (Str × Value)))) (b : Block)
    (hb : batchBlock cfg ext header rows = .ok b) (revision : Nat) (hw : (b.write cfg revision).2 = .ok ()) (name : Str) :
    givenFor rows name = [] ∨ (givenFor rows name).length = rows.length := by
  obtain ⟨h1, h2, h3, h4⟩ := C37_exact cfg ext header rows b hb
  by_cases hg : givenFor rows name = []
  · exact .inl hg
  · right
    have hc := h4 name
    rw [if_neg hg] at hc
    obtain ⟨t, ht, _⟩ := batch_valid hb hc
    rw [← h1]
    exact C16_success_rectangular cfg b ⟨by rw [h2]; exact hn, h3⟩ revision hw name t _ (by rw [h2]; exact IMap.mem_of_get ht) hc

/-- If some but not all rows could be serialised (and the ones that could are complete), the block is
refused: nothing wrong is inserted, but the insert fails. -/
theorem C38_some_skipped_refused (cfg : Cfg) (ext : Ext) (header : IMap Ty) (hn : header.keys.Nodup) (hh : header ≠ [])
    (rows : List (Res (List (Str × Value)))) (hc : ∀ r, .ok r ∈ rows → Complete cfg header r) (r : List (Str × Value)) (hr : .ok r ∈ rows)
    (e : Err) (he : .err e ∈ rows) (b : Block) (hb : batchBlock cfg ext header rows = .ok b) (revision : Nat) :
    (b.write cfg revision).2 ≠ .ok () := by
  intro hw
  obtain ⟨name, hm⟩ : ∃ name, name ∈ header.keys := by
    cases header with
    | nil => exact absurd rfl hh
    | cons x m => exact ⟨x.1, by simp [IMap.keys]⟩
  have len : ∀ rs : List (Res (List (Str × Value))), (∀ r, .ok r ∈ rs → Complete cfg header r) →
      (givenFor rs name).length + rs.countP (fun r => match r with | .ok _ => false | _ => true) = rs.length := by
    intro rs
    induction rs with
    | nil => intro _; rfl
    | cons x rs ih =>
      intro h
      have ih := ih (fun r hr => h r (List.mem_cons_of_mem _ hr))
      cases x with
      | err _ => simp only [givenFor, List.flatMap_cons, List.countP_cons, List.length_cons] at ih ⊢; simp at ih ⊢; omega
      | panic => simp only [givenFor, List.flatMap_cons, List.countP_cons, List.length_cons] at ih ⊢; simp at ih ⊢; omega
      | ok row =>
        have hr := h row (List.mem_cons_self ..)
        obtain ⟨v, h1, _⟩ := entriesFor_once hr.once ((hr.same name).mpr hm)
        unfold entriesFor at h1
        simp only [givenFor, List.flatMap_cons, List.countP_cons, List.length_cons, h1] at ih ⊢
        simp at ih ⊢; omega
  have hlen := len rows hc
  have hpos : 0 < rows.countP (fun r => match r with | .ok _ => false | _ => true) :=
    List.countP_pos_iff.mpr ⟨_, he, rfl⟩
  have hne : givenFor rows name ≠ [] := by
    intro hnil
    have hrc := hc r hr
    obtain ⟨v, h1, _⟩ := entriesFor_once hrc.once ((hrc.same name).mpr hm)
    simp only [givenFor, List.flatMap_eq_nil_iff] at hnil
    have := hnil _ hr
    have h1' : (match (Res.ok r : Res (List (Str × Value))) with
        | Res.ok row => List.map (fun x => x.snd) (List.filter (fun e => e.fst == name) row)
        | _ => []) = [v] := h1
    have h2 := h1'.symm.trans this
    cases h2
  rcases C38_written_partial cfg ext header hn rows b hb revision hw name with h | h
  · exact hne h
  · omega

example := C38_refused cfgDebug exExt exHeader [.ok exRow1, .ok [(['s'], .null), (['q'], .null)]] [(['s'], .null), (['q'], .null)] (by simp)
  (['q'], .null) (by simp) (by intro t h; cases h)
example := (C38_refused cfgDebug exExt exHeader [.ok [(['n'], .string [])]] [(['n'], .string [])] (by simp)
  (['n'], .string []) (by simp) (by intro t h; cases h; rfl)).2 (by simp) (by
    intro row' hr e' he _
    have hr : row' = [(['n'], .string [])] := by simpa using hr
    subst hr
    have he : e' = (['n'], .string []) := by simpa using he
    subst he
    intro h; cases h)
example := C38_some_skipped_refused cfgDebug exExt exHeader (by decide) (by simp [exHeader]) [.ok exRow1, .err .protocol]
  (by intro r hr; exact exRows_complete r (by simp at hr; simp [hr])) exRow1 (by simp) .protocol (by simp) _ rfl 54400
example := C38_insert_stops cfgDebug exExt exHeader [true, true, true] [[.ok exRow1], []] [[.ok exRow2]] [.ok [(['q'], .null)]] (by simp) (by intro b h; cases h)

/-! ## C63 -/

/-- C63 is false: the server answers the insert with an exception after the header, the insert has sent
its rows and the end of the data, and returns success. -/
theorem C63_reported_false : ∃ (s : Conn) (t : Ticket) (rows : List (List (Str × Value))), Reachable s ∧
    InsertSeen cfgDebug exExt (fun _ r => .ok r) s t [rows] (.ok ()) ∧ (∀ r ∈ rows, Complete cfgDebug [(['n'], .uint8)] r) ∧ rows ≠ [] ∧
    (∃ e, .error e ∈ itemsOf t s.log) ∧ t ∈ (view s.log).done := by
  refine ⟨_, 1, [[(['n'], .uint8 7#8)]], ⟨[.submit 1 ['I'], .handle 2, .packet 2 (.data [] ⟨⟨false, 0⟩, 0, [(['n'], .uint8)], []⟩), .deliver 2, .recv 1,
    .submitData 1 1 ⟨BlockInfo.default, 1, [(['n'], .uint8)], [(['n'], [.uint8 7#8])]⟩, .handle 1,
    .packet 2 (.exception exX), .deliver 2, .submitData 2 1 endBlock, .handle 1], rfl⟩, ⟨?_⟩, ?_, by simp, ⟨exX.emit, ?_⟩, ?_⟩
  · refine ⟨some (.block ⟨⟨false, 0⟩, 0, [(['n'], .uint8)], []⟩), [1, 2], [⟨BlockInfo.default, 1, [(['n'], .uint8)], [(['n'], [.uint8 7#8])]⟩, endBlock],
      rfl, rfl, rfl, rfl⟩
  · intro r hr
    have hr : r = [(['n'], .uint8 7#8)] := by simpa using hr
    subst hr
    refine ⟨by decide, ?_, ?_⟩
    · intro name; simp [IMap.keys]
    · intro name v h
      have h : name = ['n'] ∧ v = .uint8 7#8 := by simpa using h
      obtain ⟨rfl, rfl⟩ := h
      exact ⟨.uint8, rfl, rfl⟩
  · show Item.error exX.emit ∈ [Item.block ⟨⟨false, 0⟩, 0, [(['n'], .uint8)], []⟩, Item.error exX.emit]
    simp
  · show (1 : Ticket) ∈ [1]
    simp

theorem insertBatches_ok_acked (cfg : Cfg) (ext : Ext) (header : IMap Ty) (batches : List (List (Res (List (Str × Value))))) : ∀ (acks : List Bool),
    (insertBatches cfg ext header acks batches).2 = .ok () →
    (∀ i, i < (insertBatches cfg ext header acks batches).1.length → acks[i]? = some true) ∧
    (insertBatches cfg ext header acks batches).1.getLast? = some endBlock := by
  induction batches with
  | nil =>
    intro acks h
    simp only [insertBatches] at h ⊢
    refine ⟨fun i hi => ?_, rfl⟩
    have : i = 0 := by simpa using hi
    subst this
    split at h
    · rename_i ha
      cases acks with
      | nil => cases ha
      | cons a acks => simpa using ha
    · cases h
  | cons rows batches ih =>
    intro acks h
    cases rows with
    | nil => exact ih acks h
    | cons r rows =>
      simp only [insertBatches] at h ⊢
      cases hx : batchBlock cfg ext header (r :: rows) with
      | err e => rw [hx] at h; cases h
      | panic => rw [hx] at h; cases h
      | ok b =>
        rw [hx] at h
        simp only at h ⊢
        cases acks with
        | nil => cases h
        | cons a acks =>
          cases a with
          | false => cases h
          | true =>
            simp only at h ⊢
            obtain ⟨h1, h2⟩ := ih acks h
            refine ⟨fun i hi => ?_, ?_⟩
            · cases i with
              | zero => rfl
              | succ i => exact h1 i (by simpa using hi)
            · rw [List.getLast?_cons, h2]; rfl

/-! Block tickets are used once. -/

/-- From one state to another no block is submitted and no acknowledgement is forgotten. -/
def Quiet (s s' : Conn) : Prop :=
  (∃ l, s'.log = s.log ++ l ∧ blocksSubmitted l = []) ∧ ∀ d, s.acks d ≠ none → s'.acks d ≠ none

theorem Quiet.refl (s : Conn) : Quiet s s := ⟨⟨[], by simp, rfl⟩, fun _ h => h⟩

theorem Quiet.trans {s s' s'' : Conn} (h : Quiet s s') (h' : Quiet s' s'') : Quiet s s'' := by
  obtain ⟨⟨l, h1, h2⟩, h3⟩ := h
  obtain ⟨⟨l', h1', h2'⟩, h3'⟩ := h'
  exact ⟨⟨l ++ l', by rw [h1', h1, List.append_assoc], by rw [blocksSubmitted_append, h2, h2']; rfl⟩, fun d hd => h3' d (h3 d hd)⟩

/-- Changing neither the history nor the acknowledgements. -/
theorem Quiet.same {s s' : Conn} (h1 : s'.log = s.log) (h2 : s'.acks = s.acks) : Quiet s s' :=
  ⟨⟨[], by simp [h1], rfl⟩, fun d h => by rw [h2]; exact h⟩

theorem Quiet.note (s : Conn) (o : Obs) (h : blocksSubmitted [o] = []) : Quiet s (s.note o) := ⟨⟨[o], rfl, h⟩, fun _ h => h⟩

theorem Quiet.kill (s : Conn) : Quiet s s.kill := by
  obtain ⟨_, _, _, _, _, h1, h2, _⟩ := kill_eq s
  refine ⟨⟨_, h1, rfl⟩, fun d hd => ?_⟩
  rw [h2]
  split
  · simp
  · exact hd

theorem Quiet.dropExecuting (s : Conn) : Quiet s (dropExecuting s) := by
  unfold Klick.dropExecuting
  split <;> exact Quiet.same rfl rfl

theorem Quiet.dispatch (k : Nat) (t : Ticket) (x : Str) (s : Conn) : Quiet s (dispatch k t x s) := by
  unfold Klick.dispatch
  rcases k with _ | _ | k
  · exact Quiet.trans (Quiet.same rfl rfl) (Quiet.kill _)
  · dsimp only
    exact Quiet.trans (Quiet.trans (Quiet.note s (.sentQuery t x) rfl) (Quiet.same rfl rfl)) (Quiet.kill _)
  · dsimp only
    exact Quiet.trans (Quiet.trans (Quiet.note s (.sentQuery t x) rfl) (Quiet.same rfl rfl)) (Quiet.note _ _ rfl)

theorem Quiet.dispatchNext (k : Nat) (s : Conn) : Quiet s (dispatchNext k s) := by
  unfold Klick.dispatchNext
  split
  · exact Quiet.refl s
  · exact Quiet.trans (Quiet.same rfl rfl) (Quiet.dispatch _ _ _ _)

theorem Quiet.ack {s : Conn} {d : Ticket} {a : Ack} : Quiet s { s with acks := upd s.acks d (some a) } := by
  refine ⟨⟨[], by simp, rfl⟩, fun d' hd => ?_⟩
  simp only [upd]
  split
  · simp
  · exact hd

theorem Quiet.handleRequest (k : Nat) (r : Req) (s : Conn) : Quiet s (handleRequest k r s) := by
  cases r with
  | query t x =>
    simp only [Klick.handleRequest]
    split
    · exact Quiet.dispatch _ _ _ _
    · exact Quiet.same rfl rfl
  | data d o b =>
    simp only [Klick.handleRequest]
    rcases k with _ | k
    · exact Quiet.trans Quiet.ack (Quiet.kill _)
    · dsimp only
      exact Quiet.trans (Quiet.note s (.sentData d o b) rfl) (Quiet.ack (s := s.note (.sentData d o b)))

theorem Quiet.receivePacket (k : Nat) (p : ServerPacket) (s : Conn) : Quiet s (receivePacket k p s) := by
  unfold Klick.receivePacket
  split
  · exact Quiet.kill s
  · split
    · exact Quiet.same rfl rfl
    · exact Quiet.kill s
  · split
    · exact Quiet.same rfl rfl
    · exact Quiet.kill s
  · split
    · exact Quiet.note _ _ rfl
    · exact Quiet.refl s
  · split
    · exact Quiet.trans (Quiet.dropExecuting s) (Quiet.dispatchNext _ _)
    · exact Quiet.kill s
  · exact Quiet.refl s

theorem Quiet.deliver {k : Nat} {t : Ticket} {i : Item} {last : Bool} {s s' : Conn} (h : deliver k t i last s = some s') : Quiet s s' := by
  have go : ∀ s1 : Conn, s1.log = s.log → s1.acks = s.acks →
      Quiet s (if last then Klick.dispatchNext k { { s1 with phase := .idle } with slots := upd s1.slots t (closeSlot (s1.slots t)) }
        else { s1 with phase := .idle }) := by
    intro s1 h1 h2
    split
    · exact Quiet.trans (Quiet.same h1 h2) (Quiet.dispatchNext _ _)
    · exact Quiet.same h1 h2
  unfold Klick.deliver at h
  dsimp only at h
  split at h
  · split at h
    · split at h
      · rename_i buf o _ _
        cases h; exact go { s with slots := upd s.slots t (some (.streaming (buf ++ [i]) o)) } rfl rfl
      · cases h
    · cases h
  · cases h; exact go _ rfl rfl

/-- The tickets of the submitted blocks are distinct, and known. -/
def OnceBlocks (s : Conn) : Prop :=
  ((blocksSubmitted s.log).map (·.1)).Nodup ∧ ∀ d ∈ (blocksSubmitted s.log).map (·.1), s.acks d ≠ none

theorem Quiet.once {s s' : Conn} (h : Quiet s s') (ho : OnceBlocks s) : OnceBlocks s' := by
  obtain ⟨⟨l, h1, h2⟩, h3⟩ := h
  have : blocksSubmitted s'.log = blocksSubmitted s.log := by rw [h1, blocksSubmitted_append, h2, List.append_nil]
  unfold OnceBlocks
  rw [this]
  exact ⟨ho.1, fun d hd => h3 d (ho.2 d hd)⟩

theorem step_once {s : Conn} {e : Event} {s' : Conn} (hs : s.step e = some s') (ho : OnceBlocks s) : OnceBlocks s' := by
  cases e with
  | submit t x =>
    simp only [Conn.step] at hs
    split at hs <;> try cases hs
    split at hs
    · cases hs; exact Quiet.once (Quiet.trans (Quiet.note s (.submitted t x) rfl) (Quiet.same rfl rfl)) ho
    · cases hs
  | submitData d o b =>
    simp only [Conn.step] at hs
    split at hs <;> try cases hs
    rename_i hd _
    split at hs
    · cases hs
      have hn : d ∉ (blocksSubmitted s.log).map (·.1) := fun hm => ho.2 d hm hd
      have e : blocksSubmitted (s.log ++ [Obs.dataSubmitted d o b]) = blocksSubmitted s.log ++ [(d, o, b)] := by
        rw [blocksSubmitted_append]; rfl
      unfold OnceBlocks
      simp only [Conn.note, e, List.map_append, List.map_cons, List.map_nil]
      refine ⟨?_, fun d' hd' => ?_⟩
      · rw [List.nodup_append]
        refine ⟨ho.1, by simp, fun a ha b hb => ?_⟩
        have hb : b = d := by simpa using hb
        intro e
        exact hn (by rw [← hb, ← e]; exact ha)
      · simp only [upd]
        split
        · simp
        · rename_i hne
          rcases List.mem_append.mp hd' with h | h
          · exact ho.2 d' h
          · exact absurd (by simpa using h) hne
    · cases hs
  | handle k =>
    simp only [Conn.step] at hs
    split at hs
    · cases hs; exact Quiet.once (Quiet.trans (Quiet.same rfl rfl) (Quiet.handleRequest _ _ _)) ho
    · cases hs
  | packet k p =>
    simp only [Conn.step] at hs
    split at hs
    · cases hs; exact Quiet.once (Quiet.trans (Quiet.note s (.got p) rfl) (Quiet.receivePacket _ _ _)) ho
    · cases hs
  | deliver k =>
    simp only [Conn.step] at hs
    split at hs
    · exact Quiet.once (Quiet.deliver hs) ho
    · cases hs
  | recv t =>
    simp only [Conn.step] at hs
    split at hs
    · cases hs; exact Quiet.once (Quiet.trans (Quiet.note s (.read t _) rfl) (Quiet.same rfl rfl)) ho
    · cases hs
  | drop t =>
    simp only [Conn.step] at hs
    split at hs
    · cases hs; exact Quiet.once (Quiet.same rfl rfl) ho
    · cases hs
  | fail =>
    simp only [Conn.step] at hs
    split at hs
    · cases hs; exact Quiet.once (Quiet.kill s) ho
    · cases hs
  | close =>
    simp only [Conn.step] at hs
    split at hs
    · cases hs; exact Quiet.once (Quiet.kill s) ho
    · cases hs

theorem run_once {es : List Event} : ∀ {s s' : Conn}, s.run es = some s' → OnceBlocks s → OnceBlocks s' := by
  induction es with
  | nil => intro s s' h ho; cases h; exact ho
  | cons e es ih =>
    intro s s' h ho
    simp only [Conn.run] at h
    cases h1 : s.step e with
    | none => rw [h1] at h; cases h
    | some s1 => rw [h1] at h; exact ih h (step_once h1 ho)

theorem submitted_unique {s : Conn} (h : Reachable s) {d : Ticket} {x y : Ticket × Block} (hx : (d, x) ∈ blocksSubmitted s.log)
    (hy : (d, y) ∈ blocksSubmitted s.log) : x = y := by
  obtain ⟨es, hes⟩ := h
  have hn := (run_once hes ⟨by simp [Conn.init, blocksSubmitted], by simp [Conn.init, blocksSubmitted]⟩).1
  have : ∀ l : List (Ticket × Ticket × Block), (l.map (·.1)).Nodup → (d, x) ∈ l → (d, y) ∈ l → x = y := by
    intro l
    induction l with
    | nil => intro _ h; cases h
    | cons a l ih =>
      intro hn h1 h2
      simp only [List.map_cons, List.nodup_cons] at hn
      rcases List.mem_cons.mp h1 with rfl | h1' <;> rcases List.mem_cons.mp h2 with h2 | h2
      · cases h2; rfl
      · exact absurd (List.mem_map.mpr ⟨_, h2, rfl⟩) hn.1
      · subst h2
        have : d ∈ l.map (·.1) := List.mem_map.mpr ⟨(d, x), h1', rfl⟩
        exact absurd this hn.1
      · exact ih hn.2 h1' h2
  exact this _ hn hx hy

/-- C63, what does hold on every connection: an insert returns success only if the server's first answer
was a block (the header) and everything it had to send, up to and including the end of the data, has
been sent to the server; and an exception that arrives first is returned. -/
theorem C63_reported_partial {R : Type} (cfg : Cfg) (ext : Ext) (serialize : IMap Ty → R → Res (List (Str × Value))) {s : Conn} (hs : Reachable s)
    (t : Ticket) (batches : List (List R)) (outcome : Res Unit) (h : InsertSeen cfg ext serialize s t batches outcome) :
    (outcome = .ok () → (∃ hdr rest, itemsOf t s.log = .block hdr :: rest) ∧
      (∀ d b, (d, t, b) ∈ blocksSubmitted s.log → (d, t, b) ∈ blocksSent s.log) ∧
      ∃ d, (d, t, endBlock) ∈ blocksSent s.log) ∧
    (∀ e rest, itemsOf t s.log = .error e :: rest → outcome = .err e ∨ outcome = .err .protocol) ∧
    (∀ e, readsOf t s.log = [.error e] → outcome = .err e) := by
  obtain ⟨first, ds, blocks, h1, h2, h3, h4⟩ := h.run
  have hpre := C30_reads hs t
  rw [h1] at hpre
  refine ⟨fun ho => ?_, fun e rest he => ?_, fun e he => ?_⟩
  · cases first with
    | none => simp only [insertNative, Prod.mk.injEq] at h4; rw [ho] at h4; cases h4.2
    | some i =>
      cases i with
      | error e => simp only [insertNative, Prod.mk.injEq] at h4; rw [ho] at h4; cases h4.2
      | block hdr =>
        obtain ⟨rest, hr⟩ := hpre
        simp only [insertNative] at h4
        have h4o := congrArg Prod.snd h4
        have h4b := congrArg Prod.fst h4
        simp only at h4o h4b
        rw [ho] at h4o
        obtain ⟨a1, a2⟩ := insertBatches_ok_acked _ _ _ _ _ h4o
        rw [h4b] at a1 a2
        have sent : ∀ d b, (d, t, b) ∈ blocksSubmitted s.log → (d, t, b) ∈ blocksSent s.log := by
          intro d b hd
          have hd' : (d, t, b) ∈ (blocksSubmitted s.log).filter (fun e => e.2.1 == t) := List.mem_filter.mpr ⟨hd, by simp⟩
          rw [h2] at hd'
          obtain ⟨⟨d', b'⟩, hz, hze⟩ := List.mem_map.mp hd'
          simp only [Prod.mk.injEq, true_and] at hze
          obtain ⟨rfl, rfl⟩ := hze
          obtain ⟨i, hi⟩ := List.getElem?_of_mem hz
          rw [List.getElem?_zip_eq_some] at hi
          have hil : i < blocks.length := by
            obtain ⟨h, _⟩ := List.getElem?_eq_some_iff.mp hi.2
            exact h
          have ha := a1 i hil
          rw [List.getElem?_map, hi.1] at ha
          have hack : s.acks d' = some .acked := by simpa using ha
          obtain ⟨o1, o2⟩ := C33_blocks_in_order hs
          have := o2 d' hack
          obtain ⟨⟨d2, o, b2⟩, hm, hde⟩ := List.mem_map.mp this
          simp only at hde
          subst hde
          have hsub : (d2, o, b2) ∈ blocksSubmitted s.log := o1.subset hm
          have : (o, b2) = (t, b') := submitted_unique hs hsub hd
          cases this
          exact hm
        refine ⟨⟨hdr, rest, by rw [← hr]; rfl⟩, sent, ?_⟩
        have hbl : blocks ≠ [] := by intro e; rw [e] at a2; cases a2
        have hlast : endBlock ∈ blocks := List.mem_of_getLast? a2
        obtain ⟨i, hi⟩ := List.getElem?_of_mem hlast
        obtain ⟨hil, hie⟩ := List.getElem?_eq_some_iff.mp hi
        have hid : i < ds.length := by omega
        refine ⟨ds[i], sent _ _ ?_⟩
        have : (ds[i], t, endBlock) ∈ (blocksSubmitted s.log).filter (fun e => e.2.1 == t) := by
          rw [h2]
          refine List.mem_map.mpr ⟨(ds[i], endBlock), ?_, rfl⟩
          apply List.mem_of_getElem? (i := i)
          rw [List.getElem?_zip_eq_some]
          exact ⟨List.getElem?_eq_getElem hid, hi⟩
        exact (List.mem_filter.mp this).1
  · rw [he] at hpre
    cases first with
    | none => simp only [insertNative, Prod.mk.injEq] at h4; exact .inr h4.2.symm
    | some i =>
      obtain ⟨rest', hr⟩ := hpre
      simp only [Option.toList, List.cons_append, List.cons.injEq] at hr
      rw [hr.1] at h4
      simp only [insertNative, Prod.mk.injEq] at h4
      exact .inl h4.2.symm
  · rw [he] at h1
    cases first with
    | none => cases h1
    | some i =>
      cases h1
      simp only [insertNative, Prod.mk.injEq] at h4
      exact h4.2.symm

end Klick
