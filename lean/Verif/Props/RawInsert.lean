import Verif.Spec.RawInsert
import Verif.Props.Storage
/-
C74, C75, C76: raw inserts, unit rows, JSON values.
-/
namespace Klick
open Spec Props

/-! ### C74 -/

/-- C74: what is sent is a beginning of the caller's blocks followed by the end block, and the call succeeds exactly when all of it was sent and
acknowledged. -/
theorem C74_sent (acks : List Bool) (blocks : List Block) :
    (∃ n, (insertRaw acks blocks).1 = (blocks ++ [endBlock]).take n) ∧
    ((insertRaw acks blocks).2 = .ok () ↔ (∀ i, i ≤ blocks.length → acks[i]? = some true)) ∧
    ((insertRaw acks blocks).2 = .ok () → (insertRaw acks blocks).1 = blocks ++ [endBlock]) := by
  induction blocks generalizing acks with
  | nil =>
    refine ⟨⟨1, by unfold insertRaw; rfl⟩, ?_, fun _ => by unfold insertRaw; rfl⟩
    rw [insertRaw]
    show (if acks.head? = some true then Res.ok () else Res.err Err.protocol) = _ ↔ _
    cases acks with
    | nil =>
      simp only [List.head?_nil, List.length_nil]
      exact ⟨fun h => (by cases h), fun h => (by have := h 0 (Nat.le_refl _); cases this)⟩
    | cons a acks =>
      simp only [List.head?_cons, List.length_nil]
      cases a with
      | true =>
        refine ⟨fun _ i hi => ?_, fun _ => rfl⟩
        have : i = 0 := by omega
        subst this; rfl
      | false => exact ⟨fun h => (by cases h), fun h => (by have := h 0 (Nat.le_refl _); cases this)⟩
  | cons b blocks ih =>
    have bad : ∀ a', (∀ acks', a' ≠ true :: acks') → insertRaw a' (b :: blocks) = ([b], .err .protocol) := by
      intro a' h
      match a' with
      | [] => rfl
      | false :: _ => rfl
      | true :: acks' => exact absurd rfl (h acks')
    cases acks with
    | nil =>
      rw [bad [] (by intro _ h; cases h)]
      exact ⟨⟨1, rfl⟩, ⟨fun h => (by cases h), fun h => (by have := h 0 (Nat.zero_le _); cases this)⟩, fun h => by cases h⟩
    | cons a acks =>
      cases a with
      | false =>
        rw [bad (false :: acks) (by intro _ h; cases h)]
        exact ⟨⟨1, rfl⟩, ⟨fun h => (by cases h), fun h => (by have := h 0 (Nat.zero_le _); cases this)⟩, fun h => by cases h⟩
      | true =>
        obtain ⟨⟨n, h1⟩, h2, h3⟩ := ih acks
        have e : insertRaw (true :: acks) (b :: blocks) = (b :: (insertRaw acks blocks).1, (insertRaw acks blocks).2) := rfl
        rw [e]
        refine ⟨⟨n + 1, by rw [h1]; rfl⟩, ?_, fun h => by rw [h3 h]; rfl⟩
        rw [h2]
        constructor
        · intro h i hi
          cases i with
          | zero => rfl
          | succ i => exact h i (by simpa using hi)
        · intro h i hi
          exact h (i + 1) (by simpa using hi)

theorem serverTakes_append {bs : List Block} (h : ∀ b ∈ bs, b.columnTypes ≠ []) (rest : List Block) : serverTakes (bs ++ rest) = bs ++ serverTakes rest := by
  induction bs with
  | nil => rfl
  | cons b bs ih =>
    have hb := h b (List.mem_cons_self ..)
    rw [List.cons_append, serverTakes, if_neg (by simpa [List.isEmpty_iff] using hb), ih (fun b hb => h b (List.mem_cons_of_mem _ hb))]
    rfl

/-- C74: when every block of the caller's has columns, a successful insert gives the server exactly these blocks, in order, and tells it that they are all;
a failed one gives it a beginning of them. -/
theorem C74_server_partial (acks : List Bool) (blocks : List Block) (h : ∀ b ∈ blocks, b.columnTypes ≠ []) :
    ((insertRaw acks blocks).2 = .ok () → serverTakes (insertRaw acks blocks).1 = blocks ∧ Ended (insertRaw acks blocks).1) ∧
    serverTakes (insertRaw acks blocks).1 <+: blocks := by
  obtain ⟨⟨n, h1⟩, _, h3⟩ := C74_sent acks blocks
  constructor
  · intro ho
    rw [h3 ho, serverTakes_append h]
    refine ⟨by simp [serverTakes, endBlock], endBlock, by simp, rfl⟩
  · rw [h1]
    by_cases hn : n ≤ blocks.length
    · rw [List.take_append_of_le_length hn]
      have ht : ∀ b ∈ blocks.take n, b.columnTypes ≠ [] := fun b hb => h b (List.mem_of_mem_take hb)
      have := serverTakes_append ht []
      rw [List.append_nil] at this
      rw [this, serverTakes, List.append_nil]
      exact List.take_prefix ..
    · have : (blocks ++ [endBlock]).take n = blocks ++ [endBlock] := List.take_of_length_le (by simp; omega)
      rw [this, serverTakes_append h]
      simp [serverTakes, endBlock]

/-- C74 is false when the caller's stream contains a block without columns: the server takes it for the end, and the caller is told the insert succeeded. -/
theorem C74_server_false : ∃ (acks : List Bool) (blocks : List Block), (insertRaw acks blocks).2 = .ok () ∧ serverTakes (insertRaw acks blocks).1 ≠ blocks ∧
    (serverTakes (insertRaw acks blocks).1).length < blocks.length := by
  refine ⟨[true, true, true], [endBlock, exStored], rfl, ?_, by decide⟩
  intro h
  have : serverTakes (insertRaw [true, true, true] [endBlock, exStored]).1 = [] := rfl
  rw [this] at h
  cases h

/-- C74 for `insert_native`: a batch never ends the insert; as long as the table has columns the server takes one block per batch that has rows, all of it. -/
theorem C74_native (cfg : Cfg) (ext : Ext) (header : IMap Ty) (hh : header ≠ []) (acks : List Bool) (batches : List (List (Res (List (Str × Value))))) :
    (insertBatches cfg ext header acks batches).2 = .ok () →
    (serverTakes (insertBatches cfg ext header acks batches).1).length = (batches.filter (fun rows => !rows.isEmpty)).length ∧
    (∀ b ∈ serverTakes (insertBatches cfg ext header acks batches).1, b.columnTypes = header ∧ 0 < b.rows) ∧
    Ended (insertBatches cfg ext header acks batches).1 := by
  induction batches generalizing acks with
  | nil => exact fun _ => ⟨rfl, (by intro b hb; cases hb), endBlock, List.mem_cons_self .., rfl⟩
  | cons rows batches ih =>
    cases rows with
    | nil => exact ih acks
    | cons r rows =>
      intro ho
      rw [insertBatches] at ho ⊢
      cases hb : batchBlock cfg ext header (r :: rows) with
      | err e => rw [hb] at ho; cases ho
      | panic => rw [hb] at ho; cases ho
      | ok b =>
        rw [hb] at ho
        match acks with
        | [] => cases ho
        | false :: _ => cases ho
        | true :: acks =>
          have ho : (insertBatches cfg ext header acks batches).2 = .ok () := ho
          obtain ⟨i1, i2, b', hb', he⟩ := ih acks ho
          have hty : b.columnTypes = header ∧ b.rows = (r :: rows).length := by
            unfold batchBlock at hb
            obtain ⟨d, _, hb⟩ := Res.bind_eq_ok.mp hb
            cases hb; exact ⟨rfl, rfl⟩
          have e : serverTakes (b :: (insertBatches cfg ext header acks batches).1) = b :: serverTakes (insertBatches cfg ext header acks batches).1 := by
            rw [serverTakes, hty.1, if_neg (by simpa [List.isEmpty_iff] using hh)]
          refine ⟨?_, ?_, b', List.mem_cons_of_mem _ hb', he⟩
          · show (serverTakes (b :: _)).length = _
            rw [e, List.length_cons, i1]
            simp
          · show ∀ c ∈ serverTakes (b :: _), _
            rw [e]
            intro c hc
            rcases List.mem_cons.mp hc with rfl | hc
            · exact ⟨hty.1, by rw [hty.2]; simp⟩
            · exact i2 c hc

/-- C74: `insert_native_block` sends at most one block of data. -/
theorem C74_single {R : Type} (cfg : Cfg) (ext : Ext) (ser : IMap Ty → R → Res (List (Str × Value))) (hdr : Block) (hh : hdr.columnTypes ≠ []) (acks : List Bool) (rows : List R)
    (h : (insertNativeBlock cfg ext ser (some (.block hdr)) acks rows).2 = .ok ()) :
    (serverTakes (insertNativeBlock cfg ext ser (some (.block hdr)) acks rows).1).length = if rows.isEmpty then 0 else 1 := by
  have := (C74_native cfg ext hdr.columnTypes hh acks [rows.map (ser hdr.columnTypes)] h).1
  refine this.trans ?_
  cases rows <;> rfl

example : serverTakes (insertRaw [true, true] [exStored]).1 = [exStored] := rfl
example := C74_server_partial [true, false] [exStored, exStored] (by
  intro b hb
  simp only [List.mem_cons, List.not_mem_nil, or_false, or_self] at hb
  subst hb; intro h; cases h)
example : (insertRaw [true, true] [exStored]).2 = .ok () := rfl
example := C74_native cfgDebug exExt exHeader (by intro h; cases h) [true, true] [[.ok exRow1], []] rfl

/-! ### C75 -/

/-- C75: a unit row survives in a table whose only column is called `_`. -/
theorem C75_insert_partial (cfg : Cfg) (t : RT) (T : Ty) (x : t.den) (hs : Suits false t T.stripLowCardinality) (hx : Faithful t T.stripLowCardinality x)
    (hv : ∀ v, t.toSql (some T) x = .ok v → T.validateValue cfg v = true ∧ canon T v = v)
    (hh : T.stripLowCardinality = T ∨ T = .lowCardinality T.stripLowCardinality) :
    Survives cfg [(ch! "_", T)] (unitValueRow t).ser (unitValueRow t).de x := by
  obtain ⟨v, h1, h2⟩ := conv_rt t T.stripLowCardinality false (some T) x hs ⟨(by intro h; cases h), by
    rcases hh with h | h
    · rw [h]; exact .inr (.inl rfl)
    · exact .inr (.inr (congrArg some h))⟩ hx
  have hser : (unitValueRow t).ser [(ch! "_", T)] x = .ok [(ch! "_", v)] := by
    show unitSerialize t [T] x = _
    simp only [unitSerialize, List.head?_cons, h1, Res.bind_ok]
  refine C71_row_type _ cfg _ x [ch! "_"] ⟨_, hser, rfl, ?_⟩ (by simp) (fun name => by simp [IMap.keys]) ?_
  · intro cells hp
    have : cells = [(ch! "_", T.stripLowCardinality, v)] := List.perm_singleton.mp hp
    rw [this]
    exact h2
  · intro cols hc name w hm
    rw [hser] at hc
    cases hc
    simp only [List.mem_singleton, Prod.mk.injEq] at hm
    obtain ⟨rfl, rfl⟩ := hm
    exact ⟨T, rfl, hv _ h1⟩

theorem insertRows_unit {cfg : Cfg} {ext : Ext} {header : IMap Ty} (hno : header.get (ch! "_") = none) {t : RT} (rows : List t.den) (data : IMap (List Value))
    (hne : ∃ x ∈ rows, ∃ cols, (unitValueRow t).ser header x = .ok cols) :
    insertRows cfg ext header (rows.map ((unitValueRow t).ser header)) data = .err .protocol ∨
    (insertRows cfg ext header (rows.map ((unitValueRow t).ser header)) data = .panic ∧ ∃ x ∈ rows, (unitValueRow t).ser header x = .panic) := by
  induction rows with
  | nil => obtain ⟨x, hx, _⟩ := hne; cases hx
  | cons r rows ih =>
    obtain ⟨x, hx, cols, hc⟩ := hne
    rw [List.map_cons]
    cases hr : (unitValueRow t).ser header r with
    | panic => exact .inr ⟨rfl, r, List.mem_cons_self .., hr⟩
    | err e =>
      rw [insertRows]
      have : ∃ x ∈ rows, ∃ cols, (unitValueRow t).ser header x = .ok cols := by
        refine ⟨x, ?_, cols, hc⟩
        rcases List.mem_cons.mp hx with rfl | hx
        · rw [hr] at hc; cases hc
        · exact hx
      rcases ih this with h | ⟨h, y, hy, hp⟩
      · exact .inl h
      · exact .inr ⟨h, y, List.mem_cons_of_mem _ hy, hp⟩
    | ok c =>
      have hcol : ∃ v, c = [(ch! "_", v)] := by
        have hu : unitSerialize t _ r = .ok c := hr
        unfold unitSerialize at hu
        obtain ⟨v, _, hv⟩ := (Res.bind_eq_ok ..).mp hu
        cases hv
        exact ⟨v, rfl⟩
      obtain ⟨v, rfl⟩ := hcol
      left
      rw [insertRows, insertRow, hno]
      rfl

/-- C75 is false of every table without a column called `_`, whatever its columns: no unit row can be inserted; the call fails and nothing but the
query is sent. (It fails with an error, or with the panic of a row that cannot be converted.) -/
theorem C75_insert_false (cfg : Cfg) (ext : Ext) (t : RT) (hdr : Block) (hno : hdr.columnTypes.get (ch! "_") = none) (acks : List Bool) (rows : List t.den) (batches : List (List t.den))
    (hne : ∃ x ∈ rows, ∃ v, t.toSql (hdr.columnTypes.map (·.2)).head? x = .ok v) :
    insertNative cfg ext (unitValueRow t).ser (some (.block hdr)) acks (rows :: batches) = ([], .err .protocol) ∨
    (insertNative cfg ext (unitValueRow t).ser (some (.block hdr)) acks (rows :: batches) = ([], .panic) ∧
      ∃ x ∈ rows, t.toSql (hdr.columnTypes.map (·.2)).head? x = .panic) := by
  have hne' : ∃ x ∈ rows, ∃ cols, (unitValueRow t).ser hdr.columnTypes x = .ok cols := by
    obtain ⟨x, hx, v, hv⟩ := hne
    refine ⟨x, hx, [(ch! "_", v)], ?_⟩
    show unitSerialize t _ x = _
    simp only [unitSerialize, hv, Res.bind_ok]
  have := insertRows_unit (cfg := cfg) (ext := ext) hno rows [] hne'
  cases rows with
  | nil => obtain ⟨x, hx, _⟩ := hne; cases hx
  | cons r rows =>
    unfold insertNative
    simp only [List.map_cons, insertBatches, batchBlock]
    rw [List.map_cons] at this
    rcases this with h | ⟨h, x, hx, hp⟩
    · left; rw [h]; rfl
    · right
      rw [h]
      refine ⟨rfl, x, hx, ?_⟩
      have hp : unitSerialize t (hdr.columnTypes.map (·.2)) x = .panic := hp
      unfold unitSerialize at hp
      cases hu : t.toSql (hdr.columnTypes.map (·.2)).head? x with
      | ok v => rw [hu] at hp; cases hp
      | err e => rw [hu] at hp; cases hp
      | panic => rfl

theorem Res.mapL_get {α β : Type} {f : α → Res β} {xs : List α} {ys : List β} (h : Res.mapL f xs = .ok ys) :
    ∀ {i : Nat} (hi : i < xs.length), ∃ y, ys[i]? = some y ∧ f xs[i] = .ok y := by
  induction xs generalizing ys with
  | nil => intro i hi; simp at hi
  | cons x xs ih =>
    intro i hi
    unfold Res.mapL at h
    obtain ⟨y, h1, h⟩ := (Res.bind_eq_ok ..).mp h
    obtain ⟨ys', h2, h⟩ := (Res.bind_eq_ok ..).mp h
    cases h
    cases i with
    | zero => exact ⟨y, rfl, h1⟩
    | succ i => exact ih h2 (by simpa using hi)

/-- C75: what a unit row declares about its columns is what it writes: one column. -/
theorem C75_one_column (t : RT) : Truthful (unitValueRow t) ∧ (unitValueRow t).columnCount = some 1 := by
  refine ⟨⟨?_, ?_, ?_⟩, rfl⟩
  · intro hints x cols n h hn
    cases hn
    obtain ⟨v, _, h2⟩ := Res.bind_eq_ok.mp h
    cases h2; rfl
  · intro _ _ _ _ _ h; cases h
  · intro _ _ _ h; cases h

/-- C75: reading needs no name: a result of one column is read as its values, in order. -/
theorem C75_read (t : RT) (b : Block) (name : Str) (vs : List Value) (T : Ty) (hd : b.columnData = [(name, vs)]) (ht : b.columnTypes.get name = some T)
    (hr : vs.length = b.rows) (hm : b.rows ≤ 2 ^ 57) (xs : List t.den) (hx : Res.mapL (t.fromSql T.stripLowCardinality) vs = .ok xs) :
    queryStream (unitValueRow t).de [.block b] = xs.map .ok := by
  have all : (rowsIn b).map (unitValueRow t).de = xs.map .ok := by
    unfold rowsIn
    rw [hd, if_neg (by simp), List.map_map, ← hr]
    apply List.ext_getElem?
    intro i
    rw [List.getElem?_map, List.getElem?_map]
    by_cases hi : i < vs.length
    · rw [List.getElem?_range hi]
      obtain ⟨x, x1, x2⟩ := Res.mapL_get hx hi
      rw [x1]
      simp only [Option.map_some, Function.comp]
      congr 1
      have : typedRow b i = [(name, T.stripLowCardinality, vs[i])] := by
        unfold typedRow
        rw [hd]
        simp only [List.map_cons, List.map_nil, ht, Option.getD_some, List.getElem?_eq_getElem hi]
      rw [this]
      show (unitValueRow t).de [(name, T.stripLowCardinality, vs[i])] = .ok x
      exact x2
    · have hl := Res.mapL_length hx
      rw [List.getElem?_eq_none (by simpa using hi), List.getElem?_eq_none (by omega)]
      rfl
  rw [C36_stream_partial]
  · show (rowsIn b).map ((unitValueRow t).de) ++ [] = _
    rw [List.append_nil, all]
  rotate_left
  · intro b' hb row hrow hp
    simp only [List.mem_singleton, Item.block.injEq] at hb
    subst hb
    have : (unitValueRow t).de row ∈ xs.map Res.ok := by rw [← all]; exact List.mem_map.mpr ⟨row, hrow, rfl⟩
    rw [hp] at this
    obtain ⟨_, _, h⟩ := List.mem_map.mp this
    cases h
  · intro i hi b' hb
    simp only [List.mem_singleton] at hi
    subst hi
    cases hb
    refine ⟨?_, ?_, hm⟩
    · intro e he
      rw [hd] at he
      simp only [List.mem_singleton] at he
      subst he
      exact hr
    · intro e he
      rw [hd] at he
      simp only [List.mem_singleton] at he
      subst he
      exact ⟨T, ht⟩

/-! ### C76 -/

/-- C76: a value serde_json keeps survives in a `String` column, whatever the hint, over the wire, with any others. -/
theorem C76_json {α : Type} (j : SerdeJson α) (cfg : Cfg) (hint : Option Ty) (xs : List α) (hk : ∀ x ∈ xs, JsonKeeps j x)
    (hl : ∀ x ∈ xs, ∀ s, j.toString x = some s → (utf8Encode s).length ≤ maxStringSize) (hn : xs.length ≤ 2 ^ 30) :
    ∃ vs bytes, Res.mapL (jsonToSql j hint) xs = .ok vs ∧ serCol cfg .string vs = .ok bytes ∧
      ∀ rest, ∃ ws, deCol cfg .string xs.length (bytes ++ rest) = .ok (ws, rest) ∧ Res.mapL (jsonFromSql j .string) ws = .ok xs := by
  obtain ⟨vs, h1, h2⟩ := mapL_rt (f := jsonToSql j hint) (g := jsonFromSql j .string) (xs := xs) (fun x m => by
    obtain ⟨s, s1, s2⟩ := hk x m
    refine ⟨.string (utf8Encode s), by unfold jsonToSql; rw [s1], ?_⟩
    unfold jsonFromSql
    rw [string_rt (.inl rfl), Res.bind_ok, s2])
  have hin : ∀ v ∈ vs, ∃ x ∈ xs, jsonToSql j hint x = .ok v :=
    mapL_all (P := fun v => ∃ x ∈ xs, jsonToSql j hint x = .ok v) h1 (fun x m v e => ⟨x, m, e⟩)
  have hform : ∀ v ∈ vs, ∃ b, v = .string b ∧ b.length ≤ maxStringSize := by
    intro v hv
    obtain ⟨x, hx, e⟩ := hin v hv
    obtain ⟨s, s1, _⟩ := hk x hx
    unfold jsonToSql at e
    rw [s1] at e
    cases e
    exact ⟨_, rfl, hl x hx s s1⟩
  have hlen : vs.length = xs.length := Res.mapL_length h1
  obtain ⟨b, h3, h4⟩ := col_rt cfg .string .string vs
    (fun v m => by obtain ⟨b, rfl, hb⟩ := hform v m; exact .inl ⟨b, rfl, hb⟩) (by simpa [Fits, hlen] using hn)
  refine ⟨vs, b, h1, h3, fun rest => ⟨vs, ?_, h2⟩⟩
  rw [← hlen, h4 rest]
  have : vs.map (canon .string) = vs := by
    conv => rhs; rw [← List.map_id vs]
    apply List.map_congr_left
    intro v hv
    obtain ⟨b, rfl, _⟩ := hform v hv
    rfl
  rw [this]

/-- C76: a value serde_json cannot write is an error, and the column it is in is not written. -/
theorem C76_unwritable {α : Type} (j : SerdeJson α) (hint : Option Ty) (xs : List α) (x : α) (hx : x ∈ xs) (h : j.toString x = none) :
    jsonToSql j hint x = .err .serialize ∧ ∀ vs, Res.mapL (jsonToSql j hint) xs ≠ .ok vs := by
  have e : jsonToSql j hint x = .err .serialize := by unfold jsonToSql; rw [h]
  refine ⟨e, fun vs hv => ?_⟩
  obtain ⟨i, hi, rfl⟩ := List.getElem_of_mem hx
  obtain ⟨y, _, h2⟩ := Res.mapL_get hv hi
  rw [e] at h2
  cases h2

/-- C76: a text that is no JSON of the type, bytes that are no text and columns that hold no text are errors; nothing read off the wire panics. -/
theorem C76_refuses {α : Type} (j : SerdeJson α) (T : Ty) (v : Value) :
    (T ≠ .string → (∀ n, T ≠ .fixedString n) → jsonFromSql j T v = .err (unexpectedType T)) ∧
    (∀ b, T = .string ∨ (∃ n, T = .fixedString n) → v = .string b →
      (utf8Decode b = none → jsonFromSql j T v = .err .utf8) ∧
      (∀ s, utf8Decode b = some s → j.fromStr s = none → jsonFromSql j T v = .err (.deserialize [])) ∧
      (∀ s x, utf8Decode b = some s → j.fromStr s = some x → jsonFromSql j T v = .ok x)) := by
  constructor
  · intro h1 h2
    unfold jsonFromSql
    have : stringFromSql T v = .err (unexpectedType T) := by
      unfold stringFromSql
      split
      · exact absurd rfl h1
      · exact absurd rfl (h2 _)
      · rfl
    rw [this]
    rfl
  · rintro b hT rfl
    have e : stringFromSql T (.string b) = match utf8Decode b with | some s => .ok s | none => .err .utf8 := by
      rcases hT with rfl | ⟨n, rfl⟩ <;> rfl
    unfold jsonFromSql
    rw [e]
    refine ⟨?_, ?_, ?_⟩
    · intro h; rw [h]; rfl
    · intro s h h2; rw [h, Res.bind_ok, h2]
    · intro s x h h2; rw [h, Res.bind_ok, h2]

/-- A serde for booleans. -/
def exJson : SerdeJson Bool where
  toString b := some (if b then ch! "true" else ch! "false")
  fromStr s := if s = ch! "true" then some true else if s = ch! "false" then some false else none

theorem exJson_keeps (b : Bool) : JsonKeeps exJson b := by cases b <;> exact ⟨_, rfl, rfl⟩

example := C76_json exJson cfgDebug none [true, false] (fun x _ => exJson_keeps x) (by
  intro x _ s h
  cases x <;> (cases h; decide)) (by decide)
/-- A serde that cannot write false. -/
def exHalf : SerdeJson Bool := { exJson with toString := fun b => if b then some (ch! "true") else none }
example := C76_unwritable exHalf none [true, false] false (by decide) rfl
example : jsonFromSql exJson .string (.string [0x31#8]) = .err (.deserialize []) := rfl

example (cfg : Cfg) (x : BitVec 8) := C75_insert_partial cfg (.prim .u8) .uint8 x Column.u8 trivial (by intro v h; cases h; exact ⟨rfl, rfl⟩) (.inl rfl)
example := C75_insert_false cfgDebug exExt (.prim .u8) ⟨BlockInfo.default, 0, [(['n'], .uint8)], []⟩ rfl [true, true] [(5#8 : BitVec 8)] [] ⟨(5#8 : BitVec 8), List.mem_cons_self .., .uint8 5#8, rfl⟩
example : queryStream (unitValueRow (.prim .u8)).de [.block ⟨BlockInfo.default, 2, [(['n'], .uint8)], [(['n'], [.uint8 1#8, .uint8 2#8])]⟩] = [.ok (1#8 : BitVec 8), .ok 2#8] :=
  C75_read (.prim .u8) _ ['n'] _ .uint8 rfl rfl rfl (by decide) [(1#8 : BitVec 8), 2#8] rfl

end Klick
