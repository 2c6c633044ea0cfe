import Verif.RoomMain
import Verif.Props.Query
/-
C89: what is decoded is in proportion to what was received.
-/
namespace Klick.Props
open Spec

/-- C89, values: on any bytes, a column of a type without empty tuples and `FixedString(0)` takes at least one byte for each row, and holds
at most `2 + d` values (those inside others included) for each byte taken, `d` being how deep tuples are nested in the type. -/
theorem C89_values_partial (cfg : Cfg) (t : Ty) (ht : roomy t = true) (n : Nat) (s s' : Bytes) (vs : List Value)
    (h : deCol cfg t n s = .ok (vs, s')) :
    ∃ taken, s = taken ++ s' ∧ n ≤ taken.length ∧ valuesIn vs ≤ (2 + tupleDepth t) * taken.length :=
  deCol_takes t ht ⟨fun b => ⟨Nat.le_refl _, by omega⟩, fun _ _ => rfl⟩ n s vs s' h

/-- C89, memory: and the bytes of its strings are counted in as well, when no `LowCardinality` occurs in the type. -/
theorem C89_memory_partial (cfg : Cfg) (t : Ty) (ht : roomy t = true) (hl : usesLc t = false) (n : Nat) (s s' : Bytes) (vs : List Value)
    (h : deCol cfg t n s = .ok (vs, s')) :
    ∃ taken, s = taken ++ s' ∧ memoryOf vs ≤ (2 + tupleDepth t) * taken.length := by
  obtain ⟨c, h1, _, h2⟩ := deCol_takes (text := fun b => 1 + b.length) t ht
    ⟨fun b => ⟨Nat.le_add_right 1 _, Nat.le_refl _⟩, fun e => by rw [hl] at e; cases e⟩ n s vs s' h
  exact ⟨c, h1, h2⟩

/-! ### Blocks -/

mutual
theorem dePrefix_takes : ∀ (t : Ty), Takes (fun _ _ => True) (dePrefix t)
  | .array t => dePrefix_takes t
  | .tuple ts => dePrefixes_takes ts
  | .nullable t => dePrefix_takes t
  | .map k v => Takes.bind (dePrefix_takes k) (fun _ => dePrefix_takes v) (fun _ _ _ _ _ _ => trivial)
  | .lowCardinality _ => Takes.bind Takes.u64 (fun _ => Takes.ite (fun _ => Takes.fail) (fun _ => Takes.pure trivial)) (fun _ _ _ _ _ h => h)
  | .string | .fixedString _ | .point | .ring | .polygon | .multiPolygon
  | .int8 | .int16 | .int32 | .int64 | .int128 | .int256 | .uint8 | .uint16 | .uint32 | .uint64 | .uint128 | .uint256
  | .float32 | .float64 | .bfloat16 | .decimal32 _ | .decimal64 _ | .decimal128 _ | .decimal256 _
  | .uuid | .date | .dateTime _ | .dateTime64 _ _ | .ipv4 | .ipv6 | .enum8 _ | .enum16 _ => Takes.pure trivial
theorem dePrefixes_takes : ∀ (ts : List Ty), Takes (fun _ _ => True) (dePrefixes ts)
  | [] => Takes.pure trivial
  | t :: ts => Takes.bind (dePrefix_takes t) (fun _ => dePrefixes_takes ts) (fun _ _ _ _ _ _ => trivial)
end

theorem readUtf8String_takes : Takes (fun _ _ => True) readUtf8String := by
  refine Takes.bind Takes.string (Q := fun _ _ _ => True) (fun b => ?_) (fun _ _ _ _ _ _ => trivial)
  cases utf8Decode b
  · exact Takes.fail
  · exact Takes.pure trivial

theorem readInfoLoop_takes (fuel : Nat) : ∀ i, Takes (fun _ _ => True) (readInfoLoop fuel i) := by
  induction fuel with
  | zero => intro i; exact Takes.fail
  | succ fuel ih =>
    intro i
    refine Takes.bind Takes.varUint (Q := fun _ _ _ => True) (fun f => ?_) (fun _ _ _ _ _ _ => trivial)
    refine Takes.ite (fun _ => Takes.pure trivial) (fun _ => Takes.ite (fun _ => ?_) (fun _ => Takes.ite (fun _ => ?_) (fun _ => Takes.fail)))
    · refine Takes.bind (P := fun _ _ => True) ?_ (fun b => ih _) (fun _ _ _ _ _ _ => trivial)
      intro s a s' h
      cases s with
      | nil => cases h
      | cons x s => exact ⟨[x], by cases h; rfl, trivial⟩
    · exact Takes.bind (Takes.le 4 32) (fun b => ih _) (fun _ _ _ _ _ _ => trivial)

/-- The sum over the columns of a block, type and data side by side. -/
def costs (f : Ty → List Value → Nat) : IMap Ty → IMap (List Value) → Nat
  | (_, t) :: ts, (_, vs) :: data => f t vs + costs f ts data
  | _, _ => 0

theorem costs_append {f : Ty → List Value → Nat} {name : Str} {t : Ty} {vs : List Value} : ∀ (ts : IMap Ty) (data : IMap (List Value)),
    ts.map (·.1) = data.map (·.1) → costs f (ts ++ [(name, t)]) (data ++ [(name, vs)]) = costs f ts data + f t vs
  | [], [], _ => by simp [costs]
  | [], _ :: _, h => by cases h
  | _ :: _, [], h => by cases h
  | _ :: ts, _ :: data, h => by
    simp only [List.map_cons, List.cons.injEq] at h
    simp only [List.cons_append, costs, costs_append ts data h.2]
    omega

theorem map_replace_absent {α : Type} {name : Str} {v : α} {m : IMap α} (h : name ∉ m.map (·.1)) :
    m.map (fun e => if e.1 == name then (name, v) else e) = m := by
  induction m with
  | nil => rfl
  | cons e m ih =>
    simp only [List.map_cons, List.mem_cons, not_or] at h
    rw [List.map_cons, ih h.2, if_neg (by simpa using fun e => h.1 e.symm)]

theorem costs_replace {f : Ty → List Value → Nat} {name : Str} {t : Ty} {vs : List Value} : ∀ (ts : IMap Ty) (data : IMap (List Value)),
    ts.map (·.1) = data.map (·.1) → (ts.map (·.1)).Nodup →
      costs f (ts.map fun e => if e.1 == name then (name, t) else e) (data.map fun e => if e.1 == name then (name, vs) else e) ≤
        costs f ts data + f t vs
  | [], [], _, _ => by simp [costs]
  | [], _ :: _, h, _ => by cases h
  | _ :: _, [], h, _ => by cases h
  | (k, u) :: ts, (k', us) :: data, h, hn => by
    simp only [List.map_cons, List.cons.injEq] at h
    obtain ⟨rfl, h⟩ := h
    simp only [List.map_cons, List.nodup_cons] at hn
    by_cases hk : k = name
    · subst hk
      rw [List.map_cons, List.map_cons, map_replace_absent hn.1, map_replace_absent (by rw [← h]; exact hn.1)]
      simp only [beq_self_eq_true, if_true, costs]
      omega
    · have hk' : ¬ ((k == name) = true) := by simpa using hk
      have := costs_replace (f := f) (name := name) (t := t) (vs := vs) ts data h hn.2
      rw [List.map_cons, List.map_cons]
      simp only [hk', costs, Bool.false_eq_true, if_false]
      omega

/-- The names of a block's columns stand in the same order in both maps, each once. -/
def Paired (ts : IMap Ty) (data : IMap (List Value)) : Prop := ts.map (·.1) = data.map (·.1) ∧ (ts.map (·.1)).Nodup

theorem any_key {α : Type} (m : IMap α) (name : Str) : m.any (fun e => e.1 == name) = true ↔ name ∈ m.map (·.1) := by
  simp [List.any_eq_true]

theorem insert_costs {f : Ty → List Value → Nat} {name : Str} {t : Ty} {vs : List Value} {ts : IMap Ty} {data : IMap (List Value)}
    (h : Paired ts data) : Paired (ts.insert name t) (data.insert name vs) ∧
      costs f (ts.insert name t) (data.insert name vs) ≤ costs f ts data + f t vs := by
  have hb := any_key ts name
  have hb' := any_key data name
  rw [← h.1] at hb'
  unfold IMap.insert
  by_cases hm : name ∈ ts.map (·.1)
  · rw [if_pos (hb.2 hm), if_pos (hb'.2 hm)]
    have e : ∀ {α : Type} (v : α) (m : IMap α), (m.map fun e => if e.1 == name then (name, v) else e).map (·.1) = m.map (·.1) := by
      intro α v m
      rw [List.map_map]
      refine List.map_congr_left (fun x _ => ?_)
      simp only [Function.comp]
      split
      · rename_i hx; exact (by simpa using hx : x.1 = name).symm
      · rfl
    exact ⟨⟨by rw [e, e]; exact h.1, by rw [e]; exact h.2⟩, costs_replace ts data h.1 h.2⟩
  · rw [if_neg (fun hh => hm (hb.1 hh)), if_neg (fun hh => hm (hb'.1 hh))]
    refine ⟨⟨by simp [h.1], ?_⟩, Nat.le_of_eq (costs_append ts data h.1)⟩
    rw [List.map_append, List.nodup_append]
    refine ⟨h.2, by simp, ?_⟩
    intro a ha b hb2
    simp at hb2
    rintro rfl
    exact hm (hb2 ▸ ha)

theorem readColumn_takes {cfg : Cfg} {f : Ty → List Value → Nat} {k rows : Nat}
    (hf : ∀ t, Takes (fun vs c => f t vs ≤ k * c) (deCol cfg t rows)) (h0 : ∀ t, f t [] = 0) (b : Block)
    (hb : Paired b.columnTypes b.columnData) :
    Takes (fun b' c => Paired b'.columnTypes b'.columnData ∧
      costs f b'.columnTypes b'.columnData ≤ costs f b.columnTypes b.columnData + k * c) (readColumn cfg rows b) := by
  unfold readColumn
  refine Takes.bind (P := fun _ _ => True) (Q := fun _ b' c => Paired b'.columnTypes b'.columnData ∧
      costs f b'.columnTypes b'.columnData ≤ costs f b.columnTypes b.columnData + k * c) readUtf8String_takes (fun name => ?_)
      (fun _ _ i j _ h => ⟨h.1, by rw [Nat.mul_add]; omega⟩)
  refine Takes.bind (P := fun _ _ => True) (Q := fun _ b' c => Paired b'.columnTypes b'.columnData ∧
      costs f b'.columnTypes b'.columnData ≤ costs f b.columnTypes b.columnData + k * c) readUtf8String_takes (fun tn => ?_)
      (fun _ _ i j _ h => ⟨h.1, by rw [Nat.mul_add]; omega⟩)
  refine Takes.bind (P := fun _ _ => True) (Q := fun _ b' c => Paired b'.columnTypes b'.columnData ∧
      costs f b'.columnTypes b'.columnData ≤ costs f b.columnTypes b.columnData + k * c) (Takes.lift (fun _ _ => trivial)) (fun t => ?_)
      (fun _ _ i j _ h => ⟨h.1, by rw [Nat.mul_add]; omega⟩)
  have fin : ∀ vs c, f t vs ≤ k * c → Paired (b.columnTypes.insert name t) (b.columnData.insert name vs) ∧
      costs f (b.columnTypes.insert name t) (b.columnData.insert name vs) ≤ costs f b.columnTypes b.columnData + k * c := by
    intro vs c hv
    obtain ⟨h1, h2⟩ := insert_costs (f := f) (name := name) (t := t) (vs := vs) hb
    exact ⟨h1, Nat.le_trans h2 (Nat.add_le_add_left hv _)⟩
  dsimp only
  split
  · refine Takes.map (P := fun vs c => f t vs ≤ k * c) (Takes.bind (dePrefix_takes t) (fun _ => hf t) (fun _ _ i j _ h => ?_)) fin
    rw [Nat.mul_add]; omega
  · exact Takes.map (P := fun vs c => f t vs ≤ k * c) (Takes.pure (by rw [h0]; exact Nat.zero_le _)) fin

theorem readColumns_takes {cfg : Cfg} {f : Ty → List Value → Nat} {k rows : Nat}
    (hf : ∀ t, Takes (fun vs c => f t vs ≤ k * c) (deCol cfg t rows)) (h0 : ∀ t, f t [] = 0) :
    ∀ (n : Nat) (b : Block), Paired b.columnTypes b.columnData →
    Takes (fun b' c => Paired b'.columnTypes b'.columnData ∧
      costs f b'.columnTypes b'.columnData ≤ costs f b.columnTypes b.columnData + k * c) (readColumns cfg rows n b)
  | 0, b, hb => Takes.pure ⟨hb, by omega⟩
  | n + 1, b, hb => by
    intro s b' s' h
    simp only [readColumns, Rd.bind_eq_ok] at h
    obtain ⟨b1, s1, h1, h2⟩ := h
    obtain ⟨c1, e1, p1, q1⟩ := readColumn_takes hf h0 b hb s b1 s1 h1
    obtain ⟨c2, e2, p2, q2⟩ := readColumns_takes hf h0 n b1 p1 s1 b' s' h2
    refine ⟨c1 ++ c2, by rw [e1, e2, List.append_assoc], p2, ?_⟩
    rw [List.length_append, Nat.mul_add]
    omega

theorem costs_sum {f : Ty → List Value → Nat} {g : List Value → Nat} : ∀ (ts : IMap Ty) (data : IMap (List Value)),
    ts.map (·.1) = data.map (·.1) → (∀ e ∈ ts, ∀ vs, f e.2 vs = g vs) → costs f ts data = (data.map fun e => g e.2).sum
  | [], [], _, _ => rfl
  | [], _ :: _, h, _ => by cases h
  | _ :: _, [], h, _ => by cases h
  | e :: ts, e' :: data, h, hf => by
    simp only [List.map_cons, List.cons.injEq] at h
    simp only [List.map_cons, List.sum_cons, costs, costs_sum ts data h.2 (fun e he => hf e (List.mem_cons_of_mem _ he))]
    rw [hf e (List.mem_cons_self ..)]

theorem readBlock_takes {cfg : Cfg} {f : Ty → List Value → Nat} {k revision : Nat}
    (hf : ∀ t rows, Takes (fun vs c => f t vs ≤ k * c) (deCol cfg t rows)) (h0 : ∀ t, f t [] = 0) :
    Takes (fun b c => Paired b.columnTypes b.columnData ∧ costs f b.columnTypes b.columnData ≤ k * c) (readBlock cfg revision) := by
  unfold readBlock
  refine Takes.bind (P := fun _ _ => True) (Q := fun _ b c => Paired b.columnTypes b.columnData ∧
    costs f b.columnTypes b.columnData ≤ k * c) ?_ (fun info => ?_) (fun _ _ i j _ h => ⟨h.1, by rw [Nat.mul_add]; omega⟩)
  · exact Takes.ite (fun _ => fun s a s' h => readInfoLoop_takes _ _ s a s' h) (fun _ => Takes.pure trivial)
  refine Takes.bind (Q := fun _ b c => Paired b.columnTypes b.columnData ∧ costs f b.columnTypes b.columnData ≤ k * c)
    Takes.varUint (fun cols => ?_) (fun _ _ i j _ h => ⟨h.1, by rw [Nat.mul_add]; omega⟩)
  refine Takes.bind (Q := fun _ b c => Paired b.columnTypes b.columnData ∧ costs f b.columnTypes b.columnData ≤ k * c)
    Takes.varUint (fun rows => ?_) (fun _ _ i j _ h => ⟨h.1, by rw [Nat.mul_add]; omega⟩)
  exact Takes.mono (readColumns_takes (fun t => hf t rows) h0 cols _ ⟨rfl, List.nodup_nil⟩) (fun b c h => ⟨h.1, by have := h.2; simp [costs] at this; exact this⟩)

/-- C89, blocks: a block the reader accepts, on any bytes, holds at most `2 + d` values for each byte it took, all columns together, when its
columns have no empty tuple and no `FixedString(0)` in their types and tuples are nested at most `d` deep. -/
theorem C89_block_values_partial (cfg : Cfg) (revision d : Nat) (s s' : Bytes) (b : Block) (h : readBlock cfg revision s = .ok (b, s'))
    (ht : ∀ e ∈ b.columnTypes, roomy e.2 = true ∧ tupleDepth e.2 ≤ d) :
    ∃ taken, s = taken ++ s' ∧ (b.columnData.map fun e => valuesIn e.2).sum ≤ (2 + d) * taken.length := by
  obtain ⟨c, h1, h2, h3⟩ := readBlock_takes (cfg := cfg) (revision := revision) (k := 2 + d)
    (f := fun t vs => if roomy t = true ∧ tupleDepth t ≤ d then valuesIn vs else 0)
    (by
      intro t rows
      by_cases hc : roomy t = true ∧ tupleDepth t ≤ d
      · simp only [if_pos hc]
        intro s vs s' hs
        obtain ⟨c, e, _, h⟩ := C89_values_partial cfg t hc.1 rows s s' vs hs
        exact ⟨c, e, Nat.le_trans h (Nat.mul_le_mul_right _ (by omega))⟩
      · simp only [if_neg hc]
        intro s vs s' hs
        obtain ⟨c, e, _⟩ := deCol_any t rows s vs s' hs
        exact ⟨c, e, Nat.zero_le _⟩)
    (by intro t; split <;> rfl) s b s' h
  refine ⟨c, h1, ?_⟩
  rw [costs_sum (g := valuesIn) _ _ h2.1 (fun e he vs => if_pos (ht e he))] at h3
  exact h3

/-- C89, blocks, with the bytes of strings counted in, when no `LowCardinality` occurs in the types. -/
theorem C89_block_memory_partial (cfg : Cfg) (revision d : Nat) (s s' : Bytes) (b : Block) (h : readBlock cfg revision s = .ok (b, s'))
    (ht : ∀ e ∈ b.columnTypes, roomy e.2 = true ∧ usesLc e.2 = false ∧ tupleDepth e.2 ≤ d) :
    ∃ taken, s = taken ++ s' ∧ (b.columnData.map fun e => memoryOf e.2).sum ≤ (2 + d) * taken.length := by
  obtain ⟨c, h1, h2, h3⟩ := readBlock_takes (cfg := cfg) (revision := revision) (k := 2 + d)
    (f := fun t vs => if roomy t = true ∧ usesLc t = false ∧ tupleDepth t ≤ d then memoryOf vs else 0)
    (by
      intro t rows
      by_cases hc : roomy t = true ∧ usesLc t = false ∧ tupleDepth t ≤ d
      · simp only [if_pos hc]
        intro s vs s' hs
        obtain ⟨c, e, h⟩ := C89_memory_partial cfg t hc.1 hc.2.1 rows s s' vs hs
        exact ⟨c, e, Nat.le_trans h (Nat.mul_le_mul_right _ (by omega))⟩
      · simp only [if_neg hc]
        intro s vs s' hs
        obtain ⟨c, e, _⟩ := deCol_any t rows s vs s' hs
        exact ⟨c, e, Nat.zero_le _⟩)
    (by intro t; split <;> rfl) s b s' h
  refine ⟨c, h1, ?_⟩
  rw [costs_sum (g := memoryOf) _ _ h2.1 (fun e he vs => if_pos (ht e he))] at h3
  exact h3

/-! ### The full claim is false -/

theorem deEmpty (cfg : Cfg) (n : Nat) (hn : n ≤ 2 ^ 30) (s : Bytes) :
    deCol cfg (.tuple []) n s = .ok ((List.replicate n []).map .tuple, s) := by
  simp only [deCol, guardRows_le hn]
  rfl

/-- C89 is false of the code: any number of rows of `FixedString(0)`, up to the limit on rows, are read from no bytes. -/
theorem C89_fixed_zero_false (cfg : Cfg) (n : Nat) (hn : n ≤ 2 ^ 30) (s : Bytes) :
    deCol cfg (.fixedString 0) n s = .ok (List.replicate n (.string []), s) := by
  simp only [deCol, guardRows_le hn, deFixed]
  clear hn
  induction n with
  | zero => rfl
  | succ n ih =>
    simp only [Rd.rep]
    rw [Rd.bind_run_ok (a := Value.string []) (s' := s) (by rfl), Rd.bind_run_ok ih]
    rfl

/-- C89 is false of the code for types whose values take no room: sixteen bytes, a block of one column named `a` of type `Tuple()`, make the
client hold 2^30 values. Nothing the reader checks stands in the way: `Tuple()` is a type it accepts, and it wants no byte for its rows. -/
theorem C89_empty_tuple_false : ∃ (s : Bytes) (b : Block), s.length = 16 ∧ readBlock cfgDebug 0 s = .ok (b, []) ∧
    (b.columnData.map fun e => valuesIn e.2).sum = 2 ^ 30 := by
  refine ⟨[1, 0x80, 0x80, 0x80, 0x80, 4, 1, 97, 7, 84, 117, 112, 108, 101, 40, 41],
    ⟨BlockInfo.default, 2 ^ 30, [(['a'], .tuple [])], [(['a'], (List.replicate (2 ^ 30) []).map .tuple)]⟩, rfl, ?_, ?_⟩
  · have h1 : readColumn cfgDebug (2 ^ 30) ⟨BlockInfo.default, 2 ^ 30, [], []⟩ [1, 97, 7, 84, 117, 112, 108, 101, 40, 41] =
        .ok (⟨BlockInfo.default, 2 ^ 30, [(['a'], .tuple [])], [(['a'], (List.replicate (2 ^ 30) []).map .tuple)]⟩, []) := by
      unfold readColumn
      rw [Rd.bind_run_ok (a := ['a']) (s' := [7, 84, 117, 112, 108, 101, 40, 41]) (by rfl),
        Rd.bind_run_ok (a := ['T', 'u', 'p', 'l', 'e', '(', ')']) (s' := []) (by rfl),
        Rd.bind_run_ok (a := .tuple []) (s' := []) (by rfl), if_pos (by decide),
        Rd.bind_run_ok (Rd.bind_run_ok (a := ()) (s' := []) (by rfl) |>.trans (deEmpty _ _ (Nat.le_refl _) _))]
      rfl
    unfold readBlock
    rw [Rd.bind_run_ok (a := BlockInfo.default) (s' := [1, 0x80, 0x80, 0x80, 0x80, 4, 1, 97, 7, 84, 117, 112, 108, 101, 40, 41]) (by rfl),
      Rd.bind_run_ok (a := 1) (s' := [0x80, 0x80, 0x80, 0x80, 4, 1, 97, 7, 84, 117, 112, 108, 101, 40, 41]) (by rfl),
      Rd.bind_run_ok (a := 2 ^ 30) (s' := [1, 97, 7, 84, 117, 112, 108, 101, 40, 41]) (by rfl)]
    simp only [readColumns]
    rw [Rd.bind_run_ok h1]
    rfl
  · have e : ∀ n, weighAll (fun _ => 1) ((List.replicate n []).map Value.tuple) = n := by
      intro n
      rw [weighAll_tuples, weighRows_replicate, List.length_replicate]
      rfl
    simp only [List.map_cons, List.map_nil, List.sum_cons, List.sum_nil, valuesIn, e, Nat.add_zero]

/-- C89 is false of the code with strings counted in: `n` rows of a `LowCardinality(String)` column that all name the one string of `m` bytes
take `m + n` bytes and a few more on the wire, and `n · m` in memory, for the client keeps a copy of the string in each row. -/
theorem C89_low_cardinality_false (cfg : Cfg) (m n : Nat) (hm : m ≤ 2 ^ 30) (hn : n ≤ 2 ^ 30) : ∃ (s : Bytes) (vs : List Value),
    s.length ≤ 33 + m + n ∧ deCol cfg (.lowCardinality .string) n s = .ok (vs, []) ∧ memoryOf vs = n * (1 + m) := by
  rcases Nat.eq_zero_or_pos n with rfl | hpos
  · refine ⟨[], [], by simp, rfl, by simp [memoryOf, weighAll]⟩
  have hk : (List.replicate m 0#8).length ≤ maxStringSize := by rw [List.length_replicate]; exact hm
  refine ⟨writeU64 0x200 ++ (writeU64 1 ++ (writeString (List.replicate m 0#8) ++ (writeU64 n ++ (List.replicate n 0#8)))),
    List.replicate n (.string (List.replicate m 0#8)), ?_, ?_, ?_⟩
  · have h9 := writeVarUintLoop_length_le 9 (List.replicate m 0#8).length
    simp only [List.length_append, writeU64, le_length, writeString, List.length_replicate] at h9 ⊢
    simp only [writeVarUint]
    omega
  · have hrep : ∀ k, Rd.rep k (readExact 1 >>= fun b => pure (unLe b)) (List.replicate k 0#8) = .ok (List.replicate k 0, []) := by
      intro k
      induction k with
      | zero => rfl
      | succ k ih =>
        simp only [Rd.rep, List.replicate_succ]
        rw [Rd.bind_run_ok (a := 0) (s' := List.replicate k 0#8) (Rd.bind_run_ok (readExact_append [0#8] _ rfl)), Rd.bind_run_ok ih]
        rfl
    have hmap : ∀ k, Res.mapL (lcResolve false true false [.string (List.replicate m 0#8)] []) (List.replicate k 0) =
        .ok (List.replicate k (.string (List.replicate m 0#8))) := by
      intro k
      induction k with
      | zero => rfl
      | succ k ih => simp only [List.replicate_succ, Res.mapL]; rw [ih]; rfl
    have hdict : ∀ rest, deCol cfg .string 1 (writeString (List.replicate m 0#8) ++ rest) = .ok ([.string (List.replicate m 0#8)], rest) := by
      intro rest
      simp only [deCol, deStrings]
      rw [guardRows_le (by decide)]
      simp only [Rd.rep]
      rw [Rd.bind_run_ok (Rd.bind_run_ok (readString_write _ _ hk))]
      rfl
    show guardRows n (deLc (deCol cfg .string) false n) _ = _
    rw [guardRows_le hn]
    unfold deLc
    generalize hL : List.length _ = L
    have hL1 : 1 ≤ L := by rw [← hL]; simp [writeU64, le_length]; omega
    obtain ⟨L, rfl⟩ : ∃ L', L = L' + 1 := ⟨L - 1, by omega⟩
    rw [lcLoop, if_neg (by omega), Rd.bind_run_ok (readU64_le _ (by decide) _)]
    simp only [show lcWidth 512 = some 1 from rfl]
    rw [if_neg (by decide), Rd.bind_run_ok (Rd.pure_apply _ _), if_pos (by decide),
      Rd.bind_run_ok ((Rd.bind_run_ok (readU64_le 1 (by decide) _)).trans (hdict _)),
      Rd.bind_run_ok (readU64_le n (by omega) _)]
    simp only [Nat.min_self, guardRows_le hn]
    rw [Rd.bind_run_ok (hrep n), if_pos (by decide)]
    rw [Rd.bind_run_ok (a := List.replicate n (.string (List.replicate m 0#8))) (s' := []) (by
      show Rd.lift (Res.mapL (lcResolve false true false [.string (List.replicate m 0#8)] []) (List.replicate n 0)) [] = _
      rw [hmap]; rfl)]
    rw [Nat.sub_self]
    rfl
  · have e : ∀ k, weighAll (fun b => 1 + b.length) (List.replicate k (.string (List.replicate m 0#8))) = k * (1 + m) := by
      intro k
      induction k with
      | zero => simp [weighAll]
      | succ k ih => rw [List.replicate_succ, weighAll, ih, weigh, List.length_replicate, Nat.succ_mul]; omega
    exact e n

/-- The hypotheses are met, and the bounds are not far off: ten bytes, a column of one row of `Array(Tuple(UInt8))`
holding five values. -/
example : ∃ vs, deCol cfgDebug (.array (.tuple [.uint8])) 1 [2, 0, 0, 0, 0, 0, 0, 0, 7, 9] = .ok (vs, []) ∧ valuesIn vs = 5 ∧
    roomy (.array (.tuple [.uint8])) = true ∧ tupleDepth (.array (.tuple [.uint8])) = 1 :=
  ⟨[.array [.tuple [.uint8 7], .tuple [.uint8 9]]], rfl, rfl, rfl, rfl⟩

end Klick.Props
