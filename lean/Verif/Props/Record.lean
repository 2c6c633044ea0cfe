import Verif.Spec.Record
import Verif.Props.Nest
import Verif.Props.Fitting
/-
Structs whose fields are containers of user types (C104).
-/
namespace Klick
open Spec
namespace Props

variable {ι : Type} {A : ι → Type}

/-! ### a declaration that writes what a given row writes -/

/-- The same declaration, but writing always the row `x`. -/
def fixedOf (L : ∀ i, SqlType (A i)) : (fs : List (Str × Nest ι)) → RecordVal A fs → Fields (RecordVal A fs) (RecordSlots A fs)
  | [], _ => .nil
  | f :: fs, x => .cons ⟨f.1, f.1, false, false, none, .plain (fun h _ => f.2.toSql L h x.1) (f.2.fromSql L) true, none⟩ (fixedOf L fs x.2)

variable (L : ∀ i, SqlType (A i))

theorem fixed_ser (hints : IMap Ty) : ∀ (fs : List (Str × Nest ι)) (x y : RecordVal A fs), (fixedOf L fs x).ser hints y = (recordOf L fs).ser hints x
  | [], _, _ => rfl
  | f :: fs, x, y => by
    show (_ >>= fun a => (fixedOf L fs x.2).ser hints y.2 >>= fun b => Res.ok (a ++ b)) = _
    rw [fixed_ser hints fs x.2 y.2]; rfl

theorem fixed_flatten : ∀ (fs : List (Str × Nest ι)) (x : RecordVal A fs), (fixedOf L fs x).anyFlatten = (recordOf L fs).anyFlatten
  | [], _ => rfl
  | _ :: fs, x => fixed_flatten fs x.2

theorem fixed_empty : ∀ (fs : List (Str × Nest ι)) (x : RecordVal A fs), (fixedOf L fs x).empty = (recordOf L fs).empty
  | [], _ => rfl
  | f :: fs, x => by
    show ((⟨none, []⟩ : FieldSlot (f.2.den A)), (fixedOf L fs x.2).empty) = _
    rw [fixed_empty fs x.2]; rfl

theorem fixed_sizes : ∀ (fs : List (Str × Nest ι)) (x : RecordVal A fs), (fixedOf L fs x).checkSizes = (recordOf L fs).checkSizes
  | [], _ => rfl
  | _ :: fs, x => fixed_sizes fs x.2

theorem fixed_byName (c : Cell) : ∀ (fs : List (Str × Nest ι)) (x : RecordVal A fs) (t : RecordSlots A fs),
    (fixedOf L fs x).byName c t = (recordOf L fs).byName c t
  | [], _, _ => rfl
  | f :: fs, x, (s, ss) => by
    simp only [fixedOf, recordOf, Fields.byName, fixed_byName c fs x.2 ss]
    rfl

theorem fixed_byIndex (c : Cell) : ∀ (fs : List (Str × Nest ι)) (x : RecordVal A fs) (i : Nat) (t : RecordSlots A fs),
    (fixedOf L fs x).byIndex i c t = (recordOf L fs).byIndex i c t
  | [], _, _, _ => rfl
  | f :: fs, x, i, (s, ss) => by
    simp only [fixedOf, recordOf, Fields.byIndex, fixed_byIndex c fs x.2 _ ss]
    rfl

theorem fixed_absorb (fs : List (Str × Nest ι)) (x : RecordVal A fs) : ∀ (cells : List Cell) (i : Nat) (t : RecordSlots A fs),
    (fixedOf L fs x).absorb i cells t = (recordOf L fs).absorb i cells t
  | [], _, _ => rfl
  | c :: cells, i, t => by
    simp only [Fields.absorb, fixed_byName, fixed_byIndex, fixed_flatten, fixed_absorb fs x cells]

theorem fixed_pull : ∀ (fs : List (Str × Nest ι)) (x : RecordVal A fs) (cells flat : IMap (Ty × Value)),
    (fixedOf L fs x).pull cells flat = (recordOf L fs).pull cells flat
  | [], _, _, _ => rfl
  | f :: fs, x, cells, flat => by
    simp only [fixedOf, recordOf, Fields.pull, fixed_pull fs x.2]
    rfl

theorem fixed_rectify : ∀ (fs : List (Str × Nest ι)) (x : RecordVal A fs) (t : RecordSlots A fs), (fixedOf L fs x).rectify t = (recordOf L fs).rectify t
  | [], _, _ => rfl
  | f :: fs, x, (s, ss) => by
    simp only [fixedOf, recordOf, Fields.rectify, fixed_rectify fs x.2 ss]
    rfl

theorem fixed_settle : ∀ (fs : List (Str × Nest ι)) (x : RecordVal A fs) (d : Option (RecordVal A fs)) (t : RecordSlots A fs),
    (fixedOf L fs x).settle d t = (recordOf L fs).settle d t
  | [], _, _, _ => rfl
  | f :: fs, x, d, (s, ss) => by
    simp only [fixedOf, recordOf, Fields.settle, fixed_settle fs x.2 _ ss]
    rfl

theorem fixed_build : ∀ (fs : List (Str × Nest ι)) (x : RecordVal A fs) (d : Option (RecordVal A fs)) (t : RecordSlots A fs) (flat : IMap (Ty × Value)),
    (fixedOf L fs x).build d t flat = (recordOf L fs).build d t flat
  | [], _, _, _, _ => rfl
  | f :: fs, x, d, (s, ss), flat => by
    simp only [fixedOf, recordOf, Fields.build, fixed_build fs x.2 _ ss]
    rfl

theorem fixed_de (fs : List (Str × Nest ι)) (x : RecordVal A fs) (d : Option (RecordVal A fs)) (cells : List Cell) :
    (fixedOf L fs x).de d cells = (recordOf L fs).de d cells := by
  unfold Fields.de
  simp only [fixed_sizes, fixed_pull, fixed_absorb, fixed_empty, fixed_rectify, fixed_settle, fixed_build]

/-! ### rows -/

variable {L}

theorem fixed_law {cfg : Cfg} {header : IMap Ty} {R : ∀ i, A i → A i → Prop} : ∀ (fs : List (Str × Nest ι)) (x : RecordVal A fs),
    RecordHolds cfg header L R fs x → ∃ y, SameRecord R fs x y ∧ FieldsLaw (fixedOf L fs x) header (typeIn header) none y
  | [], _, _ => ⟨(), trivial, trivial⟩
  | f :: fs, x, h => by
    obtain ⟨⟨T, h1, hT, hw, hx⟩, h2⟩ := h
    obtain ⟨ys, k1, k2⟩ := fixed_law fs x.2 h2
    obtain ⟨v, y, s1, _, _, _, s5, s6⟩ := C104_stored cfg L R f.2 T hT hw x.1 hx
    refine ⟨(y, ys), ⟨s6, k1⟩, .inl ⟨rfl, rfl, ?_⟩, k2⟩
    show ∃ v, f.2.toSql L (header.get f.1) x.1 = .ok v ∧ f.2.fromSql L (typeIn header f.1).stripLowCardinality v = .ok y
    have e : (typeIn header f.1).stripLowCardinality = T.stripLowCardinality := by
      unfold typeIn
      rw [h1]
      exact strip_twice hw
    rw [e, h1]
    exact ⟨v, s1, s5⟩

theorem fixed_names : ∀ (fs : List (Str × Nest ι)) (x : RecordVal A fs), (fixedOf L fs x).names = some (fs.map Prod.fst)
  | [], _ => rfl
  | f :: fs, x => by
    show (match some [f.1], (fixedOf L fs x.2).names with | some a, some b => some (a ++ b) | _, _ => none) = _
    rw [fixed_names fs x.2]; rfl

theorem fixed_claims : ∀ (fs : List (Str × Nest ι)) (x : RecordVal A fs) (n : Str), FieldsClaim (fixedOf L fs x) n → n ∈ fs.map Prod.fst
  | [], _, _, h => h.elim
  | f :: fs, x, n, h => by
    rcases h with h | h
    · rw [show n = f.1 from h.2]; exact List.mem_cons_self ..
    · exact List.mem_cons_of_mem _ (fixed_claims fs x.2 n h)

theorem fixed_apart : ∀ (fs : List (Str × Nest ι)) (x : RecordVal A fs), (fs.map Prod.fst).Nodup → Apart (fixedOf L fs x)
  | [], _, _ => trivial
  | f :: fs, x, h => by
    rw [List.map_cons, List.nodup_cons] at h
    refine ⟨fun n hn hc => ?_, fixed_apart fs x.2 h.2⟩
    have : n = f.1 := hn.2
    exact h.1 (this ▸ fixed_claims fs x.2 n hc)

theorem record_values {cfg : Cfg} {header : IMap Ty} {R : ∀ i, A i → A i → Prop} : ∀ (fs : List (Str × Nest ι)) (x : RecordVal A fs),
    RecordHolds cfg header L R fs x → ∀ cols, (recordOf L fs).ser header x = .ok cols → ∀ name v, (name, v) ∈ cols →
      ∃ T, header.get name = some T ∧ T.validateValue cfg v = true ∧ Storable cfg T v ∧ canon T v = v
  | [], _, _, cols, hc, name, v, hm => by cases hc; cases hm
  | f :: fs, x, h, cols, hc, name, v, hm => by
    obtain ⟨⟨T, h1, hT, hw, hx⟩, h2⟩ := h
    obtain ⟨a, ha, hc⟩ := Res.bind_eq_ok.mp hc
    obtain ⟨b, hb, hc⟩ := Res.bind_eq_ok.mp hc
    cases hc
    rcases List.mem_append.mp hm with hm | hm
    · obtain ⟨w, _, k1, k2, k3, k4, _⟩ := C104_stored cfg L R f.2 T hT hw x.1 hx
      have e : a = [(f.1, w)] := by
        have : (f.2.toSql L (header.get f.1) x.1 >>= fun v => Res.ok [(f.1, v)]) = .ok a := ha
        rw [h1, k1] at this
        cases this; rfl
      rw [e, List.mem_singleton] at hm
      cases hm
      exact ⟨T, h1, k2, k3, k4⟩
    · exact record_values fs x.2 h2 b hb name v hm

/-- C104: a struct whose fields are such containers, each held by its column, is written as one valid value for every column of the table, and these
columns in any order are read as a struct that is the same up to what the user types make of their values. -/
theorem C104_struct (cfg : Cfg) (header : IMap Ty) (L : ∀ i, SqlType (A i)) (R : ∀ i, A i → A i → Prop) (fs : List (Str × Nest ι))
    (hn : (fs.map Prod.fst).Nodup) (hk : ∀ name, name ∈ fs.map Prod.fst ↔ name ∈ header.keys) (x : RecordVal A fs)
    (hx : RecordHolds cfg header L R fs x) :
    ReadAs cfg header ((recordOf L fs).derive none).ser ((recordOf L fs).derive none).de (SameRecord R fs) x := by
  obtain ⟨y, h1, h2⟩ := fixed_law fs x hx
  obtain ⟨cols, s1, s2, s3, s4⟩ := C71_derived (fixedOf L fs x) none cfg header y _ h2 (fixed_apart fs x hn) (fixed_names fs x) hn hk
    fun cols hc name v hm => by
      have hc : (fixedOf L fs x).ser header y = .ok cols := hc
      rw [fixed_ser] at hc
      obtain ⟨T, k1, k2, _, k4⟩ := record_values fs x hx cols hc name v hm
      exact ⟨T, k1, k2, k4⟩
  have s1 : (fixedOf L fs x).ser header y = .ok cols := s1
  rw [fixed_ser] at s1
  refine ⟨cols, s1, s2, s3, y, h1, fun cells hp => ?_⟩
  have := s4 cells hp
  exact (fixed_de L fs x none cells).symm.trans this

theorem record_column {cfg : Cfg} {header : IMap Ty} {R : ∀ i, A i → A i → Prop} (hn : header.keys.Nodup) {fs : List (Str × Nest ι)}
    (hd : (fs.map Prod.fst).Nodup) (hk : ∀ name, name ∈ fs.map Prod.fst ↔ name ∈ header.keys) {rows : List (RecordVal A fs)}
    (hx : ∀ x ∈ rows, RecordHolds cfg header L R fs x) {name : Str} {T : Ty} (hm : (name, T) ∈ header) :
    ∀ v ∈ columnOf header ((recordOf L fs).derive none).ser name rows, Storable cfg T v := by
  intro v hv
  obtain ⟨x, hmx, rfl⟩ := List.mem_map.mp hv
  obtain ⟨cols, h1, h2, _⟩ := C104_struct cfg header L R fs hd hk x (hx x hmx)
  rw [h1]
  have hin : name ∈ cols.map (·.1) := (h2.same name).mpr (List.mem_map.mpr ⟨_, hm, rfl⟩)
  obtain ⟨⟨n, w⟩, hw, e⟩ := List.mem_map.mp hin
  dsimp only at e
  subst e
  obtain ⟨S, g1, _, g3, _⟩ := record_values fs x (hx x hmx) cols h1 n w hw
  rw [IMap.get_of_mem hn hm] at g1
  cases g1
  show Storable cfg T ((valueFor cols n).getD .null)
  rw [valueFor_mem h2.once hw]
  exact g3

/-- C104: rows of such a struct, in any batches, are inserted, and a later query that is answered with the same rows, cut into blocks in any way and
with columns in any order, gives one row for each, in order, the same up to what the user types make of their values. -/
theorem C104_insert (cfg : Cfg) (ext : Ext) (hdr : Block) (L : ∀ i, SqlType (A i)) (R : ∀ i, A i → A i → Prop) (fs : List (Str × Nest ι))
    (batches : List (List (RecordVal A fs)))
    (hh : hdr.columnTypes ≠ []) (hn : hdr.columnTypes.keys.Nodup) (hl : hdr.columnTypes.length < 2 ^ 63)
    (hd : (fs.map Prod.fst).Nodup) (hk : ∀ name, name ∈ fs.map Prod.fst ↔ name ∈ hdr.columnTypes.keys)
    (ht : ∀ name T, (name, T) ∈ hdr.columnTypes →
      (utf8Encode name).length ≤ maxStringSize ∧ TextOk cfg T ∧ (utf8Encode T.display).length ≤ maxStringSize ∧ WellFormed cfg T)
    (hr : ∀ rows ∈ batches, rows.length < 2 ^ 63) (hx : ∀ rows ∈ batches, ∀ x ∈ rows, RecordHolds cfg hdr.columnTypes L R fs x)
    (hf : ∀ rows ∈ batches, ∀ name T, (name, T) ∈ hdr.columnTypes →
      Fits T (columnOf hdr.columnTypes ((recordOf L fs).derive none).ser name rows))
    (acks : List Bool) (ha : acks = List.replicate ((batches.filter (fun rows => !rows.isEmpty)).length + 1) true) (revision : Nat) :
    ∃ blocks, insertNative cfg ext ((recordOf L fs).derive none).ser (some (.block hdr)) acks batches = (blocks ++ [endBlock], .ok ()) ∧
      (∃ received, Each (Travels cfg revision) blocks received) ∧
      ∀ received, Each (Travels cfg revision) blocks received →
        ∀ (answer : List Block) (revision' : Nat) (seen : List Block), (∀ b ∈ answer, AnswerOk cfg b ∧ b.rows ≤ 2 ^ 57) → SameRows received answer →
          Each (Travels cfg revision') answer seen →
          ∃ rows, collectRows (queryStream ((recordOf L fs).derive none).de (seen.map Item.block)) = .ok rows ∧
            Each (SameRecord R fs) batches.flatten rows := by
  obtain ⟨blocks, h1, _, h3⟩ := C71_readers cfg ext hdr ((recordOf L fs).derive none).ser ((recordOf L fs).derive none).de (SameRecord R fs) batches
    hh hn hl hr (fun rows hm x hx' => C104_struct cfg hdr.columnTypes L R fs hd hk x (hx rows hm x hx'))
    (fun rows hm name T hT => by
      obtain ⟨k1, k2, k3, k4⟩ := ht name T hT
      exact ⟨k1, k2, k3, k4, record_column hn hd hk (hx rows hm) hT, hf rows hm name T hT⟩) acks ha revision
  exact ⟨blocks, h1, h3⟩

/-- A row with a time and an optional price: the table, -/
def exPriceTable : IMap Ty := [(ch! "price", .decimal32 4), (ch! "at", .nullable (.dateTime64 6 tzUTC))]
/-- and the struct. -/
def exPrice : List (Str × Nest Bool) := [(ch! "at", .option (.user false)), (ch! "price", .user true)]

example (cfg : Cfg) : ReadAs cfg exPriceTable ((recordOf (exUsers cfg) exPrice).derive none).ser ((recordOf (exUsers cfg) exPrice).derive none).de
    (SameRecord exKeeps exPrice) (some (tzUTC, (⟨0, 1500⟩ : Inst)), (⟨15, 1⟩ : Decimal), ()) := by
  refine C104_struct cfg exPriceTable (exUsers cfg) exKeeps exPrice (by decide) (fun name => by simp [exPrice, exPriceTable, IMap.keys, or_comm]) _ ?_
  refine ⟨⟨.nullable (.dateTime64 6 tzUTC), rfl, rfl, .nullable rfl .dateTime64, (by intro h; cases h), .inl ⟨_, rfl, ?_⟩⟩,
    ⟨.decimal32 4, rfl, rfl, .decimal32, ?_⟩, trivial⟩
  · exact C104_chrono cfg _ tzUTC ⟨0, 1500⟩ (by unfold Inst.Valid; decide) (by decide) (by decide)
  · exact C104_decimal cfg ⟨15, 1⟩ (.decimal32 4) rfl 32 4 rfl (by decide) (by decide) (by unfold InBits; decide) (by decide)

end Props
end Klick
