import Verif.Spec.RawRow
import Verif.CodecLemmas
import Verif.Props.Column
/-
Raw rows and error annotation (C53, C56).
-/
namespace Klick
open Spec Props

/-! ### C53 -/

/-- What is left of the cells when those in `taken` were fetched. -/
def Left (cells : List Cell) (taken : Nat → Prop) (r : RawRow) : Prop :=
  r.length = cells.length ∧ ∀ i c, cells[i]? = some c → (taken i → r[i]? = some none) ∧ (¬ taken i → r[i]? = some (some c))

theorem names_get (r : RawRow) (i : Nat) : r.names[i]? = (r[i]?).map cellName := by
  rw [RawRow.names, List.getElem?_map]

theorem findIdx_some {α : Type} {p : α → Bool} {l : List α} {i : Nat} (h : l.findIdx? p = some i) :
    ∃ x, l[i]? = some x ∧ p x = true := by
  rw [List.findIdx?_eq_some_iff_getElem] at h
  obtain ⟨hi, hp, _⟩ := h
  exact ⟨l[i], List.getElem?_eq_getElem hi, hp⟩

theorem findIdx_none {α : Type} {p : α → Bool} {l : List α} (h : l.findIdx? p = none) {i : Nat} {x : α} (hx : l[i]? = some x) :
    p x = false := by
  rw [List.findIdx?_eq_none_iff] at h
  exact h x (List.mem_of_getElem? hx)

/-- One fetch: what it returns and what it leaves. -/
theorem take_spec {cells : List Cell} (hn : ColumnsNamed cells) {taken : Nat → Prop} {r : RawRow} (hl : Left cells taken r) (ix : CellIndex) :
    Left cells (fun i => taken i ∨ Targets cells ix i) (r.take ix).2 ∧
    (∀ i c, Targets cells ix i → cells[i]? = some c → ¬ taken i → (r.take ix).1 = .ok c.2) ∧
    (∀ i, Targets cells ix i → taken i → (r.take ix).1 = .err (secondFetch ix)) ∧
    (ix ≠ .at cells.length → (∀ i, ¬ Targets cells ix i) → ∃ e, (r.take ix).1 = .err e) := by
  obtain ⟨hlen, hcell⟩ := hl
  have some_cell : ∀ i, i < cells.length → ∃ c, cells[i]? = some c := fun i h => ⟨cells[i], List.getElem?_eq_getElem h⟩
  -- a fetch that addresses nothing leaves everything
  have keep : (∀ i, ¬ Targets cells ix i) → Left cells (fun i => taken i ∨ Targets cells ix i) r := by
    intro h
    refine ⟨hlen, fun i c hc => ⟨fun ht => (hcell i c hc).1 (ht.resolve_right (h i)), fun ht => (hcell i c hc).2 (fun x => ht (.inl x))⟩⟩
  have keepTaken : (∀ i, Targets cells ix i → taken i) → Left cells (fun i => taken i ∨ Targets cells ix i) r := by
    intro h
    refine ⟨hlen, fun i c hc => ⟨fun ht => (hcell i c hc).1 (ht.elim id (h i)), fun ht => (hcell i c hc).2 (fun x => ht (.inl x))⟩⟩
  -- taking a cell that is there
  have takeCell : ∀ i c, cells[i]? = some c → ¬ taken i → (∀ j, Targets cells ix j ↔ j = i) →
      Left cells (fun i => taken i ∨ Targets cells ix i) (r.set i none) := by
    intro i c hc hnt hiff
    have hi : i < r.length := by rw [hlen]; exact (List.getElem?_eq_some_iff.mp hc).1
    refine ⟨by rw [List.length_set]; exact hlen, fun j d hd => ?_⟩
    by_cases e : i = j
    · subst e
      refine ⟨fun _ => ?_, fun h => absurd (.inr ((hiff i).mpr rfl)) h⟩
      rw [List.getElem?_set_self hi]
    · rw [List.getElem?_set_ne e]
      refine ⟨fun h => (hcell j d hd).1 (h.resolve_right (fun t => e ((hiff j).mp t).symm)), fun h => (hcell j d hd).2 (fun x => h (.inl x))⟩
  cases ix with
  | «at» k =>
    have hiff : ∀ j, Targets cells (.at k) j ↔ (j = k ∧ k < cells.length) := by
      intro j
      constructor
      · rintro ⟨c, hc, h⟩
        rcases h with h | h
        · cases h
          exact ⟨rfl, (List.getElem?_eq_some_iff.mp hc).1⟩
        · cases h
      · rintro ⟨rfl, h⟩
        obtain ⟨c, hc⟩ := some_cell j h
        exact ⟨c, hc, .inl rfl⟩
    have hnl : r.names.length = cells.length := by rw [RawRow.names, List.length_map, hlen]
    by_cases hk : k < cells.length
    · have hf : (CellIndex.at k).find r.names = some k := by
        simp only [CellIndex.find, hnl]
        rw [if_pos (by omega)]
      obtain ⟨c, hc⟩ := some_cell k hk
      by_cases ht : taken k
      · have hr := (hcell k c hc).1 ht
        have e : r.take (.at k) = (.err .doubleFetch, r) := by simp only [RawRow.take, hf, hr]
        rw [e]
        refine ⟨keepTaken (fun i hi => ((hiff i).mp hi).1 ▸ ht), ?_, ?_, ?_⟩
        · intro i c hi _ hnt
          rw [((hiff i).mp hi).1] at hnt
          exact absurd ht hnt
        · intro _ _ _; rfl
        · intro _ h; exact absurd ((hiff k).mpr ⟨rfl, hk⟩) (h k)
      · have hr := (hcell k c hc).2 ht
        have e : r.take (.at k) = (.ok c.2, r.set k none) := by simp only [RawRow.take, hf, hr]
        rw [e]
        refine ⟨takeCell k c hc ht (fun j => (hiff j).trans ⟨fun h => h.1, fun h => ⟨h, hk⟩⟩), ?_, ?_, ?_⟩
        · intro i d hi hd _
          rw [((hiff i).mp hi).1, hc] at hd
          cases hd; rfl
        · intro i hi hti
          rw [((hiff i).mp hi).1] at hti
          exact absurd hti ht
        · intro _ h; exact absurd ((hiff k).mpr ⟨rfl, hk⟩) (h k)
    · have hno : ∀ i, ¬ Targets cells (.at k) i := fun i hi => hk ((hiff i).mp hi).2
      by_cases hk2 : k = cells.length
      · have hf : (CellIndex.at k).find r.names = some k := by
          simp only [CellIndex.find, hnl]
          rw [if_pos (by omega)]
        have hr : r[k]? = none := by rw [List.getElem?_eq_none_iff]; omega
        have e : r.take (.at k) = (.panic, r) := by simp only [RawRow.take, hf, hr]
        rw [e]
        exact ⟨keep hno, fun i c hi => absurd hi (hno i), fun i hi => absurd hi (hno i), fun h => absurd (by rw [hk2]) h⟩
      · have hf : (CellIndex.at k).find r.names = none := by
          simp only [CellIndex.find, hnl]
          rw [if_neg (by omega)]
        have e : r.take (.at k) = (.err .outOfBounds, r) := by simp only [RawRow.take, hf]
        rw [e]
        exact ⟨keep hno, fun i c hi => absurd hi (hno i), fun i hi => absurd hi (hno i), fun _ _ => ⟨_, rfl⟩⟩
  | named n =>
    have hT : ∀ j, Targets cells (.named n) j ↔ ∃ c, cells[j]? = some c ∧ c.1 = n := by
      intro j
      constructor
      · rintro ⟨c, hc, h⟩
        rcases h with h | h
        · cases h
        · cases h; exact ⟨c, hc, rfl⟩
      · rintro ⟨c, hc, rfl⟩
        exact ⟨c, hc, .inr rfl⟩
    -- what the search sees
    have seen : ∀ i x, r.names[i]? = some x → ∃ c, cells[i]? = some c ∧ ((taken i ∧ x = []) ∨ (¬ taken i ∧ x = c.1)) := by
      intro i x hx
      rw [names_get] at hx
      have hi : i < cells.length := by
        rw [← hlen]
        rcases Nat.lt_or_ge i r.length with h | h
        · exact h
        · rw [List.getElem?_eq_none_iff.mpr h] at hx; cases hx
      obtain ⟨c, hc⟩ := some_cell i hi
      refine ⟨c, hc, ?_⟩
      rcases Classical.em (taken i) with ht | ht
      · rw [(hcell i c hc).1 ht] at hx
        cases hx
        exact .inl ⟨ht, rfl⟩
      · rw [(hcell i c hc).2 ht] at hx
        cases hx
        exact .inr ⟨ht, rfl⟩
    cases hf : r.names.findIdx? (fun x => x == n) with
    | none =>
      have e : r.take (.named n) = (.err .outOfBounds, r) := by simp only [RawRow.take, CellIndex.find, hf]
      have hall : ∀ i, Targets cells (.named n) i → taken i := by
        intro i hi
        obtain ⟨c, hc, hcn⟩ := (hT i).mp hi
        rcases Classical.em (taken i) with ht | ht
        · exact ht
        · exfalso
          have h1 := (hcell i c hc).2 ht
          have h2 : r.names[i]? = some c.1 := by rw [names_get, h1]; rfl
          have h3 := findIdx_none hf h2
          rw [hcn] at h3
          exact absurd h3 (by simp)
      rw [e]
      refine ⟨keepTaken hall, fun i c hi _ hnt => absurd (hall i hi) hnt, fun _ _ _ => rfl, fun _ _ => ⟨_, rfl⟩⟩
    | some i =>
      obtain ⟨x, hx, hxn⟩ := findIdx_some hf
      have hxn : x = n := by simpa using hxn
      subst hxn
      obtain ⟨c, hc, hcase⟩ := seen i x hx
      rcases hcase with ⟨ht, hx0⟩ | ⟨ht, hx1⟩
      · -- the empty name found a fetched cell
        have hr := (hcell i c hc).1 ht
        have e : r.take (.named x) = (.err .doubleFetch, r) := by simp only [RawRow.take, CellIndex.find, hf, hr]
        have hno : ∀ j, ¬ Targets cells (.named x) j := by
          intro j hj
          obtain ⟨d, hd, hdn⟩ := (hT j).mp hj
          exact hn.1 d (List.mem_of_getElem? hd) (hdn.trans hx0)
        rw [e]
        exact ⟨keep hno, fun i c hi => absurd hi (hno i), fun i hi => absurd hi (hno i), fun _ _ => ⟨_, rfl⟩⟩
      · have hr := (hcell i c hc).2 ht
        have e : r.take (.named x) = (.ok c.2, r.set i none) := by simp only [RawRow.take, CellIndex.find, hf, hr]
        have hiff : ∀ j, Targets cells (.named x) j ↔ j = i := by
          intro j
          constructor
          · intro hj
            obtain ⟨d, hd, hdn⟩ := (hT j).mp hj
            exact hn.2 j i d c hd hc (hdn.trans hx1)
          · rintro rfl; exact (hT j).mpr ⟨c, hc, hx1.symm⟩
        rw [e]
        refine ⟨takeCell i c hc ht hiff, ?_, ?_, ?_⟩
        · intro j d hj hd _
          rw [(hiff j).mp hj, hc] at hd
          cases hd; rfl
        · intro j hj hti
          rw [(hiff j).mp hj] at hti
          exact absurd hti ht
        · intro _ h; exact absurd ((hiff i).mpr rfl) (h i)

theorem left_of_history (cells : List Cell) (hn : ColumnsNamed cells) (hist : List (RT × CellIndex)) :
    Left cells (fun i => ∃ f ∈ hist, Targets cells f.2 i) (afterFetches cells hist) := by
  have key : ∀ (hist : List (RT × CellIndex)) (taken : Nat → Prop) (r : RawRow), Left cells taken r →
      Left cells (fun i => taken i ∨ ∃ f ∈ hist, Targets cells f.2 i) (hist.foldl (fun r f => (r.tryGet f.1 f.2).2) r) := by
    intro hist
    induction hist with
    | nil =>
      intro taken r h
      refine ⟨h.1, fun i c hc => ⟨fun ht => (h.2 i c hc).1 (ht.elim id (fun ⟨_, hf, _⟩ => nomatch hf)), fun ht => (h.2 i c hc).2 (fun x => ht (.inl x))⟩⟩
    | cons f hist ih =>
      intro taken r h
      have h1 := ih _ _ (take_spec hn h f.2).1
      refine ⟨h1.1, fun i c hc => ⟨fun ht => (h1.2 i c hc).1 ?_, fun ht => (h1.2 i c hc).2 (fun h2 => ht ?_)⟩⟩
      · rcases ht with ht | ⟨g, hg, hgt⟩
        · exact .inl (.inl ht)
        · rcases List.mem_cons.mp hg with rfl | hg
          · exact .inl (.inr hgt)
          · exact .inr ⟨g, hg, hgt⟩
      · rcases h2 with (h2 | h2) | ⟨g, hg, hgt⟩
        · exact .inl h2
        · exact .inr ⟨f, List.mem_cons_self .., h2⟩
        · exact .inr ⟨g, List.mem_cons_of_mem _ hg, hgt⟩
  have h0 : Left cells (fun _ => False) (RawRow.ofCells cells) := by
    refine ⟨by simp [RawRow.ofCells], fun i c hc => ⟨False.elim, fun _ => ?_⟩⟩
    rw [RawRow.ofCells, List.getElem?_map, hc]; rfl
  have := key hist _ _ h0
  refine ⟨this.1, fun i c hc => ⟨fun ht => (this.2 i c hc).1 (.inr ht), fun ht => (this.2 i c hc).2 (fun x => ht (x.resolve_left id))⟩⟩

/-- C53: after any history of fetches, of any types, by index or by name, a fetch returns its cell converted to
the type asked for if no earlier fetch addressed that cell, an error if one did, and an error if it addresses no
cell. Other fetches never matter. What is missing is false: the index just past the last cell panics, see
`C53_index_false`. -/
theorem C53_fetch_partial (cells : List Cell) (hn : ColumnsNamed cells) (hist : List (RT × CellIndex)) (t : RT) (ix : CellIndex)
    (hix : ix ≠ .at cells.length) :
    (∀ i c, Targets cells ix i → cells[i]? = some c → (∀ f ∈ hist, ¬ Targets cells f.2 i) →
      ((afterFetches cells hist).tryGet t ix).1 = t.fromSql c.2.1 c.2.2) ∧
    (∀ i, Targets cells ix i → (∃ f ∈ hist, Targets cells f.2 i) →
      ((afterFetches cells hist).tryGet t ix).1 = .err (secondFetch ix)) ∧
    ((∀ i, ¬ Targets cells ix i) → ∃ e, ((afterFetches cells hist).tryGet t ix).1 = .err e) := by
  obtain ⟨_, h1, h2, h3⟩ := take_spec hn (left_of_history cells hn hist) ix
  refine ⟨fun i c hi hc hf => ?_, fun i hi hf => ?_, fun h => ?_⟩
  · have := h1 i c hi hc (fun ⟨f, hm, ht⟩ => hf f hm ht)
    simp only [RawRow.tryGet, this, Res.bind_ok]
  · have := h2 i hi hf
    simp only [RawRow.tryGet, this]
    rfl
  · obtain ⟨e, he⟩ := h3 hix h
    exact ⟨e, by simp only [RawRow.tryGet, he]; rfl⟩

/-- The negation of the missing part: one column, index 1, `try_get` panics although it promises not to. -/
theorem C53_index_false :
    ((RawRow.ofCells [(ch! "a", .uint8, .uint8 7#8)]).tryGet (.prim .u8) (.at 1)).1 = .panic := rfl

/-- Fetching leaves the number of cells alone, and `get` panics exactly when `try_get` does not return a value. -/
theorem C53_length_and_get (cells : List Cell) (hn : ColumnsNamed cells) (hist : List (RT × CellIndex)) (t : RT) (ix : CellIndex) :
    (afterFetches cells hist).length = cells.length ∧
    (((afterFetches cells hist).get t ix).1 = .panic ↔ ∀ x, ((afterFetches cells hist).tryGet t ix).1 ≠ .ok x) ∧
    ∀ x, ((afterFetches cells hist).tryGet t ix).1 = .ok x → ((afterFetches cells hist).get t ix).1 = .ok x := by
  refine ⟨(left_of_history cells hn hist).1, ?_, ?_⟩
  · simp only [RawRow.get]
    cases ((afterFetches cells hist).tryGet t ix).1 with
    | ok x => exact ⟨fun h => (by cases h), fun h => absurd rfl (h x)⟩
    | err e => exact ⟨fun _ x h => (by cases h), fun _ => rfl⟩
    | panic => exact ⟨fun _ x h => (by cases h), fun _ => rfl⟩
  · intro x h
    simp only [RawRow.get, h]

/-- Three columns: fetch by name, by index and by name again. -/
example : ColumnsNamed [(ch! "a", .uint8, .uint8 7#8), (ch! "b", .string, .string [104#8, 105#8]), (ch! "c", .uint8, .uint8 9#8)] ∧
    ((afterFetches [(ch! "a", .uint8, .uint8 7#8), (ch! "b", .string, .string [104#8, 105#8]), (ch! "c", .uint8, .uint8 9#8)]
      [(.prim .u8, .named (ch! "a")), (.prim .u16, .at 2)]).tryGet .string (.named (ch! "b"))).1 = .ok (ch! "hi") ∧
    ((afterFetches [(ch! "a", .uint8, .uint8 7#8), (ch! "b", .string, .string [104#8, 105#8]), (ch! "c", .uint8, .uint8 9#8)]
      [(.prim .u8, .named (ch! "a")), (.prim .u16, .at 2)]).tryGet (.prim .u8) (.at 2)).1 = .err .doubleFetch := by
  refine ⟨⟨by simp, ?_⟩, rfl, rfl⟩
  intro i j c d hi hj h
  match i, j with
  | 0, 0 => rfl
  | 1, 1 => rfl
  | 2, 2 => rfl
  | 0, 1 | 0, 2 | 1, 0 | 1, 2 | 2, 0 | 2, 1 => cases hi; cases hj; exact absurd h (by decide)
  | _, j + 3 => cases hj
  | i + 3, _ => cases hi

/-! #### Setting and sending -/

/-- Setting a cell: the cell of that name (or a new one at the end) then holds the converted value, and every
other cell is as before. An unusable name is refused by a panic only when it is the empty one (next theorem). -/
theorem C53_set (t : RT) (r : RawRow) (name : Str) (ty : Option Ty) (x : t.den) (T : Ty) (v : Value)
    (hv : t.toSql ty x = .ok v) (hT : ty = some T ∨ (ty = none ∧ v.guessType = .ok T)) (hname : name ≠ []) :
    ∃ r', r.trySetTyped t name ty x = (.ok (), r') ∧ (r'.take (.named name)).1 = .ok (T, v) ∧
      (∀ (i : Nat) (c : Option Cell), r[i]? = some c → (∀ d, c = some d → d.1 ≠ name) → r'[i]? = some c) ∧
      (r'.length = r.length ∨ (r'.length = r.length + 1 ∧ ∀ c, some c ∈ r → c.1 ≠ name)) := by
  have hty : setType ty v = Res.ok T := by
    rcases hT with rfl | ⟨rfl, h⟩
    · rfl
    · exact h
  cases hf : r.names.findIdx? (fun n => n == name) with
  | some i =>
    obtain ⟨y, hy, hyn⟩ := findIdx_some hf
    have hyn : y = name := by simpa using hyn
    subst hyn
    have hy0 := hy
    rw [names_get] at hy
    have hri : ∃ c, r[i]? = some (some c) ∧ c.1 = y := by
      cases h : r[i]? with
      | none => rw [h] at hy; cases hy
      | some o =>
        cases o with
        | none => rw [h] at hy; cases hy; exact absurd rfl hname
        | some c => rw [h] at hy; cases hy; exact ⟨c, rfl, rfl⟩
    obtain ⟨c, hc, hcn⟩ := hri
    have hi : i < r.length := (List.getElem?_eq_some_iff.mp hc).1
    have hnames : RawRow.names (r.set i (some (c.1, T, v))) = r.names := by
      apply List.ext_getElem?
      intro j
      rw [names_get, names_get]
      by_cases e : i = j
      · subst e
        rw [List.getElem?_set_self hi, hc]; rfl
      · rw [List.getElem?_set_ne e]
    refine ⟨r.set i (some (c.1, T, v)), ?_, ?_, ?_, .inl (List.length_set ..)⟩
    · simp only [RawRow.trySetTyped, hv, hty, hf, hc]
    · simp only [RawRow.take, CellIndex.find, hnames, hf, List.getElem?_set_self hi]
    · intro j d hd hne
      by_cases e : i = j
      · subst e
        rw [hc] at hd; cases hd
        exact absurd hcn (hne c rfl)
      · rw [List.getElem?_set_ne e]; exact hd
  | none =>
    have hno : ∀ c, some c ∈ r → c.1 ≠ name := by
      intro c hc hcn
      obtain ⟨j, hj⟩ := List.getElem?_of_mem hc
      have h2 : r.names[j]? = some c.1 := by rw [names_get, hj]; rfl
      have := findIdx_none hf h2
      rw [hcn] at this
      exact absurd this (by simp)
    refine ⟨r ++ [some (name, T, v)], ?_, ?_, ?_, .inr ⟨by simp, hno⟩⟩
    · simp only [RawRow.trySetTyped, hv, hty, hf]
    · have hn2 : RawRow.names (r ++ [some (name, T, v)]) = r.names ++ [name] := by
        simp only [RawRow.names, List.map_append]; rfl
      have hf2 : (r.names ++ [name]).findIdx? (fun n => n == name) = some r.length := by
        rw [List.findIdx?_append, hf]
        simp [RawRow.names, List.findIdx?_cons]
      simp only [RawRow.take, CellIndex.find, hn2, hf2, List.getElem?_concat_length]
    · intro j d hd _
      have hj : j < r.length := (List.getElem?_eq_some_iff.mp hd).1
      rw [List.getElem?_append_left hj]; exact hd

example : (RawRow.trySetTyped (.prim .u8) (RawRow.ofCells [(ch! "a", .uint8, .uint8 7#8)]) (ch! "b") none (8#8 : BitVec 8)).1 = .ok () ∧
    ((RawRow.trySetTyped (.prim .u8) (RawRow.ofCells [(ch! "a", .uint8, .uint8 7#8)]) (ch! "b") none (8#8 : BitVec 8)).2.tryGet (.prim .u8) (.at 1)).1
      = .ok (8#8 : BitVec 8) := ⟨rfl, rfl⟩

/-- With the empty name, setting panics once any cell has been fetched. -/
theorem C53_set_empty_name :
    (RawRow.trySetTyped (.prim .u8) [none] [] none (8#8 : BitVec 8)).1 = .panic := rfl

/-- A raw row that was not fetched from is sent as it is: names and values in order. One that was fetched from
panics (as its message says). -/
theorem C53_serialize (cells : List Cell) (hn : ColumnsNamed cells) (hist : List (RT × CellIndex)) :
    ((∀ f ∈ hist, ∀ i, ¬ Targets cells f.2 i) →
      (afterFetches cells hist).serialize = .ok (cells.map (fun c => (c.1, c.2.2)))) ∧
    (∀ f ∈ hist, ∀ i, Targets cells f.2 i → (afterFetches cells hist).serialize = .panic) := by
  obtain ⟨h1, h2⟩ := left_of_history cells hn hist
  constructor
  · intro h
    have e : afterFetches cells hist = cells.map some := by
      apply List.ext_getElem?
      intro i
      rw [List.getElem?_map]
      cases hc : cells[i]? with
      | none =>
        rw [List.getElem?_eq_none_iff] at hc
        rw [Option.map_none, List.getElem?_eq_none_iff]
        omega
      | some c => exact (h2 i c hc).2 (fun ⟨f, hf, ht⟩ => h f hf i ht)
    rw [e]
    have : ∀ l : List Cell, RawRow.serialize (l.map some) = .ok (l.map (fun c => (c.1, c.2.2))) := by
      intro l
      induction l with
      | nil => rfl
      | cons c l ih =>
        simp only [RawRow.serialize] at ih
        simp only [RawRow.serialize, List.map_cons, Res.mapL, ih, Res.bind_ok]
    exact this cells
  · intro f hf i ht
    obtain ⟨c, hc, _⟩ := ht
    have hr := (h2 i c hc).1 ⟨f, hf, ⟨c, hc, ‹_›⟩⟩
    have hm : none ∈ afterFetches cells hist := List.mem_of_getElem? hr
    have : ∀ l : RawRow, none ∈ l → l.serialize = .panic := by
      intro l
      induction l with
      | nil => intro h; cases h
      | cons o l ih =>
        intro h
        cases o with
        | none => rfl
        | some c =>
          have h' : none ∈ l := by
            rcases List.mem_cons.mp h with h | h
            · cases h
            · exact h
          have := ih h'
          simp only [RawRow.serialize] at this
          simp only [RawRow.serialize, Res.mapL, this, Res.bind_ok]
          rfl
    exact this _ hm

/-! ### C56: errors name their column -/

/-- The annotation, for every error: a conversion error and an unexpected-type error get the column and keep
message and type; every other error is unchanged; and no later annotation changes the result. -/
theorem C56_annotate (e : Err) (name outer : Str) :
    (∀ m, e = .deserialize m → e.withColumn name = .deserializeWithColumn name m) ∧
    (∀ t, e = .unexpectedType t → e.withColumn name = .unexpectedTypeWithColumn name t) ∧
    ((∀ m, e ≠ .deserialize m) → (∀ t, e ≠ .unexpectedType t) → e.withColumn name = e) ∧
    (e.withColumn name).withColumn outer = e.withColumn name := by
  cases e <;> simp [Err.withColumn]

example : (Err.deserialize (ch! "bad")).withColumn (ch! "price") = .deserializeWithColumn (ch! "price") (ch! "bad") := rfl

end Klick
