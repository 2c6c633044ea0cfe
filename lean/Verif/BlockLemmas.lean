import Verif.Spec.Block
import Verif.CodecMain
import Verif.CodecSafe
import Verif.TypeTextMain
/-
Lemmas about insertion-ordered maps and blocks.
-/
namespace Klick
open Spec

namespace IMap
variable {α : Type}

theorem get_cons (m : IMap α) (k k' : Str) (v : α) :
    IMap.get ((k', v) :: m) k = if k' = k then some v else IMap.get m k := by
  unfold get
  by_cases h : k' = k
  · simp [h]
  · have : (k' == k) = false := by simpa using h
    simp [List.find?, this, h]

theorem get_of_mem {m : IMap α} (hn : m.keys.Nodup) {k : Str} {v : α} (h : (k, v) ∈ m) :
    m.get k = some v := by
  induction m with
  | nil => simp at h
  | cons e m ih =>
    obtain ⟨k', v'⟩ := e
    rw [get_cons]
    simp only [keys, List.map_cons, List.nodup_cons] at hn
    rw [List.mem_cons] at h
    rcases h with h | h
    · cases h; rw [if_pos rfl]
    · rw [if_neg]
      · exact ih hn.2 h
      · rintro rfl
        exact hn.1 (List.mem_map.mpr ⟨_, h, rfl⟩)

theorem mem_of_get {m : IMap α} {k : Str} {v : α} (h : m.get k = some v) : (k, v) ∈ m := by
  induction m with
  | nil => simp [get] at h
  | cons e m ih =>
    obtain ⟨k', v'⟩ := e
    rw [get_cons] at h
    split at h
    · rename_i hk; cases h; subst hk; simp
    · exact List.mem_cons_of_mem _ (ih h)

theorem get_none {m : IMap α} {k : Str} : m.get k = none ↔ k ∉ m.keys := by
  induction m with
  | nil => simp [get, keys]
  | cons e m ih =>
    obtain ⟨k', v'⟩ := e
    rw [get_cons]
    simp only [keys, List.map_cons, List.mem_cons, not_or]
    split
    · rename_i h; simp [h]
    · rename_i h
      rw [ih]
      simp only [keys]
      exact ⟨fun h' => ⟨fun hc => h hc.symm, h'⟩, fun h' => h'.2⟩

theorem findIdx_some {m : IMap α} {k : Str} {i : Nat} (h : m.findIdx? (fun e => e.1 == k) = some i) :
    ∃ l v r, m = l ++ (k, v) :: r ∧ l.length = i ∧ k ∉ keys l := by
  induction m generalizing i with
  | nil => simp at h
  | cons e m ih =>
    obtain ⟨k', v⟩ := e
    rw [List.findIdx?_cons] at h
    split at h
    · rename_i hk
      simp at hk h
      subst hk; subst h
      exact ⟨[], v, m, rfl, rfl, by simp [keys]⟩
    · rename_i hk
      rw [Option.map_eq_some_iff] at h
      obtain ⟨j, hj, rfl⟩ := h
      obtain ⟨l, w, r, h1, h2, h3⟩ := ih hj
      refine ⟨(k', v) :: l, w, r, by simp [h1], by simp [h2], ?_⟩
      simp only [keys, List.map_cons, List.mem_cons, not_or]
      refine ⟨fun hc => ?_, h3⟩
      subst hc
      simp at hk

/-- `swap_remove` returns the entry's value and leaves exactly the other entries. -/
theorem swapRemove_spec {m : IMap α} (hn : m.keys.Nodup) (k : Str) :
    (m.swapRemove k).1 = m.get k ∧ (m.swapRemove k).2.keys.Nodup ∧
      ∀ k', k' ≠ k → (m.swapRemove k).2.get k' = m.get k' := by
  unfold swapRemove
  cases h : m.findIdx? (fun e => e.1 == k) with
  | none =>
    refine ⟨?_, hn, fun _ _ => rfl⟩
    rw [List.findIdx?_eq_none_iff] at h
    symm
    rw [get_none]
    intro hc
    simp only [keys, List.mem_map] at hc
    obtain ⟨e, he, hk⟩ := hc
    have := h e he
    simp [hk] at this
  | some i =>
    obtain ⟨l, v, r, hm, hl, hnl⟩ := findIdx_some h
    dsimp only
    refine ⟨rfl, ?_⟩
    have hrest : m.swapRest i = (if r = [] then l else l ++ (r.getLast?.toList ++ r.dropLast)) := by
      unfold swapRest
      rcases List.eq_nil_or_concat r with hr | ⟨r', x, hr⟩
      · subst hr
        have : i + 1 = m.length := by rw [hm]; simp; omega
        rw [if_pos this, if_pos rfl, hm]
        exact List.dropLast_concat
      · have hr' : r = r' ++ [x] := by simpa using hr
        have hm' : m = (l ++ (k, v) :: r') ++ [x] := by rw [hm, hr']; simp
        have : ¬ i + 1 = m.length := by rw [hm']; simp; omega
        rw [if_neg this, if_neg (by rw [hr']; simp), hr']
        have e1 : m.getLast? = some x := by rw [hm']; exact List.getLast?_concat
        have e2 : m.dropLast = l ++ (k, v) :: r' := by rw [hm']; exact List.dropLast_concat
        rw [e1, e2]
        dsimp only
        rw [← hl, List.set_append_right _ _ (Nat.le_refl _)]
        simp
    rw [hrest]
    have hperm : ∀ e : Str × α, e ∈ (if r = [] then l else l ++ (r.getLast?.toList ++ r.dropLast)) ↔
        e ∈ l ∨ e ∈ r := by
      intro e
      rcases List.eq_nil_or_concat r with hr | ⟨r', x, hr⟩
      · subst hr; simp
      · have hr' : r = r' ++ [x] := by simpa using hr
        rw [if_neg (by rw [hr']; simp), hr']
        simp only [List.getLast?_concat, List.dropLast_concat, Option.toList, List.mem_append,
          List.mem_cons, List.not_mem_nil, or_false]
        constructor
        · rintro (h | h | h)
          · exact .inl h
          · exact .inr (.inr h)
          · exact .inr (.inl h)
        · rintro (h | h | h)
          · exact .inl h
          · exact .inr (.inr h)
          · exact .inr (.inl h)
    have hnod : (if r = [] then l else l ++ (r.getLast?.toList ++ r.dropLast)).keys.Nodup := by
      have hn' : (keys l ++ keys r).Nodup := by
        rw [hm] at hn
        simp only [keys, List.map_append, List.map_cons] at hn ⊢
        exact (List.nodup_cons.mp (List.perm_middle.nodup hn)).2
      rcases List.eq_nil_or_concat r with hr | ⟨r', x, hr⟩
      · subst hr; simpa [keys] using hn'
      · have hr' : r = r' ++ [x] := by simpa using hr
        rw [if_neg (by rw [hr']; simp)]
        rw [hr'] at hn' ⊢
        simp only [keys, List.map_append, List.map_cons, List.map_nil, List.getLast?_concat,
          List.dropLast_concat, Option.toList, List.cons_append, List.nil_append] at hn' ⊢
        refine List.Perm.nodup ?_ hn'
        exact List.Perm.append_left _ List.perm_append_comm
    refine ⟨hnod, ?_⟩
    intro k' hk'
    cases hg : m.get k' with
    | none =>
      rw [get_none] at hg ⊢
      intro hc
      apply hg
      simp only [keys, List.mem_map] at hc ⊢
      obtain ⟨e, he, rfl⟩ := hc
      refine ⟨e, ?_, rfl⟩
      rw [hm]
      rcases (hperm e).mp he with he | he
      · simp [he]
      · simp [he]
    | some w =>
      have := mem_of_get hg
      rw [hm] at this
      apply get_of_mem hnod
      rw [hperm]
      rw [List.mem_append, List.mem_cons] at this
      rcases this with h | h | h
      · exact .inl h
      · cases h; exact absurd rfl hk'
      · exact .inr h

theorem insert_new {m : IMap α} {k : Str} (h : k ∉ m.keys) (v : α) : m.insert k v = m ++ [(k, v)] := by
  unfold insert
  rw [if_neg]
  rw [List.any_eq_true]
  rintro ⟨e, he, hk⟩
  simp at hk
  exact h (List.mem_map.mpr ⟨e, he, hk⟩)

end IMap

theorem filterMap_congr' {α β : Type} {f g : α → Option β} {l : List α} (h : ∀ a ∈ l, f a = g a) :
    l.filterMap f = l.filterMap g := by
  induction l with
  | nil => rfl
  | cons x l ih =>
    rw [List.filterMap_cons, List.filterMap_cons, h x (by simp), ih (fun a ha => h a (by simp [ha]))]

/-- The joined columns: each type whose name has data, in order. -/
theorem joinColumns_eq (types : IMap Ty) (data : IMap (List Value)) (ht : types.keys.Nodup)
    (hd : data.keys.Nodup) :
    joinColumns types data =
      types.filterMap (fun e => (data.get e.1).map (fun vs => (e.1, e.2, vs))) := by
  induction types generalizing data with
  | nil => rfl
  | cons e types ih =>
    obtain ⟨k, t⟩ := e
    simp only [IMap.keys, List.map_cons, List.nodup_cons] at ht
    obtain ⟨h1, h2, h3⟩ := IMap.swapRemove_spec hd k
    have hrest : joinColumns types (data.swapRemove k).2 =
        types.filterMap (fun e => (data.get e.1).map (fun vs => (e.1, e.2, vs))) := by
      rw [ih _ ht.2 h2]
      apply filterMap_congr'
      intro e he
      have : e.1 ≠ k := by
        rintro rfl
        exact ht.1 (List.mem_map.mpr ⟨e, he, rfl⟩)
      rw [h3 _ this]
    rw [List.filterMap_cons]
    unfold joinColumns
    cases hs : data.swapRemove k with
    | mk o rest =>
      rw [hs] at h1 hrest
      simp only at h1 hrest
      subst h1
      cases hg : data.get k with
      | none => simp [hrest]
      | some vs => simp [hrest]

/-! ### block information -/

theorem readInfo_write (i : BlockInfo) (rest : Bytes) :
    readInfo (i.write ++ rest) = .ok ({ i with isOverflows := true }, rest) := by
  unfold readInfo
  have hl : ∃ f, (i.write ++ rest).length + 1 = f + 3 := by
    refine ⟨(i.write ++ rest).length - 2, ?_⟩
    have : 2 ≤ (i.write ++ rest).length := by
      have h : i.write.length = 8 := by
        unfold BlockInfo.write
        simp [le]
        rfl
      simp; omega
    omega
  obtain ⟨f, hf⟩ := hl
  rw [hf]
  have e : i.write ++ rest = writeVarUint 1 ++ ((if i.isOverflows then 1#8 else 2#8) ::
      (writeVarUint 2 ++ (le 4 i.bucketNum.toNat ++ (writeVarUint 0 ++ rest)))) := by
    unfold BlockInfo.write; simp
  rw [e]
  unfold readInfoLoop
  rw [Rd.bind_run_ok (readVarUint_write 1 (by decide) _), if_neg (by decide), if_pos rfl]
  rw [Rd.bind_run_ok (x := readU8) (a := (if i.isOverflows then 1#8 else 2#8))
    (s' := writeVarUint 2 ++ (le 4 i.bucketNum.toNat ++ (writeVarUint 0 ++ rest))) rfl]
  unfold readInfoLoop
  rw [Rd.bind_run_ok (readVarUint_write 2 (by decide) _), if_neg (by decide), if_neg (by decide),
    if_pos rfl, Rd.bind_run_ok (readLe_le (n := 4) (w := 32) rfl i.bucketNum _)]
  unfold readInfoLoop
  rw [Rd.bind_run_ok (readVarUint_write 0 (by decide) _), if_pos rfl]
  simp only [Rd.pure_apply]
  have : ((if i.isOverflows = true then 1#8 else 2#8) != 0#8) = true := by
    cases i.isOverflows <;> rfl
  rw [this]

/-! ### columns -/

/-- One column that can be written and read back in a block of `rows` rows. -/
structure ColumnOk (cfg : Cfg) (rows : Nat) (c : Str × Ty × List Value) : Prop extends
    Sendable cfg c.1 c.2.1 c.2.2 where
  len : c.2.2.length = rows

theorem Rd.lift_run_ok {α : Type} {r : Res α} {a : α} {s : Bytes} (h : r = .ok a) :
    (Rd.lift r) s = .ok (a, s) := by
  unfold Rd.lift; rw [h]

theorem readColumn_write {cfg : Cfg} {rows : Nat} {name : Str} {t : Ty} {vs : List Value}
    (h : ColumnOk cfg rows (name, t, vs)) :
    ∃ body, serCol cfg t vs = .ok body ∧
      ∀ (b : Block) (rest : Bytes), name ∉ b.columnTypes.keys → name ∉ b.columnData.keys →
        readColumn cfg rows b (writeString (utf8Encode name) ++ writeString (utf8Encode t.display) ++
          (if rows > 0 then serPrefix t ++ body else []) ++ rest) =
        .ok ({ b with columnTypes := b.columnTypes ++ [(name, t)],
                      columnData := b.columnData ++ [(name, vs.map (canon t))] }, rest) := by
  obtain ⟨body, hs, hd⟩ := col_rt cfg t h.wf vs h.storable h.fits
  refine ⟨body, hs, ?_⟩
  intro b rest h1 h2
  unfold readColumn
  rw [List.append_assoc, List.append_assoc, Rd.bind_run_ok (readUtf8String_write _ _ h.name)]
  rw [Rd.bind_run_ok (readUtf8String_write _ _ h.textLen)]
  rw [Rd.bind_run_ok (Rd.lift_run_ok (rendered cfg t h.text).parse)]
  by_cases hr : rows > 0
  · rw [if_pos hr, if_pos hr]
    have hp := prefix_rt cfg t h.wf (body ++ rest)
    have hd' := hd rest
    have hlen : vs.length = rows := h.len
    rw [hlen] at hd'
    have : (dePrefix t >>= fun _ => deCol cfg t rows) (serPrefix t ++ body ++ rest)
        = .ok (vs.map (canon t), rest) := by
      rw [List.append_assoc, Rd.bind_run_ok hp, hd']
    rw [Rd.bind_run_ok this]
    simp only [Rd.pure_apply, IMap.insert_new h1, IMap.insert_new h2]
  · rw [if_neg hr, if_neg hr]
    have hlen : vs.length = rows := h.len
    have : vs = [] := List.length_eq_zero_iff.mp (by omega)
    subst this
    rw [Rd.bind_run_ok (Rd.pure_apply _ _)]
    simp only [Rd.pure_apply, IMap.insert_new h1, IMap.insert_new h2, List.nil_append, List.map_nil]

theorem writeColumns_ok {cfg : Cfg} {rows : Nat} (cols : List (Str × Ty × List Value))
    (h : ∀ c ∈ cols, ColumnOk cfg rows c) :
    ∃ bytes, writeColumns cfg rows cols = (bytes, .ok ()) ∧
      ∀ (b : Block) (rest : Bytes),
        (b.columnTypes.keys ++ cols.map (·.1)).Nodup → (b.columnData.keys ++ cols.map (·.1)).Nodup →
        readColumns cfg rows cols.length b (bytes ++ rest) =
          .ok ({ b with columnTypes := b.columnTypes ++ cols.map (fun c => (c.1, c.2.1)),
                        columnData := b.columnData ++ cols.map (fun c => (c.1, c.2.2.map (canon c.2.1))) },
            rest) := by
  induction cols with
  | nil => exact ⟨[], rfl, fun b rest _ _ => by simp [readColumns]⟩
  | cons c cols ih =>
    obtain ⟨name, t, vs⟩ := c
    have hc := h (name, t, vs) (by simp)
    obtain ⟨body, hb, hrd⟩ := readColumn_write hc
    obtain ⟨bytes, hw, hr⟩ := ih (fun c hc => h c (by simp [hc]))
    refine ⟨writeString (utf8Encode name) ++ writeString (utf8Encode t.display) ++
      (if rows > 0 then serPrefix t ++ body else []) ++ bytes, ?_, ?_⟩
    · unfold writeColumns
      have hlen : vs.length = rows := hc.len
      rw [if_neg (by simp [hlen])]
      by_cases hr0 : rows > 0
      · rw [if_pos hr0, if_pos hr0, hb]
        simp [hw]
      · rw [if_neg hr0, if_neg hr0]
        simp [hw]
    · intro b rest h1 h2
      simp only [List.length_cons, readColumns]
      simp only [List.map_cons] at h1 h2
      have n1 : name ∉ b.columnTypes.keys := by
        intro hm
        rw [List.nodup_append] at h1
        exact h1.2.2 _ hm _ (by simp) rfl
      have n2 : name ∉ b.columnData.keys := by
        intro hm
        rw [List.nodup_append] at h2
        exact h2.2.2 _ hm _ (by simp) rfl
      have := hrd b (bytes ++ rest) n1 n2
      rw [← List.append_assoc] at this
      rw [Rd.bind_run_ok this, hr]
      · simp
      · simpa [IMap.keys] using h1
      · simpa [IMap.keys] using h2

/-! ### incomplete blocks -/

theorem deSized1_empty {cfg : Cfg} {t : Ty} {r : Value × Bytes} : deSized1 cfg t [] ≠ .ok r := by
  unfold deSized1
  cases t <;> first
    | (intro h; cases h; done)
    | skip
  all_goals
    intro h
    simp only at h
    repeat (first | (cases h; done) | split at h)

theorem rep_empty {α : Type} {x : Rd α} {n : Nat} (hn : 0 < n) (h : ∀ r, x [] ≠ .ok r)
    {r : List α × Bytes} : Rd.rep n x [] ≠ .ok r := by
  cases n with
  | zero => omega
  | succ n =>
    intro hc
    obtain ⟨r1, r2⟩ := r
    simp only [Rd.rep, Rd.bind_eq_ok] at hc
    obtain ⟨a, s, h1, _⟩ := hc
    exact h _ h1

theorem readU64_empty {r : Nat × Bytes} : readU64 [] ≠ .ok r := by intro h; cases h

theorem guardRows_ok' {α : Type} {n : Nat} {body : Rd α} {s : Bytes} {r : α × Bytes}
    (h : guardRows n body s = .ok r) : body s = .ok r := (guardRows_eq_ok h).2

theorem deArr_empty {α : Type} {cfg : Cfg} {inner : Nat → Rd (List α)} {n : Nat} (hn : 0 < n)
    {r : List (List α) × Bytes} : deArr cfg inner n [] ≠ .ok r := by
  intro h
  unfold deArr at h
  rw [if_neg (by omega)] at h
  obtain ⟨r1, r2⟩ := r
  rw [Rd.bind_eq_ok] at h
  obtain ⟨a, s, h1, _⟩ := h
  exact rep_empty hn (fun _ => readU64_empty) h1

theorem dePts_empty {n : Nat} (hn : 0 < n) {r : List Pt × Bytes} : dePts n [] ≠ .ok r := by
  intro h
  have h := guardRows_ok' h
  obtain ⟨r1, r2⟩ := r
  rw [Rd.bind_eq_ok] at h
  obtain ⟨a, s, h1, _⟩ := h
  exact rep_empty hn (fun r h => by cases h) h1

theorem deLc_empty {dict : Nat → Rd (List Value)} {nullable : Bool} {n : Nat} (hn : 0 < n)
    {r : List Value × Bytes} : deLc dict nullable n [] ≠ .ok r := by
  intro h
  obtain ⟨r1, r2⟩ := r
  unfold deLc lcLoop at h
  rw [if_neg (by omega), Rd.bind_eq_ok] at h
  obtain ⟨a, s, h1, _⟩ := h
  exact readU64_empty h1

mutual
theorem deCol_empty (cfg : Cfg) (n : Nat) (hn : 0 < n) : ∀ (t : Ty) (r : List Value × Bytes),
    deCol cfg t n [] = .ok r → occupies t = false ∧ r.2 = []
  | .string, r, h => by
    refine absurd (guardRows_ok' h) (rep_empty hn ?_)
    intro r hc
    obtain ⟨r1, r2⟩ := r
    rw [Rd.bind_eq_ok] at hc
    obtain ⟨a, s, h1, _⟩ := hc
    cases h1
  | .fixedString k, r, h => by
    have h := guardRows_ok' h
    cases k with
    | succ k =>
      refine absurd h (rep_empty hn ?_)
      intro r hc
      obtain ⟨r1, r2⟩ := r
      split at hc
      · cases hc
      rw [Rd.bind_eq_ok] at hc
      obtain ⟨a, s, h1, _⟩ := hc
      cases h1
    | zero =>
      refine ⟨rfl, ?_⟩
      unfold deFixed at h
      rw [if_neg (show ¬ 0 > maxAlloc by unfold maxAlloc; omega)] at h
      have : ∀ m, ∃ vs, Rd.rep m (readExact 0 >>= fun b => pure (Value.string (cutAtNul b))) []
          = .ok (vs, []) := by
        intro m
        induction m with
        | zero => exact ⟨[], rfl⟩
        | succ m ih =>
          obtain ⟨vs, ih⟩ := ih
          refine ⟨Value.string (cutAtNul []) :: vs, ?_⟩
          simp only [Rd.rep]
          rw [Rd.bind_run_ok (a := Value.string (cutAtNul [])) (s' := []) rfl, Rd.bind_run_ok ih]
          rfl
      obtain ⟨vs, hv⟩ := this n
      rw [hv] at h
      cases h; rfl
  | .array t, r, h => by
    obtain ⟨r1, r2⟩ := r
    have h := guardRows_ok' h
    rw [Rd.bind_eq_ok] at h
    obtain ⟨a, s, h1, _⟩ := h
    exact absurd h1 (deArr_empty hn)
  | .tuple ts, r, h => by
    obtain ⟨r1, r2⟩ := r
    have h := guardRows_ok' h
    rw [Rd.bind_eq_ok] at h
    obtain ⟨a, s, h1, h2⟩ := h
    have := deCols_empty cfg n hn ts _ _ h1
    cases h2
    exact this
  | .point, r, h => by
    obtain ⟨r1, r2⟩ := r
    simp only [deCol, Rd.bind_eq_ok] at h
    obtain ⟨a, s, h1, _⟩ := h
    exact absurd h1 (dePts_empty hn)
  | .ring, r, h => by
    obtain ⟨r1, r2⟩ := r
    simp only [deCol, Rd.bind_eq_ok] at h
    obtain ⟨a, s, h1, _⟩ := h
    exact absurd (guardRows_ok' h1) (deArr_empty hn)
  | .polygon, r, h => by
    obtain ⟨r1, r2⟩ := r
    simp only [deCol, Rd.bind_eq_ok] at h
    obtain ⟨a, s, h1, _⟩ := h
    exact absurd (guardRows_ok' h1) (deArr_empty hn)
  | .multiPolygon, r, h => by
    obtain ⟨r1, r2⟩ := r
    simp only [deCol, Rd.bind_eq_ok] at h
    obtain ⟨a, s, h1, _⟩ := h
    exact absurd (guardRows_ok' h1) (deArr_empty hn)
  | .nullable t, r, h => by
    obtain ⟨r1, r2⟩ := r
    have h := guardRows_ok' h
    rw [Rd.bind_eq_ok] at h
    obtain ⟨a, s, h1, _⟩ := h
    unfold readExact at h1
    rw [if_neg (by simp; omega)] at h1
    cases h1
  | .map k v, r, h => by
    obtain ⟨r1, r2⟩ := r
    have h := guardRows_ok' h
    unfold deMap at h
    rw [if_neg (by omega), Rd.bind_eq_ok] at h
    obtain ⟨a, s, h1, _⟩ := h
    exact absurd h1 (rep_empty hn (fun _ => readU64_empty))
  | .lowCardinality t, r, h => by
    cases t <;> exact absurd (guardRows_ok' h) (deLc_empty hn)
  | .int8, r, h => absurd (guardRows_ok' h) (rep_empty hn (fun _ => deSized1_empty))
  | .int16, r, h => absurd (guardRows_ok' h) (rep_empty hn (fun _ => deSized1_empty))
  | .int32, r, h => absurd (guardRows_ok' h) (rep_empty hn (fun _ => deSized1_empty))
  | .int64, r, h => absurd (guardRows_ok' h) (rep_empty hn (fun _ => deSized1_empty))
  | .int128, r, h => absurd (guardRows_ok' h) (rep_empty hn (fun _ => deSized1_empty))
  | .int256, r, h => absurd (guardRows_ok' h) (rep_empty hn (fun _ => deSized1_empty))
  | .uint8, r, h => absurd (guardRows_ok' h) (rep_empty hn (fun _ => deSized1_empty))
  | .uint16, r, h => absurd (guardRows_ok' h) (rep_empty hn (fun _ => deSized1_empty))
  | .uint32, r, h => absurd (guardRows_ok' h) (rep_empty hn (fun _ => deSized1_empty))
  | .uint64, r, h => absurd (guardRows_ok' h) (rep_empty hn (fun _ => deSized1_empty))
  | .uint128, r, h => absurd (guardRows_ok' h) (rep_empty hn (fun _ => deSized1_empty))
  | .uint256, r, h => absurd (guardRows_ok' h) (rep_empty hn (fun _ => deSized1_empty))
  | .float32, r, h => absurd (guardRows_ok' h) (rep_empty hn (fun _ => deSized1_empty))
  | .float64, r, h => absurd (guardRows_ok' h) (rep_empty hn (fun _ => deSized1_empty))
  | .bfloat16, r, h => absurd (guardRows_ok' h) (rep_empty hn (fun _ => deSized1_empty))
  | .decimal32 _, r, h => absurd (guardRows_ok' h) (rep_empty hn (fun _ => deSized1_empty))
  | .decimal64 _, r, h => absurd (guardRows_ok' h) (rep_empty hn (fun _ => deSized1_empty))
  | .decimal128 _, r, h => absurd (guardRows_ok' h) (rep_empty hn (fun _ => deSized1_empty))
  | .decimal256 _, r, h => absurd (guardRows_ok' h) (rep_empty hn (fun _ => deSized1_empty))
  | .uuid, r, h => absurd (guardRows_ok' h) (rep_empty hn (fun _ => deSized1_empty))
  | .date, r, h => absurd (guardRows_ok' h) (rep_empty hn (fun _ => deSized1_empty))
  | .dateTime _, r, h => absurd (guardRows_ok' h) (rep_empty hn (fun _ => deSized1_empty))
  | .dateTime64 _ _, r, h => absurd (guardRows_ok' h) (rep_empty hn (fun _ => deSized1_empty))
  | .ipv4, r, h => absurd (guardRows_ok' h) (rep_empty hn (fun _ => deSized1_empty))
  | .ipv6, r, h => absurd (guardRows_ok' h) (rep_empty hn (fun _ => deSized1_empty))
  | .enum8 _, r, h => absurd (guardRows_ok' h) (rep_empty hn (fun _ => deSized1_empty))
  | .enum16 _, r, h => absurd (guardRows_ok' h) (rep_empty hn (fun _ => deSized1_empty))
theorem deCols_empty (cfg : Cfg) (n : Nat) (hn : 0 < n) : ∀ (ts : List Ty) (acc : List (List Value))
    (r : List (List Value) × Bytes), deCols cfg ts n acc [] = .ok r → occupiesAny ts = false ∧ r.2 = []
  | [], acc, r, h => by cases h; exact ⟨rfl, rfl⟩
  | t :: ts, acc, r, h => by
    obtain ⟨r1, r2⟩ := r
    simp only [deCols, Rd.bind_eq_ok] at h
    obtain ⟨vs, s, h1, acc', s', h2, h3⟩ := h
    have i1 := deCol_empty cfg n hn t _ h1
    obtain ⟨_, e⟩ := Rd.lift_eq_ok h2
    simp only at i1
    rw [← e, i1.2] at h3
    have i2 := deCols_empty cfg n hn ts _ _ h3
    exact ⟨by simp [occupiesAny, i1.1, i2.1], i2.2⟩
end

mutual
theorem dePrefix_empty : ∀ (t : Ty) (r : Unit × Bytes), dePrefix t [] = .ok r → r.2 = []
  | .array t, r, h => dePrefix_empty t r h
  | .tuple ts, r, h => dePrefixes_empty ts r h
  | .nullable t, r, h => dePrefix_empty t r h
  | .map k v, r, h => by
    obtain ⟨r1, r2⟩ := r
    simp only [dePrefix, Rd.bind_eq_ok] at h
    obtain ⟨_, s, h1, h2⟩ := h
    have := dePrefix_empty k _ h1
    simp only at this
    rw [this] at h2
    exact dePrefix_empty v _ h2
  | .lowCardinality _, r, h => by
    obtain ⟨r1, r2⟩ := r
    simp only [dePrefix, Rd.bind_eq_ok] at h
    obtain ⟨_, s, h1, h2⟩ := h
    exact absurd h1 readU64_empty
  | .int8, r, h | .int16, r, h | .int32, r, h | .int64, r, h | .int128, r, h | .int256, r, h
  | .uint8, r, h | .uint16, r, h | .uint32, r, h | .uint64, r, h | .uint128, r, h | .uint256, r, h
  | .float32, r, h | .float64, r, h | .bfloat16, r, h
  | .decimal32 _, r, h | .decimal64 _, r, h | .decimal128 _, r, h | .decimal256 _, r, h
  | .string, r, h | .fixedString _, r, h | .uuid, r, h | .date, r, h | .dateTime _, r, h
  | .dateTime64 _ _, r, h | .ipv4, r, h | .ipv6, r, h | .point, r, h | .ring, r, h | .polygon, r, h
  | .multiPolygon, r, h | .enum8 _, r, h | .enum16 _, r, h => by cases h; rfl
theorem dePrefixes_empty : ∀ (ts : List Ty) (r : Unit × Bytes), dePrefixes ts [] = .ok r → r.2 = []
  | [], r, h => by cases h; rfl
  | t :: ts, r, h => by
    obtain ⟨r1, r2⟩ := r
    simp only [dePrefixes, Rd.bind_eq_ok] at h
    obtain ⟨_, s, h1, h2⟩ := h
    have := dePrefix_empty t _ h1
    simp only at this
    rw [this] at h2
    exact dePrefixes_empty ts _ h2
end

theorem readColumn_empty {cfg : Cfg} {rows : Nat} {b : Block} {r : Block × Bytes} :
    readColumn cfg rows b [] ≠ .ok r := by
  intro h
  obtain ⟨r1, r2⟩ := r
  unfold readColumn at h
  rw [Rd.bind_eq_ok] at h
  obtain ⟨_, _, h1, _⟩ := h
  cases h1

theorem readColumns_add (cfg : Cfg) (rows m k : Nat) (b : Block) (s : Bytes) :
    readColumns cfg rows (m + k) b s = (readColumns cfg rows m b >>= fun b => readColumns cfg rows k b) s := by
  induction m generalizing b s with
  | zero => rw [Nat.zero_add]; rfl
  | succ m ih =>
    rw [Nat.succ_add]
    simp only [readColumns]
    rw [Rd.bind_apply, Rd.bind_apply]
    rw [Rd.bind_apply]
    cases readColumn cfg rows b s with
    | panic => rfl
    | err e => rfl
    | ok p => simp only [Res.bind_ok]; rw [ih, Rd.bind_apply]

/-- The text of a column without its data is not a column. -/
theorem readColumn_head {cfg : Cfg} {rows : Nat} {name : Str} {t : Ty} {b : Block}
    (h1 : (utf8Encode name).length ≤ maxStringSize) (h2 : (utf8Encode t.display).length ≤ maxStringSize)
    (h3 : TextOk cfg t) {b' : Block} {s' : Bytes}
    (h : readColumn cfg rows b (writeString (utf8Encode name) ++ writeString (utf8Encode t.display))
      = .ok (b', s')) : s' = [] ∧ (rows = 0 ∨ occupies t = false) := by
  unfold readColumn at h
  rw [Rd.bind_run_ok (readUtf8String_write _ _ h1)] at h
  have e : writeString (utf8Encode t.display) = writeString (utf8Encode t.display) ++ [] := by simp
  rw [e, Rd.bind_run_ok (readUtf8String_write _ _ h2),
    Rd.bind_run_ok (Rd.lift_run_ok (rendered cfg t h3).parse)] at h
  by_cases hr : rows > 0
  · rw [if_pos hr, Rd.bind_eq_ok] at h
    obtain ⟨d, s, h4, h5⟩ := h
    rw [Rd.bind_eq_ok] at h4
    obtain ⟨_, s2, h6, h7⟩ := h4
    have := dePrefix_empty t _ h6
    simp only at this
    rw [this] at h7
    have := deCol_empty cfg rows hr t _ h7
    simp only at this
    cases h5
    exact ⟨this.2, .inr this.1⟩
  · rw [if_neg hr, Rd.bind_run_ok (Rd.pure_apply _ _)] at h
    cases h
    exact ⟨rfl, .inl (by omega)⟩

theorem writeColumns_ragged {cfg : Cfg} {rows : Nat} (pre : List (Str × Ty × List Value))
    (c : Str × Ty × List Value) (post : List (Str × Ty × List Value))
    (h : ∀ c ∈ pre, ColumnOk cfg rows c) (hc : c.2.2.length ≠ rows) :
    ∃ bytes, writeColumns cfg rows pre = (bytes, .ok ()) ∧
      writeColumns cfg rows (pre ++ c :: post) =
        (bytes ++ (writeString (utf8Encode c.1) ++ writeString (utf8Encode c.2.1.display)), .err .protocol) := by
  induction pre with
  | nil =>
    obtain ⟨name, t, vs⟩ := c
    refine ⟨[], rfl, ?_⟩
    simp only [List.nil_append]
    unfold writeColumns
    rw [if_pos hc]
  | cons x pre ih =>
    obtain ⟨name, t, vs⟩ := x
    obtain ⟨bytes, h1, h2⟩ := ih (fun c hc => h c (by simp [hc]))
    have hx := h (name, t, vs) (by simp)
    obtain ⟨body, hb, _⟩ := col_rt cfg t hx.wf vs hx.storable hx.fits
    have hlen : vs.length = rows := hx.len
    have step : ∀ cols r, writeColumns cfg rows cols = r → writeColumns cfg rows ((name, t, vs) :: cols) =
        ((writeString (utf8Encode name) ++ writeString (utf8Encode t.display)) ++
          (if rows > 0 then serPrefix t ++ body else []) ++ r.1, r.2) := by
      intro cols r hr'
      conv => lhs; unfold writeColumns
      rw [if_neg (by simp [hlen])]
      by_cases hr : rows > 0
      · rw [if_pos hr, hb, if_pos hr, hr']
        simp [List.append_assoc]
      · rw [if_neg hr, if_neg hr, hr']
        simp
    rw [List.cons_append, step _ _ h1, step _ _ h2]
    exact ⟨_, rfl, by simp [List.append_assoc]⟩

theorem writeColumns_success {cfg : Cfg} {rows : Nat} (cols : List (Str × Ty × List Value))
    (h : (writeColumns cfg rows cols).2 = .ok ()) : ∀ c ∈ cols, c.2.2.length = rows := by
  induction cols with
  | nil => simp
  | cons x cols ih =>
    obtain ⟨name, t, vs⟩ := x
    unfold writeColumns at h
    by_cases hl : vs.length ≠ rows
    · rw [if_pos hl] at h; cases h
    · rw [if_neg hl] at h
      have hl : vs.length = rows := by omega
      have hrest : (writeColumns cfg rows cols).2 = .ok () := by
        by_cases hr : rows > 0
        · rw [if_pos hr] at h
          cases hs : serCol cfg t vs with
          | ok body => rw [hs] at h; exact h
          | err e => rw [hs] at h; cases h
          | panic => rw [hs] at h; cases h
        · rw [if_neg hr] at h; exact h
      intro c hc
      rw [List.mem_cons] at hc
      rcases hc with rfl | hc
      · exact hl
      · exact ih hrest c hc

/-! ### iterators -/

theorem mapM_option_eq {α β : Type} {f : α → Option β} {g : α → β} {l : List α}
    (h : ∀ a ∈ l, f a = some (g a)) : l.mapM f = some (l.map g) := by
  induction l with
  | nil => rfl
  | cons x l ih =>
    rw [List.mapM_cons, h x (by simp), ih (fun a ha => h a (by simp [ha]))]
    rfl

end Klick
