import Verif.DeriveLemmas
import Verif.CodecSafe
/-
Derived rows: the round trip.
-/
namespace Klick
open Spec

theorem mapL_rel {α β : Type} {f : α → Res β} {P : α → β → Prop} {xs : List α} (h : ∀ x ∈ xs, ∃ y, f x = .ok y ∧ P x y) :
    ∃ ys, Res.mapL f xs = .ok ys ∧ ys.length = xs.length ∧ ∀ (j : Nat) x y, xs[j]? = some x → ys[j]? = some y → P x y := by
  induction xs with
  | nil => exact ⟨[], rfl, rfl, fun j x y h _ => by simp at h⟩
  | cons x xs ih =>
    obtain ⟨y, h1, h2⟩ := h x (List.mem_cons_self ..)
    obtain ⟨ys, h3, h4, h5⟩ := ih (fun z hz => h z (List.mem_cons_of_mem _ hz))
    refine ⟨y :: ys, by simp only [Res.mapL, h1, h3, Res.bind_ok], by simp [h4], ?_⟩
    intro j a b ha hb
    cases j with
    | zero => simp at ha hb; subst ha; subst hb; exact h2
    | succ j => exact h5 j a b (by simpa using ha) (by simpa using hb)

theorem mapL_range' {β : Type} {f : Nat → Res β} (ys : List β) : ∀ k, (∀ (j : Nat) y, ys[j]? = some y → f (k + j) = .ok y) →
    Res.mapL f (List.range' k ys.length) = .ok ys := by
  induction ys with
  | nil => intro k _; rfl
  | cons y ys ih =>
    intro k h
    have h0 := h 0 y rfl
    have h1 := ih (k + 1) (fun j z hz => by
      have := h (j + 1) z (by simpa using hz)
      rwa [Nat.add_right_comm, Nat.add_assoc])
    simp only [List.length_cons, List.range'_succ, Res.mapL]
    simp only [Nat.add_zero] at h0
    rw [h0, Res.bind_ok, h1, Res.bind_ok]

theorem mapL_range {β : Type} {f : Nat → Res β} {ys : List β} (h : ∀ (j : Nat) y, ys[j]? = some y → f j = .ok y) :
    Res.mapL f (List.range ys.length) = .ok ys := by
  rw [List.range_eq_range']
  exact mapL_range' ys 0 (fun j y hy => by rw [Nat.zero_add]; exact h j y hy)

namespace Field

/-! ### Nested fields -/

/-- The columns a nested field writes. -/
def nestedCols (name : Str) (names : List Str) (table : List (List (Str × Value))) : List (Str × Value) :=
  (List.range names.length).map (fun i =>
    (name ++ '.' :: names.getD i [], .array (table.map (fun cols => (cols.map Prod.snd).getD i .null))))

theorem nestedCols_names (name : Str) (names : List Str) (table : List (List (Str × Value))) :
    (nestedCols name names table).map Prod.fst = names.map (fun n => name ++ '.' :: n) := by
  apply List.ext_getElem?
  intro i
  simp only [nestedCols, List.map_map, List.getElem?_map]
  by_cases h : i < names.length
  · simp [List.getElem?_range h, List.getElem?_eq_getElem h]
  · simp [List.getElem?_eq_none (Nat.le_of_not_lt h)]; omega

theorem serNested_ok {β : Type} (name : Str) (inner : RowImpl β) (hints : IMap Ty) (rows : List β) (names : List Str)
    (hc : inner.columnCount = some names.length) (hn : inner.columnNames = some names) (P : β → List (Str × Value) → Prop)
    (hr : ∀ row ∈ rows, ∃ cols, inner.ser hints row = .ok cols ∧ cols.map Prod.fst = names ∧ P row cols) :
    ∃ table, serNested name inner hints rows = .ok (nestedCols name names table) ∧ table.length = rows.length ∧
      ∀ (j : Nat) row cols, rows[j]? = some row → table[j]? = some cols → cols.map Prod.fst = names ∧ P row cols := by
  obtain ⟨table, h1, h2, h3⟩ := mapL_rel (f := fun row => inner.ser hints row >>= fun cols => if cols.length = names.length then Res.ok cols else .panic)
    (P := fun row cols => cols.map Prod.fst = names ∧ P row cols) (xs := rows) (by
      intro row hrow
      obtain ⟨cols, h1, h2, h3⟩ := hr row hrow
      refine ⟨cols, ?_, h2, h3⟩
      rw [h1, Res.bind_ok, if_pos (by rw [← h2, List.length_map])])
  refine ⟨table, ?_, h2, h3⟩
  unfold serNested
  rw [hc]
  dsimp only
  rw [h1, Res.bind_ok]
  cases table with
  | nil =>
    by_cases h0 : names.length = 0
    · have : names = [] := List.length_eq_zero_iff.mp h0
      subst this
      rfl
    · dsimp only
      rw [if_neg h0, hn]
      dsimp only
      rw [if_neg (Nat.lt_irrefl _), List.take_length]
      rfl
  | cons first table =>
    dsimp only
    cases rows with
    | nil => cases h2
    | cons row rows =>
      have := h3 0 row first rfl rfl
      rw [Res.bind_ok, this.1]
      rfl

/-- What a nested column is collected as. -/
def entry {α : Type} (f : Field α) (c : Cell) : Str × Ty × List Value :=
  ((f.hit c).getD [], (elemTy c.2.1).getD .int8, (elemsOf c.2.2).getD [])

theorem feed_nested {α : Type} {f : Field α} (hp : ∀ l c s, f.put l c s = putNested l c s) (L : Nat) (cells : List Cell) :
    ∀ s : FieldSlot α, (∀ e ∈ s.ext, e.2.2.length = L) →
    (∀ c ∈ cells, ∃ l t vs, f.hit c = some l ∧ c.2.1 = .array t ∧ c.2.2 = .array vs ∧ vs.length = L) →
    f.feed cells s = .ok { s with ext := s.ext ++ cells.map (entry f) } := by
  induction cells with
  | nil => intro s _ _; simp [feed]
  | cons c cells ih =>
    intro s hs h
    obtain ⟨l, t, vs, h1, h2, h3, h4⟩ := h c (List.mem_cons_self ..)
    have he : entry f c = (l, t.stripLowCardinality, vs) := by simp [entry, h1, h2, h3, elemTy, elemsOf]
    simp only [feed, h1, hp]
    have hput : putNested l c s = .ok { s with ext := s.ext ++ [(l, t.stripLowCardinality, vs)] } := by
      unfold putNested
      rw [h3]
      simp only [elemsOf, h2, elemTy]
      cases hx : s.ext with
      | nil => rfl
      | cons e es =>
        have := hs e (by rw [hx]; simp)
        dsimp only
        rw [if_neg (by rw [this, h4]; simp)]
    rw [hput, Res.bind_ok, ih _ (by
      intro e hm
      simp only [List.mem_append, List.mem_singleton] at hm
      rcases hm with hm | hm
      · exact hs e hm
      · rw [hm]; exact h4) (fun c' hc' => h c' (List.mem_cons_of_mem _ hc'))]
    simp [he]

theorem hit_nested {β : Type} {sw : Option (List β → Res Value)} (name ident : Str) (ss : Bool) (df : Option (List β)) (inner : RowImpl β) (n : Str) (v : Ty × Value) :
    (Field.mk name ident ss false df (.nested inner) sw).hit (name ++ '.' :: n, v) = some n := by
  have e1 : (name ++ ['.']).isPrefixOf (name ++ '.' :: n) = true := by
    rw [List.isPrefixOf_iff_prefix]; exact ⟨n, by simp⟩
  simp only [hit, skip, flattened, Bool.or_false, Bool.false_eq_true, if_false, matchName, dotted, e1, if_true]
  congr 1
  have : name ++ '.' :: n = (name ++ ['.']) ++ n := by simp
  rw [this, List.drop_left]

theorem nestedRow_perm {ext ext' : List (Str × Ty × List Value)} (h : ext.Perm ext') (j : Nat) :
    (nestedRow ext j).Perm (nestedRow ext' j) := h.map _

theorem nested_read {β : Type} {sw : Option (List β → Res Value)} (name ident : Str) (ss : Bool) (df : Option (List β)) (inner : RowImpl β) (T : Str → Ty)
    (names : List Str) (rows : List β) (table : List (List (Str × Value))) (hne : names ≠ [])
    (hT : ∀ n ∈ names, ∃ t, T (name ++ '.' :: n) = .array t) (hl : table.length = rows.length)
    (hr : ∀ (j : Nat) row cols, rows[j]? = some row → table[j]? = some cols → cols.map Prod.fst = names ∧
      ∀ cells : List Cell, cells.Perm (cellsOf (innerTypes name T) cols) → inner.de cells = .ok row)
    (cells : List Cell) (hp : cells.Perm (cellsOf T (nestedCols name names table))) :
    ∃ s1, (Field.mk name ident ss false df (.nested inner) sw).feed cells ⟨none, []⟩ = .ok s1 ∧
      ∃ s2, (Field.mk name ident ss false df (.nested inner) sw).rectify s1 = .ok s2 ∧ s2.val = some rows := by
  generalize hf : Field.mk name ident ss false df (.nested inner) sw = f
  have hcells : ∀ c ∈ cellsOf T (nestedCols name names table), ∃ l t vs, f.hit c = some l ∧ c.2.1 = .array t ∧ c.2.2 = .array vs ∧ vs.length = table.length := by
    intro c hc
    simp only [cellsOf, nestedCols, List.map_map, List.mem_map, List.mem_range, Function.comp] at hc
    obtain ⟨i, hi, rfl⟩ := hc
    have hg : names.getD i [] = names[i] := by simp [List.getD, List.getElem?_eq_getElem hi]
    obtain ⟨t, ht⟩ := hT _ (List.getElem_mem hi)
    refine ⟨names[i], t, _, ?_, ?_, rfl, by simp⟩
    · rw [← hf, hg, hit_nested]
    · dsimp only; rw [hg, ht]
  have hput : ∀ l c s, f.put l c s = putNested l c s := by intro l c s; rw [← hf]; rfl
  have h1 := feed_nested hput table.length cells ⟨none, []⟩ (by simp) (fun c hc => hcells c (hp.subset hc))
  refine ⟨_, h1, ?_⟩
  simp only [List.nil_append]
  have hsk : f.skip = false := by rw [← hf]; rfl
  have hpe : (cells.map (entry f)).Perm ((cellsOf T (nestedCols name names table)).map (entry f)) := hp.map _
  have hrow : ∀ (j : Nat) cols, table[j]? = some cols → cols.map Prod.fst = names →
      nestedRow ((cellsOf T (nestedCols name names table)).map (entry f)) j = cellsOf (innerTypes name T) cols := by
    intro j cols hj hcn
    have hlen : cols.length = names.length := by rw [← hcn, List.length_map]
    apply List.ext_getElem?
    intro i
    simp only [nestedRow, cellsOf, nestedCols, List.map_map, List.getElem?_map]
    by_cases hi : i < names.length
    · have hi' : i < cols.length := by omega
      rw [List.getElem?_range hi, List.getElem?_eq_getElem hi']
      have hg : names.getD i [] = names[i] := by simp [List.getD, List.getElem?_eq_getElem hi]
      have hcn' : names[i] = cols[i].1 := by simp [← hcn]
      obtain ⟨t, ht⟩ := hT _ (List.getElem_mem hi)
      have hit : ∀ v : Ty × Value, f.hit (name ++ '.' :: names[i], v) = some names[i] := by
        intro v
        rw [← hf, hit_nested]
      simp only [Option.map_some, Function.comp, hg, entry, hit, Option.getD_some, ht, elemTy, elemsOf, Option.some.injEq, Prod.mk.injEq]
      refine ⟨hcn', ?_, ?_⟩
      · rw [innerTypes, ← hcn', ht]
      · simp [List.getD, hj, List.getElem?_eq_getElem hi']
    · have hi' : ¬ i < cols.length := by omega
      rw [List.getElem?_eq_none (l := cols) (by omega), List.getElem?_eq_none (l := List.range names.length) (by simp; omega)]
      rfl
  have hlenE : ∀ e ∈ cells.map (entry f), e.2.2.length = rows.length := by
    intro e he
    obtain ⟨c, hc, rfl⟩ := List.mem_map.mp he
    obtain ⟨l, t, vs, _, _, hv, hL⟩ := hcells c (hp.subset hc)
    simp [entry, hv, elemsOf, hL, hl]
  have hrect : rectify1 inner (cells.map (entry f)) = .ok rows := by
    cases hx : cells.map (entry f) with
    | nil =>
      have := hpe.length_eq
      rw [hx] at this
      simp only [List.length_nil, List.length_map, cellsOf, nestedCols, List.length_range] at this
      exact absurd (List.length_eq_zero_iff.mp this.symm) hne
    | cons e r =>
      unfold rectify1
      dsimp only
      rw [hlenE e (by rw [hx]; simp)]
      apply mapL_range
      intro j row hj
      have hjlt : j < table.length := by
        have := (List.getElem?_eq_some_iff.mp hj).1; omega
      obtain ⟨h3, h4⟩ := hr j row table[j] hj (List.getElem?_eq_getElem hjlt)
      rw [← hx]
      exact h4 _ (hrow j table[j] (List.getElem?_eq_getElem hjlt) h3 ▸ nestedRow_perm hpe j)
  subst hf
  refine ⟨⟨some rows, cells.map (entry ⟨name, ident, ss, false, df, .nested inner, sw⟩)⟩, ?_, rfl⟩
  simp only [rectify, skip, flattened, Bool.or_false, Bool.false_eq_true, if_false, rectifyKind, hrect, Res.bind_ok]

/-! ### One field -/

/-- What a plain field writes, and that it survives. -/
theorem ser_plain {α : Type} (name ident : Str) (sd : Bool) (df : Option α) (sr : Option Ty → α → Res Value) (de : Ty → Value → Res α)
    (an : Bool) (sw : Option (α → Res Value)) (hints : IMap Ty) (T : Str → Ty) (x : α)
    (h : ValueLaw (Field.mk name ident false sd df (.plain sr de an) sw) hints T x) :
    ∃ v, (Field.mk name ident false sd df (.plain sr de an) sw).ser hints x = .ok [(name, v)] ∧ de (T name).stripLowCardinality v = .ok x := by
  cases sw with
  | none =>
    obtain ⟨v, hv, hd⟩ := h
    exact ⟨v, by simp [Field.ser, serKind, hv], hd⟩
  | some g =>
    obtain ⟨_, _, _, e, v, hv, hd⟩ := h
    cases e
    exact ⟨v, by simp [Field.ser, hv], hd⟩

/-- Reading the columns `fc` of a field gives `x`. -/
def Reads {α : Type} (f : Field α) (d : Option α) (x : α) (fc : List Cell) : Prop :=
  (f.skipDe = true ∧ f.flattened = false ∧ fc = [] ∧ f.missing d = .ok x) ∨
  (f.skipDe = false ∧ ∃ inner, f.kind = .flatten inner ∧ inner.columnNames = some (fc.map Prod.fst) ∧ inner.de fc = .ok x) ∨
  (f.skip = false ∧ f.innerCount ≠ none ∧ (∀ c ∈ fc, Claims f c.1) ∧
    ∀ cells : List Cell, cells.Perm fc → ∃ s1, f.feed cells ⟨none, []⟩ = .ok s1 ∧ ∃ s2, f.rectify s1 = .ok s2 ∧
      ∃ s3, f.settle d s2 = .ok s3 ∧ s3.val = some x)

theorem missing_of_defaults {α : Type} {f : Field α} {d : Option α} {x : α} (h : Defaults f d x) : f.missing d = .ok x := by
  unfold missing
  rcases h with h | ⟨h1, h2⟩
  · rw [h]
  · rw [h1, h2]

theorem reads_of_law {α : Type} {f : Field α} {hints : IMap Ty} {T : Str → Ty} {d : Option α} {x : α} (h : FieldLaw f hints T d x) :
    ∃ cols, f.ser hints x = .ok cols ∧ f.names = some (cols.map Prod.fst) ∧ Reads f d x (cellsOf T cols) := by
  obtain ⟨name, ident, ss, sd, df, kind, sw⟩ := f
  rcases h with ⟨h1, h2, h3⟩ | ⟨h1, h2, h3, h4⟩
  · simp only at h1 h2 h3
    subst h1; subst h2
    cases kind with
    | plain ser de an =>
      obtain ⟨v, hv, hd⟩ := ser_plain _ _ _ _ _ _ _ _ _ _ _ h3
      refine ⟨[(name, v)], hv, by simp [Field.names], .inr (.inr ⟨rfl, by simp [innerCount], ?_, ?_⟩)⟩
      · intro c hc
        simp only [cellsOf, List.map_cons, List.map_nil, List.mem_singleton] at hc
        subst hc
        exact ⟨rfl, rfl⟩
      · intro cells hp
        have hc : cells = [(name, T name, v)] := List.perm_singleton.mp hp
        subst hc
        refine ⟨⟨some x, []⟩, ?_, ⟨some x, []⟩, rfl, ⟨some x, []⟩, rfl, rfl⟩
        simp only [feed, hit, skip, flattened, Bool.or_false, Bool.false_eq_true, if_false, matchName, if_true, put, Option.isSome_none, hd, annotated]
        cases an <;> rfl
    | nested inner =>
      cases sw with
      | some g => obtain ⟨_, _, _, e, _⟩ := h3; cases e
      | none =>
      obtain ⟨names, hne, hc, hn, hT, hrows⟩ := h3
      obtain ⟨table, t1, t2, t3⟩ := serNested_ok name inner hints x names hc hn
        (fun row cols => ∀ cells : List Cell, cells.Perm (cellsOf (innerTypes name T) cols) → inner.de cells = .ok row) hrows
      refine ⟨nestedCols name names table, by simp [Field.ser, serKind, t1], ?_, .inr (.inr ⟨rfl, by simp [innerCount, hc], ?_, ?_⟩)⟩
      · rw [nestedCols_names]; simp [Field.names, hn]
      · intro c hcm
        refine ⟨rfl, ?_⟩
        simp only [cellsOf, nestedCols, List.map_map, List.mem_map] at hcm
        obtain ⟨i, _, rfl⟩ := hcm
        exact ⟨_, rfl⟩
      · intro cells hp
        obtain ⟨s1, e1, s2, e2, e3⟩ := nested_read name ident false df inner T names x table hne hT t2 t3 cells hp
        refine ⟨s1, e1, s2, e2, s2, ?_, e3⟩
        simp only [settle, skip, flattened, Bool.or_false, Bool.false_eq_true, if_false, e3]
    | flatten inner =>
      cases sw with
      | some g => obtain ⟨_, _, _, e, _⟩ := h3; cases e
      | none =>
      obtain ⟨names, hn, cols, c1, c2, c3⟩ := h3
      refine ⟨cols, by simp [Field.ser, serKind, hn, c1], by simp [Field.names, hn, c2], .inr (.inl ⟨rfl, inner, rfl, ?_, c3 _ (List.Perm.refl _)⟩)⟩
      rw [hn, ← c2]
      simp [cellsOf, List.map_map, Function.comp_def]
  · simp only at h1 h3 h4
    subst h1
    have hm := missing_of_defaults h2
    refine ⟨[], by simp [Field.ser], by simp [Field.names], ?_⟩
    cases sd with
    | true =>
      refine .inl ⟨rfl, ?_, rfl, hm⟩
      cases kind with
      | flatten => exact absurd trivial h3
      | plain => rfl
      | nested => rfl
    | false =>
      rcases h4 with h4 | h4
      · cases h4
      · cases kind with
        | flatten => exact h4.elim
        | nested => exact h4.elim
        | plain ser de an =>
          refine .inr (.inr ⟨rfl, by simp [innerCount], by simp [cellsOf], ?_⟩)
          intro cells hp
          have hc : cells = [] := List.Perm.eq_nil hp
          subst hc
          refine ⟨⟨none, []⟩, rfl, ⟨none, []⟩, rfl, ⟨some x, []⟩, ?_, rfl⟩
          simp only [settle, skip, flattened, Bool.or_false, Bool.false_eq_true, if_false, hm, Res.bind_ok]

end Field

namespace Fields

/-- The columns of the struct's fields: own ones and those of flattened fields. -/
def Parts : {σ τ : Type} → Fields σ τ → Option σ → σ → List Cell → List Cell → Prop
  | _, _, .nil, _, _, own, flat => own = [] ∧ flat = []
  | _, _, .cons f fs, d, (x, xs), own, flat => ∃ fc own' flat', f.Reads (d.map Prod.fst) x fc ∧
      Parts fs (d.map Prod.snd) xs own' flat' ∧
      own = (if f.flattened then own' else fc ++ own') ∧ flat = (if f.flattened then fc ++ flat' else flat')

theorem parts_of_law {σ τ : Type} (fs : Fields σ τ) (hints : IMap Ty) (T : Str → Ty) : ∀ (d : Option σ) (x : σ), FieldsLaw fs hints T d x →
    ∃ cols, fs.ser hints x = .ok cols ∧ fs.names = some (cols.map Prod.fst) ∧
      ∃ own flat, Parts fs d x own flat ∧ (cellsOf T cols).Perm (own ++ flat) := by
  induction fs with
  | nil => intro d x _; exact ⟨[], rfl, rfl, [], [], ⟨rfl, rfl⟩, List.Perm.refl _⟩
  | cons f fs ih =>
    rintro d ⟨x, xs⟩ ⟨h1, h2⟩
    obtain ⟨c1, a1, a2, a3⟩ := Field.reads_of_law h1
    obtain ⟨c2, b1, b2, own, flat, b3, b4⟩ := ih _ _ h2
    refine ⟨c1 ++ c2, by simp [ser, a1, b1], by simp [names, a2, b2], _, _, ⟨cellsOf T c1, own, flat, a3, b3, rfl, rfl⟩, ?_⟩
    have e : cellsOf T (c1 ++ c2) = cellsOf T c1 ++ cellsOf T c2 := by simp [cellsOf]
    rw [e]
    cases f.flattened with
    | false =>
      simp only [Bool.false_eq_true, if_false, List.append_assoc]
      exact List.Perm.append_left _ b4
    | true =>
      simp only [if_true]
      refine (List.Perm.append_left _ b4).trans ?_
      rw [← List.append_assoc, ← List.append_assoc]
      exact List.Perm.append_right _ List.perm_append_comm

theorem skip_flat {α : Type} {f : Field α} {inner : RowImpl α} (h : f.kind = .flatten inner) : f.flattened = true := by
  unfold Field.flattened; rw [h]

theorem own_claimed {σ τ : Type} (fs : Fields σ τ) : ∀ (d : Option σ) (x : σ) (own flat : List Cell), Parts fs d x own flat →
    ∀ c ∈ own, FieldsClaim fs c.1 := by
  induction fs with
  | nil => rintro d x own flat ⟨rfl, _⟩ c hc; simp at hc
  | cons f fs ih =>
    rintro d ⟨x, xs⟩ own flat ⟨fc, own', flat', h1, h2, rfl, rfl⟩ c hc
    have ih' := ih _ _ _ _ h2
    cases hfl : f.flattened with
    | true => rw [hfl] at hc; exact .inr (ih' c hc)
    | false =>
      rw [hfl] at hc
      simp only [Bool.false_eq_true, if_false, List.mem_append] at hc
      rcases hc with hc | hc
      · rcases h1 with ⟨_, _, h, _⟩ | ⟨_, inner, hk, _⟩ | ⟨_, _, h, _⟩
        · rw [h] at hc; simp at hc
        · rw [skip_flat hk] at hfl; cases hfl
        · exact .inl (h c hc)
      · exact .inr (ih' c hc)

theorem checkSizes_ok {σ τ : Type} (fs : Fields σ τ) : ∀ (d : Option σ) (x : σ) (own flat : List Cell), Parts fs d x own flat →
    fs.checkSizes = .ok () := by
  induction fs with
  | nil => intros; rfl
  | cons f fs ih =>
    rintro d ⟨x, xs⟩ own flat ⟨fc, own', flat', h1, h2, rfl, rfl⟩
    have ih' := ih _ _ _ _ h2
    unfold checkSizes
    by_cases hs : f.skip = true
    · rw [if_pos hs]; exact ih'
    · rw [if_neg hs]
      rcases h1 with ⟨h, _⟩ | ⟨_, inner, hk, _⟩ | ⟨_, h, _⟩
      · simp [Field.skip, h] at hs
      · simp [Field.skip, skip_flat hk] at hs
      · rw [if_neg (by cases hx : f.innerCount <;> simp_all)]; exact ih'

theorem pull_ok {σ τ : Type} (fs : Fields σ τ) : ∀ (d : Option σ) (x : σ) (own flat : List Cell), Parts fs d x own flat →
    ∀ cells rest0 flat0 : List Cell, cells.Perm (flat ++ rest0) → (IMap.keys (α := Ty × Value) cells).Nodup →
    (∀ c ∈ flat, c.1 ∉ IMap.keys (α := Ty × Value) flat0) →
    ∃ rest, fs.pull cells flat0 = .ok (rest, flat0 ++ flat) ∧ rest.Perm rest0 := by
  induction fs with
  | nil => rintro d x own flat ⟨_, rfl⟩ cells rest0 flat0 hp _ _; exact ⟨cells, by simp [pull], hp⟩
  | cons f fs ih =>
    rintro d ⟨x, xs⟩ own flat ⟨fc, own', flat', h1, h2, rfl, rfl⟩ cells rest0 flat0 hp hn hd
    cases hfl : f.flattened with
    | false =>
      rw [hfl] at hp hd
      have he : f.pull cells flat0 = .ok (cells, flat0) := by
        unfold Field.pull
        cases hk : f.kind with
        | flatten inner => rw [skip_flat hk] at hfl; cases hfl
        | plain => rfl
        | nested => rfl
      obtain ⟨rest, r1, r2⟩ := ih _ _ _ _ h2 cells rest0 flat0 hp hn hd
      exact ⟨rest, by simp only [pull, he, Res.bind_ok]; exact r1, r2⟩
    | true =>
      rw [hfl] at hp hd
      simp only [if_true] at hp hd ⊢
      rcases h1 with ⟨_, h, _⟩ | ⟨_, inner, hk, hcn, _⟩ | ⟨h, _⟩
      · rw [h] at hfl; cases hfl
      · rw [List.append_assoc] at hp
        obtain ⟨rest, r1, r2⟩ := Field.pullNames_spec f.ident fc cells (flat' ++ rest0) flat0 hp hn (fun c hc => hd c (by simp [hc]))
        have hn2 : (IMap.keys (α := Ty × Value) (fc ++ rest)).Nodup :=
          (keys_perm (β := Ty × Value) (hp.trans (List.Perm.append_left fc r2.symm))).nodup_iff.mp hn
        simp only [IMap.keys, List.map_append] at hn2
        rw [List.nodup_append] at hn2
        obtain ⟨rest', s1, s2⟩ := ih _ _ _ _ h2 rest rest0 (flat0 ++ fc) r2 hn2.2.1 (by
          intro c hc
          simp only [IMap.keys, List.map_append, List.mem_append, not_or]
          refine ⟨hd c (by simp [hc]), fun hm => ?_⟩
          exact hn2.2.2 _ hm _ (List.mem_map.mpr ⟨c, r2.symm.subset (by simp [hc]), rfl⟩) rfl)
        refine ⟨rest', ?_, s2⟩
        simp only [pull, Field.pull, hk, hcn, r1, Res.bind_ok, s1]
        simp
      · simp [Field.skip, hfl] at h

theorem filter_none {p : Cell → Bool} {l : List Cell} (h : ∀ c ∈ l, p c = false) : l.filter p = [] := by
  rw [List.filter_eq_nil_iff]
  intro c hc; rw [h c hc]; simp

theorem filter_all {p : Cell → Bool} {l : List Cell} (h : ∀ c ∈ l, p c = true) : l.filter p = l :=
  List.filter_eq_self.mpr h

theorem read_ok {σ τ : Type} (fs : Fields σ τ) : ∀ (d : Option σ) (x : σ) (own flat : List Cell), Parts fs d x own flat → Apart fs →
    ∀ cells junk : List Cell, cells.Perm (own ++ junk) → (∀ c ∈ junk, ¬ FieldsClaim fs c.1) →
    ∃ t1, fs.absorbN cells fs.empty = .ok t1 ∧ ∃ t2, fs.rectify t1 = .ok t2 ∧ ∃ t3, fs.settle d t2 = .ok t3 ∧
      ∀ fl : List Cell, fl.Perm flat → (IMap.keys (α := Ty × Value) fl).Nodup → fs.build d t3 fl = .ok x := by
  induction fs with
  | nil =>
    rintro d x own flat _ _ cells junk hp hj
    refine ⟨(), ?_, (), rfl, (), rfl, fun _ _ _ => rfl⟩
    clear hp
    have : ∀ cells : List Cell, Fields.nil.absorbN cells () = .ok () := by
      intro cells
      induction cells with
      | nil => rfl
      | cons c cells ih => simp only [absorbN, byName, Res.bind_ok]; exact ih
    exact this cells
  | cons f fs ih =>
    rintro d ⟨x, xs⟩ own flat ⟨fc, own', flat', h1, h2, rfl, rfl⟩ ⟨ha, hA⟩ cells junk hp hj
    have hown := own_claimed fs _ _ _ _ h2
    have hjf : ∀ c ∈ junk, (f.hit c).isSome = false := by
      intro c hc
      have := (Field.hit_none f c).mpr (fun h => hj c hc (.inl h))
      rw [this]; rfl
    have hof : ∀ c ∈ own', (f.hit c).isSome = false := by
      intro c hc
      have := (Field.hit_none f c).mpr (fun h => ha _ h (hown c hc))
      rw [this]; rfl
    -- the columns of `f`, and all the others
    have key : ∀ own1 : List Cell, cells.Perm (own1 ++ own' ++ junk) → (∀ c ∈ own1, (f.hit c).isSome = true) →
        (cells.filter (fun c => (f.hit c).isSome)).Perm own1 ∧
        (cells.filter (fun c => !(f.hit c).isSome)).Perm (own' ++ junk) := by
      intro own1 hp1 ho1
      refine ⟨?_, ?_⟩
      · have := hp1.filter (fun c => (f.hit c).isSome)
        simp only [List.filter_append] at this
        rw [filter_all ho1, filter_none hof, filter_none hjf] at this
        simpa using this
      · have := hp1.filter (fun c => !(f.hit c).isSome)
        simp only [List.filter_append] at this
        rw [filter_none (l := own1) (fun c hc => by rw [ho1 c hc]; rfl), filter_all (l := own') (fun c hc => by rw [hof c hc]; rfl),
          filter_all (l := junk) (fun c hc => by rw [hjf c hc]; rfl)] at this
        simpa using this
    have tail : ∀ rest : List Cell, rest.Perm (own' ++ junk) → _ := fun rest hr =>
      ih (d.map Prod.snd) xs own' flat' h2 hA rest junk hr (fun c hc h => hj c hc (.inr h))
    rcases h1 with ⟨k1, k2, k3, k4⟩ | ⟨k1, inner, k2, k3, k4⟩ | ⟨k1, _, k3, k4⟩
    · subst k3
      rw [k2] at hp
      obtain ⟨q1, q2⟩ := key [] (by simpa using hp) (by simp)
      obtain ⟨t1, e1, t2, e2, t3, e3, e4⟩ := tail _ q2
      have hsk : f.skip = true := by simp [Field.skip, k1]
      refine ⟨(⟨none, []⟩, t1), absorbN_cons f fs cells _ _ _ _ ?_ e1, (⟨none, []⟩, t2), ?_, (⟨none, []⟩, t3), ?_, ?_⟩
      · rw [← Field.feed_filter, List.Perm.eq_nil q1]; rfl
      · simp [rectify, Field.rectify, hsk, e2]
      · simp [settle, Field.settle, hsk, e3]
      · intro fl hfl hn
        rw [k2] at hfl
        simp only [build, Field.build, k1, if_true, k4, Res.bind_ok, e4 fl hfl hn]
    · have hfl := skip_flat k2
      rw [hfl] at hp
      obtain ⟨q1, q2⟩ := key [] (by simpa using hp) (by simp)
      obtain ⟨t1, e1, t2, e2, t3, e3, e4⟩ := tail _ q2
      have hsk : f.skip = true := by simp [Field.skip, hfl]
      refine ⟨(⟨none, []⟩, t1), absorbN_cons f fs cells _ _ _ _ ?_ e1, (⟨none, []⟩, t2), ?_, (⟨none, []⟩, t3), ?_, ?_⟩
      · rw [← Field.feed_filter, List.Perm.eq_nil q1]; rfl
      · simp [rectify, Field.rectify, hsk, e2]
      · simp [settle, Field.settle, hsk, e3]
      · intro fl hp2 hn
        rw [hfl] at hp2
        simp only [if_true] at hp2
        obtain ⟨rest, g1, g2⟩ := Field.gather_spec fc fl flat' hp2 hn
        have hn2 : (IMap.keys (α := Ty × Value) (fc ++ rest)).Nodup :=
          (keys_perm (β := Ty × Value) (hp2.trans (List.Perm.append_left fc g2.symm))).nodup_iff.mp hn
        simp only [IMap.keys, List.map_append] at hn2
        rw [List.nodup_append] at hn2
        simp only [build, Field.build, k1, Bool.false_eq_true, if_false, k2, k3, g1, k4, Res.bind_ok, e4 rest g2 hn2.2.1]
    · have hfl : f.flattened = false := by simp [Field.skip] at k1; exact k1.2
      have hsd : f.skipDe = false := by simp [Field.skip] at k1; exact k1.1
      rw [hfl] at hp
      obtain ⟨q1, q2⟩ := key fc (by simpa using hp) (by
        intro c hc
        obtain ⟨l, hl⟩ := (Field.hit_claims f c).mpr (k3 c hc)
        rw [hl]; rfl)
      obtain ⟨t1, e1, t2, e2, t3, e3, e4⟩ := tail _ q2
      obtain ⟨s1, u1, s2, u2, s3, u3, u4⟩ := k4 _ q1
      rw [Field.feed_filter] at u1
      refine ⟨(s1, t1), absorbN_cons f fs cells _ _ _ _ u1 e1, (s2, t2), ?_, (s3, t3), ?_, ?_⟩
      · simp [rectify, u2, e2]
      · simp [settle, u3, e3]
      · intro fl hp2 hn
        rw [hfl] at hp2
        have hb : f.build (d.map Prod.fst) s3 fl = .ok (x, fl) := by
          unfold Field.build
          rw [hsd]
          cases hk : f.kind with
          | flatten inner => rw [skip_flat hk] at hfl; cases hfl
          | plain => simp [u4]
          | nested => simp [u4]
        simp only [build, hb, Res.bind_ok, e4 fl hp2 hn]

/-- Reading a struct from its columns and others nobody asks for. -/
theorem de_ok {σ τ : Type} (fs : Fields σ τ) (d : Option σ) (x : σ) (own flat cells junk : List Cell) (h : Parts fs d x own flat)
    (hA : Apart fs) (hp : cells.Perm (own ++ flat ++ junk)) (hn : (cells.map Prod.fst).Nodup) (hj : ∀ c ∈ junk, ¬ FieldsClaim fs c.1)
    (hpos : fs.anyFlatten = true ∨ ∀ (j : Nat) c, cells[j]? = some c → FieldsClaim fs c.1 ∨ positions fs ≤ j) :
    fs.de d cells = .ok x := by
  have hp' : cells.Perm (flat ++ (own ++ junk)) := by
    refine hp.trans ?_
    rw [← List.append_assoc]
    exact List.Perm.append_right _ List.perm_append_comm
  obtain ⟨rest, r1, r2⟩ := pull_ok fs d x own flat h cells (own ++ junk) [] hp' hn (by simp [IMap.keys])
  obtain ⟨t1, e1, t2, e2, t3, e3, e4⟩ := read_ok fs d x own flat h hA rest junk r2 hj
  have hab : fs.absorb 0 rest fs.empty = .ok t1 := by
    rw [absorb_eq, e1]
    rcases hpos with hpos | hpos
    · exact .inl hpos
    · by_cases hfl : fs.anyFlatten = true
      · exact .inl hfl
      · right
        have hsame : rest = cells := by
          have : ∀ {σ τ : Type} (fs : Fields σ τ), fs.anyFlatten = false → ∀ cells flat, fs.pull cells flat = .ok (cells, flat) := by
            intro σ τ fs
            induction fs with
            | nil => intros; rfl
            | cons f fs ih =>
              intro hf cells flat
              simp only [anyFlatten, Bool.or_eq_false_iff] at hf
              have he : f.pull cells flat = .ok (cells, flat) := by
                unfold Field.pull
                cases hk : f.kind with
                | flatten inner => have := skip_flat hk; rw [this] at hf; cases hf.1
                | plain => rfl
                | nested => rfl
              simp only [pull, he, Res.bind_ok, ih hf.2]
          rw [this fs (by simpa using hfl)] at r1
          simp only [Res.ok.injEq, Prod.mk.injEq] at r1
          exact r1.1.symm
        subst hsame
        intro j c hc
        rw [Nat.zero_add]
        exact hpos j c hc
  have hnf : (IMap.keys (α := Ty × Value) flat).Nodup := by
    have := (keys_perm (β := Ty × Value) hp').nodup_iff.mp hn
    simp only [IMap.keys, List.map_append] at this
    rw [List.nodup_append] at this
    exact this.1
  unfold de
  rw [checkSizes_ok fs d x own flat h, Res.bind_ok, r1, Res.bind_ok]
  simp only [hab, Res.bind_ok, e2, e3, List.nil_append]
  exact e4 flat (List.Perm.refl _) hnf

end Fields
end Klick
