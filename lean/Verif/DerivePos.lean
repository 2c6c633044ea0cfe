import Verif.DeriveMain
/-
Derived rows: reading by position, and where the value of a field comes from.
-/
namespace Klick
open Spec

namespace Field

/-- Feeding columns to one field by position. -/
def feedI {α : Type} (f : Field α) : List Cell → FieldSlot α → Res (FieldSlot α)
  | [], s => .ok s
  | c :: cs, s => f.put c.1 c s >>= fun s => feedI f cs s

/-- What a nested column is collected as when found by position. -/
def entryI (c : Cell) : Str × Ty × List Value := (c.1, (elemTy c.2.1).getD .int8, (elemsOf c.2.2).getD [])

theorem feedI_nested {α : Type} {f : Field α} (hp : ∀ l c s, f.put l c s = putNested l c s) (L : Nat) (cells : List Cell) :
    ∀ s : FieldSlot α, (∀ e ∈ s.ext, e.2.2.length = L) →
    (∀ c ∈ cells, ∃ t vs, c.2.1 = .array t ∧ c.2.2 = .array vs ∧ vs.length = L) →
    f.feedI cells s = .ok { s with ext := s.ext ++ cells.map entryI } := by
  induction cells with
  | nil => intro s _ _; simp [feedI]
  | cons c cells ih =>
    intro s hs h
    obtain ⟨t, vs, h2, h3, h4⟩ := h c (List.mem_cons_self ..)
    have he : entryI c = (c.1, t.stripLowCardinality, vs) := by simp [entryI, h2, h3, elemTy, elemsOf]
    simp only [feedI, hp]
    have hput : putNested c.1 c s = .ok { s with ext := s.ext ++ [(c.1, t.stripLowCardinality, vs)] } := by
      unfold putNested
      rw [h3]
      simp only [elemsOf, h2, elemTy]
      cases hx : s.ext with
      | nil => rfl
      | cons e es =>
        have := hs e (by rw [hx]; simp)
        dsimp only
        rw [if_neg (by rw [this, h4]; simp)]
    rw [hput, Res.bind_ok, ih _ (by
      intro e hm
      simp only [List.mem_append, List.mem_singleton] at hm
      rcases hm with hm | hm
      · exact hs e hm
      · rw [hm]; exact h4) (fun c' hc' => h c' (List.mem_cons_of_mem _ hc'))]
    simp [he]

theorem nested_readI {β : Type} {sw : Option (List β → Res Value)} (name ident : Str) (ss : Bool) (df : Option (List β)) (inner : RowImpl β) (elems : List Ty)
    (names : List Str) (rows : List β) (table : List (List (Str × Value))) (Known : Str → Prop) (hne : elems ≠ [])
    (hnl : names.length = elems.length) (hl : table.length = rows.length)
    (hr : ∀ (j : Nat) row cols, rows[j]? = some row → table[j]? = some cols → cols.map Prod.fst = names ∧
      cols.length = (elems.map Ty.stripLowCardinality).length ∧
      ∀ cells : List Cell, cells.map Prod.snd = (elems.map Ty.stripLowCardinality).zip (cols.map Prod.snd) →
        (∀ c ∈ cells, ¬ Known c.1) → inner.de cells = .ok row)
    (cells : List Cell) (hk : ∀ c ∈ cells, ¬ Known c.1)
    (hp : cells.map Prod.snd = (elems.map Ty.array).zip ((nestedCols name names table).map Prod.snd)) :
    ∃ s1, (Field.mk name ident ss false df (.nested inner) sw).feedI cells ⟨none, []⟩ = .ok s1 ∧
      ∃ s2, (Field.mk name ident ss false df (.nested inner) sw).rectify s1 = .ok s2 ∧ s2.val = some rows := by
  generalize hf : Field.mk name ident ss false df (.nested inner) sw = f
  have hclen : cells.length = elems.length := by
    have := congrArg List.length hp
    simp only [List.length_map, List.length_zip, nestedCols, List.length_range] at this
    omega
  have hget : ∀ (i : Nat) c, cells[i]? = some c → ∃ hi : i < elems.length, c.2 = (Ty.array elems[i], Value.array (table.map (fun cols => (cols.map Prod.snd).getD i .null))) := by
    intro i c hc
    have hi : i < cells.length := (List.getElem?_eq_some_iff.mp hc).1
    refine ⟨by omega, ?_⟩
    have := congrArg (fun l => l[i]?) hp
    simp only [List.getElem?_map, hc, Option.map_some, List.getElem?_zip_eq_some] at this
    have h2 := (List.getElem?_zip_eq_some (l₁ := elems.map Ty.array) (l₂ := (nestedCols name names table).map Prod.snd) (i := i) (z := c.2)).mp this.symm
    obtain ⟨a1, a2⟩ := h2
    rw [List.getElem?_map, List.getElem?_eq_getElem (by omega)] at a1
    simp only [nestedCols, List.map_map, List.getElem?_map] at a2
    rw [List.getElem?_range (by omega)] at a2
    simp only [Option.map_some, Option.some.injEq, Function.comp] at a1 a2
    rw [Prod.ext_iff]
    exact ⟨a1.symm, a2.symm⟩
  have hcells : ∀ c ∈ cells, ∃ t vs, c.2.1 = .array t ∧ c.2.2 = .array vs ∧ vs.length = table.length := by
    intro c hc
    obtain ⟨i, hi⟩ := List.getElem?_of_mem hc
    obtain ⟨hlt, he⟩ := hget i c hi
    rw [he]
    exact ⟨_, _, rfl, rfl, by simp⟩
  have hput : ∀ l c s, f.put l c s = putNested l c s := by intro l c s; rw [← hf]; rfl
  have h1 := feedI_nested hput table.length cells ⟨none, []⟩ (by simp) hcells
  refine ⟨_, h1, ?_⟩
  simp only [List.nil_append]
  have hlenE : ∀ e ∈ cells.map entryI, e.2.2.length = rows.length := by
    intro e he
    obtain ⟨c, hc, rfl⟩ := List.mem_map.mp he
    obtain ⟨t, vs, _, hv, hL⟩ := hcells c hc
    simp [entryI, hv, elemsOf, hL, hl]
  have hrow : ∀ (j : Nat) cols, table[j]? = some cols → cols.length = elems.length →
      (nestedRow (cells.map entryI) j).map Prod.snd = (elems.map Ty.stripLowCardinality).zip (cols.map Prod.snd) := by
    intro j cols hj hcl
    apply List.ext_getElem?
    intro i
    by_cases hi : i < elems.length
    · have hic : i < cells.length := by omega
      obtain ⟨_, he⟩ := hget i cells[i] (List.getElem?_eq_getElem hic)
      have hrhs : ((elems.map Ty.stripLowCardinality).zip (cols.map Prod.snd))[i]? = some (elems[i].stripLowCardinality, (cols[i]'(by omega)).2) := by
        rw [List.getElem?_zip_eq_some]
        refine ⟨?_, ?_⟩
        · rw [List.getElem?_map, List.getElem?_eq_getElem hi]; rfl
        · rw [List.getElem?_map, List.getElem?_eq_getElem (by omega)]; rfl
      rw [hrhs]
      simp only [nestedRow, List.map_map, List.getElem?_map, List.getElem?_eq_getElem hic, Option.map_some, Function.comp, entryI, he, elemTy, elemsOf,
        Option.getD_some, Option.some.injEq, Prod.mk.injEq, true_and]
      have : i < cols.length := by omega
      simp [List.getD, hj, List.getElem?_eq_getElem this]
    · rw [List.getElem?_eq_none (by simp [nestedRow]; omega), List.getElem?_eq_none (by simp; omega)]
  have hrect : rectify1 inner (cells.map entryI) = .ok rows := by
    cases hx : cells.map entryI with
    | nil =>
      have := congrArg List.length hx
      simp only [List.length_map, List.length_nil] at this
      exact absurd (List.length_eq_zero_iff.mp (by omega)) hne
    | cons e r =>
      unfold rectify1
      dsimp only
      rw [hlenE e (by rw [hx]; simp)]
      apply mapL_range
      intro j row hj
      have hjlt : j < table.length := by
        have := (List.getElem?_eq_some_iff.mp hj).1; omega
      obtain ⟨h3, h4, h5⟩ := hr j row table[j] hj (List.getElem?_eq_getElem hjlt)
      rw [← hx]
      refine h5 _ (hrow j _ (List.getElem?_eq_getElem hjlt) (by simpa using h4)) ?_
      intro c hc
      simp only [nestedRow, List.map_map, List.mem_map] at hc
      obtain ⟨c', hc', rfl⟩ := hc
      exact hk c' hc'
  subst hf
  refine ⟨⟨some rows, cells.map entryI⟩, ?_, rfl⟩
  simp only [rectify, skip, flattened, Bool.or_false, Bool.false_eq_true, if_false, rectifyKind, hrect, Res.bind_ok]

/-- Reading the columns with these types and values by position gives `x`. -/
def ReadsI {α : Type} (f : Field α) (d : Option α) (x : α) (Known : Str → Prop) (tys : List Ty) (vals : List Value) : Prop :=
  (f.skipDe = true ∧ f.flattened = false ∧ tys = [] ∧ vals = [] ∧ f.missing d = .ok x) ∨
  (f.skip = false ∧ f.innerCount = some tys.length ∧ vals.length = tys.length ∧
    ∀ cells : List Cell, cells.map Prod.snd = tys.zip vals → (∀ c ∈ cells, ¬ Known c.1) →
      ∃ s1, f.feedI cells ⟨none, []⟩ = .ok s1 ∧ ∃ s2, f.rectify s1 = .ok s2 ∧ s2.val = some x)

theorem readsI_of_law {α : Type} {f : Field α} {hints : IMap Ty} {tys : List Ty} {d : Option α} {x : α} {Known : Str → Prop}
    (h : FieldByPosition f hints tys d x Known) :
    ∃ cols, f.ser hints x = .ok cols ∧ f.names = some (cols.map Prod.fst) ∧ cols.length = tys.length ∧
      ReadsI f d x Known tys (cols.map Prod.snd) := by
  obtain ⟨name, ident, ss, sd, df, kind, sw⟩ := f
  rcases h with ⟨h1, h2, h3⟩ | ⟨h1, h2, h3, h4, h5⟩
  · simp only at h1 h2 h3
    subst h1; subst h2
    cases kind with
    | plain ser de an =>
      obtain ⟨t, v, rfl, hv, hd⟩ : ∃ t v, tys = [t] ∧ (Field.mk name ident false false df (.plain ser de an) sw).ser hints x = .ok [(name, v)] ∧
          de t.stripLowCardinality v = .ok x := by
        cases sw with
        | none => obtain ⟨t, v, e, hv, hd⟩ := h3; exact ⟨t, v, e, by simp [Field.ser, serKind, hv], hd⟩
        | some g => obtain ⟨_, _, _, e, t, v, e2, hv, hd⟩ := h3; cases e; exact ⟨t, v, e2, by simp [Field.ser, hv], hd⟩
      refine ⟨[(name, v)], hv, by simp [Field.names], rfl, .inr ⟨rfl, by simp [innerCount], rfl, ?_⟩⟩
      intro cells hp _
      cases cells with
      | nil => cases hp
      | cons c cells =>
        simp only [List.map_cons, List.map_nil, List.zip_cons_cons, List.zip_nil_left, List.cons.injEq, List.map_eq_nil_iff] at hp
        obtain ⟨hp1, rfl⟩ := hp
        refine ⟨⟨some x, []⟩, ?_, ⟨some x, []⟩, rfl, rfl⟩
        simp only [feedI, put, Option.isSome_none, Bool.false_eq_true, if_false, hp1, hd, annotated]
        cases an <;> rfl
    | nested inner =>
      cases sw with
      | some g => obtain ⟨_, _, _, e, _⟩ := h3; cases e
      | none =>
      obtain ⟨names, elems, hne, rfl, hnl, hc, hn, hrows⟩ := h3
      obtain ⟨table, t1, t2, t3⟩ := serNested_ok name inner hints x names hc hn
        (fun row cols => cols.length = (elems.map Ty.stripLowCardinality).length ∧
          ∀ cells : List Cell, cells.map Prod.snd = (elems.map Ty.stripLowCardinality).zip (cols.map Prod.snd) →
            (∀ c ∈ cells, ¬ Known c.1) → inner.de cells = .ok row) hrows
      refine ⟨nestedCols name names table, by simp [Field.ser, serKind, t1], ?_, ?_, .inr ⟨rfl, by simp [innerCount, hc, hnl], ?_, ?_⟩⟩
      · rw [nestedCols_names]; simp [Field.names, hn]
      · simp [nestedCols, hnl]
      · simp [nestedCols, hnl]
      · intro cells hp hk
        exact nested_readI name ident false df inner elems names x table Known hne hnl t2 t3 cells hk hp
    | flatten inner =>
      cases sw with
      | some g => obtain ⟨_, _, _, e, _⟩ := h3; cases e
      | none => exact h3.elim
  · simp only at h1 h2
    subst h1; subst h2; subst h3
    refine ⟨[], by simp [Field.ser], by simp [Field.names], rfl, .inl ⟨rfl, ?_, rfl, rfl, missing_of_defaults h4⟩⟩
    cases kind with
    | flatten => exact absurd trivial h5
    | plain => rfl
    | nested => rfl

end Field

namespace Fields

/-- The loop over the columns by position only. -/
def absorbI {σ τ : Type} (fs : Fields σ τ) : Nat → List Cell → τ → Res τ
  | _, [], t => .ok t
  | i, c :: cells, t => fs.byIndex i c t >>= fun t => fs.absorbI (i + 1) cells t

theorem absorb_eqI {σ τ : Type} (fs : Fields σ τ) (hf : fs.anyFlatten = false) (cells : List Cell) : ∀ (i : Nat) (t : τ),
    (∀ c ∈ cells, ¬ FieldsClaim fs c.1) → fs.absorb i cells t = fs.absorbI i cells t := by
  induction cells with
  | nil => intro i t _; rfl
  | cons c cells ih =>
    intro i t h
    unfold absorb absorbI
    rw [(byName_none fs c t).mpr (h c (List.mem_cons_self ..))]
    simp only [hf, Bool.false_eq_true, if_false]
    congr 1
    funext t'
    exact ih _ _ (fun c' hc' => h c' (List.mem_cons_of_mem _ hc'))

theorem absorbI_skip {α σ τ : Type} (f : Field α) (fs : Fields σ τ) (hs : f.skip = true) (cells : List Cell) : ∀ (i : Nat) (s : FieldSlot α) (ss ss' : τ),
    fs.absorbI i cells ss = .ok ss' → (Fields.cons f fs).absorbI i cells (s, ss) = .ok (s, ss') := by
  induction cells with
  | nil => intro i s ss ss' h; simp only [absorbI, Res.ok.injEq] at h; subst h; rfl
  | cons c cells ih =>
    intro i s ss ss' h
    simp only [absorbI, Res.bind_eq_ok] at h
    obtain ⟨t, h1, h2⟩ := h
    simp only [absorbI, byIndex, hs, if_true, h1, Res.bind_ok]
    exact ih _ _ _ _ h2

theorem absorbI_rest {α σ τ : Type} (f : Field α) (fs : Fields σ τ) (hs : f.skip = false) (cells : List Cell) : ∀ (i : Nat) (s : FieldSlot α) (ss ss' : τ),
    fs.absorbI i cells ss = .ok ss' → (Fields.cons f fs).absorbI (f.width + i) cells (s, ss) = .ok (s, ss') := by
  induction cells with
  | nil => intro i s ss ss' h; simp only [absorbI, Res.ok.injEq] at h; subst h; rfl
  | cons c cells ih =>
    intro i s ss ss' h
    simp only [absorbI, Res.bind_eq_ok] at h
    obtain ⟨t, h1, h2⟩ := h
    have hi : f.width + i - f.width = i := by omega
    simp only [absorbI, byIndex, hs, Bool.false_eq_true, if_false, if_neg (show ¬ f.width + i < f.width by omega), hi, h1, Res.bind_ok]
    exact ih (i + 1) _ _ _ h2

theorem absorbI_first {α σ τ : Type} (f : Field α) (fs : Fields σ τ) (hs : f.skip = false) (cells rest : List Cell) : ∀ (i : Nat) (s s' : FieldSlot α) (ss ss' : τ),
    i + cells.length = f.width → f.feedI cells s = .ok s' → fs.absorbI 0 rest ss = .ok ss' →
    (Fields.cons f fs).absorbI i (cells ++ rest) (s, ss) = .ok (s', ss') := by
  induction cells with
  | nil =>
    intro i s s' ss ss' hi h1 h2
    simp only [Field.feedI, Res.ok.injEq] at h1
    subst h1
    have : i = f.width + 0 := by simpa using hi
    rw [this]
    exact absorbI_rest f fs hs rest 0 s ss ss' h2
  | cons c cells ih =>
    intro i s s' ss ss' hi h1 h2
    simp only [List.length_cons] at hi
    simp only [Field.feedI, Res.bind_eq_ok] at h1
    obtain ⟨s1, h3, h4⟩ := h1
    simp only [List.cons_append, absorbI, byIndex, hs, Bool.false_eq_true, if_false, if_pos (show i < f.width by omega), h3, Res.bind_ok]
    exact ih (i + 1) _ _ _ _ (by omega) h4 h2

theorem settle_some {α : Type} (f : Field α) (d : Option α) (s : FieldSlot α) (x : α) (h : s.val = some x) : f.settle d s = .ok s := by
  unfold Field.settle
  rw [h]
  cases f.skip <;> rfl

theorem readI_ok {σ τ : Type} (fs : Fields σ τ) (hints : IMap Ty) (Known : Str → Prop) : ∀ (tys : List Ty) (d : Option σ) (x : σ),
    FieldsByPosition fs hints tys d x Known →
    fs.anyFlatten = false ∧ fs.checkSizes = .ok () ∧
    ∃ cols, fs.ser hints x = .ok cols ∧ fs.names = some (cols.map Prod.fst) ∧ cols.length = tys.length ∧
    ∀ cells : List Cell, cells.map Prod.snd = tys.zip (cols.map Prod.snd) → (∀ c ∈ cells, ¬ Known c.1) →
    ∃ t1, fs.absorbI 0 cells fs.empty = .ok t1 ∧ ∃ t2, fs.rectify t1 = .ok t2 ∧ ∃ t3, fs.settle d t2 = .ok t3 ∧
      ∀ fl, fs.build d t3 fl = .ok x := by
  induction fs with
  | nil =>
    rintro tys d x rfl
    refine ⟨rfl, rfl, [], rfl, rfl, rfl, ?_⟩
    intro cells hc _
    have : cells = [] := by simpa using hc
    subst this
    exact ⟨(), rfl, (), rfl, (), rfl, fun _ => rfl⟩
  | cons f fs ih =>
    rintro tys d ⟨x, xs⟩ ⟨a, b, rfl, h1, h2⟩
    obtain ⟨i1, i2, cols2, i3, i4, i5, i6⟩ := ih b _ _ h2
    obtain ⟨cols1, j1, j2, j3, j4⟩ := Field.readsI_of_law h1
    have hfl : f.flattened = false := by
      rcases j4 with ⟨_, h, _⟩ | ⟨h, _⟩
      · exact h
      · simp [Field.skip] at h; exact h.2
    refine ⟨by simp [anyFlatten, hfl, i1], ?_, cols1 ++ cols2, by simp [ser, j1, i3], by simp [names, j2, i4], by simp [j3, i5], ?_⟩
    · unfold checkSizes
      rcases j4 with ⟨h, _⟩ | ⟨h, h', _⟩
      · rw [if_pos (by simp [Field.skip, h])]; exact i2
      · rw [if_neg (by simp [h]), if_neg (by simp [h'])]; exact i2
    · intro cells hc hk
      have hz : (a ++ b).zip ((cols1 ++ cols2).map Prod.snd) = a.zip (cols1.map Prod.snd) ++ b.zip (cols2.map Prod.snd) := by
        rw [List.map_append, List.zip_append (by simp [j3])]
      rw [hz] at hc
      obtain ⟨ca, cb, rfl, hca, hcb⟩ := List.map_eq_append_iff.mp hc
      obtain ⟨t1, e1, t2, e2, t3, e3, e4⟩ := i6 cb hcb (fun c hc => hk c (by simp [hc]))
      rcases j4 with ⟨k1, k2, rfl, k4, k5⟩ | ⟨k1, k2, k3, k4⟩
      · have hnil : ca = [] := by simpa using hca
        subst hnil
        have hsk : f.skip = true := by simp [Field.skip, k1]
        refine ⟨(⟨none, []⟩, t1), absorbI_skip f fs hsk cb 0 _ _ _ e1, (⟨none, []⟩, t2), ?_, (⟨none, []⟩, t3), ?_, ?_⟩
        · simp [rectify, Field.rectify, hsk, e2]
        · simp [settle, Field.settle, hsk, e3]
        · intro fl
          simp only [build, Field.build, k1, if_true, k5, Res.bind_ok, e4 fl]
      · obtain ⟨s1, u1, s2, u2, u3⟩ := k4 ca hca (fun c hc => hk c (by simp [hc]))
        have hlen : ca.length = a.length := by
          have := congrArg List.length hca
          simp only [List.length_map, List.length_zip] at this
          simp only [List.length_map] at k3
          omega
        refine ⟨(s1, t1), absorbI_first f fs k1 ca cb 0 _ _ _ _ (by simp [Field.width, k2, hlen]) u1 e1, (s2, t2), ?_, (s2, t3), ?_, ?_⟩
        · simp [rectify, u2, e2]
        · simp [settle, settle_some f _ s2 x u3, e3]
        · intro fl
          have hsd : f.skipDe = false := by simp [Field.skip] at k1; exact k1.1
          have hb : f.build (d.map Prod.fst) s2 fl = .ok (x, fl) := by
            unfold Field.build
            rw [hsd]
            cases hkk : f.kind with
            | flatten inner => rw [skip_flat hkk] at hfl; cases hfl
            | plain => simp [u3]
            | nested => simp [u3]
          simp only [build, hb, Res.bind_ok, e4 fl]

theorem pull_none {σ τ : Type} (fs : Fields σ τ) (hf : fs.anyFlatten = false) (cells flat : List Cell) : fs.pull cells flat = .ok (cells, flat) := by
  induction fs generalizing cells flat with
  | nil => rfl
  | cons f fs ih =>
    simp only [anyFlatten, Bool.or_eq_false_iff] at hf
    have he : f.pull cells flat = .ok (cells, flat) := by
      unfold Field.pull
      cases hk : f.kind with
      | flatten inner => have := skip_flat hk; rw [this] at hf; cases hf.1
      | plain => rfl
      | nested => rfl
    simp only [pull, he, Res.bind_ok, ih hf.2]

theorem byPosition_ok {σ τ : Type} (fs : Fields σ τ) (hints : IMap Ty) (Known : Str → Prop) (tys : List Ty) (d : Option σ) (x : σ) (ns : List Str)
    (hn : fs.names = some ns) (h : FieldsByPosition fs hints tys d x Known) (hk : ∀ n, FieldsClaim fs n → Known n) :
    CarriesByPosition (fs.derive d) hints tys x ns Known := by
  obtain ⟨h1, h2, cols, h3, h4, h5, h6⟩ := readI_ok fs hints Known tys d x h
  refine ⟨cols, h3, ?_, h5, ?_⟩
  · rw [hn] at h4; exact (Option.some.inj h4).symm
  · intro cells hc hkn
    obtain ⟨t1, e1, t2, e2, t3, e3, e4⟩ := h6 cells hc hkn
    show fs.de d cells = .ok x
    unfold de
    simp only [h2, Res.bind_ok, pull_none fs h1, absorb_eqI fs h1 cells 0 _ (fun c hc' hcl => hkn c hc' (hk _ hcl)), e1, e2, e3, e4]

end Fields
end Klick
