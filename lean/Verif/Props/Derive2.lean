import Verif.Props.Derive
/-
C54: what a derived row declares is true. C56: errors of derived rows name their column.
-/
namespace Klick
open Spec

theorem mapL_mem {α β : Type} {f : α → Res β} : ∀ {xs : List α} {ys : List β}, Res.mapL f xs = .ok ys → ∀ y, y ∈ ys → ∃ x, x ∈ xs ∧ f x = .ok y
  | [], ys, h, y, hy => by cases h; cases hy
  | x :: xs, ys, h, y, hy => by
    simp only [Res.mapL] at h
    obtain ⟨a, ha, h⟩ := Res.bind_eq_ok.mp h
    obtain ⟨b, hb, h⟩ := Res.bind_eq_ok.mp h
    cases h
    rcases List.mem_cons.mp hy with rfl | hy
    · exact ⟨x, List.mem_cons_self .., ha⟩
    · obtain ⟨z, hz, e⟩ := mapL_mem hb y hy
      exact ⟨z, List.mem_cons_of_mem _ hz, e⟩

theorem serNested_declared {β : Type} (name : Str) (inner : RowImpl β) (ht : Truthful inner) (hints : IMap Ty) (rows : List β)
    (cols : List (Str × Value)) (h : Field.serNested name inner hints rows = .ok cols) :
    (∀ n, inner.columnCount = some n → cols.length = n) ∧
    (∀ ns, inner.columnNames = some ns → cols.map Prod.fst = ns.map (fun n => name ++ '.' :: n)) := by
  unfold Field.serNested at h
  cases hc : inner.columnCount with
  | none => rw [hc] at h; cases h
  | some n =>
    rw [hc] at h
    dsimp only at h
    obtain ⟨table, h1, h⟩ := Res.bind_eq_ok.mp h
    obtain ⟨names, h2, h⟩ := Res.bind_eq_ok.mp h
    cases h
    refine ⟨fun m hm => by cases hm; simp, fun ns hns => ?_⟩
    have hlen := ht.agree n ns hc hns
    have hnames : names = ns := by
      cases table with
      | nil =>
        dsimp only at h2
        by_cases h0 : n = 0
        · rw [if_pos h0] at h2; cases h2
          subst h0
          exact (List.length_eq_zero_iff.mp hlen).symm
        · rw [if_neg h0, hns] at h2
          dsimp only at h2
          rw [if_neg (by omega)] at h2
          cases h2
          rw [← hlen, List.take_length]
      | cons first rest =>
        dsimp only at h2
        cases h2
        obtain ⟨row, _, hrow⟩ := mapL_mem h1 first (List.mem_cons_self ..)
        obtain ⟨c, hc1, hc2⟩ := Res.bind_eq_ok.mp hrow
        by_cases hl : c.length = n
        · rw [if_pos hl] at hc2; cases hc2
          exact ht.names hints row _ ns hc1 hns
        · rw [if_neg hl] at hc2; cases hc2
    subst hnames
    rw [List.map_map]
    apply List.ext_getElem?
    intro i
    simp only [List.getElem?_map]
    by_cases hi : i < n
    · rw [List.getElem?_range hi, List.getElem?_eq_getElem (by omega)]
      simp [List.getD_eq_getElem?_getD, List.getElem?_eq_getElem (show i < names.length by omega)]
    · rw [List.getElem?_eq_none (by simp; omega), List.getElem?_eq_none (by omega)]; rfl

theorem serKind_declared {α : Type} (name : Str) (hints : IMap Ty) (k : Kind α) (hk : KindTruthful k) (x : α) (cols : List (Str × Value))
    (h : Field.serKind name hints k x = .ok cols) :
    match k with
    | .plain _ _ _ => cols.map Prod.fst = [name]
    | .nested inner => (∀ n, inner.columnCount = some n → cols.length = n) ∧
        (∀ ns, inner.columnNames = some ns → cols.map Prod.fst = ns.map (fun n => name ++ '.' :: n))
    | .flatten inner => ∀ ns, inner.columnNames = some ns → cols.map Prod.fst = ns := by
  cases k with
  | plain ser de an =>
    obtain ⟨v, _, h⟩ := Res.bind_eq_ok.mp h
    cases h; rfl
  | nested inner => exact serNested_declared name inner hk hints x cols h
  | flatten inner =>
    simp only [Field.serKind] at h
    intro ns hns
    rw [hns] at h
    exact hk.names hints x cols ns h hns

theorem field_declared {α : Type} (f : Field α) (hk : KindTruthful f.kind) (hw : f.serWith = none ∨ KindPlain f.kind) (hints : IMap Ty) (x : α) (cols : List (Str × Value))
    (h : f.ser hints x = .ok cols) :
    (f.flattened = false → ∀ n, f.count = some n → cols.length = n) ∧ (∀ ns, f.names = some ns → cols.map Prod.fst = ns) := by
  obtain ⟨name, ident, ss, sd, dflt, k, sw⟩ := f
  simp only [Field.ser, Field.count, Field.names] at h ⊢
  cases ss with
  | true =>
    simp only [if_true] at h ⊢
    cases h
    exact ⟨fun _ n hn => by cases hn; rfl, fun ns hn => by cases hn; rfl⟩
  | false =>
    simp only [Bool.false_eq_true, if_false] at h ⊢
    cases sw with
    | some g =>
      rcases hw with hw | hw
      · cases hw
      · obtain ⟨v, _, h⟩ := Res.bind_eq_ok.mp h
        cases h
        cases k with
        | plain ser de an => exact ⟨fun _ n hn => by cases hn; rfl, fun ns hn => by cases hn; rfl⟩
        | nested inner => exact hw.elim
        | flatten inner => exact hw.elim
    | none =>
    have hd := serKind_declared name hints k hk x cols h
    cases k with
    | plain ser de an =>
      refine ⟨fun _ n hn => ?_, fun ns hn => ?_⟩
      · cases hn
        have := congrArg List.length hd
        simpa using this
      · cases hn; exact hd
    | nested inner =>
      refine ⟨fun _ n hn => hd.1 n hn, fun ns hn => ?_⟩
      obtain ⟨ms, h1, rfl⟩ := Option.map_eq_some_iff.mp hn
      exact hd.2 ms h1
    | flatten inner => exact ⟨fun hf => (by cases hf), fun ns hn => hd ns hn⟩

theorem field_agree {α : Type} (f : Field α) (hk : KindTruthful f.kind) (hf : f.flattened = false) (n : Nat) (ns : List Str)
    (hc : f.count = some n) (hn : f.names = some ns) : ns.length = n := by
  obtain ⟨name, ident, ss, sd, dflt, k, sw⟩ := f
  simp only [Field.count, Field.names] at hc hn
  cases ss with
  | true => cases hc; cases hn; rfl
  | false =>
    simp only [Bool.false_eq_true, if_false, Field.innerCount] at hc hn
    cases k with
    | plain ser de an => cases hc; cases hn; rfl
    | nested inner =>
      obtain ⟨ms, h1, rfl⟩ := Option.map_eq_some_iff.mp hn
      have := hk.agree n ms hc h1
      simpa using this
    | flatten inner => cases hf

theorem fields_declared : ∀ {σ τ : Type} (fs : Fields σ τ), InnerTruthful fs → ∀ (hints : IMap Ty) (x : σ) (cols : List (Str × Value)),
    fs.ser hints x = .ok cols →
    (fs.anyFlatten = false → ∀ n, fs.countSum = some n → cols.length = n) ∧ (∀ ns, fs.names = some ns → cols.map Prod.fst = ns)
  | _, _, .nil, _, _, _, _, h => by
    cases h
    exact ⟨fun _ n hn => by cases hn; rfl, fun ns hn => by cases hn; rfl⟩
  | _, _, .cons f fs, hi, hints, (x, xs), cols, h => by
    obtain ⟨a, ha, h⟩ := Res.bind_eq_ok.mp h
    obtain ⟨b, hb, h⟩ := Res.bind_eq_ok.mp h
    cases h
    obtain ⟨f1, f2⟩ := field_declared f hi.1 hi.2.1 hints x a ha
    obtain ⟨r1, r2⟩ := fields_declared fs hi.2.2 hints xs b hb
    refine ⟨fun hf n hn => ?_, fun ns hn => ?_⟩
    · simp only [Fields.anyFlatten, Bool.or_eq_false_iff] at hf
      simp only [Fields.countSum] at hn
      cases hc : f.count with
      | none => rw [hc] at hn; cases hn
      | some p =>
        cases hs : fs.countSum with
        | none => rw [hc, hs] at hn; cases hn
        | some q =>
          rw [hc, hs] at hn
          cases hn
          rw [List.length_append, f1 hf.1 p hc, r1 hf.2 q hs]
    · simp only [Fields.names] at hn
      cases hc : f.names with
      | none => rw [hc] at hn; cases hn
      | some p =>
        cases hs : fs.names with
        | none => rw [hc, hs] at hn; cases hn
        | some q =>
          rw [hc, hs] at hn
          cases hn
          rw [List.map_append, f2 p hc, r2 q hs]

theorem fields_agree : ∀ {σ τ : Type} (fs : Fields σ τ), InnerTruthful fs → fs.anyFlatten = false → ∀ (n : Nat) (ns : List Str),
    fs.countSum = some n → fs.names = some ns → ns.length = n
  | _, _, .nil, _, _, n, ns, hc, hn => by cases hc; cases hn; rfl
  | _, _, .cons f fs, hi, hf, n, ns, hc, hn => by
    simp only [Fields.anyFlatten, Bool.or_eq_false_iff] at hf
    simp only [Fields.countSum] at hc
    simp only [Fields.names] at hn
    cases h1 : f.count with
    | none => rw [h1] at hc; cases hc
    | some a =>
      cases h2 : fs.countSum with
      | none => rw [h1, h2] at hc; cases hc
      | some b =>
        cases h3 : f.names with
        | none => rw [h3] at hn; cases hn
        | some c =>
          cases h4 : fs.names with
          | none => rw [h3, h4] at hn; cases hn
          | some d =>
            rw [h1, h2] at hc; rw [h3, h4] at hn
            cases hc; cases hn
            rw [List.length_append, field_agree f hi.1 hf.1 a c h1 h3, fields_agree fs hi.2.2 hf.2 b d h2 h4]

/-- C54: whatever number and names of columns a derived struct declares, every value it writes has exactly these, in this order;
for every struct whose nested and flattened types declare the truth, so for structs nested in any depth, with `serialize_with` on
plain fields only. -/
theorem C54_declared {σ τ : Type} (fs : Fields σ τ) (d : Option σ) (hi : InnerTruthful fs) : Truthful (fs.derive d) := by
  refine ⟨?_, ?_, ?_⟩
  · intro hints x cols n hs hc
    simp only [Fields.derive, Fields.count] at hs hc
    cases hf : fs.anyFlatten with
    | true => rw [hf] at hc; cases hc
    | false => rw [hf] at hc; exact (fields_declared fs hi hints x cols hs).1 hf n hc
  · intro hints x cols ns hs hn
    exact (fields_declared fs hi hints x cols hs).2 ns hn
  · intro n ns hc hn
    simp only [Fields.derive, Fields.count] at hc
    cases hf : fs.anyFlatten with
    | true => rw [hf] at hc; cases hc
    | false => rw [hf] at hc; exact fields_agree fs hi hf n ns hc hn

/-- C54: also when it is written as or read from another type, whatever that type declares. -/
theorem C54_declared_via {α β : Type} (self : RowImpl α) (other : RowImpl β) (f : β → Res α) (g : α → β) :
    Truthful (self.writeVia other g) ∧ (Truthful self → Truthful (self.readVia other f)) :=
  ⟨⟨fun _ _ _ _ _ h => (by cases h), fun _ _ _ _ _ h => (by cases h), fun _ _ h => (by cases h)⟩,
   fun h => ⟨h.count, h.names, h.agree⟩⟩

/-- The example struct with nested and flattened fields. -/
example : Truthful (exOrder.derive none) :=
  C54_declared exOrder none ⟨trivial, .inl rfl, C54_declared exItem none ⟨trivial, .inl rfl, trivial, .inl rfl, trivial⟩, .inl rfl,
    C54_declared exExtra none ⟨trivial, .inl rfl, trivial⟩, .inl rfl, trivial, .inl rfl, trivial, .inl rfl, trivial⟩

/-- `struct S { #[klickhouse(nested, serialize_with = "json")] items: Vec<Item>, a: u8 }`, written with the function `json`. -/
def exWithNested (json : List (BitVec 8 × Str × Unit) → Res Value) :
    Fields (List (BitVec 8 × Str × Unit) × BitVec 8 × Unit) (FieldSlot (List (BitVec 8 × Str × Unit)) × FieldSlot (BitVec 8) × Unit) :=
  .cons ⟨ch! "items", ch! "items", false, false, none, .nested (exItem.derive none), some json⟩ <|
  .cons ⟨ch! "a", ch! "a", false, false, none, rtKind (.prim .u8), none⟩ .nil

/-- `struct S { #[klickhouse(flatten, serialize_with = "json")] extra: Extra }` -/
def exWithFlat (json : BitVec 32 × Unit → Res Value) : Fields ((BitVec 32 × Unit) × Unit) (FieldSlot (BitVec 32 × Unit) × Unit) :=
  .cons ⟨ch! "extra", ch! "extra", false, false, none, .flatten (exExtra.derive none), some json⟩ .nil

/-- C54: `serialize_with` on a nested field makes the declarations false, whatever the function is, as soon as it succeeds: three
columns are declared and two are written, under other names. In a struct that nests this one, writing
any row panics. On a flattened field the declared column `x` is written as `extra`, which is not found when reading. -/
theorem C54_serialize_with_false (json : List (BitVec 8 × Str × Unit) → Res Value) (js : BitVec 32 × Unit → Res Value)
    (items : List (BitVec 8 × Str × Unit)) (a : BitVec 8) (y : BitVec 32) (v w : Value) (hints : IMap Ty)
    (hv : json items = .ok v) (hw : js (y, ()) = .ok w) :
    ((exWithNested json).derive none).columnCount = some 3 ∧
    ((exWithNested json).derive none).columnNames = some [ch! "items.a", ch! "items.b", ch! "a"] ∧
    ((exWithNested json).derive none).ser hints (items, a, ()) = .ok [(ch! "items", v), (ch! "a", .uint8 a)] ∧
    (∀ outer rows, Field.serNested outer ((exWithNested json).derive none) hints ((items, a, ()) :: rows) = .panic) ∧
    ((exWithFlat js).derive none).columnNames = some [ch! "x"] ∧
    ((exWithFlat js).derive none).ser hints ((y, ()), ()) = .ok [(ch! "extra", w)] ∧
    ∀ t, ((exWithFlat js).derive none).de [(ch! "extra", t, w)] = .err (.missingField (ch! "Flattened field extra has missing column")) := by
  have e : ((exWithNested json).derive none).ser hints (items, a, ()) = .ok [(ch! "items", v), (ch! "a", .uint8 a)] := by
    show (json items >>= _) >>= _ = _
    rw [hv]; rfl
  refine ⟨rfl, rfl, e, fun outer rows => ?_, rfl, ?_, fun t => rfl⟩
  · unfold Field.serNested
    rw [show ((exWithNested json).derive none).columnCount = some 3 from rfl]
    dsimp only
    rw [Res.mapL, e]
    rfl
  · show (js (y, ()) >>= _) >>= _ = _
    rw [hw]; rfl

/-! ### Errors -/

theorem put_err {α : Type} (f : Field α) (label : Str) (c : Cell) (s : FieldSlot α) (e : Err) (cells : List Cell) (hm : c ∈ cells)
    (h : f.put label c s = .err e) : FieldErr f cells e := by
  obtain ⟨name, ident, ss, sd, dflt, k, sw⟩ := f
  cases k with
  | plain ser de an =>
    simp only [Field.put] at h
    by_cases hv : s.val.isSome = true
    · rw [if_pos hv] at h; cases h; exact .inl rfl
    · rw [if_neg hv] at h
      refine .inr (.inr ⟨c, hm, ?_⟩)
      cases hd : de c.2.1.stripLowCardinality c.2.2 with
      | ok x => rw [hd] at h; cases an <;> cases h
      | panic => rw [hd] at h; cases an <;> cases h
      | err e0 =>
        rw [hd] at h
        refine ⟨e0, rfl, ?_⟩
        cases an with
        | true => exact (Res.err.inj h).symm
        | false => exact (Res.err.inj h).symm
  | flatten inner => cases h
  | nested inner =>
    simp only [Field.put, Field.putNested] at h
    refine .inr (.inr (.inl ⟨c, hm, ?_⟩))
    cases hv : Field.elemsOf c.2.2 with
    | none => rw [hv] at h; cases h; exact .inl ⟨rfl, .inl (fun vs hvs => by rw [hvs] at hv; cases hv)⟩
    | some values =>
      have hv' : c.2.2 = .array values := by
        unfold Field.elemsOf at hv
        split at hv
        · rename_i xs hx; rw [hx]; exact congrArg _ (Option.some.inj hv)
        · cases hv
      rw [hv] at h
      dsimp only at h
      have ht0 : Field.elemTy c.2.1 = none → ∀ t, c.2.1 ≠ .array t := by intro ht t hc; rw [hc] at ht; cases ht
      cases hx : s.ext with
      | nil =>
        rw [hx] at h
        dsimp only at h
        cases ht : Field.elemTy c.2.1 with
        | none => rw [ht] at h; cases h; exact .inl ⟨rfl, .inr (ht0 ht)⟩
        | some t => rw [ht] at h; cases h
      | cons e' r =>
        rw [hx] at h
        dsimp only at h
        by_cases hl : e'.2.2.length ≠ values.length
        · rw [if_pos hl] at h; cases h; exact .inr ⟨values, _, hv', fun hh => hl hh.symm, rfl⟩
        · rw [if_neg hl] at h
          cases ht : Field.elemTy c.2.1 with
          | none => rw [ht] at h; cases h; exact .inl ⟨rfl, .inr (ht0 ht)⟩
          | some t => rw [ht] at h; cases h

theorem byName_err : ∀ {σ τ : Type} (fs : Fields σ τ) (c : Cell) (t : τ) (e : Err) (cells : List Cell), c ∈ cells →
    fs.byName c t = some (.err e) → FieldsErr fs cells e
  | _, _, .nil, _, _, _, _, _, h => by cases h
  | _, _, .cons f fs, c, (s, ss), e, cells, hm, h => by
    simp only [Fields.byName] at h
    have rest : ∀ {r : Option (Res _)}, r = fs.byName c ss → r.map (fun r => r >>= fun ss => Res.ok (s, ss)) = some (.err e) →
        FieldsErr fs cells e := by
      intro r hr hh
      obtain ⟨q, hq, hh⟩ := Option.map_eq_some_iff.mp hh
      cases q with
      | ok a => cases hh
      | panic => cases hh
      | err e' =>
        cases hh
        exact byName_err fs c ss e cells hm (hr ▸ hq)
    by_cases hs : f.skip = true
    · rw [if_pos hs] at h; exact .inr (rest rfl h)
    · rw [if_neg hs] at h
      cases hn : f.matchName c.1 with
      | none => rw [hn] at h; exact .inr (rest rfl h)
      | some label =>
        rw [hn] at h
        dsimp only at h
        cases hp : f.put label c s with
        | ok a => rw [hp] at h; cases h
        | panic => rw [hp] at h; cases h
        | err e' => rw [hp] at h; cases h; exact .inl (put_err f label c s e cells hm hp)

theorem byIndex_err : ∀ {σ τ : Type} (fs : Fields σ τ) (i : Nat) (c : Cell) (t : τ) (e : Err) (cells : List Cell), c ∈ cells →
    fs.byIndex i c t = .err e → FieldsErr fs cells e
  | _, _, .nil, _, _, _, _, _, _, h => by cases h
  | _, _, .cons f fs, i, c, (s, ss), e, cells, hm, h => by
    simp only [Fields.byIndex] at h
    have rest : ∀ (k : Nat), (fs.byIndex k c ss >>= fun ss => Res.ok (s, ss)) = .err e → FieldsErr fs cells e := by
      intro k hh
      cases q : fs.byIndex k c ss with
      | ok a => rw [q] at hh; cases hh
      | panic => rw [q] at hh; cases hh
      | err e' => rw [q] at hh; cases hh; exact byIndex_err fs k c ss e cells hm q
    by_cases hs : f.skip = true
    · rw [if_pos hs] at h; exact .inr (rest i h)
    · rw [if_neg hs] at h
      by_cases hw : i < f.width
      · rw [if_pos hw] at h
        cases hp : f.put c.1 c s with
        | ok a => rw [hp] at h; cases h
        | panic => rw [hp] at h; cases h
        | err e' => rw [hp] at h; cases h; exact .inl (put_err f _ c s e cells hm hp)
      · rw [if_neg hw] at h; exact .inr (rest _ h)

theorem absorb_err {σ τ : Type} (fs : Fields σ τ) (cells : List Cell) (e : Err) : ∀ (cs : List Cell) (i : Nat) (t : τ),
    (∀ c, c ∈ cs → c ∈ cells) → fs.absorb i cs t = .err e → FieldsErr fs cells e
  | [], _, _, _, h => by cases h
  | c :: cs, i, t, hm, h => by
    simp only [Fields.absorb] at h
    have hc : c ∈ cells := hm c (List.mem_cons_self ..)
    have hrest : ∀ c, c ∈ cs → c ∈ cells := fun d hd => hm d (List.mem_cons_of_mem _ hd)
    cases hb : fs.byName c t with
    | some r =>
      rw [hb] at h
      dsimp only at h
      cases r with
      | ok t' => exact absorb_err fs cells e cs _ t' hrest h
      | panic => cases h
      | err e' => cases h; exact byName_err fs c t e cells hc hb
    | none =>
      rw [hb] at h
      dsimp only at h
      by_cases hf : fs.anyFlatten = true
      · rw [if_pos hf] at h; exact absorb_err fs cells e cs _ t hrest h
      · rw [if_neg hf] at h
        cases hi : fs.byIndex i c t with
        | ok t' => rw [hi] at h; exact absorb_err fs cells e cs _ t' hrest h
        | panic => rw [hi] at h; cases h
        | err e' => rw [hi] at h; cases h; exact byIndex_err fs i c t e cells hc hi

theorem pullNames_err (ident : Str) (e : Err) : ∀ (ns : List Str) (cells flat : IMap (Ty × Value)), Field.pullNames ident ns cells flat = .err e →
    e = .missingField (ch! "Flattened field " ++ ident ++ ch! " has missing column")
  | [], _, _, h => by cases h
  | n :: ns, cells, flat, h => by
    simp only [Field.pullNames] at h
    rcases hs : cells.swapRemove n with ⟨o, rest⟩
    rw [hs] at h
    cases o with
    | none => cases h; rfl
    | some x => exact pullNames_err ident e ns rest _ h

theorem pullNames_sub (ident : Str) : ∀ (ns : List Str) (cells flat : IMap (Ty × Value)) (r : IMap (Ty × Value) × IMap (Ty × Value)),
    Field.pullNames ident ns cells flat = .ok r → ∀ c, c ∈ r.1 → c ∈ cells
  | [], _, _, r, h => by cases h; exact fun _ hc => hc
  | n :: ns, cells, flat, r, h => by
    simp only [Field.pullNames] at h
    rcases hs : cells.swapRemove n with ⟨o, rest⟩
    rw [hs] at h
    cases o with
    | none => cases h
    | some x =>
      intro c hc
      have h1 := pullNames_sub ident ns rest _ r h c hc
      have hp := Fields.swapRemove_some hs
      exact hp.mem_iff.mpr (List.mem_cons_of_mem _ h1)

theorem pull_err {α : Type} (f : Field α) (cells flat : IMap (Ty × Value)) (e : Err) (all : List Cell) (h : f.pull cells flat = .err e) :
    FieldErr f all e := by
  obtain ⟨name, ident, ss, sd, dflt, k, sw⟩ := f
  cases k with
  | plain ser de an => cases h
  | nested inner => cases h
  | flatten inner =>
    simp only [Field.pull] at h
    refine .inr (.inr ?_)
    cases hn : inner.columnNames with
    | none => rw [hn] at h; cases h; exact .inr (.inl rfl)
    | some ns => rw [hn] at h; exact .inl (pullNames_err ident e ns cells flat h)

theorem pull_sub {α : Type} (f : Field α) (cells flat : IMap (Ty × Value)) (r : IMap (Ty × Value) × IMap (Ty × Value)) (h : f.pull cells flat = .ok r) :
    ∀ c, c ∈ r.1 → c ∈ cells := by
  obtain ⟨name, ident, ss, sd, dflt, k, sw⟩ := f
  cases k with
  | plain ser de an => cases h; exact fun _ hc => hc
  | nested inner => cases h; exact fun _ hc => hc
  | flatten inner =>
    simp only [Field.pull] at h
    cases hn : inner.columnNames with
    | none => rw [hn] at h; cases h
    | some ns => rw [hn] at h; exact pullNames_sub ident ns cells flat r h

theorem pulls_err : ∀ {σ τ : Type} (fs : Fields σ τ) (cells flat : IMap (Ty × Value)) (e : Err) (all : List Cell),
    fs.pull cells flat = .err e → FieldsErr fs all e
  | _, _, .nil, _, _, _, _, h => by cases h
  | _, _, .cons f fs, cells, flat, e, all, h => by
    simp only [Fields.pull] at h
    cases hp : f.pull cells flat with
    | ok r => rw [hp] at h; exact .inr (pulls_err fs r.1 r.2 e all h)
    | panic => rw [hp] at h; cases h
    | err e' => rw [hp] at h; cases h; exact .inl (pull_err f cells flat e all hp)

theorem pulls_sub : ∀ {σ τ : Type} (fs : Fields σ τ) (cells flat : IMap (Ty × Value)) (r : IMap (Ty × Value) × IMap (Ty × Value)),
    fs.pull cells flat = .ok r → ∀ c, c ∈ r.1 → c ∈ cells
  | _, _, .nil, _, _, _, h => by cases h; exact fun _ hc => hc
  | _, _, .cons f fs, cells, flat, r, h => by
    simp only [Fields.pull] at h
    obtain ⟨q, hq, h⟩ := Res.bind_eq_ok.mp h
    intro c hc
    exact pull_sub f cells flat q hq c (pulls_sub fs q.1 q.2 r h c hc)

theorem mapL_err {α β : Type} {f : α → Res β} {e : Err} : ∀ {xs : List α}, Res.mapL f xs = .err e → ∃ x, f x = .err e
  | [], h => by cases h
  | x :: xs, h => by
    simp only [Res.mapL] at h
    cases hf : f x with
    | panic => rw [hf] at h; cases h
    | err e' => rw [hf] at h; cases h; exact ⟨x, hf⟩
    | ok y =>
      rw [hf] at h
      cases hr : Res.mapL f xs with
      | ok ys => simp only [Res.bind_ok, hr] at h; cases h
      | panic => simp only [Res.bind_ok, hr] at h; cases h
      | err e' =>
        simp only [Res.bind_ok, hr] at h
        cases h
        exact mapL_err hr

theorem rectify_err {α : Type} (f : Field α) (s : FieldSlot α) (e : Err) (all : List Cell) (h : f.rectify s = .err e) : FieldErr f all e := by
  obtain ⟨name, ident, ss, sd, dflt, k, sw⟩ := f
  unfold Field.rectify at h
  by_cases hs : (Field.skip ⟨name, ident, ss, sd, dflt, k, sw⟩) = true
  · rw [if_pos hs] at h; cases h
  · rw [if_neg hs] at h
    cases k with
    | plain ser de an => cases h
    | flatten inner => cases h
    | nested inner =>
      refine .inr (.inr (.inr ?_))
      simp only [Field.rectifyKind, Field.rectify1] at h
      cases hx : s.ext with
      | nil =>
        rw [hx] at h
        dsimp only at h
        cases hd : inner.de [] with
        | ok x => rw [hd] at h; cases h
        | panic => rw [hd] at h; cases h
        | err e' => rw [hd] at h; cases h; exact ⟨[], hd⟩
      | cons a r =>
        rw [hx] at h
        dsimp only at h
        cases hm : Res.mapL (fun i => inner.de (Field.nestedRow (a :: r) i)) (List.range a.2.2.length) with
        | ok x => rw [hm] at h; cases h
        | panic => rw [hm] at h; cases h
        | err e' =>
          rw [hm] at h; cases h
          obtain ⟨i, hi⟩ := mapL_err hm
          exact ⟨_, hi⟩

theorem rectifies_err : ∀ {σ τ : Type} (fs : Fields σ τ) (t : τ) (e : Err) (all : List Cell), fs.rectify t = .err e → FieldsErr fs all e
  | _, _, .nil, _, _, _, h => by cases h
  | _, _, .cons f fs, (s, ss), e, all, h => by
    simp only [Fields.rectify] at h
    cases hf : f.rectify s with
    | panic => rw [hf] at h; cases h
    | err e' => rw [hf] at h; cases h; exact .inl (rectify_err f s e all hf)
    | ok s' =>
      rw [hf] at h
      simp only [Res.bind_ok] at h
      cases hr : fs.rectify ss with
      | panic => rw [hr] at h; cases h
      | ok q => rw [hr] at h; cases h
      | err e' => rw [hr] at h; cases h; exact .inr (rectifies_err fs ss e all hr)

theorem missing_err {α : Type} (f : Field α) (d : Option α) (e : Err) (h : f.missing d = .err e) : e = .missingField f.name := by
  unfold Field.missing at h
  cases hd : f.default with
  | some x => rw [hd] at h; cases h
  | none =>
    rw [hd] at h
    cases d with
    | some x => cases h
    | none => cases h; rfl

theorem settles_err : ∀ {σ τ : Type} (fs : Fields σ τ) (d : Option σ) (t : τ) (e : Err) (all : List Cell), fs.settle d t = .err e → FieldsErr fs all e
  | _, _, .nil, _, _, _, _, h => by cases h
  | _, _, .cons f fs, d, (s, ss), e, all, h => by
    simp only [Fields.settle] at h
    cases hf : f.settle (d.map Prod.fst) s with
    | panic => rw [hf] at h; cases h
    | err e' =>
      rw [hf] at h; cases h
      unfold Field.settle at hf
      by_cases hs : f.skip = true
      · rw [if_pos hs] at hf; cases hf
      · rw [if_neg hs] at hf
        cases hv : s.val with
        | some x => rw [hv] at hf; cases hf
        | none =>
          rw [hv] at hf
          dsimp only at hf
          cases hm : f.missing (d.map Prod.fst) with
          | ok x => rw [hm] at hf; cases hf
          | panic => rw [hm] at hf; cases hf
          | err e' => rw [hm] at hf; cases hf; exact .inl (.inr (.inl (missing_err f _ e hm)))
    | ok s' =>
      rw [hf] at h
      simp only [Res.bind_ok] at h
      cases hr : fs.settle (d.map Prod.snd) ss with
      | panic => rw [hr] at h; cases h
      | ok q => rw [hr] at h; cases h
      | err e' => rw [hr] at h; cases h; exact .inr (settles_err fs _ ss e all hr)

theorem gather_err (e : Err) : ∀ (ns : List Str) (flat : IMap (Ty × Value)), Field.gather ns flat ≠ .err e
  | [], _, h => by cases h
  | n :: ns, flat, h => by
    simp only [Field.gather] at h
    rcases hs : flat.swapRemove n with ⟨o, rest⟩
    rw [hs] at h
    cases o with
    | none => cases h
    | some x =>
      dsimp only at h
      cases hg : Field.gather ns rest with
      | ok q => rw [hg] at h; cases h
      | panic => rw [hg] at h; cases h
      | err e' => exact gather_err e' ns rest hg

theorem build_err {α : Type} (f : Field α) (d : Option α) (s : FieldSlot α) (flat : IMap (Ty × Value)) (e : Err) (all : List Cell)
    (h : f.build d s flat = .err e) : FieldErr f all e := by
  unfold Field.build at h
  by_cases hs : f.skipDe = true
  · rw [if_pos hs] at h
    cases hm : f.missing d with
    | ok x => rw [hm] at h; cases h
    | panic => rw [hm] at h; cases h
    | err e' => rw [hm] at h; cases h; exact .inr (.inl (missing_err f _ e hm))
  · rw [if_neg hs] at h
    obtain ⟨name, ident, ss, sd, dflt, k, sw⟩ := f
    cases k with
    | plain ser de an =>
      dsimp only at h
      cases hv : s.val with
      | some x => rw [hv] at h; cases h
      | none => rw [hv] at h; cases h
    | nested inner =>
      dsimp only at h
      cases hv : s.val with
      | some x => rw [hv] at h; cases h
      | none => rw [hv] at h; cases h
    | flatten inner =>
      dsimp only at h
      cases hn : inner.columnNames with
      | none => rw [hn] at h; cases h
      | some ns =>
        rw [hn] at h
        dsimp only at h
        cases hg : Field.gather ns flat with
        | panic => rw [hg] at h; cases h
        | err e' => exact absurd hg (gather_err e' ns flat)
        | ok r =>
          rw [hg] at h
          simp only [Res.bind_ok] at h
          cases hd : inner.de r.1 with
          | ok x => rw [hd] at h; cases h
          | panic => rw [hd] at h; cases h
          | err e' => rw [hd] at h; cases h; exact .inr (.inr (.inr (.inr ⟨_, hd⟩)))

theorem builds_err : ∀ {σ τ : Type} (fs : Fields σ τ) (d : Option σ) (t : τ) (flat : IMap (Ty × Value)) (e : Err) (all : List Cell),
    fs.build d t flat = .err e → FieldsErr fs all e
  | _, _, .nil, _, _, _, _, _, h => by cases h
  | _, _, .cons f fs, d, (s, ss), flat, e, all, h => by
    simp only [Fields.build] at h
    cases hf : f.build (d.map Prod.fst) s flat with
    | panic => rw [hf] at h; cases h
    | err e' => rw [hf] at h; cases h; exact .inl (build_err f _ s flat e all hf)
    | ok r =>
      rw [hf] at h
      simp only [Res.bind_ok] at h
      cases hr : fs.build (d.map Prod.snd) ss r.2 with
      | panic => rw [hr] at h; cases h
      | ok q => rw [hr] at h; cases h
      | err e' => rw [hr] at h; cases h; exact .inr (builds_err fs _ ss r.2 e all hr)

theorem checkSizes_err : ∀ {σ τ : Type} (fs : Fields σ τ) (e : Err), fs.checkSizes ≠ .err e
  | _, _, .nil, _, h => by cases h
  | _, _, .cons f fs, e, h => by
    simp only [Fields.checkSizes] at h
    by_cases hs : f.skip = true
    · rw [if_pos hs] at h; exact checkSizes_err fs e h
    · rw [if_neg hs] at h
      by_cases hn : f.innerCount.isNone = true
      · rw [if_pos hn] at h; cases h
      · rw [if_neg hn] at h; exact checkSizes_err fs e h

/-- C56: every error of reading a derived struct names the column or field it comes from: a field given twice or missing, a
conversion that failed (with the name of its column), or an error of a nested or flattened row. -/
theorem C56_row_errors {σ τ : Type} (fs : Fields σ τ) (d : Option σ) (cells : List Cell) (e : Err) (h : (fs.derive d).de cells = .err e) :
    FieldsErr fs cells e := by
  simp only [Fields.derive, Fields.de] at h
  cases h1 : fs.checkSizes with
  | panic => rw [h1] at h; cases h
  | err e' => exact absurd h1 (checkSizes_err fs e')
  | ok u =>
    rw [h1] at h
    simp only [Res.bind_ok] at h
    cases h2 : fs.pull cells [] with
    | panic => rw [h2] at h; cases h
    | err e' => rw [h2] at h; cases h; exact pulls_err fs cells [] e cells h2
    | ok r =>
      rw [h2] at h
      simp only [Res.bind_ok] at h
      have hsub := pulls_sub fs cells [] r h2
      cases h3 : fs.absorb 0 r.1 fs.empty with
      | panic => rw [h3] at h; cases h
      | err e' => rw [h3] at h; cases h; exact absorb_err fs cells e r.1 0 _ hsub h3
      | ok t =>
        rw [h3] at h
        simp only [Res.bind_ok] at h
        cases h4 : fs.rectify t with
        | panic => rw [h4] at h; cases h
        | err e' => rw [h4] at h; cases h; exact rectifies_err fs t e cells h4
        | ok t' =>
          rw [h4] at h
          simp only [Res.bind_ok] at h
          cases h5 : fs.settle d t' with
          | panic => rw [h5] at h; cases h
          | err e' => rw [h5] at h; cases h; exact settles_err fs d t' e cells h5
          | ok t'' =>
            rw [h5] at h
            simp only [Res.bind_ok] at h
            exact builds_err fs d t'' r.2 e cells h

/-- A row with no column: the error names the missing one. -/
example : (exExtra.derive none).de [] = .err (.missingField (ch! "x")) := rfl

/-- A text column where a number is wanted: the error names the column. -/
example : (exExtra.derive none).de [(ch! "x", .string, .string [])] =
    .err (.deserializeWithColumn (ch! "x") (ch! "unexpected type: String")) := rfl

end Klick
