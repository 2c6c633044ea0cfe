import Verif.DeriveSource
import Verif.Props.Convert
/-
C54: structs with `#[derive(Row)]`.
-/
namespace Klick
open Spec

/-- A plain field of a Rust type with `ToSql` and `FromSql` of its own. -/
def rtKind (t : RT) : Kind t.den := .plain t.toSql t.fromSql true

/-- The round trip, for every struct (any number of plain, nested, flattened, renamed and skipped fields, nested to any
depth), every value and every order of the columns. The conditions are on the fields' own types, that no two fields
take the same column name and that no column name is written twice. -/
theorem C54_roundtrip {σ τ : Type} (fs : Fields σ τ) (d : Option σ) (hints : IMap Ty) (T : Str → Ty) (x : σ) (ns : List Str)
    (hlaw : FieldsLaw fs hints T d x) (hA : Apart fs) (hns : fs.names = some ns) (hnd : ns.Nodup) :
    Carries (fs.derive d) hints T x ns := by
  obtain ⟨cols, h1, h2, own, flat, h3, h4⟩ := Fields.parts_of_law fs hints T d x hlaw
  rw [hns] at h2
  have h2 := Option.some.inj h2
  refine ⟨cols, h1, h2.symm, fun cells hp => ?_⟩
  have hnames : (cellsOf T cols).map Prod.fst = ns := by rw [h2]; simp [cellsOf, Function.comp_def]
  have hp' := hp.trans h4
  refine Fields.de_ok fs d x own flat cells [] h3 hA (by simpa using hp') ?_ (by simp) ?_
  · exact ((hp.map Prod.fst).nodup_iff).mpr (hnames ▸ hnd)
  · by_cases hf : fs.anyFlatten = true
    · exact .inl hf
    · right
      have hnoflat : ∀ {σ τ : Type} (fs : Fields σ τ) (d : Option σ) (x : σ) (own flat : List Cell), Fields.Parts fs d x own flat → fs.anyFlatten = false → flat = [] := by
        intro σ τ fs
        induction fs with
        | nil => intro d x own flat h _; exact h.2
        | cons f fs ih =>
          rintro d ⟨x, xs⟩ own flat ⟨fc, own', flat', _, q2, _, rfl⟩ hf
          simp only [Fields.anyFlatten, Bool.or_eq_false_iff] at hf
          rw [hf.1]
          exact ih _ _ _ _ q2 hf.2
      have := hnoflat fs d x own flat h3 (by simpa using hf)
      subst this
      intro j c hc
      left
      refine Fields.own_claimed fs d x own [] h3 c ?_
      have := hp'.subset (List.mem_of_getElem? hc)
      simpa using this

/-- Columns that no field takes are ignored — if some field is flattened (then nothing is read by position), or if
they come after the columns that can be read by position. -/
theorem C54_unknown_ignored_partial {σ τ : Type} (fs : Fields σ τ) (d : Option σ) (hints : IMap Ty) (T : Str → Ty) (x : σ) (ns : List Str)
    (hlaw : FieldsLaw fs hints T d x) (hA : Apart fs) (hns : fs.names = some ns) :
    ∃ cols, (fs.derive d).ser hints x = .ok cols ∧ cols.map Prod.fst = ns ∧
      ∀ extra cells : List Cell, cells.Perm (cellsOf T cols ++ extra) → (cells.map Prod.fst).Nodup → (∀ c ∈ extra, ¬ FieldsClaim fs c.1) →
        (fs.anyFlatten = true ∨ ∀ (j : Nat) c, cells[j]? = some c → FieldsClaim fs c.1 ∨ positions fs ≤ j) →
        (fs.derive d).de cells = .ok x := by
  obtain ⟨cols, h1, h2, own, flat, h3, h4⟩ := Fields.parts_of_law fs hints T d x hlaw
  rw [hns] at h2
  refine ⟨cols, h1, (Option.some.inj h2).symm, fun extra cells hp hn hj hpos => ?_⟩
  exact Fields.de_ok fs d x own flat cells extra h3 hA (hp.trans (List.Perm.append_right _ h4)) hn hj hpos

/-- Columns in the declared order, under names the struct does not know, are read by position. -/
theorem C54_by_position {σ τ : Type} (fs : Fields σ τ) (d : Option σ) (hints : IMap Ty) (tys : List Ty) (x : σ) (ns : List Str) (Known : Str → Prop)
    (hns : fs.names = some ns) (hlaw : FieldsByPosition fs hints tys d x Known) (hk : ∀ n, FieldsClaim fs n → Known n) :
    CarriesByPosition (fs.derive d) hints tys x ns Known :=
  Fields.byPosition_ok fs hints Known tys d x ns hns hlaw hk

theorem defaults_of_missing {α : Type} {f : Field α} {d : Option α} {x : α} (h2 : f.missing d = .ok x) : Defaults f d x := by
  unfold Field.missing at h2
  cases hd : f.default with
  | some y => rw [hd] at h2; simp only [Res.ok.injEq] at h2; exact .inl (h2 ▸ hd)
  | none =>
    rw [hd] at h2
    cases hd' : d with
    | some y => rw [hd'] at h2; simp only [Res.ok.injEq] at h2; rw [h2]; exact .inr ⟨hd, rfl⟩
    | none => rw [hd'] at h2; cases h2

/-- Where the value of a plain field comes from, for *every* row that is read without error: exactly one column goes
to the field, by name or by position, and the field is the conversion of that column; or none does, and the field has
its default. -/
theorem C54_field_source {α σ τ : Type} (fs : Fields σ τ) (d : Option σ) (cells : List Cell) (x : σ) (hde : (fs.derive d).de cells = .ok x)
    (f : Field α) (get : σ → α) (slot : τ → FieldSlot α) (p : Nat) (hat : FieldAt f fs get slot p) (hA : Apart fs)
    (ser : Option Ty → α → Res Value) (conv : Ty → Value → Res α) (an : Bool) (hk : f.kind = .plain ser conv an)
    (hsd : f.skipDe = false) (hf : fs.anyFlatten = false) :
    (∃ (j : Nat) (c : Cell), cells[j]? = some c ∧ GoesTo fs f p j c ∧ (∀ (j' : Nat) c', cells[j']? = some c' → GoesTo fs f p j' c' → j' = j) ∧
      conv c.2.1.stripLowCardinality c.2.2 = .ok (get x)) ∨
    ((∀ (j : Nat) c, cells[j]? = some c → ¬ GoesTo fs f p j c) ∧ Defaults f (d.map get) (get x)) := by
  rcases Fields.de_source hat hA hk hsd hf d cells x hde with h | ⟨h1, h2⟩
  · exact .inl h
  · exact .inr ⟨h1, defaults_of_missing h2⟩

/-- The same for a struct with flattened fields: exactly one column has the field's name and the field is its
conversion, or none has and the field has its default. (The name must not be one of the flattened columns.) -/
theorem C54_field_source_flatten {α σ τ : Type} (fs : Fields σ τ) (d : Option σ) (cells : List Cell) (x : σ) (hde : (fs.derive d).de cells = .ok x)
    (f : Field α) (get : σ → α) (slot : τ → FieldSlot α) (p : Nat) (hat : FieldAt f fs get slot p) (hA : Apart fs)
    (ser : Option Ty → α → Res Value) (conv : Ty → Value → Res α) (an : Bool) (hk : f.kind = .plain ser conv an)
    (hsd : f.skipDe = false) (hf : fs.anyFlatten = true) (hn : f.name ∉ flattenedNames fs) :
    (∃ c : Cell, cells.filter (fun c => c.1 == f.name) = [c] ∧ conv c.2.1.stripLowCardinality c.2.2 = .ok (get x)) ∨
    (cells.filter (fun c => c.1 == f.name) = [] ∧ Defaults f (d.map get) (get x)) := by
  rcases Fields.de_source_flat hat hA hk hsd hf hn d cells x hde with h | ⟨h1, h2⟩
  · exact .inl h
  · exact .inr ⟨h1, defaults_of_missing h2⟩

/-- Two columns that go to the same plain field: the row is refused. -/
theorem C54_duplicate_refused {α σ τ : Type} (fs : Fields σ τ) (d : Option σ) (cells : List Cell)
    (f : Field α) (get : σ → α) (slot : τ → FieldSlot α) (p : Nat) (hat : FieldAt f fs get slot p) (hA : Apart fs)
    (ser : Option Ty → α → Res Value) (conv : Ty → Value → Res α) (an : Bool) (hk : f.kind = .plain ser conv an)
    (hsd : f.skipDe = false) (hf : fs.anyFlatten = false) (i j : Nat) (a b : Cell) (hij : i ≠ j)
    (ha : cells[i]? = some a) (hb : cells[j]? = some b) (hga : GoesTo fs f p i a) (hgb : GoesTo fs f p j b) (x : σ) :
    (fs.derive d).de cells ≠ .ok x := by
  intro hde
  rcases C54_field_source fs d cells x hde f get slot p hat hA ser conv an hk hsd hf with ⟨k, c, _, _, h, _⟩ | ⟨h, _⟩
  · exact hij ((h i a ha hga).trans (h j b hb hgb).symm)
  · exact h i a ha hga

/-- A plain field without a default (its own or the container's) to which no column goes: the row is refused. -/
theorem C54_missing_refused {α σ τ : Type} (fs : Fields σ τ) (cells : List Cell)
    (f : Field α) (get : σ → α) (slot : τ → FieldSlot α) (p : Nat) (hat : FieldAt f fs get slot p) (hA : Apart fs)
    (ser : Option Ty → α → Res Value) (conv : Ty → Value → Res α) (an : Bool) (hk : f.kind = .plain ser conv an)
    (hsd : f.skipDe = false) (hf : fs.anyFlatten = false) (hdef : f.default = none)
    (hn : ∀ (j : Nat) c, cells[j]? = some c → ¬ GoesTo fs f p j c) (x : σ) :
    (fs.derive none).de cells ≠ .ok x := by
  intro hde
  rcases C54_field_source fs none cells x hde f get slot p hat hA ser conv an hk hsd hf with ⟨k, c, hc, hg, _⟩ | ⟨_, h⟩
  · exact hn k c hc hg
  · rcases h with h | ⟨_, h⟩
    · rw [hdef] at h; cases h
    · cases h

/-- Distinct names without dots keep the fields apart. -/
theorem C54_labels_suffice {σ τ : Type} (fs : Fields σ τ) (hd : (readLabels fs).Nodup) (hdot : ∀ n ∈ readLabels fs, '.' ∉ n) : Apart fs := by
  have hcl : ∀ {α : Type} (f : Field α) (n : Str), Claims f n → f.skip = false ∧ (n = f.name ∨ ∃ m, n = f.name ++ '.' :: m) := by
    intro α f n h
    obtain ⟨h1, h2⟩ := h
    unfold Field.skip Field.flattened
    rw [h1]
    cases hk : f.kind with
    | plain => rw [hk] at h2; exact ⟨rfl, .inl h2⟩
    | nested => rw [hk] at h2; exact ⟨rfl, .inr h2⟩
    | flatten => rw [hk] at h2; exact h2.elim
  have hin : ∀ {σ τ : Type} (fs : Fields σ τ) (n : Str), FieldsClaim fs n → ∃ l ∈ readLabels fs, n = l ∨ ∃ m, n = l ++ '.' :: m := by
    intro σ τ fs
    induction fs with
    | nil => intro n h; exact h.elim
    | cons f fs ih =>
      intro n h
      rcases h with h | h
      · obtain ⟨h1, h2⟩ := hcl f n h
        exact ⟨f.name, by simp [readLabels, h1], h2⟩
      · obtain ⟨l, hl, h2⟩ := ih n h
        exact ⟨l, by simp [readLabels, hl], h2⟩
  have hsplit : ∀ (a b m k : Str), '.' ∉ a → '.' ∉ b → a ++ '.' :: m = b ++ '.' :: k → a = b := by
    intro a
    induction a with
    | nil =>
      intro b m k _ hb h
      cases b with
      | nil => rfl
      | cons c b => simp only [List.nil_append, List.cons_append, List.cons.injEq] at h; exact absurd (List.mem_cons.mpr (.inl h.1)) hb
    | cons c a ih =>
      intro b m k ha hb h
      cases b with
      | nil => simp only [List.nil_append, List.cons_append, List.cons.injEq] at h; exact absurd (by simp [h.1]) ha
      | cons e b =>
        simp only [List.cons_append, List.cons.injEq] at h
        simp only [List.mem_cons, not_or] at ha hb
        rw [h.1, ih b m k ha.2 hb.2 h.2]
  induction fs with
  | nil => trivial
  | cons f fs ih =>
    simp only [readLabels] at hd hdot
    rw [List.nodup_append] at hd
    refine ⟨?_, ih hd.2.1 (fun n hn => hdot n (by simp [hn]))⟩
    intro n hc hcs
    obtain ⟨h1, h2⟩ := hcl f n hc
    obtain ⟨l, hl, h3⟩ := hin fs n hcs
    rw [h1] at hd hdot
    have hne : f.name ≠ l := hd.2.2 f.name (by simp) l hl
    have hfd : '.' ∉ f.name := hdot _ (by simp)
    have hld : '.' ∉ l := hdot _ (by simp [hl])
    rcases h2 with h2 | ⟨m, h2⟩ <;> rcases h3 with h3 | ⟨k, h3⟩
    · exact hne (h2.symm.trans h3)
    · apply hfd; rw [← h2, h3]; simp
    · apply hld; rw [← h3, h2]; simp
    · exact hne (hsplit _ _ m k hfd hld (h2.symm.trans h3))

/-- A field of a type with its own conversions (C45), in a column of a type that suits it. -/
theorem C54_plain_field (t : RT) (name : Str) (hints : IMap Ty) (T : Str → Ty) (x : t.den) (hinted : Bool)
    (hs : Suits hinted t (T name).stripLowCardinality) (hh : Hint hinted (hints.get name) (T name).stripLowCardinality)
    (hf : Faithful t (T name).stripLowCardinality x) : KindLaw name hints T (rtKind t) x :=
  conv_rt t _ hinted _ x hs hh hf

/-- `from`/`try_from` and `into`: a struct that is written as another and read from it survives when the other does
and the conversions are inverse on this value. -/
theorem C54_via {α β : Type} (self : RowImpl α) (other : RowImpl β) (f : β → Res α) (g : α → β) (hints : IMap Ty) (T : Str → Ty) (x : α)
    (ns : List Str) (h : Carries other hints T (g x) ns) (hfg : f (g x) = .ok x) :
    Carries ((self.readVia other f).writeVia other g) hints T x ns := by
  obtain ⟨cols, h1, h2, h3⟩ := h
  refine ⟨cols, h1, h2, fun cells hp => ?_⟩
  show (other.de cells >>= f) = .ok x
  rw [h3 cells hp, Res.bind_ok, hfg]

/-! ### A struct with every kind of field -/

/-- `struct Item { a: u8, b: String }` -/
def exItem : Fields (BitVec 8 × Str × Unit) (FieldSlot (BitVec 8) × FieldSlot Str × Unit) :=
  .cons ⟨ch! "a", ch! "a", false, false, none, rtKind (.prim .u8), none⟩ <|
  .cons ⟨ch! "b", ch! "b", false, false, none, rtKind .string, none⟩ .nil

/-- `struct Extra { x: u32 }` -/
def exExtra : Fields (BitVec 32 × Unit) (FieldSlot (BitVec 32) × Unit) :=
  .cons ⟨ch! "x", ch! "x", false, false, none, rtKind (.prim .u32), none⟩ .nil

/-- `struct Order { #[klickhouse(rename = "ID")] id: u32, #[klickhouse(nested)] items: Vec<Item>, #[klickhouse(flatten)] extra: Extra,
#[klickhouse(skip, default)] note: String, #[klickhouse(skip_serializing, default)] tag: u8 }` -/
def exOrder : Fields (BitVec 32 × List (BitVec 8 × Str × Unit) × (BitVec 32 × Unit) × Str × BitVec 8 × Unit)
    (FieldSlot (BitVec 32) × FieldSlot (List (BitVec 8 × Str × Unit)) × FieldSlot (BitVec 32 × Unit) × FieldSlot Str × FieldSlot (BitVec 8) × Unit) :=
  .cons ⟨ch! "ID", ch! "id", false, false, none, rtKind (.prim .u32), none⟩ <|
  .cons ⟨ch! "items", ch! "items", false, false, none, .nested (exItem.derive none), none⟩ <|
  .cons ⟨ch! "extra", ch! "extra", false, false, none, .flatten (exExtra.derive none), none⟩ <|
  .cons ⟨ch! "note", ch! "note", true, true, some [], rtKind .string, none⟩ <|
  .cons ⟨ch! "tag", ch! "tag", true, false, some 0#8, rtKind (.prim .u8), none⟩ .nil

/-- The column types of `Order`. -/
def exOrderTypes (n : Str) : Ty :=
  if n = ch! "ID" then .uint32 else if n = ch! "items.a" then .array .uint8 else if n = ch! "items.b" then .array (.lowCardinality .string) else .uint32

theorem exItem_carries (hints : IMap Ty) (a : BitVec 8) (b : Str) (ha : hints.get (ch! "a") = none) (hb : hints.get (ch! "b") = none) :
    Carries (exItem.derive none) hints (innerTypes (ch! "items") exOrderTypes) (a, b, ()) [ch! "a", ch! "b"] := by
  refine C54_roundtrip exItem none hints _ _ _ ⟨.inl ⟨rfl, rfl, ?_⟩, .inl ⟨rfl, rfl, ?_⟩, trivial⟩ ?_ rfl (by decide)
  · exact C54_plain_field (.prim .u8) _ hints _ a false Column.u8 ⟨(by intro h; cases h), .inl ha⟩ trivial
  · exact C54_plain_field .string _ hints _ b false (.inl rfl) ⟨(by intro h; cases h), .inl hb⟩ trivial
  · exact C54_labels_suffice exItem (by decide) (by decide)

/-- Every order survives, with any number of items. -/
theorem exOrder_carries (oid : BitVec 32) (items : List (BitVec 8 × Str × Unit)) (x : BitVec 32) :
    Carries (exOrder.derive none) [] exOrderTypes (oid, items, (x, ()), [], 0#8, ()) [ch! "ID", ch! "items.a", ch! "items.b", ch! "x"] := by
  refine C54_roundtrip exOrder none [] _ _ _ ⟨.inl ⟨rfl, rfl, ?_⟩, .inl ⟨rfl, rfl, ?_⟩, .inl ⟨rfl, rfl, ?_⟩,
    .inr ⟨rfl, .inl rfl, not_false, .inl rfl⟩, .inr ⟨rfl, .inl rfl, not_false, .inr trivial⟩, trivial⟩ ?_ rfl (by decide)
  · exact C54_plain_field (.prim .u32) _ [] _ oid false Column.u32 ⟨(by intro h; cases h), .inl rfl⟩ trivial
  · refine ⟨[ch! "a", ch! "b"], by simp, rfl, rfl, ?_, ?_⟩
    · intro n hn
      simp only [List.mem_cons, List.not_mem_nil, or_false] at hn
      rcases hn with rfl | rfl
      · exact ⟨_, rfl⟩
      · exact ⟨_, rfl⟩
    · rintro ⟨a, b, _⟩ _
      exact exItem_carries [] a b rfl rfl
  · refine ⟨[ch! "x"], rfl, C54_roundtrip exExtra none [] _ _ _ ⟨.inl ⟨rfl, rfl, ?_⟩, trivial⟩ ?_ rfl (by decide)⟩
    · exact C54_plain_field (.prim .u32) _ [] _ x false Column.u32 ⟨(by intro h; cases h), .inl rfl⟩ trivial
    · exact C54_labels_suffice exExtra (by decide) (by decide)
  · exact C54_labels_suffice exOrder (by decide) (by decide)

/-- The columns of one order, in an order of their own, and one more. -/
example : (exOrder.derive none).de [(ch! "what", .uint8, .uint8 9#8), (ch! "items.b", .array (.lowCardinality .string), .array [.string [0x68#8], .string []]),
    (ch! "x", .uint32, .uint32 5#32), (ch! "items.a", .array .uint8, .array [.uint8 1#8, .uint8 2#8]), (ch! "ID", .uint32, .uint32 7#32)]
    = .ok (7#32, [(1#8, ['h'], ()), (2#8, [], ())], (5#32, ()), [], 0#8, ()) := rfl

/-- Positions: the same items under foreign names. -/
example (hints : IMap Ty) (a : BitVec 8) (b : Str) :
    CarriesByPosition (exItem.derive none) hints [.uint8, .string] (a, b, ()) [ch! "a", ch! "b"] (FieldsClaim exItem) := by
  refine C54_by_position exItem none hints _ _ _ _ rfl ⟨[.uint8], [.string], rfl, .inl ⟨rfl, rfl, ?_⟩, [.string], [], rfl, .inl ⟨rfl, rfl, ?_⟩, rfl⟩ (fun _ h => h)
  · exact ⟨.uint8, .uint8 a, rfl, rfl, rfl⟩
  · exact ⟨.string, .string (utf8Encode b), rfl, rfl, string_rt (.inl rfl) b⟩

/-- Every item read without error, from any row: its first field comes from exactly one column. -/
example (cells : List Cell) (a : BitVec 8) (b : Str) (h : (exItem.derive none).de cells = .ok (a, b, ())) :
    ∃ (j : Nat) (c : Cell), cells[j]? = some c ∧ (c.1 = ch! "a" ∨ j = 0) ∧ (RT.prim .u8).fromSql c.2.1.stripLowCardinality c.2.2 = .ok a := by
  rcases C54_field_source exItem none cells _ h _ _ _ _ (.here _) (C54_labels_suffice exItem (by decide) (by decide)) _ _ _ rfl rfl rfl with
    ⟨j, c, h1, h2, _, h4⟩ | ⟨_, h2 | ⟨_, h2⟩⟩
  · refine ⟨j, c, h1, ?_, h4⟩
    rcases h2 with h2 | ⟨_, _, h2⟩
    · exact .inl h2
    · exact .inr h2
  · cases h2
  · cases h2

example : (exItem.derive none).de [(ch! "a", .uint8, .uint8 1#8), (ch! "b", .string, .string []), (ch! "a", .uint8, .uint8 2#8)] = .err (.duplicateField (ch! "a")) := rfl
example : (exItem.derive none).de [(ch! "a", .uint8, .uint8 1#8)] = .err (.missingField (ch! "b")) := rfl

/-- The same for an order, which has a flattened field. -/
example (cells : List Cell) (o : BitVec 32 × List (BitVec 8 × Str × Unit) × (BitVec 32 × Unit) × Str × BitVec 8 × Unit)
    (h : (exOrder.derive none).de cells = .ok o) :
    ∃ c : Cell, cells.filter (fun c => c.1 == ch! "ID") = [c] ∧ (RT.prim .u32).fromSql c.2.1.stripLowCardinality c.2.2 = .ok o.1 := by
  rcases C54_field_source_flatten exOrder none cells _ h _ _ _ _ (.here _) (C54_labels_suffice exOrder (by decide) (by decide)) _ _ _ rfl rfl rfl (by decide) with
    h | ⟨_, h2 | ⟨_, h2⟩⟩
  · exact h
  · cases h2
  · cases h2

/-! ### What does not hold -/

/-- Unknown columns are not ignored in general: one at the position of a field that also has its column is an error
(`DuplicateField`), for every struct without flattened fields. -/
theorem C54_unknown_ignored_false {α σ τ : Type} (fs : Fields σ τ) (d : Option σ) (cells : List Cell)
    (f : Field α) (get : σ → α) (slot : τ → FieldSlot α) (p : Nat) (hat : FieldAt f fs get slot p) (hA : Apart fs)
    (ser : Option Ty → α → Res Value) (conv : Ty → Value → Res α) (an : Bool) (hk : f.kind = .plain ser conv an)
    (hsd : f.skipDe = false) (hf : fs.anyFlatten = false) (j : Nat) (c unknown : Cell) (hj : cells[j]? = some c) (hc : c.1 = f.name)
    (hu : cells[p]? = some unknown) (hun : ¬ FieldsClaim fs unknown.1) (x : σ) : (fs.derive d).de cells ≠ .ok x := by
  refine C54_duplicate_refused fs d cells f get slot p hat hA ser conv an hk hsd hf j p c unknown ?_ hj hu (.inl hc) (.inr ⟨hf, hun, rfl⟩) x
  rintro rfl
  rw [hu] at hj
  have := Option.some.inj hj
  subst this
  apply hun
  refine Fields.fieldAt_claim hat ⟨hsd, ?_⟩
  rw [hk]
  exact hc

example : (exItem.derive none).de [(ch! "z", .uint8, .uint8 9#8), (ch! "a", .uint8, .uint8 1#8), (ch! "b", .string, .string [])]
    = .err (.duplicateField (ch! "a")) := rfl

/-- `struct S { #[klickhouse(default)] a: u8, b: u8 }` -/
def exDefault : Fields (BitVec 8 × BitVec 8 × Unit) (FieldSlot (BitVec 8) × FieldSlot (BitVec 8) × Unit) :=
  .cons ⟨ch! "a", ch! "a", false, false, some 0#8, rtKind (.prim .u8), none⟩ <|
  .cons ⟨ch! "b", ch! "b", false, false, none, rtKind (.prim .u8), none⟩ .nil

/-- And an unknown column at the position of a field that has no column becomes that field's value, although a
default is declared. -/
theorem C54_unknown_misassigned :
    (exDefault.derive none).de [(ch! "z", .uint8, .uint8 9#8), (ch! "b", .uint8, .uint8 1#8)] = .ok (9#8, 1#8, ()) := rfl

/-- `struct S { #[klickhouse(skip_deserializing, default)] a: u8, b: u8 }` -/
def exWriteOnly : Fields (BitVec 8 × BitVec 8 × Unit) (FieldSlot (BitVec 8) × FieldSlot (BitVec 8) × Unit) :=
  .cons ⟨ch! "a", ch! "a", false, true, some 0#8, rtKind (.prim .u8), none⟩ <|
  .cons ⟨ch! "b", ch! "b", false, false, none, rtKind (.prim .u8), none⟩ .nil

/-- A struct with a field that is written but not read cannot read what it writes: the column of the first field is
taken, by position, for the second. -/
theorem C54_write_only_false (a b : BitVec 8) (hints : IMap Ty) :
    ∃ cols, (exWriteOnly.derive none).ser hints (a, b, ()) = .ok cols ∧
      (exWriteOnly.derive none).de (cellsOf (fun _ => .uint8) cols) = .err (.duplicateField (ch! "b")) :=
  ⟨[(ch! "a", .uint8 a), (ch! "b", .uint8 b)], rfl, rfl⟩

/-- `struct S { #[klickhouse(nested, default)] items: Vec<Item> }` -/
def exNestedDefault : Fields (List (BitVec 8 × Str × Unit) × Unit) (FieldSlot (List (BitVec 8 × Str × Unit)) × Unit) :=
  .cons ⟨ch! "items", ch! "items", false, false, some [], .nested (exItem.derive none), none⟩ .nil

/-- The default of a nested field is never used: without its columns the row is refused with an error about an inner
field. -/
theorem C54_nested_default_false : (exNestedDefault.derive none).de [] = .err (.missingField (ch! "a")) := rfl

/-- `struct Lax { #[klickhouse(default)] a: u8 }` nested in `struct S { #[klickhouse(nested)] items: Vec<Lax> }` -/
def exNestedLax : Fields (List (BitVec 8 × Unit) × Unit) (FieldSlot (List (BitVec 8 × Unit)) × Unit) :=
  .cons ⟨ch! "items", ch! "items", false, false, none,
    .nested ((Fields.cons ⟨ch! "a", ch! "a", false, false, some 0#8, rtKind (.prim .u8), none⟩ .nil).derive none), none⟩ .nil

/-- And when the inner fields all have defaults, reading does not end (a panic in the model: the loop appends rows
until memory runs out). -/
theorem C54_nested_endless : (exNestedLax.derive none).de [] = .panic := rfl

/-- `struct S { #[klickhouse(flatten, skip, default)] extra: Extra, a: u8 }` -/
def exFlatSkip : Fields ((BitVec 32 × Unit) × BitVec 8 × Unit) (FieldSlot (BitVec 32 × Unit) × FieldSlot (BitVec 8) × Unit) :=
  .cons ⟨ch! "extra", ch! "extra", true, true, some (0#32, ()), .flatten (exExtra.derive none), none⟩ <|
  .cons ⟨ch! "a", ch! "a", false, false, none, rtKind (.prim .u8), none⟩ .nil

/-- A flattened field that is skipped is still looked for when reading. -/
theorem C54_flatten_skip_false (a : BitVec 8) (hints : IMap Ty) :
    ∃ cols, (exFlatSkip.derive none).ser hints ((0#32, ()), a, ()) = .ok cols ∧
      (exFlatSkip.derive none).de (cellsOf (fun _ => .uint8) cols) = .err (.missingField (ch! "Flattened field extra has missing column")) :=
  ⟨[(ch! "a", .uint8 a)], rfl, rfl⟩

/-- `struct Blob { data: Bytes }` nested as `blobs: Vec<Blob>`. -/
def exBlobs : Fields (List (Bytes × Unit) × Unit) (FieldSlot (List (Bytes × Unit)) × Unit) :=
  .cons ⟨ch! "blobs", ch! "blobs", false, false, none,
    .nested ((Fields.cons ⟨ch! "data", ch! "data", false, false, none, rtKind .bytes, none⟩ .nil).derive none), none⟩ .nil

/-- Nested rows are written with the hints of the outer columns, not their own: a byte string for the column
`blobs.data Array(Array(UInt8))` is written as a string, although `Bytes` in a column `Array(UInt8)` of its own is
written as the array it should be. -/
theorem C54_nested_hints_false (b : Bytes) :
    (exBlobs.derive none).ser [(ch! "blobs.data", .array (.array .uint8))] ([(b, ())], ()) = .ok [(ch! "blobs.data", .array [.string b])] ∧
    RT.bytes.toSql (some (.array .uint8)) b = .ok (.array (b.map .uint8)) := ⟨rfl, rfl⟩

end Klick
