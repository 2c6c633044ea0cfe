import Verif.AttrLemmas2
/-
C66: a struct compiles exactly when its attributes make sense, and the result is what they say.
-/
namespace Klick
open Spec

theorem field_read (S : Syn) (as : List Attribute) (hl : ∀ l, .items l ∈ as → QuotedValue l) :
    ((as.foldl (FieldVars.oneAttr S) {}).errs = [] ↔ ∃ ss, FieldSound S as ss) ∧
    (∀ ss, FieldSound S as ss → ∀ y, (as.foldl (FieldVars.oneAttr S) {}).holds y ↔ y ∈ ss) := by
  rcases FieldVars.attrs_spec S as hl {} with ⟨is, ss, hc, hs, he⟩ | ⟨hn, he⟩
  · obtain ⟨h1, h2, _⟩ := FieldVars.puts_spec ss {}
    have hemp : ∀ x : FieldSetting, ¬ FieldVars.holds {} x := by intro x h; cases x <;> cases h
    have hnone : ∀ t : FieldTopic, FieldVars.has {} t = false := by intro t; cases t <;> rfl
    have huniq : ∀ ss', FieldSound S as ss' → ss' = ss ∧ (ss.map FieldSetting.topic).Nodup := by
      rintro ss' ⟨is', hc', hs', hd'⟩
      have : is' = is := FieldVars.collected_unique hc' hc
      subst this
      have : ss' = ss := FieldVars.says_unique hs' hs
      subst this
      exact ⟨rfl, hd'⟩
    refine ⟨?_, ?_⟩
    · rw [he, h1]
      constructor
      · rintro ⟨_, hd, _⟩; exact ⟨ss, is, hc, hs, hd⟩
      · rintro ⟨ss', h'⟩
        exact ⟨rfl, (huniq ss' h').2, fun x _ => hnone _⟩
    · intro ss' h' y
      obtain ⟨e, hd⟩ := huniq ss' h'
      subst e
      have hz : (ss'.foldl FieldVars.put {}).errs = [] := h1.mpr ⟨rfl, hd, fun x _ => hnone _⟩
      rw [he, h2 hz y]
      simp [hemp y]
  · refine ⟨⟨fun h => absurd h he, ?_⟩, ?_⟩
    · rintro ⟨ss, is, hc, hs, _⟩; exact absurd hs (hn is ss hc)
    · rintro ss ⟨is, hc, hs, _⟩; exact absurd hs (hn is ss hc)

theorem struct_read (S : Syn) (sh : Shape) (hsh : sh.isNamed = true) (as : List Attribute) (hl : ∀ l, .items l ∈ as → QuotedValue l) :
    ((as.foldl (ContainerVars.oneAttr S sh) {}).errs = [] ↔
      ∃ is ss, Collected as is ∧ StructSays S is ss ∧ (ss.map StructSetting.topic).Nodup) ∧
    (∀ is ss, Collected as is → StructSays S is ss → (ss.map StructSetting.topic).Nodup →
      ∀ y, (as.foldl (ContainerVars.oneAttr S sh) {}).holds y ↔ y ∈ ss) := by
  rcases ContainerVars.attrs_spec S sh hsh as hl {} with ⟨is, ss, hc, hs, he⟩ | ⟨hn, he⟩
  · obtain ⟨h1, h2⟩ := ContainerVars.puts_spec ss {}
    have hemp : ∀ x : StructSetting, ¬ ContainerVars.holds {} x := by intro x h; cases x <;> cases h
    have hnone : ∀ t : StructTopic, ContainerVars.has {} t = false := by intro t; cases t <;> rfl
    have huniq : ∀ is' ss', Collected as is' → StructSays S is' ss' → ss' = ss := by
      intro is' ss' hc' hs'
      have : is' = is := FieldVars.collected_unique hc' hc
      subst this
      exact ContainerVars.says_unique hs' hs
    refine ⟨?_, ?_⟩
    · rw [he, h1]
      constructor
      · rintro ⟨_, hd, _⟩; exact ⟨is, ss, hc, hs, hd⟩
      · rintro ⟨is', ss', hc', hs', hd'⟩
        exact ⟨rfl, huniq is' ss' hc' hs' ▸ hd', fun x _ => hnone _⟩
    · intro is' ss' hc' hs' hd' y
      have e := huniq is' ss' hc' hs'
      subst e
      have hz : (ss'.foldl ContainerVars.put {}).errs = [] := h1.mpr ⟨rfl, hd', fun x _ => hnone _⟩
      rw [he, h2 hz y]
      simp [hemp y]
  · refine ⟨⟨fun h => absurd h he, ?_⟩, ?_⟩
    · rintro ⟨is, ss, hc, hs, _⟩; exact absurd hs (hn is ss hc)
    · intro is ss hc hs; exact absurd hs (hn is ss hc)

theorem unit_some (o : Option Unit) : o.isSome = true ↔ o = some () := by
  cases o <;> simp

/-- What `Field::from_ast` makes of sound attributes, before the rule of the struct is applied. -/
theorem field_finish (S : Syn) (ident : Str) (as : List Attribute) (d : Dflt) (hl : ∀ l, .items l ∈ as → QuotedValue l)
    (ss : List FieldSetting) (hs : FieldSound S as ss) :
    FieldIs ss .none d ident (fieldFromAst S ident as d).1 := by
  have H := (field_read S as hl).2 ss hs
  simp only [fieldFromAst]
  generalize as.foldl (FieldVars.oneAttr S) {} = st at H
  have hr : ∀ s, st.rename = some s ↔ FieldSetting.rename s ∈ ss := fun s => H (.rename s)
  refine ⟨?_, ?_, ?_, ?_, ?_, ?_, ?_, ?_, ?_, ?_, ?_, ?_⟩
  · intro s h
    simp [FieldVars.finish, (hr s).mpr h]
  · constructor
    · intro h
      obtain ⟨s, hs⟩ := Option.isSome_iff_exists.mp h
      exact ⟨s, (hr s).mp hs⟩
    · rintro ⟨s, h⟩
      simp [FieldVars.finish, (hr s).mpr h]
  · intro h
    have : st.rename = none := by
      cases e : st.rename with
      | none => rfl
      | some s => exact absurd ((hr s).mp e) (h s)
    simp [FieldVars.finish, this, RenameRule.apply]
  · exact (unit_some _).trans (H .skipSer)
  · exact (unit_some _).trans (H .skipDe)
  · exact (unit_some _).trans (H .nested)
  · exact (unit_some _).trans (H .flatten)
  · intro p; exact H (.serWith p)
  · intro p; exact H (.deWith p)
  · intro p; exact H (.bound p)
  · intro x h
    have : st.default = some x := (H (.default x)).mpr h
    simp [FieldVars.finish, this]
  · intro h
    have hd : st.default = none := by
      cases e : st.default with
      | none => rfl
      | some x => exact absurd ((H (.default x)).mp e) (h x)
    have hk : st.skipDe.isSome = true ↔ FieldSetting.skipDe ∈ ss := (unit_some _).trans (H .skipDe)
    simp only [FieldVars.finish, hd]
    by_cases hc : d = .none ∧ st.skipDe.isSome = true
    · rw [if_pos hc, if_pos ⟨hc.1, hk.mp hc.2⟩]; rfl
    · rw [if_neg hc, if_neg (fun q => hc ⟨q.1, hk.mpr q.2⟩)]; rfl

/-- C66: on one field. The attributes are accepted exactly when each is well formed and nothing is said twice. -/
theorem C66_field_accepted (S : Syn) (ident : Str) (as : List Attribute) (d : Dflt) (hl : ∀ l, .items l ∈ as → QuotedValue l) :
    (fieldFromAst S ident as d).2 = [] ↔ ∃ ss, FieldSound S as ss :=
  (field_read S as hl).1

theorem renameAll_spec (rule : RenameRule) : ∀ (fs out : List FieldAttrs), renameAll rule fs = .ok out →
    out.length = fs.length ∧ ∀ (j : Nat) f a, fs[j]? = some f → out[j]? = some a →
      (f.renamed = true ∧ a = f) ∨ (f.renamed = false ∧ ∃ n, rule.apply f.name = .ok n ∧ a = { f with name := n })
  | [], out, h => by cases h; simp
  | f :: fs, out, h => by
    simp only [renameAll] at h
    obtain ⟨f', hf, h⟩ := Res.bind_eq_ok.mp h
    obtain ⟨fs', hfs, h⟩ := Res.bind_eq_ok.mp h
    cases h
    obtain ⟨hlen, ih⟩ := renameAll_spec rule fs fs' hfs
    refine ⟨by simp [hlen], ?_⟩
    intro j g a hg ha
    cases j with
    | succ j => exact ih j g a (by simpa using hg) (by simpa using ha)
    | zero =>
      simp at hg ha
      subst hg; subst ha
      cases hr : f.renamed with
      | true => rw [hr] at hf; simp at hf; exact .inl ⟨rfl, hf.symm⟩
      | false =>
        rw [hr] at hf
        simp only [Bool.false_eq_true, if_false] at hf
        obtain ⟨n, hn, e⟩ := Res.bind_eq_ok.mp hf
        cases e
        exact .inr ⟨rfl, n, hn, rfl⟩

theorem renameAll_ok (rule : RenameRule) : ∀ (fs : List FieldAttrs),
    (∀ f, f ∈ fs → f.renamed = false → ∃ n, rule.apply f.name = .ok n) → ∃ out, renameAll rule fs = .ok out
  | [], _ => ⟨[], rfl⟩
  | f :: fs, h => by
    obtain ⟨out, ho⟩ := renameAll_ok rule fs (fun g hg => h g (List.mem_cons_of_mem _ hg))
    cases hr : f.renamed with
    | true => exact ⟨f :: out, by simp only [renameAll, hr, if_true, ho]; rfl⟩
    | false =>
      obtain ⟨n, hn⟩ := h f (List.mem_cons_self ..) hr
      exact ⟨{ f with name := n } :: out, by simp only [renameAll, hr, hn, ho]; rfl⟩

theorem checked_ok {α : Type} (a b : α) (es : List AttrErr) : checked a es = .ok b ↔ a = b ∧ es = [] := by
  cases es with
  | nil => simp [checked]
  | cons e es => simp [checked]

theorem container_is (S : Syn) (fields : List (Str × List Attribute)) (attrs : List Attribute) (hl : ∀ l, .items l ∈ attrs → QuotedValue l)
    (is : List MetaItem) (ss : List StructSetting) (hc : Collected attrs is) (hs : StructSays S is ss)
    (hd : (ss.map StructSetting.topic).Nodup) : StructIs ss (containerFromAst S attrs (.named fields)).1 := by
  have H := (struct_read S (.named fields) rfl attrs hl).2 is ss hc hs hd
  simp only [containerFromAst]
  generalize attrs.foldl (ContainerVars.oneAttr S (.named fields)) {} = st at H
  refine ⟨(unit_some _).trans (H .denyUnknown), ?_, ?_, ?_, ?_, fun p => H (.bound p), fun t => H (.typeFrom t),
    fun t => H (.typeTryFrom t), fun t => H (.typeInto t)⟩
  · intro x h
    have : st.default = some x := (H (.default x)).mpr h
    simp [ContainerVars.finish, this]
  · intro h
    have : st.default = none := by
      cases e : st.default with
      | none => rfl
      | some x => exact absurd ((H (.default x)).mp e) (h x)
    simp [ContainerVars.finish, this]
  · intro x h
    have : st.rule = some x := (H (.rule x)).mpr h
    simp [ContainerVars.finish, this]
  · intro h
    have : st.rule = none := by
      cases e : st.rule with
      | none => rfl
      | some x => exact absurd ((H (.rule x)).mp e) (h x)
    simp [ContainerVars.finish, this]

/-- All items on the struct and its fields have literal right-hand sides. -/
def AllLiteral (attrs : List Attribute) (fields : List (Str × List Attribute)) : Prop :=
  (∀ l, .items l ∈ attrs → QuotedValue l) ∧ ∀ f, f ∈ fields → ∀ l, .items l ∈ f.2 → QuotedValue l

theorem no_conflict {ss : List StructSetting} {c : ContainerAttrs} (h : StructIs ss c) :
    (c.typeFrom.isSome && c.typeTryFrom.isSome) = true ↔ (∃ t, .typeFrom t ∈ ss) ∧ ∃ t, .typeTryFrom t ∈ ss := by
  rw [Bool.and_eq_true]
  constructor
  · rintro ⟨a, b⟩
    obtain ⟨x, hx⟩ := Option.isSome_iff_exists.mp a
    obtain ⟨y, hy⟩ := Option.isSome_iff_exists.mp b
    exact ⟨⟨x, (h.typeFrom x).mp hx⟩, y, (h.typeTryFrom y).mp hy⟩
  · rintro ⟨⟨x, hx⟩, y, hy⟩
    rw [(h.typeFrom x).mpr hx, (h.typeTryFrom y).mpr hy]; exact ⟨rfl, rfl⟩

/-- C66: a struct whose derive compiles has sensible attributes throughout, and the result is exactly what they say: the
options of the struct, and for each field in order its column name, what is skipped, nested or flattened, its default and its
conversion functions. -/
theorem C66_result_partial (S : Syn) (attrs : List Attribute) (fields : List (Str × List Attribute)) (hl : AllLiteral attrs fields)
    (c : ContainerAttrs) (out : List FieldAttrs) (h : structFromAst S attrs (.named fields) = .ok (c, out)) :
    (∃ ss, StructSound S attrs ss ∧ StructIs ss c) ∧ out.length = fields.length ∧
    ∀ (j : Nat) (f : Str × List Attribute) (a : FieldAttrs), fields[j]? = some f → out[j]? = some a →
      ∃ ss, FieldSound S f.2 ss ∧ FieldIs ss c.rule c.default f.1 a := by
  simp only [structFromAst] at h
  cases hr : renameAll (containerFromAst S attrs (.named fields)).1.rule
      ((fields.map (fun f => fieldFromAst S f.1 f.2 (containerFromAst S attrs (.named fields)).1.default)).map Prod.fst) with
  | err e => rw [hr] at h; cases h
  | panic => rw [hr] at h; cases h
  | ok named =>
    rw [hr] at h
    dsimp only at h
    rw [checked_ok] at h
    obtain ⟨e, hes⟩ := h
    cases e
    rw [List.append_eq_nil_iff, List.append_eq_nil_iff] at hes
    obtain ⟨⟨hce, hfe⟩, hconf⟩ := hes
    obtain ⟨is, ss, hc, hs, hd⟩ := (struct_read S (.named fields) rfl attrs hl.1).1.mp hce
    have hsi := container_is S fields attrs hl.1 is ss hc hs hd
    refine ⟨⟨ss, ⟨is, hc, hs, hd, ?_⟩, hsi⟩, ?_⟩
    · intro q
      rw [(no_conflict hsi).mpr q] at hconf
      cases hconf
    obtain ⟨hlen, hout⟩ := renameAll_spec _ _ _ hr
    refine ⟨by simpa using hlen, ?_⟩
    intro j f a hf ha
    have hmem : f ∈ fields := List.mem_of_getElem? hf
    have hsound : ∃ ss, FieldSound S f.2 ss := by
      rw [← C66_field_accepted S f.1 f.2 (containerFromAst S attrs (.named fields)).1.default (hl.2 f hmem)]
      refine List.flatten_eq_nil_iff.mp hfe _ ?_
      rw [List.map_map]
      exact List.mem_map.mpr ⟨f, hmem, rfl⟩
    obtain ⟨fs, hfs⟩ := hsound
    refine ⟨fs, hfs, ?_⟩
    have hfin := field_finish S f.1 f.2 (containerFromAst S attrs (.named fields)).1.default (hl.2 f hmem) fs hfs
    have hj := hout j (fieldFromAst S f.1 f.2 (containerFromAst S attrs (.named fields)).1.default).1 a (by
      simp [hf]) ha
    rcases hj with ⟨hren, e⟩ | ⟨hren, n, hn, e⟩
    · rw [e]
      refine { hfin with byRule := ?_ }
      intro hno
      obtain ⟨s, hs⟩ := hfin.wasRenamed.mp hren
      exact absurd hs (hno s)
    · subst e
      have hno : ∀ s, FieldSetting.rename s ∉ fs := by
        intro s hs
        rw [hfin.wasRenamed.mpr ⟨s, hs⟩] at hren
        cases hren
      have hname := hfin.byRule hno
      refine { hfin with renamed := fun s hs => absurd hs (hno s), byRule := fun _ => ?_ }
      simp only [RenameRule.apply, Res.ok.injEq] at hname
      rw [hname] at hn
      exact hn.symm

/-- C66: the derive compiles exactly when the attributes of the struct and of every field make sense and every name that is not given
explicitly can be renamed by the rule. -/
theorem C66_accepted_partial (S : Syn) (attrs : List Attribute) (fields : List (Str × List Attribute)) (hl : AllLiteral attrs fields) :
    (∃ r, structFromAst S attrs (.named fields) = .ok r) ↔
      ∃ ss, StructSound S attrs ss ∧ ∃ rule, ((∀ r, .rule r ∈ ss → rule = r) ∧ ((∀ r, .rule r ∉ ss) → rule = .none)) ∧
        ∀ f, f ∈ fields → ∃ fs, FieldSound S f.2 fs ∧ ((∀ s, .rename s ∉ fs) → ∃ n, rule.apply (unraw f.1) = .ok n) := by
  constructor
  · rintro ⟨⟨c, out⟩, h⟩
    obtain ⟨⟨ss, hss, hsi⟩, hlen, hf⟩ := C66_result_partial S attrs fields hl c out h
    refine ⟨ss, hss, c.rule, ⟨fun r hr => hsi.rule r hr, hsi.noRule⟩, ?_⟩
    intro f hmem
    obtain ⟨j, hj, e⟩ := List.mem_iff_getElem.mp hmem
    have hj' : fields[j]? = some f := by rw [List.getElem?_eq_getElem hj, e]
    have ho : out[j]? = some (out[j]'(by omega)) := List.getElem?_eq_getElem (by omega)
    obtain ⟨fs, hfs, hfi⟩ := hf j f _ hj' ho
    exact ⟨fs, hfs, fun hno => ⟨_, (hfi.byRule hno).symm⟩⟩
  · rintro ⟨ss, ⟨is, hc, hs, hd, hnc⟩, rule, ⟨hr1, hr2⟩, hf⟩
    have hsi := container_is S fields attrs hl.1 is ss hc hs hd
    have hrule : (containerFromAst S attrs (.named fields)).1.rule = rule := by
      by_cases hx : ∃ r, .rule r ∈ ss
      · obtain ⟨r, hr⟩ := hx
        rw [hsi.rule r hr, hr1 r hr]
      · have hx' : ∀ r, .rule r ∉ ss := fun r hr => hx ⟨r, hr⟩
        rw [hsi.noRule hx', hr2 hx']
    obtain ⟨named, hnamed⟩ := renameAll_ok (containerFromAst S attrs (.named fields)).1.rule
      ((fields.map (fun f => fieldFromAst S f.1 f.2 (containerFromAst S attrs (.named fields)).1.default)).map Prod.fst) (by
        intro a ha hren
        rw [List.map_map] at ha
        obtain ⟨f, hmem, rfl⟩ := List.mem_map.mp ha
        obtain ⟨fs, hfs, hn⟩ := hf f hmem
        have hfin := field_finish S f.1 f.2 (containerFromAst S attrs (.named fields)).1.default (hl.2 f hmem) fs hfs
        have hno : ∀ s, FieldSetting.rename s ∉ fs := by
          intro s hs
          have := hfin.wasRenamed.mpr ⟨s, hs⟩
          simp only [Function.comp] at hren
          rw [this] at hren
          cases hren
        have hname := hfin.byRule hno
        simp only [RenameRule.apply, Res.ok.injEq] at hname
        simp only [Function.comp]
        rw [hname, hrule]
        exact hn hno)
    refine ⟨((containerFromAst S attrs (.named fields)).1, named), ?_⟩
    simp only [structFromAst]
    rw [hnamed]
    dsimp only
    rw [checked_ok]
    refine ⟨rfl, ?_⟩
    rw [List.append_eq_nil_iff, List.append_eq_nil_iff]
    refine ⟨⟨(struct_read S (.named fields) rfl attrs hl.1).1.mpr ⟨is, ss, hc, hs, hd⟩, ?_⟩, ?_⟩
    · rw [List.flatten_eq_nil_iff, List.map_map]
      intro l hlm
      obtain ⟨f, hmem, rfl⟩ := List.mem_map.mp hlm
      obtain ⟨fs, hfs, _⟩ := hf f hmem
      exact (C66_field_accepted S f.1 f.2 _ (hl.2 f hmem)).mpr ⟨fs, hfs⟩
    · rw [if_neg]
      intro q
      exact hnc ((no_conflict hsi).mp q)

/-- C66: only structs with named fields compile. -/
theorem C66_only_structs (S : Syn) (attrs : List Attribute) (sh : Shape) (r : ContainerAttrs × List FieldAttrs)
    (h : structFromAst S attrs sh = .ok r) : ∃ fields, sh = .named fields := by
  cases sh with
  | named fields => exact ⟨fields, rfl⟩
  | enum => cases h
  | union => cases h
  | tuple =>
    simp only [structFromAst] at h
    rw [checked_ok] at h
    simp at h
  | unit =>
    simp only [structFromAst] at h
    rw [checked_ok] at h
    simp at h

theorem fieldIs_unique {ss : List FieldSetting} {d : Dflt} {ident : Str} {a b : FieldAttrs} (ha : FieldIs ss .none d ident a)
    (hb : FieldIs ss .none d ident b) : a = b := by
  have hn : a.name = b.name := by
    by_cases hx : ∃ s, .rename s ∈ ss
    · obtain ⟨s, hs⟩ := hx; rw [ha.renamed s hs, hb.renamed s hs]
    · have hx' : ∀ s, FieldSetting.rename s ∉ ss := fun s hs => hx ⟨s, hs⟩
      exact Res.ok.inj ((ha.byRule hx').trans (hb.byRule hx').symm)
  have hd : a.default = b.default := by
    by_cases hx : ∃ s, .default s ∈ ss
    · obtain ⟨s, hs⟩ := hx; rw [ha.default s hs, hb.default s hs]
    · have hx' : ∀ s, FieldSetting.default s ∉ ss := fun s hs => hx ⟨s, hs⟩
      exact (ha.noDefault hx').trans (hb.noDefault hx').symm
  have hrn : a.renamed = b.renamed := Bool.eq_iff_iff.mpr (ha.wasRenamed.trans hb.wasRenamed.symm)
  have h1 : a.skipSer = b.skipSer := Bool.eq_iff_iff.mpr (ha.skipSer.trans hb.skipSer.symm)
  have h2 : a.skipDe = b.skipDe := Bool.eq_iff_iff.mpr (ha.skipDe.trans hb.skipDe.symm)
  have h3 : a.nested = b.nested := Bool.eq_iff_iff.mpr (ha.nested.trans hb.nested.symm)
  have h4 : a.flatten = b.flatten := Bool.eq_iff_iff.mpr (ha.flatten.trans hb.flatten.symm)
  have h5 : a.serWith = b.serWith := Option.ext (fun p => (ha.serWith p).trans (hb.serWith p).symm)
  have h6 : a.deWith = b.deWith := Option.ext (fun p => (ha.deWith p).trans (hb.deWith p).symm)
  have h7 : a.bound = b.bound := Option.ext (fun p => (ha.bound p).trans (hb.bound p).symm)
  cases a; cases b
  simp only at hn hd hrn h1 h2 h3 h4 h5 h6 h7
  subst hn hd hrn h1 h2 h3 h4 h5 h6 h7
  rfl

theorem says_perm {S : Syn} {is js : List MetaItem} (hp : is.Perm js) : ∀ {ss : List FieldSetting}, FieldSays S is ss →
    ∃ ts, FieldSays S js ts ∧ ss.Perm ts := by
  induction hp with
  | nil => intro ss h; exact ⟨ss, h, .refl _⟩
  | cons x _ ih =>
    intro ss h
    cases h with
    | cons hm r =>
      obtain ⟨ts, ht, hp⟩ := ih r
      exact ⟨_, .cons hm ht, List.Perm.append_left _ hp⟩
  | swap x y l =>
    intro ss h
    cases h with
    | cons hm r =>
      cases r with
      | cons hm' r =>
        refine ⟨_, .cons hm' (.cons hm r), ?_⟩
        rw [← List.append_assoc, ← List.append_assoc]
        exact List.Perm.append_right _ List.perm_append_comm
  | trans _ _ ih1 ih2 =>
    intro ss h
    obtain ⟨ts, ht, hp⟩ := ih1 h
    obtain ⟨us, hu, hq⟩ := ih2 ht
    exact ⟨us, hu, hp.trans hq⟩

theorem fieldIs_perm {ss ts : List FieldSetting} {rule : RenameRule} {d : Dflt} {ident : Str} {a : FieldAttrs} (hp : ss.Perm ts)
    (h : FieldIs ss rule d ident a) : FieldIs ts rule d ident a := by
  have hm : ∀ x, x ∈ ts ↔ x ∈ ss := fun x => hp.mem_iff.symm
  constructor
  all_goals simp only [hm]
  · exact h.renamed
  · exact h.wasRenamed
  · exact h.byRule
  · exact h.skipSer
  · exact h.skipDe
  · exact h.nested
  · exact h.flatten
  · exact h.serWith
  · exact h.deWith
  · exact h.bound
  · exact h.default
  · exact h.noDefault

/-- C66: neither the order of the items nor how they are spread over `#[klickhouse(...)]` attributes matters. -/
theorem C66_order (S : Syn) (ident : Str) (as bs : List Attribute) (is js : List MetaItem) (d : Dflt) (a : FieldAttrs)
    (hli : QuotedValue is) (ha : Collected as is) (hb : Collected bs js) (hp : is.Perm js)
    (h : fieldFromAst S ident as d = (a, [])) : fieldFromAst S ident bs d = (a, []) := by
  have lit : ∀ {cs : List Attribute} {ks : List MetaItem}, Collected cs ks → QuotedValue ks → ∀ l, .items l ∈ cs → QuotedValue l := by
    intro cs ks hc
    induction hc with
    | nil => intro _ l hm; cases hm
    | other r ih =>
      intro hk l hm
      rcases List.mem_cons.mp hm with e | hm
      · cases e
      · exact ih hk l hm
    | items l' r ih =>
      intro hk l hm
      rcases List.mem_cons.mp hm with e | hm
      · cases e; exact fun p q => hk p (List.mem_append_left _ q)
      · exact ih (fun p q => hk p (List.mem_append_right _ q)) l hm
  have hlj : QuotedValue js := fun p q => hli p (hp.mem_iff.mpr q)
  have la := lit ha hli
  have lb := lit hb hlj
  have h2 : (fieldFromAst S ident as d).2 = [] := by rw [h]
  obtain ⟨ss, hs⟩ := (C66_field_accepted S ident as d la).mp h2
  obtain ⟨is', hc', hsay, hnd⟩ := hs
  have e : is' = is := FieldVars.collected_unique hc' ha
  subst e
  obtain ⟨ts, ht, hpt⟩ := says_perm hp hsay
  have hsound : FieldSound S bs ts := ⟨js, hb, ht, (hpt.map _).nodup_iff.mp hnd⟩
  have h2' : (fieldFromAst S ident bs d).2 = [] := (C66_field_accepted S ident bs d lb).mpr ⟨ts, hsound⟩
  have f1 := field_finish S ident as d la ss ⟨_, ha, hsay, hnd⟩
  have f2 := field_finish S ident bs d lb ts hsound
  have e1 : (fieldFromAst S ident bs d).1 = a := by
    have := fieldIs_unique (fieldIs_perm hpt f1) f2
    rw [← this, h]
  exact Prod.ext e1 h2'

/-- C66 is false of the code as stated: an attribute whose value is not a literal, such as `rename = NAME`, is neither obeyed nor
reported. The struct compiles and the column keeps the name of the field. -/
theorem C66_ignored_false : ¬ ∀ (S : Syn) (attrs : List Attribute) (fields : List (Str × List Attribute))
    (r : ContainerAttrs × List FieldAttrs), structFromAst S attrs (.named fields) = .ok r →
    ∀ f, f ∈ fields → ∃ ss, FieldSound S f.2 ss := by
  intro h
  obtain ⟨ss, is, hc, hs, _⟩ := h ⟨fun _ => none, fun _ => none, fun _ => none⟩ []
    [(ch! "id", [.items [.nameValue (ch! "rename") .expr]])] _ rfl _ (List.mem_cons_self ..)
  cases hc with
  | items _ r =>
    cases r
    cases hs with
    | cons hm _ => cases hm

/-- The same struct: its only column is called `id`. -/
example : structFromAst ⟨fun _ => none, fun _ => none, fun _ => none⟩ [] (.named [(ch! "id", [.items [.nameValue (ch! "rename") .expr]])]) =
    .ok (⟨false, .none, .none, none, none, none, none⟩,
      [⟨ch! "id", false, false, false, .none, none, none, none, false, false⟩]) := rfl

/-- A parser for the examples: paths without `::`. -/
def exSyn : Syn := ⟨fun s => some [s], fun s => some [s], fun s => some s⟩
/-- `#[klickhouse(rename_all = "camelCase")]` with a renamed, a skipped and a converted field; attributes of other crates in
between. -/
def exAttrs : List Attribute := [.other, .items [.nameValue (ch! "rename_all") (.str (ch! "camelCase"))]]
/-- Its fields. -/
def exFields : List (Str × List Attribute) :=
  [(ch! "row_id", []), (ch! "b", [.items [.nameValue (ch! "rename") (.str (ch! "B"))], .other]),
   (ch! "r#type", [.items [.path (ch! "skip")]]), (ch! "when_at", [.items [.nameValue (ch! "with") (.str (ch! "times"))]])]

example : AllLiteral exAttrs exFields := by
  refine ⟨?_, ?_⟩
  · intro l hl p hp
    simp only [exAttrs, List.mem_cons, List.not_mem_nil, or_false] at hl
    rcases hl with h | h <;> cases h
    simp at hp
  · intro f hf l hl p hp
    simp only [exFields, List.mem_cons, List.not_mem_nil, or_false] at hf
    rcases hf with h | h | h | h <;> subst h
    · cases hl
    · simp at hl; subst hl; simp at hp
    · simp at hl; subst hl; simp at hp
    · simp at hl; subst hl; simp at hp

example : structFromAst exSyn exAttrs (.named exFields) =
    .ok (⟨false, .none, .camelCase, none, none, none, none⟩,
      [⟨ch! "rowId", false, false, false, .none, none, none, none, false, false⟩,
       ⟨ch! "B", true, false, false, .none, none, none, none, false, false⟩,
       ⟨ch! "type", false, true, true, .default, none, none, none, false, false⟩,
       ⟨ch! "whenAt", false, false, false, .none, some [ch! "times", ch! "to_sql"], some [ch! "times", ch! "from_sql"], none,
        false, false⟩]) := rfl

/-- Said twice: an error. -/
example : (fieldFromAst exSyn (ch! "a") [.items [.path (ch! "skip"), .path (ch! "skip_serializing")]] .none).2 =
    [.duplicate (ch! "skip_serializing")] := rfl

end Klick
