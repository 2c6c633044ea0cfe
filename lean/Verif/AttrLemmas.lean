import Verif.Spec.Attr
/-
The loops over attributes as folds over settings.
-/
namespace Klick
open Spec

namespace FieldVars

/-- Take one setting into the variables. -/
def put (st : FieldVars) : FieldSetting → FieldVars
  | .rename s => st.setRename s
  | .nested => st.setNested
  | .skipSer => st.setSkipSer
  | .skipDe => st.setSkipDe
  | .flatten => st.setFlatten
  | .default d => st.setDefault d
  | .serWith p => st.setSerWith p
  | .deWith p => st.setDeWith p
  | .bound p => st.setBound p

/-- Is the variable of a topic set? -/
def has (st : FieldVars) : FieldTopic → Bool
  | .rename => st.rename.isSome
  | .nested => st.nested.isSome
  | .skipSer => st.skipSer.isSome
  | .skipDe => st.skipDe.isSome
  | .flatten => st.flatten.isSome
  | .default => st.default.isSome
  | .serWith => st.serWith.isSome
  | .deWith => st.deWith.isSome
  | .bound => st.bound.isSome

/-- Do the variables hold a setting? -/
def holds (st : FieldVars) : FieldSetting → Prop
  | .rename s => st.rename = some s
  | .nested => st.nested = some ()
  | .skipSer => st.skipSer = some ()
  | .skipDe => st.skipDe = some ()
  | .flatten => st.flatten = some ()
  | .default d => st.default = some d
  | .serWith p => st.serWith = some p
  | .deWith p => st.deWith = some p
  | .bound p => st.bound = some p

theorem attrSet_none {α : Type} (n : Str) (v : α) : attrSet n none v = (some v, []) := rfl
theorem attrSet_some {α : Type} (n : Str) (v x : α) : attrSet n (some x) v = (some x, [.duplicate n]) := rfl

theorem put_errs (st : FieldVars) (x : FieldSetting) : ((st.put x).errs = [] ↔ st.errs = [] ∧ st.has x.topic = false) := by
  cases x <;> simp only [put, setRename, setNested, setSkipSer, setSkipDe, setFlatten, setDefault, setSerWith, setDeWith, setBound, has,
    FieldSetting.topic]
  · cases st.rename <;> simp [attrSet]
  · cases st.nested <;> simp [attrSet]
  · cases st.skipSer <;> simp [attrSet]
  · cases st.skipDe <;> simp [attrSet]
  · cases st.flatten <;> simp [attrSet]
  · cases st.default <;> simp [attrSet]
  · cases st.serWith <;> simp [attrSet]
  · cases st.deWith <;> simp [attrSet]
  · cases st.bound <;> simp [attrSet]

theorem put_has (st : FieldVars) (x : FieldSetting) (t : FieldTopic) : (st.put x).has t = (st.has t || (x.topic == t)) := by
  cases x <;> simp only [put, setRename, setNested, setSkipSer, setSkipDe, setFlatten, setDefault, setSerWith, setDeWith, setBound,
    FieldSetting.topic]
  · cases h : st.rename <;> cases t <;> simp [attrSet, has, h]
  · cases h : st.nested <;> cases t <;> simp [attrSet, has, h]
  · cases h : st.skipSer <;> cases t <;> simp [attrSet, has, h]
  · cases h : st.skipDe <;> cases t <;> simp [attrSet, has, h]
  · cases h : st.flatten <;> cases t <;> simp [attrSet, has, h]
  · cases h : st.default <;> cases t <;> simp [attrSet, has, h]
  · cases h : st.serWith <;> cases t <;> simp [attrSet, has, h]
  · cases h : st.deWith <;> cases t <;> simp [attrSet, has, h]
  · cases h : st.bound <;> cases t <;> simp [attrSet, has, h]

theorem put_holds (st : FieldVars) (x y : FieldSetting) (hn : st.has x.topic = false) : ((st.put x).holds y ↔ st.holds y ∨ y = x) := by
  cases x <;> simp only [FieldSetting.topic, has, Option.isSome_eq_false_iff, Option.isNone_iff_eq_none] at hn <;>
    simp only [put, setRename, setNested, setSkipSer, setSkipDe, setFlatten, setDefault, setSerWith, setDeWith, setBound, hn, attrSet] <;>
    cases y <;> simp [holds, hn] <;> exact eq_comm

theorem puts_spec : ∀ (ss : List FieldSetting) (st : FieldVars),
    ((ss.foldl put st).errs = [] ↔
      st.errs = [] ∧ (ss.map FieldSetting.topic).Nodup ∧ ∀ x, x ∈ ss → st.has x.topic = false) ∧
    ((ss.foldl put st).errs = [] → ∀ y, (ss.foldl put st).holds y ↔ st.holds y ∨ y ∈ ss) ∧
    (∀ t, (ss.foldl put st).has t = (st.has t || ss.any (fun x => x.topic == t)))
  | [], st => by simp
  | x :: ss, st => by
    obtain ⟨h1, h2, h3⟩ := puts_spec ss (st.put x)
    have he : ((x :: ss).foldl put st).errs = [] ↔
      st.errs = [] ∧ ((x :: ss).map FieldSetting.topic).Nodup ∧ ∀ y, y ∈ x :: ss → st.has y.topic = false := by
      rw [List.foldl_cons, h1, put_errs]
      simp only [List.map_cons, List.nodup_cons, List.mem_cons, List.mem_map, forall_eq_or_imp]
      constructor
      · rintro ⟨⟨a, b⟩, c, d⟩
        refine ⟨a, ⟨?_, c⟩, b, fun y hy => ?_⟩
        · rintro ⟨y, hy, e⟩
          have := d y hy
          rw [put_has, ← e] at this
          simp at this
        · have := d y hy
          rw [put_has] at this
          simp at this
          exact this.1
      · rintro ⟨a, ⟨b, c⟩, d, e⟩
        refine ⟨⟨a, d⟩, c, fun y hy => ?_⟩
        rw [put_has, e y hy, Bool.false_or]
        have : x.topic ≠ y.topic := fun q => b ⟨y, hy, q.symm⟩
        simpa using this
    refine ⟨he, ?_, ?_⟩
    · intro hz y
      have hz' := he.mp hz
      rw [List.foldl_cons] at hz ⊢
      rw [h2 hz y, put_holds st x y (hz'.2.2 x (List.mem_cons_self ..)), List.mem_cons, or_assoc]
    · intro t
      rw [List.foldl_cons, h3, put_has, List.any_cons, Bool.or_assoc]

/-- An item that is not an expression either means settings, which are then taken in, or is an error. -/
theorem item_spec (S : Syn) (i : MetaItem) (hl : ∀ p, i ≠ .nameValue p .expr) :
    (∃ ss, FieldMeans S i ss ∧ ∀ st, item S st i = ss.foldl put st) ∨
    ((∀ ss, ¬ FieldMeans S i ss) ∧ ∃ e, ∀ st, item S st i = st.err e) := by
  cases i with
  | list p => exact .inr ⟨(by intro ss h; cases h), _, fun st => rfl⟩
  | path p =>
    by_cases h1 : p = ch! "default"
    · subst h1; exact .inl ⟨_, .default, fun st => rfl⟩
    by_cases h2 : p = ch! "skip_serializing"
    · subst h2; exact .inl ⟨_, .skipSer, fun st => rfl⟩
    by_cases h3 : p = ch! "nested"
    · subst h3; exact .inl ⟨_, .nested, fun st => rfl⟩
    by_cases h4 : p = ch! "flatten"
    · subst h4; exact .inl ⟨_, .flatten, fun st => rfl⟩
    by_cases h5 : p = ch! "skip_deserializing"
    · subst h5; exact .inl ⟨_, .skipDe, fun st => rfl⟩
    by_cases h6 : p = ch! "skip"
    · subst h6; exact .inl ⟨_, .skip, fun st => rfl⟩
    refine .inr ⟨?_, .unknown p, fun st => ?_⟩
    · intro ss h; cases h <;> contradiction
    · simp only [item, if_neg h1, if_neg h2, if_neg h3, if_neg h4, if_neg h5, if_neg h6]
  | nameValue p v =>
    by_cases h1 : p = ch! "rename"
    · subst h1
      cases v with
      | str s => exact .inl ⟨_, .rename s, fun st => rfl⟩
      | lit => exact .inr ⟨(by intro ss h; cases h), .notString (ch! "rename"), fun st => rfl⟩
      | expr => exact absurd rfl (hl _)
    by_cases h2 : p = ch! "default"
    · subst h2
      cases v with
      | str s =>
        cases hp : S.path s with
        | some q =>
          refine .inl ⟨_, .defaultPath s q hp, fun st => ?_⟩
          simp only [item, if_neg h1, if_true, onPath, onStr, hp]; rfl
        | none =>
          refine .inr ⟨?_, .badPath s, fun st => ?_⟩
          · intro ss h; cases h; rename_i h; rw [hp] at h; cases h
          · simp only [item, if_neg h1, if_true, onPath, onStr, hp]
      | lit => exact .inr ⟨(by intro ss h; cases h), .notString (ch! "default"), fun st => rfl⟩
      | expr => exact absurd rfl (hl _)
    by_cases h3 : p = ch! "serialize_with"
    · subst h3
      cases v with
      | str s =>
        cases hp : S.path s with
        | some q =>
          refine .inl ⟨_, .serWith s q hp, fun st => ?_⟩
          simp only [item, if_neg h1, if_neg h2, if_true, onPath, onStr, hp]; rfl
        | none =>
          refine .inr ⟨?_, .badPath s, fun st => ?_⟩
          · intro ss h; cases h; rename_i h; rw [hp] at h; cases h
          · simp only [item, if_neg h1, if_neg h2, if_true, onPath, onStr, hp]
      | lit => exact .inr ⟨(by intro ss h; cases h), .notString (ch! "serialize_with"), fun st => rfl⟩
      | expr => exact absurd rfl (hl _)
    by_cases h4 : p = ch! "deserialize_with"
    · subst h4
      cases v with
      | str s =>
        cases hp : S.path s with
        | some q =>
          refine .inl ⟨_, .deWith s q hp, fun st => ?_⟩
          simp only [item, if_neg h1, if_neg h2, if_neg h3, if_true, onPath, onStr, hp]; rfl
        | none =>
          refine .inr ⟨?_, .badPath s, fun st => ?_⟩
          · intro ss h; cases h; rename_i h; rw [hp] at h; cases h
          · simp only [item, if_neg h1, if_neg h2, if_neg h3, if_true, onPath, onStr, hp]
      | lit => exact .inr ⟨(by intro ss h; cases h), .notString (ch! "deserialize_with"), fun st => rfl⟩
      | expr => exact absurd rfl (hl _)
    by_cases h5 : p = ch! "with"
    · subst h5
      cases v with
      | str s =>
        cases hp : S.path s with
        | some q =>
          refine .inl ⟨_, .withModule s q hp, fun st => ?_⟩
          simp only [item, if_neg h1, if_neg h2, if_neg h3, if_neg h4, if_true, onPath, onStr, hp]; rfl
        | none =>
          refine .inr ⟨?_, .badPath s, fun st => ?_⟩
          · intro ss h; cases h; rename_i h; rw [hp] at h; cases h
          · simp only [item, if_neg h1, if_neg h2, if_neg h3, if_neg h4, if_true, onPath, onStr, hp]
      | lit => exact .inr ⟨(by intro ss h; cases h), .notString (ch! "with"), fun st => rfl⟩
      | expr => exact absurd rfl (hl _)
    by_cases h6 : p = ch! "bound"
    · subst h6
      cases v with
      | str s =>
        by_cases hs : s = []
        · subst hs; exact .inl ⟨_, .noBound, fun st => rfl⟩
        cases hp : S.preds s with
        | some q =>
          refine .inl ⟨_, .bound s q hs hp, fun st => ?_⟩
          simp only [item, if_neg h1, if_neg h2, if_neg h3, if_neg h4, if_neg h5, if_true, onPreds, onStr, hp, if_neg hs]; rfl
        | none =>
          refine .inr ⟨?_, .badPreds s, fun st => ?_⟩
          · intro ss h
            cases h with
            | noBound => exact hs rfl
            | bound _ _ _ h => rw [hp] at h; cases h
          · simp only [item, if_neg h1, if_neg h2, if_neg h3, if_neg h4, if_neg h5, if_true, onPreds, onStr, hp, if_neg hs]
      | lit => exact .inr ⟨(by intro ss h; cases h), .notString (ch! "bound"), fun st => rfl⟩
      | expr => exact absurd rfl (hl _)
    refine .inr ⟨?_, .unknown p, fun st => ?_⟩
    · intro ss h; cases h <;> contradiction
    · simp only [item, if_neg h1, if_neg h2, if_neg h3, if_neg h4, if_neg h5, if_neg h6]

theorem put_errs_ne (st : FieldVars) (x : FieldSetting) (h : st.errs ≠ []) : (st.put x).errs ≠ [] := by
  intro e; exact h ((put_errs st x).mp e).1

theorem puts_errs_ne (ss : List FieldSetting) (st : FieldVars) (h : st.errs ≠ []) : (ss.foldl put st).errs ≠ [] := by
  intro e; exact h ((puts_spec ss st).1.mp e).1

theorem err_ne (st : FieldVars) (e : AttrErr) : (st.err e).errs ≠ [] := by simp [err]

theorem means_unique {S : Syn} {i : MetaItem} {a b : List FieldSetting} (ha : FieldMeans S i a) (hb : FieldMeans S i b) : a = b := by
  cases ha <;> cases hb <;> first | rfl | (rename_i h1 _ h2; rw [h1] at h2; cases h2; rfl) | contradiction | simp_all

theorem says_append {S : Syn} : ∀ {is js : List MetaItem} {a b : List FieldSetting}, FieldSays S is a → FieldSays S js b → FieldSays S (is ++ js) (a ++ b)
  | _, _, _, _, .nil, hb => hb
  | _, _, _, _, .cons (a := x) (b := y) h r, hb => by
    rw [List.append_assoc]; exact .cons h (says_append r hb)

theorem items_ne (S : Syn) : ∀ (is : List MetaItem) (_ : QuotedValue is) (st : FieldVars), st.errs ≠ [] → (is.foldl (item S) st).errs ≠ []
  | [], _, _, h => h
  | i :: is, hl, st, h => by
    have hl' : QuotedValue is := fun p m => hl p (List.mem_cons_of_mem _ m)
    rcases item_spec S i (fun p e => hl p (e ▸ List.mem_cons_self ..)) with ⟨ss, _, hs⟩ | ⟨_, e, he⟩
    · rw [List.foldl_cons, hs]; exact items_ne S is hl' _ (puts_errs_ne ss st h)
    · rw [List.foldl_cons, he]; exact items_ne S is hl' _ (err_ne st e)

theorem items_spec (S : Syn) : ∀ (is : List MetaItem) (_ : QuotedValue is) (st : FieldVars),
    (∃ ss, FieldSays S is ss ∧ is.foldl (item S) st = ss.foldl put st) ∨
    ((∀ ss, ¬ FieldSays S is ss) ∧ (is.foldl (item S) st).errs ≠ [])
  | [], _, st => .inl ⟨[], .nil, rfl⟩
  | i :: is, hl, st => by
    have hl' : QuotedValue is := fun p m => hl p (List.mem_cons_of_mem _ m)
    rcases item_spec S i (fun p e => hl p (e ▸ List.mem_cons_self ..)) with ⟨ss, hm, hs⟩ | ⟨hn, e, he⟩
    · rcases items_spec S is hl' (ss.foldl put st) with ⟨ss', hm', hs'⟩ | ⟨hn', he'⟩
      · exact .inl ⟨ss ++ ss', .cons hm hm', by rw [List.foldl_cons, hs, hs', List.foldl_append]⟩
      · refine .inr ⟨fun x h => ?_, by rw [List.foldl_cons, hs]; exact he'⟩
        cases h with
        | cons _ r => exact hn' _ r
    · refine .inr ⟨fun x h => ?_, by rw [List.foldl_cons, he]; exact items_ne S is hl' _ (err_ne st e)⟩
      cases h with
      | cons h _ => exact hn _ h

theorem says_unique {S : Syn} : ∀ {is : List MetaItem} {a b : List FieldSetting}, FieldSays S is a → FieldSays S is b → a = b
  | _, _, _, .nil, .nil => rfl
  | _, _, _, .cons h r, .cons h' r' => by rw [means_unique h h', says_unique r r']

theorem attrs_ne (S : Syn) : ∀ (as : List Attribute) (_ : ∀ l, .items l ∈ as → QuotedValue l) (st : FieldVars), st.errs ≠ [] →
    (as.foldl (oneAttr S) st).errs ≠ []
  | [], _, _, h => h
  | a :: as, hl, st, h => by
    have hl' : ∀ l, .items l ∈ as → QuotedValue l := fun l m => hl l (List.mem_cons_of_mem _ m)
    rw [List.foldl_cons]
    refine attrs_ne S as hl' _ ?_
    cases a with
    | other => exact h
    | malformed => exact err_ne st _
    | items l => exact items_ne S l (hl l (List.mem_cons_self ..)) st h

theorem attrs_spec (S : Syn) : ∀ (as : List Attribute) (_ : ∀ l, .items l ∈ as → QuotedValue l) (st : FieldVars),
    (∃ is ss, Collected as is ∧ FieldSays S is ss ∧ as.foldl (oneAttr S) st = ss.foldl put st) ∨
    ((∀ is ss, Collected as is → ¬ FieldSays S is ss) ∧ (as.foldl (oneAttr S) st).errs ≠ [])
  | [], _, st => .inl ⟨[], [], .nil, .nil, rfl⟩
  | a :: as, hl, st => by
    have hl' : ∀ l, .items l ∈ as → QuotedValue l := fun l m => hl l (List.mem_cons_of_mem _ m)
    cases a with
    | other =>
      rcases attrs_spec S as hl' st with ⟨is, ss, hc, hs, he⟩ | ⟨hn, he⟩
      · exact .inl ⟨is, ss, .other hc, hs, he⟩
      · refine .inr ⟨fun is ss hc hs => ?_, he⟩
        cases hc with
        | other r => exact hn _ _ r hs
    | malformed =>
      exact .inr ⟨(by intro is ss hc; cases hc), attrs_ne S as hl' _ (err_ne st _)⟩
    | items l =>
      rcases items_spec S l (hl l (List.mem_cons_self ..)) st with ⟨ss, hs, he⟩ | ⟨hn, he⟩
      · rcases attrs_spec S as hl' (ss.foldl put st) with ⟨is', ss', hc', hs', he'⟩ | ⟨hn', he'⟩
        · refine .inl ⟨l ++ is', ss ++ ss', .items l hc', says_append hs hs', ?_⟩
          rw [List.foldl_cons, List.foldl_append]
          show as.foldl (oneAttr S) (l.foldl (item S) st) = _
          rw [he, he']
        · refine .inr ⟨fun is x hc h => ?_, ?_⟩
          · cases hc with
            | items _ r =>
              obtain ⟨b, hb⟩ := says_suffix l _ x h
              exact hn' _ _ r hb
          · rw [List.foldl_cons]
            show (as.foldl (oneAttr S) (l.foldl (item S) st)).errs ≠ []
            rw [he]; exact he'
      · refine .inr ⟨fun is x hc h => ?_, ?_⟩
        · cases hc with
          | items _ r =>
            obtain ⟨b, hb⟩ := says_prefix l _ x h
            exact hn _ hb
        · rw [List.foldl_cons]; exact attrs_ne S as hl' _ he
where
  says_suffix {S : Syn} : ∀ (l is : List MetaItem) (x : List FieldSetting), FieldSays S (l ++ is) x → ∃ b, FieldSays S is b
    | [], _, x, h => ⟨x, h⟩
    | _ :: l, is, _, .cons _ r => says_suffix l is _ r
  says_prefix {S : Syn} : ∀ (l is : List MetaItem) (x : List FieldSetting), FieldSays S (l ++ is) x → ∃ b, FieldSays S l b
    | [], _, _, _ => ⟨[], .nil⟩
    | _ :: l, is, _, .cons h r => (says_prefix l is _ r).elim fun _ hb => ⟨_, .cons h hb⟩

theorem collected_unique : ∀ {as : List Attribute} {a b : List MetaItem}, Collected as a → Collected as b → a = b
  | _, _, _, .nil, .nil => rfl
  | _, _, _, .other r, .other r' => collected_unique r r'
  | _, _, _, .items l r, .items _ r' => by rw [collected_unique r r']

end FieldVars
end Klick
