import Verif.AttrLemmas
/-
The same for the attributes of the struct itself.
-/
namespace Klick
open Spec

theorem ruleText_iff (s : Str) (r : RenameRule) : RuleText s r ↔ RenameRule.fromStr s = some r := by
  constructor
  · intro h; cases h <;> rfl
  · intro h
    simp only [RenameRule.fromStr, renameRules, List.find?_cons, Option.map_eq_some_iff] at h
    obtain ⟨⟨n, r'⟩, h, rfl⟩ := h
    revert h
    by_cases h1 : s = ch! "lowercase"
    · subst h1; intro h; cases h; exact .lower
    by_cases h2 : s = ch! "UPPERCASE"
    · subst h2; intro h; cases h; exact .upper
    by_cases h3 : s = ch! "PascalCase"
    · subst h3; intro h; cases h; exact .pascal
    by_cases h4 : s = ch! "camelCase"
    · subst h4; intro h; cases h; exact .camel
    by_cases h5 : s = ch! "snake_case"
    · subst h5; intro h; cases h; exact .snake
    by_cases h6 : s = ch! "SCREAMING_SNAKE_CASE"
    · subst h6; intro h; cases h; exact .screamingSnake
    by_cases h7 : s = ch! "kebab-case"
    · subst h7; intro h; cases h; exact .kebab
    by_cases h8 : s = ch! "SCREAMING-KEBAB-CASE"
    · subst h8; intro h; cases h; exact .screamingKebab
    rw [beq_false_of_ne h1, beq_false_of_ne h2, beq_false_of_ne h3, beq_false_of_ne h4, beq_false_of_ne h5, beq_false_of_ne h6,
      beq_false_of_ne h7, beq_false_of_ne h8]
    intro h; cases h

namespace ContainerVars

/-- Take one setting into the variables. -/
def put (st : ContainerVars) : StructSetting → ContainerVars
  | .rename s => st.setRename s
  | .denyUnknown => st.setDeny
  | .default d => st.setDefault d
  | .rule r => st.setRule r
  | .bound p => st.setBound p
  | .typeFrom t => st.setFrom t
  | .typeTryFrom t => st.setTryFrom t
  | .typeInto t => st.setInto t

/-- Is the variable of a topic set? -/
def has (st : ContainerVars) : StructTopic → Bool
  | .rename => st.rename.isSome
  | .denyUnknown => st.denyUnknown.isSome
  | .default => st.default.isSome
  | .rule => st.rule.isSome
  | .bound => st.bound.isSome
  | .typeFrom => st.typeFrom.isSome
  | .typeTryFrom => st.typeTryFrom.isSome
  | .typeInto => st.typeInto.isSome

/-- Do the variables hold a setting? -/
def holds (st : ContainerVars) : StructSetting → Prop
  | .rename s => st.rename = some s
  | .denyUnknown => st.denyUnknown = some ()
  | .default d => st.default = some d
  | .rule r => st.rule = some r
  | .bound p => st.bound = some p
  | .typeFrom t => st.typeFrom = some t
  | .typeTryFrom t => st.typeTryFrom = some t
  | .typeInto t => st.typeInto = some t

theorem put_errs (st : ContainerVars) (x : StructSetting) : ((st.put x).errs = [] ↔ st.errs = [] ∧ st.has x.topic = false) := by
  cases x <;> simp only [put, setRename, setDeny, setDefault, setRule, setBound, setFrom, setTryFrom, setInto, has, StructSetting.topic]
  · cases st.rename <;> simp [attrSet]
  · cases st.denyUnknown <;> simp [attrSet]
  · cases st.default <;> simp [attrSet]
  · cases st.rule <;> simp [attrSet]
  · cases st.bound <;> simp [attrSet]
  · cases st.typeFrom <;> simp [attrSet]
  · cases st.typeTryFrom <;> simp [attrSet]
  · cases st.typeInto <;> simp [attrSet]

theorem put_has (st : ContainerVars) (x : StructSetting) (t : StructTopic) : (st.put x).has t = (st.has t || (x.topic == t)) := by
  cases x <;> simp only [put, setRename, setDeny, setDefault, setRule, setBound, setFrom, setTryFrom, setInto, StructSetting.topic]
  · cases h : st.rename <;> cases t <;> simp [attrSet, has, h]
  · cases h : st.denyUnknown <;> cases t <;> simp [attrSet, has, h]
  · cases h : st.default <;> cases t <;> simp [attrSet, has, h]
  · cases h : st.rule <;> cases t <;> simp [attrSet, has, h]
  · cases h : st.bound <;> cases t <;> simp [attrSet, has, h]
  · cases h : st.typeFrom <;> cases t <;> simp [attrSet, has, h]
  · cases h : st.typeTryFrom <;> cases t <;> simp [attrSet, has, h]
  · cases h : st.typeInto <;> cases t <;> simp [attrSet, has, h]

theorem put_holds (st : ContainerVars) (x y : StructSetting) (hn : st.has x.topic = false) :
    ((st.put x).holds y ↔ st.holds y ∨ y = x) := by
  cases x <;> simp only [StructSetting.topic, has, Option.isSome_eq_false_iff, Option.isNone_iff_eq_none] at hn <;>
    simp only [put, setRename, setDeny, setDefault, setRule, setBound, setFrom, setTryFrom, setInto, hn, attrSet] <;>
    cases y <;> simp [holds, hn] <;> exact eq_comm

theorem puts_spec : ∀ (ss : List StructSetting) (st : ContainerVars),
    ((ss.foldl put st).errs = [] ↔
      st.errs = [] ∧ (ss.map StructSetting.topic).Nodup ∧ ∀ x, x ∈ ss → st.has x.topic = false) ∧
    ((ss.foldl put st).errs = [] → ∀ y, (ss.foldl put st).holds y ↔ st.holds y ∨ y ∈ ss)
  | [], st => by simp
  | x :: ss, st => by
    obtain ⟨h1, h2⟩ := puts_spec ss (st.put x)
    have he : ((x :: ss).foldl put st).errs = [] ↔
      st.errs = [] ∧ ((x :: ss).map StructSetting.topic).Nodup ∧ ∀ y, y ∈ x :: ss → st.has y.topic = false := by
      rw [List.foldl_cons, h1, put_errs]
      simp only [List.map_cons, List.nodup_cons, List.mem_cons, List.mem_map, forall_eq_or_imp]
      constructor
      · rintro ⟨⟨a, b⟩, c, d⟩
        refine ⟨a, ⟨?_, c⟩, b, fun y hy => ?_⟩
        · rintro ⟨y, hy, e⟩
          have := d y hy
          rw [put_has, ← e] at this
          simp at this
        · have := d y hy
          rw [put_has] at this
          simp at this
          exact this.1
      · rintro ⟨a, ⟨b, c⟩, d, e⟩
        refine ⟨⟨a, d⟩, c, fun y hy => ?_⟩
        rw [put_has, e y hy, Bool.false_or]
        have : x.topic ≠ y.topic := fun q => b ⟨y, hy, q.symm⟩
        simpa using this
    refine ⟨he, ?_⟩
    intro hz y
    have hz' := he.mp hz
    rw [List.foldl_cons] at hz ⊢
    rw [h2 hz y, put_holds st x y (hz'.2.2 x (List.mem_cons_self ..)), List.mem_cons, or_assoc]

theorem item_spec (S : Syn) (sh : Shape) (hsh : sh.isNamed = true) (i : MetaItem) (hl : ∀ p, i ≠ .nameValue p .expr) :
    (∃ x, StructMeans S i x ∧ ∀ st, item S sh st i = put st x) ∨
    ((∀ x, ¬ StructMeans S i x) ∧ ∃ e, ∀ st, item S sh st i = st.err e) := by
  cases i with
  | list p => exact .inr ⟨(by intro ss h; cases h), _, fun st => rfl⟩
  | path p =>
    by_cases h1 : p = ch! "deny_unknown_fields"
    · subst h1; exact .inl ⟨_, .deny, fun st => rfl⟩
    by_cases h2 : p = ch! "default"
    · subst h2
      refine .inl ⟨_, .default, fun st => ?_⟩
      simp only [item, if_neg h1, if_true, hsh]; rfl
    refine .inr ⟨?_, .unknown p, fun st => ?_⟩
    · intro ss h; cases h <;> contradiction
    · simp only [item, if_neg h1, if_neg h2]
  | nameValue p v =>
    by_cases h1 : p = ch! "rename"
    · subst h1
      cases v with
      | str s => exact .inl ⟨_, .rename s, fun st => rfl⟩
      | lit => exact .inr ⟨(by intro ss h; cases h), .notString (ch! "rename"), fun st => rfl⟩
      | expr => exact absurd rfl (hl _)
    by_cases h2 : p = ch! "rename_all"
    · subst h2
      cases v with
      | str s =>
        cases hp : RenameRule.fromStr s with
        | some q =>
          refine .inl ⟨_, .rule s q ((ruleText_iff s q).mpr hp), fun st => ?_⟩
          simp only [item, if_neg h1, if_true, onStr, hp]; rfl
        | none =>
          refine .inr ⟨?_, .badRule s, fun st => ?_⟩
          · intro ss h; cases h; rename_i h; rw [ruleText_iff, hp] at h; cases h
          · simp only [item, if_neg h1, if_true, onStr, hp]
      | lit => exact .inr ⟨(by intro ss h; cases h), .notString (ch! "rename_all"), fun st => rfl⟩
      | expr => exact absurd rfl (hl _)
    by_cases h3 : p = ch! "default"
    · subst h3
      cases v with
      | str s =>
        cases hp : S.path s with
        | some q =>
          refine .inl ⟨_, .defaultPath s q hp, fun st => ?_⟩
          simp only [item, if_neg h1, if_neg h2, if_true, onPath, onStr, hp, hsh]; rfl
        | none =>
          refine .inr ⟨?_, .badPath s, fun st => ?_⟩
          · intro ss h; cases h; rename_i h; rw [hp] at h; cases h
          · simp only [item, if_neg h1, if_neg h2, if_true, onPath, onStr, hp]
      | lit => exact .inr ⟨(by intro ss h; cases h), .notString (ch! "default"), fun st => rfl⟩
      | expr => exact absurd rfl (hl _)
    by_cases h4 : p = ch! "bound"
    · subst h4
      cases v with
      | str s =>
        by_cases hs : s = []
        · subst hs; exact .inl ⟨_, .noBound, fun st => rfl⟩
        cases hp : S.preds s with
        | some q =>
          refine .inl ⟨_, .bound s q hs hp, fun st => ?_⟩
          simp only [item, if_neg h1, if_neg h2, if_neg h3, if_true, onPreds, onStr, hp, if_neg hs]; rfl
        | none =>
          refine .inr ⟨?_, .badPreds s, fun st => ?_⟩
          · intro ss h
            cases h with
            | noBound => exact hs rfl
            | bound _ _ _ h => rw [hp] at h; cases h
          · simp only [item, if_neg h1, if_neg h2, if_neg h3, if_true, onPreds, onStr, hp, if_neg hs]
      | lit => exact .inr ⟨(by intro ss h; cases h), .notString (ch! "bound"), fun st => rfl⟩
      | expr => exact absurd rfl (hl _)
    by_cases h5 : p = ch! "from"
    · subst h5
      cases v with
      | str s =>
        cases hp : S.type s with
        | some q =>
          refine .inl ⟨_, .typeFrom s q hp, fun st => ?_⟩
          simp only [item, if_neg h1, if_neg h2, if_neg h3, if_neg h4, if_true, onType, onStr, hp]; rfl
        | none =>
          refine .inr ⟨?_, .badType (ch! "from") s, fun st => ?_⟩
          · intro ss h; cases h; rename_i h; rw [hp] at h; cases h
          · simp only [item, if_neg h1, if_neg h2, if_neg h3, if_neg h4, if_true, onType, onStr, hp]
      | lit => exact .inr ⟨(by intro ss h; cases h), .notString (ch! "from"), fun st => rfl⟩
      | expr => exact absurd rfl (hl _)
    by_cases h6 : p = ch! "try_from"
    · subst h6
      cases v with
      | str s =>
        cases hp : S.type s with
        | some q =>
          refine .inl ⟨_, .typeTryFrom s q hp, fun st => ?_⟩
          simp only [item, if_neg h1, if_neg h2, if_neg h3, if_neg h4, if_neg h5, if_true, onType, onStr, hp]; rfl
        | none =>
          refine .inr ⟨?_, .badType (ch! "try_from") s, fun st => ?_⟩
          · intro ss h; cases h; rename_i h; rw [hp] at h; cases h
          · simp only [item, if_neg h1, if_neg h2, if_neg h3, if_neg h4, if_neg h5, if_true, onType, onStr, hp]
      | lit => exact .inr ⟨(by intro ss h; cases h), .notString (ch! "try_from"), fun st => rfl⟩
      | expr => exact absurd rfl (hl _)
    by_cases h7 : p = ch! "into"
    · subst h7
      cases v with
      | str s =>
        cases hp : S.type s with
        | some q =>
          refine .inl ⟨_, .typeInto s q hp, fun st => ?_⟩
          simp only [item, if_neg h1, if_neg h2, if_neg h3, if_neg h4, if_neg h5, if_neg h6, if_true, onType, onStr, hp]; rfl
        | none =>
          refine .inr ⟨?_, .badType (ch! "into") s, fun st => ?_⟩
          · intro ss h; cases h; rename_i h; rw [hp] at h; cases h
          · simp only [item, if_neg h1, if_neg h2, if_neg h3, if_neg h4, if_neg h5, if_neg h6, if_true, onType, onStr, hp]
      | lit => exact .inr ⟨(by intro ss h; cases h), .notString (ch! "into"), fun st => rfl⟩
      | expr => exact absurd rfl (hl _)
    refine .inr ⟨?_, .unknown p, fun st => ?_⟩
    · intro ss h; cases h <;> contradiction
    · simp only [item, if_neg h1, if_neg h2, if_neg h3, if_neg h4, if_neg h5, if_neg h6, if_neg h7]

theorem put_errs_ne (st : ContainerVars) (x : StructSetting) (h : st.errs ≠ []) : (st.put x).errs ≠ [] := by
  intro e; exact h ((put_errs st x).mp e).1

theorem err_ne (st : ContainerVars) (e : AttrErr) : (st.err e).errs ≠ [] := by simp [err]

theorem says_append {S : Syn} : ∀ {is js : List MetaItem} {a b : List StructSetting}, StructSays S is a → StructSays S js b →
    StructSays S (is ++ js) (a ++ b)
  | _, _, _, _, .nil, hb => hb
  | _, _, _, _, .cons h r, hb => .cons h (says_append r hb)

theorem items_ne (S : Syn) (sh : Shape) (hsh : sh.isNamed = true) : ∀ (is : List MetaItem) (_ : QuotedValue is) (st : ContainerVars), st.errs ≠ [] →
    (is.foldl (item S sh) st).errs ≠ []
  | [], _, _, h => h
  | i :: is, hl, st, h => by
    have hl' : QuotedValue is := fun p m => hl p (List.mem_cons_of_mem _ m)
    rcases item_spec S sh hsh i (fun p e => hl p (e ▸ List.mem_cons_self ..)) with ⟨ss, _, hs⟩ | ⟨_, e, he⟩
    · rw [List.foldl_cons, hs]; exact items_ne S sh hsh is hl' _ (put_errs_ne st ss h)
    · rw [List.foldl_cons, he]; exact items_ne S sh hsh is hl' _ (err_ne st e)

theorem items_spec (S : Syn) (sh : Shape) (hsh : sh.isNamed = true) : ∀ (is : List MetaItem) (_ : QuotedValue is) (st : ContainerVars),
    (∃ ss, StructSays S is ss ∧ is.foldl (item S sh) st = ss.foldl put st) ∨
    ((∀ ss, ¬ StructSays S is ss) ∧ (is.foldl (item S sh) st).errs ≠ [])
  | [], _, st => .inl ⟨[], .nil, rfl⟩
  | i :: is, hl, st => by
    have hl' : QuotedValue is := fun p m => hl p (List.mem_cons_of_mem _ m)
    rcases item_spec S sh hsh i (fun p e => hl p (e ▸ List.mem_cons_self ..)) with ⟨x, hm, hs⟩ | ⟨hn, e, he⟩
    · rcases items_spec S sh hsh is hl' (put st x) with ⟨ss', hm', hs'⟩ | ⟨hn', he'⟩
      · exact .inl ⟨x :: ss', .cons hm hm', by rw [List.foldl_cons, hs, hs', List.foldl_cons]⟩
      · refine .inr ⟨fun y h => ?_, by rw [List.foldl_cons, hs]; exact he'⟩
        cases h with
        | cons _ r => exact hn' _ r
    · refine .inr ⟨fun y h => ?_, by rw [List.foldl_cons, he]; exact items_ne S sh hsh is hl' _ (err_ne st e)⟩
      cases h with
      | cons h _ => exact hn _ h

theorem attrs_ne (S : Syn) (sh : Shape) (hsh : sh.isNamed = true) : ∀ (as : List Attribute) (_ : ∀ l, .items l ∈ as → QuotedValue l) (st : ContainerVars),
    st.errs ≠ [] → (as.foldl (oneAttr S sh) st).errs ≠ []
  | [], _, _, h => h
  | a :: as, hl, st, h => by
    have hl' : ∀ l, .items l ∈ as → QuotedValue l := fun l m => hl l (List.mem_cons_of_mem _ m)
    rw [List.foldl_cons]
    refine attrs_ne S sh hsh as hl' _ ?_
    cases a with
    | other => exact h
    | malformed => exact err_ne st _
    | items l => exact items_ne S sh hsh l (hl l (List.mem_cons_self ..)) st h

theorem says_suffix {S : Syn} : ∀ (l is : List MetaItem) (x : List StructSetting), StructSays S (l ++ is) x → ∃ b, StructSays S is b
  | [], _, x, h => ⟨x, h⟩
  | _ :: l, is, _, .cons _ r => says_suffix l is _ r

theorem says_prefix {S : Syn} : ∀ (l is : List MetaItem) (x : List StructSetting), StructSays S (l ++ is) x → ∃ b, StructSays S l b
  | [], _, _, _ => ⟨[], .nil⟩
  | _ :: l, is, _, .cons h r => (says_prefix l is _ r).elim fun _ hb => ⟨_, .cons h hb⟩

theorem attrs_spec (S : Syn) (sh : Shape) (hsh : sh.isNamed = true) : ∀ (as : List Attribute) (_ : ∀ l, .items l ∈ as → QuotedValue l)
    (st : ContainerVars),
    (∃ is ss, Collected as is ∧ StructSays S is ss ∧ as.foldl (oneAttr S sh) st = ss.foldl put st) ∨
    ((∀ is ss, Collected as is → ¬ StructSays S is ss) ∧ (as.foldl (oneAttr S sh) st).errs ≠ [])
  | [], _, st => .inl ⟨[], [], .nil, .nil, rfl⟩
  | a :: as, hl, st => by
    have hl' : ∀ l, .items l ∈ as → QuotedValue l := fun l m => hl l (List.mem_cons_of_mem _ m)
    cases a with
    | other =>
      rcases attrs_spec S sh hsh as hl' st with ⟨is, ss, hc, hs, he⟩ | ⟨hn, he⟩
      · exact .inl ⟨is, ss, .other hc, hs, he⟩
      · refine .inr ⟨fun is ss hc hs => ?_, he⟩
        cases hc with
        | other r => exact hn _ _ r hs
    | malformed =>
      exact .inr ⟨(by intro is ss hc; cases hc), attrs_ne S sh hsh as hl' _ (err_ne st _)⟩
    | items l =>
      rcases items_spec S sh hsh l (hl l (List.mem_cons_self ..)) st with ⟨ss, hs, he⟩ | ⟨hn, he⟩
      · rcases attrs_spec S sh hsh as hl' (ss.foldl put st) with ⟨is', ss', hc', hs', he'⟩ | ⟨hn', he'⟩
        · refine .inl ⟨l ++ is', ss ++ ss', .items l hc', says_append hs hs', ?_⟩
          rw [List.foldl_cons, List.foldl_append]
          show as.foldl (oneAttr S sh) (l.foldl (item S sh) st) = _
          rw [he, he']
        · refine .inr ⟨fun is x hc h => ?_, ?_⟩
          · cases hc with
            | items _ r =>
              obtain ⟨b, hb⟩ := says_suffix l _ x h
              exact hn' _ _ r hb
          · rw [List.foldl_cons]
            show (as.foldl (oneAttr S sh) (l.foldl (item S sh) st)).errs ≠ []
            rw [he]; exact he'
      · refine .inr ⟨fun is x hc h => ?_, ?_⟩
        · cases hc with
          | items _ r =>
            obtain ⟨b, hb⟩ := says_prefix l _ x h
            exact hn _ hb
        · rw [List.foldl_cons]; exact attrs_ne S sh hsh as hl' _ he

theorem means_unique {S : Syn} {i : MetaItem} {a b : StructSetting} (ha : StructMeans S i a) (hb : StructMeans S i b) : a = b := by
  cases ha <;> cases hb <;> first
    | rfl
    | (rename_i r1 h1 r2 h2; rw [ruleText_iff] at h1 h2; rw [h1] at h2; cases h2; rfl)
    | (rename_i h1 _ h2; rw [h1] at h2; cases h2; rfl)
    | contradiction
    | simp_all

theorem says_unique {S : Syn} : ∀ {is : List MetaItem} {a b : List StructSetting}, StructSays S is a → StructSays S is b → a = b
  | _, _, _, .nil, .nil => rfl
  | _, _, _, .cons h r, .cons h' r' => by rw [means_unique h h', says_unique r r']

end ContainerVars
end Klick
