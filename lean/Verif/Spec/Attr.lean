import Verif.Attr
/-
What the attributes of `#[derive(Row)]` are meant to say, as tables, independent of the loop that collects them.
-/
namespace Klick.Spec

/-- One thing an attribute of a field can say. -/
inductive FieldSetting where
  | rename (s : Str)
  | nested
  | skipSer
  | skipDe
  | flatten
  | default (d : Dflt)
  | serWith (p : List Str)
  | deWith (p : List Str)
  | bound (ps : List Str)
deriving DecidableEq, Repr

/-- What a setting is about; two settings about the same thing contradict each other or are redundant. -/
inductive FieldTopic where
  | rename | nested | skipSer | skipDe | flatten | default | serWith | deWith | bound
deriving DecidableEq, Repr

def FieldSetting.topic : FieldSetting → FieldTopic
  | .rename _ => .rename
  | .nested => .nested
  | .skipSer => .skipSer
  | .skipDe => .skipDe
  | .flatten => .flatten
  | .default _ => .default
  | .serWith _ => .serWith
  | .deWith _ => .deWith
  | .bound _ => .bound

/-- The meaning of an item on a field: the documented words and `name = "text"` forms; `none` for everything else. -/
inductive FieldMeans (S : Syn) : MetaItem → List FieldSetting → Prop where
  | default : FieldMeans S (.path (ch! "default")) [.default .default]
  | skipSer : FieldMeans S (.path (ch! "skip_serializing")) [.skipSer]
  | skipDe : FieldMeans S (.path (ch! "skip_deserializing")) [.skipDe]
  | skip : FieldMeans S (.path (ch! "skip")) [.skipSer, .skipDe]
  | nested : FieldMeans S (.path (ch! "nested")) [.nested]
  | flatten : FieldMeans S (.path (ch! "flatten")) [.flatten]
  | rename (s : Str) : FieldMeans S (.nameValue (ch! "rename") (.str s)) [.rename s]
  | defaultPath (s : Str) (p : List Str) (h : S.path s = some p) :
      FieldMeans S (.nameValue (ch! "default") (.str s)) [.default (.path p)]
  | serWith (s : Str) (p : List Str) (h : S.path s = some p) :
      FieldMeans S (.nameValue (ch! "serialize_with") (.str s)) [.serWith p]
  | deWith (s : Str) (p : List Str) (h : S.path s = some p) :
      FieldMeans S (.nameValue (ch! "deserialize_with") (.str s)) [.deWith p]
  | withModule (s : Str) (p : List Str) (h : S.path s = some p) :
      FieldMeans S (.nameValue (ch! "with") (.str s)) [.serWith (p ++ [ch! "to_sql"]), .deWith (p ++ [ch! "from_sql"])]
  | noBound : FieldMeans S (.nameValue (ch! "bound") (.str [])) [.bound []]
  | bound (s : Str) (ps : List Str) (hne : s ≠ []) (h : S.preds s = some ps) :
      FieldMeans S (.nameValue (ch! "bound") (.str s)) [.bound ps]

/-- A list of items says the list of settings `ss`, item by item. -/
inductive FieldSays (S : Syn) : List MetaItem → List FieldSetting → Prop where
  | nil : FieldSays S [] []
  | cons {i : MetaItem} {is : List MetaItem} {a b : List FieldSetting} (h : FieldMeans S i a) (r : FieldSays S is b) :
      FieldSays S (i :: is) (a ++ b)

/-- One thing an attribute of a struct can say. -/
inductive StructSetting where
  | rename (s : Str)
  | denyUnknown
  | default (d : Dflt)
  | rule (r : RenameRule)
  | bound (ps : List Str)
  | typeFrom (t : Str)
  | typeTryFrom (t : Str)
  | typeInto (t : Str)
deriving DecidableEq, Repr

inductive StructTopic where
  | rename | denyUnknown | default | rule | bound | typeFrom | typeTryFrom | typeInto
deriving DecidableEq, Repr

def StructSetting.topic : StructSetting → StructTopic
  | .rename _ => .rename
  | .denyUnknown => .denyUnknown
  | .default _ => .default
  | .rule _ => .rule
  | .bound _ => .bound
  | .typeFrom _ => .typeFrom
  | .typeTryFrom _ => .typeTryFrom
  | .typeInto _ => .typeInto

/-- The rules of `rename_all` by their texts. -/
inductive RuleText : Str → RenameRule → Prop where
  | lower : RuleText (ch! "lowercase") .lowerCase
  | upper : RuleText (ch! "UPPERCASE") .upperCase
  | pascal : RuleText (ch! "PascalCase") .pascalCase
  | camel : RuleText (ch! "camelCase") .camelCase
  | snake : RuleText (ch! "snake_case") .snakeCase
  | screamingSnake : RuleText (ch! "SCREAMING_SNAKE_CASE") .screamingSnakeCase
  | kebab : RuleText (ch! "kebab-case") .kebabCase
  | screamingKebab : RuleText (ch! "SCREAMING-KEBAB-CASE") .screamingKebabCase

/-- The meaning of an item on a struct with named fields. -/
inductive StructMeans (S : Syn) : MetaItem → StructSetting → Prop where
  | deny : StructMeans S (.path (ch! "deny_unknown_fields")) .denyUnknown
  | default : StructMeans S (.path (ch! "default")) (.default .default)
  | rename (s : Str) : StructMeans S (.nameValue (ch! "rename") (.str s)) (.rename s)
  | rule (s : Str) (r : RenameRule) (h : RuleText s r) : StructMeans S (.nameValue (ch! "rename_all") (.str s)) (.rule r)
  | defaultPath (s : Str) (p : List Str) (h : S.path s = some p) :
      StructMeans S (.nameValue (ch! "default") (.str s)) (.default (.path p))
  | noBound : StructMeans S (.nameValue (ch! "bound") (.str [])) (.bound [])
  | bound (s : Str) (ps : List Str) (hne : s ≠ []) (h : S.preds s = some ps) :
      StructMeans S (.nameValue (ch! "bound") (.str s)) (.bound ps)
  | typeFrom (s t : Str) (h : S.type s = some t) : StructMeans S (.nameValue (ch! "from") (.str s)) (.typeFrom t)
  | typeTryFrom (s t : Str) (h : S.type s = some t) : StructMeans S (.nameValue (ch! "try_from") (.str s)) (.typeTryFrom t)
  | typeInto (s t : Str) (h : S.type s = some t) : StructMeans S (.nameValue (ch! "into") (.str s)) (.typeInto t)

/-- A list of items on a struct says the settings `ss`, one each. -/
inductive StructSays (S : Syn) : List MetaItem → List StructSetting → Prop where
  | nil : StructSays S [] []
  | cons {i : MetaItem} {is : List MetaItem} {a : StructSetting} {b : List StructSetting} (h : StructMeans S i a)
      (r : StructSays S is b) : StructSays S (i :: is) (a :: b)

/-- All items of the `#[klickhouse(...)]` attributes, when each of them can be parsed. -/
inductive Collected : List Attribute → List MetaItem → Prop where
  | nil : Collected [] []
  | other {as : List Attribute} {is : List MetaItem} (r : Collected as is) : Collected (.other :: as) is
  | items {as : List Attribute} {is : List MetaItem} (l : List MetaItem) (r : Collected as is) :
      Collected (.items l :: as) (l ++ is)

/-- No item has a right-hand side that is not a literal. -/
def QuotedValue (is : List MetaItem) : Prop := ∀ p, MetaItem.nameValue p .expr ∉ is

/-- `a` is what the settings `ss` make of a field called `ident` (without `r#`) in a struct with the rule `rule` and default
`d`. -/
structure FieldIs (ss : List FieldSetting) (rule : RenameRule) (d : Dflt) (ident : Str) (a : FieldAttrs) : Prop where
  renamed : ∀ s, .rename s ∈ ss → a.name = s
  /-- whether an explicit name was given -/
  wasRenamed : a.renamed = true ↔ ∃ s, .rename s ∈ ss
  byRule : (∀ s, .rename s ∉ ss) → .ok a.name = rule.apply (unraw ident)
  skipSer : a.skipSer = true ↔ .skipSer ∈ ss
  skipDe : a.skipDe = true ↔ .skipDe ∈ ss
  nested : a.nested = true ↔ .nested ∈ ss
  flatten : a.flatten = true ↔ .flatten ∈ ss
  serWith : ∀ p, a.serWith = some p ↔ .serWith p ∈ ss
  deWith : ∀ p, a.deWith = some p ↔ .deWith p ∈ ss
  bound : ∀ p, a.bound = some p ↔ .bound p ∈ ss
  default : ∀ x, .default x ∈ ss → a.default = x
  /-- A field that is never read gets the type's default unless the struct has one. -/
  noDefault : (∀ x, .default x ∉ ss) → a.default = if d = .none ∧ .skipDe ∈ ss then .default else .none

/-- `c` is what the settings `ss` make of a struct. -/
structure StructIs (ss : List StructSetting) (c : ContainerAttrs) : Prop where
  denyUnknown : c.denyUnknown = true ↔ .denyUnknown ∈ ss
  default : ∀ x, .default x ∈ ss → c.default = x
  noDefault : (∀ x, .default x ∉ ss) → c.default = .none
  rule : ∀ r, .rule r ∈ ss → c.rule = r
  noRule : (∀ r, .rule r ∉ ss) → c.rule = .none
  bound : ∀ p, c.bound = some p ↔ .bound p ∈ ss
  typeFrom : ∀ t, c.typeFrom = some t ↔ .typeFrom t ∈ ss
  typeTryFrom : ∀ t, c.typeTryFrom = some t ↔ .typeTryFrom t ∈ ss
  typeInto : ∀ t, c.typeInto = some t ↔ .typeInto t ∈ ss

/-- The attributes of one field make sense and say `ss`: each can be parsed, each item means something, and nothing is said
twice. -/
def FieldSound (S : Syn) (attrs : List Attribute) (ss : List FieldSetting) : Prop :=
  ∃ is, Collected attrs is ∧ FieldSays S is ss ∧ (ss.map FieldSetting.topic).Nodup

/-- The attributes of the struct itself make sense and say `ss`. -/
def StructSound (S : Syn) (attrs : List Attribute) (ss : List StructSetting) : Prop :=
  ∃ is, Collected attrs is ∧ StructSays S is ss ∧ (ss.map StructSetting.topic).Nodup ∧
    ¬ ((∃ t, .typeFrom t ∈ ss) ∧ ∃ t, .typeTryFrom t ∈ ss)

end Klick.Spec
