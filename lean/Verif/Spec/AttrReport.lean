import Verif.Spec.Attr
/-
What the derive macro is meant to complain about: a table of mistakes, and one complaint for each, in the order of the source (C90).
-/
namespace Klick.Spec

/-- The word by which a complaint names what was said twice. -/
def FieldTopic.word : FieldTopic → Str
  | .rename => ch! "rename"
  | .nested => ch! "nested"
  | .skipSer => ch! "skip_serializing"
  | .skipDe => ch! "skip_deserializing"
  | .flatten => ch! "flatten"
  | .default => ch! "default"
  | .serWith => ch! "serialize_with"
  | .deWith => ch! "deserialize_with"
  | .bound => ch! "bound"

/-- The word by which a complaint names what was said twice. -/
def StructTopic.word : StructTopic → Str
  | .rename => ch! "rename"
  | .denyUnknown => ch! "deny_unknown_fields"
  | .default => ch! "default"
  | .rule => ch! "rename_all"
  | .bound => ch! "bound"
  | .typeFrom => ch! "from"
  | .typeTryFrom => ch! "try_from"
  | .typeInto => ch! "into"

/-- The words that stand alone on a field. -/
def fieldWords : List Str :=
  [ch! "default", ch! "skip_serializing", ch! "skip_deserializing", ch! "skip", ch! "nested", ch! "flatten"]
/-- The words that take a value on a field. -/
def fieldNames : List Str :=
  [ch! "rename", ch! "default", ch! "serialize_with", ch! "deserialize_with", ch! "with", ch! "bound"]
/-- Those whose value is a path. -/
def fieldPaths : List Str := [ch! "default", ch! "serialize_with", ch! "deserialize_with", ch! "with"]
/-- The words that stand alone on a struct. -/
def structWords : List Str := [ch! "deny_unknown_fields", ch! "default"]
/-- The words that take a value on a struct. -/
def structNames : List Str :=
  [ch! "rename", ch! "rename_all", ch! "default", ch! "bound", ch! "from", ch! "try_from", ch! "into"]
/-- Those whose value is a type. -/
def structTypes : List Str := [ch! "from", ch! "try_from", ch! "into"]

/-- The mistakes that can be made in one item on a field, each with the complaint about it. -/
inductive FieldWrong (S : Syn) : MetaItem → AttrErr → Prop where
  | list (p : Str) : FieldWrong S (.list p) (.unknown p)
  | word (p : Str) (h : p ∉ fieldWords) : FieldWrong S (.path p) (.unknown p)
  | name (p : Str) (v : MetaVal) (h : p ∉ fieldNames) : FieldWrong S (.nameValue p v) (.unknown p)
  | notString (p : Str) (h : p ∈ fieldNames) : FieldWrong S (.nameValue p .lit) (.notString p)
  | badPath (p s : Str) (h : p ∈ fieldPaths) (hs : S.path s = none) : FieldWrong S (.nameValue p (.str s)) (.badPath s)
  | badPreds (s : Str) (hne : s ≠ []) (hs : S.preds s = none) : FieldWrong S (.nameValue (ch! "bound") (.str s)) (.badPreds s)

/-- The mistakes that can be made in one item on a struct with named fields. -/
inductive StructWrong (S : Syn) : MetaItem → AttrErr → Prop where
  | list (p : Str) : StructWrong S (.list p) (.unknown p)
  | word (p : Str) (h : p ∉ structWords) : StructWrong S (.path p) (.unknown p)
  | name (p : Str) (v : MetaVal) (h : p ∉ structNames) : StructWrong S (.nameValue p v) (.unknown p)
  | notString (p : Str) (h : p ∈ structNames) : StructWrong S (.nameValue p .lit) (.notString p)
  | badRule (s : Str) (h : ∀ r, ¬ RuleText s r) : StructWrong S (.nameValue (ch! "rename_all") (.str s)) (.badRule s)
  | badPath (s : Str) (hs : S.path s = none) : StructWrong S (.nameValue (ch! "default") (.str s)) (.badPath s)
  | badPreds (s : Str) (hne : s ≠ []) (hs : S.preds s = none) : StructWrong S (.nameValue (ch! "bound") (.str s)) (.badPreds s)
  | badType (p s : Str) (h : p ∈ structTypes) (hs : S.type s = none) : StructWrong S (.nameValue p (.str s)) (.badType p s)

/-- The items of the attributes in order, `none` for an attribute whose arguments cannot be parsed. -/
def attrItems : List Attribute → List (Option MetaItem)
  | [] => []
  | .other :: as => attrItems as
  | .malformed :: as => none :: attrItems as
  | .items l :: as => l.map some ++ attrItems as

/-- The complaints about the items of a field, given what was said before: one for arguments that cannot be parsed, one for a mistake in an
item, one for each thing said again, none for anything else. An item whose value is not a literal is passed over (`ignored`). -/
inductive FieldReport (S : Syn) : List FieldTopic → List (Option MetaItem) → List AttrErr → Prop where
  | nil {seen : List FieldTopic} : FieldReport S seen [] []
  | unparsed {seen : List FieldTopic} {is : List (Option MetaItem)} {es : List AttrErr} (r : FieldReport S seen is es) :
      FieldReport S seen (none :: is) (.«syntax» :: es)
  | wrong {seen : List FieldTopic} {is : List (Option MetaItem)} {es : List AttrErr} {i : MetaItem} {e : AttrErr} (h : FieldWrong S i e)
      (r : FieldReport S seen is es) : FieldReport S seen (some i :: is) (e :: es)
  | ignored {seen : List FieldTopic} {is : List (Option MetaItem)} {es : List AttrErr} {p : Str} (h : p ∈ fieldNames)
      (r : FieldReport S seen is es) : FieldReport S seen (some (.nameValue p .expr) :: is) es
  | means {seen : List FieldTopic} {is : List (Option MetaItem)} {es : List AttrErr} {i : MetaItem} {ss : List FieldSetting}
      (h : FieldMeans S i ss) (r : FieldReport S (seen ++ ss.map FieldSetting.topic) is es) :
      FieldReport S seen (some i :: is) (((ss.map FieldSetting.topic).filter (fun t => t ∈ seen)).map (fun t => .duplicate t.word) ++ es)

/-- The complaints about the items of a struct. -/
inductive StructReport (S : Syn) : List StructTopic → List (Option MetaItem) → List AttrErr → Prop where
  | nil {seen : List StructTopic} : StructReport S seen [] []
  | unparsed {seen : List StructTopic} {is : List (Option MetaItem)} {es : List AttrErr} (r : StructReport S seen is es) :
      StructReport S seen (none :: is) (.«syntax» :: es)
  | wrong {seen : List StructTopic} {is : List (Option MetaItem)} {es : List AttrErr} {i : MetaItem} {e : AttrErr} (h : StructWrong S i e)
      (r : StructReport S seen is es) : StructReport S seen (some i :: is) (e :: es)
  | ignored {seen : List StructTopic} {is : List (Option MetaItem)} {es : List AttrErr} {p : Str} (h : p ∈ structNames)
      (r : StructReport S seen is es) : StructReport S seen (some (.nameValue p .expr) :: is) es
  | again {seen : List StructTopic} {is : List (Option MetaItem)} {es : List AttrErr} {i : MetaItem} {x : StructSetting}
      (h : StructMeans S i x) (hs : x.topic ∈ seen) (r : StructReport S seen is es) :
      StructReport S seen (some i :: is) (.duplicate x.topic.word :: es)
  | means {seen : List StructTopic} {is : List (Option MetaItem)} {es : List AttrErr} {i : MetaItem} {x : StructSetting}
      (h : StructMeans S i x) (hs : x.topic ∉ seen) (r : StructReport S (seen ++ [x.topic]) is es) : StructReport S seen (some i :: is) es

/-- Does the struct state this topic, in an item without a mistake? -/
def States (S : Syn) (attrs : List Attribute) (t : StructTopic) : Prop := ∃ i x, some i ∈ attrItems attrs ∧ StructMeans S i x ∧ x.topic = t

end Klick.Spec
