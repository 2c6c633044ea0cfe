import Verif.AttrReport
import Verif.Props.Attr
/-
C90: the derive macro complains about every mistake in the attributes.
-/
namespace Klick.Props
open Spec

theorem field_errs {S : Syn} {ident : Str} {as : List Attribute} {d : Dflt} {es : List AttrErr} (h : FieldReport S [] (attrItems as) es) :
    (fieldFromAst S ident as d).2 = es := by
  show (as.foldl (FieldVars.oneAttr S) {}).errs = es
  rw [FieldVars.attrs_turns, FieldVars.report_sound h {} (by intro t; cases t <;> simp [FieldVars.has])]
  rfl

theorem struct_errs {S : Syn} {sh : Shape} (hsh : sh.isNamed = true) {as : List Attribute} {es : List AttrErr}
    (h : StructReport S [] (attrItems as) es) : (containerFromAst S as sh).2 = es := by
  show (as.foldl (ContainerVars.oneAttr S sh) {}).errs = es
  rw [ContainerVars.attrs_turns, (ContainerVars.report_sound hsh h {} (by intro t; cases t <;> simp [ContainerVars.has])).1]
  rfl

theorem struct_has {S : Syn} {sh : Shape} (hsh : sh.isNamed = true) {as : List Attribute} (t : StructTopic) :
    (as.foldl (ContainerVars.oneAttr S sh) {}).has t = true ↔ States S as t := by
  obtain ⟨es, h⟩ := ContainerVars.report_exists S (attrItems as) []
  rw [ContainerVars.attrs_turns, (ContainerVars.report_sound hsh h {} (by intro t; cases t <;> simp [ContainerVars.has])).2 t]
  simp [States]

/-- The complaint about a struct that is to be built both from and fallibly from another type. -/
def Conflict (S : Syn) (attrs : List Attribute) (es : List AttrErr) : Prop :=
  (States S attrs .typeFrom ∧ States S attrs .typeTryFrom ∧ es = [.fromAndTryFrom]) ∨
    (¬ (States S attrs .typeFrom ∧ States S attrs .typeTryFrom) ∧ es = [])

theorem conflict_eq (S : Syn) (sh : Shape) (hsh : sh.isNamed = true) (as : List Attribute) :
    Conflict S as (if (containerFromAst S as sh).1.typeFrom.isSome && (containerFromAst S as sh).1.typeTryFrom.isSome
      then [.fromAndTryFrom] else []) := by
  have h1 : (containerFromAst S as sh).1.typeFrom.isSome = true ↔ States S as .typeFrom := struct_has hsh .typeFrom
  have h2 : (containerFromAst S as sh).1.typeTryFrom.isSome = true ↔ States S as .typeTryFrom := struct_has hsh .typeTryFrom
  by_cases h : States S as .typeFrom ∧ States S as .typeTryFrom
  · rw [h1.2 h.1, h2.2 h.2]
    exact .inl ⟨h.1, h.2, rfl⟩
  · refine .inr ⟨h, ?_⟩
    rw [if_neg]
    rw [Bool.and_eq_true, h1, h2]
    exact h

/-- C90: every list of attributes on a field has a report, and the errors are exactly that report. Missing from the full claim: items whose value
is not a literal, which the report passes over (`C90_silent_false`). -/
theorem C90_field_partial (S : Syn) (ident : Str) (as : List Attribute) (d : Dflt) :
    FieldReport S [] (attrItems as) (fieldFromAst S ident as d).2 := by
  obtain ⟨es, h⟩ := FieldVars.report_exists S (attrItems as) []
  rw [field_errs h]
  exact h

/-- C90, the struct: when the macro reports errors on a struct with named fields, they are the report on the struct's own attributes, then those
on its fields in order, then the conflict of `from` with `try_from`, and nothing else. -/
theorem C90_struct_partial (S : Syn) (attrs : List Attribute) (fields : List (Str × List Attribute)) (es : List AttrErr)
    (h : structFromAst S attrs (.named fields) = .errors es) :
    ∃ (own : List AttrErr) (ofFields : List (List AttrErr)) (conflict : List AttrErr), es = own ++ ofFields.flatten ++ conflict ∧ es ≠ [] ∧ StructReport S [] (attrItems attrs) own ∧
      ofFields.length = fields.length ∧
      (∀ (j : Nat) (f : Str × List Attribute) (e : List AttrErr), fields[j]? = some f → ofFields[j]? = some e →
        FieldReport S [] (attrItems f.2) e) ∧
      Conflict S attrs conflict := by
  unfold structFromAst at h
  dsimp only at h
  split at h
  · rename_i named hn
    obtain ⟨own, ho⟩ := ContainerVars.report_exists S (attrItems attrs) []
    have ho' := struct_errs (sh := .named fields) rfl ho
    have e : ∀ {α : Type} (a : α) (l : List AttrErr), checked a l = .errors es → es = l ∧ es ≠ [] := by
      intro α a l hh
      cases l with
      | nil => cases hh
      | cons x l => cases hh; exact ⟨rfl, by simp⟩
    obtain ⟨e1, e2⟩ := e _ _ h
    refine ⟨own, (fields.map fun f => fieldFromAst S f.1 f.2 (containerFromAst S attrs (.named fields)).1.default).map Prod.snd, _,
      by rw [← ho']; exact e1, e2, ho, by simp, ?_, conflict_eq S (.named fields) rfl attrs⟩
    intro j f e' hf he
    simp only [List.map_map, List.getElem?_map, hf, Option.map_some, Option.some.injEq, Function.comp] at he
    rw [← he]
    exact C90_field_partial S f.1 f.2 _
  · cases h

/-- C90, the other way: a struct with named fields compiles only if its reports are empty; so no mistake goes unreported. -/
theorem C90_silent (S : Syn) (attrs : List Attribute) (fields : List (Str × List Attribute)) (r : ContainerAttrs × List FieldAttrs)
    (h : structFromAst S attrs (.named fields) = .ok r) :
    StructReport S [] (attrItems attrs) [] ∧ (∀ f ∈ fields, FieldReport S [] (attrItems f.2) []) ∧
      ¬ (States S attrs .typeFrom ∧ States S attrs .typeTryFrom) := by
  unfold structFromAst at h
  dsimp only at h
  split at h
  · rename_i named hn
    obtain ⟨own, ho⟩ := ContainerVars.report_exists S (attrItems attrs) []
    have ho' := struct_errs (sh := .named fields) rfl ho
    obtain ⟨_, h2⟩ := (checked_ok _ _ _).1 h
    rw [List.append_eq_nil_iff, List.append_eq_nil_iff] at h2
    obtain ⟨⟨h3, h4⟩, h5⟩ := h2
    refine ⟨?_, ?_, ?_⟩
    · rw [ho'] at h3
      rw [← h3]; exact ho
    · intro f hf
      have : (fieldFromAst S f.1 f.2 (containerFromAst S attrs (.named fields)).1.default).2 = [] := by
        rw [List.flatten_eq_nil_iff] at h4
        exact h4 _ (List.mem_map_of_mem (List.mem_map_of_mem hf))
      rw [← this]
      exact C90_field_partial S f.1 f.2 _
    · rcases conflict_eq S (.named fields) rfl attrs with ⟨_, _, h6⟩ | ⟨h6, _⟩
      · rw [h6] at h5; cases h5
      · exact h6
  · cases h

/-- C90 is false of the code as stated: `rename = NAME` is a mistake (its value is not a string) that is not reported. -/
theorem C90_silent_false : ∃ (i : MetaItem), (∀ S ss, ¬ FieldMeans S i ss) ∧
    ∀ (S : Syn) (ident : Str) (d : Dflt), (fieldFromAst S ident [.items [i]] d).2 = [] :=
  ⟨.nameValue (ch! "rename") .expr, (by intro S ss h; cases h), fun _ _ _ => rfl⟩

/-- Saying `skip` after `skip_serializing` is one complaint, naming what was said twice and not the word that said it; the misspelt word and the
number are one each. -/
example : (fieldFromAst ⟨fun _ => none, fun _ => none, fun _ => none⟩ (ch! "id")
    [.items [.path (ch! "skip_serializing"), .path (ch! "nestd")], .malformed, .items [.path (ch! "skip"), .nameValue (ch! "rename") .lit]] .none).2 =
    [.unknown (ch! "nestd"), .«syntax», .duplicate (ch! "skip_serializing"), .notString (ch! "rename")] := rfl

/-- A struct with a conflict and a duplicate on a field. -/
example : structFromAst exSyn [.items [.nameValue (ch! "from") (.str (ch! "A")), .nameValue (ch! "try_from") (.str (ch! "B"))]]
    (.named [(ch! "a", [.items [.path (ch! "flatten"), .path (ch! "flatten")]])]) =
    .errors [.duplicate (ch! "flatten"), .fromAndTryFrom] := rfl

end Klick.Props
