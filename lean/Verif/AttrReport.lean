import Verif.AttrLemmas2
import Verif.Spec.AttrReport
/-
The loops over attributes, with the complaints they make (C90).
-/
namespace Klick
open Spec

theorem attrSet_report {α : Type} (n : Str) (cur : Option α) (v : α) :
    (attrSet n cur v).2 = if cur.isSome = true then [.duplicate n] else [] := by cases cur <;> rfl

namespace FieldVars

theorem put_report (st : FieldVars) (x : FieldSetting) :
    (st.put x).errs = st.errs ++ if st.has x.topic = true then [.duplicate x.topic.word] else [] := by
  cases x <;> exact congrArg (st.errs ++ ·) (attrSet_report _ _ _)

theorem means_item {S : Syn} {i : MetaItem} {ss : List FieldSetting} (h : FieldMeans S i ss) (st : FieldVars) :
    item S st i = ss.foldl put st := by
  rcases item_spec S i (by rintro p rfl; cases h) with ⟨ss', h', e⟩ | ⟨hn, _⟩
  · rw [means_unique h h']; exact e st
  · exact absurd h (hn ss)

theorem wrong_item {S : Syn} {i : MetaItem} {e : AttrErr} (h : FieldWrong S i e) (st : FieldVars) : item S st i = st.err e := by
  cases h with
  | list p => rfl
  | word p h =>
    simp only [fieldWords, List.mem_cons, List.not_mem_nil, or_false, not_or] at h
    obtain ⟨h1, h2, h3, h4, h5, h6⟩ := h
    simp only [item, if_neg h1, if_neg h2, if_neg h3, if_neg h4, if_neg h5, if_neg h6]
  | name p v h =>
    simp only [fieldNames, List.mem_cons, List.not_mem_nil, or_false, not_or] at h
    obtain ⟨h1, h2, h3, h4, h5, h6⟩ := h
    simp only [item, if_neg h1, if_neg h2, if_neg h3, if_neg h4, if_neg h5, if_neg h6]
  | notString p h =>
    simp only [fieldNames, List.mem_cons, List.not_mem_nil, or_false] at h
    rcases h with rfl | rfl | rfl | rfl | rfl | rfl <;> rfl
  | badPath p s h hs =>
    simp only [fieldPaths, List.mem_cons, List.not_mem_nil, or_false] at h
    rcases h with rfl | rfl | rfl | rfl
    · unfold item; dsimp only; (repeat rw [if_neg (by decide)]); rw [if_pos rfl]; simp only [onPath, onStr, hs]
    · unfold item; dsimp only; (repeat rw [if_neg (by decide)]); rw [if_pos rfl]; simp only [onPath, onStr, hs]
    · unfold item; dsimp only; (repeat rw [if_neg (by decide)]); rw [if_pos rfl]; simp only [onPath, onStr, hs]
    · unfold item; dsimp only; (repeat rw [if_neg (by decide)]); rw [if_pos rfl]; simp only [onPath, onStr, hs]
  | badPreds s hne hs => unfold item; dsimp only; (repeat rw [if_neg (by decide)]); rw [if_pos rfl]; simp only [onPreds, onStr, hs, if_neg hne]

theorem ignored_item {S : Syn} {p : Str} (h : p ∈ fieldNames) (st : FieldVars) : item S st (.nameValue p .expr) = st := by
  simp only [fieldNames, List.mem_cons, List.not_mem_nil, or_false] at h
  rcases h with rfl | rfl | rfl | rfl | rfl | rfl <;> rfl

/-- Every item is passed over, is a mistake, or means something. -/
theorem item_cases (S : Syn) (i : MetaItem) :
    (∃ p, p ∈ fieldNames ∧ i = .nameValue p .expr) ∨ (∃ e, FieldWrong S i e) ∨ ∃ ss, FieldMeans S i ss := by
  cases i with
  | list p => exact .inr (.inl ⟨_, .list p⟩)
  | path p =>
    by_cases h : p ∈ fieldWords
    · simp only [fieldWords, List.mem_cons, List.not_mem_nil, or_false] at h
      rcases h with rfl | rfl | rfl | rfl | rfl | rfl
      · exact .inr (.inr ⟨_, .default⟩)
      · exact .inr (.inr ⟨_, .skipSer⟩)
      · exact .inr (.inr ⟨_, .skipDe⟩)
      · exact .inr (.inr ⟨_, .skip⟩)
      · exact .inr (.inr ⟨_, .nested⟩)
      · exact .inr (.inr ⟨_, .flatten⟩)
    · exact .inr (.inl ⟨_, .word p h⟩)
  | nameValue p v =>
    by_cases h : p ∈ fieldNames
    · cases v with
      | expr => exact .inl ⟨p, h, rfl⟩
      | lit => exact .inr (.inl ⟨_, .notString p h⟩)
      | str s =>
        have bad : p ∈ fieldPaths → S.path s = none → ∃ e, FieldWrong S (.nameValue p (.str s)) e := fun h1 h2 => ⟨_, .badPath p s h1 h2⟩
        simp only [fieldNames, List.mem_cons, List.not_mem_nil, or_false] at h
        rcases h with rfl | rfl | rfl | rfl | rfl | rfl
        · exact .inr (.inr ⟨_, .rename s⟩)
        · cases hs : S.path s with
          | none => exact .inr (.inl (bad (by decide) hs))
          | some q => exact .inr (.inr ⟨_, .defaultPath s q hs⟩)
        · cases hs : S.path s with
          | none => exact .inr (.inl (bad (by decide) hs))
          | some q => exact .inr (.inr ⟨_, .serWith s q hs⟩)
        · cases hs : S.path s with
          | none => exact .inr (.inl (bad (by decide) hs))
          | some q => exact .inr (.inr ⟨_, .deWith s q hs⟩)
        · cases hs : S.path s with
          | none => exact .inr (.inl (bad (by decide) hs))
          | some q => exact .inr (.inr ⟨_, .withModule s q hs⟩)
        · by_cases he : s = []
          · subst he; exact .inr (.inr ⟨_, .noBound⟩)
          cases hs : S.preds s with
          | none => exact .inr (.inl ⟨_, .badPreds s he hs⟩)
          | some q => exact .inr (.inr ⟨_, .bound s q he hs⟩)
    · exact .inr (.inl ⟨_, .name p v h⟩)

theorem report_exists (S : Syn) : ∀ (is : List (Option MetaItem)) (seen : List FieldTopic), ∃ es, FieldReport S seen is es
  | [], _ => ⟨_, .nil⟩
  | none :: is, seen => by
    obtain ⟨es, h⟩ := report_exists S is seen
    exact ⟨_, .unparsed h⟩
  | some i :: is, seen => by
    rcases item_cases S i with ⟨p, hp, rfl⟩ | ⟨e, h⟩ | ⟨ss, h⟩
    · obtain ⟨es, h⟩ := report_exists S is seen
      exact ⟨_, .ignored hp h⟩
    · obtain ⟨es, h'⟩ := report_exists S is seen
      exact ⟨_, .wrong h h'⟩
    · obtain ⟨es, h'⟩ := report_exists S is (seen ++ ss.map FieldSetting.topic)
      exact ⟨_, .means h h'⟩

/-- One turn over an item, or over an attribute that cannot be parsed. -/
def turn? (S : Syn) (st : FieldVars) : Option MetaItem → FieldVars
  | some i => item S st i
  | none => st.err .syntax

theorem attrs_turns (S : Syn) : ∀ (as : List Attribute) (st : FieldVars), as.foldl (oneAttr S) st = (attrItems as).foldl (turn? S) st
  | [], _ => rfl
  | .other :: as, st => attrs_turns S as st
  | .malformed :: as, st => attrs_turns S as _
  | .items l :: as, st => by
    have e : ∀ (l : List MetaItem) (st : FieldVars), (l.map some).foldl (turn? S) st = l.foldl (item S) st := by
      intro l
      induction l with
      | nil => intro st; rfl
      | cons i l ih => intro st; exact ih _
    rw [attrItems, List.foldl_append, e]
    exact attrs_turns S as _

theorem puts_report : ∀ (ss : List FieldSetting) (st : FieldVars), (ss.map FieldSetting.topic).Nodup →
    (ss.foldl put st).errs = st.errs ++ ((ss.map FieldSetting.topic).filter (fun t => st.has t)).map (fun t => .duplicate t.word)
  | [], st, _ => by simp
  | x :: ss, st, hn => by
    simp only [List.map_cons, List.nodup_cons] at hn
    rw [List.foldl_cons, puts_report ss _ hn.2, put_report]
    have e : (ss.map FieldSetting.topic).filter (fun t => (st.put x).has t) = (ss.map FieldSetting.topic).filter (fun t => st.has t) := by
      refine List.filter_congr (fun t ht => ?_)
      rw [put_has]
      have : x.topic ≠ t := by rintro rfl; exact hn.1 ht
      simp [this]
    rw [e, List.map_cons]
    by_cases h : st.has x.topic = true
    · rw [if_pos h, List.filter_cons_of_pos (by simpa using h)]; simp
    · rw [if_neg h, List.filter_cons_of_neg (by simpa using h)]; simp

theorem means_nodup {S : Syn} {i : MetaItem} {ss : List FieldSetting} (h : FieldMeans S i ss) : (ss.map FieldSetting.topic).Nodup := by
  cases h <;> simp [FieldSetting.topic]

theorem report_sound {S : Syn} {seen : List FieldTopic} {is : List (Option MetaItem)} {es : List AttrErr} (h : FieldReport S seen is es) :
    ∀ st : FieldVars, (∀ t, st.has t = true ↔ t ∈ seen) → (is.foldl (turn? S) st).errs = st.errs ++ es := by
  induction h with
  | nil => intro st _; simp
  | unparsed r ih =>
    intro st hs
    rw [List.foldl_cons, ih _ (fun t => by rw [← hs t]; cases t <;> rfl)]
    simp [turn?, err]
  | wrong h r ih =>
    intro st hs
    rw [List.foldl_cons]
    show ((_ : List (Option MetaItem)).foldl (turn? S) (item S st _)).errs = _
    rw [wrong_item h, ih _ (fun t => by rw [← hs t]; cases t <;> rfl)]
    simp [err]
  | @ignored seen is es p h r ih =>
    intro st hs
    rw [List.foldl_cons]
    have e1 : turn? S st (some (.nameValue p .expr)) = st := ignored_item h st
    rw [e1]
    exact ih st hs
  | @means seen is es i ss h r ih =>
    intro st hs
    rw [List.foldl_cons]
    show ((_ : List (Option MetaItem)).foldl (turn? S) (item S st _)).errs = _
    rw [means_item h, ih _ ?_, puts_report _ _ (means_nodup h), List.append_assoc]
    · have e : (ss.map FieldSetting.topic).filter (fun t => st.has t) = (ss.map FieldSetting.topic).filter (fun t => t ∈ seen) := by
        refine List.filter_congr (fun t _ => ?_)
        have := hs t
        by_cases ht : t ∈ seen
        · simp [ht, this.2 ht]
        · simp [ht, mt this.1 ht]
      rw [e]
    · intro t
      rw [(puts_spec ss st).2.2 t, Bool.or_eq_true, hs t, List.mem_append, List.any_eq_true, List.mem_map]
      simp

end FieldVars

namespace ContainerVars

theorem put_report (st : ContainerVars) (x : StructSetting) :
    (st.put x).errs = st.errs ++ if st.has x.topic = true then [.duplicate x.topic.word] else [] := by
  cases x <;> exact congrArg (st.errs ++ ·) (attrSet_report _ _ _)

section
variable {S : Syn} {sh : Shape}

theorem means_item (hsh : sh.isNamed = true) {i : MetaItem} {x : StructSetting} (h : StructMeans S i x) (st : ContainerVars) :
    item S sh st i = put st x := by
  rcases item_spec S sh hsh i (by rintro p rfl; cases h) with ⟨x', h', e⟩ | ⟨hn, _⟩
  · rw [means_unique h h']; exact e st
  · exact absurd h (hn x)

theorem wrong_item {i : MetaItem} {e : AttrErr} (h : StructWrong S i e) (st : ContainerVars) : item S sh st i = st.err e := by
  cases h with
  | list p => rfl
  | word p h =>
    simp only [structWords, List.mem_cons, List.not_mem_nil, or_false, not_or] at h
    obtain ⟨h1, h2⟩ := h
    simp only [item, if_neg h1, if_neg h2]
  | name p v h =>
    simp only [structNames, List.mem_cons, List.not_mem_nil, or_false, not_or] at h
    obtain ⟨h1, h2, h3, h4, h5, h6, h7⟩ := h
    simp only [item, if_neg h1, if_neg h2, if_neg h3, if_neg h4, if_neg h5, if_neg h6, if_neg h7]
  | notString p h =>
    simp only [structNames, List.mem_cons, List.not_mem_nil, or_false] at h
    rcases h with rfl | rfl | rfl | rfl | rfl | rfl | rfl <;> rfl
  | badRule s h =>
    unfold item; dsimp only; (repeat rw [if_neg (by decide)]); rw [if_pos rfl]
    have : RenameRule.fromStr s = none := by
      cases hr : RenameRule.fromStr s with
      | none => rfl
      | some r => exact absurd ((ruleText_iff s r).mpr hr) (h r)
    simp only [onStr, this]
  | badPath s hs => unfold item; dsimp only; (repeat rw [if_neg (by decide)]); rw [if_pos rfl]; simp only [onPath, onStr, hs]
  | badPreds s hne hs => unfold item; dsimp only; (repeat rw [if_neg (by decide)]); rw [if_pos rfl]; simp only [onPreds, onStr, hs, if_neg hne]
  | badType p s h hs =>
    simp only [structTypes, List.mem_cons, List.not_mem_nil, or_false] at h
    rcases h with rfl | rfl | rfl
    · unfold item; dsimp only; (repeat rw [if_neg (by decide)]); rw [if_pos rfl]; simp only [onType, onStr, hs]
    · unfold item; dsimp only; (repeat rw [if_neg (by decide)]); rw [if_pos rfl]; simp only [onType, onStr, hs]
    · unfold item; dsimp only; (repeat rw [if_neg (by decide)]); rw [if_pos rfl]; simp only [onType, onStr, hs]

theorem ignored_item {p : Str} (h : p ∈ structNames) (st : ContainerVars) : item S sh st (.nameValue p .expr) = st := by
  simp only [structNames, List.mem_cons, List.not_mem_nil, or_false] at h
  rcases h with rfl | rfl | rfl | rfl | rfl | rfl | rfl <;> rfl

/-- Every item is passed over, is a mistake, or means something. -/
theorem item_cases (S : Syn) (i : MetaItem) :
    (∃ p, p ∈ structNames ∧ i = .nameValue p .expr) ∨ (∃ e, StructWrong S i e) ∨ ∃ x, StructMeans S i x := by
  cases i with
  | list p => exact .inr (.inl ⟨_, .list p⟩)
  | path p =>
    by_cases h : p ∈ structWords
    · simp only [structWords, List.mem_cons, List.not_mem_nil, or_false] at h
      rcases h with rfl | rfl
      · exact .inr (.inr ⟨_, .deny⟩)
      · exact .inr (.inr ⟨_, .default⟩)
    · exact .inr (.inl ⟨_, .word p h⟩)
  | nameValue p v =>
    by_cases h : p ∈ structNames
    · cases v with
      | expr => exact .inl ⟨p, h, rfl⟩
      | lit => exact .inr (.inl ⟨_, .notString p h⟩)
      | str s =>
        have bad : p ∈ structTypes → S.type s = none → ∃ e, StructWrong S (.nameValue p (.str s)) e := fun h1 h2 => ⟨_, .badType p s h1 h2⟩
        simp only [structNames, List.mem_cons, List.not_mem_nil, or_false] at h
        rcases h with rfl | rfl | rfl | rfl | rfl | rfl | rfl
        · exact .inr (.inr ⟨_, .rename s⟩)
        · cases hs : RenameRule.fromStr s with
          | none => exact .inr (.inl ⟨_, .badRule s (fun r hr => by rw [ruleText_iff, hs] at hr; cases hr)⟩)
          | some r => exact .inr (.inr ⟨_, .rule s r ((ruleText_iff s r).mpr hs)⟩)
        · cases hs : S.path s with
          | none => exact .inr (.inl ⟨_, .badPath s hs⟩)
          | some q => exact .inr (.inr ⟨_, .defaultPath s q hs⟩)
        · by_cases he : s = []
          · subst he; exact .inr (.inr ⟨_, .noBound⟩)
          cases hs : S.preds s with
          | none => exact .inr (.inl ⟨_, .badPreds s he hs⟩)
          | some q => exact .inr (.inr ⟨_, .bound s q he hs⟩)
        · cases hs : S.type s with
          | none => exact .inr (.inl (bad (by decide) hs))
          | some q => exact .inr (.inr ⟨_, .typeFrom s q hs⟩)
        · cases hs : S.type s with
          | none => exact .inr (.inl (bad (by decide) hs))
          | some q => exact .inr (.inr ⟨_, .typeTryFrom s q hs⟩)
        · cases hs : S.type s with
          | none => exact .inr (.inl (bad (by decide) hs))
          | some q => exact .inr (.inr ⟨_, .typeInto s q hs⟩)
    · exact .inr (.inl ⟨_, .name p v h⟩)

theorem report_exists (S : Syn) : ∀ (is : List (Option MetaItem)) (seen : List StructTopic), ∃ es, StructReport S seen is es
  | [], _ => ⟨_, .nil⟩
  | none :: is, seen => by
    obtain ⟨es, h⟩ := report_exists S is seen
    exact ⟨_, .unparsed h⟩
  | some i :: is, seen => by
    rcases item_cases S i with ⟨p, hp, rfl⟩ | ⟨e, h⟩ | ⟨x, h⟩
    · obtain ⟨es, h⟩ := report_exists S is seen
      exact ⟨_, .ignored hp h⟩
    · obtain ⟨es, h'⟩ := report_exists S is seen
      exact ⟨_, .wrong h h'⟩
    · by_cases hx : x.topic ∈ seen
      · obtain ⟨es, h'⟩ := report_exists S is seen
        exact ⟨_, .again h hx h'⟩
      · obtain ⟨es, h'⟩ := report_exists S is (seen ++ [x.topic])
        exact ⟨_, .means h hx h'⟩

/-- One turn over an item, or over an attribute that cannot be parsed. -/
def turn? (S : Syn) (sh : Shape) (st : ContainerVars) : Option MetaItem → ContainerVars
  | some i => item S sh st i
  | none => st.err .syntax

theorem attrs_turns : ∀ (as : List Attribute) (st : ContainerVars), as.foldl (oneAttr S sh) st = (attrItems as).foldl (turn? S sh) st
  | [], _ => rfl
  | .other :: as, st => attrs_turns as st
  | .malformed :: as, st => attrs_turns as _
  | .items l :: as, st => by
    have e : ∀ (l : List MetaItem) (st : ContainerVars), (l.map some).foldl (turn? S sh) st = l.foldl (item S sh) st := by
      intro l
      induction l with
      | nil => intro st; rfl
      | cons i l ih => intro st; exact ih _
    rw [attrItems, List.foldl_append, e]
    exact attrs_turns as _

theorem wrong_not_means {i : MetaItem} {e : AttrErr} {x : StructSetting} (h : StructWrong S i e) (hm : StructMeans S i x) : False := by
  have h1 := wrong_item (sh := .named []) h {}
  rw [means_item rfl hm] at h1
  have h2 := congrArg ContainerVars.errs h1
  rw [put_report, if_neg (by cases x <;> simp [has, StructSetting.topic])] at h2
  simp [err] at h2

theorem report_sound (hsh : sh.isNamed = true) {seen : List StructTopic} {is : List (Option MetaItem)} {es : List AttrErr}
    (h : StructReport S seen is es) :
    ∀ st : ContainerVars, (∀ t, st.has t = true ↔ t ∈ seen) → (is.foldl (turn? S sh) st).errs = st.errs ++ es ∧
      ∀ t, (is.foldl (turn? S sh) st).has t = true ↔ t ∈ seen ∨ ∃ i x, some i ∈ is ∧ StructMeans S i x ∧ x.topic = t := by
  induction h with
  | nil => intro st hs; simp [hs]
  | unparsed r ih =>
    intro st hs
    obtain ⟨h1, h2⟩ := ih (st.err .«syntax») (fun t => by rw [← hs t]; cases t <;> rfl)
    rw [List.foldl_cons]
    refine ⟨by show (List.foldl _ (st.err .«syntax») _).errs = _; rw [h1]; simp [err], fun t => ?_⟩
    refine (h2 t).trans (or_congr_right ?_)
    simp
  | @wrong seen is es i e h r ih =>
    intro st hs
    obtain ⟨h1, h2⟩ := ih (st.err e) (fun t => by rw [← hs t]; cases t <;> rfl)
    rw [List.foldl_cons]
    have e1 : turn? S sh st (some i) = st.err e := wrong_item h st
    rw [e1]
    refine ⟨by rw [h1]; simp [err], fun t => ?_⟩
    rw [h2 t]
    refine or_congr_right ⟨?_, ?_⟩
    · rintro ⟨j, x, hj, hx⟩; exact ⟨j, x, List.mem_cons_of_mem _ hj, hx⟩
    · rintro ⟨j, x, hj, hx, ht⟩
      rcases List.mem_cons.1 hj with hj | hj
      · cases hj; exact (wrong_not_means h hx).elim
      · exact ⟨j, x, hj, hx, ht⟩
  | @ignored seen is es p h r ih =>
    intro st hs
    obtain ⟨h1, h2⟩ := ih st hs
    rw [List.foldl_cons]
    have e1 : turn? S sh st (some (.nameValue p .expr)) = st := ignored_item h st
    rw [e1]
    refine ⟨h1, fun t => ?_⟩
    rw [h2 t]
    refine or_congr_right ⟨?_, ?_⟩
    · rintro ⟨j, x, hj, hx⟩; exact ⟨j, x, List.mem_cons_of_mem _ hj, hx⟩
    · rintro ⟨j, x, hj, hx, ht⟩
      rcases List.mem_cons.1 hj with hj | hj
      · cases hj; cases hx
      · exact ⟨j, x, hj, hx, ht⟩
  | @again seen is es i x h hx r ih =>
    intro st hs
    have hh : st.has x.topic = true := (hs _).2 hx
    have hput : ∀ t, (st.put x).has t = true ↔ t ∈ seen := by
      intro t
      rw [put_has, Bool.or_eq_true, hs t]
      refine ⟨?_, .inl⟩
      rintro (h | h)
      · exact h
      · rw [← (by simpa using h : x.topic = t)]; exact hx
    obtain ⟨h1, h2⟩ := ih (st.put x) hput
    rw [List.foldl_cons]
    have e1 : turn? S sh st (some i) = st.put x := means_item hsh h st
    rw [e1]
    refine ⟨by rw [h1, put_report, if_pos hh]; simp, fun t => ?_⟩
    rw [h2 t]
    constructor
    · rintro (h | ⟨j, y, hj, hy⟩)
      · exact .inl h
      · exact .inr ⟨j, y, List.mem_cons_of_mem _ hj, hy⟩
    · rintro (h' | ⟨j, y, hj, hy, ht⟩)
      · exact .inl h'
      · rcases List.mem_cons.1 hj with hj | hj
        · cases hj
          rw [← ht, means_unique hy h]; exact .inl hx
        · exact .inr ⟨j, y, hj, hy, ht⟩
  | @means seen is es i x h hx r ih =>
    intro st hs
    have hh : ¬ st.has x.topic = true := fun e => hx ((hs _).1 e)
    have hput : ∀ t, (st.put x).has t = true ↔ t ∈ seen ++ [x.topic] := by
      intro t
      rw [put_has, Bool.or_eq_true, hs t, List.mem_append, List.mem_singleton]
      exact or_congr_right ⟨fun h => (by simpa using h : x.topic = t).symm, fun h => by simp [h]⟩
    obtain ⟨h1, h2⟩ := ih (st.put x) hput
    rw [List.foldl_cons]
    have e1 : turn? S sh st (some i) = st.put x := means_item hsh h st
    rw [e1]
    refine ⟨by rw [h1, put_report, if_neg hh]; simp, fun t => ?_⟩
    rw [h2 t, List.mem_append, List.mem_singleton]
    constructor
    · rintro ((h' | rfl) | ⟨j, y, hj, hy⟩)
      · exact .inl h'
      · exact .inr ⟨i, x, List.mem_cons_self .., h, rfl⟩
      · exact .inr ⟨j, y, List.mem_cons_of_mem _ hj, hy⟩
    · rintro (h' | ⟨j, y, hj, hy, ht⟩)
      · exact .inl (.inl h')
      · rcases List.mem_cons.1 hj with hj | hj
        · cases hj
          rw [← ht, means_unique hy h]; exact .inl (.inr rfl)
        · exact .inr ⟨j, y, hj, hy, ht⟩

end
end ContainerVars
end Klick
