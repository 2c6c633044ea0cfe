import Verif.Props.NestedVec
import Verif.Props.Bound
import Verif.Accepted
import Verif.SqlLemmas
import Verif.Spec.Scope
/-
C100: the names in the code that `#[derive(Row)]` generates.
-/
namespace Klick
open Spec

/-- One mention is as it should be. -/
def MentionOk (g : Generics) (errors : List Str) : Mention → Prop
  | .type outside t => outside = true → Everywhere g t
  | .front t => Fronts t
  | .call p vars => ∀ x ∈ vars, p ≠ [x]
  | .variant v => v ∈ errors

theorem meant_iff (g : Generics) (errors : List Str) (code : RowCode) :
    Meant g errors code ↔ (∀ m ∈ code.mentions, MentionOk g errors m) ∧ ∀ v ty, (v, ty) ∈ code.uses → LastDeclared code.decls v ty := by
  constructor
  · rintro ⟨h1, h2, h3, h4, h5⟩
    refine ⟨fun m hm => ?_, h5⟩
    cases m with
    | type o t => intro ho; subst ho; exact h1 t hm
    | front t => exact h2 t hm
    | call p vars => exact h3 p vars hm
    | variant v => exact h4 v hm
  · rintro ⟨h, h5⟩
    exact ⟨fun t hm => h _ hm rfl, fun t hm => h _ hm, fun p vars hm => h _ hm, fun v hm => h _ hm, h5⟩

/-! ### The variables -/

theorem lastDeclared_iff (D : List (Str × LocalTy)) (v : Str) (ty : LocalTy) :
    LastDeclared D v ty ↔ (D.filter fun d => decide (d.1 = v)).getLast? = some (v, ty) := by
  constructor
  · rintro ⟨a, b, rfl, h⟩
    have hb : (b.filter fun d => decide (d.1 = v)) = [] := by
      rw [List.filter_eq_nil_iff]
      rintro ⟨w, t⟩ hm hw
      have : w = v := by simpa using hw
      subst this
      exact h t hm
    rw [List.filter_append, List.filter_cons_of_pos (by simp), hb, List.getLast?_append]
    rfl
  · intro h
    obtain ⟨ys, h⟩ := List.getLast?_eq_some_iff.mp h
    obtain ⟨D1, D2, rfl, -, h⟩ := List.filter_eq_append_iff.mp h
    obtain ⟨a, b, rfl, -, -, h⟩ := List.filter_eq_cons_iff.mp h
    refine ⟨D1 ++ a, b, by rw [List.append_assoc], fun ty' hm => ?_⟩
    exact List.filter_eq_nil_iff.mp h _ hm (by simp)

theorem declared_iff (D : List (Str × LocalTy)) :
    (∀ v ty, (v, ty) ∈ D → LastDeclared D v ty) ↔ ∀ v ty ty', (v, ty) ∈ D → (v, ty') ∈ D → ty = ty' := by
  constructor
  · intro h v ty ty' h1 h2
    have e1 := (lastDeclared_iff D v ty).mp (h v ty h1)
    have e2 := (lastDeclared_iff D v ty').mp (h v ty' h2)
    rw [e1] at e2
    cases e2
    rfl
  · intro h v ty h1
    rw [lastDeclared_iff]
    cases e : (D.filter fun d => decide (d.1 = v)).getLast? with
    | none =>
      rw [List.getLast?_eq_none_iff, List.filter_eq_nil_iff] at e
      exact absurd (by simp) (e _ h1)
    | some d =>
      obtain ⟨w, t⟩ := d
      have hm := List.mem_of_getLast? e
      rw [List.mem_filter] at hm
      have : w = v := by simpa using hm.2
      subst this
      rw [h w ty t h1 hm.1]

theorem passed_false (f : SField) : f.passed = false ↔ Read f := by
  unfold SField.passed Read
  rw [Bool.or_eq_false_iff]

theorem mem_readVars (fields : List SField) (v : Str) (ty : LocalTy) :
    (v, ty) ∈ readVars fields ↔
      (∃ (i : Nat) (f : SField), fields[i]? = some f ∧ Read f ∧ v = slotName i ∧ ty = .slot i) ∨
      ∃ f ∈ fields, Read f ∧ f.attrs.nested = true ∧ (v, ty) ∈ nestedVars f.attrs.name := by
  unfold readVars
  rw [List.mem_append, List.mem_flatMap, List.mem_flatMap]
  refine or_congr ⟨?_, ?_⟩ ⟨?_, ?_⟩
  · rintro ⟨⟨f, i⟩, hm, h⟩
    have hi := (List.mem_zipIdx_iff_getElem?.mp hm)
    dsimp only at h hi
    split at h
    · cases h
    · rename_i hp
      cases List.mem_singleton.mp h
      exact ⟨i, f, hi, (passed_false f).mp (by simpa using hp), rfl, rfl⟩
  · rintro ⟨i, f, hi, hr, rfl, rfl⟩
    refine ⟨(f, i), List.mem_zipIdx_iff_getElem?.mpr hi, ?_⟩
    dsimp only
    rw [if_neg (by rw [(passed_false f).mpr hr]; exact Bool.false_ne_true)]
    exact List.mem_singleton.mpr rfl
  · rintro ⟨f, hf, h⟩
    split at h
    · cases h
    · rename_i hp
      simp only [Bool.or_eq_true, not_or, Bool.not_eq_true, Bool.not_eq_false'] at hp
      exact ⟨f, hf, (passed_false f).mp hp.1, hp.2, h⟩
  · rintro ⟨f, hf, hr, hn, h⟩
    refine ⟨f, hf, ?_⟩
    rw [if_neg (by rw [(passed_false f).mpr hr, hn]; exact Bool.false_ne_true)]
    exact h

theorem mem_nestedVars (n v : Str) (ty : LocalTy) : (v, ty) ∈ nestedVars n ↔
    (v = ch! "__" ++ n ++ ch! "_size" ∧ ty = .number) ∨ (v = ch! "__ext_" ++ n ∧ ty = .labels) ∨
    (v = ch! "__ext_" ++ n ++ ch! "_iter" ∧ ty = .values) ∨ (v = ch! "__ext_" ++ n ++ ch! "_len" ∧ ty = .number) := by
  simp only [nestedVars, List.mem_cons, List.not_mem_nil, or_false, Prod.mk.injEq]

/-- Texts that end differently are different. -/
theorem ends_ne {a b : Str} {x y : Char} (h : x ≠ y) : a ++ [x] ≠ b ++ [y] := fun e => h (by simpa using congrArg List.getLast? e)

theorem dec_last (n : Nat) : ∃ a d, dec n = a ++ [d] ∧ isDigit d = true := by
  have h := dec_ne_nil n
  refine ⟨(dec n).dropLast, (dec n).getLast h, (List.dropLast_concat_getLast h).symm, ?_⟩
  exact List.all_eq_true.mp (dec_digits n) _ (List.getLast_mem h)

theorem digit_inj {m n : Nat} (hm : m < 10) (hn : n < 10) (h : digit m = digit n) : m = n := by
  unfold digit at h
  have := ofNat_ascii_inj (by omega) (by omega) h
  omega

theorem dec_inj {m n : Nat} (h : dec m = dec n) : m = n := by
  induction m using Nat.strongRecOn generalizing n with
  | _ m ih =>
    by_cases hm : m < 10
    · rw [dec_small hm] at h
      by_cases hn : n < 10
      · rw [dec_small hn] at h
        exact digit_inj hm hn (List.cons.inj h).1
      · rw [dec_step hn] at h
        have := congrArg List.length h
        rw [List.length_append] at this
        have h1 := List.length_pos_iff.mpr (dec_ne_nil (n / 10))
        simp only [List.length_cons, List.length_nil] at this
        omega
    · rw [dec_step hm] at h
      by_cases hn : n < 10
      · rw [dec_small hn] at h
        have := congrArg List.length h
        rw [List.length_append] at this
        have h1 := List.length_pos_iff.mpr (dec_ne_nil (m / 10))
        simp only [List.length_cons, List.length_nil] at this
        omega
      · rw [dec_step hn] at h
        obtain ⟨h1, h2⟩ := List.append_inj' h rfl
        have e1 := ih (m / 10) (by omega) h1
        have e2 := digit_inj (Nat.mod_lt m (by omega)) (Nat.mod_lt n (by omega)) (List.cons.inj h2).1
        omega

theorem slot_not_nested {i : Nat} {n : Str} {ty : LocalTy} : (slotName i, ty) ∉ nestedVars n := by
  rw [mem_nestedVars]
  obtain ⟨a, d, ha, hd⟩ := dec_last i
  rintro (⟨h, -⟩ | ⟨h, -⟩ | ⟨h, -⟩ | ⟨h, -⟩)
  · unfold slotName at h
    rw [ha, ← List.append_assoc] at h
    refine ends_ne (x := d) (y := 'e') ?_ (h.trans (show _ = (ch! "__" ++ n ++ ch! "_siz") ++ ['e'] by simp))
    rintro rfl
    exact absurd hd (by decide)
  all_goals
    have := congrArg (fun s => s[2]?) h
    simp [slotName] at this

/-- The variables of the fields are told apart exactly when those of nested fields are. -/
theorem readVars_iff (fields : List SField) :
    (∀ v ty, (v, ty) ∈ readVars fields → LastDeclared (readVars fields) v ty) ↔
    ∀ f ∈ fields, ∀ h ∈ fields, Read f → Read h → f.attrs.nested = true → h.attrs.nested = true → VarsApart f.attrs.name h.attrs.name := by
  rw [declared_iff]
  constructor
  · intro H f hf h hh rf rh nf nh
    have mem : ∀ (k : SField), k ∈ fields → Read k → k.attrs.nested = true → ∀ d ∈ nestedVars k.attrs.name, d ∈ readVars fields :=
      fun k hk rk nk d hd => (mem_readVars _ _ _).mpr (.inr ⟨k, hk, rk, nk, hd⟩)
    have F := mem f hf rf nf
    have G := mem h hh rh nh
    refine ⟨fun e => ?_, fun e => ?_, fun e => ?_⟩
    · have := H (ch! "__ext_" ++ f.attrs.name) .labels .values (F _ (by simp [nestedVars]))
        (G _ ((mem_nestedVars _ _ _).mpr (.inr (.inr (.inl ⟨by rw [e, List.append_assoc], rfl⟩)))))
      cases this
    · have := H (ch! "__ext_" ++ f.attrs.name) .labels .number (F _ (by simp [nestedVars]))
        (G _ ((mem_nestedVars _ _ _).mpr (.inr (.inr (.inr ⟨by rw [e, List.append_assoc], rfl⟩)))))
      cases this
    · have := H (ch! "__ext_" ++ f.attrs.name) .labels .number (F _ (by simp [nestedVars]))
        (G _ ((mem_nestedVars _ _ _).mpr (.inl ⟨by rw [List.append_assoc, ← e]; rfl, rfl⟩)))
      cases this
  · intro H v ty ty' h1 h2
    rw [mem_readVars] at h1 h2
    rcases h1 with ⟨i, f, hi, rf, rfl, rfl⟩ | ⟨f, hf, rf, nf, h1⟩ <;>
      rcases h2 with ⟨j, k, hj, rk, e, rfl⟩ | ⟨k, hk, rk, nk, h2⟩
    · unfold slotName at e
      rw [dec_inj (List.append_cancel_left e)]
    · exact absurd h2 slot_not_nested
    · rw [e] at h1; exact absurd h1 slot_not_nested
    · have a1 := H f hf k hk rf rk nf nk
      have a2 := H k hk f hf rk rf nk nf
      rw [mem_nestedVars] at h1 h2
      have size_iter : ∀ x y : Str, ch! "__" ++ x ++ ch! "_size" ≠ ch! "__ext_" ++ y ++ ch! "_iter" := fun x y e =>
        ends_ne (x := 'e') (y := 'r') (by decide)
          (show (ch! "__" ++ x ++ ch! "_siz") ++ ['e'] = (ch! "__ext_" ++ y ++ ch! "_ite") ++ ['r'] by simpa using e)
      have iter_len : ∀ x y : Str, ch! "__ext_" ++ x ++ ch! "_iter" ≠ ch! "__ext_" ++ y ++ ch! "_len" := fun x y e =>
        ends_ne (x := 'r') (y := 'n') (by decide)
          (show (ch! "__ext_" ++ x ++ ch! "_ite") ++ ['r'] = (ch! "__ext_" ++ y ++ ch! "_le") ++ ['n'] by simpa using e)
      have ext_size : ∀ x y : Str, ch! "ext_" ++ x ≠ y ++ ch! "_size" → ch! "__ext_" ++ x ≠ ch! "__" ++ y ++ ch! "_size" := by
        intro x y h e
        rw [List.append_assoc] at e
        exact h (List.append_cancel_left (as := ch! "__") e)
      rcases h1 with ⟨e1, rfl⟩ | ⟨e1, rfl⟩ | ⟨e1, rfl⟩ | ⟨e1, rfl⟩ <;>
        rcases h2 with ⟨e2, rfl⟩ | ⟨e2, rfl⟩ | ⟨e2, rfl⟩ | ⟨e2, rfl⟩ <;> first | rfl | (exfalso; rw [e1] at e2)
      · exact ext_size _ _ a2.2.2 e2.symm
      · exact size_iter _ _ e2
      · exact ext_size _ _ a1.2.2 e2
      · exact a1.1 (List.append_cancel_left (e2.trans (List.append_assoc ..)))
      · exact a1.2.1 (List.append_cancel_left (e2.trans (List.append_assoc ..)))
      · exact size_iter _ _ e2.symm
      · exact a2.1 (List.append_cancel_left (e2.symm.trans (List.append_assoc ..)))
      · exact iter_len _ _ e2
      · exact a2.2.1 (List.append_cancel_left (e2.symm.trans (List.append_assoc ..)))
      · exact iter_len _ _ e2.symm

/-! ### The mentions -/

/-- Everything in the list is as it should be. -/
def AllOk (g : Generics) (ms : List Mention) : Prop := ∀ m ∈ ms, MentionOk g errorVariants m

theorem allOk_append (g : Generics) (a b : List Mention) : AllOk g (a ++ b) ↔ AllOk g a ∧ AllOk g b := List.forall_mem_append

theorem allOk_nil (g : Generics) : AllOk g [] ↔ True := ⟨fun _ => trivial, fun _ m h => by cases h⟩

theorem allOk_cons (g : Generics) (m : Mention) (ms : List Mention) : AllOk g (m :: ms) ↔ MentionOk g errorVariants m ∧ AllOk g ms :=
  List.forall_mem_cons

theorem allOk_flatMap {α : Type} (g : Generics) (as : List α) (k : α → List Mention) : AllOk g (as.flatMap k) ↔ ∀ a ∈ as, AllOk g (k a) := by
  unfold AllOk
  constructor
  · intro h a ha m hm; exact h m (List.mem_flatMap.mpr ⟨a, ha, hm⟩)
  · intro h m hm
    obtain ⟨a, ha, hm⟩ := List.mem_flatMap.mp hm
    exact h a ha m hm

theorem allOk_types (g : Generics) (ts : List STy) : AllOk g (ts.map (.type false)) ↔ True := by
  refine ⟨fun _ => trivial, fun _ m hm => ?_⟩
  obtain ⟨t, _, rfl⟩ := List.mem_map.mp hm
  exact fun h => by cases h

theorem callOk (g : Generics) (p vars : List Str) : MentionOk g errorVariants (.call p vars) ↔ ∀ x, p = [x] → x ∉ vars :=
  ⟨fun h x e hx => h x hx e, fun h x hx e => h x e hx⟩

theorem mem_rows (f : SField) (t : STy) : t ∈ f.rows ↔ IsVec f.ty t := by
  unfold SField.rows
  rw [Option.mem_toList, unwrapVec_iff]

theorem anyFlat_false (fields : List SField) : anyFlat fields = false ↔ ∀ f ∈ fields, f.attrs.flatten = false := by
  unfold anyFlat
  rw [List.any_eq_false]
  exact forall₂_congr fun f _ => by rw [Bool.not_eq_true]

theorem anyFlat_true (fields : List SField) : anyFlat fields = true ↔ ∃ f ∈ fields, f.attrs.flatten = true := by
  unfold anyFlat
  rw [List.any_eq_true]

theorem lengthCode_ok (g : Generics) (c : ContainerAttrs) (fields : List SField) (hc : c.typeInto = none) :
    AllOk g (lengthCode c fields) ↔ ((∀ f ∈ fields, f.attrs.flatten = false) → ∀ f ∈ fields, f.attrs.skipSer = false →
      f.attrs.nested = true → ∀ t, IsVec f.ty t → Everywhere g t) := by
  unfold lengthCode
  rw [hc]
  cases hf : anyFlat fields with
  | true =>
    rw [Bool.true_or, if_pos rfl, allOk_nil]
    obtain ⟨f, hm, h⟩ := (anyFlat_true _).mp hf
    exact ⟨fun _ h' => (by have := h' f hm; rw [h] at this; cases this), fun _ => trivial⟩
  | false =>
    rw [if_neg (by decide), allOk_flatMap]
    have hf := (anyFlat_false _).mp hf
    constructor
    · intro h _ f hm hs hn t ht
      exact h f (List.mem_filter.mpr ⟨hm, by rw [hs, hn]; rfl⟩) _ (List.mem_map.mpr ⟨t, (mem_rows f t).mpr ht, rfl⟩) rfl
    · intro h f hm m hm'
      obtain ⟨hm, hp⟩ := List.mem_filter.mp hm
      rw [Bool.and_eq_true, Bool.not_eq_true'] at hp
      obtain ⟨t, ht, rfl⟩ := List.mem_map.mp hm'
      exact fun _ => h hf f hm hp.1 hp.2 t ((mem_rows f t).mp ht)

theorem namesCode_ok (g : Generics) (c : ContainerAttrs) (fields : List SField) (hc : c.typeInto = none) :
    AllOk g (namesCode c fields) ↔ ∀ f ∈ fields, WritesFlat f → Fronts f.ty := by
  unfold namesCode
  rw [hc, if_neg (by decide), allOk_flatMap]
  constructor
  · rintro h f hf ⟨h1, h2, h3⟩
    have := h f (List.mem_filter.mpr ⟨hf, by rw [h1]; rfl⟩)
    rw [h2, h3, if_neg Bool.false_ne_true, if_pos rfl] at this
    exact this _ (List.mem_singleton.mpr rfl)
  · intro h f hf
    obtain ⟨hf, hp⟩ := List.mem_filter.mp hf
    split
    · exact (allOk_types g _).mpr trivial
    · rename_i hn
      split
      · rename_i hfl
        rw [allOk_cons, allOk_nil]
        exact ⟨h f hf ⟨by simpa using hp, hfl, by simpa using hn⟩, trivial⟩
      · exact (allOk_nil g).mpr trivial

/-- The functions of `serialize_with` in a list of fields, after some others. -/
def WritersOk (vars : List Str) (fields : List SField) : Prop :=
  ∀ before f after, fields = before ++ f :: after → f.attrs.skipSer = false → ∀ x, f.attrs.serWith = some [x] →
    x ∉ vars ∧ (x = ch! "inner_length" → ∀ h ∈ before, WritesFlat h → h.attrs.serWith ≠ none)

instance (f : SField) : Decidable (WritesFlat f) := by unfold WritesFlat; infer_instance

theorem writersOk_cons (vars : List Str) (f : SField) (fs : List SField) :
    WritersOk vars (f :: fs) ↔ (f.attrs.skipSer = false → ∀ x, f.attrs.serWith = some [x] → x ∉ vars) ∧
      WritersOk (if WritesFlat f ∧ f.attrs.serWith = none then ch! "inner_length" :: vars else vars) fs := by
  constructor
  · intro h
    refine ⟨fun hs x hx => (h [] f fs rfl hs x hx).1, fun before k after e hs x hx => ?_⟩
    obtain ⟨h1, h2⟩ := h (f :: before) k after (by rw [e]; rfl) hs x hx
    refine ⟨?_, fun e' p hp => h2 e' p (List.mem_cons_of_mem _ hp)⟩
    split
    · rename_i hw
      intro hm
      rcases List.mem_cons.mp hm with e' | hm
      · exact h2 e' f (List.mem_cons_self ..) hw.1 hw.2
      · exact h1 hm
    · exact h1
  · rintro ⟨h1, h2⟩ before k after e hs x hx
    cases before with
    | nil =>
      cases e
      exact ⟨h1 hs x hx, fun _ p hp => by cases hp⟩
    | cons b before =>
      rw [List.cons_append] at e
      obtain ⟨rfl, e2⟩ := List.cons.inj e
      clear e
      obtain ⟨h3, h4⟩ := h2 before k after e2 hs x hx
      constructor
      · intro hm
        apply h3
        split
        · exact List.mem_cons_of_mem _ hm
        · exact hm
      · intro e' p hp hw
        rcases List.mem_cons.mp hp with rfl | hp
        · intro hn
          rw [if_pos ⟨hw, hn⟩] at h3
          exact h3 (by rw [e']; exact List.mem_cons_self ..)
        · exact h4 e' p hp hw

theorem writeCode_ok (g : Generics) (fields : List SField) (hf : ∀ f ∈ fields, WritesFlat f → Fronts f.ty) (vars : List Str) :
    AllOk g (writeCode vars fields) ↔ WritersOk vars fields := by
  induction fields generalizing vars with
  | nil =>
    rw [writeCode, allOk_nil]
    refine ⟨fun _ before f after e => ?_, fun _ => trivial⟩
    cases before <;> cases e
  | cons f fs ih =>
    have ih := ih (fun k hk => hf k (List.mem_cons_of_mem _ hk))
    have hf := hf f (List.mem_cons_self ..)
    rw [writersOk_cons, writeCode]
    cases hs : f.attrs.skipSer with
    | true =>
      rw [if_pos rfl, ih, if_neg (fun h => by have := h.1.1; rw [hs] at this; cases this)]
      exact ⟨fun h => ⟨(fun h' => by cases h'), h⟩, fun h => h.2⟩
    | false =>
      rw [if_neg Bool.false_ne_true]
      cases hw : f.attrs.serWith with
      | some p =>
        dsimp only
        rw [allOk_cons, callOk, ih, if_neg (fun h => by cases h.2)]
        exact and_congr ⟨fun h _ x e => h x (Option.some.inj e), fun h x e => h rfl x (by rw [e])⟩ Iff.rfl
      | none =>
        dsimp only
        have triv : ∀ {A : Prop}, ((false = false → ∀ x : Str, (none : Option (List Str)) = some [x] → x ∉ vars) ∧ A) ↔ A :=
          ⟨fun h => h.2, fun h => ⟨(fun _ _ h' => by cases h'), h⟩⟩
        rw [triv]
        cases hn : f.attrs.nested with
        | true =>
          rw [if_pos rfl, allOk_append, allOk_types, ih, if_neg (fun h => by have := h.1.2.2; rw [hn] at this; cases this), true_and]
        | false =>
          rw [if_neg Bool.false_ne_true]
          cases hl : f.attrs.flatten with
          | true =>
            rw [if_pos rfl, allOk_cons, ih, if_pos ⟨⟨hs, hl, hn⟩, rfl⟩]
            exact ⟨fun h => h.2, fun h => ⟨hf ⟨hs, hl, hn⟩, h⟩⟩
          | false =>
            rw [if_neg Bool.false_ne_true, allOk_cons, ih, if_neg (fun h => by have := h.1.2.1; rw [hl] at this; cases this)]
            exact ⟨fun h => h.2, fun h => ⟨(fun h' => by cases h'), h⟩⟩

theorem writes_ok (g : Generics) (c : ContainerAttrs) (fields : List SField) (hc : c.typeInto = none) :
    AllOk g (lengthCode c fields ++ namesCode c fields ++ serializeCode c fields) ↔ WritesWell g fields := by
  rw [allOk_append, allOk_append, lengthCode_ok g c fields hc, namesCode_ok g c fields hc]
  unfold serializeCode
  rw [hc, if_neg (by decide)]
  have key : ∀ x : Str, x ∉ [ch! "out", ch! "type_hints", ch! "self"] ↔ x ≠ ch! "out" ∧ x ≠ ch! "type_hints" ∧ x ≠ ch! "self" := by
    intro x
    simp only [List.mem_cons, List.not_mem_nil, or_false, not_or, ne_eq]
  constructor
  · rintro ⟨⟨h1, h2⟩, h3⟩
    rw [writeCode_ok g fields h2] at h3
    refine ⟨h1, h2, fun before f after e hs x hx => ?_⟩
    obtain ⟨h4, h5⟩ := h3 before f after e hs x hx
    obtain ⟨k1, k2, k3⟩ := (key x).mp h4
    exact ⟨k1, k2, k3, h5⟩
  · rintro ⟨h1, h2, h3⟩
    refine ⟨⟨h1, h2⟩, (writeCode_ok g fields h2 _).mpr fun before f after e hs x hx => ?_⟩
    obtain ⟨k1, k2, k3, h5⟩ := h3 before f after e hs x hx
    exact ⟨(key x).mpr ⟨k1, k2, k3⟩, h5⟩

theorem mem_readScope (fields : List SField) (x : Str) : x ∈ readScope fields ↔ ReadingVar fields x := by
  unfold readScope ReadingVar
  rw [List.mem_append, List.mem_map]
  simp only [List.mem_cons, List.not_mem_nil, or_false, or_assoc]
  refine or_congr Iff.rfl (or_congr Iff.rfl ?_)
  constructor
  · rintro ⟨⟨v, ty⟩, h, rfl⟩
    rw [mem_readVars] at h
    rcases h with ⟨i, f, hi, hr, hv, -⟩ | ⟨f, hf, hr, hn, h⟩
    · exact .inl ⟨i, f, hi, hr, hv⟩
    · rw [mem_nestedVars] at h
      exact .inr ⟨f, hf, hr, hn, h.imp And.left (Or.imp And.left (Or.imp And.left And.left))⟩
  · rintro (⟨i, f, hi, hr, hv⟩ | ⟨f, hf, hr, hn, h⟩)
    · exact ⟨(x, .slot i), (mem_readVars _ _ _).mpr (.inl ⟨i, f, hi, hr, hv, rfl⟩), rfl⟩
    · rcases h with h | h | h | h
      · exact ⟨(x, .number), (mem_readVars _ _ _).mpr (.inr ⟨f, hf, hr, hn, (mem_nestedVars _ _ _).mpr (.inl ⟨h, rfl⟩)⟩), rfl⟩
      · exact ⟨(x, .labels), (mem_readVars _ _ _).mpr (.inr ⟨f, hf, hr, hn, (mem_nestedVars _ _ _).mpr (.inr (.inl ⟨h, rfl⟩))⟩), rfl⟩
      · exact ⟨(x, .values), (mem_readVars _ _ _).mpr (.inr ⟨f, hf, hr, hn, (mem_nestedVars _ _ _).mpr (.inr (.inr (.inl ⟨h, rfl⟩)))⟩), rfl⟩
      · exact ⟨(x, .number), (mem_readVars _ _ _).mpr (.inr ⟨f, hf, hr, hn, (mem_nestedVars _ _ _).mpr (.inr (.inr (.inr ⟨h, rfl⟩)))⟩), rfl⟩

theorem variant_ok (g : Generics) {v : Str} (h : v ∈ errorVariants) : MentionOk g errorVariants (.variant v) := h

theorem armsCode_ok (g : Generics) (flat : Bool) (scope : List Str) (f : SField) :
    AllOk g (armsCode flat scope f) ↔ (Read f → f.attrs.nested = false → ∀ x, f.attrs.deWith = some [x] → x ∉ scope ∧
      x ≠ ch! "_field_index" ∧ x ≠ ch! "_name" ∧ x ≠ ch! "_type_" ∧ x ≠ ch! "_value" ∧ (x = ch! "x" → flat = true)) := by
  have hT : MentionOk g errorVariants (.type false f.ty) := fun h => by cases h
  unfold armsCode
  cases hp : f.passed with
  | true =>
    rw [if_pos rfl, allOk_nil]
    refine ⟨fun _ hr => ?_, fun _ => trivial⟩
    rw [(passed_false f).mpr hr] at hp
    cases hp
  | false =>
    have hr := (passed_false f).mp hp
    rw [if_neg Bool.false_ne_true, allOk_cons]
    cases hn : f.attrs.nested with
    | true =>
      rw [if_pos rfl, allOk_append, allOk_types, allOk_cons, allOk_cons, allOk_nil]
      refine ⟨fun _ _ h => (by cases h), fun _ => ⟨hT, trivial, variant_ok g (by decide), variant_ok g (by decide), trivial⟩⟩
    | false =>
      rw [if_neg Bool.false_ne_true, allOk_append, allOk_cons, allOk_nil]
      unfold visitCode
      dsimp only
      cases hd : f.attrs.deWith with
      | none =>
        dsimp only
        rw [allOk_cons, allOk_nil]
        exact ⟨fun _ _ _ x h => (by cases h), fun _ => ⟨hT, ⟨hT, trivial⟩, variant_ok g (by decide), trivial⟩⟩
      | some p =>
        dsimp only
        rw [allOk_cons, callOk]
        have key : ∀ x : Str, x ∉ [ch! "_field_index", ch! "_name", ch! "_type_", ch! "_value"] ++ scope ↔
            x ∉ scope ∧ x ≠ ch! "_field_index" ∧ x ≠ ch! "_name" ∧ x ≠ ch! "_type_" ∧ x ≠ ch! "_value" := by
          intro x
          simp only [List.mem_append, List.mem_cons, List.not_mem_nil, or_false, not_or, ne_eq]
          exact ⟨fun ⟨⟨a, b, c, d⟩, e⟩ => ⟨e, a, b, c, d⟩, fun ⟨e, a, b, c, d⟩ => ⟨⟨a, b, c, d⟩, e⟩⟩
        cases flat with
        | true =>
          rw [if_pos rfl, allOk_nil]
          constructor
          · rintro ⟨-, ⟨h, -⟩, -⟩ _ _ x e
            obtain ⟨h0, h1, h2, h3, h4⟩ := (key x).mp (h x (Option.some.inj e))
            exact ⟨h0, h1, h2, h3, h4, fun _ => rfl⟩
          · intro h
            refine ⟨hT, ⟨fun x e => (key x).mpr ?_, trivial⟩, variant_ok g (by decide), trivial⟩
            obtain ⟨h0, h1, h2, h3, h4, -⟩ := h hr rfl x (by rw [e])
            exact ⟨h0, h1, h2, h3, h4⟩
        | false =>
          rw [if_neg Bool.false_ne_true, allOk_cons, allOk_nil, callOk]
          constructor
          · rintro ⟨-, ⟨h, h', -⟩, -⟩ _ _ x e
            obtain ⟨h0, h1, h2, h3, h4⟩ := (key x).mp (h x (Option.some.inj e))
            refine ⟨h0, h1, h2, h3, h4, fun ex => absurd ?_ (h' x (Option.some.inj e))⟩
            rw [ex]
            exact List.mem_cons_self ..
          · intro h
            refine ⟨hT, ⟨fun x e => (key x).mpr ?_, fun x e => ?_, trivial⟩, variant_ok g (by decide), trivial⟩
            · obtain ⟨h0, h1, h2, h3, h4, -⟩ := h hr rfl x (by rw [e])
              exact ⟨h0, h1, h2, h3, h4⟩
            · obtain ⟨h0, h1, h2, h3, h4, h5⟩ := h hr rfl x (by rw [e])
              intro hm
              rcases List.mem_cons.mp hm with ex | hm
              · cases h5 ex
              · exact (key x).mpr ⟨h0, h1, h2, h3, h4⟩ hm

theorem missingCode_ok (g : Generics) (scope : List Str) (c : ContainerAttrs) (a : FieldAttrs) :
    AllOk g (missingCode scope c a) ↔ ∀ x, a.default = .path [x] → x ∉ scope ∧ (x = ch! "__default" → c.default = .none) := by
  unfold missingCode
  cases a.default with
  | default => exact ⟨fun _ x h => (by cases h), fun _ => (allOk_nil g).mpr trivial⟩
  | none =>
    refine ⟨fun _ x h => (by cases h), fun _ => ?_⟩
    dsimp only
    split
    · rw [allOk_cons, allOk_nil]
      exact ⟨variant_ok g (by decide), trivial⟩
    · exact (allOk_nil g).mpr trivial
  | path p =>
    dsimp only
    rw [allOk_cons, allOk_nil, callOk]
    constructor
    · rintro ⟨h, -⟩ x e
      cases e
      have h := h x rfl
      split at h
      · rename_i hc
        exact ⟨h, fun _ => hc⟩
      · rename_i hc
        refine ⟨fun hm => h (List.mem_cons_of_mem _ hm), fun ex => absurd ?_ h⟩
        rw [ex]
        exact List.mem_cons_self ..
    · intro h
      refine ⟨fun x e => ?_, trivial⟩
      subst e
      obtain ⟨h1, h2⟩ := h x rfl
      split
      · exact h1
      · rename_i hc
        intro hm
        rcases List.mem_cons.mp hm with ex | hm
        · exact hc (h2 ex)
        · exact h1 hm

theorem reads_ok (g : Generics) (c : ContainerAttrs) (fields : List SField) :
    (AllOk g (readCode c fields) ∧ ∀ v ty, (v, ty) ∈ readVars fields → LastDeclared (readVars fields) v ty) ↔ ReadsWell c fields := by
  rw [readVars_iff]
  unfold readCode
  dsimp only
  rw [allOk_append, allOk_append, allOk_append, allOk_append, allOk_flatMap, allOk_flatMap, allOk_flatMap]
  have hign : AllOk g (ignoredCode c fields) ↔ (c.denyUnknown = true → ∃ f ∈ fields, f.attrs.flatten = true) := by
    unfold ignoredCode
    rw [← anyFlat_true]
    cases c.denyUnknown <;> cases anyFlat fields
    · exact ⟨fun _ h => (by cases h), fun _ => (allOk_nil g).mpr trivial⟩
    · exact ⟨fun _ h => (by cases h), fun _ => (allOk_nil g).mpr trivial⟩
    · refine ⟨fun h => ?_, fun h => absurd (h rfl) Bool.false_ne_true⟩
      exact absurd (show ch! "UnknownField" ∈ errorVariants from h _ (List.mem_singleton.mpr rfl)) (by decide)
    · exact ⟨fun _ _ => rfl, fun _ => (allOk_nil g).mpr trivial⟩
  have hdef : AllOk g (defaultCode (readScope fields) c) ↔ ∀ x, c.default = .path [x] → ¬ ReadingVar fields x := by
    unfold defaultCode
    cases hd : c.default with
    | path p =>
      dsimp only
      rw [allOk_cons, allOk_nil, callOk]
      constructor
      · rintro ⟨h, -⟩ x e
        cases e
        rw [← mem_readScope]
        exact h x rfl
      · intro h
        refine ⟨fun x e => ?_, trivial⟩
        subst e
        rw [mem_readScope]
        exact h x rfl
    | _ => exact ⟨fun _ x h => (by cases h), fun _ => (allOk_nil g).mpr trivial⟩
  have hpull : ∀ f : SField, AllOk g (pullCode f) ↔ (f.attrs.flatten = true → Fronts f.ty) := by
    intro f
    unfold pullCode
    split
    · rename_i hf
      rw [allOk_cons, allOk_cons, allOk_cons, allOk_nil]
      exact ⟨fun h _ => h.1, fun h => ⟨h hf, variant_ok g (by decide), variant_ok g (by decide), trivial⟩⟩
    · rename_i hf
      exact ⟨fun _ h => absurd h hf, fun _ => (allOk_nil g).mpr trivial⟩
  have hres : ∀ f : SField, (f.attrs.flatten = true → Fronts f.ty) → (AllOk g (resultCode (readScope fields) c f) ↔
      (f.attrs.skipDe = true ∨ f.attrs.flatten = false → ∀ x, f.attrs.default = .path [x] →
        ¬ ReadingVar fields x ∧ (x = ch! "__default" → c.default = .none))) := by
    intro f hfr
    have hm := missingCode_ok g (readScope fields) c f.attrs
    simp only [mem_readScope] at hm
    unfold resultCode SField.passed
    rw [allOk_append]
    cases hs : f.attrs.skipDe with
    | true =>
      rw [Bool.true_or, if_pos rfl, if_pos rfl, allOk_nil, hm, true_and]
      exact ⟨fun h _ => h, fun h => h (.inl rfl)⟩
    | false =>
      rw [Bool.false_or, if_neg Bool.false_ne_true]
      cases hf : f.attrs.flatten with
      | true =>
        rw [if_pos rfl, if_pos rfl, allOk_nil, allOk_cons, allOk_nil]
        exact ⟨fun _ h => (by rcases h with h | h <;> cases h), fun _ => ⟨trivial, hfr hf, trivial⟩⟩
      | false =>
        rw [if_neg Bool.false_ne_true, if_neg Bool.false_ne_true, allOk_nil, hm, and_true]
        exact ⟨fun h _ => h, fun h => h (.inr rfl)⟩
  rw [hign, hdef]
  constructor
  · rintro ⟨⟨⟨⟨⟨h1, h2⟩, h3⟩, h4⟩, h5⟩, h6⟩
    have flat : ∀ f ∈ fields, f.attrs.flatten = true → Fronts f.ty := fun f hf => (hpull f).mp (h3 f hf)
    refine ⟨flat, h2, fun f hf hr hn x hx => ?_, h4, fun f hf => (hres f (flat f hf)).mp (h5 f hf), h6⟩
    have := (armsCode_ok g _ _ f).mp (h1 f hf) hr hn x hx
    rw [mem_readScope, anyFlat_true] at this
    exact this
  · rintro ⟨flat, h2, h1, h4, h5, h6⟩
    refine ⟨⟨⟨⟨⟨fun f hf => ?_, h2⟩, fun f hf => (hpull f).mpr (flat f hf)⟩, h4⟩, fun f hf => (hres f (flat f hf)).mpr (h5 f hf)⟩, h6⟩
    rw [armsCode_ok, anyFlat_true]
    intro hr hn x hx
    rw [mem_readScope]
    exact h1 f hf hr hn x hx

namespace Props

/-- **C100** (when every name in the generated code means what it should). Exactly when the struct is written well, unless it is converted
first, and read well, unless it is converted from another type. -/
theorem C100_exact_partial (g : Generics) (c : ContainerAttrs) (fields : List SField) :
    Meant g errorVariants (rowCode c fields) ↔
      (c.typeInto = none → WritesWell g fields) ∧ (c.typeFrom = none → c.typeTryFrom = none → ReadsWell c fields) := by
  rw [meant_iff]
  have hw : AllOk g (lengthCode c fields ++ namesCode c fields ++ serializeCode c fields) ↔ (c.typeInto = none → WritesWell g fields) := by
    cases hc : c.typeInto with
    | none => rw [writes_ok g c fields hc]; exact ⟨fun h _ => h, fun h => h rfl⟩
    | some t =>
      refine ⟨fun _ h => (by cases h), fun _ => ?_⟩
      unfold lengthCode namesCode serializeCode
      rw [hc, Option.isSome_some, Bool.or_true, if_pos rfl, if_pos rfl, if_pos rfl]
      exact (allOk_nil g).mpr trivial
  unfold rowCode
  dsimp only
  cases h1 : c.typeFrom with
  | some t =>
    rw [Option.isSome_some, Bool.true_or, if_pos rfl]
    exact ⟨fun h => ⟨hw.mp h.1, fun h => (by cases h)⟩, fun h => ⟨hw.mpr h.1, fun _ _ h => (by cases h)⟩⟩
  | none =>
    cases h2 : c.typeTryFrom with
    | some t =>
      rw [Option.isSome_some, Bool.or_true, if_pos rfl]
      exact ⟨fun h => ⟨hw.mp h.1, fun _ h => (by cases h)⟩, fun h => ⟨hw.mpr h.1, fun _ _ h => (by cases h)⟩⟩
    | none =>
      rw [Option.isSome_none, Bool.or_false, if_neg Bool.false_ne_true]
      dsimp only
      have key : (∀ m ∈ lengthCode c fields ++ namesCode c fields ++ serializeCode c fields ++ readCode c fields,
          MentionOk g errorVariants m) ↔ _ := allOk_append g _ _
      rw [key, hw, and_assoc, reads_ok]
      exact ⟨fun h => ⟨h.1, fun _ _ => h.2⟩, fun h => ⟨h.1, h.2 rfl rfl⟩⟩

/-- `Grid<{ Self::N }>` -/
def gridOfSelf : STy := .path (.mk false [.mk (ch! "Grid") (.angle false [.const (.other [ch! "Self", ch! "N"])])])

/-- A field without attributes. -/
def plainAttrs (name : Str) : FieldAttrs := ⟨name, false, false, false, .none, none, none, none, false, false⟩

/-- What a struct's derive accepts although its code is wrong. -/
def AcceptedWrong (name : Str) (g : Generics) (c : ContainerAttrs) (fields : List SField) : Prop :=
  ∀ part : Char → Bool, (∀ f ∈ fields, ∀ x ∈ f.attrs.name, part x = true) →
    ∃ code, expandRow part name g c fields = .ok code ∧ ¬ Meant g errorVariants code

theorem acceptedWrong {name : Str} {g : Generics} {c : ContainerAttrs} {fields fields' : List SField}
    (e : (replaceReceiver name g fields).2 = fields') (hv : ∀ f ∈ fields', f.attrs.nested = true → ∃ t, IsVec f.ty t)
    (hn : fields'.map (fun f => f.attrs.name) = fields.map fun f => f.attrs.name)
    (h : ¬ ((c.typeInto = none → WritesWell g fields') ∧ (c.typeFrom = none → c.typeTryFrom = none → ReadsWell c fields'))) :
    AcceptedWrong name g c fields := by
  intro part hp
  have ok : ∃ r, expandNested part c fields' = .ok r := by
    rw [C81_accepted]
    refine fun f hf hn' => ⟨fun _ => hv f hf hn', fun _ => ⟨hv f hf hn', ?_⟩⟩
    obtain ⟨k, hk, e'⟩ := List.mem_map.mp (hn ▸ List.mem_map_of_mem (f := fun f : SField => f.attrs.name) hf)
    rw [← e']
    exact hp k hk
  obtain ⟨r, ok⟩ := ok
  refine ⟨rowCode c fields', ?_, fun hm => h ((C100_exact_partial g c fields').mp hm)⟩
  unfold expandRow
  rw [e]
  dsimp only
  rw [ok]

/-- **C100** fails for nested rows that use a parameter of the struct: `struct S<T> { #[klickhouse(nested)] a: Vec<Inner<T>> }` is
accepted, and the function before the `impl` names `T`. -/
theorem C100_nested_false : AcceptedWrong (ch! "S") ⟨[.type (ch! "T") [] none], []⟩ bareStruct
    [⟨app (ch! "Vec") (app (ch! "Inner") (.ident (ch! "T"))), nestedAttrs (ch! "a")⟩] := by
  refine acceptedWrong rfl (fun f hf _ => ?_) rfl fun h => ?_
  · rw [List.mem_singleton.mp hf]; exact ⟨_, false, rfl⟩
  · have := (h.1 rfl).rows (fun f hf => by rw [List.mem_singleton.mp hf]; rfl) _ (List.mem_singleton.mpr rfl) rfl rfl _ ⟨false, rfl⟩
      (ch! "T") (.inl (by decide))
    exact this.1 (by decide)

/-- **C100** fails for `Self` in a constant argument of a nested row: in `struct S { #[klickhouse(nested)] a: Vec<Grid<{ Self::N }>> }` the
function before the `impl` says `Self`. -/
theorem C100_self_false : AcceptedWrong (ch! "S") ⟨[], []⟩ bareStruct [⟨app (ch! "Vec") gridOfSelf, nestedAttrs (ch! "a")⟩] := by
  refine acceptedWrong rfl (fun f hf _ => ?_) rfl fun h => ?_
  · rw [List.mem_singleton.mp hf]; exact ⟨_, false, rfl⟩
  · have := (h.1 rfl).rows (fun f hf => by rw [List.mem_singleton.mp hf]; rfl) _ (List.mem_singleton.mpr rfl) rfl rfl _ ⟨false, rfl⟩
      (ch! "Self") (.inr (by decide))
    exact this.2 rfl

/-- **C100** fails for flattened fields of a generic type: `struct S { #[klickhouse(flatten)] a: Inner<u8> }` is accepted, and
`Inner<u8>::column_names()` is not an expression. -/
theorem C100_flatten_false : AcceptedWrong (ch! "S") ⟨[], []⟩ bareStruct
    [⟨app (ch! "Inner") (.ident (ch! "u8")), { plainAttrs (ch! "a") with flatten := true }⟩] := by
  refine acceptedWrong rfl (fun f hf h => ?_) rfl fun h => ?_
  · rw [List.mem_singleton.mp hf] at h; cases h
  · rcases (h.1 rfl).flat _ (List.mem_singleton.mpr rfl) ⟨rfl, rfl, rfl⟩ _ (List.mem_singleton.mpr rfl) with h | ⟨as, h⟩ <;> cases h

/-- **C100** fails for nested fields of certain names: with `items` and `items_len`, `__ext_items_len` is both the number of rows of the
one and the list of columns of the other. -/
theorem C100_variables_false : AcceptedWrong (ch! "S") ⟨[], []⟩ bareStruct
    [⟨app (ch! "Vec") (.ident (ch! "Item")), nestedAttrs (ch! "items")⟩,
      ⟨app (ch! "Vec") (.ident (ch! "Item")), nestedAttrs (ch! "items_len")⟩] := by
  refine acceptedWrong rfl (fun f hf h => ?_) rfl fun h => ?_
  · rcases List.mem_cons.mp hf with rfl | hf
    · exact ⟨_, false, rfl⟩
    · rw [List.mem_singleton.mp hf]; exact ⟨_, false, rfl⟩
  · exact ((h.2 rfl rfl).apart _ (List.mem_cons_of_mem _ (List.mem_singleton.mpr rfl)) _ (List.mem_cons_self ..) ⟨rfl, rfl⟩ ⟨rfl, rfl⟩
      rfl rfl).2.1 rfl

/-- **C100** fails for functions of certain names: `serialize_with = "out"` is taken for the list of columns written so far. -/
theorem C100_functions_false : AcceptedWrong (ch! "S") ⟨[], []⟩ bareStruct
    [⟨.ident (ch! "u8"), { plainAttrs (ch! "a") with serWith := some [ch! "out"] }⟩] := by
  refine acceptedWrong rfl (fun f hf h => ?_) rfl fun h => ?_
  · rw [List.mem_singleton.mp hf] at h; cases h
  · exact ((h.1 rfl).writers [] _ [] rfl rfl _ rfl).1 rfl

/-- **C100** fails for every struct with `deny_unknown_fields` that is read as it is and has no flattened field: there is no error
`UnknownField`. -/
theorem C100_deny_false (g : Generics) (c : ContainerAttrs) (fields : List SField) (hd : c.denyUnknown = true) (h1 : c.typeFrom = none)
    (h2 : c.typeTryFrom = none) (hf : ∀ f ∈ fields, f.attrs.flatten = false) : ¬ Meant g errorVariants (rowCode c fields) := by
  intro h
  obtain ⟨f, hm, h⟩ := (((C100_exact_partial g c fields).mp h).2 h1 h2).deny hd
  rw [hf f hm] at h
  cases h

end Props

/-- A `Vec` after `Self` was replaced was one before, in a struct without parameters. -/
theorem isVec_replace {me : Str} {t u : STy} (h : IsVec (t.replace (.mk false [.mk me .none])) u) :
    ∃ w, IsVec t w ∧ u = w.replace (.mk false [.mk me .none]) := by
  obtain ⟨b, h⟩ := h
  cases t with
  | path p =>
    obtain ⟨lead, segs⟩ := p
    rw [STy.replace] at h
    unfold SPath.asType at h
    split at h
    · cases h
    · have key : ∀ p : SPath, (match SPath.toQself (.mk false [.mk me .none]) p with | (some q, p) => STy.qpath q p | (none, p) => .path p) =
          STy.path (.mk false [.mk (ch! "Vec") (.angle b [.type u])]) → p = .mk false [.mk (ch! "Vec") (.angle b [.type u])] := by
        intro p h
        unfold SPath.toQself at h
        split at h
        · rename_i q p' hq
          split at hq
          · split at hq
            · split at hq
              · cases hq
              · cases hq; cases h
            · cases hq
          · cases hq
        · rename_i p' hq
          split at hq
          · split at hq
            · split at hq
              · cases hq; cases h
              · cases hq
            · cases hq; cases h; rfl
          · cases hq; cases h; rfl
      have h := key _ h
      cases segs with
      | nil => rw [SSeg.replaceAll] at h; cases h
      | cons s rest =>
        obtain ⟨id, a⟩ := s
        rw [SSeg.replaceAll] at h
        cases rest with
        | cons s' rest =>
          obtain ⟨id', a'⟩ := s'
          rw [SSeg.replaceAll] at h
          exact absurd (congrArg (fun p : SPath => p.segs.length) h) (by simp [SPath.segs])
        | nil =>
          rw [SSeg.replaceAll] at h
          cases a with
          | none => rw [SArgs.replace] at h; cases h
          | paren ts => rw [SArgs.replace] at h; cases h
          | angle c as =>
            rw [SArgs.replace] at h
            cases as with
            | nil => rw [SArg.replaceAll] at h; cases h
            | cons x xs =>
              cases xs with
              | nil =>
                cases x with
                | type w =>
                  rw [SArg.replaceAll, SArg.replaceAll] at h
                  cases h
                  exact ⟨w, ⟨_, rfl⟩, rfl⟩
                | _ => rw [SArg.replaceAll] at h; cases h
              | cons y ys => cases x <;> cases y <;> (rw [SArg.replaceAll, SArg.replaceAll] at h; cases h)
  | qpath q p => obtain ⟨lead, segs⟩ := p; rw [STy.replace] at h; cases h
  | _ => rw [STy.replace] at h; cases h

theorem fronts_segs {me : SPath} {segs : List SSeg} (h : ∀ s ∈ segs, s.args = .none ∨ ∃ as, s.args = .angle true as) :
    ∀ s ∈ SSeg.replaceAll me segs, s.args = .none ∨ ∃ as, s.args = .angle true as := by
  induction segs with
  | nil => intro s hs; rw [SSeg.replaceAll] at hs; cases hs
  | cons x xs ih =>
    obtain ⟨id, a⟩ := x
    rw [SSeg.replaceAll]
    intro s hs
    rcases List.mem_cons.mp hs with rfl | hs
    · rcases h _ (List.mem_cons_self ..) with h | ⟨as, h⟩
      · exact .inl (by rw [show a = .none from h]; rw [SArgs.replace]; rfl)
      · exact .inr ⟨_, by rw [show a = .angle true as from h]; rw [SArgs.replace]; rfl⟩
    · exact ih (fun s hs => h s (List.mem_cons_of_mem _ hs)) s hs

theorem fronts_asType {me : Str} {lead : Bool} {segs : List SSeg} (h : ∀ s ∈ segs, s.args = .none ∨ ∃ as, s.args = .angle true as) :
    Fronts (SPath.asType (.mk false [.mk me .none]) (.mk lead segs)) := by
  have self : Fronts (.path (.mk false [.mk me .none])) := fun s hs => .inl (by rw [List.mem_singleton.mp hs]; rfl)
  unfold SPath.asType
  split
  · exact self
  · cases lead with
    | true => exact h
    | false =>
      cases segs with
      | nil => exact h
      | cons s rest =>
        unfold SPath.toQself
        dsimp only
        by_cases hs : s.ident = selfIdent
        · rw [if_pos hs]
          cases rest with
          | nil => exact self
          | cons r rest => exact fun x hx => h x (List.mem_cons_of_mem _ hx)
        · rw [if_neg hs]
          exact h

theorem fronts_replace {me : Str} {t : STy} (h : Fronts t) : Fronts (t.replace (.mk false [.mk me .none])) := by
  cases t with
  | path p =>
    obtain ⟨lead, segs⟩ := p
    rw [STy.replace]
    exact fronts_asType (fronts_segs h)
  | qpath q p =>
    obtain ⟨lead, segs⟩ := p
    rw [STy.replace]
    exact fronts_segs h
  | _ => exact absurd h id

namespace Props

/-- **C100** for ordinary structs: without parameters and `deny_unknown_fields`, with types that have no `Self` inside constant arguments or
macros, flattened fields of plain types, functions given with their module, and nested fields whose names do not get in each other's way,
whatever the macro generates has every name in its place. -/
theorem C100_ordinary_partial (part : Char → Bool) (name : Str) (g : Generics) (c : ContainerAttrs) (fields : List SField) (code : RowCode)
    (h : expandRow part name g c fields = .ok code) (hn : name ≠ ch! "Self") (hg : g.params = []) (hd : c.denyUnknown = false)
    (hp : ∀ f ∈ fields, PassedFree f.ty) (hf : ∀ f ∈ fields, f.attrs.flatten = true → Fronts f.ty)
    (hs : ∀ f ∈ fields, ∀ x, f.attrs.serWith ≠ some [x] ∧ f.attrs.deWith ≠ some [x] ∧ f.attrs.default ≠ .path [x])
    (hc : ∀ x, c.default ≠ .path [x])
    (ha : ∀ f ∈ fields, ∀ k ∈ fields, f.attrs.nested = true → k.attrs.nested = true → VarsApart f.attrs.name k.attrs.name) :
    Meant g errorVariants code := by
  unfold expandRow at h
  dsimp only at h
  split at h <;> try cases h
  have hme : g.receiver name = .mk false [.mk name .none] := by
    unfold Generics.receiver
    rw [hg]
    rfl
  have get : ∀ f ∈ (replaceReceiver name g fields).2, ∃ k ∈ fields, f = { k with ty := k.ty.replace (.mk false [.mk name .none]) } := by
    intro f hf
    unfold replaceReceiver at hf
    obtain ⟨k, hk, rfl⟩ := List.mem_map.mp hf
    exact ⟨k, hk, by rw [hme]⟩
  rw [C100_exact_partial]
  refine ⟨fun _ => ⟨?_, ?_, ?_⟩, fun _ _ => ⟨?_, ?_, ?_, ?_, ?_, ?_⟩⟩
  · intro _ f hf' _ _ t ht
    obtain ⟨k, hk, rfl⟩ := get f hf'
    obtain ⟨w, hw, rfl⟩ := isVec_replace ht
    have free := (C79_no_self_partial name g hn (by unfold paramNames; rw [hg]; intro h; cases h) w).2 (by
      intro hm
      apply hp k hk
      obtain ⟨b, hw⟩ := hw
      rw [hw]
      simp only [tyHeads, pathHeads, segsHeads, argsHeads, angleHeads, List.append_nil, Bool.false_and, if_neg Bool.false_ne_true, List.nil_append]
      exact hm)
    rw [hme] at free
    intro x hx
    refine ⟨(by unfold paramNames; rw [hg]; intro h; cases h), ?_⟩
    rintro rfl
    exact hx.elim free.1 free.2
  · rintro f hf' ⟨-, h2, -⟩
    obtain ⟨k, hk, rfl⟩ := get f hf'
    exact fronts_replace (hf k hk h2)
  · intro before f after e _ x hx
    obtain ⟨k, hk, rfl⟩ := get f (by rw [e]; exact List.mem_append_right _ (List.mem_cons_self ..))
    exact absurd hx (hs k hk x).1
  · intro f hf' h2
    obtain ⟨k, hk, rfl⟩ := get f hf'
    exact fronts_replace (hf k hk h2)
  · intro h
    rw [hd] at h
    cases h
  · intro f hf' _ _ x hx
    obtain ⟨k, hk, rfl⟩ := get f hf'
    exact absurd hx (hs k hk x).2.1
  · intro x hx
    exact absurd hx (hc x)
  · intro f hf' _ x hx
    obtain ⟨k, hk, rfl⟩ := get f hf'
    exact absurd hx (hs k hk x).2.2
  · intro f hf' k hk' _ _ n1 n2
    obtain ⟨f, hf, rfl⟩ := get f hf'
    obtain ⟨k, hk, rfl⟩ := get k hk'
    exact ha f hf k hk n1 n2

/-- An ordinary struct: `struct Order { id: u64, #[klickhouse(nested)] items: Vec<Item>, #[klickhouse(nested)] tags: Vec<Tag>,
#[klickhouse(flatten)] address: geo::Address }`. -/
def orderFields : List SField :=
  [⟨.ident (ch! "u64"), plainAttrs (ch! "id")⟩, ⟨app (ch! "Vec") (.ident (ch! "Item")), nestedAttrs (ch! "items")⟩,
    ⟨app (ch! "Vec") (.ident (ch! "Tag")), nestedAttrs (ch! "tags")⟩,
    ⟨.path (.mk false [.mk (ch! "geo") .none, .mk (ch! "Address") .none]), { plainAttrs (ch! "address") with flatten := true }⟩]

/-- It is accepted, and fulfils the conditions of `C100_ordinary_partial`. -/
example : (∃ code, expandRow (fun _ => true) (ch! "Order") ⟨[], []⟩ bareStruct orderFields = .ok code) ∧
    (∀ f ∈ orderFields, PassedFree f.ty) ∧ (∀ f ∈ orderFields, f.attrs.flatten = true → Fronts f.ty) ∧
    (∀ f ∈ orderFields, ∀ k ∈ orderFields, f.attrs.nested = true → k.attrs.nested = true → VarsApart f.attrs.name k.attrs.name) := by
  refine ⟨⟨_, rfl⟩, ?_, ?_, ?_⟩
  · unfold PassedFree orderFields
    decide
  · intro f hf h
    simp only [orderFields, List.mem_cons, List.not_mem_nil, or_false] at hf
    rcases hf with rfl | rfl | rfl | rfl
    · cases h
    · cases h
    · cases h
    · intro s hs
      rcases List.mem_cons.mp hs with rfl | hs
      · exact .inl rfl
      · rw [List.mem_singleton.mp hs]; exact .inl rfl
  · unfold VarsApart orderFields
    decide

end Props
end Klick
