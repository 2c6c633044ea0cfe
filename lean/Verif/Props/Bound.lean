import Verif.Spec.Bound
/-
C78: the where clause of a derived implementation. C79: `Self` in the types of fields.
-/
namespace Klick
open Spec

/-! ### Within, from the outside -/

theorem Spec.Within.top {t w : STy} : Within t w ↔ t = w ∨ ∃ v, Part v w ∧ Within t v := by
  constructor
  · intro h
    induction h with
    | refl => exact .inl rfl
    | step hp _ ih =>
      rcases ih with rfl | ⟨v, hv, hw⟩
      · exact .inr ⟨_, hp, .refl⟩
      · exact .inr ⟨v, hv, .step hp hw⟩
  · rintro (rfl | ⟨v, hv, hw⟩)
    · exact .refl
    · induction hw with
      | refl => exact .step hv .refl
      | step hp _ ih => exact .step hp (ih hv)

theorem Spec.Mentions.top {x : Str} {t : STy} :
    Mentions x t ↔ (x ≠ ch! "PhantomData" ∧ ∃ a, t = .path (.mk false [.mk x a])) ∨ ∃ v, Part v t ∧ Mentions x v := by
  constructor
  · rintro ⟨a, hx, h⟩
    rcases Within.top.mp h with h | ⟨v, hv, hw⟩
    · exact .inl ⟨hx, a, h.symm⟩
    · exact .inr ⟨v, hv, a, hx, hw⟩
  · rintro (⟨hx, a, rfl⟩ | ⟨v, hv, a, hx, hw⟩)
    · exact ⟨a, hx, .refl⟩
    · exact ⟨a, hx, Within.top.mpr (.inr ⟨v, hv, hw⟩)⟩

theorem phantom_iff {p : SPath} : p.isPhantom = true ↔ Phantom p := by
  obtain ⟨l, segs⟩ := p
  unfold SPath.isPhantom SPath.segs
  constructor
  · intro h
    cases hl : segs.getLast? with
    | none => rw [hl] at h; cases h
    | some s =>
      rw [hl] at h
      obtain ⟨i, a⟩ := s
      have hi : i = ch! "PhantomData" := of_decide_eq_true h
      obtain ⟨pre, hpre⟩ := List.getLast?_eq_some_iff.mp hl
      exact ⟨l, pre, a, by rw [hpre, hi]⟩
  · rintro ⟨l', pre, a, h⟩
    cases h
    simp [SSeg.ident]

theorem alone_iff {p : SPath} {x : Str} : p.alone = some x ↔ ∃ a, p = .mk false [.mk x a] := by
  obtain ⟨l, segs⟩ := p
  constructor
  · intro h
    unfold SPath.alone at h
    split at h
    · rename_i s heq
      cases heq
      obtain ⟨i, a⟩ := s
      cases h
      exact ⟨a, rfl⟩
    · cases h
  · rintro ⟨a, h⟩
    cases h
    rfl

mutual
theorem STy.found_iff (all : List Str) (x : Str) : ∀ t : STy, x ∈ STy.found all t ↔ x ∈ all ∧ Mentions x t
  | .group t => by
    rw [STy.found, STy.found_iff all x t, Mentions.top (t := .group t)]
    constructor
    · exact fun ⟨h, m⟩ => ⟨h, .inr ⟨t, .group, m⟩⟩
    · rintro ⟨h, ⟨_, _, h'⟩ | ⟨v, hv, m⟩⟩
      · cases h'
      · cases hv; exact ⟨h, m⟩
  | .paren t => by
    rw [STy.found, STy.found_iff all x t, Mentions.top (t := .paren t)]
    constructor
    · exact fun ⟨h, m⟩ => ⟨h, .inr ⟨t, .paren, m⟩⟩
    · rintro ⟨h, ⟨_, _, h'⟩ | ⟨v, hv, m⟩⟩
      · cases h'
      · cases hv; exact ⟨h, m⟩
  | .elem k t => by
    rw [STy.found, STy.found_iff all x t, Mentions.top (t := .elem k t)]
    constructor
    · exact fun ⟨h, m⟩ => ⟨h, .inr ⟨t, .elem, m⟩⟩
    · rintro ⟨h, ⟨_, _, h'⟩ | ⟨v, hv, m⟩⟩
      · cases h'
      · cases hv; exact ⟨h, m⟩
  | .array t e => by
    rw [STy.found, STy.found_iff all x t, Mentions.top (t := .array t e)]
    constructor
    · exact fun ⟨h, m⟩ => ⟨h, .inr ⟨t, .array, m⟩⟩
    · rintro ⟨h, ⟨_, _, h'⟩ | ⟨v, hv, m⟩⟩
      · cases h'
      · cases hv; exact ⟨h, m⟩
  | .func ts => by
    rw [STy.found, STy.foundAll_iff all x ts, Mentions.top (t := .func ts)]
    constructor
    · exact fun ⟨h, t, ht, m⟩ => ⟨h, .inr ⟨t, .func ht, m⟩⟩
    · rintro ⟨h, ⟨_, _, h'⟩ | ⟨v, hv, m⟩⟩
      · cases h'
      · cases hv; exact ⟨h, _, ‹_›, m⟩
  | .tuple ts => by
    rw [STy.found, STy.foundAll_iff all x ts, Mentions.top (t := .tuple ts)]
    constructor
    · exact fun ⟨h, t, ht, m⟩ => ⟨h, .inr ⟨t, .tuple ht, m⟩⟩
    · rintro ⟨h, ⟨_, _, h'⟩ | ⟨v, hv, m⟩⟩
      · cases h'
      · cases hv; exact ⟨h, _, ‹_›, m⟩
  | .traits k ps => by
    rw [STy.found, STy.foundBounds_iff all x ps, Mentions.top (t := .traits k ps)]
    constructor
    · exact fun ⟨h, p, hp, m⟩ => ⟨h, .inr ⟨_, .bound hp, m⟩⟩
    · rintro ⟨h, ⟨_, _, h'⟩ | ⟨v, hv, m⟩⟩
      · cases h'
      · cases hv; exact ⟨h, _, ‹_›, m⟩
  | .path p => by rw [STy.found, SPath.found_iff all x p]
  | .qpath q p => by
    rw [STy.found, List.mem_append, STy.found_iff all x q, SPath.found_iff all x p, Mentions.top (t := .qpath q p)]
    constructor
    · rintro (⟨h, m⟩ | ⟨h, m⟩)
      · exact ⟨h, .inr ⟨_, .qself, m⟩⟩
      · exact ⟨h, .inr ⟨_, .qualified, m⟩⟩
    · rintro ⟨h, ⟨_, _, h'⟩ | ⟨v, hv, m⟩⟩
      · cases h'
      · cases hv
        · exact .inl ⟨h, m⟩
        · exact .inr ⟨h, m⟩
  | .other k => by
    rw [STy.found, Mentions.top (t := .other k)]
    constructor
    · intro h; cases h
    · rintro ⟨h, ⟨_, _, h'⟩ | ⟨v, hv, m⟩⟩
      · cases h'
      · cases hv
theorem STy.foundAll_iff (all : List Str) (x : Str) : ∀ ts : List STy, x ∈ STy.foundAll all ts ↔ x ∈ all ∧ ∃ t ∈ ts, Mentions x t
  | [] => by simp [STy.foundAll]
  | t :: ts => by
    rw [STy.foundAll, List.mem_append, STy.found_iff all x t, STy.foundAll_iff all x ts]
    simp only [List.mem_cons, exists_eq_or_imp, and_or_left]
theorem STy.foundBounds_iff (all : List Str) (x : Str) :
    ∀ ps : List SPath, x ∈ STy.foundBounds all ps ↔ x ∈ all ∧ ∃ p ∈ ps, Mentions x (.path p)
  | [] => by simp [STy.foundBounds]
  | p :: ps => by
    rw [STy.foundBounds, List.mem_append, SPath.found_iff all x p, STy.foundBounds_iff all x ps]
    simp only [List.mem_cons, exists_eq_or_imp, and_or_left]
theorem SPath.found_iff (all : List Str) (x : Str) : ∀ p : SPath, x ∈ SPath.found all p ↔ x ∈ all ∧ Mentions x (.path p)
  | .mk lead segs => by
    have ih := SSeg.foundAll_iff all x segs
    rw [SPath.found, Mentions.top (t := .path (.mk lead segs))]
    by_cases hph : (SPath.mk lead segs).isPhantom = true
    · rw [if_pos hph]
      constructor
      · intro h; cases h
      · rintro ⟨_, ⟨hx, a, h'⟩ | ⟨v, hv, _⟩⟩
        · injection h' with h'
          rw [h'] at hph
          exact absurd (of_decide_eq_true (p := x = ch! "PhantomData") hph) hx
        · cases hv with
          | arg h _ => exact absurd (phantom_iff.mp hph) h
    · rw [if_neg hph, List.mem_append, ih]
      constructor
      · rintro (h | ⟨h, s, hs, t, ht, m⟩)
        · cases ha : (SPath.mk lead segs).alone with
          | none => rw [ha] at h; cases h
          | some id =>
            rw [ha] at h
            by_cases hid : id ∈ all
            · have hx : x = id := by simpa [hid] using h
              obtain ⟨a, e⟩ := alone_iff.mp ha
              refine ⟨hx ▸ hid, .inl ⟨fun hp => hph (phantom_iff.mpr ?_), a, by rw [e, hx]⟩⟩
              exact ⟨false, [], a, by rw [e, ← hx, hp]; rfl⟩
            · simp [hid] at h
        · exact ⟨h, .inr ⟨t, .arg (fun hp => hph (phantom_iff.mpr hp)) ⟨s, hs, ht⟩, m⟩⟩
      · rintro ⟨h, ⟨hx, a, h'⟩ | ⟨v, hv, m⟩⟩
        · injection h' with h'
          left
          rw [alone_iff.mpr ⟨a, h'⟩]
          simp [h]
        · cases hv with
          | arg _ hs =>
            obtain ⟨s, hs, ht⟩ := hs
            exact .inr ⟨h, s, hs, v, ht, m⟩
theorem SSeg.foundAll_iff (all : List Str) (x : Str) :
    ∀ segs : List SSeg, x ∈ SSeg.foundAll all segs ↔ x ∈ all ∧ ∃ s ∈ segs, ∃ t, ArgOf t s.args ∧ Mentions x t
  | [] => by simp [SSeg.foundAll]
  | .mk i a :: segs => by
    rw [SSeg.foundAll, List.mem_append, SArgs.found_iff all x a, SSeg.foundAll_iff all x segs]
    simp only [List.mem_cons, exists_eq_or_imp, and_or_left, SSeg.args]
theorem SArgs.found_iff (all : List Str) (x : Str) :
    ∀ a : SArgs, x ∈ SArgs.found all a ↔ x ∈ all ∧ ∃ t, ArgOf t a ∧ Mentions x t
  | .none => by simp [SArgs.found, ArgOf]
  | .angle _ as => by rw [SArgs.found, SArg.foundAll_iff all x as]; rfl
  | .paren ts => by rw [SArgs.found, STy.foundAll_iff all x ts]; rfl
theorem SArg.foundAll_iff (all : List Str) (x : Str) :
    ∀ as : List SArg, x ∈ SArg.foundAll all as ↔ x ∈ all ∧ ∃ t, (.type t ∈ as ∨ ∃ n, .assoc n t ∈ as) ∧ Mentions x t
  | [] => by simp [SArg.foundAll]
  | .type u :: as => by
    rw [SArg.foundAll, List.mem_append, STy.found_iff all x u, SArg.foundAll_iff all x as]
    constructor
    · rintro (⟨h, m⟩ | ⟨h, t, ht, m⟩)
      · exact ⟨h, u, .inl (List.mem_cons_self ..), m⟩
      · refine ⟨h, t, ?_, m⟩
        rcases ht with ht | ⟨n, ht⟩
        · exact .inl (List.mem_cons_of_mem _ ht)
        · exact .inr ⟨n, List.mem_cons_of_mem _ ht⟩
    · rintro ⟨h, t, ht | ⟨n, ht⟩, m⟩
      · cases ht with
        | head => exact .inl ⟨h, m⟩
        | tail _ ht => exact .inr ⟨h, t, .inl ht, m⟩
      · cases ht with
        | tail _ ht => exact .inr ⟨h, t, .inr ⟨n, ht⟩, m⟩
  | .assoc n' u :: as => by
    rw [SArg.foundAll, List.mem_append, STy.found_iff all x u, SArg.foundAll_iff all x as]
    constructor
    · rintro (⟨h, m⟩ | ⟨h, t, ht, m⟩)
      · exact ⟨h, u, .inr ⟨n', List.mem_cons_self ..⟩, m⟩
      · refine ⟨h, t, ?_, m⟩
        rcases ht with ht | ⟨n, ht⟩
        · exact .inl (List.mem_cons_of_mem _ ht)
        · exact .inr ⟨n, List.mem_cons_of_mem _ ht⟩
    · rintro ⟨h, t, ht | ⟨n, ht⟩, m⟩
      · cases ht with
        | tail _ ht => exact .inr ⟨h, t, .inl ht, m⟩
      · cases ht with
        | head => exact .inl ⟨h, m⟩
        | tail _ ht => exact .inr ⟨h, t, .inr ⟨n, ht⟩, m⟩
  | .const _ :: as => by
    rw [SArg.foundAll, SArg.foundAll_iff all x as]
    constructor
    · rintro ⟨h, t, ht | ⟨n, ht⟩, m⟩
      · exact ⟨h, t, .inl (List.mem_cons_of_mem _ ht), m⟩
      · exact ⟨h, t, .inr ⟨n, List.mem_cons_of_mem _ ht⟩, m⟩
    · rintro ⟨h, t, ht | ⟨n, ht⟩, m⟩
      · cases ht with
        | tail _ ht => exact ⟨h, t, .inl ht, m⟩
      · cases ht with
        | tail _ ht => exact ⟨h, t, .inr ⟨n, ht⟩, m⟩
  | .assocConst _ _ :: as => by
    rw [SArg.foundAll, SArg.foundAll_iff all x as]
    constructor
    · rintro ⟨h, t, ht | ⟨n, ht⟩, m⟩
      · exact ⟨h, t, .inl (List.mem_cons_of_mem _ ht), m⟩
      · exact ⟨h, t, .inr ⟨n, List.mem_cons_of_mem _ ht⟩, m⟩
    · rintro ⟨h, t, ht | ⟨n, ht⟩, m⟩
      · cases ht with
        | tail _ ht => exact ⟨h, t, .inl ht, m⟩
      · cases ht with
        | tail _ ht => exact ⟨h, t, .inr ⟨n, ht⟩, m⟩
  | .constraint _ _ :: as => by
    rw [SArg.foundAll, SArg.foundAll_iff all x as]
    constructor
    · rintro ⟨h, t, ht | ⟨n, ht⟩, m⟩
      · exact ⟨h, t, .inl (List.mem_cons_of_mem _ ht), m⟩
      · exact ⟨h, t, .inr ⟨n, List.mem_cons_of_mem _ ht⟩, m⟩
    · rintro ⟨h, t, ht | ⟨n, ht⟩, m⟩
      · cases ht with
        | tail _ ht => exact ⟨h, t, .inl ht, m⟩
      · cases ht with
        | tail _ ht => exact ⟨h, t, .inr ⟨n, ht⟩, m⟩
  | .lifetime _ :: as => by
    rw [SArg.foundAll, SArg.foundAll_iff all x as]
    constructor
    · rintro ⟨h, t, ht | ⟨n, ht⟩, m⟩
      · exact ⟨h, t, .inl (List.mem_cons_of_mem _ ht), m⟩
      · exact ⟨h, t, .inr ⟨n, List.mem_cons_of_mem _ ht⟩, m⟩
    · rintro ⟨h, t, ht | ⟨n, ht⟩, m⟩
      · cases ht with
        | tail _ ht => exact ⟨h, t, .inl ht, m⟩
      · cases ht with
        | tail _ ht => exact ⟨h, t, .inr ⟨n, ht⟩, m⟩
end

/-! ### C78 -/

theorem assocUse_iff (all : List Str) (t u : STy) : u ∈ t.assocUse all ↔ Projection all t.ungroup ∧ u = t.ungroup := by
  have key : ∀ (p : SPath) (w : STy),
      u ∈ (match p.segs with | s :: _ :: _ => if s.ident ∈ all then [w] else [] | _ => []) ↔
        (∃ l x a s rest, x ∈ all ∧ p = .mk l (.mk x a :: s :: rest)) ∧ u = w := by
    rintro ⟨l, segs⟩ w
    match segs with
    | [] =>
      constructor
      · intro h; cases h
      · rintro ⟨⟨_, _, _, _, _, _, h⟩, _⟩; cases h
    | [_] =>
      constructor
      · intro h; cases h
      · rintro ⟨⟨_, _, _, _, _, _, h⟩, _⟩; cases h
    | .mk x a :: s :: rest =>
      show u ∈ (if x ∈ all then [w] else []) ↔ _
      by_cases hx : x ∈ all
      · rw [if_pos hx, List.mem_singleton]
        exact ⟨fun h => ⟨⟨l, x, a, s, rest, hx, rfl⟩, h⟩, fun h => h.2⟩
      · rw [if_neg hx]
        constructor
        · intro h; cases h
        · rintro ⟨⟨_, _, _, _, _, hx', h⟩, _⟩
          cases h
          exact absurd hx' hx
  unfold STy.assocUse
  generalize t.ungroup = w
  cases w with
  | path p =>
    refine (key p (.path p)).trans (and_congr_left' ?_)
    constructor
    · rintro ⟨l, x, a, s, rest, hx, rfl⟩
      exact ⟨l, x, a, s, rest, hx, .inl rfl⟩
    · rintro ⟨l, x, a, s, rest, hx, h | ⟨q, h⟩⟩
      · cases h; exact ⟨l, x, a, s, rest, hx, rfl⟩
      · cases h
  | qpath q p =>
    refine (key p (.qpath q p)).trans (and_congr_left' ?_)
    constructor
    · rintro ⟨l, x, a, s, rest, hx, rfl⟩
      exact ⟨l, x, a, s, rest, hx, .inr ⟨q, rfl⟩⟩
    · rintro ⟨l, x, a, s, rest, hx, h | ⟨q, h⟩⟩
      · cases h
      · cases h; exact ⟨l, x, a, s, rest, hx, rfl⟩
  | _ =>
    constructor
    · intro h; cases h
    · rintro ⟨⟨_, _, _, _, _, _, h | ⟨_, h⟩⟩, _⟩ <;> cases h

theorem bare_iff : ∀ t u : STy, Bare t u ↔ u = t.ungroup
  | .group t, u => by
    show _ ↔ u = t.ungroup
    rw [← bare_iff t u]
    exact ⟨fun h => by cases h with | group h => exact h | same h => exact absurd rfl (h t), .group⟩
  | .path _, u => ⟨fun h => by cases h; rfl, fun h => by cases h; exact .same (fun w h => by cases h)⟩
  | .paren _, u => ⟨fun h => by cases h; rfl, fun h => by cases h; exact .same (fun w h => by cases h)⟩
  | .elem _ _, u => ⟨fun h => by cases h; rfl, fun h => by cases h; exact .same (fun w h => by cases h)⟩
  | .array _ _, u => ⟨fun h => by cases h; rfl, fun h => by cases h; exact .same (fun w h => by cases h)⟩
  | .func _, u => ⟨fun h => by cases h; rfl, fun h => by cases h; exact .same (fun w h => by cases h)⟩
  | .traits _ _, u => ⟨fun h => by cases h; rfl, fun h => by cases h; exact .same (fun w h => by cases h)⟩
  | .qpath _ _, u => ⟨fun h => by cases h; rfl, fun h => by cases h; exact .same (fun w h => by cases h)⟩
  | .tuple _, u => ⟨fun h => by cases h; rfl, fun h => by cases h; exact .same (fun w h => by cases h)⟩
  | .other _, u => ⟨fun h => by cases h; rfl, fun h => by cases h; exact .same (fun w h => by cases h)⟩

theorem assocUse_bare (all : List Str) (t u : STy) : u ∈ t.assocUse all ↔ Bare t u ∧ Projection all u := by
  rw [assocUse_iff, bare_iff]
  exact ⟨fun ⟨a, b⟩ => ⟨b, b ▸ a⟩, fun ⟨a, b⟩ => ⟨a ▸ b, a⟩⟩

theorem needsBound_iff (a : FieldAttrs) : a.needsBound = true ↔ a.skipSer = false ∧ a.serWith = none ∧ a.bound = none := by
  unfold FieldAttrs.needsBound
  cases a.skipSer <;> cases a.serWith <;> cases a.bound <;> simp

theorem typeParams_withoutDefaults (g : Generics) : g.withoutDefaults.typeParams = g.typeParams := by
  unfold Generics.typeParams Generics.withoutDefaults
  simp only [List.filterMap_map]
  congr 1
  funext p
  cases p <;> rfl

namespace Props

/-- **C78** (what is asked of the type parameters). Without a `bound` on the struct, `t: FromSql + ToSql` is added to the where clause
exactly for the type parameters that some field mentions (outside `PhantomData`) and for fields that are `T::A` of a type parameter;
fields that are skipped when serializing, that have a `serialize_with` or a `bound` of their own do not count. -/
theorem C78_exact (g : Generics) (c : ContainerAttrs) (fields : List SField) (hc : c.bound = none) (t : STy) :
    .conv t ∈ (buildGenerics g c fields).preds ↔
      .conv t ∈ g.preds ∨ ∃ f ∈ fields, (f.attrs.skipSer = false ∧ f.attrs.serWith = none ∧ f.attrs.bound = none) ∧
        ((∃ x ∈ g.typeParams, Mentions x f.ty ∧ t = .path (.mk false [.mk x .none])) ∨
          (Bare f.ty t ∧ Projection g.typeParams t)) := by
  have e : (buildGenerics g c fields).preds =
      (g.preds ++ ((fields.filterMap fun f : SField => f.attrs.bound).flatten).map Pred.user) ++
        ((g.typeParams.filter (· ∈ (fields.filter fun f => f.attrs.needsBound).flatMap fun f => f.ty.found g.typeParams)).map STy.ident ++
          ((fields.filter fun f => f.attrs.needsBound).flatMap fun f => f.ty.assocUse g.typeParams)).map .conv := by
    unfold buildGenerics
    rw [hc]
    show (Generics.withBound _ fields).preds = _
    unfold Generics.withBound
    have ht : Generics.typeParams { g.withoutDefaults with
        preds := g.withoutDefaults.preds ++ ((fields.filterMap fun f : SField => f.attrs.bound).flatten).map Pred.user } =
        g.typeParams := typeParams_withoutDefaults g
    rw [ht]
    rfl
  rw [e, List.mem_append, List.mem_append]
  constructor
  · rintro ((h | h) | h)
    · exact .inl h
    · obtain ⟨_, _, h⟩ := List.mem_map.mp h
      cases h
    · obtain ⟨t', ht', h⟩ := List.mem_map.mp h
      cases h
      rcases List.mem_append.mp ht' with ht' | ht'
      · obtain ⟨x, hx, rfl⟩ := List.mem_map.mp ht'
        obtain ⟨hx, hf⟩ := List.mem_filter.mp hx
        obtain ⟨f, hf, hxf⟩ := List.mem_flatMap.mp (of_decide_eq_true hf)
        obtain ⟨hf, hn⟩ := List.mem_filter.mp hf
        exact .inr ⟨f, hf, (needsBound_iff _).mp hn, .inl ⟨x, hx, ((STy.found_iff _ x f.ty).mp hxf).2, rfl⟩⟩
      · obtain ⟨f, hf, hxf⟩ := List.mem_flatMap.mp ht'
        obtain ⟨hf, hn⟩ := List.mem_filter.mp hf
        exact .inr ⟨f, hf, (needsBound_iff _).mp hn, .inr ((assocUse_bare _ _ _).mp hxf)⟩
  · rintro (h | ⟨f, hf, hn, ⟨x, hx, hm, rfl⟩ | h⟩)
    · exact .inl (.inl h)
    · refine .inr (List.mem_map.mpr ⟨_, List.mem_append.mpr (.inl (List.mem_map.mpr ⟨x, ?_, rfl⟩)), rfl⟩)
      refine List.mem_filter.mpr ⟨hx, decide_eq_true ?_⟩
      exact List.mem_flatMap.mpr ⟨f, List.mem_filter.mpr ⟨hf, (needsBound_iff _).mpr hn⟩, (STy.found_iff _ x f.ty).mpr ⟨hx, hm⟩⟩
    · refine .inr (List.mem_map.mpr ⟨_, List.mem_append.mpr (.inr ?_), rfl⟩)
      exact List.mem_flatMap.mpr ⟨f, List.mem_filter.mpr ⟨hf, (needsBound_iff _).mpr hn⟩, (assocUse_bare _ _ _).mpr h⟩

/-- **C78** (what the user wrote is kept). Every predicate of the struct's own where clause, of the `bound` of a field and of the
`bound` of the struct is there, and no other predicate of the user's; with a `bound` on the struct nothing is added to them; the
parameters are the same, with their bounds and without their defaults. -/
theorem C78_users (g : Generics) (c : ContainerAttrs) (fields : List SField) :
    (∀ p, (∀ t, p ≠ .conv t) → (p ∈ (buildGenerics g c fields).preds ↔
      p ∈ g.preds ∨ ∃ s, p = .user s ∧ ((∃ f ∈ fields, ∃ ps, f.attrs.bound = some ps ∧ s ∈ ps) ∨ ∃ ps, c.bound = some ps ∧ s ∈ ps))) ∧
    (c.bound ≠ none → ∀ t, .conv t ∈ (buildGenerics g c fields).preds ↔ .conv t ∈ g.preds) ∧
    (buildGenerics g c fields).params =
      g.params.map (fun | .type id bs _ => .type id bs none | .lifetime id => .lifetime id | .const id => .const id) := by
  have hb : ∀ p, p ∈ ((fields.filterMap fun f : SField => f.attrs.bound).flatten).map Pred.user ↔
      ∃ s, p = .user s ∧ ∃ f ∈ fields, ∃ ps, f.attrs.bound = some ps ∧ s ∈ ps := by
    intro p
    constructor
    · intro h
      obtain ⟨s', hs, h⟩ := List.mem_map.mp h
      obtain ⟨ps, hps, hs⟩ := List.mem_flatten.mp hs
      obtain ⟨f, hf, e⟩ := List.mem_filterMap.mp hps
      exact ⟨s', h.symm, f, hf, ps, e, hs⟩
    · rintro ⟨s, rfl, f, hf, ps, e, hs⟩
      exact List.mem_map.mpr ⟨s, List.mem_flatten.mpr ⟨ps, List.mem_filterMap.mpr ⟨f, hf, e⟩, hs⟩, rfl⟩
  refine ⟨?_, ?_, ?_⟩
  · intro p hp
    cases hc : c.bound with
    | none =>
      have e : ∃ l : List STy, (buildGenerics g c fields).preds =
          (g.preds ++ ((fields.filterMap fun f : SField => f.attrs.bound).flatten).map Pred.user) ++ l.map Pred.conv := by
        unfold buildGenerics
        rw [hc]
        exact ⟨_, rfl⟩
      obtain ⟨l, e⟩ := e
      rw [e, List.mem_append, List.mem_append, hb]
      constructor
      · rintro ((h | ⟨s, e, h⟩) | h)
        · exact .inl h
        · exact .inr ⟨s, e, .inl h⟩
        · obtain ⟨t, _, h⟩ := List.mem_map.mp h
          exact absurd h.symm (hp t)
      · rintro (h | ⟨s, e, h | ⟨_, h, _⟩⟩)
        · exact .inl (.inl h)
        · exact .inl (.inr ⟨s, e, h⟩)
        · cases h
    | some ps =>
      have e : (buildGenerics g c fields).preds =
          (g.preds ++ ((fields.filterMap fun f : SField => f.attrs.bound).flatten).map Pred.user) ++ ps.map Pred.user := by
        unfold buildGenerics
        rw [hc]
        rfl
      rw [e, List.mem_append, List.mem_append, hb]
      constructor
      · rintro ((h | ⟨s, e, h⟩) | h)
        · exact .inl h
        · exact .inr ⟨s, e, .inl h⟩
        · obtain ⟨s, hs, h⟩ := List.mem_map.mp h
          exact .inr ⟨s, h.symm, .inr ⟨ps, rfl, hs⟩⟩
      · rintro (h | ⟨s, e, h | ⟨_, h, hs⟩⟩)
        · exact .inl (.inl h)
        · exact .inl (.inr ⟨s, e, h⟩)
        · cases h
          exact .inr (List.mem_map.mpr ⟨s, hs, e.symm⟩)
  · intro hc t
    cases hc' : c.bound with
    | none => exact absurd hc' hc
    | some ps =>
      have e : (buildGenerics g c fields).preds =
          (g.preds ++ ((fields.filterMap fun f : SField => f.attrs.bound).flatten).map Pred.user) ++ ps.map Pred.user := by
        unfold buildGenerics
        rw [hc']
        rfl
      rw [e, List.mem_append, List.mem_append]
      constructor
      · rintro ((h | h) | h)
        · exact h
        · obtain ⟨_, _, h⟩ := List.mem_map.mp h
          cases h
        · obtain ⟨_, _, h⟩ := List.mem_map.mp h
          cases h
      · exact fun h => .inl (.inl h)
  · have e : (fun p : GParam => match p with | .type id bs _ => GParam.type id bs none | p => p) =
        (fun | .type id bs _ => .type id bs none | .lifetime id => .lifetime id | .const id => .const id) := by
      funext p
      cases p <;> rfl
    unfold buildGenerics
    cases c.bound <;> exact congrArg (List.map · g.params) e

/-- Mentions inside a container type. -/
theorem mentions_app {x name : Str} {t : STy} (hn : name ≠ ch! "PhantomData") (h : Mentions x t) : Mentions x (app name t) := by
  refine Mentions.top.mpr (.inr ⟨t, .arg ?_ ⟨_, List.mem_singleton.mpr rfl, .inl (List.mem_singleton.mpr rfl)⟩, h⟩)
  intro hp
  exact hn (of_decide_eq_true (p := name = ch! "PhantomData") (phantom_iff.mpr hp))

/-- **C78** (the where clause suffices), part of the claim: whatever implementations there are, if they include the ones for vectors,
options, boxes, arrays and tuples and the where clause holds, then the type of every field that is serialized as it is and is built
from type parameters and convertible types by those containers has both conversions. Missing: fields that are read but not written,
see `C78_reading_false`. -/
theorem C78_sufficient_partial (g : Generics) (c : ContainerAttrs) (fields : List SField) (has : Conv → STy → Prop) (base : STy → Prop)
    (hstd : StdImpls has) (hbase : ∀ k t, base t → has k t) (hc : c.bound = none) (hw : WhereHolds has (buildGenerics g c fields))
    (f : SField) (hf : f ∈ fields) (hs : f.attrs.skipSer = false) (hsw : f.attrs.serWith = none) (hb : f.attrs.bound = none)
    (hty : Built g.typeParams base f.ty) (k : Conv) : has k f.ty := by
  have hp : ∀ x ∈ g.typeParams, Mentions x f.ty → has k (.path (.mk false [.mk x .none])) := by
    intro x hx hm
    have h := hw (.path (.mk false [.mk x .none])) ((C78_exact g c fields hc _).mpr (.inr ⟨f, hf, ⟨hs, hsw, hb⟩, .inl ⟨x, hx, hm, rfl⟩⟩))
    cases k
    · exact h.2
    · exact h.1
  clear hw hs hsw hb hf
  generalize f.ty = t at hp hty
  induction hty with
  | param hx hn => exact hp _ hx ⟨.none, hn, .refl⟩
  | base h => exact hbase k _ h
  | vec _ ih => exact hstd.vec k _ (ih fun x hx hm => hp x hx (mentions_app (by decide) hm))
  | option _ ih => exact hstd.option k _ (ih fun x hx hm => hp x hx (mentions_app (by decide) hm))
  | box _ ih => exact hstd.box k _ (ih fun x hx hm => hp x hx (mentions_app (by decide) hm))
  | array _ ih => exact hstd.array k _ _ (ih fun x hx hm => hp x hx (Mentions.top.mpr (.inr ⟨_, .array, hm⟩)))
  | tuple h1 h2 _ ih =>
    exact hstd.tuple k _ h1 h2 fun t ht => ih t ht fun x hx hm => hp x hx (Mentions.top.mpr (.inr ⟨_, .tuple ht, hm⟩))

/-- `T` -/
def tyT : STy := .path (.mk false [.mk (ch! "T") .none])
/-- `<T = ..>` -/
def genT : Generics :=
  { params := [.type (ch! "T") [] (some (.ident (ch! "u8")))], preds := [.clause tyT [.mk false [.mk (ch! "Clone") .none]]] }

/-- A field without attributes. -/
def plainField : FieldAttrs :=
  { name := ch! "a", renamed := false, skipSer := false, skipDe := false, default := .none, serWith := none, deWith := none,
    bound := none, nested := false, flatten := false }
/-- A struct without attributes. -/
def plainStruct : ContainerAttrs :=
  { denyUnknown := false, default := .none, rule := .none, bound := none, typeFrom := none, typeTryFrom := none, typeInto := none }

/-- The hypotheses can be met: `struct S<T> { a: Vec<Option<T>> }`, with every type convertible. -/
example : Built genT.typeParams (fun _ => False) (app (ch! "Vec") (app (ch! "Option") tyT)) ∧
    StdImpls (fun _ _ => True) ∧
    WhereHolds (fun _ _ => True) (buildGenerics genT plainStruct [{ ty := app (ch! "Vec") (app (ch! "Option") tyT), attrs := plainField }]) :=
  ⟨.vec (.option (.param (List.mem_singleton.mpr rfl) (by decide))),
    ⟨fun _ _ _ => trivial, fun _ _ _ => trivial, fun _ _ _ => trivial, fun _ _ _ _ => trivial, fun _ _ _ _ _ => trivial⟩,
    fun _ _ => ⟨trivial, trivial⟩⟩

/-- The clause of that struct is `T: Clone, T: FromSql + ToSql`, and `PhantomData<T>` asks for nothing. -/
example : (buildGenerics genT plainStruct [{ ty := app (ch! "Vec") (app (ch! "Option") tyT), attrs := plainField }]).preds =
    [.clause tyT [.mk false [.mk (ch! "Clone") .none]], .conv tyT] ∧
    (buildGenerics genT plainStruct [{ ty := app (ch! "PhantomData") tyT, attrs := plainField }]).preds = [.clause tyT [.mk false [.mk (ch! "Clone") .none]]] := ⟨rfl, rfl⟩

/-- **C78** fails for fields that are only read: with `skip_serializing`, or with `serialize_with` and no `deserialize_with`, the
generated code calls `from_sql` for the field, and nothing in the where clause says that its type has it. -/
theorem C78_reading_false :
    (∀ a : FieldAttrs, a.skipSer = true ∨ a.serWith ≠ none → ∀ c : ContainerAttrs, c.bound = none →
      ∃ has, StdImpls has ∧ WhereHolds has (buildGenerics genT c [{ ty := tyT, attrs := a }]) ∧ ¬ has .fromSql tyT) ∧
    ∃ a : FieldAttrs, a.skipSer = true ∧ CallsFrom a := by
  refine ⟨fun a ha c hc => ⟨fun _ _ => False, ?_, ?_, id⟩, { plainField with skipSer := true }, rfl, rfl, rfl, rfl, rfl⟩
  · refine ⟨fun _ _ h => h, fun _ _ h => h, fun _ _ h => h, fun _ _ _ h => h, fun _ ts h1 _ h => ?_⟩
    cases ts with
    | nil => exact absurd h1 (by decide)
    | cons t _ => exact h t (List.mem_cons_self ..)
  · intro t ht
    rcases (C78_exact genT c _ hc t).mp ht with h | ⟨f, hf, ⟨h1, h2, _⟩, _⟩
    · have := List.mem_singleton.mp h
      cases this
    · rw [List.mem_singleton.mp hf] at h1 h2
      rcases ha with ha | ha
      · rw [ha] at h1; cases h1
      · exact absurd h2 ha

/-- **C78** is not minimal: a `nested` or `flatten` field of a type parameter, on which neither conversion is called, still asks for
both. -/
theorem C78_nested_false (a : FieldAttrs) (h1 : a.skipSer = false) (h2 : a.serWith = none) (h3 : a.bound = none) :
    .conv tyT ∈ (buildGenerics genT plainStruct [{ ty := tyT, attrs := a }]).preds ∧
    (a.flatten = true ∨ a.nested = true → ¬ CallsTo a ∧ ¬ CallsFrom a) := by
  refine ⟨(C78_exact genT plainStruct _ rfl tyT).mpr (.inr ⟨_, List.mem_singleton.mpr rfl, ⟨h1, h2, h3⟩, .inl
    ⟨_, List.mem_singleton.mpr rfl, ⟨.none, by decide, .refl⟩, rfl⟩⟩), ?_⟩
  rintro (h | h)
  · exact ⟨(fun ⟨_, _, _, h'⟩ => by rw [h] at h'; cases h'), (fun ⟨_, _, _, h'⟩ => by rw [h] at h'; cases h')⟩
  · exact ⟨(fun ⟨_, _, h', _⟩ => by rw [h] at h'; cases h'), (fun ⟨_, _, h', _⟩ => by rw [h] at h'; cases h')⟩

/-- Such a field exists. -/
example : CallsTo plainField ∧ ¬ CallsTo { plainField with flatten := true } := ⟨⟨rfl, rfl, rfl, rfl⟩, fun ⟨_, _, _, h⟩ => by cases h⟩

end Props

/-! ### C79 -/

theorem SPath.asType_cases (self p : SPath) :
    (∃ a, p = .mk false [.mk selfIdent a] ∧ (SPath.asType self p = .path self ∨ SPath.asType self p = .path self.turbofish)) ∨
    (∃ a s rest, p = .mk false (.mk selfIdent a :: s :: rest) ∧ SPath.asType self p = .qpath (.path self) (.mk true (s :: rest))) ∨
    (¬ StartsSelf p ∧ SPath.asType self p = .path p) := by
  obtain ⟨lead, segs⟩ := p
  cases lead with
  | true => exact .inr (.inr ⟨(by rintro ⟨a, r, h⟩; cases h), by cases segs <;> rfl⟩)
  | false =>
    match segs with
    | [] => exact .inr (.inr ⟨(by rintro ⟨a, r, h⟩; cases h), rfl⟩)
    | .mk id a :: rest =>
      by_cases hid : id = selfIdent
      · subst hid
        match rest with
        | [] =>
          refine .inl ⟨a, rfl, ?_⟩
          cases a with
          | none => exact .inl rfl
          | angle => exact .inr rfl
          | paren => exact .inr rfl
        | s :: rest => exact .inr (.inl ⟨a, s, rest, rfl, by cases a <;> rfl⟩)
      · refine .inr (.inr ⟨(by rintro ⟨b, r, h⟩; cases h; exact hid rfl), ?_⟩)
        have hs : SPath.isSelf (.mk false (.mk id a :: rest)) = false := by
          cases rest with
          | nil =>
            cases a with
            | none => exact decide_eq_false hid
            | angle => rfl
            | paren => rfl
          | cons => cases a <;> rfl
        have hq : SPath.toQself self (.mk false (.mk id a :: rest)) = (none, .mk false (.mk id a :: rest)) := if_neg hid
        unfold SPath.asType
        rw [hs, hq]
        rfl

theorem SPath.asExpr_cases (self p : SPath) :
    (∃ a, p = .mk false [.mk selfIdent a] ∧ SPath.asExpr self p = .path self.turbofish) ∨
    (∃ a s rest, p = .mk false (.mk selfIdent a :: s :: rest) ∧ SPath.asExpr self p = .qpath (.path self) (.mk true (s :: rest))) ∨
    (¬ StartsSelf p ∧ SPath.asExpr self p = .path p) := by
  obtain ⟨lead, segs⟩ := p
  cases lead with
  | true => exact .inr (.inr ⟨(by rintro ⟨a, r, h⟩; cases h), by cases segs <;> rfl⟩)
  | false =>
    match segs with
    | [] => exact .inr (.inr ⟨(by rintro ⟨a, r, h⟩; cases h), rfl⟩)
    | .mk id a :: rest =>
      by_cases hid : id = selfIdent
      · subst hid
        match rest with
        | [] => exact .inl ⟨a, rfl, rfl⟩
        | s :: rest => exact .inr (.inl ⟨a, s, rest, rfl, rfl⟩)
      · refine .inr (.inr ⟨(by rintro ⟨b, r, h⟩; cases h; exact hid rfl), ?_⟩)
        have hq : SPath.toQself self (.mk false (.mk id a :: rest)) = (none, .mk false (.mk id a :: rest)) := if_neg hid
        unfold SPath.asExpr
        rw [hq]

/-! #### The meaning stays -/

theorem pointwise_refl {α : Type} {R : α → α → Prop} (h : ∀ a, R a a) : ∀ as : List α, Pointwise R as as
  | [] => .nil
  | a :: as => .cons (h a) (pointwise_refl h as)

theorem turbofish_same {R : STy → STy → Prop} (hr : ∀ t, R t t) : ∀ p : SPath, SamePath R p p.turbofish
  | .mk l segs => .mk (segs_turbofish hr segs)
where
  segs_turbofish {R : STy → STy → Prop} (hr : ∀ t, R t t) :
      ∀ segs : List SSeg, Pointwise (SameSeg R) segs (segs.map fun s => .mk s.ident s.args.turbofish)
  | [] => .nil
  | .mk id a :: segs => by
    refine .cons (.mk ?_) (segs_turbofish hr segs)
    cases a with
    | none => exact .none
    | angle t as => exact .angle (pointwise_refl (fun _ => .refl) as)
    | paren ts => exact .paren (pointwise_refl hr ts)

mutual
theorem STy.replace_same (self : SPath) {R : STy → STy → Prop} {E : SExpr → SExpr → Prop} (d : SelfReading self R E) :
    ∀ t : STy, R t (t.replace self)
  | .group t => d.group _ _ (STy.replace_same self d t)
  | .paren t => d.paren _ _ (STy.replace_same self d t)
  | .elem k t => d.elem k _ _ (STy.replace_same self d t)
  | .array t e => d.array _ _ _ _ (STy.replace_same self d t) (SExpr.replace_same self d e)
  | .func ts => d.func _ _ (STy.replaceAll_same self d ts)
  | .tuple ts => d.tuple _ _ (STy.replaceAll_same self d ts)
  | .traits k ps => d.traits k _ _ (STy.replaceBounds_same self d ps)
  | .path (.mk lead segs) => by
    have h := d.path _ _ (.mk (l := lead) (SSeg.replaceAll_same self d segs))
    rw [STy.replace]
    rcases SPath.asType_cases self (.mk lead (SSeg.replaceAll self segs)) with ⟨a, e, e' | e'⟩ | ⟨a, s, rest, e, e'⟩ | ⟨_, e'⟩
    · rw [e']
      rw [e] at h
      exact d.trans _ _ _ h (d.isSelf a)
    · rw [e']
      rw [e] at h
      exact d.trans _ _ _ h (d.trans _ _ _ (d.isSelf a) (d.path _ _ (turbofish_same d.refl self)))
    · rw [e']
      rw [e] at h
      exact d.trans _ _ _ h (d.ofSelf a s rest)
    · rw [e']
      exact h
  | .qpath q (.mk lead segs) => d.qpath _ _ _ _ (STy.replace_same self d q) (.mk (SSeg.replaceAll_same self d segs))
  | .other _ => d.refl _
theorem STy.replaceAll_same (self : SPath) {R : STy → STy → Prop} {E : SExpr → SExpr → Prop} (d : SelfReading self R E) :
    ∀ ts : List STy, Pointwise R ts (STy.replaceAll self ts)
  | [] => .nil
  | t :: ts => .cons (STy.replace_same self d t) (STy.replaceAll_same self d ts)
theorem STy.replaceBounds_same (self : SPath) {R : STy → STy → Prop} {E : SExpr → SExpr → Prop} (d : SelfReading self R E) :
    ∀ ps : List SPath, Pointwise (SamePath R) ps (STy.replaceBounds self ps)
  | [] => .nil
  | .mk _ segs :: ps => .cons (.mk (SSeg.replaceAll_same self d segs)) (STy.replaceBounds_same self d ps)
theorem SExpr.replace_same (self : SPath) {R : STy → STy → Prop} {E : SExpr → SExpr → Prop} (d : SelfReading self R E) :
    ∀ e : SExpr, E e (e.replace self)
  | .binary op l r => d.binary op _ _ _ _ (SExpr.replace_same self d l) (SExpr.replace_same self d r)
  | .call f as => d.call _ _ _ _ (SExpr.replace_same self d f) (SExpr.replaceAll_same self d as)
  | .cast e t => d.cast _ _ _ _ (SExpr.replace_same self d e) (STy.replace_same self d t)
  | .field e n => d.field _ _ n (SExpr.replace_same self d e)
  | .index e i => d.index _ _ _ _ (SExpr.replace_same self d e) (SExpr.replace_same self d i)
  | .paren e => d.eparen _ _ (SExpr.replace_same self d e)
  | .path (.mk lead segs) => by
    have h := d.epath _ _ (.mk (l := lead) (SSeg.replaceAll_same self d segs))
    rw [SExpr.replace]
    rcases SPath.asExpr_cases self (.mk lead (SSeg.replaceAll self segs)) with ⟨a, e, e'⟩ | ⟨a, s, rest, e, e'⟩ | ⟨_, e'⟩
    · rw [e']
      rw [e] at h
      exact d.etrans _ _ _ h (d.etrans _ _ _ (d.eisSelf a) (d.epath _ _ (turbofish_same d.refl self)))
    · rw [e']
      rw [e] at h
      exact d.etrans _ _ _ h (d.eofSelf a s rest)
    · rw [e']
      exact h
  | .qpath q (.mk lead segs) => d.eqpath _ _ _ _ (STy.replace_same self d q) (.mk (SSeg.replaceAll_same self d segs))
  | .unary op e => d.unary op _ _ (SExpr.replace_same self d e)
  | .other _ => d.erefl _
theorem SExpr.replaceAll_same (self : SPath) {R : STy → STy → Prop} {E : SExpr → SExpr → Prop} (d : SelfReading self R E) :
    ∀ es : List SExpr, Pointwise E es (SExpr.replaceAll self es)
  | [] => .nil
  | e :: es => .cons (SExpr.replace_same self d e) (SExpr.replaceAll_same self d es)
theorem SSeg.replaceAll_same (self : SPath) {R : STy → STy → Prop} {E : SExpr → SExpr → Prop} (d : SelfReading self R E) :
    ∀ segs : List SSeg, Pointwise (SameSeg R) segs (SSeg.replaceAll self segs)
  | [] => .nil
  | .mk _ a :: segs => .cons (.mk (SArgs.replace_same self d a)) (SSeg.replaceAll_same self d segs)
theorem SArgs.replace_same (self : SPath) {R : STy → STy → Prop} {E : SExpr → SExpr → Prop} (d : SelfReading self R E) :
    ∀ a : SArgs, SameArgs R a (a.replace self)
  | .none => .none
  | .angle _ as => .angle (SArg.replaceAll_same self d as)
  | .paren ts => .paren (STy.replaceAll_same self d ts)
theorem SArg.replaceAll_same (self : SPath) {R : STy → STy → Prop} {E : SExpr → SExpr → Prop} (d : SelfReading self R E) :
    ∀ as : List SArg, Pointwise (SameArg R) as (SArg.replaceAll self as)
  | [] => .nil
  | .type t :: as => .cons (.type (STy.replace_same self d t)) (SArg.replaceAll_same self d as)
  | .assoc _ t :: as => .cons (.assoc (STy.replace_same self d t)) (SArg.replaceAll_same self d as)
  | .const _ :: as => .cons .refl (SArg.replaceAll_same self d as)
  | .assocConst _ _ :: as => .cons .refl (SArg.replaceAll_same self d as)
  | .constraint _ _ :: as => .cons .refl (SArg.replaceAll_same self d as)
  | .lifetime _ :: as => .cons .refl (SArg.replaceAll_same self d as)
end

/-! #### Which `Self` is left -/

/-- The head of a path whose arguments have none. -/
theorem pathHeads_eq (seen counts lead : Bool) (segs : List SSeg) : pathHeads seen counts (.mk lead segs) =
    (if seen && counts && !lead then (segs.map SSeg.ident).take 1 else []) ++ segsHeads seen segs := by rw [pathHeads]

theorem pathHeads_mono {seen : Bool} {p : SPath} {x : Str} (h : x ∈ pathHeads seen false p) : x ∈ pathHeads seen true p := by
  obtain ⟨lead, segs⟩ := p
  rw [pathHeads_eq, List.mem_append] at h ⊢
  rcases h with h | h
  · rw [Bool.and_false, Bool.false_and, if_neg Bool.false_ne_true] at h
    cases h
  · exact .inr h

theorem turbofish_heads (seen counts : Bool) : ∀ p : SPath, pathHeads seen counts p.turbofish = pathHeads seen counts p
  | .mk lead segs => by
    rw [SPath.turbofish, pathHeads_eq, pathHeads_eq, List.map_map, segs_heads seen segs]
    rfl
where
  segs_heads (seen : Bool) : ∀ segs : List SSeg, segsHeads seen (segs.map fun s => .mk s.ident s.args.turbofish) = segsHeads seen segs
  | [] => rfl
  | .mk id a :: segs => by
    rw [List.map_cons, segsHeads, segsHeads, segs_heads seen segs]
    cases a <;> simp only [SSeg.args, SArgs.turbofish, argsHeads]

/-- What is left of a path: no `Self` at its beginning, and in the arguments what was left there. -/
theorem asType_left {self p : SPath} (hs : ∀ v, selfIdent ∉ pathHeads v true self) {v : Bool} (P : Prop)
    (hp : selfIdent ∈ pathHeads v false p → P) : selfIdent ∈ tyHeads v (SPath.asType self p) → P := by
  rcases SPath.asType_cases self p with ⟨a, e, e' | e'⟩ | ⟨a, s, rest, e, e'⟩ | ⟨hn, e'⟩
  · rw [e', tyHeads]
    exact fun h => absurd h (hs v)
  · rw [e', tyHeads, turbofish_heads]
    exact fun h => absurd h (hs v)
  · rw [e', tyHeads, tyHeads, List.mem_append]
    rintro (h | h)
    · exact absurd h (hs v)
    · apply hp
      rw [e, pathHeads_eq]
      rw [pathHeads_eq] at h
      rw [Bool.and_false, Bool.false_and, if_neg Bool.false_ne_true, List.nil_append] at h ⊢
      rw [segsHeads]
      exact List.mem_append.mpr (.inr h)
  · rw [e', tyHeads]
    obtain ⟨lead, segs⟩ := p
    intro h
    apply hp
    rw [pathHeads_eq, List.mem_append] at h ⊢
    rcases h with h | h
    · exfalso
      split at h
      · rename_i hb
        simp only [Bool.and_true, Bool.and_eq_true, Bool.not_eq_true'] at hb
        cases segs with
        | nil => cases h
        | cons s segs =>
          obtain ⟨i, b⟩ := s
          rcases List.mem_singleton.mp h with h
          exact hn ⟨b, segs, by rw [hb.2]; exact congrArg (fun x => SPath.mk false (SSeg.mk x b :: segs)) h.symm⟩
      · cases h
    · exact .inr h

/-- The same of the path of an expression. -/
theorem asExpr_left {self p : SPath} (hs : ∀ v, selfIdent ∉ pathHeads v true self) {v : Bool} (P : Prop)
    (hp : selfIdent ∈ pathHeads v false p → P) : selfIdent ∈ exprHeads v (SPath.asExpr self p) → P := by
  rcases SPath.asExpr_cases self p with ⟨a, e, e'⟩ | ⟨a, s, rest, e, e'⟩ | ⟨hn, e'⟩
  · rw [e', exprHeads, turbofish_heads]
    exact fun h => absurd h (hs v)
  · rw [e', exprHeads, tyHeads, List.mem_append]
    rintro (h | h)
    · exact absurd h (hs v)
    · apply hp
      rw [e, pathHeads_eq]
      rw [pathHeads_eq] at h
      rw [Bool.and_false, Bool.false_and, if_neg Bool.false_ne_true, List.nil_append] at h ⊢
      rw [segsHeads]
      exact List.mem_append.mpr (.inr h)
  · rw [e', exprHeads]
    obtain ⟨lead, segs⟩ := p
    intro h
    apply hp
    rw [pathHeads_eq, List.mem_append] at h ⊢
    rcases h with h | h
    · exfalso
      split at h
      · rename_i hb
        simp only [Bool.and_true, Bool.and_eq_true, Bool.not_eq_true'] at hb
        cases segs with
        | nil => cases h
        | cons s segs =>
          obtain ⟨i, b⟩ := s
          rcases List.mem_singleton.mp h with h
          exact hn ⟨b, segs, by rw [hb.2]; exact congrArg (fun x => SPath.mk false (SSeg.mk x b :: segs)) h.symm⟩
      · cases h
    · exact .inr h

/-- Two parts, each of which leaves what it had. -/
theorem left_append {v : Bool} {as bs cs ds : List Str} (h1 : selfIdent ∈ as → v = false ∧ selfIdent ∈ cs)
    (h2 : selfIdent ∈ bs → v = false ∧ selfIdent ∈ ds) : selfIdent ∈ as ++ bs → v = false ∧ selfIdent ∈ cs ++ ds := by
  intro h
  rcases List.mem_append.mp h with h | h
  · exact ⟨(h1 h).1, List.mem_append.mpr (.inl (h1 h).2)⟩
  · exact ⟨(h2 h).1, List.mem_append.mpr (.inr (h2 h).2)⟩

theorem path_left {v lead : Bool} {as bs : List SSeg} (h1 : selfIdent ∈ segsHeads v as → v = false ∧ selfIdent ∈ segsHeads false bs)
    (counts : Bool) : selfIdent ∈ pathHeads v false (.mk lead as) → v = false ∧ selfIdent ∈ pathHeads false counts (.mk lead bs) := by
  rw [pathHeads_eq, pathHeads_eq, Bool.and_false, Bool.false_and, if_neg Bool.false_ne_true, List.nil_append]
  exact fun h => ⟨(h1 h).1, List.mem_append.mpr (.inr (h1 h).2)⟩

/-- What the macro passes over stays as it is. -/
theorem passed_left {v : Bool} {ws xs ys : List Str} (hx : ∀ w ∈ ws, w ∈ ys) :
    selfIdent ∈ (if v then xs else ws) → (v = true → xs = []) → v = false ∧ selfIdent ∈ ys := by
  intro h hv
  cases v with
  | true =>
    rw [if_pos rfl, hv rfl] at h
    cases h
  | false => exact ⟨rfl, hx _ h⟩

mutual
theorem STy.replace_left (self : SPath) (hs : ∀ v, selfIdent ∉ pathHeads v true self) (v : Bool) :
    ∀ t : STy, selfIdent ∈ tyHeads v (t.replace self) → v = false ∧ selfIdent ∈ tyHeads false t
  | .group t => by rw [STy.replace, tyHeads, tyHeads]; exact STy.replace_left self hs v t
  | .paren t => by rw [STy.replace, tyHeads, tyHeads]; exact STy.replace_left self hs v t
  | .elem k t => by rw [STy.replace, tyHeads, tyHeads]; exact STy.replace_left self hs v t
  | .array t e => by
    rw [STy.replace, tyHeads, tyHeads]
    exact left_append (STy.replace_left self hs v t) (SExpr.replace_left self hs v e)
  | .func ts => by rw [STy.replace, tyHeads, tyHeads]; exact STy.replaceAll_left self hs v ts
  | .tuple ts => by rw [STy.replace, tyHeads, tyHeads]; exact STy.replaceAll_left self hs v ts
  | .traits k ps => by rw [STy.replace, tyHeads, tyHeads]; exact STy.replaceBounds_left self hs v ps
  | .path (.mk lead segs) => by
    rw [STy.replace]
    refine asType_left hs _ ?_
    rw [tyHeads]
    exact path_left (SSeg.replaceAll_left self hs v segs) true
  | .qpath q (.mk lead segs) => by
    rw [STy.replace, tyHeads, tyHeads]
    exact left_append (STy.replace_left self hs v q) (path_left (SSeg.replaceAll_left self hs v segs) false)
  | .other ws => by
    rw [STy.replace, tyHeads, tyHeads, if_neg (show ¬ false = true from Bool.false_ne_true)]
    exact fun h => passed_left (xs := []) (fun _ h => h) h fun _ => rfl
theorem STy.replaceAll_left (self : SPath) (hs : ∀ v, selfIdent ∉ pathHeads v true self) (v : Bool) :
    ∀ ts : List STy, selfIdent ∈ tysHeads v (STy.replaceAll self ts) → v = false ∧ selfIdent ∈ tysHeads false ts
  | [] => by rw [STy.replaceAll, tysHeads]; intro h; cases h
  | t :: ts => by
    rw [STy.replaceAll, tysHeads, tysHeads]
    exact left_append (STy.replace_left self hs v t) (STy.replaceAll_left self hs v ts)
theorem STy.replaceBounds_left (self : SPath) (hs : ∀ v, selfIdent ∉ pathHeads v true self) (v : Bool) :
    ∀ ps : List SPath, selfIdent ∈ boundsHeads v (STy.replaceBounds self ps) → v = false ∧ selfIdent ∈ boundsHeads false ps
  | [] => by rw [STy.replaceBounds, boundsHeads]; intro h; cases h
  | .mk lead segs :: ps => by
    rw [STy.replaceBounds, boundsHeads, boundsHeads]
    exact left_append (path_left (SSeg.replaceAll_left self hs v segs) false) (STy.replaceBounds_left self hs v ps)
theorem SExpr.replace_left (self : SPath) (hs : ∀ v, selfIdent ∉ pathHeads v true self) (v : Bool) :
    ∀ e : SExpr, selfIdent ∈ exprHeads v (e.replace self) → v = false ∧ selfIdent ∈ exprHeads false e
  | .binary _ l r => by
    rw [SExpr.replace, exprHeads, exprHeads]
    exact left_append (SExpr.replace_left self hs v l) (SExpr.replace_left self hs v r)
  | .call f as => by
    rw [SExpr.replace, exprHeads, exprHeads]
    exact left_append (SExpr.replace_left self hs v f) (SExpr.replaceAll_left self hs v as)
  | .cast e t => by
    rw [SExpr.replace, exprHeads, exprHeads]
    exact left_append (SExpr.replace_left self hs v e) (STy.replace_left self hs v t)
  | .field e _ => by rw [SExpr.replace, exprHeads, exprHeads]; exact SExpr.replace_left self hs v e
  | .index e i => by
    rw [SExpr.replace, exprHeads, exprHeads]
    exact left_append (SExpr.replace_left self hs v e) (SExpr.replace_left self hs v i)
  | .paren e => by rw [SExpr.replace, exprHeads, exprHeads]; exact SExpr.replace_left self hs v e
  | .path (.mk lead segs) => by
    rw [SExpr.replace]
    refine asExpr_left hs _ ?_
    rw [exprHeads]
    exact path_left (SSeg.replaceAll_left self hs v segs) true
  | .qpath q (.mk lead segs) => by
    rw [SExpr.replace, exprHeads, exprHeads]
    exact left_append (STy.replace_left self hs v q) (path_left (SSeg.replaceAll_left self hs v segs) false)
  | .unary _ e => by rw [SExpr.replace, exprHeads, exprHeads]; exact SExpr.replace_left self hs v e
  | .other ws => by
    rw [SExpr.replace, exprHeads, exprHeads, if_neg (show ¬ false = true from Bool.false_ne_true)]
    exact fun h => passed_left (xs := []) (fun _ h => h) h fun _ => rfl
theorem SExpr.replaceAll_left (self : SPath) (hs : ∀ v, selfIdent ∉ pathHeads v true self) (v : Bool) :
    ∀ es : List SExpr, selfIdent ∈ exprsHeads v (SExpr.replaceAll self es) → v = false ∧ selfIdent ∈ exprsHeads false es
  | [] => by rw [SExpr.replaceAll, exprsHeads]; intro h; cases h
  | e :: es => by
    rw [SExpr.replaceAll, exprsHeads, exprsHeads]
    exact left_append (SExpr.replace_left self hs v e) (SExpr.replaceAll_left self hs v es)
theorem SSeg.replaceAll_left (self : SPath) (hs : ∀ v, selfIdent ∉ pathHeads v true self) (v : Bool) :
    ∀ segs : List SSeg, selfIdent ∈ segsHeads v (SSeg.replaceAll self segs) → v = false ∧ selfIdent ∈ segsHeads false segs
  | [] => by rw [SSeg.replaceAll, segsHeads]; intro h; cases h
  | .mk i a :: segs => by
    rw [SSeg.replaceAll, segsHeads, segsHeads]
    exact left_append (SArgs.replace_left self hs v a) (SSeg.replaceAll_left self hs v segs)
theorem SArgs.replace_left (self : SPath) (hs : ∀ v, selfIdent ∉ pathHeads v true self) (v : Bool) :
    ∀ a : SArgs, selfIdent ∈ argsHeads v (a.replace self) → v = false ∧ selfIdent ∈ argsHeads false a
  | .none => by rw [SArgs.replace, argsHeads]; intro h; cases h
  | .angle _ as => by rw [SArgs.replace, argsHeads, argsHeads]; exact SArg.replaceAll_left self hs v as
  | .paren ts => by rw [SArgs.replace, argsHeads, argsHeads]; exact STy.replaceAll_left self hs v ts
theorem SArg.replaceAll_left (self : SPath) (hs : ∀ v, selfIdent ∉ pathHeads v true self) (v : Bool) :
    ∀ as : List SArg, selfIdent ∈ angleHeads v (SArg.replaceAll self as) → v = false ∧ selfIdent ∈ angleHeads false as
  | [] => by rw [SArg.replaceAll, angleHeads]; intro h; cases h
  | .type t :: as => by
    rw [SArg.replaceAll, angleHeads, angleHeads]
    exact left_append (STy.replace_left self hs v t) (SArg.replaceAll_left self hs v as)
  | .assoc _ t :: as => by
    rw [SArg.replaceAll, angleHeads, angleHeads]
    exact left_append (STy.replace_left self hs v t) (SArg.replaceAll_left self hs v as)
  | .const e :: as => by
    rw [SArg.replaceAll, angleHeads, angleHeads, if_neg (show ¬ false = true from Bool.false_ne_true)]
    exact left_append (fun h => passed_left (xs := []) (fun _ h => h) h fun _ => rfl) (SArg.replaceAll_left self hs v as)
  | .assocConst _ e :: as => by
    rw [SArg.replaceAll, angleHeads, angleHeads, if_neg (show ¬ false = true from Bool.false_ne_true)]
    exact left_append (fun h => passed_left (xs := []) (fun _ h => h) h fun _ => rfl) (SArg.replaceAll_left self hs v as)
  | .constraint _ ps :: as => by
    rw [SArg.replaceAll, angleHeads, angleHeads, if_neg (show ¬ false = true from Bool.false_ne_true)]
    exact left_append (fun h => passed_left (xs := []) (fun _ h => h) h fun _ => rfl) (SArg.replaceAll_left self hs v as)
  | .lifetime _ :: as => by
    rw [SArg.replaceAll, angleHeads, angleHeads, if_neg (show ¬ false = true from Bool.false_ne_true)]
    exact left_append (fun h => passed_left (xs := []) (fun _ h => h) h fun _ => rfl) (SArg.replaceAll_left self hs v as)
end

/-! #### Nothing else changes -/

theorem not_append {as bs : List Str} (h : selfIdent ∉ as ++ bs) : selfIdent ∉ as ∧ selfIdent ∉ bs :=
  ⟨fun h' => h (List.mem_append.mpr (.inl h')), fun h' => h (List.mem_append.mpr (.inr h'))⟩

theorem path_free {lead counts : Bool} {segs : List SSeg} (h : selfIdent ∉ pathHeads true counts (.mk lead segs)) :
    selfIdent ∉ segsHeads true segs := by
  rw [pathHeads_eq] at h
  exact (not_append h).2

theorem path_starts {lead : Bool} {segs : List SSeg} (h : selfIdent ∉ pathHeads true true (.mk lead segs)) :
    ¬ StartsSelf (.mk lead segs) := by
  rintro ⟨a, rest, e⟩
  cases e
  rw [pathHeads_eq] at h
  exact (not_append h).1 (List.mem_singleton.mpr rfl)

theorem asType_id {self p : SPath} (h : ¬ StartsSelf p) : SPath.asType self p = .path p := by
  rcases SPath.asType_cases self p with ⟨a, e, _⟩ | ⟨a, s, rest, e, _⟩ | ⟨_, e⟩
  · exact absurd ⟨a, [], e⟩ h
  · exact absurd ⟨a, _, e⟩ h
  · exact e

theorem asExpr_id {self p : SPath} (h : ¬ StartsSelf p) : SPath.asExpr self p = .path p := by
  rcases SPath.asExpr_cases self p with ⟨a, e, _⟩ | ⟨a, s, rest, e, _⟩ | ⟨_, e⟩
  · exact absurd ⟨a, [], e⟩ h
  · exact absurd ⟨a, _, e⟩ h
  · exact e

mutual
theorem STy.replace_id (self : SPath) : ∀ t : STy, selfIdent ∉ tyHeads true t → t.replace self = t
  | .group t, h => congrArg _ (STy.replace_id self t (by rwa [tyHeads] at h))
  | .paren t, h => congrArg _ (STy.replace_id self t (by rwa [tyHeads] at h))
  | .elem k t, h => congrArg _ (STy.replace_id self t (by rwa [tyHeads] at h))
  | .array t e, h => by
    rw [tyHeads] at h
    rw [STy.replace, STy.replace_id self t (not_append h).1, SExpr.replace_id self e (not_append h).2]
  | .func ts, h => congrArg _ (STy.replaceAll_id self ts (by rwa [tyHeads] at h))
  | .tuple ts, h => congrArg _ (STy.replaceAll_id self ts (by rwa [tyHeads] at h))
  | .traits k ps, h => congrArg _ (STy.replaceBounds_id self ps (by rwa [tyHeads] at h))
  | .path (.mk lead segs), h => by
    rw [tyHeads] at h
    rw [STy.replace, SSeg.replaceAll_id self segs (path_free h), asType_id (path_starts h)]
  | .qpath q (.mk lead segs), h => by
    rw [tyHeads] at h
    rw [STy.replace, STy.replace_id self q (not_append h).1, SSeg.replaceAll_id self segs (path_free (not_append h).2)]
  | .other _, _ => rfl
theorem STy.replaceAll_id (self : SPath) : ∀ ts : List STy, selfIdent ∉ tysHeads true ts → STy.replaceAll self ts = ts
  | [], _ => rfl
  | t :: ts, h => by
    rw [tysHeads] at h
    rw [STy.replaceAll, STy.replace_id self t (not_append h).1, STy.replaceAll_id self ts (not_append h).2]
theorem STy.replaceBounds_id (self : SPath) : ∀ ps : List SPath, selfIdent ∉ boundsHeads true ps → STy.replaceBounds self ps = ps
  | [], _ => rfl
  | .mk lead segs :: ps, h => by
    rw [boundsHeads] at h
    rw [STy.replaceBounds, SSeg.replaceAll_id self segs (path_free (not_append h).1), STy.replaceBounds_id self ps (not_append h).2]
theorem SExpr.replace_id (self : SPath) : ∀ e : SExpr, selfIdent ∉ exprHeads true e → e.replace self = e
  | .binary _ l r, h => by
    rw [exprHeads] at h
    rw [SExpr.replace, SExpr.replace_id self l (not_append h).1, SExpr.replace_id self r (not_append h).2]
  | .call f as, h => by
    rw [exprHeads] at h
    rw [SExpr.replace, SExpr.replace_id self f (not_append h).1, SExpr.replaceAll_id self as (not_append h).2]
  | .cast e t, h => by
    rw [exprHeads] at h
    rw [SExpr.replace, SExpr.replace_id self e (not_append h).1, STy.replace_id self t (not_append h).2]
  | .field e _, h => by rw [SExpr.replace, SExpr.replace_id self e (by rwa [exprHeads] at h)]
  | .index e i, h => by
    rw [exprHeads] at h
    rw [SExpr.replace, SExpr.replace_id self e (not_append h).1, SExpr.replace_id self i (not_append h).2]
  | .paren e, h => by rw [SExpr.replace, SExpr.replace_id self e (by rwa [exprHeads] at h)]
  | .path (.mk lead segs), h => by
    rw [exprHeads] at h
    rw [SExpr.replace, SSeg.replaceAll_id self segs (path_free h), asExpr_id (path_starts h)]
  | .qpath q (.mk lead segs), h => by
    rw [exprHeads] at h
    rw [SExpr.replace, STy.replace_id self q (not_append h).1, SSeg.replaceAll_id self segs (path_free (not_append h).2)]
  | .unary _ e, h => by rw [SExpr.replace, SExpr.replace_id self e (by rwa [exprHeads] at h)]
  | .other _, _ => rfl
theorem SExpr.replaceAll_id (self : SPath) : ∀ es : List SExpr, selfIdent ∉ exprsHeads true es → SExpr.replaceAll self es = es
  | [], _ => rfl
  | e :: es, h => by
    rw [exprsHeads] at h
    rw [SExpr.replaceAll, SExpr.replace_id self e (not_append h).1, SExpr.replaceAll_id self es (not_append h).2]
theorem SSeg.replaceAll_id (self : SPath) : ∀ segs : List SSeg, selfIdent ∉ segsHeads true segs → SSeg.replaceAll self segs = segs
  | [], _ => rfl
  | .mk i a :: segs, h => by
    rw [segsHeads] at h
    rw [SSeg.replaceAll, SArgs.replace_id self a (not_append h).1, SSeg.replaceAll_id self segs (not_append h).2]
theorem SArgs.replace_id (self : SPath) : ∀ a : SArgs, selfIdent ∉ argsHeads true a → a.replace self = a
  | .none, _ => rfl
  | .angle _ as, h => congrArg _ (SArg.replaceAll_id self as (by rwa [argsHeads] at h))
  | .paren ts, h => congrArg _ (STy.replaceAll_id self ts (by rwa [argsHeads] at h))
theorem SArg.replaceAll_id (self : SPath) : ∀ as : List SArg, selfIdent ∉ angleHeads true as → SArg.replaceAll self as = as
  | [], _ => rfl
  | .type u :: as, h => by
    rw [angleHeads] at h
    rw [SArg.replaceAll, STy.replace_id self u (not_append h).1, SArg.replaceAll_id self as (not_append h).2]
  | .assoc n' u :: as, h => by
    rw [angleHeads] at h
    rw [SArg.replaceAll, STy.replace_id self u (not_append h).1, SArg.replaceAll_id self as (not_append h).2]
  | .const _ :: as, h => by
    rw [angleHeads] at h
    rw [SArg.replaceAll, SArg.replaceAll_id self as (not_append h).2]
  | .assocConst _ _ :: as, h => by
    rw [angleHeads] at h
    rw [SArg.replaceAll, SArg.replaceAll_id self as (not_append h).2]
  | .constraint _ _ :: as, h => by
    rw [angleHeads] at h
    rw [SArg.replaceAll, SArg.replaceAll_id self as (not_append h).2]
  | .lifetime _ :: as, h => by
    rw [angleHeads] at h
    rw [SArg.replaceAll, SArg.replaceAll_id self as h]
end

/-- The struct's own type holds no `Self`. -/
theorem receiver_free {g : Generics} {name : Str} (hn : name ≠ ch! "Self") (hp : ch! "Self" ∉ paramNames g) (v : Bool) :
    selfIdent ∉ pathHeads v true (g.receiver name) := by
  have key : ∀ ps : List GParam, (ch! "Self" ∉ ps.map fun | .type id _ _ => id | .lifetime id => id | .const id => id) →
      selfIdent ∉ angleHeads v (ps.map fun
        | .type id _ _ => .type (.ident id)
        | .const id => .type (.ident id)
        | .lifetime id => .lifetime id) := by
    have id_free : ∀ id : Str, id ≠ selfIdent → selfIdent ∉ tyHeads v (STy.ident id) := by
      intro id h
      rw [STy.ident, tyHeads, pathHeads_eq, segsHeads, argsHeads, segsHeads]
      cases v with
      | true =>
        intro h'
        exact h (List.mem_singleton.mp h').symm
      | false => intro h'; cases h'
    intro ps
    induction ps with
    | nil =>
      intro _
      rw [List.map_nil, angleHeads]
      intro h'; cases h'
    | cons p ps ih =>
      intro h
      have h' := ih fun h' => h (List.mem_cons_of_mem _ h')
      cases p with
      | type id bs d =>
        rw [List.map_cons, angleHeads]
        intro h''
        rcases List.mem_append.mp h'' with h'' | h''
        · exact id_free id (fun e => h (by rw [e]; exact List.mem_cons_self ..)) h''
        · exact h' h''
      | const id =>
        rw [List.map_cons, angleHeads]
        intro h''
        rcases List.mem_append.mp h'' with h'' | h''
        · exact id_free id (fun e => h (by rw [e]; exact List.mem_cons_self ..)) h''
        · exact h' h''
      | lifetime id =>
        rw [List.map_cons, angleHeads]
        intro h''
        rcases List.mem_append.mp h'' with h'' | h''
        · split at h''
          · cases h''
          · exact h (List.mem_cons.mpr (.inl (List.mem_singleton.mp h'')))
        · exact h' h''
  unfold Generics.receiver
  rw [pathHeads_eq, segsHeads, segsHeads, List.append_nil]
  intro h
  rcases List.mem_append.mp h with h | h
  · split at h
    · exact hn (List.mem_singleton.mp h).symm
    · cases h
  · split at h
    · rw [argsHeads] at h; cases h
    · rw [argsHeads] at h
      exact key g.params hp h

namespace Props

/-- **C79** (the meaning of a field's type does not change). Under every reading of types in which `Self` is the struct and `Self::A`
is `<Struct>::A`, the type the generated code uses for a field is the type that was written. -/
theorem C79_same (self : SPath) (R : STy → STy → Prop) (E : SExpr → SExpr → Prop) (d : SelfReading self R E) (t : STy) :
    R t (t.replace self) :=
  STy.replace_same self d t

/-- **C79** (nor does the meaning of the whole declaration). Under every such reading the parameters with their bounds, the where
clause and every field say what they said; attributes are not touched. -/
theorem C79_struct (name : Str) (g : Generics) (fields : List SField) (R : STy → STy → Prop) (E : SExpr → SExpr → Prop)
    (d : SelfReading (g.receiver name) R E) :
    Pointwise (SameParam R) g.params (replaceReceiver name g fields).1.params ∧
    Pointwise (SamePred R) g.preds (replaceReceiver name g fields).1.preds ∧
    Pointwise (fun f f' : SField => R f.ty f'.ty ∧ f'.attrs = f.attrs) fields (replaceReceiver name g fields).2 := by
  have map : ∀ {α : Type} (S : α → α → Prop) (h : α → α), (∀ a, S a (h a)) → ∀ as : List α, Pointwise S as (as.map h) := by
    intro α S h hh as
    induction as with
    | nil => exact .nil
    | cons a as ih => exact .cons (hh a) ih
  refine ⟨map _ _ (fun p => ?_) _, map _ _ (fun p => ?_) _, map _ _ (fun f => ⟨STy.replace_same _ d f.ty, rfl⟩) _⟩
  · cases p with
    | type id bs df => exact .type (STy.replaceBounds_same _ d bs)
    | _ => exact .refl
  · cases p with
    | clause t bs => exact .clause (STy.replace_same _ d t) (STy.replaceBounds_same _ d bs)
    | _ => exact .refl

/-- **C79** (no `Self` is left), part of the claim: where the macro looks none is left, and where it does not look there is one only if
there was one. Missing: constants given as arguments, macros and constraints, see `C79_no_self_false`. -/
theorem C79_no_self_partial (name : Str) (g : Generics) (hn : name ≠ ch! "Self") (hp : ch! "Self" ∉ paramNames g) (t : STy) :
    SeenFree (t.replace (g.receiver name)) ∧ (PassedFree t → SelfFree (t.replace (g.receiver name))) := by
  have h := fun v => STy.replace_left (g.receiver name) (receiver_free hn hp) v t
  have h1 : SeenFree (t.replace (g.receiver name)) := fun h' => by cases (h true h').1
  exact ⟨h1, fun hf => ⟨h1, fun h' => hf (h false h').2⟩⟩

/-- **C79** (nothing else changes). A type without `Self` is used as it was written. -/
theorem C79_unchanged (self : SPath) (t : STy) (h : SeenFree t) : t.replace self = t := STy.replace_id self t h

/-- `Node` -/
def node : SPath := .mk false [.mk (ch! "Node") .none]

/-- A concrete case: `Vec<(Self, Self::Id)>` in `struct Node` becomes `Vec<(Node, <Node>::Id)>`, and `[u8; Self::LEN + 1]` becomes
`[u8; <Node>::LEN + 1]`. -/
example : (app (ch! "Vec") (.tuple [.path (.mk false [.mk selfIdent .none]),
      .path (.mk false [.mk selfIdent .none, .mk (ch! "Id") .none])])).replace node =
    app (ch! "Vec") (.tuple [.path node, .qpath (.path node) (.mk true [.mk (ch! "Id") .none])]) ∧
    (STy.array (.ident (ch! "u8")) (.binary (ch! "+") (.path (.mk false [.mk selfIdent .none, .mk (ch! "LEN") .none]))
      (.other []))).replace node =
    .array (.ident (ch! "u8")) (.binary (ch! "+") (.qpath (.path node) (.mk true [.mk (ch! "LEN") .none])) (.other [])) := ⟨rfl, rfl⟩

/-- `struct Pair<'a, T, const N: usize>`: its own type is `Pair<'a, T, N>`. -/
example : (Generics.mk [.lifetime (ch! "'a"), .type (ch! "T") [] none, .const (ch! "N")] []).receiver (ch! "Pair") =
    .mk false [.mk (ch! "Pair") (.angle false [.lifetime (ch! "'a"), .type (.ident (ch! "T")), .type (.ident (ch! "N"))])] ∧
    (Generics.mk [] []).receiver (ch! "Node") = node := ⟨rfl, rfl⟩

/-- A reading by which two types are the same when, with `Node` in the place of `Self`, the same paths begin in them. -/
def sameHeads (t u : STy) : Prop := ∀ v, tyHeads v (t.replace node) = tyHeads v (u.replace node)
/-- The same of expressions. -/
def sameExprHeads (e f : SExpr) : Prop := ∀ v, exprHeads v (e.replace node) = exprHeads v (f.replace node)

theorem same_tys {ts us : List STy} (h : Pointwise sameHeads ts us) (v : Bool) :
    tysHeads v (STy.replaceAll node ts) = tysHeads v (STy.replaceAll node us) := by
  induction h with
  | nil => rfl
  | cons h _ ih => rw [STy.replaceAll, STy.replaceAll, tysHeads, tysHeads, h v, ih]

theorem same_exprs {es fs : List SExpr} (h : Pointwise sameExprHeads es fs) (v : Bool) :
    exprsHeads v (SExpr.replaceAll node es) = exprsHeads v (SExpr.replaceAll node fs) := by
  induction h with
  | nil => rfl
  | cons h _ ih => rw [SExpr.replaceAll, SExpr.replaceAll, exprsHeads, exprsHeads, h v, ih]

theorem same_angle {as bs : List SArg} (h : Pointwise (SameArg sameHeads) as bs) (v : Bool) :
    angleHeads v (SArg.replaceAll node as) = angleHeads v (SArg.replaceAll node bs) := by
  induction h with
  | nil => rfl
  | cons h _ ih =>
    cases h with
    | type h => rw [SArg.replaceAll, SArg.replaceAll, angleHeads, angleHeads, h v, ih]
    | assoc h => rw [SArg.replaceAll, SArg.replaceAll, angleHeads, angleHeads, h v, ih]
    | refl => rename_i a _ _ _; cases a <;> rw [SArg.replaceAll, SArg.replaceAll, angleHeads, angleHeads, ih]

theorem same_args {a b : SArgs} (h : SameArgs sameHeads a b) (v : Bool) : argsHeads v (a.replace node) = argsHeads v (b.replace node) := by
  cases h with
  | none => rfl
  | angle h => rw [SArgs.replace, SArgs.replace, argsHeads, argsHeads, same_angle h v]
  | paren h => rw [SArgs.replace, SArgs.replace, argsHeads, argsHeads, same_tys h v]

theorem same_segs {as bs : List SSeg} (h : Pointwise (SameSeg sameHeads) as bs) :
    (SSeg.replaceAll node as).map SSeg.ident = (SSeg.replaceAll node bs).map SSeg.ident ∧
    (∀ v, segsHeads v (SSeg.replaceAll node as) = segsHeads v (SSeg.replaceAll node bs)) ∧
    (∀ v, segsHeads v ((SSeg.replaceAll node as).drop 1) = segsHeads v ((SSeg.replaceAll node bs).drop 1)) := by
  induction h with
  | nil => exact ⟨rfl, fun _ => rfl, fun _ => rfl⟩
  | cons h _ ih =>
    obtain ⟨h⟩ := h
    refine ⟨?_, fun v => ?_, fun v => ?_⟩
    · rw [SSeg.replaceAll, SSeg.replaceAll, List.map_cons, List.map_cons, ih.1]
      rfl
    · rw [SSeg.replaceAll, SSeg.replaceAll, segsHeads, segsHeads, same_args h v, ih.2.1 v]
    · rw [SSeg.replaceAll, SSeg.replaceAll, List.drop_succ_cons, List.drop_succ_cons, List.drop_zero, List.drop_zero, ih.2.1 v]

theorem node_heads (v : Bool) : pathHeads v true node = if v then [ch! "Node"] else [] := by cases v <;> rfl

/-- What `asType` makes of a path, in terms of its identifiers and of what stands in its arguments. -/
theorem asType_heads (v lead : Bool) (segs : List SSeg) : tyHeads v (SPath.asType node (.mk lead segs)) =
    if !lead ∧ (segs.map SSeg.ident).head? = some selfIdent then (if v then [ch! "Node"] else []) ++ segsHeads v (segs.drop 1)
    else (if v && true && !lead then (segs.map SSeg.ident).take 1 else []) ++ segsHeads v segs := by
  rcases SPath.asType_cases node (.mk lead segs) with ⟨a, e, e'⟩ | ⟨a, s, rest, e, e'⟩ | ⟨hn, e'⟩
  · cases e
    rw [if_pos ⟨rfl, rfl⟩]
    rcases e' with e' | e'
    · rw [e', tyHeads, node_heads]
      exact (List.append_nil _).symm
    · rw [e', tyHeads, turbofish_heads, node_heads]
      exact (List.append_nil _).symm
  · cases e
    rw [if_pos ⟨rfl, rfl⟩, e', tyHeads, tyHeads, node_heads, pathHeads_eq, Bool.and_false, Bool.false_and,
      if_neg Bool.false_ne_true, List.nil_append]
    rfl
  · rw [if_neg, e', tyHeads, pathHeads_eq]
    rintro ⟨hl, hi⟩
    cases lead with
    | true => cases hl
    | false =>
      match segs with
      | [] => cases hi
      | .mk i a :: rest =>
        have hi : i = selfIdent := Option.some.inj hi
        exact hn ⟨a, rest, by rw [hi]; rfl⟩

/-- The same of the path of an expression. -/
theorem asExpr_heads (v lead : Bool) (segs : List SSeg) :
    exprHeads v (SPath.asExpr node (.mk lead segs)) = tyHeads v (SPath.asType node (.mk lead segs)) := by
  rw [asType_heads]
  rcases SPath.asExpr_cases node (.mk lead segs) with ⟨a, e, e'⟩ | ⟨a, s, rest, e, e'⟩ | ⟨hn, e'⟩
  · cases e
    rw [if_pos ⟨rfl, rfl⟩, e', exprHeads, turbofish_heads, node_heads]
    exact (List.append_nil _).symm
  · cases e
    rw [if_pos ⟨rfl, rfl⟩, e', exprHeads, tyHeads, node_heads, pathHeads_eq, Bool.and_false, Bool.false_and,
      if_neg Bool.false_ne_true, List.nil_append]
    rfl
  · rw [if_neg, e', exprHeads, pathHeads_eq]
    rintro ⟨hl, hi⟩
    cases lead with
    | true => cases hl
    | false =>
      match segs with
      | [] => cases hi
      | .mk i a :: rest =>
        have hi : i = selfIdent := Option.some.inj hi
        exact hn ⟨a, rest, by rw [hi]; rfl⟩

theorem same_path {p q : SPath} (h : SamePath sameHeads p q) : sameHeads (.path p) (.path q) := by
  obtain ⟨h⟩ := h
  intro v
  obtain ⟨h1, h2, h3⟩ := same_segs h
  rw [STy.replace, STy.replace, asType_heads, asType_heads, h1, h2 v, h3 v]

theorem same_expr_path {p q : SPath} (h : SamePath sameHeads p q) : sameExprHeads (.path p) (.path q) := by
  have h' := same_path h
  obtain ⟨h⟩ := h
  intro v
  have := h' v
  rw [STy.replace, STy.replace] at this
  rw [SExpr.replace, SExpr.replace, asExpr_heads, asExpr_heads, this]

theorem same_bounds {ps qs : List SPath} (h : Pointwise (SamePath sameHeads) ps qs) (v : Bool) :
    boundsHeads v (STy.replaceBounds node ps) = boundsHeads v (STy.replaceBounds node qs) := by
  induction h with
  | nil => rfl
  | cons h _ ih =>
    obtain ⟨h⟩ := h
    rw [STy.replaceBounds, STy.replaceBounds, boundsHeads, boundsHeads, ih, pathHeads_eq, pathHeads_eq, (same_segs h).2.1 v,
      Bool.and_false, Bool.false_and, if_neg Bool.false_ne_true, if_neg Bool.false_ne_true]

/-- Such readings exist that tell types apart. -/
theorem sameHeads_reading : SelfReading node sameHeads sameExprHeads where
  refl _ _ := rfl
  trans _ _ _ h h' v := (h v).trans (h' v)
  group _ _ h v := by rw [STy.replace, STy.replace, tyHeads, tyHeads]; exact h v
  paren _ _ h v := by rw [STy.replace, STy.replace, tyHeads, tyHeads]; exact h v
  elem _ _ _ h v := by rw [STy.replace, STy.replace, tyHeads, tyHeads]; exact h v
  array _ _ _ _ h h' v := by rw [STy.replace, STy.replace, tyHeads, tyHeads, h v, h' v]
  func _ _ h v := by rw [STy.replace, STy.replace, tyHeads, tyHeads]; exact same_tys h v
  tuple _ _ h v := by rw [STy.replace, STy.replace, tyHeads, tyHeads]; exact same_tys h v
  traits _ _ _ h v := by rw [STy.replace, STy.replace, tyHeads, tyHeads]; exact same_bounds h v
  path _ _ h := same_path h
  qpath _ _ _ _ h h' v := by
    obtain ⟨h'⟩ := h'
    rw [STy.replace, STy.replace, tyHeads, tyHeads, h v, pathHeads_eq, pathHeads_eq, (same_segs h').2.1 v,
      Bool.and_false, Bool.false_and, if_neg Bool.false_ne_true, if_neg Bool.false_ne_true]
  isSelf a v := by
    rw [STy.replace, SSeg.replaceAll, SSeg.replaceAll, asType_heads, if_pos ⟨rfl, rfl⟩]
    cases v <;> rfl
  ofSelf a s rest v := by
    obtain ⟨i, b⟩ := s
    rw [STy.replace, SSeg.replaceAll, asType_heads, if_pos ⟨rfl, rfl⟩, STy.replace, tyHeads, pathHeads_eq, Bool.and_false, Bool.false_and,
      if_neg Bool.false_ne_true, List.nil_append]
    cases v <;> rfl
  erefl _ _ := rfl
  etrans _ _ _ h h' v := (h v).trans (h' v)
  binary _ _ _ _ _ h h' v := by rw [SExpr.replace, SExpr.replace, exprHeads, exprHeads, h v, h' v]
  call _ _ _ _ h h' v := by rw [SExpr.replace, SExpr.replace, exprHeads, exprHeads, h v, same_exprs h' v]
  cast _ _ _ _ h h' v := by rw [SExpr.replace, SExpr.replace, exprHeads, exprHeads, h v, h' v]
  field _ _ _ h v := by rw [SExpr.replace, SExpr.replace, exprHeads, exprHeads, h v]
  index _ _ _ _ h h' v := by rw [SExpr.replace, SExpr.replace, exprHeads, exprHeads, h v, h' v]
  eparen _ _ h v := by rw [SExpr.replace, SExpr.replace, exprHeads, exprHeads, h v]
  unary _ _ _ h v := by rw [SExpr.replace, SExpr.replace, exprHeads, exprHeads, h v]
  epath _ _ h := same_expr_path h
  eqpath _ _ _ _ h h' v := by
    obtain ⟨h'⟩ := h'
    rw [SExpr.replace, SExpr.replace, exprHeads, exprHeads, h v, pathHeads_eq, pathHeads_eq, (same_segs h').2.1 v,
      Bool.and_false, Bool.false_and, if_neg Bool.false_ne_true, if_neg Bool.false_ne_true]
  eisSelf a v := by
    rw [SExpr.replace, SSeg.replaceAll, SSeg.replaceAll, asExpr_heads, asType_heads, if_pos ⟨rfl, rfl⟩]
    cases v <;> rfl
  eofSelf a s rest v := by
    obtain ⟨i, b⟩ := s
    rw [SExpr.replace, SSeg.replaceAll, asExpr_heads, asType_heads, if_pos ⟨rfl, rfl⟩, SExpr.replace, exprHeads, pathHeads_eq,
      Bool.and_false, Bool.false_and, if_neg Bool.false_ne_true, List.nil_append]
    cases v <;> rfl

/-- By that reading `Self` is `Node` and not `u8`. -/
example : sameHeads (.ident selfIdent) (.path node) ∧ ¬ sameHeads (.ident selfIdent) (.ident (ch! "u8")) :=
  ⟨fun v => by cases v <;> rfl, fun h => absurd (h true) (by decide)⟩

/-- **C79** fails for `Self` in a constant given as an argument: `Grid<{ Self::N }>` stays as it is, in every struct. -/
theorem C79_no_self_false (self : SPath) : ∃ t : STy,
    t = .path (.mk false [.mk (ch! "Grid") (.angle false [.const (.other [ch! "Self", ch! "N"])])]) ∧
    t.replace self = t ∧ ¬ SelfFree (t.replace self) :=
  ⟨_, rfl, rfl, fun h => h.2 (List.mem_cons_self ..)⟩

end Props

end Klick
