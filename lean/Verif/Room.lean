import Verif.ConvertLemmas
import Verif.Spec.Size
/-
How many bytes the readers take for what they return (C89, C07).
-/
namespace Klick
open Spec

/-- Whatever the reader returns stands in relation `P` to the number of bytes it took. -/
def Takes {α : Type} (P : α → Nat → Prop) (x : Rd α) : Prop :=
  ∀ s a s', x s = .ok (a, s') → ∃ c, s = c ++ s' ∧ P a c.length

namespace Takes
variable {α β : Type}

theorem mono {P Q : α → Nat → Prop} {x : Rd α} (h : Takes P x) (hpq : ∀ a c, P a c → Q a c) : Takes Q x := by
  intro s a s' hs
  obtain ⟨c, h1, h2⟩ := h s a s' hs
  exact ⟨c, h1, hpq _ _ h2⟩

theorem also {P : α → Nat → Prop} {Q : α → Prop} {x : Rd α} (h : Takes P x) (hq : ∀ s a s', x s = .ok (a, s') → Q a) :
    Takes (fun a c => P a c ∧ Q a) x := by
  intro s a s' hs
  obtain ⟨c, h1, h2⟩ := h s a s' hs
  exact ⟨c, h1, h2, hq s a s' hs⟩

theorem pure {P : α → Nat → Prop} {a : α} (h : P a 0) : Takes P (Pure.pure a : Rd α) := by
  intro s b s' hs
  simp only [Rd.pure_apply, Res.ok.injEq, Prod.mk.injEq] at hs
  exact ⟨[], by simp [hs.2], by rw [← hs.1]; exact h⟩

theorem fail {P : α → Nat → Prop} {e : Err} : Takes P (Rd.fail e : Rd α) := by
  intro s b s' hs; cases hs

theorem panic {P : α → Nat → Prop} : Takes P (Rd.panic : Rd α) := by
  intro s b s' hs; cases hs

theorem lift {P : α → Nat → Prop} {r : Res α} (h : ∀ a, r = .ok a → P a 0) : Takes P (Rd.lift r) := by
  intro s b s' hs
  obtain ⟨h1, h2⟩ := Rd.lift_eq_ok hs
  exact ⟨[], by simp [h2], h _ h1⟩

theorem bind {P : α → Nat → Prop} {Q : α → β → Nat → Prop} {R : β → Nat → Prop} {x : Rd α} {f : α → Rd β} (hx : Takes P x)
    (hf : ∀ a, Takes (Q a) (f a)) (h : ∀ a b i j, P a i → Q a b j → R b (i + j)) : Takes R (x >>= f) := by
  intro s b s' hs
  rw [Rd.bind_eq_ok] at hs
  obtain ⟨a, s1, h1, h2⟩ := hs
  obtain ⟨c1, e1, p1⟩ := hx _ _ _ h1
  obtain ⟨c2, e2, p2⟩ := hf a _ _ _ h2
  exact ⟨c1 ++ c2, by rw [e1, e2, List.append_assoc], by rw [List.length_append]; exact h _ _ _ _ p1 p2⟩

theorem map {P : α → Nat → Prop} {R : β → Nat → Prop} {x : Rd α} {g : α → β} (hx : Takes P x) (h : ∀ a i, P a i → R (g a) i) :
    Takes R (x >>= fun a => Pure.pure (g a)) :=
  bind (Q := fun a b j => b = g a ∧ j = 0) hx (fun _ => pure ⟨rfl, rfl⟩) (by rintro a b i j hp ⟨rfl, rfl⟩; exact h _ _ hp)

theorem ite {P : α → Nat → Prop} {p : Prop} [Decidable p] {x y : Rd α} (hx : p → Takes P x) (hy : ¬ p → Takes P y) :
    Takes P (if p then x else y) := by
  split
  · exact hx ‹_›
  · exact hy ‹_›

theorem guard {P : α → Nat → Prop} {n : Nat} {x : Rd α} (hx : Takes P x) : Takes P (guardRows n x) := ite (fun _ => fail) (fun _ => hx)

theorem rep {P : α → Nat → Prop} {R : List α → Nat → Prop} {x : Rd α} (hx : Takes P x) (h0 : R [] 0)
    (h : ∀ a as i j, P a i → R as j → R (a :: as) (i + j)) (n : Nat) : Takes (fun as c => R as c ∧ as.length = n) (Rd.rep n x) := by
  refine also ?_ (fun s a s' hs => rep_length hs)
  induction n with
  | zero => exact pure h0
  | succ n ih =>
    refine bind hx (fun a => map (R := fun as j => ∃ r, as = a :: r ∧ R r j) ih (fun as i hr => ⟨as, rfl, hr⟩)) ?_
    rintro a b i j hp ⟨r, rfl, hr⟩
    exact h _ _ _ _ hp hr

theorem exact (n : Nat) : Takes (fun b c => b.length = n ∧ c = n) (readExact n) := by
  intro s a s' hs
  obtain ⟨h1, h2⟩ := readExact_ok hs
  exact ⟨a, h1, h2, h2⟩

theorem u64 : Takes (fun _ c => c = 8) readU64 := map (exact 8) (fun _ _ h => h.2)

theorem le (n w : Nat) : Takes (fun _ c => c = n) (readLe n w) := map (exact n) (fun _ _ h => h.2)

theorem varUint : Takes (fun _ c => 1 ≤ c) readVarUint := by
  intro s a s' hs
  obtain ⟨c, h1, h2, _⟩ := readVarUint_ok hs
  exact ⟨c, h1, h2⟩

theorem string : Takes (fun b c => 1 + b.length ≤ c) readString :=
  bind (Q := fun _ b j => b.length ≤ j) varUint
    (fun n => ite (fun _ => fail) (fun _ => ite (fun _ => pure (Nat.zero_le _)) (fun _ => mono (exact n) (fun _ _ h => by omega))))
    (fun _ _ _ _ h1 h2 => by omega)

end Takes

/-! ### Weights -/

section
variable {text : Bytes → Nat}

theorem weighAll_append (xs ys : List Value) : weighAll text (xs ++ ys) = weighAll text xs + weighAll text ys := by
  induction xs with
  | nil => simp [weighAll]
  | cons x xs ih => simp only [List.cons_append, weighAll, ih]; omega

theorem weighAll_take_drop (n : Nat) (xs : List Value) : weighAll text (xs.take n) + weighAll text (xs.drop n) = weighAll text xs := by
  rw [← weighAll_append, List.take_append_drop]

theorem weigh_pos (ht : ∀ b, 1 ≤ text b) (v : Value) : 1 ≤ weigh text v := by
  cases v <;> simp only [weigh] <;> first | exact ht _ | omega

/-- The sum over lists of values. -/
def weighRows (text : Bytes → Nat) : List (List Value) → Nat
  | [] => 0
  | r :: rs => weighAll text r + weighRows text rs

theorem weighAll_arrays (xss : List (List Value)) : weighAll text (xss.map .array) = xss.length + weighRows text xss := by
  induction xss with
  | nil => rfl
  | cons x xss ih => simp only [List.map_cons, weighAll, weigh, ih, weighRows, List.length_cons]; omega

theorem weighAll_tuples (xss : List (List Value)) : weighAll text (xss.map .tuple) = xss.length + weighRows text xss := by
  induction xss with
  | nil => rfl
  | cons x xss ih => simp only [List.map_cons, weighAll, weigh, ih, weighRows, List.length_cons]; omega

theorem splitOffsets_weigh {cfg : Cfg} (os : List Nat) : ∀ (prev : Nat) (items : List Value) (r : List (List Value)),
    splitOffsets cfg prev os items = .ok r → weighRows text r ≤ weighAll text items := by
  induction os with
  | nil => intro p i r h; simp only [splitOffsets, Res.ok.injEq] at h; rw [← h]; exact Nat.zero_le _
  | cons o os ih =>
    intro p i r h
    have key : ∀ len, (splitOffsets cfg o os (i.drop len) >>= fun r => .ok (i.take len :: r)) = .ok r →
        weighRows text r ≤ weighAll text i := by
      intro len h
      rw [Res.bind_eq_ok] at h
      obtain ⟨r', h1, h2⟩ := h
      simp only [Res.ok.injEq] at h2
      rw [← h2, ← weighAll_take_drop len i, weighRows]
      have := ih _ _ _ h1
      omega
    simp only [splitOffsets] at h
    split at h
    · split at h
      · cases h
      · exact key _ h
    · exact key _ h

theorem splitMap_weigh (os : List Nat) : ∀ (prev : Nat) (ks vs r : List Value),
    splitMap prev os ks vs = .ok r → weighAll text r ≤ os.length + weighAll text ks + weighAll text vs := by
  induction os with
  | nil => intro p k v r h; simp only [splitMap, Res.ok.injEq] at h; rw [← h]; exact Nat.zero_le _
  | cons o os ih =>
    intro p k v r h
    simp only [splitMap] at h
    split at h
    · cases h
    · rw [Res.bind_eq_ok] at h
      obtain ⟨r', h1, h2⟩ := h
      simp only [Res.ok.injEq] at h2
      have := ih _ _ _ _ h1
      rw [← h2, ← weighAll_take_drop (o - p) k, ← weighAll_take_drop (o - p) v, weighAll, weigh, List.length_cons]
      omega

theorem applyMask_weigh (ht : ∀ b, 1 ≤ text b) (ms : List Byte) : ∀ (vs r : List Value),
    applyMask ms vs = .ok r → weighAll text r ≤ weighAll text vs := by
  induction ms with
  | nil => intro vs r h; simp only [applyMask, Res.ok.injEq] at h; rw [h]; exact Nat.le_refl _
  | cons m ms ih =>
    intro vs r h
    cases vs with
    | nil =>
      simp only [applyMask] at h
      split at h
      · cases h
      · exact ih _ _ h
    | cons v vs =>
      simp only [applyMask] at h
      rw [Res.bind_eq_ok] at h
      obtain ⟨r', h1, h2⟩ := h
      simp only [Res.ok.injEq] at h2
      have := ih _ _ h1
      have := weigh_pos ht v
      rw [← h2]
      simp only [weighAll]
      split
      · simp only [weigh]; omega
      · omega

theorem pushCol_weigh (acc : List (List Value)) : ∀ (vs : List Value) (r : List (List Value)),
    pushCol acc vs = .ok r → weighRows text r = weighRows text acc + weighAll text vs := by
  induction acc with
  | nil =>
    intro vs r h
    cases vs with
    | nil => simp only [pushCol, Res.ok.injEq] at h; rw [← h]; rfl
    | cons => cases h
  | cons a acc ih =>
    intro vs r h
    cases vs with
    | nil => simp only [pushCol, Res.ok.injEq] at h; rw [← h]; simp [weighAll]
    | cons v vs =>
      simp only [pushCol, Res.bind_eq_ok] at h
      obtain ⟨r', h1, h2⟩ := h
      simp only [Res.ok.injEq] at h2
      rw [← h2, weighRows, weighRows, ih _ _ h1, weighAll_append, weighAll, weighAll, weighAll]
      omega

theorem weighRows_replicate (n : Nat) : weighRows text (List.replicate n []) = 0 := by
  induction n with
  | zero => rfl
  | succ n ih => rw [List.replicate_succ, weighRows, ih]; rfl

/-! ### Columns -/

/-- What is shown of a column of `n` rows: at least a byte for each row, and a bounded weight for each byte. -/
def Fair1 (text : Bytes → Nat) (k n : Nat) (vs : List Value) (c : Nat) : Prop := n ≤ c ∧ weighAll text vs ≤ k * c

theorem rep_fair {x : Rd Value} (h : Takes (fun v c => 1 ≤ c ∧ weigh text v ≤ 2 * c) x) (n : Nat) :
    Takes (Fair1 text 2 n) (Rd.rep n x) :=
  Takes.mono (Takes.rep (R := fun vs c => vs.length ≤ c ∧ weighAll text vs ≤ 2 * c) h ⟨Nat.le_refl _, Nat.zero_le _⟩
    (fun a as i j h1 h2 => by simp only [List.length_cons, weighAll]; omega) n)
    (fun vs c h => ⟨by omega, h.1.2⟩)

theorem deArr_takes {α : Type} {cfg : Cfg} {w : List α → Nat} {ws : List (List α) → Nat} {k : Nat} (hk : 1 ≤ k)
    {inner : Nat → Rd (List α)} (hw : ws [] = 0)
    (hi : ∀ n, Takes (fun xs c => w xs ≤ k * c) (inner n))
    (hs : ∀ os prev items r, splitOffsets cfg prev os items = .ok r → ws r ≤ w items) (n : Nat) :
    Takes (fun xss c => n ≤ c ∧ n + ws xss ≤ k * c) (deArr cfg inner n) := by
  unfold deArr
  refine Takes.ite (fun h => Takes.pure (by simp [h, hw])) (fun _ => ?_)
  refine Takes.bind (Takes.rep (R := fun os c => 8 * os.length = c) Takes.u64 rfl
    (fun a as i j h1 h2 => by simp only [List.length_cons]; omega) n)
    (fun os => Takes.bind (R := fun xss c => ws xss ≤ k * c) (hi _)
      (fun items => Takes.lift (P := fun xss c => c = 0 ∧ ws xss ≤ w items) (fun r hr => ⟨rfl, hs _ _ _ _ hr⟩))
      (by rintro items xss i j h1 ⟨rfl, h2⟩; exact Nat.le_trans h2 h1)) ?_
  rintro os xss i j ⟨h1, h2⟩ h3
  have : i ≤ k * i := Nat.le_mul_of_pos_left i (by omega)
  rw [Nat.mul_add]
  omega

end
end Klick
