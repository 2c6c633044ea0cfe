import Verif.Spec.Depth
import Verif.TypeTextMain
/-
C93: how deeply nested a type a server can make the client build.
-/
namespace Klick.Props
open Klick Spec

theorem parseArgs_room {cfg : Cfg} {s : Str} {l : List Str} (h : parseArgs cfg s = .ok l) :
    ∀ a ∈ l, a.length + 2 ≤ s.length ∨ a.length + s.length ≤ 1 := by
  unfold parseArgs at h
  split at h
  · intro a ha
    have h1 := argLoop_length h a ha
    have h2 := trim_length_le ((s.drop 1).dropLast)
    simp at h1 h2
    omega
  · cases h

theorem depths_le {n : Nat} : ∀ {ts : List Ty}, (∀ t ∈ ts, depth t ≤ n) → depths ts ≤ n
  | [], _ => Nat.zero_le _
  | t :: ts, h => by
    have h1 := h t (by simp)
    have h2 := depths_le (ts := ts) (fun u hu => h u (by simp [hu]))
    simp only [depths]; omega

theorem mapL_ok_mem {α β : Type} {f : α → Res β} : ∀ {xs : List α} {ys : List β}, Res.mapL f xs = .ok ys → ∀ y ∈ ys, ∃ x ∈ xs, f x = .ok y
  | [], ys, h, y, hy => by cases h; cases hy
  | x :: xs, ys, h, y, hy => by
    simp only [Res.mapL, Res.bind_eq_ok] at h
    obtain ⟨z, h1, zs, h2, h3⟩ := h
    cases h3
    rcases List.mem_cons.mp hy with rfl | hy
    · exact ⟨x, by simp, h1⟩
    · obtain ⟨w, hw, h⟩ := mapL_ok_mem h2 y hy
      exact ⟨w, by simp [hw], h⟩

/-- A name with arguments is at most one level deeper than the types among its arguments, and if it is any
deeper it has three letters at least. -/
theorem withArgs_depth {cfg : Cfg} {rec : Str → Res Ty} {ident : Str} {args : List Str} {t : Ty} {n : Nat}
    (h : withArgs cfg rec ident args = .ok t) (hr : ∀ a ∈ args, ∀ u, rec a = .ok u ∨ rec (trim a) = .ok u → depth u ≤ n) :
    depth t = 0 ∨ (3 ≤ ident.length ∧ depth t ≤ 1 + n) := by
  have num1 : ∀ {a : Str} {f : Nat → Ty}, (parseNum a >>= fun s => Res.ok (f s)) = .ok t → ∃ s, f s = t := by
    intro a f h
    rw [Res.bind_eq_ok] at h
    obtain ⟨s, _, h⟩ := h
    cases h; exact ⟨s, rfl⟩
  have rec1 : ∀ {a : Str} {f : Ty → Ty}, a ∈ args → (rec a >>= fun t => Res.ok (f t)) = .ok t → ∃ u, depth u ≤ n ∧ f u = t := by
    intro a f ha h
    rw [Res.bind_eq_ok] at h
    obtain ⟨u, h1, h⟩ := h
    cases h; exact ⟨u, hr a ha u (.inl h1), rfl⟩
  unfold withArgs at h
  rcases ite_cases h with ⟨_, h⟩ | ⟨_, h⟩
  · split at h
    · rw [Res.bind_eq_ok] at h
      obtain ⟨p, _, h⟩ := h
      rw [Res.bind_eq_ok] at h
      obtain ⟨s, _, h⟩ := h
      left
      repeat' (split at h; · cases h; rfl)
      cases h
    · cases h
  rcases ite_cases h with ⟨_, h⟩ | ⟨_, h⟩
  · split at h
    · obtain ⟨s, rfl⟩ := num1 h; exact .inl rfl
    · cases h
  rcases ite_cases h with ⟨_, h⟩ | ⟨_, h⟩
  · split at h
    · obtain ⟨s, rfl⟩ := num1 h; exact .inl rfl
    · cases h
  rcases ite_cases h with ⟨_, h⟩ | ⟨_, h⟩
  · split at h
    · obtain ⟨s, rfl⟩ := num1 h; exact .inl rfl
    · cases h
  rcases ite_cases h with ⟨_, h⟩ | ⟨_, h⟩
  · split at h
    · obtain ⟨s, rfl⟩ := num1 h; exact .inl rfl
    · cases h
  rcases ite_cases h with ⟨_, h⟩ | ⟨_, h⟩
  · split at h
    · obtain ⟨s, rfl⟩ := num1 h; exact .inl rfl
    · cases h
  rcases ite_cases h with ⟨_, h⟩ | ⟨_, h⟩
  · split at h
    · rw [Res.bind_eq_ok] at h
      obtain ⟨p, _, h⟩ := h
      cases h; exact .inl rfl
    · cases h
  rcases ite_cases h with ⟨_, h⟩ | ⟨_, h⟩
  · split at h
    · rw [Res.bind_eq_ok] at h
      obtain ⟨p, _, h⟩ := h
      rw [Res.bind_eq_ok] at h
      obtain ⟨s, _, h⟩ := h
      split at h
      · cases h; exact .inl rfl
      · cases h
    · obtain ⟨s, rfl⟩ := num1 h; exact .inl rfl
    · cases h
  rcases ite_cases h with ⟨_, h⟩ | ⟨_, h⟩
  · rw [Res.bind_eq_ok] at h
    obtain ⟨p, _, h⟩ := h
    cases h; exact .inl rfl
  rcases ite_cases h with ⟨_, h⟩ | ⟨_, h⟩
  · rw [Res.bind_eq_ok] at h
    obtain ⟨p, _, h⟩ := h
    cases h; exact .inl rfl
  rcases ite_cases h with ⟨hi, h⟩ | ⟨_, h⟩
  · split at h
    · obtain ⟨u, hu, rfl⟩ := rec1 (by simp) h
      exact .inr ⟨by rw [hi]; decide, by simp only [depth]; omega⟩
    · cases h
  rcases ite_cases h with ⟨hi, h⟩ | ⟨_, h⟩
  · split at h
    · obtain ⟨u, hu, rfl⟩ := rec1 (by simp) h
      exact .inr ⟨by rw [hi]; decide, by simp only [depth]; omega⟩
    · cases h
  rcases ite_cases h with ⟨_, h⟩ | ⟨_, h⟩
  · cases h
  rcases ite_cases h with ⟨hi, h⟩ | ⟨_, h⟩
  · rw [Res.bind_eq_ok] at h
    obtain ⟨ts, h1, h⟩ := h
    cases h
    refine .inr ⟨by rw [hi]; decide, ?_⟩
    have : depths ts ≤ n := depths_le (fun u hu => by
      obtain ⟨a, ha, h⟩ := mapL_ok_mem h1 u hu
      exact hr a ha u (.inr h))
    simp only [depth]; omega
  rcases ite_cases h with ⟨hi, h⟩ | ⟨_, h⟩
  · split at h
    · obtain ⟨u, hu, rfl⟩ := rec1 (by simp) h
      exact .inr ⟨by rw [hi]; decide, by simp only [depth]; omega⟩
    · cases h
  rcases ite_cases h with ⟨hi, h⟩ | ⟨_, h⟩
  · split at h
    · rw [Res.bind_eq_ok] at h
      obtain ⟨k, h1, h⟩ := h
      obtain ⟨v, hv, rfl⟩ := rec1 (by simp) h
      have hk := hr _ (by simp) k (.inl h1)
      exact .inr ⟨by rw [hi]; decide, by simp only [depth]; omega⟩
    · cases h
  · cases h

theorem ite_depth {p : Prop} [Decidable p] {a b : Res Ty} (ha : ∀ t, a = .ok t → depth t = 0)
    (hb : ∀ t, b = .ok t → depth t = 0) : ∀ t, (if p then a else b) = .ok t → depth t = 0 := by
  intro t h
  rcases ite_cases h with ⟨_, h⟩ | ⟨_, h⟩
  · exact ha t h
  · exact hb t h

theorem noArgs_depth (cfg : Cfg) (ident : Str) : ∀ t, noArgs cfg ident = .ok t → depth t = 0 := by
  unfold noArgs
  repeat' (apply ite_depth)
  all_goals (intro t h; cases h <;> rfl)

theorem parse_depth (cfg : Cfg) : ∀ (n : Nat) (s : Str), s.length ≤ n → ∀ t, Ty.parse cfg s = .ok t → 5 * depth t ≤ s.length := by
  intro n
  induction n with
  | zero =>
    intro s hn t h
    have : s = [] := List.length_eq_zero_iff.mp (by omega)
    subst this
    cases h
  | succ n ih =>
    intro s hn t h
    rw [parse_unfold] at h
    unfold parseStep at h
    dsimp only at h
    split at h
    · cases h
    · split at h
      · have := noArgs_depth _ _ _ h; omega
      · rw [Res.bind_eq_ok] at h
        obtain ⟨args, ha, h⟩ := h
        have h2 := trim_length_le (eatIdent cfg s).2
        have h3 := congrArg List.length (eatIdent_append cfg s)
        simp at h3
        have hroom := parseArgs_room ha
        have hlen := parseArgs_length ha
        have := withArgs_depth (n := ((trim (eatIdent cfg s).2).length - 2) / 5) h (fun a hm u hu => by
          have h4 := trim_length_le a
          have h5 := hlen a hm
          have h6 := hroom a hm
          rcases hu with hu | hu
          · have := ih a (by omega) u hu; omega
          · have := ih (trim a) (by omega) u hu; omega)
        rcases this with h7 | ⟨h7, h8⟩
        · omega
        · have : 2 ≤ (trim (eatIdent cfg s).2).length := by
            unfold parseArgs at ha
            split at ha
            · rename_i hc
              match trim (eatIdent cfg s).2, hc with
              | [], hc => simp at hc
              | [x], hc => simp at hc; obtain ⟨e1, e2⟩ := hc; subst e1; exact absurd e2 (by decide)
              | _ :: _ :: _, _ => simp
            · cases ha
          omega

/-- C93, what holds: a type is nested at most a fifth as deeply as its name is long, so a name of `n`
characters costs a recursion of at most `n / 5` steps, in reading the name and in every function on the
type. Missing: a bound that does not depend on the name, which there is none (`C93_unbounded_false`). -/
theorem C93_depth_partial (cfg : Cfg) (s : Str) (t : Ty) (h : Ty.parse cfg s = .ok t) : 5 * depth t ≤ s.length :=
  parse_depth cfg s.length s (Nat.le_refl _) t h

theorem arrays_ok (cfg : Cfg) : ∀ n, TextOk cfg (arrays n)
  | 0 => trivial
  | n + 1 => arrays_ok cfg n

theorem arrays_depth : ∀ n, depth (arrays n) = n
  | 0 => rfl
  | n + 1 => by simp only [arrays, depth, arrays_depth n]; omega

theorem arrays_length : ∀ n, (arrays n).display.length = 7 * n + 6
  | 0 => rfl
  | n + 1 => by
    have := arrays_length n
    simp [arrays, Ty.display, this]; omega

/-- C93 is false of the code: nothing bounds the nesting. For every depth there is a name of seven characters
a level that is accepted, whatever the build; so a server can make the client recurse as deeply as it
likes. A name may have 2^30 bytes. -/
theorem C93_unbounded_false (cfg : Cfg) (n : Nat) :
    ∃ s t, Ty.parse cfg s = .ok t ∧ depth t = n ∧ s.length = 7 * n + 6 :=
  ⟨_, arrays n, (rendered cfg _ (arrays_ok cfg n)).parse, arrays_depth n, arrays_length n⟩

/-- It need not even fail later: the type passes validation. -/
theorem C93_validated (n : Nat) : (arrays n).validate = true := by
  induction n with
  | zero => rfl
  | succ n ih => simpa [arrays, Ty.validate] using ih

example : Ty.parse ⟨true, false, fun _ => true, fun _ => false, fun _ => false⟩ (ch! "Map(String, Array(UInt8))") =
    .ok (.map .string (.array .uint8)) := rfl

end Klick.Props
