import Verif.Props.MigrateEnd
/-
C94, what is not so: a batch of migrations may wait forever although every competitor finishes and every sleep ends; and a batch that
finds the lock left behind by a dead holder.
-/
namespace Klick
open Spec

namespace Props

/-- The migrator of the examples. -/
def plainMig : Migrator := ⟨none, 0⟩

/-- One round of an unlucky schedule: batch `j` takes the lock, batch 0 tries in vain, batch `j` runs to its end, batch 0's sleep ends,
it resets the lock, and the next batch is faster. -/
def starve (j : Nat) : Nat → CloudStep
  | 0 => .callMigrate plainMig []
  | 1 => .start j
  | 2 => .serve j (.runs [] [] (.ok ()))
  | 3 => .recv j
  | 4 => .start 0
  | 5 => .serve 0 (.runs [] [] (.ok ()))
  | 6 => .recv 0
  | 7 => .start j
  | 8 => .serve j (.runs [] [] (.ok ()))
  | 9 => .recv j
  | 10 => .tick 250
  | 11 => .wake 0
  | 12 => .start 0
  | 13 => .serve 0 (.runs [] [] (.ok ()))
  | _ => .recv 0

/-- The unlucky schedule: batch 0 is called, a minute passes before its first attempt, then rounds. -/
def starveStep : Nat → CloudStep
  | 0 => .callMigrate plainMig []
  | 1 => .tick 60001
  | n + 2 => starve (n / 15 + 1) (n % 15)

/-- Its states. -/
def starveState : Nat → Cloud
  | 0 => Cloud.init
  | n + 1 => (starveState n).step (fun _ => []) (starveStep n)

/-- The schedule as a whole. -/
def starveSchedule : Schedule (fun _ => []) where
  state := starveState
  step := starveStep
  start := rfl
  next := fun _ => rfl

/-- Batch 0 at an attempt. -/
def trying : Pc := .mig plainMig (.acquire 0 [])
/-- Batch 0 asleep. -/
def pausing (now : Nat) : Pc := .mig plainMig (.pause 0 (now + 250) [])
/-- Batch 0 resetting the lock. -/
def forcing : Pc := .mig plainMig (.force 0 [])
/-- A competitor at its end. -/
def finished : Task := ⟨.mig plainMig (.done (.ok 0)), .ready⟩
/-- The table in question. -/
def migTable : Str := lockTable plainMig.lock

/-- Batch 0, the competitor, the clock and the tables after `r` steps of a round. -/
def starveShape (c : Cloud) (now : Nat) (rest : List Task) : Nat → Prop
  | 0 => c.now = now ∧ c.tables = [] ∧ c.tasks = ⟨trying, .ready⟩ :: rest
  | 1 => Shape c now [] ⟨trying, .ready⟩ rest ⟨.mig plainMig (.acquire now []), .ready⟩
  | 2 => Shape c now [] ⟨trying, .ready⟩ rest ⟨.mig plainMig (.acquire now []), .sent⟩
  | 3 => Shape c now [migTable] ⟨trying, .ready⟩ rest ⟨.mig plainMig (.acquire now []), .answered (.ok ())⟩
  | 4 => Shape c now [migTable] ⟨trying, .ready⟩ rest ⟨.mig plainMig (.finish 0), .ready⟩
  | 5 => Shape c now [migTable] ⟨trying, .sent⟩ rest ⟨.mig plainMig (.finish 0), .ready⟩
  | 6 => Shape c now [migTable] ⟨trying, .answered (.error refusal)⟩ rest ⟨.mig plainMig (.finish 0), .ready⟩
  | 7 => Shape c now [migTable] ⟨pausing now, .ready⟩ rest ⟨.mig plainMig (.finish 0), .ready⟩
  | 8 => Shape c now [migTable] ⟨pausing now, .ready⟩ rest ⟨.mig plainMig (.finish 0), .sent⟩
  | 9 => Shape c now [] ⟨pausing now, .ready⟩ rest ⟨.mig plainMig (.finish 0), .answered (.ok ())⟩
  | 10 => Shape c now [] ⟨pausing now, .ready⟩ rest finished
  | 11 => Shape c (now + 250) [] ⟨pausing now, .ready⟩ rest finished
  | 12 => Shape c (now + 250) [] ⟨forcing, .ready⟩ rest finished
  | 13 => Shape c (now + 250) [] ⟨forcing, .sent⟩ rest finished
  | 14 => Shape c (now + 250) [] ⟨forcing, .answered (.ok ())⟩ rest finished
  | _ => c.now = now + 250 ∧ c.tables = [] ∧ c.tasks = ⟨trying, .ready⟩ :: (rest ++ [finished])

theorem starve_round (c : Cloud) (hd : c.dead = []) (now : Nat) (hnow : 60000 < now) (rest : List Task) (r : Nat) (hr : r < 15) (h : starveShape c now rest r) :
    starveShape (c.step (fun _ => []) (starve (rest.length + 1) r)) now rest (r + 1) := by
  match r, hr, h with
  | 0, _, h =>
    obtain ⟨h1, h2, h3⟩ := h
    refine ⟨h1, h2, ?_⟩
    show c.tasks ++ [⟨.mig plainMig (.acquire c.now []), .ready⟩] = _
    rw [h3, h1]; rfl
  | 1, _, h =>
    have h : Shape c now _ _ rest _ := h
    show Shape (c.step _ (.start _)) _ _ _ _ _
    simp only [Cloud.step, h.snd, Pc.request, Option.isSome_some, if_true, hd, if_neg (cut_nil _)]
    exact ⟨h.1, h.2.1, h.set_snd _⟩
  | 2, _, h =>
    have h : Shape c now _ _ rest _ := h
    show Shape (c.step _ (.serve _ _)) _ _ _ _ _
    simp only [Cloud.step, h.snd, Pc.request, Cloud.served, hd, if_neg (cut_nil _), run_create, h.2.1]
    exact ⟨h.1, rfl, h.set_snd _⟩
  | 3, _, h =>
    have h : Shape c now _ _ rest _ := h
    show Shape (c.step _ (.recv _)) _ _ _ _ _
    simp only [Cloud.step, h.snd, Pc.request, Cloud.received, Pc.resume, Attempt.of, List.map_nil, List.append_nil]
    exact ⟨h.1, h.2.1, h.set_snd _⟩
  | 4, _, h =>
    have h : Shape c now _ _ rest _ := h
    show Shape (c.step _ (.start _)) _ _ _ _ _
    simp only [Cloud.step, h.fst, trying, Pc.request, Option.isSome_some, if_true, hd, if_neg (cut_nil _)]
    exact ⟨h.1, h.2.1, h.set_fst _⟩
  | 5, _, h =>
    have h : Shape c now _ _ rest _ := h
    show Shape (c.step _ (.serve _ _)) _ _ _ _ _
    simp only [Cloud.step, h.fst, trying, Pc.request, Cloud.served, hd, if_neg (cut_nil _), run_create, h.2.1, migTable, List.mem_singleton, if_true]
    exact ⟨h.1, rfl, h.set_fst _⟩
  | 6, _, h =>
    have h : Shape c now _ _ rest _ := h
    show Shape (c.step _ (.recv _)) _ _ _ _ _
    have hb : Attempt.of (.error refusal) = .busy := attempt_busy [] []
    simp only [Cloud.step, h.fst, trying, Pc.request, Cloud.received, Pc.resume, hb, List.map_nil, List.append_nil]
    refine ⟨h.1, h.2.1, ?_⟩
    rw [← h.1]
    exact h.set_fst _
  | 7, _, h =>
    have h : Shape c now _ _ rest _ := h
    show Shape (c.step _ (.start _)) _ _ _ _ _
    simp only [Cloud.step, h.snd, Pc.request, Option.isSome_some, if_true, hd, if_neg (cut_nil _)]
    exact ⟨h.1, h.2.1, h.set_snd _⟩
  | 8, _, h =>
    have h : Shape c now _ _ rest _ := h
    show Shape (c.step _ (.serve _ _)) _ _ _ _ _
    simp only [Cloud.step, h.snd, Pc.request, Cloud.served, hd, if_neg (cut_nil _), run_drop, h.2.1]
    exact ⟨h.1, by simp [migTable], h.set_snd _⟩
  | 9, _, h =>
    have h : Shape c now _ _ rest _ := h
    show Shape (c.step _ (.recv _)) _ _ _ _ _
    simp only [Cloud.step, h.snd, Pc.request, Cloud.received, Pc.resume, List.map_nil, List.append_nil]
    exact ⟨h.1, h.2.1, h.set_snd _⟩
  | 10, _, h =>
    have h : Shape c now _ _ rest _ := h
    exact ⟨by show c.now + 250 = _; rw [h.1], h.2.1, h.2.2⟩
  | 11, _, h =>
    have h : Shape c (now + 250) _ _ rest _ := h
    show Shape (c.step _ (.wake 0)) _ _ _ _ _
    have hl : c.now - 0 > 60000 := by rw [h.1]; omega
    have hw : now + 250 ≤ c.now := by rw [h.1]; exact Nat.le_refl _
    simp only [Cloud.step, h.fst, pausing, Pc.wake, if_pos hw, if_pos hl]
    exact ⟨h.1, h.2.1, h.set_fst _⟩
  | 12, _, h =>
    have h : Shape c (now + 250) _ _ rest _ := h
    show Shape (c.step _ (.start _)) _ _ _ _ _
    simp only [Cloud.step, h.fst, forcing, Pc.request, Option.isSome_some, if_true, hd, if_neg (cut_nil _)]
    exact ⟨h.1, h.2.1, h.set_fst _⟩
  | 13, _, h =>
    have h : Shape c (now + 250) _ _ rest _ := h
    show Shape (c.step _ (.serve _ _)) _ _ _ _ _
    simp only [Cloud.step, h.fst, forcing, Pc.request, Cloud.served, hd, if_neg (cut_nil _), run_drop, h.2.1]
    exact ⟨h.1, by simp, h.set_fst _⟩
  | 14, _, h =>
    have h : Shape c (now + 250) _ _ rest _ := h
    show (c.step _ (.recv 0)).now = _ ∧ (c.step _ (.recv 0)).tables = _ ∧ (c.step _ (.recv 0)).tasks = _
    simp only [Cloud.step, h.fst, forcing, Pc.request, Cloud.received, Pc.resume, List.map_nil, List.append_nil]
    exact ⟨h.1, h.2.1, h.set_fst _⟩

/-- The batches of the earlier rounds. -/
def finishedOnes (k : Nat) : List Task := List.replicate k finished

theorem finished_succ (k : Nat) : finishedOnes k ++ [finished] = finishedOnes (k + 1) := by
  unfold finishedOnes; exact List.replicate_succ'.symm

theorem starve_step (k r : Nat) (hr : r < 15) : starveStep (15 * k + r + 2) = starve (k + 1) r := by
  show starve ((15 * k + r) / 15 + 1) ((15 * k + r) % 15) = _
  rw [show (15 * k + r) / 15 = k by omega, show (15 * k + r) % 15 = r by omega]

theorem starve_dead (n : Nat) : (starveState n).dead = [] := by
  induction n with
  | zero => rfl
  | succ n ih =>
    show ((starveState n).step _ (starveStep n)).dead = _
    rw [calm_dead _ _ _ ?_, ih]
    unfold starveStep
    split
    · trivial
    · trivial
    · unfold starve; split <;> trivial

theorem starve_shape (k r : Nat) (hr : r ≤ 15) : starveShape (starveState (15 * k + r + 2)) (60001 + 250 * k) (finishedOnes k) r := by
  have next : ∀ k r, r < 15 → starveShape (starveState (15 * k + r + 2)) (60001 + 250 * k) (finishedOnes k) r →
      starveShape (starveState (15 * k + (r + 1) + 2)) (60001 + 250 * k) (finishedOnes k) (r + 1) := by
    intro k r hr ih
    have h := starve_round _ (starve_dead _) _ (by omega) _ r hr ih
    show starveShape ((starveState (15 * k + r + 2)).step _ (starveStep (15 * k + r + 2))) _ _ _
    rw [starve_step k r hr]
    simpa [finishedOnes] using h
  induction k generalizing r with
  | zero =>
    induction r with
    | zero => exact ⟨rfl, rfl, rfl⟩
    | succ r ih => exact next 0 r (by omega) (ih (by omega))
  | succ k ihk =>
    induction r with
    | zero =>
      have h := ihk 15 (by omega)
      rw [show 15 * (k + 1) + 0 + 2 = 15 * k + 15 + 2 by omega, show 60001 + 250 * (k + 1) = 60001 + 250 * k + 250 by omega]
      refine ⟨h.1, h.2.1, ?_⟩
      rw [← finished_succ]; exact h.2.2
    | succ r ih => exact next (k + 1) r (by omega) (ih (by omega))

theorem starve_often (r : Nat) (P : Nat → Prop) (h : ∀ k, P (15 * k + r + 2)) : Often 0 P := by
  intro j _
  exact ⟨15 * j + r + 2, by omega, h j⟩

theorem starve_served : Served starveSchedule 0 where
  unharmed := by
    intro n
    show (starveStep n).Harmless 0
    unfold starveStep CloudStep.Harmless
    split
    · simp
    · simp
    · unfold starve; split <;> simp
  alive := by
    intro n t _ k _
    show k ∉ (starveState n).dead
    rw [starve_dead]; simp
  starts := starve_often 4 _ fun k => starve_step k 4 (by omega)
  serves := starve_often 5 _ fun k => ⟨[], [], .ok (), starve_step k 5 (by omega)⟩
  receives := starve_often 6 _ fun k => starve_step k 6 (by omega)
  wakes := by
    intro n t
    refine ⟨15 * (n + t) + 11 + 2, by omega, starve_step (n + t) 11 (by omega), ?_⟩
    have h : Shape _ _ _ _ _ _ := starve_shape (n + t) 11 (by omega)
    show t ≤ (starveState (15 * (n + t) + 11 + 2)).now
    rw [h.1]; omega

theorem starve_never (m : Nat) (r : Except Str Nat) : starveSchedule.pcAt 0 m ≠ some (.mig plainMig (.done r)) := by
  match m with
  | 0 => intro h; cases h
  | 1 => intro h; cases h
  | m + 2 =>
    have h := starve_shape (m / 15) (m % 15) (by omega)
    rw [show 15 * (m / 15) + m % 15 + 2 = m + 2 by omega] at h
    show ((starveState (m + 2)).tasks[0]?).map Task.pc ≠ _
    generalize m % 15 = q at h
    unfold starveShape at h
    split at h
    case h_1 => rw [h.2.2]; simp [trying]
    case h_16 => rw [h.2.2]; simp [trying]
    all_goals rw [h.fst]; simp [trying, pausing, forcing]

/-- Every competitor runs to its end: no lock is ever held for good. -/
theorem starve_others (k : Nat) : (starveState (15 * k + 10 + 2)).tasks[k + 1]? = some finished := by
  have h : Shape _ _ _ _ _ _ := starve_shape k 10 (by omega)
  have := h.snd
  simpa [finishedOnes] using this

/-- C94, what is not so: a batch of migrations may never come to an end although its requests are answered, its sleeps end, it resets the
lock every time, and every other batch, one after another, does come to its end. -/
theorem C94_ends_false : ∃ (x : Schedule fun _ => []) (n i : Nat) (m : Migrator) (scripts : List Str), x.step n = .callMigrate m scripts ∧
    i = (x.state n).tasks.length ∧ Served x i ∧ (∀ k r, x.pcAt i k ≠ some (.mig m (.done r))) ∧
    ∀ j, j ≠ i → Eventually n fun k => ∃ r, x.pcAt j k = some (.mig m (.done r)) := by
  refine ⟨starveSchedule, 0, 0, plainMig, [], rfl, rfl, starve_served, starve_never, fun j hj => ?_⟩
  obtain ⟨k, rfl⟩ : ∃ k, j = k + 1 := ⟨j - 1, by omega⟩
  refine ⟨15 * k + 10 + 2, by omega, .ok 0, ?_⟩
  show ((starveState (15 * k + 10 + 2)).tasks[k + 1]?).map Task.pc = _
  rw [starve_others k]; rfl

/-! ### A batch that finds the lock left behind -/

/-- Everything batch 1 may need, in turn. -/
def orphanTurn : Nat → CloudStep
  | 0 => .start 1
  | 1 => .serve 1 (.runs [] [] (.ok ()))
  | 2 => .recv 1
  | 3 => .tick 1000
  | _ => .wake 1

/-- Task 0 takes the lock of the migrations and dies; batch 1 is called. -/
def orphanStep : Nat → CloudStep
  | 0 => .callTryLock plainMig.lock
  | 1 => .start 0
  | 2 => .serve 0 (.runs [] [] (.ok ()))
  | 3 => .recv 0
  | 4 => .crash 0
  | 5 => .callMigrate plainMig [ch! "A;B", [], ch! "C"]
  | n + 6 => orphanTurn (n % 5)

/-- Its states. -/
def orphanState : Nat → Cloud
  | 0 => Cloud.init
  | n + 1 => (orphanState n).step exLex (orphanStep n)

/-- The schedule as a whole. -/
def orphanSchedule : Schedule exLex where
  state := orphanState
  step := orphanStep
  start := rfl
  next := fun _ => rfl

theorem orphan_step (k r : Nat) (hr : r < 5) : orphanStep (5 * k + r + 6) = orphanTurn r := by
  show orphanTurn ((5 * k + r) % 5) = _
  rw [show (5 * k + r) % 5 = r by omega]

theorem orphan_often (r : Nat) (P : Nat → Prop) (h : ∀ k, P (5 * k + r + 6)) : Often 0 P := by
  intro j _
  exact ⟨5 * j + r + 6, by omega, h j⟩

theorem orphan_now (k : Nat) : k ≤ (orphanState (5 * k + 4 + 6)).now := by
  induction k with
  | zero => omega
  | succ k ih =>
    have hn : (orphanState (5 * (k + 1) + 3 + 6 + 1)).now = (orphanState (5 * (k + 1) + 3 + 6)).now + 1000 := by
      show ((orphanState (5 * (k + 1) + 3 + 6)).step _ (orphanStep (5 * (k + 1) + 3 + 6))).now = _
      rw [orphan_step (k + 1) 3 (by omega)]; rfl
    have hm : (orphanState (5 * k + 4 + 6)).now ≤ (orphanState (5 * (k + 1) + 3 + 6)).now := Served.now_mono orphanSchedule (by omega)
    rw [show 5 * (k + 1) + 3 + 6 + 1 = 5 * (k + 1) + 4 + 6 by omega] at hn
    omega

theorem orphan_unbroken (lex : Str → List Token) (c : Cloud) (i : Nat) : (c.step lex (.crash i)).dead = c.dead := by
  simp only [Cloud.step]
  split <;> rfl

theorem orphan_dead (n : Nat) : (orphanState n).dead = [] := by
  induction n with
  | zero => rfl
  | succ n ih =>
    show ((orphanState n).step _ (orphanStep n)).dead = _
    unfold orphanStep
    split
    case h_5 => rw [orphan_unbroken, ih]
    case h_7 =>
      rw [calm_dead _ _ _ ?_, ih]
      unfold orphanTurn
      split <;> trivial
    all_goals (rw [calm_dead _ _ _ ?_, ih]; trivial)

theorem orphan_served : Served orphanSchedule 1 where
  unharmed := by
    intro n
    show (orphanStep n).Harmless 1
    unfold orphanStep CloudStep.Harmless
    split
    all_goals first | (unfold orphanTurn; split <;> simp) | simp
  alive := by
    intro n t _ k _
    show k ∉ (orphanState n).dead
    rw [orphan_dead]; simp
  starts := orphan_often 0 _ fun k => orphan_step k 0 (by omega)
  serves := orphan_often 1 _ fun k => ⟨[], [], .ok (), orphan_step k 1 (by omega)⟩
  receives := orphan_often 2 _ fun k => orphan_step k 2 (by omega)
  wakes := by
    intro n t
    refine ⟨5 * (n + t) + 4 + 6, by omega, orphan_step (n + t) 4 (by omega), ?_⟩
    have := orphan_now (n + t)
    show t ≤ (orphanState (5 * (n + t) + 4 + 6)).now
    omega

/-- The holder is dead and the lock is taken when the batch is called; and yet the batch runs all its scripts. -/
example : (orphanState 6).tasks[0]? = some ⟨.gone, .ready⟩ ∧ (orphanState 6).tables = [migTable] ∧
    Eventually 5 fun k => orphanSchedule.pcAt 1 k = some (.mig plainMig (.done (.ok 3))) := by
  refine ⟨rfl, rfl, C94_succeeds (n := 5) (n' := 6) (scripts := [ch! "A;B", [], ch! "C"]) rfl rfl orphan_served ?_ ?_ ?_⟩
  · intro k hk ⟨h1, h2, h3⟩
    obtain ⟨k, rfl⟩ : ∃ j, k = j + 6 := ⟨k - 6, by omega⟩
    have hs := orphan_step (k / 5) (k % 5) (by omega)
    rw [show 5 * (k / 5) + k % 5 + 6 = k + 6 by omega] at hs
    have h2 : _ ∈ ((orphanState (k + 6)).step exLex (orphanStep (k + 6))).tables := h2
    have h1 : _ ∉ (orphanState (k + 6)).tables := h1
    have h3 : ∀ f, orphanStep (k + 6) ≠ .serve 1 f := h3
    rw [hs] at h2 h3
    unfold orphanTurn at h2
    split at h2
    · simp only [Cloud.step] at h2
      split at h2
      · split at h2 <;> exact h1 h2
      · exact h1 h2
    · rename_i e
      rw [e] at h3
      exact h3 _ rfl
    · simp only [Cloud.step] at h2
      split at h2
      · split at h2 <;> exact h1 h2
      · exact h1 h2
    · exact h1 h2
    · simp only [Cloud.step] at h2
      split at h2 <;> exact h1 h2
  · intro k pre post v h
    have h : orphanStep k = _ := h
    unfold orphanStep at h
    split at h
    case h_7 =>
      unfold orphanTurn at h
      split at h <;> first | (cases h; done) | (cases h; rfl) | (injection h with _ h; injection h with _ _ h; exact h.symm)
    all_goals first | cases h | (injection h with h _; cases h)
  · decide

end Props
end Klick
