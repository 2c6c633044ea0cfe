import Verif.Props.LockWait
/-
C83, what is not so: a call of `lock` may wait forever although the lock is released again and again.
-/
namespace Klick
open Spec

namespace Props

/-- One round of an unlucky schedule: task `j` takes the lock, task 0 tries in vain, task `j` releases it, task 0's sleep ends. -/
def unlucky (j : Nat) : Nat → CloudStep
  | 0 => .callTryLock exLock
  | 1 => .start j
  | 2 => .serve j (.runs [] [] (.ok ()))
  | 3 => .recv j
  | 4 => .start 0
  | 5 => .serve 0 (.runs [] [] (.ok ()))
  | 6 => .recv 0
  | 7 => .callUnlock j
  | 8 => .start j
  | 9 => .serve j (.runs [] [] (.ok ()))
  | 10 => .recv j
  | 11 => .tick 100
  | _ => .wake 0

/-- The unlucky schedule: a call of `lock`, then rounds, each with a new competitor. -/
def unluckyStep : Nat → CloudStep
  | 0 => .callLock exLock
  | n + 1 => unlucky (n / 13 + 1) (n % 13)

/-- Its states. -/
def unluckyState : Nat → Cloud
  | 0 => Cloud.init
  | n + 1 => (unluckyState n).step (fun _ => []) (unluckyStep n)

/-- The unlucky schedule as a whole. -/
def unluckySchedule : Schedule (fun _ => []) where
  state := unluckyState
  step := unluckyStep
  start := rfl
  next := fun _ => rfl

/-- A waiting task, the tasks of earlier rounds, the competitor. -/
def Shape (c : Cloud) (now : Nat) (tables : List Str) (a : Task) (rest : List Task) (b : Task) : Prop :=
  c.now = now ∧ c.tables = tables ∧ c.tasks = a :: (rest ++ [b])

theorem Shape.fst {c : Cloud} {now : Nat} {tables : List Str} {a b : Task} {rest : List Task} (h : Shape c now tables a rest b) :
    c.tasks[0]? = some a := by rw [h.2.2]; rfl

theorem Shape.snd {c : Cloud} {now : Nat} {tables : List Str} {a b : Task} {rest : List Task} (h : Shape c now tables a rest b) :
    c.tasks[rest.length + 1]? = some b := by rw [h.2.2]; simp

theorem Shape.set_snd {c : Cloud} {now : Nat} {tables : List Str} {a b : Task} {rest : List Task} (h : Shape c now tables a rest b) (b' : Task) :
    c.tasks.set (rest.length + 1) b' = a :: (rest ++ [b']) := by rw [h.2.2]; simp

theorem Shape.set_fst {c : Cloud} {now : Nat} {tables : List Str} {a b : Task} {rest : List Task} (h : Shape c now tables a rest b) (a' : Task) :
    c.tasks.set 0 a' = a' :: (rest ++ [b]) := by rw [h.2.2]; rfl

/-- The refusal of the server. -/
def refusal : Str := [] ++ ch! "already exists" ++ []

/-- The waiting task, the competitor, the clock and the tables after `r` steps of a round. -/
def roundShape (c : Cloud) (now : Nat) (rest : List Task) : Nat → Prop
  | 0 => c.now = now ∧ c.tables = [] ∧ c.tasks = ⟨.lock exLock, .ready⟩ :: rest
  | 1 => Shape c now [] ⟨.lock exLock, .ready⟩ rest ⟨.tryLock exLock, .ready⟩
  | 2 => Shape c now [] ⟨.lock exLock, .ready⟩ rest ⟨.tryLock exLock, .sent⟩
  | 3 => Shape c now [lockTable exLock] ⟨.lock exLock, .ready⟩ rest ⟨.tryLock exLock, .answered (.ok ())⟩
  | 4 => Shape c now [lockTable exLock] ⟨.lock exLock, .ready⟩ rest ⟨.holds exLock, .ready⟩
  | 5 => Shape c now [lockTable exLock] ⟨.lock exLock, .sent⟩ rest ⟨.holds exLock, .ready⟩
  | 6 => Shape c now [lockTable exLock] ⟨.lock exLock, .answered (.error refusal)⟩ rest ⟨.holds exLock, .ready⟩
  | 7 => Shape c now [lockTable exLock] ⟨.lockSleep exLock (now + 100), .ready⟩ rest ⟨.holds exLock, .ready⟩
  | 8 => Shape c now [lockTable exLock] ⟨.lockSleep exLock (now + 100), .ready⟩ rest ⟨.unlock exLock, .ready⟩
  | 9 => Shape c now [lockTable exLock] ⟨.lockSleep exLock (now + 100), .ready⟩ rest ⟨.unlock exLock, .sent⟩
  | 10 => Shape c now [] ⟨.lockSleep exLock (now + 100), .ready⟩ rest ⟨.unlock exLock, .answered (.ok ())⟩
  | 11 => Shape c now [] ⟨.lockSleep exLock (now + 100), .ready⟩ rest ⟨.returned (.ok ()), .ready⟩
  | 12 => Shape c (now + 100) [] ⟨.lockSleep exLock (now + 100), .ready⟩ rest ⟨.returned (.ok ()), .ready⟩
  | _ => c.now = now + 100 ∧ c.tables = [] ∧ c.tasks = ⟨.lock exLock, .ready⟩ :: (rest ++ [⟨.returned (.ok ()), .ready⟩])

theorem round_step (c : Cloud) (hd : c.dead = []) (now : Nat) (rest : List Task) (r : Nat) (hr : r < 13) (h : roundShape c now rest r) :
    roundShape (c.step (fun _ => []) (unlucky (rest.length + 1) r)) now rest (r + 1) := by
  match r, hr, h with
  | 0, _, h =>
    obtain ⟨h1, h2, h3⟩ := h
    refine ⟨h1, h2, ?_⟩
    show c.tasks ++ _ = _
    rw [h3]; rfl
  | 1, _, h =>
    have h : Shape c now _ _ rest _ := h
    show Shape (c.step _ (.start _)) _ _ _ _ _
    simp only [Cloud.step, h.snd, Pc.request, Option.isSome_some, if_true, hd, if_neg (cut_nil _)]
    exact ⟨h.1, h.2.1, h.set_snd _⟩
  | 2, _, h =>
    have h : Shape c now _ _ rest _ := h
    show Shape (c.step _ (.serve _ _)) _ _ _ _ _
    simp only [Cloud.step, h.snd, Pc.request, Cloud.served, hd, if_neg (cut_nil _), run_create, h.2.1]
    exact ⟨h.1, rfl, h.set_snd _⟩
  | 3, _, h =>
    have h : Shape c now _ _ rest _ := h
    show Shape (c.step _ (.recv _)) _ _ _ _ _
    simp only [Cloud.step, h.snd, Pc.request, Cloud.received, Pc.resume, Attempt.of, List.map_nil, List.append_nil]
    exact ⟨h.1, h.2.1, h.set_snd _⟩
  | 4, _, h =>
    have h : Shape c now _ _ rest _ := h
    show Shape (c.step _ (.start _)) _ _ _ _ _
    simp only [Cloud.step, h.fst, Pc.request, Option.isSome_some, if_true, hd, if_neg (cut_nil _)]
    exact ⟨h.1, h.2.1, h.set_fst _⟩
  | 5, _, h =>
    have h : Shape c now _ _ rest _ := h
    show Shape (c.step _ (.serve _ _)) _ _ _ _ _
    simp only [Cloud.step, h.fst, Pc.request, Cloud.served, hd, if_neg (cut_nil _), run_create, h.2.1, List.mem_singleton, if_true]
    exact ⟨h.1, rfl, h.set_fst _⟩
  | 6, _, h =>
    have h : Shape c now _ _ rest _ := h
    show Shape (c.step _ (.recv _)) _ _ _ _ _
    have hb : Attempt.of (.error refusal) = .busy := attempt_busy [] []
    simp only [Cloud.step, h.fst, Pc.request, Cloud.received, Pc.resume, hb, List.map_nil, List.append_nil]
    refine ⟨h.1, h.2.1, ?_⟩
    rw [← h.1]
    exact h.set_fst _
  | 7, _, h =>
    have h : Shape c now _ _ rest _ := h
    show Shape (c.step _ (.callUnlock _)) _ _ _ _ _
    simp only [Cloud.step, h.snd]
    exact ⟨h.1, h.2.1, h.set_snd _⟩
  | 8, _, h =>
    have h : Shape c now _ _ rest _ := h
    show Shape (c.step _ (.start _)) _ _ _ _ _
    simp only [Cloud.step, h.snd, Pc.request, Option.isSome_some, if_true, hd, if_neg (cut_nil _)]
    exact ⟨h.1, h.2.1, h.set_snd _⟩
  | 9, _, h =>
    have h : Shape c now _ _ rest _ := h
    show Shape (c.step _ (.serve _ _)) _ _ _ _ _
    simp only [Cloud.step, h.snd, Pc.request, Cloud.served, hd, if_neg (cut_nil _), run_drop, h.2.1]
    exact ⟨h.1, by simp, h.set_snd _⟩
  | 10, _, h =>
    have h : Shape c now _ _ rest _ := h
    show Shape (c.step _ (.recv _)) _ _ _ _ _
    simp only [Cloud.step, h.snd, Pc.request, Cloud.received, Pc.resume, List.map_nil, List.append_nil]
    exact ⟨h.1, h.2.1, h.set_snd _⟩
  | 11, _, h =>
    have h : Shape c now _ _ rest _ := h
    exact ⟨by show c.now + 100 = _; rw [h.1], h.2.1, h.2.2⟩
  | 12, _, h =>
    have h : Shape c (now + 100) _ _ rest _ := h
    show (c.step _ (.wake 0)).now = _ ∧ (c.step _ (.wake 0)).tables = _ ∧ (c.step _ (.wake 0)).tasks = _
    simp only [Cloud.step, h.fst, Pc.wake, h.1, Nat.le_refl, if_true]
    exact ⟨h.1, h.2.1, h.set_fst _⟩

/-- The tasks of the earlier rounds. -/
def earlier (k : Nat) : List Task := List.replicate k ⟨.returned (.ok ()), .ready⟩

theorem earlier_succ (k : Nat) : earlier k ++ [⟨.returned (.ok ()), .ready⟩] = earlier (k + 1) := by
  unfold earlier; exact List.replicate_succ'.symm

theorem unlucky_calm (n : Nat) : Calm (unluckyStep n) := by
  match n with
  | 0 => trivial
  | n + 1 => show Calm (unlucky _ _); unfold unlucky; split <;> trivial

theorem unlucky_dead (n : Nat) : (unluckyState n).dead = [] := by
  induction n with
  | zero => rfl
  | succ n ih => show ((unluckyState n).step _ (unluckyStep n)).dead = _; rw [calm_dead _ _ _ (unlucky_calm n), ih]

theorem unlucky_shape (k r : Nat) (hr : r ≤ 13) : roundShape (unluckyState (13 * k + r + 1)) (100 * k) (earlier k) r := by
  induction k generalizing r with
  | zero =>
    induction r with
    | zero => exact ⟨rfl, rfl, rfl⟩
    | succ r ih =>
      have h := round_step _ (unlucky_dead _) _ _ r (by omega) (ih (by omega))
      have e : unluckyStep (13 * 0 + r + 1) = unlucky (([] : List Task).length + 1) r := by
        show unlucky ((13 * 0 + r) / 13 + 1) ((13 * 0 + r) % 13) = _
        rw [show (13 * 0 + r) / 13 = 0 by omega, show (13 * 0 + r) % 13 = r by omega]; rfl
      show roundShape ((unluckyState (13 * 0 + r + 1)).step _ (unluckyStep (13 * 0 + r + 1))) _ _ _
      rw [e]; exact h
  | succ k ihk =>
    induction r with
    | zero =>
      have h := ihk 13 (by omega)
      rw [show 13 * (k + 1) + 0 + 1 = 13 * k + 13 + 1 by omega, show 100 * (k + 1) = 100 * k + 100 by omega]
      refine ⟨h.1, h.2.1, ?_⟩
      rw [← earlier_succ]; exact h.2.2
    | succ r ih =>
      have h := round_step _ (unlucky_dead _) _ _ r (by omega) (ih (by omega))
      have e : unluckyStep (13 * (k + 1) + r + 1) = unlucky ((earlier (k + 1)).length + 1) r := by
        show unlucky ((13 * (k + 1) + r) / 13 + 1) ((13 * (k + 1) + r) % 13) = _
        rw [show (13 * (k + 1) + r) / 13 = k + 1 by omega, show (13 * (k + 1) + r) % 13 = r by omega]
        simp [earlier]
      show roundShape ((unluckyState (13 * (k + 1) + r + 1)).step _ (unluckyStep (13 * (k + 1) + r + 1))) _ _ _
      rw [e]; exact h

theorem unlucky_step (k r : Nat) (hr : r < 13) : unluckyStep (13 * k + r + 1) = unlucky (k + 1) r := by
  show unlucky ((13 * k + r) / 13 + 1) ((13 * k + r) % 13) = _
  rw [show (13 * k + r) / 13 = k by omega, show (13 * k + r) % 13 = r by omega]

theorem unlucky_often (r : Nat) (hr : r < 13) (P : Nat → Prop) (h : ∀ k, P (13 * k + r + 1)) : Often 0 P := by
  intro j _
  exact ⟨13 * j + r + 1, by omega, h j⟩

/-- Every step of a round leaves task 0 unharmed. -/
theorem unlucky_harmless (k r : Nat) : (unlucky (k + 1) r).Harmless 0 := by
  unfold unlucky CloudStep.Harmless
  split <;> simp

theorem unlucky_served : Served unluckySchedule 0 where
  unharmed := by
    intro n
    match n with
    | 0 => exact ⟨(by intro h; cases h), (by intro h; cases h), (by intro e h; cases h), fun e => ⟨(by intro h; cases h), (by intro h; cases h)⟩⟩
    | n + 1 => exact unlucky_harmless (n / 13) (n % 13)
  alive := by
    intro n t _ k _
    show k ∉ (unluckyState n).dead
    rw [unlucky_dead]; simp
  starts := unlucky_often 4 (by omega) _ fun k => unlucky_step k 4 (by omega)
  serves := unlucky_often 5 (by omega) _ fun k => ⟨[], [], .ok (), unlucky_step k 5 (by omega)⟩
  receives := unlucky_often 6 (by omega) _ fun k => unlucky_step k 6 (by omega)
  wakes := by
    intro n t
    refine ⟨13 * (n + t) + 12 + 1, by omega, unlucky_step (n + t) 12 (by omega), ?_⟩
    have h : Shape _ _ _ _ _ _ := unlucky_shape (n + t) 12 (by omega)
    show t ≤ (unluckyState (13 * (n + t) + 12 + 1)).now
    rw [h.1]; omega

/-- No instant of a round finds task 0 holding the lock. -/
theorem unlucky_never (m : Nat) : unluckySchedule.pcAt 0 m ≠ some (.holds exLock) := by
  match m with
  | 0 => intro h; cases h
  | m + 1 =>
    have h := unlucky_shape (m / 13) (m % 13) (by omega)
    rw [show 13 * (m / 13) + m % 13 + 1 = m + 1 by omega] at h
    show ((unluckyState (m + 1)).tasks[0]?).map Task.pc ≠ _
    generalize m % 13 = r at h
    unfold roundShape at h
    split at h
    case h_1 => rw [h.2.2]; simp
    case h_14 => rw [h.2.2]; simp
    all_goals rw [h.fst]; simp

/-- C83, what is not so: a call of `lock` may wait forever although the lock is free again and again, the task is served, and
its sleeps end. -/
theorem C83_obtained_false : ∃ (x : Schedule fun _ => []) (n i : Nat) (l : Lock), x.step n = .callLock l ∧ i = (x.state n).tasks.length ∧ Served x i ∧
    Often n (fun m => lockTable l ∉ (x.state m).tables) ∧ ∀ m, x.pcAt i m ≠ some (.holds l) := by
  refine ⟨unluckySchedule, 0, 0, exLock, rfl, rfl, unlucky_served, ?_, unlucky_never⟩
  refine unlucky_often 0 (by omega) _ fun k => ?_
  have h := unlucky_shape k 0 (by omega)
  show _ ∉ (unluckyState (13 * k + 0 + 1)).tables
  rw [h.2.1]; simp

/-- Everything task 0 may need, in turn. -/
def turn : Nat → CloudStep
  | 0 => .start 0
  | 1 => .serve 0 (.runs [] [] (.ok ()))
  | 2 => .recv 0
  | 3 => .tick 1
  | _ => .wake 0

/-- A lucky schedule: a call of `lock`, which obtains it and gives it back; the executor and the clock go on. -/
def luckyStep : Nat → CloudStep
  | 0 => .callLock exLock
  | 4 => .callUnlock 0
  | n + 1 => turn (n % 5)

/-- Its states. -/
def luckyState : Nat → Cloud
  | 0 => Cloud.init
  | n + 1 => (luckyState n).step (fun _ => []) (luckyStep n)

/-- The lucky schedule as a whole. -/
def luckySchedule : Schedule (fun _ => []) where
  state := luckyState
  step := luckyStep
  start := rfl
  next := fun _ => rfl

theorem lucky_step (k r : Nat) (hr : r < 5) : luckyStep (5 * k + r + 6) = turn r := by
  show turn ((5 * k + r + 5) % 5) = _
  rw [show (5 * k + r + 5) % 5 = r by omega]

theorem lucky_often (r : Nat) (hr : r < 5) (P : Nat → Prop) (h : ∀ k, P (5 * k + r + 6)) : Often 0 P := by
  intro j _
  exact ⟨5 * j + r + 6, by omega, h j⟩

/-- From the ninth step on nothing changes but the clock. -/
theorem lucky_after (n : Nat) : (luckyState (n + 9)).tables = [] ∧ (luckyState (n + 9)).tasks = [⟨.returned (.ok ()), .ready⟩] := by
  induction n with
  | zero => exact ⟨rfl, rfl⟩
  | succ n ih =>
    obtain ⟨h1, h2⟩ := ih
    have h := lucky_step ((n + 3) / 5) ((n + 3) % 5) (by omega)
    rw [show 5 * ((n + 3) / 5) + (n + 3) % 5 + 6 = n + 9 by omega] at h
    show ((luckyState (n + 9)).step _ (luckyStep (n + 9))).tables = _ ∧ ((luckyState (n + 9)).step _ (luckyStep (n + 9))).tasks = _
    rw [h]
    unfold turn
    split <;> simp [Cloud.step, h1, h2, Pc.request, Pc.wake, Cloud.put]

theorem lucky_now (k : Nat) : k ≤ (luckyState (5 * k + 4 + 6)).now := by
  have mono : ∀ n, (luckyState n).now ≤ (luckyState (n + 1)).now := by
    intro n
    show _ ≤ ((luckyState n).step _ (luckyStep n)).now
    unfold luckyStep
    split
    · exact Nat.le_refl _
    · simp only [Cloud.step]; split <;> exact Nat.le_refl _
    · unfold turn
      split
      · simp only [Cloud.step]
        split
        · split <;> exact Nat.le_refl _
        · exact Nat.le_refl _
      · simp only [Cloud.step]
        split
        · split
          · simp only [Cloud.served]; split <;> exact Nat.le_refl _
          · exact Nat.le_refl _
        · exact Nat.le_refl _
      · simp only [Cloud.step]
        split
        · split <;> exact Nat.le_refl _
        · exact Nat.le_refl _
      · simp only [Cloud.step]; omega
      · simp only [Cloud.step]; split <;> exact Nat.le_refl _
  induction k with
  | zero => omega
  | succ k ih =>
    have h := lucky_step (k + 1) 3 (by omega)
    have hn : (luckyState (5 * (k + 1) + 3 + 6 + 1)).now = (luckyState (5 * (k + 1) + 3 + 6)).now + 1 := by
      show ((luckyState (5 * (k + 1) + 3 + 6)).step _ (luckyStep (5 * (k + 1) + 3 + 6))).now = _
      rw [h]; rfl
    have a := mono (5 * k + 4 + 6)
    have b := mono (5 * k + 4 + 6 + 1)
    have c := mono (5 * k + 4 + 6 + 1 + 1)
    have d := mono (5 * k + 4 + 6 + 1 + 1 + 1)
    rw [show 5 * (k + 1) + 3 + 6 + 1 = 5 * (k + 1) + 4 + 6 by omega, show 5 * (k + 1) + 3 + 6 = 5 * k + 4 + 6 + 1 + 1 + 1 + 1 by omega] at hn
    omega

theorem lucky_dead (n : Nat) : (luckyState n).dead = [] := by
  induction n with
  | zero => rfl
  | succ n ih =>
    show ((luckyState n).step _ (luckyStep n)).dead = _
    rw [calm_dead _ _ _ ?_, ih]
    unfold luckyStep
    split
    · trivial
    · trivial
    · unfold turn; split <;> trivial

theorem lucky_served : Served luckySchedule 0 where
  unharmed := by
    intro n
    show (luckyStep n).Harmless 0
    unfold luckyStep CloudStep.Harmless
    split
    · simp
    · simp
    · unfold turn; split <;> simp
  alive := by
    intro n t _ k _
    show k ∉ (luckyState n).dead
    rw [lucky_dead]; simp
  starts := lucky_often 0 (by omega) _ fun k => lucky_step k 0 (by omega)
  serves := lucky_often 1 (by omega) _ fun k => ⟨[], [], .ok (), lucky_step k 1 (by omega)⟩
  receives := lucky_often 2 (by omega) _ fun k => lucky_step k 2 (by omega)
  wakes := by
    intro n t
    refine ⟨5 * (n + t) + 4 + 6, by omega, lucky_step (n + t) 4 (by omega), ?_⟩
    have := lucky_now (n + t)
    show t ≤ (luckyState (5 * (n + t) + 4 + 6)).now
    omega

/-- The hypotheses of `C83_uncontended` are met by a call that has to ask and be answered. -/
example : Eventually 0 fun m => luckySchedule.pcAt 0 m = some (.holds exLock) := by
  refine C83_uncontended (n := 0) (n' := 9) (l := exLock) rfl rfl lucky_served ?_ ?_
  · intro m _
    refine ⟨m + 9, by omega, ?_⟩
    show _ ∉ (luckyState (m + 9)).tables
    rw [(lucky_after m).1]; simp
  · intro m hm ⟨_, h, _⟩
    have e := (lucky_after (m - 8)).1
    rw [show m - 8 + 9 = m + 1 by omega] at e
    have h : _ ∈ (luckyState (m + 1)).tables := h
    rw [e] at h; cases h

end Props
end Klick
