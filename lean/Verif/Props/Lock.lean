import Verif.MigrateLemmas
/-
C58: the lock. C59: migrations.
-/
namespace Klick
open Spec

/-! ## C58 -/

theorem connected_iff (c : Cloud) (t : Task) : Connected c t ↔ ¬ t.pc.cut c.dead = true := by
  unfold Connected Pc.cut
  cases h : t.pc.client with
  | none => simp
  | some k => simp

theorem hasLock_real {T : Str} {c : Cloud} {t : Task} (h : HasLock T t) (hc : Connected c t) : t.real c.dead T = 1 := by
  rw [real_alive ((connected_iff c t).mp hc), hasLock_token h]

/-- C58: at any time the holders of a lock whose connections live are at most one more than the forced resets the server ran. -/
theorem C58_holders_bounded (lex : Str → List Token) (T : Str) (steps : List CloudStep) (hin : ∀ s ∈ steps, InnocentStep lex T s)
    (holders : List Nat) (hnd : holders.Nodup)
    (hh : ∀ i ∈ holders, ∃ t, (Cloud.init.run lex steps).tasks[i]? = some t ∧ HasLock T t ∧ Connected (Cloud.init.run lex steps) t) :
    holders.length ≤ forcedResets T (Cloud.init.run lex steps).log + 1 := by
  have hI := (cloud_init_inv lex T).run steps hin
  have hb := hI.bound
  have := there_le T (Cloud.init.run lex steps).tables
  suffices holders.length ≤ reals (Cloud.init.run lex steps).dead T (Cloud.init.run lex steps).tasks by omega
  generalize hc : Cloud.init.run lex steps = c at hh
  generalize c.tasks = ts at hh
  clear hb hI this hin hc
  induction holders generalizing ts with
  | nil => exact Nat.zero_le _
  | cons i is ih =>
    rw [List.nodup_cons] at hnd
    obtain ⟨t, ht, hl, hal⟩ := hh i (by simp)
    have h1 := reals_set c.dead T ts i t ⟨.gone, .ready⟩ ht
    have e := real_gone c.dead T .ready
    have h2 := hasLock_real hl hal
    have := ih hnd.2 (ts.set i ⟨.gone, .ready⟩) (by
      intro j hj
      obtain ⟨u, hu, hul⟩ := hh j (by simp [hj])
      refine ⟨u, ?_, hul⟩
      rw [List.getElem?_set_ne (fun e : i = j => hnd.1 (e ▸ hj))]; exact hu)
    simp only [List.length_cons]
    omega

/-- C58: as long as nobody forces a reset, no two tasks whose connections live have the lock at the same time, whatever else happens:
any number of clients, any schedule, deaths, cancellations, broken connections. -/
theorem C58_exclusion_partial (lex : Str → List Token) (T : Str) (steps : List CloudStep) (hin : ∀ s ∈ steps, InnocentStep lex T s)
    (hforce : forcedResets T (Cloud.init.run lex steps).log = 0) (i j : Nat) (t u : Task)
    (ht : (Cloud.init.run lex steps).tasks[i]? = some t) (hu : (Cloud.init.run lex steps).tasks[j]? = some u)
    (h1 : HasLock T t) (h2 : HasLock T u) (c1 : Connected (Cloud.init.run lex steps) t) (c2 : Connected (Cloud.init.run lex steps) u) : i = j := by
  by_cases hij : i = j
  · exact hij
  · have := C58_holders_bounded lex T steps hin [i, j] (by simpa using hij) (by
      intro k hk
      simp only [List.mem_cons, List.not_mem_nil, or_false] at hk
      rcases hk with rfl | rfl
      · exact ⟨t, ht, h1, c1⟩
      · exact ⟨u, hu, h2, c2⟩)
    simp only [List.length_cons, List.length_nil, hforce] at this
    omega

/-- A lock used in the examples. -/
def exLock : Lock := ⟨ch! "jobs", none, 0⟩

/-- The same lock, of another client. -/
def exLock' : Lock := { exLock with client := 1 }

/-- Two tasks try; the first gets the lock, the second is refused; the first unlocks; the second tries again and gets it. -/
def exContended : List CloudStep :=
  [.callTryLock exLock, .callTryLock exLock', .start 0, .start 1, .serve 1 (.runs [] [] (.ok ())), .serve 0 (.runs [] [] (.ok ())), .recv 0, .recv 1]

example : (∀ s ∈ exContended, InnocentStep (fun _ => []) (lockTable exLock) s) ∧
    (Cloud.init.run (fun _ => []) exContended).tasks = [⟨.refused exLock, .ready⟩, ⟨.holds exLock', .ready⟩] ∧
    forcedResets (lockTable exLock) (Cloud.init.run (fun _ => []) exContended).log = 0 := by
  refine ⟨?_, by rfl, by rfl⟩
  intro s hs
  simp only [exContended, List.mem_cons, List.not_mem_nil, or_false] at hs
  rcases hs with rfl | rfl | rfl | rfl | rfl | rfl | rfl | rfl <;> trivial

/-- C58 is false when somebody calls `reset()`: two tasks have the lock. -/
theorem C58_exclusion_false : ∃ (T : Str) (steps : List CloudStep) (t u : Task), (∀ s ∈ steps, InnocentStep (fun _ => []) T s) ∧
    (Cloud.init.run (fun _ => []) steps).tasks[0]? = some t ∧ (Cloud.init.run (fun _ => []) steps).tasks[2]? = some u ∧ HasLock T t ∧ HasLock T u := by
  refine ⟨lockTable exLock, [.callTryLock exLock, .start 0, .serve 0 (.runs [] [] (.ok ())), .recv 0, .callReset exLock, .start 1,
    .serve 1 (.runs [] [] (.ok ())), .recv 1, .callTryLock exLock, .start 2, .serve 2 (.runs [] [] (.ok ())), .recv 2],
    ⟨.holds exLock, .ready⟩, ⟨.holds exLock, .ready⟩, ?_, by rfl, by rfl, .inl ⟨exLock, rfl, rfl⟩, .inl ⟨exLock, rfl, rfl⟩⟩
  intro s hs
  simp only [List.mem_cons, List.not_mem_nil, or_false] at hs
  rcases hs with rfl | rfl | rfl | rfl | rfl | rfl | rfl | rfl | rfl | rfl | rfl | rfl <;> trivial

/-- C58 is false as it stands when a connection breaks: task 0 has the lock; the connection of task 1 breaks while its request is out,
`Client::execute` reports success, and task 1 has a handle too. Nobody forced a reset. -/
theorem C58_lost_false : ∃ (T : Str) (steps : List CloudStep) (t u : Task), (∀ s ∈ steps, InnocentStep (fun _ => []) T s) ∧
    forcedResets T (Cloud.init.run (fun _ => []) steps).log = 0 ∧
    (Cloud.init.run (fun _ => []) steps).tasks[0]? = some t ∧ (Cloud.init.run (fun _ => []) steps).tasks[1]? = some u ∧ HasLock T t ∧ HasLock T u ∧
    Connected (Cloud.init.run (fun _ => []) steps) t := by
  refine ⟨lockTable exLock, [.callTryLock exLock, .start 0, .serve 0 (.runs [] [] (.ok ())), .recv 0, .callTryLock exLock', .start 1,
    .serve 1 (.lostBefore (.ok ())), .recv 1],
    ⟨.holds exLock, .ready⟩, ⟨.holds exLock', .ready⟩, ?_, by rfl, by rfl, by rfl, .inl ⟨exLock, rfl, rfl⟩, .inl ⟨exLock', rfl, rfl⟩, ?_⟩
  · intro s hs
    simp only [List.mem_cons, List.not_mem_nil, or_false] at hs
    rcases hs with rfl | rfl | rfl | rfl | rfl | rfl | rfl | rfl <;> trivial
  · rw [connected_iff]; decide

theorem run_append (lex : Str → List Token) (a b : List CloudStep) (c : Cloud) : c.run lex (a ++ b) = (c.run lex a).run lex b := by
  induction a generalizing c with
  | nil => rfl
  | cons s a ih => exact ih _

theorem lt_of_get {α : Type} {l : List α} {i : Nat} {a : α} (h : l[i]? = some a) : i < l.length := by
  rw [List.getElem?_eq_some_iff] at h; exact h.1

/-- C58: an attempt the server runs gets the lock if the table is not there, and otherwise: `try_lock` says so, `lock` will try
again. -/
theorem C58_attempt (lex : Str → List Token) (c : Cloud) (i : Nat) (l : Lock) (hk : l.client ∉ c.dead) (pre post : Str) (v : Reply) :
    (c.tasks[i]? = some ⟨.tryLock l, .sent⟩ →
      ((c.run lex [.serve i (.runs pre post v), .recv i]).tasks[i]?.map Task.pc =
        some (if lockTable l ∈ c.tables then .refused l else .holds l))) ∧
    (c.tasks[i]? = some ⟨.lock l, .sent⟩ →
      ((c.run lex [.serve i (.runs pre post v), .recv i]).tasks[i]?.map Task.pc =
        some (if lockTable l ∈ c.tables then .lockSleep l (c.now + 100) else .holds l))) := by
  have gen : ∀ pc : Pc, pc.request = some (.lock, l.createText) → pc.client = some l.client → c.tasks[i]? = some ⟨pc, .sent⟩ →
      (c.run lex [.serve i (.runs pre post v), .recv i]).tasks[i]?.map Task.pc =
        some (pc.resume lex c.now (serverRun pre post v l.createText c.tables).2).1 := by
    intro pc hreq hcl ht
    have hi := lt_of_get ht
    have hcut : ¬ pc.cut c.dead = true := by simp [Pc.cut, hcl, hk]
    have hg : (c.tasks.set i ⟨pc, .answered (serverRun pre post v l.createText c.tables).2⟩)[i]? =
        some ⟨pc, .answered (serverRun pre post v l.createText c.tables).2⟩ := List.getElem?_set_self hi
    have e1 : c.step lex (.serve i (.runs pre post v)) = c.served i pc .lock l.createText (.runs pre post v) := by
      simp only [Cloud.step, ht, hreq]
    simp only [Cloud.run, e1]
    simp only [Cloud.served, if_neg hcut, Cloud.step, hg, hreq, Cloud.received, List.set_set]
    rw [List.getElem?_append_left (by rw [List.length_set]; exact hi), List.getElem?_set_self hi]
    rfl
  constructor
  · intro ht
    rw [gen _ rfl rfl ht, run_create]
    by_cases hm : lockTable l ∈ c.tables
    · simp only [if_pos hm, Pc.resume, attempt_busy]
    · simp only [if_neg hm, Pc.resume, Attempt.of]
  · intro ht
    rw [gen _ rfl rfl ht, run_create]
    by_cases hm : lockTable l ∈ c.tables
    · simp only [if_pos hm, Pc.resume, attempt_busy]
    · simp only [if_neg hm, Pc.resume, Attempt.of]

/-- C58: what the calls do: `try_lock` and `lock` ask the server once for the table; if it is not there the caller holds the lock, and if
it is, `try_lock` says so and `lock` sleeps for 100 ms. -/
theorem C58_calls (lex : Str → List Token) (c : Cloud) (l : Lock) (hk : l.client ∉ c.dead) (pre post : Str) (v : Reply) :
    ((c.run lex [.callTryLock l, .start c.tasks.length, .serve c.tasks.length (.runs pre post v), .recv c.tasks.length]).tasks[c.tasks.length]?.map Task.pc =
      some (if lockTable l ∈ c.tables then .refused l else .holds l)) ∧
    ((c.run lex [.callLock l, .start c.tasks.length, .serve c.tasks.length (.runs pre post v), .recv c.tasks.length]).tasks[c.tasks.length]?.map Task.pc =
      some (if lockTable l ∈ c.tables then .lockSleep l (c.now + 100) else .holds l)) := by
  have last : ∀ t : Task, (c.tasks ++ [t])[c.tasks.length]? = some t := fun t => by
    rw [List.getElem?_append_right (Nat.le_refl _), Nat.sub_self]; rfl
  have lastSet : ∀ t u : Task, ((c.tasks ++ [t]).set c.tasks.length u)[c.tasks.length]? = some u := fun t u =>
    List.getElem?_set_self (by rw [List.length_append, List.length_singleton]; exact Nat.lt_succ_self _)
  have hc1 : (Pc.tryLock l).cut c.dead = false := by simp [Pc.cut, Pc.client, hk]
  have hc2 : (Pc.lock l).cut c.dead = false := by simp [Pc.cut, Pc.client, hk]
  constructor
  · have e : (c.run lex [.callTryLock l, .start c.tasks.length]) = { c with tasks := (c.tasks ++ [(⟨.tryLock l, .ready⟩ : Task)]).set c.tasks.length (⟨.tryLock l, .sent⟩ : Task) } := by
      simp only [Cloud.run, Cloud.step, Cloud.spawn, last, Cloud.put, Pc.request, Option.isSome_some, if_true, hc1, Bool.false_eq_true, if_false]
    have := (C58_attempt lex (c.run lex [.callTryLock l, .start c.tasks.length]) c.tasks.length l (by rw [e]; exact hk) pre post v).1 (by rw [e]; exact lastSet _ _)
    rw [e] at this
    rw [show [CloudStep.callTryLock l, .start c.tasks.length, .serve c.tasks.length (.runs pre post v), .recv c.tasks.length] =
      [.callTryLock l, .start c.tasks.length] ++ [.serve c.tasks.length (.runs pre post v), .recv c.tasks.length] from rfl, run_append, e]
    exact this
  · have e : (c.run lex [.callLock l, .start c.tasks.length]) = { c with tasks := (c.tasks ++ [(⟨.lock l, .ready⟩ : Task)]).set c.tasks.length (⟨.lock l, .sent⟩ : Task) } := by
      simp only [Cloud.run, Cloud.step, Cloud.spawn, last, Cloud.put, Pc.request, Option.isSome_some, if_true, hc2, Bool.false_eq_true, if_false]
    have := (C58_attempt lex (c.run lex [.callLock l, .start c.tasks.length]) c.tasks.length l (by rw [e]; exact hk) pre post v).2 (by rw [e]; exact lastSet _ _)
    rw [e] at this
    rw [show [CloudStep.callLock l, .start c.tasks.length, .serve c.tasks.length (.runs pre post v), .recv c.tasks.length] =
      [.callLock l, .start c.tasks.length] ++ [.serve c.tasks.length (.runs pre post v), .recv c.tasks.length] from rfl, run_append, e]
    exact this

/-- C58: a refused `lock` tries again once its sleep is over. -/
theorem C58_lock_tries_again (lex : Str → List Token) (c : Cloud) (i : Nat) (l : Lock) (w ms : Nat) (hk : l.client ∉ c.dead) (ht : c.tasks[i]? = some ⟨.lockSleep l w, .ready⟩)
    (hw : w ≤ c.now + ms) : (c.run lex [.tick ms, .wake i, .start i]).tasks[i]? = some ⟨.lock l, .sent⟩ := by
  have hi := lt_of_get ht
  have hwk : (Pc.lockSleep l w).wake (c.now + ms) = .lock l := by simp only [Pc.wake, if_pos hw]
  have hcut : ¬ (Pc.lock l).cut c.dead = true := by simp [Pc.cut, Pc.client, hk]
  simp only [Cloud.run, Cloud.step, ht, Cloud.put, hwk, List.getElem?_set_self hi, Pc.request, Option.isSome_some, if_true, List.set_set, if_neg hcut]

/-- C58: once the server has run a release, the table is gone. -/
theorem C58_released (lex : Str → List Token) (c : Cloud) (i : Nat) (l : Lock) (hk : l.client ∉ c.dead) (pre post : Str) (v : Reply) (pc : Pc)
    (hpc : pc = .unlock l ∨ pc = .dropped l ∨ pc = .reset l) (ht : c.tasks[i]? = some ⟨pc, .sent⟩) :
    lockTable l ∉ (c.step lex (.serve i (.runs pre post v))).tables := by
  have : ∃ p, pc.request = some (p, l.dropText) ∧ pc.client = some l.client := by rcases hpc with rfl | rfl | rfl <;> exact ⟨_, rfl, rfl⟩
  obtain ⟨p, hp, hcl⟩ := this
  have hcut : ¬ pc.cut c.dead = true := by simp [Pc.cut, hcl, hk]
  simp only [Cloud.step, ht, hp, Cloud.served, if_neg hcut, run_drop]
  simp

/-- C58: a released lock can be acquired again, by anybody: the attempt whose request the server runs next gets it. -/
theorem C58_reacquired (lex : Str → List Token) (c : Cloud) (i j : Nat) (l l' : Lock) (hl : lockTable l' = lockTable l) (hk : l.client ∉ c.dead) (hk' : l'.client ∉ c.dead)
    (hij : i ≠ j) (pre post : Str) (v : Reply)
    (pc : Pc) (hpc : pc = .unlock l ∨ pc = .dropped l ∨ pc = .reset l) (ht : c.tasks[i]? = some ⟨pc, .sent⟩)
    (hj : c.tasks[j]? = some ⟨.tryLock l', .sent⟩ ∨ c.tasks[j]? = some ⟨.lock l', .sent⟩) :
    (c.run lex [.serve i (.runs pre post v), .serve j (.runs pre post v), .recv j]).tasks[j]?.map Task.pc = some (.holds l') := by
  have hfree := C58_released lex c i l hk pre post v pc hpc ht
  rw [← hl] at hfree
  have hkeep : (c.step lex (.serve i (.runs pre post v))).tasks[j]? = c.tasks[j]? ∧ (c.step lex (.serve i (.runs pre post v))).dead = c.dead := by
    have : ∃ p, pc.request = some (p, l.dropText) ∧ pc.client = some l.client := by rcases hpc with rfl | rfl | rfl <;> exact ⟨_, rfl, rfl⟩
    obtain ⟨p, hp, hcl⟩ := this
    have hcut : ¬ pc.cut c.dead = true := by simp [Pc.cut, hcl, hk]
    simp only [Cloud.step, ht, hp, Cloud.served, if_neg hcut, List.getElem?_set_ne hij, and_self]
  obtain ⟨h1, h2⟩ := C58_attempt lex (c.step lex (.serve i (.runs pre post v))) j l' (by rw [hkeep.2]; exact hk') pre post v
  rw [hkeep.1] at h1 h2
  have : c.run lex [.serve i (.runs pre post v), .serve j (.runs pre post v), .recv j] =
      (c.step lex (.serve i (.runs pre post v))).run lex [.serve j (.runs pre post v), .recv j] := rfl
  rw [this]
  rcases hj with hj | hj
  · rw [h1 hj, if_neg hfree]
  · rw [h2 hj, if_neg hfree]

example : (Cloud.init.run (fun _ => []) (exContended ++ [.callUnlock 1, .start 1, .callLock exLock, .start 2, .serve 1 (.runs [] [] (.ok ())),
    .serve 2 (.runs [] [] (.ok ())), .recv 2])).tasks = [⟨.refused exLock, .ready⟩, ⟨.unlock exLock', .answered (.ok ())⟩, ⟨.holds exLock, .ready⟩] := by rfl

/-- The tokens of tasks at rest. -/
theorem tokens_rest (T : Str) (ts : List Task) (h : ∀ t ∈ ts, AtRest t) : tokens T ts = 0 := by
  induction ts with
  | nil => rfl
  | cons t ts ih =>
    have h0 : t.token T = 0 := by
      obtain ⟨pc, w⟩ := t
      obtain ⟨h1, h2⟩ := h ⟨pc, w⟩ (by simp)
      cases pc with
      | holds l => exact absurd rfl (h2 l)
      | mig m p => cases p <;> first | rfl | cases h1
      | _ => first | rfl | cases h1
    have := ih (fun t ht => h t (by simp [ht]))
    simp only [tokens, List.map_cons, List.sum_cons] at this ⊢
    omega

/-- C58: if nobody died, no request failed and no connection broke, the lock is free whenever all calls have returned and all handles are released
(and the tasks spawned by dropped handles have run). -/
theorem C58_free_at_rest (lex : Str → List Token) (T : Str) (steps : List CloudStep) (hs : ∀ s ∈ steps, InnocentStep lex T s ∧ Calm s)
    (hrest : ∀ t ∈ (Cloud.init.run lex steps).tasks, AtRest t) : T ∉ (Cloud.init.run lex steps).tables := by
  have h : (Cloud.init.run lex steps).Owned lex T := Cloud.Owned.run steps ⟨rfl, Nat.le_refl _, fun _ h => by cases h⟩ hs
  have h1 := h.owner
  rw [tokens_rest T _ hrest] at h1
  intro hm
  simp [there, hm] at h1

/-- C58, what a death costs: if the table is there while nobody is in a call or has a handle, nobody whose connection lives ever gets the
lock again until somebody forces a reset. -/
theorem C58_stuck_until_reset (lex : Str → List Token) (T : Str) (before later : List CloudStep) (hin : ∀ s ∈ before ++ later, InnocentStep lex T s)
    (hrest : ∀ t ∈ (Cloud.init.run lex before).tasks, AtRest t) (hT : T ∈ (Cloud.init.run lex before).tables)
    (hforce : forcedResets T (Cloud.init.run lex (before ++ later)).log = forcedResets T (Cloud.init.run lex before).log) :
    ∀ t ∈ (Cloud.init.run lex (before ++ later)).tasks, Connected (Cloud.init.run lex (before ++ later)) t → ¬ HasLock T t := by
  have h0 : (Cloud.init.run lex before).Inv lex T (forcedResets T (Cloud.init.run lex before).log + 1) := by
    refine ⟨?_, ((cloud_init_inv lex T).run before (fun s hs => hin s (by simp [hs]))).clean⟩
    have := reals_le_tokens (Cloud.init.run lex before).dead T (Cloud.init.run lex before).tasks
    rw [tokens_rest T _ hrest] at this
    simp [there, hT]
    omega
  have h1 := (h0.run later (fun s hs => hin s (by simp [hs]))).bound
  rw [run_append] at hforce ⊢
  rw [hforce] at h1
  have := there_le T ((Cloud.init.run lex before).run lex later).tables
  intro t ht hcon hl
  obtain ⟨i, hi⟩ := List.getElem?_of_mem ht
  have h2 := reals_le ((Cloud.init.run lex before).run lex later).dead T _ i t hi
  rw [hasLock_real hl hcon] at h2
  omega

example : (∀ t ∈ (Cloud.init.run (fun _ => []) (exContended ++ [.crash 1])).tasks, AtRest t) ∧
    lockTable exLock ∈ (Cloud.init.run (fun _ => []) (exContended ++ [.crash 1])).tables := by
  refine ⟨?_, by decide⟩
  have : (Cloud.init.run (fun _ => []) (exContended ++ [.crash 1])).tasks = [⟨.refused exLock, .ready⟩, ⟨.gone, .ready⟩] := by rfl
  rw [this]
  intro t ht
  simp only [List.mem_cons, List.not_mem_nil, or_false] at ht
  rcases ht with rfl | rfl <;> exact ⟨rfl, fun l h => by cases h⟩

/-- C58: locks with different names (without spaces) have different tables. -/
theorem C58_names_apart (a b : Lock) (ha : ' ' ∉ a.name) (hb : ' ' ∉ b.name) : lockTable a = lockTable b ↔ a.name = b.name := by
  have htw : ∀ s : Str, ' ' ∉ s → s.takeWhile (· != ' ') = s := by
    intro s hs
    induction s with
    | nil => rfl
    | cons c s ih =>
      simp only [List.mem_cons, not_or] at hs
      have : (c != ' ') = true := by simpa using fun e : c = ' ' => hs.1 e.symm
      simp [this, ih hs.2]
  unfold lockTable
  rw [htw _ ha, htw _ hb]
  simp

/-! ## C59 -/

/-- C59: at every moment the statements of the batch the server has run are, in order and each once, the first so many statements
of the batch. `before` is any history before the call, `later` anything that happens after it. -/
theorem C59_in_order (lex : Str → List Token) (hlex : lex [] = []) (m : Migrator) (scripts : List Str) (before later : List CloudStep) :
    ranBy (Cloud.init.run lex before).tasks.length (Cloud.init.run lex (before ++ .callMigrate m scripts :: later)).log <+: allStatements lex m scripts := by
  obtain ⟨t, _, hs⟩ := stands_of_call lex hlex m scripts before later
  exact stands_prefix hs

/-- C59: when the call returns `Ok(n)`, the server has run every statement of every script exactly once and in order, each was
reported as successful, `n` is the number of scripts, and the release of the lock was reported as successful. -/
theorem C59_complete (lex : Str → List Token) (hlex : lex [] = []) (m m' : Migrator) (scripts : List Str) (before later : List CloudStep) (n : Nat) (w : Wire)
    (hdone : (Cloud.init.run lex (before ++ .callMigrate m scripts :: later)).tasks[(Cloud.init.run lex before).tasks.length]? =
      some ⟨.mig m' (.done (.ok n)), w⟩) :
    let i := (Cloud.init.run lex before).tasks.length
    let log := (Cloud.init.run lex (before ++ .callMigrate m scripts :: later)).log
    ranBy i log = allStatements lex m scripts ∧ answersTo i log = (allStatements lex m scripts).map (fun q => (q, .ok ())) ∧
      n = scripts.length ∧ unlocksOf i log = [.ok ()] := by
  obtain ⟨t, ht, hs⟩ := stands_of_call lex hlex m scripts before later
  rw [hdone] at ht
  cases ht
  obtain ⟨_, h1, h2, h3, h4⟩ := hs
  exact ⟨h2, h3, h1, h4⟩

/-- C59: when the call returns an error `e`, then either the lock was never obtained and nothing was run; or every statement
before some statement `q` was reported as successful, `e` is the error reported for `q`, and no later statement was run; or all
statements were reported as successful and `e` is the error of releasing the lock. What was reported as successful was run, with one
exception: the last statement so reported, if the connection has broken. -/
theorem C59_first_failure (lex : Str → List Token) (hlex : lex [] = []) (m m' : Migrator) (scripts : List Str) (before later : List CloudStep) (e : Str) (w : Wire)
    (hdone : (Cloud.init.run lex (before ++ .callMigrate m scripts :: later)).tasks[(Cloud.init.run lex before).tasks.length]? =
      some ⟨.mig m' (.done (.error e)), w⟩) :
    let i := (Cloud.init.run lex before).tasks.length
    let log := (Cloud.init.run lex (before ++ .callMigrate m scripts :: later)).log
    let dead := (Cloud.init.run lex (before ++ .callMigrate m scripts :: later)).dead
    (ranBy i log = [] ∧ answersTo i log = []) ∨
    (∃ past q later, allStatements lex m scripts = past ++ q :: later ∧ answersTo i log = past.map (fun q => (q, .ok ())) ++ [(q, .error e)] ∧
      (ranBy i log = past ∨ ranBy i log = past ++ [q] ∨ m.client ∈ dead ∧ ∃ x, past = ranBy i log ++ [x])) ∨
    ((ranBy i log = allStatements lex m scripts ∨ m.client ∈ dead ∧ ∃ x, allStatements lex m scripts = ranBy i log ++ [x]) ∧ answersTo i log = (allStatements lex m scripts).map (fun q => (q, .ok ())) ∧
      unlocksOf i log = [.error e]) := by
  obtain ⟨t, ht, hs⟩ := stands_of_call lex hlex m scripts before later
  rw [hdone] at ht
  cases ht
  obtain ⟨_, h | ⟨past, q, later, h1, h2, h3, h4⟩ | ⟨h1, h2, h3⟩⟩ := hs
  · simp only [history, Prod.mk.injEq] at h
    exact .inl ⟨h.1, h.2.1⟩
  · refine .inr (.inl ⟨past, q, later, h1, h3, ?_⟩)
    rcases h2 with h | h | ⟨hc, h⟩
    · exact .inl h
    · exact .inr (.inl h)
    · exact .inr (.inr ⟨by simpa using hc, h⟩)
  · refine .inr (.inr ⟨?_, h2, h3⟩)
    rcases h1 with h | ⟨hc, h⟩
    · exact .inl h
    · exact .inr ⟨by simpa using hc, h⟩

/-- The events a step adds. -/
theorem ran_step (lex : Str → List Token) (c : Cloud) (s : CloudStep) (i : Nat) (q : Str)
    (h : ranBy i (c.step lex s).log = ranBy i c.log ++ [q]) :
    ∃ m n rest scripts, c.tasks[i]? = some ⟨.mig m (.running n q rest scripts), .sent⟩ := by
  have hne : ∀ log : List LockEv, ranBy i log = ranBy i log ++ [q] → False := by
    intro log h
    have := congrArg List.length h
    simp at this
  have hran : ∀ (j : Nat) (pc : Pc) (p : Purpose) (q' : Str), c.tasks[j]? = some ⟨pc, .sent⟩ → pc.request = some (p, q') →
      ranBy i (c.log ++ [.ran j p q']) = ranBy i c.log ++ [q] → ∃ m n rest scripts, c.tasks[i]? = some ⟨.mig m (.running n q rest scripts), .sent⟩ := by
    intro j pc p q' hj hp he
    rw [ranBy_append] at he
    have he := List.append_cancel_left he
    by_cases hji : j = i
    · subst hji
      cases p with
      | statement =>
        simp [ranBy] at he
        subst he
        cases pc with
        | mig m x =>
          cases x with
          | running n q' rest ss =>
            simp only [Pc.request, Option.some.injEq, Prod.mk.injEq, true_and] at hp
            subst hp
            exact ⟨m, n, rest, ss, hj⟩
          | _ => simp [Pc.request] at hp
        | _ => simp [Pc.request] at hp
      | _ => simp [ranBy] at he
    · cases p <;> simp [ranBy, hji] at he
  cases s with
  | serve j f =>
    simp only [Cloud.step] at h
    split at h
    · rename_i pc hj
      split at h
      · rename_i p q' hp
        cases f with
        | runs pre post v =>
          simp only [Cloud.served] at h
          split at h
          · exact (hne _ h).elim
          · exact hran j pc p q' hj hp h
        | rejected e => exact (hne _ h).elim
        | lostBefore e => exact (hne _ h).elim
        | lostAfter e => exact hran j pc p q' hj hp h
      · exact (hne _ h).elim
    · exact (hne _ h).elim
  | recv j =>
    simp only [Cloud.step] at h
    split at h
    · split at h
      · simp only [Cloud.received] at h
        rw [ranBy_append] at h
        have e1 : ∀ p q r, ranBy i [.answer j p q r] = [] := fun _ _ _ => rfl
        rw [e1, List.append_nil] at h
        exact (hne _ h).elim
      · exact (hne _ h).elim
    · exact (hne _ h).elim
  | start j => simp only [Cloud.step] at h; (repeat' split at h) <;> exact (hne _ h).elim
  | wake j => simp only [Cloud.step] at h; (repeat' split at h) <;> exact (hne _ h).elim
  | callUnlock j => simp only [Cloud.step] at h; (repeat' split at h) <;> exact (hne _ h).elim
  | dropHandle j => simp only [Cloud.step] at h; (repeat' split at h) <;> exact (hne _ h).elim
  | crash j => simp only [Cloud.step] at h; (repeat' split at h) <;> exact (hne _ h).elim
  | cancel j => simp only [Cloud.step] at h; (repeat' split at h) <;> exact (hne _ h).elim
  | _ => exact (hne _ h).elim

/-- C59: whenever the server runs a statement of a migration, that migration has its lock; and unless the lock was ever forcibly
reset, the lock table is there and no other task whose connection lives has the lock. -/
theorem C59_under_lock_partial (lex : Str → List Token) (steps : List CloudStep) (s : CloudStep) (i : Nat) (q : Str)
    (hran : ranBy i ((Cloud.init.run lex steps).step lex s).log = ranBy i (Cloud.init.run lex steps).log ++ [q]) :
    ∃ m n rest scripts, (Cloud.init.run lex steps).tasks[i]? = some ⟨.mig m (.running n q rest scripts), .sent⟩ ∧
      HasLock (lockTable m.lock) ⟨.mig m (.running n q rest scripts), .sent⟩ ∧
      ((∀ s ∈ steps, InnocentStep lex (lockTable m.lock) s) → forcedResets (lockTable m.lock) (Cloud.init.run lex steps).log = 0 →
        lockTable m.lock ∈ (Cloud.init.run lex steps).tables ∧
        ∀ (j : Nat) (u : Task), (Cloud.init.run lex steps).tasks[j]? = some u → HasLock (lockTable m.lock) u →
          Connected (Cloud.init.run lex steps) u → j = i) := by
  obtain ⟨m, n, rest, scripts, ht⟩ := ran_step lex _ s i q hran
  have hl : HasLock (lockTable m.lock) ⟨.mig m (.running n q rest scripts), .sent⟩ := .inr ⟨m, n, q, rest, scripts, rfl, rfl⟩
  refine ⟨m, n, rest, scripts, ht, hl, fun hin hf => ?_⟩
  have hb := ((cloud_init_inv lex (lockTable m.lock)).run steps hin).bound
  have hreal : (Task.mk (.mig m (.running n q rest scripts)) .sent).real (Cloud.init.run lex steps).dead (lockTable m.lock) = 1 := by
    rw [real_sent, hasLock_token hl]
  rw [hf] at hb
  refine ⟨?_, fun j u hu hul hcon => ?_⟩
  · have := reals_le (Cloud.init.run lex steps).dead (lockTable m.lock) _ i _ ht
    rw [hreal] at this
    by_cases hm : lockTable m.lock ∈ (Cloud.init.run lex steps).tables
    · exact hm
    · simp only [there, if_neg hm] at hb; omega
  · by_cases hij : i = j
    · exact hij.symm
    · have h1 := reals_set (Cloud.init.run lex steps).dead (lockTable m.lock) _ i _ ⟨.gone, .ready⟩ ht
      have h2 := reals_le (Cloud.init.run lex steps).dead (lockTable m.lock) ((Cloud.init.run lex steps).tasks.set i ⟨.gone, .ready⟩) j u
        (by rw [List.getElem?_set_ne hij]; exact hu)
      rw [hasLock_real hul hcon] at h2
      rw [hreal, real_gone] at h1
      have := there_le (lockTable m.lock) (Cloud.init.run lex steps).tables
      omega

/-- C59: a failing statement ends the call with its error, and a task is spawned whose only work is to release the lock. -/
theorem C59_releases_on_failure (lex : Str → List Token) (c : Cloud) (i n : Nat) (m : Migrator) (q : Str) (rest scripts : List Str) (e : Str)
    (ht : c.tasks[i]? = some ⟨.mig m (.running n q rest scripts), .answered (.error e)⟩) :
    (c.step lex (.recv i)).tasks = c.tasks.set i ⟨.mig m (.done (.error e)), .ready⟩ ++ [⟨.dropped m.lock, .ready⟩] := by
  simp only [Cloud.step, ht, Pc.request, Cloud.received, Pc.resume, List.map_cons, List.map_nil]

/-- C59: success or failure, when everything has come to rest the migration lock is free, if nobody died and no connection
broke. -/
theorem C59_lock_free_afterwards (lex : Str → List Token) (m : Migrator) (steps : List CloudStep)
    (hs : ∀ s ∈ steps, InnocentStep lex (lockTable m.lock) s ∧ Calm s)
    (hrest : ∀ t ∈ (Cloud.init.run lex steps).tasks, AtRest t) : lockTable m.lock ∉ (Cloud.init.run lex steps).tables :=
  C58_free_at_rest lex _ steps hs hrest

/-- A tokenizer good enough for the examples. -/
def exLex (s : Str) : List Token := s.map (fun c => if c = ';' then .semicolon else .other [c])

/-- Two scripts, the second of which fails at its first statement. -/
def exFailing : List CloudStep :=
  [.callMigrate ⟨none, 0⟩ [ch! "A;B", [], ch! "C;D"], .start 0, .serve 0 (.runs [] [] (.ok ())), .recv 0,
   .start 0, .serve 0 (.runs [] [] (.ok ())), .recv 0, .start 0, .serve 0 (.runs [] [] (.ok ())), .recv 0,
   .start 0, .serve 0 (.runs [] [] (.error (ch! "no"))), .recv 0]

example : (Cloud.init.run exLex exFailing).tasks = [⟨.mig ⟨none, 0⟩ (.done (.error (ch! "no"))), .ready⟩, ⟨.dropped ⟨ch! "refinery_exec", none, 0⟩, .ready⟩] ∧
    ranBy 0 (Cloud.init.run exLex exFailing).log = [ch! "A;", ch! "B", ch! "C;"] ∧
    (Cloud.init.run exLex (exFailing ++ [.start 1, .serve 1 (.runs [] [] (.ok ())), .recv 1])).tables = [] := by
  refine ⟨by rfl, by rfl, by rfl⟩

/-- The same batch, all well. -/
def exGood : List CloudStep :=
  [.callMigrate ⟨none, 0⟩ [ch! "A;B", [], ch! "C"], .start 0, .serve 0 (.runs [] [] (.ok ())), .recv 0,
   .start 0, .serve 0 (.runs [] [] (.ok ())), .recv 0, .start 0, .serve 0 (.runs [] [] (.ok ())), .recv 0,
   .start 0, .serve 0 (.runs [] [] (.ok ())), .recv 0, .start 0, .serve 0 (.runs [] [] (.ok ())), .recv 0]

example : (Cloud.init.run exLex exGood).tasks = [⟨.mig ⟨none, 0⟩ (.done (.ok 3)), .ready⟩] ∧
    ranBy 0 (Cloud.init.run exLex exGood).log = [ch! "A;", ch! "B", ch! "C"] := by
  refine ⟨by rfl, by rfl⟩

/-- C59 is false as it stands: a migration that has waited for a minute takes the lock away from one that is still running, and
the server then runs statements of both under "the" lock. -/
theorem C59_lock_stolen_false : ∃ (steps : List CloudStep) (t u : Task) (n n' : Nat) (q q' : Str) (r r' s s' : List Str),
    (∀ x ∈ steps, InnocentStep exLex (lockTable (Migrator.lock ⟨none, 0⟩)) x ∧ Calm x) ∧
    (Cloud.init.run exLex steps).tasks = [t, u] ∧ t = ⟨.mig ⟨none, 0⟩ (.running n q r s), .sent⟩ ∧ u = ⟨.mig ⟨none, 1⟩ (.running n' q' r' s'), .sent⟩ := by
  refine ⟨[.callMigrate ⟨none, 0⟩ [ch! "A"], .start 0, .serve 0 (.runs [] [] (.ok ())), .recv 0, .start 0,
    .callMigrate ⟨none, 1⟩ [ch! "B"], .start 1, .serve 1 (.runs [] [] (.ok ())), .recv 1, .tick 60001, .wake 1, .start 1,
    .serve 1 (.runs [] [] (.ok ())), .recv 1, .start 1, .serve 1 (.runs [] [] (.ok ())), .recv 1, .start 1],
    _, _, 1, 1, ch! "A", ch! "B", [], [], [], [], ?_, by rfl, rfl, rfl⟩
  intro x hx
  simp only [List.mem_cons, List.not_mem_nil, or_false] at hx
  rcases hx with rfl | rfl | rfl | rfl | rfl | rfl | rfl | rfl | rfl | rfl | rfl | rfl | rfl | rfl | rfl | rfl | rfl | rfl <;> refine ⟨?_, trivial⟩ <;> first
    | trivial
    | (intro s hs q hq
       simp only [List.mem_cons, List.not_mem_nil, or_false] at hs
       subst hs
       have : q = ch! "A" ∨ q = ch! "B" := by
         simp [exLex, splitQueryStatements, splitLoop, trim, trimEnd, isWs, Token.text] at hq
         first | exact .inl hq | exact .inr hq
       rcases this with rfl | rfl <;> exact ⟨by decide, by decide⟩)

/-- C59: a waiting migration never forces a reset within the first minute. -/
theorem C59_patient (now start w : Nat) (m : Migrator) (scripts : List Str) (h : now - start ≤ 60000) :
    (Pc.mig m (.pause start w scripts)).wake now = .mig m (.pause start w scripts) ∨
    (Pc.mig m (.pause start w scripts)).wake now = .mig m (.acquire start scripts) := by
  simp only [Pc.wake]
  by_cases hw : w ≤ now
  · rw [if_pos hw, if_neg (by omega)]; exact .inr rfl
  · rw [if_neg hw]; exact .inl rfl

/-! ### A batch that nothing disturbs ends -/

/-- One request of task `i`, answered. -/
def turn (i : Nat) : List CloudStep := [.start i, .serve i (.runs [] [] (.ok ())), .recv i]

theorem turn_eq (lex : Str → List Token) (c : Cloud) (i : Nat) (pc : Pc) (p : Purpose) (q : Str) (ht : c.tasks[i]? = some ⟨pc, .ready⟩)
    (hreq : pc.request = some (p, q)) (hal : ¬ pc.cut c.dead = true) :
    (c.run lex (turn i)).tasks[i]? = some ⟨(pc.resume lex c.now (serverRun [] [] (.ok ()) q c.tables).2).1, .ready⟩ ∧
    (c.run lex (turn i)).tables = (serverRun [] [] (.ok ()) q c.tables).1 ∧ (c.run lex (turn i)).now = c.now ∧ (c.run lex (turn i)).dead = c.dead := by
  have hi := lt_of_get ht
  have e1 : c.step lex (.start i) = c.put i ⟨pc, .sent⟩ := by simp only [Cloud.step, ht, hreq, Option.isSome_some, if_true, if_neg hal]
  have hg : (c.put i ⟨pc, .sent⟩).tasks[i]? = some ⟨pc, .sent⟩ := List.getElem?_set_self hi
  have e2 : (c.put i ⟨pc, .sent⟩).step lex (.serve i (.runs [] [] (.ok ()))) = (c.put i ⟨pc, .sent⟩).served i pc p q (.runs [] [] (.ok ())) := by
    simp only [Cloud.step, hg, hreq]
  have hg2 : ((c.put i ⟨pc, .sent⟩).served i pc p q (.runs [] [] (.ok ()))).tasks[i]? =
      some ⟨pc, .answered (serverRun [] [] (.ok ()) q c.tables).2⟩ := by
    simp only [Cloud.served, Cloud.put, if_neg hal, List.set_set]
    exact List.getElem?_set_self hi
  have e3 : c.run lex (turn i) = ((c.put i ⟨pc, .sent⟩).served i pc p q (.runs [] [] (.ok ()))).received lex i pc p q (serverRun [] [] (.ok ()) q c.tables).2 := by
    simp only [turn, Cloud.run, e1, e2]
    simp only [Cloud.step, hg2, hreq]
  rw [e3]
  simp only [Cloud.received, Cloud.served, Cloud.put, if_neg hal, List.set_set]
  refine ⟨?_, by trivial, by trivial, by trivial⟩
  rw [List.getElem?_append_left (by rw [List.length_set]; exact hi), List.getElem?_set_self hi]

/-- A running batch with nothing in its way. -/
theorem runs_to_end (lex : Str → List Token) (m : Migrator) (i : Nat) :
    ∀ (k : Nat) (c : Cloud) (p : MigPc), m.client ∉ c.dead → c.tasks[i]? = some ⟨.mig m p, .ready⟩ →
      ((∃ n, p = .finish n) ∧ k = 0 ∨ ∃ n q rest ss, p = .running n q rest ss ∧ rest.length + (allStatements lex m ss).length < k ∧
        createdTable q = none ∧ (∀ x ∈ rest, createdTable (m.prepare x) = none) ∧ ∀ x ∈ allStatements lex m ss, createdTable x = none) →
      ∃ (turns : Nat) (n : Nat), (c.run lex (List.replicate turns (turn i)).flatten).tasks[i]? = some ⟨.mig m (.done (.ok n)), .ready⟩ := by
  intro k
  have hcut : ∀ (c : Cloud) (p : MigPc), m.client ∉ c.dead → ¬ (Pc.mig m p).cut c.dead = true := by
    intro c p h
    simp [Pc.cut, Pc.client, h]
  have hfin : ∀ (c : Cloud) (n : Nat), m.client ∉ c.dead → c.tasks[i]? = some ⟨.mig m (.finish n), .ready⟩ →
      ∃ (turns : Nat) (n : Nat), (c.run lex (List.replicate turns (turn i)).flatten).tasks[i]? = some ⟨.mig m (.done (.ok n)), .ready⟩ := by
    intro c n hal ht
    refine ⟨1, n, ?_⟩
    have := (turn_eq lex c i _ _ _ ht rfl (hcut c _ hal)).1
    rw [run_drop] at this
    simp only [Pc.resume] at this
    simpa using this
  have hloop : ∀ (ss : List Str) (n : Nat), (∀ x ∈ allStatements lex m ss, createdTable x = none) →
      (∃ n', m.scriptLoop lex n ss = .finish n') ∨ ∃ n' q rest ss', m.scriptLoop lex n ss = .running n' q rest ss' ∧
        rest.length + (allStatements lex m ss').length < (allStatements lex m ss).length ∧
        createdTable q = none ∧ (∀ x ∈ rest, createdTable (m.prepare x) = none) ∧ ∀ x ∈ allStatements lex m ss', createdTable x = none := by
    intro ss
    induction ss with
    | nil => intro n _; exact .inl ⟨n, rfl⟩
    | cons s ss ih =>
      intro n hc
      have hcons : allStatements lex m (s :: ss) = (splitQueryStatements (lex s)).map m.prepare ++ allStatements lex m ss := rfl
      have hlen : (allStatements lex m ss).length ≤ (allStatements lex m (s :: ss)).length := by rw [hcons]; simp
      have hc' : ∀ x ∈ allStatements lex m ss, createdTable x = none := fun x hx => hc x (by rw [hcons]; simp [hx])
      have lift : ∀ n, (∃ n', m.scriptLoop lex n ss = .finish n') ∨ (∃ n' q rest ss', m.scriptLoop lex n ss = .running n' q rest ss' ∧
          rest.length + (allStatements lex m ss').length < (allStatements lex m (s :: ss)).length ∧
          createdTable q = none ∧ (∀ x ∈ rest, createdTable (m.prepare x) = none) ∧ ∀ x ∈ allStatements lex m ss', createdTable x = none) := by
        intro n
        rcases ih n hc' with h | ⟨n', q, rest, ss', h1, h2, h3⟩
        · exact .inl h
        · exact .inr ⟨n', q, rest, ss', h1, by omega, h3⟩
      simp only [Migrator.scriptLoop]
      split
      · exact lift _
      · cases hq : splitQueryStatements (lex s) with
        | nil => exact lift _
        | cons q qs =>
          have hq0 : q.isEmpty = false := by
            have := split_nonempty lex s q (by rw [hq]; simp)
            cases q with
            | nil => exact absurd rfl this
            | cons _ _ => rfl
          simp only [nextStatement, hq0]
          refine .inr ⟨_, _, _, _, rfl, ?_, ?_, ?_, hc'⟩
          · rw [hcons, hq]; simp
          · exact hc _ (by rw [hcons, hq]; simp)
          · intro x hx
            exact hc _ (by rw [hcons, hq]; simp only [List.map_cons, List.cons_append, List.mem_cons, List.mem_append, List.mem_map]
                           exact .inr (.inl ⟨x, hx, rfl⟩))
  induction k with
  | zero =>
    intro c p hal ht hp
    rcases hp with ⟨⟨n, rfl⟩, _⟩ | ⟨n, q, rest, ss, _, h, _⟩
    · exact hfin c n hal ht
    · omega
  | succ k ih =>
    intro c p hal ht hp
    rcases hp with ⟨⟨n, rfl⟩, _⟩ | ⟨n, q, rest, ss, rfl, hk, hq, hr, hs⟩
    · exact hfin c n hal ht
    · obtain ⟨hturn, _, _, hdead⟩ := turn_eq lex c i _ _ _ ht rfl (hcut c _ hal)
      have hal' : m.client ∉ (c.run lex (turn i)).dead := by rw [hdead]; exact hal
      have hrep : (serverRun [] [] (.ok ()) q c.tables).2 = .ok () := by
        unfold serverRun
        rw [hq]
        dsimp only
        split <;> rfl
      rw [hrep] at hturn
      simp only [Pc.resume] at hturn
      have step : ∀ p, (c.run lex (turn i)).tasks[i]? = some ⟨.mig m p, .ready⟩ →
          (∃ (turns : Nat) (n : Nat), ((c.run lex (turn i)).run lex (List.replicate turns (turn i)).flatten).tasks[i]? = some ⟨.mig m (.done (.ok n)), .ready⟩) →
          ∃ (turns : Nat) (n : Nat), (c.run lex (List.replicate turns (turn i)).flatten).tasks[i]? = some ⟨.mig m (.done (.ok n)), .ready⟩ := by
        rintro p _ ⟨t, n, h⟩
        refine ⟨t + 1, n, ?_⟩
        rw [List.replicate_succ, List.flatten_cons, run_append]
        exact h
      refine step _ hturn ?_
      unfold Migrator.nextOf at hturn
      cases hrest : rest with
      | nil =>
        rw [hrest] at hturn hk
        simp only [nextStatement] at hturn
        rcases hloop ss n hs with ⟨n', e⟩ | ⟨n', q', rest', ss', e, h1, h2⟩
        · rw [e] at hturn; exact hfin _ n' hal' hturn
        · rw [e] at hturn
          exact ih _ _ hal' hturn (.inr ⟨n', q', rest', ss', rfl, by simp only [List.length_nil] at hk; omega, h2⟩)
      | cons x xs =>
        rw [hrest] at hturn hk hr
        simp only [nextStatement] at hturn
        by_cases hx : x.isEmpty = true
        · -- an empty statement is skipped; splitting never produces one
          have key : ∀ (ys : List Str), (∀ y ∈ ys, createdTable (m.prepare y) = none) → ys.length ≤ xs.length →
              (∃ q' qs', nextStatement ys = some (q', qs') ∧ createdTable (m.prepare q') = none ∧ qs'.length < xs.length ∧ (∀ y ∈ qs', createdTable (m.prepare y) = none)) ∨ nextStatement ys = none := by
            intro ys
            induction ys with
            | nil => intro _ _; exact .inr rfl
            | cons y ys ihy =>
              intro h1 h2
              simp only [nextStatement]
              by_cases hy : y.isEmpty = true
              · rw [if_pos hy]
                exact ihy (fun z hz => h1 z (by simp [hz])) (by simp only [List.length_cons] at h2; omega)
              · rw [if_neg hy]
                exact .inl ⟨y, ys, rfl, h1 y (by simp), by simp only [List.length_cons] at h2; omega, fun z hz => h1 z (by simp [hz])⟩
          rw [if_pos hx] at hturn
          rcases key xs (fun y hy => hr y (by simp [hy])) (Nat.le_refl _) with ⟨q', qs', e, h1, h2, h3⟩ | e
          · rw [e] at hturn
            exact ih _ _ hal' hturn (.inr ⟨n, m.prepare q', qs', ss, rfl, by simp only [List.length_cons] at hk; omega, h1, h3, hs⟩)
          · rw [e] at hturn
            dsimp only at hturn
            rcases hloop ss n hs with ⟨n', e⟩ | ⟨n', q', rest', ss', e, h1, h2⟩
            · rw [e] at hturn; exact hfin _ n' hal' hturn
            · rw [e] at hturn
              exact ih _ _ hal' hturn (.inr ⟨n', q', rest', ss', rfl, by simp only [List.length_cons] at hk; omega, h2⟩)
        · rw [if_neg hx] at hturn
          exact ih _ _ hal' hturn (.inr ⟨n, m.prepare x, xs, ss, rfl, by simp only [List.length_cons] at hk; omega, hr x (by simp), fun y hy => hr y (by simp [hy]), hs⟩)

/-- C59: a batch called while the lock is free runs to its end if nothing goes wrong, from any state of the system (its
statements are not themselves lock statements). -/
theorem C59_runs_to_end (lex : Str → List Token) (hlex : lex [] = []) (m : Migrator) (scripts : List Str) (before : List CloudStep)
    (hal : m.client ∉ (Cloud.init.run lex before).dead) (hfree : lockTable m.lock ∉ (Cloud.init.run lex before).tables)
    (hst : ∀ q ∈ allStatements lex m scripts, createdTable q = none) :
    ∃ turns, (Cloud.init.run lex (before ++ .callMigrate m scripts :: (List.replicate turns (turn (Cloud.init.run lex before).tasks.length)).flatten)).tasks[(Cloud.init.run lex before).tasks.length]? =
      some ⟨.mig m (.done (.ok scripts.length)), .ready⟩ := by
  have hmain : ∃ (turns : Nat) (n : Nat), (Cloud.init.run lex (before ++ .callMigrate m scripts :: (List.replicate turns (turn (Cloud.init.run lex before).tasks.length)).flatten)).tasks[(Cloud.init.run lex before).tasks.length]? =
      some ⟨.mig m (.done (.ok n)), .ready⟩ := by
    simp only [run_append]
    generalize hc : Cloud.init.run lex before = c at hfree hal
    simp only [Cloud.run]
    generalize hi : c.tasks.length = i
    have ht : (c.step lex (.callMigrate m scripts)).tasks[i]? = some ⟨.mig m (.acquire c.now scripts), .ready⟩ := by
      rw [← hi]; simp [Cloud.step, Cloud.spawn]
    have hcut : ¬ (Pc.mig m (.acquire c.now scripts)).cut (c.step lex (.callMigrate m scripts)).dead = true := by
      show ¬ (Pc.mig m (.acquire c.now scripts)).cut c.dead = true
      simp [Pc.cut, Pc.client, hal]
    obtain ⟨h1, _, _, h2⟩ := turn_eq lex _ i _ _ _ ht rfl hcut
    have hal' : m.client ∉ ((c.step lex (.callMigrate m scripts)).run lex (turn i)).dead := by rw [h2]; exact hal
    have htab : (c.step lex (.callMigrate m scripts)).tables = c.tables := rfl
    rw [htab, run_create, if_neg hfree] at h1
    simp only [Pc.resume, Attempt.of] at h1
    have stand := scriptLoop_stands lex hlex m scripts false [] [] (.inl rfl) scripts 0 (by simp) (by simp)
    have fin : ∃ (turns : Nat) (n : Nat), (((c.step lex (.callMigrate m scripts)).run lex (turn i)).run lex (List.replicate turns (turn i)).flatten).tasks[i]? =
        some ⟨.mig m (.done (.ok n)), .ready⟩ := by
      rcases scriptLoop_cases m lex 0 scripts with ⟨n, e⟩ | ⟨n, q, rest, ss, e⟩
      · rw [e] at h1
        exact runs_to_end lex m i 0 _ _ hal' h1 (.inl ⟨⟨n, rfl⟩, rfl⟩)
      · rw [e] at h1 stand
        obtain ⟨_, _, _, past, hall, _⟩ := stand
        have hmem : ∀ x ∈ q :: (rest.map m.prepare ++ allStatements lex m ss), createdTable x = none := by
          intro x hx
          exact hst x (by rw [hall]; exact List.mem_append_right _ hx)
        refine runs_to_end lex m i (rest.length + (allStatements lex m ss).length + 1) _ _ hal' h1 (.inr ⟨n, q, rest, ss, rfl, by omega, hmem q (by simp), ?_, ?_⟩)
        · intro x hx
          exact hmem _ (by simp only [List.mem_cons, List.mem_append, List.mem_map]; exact .inr (.inl ⟨x, hx, rfl⟩))
        · intro x hx
          exact hmem _ (by simp [hx])
    obtain ⟨turns, n, h⟩ := fin
    refine ⟨turns + 1, n, ?_⟩
    rw [List.replicate_succ, List.flatten_cons, run_append]
    exact h
  obtain ⟨turns, n, h⟩ := hmain
  refine ⟨turns, ?_⟩
  rw [h, (C59_complete lex hlex m m scripts before _ n .ready h).2.2.1]

/-! ### Placeholders of cluster migrations -/

/-- C59: `str::replace` by its first match: where the pattern starts nowhere in `a` (continued by the rest), `a` is kept and the
match replaced, and so on from there; a text in which the pattern starts nowhere is kept. -/
theorem C59_replace_first (pat rep a b : Str) (hp : pat ≠ []) (hno : ∀ k, k < a.length → ¬ pat <+: (a ++ pat ++ b).drop k) :
    replaceAll pat rep (a ++ pat ++ b) = a ++ rep ++ replaceAll pat rep b := by
  unfold replaceAll
  induction a with
  | nil =>
    cases pat with
    | nil => exact absurd rfl hp
    | cons c p =>
      have hsk : ∀ (x y : Str), replaceGo (c :: p) rep x.length (x ++ y) = replaceGo (c :: p) rep 0 y := by
        intro x y
        induction x with
        | nil => rfl
        | cons d x ih => simp only [List.cons_append, List.length_cons, replaceGo]; exact ih
      have : List.isPrefixOf (c :: p) (c :: (p ++ b)) = true := by simp
      simp only [List.nil_append, List.cons_append, replaceGo, this, if_true, List.length_cons, Nat.add_sub_cancel]
      rw [hsk p b]
  | cons c a ih =>
    have h0 := hno 0 (by simp)
    have hpre : pat.isPrefixOf (c :: (a ++ pat ++ b)) = false := by
      rw [Bool.eq_false_iff]
      intro h
      rw [List.isPrefixOf_iff_prefix] at h
      exact h0 (by simpa using h)
    simp only [List.cons_append, replaceGo]
    have e : List.append a (pat ++ b) = a ++ (pat ++ b) := rfl
    rw [hpre]
    simp only [Bool.false_eq_true, if_false]
    rw [ih (fun k hk => by
      have := hno (k + 1) (by simp only [List.length_cons]; omega)
      simpa using this)]

theorem C59_replace_none (pat rep s : Str) (hno : ∀ k, k < s.length → ¬ pat <+: s.drop k) : replaceAll pat rep s = s := by
  unfold replaceAll
  induction s with
  | nil => rfl
  | cons c s ih =>
    have h0 := hno 0 (by simp)
    have hpre : pat.isPrefixOf (c :: s) = false := by
      rw [Bool.eq_false_iff]
      intro h
      rw [List.isPrefixOf_iff_prefix] at h
      exact h0 (by simpa using h)
    simp only [replaceGo, hpre, Bool.false_eq_true, if_false]
    rw [ih (fun k hk => by
      have := hno (k + 1) (by simp only [List.length_cons]; omega)
      simpa using this)]

example : (Migrator.mk (some (ch! "prod", ch! "app")) 0).prepare (ch! "CREATE TABLE %DATABASE%.t ON CLUSTER %CLUSTER% (i Int64)") =
    ch! "CREATE TABLE app.t ON CLUSTER prod (i Int64)" := by decide

/-- The statements of the lock of a migration on a cluster, while acquiring, forcing and releasing it: the table is created and
dropped on that cluster. -/
theorem C59_cluster_lock (cluster database : Str) (client start n : Nat) (scripts : List Str) :
    (Pc.mig ⟨some (cluster, database), client⟩ (.acquire start scripts)).request =
      some (.lock, ch! "CREATE TABLE _lock_refinery_exec ON CLUSTER " ++ cluster ++ ch! " (i Int64)ENGINE=Null") ∧
    (Pc.mig ⟨some (cluster, database), client⟩ (.force start scripts)).request =
      some (.force, ch! "DROP TABLE IF EXISTS _lock_refinery_exec ON CLUSTER " ++ cluster ++ ch! " SYNC") ∧
    (Pc.mig ⟨some (cluster, database), client⟩ (.finish n)).request =
      some (.unlock, ch! "DROP TABLE IF EXISTS _lock_refinery_exec ON CLUSTER " ++ cluster ++ ch! " SYNC") := by
  refine ⟨?_, ?_, ?_⟩ <;> simp [Pc.request, Migrator.lock, Lock.createText, Lock.dropText, Lock.clusterStr]

/-- Without a cluster. -/
theorem C59_plain_lock (client start n : Nat) (scripts : List Str) :
    (Pc.mig ⟨none, client⟩ (.acquire start scripts)).request = some (.lock, ch! "CREATE TABLE _lock_refinery_exec (i Int64)ENGINE=Null") ∧
    (Pc.mig ⟨none, client⟩ (.finish n)).request = some (.unlock, ch! "DROP TABLE IF EXISTS _lock_refinery_exec SYNC") := ⟨rfl, rfl⟩

/-- The statement a lock of any name is taken and given back with, alone and on a cluster. -/
theorem C58_statements (name cluster : Str) (client : Nat) :
    (Pc.tryLock ⟨name, none, client⟩).request = some (.lock, ch! "CREATE TABLE _lock_" ++ name ++ ch! " (i Int64)ENGINE=Null") ∧
    (Pc.lock ⟨name, some cluster, client⟩).request =
      some (.lock, ch! "CREATE TABLE _lock_" ++ name ++ ch! " ON CLUSTER " ++ cluster ++ ch! " (i Int64)ENGINE=Null") ∧
    (Pc.unlock ⟨name, none, client⟩).request = some (.unlock, ch! "DROP TABLE IF EXISTS _lock_" ++ name ++ ch! " SYNC") ∧
    (Pc.unlock ⟨name, some cluster, client⟩).request =
      some (.unlock, ch! "DROP TABLE IF EXISTS _lock_" ++ name ++ ch! " ON CLUSTER " ++ cluster ++ ch! " SYNC") := by
  refine ⟨?_, ?_, ?_, ?_⟩ <;> simp [Pc.request, Lock.createText, Lock.dropText, Lock.clusterStr]

/-- C58: whoever lets a handle go, by dropping it or by dropping the future that has it (a caller's, or a batch's in the middle of its
statements), spawns a task whose only work is to release the lock. -/
theorem C58_given_back (lex : Str → List Token) (c : Cloud) (i : Nat) (l : Lock) (m : Migrator) (n : Nat) (q : Str) (rest scripts : List Str) (w : Wire) (hw : w ≠ .sent) :
    (c.tasks[i]? = some ⟨.holds l, .ready⟩ →
      (c.step lex (.dropHandle i)).tasks = c.tasks.set i ⟨.gone, .ready⟩ ++ [⟨.dropped l, .ready⟩] ∧
      (c.step lex (.cancel i)).tasks = c.tasks.set i ⟨.gone, .ready⟩ ++ [⟨.dropped l, .ready⟩]) ∧
    (c.tasks[i]? = some ⟨.mig m (.running n q rest scripts), w⟩ →
      (c.step lex (.cancel i)).tasks = c.tasks.set i ⟨.gone, .ready⟩ ++ [⟨.dropped m.lock, .ready⟩]) := by
  refine ⟨fun h => ⟨?_, ?_⟩, fun h => ?_⟩
  · simp only [Cloud.step, h, Cloud.put, Cloud.spawn]
  · simp only [Cloud.step, h, Cloud.put, Cloud.spawns, Pc.owned, List.map_cons, List.map_nil]
  · cases w with
    | sent => exact absurd rfl hw
    | ready => simp only [Cloud.step, h, Cloud.put, Cloud.spawns, Pc.owned, List.map_cons, List.map_nil]
    | answered r => simp only [Cloud.step, h, Cloud.put, Cloud.spawns, Pc.owned, List.map_cons, List.map_nil]

/-- C59: an attempt at the lock that fails, and a forced reset that fails, end the call with that error; nothing is left to release. -/
theorem C59_no_lock_no_work (lex : Str → List Token) (c : Cloud) (i : Nat) (m : Migrator) (start : Nat) (scripts : List Str) (e : Str) :
    (c.tasks[i]? = some ⟨.mig m (.force start scripts), .answered (.error e)⟩ →
      (c.step lex (.recv i)).tasks = c.tasks.set i ⟨.mig m (.done (.error e)), .ready⟩) ∧
    (c.tasks[i]? = some ⟨.mig m (.acquire start scripts), .answered (.error e)⟩ → ¬ ch! "already exists" <:+: e →
      (c.step lex (.recv i)).tasks = c.tasks.set i ⟨.mig m (.done (.error e)), .ready⟩) := by
  refine ⟨fun h => ?_, fun h hno => ?_⟩
  · simp only [Cloud.step, h, Pc.request, Cloud.received, Pc.resume, List.map_nil, List.append_nil]
  · have hf : Attempt.of (.error e) = .failed e := by
      have : strContains (ch! "already exists") e = false := by
        rw [Bool.eq_false_iff]
        exact fun hc => hno ((contains_infix _ _).mp hc)
      simp only [Attempt.of, this, Bool.false_eq_true, if_false]
    simp only [Cloud.step, h, Pc.request, Cloud.received, Pc.resume, hf, List.map_nil, List.append_nil]

/-! ### Broken connections -/

/-- C59: `Ok` does not say that the lock is free: the connection broke while the release was out, `Client::execute` reported success,
and the lock table is still there, although all calls have returned. -/
theorem C59_unreleased_false : ∃ (steps : List CloudStep), (∀ t ∈ (Cloud.init.run exLex steps).tasks, AtRest t) ∧
    (Cloud.init.run exLex steps).tasks = [⟨.mig ⟨none, 0⟩ (.done (.ok 1)), .ready⟩] ∧
    lockTable (Migrator.lock ⟨none, 0⟩) ∈ (Cloud.init.run exLex steps).tables := by
  refine ⟨[.callMigrate ⟨none, 0⟩ [ch! "A"], .start 0, .serve 0 (.runs [] [] (.ok ())), .recv 0, .start 0, .serve 0 (.runs [] [] (.ok ())), .recv 0,
    .start 0, .serve 0 (.lostBefore (.ok ())), .recv 0], ?_, by rfl, by decide⟩
  intro t ht
  have : t ∈ [(⟨.mig ⟨none, 0⟩ (.done (.ok 1)), .ready⟩ : Task)] := ht
  simp only [List.mem_cons, List.not_mem_nil, or_false] at this
  subst this
  exact ⟨rfl, fun l h => by cases h⟩

/-- C59: a statement can be reported as successful although the server never ran it (the call then fails at the next request, here the
release of the lock): the third case of `C59_first_failure` with the connection broken. -/
theorem C59_phantom_false : ∃ (steps : List CloudStep), (Cloud.init.run exLex steps).tasks = [⟨.mig ⟨none, 0⟩ (.done (.error closedText)), .ready⟩] ∧
    answersTo 0 (Cloud.init.run exLex steps).log = [(ch! "A", .ok ())] ∧ ranBy 0 (Cloud.init.run exLex steps).log = [] :=
  ⟨[.callMigrate ⟨none, 0⟩ [ch! "A"], .start 0, .serve 0 (.runs [] [] (.ok ())), .recv 0, .start 0, .serve 0 (.lostBefore (.ok ())), .recv 0,
    .start 0, .recv 0], by rfl, by rfl, by rfl⟩

/-- Nothing of client `k` is out, and its connection has broken. -/
def Silent (k : Nat) (c : Cloud) : Prop := k ∈ c.dead ∧ ∀ t ∈ c.tasks, t.wire = .sent → t.pc.client ≠ some k

theorem silent_step (lex : Str → List Token) (k : Nat) (c : Cloud) (h : Silent k c) (s : CloudStep) : Silent k (c.step lex s) := by
  obtain ⟨hd, ht⟩ := h
  have hset : ∀ (ts : List Task) (i : Nat) (t : Task), (∀ t ∈ ts, t.wire = .sent → t.pc.client ≠ some k) → (t.wire = .sent → t.pc.client ≠ some k) →
      ∀ u ∈ ts.set i t, u.wire = .sent → u.pc.client ≠ some k := by
    intro ts i t h1 h2 u hu
    rcases List.mem_or_eq_of_mem_set hu with h | rfl
    · exact h1 u h
    · exact h2
  have happ : ∀ (ts : List Task) (ps : List Pc), (∀ t ∈ ts, t.wire = .sent → t.pc.client ≠ some k) →
      ∀ u ∈ ts ++ ps.map (⟨·, .ready⟩), u.wire = .sent → u.pc.client ≠ some k := by
    intro ts ps h1 u hu
    rcases List.mem_append.mp hu with h | h
    · exact h1 u h
    · obtain ⟨p, _, rfl⟩ := List.mem_map.mp h
      intro e; cases e
  have hput : ∀ (i : Nat) (t : Task), (t.wire = .sent → t.pc.client ≠ some k) → Silent k (c.put i t) := fun i t h => ⟨hd, hset _ i t ht h⟩
  cases s with
  | tick ms => exact ⟨hd, ht⟩
  | callTryLock l => exact ⟨hd, happ _ [_] ht⟩
  | callLock l => exact ⟨hd, happ _ [_] ht⟩
  | callReset l => exact ⟨hd, happ _ [_] ht⟩
  | callMigrate m ss => exact ⟨hd, happ _ [_] ht⟩
  | start i =>
    simp only [Cloud.step]
    split
    · rename_i pc _
      split
      · by_cases hc : pc.cut c.dead = true
        · rw [if_pos hc]; exact hput i _ (fun e => by cases e)
        · rw [if_neg hc]
          refine hput i _ (fun _ e => hc ?_)
          simp only [Pc.cut]
          dsimp only at e
          rw [e]
          simpa using hd
      · exact ⟨hd, ht⟩
    · exact ⟨hd, ht⟩
  | serve i f =>
    simp only [Cloud.step]
    split
    · split
      · cases f with
        | runs pre post v =>
          simp only [Cloud.served]
          split
          · exact ⟨hd, ht⟩
          · exact ⟨hd, hset _ i _ ht (fun e => by cases e)⟩
        | rejected e => exact hput i _ (fun e => by cases e)
        | lostBefore r => exact ⟨List.mem_append_right _ hd, hset _ i _ ht (fun e => by cases e)⟩
        | lostAfter r => exact ⟨List.mem_append_right _ hd, hset _ i _ ht (fun e => by cases e)⟩
      · exact ⟨hd, ht⟩
    · exact ⟨hd, ht⟩
  | recv i =>
    simp only [Cloud.step]
    split
    · split
      · exact ⟨hd, happ _ _ (hset _ i _ ht (fun e => by cases e))⟩
      · exact ⟨hd, ht⟩
    · exact ⟨hd, ht⟩
  | wake i =>
    simp only [Cloud.step]
    split
    · exact hput i _ (fun e => by cases e)
    · exact ⟨hd, ht⟩
  | callUnlock i =>
    simp only [Cloud.step]
    split
    · exact hput i _ (fun e => by cases e)
    · exact ⟨hd, ht⟩
  | dropHandle i =>
    simp only [Cloud.step]
    split
    · exact ⟨hd, happ _ [_] (hset _ i _ ht (fun e => by cases e))⟩
    · exact ⟨hd, ht⟩
  | crash i =>
    simp only [Cloud.step]
    split
    · exact ⟨hd, ht⟩
    · exact hput i _ (fun e => by cases e)
    · exact ⟨hd, ht⟩
  | cancel i =>
    simp only [Cloud.step]
    split
    · exact ⟨hd, ht⟩
    · exact ⟨hd, happ _ _ (hset _ i _ ht (fun e => by cases e))⟩
    · exact ⟨hd, ht⟩

theorem silent_run (lex : Str → List Token) (k : Nat) (steps : List CloudStep) (c : Cloud) (h : Silent k c) : Silent k (c.run lex steps) := by
  induction steps generalizing c with
  | nil => exact h
  | cons s ss ih => exact ih _ (silent_step lex k c h s)

/-- The server runs only what is out. -/
theorem ran_sent (lex : Str → List Token) (c : Cloud) (s : CloudStep) (j : Nat) (p : Purpose) (q : Str)
    (h : (c.step lex s).log = c.log ++ [.ran j p q]) : ∃ pc, c.tasks[j]? = some ⟨pc, .sent⟩ ∧ pc.request = some (p, q) := by
  have hne : c.log = c.log ++ [.ran j p q] → False := by
    intro h
    have := congrArg List.length h
    simp at this
  cases s with
  | serve i f =>
    simp only [Cloud.step] at h
    split at h
    · rename_i pc hj
      split at h
      · rename_i p' q' hp
        have key : c.log ++ [LockEv.ran i p' q'] = c.log ++ [.ran j p q] → ∃ pc, c.tasks[j]? = some ⟨pc, .sent⟩ ∧ pc.request = some (p, q) := by
          intro e
          have e := List.append_cancel_left e
          cases e
          exact ⟨pc, hj, hp⟩
        cases f with
        | runs pre post v =>
          simp only [Cloud.served] at h
          split at h
          · exact (hne h).elim
          · exact key h
        | rejected e => exact (hne h).elim
        | lostBefore e => exact (hne h).elim
        | lostAfter e => exact key h
      · exact (hne h).elim
    · exact (hne h).elim
  | recv i =>
    simp only [Cloud.step] at h
    split at h
    · split at h
      · have h := List.append_cancel_left h
        cases h
      · exact (hne h).elim
    · exact (hne h).elim
  | start j => simp only [Cloud.step] at h; (repeat' split at h) <;> exact (hne h).elim
  | wake j => simp only [Cloud.step] at h; (repeat' split at h) <;> exact (hne h).elim
  | callUnlock j => simp only [Cloud.step] at h; (repeat' split at h) <;> exact (hne h).elim
  | dropHandle j => simp only [Cloud.step] at h; (repeat' split at h) <;> exact (hne h).elim
  | crash j => simp only [Cloud.step] at h; (repeat' split at h) <;> exact (hne h).elim
  | cancel j => simp only [Cloud.step] at h; (repeat' split at h) <;> exact (hne h).elim
  | _ => exact (hne h).elim

/-- C58: a handle got from a broken connection is good for nothing, but does no harm either: once the connection of client `k` has broken and no
request of it is still out, the server never again runs anything for a task of `k`, in particular no release of somebody else's lock. -/
theorem C58_cut_off (lex : Str → List Token) (c : Cloud) (k : Nat) (hk : k ∈ c.dead) (hout : ∀ t ∈ c.tasks, t.pc.client = some k → t.wire ≠ .sent)
    (later : List CloudStep) (s : CloudStep) (j : Nat) (p : Purpose) (q : Str)
    (hran : ((c.run lex later).step lex s).log = (c.run lex later).log ++ [.ran j p q]) :
    ∃ t, (c.run lex later).tasks[j]? = some t ∧ t.pc.client ≠ some k := by
  have hs := silent_run lex k later c ⟨hk, fun t ht hw hc => hout t ht hc hw⟩
  obtain ⟨pc, hj, _⟩ := ran_sent lex _ s j p q hran
  exact ⟨_, hj, hs.2 _ (List.mem_of_getElem? hj) rfl⟩

/-- The case of `C58_lost_false`: task 1 lets its handle go; the release is refused, and the lock of task 0 stands. -/
example : (Cloud.init.run (fun _ => []) [.callTryLock exLock, .start 0, .serve 0 (.runs [] [] (.ok ())), .recv 0, .callTryLock exLock', .start 1,
    .serve 1 (.lostBefore (.ok ())), .recv 1, .callUnlock 1, .start 1, .serve 1 (.runs [] [] (.ok ())), .recv 1]).tasks =
      [⟨.holds exLock, .ready⟩, ⟨.returned (.error closedText), .ready⟩] ∧
    (Cloud.init.run (fun _ => []) [.callTryLock exLock, .start 0, .serve 0 (.runs [] [] (.ok ())), .recv 0, .callTryLock exLock', .start 1,
    .serve 1 (.lostBefore (.ok ())), .recv 1, .callUnlock 1, .start 1, .serve 1 (.runs [] [] (.ok ())), .recv 1]).tables = [lockTable exLock] := ⟨by rfl, by rfl⟩

/-- C58: a call through a broken connection fails at once and reaches nobody. -/
theorem C58_cut_fails (lex : Str → List Token) (c : Cloud) (i : Nat) (l : Lock) (hk : l.client ∈ c.dead) :
    (c.tasks[i]? = some ⟨.tryLock l, .ready⟩ ∨ c.tasks[i]? = some ⟨.lock l, .ready⟩ ∨ c.tasks[i]? = some ⟨.unlock l, .ready⟩ ∨ c.tasks[i]? = some ⟨.reset l, .ready⟩ →
      (c.run lex [.start i, .recv i]).tasks[i]? = some ⟨.returned (.error (ch! "protocol error: failed to send query: channel closed")), .ready⟩ ∧
      (c.run lex [.start i, .recv i]).tables = c.tables) := by
  rw [show ch! "protocol error: failed to send query: channel closed" = closedText from rfl]
  have gen : ∀ (pc : Pc) (p : Purpose) (q : Str), pc.request = some (p, q) → pc.client = some l.client → pc.resume lex c.now (.error closedText) = (.returned (.error closedText), []) →
      c.tasks[i]? = some ⟨pc, .ready⟩ →
      (c.run lex [.start i, .recv i]).tasks[i]? = some ⟨.returned (.error closedText), .ready⟩ ∧ (c.run lex [.start i, .recv i]).tables = c.tables := by
    intro pc p q hreq hcl hres ht
    have hi := lt_of_get ht
    have hcut : pc.cut c.dead = true := by simp [Pc.cut, hcl, hk]
    have hg : (c.tasks.set i ⟨pc, .answered (.error closedText)⟩)[i]? = some ⟨pc, .answered (.error closedText)⟩ := List.getElem?_set_self hi
    simp only [Cloud.run, Cloud.step, ht, hreq, Option.isSome_some, if_true, if_pos hcut, Cloud.put, hg, Cloud.received, hres, List.set_set, List.map_nil, List.append_nil,
      List.getElem?_set_self hi, and_self]
  have hf : Attempt.of (.error closedText) = .failed closedText := by decide
  rintro (h | h | h | h)
  · exact gen _ _ _ rfl rfl (by simp only [Pc.resume, hf]) h
  · exact gen _ _ _ rfl rfl (by simp only [Pc.resume, hf]) h
  · exact gen _ _ _ rfl rfl rfl h
  · exact gen _ _ _ rfl rfl rfl h

end Klick
