import Verif.LockLemmas
import Verif.Props.Sql
/-
The history of one migration task.
-/
namespace Klick
open Spec Props

/-- The task a step moves. -/
def CloudStep.target : CloudStep → Option Nat
  | .start i | .serve i _ | .recv i | .wake i | .callUnlock i | .dropHandle i | .crash i | .cancel i => some i
  | _ => none

/-- The events of a task. -/
def LockEv.who : LockEv → Nat
  | .ran i _ _ => i
  | .answer i _ _ _ => i

theorem ranBy_append (i : Nat) (a b : List LockEv) : ranBy i (a ++ b) = ranBy i a ++ ranBy i b := by simp [ranBy]
theorem answersTo_append (i : Nat) (a b : List LockEv) : answersTo i (a ++ b) = answersTo i a ++ answersTo i b := by simp [answersTo]
theorem unlocksOf_append (i : Nat) (a b : List LockEv) : unlocksOf i (a ++ b) = unlocksOf i a ++ unlocksOf i b := by simp [unlocksOf]

/-- Everything known about a task's statements. -/
def history (i : Nat) (log : List LockEv) : List Str × List (Str × Reply) × List Reply := (ranBy i log, answersTo i log, unlocksOf i log)

theorem history_other (i : Nat) (log : List LockEv) (e : LockEv) (h : e.who ≠ i) : history i (log ++ [e]) = history i log := by
  unfold history
  rw [ranBy_append, answersTo_append, unlocksOf_append]
  have e1 : ranBy i [e] = [] := by
    cases e with
    | ran j p q => cases p <;> simp [ranBy, LockEv.who] at h ⊢; exact h
    | answer j p q r => rfl
  have e2 : answersTo i [e] = [] := by
    cases e with
    | answer j p q r => cases p <;> simp [answersTo, LockEv.who] at h ⊢; exact h
    | ran j p q => rfl
  have e3 : unlocksOf i [e] = [] := by
    cases e with
    | answer j p q r => cases p <;> simp [unlocksOf, LockEv.who] at h ⊢; exact h
    | ran j p q => rfl
  rw [e1, e2, e3]; simp

theorem history_none (i : Nat) (log : List LockEv) (h : ∀ e ∈ log, e.who ≠ i) : history i log = ([], [], []) := by
  have e1 : ranBy i log = [] := by
    rw [ranBy, List.filterMap_eq_nil_iff]
    intro e he
    have := h e he
    cases e with
    | ran j p q => cases p <;> simp [LockEv.who] at this ⊢; exact this
    | answer j p q r => rfl
  have e2 : answersTo i log = [] := by
    rw [answersTo, List.filterMap_eq_nil_iff]
    intro e he
    have := h e he
    cases e with
    | answer j p q r => cases p <;> simp [LockEv.who] at this ⊢; exact this
    | ran j p q => rfl
  have e3 : unlocksOf i log = [] := by
    rw [unlocksOf, List.filterMap_eq_nil_iff]
    intro e he
    have := h e he
    cases e with
    | answer j p q r => cases p <;> simp [LockEv.who] at this ⊢; exact this
    | ran j p q => rfl
  rw [history, e1, e2, e3]

/-- A step that moves another task leaves this one and its history alone. -/
theorem step_other (lex : Str → List Token) (c : Cloud) (s : CloudStep) (i : Nat) (t : Task) (ht : c.tasks[i]? = some t) (h : s.target ≠ some i) :
    (c.step lex s).tasks[i]? = some t ∧ history i (c.step lex s).log = history i c.log := by
  have hi : i < c.tasks.length := by
    rw [List.getElem?_eq_some_iff] at ht; exact ht.1
  have happ : ∀ ps : List Task, (c.tasks ++ ps)[i]? = some t := by
    intro ps; rw [List.getElem?_append_left hi]; exact ht
  have hset : ∀ (j : Nat) (u : Task) (ps : List Task), j ≠ i → (c.tasks.set j u ++ ps)[i]? = some t := by
    intro j u ps hj
    rw [List.getElem?_append_left (by rw [List.length_set]; exact hi), List.getElem?_set_ne hj]; exact ht
  have hset0 : ∀ (j : Nat) (u : Task), j ≠ i → (c.tasks.set j u)[i]? = some t := by
    intro j u hj
    rw [List.getElem?_set_ne hj]; exact ht
  cases s with
  | tick ms => exact ⟨ht, rfl⟩
  | callTryLock l => exact ⟨happ _, rfl⟩
  | callLock l => exact ⟨happ _, rfl⟩
  | callReset l => exact ⟨happ _, rfl⟩
  | callMigrate m ss => exact ⟨happ _, rfl⟩
  | start j =>
    have hj : j ≠ i := fun e => h (by rw [e]; rfl)
    simp only [Cloud.step]
    split
    · split
      · exact ⟨hset0 j _ hj, rfl⟩
      · exact ⟨ht, rfl⟩
    · exact ⟨ht, rfl⟩
  | serve j f =>
    have hj : j ≠ i := fun e => h (by rw [e]; rfl)
    simp only [Cloud.step]
    split
    · split
      · cases f with
        | runs pre post v =>
          simp only [Cloud.served]
          split
          · exact ⟨ht, rfl⟩
          · exact ⟨hset0 j _ hj, history_other i _ _ hj⟩
        | rejected e => exact ⟨hset0 j _ hj, rfl⟩
        | lostBefore e => exact ⟨hset0 j _ hj, rfl⟩
        | lostAfter e => exact ⟨hset0 j _ hj, history_other i _ _ hj⟩
      · exact ⟨ht, rfl⟩
    · exact ⟨ht, rfl⟩
  | recv j =>
    have hj : j ≠ i := fun e => h (by rw [e]; rfl)
    simp only [Cloud.step]
    split
    · split
      · exact ⟨hset j _ _ hj, history_other i _ _ hj⟩
      · exact ⟨ht, rfl⟩
    · exact ⟨ht, rfl⟩
  | wake j =>
    have hj : j ≠ i := fun e => h (by rw [e]; rfl)
    simp only [Cloud.step]
    split
    · exact ⟨hset0 j _ hj, rfl⟩
    · exact ⟨ht, rfl⟩
  | callUnlock j =>
    have hj : j ≠ i := fun e => h (by rw [e]; rfl)
    simp only [Cloud.step]
    split
    · exact ⟨hset0 j _ hj, rfl⟩
    · exact ⟨ht, rfl⟩
  | dropHandle j =>
    have hj : j ≠ i := fun e => h (by rw [e]; rfl)
    simp only [Cloud.step]
    split
    · exact ⟨hset j _ _ hj, rfl⟩
    · exact ⟨ht, rfl⟩
  | crash j =>
    have hj : j ≠ i := fun e => h (by rw [e]; rfl)
    simp only [Cloud.step]
    split
    · exact ⟨ht, rfl⟩
    · exact ⟨hset0 j _ hj, rfl⟩
    · exact ⟨ht, rfl⟩
  | cancel j =>
    have hj : j ≠ i := fun e => h (by rw [e]; rfl)
    simp only [Cloud.step]
    split
    · exact ⟨ht, rfl⟩
    · exact ⟨hset j _ _ hj, rfl⟩
    · exact ⟨ht, rfl⟩

/-! ### Where a migration stands -/

/-- A migration before it has the lock. -/
def Untouched (h : List Str × List (Str × Reply) × List Reply) : Prop := h = ([], [], [])

/-- A migration's place and its history agree; `cut` says that its connection has broken. Then the last statement reported as
successful may not have been run. -/
def Stands (lex : Str → List Token) (m : Migrator) (scripts : List Str) (cut : Bool) (h : List Str × List (Str × Reply) × List Reply) (t : Task) : Prop :=
  match t.pc with
  | .mig m' (.acquire _ ss) => m' = m ∧ ss = scripts ∧ h = ([], [], [])
  | .mig m' (.pause _ _ ss) => m' = m ∧ ss = scripts ∧ h = ([], [], [])
  | .mig m' (.force _ ss) => m' = m ∧ ss = scripts ∧ h = ([], [], [])
  | .mig m' (.running n q rest ss) => m' = m ∧ n + ss.length = scripts.length ∧ (∀ x ∈ rest, x ≠ []) ∧
      ∃ past, allStatements lex m scripts = past ++ q :: (rest.map m.prepare ++ allStatements lex m ss) ∧
        h.2.1 = past.map (fun q => (q, .ok ())) ∧ h.2.2 = [] ∧
        ((h.1 = past ∧ t.wire ≠ .answered (.ok ()) ∨ h.1 = past ++ [q] ∧ ∃ r, t.wire = .answered r) ∨
          (cut = true ∧ (t.wire = .answered (.ok ()) ∧ h.1 = past ∨
            (t.wire = .ready ∨ ∃ e, t.wire = .answered (.error e)) ∧ ∃ x, past = h.1 ++ [x])))
  | .mig m' (.finish n) => m' = m ∧ n = scripts.length ∧
      h.2.1 = (allStatements lex m scripts).map (fun q => (q, .ok ())) ∧ h.2.2 = [] ∧
      (h.1 = allStatements lex m scripts ∨
        cut = true ∧ (t.wire = .ready ∨ ∃ e, t.wire = .answered (.error e)) ∧ ∃ x, allStatements lex m scripts = h.1 ++ [x])
  | .mig m' (.done (.ok n)) => m' = m ∧ n = scripts.length ∧ h.1 = allStatements lex m scripts ∧
      h.2.1 = (allStatements lex m scripts).map (fun q => (q, .ok ())) ∧ h.2.2 = [.ok ()]
  | .mig m' (.done (.error e)) => m' = m ∧ (h = ([], [], []) ∨
      (∃ past q later, allStatements lex m scripts = past ++ q :: later ∧ (h.1 = past ∨ h.1 = past ++ [q] ∨ cut = true ∧ ∃ x, past = h.1 ++ [x]) ∧
        h.2.1 = past.map (fun q => (q, .ok ())) ++ [(q, .error e)] ∧ h.2.2 = []) ∨
      ((h.1 = allStatements lex m scripts ∨ cut = true ∧ ∃ x, allStatements lex m scripts = h.1 ++ [x]) ∧
        h.2.1 = (allStatements lex m scripts).map (fun q => (q, .ok ())) ∧ h.2.2 = [.error e]))
  | .gone => h.1 <+: allStatements lex m scripts
  | _ => False

theorem stands_prefix {lex m scripts cut h t} (hs : Stands lex m scripts cut h t) : h.1 <+: allStatements lex m scripts := by
  obtain ⟨pc, w⟩ := t
  obtain ⟨h1, h2, h3⟩ := h
  have nil : ∀ l : List Str, ([] : List Str) <+: l := fun l => ⟨l, rfl⟩
  cases pc with
  | mig m' p =>
    cases p with
    | acquire st ss => obtain ⟨_, _, e⟩ := hs; cases e; exact nil _
    | pause st w ss => obtain ⟨_, _, e⟩ := hs; cases e; exact nil _
    | force st ss => obtain ⟨_, _, e⟩ := hs; cases e; exact nil _
    | running n q rest ss =>
      obtain ⟨_, _, _, past, e, _, _, (h | h) | ⟨_, h | ⟨_, x, h⟩⟩⟩ := hs
      · rw [e, h.1]; exact ⟨_, rfl⟩
      · rw [e, h.1]; exact ⟨rest.map m.prepare ++ allStatements lex m ss, by simp⟩
      · rw [e, h.2]; exact ⟨_, rfl⟩
      · rw [e, h]; exact ⟨x :: q :: (rest.map m.prepare ++ allStatements lex m ss), by simp⟩
    | finish n =>
      obtain ⟨_, _, _, _, e | ⟨_, _, x, e⟩⟩ := hs
      · rw [e]; exact List.prefix_refl _
      · rw [e]; exact ⟨[x], rfl⟩
    | done r =>
      cases r with
      | ok n => obtain ⟨_, _, e, _⟩ := hs; rw [e]; exact List.prefix_refl _
      | error e =>
        obtain ⟨_, e | ⟨past, q, later, e, h, _⟩ | ⟨e | ⟨_, x, e⟩, _⟩⟩ := hs
        · cases e; exact nil _
        · rw [e]
          rcases h with h | h | ⟨_, x, h⟩
          · rw [h]; exact ⟨_, rfl⟩
          · rw [h]; exact ⟨later, by simp⟩
          · rw [h]; exact ⟨x :: q :: later, by simp⟩
        · rw [e]; exact List.prefix_refl _
        · rw [e]; exact ⟨[x], rfl⟩
  | gone => exact hs
  | _ => exact hs.elim

/-- A connection that breaks. -/
theorem stands_cut {lex m scripts cut h t} (hs : Stands lex m scripts cut h t) (cut' : Bool) (hc : cut = true → cut' = true) : Stands lex m scripts cut' h t := by
  obtain ⟨pc, w⟩ := t
  cases pc with
  | mig m' p =>
    cases p with
    | running n q rest ss =>
      obtain ⟨a, b, c, past, e, f, g, h | ⟨h1, h2⟩⟩ := hs
      · exact ⟨a, b, c, past, e, f, g, .inl h⟩
      · exact ⟨a, b, c, past, e, f, g, .inr ⟨hc h1, h2⟩⟩
    | finish n =>
      obtain ⟨a, b, c, d, h | ⟨h1, h2⟩⟩ := hs
      · exact ⟨a, b, c, d, .inl h⟩
      · exact ⟨a, b, c, d, .inr ⟨hc h1, h2⟩⟩
    | done r =>
      cases r with
      | ok n => exact hs
      | error e =>
        obtain ⟨a, h | ⟨past, q, later, b, h | h | ⟨h1, h2⟩, d⟩ | ⟨h | ⟨h1, h2⟩, d⟩⟩ := hs
        · exact ⟨a, .inl h⟩
        · exact ⟨a, .inr (.inl ⟨past, q, later, b, .inl h, d⟩)⟩
        · exact ⟨a, .inr (.inl ⟨past, q, later, b, .inr (.inl h), d⟩)⟩
        · exact ⟨a, .inr (.inl ⟨past, q, later, b, .inr (.inr ⟨hc h1, h2⟩), d⟩)⟩
        · exact ⟨a, .inr (.inr ⟨.inl h, d⟩)⟩
        · exact ⟨a, .inr (.inr ⟨.inr ⟨hc h1, h2⟩, d⟩)⟩
    | _ => exact hs
  | gone => exact hs
  | _ => exact hs.elim

theorem split_nonempty (lex : Str → List Token) (s x : Str) (h : x ∈ splitQueryStatements (lex s)) : x ≠ [] := (C25_trimmed (lex s) x h).1

/-- The outer loop reaches the next statement there is. `ran` is what was run of what was reported. -/
theorem scriptLoop_stands (lex : Str → List Token) (hlex : lex [] = []) (m : Migrator) (scripts : List Str) (cut : Bool)
    (past ran : List Str) (hran : ran = past ∨ cut = true ∧ ∃ x, past = ran ++ [x]) (ss : List Str) (n : Nat) (hn : n + ss.length = scripts.length)
    (h : allStatements lex m scripts = past ++ allStatements lex m ss) :
    Stands lex m scripts cut (ran, past.map (fun q => (q, .ok ())), []) ⟨.mig m (m.scriptLoop lex n ss), .ready⟩ := by
  induction ss generalizing n with
  | nil =>
    simp only [allStatements, List.map_nil, List.flatten_nil, List.append_nil] at h
    have h' : allStatements lex m scripts = past := h
    refine ⟨rfl, by simpa using hn, by rw [h'], rfl, ?_⟩
    rcases hran with e | ⟨hc, x, e⟩
    · exact .inl (by rw [h']; exact e)
    · exact .inr ⟨hc, .inl rfl, x, by rw [h']; exact e⟩
  | cons s ss ih =>
    have hcons : allStatements lex m (s :: ss) = (splitQueryStatements (lex s)).map m.prepare ++ allStatements lex m ss := rfl
    have hn' : n + 1 + ss.length = scripts.length := by simp only [List.length_cons] at hn; omega
    simp only [Migrator.scriptLoop]
    split
    · rename_i hsk
      have hs0 : s = [] := by simp only [Bool.and_eq_true, List.isEmpty_iff] at hsk; exact hsk.2
      have : splitQueryStatements (lex s) = [] := by rw [hs0, hlex]; rfl
      rw [hcons, this, List.map_nil, List.nil_append] at h
      exact ih _ hn' h
    · cases hq : splitQueryStatements (lex s) with
      | nil =>
        rw [hcons, hq, List.map_nil, List.nil_append] at h
        exact ih _ hn' h
      | cons q qs =>
        have hne : ∀ x ∈ q :: qs, x ≠ [] := fun x hx => split_nonempty lex s x (hq ▸ hx)
        have hq0 : q.isEmpty = false := by
          have := hne q (by simp)
          cases q with
          | nil => exact absurd rfl this
          | cons _ _ => rfl
        simp only [nextStatement, hq0]
        refine ⟨rfl, hn', fun x hx => hne x (List.mem_cons_of_mem _ hx), past, ?_, rfl, rfl, ?_⟩
        · rw [h, hcons, hq]; simp
        · rcases hran with e | ⟨hc, e⟩
          · exact .inl (.inl ⟨e, by simp⟩)
          · exact .inr ⟨hc, .inr ⟨.inl rfl, e⟩⟩

theorem nextOf_stands (lex : Str → List Token) (hlex : lex [] = []) (m : Migrator) (scripts : List Str) (cut : Bool)
    (past ran rest : List Str) (hran : ran = past ∨ cut = true ∧ ∃ x, past = ran ++ [x]) (ss : List Str) (n : Nat) (hr : ∀ x ∈ rest, x ≠ []) (hn : n + ss.length = scripts.length)
    (h : allStatements lex m scripts = past ++ (rest.map m.prepare ++ allStatements lex m ss)) :
    Stands lex m scripts cut (ran, past.map (fun q => (q, .ok ())), []) ⟨.mig m (m.nextOf lex n rest ss), .ready⟩ := by
  unfold Migrator.nextOf
  cases rest with
  | nil => exact scriptLoop_stands lex hlex m scripts cut past ran hran ss n hn (by simpa using h)
  | cons q qs =>
    have hq0 : q.isEmpty = false := by
      have := hr q (by simp)
      cases q with
      | nil => exact absurd rfl this
      | cons _ _ => rfl
    simp only [nextStatement, hq0]
    refine ⟨rfl, hn, fun x hx => hr x (List.mem_cons_of_mem _ hx), past, ?_, rfl, rfl, ?_⟩
    · rw [h]; simp
    · rcases hran with e | ⟨hc, e⟩
      · exact .inl (.inl ⟨e, by simp⟩)
      · exact .inr ⟨hc, .inr ⟨.inl rfl, e⟩⟩

/-- The history after the server ran a request of the task. -/
theorem history_ran (i : Nat) (log : List LockEv) (p : Purpose) (q : Str) :
    history i (log ++ [.ran i p q]) = ((history i log).1 ++ (if p = .statement then [q] else []), (history i log).2.1, (history i log).2.2) := by
  unfold history
  rw [ranBy_append, answersTo_append, unlocksOf_append]
  have e2 : answersTo i [.ran i p q] = [] := rfl
  have e3 : unlocksOf i [.ran i p q] = [] := rfl
  rw [e2, e3, List.append_nil, List.append_nil]
  cases p <;> simp [ranBy]

/-- The history after the task learned an outcome. -/
theorem history_answer (i : Nat) (log : List LockEv) (p : Purpose) (q : Str) (r : Reply) :
    history i (log ++ [.answer i p q r]) = ((history i log).1, (history i log).2.1 ++ (if p = .statement then [(q, r)] else []),
      (history i log).2.2 ++ (if p = .unlock then [r] else [])) := by
  unfold history
  rw [ranBy_append, answersTo_append, unlocksOf_append]
  have e1 : ranBy i [.answer i p q r] = [] := rfl
  rw [e1, List.append_nil]
  cases p <;> simp [answersTo, unlocksOf]

/-- Connections stay broken. -/
theorem dead_mono (lex : Str → List Token) (c : Cloud) (s : CloudStep) (k : Nat) (h : c.dead.contains k = true) : (c.step lex s).dead.contains k = true := by
  cases s with
  | serve i f =>
    simp only [Cloud.step]
    split
    · split
      · cases f with
        | runs pre post v => simp only [Cloud.served]; split <;> exact h
        | rejected e => exact h
        | lostBefore e => simp only [Cloud.served, List.contains_eq_mem, decide_eq_true_eq, List.mem_append] at h ⊢; exact .inr h
        | lostAfter e => simp only [Cloud.served, List.contains_eq_mem, decide_eq_true_eq, List.mem_append] at h ⊢; exact .inr h
      · exact h
    · exact h
  | tick ms => exact h
  | callTryLock l => exact h
  | callLock l => exact h
  | callReset l => exact h
  | callMigrate m ss => exact h
  | _ => simp only [Cloud.step]; (repeat' split) <;> exact h

/-- What a running statement's answer says. -/
theorem stands_step (lex : Str → List Token) (hlex : lex [] = []) (m : Migrator) (scripts : List Str) (c : Cloud) (i : Nat) (t : Task)
    (ht : c.tasks[i]? = some t) (hs : Stands lex m scripts (c.dead.contains m.client) (history i c.log) t) (s : CloudStep) :
    ∃ t', (c.step lex s).tasks[i]? = some t' ∧ Stands lex m scripts ((c.step lex s).dead.contains m.client) (history i (c.step lex s).log) t' := by
  by_cases htar : s.target = some i
  · have hi : i < c.tasks.length := by
      rw [List.getElem?_eq_some_iff] at ht; exact ht.1
    have hset : ∀ (u : Task) (ps : List Task), (c.tasks.set i u ++ ps)[i]? = some u := by
      intro u ps
      rw [List.getElem?_append_left (by rw [List.length_set]; exact hi), List.getElem?_set_self hi]
    have hset0 : ∀ (u : Task), (c.tasks.set i u)[i]? = some u := by
      intro u
      rw [List.getElem?_set_self hi]
    have hgone := stands_prefix hs
    cases s with
    | tick ms => cases htar
    | callTryLock l => cases htar
    | callLock l => cases htar
    | callReset l => cases htar
    | callMigrate m ss => cases htar
    | start j =>
      cases htar
      simp only [Cloud.step, ht]
      obtain ⟨pc, w⟩ := t
      cases w with
      | ready =>
        dsimp only
        split
        · refine ⟨_, hset0 _, ?_⟩
          cases pc with
          | mig m' p =>
            cases p with
            | running n q rest ss =>
              obtain ⟨a1, a2, a3, past, b1, b2, b3, h⟩ := hs
              refine ⟨a1, a2, a3, past, b1, b2, b3, ?_⟩
              have hcut : (Pc.mig m' (.running n q rest ss)).cut c.dead = c.dead.contains m.client := by rw [a1]; rfl
              rw [hcut]
              rcases h with (h | ⟨_, r, h⟩) | ⟨hc, ⟨h, _⟩ | ⟨_, h⟩⟩
              · by_cases hk : c.dead.contains m.client = true
                · rw [if_pos hk]; exact .inl (.inl ⟨h.1, by simp⟩)
                · rw [if_neg hk]; exact .inl (.inl ⟨h.1, by simp⟩)
              · cases h
              · cases h
              · rw [if_pos hc]; exact .inr ⟨hc, .inr ⟨.inr ⟨_, rfl⟩, h⟩⟩
            | finish n =>
              obtain ⟨a1, a2, a3, a4, h⟩ := hs
              refine ⟨a1, a2, a3, a4, ?_⟩
              have hcut : (Pc.mig m' (.finish n)).cut c.dead = c.dead.contains m.client := by rw [a1]; rfl
              rw [hcut]
              rcases h with h | ⟨hc, _, h⟩
              · exact .inl h
              · rw [if_pos hc]; exact .inr ⟨hc, .inr ⟨_, rfl⟩, h⟩
            | done r => cases r <;> exact hs
            | _ => exact hs
          | _ => exact hs
        · exact ⟨_, ht, hs⟩
      | sent => exact ⟨_, ht, hs⟩
      | answered r => exact ⟨_, ht, hs⟩
    | serve j f =>
      cases htar
      simp only [Cloud.step, ht]
      obtain ⟨pc, w⟩ := t
      cases w with
      | ready => exact ⟨_, ht, hs⟩
      | answered r => exact ⟨_, ht, hs⟩
      | sent =>
        dsimp only
        cases pc with
        | mig m' p =>
          cases p with
          | acquire st ss =>
            obtain ⟨a, b, e⟩ := hs
            cases f with
            | runs pre post v =>
              simp only [Pc.request, Cloud.served]
              split
              · exact ⟨_, ht, a, b, e⟩
              · refine ⟨_, hset0 _, a, b, ?_⟩
                simp only [history_ran, e]; rfl
            | lostAfter r =>
              refine ⟨_, hset0 _, a, b, ?_⟩
              simp only [Cloud.served, Pc.request, history_ran, e]; rfl
            | _ => exact ⟨_, hset0 _, a, b, e⟩
          | force st ss =>
            obtain ⟨a, b, e⟩ := hs
            cases f with
            | runs pre post v =>
              simp only [Pc.request, Cloud.served]
              split
              · exact ⟨_, ht, a, b, e⟩
              · refine ⟨_, hset0 _, a, b, ?_⟩
                simp only [history_ran, e]; rfl
            | lostAfter r =>
              refine ⟨_, hset0 _, a, b, ?_⟩
              simp only [Cloud.served, Pc.request, history_ran, e]; rfl
            | _ => exact ⟨_, hset0 _, a, b, e⟩
          | running n q rest ss =>
            obtain ⟨a1, a2, a3, past, b1, b2, b3, h⟩ := hs
            have h : (history i c.log).1 = past := by
              rcases h with (h | ⟨_, r, h⟩) | ⟨_, ⟨h, _⟩ | ⟨h | ⟨_, h⟩, _⟩⟩
              · exact h.1
              all_goals cases h
            cases f with
            | rejected e => exact ⟨_, hset0 _, a1, a2, a3, past, b1, b2, b3, .inl (.inl ⟨h, by simp⟩)⟩
            | lostBefore r =>
              refine ⟨_, hset0 _, a1, a2, a3, past, b1, b2, b3, ?_⟩
              cases r with
              | ok u => exact .inr ⟨by simp [Cloud.served, Pc.request, Pc.client, a1], .inl ⟨rfl, h⟩⟩
              | error e => exact .inl (.inl ⟨h, by simp⟩)
            | runs pre post v =>
              simp only [Pc.request, Cloud.served]
              split
              · exact ⟨_, ht, a1, a2, a3, past, b1, b2, b3, .inl (.inl ⟨h, by simp⟩)⟩
              · refine ⟨_, hset0 _, a1, a2, a3, past, b1, ?_, ?_, .inl (.inr ⟨?_, _, rfl⟩)⟩ <;> simp only [history_ran]
                · exact b2
                · exact b3
                · rw [h]; rfl
            | lostAfter e =>
              refine ⟨_, hset0 _, a1, a2, a3, past, b1, ?_, ?_, .inl (.inr ⟨?_, _, rfl⟩)⟩ <;> simp only [Cloud.served, Pc.request, history_ran]
              · exact b2
              · exact b3
              · rw [h]; rfl
          | finish n =>
            obtain ⟨a1, a2, a3, a4, h⟩ := hs
            have h : (history i c.log).1 = allStatements lex m scripts := by
              rcases h with h | ⟨_, h | ⟨_, h⟩, _⟩
              · exact h
              all_goals cases h
            cases f with
            | runs pre post v =>
              simp only [Pc.request, Cloud.served]
              split
              · exact ⟨_, ht, a1, a2, a3, a4, .inl h⟩
              · refine ⟨_, hset0 _, a1, a2, ?_, ?_, .inl ?_⟩ <;> simp only [history_ran, a3, a4, h]
                simp
            | lostAfter r =>
              refine ⟨_, hset0 _, a1, a2, ?_, ?_, .inl ?_⟩ <;> simp only [Cloud.served, Pc.request, history_ran, a3, a4, h]
              simp
            | _ => exact ⟨_, hset0 _, a1, a2, a3, a4, .inl h⟩
          | pause st w ss => exact ⟨_, ht, hs⟩
          | done r => exact ⟨_, ht, hs⟩
        | gone => exact ⟨_, ht, hs⟩
        | _ => exact hs.elim
    | recv j =>
      cases htar
      simp only [Cloud.step, ht]
      obtain ⟨pc, w⟩ := t
      cases w with
      | ready => exact ⟨_, ht, hs⟩
      | sent => exact ⟨_, ht, hs⟩
      | answered r =>
        dsimp only
        cases pc with
        | mig m' p =>
          cases p with
          | acquire st ss =>
            obtain ⟨rfl, rfl, e⟩ := hs
            have hh : history i (c.log ++ [.answer i .lock m'.lock.createText r]) = ([], [], []) := by rw [history_answer, e]; rfl
            cases r with
            | ok u =>
              refine ⟨_, hset _ _, ?_⟩
              simp only [Cloud.received, Pc.request, hh]
              exact scriptLoop_stands lex hlex m' ss _ [] [] (.inl rfl) ss 0 (by simp) (by simp)
            | error e =>
              refine ⟨_, hset _ _, ?_⟩
              simp only [Cloud.received, Pc.request, hh]
              rcases attempt_cases e with h | h <;> simp only [Pc.resume, h]
              · exact ⟨rfl, rfl, rfl⟩
              · exact ⟨rfl, .inl rfl⟩
          | force st ss =>
            obtain ⟨rfl, rfl, e⟩ := hs
            have hh : history i (c.log ++ [.answer i .force m'.lock.dropText r]) = ([], [], []) := by rw [history_answer, e]; rfl
            refine ⟨_, hset _ _, ?_⟩
            simp only [Cloud.received, Pc.request, hh]
            cases r with
            | ok u => exact ⟨rfl, rfl, rfl⟩
            | error e => exact ⟨rfl, .inl rfl⟩
          | running n q rest ss =>
            obtain ⟨rfl, a2, a3, past, b1, b2, b3, h⟩ := hs
            refine ⟨_, hset _ _, ?_⟩
            simp only [Cloud.received, Pc.request, history_answer]
            cases r with
            | ok u =>
              have h1 : (history i c.log).1 = past ++ [q] ∨ c.dead.contains m'.client = true ∧ ∃ x, past ++ [q] = (history i c.log).1 ++ [x] := by
                rcases h with (h | ⟨h, _⟩) | ⟨hc, ⟨_, h⟩ | ⟨h | ⟨_, h⟩, _⟩⟩
                · exact absurd rfl h.2
                · exact .inl h
                · exact .inr ⟨hc, q, by rw [h]⟩
                · cases h
                · cases h
              simp only [Pc.resume, b2, b3]
              have := nextOf_stands lex hlex m' scripts _ (past ++ [q]) _ rest h1 ss n a3 a2 (by rw [b1]; simp)
              simpa using this
            | error e =>
              simp only [Pc.resume, b2, b3]
              refine ⟨rfl, .inr (.inl ⟨past, q, _, b1, ?_, rfl, rfl⟩)⟩
              rcases h with (h | h) | ⟨hc, ⟨_, h⟩ | ⟨_, h⟩⟩
              · exact .inl h.1
              · exact .inr (.inl h.1)
              · exact .inl h
              · exact .inr (.inr ⟨hc, h⟩)
          | finish n =>
            obtain ⟨rfl, a2, a4, a5, a3⟩ := hs
            refine ⟨_, hset _ _, ?_⟩
            simp only [Cloud.received, Pc.request, history_answer]
            cases r with
            | ok u =>
              refine ⟨rfl, a2, ?_, by simp [a4], by simp [a5]⟩
              rcases a3 with h | ⟨_, h | ⟨_, h⟩, _⟩
              · exact h
              · cases h
              · cases h
            | error e =>
              refine ⟨rfl, .inr (.inr ⟨?_, by simp [a4], by simp [a5]⟩)⟩
              rcases a3 with h | ⟨hc, _, h⟩
              · exact .inl h
              · exact .inr ⟨hc, h⟩
          | pause st w ss => exact ⟨_, ht, hs⟩
          | done r => exact ⟨_, ht, hs⟩
        | gone => exact ⟨_, ht, hs⟩
        | _ => exact hs.elim
    | wake j =>
      cases htar
      simp only [Cloud.step, ht]
      obtain ⟨pc, w⟩ := t
      cases w with
      | sent => exact ⟨_, ht, hs⟩
      | answered r => exact ⟨_, ht, hs⟩
      | ready =>
        refine ⟨_, hset0 _, ?_⟩
        cases pc with
        | mig m' p =>
          cases p with
          | pause st w ss =>
            simp only [Pc.wake]
            split
            · split <;> exact hs
            · exact hs
          | _ => exact hs
        | gone => exact hs
        | _ => exact hs.elim
    | callUnlock j =>
      cases htar
      obtain ⟨pc, w⟩ := t
      cases pc with
      | holds l => exact hs.elim
      | _ => simp only [Cloud.step, ht]; exact ⟨_, rfl, hs⟩
    | dropHandle j =>
      cases htar
      obtain ⟨pc, w⟩ := t
      cases pc with
      | holds l => exact hs.elim
      | _ => simp only [Cloud.step, ht]; exact ⟨_, rfl, hs⟩
    | crash j =>
      cases htar
      obtain ⟨pc, w⟩ := t
      cases w with
      | sent => simp only [Cloud.step, ht]; exact ⟨_, rfl, hs⟩
      | ready => simp only [Cloud.step, ht]; exact ⟨_, hset0 _, hgone⟩
      | answered r => simp only [Cloud.step, ht]; exact ⟨_, hset0 _, hgone⟩
    | cancel j =>
      cases htar
      obtain ⟨pc, w⟩ := t
      cases w with
      | sent => simp only [Cloud.step, ht]; exact ⟨_, rfl, hs⟩
      | ready => simp only [Cloud.step, ht]; exact ⟨_, hset _ _, hgone⟩
      | answered r => simp only [Cloud.step, ht]; exact ⟨_, hset _ _, hgone⟩
  · obtain ⟨h1, h2⟩ := step_other lex c s i t ht htar
    refine ⟨t, h1, ?_⟩
    rw [h2]
    exact stands_cut hs _ (dead_mono lex c s m.client)

theorem stands_run (lex : Str → List Token) (hlex : lex [] = []) (m : Migrator) (scripts : List Str) (steps : List CloudStep) (c : Cloud) (i : Nat) (t : Task)
    (ht : c.tasks[i]? = some t) (hs : Stands lex m scripts (c.dead.contains m.client) (history i c.log) t) :
    ∃ t', (c.run lex steps).tasks[i]? = some t' ∧ Stands lex m scripts ((c.run lex steps).dead.contains m.client) (history i (c.run lex steps).log) t' := by
  induction steps generalizing c t with
  | nil => exact ⟨t, ht, hs⟩
  | cons s ss ih =>
    obtain ⟨t', h1, h2⟩ := stands_step lex hlex m scripts c i t ht hs s
    exact ih _ t' h1 h2

/-- Only tasks that exist have events. -/
theorem who_step (lex : Str → List Token) (c : Cloud) (h : ∀ e ∈ c.log, e.who < c.tasks.length) (s : CloudStep) :
    ∀ e ∈ (c.step lex s).log, e.who < (c.step lex s).tasks.length := by
  have hlt : ∀ {i : Nat} {t : Task}, c.tasks[i]? = some t → i < c.tasks.length := by
    intro i t ht; rw [List.getElem?_eq_some_iff] at ht; exact ht.1
  have happ : ∀ (n : Nat) (e' : LockEv), e'.who < n → c.tasks.length ≤ n → ∀ e ∈ c.log ++ [e'], e.who < n := by
    intro n e' he hn e hm
    simp only [List.mem_append, List.mem_singleton] at hm
    rcases hm with hm | rfl
    · exact Nat.lt_of_lt_of_le (h e hm) hn
    · exact he
  have hmore : ∀ (n : Nat), c.tasks.length ≤ n → ∀ e ∈ c.log, e.who < n := fun n hn e he => Nat.lt_of_lt_of_le (h e he) hn
  cases s with
  | tick ms => exact h
  | callTryLock l => exact hmore _ (by simp [Cloud.step, Cloud.spawn])
  | callLock l => exact hmore _ (by simp [Cloud.step, Cloud.spawn])
  | callReset l => exact hmore _ (by simp [Cloud.step, Cloud.spawn])
  | callMigrate m ss => exact hmore _ (by simp [Cloud.step, Cloud.spawn])
  | start i =>
    simp only [Cloud.step]
    split
    · split
      · exact hmore _ (by simp [Cloud.put])
      · exact h
    · exact h
  | serve i f =>
    simp only [Cloud.step]
    split
    · rename_i pc ht
      split
      · cases f with
        | runs pre post v =>
          simp only [Cloud.served]
          split
          · exact h
          · exact happ _ _ (by simpa [LockEv.who] using hlt ht) (by simp)
        | rejected e => exact hmore _ (by simp [Cloud.served, Cloud.put])
        | lostBefore e => exact hmore _ (by simp [Cloud.served])
        | lostAfter e => exact happ _ _ (by simpa [Cloud.served, LockEv.who] using hlt ht) (by simp [Cloud.served])
      · exact h
    · exact h
  | recv i =>
    simp only [Cloud.step]
    split
    · rename_i pc r ht
      split
      · have := hlt ht
        exact happ _ _ (by simp only [Cloud.received, LockEv.who, List.length_append, List.length_set]; omega) (by simp [Cloud.received])
      · exact h
    · exact h
  | wake i =>
    simp only [Cloud.step]
    split
    · exact hmore _ (by simp [Cloud.put])
    · exact h
  | callUnlock i =>
    simp only [Cloud.step]
    split
    · exact hmore _ (by simp [Cloud.put])
    · exact h
  | dropHandle i =>
    simp only [Cloud.step]
    split
    · exact hmore _ (by simp [Cloud.put, Cloud.spawn])
    · exact h
  | crash i =>
    simp only [Cloud.step]
    split
    · exact h
    · exact hmore _ (by simp [Cloud.put])
    · exact h
  | cancel i =>
    simp only [Cloud.step]
    split
    · exact h
    · exact hmore _ (by simp [Cloud.put, Cloud.spawns])
    · exact h

theorem who_run (lex : Str → List Token) (steps : List CloudStep) (c : Cloud) (h : ∀ e ∈ c.log, e.who < c.tasks.length) :
    ∀ e ∈ (c.run lex steps).log, e.who < (c.run lex steps).tasks.length := by
  induction steps generalizing c with
  | nil => exact h
  | cons s ss ih => exact ih _ (who_step lex c h s)

/-- Where the task of a `callMigrate` stands after any further steps. -/
theorem stands_of_call (lex : Str → List Token) (hlex : lex [] = []) (m : Migrator) (scripts : List Str) (before later : List CloudStep) :
    ∃ t', (Cloud.init.run lex (before ++ .callMigrate m scripts :: later)).tasks[(Cloud.init.run lex before).tasks.length]? = some t' ∧
      Stands lex m scripts ((Cloud.init.run lex (before ++ .callMigrate m scripts :: later)).dead.contains m.client) (history (Cloud.init.run lex before).tasks.length (Cloud.init.run lex (before ++ .callMigrate m scripts :: later)).log) t' := by
  have hrun : ∀ (a b : List CloudStep) (c : Cloud), c.run lex (a ++ b) = (c.run lex a).run lex b := by
    intro a
    induction a with
    | nil => intro b c; rfl
    | cons s a ih => intro b c; exact ih b _
  rw [hrun]
  have hwho := who_run lex before Cloud.init (by intro e he; cases he)
  generalize Cloud.init.run lex before = c at hwho ⊢
  simp only [Cloud.run]
  refine stands_run lex hlex m scripts later _ _ ⟨.mig m (.acquire c.now scripts), .ready⟩ ?_ ?_
  · simp [Cloud.step, Cloud.spawn]
  · refine ⟨rfl, rfl, ?_⟩
    apply history_none
    intro e he
    have := hwho e he
    omega

end Klick
