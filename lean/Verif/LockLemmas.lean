import Verif.Spec.Lock
/-
Lemmas about the lock's texts, the server, and the invariant of the tokens.
-/
namespace Klick
open Spec

theorem contains_infix (p s : Str) : strContains p s = true ↔ p <:+: s := by
  induction s with
  | nil => cases p <;> simp [strContains]
  | cons c s ih => rw [List.infix_cons_iff, strContains, Bool.or_eq_true, ih, List.isPrefixOf_iff_prefix]

theorem between_append (p x s : Str) : between p s (p ++ x ++ s) = some x := by
  unfold between
  rw [if_pos]
  · congr 1
    rw [List.append_assoc, List.drop_left]
    have : (p ++ (x ++ s)).length - p.length - s.length = x.length := by simp
    rw [this, List.take_left]
  · refine ⟨?_, ?_, ?_⟩
    · rw [List.append_assoc]; simp
    · rw [List.isSuffixOf_iff_suffix]; exact ⟨p ++ x, rfl⟩
    · simp

theorem phrase_word (l : Lock) : (ch! "_lock_" ++ l.name ++ l.clusterStr).takeWhile (· != ' ') = lockTable l := by
  unfold lockTable
  have h1 : ∀ (n t : Str), (t = [] ∨ ∃ u, t = ' ' :: u) → (n ++ t).takeWhile (· != ' ') = n.takeWhile (· != ' ') := by
    intro n t ht
    induction n with
    | nil => rcases ht with rfl | ⟨u, rfl⟩ <;> rfl
    | cons c n ih =>
      by_cases hc : c = ' '
      · subst hc; rfl
      · have : (c != ' ') = true := by simpa using hc
        simp [this, ih]
  have h2 : l.clusterStr = [] ∨ ∃ u, l.clusterStr = ' ' :: u := by
    unfold Lock.clusterStr
    cases l.cluster with
    | none => exact .inl rfl
    | some c => exact .inr ⟨ch! "ON CLUSTER " ++ c, rfl⟩
  have h3 : ∀ x : Str, (ch! "_lock_" ++ x).takeWhile (· != ' ') = ch! "_lock_" ++ x.takeWhile (· != ' ') := fun x => rfl
  rw [List.append_assoc, h3, h1 _ _ h2]

theorem created_create (l : Lock) : createdTable l.createText = some (lockTable l) := by
  have e : l.createText = ch! "CREATE TABLE " ++ (ch! "_lock_" ++ l.name ++ l.clusterStr) ++ ch! " (i Int64)ENGINE=Null" := by
    unfold Lock.createText; simp [List.append_assoc]
  unfold createdTable
  rw [e, between_append, Option.map_some, phrase_word]

theorem dropped_drop (l : Lock) : droppedTable l.dropText = some (lockTable l) := by
  have e : l.dropText = ch! "DROP TABLE IF EXISTS " ++ (ch! "_lock_" ++ l.name ++ l.clusterStr) ++ ch! " SYNC" := by
    unfold Lock.dropText; simp [List.append_assoc]
  unfold droppedTable
  rw [e, between_append, Option.map_some, phrase_word]

theorem created_drop (l : Lock) : createdTable l.dropText = none := by
  have : between (ch! "CREATE TABLE ") (ch! " (i Int64)ENGINE=Null") l.dropText = none := by
    unfold between
    rw [if_neg]
    rintro ⟨h, _⟩
    exact absurd h (by unfold Lock.dropText; simp [List.isPrefixOf])
  unfold createdTable
  rw [this]; rfl

theorem run_create (pre post : Str) (v : Reply) (l : Lock) (tables : List Str) :
    serverRun pre post v l.createText tables =
      if lockTable l ∈ tables then (tables, .error (pre ++ ch! "already exists" ++ post)) else (lockTable l :: tables, .ok ()) := by
  unfold serverRun
  rw [created_create]

theorem run_drop (pre post : Str) (v : Reply) (l : Lock) (tables : List Str) :
    serverRun pre post v l.dropText tables = (tables.filter (· != lockTable l), .ok ()) := by
  unfold serverRun
  rw [created_drop, dropped_drop]

theorem run_innocent (pre post : Str) (v : Reply) (T q : Str) (tables : List Str) (h : Innocent T q) :
    T ∈ (serverRun pre post v q tables).1 ↔ T ∈ tables := by
  unfold serverRun
  cases hc : createdTable q with
  | some t =>
    have : T ≠ t := fun e => h.1 (by rw [hc, e])
    dsimp only
    by_cases hm : t ∈ tables
    · rw [if_pos hm]
    · rw [if_neg hm]; simp [this]
  | none =>
    cases hd : droppedTable q with
    | some t =>
      have : T ≠ t := fun e => h.2 (by rw [hd, e])
      simp [this]
    | none => exact Iff.rfl

theorem contains_of (p pre post : Str) : strContains p (pre ++ p ++ post) = true := by
  induction pre with
  | nil =>
    cases p with
    | nil => cases post <;> simp [strContains]
    | cons c p => simp [strContains]
  | cons c pre ih =>
    simp only [List.cons_append, strContains, ih, Bool.or_true]

theorem attempt_busy (pre post : Str) : Attempt.of (.error (pre ++ ch! "already exists" ++ post)) = .busy := by
  simp only [Attempt.of, contains_of, if_true]

theorem attempt_error (e : Str) : Attempt.of (.error e) ≠ .held := by
  simp only [Attempt.of]
  split <;> exact Attempt.noConfusion

theorem attempt_cases (e : Str) : Attempt.of (.error e) = .busy ∨ Attempt.of (.error e) = .failed e := by
  simp only [Attempt.of]
  by_cases h : strContains (ch! "already exists") e = true
  · rw [if_pos h]; exact .inl rfl
  · rw [if_neg h]; exact .inr rfl

/-! ### Tokens -/

/-- Whether the task accounts for one creation of the lock table. -/
def Task.token (T : Str) (t : Task) : Nat :=
  match t.pc, t.wire with
  | .tryLock l, .answered (.ok _) => if lockTable l = T then 1 else 0
  | .lock l, .answered (.ok _) => if lockTable l = T then 1 else 0
  | .mig m (.acquire _ _), .answered (.ok _) => if lockTable m.lock = T then 1 else 0
  | .holds l, _ => if lockTable l = T then 1 else 0
  | .mig m (.running _ _ _ _), _ => if lockTable m.lock = T then 1 else 0
  | .unlock _, .answered _ => 0
  | .unlock l, _ => if lockTable l = T then 1 else 0
  | .dropped _, .answered _ => 0
  | .dropped l, _ => if lockTable l = T then 1 else 0
  | .mig _ (.finish _), .answered _ => 0
  | .mig m (.finish _), _ => if lockTable m.lock = T then 1 else 0
  | _, _ => 0

def tokens (T : Str) (ts : List Task) : Nat := (ts.map (Task.token T)).sum

theorem tokens_append (T : Str) (a b : List Task) : tokens T (a ++ b) = tokens T a + tokens T b := by
  simp [tokens, List.sum_append]

theorem tokens_set (T : Str) (ts : List Task) (i : Nat) (t u : Task) (h : ts[i]? = some t) :
    tokens T (ts.set i u) + t.token T = tokens T ts + u.token T := by
  induction ts generalizing i with
  | nil => cases h
  | cons x ts ih =>
    cases i with
    | zero =>
      simp only [List.getElem?_cons_zero, Option.some.injEq] at h
      subst h
      simp [tokens]; omega
    | succ i =>
      simp only [List.getElem?_cons_succ] at h
      have := ih i h
      simp [tokens] at this ⊢
      omega

theorem tokens_le (T : Str) (ts : List Task) (i : Nat) (t : Task) (h : ts[i]? = some t) : t.token T ≤ tokens T ts := by
  have := tokens_set T ts i t ⟨.gone, .ready⟩ h
  have e : Task.token T ⟨.gone, .ready⟩ = 0 := rfl
  omega

theorem tokens_two (T : Str) (ts : List Task) (i j : Nat) (t u : Task) (hij : i ≠ j) (h : ts[i]? = some t) (h' : ts[j]? = some u) :
    t.token T + u.token T ≤ tokens T ts := by
  have := tokens_set T ts i t ⟨.gone, .ready⟩ h
  have e : Task.token T ⟨.gone, .ready⟩ = 0 := rfl
  have h2 : (ts.set i ⟨.gone, .ready⟩)[j]? = some u := by rw [List.getElem?_set_ne hij]; exact h'
  have := tokens_le T _ j u h2
  omega

/-- Statements still to come do not touch table `T`. -/
def CleanScripts (lex : Str → List Token) (T : Str) (m : Migrator) (scripts : List Str) : Prop :=
  ∀ s ∈ scripts, ∀ q ∈ splitQueryStatements (lex s), Innocent T (m.prepare q)

/-- A task none of whose statements touches table `T`. -/
def Pc.clean (lex : Str → List Token) (T : Str) : Pc → Prop
  | .mig m (.acquire _ ss) => CleanScripts lex T m ss
  | .mig m (.pause _ _ ss) => CleanScripts lex T m ss
  | .mig m (.force _ ss) => CleanScripts lex T m ss
  | .mig m (.running _ q rest ss) => Innocent T q ∧ (∀ q ∈ rest, Innocent T (m.prepare q)) ∧ CleanScripts lex T m ss
  | _ => True

theorem nextStatement_mem {qs : List Str} {q : Str} {rest : List Str} (h : nextStatement qs = some (q, rest)) : q ∈ qs ∧ ∀ x ∈ rest, x ∈ qs := by
  induction qs with
  | nil => cases h
  | cons x qs ih =>
    simp only [nextStatement] at h
    split at h
    · obtain ⟨a, b⟩ := ih h
      exact ⟨List.mem_cons_of_mem _ a, fun y hy => List.mem_cons_of_mem _ (b y hy)⟩
    · simp only [Option.some.injEq, Prod.mk.injEq] at h
      obtain ⟨rfl, rfl⟩ := h
      exact ⟨by simp, fun y hy => List.mem_cons_of_mem _ hy⟩

theorem scriptLoop_cases (m : Migrator) (lex : Str → List Token) (n : Nat) (ss : List Str) :
    (∃ k, m.scriptLoop lex n ss = .finish k) ∨ (∃ k q rest ss', m.scriptLoop lex n ss = .running k q rest ss') := by
  induction ss generalizing n with
  | nil => exact .inl ⟨n, rfl⟩
  | cons s ss ih =>
    simp only [Migrator.scriptLoop]
    split
    · exact ih _
    · split
      · exact .inr ⟨_, _, _, _, rfl⟩
      · exact ih _

theorem scriptLoop_clean (m : Migrator) (lex : Str → List Token) (T : Str) (n : Nat) (ss : List Str) (h : CleanScripts lex T m ss) :
    Pc.clean lex T (.mig m (m.scriptLoop lex n ss)) := by
  induction ss generalizing n with
  | nil => trivial
  | cons s ss ih =>
    have ht : CleanScripts lex T m ss := fun x hx => h x (List.mem_cons_of_mem _ hx)
    simp only [Migrator.scriptLoop]
    split
    · exact ih _ ht
    · split
      · rename_i q qs hq
        obtain ⟨a, b⟩ := nextStatement_mem hq
        exact ⟨h s (by simp) _ a, fun x hx => h s (by simp) _ (b x hx), ht⟩
      · exact ih _ ht

theorem nextOf_cases (m : Migrator) (lex : Str → List Token) (n : Nat) (rest ss : List Str) :
    (∃ k, m.nextOf lex n rest ss = .finish k) ∨ (∃ k q rest' ss', m.nextOf lex n rest ss = .running k q rest' ss') := by
  unfold Migrator.nextOf
  split
  · exact .inr ⟨_, _, _, _, rfl⟩
  · exact scriptLoop_cases m lex n ss

theorem nextOf_clean (m : Migrator) (lex : Str → List Token) (T : Str) (n : Nat) (rest ss : List Str) (h : CleanScripts lex T m ss)
    (hr : ∀ q ∈ rest, Innocent T (m.prepare q)) : Pc.clean lex T (.mig m (m.nextOf lex n rest ss)) := by
  unfold Migrator.nextOf
  split
  · rename_i q qs hq
    obtain ⟨a, b⟩ := nextStatement_mem hq
    exact ⟨hr _ a, fun x hx => hr _ (b x hx), h⟩
  · exact scriptLoop_clean m lex T n ss h

theorem running_token (T : Str) (m : Migrator) (p : MigPc) (h : (∃ k, p = .finish k) ∨ (∃ k q rest ss, p = .running k q rest ss)) :
    Task.token T ⟨.mig m p, .ready⟩ = if lockTable m.lock = T then 1 else 0 := by
  rcases h with ⟨k, rfl⟩ | ⟨k, q, rest, ss, rfl⟩ <;> rfl

/-! ### The invariant -/

theorem resume_token (lex : Str → List Token) (T : Str) (now : Nat) (pc : Pc) (r : Reply) (h : pc.request ≠ none) :
    Task.token T ⟨(pc.resume lex now r).1, .ready⟩ + tokens T ((pc.resume lex now r).2.map (⟨·, .ready⟩)) = Task.token T ⟨pc, .answered r⟩ := by
  cases pc with
  | tryLock l =>
    cases r with
    | ok u => rfl
    | error e => rcases attempt_cases e with h | h <;> simp only [Pc.resume, h] <;> rfl
  | lock l =>
    cases r with
    | ok u => rfl
    | error e => rcases attempt_cases e with h | h <;> simp only [Pc.resume, h] <;> rfl
  | unlock l => rfl
  | dropped l => rfl
  | reset l => rfl
  | mig m p =>
    cases p with
    | acquire st ss =>
      cases r with
      | ok u =>
        simp only [Pc.resume, Attempt.of]
        rw [running_token T m _ (scriptLoop_cases m lex 0 ss)]; rfl
      | error e => rcases attempt_cases e with h | h <;> simp only [Pc.resume, h] <;> rfl
    | force st ss => cases r <;> rfl
    | running n q rest ss =>
      cases r with
      | ok u =>
        simp only [Pc.resume]
        rw [running_token T m _ (nextOf_cases m lex n rest ss)]; rfl
      | error e => simp [Pc.resume, Task.token, tokens]
    | finish n => cases r <;> rfl
    | _ => exact absurd rfl h
  | _ => exact absurd rfl h

theorem resume_clean (lex : Str → List Token) (T : Str) (now : Nat) (pc : Pc) (r : Reply) (h : pc.clean lex T) :
    (pc.resume lex now r).1.clean lex T ∧ ∀ p ∈ (pc.resume lex now r).2, p.clean lex T := by
  cases pc with
  | tryLock l => simp only [Pc.resume]; split <;> exact ⟨trivial, by simp⟩
  | lock l => simp only [Pc.resume]; split <;> exact ⟨trivial, by simp⟩
  | mig m p =>
    cases p with
    | acquire st ss =>
      simp only [Pc.resume]
      split
      · exact ⟨scriptLoop_clean m lex T 0 ss h, by simp⟩
      · exact ⟨h, by simp⟩
      · exact ⟨trivial, by simp⟩
    | force st ss =>
      cases r with
      | ok u => exact ⟨h, by simp [Pc.resume]⟩
      | error e => exact ⟨trivial, by simp [Pc.resume]⟩
    | running n q rest ss =>
      cases r with
      | ok u => exact ⟨nextOf_clean m lex T n rest ss h.2.2 h.2.1, by simp [Pc.resume]⟩
      | error e =>
        refine ⟨trivial, ?_⟩
        intro p hp
        simp only [Pc.resume, List.mem_singleton] at hp
        subst hp; trivial
    | finish n => cases r <;> exact ⟨trivial, by simp [Pc.resume]⟩
    | _ => exact ⟨h, by simp [Pc.resume]⟩
  | _ => exact ⟨h, by simp [Pc.resume]⟩

/-- Whether a table exists, as a number. -/
def there (T : Str) (tables : List Str) : Nat := if T ∈ tables then 1 else 0

theorem there_filter (T t : Str) (tables : List Str) : there T (tables.filter (· != t)) = if T = t then 0 else there T tables := by
  unfold there
  by_cases h : T = t
  · subst h; simp
  · simp [h]

theorem there_le (T : Str) (tables : List Str) : there T tables ≤ 1 := by unfold there; split <;> omega

theorem forced_append (T : Str) (a b : List LockEv) : forcedResets T (a ++ b) = forcedResets T a + forcedResets T b := by
  simp [forcedResets]

theorem token_error_le (T : Str) (pc : Pc) (e : Str) : Task.token T ⟨pc, .answered (.error e)⟩ ≤ Task.token T ⟨pc, .sent⟩ := by
  cases pc with
  | mig m p => cases p <;> first | exact Nat.le_refl _ | exact Nat.zero_le _
  | _ => first | exact Nat.le_refl _ | exact Nat.zero_le _

theorem forced_force (T : Str) (i : Nat) (l : Lock) : forcedResets T [.ran i .force l.dropText] = if lockTable l = T then 1 else 0 := by
  simp only [forcedResets, dropped_drop, List.filter_cons, List.filter_nil, Option.some.injEq, decide_eq_true_eq]
  split <;> rfl

/-- A lock request the server runs. -/
theorem create_token (T : Str) (pre post : Str) (v : Reply) (l : Lock) (tables : List Str) (tok : Wire → Nat)
    (h1 : ∀ u, tok (.answered (.ok u)) = if lockTable l = T then 1 else 0) (h2 : ∀ e, tok (.answered (.error e)) = 0) :
    tok (.answered (serverRun pre post v l.createText tables).2) + there T tables = there T (serverRun pre post v l.createText tables).1 := by
  rw [run_create]
  by_cases hm : lockTable l ∈ tables
  · rw [if_pos hm]; simp only [h2]; omega
  · rw [if_neg hm]
    simp only [h1]
    by_cases ht : lockTable l = T
    · subst ht; simp [there, hm]
    · rw [if_neg ht]; simp [there, show T ≠ lockTable l from fun e => ht e.symm]

theorem create_there (T : Str) (pre post : Str) (v : Reply) (l : Lock) (tables : List Str) :
    there T tables ≤ there T (serverRun pre post v l.createText tables).1 := by
  rw [run_create]
  by_cases hm : lockTable l ∈ tables
  · rw [if_pos hm]; exact Nat.le_refl _
  · rw [if_neg hm]; simp only [there, List.mem_cons]
    by_cases ht : T ∈ tables <;> simp [ht]

theorem drop_there (T : Str) (pre post : Str) (v : Reply) (l : Lock) (tables : List Str) :
    there T tables ≤ there T (serverRun pre post v l.dropText tables).1 + (if lockTable l = T then 1 else 0) ∧
    (lockTable l = T → there T (serverRun pre post v l.dropText tables).1 = 0) ∧
    (lockTable l ≠ T → there T (serverRun pre post v l.dropText tables).1 = there T tables) := by
  rw [run_drop]
  simp only [there_filter]
  have := there_le T tables
  by_cases ht : lockTable l = T
  · subst ht; simp; exact this
  · have : ¬ T = lockTable l := fun e => ht e.symm
    simp [ht, this]

theorem innocent_there (T : Str) (pre post : Str) (v : Reply) (q : Str) (tables : List Str) (h : Innocent T q) :
    there T (serverRun pre post v q tables).1 = there T tables := by
  unfold there
  simp only [run_innocent pre post v T q tables h]

/-- The balance of tokens against the table when the server runs a request; an error may arrive instead of its answer. -/
theorem serve_balance (lex : Str → List Token) (T : Str) (i : Nat) (pc : Pc) (p : Purpose) (q : Str) (h : pc.request = some (p, q)) (hc : pc.clean lex T)
    (pre post : Str) (v : Reply) (tables : List Str) (r : Reply) (hr : r = (serverRun pre post v q tables).2 ∨ ∃ e, r = .error e) :
    Task.token T ⟨pc, .answered r⟩ + there T tables ≤
      Task.token T ⟨pc, .sent⟩ + forcedResets T [.ran i p q] + there T (serverRun pre post v q tables).1 := by
  cases pc with
  | tryLock l =>
    simp only [Pc.request, Option.some.injEq, Prod.mk.injEq] at h
    obtain ⟨rfl, rfl⟩ := h
    have h1 := create_token T pre post v l tables (fun w => Task.token T ⟨.tryLock l, w⟩) (fun _ => rfl) (fun _ => rfl)
    have h2 := create_there T pre post v l tables
    rcases hr with rfl | ⟨e, rfl⟩
    · omega
    · have : Task.token T ⟨.tryLock l, .answered (.error e)⟩ = 0 := rfl
      omega
  | lock l =>
    simp only [Pc.request, Option.some.injEq, Prod.mk.injEq] at h
    obtain ⟨rfl, rfl⟩ := h
    have h1 := create_token T pre post v l tables (fun w => Task.token T ⟨.lock l, w⟩) (fun _ => rfl) (fun _ => rfl)
    have h2 := create_there T pre post v l tables
    rcases hr with rfl | ⟨e, rfl⟩
    · omega
    · have : Task.token T ⟨.lock l, .answered (.error e)⟩ = 0 := rfl
      omega
  | unlock l =>
    simp only [Pc.request, Option.some.injEq, Prod.mk.injEq] at h
    obtain ⟨rfl, rfl⟩ := h
    have := (drop_there T pre post v l tables).1
    have e1 : Task.token T ⟨.unlock l, .answered r⟩ = 0 := rfl
    have e2 : Task.token T ⟨.unlock l, .sent⟩ = if lockTable l = T then 1 else 0 := rfl
    omega
  | dropped l =>
    simp only [Pc.request, Option.some.injEq, Prod.mk.injEq] at h
    obtain ⟨rfl, rfl⟩ := h
    have := (drop_there T pre post v l tables).1
    have e1 : Task.token T ⟨.dropped l, .answered r⟩ = 0 := rfl
    have e2 : Task.token T ⟨.dropped l, .sent⟩ = if lockTable l = T then 1 else 0 := rfl
    omega
  | reset l =>
    simp only [Pc.request, Option.some.injEq, Prod.mk.injEq] at h
    obtain ⟨rfl, rfl⟩ := h
    have := (drop_there T pre post v l tables).1
    have e1 : Task.token T ⟨.reset l, .answered r⟩ = 0 := rfl
    rw [forced_force]
    omega
  | mig m p =>
    cases p with
    | acquire st ss =>
      simp only [Pc.request, Option.some.injEq, Prod.mk.injEq] at h
      obtain ⟨rfl, rfl⟩ := h
      have h1 := create_token T pre post v m.lock tables (fun w => Task.token T ⟨.mig m (.acquire st ss), w⟩) (fun _ => rfl) (fun _ => rfl)
      have h2 := create_there T pre post v m.lock tables
      rcases hr with rfl | ⟨e, rfl⟩
      · omega
      · have : Task.token T ⟨.mig m (.acquire st ss), .answered (.error e)⟩ = 0 := rfl
        omega
    | force st ss =>
      simp only [Pc.request, Option.some.injEq, Prod.mk.injEq] at h
      obtain ⟨rfl, rfl⟩ := h
      have := (drop_there T pre post v m.lock tables).1
      have e1 : Task.token T ⟨.mig m (.force st ss), .answered r⟩ = 0 := rfl
      rw [forced_force]
      omega
    | running n q' rest ss =>
      simp only [Pc.request, Option.some.injEq, Prod.mk.injEq] at h
      obtain ⟨rfl, rfl⟩ := h
      have := innocent_there T pre post v q' tables hc.1
      have e : Task.token T ⟨.mig m (.running n q' rest ss), .answered r⟩ = Task.token T ⟨.mig m (.running n q' rest ss), .sent⟩ := rfl
      omega
    | finish n =>
      simp only [Pc.request, Option.some.injEq, Prod.mk.injEq] at h
      obtain ⟨rfl, rfl⟩ := h
      have := (drop_there T pre post v m.lock tables).1
      have e1 : Task.token T ⟨.mig m (.finish n), .answered r⟩ = 0 := rfl
      have e2 : Task.token T ⟨.mig m (.finish n), .sent⟩ = if lockTable m.lock = T then 1 else 0 := rfl
      omega
    | _ => cases h
  | _ => cases h

/-- Conversely, on a calm server a table that is there has its token. -/
theorem serve_balance_calm (lex : Str → List Token) (T : Str) (pc : Pc) (p : Purpose) (q : Str) (h : pc.request = some (p, q)) (hc : pc.clean lex T)
    (pre post : Str) (v : Reply) (tables : List Str) :
    there T (serverRun pre post v q tables).1 = 0 ∨
    there T (serverRun pre post v q tables).1 + Task.token T ⟨pc, .sent⟩ ≤ there T tables + Task.token T ⟨pc, .answered (serverRun pre post v q tables).2⟩ := by
  have hcreate : ∀ (l : Lock) (tok : Wire → Nat), (∀ u, tok (.answered (.ok u)) = if lockTable l = T then 1 else 0) → (∀ e, tok (.answered (.error e)) = 0) →
      tok .sent = 0 → there T (serverRun pre post v l.createText tables).1 + tok .sent ≤ there T tables + tok (.answered (serverRun pre post v l.createText tables).2) := by
    intro l tok h1 h2 h3
    have := create_token T pre post v l tables tok h1 h2
    omega
  have hdrop : ∀ (l : Lock) (s a : Nat), (lockTable l ≠ T → s = 0) → there T (serverRun pre post v l.dropText tables).1 = 0 ∨
      there T (serverRun pre post v l.dropText tables).1 + s ≤ there T tables + a := by
    intro l s a h0
    obtain ⟨_, h1, h2⟩ := drop_there T pre post v l tables
    by_cases ht : lockTable l = T
    · exact .inl (h1 ht)
    · have := h2 ht; have := h0 ht; omega
  have hone : ∀ l : Lock, lockTable l ≠ T → (if lockTable l = T then 1 else 0) = 0 := fun l h => if_neg h
  cases pc with
  | tryLock l =>
    simp only [Pc.request, Option.some.injEq, Prod.mk.injEq] at h
    obtain ⟨rfl, rfl⟩ := h
    exact .inr (hcreate l (fun w => Task.token T ⟨.tryLock l, w⟩) (fun _ => rfl) (fun _ => rfl) rfl)
  | lock l =>
    simp only [Pc.request, Option.some.injEq, Prod.mk.injEq] at h
    obtain ⟨rfl, rfl⟩ := h
    exact .inr (hcreate l (fun w => Task.token T ⟨.lock l, w⟩) (fun _ => rfl) (fun _ => rfl) rfl)
  | unlock l =>
    simp only [Pc.request, Option.some.injEq, Prod.mk.injEq] at h
    obtain ⟨rfl, rfl⟩ := h
    exact hdrop l _ _ (fun h => hone l h)
  | dropped l =>
    simp only [Pc.request, Option.some.injEq, Prod.mk.injEq] at h
    obtain ⟨rfl, rfl⟩ := h
    exact hdrop l _ _ (fun h => hone l h)
  | reset l =>
    simp only [Pc.request, Option.some.injEq, Prod.mk.injEq] at h
    obtain ⟨rfl, rfl⟩ := h
    exact hdrop l _ _ (fun _ => rfl)
  | mig m p =>
    cases p with
    | acquire st ss =>
      simp only [Pc.request, Option.some.injEq, Prod.mk.injEq] at h
      obtain ⟨rfl, rfl⟩ := h
      exact .inr (hcreate m.lock (fun w => Task.token T ⟨.mig m (.acquire st ss), w⟩) (fun _ => rfl) (fun _ => rfl) rfl)
    | force st ss =>
      simp only [Pc.request, Option.some.injEq, Prod.mk.injEq] at h
      obtain ⟨rfl, rfl⟩ := h
      exact hdrop m.lock _ _ (fun _ => rfl)
    | running n q' rest ss =>
      simp only [Pc.request, Option.some.injEq, Prod.mk.injEq] at h
      obtain ⟨rfl, rfl⟩ := h
      rw [innocent_there T pre post v q' tables hc.1]
      exact .inr (Nat.le_refl _)
    | finish n =>
      simp only [Pc.request, Option.some.injEq, Prod.mk.injEq] at h
      obtain ⟨rfl, rfl⟩ := h
      exact hdrop m.lock _ _ (fun h => hone m.lock h)
    | _ => cases h
  | _ => cases h

/-! ### Broken connections -/

/-- The token of a task as long as its connection lives, or a request it sent before is on its way. -/
def Task.real (dead : List Nat) (T : Str) (t : Task) : Nat :=
  if t.pc.cut dead then
    match t.wire with
    | .sent => t.token T
    | _ => 0
  else t.token T

/-- All of them. -/
def reals (dead : List Nat) (T : Str) (ts : List Task) : Nat := (ts.map (Task.real dead T)).sum

theorem reals_append (dead : List Nat) (T : Str) (a b : List Task) : reals dead T (a ++ b) = reals dead T a + reals dead T b := by
  simp [reals, List.sum_append]

theorem reals_set (dead : List Nat) (T : Str) (ts : List Task) (i : Nat) (t u : Task) (h : ts[i]? = some t) :
    reals dead T (ts.set i u) + t.real dead T = reals dead T ts + u.real dead T := by
  induction ts generalizing i with
  | nil => cases h
  | cons x ts ih =>
    cases i with
    | zero =>
      simp only [List.getElem?_cons_zero, Option.some.injEq] at h
      subst h
      simp [reals]; omega
    | succ i =>
      simp only [List.getElem?_cons_succ] at h
      have := ih i h
      simp [reals] at this ⊢
      omega

theorem real_gone (dead : List Nat) (T : Str) (w : Wire) : Task.real dead T ⟨.gone, w⟩ = 0 := by
  simp [Task.real, Pc.cut, Pc.client, Task.token]

theorem reals_le (dead : List Nat) (T : Str) (ts : List Task) (i : Nat) (t : Task) (h : ts[i]? = some t) : t.real dead T ≤ reals dead T ts := by
  have := reals_set dead T ts i t ⟨.gone, .ready⟩ h
  have e := real_gone dead T .ready
  omega

theorem real_le (dead : List Nat) (T : Str) (t : Task) : t.real dead T ≤ t.token T := by
  unfold Task.real
  split
  · split <;> omega
  · omega

theorem real_alive {dead : List Nat} {t : Task} (h : ¬ t.pc.cut dead = true) (T : Str) : t.real dead T = t.token T := by
  unfold Task.real; rw [if_neg h]

theorem real_cut {dead : List Nat} {pc : Pc} (h : pc.cut dead = true) (T : Str) : Task.real dead T ⟨pc, .ready⟩ = 0 ∧ ∀ r, Task.real dead T ⟨pc, .answered r⟩ = 0 := by
  unfold Task.real
  constructor
  · rw [if_pos h]
  · intro r; rw [if_pos h]

theorem real_sent (dead : List Nat) (T : Str) (pc : Pc) : Task.real dead T ⟨pc, .sent⟩ = Task.token T ⟨pc, .sent⟩ := by
  unfold Task.real
  split <;> rfl

theorem cut_mono (pc : Pc) (more dead : List Nat) (h : pc.cut dead = true) : pc.cut (more ++ dead) = true := by
  unfold Pc.cut at h ⊢
  cases hc : pc.client with
  | none => rw [hc] at h; cases h
  | some k =>
    rw [hc] at h
    simp only [List.contains_eq_mem, decide_eq_true_eq, List.mem_append] at h ⊢
    exact .inr h

theorem cut_self (pc : Pc) (dead : List Nat) (h : pc.client ≠ none) : pc.cut (pc.client.toList ++ dead) = true := by
  unfold Pc.cut
  cases hc : pc.client with
  | none => exact absurd hc h
  | some k => simp

theorem request_client {pc : Pc} (h : pc.request ≠ none) : pc.client ≠ none := by
  cases pc with
  | mig m p => simp [Pc.client]
  | _ => first | exact absurd rfl h | simp [Pc.client]

theorem real_mono (T : Str) (more dead : List Nat) (t : Task) : t.real (more ++ dead) T ≤ t.real dead T := by
  by_cases h : t.pc.cut dead = true
  · unfold Task.real
    rw [if_pos h, if_pos (cut_mono _ more dead h)]
    exact Nat.le_refl _
  · rw [real_alive h]; exact real_le _ T t

theorem reals_mono (T : Str) (more dead : List Nat) (ts : List Task) : reals (more ++ dead) T ts ≤ reals dead T ts := by
  induction ts with
  | nil => exact Nat.le_refl _
  | cons t ts ih =>
    have := real_mono T more dead t
    simp only [reals, List.map_cons, List.sum_cons] at ih ⊢
    omega

/-- A task that goes on does so on the same connection. -/
theorem resume_client (lex : Str → List Token) (now : Nat) (r : Reply) (pc : Pc) :
    ((pc.resume lex now r).1.client = pc.client ∨ (pc.resume lex now r).1.client = none) ∧ ∀ p ∈ (pc.resume lex now r).2, p.client = pc.client := by
  cases pc with
  | tryLock l => simp only [Pc.resume]; split <;> exact ⟨by first | exact .inl rfl | exact .inr rfl, by simp⟩
  | lock l => simp only [Pc.resume]; split <;> exact ⟨by first | exact .inl rfl | exact .inr rfl, by simp⟩
  | mig m p =>
    cases p with
    | acquire st ss => simp only [Pc.resume]; split <;> exact ⟨.inl rfl, by simp⟩
    | force st ss => cases r <;> exact ⟨.inl rfl, by simp [Pc.resume]⟩
    | running n q rest ss => cases r <;> exact ⟨.inl rfl, by simp [Pc.resume, Pc.client, Migrator.lock]⟩
    | finish n => cases r <;> exact ⟨.inl rfl, by simp [Pc.resume]⟩
    | _ => exact ⟨.inl rfl, by simp [Pc.resume]⟩
  | _ => exact ⟨by first | exact .inl rfl | exact .inr rfl, by simp [Pc.resume]⟩

theorem cut_eq {p pc : Pc} (h : p.client = pc.client) (dead : List Nat) : p.cut dead = pc.cut dead := by
  unfold Pc.cut; rw [h]

theorem no_client_token (T : Str) (p : Pc) (h : p.client = none) (w : Wire) : Task.token T ⟨p, w⟩ = 0 := by
  cases p <;> first | rfl | cases h

theorem reals_cut (dead : List Nat) (T : Str) (ps : List Pc) (h : ∀ p ∈ ps, p.cut dead = true) : reals dead T (ps.map (⟨·, .ready⟩)) = 0 := by
  induction ps with
  | nil => rfl
  | cons p ps ih =>
    have := ih (fun x hx => h x (by simp [hx]))
    have := (real_cut (h p (by simp)) T).1
    simp only [reals, List.map_cons, List.sum_cons] at *
    omega

theorem reals_le_tokens (dead : List Nat) (T : Str) (ts : List Task) : reals dead T ts ≤ tokens T ts := by
  induction ts with
  | nil => exact Nat.le_refl _
  | cons t ts ih =>
    have := real_le dead T t
    simp only [reals, tokens, List.map_cons, List.sum_cons] at ih ⊢
    omega

/-- Learning an outcome makes no new tokens. -/
theorem resume_real (lex : Str → List Token) (T : Str) (now : Nat) (dead : List Nat) (pc : Pc) (r : Reply) (h : pc.request ≠ none) :
    Task.real dead T ⟨(pc.resume lex now r).1, .ready⟩ + reals dead T ((pc.resume lex now r).2.map (⟨·, .ready⟩)) ≤ Task.real dead T ⟨pc, .answered r⟩ := by
  by_cases hc : pc.cut dead = true
  · obtain ⟨h1, h2⟩ := resume_client lex now r pc
    have e1 : Task.real dead T ⟨(pc.resume lex now r).1, .ready⟩ = 0 := by
      rcases h1 with h1 | h1
      · exact (real_cut (by rw [cut_eq h1]; exact hc) T).1
      · have := real_le dead T ⟨(pc.resume lex now r).1, .ready⟩
        rw [no_client_token T _ h1] at this
        omega
    have e2 := reals_cut dead T (pc.resume lex now r).2 (fun p hp => by rw [cut_eq (h2 p hp)]; exact hc)
    omega
  · rw [real_alive (t := ⟨pc, .answered r⟩) hc, ← resume_token lex T now pc r h]
    have a := real_le dead T ⟨(pc.resume lex now r).1, .ready⟩
    have b := reals_le_tokens dead T ((pc.resume lex now r).2.map (⟨·, .ready⟩))
    omega

/-- The invariant: the tokens (and a fixed number `k`, zero at the start) are bounded by the forced resets and the table, and no statement to come touches the table. -/
structure Cloud.Inv (lex : Str → List Token) (T : Str) (k : Nat) (c : Cloud) : Prop where
  bound : reals c.dead T c.tasks + k ≤ forcedResets T c.log + there T c.tables
  clean : ∀ t ∈ c.tasks, t.pc.clean lex T

theorem mem_set_cases {ts : List Task} {i : Nat} {t u : Task} (h : t ∈ ts.set i u) : t = u ∨ t ∈ ts := by
  rcases List.mem_or_eq_of_mem_set h with h | h
  · exact .inr h
  · exact .inl h

theorem wake_token (T : Str) (now : Nat) (pc : Pc) : Task.token T ⟨pc.wake now, .ready⟩ = Task.token T ⟨pc, .ready⟩ := by
  cases pc with
  | lockSleep l w => simp only [Pc.wake]; split <;> rfl
  | mig m p =>
    cases p with
    | pause st w ss => simp only [Pc.wake]; (repeat' split) <;> rfl
    | _ => rfl
  | _ => rfl

theorem wake_client (now : Nat) (pc : Pc) : (pc.wake now).client = pc.client := by
  cases pc with
  | lockSleep l w => simp only [Pc.wake]; split <;> rfl
  | mig m p =>
    cases p with
    | pause st w ss => simp only [Pc.wake]; (repeat' split) <;> rfl
    | _ => rfl
  | _ => rfl

theorem wake_real (dead : List Nat) (T : Str) (now : Nat) (pc : Pc) : Task.real dead T ⟨pc.wake now, .ready⟩ = Task.real dead T ⟨pc, .ready⟩ := by
  unfold Task.real
  dsimp only
  rw [cut_eq (wake_client now pc), wake_token]

theorem wake_clean (lex : Str → List Token) (T : Str) (now : Nat) (pc : Pc) (h : pc.clean lex T) : (pc.wake now).clean lex T := by
  cases pc with
  | lockSleep l w => simp only [Pc.wake]; split <;> trivial
  | mig m p =>
    cases p with
    | pause st w ss => simp only [Pc.wake]; (repeat' split) <;> exact h
    | _ => exact h
  | _ => exact h

theorem owned_token (T : Str) (pc : Pc) (w : Wire) : tokens T (pc.owned.map (⟨·, .ready⟩)) ≤ Task.token T ⟨pc, w⟩ := by
  cases pc with
  | holds l => simp [Pc.owned, tokens, Task.token]
  | mig m p =>
    cases p with
    | running n q rest ss => simp [Pc.owned, tokens, Task.token]
    | _ => exact Nat.zero_le _
  | _ => exact Nat.zero_le _

theorem owned_client (pc p : Pc) (hp : p ∈ pc.owned) : p.client = pc.client := by
  cases pc with
  | holds l => simp only [Pc.owned, List.mem_singleton] at hp; subst hp; rfl
  | mig m x =>
    cases x with
    | running n q rest ss => simp only [Pc.owned, List.mem_singleton] at hp; subst hp; rfl
    | _ => simp [Pc.owned] at hp
  | _ => simp [Pc.owned] at hp

theorem owned_real (dead : List Nat) (T : Str) (pc : Pc) (w : Wire) : reals dead T (pc.owned.map (⟨·, .ready⟩)) ≤ Task.real dead T ⟨pc, w⟩ := by
  by_cases hc : pc.cut dead = true
  · rw [reals_cut dead T pc.owned (fun p hp => by rw [cut_eq (owned_client pc p hp)]; exact hc)]
    exact Nat.zero_le _
  · rw [real_alive (t := ⟨pc, w⟩) hc]
    exact Nat.le_trans (reals_le_tokens dead T _) (owned_token T pc w)

theorem owned_clean (lex : Str → List Token) (T : Str) (pc : Pc) : ∀ p ∈ pc.owned, p.clean lex T := by
  intro p hp
  cases pc with
  | holds l => simp only [Pc.owned, List.mem_singleton] at hp; subst hp; trivial
  | mig m x =>
    cases x with
    | running n q rest ss => simp only [Pc.owned, List.mem_singleton] at hp; subst hp; trivial
    | _ => simp [Pc.owned] at hp
  | _ => simp [Pc.owned] at hp

theorem Cloud.Inv.put {lex T k} {c : Cloud} (h : c.Inv lex T k) {i : Nat} {t u : Task} (ht : c.tasks[i]? = some t) (hu : u.real c.dead T ≤ t.real c.dead T)
    (hc : u.pc.clean lex T) : (c.put i u).Inv lex T k := by
  refine ⟨?_, ?_⟩
  · have := reals_set c.dead T c.tasks i t u ht
    have := h.bound
    simp only [Cloud.put]
    omega
  · intro x hx
    rcases mem_set_cases hx with rfl | hx
    · exact hc
    · exact h.clean x hx

theorem Cloud.Inv.spawn {lex T k} {c : Cloud} (h : c.Inv lex T k) (p : Pc) (hp : Task.token T ⟨p, .ready⟩ = 0) (hc : p.clean lex T) : (c.spawn p).Inv lex T k := by
  refine ⟨?_, ?_⟩
  · have := h.bound
    simp only [Cloud.spawn, reals_append]
    have : reals c.dead T [⟨p, .ready⟩] = 0 := by
      have := real_le c.dead T ⟨p, .ready⟩
      simp only [reals, List.map_cons, List.map_nil, List.sum_cons, List.sum_nil]
      omega
    omega
  · intro x hx
    simp only [Cloud.spawn, List.mem_append, List.mem_singleton] at hx
    rcases hx with hx | rfl
    · exact h.clean x hx
    · exact hc

/-- Task `i` gives way and its handles are dropped. -/
theorem Cloud.Inv.release {lex T k} {c : Cloud} (h : c.Inv lex T k) {i : Nat} {t : Task} (ht : c.tasks[i]? = some t) (ps : List Pc)
    (hp : reals c.dead T (ps.map (⟨·, .ready⟩)) ≤ t.real c.dead T) (hc : ∀ p ∈ ps, p.clean lex T) : ((c.put i ⟨.gone, .ready⟩).spawns ps).Inv lex T k := by
  refine ⟨?_, ?_⟩
  · have := h.bound
    have := reals_set c.dead T c.tasks i t ⟨.gone, .ready⟩ ht
    have e := real_gone c.dead T .ready
    simp only [Cloud.spawns, Cloud.put, reals_append]
    omega
  · intro x hx
    simp only [Cloud.spawns, Cloud.put, List.mem_append, List.mem_map] at hx
    rcases hx with hx | ⟨p, hp, rfl⟩
    · rcases mem_set_cases hx with rfl | hx
      · trivial
      · exact h.clean x hx
    · exact hc p hp

theorem Cloud.Inv.step {lex T k} {c : Cloud} (h : c.Inv lex T k) (s : CloudStep) (hs : InnocentStep lex T s) : (c.step lex s).Inv lex T k := by
  cases s with
  | tick ms => exact ⟨h.bound, h.clean⟩
  | callTryLock l => exact h.spawn _ rfl trivial
  | callLock l => exact h.spawn _ rfl trivial
  | callReset l => exact h.spawn _ rfl trivial
  | callMigrate m ss => exact h.spawn _ rfl hs
  | start i =>
    simp only [Cloud.step]
    split
    · rename_i pc ht
      split
      · refine h.put ht ?_ (h.clean ⟨pc, .ready⟩ (List.mem_of_getElem? ht))
        by_cases hc : pc.cut c.dead = true
        · rw [if_pos hc, (real_cut hc T).2]; exact Nat.zero_le _
        · rw [if_neg hc, real_alive (t := ⟨pc, .sent⟩) hc, real_alive (t := ⟨pc, .ready⟩) hc]
          cases pc with
          | mig m p => cases p <;> exact Nat.le_refl _
          | _ => exact Nat.le_refl _
      · exact h
    · exact h
  | serve i f =>
    simp only [Cloud.step]
    split
    · rename_i pc ht
      split
      · rename_i p q hq
        have hcl := h.clean _ (List.mem_of_getElem? ht)
        have hclean : ∀ w, ∀ x ∈ c.tasks.set i ⟨pc, w⟩, x.pc.clean lex T := by
          intro w x hx
          rcases mem_set_cases hx with rfl | hx
          · exact hcl
          · exact h.clean x hx
        have hcut : pc.cut (pc.client.toList ++ c.dead) = true := cut_self pc c.dead (request_client (by rw [hq]; simp))
        have h0 := h.bound
        cases f with
        | runs pre post v =>
          simp only [Cloud.served]
          split
          · exact h
          · rename_i hc
            refine ⟨?_, hclean _⟩
            have hb := serve_balance lex T i pc p q hq hcl pre post v c.tables _ (.inl rfl)
            have hts := reals_set c.dead T c.tasks i _ ⟨pc, .answered (serverRun pre post v q c.tables).2⟩ ht
            rw [real_alive (t := ⟨pc, .sent⟩) hc, real_alive (t := ⟨pc, .answered _⟩) hc] at hts
            simp only [forced_append]
            omega
        | rejected e =>
          refine h.put ht ?_ hcl
          by_cases hc : pc.cut c.dead = true
          · rw [(real_cut hc T).2]; exact Nat.zero_le _
          · rw [real_alive (t := ⟨pc, .sent⟩) hc, real_alive (t := ⟨pc, .answered _⟩) hc]; exact token_error_le T pc e
        | lostBefore r =>
          refine ⟨?_, hclean _⟩
          have hts := reals_set (pc.client.toList ++ c.dead) T c.tasks i _ ⟨pc, .answered r⟩ ht
          have hm := reals_mono T pc.client.toList c.dead c.tasks
          rw [(real_cut hcut T).2] at hts
          simp only [Cloud.served]
          omega
        | lostAfter r =>
          refine ⟨?_, hclean _⟩
          have hb := serve_balance lex T i pc p q hq hcl [] [] (.ok ()) c.tables (.error []) (.inr ⟨_, rfl⟩)
          have hts := reals_set (pc.client.toList ++ c.dead) T c.tasks i _ ⟨pc, .answered r⟩ ht
          have hm := reals_mono T pc.client.toList c.dead c.tasks
          rw [(real_cut hcut T).2, real_sent] at hts
          simp only [Cloud.served, forced_append]
          omega
      · exact h
    · exact h
  | recv i =>
    simp only [Cloud.step]
    split
    · rename_i pc r ht
      split
      · rename_i p q hq
        have hcl := h.clean _ (List.mem_of_getElem? ht)
        have hb := resume_real lex T c.now c.dead pc r (by rw [hq]; simp)
        have hts := reals_set c.dead T c.tasks i _ ⟨(pc.resume lex c.now r).1, .ready⟩ ht
        have h0 := h.bound
        obtain ⟨c1, c2⟩ := resume_clean lex T c.now pc r hcl
        refine ⟨?_, ?_⟩
        · have hf : forcedResets T [.answer i p q r] = 0 := rfl
          simp only [Cloud.received, reals_append, forced_append]
          omega
        · intro x hx
          simp only [Cloud.received, List.mem_append, List.mem_map] at hx
          rcases hx with hx | ⟨p, hp, rfl⟩
          · rcases mem_set_cases hx with rfl | hx
            · exact c1
            · exact h.clean x hx
          · exact c2 p hp
      · exact h
    · exact h
  | wake i =>
    simp only [Cloud.step]
    split
    · rename_i pc ht
      exact h.put ht (by rw [wake_real]; exact Nat.le_refl _) (wake_clean lex T c.now pc (h.clean _ (List.mem_of_getElem? ht)))
    · exact h
  | callUnlock i =>
    simp only [Cloud.step]
    split
    · rename_i l ht
      exact h.put ht (Nat.le_refl _) trivial
    · exact h
  | dropHandle i =>
    simp only [Cloud.step]
    split
    · rename_i l ht
      exact h.release ht [.dropped l] (owned_real c.dead T (.holds l) .ready) (by intro p hp; rw [List.mem_singleton] at hp; subst hp; trivial)
    · exact h
  | crash i =>
    simp only [Cloud.step]
    split
    · exact h
    · rename_i t _ ht
      exact h.put ht (by rw [real_gone]; exact Nat.zero_le _) trivial
    · exact h
  | cancel i =>
    simp only [Cloud.step]
    split
    · exact h
    · rename_i pc w _ ht
      exact h.release ht pc.owned (owned_real c.dead T pc w) (owned_clean lex T pc)
    · exact h

theorem Cloud.Inv.run {lex T k} (steps : List CloudStep) {c : Cloud} (h : c.Inv lex T k) (hs : ∀ s ∈ steps, InnocentStep lex T s) : (c.run lex steps).Inv lex T k := by
  induction steps generalizing c with
  | nil => exact h
  | cons s ss ih => exact ih (h.step s (hs s (by simp))) (fun x hx => hs x (by simp [hx]))

theorem cloud_init_inv (lex : Str → List Token) (T : Str) : Cloud.init.Inv lex T 0 := ⟨Nat.zero_le _, fun _ h => by cases h⟩

theorem clean_step {lex T} {c : Cloud} (h : ∀ t ∈ c.tasks, t.pc.clean lex T) (s : CloudStep) (hs : InnocentStep lex T s) :
    ∀ t ∈ (c.step lex s).tasks, t.pc.clean lex T := by
  have hset : ∀ (i : Nat) (u : Task) (ps : List Pc), u.pc.clean lex T → (∀ p ∈ ps, p.clean lex T) →
      ∀ t ∈ c.tasks.set i u ++ ps.map (⟨·, .ready⟩), t.pc.clean lex T := by
    intro i u ps hu hp t ht
    simp only [List.mem_append, List.mem_map] at ht
    rcases ht with ht | ⟨p, hp', rfl⟩
    · rcases mem_set_cases ht with rfl | ht
      · exact hu
      · exact h t ht
    · exact hp p hp'
  have hset0 : ∀ (i : Nat) (u : Task), u.pc.clean lex T → ∀ t ∈ c.tasks.set i u, t.pc.clean lex T := by
    intro i u hu t ht
    exact hset i u [] hu (by simp) t (by simpa using ht)
  have hspawn : ∀ p : Pc, p.clean lex T → ∀ t ∈ c.tasks ++ [⟨p, .ready⟩], t.pc.clean lex T := by
    intro p hp t ht
    simp only [List.mem_append, List.mem_singleton] at ht
    rcases ht with ht | rfl
    · exact h t ht
    · exact hp
  cases s with
  | tick ms => exact h
  | callTryLock l => exact hspawn _ trivial
  | callLock l => exact hspawn _ trivial
  | callReset l => exact hspawn _ trivial
  | callMigrate m ss => exact hspawn _ hs
  | start i =>
    simp only [Cloud.step]
    split
    · rename_i pc ht
      split
      · exact hset0 i _ (h ⟨pc, .ready⟩ (List.mem_of_getElem? ht))
      · exact h
    · exact h
  | serve i f =>
    simp only [Cloud.step]
    split
    · rename_i pc ht
      have hcl := h ⟨pc, .sent⟩ (List.mem_of_getElem? ht)
      split
      · cases f with
        | runs pre post v =>
          simp only [Cloud.served]
          split
          · exact h
          · exact hset0 i _ hcl
        | _ => exact hset0 i _ hcl
      · exact h
    · exact h
  | recv i =>
    simp only [Cloud.step]
    split
    · rename_i pc r ht
      have hcl := resume_clean lex T c.now pc r (h ⟨pc, .answered r⟩ (List.mem_of_getElem? ht))
      split
      · exact hset i _ _ hcl.1 hcl.2
      · exact h
    · exact h
  | wake i =>
    simp only [Cloud.step]
    split
    · rename_i pc ht
      exact hset0 i _ (wake_clean lex T c.now pc (h ⟨pc, .ready⟩ (List.mem_of_getElem? ht)))
    · exact h
  | callUnlock i =>
    simp only [Cloud.step]
    split
    · exact hset0 i _ trivial
    · exact h
  | dropHandle i =>
    simp only [Cloud.step]
    split
    · rename_i l ht
      exact hset i _ [.dropped l] trivial (by intro p hp; rw [List.mem_singleton] at hp; subst hp; trivial)
    · exact h
  | crash i =>
    simp only [Cloud.step]
    split
    · exact h
    · exact hset0 i _ trivial
    · exact h
  | cancel i =>
    simp only [Cloud.step]
    split
    · exact h
    · rename_i pc w _ ht
      exact hset i _ pc.owned trivial (owned_clean lex T pc)
    · exact h

/-- While nothing is lost, the table is there only if some task accounts for it. -/
structure Cloud.Owned (lex : Str → List Token) (T : Str) (c : Cloud) : Prop where
  alive : c.dead = []
  owner : there T c.tables ≤ tokens T c.tasks
  clean : ∀ t ∈ c.tasks, t.pc.clean lex T

/-- Calm steps break no connection. -/
theorem cut_nil (pc : Pc) : ¬ pc.cut [] = true := by unfold Pc.cut; split <;> simp

theorem calm_dead (lex : Str → List Token) (c : Cloud) (s : CloudStep) (hcalm : Calm s) : (c.step lex s).dead = c.dead := by
  cases s with
  | serve i f =>
    simp only [Cloud.step]
    split
    · split
      · cases f with
        | runs pre post v => simp only [Cloud.served]; split <;> rfl
        | _ => exact hcalm.elim
      · rfl
    · rfl
  | tick ms => rfl
  | callTryLock l => rfl
  | callLock l => rfl
  | callReset l => rfl
  | callMigrate m ss => rfl
  | _ => simp only [Cloud.step]; (repeat' split) <;> rfl

theorem Cloud.Owned.step {lex T} {c : Cloud} (h : c.Owned lex T) (s : CloudStep) (hs : InnocentStep lex T s) (hcalm : Calm s) : (c.step lex s).Owned lex T := by
  refine ⟨?_, ?_, clean_step h.clean s hs⟩
  · rw [← h.alive]; exact calm_dead lex c s hcalm
  have h0 := h.owner
  have hal : ∀ pc : Pc, ¬ pc.cut c.dead = true := by
    intro pc; rw [h.alive]; unfold Pc.cut; split <;> simp
  have hput : ∀ {i : Nat} {t u : Task}, c.tasks[i]? = some t → u.token T = t.token T → there T c.tables ≤ tokens T (c.tasks.set i u) := by
    intro i t u ht hu
    have := tokens_set T c.tasks i t u ht
    omega
  have hspawn : ∀ p : Pc, there T c.tables ≤ tokens T (c.tasks ++ [⟨p, .ready⟩]) := by
    intro p; rw [tokens_append]; omega
  cases s with
  | tick ms => exact h0
  | callTryLock l => exact hspawn _
  | callLock l => exact hspawn _
  | callReset l => exact hspawn _
  | callMigrate m ss => exact hspawn _
  | start i =>
    simp only [Cloud.step]
    split
    · rename_i pc ht
      split
      · refine hput ht ?_
        rw [if_neg (hal pc)]
        cases pc with
        | mig m p => cases p <;> rfl
        | _ => rfl
      · exact h0
    · exact h0
  | serve i f =>
    simp only [Cloud.step]
    split
    · rename_i pc ht
      split
      · rename_i p q hq
        have hcl := h.clean ⟨pc, .sent⟩ (List.mem_of_getElem? ht)
        cases f with
        | runs pre post v =>
          have hb := serve_balance_calm lex T pc p q hq hcl pre post v c.tables
          have hts := tokens_set T c.tasks i _ ⟨pc, .answered (serverRun pre post v q c.tables).2⟩ ht
          simp only [Cloud.served, if_neg (hal pc)]
          omega
        | rejected e => exact hcalm.elim
        | lostBefore e => exact hcalm.elim
        | lostAfter e => exact hcalm.elim
      · exact h0
    · exact h0
  | recv i =>
    simp only [Cloud.step]
    split
    · rename_i pc r ht
      split
      · rename_i p q hq
        have hb := resume_token lex T c.now pc r (by rw [hq]; simp)
        have hts := tokens_set T c.tasks i _ ⟨(pc.resume lex c.now r).1, .ready⟩ ht
        simp only [Cloud.received, tokens_append]
        omega
      · exact h0
    · exact h0
  | wake i =>
    simp only [Cloud.step]
    split
    · rename_i pc ht
      exact hput ht (wake_token T c.now pc)
    · exact h0
  | callUnlock i =>
    simp only [Cloud.step]
    split
    · rename_i l ht
      exact hput ht rfl
    · exact h0
  | dropHandle i =>
    simp only [Cloud.step]
    split
    · rename_i l ht
      have := tokens_set T c.tasks i _ ⟨.gone, .ready⟩ ht
      have e : Task.token T ⟨.gone, .ready⟩ = 0 := rfl
      have e2 : Task.token T ⟨.holds l, .ready⟩ = tokens T [⟨.dropped l, .ready⟩] := by simp [tokens, Task.token]
      simp only [Cloud.spawn, Cloud.put, tokens_append]
      omega
    · exact h0
  | crash i => exact hcalm.elim
  | cancel i => exact hcalm.elim

theorem Cloud.Owned.run {lex T} (steps : List CloudStep) {c : Cloud} (h : c.Owned lex T) (hs : ∀ s ∈ steps, InnocentStep lex T s ∧ Calm s) :
    (c.run lex steps).Owned lex T := by
  induction steps generalizing c with
  | nil => exact h
  | cons s ss ih => exact ih (h.step s (hs s (by simp)).1 (hs s (by simp)).2) (fun x hx => hs x (by simp [hx]))

theorem hasLock_token {T : Str} {t : Task} (h : HasLock T t) : t.token T = 1 := by
  obtain ⟨pc, w⟩ := t
  rcases h with ⟨l, h1, h2⟩ | ⟨m, n, q, rest, ss, h1, h2⟩
  · dsimp only at h1; subst h1; simp [Task.token, h2]
  · dsimp only at h1; subst h1; simp [Task.token, h2]

end Klick
