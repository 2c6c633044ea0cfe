import Verif.Spec.LockWait
import Verif.Props.Lock
import Verif.Props.Fair
/-
C83: waiting for a lock.
-/
namespace Klick
open Spec

/-- The steps that concern task `i`. -/
def CloudStep.about (i : Nat) : CloudStep → Prop
  | .start j | .serve j _ | .recv j | .wake j | .callUnlock j | .dropHandle j | .crash j | .cancel j => j = i
  | _ => False

theorem get_append_left {ts us : List Task} {i : Nat} {t : Task} (h : ts[i]? = some t) : (ts ++ us)[i]? = some t := by
  have hi := lt_of_get h
  rw [List.getElem?_append_left hi]; exact h

/-- Only steps that concern a task change it. -/
theorem step_others (lex : Str → List Token) (c : Cloud) (s : CloudStep) (i : Nat) (t : Task) (ht : c.tasks[i]? = some t) (hs : ¬ s.about i) :
    (c.step lex s).tasks[i]? = some t := by
  have set : ∀ (j : Nat) (u : Task), j ≠ i → (c.tasks.set j u)[i]? = some t := fun j u h => by rw [List.getElem?_set_ne h]; exact ht
  cases s with
  | tick ms => exact ht
  | callTryLock l => exact get_append_left ht
  | callLock l => exact get_append_left ht
  | callReset l => exact get_append_left ht
  | callMigrate m ss => exact get_append_left ht
  | start j =>
    have hs : j ≠ i := hs
    simp only [Cloud.step]
    split
    · split
      · exact set j _ hs
      · exact ht
    · exact ht
  | serve j f =>
    have hs : j ≠ i := hs
    simp only [Cloud.step]
    split
    · split
      · cases f with
        | runs pre post v =>
          simp only [Cloud.served]
          split
          · exact ht
          · exact set j _ hs
        | _ => exact set j _ hs
      · exact ht
    · exact ht
  | recv j =>
    have hs : j ≠ i := hs
    simp only [Cloud.step]
    split
    · split
      · exact get_append_left (set j _ hs)
      · exact ht
    · exact ht
  | wake j =>
    have hs : j ≠ i := hs
    simp only [Cloud.step]
    split
    · exact set j _ hs
    · exact ht
  | callUnlock j =>
    have hs : j ≠ i := hs
    simp only [Cloud.step]
    split
    · exact set j _ hs
    · exact ht
  | dropHandle j =>
    have hs : j ≠ i := hs
    simp only [Cloud.step]
    split
    · exact get_append_left (set j _ hs)
    · exact ht
  | crash j =>
    have hs : j ≠ i := hs
    simp only [Cloud.step]
    split
    · exact ht
    · exact set j _ hs
    · exact ht
  | cancel j =>
    have hs : j ≠ i := hs
    simp only [Cloud.step]
    split
    · exact ht
    · exact get_append_left (set j _ hs)
    · exact ht

/-- Steps that do not harm task `i`. -/
def CloudStep.Harmless (i : Nat) (s : CloudStep) : Prop :=
  s ≠ .crash i ∧ s ≠ .cancel i ∧ (∀ e, s ≠ .serve i (.rejected e)) ∧ ∀ r, s ≠ .serve i (.lostBefore r) ∧ s ≠ .serve i (.lostAfter r)

theorem set_same {ts : List Task} {i : Nat} {t : Task} (h : ts[i]? = some t) : (ts.set i t)[i]? = some t :=
  List.getElem?_set_self (lt_of_get h)

theorem lock_ready (lex : Str → List Token) (c : Cloud) (s : CloudStep) (i : Nat) (l : Lock) (ht : c.tasks[i]? = some ⟨.lock l, .ready⟩)
    (hh : s.Harmless i) (hs : s ≠ .start i) : (c.step lex s).tasks[i]? = some ⟨.lock l, .ready⟩ := by
  by_cases ha : s.about i
  · cases s with
    | start j => have : j = i := ha; subst this; exact absurd rfl hs
    | serve j f => have : j = i := ha; subst this; simp only [Cloud.step, ht]
    | recv j => have : j = i := ha; subst this; simp only [Cloud.step, ht]
    | wake j => have : j = i := ha; subst this; simp only [Cloud.step, ht]; exact set_same ht
    | callUnlock j => have : j = i := ha; subst this; simp only [Cloud.step, ht]
    | dropHandle j => have : j = i := ha; subst this; simp only [Cloud.step, ht]
    | crash j => have : j = i := ha; subst this; exact absurd rfl hh.1
    | cancel j => have : j = i := ha; subst this; exact absurd rfl hh.2.1
    | _ => exact ha.elim
  · exact step_others lex c s i _ ht ha

theorem lock_sent (lex : Str → List Token) (c : Cloud) (s : CloudStep) (i : Nat) (l : Lock) (ht : c.tasks[i]? = some ⟨.lock l, .sent⟩)
    (hh : s.Harmless i) (hs : ∀ pre post v, s ≠ .serve i (.runs pre post v)) : (c.step lex s).tasks[i]? = some ⟨.lock l, .sent⟩ := by
  by_cases ha : s.about i
  · cases s with
    | start j => have : j = i := ha; subst this; simp only [Cloud.step, ht]
    | serve j f =>
      have : j = i := ha
      subst this
      cases f with
      | runs pre post v => exact absurd rfl (hs pre post v)
      | rejected e => exact absurd rfl (hh.2.2.1 e)
      | lostBefore e => exact absurd rfl (hh.2.2.2 e).1
      | lostAfter e => exact absurd rfl (hh.2.2.2 e).2
    | recv j => have : j = i := ha; subst this; simp only [Cloud.step, ht]
    | wake j => have : j = i := ha; subst this; simp only [Cloud.step, ht]
    | callUnlock j => have : j = i := ha; subst this; simp only [Cloud.step, ht]
    | dropHandle j => have : j = i := ha; subst this; simp only [Cloud.step, ht]
    | crash j => have : j = i := ha; subst this; exact absurd rfl hh.1
    | cancel j => have : j = i := ha; subst this; exact absurd rfl hh.2.1
    | _ => exact ha.elim
  · exact step_others lex c s i _ ht ha

theorem lock_answered (lex : Str → List Token) (c : Cloud) (s : CloudStep) (i : Nat) (l : Lock) (r : Reply)
    (ht : c.tasks[i]? = some ⟨.lock l, .answered r⟩) (hh : s.Harmless i) (hs : s ≠ .recv i) :
    (c.step lex s).tasks[i]? = some ⟨.lock l, .answered r⟩ := by
  by_cases ha : s.about i
  · cases s with
    | start j => have : j = i := ha; subst this; simp only [Cloud.step, ht]
    | serve j f => have : j = i := ha; subst this; simp only [Cloud.step, ht]
    | recv j => have : j = i := ha; subst this; exact absurd rfl hs
    | wake j => have : j = i := ha; subst this; simp only [Cloud.step, ht]
    | callUnlock j => have : j = i := ha; subst this; simp only [Cloud.step, ht]
    | dropHandle j => have : j = i := ha; subst this; simp only [Cloud.step, ht]
    | crash j => have : j = i := ha; subst this; exact absurd rfl hh.1
    | cancel j => have : j = i := ha; subst this; exact absurd rfl hh.2.1
    | _ => exact ha.elim
  · exact step_others lex c s i _ ht ha

theorem lock_asleep (lex : Str → List Token) (c : Cloud) (s : CloudStep) (i : Nat) (l : Lock) (w : Nat)
    (ht : c.tasks[i]? = some ⟨.lockSleep l w, .ready⟩) (hh : s.Harmless i) (hs : ¬ (s = .wake i ∧ w ≤ c.now)) :
    (c.step lex s).tasks[i]? = some ⟨.lockSleep l w, .ready⟩ := by
  by_cases ha : s.about i
  · cases s with
    | start j => have : j = i := ha; subst this; simp only [Cloud.step, ht, Pc.request]; exact ht
    | serve j f => have : j = i := ha; subst this; simp only [Cloud.step, ht]
    | recv j => have : j = i := ha; subst this; simp only [Cloud.step, ht]
    | wake j =>
      have : j = i := ha
      subst this
      have hw : ¬ w ≤ c.now := fun h => hs ⟨rfl, h⟩
      simp only [Cloud.step, ht, Pc.wake, if_neg hw]
      exact set_same ht
    | callUnlock j => have : j = i := ha; subst this; simp only [Cloud.step, ht]
    | dropHandle j => have : j = i := ha; subst this; simp only [Cloud.step, ht]
    | crash j => have : j = i := ha; subst this; exact absurd rfl hh.1
    | cancel j => have : j = i := ha; subst this; exact absurd rfl hh.2.1
    | _ => exact ha.elim
  · exact step_others lex c s i _ ht ha

namespace Spec.Served
variable {lex : Str → List Token} {x : Schedule lex} {i : Nat}

/-- What stays until a certain step is so when that step comes. -/
theorem stays_until (x : Schedule lex) {Q K : Nat → Prop} {n : Nat} (h0 : Q n) (hstep : ∀ m, n ≤ m → Q m → ¬ K m → Q (m + 1))
    (hk : Eventually n K) : ∃ m, n ≤ m ∧ Q m ∧ K m ∧ ∀ j, n ≤ j → j < m → Q j ∧ ¬ K j := by
  obtain ⟨m0, hm0, hk0⟩ := hk
  obtain ⟨m, hm, hkm, hmin⟩ := first (P := K) hm0 hk0
  have hq : ∀ j, n ≤ j → j ≤ m → Q j := by
    intro j
    induction j with
    | zero => intro h _; have : n = 0 := by omega
              subst this; exact h0
    | succ j ih =>
      intro h1 h2
      by_cases e : n = j + 1
      · rw [← e]; exact h0
      · exact hstep j (by omega) (ih (by omega) (by omega)) (hmin j (by omega) (by omega))
  exact ⟨m, hm, hq m hm (Nat.le_refl _), hkm, fun j a b => ⟨hq j a (by omega), hmin j a b⟩⟩

theorem uncut (f : Served x i) {n : Nat} {t : Task} (h : (x.state n).tasks[i]? = some t) : ¬ t.pc.cut (x.state n).dead = true :=
  (connected_iff _ _).mp (f.alive n t h)

theorem harmless (f : Served x i) (n : Nat) : (x.step n).Harmless i := f.unharmed n

/-- Where a task in the loop of `lock` can be. -/
inductive InLoop (l : Lock) : Task → Prop
  | ready : InLoop l ⟨.lock l, .ready⟩
  | sent : InLoop l ⟨.lock l, .sent⟩
  | held : InLoop l ⟨.lock l, .answered (.ok ())⟩
  | busy (pre post : Str) : InLoop l ⟨.lock l, .answered (.error (pre ++ ch! "already exists" ++ post))⟩
  | asleep (w : Nat) : InLoop l ⟨.lockSleep l w, .ready⟩

/-- Task `i` is in the loop at instant `n`. -/
def Loops (x : Schedule lex) (i : Nat) (l : Lock) (n : Nat) : Prop := ∃ t, (x.state n).tasks[i]? = some t ∧ InLoop l t

theorem served_at (c : Cloud) (l : Lock) (pre post : Str) (v : Klick.Reply) (ht : c.tasks[i]? = some ⟨.lock l, .sent⟩)
    (hal : ¬ (Pc.lock l).cut c.dead = true) :
    (c.step lex (.serve i (.runs pre post v))).tasks[i]? =
      some ⟨.lock l, .answered (if lockTable l ∈ c.tables then .error (pre ++ ch! "already exists" ++ post) else .ok ())⟩ := by
  simp only [Cloud.step, ht, Pc.request, Cloud.served, if_neg hal, run_create]
  rw [List.getElem?_set_self (lt_of_get ht)]
  by_cases h : lockTable l ∈ c.tables <;> simp [h]

theorem received_ok (c : Cloud) (l : Lock) (ht : c.tasks[i]? = some ⟨.lock l, .answered (.ok ())⟩) :
    (c.step lex (.recv i)).tasks[i]? = some ⟨.holds l, .ready⟩ := by
  simp only [Cloud.step, ht, Pc.request, Cloud.received, Pc.resume, Attempt.of, List.map_nil, List.append_nil]
  exact List.getElem?_set_self (lt_of_get ht)

theorem received_busy (c : Cloud) (l : Lock) (pre post : Str) (ht : c.tasks[i]? = some ⟨.lock l, .answered (.error (pre ++ ch! "already exists" ++ post))⟩) :
    (c.step lex (.recv i)).tasks[i]? = some ⟨.lockSleep l (c.now + 100), .ready⟩ := by
  simp only [Cloud.step, ht, Pc.request, Cloud.received, Pc.resume, attempt_busy, List.map_nil, List.append_nil]
  exact List.getElem?_set_self (lt_of_get ht)

/-- A task in the loop stays in it or gets the lock. -/
theorem loop_step (f : Served x i) {l : Lock} {m : Nat} (h : Loops x i l m) : Loops x i l (m + 1) ∨ x.pcAt i (m + 1) = some (.holds l) := by
  obtain ⟨t, ht, hl⟩ := h
  have hh := f.harmless m
  unfold Loops Schedule.pcAt
  rw [x.next m]
  cases hl with
  | ready =>
    by_cases hs : x.step m = .start i
    · left
      refine ⟨_, ?_, .sent⟩
      rw [hs]
      have hal : ¬ (Pc.lock l).cut (x.state m).dead = true := f.uncut ht
      simp only [Cloud.step, ht, Pc.request, Option.isSome_some, if_true, if_neg hal, Cloud.put]
      exact List.getElem?_set_self (lt_of_get ht)
    · exact .inl ⟨_, lock_ready lex _ _ i l ht hh hs, .ready⟩
  | sent =>
    by_cases hs : ∃ pre post v, x.step m = .serve i (.runs pre post v)
    · obtain ⟨pre, post, v, hs⟩ := hs
      left
      refine ⟨_, by rw [hs]; exact served_at _ l pre post v ht (f.uncut ht), ?_⟩
      by_cases hT : lockTable l ∈ (x.state m).tables
      · rw [if_pos hT]; exact .busy pre post
      · rw [if_neg hT]; exact .held
    · exact .inl ⟨_, lock_sent lex _ _ i l ht hh (fun pre post v e => hs ⟨pre, post, v, e⟩), .sent⟩
  | held =>
    by_cases hs : x.step m = .recv i
    · right
      rw [hs, received_ok _ l ht]; rfl
    · exact .inl ⟨_, lock_answered lex _ _ i l _ ht hh hs, .held⟩
  | busy pre post =>
    by_cases hs : x.step m = .recv i
    · left
      exact ⟨_, by rw [hs]; exact received_busy _ l pre post ht, .asleep _⟩
    · exact .inl ⟨_, lock_answered lex _ _ i l _ ht hh hs, .busy pre post⟩
  | asleep w =>
    by_cases hs : x.step m = .wake i ∧ w ≤ (x.state m).now
    · left
      refine ⟨_, ?_, .ready⟩
      rw [hs.1]
      simp only [Cloud.step, ht, Pc.wake, if_pos hs.2, Cloud.put]
      exact List.getElem?_set_self (lt_of_get ht)
    · exact .inl ⟨_, lock_asleep lex _ _ i l w ht hh hs, .asleep w⟩

theorem loop_forever (f : Served x i) {l : Lock} {n : Nat} (h : Loops x i l n) (hno : ∀ m, n ≤ m → x.pcAt i m ≠ some (.holds l)) :
    ∀ m, n ≤ m → Loops x i l m := by
  intro m
  induction m with
  | zero => intro h'; have : n = 0 := by omega
            subst this; exact h
  | succ m ih =>
    intro h'
    by_cases e : n = m + 1
    · rw [← e]; exact h
    · rcases f.loop_step (ih (by omega)) with g | g
      · exact g
      · exact absurd g (hno _ h')

theorem often_from {P : Nat → Prop} (h : Often 0 P) (n : Nat) : Eventually n P := h n (Nat.zero_le _)

/-- The task's attempt is sent again and again. -/
theorem sent_again (f : Served x i) {l : Lock} {n : Nat} (h : Loops x i l n) (hno : ∀ m, n ≤ m → x.pcAt i m ≠ some (.holds l)) :
    Eventually n fun m => (x.state m).tasks[i]? = some ⟨.lock l, .sent⟩ := by
  have fromReady : ∀ m, n ≤ m → (x.state m).tasks[i]? = some ⟨.lock l, .ready⟩ →
      Eventually m fun m => (x.state m).tasks[i]? = some ⟨.lock l, .sent⟩ := by
    intro m hm ht
    obtain ⟨j, hj, hq, hk, _⟩ := stays_until x (Q := fun j => (x.state j).tasks[i]? = some ⟨.lock l, .ready⟩) (K := fun j => x.step j = .start i) ht
      (fun j _ hq hk => by rw [x.next j]; exact lock_ready lex _ _ i l hq (f.harmless j) hk) (often_from f.starts m)
    refine ⟨j + 1, by omega, ?_⟩
    dsimp only
    rw [x.next j, hk]
    have hal : ¬ (Pc.lock l).cut (x.state j).dead = true := f.uncut hq
    simp only [Cloud.step, hq, Pc.request, Option.isSome_some, if_true, if_neg hal, Cloud.put]
    exact List.getElem?_set_self (lt_of_get hq)
  have fromAsleep : ∀ m w, n ≤ m → (x.state m).tasks[i]? = some ⟨.lockSleep l w, .ready⟩ →
      Eventually m fun m => (x.state m).tasks[i]? = some ⟨.lock l, .sent⟩ := by
    intro m w hm ht
    obtain ⟨j, hj, hq, hk, _⟩ := stays_until x (Q := fun j => (x.state j).tasks[i]? = some ⟨.lockSleep l w, .ready⟩)
      (K := fun j => x.step j = .wake i ∧ w ≤ (x.state j).now) ht
      (fun j _ hq hk => by rw [x.next j]; exact lock_asleep lex _ _ i l w hq (f.harmless j) hk) (f.wakes m w)
    obtain ⟨j', hj', h'⟩ := fromReady (j + 1) (by omega) (by
      rw [x.next j, hk.1]
      simp only [Cloud.step, hq, Pc.wake, if_pos hk.2, Cloud.put]
      exact List.getElem?_set_self (lt_of_get hq))
    exact ⟨j', by omega, h'⟩
  obtain ⟨t, ht, hl⟩ := h
  cases hl with
  | ready => exact fromReady n (Nat.le_refl _) ht
  | sent => exact ⟨n, Nat.le_refl _, ht⟩
  | held =>
    obtain ⟨j, hj, hq, hk, _⟩ := stays_until x (Q := fun j => (x.state j).tasks[i]? = some ⟨.lock l, .answered (.ok ())⟩) (K := fun j => x.step j = .recv i) ht
      (fun j _ hq hk => by rw [x.next j]; exact lock_answered lex _ _ i l _ hq (f.harmless j) hk) (often_from f.receives n)
    refine absurd ?_ (hno (j + 1) (by omega))
    unfold Schedule.pcAt
    rw [x.next j, hk, received_ok _ l hq]
    rfl
  | busy pre post =>
    obtain ⟨j, hj, hq, hk, _⟩ := stays_until x (Q := fun j => (x.state j).tasks[i]? = some ⟨.lock l, .answered (.error (pre ++ ch! "already exists" ++ post))⟩)
      (K := fun j => x.step j = .recv i) ht
      (fun j _ hq hk => by rw [x.next j]; exact lock_answered lex _ _ i l _ hq (f.harmless j) hk) (often_from f.receives n)
    obtain ⟨j', hj', h'⟩ := fromAsleep (j + 1) _ (by omega) (by rw [x.next j, hk]; exact received_busy _ l pre post hq)
    exact ⟨j', by omega, h'⟩
  | asleep w => exact fromAsleep n w (Nat.le_refl _) ht

/-- If nobody else obtains the lock any more and it becomes free, the waiting task obtains it. -/
theorem obtains (f : Served x i) {l : Lock} {n : Nat} (h : Loops x i l n) (hfree : Eventually n fun m => lockTable l ∉ (x.state m).tables)
    (hquiet : ∀ m, n ≤ m → ¬ OthersObtain x (lockTable l) i m) : Eventually n fun m => x.pcAt i m = some (.holds l) := by
  apply Classical.byContradiction
  intro hno
  have hno : ∀ m, n ≤ m → x.pcAt i m ≠ some (.holds l) := fun m hm e => hno ⟨m, hm, e⟩
  have hloop := f.loop_forever h hno
  obtain ⟨m1, hm1, hf1⟩ := hfree
  -- the next time the server runs an attempt of the task, the table is still absent
  let Q : Nat → Prop := fun j => lockTable l ∉ (x.state j).tables
  let K : Nat → Prop := fun j => (∃ pre post v, x.step j = .serve i (.runs pre post v)) ∧ (x.state j).tasks[i]? = some ⟨.lock l, .sent⟩
  have hK : Eventually m1 K := by
    obtain ⟨m2, hm2, hs2⟩ := f.sent_again (hloop m1 hm1) (fun m hm => hno m (by omega))
    obtain ⟨j, hj, hq, hk, _⟩ := stays_until x (Q := fun j => (x.state j).tasks[i]? = some ⟨.lock l, .sent⟩)
      (K := fun j => ∃ pre post v, x.step j = .serve i (.runs pre post v)) hs2
      (fun j _ hq hk => by rw [x.next j]; exact lock_sent lex _ _ i l hq (f.harmless j) (fun pre post v e => hk ⟨pre, post, v, e⟩)) (often_from f.serves m2)
    exact ⟨j, by omega, hk, hq⟩
  obtain ⟨m, hm, hq, ⟨⟨pre, post, v, hs⟩, ht⟩, _⟩ := stays_until x (Q := Q) (K := K) hf1 (by
    intro j hj hq hk hT
    refine hquiet j (by omega) ⟨hq, hT, ?_⟩
    intro fate e
    have hst : x.state (j + 1) = x.state j := by
      rw [x.next j, e]
      obtain ⟨t, ht, hl⟩ := hloop j (by omega)
      cases hl with
      | ready => simp only [Cloud.step, ht]
      | sent =>
        exfalso
        cases fate with
        | runs pre post v => exact hk ⟨⟨pre, post, v, e⟩, ht⟩
        | rejected e' => exact (f.unharmed j).2.2.1 e' e
        | lostBefore e' => exact (f.unharmed j).2.2.2 e' |>.1 e
        | lostAfter e' => exact (f.unharmed j).2.2.2 e' |>.2 e
      | held => simp only [Cloud.step, ht]
      | busy pre post => simp only [Cloud.step, ht]
      | asleep w => simp only [Cloud.step, ht]
    rw [hst] at hT
    exact hq hT) hK
  have ha : (x.state (m + 1)).tasks[i]? = some ⟨.lock l, .answered (.ok ())⟩ := by
    rw [x.next m, hs, served_at _ l pre post v ht (f.uncut ht), if_neg hq]
  obtain ⟨j, hj, hq', hk', _⟩ := stays_until x (Q := fun j => (x.state j).tasks[i]? = some ⟨.lock l, .answered (.ok ())⟩) (K := fun j => x.step j = .recv i) ha
    (fun j _ hq hk => by rw [x.next j]; exact lock_answered lex _ _ i l _ hq (f.harmless j) hk) (often_from f.receives (m + 1))
  refine hno (j + 1) (by omega) ?_
  unfold Schedule.pcAt
  rw [x.next j, hk', received_ok _ l hq']
  rfl

end Spec.Served

namespace Props

/-- A call of `lock` puts its task into the loop. -/
theorem call_loops {lex : Str → List Token} {x : Schedule lex} {n i : Nat} {l : Lock} (hc : x.step n = .callLock l)
    (hi : i = (x.state n).tasks.length) : Served.Loops x i l (n + 1) := by
  refine ⟨_, ?_, .ready⟩
  rw [x.next n, hc, hi]
  simp [Cloud.step, Cloud.spawn]

/-- Whoever waits for a lock that again and again becomes free obtains it, unless others obtain it again and again, forever. -/
theorem C83_lock_obtained_partial {lex : Str → List Token} {x : Schedule lex} {n i : Nat} {l : Lock} (hc : x.step n = .callLock l)
    (hi : i = (x.state n).tasks.length) (f : Served x i) (hfree : Often n fun m => lockTable l ∉ (x.state m).tables) :
    (Eventually n fun m => x.pcAt i m = some (.holds l)) ∨ Often n fun m => OthersObtain x (lockTable l) i m := by
  apply Classical.byContradiction
  intro hno
  have h1 : ∀ m, n ≤ m → x.pcAt i m ≠ some (.holds l) := fun m hm e => hno (.inl ⟨m, hm, e⟩)
  have h2 : ∃ m, n ≤ m ∧ ∀ j, m ≤ j → ¬ OthersObtain x (lockTable l) i j := by
    apply Classical.byContradiction
    intro h
    refine hno (.inr fun m hm => ?_)
    apply Classical.byContradiction
    intro hc
    exact h ⟨m, hm, fun j hj ho => hc ⟨j, hj, ho⟩⟩
  obtain ⟨m, hm, hq⟩ := h2
  have hl := f.loop_forever (call_loops hc hi) (fun j hj => h1 j (by omega)) (m + 1) (by omega)
  obtain ⟨j, hj, hh⟩ := f.obtains hl (hfree (m + 1) (by omega)) (fun j hj => hq j (by omega))
  exact h1 j (by omega) hh

/-- In particular it obtains the lock if from some time on nobody else does. -/
theorem C83_uncontended {lex : Str → List Token} {x : Schedule lex} {n i : Nat} {l : Lock} (hc : x.step n = .callLock l)
    (hi : i = (x.state n).tasks.length) (f : Served x i) (hfree : Often n fun m => lockTable l ∉ (x.state m).tables)
    {n' : Nat} (hq : Forever n' fun m => ¬ OthersObtain x (lockTable l) i m) : Eventually n fun m => x.pcAt i m = some (.holds l) := by
  rcases C83_lock_obtained_partial hc hi f hfree with h | h
  · exact h
  · obtain ⟨j, hj, ho⟩ := h (n + n') (by omega)
    exact absurd ho (hq j (by omega))

/-- It never returns an error or gives up: until it holds the lock it is asking for it, or asleep before asking again. -/
theorem C83_keeps_trying {lex : Str → List Token} {x : Schedule lex} {n i : Nat} {l : Lock} (hc : x.step n = .callLock l)
    (hi : i = (x.state n).tasks.length) (f : Served x i) (m : Nat) (hm : n < m) :
    (∃ j, n < j ∧ j ≤ m ∧ x.pcAt i j = some (.holds l)) ∨ x.pcAt i m = some (.lock l) ∨ ∃ w, x.pcAt i m = some (.lockSleep l w) := by
  have key : ∀ m, n < m → (∃ j, n < j ∧ j ≤ m ∧ x.pcAt i j = some (.holds l)) ∨ Served.Loops x i l m := by
    intro m
    induction m with
    | zero => intro h; omega
    | succ m ih =>
      intro h
      by_cases e : n = m
      · subst e; exact .inr (call_loops hc hi)
      · rcases ih (by omega) with ⟨j, h1, h2, h3⟩ | g
        · exact .inl ⟨j, h1, by omega, h3⟩
        · rcases f.loop_step g with g | g
          · exact .inr g
          · exact .inl ⟨m + 1, by omega, Nat.le_refl _, g⟩
  rcases key m hm with h | ⟨t, ht, hl⟩
  · exact .inl h
  · right
    unfold Schedule.pcAt
    rw [ht]
    cases hl with
    | asleep w => exact .inr ⟨w, rfl⟩
    | _ => exact .inl rfl

end Props
end Klick
