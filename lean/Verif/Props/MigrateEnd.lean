import Verif.Props.LockStarve
/-
C94: a batch of migrations comes to an end.
-/
namespace Klick
open Spec

/-- Sleeping is not asking. -/
theorem wake_asking {pc : Pc} (h : pc.request ≠ none) (now : Nat) : pc.wake now = pc := by
  cases pc with
  | lockSleep l w => exact absurd rfl h
  | mig m p => cases p <;> first | rfl | exact absurd rfl h
  | _ => rfl

theorem not_holds {pc : Pc} (h : pc.request ≠ none) (l : Lock) : pc ≠ .holds l := by
  rintro rfl; exact h rfl

theorem ready_stays (lex : Str → List Token) (c : Cloud) (s : CloudStep) (i : Nat) (pc : Pc) (hp : pc.request ≠ none)
    (ht : c.tasks[i]? = some ⟨pc, .ready⟩) (hh : s.Harmless i) (hs : s ≠ .start i) : (c.step lex s).tasks[i]? = some ⟨pc, .ready⟩ := by
  by_cases ha : s.about i
  · cases s with
    | start j => have : j = i := ha; subst this; exact absurd rfl hs
    | serve j f => have : j = i := ha; subst this; simp only [Cloud.step, ht]
    | recv j => have : j = i := ha; subst this; simp only [Cloud.step, ht]
    | wake j => have : j = i := ha; subst this; simp only [Cloud.step, ht, wake_asking hp]; exact set_same ht
    | callUnlock j =>
      have : j = i := ha
      subst this
      simp only [Cloud.step, ht]
      split
      · rename_i l h
        simp only [Option.some.injEq, Task.mk.injEq, and_true] at h
        exact absurd h (not_holds hp l)
      · exact ht
    | dropHandle j =>
      have : j = i := ha
      subst this
      simp only [Cloud.step, ht]
      split
      · rename_i l h
        simp only [Option.some.injEq, Task.mk.injEq, and_true] at h
        exact absurd h (not_holds hp l)
      · exact ht
    | crash j => have : j = i := ha; subst this; exact absurd rfl hh.1
    | cancel j => have : j = i := ha; subst this; exact absurd rfl hh.2.1
    | _ => exact ha.elim
  · exact step_others lex c s i _ ht ha

theorem sent_stays (lex : Str → List Token) (c : Cloud) (s : CloudStep) (i : Nat) (pc : Pc)
    (ht : c.tasks[i]? = some ⟨pc, .sent⟩) (hh : s.Harmless i) (hs : ∀ pre post v, s ≠ .serve i (.runs pre post v)) :
    (c.step lex s).tasks[i]? = some ⟨pc, .sent⟩ := by
  by_cases ha : s.about i
  · cases s with
    | start j => have : j = i := ha; subst this; simp only [Cloud.step, ht]
    | serve j f =>
      have : j = i := ha
      subst this
      cases f with
      | runs pre post v => exact absurd rfl (hs pre post v)
      | rejected e => exact absurd rfl (hh.2.2.1 e)
      | lostBefore e => exact absurd rfl (hh.2.2.2 e).1
      | lostAfter e => exact absurd rfl (hh.2.2.2 e).2
    | recv j => have : j = i := ha; subst this; simp only [Cloud.step, ht]
    | wake j => have : j = i := ha; subst this; simp only [Cloud.step, ht]
    | callUnlock j =>
      have : j = i := ha
      subst this
      simp only [Cloud.step, ht]
    | dropHandle j =>
      have : j = i := ha
      subst this
      simp only [Cloud.step, ht]
    | crash j => have : j = i := ha; subst this; exact absurd rfl hh.1
    | cancel j => have : j = i := ha; subst this; exact absurd rfl hh.2.1
    | _ => exact ha.elim
  · exact step_others lex c s i _ ht ha

theorem answered_stays (lex : Str → List Token) (c : Cloud) (s : CloudStep) (i : Nat) (pc : Pc) (r : Reply)
    (ht : c.tasks[i]? = some ⟨pc, .answered r⟩) (hh : s.Harmless i) (hs : s ≠ .recv i) :
    (c.step lex s).tasks[i]? = some ⟨pc, .answered r⟩ := by
  by_cases ha : s.about i
  · cases s with
    | start j => have : j = i := ha; subst this; simp only [Cloud.step, ht]
    | serve j f => have : j = i := ha; subst this; simp only [Cloud.step, ht]
    | recv j => have : j = i := ha; subst this; exact absurd rfl hs
    | wake j => have : j = i := ha; subst this; simp only [Cloud.step, ht]
    | callUnlock j =>
      have : j = i := ha
      subst this
      simp only [Cloud.step, ht]
    | dropHandle j =>
      have : j = i := ha
      subst this
      simp only [Cloud.step, ht]
    | crash j => have : j = i := ha; subst this; exact absurd rfl hh.1
    | cancel j => have : j = i := ha; subst this; exact absurd rfl hh.2.1
    | _ => exact ha.elim
  · exact step_others lex c s i _ ht ha

theorem pause_stays (lex : Str → List Token) (c : Cloud) (s : CloudStep) (i : Nat) (m : Migrator) (start w : Nat) (ss : List Str)
    (ht : c.tasks[i]? = some ⟨.mig m (.pause start w ss), .ready⟩) (hh : s.Harmless i) (hs : ¬ (s = .wake i ∧ w ≤ c.now)) :
    (c.step lex s).tasks[i]? = some ⟨.mig m (.pause start w ss), .ready⟩ := by
  by_cases ha : s.about i
  · cases s with
    | start j => have : j = i := ha; subst this; simp only [Cloud.step, ht, Pc.request]; exact ht
    | serve j f => have : j = i := ha; subst this; simp only [Cloud.step, ht]
    | recv j => have : j = i := ha; subst this; simp only [Cloud.step, ht]
    | wake j =>
      have : j = i := ha
      subst this
      have hw : ¬ w ≤ c.now := fun h => hs ⟨rfl, h⟩
      simp only [Cloud.step, ht, Pc.wake, if_neg hw]
      exact set_same ht
    | callUnlock j => have : j = i := ha; subst this; simp only [Cloud.step, ht]
    | dropHandle j => have : j = i := ha; subst this; simp only [Cloud.step, ht]
    | crash j => have : j = i := ha; subst this; exact absurd rfl hh.1
    | cancel j => have : j = i := ha; subst this; exact absurd rfl hh.2.1
    | _ => exact ha.elim
  · exact step_others lex c s i _ ht ha

namespace Spec.Served
variable {lex : Str → List Token} {x : Schedule lex} {i : Nat}

/-- A request that is to be sent is sent, the server runs it, and its answer arrives. `P` is whatever stays as it is while the server runs
no request of the task. -/
theorem asked (f : Served x i) {P : Nat → Prop} (hP : ∀ j, P j → (∀ pc, (x.state j).tasks[i]? = some ⟨pc, .sent⟩ → ∀ g, x.step j ≠ .serve i g) → P (j + 1))
    {n : Nat} {pc : Pc} {p : Purpose} {q : Str} (hp : pc.request = some (p, q)) (ht : (x.state n).tasks[i]? = some ⟨pc, .ready⟩) (h0 : P n) :
    ∃ m k pre post v, n ≤ m ∧ m < k ∧ P m ∧ x.step m = .serve i (.runs pre post v) ∧
      (x.state (m + 1)).tables = (serverRun pre post v q (x.state m).tables).1 ∧
      (∀ Q : Nat → Prop, (∀ j, Q j → (∀ pc, (x.state j).tasks[i]? = some ⟨pc, .sent⟩ → ∀ g, x.step j ≠ .serve i g) → Q (j + 1)) → Q (m + 1) → Q k) ∧
      ∃ now, (x.state k).tasks[i]? = some ⟨(pc.resume lex now (serverRun pre post v q (x.state m).tables).2).1, .ready⟩ := by
  have hpn : pc.request ≠ none := by rw [hp]; intro h; cases h
  obtain ⟨j, hj, ⟨hq, hPj⟩, hk, _⟩ := stays_until x (Q := fun j => (x.state j).tasks[i]? = some ⟨pc, .ready⟩ ∧ P j) (K := fun j => x.step j = .start i) ⟨ht, h0⟩
    (fun j _ hq hk => ⟨by rw [x.next j]; exact ready_stays lex _ _ i pc hpn hq.1 (f.harmless j) hk,
      hP j hq.2 (fun pc' h => by rw [hq.1] at h; simp at h)⟩) (often_from f.starts n)
  have hsent : (x.state (j + 1)).tasks[i]? = some ⟨pc, .sent⟩ := by
    rw [x.next j, hk]
    have hal : ¬ pc.cut (x.state j).dead = true := f.uncut hq
    simp only [Cloud.step, hq, hp, Option.isSome_some, if_true, if_neg hal, Cloud.put]
    exact List.getElem?_set_self (lt_of_get hq)
  have hPj1 : P (j + 1) := hP j hPj (fun pc' h => by rw [hq] at h; simp at h)
  obtain ⟨m, hm, ⟨hqm, hPm⟩, ⟨pre, post, v, hkm⟩, _⟩ := stays_until x (Q := fun j => (x.state j).tasks[i]? = some ⟨pc, .sent⟩ ∧ P j)
    (K := fun j => ∃ pre post v, x.step j = .serve i (.runs pre post v)) ⟨hsent, hPj1⟩
    (fun j _ hq hk => ⟨by rw [x.next j]; exact sent_stays lex _ _ i pc hq.1 (f.harmless j) (fun pre post v e => hk ⟨pre, post, v, e⟩),
      hP j hq.2 (fun _ _ g e => by
        cases g with
        | runs pre post v => exact hk ⟨pre, post, v, e⟩
        | rejected e' => exact (f.unharmed j).2.2.1 e' e
        | lostBefore e' => exact ((f.unharmed j).2.2.2 e').1 e
        | lostAfter e' => exact ((f.unharmed j).2.2.2 e').2 e)⟩) (often_from f.serves (j + 1))
  have hal : ¬ pc.cut (x.state m).dead = true := f.uncut hqm
  have hans : (x.state (m + 1)).tasks[i]? = some ⟨pc, .answered (serverRun pre post v q (x.state m).tables).2⟩ := by
    rw [x.next m, hkm]
    simp only [Cloud.step, hqm, hp, Cloud.served, if_neg hal]
    exact List.getElem?_set_self (lt_of_get hqm)
  have htab : (x.state (m + 1)).tables = (serverRun pre post v q (x.state m).tables).1 := by
    rw [x.next m, hkm]
    simp only [Cloud.step, hqm, hp, Cloud.served, if_neg hal]
  obtain ⟨k, hkk, hqk, hrk, hbetween⟩ := stays_until x (Q := fun j => (x.state j).tasks[i]? = some ⟨pc, .answered (serverRun pre post v q (x.state m).tables).2⟩)
    (K := fun j => x.step j = .recv i) hans
    (fun j _ hq hk => by rw [x.next j]; exact answered_stays lex _ _ i pc _ hq (f.harmless j) hk) (often_from f.receives (m + 1))
  refine ⟨m, k + 1, pre, post, v, by omega, by omega, hPm, hkm, htab, ?_, (x.state k).now, ?_⟩
  · intro Q hQ hQm
    have hall : ∀ d, m + 1 + d ≤ k → Q (m + 1 + d) := by
      intro d
      induction d with
      | zero => intro _; exact hQm
      | succ d ih =>
        intro hd
        refine hQ _ (ih (by omega)) (fun pc' h => ?_)
        have e : (x.state (m + 1 + d)).tasks[i]? = _ := (hbetween (m + 1 + d) (by omega) (by omega)).1
        have h : (x.state (m + 1 + d)).tasks[i]? = some ⟨pc', .sent⟩ := h
        rw [e] at h
        simp at h
    refine hQ k (by have := hall (k - (m + 1)) (by omega); rwa [show m + 1 + (k - (m + 1)) = k by omega] at this) (fun pc' h => ?_)
    rw [hqk] at h; simp at h
  · rw [x.next k, hrk]
    simp only [Cloud.step, hqk, hp, Cloud.received]
    rw [List.getElem?_append_left (by rw [List.length_set]; exact lt_of_get hqk), List.getElem?_set_self (lt_of_get hqk)]

end Spec.Served

/-! ### After the lock is obtained -/

/-- How many statements are left. -/
def MigPc.left (lex : Str → List Token) : MigPc → Nat
  | .running _ _ rest ss => rest.length + ((ss.map fun s => (splitQueryStatements (lex s)).length).sum) + 1
  | _ => 0

/-- The number that will be returned. -/
def MigPc.goal : MigPc → Nat
  | .running n _ _ ss => n + ss.length
  | .finish n => n
  | _ => 0

/-- None of the statements left is one the model knows the server's answer to. -/
def MigPc.Mild (lex : Str → List Token) (m : Migrator) : MigPc → Prop
  | .running _ q rest ss => createdTable q = none ∧ (∀ q ∈ rest, createdTable (m.prepare q) = none) ∧
      ∀ s ∈ ss, ∀ q ∈ splitQueryStatements (lex s), createdTable (m.prepare q) = none
  | _ => True

theorem nextStatement_length {qs : List Str} {q : Str} {rest : List Str} (h : nextStatement qs = some (q, rest)) : rest.length < qs.length := by
  induction qs with
  | nil => cases h
  | cons x qs ih =>
    simp only [nextStatement] at h
    split at h
    · have := ih h; simp only [List.length_cons]; omega
    · simp only [Option.some.injEq, Prod.mk.injEq] at h
      obtain ⟨rfl, rfl⟩ := h
      simp

/-- In the loop over the statements. -/
def MigPc.Busy (p : MigPc) : Prop := (∃ k, p = .finish k) ∨ (∃ k q rest ss, p = .running k q rest ss)

theorem scriptLoop_left (m : Migrator) (lex : Str → List Token) (n : Nat) (ss : List Str) :
    (m.scriptLoop lex n ss).left lex ≤ ((ss.map fun s => (splitQueryStatements (lex s)).length).sum) ∧
    (m.scriptLoop lex n ss).goal = n + ss.length ∧
    ((∀ s ∈ ss, ∀ q ∈ splitQueryStatements (lex s), createdTable (m.prepare q) = none) → (m.scriptLoop lex n ss).Mild lex m) := by
  induction ss generalizing n with
  | nil => exact ⟨Nat.le_refl _, rfl, fun _ => trivial⟩
  | cons s ss ih =>
    obtain ⟨h1, h2, h3⟩ := ih (n + 1)
    simp only [Migrator.scriptLoop, List.map_cons, List.sum_cons, List.length_cons]
    split
    · exact ⟨by omega, by rw [h2]; omega, fun h => h3 fun x hx => h x (List.mem_cons_of_mem _ hx)⟩
    · split
      · rename_i q qs hq
        have := nextStatement_length hq
        obtain ⟨a, b⟩ := nextStatement_mem hq
        refine ⟨?_, ?_, fun h => ⟨h s (by simp) _ a, fun x hx => h s (by simp) _ (b x hx), fun x hx => h x (List.mem_cons_of_mem _ hx)⟩⟩
        · simp only [MigPc.left]; omega
        · simp only [MigPc.goal]; omega
      · exact ⟨by omega, by rw [h2]; omega, fun h => h3 fun x hx => h x (List.mem_cons_of_mem _ hx)⟩

theorem nextOf_left (m : Migrator) (lex : Str → List Token) (n : Nat) (rest ss : List Str) :
    (m.nextOf lex n rest ss).left lex ≤ rest.length + ((ss.map fun s => (splitQueryStatements (lex s)).length).sum) ∧
    (m.nextOf lex n rest ss).goal = n + ss.length ∧
    ((∀ q ∈ rest, createdTable (m.prepare q) = none) → (∀ s ∈ ss, ∀ q ∈ splitQueryStatements (lex s), createdTable (m.prepare q) = none) →
      (m.nextOf lex n rest ss).Mild lex m) := by
  unfold Migrator.nextOf
  split
  · rename_i q qs hq
    have := nextStatement_length hq
    obtain ⟨a, b⟩ := nextStatement_mem hq
    exact ⟨by simp only [MigPc.left]; omega, rfl, fun h h' => ⟨h _ a, fun x hx => h _ (b x hx), h'⟩⟩
  · obtain ⟨h1, h2, h3⟩ := scriptLoop_left m lex n ss
    exact ⟨by omega, h2, fun _ h => h3 h⟩

theorem run_ok (pre post : Str) (q : Str) (tables : List Str) (h : createdTable q = none) : (serverRun pre post (.ok ()) q tables).2 = .ok () := by
  unfold serverRun
  rw [h]
  dsimp only
  split <;> rfl

namespace Spec.Served
variable {lex : Str → List Token} {x : Schedule lex} {i : Nat}

/-- The server has no objections to the statements of the task. -/
def Pleased (x : Schedule lex) (i : Nat) : Prop := ∀ n pre post v, x.step n = .serve i (.runs pre post v) → v = .ok ()

/-- Once it has the lock, the batch comes to its end. -/
theorem runs_out (f : Served x i) (m : Migrator) : ∀ (d n : Nat) (p : MigPc), p.left lex ≤ d → p.Busy →
    (x.state n).tasks[i]? = some ⟨.mig m p, .ready⟩ →
    ∃ k r, n ≤ k ∧ x.pcAt i k = some (.mig m (.done r)) ∧ (Pleased x i → p.Mild lex m → r = .ok p.goal) := by
  have fin : ∀ n k, (x.state n).tasks[i]? = some ⟨.mig m (.finish k), .ready⟩ →
      ∃ k' r, n ≤ k' ∧ x.pcAt i k' = some (.mig m (.done r)) ∧ (Pleased x i → (MigPc.finish k).Mild lex m → r = .ok (MigPc.finish k).goal) := by
    intro n k ht
    obtain ⟨a, b, pre, post, v, h1, h2, _, _, _, _, now, h3⟩ := f.asked (P := fun _ => True) (fun _ _ _ => trivial) rfl ht trivial
    rw [run_drop] at h3
    refine ⟨b, .ok k, by omega, ?_, fun _ _ => rfl⟩
    unfold Schedule.pcAt
    rw [h3]; rfl
  intro d
  induction d with
  | zero =>
    intro n p hl hb ht
    rcases hb with ⟨k, rfl⟩ | ⟨k, q, rest, ss, rfl⟩
    · exact fin n k ht
    · simp only [MigPc.left] at hl; omega
  | succ d ih =>
    intro n p hl hb ht
    rcases hb with ⟨k, rfl⟩ | ⟨k, q, rest, ss, rfl⟩
    · exact fin n k ht
    · obtain ⟨a, b, pre, post, v, h1, h2, _, hstep, _, _, now, h3⟩ := f.asked (P := fun _ => True) (fun _ _ _ => trivial) rfl ht trivial
      cases hr : (serverRun pre post v q (x.state a).tables).2 with
      | ok u =>
        rw [hr] at h3
        have h3 : (x.state b).tasks[i]? = some ⟨.mig m (m.nextOf lex k rest ss), .ready⟩ := h3
        obtain ⟨g1, g2, g3⟩ := nextOf_left m lex k rest ss
        simp only [MigPc.left] at hl
        obtain ⟨k', r, h4, h5, h6⟩ := ih b _ (by omega) (nextOf_cases m lex k rest ss) h3
        refine ⟨k', r, by omega, h5, fun hp hm => ?_⟩
        rw [h6 hp (g3 hm.2.1 hm.2.2), g2]; rfl
      | error e =>
        rw [hr] at h3
        refine ⟨b, .error e, by omega, ?_, fun hp hm => ?_⟩
        · unfold Schedule.pcAt
          rw [h3]; rfl
        · rw [hp a pre post v hstep, run_ok pre post q _ hm.1] at hr
          cases hr

theorem step_now (lex : Str → List Token) (c : Cloud) (s : CloudStep) : c.now ≤ (c.step lex s).now := by
  cases s with
  | tick ms => exact Nat.le_add_right _ _
  | serve j f =>
    simp only [Cloud.step]
    split
    · split
      · cases f with
        | runs pre post v => simp only [Cloud.served]; split <;> exact Nat.le_refl _
        | _ => exact Nat.le_refl _
      · exact Nat.le_refl _
    · exact Nat.le_refl _
  | callTryLock l => exact Nat.le_refl _
  | callLock l => exact Nat.le_refl _
  | callReset l => exact Nat.le_refl _
  | callMigrate m ss => exact Nat.le_refl _
  | start j =>
    simp only [Cloud.step]
    split
    · split <;> exact Nat.le_refl _
    · exact Nat.le_refl _
  | recv j =>
    simp only [Cloud.step]
    split
    · split <;> exact Nat.le_refl _
    · exact Nat.le_refl _
  | _ => simp only [Cloud.step]; split <;> exact Nat.le_refl _

theorem now_mono (x : Schedule lex) {a b : Nat} (h : a ≤ b) : (x.state a).now ≤ (x.state b).now := by
  induction b with
  | zero => have : a = 0 := by omega
            subst this; exact Nat.le_refl _
  | succ b ih =>
    by_cases e : a = b + 1
    · subst e; exact Nat.le_refl _
    · refine Nat.le_trans (ih (by omega)) ?_
      rw [x.next b]
      exact step_now lex _ _

/-- The batch has ended, at or after instant `n`; with all its scripts done, if the server is pleased and they are mild. -/
def Ends (x : Schedule lex) (i : Nat) (m : Migrator) (ss : List Str) (n : Nat) : Prop :=
  ∃ k r, n ≤ k ∧ x.pcAt i k = some (.mig m (.done r)) ∧
    (Pleased x i → (∀ s ∈ ss, ∀ q ∈ splitQueryStatements (lex s), createdTable (m.prepare q) = none) → r = .ok ss.length)

theorem Ends.weaken {m : Migrator} {ss : List Str} {a b : Nat} (h : a ≤ b) (e : Ends x i m ss b) : Ends x i m ss a := by
  obtain ⟨k, r, h1, h2⟩ := e
  exact ⟨k, r, Nat.le_trans h h1, h2⟩

/-- An attempt: it obtains the lock and then the batch ends, or the lock was taken. -/
theorem attempt (f : Served x i) {P : Nat → Prop} (hP : ∀ j, P j → (∀ pc, (x.state j).tasks[i]? = some ⟨pc, .sent⟩ → ∀ g, x.step j ≠ .serve i g) → P (j + 1))
    {n start : Nat} {m : Migrator} {ss : List Str} (ht : (x.state n).tasks[i]? = some ⟨.mig m (.acquire start ss), .ready⟩) (h0 : P n) :
    Ends x i m ss n ∨ ∃ j k w, n ≤ j ∧ j < k ∧ P j ∧ lockTable m.lock ∈ (x.state j).tables ∧
      (x.state k).tasks[i]? = some ⟨.mig m (.pause start w ss), .ready⟩ := by
  obtain ⟨a, b, pre, post, v, h1, h2, hPa, _, _, _, now, h3⟩ := f.asked hP rfl ht h0
  rw [run_create] at h3
  by_cases hT : lockTable m.lock ∈ (x.state a).tables
  · right
    rw [if_pos hT] at h3
    refine ⟨a, b, now + 250, h1, h2, hPa, hT, ?_⟩
    simpa only [Pc.resume, attempt_busy] using h3
  · left
    rw [if_neg hT] at h3
    have h3 : (x.state b).tasks[i]? = some ⟨.mig m (m.scriptLoop lex 0 ss), .ready⟩ := h3
    obtain ⟨g1, g2, g3⟩ := scriptLoop_left m lex 0 ss
    obtain ⟨k, r, h4, h5, h6⟩ := f.runs_out m _ b _ (Nat.le_refl _) (scriptLoop_cases m lex 0 ss) h3
    refine ⟨k, r, by omega, h5, fun hp hm => ?_⟩
    rw [h6 hp (g3 hm), g2, Nat.zero_add]

/-- A pause ends, after any given time at the latest; late enough, the lock is reset. -/
theorem resumes (f : Served x i) {n start w : Nat} {m : Migrator} {ss : List Str}
    (ht : (x.state n).tasks[i]? = some ⟨.mig m (.pause start w ss), .ready⟩) :
    ∃ k, n < k ∧ w ≤ (x.state (k - 1)).now ∧
      (((x.state (k - 1)).now - start ≤ 60000 ∧ (x.state k).tasks[i]? = some ⟨.mig m (.acquire start ss), .ready⟩) ∨
        (x.state k).tasks[i]? = some ⟨.mig m (.force start ss), .ready⟩) := by
  obtain ⟨j, hj, hq, hk, _⟩ := stays_until x (Q := fun j => (x.state j).tasks[i]? = some ⟨.mig m (.pause start w ss), .ready⟩)
    (K := fun j => x.step j = .wake i ∧ w ≤ (x.state j).now) ht
    (fun j _ hq hk => by rw [x.next j]; exact pause_stays lex _ _ i m start w ss hq (f.harmless j) hk) (f.wakes n w)
  refine ⟨j + 1, by omega, hk.2, ?_⟩
  rw [Nat.add_sub_cancel]
  by_cases hl : (x.state j).now - start > 60000
  · right
    rw [x.next j, hk.1]
    simp only [Cloud.step, hq, Pc.wake, if_pos hk.2, if_pos hl, Cloud.put]
    exact List.getElem?_set_self (lt_of_get hq)
  · left
    refine ⟨by omega, ?_⟩
    rw [x.next j, hk.1]
    simp only [Cloud.step, hq, Pc.wake, if_pos hk.2, if_neg hl, Cloud.put]
    exact List.getElem?_set_self (lt_of_get hq)

/-- The batch goes round: however late, it is at an attempt again, unless it has ended. -/
theorem rounds (f : Served x i) {start : Nat} {m : Migrator} {ss : List Str} {n : Nat}
    (ht : (x.state n).tasks[i]? = some ⟨.mig m (.acquire start ss), .ready⟩) (d : Nat) :
    Ends x i m ss n ∨ ∃ k, n + d ≤ k ∧ (x.state k).tasks[i]? = some ⟨.mig m (.acquire start ss), .ready⟩ := by
  induction d with
  | zero => exact .inr ⟨n, Nat.le_refl _, ht⟩
  | succ d ih =>
    rcases ih with h | ⟨k, hk, hk'⟩
    · exact .inl h
    rcases f.attempt (P := fun _ => True) (fun _ _ _ => trivial) hk' trivial with h | ⟨j, k2, w, h1, h2, _, _, h3⟩
    · exact .inl (h.weaken (by omega))
    obtain ⟨k3, h4, _, ⟨_, h5⟩ | h5⟩ := f.resumes h3
    · exact .inr ⟨k3, by omega, h5⟩
    · obtain ⟨a, b, pre, post, v, g1, g2, _, _, _, _, now, g3⟩ := f.asked (P := fun _ => True) (fun _ _ _ => trivial) rfl h5 trivial
      rw [run_drop] at g3
      exact .inr ⟨b, by omega, g3⟩

/-- However late, it is about to reset the lock, unless it has ended. -/
theorem forces (f : Served x i) {start : Nat} {m : Migrator} {ss : List Str} {n : Nat}
    (ht : (x.state n).tasks[i]? = some ⟨.mig m (.acquire start ss), .ready⟩) (d : Nat) :
    Ends x i m ss n ∨ ∃ k, d ≤ k ∧ (x.state k).tasks[i]? = some ⟨.mig m (.force start ss), .ready⟩ := by
  -- an instant after which the clock is past the deadline
  obtain ⟨j0, hj0, _, hnow⟩ := f.wakes n (start + 60001)
  rcases f.rounds ht (j0 + d) with h | ⟨k, hk, hk'⟩
  · exact .inl h
  rcases f.attempt (P := fun _ => True) (fun _ _ _ => trivial) hk' trivial with h | ⟨j, k2, w, h1, h2, _, _, h3⟩
  · exact .inl (h.weaken (by omega))
  obtain ⟨k3, h4, _, ⟨hl, h5⟩ | h5⟩ := f.resumes h3
  · exfalso
    have := now_mono x (a := j0) (b := k3 - 1) (by omega)
    omega
  · exact .inr ⟨k3, by omega, h5⟩

/-- If nobody else obtains the lock from some time on, the batch ends. -/
theorem ends (f : Served x i) {start : Nat} {m : Migrator} {ss : List Str} {n : Nat}
    (ht : (x.state n).tasks[i]? = some ⟨.mig m (.acquire start ss), .ready⟩) {n' : Nat}
    (hq : Forever n' fun k => ¬ OthersObtain x (lockTable m.lock) i k) : Ends x i m ss n := by
  rcases f.forces ht (n + n') with h | ⟨k, hk, hk'⟩
  · exact h
  -- the table stays absent as long as the server runs no request of the task
  have hQ : ∀ j, (n' ≤ j ∧ lockTable m.lock ∉ (x.state j).tables) →
      (∀ pc, (x.state j).tasks[i]? = some ⟨pc, .sent⟩ → ∀ g, x.step j ≠ .serve i g) → (n' ≤ j + 1 ∧ lockTable m.lock ∉ (x.state (j + 1)).tables) := by
    rintro j ⟨hj, hT⟩ hs
    refine ⟨by omega, fun hT' => hq j hj ⟨hT, hT', fun g e => ?_⟩⟩
    have : x.state (j + 1) = x.state j := by
      rw [x.next j, e]
      simp only [Cloud.step]
      split
      · rename_i pc h
        exact absurd e (hs pc h g)
      · rfl
    rw [this] at hT'
    exact hT hT'
  obtain ⟨a, b, pre, post, v, g1, g2, _, _, gt, gQ, now, g3⟩ := f.asked (P := fun _ => True) (fun _ _ _ => trivial) rfl hk' trivial
  rw [run_drop] at g3 gt
  have g3 : (x.state b).tasks[i]? = some ⟨.mig m (.acquire start ss), .ready⟩ := g3
  have hb := gQ _ hQ ⟨by omega, by rw [gt]; simp⟩
  rcases f.attempt hQ g3 hb with h | ⟨j, _, _, _, _, ⟨_, hT⟩, hT', _⟩
  · exact h.weaken (by omega)
  · exact absurd hT' hT

end Spec.Served

namespace Props

theorem mig_called {lex : Str → List Token} {x : Schedule lex} {n i : Nat} {m : Migrator} {scripts : List Str} (hc : x.step n = .callMigrate m scripts)
    (hi : i = (x.state n).tasks.length) : (x.state (n + 1)).tasks[i]? = some ⟨.mig m (.acquire (x.state n).now scripts), .ready⟩ := by
  rw [x.next n, hc, hi]
  simp [Cloud.step, Cloud.spawn]

/-- A batch of migrations whose requests are answered and whose sleeps end comes to an end, unless others obtain its lock again and again,
forever. Nothing is assumed about the lock being free: a lock whose holder has died is reset. -/
theorem C94_ends_partial {lex : Str → List Token} {x : Schedule lex} {n i : Nat} {m : Migrator} {scripts : List Str} (hc : x.step n = .callMigrate m scripts)
    (hi : i = (x.state n).tasks.length) (f : Served x i) :
    (Eventually n fun k => ∃ r, x.pcAt i k = some (.mig m (.done r))) ∨ Often n fun k => OthersObtain x (lockTable m.lock) i k := by
  apply Classical.byContradiction
  intro hno
  have h2 : ∃ k, n ≤ k ∧ ∀ j, k ≤ j → ¬ OthersObtain x (lockTable m.lock) i j := by
    apply Classical.byContradiction
    intro h
    refine hno (.inr fun m hm => ?_)
    apply Classical.byContradiction
    intro hc
    exact h ⟨m, hm, fun j hj ho => hc ⟨j, hj, ho⟩⟩
  obtain ⟨k, _, hk⟩ := h2
  obtain ⟨k', r, h1, h3, _⟩ := f.ends (mig_called hc hi) hk
  exact hno (.inl ⟨k', by omega, r, h3⟩)

/-- In particular it comes to an end if from some time on nobody else obtains the lock; and if the server has no objection to any
statement, it reports every script done. -/
theorem C94_uncontended {lex : Str → List Token} {x : Schedule lex} {n i : Nat} {m : Migrator} {scripts : List Str} (hc : x.step n = .callMigrate m scripts)
    (hi : i = (x.state n).tasks.length) (f : Served x i) {n' : Nat} (hq : Forever n' fun k => ¬ OthersObtain x (lockTable m.lock) i k) :
    Eventually n fun k => ∃ r, x.pcAt i k = some (.mig m (.done r)) := by
  obtain ⟨k, r, h1, h2, _⟩ := f.ends (mig_called hc hi) hq
  exact ⟨k, by omega, r, h2⟩

/-- If, besides, the server has no objection to any statement, the batch reports all its scripts done. -/
theorem C94_succeeds {lex : Str → List Token} {x : Schedule lex} {n i : Nat} {m : Migrator} {scripts : List Str} (hc : x.step n = .callMigrate m scripts)
    (hi : i = (x.state n).tasks.length) (f : Served x i) {n' : Nat} (hq : Forever n' fun k => ¬ OthersObtain x (lockTable m.lock) i k)
    (hok : ∀ k pre post v, x.step k = .serve i (.runs pre post v) → v = .ok ())
    (hmild : ∀ s ∈ scripts, ∀ q ∈ splitQueryStatements (lex s), createdTable (m.prepare q) = none) :
    Eventually n fun k => x.pcAt i k = some (.mig m (.done (.ok scripts.length))) := by
  obtain ⟨k, r, h1, h2, h3⟩ := f.ends (mig_called hc hi) hq
  rw [h3 hok hmild] at h2
  exact ⟨k, by omega, h2⟩

end Props
end Klick
