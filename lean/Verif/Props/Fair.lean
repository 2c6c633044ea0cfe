import Verif.Spec.Fair
import Verif.Props.Link
/-
C82: on a connection that stays up, with callers that read or leave and a server that answers, every
query is answered and read to its end, and every block of an insert is sent and acknowledged.
-/
namespace Klick
open Spec

/-- The least instant. -/
theorem first {P : Nat → Prop} {n m : Nat} (h : n ≤ m) (hp : P m) : ∃ j, n ≤ j ∧ P j ∧ ∀ i, n ≤ i → i < j → ¬ P i := by
  induction m using Nat.strongRecOn with
  | _ m ih =>
    by_cases hc : ∃ i, n ≤ i ∧ i < m ∧ P i
    · obtain ⟨i, h1, h2, h3⟩ := hc
      exact ih i h2 h1 h3
    · exact ⟨m, h, hp, fun i h1 h2 h3 => hc ⟨i, h1, h2, h3⟩⟩

theorem alive_kill {s : Conn} : ¬ (.died ∉ s.kill.log) := by
  rw [kill_log]; simp

theorem dispatch_queue {k : Nat} {t : Ticket} {x : Str} {s : Conn} (hd : .died ∉ (dispatch k t x s).log) :
    (dispatch k t x s).queue = s.queue ∧ (dispatch k t x s).phase = s.phase ∧ (dispatch k t x s).executing = some t := by
  revert hd
  unfold dispatch
  rcases k with _ | _ | k
  · intro hd; exact absurd hd alive_kill
  · intro hd; exact absurd hd alive_kill
  · intro _; exact ⟨rfl, rfl, rfl⟩

theorem next_queue {k : Nat} {s : Conn} (hd : .died ∉ (dispatchNext k s).log) :
    (dispatchNext k s).queue = s.queue ∧ (dispatchNext k s).phase = s.phase := by
  revert hd
  unfold dispatchNext
  split
  · intro _; exact ⟨rfl, rfl⟩
  · intro hd
    obtain ⟨h1, h2, _⟩ := dispatch_queue hd
    exact ⟨h1, h2⟩

/-- What a send in progress allows: the phase stays until the send completes, and room stays room. -/
def Room (t : Ticket) (s : Conn) : Prop :=
  s.listening t = false ∨ ∃ buf o, s.slots t = some (.streaming buf o) ∧ buf.length < responseCapacity

theorem step_sending {s : Conn} {t : Ticket} {i : Item} {last : Bool} (hp : s.phase = .sending t i last) {b : List Item} {o : Bool}
    (hb : s.slots t = some (.streaming b o)) {e : Event} (he : ∀ k, e ≠ .deliver k) {s' : Conn} (hs : s.step e = some s') :
    s'.phase = .sending t i last ∧ (Room t s → Room t s') := by
  cases e with
  | submit t' text =>
    simp only [Conn.step, hp] at hs
    cases hq : s.slots t' with
    | some x => rw [hq] at hs; cases hs
    | none =>
      rw [hq] at hs
      dsimp only at hs
      split at hs
      · cases hs
        refine ⟨hp, ?_⟩
        have hne : t ≠ t' := by rintro rfl; rw [hb] at hq; cases hq
        unfold Room
        simp only [Conn.note, upd_ne _ hne]
        exact id
      · cases hs
  | submitData d o' b' =>
    simp only [Conn.step] at hs
    split at hs
    · cases hs
    · split at hs
      · cases hs; exact ⟨hp, id⟩
      · cases hs
    · cases hs
  | handle k => simp [Conn.step, hp] at hs
  | packet k p => simp [Conn.step, hp] at hs
  | deliver k => exact absurd rfl (he k)
  | recv t' =>
    simp only [Conn.step] at hs
    split at hs
    · rename_i i' buf o' e1 e2
      cases hs
      refine ⟨hp, ?_⟩
      by_cases hne : t = t'
      · subst hne
        rintro (h | ⟨b1, o1, h1, h2⟩)
        · exact .inl h
        · rw [e1] at h1
          cases h1
          refine .inr ⟨buf, o', upd_self _ _ _, ?_⟩
          simp only [List.length_cons] at h2
          omega
      · unfold Room
        simp only [Conn.note, upd_ne _ hne]
        exact id
    · cases hs
  | drop t' =>
    simp only [Conn.step] at hs
    split at hs
    · cases hs
      refine ⟨hp, ?_⟩
      rintro (h | h)
      · refine .inl ?_
        simp only [upd]
        split
        · rfl
        · exact h
      · exact .inr h
    · cases hs
  | fail => simp [Conn.step, hp] at hs
  | close => simp [Conn.step, hp] at hs

theorem step_queue {s : Conn} {e : Event} (he : ∀ k, e ≠ .handle k) {s' : Conn} (hs : s.step e = some s') (hd : .died ∉ s'.log) :
    ∃ more, s'.queue = s.queue ++ more := by
  have same : ∀ {q : List Req}, q = s.queue → ∃ more, q = s.queue ++ more := fun h => ⟨[], by rw [h]; simp⟩
  cases e with
  | submit t' text =>
    simp only [Conn.step] at hs
    split at hs
    · cases hs
    · cases hs
    · split at hs
      · cases hs; exact ⟨_, rfl⟩
      · cases hs
  | submitData d o' b' =>
    simp only [Conn.step] at hs
    split at hs
    · cases hs
    · split at hs
      · cases hs; exact ⟨_, rfl⟩
      · cases hs
    · cases hs
  | handle k => exact absurd rfl (he k)
  | packet k p =>
    simp only [Conn.step] at hs
    split at hs
    · cases hs
      revert hd
      have kl : (.died ∉ (s.note (.got p)).kill.log) → ∃ more, (s.note (.got p)).kill.queue = s.queue ++ more :=
        fun h => absurd h alive_kill
      unfold receivePacket
      cases p with
      | hello _ => exact kl
      | data n b =>
        dsimp only
        split
        · intro _; exact same rfl
        · exact kl
      | exception x =>
        dsimp only
        split
        · intro _; exact same rfl
        · exact kl
      | progress pr =>
        dsimp only
        split
        · intro _; exact same rfl
        · intro _; exact same rfl
      | endOfStream =>
        dsimp only
        split
        · intro hd
          rw [(next_queue hd).1]
          apply same
          unfold dropExecuting
          split <;> rfl
        · exact kl
      | _ => intro _; exact same rfl
    · cases hs
  | deliver k =>
    simp only [Conn.step] at hs
    split at hs
    · unfold deliver at hs
      dsimp only at hs
      split at hs
      · split at hs
        · split at hs
          · cases hs
            revert hd
            split
            · intro hd; rw [(next_queue hd).1]; exact same rfl
            · intro _; exact same rfl
          · cases hs
        · cases hs
      · cases hs
        revert hd
        split
        · intro hd; rw [(next_queue hd).1]; exact same rfl
        · intro _; exact same rfl
    · cases hs
  | recv t' =>
    simp only [Conn.step] at hs
    split at hs
    · cases hs; exact same rfl
    · cases hs
  | drop t' =>
    simp only [Conn.step] at hs
    split at hs
    · cases hs; exact same rfl
    · cases hs
  | fail =>
    simp only [Conn.step] at hs
    split at hs
    · cases hs; exact absurd hd alive_kill
    · cases hs
  | close =>
    simp only [Conn.step] at hs
    split at hs
    · cases hs; exact absurd hd alive_kill
    · cases hs

theorem step_handle {s : Conn} {k : Nat} {s' : Conn} (hs : s.step (.handle k) = some s') (hd : .died ∉ s'.log) :
    s.phase = .idle ∧ ∃ r, s.queue = r :: s'.queue ∧ s' = handleRequest k r { s with queue := s'.queue } := by
  simp only [Conn.step] at hs
  split at hs
  · rename_i r rest hp hq
    cases hs
    refine ⟨hp, r, ?_⟩
    have : (handleRequest k r { s with queue := rest }).queue = rest := by
      revert hd
      unfold handleRequest
      split
      · split
        · intro hd; exact (dispatch_queue hd).1
        · intro _; rfl
      · split
        · intro hd; exact absurd hd alive_kill
        · intro _; rfl
    rw [this]
    exact ⟨hq, rfl⟩
  · cases hs

theorem step_deliver {s : Conn} {k : Nat} {s' : Conn} (hs : s.step (.deliver k) = some s') (hd : .died ∉ s'.log) : s'.phase = .idle := by
  simp only [Conn.step] at hs
  split at hs
  · unfold deliver at hs
    dsimp only at hs
    split at hs
    · split at hs
      · split at hs
        · cases hs
          revert hd
          split
          · intro hd; rw [(next_queue hd).2]
          · intro _; rfl
        · cases hs
      · cases hs
    · cases hs
      revert hd
      split
      · intro hd; rw [(next_queue hd).2]
      · intro _; rfl
  · cases hs

/-- A send with room can complete. -/
theorem room_deliver {s : Conn} {t : Ticket} {i : Item} {last : Bool} (hp : s.phase = .sending t i last) (hr : Room t s) :
    ∃ s', s.step (.deliver 2) = some s' := by
  simp only [Conn.step, hp]
  unfold deliver
  dsimp only
  rcases hr with h | ⟨buf, o, h1, h2⟩
  · rw [h]; exact ⟨_, rfl⟩
  · cases hl : s.listening t with
    | false => exact ⟨_, rfl⟩
    | true =>
      simp only [h1, h2, if_true]
      exact ⟨_, rfl⟩

theorem sentOf_append (l l' : List Obs) : sentOf (l ++ l') = sentOf l ++ sentOf l' := by simp [sentOf]

theorem view_next_done (v : View) (o : Obs) : ∃ r, (v.next o).done = v.done ++ r := by
  cases o with
  | got p =>
    cases p with
    | data n b => simp only [View.next]; split <;> exact ⟨[], by simp⟩
    | exception e =>
      simp only [View.next]
      split
      · exact ⟨_, rfl⟩
      · exact ⟨[], by simp⟩
    | endOfStream =>
      simp only [View.next]
      split
      · exact ⟨_, rfl⟩
      · exact ⟨[], by simp⟩
    | progress p => simp only [View.next]; split <;> exact ⟨[], by simp⟩
    | _ => exact ⟨[], by simp [View.next]⟩
  | _ => exact ⟨[], by simp [View.next]⟩

theorem view_done_append (l l' : List Obs) : ∃ r, (view (l ++ l')).done = (view l).done ++ r := by
  induction l' using snocInd with
  | h0 => exact ⟨[], by simp⟩
  | h1 l' o ih =>
    obtain ⟨r, hr⟩ := ih
    obtain ⟨r', hr'⟩ := view_next_done (view (l ++ l')) o
    exact ⟨r ++ r', by rw [← List.append_assoc, view_snoc, hr', hr]; simp⟩

theorem Spec.Always.left {P : List Obs → Obs → Prop} {l l' : List Obs} (h : Always P (l ++ l')) : Always P l :=
  fun l1 o l2 e => h l1 o (l2 ++ l') (by rw [e]; simp)

/-- In a history that obeys the rules, the queries sent are those answered and the one being executed. -/
theorem rule_done {l : List Obs} (h : Always Rule l) : (view l).done ++ (view l).cur.toList = sentOf l := by
  induction l using snocInd with
  | h0 => rfl
  | h1 l o ih =>
    have ih := ih h.left
    rw [view_snoc, sentOf_snoc, ← ih]
    cases o with
    | got p =>
      cases p with
      | data n b => simp only [View.next]; split <;> simp [sentOf]
      | exception e =>
        simp only [View.next]
        split
        · rename_i t e1; simp [sentOf, e1]
        · simp [sentOf]
      | endOfStream =>
        simp only [View.next]
        split
        · rename_i t e1; simp [sentOf, e1]
        · simp [sentOf]
      | progress p => simp only [View.next]; split <;> simp [sentOf]
      | _ => simp [View.next, sentOf]
    | sentQuery t x =>
      have hr : (view l).cur = none := (h l _ [] rfl).1
      simp [View.next, sentOf, hr]
    | _ => simp [View.next, sentOf]

/-- Nothing more belongs to a query that has been answered to its end. -/
theorem items_fixed {l l' : List Obs} (h : Always Rule (l ++ l')) (hn : (sentOf (l ++ l')).Nodup) {t : Ticket} (ht : t ∈ (view l).done) :
    itemsOf t (l ++ l') = itemsOf t l := by
  induction l' using snocInd with
  | h0 => simp
  | h1 l' o ih =>
    rw [← List.append_assoc] at h hn ⊢
    have h' := h.left
    have hn' : (sentOf (l ++ l')).Nodup := by
      rw [sentOf_append] at hn
      exact (List.nodup_append.mp hn).1
    rw [← ih h' hn']
    have hd := rule_done h'
    have hcur : (view (l ++ l')).cur ≠ some t := by
      intro hc
      rw [hc] at hd
      rw [← hd, List.nodup_append] at hn'
      obtain ⟨r, hr⟩ := view_done_append l l'
      exact hn'.2.2 t (by rw [hr]; simp [ht]) t (by simp) rfl
    rw [itemsOf_eq, itemsOf_eq, view_snoc]
    cases o with
    | got p =>
      cases p with
      | data n b =>
        simp only [View.next]
        split
        · rename_i t' e
          have : t' ≠ t := by rintro rfl; exact hcur e
          simp [pick, this]
        · rfl
      | exception x =>
        simp only [View.next]
        split
        · rename_i t' e
          have : t' ≠ t := by rintro rfl; exact hcur e
          simp [pick, this]
        · rfl
      | endOfStream => simp only [View.next]; split <;> rfl
      | progress p => simp only [View.next]; split <;> rfl
      | _ => rfl
    | _ => rfl

/-- A packet is recorded before anything it causes. -/
theorem packet_log {s : Conn} {k : Nat} {p : ServerPacket} {s' : Conn} (hs : s.step (.packet k p) = some s') :
    ∃ l, s'.log = s.log ++ .got p :: l := by
  simp only [Conn.step] at hs
  split at hs
  · cases hs
    have k1 : ∃ l, (s.note (.got p)).kill.log = s.log ++ .got p :: l := ⟨[.died], by rw [kill_log]; simp [Conn.note]⟩
    have k2 : ∀ s1 : Conn, s1.log = s.log ++ [.got p] → ∃ l, s1.log = s.log ++ .got p :: l := fun s1 e => ⟨[], e⟩
    unfold receivePacket
    cases p with
    | hello _ => exact k1
    | data n b =>
      dsimp only
      split
      · exact k2 _ rfl
      · exact k1
    | exception x =>
      dsimp only
      split
      · exact k2 _ rfl
      · exact k1
    | progress pr =>
      dsimp only
      split
      · exact ⟨_, by simp [Conn.note]; rfl⟩
      · exact k2 _ rfl
    | endOfStream =>
      dsimp only
      split
      · have h3 : (dropExecuting (s.note (.got .endOfStream))).log = s.log ++ [.got .endOfStream] := by
          unfold dropExecuting; split <;> rfl
        unfold dispatchNext
        split
        · exact k2 _ h3
        · rw [dispatch_log]
          exact ⟨_, by dsimp only; rw [h3, List.append_assoc]; rfl⟩
      · exact k1
    | _ => exact k2 _ rfl
  · cases hs

namespace Spec.Execution

theorem reach (x : Execution) (n : Nat) : Reachable (x.state n) := by
  induction n with
  | zero => rw [x.start]; exact ⟨[], rfl⟩
  | succ n ih =>
    cases h : x.event n with
    | none => rw [x.rests n h]; exact ih
    | some e => exact ih.step (x.moves n e h)

theorem log_grows (x : Execution) {n m : Nat} (h : n ≤ m) : ∃ l, (x.state m).log = (x.state n).log ++ l := by
  induction m with
  | zero => have : n = 0 := by omega
            subst this; exact ⟨[], by simp⟩
  | succ m ih =>
    by_cases e : n = m + 1
    · subst e; exact ⟨[], by simp⟩
    · obtain ⟨l, hl⟩ := ih (by omega)
      cases h : x.event m with
      | none => rw [x.rests m h]; exact ⟨l, hl⟩
      | some ev =>
        obtain ⟨l', h1, _⟩ := step_log (x.moves m ev h)
        exact ⟨l ++ l', by rw [h1, hl]; simp⟩

end Spec.Execution

namespace Spec.Fair
variable {x : Execution}

theorem live (f : Fair x) (n : Nat) : Live [] (x.state n) ∧ ((x.state n).phase = .idle → (x.state n).executing = none → (x.state n).pending = []) :=
  Props.alive_live (x.reach n) (f.alive n)

/-- While no send completes, the task stays in its send. -/
theorem stays (f : Fair x) {n : Nat} {t : Ticket} {i : Item} {last : Bool} (hp : (x.state n).phase = .sending t i last) :
    ∀ m, n ≤ m → (∀ j, n ≤ j → j < m → ∀ k, x.event j ≠ some (.deliver k)) →
      (x.state m).phase = .sending t i last ∧ (Room t (x.state n) → Room t (x.state m)) := by
  intro m
  induction m with
  | zero => intro h _; have : n = 0 := by omega
            subst this; exact ⟨hp, id⟩
  | succ m ih =>
    intro h hn
    by_cases e : n = m + 1
    · subst e; exact ⟨hp, id⟩
    · obtain ⟨h1, h2⟩ := ih (by omega) (fun j a b => hn j a (by omega))
      cases hev : x.event m with
      | none => rw [x.rests m hev]; exact ⟨h1, h2⟩
      | some ev =>
        obtain ⟨b, hb⟩ := sending_slot (f.live m).1 h1
        obtain ⟨h3, h4⟩ := step_sending h1 hb (fun k e => hn m (by omega) (by omega) k (by rw [hev, e])) (x.moves m ev hev)
        exact ⟨h3, fun hr => h4 (h2 hr)⟩

/-- The task is again and again between two turns. -/
theorem idle (f : Fair x) (n : Nat) : Eventually n fun m => (x.state m).phase = .idle := by
  cases hp : (x.state n).phase with
  | idle => exact ⟨n, Nat.le_refl _, hp⟩
  | dead => exact absurd hp (f.live n).1.alive
  | sending t i last =>
    -- some send completes
    have hdel : ∃ m, n ≤ m ∧ ∃ k, x.event m = some (.deliver k) := by
      apply Classical.byContradiction
      intro hno
      have hno : ∀ j, n ≤ j → ∀ k, x.event j ≠ some (.deliver k) := fun j hj k he => hno ⟨j, hj, k, he⟩
      have hph : ∀ m, n ≤ m → (x.state m).phase = .sending t i last := fun m hm => (f.stays hp m hm (fun j a _ => hno j a)).1
      have finish : ∀ m, n ≤ m → Room t (x.state m) → False := by
        intro m hm hr
        obtain ⟨j, hj, k, he⟩ := f.sends m (fun j hj => room_deliver (hph j (Nat.le_trans hm hj))
          ((f.stays (hph m hm) j hj (fun j' a _ => hno j' (Nat.le_trans hm a))).2 hr))
        exact hno j (Nat.le_trans hm hj) k he
      obtain ⟨b, hb⟩ := sending_slot (f.live n).1 hp
      cases hl : (x.state n).listening t with
      | false => exact finish n (Nat.le_refl _) (.inl hl)
      | true =>
        by_cases hc : b.length < responseCapacity
        · exact finish n (Nat.le_refl _) (.inr ⟨b, true, hb, hc⟩)
        · cases b with
          | nil => exact hc (by decide)
          | cons i' b' =>
            obtain ⟨m, hm, he⟩ := f.reads n t i' b' true hb hl
            apply finish (m + 1) (by omega)
            rcases he with he | he
            · have hs := x.moves m _ he
              simp only [Conn.step] at hs
              split at hs
              · rename_i i2 buf o e1 e2
                have hcap := buf_cap (x.reach m) t e1
                injection hs with hs
                rw [← hs]
                refine .inr ⟨buf, o, upd_self _ _ _, ?_⟩
                simp only [List.length_cons] at hcap
                omega
              · cases hs
            · have hs := x.moves m _ he
              simp only [Conn.step] at hs
              split at hs
              · injection hs with hs
                rw [← hs]
                exact .inl (upd_self _ _ _)
              · cases hs
    obtain ⟨m, hm, k, he⟩ := hdel
    exact ⟨m + 1, by omega, step_deliver (x.moves m _ he) (f.alive (m + 1))⟩

/-- Until a request is taken, the request channel only grows. -/
theorem queue_grows (f : Fair x) {n : Nat} : ∀ m, n ≤ m → (∀ j, n ≤ j → j < m → ∀ k, x.event j ≠ some (.handle k)) →
    ∃ more, (x.state m).queue = (x.state n).queue ++ more := by
  intro m
  induction m with
  | zero => intro h _; have : n = 0 := by omega
            subst this; exact ⟨[], by simp⟩
  | succ m ih =>
    intro h hn
    by_cases e : n = m + 1
    · subst e; exact ⟨[], by simp⟩
    · obtain ⟨q, hq⟩ := ih (by omega) (fun j a b => hn j a (by omega))
      cases hev : x.event m with
      | none => rw [x.rests m hev]; exact ⟨q, hq⟩
      | some ev =>
        obtain ⟨q', hq'⟩ := step_queue (fun k e => hn m (by omega) (by omega) k (by rw [hev, e])) (x.moves m ev hev) (f.alive (m + 1))
        exact ⟨q ++ q', by rw [hq', hq]; simp⟩

/-- A channel that is not empty has its first request taken, the rest staying as it is. -/
theorem next_taken (f : Fair x) {n : Nat} {r : Req} {rest : List Req} (hq : (x.state n).queue = r :: rest) :
    ∃ m k more, n ≤ m ∧ x.event m = some (.handle k) ∧ (x.state m).phase = .idle ∧ (x.state (m + 1)).queue = rest ++ more ∧
      x.state (m + 1) = handleRequest k r { x.state m with queue := (x.state (m + 1)).queue } := by
  have hh : ∃ m, n ≤ m ∧ ∃ k, x.event m = some (.handle k) := by
    apply Classical.byContradiction
    intro hno
    have hno : ∀ j, n ≤ j → ∀ k, x.event j ≠ some (.handle k) := fun j hj k he => hno ⟨j, hj, k, he⟩
    obtain ⟨m, hm, k, he⟩ := f.takes n (fun m hm => by
      obtain ⟨j, hj, hi⟩ := f.idle m
      obtain ⟨q, hqj⟩ := f.queue_grows (n := n) j (Nat.le_trans hm hj) (fun j' a _ => hno j' a)
      exact ⟨j, hj, hi, by rw [hqj, hq]; simp⟩)
    exact hno m hm k he
  obtain ⟨m0, hm0, hk0⟩ := hh
  obtain ⟨m, hm, ⟨k, he⟩, hmin⟩ := first (P := fun m => ∃ k, x.event m = some (.handle k)) hm0 hk0
  obtain ⟨q, hqm⟩ := f.queue_grows (n := n) m hm (fun j a b k e => hmin j a b ⟨k, e⟩)
  obtain ⟨h1, r', h2, h3⟩ := step_handle (x.moves m _ he) (f.alive (m + 1))
  rw [hqm, hq, List.cons_append, List.cons.injEq] at h2
  obtain ⟨rfl, h2⟩ := h2
  exact ⟨m, k, q, hm, he, h1, h2.symm, h3⟩

/-- Every request in the channel gets taken. -/
theorem taken (f : Fair x) : ∀ (pre : List Req) (n : Nat) (r : Req) (post : List Req), (x.state n).queue = pre ++ r :: post →
    ∃ m k, n ≤ m ∧ x.event m = some (.handle k) ∧ (x.state m).phase = .idle ∧
      x.state (m + 1) = handleRequest k r { x.state m with queue := (x.state (m + 1)).queue } := by
  intro pre
  induction pre with
  | nil =>
    intro n r post hq
    obtain ⟨m, k, q, h1, h2, h3, _, h5⟩ := f.next_taken hq
    exact ⟨m, k, h1, h2, h3, h5⟩
  | cons a pre ih =>
    intro n r post hq
    obtain ⟨m, k, q, h1, h2, h3, h4, h5⟩ := f.next_taken hq
    obtain ⟨m', k', g1, g2⟩ := ih (m + 1) r (post ++ q) (by rw [h4]; simp)
    exact ⟨m', k', by omega, g2⟩

/-! ### queries -/

/-- A query being executed is brought to its end. -/
theorem ended (f : Fair x) {n : Nat} {t : Ticket} (hc : (view (x.state n).log).cur = some t) :
    Eventually n fun m => (view (x.state n).log).done.length < (view (x.state m).log).done.length := by
  apply Classical.byContradiction
  intro hno
  have hno : ∀ m, n ≤ m → ¬ (view (x.state n).log).done.length < (view (x.state m).log).done.length := fun m hm h => hno ⟨m, hm, h⟩
  have hcur : ∀ m, n ≤ m → (view (x.state m).log).cur = some t := by
    intro m hm
    obtain ⟨l, hl⟩ := x.log_grows hm
    obtain ⟨r, hr⟩ := view_done_append (x.state n).log l
    have hle := hno m hm
    rw [hl, hr] at hle
    have hr0 : r = [] := by
      cases r with
      | nil => rfl
      | cons a r => simp at hle
    have d1 := (f.live n).1.done
    have d2 := (f.live m).1.done
    rw [hl, hr, hr0, sentOf_append, ← d1, hc, ← hl] at d2
    simp only [List.append_nil, Option.toList, List.append_assoc] at d2
    have d3 := List.append_cancel_left d2
    cases hcm : (view (x.state m).log).cur with
    | none => rw [hcm] at d3; cases d3
    | some t' =>
      rw [hcm] at d3
      simp only [List.cons_append, List.cons.injEq] at d3
      rw [d3.1]
  obtain ⟨m, hm, k, p, he, hp⟩ := f.answers n t hcur (fun m hm => f.idle m)
  have hs := x.moves m _ he
  obtain ⟨l, hl⟩ := packet_log hs
  have hcm := hcur m hm
  apply hno (m + 1) (by omega)
  rw [hl]
  obtain ⟨r, hr⟩ := view_done_append ((x.state m).log ++ [.got p]) l
  obtain ⟨l0, hl0⟩ := x.log_grows hm
  obtain ⟨r0, hr0⟩ := view_done_append (x.state n).log l0
  rw [List.append_assoc] at hr
  rw [show (x.state m).log ++ .got p :: l = (x.state m).log ++ ([.got p] ++ l) from rfl, hr, view_snoc]
  have : ((view (x.state m).log).next (.got p)).done = (view (x.state m).log).done ++ [t] := by
    cases p with
    | exception e => simp only [View.next, hcm]
    | endOfStream => simp only [View.next, hcm]
    | _ => exact absurd hp (by simp [Terminator])
  rw [this, hl0, hr0]
  simp
  omega

/-- As long as a submitted query is not answered, more queries get answered. -/
theorem more (f : Fair x) {n : Nat} {t : Ticket} (ht : t ∈ submittedOf (x.state n).log) (hn : t ∉ (view (x.state n).log).done) :
    Eventually n fun m => (view (x.state n).log).done.length < (view (x.state m).log).done.length := by
  have mono : ∀ {a b : Nat}, a ≤ b → (view (x.state a).log).done.length ≤ (view (x.state b).log).done.length := by
    intro a b h
    obtain ⟨l, hl⟩ := x.log_grows h
    obtain ⟨r, hr⟩ := view_done_append (x.state a).log l
    rw [hl, hr]; simp
  have viaEnd : ∀ {m : Nat} {t' : Ticket}, n ≤ m → (x.state m).executing = some t' →
      Eventually n fun m => (view (x.state n).log).done.length < (view (x.state m).log).done.length := by
    intro m t' hm he
    obtain ⟨j, hj, hlt⟩ := f.ended (n := m) (t := t') (by rw [(f.live m).1.cur, he])
    exact ⟨j, by omega, Nat.lt_of_le_of_lt (mono hm) hlt⟩
  obtain ⟨m, hm, hi⟩ := f.idle n
  cases he : (x.state m).executing with
  | some t' => exact viaEnd hm he
  | none =>
    by_cases hdm : t ∈ (view (x.state m).log).done
    · refine ⟨m, hm, ?_⟩
      obtain ⟨l, hl⟩ := x.log_grows hm
      obtain ⟨r, hr⟩ := view_done_append (x.state n).log l
      rw [hl, hr] at hdm ⊢
      cases r with
      | nil => simp at hdm; exact absurd hdm hn
      | cons a r => simp
    have hpend := (f.live m).2 hi he
    have hall := (f.live m).1.all
    have hdone := (f.live m).1.done
    rw [(f.live m).1.cur, he] at hdone
    simp only [Option.toList, List.append_nil] at hdone
    rw [hpend, ← hdone] at hall
    have htm : t ∈ submittedOf (x.state m).log := by
      obtain ⟨l, hl⟩ := x.log_grows hm
      rw [hl]
      simp only [submittedOf, List.filterMap_append, List.mem_append]
      exact .inl ht
    rw [← hall] at htm
    simp only [List.append_nil, List.map_nil, List.mem_append, hdm, false_or] at htm
    obtain ⟨r, hr, hrt⟩ := List.mem_filterMap.mp htm
    cases r with
    | data d o b => cases hrt
    | query t1 text =>
      cases hrt
      obtain ⟨pre, post, hq⟩ := List.append_of_mem hr
      obtain ⟨m2, k, h1, h2, h3, h4⟩ := f.taken pre m _ post hq
      cases he2 : (x.state m2).executing with
      | some t' => exact viaEnd (by omega) he2
      | none =>
        have hp2 := (f.live m2).2 h3 he2
        have : (x.state (m2 + 1)).executing = some t := by
          rw [h4]
          have ha := f.alive (m2 + 1)
          rw [h4] at ha
          revert ha
          unfold handleRequest
          simp only [hp2, he2, List.isEmpty_nil, Option.isNone_none, Bool.and_self, if_true]
          intro ha
          exact (dispatch_queue ha).2.2
        exact viaEnd (m := m2 + 1) (by omega) this

end Spec.Fair

namespace Props

/-- Every submitted query is answered to its end. -/
theorem C82_answered {x : Execution} (f : Fair x) {n : Nat} {t : Ticket} (ht : t ∈ submittedOf (x.state n).log) :
    Eventually n fun m => t ∈ (view (x.state m).log).done := by
  obtain ⟨pre, post, hsub⟩ := List.append_of_mem ht
  -- by the number of queries before `t` still to be answered
  have key : ∀ (g n' : Nat), n ≤ n' → pre.length + 1 - (view (x.state n').log).done.length = g →
      Eventually n' fun m => t ∈ (view (x.state m).log).done := by
    intro g
    induction g using Nat.strongRecOn with
    | _ g ih =>
      intro n' hn' hg
      by_cases hd : t ∈ (view (x.state n').log).done
      · exact ⟨n', Nat.le_refl _, hd⟩
      obtain ⟨l, hl⟩ := x.log_grows hn'
      have hsub' : submittedOf (x.state n').log = pre ++ t :: (post ++ submittedOf l) := by
        rw [hl]
        simp only [submittedOf, List.filterMap_append]
        rw [show (x.state n).log.filterMap _ = pre ++ t :: post from hsub]
        simp
      have hpos : (view (x.state n').log).done.length < pre.length + 1 := by
        apply Decidable.byContradiction
        intro hge
        apply hd
        have hpre : (view (x.state n').log).done <+: submittedOf (x.state n').log := by
          refine List.IsPrefix.trans ⟨_, (weak (x.reach n')).done⟩ (weak (x.reach n')).order
        rw [hsub'] at hpre
        have := List.IsPrefix.getElem hpre (i := pre.length) (by omega)
        simp only [List.getElem_append_right (Nat.le_refl _), Nat.sub_self, List.getElem_cons_zero] at this
        rw [← this]
        exact List.getElem_mem _
      obtain ⟨m, hm, hlt⟩ := f.more (n := n') (t := t) (by rw [hsub']; simp) hd
      obtain ⟨m', hm', hh⟩ := ih (pre.length + 1 - (view (x.state m).log).done.length) (by omega) m (by omega) rfl
      exact ⟨m', by omega, hh⟩
  obtain ⟨m, hm, hh⟩ := key _ n (Nat.le_refl _) rfl
  exact ⟨m, hm, hh⟩

/-- The caller of every submitted query leaves, or reads everything that was received for the query, up
to the end of its stream, the query having been answered to its end. -/
theorem C82_read {x : Execution} (f : Fair x) {n : Nat} {t : Ticket} (ht : t ∈ submittedOf (x.state n).log) :
    Eventually n fun m => (x.state m).listening t = false ∨
      (x.state m).slots t = some (.streaming [] false) ∧ t ∈ (view (x.state m).log).done ∧
        readsOf t (x.state m).log = itemsOf t (x.state m).log := by
  obtain ⟨n1, hn1, hd1⟩ := C82_answered f ht
  have hdone : ∀ m, n1 ≤ m → t ∈ (view (x.state m).log).done := by
    intro m hm
    obtain ⟨l, hl⟩ := x.log_grows hm
    obtain ⟨r, hr⟩ := view_done_append (x.state n1).log l
    rw [hl, hr]; simp [hd1]
  have hitems : ∀ m, n1 ≤ m → itemsOf t (x.state m).log = itemsOf t (x.state n1).log := by
    intro m hm
    obtain ⟨l, hl⟩ := x.log_grows hm
    have hw := weak (x.reach m)
    have h1 := hw.rule
    have h2 := (C29_once (x.reach m)).2
    rw [hl] at h1 h2 ⊢
    exact items_fixed h1 h2 hd1
  -- by the number of items still to be read
  have key : ∀ (g m : Nat), n1 ≤ m → (itemsOf t (x.state n1).log).length - (readsOf t (x.state m).log).length = g →
      Eventually m fun m => (x.state m).listening t = false ∨
        (x.state m).slots t = some (.streaming [] false) ∧ t ∈ (view (x.state m).log).done ∧
          readsOf t (x.state m).log = itemsOf t (x.state m).log := by
    intro g
    induction g using Nat.strongRecOn with
    | _ g ih =>
      intro m hm hg
      obtain ⟨j, hj, hi⟩ := f.idle m
      have hw := (f.live j).1
      have hdj := hdone j (by omega)
      have hsent : t ∈ sentOf (x.state j).log := by rw [← hw.done]; simp [hdj]
      obtain ⟨buf, o, hb⟩ := (hw.stream t).mp hsent
      have hex : (x.state j).executing ≠ some t := by
        intro he
        have hnd := (C29_once (x.reach j)).2
        rw [← hw.done, hw.cur, he, List.nodup_append] at hnd
        exact hnd.2.2 t hdj t (by simp) rfl
      have ho : o = false := by
        cases o with
        | false => rfl
        | true =>
          rcases hw.sender t buf hb with h | ⟨i, h⟩
          · exact absurd h hex
          · rw [hi] at h; cases h
      subst ho
      cases hl : (x.state j).listening t with
      | false => exact ⟨j, hj, .inl hl⟩
      | true =>
        have hit := hw.items t hl
        have hfl : inflight (x.state j) t = [] := by simp [inflight, hi]
        rw [hfl, hb, List.append_nil] at hit
        cases buf with
        | nil => exact ⟨j, hj, .inr ⟨hb, hdj, by simpa [bufOf] using hit⟩⟩
        | cons i buf =>
          obtain ⟨m', hm', he⟩ := f.reads j t i buf false hb hl
          rcases he with he | he
          · have hs := x.moves m' _ he
            simp only [Conn.step] at hs
            split at hs
            · rename_i i2 buf2 o2 e1 e2
              injection hs with hs
              have hlog : (x.state (m' + 1)).log = (x.state m').log ++ [.read t i2] := by rw [← hs]; rfl
              obtain ⟨l0, hl0⟩ := x.log_grows (n := m) (m := m') (by omega)
              have hrd : (readsOf t (x.state m).log).length < (readsOf t (x.state (m' + 1)).log).length := by
                rw [hlog, hl0]
                simp [readsOf]
              have hle : (readsOf t (x.state (m' + 1)).log).length ≤ (itemsOf t (x.state n1).log).length := by
                rw [← hitems (m' + 1) (by omega)]
                exact (C30_reads (x.reach (m' + 1)) t).length_le
              obtain ⟨m2, hm2, hh⟩ := ih _ (by omega) (m' + 1) (by omega) rfl
              exact ⟨m2, by omega, hh⟩
            · cases hs
          · have hs := x.moves m' _ he
            simp only [Conn.step] at hs
            split at hs
            · injection hs with hs
              refine ⟨m' + 1, by omega, .inl ?_⟩
              rw [← hs]
              exact upd_self _ _ _
            · cases hs
  obtain ⟨m, hm, hh⟩ := key _ n1 (Nat.le_refl _) rfl
  exact ⟨m, by omega, hh⟩

/-- A block taken from the request channel is sent and acknowledged. -/
theorem block_taken {x : Execution} (f : Fair x) {n : Nat} {d o : Ticket} {b : Block} (hq : .data d o b ∈ (x.state n).queue) :
    Eventually n fun m => (d, o, b) ∈ blocksSent (x.state m).log ∧ (x.state m).acks d = some .acked := by
  obtain ⟨pre, post, hq⟩ := List.append_of_mem hq
  obtain ⟨m, k, h1, h2, h3, h4⟩ := f.taken pre n _ post hq
  refine ⟨m + 1, by omega, ?_⟩
  have ha := f.alive (m + 1)
  generalize (x.state (m + 1)).queue = q at h4
  dsimp only
  rw [h4] at ha ⊢
  revert ha
  unfold handleRequest
  cases k with
  | zero => intro ha; exact absurd ha alive_kill
  | succ k =>
    intro _
    refine ⟨?_, upd_self _ _ _⟩
    simp [Conn.note, blocksSent]

/-- Every block an insert submits is sent. -/
theorem C82_blocks {x : Execution} (f : Fair x) {n : Nat} {d o : Ticket} {b : Block} (hb : (d, o, b) ∈ blocksSubmitted (x.state n).log) :
    Eventually n fun m => (d, o, b) ∈ blocksSent (x.state m).log := by
  rcases (x.reach n).inv2 with h | h
  · rw [← h.blocks, List.mem_append] at hb
    rcases hb with hb | hb
    · exact ⟨n, Nat.le_refl _, hb⟩
    · obtain ⟨r, hr, hrt⟩ := List.mem_filterMap.mp hb
      cases r with
      | query t x => cases hrt
      | data d' o' b' =>
        cases hrt
        obtain ⟨m, hm, hh, _⟩ := block_taken f hr
        exact ⟨m, hm, hh⟩
  · exact absurd h.dead (f.live n).1.alive

/-- Every caller awaiting the acknowledgement of a block gets it. -/
theorem C82_acked {x : Execution} (f : Fair x) {n : Nat} {d : Ticket} (hb : (x.state n).acks d = some .waiting) :
    Eventually n fun m => (x.state m).acks d = some .acked := by
  obtain ⟨o, ho⟩ := (weak (x.reach n)).acks d hb
  obtain ⟨r, hr, hrt⟩ := List.mem_filterMap.mp ho
  cases r with
  | query t x => cases hrt
  | data d' o' b' =>
    cases hrt
    obtain ⟨m, hm, _, hh⟩ := block_taken f hr
    exact ⟨m, hm, hh⟩

end Props
end Klick
