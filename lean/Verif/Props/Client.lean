import Verif.ClientTexts
/-
C29-C34: one connection, any interleaving of callers, task and server.
-/
namespace Klick
open Spec

namespace Props

theorem died_dead {s : Conn} (h : Reachable s) (hd : .died ∈ s.log) :
    s.phase = .dead ∧ Weak [] s ∧ s.queue = [] ∧ s.pending = [] ∧ s.executing = none := by
  rcases h.inv with ⟨h1, h2, h3, h4, h5, _⟩ | ⟨h, _⟩
  · exact ⟨h1, h2, h3, h4, h5⟩
  · exact absurd rfl (h.notDied _ hd)

theorem alive_live {s : Conn} (h : Reachable s) (hd : .died ∉ s.log) :
    Live [] s ∧ (s.phase = .idle → s.executing = none → s.pending = []) := by
  rcases h.inv with ⟨_, _, _, _, _, h6⟩ | h
  · exact absurd h6 hd
  · exact h

theorem weak {s : Conn} (h : Reachable s) : Weak [] s := by
  rcases h.inv with ⟨_, h, _⟩ | ⟨h, _⟩
  · exact h
  · exact h.toWeak

/-! ## C29 -/

/-- Queries reach the server in the order they were submitted, with the text submitted. -/
theorem C29_order {s : Conn} (h : Reachable s) : queriesSent s.log <+: queriesSubmitted s.log := by
  rcases h.inv2 with h | h
  · rw [← h.queries]; simp
  · exact h.queries

/-- A query is sent only when no earlier one awaits its end. -/
theorem C29_one_at_a_time {s : Conn} (h : Reachable s) {l1 l2 : List Obs} {t : Ticket} {x : Str}
    (hl : s.log = l1 ++ .sentQuery t x :: l2) : (view l1).cur = none :=
  ((weak h).rule l1 _ l2 hl).1

/-- Every query sent has been answered to the end, except the one executing. -/
theorem C29_answered {s : Conn} (h : Reachable s) : (view s.log).done ++ (view s.log).cur.toList = sentOf s.log :=
  (weak h).done

/-- No query is submitted or sent twice. -/
theorem C29_once {s : Conn} (h : Reachable s) : (submittedOf s.log).Nodup ∧ (sentOf s.log).Nodup :=
  ⟨(weak h).nodup, (weak h).order.sublist.nodup (weak h).nodup⟩

theorem idle_advance : ∀ (n : Nat) {s : Conn}, Inv s → .died ∉ s.log → s.phase = .idle → s.executing = none → s.queue.length = n →
    ∀ {t : Ticket} {rest : List Ticket}, sentOf s.log ++ t :: rest = submittedOf s.log →
    ∃ es s', (∀ e ∈ es, Unaided e) ∧ s.run es = some s' ∧ sentOf s'.log = sentOf s.log ++ [t] := by
  intro n
  induction n with
  | zero =>
    intro s h hd hi he hn t rest ht
    rcases h with ⟨_, _, _, _, _, h6⟩ | ⟨h, hp⟩
    · exact absurd h6 hd
    have := h.all
    rw [hp hi he, List.length_eq_zero_iff.mp hn, ← ht] at this
    simp at this
  | succ n ih =>
    intro s h hd hi he hn t rest ht
    rcases h with ⟨_, _, _, _, _, h6⟩ | ⟨h, hp⟩
    · exact absurd h6 hd
    cases hq : s.queue with
    | nil => rw [hq] at hn; cases hn
    | cons r q =>
      have hall := h.all
      rw [hp hi he, hq, ← ht] at hall
      simp only [List.append_nil, List.map_nil, List.append_assoc] at hall
      have hall := List.append_cancel_left hall
      have hstep : s.step (.handle 2) = some (handleRequest 2 r { s with queue := q }) := by
        simp only [Conn.step, hi, hq]
      cases r with
      | query t' x =>
        simp only [qTickets_query, List.cons.injEq] at hall
        obtain ⟨rfl, _⟩ := hall
        refine ⟨[.handle 2], _, ?_, by simp only [Conn.run, hstep]; rfl, ?_⟩
        · intro e he; simp only [List.mem_singleton] at he; subst he; exact Nat.le_refl _
        · simp only [handleRequest]
          rw [if_pos (by simp [hp hi he, he]), dispatch_log]
          simp [sentOf]
      | data d o b =>
        simp only [qTickets_data] at hall
        have hlog : (handleRequest 2 (.data d o b) { s with queue := q }).log = s.log ++ [.sentData d o b] := rfl
        have hinv := step_inv (.inr ⟨h, hp⟩) hstep
        obtain ⟨es, s', h1, h2, h3⟩ := ih hinv (by rw [hlog]; simp [hd]) hi he (by rw [hq] at hn; exact Nat.succ.inj hn) (t := t) (rest := rest)
          (by rw [hlog]; simpa [sentOf, submittedOf] using ht)
        refine ⟨.handle 2 :: es, s', ?_, by simp only [Conn.run, hstep]; exact h2, ?_⟩
        · intro e he
          rcases List.mem_cons.mp he with rfl | he
          · exact Nat.le_refl _
          · exact h1 e he
        · rw [h3, hlog]; simp [sentOf]

/-- Whenever no query awaits its end and one is unsent, the task gets to send it on its own (given a
working transport; at most one caller has to make room in its channel). -/
theorem C29_advances {s : Conn} (h : Reachable s) (hd : .died ∉ s.log) (hc : (view s.log).cur = none)
    {t : Ticket} {rest : List Ticket} (ht : sentOf s.log ++ t :: rest = submittedOf s.log) :
    ∃ es s', (∀ e ∈ es, Unaided e) ∧ s.run es = some s' ∧ sentOf s'.log = sentOf s.log ++ [t] := by
  obtain ⟨hl, hp⟩ := alive_live h hd
  have he : s.executing = none := by rw [← hl.cur]; exact hc
  cases hph : s.phase with
  | dead => exact absurd hph hl.alive
  | idle => exact idle_advance _ (.inr ⟨hl, hp⟩) hd hph he rfl ht
  | sending t0 i last =>
    have hlast : last = true := by
      cases last with
      | true => rfl
      | false => rw [hl.sending t0 i hph] at he; cases he
    subst hlast
    obtain ⟨_, buf, hb⟩ := hl.sendingLast t0 i hph
    -- first make room, if there is none
    have room : ∃ es s1, (∀ e ∈ es, Unaided e) ∧ s.run es = some s1 ∧ Inv s1 ∧ .died ∉ s1.log ∧ sentOf s1.log = sentOf s.log ∧
        submittedOf s1.log = submittedOf s.log ∧ s1.phase = .sending t0 i true ∧ s1.executing = none ∧
        (s1.listening t0 = true → ∃ buf, s1.slots t0 = some (.streaming buf true) ∧ buf.length < responseCapacity) := by
      by_cases hlis : s.listening t0 = true
      · by_cases hlen : buf.length < responseCapacity
        · exact ⟨[], s, by simp, rfl, h.inv, hd, rfl, rfl, hph, he, fun _ => ⟨buf, hb, hlen⟩⟩
        · -- the buffer never exceeds the capacity
          cases buf with
          | nil => simp [responseCapacity] at hlen
          | cons i0 buf =>
            have hstep : s.step (.recv t0) = some { s.note (.read t0 i0) with slots := upd s.slots t0 (some (.streaming buf true)) } := by
              simp only [Conn.step, hb, hlis]
            have hcap := buf_cap h t0 hb
            refine ⟨[.recv t0], _, ?_, by simp only [Conn.run, hstep]; rfl, step_inv h.inv hstep, ?_, ?_, ?_, hph, he, ?_⟩
            · intro e he; simp only [List.mem_singleton] at he; subst he; trivial
            · simp [Conn.note, hd]
            · simp [Conn.note, sentOf]
            · simp [Conn.note, submittedOf]
            · intro _
              refine ⟨buf, by simp [upd], ?_⟩
              simp only [List.length_cons] at hcap
              omega
      · exact ⟨[], s, by simp, rfl, h.inv, hd, rfl, rfl, hph, he, fun e => absurd e hlis⟩
    obtain ⟨es1, s1, hu1, hr1, hi1, hd1, hs1, hsb1, hph1, he1, hroom⟩ := room
    -- then the send completes
    have comp : ∃ s2, s1.step (.deliver 2) = some (dispatchNext 2 s2) ∧ s2.log = s1.log ∧ s2.pending = s1.pending ∧ s2.queue = s1.queue ∧
        s2.phase = .idle ∧ s2.executing = none := by
      simp only [Conn.step, hph1, deliver]
      by_cases hlis : s1.listening t0 = true
      · obtain ⟨b1, hb1, hlen⟩ := hroom hlis
        rw [if_pos hlis, hb1]
        dsimp only
        rw [if_pos hlen]
        exact ⟨_, rfl, rfl, rfl, rfl, rfl, he1⟩
      · rw [if_neg hlis]
        exact ⟨_, rfl, rfl, rfl, rfl, rfl, he1⟩
    obtain ⟨s2, hst2, hl2, hp2, hq2, hph2, he2⟩ := comp
    have hinv2 := step_inv hi1 hst2
    have hu2 : Unaided (.deliver 2) := Nat.le_refl _
    rcases hi1 with ⟨_, _, _, _, _, h6⟩ | ⟨hlv, _⟩
    · exact absurd h6 hd1
    have hall := hlv.all
    rw [hs1, hsb1, ← ht] at hall
    simp only [List.append_nil, List.append_assoc] at hall
    have hall := List.append_cancel_left hall
    cases hpd : s1.pending with
    | nil =>
      have e2 : dispatchNext 2 s2 = s2 := by unfold dispatchNext; rw [hp2, hpd]
      rw [e2] at hst2 hinv2
      obtain ⟨es, s', g1, g2, g3⟩ := idle_advance _ hinv2 (by rw [hl2]; exact hd1) hph2 he2 rfl (t := t) (rest := rest)
        (by rw [hl2, hs1, hsb1]; exact ht)
      refine ⟨es1 ++ .deliver 2 :: es, s', ?_, ?_, ?_⟩
      · intro e he
        rcases List.mem_append.mp he with he | he
        · exact hu1 e he
        · rcases List.mem_cons.mp he with rfl | he
          · exact hu2
          · exact g1 e he
      · rw [Conn.run_append, hr1]
        simp only [Option.bind, Conn.run, hst2]
        exact g2
      · rw [g3, hl2, hs1]
    | cons q ps =>
      obtain ⟨t', x⟩ := q
      rw [hpd] at hall
      simp only [List.map_cons, List.cons_append, List.cons.injEq] at hall
      obtain ⟨rfl, _⟩ := hall
      refine ⟨es1 ++ [.deliver 2], dispatchNext 2 s2, ?_, ?_, ?_⟩
      · intro e he
        rcases List.mem_append.mp he with he | he
        · exact hu1 e he
        · simp only [List.mem_singleton] at he; subst he; exact hu2
      · rw [Conn.run_append, hr1]
        simp only [Option.bind, Conn.run, hst2]
      · unfold dispatchNext
        rw [hp2, hpd]
        dsimp only
        rw [dispatch_log, ← hs1]
        simp [sentOf, hl2]

/-- When a query ends, by an end of stream or an exception, the next submitted query gets sent. -/
theorem C31_next_sent {s : Conn} (h : Reachable s) (hi : s.phase = .idle) {t0 : Ticket} (hc : (view s.log).cur = some t0)
    {t : Ticket} {rest : List Ticket} (ht : sentOf s.log ++ t :: rest = submittedOf s.log) {p : ServerPacket} (hp : Terminator p) :
    ∃ es s', (∀ e ∈ es, Unaided e) ∧ s.run (.packet 2 p :: es) = some s' ∧ sentOf s'.log = sentOf s.log ++ [t] := by
  have hd : .died ∉ s.log := by
    intro hm; have := (died_dead h hm).1; rw [hi] at this; cases this
  obtain ⟨hl, _⟩ := alive_live h hd
  have he : s.executing = some t0 := by rw [← hl.cur]; exact hc
  have hstep : s.step (.packet 2 p) = some (receivePacket 2 p (s.note (.got p))) := by simp only [Conn.step, hi]
  have hexg : (s.note (.got p)).executing = some t0 := he
  cases p with
  | exception x =>
    have hlog : (receivePacket 2 (.exception x) (s.note (.got (.exception x)))).log = s.log ++ [.got (.exception x)] := by
      simp only [receivePacket, hexg]; rfl
    have hr := h.step hstep
    have hv : (view (s.log ++ [.got (.exception x)])).cur = none := by rw [view_snoc]; simp only [View.next, hc]
    obtain ⟨es, s', g1, g2, g3⟩ := C29_advances hr (by rw [hlog]; simp [hd]) (by rw [hlog]; exact hv) (t := t) (rest := rest)
      (by rw [hlog]; simpa [sentOf, submittedOf] using ht)
    exact ⟨es, s', g1, by simp only [Conn.run, hstep]; exact g2, by rw [g3, hlog]; simp [sentOf]⟩
  | endOfStream =>
    have hr := h.step hstep
    generalize hs2 : dropExecuting (s.note (.got .endOfStream)) = s2
    have e1 : receivePacket 2 .endOfStream (s.note (.got .endOfStream)) = dispatchNext 2 s2 := by
      simp only [receivePacket, hexg, ← hs2]
    have hlog2 : s2.log = s.log ++ [.got .endOfStream] := by
      rw [← hs2]; unfold dropExecuting; rw [hexg]; rfl
    have hp2 : s2.pending = s.pending := by
      rw [← hs2]; unfold dropExecuting; rw [hexg]; rfl
    rw [e1] at hstep hr
    have hall := hl.all
    rw [← ht] at hall
    simp only [List.append_nil, List.append_assoc] at hall
    have hall := List.append_cancel_left hall
    cases hpd : s.pending with
    | nil =>
      have e2 : dispatchNext 2 s2 = s2 := by unfold dispatchNext; rw [hp2, hpd]
      rw [e2] at hstep hr
      have hv : (view (s.log ++ [.got .endOfStream])).cur = none := by rw [view_snoc]; simp only [View.next, hc]
      obtain ⟨es, s', g1, g2, g3⟩ := C29_advances hr (by rw [hlog2]; simp [hd]) (by rw [hlog2]; exact hv) (t := t) (rest := rest)
        (by rw [hlog2]; simpa [sentOf, submittedOf] using ht)
      exact ⟨es, s', g1, by simp only [Conn.run, hstep]; exact g2, by rw [g3, hlog2]; simp [sentOf]⟩
    | cons q ps =>
      obtain ⟨t', x⟩ := q
      rw [hpd] at hall
      simp only [List.map_cons, List.cons_append, List.cons.injEq] at hall
      obtain ⟨rfl, _⟩ := hall
      refine ⟨[], dispatchNext 2 s2, by simp, by simp only [Conn.run, hstep]; rfl, ?_⟩
      unfold dispatchNext
      rw [hp2, hpd]
      dsimp only
      rw [dispatch_log]
      simp [sentOf, hlog2]
  | _ => exact absurd hp (by simp [Terminator])

/-! ## C30 -/

/-- What a caller has read is always the beginning of what the server sent for its query: nothing of
another query, nothing twice, nothing out of order, nothing skipped. -/
theorem C30_reads {s : Conn} (h : Reachable s) (t : Ticket) : readsOf t s.log <+: itemsOf t s.log := h.reads t

/-- While the caller listens, everything received for its query has been read, waits in its channel, or
is being put there. -/
theorem C30_nothing_lost {s : Conn} (h : Reachable s) {t : Ticket} (hl : s.listening t = true) :
    readsOf t s.log ++ bufOf (s.slots t) ++ inflight s t = itemsOf t s.log := (weak h).items t hl

/-- A caller that reads to the end of its stream has read everything received for its query, and,
unless the connection task has ended, the query has been answered to the end. -/
theorem C30_end_of_stream {s : Conn} (h : Reachable s) {t : Ticket} (hl : s.listening t = true)
    (hb : s.slots t = some (.streaming [] false)) :
    readsOf t s.log = itemsOf t s.log ∧ (t ∈ (view s.log).done ∨ .died ∈ s.log) := by
  have hi := (weak h).items t hl
  rw [hb] at hi
  have hsent : t ∈ sentOf s.log := ((weak h).stream t).mpr ⟨_, _, hb⟩
  by_cases hd : .died ∈ s.log
  · have hf : inflight s t = [] := by unfold inflight; rw [(died_dead h hd).1]
    rw [hf] at hi
    exact ⟨by simpa [bufOf] using hi, .inr hd⟩
  · obtain ⟨hlv, _⟩ := alive_live h hd
    have hf : inflight s t = [] := by
      unfold inflight
      split
      · rename_i t' i l e
        split
        · rename_i e'
          subst e'
          obtain ⟨b, hb'⟩ := sending_slot hlv e
          rw [hb] at hb'; cases hb'
        · rfl
      · rfl
    rw [hf] at hi
    refine ⟨by simpa [bufOf] using hi, .inl ?_⟩
    rw [← hlv.done, List.mem_append] at hsent
    rcases hsent with a | a
    · exact a
    · exfalso
      rw [hlv.cur] at a
      obtain ⟨b, hb'⟩ := hlv.sends t (by simpa using a)
      rw [hb] at hb'; cases hb'

/-- A listening caller that has not read everything received for it can read on: an item is in its
channel, or the task can put it there now. -/
theorem C30_can_read {s : Conn} (h : Reachable s) {t : Ticket} (hl : s.listening t = true) (hne : readsOf t s.log ≠ itemsOf t s.log) :
    (∃ i s', s.step (.recv t) = some s' ∧ s'.log = s.log ++ [.read t i]) ∨
    (∃ s' i s'', s.step (.deliver 2) = some s' ∧ s'.step (.recv t) = some s'' ∧ s''.log = s'.log ++ [.read t i]) := by
  have hi := (weak h).items t hl
  cases hb : bufOf (s.slots t) with
  | cons i buf =>
    left
    have : ∃ o, s.slots t = some (.streaming (i :: buf) o) := by
      unfold bufOf at hb
      split at hb
      · rename_i b o e; subst hb; exact ⟨o, e⟩
      · cases hb
    obtain ⟨o, ho⟩ := this
    exact ⟨i, _, by simp only [Conn.step, ho, hl]; rfl, rfl⟩
  | nil =>
    right
    rw [hb, List.append_nil] at hi
    have hfl : inflight s t ≠ [] := by
      intro e; rw [e, List.append_nil] at hi; exact hne hi
    have : ∃ i last, s.phase = .sending t i last := by
      unfold inflight at hfl
      split at hfl
      · rename_i t' i l e
        split at hfl
        · rename_i e'; subst e'; exact ⟨i, l, e⟩
        · exact absurd rfl hfl
      · exact absurd rfl hfl
    obtain ⟨i, last, hp⟩ := this
    have hd : .died ∉ s.log := by
      intro hm; have := (died_dead h hm).1; rw [hp] at this; cases this
    obtain ⟨hlv, _⟩ := alive_live h hd
    obtain ⟨buf, hbuf⟩ := sending_slot hlv hp
    have hbe : buf = [] := by rw [hbuf] at hb; exact hb
    subst hbe
    have hst : ∃ s', s.step (.deliver 2) = some s' ∧ s'.listening t = true ∧ ∃ o, s'.slots t = some (.streaming [i] o) := by
      simp only [Conn.step, hp, deliver, hl, if_true, hbuf, List.length_nil, List.nil_append]
      rw [if_pos (by decide)]
      refine ⟨_, rfl, ?_⟩
      cases last with
      | false => exact ⟨hl, true, by simp [upd]⟩
      | true =>
        rw [if_pos rfl]
        unfold dispatchNext
        split
        · exact ⟨hl, false, by simp [upd, closeSlot]⟩
        · rename_i t' x ps hpd
          have ne : t ≠ t' := by
            intro e
            have := hlv.waits t' (.inr (.inl (by dsimp only at hpd; rw [hpd]; simp)))
            rw [← e, hbuf] at this; cases this
          refine ⟨hl, false, ?_⟩
          simp [dispatch, Conn.note, upd, ne, closeSlot]
    obtain ⟨s', g1, g2, o, g3⟩ := hst
    exact ⟨s', i, _, g1, by simp only [Conn.step, g3, g2]; rfl, rfl⟩

/-! ## C31 -/

/-- The items of a query are its blocks, then at most one error, which comes last, with the end of the
query. -/
theorem C31_last {s : Conn} (h : Reachable s) (t : Ticket) :
    ∃ (bs : List Block) (tail : List Item), itemsOf t s.log = bs.map Item.block ++ tail ∧
      (tail = [] ∨ t ∈ (view s.log).done ∧ ∃ e, tail = [.error e]) := (weak h).shape t

/-- An exception is one more item for the query executing, which it ends, and changes nothing for any
other query. -/
theorem C31_own_query {s : Conn} (h : Reachable s) {t : Ticket} (hc : (view s.log).cur = some t) {k : Nat} {x : ServerException} {s' : Conn}
    (hs : s.step (.packet k (.exception x)) = some s') :
    itemsOf t s'.log = itemsOf t s.log ++ [.error x.emit] ∧ t ∈ (view s'.log).done ∧
    (∀ t', t' ≠ t → itemsOf t' s'.log = itemsOf t' s.log ∧ s'.slots t' = s.slots t' ∧ s'.listening t' = s.listening t') ∧
    .died ∉ s'.log := by
  have hi : s.phase = .idle := by
    simp only [Conn.step] at hs
    split at hs
    · assumption
    · cases hs
  have hd : .died ∉ s.log := by
    intro hm; have := (died_dead h hm).1; rw [hi] at this; cases this
  obtain ⟨hl, _⟩ := alive_live h hd
  have he : s.executing = some t := by rw [← hl.cur]; exact hc
  have hexg : (s.note (.got (.exception x))).executing = some t := he
  simp only [Conn.step, hi, receivePacket, hexg] at hs
  cases hs
  have hv : (view s.log).next (.got (.exception x)) =
      { view s.log with items := (view s.log).items ++ [(t, .error x.emit)], done := (view s.log).done ++ [t], cur := none } := by
    simp only [View.next, hc]
  refine ⟨?_, ?_, ?_, ?_⟩
  · show itemsOf t (s.log ++ [.got (.exception x)]) = _
    rw [itemsOf_eq, itemsOf_eq, view_snoc, hv]
    exact pick_self_snoc _ _ _
  · show t ∈ (view (s.log ++ [.got (.exception x)])).done
    rw [view_snoc, hv]; simp
  · intro t' hne
    refine ⟨?_, rfl, rfl⟩
    show itemsOf t' (s.log ++ [.got (.exception x)]) = _
    rw [itemsOf_eq, itemsOf_eq, view_snoc, hv]
    dsimp only
    rw [pick_snoc, if_neg (fun e => hne e.symm), List.append_nil]
  · show .died ∉ s.log ++ [.got (.exception x)]
    simp [hd]

/-! ## C32 -/

/-- What is broadcast is exactly the progress the server reported while a query executed, attributed to
that query, in order. -/
theorem C32_progress {s : Conn} (h : Reachable s) : broadcastOf s.log = (view s.log).progress := (weak h).progress

/-! ## C33 -/

/-- Every block an insert sends is sent after that insert's query was sent. -/
theorem C33_after_own_query {s : Conn} (h : Reachable s) {l1 l2 : List Obs} {d o : Ticket} {b : Block}
    (hl : s.log = l1 ++ .sentData d o b :: l2) : (view l1).cur = some o ∨ o ∈ (view l1).done :=
  ((weak h).rule l1 _ l2 hl).1

/-- If the server has not ended the insert yet, the block is sent before any other query: the insert is
still the query being executed. -/
theorem C33_inside_partial {s : Conn} (h : Reachable s) {l1 l2 : List Obs} {d o : Ticket} {b : Block}
    (hl : s.log = l1 ++ .sentData d o b :: l2) (hd : o ∉ (view l1).done) : (view l1).cur = some o :=
  ((weak h).rule l1 _ l2 hl).1.resolve_right hd

/-- Blocks are sent in the order they were submitted, each at most once, unchanged; an acknowledged
block has been sent. -/
theorem C33_blocks_in_order {s : Conn} (h : Reachable s) : blocksSent s.log <+: blocksSubmitted s.log ∧
    ∀ d, s.acks d = some .acked → d ∈ (blocksSent s.log).map Prod.fst := by
  rcases h.inv2 with h | h
  · exact ⟨by rw [← h.blocks]; simp, h.acked⟩
  · exact ⟨h.blocks, h.acked⟩

/-! ## C34 -/

/-- An illegal packet ends the connection task: nothing else happens with it. -/
theorem C34_violation {s : Conn} (h : Reachable s) (hi : s.phase = .idle) {p : ServerPacket} (hp : Illegal s.log p) (k : Nat) :
    ∃ s', s.step (.packet k p) = some s' ∧ s'.log = s.log ++ [.got p, .died] := by
  have hd : .died ∉ s.log := by
    intro hm; have := (died_dead h hm).1; rw [hi] at this; cases this
  obtain ⟨hl, _⟩ := alive_live h hd
  have hcur := hl.cur
  have hk : receivePacket k p (s.note (.got p)) = (s.note (.got p)).kill := by
    cases p with
    | hello _ => rfl
    | data n b =>
      simp only [Illegal] at hp
      have : (s.note (.got (.data n b))).executing = none := by rw [← hp, hcur]; rfl
      simp only [receivePacket, this]
    | exception x =>
      simp only [Illegal] at hp
      have : (s.note (.got (.exception x))).executing = none := by rw [← hp, hcur]; rfl
      simp only [receivePacket, this]
    | endOfStream =>
      simp only [Illegal] at hp
      have : (s.note (.got .endOfStream)).executing = none := by rw [← hp, hcur]; rfl
      simp only [receivePacket, this]
    | _ => exact absurd hp (by simp [Illegal])
  refine ⟨(s.note (.got p)).kill, by simp only [Conn.step, hi, hk], ?_⟩
  rw [kill_log]
  simp [Conn.note]

/-- A legal packet does not end it, as long as the transport accepts what is sent. -/
theorem C34_legal {s : Conn} (h : Reachable s) {p : ServerPacket} (hp : ¬ Illegal s.log p) {k : Nat} (hk : 2 ≤ k) {s' : Conn}
    (hs : s.step (.packet k p) = some s') : .died ∉ s'.log := by
  have hi : s.phase = .idle := by
    simp only [Conn.step] at hs
    split at hs
    · assumption
    · cases hs
  have hd : .died ∉ s.log := by
    intro hm; have := (died_dead h hm).1; rw [hi] at this; cases this
  obtain ⟨hl, _⟩ := alive_live h hd
  have hcur := hl.cur
  obtain ⟨k, rfl⟩ : ∃ m, k = m + 2 := ⟨k - 2, by omega⟩
  simp only [Conn.step, hi] at hs
  cases hs
  have hnd : .died ∉ (s.note (.got p)).log := by simp [Conn.note, hd]
  have some_of : (view s.log).cur ≠ none → ∃ t, (s.note (.got p)).executing = some t := by
    intro hne
    rw [hcur] at hne
    exact Option.ne_none_iff_exists'.mp hne
  cases p with
  | hello _ => exact absurd trivial hp
  | data n b =>
    obtain ⟨t, ht⟩ := some_of hp
    simp only [receivePacket, ht]
    exact hnd
  | exception x =>
    obtain ⟨t, ht⟩ := some_of hp
    simp only [receivePacket, ht]
    exact hnd
  | endOfStream =>
    obtain ⟨t, ht⟩ := some_of hp
    simp only [receivePacket, ht]
    have hlog2 : (dropExecuting (s.note (.got .endOfStream))).log = (s.note (.got .endOfStream)).log := by
      unfold dropExecuting; rw [ht]
    unfold dispatchNext
    split
    · rw [hlog2]; exact hnd
    · rw [dispatch_log]
      simp only [List.mem_append, hlog2]
      intro hm
      rcases hm with hm | hm
      · exact hnd hm
      · simp at hm
  | progress pr =>
    simp only [receivePacket]
    split
    · simpa [Conn.note] using hd
    · exact hnd
  | _ => exact hnd

/-- After the end of the task nothing is sent, received or accepted any more: all that can happen is
that callers read what is already in their channels. -/
theorem C34_nothing_after {s : Conn} (h : Reachable s) (hd : .died ∈ s.log) {es : List Event} {s' : Conn} (hs : s.run es = some s') :
    ∃ l, s'.log = s.log ++ l ∧ ∀ o ∈ l, ∃ t i, o = .read t i := by
  have hp := (died_dead h hd).1
  clear hd h
  induction es generalizing s with
  | nil => cases hs; exact ⟨[], by simp, by simp⟩
  | cons e es ih =>
    simp only [Conn.run] at hs
    cases h1 : s.step e with
    | none => rw [h1] at hs; cases hs
    | some s1 =>
      rw [h1] at hs
      have : s1.phase = .dead ∧ ∃ l, s1.log = s.log ++ l ∧ ∀ o ∈ l, ∃ t i, o = .read t i := by
        cases e with
        | recv t =>
          simp only [Conn.step] at h1
          split at h1
          · rename_i i _ _ _ _
            cases h1
            exact ⟨hp, [.read t i], rfl, by simp⟩
          · cases h1
        | drop t =>
          simp only [Conn.step] at h1
          split at h1
          · cases h1; exact ⟨hp, [], by simp, by simp⟩
          · cases h1
        | submit t x => simp [Conn.step, hp] at h1
        | submitData d o b => simp [Conn.step, hp] at h1
        | handle k => simp [Conn.step, hp] at h1
        | packet k p => simp [Conn.step, hp] at h1
        | deliver k => simp [Conn.step, hp] at h1
        | fail => simp [Conn.step, hp] at h1
        | close => simp [Conn.step, hp] at h1
      obtain ⟨g1, l1, g2, g3⟩ := this
      obtain ⟨l2, g4, g5⟩ := ih hs g1
      exact ⟨l1 ++ l2, by rw [g4, g2]; simp, by
        intro o ho
        rcases List.mem_append.mp ho with a | a
        · exact g3 o a
        · exact g5 o a⟩

/-- After the end of the task nobody waits: every caller's request has failed, or its stream ends after
the items already in it, and no block awaits an acknowledgement. -/
theorem C34_nobody_waits {s : Conn} (h : Reachable s) (hd : .died ∈ s.log) :
    (∀ t ∈ submittedOf s.log, s.slots t = some .failed ∨ ∃ buf, s.slots t = some (.streaming buf false)) ∧
    (∀ d, s.acks d ≠ some .waiting) := by
  obtain ⟨h1, h2, h3, h4, h5⟩ := died_dead h hd
  constructor
  · intro t ht
    rw [h2.known] at ht
    cases hs : s.slots t with
    | none => exact absurd hs ht
    | some x =>
      cases x with
      | waiting =>
        have := h2.waiting t hs
        rw [h3, h4] at this
        simp at this
      | failed => exact .inl rfl
      | streaming buf o =>
        cases o with
        | false => exact .inr ⟨buf, rfl⟩
        | true =>
          rcases h2.sender t buf hs with a | ⟨i, a⟩
          · rw [h5] at a; cases a
          · rw [h1] at a; cases a
  · intro d hda
    obtain ⟨o, ho⟩ := h2.acks d hda
    rw [h3] at ho
    simp at ho

/-- The task ends exactly when the server breaks the protocol, the transport fails (reading, or at one of
the writes) or all handles are gone. -/
theorem C34_only_then {s : Conn} (h : Reachable s) (hd : .died ∉ s.log) {e : Event} {s' : Conn} (hs : s.step e = some s')
    (hd' : .died ∈ s'.log) :
    (∃ k p, e = .packet k p ∧ (Illegal s.log p ∨ k < 2)) ∨ (∃ k, (e = .handle k ∨ e = .deliver k) ∧ k < 2) ∨ e = .fail ∨ e = .close := by
  have nd : ∀ (l : List Obs), s'.log = s.log ++ l → .died ∉ l → False := by
    intro l hl hn
    rw [hl, List.mem_append] at hd'
    exact hd'.elim hd hn
  cases e with
  | packet k p =>
    left
    refine ⟨k, p, rfl, ?_⟩
    apply Classical.byContradiction
    intro hc
    simp only [not_or, Nat.not_lt] at hc
    exact C34_legal h hc.1 hc.2 hs hd'
  | handle k =>
    right; left
    refine ⟨k, .inl rfl, ?_⟩
    apply Classical.byContradiction
    intro hc
    obtain ⟨k, rfl⟩ : ∃ m, k = m + 2 := ⟨k - 2, by omega⟩
    simp only [Conn.step] at hs
    split at hs
    · rename_i r rest _ _
      cases hs
      unfold handleRequest at hd'
      split at hd'
      · split at hd'
        · rw [dispatch_log] at hd'; simp [hd] at hd'
        · exact hd hd'
      · simp [Conn.note, hd] at hd'
    · cases hs
  | deliver k =>
    right; left
    refine ⟨k, .inr rfl, ?_⟩
    apply Classical.byContradiction
    intro hc
    obtain ⟨k, rfl⟩ : ∃ m, k = m + 2 := ⟨k - 2, by omega⟩
    have fin : ∀ s1 : Conn, s1.log = s.log → .died ∈ (dispatchNext (k + 2) s1).log → False := by
      intro s1 e1
      show Obs.died ∉ _
      unfold dispatchNext
      split
      · rw [e1]; exact hd
      · rw [dispatch_log]; simp [e1, hd]
    simp only [Conn.step] at hs
    split at hs
    · unfold deliver at hs
      dsimp only at hs
      split at hs
      · split at hs
        · split at hs
          · cases hs
            split at hd'
            · refine fin _ ?_ hd'; rfl
            · exact hd hd'
          · cases hs
        · cases hs
      · cases hs
        split at hd'
        · refine fin _ ?_ hd'; rfl
        · exact hd hd'
    · cases hs
  | fail => exact .inr (.inr (.inl rfl))
  | close => exact .inr (.inr (.inr rfl))
  | submit t x =>
    exfalso
    simp only [Conn.step] at hs
    split at hs
    · cases hs
    · cases hs
    · split at hs
      · cases hs; simp [Conn.note, hd] at hd'
      · cases hs
  | submitData d o b =>
    exfalso
    simp only [Conn.step] at hs
    split at hs
    · cases hs
    · split at hs
      · cases hs; simp [Conn.note, hd] at hd'
      · cases hs
    · cases hs
  | recv t =>
    exfalso
    simp only [Conn.step] at hs
    split at hs
    · cases hs; simp [Conn.note, hd] at hd'
    · cases hs
  | drop t =>
    exfalso
    simp only [Conn.step] at hs
    split at hs
    · cases hs; exact hd hd'
    · cases hs

/-! ## histories -/

/-- A block with no rows. -/
def exB (n : Nat) : Block := ⟨⟨false, 0⟩, n, [], []⟩
/-- An exception. -/
def exX : ServerException := ⟨60#32, [], [], [], false⟩
/-- A progress report. -/
def exP : Progress := ⟨1, 2, 3, none, none⟩

/-- Two queries; the first answered with two blocks and an end of stream, the second with a block and an
exception, with progress in both, and a third query queued behind. -/
def exRun : List Event :=
  [.submit 1 ['A'], .submit 2 ['B'], .handle 2, .handle 2, .submit 3 ['C'], .packet 2 (.data [] (exB 1)), .deliver 2, .handle 2,
   .packet 2 (.progress exP), .recv 1, .packet 2 (.data [] (exB 2)), .deliver 2, .packet 2 .endOfStream, .recv 1,
   .packet 2 (.progress exP), .packet 2 (.data [] (exB 3)), .deliver 2, .packet 2 (.exception exX), .deliver 2, .recv 2, .recv 2]

theorem exRun_ok : ∃ s, Conn.init.run exRun = some s ∧
    sentOf s.log = [1, 2, 3] ∧ submittedOf s.log = [1, 2, 3] ∧
    readsOf 1 s.log = [.block (exB 1), .block (exB 2)] ∧ readsOf 2 s.log = [.block (exB 3), .error exX.emit] ∧
    broadcastOf s.log = [(1, exP), (2, exP)] ∧ (view s.log).done = [1, 2] ∧ (view s.log).cur = some 3 ∧
    s.slots 1 = some (.streaming [] false) ∧ s.slots 2 = some (.streaming [] false) := by
  refine ⟨_, rfl, rfl, rfl, rfl, rfl, rfl, rfl, rfl, rfl, rfl⟩

example : ∃ s, Reachable s ∧ queriesSent s.log <+: queriesSubmitted s.log ∧ queriesSent s.log = [(1, ['A']), (2, ['B']), (3, ['C'])] := by
  exact ⟨_, ⟨exRun, rfl⟩, C29_order ⟨exRun, rfl⟩, rfl⟩
example : ∃ s, Reachable s ∧ s.listening 1 = true ∧ s.slots 1 = some (.streaming [] false) ∧ readsOf 1 s.log = itemsOf 1 s.log := by
  refine ⟨_, ⟨exRun, rfl⟩, rfl, rfl, (C30_end_of_stream ⟨exRun, rfl⟩ rfl rfl).1⟩

/-- An exception ends insert 1 while its block 1 is still in the request channel; query 2 is sent, then
block 1, inside query 2. -/
def exMisplaced : List Event :=
  [.submit 1 ['A'], .handle 2, .submit 2 ['B'], .handle 2, .packet 2 (.data [] (exB 0)), .deliver 2, .recv 1,
   .submitData 1 1 (exB 7), .packet 2 (.exception exX), .deliver 2, .handle 2]

/-- C33 as stated is false: a block of insert 1 is sent while another query executes. -/
theorem C33_inside_false : ∃ s, Reachable s ∧ ∃ l1 l2 d o b, s.log = l1 ++ .sentData d o b :: l2 ∧
    ∃ t, (view l1).cur = some t ∧ t ≠ o := by
  refine ⟨_, ⟨exMisplaced, rfl⟩, ?_⟩
  exact ⟨[.submitted 1 ['A'], .sentQuery 1 ['A'], .sentEmpty 1, .submitted 2 ['B'], .got (.data [] (exB 0)), .read 1 (.block (exB 0)),
    .dataSubmitted 1 1 (exB 7), .got (.exception exX), .sentQuery 2 ['B'], .sentEmpty 2], [], 1, 1, exB 7, rfl, 2, rfl, by decide⟩

example : ∃ s, Reachable s ∧ ∃ l1, s.log = l1 ++ [.sentData 1 1 (exB 7)] ∧ (1 : Ticket) ∉ (view l1).done := by
  refine ⟨_, ⟨[.submit 1 ['A'], .handle 2, .packet 2 (.data [] (exB 0)), .deliver 2, .recv 1, .submitData 1 1 (exB 7), .handle 1], rfl⟩, ?_⟩
  exact ⟨[.submitted 1 ['A'], .sentQuery 1 ['A'], .sentEmpty 1, .got (.data [] (exB 0)), .read 1 (.block (exB 0)), .dataSubmitted 1 1 (exB 7)],
    rfl, by simp [view, View.next]⟩

example : ∃ s, Reachable s ∧ s.phase = .idle ∧ Illegal s.log (.endOfStream) ∧ s.slots 1 = some .waiting := by
  exact ⟨_, ⟨[.submit 1 ['A']], rfl⟩, rfl, rfl, rfl⟩

/-! Further histories meeting the hypotheses of the theorems above. -/

/-- Whether the log says the task ended. -/
def saysDied : Obs → Bool
  | .died => true
  | _ => false

theorem not_died {l : List Obs} (h : l.any saysDied = false) : .died ∉ l := by
  intro hm
  have : l.any saysDied = true := List.any_eq_true.mpr ⟨_, hm, rfl⟩
  rw [h] at this
  cases this

theorem has_died {l : List Obs} (h : l.any saysDied = true) : .died ∈ l := by
  obtain ⟨o, h1, h2⟩ := List.any_eq_true.mp h
  cases o <;> first | exact h1 | cases h2

/-- C29_advances: the first query is answered, the second waits in the request channel. -/
example : ∃ s, Reachable s ∧ .died ∉ s.log ∧ (view s.log).cur = none ∧ sentOf s.log ++ 2 :: [] = submittedOf s.log ∧ sentOf s.log = [1] :=
  ⟨_, ⟨[.submit 1 ['A'], .handle 2, .submit 2 ['B'], .packet 2 .endOfStream], rfl⟩, not_died rfl, rfl, rfl, rfl⟩

/-- C31_next_sent, C31_own_query: an exception for the executing query while two more wait. -/
example : ∃ s s', Reachable s ∧ s.phase = .idle ∧ (view s.log).cur = some 1 ∧ sentOf s.log ++ 2 :: [3] = submittedOf s.log ∧
    Terminator (.exception exX) ∧ s.step (.packet 2 (.exception exX)) = some s' ∧ s.slots 2 = some .waiting :=
  ⟨_, _, ⟨[.submit 1 ['A'], .handle 2, .submit 2 ['B'], .submit 3 ['C'], .handle 2, .handle 2], rfl⟩, rfl, rfl, rfl, trivial, rfl, rfl⟩

/-- C30_nothing_lost, C30_can_read: two blocks have been received, one is in the channel, the other is being sent. -/
example : ∃ s, Reachable s ∧ s.listening 1 = true ∧ bufOf (s.slots 1) = [.block (exB 1)] ∧ inflight s 1 = [.block (exB 2)] ∧
    readsOf 1 s.log = [] ∧ itemsOf 1 s.log = [.block (exB 1), .block (exB 2)] :=
  ⟨_, ⟨[.submit 1 ['A'], .handle 2, .packet 2 (.data [] (exB 1)), .deliver 2, .packet 2 (.data [] (exB 2))], rfl⟩, rfl, rfl, rfl, rfl, rfl⟩

/-- C34_legal: a block for the executing query. -/
example : ∃ s s', Reachable s ∧ ¬ Illegal s.log (.data [] (exB 1)) ∧ s.step (.packet 2 (.data [] (exB 1))) = some s' :=
  ⟨_, _, ⟨[.submit 1 ['A'], .handle 2], rfl⟩, (by intro h; cases h), rfl⟩

/-- C34_nothing_after, C34_nobody_waits, C64_unsent_reported: the connection breaks down with one query half-read, one waiting and one in the
request channel; a reader still takes what it was sent. -/
example : ∃ s s', Reachable s ∧ .died ∈ s.log ∧ submittedOf s.log = [1, 2, 3] ∧ s.slots 1 = some (.streaming [.block (exB 1)] false) ∧
    s.slots 2 = some .failed ∧ s.slots 3 = some .failed ∧ s.run [.recv 1] = some s' :=
  ⟨_, _, ⟨[.submit 1 ['A'], .handle 2, .packet 2 (.data [] (exB 1)), .deliver 2, .submit 2 ['B'], .handle 2, .submit 3 ['C'], .fail], rfl⟩,
    has_died rfl, rfl, rfl, rfl, rfl, rfl⟩

/-- C34_only_then: the second write of a query fails. -/
example : ∃ s s', Reachable s ∧ .died ∉ s.log ∧ s.step (.handle 1) = some s' ∧ .died ∈ s'.log :=
  ⟨_, _, ⟨[.submit 1 ['A']], rfl⟩, not_died rfl, rfl, has_died rfl⟩

/-- C33_after_own_query, C33_blocks_in_order: a block sent and acknowledged. -/
example : ∃ s, Reachable s ∧ blocksSent s.log = [(1, 1, exB 7)] ∧ s.acks 1 = some .acked :=
  ⟨_, ⟨[.submit 1 ['A'], .handle 2, .packet 2 (.data [] (exB 0)), .deliver 2, .recv 1, .submitData 1 1 (exB 7), .handle 1], rfl⟩, rfl, rfl⟩

/-- C65_leaving_frees_partial: a send waits for a caller that has left. -/
example : ∃ s, Reachable s ∧ s.phase = .sending 1 (.block (exB 1)) false ∧ s.listening 1 = false :=
  ⟨_, ⟨[.submit 1 ['A'], .handle 2, .packet 2 (.data [] (exB 1)), .drop 1], rfl⟩, rfl, rfl⟩

/-! ## C64: loss of the connection is reported -/

/-- False of the code: a caller in the middle of its stream sees a normal end of stream when the
connection is lost: its stream ends, no item is an error, and yet its query was never answered to the end. -/
theorem C64_loss_reported_false : ∃ s, Reachable s ∧ ∃ t, s.listening t = true ∧ s.slots t = some (.streaming [] false) ∧
    (∀ i ∈ readsOf t s.log, ∃ b, i = .block b) ∧ t ∉ (view s.log).done := by
  refine ⟨_, ⟨[.submit 1 ['A'], .handle 2, .packet 2 (.data [] (exB 1)), .deliver 2, .recv 1, .fail], rfl⟩, 1, rfl, rfl, ?_, ?_⟩
  · intro i hi
    have : i = .block (exB 1) := by simpa [readsOf, Conn.kill, dropExecuting, Conn.note, receivePacket, handleRequest, dispatch, Conn.init] using hi
    exact ⟨_, this⟩
  · have : (view ([.submitted 1 ['A'], .sentQuery 1 ['A'], .sentEmpty 1, .got (.data [] (exB 1)), .read 1 (.block (exB 1)), .died])).done = [] := rfl
    exact fun h => by
      have h' : (1 : Ticket) ∈ (view ([.submitted 1 ['A'], .sentQuery 1 ['A'], .sentEmpty 1, .got (.data [] (exB 1)), .read 1 (.block (exB 1)), .died])).done := h
      rw [this] at h'; cases h'

/-- What does hold: a caller whose query has not been sent when the connection is lost gets an error,
and every block not acknowledged is reported as an error. -/
theorem C64_unsent_reported_partial {s : Conn} (h : Reachable s) (hd : .died ∈ s.log) :
    (∀ t ∈ submittedOf s.log, t ∉ sentOf s.log → s.slots t = some .failed) ∧
    (∀ d, s.acks d = none ∨ s.acks d = some .acked ∨ s.acks d = some .failed) := by
  obtain ⟨h1, h2⟩ := C34_nobody_waits h hd
  constructor
  · intro t ht hn
    rcases h1 t ht with a | ⟨b, a⟩
    · exact a
    · exact absurd (((weak h).stream t).mpr ⟨_, _, a⟩) hn
  · intro d
    cases e : s.acks d with
    | none => exact .inl rfl
    | some a =>
      cases a with
      | waiting => exact absurd e (h2 d)
      | acked => exact .inr (.inl rfl)
      | failed => exact .inr (.inr rfl)

/-- A connection that has ended stays so. -/
theorem dead_stays : ∀ (es : List Event) {s s' : Conn}, s.phase = .dead → s.run es = some s' → s'.phase = .dead := by
  intro es
  induction es with
  | nil => intro s s' hp hr; cases hr; exact hp
  | cons e es ih =>
    intro s s' hp hr
    simp only [Conn.run] at hr
    cases h1 : s.step e with
    | none => rw [h1] at hr; cases hr
    | some s1 =>
      rw [h1] at hr
      refine ih (s := s1) ?_ hr
      cases e <;> simp only [Conn.step, hp] at h1 <;> (repeat' split at h1) <;> simp_all <;> (first | done | (subst h1; first | exact hp | rfl))

/-- What does hold: a caller can tell. If the connection still takes requests (`is_closed()` is false) at any time after a stream ended,
then its query had been answered to the end and everything received for it has been read. -/
theorem C64_open_means_complete_partial {s s' : Conn} {es : List Event} (h : Reachable s) {t : Ticket} (hl : s.listening t = true)
    (hb : s.slots t = some (.streaming [] false)) (hr : s.run es = some s') (ho : s'.phase ≠ .dead) :
    t ∈ (view s.log).done ∧ readsOf t s.log = itemsOf t s.log := by
  obtain ⟨h1, h2⟩ := C30_end_of_stream h hl hb
  refine ⟨h2.resolve_right fun hd => ?_, h1⟩
  exact ho (dead_stays es (died_dead h hd).1 hr)

/-- C64_open_means_complete_partial: the stream of query 1 has ended and another query is submitted afterwards. -/
example : ∃ s s', Reachable s ∧ s.listening 1 = true ∧ s.slots 1 = some (.streaming [] false) ∧ s.run [.submit 2 ['B']] = some s' ∧ s'.phase ≠ .dead :=
  ⟨_, _, ⟨[.submit 1 ['A'], .handle 2, .packet 2 (.data [] (exB 1)), .deliver 2, .recv 1, .packet 2 .endOfStream], rfl⟩, rfl, rfl, rfl, by intro h; cases h⟩

/-! ## C65: a caller that does not read does not hold up the others -/

/-- The task is stuck in front of a full channel. -/
structure Stuck (s : Conn) (t : Ticket) : Prop where
  phase : ∃ i last, s.phase = .sending t i last
  full : ∃ buf o, s.slots t = some (.streaming buf o) ∧ buf.length = responseCapacity
  listening : s.listening t = true

/-- As long as the caller of `t` neither reads nor leaves, a stuck task sends nothing and receives
nothing, whatever anybody else does. -/
theorem C65_stuck_task {s : Conn} {t : Ticket} (h : Stuck s t) {es : List Event} (he : ∀ e ∈ es, e ≠ .recv t ∧ e ≠ .drop t) {s' : Conn}
    (hs : s.run es = some s') :
    Stuck s' t ∧ ∃ l, s'.log = s.log ++ l ∧
      ∀ o ∈ l, (∃ t x, o = .submitted t x) ∨ (∃ d t b, o = .dataSubmitted d t b) ∨ (∃ t i, o = .read t i) := by
  induction es generalizing s with
  | nil => cases hs; exact ⟨h, [], by simp, by simp⟩
  | cons e es ih =>
    simp only [Conn.run] at hs
    cases h1 : s.step e with
    | none => rw [h1] at hs; cases hs
    | some s1 =>
      rw [h1] at hs
      obtain ⟨⟨i, last, hp⟩, ⟨buf, o, hb, hlen⟩, hl⟩ := h
      have key : Stuck s1 t ∧ ∃ l, s1.log = s.log ++ l ∧
          ∀ o ∈ l, (∃ t x, o = .submitted t x) ∨ (∃ d t b, o = .dataSubmitted d t b) ∨ (∃ t i, o = .read t i) := by
        have hne := he e (List.mem_cons_self ..)
        cases e with
        | submit t' x =>
          simp only [Conn.step, hp] at h1
          split at h1
          · cases h1
          · cases h1
          · rename_i hsl _
            split at h1
            · cases h1
              have ne : t ≠ t' := by
                intro e; subst e; rw [hb] at hsl; cases hsl
              exact ⟨⟨⟨i, last, hp⟩, ⟨buf, o, by simp [upd, ne, hb], hlen⟩, by simp [upd, ne, hl]⟩, _, rfl, by simp⟩
            · cases h1
        | submitData d o' b =>
          simp only [Conn.step, hp] at h1
          split at h1
          · cases h1
          · split at h1
            · cases h1; exact ⟨⟨⟨i, last, hp⟩, ⟨buf, o, hb, hlen⟩, hl⟩, _, rfl, by simp⟩
            · cases h1
          · cases h1
        | handle k => simp [Conn.step, hp] at h1
        | packet k p => simp [Conn.step, hp] at h1
        | deliver k =>
          simp only [Conn.step, hp, deliver, hl, if_true, hb] at h1
          rw [if_neg (by omega)] at h1
          cases h1
        | recv t' =>
          have ne : t ≠ t' := by intro e; subst e; exact hne.1 rfl
          simp only [Conn.step] at h1
          split at h1
          · rename_i i' _ _ _ _
            cases h1
            exact ⟨⟨⟨i, last, hp⟩, ⟨buf, o, by simp [upd, ne, hb], hlen⟩, hl⟩, [.read t' i'], rfl, by simp⟩
          · cases h1
        | drop t' =>
          have ne : t ≠ t' := by intro e; subst e; exact hne.2 rfl
          simp only [Conn.step] at h1
          split at h1
          · cases h1
            exact ⟨⟨⟨i, last, hp⟩, ⟨buf, o, hb, hlen⟩, by simp [upd, ne, hl]⟩, [], by simp, by simp⟩
          · cases h1
        | fail => simp [Conn.step, hp] at h1
        | close => simp [Conn.step, hp] at h1
      obtain ⟨g1, l1, g2, g3⟩ := key
      obtain ⟨g4, l2, g5, g6⟩ := ih g1 (fun e he' => he e (List.mem_cons_of_mem _ he')) hs
      refine ⟨g4, l1 ++ l2, by rw [g5, g2]; simp, ?_⟩
      intro o ho
      rcases List.mem_append.mp ho with a | a
      · exact g3 o a
      · exact g6 o a

/-- 32 blocks unread, a 33rd arriving, another caller's query queued behind. -/
def exStuck : List Event :=
  [.submit 1 ['A'], .handle 2, .submit 2 ['B'], .handle 2] ++
    (List.replicate 32 [Event.packet 2 (.data [] (exB 1)), .deliver 2]).flatten ++ [.packet 2 (.data [] (exB 1))]

/-- False of the code: there are reachable states in which another caller's query is never sent unless
the slow caller reads or leaves. -/
theorem C65_not_held_up_false : ∃ s, Reachable s ∧ 2 ∈ submittedOf s.log ∧ 2 ∉ sentOf s.log ∧ Stuck s 1 ∧
    ∀ es s', (∀ e ∈ es, e ≠ .recv 1 ∧ e ≠ .drop 1) → s.run es = some s' → sentOf s'.log = sentOf s.log := by
  have hs : ∃ s, Conn.init.run exStuck = some s ∧ submittedOf s.log = [1, 2] ∧ sentOf s.log = [1] ∧
      s.phase = .sending 1 (.block (exB 1)) false ∧ s.slots 1 = some (.streaming (List.replicate 32 (.block (exB 1))) true) ∧
      s.listening 1 = true := ⟨_, rfl, rfl, rfl, rfl, rfl, rfl⟩
  obtain ⟨s, h1, h2, h3, h4, h5, h6⟩ := hs
  have hst : Stuck s 1 := ⟨⟨_, _, h4⟩, ⟨_, _, h5, by simp [responseCapacity]⟩, h6⟩
  refine ⟨s, ⟨exStuck, h1⟩, by rw [h2]; simp, by rw [h3]; simp, hst, ?_⟩
  intro es s' he hr
  obtain ⟨_, l, hl, ho⟩ := C65_stuck_task hst he hr
  rw [hl]
  have : sentOf l = [] := by
    simp only [sentOf, List.filterMap_eq_nil_iff]
    intro o hm
    rcases ho o hm with ⟨t, x, rfl⟩ | ⟨d, t, b, rfl⟩ | ⟨t, i, rfl⟩ <;> rfl
  rw [show sentOf (s.log ++ l) = sentOf s.log ++ sentOf l by simp [sentOf], this, List.append_nil]

/-- What does hold: a caller that leaves frees the task, and so does one that keeps room in its channel. -/
theorem C65_leaving_frees_partial {s : Conn} (h : Reachable s) {t : Ticket} {i : Item} {last : Bool} (hp : s.phase = .sending t i last)
    (hc : s.listening t = false ∨ ∀ buf o, s.slots t = some (.streaming buf o) → buf.length < responseCapacity) :
    ∃ s', s.step (.deliver 2) = some s' ∧ s'.phase = .idle := by
  have hd : .died ∉ s.log := by
    intro hm; have := (died_dead h hm).1; rw [hp] at this; cases this
  obtain ⟨hl, _⟩ := alive_live h hd
  obtain ⟨buf, hb⟩ := sending_slot hl hp
  have idle : ∀ s1 : Conn, s1.phase = .idle → (dispatchNext 2 s1).phase = .idle := by
    intro s1 e
    unfold dispatchNext
    split
    · exact e
    · exact e
  simp only [Conn.step, hp, deliver]
  by_cases hls : s.listening t = true
  · have hlen := (hc.resolve_left (by rw [hls]; simp)) buf true hb
    rw [if_pos hls, hb]
    dsimp only
    rw [if_pos hlen]
    refine ⟨_, rfl, ?_⟩
    cases last with
    | true => exact idle _ rfl
    | false => rfl
  · rw [if_neg hls]
    refine ⟨_, rfl, ?_⟩
    cases last with
    | true => exact idle _ rfl
    | false => rfl

end Props
end Klick
