import Verif.Props.Client
/-
Property C101: what a client keeps waiting.
-/
namespace Klick.Props
open Klick Klick.Spec

/-- No channel holds more than it has room for. -/
structure WithinRoom (s : Conn) : Prop where
  queue : s.queue.length ≤ 1024
  buffers : ∀ t, (bufOf (s.slots t)).length ≤ 32

theorem WithinRoom.kill {s : Conn} (h : ∀ t, (bufOf (s.slots t)).length ≤ 32) : WithinRoom s.kill := by
  obtain ⟨_, k2, _, _, _, _, _, k8⟩ := kill_eq s
  refine ⟨by rw [k2]; exact Nat.zero_le _, ?_⟩
  intro t
  rw [k8]
  have e : bufOf ((if s.executing = some t then closeSlot else id)
      ((if t ∈ s.pending.map Prod.fst ∨ t ∈ qTickets s.queue then failSlot else id) (s.slots t))) = bufOf (s.slots t) := by
    split <;> split <;> simp
  rw [e]
  exact h t

/-- Changing one caller to something that holds no more than there is room for. -/
theorem room_upd {f : Ticket → Option Caller} (h : ∀ t, (bufOf (f t)).length ≤ 32) (t : Ticket) {x : Option Caller} (hx : (bufOf x).length ≤ 32) :
    ∀ t', (bufOf (upd f t x t')).length ≤ 32 := by
  intro t'
  unfold upd
  split
  · exact hx
  · exact h t'

theorem room_fail {f : Ticket → Option Caller} (h : ∀ t, (bufOf (f t)).length ≤ 32) (t : Ticket) :
    ∀ t', (bufOf (upd f t (failSlot (f t)) t')).length ≤ 32 := room_upd h t (by rw [bufOf_fail]; exact h t)

theorem room_close {f : Ticket → Option Caller} (h : ∀ t, (bufOf (f t)).length ≤ 32) (t : Ticket) :
    ∀ t', (bufOf (upd f t (closeSlot (f t)) t')).length ≤ 32 := room_upd h t (by rw [bufOf_close]; exact h t)

theorem WithinRoom.dispatch {s : Conn} (h : WithinRoom s) (k : Nat) (t : Ticket) (x : Str) : WithinRoom (dispatch k t x s) := by
  unfold Klick.dispatch
  split
  · exact WithinRoom.kill (room_fail h.buffers t)
  · dsimp only
    split
    · exact WithinRoom.kill (room_upd h.buffers t (Nat.zero_le _))
    · exact ⟨h.queue, room_upd h.buffers t (Nat.zero_le _)⟩

theorem WithinRoom.dispatchNext {s : Conn} (h : WithinRoom s) (k : Nat) : WithinRoom (dispatchNext k s) := by
  unfold Klick.dispatchNext
  split
  · exact h
  · refine WithinRoom.dispatch ?_ k _ _
    exact ⟨h.queue, h.buffers⟩

theorem WithinRoom.step {s : Conn} (h : WithinRoom s) {e : Event} {s' : Conn} (hs : s.step e = some s') : WithinRoom s' := by
  cases e with
  | submit t x =>
    unfold Conn.step at hs
    dsimp only at hs
    split at hs
    · cases hs
    · cases hs
    · split at hs
      · rename_i hc
        cases hs
        refine ⟨?_, room_upd h.buffers t (Nat.zero_le _)⟩
        show (s.queue ++ [_]).length ≤ 1024
        rw [List.length_append]
        exact hc
      · cases hs
  | submitData d o b =>
    unfold Conn.step at hs
    dsimp only at hs
    split at hs
    · cases hs
    · split at hs
      · rename_i hc
        cases hs
        refine ⟨?_, h.buffers⟩
        show (s.queue ++ [_]).length ≤ 1024
        rw [List.length_append]
        exact hc
      · cases hs
    · cases hs
  | handle k =>
    unfold Conn.step at hs
    dsimp only at hs
    split at hs
    · rename_i r rest _ hq
      cases hs
      have h' : WithinRoom { s with queue := rest } := ⟨by
        have := h.queue
        rw [hq, List.length_cons] at this
        show rest.length ≤ 1024
        omega, h.buffers⟩
      unfold handleRequest
      split
      · split
        · exact h'.dispatch k _ _
        · exact ⟨h'.queue, h'.buffers⟩
      · split
        · exact WithinRoom.kill h'.buffers
        · exact ⟨h'.queue, h'.buffers⟩
    · cases hs
  | packet k p =>
    unfold Conn.step at hs
    dsimp only at hs
    split at hs
    · cases hs
      have h' : WithinRoom (s.note (.got p)) := ⟨h.queue, h.buffers⟩
      generalize s.note (.got p) = s1 at h'
      cases p with
      | hello => exact WithinRoom.kill h'.buffers
      | data n b =>
        unfold receivePacket
        dsimp only
        split
        · exact ⟨h'.queue, h'.buffers⟩
        · exact WithinRoom.kill h'.buffers
      | exception x =>
        unfold receivePacket
        dsimp only
        split
        · exact ⟨h'.queue, h'.buffers⟩
        · exact WithinRoom.kill h'.buffers
      | progress x =>
        unfold receivePacket
        dsimp only
        split
        · exact ⟨h'.queue, h'.buffers⟩
        · exact h'
      | endOfStream =>
        unfold receivePacket
        dsimp only
        split
        · rename_i t ht
          apply WithinRoom.dispatchNext
          unfold dropExecuting
          rw [ht]
          exact ⟨h'.queue, room_close h'.buffers t⟩
        · exact WithinRoom.kill h'.buffers
      | _ => exact h'
    · cases hs
  | deliver k =>
    unfold Conn.step at hs
    dsimp only at hs
    split at hs
    · rename_i t i last _
      have go : ∀ s1 : Conn, WithinRoom s1 → WithinRoom (if last = true then
          Klick.dispatchNext k { s1 with phase := .idle, slots := upd s1.slots t (closeSlot (s1.slots t)) } else { s1 with phase := .idle }) := by
        intro s1 h1
        split
        · refine WithinRoom.dispatchNext ?_ k
          exact ⟨h1.queue, room_close h1.buffers t⟩
        · exact ⟨h1.queue, h1.buffers⟩
      unfold deliver at hs
      dsimp only at hs
      split at hs
      · split at hs
        · split at hs
          · rename_i buf o hsl hc
            cases hs
            refine go { s with slots := upd s.slots t (some (.streaming (buf ++ [i]) o)) } ⟨h.queue, room_upd h.buffers t ?_⟩
            show (buf ++ [i]).length ≤ 32
            rw [List.length_append]
            exact hc
          · cases hs
        · cases hs
      · cases hs
        exact go s h
    · cases hs
  | recv t =>
    unfold Conn.step at hs
    dsimp only at hs
    split at hs
    · rename_i i buf o hsl _
      cases hs
      refine ⟨h.queue, room_upd h.buffers t ?_⟩
      have := h.buffers t
      rw [hsl] at this
      exact Nat.le_of_succ_le this
    · cases hs
  | drop t =>
    unfold Conn.step at hs
    dsimp only at hs
    split at hs
    · cases hs; exact ⟨h.queue, h.buffers⟩
    · cases hs
  | fail =>
    unfold Conn.step at hs
    dsimp only at hs
    split at hs
    · cases hs; exact WithinRoom.kill h.buffers
    · cases hs
  | close =>
    unfold Conn.step at hs
    dsimp only at hs
    split at hs
    · cases hs; exact WithinRoom.kill h.buffers
    · cases hs

theorem WithinRoom.run {es : List Event} : ∀ {s s' : Conn}, WithinRoom s → s.run es = some s' → WithinRoom s' := by
  induction es with
  | nil => intro s s' h hr; cases hr; exact h
  | cons e es ih =>
    intro s s' h hr
    obtain ⟨s1, h1, h2⟩ := Option.bind_eq_some_iff.mp hr
    exact ih (h.step h1) h2

theorem withinRoom {s : Conn} (h : Reachable s) : WithinRoom s := by
  obtain ⟨es, hes⟩ := h
  exact WithinRoom.run ⟨Nat.zero_le _, fun _ => Nat.zero_le _⟩ hes

/-- C101, results: whatever the server sends and however slowly the caller of a query reads, of the items received for the query no more
than 33 (32 in its channel and one on its way) wait for the caller. -/
theorem C101_results {s : Conn} (h : Reachable s) {t : Ticket} (hl : s.listening t = true) :
    (itemsOf t s.log).length ≤ (readsOf t s.log).length + 33 := by
  rw [← (weak h).items t hl, List.length_append, List.length_append]
  have h1 := (withinRoom h).buffers t
  have h2 : (inflight s t).length ≤ 1 := by
    unfold inflight
    split
    · split
      · exact Nat.le_refl _
      · exact Nat.zero_le _
    · exact Nat.zero_le _
  omega

/-- C101, inserts: of the blocks handed over by inserts no more than 1024 wait to be written, as long as the connection lives. -/
theorem C101_blocks {s : Conn} (h : Reachable s) (hd : .died ∉ s.log) :
    (blocksSubmitted s.log).length ≤ (blocksSent s.log).length + 1024 := by
  rcases h.inv2 with h2 | h2
  · rw [← h2.blocks, List.length_append]
    have h1 := (withinRoom h).queue
    have : (qBlocks s.queue).length ≤ s.queue.length := List.length_filterMap_le _ _
    omega
  · exact absurd h2.dead (alive_live h hd).1.alive

/-- Both bounds are reached: 33 items received of which none is read … -/
theorem C101_results_reached : ∃ s, Reachable s ∧ s.listening 1 = true ∧ (itemsOf 1 s.log).length = 33 ∧ readsOf 1 s.log = [] := by
  have hs : ∃ s, Conn.init.run exStuck = some s ∧ s.listening 1 = true ∧ (itemsOf 1 s.log).length = 33 ∧ readsOf 1 s.log = [] :=
    ⟨_, rfl, rfl, rfl, rfl⟩
  obtain ⟨s, h1, h2⟩ := hs
  exact ⟨s, ⟨_, h1⟩, h2⟩

/-- A connection executing a query, on which `n` more things were handed over. -/
theorem handed (n : Nat) (hn : n ≤ 1024) : ∃ s, Reachable s ∧ s.phase = .idle ∧ .died ∉ s.log ∧ s.slots 0 = some (.streaming [] true) ∧
    s.queue.length = n ∧ (∀ d : Nat, n ≤ d → s.acks d = none) ∧ (blocksSubmitted s.log).length = (blocksSent s.log).length + n := by
  induction n with
  | zero =>
    have hs : ∃ s, Conn.init.run [.submit 0 [], .handle 2] = some s ∧ s.phase = .idle ∧ s.log = [.submitted 0 [], .sentQuery 0 [], .sentEmpty 0] ∧
        s.slots 0 = some (.streaming [] true) ∧ s.queue = [] ∧ s.acks = fun _ => none := ⟨_, rfl, rfl, rfl, rfl, rfl, rfl⟩
    obtain ⟨s, h1, h2, h3, h4, h5, h6⟩ := hs
    refine ⟨s, ⟨_, h1⟩, h2, ?_, h4, by rw [h5]; rfl, by rw [h6]; intro d _; rfl, by rw [h3]; rfl⟩
    rw [h3]; simp
  | succ n ih =>
    obtain ⟨s, h1, h2, h3, h4, h5, h6, h7⟩ := ih (by omega)
    have hstep : s.step (.submitData n 0 (exB 0)) =
        some { s.note (.dataSubmitted n 0 (exB 0)) with queue := s.queue ++ [.data n 0 (exB 0)], acks := upd s.acks n (some .waiting) } := by
      unfold Conn.step
      dsimp only
      rw [h2, h4, h6 n (Nat.le_refl _)]
      dsimp only
      rw [if_pos (by rw [h5]; exact hn)]
    refine ⟨_, h1.step hstep, h2, ?_, h4, ?_, ?_, ?_⟩
    · simp [Conn.note, h3]
    · simp [h5]
    · intro d hd
      show upd s.acks n _ d = none
      rw [upd_ne _ (show d ≠ n by omega)]
      exact h6 d (by omega)
    · simp only [Conn.note]
      rw [blocksSubmitted_append, blocksSent_append, List.length_append, List.length_append, h7]
      rfl

/-- … and 1024 blocks handed over of which none is written. -/
theorem C101_blocks_reached : ∃ s, Reachable s ∧ .died ∉ s.log ∧ (blocksSubmitted s.log).length = (blocksSent s.log).length + 1024 := by
  obtain ⟨s, h1, _, h3, _, _, _, h7⟩ := handed 1024 (Nat.le_refl _)
  exact ⟨s, h1, h3, h7⟩

/-- C101, what is not so: the queries handed over that wait to be sent are not bounded; the connection takes them all. -/
theorem C101_queries_false (n : Nat) : ∃ s, Reachable s ∧ .died ∉ s.log ∧ (sentOf s.log).length = 1 ∧ (submittedOf s.log).length = n + 1 := by
  have key : ∃ s, Reachable s ∧ s.phase = .idle ∧ .died ∉ s.log ∧ s.queue = [] ∧ s.executing = some 0 ∧ (∀ t : Nat, n < t → s.slots t = none) ∧
      (sentOf s.log).length = 1 ∧ (submittedOf s.log).length = n + 1 := by
    induction n with
    | zero =>
      have hs : ∃ s, Conn.init.run [.submit 0 [], .handle 2] = some s ∧ s.phase = .idle ∧ s.log = [.submitted 0 [], .sentQuery 0 [], .sentEmpty 0] ∧
          s.queue = [] ∧ s.executing = some 0 ∧ ∀ t : Nat, 0 < t → s.slots t = none := by
        refine ⟨_, rfl, rfl, rfl, rfl, rfl, ?_⟩
        intro t ht
        have : t ≠ 0 := Nat.pos_iff_ne_zero.mp ht
        show upd (upd _ _ _) _ _ t = none
        rw [upd_ne _ this, upd_ne _ this]
        rfl
      obtain ⟨s, h1, h2, h3, h4, h5, h6⟩ := hs
      refine ⟨s, ⟨_, h1⟩, h2, ?_, h4, h5, h6, by rw [h3]; rfl, by rw [h3]; rfl⟩
      rw [h3]; simp
    | succ n ih =>
      obtain ⟨s, h1, h2, h3, h4, h5, h6, h7, h8⟩ := ih
      have hstep : s.step (.submit (n + 1) []) = some { s.note (.submitted (n + 1) []) with
          queue := s.queue ++ [.query (n + 1) []], slots := upd s.slots (n + 1) (some .waiting), listening := upd s.listening (n + 1) true } := by
        unfold Conn.step
        dsimp only
        rw [h2, h6 (n + 1) (Nat.lt_succ_self _)]
        dsimp only
        rw [if_pos (by rw [h4]; decide)]
      have hstep2 := h1.step hstep
      have hs : ∃ s2, Conn.step { s.note (.submitted (n + 1) []) with
          queue := s.queue ++ [.query (n + 1) []], slots := upd s.slots (n + 1) (some .waiting), listening := upd s.listening (n + 1) true } (.handle 2) = some s2 ∧
          s2.phase = .idle ∧ s2.queue = [] ∧ s2.executing = some 0 ∧ s2.log = s.log ++ [.submitted (n + 1) []] ∧
          s2.slots = upd s.slots (n + 1) (some .waiting) := by
        unfold Conn.step
        dsimp only [Conn.note]
        rw [h2, h4]
        dsimp only [List.nil_append]
        unfold handleRequest
        dsimp only
        rw [h5, if_neg (by simp)]
        exact ⟨_, rfl, rfl, rfl, rfl, rfl, rfl⟩
      obtain ⟨s2, g1, g2, g3, g4, g5, g6⟩ := hs
      refine ⟨s2, hstep2.step g1, g2, ?_, g3, g4, ?_, ?_, ?_⟩
      · rw [g5]; simp [h3]
      · intro t ht
        rw [g6, upd_ne _ (show t ≠ n + 1 by omega)]
        exact h6 t (by omega)
      · rw [g5, sentOf_snoc, List.length_append, h7]; rfl
      · rw [g5, submittedOf_snoc, List.length_append, h8]; rfl
  obtain ⟨s, h1, _, h3, _, _, _, h7, h8⟩ := key
  exact ⟨s, h1, h3, h7, h8⟩

end Klick.Props
