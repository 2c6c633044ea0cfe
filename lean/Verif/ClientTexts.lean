import Verif.ClientInv
/-
A second invariant: what is sent is what was submitted, blocks keep their order, an acknowledgement
means the block was written, and what a caller has read is always the beginning of what belongs to it.
-/
namespace Klick
open Spec

theorem blocksSubmitted_append (a b : List Obs) : blocksSubmitted (a ++ b) = blocksSubmitted a ++ blocksSubmitted b := by
  simp [blocksSubmitted]
theorem blocksSent_append (a b : List Obs) : blocksSent (a ++ b) = blocksSent a ++ blocksSent b := by simp [blocksSent]
theorem queriesSubmitted_append (a b : List Obs) : queriesSubmitted (a ++ b) = queriesSubmitted a ++ queriesSubmitted b := by
  simp [queriesSubmitted]
theorem queriesSent_append (a b : List Obs) : queriesSent (a ++ b) = queriesSent a ++ queriesSent b := by simp [queriesSent]

/-- Blocks waiting in the request channel. -/
def qBlocks (q : List Req) : List (Ticket × Ticket × Block) := q.filterMap fun | .data d o b => some (d, o, b) | _ => none
/-- Queries waiting in the request channel. -/
def qQueries (q : List Req) : List (Ticket × Str) := q.filterMap fun | .query t x => some (t, x) | _ => none

theorem qBlocks_append (a b : List Req) : qBlocks (a ++ b) = qBlocks a ++ qBlocks b := by simp [qBlocks]
theorem qQueries_append (a b : List Req) : qQueries (a ++ b) = qQueries a ++ qQueries b := by simp [qQueries]

/-- The second invariant, while the task runs. `held`: the query in the hands of the running function. -/
structure Texts (held : List (Ticket × Str)) (s : Conn) : Prop where
  blocks : blocksSent s.log ++ qBlocks s.queue = blocksSubmitted s.log
  queries : queriesSent s.log ++ held ++ s.pending ++ qQueries s.queue = queriesSubmitted s.log
  acked : ∀ d, s.acks d = some .acked → d ∈ (blocksSent s.log).map Prod.fst

/-- The second invariant after the end of the task. -/
structure Gone (s : Conn) : Prop where
  dead : s.phase = .dead
  blocks : blocksSent s.log <+: blocksSubmitted s.log
  queries : queriesSent s.log <+: queriesSubmitted s.log
  acked : ∀ d, s.acks d = some .acked → d ∈ (blocksSent s.log).map Prod.fst

/-- The second invariant. -/
def Inv2 (s : Conn) : Prop := Texts [] s ∨ Gone s

theorem Texts.kill {s : Conn} {held : List (Ticket × Str)} (h : Texts held s) : Inv2 s.kill := by
  obtain ⟨k1, k2, k3, k4, k5, k6, k7, k8⟩ := kill_eq s
  refine .inr ⟨k1, ?_, ?_, ?_⟩
  · rw [k6, blocksSent_append, blocksSubmitted_append, show blocksSent [Obs.died] = [] from rfl,
      show blocksSubmitted [Obs.died] = [] from rfl, ← h.blocks]
    simp
  · rw [k6, queriesSent_append, queriesSubmitted_append, show queriesSent [Obs.died] = [] from rfl,
      show queriesSubmitted [Obs.died] = [] from rfl, ← h.queries]
    simp
  · intro d hd
    rw [k7] at hd
    rw [k6, blocksSent_append, show blocksSent [Obs.died] = [] from rfl, List.append_nil]
    split at hd
    · cases hd
    · exact h.acked d hd

/-- An observation that is neither a submission nor something sent. -/
theorem Texts.note {s : Conn} {held : List (Ticket × Str)} (h : Texts held s) (o : Obs) (h1 : blocksSent [o] = []) (h2 : blocksSubmitted [o] = [])
    (h3 : queriesSent [o] = []) (h4 : queriesSubmitted [o] = []) : Texts held (s.note o) := by
  refine ⟨?_, ?_, ?_⟩
  · simpa [Conn.note, blocksSent_append, blocksSubmitted_append, h1, h2] using h.blocks
  · simpa [Conn.note, queriesSent_append, queriesSubmitted_append, h3, h4] using h.queries
  · intro d hd
    simpa [Conn.note, blocksSent_append, h1] using h.acked d hd

theorem Texts.dispatch {s : Conn} {t : Ticket} {text : Str} (h : Texts [(t, text)] s) (k : Nat) : Inv2 (dispatch k t text s) := by
  unfold Klick.dispatch
  cases k with
  | zero =>
    refine Texts.kill (held := [(t, text)]) ?_
    exact ⟨h.blocks, h.queries, h.acked⟩
  | succ k =>
    have h1 : Texts [] { s.note (.sentQuery t text) with slots := upd s.slots t (some (.streaming [] true)), executing := some t } := by
      refine ⟨?_, ?_, ?_⟩
      · simpa [Conn.note, blocksSent_append, blocksSubmitted_append, blocksSent, blocksSubmitted] using h.blocks
      · have := h.queries
        simp only [Conn.note, queriesSent_append, queriesSubmitted_append, show queriesSent [Obs.sentQuery t text] = [(t, text)] from rfl,
          show queriesSubmitted [Obs.sentQuery t text] = [] from rfl, List.append_nil]
        exact this
      · intro d hd
        simpa [Conn.note, blocksSent_append, blocksSent] using h.acked d hd
    cases k with
    | zero => exact h1.kill
    | succ k =>
      dsimp only
      exact .inl (h1.note _ rfl rfl rfl rfl)

theorem Texts.next {s : Conn} (h : Texts [] s) (k : Nat) : Inv2 (dispatchNext k s) := by
  unfold dispatchNext
  split
  · exact .inl h
  · rename_i t text ps e
    have hq := h.queries
    rw [e] at hq
    refine Texts.dispatch (s := { s with pending := ps }) ⟨h.blocks, ?_, h.acked⟩ k
    simpa using hq

theorem Texts.dropExecuting {s : Conn} (h : Texts [] s) : Texts [] (dropExecuting s) := by
  unfold Klick.dropExecuting
  split
  · exact ⟨h.blocks, h.queries, h.acked⟩
  · exact h

theorem Inv2.step {s : Conn} (h : Inv2 s) {e : Event} {s' : Conn} (hs : s.step e = some s') : Inv2 s' := by
  rcases h with h | h
  · cases e with
    | submit t text =>
      simp only [Conn.step] at hs
      split at hs
      · cases hs
      · cases hs
      · split at hs
        · cases hs
          refine .inl ⟨?_, ?_, ?_⟩
          · simpa [Conn.note, blocksSent_append, blocksSubmitted_append, blocksSent, blocksSubmitted, qBlocks] using h.blocks
          · simp only [Conn.note, queriesSent_append, queriesSubmitted_append, show queriesSent [Obs.submitted t text] = [] from rfl,
              show queriesSubmitted [Obs.submitted t text] = [(t, text)] from rfl, List.append_nil, qQueries_append,
              show qQueries [Req.query t text] = [(t, text)] from rfl, ← h.queries]
            simp
          · intro d hd
            simpa [Conn.note, blocksSent_append, blocksSent] using h.acked d hd
        · cases hs
    | submitData d o b =>
      simp only [Conn.step] at hs
      split at hs
      · cases hs
      · split at hs
        · cases hs
          refine .inl ⟨?_, ?_, ?_⟩
          · simp only [Conn.note, blocksSent_append, blocksSubmitted_append, show blocksSent [Obs.dataSubmitted d o b] = [] from rfl,
              show blocksSubmitted [Obs.dataSubmitted d o b] = [(d, o, b)] from rfl, List.append_nil, qBlocks_append,
              show qBlocks [Req.data d o b] = [(d, o, b)] from rfl, ← h.blocks]
            simp
          · simpa [Conn.note, queriesSent_append, queriesSubmitted_append, queriesSent, queriesSubmitted, qQueries] using h.queries
          · intro d' hd
            dsimp only [upd] at hd
            split at hd
            · cases hd
            · simpa [Conn.note, blocksSent_append, blocksSent] using h.acked d' hd
        · cases hs
      · cases hs
    | handle k =>
      simp only [Conn.step] at hs
      split at hs
      · rename_i r rest _ hq
        cases hs
        have hb := h.blocks
        have hqs := h.queries
        rw [hq] at hb hqs
        cases r with
        | query t text =>
          unfold handleRequest
          dsimp only
          split
          · rename_i hc
            simp only [Bool.and_eq_true, List.isEmpty_iff] at hc
            refine Texts.dispatch (s := { s with queue := rest }) ⟨?_, ?_, h.acked⟩ k
            · exact hb
            · rw [hc.1] at hqs ⊢
              simpa [qQueries] using hqs
          · refine .inl ⟨?_, ?_, h.acked⟩
            · exact hb
            · simpa [qQueries] using hqs
        | data d o b =>
          unfold handleRequest
          dsimp only
          cases k with
          | zero =>
            obtain ⟨k1, k2, k3, k4, k5, k6, k7, k8⟩ := kill_eq { s with queue := rest, acks := upd s.acks d (some .failed) }
            dsimp only at *
            refine .inr ⟨k1, ?_, ?_, ?_⟩
            · rw [k6, blocksSent_append, blocksSubmitted_append, ← hb]; simp [blocksSent, blocksSubmitted]
            · rw [k6, queriesSent_append, queriesSubmitted_append, ← hqs]; simp [queriesSent, queriesSubmitted]
            · intro d' hd
              rw [k7] at hd
              rw [k6, blocksSent_append, show blocksSent [Obs.died] = [] from rfl, List.append_nil]
              split at hd
              · cases hd
              · dsimp only [upd] at hd
                split at hd
                · cases hd
                · exact h.acked d' hd
          | succ k =>
            refine .inl ⟨?_, ?_, ?_⟩
            · simp only [Conn.note, blocksSent_append, blocksSubmitted_append, show blocksSent [Obs.sentData d o b] = [(d, o, b)] from rfl,
                show blocksSubmitted [Obs.sentData d o b] = [] from rfl, List.append_nil, ← hb]
              simp [qBlocks]
            · simpa [Conn.note, queriesSent_append, queriesSubmitted_append, queriesSent, queriesSubmitted, qQueries] using hqs
            · intro d' hd
              simp only [Conn.note, blocksSent_append, show blocksSent [Obs.sentData d o b] = [(d, o, b)] from rfl, List.map_append,
                List.mem_append, List.map_cons, List.map_nil, List.mem_singleton]
              dsimp only [upd] at hd
              split at hd
              · rename_i e; exact .inr e
              · exact .inl (h.acked d' hd)
      · cases hs
    | packet k p =>
      simp only [Conn.step] at hs
      split at hs
      · cases hs
        have hn := h.note (.got p) rfl rfl rfl rfl
        generalize s.note (.got p) = s1 at hn
        unfold receivePacket
        cases p with
        | hello _ => exact hn.kill
        | data n b =>
          dsimp only
          split
          · exact .inl ⟨hn.blocks, hn.queries, hn.acked⟩
          · exact hn.kill
        | exception x =>
          dsimp only
          split
          · exact .inl ⟨hn.blocks, hn.queries, hn.acked⟩
          · exact hn.kill
        | progress pr =>
          dsimp only
          split
          · exact .inl (hn.note _ rfl rfl rfl rfl)
          · exact .inl hn
        | endOfStream =>
          dsimp only
          split
          · exact hn.dropExecuting.next k
          · exact hn.kill
        | _ => exact .inl hn
      · cases hs
    | deliver k =>
      simp only [Conn.step] at hs
      split at hs
      · rename_i t i last _
        have go : ∀ s1 : Conn, s1.log = s.log → s1.queue = s.queue → s1.pending = s.pending → s1.acks = s.acks → Inv2 s1 := by
          intro s1 e1 e2 e3 e4
          exact .inl ⟨by rw [e1, e2]; exact h.blocks, by rw [e1, e2, e3]; exact h.queries, by rw [e1, e4]; exact h.acked⟩
        have go' : ∀ s1 : Conn, s1.log = s.log → s1.queue = s.queue → s1.pending = s.pending → s1.acks = s.acks → Inv2 (dispatchNext k s1) := by
          intro s1 e1 e2 e3 e4
          exact Texts.next ⟨by rw [e1, e2]; exact h.blocks, by rw [e1, e2, e3]; exact h.queries, by rw [e1, e4]; exact h.acked⟩ k
        unfold deliver at hs
        dsimp only at hs
        split at hs
        · split at hs
          · split at hs
            · cases hs
              split
              · exact go' _ rfl rfl rfl rfl
              · exact go _ rfl rfl rfl rfl
            · cases hs
          · cases hs
        · cases hs
          split
          · exact go' _ rfl rfl rfl rfl
          · exact go _ rfl rfl rfl rfl
      · cases hs
    | recv t =>
      simp only [Conn.step] at hs
      split at hs
      · cases hs
        have hn := h.note (.read t (by assumption)) rfl rfl rfl rfl
        exact .inl ⟨hn.blocks, hn.queries, hn.acked⟩
      · cases hs
    | drop t =>
      simp only [Conn.step] at hs
      split at hs
      · cases hs; exact .inl ⟨h.blocks, h.queries, h.acked⟩
      · cases hs
    | fail =>
      simp only [Conn.step] at hs
      split at hs
      · cases hs; exact h.kill
      · cases hs
    | close =>
      simp only [Conn.step] at hs
      split at hs
      · cases hs; exact h.kill
      · cases hs
  · have hd := h.dead
    cases e with
    | recv t =>
      simp only [Conn.step] at hs
      split at hs
      · rename_i i _ _ _ _
        cases hs
        refine .inr ⟨hd, ?_, ?_, ?_⟩
        · simpa [Conn.note, blocksSent_append, blocksSubmitted_append, blocksSent, blocksSubmitted] using h.blocks
        · simpa [Conn.note, queriesSent_append, queriesSubmitted_append, queriesSent, queriesSubmitted] using h.queries
        · intro d hd; simpa [Conn.note, blocksSent_append, blocksSent] using h.acked d hd
      · cases hs
    | drop t =>
      simp only [Conn.step] at hs
      split at hs
      · cases hs; exact .inr ⟨hd, h.blocks, h.queries, h.acked⟩
      · cases hs
    | submit t x => simp [Conn.step, hd] at hs
    | submitData d o b => simp [Conn.step, hd] at hs
    | handle k => simp [Conn.step, hd] at hs
    | packet k p => simp [Conn.step, hd] at hs
    | deliver k => simp [Conn.step, hd] at hs
    | fail => simp [Conn.step, hd] at hs
    | close => simp [Conn.step, hd] at hs

theorem init_inv2 : Inv2 Conn.init := .inl ⟨rfl, rfl, by intro d h; simp [Conn.init] at h⟩

theorem run_inv2 {es : List Event} : ∀ {s : Conn}, Inv2 s → ∀ {s' : Conn}, s.run es = some s' → Inv2 s' := by
  induction es with
  | nil => intro s h s' hs; cases hs; exact h
  | cons e es ih =>
    intro s h s' hs
    simp only [Conn.run] at hs
    cases h1 : s.step e with
    | none => rw [h1] at hs; cases hs
    | some s1 => rw [h1] at hs; exact ih (h.step h1) hs

theorem Spec.Reachable.inv2 {s : Conn} (h : Reachable s) : Inv2 s := by
  obtain ⟨es, hes⟩ := h
  exact run_inv2 init_inv2 hes

/-! ### reads -/

theorem kill_log (s : Conn) : s.kill.log = s.log ++ [.died] := (kill_eq s).2.2.2.2.2.1

theorem dispatch_log (k : Nat) (t : Ticket) (x : Str) (s : Conn) :
    (dispatch k t x s).log = s.log ++ (match k with | 0 => [.died] | 1 => [.sentQuery t x, .died] | _ + 2 => [.sentQuery t x, .sentEmpty t]) := by
  unfold dispatch
  rcases k with _ | _ | k
  · dsimp only; rw [kill_log]
  · dsimp only; rw [kill_log]; simp [Conn.note]
  · simp [Conn.note]

/-- Each event extends the history; only `recv` records a read. -/
theorem step_log {s : Conn} {e : Event} {s' : Conn} (hs : s.step e = some s') :
    ∃ l, s'.log = s.log ++ l ∧ ((∀ t, readsOf t l = []) ∨ ∃ t i, l = [.read t i] ∧ s.listening t = true ∧ s'.listening t = true ∧ e = .recv t) := by
  have dl : ∀ (k : Nat) (s1 : Conn), ∃ l, (dispatchNext k s1).log = s1.log ++ l ∧ ∀ t, readsOf t l = [] := by
    intro k s1
    unfold dispatchNext
    split
    · exact ⟨[], by simp, fun _ => rfl⟩
    · rw [dispatch_log]
      exact ⟨_, rfl, fun _ => by rcases k with _ | _ | k <;> rfl⟩
  cases e with
  | submit t text =>
    simp only [Conn.step] at hs
    split at hs
    · cases hs
    · cases hs
    · split at hs
      · cases hs; exact ⟨_, rfl, .inl fun _ => rfl⟩
      · cases hs
  | submitData d o b =>
    simp only [Conn.step] at hs
    split at hs
    · cases hs
    · split at hs
      · cases hs; exact ⟨_, rfl, .inl fun _ => rfl⟩
      · cases hs
    · cases hs
  | handle k =>
    simp only [Conn.step] at hs
    split at hs
    · rename_i r rest _ _
      cases hs
      unfold handleRequest
      split
      · split
        · rw [dispatch_log]
          exact ⟨_, rfl, .inl fun _ => by rcases k with _ | _ | k <;> rfl⟩
        · exact ⟨[], by simp, .inl fun _ => rfl⟩
      · split
        · rw [kill_log]; exact ⟨_, rfl, .inl fun _ => rfl⟩
        · exact ⟨_, rfl, .inl fun _ => rfl⟩
    · cases hs
  | packet k p =>
    simp only [Conn.step] at hs
    split at hs
    · cases hs
      have k1 : ∃ l, (s.note (.got p)).kill.log = s.log ++ l ∧
          ((∀ t, readsOf t l = []) ∨ ∃ t i, l = [.read t i] ∧ s.listening t = true ∧ (s.note (.got p)).kill.listening t = true ∧ Event.packet k p = .recv t) :=
        ⟨[.got p, .died], by rw [kill_log]; simp [Conn.note], .inl fun _ => rfl⟩
      have k2 : ∀ s1 : Conn, s1.log = s.log ++ [.got p] → ∃ l, s1.log = s.log ++ l ∧
          ((∀ t, readsOf t l = []) ∨ ∃ t i, l = [.read t i] ∧ s.listening t = true ∧ s1.listening t = true ∧ Event.packet k p = .recv t) :=
        fun s1 e => ⟨[.got p], e, .inl fun _ => rfl⟩
      unfold receivePacket
      cases p with
      | hello _ => exact k1
      | data n b =>
        dsimp only
        split
        · exact k2 _ rfl
        · exact k1
      | exception x =>
        dsimp only
        split
        · exact k2 _ rfl
        · exact k1
      | progress pr =>
        dsimp only
        split
        · exact ⟨[.got (.progress pr), .progress _ pr], by simp [Conn.note]; rfl, .inl fun _ => rfl⟩
        · exact k2 _ rfl
      | endOfStream =>
        dsimp only
        split
        · obtain ⟨l, h1, h2⟩ := dl k (dropExecuting (s.note (.got .endOfStream)))
          have h3 : (dropExecuting (s.note (.got .endOfStream))).log = s.log ++ [.got .endOfStream] := by
            unfold dropExecuting; split <;> rfl
          refine ⟨.got .endOfStream :: l, by rw [h1, h3]; simp, .inl fun t => ?_⟩
          have := h2 t
          simpa [readsOf] using this
        · exact k1
      | _ => exact k2 _ rfl
    · cases hs
  | deliver k =>
    simp only [Conn.step] at hs
    split at hs
    · unfold deliver at hs
      dsimp only at hs
      have fin : ∀ s1 : Conn, s1.log = s.log → ∃ l, (dispatchNext k s1).log = s.log ++ l ∧
          ((∀ t, readsOf t l = []) ∨ ∃ t i, l = [.read t i] ∧ s.listening t = true ∧ (dispatchNext k s1).listening t = true ∧ Event.deliver k = .recv t) := by
        intro s1 e
        obtain ⟨l, h1, h2⟩ := dl k s1
        exact ⟨l, by rw [h1, e], .inl h2⟩
      split at hs
      · split at hs
        · split at hs
          · cases hs
            split
            · exact fin _ rfl
            · exact ⟨[], by simp, .inl fun _ => rfl⟩
          · cases hs
        · cases hs
      · cases hs
        split
        · exact fin _ rfl
        · exact ⟨[], by simp, .inl fun _ => rfl⟩
    · cases hs
  | recv t =>
    simp only [Conn.step] at hs
    split at hs
    · rename_i i buf o e1 e2
      cases hs
      exact ⟨[.read t i], rfl, .inr ⟨t, i, rfl, e2, e2, rfl⟩⟩
    · cases hs
  | drop t =>
    simp only [Conn.step] at hs
    split at hs
    · cases hs; exact ⟨[], by simp, .inl fun _ => rfl⟩
    · cases hs
  | fail =>
    simp only [Conn.step] at hs
    split at hs
    · cases hs; rw [kill_log]; exact ⟨_, rfl, .inl fun _ => rfl⟩
    · cases hs
  | close =>
    simp only [Conn.step] at hs
    split at hs
    · cases hs; rw [kill_log]; exact ⟨_, rfl, .inl fun _ => rfl⟩
    · cases hs

theorem view_next_items (v : View) (o : Obs) : ∃ r, (v.next o).items = v.items ++ r := by
  cases o with
  | got p =>
    cases p with
    | data n b =>
      simp only [View.next]; split
      · exact ⟨_, rfl⟩
      · exact ⟨[], by simp⟩
    | exception e =>
      simp only [View.next]; split
      · exact ⟨_, rfl⟩
      · exact ⟨[], by simp⟩
    | endOfStream => simp only [View.next]; split <;> exact ⟨[], by simp⟩
    | progress p => simp only [View.next]; split <;> exact ⟨[], by simp⟩
    | _ => exact ⟨[], by simp [View.next]⟩
  | _ => exact ⟨[], by simp [View.next]⟩

theorem view_items_append (l l' : List Obs) : ∃ r, (view (l ++ l')).items = (view l).items ++ r := by
  induction l' generalizing l with
  | nil => exact ⟨[], by simp⟩
  | cons o l' ih =>
    obtain ⟨r1, h1⟩ := view_next_items (view l) o
    obtain ⟨r2, h2⟩ := ih (l ++ [o])
    exact ⟨r1 ++ r2, by rw [show l ++ o :: l' = l ++ [o] ++ l' by simp, h2, view_snoc, h1]; simp⟩

theorem itemsOf_append (t : Ticket) (l l' : List Obs) : itemsOf t l <+: itemsOf t (l ++ l') := by
  obtain ⟨r, h⟩ := view_items_append l l'
  exact ⟨pick t r, by rw [itemsOf_eq, itemsOf_eq, h]; simp [pick]⟩

theorem run_reads {es : List Event} : ∀ {s : Conn}, Inv s → (∀ t, readsOf t s.log <+: itemsOf t s.log) → ∀ {s' : Conn}, s.run es = some s' →
    ∀ t, readsOf t s'.log <+: itemsOf t s'.log := by
  induction es with
  | nil => intro s _ h s' hs; cases hs; exact h
  | cons e es ih =>
    intro s hi h s' hs
    simp only [Conn.run] at hs
    cases h1 : s.step e with
    | none => rw [h1] at hs; cases hs
    | some s1 =>
      rw [h1] at hs
      have hi1 := step_inv hi h1
      refine ih hi1 ?_ hs
      intro t
      obtain ⟨l, hl, hc⟩ := step_log h1
      have quiet : readsOf t l = [] → readsOf t s1.log <+: itemsOf t s1.log := by
        intro he
        rw [hl, show readsOf t (s.log ++ l) = readsOf t s.log ++ readsOf t l by simp [readsOf], he, List.append_nil]
        exact (h t).trans (itemsOf_append t _ _)
      rcases hc with hc | ⟨t', i, rfl, hls, hls', _⟩
      · exact quiet (hc t)
      · by_cases e : t' = t
        · subst e
          have : readsOf t' s1.log ++ bufOf (s1.slots t') ++ inflight s1 t' = itemsOf t' s1.log := by
            rcases hi1 with ⟨_, w, _⟩ | ⟨w, _⟩
            · exact w.items t' hls'
            · exact w.items t' hls'
          rw [← this, List.append_assoc]
          exact List.prefix_append _ _
        · exact quiet (by simp [readsOf, e])

theorem Spec.Reachable.reads {s : Conn} (h : Reachable s) (t : Ticket) : readsOf t s.log <+: itemsOf t s.log := by
  obtain ⟨es, hes⟩ := h
  exact run_reads init_inv (fun _ => List.prefix_rfl) hes t

/-! ### capacity -/

/-- No channel holds more than its capacity. -/
def Capped (s : Conn) : Prop := ∀ t, (bufOf (s.slots t)).length ≤ responseCapacity

theorem Capped.kill {s : Conn} (h : Capped s) : Capped s.kill := by
  intro t
  rw [(kill_eq s).2.2.2.2.2.2.2]
  have := h t
  split <;> split <;> simpa using this

theorem Capped.upd {s s' : Conn} (h : Capped s) {t : Ticket} {x : Option Caller} (hx : (bufOf x).length ≤ responseCapacity)
    (hs : s'.slots = upd s.slots t x) : Capped s' := by
  intro t'
  rw [hs]
  dsimp only [Klick.upd]
  split
  · exact hx
  · exact h t'

theorem Capped.dispatch {s : Conn} (h : Capped s) (k : Nat) (t : Ticket) (x : Str) : Capped (dispatch k t x s) := by
  unfold Klick.dispatch
  rcases k with _ | _ | k
  · exact Capped.kill (h.upd (by simpa using h t) rfl)
  · exact Capped.kill (h.upd (x := some (.streaming [] true)) (by simp [bufOf]) rfl)
  · exact h.upd (x := some (.streaming [] true)) (by simp [bufOf]) rfl

theorem Capped.next {s : Conn} (h : Capped s) (k : Nat) : Capped (dispatchNext k s) := by
  unfold dispatchNext
  split
  · exact h
  · rename_i ps _; exact Capped.dispatch (s := { s with pending := ps }) h k _ _

theorem Capped.step {s : Conn} (h : Capped s) {e : Event} {s' : Conn} (hs : s.step e = some s') : Capped s' := by
  cases e with
  | submit t text =>
    simp only [Conn.step] at hs
    split at hs
    · cases hs
    · cases hs
    · split at hs
      · cases hs; exact h.upd (x := some .waiting) (by simp [bufOf]) rfl
      · cases hs
  | submitData d o b =>
    simp only [Conn.step] at hs
    split at hs
    · cases hs
    · split at hs
      · cases hs; exact h
      · cases hs
    · cases hs
  | handle k =>
    simp only [Conn.step] at hs
    split at hs
    · rename_i r rest _ _
      cases hs
      unfold handleRequest
      split
      · split
        · exact Capped.dispatch (s := { s with queue := rest }) h k _ _
        · exact h
      · split
        · exact Capped.kill (s := { s with queue := rest, acks := _ }) h
        · exact h
    · cases hs
  | packet k p =>
    simp only [Conn.step] at hs
    split at hs
    · cases hs
      have hn : Capped (s.note (.got p)) := h
      generalize s.note (.got p) = s1 at hn
      unfold receivePacket
      cases p with
      | hello _ => exact hn.kill
      | data n b =>
        dsimp only
        split
        · exact hn
        · exact hn.kill
      | exception x =>
        dsimp only
        split
        · exact hn
        · exact hn.kill
      | progress pr =>
        dsimp only
        split
        · exact hn
        · exact hn
      | endOfStream =>
        dsimp only
        split
        · apply Capped.next
          unfold dropExecuting
          split
          · exact hn.upd (by simpa using hn _) rfl
          · exact hn
        · exact hn.kill
      | _ => exact hn
    · cases hs
  | deliver k =>
    simp only [Conn.step] at hs
    split at hs
    · unfold deliver at hs
      dsimp only at hs
      split at hs
      · split at hs
        · split at hs
          · rename_i hb hl
            cases hs
            split
            · apply Capped.next
              refine h.upd (x := closeSlot _) ?_ (upd_upd _ _ _ _)
              rw [bufOf_close, upd_self]
              simp only [bufOf, List.length_append, List.length_singleton]; exact hl
            · exact h.upd (by simp only [bufOf, List.length_append, List.length_singleton]; exact hl) rfl
          · cases hs
        · cases hs
      · cases hs
        split
        · apply Capped.next
          exact h.upd (by simpa using h _) rfl
        · exact h
    · cases hs
  | recv t =>
    simp only [Conn.step] at hs
    split at hs
    · rename_i i buf o e1 e2
      cases hs
      have := h t
      rw [e1] at this
      refine h.upd (x := some (.streaming buf o)) ?_ rfl
      simp only [bufOf, List.length_cons] at this ⊢
      omega
    · cases hs
  | drop t =>
    simp only [Conn.step] at hs
    split at hs
    · cases hs; exact h
    · cases hs
  | fail =>
    simp only [Conn.step] at hs
    split at hs
    · cases hs; exact h.kill
    · cases hs
  | close =>
    simp only [Conn.step] at hs
    split at hs
    · cases hs; exact h.kill
    · cases hs

theorem run_capped {es : List Event} : ∀ {s : Conn}, Capped s → ∀ {s' : Conn}, s.run es = some s' → Capped s' := by
  induction es with
  | nil => intro s h s' hs; cases hs; exact h
  | cons e es ih =>
    intro s h s' hs
    simp only [Conn.run] at hs
    cases h1 : s.step e with
    | none => rw [h1] at hs; cases hs
    | some s1 => rw [h1] at hs; exact ih (h.step h1) hs

theorem Spec.Reachable.capped {s : Conn} (h : Reachable s) : Capped s := by
  obtain ⟨es, hes⟩ := h
  exact run_capped (by intro t; simp [Conn.init, bufOf]) hes

theorem buf_cap {s : Conn} (h : Reachable s) (t : Ticket) {buf : List Item} {o : Bool} (hb : s.slots t = some (.streaming buf o)) :
    buf.length ≤ responseCapacity := by
  have := h.capped t
  rw [hb] at this
  exact this

end Klick
