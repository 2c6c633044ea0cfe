import Verif.Spec.Handles
import Verif.Props.FairRun
/-
C85: result streams and the handles of their client.
-/
namespace Klick
open Klick Klick.Spec

theorem Owned.Step.conn {s s' : Owned} {e : Event} (h : Owned.Step s (.conn e) s') :
    s.conn.step e = some s'.conn ∧ s'.handles = s.handles ∧ (e = .close → s.handles = 0) ∧
      ((∃ t x, e = .submit t x) ∨ (∃ d t b, e = .submitData d t b) → 0 < s.handles) := by
  cases h <;> simp_all

theorem Owned.Run.snoc {s s' s'' : Owned} {es : List OwnedEvent} {e : OwnedEvent} (h : Owned.Run s es s') (h2 : Owned.Step s' e s'') :
    Owned.Run s (es ++ [e]) s'' := by
  induction h with
  | nil => exact .cons h2 .nil
  | cons a _ ih => exact .cons a (ih h2)

theorem Spec.OwnedReachable.step {s s' : Owned} {e : OwnedEvent} (h : OwnedReachable s) (hs : Owned.Step s e s') : OwnedReachable s' := by
  obtain ⟨es, h⟩ := h
  exact ⟨_, h.snoc hs⟩

/-- Every history of handles and connection is, seen from the connection, one of its histories. -/
theorem Spec.OwnedReachable.conn {s : Owned} (h : OwnedReachable s) : Reachable s.conn := by
  obtain ⟨es, h⟩ := h
  have : ∀ {a b : Owned} {es}, Owned.Run a es b → Reachable a.conn → Reachable b.conn := by
    intro a b es h
    induction h with
    | nil => exact id
    | @cons a e b es c hs _ ih =>
      intro ha
      apply ih
      cases e with
      | clone => cases hs; exact ha
      | release => cases hs; exact ha
      | conn e => exact ha.step (Owned.Step.conn hs).1
  exact this h ⟨[], rfl⟩

theorem owned_induct {P : Owned → Prop} (h0 : P .init) (h1 : ∀ s e s', OwnedReachable s → P s → Owned.Step s e s' → P s') {s : Owned}
    (h : OwnedReachable s) : P s := by
  obtain ⟨es, h⟩ := h
  have : ∀ {a b : Owned} {es}, Owned.Run a es b → OwnedReachable a → P a → P b := by
    intro a b es h
    induction h with
    | nil => exact fun _ h => h
    | cons hs _ ih => exact fun hr ha => ih (hr.step hs) (h1 _ _ _ hr ha hs)
  exact this h ⟨[], .nil⟩ h0

end Klick

namespace Klick.Props
open Klick Klick.Spec

/-- C85: as long as there is a handle, the connection ends only through the fault of the transport or of the server. -/
theorem C85_open_while_held {s s' : Owned} {e : OwnedEvent} (h : OwnedReachable s) (ho : s.isClosed = false) (hs : Owned.Step s e s')
    (hh : 0 < s.handles) (hc : s'.isClosed = true) : Outside s.conn.log e := by
  have hr := h.conn
  have hnd : .died ∉ s.conn.log := by
    intro hd
    have := (died_dead hr hd).1
    simp [Owned.isClosed, this] at ho
  have hdead : s'.conn.phase = .dead := by
    unfold Owned.isClosed at hc
    split at hc
    · assumption
    · cases hc
  cases e with
  | clone => cases hs; exact absurd (hc.symm.trans ho) (by decide)
  | release => cases hs; exact absurd (hc.symm.trans ho) (by decide)
  | conn e =>
    have hr' := (h.step hs).conn
    obtain ⟨h1, _, h3, _⟩ := Owned.Step.conn hs
    have hd' : .died ∈ s'.conn.log := Classical.byContradiction fun hn =>
      (alive_live hr' hn).1.alive hdead
    rcases C34_only_then hr hnd h1 hd' with ⟨k, p, rfl, a⟩ | ⟨k, rfl | rfl, a⟩ | rfl | rfl
    · exact a
    · exact a
    · exact a
    · trivial
    · have := h3 rfl; omega

/-- What the callers have done: the queries submitted and who listens. -/
def face (s : Conn) : List Ticket × (Ticket → Bool) := (submittedOf s.log, s.listening)

theorem face_kill (s : Conn) : face s.kill = face s := by
  unfold face
  rw [kill_listening, kill_log]
  simp [submittedOf]

theorem face_note (s : Conn) {o : Obs} (h : submittedOf [o] = []) : face (s.note o) = face s := by
  simp only [face, Conn.note, submittedOf_snoc, h, List.append_nil]

theorem face_dispatch (k : Nat) (t : Ticket) (x : Str) (s : Conn) : face (dispatch k t x s) = face s := by
  unfold face
  rw [dispatch_listening, dispatch_log]
  rcases k with _ | _ | k <;> simp [submittedOf]

theorem face_next (k : Nat) (s : Conn) : face (dispatchNext k s) = face s := by
  unfold dispatchNext
  split
  · rfl
  · rw [face_dispatch]; rfl

theorem face_step {s s' : Conn} {e : Event} (hs : s.step e = some s') (hn : ∀ t x, e ≠ .submit t x) :
    face s' = face s ∨ ∃ t, e = .drop t ∧ submittedOf s'.log = submittedOf s.log ∧ s'.listening = upd s.listening t false := by
  cases e with
  | submit t x => exact absurd rfl (hn t x)
  | submitData d o' b' =>
    left
    simp only [Conn.step] at hs
    split at hs
    · cases hs
    · split at hs
      · cases hs; exact face_note s rfl
      · cases hs
    · cases hs
  | handle k =>
    left
    simp only [Conn.step] at hs
    split at hs
    · cases hs
      unfold handleRequest
      split
      · split
        · rw [face_dispatch]; rfl
        · rfl
      · split
        · rw [face_kill]; rfl
        · exact face_note s rfl
    · cases hs
  | packet k p =>
    left
    simp only [Conn.step] at hs
    split at hs
    · cases hs
      refine Eq.trans ?_ (face_note s (o := .got p) rfl)
      unfold receivePacket
      cases p with
      | hello _ => exact face_kill _
      | data n b =>
        dsimp only
        split
        · rfl
        · exact face_kill _
      | exception x =>
        dsimp only
        split
        · rfl
        · exact face_kill _
      | progress pr =>
        dsimp only
        split
        · exact face_note _ rfl
        · rfl
      | endOfStream =>
        dsimp only
        split
        · rw [face_next]
          unfold dropExecuting
          split <;> rfl
        · exact face_kill _
      | _ => rfl
    · cases hs
  | deliver k =>
    left
    simp only [Conn.step] at hs
    split at hs
    · unfold deliver at hs
      dsimp only at hs
      split at hs
      · split at hs
        · split at hs
          · cases hs
            split
            · rw [face_next]; rfl
            · rfl
          · cases hs
        · cases hs
      · cases hs
        split
        · rw [face_next]; rfl
        · rfl
    · cases hs
  | recv t' =>
    left
    simp only [Conn.step] at hs
    split at hs
    · cases hs; exact face_note s rfl
    · cases hs
  | drop t' =>
    right
    simp only [Conn.step] at hs
    split at hs
    · cases hs; exact ⟨t', rfl, rfl, rfl⟩
    · cases hs
  | fail =>
    left
    simp only [Conn.step] at hs
    split at hs
    · cases hs; exact face_kill _
    · cases hs
  | close =>
    left
    simp only [Conn.step] at hs
    split at hs
    · cases hs; exact face_kill _
    · cases hs

theorem calling_step {s s' : Conn} (hr : Reachable s) {e : Event} (h : s.step e = some s') (hn : ∀ t x, e ≠ .submit t x) (hc : s'.calling) : s.calling := by
  obtain ⟨t, hw, hl⟩ := hc
  have hr' := hr.step h
  have hsub : submittedOf s'.log = submittedOf s.log ∧ s.listening t = true := by
    rcases face_step h hn with a | ⟨t', rfl, a, b⟩
    · exact ⟨congrArg Prod.fst a, by rw [← show s'.listening = s.listening from congrArg Prod.snd a]; exact hl⟩
    · refine ⟨a, ?_⟩
      rw [b] at hl
      simp only [upd] at hl
      split at hl
      · cases hl
      · exact hl
  refine ⟨t, ?_, hsub.2⟩
  have hd' : .died ∉ s'.log := by
    intro hd
    obtain ⟨_, w, q, p, _⟩ := died_dead hr' hd
    rcases w.waiting t hw with a | a | a
    · cases a
    · rw [p] at a; cases a
    · rw [q] at a; cases a
  obtain ⟨l, hlog, _⟩ := step_log h
  have hd : .died ∉ s.log := fun hd => hd' (by rw [hlog]; exact List.mem_append_left _ hd)
  have hm : t ∈ submittedOf s.log := by
    rw [← hsub.1, (weak hr').known]
    rw [hw]; exact fun h => by cases h
  have hns : t ∉ sentOf s.log := by
    intro hs
    have : t ∈ sentOf s'.log := by
      rw [hlog]; simp only [sentOf, List.filterMap_append, List.mem_append]; exact .inl hs
    obtain ⟨_, _, e⟩ := ((weak hr').stream t).mp this
    rw [hw] at e; cases e
  have hlive := (alive_live hr hd).1
  rw [← hlive.all] at hm
  simp only [List.append_nil, List.mem_append] at hm
  apply hlive.waits
  rcases hm with (a | a) | a
  · exact absurd a hns
  · exact .inr (.inl a)
  · exact .inr (.inr a)

/-- C85: a call in progress keeps its handle: when no handle is left, nobody waits for the results of a query to begin. -/
theorem C85_calls_hold {s : Owned} (h : OwnedReachable s) (h0 : s.handles = 0) : ¬ s.conn.calling := by
  revert h0
  refine owned_induct (P := fun s => s.handles = 0 → ¬ s.conn.calling) ?_ ?_ h
  · intro h; cases h
  · intro s e s' hr ih hs h0
    cases e with
    | clone => cases hs; simp at h0
    | release => cases hs with | release hc => exact hc h0
    | conn e =>
      obtain ⟨h1, h2, _, h4⟩ := Owned.Step.conn hs
      have z : s.handles = 0 := by rw [← h2]; exact h0
      have hn : ∀ t x, e ≠ .submit t x := by
        intro t x hx
        have := h4 (.inl ⟨t, x, hx⟩)
        omega
      exact fun hc => ih z (calling_step hr.conn h1 hn hc)

/-- C85: a closed connection stays closed, takes no more work, and leaves nobody waiting, so that a pool that discards it loses nothing. -/
theorem C85_closed_final {s s' : Owned} {e : OwnedEvent} (h : OwnedReachable s) (hc : s.isClosed = true) (hs : Owned.Step s e s') :
    s'.isClosed = true ∧ (∀ t x, e ≠ .conn (.submit t x)) ∧ (∀ d t b, e ≠ .conn (.submitData d t b)) ∧ (∀ t, s.conn.slots t ≠ some .waiting) ∧
      (∀ d, s.conn.acks d ≠ some .waiting) := by
  have hr := h.conn
  have hdead : s.conn.phase = .dead := by
    unfold Owned.isClosed at hc
    split at hc
    · assumption
    · cases hc
  have hd : .died ∈ s.conn.log := Classical.byContradiction fun hn => (alive_live hr hn).1.alive hdead
  obtain ⟨_, w, hq, hp, _⟩ := died_dead hr hd
  refine ⟨?_, ?_, ?_, ?_, ?_⟩
  · cases e with
    | clone => cases hs; exact hc
    | release => cases hs; exact hc
    | conn e =>
      have h1 := (Owned.Step.conn hs).1
      obtain ⟨l, hl, _⟩ := step_log h1
      have : .died ∈ s'.conn.log := by rw [hl]; exact List.mem_append_left _ hd
      simp [Owned.isClosed, (died_dead (h.step hs).conn this).1]
  · rintro t x rfl
    have h1 := (Owned.Step.conn hs).1
    simp [Conn.step, hdead] at h1
  · rintro d t b rfl
    have h1 := (Owned.Step.conn hs).1
    simp [Conn.step, hdead] at h1
  · intro t ht
    rcases w.waiting t ht with a | a | a
    · cases a
    · rw [hp] at a; cases a
    · rw [hq] at a; cases a
  · intro d hda
    obtain ⟨o, ho⟩ := w.acks d hda
    rw [hq] at ho; cases ho

/-- Reading what is buffered. -/
theorem read_buffer {t : Ticket} : ∀ (buf : List Item) (c : Conn), c.listening t = true → c.slots t = some (.streaming buf false) →
    ∃ c', c.run (List.replicate buf.length (.recv t)) = some c' ∧ ReadToEnd c' t ∧ readsOf t c'.log = readsOf t c.log ++ buf := by
  intro buf
  induction buf with
  | nil => intro c hl hb; exact ⟨c, rfl, ⟨hl, hb⟩, by simp⟩
  | cons i buf ih =>
    intro c hl hb
    obtain ⟨c', h1, h2, h3⟩ := ih { c.note (.read t i) with slots := upd c.slots t (some (.streaming buf false)) } hl (upd_self ..)
    refine ⟨c', ?_, h2, ?_⟩
    · simp only [List.length_cons, List.replicate_succ, Conn.run, Conn.step, hb, hl]
      exact h1
    · rw [h3]
      simp [Conn.note, readsOf]

/-- What does hold: when the connection ends for want of handles, every caller still reading can read all that had been received for
its query, in order, and then comes to the end of its stream; and its query had been sent. -/
theorem C85_received_stays_partial {s s' : Owned} (h : OwnedReachable s) (hs : Owned.Step s (.conn .close) s') {t : Ticket}
    (hl : s.conn.listening t = true) (ht : t ∈ submittedOf s.conn.log) :
    t ∈ sentOf s.conn.log ∧ ∃ n c, s'.conn.run (List.replicate n (.recv t)) = some c ∧ ReadToEnd c t ∧
      readsOf t c.log = itemsOf t s.conn.log := by
  have hr := h.conn
  obtain ⟨h1, _, h3, _⟩ := Owned.Step.conn hs
  have hh : s.handles = 0 := h3 rfl
  have hnc := C85_calls_hold h hh
  simp only [Conn.step] at h1
  split at h1
  · rename_i hp hq
    have h1 : s.conn.kill = s'.conn := by simpa using h1
    have hd : .died ∉ s.conn.log := by
      intro hd; have := (died_dead hr hd).1; rw [hp] at this; cases this
    have hlive := (alive_live hr hd).1
    have hsent : t ∈ sentOf s.conn.log := by
      have hm := ht
      rw [← hlive.all] at hm
      simp only [List.append_nil, List.mem_append] at hm
      rcases hm with (a | a) | a
      · exact a
      · exact absurd ⟨t, hlive.waits t (.inr (.inl a)), hl⟩ hnc
      · exact absurd ⟨t, hlive.waits t (.inr (.inr a)), hl⟩ hnc
    refine ⟨hsent, ?_⟩
    obtain ⟨buf, o, hb⟩ := ((weak hr).stream t).mp hsent
    obtain ⟨_, _, _, _, k5, k6, _, k8⟩ := kill_eq s.conn
    have hb' : s.conn.kill.slots t = some (.streaming buf false) := by
      rw [k8, hb]
      have e1 : (if t ∈ s.conn.pending.map Prod.fst ∨ t ∈ qTickets s.conn.queue then failSlot else id) (some (.streaming buf o)) = some (.streaming buf o) := by
        split <;> rfl
      rw [e1]
      split
      · rfl
      · rename_i hx
        cases o with
        | false => rfl
        | true =>
          rcases (weak hr).sender t buf hb with a | ⟨i, a⟩
          · exact absurd a hx
          · rw [hp] at a; cases a
    obtain ⟨c, c1, c2, c3⟩ := read_buffer buf s.conn.kill (by rw [k5]; exact hl) hb'
    refine ⟨_, c, by rw [← h1]; exact c1, c2, ?_⟩
    rw [c3, k6, ← C30_nothing_lost hr hl, hb]
    simp [readsOf, bufOf, inflight, hp]
  · cases h1

/-- C85 as stated is false: a caller reads a normal end of its stream, no item being an error, although its query was never answered
to the end and neither the server nor the transport did anything wrong: the last handle was dropped, no more. -/
theorem C85_stream_ends_false : ∃ es s, Blameless .init es s ∧ ∃ t, ReadToEnd s.conn t ∧
    (∀ i ∈ readsOf t s.conn.log, ∃ b, i = .block b) ∧ t ∉ (view s.conn.log).done := by
  refine ⟨[.conn (.submit 1 ['A']), .conn (.handle 2), .conn (.packet 2 (.data [] (exB 1))), .conn (.deliver 2), .conn (.recv 1), .release, .conn .close], _,
    .more (.submit (by decide) rfl) id (.more (.handle rfl) (by intro h; cases h with | step h => cases h with | step h => cases h)
      (.more (.packet rfl) ?_ (.more (.deliver rfl) (fun h => absurd (show 2 < 2 from h) (by decide))
      (.more (.recv rfl) id (.more (.release ?_) id (.more (.close rfl) id .done)))))), 1, ⟨rfl, rfl⟩, ?_, ?_⟩
  · rintro (h | h)
    · cases show (some 1 : Option Ticket) = none from h
    · exact absurd h (by decide)
  · rintro - ⟨t, a, -⟩
    have hr : Reachable _ := ⟨[.submit 1 ['A'], .handle 2, .packet 2 (.data [] (exB 1)), .deliver 2, .recv 1], rfl⟩
    rcases (weak hr).waiting t a with h | h | h <;> cases h
  · intro i hi
    exact ⟨exB 1, by simpa using show i ∈ [Item.block (exB 1)] from hi⟩
  · intro h
    cases show (1 : Ticket) ∈ [] from h

/-! ### The hypotheses are met -/

/-- One query read to the middle, the other handle dropped. -/
def exHeld : List Event := [.submit 1 ['A'], .handle 2, .packet 2 (.data [] (exB 1)), .deliver 2]

/-- A caller has a block to read when the last handle goes. -/
example : ∃ s s', OwnedReachable s ∧ Owned.Step s (.conn .close) s' ∧ s.conn.listening 1 = true ∧ 1 ∈ submittedOf s.conn.log ∧
    itemsOf 1 s.conn.log = [.block (exB 1)] := by
  have hr : Reachable _ := ⟨exHeld, rfl⟩
  refine ⟨⟨0, _⟩, _, ⟨_, .cons (.submit (t := 1) (x := ['A']) (by decide) rfl) (.cons (.handle (k := 2) rfl)
    (.cons (.packet (k := 2) (p := .data [] (exB 1)) rfl) (.cons (.deliver (k := 2) rfl) (.cons (.release ?_) .nil))))⟩, .close rfl, rfl, List.mem_singleton.mpr rfl, rfl⟩
  rintro - ⟨t, a, -⟩
  rcases (weak hr).waiting t a with h | h | h <;> cases h

/-- With two handles one can be dropped; the connection stays, until the transport fails. -/
example : ∃ s s', OwnedReachable s ∧ s.isClosed = false ∧ 0 < s.handles ∧ Owned.Step s (.conn .fail) s' ∧ s'.isClosed = true :=
  ⟨_, _, ⟨_, .cons (.clone (by decide)) (.cons (.release (fun h => absurd h (by decide))) .nil)⟩, rfl, by decide, .fail rfl, rfl⟩

/-- After that it is closed for good; a handle can still be dropped. -/
example : ∃ s s', OwnedReachable s ∧ s.isClosed = true ∧ Owned.Step s .release s' :=
  ⟨_, _, ⟨_, .cons (.clone (by decide)) (.cons (.fail rfl) .nil)⟩, rfl, .release (fun h => absurd h (by decide))⟩

end Klick.Props
