import Verif.ClientLemmas
/-
Every reachable state of a connection satisfies the invariant.
-/
namespace Klick
open Spec

/-- An observation that changes no derived quantity. -/
structure Neutral (l : List Obs) (o : Obs) : Prop where
  sub : submittedOf [o] = []
  sent : sentOf [o] = []
  reads : ∀ t, readsOf t [o] = []
  bc : broadcastOf [o] = []
  vw : (view l).next o = view l
  ok : Rule l o

theorem Weak.note {held : List Ticket} {s : Conn} {o : Obs} (h : Weak held s) (n : Neutral s.log o) : Weak held (s.note o) := by
  have io : ∀ t, itemsOf t (s.log ++ [o]) = itemsOf t s.log := fun t => itemsOf_snoc_of (by rw [n.vw])
  constructor
  · simpa [Conn.note, n.sub] using h.nodup
  · intro t; simpa [Conn.note, n.sub] using h.known t
  · simpa [Conn.note, n.sub, n.sent] using h.order
  · exact h.waiting
  · intro t; simpa [Conn.note, n.sent] using h.stream t
  · exact h.sender
  · intro t ht
    dsimp only [Conn.note]
    rw [io]
    simpa [n.reads, inflight, Conn.note] using h.items t ht
  · intro t ht
    dsimp only [Conn.note]
    rw [io]
    simpa [n.reads] using h.unseen t ht
  · dsimp only [Conn.note]; rw [view_snoc, n.vw]; simpa [n.sent] using h.done
  · exact h.acks
  · intro d o' hd; simpa [Conn.note, n.sent] using h.owners d o' hd
  · exact h.rule.snoc n.ok
  · dsimp only [Conn.note]; rw [view_snoc, n.vw]; simpa [n.bc] using h.progress
  · intro t
    dsimp only [Conn.note]
    rw [io, view_snoc, n.vw]
    exact h.shape t

theorem Live.note {held : List Ticket} {s : Conn} {o : Obs} (h : Live held s) (n : Neutral s.log o) (hd : o ≠ .died) :
    Live held (s.note o) := by
  refine ⟨h.toWeak.note n, h.alive, ?_, ?_, ?_, h.sending, h.sendingLast, h.waits, h.sends⟩
  · intro o' ho
    simp only [Conn.note, List.mem_append, List.mem_singleton] at ho
    rcases ho with ho | rfl
    · exact h.notDied o' ho
    · exact hd
  · simpa [Conn.note, n.sub, n.sent] using h.all
  · dsimp only [Conn.note]; rw [view_snoc, n.vw]; exact h.cur

theorem init_inv : Inv Conn.init := by
  refine .inr ⟨⟨⟨?_, ?_, ?_, ?_, ?_, ?_, ?_, ?_, ?_, ?_, ?_, ?_, ?_, ?_⟩, ?_, ?_, ?_, ?_, ?_, ?_, ?_, ?_⟩, fun _ _ => rfl⟩
  · exact List.nodup_nil
  · intro t; simp [Conn.init, submittedOf]
  · exact List.prefix_rfl
  · intro t h; simp [Conn.init] at h
  · intro t; simp [Conn.init, sentOf]
  · intro t b h; simp [Conn.init] at h
  · intro t h; simp [Conn.init] at h
  · intro t _; exact ⟨rfl, rfl⟩
  · rfl
  · intro d h; simp [Conn.init] at h
  · intro d o h; simp [Conn.init] at h
  · exact Always.nil _
  · rfl
  · intro t; exact ⟨[], [], rfl, .inl rfl⟩
  · intro h; cases h
  · intro o h; simp [Conn.init] at h
  · rfl
  · rfl
  · intro t i h; cases h
  · intro t i h; cases h
  · intro t h; simp [Conn.init] at h
  · intro t h; simp [Conn.init] at h

/-! ### requests -/

theorem submit_inv {s : Conn} (h : Inv s) {t : Ticket} {text : Str} {s' : Conn} (hs : s.step (.submit t text) = some s') :
    Inv s' := by
  have hnd : s.phase ≠ .dead := by
    intro e; simp [Conn.step, e] at hs
  have hsl : s.slots t = none := by
    cases e : s.slots t with
    | none => rfl
    | some x => simp only [Conn.step, e] at hs; cases hp : s.phase <;> simp [hp] at hs
  rcases h with ⟨e, _⟩ | ⟨h, hidle⟩
  · exact absurd e hnd
  have hcap : s.queue.length < requestCapacity := by
    apply Decidable.byContradiction; intro hc
    simp only [Conn.step, hsl] at hs
    cases hp : s.phase <;> simp [hp, hc] at hs
  have he : s' = { s.note (.submitted t text) with
          queue := s.queue ++ [.query t text], slots := upd s.slots t (some .waiting), listening := upd s.listening t true } := by
    simp only [Conn.step, hsl] at hs
    cases hp : s.phase <;> simp [hp, hcap] at hs
    · rw [← hs]
    · rw [← hs]
    · exact absurd hp hnd
  subst he
  have hnew : t ∉ submittedOf s.log := by rw [h.known]; simp [hsl]
  have hns : t ∉ sentOf s.log := fun hm => hnew (h.order.subset hm)
  have hnp : ∀ x, (x ∈ s.pending.map Prod.fst ∨ x ∈ qTickets s.queue) → x ≠ t := by
    intro x hx e
    have := h.waits x (.inr hx)
    rw [e, hsl] at this; cases this
  obtain ⟨hun1, hun2⟩ := h.unseen t hsl
  have hv : (view s.log).next (.submitted t text) = view s.log := rfl
  have hio : ∀ t', itemsOf t' (s.log ++ [.submitted t text]) = itemsOf t' s.log := fun t' => itemsOf_snoc_of (by rw [hv])
  have hsub : submittedOf [Obs.submitted t text] = [t] := rfl
  have hfl : inflight s t = [] := by
    unfold inflight
    split
    · rename_i t' i l e
      split
      · rename_i e'
        subst e'
        exfalso
        cases l with
        | false => obtain ⟨b, hb⟩ := h.sends _ (h.sending _ _ e); rw [hsl] at hb; cases hb
        | true => obtain ⟨_, b, hb⟩ := h.sendingLast _ _ e; rw [hsl] at hb; cases hb
      · rfl
    · rfl
  refine .inr ⟨⟨⟨?_, ?_, ?_, ?_, ?_, ?_, ?_, ?_, ?_, ?_, ?_, ?_, ?_, ?_⟩, h.alive, ?_, ?_, ?_, ?_, ?_, ?_, ?_⟩, ?_⟩
  · simp only [Conn.note, submittedOf_snoc, hsub]
    rw [List.nodup_append]
    refine ⟨h.nodup, by simp, ?_⟩
    intro a ha b hb
    simp only [List.mem_singleton] at hb
    subst hb
    intro e; subst e; exact hnew ha
  · intro t'
    simp only [Conn.note, submittedOf_snoc, hsub, List.mem_append, List.mem_singleton, upd, h.known]
    by_cases e : t' = t <;> simp [e]
  · simp only [Conn.note, submittedOf_snoc, sentOf_snoc, hsub, show sentOf [Obs.submitted t text] = [] from rfl, List.append_nil]
    exact h.order.trans (List.prefix_append _ _)
  · intro t' ht'
    dsimp only [upd] at ht'
    split at ht'
    · rename_i e; subst e; right; right; simp
    · rcases (h.waiting t' ht').resolve_left (by simp) with a | a
      · exact .inr (.inl a)
      · right; right; simp [a]
  · intro t'
    simp only [Conn.note, sentOf_snoc, show sentOf [Obs.submitted t text] = [] from rfl, List.append_nil, h.stream]
    dsimp only [upd]
    split
    · rename_i e; subst e; simp [hsl]
    · rfl
  · intro t' buf ht'
    dsimp only [upd] at ht'
    split at ht'
    · cases ht'
    · exact h.sender t' buf ht'
  · intro t' ht'
    dsimp only [Conn.note]
    rw [hio]
    simp only [readsOf_snoc, show readsOf t' [Obs.submitted t text] = [] from rfl, List.append_nil]
    dsimp only [upd] at ht' ⊢
    split at ht'
    · rename_i e
      subst e
      rw [hun1, hun2, if_pos rfl]
      have : inflight { s.note (.submitted t' text) with
          queue := s.queue ++ [.query t' text], slots := upd s.slots t' (some .waiting), listening := upd s.listening t' true } t' = inflight s t' := rfl
      simp only [bufOf, List.append_nil, List.nil_append]
      exact hfl
    · rename_i e
      rw [if_neg e]
      exact h.items t' ht'
  · intro t' ht'
    dsimp only [upd] at ht'
    split at ht'
    · cases ht'
    · dsimp only [Conn.note]
      rw [hio]
      simpa [readsOf] using h.unseen t' ht'
  · dsimp only [Conn.note]; rw [view_snoc, hv]; simpa [sentOf] using h.done
  · intro d hd
    obtain ⟨o, ho⟩ := h.acks d hd
    exact ⟨o, by simp [Conn.note, ho]⟩
  · intro d o hd
    simp only [Conn.note, qData_append, qData_query, qData_nil, List.append_nil] at hd
    simpa [Conn.note, sentOf] using h.owners d o hd
  · exact h.rule.snoc trivial
  · dsimp only [Conn.note]; rw [view_snoc, hv]; simpa [broadcastOf] using h.progress
  · intro t'; dsimp only [Conn.note]; rw [hio, view_snoc, hv]; exact h.shape t'
  · intro o ho
    simp only [Conn.note, List.mem_append, List.mem_singleton] at ho
    rcases ho with ho | rfl
    · exact h.notDied o ho
    · simp
  · simp only [Conn.note, submittedOf_snoc, sentOf_snoc, hsub, show sentOf [Obs.submitted t text] = [] from rfl, List.append_nil,
      qTickets_append, qTickets_query, qTickets_nil]
    rw [← h.all]; simp
  · dsimp only [Conn.note]; rw [view_snoc, hv]; exact h.cur
  · exact h.sending
  · intro t' i hp
    obtain ⟨h1, b, h2⟩ := h.sendingLast t' i hp
    refine ⟨h1, b, ?_⟩
    have : t' ≠ t := by intro e; rw [e, hsl] at h2; cases h2
    dsimp only [upd]; rw [if_neg this]; exact h2
  · intro t' ht'
    simp only [Conn.note, List.not_mem_nil, false_or, qTickets_append, qTickets_query, qTickets_nil, List.mem_append,
      List.mem_singleton] at ht'
    dsimp only [upd]
    by_cases e : t' = t
    · rw [if_pos e]
    · rw [if_neg e]
      refine h.waits t' (.inr ?_)
      rcases ht' with a | a | a
      · exact .inl a
      · exact .inr a
      · exact absurd a e
  · intro t' ht'
    obtain ⟨b, hb⟩ := h.sends t' ht'
    refine ⟨b, ?_⟩
    have : t' ≠ t := by intro e; rw [e, hsl] at hb; cases hb
    dsimp only [upd]; rw [if_neg this]; exact hb
  · exact hidle

theorem submitData_inv {s : Conn} (h : Inv s) {d owner : Ticket} {b : Block} {s' : Conn}
    (hs : s.step (.submitData d owner b) = some s') : Inv s' := by
  have hnd : s.phase ≠ .dead := by
    intro e; simp [Conn.step, e] at hs
  have hex : ∃ buf o, s.slots owner = some (.streaming buf o) ∧ s.acks d = none ∧ s' = { s.note (.dataSubmitted d owner b) with
      queue := s.queue ++ [.data d owner b], acks := upd s.acks d (some .waiting) } := by
    simp only [Conn.step] at hs
    split at hs
    · cases hs
    · rename_i e1 e2 _
      split at hs
      · cases hs; exact ⟨_, _, e1, e2, rfl⟩
      · cases hs
    · cases hs
  obtain ⟨buf, o, hsl, hak, he⟩ := hex
  rcases h with ⟨e, _⟩ | ⟨h, hidle⟩
  · exact absurd e hnd
  subst he
  have hn := h.note (o := .dataSubmitted d owner b) ⟨rfl, rfl, fun _ => rfl, rfl, rfl, trivial⟩ (by simp)
  have hown : owner ∈ sentOf s.log := (h.stream owner).mpr ⟨_, _, hsl⟩
  generalize hs1 : s.note (.dataSubmitted d owner b) = s1 at hn ⊢
  have q1 : s1.queue = s.queue := by subst hs1; rfl
  have a1 : s1.acks = s.acks := by subst hs1; rfl
  have l1 : sentOf s1.log = sentOf s.log := by subst hs1; simp [Conn.note, sentOf]
  have p1 : s1.phase = s.phase := by subst hs1; rfl
  rw [← q1, ← a1]
  refine .inr ⟨⟨⟨hn.nodup, hn.known, hn.order, ?_, hn.stream, hn.sender, hn.items, hn.unseen, hn.done, ?_, ?_, hn.rule, hn.progress, hn.shape⟩,
    hn.alive, hn.notDied, ?_, hn.cur, hn.sending, hn.sendingLast, ?_, hn.sends⟩, ?_⟩
  · intro t ht
    rcases (hn.waiting t ht).resolve_left (by simp) with a | a
    · exact .inr (.inl a)
    · right; right; simp [a]
  · intro d' hd'
    dsimp only [upd] at hd'
    split at hd'
    · rename_i e; subst e; exact ⟨owner, by simp⟩
    · obtain ⟨o', ho'⟩ := hn.acks d' hd'
      exact ⟨o', by simp [ho']⟩
  · intro d' o' hd'
    simp only [qData_append, qData_data, qData_nil, List.mem_append, List.mem_singleton, Prod.mk.injEq] at hd'
    rcases hd' with a | ⟨_, rfl⟩
    · exact hn.owners d' o' a
    · dsimp only; rw [l1]; exact hown
  · simpa using hn.all
  · intro t ht
    refine hn.waits t ?_
    simpa using ht
  · intro e1 e2
    subst hs1
    exact hidle e1 e2

theorem queue_query {s : Conn} {t : Ticket} {text : Str} {rest : List Req} (h : Live [] s) (hq : s.queue = .query t text :: rest)
    (hp : s.pending = []) : Live [t] { s with queue := rest } := by
  refine ⟨⟨h.nodup, h.known, h.order, ?_, h.stream, h.sender, h.items, h.unseen, h.done, ?_, ?_, h.rule, h.progress, h.shape⟩,
    h.alive, h.notDied, ?_, h.cur, h.sending, h.sendingLast, ?_, h.sends⟩
  · intro t' ht'
    have := h.waiting t' ht'
    rw [hq, hp] at this
    simp only [List.not_mem_nil, List.map_nil, qTickets_query, List.mem_cons, false_or] at this
    rcases this with rfl | a
    · left; simp
    · right; right; exact a
  · intro d hd
    have := h.acks d hd
    rw [hq] at this
    exact this
  · intro d o hd
    refine h.owners d o ?_
    rw [hq]; exact hd
  · have := h.all
    rw [hq] at this
    simp only [hp, List.map_nil, List.append_nil, qTickets_query] at this ⊢
    rw [← this]; simp
  · intro t' ht'
    refine h.waits t' (.inr (.inr ?_))
    rw [hq]
    simp only [List.mem_singleton, hp, List.map_nil, List.not_mem_nil, false_or] at ht'
    rcases ht' with rfl | a
    · simp
    · simp [a]

theorem queue_pend {s : Conn} {t : Ticket} {text : Str} {rest : List Req} (h : Live [] s) (hq : s.queue = .query t text :: rest) :
    Live [] { s with queue := rest, pending := s.pending ++ [(t, text)] } := by
  refine ⟨⟨h.nodup, h.known, h.order, ?_, h.stream, h.sender, h.items, h.unseen, h.done, ?_, ?_, h.rule, h.progress, h.shape⟩,
    h.alive, h.notDied, ?_, h.cur, h.sending, h.sendingLast, ?_, h.sends⟩
  · intro t' ht'
    have := h.waiting t' ht'
    rw [hq] at this
    simp only [qTickets_query, List.mem_cons, List.map_append, List.map_cons, List.map_nil, List.mem_append] at this ⊢
    rcases this with a | a | a | a
    · exact .inl a
    · exact .inr (.inl (.inl a))
    · exact .inr (.inl (.inr (.inl a)))
    · exact .inr (.inr a)
  · intro d hd
    have := h.acks d hd
    rw [hq] at this
    exact this
  · intro d o hd
    refine h.owners d o ?_
    rw [hq]; exact hd
  · have := h.all
    rw [hq] at this
    rw [← this]; simp
  · intro t' ht'
    refine h.waits t' ?_
    rw [hq]
    simp only [List.map_append, List.map_cons, List.map_nil, List.mem_append, qTickets_query, List.mem_cons, List.not_mem_nil, or_false, false_or] at ht' ⊢
    rcases ht' with (a | a) | a
    · exact .inl a
    · exact .inr (.inl a)
    · exact .inr (.inr a)

theorem queue_data {s : Conn} {d owner : Ticket} {b : Block} {rest : List Req} (h : Live [] s)
    (hq : s.queue = .data d owner b :: rest) (a : Ack) (ha : a ≠ .waiting) :
    Live [] { s with queue := rest, acks := upd s.acks d (some a) } := by
  refine ⟨⟨h.nodup, h.known, h.order, ?_, h.stream, h.sender, h.items, h.unseen, h.done, ?_, ?_, h.rule, h.progress, h.shape⟩,
    h.alive, h.notDied, ?_, h.cur, h.sending, h.sendingLast, ?_, h.sends⟩
  · intro t' ht'
    have := h.waiting t' ht'
    rw [hq] at this
    exact this
  · intro d' hd'
    dsimp only [upd] at hd'
    split at hd'
    · cases hd'; exact absurd rfl ha
    · rename_i ne
      have := h.acks d' hd'
      rw [hq] at this
      obtain ⟨o, ho⟩ := this
      simp only [qData_data, List.mem_cons, Prod.mk.injEq] at ho
      rcases ho with ⟨e, _⟩ | ho
      · exact absurd e ne
      · exact ⟨o, ho⟩
  · intro d' o hd'
    refine h.owners d' o ?_
    rw [hq]; simp [hd']
  · have := h.all
    rw [hq] at this
    exact this
  · intro t' ht'
    refine h.waits t' ?_
    rw [hq]; exact ht'

theorem handle_inv {s : Conn} (h : Inv s) {k : Nat} {s' : Conn} (hs : s.step (.handle k) = some s') : Inv s' := by
  have hex : ∃ r rest, s.phase = .idle ∧ s.queue = r :: rest ∧ s' = handleRequest k r { s with queue := rest } := by
    simp only [Conn.step] at hs
    split at hs
    · rename_i r rest e1 e2; cases hs; exact ⟨_, _, e1, e2, rfl⟩
    · cases hs
  obtain ⟨r, rest, hi, hq, rfl⟩ := hex
  rcases h with ⟨e, _⟩ | ⟨h, hidle⟩
  · rw [hi] at e; cases e
  cases r with
  | query t text =>
    unfold handleRequest
    dsimp only
    by_cases hc : s.pending = [] ∧ s.executing = none
    · rw [if_pos (by simp [hc.1, hc.2])]
      exact dispatch_inv (queue_query h hq hc.1) hi hc.2 k text
    · rw [if_neg (by
        simp only [Bool.and_eq_true, List.isEmpty_iff, Option.isNone_iff_eq_none]
        exact hc)]
      refine .inr ⟨queue_pend h hq, ?_⟩
      intro _ e2
      exact absurd ⟨hidle hi e2, e2⟩ hc
  | data d owner b =>
    have hown : owner ∈ sentOf s.log := h.owners d owner (by rw [hq]; simp)
    unfold handleRequest
    dsimp only
    cases k with
    | zero =>
      exact kill_inv (queue_data h hq .failed (by simp)).toWeak (by intro t i l e; dsimp only at e; rw [hi] at e; cases e)
    | succ k =>
      have h1 := queue_data h hq .acked (by simp)
      have hr : (view s.log).cur = some owner ∨ owner ∈ (view s.log).done := by
        rw [← h.done, List.mem_append] at hown
        rcases hown with a | a
        · exact .inr a
        · exact .inl (by simpa using a)
      have h2 := h1.note (o := .sentData d owner b) ⟨rfl, rfl, fun _ => rfl, rfl, rfl, hr, h.notDied⟩ (by simp)
      exact .inr ⟨h2, fun _ e => hidle hi e⟩

/-! ### packets -/

theorem Live.got {s : Conn} (h : Live [] s) (p : ServerPacket) (hv : (view s.log).next (.got p) = view s.log) :
    Live [] (s.note (.got p)) :=
  h.note ⟨rfl, rfl, fun _ => rfl, rfl, hv, h.notDied⟩ (by simp)

/-- The view of an item received for the executing query. -/
theorem pick_self_snoc (t : Ticket) (l : List (Ticket × Item)) (i : Item) : pick t (l ++ [(t, i)]) = pick t l ++ [i] := by
  rw [pick_snoc, if_pos rfl]

theorem cur_not_done {s : Conn} {held : List Ticket} (h : Live held s) {t : Ticket} (he : s.executing = some t) :
    t ∉ (view s.log).done := by
  intro hm
  have hd := h.done
  rw [h.cur, he] at hd
  have hn : (sentOf s.log).Nodup := h.order.sublist.nodup h.nodup
  rw [← hd, List.nodup_append] at hn
  exact hn.2.2 t hm t (by simp) rfl

/-- Data for the executing query. -/
theorem data_live {s : Conn} (h : Live [] s) (hi : s.phase = .idle) {t : Ticket} (he : s.executing = some t) (n : Str) (b : Block) :
    Live [] { s.note (.got (.data n b)) with phase := .sending t (.block b) false } := by
  have hv : (view s.log).next (.got (.data n b)) = { view s.log with items := (view s.log).items ++ [(t, .block b)] } := by
    simp only [View.next, h.cur, he]
  have hio : ∀ t', itemsOf t' (s.log ++ [.got (.data n b)]) = itemsOf t' s.log ++ (if t = t' then [.block b] else []) := by
    intro t'; rw [itemsOf_eq, itemsOf_eq, view_snoc, hv]; exact pick_snoc _ _ _ _
  have hsl : s.slots t ≠ none := by obtain ⟨b, hb⟩ := h.sends t he; rw [hb]; simp
  have hfl : ∀ t', inflight s t' = [] := by intro t'; unfold inflight; rw [hi]
  refine ⟨⟨?_, ?_, ?_, h.waiting, ?_, ?_, ?_, ?_, ?_, h.acks, ?_, ?_, ?_, ?_⟩, ?_, ?_, ?_, ?_, ?_, ?_, h.waits, h.sends⟩
  · simpa [Conn.note, submittedOf] using h.nodup
  · intro t'; simpa [Conn.note, submittedOf] using h.known t'
  · simpa [Conn.note, submittedOf, sentOf] using h.order
  · intro t'; simpa [Conn.note, sentOf] using h.stream t'
  · intro t' buf ht'
    rcases h.sender t' buf ht' with a | ⟨i, a⟩
    · exact .inl a
    · rw [hi] at a; cases a
  · intro t' ht'
    have := h.items t' ht'
    rw [hfl, List.append_nil] at this
    dsimp only [Conn.note]
    rw [hio, ← this]
    simp [readsOf, inflight]
  · intro t' ht'
    have ne : t ≠ t' := by intro e; subst e; exact hsl ht'
    dsimp only [Conn.note]
    rw [hio, if_neg ne]
    simpa [readsOf] using h.unseen t' ht'
  · dsimp only [Conn.note]; rw [view_snoc, hv]; simpa [sentOf] using h.done
  · intro d o hd; simpa [Conn.note, sentOf] using h.owners d o hd
  · exact h.rule.snoc h.notDied
  · dsimp only [Conn.note]; rw [view_snoc, hv]; simpa [broadcastOf] using h.progress
  · intro t'
    dsimp only [Conn.note]
    rw [hio, view_snoc, hv]
    obtain ⟨bs, tail, h1, h2⟩ := h.shape t'
    by_cases e : t = t'
    · subst e
      rcases h2 with h2 | ⟨h2, _⟩
      · refine ⟨bs ++ [b], [], ?_, .inl rfl⟩
        rw [h1, h2, if_pos rfl]; simp
      · exact absurd h2 (cur_not_done h he)
    · rw [if_neg e, List.append_nil]; exact ⟨bs, tail, h1, h2⟩
  · intro e; cases e
  · intro o ho
    simp only [Conn.note, List.mem_append, List.mem_singleton] at ho
    rcases ho with ho | rfl
    · exact h.notDied o ho
    · simp
  · simpa [Conn.note, submittedOf, sentOf] using h.all
  · dsimp only [Conn.note]; rw [view_snoc, hv]; exact h.cur
  · intro t' i e; cases e; exact he
  · intro t' i e; cases e

/-- An exception for the executing query. -/
theorem exception_live {s : Conn} (h : Live [] s) (hi : s.phase = .idle) {t : Ticket} (he : s.executing = some t) (x : ServerException) :
    Live [] { s.note (.got (.exception x)) with executing := none, phase := .sending t (.error x.emit) true } := by
  have hv : (view s.log).next (.got (.exception x)) =
      { view s.log with items := (view s.log).items ++ [(t, .error x.emit)], done := (view s.log).done ++ [t], cur := none } := by
    simp only [View.next, h.cur, he]
  have hio : ∀ t', itemsOf t' (s.log ++ [.got (.exception x)]) = itemsOf t' s.log ++ (if t = t' then [.error x.emit] else []) := by
    intro t'; rw [itemsOf_eq, itemsOf_eq, view_snoc, hv]; exact pick_snoc _ _ _ _
  obtain ⟨buf0, hbuf0⟩ := h.sends t he
  have hsl : s.slots t ≠ none := by rw [hbuf0]; simp
  have hfl : ∀ t', inflight s t' = [] := by intro t'; unfold inflight; rw [hi]
  refine ⟨⟨?_, ?_, ?_, h.waiting, ?_, ?_, ?_, ?_, ?_, h.acks, ?_, ?_, ?_, ?_⟩, ?_, ?_, ?_, ?_, ?_, ?_, h.waits, ?_⟩
  · simpa [Conn.note, submittedOf] using h.nodup
  · intro t'; simpa [Conn.note, submittedOf] using h.known t'
  · simpa [Conn.note, submittedOf, sentOf] using h.order
  · intro t'; simpa [Conn.note, sentOf] using h.stream t'
  · intro t' buf ht'
    rcases h.sender t' buf ht' with a | ⟨i, a⟩
    · rw [he] at a; cases a; exact .inr ⟨_, rfl⟩
    · rw [hi] at a; cases a
  · intro t' ht'
    have := h.items t' ht'
    rw [hfl, List.append_nil] at this
    dsimp only [Conn.note]
    rw [hio, ← this]
    simp [readsOf, inflight]
  · intro t' ht'
    have ne : t ≠ t' := by intro e; subst e; exact hsl ht'
    dsimp only [Conn.note]
    rw [hio, if_neg ne]
    simpa [readsOf] using h.unseen t' ht'
  · dsimp only [Conn.note]; rw [view_snoc, hv]
    have := h.done
    rw [h.cur, he] at this
    simp only [sentOf_snoc, ← this]
    simp [sentOf]
  · intro d o hd; simpa [Conn.note, sentOf] using h.owners d o hd
  · exact h.rule.snoc h.notDied
  · dsimp only [Conn.note]; rw [view_snoc, hv]; simpa [broadcastOf] using h.progress
  · intro t'
    dsimp only [Conn.note]
    rw [hio, view_snoc, hv]
    obtain ⟨bs, tail, h1, h2⟩ := h.shape t'
    by_cases e : t = t'
    · subst e
      rcases h2 with h2 | ⟨h2, _⟩
      · refine ⟨bs, [.error x.emit], ?_, .inr ⟨by simp, _, rfl⟩⟩
        rw [h1, h2, if_pos rfl]; simp
      · exact absurd h2 (cur_not_done h he)
    · rw [if_neg e, List.append_nil]
      refine ⟨bs, tail, h1, ?_⟩
      rcases h2 with h2 | ⟨h2, h3⟩
      · exact .inl h2
      · exact .inr ⟨by simp [h2], h3⟩
  · intro e; cases e
  · intro o ho
    simp only [Conn.note, List.mem_append, List.mem_singleton] at ho
    rcases ho with ho | rfl
    · exact h.notDied o ho
    · simp
  · simpa [Conn.note, submittedOf, sentOf] using h.all
  · dsimp only [Conn.note]; rw [view_snoc, hv]
  · intro t' i e; cases e
  · intro t' i e; cases e; exact ⟨rfl, buf0, hbuf0⟩
  · intro t' e; cases e

/-- Progress for the executing query. -/
theorem progress_live {s : Conn} (h : Live [] s) {t : Ticket} (he : s.executing = some t) (p : Progress) :
    Live [] ((s.note (.got (.progress p))).note (.progress t p)) := by
  have hv1 : (view s.log).next (.got (.progress p)) = { view s.log with progress := (view s.log).progress ++ [(t, p)] } := by
    simp only [View.next, h.cur, he]
  have hv : view (s.log ++ [.got (.progress p)] ++ [.progress t p]) = { view s.log with progress := (view s.log).progress ++ [(t, p)] } := by
    rw [view_snoc, view_snoc, hv1]; rfl
  have hio : ∀ t', itemsOf t' (s.log ++ [.got (.progress p)] ++ [.progress t p]) = itemsOf t' s.log := by
    intro t'; rw [itemsOf_eq, itemsOf_eq, hv]
  refine ⟨⟨?_, ?_, ?_, h.waiting, ?_, h.sender, ?_, ?_, ?_, h.acks, ?_, ?_, ?_, ?_⟩, h.alive, ?_, ?_, ?_, h.sending, h.sendingLast, h.waits, h.sends⟩
  · simpa [Conn.note, submittedOf] using h.nodup
  · intro t'; simpa [Conn.note, submittedOf] using h.known t'
  · simpa [Conn.note, submittedOf, sentOf] using h.order
  · intro t'; simpa [Conn.note, sentOf] using h.stream t'
  · intro t' ht'
    have := h.items t' ht'
    dsimp only [Conn.note]
    rw [hio, ← this]
    simp [readsOf, inflight]
  · intro t' ht'
    dsimp only [Conn.note]
    rw [hio]
    simpa [readsOf] using h.unseen t' ht'
  · dsimp only [Conn.note]; rw [hv]; simpa [sentOf] using h.done
  · intro d o hd; simpa [Conn.note, sentOf] using h.owners d o hd
  · refine (h.rule.snoc (o := .got (.progress p)) h.notDied).snoc ⟨?_, ?_⟩
    · rw [view_snoc, hv1]; simp only [h.cur, he]
    · intro o ho
      simp only [List.mem_append, List.mem_singleton] at ho
      rcases ho with ho | rfl
      · exact h.notDied o ho
      · simp
  · dsimp only [Conn.note]; rw [hv]; simp only [broadcastOf_snoc, h.progress]; simp [broadcastOf]
  · intro t'; dsimp only [Conn.note]; rw [hio, hv]; exact h.shape t'
  · intro o ho
    simp only [Conn.note, List.mem_append, List.mem_singleton] at ho
    rcases ho with (ho | rfl) | rfl
    · exact h.notDied o ho
    · simp
    · simp
  · simpa [Conn.note, submittedOf, sentOf] using h.all
  · dsimp only [Conn.note]; rw [hv]; exact h.cur

/-- The end of the executing query. -/
theorem eos_live {s : Conn} (h : Live [] s) (hi : s.phase = .idle) {t : Ticket} (he : s.executing = some t) :
    Live [] (dropExecuting (s.note (.got .endOfStream))) := by
  have hde : dropExecuting (s.note (.got .endOfStream)) =
      { s.note (.got .endOfStream) with slots := upd s.slots t (closeSlot (s.slots t)), executing := none } := by
    unfold dropExecuting
    rw [show (s.note (.got .endOfStream)).executing = some t from he]
    rfl
  rw [hde]
  have hv : (view s.log).next (.got .endOfStream) = { view s.log with done := (view s.log).done ++ [t], cur := none } := by
    simp only [View.next, h.cur, he]
  have hio : ∀ t', itemsOf t' (s.log ++ [.got .endOfStream]) = itemsOf t' s.log := by
    intro t'; exact itemsOf_snoc_of (by rw [hv])
  obtain ⟨buf0, hbuf0⟩ := h.sends t he
  refine ⟨⟨?_, ?_, ?_, ?_, ?_, ?_, ?_, ?_, ?_, h.acks, ?_, ?_, ?_, ?_⟩, h.alive, ?_, ?_, ?_, ?_, ?_, ?_, ?_⟩
  · simpa [Conn.note, submittedOf] using h.nodup
  · intro t'
    simp only [Conn.note, submittedOf_snoc, show submittedOf [Obs.got .endOfStream] = [] from rfl, List.append_nil, h.known]
    dsimp only [upd]
    split
    · rename_i e; subst e; rw [ne_eq, ne_eq, closeSlot_none]
    · rfl
  · simpa [Conn.note, submittedOf, sentOf] using h.order
  · intro t' ht'
    dsimp only [upd] at ht'
    split at ht'
    · rename_i e; subst e; exact h.waiting t' (closeSlot_waiting.mp ht')
    · exact h.waiting t' ht'
  · intro t'
    simp only [Conn.note, sentOf_snoc, show sentOf [Obs.got .endOfStream] = [] from rfl, List.append_nil, h.stream]
    dsimp only [upd]
    split
    · rename_i e; subst e; rw [closeSlot_streaming]
    · rfl
  · intro t' buf ht'
    dsimp only [upd] at ht'
    split at ht'
    · exact absurd ht' closeSlot_open
    · rename_i ne
      rcases h.sender t' buf ht' with a | a
      · rw [he] at a; cases a; exact absurd rfl ne
      · exact .inr a
  · intro t' ht'
    have := h.items t' ht'
    dsimp only [Conn.note]
    rw [hio, ← this]
    simp only [readsOf_snoc, show readsOf t' [Obs.got .endOfStream] = [] from rfl, List.append_nil]
    dsimp only [upd, inflight]
    split
    · rename_i e; subst e; rw [bufOf_close]
    · rfl
  · intro t' ht'
    dsimp only [Conn.note]
    rw [hio]
    have : s.slots t' = none := by
      dsimp only [upd] at ht'
      split at ht'
      · rename_i e; subst e; exact closeSlot_none.mp ht'
      · exact ht'
    simpa [readsOf] using h.unseen t' this
  · dsimp only [Conn.note]; rw [view_snoc, hv]
    have := h.done
    rw [h.cur, he] at this
    simp only [sentOf_snoc, ← this]
    simp [sentOf]
  · intro d o hd; simpa [Conn.note, sentOf] using h.owners d o hd
  · exact h.rule.snoc h.notDied
  · dsimp only [Conn.note]; rw [view_snoc, hv]; simpa [broadcastOf] using h.progress
  · intro t'
    dsimp only [Conn.note]
    rw [hio, view_snoc, hv]
    obtain ⟨bs, tail, h1, h2⟩ := h.shape t'
    refine ⟨bs, tail, h1, ?_⟩
    rcases h2 with h2 | ⟨h2, h3⟩
    · exact .inl h2
    · exact .inr ⟨by simp [h2], h3⟩
  · intro o ho
    simp only [Conn.note, List.mem_append, List.mem_singleton] at ho
    rcases ho with ho | rfl
    · exact h.notDied o ho
    · simp
  · simpa [Conn.note, submittedOf, sentOf] using h.all
  · dsimp only [Conn.note]; rw [view_snoc, hv]
  · intro t' i hp; dsimp only [Conn.note] at hp; rw [hi] at hp; cases hp
  · intro t' i hp; dsimp only [Conn.note] at hp; rw [hi] at hp; cases hp
  · intro t' ht'
    have := h.waits t' ht'
    dsimp only [upd]
    split
    · rename_i e; subst e; rw [closeSlot_waiting]; exact this
    · exact this
  · intro t' e; cases e

/-- The next queued query is taken. -/
theorem dispatchNext_inv {s : Conn} (h : Live [] s) (hi : s.phase = .idle) (he : s.executing = none) (k : Nat) :
    Inv (dispatchNext k s) := by
  unfold dispatchNext
  split
  · rename_i e; exact .inr ⟨h, fun _ _ => e⟩
  · rename_i t text ps e
    refine dispatch_inv (s := { s with pending := ps }) ?_ hi he k text
    refine ⟨⟨h.nodup, h.known, h.order, ?_, h.stream, h.sender, h.items, h.unseen, h.done, h.acks, h.owners, h.rule, h.progress, h.shape⟩,
      h.alive, h.notDied, ?_, h.cur, h.sending, h.sendingLast, ?_, h.sends⟩
    · intro t' ht'
      have := h.waiting t' ht'
      rw [e] at this
      simp only [List.not_mem_nil, false_or, List.map_cons, List.mem_cons] at this ⊢
      rcases this with (a | a) | a
      · exact .inl (.inl a)
      · exact .inr (.inl a)
      · exact .inr (.inr a)
    · have := h.all
      rw [e] at this
      rw [← this]; simp
    · intro t' ht'
      refine h.waits t' ?_
      rw [e]
      simp only [List.not_mem_nil, or_false, List.map_cons, List.mem_cons] at ht' ⊢
      rcases ht' with a | a | a
      · exact .inr (.inl (.inl a))
      · exact .inr (.inl (.inr a))
      · exact .inr (.inr a)

theorem packet_inv {s : Conn} (h : Inv s) {k : Nat} {p : ServerPacket} {s' : Conn} (hs : s.step (.packet k p) = some s') : Inv s' := by
  have hex : s.phase = .idle ∧ s' = receivePacket k p (s.note (.got p)) := by
    simp only [Conn.step] at hs
    split at hs
    · rename_i e; cases hs; exact ⟨e, rfl⟩
    · cases hs
  obtain ⟨hi, rfl⟩ := hex
  rcases h with ⟨e, _⟩ | ⟨h, hidle⟩
  · rw [hi] at e; cases e
  have hnp : ∀ t i l, (s.note (.got p)).phase ≠ .sending t i l := by
    intro t i l e; dsimp only [Conn.note] at e; rw [hi] at e; cases e
  have same : (view s.log).next (.got p) = view s.log → Inv (s.note (.got p)) :=
    fun hv => .inr ⟨h.got p hv, fun _ e2 => hidle hi e2⟩
  have killed : (view s.log).next (.got p) = view s.log → Inv (s.note (.got p)).kill :=
    fun hv => kill_inv (h.got p hv).toWeak hnp
  have hcur := h.cur
  unfold receivePacket
  cases p with
  | hello _ => exact killed rfl
  | data n b =>
    dsimp only
    split
    · rename_i t he; exact .inr ⟨data_live h hi he n b, fun e => by cases e⟩
    · rename_i he
      rw [show (s.note (.got (.data n b))).executing = s.executing from rfl] at he
      rw [he] at hcur; exact killed (by simp only [View.next, hcur])
  | exception x =>
    dsimp only
    rw [show (s.note (.got (.exception x))).executing = s.executing from rfl]
    cases he : s.executing with
    | none => rw [he] at hcur; exact killed (by simp only [View.next, hcur])
    | some t => exact .inr ⟨exception_live h hi he x, fun e => by cases e⟩
  | progress pr =>
    dsimp only
    rw [show (s.note (.got (.progress pr))).executing = s.executing from rfl]
    cases he : s.executing with
    | none => rw [he] at hcur; exact same (by simp only [View.next, hcur])
    | some t => exact .inr ⟨progress_live h he pr, fun _ e => by dsimp only [Conn.note] at e; rw [he] at e; cases e⟩
  | endOfStream =>
    dsimp only
    rw [show (s.note (.got .endOfStream)).executing = s.executing from rfl]
    cases he : s.executing with
    | none => rw [he] at hcur; exact killed (by simp only [View.next, hcur])
    | some t =>
      have hl := eos_live h hi he
      have e1 : (dropExecuting (s.note (.got .endOfStream))).phase = .idle ∧ (dropExecuting (s.note (.got .endOfStream))).executing = none := by
        unfold dropExecuting
        rw [show (s.note (.got .endOfStream)).executing = some t from he]
        exact ⟨hi, rfl⟩
      exact dispatchNext_inv hl e1.1 e1.2 k
  | _ => exact same rfl

/-! ### the callers -/

/-- The channel of the query an item is being sent to. -/
theorem sending_slot {s : Conn} (h : Live [] s) {t : Ticket} {i : Item} {last : Bool} (hp : s.phase = .sending t i last) :
    ∃ buf, s.slots t = some (.streaming buf true) := by
  cases last with
  | false => exact h.sends t (h.sending t i hp)
  | true => exact (h.sendingLast t i hp).2

/-- A send completes. -/
theorem finish_live {s : Conn} (h : Live [] s) {t : Ticket} {i : Item} {last : Bool} (hp : s.phase = .sending t i last)
    {buf buf' : List Item} (hb : s.slots t = some (.streaming buf true)) (hl : s.listening t = true → buf' = buf ++ [i]) :
    Live [] { s with slots := upd s.slots t (some (.streaming buf' (!last))), phase := .idle } := by
  refine ⟨⟨h.nodup, ?_, h.order, ?_, ?_, ?_, ?_, ?_, h.done, h.acks, h.owners, h.rule, h.progress, h.shape⟩, ?_, h.notDied, h.all, h.cur, ?_, ?_, ?_, ?_⟩
  · intro t'
    rw [h.known]
    dsimp only [upd]
    split
    · rename_i e; subst e; simp [hb]
    · rfl
  · intro t' ht'
    dsimp only [upd] at ht'
    split at ht'
    · cases ht'
    · exact h.waiting t' ht'
  · intro t'
    rw [h.stream]
    dsimp only [upd]
    split
    · rename_i e; subst e; simp [hb]
    · rfl
  · intro t' b ht'
    left
    dsimp only [upd] at ht'
    split at ht'
    · rename_i e
      cases last with
      | true => cases ht'
      | false => exact e ▸ h.sending t i hp
    · rename_i ne
      rcases h.sender t' b ht' with a | ⟨i', a⟩
      · exact a
      · rw [hp] at a; cases a; exact absurd rfl ne
  · intro t' ht'
    have := h.items t' ht'
    rw [← this]
    simp only [inflight, hp, upd]
    by_cases e : t' = t
    · subst e; simp [hb, bufOf, hl ht']
    · have e' : ¬ t = t' := fun x => e x.symm
      simp [e, e']
  · intro t' ht'
    dsimp only [upd] at ht'
    split at ht'
    · cases ht'
    · exact h.unseen t' ht'
  · intro e; cases e
  · intro t' i' e; cases e
  · intro t' i' e; cases e
  · intro t' ht'
    have := h.waits t' ht'
    dsimp only [upd]
    split
    · rename_i e; subst e; rw [hb] at this; cases this
    · exact this
  · intro t' ht'
    obtain ⟨b, hb'⟩ := h.sends t' ht'
    dsimp only [upd]
    split
    · rename_i e
      cases last with
      | false => exact ⟨_, rfl⟩
      | true =>
        dsimp only at ht'
        rw [(h.sendingLast t i hp).1] at ht'; cases ht'
    · exact ⟨b, hb'⟩

theorem upd_upd {α : Type} (f : Ticket → α) (t : Ticket) (a b : α) : upd (upd f t a) t b = upd f t b := by
  funext t'; simp only [upd]; split <;> rfl

theorem upd_same {α : Type} (f : Ticket → α) (t : Ticket) (a : α) (h : f t = a) : upd f t a = f := by
  funext t'; simp only [upd]; split
  · rename_i e; rw [e, h]
  · rfl

theorem deliver_inv {s : Conn} (h : Inv s) {k : Nat} {s' : Conn} (hs : s.step (.deliver k) = some s') : Inv s' := by
  have hex : ∃ t i last, s.phase = .sending t i last ∧ deliver k t i last s = some s' := by
    simp only [Conn.step] at hs
    split at hs
    · rename_i t i last e; exact ⟨_, _, _, e, hs⟩
    · cases hs
  obtain ⟨t, i, last, hp, hd⟩ := hex
  rcases h with ⟨e, _⟩ | ⟨h, _⟩
  · rw [hp] at e; cases e
  obtain ⟨buf, hb⟩ := sending_slot h hp
  have key : ∃ buf', (s.listening t = true → buf' = buf ++ [i]) ∧
      s' = (let s1 : Conn := { s with slots := upd s.slots t (some (.streaming buf' (!last))), phase := .idle }
            if last then dispatchNext k s1 else s1) := by
    unfold deliver at hd
    dsimp only at hd
    by_cases hl : s.listening t = true
    · rw [if_pos hl, hb] at hd
      dsimp only at hd
      split at hd
      · refine ⟨buf ++ [i], fun _ => rfl, ?_⟩
        cases hd
        cases last with
        | true => simp only [if_true, upd_upd, upd_self, closeSlot, Bool.not_true]
        | false => simp
      · cases hd
    · rw [if_neg hl] at hd
      refine ⟨buf, fun e => absurd e hl, ?_⟩
      cases hd
      cases last with
      | true => simp only [if_true, hb, closeSlot, Bool.not_true]
      | false =>
        simp only [Bool.false_eq_true, if_false, Bool.not_false]
        rw [upd_same _ _ _ hb]
  obtain ⟨buf', hbuf, rfl⟩ := key
  have hf := finish_live h hp hb hbuf
  dsimp only
  cases last with
  | true =>
    rw [if_pos rfl]
    exact dispatchNext_inv hf rfl (h.sendingLast t i hp).1 k
  | false =>
    rw [if_neg (by simp)]
    refine .inr ⟨hf, fun _ e => ?_⟩
    dsimp only at e
    rw [h.sending t i hp] at e; cases e

theorem recv_weak {s : Conn} (h : Weak [] s) {t : Ticket} {i : Item} {buf : List Item} {o : Bool}
    (hb : s.slots t = some (.streaming (i :: buf) o)) :
    Weak [] { s.note (.read t i) with slots := upd s.slots t (some (.streaming buf o)) } := by
  have hv : (view s.log).next (.read t i) = view s.log := rfl
  have hio : ∀ t', itemsOf t' (s.log ++ [.read t i]) = itemsOf t' s.log := fun t' => itemsOf_snoc_of (by rw [hv])
  have hrd : ∀ t', readsOf t' [Obs.read t i] = if t = t' then [i] else [] := by
    intro t'; simp only [readsOf, List.filterMap_cons, List.filterMap_nil]; split <;> simp_all
  refine ⟨?_, ?_, ?_, ?_, ?_, ?_, ?_, ?_, ?_, h.acks, ?_, ?_, ?_, ?_⟩
  · simpa [Conn.note, submittedOf] using h.nodup
  · intro t'
    simp only [Conn.note, submittedOf_snoc, show submittedOf [Obs.read t i] = [] from rfl, List.append_nil, h.known]
    dsimp only [upd]
    split
    · rename_i e; subst e; simp [hb]
    · rfl
  · simpa [Conn.note, submittedOf, sentOf] using h.order
  · intro t' ht'
    dsimp only [upd] at ht'
    split at ht'
    · cases ht'
    · exact h.waiting t' ht'
  · intro t'
    simp only [Conn.note, sentOf_snoc, show sentOf [Obs.read t i] = [] from rfl, List.append_nil, h.stream]
    dsimp only [upd]
    split
    · rename_i e; subst e; simp [hb]
    · rfl
  · intro t' b ht'
    dsimp only [upd] at ht'
    split at ht'
    · rename_i e; subst e; cases ht'; exact h.sender t' _ hb
    · exact h.sender t' b ht'
  · intro t' ht'
    have := h.items t' ht'
    dsimp only [Conn.note]
    rw [hio, ← this]
    simp only [readsOf_snoc, hrd, inflight, upd]
    by_cases e : t' = t
    · subst e; simp [hb, bufOf]
    · have e' : ¬ t = t' := fun x => e x.symm
      simp [e, e']
  · intro t' ht'
    dsimp only [upd] at ht'
    split at ht'
    · cases ht'
    · rename_i ne
      dsimp only [Conn.note]
      rw [hio, readsOf_snoc, hrd, if_neg (fun x => ne x.symm), List.append_nil]
      exact h.unseen t' ht'
  · dsimp only [Conn.note]; rw [view_snoc, hv]; simpa [sentOf] using h.done
  · intro d o' hd; simpa [Conn.note, sentOf] using h.owners d o' hd
  · exact h.rule.snoc trivial
  · dsimp only [Conn.note]; rw [view_snoc, hv]; simpa [broadcastOf] using h.progress
  · intro t'; dsimp only [Conn.note]; rw [hio, view_snoc, hv]; exact h.shape t'

theorem recv_inv {s : Conn} (h : Inv s) {t : Ticket} {s' : Conn} (hs : s.step (.recv t) = some s') : Inv s' := by
  have hex : ∃ i buf o, s.slots t = some (.streaming (i :: buf) o) ∧
      s' = { s.note (.read t i) with slots := upd s.slots t (some (.streaming buf o)) } := by
    simp only [Conn.step] at hs
    split at hs
    · rename_i i buf o e _; cases hs; exact ⟨_, _, _, e, rfl⟩
    · cases hs
  obtain ⟨i, buf, o, hb, rfl⟩ := hex
  rcases h with ⟨h1, h2, h3, h4, h5, h6⟩ | ⟨h, hidle⟩
  · exact .inl ⟨h1, recv_weak h2 hb, h3, h4, h5, by simp [Conn.note, h6]⟩
  · refine .inr ⟨⟨recv_weak h.toWeak hb, h.alive, ?_, ?_, ?_, h.sending, ?_, ?_, ?_⟩, hidle⟩
    · intro o' ho
      simp only [Conn.note, List.mem_append, List.mem_singleton] at ho
      rcases ho with ho | rfl
      · exact h.notDied o' ho
      · simp
    · simpa [Conn.note, submittedOf, sentOf] using h.all
    · dsimp only [Conn.note]; rw [view_snoc]; exact h.cur
    · intro t' i' hp
      obtain ⟨e1, b, e2⟩ := h.sendingLast t' i' hp
      refine ⟨e1, ?_⟩
      dsimp only [upd]
      split
      · rename_i e; subst e; rw [hb] at e2; cases e2; exact ⟨_, rfl⟩
      · exact ⟨b, e2⟩
    · intro t' ht'
      have := h.waits t' ht'
      dsimp only [upd]
      split
      · rename_i e; subst e; rw [hb] at this; cases this
      · exact this
    · intro t' ht'
      obtain ⟨b, e2⟩ := h.sends t' ht'
      dsimp only [upd]
      split
      · rename_i e; subst e; rw [hb] at e2; cases e2; exact ⟨_, rfl⟩
      · exact ⟨b, e2⟩

theorem drop_inv {s : Conn} (h : Inv s) {t : Ticket} {s' : Conn} (hs : s.step (.drop t) = some s') : Inv s' := by
  have he : s' = { s with listening := upd s.listening t false } := by
    simp only [Conn.step] at hs
    split at hs
    · cases hs; rfl
    · cases hs
  subst he
  have items : ∀ (hi : ∀ t', s.listening t' = true → readsOf t' s.log ++ bufOf (s.slots t') ++ inflight s t' = itemsOf t' s.log),
      ∀ t', upd s.listening t false t' = true → readsOf t' s.log ++ bufOf (s.slots t') ++ inflight s t' = itemsOf t' s.log := by
    intro hi t' ht'
    dsimp only [upd] at ht'
    split at ht'
    · cases ht'
    · exact hi t' ht'
  rcases h with ⟨h1, h, h3, h4, h5⟩ | ⟨h, hidle⟩
  · exact .inl ⟨h1, ⟨h.nodup, h.known, h.order, h.waiting, h.stream, h.sender, items h.items, h.unseen, h.done, h.acks, h.owners, h.rule,
      h.progress, h.shape⟩, h3, h4, h5⟩
  · exact .inr ⟨⟨⟨h.nodup, h.known, h.order, h.waiting, h.stream, h.sender, items h.items, h.unseen, h.done, h.acks, h.owners, h.rule,
      h.progress, h.shape⟩, h.alive, h.notDied, h.all, h.cur, h.sending, h.sendingLast, h.waits, h.sends⟩, hidle⟩

theorem end_inv {s : Conn} (h : Inv s) (hi : s.phase = .idle) : Inv s.kill := by
  rcases h with ⟨e, _⟩ | ⟨h, _⟩
  · rw [hi] at e; cases e
  · exact kill_inv h.toWeak (by intro t i l e; rw [hi] at e; cases e)

theorem step_inv {s : Conn} (h : Inv s) {e : Event} {s' : Conn} (hs : s.step e = some s') : Inv s' := by
  cases e with
  | submit t text => exact submit_inv h hs
  | submitData d o b => exact submitData_inv h hs
  | handle k => exact handle_inv h hs
  | packet k p => exact packet_inv h hs
  | deliver k => exact deliver_inv h hs
  | recv t => exact recv_inv h hs
  | drop t => exact drop_inv h hs
  | fail =>
    simp only [Conn.step] at hs
    split at hs
    · rename_i e; cases hs; exact end_inv h e
    · cases hs
  | close =>
    simp only [Conn.step] at hs
    split at hs
    · rename_i e _; cases hs; exact end_inv h e
    · cases hs

theorem run_inv {es : List Event} : ∀ {s : Conn}, Inv s → ∀ {s' : Conn}, s.run es = some s' → Inv s' := by
  induction es with
  | nil => intro s h s' hs; cases hs; exact h
  | cons e es ih =>
    intro s h s' hs
    simp only [Conn.run] at hs
    cases h1 : s.step e with
    | none => rw [h1] at hs; cases hs
    | some s1 => rw [h1] at hs; exact ih (step_inv h h1) hs

theorem Spec.Reachable.inv {s : Conn} (h : Reachable s) : Inv s := by
  obtain ⟨es, hes⟩ := h
  exact run_inv init_inv hes

theorem Conn.run_append (es es' : List Event) : ∀ s : Conn, s.run (es ++ es') = (s.run es).bind fun s => s.run es' := by
  induction es with
  | nil => intro s; rfl
  | cons e es ih =>
    intro s
    simp only [List.cons_append, Conn.run]
    cases s.step e with
    | none => rfl
    | some s1 => exact ih s1

theorem Spec.Reachable.step {s : Conn} (h : Reachable s) {e : Event} {s' : Conn} (hs : s.step e = some s') : Reachable s' := by
  obtain ⟨es, hes⟩ := h
  exact ⟨es ++ [e], by rw [Conn.run_append, hes]; simp [Conn.run, hs]⟩

theorem Spec.Reachable.run {s : Conn} (h : Reachable s) {es : List Event} {s' : Conn} (hs : s.run es = some s') : Reachable s' := by
  obtain ⟨es0, hes⟩ := h
  exact ⟨es0 ++ es, by rw [Conn.run_append, hes]; exact hs⟩

end Klick
