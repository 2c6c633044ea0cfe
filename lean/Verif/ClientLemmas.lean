import Verif.Spec.Client
/-
Invariants of a connection.
-/
namespace Klick
open Spec

/-! ### histories -/

@[simp] theorem view_nil : view [] = ⟨none, [], [], []⟩ := rfl
@[simp] theorem view_snoc (l : List Obs) (o : Obs) : view (l ++ [o]) = (view l).next o := by
  simp [view, List.foldl_append]
@[simp] theorem submittedOf_snoc (l : List Obs) (o : Obs) : submittedOf (l ++ [o]) = submittedOf l ++ submittedOf [o] := by
  simp [submittedOf]
@[simp] theorem sentOf_snoc (l : List Obs) (o : Obs) : sentOf (l ++ [o]) = sentOf l ++ sentOf [o] := by
  simp [sentOf]
@[simp] theorem readsOf_snoc (t : Ticket) (l : List Obs) (o : Obs) : readsOf t (l ++ [o]) = readsOf t l ++ readsOf t [o] := by
  simp [readsOf]
@[simp] theorem broadcastOf_snoc (l : List Obs) (o : Obs) : broadcastOf (l ++ [o]) = broadcastOf l ++ broadcastOf [o] := by
  simp [broadcastOf]

theorem Spec.Always.nil (P : List Obs → Obs → Prop) : Always P [] := by
  intro l1 o l2 h; simp at h

theorem Spec.Always.snoc {P : List Obs → Obs → Prop} {l : List Obs} {o : Obs} (h : Always P l) (ho : P l o) :
    Always P (l ++ [o]) := by
  intro l1 o' l2 he
  rcases List.eq_nil_or_concat l2 with rfl | ⟨l2', x, rfl⟩
  · have := List.append_inj' he (by simp)
    obtain ⟨h1, h2⟩ := this
    cases h2
    subst h1; exact ho
  · have e : l1 ++ o' :: (l2' ++ [x]) = (l1 ++ o' :: l2') ++ [x] := by simp
    rw [List.concat_eq_append, e] at he
    have := List.append_inj' he (by simp)
    exact h l1 o' l2' this.1

/-- The items of one query in a list of all items. -/
def pick (t : Ticket) (l : List (Ticket × Item)) : List Item := l.filterMap fun p => if p.1 = t then some p.2 else none

theorem itemsOf_eq (t : Ticket) (l : List Obs) : itemsOf t l = pick t (view l).items := rfl

theorem pick_snoc (t : Ticket) (l : List (Ticket × Item)) (t' : Ticket) (i : Item) :
    pick t (l ++ [(t', i)]) = pick t l ++ (if t' = t then [i] else []) := by
  unfold pick
  rw [List.filterMap_append]
  congr 1
  by_cases h : t' = t <;> simp [h]

/-! ### what every event of a history must satisfy -/

/-- A query is sent when nothing is awaited, in submission order; a block only after its own insert was
sent; nothing after the end of the task. -/
def Rule (l : List Obs) : Obs → Prop
  | .sentQuery t _ => (view l).cur = none ∧ sentOf l ++ [t] <+: submittedOf l ∧ (∀ o ∈ l, o ≠ .died)
  | .sentEmpty t => (view l).cur = some t ∧ (∀ o ∈ l, o ≠ .died)
  | .sentData _ owner _ => ((view l).cur = some owner ∨ owner ∈ (view l).done) ∧ (∀ o ∈ l, o ≠ .died)
  | .got _ => ∀ o ∈ l, o ≠ .died
  | .progress t _ => (view l).cur = some t ∧ (∀ o ∈ l, o ≠ .died)
  | _ => True

/-- Tickets of the queries in the request channel. -/
def qTickets (q : List Req) : List Ticket := q.filterMap fun | .query t _ => some t | _ => none
/-- Tickets and owners of the blocks in the request channel. -/
def qData (q : List Req) : List (Ticket × Ticket) := q.filterMap fun | .data d o _ => some (d, o) | _ => none

@[simp] theorem qTickets_append (a b : List Req) : qTickets (a ++ b) = qTickets a ++ qTickets b := by simp [qTickets]
@[simp] theorem qData_append (a b : List Req) : qData (a ++ b) = qData a ++ qData b := by simp [qData]

@[simp] theorem qTickets_query (t : Ticket) (x : Str) (q : List Req) : qTickets (.query t x :: q) = t :: qTickets q := rfl
@[simp] theorem qTickets_data (d o : Ticket) (b : Block) (q : List Req) : qTickets (.data d o b :: q) = qTickets q := rfl
@[simp] theorem qData_query (t : Ticket) (x : Str) (q : List Req) : qData (.query t x :: q) = qData q := rfl
@[simp] theorem qData_data (d o : Ticket) (b : Block) (q : List Req) : qData (.data d o b :: q) = (d, o) :: qData q := rfl
@[simp] theorem qTickets_nil : qTickets [] = [] := rfl
@[simp] theorem qData_nil : qData [] = [] := rfl

/-- Items buffered in a slot. -/
def bufOf : Option Caller → List Item
  | some (.streaming b _) => b
  | _ => []

/-- The item being sent to the caller of `t`. -/
def inflight (s : Conn) (t : Ticket) : List Item :=
  match s.phase with
  | .sending t' i _ => if t' = t then [i] else []
  | _ => []

/-- The part of the invariant that survives the end of the task; `held` are the tickets in the hands of
the running function. -/
structure Weak (held : List Ticket) (s : Conn) : Prop where
  nodup : (submittedOf s.log).Nodup
  known : ∀ t, t ∈ submittedOf s.log ↔ s.slots t ≠ none
  order : sentOf s.log <+: submittedOf s.log
  waiting : ∀ t, s.slots t = some .waiting → t ∈ held ∨ t ∈ s.pending.map Prod.fst ∨ t ∈ qTickets s.queue
  stream : ∀ t, t ∈ sentOf s.log ↔ ∃ buf o, s.slots t = some (.streaming buf o)
  sender : ∀ t buf, s.slots t = some (.streaming buf true) → s.executing = some t ∨ ∃ i, s.phase = .sending t i true
  items : ∀ t, s.listening t = true → readsOf t s.log ++ bufOf (s.slots t) ++ inflight s t = itemsOf t s.log
  unseen : ∀ t, s.slots t = none → itemsOf t s.log = [] ∧ readsOf t s.log = []
  done : (view s.log).done ++ (view s.log).cur.toList = sentOf s.log
  acks : ∀ d, s.acks d = some .waiting → ∃ o, (d, o) ∈ qData s.queue
  owners : ∀ d o, (d, o) ∈ qData s.queue → o ∈ sentOf s.log
  rule : Always Rule s.log
  progress : broadcastOf s.log = (view s.log).progress
  shape : ∀ t, ∃ (bs : List Block) (tail : List Item), itemsOf t s.log = bs.map Item.block ++ tail ∧
    (tail = [] ∨ t ∈ (view s.log).done ∧ ∃ e, tail = [.error e])

/-- The invariant while the task runs; `held` are the tickets in the hands of the running function. -/
structure Live (held : List Ticket) (s : Conn) : Prop extends Weak held s where
  alive : s.phase ≠ .dead
  notDied : ∀ o ∈ s.log, o ≠ .died
  all : sentOf s.log ++ held ++ s.pending.map Prod.fst ++ qTickets s.queue = submittedOf s.log
  cur : (view s.log).cur = s.executing
  sending : ∀ t i, s.phase = .sending t i false → s.executing = some t
  sendingLast : ∀ t i, s.phase = .sending t i true → s.executing = none ∧ ∃ buf, s.slots t = some (.streaming buf true)
  waits : ∀ t, t ∈ held ∨ t ∈ s.pending.map Prod.fst ∨ t ∈ qTickets s.queue → s.slots t = some .waiting
  sends : ∀ t, s.executing = some t → ∃ buf, s.slots t = some (.streaming buf true)

/-- The invariant. -/
def Inv (s : Conn) : Prop :=
  (s.phase = .dead ∧ Weak [] s ∧ s.queue = [] ∧ s.pending = [] ∧ s.executing = none ∧ .died ∈ s.log) ∨
  (Live [] s ∧ (s.phase = .idle → s.executing = none → s.pending = []))

/-! ### the end of the task -/

theorem upd_self {α : Type} (f : Ticket → α) (t : Ticket) (a : α) : upd f t a t = a := by simp [upd]
theorem upd_ne {α : Type} (f : Ticket → α) {t t' : Ticket} (h : t' ≠ t) (a : α) : upd f t a t' = f t' := by simp [upd, h]

@[simp] theorem failSlot_idem (x : Option Caller) : failSlot (failSlot x) = failSlot x := by
  cases x with
  | none => rfl
  | some x => cases x <;> rfl

theorem foldl_dropReq (q : List Req) : ∀ s : Conn,
    (q.foldl dropReq s).phase = s.phase ∧ (q.foldl dropReq s).queue = s.queue ∧ (q.foldl dropReq s).pending = s.pending ∧
    (q.foldl dropReq s).executing = s.executing ∧ (q.foldl dropReq s).listening = s.listening ∧
    (q.foldl dropReq s).log = s.log ∧
    (∀ t, (q.foldl dropReq s).slots t = if t ∈ qTickets q then failSlot (s.slots t) else s.slots t) ∧
    (∀ d, (q.foldl dropReq s).acks d = if d ∈ (qData q).map Prod.fst then some .failed else s.acks d) := by
  induction q with
  | nil => intro s; simp [qTickets, qData]
  | cons r q ih =>
    intro s
    obtain ⟨h1, h2, h3, h4, h5, h6, h7, h8⟩ := ih (dropReq s r)
    rw [List.foldl_cons]
    cases r with
    | query t x =>
      refine ⟨h1, h2, h3, h4, h5, h6, ?_, ?_⟩
      · intro t'
        rw [h7]
        simp only [dropReq, qTickets_query, List.mem_cons, upd]
        by_cases e : t' = t
        · subst e; by_cases m : t' ∈ qTickets q <;> simp [m]
        · by_cases m : t' ∈ qTickets q <;> simp [m, e]
      · intro d; rw [h8]; by_cases m : d ∈ (qData q).map Prod.fst <;> simp only [dropReq, qData_query, m, if_true, if_false]
    | data d o b =>
      refine ⟨h1, h2, h3, h4, h5, h6, ?_, ?_⟩
      · intro t'; rw [h7]; by_cases m : t' ∈ qTickets q <;> simp only [dropReq, qTickets_data, m, if_true, if_false]
      · intro d'
        rw [h8]
        simp only [dropReq, qData_data, List.map_cons, List.mem_cons, upd]
        by_cases e : d' = d
        · subst e; by_cases m : d' ∈ (qData q).map Prod.fst <;> simp only [m, if_true, if_false, true_or]
        · by_cases m : d' ∈ (qData q).map Prod.fst <;> simp only [m, e, if_true, if_false, or_true, or_false]

theorem foldl_dropPending (q : List (Ticket × Str)) : ∀ s : Conn,
    (q.foldl dropPending s).phase = s.phase ∧ (q.foldl dropPending s).queue = s.queue ∧
    (q.foldl dropPending s).pending = s.pending ∧ (q.foldl dropPending s).executing = s.executing ∧
    (q.foldl dropPending s).listening = s.listening ∧ (q.foldl dropPending s).log = s.log ∧
    (q.foldl dropPending s).acks = s.acks ∧
    (∀ t, (q.foldl dropPending s).slots t = if t ∈ q.map Prod.fst then failSlot (s.slots t) else s.slots t) := by
  induction q with
  | nil => intro s; simp
  | cons r q ih =>
    intro s
    obtain ⟨h1, h2, h3, h4, h5, h6, h7, h8⟩ := ih (dropPending s r)
    rw [List.foldl_cons]
    refine ⟨h1, h2, h3, h4, h5, h6, h7, ?_⟩
    intro t'
    rw [h8]
    simp only [dropPending, List.map_cons, List.mem_cons, upd]
    by_cases e : t' = r.1
    · subst e; by_cases m : r.1 ∈ List.map Prod.fst q <;> simp only [m, if_true, if_false, true_or, failSlot_idem]
    · by_cases m : t' ∈ List.map Prod.fst q <;> simp only [m, e, if_true, if_false, or_true, or_false]

/-- Everything about the state after the end of the task. -/
theorem kill_eq (s : Conn) :
    s.kill.phase = .dead ∧ s.kill.queue = [] ∧ s.kill.pending = [] ∧ s.kill.executing = none ∧
    s.kill.listening = s.listening ∧ s.kill.log = s.log ++ [.died] ∧
    (∀ d, s.kill.acks d = if d ∈ (qData s.queue).map Prod.fst then some .failed else s.acks d) ∧
    (∀ t, s.kill.slots t =
      (if s.executing = some t then closeSlot else id)
        ((if t ∈ s.pending.map Prod.fst ∨ t ∈ qTickets s.queue then failSlot else id) (s.slots t))) := by
  unfold Conn.kill
  dsimp only
  obtain ⟨_, h2, h3, h4, h5, h6, h7, h8⟩ := foldl_dropReq s.queue { s with queue := [] }
  generalize s.queue.foldl dropReq { s with queue := [] } = s1 at *
  simp only at h2 h3 h4 h5 h6 h7 h8
  obtain ⟨_, g2, g3, g4, g5, g6, g7, g8⟩ := foldl_dropPending s1.pending { s1 with pending := [] }
  generalize s1.pending.foldl dropPending { s1 with pending := [] } = s2 at *
  simp only at g2 g3 g4 g5 g6 g7 g8
  have hs : ∀ t, s2.slots t = (if t ∈ s.pending.map Prod.fst ∨ t ∈ qTickets s.queue then failSlot else id) (s.slots t) := by
    intro t
    rw [g8, h7, h3]
    by_cases a : t ∈ s.pending.map Prod.fst <;> by_cases b : t ∈ qTickets s.queue <;>
      simp only [a, b, if_true, if_false, or_self, or_true, true_or, failSlot_idem, id]
  unfold dropExecuting
  rw [show s2.executing = s.executing by rw [g4, h4]]
  cases he : s.executing with
  | none =>
    refine ⟨rfl, by simp [Conn.note, g2, h2], by simp [Conn.note, g3], by simp [Conn.note, g4, h4, he], by simp [Conn.note, g5, h5],
      by simp [Conn.note, g6, h6], fun d => by simp [Conn.note, g7, h8], ?_⟩
    intro t
    simp [Conn.note, hs]
  | some t0 =>
    refine ⟨rfl, by simp [Conn.note, g2, h2], by simp [Conn.note, g3], rfl, by simp [Conn.note, g5, h5],
      by simp [Conn.note, g6, h6], fun d => by simp [Conn.note, g7, h8], ?_⟩
    intro t
    simp only [Conn.note, upd, hs, Option.some.injEq]
    by_cases e : t = t0
    · subst e; simp
    · have e' : ¬ t0 = t := fun h => e h.symm
      simp only [e, e', if_false, id]

theorem failSlot_ne_waiting (x : Option Caller) : failSlot x ≠ some .waiting := by
  cases x with
  | none => simp [failSlot]
  | some x => cases x <;> simp [failSlot]

theorem closeSlot_waiting {x : Option Caller} : closeSlot x = some .waiting ↔ x = some .waiting := by
  cases x with
  | none => simp [closeSlot]
  | some x => cases x <;> simp [closeSlot]

theorem failSlot_streaming {x : Option Caller} {b : List Item} {o : Bool} :
    failSlot x = some (.streaming b o) ↔ x = some (.streaming b o) := by
  cases x with
  | none => simp [failSlot]
  | some x => cases x <;> simp [failSlot]

theorem failSlot_none {x : Option Caller} : failSlot x = none ↔ x = none := by
  cases x with
  | none => simp [failSlot]
  | some x => cases x <;> simp [failSlot]

theorem closeSlot_none {x : Option Caller} : closeSlot x = none ↔ x = none := by
  cases x with
  | none => simp [closeSlot]
  | some x => cases x <;> simp [closeSlot]

@[simp] theorem bufOf_fail (x : Option Caller) : bufOf (failSlot x) = bufOf x := by
  cases x with
  | none => rfl
  | some x => cases x <;> rfl

@[simp] theorem bufOf_close (x : Option Caller) : bufOf (closeSlot x) = bufOf x := by
  cases x with
  | none => rfl
  | some x => cases x <;> rfl

theorem closeSlot_streaming {x : Option Caller} : (∃ b o, closeSlot x = some (.streaming b o)) ↔ ∃ b o, x = some (.streaming b o) := by
  cases x with
  | none => simp [closeSlot]
  | some x => cases x <;> simp [closeSlot]

theorem closeSlot_open {x : Option Caller} {b : List Item} : closeSlot x ≠ some (.streaming b true) := by
  cases x with
  | none => simp [closeSlot]
  | some x => cases x <;> simp [closeSlot]

theorem kill_weak {s : Conn} (h : Weak [] s) (hp : ∀ t i l, s.phase ≠ .sending t i l) : Weak [] s.kill := by
  obtain ⟨k1, k2, k3, k4, k5, k6, k7, k8⟩ := kill_eq s
  have none_iff : ∀ t, s.kill.slots t = none ↔ s.slots t = none := by
    intro t; rw [k8]
    split <;> split <;> simp [closeSlot_none, failSlot_none]
  have buf_eq : ∀ t, bufOf (s.kill.slots t) = bufOf (s.slots t) := by
    intro t; rw [k8]
    split <;> split <;> simp
  have fl : ∀ t, inflight s t = [] := by
    intro t; unfold inflight
    split
    · rename_i t' i l e; exact absurd e (hp t' i l)
    · rfl
  have fl' : ∀ t, inflight s.kill t = [] := by intro t; unfold inflight; rw [k1]
  have stream_iff : ∀ t, (∃ b o, s.kill.slots t = some (.streaming b o)) ↔ ∃ b o, s.slots t = some (.streaming b o) := by
    intro t; rw [k8]
    have hf : (∃ b o, failSlot (s.slots t) = some (.streaming b o)) ↔ ∃ b o, s.slots t = some (.streaming b o) := by
      simp only [failSlot_streaming]
    split <;> split <;> simp only [closeSlot_streaming, hf, id]
  have nx : (view s.log).next .died = view s.log := rfl
  have io : ∀ t, itemsOf t (s.log ++ [.died]) = itemsOf t s.log := by
    intro t; rw [itemsOf_eq, itemsOf_eq, view_snoc, nx]
  constructor
  · rw [k6]; simpa [submittedOf] using h.nodup
  · intro t; rw [k6, ne_eq, none_iff]; simpa [submittedOf] using h.known t
  · rw [k6]; simpa [submittedOf, sentOf] using h.order
  · intro t ht
    rw [k8] at ht
    exfalso
    have : (if t ∈ s.pending.map Prod.fst ∨ t ∈ qTickets s.queue then failSlot else id) (s.slots t) = some .waiting := by
      split at ht
      · exact closeSlot_waiting.mp ht
      · exact ht
    split at this
    · exact failSlot_ne_waiting _ this
    · rename_i hm; exact hm ((h.waiting t this).resolve_left (by simp))
  · intro t; rw [k6, stream_iff]; simpa [sentOf] using h.stream t
  · intro t buf ht
    exfalso
    rw [k8] at ht
    split at ht
    · exact closeSlot_open ht
    · rename_i he
      have : s.slots t = some (.streaming buf true) := by
        simp only [id] at ht
        split at ht
        · exact failSlot_streaming.mp ht
        · exact ht
      rcases h.sender t buf this with h1 | ⟨i, h1⟩
      · exact he h1
      · exact hp _ _ _ h1
  · intro t ht
    rw [k6, io, fl', buf_eq]
    rw [k5] at ht
    have := h.items t ht
    rw [fl] at this
    simpa [readsOf] using this
  · intro t ht
    rw [none_iff] at ht
    rw [k6, io]
    simpa [readsOf] using h.unseen t ht
  · rw [k6, view_snoc, nx]; simpa [sentOf] using h.done
  · intro d hd
    rw [k7] at hd
    split at hd
    · cases hd
    · rename_i hn
      obtain ⟨o, ho⟩ := h.acks d hd
      exact absurd (List.mem_map.mpr ⟨_, ho, rfl⟩) hn
  · intro d o hd; rw [k2] at hd; simp [qData] at hd
  · rw [k6]; exact h.rule.snoc trivial
  · rw [k6, view_snoc, nx]; simpa [broadcastOf] using h.progress
  · intro t; rw [k6, io, view_snoc, nx]; exact h.shape t

theorem kill_inv {s : Conn} (h : Weak [] s) (hp : ∀ t i l, s.phase ≠ .sending t i l) : Inv s.kill := by
  obtain ⟨k1, k2, k3, k4, _, k6, _⟩ := kill_eq s
  exact .inl ⟨k1, kill_weak h hp, k2, k3, k4, by rw [k6]; simp⟩

/-! ### neutral changes -/

theorem itemsOf_snoc_of {t : Ticket} {l : List Obs} {o : Obs} (h : ((view l).next o).items = (view l).items) :
    itemsOf t (l ++ [o]) = itemsOf t l := by
  rw [itemsOf_eq, itemsOf_eq, view_snoc, h]

/-- `dispatch` keeps the invariant. -/
theorem dispatch_inv {s : Conn} {t : Ticket} (h : Live [t] s) (hi : s.phase = .idle) (he : s.executing = none)
    (k : Nat) (text : Str) : Inv (dispatch k t text s) := by
  have hw : s.slots t = some .waiting := h.waits t (.inl (by simp))
  have hns : t ∉ sentOf s.log := by
    intro hm
    obtain ⟨b, o, e⟩ := (h.stream t).mp hm
    rw [hw] at e; cases e
  unfold dispatch
  cases k with
  | zero =>
    dsimp only
    apply kill_inv
    · constructor
      · exact h.nodup
      · intro t'
        rw [h.known]
        dsimp only [upd]
        split
        · rename_i e; subst e; simp [hw, failSlot]
        · rfl
      · exact h.order
      · intro t' ht'
        dsimp only [upd] at ht'
        split at ht'
        · exact absurd ht' (failSlot_ne_waiting _)
        · rename_i e; exact .inr ((h.waiting t' ht').resolve_left (by simpa using e))
      · intro t'
        rw [h.stream t']
        dsimp only [upd]
        split
        · rename_i e; subst e; simp [hw, failSlot]
        · rfl
      · intro t' buf ht'
        dsimp only [upd] at ht'
        split at ht'
        · rename_i e; subst e; rw [hw] at ht'; simp [failSlot] at ht'
        · exact h.sender t' buf ht'
      · intro t' ht'
        have := h.items t' ht'
        rw [← this]
        dsimp only [upd, inflight]
        split
        · rename_i e; subst e; simp
        · rfl
      · intro t' ht'
        dsimp only [upd] at ht'
        split at ht'
        · rename_i e; subst e; rw [hw] at ht'; simp [failSlot] at ht'
        · exact h.unseen t' ht'
      · exact h.done
      · exact h.acks
      · exact h.owners
      · exact h.rule
      · exact h.progress
      · exact h.shape
    · intro t' i l e; dsimp only at e; rw [hi] at e; cases e
  | succ k =>
    have hcur : (view s.log).cur = none := by rw [h.cur, he]
    -- the state after the query packet
    have hw1 : Live [] { s.note (.sentQuery t text) with slots := upd s.slots t (some (.streaming [] true)), executing := some t } := by
      have hv : view (s.log ++ [.sentQuery t text]) = { view s.log with cur := some t } := by rw [view_snoc]; rfl
      have hio : ∀ t', itemsOf t' (s.log ++ [.sentQuery t text]) = itemsOf t' s.log := fun t' => itemsOf_snoc_of rfl
      have hpre : sentOf s.log ++ [t] <+: submittedOf s.log := by
        rw [← h.all]
        simp only [List.append_assoc]
        exact ⟨s.pending.map Prod.fst ++ qTickets s.queue, by simp⟩
      constructor
      · constructor
        · simpa [Conn.note, submittedOf] using h.nodup
        · intro t'
          simp only [Conn.note, submittedOf_snoc]
          rw [show submittedOf [Obs.sentQuery t text] = [] from rfl, List.append_nil, h.known]
          dsimp only [upd]
          split
          · rename_i e; subst e; simp [hw]
          · rfl
        · simpa [Conn.note, submittedOf, sentOf] using hpre
        · intro t' ht'
          dsimp only [upd] at ht'
          split at ht'
          · cases ht'
          · rename_i e; exact .inr ((h.waiting t' ht').resolve_left (by simpa using e))
        · intro t'
          simp only [Conn.note, sentOf_snoc]
          rw [show sentOf [Obs.sentQuery t text] = [t] from rfl, List.mem_append, h.stream]
          dsimp only [upd]
          split
          · rename_i e; subst e; simp
          · rename_i e; simp [e]
        · intro t' buf ht'
          dsimp only [upd] at ht'
          split at ht'
          · rename_i e; left; rw [e]
          · rcases h.sender t' buf ht' with h1 | ⟨i, h1⟩
            · rw [he] at h1; cases h1
            · rw [hi] at h1; cases h1
        · intro t' ht'
          have := h.items t' ht'
          dsimp only [Conn.note]
          rw [hio, ← this]
          simp only [readsOf_snoc]
          rw [show readsOf t' [Obs.sentQuery t text] = [] from rfl, List.append_nil]
          dsimp only [upd, inflight]
          split
          · rename_i e; subst e; rw [hw]; rfl
          · rfl
        · intro t' ht'
          dsimp only [upd] at ht'
          split at ht'
          · cases ht'
          · dsimp only [Conn.note]
            rw [hio]
            simpa [readsOf] using h.unseen t' ht'
        · dsimp only [Conn.note]
          rw [hv]
          have := h.done
          rw [hcur] at this
          simp only [Option.toList] at this ⊢
          rw [List.append_nil] at this
          simp [sentOf_snoc, this, sentOf]
        · exact h.acks
        · intro d o hd
          have := h.owners d o hd
          simp [Conn.note, this]
        · refine h.rule.snoc ?_
          exact ⟨hcur, hpre, h.notDied⟩
        · dsimp only [Conn.note]
          rw [hv]
          simpa [broadcastOf] using h.progress
        · intro t'
          dsimp only [Conn.note]
          rw [hio, hv]
          exact h.shape t'
      · exact h.alive
      · intro o ho
        simp only [Conn.note, List.mem_append, List.mem_singleton] at ho
        rcases ho with ho | rfl
        · exact h.notDied o ho
        · simp
      · have := h.all
        simp only [Conn.note, submittedOf_snoc, sentOf_snoc]
        rw [show submittedOf [Obs.sentQuery t text] = [] from rfl, show sentOf [Obs.sentQuery t text] = [t] from rfl,
          List.append_nil, ← this]
        simp
      · dsimp only [Conn.note]; rw [hv]
      · intro t' i hp; dsimp only [Conn.note] at hp; rw [hi] at hp; cases hp
      · intro t' i hp; dsimp only [Conn.note] at hp; rw [hi] at hp; cases hp
      · intro t' ht'
        have ne : t' ≠ t := by
          intro e
          subst e
          have hnd := h.nodup
          rw [← h.all] at hnd
          simp only [Conn.note, List.not_mem_nil, false_or] at ht'
          have hm : t' ∈ s.pending.map Prod.fst ++ qTickets s.queue := List.mem_append.mpr ht'
          rw [List.append_assoc, List.append_assoc] at hnd
          have := (List.nodup_append.mp hnd).2.1
          rw [List.singleton_append, List.nodup_cons] at this
          exact this.1 hm
        dsimp only [upd]
        rw [if_neg ne]
        refine h.waits t' (.inr ?_)
        simpa [Conn.note] using ht'
      · intro t' ht'
        cases ht'
        exact ⟨[], by simp [upd]⟩
    cases k with
    | zero =>
      dsimp only
      exact kill_inv hw1.toWeak (by intro t' i l e; dsimp only [Conn.note] at e; rw [hi] at e; cases e)
    | succ k =>
      dsimp only
      generalize hs1 : ({ s.note (.sentQuery t text) with slots := upd s.slots t (some (.streaming [] true)), executing := some t } : Conn) = s1 at hw1 ⊢
      have hex : s1.executing = some t := by subst hs1; rfl
      refine .inr ⟨?_, fun _ e => ?_⟩
      · have hv : (view s1.log).next (.sentEmpty t) = view s1.log := rfl
        constructor
        · constructor
          · simpa [Conn.note, submittedOf] using hw1.nodup
          · intro t'; simpa [Conn.note, submittedOf] using hw1.known t'
          · simpa [Conn.note, submittedOf, sentOf] using hw1.order
          · exact hw1.waiting
          · intro t'; simpa [Conn.note, sentOf] using hw1.stream t'
          · exact hw1.sender
          · intro t' ht'
            dsimp only [Conn.note]
            rw [itemsOf_snoc_of (by rw [hv])]
            simpa [readsOf, inflight, Conn.note] using hw1.items t' ht'
          · intro t' ht'
            dsimp only [Conn.note]
            rw [itemsOf_snoc_of (by rw [hv])]
            simpa [readsOf] using hw1.unseen t' ht'
          · dsimp only [Conn.note]; rw [view_snoc, hv]; simpa [sentOf] using hw1.done
          · exact hw1.acks
          · intro d o hd; simpa [Conn.note, sentOf] using hw1.owners d o hd
          · refine hw1.rule.snoc ⟨?_, hw1.notDied⟩
            rw [hw1.cur, hex]
          · dsimp only [Conn.note]; rw [view_snoc, hv]; simpa [broadcastOf] using hw1.progress
          · intro t'
            dsimp only [Conn.note]
            rw [itemsOf_snoc_of (by rw [hv]), view_snoc, hv]
            exact hw1.shape t'
        · exact hw1.alive
        · intro o ho
          simp only [Conn.note, List.mem_append, List.mem_singleton] at ho
          rcases ho with ho | rfl
          · exact hw1.notDied o ho
          · simp
        · simpa [Conn.note, submittedOf, sentOf] using hw1.all
        · dsimp only [Conn.note]; rw [view_snoc, hv]; exact hw1.cur
        · exact hw1.sending
        · exact hw1.sendingLast
        · exact hw1.waits
        · exact hw1.sends
      · simp only [Conn.note] at e; rw [hex] at e; cases e

end Klick
