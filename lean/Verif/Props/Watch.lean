import Verif.Spec.Watch
import Verif.Props.Handles
import Verif.Props.Outgoing
/-
C87: subscribers of progress.
-/
namespace Klick
open Klick Klick.Spec

theorem Watched.Run.snoc {cap : Nat} {s s' s'' : Watched} {es : List WatchEvent} {e : WatchEvent} (h : Watched.Run cap s es s')
    (h2 : Watched.Step cap s' e s'') : Watched.Run cap s (es ++ [e]) s'' := by
  induction h with
  | nil => exact .cons h2 .nil
  | cons a _ ih => exact .cons a (ih h2)

theorem Watched.Run.append {cap : Nat} {s s' s'' : Watched} {es es' : List WatchEvent} (h : Watched.Run cap s es s')
    (h2 : Watched.Run cap s' es' s'') : Watched.Run cap s (es ++ es') s'' := by
  induction h with
  | nil => exact h2
  | cons a _ ih => exact .cons a (ih h2)

theorem Spec.Accounts.snoc {told : List Told} {all x rest : List Report} {y : Told} (h : Accounts told all (x ++ rest))
    (hy : (∃ r, y = .report r ∧ x = [r]) ∨ y = .missed x.length ∨ (y = .ended ∧ x = [])) : Accounts (told ++ [y]) all rest := by
  generalize hr : x ++ rest = r at h
  induction h with
  | start =>
    subst hr
    rcases hy with ⟨r, rfl, rfl⟩ | rfl | ⟨rfl, rfl⟩
    · exact .report .start
    · exact .missed .start
    · exact .ended .start
  | report _ ih => exact .report (ih hr)
  | missed _ ih => exact .missed (ih hr)
  | ended _ ih => exact .ended (ih hr)

theorem Spec.Accounts.grow {told : List Told} {all rest : List Report} (h : Accounts told all rest) (n : List Report) :
    Accounts told (all ++ n) (rest ++ n) := by
  induction h with
  | start => exact .start
  | report _ ih => exact .report ih
  | missed _ ih => rw [List.append_assoc]; exact .missed ih
  | ended _ ih => exact .ended ih

theorem Spec.Accounts.complete {told : List Told} {all rest : List Report} (h : Accounts told all rest) (hm : ∀ n, .missed n ∉ told) :
    reportsIn told ++ rest = all := by
  induction h with
  | start => rfl
  | report _ ih =>
    have := ih (fun n hn => hm n (by simp [hn]))
    simp only [reportsIn, List.filterMap_cons, List.cons_append] at this ⊢
    rw [this]
  | @missed _ gap _ _ _ _ => exact absurd (List.mem_cons_self ..) (hm gap.length)
  | ended _ ih =>
    have := ih (fun n hn => hm n (by simp [hn]))
    simpa only [reportsIn, List.filterMap_cons] using this

/-- The channel after the reports `all`. -/
def boardOf (cap : Nat) (all : List Report) : Board := ⟨all.length, all.drop (all.length - cap)⟩

theorem board_send (cap : Nat) (all : List Report) (r : Report) : (boardOf cap all).send cap r = boardOf cap (all ++ [r]) := by
  simp only [boardOf, Board.send, List.length_append, List.length_drop, List.length_cons, List.length_nil, Board.mk.injEq, Nat.zero_add, true_and]
  by_cases h : all.length < cap
  · have e1 : all.length - cap = 0 := by omega
    have e2 : all.length + 1 - cap = 0 := by omega
    rw [e1]; simp only [List.drop_zero, Nat.sub_zero]
  · have e1 : all.length + 1 - cap = (all.length - cap) + 1 := by omega
    have e2 : all.length - (all.length - cap) + 1 - cap = 1 ∨ cap = 0 := by omega
    rcases Nat.eq_zero_or_pos cap with hc | hc
    · subst hc; simp
    · have e2 : all.length - (all.length - cap) + 1 - cap = 1 := by omega
      rw [e2, List.drop_append_of_le_length (by rw [List.length_drop]; omega), List.drop_drop, e1,
        List.drop_append_of_le_length (by omega)]

theorem board_sends (cap : Nat) (all new : List Report) : new.foldl (Board.send cap) (boardOf cap all) = boardOf cap (all ++ new) := by
  induction new generalizing all with
  | nil => simp
  | cons r new ih => rw [List.foldl_cons, board_send, ih]; simp

/-- Reading from the channel, in terms of the reports not yet got. -/
theorem board_recv (cap : Nat) (all : List Report) (next : Nat) (hn : next ≤ all.length) :
    (boardOf cap all).recv next =
      if cap < (all.drop next).length then some (.missed ((all.drop next).length - cap), all.length - cap)
      else ((all.drop next).head?).map fun r => (.report r, next + 1) := by
  simp only [Board.recv, boardOf, List.length_drop]
  have e : all.length - (all.length - (all.length - cap)) = all.length - cap := by omega
  rw [e]
  by_cases h : cap < all.length - next
  · rw [if_pos h, if_pos (by omega)]
    simp only [Option.some.injEq, Prod.mk.injEq, Told.missed.injEq, and_true]; omega
  · rw [if_neg h, if_neg (by omega), List.getElem?_drop]
    have e2 : all.length - cap + (next - (all.length - cap)) = next := by omega
    rw [e2, List.head?_drop]
    cases all[next]? <;> rfl

/-- The invariant. -/
structure WatchInv (cap : Nat) (s : Watched) : Prop where
  owned : OwnedReachable s.owned
  board : s.board = boardOf cap (broadcastOf s.owned.conn.log)
  watchers : ∀ w x, s.watchers w = some x → x.next ≤ (broadcastOf s.owned.conn.log).length ∧ x.since ≤ s.owned.conn.log.length ∧
    Accounts x.told (broadcastOf (s.owned.conn.log.drop x.since)) ((broadcastOf s.owned.conn.log).drop x.next) ∧
    (.ended ∈ x.told → s.owned.handles = 0 ∧ s.owned.isClosed = true) ∧
    ∃ c, Reachable c ∧ c.log = s.owned.conn.log.take x.since

theorem owned_log {s s' : Owned} {e : OwnedEvent} (h : Owned.Step s e s') : ∃ l, s'.conn.log = s.conn.log ++ l := by
  cases e with
  | clone => cases h; exact ⟨[], by simp⟩
  | release => cases h; exact ⟨[], by simp⟩
  | conn e =>
    obtain ⟨l, hl, _⟩ := step_log h.conn.1
    exact ⟨l, hl⟩

theorem newReports_eq (l n : List Obs) : newReports l (l ++ n) = broadcastOf n := by
  unfold newReports broadcastOf
  rw [List.drop_left]
  congr 1

theorem broadcastOf_append (l n : List Obs) : broadcastOf (l ++ n) = broadcastOf l ++ broadcastOf n := by
  simp [broadcastOf]

theorem watch_step {cap : Nat} {s s' : Watched} {e : WatchEvent} (h : WatchInv cap s) (hs : Watched.Step cap s e s') : WatchInv cap s' := by
  cases hs with
  | @owned o b ws e o' ho =>
    obtain ⟨l, hl⟩ := owned_log ho
    have hb : b = boardOf cap (broadcastOf o.conn.log) := h.board
    refine ⟨h.owned.step ho, ?_, ?_⟩
    · show (newReports o.conn.log o'.conn.log).foldl _ _ = _
      rw [hl, newReports_eq, hb, board_sends, broadcastOf_append]
    · intro w x hx
      obtain ⟨h1, h2, h3, h4, c, h5, h6⟩ := h.watchers w x hx
      dsimp only at h1 h2 h3 h4 h6 ⊢
      refine ⟨?_, ?_, ?_, ?_, c, h5, ?_⟩
      · rw [hl, broadcastOf_append, List.length_append]; omega
      · rw [hl, List.length_append]; omega
      · rw [hl, List.drop_append_of_le_length h2, broadcastOf_append, broadcastOf_append, List.drop_append_of_le_length h1]
        exact h3.grow _
      · intro hm
        obtain ⟨h7, h8⟩ := h4 hm
        have hc := (Props.C85_closed_final h.owned h8 ho).1
        refine ⟨?_, hc⟩
        cases ho <;> simp_all
      · rw [hl, List.take_append_of_le_length h2, h6]
  | @subscribe o b ws w hh hw =>
    refine ⟨h.owned, h.board, ?_⟩
    intro w' x hx
    dsimp only [upd] at hx
    split at hx
    · cases hx
      have hb : b = boardOf cap (broadcastOf o.conn.log) := h.board
      refine ⟨by rw [hb]; exact Nat.le_refl _, Nat.le_refl _, ?_, (by intro hm; cases hm), o.conn, h.owned.conn, by simp⟩
      rw [hb]
      simp only [List.drop_length, boardOf]
      exact .start
    · exact h.watchers w' x hx
  | @hear o b ws w next since told x next' hw hr =>
    refine ⟨h.owned, h.board, ?_⟩
    have hb : b = boardOf cap (broadcastOf o.conn.log) := h.board
    intro w' y hy
    dsimp only [upd] at hy
    split at hy
    · cases hy
      obtain ⟨h1, h2, h3, h4, h5⟩ := h.watchers w _ hw
      dsimp only at h1 h2 h3 h4 h5 ⊢
      rw [hb, board_recv cap _ next h1] at hr
      split at hr
      · rename_i hlt
        cases hr
        refine ⟨by omega, h2, ?_, ?_, h5⟩
        · refine Accounts.snoc (x := ((broadcastOf o.conn.log).drop next).take (((broadcastOf o.conn.log).drop next).length - cap)) ?_ (.inr (.inl ?_))
          · rw [List.length_drop] at hlt ⊢
            have : (broadcastOf o.conn.log).drop ((broadcastOf o.conn.log).length - cap) =
                ((broadcastOf o.conn.log).drop next).drop ((broadcastOf o.conn.log).length - next - cap) := by
              rw [List.drop_drop]; congr 1; omega
            rw [this, List.take_append_drop]; exact h3
          · rw [List.length_take]; congr 1; omega
        · intro hm
          simp only [List.mem_append, List.mem_singleton, reduceCtorEq, or_false] at hm
          exact h4 hm
      · cases hd : (broadcastOf o.conn.log).drop next with
        | nil => rw [hd] at hr; cases hr
        | cons r rest =>
          rw [hd] at hr; cases hr
          have hlen : next < (broadcastOf o.conn.log).length := by
            have := congrArg List.length hd
            rw [List.length_drop] at this; simp at this; omega
          refine ⟨hlen, h2, ?_, ?_, h5⟩
          · refine Accounts.snoc (x := [r]) ?_ (.inl ⟨r, rfl, rfl⟩)
            have : (broadcastOf o.conn.log).drop (next + 1) = rest := by
              rw [← List.drop_drop (i := 1) (j := next), hd]; rfl
            rw [this, List.singleton_append, ← hd]; exact h3
          · intro hm
            simp only [List.mem_append, List.mem_singleton, reduceCtorEq, or_false] at hm
            exact h4 hm
    · exact h.watchers w' y hy
  | @ended o b ws w next since told hw hr hh hc =>
    refine ⟨h.owned, h.board, ?_⟩
    intro w' y hy
    dsimp only [upd] at hy
    split at hy
    · cases hy
      obtain ⟨h1, h2, h3, h4, h5⟩ := h.watchers w _ hw
      exact ⟨h1, h2, Accounts.snoc (x := []) h3 (.inr (.inr ⟨rfl, rfl⟩)), fun _ => ⟨hh, hc⟩, h5⟩
    · exact h.watchers w' y hy
  | @leave o b ws w =>
    refine ⟨h.owned, h.board, ?_⟩
    intro w' y hy
    dsimp only [upd] at hy
    split at hy
    · cases hy
    · exact h.watchers w' y hy

theorem watch_init (cap : Nat) : WatchInv cap .init :=
  ⟨⟨[], .nil⟩, (by show (⟨0, []⟩ : Board) = boardOf cap []; simp [boardOf]), fun _ _ h => by cases h⟩

theorem watch_run {cap : Nat} {s s' : Watched} {es : List WatchEvent} (hr : Watched.Run cap s es s') (h : WatchInv cap s) : WatchInv cap s' := by
  induction hr with
  | nil => exact h
  | cons hs _ ih => exact ih (watch_step h hs)

/-- Progress belongs to queries that were sent. -/
theorem progress_sent (l : List Obs) :
    (∀ t, (view l).cur = some t → t ∈ sentOf l) ∧ ∀ r, r ∈ (view l).progress → r.1 ∈ sentOf l := by
  induction l using snocInd with
  | h0 => exact ⟨fun _ h => (by cases h), fun _ h => (by cases h)⟩
  | h1 l o ih =>
    rw [view_snoc, sentOf_snoc]
    generalize view l = v at ih ⊢
    generalize sentOf l = q at ih ⊢
    obtain ⟨cur, items, pr, done⟩ := v
    dsimp only at ih
    obtain ⟨h1, h2⟩ := ih
    have keep : ∀ n, (∀ t, cur = some t → t ∈ q ++ n) ∧ ∀ r, r ∈ pr → r.1 ∈ q ++ n :=
      fun n => ⟨fun t ht => List.mem_append_left _ (h1 t ht), fun r hr => List.mem_append_left _ (h2 r hr)⟩
    have lose : ∀ n, (∀ t, (none : Option Ticket) = some t → t ∈ q ++ n) ∧ ∀ r, r ∈ pr → r.1 ∈ q ++ n :=
      fun n => ⟨fun t ht => (by cases ht), (keep n).2⟩
    cases o with
    | sentQuery t x =>
      refine ⟨fun u hu => ?_, (keep _).2⟩
      cases hu
      exact List.mem_append_right _ (List.mem_singleton.mpr rfl)
    | got p =>
      cases p with
      | data n b => cases cur <;> exact keep _
      | exception e => cases cur <;> exact lose _
      | endOfStream => cases cur <;> exact lose _
      | progress p =>
        cases cur with
        | none => exact keep _
        | some t =>
          refine ⟨(keep _).1, fun r hr => ?_⟩
          rcases List.mem_append.mp hr with hr | hr
          · exact (keep _).2 r hr
          · rw [List.mem_singleton.mp hr]; exact (keep _).1 t rfl
      | _ => exact keep _
    | _ => exact keep _

theorem about_append (t : Ticket) (a b : List Report) : about t (a ++ b) = about t a ++ about t b := by
  simp [about]

theorem about_none {t : Ticket} {l : List Report} (h : ∀ r, r ∈ l → r.1 ≠ t) : about t l = [] := by
  simp only [about, List.filterMap_eq_nil_iff]
  intro r hr
  rw [if_neg (h r hr)]

/-- A dead connection reports nothing, and a handle is only lost by dropping it. -/
theorem dead_quiet {s s' : Owned} {e : OwnedEvent} (hc : s.isClosed = true) (hs : Owned.Step s e s') :
    newReports s.conn.log s'.conn.log = [] ∧ s'.isClosed = true ∧ (e ≠ .release → s'.handles = s.handles ∨ s'.handles = s.handles + 1) := by
  have hd : s.conn.phase = .dead := by
    unfold Owned.isClosed at hc
    split at hc
    · assumption
    · cases hc
  have same : ∀ c : Conn, c.log = s.conn.log → newReports s.conn.log c.log = [] := fun c hl => by
    rw [hl]; simp [newReports]
  have cl : ∀ o : Owned, o.conn.phase = .dead → o.isClosed = true := fun o ho => by simp only [Owned.isClosed, ho]
  cases hs with
  | clone => exact ⟨same _ rfl, hc, fun _ => .inr rfl⟩
  | release => exact ⟨same _ rfl, cl _ hd, fun h => absurd rfl h⟩
  | submit _ h => dsimp only at hd; simp only [Conn.step, hd] at h; cases h
  | submitData _ h => dsimp only at hd; simp only [Conn.step, hd] at h; cases h
  | close h => dsimp only at hd; simp only [Conn.step, hd] at h; cases h
  | handle h => dsimp only at hd; simp only [Conn.step, hd] at h; cases h
  | packet h => dsimp only at hd; simp only [Conn.step, hd] at h; cases h
  | deliver h => dsimp only at hd; simp only [Conn.step, hd] at h; cases h
  | fail h => dsimp only at hd; simp only [Conn.step, hd] at h; cases h
  | recv h =>
    simp only [Conn.step] at h
    split at h
    · cases h
      exact ⟨by simp [newReports, Conn.note], cl _ hd, fun _ => .inl rfl⟩
    · cases h
  | drop h =>
    simp only [Conn.step] at h
    split at h
    · cases h
      exact ⟨same _ rfl, cl _ hd, fun _ => .inl rfl⟩
    · cases h

theorem Spec.WatchReachable.inv {cap : Nat} {s : Watched} (h : WatchReachable cap s) : WatchInv cap s := by
  obtain ⟨es, h⟩ := h
  exact watch_run h (watch_init cap)

end Klick

namespace Klick.Props
open Klick Klick.Spec

/-- C87: what a subscriber has been told accounts for the reports broadcast since it subscribed, in order, up to some point, gaps being
announced with their length; and what it is told next is the first report behind that point, unless more reports are waiting than the
channel keeps (at least 100), when it is told how many were dropped; it is told of the end exactly when it has got everything, the connection
has ended and no handle is left. -/
theorem C87_reports {cap : Nat} {s : Watched} (h : WatchReachable cap s) {w : Nat} {x : Watcher} (hx : s.watchers w = some x) :
    ∃ rest, Accounts x.told (broadcastOf (s.owned.conn.log.drop x.since)) rest ∧
      ∀ y, (∃ s', Watched.Step cap s (.hear w y) s') ↔ ToldNext cap (s.owned.handles = 0 ∧ s.owned.isClosed = true) rest y := by
  obtain ⟨h1, _, h3, _⟩ := h.inv.watchers w x hx
  refine ⟨_, h3, ?_⟩
  have hb := h.inv.board
  obtain ⟨next, since, told⟩ := x
  obtain ⟨o, b, ws⟩ := s
  dsimp only at h1 h3 hb hx ⊢
  have hrec := board_recv cap (broadcastOf o.conn.log) next h1
  rw [← hb] at hrec
  intro y
  constructor
  · rintro ⟨s', hs⟩
    cases hs with
    | hear hw hr =>
      rw [hx] at hw; cases hw
      rw [hr] at hrec
      split at hrec
      · rename_i hlt
        cases hrec
        exact ⟨hlt, rfl⟩
      · rename_i hlt
        cases hd : (broadcastOf o.conn.log).drop next with
        | nil => rw [hd] at hrec; cases hrec
        | cons r rest =>
          rw [hd] at hrec hlt; cases hrec
          exact ⟨by omega, rfl⟩
    | ended hw hr hh hc =>
      rw [hx] at hw; cases hw
      rw [hr] at hrec
      split at hrec
      · cases hrec
      · cases hd : (broadcastOf o.conn.log).drop next with
        | nil => exact ⟨rfl, hh, hc⟩
        | cons r rest => rw [hd] at hrec; cases hrec
  · intro hy
    cases y with
    | report r =>
      rw [if_neg (by have := hy.1; omega), hy.2] at hrec
      exact ⟨_, .hear (show ws w = some ⟨next, since, told⟩ from hx) hrec⟩
    | missed n =>
      rw [if_pos hy.1, ← hy.2] at hrec
      exact ⟨_, .hear (show ws w = some ⟨next, since, told⟩ from hx) hrec⟩
    | ended =>
      rw [hy.1] at hrec
      exact ⟨_, .ended (show ws w = some ⟨next, since, told⟩ from hx) (by simpa using hrec) hy.2.1 hy.2.2⟩

/-- C87, about one query: who subscribed before the query was sent, missed nothing and has nothing left to get, has got exactly the
progress the server reported while that query was executed, in order. -/
theorem C87_query {cap : Nat} {s : Watched} (h : WatchReachable cap s) {w : Nat} {x : Watcher} (hx : s.watchers w = some x) {t : Ticket}
    (hsub : t ∉ sentOf (s.owned.conn.log.take x.since)) (hm : ∀ n, .missed n ∉ x.told) (hrest : ∀ y s', Watched.Step cap s (.hear w y) s' → y = .ended) :
    about t (reportsIn x.told) = about t (view s.owned.conn.log).progress := by
  obtain ⟨rest, hacc, hnext⟩ := C87_reports h hx
  obtain ⟨_, _, _, _, c, hc, hl⟩ := h.inv.watchers w x hx
  have hr : rest = [] := by
    cases rest with
    | nil => rfl
    | cons r l =>
      by_cases hlen : (r :: l).length ≤ cap
      · obtain ⟨s', hs⟩ := (hnext (.report r)).mpr ⟨hlen, rfl⟩
        cases hrest _ _ hs
      · obtain ⟨s', hs⟩ := (hnext (.missed ((r :: l).length - cap))).mpr ⟨by omega, rfl⟩
        cases hrest _ _ hs
  subst hr
  have hall := hacc.complete hm
  rw [List.append_nil] at hall
  rw [hall, ← C32_progress h.inv.owned.conn]
  have hsplit : broadcastOf s.owned.conn.log = broadcastOf (s.owned.conn.log.take x.since) ++ broadcastOf (s.owned.conn.log.drop x.since) := by
    rw [← broadcastOf_append, List.take_append_drop]
  rw [hsplit, about_append, about_none (l := broadcastOf (s.owned.conn.log.take x.since)), List.nil_append]
  intro r hr he
  rw [← hl, C32_progress hc] at hr
  apply hsub
  rw [← he, ← hl]
  exact (progress_sent c.log).2 r hr

/-- C87: who was told of the end was told so when the connection had ended and no handle was left, and both stay so. -/
theorem C87_ended {cap : Nat} {s : Watched} (h : WatchReachable cap s) {w : Nat} {x : Watcher} (hx : s.watchers w = some x)
    (he : .ended ∈ x.told) : s.owned.handles = 0 ∧ s.owned.isClosed = true :=
  (h.inv.watchers w x hx).2.2.2.1 he

/-- C87: that a subscriber is told when the connection has ended is false: while a `Client` handle is held (also the subscriber's own) it is
told nothing, whatever happens. -/
theorem C87_end_told_false : ∃ s, WatchReachable 128 s ∧ s.owned.isClosed = true ∧ (∃ x, s.watchers 0 = some x ∧ x.told = []) ∧
    ∀ es s', Watched.Run 128 s es s' → .owned .release ∉ es → ∀ w y, .hear w y ∉ es := by
  have hrun : Watched.Run 128 .init [.subscribe 0, .owned (.conn .fail)] _ :=
    .cons (.subscribe (by decide) rfl) (.cons (.owned (.fail rfl)) .nil)
  refine ⟨_, ⟨_, hrun⟩, rfl, ⟨_, rfl, rfl⟩, ?_⟩
  have key : ∀ s : Watched, ∀ es s', Watched.Run 128 s es s' → s.owned.isClosed = true → 0 < s.owned.handles → s.board = ⟨0, []⟩ →
      .owned .release ∉ es → ∀ w y, .hear w y ∉ es := by
    intro s es s' hr
    induction hr with
    | nil => intro _ _ _ _ w y hm; cases hm
    | @cons s e s1 es s2 hs _ ih =>
      intro hc hh hb hrel w y
      have hrel' : .owned .release ∉ es := fun hm => hrel (List.mem_cons_of_mem _ hm)
      have hne : e ≠ .owned .release := fun he => hrel (he ▸ List.mem_cons_self ..)
      cases hs with
      | owned ho =>
        dsimp only at hc hh hb
        obtain ⟨hq, hc', hk⟩ := dead_quiet hc ho
        have hk := hk (fun he => hne (by rw [he]))
        have := ih hc' (by dsimp only; omega) (by dsimp only; rw [hq]; exact hb) hrel' w y
        intro hm
        cases hm with
        | tail _ hm => exact this hm
      | subscribe h1 h2 =>
        have := ih hc hh hb hrel' w y
        intro hm
        cases hm with
        | tail _ hm => exact this hm
      | leave =>
        have := ih hc hh hb hrel' w y
        intro hm
        cases hm with
        | tail _ hm => exact this hm
      | hear hw hrv =>
        dsimp only at hb
        rw [hb] at hrv
        simp [Board.recv] at hrv
      | ended hw hrv h0 _ =>
        dsimp only at hh
        omega
  intro es s' hr
  exact key _ es s' hr rfl (by decide) rfl

/-- A subscriber of a connection on which a query is executed: the two reports the server made are what it gets. -/
def exWatch : List WatchEvent :=
  [.subscribe 0, .owned (.conn (.submit 1 ['A'])), .owned (.conn (.handle 2)), .owned (.conn (.packet 2 (.progress exP))),
   .hear 0 (.report (1, exP)), .owned (.conn (.packet 2 (.progress exP))), .hear 0 (.report (1, exP))]

example : ∃ s x, Watched.Run 128 .init exWatch s ∧ s.watchers 0 = some x ∧ (1 : Ticket) ∉ sentOf (s.owned.conn.log.take x.since) ∧
    (∀ n, .missed n ∉ x.told) ∧ about 1 (reportsIn x.told) = [exP, exP] ∧ (∀ y s', Watched.Step 128 s (.hear 0 y) s' → y = .ended) ∧
    progressCapacity ≤ 128 := by
  have hrun : Watched.Run 128 .init exWatch _ :=
    .cons (.subscribe (by decide) rfl) (.cons (.owned (.submit (by decide) rfl)) (.cons (.owned (.handle rfl)) (.cons (.owned (.packet rfl))
      (.cons (.hear rfl rfl) (.cons (.owned (.packet rfl)) (.cons (.hear rfl rfl) .nil))))))
  refine ⟨_, _, hrun, rfl, ?_, ?_, rfl, ?_, by decide⟩
  · intro h; cases h
  · intro n hn
    rcases hn with _ | ⟨_, _ | ⟨_, hn⟩⟩
    cases hn
  · intro y s' hs
    cases hs with
    | hear hw hrv => cases hw; cases hrv
    | ended => rfl

/-- With a channel that keeps one report, three reports and then a look: two were dropped, then comes the third. -/
example : ∃ s x, Watched.Run 1 .init
    [.subscribe 0, .owned (.conn (.submit 1 ['A'])), .owned (.conn (.handle 2)), .owned (.conn (.packet 2 (.progress exP))),
     .owned (.conn (.packet 2 (.progress exP))), .owned (.conn (.packet 2 (.progress exP))), .hear 0 (.missed 2), .hear 0 (.report (1, exP))] s ∧
    s.watchers 0 = some x ∧ x.told = [.missed 2, .report (1, exP)] :=
  ⟨_, _, .cons (.subscribe (by decide) rfl) (.cons (.owned (.submit (by decide) rfl)) (.cons (.owned (.handle rfl)) (.cons (.owned (.packet rfl))
      (.cons (.owned (.packet rfl)) (.cons (.owned (.packet rfl)) (.cons (.hear rfl rfl) (.cons (.hear rfl rfl) .nil))))))), rfl, rfl⟩

/-- The end, told when the last handle is dropped and the task has ended. -/
example : ∃ s x, Watched.Run 128 .init [.subscribe 0, .owned .release, .owned (.conn .close), .hear 0 .ended] s ∧ s.watchers 0 = some x ∧
    .ended ∈ x.told :=
  ⟨_, _, .cons (.subscribe (by decide) rfl) (.cons (.owned (.release (by rintro - ⟨t, a, -⟩; cases a))) (.cons (.owned (.close rfl))
    (.cons (.ended rfl rfl rfl rfl) .nil))), rfl, List.mem_singleton.mpr rfl⟩

end Klick.Props
