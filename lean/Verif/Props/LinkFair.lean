import Verif.Spec.LinkFair
import Verif.Props.FairRun
import Verif.Props.Truncation
/-
C97: on a connection fed with the bytes of a server that answers, every caller reads all of its answer.
-/
namespace Klick
open Spec
variable {cfg : Cfg} {comp : Option Lz4} {revision : Nat}

/-! ### The reader, at an instant -/

/-- What is still to be read decodes to the packets that are still to come. -/
theorem rest_decodes {es : List LinkEvent} {w : Link} (hr : Link.init.run cfg comp revision es = some w) (hc : Uncut cfg comp revision Link.init es)
    {B t : Bytes} {ps : List ServerPacket} (hB : Decodes cfg comp revision B ps []) (ht : arrived es ++ t = B) :
    ∃ m, ps = w.feed.out ++ m ∧ Decodes cfg comp revision (w.feed.taken ++ w.feed.avail ++ t) m [] := by
  rw [← ht] at hB
  rcases ((wire_decodes es hr hc).extend t).compare hB with ⟨m, e, h⟩ | ⟨m, e, h⟩
  · exact ⟨m, e, h⟩
  · obtain ⟨rfl, h2⟩ := decodes_nil h
    rw [h2]
    exact ⟨[], by rw [e]; simp, .nil _⟩

/-- The reader gets a packet or waits; it never fails. -/
theorem never_fails {es : List LinkEvent} {w : Link} (hr : Link.init.run cfg comp revision es = some w) (hc : Uncut cfg comp revision Link.init es)
    {B : Bytes} {ps : List ServerPacket} (hB : Decodes cfg comp revision B ps []) (ha : arrived es <+: B) :
    readPacket cfg comp revision (w.feed.taken ++ w.feed.avail) = .err .io ∨
      ∃ p r m, readPacket cfg comp revision (w.feed.taken ++ w.feed.avail) = .ok (p, r) ∧ ps = w.feed.out ++ p :: m := by
  obtain ⟨t, ht⟩ := ha
  obtain ⟨m, e, h⟩ := rest_decodes hr hc hB ht
  cases m with
  | nil =>
    generalize hR : w.feed.taken ++ w.feed.avail ++ t = R at h
    cases h
    rw [(List.append_eq_nil_iff.mp hR).1]
    exact .inl rfl
  | cons q m =>
    rcases Steady.readPacket cfg comp revision (w.feed.taken ++ w.feed.avail) t with h1 | h1
    · exact .inl h1
    · generalize w.feed.taken ++ w.feed.avail = R at h h1
      cases h with
      | cons hq _ =>
        rw [hq] at h1
        cases h2 : readPacket cfg comp revision R with
        | ok pr =>
          rw [h2] at h1
          obtain ⟨p, r⟩ := pr
          refine .inr ⟨p, r, m, rfl, ?_⟩
          rw [e]
          have := Res.ok.inj h1
          have : q = p := (Prod.mk.inj this).1
          rw [this]
        | err e => rw [h2] at h1; cases h1
        | panic => rw [h2] at h1; cases h1

/-- When everything has arrived and something is still to come, a packet is there. -/
theorem there_is_one {es : List LinkEvent} {w : Link} (hr : Link.init.run cfg comp revision es = some w) (hc : Uncut cfg comp revision Link.init es)
    {ps : List ServerPacket} (hB : Decodes cfg comp revision (arrived es) ps []) (hm : w.feed.out.length < ps.length) :
    ∃ p r, readPacket cfg comp revision (w.feed.taken ++ w.feed.avail) = .ok (p, r) := by
  obtain ⟨m, e, h⟩ := rest_decodes hr hc hB (List.append_nil _)
  cases m with
  | nil => rw [e] at hm; simp at hm
  | cons q m =>
    rw [List.append_nil] at h
    cases h with
    | cons hq _ => exact ⟨_, _, hq⟩

/-- A packet of a reply is not a greeting. -/
theorem reply_no_hello (rs : List (Reply cfg comp revision)) {p : ServerPacket} (hp : p ∈ rs.flatMap Reply.packets) (h : ServerHello) : p ≠ .hello h := by
  obtain ⟨r, _, hp⟩ := List.mem_flatMap.mp hp
  obtain ⟨body, last, e, h1, h2⟩ := r.ok
  rw [e] at hp
  rcases List.mem_append.mp hp with hp | hp
  · exact (h2 p hp).2 h
  · rintro rfl
    rw [List.mem_singleton] at hp
    rw [← hp] at h1
    cases h1

/-- What the reader gets next is legal. -/
theorem next_legal {es : List LinkEvent} {w : Link} (hr : Link.init.run cfg comp revision es = some w)
    {rs : List (Reply cfg comp revision)} (hl : rs.length ≤ (sentOf w.conn.log).length)
    (hd : .died ∉ w.conn.log) {p : ServerPacket} {m : List ServerPacket}
    (hp : rs.flatMap Reply.packets = w.feed.out ++ p :: m) : ¬ Illegal w.conn.log p := by
  have hreach := wire_reach es hr
  have hw := Props.weak hreach
  have hpl := placed w.conn.log hw.rule hw.nodup (clean_alive hreach hd)
  have hmem : p ∈ rs.flatMap Reply.packets := by rw [hp]; simp
  have key : (view w.conn.log).cur = none → False := by
    intro hc
    have h1 : (view w.conn.log).done = sentOf w.conn.log := by
      have := hpl.done
      rw [hc] at this
      simpa using this
    have h2 : rs.length ≤ endsIn w.feed.out := by rw [← (wire_ok es hr).got, hpl.count, h1]; exact hl
    cases written_whole rs hp h2
  intro hi
  cases p with
  | hello h => exact reply_no_hello rs hmem h rfl
  | data _ _ => exact key hi
  | exception _ => exact key hi
  | endOfStream => exact key hi
  | _ => exact hi

/-- Taking a request with a transport that accepts writes does not end the task. -/
theorem handle_alive {s : Conn} {k : Nat} (hk : 2 ≤ k) (hd : .died ∉ s.log) {s' : Conn} (hs : s.step (.handle k) = some s') : .died ∉ s'.log := by
  obtain ⟨k, rfl⟩ : ∃ j, k = j + 2 := ⟨k - 2, by omega⟩
  simp only [Conn.step] at hs
  split at hs
  · cases hs
    rename_i r rest _ _
    cases r with
    | query t x =>
      simp only [handleRequest]
      split
      · simp only [dispatch, Conn.note]
        simpa using hd
      · exact hd
    | data d o b =>
      simp only [handleRequest, Conn.note]
      simpa using hd
  · cases hs

theorem next_alive {s : Conn} {k : Nat} (hk : 2 ≤ k) (hd : .died ∉ s.log) : .died ∉ (dispatchNext k s).log := by
  obtain ⟨k, rfl⟩ : ∃ j, k = j + 2 := ⟨k - 2, by omega⟩
  unfold dispatchNext
  split
  · exact hd
  · simp only [dispatch, Conn.note]
    simpa using hd

/-- Events of the callers do not end the task, unless the last of them lets go of the client. -/
theorem outside_alive {s : Conn} {e : Event} (ho : e.outside = true) (hc : e ≠ .close) (hk : ∀ k, e = .deliver k → 2 ≤ k) (hd : .died ∉ s.log) {s' : Conn}
    (hs : s.step e = some s') : .died ∉ s'.log := by
  cases e with
  | submit t x =>
    simp only [Conn.step] at hs
    split at hs
    · cases hs
    · cases hs
    · split at hs
      · cases hs; simpa [Conn.note] using hd
      · cases hs
  | submitData d o b =>
    simp only [Conn.step] at hs
    split at hs
    · cases hs
    · split at hs
      · cases hs; simpa [Conn.note] using hd
      · cases hs
    · cases hs
  | deliver k =>
    have hk := hk k rfl
    simp only [Conn.step] at hs
    split at hs
    · unfold deliver at hs
      dsimp only at hs
      split at hs
      · split at hs
        · split at hs
          · cases hs
            split
            · exact next_alive hk hd
            · exact hd
          · cases hs
        · cases hs
      · cases hs
        split
        · exact next_alive hk hd
        · exact hd
    · cases hs
  | recv t =>
    simp only [Conn.step] at hs
    split at hs
    · cases hs; simpa [Conn.note] using hd
    · cases hs
  | drop t =>
    simp only [Conn.step] at hs
    split at hs
    · cases hs; exact hd
    · cases hs
  | close => exact absurd rfl hc
  | _ => cases ho

/-! ### Executions -/

namespace Spec.Wired
variable (x : Wired cfg comp revision)

theorem run_past (n : Nat) : Link.init.run cfg comp revision (x.past n) = some (x.state n) := by
  induction n with
  | zero => rw [x.start]; rfl
  | succ n ih =>
    cases h : x.event n with
    | none => rw [x.rests n h, Wired.past, h]; simpa using ih
    | some e =>
      rw [Wired.past, h, wire_run_append, ih]
      show ((x.state n).step cfg comp revision e).bind _ = _
      rw [x.moves n e h]
      rfl

/-- Where an event of the past happened. -/
theorem past_split {n : Nat} {es1 : List LinkEvent} {e : LinkEvent} {es2 : List LinkEvent} (h : x.past n = es1 ++ e :: es2) :
    ∃ j, j < n ∧ x.event j = some e ∧ x.past j = es1 := by
  induction n generalizing es2 with
  | zero => cases es1 <;> cases h
  | succ n ih =>
    cases hev : x.event n with
    | none =>
      rw [Wired.past, hev] at h
      simp only [Option.toList, List.append_nil] at h
      obtain ⟨j, h1, h2⟩ := ih h
      exact ⟨j, by omega, h2⟩
    | some e' =>
      rw [Wired.past, hev] at h
      simp only [Option.toList] at h
      rcases List.eq_nil_or_concat es2 with rfl | ⟨es2', y, rfl⟩
      · obtain ⟨h1, h2⟩ := List.append_inj' h rfl
        cases h2
        exact ⟨n, by omega, hev, h1⟩
      · rw [List.concat_eq_append, show es1 ++ e :: (es2' ++ [y]) = (es1 ++ e :: es2') ++ [y] by simp] at h
        obtain ⟨j, h1, h2⟩ := ih (List.append_inj' h rfl).1
        exact ⟨j, by omega, h2⟩

theorem uncut (h : NeverCut x) (n : Nat) : Uncut cfg comp revision Link.init (x.past n) := by
  intro es1 k es2 w' he hw
  obtain ⟨j, _, h1, h2⟩ := x.past_split he
  rw [← h2, x.run_past j] at hw
  cases hw
  exact h j k h1

theorem received_succ (n : Nat) : x.received (n + 1) = x.received n ++ arrived (x.event n).toList := by
  unfold Wired.received
  rw [Wired.past, arrived_append]

theorem past_mono {n m : Nat} (h : n ≤ m) : x.received n <+: x.received m := by
  induction m with
  | zero => have : n = 0 := by omega
            subst this; exact List.prefix_refl _
  | succ m ih =>
    by_cases e : n = m + 1
    · subst e; exact List.prefix_refl _
    · rw [received_succ]
      exact (ih (by omega)).trans (List.prefix_append _ _)

/-- The event of the task at an instant. -/
def taskEvent (n : Nat) : Option Event :=
  match x.event n with
  | none => none
  | some (.arrive _) => none
  | some (.poll k) =>
    match readPacket cfg comp revision ((x.state n).feed.taken ++ (x.state n).feed.avail) with
    | .ok (p, _) => some (.packet k p)
    | .err .io => none
    | _ => some .fail
  | some (.request k) => some (.handle k)
  | some (.caller e) => some e
  | some .eof => some .fail

theorem task_moves (n : Nat) : (∀ e, x.taskEvent n = some e → (x.state n).conn.step e = some (x.state (n + 1)).conn) ∧
    (x.taskEvent n = none → (x.state (n + 1)).conn = (x.state n).conn) := by
  unfold taskEvent
  cases h : x.event n with
  | none => exact ⟨(by intro e h; cases h), fun _ => by rw [x.rests n h]⟩
  | some ev =>
    have hm := x.moves n ev h
    cases ev with
    | arrive bs =>
      refine ⟨(by intro e h; cases h), fun _ => ?_⟩
      rw [← Option.some.inj hm]
    | poll k =>
      simp only [Link.step] at hm
      split at hm
      · dsimp only
        split at hm
        · rename_i p r hr
          obtain ⟨c, hc, e1⟩ := Option.map_eq_some_iff.mp hm
          rw [hr, ← e1]
          exact ⟨(by intro e h; cases h; exact hc), (by intro h; cases h)⟩
        · rename_i hr
          rw [hr, ← Option.some.inj hm]
          exact ⟨(by intro e h; cases h), fun _ => rfl⟩
        · rename_i hn1 hn2
          obtain ⟨c, hc, e1⟩ := Option.map_eq_some_iff.mp hm
          rw [← e1]
          split
          · rename_i p r hr; exact absurd hr (hn1 p r)
          · rename_i hr; exact absurd hr hn2
          · exact ⟨(by intro e h; cases h; exact hc), (by intro h; cases h)⟩
      · cases hm
    | request k =>
      obtain ⟨c, hc, e1⟩ := Option.map_eq_some_iff.mp hm
      rw [← e1]
      exact ⟨(by intro e h; cases h; exact hc), (by intro h; cases h)⟩
    | caller e =>
      simp only [Link.step] at hm
      split at hm
      · obtain ⟨c, hc, e1⟩ := Option.map_eq_some_iff.mp hm
        rw [← e1]
        exact ⟨(by intro e h; cases h; exact hc), (by intro h; cases h)⟩
      · cases hm
    | eof =>
      obtain ⟨c, hc, e1⟩ := Option.map_eq_some_iff.mp hm
      rw [← e1]
      exact ⟨(by intro e h; cases h; exact hc), (by intro h; cases h)⟩

/-- The task alone. -/
def task : Execution where
  state n := (x.state n).conn
  event n := x.taskEvent n
  start := by rw [x.start]; rfl
  moves n e h := (x.task_moves n).1 e h
  rests n h := (x.task_moves n).2 h

end Spec.Wired

/-- The replies to the first `n` queries. -/
def firstOf (rs : Nat → Reply cfg comp revision) (n : Nat) : List (Reply cfg comp revision) := (List.range n).map rs

theorem firstOf_bytes (rs : Nat → Reply cfg comp revision) (n : Nat) : (firstOf rs n).flatMap Reply.bytes = repliesTo rs n := by
  unfold firstOf repliesTo
  rw [List.flatMap_map]

theorem replies_decode (rs : Nat → Reply cfg comp revision) (n : Nat) :
    Decodes cfg comp revision (repliesTo rs n) ((firstOf rs n).flatMap Reply.packets) [] := by
  rw [← firstOf_bytes]; exact written_decodes _

theorem firstOf_length (rs : Nat → Reply cfg comp revision) (n : Nat) : (firstOf rs n).length = n := by simp [firstOf]

theorem firstOf_get (rs : Nat → Reply cfg comp revision) {n i : Nat} (h : i < n) : (firstOf rs n)[i]? = some (rs i) := by
  simp [firstOf, h]

theorem firstOf_mono (rs : Nat → Reply cfg comp revision) {m n : Nat} (h : m ≤ n) : firstOf rs m <+: firstOf rs n := by
  obtain ⟨d, rfl⟩ : ∃ d, n = m + d := ⟨n - m, by omega⟩
  unfold firstOf
  rw [List.range_add, List.map_append]
  exact List.prefix_append _ _

namespace Spec.Serves
variable {rs : Nat → Reply cfg comp revision} {x : Wired cfg comp revision}

/-- The task never ends. -/
theorem alive (s : Serves rs x) (r : Runs x) (a : Attend x) (c : NeverCut x) (n : Nat) : .died ∉ (x.state n).conn.log := by
  induction n with
  | zero => rw [x.start]; intro h; cases h
  | succ n ih =>
    cases h : x.event n with
    | none => rw [x.rests n h]; exact ih
    | some ev =>
      have hm := x.moves n ev h
      cases ev with
      | arrive bs => rw [← Option.some.inj hm]; exact ih
      | poll k =>
        have hk := r.writes n k (.inl h)
        have hB := replies_decode rs (x.sent n)
        simp only [Link.step] at hm
        split at hm
        · rcases never_fails (x.run_past n) (x.uncut c n) hB (s.only n) with h1 | ⟨p, rest, m, h1, h2⟩
          · rw [h1] at hm
            rw [← Option.some.inj hm]
            exact ih
          · rw [h1] at hm
            obtain ⟨c', hc, e1⟩ := Option.map_eq_some_iff.mp hm
            rw [← e1]
            have hleg := next_legal (x.run_past n) (rs := firstOf rs (x.sent n)) (by rw [firstOf_length]; exact Nat.le_refl _) ih h2
            exact Props.C34_legal (wire_reach _ (x.run_past n)) hleg hk hc
        · cases hm
      | request k =>
        obtain ⟨c', hc, e1⟩ := Option.map_eq_some_iff.mp hm
        rw [← e1]
        exact handle_alive (r.writes n k (.inr (.inl h))) ih hc
      | caller e =>
        simp only [Link.step] at hm
        split at hm
        · rename_i ho
          obtain ⟨c', hc, e1⟩ := Option.map_eq_some_iff.mp hm
          rw [← e1]
          refine outside_alive ho ?_ ?_ ih hc
          · rintro rfl; exact a.keep n h
          · rintro k rfl; exact r.writes n k (.inr (.inr h))
        · cases hm
      | eof => exact absurd h (s.open' n)

theorem out_grows (x : Wired cfg comp revision) {n m : Nat} (h : n ≤ m) :
    (gotOf (x.state n).conn.log).length ≤ (gotOf (x.state m).conn.log).length := by
  obtain ⟨l, e⟩ := x.task.log_grows h
  have e : (x.state m).conn.log = (x.state n).conn.log ++ l := e
  rw [e, gotOf_append, List.length_append]
  omega

/-- A query that waits for its end while the task looks for packets gets it. -/
theorem answered (s : Serves rs x) (r : Runs x) (a : Attend x) (c : NeverCut x) (n : Nat) (t : Ticket)
    (hcur : Forever n fun m => (view (x.state m).conn.log).cur = some t) (hidle : Often n fun m => (x.state m).conn.phase = .idle) : False := by
  -- nothing else is sent meanwhile
  have hsent : ∀ m, n ≤ m → (view (x.state m).conn.log).done.length + 1 = x.sent n ∧ x.sent m = x.sent n := by
    intro m hm
    have hn := (Props.weak (wire_reach _ (x.run_past n))).done
    have hw := Props.weak (wire_reach _ (x.run_past m))
    have hd := hw.done
    have hnd : (sentOf (x.state m).conn.log).Nodup := hw.order.sublist.nodup hw.nodup
    have c1 := hcur n (Nat.le_refl _)
    have c2 := hcur m hm
    dsimp only at c1 c2
    rw [c1] at hn
    rw [c2] at hd
    simp only [Option.toList] at hn hd
    obtain ⟨l, e⟩ := x.task.log_grows hm
    have e : (x.state m).conn.log = (x.state n).conn.log ++ l := e
    have hpre : sentOf (x.state m).conn.log = sentOf (x.state n).conn.log ++ sentOf l := by rw [e, sentOf_append]
    have i1 : (sentOf (x.state m).conn.log)[(view (x.state m).conn.log).done.length]? = some t := by rw [← hd]; simp
    have i2 : (sentOf (x.state m).conn.log)[(view (x.state n).conn.log).done.length]? = some t := by
      rw [hpre, ← hn]; simp
    have i3 := (List.getElem?_inj (List.getElem?_eq_some_iff.mp i1).1 hnd).mp (i1.trans i2.symm)
    have l1 := congrArg List.length hn
    have l2 := congrArg List.length hd
    simp only [List.length_append, List.length_cons, List.length_nil] at l1 l2
    unfold Wired.sent
    omega
  -- everything arrives
  obtain ⟨m0, hm0, hall⟩ := s.all n
  have hrec : ∀ m, m0 ≤ m → x.received m = repliesTo rs (x.sent n) := by
    intro m hm
    have h1 := s.only m
    rw [(hsent m (by omega)).2] at h1
    exact h1.eq_of_length_le (hall.trans (x.past_mono hm)).length_le
  -- there is always something to read
  have hlt : ∀ m, m0 ≤ m → (x.state m).feed.out.length < ((firstOf rs (x.sent n)).flatMap Reply.packets).length := by
    intro m hm
    have hpre := wire_prefix (x.run_past m) (x.uncut c m) (replies_decode rs (x.sent n)) (by
      rw [← hrec m hm]; exact List.prefix_refl _)
    rcases Nat.lt_or_ge (x.state m).feed.out.length ((firstOf rs (x.sent n)).flatMap Reply.packets).length with h | h
    · exact h
    · have := hpre.eq_of_length_le h
      have hreach := wire_reach _ (x.run_past m)
      have hw := Props.weak hreach
      have hpl := placed _ hw.rule hw.nodup (clean_alive hreach (s.alive r a c m))
      have h1 := hpl.count
      rw [(wire_ok _ (x.run_past m)).got, this, written_ends, firstOf_length] at h1
      have := (hsent m (by omega)).1
      omega
  -- so packets come out without end
  have hgrow : ∀ d, ∃ m, m0 ≤ m ∧ d ≤ (gotOf (x.state m).conn.log).length := by
    intro d
    induction d with
    | zero => exact ⟨m0, Nat.le_refl _, Nat.zero_le _⟩
    | succ d ih =>
      obtain ⟨m, hm, hd⟩ := ih
      obtain ⟨m', hm', k, hk⟩ := r.polls m (fun j hj => hidle j (by omega))
      have hB : Decodes cfg comp revision (arrived (x.past m')) ((firstOf rs (x.sent n)).flatMap Reply.packets) [] := by
        have : arrived (x.past m') = repliesTo rs (x.sent n) := hrec m' (by omega)
        rw [this]; exact replies_decode rs _
      obtain ⟨p, rest, hp⟩ := there_is_one (x.run_past m') (x.uncut c m') hB (hlt m' (by omega))
      have hev : x.taskEvent m' = some (.packet k p) := by
        unfold Wired.taskEvent
        rw [hk]
        dsimp only
        rw [hp]
      obtain ⟨l, e⟩ := packet_log ((x.task_moves m').1 _ hev)
      refine ⟨m' + 1, by omega, ?_⟩
      have := out_grows x hm'
      rw [e, got_mem, List.length_append, List.length_cons]
      omega
  obtain ⟨m, hm, hd⟩ := hgrow ((firstOf rs (x.sent n)).flatMap Reply.packets).length
  have := hlt m hm
  rw [(wire_ok _ (x.run_past m)).got] at hd
  omega

/-- The task of such an execution is fair. -/
theorem fair (s : Serves rs x) (r : Runs x) (a : Attend x) (c : NeverCut x) : Fair x.task where
  alive := s.alive r a c
  sends n h := by
    obtain ⟨m, hm, k, hk⟩ := r.sends n h
    exact ⟨m, hm, k, by show x.taskEvent m = _; unfold Wired.taskEvent; rw [hk]⟩
  takes n h := by
    obtain ⟨m, hm, k, hk⟩ := r.takes n h
    exact ⟨m, hm, k, by show x.taskEvent m = _; unfold Wired.taskEvent; rw [hk]⟩
  answers n t hc hi := (s.answered r a c n t hc hi).elim
  reads n t i buf o h1 h2 := by
    obtain ⟨m, hm, hk⟩ := a.reads n t i buf o h1 h2
    refine ⟨m, hm, ?_⟩
    show x.taskEvent m = _ ∨ x.taskEvent m = _
    unfold Wired.taskEvent
    rcases hk with hk | hk
    · rw [hk]; exact .inl rfl
    · rw [hk]; exact .inr rfl

end Spec.Serves

theorem response_of {rs : List (Reply cfg comp revision)} {n : Nat} {r : Reply cfg comp revision} (hrn : rs[n]? = some r) :
    response n (rs.flatMap Reply.packets) = r.packets := by
  induction rs generalizing n with
  | nil => cases hrn
  | cons r' rs ih =>
    have hend : response 0 r'.packets = r'.packets := by
      obtain ⟨body, last, e, h1, h2⟩ := r'.ok
      rw [e]
      clear e
      induction body with
      | nil => simp [response, h1]
      | cons q body ih =>
        have hq := (h2 q (List.mem_cons_self ..)).1
        simp only [List.cons_append, response, hq]
        rw [if_neg (by simp), ih fun p hp => h2 p (List.mem_cons_of_mem _ hp)]
    cases n with
    | zero =>
      cases hrn
      show response 0 (r.packets ++ _) = _
      rw [response_done (by rw [response_ends r.ok]; omega), hend]
    | succ n =>
      have hskip : ∀ qs, response (n + 1) (r'.packets ++ qs) = response n qs := by
        intro qs
        obtain ⟨body, last, e, h1, h2⟩ := r'.ok
        rw [e]
        clear e
        induction body with
        | nil => simp [response, h1]
        | cons q body ih =>
          have hq := (h2 q (List.mem_cons_self ..)).1
          simp only [List.cons_append, response, hq]
          rw [if_neg (by simp), ih fun p hp => h2 p (List.mem_cons_of_mem _ hp)]
      show response (n + 1) (r'.packets ++ _) = _
      rw [hskip]
      exact ih hrn

/-! ### Taking turns -/

theorem written_first (rs : Nat → Reply cfg comp revision) {k n : Nat} (h : k ≤ n) : written (firstOf rs n) k = repliesTo rs k := by
  unfold written firstOf repliesTo
  rw [← List.map_take, List.flatMap_map, List.take_range, Nat.min_eq_left h]

theorem sent_mono (x : Wired cfg comp revision) {n m : Nat} (h : n ≤ m) : x.sent n ≤ x.sent m := by
  obtain ⟨l, e⟩ := x.task.log_grows h
  have e : (x.state m).conn.log = (x.state n).conn.log ++ l := e
  unfold Wired.sent
  rw [e, sentOf_append, List.length_append]
  omega

theorem in_turn_taking {rs : Nat → Reply cfg comp revision} {x : Wired cfg comp revision} (s : Serves rs x) (t : InTurn x) (n : Nat) :
    TakingTurns (firstOf rs (x.sent n)) (x.past n) := by
  refine ⟨?_, ?_⟩
  · intro es1 e es2 w he hw
    obtain ⟨j, _, h1, h2⟩ := x.past_split he
    rw [← h2, x.run_past j] at hw
    cases hw
    refine ⟨?_, ?_⟩
    · rintro u text rfl; exact t.turns j u text h1
    · rintro d o b rfl; exact t.queries j d o b h1
  · intro es1 bs es2 w he hw
    obtain ⟨j, hj, h1, h2⟩ := x.past_split he
    rw [← h2, x.run_past j] at hw
    cases hw
    have h3 := s.only (j + 1)
    have h4 : x.sent (j + 1) = x.sent j := by
      have := Option.some.inj (x.moves j _ h1)
      unfold Wired.sent
      rw [← this]
    rw [h4, x.received_succ, h1] at h3
    show _ <+: written (firstOf rs (x.sent n)) (x.sent j)
    rw [written_first rs (sent_mono x (Nat.le_of_lt hj)), ← h2]
    simpa [arrived, Wired.received] using h3

/-- Callers that take turns never have a packet cut. -/
theorem in_turn_uncut {rs : Nat → Reply cfg comp revision} {x : Wired cfg comp revision} (s : Serves rs x) (t : InTurn x) : NeverCut x := by
  intro n k h
  have hc := turns_calm (x.past (n + 1)) ⟨_, x.run_past (n + 1)⟩ (in_turn_taking s t (n + 1))
  exact hc (x.past n) k [] (x.state n) (by rw [Wired.past, h]; rfl) (x.run_past n)

/-! ### Finite runs -/

/-- A finite run, then one event again and again, or nothing. -/
def Spec.Wired.ofRun (es : List LinkEvent) {w : Link} (h : Link.init.run cfg comp revision es = some w) (after : Option LinkEvent)
    (fix : ∀ e, after = some e → w.step cfg comp revision e = some w) : Wired cfg comp revision where
  state n := (Link.init.run cfg comp revision (es.take n)).getD Link.init
  event n := if n < es.length then es[n]? else after
  start := rfl
  moves := by
    intro n e he
    split at he
    · rename_i hlt
      rw [List.getElem?_eq_getElem hlt] at he
      cases he
      have hp : ∀ m, ∃ s', Link.init.run cfg comp revision (es.take m) = some s' := by
        intro m
        have h' := h
        rw [← List.take_append_drop m es, wire_run_append] at h'
        cases e : Link.init.run cfg comp revision (es.take m) with
        | none => rw [e] at h'; cases h'
        | some s' => exact ⟨s', rfl⟩
      obtain ⟨s1, h1⟩ := hp n
      obtain ⟨s2, h2⟩ := hp (n + 1)
      rw [h1, h2]
      rw [List.take_succ_eq_append_getElem hlt, wire_run_append, h1] at h2
      simp only [Option.bind, Link.run] at h2
      simp only [Option.getD]
      cases e : s1.step cfg comp revision es[n] with
      | none => rw [e] at h2; cases h2
      | some s' => rw [e] at h2; exact h2
    · rename_i hge
      rw [List.take_of_length_le (by omega), List.take_of_length_le (by omega), h]
      exact fix e he
  rests := by
    intro n hn
    split at hn
    · rename_i hlt
      rw [List.getElem?_eq_getElem hlt] at hn; cases hn
    · rw [List.take_of_length_le (by omega), List.take_of_length_le (by omega)]

section
variable {es : List LinkEvent} {w : Link} {h : Link.init.run cfg comp revision es = some w} {after : Option LinkEvent}
  {fix : ∀ e, after = some e → w.step cfg comp revision e = some w}

theorem ofRun_final {n : Nat} (hn : es.length ≤ n) : (Wired.ofRun es h after fix).state n = w := by
  show (Link.init.run cfg comp revision (es.take n)).getD Link.init = w
  rw [List.take_of_length_le hn, h]
  rfl

theorem ofRun_past {n : Nat} (hn : n ≤ es.length) : (Wired.ofRun es h after fix).past n = es.take n := by
  induction n with
  | zero => rfl
  | succ n ih =>
    rw [Wired.past, ih (by omega)]
    have : (Wired.ofRun es h after fix).event n = es[n]? := if_pos (by omega)
    rw [this, List.getElem?_eq_getElem (by omega), List.take_succ_eq_append_getElem (by omega)]
    rfl

theorem ofRun_received (ha : arrived after.toList = []) (n : Nat) : (Wired.ofRun es h after fix).received n = arrived (es.take n) := by
  rcases Nat.le_total n es.length with hn | hn
  · unfold Wired.received; rw [ofRun_past hn]
  · obtain ⟨d, rfl⟩ : ∃ d, n = es.length + d := ⟨n - es.length, by omega⟩
    clear hn
    induction d with
    | zero => unfold Wired.received; rw [ofRun_past (by omega)]
    | succ d ih =>
      have : (Wired.ofRun es h after fix).event (es.length + d) = after := if_neg (by omega)
      rw [show es.length + (d + 1) = es.length + d + 1 from rfl, Wired.received_succ, ih, this, ha, List.append_nil,
        List.take_of_length_le (by omega), List.take_of_length_le (by omega)]

/-- Where an event of a finite run is. -/
theorem ofRun_event {n : Nat} {e : LinkEvent} (he : (Wired.ofRun es h after fix).event n = some e) : e ∈ es ∨ after = some e := by
  have he : (if n < es.length then es[n]? else after) = some e := he
  split at he
  · exact .inl (List.mem_of_getElem? he)
  · exact .inr he

/-- A test that holds at every point of a run, given the bytes that have arrived and the event that comes next. -/
def along (P : Link → Bytes → Option LinkEvent → Bool) (cfg : Cfg) (comp : Option Lz4) (revision : Nat) : Link → Bytes → List LinkEvent → Bool
  | w, a, [] => P w a none
  | w, a, e :: es => P w a (some e) &&
    match w.step cfg comp revision e with
    | some w' => along P cfg comp revision w' (a ++ arrived [e]) es
    | none => false

theorem along_at {P : Link → Bytes → Option LinkEvent → Bool} : ∀ (n : Nat) {es : List LinkEvent} {w0 w : Link} {a : Bytes},
    along P cfg comp revision w0 a es = true → w0.run cfg comp revision (es.take n) = some w → P w (a ++ arrived (es.take n)) es[n]? = true := by
  intro n
  induction n with
  | zero =>
    intro es w0 w a h hr
    cases hr
    simp only [List.take_zero, arrived, List.flatMap_nil, List.append_nil]
    cases es with
    | nil => exact h
    | cons e es => exact (Bool.and_eq_true _ _ ▸ h : _ ∧ _).1
  | succ n ih =>
    intro es w0 w a h hr
    cases es with
    | nil =>
      cases hr
      simp only [List.take_nil, arrived, List.flatMap_nil, List.append_nil]
      exact h
    | cons e es =>
      unfold along at h
      rw [Bool.and_eq_true] at h
      obtain ⟨_, h2⟩ := h
      simp only [List.take_succ_cons, Link.run] at hr
      cases h1 : w0.step cfg comp revision e with
      | none => rw [h1] at hr; cases hr
      | some w' =>
        rw [h1] at hr h2
        have := ih h2 hr
        rw [List.take_succ_cons]
        rwa [List.append_assoc, ← arrived_append, List.singleton_append] at this

/-- Writes succeed, the transport does not end, nobody gives up the client. -/
def plainly : LinkEvent → Bool
  | .poll k | .request k | .caller (.deliver k) => decide (2 ≤ k)
  | .eof | .caller .close => false
  | _ => true

/-- A finite run in which all replies arrive, and nothing else. -/
theorem ofRun_serves {rs : Nat → Reply cfg comp revision} (ho : ∀ n w', Link.init.run cfg comp revision (es.take n) = some w' → arrived (es.take n) <+: repliesTo rs (sentOf w'.conn.log).length) (ha : arrived after.toList = [])
    (hall : arrived es = repliesTo rs (sentOf w.conn.log).length) (hw : es.all plainly = true) (hw' : after.all plainly = true) :
    Serves rs (Wired.ofRun es h after fix) where
  only n := by
    rw [ofRun_received ha]
    exact ho n _ (by
      have := (Wired.ofRun es h after fix).run_past n
      rcases Nat.le_total n es.length with hn | hn
      · rw [ofRun_past hn] at this; exact this
      · rw [ofRun_final hn, List.take_of_length_le hn, h])
  all n := by
    refine ⟨n + es.length, by omega, ?_⟩
    show repliesTo rs _ <+: (Wired.ofRun es h after fix).received (n + es.length)
    rw [ofRun_received ha, List.take_of_length_le (by omega), hall]
    have h1 : (Wired.ofRun es h after fix).sent n ≤ (sentOf w.conn.log).length := by
      have := sent_mono (Wired.ofRun es h after fix) (Nat.le_add_right n es.length)
      have h2 : (Wired.ofRun es h after fix).sent (n + es.length) = (sentOf w.conn.log).length := by
        unfold Wired.sent; rw [ofRun_final (by omega)]
      omega
    rw [← firstOf_bytes, ← firstOf_bytes]
    obtain ⟨l, e⟩ := firstOf_mono rs h1
    rw [← e, List.flatMap_append]
    exact List.prefix_append _ _
  open' n := by
    intro hev
    rcases ofRun_event hev with h1 | h1
    · exact Bool.false_ne_true (List.all_eq_true.mp hw _ h1)
    · rw [h1] at hw'; exact Bool.false_ne_true hw'

/-- A finite run that leaves nothing to do, then looking for packets. -/
theorem ofRun_runs {es : List LinkEvent} {w : Link} {h : Link.init.run cfg comp revision es = some w} {after : Option LinkEvent}
    {fix : ∀ e, after = some e → w.step cfg comp revision e = some w} (hw : es.all plainly = true) (hw' : after.all plainly = true)
    (hd : w.conn.step (.deliver 2) = none) (hi : w.conn.phase = .idle → w.conn.queue = [] ∧ after = some (.poll 2)) :
    Runs (Wired.ofRun es h after fix) where
  writes n k := by
    have key : ∀ {e}, (Wired.ofRun es h after fix).event n = some e → plainly e = true := by
      intro e he
      rcases ofRun_event he with h1 | h1
      · exact List.all_eq_true.mp hw e h1
      · rw [h1] at hw'; exact hw'
    rintro (h1 | h1 | h1)
    · exact of_decide_eq_true (key h1)
    · exact of_decide_eq_true (key h1)
    · exact of_decide_eq_true (key h1)
  sends n hf := by
    obtain ⟨s, hs⟩ := hf (n + es.length) (by omega)
    rw [ofRun_final (by omega), hd] at hs
    cases hs
  takes n ho := by
    obtain ⟨j, hj, h1, h2⟩ := ho (n + es.length) (by omega)
    rw [ofRun_final (by omega)] at h1 h2
    exact absurd (hi h1).1 h2
  polls n ho := by
    obtain ⟨j, hj, h1⟩ := ho (n + es.length) (by omega)
    rw [ofRun_final (by omega)] at h1
    exact ⟨n + es.length, by omega, 2, (if_neg (by omega)).trans (hi h1).2⟩

theorem ofRun_attend {es : List LinkEvent} {w : Link} {h : Link.init.run cfg comp revision es = some w} {after : Option LinkEvent}
    {fix : ∀ e, after = some e → w.step cfg comp revision e = some w} (hw : es.all plainly = true) (hw' : after.all plainly = true)
    (hr : ∀ t ∈ submittedOf w.conn.log, (itemsOf t w.conn.log).length ≤ (readsOf t w.conn.log).length) : Attend (Wired.ofRun es h after fix) where
  keep n := by
    intro hev
    rcases ofRun_event hev with h1 | h1
    · exact Bool.false_ne_true (List.all_eq_true.mp hw _ h1)
    · rw [h1] at hw'; exact Bool.false_ne_true hw'
  reads n t i buf o hs hl := by
    generalize hx : Wired.ofRun es h after fix = x at hs hl
    have fin : x.state (n + es.length) = w := by rw [← hx]; exact ofRun_final (by omega)
    apply Classical.byContradiction
    intro hno
    have hno : ∀ j, n ≤ j → j < n + es.length → x.task.event j ≠ some (.recv t) ∧ x.task.event j ≠ some (.drop t) := by
      have conv : ∀ j e, e = Event.recv t ∨ e = Event.drop t → x.taskEvent j = some e → x.event j = some (.caller e) := by
        intro j e he hj
        unfold Wired.taskEvent at hj
        cases hev : x.event j with
        | none => rw [hev] at hj; cases hj
        | some ev =>
          rw [hev] at hj
          cases ev with
          | arrive bs => cases hj
          | poll k =>
            dsimp only at hj
            split at hj
            · cases hj; rcases he with he | he <;> cases he
            · cases hj
            · cases hj; rcases he with he | he <;> cases he
          | request k => cases hj; rcases he with he | he <;> cases he
          | caller e' => cases hj; rfl
          | eof => cases hj; rcases he with he | he <;> cases he
      intro j hj _
      exact ⟨fun e => hno ⟨j, hj, .inl (conv j _ (.inl rfl) e)⟩, fun e => hno ⟨j, hj, .inr (conv j _ (.inr rfl) e)⟩⟩
    obtain ⟨h1, h2⟩ := x.task.listens hl _ (Nat.le_add_right n es.length) hno
    obtain ⟨l, hlog⟩ := x.task.log_grows (Nat.le_add_right n es.length)
    have h1 : (x.state (n + es.length)).conn.listening t = true := h1
    have h2 : readsOf t (x.state (n + es.length)).conn.log = readsOf t (x.state n).conn.log := h2
    have hlog : (x.state (n + es.length)).conn.log = (x.state n).conn.log ++ l := hlog
    rw [fin] at h1 h2 hlog
    have hit := (Props.weak (wire_reach _ (x.run_past n))).items t hl
    have hpre : itemsOf t (x.state n).conn.log <+: itemsOf t w.conn.log := by rw [hlog]; exact itemsOf_append t _ _
    have hlen := hpre.length_le
    have hmem : t ∈ submittedOf w.conn.log := by
      rw [hlog]
      unfold submittedOf
      rw [List.filterMap_append]
      exact List.mem_append_left _ (((Props.weak (wire_reach _ (x.run_past n))).known t).mpr (by rw [hs]; simp))
    have := hr t hmem
    rw [h2] at this
    rw [← hit, hs] at hlen
    simp [bufOf] at hlen
    omega

end

namespace Props

/-- **C97** (whole answers). The server writes reply `rs i` to the `i`-th query, the transport brings its bytes in any portions, the
executor runs the task, callers read or leave, and no request is taken in the middle of a packet. Then the caller of the `i`-th query
submitted eventually leaves, or has read exactly the blocks and the exception of `rs i` and is at the end of its stream. -/
theorem C97_read_partial {rs : Nat → Reply cfg comp revision} {x : Wired cfg comp revision} (s : Serves rs x) (r : Runs x) (a : Attend x) (c : NeverCut x)
    {n i : Nat} {t : Ticket} (ht : (submittedOf (x.state n).conn.log)[i]? = some t) :
    Eventually n fun m => (x.state m).conn.listening t = false ∨
      readsOf t (x.state m).conn.log = itemsIn (rs i).packets ∧ (x.state m).conn.slots t = some (.streaming [] false) := by
  obtain ⟨m, hm, h⟩ := C82_read (s.fair r a c) (List.mem_of_getElem? ht)
  refine ⟨m, hm, ?_⟩
  rcases h with h | ⟨h1, h2, h3⟩
  · exact .inl h
  · by_cases hl : (x.state m).conn.listening t = true
    · refine .inr ⟨?_, h1⟩
      obtain ⟨l, e⟩ := x.task.log_grows hm
      have e : (x.state m).conn.log = (x.state n).conn.log ++ l := e
      have hi : (submittedOf (x.state m).conn.log)[i]? = some t := by
        have : submittedOf (x.state m).conn.log = submittedOf (x.state n).conn.log ++ submittedOf l := by rw [e]; simp [submittedOf]
        rw [this, List.getElem?_append_left (List.getElem?_eq_some_iff.mp ht).1]
        exact ht
      have hlt : i < x.sent m := by
        have hw := weak (wire_reach _ (x.run_past m))
        have h4 : t ∈ sentOf (x.state m).conn.log := by
          rw [← hw.done]
          exact List.mem_append_left _ h2
        obtain ⟨j, hj, ej⟩ := List.getElem_of_mem h4
        have h5 : (sentOf (x.state m).conn.log)[j]? = some t := by rw [List.getElem?_eq_getElem hj, ej]
        obtain ⟨l', e'⟩ := hw.order
        have h6 : (submittedOf (x.state m).conn.log)[j]? = some t := by
          rw [← e', List.getElem?_append_left hj]; exact h5
        have := (List.getElem?_inj (List.getElem?_eq_some_iff.mp h6).1 hw.nodup).mp (h6.trans hi.symm)
        unfold Wired.sent
        omega
      rw [C80_whole_partial (x.run_past m) (x.uncut c m) (replies_decode rs (x.sent m)) (s.only m) hi hl h1 (s.alive r a c m),
        response_of (firstOf_get rs hlt)]
    · exact .inl (by simpa using hl)

/-- **C97** (alive). And the connection never breaks down. -/
theorem C97_alive_partial {rs : Nat → Reply cfg comp revision} {x : Wired cfg comp revision} (s : Serves rs x) (r : Runs x) (a : Attend x) (c : NeverCut x)
    (n : Nat) : .died ∉ (x.state n).conn.log := s.alive r a c n

/-- **C97** (in turn). When callers take turns, no request is taken in the middle of a packet, so each of them eventually leaves or
reads exactly its own answer to its end; and the connection never breaks down. -/
theorem C97_in_turn {rs : Nat → Reply cfg comp revision} {x : Wired cfg comp revision} (s : Serves rs x) (r : Runs x) (a : Attend x) (t : InTurn x) :
    (∀ {n i : Nat} {u : Ticket}, (submittedOf (x.state n).conn.log)[i]? = some u →
      Eventually n fun m => (x.state m).conn.listening u = false ∨
        readsOf u (x.state m).conn.log = itemsIn (rs i).packets ∧ (x.state m).conn.slots u = some (.streaming [] false)) ∧
    ∀ n, .died ∉ (x.state n).conn.log :=
  ⟨fun h => C97_read_partial s r a (in_turn_uncut s t) h, s.alive r a (in_turn_uncut s t)⟩

/-! ### Two executions -/

/-- Every query gets the same reply. -/
def sameReply : Nat → Reply cfgDebug none 0 := fun _ => wireReply

/-- Only bytes of replies have arrived; a query is submitted when the ones before are answered (where `turns`), and no block is. -/
def orderly (turns : Bool) (w : Link) (a : Bytes) (e : Option LinkEvent) : Bool :=
  a.isPrefixOf (repliesTo sameReply (sentOf w.conn.log).length) &&
    match e with
    | some (.caller (.submit _ _)) => !turns || (view w.conn.log).done == submittedOf w.conn.log
    | some (.caller (.submitData _ _ _)) => false
    | _ => true

/-- Everybody has taken everything sent to it. -/
def allRead (w : Link) : Bool :=
  (submittedOf w.conn.log).all fun t => (itemsOf t w.conn.log).length ≤ (readsOf t w.conn.log).length

/-- Two queries in turn, the bytes of their answers cut at odd places, both answered and read. -/
def exWhole : List LinkEvent :=
  exTurns ++ [.poll 2, .arrive (wireAnswer.drop 2), .poll 2, .poll 2, .caller (.deliver 2), .caller (.recv 1), .poll 2]

theorem exWhole_runs : (Link.init.run cfgDebug none 0 exWhole).isSome = true := by decide +kernel

/-- Where it ends. -/
def wholeEnd : Link := (Link.init.run cfgDebug none 0 exWhole).get exWhole_runs

theorem wholeEnd_eq : Link.init.run cfgDebug none 0 exWhole = some wholeEnd := (Option.some_get exWhole_runs).symm

/-- Nothing is left to do. -/
def atRest (w : Link) : Bool :=
  match w.conn.phase with
  | .idle => w.conn.queue.isEmpty && w.feed.taken.isEmpty && w.feed.avail.isEmpty && !w.feed.failed
  | _ => false

theorem rest_fix {w : Link} (h : atRest w = true) (h0 : readPacket cfg comp revision [] = .err .io) :
    w.conn.phase = .idle ∧ w.conn.queue = [] ∧ w.step cfg comp revision (.poll 2) = some w := by
  unfold atRest at h
  split at h
  · rename_i hp
    simp only [Bool.and_eq_true, List.isEmpty_iff, Bool.not_eq_true'] at h
    obtain ⟨⟨⟨h1, h2⟩, h3⟩, h4⟩ := h
    refine ⟨hp, h1, ?_⟩
    obtain ⟨⟨av, tk, out, failed⟩, conn⟩ := w
    dsimp only at h1 h2 h3 h4 hp
    subst h2 h3 h4
    simp only [Link.step, hp, List.append_nil, h0, Feed.step]
    rfl
  · cases h

theorem wholeEnd_rest : wholeEnd.conn.phase = .idle ∧ wholeEnd.conn.queue = [] ∧ wholeEnd.step cfgDebug none 0 (.poll 2) = some wholeEnd :=
  rest_fix (by decide +kernel) rfl

/-- The execution: the finite run, then looking for packets for ever. -/
def wholeRun : Wired cfgDebug none 0 :=
  Wired.ofRun exWhole wholeEnd_eq (some (.poll 2)) (by intro e he; cases he; exact wholeEnd_rest.2.2)

/-- The assumptions hold of it, and both callers read a block. -/
example : Serves sameReply wholeRun ∧ Runs wholeRun ∧ Attend wholeRun ∧ InTurn wholeRun ∧
    submittedOf (wholeRun.state exWhole.length).conn.log = [0, 1] ∧ itemsIn (sameReply 1).packets = [.block wireBlock] := by
  have hp : along (orderly true) cfgDebug none 0 Link.init [] exWhole = true := by decide +kernel
  have hall : exWhole.all plainly = true := by decide +kernel
  have hl : sentOf wholeEnd.conn.log = [0, 1] := by decide +kernel
  have hd : wholeEnd.conn.step (.deliver 2) = none := by simp [Conn.step, wholeEnd_rest.1]
  have key : ∀ (n : Nat) w', Link.init.run cfgDebug none 0 (exWhole.take n) = some w' → _ := fun n w' h => along_at n hp h
  refine ⟨ofRun_serves ?_ rfl ?_ hall rfl, ofRun_runs hall rfl hd (fun _ => ⟨wholeEnd_rest.2.1, rfl⟩), ofRun_attend hall rfl ?_, ⟨?_, ?_⟩, ?_, rfl⟩
  · intro n w' h
    have := key n w' h
    unfold orderly at this
    rw [Bool.and_eq_true] at this
    simpa using this.1
  · rw [hl]; decide +kernel
  · have h : allRead wholeEnd = true := by decide +kernel
    intro t ht
    exact of_decide_eq_true (List.all_eq_true.mp h t ht)
  · intro n t text h
    have h1 : (if n < exWhole.length then exWhole[n]? else some (.poll 2)) = some (.caller (.submit t text)) := h
    split at h1
    · have := key n _ (by have := wholeRun.run_past n; unfold wholeRun at this; rwa [ofRun_past (by omega)] at this)
      rw [h1] at this
      unfold orderly at this
      rw [Bool.and_eq_true] at this
      have this := this.2
      simp only [Bool.not_true, Bool.false_or, beq_iff_eq] at this
      exact this
    · cases h1
  · intro n d o b h
    have h1 : (if n < exWhole.length then exWhole[n]? else some (.poll 2)) = some (.caller (.submitData d o b)) := h
    split at h1
    · have := key n _ (by have := wholeRun.run_past n; unfold wholeRun at this; rwa [ofRun_past (by omega)] at this)
      rw [h1] at this
      unfold orderly at this
      rw [Bool.and_eq_true] at this
      exact Bool.false_ne_true this.2
    · cases h1
  · unfold wholeRun
    rw [ofRun_final (Nat.le_refl _)]
    decide +kernel

/-- The second query is submitted while the first is answered, and its request taken when one byte of the answer has been read; all
other bytes arrive. -/
def exCut : List LinkEvent :=
  [.caller (.submit 0 []), .request 2, .arrive [3], .poll 2, .caller (.submit 1 []), .request 2, .arrive (wireAnswer.drop 1), .poll 2, .poll 2, .poll 2,
   .arrive wireAnswer]

theorem exCut_runs : (Link.init.run cfgDebug none 0 exCut).isSome = true := by decide +kernel

/-- Where it ends. -/
def cutEnd : Link := (Link.init.run cfgDebug none 0 exCut).get exCut_runs

theorem cutEnd_eq : Link.init.run cfgDebug none 0 exCut = some cutEnd := (Option.some_get exCut_runs).symm

/-- The connection is dead. -/
def isDead (w : Link) : Bool :=
  match w.conn.phase with
  | .dead => w.conn.log.any fun o => match o with | .died => true | _ => false
  | _ => false

theorem cutEnd_dead : cutEnd.conn.phase = .dead ∧ .died ∈ cutEnd.conn.log := by
  have h : isDead cutEnd = true := by decide +kernel
  unfold isDead at h
  split at h
  · rename_i hp
    refine ⟨hp, ?_⟩
    obtain ⟨o, h1, h2⟩ := List.any_eq_true.mp h
    split at h2
    · exact h1
    · cases h2
  · cases h

/-- The execution: the finite run, then nothing. -/
def cutRun : Wired cfgDebug none 0 := Wired.ofRun exCut cutEnd_eq none (by intro e he; cases he)

/-- **C97** as stated is false: server, transport, executor and callers do all that is asked of them, but a request is taken in the middle
of a packet. The caller of the first query stays, its answer holds a block, and it never reads one; the connection breaks down. -/
theorem C97_false : ∃ (rs : Nat → Reply cfgDebug none 0) (x : Wired cfgDebug none 0), Serves rs x ∧ Runs x ∧ Attend x ∧
    ∃ n t, (submittedOf (x.state n).conn.log)[0]? = some t ∧ itemsIn (rs 0).packets = [.block wireBlock] ∧
      Forever n (fun m => (x.state m).conn.listening t = true ∧ readsOf t (x.state m).conn.log = [] ∧ .died ∈ (x.state m).conn.log) := by
  have hp : along (orderly false) cfgDebug none 0 Link.init [] exCut = true := by decide +kernel
  have hall : exCut.all plainly = true := by decide +kernel
  have hl : sentOf cutEnd.conn.log = [0, 1] := by decide +kernel
  have hs : submittedOf cutEnd.conn.log = [0, 1] := by decide +kernel
  have hr : (readsOf 0 cutEnd.conn.log).isEmpty = true := by decide +kernel
  have hd : cutEnd.conn.step (.deliver 2) = none := by simp [Conn.step, cutEnd_dead.1]
  refine ⟨sameReply, cutRun, ofRun_serves ?_ rfl ?_ hall rfl, ofRun_runs hall rfl hd (fun h => by rw [cutEnd_dead.1] at h; cases h),
    ofRun_attend hall rfl ?_, exCut.length, 0, ?_, rfl, ?_⟩
  · intro n w' h
    have := along_at n hp h
    unfold orderly at this
    rw [Bool.and_eq_true] at this
    simpa using this.1
  · rw [hl]; decide +kernel
  · have h : allRead cutEnd = true := by decide +kernel
    intro t ht
    exact of_decide_eq_true (List.all_eq_true.mp h t ht)
  · unfold cutRun
    rw [ofRun_final (Nat.le_refl _), hs]
    rfl
  · intro m hm
    unfold cutRun
    rw [ofRun_final hm]
    exact ⟨by decide +kernel, List.isEmpty_iff.mp hr, cutEnd_dead.2⟩

end Props

end Klick
