import Verif.Spec.Session
import Verif.Props.Outgoing
import Verif.Props.Client
import Verif.Props.Compress
import Verif.Props.Block
/-
C69: everything the server reads is what the client's callers submitted. C70: connecting.
-/
namespace Klick
open Spec Props

/-! ### revisions -/

theorem spoken_ge (r k : Nat) (h : k ≤ 54448) : (spoken r ≥ k) = (r ≥ k) := by
  unfold spoken; apply propext; omega

theorem spoken_pos (r : Nat) : (spoken r > 0) = (r > 0) := by
  unfold spoken; apply propext; omega

theorem query_spoken (q : Query) (r : Nat) : q.write (spoken r) = q.write r := by
  have : q.info.write (spoken r) = q.info.write r := by
    unfold ClientInfo.write
    simp only [spoken_ge r 54060 (by decide), spoken_ge r 54448 (by decide), spoken_ge r 54401 (by decide), spoken_ge r 54442 (by decide)]
  unfold Query.write
  simp only [this, spoken_ge r 54032 (by decide), spoken_ge r 54441 (by decide)]

theorem write_spoken (cfg : Cfg) (b : Block) (r : Nat) : b.write cfg (spoken r) = b.write cfg r := by
  unfold Block.write
  simp only [spoken_pos]

theorem obs_spoken (env : Env) (r : Nat) (o : Obs) : env.obsBytes (spoken r) o = env.obsBytes r o := by
  have : ∀ b, env.dataBytes (spoken r) b = env.dataBytes r b := by
    intro b
    unfold Env.dataBytes sendData
    simp only [compressData, compressBlock, write_spoken]
  cases o <;> simp only [Env.obsBytes, Env.queryBytes, query_spoken, this]

/-! ### one packet -/

theorem query_take (env : Env) (lz : Lz4) (hs : Sane env lz) (r : Nat) (c : Bool) (t : Ticket) (text : Str)
    (ht : (utf8Encode text).length < 2 ^ 63) (rest : Bytes) :
    ∃ p, takePacket env.cfg lz r c (env.obsBytes r (.sentQuery t text) ++ rest) = some (p, rest) ∧
      IsWrite env.comp.isSome env.uuid (.sentQuery t text) p ∧ p.flag c = env.comp.isSome := by
  obtain ⟨info, h, _⟩ := C41_client_query (env.uuid t) (utf8Encode text) versionMajor versionMinor env.comp.isSome r rest (hs.uuid t) ht
    (by decide) (by decide)
  have hv : ∃ s', takeVarint (env.obsBytes r (.sentQuery t text) ++ rest) = some (1, s') := by
    simp only [Env.obsBytes, Env.queryBytes, Query.write, List.append_assoc]
    exact ⟨_, takeVarint_write 1 (by decide) _⟩
  obtain ⟨s', hv⟩ := hv
  refine ⟨.query ⟨env.uuid t, info, [], if r ≥ 54441 then some [] else none, 2, if env.comp.isSome then 1 else 0, utf8Encode text⟩,
    ?_, ⟨rfl, rfl, rfl, rfl, rfl⟩, ?_⟩
  · unfold takePacket
    rw [hv]
    simp only
    rw [show env.obsBytes r (.sentQuery t text) = (clientQuery (env.uuid t) versionMajor versionMinor env.comp.isSome (utf8Encode text)).write r from rfl, h]
    rfl
  · cases env.comp <;> rfl

theorem write_ne_nil (cfg : Cfg) (b : Block) (r : Nat) : (b.write cfg r).1 ≠ [] := by
  have : ∀ n, writeVarUint n ≠ [] := by
    intro n h
    unfold writeVarUint at h
    simp [writeVarUintLoop] at h
  unfold Block.write
  simp [this]

theorem data_take (env : Env) (lz : Lz4) (hs : Sane env lz) (r : Nat) (b : Block) (hb : Carried env r b)
    (rest : Bytes) :
    ∃ b', takePacket env.cfg lz r env.comp.isSome ((env.dataBytes r b).1 ++ rest) = some (.data [] b', rest) ∧ SameData b b' := by
  obtain ⟨bytes, hw, hr⟩ := C14_block_roundtrip env.cfg b hb.1 r
  obtain ⟨b', h1, h2⟩ := hr []
  refine ⟨b', ?_, h2⟩
  have key : ∃ payload, (env.dataBytes r b).1 = writeVarUint 2 ++ (writeString [] ++ payload) ∧
      readDataBlock env.cfg (if env.comp.isSome then some lz else none) r (payload ++ rest) = .ok (b', rest) := by
    unfold Env.dataBytes sendData
    rcases hs.same with hc | hc
    · rw [hc]
      refine ⟨bytes, by simp [hw], ?_⟩
      obtain ⟨b'', h3, _⟩ := hr rest
      have := (Steady.readBlock env.cfg r).exact (by simpa using h1) rest
      simpa [readDataBlock] using this
    · obtain ⟨c, c1, c2, c3⟩ := hb.2 lz hc
      rw [hw] at c1 c3
      simp only at c1 c3
      rw [hc]
      refine ⟨frame lz lz4Byte c bytes.length, ?_, ?_⟩
      · simp [compressData, compressBlock, hw, c1]
      · have hf := frame_isFrame lz c bytes c2 (by omega) (hs.inverse _ _ c1)
        simp only [Option.isSome_some, if_true, readDataBlock]
        refine framed_read (ds := [bytes]) (Steady.readBlock env.cfg r) (by simpa using h1) ?_ (by simp) ?_
        · exact .cons hf (.nil _)
        · intro d hd
          simp only [List.mem_singleton] at hd
          have := write_ne_nil env.cfg b r
          rw [hw] at this
          rw [hd]; exact this
  obtain ⟨payload, k1, k2⟩ := key
  unfold takePacket
  rw [k1]
  simp only [List.append_assoc]
  rw [takeVarint_write 2 (by decide)]
  simp only
  unfold takeDataHead
  rw [takeVarint_write 2 (by decide)]
  simp only [Option.bind_eq_bind, Option.bind_some]
  rw [takeStr_write _ _ (by decide)]
  simp only [Option.bind_some, pure, takeBlock, k2, Option.map_some]

theorem endBlock_ok (cfg : Cfg) : BlockOk cfg endBlock :=
  ⟨⟨List.nodup_nil, List.nodup_nil⟩, by decide, by decide, fun _ _ h => by cases h⟩

/-- A write whose bytes a server can read. -/
def Readable (env : Env) (r : Nat) : Obs → Prop
  | .sentQuery _ text => (utf8Encode text).length < 2 ^ 63
  | .sentEmpty _ => Carried env r endBlock
  | .sentData _ _ b => Carried env r b
  | _ => True

theorem obs_take (env : Env) (lz : Lz4) (hs : Sane env lz) (r : Nat) (c : Bool) (o : Obs) (ho : isSent o = true)
    (hr : Readable env r o) (hc : c = env.comp.isSome ∨ ∃ t x, o = .sentQuery t x) (rest : Bytes) :
    ∃ p, takePacket env.cfg lz r c (env.obsBytes r o ++ rest) = some (p, rest) ∧
      IsWrite env.comp.isSome env.uuid o p ∧ p.flag c = env.comp.isSome := by
  cases o with
  | sentQuery t x => exact query_take env lz hs r c t x hr rest
  | sentEmpty t =>
    have hc : c = env.comp.isSome := hc.elim id (by rintro ⟨_, _, h⟩; cases h)
    obtain ⟨b', h1, h2, h3, h4, h5⟩ := data_take env lz hs r endBlock hr rest
    refine ⟨.data [] b', by rw [hc]; exact h1, ⟨rfl, h2, h3, ?_⟩, hc⟩
    cases hd : b'.columnData with
    | nil => rfl
    | cons e l => rw [hd] at h4; cases h4
  | sentData d w b =>
    have hc : c = env.comp.isSome := hc.elim id (by rintro ⟨_, _, h⟩; cases h)
    obtain ⟨b', h1, h2⟩ := data_take env lz hs r b hr rest
    exact ⟨.data [] b', by rw [hc]; exact h1, ⟨rfl, h2⟩, hc⟩
  | _ => cases ho

/-- A list of writes that starts with a query (or nothing). -/
def QueryFirst : List Obs → Prop
  | [] => True
  | o :: _ => ∃ t x, o = .sentQuery t x

theorem many_take (env : Env) (lz : Lz4) (hs : Sane env lz) (r : Nat) (rest : Bytes) :
    ∀ (os : List Obs) (c : Bool), (∀ o ∈ os, isSent o = true) → (∀ o ∈ os, Readable env r o) →
      (c = env.comp.isSome ∨ QueryFirst os) →
      ∃ ps, takeMany env.cfg lz r os.length c (os.flatMap (env.obsBytes r) ++ rest) = some (ps, rest) ∧ ps.length = os.length ∧
        ∀ (i : Nat) (o : Obs), os[i]? = some o → ∃ p, ps[i]? = some p ∧ IsWrite env.comp.isSome env.uuid o p
  | [], c, _, _, _ => ⟨[], rfl, rfl, fun i o h => by simp at h⟩
  | o :: os, c, h1, h2, h3 => by
    obtain ⟨p, hp, hw, hf⟩ := obs_take env lz hs r c o (h1 o (List.mem_cons_self ..)) (h2 o (List.mem_cons_self ..)) h3
      (os.flatMap (env.obsBytes r) ++ rest)
    obtain ⟨ps, k1, k2, k3⟩ := many_take env lz hs r rest os (p.flag c) (fun o h => h1 o (List.mem_cons_of_mem _ h))
      (fun o h => h2 o (List.mem_cons_of_mem _ h)) (.inl hf)
    refine ⟨p :: ps, ?_, by simp [k2], ?_⟩
    · simp only [List.flatMap_cons, List.append_assoc, List.length_cons, takeMany, hp, Option.bind_some, k1, Option.map_some]
    · intro i o' hi
      cases i with
      | zero => simp only [List.getElem?_cons_zero, Option.some.injEq] at hi; subst hi; exact ⟨p, rfl, hw⟩
      | succ i => simp only [List.getElem?_cons_succ] at hi; exact k3 i o' hi

/-! ### the order of the writes -/

theorem filter_first {α : Type} (p : α → Bool) : ∀ (l : List α) (a : α) (rest : List α), l.filter p = a :: rest →
    ∃ l1 l2, l = l1 ++ a :: l2 ∧ (∀ x ∈ l1, p x = false) ∧ p a = true
  | [], _, _, h => by cases h
  | b :: l, a, rest, h => by
    by_cases hb : p b = true
    · rw [List.filter_cons_of_pos hb] at h
      cases h
      exact ⟨[], l, rfl, by simp, hb⟩
    · rw [List.filter_cons_of_neg hb] at h
      obtain ⟨l1, l2, h1, h2, h3⟩ := filter_first p l a rest h
      refine ⟨b :: l1, l2, by rw [h1]; rfl, ?_, h3⟩
      intro x hx
      rcases List.mem_cons.mp hx with rfl | hx
      · simpa using hb
      · exact h2 x hx

theorem view_unsent : ∀ (l : List Obs), (∀ o ∈ l, isSent o = false) → (view l).cur = none ∧ (view l).done = [] := by
  intro l h
  have : ∀ (l : List Obs) (v : View), (∀ o ∈ l, isSent o = false) → v.cur = none → v.done = [] →
      (l.foldl View.next v).cur = none ∧ (l.foldl View.next v).done = [] := by
    intro l
    induction l with
    | nil => intro v _ h1 h2; exact ⟨h1, h2⟩
    | cons o l ih =>
      intro v h h1 h2
      rw [List.foldl_cons]
      have ho := h o (List.mem_cons_self ..)
      refine ih _ (fun o hm => h o (List.mem_cons_of_mem _ hm)) ?_ ?_ <;>
      · cases o with
        | sentQuery t x => cases ho
        | got p => cases p <;> simp only [View.next, h1, h2]
        | _ => simp only [View.next, h1, h2]
  exact this l _ h rfl rfl

/-- The first thing sent on a connection is a query. -/
theorem sent_first {s : Conn} (h : Reachable s) : QueryFirst (s.log.filter isSent) := by
  cases hf : s.log.filter isSent with
  | nil => trivial
  | cons o rest =>
    obtain ⟨l1, l2, h1, h2, h3⟩ := filter_first isSent _ _ _ hf
    obtain ⟨v1, v2⟩ := view_unsent l1 h2
    have hr := (weak h).rule l1 o l2 h1
    cases o with
    | sentQuery t x => exact ⟨t, x, rfl⟩
    | sentEmpty t => have h1 : (view l1).cur = some t := hr.1; rw [v1] at h1; cases h1
    | sentData d w b => 
      have h1 : (view l1).cur = some w ∨ w ∈ (view l1).done := hr.1
      rw [v1, v2] at h1
      rcases h1 with h1 | h1 <;> cases h1
    | _ => cases h3

theorem unsent_bytes (env : Env) (r : Nat) (l : List Obs) :
    l.flatMap (env.obsBytes r) = (l.filter isSent).flatMap (env.obsBytes r) := by
  induction l with
  | nil => rfl
  | cons o l ih =>
    rw [List.flatMap_cons, ih]
    cases o <;> rfl

/-! ### the invariant -/

theorem executeOutcome_ok {s : Conn} {t : Ticket} (h : executeOutcome s t = some (.ok ())) : s.slots t = some (.streaming [] false) := by
  unfold executeOutcome at h
  cases hs : s.slots t with
  | none =>
    rw [hs] at h
    cases hp : s.phase <;> rw [hp] at h <;> cases h
  | some c =>
    rw [hs] at h
    cases c with
    | waiting => cases h
    | failed => cases h
    | streaming buf o =>
      simp only at h
      split at h
      · cases h
      · cases h
      · cases buf <;> cases o <;> first | rfl | (simp at h)

/-- What holds of every connection. -/
structure SInv (env : Env) (opts : Options) (s : Session) : Prop where
  conn : Reachable s.conn
  quiet : (∀ h, s.boot ≠ .up h) → (s.conn.phase = .idle ∨ s.conn.phase = .dead) ∧ (∀ o ∈ s.conn.log, isSent o = false) ∧ s.tail = []
  greeting : s.greeting <+: opts.hello
  hello : ∀ h, s.boot = .up h → s.greeting = opts.hello
  greeted : s.boot = .greeted → s.conn.phase = .idle → s.greeting = opts.hello
  fresh : s.boot = .fresh → s.conn.phase = .idle ∧ s.greeting = []
  tail : .died ∉ s.conn.log → s.tail = []

theorem sinit_inv (env : Env) (opts : Options) : SInv env opts Session.init :=
  ⟨⟨[], rfl⟩, fun _ => ⟨.inl rfl, by simp [Session.init, Conn.init], rfl⟩, List.nil_prefix, (by intro h hh; cases hh), (by intro h; cases h),
    fun _ => ⟨rfl, rfl⟩, fun _ => rfl⟩

theorem unsent_of_slot {s : Conn} (h : Reachable s) (hn : ∀ o ∈ s.log, isSent o = false) (t : Ticket) (buf : List Item) (o : Bool) :
    s.slots t ≠ some (.streaming buf o) := by
  intro hs
  have := ((weak h).stream t).mpr ⟨_, _, hs⟩
  unfold sentOf at this
  obtain ⟨x, hx, he⟩ := List.mem_filterMap.mp this
  cases x with
  | sentQuery t' x' => have := hn _ hx; cases this
  | _ => cases he

theorem kill_reachable {s : Conn} (h : Reachable s) (hi : s.phase = .idle) : Reachable s.kill :=
  h.step (e := .fail) (by simp only [Conn.step, hi])

theorem kill_dead (s : Conn) : s.kill.phase = .dead := by unfold Conn.kill; rfl

theorem pre_step {env : Env} {opts : Options} {s : Session} (h : SInv env opts s) (hb : ∀ x, s.boot ≠ .up x) {e : Event}
    (ha : s.allowed e = true) {c : Conn} (hc : s.conn.step e = some c) : c.phase = s.conn.phase ∧ ∀ o ∈ c.log, isSent o = false := by
  obtain ⟨q1, q2, q3⟩ := h.quiet hb
  have hns := unsent_of_slot h.conn q2
  have late : ∀ {e}, (match s.boot with | .up _ => true | _ => false) = true → e := by
    intro e hh
    cases hbb : s.boot with
    | up x => exact absurd hbb (hb x)
    | fresh => rw [hbb] at hh; cases hh
    | greeted => rw [hbb] at hh; cases hh
  cases e with
  | submit t x =>
    simp only [Conn.step] at hc
    split at hc
    · cases hc
    · cases hc
    · split at hc
      · cases hc
        refine ⟨rfl, fun o ho => ?_⟩
        rcases List.mem_append.mp ho with ho | ho
        · exact q2 o ho
        · rw [List.mem_singleton.mp ho]; rfl
      · cases hc
  | submitData d w b =>
    simp only [Conn.step] at hc
    split at hc
    · cases hc
    · rename_i hw _ _; exact absurd hw (hns w _ _)
    · cases hc
  | recv t =>
    simp only [Conn.step] at hc
    split at hc
    · rename_i hw _; exact absurd hw (hns t _ _)
    · cases hc
  | drop t =>
    simp only [Conn.step] at hc
    split at hc
    · cases hc; exact ⟨rfl, q2⟩
    · cases hc
  | handle k => exact late ha
  | packet k p => exact late ha
  | deliver k => exact late ha
  | fail => exact late ha
  | close => exact late ha

theorem sstep_inv {env : Env} {opts : Options} {s s' : Session} {e : SEvent} (h : SInv env opts s) (hs : s.step env opts e = some s') :
    SInv env opts s' := by
  cases e with
  | greet cut =>
    simp only [Session.step] at hs
    cases hb : s.boot with
    | fresh =>
      rw [hb] at hs
      obtain ⟨q1, q2, q3⟩ := h.quiet (by rw [hb]; intro h hh; cases hh)
      obtain ⟨f1, f2⟩ := h.fresh hb
      cases cut with
      | none =>
        cases hs
        exact ⟨h.conn, fun _ => ⟨q1, q2, q3⟩, List.prefix_rfl, (by intro h hh; cases hh), fun _ _ => rfl, (by intro hh; cases hh), h.tail⟩
      | some n =>
        cases hs
        refine ⟨kill_reachable h.conn f1, fun _ => ⟨.inr (kill_dead _), ?_, q3⟩, List.take_prefix _ _, (by intro h hh; cases hh), ?_, (by intro hh; cases hh), ?_⟩
        · intro o ho
          rw [kill_log] at ho
          rcases List.mem_append.mp ho with ho | ho
          · exact q2 o ho
          · rw [List.mem_singleton.mp ho]; rfl
        · intro _ hh; rw [kill_dead] at hh; cases hh
        · intro _; exact q3
    | greeted => rw [hb] at hs; cases hs
    | up x => rw [hb] at hs; cases hs
  | answer bytes =>
    simp only [Session.step] at hs
    cases hb : s.boot with
    | fresh => rw [hb] at hs; cases hs
    | up x => rw [hb] at hs; cases hs
    | greeted =>
      rw [hb] at hs
      cases hp : s.conn.phase with
      | sending a b c => rw [hp] at hs; cases hs
      | dead => rw [hp] at hs; cases hs
      | idle =>
        rw [hp] at hs
        obtain ⟨q1, q2, q3⟩ := h.quiet (by rw [hb]; intro h hh; cases hh)
        have hg := h.greeted hb hp
        have killed : SInv env opts { s with boot := .greeted, conn := s.conn.kill } := by
          refine ⟨kill_reachable h.conn hp, fun _ => ⟨.inr (kill_dead _), ?_, q3⟩, h.greeting, (by intro _ hh; cases hh), ?_, ?_, fun _ => q3⟩
          · intro o ho
            rw [kill_log] at ho
            rcases List.mem_append.mp ho with ho | ho
            · exact q2 o ho
            · rw [List.mem_singleton.mp ho]; rfl
          · intro _ hh; rw [kill_dead] at hh; cases hh
          · intro hh; cases hh
        simp only at hs
        split at hs
        · cases hs
          refine ⟨h.conn, fun hh => absurd rfl (hh _), h.greeting, fun _ _ => hg, (by intro hh; cases hh), (by intro hh; cases hh), h.tail⟩
        · cases hs; exact killed
  | lost =>
    simp only [Session.step] at hs
    cases hb : s.boot with
    | fresh => rw [hb] at hs; cases hs
    | up x => rw [hb] at hs; cases hs
    | greeted =>
      rw [hb] at hs
      cases hp : s.conn.phase with
      | sending a b c => rw [hp] at hs; cases hs
      | dead => rw [hp] at hs; cases hs
      | idle =>
        rw [hp] at hs
        obtain ⟨q1, q2, q3⟩ := h.quiet (by rw [hb]; intro h hh; cases hh)
        cases hs
        refine ⟨kill_reachable h.conn hp, fun _ => ⟨.inr (kill_dead _), ?_, q3⟩, h.greeting, (by intro _ hh; cases hh), ?_, ?_, fun _ => q3⟩
        · intro o ho
          rw [kill_log] at ho
          rcases List.mem_append.mp ho with ho | ho
          · exact q2 o ho
          · rw [List.mem_singleton.mp ho]; rfl
        · intro _ hh; rw [kill_dead] at hh; cases hh
        · intro hh; cases hh
  | conn e cut =>
    simp only [Session.step] at hs
    by_cases ha : s.allowed e = true
    · rw [if_pos ha] at hs
      cases hc : s.conn.step e with
      | none => rw [hc] at hs; cases hs
      | some c =>
        rw [hc, Option.bind_some] at hs
        by_cases hok : (c.log.drop s.conn.log.length).all (env.completes s.boot.revision) = true
        · rw [if_pos hok] at hs
          cases hs
          have hr := h.conn.step hc
          have htail : .died ∉ c.log → (if (c.isClosed && !s.conn.isClosed) = true then
              (env.attempted s.boot.revision s.conn e).take cut else s.tail) = [] := by
            intro hd
            have hl := (alive_live hr hd).1.alive
            have hcl : c.isClosed = false := by
              unfold Conn.isClosed
              cases hp : c.phase with
              | dead => exact absurd hp hl
              | _ => rfl
            rw [hcl]
            simp only [Bool.false_and, Bool.false_eq_true, if_false]
            obtain ⟨l, hl, _⟩ := step_log hc
            exact h.tail (fun hm => hd (by rw [hl]; exact List.mem_append_left _ hm))
          cases hb : s.boot with
          | up x =>
            exact ⟨hr, fun hh => absurd rfl (hh x), h.greeting, fun _ _ => h.hello x hb, (by intro hh; cases hh), (by intro hh; cases hh),
              by rw [hb] at htail; exact htail⟩
          | fresh =>
            obtain ⟨p1, p2⟩ := pre_step h (by rw [hb]; intro h hh; cases hh) ha hc
            have p3 : (if (c.isClosed && !s.conn.isClosed) = true then (env.attempted (Boot.fresh).revision s.conn e).take cut else s.tail) = [] := by
              unfold Conn.isClosed; rw [p1]
              cases s.conn.phase <;> simp [(h.quiet (by rw [hb]; intro h hh; cases hh)).2.2]
            obtain ⟨q1, q2, q3⟩ := h.quiet (by rw [hb]; intro h hh; cases hh)
            refine ⟨hr, fun _ => ⟨by rw [p1]; exact q1, p2, p3⟩, h.greeting, (by intro _ hh; cases hh), (by intro hh; cases hh), fun _ => ?_, fun _ => p3⟩
            have := h.fresh hb
            exact ⟨by rw [p1]; exact this.1, this.2⟩
          | greeted =>
            obtain ⟨p1, p2⟩ := pre_step h (by rw [hb]; intro h hh; cases hh) ha hc
            have p3 : (if (c.isClosed && !s.conn.isClosed) = true then (env.attempted (Boot.greeted).revision s.conn e).take cut else s.tail) = [] := by
              unfold Conn.isClosed; rw [p1]
              cases s.conn.phase <;> simp [(h.quiet (by rw [hb]; intro h hh; cases hh)).2.2]
            obtain ⟨q1, q2, q3⟩ := h.quiet (by rw [hb]; intro h hh; cases hh)
            refine ⟨hr, fun _ => ⟨by rw [p1]; exact q1, p2, p3⟩, h.greeting, (by intro _ hh; cases hh), fun _ hi => ?_, (by intro hh; cases hh), fun _ => p3⟩
            exact h.greeted hb (by rw [← p1]; exact hi)
        · rw [if_neg hok] at hs; cases hs
    · rw [if_neg ha] at hs; cases hs

theorem srun_inv {env : Env} {opts : Options} : ∀ (es : List SEvent) {s s' : Session}, SInv env opts s → s.run env opts es = some s' → SInv env opts s'
  | [], s, s', h, hs => by cases hs; exact h
  | e :: es, s, s', h, hs => by
    simp only [Session.run] at hs
    cases h1 : s.step env opts e with
    | none => rw [h1] at hs; cases hs
    | some s1 => rw [h1] at hs; exact srun_inv es (sstep_inv h h1) hs

theorem Spec.SReachable.inv {env : Env} {opts : Options} {s : Session} (h : SReachable env opts s) : SInv env opts s := by
  obtain ⟨es, hes⟩ := h
  exact srun_inv es (sinit_inv env opts) hes

/-- A property kept by every step of a reachable session holds of every reachable session. -/
theorem sreach_ind {env : Env} {opts : Options} (P : Session → Prop) (h0 : P Session.init)
    (hstep : ∀ s e s', SInv env opts s → P s → s.step env opts e = some s' → P s') {s : Session} (h : SReachable env opts s) : P s := by
  obtain ⟨es, hes⟩ := h
  have : ∀ (es : List SEvent) (s : Session), SInv env opts s → P s → ∀ s', s.run env opts es = some s' → P s' := by
    intro es
    induction es with
    | nil => intro s _ hp s' hs; cases hs; exact hp
    | cons e es ih =>
      intro s hi hp s' hs
      simp only [Session.run] at hs
      cases h1 : s.step env opts e with
      | none => rw [h1] at hs; cases hs
      | some s1 => rw [h1] at hs; exact ih s1 (sstep_inv hi h1) (hstep s e s1 hi hp h1) s' hs
  exact this es _ (sinit_inv env opts) h0 s hes

/-! ### what is left of a packet that did not complete -/

/-- What is left is the beginning of one packet carrying something submitted. -/
def CutOk (env : Env) (s : Session) : Prop :=
  s.tail = [] ∨ ∃ o, Submitted s.conn.log o ∧ s.tail <+: env.obsBytes s.boot.revision o

theorem mem_submitted_mono {l l' : List Obs} {o : Obs} (h : Submitted l o) : Submitted (l ++ l') o := by
  cases o <;> simp only [Submitted, queriesSubmitted, blocksSubmitted, List.filterMap_append] at * <;>
    first | exact h | exact List.mem_append_left _ h

theorem attempted_ok (env : Env) (r : Nat) {s : Conn} (h : Reachable s) (hd : s.isClosed = false) (e : Event) :
    env.attempted r s e = [] ∨ ∃ o, Submitted s.log o ∧ env.attempted r s e = env.obsBytes r o := by
  have ht : Texts [] s := by
    rcases h.inv2 with h | h
    · exact h
    · unfold Conn.isClosed at hd; rw [h.dead] at hd; cases hd
  have hp : ∀ t x ps, s.pending = (t, x) :: ps → (t, x) ∈ queriesSubmitted s.log := by
    intro t x ps hp; rw [← ht.queries, hp]; simp
  have pend : ∀ k : Nat, (match s.pending with
      | (t, text) :: _ => if k = 0 then env.queryBytes r t text else (env.dataBytes r endBlock).1
      | [] => []) = [] ∨ ∃ o, Submitted s.log o ∧ (match s.pending with
      | (t, text) :: _ => if k = 0 then env.queryBytes r t text else (env.dataBytes r endBlock).1
      | [] => []) = env.obsBytes r o := by
    intro k
    cases hps : s.pending with
    | nil => exact .inl rfl
    | cons q ps =>
      obtain ⟨t, x⟩ := q
      by_cases hk : k = 0
      · exact .inr ⟨.sentQuery t x, hp t x ps hps, by simp only [hk, if_true]; rfl⟩
      · exact .inr ⟨.sentEmpty t, trivial, by simp only [hk, if_false]; rfl⟩
  cases e with
  | handle k =>
    simp only [Env.attempted]
    cases hq : s.queue with
    | nil => exact .inl rfl
    | cons q qs =>
      right
      cases q with
      | query t x =>
        have hm : (t, x) ∈ queriesSubmitted s.log := by rw [← ht.queries, hq]; simp [qQueries]
        by_cases hk : k = 0
        · exact ⟨.sentQuery t x, hm, by simp only [hk, if_true]; rfl⟩
        · exact ⟨.sentEmpty t, trivial, by simp only [hk, if_false]; rfl⟩
      | data d w b =>
        have hm : (d, w, b) ∈ blocksSubmitted s.log := by rw [← ht.blocks, hq]; simp [qBlocks]
        exact ⟨.sentData d w b, hm, rfl⟩
  | deliver k => exact pend k
  | packet k p =>
    cases p with
    | endOfStream => exact pend k
    | _ => exact .inl rfl
  | _ => exact .inl rfl

theorem cut_ok {env : Env} {opts : Options} {s : Session} (h : SReachable env opts s) : CutOk env s := by
  refine sreach_ind (CutOk env) (.inl rfl) ?_ h
  intro s e s' hi hp hs
  have early : (∀ x, s.boot ≠ .up x) → s.tail = [] := fun hb => (hi.quiet hb).2.2
  cases e with
  | greet cut =>
    left
    simp only [Session.step] at hs
    split at hs
    all_goals first
      | (cases hs; done)
      | (rename_i hb; cases hs; exact early (by intro x hh; rw [hb] at hh; cases hh))
      | (rename_i hb _; cases hs; exact early (by intro x hh; rw [hb] at hh; cases hh))
      | (rename_i hb _ _; cases hs; exact early (by intro x hh; rw [hb] at hh; cases hh))
  | answer bytes =>
    left
    simp only [Session.step] at hs
    split at hs
    · rename_i hb _
      split at hs <;> (cases hs; exact early (by rw [hb]; intro x hh; cases hh))
    · cases hs
  | lost =>
    left
    simp only [Session.step] at hs
    split at hs
    · rename_i hb _; cases hs; exact early (by rw [hb]; intro x hh; cases hh)
    · cases hs
  | conn e cut =>
    simp only [Session.step] at hs
    split at hs
    · cases hc : s.conn.step e with
      | none => rw [hc] at hs; cases hs
      | some c =>
        rw [hc, Option.bind_some] at hs
        split at hs
        · cases hs
          obtain ⟨l, hl, _⟩ := step_log hc
          unfold CutOk
          simp only
          split
          · rename_i hcl
            have ho : s.conn.isClosed = false := by simpa using (Bool.and_eq_true_iff.mp hcl).2
            rcases attempted_ok env s.boot.revision hi.conn ho e with h0 | ⟨o, h1, h2⟩
            · left; rw [h0]; simp
            · right; exact ⟨o, by rw [hl]; exact mem_submitted_mono h1, by rw [h2]; exact List.take_prefix _ _⟩
          · rcases hp with hp | ⟨o, h1, h2⟩
            · exact .inl hp
            · right; exact ⟨o, by rw [hl]; exact mem_submitted_mono h1, h2⟩
        · cases hs
    · cases hs

/-! ## C69 -/

/-- The options fit the protocol. -/
def Spec.OptionsFit (o : Options) : Prop := o.database.length < 2 ^ 63 ∧ o.username.length < 2 ^ 63 ∧ o.password.length < 2 ^ 63

/-- C69: whatever happened on a connection, a server of any revision, reading the client's bytes by the revision both speak, reads
first the hello with the options of the user and then, packet by packet, exactly the writes of the client in their order, each
query with its own text and each block with its own data. Nothing is left over, except after the end of the task the beginning of
one packet with something submitted. -/
theorem C69_stream (env : Env) (opts : Options) (lz : Lz4) (hs : Sane env lz) (ho : OptionsFit opts) {s : Session}
    (h : SReachable env opts s) {x : ServerHello} (hb : s.boot = .up x)
    (hq : ∀ t text, (t, text) ∈ queriesSubmitted s.conn.log → (utf8Encode text).length < 2 ^ 63)
    (hd : ∀ d w b, (d, w, b) ∈ blocksSubmitted s.conn.log → Carried env x.revision b) (he : Carried env x.revision endBlock) :
    ∃ rest ps, takeHello (s.wire env) = some (⟨utf8Encode (ch! "ClickHouse Rust-Klickhouse 0.15.2"), 22, 9, 54448, opts.database, opts.username, opts.password⟩, rest) ∧
      takeMany env.cfg lz (spoken x.revision) (s.conn.log.filter isSent).length false rest = some (ps, s.tail) ∧
      ps.length = (s.conn.log.filter isSent).length ∧
      (∀ (i : Nat) (o : Obs), (s.conn.log.filter isSent)[i]? = some o → ∃ p, ps[i]? = some p ∧ IsWrite env.comp.isSome env.uuid o p) ∧
      (.died ∉ s.conn.log → s.tail = []) ∧
      (s.tail ≠ [] → ∃ o, Submitted s.conn.log o ∧ s.tail <+: env.obsBytes x.revision o) := by
  have hi := h.inv
  have hrev : ∀ b, Carried env x.revision b → Carried env (spoken x.revision) b := by
    intro b hc
    refine ⟨hc.1, fun lz hl => ?_⟩
    rw [write_spoken]
    exact hc.2 lz hl
  have hread : ∀ o ∈ s.conn.log.filter isSent, Readable env (spoken x.revision) o := by
    intro o hm
    obtain ⟨hm, hsent⟩ := List.mem_filter.mp hm
    cases o with
    | sentQuery t text =>
      refine hq t text ((C29_order hi.conn).subset ?_)
      exact List.mem_filterMap.mpr ⟨_, hm, rfl⟩
    | sentEmpty t => exact hrev _ he
    | sentData d w b =>
      refine hrev _ (hd d w b ((C33_blocks_in_order hi.conn).1.subset ?_))
      exact List.mem_filterMap.mpr ⟨_, hm, rfl⟩
    | _ => trivial
  obtain ⟨ps, h1, h2, h3⟩ := many_take env lz hs (spoken x.revision) s.tail (s.conn.log.filter isSent) false
    (fun o hm => (List.mem_filter.mp hm).2) hread (.inr (sent_first hi.conn))
  refine ⟨_, ps, ?_, h1, h2, h3, hi.tail, ?_⟩
  · unfold Session.wire
    rw [hi.hello x hb, hb, unsent_bytes, List.append_assoc]
    have : (s.conn.log.filter isSent).flatMap (env.obsBytes (Boot.up x).revision) =
        (s.conn.log.filter isSent).flatMap (env.obsBytes (spoken x.revision)) := by
      congr 1; funext o; exact (obs_spoken env x.revision o).symm
    rw [this]
    exact C41_hello_packet helloName opts.database opts.username opts.password versionMajor versionMinor _ (by decide) ho.1 ho.2.1 ho.2.2
      (by decide) (by decide)
  · intro hne
    rcases cut_ok h with hc | ⟨o, hc, hp⟩
    · exact absurd hc hne
    · rw [hb] at hp; exact ⟨o, hc, hp⟩

theorem completes_of_unsent (env : Env) (r : Nat) {o : Obs} (h : isSent o = false) : env.completes r o = true := by
  cases o with
  | sentQuery => cases h
  | sentEmpty => cases h
  | sentData => cases h
  | _ => rfl

/-- C69: a block counts as sent only if every byte of it could be written: after a block that fails half-way (a value its type cannot
hold) nothing else goes out, the connection is over. -/
theorem C69_whole (env : Env) (opts : Options) {s : Session} (h : SReachable env opts s) {x : ServerHello} (hb : s.boot = .up x)
    (d w : Ticket) (b : Block) (hd : .sentData d w b ∈ s.conn.log) : (sendData env.cfg env.comp b [] false x.revision).2 = .ok () := by
  have key : ∀ x, s.boot = .up x → ∀ o ∈ s.conn.log, env.completes x.revision o = true := by
    refine sreach_ind (fun s => ∀ x, s.boot = .up x → ∀ o ∈ s.conn.log, env.completes x.revision o = true) (by intro x hx; cases hx) ?_ h
    intro s e s' hi hp hs x hx o ho
    cases e with
    | conn e cut =>
      simp only [Session.step] at hs
      by_cases ha : s.allowed e = true
      · rw [if_pos ha] at hs
        cases hc : s.conn.step e with
        | none => rw [hc] at hs; cases hs
        | some c =>
          rw [hc, Option.bind_some] at hs
          by_cases hok : (c.log.drop s.conn.log.length).all (env.completes s.boot.revision) = true
          · rw [if_pos hok] at hs
            cases hs
            have hx : s.boot = .up x := hx
            obtain ⟨l, hl, _⟩ := step_log hc
            have ho : o ∈ c.log := ho
            rw [hl] at ho
            rcases List.mem_append.mp ho with ho | ho
            · exact hp x hx o ho
            · rw [hl, List.drop_left, hx] at hok
              exact List.all_eq_true.mp hok o ho
          · rw [if_neg hok] at hs; cases hs
      · rw [if_neg ha] at hs; cases hs
    | greet cut =>
      simp only [Session.step] at hs
      cases hbo : s.boot with
      | fresh => rw [hbo] at hs; cases cut <;> cases hs <;> cases hx
      | greeted => rw [hbo] at hs; cases hs
      | up y => rw [hbo] at hs; cases hs
    | answer bytes =>
      simp only [Session.step] at hs
      cases hbo : s.boot with
      | fresh => rw [hbo] at hs; cases hs
      | up y => rw [hbo] at hs; cases hs
      | greeted =>
        rw [hbo] at hs
        cases hph : s.conn.phase with
        | idle =>
          rw [hph] at hs
          dsimp only at hs
          cases hr : receiveHello env.cfg env.comp bytes with
          | ok r =>
            rw [hr] at hs
            cases hs
            have hu := (hi.quiet (by rw [hbo]; intro y hy; cases hy)).2.1
            exact completes_of_unsent env _ (hu o ho)
          | err e => rw [hr] at hs; cases hs; cases hx
          | panic => rw [hr] at hs; cases hs; cases hx
        | _ => rw [hph] at hs; cases hs
    | lost =>
      simp only [Session.step] at hs
      cases hbo : s.boot with
      | fresh => rw [hbo] at hs; cases hs
      | up y => rw [hbo] at hs; cases hs
      | greeted =>
        rw [hbo] at hs
        cases hph : s.conn.phase with
        | idle => rw [hph] at hs; cases hs; cases hx
        | _ => rw [hph] at hs; cases hs
  have := key x hb _ hd
  simp only [Env.completes, Env.dataBytes] at this
  cases hr : (sendData env.cfg env.comp b [] false x.revision).2 with
  | ok u => rfl
  | err e => rw [hr] at this; cases this
  | panic => rw [hr] at this; cases this

/-- C69: before the server's hello has arrived, nothing but the client's hello is sent. -/
theorem C69_hello_first (env : Env) (opts : Options) {s : Session} (h : SReachable env opts s) (hb : ∀ x, s.boot ≠ .up x) :
    s.wire env <+: opts.hello := by
  have hi := h.inv
  obtain ⟨_, q2, q3⟩ := hi.quiet hb
  unfold Session.wire
  rw [unsent_bytes, q3]
  have : s.conn.log.filter isSent = [] := List.filter_eq_nil_iff.mpr (fun o ho => by rw [q2 o ho]; simp)
  rw [this]
  simpa using hi.greeting

theorem texts_of : ∀ (os : List Obs) (ps : List ClientPacket) (c : Bool) (u : Ticket → Bytes), ps.length = os.length →
    (∀ o ∈ os, isSent o = true) →
    (∀ (i : Nat) (o : Obs), os[i]? = some o → ∃ p, ps[i]? = some p ∧ IsWrite c u o p) →
    textsSeen ps = (queriesSent os).map (fun q => utf8Encode q.2)
  | [], ps, _, _, hl, _, _ => by rw [List.length_eq_zero_iff.mp hl]; rfl
  | o :: os, [], _, _, hl, _, _ => by cases hl
  | o :: os, p :: ps, c, u, hl, hs, h => by
    have ih := texts_of os ps c u (by simpa using hl) (fun o ho => hs o (List.mem_cons_of_mem _ ho)) (fun i o hi => h (i + 1) o (by simpa using hi))
    obtain ⟨p', hp', hw⟩ := h 0 o rfl
    cases hp'
    have hso := hs o (List.mem_cons_self ..)
    cases o with
    | sentQuery t x =>
      cases p with
      | query q =>
        have : q.text = utf8Encode x := hw.2.1
        simp only [textsSeen, queriesSent, List.filterMap_cons, List.map_cons, this]
        exact congrArg _ ih
      | data a b => cases hw
    | sentEmpty t =>
      cases p with
      | query q => cases hw
      | data a b => simp only [textsSeen, queriesSent, List.filterMap_cons]; exact ih
    | sentData d w b =>
      cases p with
      | query q => cases hw
      | data a b => simp only [textsSeen, queriesSent, List.filterMap_cons]; exact ih
    | _ => cases hso

theorem sent_queries : ∀ l : List Obs, queriesSent (l.filter isSent) = queriesSent l
  | [] => rfl
  | o :: l => by
    have ih := sent_queries l
    unfold queriesSent at ih ⊢
    cases o <;> simp only [List.filter_cons, isSent, List.filterMap_cons, if_true, Bool.false_eq_true, if_false, ih]

/-- C69: the query texts a server reads are the beginning of the texts submitted, in the order they were submitted, byte for byte. -/
theorem C69_queries (env : Env) (opts : Options) (lz : Lz4) (hs : Sane env lz) (ho : OptionsFit opts) {s : Session}
    (h : SReachable env opts s) {x : ServerHello} (hb : s.boot = .up x)
    (hq : ∀ t text, (t, text) ∈ queriesSubmitted s.conn.log → (utf8Encode text).length < 2 ^ 63)
    (hd : ∀ d w b, (d, w, b) ∈ blocksSubmitted s.conn.log → Carried env x.revision b) (he : Carried env x.revision endBlock) :
    ∃ hello rest n ps tail, takeHello (s.wire env) = some (hello, rest) ∧
      takeMany env.cfg lz (spoken x.revision) n false rest = some (ps, tail) ∧ (.died ∉ s.conn.log → tail = []) ∧
      textsSeen ps <+: (queriesSubmitted s.conn.log).map (fun q => utf8Encode q.2) := by
  obtain ⟨rest, ps, h1, h2, h3, h4, h5, _⟩ := C69_stream env opts lz hs ho h hb hq hd he
  refine ⟨_, rest, _, ps, s.tail, h1, h2, h5, ?_⟩
  rw [texts_of _ ps _ _ h3 (fun o hm => (List.mem_filter.mp hm).2) h4]
  have : queriesSent (s.conn.log.filter isSent) = queriesSent s.conn.log := by
    exact sent_queries _
  rw [this]
  obtain ⟨l, hl⟩ := C29_order h.inv.conn
  rw [← hl, List.map_append]
  exact List.prefix_append _ _

/-! ## C70 -/

theorem cur_phase (s : Conn) : s.isClosed = true ↔ s.phase = .dead := by
  unfold Conn.isClosed
  cases s.phase <;> simp

/-- C70: a client says it is closed (and a pool finds it broken) exactly when its connection task has ended. -/
theorem C70_closed {s : Conn} (h : Reachable s) : s.isClosed = true ↔ .died ∈ s.log := by
  rw [cur_phase]
  constructor
  · intro hp
    by_cases hd : .died ∈ s.log
    · exact hd
    · exact absurd hp (alive_live h hd).1.alive
  · intro hd; exact (died_dead h hd).1

theorem execute_ok_clean : ∀ (items : List Item), executeItems items = .ok () → ∀ e, .error e ∉ items := by
  intro items h e hm
  unfold executeItems at h
  have hex : ∀ (rows : List (Res Unit)), .err e ∈ rows → executeRows rows ≠ .ok () := by
    intro rows
    induction rows with
    | nil => intro hm; cases hm
    | cons r rows ih =>
      intro hm hx
      cases r with
      | ok x =>
        rcases List.mem_cons.mp hm with hm | hm
        · cases hm
        · exact ih hm hx
      | err e' => cases hx
      | panic => cases hx
  have hin : ∀ (items : List Item), .error e ∈ items → .err e ∈ queryStream (fun _ => Res.ok ()) items := by
    intro items
    induction items with
    | nil => intro hm; cases hm
    | cons i items ih =>
      intro hm
      cases i with
      | block b =>
        simp only [queryStream]
        rcases List.mem_cons.mp hm with hm | hm
        · cases hm
        · exact List.mem_append_right _ (ih hm)
      | error e' =>
        simp only [queryStream]
        rcases List.mem_cons.mp hm with hm | hm
        · cases hm; exact List.mem_cons_self ..
        · exact List.mem_cons_of_mem _ (ih hm)
  exact hex _ (hin items hm) h

/-- What `execute` returning `Ok` means, for any query on any connection: the query has been sent; every item the server sent for it
has been read and none is an exception; and it was answered to its end, unless the connection was lost. -/
theorem execute_ok_means {s : Conn} (h : Reachable s) {t : Ticket} (hl : s.listening t = true) (ho : executeOutcome s t = some (.ok ())) :
    t ∈ sentOf s.log ∧ (∀ e, .error e ∉ itemsOf t s.log) ∧ (t ∈ (view s.log).done ∨ .died ∈ s.log) := by
  have hb := executeOutcome_ok ho
  obtain ⟨h1, h2⟩ := C30_end_of_stream h hl hb
  refine ⟨((weak h).stream t).mpr ⟨_, _, hb⟩, ?_, h2⟩
  intro e hm
  rw [← h1] at hm
  unfold executeOutcome at ho
  rw [hb] at ho
  simp only at ho
  split at ho
  · cases ho
  · cases ho
  · rename_i hx
    exact execute_ok_clean _ hx e hm

theorem kill_submits (s : Conn) : queriesSubmitted s.kill.log = queriesSubmitted s.log := by
  rw [kill_log, queriesSubmitted_append]; simp [queriesSubmitted]

theorem dispatch_submits (k : Nat) (t : Ticket) (x : Str) (s : Conn) : queriesSubmitted (dispatch k t x s).log = queriesSubmitted s.log := by
  rw [dispatch_log, queriesSubmitted_append]
  rcases k with _ | _ | k <;> simp [queriesSubmitted]

theorem dispatchNext_submits (k : Nat) (s : Conn) : queriesSubmitted (dispatchNext k s).log = queriesSubmitted s.log := by
  unfold dispatchNext
  split
  · rfl
  · rw [dispatch_submits]

theorem note_submits (s : Conn) (o : Obs) (h : ∀ t x, o ≠ .submitted t x) : queriesSubmitted (s.note o).log = queriesSubmitted s.log := by
  unfold Conn.note
  simp only [queriesSubmitted_append]
  cases o <;> first | (exfalso; exact h _ _ rfl) | simp [queriesSubmitted]

theorem dropExecuting_submits (s : Conn) : queriesSubmitted (dropExecuting s).log = queriesSubmitted s.log := by
  unfold dropExecuting; split <;> rfl

/-- Only the submission of a query adds to the submitted queries. -/
theorem step_submits {s : Conn} {e : Event} {s' : Conn} (hs : s.step e = some s') (he : ∀ t x, e ≠ .submit t x) :
    queriesSubmitted s'.log = queriesSubmitted s.log := by
  cases e with
  | submit t x => exact absurd rfl (he t x)
  | submitData d o b =>
    simp only [Conn.step] at hs
    split at hs
    · cases hs
    · split at hs
      · cases hs; exact note_submits s _ (by intro _ _ h; cases h)
      · cases hs
    · cases hs
  | handle k =>
    simp only [Conn.step] at hs
    split at hs
    · cases hs
      unfold handleRequest
      split
      · split
        · rw [dispatch_submits]
        · rfl
      · split
        · rw [kill_submits]
        · exact note_submits { s with queue := _ } _ (by intro _ _ h; cases h)
    · cases hs
  | packet k p =>
    simp only [Conn.step] at hs
    split at hs
    · cases hs
      have n : queriesSubmitted (s.note (.got p)).log = queriesSubmitted s.log := note_submits s _ (by intro _ _ h; cases h)
      have k1 : queriesSubmitted (s.note (.got p)).kill.log = queriesSubmitted s.log := by rw [kill_submits, n]
      unfold receivePacket
      cases p with
      | hello _ => exact k1
      | data n' b =>
        dsimp only
        split
        · exact n
        · exact k1
      | exception x =>
        dsimp only
        split
        · exact n
        · exact k1
      | progress pr =>
        dsimp only
        split
        · rw [note_submits _ _ (by intro _ _ h; cases h)]; exact n
        · exact n
      | endOfStream =>
        dsimp only
        split
        · rw [dispatchNext_submits, dropExecuting_submits]; exact n
        · exact k1
      | _ => exact n
    · cases hs
  | deliver k =>
    simp only [Conn.step] at hs
    split at hs
    · unfold deliver at hs
      dsimp only at hs
      split at hs
      · split at hs
        · split at hs
          · cases hs
            split
            · rw [dispatchNext_submits]
            · rfl
          · cases hs
        · cases hs
      · cases hs
        split
        · rw [dispatchNext_submits]
        · rfl
    · cases hs
  | recv t =>
    simp only [Conn.step] at hs
    split at hs
    · cases hs; exact note_submits s _ (by intro _ _ h; cases h)
    · cases hs
  | drop t =>
    simp only [Conn.step] at hs
    split at hs
    · cases hs; rfl
    · cases hs
  | fail =>
    simp only [Conn.step] at hs
    split at hs
    · cases hs; exact kill_submits s
    · cases hs
  | close =>
    simp only [Conn.step] at hs
    split at hs
    · cases hs; exact kill_submits s
    · cases hs

/-- The first query submitted on a connection, if any, is the one of `Client::start`. -/
theorem start_first {env : Env} {opts : Options} {s : Session} (h : SReachable env opts s) :
    ∀ q qs, queriesSubmitted s.conn.log = q :: qs → q = (startTicket, setText) := by
  refine sreach_ind (fun s => ∀ q qs, queriesSubmitted s.conn.log = q :: qs → q = (startTicket, setText)) ?_ ?_ h
  · intro q qs hq; cases hq
  · intro s e s' hi hp hs
    have killed : ∀ q qs, queriesSubmitted s.conn.kill.log = q :: qs → q = (startTicket, setText) := by
      intro q qs hq
      rw [kill_log] at hq
      simp only [queriesSubmitted, List.filterMap_append, List.filterMap_cons, List.filterMap_nil, List.append_nil] at hq
      exact hp q qs hq
    cases e with
    | greet cut =>
      simp only [Session.step] at hs
      split at hs
      · cases hs; exact hp
      · cases hs; exact killed
      · cases hs
    | answer bytes =>
      simp only [Session.step] at hs
      split at hs
      · split at hs
        · cases hs; exact hp
        · cases hs; exact killed
      · cases hs
    | lost =>
      simp only [Session.step] at hs
      split at hs
      · cases hs; exact killed
      · cases hs
    | conn e cut =>
      simp only [Session.step] at hs
      split at hs
      · rename_i ha
        cases hc : s.conn.step e with
        | none => rw [hc] at hs; cases hs
        | some c =>
          rw [hc, Option.bind_some] at hs
          split at hs
          · cases hs
            simp only
            by_cases hsub : ∀ t x, e ≠ .submit t x
            · rw [step_submits hc hsub]; exact hp
            · have hsub : ∃ t x, e = .submit t x := by
                cases e with
                | submit t x => exact ⟨t, x, rfl⟩
                | _ => exact absurd (by intro _ _ h; cases h) hsub
              obtain ⟨t, x, he⟩ := hsub
              subst he
              have hc' : queriesSubmitted c.log = queriesSubmitted s.conn.log ++ [(t, x)] := by
                simp only [Conn.step] at hc
                split at hc
                · cases hc
                · cases hc
                · split at hc
                  · cases hc; exact queriesSubmitted_append _ _
                  · cases hc
              intro q qs hq
              rw [hc'] at hq
              cases hold : queriesSubmitted s.conn.log with
              | cons q' qs' =>
                have := hp q' qs' hold
                rw [hold] at hq
                cases hq; exact this
              | nil =>
                rw [hold] at hq
                cases hq
                simp only [Session.allowed] at ha
                by_cases ht : t = startTicket
                · rw [if_pos ht] at ha
                  rw [ht, eq_of_beq ha]
                · rw [if_neg ht] at ha
                  exfalso
                  cases hout : connectOutcome s.conn with
                  | none => rw [hout] at ha; cases ha
                  | some r =>
                    rw [hout] at ha
                    cases r with
                    | err e => cases ha
                    | panic => cases ha
                    | ok u =>
                      have hb := executeOutcome_ok (t := startTicket) hout
                      have hm := ((weak hi.conn).stream startTicket).mpr ⟨_, _, hb⟩
                      obtain ⟨o, hm, ho⟩ := List.mem_filterMap.mp hm
                      cases o with
                      | sentQuery t' x' =>
                        have hin : (t', x') ∈ queriesSent s.conn.log := List.mem_filterMap.mpr ⟨_, hm, rfl⟩
                        have := (C29_order hi.conn).subset hin
                        rw [hold] at this; cases this
                      | _ => cases ho
          · cases hs
      · cases hs

/-- C70: the first query a server reads on a connection is the one setting the input format of times. -/
theorem C70_set_first (env : Env) (opts : Options) (lz : Lz4) (hs : Sane env lz) (ho : OptionsFit opts) {s : Session}
    (h : SReachable env opts s) {x : ServerHello} (hb : s.boot = .up x)
    (hq : ∀ t text, (t, text) ∈ queriesSubmitted s.conn.log → (utf8Encode text).length < 2 ^ 63)
    (hd : ∀ d w b, (d, w, b) ∈ blocksSubmitted s.conn.log → Carried env x.revision b) (he : Carried env x.revision endBlock) :
    ∃ hello rest n ps tail, takeHello (s.wire env) = some (hello, rest) ∧
      takeMany env.cfg lz (spoken x.revision) n false rest = some (ps, tail) ∧ (.died ∉ s.conn.log → tail = []) ∧
      ∀ text texts, textsSeen ps = text :: texts → text = utf8Encode (ch! "SET date_time_input_format='best_effort'") := by
  obtain ⟨hello, rest, n, ps, tail, h1, h2, h3, h4⟩ := C69_queries env opts lz hs ho h hb hq hd he
  refine ⟨hello, rest, n, ps, tail, h1, h2, h3, ?_⟩
  intro text texts ht
  obtain ⟨l, hl⟩ := h4
  rw [ht] at hl
  cases hsub : queriesSubmitted s.conn.log with
  | nil => rw [hsub] at hl; cases hl
  | cons q qs =>
    rw [hsub, start_first h q qs hsub] at hl
    injection hl

/-- A server hello was read to get the connection up. -/
theorem up_answered {env : Env} {opts : Options} : ∀ (es : List SEvent) {s s' : Session}, s.run env opts es = some s' → ∀ x, s'.boot = .up x →
    s.boot = .up x ∨ ∃ bytes rest, .answer bytes ∈ es ∧ receiveHello env.cfg env.comp bytes = .ok (x, rest)
  | [], s, s', h, x, hb => by cases h; exact .inl hb
  | e :: es, s, s', h, x, hb => by
    simp only [Session.run] at h
    cases h1 : s.step env opts e with
    | none => rw [h1] at h; cases h
    | some s1 =>
      rw [h1, Option.bind_some] at h
      rcases up_answered es h x hb with hu | ⟨bytes, rest, hm, hr⟩
      · cases e with
        | greet cut =>
          simp only [Session.step] at h1
          split at h1
          · cases h1; cases hu
          · cases h1; cases hu
          · cases h1
        | answer bytes =>
          simp only [Session.step] at h1
          split at h1
          · split at h1
            · rename_i hr; cases h1; cases hu; exact .inr ⟨bytes, _, List.mem_cons_self .., hr⟩
            · cases h1; exact .inl hu
          · cases h1
        | lost =>
          simp only [Session.step] at h1
          split at h1
          · cases h1; exact .inl hu
          · cases h1
        | conn e cut =>
          simp only [Session.step] at h1
          split at h1
          · cases hc : s.conn.step e with
            | none => rw [hc] at h1; cases h1
            | some c =>
              rw [hc, Option.bind_some] at h1
              split at h1
              · cases h1; exact .inl hu
              · cases h1
          · cases h1
      · exact .inr ⟨bytes, rest, List.mem_cons_of_mem _ hm, hr⟩

/-- C70, except for the loss of the connection: when `connect` returns a client, the server has answered the hello with a hello, the
query of `Client::start` has been sent, the server answered it without an exception, and it answered to the end, unless the connection
was lost meanwhile. -/
theorem C70_accepted_partial (env : Env) (opts : Options) {es : List SEvent} {s : Session} (h : Session.init.run env opts es = some s)
    (hl : s.conn.listening startTicket = true) (hok : connectOutcome s.conn = some (.ok ())) :
    ∃ x, s.boot = .up x ∧ (∃ bytes rest, .answer bytes ∈ es ∧ receiveHello env.cfg env.comp bytes = .ok (x, rest)) ∧
      (startTicket, ch! "SET date_time_input_format='best_effort'") ∈ queriesSent s.conn.log ∧ (∀ e, .error e ∉ itemsOf startTicket s.conn.log) ∧
      (startTicket ∈ (view s.conn.log).done ∨ .died ∈ s.conn.log) := by
  have hr : SReachable env opts s := ⟨es, h⟩
  obtain ⟨h1, h2, h3⟩ := execute_ok_means hr.inv.conn hl hok
  have hup : ∃ x, s.boot = .up x := by
    apply Classical.byContradiction
    intro hn
    obtain ⟨_, q2, _⟩ := hr.inv.quiet (fun x hx => hn ⟨x, hx⟩)
    exact unsent_of_slot hr.inv.conn q2 _ _ _ (executeOutcome_ok hok)
  obtain ⟨x, hx⟩ := hup
  refine ⟨x, hx, ?_, ?_, h2, h3⟩
  · rcases up_answered es h x hx with hu | hu
    · cases hu
    · exact hu
  · obtain ⟨o, hm, ho⟩ := List.mem_filterMap.mp h1
    cases o with
    | sentQuery t text =>
      cases ho
      have hq : (startTicket, text) ∈ queriesSent s.conn.log := List.mem_filterMap.mpr ⟨_, hm, rfl⟩
      obtain ⟨l, hl⟩ := C29_order hr.inv.conn
      cases hs : queriesSubmitted s.conn.log with
      | nil => rw [hs] at hl; rw [(List.append_eq_nil_iff.mp hl).1] at hq; cases hq
      | cons q qs =>
        have hf := start_first hr q qs hs
        have hin := (C29_order hr.inv.conn).subset hq
        have hnd := (C29_once hr.inv.conn).1
        have hso : submittedOf s.conn.log = (queriesSubmitted s.conn.log).map Prod.fst := by
          generalize s.conn.log = l
          unfold submittedOf queriesSubmitted
          rw [List.map_filterMap]
          congr 1; funext o; cases o <;> rfl
        rw [hso, hs] at hnd
        rw [hs] at hin
        have htext : text = setText := by
          rcases List.mem_cons.mp hin with e | e
          · rw [hf] at e; injection e
          · exfalso
            rw [List.map_cons, List.nodup_cons, hf] at hnd
            exact hnd.1 (List.mem_map.mpr ⟨_, e, rfl⟩)
        rw [htext] at hq
        exact hq
    | _ => cases ho

/-- C70: when the exchange fails, for whatever reason (the transport, a malformed or refusing answer), `connect` fails; it reports a
protocol error. -/
theorem C70_refused (env : Env) (opts : Options) {s : Session} (h : SReachable env opts s) (hb : ∀ x, s.boot ≠ .up x)
    (hd : .died ∈ s.conn.log) : connectOutcome s.conn = some (.err .protocol) := by
  have hi := h.inv
  obtain ⟨_, q2, _⟩ := hi.quiet hb
  have hdead := (died_dead hi.conn hd).1
  unfold connectOutcome executeOutcome
  cases hs : s.conn.slots startTicket with
  | none => simp only [hdead]
  | some c =>
    cases c with
    | failed => rfl
    | streaming buf o => exact absurd hs (unsent_of_slot hi.conn q2 _ _ _)
    | waiting =>
      have hm : startTicket ∈ submittedOf s.conn.log := ((weak hi.conn).known _).mpr (by rw [hs]; simp)
      rcases (C34_nobody_waits hi.conn hd).1 _ hm with e | ⟨b, e⟩ <;> (rw [hs] at e; cases e)

/-- C70: once the connection is lost no `query_one` (and so no `is_valid`) is left waiting: one that was not sent fails with a protocol
error, and one that was sent has an outcome as soon as the caller has taken what arrived for it. -/
theorem C70_one_settled {T : Type} (de : TRow → Res T) {s : Conn} (h : Reachable s) (hd : .died ∈ s.log) (t : Ticket) :
    (t ∉ sentOf s.log → queryOneOutcome de s t = some (.err .protocol)) ∧
    ((∀ buf o, s.slots t = some (.streaming buf o) → buf = []) → ∃ r, queryOneOutcome de s t = some r) := by
  have hdead := (died_dead h hd).1
  have key : (∃ buf o, s.slots t = some (.streaming buf o) ∧ t ∈ sentOf s.log ∧ (buf = [] → o = false)) ∨ queryOneOutcome de s t = some (.err .protocol) := by
    unfold queryOneOutcome
    cases hs : s.slots t with
    | none => right; simp only [hdead]
    | some c =>
      cases c with
      | failed => right; rfl
      | waiting =>
        have hm : t ∈ submittedOf s.log := ((weak h).known _).mpr (by rw [hs]; simp)
        rcases (C34_nobody_waits h hd).1 _ hm with e | ⟨b, e⟩ <;> (rw [hs] at e; cases e)
      | streaming buf o =>
        left
        have hm : t ∈ submittedOf s.log := ((weak h).known _).mpr (by rw [hs]; simp)
        refine ⟨buf, o, rfl, ((weak h).stream t).mpr ⟨_, _, hs⟩, fun _ => ?_⟩
        rcases (C34_nobody_waits h hd).1 _ hm with e | ⟨b, e⟩
        · rw [hs] at e; cases e
        · rw [hs] at e; cases e; rfl
  rcases key with ⟨buf, o, hs, hsent, ho⟩ | e
  · refine ⟨fun hn => absurd hsent hn, fun hb => ?_⟩
    have hbuf := hb buf o hs
    have ho2 := ho hbuf
    subst hbuf ho2
    unfold queryOneOutcome
    rw [hs]
    simp only [List.isEmpty_nil, Bool.not_false, Bool.and_self, if_true]
    split
    · exact ⟨_, rfl⟩
    · exact ⟨_, rfl⟩
  · exact ⟨fun _ => e, fun _ => ⟨_, e⟩⟩

/-- C70: `is_valid` of a pool (and any `query_one`) succeeds only if the server sent a row for its query that reads as asked. -/
theorem C70_valid {T : Type} (de : TRow → Res T) {s : Conn} (h : Reachable s) {t : Ticket} {x : T}
    (ho : queryOneOutcome de s t = some (.ok x)) :
    t ∈ sentOf s.log ∧ ∃ b rows row, .block b ∈ itemsOf t s.log ∧ takeIterRows b (rowFuel b) = .ok rows ∧ row ∈ rows ∧ de row = .ok x := by
  unfold queryOneOutcome at ho
  cases hs : s.slots t with
  | none => rw [hs] at ho; cases hp : s.phase <;> rw [hp] at ho <;> cases ho
  | some c =>
    rw [hs] at ho
    cases c with
    | waiting => cases ho
    | failed => cases ho
    | streaming buf o =>
      refine ⟨((weak h).stream t).mpr ⟨_, _, hs⟩, ?_⟩
      simp only at ho
      split at ho
      · split at ho <;> cases ho
      · rename_i y ys hq
        cases ho
        have hin : ∀ (items : List Item), .ok x ∈ queryStream de items →
            ∃ b rows row, .block b ∈ items ∧ takeIterRows b (rowFuel b) = .ok rows ∧ row ∈ rows ∧ de row = .ok x := by
          intro items
          induction items with
          | nil => intro hm; cases hm
          | cons i items ih =>
            intro hm
            cases i with
            | block b =>
              simp only [queryStream] at hm
              rcases List.mem_append.mp hm with hm | hm
              · unfold blockStream at hm
                cases hr : takeIterRows b (rowFuel b) with
                | ok rows =>
                  rw [hr] at hm
                  dsimp only at hm
                  split at hm
                  · rw [List.mem_singleton] at hm; cases hm
                  · obtain ⟨row, hrow, he⟩ := List.mem_map.mp hm
                    exact ⟨b, rows, row, List.mem_cons_self .., hr, (List.mem_filter.mp hrow).1, he⟩
                | err e => rw [hr] at hm; dsimp only at hm; rw [List.mem_singleton] at hm; cases hm
                | panic => rw [hr] at hm; dsimp only at hm; rw [List.mem_singleton] at hm; cases hm
              · obtain ⟨b, rows, row, h1, h2⟩ := ih hm
                exact ⟨b, rows, row, List.mem_cons_of_mem _ h1, h2⟩
            | error e =>
              simp only [queryStream] at hm
              rcases List.mem_cons.mp hm with hm | hm
              · cases hm
              · obtain ⟨b, rows, row, h1, h2⟩ := ih hm
                exact ⟨b, rows, row, List.mem_cons_of_mem _ h1, h2⟩
        obtain ⟨b, rows, row, h1, h2⟩ := hin _ (by rw [hq]; exact List.mem_cons_self ..)
        exact ⟨b, rows, row, (h.reads t).subset h1, h2⟩

/-- C70: a pool hands out a connection with a prequel only after both `connect` and the prequel succeeded, in the sense above. -/
theorem C70_prequel {s : Conn} (h : Reachable s) {t : Ticket} {p : Str} (hl : s.listening t = true)
    (ho : managerOutcome (some p) s t = some (.ok ())) :
    connectOutcome s = some (.ok ()) ∧ t ∈ sentOf s.log ∧ (∀ e, .error e ∉ itemsOf t s.log) ∧ (t ∈ (view s.log).done ∨ .died ∈ s.log) := by
  unfold managerOutcome at ho
  split at ho
  · rename_i hc _
    exact ⟨hc, execute_ok_means h hl ho⟩
  · rename_i hn
    exact absurd rfl (hn p ho)

/-! ### the revision of a connection -/

/-- C69: the revision the client writes for is the one the server announced in its hello (away from the three revisions of C39). -/
theorem C69_revision (env : Env) (opts : Options) (name : Str) (major minor revision : Nat) (tz display : Str) (patch : Nat) (rest : Bytes)
    (hn : TextFits name) (ht : TextFits tz) (hd : TextFits display)
    (h1 : major < 2 ^ 63) (h2 : minor < 2 ^ 63) (h3 : revision < 2 ^ 63) (h4 : patch < 2 ^ 63)
    (hr : revision ≠ 54058 ∧ revision ≠ 54372 ∧ revision ≠ 54401) {s s' : Session}
    (hs : s.step env opts (.answer (helloPacket name major minor revision tz display patch ++ rest)) = some s') :
    ∃ x, s'.boot = .up x ∧ x.revision = revision ∧ s'.conn = s.conn := by
  have h := C39_hello_partial env.cfg env.comp name major minor revision tz display patch rest hn ht hd h1 h2 h3 h4 hr
  have h' : receiveHello env.cfg env.comp (helloPacket name major minor revision tz display patch ++ rest) =
      .ok (⟨name, major, minor, revision, if 54058 ≤ revision then some tz else none,
        if 54372 ≤ revision then some display else none, if 54401 ≤ revision then patch else revision⟩, rest) := by
    unfold receiveHello
    rw [Rd.bind_run_ok h]; rfl
  simp only [Session.step] at hs
  split at hs
  · rw [h'] at hs
    cases hs
    exact ⟨_, rfl, rfl, rfl⟩
  · cases hs

/-! ### examples -/

/-- A build without compression; every query gets the same identifier. -/
def exEnv : Env := ⟨cfgDebug, none, fun _ => List.replicate 36 0x30⟩
/-- Options. -/
def exOpts : Options := ⟨utf8Encode (ch! "default"), [], []⟩
/-- The hello of a server. -/
def exServer : Bytes := helloPacket (ch! "ClickHouse") 23 1 54460 (ch! "UTC") (ch! "host") 5

theorem exServer_ok : receiveHello exEnv.cfg exEnv.comp exServer = .ok (⟨ch! "ClickHouse", 23, 1, 54460, some (ch! "UTC"), some (ch! "host"), 5⟩, []) := by
  have h := C39_hello_partial exEnv.cfg exEnv.comp (ch! "ClickHouse") 23 1 54460 (ch! "UTC") (ch! "host") 5 []
    (by unfold TextFits; decide) (by unfold TextFits; decide) (by unfold TextFits; decide) (by decide) (by decide) (by decide) (by decide) (by decide)
  rw [List.append_nil] at h
  unfold receiveHello exServer
  rw [Rd.bind_run_ok h]; rfl

/-- Greeting and answer. -/
theorem exUp (es : List SEvent) : Session.init.run exEnv exOpts (.greet none :: .answer exServer :: es) =
    Session.run exEnv exOpts ⟨.up ⟨ch! "ClickHouse", 23, 1, 54460, some (ch! "UTC"), some (ch! "host"), 5⟩, Conn.init, exOpts.hello, []⟩ es := by
  simp only [Session.run, Session.step, Session.init, Conn.init, Option.bind_some, exServer_ok]

/-- Connecting, and a query of the user. -/
def exSession : List SEvent := [.greet none, .answer exServer, .conn (.submit 0 setText) 0, .conn (.handle 2) 0, .conn (.packet 2 .endOfStream) 0,
  .conn (.submit 1 (ch! "SELECT 1")) 0, .conn (.handle 2) 0]

theorem exSession_ok : ∃ s, Session.init.run exEnv exOpts exSession = some s ∧ connectOutcome s.conn = some (.ok ()) ∧
    s.conn.listening startTicket = true ∧ s.conn.isClosed = false ∧ (∃ x, s.boot = .up x ∧ x.revision = 54460) ∧
    queriesSubmitted s.conn.log = [(0, ch! "SET date_time_input_format='best_effort'"), (1, ch! "SELECT 1")] ∧
    blocksSubmitted s.conn.log = [] ∧
    queriesSent s.conn.log = [(0, ch! "SET date_time_input_format='best_effort'"), (1, ch! "SELECT 1")] := by
  unfold exSession
  rw [exUp]
  exact ⟨_, rfl, rfl, rfl, rfl, ⟨_, rfl, rfl⟩, rfl, rfl, rfl⟩

theorem exSane : Sane exEnv exLz :=
  ⟨.inl rfl, exLz_inv, fun t => by show (List.replicate 36 (0x30 : BitVec 8)).length < 2 ^ 63; decide⟩

theorem exCarried (r : Nat) : Carried exEnv r endBlock := ⟨endBlock_ok _, (by intro lz h; cases h)⟩

example : ∃ s x, SReachable exEnv exOpts s ∧ s.boot = .up x ∧ OptionsFit exOpts ∧
    (∀ t text, (t, text) ∈ queriesSubmitted s.conn.log → (utf8Encode text).length < 2 ^ 63) ∧
    (∀ d w b, (d, w, b) ∈ blocksSubmitted s.conn.log → Carried exEnv x.revision b) ∧ Carried exEnv x.revision endBlock ∧
    (queriesSubmitted s.conn.log).length = 2 := by
  obtain ⟨s, h1, _, _, _, ⟨x, hx, _⟩, h5, h6, _⟩ := exSession_ok
  refine ⟨s, x, ⟨_, h1⟩, hx, ⟨by decide, by decide, by decide⟩, ?_, ?_, exCarried _, by rw [h5]; rfl⟩
  · intro t text hm
    rw [h5] at hm
    rcases List.mem_cons.mp hm with e | hm
    · cases e; decide
    · rcases List.mem_cons.mp hm with e | hm
      · cases e; decide
      · cases hm
  · intro d w b hm; rw [h6] at hm; cases hm

/-- An insert on a connection with compressed blocks. -/
def exEnvLz : Env := ⟨cfgDebug, some exLz, fun _ => List.replicate 36 0x30⟩

example : Sane exEnvLz exLz :=
  ⟨.inr rfl, exLz_inv, fun t => by show (List.replicate 36 (0x30 : BitVec 8)).length < 2 ^ 63; decide⟩

example : Carried exEnvLz 54460 endBlock := by
  refine ⟨endBlock_ok _, ?_⟩
  intro lz h
  cases h
  exact ⟨_, rfl, by decide, by decide⟩

/-- C70 is false of the code: the server takes the hello but is gone before it has answered the query of `Client::start`, and `connect`
returns a client all the same, on a connection that is closed already. -/
theorem C70_accepted_false : ∃ es s, Session.init.run exEnv exOpts es = some s ∧ s.conn.listening startTicket = true ∧
    connectOutcome s.conn = some (.ok ()) ∧ startTicket ∉ (view s.conn.log).done ∧ s.conn.isClosed = true := by
  refine ⟨[.greet none, .answer exServer, .conn (.submit 0 setText) 0, .conn (.handle 2) 0, .conn .fail 0], ?_⟩
  rw [exUp]
  · refine ⟨_, rfl, rfl, rfl, ?_, rfl⟩
    have : (view [.submitted 0 setText, .sentQuery 0 setText, .sentEmpty 0, .died]).done = [] := rfl
    intro h
    have h' : startTicket ∈ (view [.submitted 0 setText, .sentQuery 0 setText, .sentEmpty 0, .died]).done := h
    rw [this] at h'; cases h'

/-- A server refusing the user. -/
def exRefusal : Bytes := varint 2 ++ exceptionBody 516 (ch! "DB::Exception") (ch! "Authentication failed") [] false

/-- C70 is false of the code in its second part too: the reason a server gives for refusing a connection is not what `connect` returns. -/
theorem C70_reason_false : ∃ es s, Session.init.run exEnv exOpts es = some s ∧ .answer exRefusal ∈ es ∧
    receiveHello exEnv.cfg exEnv.comp exRefusal =
      .err (.serverException 516 (utf8Encode (ch! "DB::Exception")) (utf8Encode (ch! "Authentication failed")) (utf8Encode [])) ∧
    connectOutcome s.conn = some (.err .protocol) := by
  have hr : receiveHello exEnv.cfg exEnv.comp exRefusal =
      .err (.serverException 516 (utf8Encode (ch! "DB::Exception")) (utf8Encode (ch! "Authentication failed")) (utf8Encode [])) := by
    have := C39_refused exEnv.cfg exEnv.comp 516 (ch! "DB::Exception") (ch! "Authentication failed") [] false []
      (by unfold TextFits; decide) (by unfold TextFits; decide) (by unfold TextFits; decide)
    rw [List.append_nil] at this
    exact this
  refine ⟨[.greet none, .conn (.submit 0 setText) 0, .answer exRefusal], ⟨.greeted, (Conn.step Conn.init (.submit 0 setText)).getD Conn.init |>.kill, exOpts.hello, []⟩, ?_, by simp, hr, rfl⟩
  have h1 : Session.init.run exEnv exOpts [.greet none, .conn (.submit 0 setText) 0, .answer exRefusal] =
      Session.run exEnv exOpts ⟨.greeted, (Conn.step Conn.init (.submit 0 setText)).getD Conn.init, exOpts.hello, []⟩ [.answer exRefusal] := rfl
  rw [h1]
  have h2 : Session.step exEnv exOpts ⟨.greeted, (Conn.step Conn.init (.submit 0 setText)).getD Conn.init, exOpts.hello, []⟩ (.answer exRefusal) =
      some ⟨.greeted, ((Conn.step Conn.init (.submit 0 setText)).getD Conn.init).kill, exOpts.hello, []⟩ := by
    simp only [Session.step]
    rw [hr]
    rfl
  simp only [Session.run, h2, Option.bind_some]

example : ∃ s, SReachable exEnv exOpts s ∧ (∀ x, s.boot ≠ .up x) ∧ .died ∈ s.conn.log ∧ s.conn.slots startTicket = some .failed := by
  refine ⟨_, ⟨[.greet none, .conn (.submit 0 setText) 0, .lost], rfl⟩, (by intro x h; cases h), ?_, rfl⟩
  rw [kill_log]; simp

/-- A pool's check of a connection. -/
def exValid : List Event :=
  [.submit 0 validText, .handle 2, .packet 2 (.data [] ⟨⟨false, 0⟩, 1, [(ch! "''", .string)], [(ch! "''", [.string []])]⟩), .deliver 2, .recv 0]

example : ∃ s, Reachable s ∧ queryOneOutcome (unitRow (fun _ v => Res.ok v)) s 0 = some (.ok (.string [])) := ⟨_, ⟨exValid, rfl⟩, rfl⟩

/-- C70: a pool finds a connection valid only if the server answered the check with a row whose first cell is a text. -/
theorem C70_is_valid {s : Conn} (h : Reachable s) {t : Ticket} (ho : isValidOutcome s t = some (.ok ())) :
    t ∈ sentOf s.log ∧ ∃ b rows name T text rest, .block b ∈ itemsOf t s.log ∧ takeIterRows b (rowFuel b) = .ok rows ∧
      ((name, T, .string (utf8Encode text)) :: rest) ∈ rows ∧ (T = .string ∨ ∃ n, T = .fixedString n) := by
  unfold isValidOutcome at ho
  obtain ⟨r, h1, h2⟩ := Option.map_eq_some_iff.mp ho
  obtain ⟨text, h3, _⟩ := Res.bind_eq_ok.mp h2
  subst h3
  obtain ⟨k0, b, rows, row, k1, k2, k3, k4⟩ := C70_valid _ h h1
  refine ⟨k0, b, rows, ?_⟩
  cases row with
  | nil => cases k4
  | cons c rest =>
    obtain ⟨name, T, v⟩ := c
    have k4 : stringFromSql T v = .ok text := k4
    have hT : (T = .string ∨ ∃ n, T = .fixedString n) ∧ v = .string (utf8Encode text) := by
      have hv : ∀ v : Value, (match v with
          | .string b => (match utf8Decode b with | some s => Res.ok s | none => .err .utf8)
          | _ => .panic) = Res.ok text → v = .string (utf8Encode text) := by
        intro v hv
        cases v with
        | string b =>
          dsimp only at hv
          cases hd : utf8Decode b with
          | none => rw [hd] at hv; cases hv
          | some s => rw [hd] at hv; cases hv; rw [utf8Decode_eq_some hd]
        | _ => cases hv
      unfold stringFromSql at k4
      split at k4
      · exact ⟨.inl rfl, hv v k4⟩
      · exact ⟨.inr ⟨_, rfl⟩, hv v k4⟩
      · cases k4
    exact ⟨name, T, text, rest, k1, k2, by rw [← hT.2]; exact k3, hT.1⟩

example : ∃ s, Reachable s ∧ isValidOutcome s 0 = some (.ok ()) := ⟨_, ⟨exValid, rfl⟩, rfl⟩

/-- A row whose first cell is no text does not do, whatever the last one is. -/
example : ∃ s, Reachable s ∧ isValidOutcome s 0 = some (.err (unexpectedType .uint8)) :=
  ⟨_, ⟨[.submit 0 validText, .handle 2, .packet 2 (.data [] ⟨⟨false, 0⟩, 1, [(ch! "a", .uint8), (ch! "b", .string)],
    [(ch! "a", [.uint8 0#8]), (ch! "b", [.string []])]⟩), .deliver 2, .recv 0], rfl⟩, rfl⟩

/-- The query it makes. -/
example : exValid.head? = some (.submit 0 (ch! "select '';")) := rfl

end Klick
