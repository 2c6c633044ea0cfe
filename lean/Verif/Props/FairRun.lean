import Verif.Props.Fair
import Verif.Props.Session
/-
C82, that the assumptions can be met: every finite run that leaves nothing to do extends to a fair
execution; and the assumption on readers is needed.
-/
namespace Klick
open Spec

theorem kill_listening (s : Conn) : s.kill.listening = s.listening := (kill_eq s).2.2.2.2.1

theorem dispatch_listening (k : Nat) (t : Ticket) (x : Str) (s : Conn) : (dispatch k t x s).listening = s.listening := by
  unfold dispatch
  rcases k with _ | _ | k
  · dsimp only; rw [kill_listening]
  · dsimp only; rw [kill_listening]; rfl
  · rfl

theorem next_listening (k : Nat) (s : Conn) : (dispatchNext k s).listening = s.listening := by
  unfold dispatchNext
  split
  · rfl
  · rw [dispatch_listening]

theorem step_listening {s : Conn} {e : Event} {t : Ticket} (he : e ≠ .drop t) (hl : s.listening t = true) {s' : Conn}
    (hs : s.step e = some s') : s'.listening t = true := by
  have same : ∀ {f : Ticket → Bool}, f = s.listening → f t = true := fun h => by rw [h]; exact hl
  cases e with
  | submit t' text =>
    simp only [Conn.step] at hs
    split at hs
    · cases hs
    · cases hs
    · split at hs
      · cases hs
        simp only [Conn.note, upd]
        split
        · rfl
        · exact hl
      · cases hs
  | submitData d o' b' =>
    simp only [Conn.step] at hs
    split at hs
    · cases hs
    · split at hs
      · cases hs; exact hl
      · cases hs
    · cases hs
  | handle k =>
    simp only [Conn.step] at hs
    split at hs
    · cases hs
      apply same
      unfold handleRequest
      split
      · split
        · rw [dispatch_listening]
        · rfl
      · split
        · rw [kill_listening]
        · rfl
    · cases hs
  | packet k p =>
    simp only [Conn.step] at hs
    split at hs
    · cases hs
      apply same
      unfold receivePacket
      cases p with
      | hello _ => exact kill_listening _
      | data n b =>
        dsimp only
        split
        · rfl
        · exact kill_listening _
      | exception x =>
        dsimp only
        split
        · rfl
        · exact kill_listening _
      | progress pr =>
        dsimp only
        split <;> rfl
      | endOfStream =>
        dsimp only
        split
        · rw [next_listening]
          unfold dropExecuting
          split <;> rfl
        · exact kill_listening _
      | _ => rfl
    · cases hs
  | deliver k =>
    simp only [Conn.step] at hs
    split at hs
    · unfold deliver at hs
      dsimp only at hs
      split at hs
      · split at hs
        · split at hs
          · cases hs
            apply same
            split
            · rw [next_listening]
            · rfl
          · cases hs
        · cases hs
      · cases hs
        apply same
        split
        · rw [next_listening]
        · rfl
    · cases hs
  | recv t' =>
    simp only [Conn.step] at hs
    split at hs
    · cases hs; exact hl
    · cases hs
  | drop t' =>
    simp only [Conn.step] at hs
    split at hs
    · cases hs
      simp only [upd]
      split
      · rename_i e; subst e; exact absurd rfl he
      · exact hl
    · cases hs
  | fail =>
    simp only [Conn.step] at hs
    split at hs
    · cases hs; exact same (kill_listening _)
    · cases hs
  | close =>
    simp only [Conn.step] at hs
    split at hs
    · cases hs; exact same (kill_listening _)
    · cases hs

/-- A finite run, then nothing. -/
def Spec.Execution.ofRun (es : List Event) {s : Conn} (h : Conn.init.run es = some s) : Execution where
  state n := (Conn.init.run (es.take n)).getD Conn.init
  event n := es[n]?
  start := rfl
  moves := by
    intro n e he
    have hlt : n < es.length := by
      rcases Nat.lt_or_ge n es.length with h | h
      · exact h
      · rw [List.getElem?_eq_none h] at he; cases he
    rw [List.getElem?_eq_getElem hlt] at he
    cases he
    have hp : ∀ m, ∃ s', Conn.init.run (es.take m) = some s' := by
      intro m
      have h' := h
      rw [← List.take_append_drop m es, Conn.run_append] at h'
      cases e : Conn.init.run (es.take m) with
      | none => rw [e] at h'; cases h'
      | some s' => exact ⟨s', rfl⟩
    obtain ⟨s1, h1⟩ := hp n
    obtain ⟨s2, h2⟩ := hp (n + 1)
    rw [h1, h2]
    rw [List.take_succ_eq_append_getElem hlt, Conn.run_append, h1] at h2
    simp only [Option.bind, Conn.run] at h2
    simp only [Option.getD]
    cases e : s1.step es[n] with
    | none => rw [e] at h2; cases h2
    | some s' => rw [e] at h2; exact h2
  rests := by
    intro n hn
    have hge : es.length ≤ n := by
      rcases Nat.lt_or_ge n es.length with h | h
      · rw [List.getElem?_eq_getElem h] at hn; cases hn
      · exact h
    rw [List.take_of_length_le hge, List.take_of_length_le (by omega)]

theorem Spec.Execution.ofRun_final {es : List Event} {s : Conn} (h : Conn.init.run es = some s) {n : Nat} (hn : es.length ≤ n) :
    (Execution.ofRun es h).state n = s := by
  show (Conn.init.run (es.take n)).getD Conn.init = s
  rw [List.take_of_length_le hn, h]
  rfl

/-- The caller keeps what it has until it reads or leaves. -/
theorem Spec.Execution.listens (x : Execution) {n : Nat} {t : Ticket} (hl : (x.state n).listening t = true) :
    ∀ m, n ≤ m → (∀ j, n ≤ j → j < m → x.event j ≠ some (.recv t) ∧ x.event j ≠ some (.drop t)) →
      (x.state m).listening t = true ∧ readsOf t (x.state m).log = readsOf t (x.state n).log := by
  intro m
  induction m with
  | zero => intro h _; have : n = 0 := by omega
            subst this; exact ⟨hl, rfl⟩
  | succ m ih =>
    intro h hn
    by_cases e : n = m + 1
    · subst e; exact ⟨hl, rfl⟩
    · obtain ⟨h1, h2⟩ := ih (by omega) (fun j a b => hn j a (by omega))
      cases hev : x.event m with
      | none => rw [x.rests m hev]; exact ⟨h1, h2⟩
      | some ev =>
        obtain ⟨n1, n2⟩ := hn m (by omega) (by omega)
        rw [hev] at n1 n2
        refine ⟨step_listening (fun e => n2 (by rw [e])) h1 (x.moves m ev hev), ?_⟩
        obtain ⟨l, hl, hc⟩ := step_log (x.moves m ev hev)
        rw [← h2, hl, show readsOf t ((x.state m).log ++ l) = readsOf t (x.state m).log ++ readsOf t l by simp [readsOf]]
        rcases hc with hc | ⟨t', i, rfl, _, _, he⟩
        · rw [hc t, List.append_nil]
        · have : t' ≠ t := by rintro rfl; exact n1 (by rw [he])
          simp [readsOf, this]

/-- A finite run that leaves nothing to do is, followed by nothing, a fair execution. -/
theorem Props.C82_fair_run {es : List Event} {s : Conn} (h : Conn.init.run es = some s) (q : Quiet s) : Fair (Execution.ofRun es h) := by
  have fin : ∀ {n}, es.length ≤ n → (Execution.ofRun es h).state n = s := fun hn => Execution.ofRun_final h hn
  refine ⟨⟨?_, ?_, ?_, ?_⟩, ?_⟩
  · intro n hd
    obtain ⟨l, hl⟩ := (Execution.ofRun es h).log_grows (Nat.le_add_right n es.length)
    rw [fin (by omega)] at hl
    exact q.alive (by rw [hl]; simp [hd])
  · intro n hf
    obtain ⟨s', hs'⟩ := hf (n + es.length) (by omega)
    rw [fin (by omega)] at hs'
    simp [Conn.step, q.idle] at hs'
  · intro n ho
    obtain ⟨j, hj, _, hq⟩ := ho (n + es.length) (by omega)
    rw [fin (by omega)] at hq
    exact absurd q.noRequest hq
  · intro n t hf _
    have := hf (n + es.length) (by omega)
    dsimp only at this
    rw [fin (by omega), q.noQuery] at this
    cases this
  · intro n t i buf o hs hl
    apply Classical.byContradiction
    intro hno
    have hno : ∀ j, n ≤ j → j < n + es.length → (Execution.ofRun es h).event j ≠ some (.recv t) ∧ (Execution.ofRun es h).event j ≠ some (.drop t) :=
      fun j hj _ => ⟨fun e => hno ⟨j, hj, .inl e⟩, fun e => hno ⟨j, hj, .inr e⟩⟩
    obtain ⟨h1, h2⟩ := (Execution.ofRun es h).listens hl _ (Nat.le_add_right n es.length) hno
    obtain ⟨l, hlog⟩ := (Execution.ofRun es h).log_grows (Nat.le_add_right n es.length)
    rw [fin (by omega)] at h1 h2 hlog
    have hit := (Props.weak ((Execution.ofRun es h).reach n)).items t hl
    have hpre : itemsOf t ((Execution.ofRun es h).state n).log <+: itemsOf t s.log := by rw [hlog]; exact itemsOf_append t _ _
    have hlen := hpre.length_le
    rw [← q.allRead t h1, h2, ← hit, hs] at hlen
    simp [bufOf] at hlen
    omega

namespace Props

/-- Every call of `execute` and of `query_one` whose caller does not leave returns. -/
theorem C82_returns {x : Execution} (f : Fair x) {n : Nat} {t : Ticket} (ht : t ∈ submittedOf (x.state n).log)
    (hl : Forever n fun m => (x.state m).listening t = true) {T : Type} (de : TRow → Res T) :
    Eventually n fun m => (∃ r, executeOutcome (x.state m) t = some r) ∧ ∃ r, queryOneOutcome de (x.state m) t = some r := by
  obtain ⟨m, hm, hh⟩ := C82_read f ht
  rcases hh with hh | ⟨hs, _, _⟩
  · rw [hl m hm] at hh; cases hh
  · refine ⟨m, hm, ?_, ?_⟩
    · unfold executeOutcome
      rw [hs]
      dsimp only
      split
      · exact ⟨_, rfl⟩
      · exact ⟨_, rfl⟩
      · exact ⟨_, rfl⟩
    · unfold queryOneOutcome
      rw [hs]
      dsimp only
      split
      · exact ⟨_, rfl⟩
      · exact ⟨_, rfl⟩

/-- Two answered queries, a third answered at once, and an insert with one block. -/
def exDone : List Event :=
  exRun ++ [.packet 2 .endOfStream, .submit 4 ['I'], .handle 2, .submitData 9 4 (exB 4), .handle 2, .packet 2 .endOfStream]

theorem exDone_quiet : ∃ s, ∃ _ : Conn.init.run exDone = some s, Quiet s ∧ submittedOf s.log = [1, 2, 3, 4] ∧
    (blocksSubmitted s.log).length = 1 := by
  have hs : ∃ s, Conn.init.run exDone = some s ∧ submittedOf s.log = [1, 2, 3, 4] ∧ (blocksSubmitted s.log).length = 1 ∧
      s.phase = .idle ∧ s.queue = [] ∧ (view s.log).cur = none ∧ readsOf 1 s.log = itemsOf 1 s.log ∧ readsOf 2 s.log = itemsOf 2 s.log ∧
      readsOf 3 s.log = itemsOf 3 s.log ∧ readsOf 4 s.log = itemsOf 4 s.log := ⟨_, rfl, rfl, rfl, rfl, rfl, rfl, rfl, rfl, rfl, rfl⟩
  obtain ⟨s, h0, h1, h1', h2, h3, h4, r1, r2, r3, r4⟩ := hs
  have hr : Reachable s := ⟨_, h0⟩
  refine ⟨s, h0, ⟨?_, h2, h3, h4, ?_⟩, h1, h1'⟩
  · intro hd
    have := (died_dead hr hd).1
    rw [h2] at this
    cases this
  · intro t _
    by_cases ht : t ∈ submittedOf s.log
    · rw [h1] at ht
      simp only [List.mem_cons, List.not_mem_nil, or_false] at ht
      rcases ht with rfl | rfl | rfl | rfl
      · exact r1
      · exact r2
      · exact r3
      · exact r4
    · have hn : s.slots t = none := by
        rw [(weak hr).known] at ht
        exact Classical.byContradiction fun h => ht h
      obtain ⟨a, b⟩ := (weak hr).unseen t hn
      rw [a, b]

/-- The assumptions are met by an execution with four queries, answered with blocks, an exception and
ends of stream, and a block sent. -/
example : ∃ x : Execution, Fair x ∧ (∃ n, submittedOf (x.state n).log = [1, 2, 3, 4]) ∧ (∃ n, (blocksSubmitted (x.state n).log).length = 1) ∧
    ∀ t ∈ [1, 2, 3, 4], Eventually exDone.length fun m => t ∈ (view (x.state m).log).done := by
  obtain ⟨s, h, q, hsub, hb⟩ := exDone_quiet
  have f := C82_fair_run h q
  have e := Execution.ofRun_final h (Nat.le_refl _)
  exact ⟨_, f, ⟨exDone.length, by rw [e]; exact hsub⟩, ⟨exDone.length, by rw [e]; exact hb⟩,
    fun t ht => C82_answered f (by rw [e, hsub]; exact ht)⟩

/-- The assumption on the callers is needed: with a fair task, transport and server, but one caller that
neither reads nor leaves, another caller's query is never sent. -/
theorem C82_readers_needed : ∃ x : Execution, TaskFair x ∧ ∃ n t, t ∈ submittedOf (x.state n).log ∧
    ∀ m, t ∉ sentOf (x.state m).log := by
  have hs : ∃ s, Conn.init.run exStuck = some s ∧ submittedOf s.log = [1, 2] ∧ sentOf s.log = [1] ∧
      s.phase = .sending 1 (.block (exB 1)) false ∧ s.slots 1 = some (.streaming (List.replicate 32 (.block (exB 1))) true) ∧
      s.listening 1 = true := ⟨_, rfl, rfl, rfl, rfl, rfl, rfl⟩
  obtain ⟨s, h1, h2, h3, h4, h5, h6⟩ := hs
  have fin : ∀ {n}, exStuck.length ≤ n → (Execution.ofRun exStuck h1).state n = s := fun hn => Execution.ofRun_final h1 hn
  have hno : .died ∉ s.log := by
    intro hm; have := (died_dead ⟨_, h1⟩ hm).1; rw [h4] at this; cases this
  refine ⟨Execution.ofRun exStuck h1, ⟨?_, ?_, ?_, ?_⟩, exStuck.length, 2, ?_, ?_⟩
  · intro n hd
    obtain ⟨l, hl⟩ := (Execution.ofRun exStuck h1).log_grows (Nat.le_add_right n exStuck.length)
    rw [fin (by omega)] at hl
    exact hno (by rw [hl]; simp [hd])
  · intro n hf
    obtain ⟨s', hs'⟩ := hf (n + exStuck.length) (by omega)
    rw [fin (by omega)] at hs'
    simp only [Conn.step, h4, deliver, h5, h6, if_true, List.length_replicate] at hs'
    rw [if_neg (by decide)] at hs'
    cases hs'
  · intro n ho
    obtain ⟨j, hj, hi, _⟩ := ho (n + exStuck.length) (by omega)
    rw [fin (by omega), h4] at hi
    cases hi
  · intro n t _ ho
    obtain ⟨j, hj, hi⟩ := ho (n + exStuck.length) (by omega)
    rw [fin (by omega), h4] at hi
    cases hi
  · rw [fin (Nat.le_refl _), h2]; simp
  · intro m hm
    obtain ⟨l, hl⟩ := (Execution.ofRun exStuck h1).log_grows (Nat.le_add_right m exStuck.length)
    rw [fin (by omega)] at hl
    have : 2 ∈ sentOf s.log := by rw [hl, sentOf_append]; simp [hm]
    rw [h3] at this
    simp at this

end Props
end Klick
