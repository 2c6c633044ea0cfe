import Verif.Spec.Cancel
import Verif.Props.Truncation
/-
C35: requests and the decoding of packets.
-/
namespace Klick
open Spec Props

variable {cfg : Cfg} {comp : Option Lz4} {revision : Nat}

theorem Spec.Decodes.extend {b r : Bytes} {ps : List ServerPacket} (h : Decodes cfg comp revision b ps r) (t : Bytes) :
    Decodes cfg comp revision (b ++ t) ps (r ++ t) := by
  induction h with
  | nil b => exact .nil _
  | cons h1 _ ih => exact .cons (C62_packet_independent _ _ _ _ t _ _ h1) ih

theorem Spec.Decodes.snoc {b r r' : Bytes} {ps : List ServerPacket} {p : ServerPacket} (h : Decodes cfg comp revision b ps r)
    (hp : readPacket cfg comp revision r = .ok (p, r')) : Decodes cfg comp revision b (ps ++ [p]) r' := by
  induction h with
  | nil b => exact .cons hp (.nil _)
  | cons h1 _ ih => exact .cons h1 (ih hp)

/-- Decoding is deterministic: of two decodings of the same bytes one continues the other. -/
theorem Spec.Decodes.compare {b r1 r2 : Bytes} {ps qs : List ServerPacket} (h1 : Decodes cfg comp revision b ps r1)
    (h2 : Decodes cfg comp revision b qs r2) :
    (∃ more, qs = ps ++ more ∧ Decodes cfg comp revision r1 more r2) ∨ (∃ more, ps = qs ++ more ∧ Decodes cfg comp revision r2 more r1) := by
  induction h1 generalizing qs r2 with
  | nil b => exact .inl ⟨qs, rfl, h2⟩
  | cons e1 d1 ih =>
    cases h2 with
    | nil => exact .inr ⟨_, rfl, .cons e1 d1⟩
    | cons e2 d2 =>
      rw [e1] at e2
      cases e2
      rcases ih d2 with ⟨m, rfl, h⟩ | ⟨m, rfl, h⟩
      · exact .inl ⟨m, rfl, h⟩
      · exact .inr ⟨m, rfl, h⟩

theorem arrivals_cons (e : FeedEvent) (es : List FeedEvent) : arrivals (e :: es) = arrivals [e] ++ arrivals es := by
  simp [arrivals]

/-- What holds after an undisturbed history, relative to the bytes `a` that had arrived before. -/
structure FeedOk (cfg : Cfg) (comp : Option Lz4) (revision : Nat) (a : Bytes) (f : Feed) : Prop where
  decodes : Decodes cfg comp revision a f.out (f.taken ++ f.avail)
  failed : f.failed = true → readPacket cfg comp revision (f.taken ++ f.avail) ≠ .err .io ∧
    ∀ p r, readPacket cfg comp revision (f.taken ++ f.avail) ≠ .ok (p, r)

theorem feed_run : ∀ (es : List FeedEvent) (a : Bytes) (f : Feed), FeedOk cfg comp revision a f →
    Undisturbed cfg comp revision f es → FeedOk cfg comp revision (a ++ arrivals es) (f.run cfg comp revision es) := by
  intro es
  induction es with
  | nil => intro a f h _; simpa [arrivals, Feed.run] using h
  | cons e es ih =>
    intro a f h hu
    rw [arrivals_cons, ← List.append_assoc, Feed.run, List.foldl_cons]
    refine ih _ _ ?_ hu.2
    cases e with
    | arrive bs =>
      have ha : arrivals [.arrive bs] = bs := by simp [arrivals]
      rw [ha]
      refine ⟨?_, ?_⟩
      · have := h.decodes.extend bs
        simpa [Feed.step] using this
      · intro hf
        obtain ⟨g1, g2⟩ := h.failed hf
        simp only [Feed.step, ← List.append_assoc]
        rcases Steady.readPacket cfg comp revision (f.taken ++ f.avail) bs with h1 | h1
        · exact absurd h1 g1
        · rw [h1]
          cases hr : readPacket cfg comp revision (f.taken ++ f.avail) with
          | ok x => exact absurd hr (g2 x.1 x.2)
          | err e =>
            refine ⟨?_, by intro p r; simp [Spec.extend]⟩
            intro h2
            simp only [Spec.extend, Res.err.injEq] at h2
            rw [hr, h2] at g1; exact g1 rfl
          | panic => exact ⟨by simp [Spec.extend], by intro p r; simp [Spec.extend]⟩
    | poll =>
      have ha : arrivals [.poll] = [] := by simp [arrivals]
      rw [ha, List.append_nil]
      simp only [Feed.step]
      by_cases hf : f.failed = true
      · rw [if_pos hf]; exact h
      · rw [if_neg hf]
        cases hr : readPacket cfg comp revision (f.taken ++ f.avail) with
        | ok x =>
          obtain ⟨p, rest⟩ := x
          exact ⟨by simpa using h.decodes.snoc hr, fun e => absurd e hf⟩
        | panic => exact ⟨h.decodes, fun _ => ⟨by dsimp only; rw [hr]; simp, by intro p r; dsimp only; rw [hr]; simp⟩⟩
        | err e =>
          by_cases he : e = .io
          · subst he
            exact ⟨by simpa using h.decodes, fun e => absurd e hf⟩
          · have : FeedOk cfg comp revision a { f with failed := true } := by
              refine ⟨h.decodes, fun _ => ⟨?_, ?_⟩⟩
              · dsimp only; rw [hr]; intro h2; cases h2; exact he rfl
              · intro p r; dsimp only; rw [hr]; simp
            cases e <;> first | exact absurd rfl he | exact this
    | request =>
      have ha : arrivals [.request] = [] := by simp [arrivals]
      rw [ha, List.append_nil]
      have ht := hu.1 rfl
      have : f.step cfg comp revision .request = f := by simp only [Feed.step, ← ht]
      rw [this]; exact h

/-- C35 as stated is false: the same bytes arrive; undisturbed they are one progress report, with a
request taken after the first byte they are three ends of stream. -/
theorem C35_interleaving_false : ∃ es es', arrivals es = arrivals es' ∧
    Settled cfgDebug none 0 (Feed.init.run cfgDebug none 0 es) ∧ Settled cfgDebug none 0 (Feed.init.run cfgDebug none 0 es') ∧
    (Feed.init.run cfgDebug none 0 es).out = [.progress ⟨5, 5, 5, none, none⟩] ∧
    (Feed.init.run cfgDebug none 0 es').out = [.endOfStream, .endOfStream, .endOfStream] :=
  ⟨[.arrive [3], .poll, .arrive [5, 5, 5], .poll, .poll],
   [.arrive [3], .poll, .request, .arrive [5, 5, 5], .poll, .poll, .poll, .poll],
   rfl, .inr ⟨rfl, rfl⟩, .inr ⟨rfl, rfl⟩, rfl, rfl⟩

/-- What does hold (every revision, plain and compressed): as long as no request is taken in the middle
of a packet, what has been decoded is the arrived bytes' own sequence of packets. -/
theorem C35_undisturbed_partial (cfg : Cfg) (comp : Option Lz4) (revision : Nat) (es : List FeedEvent)
    (h : Undisturbed cfg comp revision Feed.init es) :
    Decodes cfg comp revision (arrivals es) (Feed.init.run cfg comp revision es).out
      ((Feed.init.run cfg comp revision es).taken ++ (Feed.init.run cfg comp revision es).avail) := by
  have := feed_run (cfg := cfg) (comp := comp) (revision := revision) es [] Feed.init ⟨.nil _, by intro h; cases h⟩ h
  simpa using this.decodes

/-- Hence the decoded sequence does not depend on how the bytes were split, on the polls, or on the
requests in between: same bytes, same packets. -/
theorem C35_same_packets_partial (cfg : Cfg) (comp : Option Lz4) (revision : Nat) (es es' : List FeedEvent)
    (ha : arrivals es = arrivals es')
    (h : Undisturbed cfg comp revision Feed.init es) (h' : Undisturbed cfg comp revision Feed.init es')
    (hs : Settled cfg comp revision (Feed.init.run cfg comp revision es)) (hs' : Settled cfg comp revision (Feed.init.run cfg comp revision es')) :
    (Feed.init.run cfg comp revision es).out = (Feed.init.run cfg comp revision es').out ∧
    (Feed.init.run cfg comp revision es).failed = (Feed.init.run cfg comp revision es').failed := by
  have k : ∀ es, Undisturbed cfg comp revision Feed.init es → FeedOk cfg comp revision (arrivals es) (Feed.init.run cfg comp revision es) := by
    intro es h
    have := feed_run (cfg := cfg) (comp := comp) (revision := revision) es [] Feed.init ⟨.nil _, by intro h; cases h⟩ h
    simpa using this
  have k1 := k es h
  have k2 := k es' h'
  rw [← ha] at k2
  generalize Feed.init.run cfg comp revision es = f at *
  generalize Feed.init.run cfg comp revision es' = f' at *
  -- a settled state cannot decode any further
  have stop : ∀ {f : Feed}, FeedOk cfg comp revision (arrivals es) f → Settled cfg comp revision f →
      ∀ {more r}, Decodes cfg comp revision (f.taken ++ f.avail) more r → more = [] ∧ r = f.taken ++ f.avail := by
    intro f hk hst more r hd
    cases hd with
    | nil => exact ⟨rfl, rfl⟩
    | cons e _ =>
      rcases hst with hf | ⟨h1, h2⟩
      · exact absurd e ((hk.failed hf).2 _ _)
      · rw [h1, List.append_nil, h2] at e; cases e
  have same : f.out = f'.out ∧ f.taken ++ f.avail = f'.taken ++ f'.avail := by
    rcases k1.decodes.compare k2.decodes with ⟨m, e, hd⟩ | ⟨m, e, hd⟩
    · obtain ⟨rfl, e2⟩ := stop k1 hs hd
      exact ⟨by rw [e, List.append_nil], e2.symm⟩
    · obtain ⟨rfl, e2⟩ := stop k2 hs' hd
      exact ⟨by rw [e, List.append_nil], e2⟩
  refine ⟨same.1, ?_⟩
  have fst : ∀ {f f' : Feed}, FeedOk cfg comp revision (arrivals es) f → Settled cfg comp revision f' →
      f.taken ++ f.avail = f'.taken ++ f'.avail → f.failed = true → f'.failed = true := by
    intro f f' hk hst he hf
    rcases hst with h1 | ⟨h1, h2⟩
    · exact h1
    · have := (hk.failed hf).1
      rw [he, h1, List.append_nil, h2] at this
      exact absurd rfl this
  cases e1 : f.failed with
  | true => rw [fst k1 hs' same.2 e1]
  | false =>
    cases e2 : f'.failed with
    | false => rfl
    | true => rw [fst k2 hs same.2.symm e2] at e1; cases e1

example : Undisturbed cfgDebug none 0 Feed.init [.arrive [3, 1], .poll, .arrive [2, 3, 5], .poll, .request, .poll, .poll] ∧
    Settled cfgDebug none 0 (Feed.init.run cfgDebug none 0 [.arrive [3, 1], .poll, .arrive [2, 3, 5], .poll, .request, .poll, .poll]) ∧
    (Feed.init.run cfgDebug none 0 [.arrive [3, 1], .poll, .arrive [2, 3, 5], .poll, .request, .poll, .poll]).out =
      [.progress ⟨1, 2, 3, none, none⟩, .endOfStream] := by
  refine ⟨?_, .inr ⟨rfl, rfl⟩, rfl⟩
  refine ⟨(by intro e; cases e), (by intro e; cases e), (by intro e; cases e), (by intro e; cases e), fun _ => rfl, (by intro e; cases e),
    (by intro e; cases e), trivial⟩

end Klick
