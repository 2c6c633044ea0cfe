import Verif.Spec.Migration
import Verif.Props.Convert
/-
C68: applied migrations are read as the server returned them.
-/
namespace Klick
open Spec

/-- The cells named `f`. -/
def cellsOf (f : Str) (cs : List Cell) : List Cell := cs.filter (fun c => c.1 == f)

/-- How one variable changes over the loop. -/
def VarRel {α : Type} (f : Str) (dec : Ty → Value → Res α) (cs : List Cell) (old new : Option α) : Prop :=
  (∃ x, old = some x ∧ new = some x ∧ cellsOf f cs = []) ∨
  (old = none ∧ ((cellsOf f cs = [] ∧ new = none) ∨ ∃ T V y, cellsOf f cs = [(f, T, V)] ∧ dec T V = .ok y ∧ new = some y))

theorem cellsOf_skip {f : Str} {c : Cell} (h : c.1 ≠ f) (cs : List Cell) : cellsOf f (c :: cs) = cellsOf f cs := by
  simp [cellsOf, h]

theorem cellsOf_hit {f : Str} {c : Cell} (h : c.1 = f) (cs : List Cell) : cellsOf f (c :: cs) = c :: cellsOf f cs := by
  simp [cellsOf, h]

theorem var_skip {α : Type} {f : Str} {dec : Ty → Value → Res α} {c : Cell} (h : c.1 ≠ f) (cs : List Cell) (old new : Option α) :
    VarRel f dec (c :: cs) old new ↔ VarRel f dec cs old new := by
  simp only [VarRel, cellsOf_skip h]

theorem var_some {α : Type} {f : Str} {dec : Ty → Value → Res α} {c : Cell} (h : c.1 = f) (cs : List Cell) (x : α) (new : Option α) :
    ¬ VarRel f dec (c :: cs) (some x) new := by
  simp [VarRel, cellsOf_hit h]

theorem var_none {α : Type} {f : Str} {dec : Ty → Value → Res α} {c : Cell} (h : c.1 = f) (cs : List Cell) (new : Option α) :
    VarRel f dec (c :: cs) none new ↔ ∃ y, dec c.2.1 c.2.2 = .ok y ∧ VarRel f dec cs (some y) new := by
  obtain ⟨n, T, V⟩ := c
  simp only [] at h
  subst h
  have hc : cellsOf n ((n, T, V) :: cs) = (n, T, V) :: cellsOf n cs := cellsOf_hit rfl cs
  unfold VarRel
  rw [hc]
  constructor
  · rintro (⟨x, h, _⟩ | ⟨_, ⟨h, _⟩ | ⟨T', V', y, h, hd, hn⟩⟩)
    · cases h
    · cases h
    · simp only [List.cons.injEq, Prod.mk.injEq, true_and] at h
      obtain ⟨⟨rfl, rfl⟩, h⟩ := h
      exact ⟨y, hd, .inl ⟨y, rfl, hn, h⟩⟩
  · rintro ⟨y, hd, ⟨x, h, hn, he⟩ | ⟨h, _⟩⟩
    · cases h; exact .inr ⟨rfl, .inr ⟨T, V, y, by rw [he], hd, hn⟩⟩
    · cases h

theorem loop_iff : ∀ (cs : List Cell) (st st' : MigrationVars), st.loop cs = .ok st' ↔
    (∀ c, c ∈ cs → c.1 ∈ migrationColumns) ∧
    VarRel (ch! "version") i32FromSql cs st.version st'.version ∧ VarRel (ch! "name") stringFromSql cs st.name st'.name ∧
    VarRel (ch! "applied_on") stringFromSql cs st.appliedOn st'.appliedOn ∧ VarRel (ch! "checksum") stringFromSql cs st.checksum st'.checksum
  | [], st, st' => by
    obtain ⟨a, b, c, d⟩ := st
    obtain ⟨a', b', c', d'⟩ := st'
    have aux : ∀ {α : Type} (f : Str) (dec : Ty → Value → Res α) (o n : Option α), VarRel f dec [] o n ↔ n = o := by
      intro α f dec o n
      cases o with
      | none => simp [VarRel, cellsOf]
      | some x => simp [VarRel, cellsOf]
    simp only [MigrationVars.loop, aux, Res.ok.injEq, MigrationVars.mk.injEq, List.not_mem_nil, false_imp_iff, implies_true, true_and]
    constructor
    · rintro ⟨h1, h2, h3, h4⟩; exact ⟨h1.symm, h2.symm, h3.symm, h4.symm⟩
    · rintro ⟨h1, h2, h3, h4⟩; exact ⟨h1.symm, h2.symm, h3.symm, h4.symm⟩
  | c :: cs, st, st' => by
    obtain ⟨ve, na, ap, ck⟩ := st
    simp only [MigrationVars.loop, MigrationVars.turn]
    by_cases h1 : c.1 = ch! "version"
    · have m : c.1 ∈ migrationColumns := by rw [h1]; decide
      rw [if_pos h1, var_skip (f := ch! "name") (by rw [h1]; decide), var_skip (f := ch! "applied_on") (by rw [h1]; decide), var_skip (f := ch! "checksum") (by rw [h1]; decide)]
      cases ve with
      | some x =>
        simp only [Option.isSome, if_true]
        constructor
        · intro h; cases h
        · rintro ⟨_, h, _⟩; exact absurd h (var_some h1 _ _ _)
      | none =>
        simp only [Option.isSome, Bool.false_eq_true, if_false, var_none h1, List.forall_mem_cons, m, true_and]
        cases hd : i32FromSql c.2.1 c.2.2 with
        | ok x => simp only [Res.bind_ok, loop_iff cs, Res.ok.injEq, exists_eq_left']
        | err e => simp [Bind.bind, Res.bind]
        | panic => simp [Bind.bind, Res.bind]
    · rw [if_neg h1, var_skip h1]
      by_cases h2 : c.1 = ch! "name"
      · have m : c.1 ∈ migrationColumns := by rw [h2]; decide
        rw [if_pos h2, var_skip (f := ch! "applied_on") (by rw [h2]; decide), var_skip (f := ch! "checksum") (by rw [h2]; decide)]
        cases na with
        | some x =>
          simp only [Option.isSome, if_true]
          constructor
          · intro h; cases h
          · rintro ⟨_, _, h, _⟩; exact absurd h (var_some h2 _ _ _)
        | none =>
          simp only [Option.isSome, Bool.false_eq_true, if_false, var_none h2, List.forall_mem_cons, m, true_and]
          cases hd : stringFromSql c.2.1 c.2.2 with
          | ok x => simp only [Res.bind_ok, loop_iff cs, Res.ok.injEq, exists_eq_left']
          | err e => simp [Bind.bind, Res.bind]
          | panic => simp [Bind.bind, Res.bind]
      · rw [if_neg h2, var_skip h2]
        by_cases h3 : c.1 = ch! "applied_on"
        · have m : c.1 ∈ migrationColumns := by rw [h3]; decide
          rw [if_pos h3, var_skip (f := ch! "checksum") (by rw [h3]; decide)]
          cases ap with
          | some x =>
            simp only [Option.isSome, if_true]
            constructor
            · intro h; cases h
            · rintro ⟨_, _, _, h, _⟩; exact absurd h (var_some h3 _ _ _)
          | none =>
            simp only [Option.isSome, Bool.false_eq_true, if_false, var_none h3, List.forall_mem_cons, m, true_and]
            cases hd : stringFromSql c.2.1 c.2.2 with
            | ok x => simp only [Res.bind_ok, loop_iff cs, Res.ok.injEq, exists_eq_left']
            | err e => simp [Bind.bind, Res.bind]
            | panic => simp [Bind.bind, Res.bind]
        · rw [if_neg h3, var_skip h3]
          by_cases h4 : c.1 = ch! "checksum"
          · have m : c.1 ∈ migrationColumns := by rw [h4]; decide
            rw [if_pos h4]
            cases ck with
            | some x =>
              simp only [Option.isSome, if_true]
              constructor
              · intro h; cases h
              · rintro ⟨_, _, _, _, h⟩; exact absurd h (var_some h4 _ _ _)
            | none =>
              simp only [Option.isSome, Bool.false_eq_true, if_false, var_none h4, List.forall_mem_cons, m, true_and]
              cases hd : stringFromSql c.2.1 c.2.2 with
              | ok x => simp only [Res.bind_ok, loop_iff cs, Res.ok.injEq, exists_eq_left']
              | err e => simp [Bind.bind, Res.bind]
              | panic => simp [Bind.bind, Res.bind]
          · rw [if_neg h4]
            constructor
            · intro h; cases h
            · rintro ⟨h, _⟩
              have := h c (by simp)
              simp [migrationColumns] at this
              rcases this with e | e | e | e
              · exact absurd e h1
              · exact absurd e h2
              · exact absurd e h3
              · exact absurd e h4

theorem perm_of_columns (cs : List Cell) (hm : ∀ c, c ∈ cs → c.1 ∈ migrationColumns) :
    cs.Perm (cellsOf (ch! "version") cs ++ (cellsOf (ch! "name") cs ++ (cellsOf (ch! "applied_on") cs ++ cellsOf (ch! "checksum") cs))) := by
  induction cs with
  | nil => exact .nil
  | cons c cs ih =>
    have ih := ih (fun d hd => hm d (List.mem_cons_of_mem _ hd))
    have hc := hm c (by simp)
    simp only [migrationColumns, List.mem_cons, List.not_mem_nil, or_false] at hc
    rcases hc with h | h | h | h
    · rw [cellsOf_hit h, cellsOf_skip (f := ch! "name") (by rw [h]; decide), cellsOf_skip (f := ch! "applied_on") (by rw [h]; decide),
        cellsOf_skip (f := ch! "checksum") (by rw [h]; decide)]
      exact .cons _ ih
    · rw [cellsOf_hit h, cellsOf_skip (f := ch! "version") (by rw [h]; decide), cellsOf_skip (f := ch! "applied_on") (by rw [h]; decide),
        cellsOf_skip (f := ch! "checksum") (by rw [h]; decide)]
      exact (List.Perm.cons _ ih).trans (List.perm_middle).symm
    · rw [cellsOf_hit h, cellsOf_skip (f := ch! "version") (by rw [h]; decide), cellsOf_skip (f := ch! "name") (by rw [h]; decide),
        cellsOf_skip (f := ch! "checksum") (by rw [h]; decide)]
      refine (List.Perm.cons _ ih).trans ?_
      refine (List.perm_middle (l₁ := cellsOf (ch! "version") cs)).symm.trans (.append_left _ ?_)
      exact (List.perm_middle).symm
    · rw [cellsOf_hit h, cellsOf_skip (f := ch! "version") (by rw [h]; decide), cellsOf_skip (f := ch! "name") (by rw [h]; decide),
        cellsOf_skip (f := ch! "applied_on") (by rw [h]; decide)]
      refine (List.Perm.cons _ ih).trans ?_
      refine (List.perm_middle (l₁ := cellsOf (ch! "version") cs)).symm.trans (.append_left _ ?_)
      refine (List.perm_middle (l₁ := cellsOf (ch! "name") cs)).symm.trans (.append_left _ ?_)
      exact (List.perm_middle).symm

theorem cellsOf_perm {cs ds : List Cell} (h : cs.Perm ds) (f : Str) : (cellsOf f cs).Perm (cellsOf f ds) := h.filter _

theorem var_fin {α : Type} {f : Str} {dec : Ty → Value → Res α} {cs : List Cell} {y : α} :
    VarRel f dec cs none (some y) ↔ ∃ T V, cellsOf f cs = [(f, T, V)] ∧ dec T V = .ok y := by
  unfold VarRel
  constructor
  · rintro (⟨x, h, _⟩ | ⟨_, ⟨_, h⟩ | ⟨T, V, z, hc, hd, h⟩⟩)
    · cases h
    · cases h
    · cases h; exact ⟨T, V, hc, hd⟩
  · rintro ⟨T, V, hc, hd⟩; exact .inr ⟨rfl, .inr ⟨T, V, y, hc, hd, rfl⟩⟩

/-- The reader, in terms of the decoders of the cells. -/
theorem de_iff {θ : Type} (parseTime : Str → Option θ) (cells : List Cell) (m : AppliedMigration θ) :
    migrationDe parseTime cells = .ok m ↔ ∃ Tv Vv Tn Vn Ta Va Tc Vc time sum,
      cells.Perm [(ch! "version", Tv, Vv), (ch! "name", Tn, Vn), (ch! "applied_on", Ta, Va), (ch! "checksum", Tc, Vc)] ∧
      i32FromSql Tv Vv = .ok m.version ∧ stringFromSql Tn Vn = .ok m.name ∧ stringFromSql Ta Va = .ok time ∧ stringFromSql Tc Vc = .ok sum ∧
      parseTime time = some m.appliedOn ∧ parseUsize sum = some m.checksum := by
  constructor
  · intro h
    simp only [migrationDe] at h
    by_cases hl : cells.length ≠ 4
    · rw [if_pos hl] at h; cases h
    rw [if_neg hl] at h
    obtain ⟨st, hst, h⟩ := Res.bind_eq_ok.mp h
    obtain ⟨hm, h1, h2, h3, h4⟩ := (loop_iff _ _ _).mp hst
    obtain ⟨ve, na, ap, ck⟩ := st
    simp only [MigrationVars.build] at h
    cases ve with
    | none => cases h
    | some ve =>
      cases na with
      | none => cases h
      | some na =>
        cases ap with
        | none => cases h
        | some ap =>
          cases ck with
          | none => cases h
          | some ck =>
            simp only at h h1 h2 h3 h4
            cases ht : parseTime ap with
            | none => rw [ht] at h; cases h
            | some t =>
              rw [ht] at h
              simp only at h
              cases hs : parseUsize ck with
              | none => rw [hs] at h; cases h
              | some n =>
                rw [hs] at h
                cases h
                obtain ⟨Tv, Vv, c1, d1⟩ := var_fin.mp h1
                obtain ⟨Tn, Vn, c2, d2⟩ := var_fin.mp h2
                obtain ⟨Ta, Va, c3, d3⟩ := var_fin.mp h3
                obtain ⟨Tc, Vc, c4, d4⟩ := var_fin.mp h4
                have hp := perm_of_columns cells hm
                rw [c1, c2, c3, c4] at hp
                exact ⟨Tv, Vv, Tn, Vn, Ta, Va, Tc, Vc, ap, ck, hp, d1, d2, d3, d4, ht, hs⟩
  · rintro ⟨Tv, Vv, Tn, Vn, Ta, Va, Tc, Vc, time, sum, hp, d1, d2, d3, d4, ht, hs⟩
    have hl : cells.length = 4 := hp.length_eq
    have hloop : MigrationVars.loop {} cells = .ok ⟨some m.version, some m.name, some time, some sum⟩ := by
      refine (loop_iff _ _ _).mpr ⟨?_, var_fin.mpr ⟨Tv, Vv, ?_, d1⟩, var_fin.mpr ⟨Tn, Vn, ?_, d2⟩, var_fin.mpr ⟨Ta, Va, ?_, d3⟩, var_fin.mpr ⟨Tc, Vc, ?_, d4⟩⟩
      · intro c hc
        have := hp.mem_iff.mp hc
        simp only [List.mem_cons, List.not_mem_nil, or_false] at this
        rcases this with rfl | rfl | rfl | rfl <;> simp [migrationColumns]
      all_goals
        refine List.perm_singleton.mp ((cellsOf_perm hp _).trans ?_)
        exact .of_eq rfl
    simp only [migrationDe]
    rw [if_neg (by simp [hl]), hloop]
    simp only [Res.bind_ok, MigrationVars.build, ht, hs]

/-- C68: on cells of the right shape for their types (as any block off the wire has them), a migration is returned exactly when the row consists of
the four columns, in any order, and then it is the migration they describe. -/
theorem C68_exact {θ : Type} (parseTime : Str → Option θ) (cells : List Cell) (hs : ∀ c, c ∈ cells → Shaped c.2.1 c.2.2)
    (m : AppliedMigration θ) : migrationDe parseTime cells = .ok m ↔ IsMigrationRow parseTime cells m := by
  have text : ∀ (T : Ty) (V : Value) (s : Str), Shaped T V → stringFromSql T V = .ok s → TextType T ∧ V = .string (utf8Encode s) := by
    intro T V s hsh hd
    by_cases hT : T = .string ∨ ∃ n, T = .fixedString n
    · obtain ⟨b, hb, h⟩ := (C46_string_exact T V hsh).1 hT
      rcases h with ⟨s', h1, h2⟩ | ⟨h1, _⟩
      · rw [hd] at h1; cases h1; exact ⟨hT, by rw [hb, h2]⟩
      · rw [hd] at h1; cases h1
    · rw [(C46_string_exact T V hsh).2 hT] at hd; cases hd
  rw [de_iff]
  constructor
  · rintro ⟨Tv, Vv, Tn, Vn, Ta, Va, Tc, Vc, time, sum, hp, d1, d2, d3, d4, ht, hsum⟩
    have s1 := hs _ (hp.mem_iff.mpr (by simp : (ch! "version", Tv, Vv) ∈ _))
    have s2 := hs _ (hp.mem_iff.mpr (by simp : (ch! "name", Tn, Vn) ∈ _))
    have s3 := hs _ (hp.mem_iff.mpr (by simp : (ch! "applied_on", Ta, Va) ∈ _))
    have s4 := hs _ (hp.mem_iff.mpr (by simp : (ch! "checksum", Tc, Vc) ∈ _))
    obtain ⟨t2, rfl⟩ := text _ _ _ s2 d2
    obtain ⟨t3, rfl⟩ := text _ _ _ s3 d3
    obtain ⟨t4, rfl⟩ := text _ _ _ s4 d4
    have hv : Tv = .int32 ∧ Vv = .int32 m.version := by
      by_cases hc : Column .i32 Tv
      · obtain ⟨x, h1, h2⟩ := prim_fromSql_column hc s1
        have e : x = m.version := by
          have : i32FromSql Tv Vv = .ok x := h1
          rw [d1] at this; cases this; rfl
        subst e
        cases hc
        exact ⟨rfl, (h2 (by intro h; cases h)).symm⟩
      · have : i32FromSql Tv Vv = .err (unexpectedType Tv) := prim_fromSql_other hc Vv
        rw [d1] at this; cases this
    obtain ⟨rfl, rfl⟩ := hv
    exact ⟨time, sum, Tn, Ta, Tc, t2, t3, t4, hp, ht, hsum⟩
  · rintro ⟨time, sum, Tn, Ta, Tc, t2, t3, t4, hp, ht, hsum⟩
    exact ⟨_, _, _, _, _, _, _, _, time, sum, hp, rfl, string_rt t2 _, string_rt t3 _, string_rt t4 _, ht, hsum⟩

/-- C68: the error for a row of another width. -/
theorem C68_width {θ : Type} (parseTime : Str → Option θ) (cells : List Cell) (h : cells.length ≠ 4) :
    migrationDe parseTime cells = .err (.deserialize (ch! "bad column count for migration")) := if_pos h

/-- C68: every other row is refused with an error, never a panic. -/
theorem C68_refused {θ : Type} (parseTime : Str → Option θ) (cells : List Cell) (hs : ∀ c, c ∈ cells → Shaped c.2.1 c.2.2)
    (h : ∀ m, ¬ IsMigrationRow parseTime cells m) : ∃ e, migrationDe parseTime cells = .err e := by
  cases hd : migrationDe parseTime cells with
  | err e => exact ⟨e, rfl⟩
  | ok m => exact absurd ((C68_exact parseTime cells hs m).mp hd) (h m)
  | panic =>
    exfalso
    simp only [migrationDe] at hd
    by_cases hl : cells.length ≠ 4
    · rw [if_pos hl] at hd; cases hd
    rw [if_neg hl] at hd
    have key : ∀ (cs : List Cell) (st : MigrationVars), (∀ c, c ∈ cs → Shaped c.2.1 c.2.2) → st.loop cs ≠ .panic := by
      intro cs
      induction cs with
      | nil => intro st _ h; cases h
      | cons c cs ih =>
        intro st hsh h
        have hc := hsh c (by simp)
        rcases Res.bind_eq_panic.mp h with h | ⟨st', _, h⟩
        · simp only [MigrationVars.turn] at h
          have e1 : i32FromSql c.2.1 c.2.2 ≠ .panic := fromSql_ne_panic (.prim .i32) _ _ hc
          have e2 : stringFromSql c.2.1 c.2.2 ≠ .panic := fromSql_ne_panic .string _ _ hc
          have b1 : ∀ g : BitVec 32 → MigrationVars, (i32FromSql c.2.1 c.2.2 >>= fun x => .ok (g x)) ≠ .panic := by
            intro g hg
            rcases Res.bind_eq_panic.mp hg with h | ⟨_, _, h⟩
            · exact e1 h
            · cases h
          have b2 : ∀ g : Str → MigrationVars, (stringFromSql c.2.1 c.2.2 >>= fun x => .ok (g x)) ≠ .panic := by
            intro g hg
            rcases Res.bind_eq_panic.mp hg with h | ⟨_, _, h⟩
            · exact e2 h
            · cases h
          split at h
          · split at h
            · cases h
            · exact b1 _ h
          split at h
          · split at h
            · cases h
            · exact b2 _ h
          split at h
          · split at h
            · cases h
            · exact b2 _ h
          split at h
          · split at h
            · cases h
            · exact b2 _ h
          cases h
        · exact ih st' (fun d hd => hsh d (List.mem_cons_of_mem _ hd)) h
    rcases Res.bind_eq_panic.mp hd with h | ⟨st, _, h⟩
    · exact key cells {} hs h
    · simp only [MigrationVars.build] at h
      repeat' split at h
      all_goals cases h

/-- C68: a checksum written as the decimal number it is reads back as that number. -/
theorem C68_checksum (n : Nat) (h : n < 2 ^ 64) : parseUsize (dec n) = some n := parseUsize_dec n h

/-- The columns in another order, for any clock. -/
example {θ : Type} (parseTime : Str → Option θ) (t : θ) (ht : parseTime (ch! "2024-01-01T00:00:00Z") = some t) :
    migrationDe parseTime [(ch! "checksum", .string, .string (utf8Encode (ch! "42"))), (ch! "name", .string, .string (utf8Encode (ch! "initial"))),
      (ch! "version", .int32, .int32 7#32), (ch! "applied_on", .string, .string (utf8Encode (ch! "2024-01-01T00:00:00Z")))]
      = .ok ⟨7#32, ch! "initial", t, 42⟩ := by
  refine (C68_exact parseTime _ ?_ _).mpr ⟨ch! "2024-01-01T00:00:00Z", ch! "42", .string, .string, .string, .inl rfl, .inl rfl, .inl rfl, ?_, ht, rfl⟩
  · intro c hc
    simp only [List.mem_cons, List.not_mem_nil, or_false] at hc
    rcases hc with rfl | rfl | rfl | rfl
    · exact ⟨_, rfl⟩
    · exact ⟨_, rfl⟩
    · exact ⟨_, rfl⟩
    · exact ⟨_, rfl⟩
  · refine (List.Perm.swap _ _ _).trans ?_
    refine (List.Perm.cons _ (List.Perm.swap _ _ _)).trans ?_
    refine (List.Perm.swap _ _ _).trans (.cons _ (.cons _ (.swap _ _ _)))

/-- Two checksum columns are refused. -/
example (parseTime : Str → Option Unit) : migrationDe parseTime [(ch! "checksum", .string, .string [0x34#8]), (ch! "checksum", .string, .string [0x34#8]),
    (ch! "version", .int32, .int32 7#32), (ch! "name", .string, .string [])] = .err (.deserialize (ch! "duplicate checksum column")) := rfl

end Klick
