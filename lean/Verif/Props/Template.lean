import Verif.Spec.Template
/-
C84: the placeholders of cluster migrations.
-/
namespace Klick
open Spec

theorem not_prefix_of_not_occurs {p s : Str} (h : ¬ Occurs p s) : p.isPrefixOf s = false := by
  cases e : p.isPrefixOf s with
  | false => rfl
  | true =>
    obtain ⟨v, hv⟩ := List.isPrefixOf_iff_prefix.mp e
    exact absurd ⟨[], v, by rw [← hv]; rfl⟩ h

theorem occurs_tail {p s : Str} {c : Char} (h : ¬ Occurs p (c :: s)) : ¬ Occurs p s := by
  rintro ⟨u, v, e⟩
  exact h ⟨c :: u, v, by rw [e]; rfl⟩

theorem replaceGo_none (pat rep : Str) : ∀ s, ¬ Occurs pat s → replaceGo pat rep 0 s = s
  | [], _ => rfl
  | c :: s, h => by
    rw [replaceGo, not_prefix_of_not_occurs h, if_neg (by decide), replaceGo_none pat rep s (occurs_tail h)]

theorem replaceGo_skip (pat rep : Str) : ∀ (n : Nat) (u v : Str), u.length = n → replaceGo pat rep n (u ++ v) = replaceGo pat rep 0 v
  | 0, [], v, _ => rfl
  | n + 1, _ :: u, v, h => by
    show replaceGo pat rep n (u ++ v) = _
    exact replaceGo_skip pat rep n u v (by simpa using h)

theorem replaceGo_here (pat rep v : Str) (hp : pat ≠ []) : replaceGo pat rep 0 (pat ++ v) = rep ++ replaceGo pat rep 0 v := by
  cases pat with
  | nil => exact absurd rfl hp
  | cons c p =>
    show replaceGo (c :: p) rep 0 (c :: (p ++ v)) = _
    rw [replaceGo]
    have : (c :: p).isPrefixOf (c :: (p ++ v)) = true := List.isPrefixOf_iff_prefix.mpr ⟨v, rfl⟩
    rw [this, if_pos rfl, replaceGo_skip (c :: p) rep _ p v (by simp)]

/-- A placeholder `%w%` in front of which nothing can be mistaken for it is the first to be replaced. -/
theorem replaceGo_first (w rep v : Str) (hw : '%' ∉ w) : ∀ u, ¬ Occurs ('%' :: w ++ ['%']) (u ++ ['%']) →
    replaceGo ('%' :: w ++ ['%']) rep 0 (u ++ ('%' :: w ++ ['%']) ++ v) = u ++ rep ++ replaceGo ('%' :: w ++ ['%']) rep 0 v
  | [], _ => replaceGo_here _ _ _ (by simp)
  | c :: u, h => by
    have hn : ('%' :: w ++ ['%']).isPrefixOf (c :: u ++ ('%' :: w ++ ['%']) ++ v) = false := by
      cases e : ('%' :: w ++ ['%']).isPrefixOf (c :: u ++ ('%' :: w ++ ['%']) ++ v) with
      | false => rfl
      | true =>
        exfalso
        obtain ⟨t, ht⟩ := List.isPrefixOf_iff_prefix.mp e
        simp only [List.cons_append, List.cons.injEq, List.append_assoc] at ht
        obtain ⟨hc, ht⟩ := ht
        subst hc
        -- the first `%` after the first character ends the match
        rcases List.append_eq_append_iff.mp ht with ⟨a, h1, h2⟩ | ⟨a, h1, h2⟩
        · -- the match ends within `u` or at its end
          cases a with
          | nil =>
            refine h ⟨[], [], ?_⟩
            simp at h1
            subst h1
            simp
          | cons d a =>
            simp only [List.cons_append, List.nil_append, List.cons.injEq] at h2
            obtain ⟨rfl, h2⟩ := h2
            refine h ⟨[], a ++ ['%'], ?_⟩
            rw [h1]; simp
        · cases a with
          | nil =>
            refine h ⟨[], [], ?_⟩
            simp at h1
            subst h1
            simp
          | cons d a =>
            simp only [List.cons_append, List.cons.injEq] at h2
            obtain ⟨rfl, _⟩ := h2
            exact hw (by rw [h1]; simp)
    have ht : ¬ Occurs ('%' :: w ++ ['%']) (u ++ ['%']) := occurs_tail h
    have ih := replaceGo_first w rep v hw u ht
    show replaceGo _ rep 0 (c :: (u ++ ('%' :: w ++ ['%']) ++ v)) = _
    rw [replaceGo]
    have hn' : ('%' :: w ++ ['%']).isPrefixOf (c :: (u ++ ('%' :: w ++ ['%']) ++ v)) = false := hn
    rw [hn', if_neg (by decide), ih]
    rfl

theorem stretches_ne (hole : Piece) (render : Piece → Str) : ∀ ps, stretches hole render ps ≠ []
  | [] => by simp [stretches]
  | p :: ps => by
    unfold stretches
    split
    · simp
    · split <;> simp

/-- Replacing one placeholder throughout a script of pieces. -/
theorem replace_pieces (w rep : Str) (hw : '%' ∉ w) (hole : Piece) (render : Piece → Str) :
    ∀ (ps : List Piece) (u : Str), render hole = '%' :: w ++ ['%'] →
      (∀ r rs, stretches hole render ps = r :: rs → ¬ Occurs ('%' :: w ++ ['%']) (u ++ r) ∧ ∀ r ∈ rs, ¬ Occurs ('%' :: w ++ ['%']) r) →
      replaceAll ('%' :: w ++ ['%']) rep (u ++ ps.flatMap render) = u ++ ps.flatMap (fun p => if p = hole then rep else render p)
  | [], u, _, h => by
    have := (h [] [] rfl).1
    simp only [List.append_nil] at this
    simp only [List.flatMap_nil, List.append_nil]
    exact replaceGo_none _ _ u this
  | p :: ps, u, hr, h => by
    by_cases hp : p = hole
    · subst hp
      have hs : stretches p render (p :: ps) = ['%'] :: stretches p render ps := by rw [stretches, if_pos rfl]
      obtain ⟨h1, h2⟩ := h _ _ hs
      have ih := replace_pieces w rep hw p render ps [] hr (fun r rs e => by
        rw [e] at h2
        exact ⟨h2 r (by simp), fun r hr => h2 r (by simp [hr])⟩)
      simp only [List.nil_append] at ih
      simp only [List.flatMap_cons, if_true]
      rw [hr, ← List.append_assoc]
      show replaceGo _ rep 0 _ = _
      rw [replaceGo_first w rep _ hw u h1]
      have ih : replaceGo ('%' :: w ++ ['%']) rep 0 (ps.flatMap render) = _ := ih
      rw [ih]
      simp
    · cases e : stretches hole render ps with
      | nil => exact absurd e (stretches_ne _ _ _)
      | cons r rs =>
        have hs : stretches hole render (p :: ps) = (render p ++ r) :: rs := by rw [stretches, if_neg hp, e]
        obtain ⟨h1, h2⟩ := h _ _ hs
        have ih := replace_pieces w rep hw hole render ps (u ++ render p) hr (fun r' rs' e' => by
          rw [e] at e'
          cases e'
          exact ⟨by simpa using h1, h2⟩)
        simp only [List.flatMap_cons, if_neg hp]
        simpa using ih

/-- Texts with `%` between them. -/
def joinPct : List Str → Str
  | [] => []
  | [a] => a
  | a :: b :: r => a ++ '%' :: joinPct (b :: r)

theorem joinPct_head (w v : Str) (hw : '%' ∉ w) : ∀ segs : List Str, (∀ a ∈ segs, '%' ∉ a) → joinPct segs = w ++ '%' :: v → w ∈ segs
  | [], _, h => by simp [joinPct] at h
  | [a], ha, h => by
    have : '%' ∈ a := by
      have h : a = w ++ '%' :: v := h
      rw [h]; simp
    exact absurd this (ha a (by simp))
  | a :: b :: r, ha, h => by
    have h : a ++ '%' :: joinPct (b :: r) = w ++ '%' :: v := h
    rcases List.append_eq_append_iff.mp h with ⟨c, h1, h2⟩ | ⟨c, h1, h2⟩
    · cases c with
      | nil => simp at h1; simp [h1]
      | cons d c =>
        simp only [List.cons_append, List.cons.injEq] at h2
        obtain ⟨rfl, _⟩ := h2
        exact absurd (by rw [h1]; simp) hw
    · cases c with
      | nil => simp at h1; simp [h1]
      | cons d c =>
        simp only [List.cons_append, List.cons.injEq] at h2
        obtain ⟨rfl, _⟩ := h2
        exact absurd (by rw [h1]; simp) (ha a (by simp))

/-- A placeholder occurs only between two consecutive `%`. -/
theorem occurs_joinPct (w : Str) (hw : '%' ∉ w) : ∀ segs : List Str, (∀ a ∈ segs, '%' ∉ a) → Occurs ('%' :: w ++ ['%']) (joinPct segs) → w ∈ segs.tail
  | [], _, ⟨u, v, h⟩ => by simp [joinPct] at h
  | [a], ha, ⟨u, v, h⟩ => by
    have h : a = u ++ ('%' :: w ++ ['%']) ++ v := h
    exact absurd (by rw [h]; simp) (ha a (by simp))
  | a :: b :: r, ha, ⟨u, v, h⟩ => by
    have h : a ++ '%' :: joinPct (b :: r) = u ++ '%' :: (w ++ '%' :: v) := by
      have : joinPct (a :: b :: r) = a ++ '%' :: joinPct (b :: r) := rfl
      rw [← this, h]; simp
    have hb : ∀ x ∈ b :: r, '%' ∉ x := fun x hx => ha x (List.mem_cons_of_mem _ hx)
    show w ∈ b :: r
    rcases List.append_eq_append_iff.mp h with ⟨c, h1, h2⟩ | ⟨c, h1, h2⟩
    · cases c with
      | nil => exact joinPct_head w v hw _ hb (by simpa using h2)
      | cons d c =>
        simp only [List.cons_append, List.cons.injEq] at h2
        obtain ⟨rfl, h2⟩ := h2
        exact List.mem_of_mem_tail (occurs_joinPct w hw (b :: r) hb ⟨c, v, by rw [h2]; simp⟩)
    · cases c with
      | nil => exact joinPct_head w v hw _ hb (by simpa using h2.symm)
      | cons d c =>
        simp only [List.cons_append, List.cons.injEq] at h2
        obtain ⟨rfl, _⟩ := h2
        exact absurd (by rw [h1]; simp) (ha a (by simp))

namespace Props

/-- What the server is asked to run for a statement of a cluster migration, and for a query of its history, is the statement with the
names of the cluster and the database filled in, and nothing else changed, when no text can be mistaken for a placeholder. -/
theorem C84_filled_in_partial (cluster database : Str) (k : Nat) (ps : List Piece) (h : Unmistakable database ps) :
    Migrator.prepare ⟨some (cluster, database), k⟩ (sourceOf ps) = filledIn cluster database ps ∧
    Migrator.queryText ⟨some (cluster, database), k⟩ (sourceOf ps) = filledIn cluster database ps := by
  have h1 : replaceAll (ch! "%DATABASE%") database (sourceOf ps) = ps.flatMap (fun p => if p = .database then database else p.source) := by
    have := replace_pieces (ch! "DATABASE") database (by decide) .database Piece.source ps [] rfl (fun r rs e => by
      have g := h.forDatabase
      rw [e] at g
      exact ⟨g r (by simp), fun r hr => g r (by simp [hr])⟩)
    simpa [sourceOf] using this
  have h2 : (fun p => if p = Piece.database then database else p.source) = (fun p => if p = .cluster then ch! "%CLUSTER%" else p.filled [] database) := by
    funext p; cases p <;> rfl
  have st : ∀ ps, stretches .cluster (fun p => if p = Piece.cluster then ch! "%CLUSTER%" else p.filled [] database) ps =
      stretches .cluster (Piece.filled [] database) ps := by
    intro ps
    induction ps with
    | nil => rfl
    | cons p ps ih =>
      unfold stretches
      rw [ih]
      by_cases hp : p = .cluster
      · rw [if_pos hp, if_pos hp]
      · rw [if_neg hp, if_neg hp, if_neg hp]
  have h3 : replaceAll (ch! "%CLUSTER%") cluster (ps.flatMap (fun p => if p = .cluster then ch! "%CLUSTER%" else p.filled [] database)) =
      filledIn cluster database ps := by
    have := replace_pieces (ch! "CLUSTER") cluster (by decide) .cluster (fun p => if p = .cluster then ch! "%CLUSTER%" else p.filled [] database) ps [] rfl
      (fun r rs e => by
        have g := h.forCluster
        rw [st] at e
        rw [e] at g
        exact ⟨g r (by simp), fun r hr => g r (by simp [hr])⟩)
    simp only [List.nil_append] at this
    refine Eq.trans this ?_
    unfold filledIn
    congr 1
    funext p; cases p <;> rfl
  have key : replaceAll (ch! "%CLUSTER%") cluster (replaceAll (ch! "%DATABASE%") database (sourceOf ps)) = filledIn cluster database ps := by
    rw [h1, h2]; exact h3
  exact ⟨key, key⟩

/-- The statement that creates the history table of a cluster. -/
def tablePieces (table : Str) : List Piece :=
  [.text (ch! "CREATE TABLE IF NOT EXISTS " ++ table ++ ch! "_local ON CLUSTER "), .cluster,
   .text (ch! "(
                version INT,
                name VARCHAR(255),
                applied_on VARCHAR(255),
                checksum VARCHAR(255)
            ) Engine=MergeTree() ORDER BY version;
            CREATE TABLE IF NOT EXISTS
                " ++ table ++ ch! "
            ON CLUSTER "), .cluster,
   .text (ch! "
            AS " ++ table ++ ch! "_local ENGINE = Distributed("), .cluster, .text (ch! ", "), .database,
   .text (ch! ", " ++ table ++ ch! "_local, rand());
            ")]

/-- Five texts around the places of the history table's statement. -/
theorem unmistakable_five (database a b c d e : Str) (hd : '%' ∉ database) (h1 : '%' ∉ a) (h2 : '%' ∉ b) (h3 : '%' ∉ c) (h4 : '%' ∉ d)
    (h5 : '%' ∉ e) (n2 : b ≠ ch! "DATABASE") (n3 : c ≠ ch! "DATABASE") (n4 : d ≠ ch! "DATABASE") :
    Unmistakable database [.text a, .cluster, .text b, .cluster, .text c, .cluster, .text d, .database, .text e] := by
  constructor
  · intro r hr ho
    have hs : stretches .database Piece.source [.text a, .cluster, .text b, .cluster, .text c, .cluster, .text d, .database, .text e] =
        [joinPct [a, ch! "CLUSTER", b, ch! "CLUSTER", c, ch! "CLUSTER", d, []], joinPct [e]] := by
      simp [stretches, Piece.source, joinPct]
    rw [hs] at hr
    simp only [List.mem_cons, List.not_mem_nil, or_false] at hr
    rcases hr with hr | hr <;> rw [hr] at ho
    · have := occurs_joinPct (ch! "DATABASE") (by decide) _ (by
        intro x hx
        simp only [List.mem_cons, List.not_mem_nil, or_false] at hx
        rcases hx with rfl | rfl | rfl | rfl | rfl | rfl | rfl | rfl
        all_goals first | assumption | decide) ho
      simp only [List.tail_cons, List.mem_cons, List.not_mem_nil, or_false] at this
      rcases this with h | h | h | h | h | h | h
      · exact absurd h (by decide)
      · exact n2 h.symm
      · exact absurd h (by decide)
      · exact n3 h.symm
      · exact absurd h (by decide)
      · exact n4 h.symm
      · exact absurd h (by decide)
    · have := occurs_joinPct (ch! "DATABASE") (by decide) _ (by simpa using h5) ho
      simp at this
  · intro r hr ho
    have hs : stretches .cluster (Piece.filled [] database) [.text a, .cluster, .text b, .cluster, .text c, .cluster, .text d, .database, .text e] =
        [joinPct [a, []], joinPct [b, []], joinPct [c, []], joinPct [d ++ (database ++ e)]] := by
      simp [stretches, Piece.filled, joinPct]
    rw [hs] at hr
    simp only [List.mem_cons, List.not_mem_nil, or_false] at hr
    rcases hr with hr | hr | hr | hr <;> rw [hr] at ho
    · have := occurs_joinPct (ch! "CLUSTER") (by decide) _ (by simpa using h1) ho
      simp at this
    · have := occurs_joinPct (ch! "CLUSTER") (by decide) _ (by simpa using h2) ho
      simp at this
    · have := occurs_joinPct (ch! "CLUSTER") (by decide) _ (by simpa using h3) ho
      simp at this
    · have := occurs_joinPct (ch! "CLUSTER") (by decide) _ (by simpa using ⟨h4, hd, h5⟩) ho
      simp at this

theorem not_mem_three {a b c : Str} (ha : '%' ∉ a) (hb : '%' ∉ b) (hc : '%' ∉ c) : '%' ∉ a ++ b ++ c := by
  simp [ha, hb, hc]

theorem mem_three {a b c : Str} {x : Char} (h : x ∈ a) : x ∈ a ++ b ++ c := List.mem_append_left _ (List.mem_append_left _ h)

theorem table_glue {t l1 l2 l3 l4 l5 x1 x2 x3 x4 x5 x6 y : Str} (h2 : l2 = x1 ++ (ch! "%CLUSTER%" ++ x2)) (h3 : l3 = x3 ++ (ch! "%CLUSTER%" ++ x4))
    (h4 : l4 = x5 ++ (ch! "%CLUSTER%" ++ (y ++ (ch! "%DATABASE%" ++ x6)))) : l1 ++ t ++ l2 ++ t ++ l3 ++ t ++ l4 ++ t ++ l5 =
      sourceOf [.text (l1 ++ t ++ x1), .cluster, .text (x2 ++ t ++ x3), .cluster, .text (x4 ++ t ++ x5), .cluster, .text y, .database, .text (x6 ++ t ++ l5)] := by
  subst h2 h3 h4
  simp only [sourceOf, List.flatMap_cons, List.flatMap_nil, Piece.source, List.append_nil, List.append_assoc]

theorem ne_of_space {a : Str} {w : Str} (h : ' ' ∈ a) (hw : ' ' ∉ w) : a ≠ w := by
  rintro rfl; exact hw h

/-- The history table of a cluster migration: created on the named cluster, distributed over the named database, whatever the names
(without `%`). -/
theorem C84_history_table (cluster database table : Str) (k : Nat) (hd : '%' ∉ database) (ht : '%' ∉ table) :
    Migrator.prepare ⟨some (cluster, database), k⟩ (Migrator.tableText ⟨some (cluster, database), k⟩ table) =
      filledIn cluster database (tablePieces table) := by
  have e : Migrator.tableText ⟨some (cluster, database), k⟩ table = sourceOf (tablePieces table) := by
    exact table_glue (x1 := ch! "_local ON CLUSTER ") (x3 := ch! "
            ON CLUSTER ") (x5 := ch! "_local ENGINE = Distributed(") (x6 := ch! ", ") rfl rfl rfl
  rw [e]
  exact (C84_filled_in_partial cluster database k _ (unmistakable_five database _ _ _ _ _ hd (not_mem_three (by decide) ht (by decide))
    (not_mem_three (by decide) ht (by decide)) (not_mem_three (by decide) ht (by decide)) (by decide) (not_mem_three (by decide) ht (by decide))
    (ne_of_space (mem_three (by decide)) (by decide)) (ne_of_space (mem_three (by decide)) (by decide)) (ne_of_space (by decide) (by decide)))).1

/-- A single client's statements are run as they are. -/
theorem C84_client (q : Str) (k : Nat) : Migrator.prepare ⟨none, k⟩ q = q ∧ Migrator.queryText ⟨none, k⟩ q = q := ⟨rfl, rfl⟩

/-- The history table of a single client: created under the given name, with the four columns the history is read from (C68), spaces aside. -/
theorem C84_client_table (table : Str) (k : Nat) : ∃ columns : Str,
    Migrator.prepare ⟨none, k⟩ (Migrator.tableText ⟨none, k⟩ table) =
      ch! "CREATE TABLE IF NOT EXISTS " ++ table ++ ch! "(" ++ columns ++ ch! ") Engine=MergeTree() ORDER BY version;" ∧
    columns.filter (fun c => c != ' ' && c != '\n') = ch! "versionINT,nameVARCHAR(255),applied_onVARCHAR(255),checksumVARCHAR(255)" :=
  ⟨ch! "
            version INT,
            name VARCHAR(255),
            applied_on VARCHAR(255),
            checksum VARCHAR(255)", by simp only [List.append_assoc]; rfl, by decide⟩

/-- C84, what is not so: names and texts may be mistaken for placeholders. A database whose name contains the cluster's placeholder
is renamed, and text following a placeholder may be read together with its last `%`. -/
theorem C84_filled_in_false (k : Nat) : (∃ (cluster database : Str) (ps : List Piece),
      Migrator.prepare ⟨some (cluster, database), k⟩ (sourceOf ps) ≠ filledIn cluster database ps ∧ ∀ s, .text s ∈ ps → '%' ∉ s) ∧
    (∃ (cluster database : Str) (ps : List Piece),
      Migrator.prepare ⟨some (cluster, database), k⟩ (sourceOf ps) ≠ filledIn cluster database ps ∧ '%' ∉ cluster ∧ '%' ∉ database) := by
  refine ⟨⟨ch! "c", ch! "a%CLUSTER%", [.text (ch! "USE "), .database], by show replaceAll _ _ (replaceAll _ _ _) ≠ _; decide, ?_⟩,
    ⟨ch! "c", ch! "d", [.text (ch! "SELECT '"), .cluster, .text (ch! "DATABASE%'")], by show replaceAll _ _ (replaceAll _ _ _) ≠ _; decide, by decide, by decide⟩⟩
  intro s hs
  simp only [List.mem_cons, List.not_mem_nil, or_false, Piece.text.injEq, reduceCtorEq] at hs
  subst hs; decide

/-- A statement as one would write it, with `%` of its own. -/
example : Migrator.prepare ⟨some (ch! "prod", ch! "shop"), 0⟩ (ch! "DELETE FROM %DATABASE%.t ON CLUSTER %CLUSTER% WHERE n LIKE '%x%'") =
    ch! "DELETE FROM shop.t ON CLUSTER prod WHERE n LIKE '%x%'" := by decide

end Props
end Klick
