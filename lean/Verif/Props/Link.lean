import Verif.Spec.Link
import Verif.Props.Client
import Verif.Props.Cancel
/-
C80: what the caller of the n-th query reads is the n-th response the server wrote.
-/
namespace Klick
open Spec

/-! ### responses by position -/

/-- How many packets end a response. -/
def endsIn (ps : List ServerPacket) : Nat := ps.countP ends

theorem snocInd {α : Type} {P : List α → Prop} (h0 : P []) (h1 : ∀ l a, P l → P (l ++ [a])) (l : List α) : P l := by
  have : ∀ t s : List α, P s → P (s ++ t) := by
    intro t
    induction t with
    | nil => intro s h; rwa [List.append_nil]
    | cons a t ih => intro s h; rw [List.append_cons]; exact ih _ (h1 s a h)
  exact this l [] h0

theorem response_snoc (ps : List ServerPacket) (p : ServerPacket) :
    ∀ n, response n (ps ++ [p]) = response n ps ++ if endsIn ps = n then [p] else [] := by
  induction ps with
  | nil =>
    intro n
    cases n with
    | zero => cases h : ends p <;> simp [response, endsIn, h]
    | succ n => cases h : ends p <;> simp [response, endsIn, h]
  | cons q ps ih =>
    intro n
    cases h : ends q
    · have hc : endsIn (q :: ps) = endsIn ps := by simp [endsIn, h]
      cases n with
      | zero => simp [response, h, ih 0, hc]
      | succ n => simp [response, h, ih (n + 1), hc]
    · have hc : endsIn (q :: ps) = endsIn ps + 1 := by simp [endsIn, h]
      cases n with
      | zero => simp [response, h, hc]
      | succ n => simp [response, h, ih n, hc]

theorem itemsIn_append (ps qs : List ServerPacket) : itemsIn (ps ++ qs) = itemsIn ps ++ itemsIn qs := by
  simp [itemsIn]

theorem response_prefix {ps qs : List ServerPacket} (h : ps <+: qs) (n : Nat) : response n ps <+: response n qs := by
  obtain ⟨t, rfl⟩ := h
  refine snocInd (P := fun t => response n ps <+: response n (ps ++ t)) ?_ ?_ t
  · simp
  · intro t p ih
    rw [← List.append_assoc, response_snoc]
    exact ih.trans (List.prefix_append _ _)

/-- Response `n` is finished once more than `n` packets that end a response have come. -/
theorem response_done {ps : List ServerPacket} {n : Nat} (h : n < endsIn ps) (t : List ServerPacket) :
    response n (ps ++ t) = response n ps := by
  refine snocInd (P := fun t => response n (ps ++ t) = response n ps) ?_ ?_ t
  · simp
  · intro t p ih
    rw [← List.append_assoc, response_snoc, ih]
    have : ¬ endsIn (ps ++ t) = n := by
      unfold endsIn at h ⊢
      rw [List.countP_append]
      omega
    simp [this]

/-- Nothing that comes before is illegal. -/
def NoIllegal (l : List Obs) : Prop := ∀ l1 p l2, l = l1 ++ .got p :: l2 → ¬ Illegal l1 p

theorem gotOf_snoc (l : List Obs) (o : Obs) : gotOf (l ++ [o]) = gotOf l ++ gotOf [o] := by simp [gotOf]

/-- What the positions say about a history. -/
structure Placed (l : List Obs) : Prop where
  done : (view l).done ++ (view l).cur.toList = sentOf l
  sub : sentOf l <+: submittedOf l
  count : endsIn (gotOf l) = (view l).done.length
  items : ∀ (n : Nat) t, (sentOf l)[n]? = some t → itemsOf t l = itemsIn (response n (gotOf l))
  known : ∀ t i, (t, i) ∈ (view l).items → t ∈ sentOf l
  idle : (view l).cur = none → itemsIn (response (sentOf l).length (gotOf l)) = []

theorem response_beyond : ∀ (ps : List ServerPacket) (n : Nat), endsIn ps < n → response n ps = [] := by
  intro ps
  induction ps with
  | nil => intro n _; cases n <;> rfl
  | cons q ps ih =>
    intro n h
    cases hq : ends q
    · have hc : endsIn (q :: ps) = endsIn ps := by simp [endsIn, hq]
      cases n with
      | zero => omega
      | succ n => simp [response, hq]; exact ih _ (by omega)
    · have hc : endsIn (q :: ps) = endsIn ps + 1 := by simp [endsIn, hq]
      cases n with
      | zero => omega
      | succ n => simp [response, hq]; exact ih _ (by omega)

theorem Placed.same {l : List Obs} {o : Obs} (h : Placed l) (hv : (view l).next o = view l) (hg : gotOf [o] = []) (hs : sentOf [o] = []) :
    Placed (l ++ [o]) := by
  obtain ⟨h1, h0, h2, h3, h4, h5⟩ := h
  refine ⟨?_, ?_, ?_, ?_, ?_, ?_⟩
  · rw [view_snoc, sentOf_snoc, hv, hs, List.append_nil]; exact h1
  · rw [sentOf_snoc, submittedOf_snoc, hs, List.append_nil]; exact h0.trans (List.prefix_append _ _)
  · rw [view_snoc, gotOf_snoc, hv, hg, List.append_nil]; exact h2
  · rw [sentOf_snoc, gotOf_snoc, hs, hg, List.append_nil, List.append_nil]
    intro n t ht
    rw [itemsOf_eq, view_snoc, hv]
    exact h3 n t ht
  · rw [view_snoc, sentOf_snoc, hv, hs, List.append_nil]; exact h4
  · rw [view_snoc, sentOf_snoc, gotOf_snoc, hv, hs, hg, List.append_nil, List.append_nil]; exact h5

theorem pick_none {t : Ticket} {l : List (Ticket × Item)} (h : ∀ i, (t, i) ∉ l) : pick t l = [] := by
  unfold pick
  rw [List.filterMap_eq_nil_iff]
  rintro ⟨t', i⟩ hm
  by_cases e : t' = t
  · subst e; exact absurd hm (h i)
  · simp [e]

/-- A packet that is none of a query's items and does not end it. -/
theorem Placed.bystander {l : List Obs} {p : ServerPacket} (h : Placed l) (hv : ((view l).next (.got p)).cur = (view l).cur ∧
    ((view l).next (.got p)).items = (view l).items ∧ ((view l).next (.got p)).done = (view l).done) (hi : itemsIn [p] = [])
    (he : ends p = false) : Placed (l ++ [.got p]) := by
  obtain ⟨h1, h0, h2, h3, h4, h5⟩ := h
  have hg : gotOf (l ++ [.got p]) = gotOf l ++ [p] := by rw [gotOf_snoc]; rfl
  have hs : sentOf (l ++ [.got p]) = sentOf l := by rw [sentOf_snoc]; exact List.append_nil _
  have hr : ∀ n, itemsIn (response n (gotOf l ++ [p])) = itemsIn (response n (gotOf l)) := by
    intro n
    rw [response_snoc, itemsIn_append]
    split
    · rw [hi, List.append_nil]
    · exact List.append_nil _
  refine ⟨?_, ?_, ?_, ?_, ?_, ?_⟩
  · rw [view_snoc, hs, hv.1, hv.2.2]; exact h1
  · rw [hs, submittedOf_snoc]; exact h0.trans (List.prefix_append _ _)
  · rw [view_snoc, hg, hv.2.2]
    unfold endsIn at h2 ⊢
    rw [List.countP_append, h2]
    simp [he]
  · rw [hs, hg]
    intro n t ht
    rw [hr, itemsOf_eq, view_snoc, hv.2.1]
    exact h3 n t ht
  · rw [view_snoc, hs, hv.2.1]; exact h4
  · rw [view_snoc, hs, hg, hv.1, hr]; exact h5

/-- A packet of the current query. -/
theorem Placed.own {l : List Obs} {p : ServerPacket} {c : Ticket} (h : Placed l) (hn : (sentOf l).Nodup) (hc : (view l).cur = some c)
    (hi : ((view l).next (.got p)).items = (view l).items ++ (itemsIn [p]).map (fun i => (c, i)))
    (hcur : ((view l).next (.got p)).cur = if ends p then none else some c)
    (hd : ((view l).next (.got p)).done = if ends p then (view l).done ++ [c] else (view l).done) : Placed (l ++ [.got p]) := by
  obtain ⟨h1, h0, h2, h3, h4, h5⟩ := h
  rw [hc] at h1
  have hg : gotOf (l ++ [.got p]) = gotOf l ++ [p] := by rw [gotOf_snoc]; rfl
  have hs : sentOf (l ++ [.got p]) = sentOf l := by rw [sentOf_snoc]; exact List.append_nil _
  have h1' : (view l).done ++ [c] = sentOf l := h1
  have hpick : ∀ t, pick t ((view l).items ++ (itemsIn [p]).map (fun i => (c, i))) =
      pick t (view l).items ++ if c = t then itemsIn [p] else [] := by
    intro t
    unfold pick
    rw [List.filterMap_append, List.filterMap_map]
    congr 1
    by_cases e : c = t
    · rw [if_pos e]
      simp [Function.comp_def, e]
    · rw [if_neg e]
      simp [Function.comp_def, e]
  have hlen : (view l).done.length + 1 = (sentOf l).length := by rw [← h1']; simp
  refine ⟨?_, ?_, ?_, ?_, ?_, ?_⟩
  · rw [view_snoc, hs, hcur, hd]
    cases ends p
    · exact h1
    · simpa using h1'
  · rw [hs, submittedOf_snoc]; exact h0.trans (List.prefix_append _ _)
  · rw [view_snoc, hg, hd]
    unfold endsIn at h2 ⊢
    rw [List.countP_append, h2]
    cases he : ends p <;> simp [he]
  · rw [hs, hg]
    intro n t ht
    rw [response_snoc, itemsIn_append, itemsOf_eq, view_snoc, hi, hpick, ← itemsOf_eq, h3 n t ht, h2]
    congr 1
    have hiff : c = t ↔ (view l).done.length = n := by
      rw [← h1'] at ht hn
      constructor
      · intro e
        subst e
        rw [List.nodup_append] at hn
        by_cases hl : n < (view l).done.length
        · rw [List.getElem?_append_left hl] at ht
          exact absurd rfl (hn.2.2 c (List.mem_of_getElem? ht) c (List.mem_singleton.mpr rfl))
        · have := (List.getElem?_eq_some_iff.mp ht).1
          simp only [List.length_append, List.length_singleton] at this
          omega
      · intro e
        subst e
        simpa using ht
    by_cases e : c = t
    · rw [if_pos e, if_pos (hiff.mp e)]
    · rw [if_neg e, if_neg (fun h => e (hiff.mpr h))]
      rfl
  · rw [view_snoc, hs, hi]
    intro t i ht
    rcases List.mem_append.mp ht with ht | ht
    · exact h4 t i ht
    · obtain ⟨_, _, e⟩ := List.mem_map.mp ht
      cases e
      rw [← h1']
      simp
  · intro _
    rw [hs, hg, response_snoc, itemsIn_append, h2, if_neg (by omega), response_beyond _ _ (by rw [h2]; omega)]
    rfl

theorem placed : ∀ l : List Obs, Always Rule l → (submittedOf l).Nodup → NoIllegal l → Placed l := by
  refine snocInd (P := fun l => Always Rule l → (submittedOf l).Nodup → NoIllegal l → Placed l) ?_ ?_
  · intro _ _ _
    exact ⟨rfl, List.nil_prefix, rfl, (by intro n t h; simp [sentOf] at h), (by intro t i h; cases h), fun _ => rfl⟩
  · intro l o ih hr hn hc
    have hr' : Always Rule l := fun l1 o' l2 e => hr l1 o' (l2 ++ [o]) (by rw [e]; simp)
    have hn' : (submittedOf l).Nodup := by
      rw [submittedOf_snoc] at hn
      exact (List.nodup_append.mp hn).1
    have hc' : NoIllegal l := fun l1 p l2 e => hc l1 p (l2 ++ [o]) (by rw [e]; simp)
    have h := ih hr' hn' hc'
    have ho := hr l o [] rfl
    cases o with
    | got p =>
      have hill := hc l p [] rfl
      have hsub : (sentOf l).Nodup := h.sub.sublist.nodup hn'
      cases p with
      | data n b =>
        cases hcur : (view l).cur with
        | none => exact absurd hcur hill
        | some c => exact h.own hsub hcur (by simp [View.next, hcur, itemsIn]) (by simp [View.next, hcur, ends]) (by simp [View.next, hcur, ends])
      | exception e =>
        cases hcur : (view l).cur with
        | none => exact absurd hcur hill
        | some c => exact h.own hsub hcur (by simp [View.next, hcur, itemsIn]) (by simp [View.next, ends, hcur]) (by simp [View.next, hcur, ends])
      | endOfStream =>
        cases hcur : (view l).cur with
        | none => exact absurd hcur hill
        | some c => exact h.own hsub hcur (by simp [View.next, hcur, itemsIn]) (by simp [View.next, ends, hcur]) (by simp [View.next, hcur, ends])
      | progress pr => exact h.bystander (by simp only [View.next]; cases hcur : (view l).cur <;> simp [hcur]) rfl rfl
      | hello x => exact absurd trivial hill
      | _ => exact h.bystander ⟨rfl, rfl, rfl⟩ rfl rfl
    | sentQuery t x =>
      obtain ⟨hcur, hsub, _⟩ := ho
      obtain ⟨h1, h0, h2, h3, h4, h5⟩ := h
      have ht : t ∉ sentOf l := by
        have : (sentOf l ++ [t]).Nodup := hsub.sublist.nodup hn'
        rw [List.nodup_append] at this
        exact fun hm => this.2.2 t hm t (List.mem_singleton.mpr rfl) rfl
      have hg : gotOf (l ++ [.sentQuery t x]) = gotOf l := by rw [gotOf_snoc]; exact List.append_nil _
      have hs : sentOf (l ++ [.sentQuery t x]) = sentOf l ++ [t] := by rw [sentOf_snoc]; rfl
      refine ⟨?_, ?_, ?_, ?_, ?_, ?_⟩
      · rw [view_snoc, hs]
        rw [hcur] at h1
        show (view l).done ++ [t] = _
        rw [← h1]
        simp
      · rw [hs, submittedOf_snoc]; exact hsub.trans (List.prefix_append _ _)
      · rw [view_snoc, hg]; exact h2
      · rw [hs, hg]
        intro n t' ht'
        rw [itemsOf_eq, view_snoc]
        show pick t' (view l).items = _
        by_cases hl : n < (sentOf l).length
        · rw [List.getElem?_append_left hl] at ht'
          exact h3 n t' ht'
        · rw [List.getElem?_append_right (by omega)] at ht'
          have hz : n = (sentOf l).length ∧ t = t' := by
            have := List.getElem?_eq_some_iff.mp ht'
            obtain ⟨hlt, e⟩ := this
            have h0 : n - (sentOf l).length = 0 := by
              simp only [List.length_singleton] at hlt
              omega
            refine ⟨by omega, ?_⟩
            simpa [h0] using ht'
          obtain ⟨rfl, rfl⟩ := hz
          rw [h5 hcur]
          exact pick_none fun i hi => ht (h4 _ _ hi)
      · rw [view_snoc, hs]
        intro t' i hi
        exact List.mem_append_left _ (h4 t' i hi)
      · rw [view_snoc]
        intro hh
        cases hh
    | _ => exact h.same rfl rfl rfl

/-! ### what a step adds to the history -/

/-- The packet of an event. -/
def Event.got? : Event → List ServerPacket
  | .packet _ p => [p]
  | _ => []

theorem step_got {s : Conn} {e : Event} {s' : Conn} (hs : s.step e = some s') :
    ∃ l, s'.log = s.log ++ l ∧ gotOf l = e.got? ∧ (∀ p, gotOf l = [p] → l.head? = some (.got p)) := by
  have dl : ∀ (k : Nat) (s1 : Conn), ∃ l, (dispatchNext k s1).log = s1.log ++ l ∧ gotOf l = [] := by
    intro k s1
    unfold dispatchNext
    split
    · exact ⟨[], by simp, rfl⟩
    · rw [dispatch_log]
      exact ⟨_, rfl, by rcases k with _ | _ | k <;> rfl⟩
  have no : ∀ {s1 : Conn} {l : List Obs}, s1.log = s.log ++ l → gotOf l = [] →
      ∃ l, s1.log = s.log ++ l ∧ gotOf l = [] ∧ (∀ p, gotOf l = [p] → l.head? = some (.got p)) := by
    intro s1 l h1 h2
    exact ⟨l, h1, h2, (by intro p hp; rw [h2] at hp; cases hp)⟩
  cases e with
  | submit t text =>
    simp only [Conn.step] at hs
    split at hs
    · cases hs
    · cases hs
    · split at hs
      · cases hs; exact no rfl rfl
      · cases hs
  | submitData d o b =>
    simp only [Conn.step] at hs
    split at hs
    · cases hs
    · split at hs
      · cases hs; exact no rfl rfl
      · cases hs
    · cases hs
  | handle k =>
    simp only [Conn.step] at hs
    split at hs
    · rename_i r rest _ _
      cases hs
      unfold handleRequest
      split
      · split
        · exact no (dispatch_log _ _ _ _) (by rcases k with _ | _ | k <;> rfl)
        · exact no (l := []) (by simp) rfl
      · split
        · exact no (kill_log _) rfl
        · exact no rfl rfl
    · cases hs
  | packet k p =>
    simp only [Conn.step] at hs
    split at hs
    · cases hs
      have yes : ∀ {s1 : Conn} {l : List Obs}, s1.log = s.log ++ .got p :: l → gotOf l = [] →
          ∃ l, s1.log = s.log ++ l ∧ gotOf l = [p] ∧ (∀ q, gotOf l = [q] → l.head? = some (.got q)) := by
        intro s1 l h1 h2
        have h3 : gotOf (.got p :: l) = [p] := by
          show p :: gotOf l = _
          rw [h2]
        refine ⟨.got p :: l, h1, h3, ?_⟩
        intro q hq
        rw [h3] at hq
        cases hq
        rfl
      have k1 : (s.note (.got p)).kill.log = s.log ++ .got p :: [.died] := by rw [kill_log]; simp [Conn.note]
      unfold receivePacket
      cases p with
      | hello _ => exact yes k1 rfl
      | data n b =>
        dsimp only
        split
        · exact yes (l := []) rfl rfl
        · exact yes k1 rfl
      | exception x =>
        dsimp only
        split
        · exact yes (l := []) rfl rfl
        · exact yes k1 rfl
      | progress pr =>
        dsimp only
        split
        · rename_i t _
          exact yes (l := [.progress t pr]) (by simp [Conn.note]) rfl
        · exact yes (l := []) rfl rfl
      | endOfStream =>
        dsimp only
        split
        · obtain ⟨l, h1, h2⟩ := dl k (dropExecuting (s.note (.got .endOfStream)))
          have h3 : (dropExecuting (s.note (.got .endOfStream))).log = s.log ++ [.got .endOfStream] := by
            unfold dropExecuting; split <;> rfl
          exact yes (l := l) (by rw [h1, h3]; simp) h2
        · exact yes k1 rfl
      | _ => exact yes (l := []) rfl rfl
    · cases hs
  | deliver k =>
    simp only [Conn.step] at hs
    split at hs
    · unfold deliver at hs
      dsimp only at hs
      have fin : ∀ s1 : Conn, s1.log = s.log → ∃ l, (dispatchNext k s1).log = s.log ++ l ∧ gotOf l = [] ∧
          (∀ p, gotOf l = [p] → l.head? = some (.got p)) := by
        intro s1 e
        obtain ⟨l, h1, h2⟩ := dl k s1
        exact no (by rw [h1, e]) h2
      split at hs
      · split at hs
        · split at hs
          · cases hs
            split
            · exact fin _ rfl
            · exact no (l := []) (by simp) rfl
          · cases hs
        · cases hs
      · cases hs
        split
        · exact fin _ rfl
        · exact no (l := []) (by simp) rfl
    · cases hs
  | recv t =>
    simp only [Conn.step] at hs
    split at hs
    · cases hs; exact no rfl rfl
    · cases hs
  | drop t =>
    simp only [Conn.step] at hs
    split at hs
    · cases hs; exact no (l := []) (by simp) rfl
    · cases hs
  | fail =>
    simp only [Conn.step] at hs
    split at hs
    · cases hs; exact no (kill_log _) rfl
    · cases hs
  | close =>
    simp only [Conn.step] at hs
    split at hs
    · cases hs; exact no (kill_log _) rfl
    · cases hs

theorem gotOf_append (l l' : List Obs) : gotOf (l ++ l') = gotOf l ++ gotOf l' := by simp [gotOf]

theorem got_mem {p : ServerPacket} {l1 l2 : List Obs} : gotOf (l1 ++ .got p :: l2) = gotOf l1 ++ p :: gotOf l2 := by
  rw [gotOf_append]; rfl

/-- An illegal packet is followed at once by the end of the task. -/
def Deadly (l : List Obs) : Prop := ∀ l1 p l2, l = l1 ++ .got p :: l2 → Illegal l1 p → l2.head? = some .died

theorem Deadly.quiet {l m : List Obs} (h : Deadly l) (hm : gotOf m = []) : Deadly (l ++ m) := by
  intro l1 p l2 e hp
  rcases List.append_eq_append_iff.mp e with ⟨as, e1, e2⟩ | ⟨cs, e1, e2⟩
  · rw [e2, got_mem] at hm
    simp at hm
  · cases cs with
    | nil =>
      simp only [List.nil_append] at e2
      rw [← e2] at hm
      cases hm
    | cons c cs =>
      simp only [List.cons_append, List.cons.injEq] at e2
      obtain ⟨rfl, rfl⟩ := e2
      have := h l1 p cs e1 hp
      cases cs with
      | nil => cases this
      | cons c cs => exact this

theorem step_deadly {s : Conn} (h : Reachable s) (hd : Deadly s.log) {e : Event} {s' : Conn} (hs : s.step e = some s') : Deadly s'.log := by
  obtain ⟨l, h1, h2, h3⟩ := step_got hs
  cases e with
  | packet k p =>
    have hi : s.phase = .idle := by
      simp only [Conn.step] at hs
      split at hs
      · assumption
      · cases hs
    have hg : gotOf l = [p] := h2
    by_cases hp : Illegal s.log p
    · obtain ⟨s'', hs'', hl⟩ := Props.C34_violation h hi hp k
      rw [hs] at hs''
      cases hs''
      rw [hl]
      intro l1 q l2 e hq
      rcases List.append_eq_append_iff.mp e with ⟨as, e1, e2⟩ | ⟨cs, e1, e2⟩
      · cases as with
        | nil =>
          simp only [List.nil_append, List.cons.injEq] at e2
          rw [← e2.2]; rfl
        | cons a as =>
          simp only [List.cons_append, List.cons.injEq] at e2
          obtain ⟨_, e2⟩ := e2
          cases as with
          | nil => cases e2
          | cons a as =>
            simp only [List.cons_append, List.cons.injEq] at e2
            cases as <;> cases e2.2
      · cases cs with
        | nil =>
          simp only [List.nil_append, List.cons.injEq] at e2
          rw [e2.2]; rfl
        | cons c cs =>
          simp only [List.cons_append, List.cons.injEq] at e2
          obtain ⟨rfl, rfl⟩ := e2
          have := hd l1 q cs e1 hq
          cases cs with
          | nil => cases this
          | cons c cs => exact this
    · have hh := h3 p hg
      cases l with
      | nil => cases hh
      | cons o l =>
        cases hh
        have hg' : gotOf l = [] := by
          have : p :: gotOf l = [p] := hg
          injection this
        rw [h1, List.append_cons]
        refine Deadly.quiet ?_ hg'
        intro l1 q l2 e hq
        rcases List.append_eq_append_iff.mp e with ⟨as, e1, e2⟩ | ⟨cs, e1, e2⟩
        · cases as with
          | nil =>
            simp only [List.nil_append, List.cons.injEq, List.append_nil] at e1 e2
            obtain ⟨e2, rfl⟩ := e2
            injection e2 with e2
            rw [e1, ← e2] at hq
            exact absurd hq hp
          | cons a as =>
            simp only [List.cons_append, List.cons.injEq] at e2
            cases as <;> cases e2.2
        · cases cs with
          | nil =>
            simp only [List.nil_append, List.cons.injEq, List.append_nil] at e1 e2
            obtain ⟨e2, rfl⟩ := e2
            injection e2 with e2
            rw [← e1, e2] at hq
            exact absurd hq hp
          | cons c cs =>
            simp only [List.cons_append, List.cons.injEq] at e2
            obtain ⟨rfl, rfl⟩ := e2
            have := hd l1 q cs e1 hq
            cases cs with
            | nil => cases this
            | cons c cs => exact this
  | _ =>
    rw [h1]
    exact hd.quiet h2

theorem run_deadly : ∀ (es : List Event) {s : Conn}, Reachable s → Deadly s.log → ∀ {s'}, s.run es = some s' → Deadly s'.log := by
  intro es
  induction es with
  | nil => intro s _ hd s' hs; cases hs; exact hd
  | cons e es ih =>
    intro s h hd s' hs
    simp only [Conn.run] at hs
    cases h1 : s.step e with
    | none => rw [h1] at hs; cases hs
    | some s1 =>
      rw [h1] at hs
      exact ih (h.step h1) (step_deadly h hd h1) hs

theorem deadly {s : Conn} (h : Reachable s) : Deadly s.log := by
  obtain ⟨es, hs⟩ := h
  refine run_deadly es ⟨[], rfl⟩ ?_ hs
  intro l1 p l2 e
  cases l1 <;> cases e

/-- As long as the task lives, nothing illegal has come. -/
theorem clean_alive {s : Conn} (h : Reachable s) (hd : .died ∉ s.log) : NoIllegal s.log := by
  intro l1 p l2 e hp
  have := deadly h l1 p l2 e hp
  cases l2 with
  | nil => cases this
  | cons o l2 =>
    cases this
    exact hd (by rw [e]; simp)

/-! ### what callers ask -/

/-- Events that are requests of callers. -/
def Obs.asks : Obs → Bool
  | .submitted _ _ | .dataSubmitted _ _ _ => true
  | _ => false

/-- The request of an event. -/
def Event.asked : Event → List Obs
  | .submit t x => [.submitted t x]
  | .submitData d o b => [.dataSubmitted d o b]
  | _ => []

theorem step_asked {s : Conn} {e : Event} {s' : Conn} (hs : s.step e = some s') :
    ∃ l, s'.log = s.log ++ l ∧ l.filter Obs.asks = e.asked := by
  have dl : ∀ (k : Nat) (s1 : Conn), ∃ l, (dispatchNext k s1).log = s1.log ++ l ∧ l.filter Obs.asks = [] := by
    intro k s1
    unfold dispatchNext
    split
    · exact ⟨[], by simp, rfl⟩
    · rw [dispatch_log]
      exact ⟨_, rfl, by rcases k with _ | _ | k <;> rfl⟩
  have no : ∀ {s1 : Conn} {l : List Obs} {m : List Obs}, s1.log = s.log ++ l → l.filter Obs.asks = m →
      ∃ l, s1.log = s.log ++ l ∧ l.filter Obs.asks = m := fun h1 h2 => ⟨_, h1, h2⟩
  cases e with
  | submit t text =>
    simp only [Conn.step] at hs
    split at hs
    · cases hs
    · cases hs
    · split at hs
      · cases hs; exact no rfl rfl
      · cases hs
  | submitData d o b =>
    simp only [Conn.step] at hs
    split at hs
    · cases hs
    · split at hs
      · cases hs; exact no rfl rfl
      · cases hs
    · cases hs
  | handle k =>
    simp only [Conn.step] at hs
    split at hs
    · cases hs
      unfold handleRequest
      split
      · split
        · exact no (dispatch_log _ _ _ _) (by rcases k with _ | _ | k <;> rfl)
        · exact no (l := []) (by simp) rfl
      · split
        · exact no (kill_log _) rfl
        · exact no rfl rfl
    · cases hs
  | packet k p =>
    simp only [Conn.step] at hs
    split at hs
    · cases hs
      have k1 : (s.note (.got p)).kill.log = s.log ++ .got p :: [.died] := by rw [kill_log]; simp [Conn.note]
      unfold receivePacket
      cases p with
      | hello _ => exact no k1 rfl
      | data n b =>
        dsimp only
        split
        · exact no (l := [.got (.data n b)]) rfl rfl
        · exact no k1 rfl
      | exception x =>
        dsimp only
        split
        · exact no (l := [.got (.exception x)]) rfl rfl
        · exact no k1 rfl
      | progress pr =>
        dsimp only
        split
        · rename_i t _
          exact no (l := [.got (.progress pr), .progress t pr]) (by simp [Conn.note]) rfl
        · exact no (l := [.got (.progress pr)]) rfl rfl
      | endOfStream =>
        dsimp only
        split
        · obtain ⟨l, h1, h2⟩ := dl k (dropExecuting (s.note (.got .endOfStream)))
          have h3 : (dropExecuting (s.note (.got .endOfStream))).log = s.log ++ [.got .endOfStream] := by
            unfold dropExecuting; split <;> rfl
          exact no (l := .got .endOfStream :: l) (by rw [h1, h3]; simp) h2
        · exact no k1 rfl
      | _ => exact no (l := [.got _]) rfl rfl
    · cases hs
  | deliver k =>
    simp only [Conn.step] at hs
    split at hs
    · unfold deliver at hs
      dsimp only at hs
      have fin : ∀ s1 : Conn, s1.log = s.log → ∃ l, (dispatchNext k s1).log = s.log ++ l ∧ l.filter Obs.asks = [] := by
        intro s1 e
        obtain ⟨l, h1, h2⟩ := dl k s1
        exact no (by rw [h1, e]) h2
      split at hs
      · split at hs
        · split at hs
          · cases hs
            split
            · exact fin _ rfl
            · exact no (l := []) (by simp) rfl
          · cases hs
        · cases hs
      · cases hs
        split
        · exact fin _ rfl
        · exact no (l := []) (by simp) rfl
    · cases hs
  | recv t =>
    simp only [Conn.step] at hs
    split at hs
    · cases hs; exact no rfl rfl
    · cases hs
  | drop t =>
    simp only [Conn.step] at hs
    split at hs
    · cases hs; exact no (l := []) (by simp) rfl
    · cases hs
  | fail =>
    simp only [Conn.step] at hs
    split at hs
    · cases hs; exact no (kill_log _) rfl
    · cases hs
  | close =>
    simp only [Conn.step] at hs
    split at hs
    · cases hs; exact no (kill_log _) rfl
    · cases hs

theorem submittedOf_asks (l : List Obs) : submittedOf l = submittedOf (l.filter Obs.asks) := by
  induction l with
  | nil => rfl
  | cons o l ih => cases o <;> first | exact ih | exact congrArg (List.cons _) ih

theorem blocksSubmitted_asks (l : List Obs) : blocksSubmitted l = blocksSubmitted (l.filter Obs.asks) := by
  induction l with
  | nil => rfl
  | cons o l ih => cases o <;> first | exact ih | exact congrArg (List.cons _) ih

theorem done_mono (l m : List Obs) : (view l).done <+: (view (l ++ m)).done := by
  refine snocInd (P := fun m => (view l).done <+: (view (l ++ m)).done) ?_ ?_ m
  · simp
  · intro m o ih
    rw [← List.append_assoc, view_snoc]
    refine ih.trans ?_
    generalize view (l ++ m) = v
    unfold View.next
    split <;> try exact List.prefix_rfl
    all_goals split <;> first | exact List.prefix_rfl | exact List.prefix_append _ _

theorem items_sent : ∀ l : List Obs, (∀ t, (view l).cur = some t → t ∈ sentOf l) ∧ ∀ t i, (t, i) ∈ (view l).items → t ∈ sentOf l := by
  refine snocInd (P := fun l => (∀ t, (view l).cur = some t → t ∈ sentOf l) ∧ ∀ t i, (t, i) ∈ (view l).items → t ∈ sentOf l) ?_ ?_
  · exact ⟨(by intro t h; cases h), (by intro t i h; cases h)⟩
  · intro l o ⟨h1, h2⟩
    rw [view_snoc, sentOf_snoc]
    generalize view l = v at *
    have same : (∀ t, v.cur = some t → t ∈ sentOf l ++ sentOf [o]) ∧ ∀ t i, (t, i) ∈ v.items → t ∈ sentOf l ++ sentOf [o] :=
      ⟨fun t h => List.mem_append_left _ (h1 t h), fun t i h => List.mem_append_left _ (h2 t i h)⟩
    have more : ∀ t, v.cur = some t → ∀ i t' i', (t', i') ∈ v.items ++ [(t, i)] → t' ∈ sentOf l ++ sentOf [o] := by
      intro t ht i t' i' h
      rcases List.mem_append.mp h with h | h
      · exact same.2 t' i' h
      · cases List.mem_singleton.mp h; exact same.1 _ ht
    unfold View.next
    split
    · refine ⟨?_, same.2⟩
      intro t h
      cases h
      exact List.mem_append_right _ (by simp [sentOf])
    · split
      · rename_i t ht; exact ⟨fun t h => same.1 t h, more t ht _⟩
      · exact same
    · split
      · rename_i t ht; exact ⟨(by intro t h; cases h), more t ht _⟩
      · exact same
    · split
      · exact ⟨(by intro t h; cases h), same.2⟩
      · exact same
    · split
      · exact same
      · exact same
    · exact same

theorem itemsOf_unsent {t : Ticket} {l : List Obs} (h : t ∉ sentOf l) : itemsOf t l = [] := by
  rw [itemsOf_eq]
  exact pick_none fun i hi => h ((items_sent l).2 t i hi)

/-! ### the reader and the task together -/

variable {cfg : Cfg} {comp : Option Lz4} {revision : Nat}

theorem wire_run_append (es es' : List LinkEvent) : ∀ w : Link, w.run cfg comp revision (es ++ es') =
    (w.run cfg comp revision es).bind fun w => w.run cfg comp revision es' := by
  induction es with
  | nil => intro w; rfl
  | cons e es ih =>
    intro w
    simp only [List.cons_append, Link.run]
    cases w.step cfg comp revision e with
    | none => rfl
    | some w1 => exact ih w1

theorem wire_run_snoc {es : List LinkEvent} {e : LinkEvent} {w w' : Link} (h : w.run cfg comp revision (es ++ [e]) = some w') :
    ∃ w1, w.run cfg comp revision es = some w1 ∧ w1.step cfg comp revision e = some w' := by
  rw [wire_run_append] at h
  cases h1 : w.run cfg comp revision es with
  | none => rw [h1] at h; cases h
  | some w1 =>
    rw [h1] at h
    refine ⟨w1, rfl, ?_⟩
    change (w1.step cfg comp revision e).bind _ = _ at h
    cases h2 : w1.step cfg comp revision e with
    | none => rw [h2] at h; cases h
    | some w2 => rw [h2] at h; exact h

theorem arrived_append (es es' : List LinkEvent) : arrived (es ++ es') = arrived es ++ arrived es' := by simp [arrived]

/-- The event of the task in an event of both. -/
theorem wire_conn {w w' : Link} {e : LinkEvent} (h : w.step cfg comp revision e = some w') :
    (w'.conn = w.conn ∧ ∀ x, e ≠ .caller x) ∨ ∃ x, w.conn.step x = some w'.conn ∧ (x.asked ≠ [] → e = .caller x) ∧ (∀ k, e = .request k → x = .handle k) := by
  cases e with
  | arrive bs => cases h; exact .inl ⟨rfl, by intro x h; cases h⟩
  | poll k =>
    simp only [Link.step] at h
    split at h
    · split at h
      · obtain ⟨c, h1, rfl⟩ := Option.map_eq_some_iff.mp h
        exact .inr ⟨_, h1, (fun h => absurd rfl h), by intro k h; cases h⟩
      · cases h; exact .inl ⟨rfl, by intro x h; cases h⟩
      · obtain ⟨c, h1, rfl⟩ := Option.map_eq_some_iff.mp h
        exact .inr ⟨_, h1, (fun h => absurd rfl h), by intro k h; cases h⟩
    · cases h
  | request k =>
    obtain ⟨c, h1, rfl⟩ := Option.map_eq_some_iff.mp h
    exact .inr ⟨_, h1, (fun h => absurd rfl h), by intro k h; cases h; rfl⟩
  | caller x =>
    simp only [Link.step] at h
    split at h
    · obtain ⟨c, h1, rfl⟩ := Option.map_eq_some_iff.mp h
      exact .inr ⟨x, h1, fun _ => rfl, by intro k h; cases h⟩
    · cases h
  | eof =>
    obtain ⟨c, h1, rfl⟩ := Option.map_eq_some_iff.mp h
    exact .inr ⟨_, h1, (fun h => absurd rfl h), by intro k h; cases h⟩

theorem wire_reach : ∀ (es : List LinkEvent) {w : Link}, Link.init.run cfg comp revision es = some w → Reachable w.conn := by
  refine snocInd (P := fun es => ∀ {w}, Link.init.run cfg comp revision es = some w → Reachable w.conn) ?_ ?_
  · intro w h; cases h; exact ⟨[], rfl⟩
  · intro es e ih w h
    obtain ⟨w1, h1, h2⟩ := wire_run_snoc h
    rcases wire_conn h2 with ⟨e, _⟩ | ⟨x, hx, _⟩
    · rw [e]; exact ih h1
    · exact (ih h1).step hx

/-- What holds of reader and task after any history. -/
structure LinkOk (w : Link) : Prop where
  got : gotOf w.conn.log = w.feed.out
  failed : w.feed.failed = true → w.conn.phase = .dead

theorem dead_stays {s s' : Conn} {e : Event} (hs : s.step e = some s') (h : s.phase = .dead) : s'.phase = .dead := by
  cases e with
  | recv t => simp only [Conn.step] at hs; split at hs <;> cases hs; exact h
  | drop t => simp only [Conn.step] at hs; split at hs <;> cases hs; exact h
  | _ => simp [Conn.step, h] at hs

theorem wire_ok : ∀ (es : List LinkEvent) {w : Link}, Link.init.run cfg comp revision es = some w → LinkOk w := by
  refine snocInd (P := fun es => ∀ {w}, Link.init.run cfg comp revision es = some w → LinkOk w) ?_ ?_
  · intro w h; cases h; exact ⟨rfl, by intro h; cases h⟩
  · intro es e ih w h
    obtain ⟨w1, h1, h2⟩ := wire_run_snoc h
    obtain ⟨hg, hf⟩ := ih h1
    have quiet : ∀ {x : Event} {c : Conn}, w1.conn.step x = some c → x.got? = [] → gotOf c.log = w1.feed.out := by
      intro x c hc hx
      obtain ⟨l, e1, e2, _⟩ := step_got hc
      rw [e1, gotOf_append, e2, hx, List.append_nil]; exact hg
    cases e with
    | arrive bs => cases h2; exact ⟨hg, hf⟩
    | poll k =>
      simp only [Link.step] at h2
      split at h2
      · rename_i hi
        have hff : ¬ w1.feed.failed = true := by intro h; rw [hf h] at hi; cases hi
        split at h2
        · rename_i p r hr
          obtain ⟨c, hc, rfl⟩ := Option.map_eq_some_iff.mp h2
          obtain ⟨l, e1, e2, _⟩ := step_got hc
          refine ⟨?_, ?_⟩
          · simp only [Feed.step, if_neg hff, hr]
            rw [e1, gotOf_append, e2, hg]; rfl
          · simp only [Feed.step, if_neg hff, hr]
            intro h; exact absurd h hff
        · rename_i hr
          cases h2
          refine ⟨?_, ?_⟩
          · simp only [Feed.step, if_neg hff, hr]; exact hg
          · simp only [Feed.step, if_neg hff, hr]; intro h; exact absurd h hff
        · rename_i hn1 hn2
          obtain ⟨c, hc, rfl⟩ := Option.map_eq_some_iff.mp h2
          refine ⟨?_, ?_⟩
          · rw [quiet hc rfl]
            simp only [Feed.step, if_neg hff]
          · intro _
            simp only [Conn.step, hi] at hc
            cases hc
            rfl
      · cases h2
    | request k =>
      obtain ⟨c, hc, rfl⟩ := Option.map_eq_some_iff.mp h2
      exact ⟨quiet hc rfl, fun h => dead_stays hc (hf h)⟩
    | caller x =>
      simp only [Link.step] at h2
      split at h2
      · rename_i hx
        obtain ⟨c, hc, rfl⟩ := Option.map_eq_some_iff.mp h2
        refine ⟨quiet hc ?_, fun h => dead_stays hc (hf h)⟩
        cases x <;> first | rfl | cases hx
      · cases h2
    | eof =>
      obtain ⟨c, hc, rfl⟩ := Option.map_eq_some_iff.mp h2
      exact ⟨quiet hc rfl, fun h => dead_stays hc (hf h)⟩

theorem Spec.Uncut.init {es : List LinkEvent} {e : LinkEvent} {w : Link} (h : Uncut cfg comp revision w (es ++ [e])) : Uncut cfg comp revision w es := by
  intro es1 k es2 w' e1 hw
  exact h es1 k (es2 ++ [e]) w' (by rw [e1]; simp) hw

/-- As long as no request is taken in the middle of a packet, what came out is what the arrived bytes are. -/
theorem wire_decodes : ∀ (es : List LinkEvent) {w : Link}, Link.init.run cfg comp revision es = some w → Uncut cfg comp revision Link.init es →
    Decodes cfg comp revision (arrived es) w.feed.out (w.feed.taken ++ w.feed.avail) := by
  refine snocInd (P := fun es => ∀ {w}, Link.init.run cfg comp revision es = some w → Uncut cfg comp revision Link.init es →
    Decodes cfg comp revision (arrived es) w.feed.out (w.feed.taken ++ w.feed.avail)) ?_ ?_
  · intro w h _; cases h; exact .nil _
  · intro es e ih w h hc
    obtain ⟨w1, h1, h2⟩ := wire_run_snoc h
    have hd := ih h1 hc.init
    have hf := (wire_ok es h1).failed
    rw [arrived_append]
    cases e with
    | arrive bs =>
      cases h2
      have := hd.extend bs
      simpa [Feed.step, arrived] using this
    | poll k =>
      have ha : arrived [LinkEvent.poll k] = [] := rfl
      rw [ha, List.append_nil]
      simp only [Link.step] at h2
      split at h2
      · rename_i hi
        have hff : ¬ w1.feed.failed = true := by intro h; rw [hf h] at hi; cases hi
        split at h2
        · rename_i p r hr
          obtain ⟨c, _, rfl⟩ := Option.map_eq_some_iff.mp h2
          simp only [Feed.step, if_neg hff, hr]
          exact hd.snoc hr
        · rename_i hr
          cases h2
          simp only [Feed.step, if_neg hff, hr, List.append_nil]
          exact hd
        · rename_i hn1 hn2
          obtain ⟨c, _, rfl⟩ := Option.map_eq_some_iff.mp h2
          simp only [Feed.step, if_neg hff]
          exact hd
      · cases h2
    | request k =>
      have ha : arrived [LinkEvent.request k] = [] := rfl
      rw [ha, List.append_nil]
      have ht := hc es k [] w1 rfl h1
      obtain ⟨c, _, rfl⟩ := Option.map_eq_some_iff.mp h2
      rw [ht] at hd
      exact hd
    | caller x =>
      have ha : arrived [LinkEvent.caller x] = [] := rfl
      rw [ha, List.append_nil]
      simp only [Link.step] at h2
      split at h2
      · obtain ⟨c, _, rfl⟩ := Option.map_eq_some_iff.mp h2
        exact hd
      · cases h2
    | eof =>
      have ha : arrived [LinkEvent.eof] = [] := rfl
      rw [ha, List.append_nil]
      obtain ⟨c, _, rfl⟩ := Option.map_eq_some_iff.mp h2
      exact hd

theorem decodes_nil {ps : List ServerPacket} {r : Bytes} (h : Decodes cfg comp revision [] ps r) : ps = [] ∧ r = [] := by
  cases h with
  | nil => exact ⟨rfl, rfl⟩
  | cons e _ => rw [show readPacket cfg comp revision [] = .err .io from rfl] at e; cases e

/-- What came out is a beginning of what the server wrote. -/
theorem wire_prefix {es : List LinkEvent} {w : Link} (hr : Link.init.run cfg comp revision es = some w) (hc : Uncut cfg comp revision Link.init es)
    {B : Bytes} {ps : List ServerPacket} (hB : Decodes cfg comp revision B ps []) (ha : arrived es <+: B) : w.feed.out <+: ps := by
  obtain ⟨t, rfl⟩ := ha
  rcases ((wire_decodes es hr hc).extend t).compare hB with ⟨m, e, _⟩ | ⟨m, e, hd⟩
  · exact ⟨m, e.symm⟩
  · obtain ⟨rfl, _⟩ := decodes_nil hd
    rw [e]; simp

/-! ### taking turns -/

theorem response_ends {ps : List ServerPacket} (h : IsResponse ps) : endsIn ps = 1 := by
  obtain ⟨body, last, rfl, h1, h2⟩ := h
  unfold endsIn
  rw [List.countP_append, List.countP_eq_zero.mpr (fun p hp => by simp [(h2 p hp).1])]
  simp [h1]

theorem Spec.Decodes.append {a b r : Bytes} {ps qs : List ServerPacket} (h1 : Decodes cfg comp revision a ps [])
    (h2 : Decodes cfg comp revision b qs r) : Decodes cfg comp revision (a ++ b) (ps ++ qs) r := by
  have : ∀ {a r' : Bytes} {ps : List ServerPacket}, Decodes cfg comp revision a ps r' → Decodes cfg comp revision r' qs r →
      Decodes cfg comp revision a (ps ++ qs) r := by
    intro a r' ps h1 h2
    induction h1 with
    | nil => exact h2
    | cons e _ ih => exact .cons e (ih h2)
  exact this (h1.extend b) h2

theorem written_decodes (rs : List (Reply cfg comp revision)) : Decodes cfg comp revision (rs.flatMap Reply.bytes) (rs.flatMap Reply.packets) [] := by
  induction rs with
  | nil => exact .nil _
  | cons r rs ih => exact r.decodes.append ih

theorem written_ends (rs : List (Reply cfg comp revision)) : endsIn (rs.flatMap Reply.packets) = rs.length := by
  induction rs with
  | nil => rfl
  | cons r rs ih =>
    show endsIn (r.packets ++ rs.flatMap Reply.packets) = _
    have : endsIn (r.packets ++ rs.flatMap Reply.packets) = endsIn r.packets + endsIn (rs.flatMap Reply.packets) := List.countP_append
    rw [this, response_ends r.ok, ih, List.length_cons]; omega

/-- With as many ends as there are replies, all of the replies is there. -/
theorem written_whole (rs : List (Reply cfg comp revision)) {out more : List ServerPacket} (h : rs.flatMap Reply.packets = out ++ more)
    (he : rs.length ≤ endsIn out) : more = [] := by
  refine snocInd (P := fun more => rs.flatMap Reply.packets = out ++ more → more = []) (fun _ => rfl) ?_ more h
  intro m p _ hp
  exfalso
  have h1 := written_ends rs
  have h2 : endsIn (rs.flatMap Reply.packets) = endsIn out + endsIn m + if ends p then 1 else 0 := by
    rw [hp]
    unfold endsIn
    rw [List.countP_append, List.countP_append]
    cases hq : ends p <;> simp [hq, Nat.add_assoc]
  have h3 : ends p = true := by
    refine snocInd (P := fun rs => rs.flatMap Reply.packets = out ++ (m ++ [p]) → ends p = true) ?_ ?_ rs hp
    · intro h
      have := congrArg List.length h
      simp at this
    · intro rs r _ h
      obtain ⟨body, last, e, h1, _⟩ := r.ok
      rw [List.flatMap_append] at h
      have : (rs.flatMap Reply.packets ++ body) ++ [last] = (out ++ m) ++ [p] := by
        rw [List.append_assoc, ← e, List.append_assoc, ← h]; simp
      have := (List.append_inj' this rfl).2
      cases this
      exact h1
  rw [if_pos h3] at h2
  omega

theorem written_mono (rs : List (Reply cfg comp revision)) {m n : Nat} (h : m ≤ n) : written rs m <+: written rs n := by
  unfold written
  have : rs.take m <+: rs.take n := List.take_prefix_take_left h
  obtain ⟨t, e⟩ := this
  rw [← e, List.flatMap_append]
  exact List.prefix_append _ _

theorem Spec.TakingTurns.init {rs : List (Reply cfg comp revision)} {es : List LinkEvent} {e : LinkEvent} (h : TakingTurns rs (es ++ [e])) :
    TakingTurns rs es := by
  refine ⟨?_, ?_⟩
  · intro es1 x es2 w e1 hw
    exact h.1 es1 x (es2 ++ [e]) w (by rw [e1]; simp) hw
  · intro es1 x es2 w e1 hw
    exact h.2 es1 x (es2 ++ [e]) w (by rw [e1]; simp) hw

/-- When callers take turns, at most one query is unanswered, and the server has written no more than answers. -/
theorem turns_state {rs : List (Reply cfg comp revision)} : ∀ (es : List LinkEvent) {w : Link}, Link.init.run cfg comp revision es = some w → TakingTurns rs es →
    (submittedOf w.conn.log).length ≤ (view w.conn.log).done.length + 1 ∧ blocksSubmitted w.conn.log = [] ∧
    arrived es <+: written rs (sentOf w.conn.log).length := by
  refine snocInd (P := fun es => ∀ {w}, Link.init.run cfg comp revision es = some w → TakingTurns rs es →
    (submittedOf w.conn.log).length ≤ (view w.conn.log).done.length + 1 ∧ blocksSubmitted w.conn.log = [] ∧
    arrived es <+: written rs (sentOf w.conn.log).length) ?_ ?_
  · intro w h _
    cases h
    exact ⟨Nat.zero_le _, rfl, List.nil_prefix⟩
  · intro es e ih w h ht
    obtain ⟨w1, h1, h2⟩ := wire_run_snoc h
    obtain ⟨g1, g2, g3⟩ := ih h1 ht.init
    have hsent : ∀ l, sentOf (w1.conn.log ++ l) = sentOf w1.conn.log ++ sentOf l := by intro l; simp [sentOf]
    rcases wire_conn h2 with ⟨e1, _⟩ | ⟨x, hx, hx1, hx2⟩
    · refine ⟨by rw [e1]; exact g1, by rw [e1]; exact g2, ?_⟩
      cases e with
      | arrive bs =>
        rw [e1, arrived_append]
        simpa [arrived] using ht.2 es bs [] w1 rfl h1
      | _ =>
        rw [e1, arrived_append]
        simpa [arrived] using g3
    · obtain ⟨l, e1, e2⟩ := step_asked hx
      refine ⟨?_, ?_, ?_⟩
      · have hdl := (done_mono w1.conn.log l).length_le
        have hsl : submittedOf w.conn.log = submittedOf w1.conn.log ++ submittedOf x.asked := by
          rw [e1, ← e2, ← submittedOf_asks]; simp [submittedOf]
        rw [hsl, e1]
        cases x with
        | submit t tx =>
          have := (ht.1 es _ [] w1 (by rw [hx1 (by simp [Event.asked])]) h1).1 t tx rfl
          rw [List.length_append, ← this]
          simp only [submittedOf, Event.asked, List.filterMap_cons, List.filterMap_nil, List.length_cons, List.length_nil]
          omega
        | _ =>
          simp only [submittedOf, Event.asked, List.filterMap_cons, List.filterMap_nil, List.append_nil] at g1 ⊢
          omega
      · have hsl : blocksSubmitted w.conn.log = blocksSubmitted w1.conn.log ++ blocksSubmitted x.asked := by
          rw [e1, ← e2, ← blocksSubmitted_asks]; simp [blocksSubmitted]
        rw [hsl, g2]
        cases x with
        | submitData d o b =>
          exact absurd rfl ((ht.1 es _ [] w1 (by rw [hx1 (by simp [Event.asked])]) h1).2 d o b)
        | _ => rfl
      · have hmono : written rs (sentOf w1.conn.log).length <+: written rs (sentOf w.conn.log).length := by
          rw [e1, hsent]
          exact written_mono rs (by simp)
        cases e with
        | arrive bs =>
          cases h2
          have := ht.2 es bs [] w1 rfl h1
          rw [arrived_append]
          simpa [arrived] using this
        | _ =>
          rw [arrived_append]
          simpa [arrived] using g3.trans hmono

theorem turns_calm {rs : List (Reply cfg comp revision)} : ∀ (es : List LinkEvent), (∃ w, Link.init.run cfg comp revision es = some w) → TakingTurns rs es →
    Uncut cfg comp revision Link.init es := by
  refine snocInd (P := fun es => (∃ w, Link.init.run cfg comp revision es = some w) → TakingTurns rs es → Uncut cfg comp revision Link.init es) ?_ ?_
  · intro _ _ es1 k es2 w' e
    cases es1 <;> cases e
  · rintro es e ih ⟨w, h⟩ ht
    obtain ⟨w1, h1, h2⟩ := wire_run_snoc h
    have hcalm := ih ⟨w1, h1⟩ ht.init
    intro es1 k es2 w' e1 hw
    rcases (List.eq_nil_or_concat es2) with rfl | ⟨es2', x, rfl⟩
    · obtain ⟨rfl, e2⟩ := List.append_inj' e1 rfl
      cases e2
      rw [h1] at hw
      cases hw
      obtain ⟨g1, g2, g3⟩ := turns_state es h1 ht.init
      have hreach := wire_reach es h1
      -- a request is there
      obtain ⟨c, hc, _⟩ := Option.map_eq_some_iff.mp h2
      simp only [Conn.step] at hc
      split at hc
      · rename_i r rest hi hq
        have hd : .died ∉ w1.conn.log := by
          intro hm
          rw [(Props.died_dead hreach hm).1] at hi
          cases hi
        obtain ⟨hlv, _⟩ := Props.alive_live hreach hd
        have hlen : (sentOf w1.conn.log).length + 1 ≤ (submittedOf w1.conn.log).length := by
          rw [← hlv.all, hq]
          cases r with
          | query t x => simp; omega
          | data d o b =>
            rcases hreach.inv2 with h | h
            · have := h.blocks
              rw [g2, hq] at this
              simp [qBlocks] at this
            · rw [h.dead] at hi; cases hi
        have hpl := placed w1.conn.log hlv.rule hlv.nodup (clean_alive hreach hd)
        have hge : (sentOf w1.conn.log).length ≤ endsIn w1.feed.out := by
          rw [← (wire_ok es h1).got, hpl.count]; omega
        have hdec := wire_decodes es h1 hcalm
        obtain ⟨t, et⟩ := g3
        have hall : Decodes cfg comp revision (arrived es ++ t) ((rs.take (sentOf w1.conn.log).length).flatMap Reply.packets) [] := by
          rw [et]; exact written_decodes _
        have hle : (rs.take (sentOf w1.conn.log).length).length ≤ endsIn w1.feed.out := by
          rw [List.length_take]; omega
        have hend : w1.feed.taken ++ w1.feed.avail = [] := by
          rcases (hdec.extend t).compare hall with ⟨m, e, hm⟩ | ⟨m, e, hm⟩
          · have := written_whole _ e hle
            subst this
            generalize hR : w1.feed.taken ++ w1.feed.avail ++ t = R at hm
            cases hm
            exact (List.append_eq_nil_iff.mp hR).1
          · obtain ⟨_, e2⟩ := decodes_nil hm
            exact (List.append_eq_nil_iff.mp e2).1
        exact (List.append_eq_nil_iff.mp hend).1
      · cases hc
    · refine hcalm es1 k es2' w' ?_ hw
      have : es ++ [e] = (es1 ++ .request k :: es2') ++ [x] := by rw [e1]; simp
      exact (List.append_inj' this rfl).1

namespace Props

/-- **C80** (positions). The items that belong to the n-th query sent are the items of the n-th response among the packets received. -/
theorem C80_position {s : Conn} (h : Reachable s) {n : Nat} {t : Ticket} (ht : (sentOf s.log)[n]? = some t) :
    itemsOf t s.log = itemsIn (response n (gotOf s.log)) := by
  have hw := weak h
  by_cases hc : NoIllegal s.log
  · exact (placed s.log hw.rule hw.nodup hc).items n t ht
  · -- exactly one packet is illegal; it comes last and is nobody's
    have : ∃ l1 p l2, s.log = l1 ++ .got p :: l2 ∧ Illegal l1 p := by
      refine Classical.byContradiction fun hn => hc fun l1 p l2 e hp => hn ⟨l1, p, l2, e, hp⟩
    obtain ⟨l1, p, l2, e, hp⟩ := this
    have hh := deadly h l1 p l2 e hp
    cases l2 with
    | nil => cases hh
    | cons o l2 =>
      cases hh
      have after : ∀ o ∈ l2, (∀ q, o ≠ .got q) ∧ ∀ t x, o ≠ .sentQuery t x := by
        intro o ho
        obtain ⟨m1, m2, rfl⟩ := List.append_of_mem ho
        have hr := hw.rule (l1 ++ .got p :: .died :: m1) o m2 (by rw [e]; simp)
        constructor
        · rintro q rfl
          exact absurd rfl (hr .died (by simp))
        · rintro t x rfl
          exact absurd rfl (hr.2.2 .died (by simp))
      have hg2 : gotOf l2 = [] := by
        unfold gotOf
        rw [List.filterMap_eq_nil_iff]
        intro o ho
        have := (after o ho).1
        cases o <;> first | rfl | exact absurd rfl (this _)
      have hs2 : sentOf l2 = [] := by
        unfold sentOf
        rw [List.filterMap_eq_nil_iff]
        intro o ho
        have := (after o ho).2
        cases o <;> first | rfl | exact absurd rfl (this _ _)
      have hv2 : ∀ (l : List Obs) (v : View), (∀ o ∈ l, (∀ q, o ≠ .got q) ∧ ∀ t x, o ≠ .sentQuery t x) → l.foldl View.next v = v := by
        intro l
        induction l with
        | nil => intro v _; rfl
        | cons o l ih =>
          intro v ho
          rw [List.foldl_cons]
          have h1 := ho o (List.mem_cons_self ..)
          have : v.next o = v := by
            cases o <;> first | rfl | exact absurd rfl (h1.1 _) | exact absurd rfl (h1.2 _ _)
          rw [this]
          exact ih v fun o ho' => ho o (List.mem_cons_of_mem _ ho')
      have hvp : (view l1).next (.got p) = view l1 := by
        cases p with
        | hello _ => rfl
        | data _ _ => have hp : (view l1).cur = none := hp; simp only [View.next, hp]
        | exception _ => have hp : (view l1).cur = none := hp; simp only [View.next, hp]
        | endOfStream => have hp : (view l1).cur = none := hp; simp only [View.next, hp]
        | _ => exact absurd hp (by simp [Illegal])
      have hv : view s.log = view l1 := by
        rw [e]
        unfold view
        rw [List.foldl_append, List.foldl_cons, List.foldl_cons]
        have : View.next ((List.foldl View.next ⟨none, [], [], []⟩ l1).next (.got p)) .died = view l1 := hvp
        rw [this]
        exact hv2 l2 _ after
      have hgot : gotOf s.log = gotOf l1 ++ [p] := by
        rw [e, got_mem]
        show gotOf l1 ++ p :: gotOf l2 = _
        rw [hg2]
      have hsent : sentOf s.log = sentOf l1 := by
        rw [e]
        unfold sentOf at hs2 ⊢
        rw [List.filterMap_append, List.filterMap_cons, List.filterMap_cons, hs2]
        simp
      have hpl : Placed l1 := by
        refine placed l1 (fun m1 o m2 e' => hw.rule m1 o (m2 ++ .got p :: .died :: l2) (by rw [e, e']; simp)) ?_ ?_
        · have := hw.nodup
          rw [e] at this
          unfold submittedOf at this ⊢
          rw [List.filterMap_append] at this
          exact (List.nodup_append.mp this).1
        · intro m1 q m2 e' hq
          have h1 := deadly h m1 q (m2 ++ .got p :: .died :: l2) (by rw [e, e']; simp) hq
          cases m2 with
          | nil => cases h1
          | cons o m2 =>
            cases h1
            have := hw.rule l1 (.got p) (.died :: l2) e .died (by rw [e']; simp)
            exact this rfl
      rw [hsent] at ht
      rw [itemsOf_eq, hv, ← itemsOf_eq, hpl.items n t ht, hgot, response_snoc, itemsIn_append, hpl.count]
      split
      · rename_i hn
        have hlt := (List.getElem?_eq_some_iff.mp ht).1
        have hlen : (view l1).done.length + (view l1).cur.toList.length = (sentOf l1).length := by
          rw [← hpl.done, List.length_append]
        cases p with
        | hello _ => exact (List.append_nil _).symm
        | data _ _ => have hp : (view l1).cur = none := hp; rw [hp] at hlen; simp at hlen; omega
        | exception _ => have hp : (view l1).cur = none := hp; rw [hp] at hlen; simp at hlen; omega
        | endOfStream => exact (List.append_nil _).symm
        | _ => exact absurd hp (by simp [Illegal])
      · exact (List.append_nil _).symm

/-- **C80** (reads). As long as no request is taken in the middle of a packet, whatever the events, the n-th caller has read a beginning
of the n-th response in what the server wrote. -/
theorem C80_reads_partial {es : List LinkEvent} {w : Link} (hr : Link.init.run cfg comp revision es = some w) (hc : Uncut cfg comp revision Link.init es)
    {B : Bytes} {ps : List ServerPacket} (hB : Decodes cfg comp revision B ps []) (ha : arrived es <+: B) {n : Nat} {t : Ticket}
    (ht : (submittedOf w.conn.log)[n]? = some t) : readsOf t w.conn.log <+: itemsIn (response n ps) := by
  have h := wire_reach es hr
  have hw := weak h
  refine (C30_reads h t).trans ?_
  by_cases hn : n < (sentOf w.conn.log).length
  · have hs : (sentOf w.conn.log)[n]? = some t := by
      obtain ⟨m, e⟩ := hw.order
      rw [← e, List.getElem?_append_left hn] at ht
      exact ht
    rw [C80_position h hs, (wire_ok es hr).got]
    obtain ⟨m, e⟩ := response_prefix (wire_prefix hr hc hB ha) n
    rw [← e, itemsIn_append]
    exact List.prefix_append _ _
  · have : t ∉ sentOf w.conn.log := by
      intro hm
      obtain ⟨i, hi, e⟩ := List.getElem_of_mem hm
      obtain ⟨m, e'⟩ := hw.order
      have h1 : (submittedOf w.conn.log)[i]? = some t := by rw [← e', List.getElem?_append_left hi, List.getElem?_eq_getElem hi, e]
      have hd := hw.nodup
      have hi' := (List.getElem?_eq_some_iff.mp h1).1
      have hn' := (List.getElem?_eq_some_iff.mp ht).1
      have := (List.getElem?_inj hi' hd).mp (h1.trans ht.symm)
      omega
    rw [itemsOf_unsent this]
    exact List.nil_prefix

/-- **C80** (whole). And when its stream ends while the connection lives, it has read all of it. -/
theorem C80_whole_partial {es : List LinkEvent} {w : Link} (hr : Link.init.run cfg comp revision es = some w) (hc : Uncut cfg comp revision Link.init es)
    {B : Bytes} {ps : List ServerPacket} (hB : Decodes cfg comp revision B ps []) (ha : arrived es <+: B) {n : Nat} {t : Ticket}
    (ht : (submittedOf w.conn.log)[n]? = some t) (hl : w.conn.listening t = true) (he : w.conn.slots t = some (.streaming [] false))
    (hd : .died ∉ w.conn.log) : readsOf t w.conn.log = itemsIn (response n ps) := by
  have h := wire_reach es hr
  have hw := weak h
  obtain ⟨h1, h2⟩ := C30_end_of_stream h hl he
  have hdone := h2.resolve_right hd
  have hpl := placed w.conn.log hw.rule hw.nodup (clean_alive h hd)
  obtain ⟨i, hi, e⟩ := List.getElem_of_mem hdone
  have hsi : (sentOf w.conn.log)[i]? = some t := by
    rw [← hpl.done, List.getElem?_append_left hi, List.getElem?_eq_getElem hi, e]
  have hin : i = n := by
    obtain ⟨m, e'⟩ := hw.order
    have h1 : (submittedOf w.conn.log)[i]? = some t := by
      rw [← e', List.getElem?_append_left (List.getElem?_eq_some_iff.mp hsi).1]; exact hsi
    exact (List.getElem?_inj (List.getElem?_eq_some_iff.mp h1).1 hw.nodup).mp (h1.trans ht.symm)
  subst hin
  rw [h1, C80_position h hsi]
  obtain ⟨m, e'⟩ := wire_prefix hr hc hB ha
  rw [← e', ← (wire_ok es hr).got, response_done (by rw [hpl.count]; exact hi)]

/-- **C80** (in turn). When callers take turns and the server answers what it is sent, nothing is lost, however the bytes are cut and
whenever the task runs: each caller reads a beginning of the answer to its own query, and at the end of its stream all of it. -/
theorem C80_in_turn {rs : List (Reply cfg comp revision)} {es : List LinkEvent} {w : Link} (hr : Link.init.run cfg comp revision es = some w)
    (ht : TakingTurns rs es) {n : Nat} {t : Ticket} (hn : (submittedOf w.conn.log)[n]? = some t) {r : Reply cfg comp revision} (hrn : rs[n]? = some r) :
    readsOf t w.conn.log <+: itemsIn r.packets ∧
    (w.conn.listening t = true → w.conn.slots t = some (.streaming [] false) → .died ∉ w.conn.log →
      readsOf t w.conn.log = itemsIn r.packets) := by
  have hc := turns_calm es ⟨w, hr⟩ ht
  have ha := (turns_state es hr ht).2.2
  have hB := written_decodes (cfg := cfg) (comp := comp) (revision := revision) rs
  have hw : written rs (sentOf w.conn.log).length <+: rs.flatMap Reply.bytes := by
    unfold written
    obtain ⟨x, e⟩ := List.take_prefix (sentOf w.conn.log).length rs
    conv => rhs; rw [← e]
    rw [List.flatMap_append]
    exact List.prefix_append _ _
  have key : response n (rs.flatMap Reply.packets) = r.packets := by
    clear hc ha hB hw hn ht hr
    induction rs generalizing n with
    | nil => cases hrn
    | cons r' rs ih =>
      have hend : response 0 r'.packets = r'.packets := by
        obtain ⟨body, last, e, h1, h2⟩ := r'.ok
        rw [e]
        clear e
        induction body with
        | nil => simp [response, h1]
        | cons q body ih =>
          have hq := (h2 q (List.mem_cons_self ..)).1
          simp only [List.cons_append, response, hq]
          rw [if_neg (by simp), ih fun p hp => h2 p (List.mem_cons_of_mem _ hp)]
      cases n with
      | zero =>
        cases hrn
        show response 0 (r.packets ++ _) = _
        rw [response_done (by rw [response_ends r.ok]; omega), hend]
      | succ n =>
        have hskip : ∀ qs, response (n + 1) (r'.packets ++ qs) = response n qs := by
          intro qs
          obtain ⟨body, last, e, h1, h2⟩ := r'.ok
          rw [e]
          clear e
          induction body with
          | nil => simp [response, h1]
          | cons q body ih =>
            have hq := (h2 q (List.mem_cons_self ..)).1
            simp only [List.cons_append, response, hq]
            rw [if_neg (by simp), ih fun p hp => h2 p (List.mem_cons_of_mem _ hp)]
        show response (n + 1) (r'.packets ++ _) = _
        rw [hskip]
        exact ih hrn
  refine ⟨?_, ?_⟩
  · rw [← key]; exact C80_reads_partial hr hc hB (ha.trans hw) hn
  · intro hl he hd
    rw [← key]; exact C80_whole_partial hr hc hB (ha.trans hw) hn hl he hd

/-- A block of one row. -/
def wireBlock : Block := ⟨BlockInfo.default, 1, [(ch! "a", .uint8)], [(ch! "a", [.uint8 7])]⟩

/-- An answer in three packets: progress, a block, the end. -/
def wirePackets : List ServerPacket := [.progress ⟨5, 5, 5, none, none⟩, .data [] wireBlock, .endOfStream]

/-- Its bytes. -/
def wireAnswer : Bytes := [3, 5, 5, 5] ++ [1, 0, 1, 1, 1, 97, 5, 85, 73, 110, 116, 56, 7] ++ [5]

theorem wireDecodes : Decodes cfgDebug none 0 wireAnswer wirePackets [] :=
  .cons (mid := [1, 0, 1, 1, 1, 97, 5, 85, 73, 110, 116, 56, 7, 5]) rfl (.cons (mid := [5]) rfl (.cons (mid := []) rfl (.nil _)))

/-- The answer as a reply. -/
def wireReply : Reply cfgDebug none 0 where
  packets := wirePackets
  bytes := wireAnswer
  ok := ⟨wirePackets.take 2, .endOfStream, rfl, rfl, by
    intro p hp
    simp only [wirePackets, List.take, List.mem_cons, List.not_mem_nil, or_false] at hp
    rcases hp with rfl | rfl <;> exact ⟨rfl, by intro h e; cases e⟩⟩
  decodes := wireDecodes

/-- The second query is submitted while the first is answered, and its request taken when one byte of the answer has been read. -/
def exLoss : List LinkEvent :=
  [.caller (.submit 0 []), .request 2, .arrive [3], .poll 2, .caller (.submit 1 []), .request 2, .arrive [5], .poll 2]

/-- **C80** as stated is false: the answer written to the first query holds a block; its stream ends, on a live connection, without one. -/
theorem C80_false : ∃ es w B ps t, Link.init.run cfgDebug none 0 es = some w ∧ Decodes cfgDebug none 0 B ps [] ∧ arrived es <+: B ∧
    (submittedOf w.conn.log)[0]? = some t ∧ w.conn.listening t = true ∧ w.conn.slots t = some (.streaming [] false) ∧ .died ∉ w.conn.log ∧
    readsOf t w.conn.log = [] ∧ itemsIn (response 0 ps) = [.block wireBlock] := by
  obtain ⟨w, h1, h2, h3, h4⟩ : ∃ w, Link.init.run cfgDebug none 0 exLoss = some w ∧ w.conn.listening 0 = true ∧
      w.conn.slots 0 = some (.streaming [] false) ∧ w.conn.log = [.submitted 0 [], .sentQuery 0 [], .sentEmpty 0, .submitted 1 [],
        .got .endOfStream, .sentQuery 1 [], .sentEmpty 1] := ⟨_, rfl, rfl, rfl, rfl⟩
  refine ⟨exLoss, w, wireAnswer, wirePackets, 0, h1, wireDecodes, ⟨wireAnswer.drop 2, rfl⟩, ?_, h2, h3, ?_, ?_, rfl⟩
  · rw [h4]; rfl
  · rw [h4]; simp
  · rw [h4]; rfl

/-- Two queries, one after the other, the bytes of the first answer cut at odd places, the second answer not yet complete. -/
def exTurns : List LinkEvent :=
  [.caller (.submit 0 []), .request 2, .arrive [3, 5, 5, 5, 1, 0], .poll 2, .poll 2, .arrive [1, 1, 1, 97, 5, 85, 73, 110, 116, 56, 7, 5], .poll 2,
   .caller (.deliver 2), .caller (.recv 0), .poll 2, .caller (.submit 1 []), .request 2, .arrive [3, 5]]

/-- `TakingTurns`, step by step. -/
def TurnsFrom (rs : List (Reply cfg comp revision)) : Link → Bytes → List LinkEvent → Prop
  | _, _, [] => True
  | w, a, e :: es =>
    (match e with
      | .caller (.submit _ _) => (view w.conn.log).done = submittedOf w.conn.log
      | .caller (.submitData _ _ _) => False
      | .arrive bs => (a ++ bs) <+: written rs (sentOf w.conn.log).length
      | _ => True) ∧
    ∃ w', w.step cfg comp revision e = some w' ∧ TurnsFrom rs w' (a ++ arrived [e]) es

theorem TurnsFrom.split {rs : List (Reply cfg comp revision)} : ∀ (es1 : List LinkEvent) {w0 : Link} {a : Bytes} {e : LinkEvent} {es2 : List LinkEvent} {w : Link},
    TurnsFrom rs w0 a (es1 ++ e :: es2) → w0.run cfg comp revision es1 = some w → TurnsFrom rs w (a ++ arrived es1) (e :: es2) := by
  intro es1
  induction es1 with
  | nil => intro w0 a e es2 w h hr; cases hr; simpa [arrived] using h
  | cons x es1 ih =>
    intro w0 a e es2 w h hr
    obtain ⟨_, w', h1, h2⟩ := h
    simp only [Link.run, h1, Option.bind_some] at hr
    have := ih h2 hr
    rwa [List.append_assoc, ← arrived_append, List.singleton_append] at this

theorem TurnsFrom.takingTurns {rs : List (Reply cfg comp revision)} {es : List LinkEvent} (h : TurnsFrom rs Link.init [] es) : TakingTurns rs es := by
  refine ⟨?_, ?_⟩
  · intro es1 e es2 w he hr
    rw [he] at h
    have := (h.split es1 hr).1
    refine ⟨?_, ?_⟩
    · rintro t x rfl; exact this
    · rintro d o b rfl; exact this
  · intro es1 bs es2 w he hr
    rw [he] at h
    simpa using (h.split es1 hr).1

/-- They take turns. -/
theorem exTurns_taking : TakingTurns [wireReply, wireReply] exTurns :=
  TurnsFrom.takingTurns ⟨rfl, _, rfl, trivial, _, rfl, ⟨_, rfl⟩, _, rfl, trivial, _, rfl, trivial, _, rfl, ⟨_, rfl⟩, _, rfl, trivial, _, rfl,
    trivial, _, rfl, trivial, _, rfl, trivial, _, rfl, rfl, _, rfl, trivial, _, rfl, ⟨_, rfl⟩, _, rfl, trivial⟩

example : ∃ w, Link.init.run cfgDebug none 0 exTurns = some w ∧ (submittedOf w.conn.log)[0]? = some 0 ∧ w.conn.listening 0 = true ∧
    w.conn.slots 0 = some (.streaming [] false) ∧ readsOf 0 w.conn.log = [.block wireBlock] ∧ itemsIn wireReply.packets = [.block wireBlock] :=
  ⟨_, rfl, rfl, rfl, rfl, rfl, rfl⟩

/-- Hence no request is taken in the middle of a packet. -/
example : Uncut cfgDebug none 0 Link.init exTurns :=
  turns_calm exTurns ⟨_, rfl⟩ exTurns_taking

end Props
end Klick
