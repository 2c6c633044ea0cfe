import Verif.Spec.Outcome
import Verif.Outcome
import Verif.Props.Session
import Verif.Props.Query
/-
C102: what the success, or the failure, of a call means.
-/
namespace Klick
open Spec

namespace Props

/-- A call whose request failed: the connection has ended. -/
theorem failed_closed {s : Conn} (h : Reachable s) {t : Ticket} (hf : s.slots t = some .failed) : s.isClosed = true := by
  rw [C70_closed h]
  refine Classical.byContradiction fun hd => ?_
  obtain ⟨hl, _⟩ := alive_live h hd
  have hk : t ∈ submittedOf s.log := (hl.known t).mpr (by rw [hf]; simp)
  rw [← hl.all, List.append_nil] at hk
  rcases List.mem_append.mp hk with hk | hk
  · rcases List.mem_append.mp hk with hk | hk
    · obtain ⟨b, o, e⟩ := (hl.stream t).mp hk
      rw [hf] at e; cases e
    · have := hl.waits t (.inr (.inl hk))
      rw [hf] at this; cases this
  · have := hl.waits t (.inr (.inr hk))
    rw [hf] at this; cases this

theorem dead_closed {s : Conn} (h : s.phase = .dead) : s.isClosed = true := by unfold Conn.isClosed; rw [h]

theorem open_alive {s : Conn} (h : s.isClosed = false) : s.phase ≠ .dead := by
  intro e; rw [dead_closed e] at h; cases h

/-- The rows of a block, or a panic in their place. -/
theorem blockStream_cases {T : Type} (de : TRow → Res T) {b : Block} (h : Rectangular b ∧ Typed b ∧ b.rows ≤ 2 ^ 57) :
    blockStream de b = [.panic] ∨ blockStream de b = (rowsIn b).map de := by
  obtain ⟨h1, h2, h3⟩ := h
  by_cases hp : ∀ row ∈ rowsIn b, de row ≠ .panic
  · exact .inr (blockStream_eq de h1 h2 h3 hp)
  · left
    have hb := blockStream_eq (fun r => Res.ok r) h1 h2 h3 (by intro r _ hx; cases hx)
    unfold blockStream at hb ⊢
    split
    · rename_i rows hrows
      rw [hrows] at hb
      dsimp only at hb ⊢
      rw [if_neg (by
        intro ha
        obtain ⟨x, hx, hx2⟩ := List.any_eq_true.mp ha
        obtain ⟨r, _, rfl⟩ := List.mem_map.mp hx
        cases hx2)] at hb
      have hrw : rows.filter (fun r => !r.isEmpty) = rowsIn b := by
        have := congrArg (List.map fun x => match x with | Res.ok r => r | _ => []) hb
        simpa [List.map_map, Function.comp_def] using this
      rw [hrw, if_pos]
      refine Classical.byContradiction fun hna => hp fun row hr hpan => hna ?_
      exact List.any_eq_true.mpr ⟨_, List.mem_map.mpr ⟨row, hr, rfl⟩, by rw [hpan]; rfl⟩
    · rfl

theorem good_tail {i : Item} {items : List Item} (h : GoodItems (i :: items)) : GoodItems items := fun j hj => h j (List.mem_cons_of_mem _ hj)

/-- An error among the results of a response is an exception of the server's or a row that could not be read. -/
theorem stream_error {T : Type} (de : TRow → Res T) {e : Err} : ∀ {items : List Item}, GoodItems items → .err e ∈ queryStream de items →
    .error e ∈ items ∨ ∃ b row, .block b ∈ items ∧ row ∈ rowsIn b ∧ de row = .err e
  | [], _, h => by cases h
  | .error x :: items, hg, h => by
    simp only [queryStream] at h
    rcases List.mem_cons.mp h with h | h
    · cases h; exact .inl (List.mem_cons_self ..)
    · rcases stream_error de (good_tail hg) h with h | ⟨b, row, h1, h2⟩
      · exact .inl (List.mem_cons_of_mem _ h)
      · exact .inr ⟨b, row, List.mem_cons_of_mem _ h1, h2⟩
  | .block b :: items, hg, h => by
    simp only [queryStream] at h
    rcases List.mem_append.mp h with h | h
    · rcases blockStream_cases de (hg _ (List.mem_cons_self ..) b rfl) with hb | hb
      · rw [hb] at h; cases List.mem_singleton.mp h
      · rw [hb] at h
        obtain ⟨row, hr, he⟩ := List.mem_map.mp h
        exact .inr ⟨b, row, List.mem_cons_self .., hr, he⟩
    · rcases stream_error de (good_tail hg) h with h | ⟨b', row, h1, h2⟩
      · exact .inl (List.mem_cons_of_mem _ h)
      · exact .inr ⟨b', row, List.mem_cons_of_mem _ h1, h2⟩

/-- A response whose results are all rows consists of blocks, and the results are their rows. -/
theorem stream_ok {T : Type} (de : TRow → Res T) : ∀ {items : List Item} {ys : List T}, GoodItems items → queryStream de items = ys.map .ok →
    ∃ bs : List Block, items = bs.map .block ∧ (bs.flatMap rowsIn).map de = ys.map .ok
  | [], ys, _, h => ⟨[], rfl, h⟩
  | .error x :: items, ys, _, h => by
    simp only [queryStream] at h
    cases ys with
    | nil => cases h
    | cons y ys => cases (List.cons.inj h).1
  | .block b :: items, ys, hg, h => by
    simp only [queryStream] at h
    obtain ⟨y1, y2, rfl, e1, e2⟩ := List.map_eq_append_iff.mp h.symm
    obtain ⟨bs, rfl, hbs⟩ := stream_ok de (good_tail hg) e2.symm
    refine ⟨b :: bs, rfl, ?_⟩
    rw [List.flatMap_cons, List.map_append, hbs, List.map_append]
    congr 1
    rcases blockStream_cases de (hg _ (List.mem_cons_self ..) b rfl) with hb | hb
    · rw [hb] at e1
      cases y1 with
      | nil => cases e1
      | cons y y1 => cases (List.cons.inj e1).1
    · rw [e1, hb]

/-- The first result of a response, if it is a row, is the first row of its blocks. -/
theorem stream_head {T : Type} (de : TRow → Res T) {x : T} : ∀ {items : List Item} {rest : List (Res T)}, GoodItems items →
    queryStream de items = .ok x :: rest →
    ∃ (bs : List Block) (more : List Item) (row : TRow), items = bs.map .block ++ more ∧ (bs.flatMap rowsIn).head? = some row ∧ de row = .ok x
  | [], _, _, h => by cases h
  | .error e :: items, _, _, h => by
    simp only [queryStream] at h
    cases (List.cons.inj h).1
  | .block b :: items, rest, hg, h => by
    simp only [queryStream] at h
    rcases blockStream_cases de (hg _ (List.mem_cons_self ..) b rfl) with hb | hb
    · rw [hb] at h; cases (List.cons.inj h).1
    · rw [hb] at h
      cases hr : rowsIn b with
      | nil =>
        rw [hr] at h
        obtain ⟨bs, more, row, rfl, h1, h2⟩ := stream_head de (good_tail hg) h
        exact ⟨b :: bs, more, row, rfl, by rw [List.flatMap_cons, hr]; exact h1, h2⟩
      | cons row rows =>
        rw [hr] at h
        exact ⟨[b], items, row, rfl, by rw [List.flatMap_cons, hr]; rfl, (List.cons.inj h).1⟩

theorem executeRows_err {T : Type} {e : Err} : ∀ {xs : List (Res T)}, executeRows xs = .err e → .err e ∈ xs
  | [], h => by cases h
  | .ok y :: xs, h => List.mem_cons_of_mem _ (executeRows_err (xs := xs) h)
  | .err x :: xs, h => by cases h; exact List.mem_cons_self ..
  | .panic :: xs, h => by cases h

theorem collectRows_err {T : Type} {e : Err} : ∀ {xs : List (Res T)}, collectRows xs = .err e → .err e ∈ xs
  | [], h => by cases h
  | .ok y :: xs, h => by
    refine List.mem_cons_of_mem _ (collectRows_err (xs := xs) ?_)
    cases hx : collectRows xs with
    | ok v => simp only [collectRows, hx] at h; cases h
    | err x => simp only [collectRows, hx] at h; cases h; rfl
    | panic => simp only [collectRows, hx] at h; cases h
  | .err x :: xs, h => by cases h; exact List.mem_cons_self ..
  | .panic :: xs, h => by cases h

theorem collectRows_ok {T : Type} : ∀ {xs : List (Res T)} {ys : List T}, collectRows xs = .ok ys → xs = ys.map .ok
  | [], ys, h => by cases h; rfl
  | .ok y :: xs, ys, h => by
    cases hx : collectRows xs with
    | ok v => simp only [collectRows, hx] at h; cases h; rw [collectRows_ok hx]; rfl
    | err x => simp only [collectRows, hx] at h; cases h
    | panic => simp only [collectRows, hx] at h; cases h
  | .err x :: xs, ys, h => by cases h
  | .panic :: xs, ys, h => by cases h

theorem unit_stream_error {e : Err} : ∀ {items : List Item}, .err e ∈ queryStream (fun _ => Res.ok ()) items → .error e ∈ items
  | [], h => by cases h
  | .error x :: items, h => by
    simp only [queryStream] at h
    rcases List.mem_cons.mp h with h | h
    · cases h; exact List.mem_cons_self ..
    · exact List.mem_cons_of_mem _ (unit_stream_error h)
  | .block b :: items, h => by
    simp only [queryStream] at h
    rcases List.mem_append.mp h with h | h
    · exfalso
      unfold blockStream at h
      split at h
      · dsimp only at h
        split at h
        · cases List.mem_singleton.mp h
        · obtain ⟨r, _, hr⟩ := List.mem_map.mp h
          cases hr
      · cases List.mem_singleton.mp h
    · exact List.mem_cons_of_mem _ (unit_stream_error h)

theorem reads_mem {s : Conn} (h : Reachable s) {t : Ticket} {i : Item} (hi : i ∈ readsOf t s.log) : i ∈ itemsOf t s.log := by
  obtain ⟨l, e⟩ := C30_reads h t
  rw [← e]; exact List.mem_append_left _ hi

theorem reads_good {s : Conn} (h : Reachable s) {t : Ticket} (hg : GoodItems (itemsOf t s.log)) : GoodItems (readsOf t s.log) :=
  fun i hi => hg i (reads_mem h hi)

/-- Query 1 is answered by two rows, the second of them with a null, an empty block and the end of the stream, all of it read. -/
def exAnswered : List Event := [.submit 1 ['A'], .handle 2, .packet 2 (.data [] exBlock), .deliver 2, .recv 1, .packet 2 (.data [] (exB 0)), .deliver 2,
  .recv 1, .packet 2 .endOfStream]
/-- Query 1 is answered by an empty block and an exception, all of it read. -/
def exRefused : List Event := [.submit 1 ['A'], .handle 2, .packet 2 (.data [] (exB 0)), .deliver 2, .recv 1, .packet 2 (.exception exX), .deliver 2, .recv 1]
/-- Query 1 is answered by an empty block and the end of the stream, all of it read. -/
def exNothing : List Event := [.submit 1 ['A'], .handle 2, .packet 2 (.data [] (exB 0)), .deliver 2, .recv 1, .packet 2 .endOfStream]

theorem exAnswered_good : GoodItems [.block exBlock, .block (exB 0)] := by
  intro i hi b hb
  simp only [List.mem_cons, List.not_mem_nil, or_false] at hi
  rcases hi with rfl | rfl
  · cases hb; exact ⟨exBlock_rect, exBlock_typed, by decide⟩
  · cases hb; exact ⟨by simp [Rectangular, exB], by simp [Typed, exB]⟩
theorem exNothing_good : GoodItems [.block (exB 0)] := fun i hi => exAnswered_good i (List.mem_cons_of_mem _ hi)

/-- C102: if `execute` returned `Ok` and the client is not closed at some later time, the server had answered the query to its end, and
without an exception. -/
theorem C102_execute {s s' : Conn} {es : List Event} (h : Reachable s) {t : Ticket} (hl : s.listening t = true)
    (ho : executeOutcome s t = some (.ok ())) (hr : s.run es = some s') (hop : s'.isClosed = false) :
    t ∈ (view s.log).done ∧ ∃ bs : List Block, itemsOf t s.log = bs.map .block := by
  have hb := executeOutcome_ok ho
  refine ⟨(C64_open_means_complete_partial h hl hb hr (open_alive hop)).1, ?_⟩
  obtain ⟨bs, tail, e, ht⟩ := C31_last h t
  rcases ht with rfl | ⟨_, x, rfl⟩
  · exact ⟨bs, by rw [e, List.append_nil]⟩
  · exact absurd (by rw [e]; simp) ((execute_ok_means h hl ho).2.1 x)

/-- C102_execute: query 1 was answered by a block and the end of the stream; another query is submitted later. -/
example : ∃ s s', Reachable s ∧ s.listening 1 = true ∧ executeOutcome s 1 = some (.ok ()) ∧ s.run [.submit 2 ['B']] = some s' ∧ s'.isClosed = false :=
  ⟨_, _, ⟨exAnswered, rfl⟩, rfl, rfl, rfl, rfl⟩

/-- C102: if `execute` returned an error, it is the exception the server answered this query with, or the connection has ended. -/
theorem C102_execute_error {s : Conn} (h : Reachable s) {t : Ticket} {e : Err} (ho : executeOutcome s t = some (.err e)) :
    .error e ∈ itemsOf t s.log ∨ e = .protocol ∧ s.isClosed = true := by
  unfold executeOutcome at ho
  split at ho
  · split at ho
    · rename_i hp; cases ho; exact .inr ⟨rfl, dead_closed hp⟩
    · cases ho
  · cases ho
  · rename_i hf; cases ho; exact .inr ⟨rfl, failed_closed h hf⟩
  · split at ho
    · cases ho
    · rename_i x hx
      cases ho
      exact .inl (reads_mem h (unit_stream_error (executeRows_err hx)))
    · split at ho <;> cases ho

/-- C102_execute_error: query 1 was answered by an exception. -/
example : ∃ s, Reachable s ∧ executeOutcome s 1 = some (.err exX.emit) :=
  ⟨_, ⟨exRefused, rfl⟩, rfl⟩

/-- C102: if `query_collect` returned rows and the client is not closed at some later time, these are the rows of the server's answer,
all of them, in order, each converted; the answer was complete and held no exception. -/
theorem C102_collect {T : Type} (de : TRow → Res T) {s s' : Conn} {es : List Event} (h : Reachable s) {t : Ticket} (hl : s.listening t = true)
    (hg : GoodItems (itemsOf t s.log)) {rows : List T} (ho : collectOutcome de s t = some (.ok rows)) (hr : s.run es = some s')
    (hop : s'.isClosed = false) :
    t ∈ (view s.log).done ∧ ∃ bs : List Block, itemsOf t s.log = bs.map .block ∧ (bs.flatMap rowsIn).map de = rows.map .ok := by
  unfold collectOutcome at ho
  split at ho
  · split at ho <;> cases ho
  · cases ho
  · cases ho
  · rename_i buf sender hs
    split at ho
    · cases ho
    · cases ho
    · rename_i ys hx
      split at ho
      · rename_i hc
        cases ho
        have hc' : buf = [] ∧ sender = false := by
          cases buf <;> cases sender <;> simp_all
        obtain ⟨rfl, rfl⟩ := hc'
        obtain ⟨h1, h2⟩ := C64_open_means_complete_partial h hl hs hr (open_alive hop)
        refine ⟨h1, ?_⟩
        rw [← h2]
        exact stream_ok de (reads_good h hg) (collectRows_ok hx)
      · cases ho

/-- C102_collect: the two rows of the answer. -/
example : ∃ s s' rows, Reachable s ∧ s.listening 1 = true ∧ GoodItems (itemsOf 1 s.log) ∧ collectOutcome (T := TRow) .ok s 1 = some (.ok rows) ∧
    rows.length = 2 ∧ s.run [.submit 2 ['B']] = some s' ∧ s'.isClosed = false :=
  ⟨_, _, _, ⟨exAnswered, rfl⟩, rfl, exAnswered_good, rfl, rfl, rfl, rfl⟩

/-- C102: if `query_collect` returned an error, it is the exception the server answered this query with, or what the conversion of one of
the rows the server sent for it gave, or the connection has ended. -/
theorem C102_collect_error {T : Type} (de : TRow → Res T) {s : Conn} (h : Reachable s) {t : Ticket} {e : Err}
    (hg : GoodItems (itemsOf t s.log)) (ho : collectOutcome de s t = some (.err e)) :
    .error e ∈ itemsOf t s.log ∨ (∃ b row, .block b ∈ itemsOf t s.log ∧ row ∈ rowsIn b ∧ de row = .err e) ∨
      e = .protocol ∧ s.isClosed = true := by
  unfold collectOutcome at ho
  split at ho
  · split at ho
    · rename_i hp; cases ho; exact .inr (.inr ⟨rfl, dead_closed hp⟩)
    · cases ho
  · cases ho
  · rename_i hf; cases ho; exact .inr (.inr ⟨rfl, failed_closed h hf⟩)
  · split at ho
    · cases ho
    · rename_i x hx
      cases ho
      rcases stream_error de (reads_good h hg) (collectRows_err hx) with hm | ⟨b, row, h1, h2⟩
      · exact .inl (reads_mem h hm)
      · exact .inr (.inl ⟨b, row, reads_mem h h1, h2⟩)
    · split at ho <;> cases ho

/-- C102_collect_error: a row type that does not take nulls; the first row of the answer has one. -/
example : ∃ s, Reachable s ∧ GoodItems (itemsOf 1 s.log) ∧
    collectOutcome (T := TRow) (fun row => match row with | [_, (_, _, .null)] => .err .missingRow | _ => .ok row) s 1 = some (.err .missingRow) :=
  ⟨_, ⟨exAnswered, rfl⟩, exAnswered_good, rfl⟩

theorem first_of_reads {T : Type} (de : TRow → Res T) {s : Conn} (h : Reachable s) {t : Ticket} (hg : GoodItems (itemsOf t s.log)) {x : T}
    {rest : List (Res T)} (hx : queryStream de (readsOf t s.log) = .ok x :: rest) : ∃ row, FirstRow (itemsOf t s.log) row ∧ de row = .ok x := by
  obtain ⟨bs, more, row, e, h1, h2⟩ := stream_head de (reads_good h hg) hx
  obtain ⟨l, e'⟩ := C30_reads h t
  exact ⟨row, ⟨bs, more ++ l, by rw [← e', e, List.append_assoc], h1⟩, h2⟩

theorem none_of_reads {T : Type} (de : TRow → Res T) {s s' : Conn} {es : List Event} (h : Reachable s) {t : Ticket} (hl : s.listening t = true)
    (hg : GoodItems (itemsOf t s.log)) (hr : s.run es = some s') (hop : s'.isClosed = false) {buf : List Item} {sender : Bool}
    (hs : s.slots t = some (.streaming buf sender)) (hc : (buf.isEmpty && !sender) = true)
    (hx : queryStream de (readsOf t s.log) = []) : NoRow s t := by
  have hc' : buf = [] ∧ sender = false := by
    cases buf <;> cases sender <;> simp_all
  obtain ⟨rfl, rfl⟩ := hc'
  obtain ⟨h1, h2⟩ := C64_open_means_complete_partial h hl hs hr (open_alive hop)
  obtain ⟨bs, e, he⟩ := stream_ok (ys := []) de (reads_good h hg) hx
  exact ⟨h1, bs, by rw [← h2, e], List.map_eq_nil_iff.mp he⟩

/-- C102: if `query_opt` returned `None` and the client is not closed at some later time, the server's answer was complete and held
neither an exception nor a row; if it returned a row, that is the first row the server sent for this query. -/
theorem C102_opt {T : Type} (de : TRow → Res T) {s s' : Conn} {es : List Event} (h : Reachable s) {t : Ticket} (hl : s.listening t = true)
    (hg : GoodItems (itemsOf t s.log)) (hr : s.run es = some s') (hop : s'.isClosed = false) :
    (queryOptOutcome de s t = some (.ok none) → NoRow s t) ∧
    (∀ x, queryOptOutcome de s t = some (.ok (some x)) → ∃ row, FirstRow (itemsOf t s.log) row ∧ de row = .ok x) := by
  refine ⟨fun ho => ?_, fun x ho => ?_⟩
  · unfold queryOptOutcome at ho
    split at ho
    · split at ho <;> cases ho
    · cases ho
    · cases ho
    · rename_i buf sender hs
      split at ho
      · rename_i hx
        split at ho
        · rename_i hc; exact none_of_reads de h hl hg hr hop hs hc hx
        · cases ho
      · rename_i y ys hx
        cases y <;> cases ho
  · unfold queryOptOutcome at ho
    split at ho
    · split at ho <;> cases ho
    · cases ho
    · cases ho
    · rename_i buf sender hs
      split at ho
      · split at ho <;> cases ho
      · rename_i y ys hx
        cases y <;> cases ho
        exact first_of_reads de h hg hx

/-- C102_opt: an answer with rows and one without. -/
example : ∃ s s' x, Reachable s ∧ s.listening 1 = true ∧ GoodItems (itemsOf 1 s.log) ∧ queryOptOutcome (T := TRow) .ok s 1 = some (.ok (some x)) ∧
    s.run [.submit 2 ['B']] = some s' ∧ s'.isClosed = false :=
  ⟨_, _, _, ⟨exAnswered, rfl⟩, rfl, exAnswered_good, rfl, rfl, rfl⟩
example : ∃ s s', Reachable s ∧ s.listening 1 = true ∧ GoodItems (itemsOf 1 s.log) ∧ queryOptOutcome (T := TRow) .ok s 1 = some (.ok none) ∧
    s.run [.submit 2 ['B']] = some s' ∧ s'.isClosed = false :=
  ⟨_, _, ⟨exNothing, rfl⟩, rfl, exNothing_good, rfl, rfl, rfl⟩

/-- C102: if `query_one` returned a row, that is the first row the server sent for this query; if it failed and the client is not closed
at some later time, then with the server's exception, or with what the conversion of a row gave, or because the server's answer was
complete without a row. -/
theorem C102_one {T : Type} (de : TRow → Res T) {s s' : Conn} {es : List Event} (h : Reachable s) {t : Ticket} (hl : s.listening t = true)
    (hg : GoodItems (itemsOf t s.log)) (hr : s.run es = some s') (hop : s'.isClosed = false) :
    (∀ x, queryOneOutcome de s t = some (.ok x) → ∃ row, FirstRow (itemsOf t s.log) row ∧ de row = .ok x) ∧
    (∀ e, queryOneOutcome de s t = some (.err e) →
      .error e ∈ itemsOf t s.log ∨ (∃ b row, .block b ∈ itemsOf t s.log ∧ row ∈ rowsIn b ∧ de row = .err e) ∨ e = .missingRow ∧ NoRow s t) := by
  have hlive : s.isClosed = false := by
    cases hc : s.isClosed with
    | false => rfl
    | true =>
      have hd := (C70_closed h).mp hc
      rw [dead_closed (dead_stays es (died_dead h hd).1 hr)] at hop
      cases hop
  refine ⟨fun x ho => ?_, fun e ho => ?_⟩
  · unfold queryOneOutcome at ho
    split at ho
    · split at ho <;> cases ho
    · cases ho
    · cases ho
    · split at ho
      · split at ho <;> cases ho
      · rename_i y ys hx
        cases ho
        exact first_of_reads de h hg hx
  · unfold queryOneOutcome at ho
    split at ho
    · split at ho
      · rename_i hp; rw [dead_closed hp] at hlive; cases hlive
      · cases ho
    · cases ho
    · rename_i hf; rw [failed_closed h hf] at hlive; cases hlive
    · rename_i buf sender hs
      split at ho
      · rename_i hx
        split at ho
        · rename_i hc
          cases ho
          exact .inr (.inr ⟨rfl, none_of_reads de h hl hg hr hop hs hc hx⟩)
        · cases ho
      · rename_i y ys hx
        cases ho
        have hm : .err e ∈ queryStream de (readsOf t s.log) := by
          rw [show queryStream de (readsOf t s.log) = .err e :: ys from hx]; exact List.mem_cons_self ..
        rcases stream_error de (reads_good h hg) hm with hm | ⟨b, row, h1, h2⟩
        · exact .inl (reads_mem h hm)
        · exact .inr (.inl ⟨b, row, reads_mem h h1, h2⟩)

/-- C102_one: an answer with rows and one without. -/
example : ∃ s s' x, Reachable s ∧ s.listening 1 = true ∧ GoodItems (itemsOf 1 s.log) ∧ queryOneOutcome (T := TRow) .ok s 1 = some (.ok x) ∧
    s.run [.submit 2 ['B']] = some s' ∧ s'.isClosed = false :=
  ⟨_, _, _, ⟨exAnswered, rfl⟩, rfl, exAnswered_good, rfl, rfl, rfl⟩
example : ∃ s s', Reachable s ∧ s.listening 1 = true ∧ GoodItems (itemsOf 1 s.log) ∧ queryOneOutcome (T := TRow) .ok s 1 = some (.err .missingRow) ∧
    s.run [.submit 2 ['B']] = some s' ∧ s'.isClosed = false :=
  ⟨_, _, ⟨exNothing, rfl⟩, rfl, exNothing_good, rfl, rfl, rfl⟩

/-- C102: if `execute_now` returned `Ok`, the query has been sent; if it failed, the connection has ended. -/
theorem C102_now {s : Conn} (h : Reachable s) {t : Ticket} :
    (executeNowOutcome s t = some (.ok ()) → t ∈ sentOf s.log) ∧
    (∀ e, executeNowOutcome s t = some (.err e) → e = .protocol ∧ s.isClosed = true) := by
  refine ⟨fun ho => ?_, fun e ho => ?_⟩
  · unfold executeNowOutcome at ho
    split at ho
    · split at ho <;> cases ho
    · cases ho
    · cases ho
    · rename_i hs; exact ((weak h).stream t).mpr ⟨_, _, hs⟩
  · unfold executeNowOutcome at ho
    split at ho
    · split at ho
      · rename_i hp; cases ho; exact ⟨rfl, dead_closed hp⟩
      · cases ho
    · cases ho
    · rename_i hf; cases ho; exact ⟨rfl, failed_closed h hf⟩
    · cases ho

/-- C102_now: a query that has been sent and not been answered; and one refused by a connection that has ended. -/
example : ∃ s, Reachable s ∧ executeNowOutcome s 1 = some (.ok ()) := ⟨_, ⟨[.submit 1 ['A'], .handle 2], rfl⟩, rfl⟩
example : ∃ s, Reachable s ∧ executeNowOutcome s 1 = some (.err .protocol) := ⟨_, ⟨[.fail], rfl⟩, rfl⟩

theorem stream_panic {T : Type} (de : TRow → Res T) : ∀ {items : List Item}, GoodItems items → .panic ∈ queryStream de items →
    ∃ b row, .block b ∈ items ∧ row ∈ rowsIn b ∧ de row = .panic
  | [], _, h => by cases h
  | .error x :: items, hg, h => by
    simp only [queryStream] at h
    rcases List.mem_cons.mp h with h | h
    · cases h
    · obtain ⟨b, row, h1, h2⟩ := stream_panic de (good_tail hg) h
      exact ⟨b, row, List.mem_cons_of_mem _ h1, h2⟩
  | .block b :: items, hg, h => by
    simp only [queryStream] at h
    by_cases hp : ∀ row ∈ rowsIn b, de row ≠ .panic
    · rcases List.mem_append.mp h with h | h
      · obtain ⟨h1, h2, h3⟩ := hg _ (List.mem_cons_self ..) b rfl
        rw [blockStream_eq de h1 h2 h3 hp] at h
        obtain ⟨row, hr, he⟩ := List.mem_map.mp h
        exact ⟨b, row, List.mem_cons_self .., hr, he⟩
      · obtain ⟨b', row, h1, h2⟩ := stream_panic de (good_tail hg) h
        exact ⟨b', row, List.mem_cons_of_mem _ h1, h2⟩
    · refine Classical.byContradiction fun hn => hp fun row hr he => hn ⟨b, row, List.mem_cons_self .., hr, he⟩

theorem collectRows_panic {T : Type} : ∀ {xs : List (Res T)}, collectRows xs = .panic → .panic ∈ xs
  | [], h => by cases h
  | .ok y :: xs, h => by
    refine List.mem_cons_of_mem _ (collectRows_panic (xs := xs) ?_)
    cases hx : collectRows xs with
    | ok v => simp only [collectRows, hx] at h; cases h
    | err x => simp only [collectRows, hx] at h; cases h
    | panic => rfl
  | .err x :: xs, h => by cases h
  | .panic :: xs, h => List.mem_cons_self ..

/-- C102: if `query_opt` returned an error, it is the exception the server answered this query with, or what the conversion of one of the
rows the server sent for it gave, or the connection has ended. -/
theorem C102_opt_error {T : Type} (de : TRow → Res T) {s : Conn} (h : Reachable s) {t : Ticket} {e : Err}
    (hg : GoodItems (itemsOf t s.log)) (ho : queryOptOutcome de s t = some (.err e)) :
    .error e ∈ itemsOf t s.log ∨ (∃ b row, .block b ∈ itemsOf t s.log ∧ row ∈ rowsIn b ∧ de row = .err e) ∨
      e = .protocol ∧ s.isClosed = true := by
  unfold queryOptOutcome at ho
  split at ho
  · split at ho
    · rename_i hp; cases ho; exact .inr (.inr ⟨rfl, dead_closed hp⟩)
    · cases ho
  · cases ho
  · rename_i hf; cases ho; exact .inr (.inr ⟨rfl, failed_closed h hf⟩)
  · split at ho
    · split at ho <;> cases ho
    · rename_i y ys hx
      have hm : y ∈ queryStream de (readsOf t s.log) := by
        rw [show queryStream de (readsOf t s.log) = y :: ys from hx]; exact List.mem_cons_self ..
      cases y with
      | ok v => cases ho
      | panic => cases ho
      | err x =>
        cases ho
        rcases stream_error de (reads_good h hg) hm with hm | ⟨b, row, h1, h2⟩
        · exact .inl (reads_mem h hm)
        · exact .inr (.inl ⟨b, row, reads_mem h h1, h2⟩)

/-- C102_opt_error: the row type that does not take nulls. -/
example : ∃ s, Reachable s ∧ GoodItems (itemsOf 1 s.log) ∧
    queryOptOutcome (T := TRow) (fun row => match row with | [_, (_, _, .null)] => .err .missingRow | _ => .ok row) s 1 = some (.err .missingRow) :=
  ⟨_, ⟨exAnswered, rfl⟩, exAnswered_good, rfl⟩

/-- C102: none of the calls panics, whatever the server does and whenever the connection breaks, unless the conversion of a row does. -/
theorem C102_no_panic {T : Type} (de : TRow → Res T) {s : Conn} (h : Reachable s) {t : Ticket} (hg : GoodItems (itemsOf t s.log))
    (hde : ∀ b row, .block b ∈ itemsOf t s.log → row ∈ rowsIn b → de row ≠ .panic) :
    collectOutcome de s t ≠ some .panic ∧ queryOptOutcome de s t ≠ some .panic ∧ queryOneOutcome de s t ≠ some .panic ∧
    executeNowOutcome s t ≠ some .panic := by
  have key : .panic ∉ queryStream de (readsOf t s.log) := by
    intro hm
    obtain ⟨b, row, h1, h2, h3⟩ := stream_panic de (reads_good h hg) hm
    exact hde b row (reads_mem h h1) h2 h3
  have head : ∀ ys, queryStream de (readsOf t s.log) ≠ .panic :: ys := by
    intro ys hx; rw [hx] at key; exact key (List.mem_cons_self ..)
  refine ⟨fun ho => ?_, fun ho => ?_, fun ho => ?_, fun ho => ?_⟩
  · unfold collectOutcome at ho
    split at ho
    · split at ho <;> cases ho
    · cases ho
    · cases ho
    · split at ho
      · rename_i hx; exact key (collectRows_panic hx)
      · cases ho
      · split at ho <;> cases ho
  · unfold queryOptOutcome at ho
    split at ho
    · split at ho <;> cases ho
    · cases ho
    · cases ho
    · split at ho
      · split at ho <;> cases ho
      · rename_i y ys hx
        cases y with
        | ok v => cases ho
        | err x => cases ho
        | panic => exact head ys hx
  · unfold queryOneOutcome at ho
    split at ho
    · split at ho <;> cases ho
    · cases ho
    · cases ho
    · split at ho
      · split at ho <;> cases ho
      · rename_i y ys hx
        cases ho
        exact head ys hx
  · unfold executeNowOutcome at ho
    split at ho
    · split at ho <;> cases ho
    all_goals cases ho

/-- C102_no_panic: the answer with two rows, converted to themselves. -/
example : ∃ s, Reachable s ∧ GoodItems (itemsOf 1 s.log) ∧ ∀ b row, Item.block b ∈ itemsOf 1 s.log → row ∈ rowsIn b → (Res.ok row : Res TRow) ≠ .panic :=
  ⟨_, ⟨exAnswered, rfl⟩, exAnswered_good, fun _ _ _ _ h => by cases h⟩

end Props
end Klick
