import Verif.TypeTextLemmas
/-
Rendering then parsing a type; when parsing can panic.
-/
namespace Klick
open Spec

/-- What is proved of the text of one type. -/
structure Rendered (cfg : Cfg) (t : Ty) : Prop where
  atom : Atom t.display
  ends : Ends t.display
  parse : Ty.parse cfg t.display = .ok t

/-- A type without parameters: everything is computation. -/
theorem Rendered.simple {cfg : Cfg} {t : Ty} (h1 : t.display.isEmpty = false)
    (h2 : t.display.all (fun c => c ≠ '(' && c ≠ ')' && c ≠ ',') = true)
    (h3 : t.display.all (fun c => !isWs c) = true)
    (h4 : Ty.parse cfg t.display = .ok t) : Rendered cfg t :=
  ⟨Atom.plain (plain_lit h2), lit_ends h1 h3, h4⟩

theorem Rendered.call {cfg : Cfg} {t : Ty} {c : Char} {ident : Str} {l : List Str}
    (hd : t.display = c :: ident ++ '(' :: joinComma l ++ [')'])
    (hid : ∀ r, eatIdent cfg (c :: ident ++ '(' :: r) = (c :: ident, '(' :: r))
    (hp : (c :: ident).all (fun c => c ≠ '(' && c ≠ ')' && c ≠ ',') = true)
    (hw : isWs c = false)
    (ha : ∀ s ∈ l, Atom s) (he : ∀ s ∈ l, Ends s)
    (h : withArgs cfg (Ty.parse cfg) (c :: ident) l = .ok t) : Rendered cfg t := by
  refine ⟨?_, ?_, ?_⟩
  · rw [hd]; exact call_atom (plain_lit hp) ha
  · rw [hd]; exact call_ends hw
  · rw [hd, parse_unfold, parseStep_call hid (by simp) ha he, h]

theorem Rendered.call1 {cfg : Cfg} {t : Ty} {c : Char} {ident : Str} {a : Str}
    (hd : t.display = c :: ident ++ '(' :: a ++ [')'])
    (hid : ∀ r, eatIdent cfg (c :: ident ++ '(' :: r) = (c :: ident, '(' :: r))
    (hp : (c :: ident).all (fun c => c ≠ '(' && c ≠ ')' && c ≠ ',') = true)
    (hw : isWs c = false) (ha : Atom a) (he : Ends a)
    (h : withArgs cfg (Ty.parse cfg) (c :: ident) [a] = .ok t) : Rendered cfg t :=
  Rendered.call (l := [a]) hd hid hp hw (by simpa using ha) (by simpa using he) h

theorem Rendered.call2 {cfg : Cfg} {t : Ty} {c : Char} {ident : Str} {a b : Str}
    (hd : t.display = c :: ident ++ '(' :: (a ++ ',' :: b) ++ [')'])
    (hid : ∀ r, eatIdent cfg (c :: ident ++ '(' :: r) = (c :: ident, '(' :: r))
    (hp : (c :: ident).all (fun c => c ≠ '(' && c ≠ ')' && c ≠ ',') = true)
    (hw : isWs c = false) (ha : Atom a) (he : Ends a) (hb : Atom b) (hbe : Ends b)
    (h : withArgs cfg (Ty.parse cfg) (c :: ident) [a, b] = .ok t) : Rendered cfg t :=
  Rendered.call (l := [a, b]) hd hid hp hw (by simpa using ⟨ha, hb⟩) (by simpa using ⟨he, hbe⟩) h

mutual
theorem rendered (cfg : Cfg) : ∀ t : Ty, TextOk cfg t → Rendered cfg t
  | .int8, _ => Rendered.simple rfl rfl rfl rfl
  | .int16, _ => Rendered.simple rfl rfl rfl rfl
  | .int32, _ => Rendered.simple rfl rfl rfl rfl
  | .int64, _ => Rendered.simple rfl rfl rfl rfl
  | .int128, _ => Rendered.simple rfl rfl rfl rfl
  | .int256, _ => Rendered.simple rfl rfl rfl rfl
  | .uint8, _ => Rendered.simple rfl rfl rfl rfl
  | .uint16, _ => Rendered.simple rfl rfl rfl rfl
  | .uint32, _ => Rendered.simple rfl rfl rfl rfl
  | .uint64, _ => Rendered.simple rfl rfl rfl rfl
  | .uint128, _ => Rendered.simple rfl rfl rfl rfl
  | .uint256, _ => Rendered.simple rfl rfl rfl rfl
  | .float32, _ => Rendered.simple rfl rfl rfl rfl
  | .float64, _ => Rendered.simple rfl rfl rfl rfl
  | .bfloat16, h => Rendered.simple rfl rfl rfl (by
      show (if cfg.bf16 = true then Res.ok Ty.bfloat16 else Res.err Err.typeParse) = _
      rw [if_pos (show cfg.bf16 = true from h)])
  | .string, _ => Rendered.simple rfl rfl rfl rfl
  | .uuid, _ => Rendered.simple rfl rfl rfl rfl
  | .date, _ => Rendered.simple rfl rfl rfl rfl
  | .ipv4, _ => Rendered.simple rfl rfl rfl rfl
  | .ipv6, _ => Rendered.simple rfl rfl rfl rfl
  | .point, _ => Rendered.simple rfl rfl rfl rfl
  | .ring, _ => Rendered.simple rfl rfl rfl rfl
  | .polygon, _ => Rendered.simple rfl rfl rfl rfl
  | .multiPolygon, _ => Rendered.simple rfl rfl rfl rfl
  | .decimal32 s, h => Rendered.call1 rfl (fun _ => rfl) rfl rfl (dec_atom s) (dec_ends s) (by
      show (parseNum (dec s) >>= fun s => Res.ok (Ty.decimal32 s)) = _
      rw [parseNum_dec h]; rfl)
  | .decimal64 s, h => Rendered.call1 rfl (fun _ => rfl) rfl rfl (dec_atom s) (dec_ends s) (by
      show (parseNum (dec s) >>= fun s => Res.ok (Ty.decimal64 s)) = _
      rw [parseNum_dec h]; rfl)
  | .decimal128 s, h => Rendered.call1 rfl (fun _ => rfl) rfl rfl (dec_atom s) (dec_ends s) (by
      show (parseNum (dec s) >>= fun s => Res.ok (Ty.decimal128 s)) = _
      rw [parseNum_dec h]; rfl)
  | .decimal256 s, h => Rendered.call1 rfl (fun _ => rfl) rfl rfl (dec_atom s) (dec_ends s) (by
      show (parseNum (dec s) >>= fun s => Res.ok (Ty.decimal256 s)) = _
      rw [parseNum_dec h]; rfl)
  | .fixedString s, h => Rendered.call1 rfl (fun _ => rfl) rfl rfl (dec_atom s) (dec_ends s) (by
      show (parseNum (dec s) >>= fun s => Res.ok (Ty.fixedString s)) = _
      rw [parseNum_dec h]; rfl)
  | .dateTime tz, h => Rendered.call1 rfl (fun _ => rfl) rfl rfl (quoted_atom h.2) (quoted_ends tz) (by
      show (parseTz cfg ('\'' :: tz ++ ['\'']) >>= fun tz => Res.ok (Ty.dateTime tz)) = _
      unfold parseTz
      rw [unquote_quoted, Res.bind_ok, if_pos h.1]; rfl)
  | .dateTime64 p tz, h => Rendered.call2 rfl (fun _ => rfl) rfl rfl (dec_atom p) (dec_ends p)
      (quoted_atom h.2.2) (quoted_ends tz) (by
      show (parseNum (dec p) >>= fun p => unquote ('\'' :: tz ++ ['\'']) >>= fun tz =>
        if cfg.isTz tz = true then Res.ok (Ty.dateTime64 p tz) else .err .typeParse) = _
      rw [unquote_quoted, parseNum_dec h.1, Res.bind_ok, Res.bind_ok, if_pos h.2.1])
  | .enum8 items, h => Rendered.call (l := items.map enumItem) rfl (fun _ => rfl) rfl rfl
      (fun s hs => by
        rw [List.mem_map] at hs
        obtain ⟨it, hi, rfl⟩ := hs
        exact enumItem_atom (h it hi))
      (fun s hs => by
        rw [List.mem_map] at hs
        obtain ⟨it, hi, rfl⟩ := hs
        exact enumItem_ends it) (by
      show (Res.mapL (fun a => parseEnumVariant 8 (trim a)) (items.map enumItem) >>= fun vs =>
        Res.ok (Ty.enum8 vs)) = _
      rw [mapL_map, mapL_eq_map (f := fun a : Str × BitVec 8 => parseEnumVariant 8 (trim (enumItem a)))
        (g := fun a => a) (fun it hi => parseEnumVariant_item (h it hi)), List.map_id']
      rfl)
  | .enum16 items, h => Rendered.call (l := items.map enumItem) rfl (fun _ => rfl) rfl rfl
      (fun s hs => by
        rw [List.mem_map] at hs
        obtain ⟨it, hi, rfl⟩ := hs
        exact enumItem_atom (h it hi))
      (fun s hs => by
        rw [List.mem_map] at hs
        obtain ⟨it, hi, rfl⟩ := hs
        exact enumItem_ends it) (by
      show (Res.mapL (fun a => parseEnumVariant 16 (trim a)) (items.map enumItem) >>= fun vs =>
        Res.ok (Ty.enum16 vs)) = _
      rw [mapL_map, mapL_eq_map (f := fun a : Str × BitVec 16 => parseEnumVariant 16 (trim (enumItem a)))
        (g := fun a => a) (fun it hi => parseEnumVariant_item (h it hi)), List.map_id']
      rfl)
  | .lowCardinality t, h =>
    have ht := rendered cfg t h
    Rendered.call1 rfl (fun _ => rfl) rfl rfl ht.atom ht.ends (by
      show (Ty.parse cfg t.display >>= fun t => Res.ok (Ty.lowCardinality t)) = _
      rw [ht.parse]; rfl)
  | .array t, h =>
    have ht := rendered cfg t h
    Rendered.call1 rfl (fun _ => rfl) rfl rfl ht.atom ht.ends (by
      show (Ty.parse cfg t.display >>= fun t => Res.ok (Ty.array t)) = _
      rw [ht.parse]; rfl)
  | .nullable t, h =>
    have ht := rendered cfg t h
    Rendered.call1 rfl (fun _ => rfl) rfl rfl ht.atom ht.ends (by
      show (Ty.parse cfg t.display >>= fun t => Res.ok (Ty.nullable t)) = _
      rw [ht.parse]; rfl)
  | .map k v, h =>
    have hk := rendered cfg k h.1
    have hv := rendered cfg v h.2
    Rendered.call2 rfl (fun _ => rfl) rfl rfl hk.atom hk.ends hv.atom hv.ends (by
      show (Ty.parse cfg k.display >>= fun k => Ty.parse cfg v.display >>= fun v =>
        Res.ok (Ty.map k v)) = _
      rw [hk.parse, hv.parse]; rfl)
  | .tuple ts, h =>
    have hts := renderedList cfg ts h
    Rendered.call rfl (fun _ => rfl) rfl rfl hts.1 hts.2.1 (by
      show (Res.mapL (fun a => Ty.parse cfg (trim a)) (Ty.displays ts) >>= fun ts =>
        Res.ok (Ty.tuple ts)) = _
      rw [hts.2.2]; rfl)
theorem renderedList (cfg : Cfg) : ∀ ts : List Ty, TextsOk cfg ts →
    (∀ s ∈ Ty.displays ts, Atom s) ∧ (∀ s ∈ Ty.displays ts, Ends s) ∧
      Res.mapL (fun a => Ty.parse cfg (trim a)) (Ty.displays ts) = .ok ts
  | [], _ => ⟨by simp [Ty.displays], by simp [Ty.displays], rfl⟩
  | t :: ts, h => by
    have ht := rendered cfg t h.1
    have hts := renderedList cfg ts h.2
    refine ⟨?_, ?_, ?_⟩
    · simp only [Ty.displays, List.mem_cons, forall_eq_or_imp]; exact ⟨ht.atom, hts.1⟩
    · simp only [Ty.displays, List.mem_cons, forall_eq_or_imp]; exact ⟨ht.ends, hts.2.1⟩
    · simp only [Ty.displays, Res.mapL]
      rw [hts.2.2, ht.ends.trim, ht.parse]; rfl
end


/-! ### when parsing panics -/

theorem ws_not_sep {c : Char} (h : isWs c = true) : ¬ Separator c := by
  rintro (rfl | rfl | rfl) <;> exact absurd h (by decide)

theorem Spec.Blank.plain {s : Str} (h : Blank s) : ∀ c ∈ s, ¬ Separator c := fun c hc => ws_not_sep (h c hc)

theorem Spec.CallShape.atom {s : Str} (h : CallShape s) : Atom s := by
  induction h with
  | leaf s h => exact Atom.plain h
  | call head args tail hh _ ht ih =>
    have := (call_atom hh ih).append (Atom.plain (Blank.plain ht))
    simpa using this

theorem dropWhile_ws_cons {s r : Str} {c : Char} (hc : isWs c = false) :
    (s ++ c :: r).dropWhile isWs = s.dropWhile isWs ++ c :: r := by
  induction s with
  | nil => simp [hc]
  | cons x s ih =>
    cases hx : isWs x
    · simp [hx]
    · simp [hx, ih]

theorem mem_dropWhile {α : Type} {p : α → Bool} {l : List α} {x : α} (h : x ∈ l.dropWhile p) : x ∈ l :=
  (List.dropWhile_suffix p).subset h

theorem Spec.CallShape.dropWs {s : Str} (h : CallShape s) : CallShape (s.dropWhile isWs) := by
  cases h with
  | leaf s h => exact .leaf _ (fun c hc => h c (mem_dropWhile hc))
  | call head args tail hh ha ht =>
    rw [List.append_assoc, List.cons_append, dropWhile_ws_cons (by decide)]
    have := CallShape.call (head.dropWhile isWs) args tail (fun c hc => hh c (mem_dropWhile hc)) ha ht
    simpa using this

theorem trimEnd_cons {s r : Str} {c : Char} (hc : isWs c = false) :
    trimEnd (s ++ c :: r) = s ++ c :: trimEnd r := by
  unfold trimEnd
  have : (s ++ c :: r).reverse = r.reverse ++ c :: s.reverse := by simp
  rw [this, dropWhile_ws_cons hc]
  simp

theorem trimEnd_blank {s : Str} (h : Blank s) : trimEnd s = [] := by
  unfold trimEnd
  rw [dropWhile_ws_blank (fun c hc => h c (by simpa using hc))]
  rfl

theorem Spec.CallShape.dropEnd {s : Str} (h : CallShape s) : CallShape (trimEnd s) := by
  cases h with
  | leaf s h =>
    refine .leaf _ (fun c hc => h c ?_)
    unfold trimEnd at hc
    exact List.mem_reverse.mp (mem_dropWhile (List.mem_reverse.mp hc))
  | call head args tail hh ha ht =>
    rw [trimEnd_cons (by decide), trimEnd_blank ht]
    exact CallShape.call head args [] hh ha (by simp [Blank])

theorem Spec.CallShape.trim {s : Str} (h : CallShape s) : CallShape (trim s) := h.dropWs.dropEnd

theorem join_dropWs {l : List Str} (h : ∀ a ∈ l, CallShape a) :
    ∃ l', (∀ a ∈ l', CallShape a) ∧ (joinComma l).dropWhile isWs = joinComma l' := by
  cases l with
  | nil => exact ⟨[], by simp, rfl⟩
  | cons x r =>
    refine ⟨x.dropWhile isWs :: r, ?_, ?_⟩
    · intro a ha
      rw [List.mem_cons] at ha
      rcases ha with rfl | ha
      · exact (h x (by simp)).dropWs
      · exact h a (by simp [ha])
    · cases r with
      | nil => rfl
      | cons y r => simp only [joinComma]; rw [dropWhile_ws_cons (by decide)]

theorem join_dropEnd {l : List Str} (h : ∀ a ∈ l, CallShape a) :
    ∃ l', (∀ a ∈ l', CallShape a) ∧ trimEnd (joinComma l) = joinComma l' ∧ (l = [] ↔ l' = []) := by
  induction l with
  | nil => exact ⟨[], by simp, rfl, by simp⟩
  | cons x r ih =>
    cases r with
    | nil =>
      refine ⟨[trimEnd x], ?_, rfl, by simp⟩
      intro a ha
      simp at ha
      rw [ha]
      exact (h x (by simp)).dropEnd
    | cons y r =>
      obtain ⟨l', h1, h2, h3⟩ := ih (fun a ha => h a (by simp [ha]))
      cases l' with
      | nil => simp at h3
      | cons z l' =>
        refine ⟨x :: z :: l', ?_, ?_, by simp⟩
        · intro a ha
          rw [List.mem_cons] at ha
          rcases ha with rfl | ha
          · exact h a (by simp)
          · exact h1 a ha
        · simp only [joinComma] at h2 ⊢
          rw [trimEnd_cons (by decide), h2]

theorem mem_dropEmptyLast {l : List Str} {a : Str} (h : a ∈ dropEmptyLast l) : a ∈ l := by
  induction l with
  | nil => simp [dropEmptyLast] at h
  | cons x r ih =>
    cases r with
    | nil =>
      unfold dropEmptyLast at h
      split at h
      · simp at h
      · exact h
    | cons y r =>
      simp only [dropEmptyLast, List.mem_cons] at h ih ⊢
      rcases h with h | h
      · exact .inl h
      · exact .inr (ih h)

theorem argLoop_shape {cfg : Cfg} {l : List Str} (h : ∀ a ∈ l, CallShape a) :
    ∃ l', argLoop cfg 0 [] (Klick.trim (joinComma l)) = .ok l' ∧ ∀ a ∈ l', CallShape a := by
  obtain ⟨l1, h1, e1⟩ := join_dropWs h
  obtain ⟨l2, h2, e2, _⟩ := join_dropEnd h1
  refine ⟨(dropEmptyLast l2).map Klick.trim, ?_, ?_⟩
  · unfold Klick.trim
    rw [e1, e2, argLoop_join (fun a ha => (h2 a ha).atom)]
    rfl
  · intro a ha
    rw [List.mem_map] at ha
    obtain ⟨b, hb, rfl⟩ := ha
    exact (h2 b (mem_dropEmptyLast hb)).trim

theorem eatTail_stop {cfg : Cfg} {head r : Str} :
    ∃ h', (eatTail cfg (head ++ '(' :: r)).2 = h' ++ '(' :: r ∧ ∀ c ∈ h', c ∈ head := by
  induction head with
  | nil => exact ⟨[], rfl, by simp⟩
  | cons c head ih =>
    rw [List.cons_append]
    unfold eatTail
    split
    · obtain ⟨h', e, hm⟩ := ih
      exact ⟨h', e, fun c hc => by simp [hm c hc]⟩
    · exact ⟨c :: head, rfl, by simp⟩

theorem eatIdent_stop {cfg : Cfg} {head r : Str} :
    ∃ h', (eatIdent cfg (head ++ '(' :: r)).2 = h' ++ '(' :: r ∧ ∀ c ∈ h', c ∈ head := by
  cases head with
  | nil => exact ⟨[], rfl, by simp⟩
  | cons c head =>
    rw [List.cons_append]
    simp only [eatIdent]
    split
    · obtain ⟨h', e, hm⟩ := eatTail_stop (cfg := cfg) (head := head) (r := r)
      exact ⟨h', e, fun c hc => by simp [hm c hc]⟩
    · exact ⟨c :: head, rfl, by simp⟩

theorem parseArgs_shape {cfg : Cfg} {s : Str} (h : CallShape s) :
    (∃ e, parseArgs cfg (Klick.trim (eatIdent cfg s).2) = .err e) ∨
      ∃ l, parseArgs cfg (Klick.trim (eatIdent cfg s).2) = .ok l ∧ ∀ a ∈ l, CallShape a := by
  cases h with
  | leaf s h =>
    refine .inl ⟨.typeParse, ?_⟩
    unfold parseArgs
    rw [if_neg]
    rintro ⟨hh, _⟩
    have hm : '(' ∈ Klick.trim (eatIdent cfg s).2 := List.mem_of_mem_head? hh
    have hm := mem_of_mem_trim hm
    have : '(' ∈ s := by rw [← eatIdent_append cfg s]; simp [hm]
    exact h _ this (.inl rfl)
  | call head args tail hh ha ht =>
    obtain ⟨h', e, hm⟩ := eatIdent_stop (cfg := cfg) (head := head) (r := joinComma args ++ ')' :: tail)
    have e0 : head ++ '(' :: joinComma args ++ ')' :: tail = head ++ '(' :: (joinComma args ++ ')' :: tail) := by
      simp
    rw [e0, e]
    have et : Klick.trim (h' ++ '(' :: (joinComma args ++ ')' :: tail))
        = h'.dropWhile isWs ++ '(' :: (joinComma args ++ [')']) := by
      unfold Klick.trim
      rw [dropWhile_ws_cons (by decide)]
      have : h'.dropWhile isWs ++ '(' :: (joinComma args ++ ')' :: tail)
        = (h'.dropWhile isWs ++ '(' :: joinComma args) ++ ')' :: tail := by simp
      rw [this, trimEnd_cons (by decide), trimEnd_blank ht]
      simp
    rw [et]
    cases hd : h'.dropWhile isWs with
    | cons c r =>
      refine .inl ⟨.typeParse, ?_⟩
      unfold parseArgs
      rw [if_neg]
      rintro ⟨h1, _⟩
      simp at h1
      have : c ∈ head := hm c (mem_dropWhile (p := isWs) (by rw [hd]; simp))
      exact hh c this (.inl h1)
    | nil =>
      obtain ⟨l', h1, h2⟩ := argLoop_shape (cfg := cfg) ha
      refine .inr ⟨l', ?_, h2⟩
      unfold parseArgs
      rw [if_pos ⟨rfl, by
        have : [] ++ '(' :: (joinComma args ++ [')']) = ('(' :: joinComma args) ++ [')'] := by simp
        rw [this]; exact List.getLast?_concat⟩]
      simpa using h1

/-- `a` is, up to white space, one whole argument of `s`. -/
def Slot (s a : Str) : Prop :=
  ∃ p o w w' c q, s = p ++ o :: (w ++ (a ++ (w' ++ c :: q))) ∧ (o = '(' ∨ o = ',') ∧ Blank w ∧
    Blank w' ∧ (c = ',' ∨ c = ')')

theorem argLoop_slot {cfg : Cfg} {d : Int} {cur s : Str} {l : List Str}
    (h : argLoop cfg d cur s = .ok l) (full p wl wr q : Str) (o c : Char)
    (hf : full = p ++ o :: (wl ++ (cur ++ (s ++ (wr ++ c :: q))))) (ho : o = '(' ∨ o = ',')
    (hc : c = ',' ∨ c = ')') (hl : Blank wl) (hr : Blank wr) : ∀ a ∈ l, Slot full a := by
  have slot : ∀ (cur s1 : Str) (p wl w' : Str) (o c : Char), (o = '(' ∨ o = ',') → (c = ',' ∨ c = ')') →
      Blank wl → Blank w' → full = p ++ o :: (wl ++ (cur ++ (w' ++ c :: s1))) → Slot full (Klick.trim cur) := by
    intro cur s1 p wl w' o c ho hc hl hw' hf
    obtain ⟨w1, w2, e, b1, b2⟩ := trim_spec cur
    refine ⟨p, o, wl ++ w1, w2 ++ w', c, s1, ?_, ho, ?_, ?_, hc⟩
    · rw [hf]
      conv => lhs; rw [e]
      simp
    · intro x hx; rw [List.mem_append] at hx; exact hx.elim (hl x) (b1 x)
    · intro x hx; rw [List.mem_append] at hx; exact hx.elim (b2 x) (hw' x)
  induction s generalizing d cur l p wl o with
  | nil =>
    unfold argLoop at h
    split at h
    · cases h
    · split at h
      · cases h; simp
      · cases h
        intro a ha
        simp at ha
        rw [ha]
        exact slot cur q p wl wr o c ho hc hl hr (by rw [hf]; simp)
  | cons x r ih =>
    unfold argLoop at h
    have hf' : full = p ++ o :: (wl ++ ((cur ++ [x]) ++ (r ++ (wr ++ c :: q)))) := by rw [hf]; simp
    split at h
    · rename_i hx
      split at h
      · rw [Res.bind_eq_ok] at h
        obtain ⟨xs, h1, h2⟩ := h
        cases h2
        intro a ha
        rw [List.mem_cons] at ha
        rcases ha with rfl | ha
        · exact slot cur (r ++ (wr ++ c :: q)) p wl [] o x ho (.inl hx) hl (by simp [Blank])
            (by rw [hf]; simp)
        · exact ih h1 (p ++ o :: (wl ++ cur)) [] x (by rw [hf]; simp) (.inr hx) (by simp [Blank]) a ha
      · exact ih h p wl o hf' ho hl
    · split at h
      · exact ih h p wl o hf' ho hl
      · split at h
        · split at h
          · cases h
          · exact ih h p wl o hf' ho hl
        · exact ih h p wl o hf' ho hl

theorem parseArgs_slot {cfg : Cfg} {s : Str} {l : List Str} (h : parseArgs cfg s = .ok l) :
    ∀ a ∈ l, Slot s a := by
  unfold parseArgs at h
  split at h
  · rename_i hc
    obtain ⟨w, w', e, b1, b2⟩ := trim_spec (s.drop 1).dropLast
    have hs : s = '(' :: ((s.drop 1).dropLast ++ [')']) := by
      obtain ⟨h1, h2⟩ := hc
      cases s with
      | nil => simp at h1
      | cons x r =>
        simp at h1
        subst h1
        rcases List.eq_nil_or_concat r with rfl | ⟨r, y, rfl⟩
        · simp at h2
        · have : ('(' :: r.concat y) = ('(' :: r) ++ [y] := by simp
          rw [this, List.getLast?_concat] at h2
          cases h2
          simp
    refine argLoop_slot h s [] w w' [] '(' ')' ?_ (.inl rfl) (.inr rfl) b1 b2
    conv => lhs; rw [hs]
    conv => lhs; rw [e]
    simp
  · cases h

theorem Spec.LoneQuote.infix {s p a q : Str} (h : s = p ++ a ++ q) (hl : LoneQuote a) : LoneQuote s := by
  obtain ⟨x, o, w, w', c, b, e, h1, h2, h3, h4⟩ := hl
  exact ⟨p ++ x, o, w, w', c, b ++ q, by rw [h, e]; simp, h1, h2, h3, h4⟩

theorem Slot.quote {s : Str} (h : Slot s ['\'']) : LoneQuote s := by
  obtain ⟨p, o, w, w', c, q, e, h1, h2, h3, h4⟩ := h
  refine ⟨p, o, w, w', c, q, by rw [e]; simp, h1, h2, h3, ?_⟩
  rcases h4 with h4 | h4
  · exact .inl h4
  · exact .inr (.inl h4)

theorem Slot.lone {s a : Str} (h : Slot s a) (hl : LoneQuote a) : LoneQuote s := by
  obtain ⟨p, o, w, w', c, q, e, -, -, -, -⟩ := h
  exact LoneQuote.infix (p := p ++ o :: w) (a := a) (q := w' ++ c :: q) (by rw [e]; simp) hl

theorem Slot.trim {s a : Str} (h : Slot s a) : Slot s (Klick.trim a) := by
  obtain ⟨p, o, w, w', c, q, e, h1, h2, h3, h4⟩ := h
  obtain ⟨w1, w2, e', b1, b2⟩ := trim_spec a
  refine ⟨p, o, w ++ w1, w2 ++ w', c, q, ?_, h1, ?_, ?_, h4⟩
  · rw [e]
    conv => lhs; rw [e']
    simp
  · intro x hx; rw [List.mem_append] at hx; exact hx.elim (h2 x) (b1 x)
  · intro x hx; rw [List.mem_append] at hx; exact hx.elim (b2 x) (h3 x)

theorem Slot.infix {s p a b q : Str} (h : s = p ++ a ++ q) (hl : Slot a b) : Slot s b := by
  obtain ⟨x, o, w, w', c, r, e, h1, h2, h3, h4⟩ := hl
  exact ⟨p ++ x, o, w, w', c, r ++ q, by rw [h, e]; simp, h1, h2, h3, h4⟩

theorem unquote_panic {s : Str} (h : unquote s = .panic) : s = ['\''] := by
  unfold unquote at h
  split at h
  · rename_i hc
    split at h
    · rename_i hl
      match s, hc, hl with
      | [], hc, _ => simp at hc
      | [x], hc, _ => simp at hc; rw [hc]
      | _ :: _ :: _, _, hl => simp at hl; omega
    · cases h
  · cases h

theorem parseEnumVariant_panic {w : Nat} {s a : Str} (hs : Slot s a)
    (h : parseEnumVariant w a = .panic) : LoneQuote s := by
  unfold parseEnumVariant at h
  split at h
  · rename_i hm
    dsimp only at h
    rw [Res.bind_eq_panic] at h
    rcases h with h | ⟨x, _, h⟩
    · have hq := unquote_panic h
      obtain ⟨w1, w2, e, b1, b2⟩ := trim_spec (a.takeWhile (· ≠ '='))
      rw [hq] at e
      obtain ⟨p, o, wl, wr, c, q, es, h1, h2, h3, h4⟩ := hs
      have ha : a = a.takeWhile (· ≠ '=') ++ a.dropWhile (· ≠ '=') :=
        (List.takeWhile_append_dropWhile ..).symm
      cases hd : a.dropWhile (· ≠ '=') with
      | nil =>
        rw [hd, List.append_nil] at ha
        have := List.all_takeWhile (p := fun x : Char => decide (x ≠ '=')) (l := a)
        rw [← ha, List.all_eq_true] at this
        have := this _ hm
        simp at this
      | cons y r =>
        have hy : y = '=' := by
          have := List.head?_dropWhile_not (p := fun x : Char => decide (x ≠ '=')) (l := a)
          rw [hd] at this
          simpa using this
        refine ⟨p, o, wl ++ w1, w2, '=', r ++ (wr ++ c :: q), ?_, h1, ?_, b2, .inr (.inr rfl)⟩
        · rw [es]
          conv => lhs; rw [ha, hd, e, hy]
          simp
        · intro x hx; rw [List.mem_append] at hx; exact hx.elim (h2 x) (b1 x)
    · split at h <;> cases h
  · cases h

theorem mapL_panic {α β : Type} {f : α → Res β} {l : List α} (h : Res.mapL f l = .panic) :
    ∃ a ∈ l, f a = .panic := by
  induction l with
  | nil => cases h
  | cons x r ih =>
    unfold Res.mapL at h
    rw [Res.bind_eq_panic] at h
    rcases h with h | ⟨y, _, h⟩
    · exact ⟨x, by simp, h⟩
    · rw [Res.bind_eq_panic] at h
      rcases h with h | ⟨z, _, h⟩
      · obtain ⟨a, ha, h⟩ := ih h
        exact ⟨a, by simp [ha], h⟩
      · cases h

theorem parseNum_ne_panic (s : Str) : parseNum s ≠ .panic := by
  unfold parseNum; split <;> simp

theorem ite_cases {α : Type} {p : Prop} [Decidable p] {a b r : α} (h : (if p then a else b) = r) :
    (p ∧ a = r) ∨ (¬ p ∧ b = r) := by
  by_cases hp : p
  · rw [if_pos hp] at h; exact .inl ⟨hp, h⟩
  · rw [if_neg hp] at h; exact .inr ⟨hp, h⟩

theorem ite_ne {α : Type} {p : Prop} [Decidable p] {a b r : α} (h1 : a ≠ r) (h2 : b ≠ r) :
    (if p then a else b) ≠ r := by
  intro h
  rcases ite_cases h with ⟨_, h⟩ | ⟨_, h⟩
  · exact h1 h
  · exact h2 h

/-- How the dispatch on the type's name can panic. -/
theorem withArgs_panic {cfg : Cfg} {rec : Str → Res Ty} {ident : Str} {args : List Str}
    (h : withArgs cfg rec ident args = .panic) :
    (∃ a ∈ args, unquote a = .panic) ∨ (∃ a ∈ args, ∃ w, parseEnumVariant w (Klick.trim a) = .panic) ∨
      (∃ a ∈ args, rec a = .panic ∨ rec (Klick.trim a) = .panic) := by
  have num : ∀ {β : Type} {a : Str} {f : Nat → Res β}, (parseNum a >>= f) = .panic → ∃ n, f n = .panic := by
    intro β a f h
    rw [Res.bind_eq_panic] at h
    rcases h with h | ⟨n, _, h⟩
    · exact absurd h (parseNum_ne_panic a)
    · exact ⟨n, h⟩
  have num1 : ∀ {a : Str} {f : Nat → Ty}, (parseNum a >>= fun s => Res.ok (f s)) ≠ .panic := by
    intro a f h
    obtain ⟨n, h⟩ := num h
    cases h
  have rec1 : ∀ {a : Str} {f : Ty → Ty}, (rec a >>= fun t => Res.ok (f t)) = .panic → rec a = .panic := by
    intro a f h
    rw [Res.bind_eq_panic] at h
    rcases h with h | ⟨n, _, h⟩
    · exact h
    · cases h
  unfold withArgs at h
  rcases ite_cases h with ⟨_, h⟩ | ⟨_, h⟩
  · split at h
    · obtain ⟨p, h⟩ := num h
      obtain ⟨s, h⟩ := num h
      repeat' (split at h; · cases h)
      cases h
    · cases h
  rcases ite_cases h with ⟨_, h⟩ | ⟨_, h⟩
  · split at h
    · exact absurd h num1
    · cases h
  rcases ite_cases h with ⟨_, h⟩ | ⟨_, h⟩
  · split at h
    · exact absurd h num1
    · cases h
  rcases ite_cases h with ⟨_, h⟩ | ⟨_, h⟩
  · split at h
    · exact absurd h num1
    · cases h
  rcases ite_cases h with ⟨_, h⟩ | ⟨_, h⟩
  · split at h
    · exact absurd h num1
    · cases h
  rcases ite_cases h with ⟨_, h⟩ | ⟨_, h⟩
  · split at h
    · exact absurd h num1
    · cases h
  rcases ite_cases h with ⟨_, h⟩ | ⟨_, h⟩
  · split at h
    · unfold parseTz at h
      rw [Res.bind_eq_panic] at h
      rcases h with h | ⟨_, _, h⟩
      · rw [Res.bind_eq_panic] at h
        rcases h with h | ⟨_, _, h⟩
        · exact .inl ⟨_, by simp, h⟩
        · split at h <;> cases h
      · cases h
    · cases h
  rcases ite_cases h with ⟨_, h⟩ | ⟨_, h⟩
  · split at h
    · obtain ⟨p, h⟩ := num h
      rw [Res.bind_eq_panic] at h
      rcases h with h | ⟨_, _, h⟩
      · exact .inl ⟨_, by simp, h⟩
      · split at h <;> cases h
    · exact absurd h num1
    · cases h
  rcases ite_cases h with ⟨_, h⟩ | ⟨_, h⟩
  · rw [Res.bind_eq_panic] at h
    rcases h with h | ⟨_, _, h⟩
    · obtain ⟨a, ha, h⟩ := mapL_panic h
      exact .inr (.inl ⟨a, ha, 8, h⟩)
    · cases h
  rcases ite_cases h with ⟨_, h⟩ | ⟨_, h⟩
  · rw [Res.bind_eq_panic] at h
    rcases h with h | ⟨_, _, h⟩
    · obtain ⟨a, ha, h⟩ := mapL_panic h
      exact .inr (.inl ⟨a, ha, 16, h⟩)
    · cases h
  rcases ite_cases h with ⟨_, h⟩ | ⟨_, h⟩
  · split at h
    · exact .inr (.inr ⟨_, by simp, .inl (rec1 h)⟩)
    · cases h
  rcases ite_cases h with ⟨_, h⟩ | ⟨_, h⟩
  · split at h
    · exact .inr (.inr ⟨_, by simp, .inl (rec1 h)⟩)
    · cases h
  rcases ite_cases h with ⟨_, h⟩ | ⟨_, h⟩
  · cases h
  rcases ite_cases h with ⟨_, h⟩ | ⟨_, h⟩
  · rw [Res.bind_eq_panic] at h
    rcases h with h | ⟨_, _, h⟩
    · obtain ⟨a, ha, h⟩ := mapL_panic h
      exact .inr (.inr ⟨a, ha, .inr h⟩)
    · cases h
  rcases ite_cases h with ⟨_, h⟩ | ⟨_, h⟩
  · split at h
    · exact .inr (.inr ⟨_, by simp, .inl (rec1 h)⟩)
    · cases h
  rcases ite_cases h with ⟨_, h⟩ | ⟨_, h⟩
  · split at h
    · rw [Res.bind_eq_panic] at h
      rcases h with h | ⟨_, _, h⟩
      · exact .inr (.inr ⟨_, by simp, .inl h⟩)
      · exact .inr (.inr ⟨_, by simp, .inl (rec1 h)⟩)
    · cases h
  · cases h

theorem argLoop_release {cfg : Cfg} (hc : cfg.overflowChecks = false) (d : Int) (cur s : Str) :
    argLoop cfg d cur s ≠ .panic := by
  induction s generalizing d cur with
  | nil =>
    unfold argLoop
    split
    · simp
    · split <;> simp
  | cons c r ih =>
    unfold argLoop
    split
    · split
      · intro h
        rw [Res.bind_eq_panic] at h
        rcases h with h | ⟨_, _, h⟩
        · exact ih _ _ h
        · cases h
      · exact ih _ _
    · split
      · exact ih _ _
      · split
        · rw [hc]; exact ih _ _
        · exact ih _ _

theorem noArgs_ne_panic (cfg : Cfg) (ident : Str) : noArgs cfg ident ≠ .panic := by
  unfold noArgs
  repeat' (first | (apply ite_ne) | (intro h; cases h))

/-- Parsing panics only on a lone quote, provided subtraction wraps (release build) or the text has
the shape of a type name. -/
theorem parse_panic (cfg : Cfg) : ∀ (n : Nat) (s : Str), s.length ≤ n →
    (cfg.overflowChecks = false ∨ CallShape s) → Ty.parse cfg s = .panic → LoneQuote s := by
  intro n
  induction n with
  | zero =>
    intro s hn _ h
    have : s = [] := List.length_eq_zero_iff.mp (by omega)
    subst this
    cases h
  | succ n ih =>
    intro s hn hs h
    rw [parse_unfold] at h
    unfold parseStep at h
    dsimp only at h
    split at h
    · cases h
    · split at h
      · exact absurd h (noArgs_ne_panic _ _)
      · have hp : parseArgs cfg (Klick.trim (eatIdent cfg s).2) ≠ .panic := by
          rcases hs with hs | hs
          · unfold parseArgs
            split
            · exact argLoop_release hs _ _ _
            · simp
          · rcases parseArgs_shape (cfg := cfg) hs with ⟨e, he⟩ | ⟨l, he, _⟩ <;> rw [he] <;> simp
        rw [Res.bind_eq_panic] at h
        rcases h with h | ⟨args, ha, h⟩
        · exact absurd h hp
        · have hlen := parseArgs_length ha
          have hshape : ∀ a ∈ args, cfg.overflowChecks = false ∨ CallShape a := by
            rcases hs with hs | hs
            · exact fun _ _ => .inl hs
            · rcases parseArgs_shape (cfg := cfg) hs with ⟨e, he⟩ | ⟨l, he, hl⟩
              · rw [he] at ha; cases ha
              · rw [he] at ha; cases ha
                exact fun a hm => .inr (hl a hm)
          have hslot : ∀ a ∈ args, Slot s a := by
            intro a hm
            have h1 := parseArgs_slot ha a hm
            obtain ⟨w, w', e, _, _⟩ := trim_spec (eatIdent cfg s).2
            refine Slot.infix (p := (eatIdent cfg s).1 ++ w) (q := w') ?_ h1
            conv => lhs; rw [← eatIdent_append cfg s, e]
            simp
          have hlt : ∀ a ∈ args, a.length ≤ n := by
            intro a hm
            have h1 := hlen a hm
            have h2 := trim_length_le (eatIdent cfg s).2
            have h3 := congrArg List.length (eatIdent_append cfg s)
            simp at h3
            omega
          rcases withArgs_panic h with ⟨a, hm, h⟩ | ⟨a, hm, w, h⟩ | ⟨a, hm, h | h⟩
          · have := unquote_panic h
            subst this
            exact (hslot _ hm).quote
          · exact parseEnumVariant_panic (hslot a hm).trim h
          · exact (hslot a hm).lone (ih a (hlt a hm) (hshape a hm) h)
          · have h4 := trim_length_le a
            refine (hslot a hm).trim.lone (ih _ (by have := hlt a hm; omega) ?_ h)
            rcases hshape a hm with hx | hx
            · exact .inl hx
            · exact .inr hx.trim

end Klick
