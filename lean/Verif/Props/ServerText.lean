import Verif.Spec.ServerText
import Verif.TypeTextMain
import Verif.Props.TypeText
import Verif.Block
/-
C92: the names of types as ClickHouse writes them.
-/
namespace Klick.Props
open Klick Spec

/-- What is proved of the text of one type. -/
structure Says (cfg : Cfg) (t : Ty) (s : Str) : Prop where
  atom : Atom s
  ends : Ends s
  parse : Ty.parse cfg s = .ok t

/-! ### Arguments with white space around them -/

theorem trim_padded {a s : Str} (he : Ends a) (h : Spaced a s) : trim s = a := by
  obtain ⟨w, w', rfl, h1, h2⟩ := h
  have := trim_append_blank he h2
  unfold trim at this ⊢
  rw [List.append_assoc, dropWhile_ws_append h1]
  exact this

theorem padded_ne_nil {a s : Str} (he : Ends a) (h : Spaced a s) : s ≠ [] := by
  obtain ⟨w, w', rfl, _, _⟩ := h
  have := he.ne_nil
  simp [this]

theorem padded_atom {a s : Str} (ha : Atom a) (h : Spaced a s) : Atom s := by
  obtain ⟨w, w', rfl, h1, h2⟩ := h
  exact ((Atom.plain (Blank.plain h1)).append ha).append (Atom.plain (Blank.plain h2))

theorem trimEnd_join : ∀ (as ps : List Str), ps.length = as.length → (∀ p ∈ as.zip ps, Spaced p.1 p.2) → (∀ a ∈ as, Ends a) →
    ∃ qs : List Str, trimEnd (joinComma ps) = joinComma qs ∧ qs.length = as.length ∧ ∀ p ∈ as.zip qs, Spaced p.1 p.2
  | [], ps, hl, _, _ => by
    have : ps = [] := List.length_eq_zero_iff.mp hl
    subst this
    exact ⟨[], rfl, rfl, by simp⟩
  | [a], ps, hl, hp, he => by
    match ps, hl with
    | [p], _ =>
      obtain ⟨w, w', e0, h1, h2⟩ := hp (a, p) (by simp)
      dsimp only at e0
      subst e0
      refine ⟨[w ++ a], ?_, rfl, ?_⟩
      · obtain ⟨_, ⟨c, r, e, hc⟩⟩ := he a (by simp)
        simp only [joinComma]
        rw [e]
        have : w ++ (r ++ [c]) ++ w' = (w ++ r) ++ c :: w' := by simp
        rw [this, trimEnd_cons hc, trimEnd_blank h2]
        simp
      · intro p hm
        simp at hm
        subst hm
        exact ⟨w, [], by simp, h1, by simp [Blank]⟩
  | a :: b :: as, ps, hl, hp, he => by
    match ps, hl with
    | p :: q :: ps, hl =>
      obtain ⟨qs, h1, h2, h3⟩ := trimEnd_join (b :: as) (q :: ps) (by simpa using hl)
        (fun x hx => hp x (by rw [List.zip_cons_cons]; exact List.mem_cons_of_mem _ hx)) (fun x hx => he x (List.mem_cons_of_mem _ hx))
      match qs, h2 with
      | q' :: qs, h2 =>
        refine ⟨p :: q' :: qs, ?_, by simpa using h2, ?_⟩
        · simp only [joinComma] at h1 ⊢
          rw [trimEnd_cons (by decide), h1]
        · intro x hx
          rw [List.zip_cons_cons, List.mem_cons] at hx
          rcases hx with rfl | hx
          · exact hp _ (by simp)
          · exact h3 x hx

theorem dropWhile_join : ∀ (as ps : List Str), ps.length = as.length → (∀ p ∈ as.zip ps, Spaced p.1 p.2) → (∀ a ∈ as, Ends a) →
    ∃ qs : List Str, (joinComma ps).dropWhile isWs = joinComma qs ∧ qs.length = as.length ∧ ∀ p ∈ as.zip qs, Spaced p.1 p.2
  | [], ps, hl, _, _ => by
    have : ps = [] := List.length_eq_zero_iff.mp hl
    subst this
    exact ⟨[], rfl, rfl, by simp⟩
  | a :: as, ps, hl, hp, he => by
    match ps, hl with
    | p :: ps, hl =>
      obtain ⟨w, w', e0, h1, h2⟩ := hp (a, p) (by simp)
      dsimp only at e0
      subst e0
      obtain ⟨⟨c, r, e, hc⟩, _⟩ := he a (by simp)
      refine ⟨(a ++ w') :: ps, ?_, by simpa using hl, ?_⟩
      · have : ∀ rest, (w ++ a ++ w' ++ rest).dropWhile isWs = a ++ w' ++ rest := by
          intro rest
          rw [List.append_assoc, List.append_assoc, dropWhile_ws_append h1, e]
          simp [hc]
        cases ps with
        | nil =>
          simp only [joinComma]
          have := this []
          simpa using this
        | cons y ps =>
          simp only [joinComma]
          exact this _
      · intro x hx
        rw [List.zip_cons_cons, List.mem_cons] at hx
        rcases hx with rfl | hx
        · exact ⟨[], w', by simp, by simp [Blank], h2⟩
        · exact hp _ (by rw [List.zip_cons_cons]; exact List.mem_cons_of_mem _ hx)

theorem zip_left {α β : Type} : ∀ {as : List α} {bs : List β}, bs.length = as.length → ∀ b ∈ bs, ∃ a ∈ as, (a, b) ∈ as.zip bs
  | [], [], _, b, hb => by cases hb
  | a :: as, b' :: bs, hl, b, hb => by
    rcases List.mem_cons.mp hb with rfl | hb
    · exact ⟨a, by simp, by simp⟩
    · obtain ⟨x, h1, h2⟩ := zip_left (by simpa using hl) b hb
      exact ⟨x, by simp [h1], by simp [h2]⟩

theorem map_trim : ∀ (as ps : List Str), ps.length = as.length → (∀ p ∈ as.zip ps, Spaced p.1 p.2) → (∀ a ∈ as, Ends a) →
    ps.map trim = as
  | [], ps, hl, _, _ => by
    have : ps = [] := List.length_eq_zero_iff.mp hl
    subst this; rfl
  | a :: as, ps, hl, hp, he => by
    match ps, hl with
    | p :: ps, hl =>
      rw [List.map_cons, trim_padded (he a (by simp)) (hp (a, p) (by simp)),
        map_trim as ps (by simpa using hl) (fun x hx => hp x (by rw [List.zip_cons_cons]; exact List.mem_cons_of_mem _ hx))
          (fun x hx => he x (List.mem_cons_of_mem _ hx))]

theorem parseArgs_padded {cfg : Cfg} {as ps : List Str} (hl : ps.length = as.length) (hp : ∀ p ∈ as.zip ps, Spaced p.1 p.2)
    (ha : ∀ a ∈ as, Atom a) (he : ∀ a ∈ as, Ends a) : parseArgs cfg ('(' :: joinComma ps ++ [')']) = .ok as := by
  unfold parseArgs
  rw [if_pos ⟨rfl, List.getLast?_concat⟩, strip_parens]
  obtain ⟨qs, h1, h2, h3⟩ := dropWhile_join as ps hl hp he
  obtain ⟨rs, h4, h5, h6⟩ := trimEnd_join as qs h2 h3 he
  have ht : trim (joinComma ps) = joinComma rs := by
    unfold trim; rw [h1, h4]
  rw [ht, argLoop_join, dropEmptyLast_of_ne, map_trim as rs h5 h6 he]
  · intro s hs
    obtain ⟨a, ham, hz⟩ := zip_left h5 s hs
    exact padded_ne_nil (he a ham) (h6 _ hz)
  · intro s hs
    obtain ⟨a, ham, hz⟩ := zip_left h5 s hs
    exact padded_atom (ha a ham) (h6 _ hz)

theorem Says.call {cfg : Cfg} {t : Ty} {c : Char} {ident : Str} {as : List Str} {s : Str} (h : Call (c :: ident) as s)
    (hid : ∀ r, eatIdent cfg (c :: ident ++ '(' :: r) = (c :: ident, '(' :: r))
    (hp : (c :: ident).all (fun c => c ≠ '(' && c ≠ ')' && c ≠ ',') = true)
    (hw : isWs c = false) (ha : ∀ a ∈ as, Atom a) (he : ∀ a ∈ as, Ends a)
    (ht : withArgs cfg (Ty.parse cfg) (c :: ident) as = .ok t) : Says cfg t s := by
  obtain ⟨ps, rfl, hl, hz⟩ := h
  have hat : ∀ p ∈ ps, Atom p := by
    intro p hm
    obtain ⟨a, ham, hx⟩ := zip_left hl p hm
    exact padded_atom (ha a ham) (hz _ hx)
  refine ⟨call_atom (plain_lit hp) hat, call_ends hw, ?_⟩
  rw [parse_unfold]
  unfold parseStep
  have e : c :: ident ++ '(' :: joinComma ps ++ [')'] = c :: ident ++ '(' :: (joinComma ps ++ [')']) := by simp
  rw [e, hid]
  dsimp only
  rw [if_neg (by simp)]
  have e2 : '(' :: (joinComma ps ++ [')']) = '(' :: joinComma ps ++ [')'] := by simp
  rw [e2, (Ends.cons_append (by decide) (by decide)).trim, if_neg (by simp), parseArgs_padded hl hz ha he]
  exact ht

theorem Says.word {cfg : Cfg} {t : Ty} {s : Str} (h1 : s.isEmpty = false)
    (h2 : s.all (fun c => c ≠ '(' && c ≠ ')' && c ≠ ',') = true) (h3 : s.all (fun c => !isWs c) = true)
    (h4 : Ty.parse cfg s = .ok t) : Says cfg t s :=
  ⟨Atom.plain (plain_lit h2), lit_ends h1 h3, h4⟩

/-! ### Enum items -/

theorem enumText_atom {w : Nat} {it : Str × BitVec w} {s : Str} (hn : PlainName it.1) (h : EnumText it s) : Atom s := by
  obtain ⟨b, b', rfl, h1, h2⟩ := h
  have h3 : Atom (quote it.1) := quoted_atom (fun c hc => (hn.2 c hc).1)
  have h4 : Atom ('=' :: (b' ++ decInt it.2.toInt)) := by
    refine Atom.plain (fun c hc => ?_)
    rcases List.mem_cons.mp hc with rfl | hc
    · rintro (h | h | h) <;> exact absurd h (by decide)
    · rcases List.mem_append.mp hc with hc | hc
      · exact Blank.plain h2 c hc
      · exact (decInt_chars _ c hc).2
  exact (h3.append (Atom.plain (Blank.plain h1))).append h4

theorem enumText_ends {w : Nat} {it : Str × BitVec w} {s : Str} (h : EnumText it s) : Ends s := by
  obtain ⟨b, b', rfl, h1, h2⟩ := h
  have := Ends.append (u := b ++ '=' :: b') (quoted_ends it.1) (decInt_ends it.2.toInt)
  have e : quote it.1 ++ b ++ '=' :: (b' ++ decInt it.2.toInt) = '\'' :: it.1 ++ ['\''] ++ (b ++ '=' :: b') ++ decInt it.2.toInt := by
    simp [quote]
  rw [e]; exact this

theorem enumText_parse {w : Nat} {it : Str × BitVec w} {s : Str} (hn : PlainName it.1) (h : EnumText it s) :
    parseEnumVariant w (trim s) = .ok it := by
  rw [(enumText_ends h).trim]
  obtain ⟨b, b', rfl, h1, h2⟩ := h
  unfold parseEnumVariant
  rw [if_pos (by simp)]
  have hpre : ∀ x ∈ quote it.1 ++ b, (decide (x ≠ '=')) = true := by
    intro x hx
    simp [quote] at hx
    rcases hx with rfl | hx | rfl | hx
    · decide
    · simp [(hn.2 x hx).2]
    · decide
    · have := h1 x hx
      simp only [ne_eq, decide_not, Bool.not_eq_eq_eq_not, Bool.not_true, decide_eq_false_iff_not]
      rintro rfl
      exact absurd this (by decide)
  have hs := takeWhile_until (r := b' ++ decInt it.2.toInt) hpre (c := '=') (by decide)
  rw [hs.1, hs.2]
  dsimp only
  have e : trim (quote it.1 ++ b) = quote it.1 := trim_append_blank (quoted_ends it.1) h1
  have e2 : List.drop 1 ('=' :: (b' ++ decInt it.2.toInt)) = b' ++ decInt it.2.toInt := rfl
  rw [e, e2, trim_blank_append (decInt_ends _) h2]
  have e3 : unquote (quote it.1) = .ok it.1 := unquote_quoted it.1
  rw [e3, Res.bind_ok, parseInt_decInt, hn.1]

theorem mapL_zip {α β : Type} {f : β → Res α} : ∀ (as : List α) (bs : List β), bs.length = as.length →
    (∀ p ∈ as.zip bs, f p.2 = .ok p.1) → Res.mapL f bs = .ok as
  | [], [], _, _ => rfl
  | a :: as, b :: bs, hl, h => by
    have h1 := h (a, b) (by simp)
    have h2 := mapL_zip as bs (by simpa using hl) (fun p hp => h p (by rw [List.zip_cons_cons]; exact List.mem_cons_of_mem _ hp))
    simp only at h1
    simp only [Res.mapL, h1, h2, Res.bind_ok]

theorem quote_atom {cfg : Cfg} {tz : Tz} (h : KnownZone cfg tz) : Atom (quote tz) := quoted_atom h.2

theorem one {P : Str → Prop} {a : Str} (h : P a) : ∀ x ∈ [a], P x := by simpa using h
theorem two {P : Str → Prop} {a b : Str} (h : P a) (h' : P b) : ∀ x ∈ [a, b], P x := by simpa using ⟨h, h'⟩

theorem _root_.Klick.Spec.Written.says {cfg : Cfg} {t : Ty} {s : Str} (h : Written cfg t s) : Says cfg t s := by
  induction h with
  | word h =>
    cases h <;> first
      | exact Says.word rfl rfl rfl rfl
      | (rename_i hb
         refine Says.word rfl rfl rfl ?_
         show (if cfg.bf16 = true then Res.ok Ty.bfloat16 else Res.err Err.typeParse) = _
         rw [if_pos hb])
  | @fixedString n s hn h =>
    refine Says.call h (fun _ => rfl) rfl rfl (one (dec_atom n)) (one (dec_ends n)) ?_
    show (parseNum (dec n) >>= fun s => Res.ok (Ty.fixedString s)) = _
    rw [parseNum_dec hn]; rfl
  | @decimal32 n s hn h =>
    refine Says.call h (fun _ => rfl) rfl rfl (one (dec_atom n)) (one (dec_ends n)) ?_
    show (parseNum (dec n) >>= fun s => Res.ok (Ty.decimal32 s)) = _
    rw [parseNum_dec hn]; rfl
  | @decimal64 n s hn h =>
    refine Says.call h (fun _ => rfl) rfl rfl (one (dec_atom n)) (one (dec_ends n)) ?_
    show (parseNum (dec n) >>= fun s => Res.ok (Ty.decimal64 s)) = _
    rw [parseNum_dec hn]; rfl
  | @decimal128 n s hn h =>
    refine Says.call h (fun _ => rfl) rfl rfl (one (dec_atom n)) (one (dec_ends n)) ?_
    show (parseNum (dec n) >>= fun s => Res.ok (Ty.decimal128 s)) = _
    rw [parseNum_dec hn]; rfl
  | @decimal256 n s hn h =>
    refine Says.call h (fun _ => rfl) rfl rfl (one (dec_atom n)) (one (dec_ends n)) ?_
    show (parseNum (dec n) >>= fun s => Res.ok (Ty.decimal256 s)) = _
    rw [parseNum_dec hn]; rfl
  | @digits9 p n s hp hn h =>
    refine Says.call h (fun _ => rfl) rfl rfl (two (dec_atom p) (dec_atom n)) (two (dec_ends p) (dec_ends n)) ?_
    show (parseNum (dec p) >>= fun p => parseNum (dec n) >>= fun s =>
        if p ≤ 9 then .ok (.decimal32 s) else if p ≤ 18 then .ok (.decimal64 s)
        else if p ≤ 38 then .ok (.decimal128 s) else if p ≤ 76 then .ok (.decimal256 s)
        else .err .typeParse) = Res.ok (Ty.decimal32 n)
    rw [parseNum_dec hn, parseNum_dec (by omega), Res.bind_ok, Res.bind_ok, if_pos hp]
  | @digits18 p n s hp hp' hn h =>
    refine Says.call h (fun _ => rfl) rfl rfl (two (dec_atom p) (dec_atom n)) (two (dec_ends p) (dec_ends n)) ?_
    show (parseNum (dec p) >>= fun p => parseNum (dec n) >>= fun s =>
        if p ≤ 9 then .ok (.decimal32 s) else if p ≤ 18 then .ok (.decimal64 s)
        else if p ≤ 38 then .ok (.decimal128 s) else if p ≤ 76 then .ok (.decimal256 s)
        else .err .typeParse) = Res.ok (Ty.decimal64 n)
    rw [parseNum_dec hn, parseNum_dec (by omega), Res.bind_ok, Res.bind_ok, if_neg (by omega), if_pos hp']
  | @digits38 p n s hp hp' hn h =>
    refine Says.call h (fun _ => rfl) rfl rfl (two (dec_atom p) (dec_atom n)) (two (dec_ends p) (dec_ends n)) ?_
    show (parseNum (dec p) >>= fun p => parseNum (dec n) >>= fun s =>
        if p ≤ 9 then .ok (.decimal32 s) else if p ≤ 18 then .ok (.decimal64 s)
        else if p ≤ 38 then .ok (.decimal128 s) else if p ≤ 76 then .ok (.decimal256 s)
        else .err .typeParse) = Res.ok (Ty.decimal128 n)
    rw [parseNum_dec hn, parseNum_dec (by omega), Res.bind_ok, Res.bind_ok, if_neg (by omega), if_neg (by omega), if_pos hp']
  | @digits76 p n s hp hp' hn h =>
    refine Says.call h (fun _ => rfl) rfl rfl (two (dec_atom p) (dec_atom n)) (two (dec_ends p) (dec_ends n)) ?_
    show (parseNum (dec p) >>= fun p => parseNum (dec n) >>= fun s =>
        if p ≤ 9 then .ok (.decimal32 s) else if p ≤ 18 then .ok (.decimal64 s)
        else if p ≤ 38 then .ok (.decimal128 s) else if p ≤ 76 then .ok (.decimal256 s)
        else .err .typeParse) = Res.ok (Ty.decimal256 n)
    rw [parseNum_dec hn, parseNum_dec (by omega), Res.bind_ok, Res.bind_ok, if_neg (by omega), if_neg (by omega),
      if_neg (by omega), if_pos hp']
  | @dateTime tz s hz h =>
    refine Says.call h (fun _ => rfl) rfl rfl (one (quote_atom hz)) (one (quoted_ends tz)) ?_
    show (parseTz cfg ('\'' :: tz ++ ['\'']) >>= fun tz => Res.ok (Ty.dateTime tz)) = _
    unfold parseTz
    rw [unquote_quoted, Res.bind_ok, if_pos hz.1]; rfl
  | @dateTime64 p tz s hp hz h =>
    refine Says.call h (fun _ => rfl) rfl rfl (two (dec_atom p) (quote_atom hz)) (two (dec_ends p) (quoted_ends tz)) ?_
    show (parseNum (dec p) >>= fun p => unquote ('\'' :: tz ++ ['\'']) >>= fun tz =>
        if cfg.isTz tz = true then Res.ok (Ty.dateTime64 p tz) else .err .typeParse) = _
    rw [unquote_quoted, parseNum_dec hp, Res.bind_ok, Res.bind_ok, if_pos hz.1]
  | @dateTime64Utc p s hp h =>
    refine Says.call h (fun _ => rfl) rfl rfl (one (dec_atom p)) (one (dec_ends p)) ?_
    show (parseNum (dec p) >>= fun p => Res.ok (Ty.dateTime64 p tzUTC)) = _
    rw [parseNum_dec hp]; rfl
  | @enum8 items s texts hn hl hz h =>
    have hx : ∀ x ∈ texts, ∃ it ∈ items, EnumText it x := by
      intro x hx
      obtain ⟨it, h1, h2⟩ := zip_left hl x hx
      exact ⟨it, h1, hz _ h2⟩
    refine Says.call h (fun _ => rfl) rfl rfl (fun x h => ?_) (fun x h => ?_) ?_
    · obtain ⟨it, h1, h2⟩ := hx x h; exact enumText_atom (hn it h1).1 h2
    · obtain ⟨it, h1, h2⟩ := hx x h; exact enumText_ends h2
    · show (Res.mapL (fun a => parseEnumVariant 8 (trim a)) texts >>= fun vs => Res.ok (Ty.enum8 vs)) = _
      rw [mapL_zip items texts hl (fun p hp => enumText_parse (hn _ (List.of_mem_zip hp).1).1 (hz p hp))]
      rfl
  | @enum16 items s texts hn hl hz h =>
    have hx : ∀ x ∈ texts, ∃ it ∈ items, EnumText it x := by
      intro x hx
      obtain ⟨it, h1, h2⟩ := zip_left hl x hx
      exact ⟨it, h1, hz _ h2⟩
    refine Says.call h (fun _ => rfl) rfl rfl (fun x h => ?_) (fun x h => ?_) ?_
    · obtain ⟨it, h1, h2⟩ := hx x h; exact enumText_atom (hn it h1).1 h2
    · obtain ⟨it, h1, h2⟩ := hx x h; exact enumText_ends h2
    · show (Res.mapL (fun a => parseEnumVariant 16 (trim a)) texts >>= fun vs => Res.ok (Ty.enum16 vs)) = _
      rw [mapL_zip items texts hl (fun p hp => enumText_parse (hn _ (List.of_mem_zip hp).1).1 (hz p hp))]
      rfl
  | @lowCardinality t a s _ h ih =>
    refine Says.call h (fun _ => rfl) rfl rfl (one ih.atom) (one ih.ends) ?_
    show (Ty.parse cfg a >>= fun t => Res.ok (Ty.lowCardinality t)) = _
    rw [ih.parse]; rfl
  | @array t a s _ h ih =>
    refine Says.call h (fun _ => rfl) rfl rfl (one ih.atom) (one ih.ends) ?_
    show (Ty.parse cfg a >>= fun t => Res.ok (Ty.array t)) = _
    rw [ih.parse]; rfl
  | @nullable t a s _ h ih =>
    refine Says.call h (fun _ => rfl) rfl rfl (one ih.atom) (one ih.ends) ?_
    show (Ty.parse cfg a >>= fun t => Res.ok (Ty.nullable t)) = _
    rw [ih.parse]; rfl
  | @map k v a b s _ _ h ih1 ih2 =>
    refine Says.call h (fun _ => rfl) rfl rfl (two ih1.atom ih2.atom) (two ih1.ends ih2.ends) ?_
    show (Ty.parse cfg a >>= fun k => Ty.parse cfg b >>= fun v => Res.ok (Ty.map k v)) = _
    rw [ih1.parse, ih2.parse]; rfl
  | @tuple ts s texts hl _ h ih =>
    have hx : ∀ x ∈ texts, ∃ t, Says cfg t x := by
      intro x hx
      obtain ⟨t, h1, h2⟩ := zip_left hl x hx
      exact ⟨t, ih t x h2⟩
    refine Says.call h (fun _ => rfl) rfl rfl (fun x h => ?_) (fun x h => ?_) ?_
    · obtain ⟨t, h1⟩ := hx x h; exact h1.atom
    · obtain ⟨t, h1⟩ := hx x h; exact h1.ends
    · show (Res.mapL (fun a => Ty.parse cfg (trim a)) texts >>= fun vs => Res.ok (Ty.tuple vs)) = _
      rw [mapL_zip ts texts hl (fun p hp => by
        have := ih p.1 p.2 hp
        rw [this.ends.trim]; exact this.parse)]
      rfl

/-- C92: every name ClickHouse may write for a type of the client's, with whatever white space between its
parts, nested without bound, is read as that type. Missing from the full claim: tuples with named members
and enum names with characters that have a meaning in the syntax, for which it is false
(`C92_server_names_false`). -/
theorem C92_server_names_partial (cfg : Cfg) (t : Ty) (s : Str) (h : Written cfg t s) : Ty.parse cfg s = .ok t :=
  h.says.parse

/-- So a column of a block is read alike whichever of its names the header gives the type: the type is the
one meant, and the rest of the bytes is read as a column of that type. -/
theorem C92_column (cfg : Cfg) (t : Ty) (s name : Str) (h : Written cfg t s) (rows : Nat) (b : Block)
    (hn : (utf8Encode name).length ≤ 2 ^ 30) (hs : (utf8Encode s).length ≤ 2 ^ 30) (rest : Bytes) :
    readColumn cfg rows b (writeString (utf8Encode name) ++ (writeString (utf8Encode s) ++ rest)) =
      (do
        let data ← if rows > 0 then (dePrefix t >>= fun _ => deCol cfg t rows) else pure []
        pure { b with columnTypes := b.columnTypes.insert name t, columnData := b.columnData.insert name data } : Rd Block) rest := by
  unfold readColumn
  rw [Rd.bind_run_ok (readUtf8String_write name _ hn), Rd.bind_run_ok (readUtf8String_write s _ hs)]
  have : (Rd.lift (Ty.parse cfg s) : Rd Ty) rest = .ok (t, rest) := by rw [h.says.parse]; rfl
  rw [Rd.bind_run_ok this]

/-- So no name is written for two types. -/
theorem C92_unambiguous (cfg : Cfg) (t u : Ty) (s : Str) (ht : Written cfg t s) (hu : Written cfg u s) : t = u := by
  have h1 := ht.says.parse
  rw [hu.says.parse] at h1
  cases h1; rfl

theorem call1 {name a : Str} : Call name [a] (name ++ '(' :: a ++ [')']) :=
  ⟨[a], rfl, rfl, by simp; exact ⟨[], [], by simp, by simp [Blank], by simp [Blank]⟩⟩

theorem call2 {name a b w : Str} (hw : Blank w) : Call name [a, b] (name ++ '(' :: (a ++ ',' :: (w ++ b)) ++ [')']) :=
  ⟨[a, w ++ b], rfl, rfl, by
    simp
    exact ⟨⟨[], [], by simp, by simp [Blank], by simp [Blank]⟩, ⟨w, [], by simp, hw, by simp [Blank]⟩⟩⟩

/-- A name as the server writes it. -/
example (cfg : Cfg) : Written cfg (.map (.lowCardinality .string) (.array (.nullable (.decimal64 4))))
    (ch! "Map(LowCardinality(String), Array(Nullable(Decimal(18, 4))))") := by
  have hb : Blank [' '] := by intro c hc; simp at hc; subst hc; rfl
  exact .map (.lowCardinality (.word .string) call1)
    (.array (.nullable (.digits18 (p := 18) (by decide) (by decide) (by decide) (call2 hb)) call1) call1) (call2 (w := [' ']) hb)

/-- And one with an enum. -/
example (cfg : Cfg) : Written cfg (.enum8 [(ch! "on", 1#8), (ch! "off", -1#8)]) (ch! "Enum8('on' = 1, 'off' = -1)") := by
  have hb : Blank [' '] := by intro c hc; simp at hc; subst hc; rfl
  refine .enum8 (texts := [ch! "'on' = 1", ch! "'off' = -1"]) ?_ rfl ?_ (call2 (w := [' ']) hb)
  · intro it hi
    simp at hi
    rcases hi with rfl | rfl <;> exact ⟨⟨rfl, by unfold Separator; decide⟩, by decide⟩
  · intro p hp
    simp at hp
    rcases hp with rfl | rfl <;> exact ⟨[' '], [' '], rfl, hb, hb⟩

/-- Not every name: a tuple with named members is refused; in an enum name a comma is refused, and the
escape of a quote is taken literally. -/
theorem C92_server_names_false (cfg : Cfg) :
    Ty.parse cfg (ch! "Tuple(a UInt8, b String)") = .err .typeParse ∧
    Ty.parse cfg (ch! "Enum8('a, b' = 1)") = .err .typeParse ∧
    Ty.parse cfg (ch! "Enum8('it\\'s' = 1)") = .ok (.enum8 [(ch! "it\\'s", 1#8)]) :=
  ⟨rfl, rfl, rfl⟩

end Klick.Props
