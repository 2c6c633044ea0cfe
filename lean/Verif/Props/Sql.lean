import Verif.SqlLemmas
/-
Properties C23 to C28: query text.
-/
namespace Klick.Props
open Klick Klick.Spec

/-! ## C23 string arguments -/

/-- C23: whatever bytes a string argument holds, its text is a quote followed by something that
ClickHouse's lexer reads, whatever text not beginning with a quote follows, as one literal denoting
exactly those bytes, stopping right after the closing quote. -/
theorem C23_string_literal_partial (ext : Ext) (b : Bytes) (rest : Str) (h : NoQuote rest) :
    ∃ s, (Value.string b).text ext = .ok ('\'' :: s) ∧ readQuoted (s ++ rest) = some (b, rest) := by
  refine ⟨escapeString b ++ ['\''], rfl, ?_⟩
  rw [List.append_assoc]
  exact readQuoted_escape b rest h

/-- C23 for "any text following" is false: when the template puts a quote right after the argument,
the two quotes are one escaped quote and the literal runs on. -/
theorem C23_adjacent_quote_fails (ext : Ext) :
    ∃ (b : Bytes) (s rest : Str), (Value.string b).text ext = .ok ('\'' :: s) ∧
      readQuoted (s ++ rest) ≠ some (b, rest) :=
  ⟨[], ['\''], ['\'', 'a', '\''], rfl, by decide⟩

/-- C23, in place: as part of a larger expression the text is one string literal. -/
theorem C23_string_denotes (ext : Ext) (b : Bytes) :
    ∃ s, (Value.string b).text ext = .ok s ∧ Denotes s (.str b) :=
  ⟨_, rfl, (reads_str _ b (fun rest h => readQuoted_escape b rest h)).denotes⟩

example (ext : Ext) : (Value.string [0x61, 0x27, 0x5C, 0xC3, 0]).text ext = .ok (ch!"'a\\'\\\\\\xC3\\0'") := rfl
example := C23_string_literal_partial ⟨fun _ => [], fun _ => [], fun _ => [], fun _ => [], fun _ _ => none,
  fun _ _ _ => none, fun _ => []⟩ [0x27, 0x20, 0x4F, 0x52] (ch!" OR 1") (by intro c hc; cases hc; decide)

/-! ## C24 positional arguments -/

theorem parseUsize_digits {ds : Str} (hne : ds ≠ []) (hd : ds.all isDigit = true) :
    parseUsize ds = if digitsVal ds < 2 ^ 64 then some (digitsVal ds) else none := by
  have h : parseDigits ds = some (digitsVal ds) := by
    unfold parseDigits
    rw [if_pos (by simp [hne, hd])]
  unfold parseUsize
  split
  · rename_i r
    rw [List.all_eq_true] at hd
    exact absurd (hd '+' (by simp)) (by decide)
  · rw [h]; rfl

theorem texts_get {ext : Ext} : ∀ {args : List Value} {texts : List Str},
    Value.texts ext args = .ok texts → texts.length = args.length ∧
      ∀ (i : Nat) (v : Value), args[i]? = some v → ∃ s, v.text ext = .ok s ∧ texts[i]? = some s := by
  intro args
  induction args with
  | nil => intro texts h; cases h; exact ⟨rfl, by simp⟩
  | cons a args ih =>
    intro texts h
    simp only [Value.texts, Res.bind_eq_ok] at h
    obtain ⟨s, h1, ss, h2, h3⟩ := h
    cases h3
    obtain ⟨hl, hi⟩ := ih h2
    refine ⟨by simp [hl], ?_⟩
    intro i v hv
    cases i with
    | zero => simp at hv; subst hv; exact ⟨s, h1, rfl⟩
    | succ i => simpa using hi i v (by simpa using hv)

theorem argsLoop_eq {ext : Ext} {args : List Value} {texts : List Str}
    (h : Value.texts ext args = .ok texts) (hl : args.length < 2 ^ 64) :
    ∀ (ts : List Token) (out : Str), (∀ t ∈ ts, TokenOk t) →
      argsLoop ext args out ts = .ok (out ++ ts.flatMap (substitute texts)) := by
  obtain ⟨hlen, hget⟩ := texts_get h
  intro ts
  induction ts with
  | nil => intro out _; simp [argsLoop]
  | cons t ts ih =>
    intro out hok
    have hih := fun out => ih out (fun t ht => hok t (by simp [ht]))
    cases t with
    | escapedDollar => simp [argsLoop, hih, substitute]
    | semicolon => simp [argsLoop, hih, substitute, Token.text]
    | other s => simp [argsLoop, hih, substitute, Token.text]
    | clientArgument ds =>
      obtain ⟨hne, hd⟩ := hok (.clientArgument ds) (by simp)
      unfold argsLoop
      rw [parseUsize_digits hne hd]
      by_cases hb : digitsVal ds < 2 ^ 64
      · rw [if_pos hb]
        simp only
        by_cases hr : digitsVal ds ≤ args.length ∧ digitsVal ds > 0
        · rw [if_pos hr]
          have hi : digitsVal ds - 1 < args.length := by omega
          obtain ⟨s, h1, h2⟩ := hget (digitsVal ds - 1) _ (List.getElem?_eq_getElem hi)
          rw [List.getElem?_eq_getElem hi]
          simp only [h1, Res.bind_ok, hih]
          have : substitute texts (.clientArgument ds) = s := by
            simp only [substitute]
            rw [if_pos (by omega), h2]; rfl
          simp [this]
        · rw [if_neg hr, hih]
          have : substitute texts (.clientArgument ds) = '$' :: ds := by
            simp only [substitute]
            by_cases h1 : 1 ≤ digitsVal ds
            · rw [if_pos h1, List.getElem?_eq_none (by omega)]; rfl
            · rw [if_neg h1]
          simp [this, Token.text]
      · rw [if_neg hb]
        simp only [hih]
        have : substitute texts (.clientArgument ds) = '$' :: ds := by
          simp only [substitute]
          rw [if_pos (by omega), List.getElem?_eq_none (by omega)]; rfl
        simp [this, Token.text]

/-- C24: the query sent is the template's tokens in order, each replaced on its own: `$N` by the text
of the N-th argument when there is one, `$$` by a dollar, everything else (including `$N` out of
range, quoted literals, identifiers and comments, which are single tokens) by its own source text.
Since the replacement is per token of the template, text brought in by an argument is never
scanned. -/
theorem C24_substitution (ext : Ext) (ts : List Token) (args : List Value) (texts : List Str)
    (hts : ∀ t ∈ ts, TokenOk t) (hargs : args.length < 2 ^ 64)
    (htexts : Value.texts ext args = .ok texts) :
    parseQueryArguments ext ts args = .ok (ts.flatMap (substitute texts)) := by
  unfold parseQueryArguments
  rw [argsLoop_eq htexts hargs ts [] hts]
  rfl

/-- C24: the N-th argument's text is the rendering of the N-th argument and nothing else. -/
theorem C24_arguments_in_order (ext : Ext) (args : List Value) (texts : List Str)
    (htexts : Value.texts ext args = .ok texts) (i : Nat) (v : Value) (hv : args[i]? = some v) :
    ∃ s, v.text ext = .ok s ∧ texts[i]? = some s := (texts_get htexts).2 i v hv

/-- C24: a template without placeholders is sent unchanged, whatever the arguments. -/
theorem C24_verbatim (ext : Ext) (ts : List Token) (args : List Value)
    (h : ∀ t ∈ ts, (∃ s, t = .other s) ∨ t = .semicolon) :
    parseQueryArguments ext ts args = .ok (source ts) := by
  unfold parseQueryArguments source
  have : ∀ (out : Str), argsLoop ext args out ts = .ok (out ++ ts.flatMap Token.text) := by
    induction ts with
    | nil => simp [argsLoop]
    | cons t ts ih =>
      intro out
      have ih := fun out => ih (fun t ht => h t (by simp [ht])) out
      rcases h t (by simp) with ⟨s, rfl⟩ | rfl
      · simp [argsLoop, ih, Token.text]
      · simp [argsLoop, ih, Token.text]
  simpa using this []

example (ext : Ext) : parseQueryArguments ext
    [.other (ch!"a="), .clientArgument ['1'], .other ['+'], .clientArgument ['0', '2'], .escapedDollar,
      .clientArgument ['3'], .other (ch!"'$1'")]
    [.string [0x24, 0x32], .uint8 7] = .ok (ch!"a='$2'+7$$3'$1'") := rfl

/-! ## C25 splitting scripts -/

/-- The pieces between semicolons, each with its own. -/
def pieces : List Token → List Str
  | [] => [[]]
  | .semicolon :: ts => [';'] :: pieces ts
  | t :: ts =>
    match pieces ts with
    | [] => [t.text]
    | p :: ps => (t.text ++ p) :: ps

theorem pieces_ne_nil (ts : List Token) : pieces ts ≠ [] := by
  cases ts with
  | nil => simp [pieces]
  | cons t ts =>
    cases t <;> simp only [pieces] <;> first | (split <;> simp) | simp

theorem pieces_step {t : Token} (h : t ≠ .semicolon) (ts : List Token) :
    ∃ p ps, pieces ts = p :: ps ∧ pieces (t :: ts) = (t.text ++ p) :: ps := by
  cases hp : pieces ts with
  | nil => exact absurd hp (pieces_ne_nil ts)
  | cons p ps =>
    refine ⟨p, ps, rfl, ?_⟩
    cases t <;> first | exact absurd rfl h | simp [pieces, hp]

theorem splitLoop_eq (ts : List Token) : ∀ (out : List Str) (cur : Str),
    ∃ p ps, pieces ts = p :: ps ∧ splitLoop out cur ts = out ++ (cur ++ p) :: ps := by
  induction ts with
  | nil => intro out cur; exact ⟨[], [], rfl, by simp [splitLoop]⟩
  | cons t ts ih =>
    intro out cur
    by_cases h : t = .semicolon
    · subst h
      obtain ⟨p, ps, h1, h2⟩ := ih (out ++ [cur ++ [';']]) []
      refine ⟨[';'], pieces ts, rfl, ?_⟩
      simp only [splitLoop]
      rw [h2, h1]
      simp
    · obtain ⟨p, ps, h1, h2⟩ := pieces_step h ts
      obtain ⟨p', ps', h3, h4⟩ := ih out (cur ++ t.text)
      rw [h1] at h3
      cases h3
      refine ⟨t.text ++ p, ps, h2, ?_⟩
      have : splitLoop out cur (t :: ts) = splitLoop out (cur ++ t.text) ts := by
        cases t <;> first | exact absurd rfl h | rfl
      rw [this, h4]
      simp

theorem padded_of (ps : List Str) :
    Padded ps ((ps.map trim).filter (fun s => !s.isEmpty)) := by
  induction ps with
  | nil => exact .nil
  | cons p ps ih =>
    obtain ⟨w, w', e, h1, h2⟩ := trim_spec p
    simp only [List.map_cons, List.filter_cons]
    by_cases hp : (!(trim p).isEmpty) = true
    · rw [if_pos hp]
      conv => arg 1; rw [e]
      exact .stmt h1 h2 ih
    · rw [if_neg hp]
      refine .blank ?_ ih
      have : trim p = [] := by simpa using hp
      rw [this] at e
      rw [e]
      intro c hc
      simp only [List.append_nil, List.mem_append] at hc
      rcases hc with hc | hc
      · exact h1 c hc
      · exact h2 c hc

/-- The tokens of a piece: no semicolon token except, in all pieces but the last, a final one. -/
theorem pieces_groups (ts : List Token) :
    ∃ (groups : List (List Token)) (last : List Token),
      ts = (groups.map (· ++ [Token.semicolon])).flatten ++ last ∧
      (∀ g ∈ groups, Token.semicolon ∉ g) ∧ Token.semicolon ∉ last ∧
      pieces ts = groups.map (fun g => source g ++ [';']) ++ [source last] := by
  induction ts with
  | nil => exact ⟨[], [], rfl, by simp, by simp, rfl⟩
  | cons t ts ih =>
    obtain ⟨groups, last, e, h1, h2, h3⟩ := ih
    by_cases h : t = .semicolon
    · subst h
      refine ⟨[] :: groups, last, by simp [e], ?_, h2, ?_⟩
      · intro g hg
        rcases List.mem_cons.mp hg with rfl | hg
        · simp
        · exact h1 g hg
      · simp [pieces, h3, source]
    · obtain ⟨p, ps, hp1, hp2⟩ := pieces_step h ts
      cases groups with
      | nil =>
        refine ⟨[], t :: last, by simpa using e, by simp, by simp [h2, Ne.symm h], ?_⟩
        rw [hp1] at h3
        simp only [List.map_nil, List.nil_append, List.cons.injEq] at h3
        rw [hp2, h3.1, h3.2]
        simp [source]
      | cons g groups =>
        refine ⟨(t :: g) :: groups, last, by simp [e], ?_, h2, ?_⟩
        · intro g' hg'
          rcases List.mem_cons.mp hg' with rfl | hg'
          · have := h1 g (by simp)
            simp [this, Ne.symm h]
          · exact h1 g' (by simp [hg'])
        · rw [hp1] at h3
          simp only [List.map_cons, List.cons_append, List.cons.injEq] at h3
          rw [hp2, h3.1, h3.2]
          simp [source]

theorem trim_trimmed (s : Str) : Trimmed (trim s) := by
  constructor
  · intro c hc
    have hd : ∀ (l : Str) (c : Char), (l.dropWhile isWs).head? = some c → isWs c = false := by
      intro l
      induction l with
      | nil => intro c hc; cases hc
      | cons x l ih =>
        intro c hc
        by_cases hx : isWs x = true
        · rw [List.dropWhile_cons_of_pos hx] at hc; exact ih c hc
        · rw [List.dropWhile_cons_of_neg hx] at hc
          simp at hc; subst hc; simpa using hx
    -- the head of the trimmed text is the head of the left-trimmed text
    obtain ⟨w, e, _⟩ := trimEnd_spec (s.dropWhile isWs)
    have : (s.dropWhile isWs).head? = some c := by
      rw [e]
      unfold trim at hc
      cases ht : trimEnd (s.dropWhile isWs) with
      | nil => rw [ht] at hc; cases hc
      | cons x l => rw [ht] at hc; simpa using hc
    exact hd s c this
  · intro c hc
    unfold trim trimEnd at hc
    rw [List.getLast?_reverse] at hc
    have hd : ∀ (l : Str) (c : Char), (l.dropWhile isWs).head? = some c → isWs c = false := by
      intro l
      induction l with
      | nil => intro c hc; cases hc
      | cons x l ih =>
        intro c hc
        by_cases hx : isWs x = true
        · rw [List.dropWhile_cons_of_pos hx] at hc; exact ih c hc
        · rw [List.dropWhile_cons_of_neg hx] at hc
          simp at hc; subst hc; simpa using hx
    exact hd _ c hc

/-- C25: a script's tokens fall into groups ended by a semicolon token, and a last group without one;
the statements are, in order, the source texts of these groups (each with its semicolon) without the
white space around them, empty ones dropped. A semicolon inside another token (a quoted literal, an
identifier, a comment, a heredoc) therefore never splits, and nothing but white space is lost. -/
theorem C25_split (ts : List Token) :
    ∃ (groups : List (List Token)) (last : List Token),
      ts = (groups.map (· ++ [Token.semicolon])).flatten ++ last ∧
      (∀ g ∈ groups, Token.semicolon ∉ g) ∧ Token.semicolon ∉ last ∧
      Padded (groups.map (fun g => source g ++ [';']) ++ [source last]) (splitQueryStatements ts) := by
  obtain ⟨groups, last, e, h1, h2, h3⟩ := pieces_groups ts
  refine ⟨groups, last, e, h1, h2, ?_⟩
  unfold splitQueryStatements
  obtain ⟨p, ps, hp, hs⟩ := splitLoop_eq ts [] []
  rw [hs, ← h3, hp]
  exact padded_of _

/-- C25: every statement is non-empty and has no white space at its ends. -/
theorem C25_trimmed (ts : List Token) (s : Str) (h : s ∈ splitQueryStatements ts) :
    s ≠ [] ∧ Trimmed s := by
  unfold splitQueryStatements at h
  rw [List.mem_filter, List.mem_map] at h
  obtain ⟨⟨p, _, rfl⟩, h⟩ := h
  exact ⟨by simpa using h, trim_trimmed p⟩

example : splitQueryStatements [.other ['X'], .semicolon, .other ['\n'], .other (ch!"'a;b'"), .semicolon,
    .other ['\n', '\n']] = [ch!"X;", ch!"'a;b';"] := by decide

/-! ## C26 SELECT builder -/

theorem drain_eq (sep fin : Str) (fs : List Frag) (out : Str) :
    drain sep fin out fs = (collectRes fs >>= fun ss =>
      .ok (out ++ (if ss.isEmpty then [] else joinWith sep ss ++ fin))) := by
  induction fs generalizing out with
  | nil => simp [drain, collectRes]
  | cons f fs ih =>
    unfold drain collectRes
    cases f with
    | err e => rfl
    | panic => rfl
    | ok s =>
      simp only [Res.bind_ok]
      rw [ih]
      cases hc : collectRes fs with
      | err e => rfl
      | panic => rfl
      | ok ss =>
        simp only [Res.bind_ok]
        cases fs with
        | nil => cases hc; simp [joinWith]
        | cons g gs =>
          cases ss with
          | nil =>
            exfalso
            unfold collectRes at hc
            simp only [Res.bind_eq_ok] at hc
            obtain ⟨_, _, _, _, h⟩ := hc
            cases h
          | cons x xs => simp [joinWith, List.append_assoc]

theorem listClause_eq (head sep fin tail : Str) (fs : List Frag) (out : Str) :
    listClause head sep fin tail fs out = (collectRes fs >>= fun ss =>
      .ok (out ++ clause head sep (fin ++ tail) ss)) := by
  unfold listClause
  cases fs with
  | nil => simp [collectRes, clause]
  | cons f fs =>
    rw [if_neg (by simp), drain_eq]
    cases hc : collectRes (f :: fs) with
    | err e => rfl
    | panic => rfl
    | ok ss =>
      simp only [Res.bind_ok]
      have : ss.isEmpty = false := by
        unfold collectRes at hc
        simp only [Res.bind_eq_ok] at hc
        obtain ⟨_, _, _, _, h⟩ := hc
        cases h; rfl
      simp [clause, this]

theorem optClause_eq (head : Str) (f : Option Frag) (out : Str) :
    optClause head f out = (collectRes f.toList >>= fun ss => .ok (out ++ clause head [] ['\n'] ss)) := by
  cases f with
  | none => simp [optClause, collectRes, clause]
  | some f => cases f <;> simp [optClause, collectRes, clause, joinWith]

theorem drainExprs_eq (fs : List Frag) (out : Str) :
    drain (ch!",\n") ['\n'] out fs = (collectRes fs >>= fun ss => .ok (out ++ clause [] (ch!",\n") ['\n'] ss)) := by
  rw [drain_eq]
  cases collectRes fs with
  | err e => rfl
  | panic => rfl
  | ok ss => cases ss <;> simp [clause]

theorem distinct_eq (d : Bool) (fs : List Frag) (out : Str) :
    distinctClause d fs out =
    (collectRes (if d then [] else fs) >>= fun ss => .ok (out ++
      (if d then ch!"DISTINCT\n" else clause (ch!"DISTINCT ON (") [','] (ch!")\n") ss))) := by
  unfold distinctClause
  cases d with
  | true => simp [collectRes]
  | false => rw [if_neg (by simp), listClause_eq]; simp

theorem collectRes_append {α : Type} (a b : List (Res α)) :
    collectRes (a ++ b) = (collectRes a >>= fun x => collectRes b >>= fun y => .ok (x ++ y)) := by
  induction a with
  | nil => simp only [List.nil_append, collectRes, Res.bind_ok]; cases collectRes b <;> rfl
  | cons r a ih =>
    simp only [List.cons_append, collectRes, ih]
    cases r with
    | err e => rfl
    | panic => rfl
    | ok x =>
      simp only [Res.bind_ok]
      cases collectRes a with
      | err e => rfl
      | panic => rfl
      | ok xs => simp only [Res.bind_ok]; cases collectRes b <;> rfl

theorem collectRes_map_ok {α : Type} (l : List α) : collectRes (l.map Res.ok) = .ok l := by
  induction l with
  | nil => rfl
  | cons x l ih => simp [collectRes, ih]

/-- C26, rendering: a builder whose fragments all converted renders exactly the statement with these
clauses: ClickHouse's clause order, conditions of PREWHERE, WHERE and HAVING each in parentheses
joined by AND, items of a clause in the order they were added. -/
theorem C26_renders (c : Clauses) : c.builder.build = .ok c.sql := by
  unfold SelectBuilder.build Clauses.builder Clauses.sql
  simp only [listClause_eq, optClause_eq, drainExprs_eq, distinct_eq]
  have hd : (if c.distinct = true then [] else List.map Res.ok c.distinctOn) =
      (if c.distinct = true then [] else c.distinctOn).map Res.ok := by cases c.distinct <;> rfl
  have ho : ∀ o : Option Str, (o.map Res.ok).toList = o.toList.map (Res.ok (α := Str)) := by
    intro o; cases o <;> rfl
  rw [hd]
  simp only [ho, collectRes_map_ok, Res.bind_ok]
  cases c.distinct <;> simp [List.append_assoc]

/-- C26, errors: building succeeds exactly when every retained fragment converted, and otherwise
reports the error of the first failing fragment in clause order. -/
theorem C26_first_error (b : SelectBuilder) (pre post : List Frag) (texts : List Str) (e : Err)
    (h : retained b = pre ++ Res.err e :: post) (hpre : collectRes pre = .ok texts) :
    b.build = .err e := by
  have hall : collectRes (retained b) = .err e := by
    rw [h, collectRes_append, hpre]; rfl
  have : (b.build >>= fun _ => Res.ok ()) = (collectRes (retained b) >>= fun _ => .ok ()) := by
    unfold SelectBuilder.build retained
    simp only [listClause_eq, optClause_eq, drainExprs_eq, distinct_eq, collectRes_append]
    cases collectRes b.withs <;> simp only [Res.bind_ok, Res.bind_err, Res.bind_panic]
    cases collectRes (if b.distinct = true then [] else b.distinctOn) <;>
      simp only [Res.bind_ok, Res.bind_err, Res.bind_panic]
    cases collectRes b.exprs <;> simp only [Res.bind_ok, Res.bind_err, Res.bind_panic]
    cases b.frm <;> simp only [collectRes, Res.bind_ok, Res.bind_err, Res.bind_panic]
    cases collectRes b.sample.toList <;> simp only [Res.bind_ok, Res.bind_err, Res.bind_panic]
    cases collectRes b.arrayJoins <;> simp only [Res.bind_ok, Res.bind_err, Res.bind_panic]
    cases collectRes b.joins <;> simp only [Res.bind_ok, Res.bind_err, Res.bind_panic]
    cases collectRes b.prewhere <;> simp only [Res.bind_ok, Res.bind_err, Res.bind_panic]
    cases collectRes b.where_ <;> simp only [Res.bind_ok, Res.bind_err, Res.bind_panic]
    cases collectRes b.groupBy <;> simp only [Res.bind_ok, Res.bind_err, Res.bind_panic]
    cases collectRes b.having <;> simp only [Res.bind_ok, Res.bind_err, Res.bind_panic]
    cases collectRes b.orderBy.toList <;> simp only [Res.bind_ok, Res.bind_err, Res.bind_panic]
    cases collectRes b.limit.toList <;> simp only [Res.bind_ok, Res.bind_err, Res.bind_panic]
    cases collectRes b.offset.toList <;> simp only [Res.bind_ok, Res.bind_err, Res.bind_panic]
    cases collectRes b.settings.toList <;> simp only [Res.bind_ok, Res.bind_err, Res.bind_panic]
    cases collectRes b.union.toList <;> simp only [Res.bind_ok, Res.bind_err, Res.bind_panic]
  rw [hall] at this
  cases hb : b.build with
  | ok x => rw [hb] at this; cases this
  | err e' => rw [hb] at this; cases this; rfl
  | panic => rw [hb] at this; cases this

/-- C26, collecting: after any sequence of calls each list clause holds exactly the fragments given to
it, in call order, whatever calls on other clauses came in between; each single clause holds the last
fragment given to it. -/
theorem C26_collects (frm : Frag) (cs : List SelectCall) :
    let b := SelectBuilder.calls frm cs
    b.frm = frm ∧ b.withs = fragsOf selWith cs ∧ b.exprs = fragsOf selSelect cs ∧
    b.arrayJoins = fragsOf selArrayJoin cs ∧ b.joins = fragsOf selJoin cs ∧
    b.prewhere = fragsOf selPrewhere cs ∧ b.where_ = fragsOf selWhere cs ∧
    b.groupBy = fragsOf selGroupBy cs ∧ b.having = fragsOf selHaving cs ∧
    b.sample = (fragsOf selSample cs).getLast? ∧ b.orderBy = (fragsOf selOrderBy cs).getLast? ∧
    b.limit = (fragsOf selLimit cs).getLast? ∧ b.offset = (fragsOf selOffset cs).getLast? ∧
    b.settings = (fragsOf selSettings cs).getLast? ∧ b.union = (fragsOf selUnion cs).getLast? := by
  suffices h : ∀ (rev : List SelectCall), let cs := rev.reverse
      let b := SelectBuilder.calls frm cs
      b.frm = frm ∧ b.withs = fragsOf selWith cs ∧ b.exprs = fragsOf selSelect cs ∧
      b.arrayJoins = fragsOf selArrayJoin cs ∧ b.joins = fragsOf selJoin cs ∧
      b.prewhere = fragsOf selPrewhere cs ∧ b.where_ = fragsOf selWhere cs ∧
      b.groupBy = fragsOf selGroupBy cs ∧ b.having = fragsOf selHaving cs ∧
      b.sample = (fragsOf selSample cs).getLast? ∧ b.orderBy = (fragsOf selOrderBy cs).getLast? ∧
      b.limit = (fragsOf selLimit cs).getLast? ∧ b.offset = (fragsOf selOffset cs).getLast? ∧
      b.settings = (fragsOf selSettings cs).getLast? ∧ b.union = (fragsOf selUnion cs).getLast? by
    have := h cs.reverse
    rwa [List.reverse_reverse] at this
  intro rev
  induction rev with
  | nil => exact ⟨rfl, rfl, rfl, rfl, rfl, rfl, rfl, rfl, rfl, rfl, rfl, rfl, rfl, rfl, rfl⟩
  | cons c rev ih =>
    simp only [List.reverse_cons]
    have e : SelectBuilder.calls frm (rev.reverse ++ [c]) = (SelectBuilder.calls frm rev.reverse).call c := by
      simp [SelectBuilder.calls, List.foldl_append]
    rw [e]
    simp only at ih
    generalize SelectBuilder.calls frm rev.reverse = b at ih
    have hf : ∀ p, fragsOf p (rev.reverse ++ [c]) = fragsOf p rev.reverse ++ (p c).toList := by
      intro p
      simp only [fragsOf, List.filterMap_append]
      cases h : p c <;> simp [h]
    simp only [hf]
    obtain ⟨h1, h2, h3, h4, h5, h6, h7, h8, h9, h10, h11, h12, h13, h14, h15⟩ := ih
    cases c <;> simp [SelectBuilder.call, selWith, selSelect, selSample, selArrayJoin, selJoin, selPrewhere,
      selWhere, selGroupBy, selHaving, selOrderBy, selLimit, selOffset, selSettings, selUnion, h1, h2, h3, h4,
      h5, h6, h7, h8, h9, h10, h11, h12, h13, h14, h15]

/-- C26, DISTINCT: the flag and the ON list depend only on the DISTINCT calls among the calls: a
`distinct` call drops the ON list collected so far, a `distinct_on` call clears the flag. -/
theorem C26_distinct (frm : Frag) (cs : List SelectCall) (c : SelectCall) :
    let b := SelectBuilder.calls frm cs
    let b' := SelectBuilder.calls frm (cs ++ [c])
    (b'.distinct, b'.distinctOn) = match c with
      | .distinct d => (d, [])
      | .distinctOn f => (false, b.distinctOn ++ [f])
      | _ => (b.distinct, b.distinctOn) := by
  simp only
  have e : SelectBuilder.calls frm (cs ++ [c]) = (SelectBuilder.calls frm cs).call c := by
    simp [SelectBuilder.calls, List.foldl_append]
  rw [e]
  cases c <;> rfl

/-- C26, order of calls on different clauses does not matter: two call sequences that agree clause by
clause build the same query. -/
theorem C26_order_independent (frm : Frag) (cs cs' : List SelectCall)
    (h : ∀ p ∈ [selWith, selSelect, selSample, selArrayJoin, selJoin, selPrewhere, selWhere, selGroupBy,
      selHaving, selOrderBy, selLimit, selOffset, selSettings, selUnion], fragsOf p cs = fragsOf p cs')
    (hd : distinctCalls cs = distinctCalls cs') :
    (SelectBuilder.calls frm cs).build = (SelectBuilder.calls frm cs').build := by
  have hdist : ∀ cs, ((SelectBuilder.calls frm cs).distinct, (SelectBuilder.calls frm cs).distinctOn) =
      ((SelectBuilder.calls frm (distinctCalls cs)).distinct, (SelectBuilder.calls frm (distinctCalls cs)).distinctOn) := by
    intro cs
    unfold SelectBuilder.calls
    have : ∀ (b b' : SelectBuilder), b.distinct = b'.distinct → b.distinctOn = b'.distinctOn →
        ((cs.foldl SelectBuilder.call b).distinct, (cs.foldl SelectBuilder.call b).distinctOn) =
        (((distinctCalls cs).foldl SelectBuilder.call b').distinct,
          ((distinctCalls cs).foldl SelectBuilder.call b').distinctOn) := by
      induction cs with
      | nil => intro b b' h1 h2; simp [distinctCalls, h1, h2]
      | cons c cs ih =>
        intro b b' h1 h2
        cases c <;> (simp only [distinctCalls, List.filter_cons, List.foldl_cons] <;>
          first
          | (apply ih <;> simp [SelectBuilder.call, h1, h2])
          | (simp only [if_neg Bool.false_ne_true]; apply ih <;> simp [SelectBuilder.call, h1, h2])
          | (simp only [if_true, List.foldl_cons]; apply ih <;> simp [SelectBuilder.call, h1, h2]))
    exact this _ _ rfl rfl
  have hds : ((SelectBuilder.calls frm cs).distinct, (SelectBuilder.calls frm cs).distinctOn) =
      ((SelectBuilder.calls frm cs').distinct, (SelectBuilder.calls frm cs').distinctOn) := by
    rw [hdist cs, hdist cs', hd]
  obtain ⟨a1, a2, a3, a4, a5, a6, a7, a8, a9, a10, a11, a12, a13, a14, a15⟩ := C26_collects frm cs
  obtain ⟨b1, b2, b3, b4, b5, b6, b7, b8, b9, b10, b11, b12, b13, b14, b15⟩ := C26_collects frm cs'
  simp only [List.mem_cons, List.not_mem_nil, or_false, forall_eq_or_imp, forall_eq] at h
  obtain ⟨c1, c2, c3, c4, c5, c6, c7, c8, c9, c10, c11, c12, c13, c14⟩ := h
  rw [Prod.mk.injEq] at hds
  have : SelectBuilder.calls frm cs = SelectBuilder.calls frm cs' := by
    generalize SelectBuilder.calls frm cs = b at *
    generalize SelectBuilder.calls frm cs' = b' at *
    cases b; cases b'
    simp_all
  rw [this]

/-- C26: "any failing argument" is meant of retained fragments: an overwritten clause takes its error
with it. -/
theorem C26_overwritten_error_dropped :
    ∃ cs, SelectCall.orderBy (.err .typeParse) ∈ cs ∧
      ∃ s, (SelectBuilder.calls (.ok ['t']) cs).build = .ok s :=
  ⟨[.orderBy (.err .typeParse), .orderBy (.ok ['a'])], by simp, _, rfl⟩

example : (SelectBuilder.calls (.ok ['t']) [.where_ (.ok (ch!"a = 1")), .select (.ok ['a']),
    .limit (.ok ['5']), .where_ (.ok (ch!"b OR c")), .select (.ok ['b'])]).build =
    .ok (ch!"SELECT\na,\nb\nFROM t\nWHERE (a = 1) AND\n(b OR c)\nLIMIT 5\n") := rfl
example := C26_first_error (SelectBuilder.calls (.ok ['t']) [.where_ (.err .typeParse), .limit (.err .io)])
  [.ok ['t']] [.err .io] [['t']] .typeParse rfl rfl

/-! ## C27 literals -/

theorem reads_digits {ds : Str} (hne : ds ≠ []) (hd : ds.all isDigit = true) :
    Reads ds (.num (digitsVal ds) 0) := by
  cases hds : ds with
  | nil => exact absurd hds hne
  | cons c r =>
    have hc : isDigit c = true := by
      rw [List.all_eq_true] at hd
      exact hd c (by simp [hds])
    rw [← hds]
    refine reads_number hds (by simp [hc]) ?_
    intro rest hrest
    rw [readNumber_pos, readUnsigned_decimal, readDecimal_int hd hne hrest.digit]
    · rfl
    · intro r'
      rcases digits_not_hex hd hrest.notx r' with h | h
      · exact h
      · exact absurd h hne
    · intro r' h
      rw [hds] at h
      simp only [List.cons_append, List.cons.injEq] at h
      rw [h.1] at hc
      exact absurd hc (by decide)

theorem reads_pad2 (n : Nat) : Reads (pad2 n) (.num n 0) := by
  unfold pad2
  split
  · have h := reads_digits (ds := '0' :: dec n) (by simp) (by simp [dec_digits]; decide)
    have e : digitsVal ('0' :: dec n) = n := by
      have := digitsVal_dec n
      unfold digitsVal at *
      simpa using this
    rwa [e] at h
  · exact reads_dec n

theorem hex_chars {bs : Bytes} {c : Char}
    (h : c ∈ (bs.map (fun b => [hexL (b.toNat / 16), hexL (b.toNat % 16)])).flatten) : c ≠ '\'' ∧ c ≠ '\\' := by
  have key : ∀ n : Nat, n < 16 → hexL n ≠ '\'' ∧ hexL n ≠ '\\' := by
    have : ∀ m : Fin 16, hexL m.val ≠ '\'' ∧ hexL m.val ≠ '\\' := by decide
    intro n hn; exact this ⟨n, hn⟩
  obtain ⟨l, hl, hc⟩ := List.mem_flatten.mp h
  obtain ⟨b, _, rfl⟩ := List.mem_map.mp hl
  have := b.isLt
  simp only [List.mem_cons, List.not_mem_nil, or_false] at hc
  rcases hc with rfl | rfl
  · exact key _ (by omega)
  · exact key _ (by omega)

theorem uuidText_chars (x : BitVec 128) : ∀ c ∈ uuidText x, c ≠ '\'' ∧ c ≠ '\\' := by
  intro c hc
  unfold uuidText at hc
  simp only [List.mem_append, List.mem_cons, List.not_mem_nil, or_false] at hc
  have sub : ∀ (l : List Str), (∀ y ∈ l, y ∈ (be 16 x.toNat).map (fun b => [hexL (b.toNat / 16), hexL (b.toNat % 16)])) →
      c ∈ l.flatten → c ≠ '\'' ∧ c ≠ '\\' := by
    intro l hl h
    apply hex_chars (bs := be 16 x.toNat)
    obtain ⟨y, hy, hcy⟩ := List.mem_flatten.mp h
    exact List.mem_flatten.mpr ⟨y, hl y hy, hcy⟩
  have dash : c = '-' → c ≠ '\'' ∧ c ≠ '\\' := by rintro rfl; decide
  rcases hc with (((((((h | h) | h) | h) | h) | h) | h) | h) | h
  · exact sub _ (fun y hy => List.mem_of_mem_take hy) h
  · exact dash h
  · exact sub _ (fun y hy => List.mem_of_mem_drop (List.mem_of_mem_take hy)) h
  · exact dash h
  · exact sub _ (fun y hy => List.mem_of_mem_drop (List.mem_of_mem_take hy)) h
  · exact dash h
  · exact sub _ (fun y hy => List.mem_of_mem_drop (List.mem_of_mem_take hy)) h
  · exact dash h
  · exact sub _ (fun y hy => List.mem_of_mem_drop hy) h

theorem ipv4Text_eq (x : BitVec 32) : ipv4Text x = dottedQuad x.toNat := by
  have hx := x.isLt
  simp only [ipv4Text, be, le, List.reverse_cons, List.reverse_nil, List.nil_append, List.cons_append, BitVec.toNat_ofNat, dottedQuad]
  have h1 : x.toNat / 256 / 256 / 256 % 2 ^ 8 = x.toNat / 256 ^ 3 % 256 := by omega
  have h2 : x.toNat / 256 / 256 % 2 ^ 8 = x.toNat / 256 ^ 2 % 256 := by omega
  rw [h1, h2]

theorem hexL_eq (n k : Nat) : hexL (n / 16 ^ k % 16) = hexDigit n k := by
  have key : ∀ m : Fin 16, hexL m.val = (ch! "0123456789abcdef").getD m.val '0' := by decide
  exact key ⟨n / 16 ^ k % 16, Nat.mod_lt _ (by omega)⟩

theorem hexL_pair (n k : Nat) : [hexL ((BitVec.ofNat 8 (n / 256 ^ k)).toNat / 16), hexL ((BitVec.ofNat 8 (n / 256 ^ k)).toNat % 16)] =
    [hexDigit n (2 * k + 1), hexDigit n (2 * k)] := by
  have e : 256 ^ k = 16 ^ (2 * k) := by rw [Nat.pow_mul]
  have p8 : (2 : Nat) ^ 8 = 256 := rfl
  rw [← hexL_eq, ← hexL_eq, BitVec.toNat_ofNat, e, p8, Nat.pow_succ 16, ← Nat.div_div_eq_div_mul]
  generalize n / 16 ^ (2 * k) = m
  have a : m % 256 / 16 = m / 16 % 16 := by omega
  have b : m % 256 % 16 = m % 16 := by omega
  rw [a, b]

theorem uuidText_eq (x : BitVec 128) : uuidText x = uuidForm x.toNat := by
  have h0 := hexL_pair x.toNat 0
  simp only [Nat.pow_zero, Nat.div_one] at h0
  have h1 := hexL_pair x.toNat 1
  simp only [Nat.pow_one] at h1
  have hs : ∀ k, x.toNat / 256 ^ k / 256 = x.toNat / 256 ^ (k + 1) := fun k => by rw [Nat.pow_succ, Nat.div_div_eq_div_mul]
  have e : be 16 x.toNat = (List.range 16).reverse.map (fun k => BitVec.ofNat 8 (x.toNat / 256 ^ k)) := by
    have h01 : x.toNat / 256 = x.toNat / 256 ^ 1 := by rw [Nat.pow_one]
    have h00 : BitVec.ofNat 8 x.toNat = BitVec.ofNat 8 (x.toNat / 256 ^ 0) := by rw [Nat.pow_zero, Nat.div_one]
    simp only [be, le]
    rw [h00, h01]
    simp only [hs]
    rfl
  unfold uuidText
  simp only [e, List.map_map, Function.comp_def, hexL_pair]
  rfl

theorem ipv4Text_chars (x : BitVec 32) : ∀ c ∈ ipv4Text x, c ≠ '\'' ∧ c ≠ '\\' := by
  intro c hc
  unfold ipv4Text at hc
  have hdec : ∀ n, c ∈ dec n → c ≠ '\'' ∧ c ≠ '\\' := by
    intro n hn
    have := dec_digits n
    rw [List.all_eq_true] at this
    have := this c hn
    constructor <;> (rintro rfl; revert this; decide)
  have dot : c = '.' → c ≠ '\'' ∧ c ≠ '\\' := by rintro rfl; decide
  split at hc
  · simp only [List.mem_append, List.mem_cons, List.not_mem_nil, or_false] at hc
    rcases hc with (((((h | h) | h) | h) | h) | h) | h
    · exact hdec _ h
    · exact dot h
    · exact hdec _ h
    · exact dot h
    · exact hdec _ h
    · exact dot h
    · exact hdec _ h
  · cases hc

theorem AllPairs_zip {ss ts : List Str} {ls ms : List Lit} (hs : AllRead ss ls) (ht : AllRead ts ms)
    (h : ss.length = ts.length) : AllPairs (ss.zip ts) ls ms := by
  induction hs generalizing ts ms with
  | nil => cases ht with
    | nil => exact .nil
    | cons _ _ => cases h
  | cons a _ ih => cases ht with
    | nil => cases h
    | cons b hb => exact .cons a b (ih hb (by simpa using h))

/-- One argument in a call. -/
theorem items_one {s : Str} {l : Lit} (h : Reads s l) (rest : Str) :
    ∃ n, ∀ m, n ≤ m → readItems m ')' (s ++ ')' :: rest) = some ([l], rest) := by
  have := readItems_commas (close := ')') (.inr rfl) (.cons h .nil) rest
  simpa [commas, commaTail] using this

mutual
/-- Rendering then reading. -/
theorem text_reads (ext : Ext) : ∀ (v : Value) (l : Lit), Literal v → litOf ext v = some l →
    ∃ s, v.text ext = .ok s ∧ Reads s l
  | .int8 x, l, _, h | .int16 x, l, _, h | .int32 x, l, _, h | .int64 x, l, _, h
  | .enum8 x, l, _, h | .enum16 x, l, _, h => by cases h; exact ⟨_, rfl, reads_decInt _⟩
  | .uint8 x, l, _, h | .uint16 x, l, _, h | .uint32 x, l, _, h | .uint64 x, l, _, h => by
    cases h; exact ⟨_, rfl, reads_dec _⟩
  | .int128 x, l, _, h => by
    cases h
    obtain ⟨c, r, h1, h2⟩ := decInt_start x.toInt
    exact ⟨_, rfl, reads_cast (t := ch!"Int128") h1 h2 (by decide) (by simp)
      (fun rest => readNumber_decInt _ (colon_not rest))⟩
  | .uint128 x, l, _, h => by
    cases h
    obtain ⟨c, r, h1, h2⟩ := dec_start x.toNat
    exact ⟨_, rfl, reads_cast (t := ch!"UInt128") h1 h2 (by decide) (by simp)
      (fun rest => readNumber_dec _ (colon_not rest))⟩
  | .int256 x, l, hl, h => by
    cases h
    have e : x.toInt = x.toNat := by
      have : 0 ≤ x.toInt := hl
      rw [BitVec.toInt_eq_toNat_cond] at this ⊢
      have := x.isLt
      split at * <;> omega
    rw [e]
    exact ⟨_, rfl, reads_cast (t := ch!"Int256") (s := hexText x) (c := '0') rfl (by decide) (by decide) (by simp)
      (fun rest => readNumber_hex x (by intro c hc; cases hc; decide))⟩
  | .uint256 x, l, _, h => by
    cases h
    exact ⟨_, rfl, reads_cast (t := ch!"UInt256") (s := hexText x) (c := '0') rfl (by decide) (by decide) (by simp)
      (fun rest => readNumber_hex x (by intro c hc; cases hc; decide))⟩
  | .decimal32 p x, l, hl, h | .decimal64 p x, l, hl, h | .decimal128 p x, l, hl, h => by
    cases h; exact ⟨_, rfl, reads_decimal p _ hl⟩
  | .decimal256 p x, l, hl, h => hl.elim
  | .string b, l, _, h => by
    cases h; exact ⟨_, rfl, reads_str _ b (fun rest h => readQuoted_escape b rest h)⟩
  | .uuid x, l, _, h => by
    cases h
    refine ⟨_, rfl, ?_⟩
    rw [← uuidText_eq]
    have hs := reads_str (uuidText x) _ (readQuoted_ascii _ (uuidText_chars x))
    have := reads_call (w := ch!"toUUID") rfl (by decide) (by decide) (items_one hs)
    simpa [asciiBytes] using this
  | .date d, l, _, h => by
    simp only [litOf, Option.some.injEq] at h
    subst h
    refine ⟨_, rfl, ?_⟩
    have hs := fun rest => readItems_commas (close := ')') (.inr rfl)
      (.cons (reads_dec (civilOf d.toNat).1) (.cons (reads_pad2 (civilOf d.toNat).2.1)
        (.cons (reads_pad2 (civilOf d.toNat).2.2) .nil))) rest
    have := reads_call (w := ch!"makeDate") rfl (by decide) (by decide) hs
    simpa [commas, commaTail, dateText] using this
  | .dateTime tz t, l, _, h => by
    simp only [litOf, Option.map_eq_some_iff] at h
    obtain ⟨s, hs, rfl⟩ := h
    refine ⟨_, by simp only [Value.text, hs]; rfl, ?_⟩
    have hs := reads_str (escapeString (utf8Encode s)) _ (fun rest h => readQuoted_escape _ rest h)
    have := reads_call (w := ch!"parseDateTimeBestEffort") rfl (by decide) (by decide) (items_one hs)
    simpa [asciiBytes] using this
  | .dateTime64 tz t p, l, _, h => by
    simp only [litOf, Option.map_eq_some_iff] at h
    obtain ⟨s, hs, rfl⟩ := h
    refine ⟨_, by simp only [Value.text, hs]; rfl, ?_⟩
    have hs := reads_str (escapeString (utf8Encode s)) _ (fun rest h => readQuoted_escape _ rest h)
    have items : ∀ rest, ∃ n, ∀ m, n ≤ m →
        readItems m ')' (('\'' :: (escapeString (utf8Encode s) ++ ['\'']) ++ ',' :: ' ' :: dec p) ++ ')' :: rest) =
          some ([.str (utf8Encode s), .num p 0], rest) := by
      intro rest
      obtain ⟨n1, hn1⟩ := hs.denotes (',' :: ' ' :: (dec p ++ ')' :: rest)) (stops_sep (.inl rfl))
      obtain ⟨n2, hn2⟩ := (reads_dec p).denotes (')' :: rest) (stops_sep (by simp))
      refine ⟨n1 + n2 + 3, ?_⟩
      intro m hm
      obtain ⟨m, rfl⟩ : ∃ k, m = k + 3 := ⟨m - 3, by omega⟩
      unfold readItems
      simp only [List.cons_append]
      rw [if_neg (by decide)]
      unfold readMore
      have e : '\'' :: (escapeString (utf8Encode s) ++ ['\''] ++ ',' :: ' ' :: dec p ++ ')' :: rest) =
          '\'' :: (escapeString (utf8Encode s) ++ ['\'']) ++ ',' :: ' ' :: (dec p ++ ')' :: rest) := by simp
      rw [e, hn1 (m + 1) (by omega)]
      simp only
      rw [if_neg (by decide), if_pos trivial]
      unfold readMore
      simp only [skipSpace]
      rw [hn2 m (by omega)]
      simp
    have := reads_call (w := ch!"parseDateTime64BestEffort") rfl (by decide) (by decide) items
    simpa [asciiBytes] using this
  | .array xs, l, hl, h => by
    simp only [litOf, Option.map_eq_some_iff] at h
    obtain ⟨ls, h1, rfl⟩ := h
    obtain ⟨ss, h2, h3⟩ := texts_read ext xs ls hl h1
    exact ⟨_, by simp only [Value.text, h2, Res.bind_ok]; rfl, reads_array h3⟩
  | .tuple xs, l, hl, h => by
    simp only [litOf, Option.map_eq_some_iff] at h
    obtain ⟨ls, h1, rfl⟩ := h
    obtain ⟨ss, h2, h3⟩ := texts_read ext xs ls hl.2 h1
    refine ⟨_, by simp only [Value.text, h2, Res.bind_ok]; rfl, reads_tuple h3 ?_⟩
    rw [← h3.length, (texts_get h2).1]
    exact hl.1
  | .null, l, _, h => by cases h; exact ⟨_, rfl, reads_null⟩
  | .map ks vs, l, hl, h => by
    simp only [litOf, Option.bind_eq_some_iff, Option.map_eq_some_iff] at h
    obtain ⟨lk, h1, lv, h2, rfl⟩ := h
    obtain ⟨sk, h3, h4⟩ := texts_read ext ks lk hl.2.1 h1
    obtain ⟨sv, h5, h6⟩ := texts_read ext vs lv hl.2.2 h2
    refine ⟨_, by simp only [Value.text, h3, h5, Res.bind_ok]; rw [if_neg (by simp [hl.1])], ?_⟩
    exact reads_map (AllPairs_zip h4 h6 (by rw [(texts_get h3).1, (texts_get h5).1]; exact hl.1))
  | .ipv4 x, l, _, h => by
    cases h
    rw [← ipv4Text_eq]
    exact ⟨_, rfl, reads_str (ipv4Text x) _ (readQuoted_ascii _ (ipv4Text_chars x))⟩
  | .float32 _, l, _, h | .float64 _, l, _, h | .bfloat16 _, l, _, h | .ipv6 _, l, _, h | .point _, l, _, h
  | .ring _, l, _, h | .polygon _, l, _, h | .multiPolygon _, l, _, h => by cases h
theorem texts_read (ext : Ext) : ∀ (vs : List Value) (ls : List Lit), Literals vs → litsOf ext vs = some ls →
    ∃ ss, Value.texts ext vs = .ok ss ∧ AllRead ss ls
  | [], ls, _, h => by cases h; exact ⟨[], rfl, .nil⟩
  | v :: vs, ls, hl, h => by
    simp only [litsOf, Option.bind_eq_some_iff, Option.map_eq_some_iff] at h
    obtain ⟨l, h1, ls, h2, rfl⟩ := h
    obtain ⟨s, h3, h4⟩ := text_reads ext v l hl.1 h1
    obtain ⟨ss, h5, h6⟩ := texts_read ext vs ls hl.2 h2
    exact ⟨s :: ss, by simp only [Value.texts, h3, h5, Res.bind_ok], .cons h4 h6⟩
end

/-- C27: at any nesting depth, the text of a value without the defects below is a literal that
ClickHouse's grammar reads, in any place where a literal can end, as exactly the value: its integer,
its decimal number, its bytes, its date, its items in order. -/
theorem C27_literal_denotes_partial (ext : Ext) (v : Value) (l : Lit) (hv : Literal v)
    (hl : litOf ext v = some l) : ∃ s, v.text ext = .ok s ∧ Denotes s l := by
  obtain ⟨s, h1, h2⟩ := text_reads ext v l hv hl
  exact ⟨s, h1, h2.denotes⟩

/-- C27 is false of decimals with fewer digits than their scale: 0.05 is sent as 5, and -0.05 as text
that is no number at all. -/
theorem C27_decimal_fails (ext : Ext) :
    (Value.decimal32 2 5).text ext = .ok ['5'] ∧ readLit 2 ['5'] = some (.num 5 0, []) ∧
    (Value.decimal32 2 (-5)).text ext = .ok ['.', '-', '5'] ∧ readLit 2 ['.', '-', '5'] = none :=
  ⟨rfl, rfl, rfl, rfl⟩

/-- C27 is false of negative 256-bit integers: -1 is sent as a positive number. -/
theorem C27_int256_negative_fails (ext : Ext) :
    ∃ s, (Value.int256 (BitVec.ofInt 256 (-1))).text ext = .ok s ∧
      Denotes s (.cast (.num (2 ^ 256 - 1) 0) (ch!"Int256")) := by
  refine ⟨_, rfl, ?_⟩
  have h := reads_cast (t := ch!"Int256") (s := hexText (BitVec.ofInt 256 (-1))) (c := '0') rfl (by decide)
    (by decide) (by simp) (fun rest => readNumber_hex (BitVec.ofInt 256 (-1)) (by intro c hc; cases hc; decide))
  have e : ((BitVec.ofInt 256 (-1)).toNat : Int) = 2 ^ 256 - 1 := by decide
  rw [e] at h
  exact h.denotes

/-- C27 is false of one-element tuples: the parentheses only group, the element itself is denoted. -/
theorem C27_one_tuple_fails (ext : Ext) :
    (Value.tuple [.uint8 1]).text ext = .ok ['(', '1', ')'] ∧
      readLit 5 ['(', '1', ')'] = some (.num 1 0, []) := ⟨rfl, rfl⟩

/-- C27: a 256-bit decimal has no text at all: rendering it panics. -/
theorem C27_decimal256_panics (ext : Ext) (p : Nat) (x : BitVec 256) :
    (Value.decimal256 p x).text ext = .panic := rfl

theorem civilYear_spec : ∀ (fuel y n : Nat), n ≤ fuel →
    yearsSum y ((civilYear fuel y n).1 - y) + (civilYear fuel y n).2 = n ∧ y ≤ (civilYear fuel y n).1 ∧
      (civilYear fuel y n).2 < daysInYear (civilYear fuel y n).1 := by
  intro fuel
  induction fuel with
  | zero =>
    intro y n h
    have hp : 0 < daysInYear y := by unfold daysInYear; split <;> omega
    simp only [civilYear, Nat.sub_self, yearsSum]
    exact ⟨by omega, Nat.le_refl _, by omega⟩
  | succ fuel ih =>
    intro y n h
    unfold civilYear
    have e : (if (y % 4 == 0 && y % 100 != 0) || y % 400 == 0 then 366 else 365) = daysInYear y := rfl
    have hp : 0 < daysInYear y := by unfold daysInYear; split <;> omega
    simp only [e]
    by_cases hn : n < daysInYear y
    · rw [if_pos hn]
      exact ⟨by simp [yearsSum], Nat.le_refl _, hn⟩
    · rw [if_neg hn]
      obtain ⟨h1, h2, h3⟩ := ih (y + 1) (n - daysInYear y) (by omega)
      refine ⟨?_, by omega, h3⟩
      have : (civilYear fuel (y + 1) (n - daysInYear y)).1 - y =
          ((civilYear fuel (y + 1) (n - daysInYear y)).1 - (y + 1)) + 1 := by omega
      rw [this, yearsSum]
      omega

theorem civilMonth_spec (y : Nat) : ∀ (fuel m n : Nat), m + fuel = 12 →
    n < monthsSum y m (fuel + 1) →
    monthsSum y m ((civilMonth fuel y m n).1 - m) + (civilMonth fuel y m n).2 = n ∧
      m ≤ (civilMonth fuel y m n).1 ∧ (civilMonth fuel y m n).1 ≤ 12 ∧
      (civilMonth fuel y m n).2 < daysInMonth y (civilMonth fuel y m n).1 := by
  intro fuel
  induction fuel with
  | zero =>
    intro m n hm h
    simp only [civilMonth, Nat.sub_self, monthsSum] at *
    exact ⟨by omega, Nat.le_refl _, by omega, by omega⟩
  | succ fuel ih =>
    intro m n hm h
    unfold civilMonth
    have e : (if m = 2 then (if (y % 4 == 0 && y % 100 != 0) || y % 400 == 0 then 29 else 28)
      else if m = 4 ∨ m = 6 ∨ m = 9 ∨ m = 11 then 30 else 31) = daysInMonth y m := rfl
    simp only [e]
    by_cases hn : n < daysInMonth y m
    · rw [if_pos hn]
      exact ⟨by simp [monthsSum], Nat.le_refl _, by omega, hn⟩
    · rw [if_neg hn]
      have hs : monthsSum y m (fuel + 1 + 1) = daysInMonth y m + monthsSum y (m + 1) (fuel + 1) := rfl
      obtain ⟨h1, h2, h3, h4⟩ := ih (m + 1) (n - daysInMonth y m) (by omega) (by omega)
      refine ⟨?_, by omega, h3, h4⟩
      have : (civilMonth fuel y (m + 1) (n - daysInMonth y m)).1 - m =
          ((civilMonth fuel y (m + 1) (n - daysInMonth y m)).1 - (m + 1)) + 1 := by omega
      rw [this, monthsSum]
      omega

/-- C27, dates: the year, month and day written into a date's text are an existing date and denote
exactly the value's day number. -/
theorem C27_date_is_right (d : BitVec 16) :
    let c : Civil := ⟨(civilOf d.toNat).1, (civilOf d.toNat).2.1, (civilOf d.toNat).2.2⟩
    c.Valid ∧ c.dayNumber = d.toNat := by
  obtain ⟨h1, h2, h3⟩ := civilYear_spec d.toNat 1970 d.toNat (Nat.le_refl _)
  have hy : ∀ y, monthsSum y 1 12 = daysInYear y := by
    intro y; simp only [monthsSum, daysInMonth, daysInYear]; cases isLeap y <;> rfl
  obtain ⟨g1, g2, g3, g4⟩ := civilMonth_spec (civilYear d.toNat 1970 d.toNat).1 11 1
    (civilYear d.toNat 1970 d.toNat).2 rfl (by rw [hy]; exact h3)
  simp only [Civil.Valid, Civil.dayNumber, civilOf]
  refine ⟨⟨h2, g2, g3, by omega, by omega⟩, ?_⟩
  omega

/-- C27, dates: the text of a date is a call of `makeDate` on the year, month and day of the existing date with that day number. -/
theorem C27_date_literal (ext : Ext) (d : BitVec 16) : ∃ (c : Civil) (s : Str), c.Valid ∧ c.dayNumber = d.toNat ∧ (Value.date d).text ext = .ok s ∧
    Denotes s (.call (ch! "makeDate") [.num c.year 0, .num c.month 0, .num c.day 0]) := by
  obtain ⟨s, h1, h2⟩ := C27_literal_denotes_partial ext (.date d) _ trivial rfl
  exact ⟨_, s, (C27_date_is_right d).1, (C27_date_is_right d).2, h1, h2⟩

/-- C27, UUIDs: the text handed to `toUUID` is the 32 hexadecimal digits of the value with hyphens. -/
theorem C27_uuid_is_right (x : BitVec 128) :
    hexDigitsVal ((uuidText x).filter (fun c => c != '-')) = x.toNat := by
  have hsplit : (uuidText x).filter (fun c => c != '-') =
      ((be 16 x.toNat).flatMap (fun b => [hexL (b.toNat / 16), hexL (b.toNat % 16)])) := by
    have hl : (be 16 x.toNat).length = 16 := by simp [be]
    have key : ∀ n : Nat, n < 16 → (hexL n != '-') = true := by
      have : ∀ m : Fin 16, (hexL m.val != '-') = true := by decide
      intro n hn; exact this ⟨n, hn⟩
    have hkeep : ∀ l : List Byte,
        (l.map (fun b => [hexL (b.toNat / 16), hexL (b.toNat % 16)])).flatten.filter (fun c => c != '-') =
        (l.map (fun b => [hexL (b.toNat / 16), hexL (b.toNat % 16)])).flatten := by
      intro l
      apply List.filter_eq_self.mpr
      intro c hc
      obtain ⟨y, hy, hcy⟩ := List.mem_flatten.mp hc
      obtain ⟨b, _, rfl⟩ := List.mem_map.mp hy
      have := b.isLt
      simp only [List.mem_cons, List.not_mem_nil, or_false] at hcy
      rcases hcy with rfl | rfl
      · exact key _ (by omega)
      · exact key _ (by omega)
    unfold uuidText
    generalize be 16 x.toNat = o at hl
    simp only [List.filter_append, ← List.map_take, ← List.map_drop, hkeep]
    have hd : List.filter (fun c => c != '-') ['-'] = [] := by decide
    rw [hd]
    simp only [List.append_nil, List.flatMap_def, ← List.flatten_append, ← List.map_append]
    congr 2
    have e1 : o = o.take 4 ++ o.drop 4 := (List.take_append_drop 4 o).symm
    have e2 : o.drop 4 = (o.drop 4).take 2 ++ o.drop 6 := by
      have := (List.take_append_drop 2 (o.drop 4)).symm
      rwa [List.drop_drop] at this
    have e3 : o.drop 6 = (o.drop 6).take 2 ++ o.drop 8 := by
      have := (List.take_append_drop 2 (o.drop 6)).symm
      rwa [List.drop_drop] at this
    have e4 : o.drop 8 = (o.drop 8).take 2 ++ o.drop 10 := by
      have := (List.take_append_drop 2 (o.drop 8)).symm
      rwa [List.drop_drop] at this
    simp only [List.append_assoc]
    rw [← e4, ← e3, ← e2, ← e1]
  rw [hsplit]
  have key : ∀ (bs : Bytes) (a : Nat),
      (bs.flatMap (fun b => [hexL (b.toNat / 16), hexL (b.toNat % 16)])).foldl
        (fun a c => 16 * a + (hexVal c).getD 0) a = bs.foldl (fun a b => b.toNat + 256 * a) a := by
    intro bs
    induction bs with
    | nil => intro a; rfl
    | cons b bs ih =>
      intro a
      have hb := b.isLt
      rw [List.flatMap_cons, List.foldl_append]
      simp only [List.foldl_cons, List.foldl_nil]
      rw [hexVal_hexL (by omega), hexVal_hexL (by omega), ih]
      congr 1
      simp only [Option.getD_some]
      omega
  unfold hexDigitsVal
  rw [key]
  have hf : ∀ (bs : Bytes), unLe bs = bs.foldr (fun b a => b.toNat + 256 * a) 0 := by
    intro bs
    induction bs with
    | nil => rfl
    | cons b bs ih => simp [unLe, ih]
  have : (be 16 x.toNat).foldl (fun a b => b.toNat + 256 * a) 0 = unLe (le 16 x.toNat) := by
    rw [hf]; unfold be; rw [List.foldl_reverse]
  rw [this, unLe_le]
  exact Nat.mod_eq_of_lt x.isLt

/-- Renderers for the examples. -/
def exExt : Ext := ⟨fun _ => [], fun _ => [], fun _ => [], fun _ => [], fun _ _ => none, fun _ _ _ => none, fun _ => []⟩

example : (Value.map [.string [0x61], .string [0x62]] [.array [.int8 (-1), .int8 2], .array []]).text exExt =
    .ok (ch!"{'a':[-1,2],'b':[]}") := rfl
example := C27_literal_denotes_partial exExt
  (.map [.string [0x61], .string [0x62]] [.tuple [.int8 (-1), .decimal64 2 (-150)], .array []]) _
  (by simp [Literal, Literals, DigitsCover]; decide) rfl
example : (Value.date 18262).text exExt = .ok (ch!"makeDate(2020,01,01)") := rfl

/-! ## C28 query templates -/

/-- C28: if every argument converts, the query is built from the converted arguments in binding
order. -/
theorem C28_all_converted (ext : Ext) (base : List Token) (args : List Value) :
    finalizeQuery ext base (args.map .ok) = parseQueryArguments ext base args := by
  unfold finalizeQuery
  rw [collectRes_map_ok]
  rfl

/-- C28: if some argument fails, the error of the first failing one is returned, whatever the template
and the later arguments, even when the template never mentions it. -/
theorem C28_first_failure (ext : Ext) (base : List Token) (args : List Value) (e : Err) (later : List (Res Value)) :
    finalizeQuery ext base (args.map .ok ++ .err e :: later) = .err e := by
  unfold finalizeQuery
  rw [collectRes_append, collectRes_map_ok]
  rfl

example : finalizeQuery exExt [.other ['x']] [.ok (.uint8 1), .err .typeParse, .err .io] = .err .typeParse := rfl

end Klick.Props
