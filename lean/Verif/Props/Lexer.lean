import Verif.Spec.Lexer
import Verif.Props.Sql
/-
C24 and C25 on the text of templates and scripts, for every tokenizer that follows the declared patterns.
-/
namespace Klick.Props
open Klick Spec

abbrev ParseStr := Char → Str → Option (Str × Str)

/-! ### regular expressions -/

/-- All characters a regular expression accepts satisfy `p`. -/
def RxWithin (p : Char → Bool) : Rx → Prop
  | .cls q => ∀ c, q c = true → p c = true
  | .eps => True
  | .seq a b => RxWithin p a ∧ RxWithin p b
  | .alt a b => RxWithin p a ∧ RxWithin p b
  | .star a => RxWithin p a

theorem rx_within {p : Char → Bool} {r : Rx} {s : Str} (h : r.Matches s) (hw : RxWithin p r) : ∀ c ∈ s, p c = true := by
  induction h with
  | cls hc => intro c hm; rw [List.mem_singleton] at hm; subst hm; exact hw _ hc
  | eps => intro c hm; cases hm
  | seq _ _ iha ihb =>
    intro c hm
    rcases List.mem_append.1 hm with hm | hm
    · exact iha hw.1 c hm
    · exact ihb hw.2 c hm
  | altL _ ih => exact ih hw.1
  | altR _ ih => exact ih hw.2
  | nil => intro c hm; cases hm
  | more _ _ iha ihb =>
    intro c hm
    rcases List.mem_append.1 hm with hm | hm
    · exact iha hw c hm
    · exact ihb hw c hm

/-- May match the empty text. -/
def rxNullable : Rx → Bool
  | .cls _ => false
  | .eps => true
  | .seq a b => rxNullable a && rxNullable b
  | .alt a b => rxNullable a || rxNullable b
  | .star _ => true

theorem rx_nullable {r : Rx} {s : Str} (h : r.Matches s) : s = [] → rxNullable r = true := by
  induction h with
  | cls _ => intro h; cases h
  | eps => intro _; rfl
  | seq _ _ iha ihb =>
    intro h
    rw [List.append_eq_nil_iff] at h
    simp [rxNullable, iha h.1, ihb h.2]
  | altL _ ih => intro h; simp [rxNullable, ih h]
  | altR _ ih => intro h; simp [rxNullable, ih h]
  | nil => intro _; rfl
  | more _ _ _ _ => intro _; rfl

/-- All characters a match may begin with satisfy `p`. -/
def RxStarts (p : Char → Bool) : Rx → Prop
  | .cls q => ∀ c, q c = true → p c = true
  | .eps => True
  | .seq a b => RxStarts p a ∧ (rxNullable a = true → RxStarts p b)
  | .alt a b => RxStarts p a ∧ RxStarts p b
  | .star a => RxStarts p a

theorem rx_starts {p : Char → Bool} {r : Rx} {s : Str} (h : r.Matches s) (hw : RxStarts p r) :
    ∀ c, s.head? = some c → p c = true := by
  induction h with
  | cls hc => intro c hm; cases hm; exact hw _ hc
  | eps => intro c hm; cases hm
  | @seq a b s t ha hb iha ihb =>
    intro c hm
    cases s with
    | nil => exact ihb (hw.2 (rx_nullable ha rfl)) c hm
    | cons d s => exact iha hw.1 c hm
  | altL _ ih => exact ih hw.1
  | altR _ ih => exact ih hw.2
  | nil => intro c hm; cases hm
  | @more a s t _ _ iha ihb =>
    intro c hm
    cases s with
    | nil => exact ihb hw c hm
    | cons d s => exact iha hw c hm

theorem rx_cls_iff {p : Char → Bool} {s : Str} : (Rx.cls p).Matches s ↔ ∃ c, s = [c] ∧ p c = true := by
  constructor
  · intro h
    cases h with
    | cls hc => exact ⟨_, rfl, hc⟩
  · rintro ⟨c, rfl, hc⟩; exact .cls hc

theorem rx_seq_iff {a b : Rx} {s : Str} : (Rx.seq a b).Matches s ↔ ∃ x y, s = x ++ y ∧ a.Matches x ∧ b.Matches y := by
  constructor
  · intro h
    cases h with
    | seq ha hb => exact ⟨_, _, rfl, ha, hb⟩
  · rintro ⟨x, y, rfl, ha, hb⟩; exact .seq ha hb

theorem rx_chr_iff {c : Char} {s : Str} : (Rx.chr c).Matches s ↔ s = [c] := by
  rw [Rx.chr, rx_cls_iff]
  constructor
  · rintro ⟨d, rfl, hd⟩; rw [eq_of_beq hd]
  · rintro rfl; exact ⟨c, rfl, by simp⟩

theorem rx_eps_iff {s : Str} : Rx.eps.Matches s ↔ s = [] := by
  constructor
  · intro h; cases h; rfl
  · rintro rfl; exact .eps

theorem rx_lit_iff (l s : Str) : (Rx.lit l).Matches s ↔ s = l := by
  induction l generalizing s with
  | nil => exact rx_eps_iff
  | cons c cs ih =>
    rw [Rx.lit, rx_seq_iff]
    constructor
    · rintro ⟨x, y, rfl, hx, hy⟩
      rw [rx_chr_iff] at hx; rw [ih] at hy; subst hx; subst hy; rfl
    · rintro rfl
      exact ⟨[c], cs, rfl, rx_chr_iff.2 rfl, (ih cs).2 rfl⟩

theorem rx_star_cls_iff {p : Char → Bool} {s : Str} : (Rx.star (.cls p)).Matches s ↔ ∀ c ∈ s, p c = true := by
  constructor
  · intro h
    exact rx_within h (fun c hc => hc)
  · intro h
    induction s with
    | nil => exact .nil
    | cons c cs ih =>
      exact .more (s := [c]) (.cls (h c (by simp))) (ih (fun d hd => h d (by simp [hd])))

theorem rx_plus_cls_iff {p : Char → Bool} {s : Str} : (Rx.plus (.cls p)).Matches s ↔ s ≠ [] ∧ ∀ c ∈ s, p c = true := by
  rw [Rx.plus, rx_seq_iff]
  constructor
  · rintro ⟨x, y, rfl, hx, hy⟩
    rw [rx_cls_iff] at hx; rw [rx_star_cls_iff] at hy
    obtain ⟨c, rfl, hc⟩ := hx
    refine ⟨by simp, ?_⟩
    intro d hd
    rcases List.mem_append.1 hd with hd | hd
    · rw [List.mem_singleton] at hd; subst hd; exact hc
    · exact hy d hd
  · rintro ⟨hne, h⟩
    cases s with
    | nil => exact absurd rfl hne
    | cons c cs => exact ⟨[c], cs, rfl, .cls (h c (by simp)), rx_star_cls_iff.2 (fun d hd => h d (by simp [hd]))⟩

/-! ### what the kinds of tokens look like -/

theorem takes_argument {P : ParseStr} {t r : Str} (h : TokKind.Takes P .clientArgument t r) :
    ∃ ds, t = '$' :: ds ∧ ds ≠ [] ∧ ∀ c ∈ ds, isDigit c = true := by
  have := h.matched _ rfl
  rw [rx_seq_iff] at this
  obtain ⟨x, y, rfl, hx, hy⟩ := this
  rw [rx_chr_iff] at hx; subst hx
  rw [Rx.digits, rx_plus_cls_iff] at hy
  exact ⟨y, rfl, hy.1, hy.2⟩

theorem takes_dash {P : ParseStr} {t r : Str} (h : TokKind.Takes P .commentDash t r) : ∃ b, t = '-' :: '-' :: b ∧ '\n' ∉ b := by
  have := h.matched _ rfl
  rw [rx_seq_iff] at this
  obtain ⟨x, y, rfl, hx, hy⟩ := this
  rw [rx_lit_iff] at hx; subst hx
  rw [rx_star_cls_iff] at hy
  exact ⟨y, rfl, fun hm => by simpa using hy _ hm⟩

theorem takes_block {P : ParseStr} {t r : Str} (h : TokKind.Takes P .commentBlock t r) : ∃ b, t = '/' :: '*' :: b := by
  have := h.matched _ rfl
  rw [rx_seq_iff] at this
  obtain ⟨x, y, rfl, hx, hy⟩ := this
  rw [rx_lit_iff] at hx; subst hx
  exact ⟨y, rfl⟩

theorem takes_hash {P : ParseStr} {t r : Str} (h : TokKind.Takes P .commentHash t r) : ∃ b, t = '#' :: b ∧ '\n' ∉ b := by
  have := h.matched _ rfl
  rw [rx_seq_iff] at this
  obtain ⟨x, y, rfl, hx, hy⟩ := this
  rw [rx_chr_iff] at hx; subst hx
  rw [rx_star_cls_iff] at hy
  exact ⟨y, rfl, fun hm => by simpa using hy _ hm⟩

theorem takes_hashbang {P : ParseStr} {t r : Str} (h : TokKind.Takes P .commentHashbang t r) : ∃ b, t = '#' :: '!' :: b ∧ '\n' ∉ b := by
  have := h.matched _ rfl
  rw [rx_seq_iff] at this
  obtain ⟨x, y, rfl, hx, hy⟩ := this
  rw [rx_lit_iff] at hx; subst hx
  rw [rx_star_cls_iff] at hy
  exact ⟨y, rfl, fun hm => by simpa using hy _ hm⟩

theorem takes_blank {P : ParseStr} {t r : Str} (h : TokKind.Takes P .whitespace t r) : ∀ c ∈ t, isBlankChar c = true := by
  have := h.matched _ rfl
  rw [rx_plus_cls_iff] at this
  exact this.2

/-- Letters, digits, underscore. -/
def wordish (c : Char) : Bool := isDigit c || isWordStart c

theorem takes_word {P : ParseStr} {t r : Str} (h : TokKind.Takes P .bareWord t r) : ∀ c ∈ t, wordish c = true := by
  refine rx_within (h.matched _ rfl) ⟨?_, ?_⟩
  · intro c hc; simp [wordish, hc]
  · intro c hc; exact hc

/-- The characters of numbers. -/
def numberish (c : Char) : Bool := wordish c || c == '.' || c == '+' || c == '-'

theorem ci_wordish {c d : Char} (hc : 97 ≤ c.toNat ∧ c.toNat ≤ 122) (h : (d == c || d.toNat + 32 == c.toNat) = true) : wordish d = true := by
  simp only [Bool.or_eq_true, beq_iff_eq] at h
  rcases h with rfl | h
  · simp [wordish, isWordStart, hc]
  · have : 65 ≤ d.toNat ∧ d.toNat ≤ 90 := by omega
    simp [wordish, isWordStart, this]

theorem hex_wordish {d : Char} (h : isHexCi d = true) : wordish d = true := by
  simp only [isHexCi, Bool.or_eq_true, Bool.and_eq_true, decide_eq_true_eq] at h
  rcases h with (h | h) | h
  · simp [wordish, h]
  · have : 97 ≤ d.toNat ∧ d.toNat ≤ 122 := by omega
    simp [wordish, isWordStart, this]
  · have : 65 ≤ d.toNat ∧ d.toNat ≤ 90 := by omega
    simp [wordish, isWordStart, this]

theorem numberish_of {d : Char} (h : wordish d = true) : numberish d = true := by simp [numberish, h]

theorem digits_within : RxWithin numberish Rx.digits :=
  ⟨fun c hc => numberish_of (by simp [wordish, hc]), fun c hc => numberish_of (by simp [wordish, hc])⟩

theorem ci_within {c : Char} (hc : 97 ≤ c.toNat ∧ c.toNat ≤ 122) : RxWithin numberish (Rx.ci c) :=
  fun _ hd => numberish_of (ci_wordish hc hd)

theorem chr_within {c : Char} (hc : numberish c = true) : RxWithin numberish (Rx.chr c) := by
  intro d hd
  rw [eq_of_beq hd]; exact hc

theorem exponent_within {c : Char} (hc : 97 ≤ c.toNat ∧ c.toNat ≤ 122) : RxWithin numberish (Rx.exponent c) := by
  refine ⟨ci_within hc, ⟨?_, trivial⟩, digits_within⟩
  intro d hd
  simp only [Bool.or_eq_true, beq_iff_eq] at hd
  rcases hd with rfl | rfl <;> rfl

theorem number_within : RxWithin numberish Rx.number := by
  have hex : ∀ c, isHexCi c = true → numberish c = true := fun c hc => numberish_of (hex_wordish hc)
  refine ⟨⟨chr_within rfl, ci_within (by decide), ⟨hex, hex⟩, ⟨chr_within rfl, hex⟩, exponent_within (by decide)⟩, ⟨chr_within rfl, ?_, ?_⟩,
    ⟨digits_within, ⟨⟨⟨chr_within rfl, digits_within⟩, chr_within rfl⟩, trivial⟩, ⟨exponent_within (by decide), trivial⟩⟩,
    ⟨chr_within rfl, digits_within, ⟨exponent_within (by decide), trivial⟩⟩, ?_, ?_, ?_⟩
  · intro c hc
    simp only [Bool.and_eq_true, decide_eq_true_eq] at hc
    have : isDigit c = true := by simp [isDigit]; omega
    exact numberish_of (by simp [wordish, this])
  · intro c hc
    simp only [Bool.and_eq_true, decide_eq_true_eq] at hc
    have : isDigit c = true := by simp [isDigit]; omega
    exact numberish_of (by simp [wordish, this])
  all_goals (repeat' (first | exact ci_within (by decide) | apply And.intro))

/-- The characters numbers begin with. -/
def numberStart (c : Char) : Bool := wordish c || c == '.'

theorem number_starts : RxStarts numberStart Rx.number := by
  have ci : ∀ {c : Char}, 97 ≤ c.toNat ∧ c.toNat ≤ 122 → RxStarts numberStart (Rx.ci c) := fun hc d hd => by
    simp [numberStart, ci_wordish hc hd]
  have chr : ∀ {c : Char}, numberStart c = true → RxStarts numberStart (Rx.chr c) := fun hc d hd => by rw [eq_of_beq hd]; exact hc
  have dg : RxStarts numberStart Rx.digits := ⟨fun c hc => by simp [numberStart, wordish, hc], fun h => by simp [rxNullable] at h⟩
  have nn : ∀ {p : Char → Bool} {Q : Prop}, rxNullable (.cls p) = true → Q := fun h => by simp [rxNullable] at h
  refine ⟨⟨chr rfl, nn⟩, ⟨chr rfl, nn⟩, ⟨dg, fun h => by simp [Rx.digits, Rx.plus, rxNullable] at h⟩, ⟨chr rfl, nn⟩, ⟨ci (by decide), nn⟩,
    ⟨ci (by decide), nn⟩, ⟨ci (by decide), nn⟩⟩

theorem takes_number {P : ParseStr} {t r : Str} (h : TokKind.Takes P .number t r) : ∀ c ∈ t, numberish c = true :=
  rx_within (h.matched _ rfl) number_within

theorem takes_literal {P : ParseStr} {i : Nat} {t r : Str} (h : TokKind.Takes P (.literal i) t r) : t ∈ literals :=
  List.mem_of_getElem? (h.fixed i rfl)

/-- What a kind of token may begin with. -/
theorem takes_head {P : ParseStr} (hP : QuoteReader P) {k : TokKind} {c : Char} {t r : Str} (h : TokKind.Takes P k (c :: t) r) :
    match k with
    | .clientArgument | .heredoc => c = '$'
    | .commentDash => c = '-'
    | .commentBlock => c = '/'
    | .literal _ => (c :: t) ∈ literals
    | .whitespace => isBlankChar c = true
    | .commentHashbang | .commentHash => c = '#'
    | .bareWord => isWordStart c = true
    | .number => numberStart c = true
    | .stringLiteral => c = '\''
    | .backtick => c = '`'
    | .doubleQuote => c = '"'
    | .illegal => True := by
  cases k with
  | clientArgument => obtain ⟨ds, e, _⟩ := takes_argument h; cases e; rfl
  | heredoc =>
    have := h.parsed _ rfl
    unfold parseHeredoc at this
    cases hp : P '$' (c :: t ++ r) with
    | none => rw [hp] at this; cases this
    | some x => obtain ⟨s', e⟩ := hP.starts _ _ x.1 x.2 hp; cases e; rfl
  | commentDash => obtain ⟨ds, e, _⟩ := takes_dash h; cases e; rfl
  | commentBlock => obtain ⟨ds, e⟩ := takes_block h; cases e; rfl
  | literal i => exact takes_literal h
  | whitespace => exact takes_blank h c (by simp)
  | commentHashbang => obtain ⟨ds, e, _⟩ := takes_hashbang h; cases e; rfl
  | commentHash => obtain ⟨ds, e, _⟩ := takes_hash h; cases e; rfl
  | bareWord =>
    refine rx_starts (p := isWordStart) (h.matched _ rfl) ⟨fun c hc => hc, fun hn => by simp [rxNullable] at hn⟩ c rfl
  | number => exact rx_starts (h.matched _ rfl) number_starts c rfl
  | stringLiteral => obtain ⟨s', e⟩ := hP.starts _ _ _ _ (h.parsed _ rfl); cases e; rfl
  | backtick => obtain ⟨s', e⟩ := hP.starts _ _ _ _ (h.parsed _ rfl); cases e; rfl
  | doubleQuote => obtain ⟨s', e⟩ := hP.starts _ _ _ _ (h.parsed _ rfl); cases e; rfl
  | illegal => trivial

/-! ### tokens of a text -/

theorem lexes_inv {P : ParseStr} {s : Str} {ts : List Token} (h : Lexes P s ts) :
    (s = [] ∧ ts = []) ∨ ∃ (k : TokKind) (t r : Str) (us : List Token), s = t ++ r ∧ ts = k.token t :: us ∧ k.Takes P t r ∧
      (∀ (k' : TokKind) (t' r' : Str), t ++ r = t' ++ r' → k'.rank < k.rank → k'.Takes P t' r' → t'.length < t.length) ∧ Lexes P r us := by
  cases h with
  | done => exact .inl ⟨rfl, rfl⟩
  | next h1 h2 h3 => exact .inr ⟨_, _, _, _, rfl, rfl, h1, h2, h3⟩

/-- The next token, when something is left. -/
theorem lexes_cons {P : ParseStr} {c : Char} {s : Str} {ts : List Token} (h : Lexes P (c :: s) ts) :
    ∃ (k : TokKind) (t r : Str) (us : List Token), s = t ++ r ∧ ts = k.token (c :: t) :: us ∧ k.Takes P (c :: t) r ∧
      (∀ (k' : TokKind) (t' r' : Str), c :: s = t' ++ r' → k'.rank < k.rank → k'.Takes P t' r' → t'.length < t.length + 1) ∧ Lexes P r us := by
  rcases lexes_inv h with ⟨h, _⟩ | ⟨k, t, r, us, e, e', h1, h2, h3⟩
  · cases h
  · cases t with
    | nil => exact absurd rfl h1.some_text
    | cons d t =>
      simp only [List.cons_append, List.cons.injEq] at e
      obtain ⟨rfl, rfl⟩ := e
      exact ⟨k, t, r, us, rfl, e', h1, h2, h3⟩

theorem opens_not_word {c : Char} (h : opensPiece c = true) : wordish c = false ∧ isBlankChar c = false ∧ c ≠ '.' ∧ c ≠ '+' ∧ c ≠ '-' := by
  simp only [opensPiece, Bool.or_eq_true, beq_iff_eq] at h
  rcases h with ((((rfl | rfl) | rfl) | rfl) | rfl) | rfl <;> exact ⟨by decide, by decide, by decide, by decide, by decide⟩

theorem blank_not_word {c : Char} (h : c = ' ' ∨ c = '\n' ∨ c = '\t') : numberish c = false ∧ wordish c = false := by
  rcases h with rfl | rfl | rfl <;> exact ⟨by decide, by decide⟩

theorem literals_tail : ∀ l ∈ literals, opensPiece (l.headD ' ') = true ∨ ∀ c ∈ l.tail, opensPiece c = false ∧ c ≠ '-' ∧ c ≠ '/' := by
  decide

theorem hasPair_append {a b : Char} {x y : Str} (h : hasPair a b (x ++ y) = false) : hasPair a b y = false := by
  induction x with
  | nil => exact h
  | cons c x ih =>
    apply ih
    cases hxy : x ++ y with
    | nil => rfl
    | cons d z =>
      rw [List.cons_append, hxy] at h
      simp only [hasPair, Bool.or_eq_false_iff] at h
      exact h.2

theorem isPlain_append {x y : Str} (h : isPlain (x ++ y) = true) : isPlain y = true := by
  simp only [isPlain, Bool.and_eq_true, Bool.not_eq_true', List.all_append] at h ⊢
  exact ⟨⟨h.1.1.2, hasPair_append h.1.2⟩, hasPair_append h.2⟩

/-- The first token of a plain text stays inside it and is none of the special ones. -/
theorem plain_first {P : ParseStr} (hP : QuoteReader P) {k : TokKind} {c : Char} {s rest t r : Str} (hs : isPlain (c :: s) = true)
    (hb : rest = [] ∨ (∃ d r, rest = d :: r ∧ opensPiece d = true) ∨
        ((∃ r, rest = '-' :: '-' :: r ∨ rest = '/' :: '*' :: r) ∧ ∀ x, (c :: s).getLast? = some x → x = ' ' ∨ x = '\n' ∨ x = '\t'))
    (e : s ++ rest = t ++ r) (h : k.Takes P (c :: t) r) :
    (∃ s2, s = t ++ s2 ∧ r = s2 ++ rest) ∧ k.token (c :: t) = .other (c :: t) := by
  have hopen : opensPiece c = false := by
    simp only [isPlain, List.all_cons, Bool.and_eq_true, Bool.not_eq_true'] at hs
    exact hs.1.1.1
  have hhead := takes_head hP h
  have htok : k.token (c :: t) = .other (c :: t) := by
    cases k <;> try rfl
    · cases hhead; cases hopen
    · unfold TokKind.token
      have : ¬ (c :: t = ch! ";") := by intro e; cases e; revert hopen; decide
      have : ¬ (c :: t = ch! "$$") := by intro e; cases e; revert hopen; decide
      simp only [*, if_false]
  refine ⟨?_, htok⟩
  rcases List.append_eq_append_iff.1 e with ⟨x, e1, e2⟩ | ⟨x, e1, e2⟩
  · -- the token reaches beyond the text
    cases x with
    | nil => exact ⟨[], by simpa using e1.symm, by simpa using e2.symm⟩
    | cons d x =>
      exfalso
      subst e1
      have hrest : rest = d :: (x ++ r) := e2
      -- the character d is in the token
      have hd : d ∈ c :: (s ++ d :: x) := by simp
      have hcross : opensPiece d = true ∨ ((d = '-' ∨ d = '/') ∧ ∃ y, (c :: s).getLast? = some y ∧ (y = ' ' ∨ y = '\n' ∨ y = '\t') ∧ y ∈ c :: s) := by
        rcases hb with hb | ⟨d', r', hb, ho⟩ | ⟨⟨r', hb⟩, hl⟩
        · rw [hb] at hrest; cases hrest
        · rw [hb] at hrest; cases hrest; exact .inl ho
        · have hd' : d = '-' ∨ d = '/' := by
            rcases hb with hb | hb
            · rw [hb] at hrest; exact .inl (List.cons.inj hrest).1.symm
            · rw [hb] at hrest; exact .inr (List.cons.inj hrest).1.symm
          refine .inr ⟨hd', ?_⟩
          have hne : c :: s ≠ [] := by simp
          exact ⟨(c :: s).getLast hne, List.getLast?_eq_some_getLast hne, hl _ (List.getLast?_eq_some_getLast hne), List.getLast_mem hne⟩
      have noword : ∀ p : Char → Bool, (∀ y ∈ c :: (s ++ d :: x), p y = true) → (∀ y, opensPiece y = true → p y = false) →
          (p '-' = true ∨ p '/' = true → ∀ y, y = ' ' ∨ y = '\n' ∨ y = '\t' → p y = false) → False := by
        intro p hall hno hbl
        rcases hcross with ho | ⟨hdd, y, _, hy, hm⟩
        · have := hall d hd; rw [hno d ho] at this; cases this
        · have h1 : p '-' = true ∨ p '/' = true := by
            rcases hdd with rfl | rfl
            · exact .inl (hall _ hd)
            · exact .inr (hall _ hd)
          have h2 := hbl h1 y hy
          have h3 := hall y (by
            rcases List.mem_cons.1 hm with hm | hm
            · simp [hm]
            · simp [hm])
          rw [h2] at h3; cases h3
      cases k with
      | clientArgument => cases hhead; cases hopen
      | heredoc => cases hhead; cases hopen
      | commentDash =>
        obtain ⟨b, eb, _⟩ := takes_dash h
        cases s with
        | nil =>
          cases eb
          rcases hcross with ho | ⟨_, y, hy, hy', _⟩
          · revert ho; decide
          · cases hy; revert hy'; decide
        | cons s1 s =>
          cases eb
          simp [isPlain, hasPair] at hs
      | commentBlock =>
        obtain ⟨b, eb⟩ := takes_block h
        cases s with
        | nil =>
          cases eb
          rcases hcross with ho | ⟨e, _⟩
          · revert ho; decide
          · revert e; decide
        | cons s1 s =>
          cases eb
          simp [isPlain, hasPair] at hs
      | literal i =>
        rcases literals_tail _ hhead with ho | ho
        · rw [List.headD_cons, hopen] at ho; cases ho
        · have := ho d (by simp)
          rcases hcross with h1 | ⟨h1, _⟩
          · rw [this.1] at h1; cases h1
          · rcases h1 with h1 | h1
            · exact this.2.1 h1
            · exact this.2.2 h1
      | whitespace =>
        refine noword _ (takes_blank h) (fun y hy => (opens_not_word hy).2.1) (fun hm => by rcases hm with hm | hm <;> cases hm)
      | commentHashbang => cases hhead; cases hopen
      | commentHash => cases hhead; cases hopen
      | bareWord => exact noword _ (takes_word h) (fun y hy => (opens_not_word hy).1) (fun _ y hy => (blank_not_word hy).2)
      | number =>
        refine noword _ (takes_number h) (fun y hy => ?_) (fun _ y hy => (blank_not_word hy).1)
        have := opens_not_word hy
        simp [numberish, this]
      | stringLiteral => cases hhead; cases hopen
      | backtick => cases hhead; cases hopen
      | doubleQuote => cases hhead; cases hopen
      | illegal =>
        have := h.single rfl
        simp at this
  · exact ⟨x, e1, e2⟩

theorem plain_region {P : ParseStr} (hP : QuoteReader P) : ∀ (n : Nat) (s rest : Str) (ts : List Token), s.length ≤ n → isPlain s = true →
    (rest = [] ∨ (∃ d r, rest = d :: r ∧ opensPiece d = true) ∨
        ((∃ r, rest = '-' :: '-' :: r ∨ rest = '/' :: '*' :: r) ∧ ∀ x, s.getLast? = some x → x = ' ' ∨ x = '\n' ∨ x = '\t')) →
    Lexes P (s ++ rest) ts →
    ∃ us vs, ts = us ++ vs ∧ source us = s ∧ (∀ u ∈ us, ∃ x, u = .other x) ∧ Lexes P rest vs := by
  intro n
  induction n with
  | zero =>
    intro s rest ts hn _ _ h
    have : s = [] := List.length_eq_zero_iff.1 (by omega)
    subst this
    exact ⟨[], ts, rfl, rfl, (by intro u hu; cases hu), h⟩
  | succ n ih =>
    intro s rest ts hn hs hb h
    cases s with
    | nil => exact ⟨[], ts, rfl, rfl, (by intro u hu; cases hu), h⟩
    | cons c s =>
      obtain ⟨k, t, r, us, e, rfl, hk, _, hl⟩ := lexes_cons (show Lexes P (c :: (s ++ rest)) ts from h)
      obtain ⟨⟨s2, rfl, rfl⟩, htok⟩ := plain_first hP hs hb e hk
      have hb2 : (rest = [] ∨ (∃ d r, rest = d :: r ∧ opensPiece d = true) ∨
        ((∃ r, rest = '-' :: '-' :: r ∨ rest = '/' :: '*' :: r) ∧ ∀ x, s2.getLast? = some x → x = ' ' ∨ x = '\n' ∨ x = '\t')) := by
        rcases hb with hb | hb | ⟨hb, hx⟩
        · exact .inl hb
        · exact .inr (.inl hb)
        · refine .inr (.inr ⟨hb, fun x h2 => hx x ?_⟩)
          cases s2 with
          | nil => cases h2
          | cons y s2 =>
            rw [← List.cons_append, List.getLast?_append, h2]; rfl
      obtain ⟨us', vs, rfl, h1, h2, h3⟩ := ih s2 rest us (by simp at hn; omega) (isPlain_append (x := c :: t) hs) hb2 hl
      refine ⟨.other (c :: t) :: us', vs, by rw [htok]; rfl, ?_, ?_, h3⟩
      · simp [source, Token.text] at h1 ⊢; exact h1
      · intro u hu
        rcases List.mem_cons.1 hu with rfl | hu
        · exact ⟨_, rfl⟩
        · exact h2 u hu

/-! ### tokens of the other pieces -/

theorem greedy_exact {p : Char → Bool} {x r body rest : Str} (hx : ∀ c ∈ x, p c = true) (hb : ∀ c ∈ body, p c = true)
    (hr : ∀ c, rest.head? = some c → p c = false) (e : x ++ r = body ++ rest)
    (hg : ∀ u v, r = u ++ v → u ≠ [] → ¬ ∀ c ∈ x ++ u, p c = true) : x = body ∧ r = rest := by
  rcases List.append_eq_append_iff.1 e with ⟨y, e1, e2⟩ | ⟨y, e1, e2⟩
  · cases y with
    | nil => exact ⟨by simpa using e1.symm, by simpa using e2⟩
    | cons d y =>
      exact absurd (by rw [← e1]; exact hb) (hg (d :: y) rest e2 (by simp))
  · cases y with
    | nil => exact ⟨by simpa using e1, by simpa using e2.symm⟩
    | cons d y =>
      have h1 := hr d (by rw [e2]; rfl)
      have h2 := hx d (by rw [e1]; simp)
      rw [h1] at h2; cases h2

theorem notnl_iff {b : Str} : '\n' ∉ b ↔ ∀ c ∈ b, (c != '\n') = true := by
  constructor
  · intro h c hc
    rw [bne_iff_ne]; rintro rfl; exact h hc
  · intro h hm
    simpa using h _ hm

/-- A comment to the end of the line is one match of its pattern. -/
theorem dash_takes {P : ParseStr} {body rest : Str} (hb : '\n' ∉ body) (hr : ∀ c, rest.head? = some c → c = '\n') :
    TokKind.Takes P .commentDash ('-' :: '-' :: body) rest where
  some_text := by simp
  fixed := by intro i h; cases h
  parsed := by intro f h; cases h
  matched := by
    intro r h; cases h
    exact rx_seq_iff.2 ⟨ch! "--", body, rfl, (rx_lit_iff _ _).2 rfl, rx_star_cls_iff.2 (notnl_iff.1 hb)⟩
  greedy := by
    intro r h _ u v e hu hm
    cases h
    obtain ⟨x, y, e1, hx, hy⟩ := rx_seq_iff.1 hm
    rw [rx_lit_iff] at hx; subst hx
    simp only [List.cons_append, List.nil_append, List.cons.injEq, true_and] at e1
    rw [rx_star_cls_iff, ← e1] at hy
    cases u with
    | nil => exact hu rfl
    | cons d u =>
      have h1 := hy d (by simp)
      rw [hr d (by rw [e]; rfl)] at h1
      cases h1
  single := by intro h; cases h

theorem dash_exact {P : ParseStr} {body rest t r : Str} (hb : '\n' ∉ body) (hr : ∀ c, rest.head? = some c → c = '\n')
    (e : t ++ r = '-' :: '-' :: body ++ rest) (h : TokKind.Takes P .commentDash t r) : t = '-' :: '-' :: body ∧ r = rest := by
  obtain ⟨b, rfl, h1⟩ := takes_dash h
  simp only [List.cons_append, List.cons.injEq, true_and] at e
  have := greedy_exact (p := fun c => c != '\n') (notnl_iff.1 h1) (notnl_iff.1 hb) (fun c hc => by rw [hr c hc]; rfl) e
    (fun u v e2 hu hm => h.greedy _ rfl (by intro h; cases h) u v e2 hu (rx_seq_iff.2 ⟨ch! "--", b ++ u, rfl, (rx_lit_iff _ _).2 rfl, rx_star_cls_iff.2 hm⟩))
  exact ⟨by rw [this.1], this.2⟩

theorem hash_takes {P : ParseStr} {body rest : Str} (hb : '\n' ∉ body) (hr : ∀ c, rest.head? = some c → c = '\n') :
    TokKind.Takes P .commentHash ('#' :: body) rest where
  some_text := by simp
  fixed := by intro i h; cases h
  parsed := by intro f h; cases h
  matched := by
    intro r h; cases h
    exact rx_seq_iff.2 ⟨ch! "#", body, rfl, rx_chr_iff.2 rfl, rx_star_cls_iff.2 (notnl_iff.1 hb)⟩
  greedy := by
    intro r h _ u v e hu hm
    cases h
    obtain ⟨x, y, e1, hx, hy⟩ := rx_seq_iff.1 hm
    rw [rx_chr_iff] at hx; subst hx
    simp only [List.cons_append, List.nil_append, List.cons.injEq, true_and] at e1
    rw [rx_star_cls_iff, ← e1] at hy
    cases u with
    | nil => exact hu rfl
    | cons d u =>
      have h1 := hy d (by simp)
      rw [hr d (by rw [e]; rfl)] at h1
      cases h1
  single := by intro h; cases h

theorem hash_exact {P : ParseStr} {body rest t r : Str} (hb : '\n' ∉ body) (hr : ∀ c, rest.head? = some c → c = '\n')
    (e : t ++ r = '#' :: body ++ rest) (h : TokKind.Takes P .commentHash t r) : t = '#' :: body ∧ r = rest := by
  obtain ⟨b, rfl, h1⟩ := takes_hash h
  simp only [List.cons_append, List.cons.injEq, true_and] at e
  have := greedy_exact (p := fun c => c != '\n') (notnl_iff.1 h1) (notnl_iff.1 hb) (fun c hc => by rw [hr c hc]; rfl) e
    (fun u v e2 hu hm => h.greedy _ rfl (by intro h; cases h) u v e2 hu (rx_seq_iff.2 ⟨ch! "#", b ++ u, rfl, rx_chr_iff.2 rfl, rx_star_cls_iff.2 hm⟩))
  exact ⟨by rw [this.1], this.2⟩

theorem hashbang_exact {P : ParseStr} {body rest t r : Str} (hb : '\n' ∉ body) (hr : ∀ c, rest.head? = some c → c = '\n')
    (e : t ++ r = '#' :: body ++ rest) (h : TokKind.Takes P .commentHashbang t r) : t = '#' :: body ∧ r = rest := by
  obtain ⟨b, rfl, h1⟩ := takes_hashbang h
  simp only [List.cons_append, List.cons.injEq, true_and] at e
  have := greedy_exact (x := '!' :: b) (p := fun c => c != '\n') (by
      intro c hc
      rcases List.mem_cons.1 hc with rfl | hc
      · rfl
      · exact notnl_iff.1 h1 c hc) (notnl_iff.1 hb) (fun c hc => by rw [hr c hc]; rfl) e
    (fun u v e2 hu hm => h.greedy _ rfl (by intro h; cases h) u v e2 hu
      (rx_seq_iff.2 ⟨ch! "#!", b ++ u, rfl, (rx_lit_iff _ _).2 rfl, rx_star_cls_iff.2 (fun c hc => hm c (by simp at hc ⊢; exact .inr hc))⟩))
  exact ⟨by rw [← this.1], this.2⟩

theorem arg_takes {P : ParseStr} {ds rest : Str} (hne : ds ≠ []) (hd : ds.all isDigit = true) (hr : ∀ c, rest.head? = some c → isDigit c = false) :
    TokKind.Takes P .clientArgument ('$' :: ds) rest where
  some_text := by simp
  fixed := by intro i h; cases h
  parsed := by intro f h; cases h
  matched := by
    intro r h; cases h
    exact rx_seq_iff.2 ⟨ch! "$", ds, rfl, rx_chr_iff.2 rfl, rx_plus_cls_iff.2 ⟨hne, List.all_eq_true.1 hd⟩⟩
  greedy := by
    intro r h _ u v e hu hm
    cases h
    obtain ⟨x, y, e1, hx, hy⟩ := rx_seq_iff.1 hm
    rw [rx_chr_iff] at hx; subst hx
    simp only [List.cons_append, List.nil_append, List.cons.injEq, true_and] at e1
    rw [Rx.digits, rx_plus_cls_iff, ← e1] at hy
    cases u with
    | nil => exact hu rfl
    | cons d u =>
      have h1 := hy.2 d (by simp)
      rw [hr d (by rw [e]; rfl)] at h1
      cases h1
  single := by intro h; cases h

theorem arg_exact {P : ParseStr} {ds rest t r : Str} (hd : ds.all isDigit = true) (hr : ∀ c, rest.head? = some c → isDigit c = false)
    (e : t ++ r = '$' :: ds ++ rest) (h : TokKind.Takes P .clientArgument t r) : t = '$' :: ds ∧ r = rest := by
  obtain ⟨b, rfl, h0, h1⟩ := takes_argument h
  simp only [List.cons_append, List.cons.injEq, true_and] at e
  have := greedy_exact (p := isDigit) h1 (List.all_eq_true.1 hd) hr e
    (fun u v e2 hu hm => h.greedy _ rfl (by intro h; cases h) u v e2 hu
      (rx_seq_iff.2 ⟨ch! "$", b ++ u, rfl, rx_chr_iff.2 rfl, rx_plus_cls_iff.2 ⟨by simp [h0], hm⟩⟩))
  exact ⟨by rw [this.1], this.2⟩

theorem literal_takes {P : ParseStr} {i : Nat} {t rest : Str} (hi : literals[i]? = some t) (hne : t ≠ []) : TokKind.Takes P (.literal i) t rest where
  some_text := hne
  fixed := by intro j h; cases h; exact hi
  parsed := by intro f h; cases h
  matched := by intro r h; cases h
  greedy := by intro r h; cases h
  single := by intro h; cases h

theorem parsed_takes {P : ParseStr} {k : TokKind} {f : Str → Option (Str × Str)} {t rest : Str} (hk : k.parseFn P = some f)
    (hne : t ≠ []) (h : f (t ++ rest) = some (t, rest)) : k.Takes P t rest where
  some_text := hne
  fixed := by rintro i rfl; cases hk
  parsed := by intro g hg; rw [hk] at hg; cases hg; exact h
  matched := by intro r hr; cases k <;> first | (cases hr; done) | (cases hk; done)
  greedy := by intro r hr; cases k <;> first | (cases hr; done) | (cases hk; done)
  single := by rintro rfl; cases hk

theorem isPrefixOf_iff {p s : Str} : p.isPrefixOf s = true ↔ p <+: s := List.isPrefixOf_iff_prefix

theorem findStr_first {p body rest : Str} (h : ∀ i, i < body.length → ¬ p <+: (body ++ p).drop i) :
    findStr p (body ++ (p ++ rest)) = some body.length := by
  induction body with
  | nil =>
    cases hp : p ++ rest with
    | nil =>
      rw [List.append_eq_nil_iff] at hp
      simp [findStr, hp.1]
    | cons c cs =>
      have : p.isPrefixOf (c :: cs) = true := by rw [isPrefixOf_iff, ← hp]; exact List.prefix_append _ _
      simp [findStr, this]
  | cons c body ih =>
    have h0 : ¬ p.isPrefixOf (c :: (body ++ (p ++ rest))) = true := by
      intro hp
      rw [isPrefixOf_iff] at hp
      refine h 0 (by simp) ?_
      rw [List.drop_zero]
      have h2 : (c :: body) ++ p <+: c :: (body ++ (p ++ rest)) := ⟨rest, by simp⟩
      exact List.prefix_of_prefix_length_le hp h2 (by simp; omega)
    rw [List.cons_append, findStr, if_neg h0, ih (fun i hi => by simpa using h (i + 1) (by simpa using hi))]
    rfl

/-- `parse_heredoc` reads a well-written heredoc. -/
theorem heredoc_reads {P : ParseStr} (hP : QuoteReader P) {name body rest : Str} (hn : Closed '$' name)
    (hb : ∀ i, i < body.length → ¬ ('$' :: name ++ ['$']) <+: (body ++ ('$' :: name ++ ['$'])).drop i) :
    parseHeredoc P ((SqlPiece.heredoc name body).text ++ rest) = some ((SqlPiece.heredoc name body).text, rest) := by
  have h1 := hP.reads '$' name (body ++ ('$' :: name ++ ['$']) ++ rest) (by decide) hn
  have e : (SqlPiece.heredoc name body).text ++ rest = '$' :: name ++ '$' :: (body ++ ('$' :: name ++ ['$']) ++ rest) := by
    simp [SqlPiece.text]
  have h2 := findStr_first (rest := rest) hb
  unfold parseHeredoc
  rw [e, h1]
  simp only []
  rw [List.append_assoc, h2]
  simp only [Option.some.injEq, Prod.mk.injEq]
  have hl : ('$' :: name ++ ['$']).length * 2 + body.length = (SqlPiece.heredoc name body).text.length := by
    simp [SqlPiece.text]; omega
  rw [hl, ← List.append_assoc, ← e]
  exact ⟨by rw [List.take_left], by rw [List.drop_left]⟩

/-- C25: the text `parse_heredoc` takes is `$tag$…$tag$`, closed by the first repetition of the opening. -/
theorem C25_heredoc {P : ParseStr} {input text rest : Str} (hsplit : ∀ q s a b, P q s = some (a, b) → s = a ++ b)
    (h : parseHeredoc P input = some (text, rest)) : ∃ tag body, P '$' input = some (tag, body ++ (tag ++ rest)) ∧
      text = tag ++ body ++ tag ∧ ∀ i, i < body.length → ¬ tag <+: (body ++ tag).drop i := by
  unfold parseHeredoc at h
  cases hp : P '$' input with
  | none => rw [hp] at h; cases h
  | some x =>
    obtain ⟨tag, rem⟩ := x
    rw [hp] at h
    simp only [] at h
    cases hf : findStr tag rem with
    | none => rw [hf] at h; cases h
    | some i =>
      rw [hf] at h
      simp only [Option.some.injEq, Prod.mk.injEq] at h
      have hin := hsplit _ _ _ _ hp
      have key : ∀ (rem : Str) (i : Nat), findStr tag rem = some i → ∃ body r, rem = body ++ (tag ++ r) ∧ body.length = i ∧
          ∀ j, j < body.length → ¬ tag <+: (body ++ tag).drop j := by
        intro rem
        induction rem with
        | nil =>
          intro i hf
          simp only [findStr] at hf
          split at hf
          · rename_i ht
            cases hf
            refine ⟨[], [], ?_, rfl, by intro j hj; cases hj⟩
            simp at ht; simp [ht]
          · cases hf
        | cons c cs ih =>
          intro i hf
          simp only [findStr] at hf
          split at hf
          · rename_i ht
            cases hf
            obtain ⟨r, hr⟩ := isPrefixOf_iff.1 ht
            exact ⟨[], r, by simp [hr], rfl, by intro j hj; cases hj⟩
          · rename_i ht
            cases hc : findStr tag cs with
            | none => rw [hc] at hf; cases hf
            | some m =>
              rw [hc] at hf; cases hf
              obtain ⟨body, r, rfl, rfl, hno⟩ := ih m hc
              refine ⟨c :: body, r, rfl, rfl, ?_⟩
              intro j hj
              cases j with
              | zero =>
                intro hp
                apply ht
                rw [isPrefixOf_iff]
                exact hp.trans ⟨r, by simp⟩
              | succ j => simpa using hno j (by simpa using hj)
      obtain ⟨body, r, rfl, rfl, hno⟩ := key rem i hf
      have hl : tag.length * 2 + body.length = (tag ++ body ++ tag).length := by simp; omega
      have hin2 : input = (tag ++ body ++ tag) ++ r := by rw [hin]; simp
      rw [hl, hin2, List.take_left, List.drop_left] at h
      obtain ⟨rfl, rfl⟩ := h
      exact ⟨tag, body, rfl, rfl, hno⟩

/-! ### pieces and tokens side by side -/

/-- Each piece's tokens: the special pieces are the special tokens, the others consist of ordinary tokens. -/
inductive Aligned : List SqlPiece → List Token → Prop where
  | nil : Aligned [] []
  | semicolon {ps ts} : Aligned ps ts → Aligned (.semicolon :: ps) (.semicolon :: ts)
  | arg {ds ps ts} : ds ≠ [] → ds.all isDigit = true → Aligned ps ts → Aligned (.arg ds :: ps) (.clientArgument ds :: ts)
  | dollars {ps ts} : Aligned ps ts → Aligned (.dollars :: ps) (.escapedDollar :: ts)
  | ordinary {p ps us ts} : p ≠ .semicolon → p ≠ .dollars → (∀ ds, p ≠ .arg ds) → source us = p.text → (∀ u ∈ us, ∃ x, u = .other x) →
      Aligned ps ts → Aligned (p :: ps) (us ++ ts)

theorem aligned_one {p : SqlPiece} {ps : List SqlPiece} {ts : List Token} (h1 : p ≠ .semicolon) (h2 : p ≠ .dollars)
    (h3 : ∀ ds, p ≠ .arg ds) (h : Aligned ps ts) : Aligned (p :: ps) (.other p.text :: ts) :=
  .ordinary (us := [.other p.text]) h1 h2 h3 (by simp [source, Token.text]) (by simp) h

theorem literals_head {c : Char} {t : Str} (h : (c :: t) ∈ literals) :
    c ≠ '\'' ∧ c ≠ '"' ∧ c ≠ '`' ∧ c ≠ '#' ∧ (c = ';' → t = []) ∧ (c = '-' → t = [] ∨ t = ['>']) ∧ (c = '$' → t = ['$'] ∨ t = []) := by
  have : ∀ l ∈ literals, l.headD ' ' ≠ '\'' ∧ l.headD ' ' ≠ '"' ∧ l.headD ' ' ≠ '`' ∧ l.headD ' ' ≠ '#' ∧ (l.headD ' ' = ';' → l.tail = []) ∧
      (l.headD ' ' = '-' → l.tail = [] ∨ l.tail = ['>']) ∧ (l.headD ' ' = '$' → l.tail = ['$'] ∨ l.tail = []) := by decide
  exact this _ h

theorem literals_slash {t : Str} (h : ('/' :: t) ∈ literals) : t = [] := by
  have : ∀ l ∈ literals, l.headD ' ' = '/' → l.tail = [] := by decide
  exact this _ h rfl

theorem literals_dollar {i : Nat} (h : literals[i]? = some ['$']) : 30 < i := by
  have h2 : ∀ j : Fin literals.length, literals[j] = ['$'] → 30 < j.val := by decide
  obtain ⟨hi, e⟩ := List.getElem?_eq_some_iff.1 h
  exact h2 ⟨i, hi⟩ e

/-- A quoted piece is one token. -/
theorem quoted_token {P : ParseStr} (hP : QuoteReader P) {q : Char} {body rest : Str} {ts : List Token}
    (hq : q = '\'' ∨ q = '"' ∨ q = '`') (hb : Closed q body) (h : Lexes P (q :: body ++ [q] ++ rest) ts) :
    ∃ vs, ts = .other (q :: body ++ [q]) :: vs ∧ Lexes P rest vs := by
  have e0 : q :: body ++ [q] ++ rest = q :: (body ++ q :: rest) := by simp
  have hreads := hP.reads q body rest (by rcases hq with rfl | rfl | rfl <;> decide) hb
  rw [e0] at h
  obtain ⟨k, t, r, us, e, rfl, hk, hdom, hl⟩ := lexes_cons h
  have hhead := takes_head hP hk
  -- the kind of quoted tokens
  have own : ∀ kq : TokKind, kq.parseFn P = some (P q) → kq.Takes P (q :: body ++ [q]) rest := fun kq hkq =>
    parsed_takes hkq (by simp) (by rw [e0]; exact hreads)
  have fin : k.parseFn P = some (P q) → k.token (q :: t) = .other (q :: t) →
      ∃ vs, k.token (q :: t) :: us = .other (q :: body ++ [q]) :: vs ∧ Lexes P rest vs := by
    intro hf htok
    have h1 := hk.parsed _ hf
    rw [show q :: t ++ r = q :: (body ++ q :: rest) by rw [e]; rfl, show q :: (body ++ q :: rest) = q :: body ++ q :: rest from rfl, hreads] at h1
    cases h1
    exact ⟨us, by rw [htok]; rfl, hl⟩
  have hblank : isBlankChar q = false := by rcases hq with rfl | rfl | rfl <;> decide
  have hword : isWordStart q = false := by rcases hq with rfl | rfl | rfl <;> decide
  have hnum : numberStart q = false := by rcases hq with rfl | rfl | rfl <;> decide
  have dom : ∀ kq : TokKind, kq.parseFn P = some (P q) → kq.rank < TokKind.illegal.rank → k = .illegal → False := by
    rintro kq hkq hrank rfl
    have h1 := hdom kq (q :: body ++ [q]) rest (by rw [e0]) hrank (own kq hkq)
    have h2 := hk.single rfl
    simp at h1 h2
    rw [h2] at h1; simp at h1
  cases k with
  | clientArgument => rcases hq with rfl | rfl | rfl <;> cases hhead
  | heredoc => rcases hq with rfl | rfl | rfl <;> cases hhead
  | commentDash => rcases hq with rfl | rfl | rfl <;> cases hhead
  | commentBlock => rcases hq with rfl | rfl | rfl <;> cases hhead
  | literal i =>
    have := literals_head hhead
    rcases hq with rfl | rfl | rfl
    · exact absurd rfl this.1
    · exact absurd rfl this.2.1
    · exact absurd rfl this.2.2.1
  | whitespace => rw [hblank] at hhead; cases hhead
  | commentHashbang => rcases hq with rfl | rfl | rfl <;> cases hhead
  | commentHash => rcases hq with rfl | rfl | rfl <;> cases hhead
  | bareWord => rw [hword] at hhead; cases hhead
  | number => rw [hnum] at hhead; cases hhead
  | stringLiteral => cases hhead; exact fin rfl rfl
  | backtick => cases hhead; exact fin rfl rfl
  | doubleQuote => cases hhead; exact fin rfl rfl
  | illegal =>
    exfalso
    rcases hq with rfl | rfl | rfl
    · exact dom .stringLiteral rfl (by decide) rfl
    · exact dom .doubleQuote rfl (by decide) rfl
    · exact dom .backtick rfl (by decide) rfl

theorem semicolon_token {P : ParseStr} (hP : QuoteReader P) {rest : Str} {ts : List Token} (h : Lexes P (';' :: rest) ts) :
    ∃ vs, ts = .semicolon :: vs ∧ Lexes P rest vs := by
  obtain ⟨k, t, r, us, e, rfl, hk, hdom, hl⟩ := lexes_cons h
  have hhead := takes_head hP hk
  cases k with
  | clientArgument => cases hhead
  | heredoc => cases hhead
  | commentDash => cases hhead
  | commentBlock => cases hhead
  | literal i =>
    have := (literals_head hhead).2.2.2.2.1 rfl
    subst this
    exact ⟨us, rfl, by rw [e]; exact hl⟩
  | whitespace => cases hhead
  | commentHashbang => cases hhead
  | commentHash => cases hhead
  | bareWord => cases hhead
  | number => cases hhead
  | stringLiteral => cases hhead
  | backtick => cases hhead
  | doubleQuote => cases hhead
  | illegal =>
    have h1 := hdom (.literal 7) (ch! ";") rest rfl (by decide) (literal_takes rfl (by simp))
    have h2 := hk.single rfl
    simp at h1 h2
    rw [h2] at h1; simp at h1

theorem dash_token {P : ParseStr} (hP : QuoteReader P) {body rest : Str} {ts : List Token} (hb : '\n' ∉ body)
    (hr : ∀ c, rest.head? = some c → c = '\n') (h : Lexes P ('-' :: '-' :: body ++ rest) ts) :
    ∃ vs, ts = .other ('-' :: '-' :: body) :: vs ∧ Lexes P rest vs := by
  obtain ⟨k, t, r, us, e, rfl, hk, hdom, hl⟩ := lexes_cons (show Lexes P ('-' :: ('-' :: body ++ rest)) ts from h)
  have hhead := takes_head hP hk
  have dom : ∀ k' : TokKind, k = k' → 2 < k'.rank → body.length + 2 < t.length + 1 := by
    rintro k' rfl hrank
    exact hdom .commentDash ('-' :: '-' :: body) rest rfl hrank (dash_takes hb hr)
  cases k with
  | clientArgument => cases hhead
  | heredoc => cases hhead
  | commentDash =>
    obtain ⟨e1, e2⟩ := dash_exact hb hr (show '-' :: t ++ r = '-' :: '-' :: body ++ rest by rw [List.cons_append, ← e]; rfl) hk
    rw [e1, ← e2]
    exact ⟨us, rfl, hl⟩
  | commentBlock => cases hhead
  | literal i =>
    have h1 := dom _ rfl (by simp only [TokKind.rank]; omega)
    rcases (literals_head hhead).2.2.2.2.2.1 rfl with rfl | rfl <;> simp only [List.length_cons, List.length_nil] at h1 <;> omega
  | whitespace => cases hhead
  | commentHashbang => cases hhead
  | commentHash => cases hhead
  | bareWord => cases hhead
  | number => cases hhead
  | stringLiteral => cases hhead
  | backtick => cases hhead
  | doubleQuote => cases hhead
  | illegal =>
    have h1 := dom _ rfl (by decide)
    have h2 := hk.single rfl
    simp at h2
    rw [h2] at h1; simp at h1

theorem hash_token {P : ParseStr} (hP : QuoteReader P) {body rest : Str} {ts : List Token} (hb : '\n' ∉ body)
    (hr : ∀ c, rest.head? = some c → c = '\n') (h : Lexes P ('#' :: body ++ rest) ts) :
    ∃ vs, ts = .other ('#' :: body) :: vs ∧ Lexes P rest vs := by
  obtain ⟨k, t, r, us, e, rfl, hk, hdom, hl⟩ := lexes_cons (show Lexes P ('#' :: (body ++ rest)) ts from h)
  have hhead := takes_head hP hk
  cases k with
  | clientArgument => cases hhead
  | heredoc => cases hhead
  | commentDash => cases hhead
  | commentBlock => cases hhead
  | literal i => exact absurd rfl (literals_head hhead).2.2.2.1
  | whitespace => cases hhead
  | commentHashbang =>
    obtain ⟨e1, e2⟩ := hashbang_exact hb hr (show '#' :: t ++ r = '#' :: body ++ rest by rw [List.cons_append, ← e]; rfl) hk
    rw [e1, ← e2]
    exact ⟨us, rfl, hl⟩
  | commentHash =>
    obtain ⟨e1, e2⟩ := hash_exact hb hr (show '#' :: t ++ r = '#' :: body ++ rest by rw [List.cons_append, ← e]; rfl) hk
    rw [e1, ← e2]
    exact ⟨us, rfl, hl⟩
  | bareWord => cases hhead
  | number => cases hhead
  | stringLiteral => cases hhead
  | backtick => cases hhead
  | doubleQuote => cases hhead
  | illegal =>
    have h1 := hdom .commentHash ('#' :: body) rest rfl (by decide) (hash_takes hb hr)
    have h2 := hk.single rfl
    simp at h1 h2
    rw [h2] at h1; simp at h1

theorem arg_token {P : ParseStr} (hP : QuoteReader P) {ds rest : Str} {ts : List Token} (hne : ds ≠ []) (hd : ds.all isDigit = true)
    (hr : ∀ c, rest.head? = some c → isDigit c = false) (hh : parseHeredoc P ('$' :: ds ++ rest) = none)
    (h : Lexes P ('$' :: ds ++ rest) ts) : ∃ vs, ts = .clientArgument ds :: vs ∧ Lexes P rest vs := by
  obtain ⟨k, t, r, us, e, rfl, hk, hdom, hl⟩ := lexes_cons (show Lexes P ('$' :: (ds ++ rest)) ts from h)
  have hhead := takes_head hP hk
  have dom : ∀ k' : TokKind, k = k' → 0 < k'.rank → ds.length + 1 < t.length + 1 := by
    rintro k' rfl hrank
    exact hdom .clientArgument ('$' :: ds) rest rfl hrank (arg_takes hne hd hr)
  cases k with
  | clientArgument =>
    obtain ⟨e1, e2⟩ := arg_exact hd hr (show '$' :: t ++ r = '$' :: ds ++ rest by rw [List.cons_append, ← e]; rfl) hk
    rw [e1, ← e2]
    exact ⟨us, rfl, hl⟩
  | heredoc =>
    have := hk.parsed _ rfl
    rw [show '$' :: t ++ r = '$' :: ds ++ rest by rw [List.cons_append, ← e]; rfl, hh] at this
    cases this
  | commentDash => cases hhead
  | commentBlock => cases hhead
  | literal i =>
    have h1 := dom _ rfl (by simp only [TokKind.rank]; omega)
    have h2 : 0 < ds.length := List.length_pos_iff.2 hne
    rcases (literals_head hhead).2.2.2.2.2.2 rfl with rfl | rfl <;> simp only [List.length_cons, List.length_nil] at h1 <;> omega
  | whitespace => cases hhead
  | commentHashbang => cases hhead
  | commentHash => cases hhead
  | bareWord => cases hhead
  | number => cases hhead
  | stringLiteral => cases hhead
  | backtick => cases hhead
  | doubleQuote => cases hhead
  | illegal =>
    have h1 := dom _ rfl (by decide)
    have h2 := hk.single rfl
    simp at h2
    rw [h2] at h1; simp at h1

theorem dollars_token {P : ParseStr} (hP : QuoteReader P) {rest : Str} {ts : List Token} (hh : parseHeredoc P ('$' :: '$' :: rest) = none)
    (h : Lexes P ('$' :: '$' :: rest) ts) : ∃ vs, ts = .escapedDollar :: vs ∧ Lexes P rest vs := by
  obtain ⟨k, t, r, us, e, rfl, hk, hdom, hl⟩ := lexes_cons h
  have hhead := takes_head hP hk
  cases k with
  | clientArgument =>
    obtain ⟨ds, e1, hne, hd⟩ := takes_argument hk
    simp only [List.cons.injEq, true_and] at e1
    subst e1
    cases t with
    | nil => exact absurd rfl hne
    | cons d ds => cases e; exact absurd (hd '$' (by simp)) (by decide)
  | heredoc =>
    have := hk.parsed _ rfl
    rw [show '$' :: t ++ r = '$' :: '$' :: rest by rw [List.cons_append, ← e], hh] at this
    cases this
  | commentDash => cases hhead
  | commentBlock => cases hhead
  | literal i =>
    rcases (literals_head hhead).2.2.2.2.2.2 rfl with rfl | rfl
    · cases e
      exact ⟨us, rfl, hl⟩
    · have h3 := literals_dollar (hk.fixed i rfl)
      have h1 := hdom (.literal 30) (ch! "$$") rest rfl (by simp [TokKind.rank]; omega) (literal_takes rfl (by simp))
      simp at h1
  | whitespace => cases hhead
  | commentHashbang => cases hhead
  | commentHash => cases hhead
  | bareWord => cases hhead
  | number => cases hhead
  | stringLiteral => cases hhead
  | backtick => cases hhead
  | doubleQuote => cases hhead
  | illegal =>
    have h1 := hdom (.literal 30) (ch! "$$") rest rfl (by decide) (literal_takes rfl (by simp))
    have h2 := hk.single rfl
    simp at h1 h2
    rw [h2] at h1; simp at h1

theorem heredoc_token {P : ParseStr} (hP : QuoteReader P) {name body rest : Str} {ts : List Token} (hn : Closed '$' name)
    (hd : ∀ c, name.head? = some c → isDigit c = false)
    (hb : ∀ i, i < body.length → ¬ ('$' :: name ++ ['$']) <+: (body ++ ('$' :: name ++ ['$'])).drop i)
    (h : Lexes P ((SqlPiece.heredoc name body).text ++ rest) ts) :
    ∃ vs, ts = .other (SqlPiece.heredoc name body).text :: vs ∧ Lexes P rest vs := by
  have hreads := heredoc_reads hP (rest := rest) hn hb
  have htakes : TokKind.Takes P .heredoc (SqlPiece.heredoc name body).text rest := parsed_takes rfl (by simp [SqlPiece.text]) hreads
  obtain ⟨w, hw⟩ : ∃ w, (SqlPiece.heredoc name body).text = '$' :: w := ⟨_, rfl⟩
  have hwl : 3 ≤ w.length := by
    have := congrArg List.length hw
    simp [SqlPiece.text] at this; omega
  have hw1 : w.head? = some '$' ∨ w.head? = name.head? := by
    simp only [SqlPiece.text, List.cons_append, List.cons.injEq, true_and] at hw
    subst hw
    cases name with
    | nil => exact .inl rfl
    | cons c name => exact .inr rfl
  rw [hw] at h hreads htakes ⊢
  obtain ⟨k, t, r, us, e, rfl, hk, hdom, hl⟩ := lexes_cons (show Lexes P ('$' :: (w ++ rest)) ts from h)
  have hhead := takes_head hP hk
  have dom : ∀ k' : TokKind, k = k' → 1 < k'.rank → w.length + 1 < t.length + 1 := by
    rintro k' rfl hrank
    exact hdom .heredoc ('$' :: w) rest rfl hrank htakes
  cases k with
  | clientArgument =>
    obtain ⟨ds, e1, hne, hdd⟩ := takes_argument hk
    simp only [List.cons.injEq, true_and] at e1
    subst e1
    exfalso
    cases w with
    | nil => simp at hwl
    | cons c w =>
      cases t with
      | nil => exact absurd rfl hne
      | cons d ds =>
        simp only [List.cons_append, List.cons.injEq] at e
        obtain ⟨rfl, _⟩ := e
        rcases hw1 with hw1 | hw1
        · cases hw1; exact absurd (hdd '$' (by simp)) (by decide)
        · have h1 := hd _ hw1.symm
          rw [hdd _ (by simp)] at h1; cases h1
  | heredoc =>
    have h1 := hk.parsed _ rfl
    rw [show '$' :: t ++ r = '$' :: w ++ rest by rw [List.cons_append, ← e]; rfl, hreads] at h1
    cases h1
    exact ⟨us, rfl, hl⟩
  | commentDash => cases hhead
  | commentBlock => cases hhead
  | literal i =>
    have h1 := dom _ rfl (by simp [TokKind.rank]; omega)
    rcases (literals_head hhead).2.2.2.2.2.2 rfl with rfl | rfl <;> (simp at h1; try omega)
  | whitespace => cases hhead
  | commentHashbang => cases hhead
  | commentHash => cases hhead
  | bareWord => cases hhead
  | number => cases hhead
  | stringLiteral => cases hhead
  | backtick => cases hhead
  | doubleQuote => cases hhead
  | illegal =>
    have h1 := dom _ rfl (by decide)
    have h2 := hk.single rfl
    simp at h2
    rw [h2] at h1; simp at h1

theorem only_end {x r body rest : Str} (hb : hasPair '*' '/' (body ++ ['*']) = false) (hr : hasPair '*' '/' rest = false)
    (e : x ++ '*' :: '/' :: r = body ++ '*' :: '/' :: rest) : x = body ∧ r = rest := by
  induction body generalizing x with
  | nil =>
    cases x with
    | nil => cases e; exact ⟨rfl, rfl⟩
    | cons a x =>
      exfalso
      cases x with
      | nil => cases e
      | cons b x =>
        simp only [List.nil_append, List.cons_append, List.cons.injEq] at e
        have := hasPair_append (x := x) (show hasPair '*' '/' (x ++ '*' :: '/' :: r) = false by rw [e.2.2]; exact hr)
        simp [hasPair] at this
  | cons c body ih =>
    cases x with
    | nil =>
      exfalso
      simp only [List.nil_append, List.cons_append, List.cons.injEq] at e
      obtain ⟨rfl, e⟩ := e
      cases body with
      | nil => cases e
      | cons d body =>
        simp only [List.cons_append, List.cons.injEq] at e
        obtain ⟨rfl, e⟩ := e
        simp [hasPair] at hb
    | cons a x =>
      simp only [List.cons_append, List.cons.injEq] at e
      obtain ⟨rfl, e⟩ := e
      have := ih (hasPair_append (x := [a]) hb) e
      exact ⟨by rw [this.1], this.2⟩

theorem block_exact {P : ParseStr} {t r : Str} (h : TokKind.Takes P .commentBlock t r) : ∃ x, t = '/' :: '*' :: x ++ ['*', '/'] := by
  have := h.matched _ rfl
  rw [rx_seq_iff] at this
  obtain ⟨a, y, rfl, ha, hy⟩ := this
  rw [rx_lit_iff] at ha; subst ha
  rw [rx_seq_iff] at hy
  obtain ⟨x, z, rfl, _, hz⟩ := hy
  rw [rx_lit_iff] at hz; subst hz
  exact ⟨x, rfl⟩

theorem block_takes {P : ParseStr} {body rest : Str} : TokKind.Takes P .commentBlock ('/' :: '*' :: body ++ ['*', '/']) rest where
  some_text := by simp
  fixed := by intro i h; cases h
  parsed := by intro f h; cases h
  matched := by
    intro r h; cases h
    exact rx_seq_iff.2 ⟨ch! "/*", body ++ ['*', '/'], rfl, (rx_lit_iff _ _).2 rfl,
      rx_seq_iff.2 ⟨body, ch! "*/", rfl, rx_star_cls_iff.2 (fun _ _ => rfl), (rx_lit_iff _ _).2 rfl⟩⟩
  greedy := by intro r _ h; exact absurd rfl h
  single := by intro h; cases h

theorem block_token {P : ParseStr} (hP : QuoteReader P) {body rest : Str} {ts : List Token} (hb : hasPair '*' '/' (body ++ ['*']) = false)
    (hr : hasPair '*' '/' rest = false) (h : Lexes P ('/' :: '*' :: body ++ ['*', '/'] ++ rest) ts) :
    ∃ vs, ts = .other ('/' :: '*' :: body ++ ['*', '/']) :: vs ∧ Lexes P rest vs := by
  obtain ⟨k, t, r, us, e, rfl, hk, hdom, hl⟩ := lexes_cons (show Lexes P ('/' :: ('*' :: body ++ ['*', '/'] ++ rest)) ts from h)
  have hhead := takes_head hP hk
  have dom : ∀ k' : TokKind, k = k' → 3 < k'.rank → body.length + 4 < t.length + 1 := by
    rintro k' rfl hrank
    have := hdom .commentBlock ('/' :: '*' :: body ++ ['*', '/']) rest rfl hrank block_takes
    simp at this; omega
  cases k with
  | clientArgument => cases hhead
  | heredoc => cases hhead
  | commentDash => cases hhead
  | commentBlock =>
    obtain ⟨x, ex⟩ := block_exact hk
    cases ex
    have e2 : x ++ '*' :: '/' :: r = body ++ '*' :: '/' :: rest := by simpa using e.symm
    obtain ⟨rfl, rfl⟩ := only_end hb hr e2
    exact ⟨us, rfl, hl⟩
  | literal i =>
    have h1 := dom _ rfl (by simp only [TokKind.rank]; omega)
    rw [(literals_slash hhead)] at h1
    simp at h1
  | whitespace => cases hhead
  | commentHashbang => cases hhead
  | commentHash => cases hhead
  | bareWord => cases hhead
  | number => cases hhead
  | stringLiteral => cases hhead
  | backtick => cases hhead
  | doubleQuote => cases hhead
  | illegal =>
    have h1 := dom _ rfl (by decide)
    have h2 := hk.single rfl
    simp at h2
    rw [h2] at h1; simp at h1

/-- Any conforming reading of a well-written script follows its pieces. -/
theorem lexes_aligned {P : ParseStr} (hP : QuoteReader P) {ps : List SqlPiece} (hps : WellWritten P ps) {ts : List Token}
    (h : Lexes P (scriptText ps) ts) : Aligned ps ts := by
  induction ps generalizing ts with
  | nil =>
    rcases lexes_inv h with ⟨_, rfl⟩ | ⟨k, t, r, us, e, _, hk, _⟩
    · exact .nil
    · exact absurd (List.append_eq_nil_iff.1 e.symm).1 hk.some_text
  | cons p ps ih =>
    obtain ⟨hp, hps⟩ := hps
    have e : scriptText (p :: ps) = p.text ++ scriptText ps := rfl
    rw [e] at h
    cases p with
    | plain s =>
      obtain ⟨us, vs, rfl, h1, h2, h3⟩ := plain_region hP s.length s _ ts (Nat.le_refl _) hp.1 hp.2 h
      exact .ordinary (by intro h; cases h) (by intro h; cases h) (by intro ds h; cases h) h1 h2 (ih hps h3)
    | quoted q body =>
      obtain ⟨vs, rfl, hl⟩ := quoted_token hP hp.1 hp.2 h
      exact aligned_one (p := .quoted q body) (by intro h; cases h) (by intro h; cases h) (by intro ds h; cases h) (ih hps hl)
    | dash body =>
      obtain ⟨vs, rfl, hl⟩ := dash_token hP hp.1 hp.2 h
      exact aligned_one (p := .dash body) (by intro h; cases h) (by intro h; cases h) (by intro ds h; cases h) (ih hps hl)
    | hash body =>
      obtain ⟨vs, rfl, hl⟩ := hash_token hP hp.1 hp.2 h
      exact aligned_one (p := .hash body) (by intro h; cases h) (by intro h; cases h) (by intro ds h; cases h) (ih hps hl)
    | block body =>
      obtain ⟨vs, rfl, hl⟩ := block_token hP hp.2.1 hp.2.2 h
      exact aligned_one (p := .block body) (by intro h; cases h) (by intro h; cases h) (by intro ds h; cases h) (ih hps hl)
    | heredoc name body =>
      obtain ⟨vs, rfl, hl⟩ := heredoc_token hP hp.1 hp.2.1 hp.2.2 h
      exact aligned_one (p := .heredoc name body) (by intro h; cases h) (by intro h; cases h) (by intro ds h; cases h) (ih hps hl)
    | semicolon =>
      obtain ⟨vs, rfl, hl⟩ := semicolon_token hP h
      exact .semicolon (ih hps hl)
    | arg ds =>
      obtain ⟨h1, h2, h3, h4⟩ := hp
      obtain ⟨vs, rfl, hl⟩ := arg_token hP h1 h2 h3 h4 h
      exact .arg h1 h2 (ih hps hl)
    | dollars =>
      obtain ⟨vs, rfl, hl⟩ := dollars_token hP hp h
      exact .dollars (ih hps hl)

theorem statements_ne (ps : List SqlPiece) : statements ps ≠ [] := by
  cases ps with
  | nil => simp [statements]
  | cons p ps => cases p <;> simp only [statements] <;> first | (split <;> simp) | simp

theorem statements_ordinary {p : SqlPiece} (h : p ≠ .semicolon) (ps : List SqlPiece) :
    ∃ r rs, statements ps = r :: rs ∧ statements (p :: ps) = (p.text ++ r) :: rs := by
  cases hs : statements ps with
  | nil => exact absurd hs (statements_ne ps)
  | cons r rs =>
    refine ⟨r, rs, rfl, ?_⟩
    cases p <;> first | (simp only [statements, hs]; done) | exact absurd rfl h

theorem splitLoop_other (us : List Token) (hu : ∀ u ∈ us, ∃ x, u = .other x) (out : List Str) (cur : Str) (ts : List Token) :
    splitLoop out cur (us ++ ts) = splitLoop out (cur ++ source us) ts := by
  induction us generalizing cur with
  | nil => simp [source]
  | cons u us ih =>
    obtain ⟨x, rfl⟩ := hu u (by simp)
    rw [List.cons_append, splitLoop, ih (fun v hv => hu v (by simp [hv]))]
    · simp [source, Token.text]
    · intro h; cases h

theorem splitLoop_aligned {ps : List SqlPiece} {ts : List Token} (h : Aligned ps ts) (out : List Str) (cur : Str) :
    ∃ r rs, statements ps = r :: rs ∧ splitLoop out cur ts = out ++ (cur ++ r) :: rs := by
  induction h generalizing out cur with
  | nil => exact ⟨[], [], rfl, by simp [splitLoop]⟩
  | semicolon _ ih =>
    obtain ⟨r, rs, e1, e2⟩ := ih (out ++ [cur ++ [';']]) []
    exact ⟨[';'], r :: rs, by simp [statements, e1], by rw [splitLoop, e2]; simp⟩
  | @arg ds ps ts _ _ _ ih =>
    obtain ⟨r, rs, e1, e2⟩ := statements_ordinary (p := .arg ds) (by intro h; cases h) ps
    obtain ⟨r', rs', e3, e4⟩ := ih out (cur ++ (SqlPiece.arg ds).text)
    rw [e1] at e3; cases e3
    refine ⟨_, _, e2, ?_⟩
    rw [splitLoop]
    · simpa [Token.text, SqlPiece.text] using e4
    · intro h; cases h
  | @dollars ps ts _ ih =>
    obtain ⟨r, rs, e1, e2⟩ := statements_ordinary (p := .dollars) (by intro h; cases h) ps
    obtain ⟨r', rs', e3, e4⟩ := ih out (cur ++ SqlPiece.dollars.text)
    rw [e1] at e3; cases e3
    refine ⟨_, _, e2, ?_⟩
    rw [splitLoop]
    · simpa [Token.text, SqlPiece.text] using e4
    · intro h; cases h
  | @ordinary p ps us ts h1 _ _ hs hu _ ih =>
    obtain ⟨r, rs, e1, e2⟩ := statements_ordinary h1 ps
    obtain ⟨r', rs', e3, e4⟩ := ih out (cur ++ p.text)
    rw [e1] at e3; cases e3
    exact ⟨_, _, e2, by rw [splitLoop_other us hu, hs, e4]; simp⟩

theorem aligned_substitute {ps : List SqlPiece} {ts : List Token} (h : Aligned ps ts) (texts : List Str) :
    ts.flatMap (substitute texts) = ps.flatMap (SqlPiece.filled texts) ∧ ∀ t ∈ ts, TokenOk t := by
  induction h with
  | nil => exact ⟨rfl, by simp⟩
  | semicolon _ ih =>
    refine ⟨by simp [substitute, SqlPiece.filled, SqlPiece.text, ih.1], ?_⟩
    intro t ht
    rcases List.mem_cons.1 ht with rfl | ht
    · trivial
    · exact ih.2 t ht
  | arg h1 h2 _ ih =>
    refine ⟨by simp [substitute, SqlPiece.filled, ih.1], ?_⟩
    intro t ht
    rcases List.mem_cons.1 ht with rfl | ht
    · exact ⟨h1, h2⟩
    · exact ih.2 t ht
  | dollars _ ih =>
    refine ⟨by simp [substitute, SqlPiece.filled, ih.1], ?_⟩
    intro t ht
    rcases List.mem_cons.1 ht with rfl | ht
    · trivial
    · exact ih.2 t ht
  | @ordinary p ps us ts h1 h2 h3 hs hu _ ih =>
    have e1 : us.flatMap (substitute texts) = source us := by
      clear hs
      induction us with
      | nil => rfl
      | cons u us ih =>
        obtain ⟨x, rfl⟩ := hu u (by simp)
        simp only [List.flatMap_cons, source]
        rw [ih (fun v hv => hu v (by simp [hv]))]
        rfl
    have e2 : p.filled texts = p.text := by
      cases p <;> first | rfl | exact absurd rfl h2 | exact absurd rfl (h3 _)
    refine ⟨by simp [e1, e2, hs, ih.1], ?_⟩
    intro t ht
    rcases List.mem_append.1 ht with ht | ht
    · obtain ⟨x, rfl⟩ := hu t ht; trivial
    · exact ih.2 t ht

/-! ### the claims -/

/-- C25, on texts: however a conforming tokenizer reads a script written as plain text, quoted literals, comments and heredocs, the
statements are what stands between the semicolons outside of these, in order, without the white space around. A semicolon inside a
quoted literal, a comment or a heredoc never splits. -/
theorem C25_text {P : ParseStr} (hP : QuoteReader P) {ps : List SqlPiece} (hps : WellWritten P ps) {ts : List Token}
    (h : Lexes P (scriptText ps) ts) : Padded (statements ps) (splitQueryStatements ts) := by
  obtain ⟨r, rs, e1, e2⟩ := splitLoop_aligned (lexes_aligned hP hps h) [] []
  unfold splitQueryStatements
  rw [e2, e1]
  exact padded_of _

/-- C25: where a `/*` comment ends is not settled by the declared pattern `/\*.*\*/`: it also matches from the first comment of a script
to the end of the last, with the statements between them (which is what a greedy `.*` means), and then these are not split. This is why
`C25_text` asks for one `*/` after a `/*`. -/
theorem C25_two_comments {P : ParseStr} (hP : QuoteReader P) (a between b : Str) :
    ∃ ts, Lexes P (scriptText [.block a, .plain between, .block b]) ts ∧ (splitQueryStatements ts).length ≤ 1 := by
  have e : scriptText [.block a, .plain between, .block b] = ('/' :: '*' :: (a ++ ['*', '/'] ++ between ++ ['/', '*'] ++ b) ++ ['*', '/']) ++ [] := by
    simp [scriptText, SqlPiece.text]
  refine ⟨[TokKind.token .commentBlock ('/' :: '*' :: (a ++ ['*', '/'] ++ between ++ ['/', '*'] ++ b) ++ ['*', '/'])], ?_, ?_⟩
  · rw [e]
    refine .next block_takes ?_ .done
    intro k' t' r' e' hr hk
    exfalso
    cases t' with
    | nil => exact hk.some_text rfl
    | cons c t' =>
      obtain rfl : '/' = c := (List.cons.inj e').1
      have := takes_head hP hk
      cases k' <;> first | (simp [TokKind.rank] at hr; done) | (cases this; done) | (simp only [TokKind.rank] at hr; omega)
  · unfold splitQueryStatements
    refine Nat.le_trans (List.length_filter_le _ _) ?_
    rw [List.length_map]
    exact Nat.le_refl 1

/-- C24, on texts: however a conforming tokenizer reads a template, what is sent is the template with each `$N` replaced by the text of
the N-th argument when there is one, each `$$` by a dollar, and everything else, in particular a `$N` inside a quoted literal, a
comment or a heredoc, as it stands. -/
theorem C24_text {P : ParseStr} (hP : QuoteReader P) {ps : List SqlPiece} (hps : WellWritten P ps) {ts : List Token}
    (h : Lexes P (scriptText ps) ts) (ext : Ext) (args : List Value) (texts : List Str) (hargs : args.length < 2 ^ 64)
    (htexts : Value.texts ext args = .ok texts) :
    parseQueryArguments ext ts args = .ok (ps.flatMap (SqlPiece.filled texts)) := by
  have := aligned_substitute (lexes_aligned hP hps h) texts
  rw [C24_substitution ext ts args texts this.2 hargs htexts, this.1]

/-- Every text can be read: taking the first declared pattern that matches is a conforming tokenizer. -/
theorem lexes_total (P : ParseStr) : ∀ (n : Nat) (s : Str), s.length ≤ n → ∃ ts, Lexes P s ts := by
  intro n
  induction n with
  | zero =>
    intro s hs
    rw [List.length_eq_zero_iff.1 (Nat.le_zero.1 hs)]
    exact ⟨[], .done⟩
  | succ n ih =>
    intro s hs
    cases s with
    | nil => exact ⟨[], .done⟩
    | cons c s =>
      -- a matching kind of least rank
      have hill : TokKind.Takes P .illegal [c] s :=
        ⟨by simp, (by intro i h; cases h), (by intro f h; cases h), (by intro r h; cases h), (by intro r h; cases h), (by intro _; rfl)⟩
      have least : ∀ m, (∃ (k : TokKind) (t r : Str), c :: s = t ++ r ∧ k.rank ≤ m ∧ k.Takes P t r) →
          ∃ (k : TokKind) (t r : Str), c :: s = t ++ r ∧ k.Takes P t r ∧ ∀ (k' : TokKind) (t' r' : Str), c :: s = t' ++ r' → k'.rank < k.rank → ¬ k'.Takes P t' r' := by
        intro m
        induction m with
        | zero =>
          rintro ⟨k, t, r, e, hk, ht⟩
          exact ⟨k, t, r, e, ht, fun k' t' r' _ h => by omega⟩
        | succ m ihm =>
          rintro ⟨k, t, r, e, hk, ht⟩
          by_cases hex : ∃ (k : TokKind) (t r : Str), c :: s = t ++ r ∧ k.rank ≤ m ∧ k.Takes P t r
          · exact ihm hex
          · exact ⟨k, t, r, e, ht, fun k' t' r' e' hr ht' => hex ⟨k', t', r', e', by omega, ht'⟩⟩
      obtain ⟨k, t, r, e, ht, hmin⟩ := least _ ⟨.illegal, [c], s, rfl, Nat.le_refl _, hill⟩
      have hlen : r.length ≤ n := by
        have := congrArg List.length e
        have h1 : 0 < t.length := List.length_pos_iff.2 ht.some_text
        simp at this hs; omega
      obtain ⟨ts, hts⟩ := ih r hlen
      rw [e]
      exact ⟨_, .next ht (fun k' t' r' e' hr ht' => absurd ht' (hmin k' t' r' (e.trans e') hr)) hts⟩

/-! ### the assumptions can be met, and the crate's own test cases -/

/-- A reader of quoted texts: up to the first quote that is not escaped. -/
def quoteGo (q : Char) : Bool → Str → Option (Str × Str)
  | _, [] => none
  | true, c :: s => (quoteGo q false s).map fun x => (c :: x.1, x.2)
  | false, c :: s =>
    if c = q then some ([c], s) else (quoteGo q (c == '\\') s).map fun x => (c :: x.1, x.2)

/-- A reader of quoted texts. -/
def exParseStr (q : Char) : Str → Option (Str × Str)
  | [] => none
  | c :: s => if c = q then (quoteGo q false s).map fun x => (c :: x.1, x.2) else none

theorem quoteGo_closed {q : Char} {body : Str} (hq : q ≠ '\\') (h : Closed q body) (rest : Str) :
    quoteGo q false (body ++ q :: rest) = some (body ++ [q], rest) := by
  induction h with
  | nil => simp [quoteGo]
  | @plain c s h1 h2 _ ih =>
    have : (c == '\\') = false := by simpa using h2
    simp [quoteGo, h1, this, ih]
  | @escaped c s _ ih =>
    simp [quoteGo, Ne.symm hq, ih]

theorem exParseStr_reader : QuoteReader exParseStr where
  starts := by
    intro q s a b h
    cases s with
    | nil => cases h
    | cons c s =>
      simp only [exParseStr] at h
      split at h
      · rename_i e; exact ⟨s, by rw [e]⟩
      · cases h
  reads := by
    intro q body rest hq hb
    simp only [exParseStr, List.cons_append, if_true, quoteGo_closed hq hb rest, Option.map_some]

theorem closed_plain {q : Char} {s : Str} (h : s.all (fun c => c != q && c != '\\') = true) : Closed q s := by
  induction s with
  | nil => exact .nil
  | cons c s ih =>
    simp only [List.all_cons, Bool.and_eq_true, bne_iff_ne] at h
    exact .plain h.1.1 h.1.2 (ih h.2)

/-- `split_tests`, klickhouse/src/query_parser.rs:247: `"X;B;\n"`. -/
example : WellWritten exParseStr [.plain ['X'], .semicolon, .plain ['B'], .semicolon, .plain ['\n']] ∧
    scriptText [.plain ['X'], .semicolon, .plain ['B'], .semicolon, .plain ['\n']] = ch! "X;B;\n" ∧
    statements [.plain ['X'], .semicolon, .plain ['B'], .semicolon, .plain ['\n']] = [ch! "X;", ch! "B;", ['\n']] :=
  ⟨⟨⟨rfl, .inr (.inl ⟨';', _, rfl, rfl⟩)⟩, trivial, ⟨rfl, .inr (.inl ⟨';', _, rfl, rfl⟩)⟩, trivial, ⟨rfl, .inl rfl⟩, trivial⟩, rfl, rfl⟩

/-- A script with semicolons in a literal, in a comment and in a heredoc. -/
def exScript : List SqlPiece :=
  [.plain (ch! "insert into t values ("), .quoted '\'' (ch! "a;\\'b"), .plain (ch! ") "), .dash (ch! " one; two"), .plain ['\n'],
    .semicolon, .plain (ch! " select "), .heredoc (ch! "x") (ch! "p;$q"), .semicolon]

/-- Two statements with a comment before them. -/
example : WellWritten exParseStr [.block (ch! " a; b "), .plain (ch! " select 1"), .semicolon, .plain (ch! " select 2")] ∧
    statements [.block (ch! " a; b "), .plain (ch! " select 1"), .semicolon, .plain (ch! " select 2")] =
      [ch! "/* a; b */ select 1;", ch! " select 2"] :=
  ⟨⟨⟨by decide, rfl, rfl⟩, ⟨rfl, .inr (.inl ⟨_, _, rfl, rfl⟩)⟩, trivial, ⟨rfl, .inl rfl⟩, trivial⟩, rfl⟩

example : scriptText exScript = ch! "insert into t values ('a;\\'b') -- one; two\n; select $x$p;$q$x$;" := rfl

theorem exScript_ok : WellWritten exParseStr exScript := by
  refine ⟨⟨rfl, .inr (.inl ⟨_, _, rfl, rfl⟩)⟩, ⟨.inl rfl, ?_⟩, ⟨rfl, .inr (.inr ⟨⟨_, .inl rfl⟩, ?_⟩)⟩, ⟨by decide, ?_⟩, ⟨rfl, .inr (.inl ⟨_, _, rfl, rfl⟩)⟩, trivial,
    ⟨rfl, .inr (.inl ⟨_, _, rfl, rfl⟩)⟩, ⟨closed_plain rfl, ?_, ?_⟩, trivial, trivial⟩
  · exact .plain (by decide) (by decide) (.plain (by decide) (by decide) (.escaped (.plain (by decide) (by decide) .nil)))
  · intro c h; cases h; exact .inl rfl
  · intro c h; cases h; rfl
  · intro c h; cases h; rfl
  · decide

example : statements exScript = [ch! "insert into t values ('a;\\'b') -- one; two\n;", ch! " select $x$p;$q$x$;", []] := rfl

/-- All this holds of some reading of the script. -/
example : ∃ ts, Lexes exParseStr (scriptText exScript) ts ∧
    Padded [ch! "insert into t values ('a;\\'b') -- one; two\n;", ch! " select $x$p;$q$x$;", []] (splitQueryStatements ts) := by
  obtain ⟨ts, h⟩ := lexes_total exParseStr _ (scriptText exScript) (Nat.le_refl _)
  exact ⟨ts, h, C25_text exParseStr_reader exScript_ok h⟩

/-- `arg_tests`, klickhouse/src/query_parser.rs:215: the template. -/
def exTemplate : List SqlPiece :=
  [.plain (ch! "SELECT a, b FROM x WHERE x.y = "), .arg ['1'], .plain (ch! " AND x.z = "), .arg ['2']]

theorem exTemplate_ok : WellWritten exParseStr exTemplate := by
  refine ⟨⟨rfl, .inr (.inl ⟨_, _, rfl, rfl⟩)⟩, ⟨by simp, rfl, ?_, rfl⟩, ⟨rfl, .inr (.inl ⟨_, _, rfl, rfl⟩)⟩, ⟨by simp, rfl, ?_, rfl⟩, trivial⟩
  · intro c h; cases h; rfl
  · intro c h; cases h

/-- `arg_tests`, klickhouse/src/query_parser.rs:213-219. -/
example (ts : List Token) (h : Lexes exParseStr (ch! "SELECT a, b FROM x WHERE x.y = $1 AND x.z = $2") ts) :
    parseQueryArguments exExt ts [.string (utf8Encode (ch! "te'st")), .uint32 3232] =
      .ok (ch! "SELECT a, b FROM x WHERE x.y = 'te\\'st' AND x.z = 3232") :=
  C24_text exParseStr_reader exTemplate_ok h exExt _ [ch! "'te\\'st'", ch! "3232"] (by decide) rfl

/-- `arg_tests`, klickhouse/src/query_parser.rs:220-226: `$3` with two arguments stays. -/
example (ts : List Token) (h : Lexes exParseStr (ch! "x.y = $1 AND x.z = $3") ts) :
    parseQueryArguments exExt ts [.string (utf8Encode (ch! "te'st")), .uint32 3232] = .ok (ch! "x.y = 'te\\'st' AND x.z = $3") :=
  C24_text exParseStr_reader (ps := [.plain (ch! "x.y = "), .arg ['1'], .plain (ch! " AND x.z = "), .arg ['3']])
    ⟨⟨rfl, .inr (.inl ⟨_, _, rfl, rfl⟩)⟩, ⟨by simp, rfl, (by intro c h; cases h; rfl), rfl⟩, ⟨rfl, .inr (.inl ⟨_, _, rfl, rfl⟩)⟩,
      ⟨by simp, rfl, (by intro c h; cases h), rfl⟩, trivial⟩ h exExt _ [ch! "'te\\'st'", ch! "3232"] (by decide) rfl

/-- A placeholder inside a literal or a comment is not one. -/
example (ts : List Token) (h : Lexes exParseStr (ch! "'$1' $$x -- $1") ts) :
    parseQueryArguments exExt ts [.uint32 7] = .ok (ch! "'$1' $x -- $1") :=
  C24_text exParseStr_reader (ps := [.quoted '\'' (ch! "$1"), .plain [' '], .dollars, .plain (ch! "x "), .dash (ch! " $1")])
    ⟨⟨.inl rfl, closed_plain rfl⟩, ⟨rfl, .inr (.inl ⟨_, _, rfl, rfl⟩)⟩, rfl, ⟨rfl, .inr (.inr ⟨⟨_, .inl rfl⟩, (by intro c h; cases h; exact .inl rfl)⟩)⟩,
      ⟨by decide, (by intro c h; cases h)⟩, trivial⟩ h exExt _ [ch! "7"] (by decide) rfl

/-- `parse_heredoc` reads `$HTEST$SS$HTEST$` (`parse_tests`, klickhouse/src/query_parser.rs:195). -/
example : parseHeredoc exParseStr (ch! "$HTEST$SS$HTEST$ rest") = some (ch! "$HTEST$SS$HTEST$", ch! " rest") := rfl

end Klick.Props
