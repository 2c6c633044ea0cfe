import Verif.Spec.Sql
import Verif.TypeTextLemmas
import Verif.CodecLemmas
/-
Lemmas on rendering and reading query text.
-/
namespace Klick
open Klick.Spec

/-! ### string literals -/

theorem hexVal_hexU : ∀ {n : Nat}, n < 16 → hexVal (hexU n) = some n := by
  have : ∀ m : Fin 16, hexVal (hexU m.val) = some m.val := by decide
  intro n h; exact this ⟨n, h⟩

theorem hexVal_hexL : ∀ {n : Nat}, n < 16 → hexVal (hexL n) = some n := by
  have : ∀ m : Fin 16, hexVal (hexL m.val) = some m.val := by decide
  intro n h; exact this ⟨n, h⟩

theorem ascii_utf8 : ∀ {n : Nat}, n < 128 → utf8Encode [Char.ofNat n] = [BitVec.ofNat 8 n] := by
  have : ∀ m : Fin 128, utf8Encode [Char.ofNat m.val] = [BitVec.ofNat 8 m.val] := by decide
  intro n h; exact this ⟨n, h⟩

theorem ofNat_ascii_inj : ∀ {n m : Nat}, n < 128 → m < 128 → Char.ofNat n = Char.ofNat m → n = m := by
  intro n m hn hm h
  have hv : ∀ k : Nat, k < 128 → (Char.ofNat k).toNat = k := by
    have : ∀ k : Fin 128, (Char.ofNat k.val).toNat = k.val := by decide
    intro k hk; exact this ⟨k, hk⟩
  have := congrArg Char.toNat h
  rwa [hv n hn, hv m hm] at this

theorem readQuoted_plain {c : Char} {s : Str} (h1 : c ≠ '\'') (h2 : c ≠ '\\') :
    readQuoted (c :: s) = (readQuoted s).map (fun r => (utf8Encode [c] ++ r.1, r.2)) := by
  conv => lhs; unfold readQuoted
  rw [if_neg h1, if_neg h2]

theorem readQuoted_esc {d : Char} {s : Str} (h1 : d ≠ 'x') (h2 : d ≠ 'N') :
    readQuoted ('\\' :: d :: s) = (readQuoted s).map (fun r => (unescapeChar d ++ r.1, r.2)) := by
  conv => lhs; unfold readQuoted
  rw [if_neg (by decide), if_pos rfl]
  simp only
  rw [if_neg h1, if_neg h2]

theorem readQuoted_hex {a b : Char} {h l : Nat} {s : Str} (ha : hexVal a = some h) (hb : hexVal b = some l) :
    readQuoted ('\\' :: 'x' :: a :: b :: s) =
      (readQuoted s).map (fun r => (BitVec.ofNat 8 (16 * h + l) :: r.1, r.2)) := by
  conv => lhs; unfold readQuoted
  rw [if_neg (by decide), if_pos rfl]
  simp only
  rw [if_pos trivial, ha, hb]

theorem readQuoted_escapeByte (b : Byte) (s : Str) :
    readQuoted (escapeByte b ++ s) = (readQuoted s).map (fun r => (b :: r.1, r.2)) := by
  unfold escapeByte
  by_cases h : b.toNat < 128
  · rw [if_pos h]
    by_cases h1 : b = 0x5C
    · subst h1; exact readQuoted_esc (by decide) (by decide)
    rw [if_neg h1]
    by_cases h2 : b = 0x27
    · subst h2; exact readQuoted_esc (by decide) (by decide)
    rw [if_neg h2]
    by_cases h3 : b = 0x08
    · subst h3; exact readQuoted_esc (by decide) (by decide)
    rw [if_neg h3]
    by_cases h4 : b = 0x0C
    · subst h4; exact readQuoted_esc (by decide) (by decide)
    rw [if_neg h4]
    by_cases h5 : b = 0x0D
    · subst h5; exact readQuoted_esc (by decide) (by decide)
    rw [if_neg h5]
    by_cases h6 : b = 0x0A
    · subst h6; exact readQuoted_esc (by decide) (by decide)
    rw [if_neg h6]
    by_cases h7 : b = 0x09
    · subst h7; exact readQuoted_esc (by decide) (by decide)
    rw [if_neg h7]
    by_cases h8 : b = 0x00
    · subst h8; exact readQuoted_esc (by decide) (by decide)
    rw [if_neg h8]
    by_cases h9 : b = 0x07
    · subst h9; exact readQuoted_esc (by decide) (by decide)
    rw [if_neg h9]
    by_cases h10 : b = 0x0B
    · subst h10; exact readQuoted_esc (by decide) (by decide)
    rw [if_neg h10, List.singleton_append, readQuoted_plain, ascii_utf8 h]
    · simp
    · intro he
      have := ofNat_ascii_inj (m := 0x27) h (by decide) he
      exact h2 (BitVec.eq_of_toNat_eq (by rw [this]; rfl))
    · intro he
      have := ofNat_ascii_inj (m := 0x5C) h (by decide) he
      exact h1 (BitVec.eq_of_toNat_eq (by rw [this]; rfl))
  · rw [if_neg h]
    have hb := b.isLt
    rw [List.cons_append, List.cons_append, List.cons_append, List.cons_append, List.nil_append,
      readQuoted_hex (hexVal_hexU (by omega)) (hexVal_hexU (by omega))]
    have : BitVec.ofNat 8 (16 * (b.toNat / 16) + b.toNat % 16) = b := by
      rw [Nat.div_add_mod]; simp
    rw [this]

/-- The escaped text of any bytes, closed by a quote, is read back as those bytes. -/
theorem readQuoted_escape (b : Bytes) (rest : Str) (h : NoQuote rest) :
    readQuoted (escapeString b ++ '\'' :: rest) = some (b, rest) := by
  induction b with
  | nil =>
    unfold escapeString
    rw [List.flatMap_nil, List.nil_append]
    unfold readQuoted
    rw [if_pos rfl]
    cases rest with
    | nil => rfl
    | cons d r => simp only; rw [if_neg (h d rfl)]
  | cons x b ih =>
    unfold escapeString at *
    rw [List.flatMap_cons, List.append_assoc, readQuoted_escapeByte, ih]
    rfl

/-! ### numbers -/

theorem takeWhile_append_stop {α : Type} {p : α → Bool} {l r : List α} (h : ∀ x ∈ l, p x = true)
    (hr : ∀ c, r.head? = some c → p c = false) : (l ++ r).takeWhile p = l := by
  induction l with
  | nil =>
    cases r with
    | nil => rfl
    | cons c r => simp [hr c rfl]
  | cons x l ih =>
    simp only [List.cons_append, List.takeWhile, h x (by simp)]
    rw [ih (fun y hy => h y (by simp [hy]))]

theorem dropWhile_append_stop {α : Type} {p : α → Bool} {l r : List α} (h : ∀ x ∈ l, p x = true)
    (hr : ∀ c, r.head? = some c → p c = false) : (l ++ r).dropWhile p = r := by
  induction l with
  | nil =>
    cases r with
    | nil => rfl
    | cons c r => simp [hr c rfl]
  | cons x l ih =>
    simp only [List.cons_append, List.dropWhile, h x (by simp)]
    exact ih (fun y hy => h y (by simp [hy]))

theorem isWord_of_digit {c : Char} (h : isDigit c = true) : isWord c = true := by simp [isWord, h]
theorem not_digit_of_not_word {c : Char} (h : isWord c = false) : isDigit c = false := by
  cases hd : isDigit c with
  | false => rfl
  | true => rw [isWord_of_digit hd] at h; cases h

theorem readUnsigned_decimal {s : Str} (h : ∀ r, s ≠ '0' :: 'x' :: r) : readUnsigned s = readDecimal s := by
  unfold readUnsigned
  split
  · rename_i r; exact absurd rfl (h r)
  · rfl

theorem readDecimal_int {ds rest : Str} (hd : ds.all isDigit = true) (hne : ds ≠ [])
    (h1 : ∀ c, rest.head? = some c → isDigit c = false ∧ c ≠ '.') :
    readDecimal (ds ++ rest) = some (digitsVal ds, 0, rest) := by
  unfold readDecimal
  rw [List.all_eq_true] at hd
  rw [takeWhile_append_stop hd (fun c hc => (h1 c hc).1), dropWhile_append_stop hd (fun c hc => (h1 c hc).1)]
  simp only
  split
  · exact absurd rfl (h1 '.' rfl).2
  · rw [if_neg (by simpa using hne)]

theorem readDecimal_frac {ds fs rest : Str} (hd : ds.all isDigit = true) (hf : fs.all isDigit = true)
    (hne : ds ++ fs ≠ []) (h1 : ∀ c, rest.head? = some c → isDigit c = false) :
    readDecimal (ds ++ '.' :: (fs ++ rest)) = some (digitsVal (ds ++ fs), fs.length, rest) := by
  unfold readDecimal
  rw [List.all_eq_true] at hd hf
  have hdot : ∀ c, ('.' :: (fs ++ rest)).head? = some c → isDigit c = false := by
    intro c hc; cases hc; decide
  rw [takeWhile_append_stop hd hdot, dropWhile_append_stop hd hdot]
  simp only
  rw [takeWhile_append_stop hf h1, dropWhile_append_stop hf h1]
  rw [if_neg]
  intro h
  apply hne
  simpa [List.isEmpty_iff] using h

/-- Digits are not the start of a hexadecimal number. -/
theorem digits_not_hex {ds rest : Str} (hd : ds.all isDigit = true) (h1 : ∀ c, rest.head? = some c → c ≠ 'x') :
    ∀ r, ds ++ rest ≠ '0' :: 'x' :: r ∨ ds = [] := by
  intro r
  rw [List.all_eq_true] at hd
  cases ds with
  | nil => exact .inr rfl
  | cons c ds =>
    left
    intro h
    simp only [List.cons_append, List.cons.injEq] at h
    cases ds with
    | nil => exact h1 'x' (by rw [List.nil_append] at h; rw [h.2]; rfl) rfl
    | cons d ds =>
      simp only [List.cons_append, List.cons.injEq] at h
      have := hd d (by simp)
      rw [h.2.1] at this
      revert this; decide

theorem Spec.Stops.digit {s : Str} (h : Stops s) : ∀ c, s.head? = some c → isDigit c = false ∧ c ≠ '.' :=
  fun c hc => ⟨not_digit_of_not_word (h.1 c hc).1, (h.1 c hc).2.1⟩

theorem Spec.Stops.notx {s : Str} (h : Stops s) : ∀ c, s.head? = some c → c ≠ 'x' := by
  intro c hc e
  have := (h.1 c hc).1
  rw [e] at this
  revert this; decide

theorem readUnsigned_dec (n : Nat) {rest : Str} (h : ∀ c, rest.head? = some c → isDigit c = false ∧ c ≠ '.' ∧ c ≠ 'x') :
    readUnsigned (dec n ++ rest) = some (n, 0, rest) := by
  rw [readUnsigned_decimal, readDecimal_int (dec_digits n) (dec_ne_nil n) (fun c hc => ⟨(h c hc).1, (h c hc).2.1⟩),
    digitsVal_dec]
  intro r
  rcases digits_not_hex (dec_digits n) (fun c hc => (h c hc).2.2) r with h | h
  · exact h
  · exact absurd h (dec_ne_nil n)

theorem readNumber_pos {s : Str} (h : ∀ r, s ≠ '-' :: r) :
    readNumber s = (readUnsigned s).map (fun (m, k, r) => (.num (m : Int) k, r)) := by
  unfold readNumber
  split
  · rename_i r; exact absurd rfl (h r)
  · rfl

theorem dec_not_minus (n : Nat) (rest : Str) : ∀ r, dec n ++ rest ≠ '-' :: r := by
  intro r h
  obtain ⟨c, r', he, hc⟩ := dec_head n
  rw [he] at h
  simp only [List.cons_append, List.cons.injEq] at h
  rw [h.1] at hc
  revert hc; decide

theorem readNumber_dec (n : Nat) {rest : Str} (h : ∀ c, rest.head? = some c → isDigit c = false ∧ c ≠ '.' ∧ c ≠ 'x') :
    readNumber (dec n ++ rest) = some (.num n 0, rest) := by
  rw [readNumber_pos (dec_not_minus n rest), readUnsigned_dec n h]
  rfl

theorem readNumber_decInt (x : Int) {rest : Str}
    (h : ∀ c, rest.head? = some c → isDigit c = false ∧ c ≠ '.' ∧ c ≠ 'x') :
    readNumber (decInt x ++ rest) = some (.num x 0, rest) := by
  unfold decInt
  by_cases hx : x < 0
  · rw [if_pos hx, List.cons_append]
    unfold readNumber
    simp only
    rw [readUnsigned_dec _ h]
    simp only [Option.map_some]
    congr 3
    omega
  · rw [if_neg hx, readNumber_dec _ h]
    congr 3
    omega

/-- Decimals whose digits cover their scale. -/
theorem readNumber_decimal (p : Nat) (x : Int) (hp : DigitsCover p x) {rest : Str}
    (h : ∀ c, rest.head? = some c → isDigit c = false) :
    readNumber (decimalText p (decInt x) ++ rest) = some (.num x p, rest) := by
  unfold DigitsCover at hp
  have hn := dec_ne_nil x.natAbs
  have hd := dec_digits x.natAbs
  have hv := digitsVal_dec x.natAbs
  have core : readUnsigned ((dec x.natAbs).take ((dec x.natAbs).length - p) ++ '.' ::
      ((dec x.natAbs).drop ((dec x.natAbs).length - p) ++ rest)) = some (x.natAbs, p, rest) := by
    have hall : ∀ c ∈ dec x.natAbs, isDigit c = true := by rwa [List.all_eq_true] at hd
    rw [readUnsigned_decimal, readDecimal_frac]
    · rw [List.take_append_drop, hv]
      congr 3
      simp; omega
    · rw [List.all_eq_true]; intro c hc; exact hall c (List.mem_of_mem_take hc)
    · rw [List.all_eq_true]; intro c hc; exact hall c (List.mem_of_mem_drop hc)
    · rw [List.take_append_drop]; exact hn
    · exact h
    · intro r hr
      have hall' : ((dec x.natAbs).take ((dec x.natAbs).length - p)).all isDigit = true := by
        rw [List.all_eq_true]; intro c hc; exact hall c (List.mem_of_mem_take hc)
      rcases digits_not_hex (rest := '.' :: ((dec x.natAbs).drop ((dec x.natAbs).length - p) ++ rest)) hall'
        (by intro c hc; cases hc; decide) r with h | h
      · exact h hr
      · rw [h] at hr; simp at hr
  unfold decimalText decInt
  by_cases hx : x < 0
  · rw [if_pos hx]
    have e : ('-' :: dec x.natAbs).length - p = ((dec x.natAbs).length - p) + 1 := by simp; omega
    rw [if_neg (by simp; omega), e]
    simp only [List.take_succ_cons, List.drop_succ_cons, List.cons_append, List.append_assoc, List.nil_append]
    unfold readNumber
    simp only
    rw [core]
    simp only [Option.map_some]
    congr 3
    omega
  · rw [if_neg hx, if_neg (by omega)]
    simp only [List.append_assoc, List.cons_append, List.nil_append]
    rw [readNumber_pos, core]
    · simp only [Option.map_some]
      congr 3
      omega
    · intro r hr
      cases ht : (dec x.natAbs).take ((dec x.natAbs).length - p) with
      | nil => rw [ht] at hr; simp at hr
      | cons c t =>
        rw [ht] at hr
        simp only [List.cons_append, List.cons.injEq] at hr
        rw [List.all_eq_true] at hd
        have := hd c (List.mem_of_mem_take (i := (dec x.natAbs).length - p) (by rw [ht]; simp))
        rw [hr.1] at this
        revert this; decide

/-! ### hexadecimal numbers -/

theorem hexDigitsVal_bytes (bs : Bytes) :
    hexDigitsVal (bs.flatMap (fun b => [hexU (b.toNat / 16), hexU (b.toNat % 16)])) = unBe bs := by
  unfold hexDigitsVal unBe
  have key : ∀ (bs : Bytes) (a : Nat),
      (bs.flatMap (fun b => [hexU (b.toNat / 16), hexU (b.toNat % 16)])).foldl
        (fun a c => 16 * a + (hexVal c).getD 0) a = bs.foldl (fun a b => b.toNat + 256 * a) a := by
    intro bs
    induction bs with
    | nil => intro a; rfl
    | cons b bs ih =>
      intro a
      have hb := b.isLt
      rw [List.flatMap_cons, List.foldl_append, List.foldl_cons]
      simp only [List.foldl_cons, List.foldl_nil]
      rw [hexVal_hexU (by omega), hexVal_hexU (by omega), ih]
      congr 1
      simp only [Option.getD_some]
      omega
  rw [key]
  have : ∀ (bs : Bytes), unLe bs = bs.foldr (fun b a => b.toNat + 256 * a) 0 := by
    intro bs
    induction bs with
    | nil => rfl
    | cons b bs ih => simp [unLe, ih]
  rw [this, List.foldr_reverse]

theorem hexDigits_isHex (bs : Bytes) :
    ∀ c ∈ bs.flatMap (fun b => [hexU (b.toNat / 16), hexU (b.toNat % 16)]), isHex c = true := by
  intro c hc
  obtain ⟨b, _, hb⟩ := List.mem_flatMap.mp hc
  have := b.isLt
  simp only [List.mem_cons, List.not_mem_nil, or_false] at hb
  unfold isHex
  rcases hb with rfl | rfl
  · rw [hexVal_hexU (by omega)]; rfl
  · rw [hexVal_hexU (by omega)]; rfl

theorem isWord_of_hex {c : Char} (h : isHex c = true) : isWord c = true := by
  unfold isHex hexVal at h
  simp only at h
  by_cases h1 : 48 ≤ c.toNat ∧ c.toNat ≤ 57
  · exact isWord_of_digit (by simp [isDigit, h1.1, h1.2])
  · rw [if_neg h1] at h
    by_cases h2 : 65 ≤ c.toNat ∧ c.toNat ≤ 70
    · have : c.toNat ≤ 90 := by omega
      simp [isWord, h2.1, this]
    · rw [if_neg h2] at h
      by_cases h3 : 97 ≤ c.toNat ∧ c.toNat ≤ 102
      · have : c.toNat ≤ 122 := by omega
        simp [isWord, h3.1, this]
      · rw [if_neg h3] at h; cases h

theorem readNumber_hex (x : BitVec 256) {rest : Str} (h : ∀ c, rest.head? = some c → isWord c = false) :
    readNumber (hexText x ++ rest) = some (.num x.toNat 0, rest) := by
  have hr : ∀ c, rest.head? = some c → isHex c = false := by
    intro c hc
    cases hh : isHex c with
    | false => rfl
    | true => have := h c hc; rw [isWord_of_hex hh] at this; cases this
  unfold hexText
  rw [readNumber_pos (by intro r hr; simp at hr)]
  simp only [List.cons_append, List.nil_append]
  unfold readUnsigned
  simp only
  rw [takeWhile_append_stop (hexDigits_isHex _) hr, dropWhile_append_stop (hexDigits_isHex _) hr,
    hexDigitsVal_bytes]
  have e : unBe (be 32 x.toNat) = x.toNat := by
    unfold be unBe
    rw [List.reverse_reverse, unLe_le]
    exact Nat.mod_eq_of_lt x.isLt
  rw [e, if_neg]
  · rfl
  · intro hc
    have : ∀ bs : Bytes, bs ≠ [] →
        (bs.flatMap (fun b => [hexU (b.toNat / 16), hexU (b.toNat % 16)])).isEmpty = false := by
      intro bs hb
      cases bs with
      | nil => exact absurd rfl hb
      | cons b bs => rfl
    rw [this _ (by intro he; have := congrArg List.length he; simp [be] at this)] at hc
    cases hc

/-! ### literals -/

/-- A text a list of literals can be split at: it does not begin with a closing bracket, a space or
a colon. -/
def Starts (s : Str) : Prop :=
  ∃ c r, s = c :: r ∧ c ≠ ' ' ∧ c ≠ ']' ∧ c ≠ ')' ∧ c ≠ '}' ∧ c ≠ ':'

/-- Reads as a literal, in any position. -/
structure Reads (s : Str) (l : Lit) : Prop where
  denotes : Denotes s l
  starts : Starts s

theorem readCast_stop {l : Lit} {rest : Str} (h : Stops rest) : readCast l rest = (l, rest) := by
  unfold readCast
  split
  · rename_i r; exact absurd rfl (h.2 r)
  · rfl

theorem readCast_type {l : Lit} {t rest : Str} (ht : ∀ c ∈ t, isWord c = true) (hne : t ≠ []) (h : Stops rest) :
    readCast l (':' :: ':' :: (t ++ rest)) = (.cast l t, rest) := by
  unfold readCast
  simp only
  rw [takeWhile_append_stop ht (fun c hc => (h.1 c hc).1), dropWhile_append_stop ht (fun c hc => (h.1 c hc).1)]
  rw [if_neg (by simpa using hne)]

/-- Numbers, and numbers with a cast. -/
theorem readLit_number {s : Str} {c : Char} {r : Str} (hs : s = c :: r)
    (hc : (isDigit c || c = '-' || c = '.') = true) (m : Nat) :
    readLit (m + 1) s = (readNumber s).map (fun p => readCast p.1 p.2) := by
  subst hs
  unfold readLit
  have hq : c ≠ '\'' ∧ c ≠ '[' ∧ c ≠ '(' ∧ c ≠ '{' := by
    refine ⟨?_, ?_, ?_, ?_⟩ <;> (rintro rfl; revert hc; decide)
  simp only
  rw [if_neg hq.1, if_neg hq.2.1, if_neg hq.2.2.1, if_neg hq.2.2.2, if_pos hc]

theorem starts_of {c : Char} {r : Str} (hc : (isDigit c || c = '-' || c = '.') = true) : Starts (c :: r) := by
  refine ⟨c, r, rfl, ?_, ?_, ?_, ?_, ?_⟩ <;> (rintro rfl; revert hc; decide)

theorem reads_number {s : Str} {l : Lit} {c : Char} {r : Str} (hs : s = c :: r)
    (hc : (isDigit c || c = '-' || c = '.') = true)
    (h : ∀ rest, Stops rest → readNumber (s ++ rest) = some (l, rest)) : Reads s l where
  denotes := by
    intro rest hrest
    refine ⟨1, ?_⟩
    intro m hm
    obtain ⟨m, rfl⟩ : ∃ k, m = k + 1 := ⟨m - 1, by omega⟩
    rw [readLit_number (s := s ++ rest) (c := c) (r := r ++ rest) (by rw [hs]; rfl) hc, h rest hrest]
    simp only [Option.map_some, readCast_stop hrest]
  starts := hs ▸ starts_of hc

theorem reads_cast {s t : Str} {l : Lit} {c : Char} {r : Str} (hs : s = c :: r)
    (hc : (isDigit c || c = '-' || c = '.') = true) (ht : ∀ c ∈ t, isWord c = true) (hne : t ≠ [])
    (h : ∀ rest, readNumber (s ++ ':' :: ':' :: rest) = some (l, ':' :: ':' :: rest)) :
    Reads (s ++ ':' :: ':' :: t) (.cast l t) where
  denotes := by
    intro rest hrest
    refine ⟨1, ?_⟩
    intro m hm
    obtain ⟨m, rfl⟩ : ∃ k, m = k + 1 := ⟨m - 1, by omega⟩
    rw [readLit_number (c := c) (r := r ++ ':' :: ':' :: t ++ rest) (by rw [hs]; simp) hc]
    have : s ++ ':' :: ':' :: t ++ rest = s ++ ':' :: ':' :: (t ++ rest) := by simp
    rw [this, h]
    simp only [Option.map_some]
    rw [readCast_type ht hne hrest]
  starts := by rw [hs]; exact starts_of hc

theorem dec_start (n : Nat) : ∃ c r, dec n = c :: r ∧ (isDigit c || c = '-' || c = '.') = true := by
  obtain ⟨c, r, h1, h2⟩ := dec_head n
  exact ⟨c, r, h1, by simp [h2]⟩

theorem decInt_start (x : Int) : ∃ c r, decInt x = c :: r ∧ (isDigit c || c = '-' || c = '.') = true := by
  unfold decInt
  split
  · exact ⟨_, _, rfl, by decide⟩
  · exact dec_start _

theorem colon_not : ∀ (rest : Str) (c : Char), (':' :: ':' :: rest).head? = some c →
    isDigit c = false ∧ c ≠ '.' ∧ c ≠ 'x' := by
  intro rest c hc; cases hc; decide

theorem Spec.Stops.num {s : Str} (h : Stops s) :
    ∀ c, s.head? = some c → isDigit c = false ∧ c ≠ '.' ∧ c ≠ 'x' :=
  fun c hc => ⟨(h.digit c hc).1, (h.digit c hc).2, h.notx c hc⟩

theorem reads_dec (n : Nat) : Reads (dec n) (.num n 0) := by
  obtain ⟨c, r, h1, h2⟩ := dec_start n
  exact reads_number h1 h2 (fun rest h => readNumber_dec n h.num)

theorem reads_decInt (x : Int) : Reads (decInt x) (.num x 0) := by
  obtain ⟨c, r, h1, h2⟩ := decInt_start x
  exact reads_number h1 h2 (fun rest h => readNumber_decInt x h.num)

theorem reads_decimal (p : Nat) (x : Int) (hp : DigitsCover p x) :
    Reads (decimalText p (decInt x)) (.num x p) := by
  have : ∃ c r, decimalText p (decInt x) = c :: r ∧ (isDigit c || c = '-' || c = '.') = true := by
    unfold decimalText
    obtain ⟨c, r, h1, h2⟩ := decInt_start x
    split
    · exact ⟨c, r, h1, h2⟩
    · cases hk : (decInt x).length - p with
      | zero => exact ⟨'.', _, rfl, by decide⟩
      | succ k => rw [h1]; exact ⟨c, _, rfl, h2⟩
  obtain ⟨c, r, h1, h2⟩ := this
  exact reads_number h1 h2 (fun rest h => readNumber_decimal p x hp (fun c hc => (h.digit c hc).1))

theorem reads_str (s : Str) (b : Bytes) (h : ∀ rest, NoQuote rest → readQuoted (s ++ '\'' :: rest) = some (b, rest)) :
    Reads ('\'' :: (s ++ ['\''])) (.str b) where
  denotes := by
    intro rest hrest
    refine ⟨1, ?_⟩
    intro m hm
    obtain ⟨m, rfl⟩ : ∃ k, m = k + 1 := ⟨m - 1, by omega⟩
    unfold readLit
    simp only [List.cons_append, List.append_assoc, List.nil_append]
    rw [if_pos trivial, h rest (fun c hc => (hrest.1 c hc).2.2.1)]
    rfl
  starts := ⟨_, _, rfl, by decide, by decide, by decide, by decide, by decide⟩

theorem readQuoted_ascii (s : Str) (h : ∀ c ∈ s, c ≠ '\'' ∧ c ≠ '\\') (rest : Str) (hr : NoQuote rest) :
    readQuoted (s ++ '\'' :: rest) = some (utf8Encode s, rest) := by
  induction s with
  | nil => exact readQuoted_escape [] rest hr
  | cons c s ih =>
    rw [List.cons_append, readQuoted_plain (h c (by simp)).1 (h c (by simp)).2,
      ih (fun c hc => h c (by simp [hc]))]
    simp [utf8Encode]

/-! ### lists of literals -/

/-- Texts and the literals they denote, one by one. -/
inductive AllRead : List Str → List Lit → Prop where
  | nil : AllRead [] []
  | cons {s l ss ls} : Reads s l → AllRead ss ls → AllRead (s :: ss) (l :: ls)

theorem stops_sep {c : Char} {r : Str} (h : c = ',' ∨ c = ']' ∨ c = ')' ∨ c = '}') : Stops (c :: r) := by
  rcases h with rfl | rfl | rfl | rfl <;>
    exact ⟨by intro c hc; cases hc; decide, by intro r; simp⟩

theorem skipSpace_starts {s r : Str} (h : Starts s) : skipSpace (s ++ r) = s ++ r := by
  obtain ⟨c, t, rfl, h1, _⟩ := h
  unfold skipSpace
  split
  · rename_i heq
    simp only [List.cons_append, List.cons.injEq] at heq
    exact absurd heq.1 h1
  · rfl

theorem readMore_commas {close : Char} (hc : close = ']' ∨ close = ')') {s : Str} {l : Lit} {ss : List Str}
    {ls : List Lit} (h : Reads s l) (hs : AllRead ss ls) (rest : Str) :
    ∃ n, ∀ m, n ≤ m → readMore m close (s ++ commaTail ss ++ close :: rest) = some (l :: ls, rest) := by
  induction hs generalizing s l with
  | nil =>
    obtain ⟨n, hn⟩ := h.denotes (close :: rest) (stops_sep (by rcases hc with h | h <;> simp [h]))
    refine ⟨n + 1, ?_⟩
    intro m hm
    obtain ⟨m, rfl⟩ : ∃ k, m = k + 1 := ⟨m - 1, by omega⟩
    unfold readMore
    simp only [commaTail, List.append_nil]
    rw [hn m (by omega)]
    simp
  | @cons s' l' ss ls h' hs ih =>
    obtain ⟨n2, hn2⟩ := ih h'
    obtain ⟨n1, hn1⟩ := h.denotes (',' :: (s' ++ commaTail ss ++ close :: rest)) (stops_sep (.inl rfl))
    refine ⟨n1 + n2 + 1, ?_⟩
    intro m hm
    obtain ⟨m, rfl⟩ : ∃ k, m = k + 1 := ⟨m - 1, by omega⟩
    unfold readMore
    have e : s ++ commaTail (s' :: ss) ++ close :: rest = s ++ ',' :: (s' ++ commaTail ss ++ close :: rest) := by
      simp [commaTail]
    rw [e, hn1 m (by omega)]
    simp only
    rw [if_neg (by rcases hc with h | h <;> rw [h] <;> decide), if_pos trivial]
    have e2 : skipSpace (s' ++ commaTail ss ++ close :: rest) = s' ++ commaTail ss ++ close :: rest := by
      rw [List.append_assoc]; exact skipSpace_starts h'.starts
    rw [e2, hn2 m (by omega)]
    rfl

theorem readItems_commas {close : Char} (hc : close = ']' ∨ close = ')') {ss : List Str} {ls : List Lit}
    (hs : AllRead ss ls) (rest : Str) :
    ∃ n, ∀ m, n ≤ m → readItems m close (commas ss ++ close :: rest) = some (ls, rest) := by
  cases hs with
  | nil =>
    refine ⟨1, ?_⟩
    intro m hm
    obtain ⟨m, rfl⟩ : ∃ k, m = k + 1 := ⟨m - 1, by omega⟩
    unfold readItems
    simp [commas]
  | @cons s l ss ls h hs =>
    obtain ⟨n, hn⟩ := readMore_commas hc h hs rest
    refine ⟨n + 1, ?_⟩
    intro m hm
    obtain ⟨m, rfl⟩ : ∃ k, m = k + 1 := ⟨m - 1, by omega⟩
    have hn := hn m (by omega)
    unfold readItems
    simp only [commas]
    obtain ⟨c, t, he, h1, h2, h3, _⟩ := h.starts
    rw [he] at hn ⊢
    simp only [List.cons_append] at hn ⊢
    rw [if_neg (by rcases hc with h | h <;> rw [h] <;> assumption)]
    exact hn

/-- Pairs of texts and the literals they denote. -/
inductive AllPairs : List (Str × Str) → List Lit → List Lit → Prop where
  | nil : AllPairs [] [] []
  | cons {k v lk lv es lks lvs} : Reads k lk → Reads v lv → AllPairs es lks lvs →
      AllPairs ((k, v) :: es) (lk :: lks) (lv :: lvs)

/-- `key:value`. -/
def pairText (e : Str × Str) : Str := e.1 ++ [':'] ++ e.2

theorem stops_colon {v r : Str} (h : Starts v) : Stops (':' :: (v ++ r)) := by
  obtain ⟨c, t, rfl, _, _, _, _, h5⟩ := h
  exact ⟨by intro c hc; cases hc; decide, by intro r; simp [h5]⟩

theorem readMorePairs_commas {k v : Str} {lk lv : Lit} {es : List (Str × Str)} {lks lvs : List Lit}
    (hk : Reads k lk) (hv : Reads v lv) (hs : AllPairs es lks lvs) (rest : Str) :
    ∃ n, ∀ m, n ≤ m → readMorePairs m (pairText (k, v) ++ commaTail (es.map pairText) ++ '}' :: rest) =
      some (lk :: lks, lv :: lvs, rest) := by
  induction hs generalizing k v lk lv with
  | nil =>
    obtain ⟨n1, hn1⟩ := hk.denotes (':' :: (v ++ '}' :: rest)) (stops_colon hv.starts)
    obtain ⟨n2, hn2⟩ := hv.denotes ('}' :: rest) (stops_sep (by simp))
    refine ⟨n1 + n2 + 1, ?_⟩
    intro m hm
    obtain ⟨m, rfl⟩ : ∃ k, m = k + 1 := ⟨m - 1, by omega⟩
    unfold readMorePairs
    have e : pairText (k, v) ++ commaTail (List.map pairText []) ++ '}' :: rest = k ++ ':' :: (v ++ '}' :: rest) := by
      simp [pairText, commaTail]
    rw [e, hn1 m (by omega)]
    simp only
    rw [hn2 m (by omega)]
    simp
  | @cons k' v' lk' lv' es lks lvs hk' hv' hs ih =>
    obtain ⟨n3, hn3⟩ := ih hk' hv'
    obtain ⟨n1, hn1⟩ := hk.denotes (':' :: (v ++ ',' :: (pairText (k', v') ++ commaTail (es.map pairText) ++ '}' :: rest)))
      (stops_colon hv.starts)
    obtain ⟨n2, hn2⟩ := hv.denotes (',' :: (pairText (k', v') ++ commaTail (es.map pairText) ++ '}' :: rest))
      (stops_sep (by simp))
    refine ⟨n1 + n2 + n3 + 1, ?_⟩
    intro m hm
    obtain ⟨m, rfl⟩ : ∃ k, m = k + 1 := ⟨m - 1, by omega⟩
    unfold readMorePairs
    have e : pairText (k, v) ++ commaTail (List.map pairText ((k', v') :: es)) ++ '}' :: rest =
        k ++ ':' :: (v ++ ',' :: (pairText (k', v') ++ commaTail (es.map pairText) ++ '}' :: rest)) := by
      simp [pairText, commaTail]
    rw [e, hn1 m (by omega)]
    simp only
    rw [hn2 m (by omega)]
    simp only
    rw [if_neg (by decide), if_pos trivial, hn3 m (by omega)]
    rfl

theorem readPairs_commas {es : List (Str × Str)} {lks lvs : List Lit} (hs : AllPairs es lks lvs) (rest : Str) :
    ∃ n, ∀ m, n ≤ m → readPairs m (commas (es.map pairText) ++ '}' :: rest) = some (lks, lvs, rest) := by
  cases hs with
  | nil =>
    refine ⟨1, ?_⟩
    intro m hm
    obtain ⟨m, rfl⟩ : ∃ k, m = k + 1 := ⟨m - 1, by omega⟩
    unfold readPairs
    simp [commas]
  | @cons k v lk lv es lks lvs hk hv hs =>
    obtain ⟨n, hn⟩ := readMorePairs_commas hk hv hs rest
    refine ⟨n + 1, ?_⟩
    intro m hm
    obtain ⟨m, rfl⟩ : ∃ k, m = k + 1 := ⟨m - 1, by omega⟩
    have hn := hn m (by omega)
    unfold readPairs
    simp only [commas, List.map_cons]
    obtain ⟨c, t, he, h1, h2, h3, h4, _⟩ := hk.starts
    simp only [pairText, he, List.cons_append] at hn ⊢
    rw [if_neg h4]
    exact hn

theorem reads_array {ss : List Str} {ls : List Lit} (h : AllRead ss ls) :
    Reads ('[' :: (commas ss ++ [']'])) (.arr ls) where
  denotes := by
    intro rest hrest
    obtain ⟨n, hn⟩ := readItems_commas (close := ']') (.inl rfl) h rest
    refine ⟨n + 1, ?_⟩
    intro m hm
    obtain ⟨m, rfl⟩ : ∃ k, m = k + 1 := ⟨m - 1, by omega⟩
    unfold readLit
    simp only [List.cons_append, List.append_assoc, List.nil_append]
    rw [if_neg (by decide), if_pos trivial, hn m (by omega)]
    rfl
  starts := ⟨_, _, rfl, by decide, by decide, by decide, by decide, by decide⟩

theorem AllRead.length {ss : List Str} {ls : List Lit} (h : AllRead ss ls) : ss.length = ls.length := by
  induction h with
  | nil => rfl
  | cons _ _ ih => simp [ih]

theorem reads_tuple {ss : List Str} {ls : List Lit} (h : AllRead ss ls) (h1 : ls.length ≠ 1) :
    Reads ('(' :: (commas ss ++ [')'])) (.tup ls) where
  denotes := by
    intro rest hrest
    obtain ⟨n, hn⟩ := readItems_commas (close := ')') (.inr rfl) h rest
    refine ⟨n + 1, ?_⟩
    intro m hm
    obtain ⟨m, rfl⟩ : ∃ k, m = k + 1 := ⟨m - 1, by omega⟩
    unfold readLit
    simp only [List.cons_append, List.append_assoc, List.nil_append]
    rw [if_neg (by decide), if_neg (by decide), if_pos trivial, hn m (by omega)]
    simp only [Option.map_some]
    split
    · exact absurd rfl h1
    · rfl
  starts := ⟨_, _, rfl, by decide, by decide, by decide, by decide, by decide⟩

theorem reads_map {es : List (Str × Str)} {lks lvs : List Lit} (h : AllPairs es lks lvs) :
    Reads ('{' :: (commas (es.map pairText) ++ ['}'])) (.map lks lvs) where
  denotes := by
    intro rest hrest
    obtain ⟨n, hn⟩ := readPairs_commas h rest
    refine ⟨n + 1, ?_⟩
    intro m hm
    obtain ⟨m, rfl⟩ : ∃ k, m = k + 1 := ⟨m - 1, by omega⟩
    unfold readLit
    simp only [List.cons_append, List.append_assoc, List.nil_append]
    rw [if_neg (by decide), if_neg (by decide), if_neg (by decide), if_pos trivial, hn m (by omega)]
    rfl
  starts := ⟨_, _, rfl, by decide, by decide, by decide, by decide, by decide⟩

/-- Words: function names and `NULL`. -/
theorem readLit_word {w r : Str} {c : Char} {w' : Str} (hw : w = c :: w') (hc : isDigit c = false)
    (hall : ∀ c ∈ w, isWord c = true) (hr : ∀ c, r.head? = some c → isWord c = false) (m : Nat)
    {o : Option (Lit × Str)}
    (h1 : ∀ r', r = '(' :: r' → (readItems m ')' r').map (fun (ls, r) => (Lit.call w ls, r)) = o)
    (h2 : (∀ r', r ≠ '(' :: r') → (if w = ['N', 'U', 'L', 'L'] then some (Lit.null, r) else none) = o) :
    readLit (m + 1) (w ++ r) = o := by
  have hcw : isWord c = true := hall c (by simp [hw])
  have hq : c ≠ '\'' ∧ c ≠ '[' ∧ c ≠ '(' ∧ c ≠ '{' ∧ c ≠ '-' ∧ c ≠ '.' := by
    refine ⟨?_, ?_, ?_, ?_, ?_, ?_⟩ <;> (rintro rfl; revert hcw; decide)
  have e : w ++ r = c :: (w' ++ r) := by rw [hw]; rfl
  rw [e]
  unfold readLit
  simp only
  rw [if_neg hq.1, if_neg hq.2.1, if_neg hq.2.2.1, if_neg hq.2.2.2.1,
    if_neg (by simp [hc, hq.2.2.2.2.1, hq.2.2.2.2.2]), ← e,
    takeWhile_append_stop hall hr, dropWhile_append_stop hall hr]
  have hne : w.isEmpty = false := by rw [hw]; rfl
  split
  · rename_i r'
    rw [← h1 r' rfl]
    simp [hne]
  · rename_i hno
    exact h2 hno

theorem reads_call {w : Str} {c : Char} {w' : Str} (hw : w = c :: w') (hc : isDigit c = false)
    (hall : ∀ c ∈ w, isWord c = true) {args : Str} {ls : List Lit}
    (h : ∀ rest, ∃ n, ∀ m, n ≤ m → readItems m ')' (args ++ ')' :: rest) = some (ls, rest)) :
    Reads (w ++ '(' :: (args ++ [')'])) (.call w ls) where
  denotes := by
    intro rest hrest
    obtain ⟨n, hn⟩ := h rest
    refine ⟨n + 1, ?_⟩
    intro m hm
    obtain ⟨m, rfl⟩ : ∃ k, m = k + 1 := ⟨m - 1, by omega⟩
    have e : w ++ '(' :: (args ++ [')']) ++ rest = w ++ '(' :: (args ++ ')' :: rest) := by simp
    rw [e]
    refine readLit_word hw hc hall (by intro c hc; cases hc; decide) m ?_ ?_
    · intro r' hr'
      cases hr'
      rw [hn m (by omega)]
      rfl
    · intro hno; exact absurd rfl (hno _)
  starts := by
    have hcw : isWord c = true := hall c (by simp [hw])
    refine ⟨c, _, by rw [hw]; rfl, ?_, ?_, ?_, ?_, ?_⟩ <;> (rintro rfl; revert hcw; decide)

theorem reads_null : Reads (ch!"NULL") .null where
  denotes := by
    intro rest hrest
    refine ⟨1, ?_⟩
    intro m hm
    obtain ⟨m, rfl⟩ : ∃ k, m = k + 1 := ⟨m - 1, by omega⟩
    refine readLit_word (w := ch!"NULL") rfl (by decide) (by decide) (fun c hc => (hrest.1 c hc).1) m ?_ ?_
    · rintro r' rfl
      exact absurd rfl (hrest.1 '(' rfl).2.2.2
    · intro _; rfl
  starts := ⟨_, _, rfl, by decide, by decide, by decide, by decide, by decide⟩

end Klick
