import Verif.Basic
/-
Text primitives of the Rust standard library used by the code: `trim`, decimal rendering and parsing.
-/
namespace Klick

/-- Spelled-out character list of a string literal. -/
macro "ch!" s:str : term => do
  let cs := s.getString.toList.map (fun c => Lean.Syntax.mkCharLit c)
  `([$(cs.toArray),*])

/-- `char::is_whitespace` (Unicode `White_Space`), klickhouse/src/types/mod.rs:216,261-262,294. -/
def isWs (c : Char) : Bool :=
  let n := c.toNat
  n == 32 || (9 ≤ n && n ≤ 13) || n == 0x85 || n == 0xA0 || n == 0x1680 ||
    (0x2000 ≤ n && n ≤ 0x200A) || n == 0x2028 || n == 0x2029 || n == 0x202F || n == 0x205F || n == 0x3000

/-- `str::trim_end`, klickhouse/src/types/mod.rs:216,261-262,294. -/
def trimEnd (s : Str) : Str := (s.reverse.dropWhile isWs).reverse
/-- `str::trim`, klickhouse/src/types/mod.rs:216,261-262,294. -/
def trim (s : Str) : Str := trimEnd (s.dropWhile isWs)

/-- The decimal digit of a number below 10, klickhouse/src/types/mod.rs:527-595. -/
def digit (n : Nat) : Char := Char.ofNat (48 + n)

/-- `Display` of an unsigned integer: decimal digits, most significant first, klickhouse/src/types/mod.rs:527-595. -/
def decF : Nat → Nat → Str
  | 0, _ => []
  | fuel + 1, n => if n < 10 then [digit n] else decF fuel (n / 10) ++ [digit (n % 10)]
/-- `Display` of an unsigned integer, klickhouse/src/types/mod.rs:527-595. -/
def dec (n : Nat) : Str := decF (n + 1) n

/-- `Display` of a signed integer, klickhouse/src/types/mod.rs:566,575. -/
def decInt (x : Int) : Str := if x < 0 then '-' :: dec x.natAbs else dec x.natAbs

/-- Is the character an ASCII digit? See klickhouse/src/types/mod.rs:249-257,275. -/
def isDigit (c : Char) : Bool := 48 ≤ c.toNat && c.toNat ≤ 57

/-- Value of a string of digits, most significant first, klickhouse/src/types/mod.rs:249-257,275. -/
def digitsVal (s : Str) : Nat := s.foldl (fun a c => 10 * a + (c.toNat - 48)) 0

/-- Unsigned digits: non-empty, all ASCII digits (core of `FromStr` for integers), klickhouse/src/types/mod.rs:249-257,275. -/
def parseDigits (s : Str) : Option Nat :=
  if !s.isEmpty && s.all isDigit then some (digitsVal s) else none

/-- `usize::from_str`: an optional `+`, digits, no overflow, klickhouse/src/types/mod.rs:249-257. -/
def parseUsize (s : Str) : Option Nat :=
  (match s with
    | '+' :: r => parseDigits r
    | r => parseDigits r).bind fun n => if n < 2 ^ 64 then some n else none

/-- `i8::from_str`, `i16::from_str`: an optional sign, digits, in range, klickhouse/src/types/mod.rs:275-279. -/
def parseInt (w : Nat) (s : Str) : Option (BitVec w) :=
  (match s with
    | '+' :: r => (parseDigits r).map Int.ofNat
    | '-' :: r => (parseDigits r).map (fun n => - Int.ofNat n)
    | r => (parseDigits r).map Int.ofNat).bind fun i =>
      if -(2 : Int) ^ (w - 1) ≤ i ∧ i < (2 : Int) ^ (w - 1) then some (BitVec.ofInt w i) else none

theorem digit_toNat {n : Nat} (h : n < 10) : (digit n).toNat = 48 + n := by
  have : ∀ m : Fin 10, (digit m.val).toNat = 48 + m.val := by decide
  exact this ⟨n, h⟩

theorem isDigit_digit {n : Nat} (h : n < 10) : isDigit (digit n) = true := by
  simp only [isDigit, digit_toNat h, Bool.and_eq_true, decide_eq_true_eq]; omega

theorem decF_spec (fuel n : Nat) (h : n < fuel) :
    (decF fuel n).all isDigit = true ∧ decF fuel n ≠ [] ∧ digitsVal (decF fuel n) = n := by
  induction fuel generalizing n with
  | zero => omega
  | succ fuel ih =>
    unfold decF
    split
    · rename_i h10
      refine ⟨by simp [isDigit_digit h10], by simp, ?_⟩
      simp [digitsVal, digit_toNat h10]
    · rename_i h10
      obtain ⟨h1, h2, h3⟩ := ih (n / 10) (by omega)
      have hm : n % 10 < 10 := Nat.mod_lt _ (by decide)
      refine ⟨by simp [h1, isDigit_digit hm], by simp, ?_⟩
      unfold digitsVal at *
      rw [List.foldl_append, h3]
      simp [digit_toNat hm]
      omega

theorem dec_digits (n : Nat) : (dec n).all isDigit = true := (decF_spec _ n (by omega)).1
theorem dec_ne_nil (n : Nat) : dec n ≠ [] := (decF_spec _ n (by omega)).2.1
theorem digitsVal_dec (n : Nat) : digitsVal (dec n) = n := (decF_spec _ n (by omega)).2.2

theorem parseDigits_dec (n : Nat) : parseDigits (dec n) = some n := by
  unfold parseDigits
  rw [dec_digits, digitsVal_dec]
  simp [dec_ne_nil]

theorem dec_head (n : Nat) : ∃ c r, dec n = c :: r ∧ isDigit c = true := by
  cases h : dec n with
  | nil => exact absurd h (dec_ne_nil n)
  | cons c r =>
    have := dec_digits n
    rw [h] at this
    simp only [List.all_cons, Bool.and_eq_true] at this
    exact ⟨c, r, rfl, this.1⟩

theorem parseUsize_dec_ite (n : Nat) : parseUsize (dec n) = if n < 2 ^ 64 then some n else none := by
  unfold parseUsize
  have : (match dec n with
    | '+' :: r => parseDigits r
    | r => parseDigits r) = parseDigits (dec n) := by
    obtain ⟨c, r, he, hc⟩ := dec_head n
    rw [he]
    split
    · rename_i heq
      cases heq
      exact absurd hc (by decide)
    · rfl
  rw [this, parseDigits_dec]
  rfl

theorem parseUsize_dec (n : Nat) (h : n < 2 ^ 64) : parseUsize (dec n) = some n := by
  rw [parseUsize_dec_ite, if_pos h]

theorem parseInt_decInt (w : Nat) (x : BitVec w) :
    parseInt w (decInt x.toInt) = some x := by
  have hlo := BitVec.le_toInt x
  have hhi := BitVec.toInt_lt (x := x)
  have hpar : (match decInt x.toInt with
    | '+' :: r => (parseDigits r).map Int.ofNat
    | '-' :: r => (parseDigits r).map (fun n => - Int.ofNat n)
    | r => (parseDigits r).map Int.ofNat) = some x.toInt := by
    unfold decInt
    by_cases hneg : x.toInt < 0
    · rw [if_pos hneg]
      simp only [parseDigits_dec, Option.map_some, Option.some.injEq, Int.ofNat_eq_natCast]
      omega
    · rw [if_neg hneg]
      obtain ⟨c, r, he, hc⟩ := dec_head x.toInt.natAbs
      have hp := parseDigits_dec x.toInt.natAbs
      rw [he] at hp ⊢
      split
      · rename_i heq; cases heq; exact absurd hc (by decide)
      · rename_i heq; cases heq; exact absurd hc (by decide)
      · rw [hp]; simp; omega
  unfold parseInt
  rw [hpar]
  simp only [Option.bind_some]
  rw [if_pos ⟨hlo, hhi⟩]
  simp

/-! ### trim -/

theorem trim_of_ends {s : Str} (h1 : ∀ c, s.head? = some c → isWs c = false)
    (h2 : ∀ c, s.getLast? = some c → isWs c = false) : trim s = s := by
  unfold trim
  have e1 : s.dropWhile isWs = s := by
    cases s with
    | nil => rfl
    | cons c r => simp [List.dropWhile, h1 c rfl]
  rw [e1]
  unfold trimEnd
  have e2 : s.reverse.dropWhile isWs = s.reverse := by
    cases hr : s.reverse with
    | nil => rfl
    | cons c r =>
      have : s.getLast? = some c := by
        rw [List.getLast?_eq_head?_reverse, hr]; rfl
      simp [List.dropWhile, h2 c this]
  rw [e2, List.reverse_reverse]

theorem isDigit_not_ws {c : Char} (h : isDigit c = true) : isWs c = false := by
  simp only [isDigit, Bool.and_eq_true, decide_eq_true_eq] at h
  simp only [isWs, Bool.or_eq_false_iff, Bool.and_eq_false_iff, beq_eq_false_iff_ne,
    decide_eq_false_iff_not]
  omega

end Klick
