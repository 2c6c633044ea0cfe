/-
The proleptic Gregorian calendar from 1970-01-01 on, as specification vocabulary (C27, C47).
-/
namespace Klick.Spec

/-- Leap years. -/
def isLeap (y : Nat) : Bool := (y % 4 == 0 && y % 100 != 0) || y % 400 == 0
/-- Days of a year. -/
def daysInYear (y : Nat) : Nat := if isLeap y then 366 else 365
/-- Days of a month (1 to 12). -/
def daysInMonth (y m : Nat) : Nat :=
  if m = 2 then (if isLeap y then 29 else 28)
  else if m = 4 ∨ m = 6 ∨ m = 9 ∨ m = 11 then 30 else 31

/-- Days of the `k` years from `y` on. -/
def yearsSum (y : Nat) : Nat → Nat
  | 0 => 0
  | k + 1 => daysInYear y + yearsSum (y + 1) k
/-- Days of the `k` months from month `m` of year `y` on. -/
def monthsSum (y m : Nat) : Nat → Nat
  | 0 => 0
  | k + 1 => daysInMonth y m + monthsSum y (m + 1) k

/-- A calendar date. -/
structure Civil where
  year : Nat
  month : Nat
  day : Nat
deriving DecidableEq, Repr

/-- An existing date, not before 1970. -/
def Civil.Valid (c : Civil) : Prop :=
  1970 ≤ c.year ∧ 1 ≤ c.month ∧ c.month ≤ 12 ∧ 1 ≤ c.day ∧ c.day ≤ daysInMonth c.year c.month

/-- Days from 1970-01-01. -/
def Civil.dayNumber (c : Civil) : Nat :=
  yearsSum 1970 (c.year - 1970) + monthsSum c.year 1 (c.month - 1) + (c.day - 1)

example : (Civil.mk 1970 1 1).dayNumber = 0 := by decide
example : (Civil.mk 2000 3 1).dayNumber = 11017 := by decide
set_option maxRecDepth 20000 in
example : (Civil.mk 2149 6 6).dayNumber = 65535 := by decide

end Klick.Spec
