set_option autoImplicit false

/-! The Gregorian calendar. -/

namespace Spec.Date

def isLeap (year : Nat) : Bool := (year % 4 = 0 && year % 100 ≠ 0) || year % 400 = 0

def yearLength (year : Nat) : Nat := if isLeap year then 366 else 365

/-- The length of a month, 1 to 12. -/
def lengthOf (year : Nat) : Nat → Nat
  | 1 => 31
  | 2 => if isLeap year then 29 else 28
  | 3 => 31
  | 4 => 30
  | 5 => 31
  | 6 => 30
  | 7 => 31
  | 8 => 31
  | 9 => 30
  | 10 => 31
  | 11 => 30
  | 12 => 31
  | _ => 0

structure Valid (year month day : Nat) : Prop where
  epoch : 1970 ≤ year
  inYear : 1 ≤ month ∧ month ≤ 12
  inMonth : 1 ≤ day ∧ day ≤ lengthOf year month

/-- The days of the first `n` years from 1970 on. -/
def yearsDays : Nat → Nat
  | 0 => 0
  | n + 1 => yearsDays n + yearLength (1970 + n)

/-- The days of the first `n` months of a year. -/
def monthsDays (year : Nat) : Nat → Nat
  | 0 => 0
  | n + 1 => monthsDays year n + lengthOf year (n + 1)

/-- The days between January 1, 1970 and a date. -/
def dayNumber (year month day : Nat) : Nat :=
  yearsDays (year - 1970) + monthsDays year (month - 1) + (day - 1)

/-- The day of the week, 0 for Sunday: January 1, 1970 was a Thursday, and every day follows the one
before. -/
def weekday : Nat → Nat
  | 0 => 4
  | n + 1 => if weekday n = 6 then 0 else weekday n + 1

end Spec.Date
