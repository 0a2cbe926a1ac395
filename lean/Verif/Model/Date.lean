set_option autoImplicit false

/-!
Model of `modm::UnixTime` and `modm::Date` (src/modm/ui/time/time.cpp, time.hpp).

`uint8_t`, `uint16_t` and `uint32_t` are natural numbers that are reduced where a store could truncate
them; a signed overflow and a read behind the table of months give `none`.
-/

namespace Modm.Date

/-- time.cpp:17-19 -/
def monthDays : List Nat := [31, 28, 31, 30, 31, 30, 31, 31, 30, 31, 30, 31]

/-- `LEAP_YEAR`, time.cpp:30 -/
def leapYear (year : Nat) : Bool := decide (year % 4 = 0)

def secondsPerDay : Nat := 60 * 60 * 24

/-- time.hpp:67-74 -/
structure Date where
  second : Nat
  minute : Nat
  hour : Nat
  day : Nat
  month : Nat
  year : Nat
  dayOfTheWeek : Nat
  dayOfTheYear : Nat
  deriving DecidableEq, Repr

def yearDays (year : Nat) : Nat := if leapYear year then 366 else 365

/-- The loop of time.cpp:49-53: the year and `days`.  The first argument bounds the number of turns;
a `uint32_t` of seconds is less than 137 years. -/
def yearLoop : Nat → Nat → Nat → Nat → Nat × Nat
  | 0, year, days, _ => (year, days)
  | n + 1, year, days, seconds =>
    if days + yearDays year ≤ seconds then yearLoop n (year + 1) (days + yearDays year) seconds
    else (year, days + yearDays year)

/-- `monthLength`, time.cpp:63-74; `month < 12` in the loop. -/
def monthLength (year month : Nat) : Nat :=
  if month = 1 then (if leapYear year then 29 else 28) else monthDays.getD month 0

/-- The loop of time.cpp:62-83: month and remaining days. -/
def monthLoop (year : Nat) : Nat → Nat → Nat → Nat × Nat
  | 0, month, seconds => (month, seconds)
  | n + 1, month, seconds =>
    if seconds ≥ monthLength year month then
      monthLoop year n (month + 1) (seconds - monthLength year month)
    else (month, seconds)

/-- `toDate`, time.cpp:34-86 -/
def toDate (time : Nat) : Date :=
  let days := time / 60 / 60 / 24
  let y := yearLoop 200 1970 0 days
  let inYear := days - (y.2 - yearDays y.1)
  let m := monthLoop y.1 12 0 inYear
  { second := time % 60
    minute := time / 60 % 60
    hour := time / 60 / 60 % 24
    day := (m.2 + 1) % 256
    month := m.1
    year := (y.1 - 1900) % 256
    dayOfTheWeek := (days + 4) % 7
    dayOfTheYear := inYear % 256 }

/-- `(currentYear - 1970) * (SECONDS_PER_DAY * 365)` is a product of `int`s, time.cpp:96. -/
def yearSeconds (currentYear : Nat) : Option Nat :=
  let v : Int := ((currentYear : Int) - 1970) * 31536000
  if -2147483648 ≤ v ∧ v < 2147483648 then some (v % 4294967296).toNat else none

/-- time.cpp:99-103 -/
def leapSeconds : Nat → Nat → Nat → Nat
  | 0, _, seconds => seconds
  | n + 1, i, seconds =>
    leapSeconds n (i + 1) ((seconds + if leapYear i then secondsPerDay else 0) % 4294967296)

/-- One turn of the loop of time.cpp:106-114 -/
def oneMonth (currentYear i : Nat) : Option Nat :=
  if i = 1 ∧ leapYear currentYear = true then some (secondsPerDay * 29)
  else (monthDays[i]?).map (secondsPerDay * ·)

def monthSeconds (currentYear : Nat) : Nat → Nat → Nat → Option Nat
  | 0, _, seconds => some seconds
  | n + 1, i, seconds =>
    (oneMonth currentYear i).bind fun s => monthSeconds currentYear n (i + 1) ((seconds + s) % 4294967296)

/-- `toUnixTimestamp`, time.cpp:89-122; `day - 1` is an `int`, so that `day = 0` subtracts a day. -/
def toUnixTimestamp (d : Date) : Option Nat :=
  let currentYear := (d.year + 1900) % 65536
  (yearSeconds currentYear).bind fun s =>
    (monthSeconds currentYear d.month 0 (leapSeconds (currentYear - 1970) 1970 s)).map fun s =>
      (((s : Int) + ((d.day : Int) - 1) * 86400 + d.hour * 3600 + d.minute * 60 + d.second) %
        4294967296).toNat

end Modm.Date
