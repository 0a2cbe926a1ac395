import Verif.Model.Date
import Verif.Spec.Date
import Mathlib.Tactic.IntervalCases
import Mathlib.Tactic.Ring

set_option autoImplicit false

/-! Properties C74 and C75: calendar time. -/

namespace Props.Date

open Modm.Date Spec.Date

theorem leap_eq (y : Nat) (h1 : 1901 ≤ y) (h2 : y < 2100) : leapYear y = isLeap y := by
  unfold leapYear isLeap
  by_cases h : y % 4 = 0
  · have : y % 100 ≠ 0 ∨ y % 400 = 0 := by omega
    rcases this with h3 | h3 <;> simp [h, h3]
  · have : y % 400 ≠ 0 := by omega
    simp [h, this]

theorem yearDays_eq (y : Nat) (h1 : 1970 ≤ y) (h2 : y < 2100) : yearDays y = yearLength y := by
  rw [yearDays, yearLength, leap_eq y (by omega) h2]

theorem monthLength_eq (y m : Nat) (h1 : 1970 ≤ y) (h2 : y < 2100) (hm : m < 12) :
    monthLength y m = lengthOf y (m + 1) := by
  have hl := leap_eq y (by omega) h2
  interval_cases m <;> simp [monthLength, lengthOf, monthDays, hl]

theorem monthDays_eq (y m : Nat) (hm : m < 12) (h : m ≠ 1) :
    monthDays[m]? = some (lengthOf y (m + 1)) := by
  interval_cases m <;> simp [lengthOf, monthDays] at *

theorem yearLength_pos (y : Nat) : 365 ≤ yearLength y ∧ yearLength y ≤ 366 := by
  unfold yearLength; split <;> omega

theorem yearsDays_mono {a b : Nat} (h : a ≤ b) : yearsDays a ≤ yearsDays b := by
  induction b with
  | zero => rw [show a = 0 by omega]
  | succ b ih =>
    rcases Nat.lt_or_ge b a with hb | hb
    · rw [show a = b + 1 by omega]
    · exact Nat.le_trans (ih hb) (Nat.le_add_right _ _)

theorem yearsDays_ge (n : Nat) : 365 * n ≤ yearsDays n := by
  induction n with
  | zero => rfl
  | succ n ih => have := yearLength_pos (1970 + n); rw [yearsDays]; omega

theorem monthsDays_mono (y : Nat) {a b : Nat} (h : a ≤ b) : monthsDays y a ≤ monthsDays y b := by
  induction b with
  | zero => rw [show a = 0 by omega]
  | succ b ih =>
    rcases Nat.lt_or_ge b a with hb | hb
    · rw [show a = b + 1 by omega]
    · exact Nat.le_trans (ih hb) (Nat.le_add_right _ _)

theorem monthsDays_year (y : Nat) : monthsDays y 12 = yearLength y := by
  simp [monthsDays, lengthOf, yearLength]; split <;> rfl

/-- The loop over the years ends at the year that contains the day. -/
theorem yearLoop_ok (n : Nat) : ∀ (k s : Nat), yearsDays k ≤ s → s < yearsDays (k + n) →
    s < yearsDays 130 → ∃ j, k ≤ j ∧ j < 130 ∧
      yearLoop n (1970 + k) (yearsDays k) s = (1970 + j, yearsDays (j + 1)) ∧
      yearsDays j ≤ s ∧ s < yearsDays (j + 1) := by
  induction n with
  | zero => intro k s h1 h2 _; rw [Nat.add_zero] at h2; omega
  | succ n ih =>
    intro k s h1 h2 h3
    have hk : k < 130 := by
      by_contra hk
      have := yearsDays_mono (show 130 ≤ k by omega)
      omega
    have hy : yearsDays k + yearDays (1970 + k) = yearsDays (k + 1) := by
      rw [yearDays_eq _ (by omega) (by omega)]; rfl
    rw [yearLoop, hy]
    by_cases hs : yearsDays (k + 1) ≤ s
    · rw [if_pos hs]
      obtain ⟨j, hj1, hj2, hj3, hj4⟩ := ih (k + 1) s hs
        (by rw [show k + 1 + n = k + (n + 1) by omega]; exact h2) h3
      exact ⟨j, by omega, hj2, by rw [← hj3]; rfl, hj4⟩
    · rw [if_neg hs]
      exact ⟨k, le_refl _, hk, rfl, h1, by omega⟩

theorem monthLoop_ok (y : Nat) (h1 : 1970 ≤ y) (h2 : y < 2100) (n : Nat) : ∀ (m s : Nat), m + n = 12 →
    monthsDays y m + s < monthsDays y 12 → ∃ j r, monthLoop y n m s = (j, r) ∧ j < 12 ∧
      monthsDays y j + r = monthsDays y m + s ∧ r < lengthOf y (j + 1) := by
  induction n with
  | zero => intro m s hm h; rw [show m = 12 by omega] at h; omega
  | succ n ih =>
    intro m s hm h
    have hml := monthLength_eq y m h1 h2 (by omega)
    rw [monthLoop, hml]
    by_cases hs : s ≥ lengthOf y (m + 1)
    · rw [if_pos hs]
      have hmd : monthsDays y (m + 1) = monthsDays y m + lengthOf y (m + 1) := rfl
      obtain ⟨j, r, hj1, hj2, hj3, hj4⟩ := ih (m + 1) (s - lengthOf y (m + 1)) (by omega) (by omega)
      exact ⟨j, r, hj1, hj2, by omega, hj4⟩
    · rw [if_neg hs]
      exact ⟨m, s, rfl, by omega, rfl, by omega⟩

theorem lengthOf_le (y m : Nat) : lengthOf y m ≤ 31 := by
  unfold lengthOf; split <;> (try split) <;> omega

theorem weekday_eq (n : Nat) : weekday n = (n + 4) % 7 := by
  induction n with
  | zero => rfl
  | succ n ih => rw [weekday, ih]; split <;> omega

/-- The days before January 1, 2100. -/
theorem days_2100 : yearsDays 130 = 47482 := by decide +kernel

/-- C74: for every time before the year 2100 (the documented range ends in 2038), `toDate` gives the date of
the Gregorian calendar, the time of the day and the day of the week. -/
theorem C74_toDate (t : Nat) (ht : t < 4102444800) :
    Valid (1900 + (toDate t).year) ((toDate t).month + 1) (toDate t).day ∧
      dayNumber (1900 + (toDate t).year) ((toDate t).month + 1) (toDate t).day = t / 86400 ∧
      (toDate t).hour * 3600 + (toDate t).minute * 60 + (toDate t).second = t % 86400 ∧
      (toDate t).hour < 24 ∧ (toDate t).minute < 60 ∧ (toDate t).second < 60 ∧
      (toDate t).dayOfTheWeek = weekday (t / 86400) := by
  have hd : t / 60 / 60 / 24 = t / 86400 := by omega
  obtain ⟨j, -, hj2, hj3, hj4, hj5⟩ := yearLoop_ok 200 0 (t / 86400) (Nat.zero_le _)
    (by have := yearsDays_ge 200; simp only [Nat.zero_add]; omega) (by rw [days_2100]; omega)
  have hj3' : yearLoop 200 1970 0 (t / 86400) = (1970 + j, yearsDays (j + 1)) := hj3
  have hyd : yearsDays (j + 1) - yearDays (1970 + j) = yearsDays j := by
    rw [yearDays_eq _ (by omega) (by omega), yearsDays]; omega
  have hin : t / 86400 - yearsDays j < yearLength (1970 + j) := by
    rw [yearsDays] at hj5; omega
  obtain ⟨m, r, hm1, hm2, hm3, hm4⟩ := monthLoop_ok (1970 + j) (by omega) (by omega) 12 0
    (t / 86400 - yearsDays j) rfl (by rw [monthsDays_year]; simpa [monthsDays] using hin)
  have hr : r < 31 := lt_of_lt_of_le hm4 (lengthOf_le _ _)
  have e1 : (toDate t).year = 70 + j := by
    simp only [toDate, hd, hj3']; omega
  have e2 : (toDate t).month = m := by
    simp only [toDate, hd, hj3', hyd, hm1]
  have e3 : (toDate t).day = r + 1 := by
    simp only [toDate, hd, hj3', hyd, hm1]; omega
  have e4 : (toDate t).hour = t / 3600 % 24 := by simp only [toDate]; omega
  have e5 : (toDate t).minute = t / 60 % 60 := rfl
  have e6 : (toDate t).second = t % 60 := rfl
  have e7 : (toDate t).dayOfTheWeek = (t / 86400 + 4) % 7 := by simp only [toDate, hd]
  rw [e1, e2, e3, e4, e5, e6, e7, show 1900 + (70 + j) = 1970 + j by omega, weekday_eq]
  refine ⟨⟨by omega, ⟨by omega, by omega⟩, ⟨by omega, by omega⟩⟩, ?_, by omega, by omega, by omega, by omega,
    rfl⟩
  simp only [monthsDays, Nat.zero_add] at hm3
  rw [dayNumber, show 1970 + j - 1970 = j by omega, Nat.add_sub_cancel, Nat.add_sub_cancel]
  omega

example : toDate 1700000000 = ⟨20, 13, 22, 14, 10, 123, 2, 61⟩ := by decide +kernel

theorem monthsDays_lt (y m d : Nat) (hm : m < 12) (hd : d < lengthOf y (m + 1)) :
    monthsDays y m + d < yearLength y := by
  have := monthsDays_mono y (show m + 1 ≤ 12 by omega)
  rw [monthsDays_year] at this
  have e : monthsDays y (m + 1) = monthsDays y m + lengthOf y (m + 1) := rfl
  omega

/-- C74: a day has only one date: the calendar of the specification is a numbering. -/
theorem C74_date_unique (y m d y' m' d' : Nat) (h : Valid y m d) (h' : Valid y' m' d')
    (he : dayNumber y m d = dayNumber y' m' d') : y = y' ∧ m = m' ∧ d = d' := by
  obtain ⟨hy, ⟨hm1, hm2⟩, hd1, hd2⟩ := h
  obtain ⟨hy', ⟨hm1', hm2'⟩, hd1', hd2'⟩ := h'
  obtain ⟨k, rfl⟩ : ∃ k, y = 1970 + k := ⟨y - 1970, by omega⟩
  obtain ⟨k', rfl⟩ : ∃ k, y' = 1970 + k := ⟨y' - 1970, by omega⟩
  obtain ⟨i, rfl⟩ : ∃ i, m = i + 1 := ⟨m - 1, by omega⟩
  obtain ⟨i', rfl⟩ : ∃ i, m' = i + 1 := ⟨m' - 1, by omega⟩
  obtain ⟨e, rfl⟩ : ∃ i, d = i + 1 := ⟨d - 1, by omega⟩
  obtain ⟨e', rfl⟩ : ∃ i, d' = i + 1 := ⟨d' - 1, by omega⟩
  simp only [dayNumber, Nat.add_sub_cancel, Nat.add_sub_cancel_left] at he
  have hb := monthsDays_lt (1970 + k) i e (by omega) (by omega)
  have hb' := monthsDays_lt (1970 + k') i' e' (by omega) (by omega)
  have hk : k = k' := by
    rcases Nat.lt_trichotomy k k' with hk | hk | hk
    · have := yearsDays_mono (show k + 1 ≤ k' by omega)
      rw [yearsDays] at this; omega
    · exact hk
    · have := yearsDays_mono (show k' + 1 ≤ k by omega)
      rw [yearsDays] at this; omega
  subst hk
  have hi : i = i' := by
    rcases Nat.lt_trichotomy i i' with hi | hi | hi
    · have := monthsDays_mono (1970 + k) (show i + 1 ≤ i' by omega)
      rw [monthsDays] at this; omega
    · exact hi
    · have := monthsDays_mono (1970 + k) (show i' + 1 ≤ i by omega)
      rw [monthsDays] at this; omega
  subst hi
  exact ⟨rfl, rfl, by omega⟩

theorem yearsDays_le (n : Nat) : yearsDays n ≤ 366 * n := by
  induction n with
  | zero => rfl
  | succ n ih => have := yearLength_pos (1970 + n); rw [yearsDays]; omega

theorem leapSeconds_ok (n : Nat) : ∀ (k s : Nat), k + n ≤ 130 → s + 130 * 86400 < 4294967296 →
    leapSeconds n (1970 + k) (s + (yearsDays k - 365 * k) * 86400) =
      s + (yearsDays (k + n) - 365 * (k + n)) * 86400 := by
  induction n with
  | zero => intro k s _ _; rfl
  | succ n ih =>
    intro k s h1 h2
    have hy : yearsDays (k + 1) = yearsDays k + yearLength (1970 + k) := rfl
    have hyl : yearLength (1970 + k) = 365 + if leapYear (1970 + k) then 1 else 0 := by
      rw [← yearDays_eq _ (by omega) (by omega), yearDays]; split <;> rfl
    have hge := yearsDays_ge k
    have hle := yearsDays_le (k + 1)
    have e : (s + (yearsDays k - 365 * k) * 86400 + if leapYear (1970 + k) then secondsPerDay else 0) =
        s + (yearsDays (k + 1) - 365 * (k + 1)) * 86400 := by
      rw [hy, hyl, secondsPerDay]; split <;> omega
    have hlt : s + (yearsDays (k + 1) - 365 * (k + 1)) * 86400 < 4294967296 := by
      have : (yearsDays (k + 1) - 365 * (k + 1)) * 86400 ≤ 130 * 86400 :=
        Nat.mul_le_mul_right _ (by omega)
      exact lt_of_le_of_lt (Nat.add_le_add_left this s) h2
    rw [leapSeconds, e, Nat.mod_eq_of_lt hlt]
    have := ih (k + 1) s (by omega) h2
    rw [show 1970 + k + 1 = 1970 + (k + 1) by omega, this, show k + 1 + n = k + (n + 1) by omega]

theorem oneMonth_ok (y i : Nat) (h1 : 1970 ≤ y) (h2 : y < 2100) (hi : i < 12) :
    oneMonth y i = some (86400 * lengthOf y (i + 1)) := by
  rw [oneMonth, leap_eq y (by omega) h2, secondsPerDay]
  by_cases h : i = 1
  · subst h
    by_cases hl : isLeap y
    · rw [if_pos ⟨rfl, hl⟩]; simp [lengthOf, hl]
    · rw [if_neg (fun h => hl h.2)]; simp [lengthOf, hl, monthDays]
  · rw [if_neg (fun h' => h h'.1), monthDays_eq y i hi h, Option.map_some]

theorem monthSeconds_ok (y : Nat) (h1 : 1970 ≤ y) (h2 : y < 2100) (n : Nat) : ∀ (i s : Nat), i + n ≤ 12 →
    s + monthsDays y (i + n) * 86400 < 2 ^ 32 →
    monthSeconds y n i (s + monthsDays y i * 86400) = some (s + monthsDays y (i + n) * 86400) := by
  induction n with
  | zero => intro i s _ _; rfl
  | succ n ih =>
    intro i s hi hs
    have hmono := monthsDays_mono y (show i + 1 ≤ i + (n + 1) by omega)
    have e : monthsDays y (i + 1) = monthsDays y i + lengthOf y (i + 1) := rfl
    rw [monthSeconds, oneMonth_ok y i h1 h2 (by omega), Option.bind_some,
      Nat.mod_eq_of_lt (by omega), show s + monthsDays y i * 86400 + 86400 * lengthOf y (i + 1) =
        s + monthsDays y (i + 1) * 86400 by omega]
    have := ih (i + 1) s (by omega) (by rw [show i + 1 + n = i + (n + 1) by omega]; exact hs)
    rw [this, show i + 1 + n = i + (n + 1) by omega]

theorem days_2039 : yearsDays 69 = 25202 := by decide +kernel

/-- C74: `toUnixTimestamp` of every valid date of the years 1970 to 2038 is the number of seconds since
the epoch. -/
theorem C74_toUnixTimestamp (d : Date) (hv : Valid (1900 + d.year) (d.month + 1) d.day)
    (hy : d.year ≤ 138) (hh : d.hour < 24) (hm : d.minute < 60) (hs : d.second < 60) :
    toUnixTimestamp d = some (dayNumber (1900 + d.year) (d.month + 1) d.day * 86400 + d.hour * 3600 +
      d.minute * 60 + d.second) := by
  obtain ⟨hv1, ⟨-, hv2⟩, hv3, hv4⟩ := hv
  obtain ⟨k, hk⟩ : ∃ k, d.year = 70 + k := ⟨d.year - 70, by omega⟩
  have hcy : (d.year + 1900) % 65536 = 1970 + k := by omega
  have hys : yearSeconds (1970 + k) = some (365 * k * 86400) := by
    have hk68 : k ≤ 68 := by omega
    unfold yearSeconds
    have e : (((1970 + k : Nat) : Int) - 1970) * 31536000 = ((365 * k * 86400 : Nat) : Int) := by
      push_cast; ring
    simp only [e]
    rw [if_pos (by omega)]
    refine congrArg some ?_
    omega
  have hmono := yearsDays_mono (show k ≤ 69 by omega)
  have hmono1 := yearsDays_mono (show k + 1 ≤ 69 by omega)
  rw [days_2039] at hmono hmono1
  rw [yearsDays] at hmono1
  have hge := yearsDays_ge k
  have hls := leapSeconds_ok k 0 (365 * k * 86400) (by omega) (by omega)
  simp only [Nat.add_zero, Nat.zero_add, yearsDays, Nat.mul_zero, Nat.sub_self, Nat.zero_mul] at hls
  have hls' : leapSeconds k 1970 (365 * k * 86400) = yearsDays k * 86400 := by
    rw [hls]; omega
  have hyk : 1900 + d.year = 1970 + k := by omega
  rw [hyk] at hv4 ⊢
  have hb := monthsDays_lt (1970 + k) d.month (d.day - 1) (by omega) (by omega)
  have hms := monthSeconds_ok (1970 + k) (by omega) (by omega) d.month 0 (yearsDays k * 86400) (by omega)
    (by simp only [Nat.zero_add]; omega)
  simp only [monthsDays, Nat.zero_mul, Nat.add_zero, Nat.zero_add] at hms
  unfold toUnixTimestamp
  simp only [hcy, hys, Option.bind_some, Nat.add_sub_cancel_left, hls', hms]
  rw [dayNumber, Nat.add_sub_cancel_left, Nat.add_sub_cancel]
  refine congrArg some ?_
  obtain ⟨e, he⟩ : ∃ e, d.day = e + 1 := ⟨d.day - 1, by omega⟩
  rw [he] at hb ⊢
  simp only [Nat.add_sub_cancel] at hb ⊢
  push_cast
  omega

/-- C74: in the whole documented range the two conversions are inverse. -/
theorem C74_round_trip (t : Nat) (ht : t < 2 ^ 31) : toUnixTimestamp (toDate t) = some t := by
  obtain ⟨h1, h2, h3, h4, h5, h6, -⟩ := C74_toDate t (by omega)
  have hy : (toDate t).year ≤ 138 := by
    by_contra hy
    have hb := yearsDays_mono (show 69 ≤ 1900 + (toDate t).year - 1970 by omega)
    rw [days_2039] at hb
    rw [dayNumber] at h2
    omega
  rw [C74_toUnixTimestamp _ h1 hy h4 h5 h6, h2]
  refine congrArg some ?_
  rw [Nat.add_assoc, Nat.add_assoc, ← Nat.add_assoc ((toDate t).hour * 3600), h3]
  exact Nat.div_add_mod' t 86400

example : Valid (1900 + 124) (1 + 1) 29 := ⟨by omega, by omega, by decide⟩

/-- Outside of the documented range: the year 2100 is taken for a leap year, and the conversion of a
date of the year 2039 overflows an `int`. -/
theorem C74_beyond_range_counterexample :
    ((toDate 4107542400).month = 1 ∧ (toDate 4107542400).day = 29 ∧
      dayNumber 2100 3 1 * 86400 = 4107542400) ∧
    toUnixTimestamp ⟨0, 0, 0, 1, 0, 139, 0, 0⟩ = none := by decide +kernel

/-- C75, what does hold: the day of the year is right for the first 256 days of a year. -/
theorem C75_dayOfTheYear_partial (t : Nat) (ht : t < 4102444800)
    (h : monthsDays (1900 + (toDate t).year) (toDate t).month + ((toDate t).day - 1) < 256) :
    (toDate t).dayOfTheYear =
      monthsDays (1900 + (toDate t).year) (toDate t).month + ((toDate t).day - 1) := by
  obtain ⟨h1, h2, -⟩ := C74_toDate t ht
  have hd : t / 60 / 60 / 24 = t / 86400 := by omega
  obtain ⟨j, -, hj2, hj3, hj4, hj5⟩ := yearLoop_ok 200 0 (t / 86400) (Nat.zero_le _)
    (by have := yearsDays_ge 200; simp only [Nat.zero_add]; omega) (by rw [days_2100]; omega)
  have hj3' : yearLoop 200 1970 0 (t / 86400) = (1970 + j, yearsDays (j + 1)) := hj3
  have hyd : yearsDays (j + 1) - yearDays (1970 + j) = yearsDays j := by
    rw [yearDays_eq _ (by omega) (by omega), yearsDays]; omega
  have e1 : (toDate t).year = 70 + j := by
    simp only [toDate, hd, hj3']; omega
  have e2 : (toDate t).dayOfTheYear = (t / 86400 - yearsDays j) % 256 := by
    simp only [toDate, hd, hj3', hyd]
  rw [dayNumber, Nat.add_sub_cancel] at h2
  rw [e1, show 1900 + (70 + j) = 1970 + j by omega] at h2 h ⊢
  rw [Nat.add_sub_cancel_left] at h2
  rw [e2]
  omega

example : (toDate 1700000000).dayOfTheYear = 61 ∧ (toDate 100000).dayOfTheYear = 1 := by decide +kernel

/-- C75 is false: the documented range is 0 to 365 but the field is a `uint8_t`: November 14, 2023 is day
317, not 61. -/
theorem C75_dayOfTheYear_counterexample :
    (toDate 1700000000).dayOfTheYear = 61 ∧
      monthsDays (1900 + (toDate 1700000000).year) (toDate 1700000000).month +
        ((toDate 1700000000).day - 1) = 317 := by decide +kernel

end Props.Date
