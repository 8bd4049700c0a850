import Verif.Proofs.Ctime

/-!
# C70 `to_time_t` counts the seconds since 1970 by the Gregorian calendar

Full statement: for every year, every month from 1 to 12 and all days, hours, minutes and seconds for which nothing
overflows, `to_time_t` is the number of seconds between the beginning of 1970 and that moment.

False for January and February of year 0 and for earlier years (`C70_year_zero_false`, `C70_negative_year_false`): the
divisions truncate. Missing in the partial theorem: years before March of year 0.
-/

namespace Sprout
open Ctime CInt Spec

/-- from March of year 0 on `to_time_t` is the number of seconds since 1970, and nothing overflows up to year 5883516 -/
theorem C70_to_time_t_partial (y : Int) (m : Nat) (d hh mm ss : Int) (hm0 : 1 ≤ m) (hm : m ≤ 12)
    (hy0 : 1 ≤ y ∨ y = 0 ∧ 3 ≤ m) (hy : y ≤ 5883516)
    (hd0 : -2 ^ 30 ≤ d) (hd : d ≤ 2 ^ 30) (hhh : int32.Has hh) (hmm : int32.Has mm) (hs : int32.Has ss) :
    toTimeT y m d hh mm ss = some (unixTime y m d hh mm ss) := by
  rw [toTimeT, unixTime]
  by_cases h2 : m ≤ 2
  · rw [if_pos (by omega), i32 (by omega) (by omega), Option.bind_eq_bind, Option.bind_some, i32 (by omega) (by omega),
      Option.bind_some,
      toTimeTImpl_eq (by omega) (by omega) (by omega) (by omega) hd0 hd hhh hmm hs, days_early hm0 h2 (by omega)]
  · rw [if_neg (by omega), i32 (by omega) (by omega), Option.bind_eq_bind, Option.bind_some,
      toTimeTImpl_eq (by omega) (by omega) (by omega) (by omega) hd0 hd hhh hmm hs, days_late h2 hm (by omega)]

/-- 29 February 2000, 12:34:56 -/
example : toTimeT 2000 2 29 12 34 56 = some 951827696 ∧ unixTime 1970 1 1 0 0 0 = 0 := by
  refine ⟨by decide, ?_⟩
  simp [unixTime, dayNumber, daysToMonth]

/-- the `tm` overload: years count from 1900, months from 0 -/
theorem C70_to_time_t_tm_partial (t : Tm) (m : Nat) (ht : t.mon = m) (hm : m ≤ 11)
    (hy0 : -1899 ≤ t.year) (hy : t.year ≤ 5881616)
    (hd0 : -2 ^ 30 ≤ t.mday) (hd : t.mday ≤ 2 ^ 30) (hhh : int32.Has t.hour) (hmm : int32.Has t.min) (hs : int32.Has t.sec) :
    toTimeTTm t = some (unixTime (t.year + 1900) (m + 1) t.mday t.hour t.min t.sec) := by
  unfold toTimeTTm
  rw [ht, i32 (by omega) (by omega), Option.bind_eq_bind, Option.bind_some, i32 (by omega) (by omega),
      Option.bind_some]
  exact C70_to_time_t_partial (t.year + 1900) (m + 1) t.mday t.hour t.min t.sec (by omega) (by omega) (by omega) (by omega)
    hd0 hd hhh hmm hs

example : toTimeTTm ⟨70, 0, 2, 0, 0, 1⟩ = some 86401 := by decide

/-- 1 January of year 0 is taken for the day after: the full statement fails -/
theorem C70_year_zero_false :
    toTimeT 0 1 1 0 0 0 = some (-62167132800) ∧ unixTime 0 1 1 0 0 0 = -62167219200 := by
  refine ⟨by decide, ?_⟩
  rw [unixTime, dayNumber, daysToYear_1970]
  decide

/-- so is 1 January of year -4: here the truncating divisions lose the leap year -/
theorem C70_negative_year_false : ∃ t, toTimeT (-4) 1 1 0 0 0 = some t ∧ t ≠ unixTime (-4) 1 1 0 0 0 := by
  refine ⟨-62293363200, by decide, ?_⟩
  rw [unixTime, dayNumber, daysToYear_1970]
  decide

/-- from year 5883517 on the multiplication by 365 overflows although the result would fit into `time_t` -/
theorem C70_overflow : toTimeT 5883517 3 1 0 0 0 = none ∧ toTimeT 5883516 3 1 0 0 0 ≠ none := by decide

end Sprout
