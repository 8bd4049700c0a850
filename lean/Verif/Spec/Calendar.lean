/-!
# The (proleptic) Gregorian calendar

Year 0 is the year before year 1. Everything is counted one year and one month at a time.
-/

namespace Sprout.Spec

/-- leap years -/
def Leap (y : Int) : Prop := y % 4 = 0 ∧ (y % 100 ≠ 0 ∨ y % 400 = 0)

instance (y : Int) : Decidable (Leap y) := by unfold Leap; infer_instance

/-- number of days of year `y` -/
def yearLen (y : Int) : Int := if Leap y then 366 else 365

/-- number of days of month `m` (1 to 12) of year `y` -/
def monthLen (y : Int) (m : Nat) : Int :=
  if m = 2 then (if Leap y then 29 else 28) else if m = 4 ∨ m = 6 ∨ m = 9 ∨ m = 11 then 30 else 31

/-- days from 1 January of year 0 to 1 January of year `n` -/
def daysUp : Nat → Int
  | 0 => 0
  | n + 1 => daysUp n + yearLen n

/-- days from 1 January of year `-n` to 1 January of year 0 -/
def daysDown : Nat → Int
  | 0 => 0
  | n + 1 => daysDown n + yearLen (-(n + 1))

/-- days from 1 January of year 0 to 1 January of year `y` (negative for earlier years) -/
def daysToYear (y : Int) : Int := if 0 ≤ y then daysUp y.toNat else -daysDown (-y).toNat

/-- days from 1 January to the first of month `m` of year `y` -/
def daysToMonth (y : Int) : Nat → Int
  | 0 => 0
  | m + 1 => if m = 0 then 0 else daysToMonth y m + monthLen y m

/-- days from 1 January 1970 -/
def dayNumber (y : Int) (m : Nat) (d : Int) : Int :=
  daysToYear y + daysToMonth y m + (d - 1) - daysToYear 1970

/-- seconds since the beginning of 1970 (without leap seconds); day, hour, minute and second may be out of range -/
def unixTime (y : Int) (m : Nat) (d hh mm ss : Int) : Int := dayNumber y m d * 86400 + hh * 3600 + mm * 60 + ss

end Sprout.Spec
