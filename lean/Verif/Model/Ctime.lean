import Verif.Model.CInt

/-!
# `sprout::to_time_t`

sprout/ctime/to_time_t.hpp 18-43. `int` has 32 bits; `std::time_t` is a 64-bit signed integer.

Not modelled: the overload on character iterators (lines 45-109). Its helper `get_num` calls `char_to_int(c)` without the
template argument `IntType` (line 50), which cannot be deduced, so the overload cannot be instantiated.
-/

namespace Sprout.Ctime
open CInt

/-- `to_time_t_impl` (lines 20-28) -/
def toTimeTImpl (year mon day hour min sec : Int) : Option Int := do
  let a ← int32.div year 4
  let b ← int32.div year 100
  let s ← int32.arith (a - b)
  let c ← int32.div year 400
  let s ← int32.arith (s + c)
  let m ← int32.arith (367 * mon)
  let m ← int32.div m 12
  let s ← int32.arith (s + m)
  let s ← int32.arith (s + day)
  let y ← int32.arith (year * 365)
  let t ← int64.arith (s + y)
  let t ← int64.arith (t - 719499)
  let t ← int64.arith (t * 24)
  let t ← int64.arith (t + hour)
  let t ← int64.arith (t * 60)
  let t ← int64.arith (t + min)
  let t ← int64.arith (t * 60)
  int64.arith (t + sec)

/-- `to_time_t(year, mon, day, hour, min, sec)` (lines 33-39) -/
def toTimeT (year mon day hour min sec : Int) : Option Int :=
  if mon ≤ 2 then do
    let y ← int32.arith (year - 1)
    let m ← int32.arith (mon + 10)
    toTimeTImpl y m day hour min sec
  else do
    let m ← int32.arith (mon - 2)
    toTimeTImpl year m day hour min sec

/-- the fields of `std::tm` that are read -/
structure Tm where
  year : Int
  mon : Int
  mday : Int
  hour : Int
  min : Int
  sec : Int

/-- `to_time_t(tm)` (lines 40-43) -/
def toTimeTTm (t : Tm) : Option Int := do
  let y ← int32.arith (t.year + 1900)
  let m ← int32.arith (t.mon + 1)
  toTimeT y m t.mday t.hour t.min t.sec

end Sprout.Ctime
