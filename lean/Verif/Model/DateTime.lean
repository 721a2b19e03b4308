import Verif.Model.Float
import Verif.Model.Heap

/-!
# Dates

Aware datetimes (those with a time zone), which stand for a point in time: the number of microseconds since
1970-01-01 00:00 UTC.  Two aware datetimes are equal if and only if these numbers are.  Datetimes without time zone
go through the local time zone of the machine and are not modelled.
-/

namespace V8

/-- Microseconds from 1970-01-01 to 0001-01-01 (`datetime.min` in UTC). -/
def minDate : Int := -62135596800000000
/-- Microseconds from 1970-01-01 to 10000-01-01, just after `datetime.max` in UTC. -/
def endDate : Int := 253402300800000000

/-- `value.timestamp()` of an aware datetime: `(self - epoch).total_seconds()`, a correctly rounded division of two
integers (`datetime_timestamp`, `delta_total_seconds` in CPython 3.11, Modules/_datetimemodule.c). -/
def timestamp (us : Int) : F64 := doubleOf (decide (us < 0)) us.natAbs (10 ^ 6)

/-- `value.timestamp() * 1000` (encode.py:426). -/
def dateToMs (us : Int) : F64 := fmulNat (timestamp us) 1000

/-- The microseconds in `s / unit` seconds: `modf`, the fraction times 10^6 in double arithmetic, rounded to an
integer, halves to even (CPython 3.11, `pytime_double_to_denominator` in Python/pytime.c). -/
def toMicros (unit : Nat) (s : Int) : Int :=
  let micros : Int := rne (b64.mag (b64.round ((s.tmod unit).natAbs * 10 ^ 6) unit)) unit
  s.tdiv unit * 10 ^ 6 + (if s.tmod unit < 0 then -micros else micros)

/-- `datetime.fromtimestamp(x, tz)` with a time zone (CPython 3.11: `_PyTime_ObjectToTimeval` in Python/pytime.c,
`datetime_from_timet_and_us` in Modules/_datetimemodule.c).  Simplification: the OSError for years that do not fit a
C `int` is given as ValueError, as for all other years outside 1 to 9999. -/
def fromTimestamp (x : F64) : Except PyExc Int :=
  match fval x with
  | .nan => .error .valueError
  | .inf _ => .error .overflowError
  | .fin s =>
    if s.tdiv (2 ^ 1074 : Nat) < -(2 ^ 63) ∨ 2 ^ 63 ≤ s.tdiv (2 ^ 1074 : Nat) then .error .overflowError
    else if minDate ≤ toMicros (2 ^ 1074) s ∧ toMicros (2 ^ 1074) s < endDate then .ok (toMicros (2 ^ 1074) s)
    else .error .valueError

/-- `datetime.fromtimestamp(epoch_ms / 1000, tz=tz)` (decode.py:521). -/
def msToDate (ms : F64) : Except PyExc Int := fromTimestamp (fdivNat ms 1000)

/-- The Python runtime with these dates. -/
def withDates (floatStr : F64 → Str) : PyEnv := ⟨floatStr, fun us => .ok (dateToMs us), msToDate⟩

end V8
