import Verif.Model.DateTime

/-!
# Dates without a time zone

`loads` makes datetimes without time zone unless it is given one (`default_timezone`, decode.py:1147-1149, 1415), and
`dumps` accepts them.  Such a datetime has the numbers that the clock of the local time zone shows; both functions leave
the conversion to `datetime`, and with it to the `localtime` of the machine.
-/

namespace V8

/-- What the clock of the local time zone shows: `loc u` is the local time at the point in time `u`.  Both are seconds
since 1970-01-01 00:00, of local time and of UTC (`localtime(u)`, put together as if it were UTC).  Simplification: no
leap seconds. -/
abbrev Clock := Int → Int

/-- A datetime without time zone: microseconds from 1970-01-01 00:00 to the numbers it shows, and its attribute `fold`,
which is 1 for the second of two equal local times.  `==` does not look at `fold`. -/
structure NaiveDate where
  wall : Int
  fold : Bool
  deriving DecidableEq, Repr

/-- `0001-01-01 00:00:00` in seconds. -/
def minSec : Int := -62135596800
/-- `10000-01-01 00:00:00` in seconds. -/
def endSec : Int := 253402300800
/-- `max_fold_seconds`: a day. -/
def maxFold : Int := 86400

/-- `local(u)` (CPython 3.11, Modules/_datetimemodule.c; datetime.py:1871-1873): ValueError for a year outside 1 to
9999.  Simplification: so is the error for years that do not fit a C `int`. -/
def localSec (loc : Clock) (u : Int) : Except PyExc Int :=
  if minSec ≤ loc u ∧ loc u < endSec then .ok (loc u) else .error .valueError

/-- The last part of `_mktime` (datetime.py:1890-1898): two offsets `a` and `b` were found, `u1 = t - a` and
`t1 = local(u1)`. -/
def mktimeOther (loc : Clock) (t : Int) (fold : Bool) (u1 t1 b : Int) : Except PyExc Int :=
  match localSec loc (t - b) with
  | .error e => .error e
  | .ok t2 =>
    if t2 = t then .ok (t - b)
    else if t1 = t then .ok u1
    else .ok (if fold then min u1 (t - b) else max u1 (t - b))

/-- `_mktime` (datetime.py:1866-1898; `local_to_seconds` in Modules/_datetimemodule.c): the point in time at which the
clock shows `t`. -/
def mktime (loc : Clock) (t : Int) (fold : Bool) : Except PyExc Int :=
  match localSec loc t with
  | .error e => .error e
  | .ok lt =>
    let a := lt - t
    let u1 := t - a
    match localSec loc u1 with
    | .error e => .error e
    | .ok t1 =>
      if t1 = t then
        let u2 := if fold then u1 + maxFold else u1 - maxFold
        match localSec loc u2 with
        | .error e => .error e
        | .ok lt2 =>
          let b := lt2 - u2
          if a = b then .ok u1 else mktimeOther loc t fold u1 t1 b
      else mktimeOther loc t fold u1 t1 (t1 - u1)

/-- The sum of an integer that a double represents exactly and a finite double that is not negative. -/
def faddInt (s : Int) (y : F64) : F64 :=
  let n : Int := s * (2 ^ 1074 : Nat) + fMag y.toNat
  doubleOf (decide (n < 0)) n.natAbs (2 ^ 1074)

/-- `value.timestamp()` of a datetime without time zone: `s + self.microsecond / 1e6` (datetime.py:1901-1905;
`datetime_timestamp` in Modules/_datetimemodule.c). -/
def naiveTimestamp (loc : Clock) (d : NaiveDate) : Except PyExc F64 :=
  match mktime loc (d.wall / 10 ^ 6) d.fold with
  | .error e => .error e
  | .ok s => .ok (faddInt s (doubleOf false (d.wall % 10 ^ 6).toNat (10 ^ 6)))

/-- `value.timestamp() * 1000` (encode.py:426). -/
def naiveToMs (loc : Clock) (d : NaiveDate) : Except PyExc F64 :=
  match naiveTimestamp loc d with
  | .error e => .error e
  | .ok x => .ok (fmulNat x 1000)

/-- The datetime without time zone at the point in time `us`, in microseconds (datetime.py:1753-1777;
`datetime_from_timet_and_us` in Modules/_datetimemodule.c, as compiled for other systems than Windows). -/
def localDate (loc : Clock) (us : Int) : Except PyExc NaiveDate :=
  let u := us / 10 ^ 6
  match localSec loc u with
  | .error e => .error e
  | .ok t =>
    match localSec loc (u - maxFold) with
    | .error e => .error e
    | .ok probe1 =>
      let wall := t * 10 ^ 6 + us % 10 ^ 6
      let trans := t - probe1 - maxFold
      if trans < 0 then
        match localSec loc (u + trans) with
        | .error e => .error e
        | .ok probe2 => .ok ⟨wall, decide (probe2 = t)⟩
      else .ok ⟨wall, false⟩

/-- `datetime.fromtimestamp(x)` without time zone.  The first part is the same as with one (`fromTimestamp`): modf, and
the microseconds rounded. -/
def fromTimestampLocal (loc : Clock) (x : F64) : Except PyExc NaiveDate :=
  match fval x with
  | .nan => .error .valueError
  | .inf _ => .error .overflowError
  | .fin s =>
    if s.tdiv (2 ^ 1074 : Nat) < -(2 ^ 63) ∨ 2 ^ 63 ≤ s.tdiv (2 ^ 1074 : Nat) then .error .overflowError
    else localDate loc (toMicros (2 ^ 1074) s)

/-- `datetime.fromtimestamp(epoch_ms / 1000, tz=None)` (decode.py:521). -/
def msToNaive (loc : Clock) (ms : F64) : Except PyExc NaiveDate := fromTimestampLocal loc (fdivNat ms 1000)

/-- The dates on a heap are integers: `2 * wall + fold`. -/
def NaiveDate.code (d : NaiveDate) : Int := 2 * d.wall + if d.fold then 1 else 0

/-- The datetime with this code. -/
def NaiveDate.ofCode (n : Int) : NaiveDate := ⟨n / 2, decide (n % 2 = 1)⟩

/-- The Python runtime with datetimes without time zone on a machine with the clock `loc`. -/
def withLocalDates (loc : Clock) (floatStr : F64 → Str) : PyEnv :=
  ⟨floatStr, fun n => naiveToMs loc (.ofCode n), fun ms => (msToNaive loc ms).map NaiveDate.code⟩

end V8
