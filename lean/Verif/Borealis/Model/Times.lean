import Verif.Borealis.Model.Convert
import Verif.Py.Ieee
/-!
# Timestamps

What the code makes of a timestamp, a float64 in seconds: names of records
(/repo/pydarnio/borealis/base_format.py:1188-1190, /repo/pydarnio/borealis/borealis_restructure.py:240-242), dates
(`datetime.utcfromtimestamp`) and the times of sequences
(/repo/pydarnio/borealis/borealis_convert.py:735-740).

CPython's `datetime` is modelled as of version 3.6, with a 64-bit `time_t`.
-/
namespace Verif.Bor
open Verif Verif.Ieee

/-- A whole number as float64. -/
def fl64 (n : Int) : Fl := b64.ofRat n

/-- Microseconds brought into one second. -/
def carry (s us : Int) : Int × Int :=
  if 1000000 ≤ us then (s + 1, us - 1000000) else if us < 0 then (s - 1, us + 1000000) else (s, us)

/-- Whole seconds and microseconds of the fraction; the seconds that do not fit `time_t` raise `OverflowError`. -/
def secondsMicros : Option Int → Option Int → Except Err (Int × Int)
  | some s, some us =>
    if -(2 ^ 63) ≤ (carry s us).1 ∧ (carry s us).1 < 2 ^ 63 then .ok (carry s us) else .error .overflowError
  | _, _ => .error .overflowError

/-- Seconds since 1970 and microseconds of a float, `_PyTime_ObjectToTimeval` with ties to even
(`pytime_double_to_denominator` in CPython).  A NaN raises `ValueError`. -/
def timeval (x : Fl) : Except Err (Int × Int) :=
  if x = .nan then .error .valueError
  else secondsMicros ((b64.modf x).1.trunc? b64) ((b64.mul (b64.modf x).2 (fl64 1000000)).round? b64)

/-- `datetime.utcfromtimestamp(x)` as seconds since 1970 and microseconds: `gmtime` has to find a year that fits an `int`,
and the year is one from 1 to 9999. -/
def utcTime (x : Fl) : Except Err (Int × Int) := do
  let (s, us) ← timeval x
  if s < -67768040609740800 ∨ 67768036191676800 ≤ s then .error .osError
  else if s < -62135596800 ∨ 253402300800 ≤ s then .error .valueError
  else .ok (s, us)

/-- `int(delta.total_seconds() * 1000)` for a difference of whole seconds and microseconds: `total_seconds` divides the
number of microseconds by a million, rounded to a float64. -/
def totalMillis (s us : Int) : Option Int :=
  (b64.mul (b64.ofRat (((s * 1000000 + us : Int) : Rat) / 1000000)) (fl64 1000)).trunc? b64

/-- `str(n)`; `int` of an infinity or a NaN has failed. -/
def wholeText : Option Int → Except Err PyStr
  | some n => .ok (intText n)
  | none => .error .overflowError

/-- `str(int((datetime.utcfromtimestamp(x) - epoch).total_seconds() * 1000))`
(/repo/pydarnio/borealis/base_format.py:1188-1190, /repo/pydarnio/borealis/borealis_restructure.py:240-242).
Timestamps other than float64 are outside the model. -/
def recordName : Elt → Except Err PyStr
  | .flt b => do
    let (s, us) ← utcTime (b64.ofBits b)
    wholeText (totalMillis s us)
  | _ => .error .unmodelled

/-! ## Dates -/

/-- Leap years. -/
def leapYear (y : Nat) : Bool := y % 4 = 0 ∧ (y % 100 ≠ 0 ∨ y % 400 = 0)

/-- The days before each month of a year. -/
def monthStarts (leap : Bool) : List Nat :=
  if leap then [0, 31, 60, 91, 121, 152, 182, 213, 244, 274, 305, 335] else [0, 31, 59, 90, 120, 151, 181, 212, 243, 273, 304, 334]

/-- Year, month and day of a number of days since January 1 of the year 1, by cycles of 400, 100, 4 and 1 years. -/
def dateOf (n : Nat) : Nat × Nat × Nat :=
  let n400 := n / 146097
  let n := n % 146097
  let n100 := n / 36524
  let n := n % 36524
  let n4 := n / 1461
  let n := n % 1461
  let n1 := n / 365
  let n := n % 365
  let y := n400 * 400 + n100 * 100 + n4 * 4 + n1
  -- the last day of a leap year or of four centuries
  if n1 = 4 ∨ n100 = 4 then (y, 12, 31)
  else
    let starts := monthStarts (leapYear (y + 1))
    let m := (starts.filter (· ≤ n)).length
    (y + 1, m, n - starts.getD (m - 1) 0 + 1)

/-- Days from January 1 of the year 1 to January 1, 1970. -/
def epochDays : Nat := 719162

/-- A number with two digits, filled with a character. -/
def twoDigits (fill : Char) (n : Nat) : PyStr := if n < 10 then fill :: natText n else natText n

/-- The names of the days, Monday being day 0, since January 1 of the year 1 is one. -/
def dayNames : List PyStr := [py! "Mon", py! "Tue", py! "Wed", py! "Thu", py! "Fri", py! "Sat", py! "Sun"]

/-- The names of the months. -/
def monthNames : List PyStr :=
  [py! "Jan", py! "Feb", py! "Mar", py! "Apr", py! "May", py! "Jun", py! "Jul", py! "Aug", py! "Sep", py! "Oct", py! "Nov",
   py! "Dec"]

/-- The date of a number of seconds since 1970 and microseconds; the text is that of `strftime("%c")` in the C
locale. -/
def dateTime (s us : Int) : Date :=
  let t := (s + epochDays * 86400).toNat
  let days := t / 86400
  let sec := t % 86400
  let (y, m, d) := dateOf days
  let h := sec / 3600
  let mi := sec / 60 % 60
  let se := sec % 60
  { text := dayNames.getD (days % 7) [] ++ ' ' :: monthNames.getD (m - 1) [] ++ ' ' :: twoDigits ' ' d ++
      ' ' :: twoDigits '0' h ++ ':' :: twoDigits '0' mi ++ ':' :: twoDigits '0' se ++ ' ' :: natText y
    year := BitVec.ofNat 16 y, month := BitVec.ofNat 16 m, day := BitVec.ofNat 16 d
    hour := BitVec.ofNat 16 h, minute := BitVec.ofNat 16 mi, second := BitVec.ofNat 16 se
    micro := BitVec.ofInt 32 us }

/-- `datetime.utcfromtimestamp(x)` (/repo/pydarnio/borealis/borealis_convert.py:631-634, 640-667). -/
def utcDate : Elt → Except Err Date
  | .flt b => do
    let (s, us) ← utcTime (b64.ofBits b)
    .ok (dateTime s us)
  | _ => .error .unmodelled

/-! ## Times of sequences -/

/-- An element of an int32 array.  What does not fit raises or is any number, depending on the version of NumPy: it is
outside the model. -/
def asInt32 : Option Int → Except Err (BitVec 32)
  | some n => if -(2 ^ 31) ≤ n ∧ n < 2 ^ 31 then .ok (BitVec.ofInt 32 n) else .error .unmodelled
  | none => .error .unmodelled

/-- `np.floor(x/1e3)` in an int32 array (/repo/pydarnio/borealis/borealis_convert.py:735-737). -/
def tscOf : Elt → Except Err (BitVec 32)
  | .flt b => asInt32 ((b64.div (b64.ofBits b) (fl64 1000)).floor? b64)
  | _ => .error .unmodelled

/-- `np.fmod(x, 1000.0) * 1e3` in an int32 array (/repo/pydarnio/borealis/borealis_convert.py:738-740). -/
def tusOf : Elt → Except Err (BitVec 32)
  | .flt b => asInt32 ((b64.mul (b64.fmod (b64.ofBits b) (fl64 1000)) (fl64 1000)).trunc? b64)
  | _ => .error .unmodelled

end Verif.Bor
