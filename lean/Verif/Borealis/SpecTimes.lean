import Verif.Borealis.SpecConvert
/-!
# Specification of times

What a timestamp is, the calendar, and the times that records should have.
-/
namespace Verif.Bor
open Verif

/-- The element is a float64 of the value, in seconds since 1970. -/
def IsTime (e : Elt) (v : Rat) : Prop :=
  ∃ b : BitVec 64, e = .flt b.toNat ∧ f64Finite b ∧ (f64Scaled b : Rat) = v * 2 ^ 1074

/-- The nearest whole number, the even one of two. -/
structure Nearest (x : Rat) (m : Int) : Prop where
  above : x - m ≤ 1 / 2
  below : m - x ≤ 1 / 2
  tie : x - m = 1 / 2 ∨ m - x = 1 / 2 → m % 2 = 0

/-! ## The Gregorian calendar -/

/-- A year with a February 29. -/
def IsLeap (y : Nat) : Prop := y % 4 = 0 ∧ (y % 100 ≠ 0 ∨ y % 400 = 0)

instance (y : Nat) : Decidable (IsLeap y) := by unfold IsLeap; infer_instance

/-- Days of a year. -/
def yearDays (y : Nat) : Nat := if IsLeap y then 366 else 365

/-- Days of a month. -/
def monthDays (y m : Nat) : Nat :=
  if m = 2 then (if IsLeap y then 29 else 28) else if m = 4 ∨ m = 6 ∨ m = 9 ∨ m = 11 then 30 else 31

/-- Days before a date, counted from January 1 of the year 1. -/
def dayNumber (y m d : Nat) : Nat :=
  ((List.range (y - 1)).map fun i => yearDays (i + 1)).sum + ((List.range (m - 1)).map fun i => monthDays y (i + 1)).sum + (d - 1)

/-- A date and time of day. -/
structure Moment where
  year : Nat
  month : Nat
  day : Nat
  hour : Nat
  minute : Nat
  second : Nat
  micro : Nat

/-- The parts of the date are in their ranges. -/
structure Moment.Valid (t : Moment) : Prop where
  year : 1 ≤ t.year
  month : 1 ≤ t.month ∧ t.month ≤ 12
  day : 1 ≤ t.day ∧ t.day ≤ monthDays t.year t.month
  hour : t.hour < 24
  minute : t.minute < 60
  second : t.second < 60
  micro : t.micro < 1000000

/-- Microseconds since January 1, 1970. -/
def Moment.micros (t : Moment) : Int :=
  (((dayNumber t.year t.month t.day : Int) - dayNumber 1970 1 1) * 86400 + t.hour * 3600 + t.minute * 60 + t.second) * 1000000 +
    t.micro

/-- A digit. -/
def digit (n : Nat) : Char := Char.ofNat (48 + n % 10)

/-- Two digits. -/
def digits2 (n : Nat) : PyStr := [digit (n / 10), digit n]

/-- The name of a day. -/
def dayName : Nat → PyStr
  | 0 => py! "Mon" | 1 => py! "Tue" | 2 => py! "Wed" | 3 => py! "Thu" | 4 => py! "Fri" | 5 => py! "Sat" | _ => py! "Sun"

/-- The day of the week; January 1 of the year 1 is a Monday. -/
def weekday (y m d : Nat) : PyStr := dayName (dayNumber y m d % 7)

/-- The name of a month. -/
def monthName : Nat → PyStr
  | 1 => py! "Jan" | 2 => py! "Feb" | 3 => py! "Mar" | 4 => py! "Apr" | 5 => py! "May" | 6 => py! "Jun" | 7 => py! "Jul"
  | 8 => py! "Aug" | 9 => py! "Sep" | 10 => py! "Oct" | 11 => py! "Nov" | _ => py! "Dec"

/-- Like `Wed Jan  1 00:00:03 2020`. -/
def Moment.text (t : Moment) : PyStr :=
  weekday t.year t.month t.day ++ py! " " ++ monthName t.month ++ py! " " ++
    (if t.day < 10 then [' ', digit t.day] else digits2 t.day) ++ py! " " ++
    digits2 t.hour ++ py! ":" ++ digits2 t.minute ++ py! ":" ++ digits2 t.second ++ py! " " ++ Nat.toDigits 10 t.year

example : weekday 1970 1 1 = py! "Thu" ∧ weekday 2026 11 17 = py! "Tue" := by decide +kernel

/-- The header of a record has the date. -/
structure HeaderTime (d : PlainRec) (t : Moment) : Prop where
  text : textField d (py! "origin.time") = some t.text
  year : intField d (py! "time.yr") = some (t.year : Int)
  month : intField d (py! "time.mo") = some (t.month : Int)
  day : intField d (py! "time.dy") = some (t.day : Int)
  hour : intField d (py! "time.hr") = some (t.hour : Int)
  minute : intField d (py! "time.mt") = some (t.minute : Int)
  second : intField d (py! "time.sc") = some (t.second : Int)
  micro : intField d (py! "time.us") = some (t.micro : Int)

end Verif.Bor
