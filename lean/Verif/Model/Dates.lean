/-!
# Date strings (`pythagoras/_820_strings_signatures_converters/current_date_gmt_str.py`)
-/
namespace Pyth.Dates

/-- a date of the (proleptic) Gregorian calendar (for `strftime`, current_date_gmt_str.py:4-10) -/
structure Date where
  year : Nat
  month : Nat
  day : Nat
  deriving DecidableEq, Repr

/-- decimal digit (for `strftime`, current_date_gmt_str.py:4-10) -/
def digit (n : Nat) : Char := Char.ofNat (48 + n)

/-- `%d`, `%m`: two digits, zero-padded (current_date_gmt_str.py:4-10) -/
def two (n : Nat) : List Char := [digit (n / 10), digit (n % 10)]

/-- `%Y`: the year in decimal; `fuel` bounds the number of digits (current_date_gmt_str.py:4-10) -/
def decimal : Nat → Nat → List Char
  | 0, _ => []
  | fuel + 1, n => if n < 10 then [digit n] else decimal fuel (n / 10) ++ [digit (n % 10)]

/-- `%b`: abbreviated month name (C locale) (current_date_gmt_str.py:4-10) -/
def monthName : Nat → List Char
  | 1 => ['J', 'a', 'n'] | 2 => ['F', 'e', 'b'] | 3 => ['M', 'a', 'r'] | 4 => ['A', 'p', 'r']
  | 5 => ['M', 'a', 'y'] | 6 => ['J', 'u', 'n'] | 7 => ['J', 'u', 'l'] | 8 => ['A', 'u', 'g']
  | 9 => ['S', 'e', 'p'] | 10 => ['O', 'c', 't'] | 11 => ['N', 'o', 'v'] | _ => ['D', 'e', 'c']

/-- `utc_now.strftime("%Y_%m%b_%d_utc")` (current_date_gmt_str.py:9) -/
def dateString (d : Date) : List Char :=
  decimal d.year d.year ++ ['_'] ++ two d.month ++ monthName d.month ++ ['_'] ++ two d.day
    ++ ['_', 'u', 't', 'c']

/-- leap years (for `datetime.now`, current_date_gmt_str.py:4-10) -/
def isLeap (y : Nat) : Bool := (y % 4 == 0 && y % 100 != 0) || y % 400 == 0

/-- days of a month (for `datetime.now`, current_date_gmt_str.py:4-10) -/
def daysIn (y : Nat) : Nat → Nat
  | 2 => if isLeap y then 29 else 28
  | 4 => 30 | 6 => 30 | 9 => 30 | 11 => 30
  | _ => 31

/-- the following day (for `datetime.now`, current_date_gmt_str.py:4-10) -/
def Date.next (d : Date) : Date :=
  if d.day < daysIn d.year d.month then { d with day := d.day + 1 }
  else if d.month < 12 then ⟨d.year, d.month + 1, 1⟩
  else ⟨d.year + 1, 1, 1⟩

/-- The date `n` days after 1970-01-01. `datetime.now(timezone.utc)` (current_date_gmt_str.py:8) at
`n * 86400 ≤ t < (n+1) * 86400` seconds since the epoch. Modelled by its meaning (counting days),
not by CPython's arithmetic. -/
def dateOfDay : Nat → Date
  | 0 => ⟨1970, 1, 1⟩
  | n + 1 => (dateOfDay n).next

/-- `current_date_gmt_string()` at a moment, in seconds since the epoch (current_date_gmt_str.py:4-10) -/
def currentDateString (seconds : Nat) : List Char := dateString (dateOfDay (seconds / 86400))

end Pyth.Dates
