import Verif.Model.Tick

/-!
# Model of `utils/date.go`

`RawDateToRFC3339(date)` is `time.Parse(time.RFC3339, date+"T00:00:00Z")`. A Go string is a list of
characters, each standing for one byte. The parser is package time's `parse` for the layout
"2006-01-02T15:04:05Z07:00", one function per layout element. (The faster parser tried first by
newer Go versions accepts a subset of this with the same result.)
-/

namespace Go

/-- `isDigit`, on one byte. -/
def digitChar (c : Char) : Bool := decide (48 ≤ c.toNat ∧ c.toNat ≤ 57)

/-- Value of a digit. -/
def digitVal (c : Char) : Nat := c.toNat - 48

/-- The literal parts of the layout: `skip`. -/
def skipChar (p : Char) : List Char → Option (List Char)
  | c :: cs => if c = p then some cs else none
  | [] => none

/-- `getnum(s, true)`: two digits. -/
def getnum2 : List Char → Option (Nat × List Char)
  | a :: b :: cs => if digitChar a && digitChar b then some (digitVal a * 10 + digitVal b, cs) else none
  | _ => none

/-- `getnum(s, false)`: one or two digits. -/
def getnum1 : List Char → Option (Nat × List Char)
  | a :: b :: cs =>
    if digitChar a then
      if digitChar b then some (digitVal a * 10 + digitVal b, cs) else some (digitVal a, b :: cs)
    else none
  | [a] => if digitChar a then some (digitVal a, []) else none
  | [] => none

/-- `stdLongYear`: four digits (`atoi` of the first four bytes, the first of which must be a
digit). -/
def getYear : List Char → Option (Nat × List Char)
  | a :: b :: c :: d :: cs =>
    if digitChar a && digitChar b && digitChar c && digitChar d then
      some (digitVal a * 1000 + digitVal b * 100 + digitVal c * 10 + digitVal d, cs)
    else none
  | _ => none

/-- `stdZeroSecond`, the special case: a fraction after the seconds is accepted although the layout
has none. The digits' value in nanoseconds (at most nine are used) and the rest. -/
def getFraction : List Char → Nat × List Char
  | p :: a :: cs =>
    if (p = '.' ∨ p = ',') ∧ digitChar a then
      let ds := a :: cs.takeWhile digitChar
      let ds9 := (ds ++ List.replicate 9 '0').take 9
      (ds9.foldl (fun n c => n * 10 + digitVal c) 0, cs.dropWhile digitChar)
    else (0, p :: a :: cs)
  | s => (0, s)

/-- `stdISO8601ColonTZ`: "Z", or a sign and hh:mm. The offset east of UTC in seconds. -/
def getZone : List Char → Option (Int × List Char)
  | 'Z' :: cs => some (0, cs)
  | s :: a :: b :: ':' :: c :: d :: cs =>
    if digitChar a && digitChar b && digitChar c && digitChar d then
      let off : Int := ((digitVal a * 10 + digitVal b) * 60 + (digitVal c * 10 + digitVal d)) * 60
      if s = '+' then some (off, cs) else if s = '-' then some (-off, cs) else none
    else none
  | _ => none

/-- Leap years, `isLeap`. -/
def isLeap (year : Nat) : Bool := year % 4 == 0 && (year % 100 != 0 || year % 400 == 0)

/-- `daysBefore` of package time. -/
def daysBefore : List Nat := [0, 31, 59, 90, 120, 151, 181, 212, 243, 273, 304, 334, 365]

/-- `daysIn(month, year)`. -/
def daysIn (month year : Nat) : Nat :=
  if month = 2 ∧ isLeap year = true then 29
  else daysBefore.getD month 0 - daysBefore.getD (month - 1) 0

/-- `daysSinceEpoch(year)`: days from the absolute zero year -292277022399, by 400-, 100-, 4- and
1-year cycles. -/
def daysSinceEpoch (year : Nat) : Nat :=
  let y := year + 292277022399
  let n := y / 400
  let y := y - 400 * n
  let d := 146097 * n
  let n := y / 100
  let y := y - 100 * n
  let d := d + 36524 * n
  let n := y / 4
  let y := y - 4 * n
  let d := d + 1461 * n
  d + 365 * y

/-- `Date(year, month, day, hour, min, sec, nsec, UTC)` for parsed fields, `int64` arithmetic
wraps. -/
def goDate (year month day hour min sec nsec : Nat) : Time :=
  let d := daysSinceEpoch year + daysBefore.getD (month - 1) 0
  let d := if isLeap year = true ∧ 3 ≤ month then d + 1 else d
  let d := d + (day - 1)
  let abs : Int := d * 86400 + (hour * 3600 + min * 60 + sec)
  let unix := wrap64 (abs + (-9223371966579724800 + -62135596800))
  ⟨wrap64 (unix + unixToInternal), nsec, "UTC"⟩

/-- The part of the layout after the date: hour, minute, second, fraction, zone, end of input. -/
def parseClock (v : List Char) : Option (Nat × Nat × Nat × Nat × Int) :=
  (getnum1 v).bind fun (hour, v) =>
  if 24 ≤ hour then none else
  (skipChar ':' v).bind fun v =>
  (getnum2 v).bind fun (min, v) =>
  if 60 ≤ min then none else
  (skipChar ':' v).bind fun v =>
  (getnum2 v).bind fun (sec, v) =>
  if 60 ≤ sec then none else
  (getZone (getFraction v).2).bind fun (off, w) =>
  if w = [] then some (hour, min, sec, (getFraction v).1, off) else none

/-- `time.Parse(time.RFC3339, value)`: `none` is an error. -/
def parseRFC3339 (value : List Char) : Option Time :=
  (getYear value).bind fun (year, v) =>
  (skipChar '-' v).bind fun v =>
  (getnum2 v).bind fun (month, v) =>
  if month = 0 ∨ 12 < month then none else
  (skipChar '-' v).bind fun v =>
  (getnum2 v).bind fun (day, v) =>
  (skipChar 'T' v).bind fun v =>
  (parseClock v).bind fun (hour, min, sec, nsec, off) =>
  if day < 1 ∨ daysIn month year < day then none else
  some { goDate year month day hour min sec nsec with
    ext := wrap64 ((goDate year month day hour min sec nsec).ext - off) }

end Go

namespace Finmod
open Go

/-- utils/date.go:12, the text appended. -/
def midnightSuffix : List Char := ['T', '0', '0', ':', '0', '0', ':', '0', '0', 'Z']

/-- utils/date.go:9-18 `RawDateToRFC3339`. -/
def rawDateToRFC3339 (date : List Char) : Res Time :=
  match parseRFC3339 (date ++ midnightSuffix) with
  | none => .err .external zeroTime
  | some t => .ok t

end Finmod
