import Verif.Model.Date
import Verif.Go.Text

/-!
# How `time.Time` is written: `MarshalJSON`

The fields of type `time.Time` of `/repo` (market/trade.go:14, market/order.go:64-65,
market/position.go:44-45) are written by package time: `AppendFormat` with the layout
"2006-01-02T15:04:05.999999999Z07:00", after the check that the year has four digits.

An instant is given as nanoseconds since 1970-01-01 UTC, the zone it is displayed in by its offset
east of UTC in seconds at that instant. Offsets are below 24 hours (newer Go versions return an error
otherwise).
-/

namespace Go

/-- `absDate`: the year counted from the absolute zero year, and the day of the year, by 400-, 100-,
4- and 1-year cycles. -/
def absYear (d : Nat) : Nat × Nat :=
  let n := d / 146097
  let y := 400 * n
  let d := d - 146097 * n
  let n := d / 36524
  let n := n - n / 4
  let y := y + 100 * n
  let d := d - 36524 * n
  let n := d / 1461
  let y := y + 4 * n
  let d := d - 1461 * n
  let n := d / 365
  let n := n - n / 4
  (y + n, d - 365 * n)

/-- `absDate`: month and day from the day of the year; the month is estimated as if all had 31
days. -/
def monthDay (leap : Bool) (yday : Nat) : Nat × Nat :=
  if leap = true ∧ yday = 59 then (2, 29)
  else
    let day := if leap = true ∧ 59 < yday then yday - 1 else yday
    let month := day / 31
    let stop := daysBefore.getD (month + 1) 0
    if stop ≤ day then (month + 2, day - stop + 1) else (month + 1, day - daysBefore.getD month 0 + 1)

/-- `appendInt`: at least `width` digits. -/
def padInt (width n : Nat) : List Char :=
  List.replicate (width - (Nat.toDigits 10 n).length) '0' ++ Nat.toDigits 10 n

/-- The fraction ".999999999": nine digits without trailing zeros, nothing if all are zero. -/
def fmtFraction (nsec : Nat) : List Char :=
  match ((padInt 9 nsec).reverse.dropWhile fun c => c == '0').reverse with
  | [] => []
  | ds => '.' :: ds

/-- The zone "Z07:00": whole minutes, rounded towards zero. -/
def fmtZone (off : Int) : List Char :=
  if off = 0 then ['Z']
  else
    let zone := off.tdiv 60
    (if zone < 0 then '-' else '+') :: (padInt 2 (zone.natAbs / 60) ++ ':' :: padInt 2 (zone.natAbs % 60))

/-- `absoluteZeroYear`, as a positive number. -/
def absZeroYear : Nat := 292277022399

/-- `t.abs()`: seconds since the absolute zero year on the clock of the zone, a uint64. -/
def absSeconds (off ns : Int) : Nat :=
  ((ns / 1000000000 + off + (62135596800 + 9223371966579724800)) % 2 ^ 64).toNat

/-- `t.MarshalJSON()` without the quotes; `none` is the error "year outside of range [0,9999]". -/
def writeTime (off ns : Int) : Option (List Char) :=
  let abs := absSeconds off ns
  let y := absYear (abs / 86400)
  if y.1 < absZeroYear ∨ absZeroYear + 10000 ≤ y.1 then none
  else
    let year := y.1 - absZeroYear
    let md := monthDay (isLeap year) y.2
    let sec := abs % 86400
    some (padInt 4 year ++ '-' :: (padInt 2 md.1 ++ '-' :: (padInt 2 md.2 ++ 'T' :: (padInt 2 (sec / 3600) ++
      ':' :: (padInt 2 (sec % 3600 / 60) ++ ':' :: (padInt 2 (sec % 60) ++
        (fmtFraction (ns % 1000000000).toNat ++ fmtZone off)))))))

/-- `UnmarshalJSON` of the text inside the quotes: the instant read. -/
def readTime (s : List Char) : Option Int :=
  (parseRFC3339 s).map fun t => (t.ext - unixToInternal) * 1000000000 + t.nsec

end Go
