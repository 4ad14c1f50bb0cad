import Verif.Model.TimeText

/-!
# How `time.Time` is printed: its `String` method

`%s` of a `time.Time` is `Format("2006-01-02 15:04:05.999999999 -0700 MST")` (market/candle.go:25,
market/trade.go:77, market/order.go:117-118, market/position.go:109-110). As in
`Model/TimeText.lean` an instant is given in nanoseconds since 1970-01-01 UTC and the zone by its
offset at that instant, here with its abbreviation, which may be empty. Times with a monotonic clock
reading (from `time.Now`), after which `String` adds that reading, are not modelled.
-/

namespace Go

/-- `appendInt` of the year: a sign and at least four digits. -/
def fmtYear (y : Int) : List Char := if y < 0 then '-' :: padInt 4 y.natAbs else padInt 4 y.natAbs

/-- The zone "-0700": whole minutes, rounded towards zero. -/
def fmtNumZone (off : Int) : List Char :=
  let zone := off.tdiv 60
  (if zone < 0 then '-' else '+') :: (padInt 2 (zone.natAbs / 60) ++ padInt 2 (zone.natAbs % 60))

/-- The zone "MST": the abbreviation, or as "-0700" if there is none. -/
def fmtZoneName (off : Int) (name : List Char) : List Char := if name = [] then fmtNumZone off else name

/-- `t.String()`. -/
def timeString (off : Int) (name : List Char) (ns : Int) : List Char :=
  let abs := absSeconds off ns
  let y := absYear (abs / 86400)
  let year : Int := y.1 - absZeroYear
  let md := monthDay (isLeap year.natAbs) y.2
  let sec := abs % 86400
  fmtYear year ++ '-' :: (padInt 2 md.1 ++ '-' :: (padInt 2 md.2 ++ ' ' :: (padInt 2 (sec / 3600) ++
    ':' :: (padInt 2 (sec % 3600 / 60) ++ ':' :: (padInt 2 (sec % 60) ++
      (fmtFraction (ns % 1000000000).toNat ++ ' ' :: (fmtNumZone off ++ ' ' :: fmtZoneName off name)))))))

/-- A time zone, `time.Location`: offset and abbreviation at each instant. -/
abbrev Zone := Int → Int × List Char

/-- `%s` of a time displayed in a zone. -/
def Zone.text (z : Zone) (ns : Int) : String := String.ofList (timeString (z ns).1 (z ns).2 ns)

/-- `%s` of `time.Unix(sec, 0)`, which is displayed in the local zone. -/
def Zone.unixText (z : Zone) (sec : Int) : String := z.text (sec * 1000000000)

end Go
