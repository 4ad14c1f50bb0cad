import Verif.Model.Candle

/-!
# Model of `Tick.GetLocalTime` and `Tick.GetLocationTime` (`strategy/strategy.go`)

Of a `Tick` only the candle pointer is used by these methods.
-/

namespace Go

/-- Seconds between Go's internal zero (year 1) and the Unix epoch: `unixToInternal` of package
time. -/
def unixToInternal : Int := 62135596800

/-- `time.Time` without a monotonic reading: `ext` is int64 seconds since year 1, `nsec` the
nanoseconds, `loc` the name of the location it is displayed in. -/
structure Time where
  ext : Int
  nsec : Int
  loc : String
deriving DecidableEq, Repr

/-- `time.Time{}`. -/
def zeroTime : Time := ⟨0, 0, "UTC"⟩

/-- `time.Unix(sec, 0)`: int64 addition wraps. -/
def timeUnix (sec : Int) : Time := ⟨wrap64 (sec + unixToInternal), 0, "Local"⟩

/-- `t.Unix()`. -/
def Time.unix (t : Time) : Int := wrap64 (t.ext - unixToInternal)

/-- `t.UnixNano()` without overflow: the instant as an integer number of nanoseconds. -/
def Time.nanos (t : Time) : Int := t.unix * 1000000000 + t.nsec

/-- `t.Before(u)` for times without monotonic readings. -/
def Time.before (t u : Time) : Bool := decide (t.ext < u.ext ∨ (t.ext = u.ext ∧ t.nsec < u.nsec))

/-- `t.Equal(u)`. -/
def Time.equal (t u : Time) : Bool := decide (t.ext = u.ext ∧ t.nsec = u.nsec)

/-- `t.In(loc)`. -/
def Time.inLoc (t : Time) (loc : String) : Time := { t with loc := loc }

/-- `strings.Contains(name, "..")`. -/
def hasDotDot : List Char → Bool
  | '.' :: '.' :: _ => true
  | _ :: cs => hasDotDot cs
  | [] => false

/-- `time.LoadLocation`: the names "" and "UTC" are UTC, "Local" is the local zone, names with
".." or starting with a slash or backslash are refused, every other name is looked up in the zone
database `zones`, an arbitrary predicate. -/
def loadLocation (zones : String → Bool) (name : String) : Option String :=
  if name = "" ∨ name = "UTC" then some "UTC"
  else if name = "Local" then some "Local"
  else if hasDotDot name.toList ∨ name.toList.head? = some '/' ∨ name.toList.head? = some '\\' then none
  else if zones name then some name
  else none

end Go

namespace Finmod
open Go

/-- strategy/strategy.go:11-18 `Tick`: the candle pointer. -/
structure Tick where
  candle : Option Candle

/-- strategy/strategy.go:21-23 `GetLocalTime`: a nil candle panics. -/
def Tick.getLocalTime (t : Tick) : Res Time :=
  match t.candle with
  | none => .panic
  | some c => .ok (timeUnix c.time)

/-- strategy/strategy.go:26-37 `GetLocationTime`. -/
def Tick.getLocationTime (zones : String → Bool) (t : Tick) (location : String) : Res Time :=
  match loadLocation zones location with
  | none => .err .external zeroTime
  | some loc =>
    match t.candle with
    | none => .panic
    | some c => .ok ((timeUnix c.time).inLoc loc)

end Finmod
