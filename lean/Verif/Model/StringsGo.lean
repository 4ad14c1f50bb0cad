import Verif.Model.Strings
import Verif.Go.Fixed

/-!
# The numbers that the `String` methods print
-/

namespace Finmod
open Go

/-- What `fmt` writes for numbers and booleans in the `String` methods of `Model/Strings.lean`. How
times are written stays a parameter (`Model/TimeString.lean` for a given zone), like the digits `pick` of `%v` and
the exponent `eprec` from which it uses scientific notation. -/
def Fmt.go (pick : ℚ → Nat × ℤ) (eprec : ℤ) (time unixTime : Int → String) : Fmt where
  f k x := String.ofList (fmtFixed k x)
  v x := String.ofList (fmtFloat pick eprec x)
  d n := String.ofList (fmtInt n)
  time := time
  unixTime := unixTime
  bool b := if b then "true" else "false"

end Finmod
