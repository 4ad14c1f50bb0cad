import Verif.Go.Text

/-!
# `%.kf` of a float64

`fmt` writes the decimal with `k` places that is nearest to the exact value, ties to an even last
digit, with all its digits before the point.
-/

namespace Go

/-- `%.kf` of a float64, for `k` from 1 on. -/
def fmtFixed (k : Nat) : Fl → List Char
  | .nan => ['N', 'a', 'N']
  | .inf false => ['+', 'I', 'n', 'f']
  | .inf true => ['-', 'I', 'n', 'f']
  | .negZero => '-' :: '0' :: '.' :: List.replicate k '0'
  | .fin q =>
    let ds := Nat.toDigits 10 (roundInt (|q| * 10 ^ k)).toNat
    let text := fmtF ds (ds.length - k)
    if q < 0 then '-' :: text else text

end Go
