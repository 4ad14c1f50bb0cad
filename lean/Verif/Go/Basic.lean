import Verif.Go.Float

/-!
# Go results, integers and slices
-/

namespace Go

/-- Error codes of the `ez` package used by the code (messages and op strings are dropped). -/
inductive ErrCode where
  | einvalid | enotfound | econflict | external
deriving DecidableEq, Repr

/-- Outcome of a Go call: a nil-error return, a return with an error (and the value returned
next to it), or a run-time panic. -/
inductive Res (α : Type) where
  | ok (v : α)
  | err (code : ErrCode) (v : α)
  | panic
deriving DecidableEq, Repr

namespace Res
/-- The call returned a nil error. -/
def isOk {α : Type} : Res α → Bool
  | ok _ => true
  | _ => false
/-- The call panicked. -/
def isPanic {α : Type} : Res α → Bool
  | panic => true
  | _ => false
end Res

/-- Two's complement wrap-around of int64 arithmetic. -/
def wrap64 (x : Int) : Int := Int.bmod x (2 ^ 64)

theorem wrap64_of_range {x : Int} (h1 : -2 ^ 63 ≤ x) (h2 : x < 2 ^ 63) : wrap64 x = x := by
  unfold wrap64
  apply Int.bmod_eq_of_le <;> omega

/-- Go truncating division and remainder. -/
def idiv (a b : Int) : Int := Int.tdiv a b
def imod (a b : Int) : Int := Int.tmod a b

/-- `math.Min` on floats. -/
def mathMin (x y : Fl) : Fl :=
  if x = .inf true ∨ y = .inf true then .inf true
  else if x = .nan ∨ y = .nan then .nan
  else if x.isZero ∧ y.isZero then (if x.sgn then x else y)
  else if Fl.lt x y then x else y

/-- `math.Max` on floats. -/
def mathMax (x y : Fl) : Fl :=
  if x = .inf false ∨ y = .inf false then .inf false
  else if x = .nan ∨ y = .nan then .nan
  else if x.isZero ∧ y.isZero then (if x.sgn then y else x)
  else if Fl.lt y x then x else y

/-- Go `copy(s[i+1:], s[i:])` inside one slice (memmove): elements from `i` move one place to
the right, the last one falls off. -/
def shiftRight {α : Type} (s : List α) (i : Nat) : List α :=
  s.take (i + 1) ++ (s.drop i).take (s.length - (i + 1))

end Go
