import Verif.Go.Basic

/-!
# Go maps

A Go `map[string]V` is a list of entries with distinct keys (kept by `set`), the order of which
is not observable through `get`, `size` and membership. `none` is the nil map.
-/

namespace Go

/-- `map[string]V`: `none` is nil. -/
abbrev GoMap (V : Type) := Option (List (String × V))

namespace GoMap
variable {V : Type}

/-- `m[k]` with the comma-ok form. -/
def get (m : GoMap V) (k : String) : Option V :=
  match m with
  | none => none
  | some l => l.lookup k

/-- `len(m)`. -/
def size (m : GoMap V) : Nat := (m.getD []).length

/-- `m[k] = v`; assignment to a nil map panics (`none`). -/
def set (m : GoMap V) (k : String) (v : V) : Option (GoMap V) :=
  match m with
  | none => none
  | some l => some (some ((k, v) :: l.filter (fun e => e.1 ≠ k)))

end GoMap
end Go
