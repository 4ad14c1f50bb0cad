import Verif.Model.Nil

/-!
# Printing a pointer with `fmt`

All `String` methods of `/repo` have pointer receivers, so `fmt` calls them when it is given a pointer. It recovers from a
panic of the method (`fmt/print.go`, `handleMethods` and `catchPanic`).
-/

namespace Finmod
open Go

/-- `fmt/print.go` `catchPanic`, for a `String` method: `<nil>` if the pointer is nil, else the verb and the panic. -/
def catchPanic (verb : String) (isNil : Bool) (cause : String) : List UInt8 :=
  if isNil then bytes "<nil>" else bytes ("%!" ++ verb ++ "(PANIC=String method: " ++ cause ++ ")")

/-- `fmt/print.go` `handleMethods`: a pointer with a `String` method, printed with the verb `v` or `s`. `cause` is the text of
the panic, should the method panic for a pointer that is not nil. -/
def printPtr {α : Type} (string : Ptr α → Res (List UInt8)) (cause : α → String) (verb : String) (p : Ptr α) : List UInt8 :=
  match string p with
  | .ok text => text
  | .err _ text => text
  | .panic => match p with
    | none => catchPanic verb true ""
    | some a => catchPanic verb false (cause a)

/-- The text of the panic of `*nil`. -/
def nilDereference : String := "runtime error: invalid memory address or nil pointer dereference"

/-- The text of the panic of `s[0:high]` for a string of fewer bytes. -/
def sliceBounds (high len : Nat) : String :=
  "runtime error: slice bounds out of range [:" ++ toString high ++ "] with length " ++ toString len

/-- market/position.go:99-113: the panic of `p.ID[0:8]`. -/
def Position.stringCause (p : Position) : String := sliceBounds 8 (bytes p.id).length

/-- market/balances.go:33-35: the panic of `b.Asset.String()`, which reads through a nil pointer. -/
def Balance.stringCause (_ : Balance) : String := nilDereference

end Finmod
