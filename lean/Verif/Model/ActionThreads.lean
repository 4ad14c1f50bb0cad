import Verif.Go.Threads
import Verif.Model.Actions

/-!
# `strategy/actions.go` access by access, for goroutines

An `Actions` is at an address `a` of memory: five map variables (nil or the address of a map) and the header of the annotations. A
map is one cell. Assignment to an entry reads the map and writes it; the Go runtime does not allow this to two
goroutines at a time (it may end the program). `xid.New` is safe for goroutines: it is one step, which uses up a number as a new array
does, and its result is `gen` of the number.
-/

namespace Finmod
open Go

/-- An action of one of the five kinds that are kept in maps. -/
inductive AnyAction where
  | create (x : CreateOrderAction)
  | update (x : UpdateOrderAction)
  | cancel (x : CancelOrderAction)
  | updatePos (x : UpdatePositionAction)
  | closePos (x : ClosePositionAction)
deriving DecidableEq

namespace AnyAction
/-- `action.ID` -/
def id : AnyAction → String
  | .create x => x.id
  | .update x => x.id
  | .cancel x => x.id
  | .updatePos x => x.id
  | .closePos x => x.id
/-- strategy/order_actions.go:20-22, 34-36, 43-45 and strategy/position_actions.go:19-21, 28-30 `GenerateID` -/
def generateID : AnyAction → String → AnyAction
  | .create x, s => .create (x.generateID s)
  | .update x, s => .update (x.generateID s)
  | .cancel x, s => .cancel (x.generateID s)
  | .updatePos x, s => .updatePos (x.generateID s)
  | .closePos x, s => .closePos (x.generateID s)
end AnyAction

/-- A memory cell: a map variable, a map, a slice header, or an annotation. -/
inductive ACell where
  | ptr (m : Option Nat)
  | map (entries : List (String × AnyAction))
  | notes (s : Slice)
  | note (x : Annotation)
deriving DecidableEq

namespace ACell
/-- The map variable in a cell. -/
def asPtr : ACell → Option Nat | .ptr m => m | _ => none
/-- The entries of the map in a cell. -/
def asMap : ACell → List (String × AnyAction) | .map es => es | _ => []
/-- The slice header in a cell. -/
def asNotes : ACell → Slice | .notes s => s | _ => Slice.empty
end ACell

/-- `m[k] = v` on the entries, see `GoMap.set`. -/
def setEntry (es : List (String × AnyAction)) (x : AnyAction) : List (String × AnyAction) :=
  (x.id, x) :: es.filter (fun e => e.1 ≠ x.id)

/-- strategy/actions.go:18-21 (and alike): the loop of an Add method of map variable `f`. `none` is the panic of a nil map. -/
def addActLoopP (gen : Nat → String) (a f : Nat) : List AnyAction → HProg ACell (Option Unit)
  | [] => .done (some ())
  | x :: rest => .alloc fun n => .get a f fun c => match c.asPtr with
    | none => .done none
    | some m => .get m 0 fun c => .put m 0 (.map (setEntry c.asMap (x.generateID (gen n)))) (addActLoopP gen a f rest)

/-- strategy/actions.go:13-22 (and alike). -/
def addActP (gen : Nat → String) (a f : Nat) (l : List AnyAction) : HProg ACell (Option Unit) :=
  .get a f fun c => match c.asPtr with
    | none => .alloc fun m => .put m 0 (.map []) (.put a f (.ptr (some m)) (addActLoopP gen a f l))
    | some _ => addActLoopP gen a f l

/-- strategy/actions.go:68-70 `AddAnnotations`. -/
def annotateP (grow : Nat → Nat → Nat) (a : Nat) (l : List Annotation) : HProg ACell (Option Unit) :=
  .get a 5 fun c => (HProg.append grow c.asNotes (l.map .note)).bind fun s => .put a 5 (.notes s) (.done (some ()))

/-- The Add methods, strategy/actions.go:13-70; the fields in the order of strategy/actions.go:5-10. -/
def callActP (gen : Nat → String) (grow : Nat → Nat → Nat) (a : Nat) : ActionCall → HProg ACell (Option Unit)
  | .create l => addActP gen a 0 (l.map .create)
  | .update l => addActP gen a 1 (l.map .update)
  | .cancel l => addActP gen a 2 (l.map .cancel)
  | .updatePos l => addActP gen a 3 (l.map .updatePos)
  | .closePos l => addActP gen a 4 (l.map .closePos)
  | .annotate l => annotateP grow a l

/-- A history of calls on the `Actions` at `a`. -/
def runActP (gen : Nat → String) (grow : Nat → Nat → Nat) (a : Nat) : List ActionCall → HProg ACell (Option Unit)
  | [] => .done (some ())
  | c :: cs => (callActP gen grow a c).bind fun o => match o with
    | none => .done none
    | some _ => runActP gen grow a cs

end Finmod
