import Verif.Go.Heap
import Verif.Model.Actions

/-!
# Model of `strategy/actions.go` over shared memory

A Go map is a reference: a copy of an `Actions` has the same maps (those that are not nil), and the same array of annotations.
-/

namespace Finmod
open Go

/-- Memory for maps of one type: the entries of every map, and the first unused address. -/
structure Maps (V : Type) where
  cell : Nat → List (String × V)
  next : Nat

namespace Maps
variable {V : Type}
/-- What a map variable shows: nil, or the entries at its address. -/
def shown (M : Maps V) (m : Option Nat) : GoMap V := m.map M.cell
/-- `map[string]V{}` -/
def new (M : Maps V) : Maps V := ⟨Function.update M.cell M.next [], M.next + 1⟩
/-- `m[k] = v` for the map at `a`, see `GoMap.set`. -/
def set (M : Maps V) (a : Nat) (k : String) (v : V) : Maps V :=
  { M with cell := Function.update M.cell a ((k, v) :: (M.cell a).filter (fun e => e.1 ≠ k)) }
end Maps

/-- The memory behind all `Actions`. -/
structure ActMem where
  create : Maps CreateOrderAction
  update : Maps UpdateOrderAction
  cancel : Maps CancelOrderAction
  updatePos : Maps UpdatePositionAction
  closePos : Maps ClosePositionAction
  notes : Heap Annotation

/-- strategy/actions.go:4-11 `Actions`: maps are nil or an address, `annotations` is a slice header. -/
structure HActions where
  createOrders : Option Nat
  updateOrders : Option Nat
  cancelOrders : Option Nat
  updatePositions : Option Nat
  closePositions : Option Nat
  annotations : Slice
deriving DecidableEq

/-- What an `Actions` shows. -/
def HActions.value (M : ActMem) (a : HActions) : Actions :=
  { createOrders := M.create.shown a.createOrders, updateOrders := M.update.shown a.updateOrders,
    cancelOrders := M.cancel.shown a.cancelOrders, updatePositions := M.updatePos.shown a.updatePositions,
    closePositions := M.closePos.shown a.closePositions, annotations := M.notes.load a.annotations }

/-- strategy/actions.go:18-21 (and alike): the loop of an Add method, for the map at `a`. -/
def addLoopH {α : Type} (gen : Nat → String) (generateID : α → String → α) (idOf : α → String) (a : Nat) :
    Nat → Maps α → List α → Nat × Maps α
  | n, M, [] => (n, M)
  | n, M, action :: rest =>
    let action := generateID action (gen n)
    addLoopH gen generateID idOf a (n + 1) (M.set a (idOf action) action) rest

/-- strategy/actions.go:13-22 (and alike): a nil map is replaced by a new one, then the loop. -/
def addMapH {α : Type} (gen : Nat → String) (generateID : α → String → α) (idOf : α → String) (n : Nat) (M : Maps α)
    (m : Option Nat) (actions : List α) : Nat × Maps α × Option Nat :=
  match m with
  | none => let r := addLoopH gen generateID idOf M.next n M.new actions; (r.1, r.2, some M.next)
  | some a => let r := addLoopH gen generateID idOf a n M actions; (r.1, r.2, some a)

/-- The Add methods, strategy/actions.go:13-70, on a receiver in memory. -/
def callActionsH (gen : Nat → String) (grow : Nat → Nat → Nat) (n : Nat) (M : ActMem) (a : HActions) :
    ActionCall → Nat × ActMem × HActions
  | .create l =>
    let r := addMapH gen CreateOrderAction.generateID CreateOrderAction.id n M.create a.createOrders l
    (r.1, { M with create := r.2.1 }, { a with createOrders := r.2.2 })
  | .update l =>
    let r := addMapH gen UpdateOrderAction.generateID UpdateOrderAction.id n M.update a.updateOrders l
    (r.1, { M with update := r.2.1 }, { a with updateOrders := r.2.2 })
  | .cancel l =>
    let r := addMapH gen CancelOrderAction.generateID CancelOrderAction.id n M.cancel a.cancelOrders l
    (r.1, { M with cancel := r.2.1 }, { a with cancelOrders := r.2.2 })
  | .updatePos l =>
    let r := addMapH gen UpdatePositionAction.generateID UpdatePositionAction.id n M.updatePos a.updatePositions l
    (r.1, { M with updatePos := r.2.1 }, { a with updatePositions := r.2.2 })
  | .closePos l =>
    let r := addMapH gen ClosePositionAction.generateID ClosePositionAction.id n M.closePos a.closePositions l
    (r.1, { M with closePos := r.2.1 }, { a with closePositions := r.2.2 })
  | .annotate l =>
    let r := M.notes.append grow a.annotations l
    (n, { M with notes := r.1 }, { a with annotations := r.2 })

/-- A history of calls on one receiver. -/
def runActionsH (gen : Nat → String) (grow : Nat → Nat → Nat) (n : Nat) (M : ActMem) (a : HActions) :
    List ActionCall → Nat × ActMem × HActions
  | [] => (n, M, a)
  | c :: cs => let r := callActionsH gen grow n M a c; runActionsH gen grow r.1 r.2.1 r.2.2 cs

/-- Two `Actions` in one memory; each call goes to the first (`true`) or the second. -/
def runTwoActionsH (gen : Nat → String) (grow : Nat → Nat → Nat) (n : Nat) (M : ActMem) (a b : HActions) :
    List (Bool × ActionCall) → Nat × ActMem × HActions × HActions
  | [] => (n, M, a, b)
  | (true, c) :: cs => let r := callActionsH gen grow n M a c; runTwoActionsH gen grow r.1 r.2.1 r.2.2 b cs
  | (false, c) :: cs => let r := callActionsH gen grow n M b c; runTwoActionsH gen grow r.1 r.2.1 a r.2.2 cs

end Finmod
