import Verif.Go.Map
import Verif.Model.Position

/-!
# Model of `strategy/actions.go`, `order_actions.go`, `position_actions.go`

`xid.New().String()` is the parameter `gen : Nat → String`: the result of its n-th call. The
counter of calls is threaded through the functions. The receiver `*Actions` is not nil.
-/

namespace Finmod
open Go

/-- strategy/order_actions.go:8-18 `CreateOrderAction`. -/
structure CreateOrderAction where
  id : String
  symbol : String
  actionType : String
  orderType : String
  price : Fl
  volume : Fl
  stopLoss : Fl
  takeProfit : Fl
  slippage : Fl
deriving DecidableEq, Repr

/-- strategy/order_actions.go:24-32 `UpdateOrderAction`. -/
structure UpdateOrderAction where
  id : String
  orderID : String
  price : Fl
  volume : Fl
  stopLoss : Fl
  takeProfit : Fl
  slippage : Fl
deriving DecidableEq, Repr

/-- strategy/order_actions.go:38-41 `CancelOrderAction`. -/
structure CancelOrderAction where
  id : String
  orderID : String
deriving DecidableEq, Repr

/-- strategy/position_actions.go:8-17 `UpdatePositionAction`. -/
structure UpdatePositionAction where
  id : String
  positionID : String
  actionType : String
  orderType : String
  volume : Fl
  stopLoss : Fl
  takeProfit : Fl
  slippage : Fl
deriving DecidableEq, Repr

/-- strategy/position_actions.go:23-26 `ClosePositionAction`. -/
structure ClosePositionAction where
  id : String
  positionID : String
deriving DecidableEq, Repr

/-- strategy/annotation.go:23-31 `Annotation`. -/
structure Annotation where
  id : String
  time : Int
  creationTime : Int
  price : Fl
  executionID : String
  label : String
  tooltip : String
deriving DecidableEq, Repr

/-- strategy/actions.go:4-11 `Actions`. -/
structure Actions where
  createOrders : GoMap CreateOrderAction
  updateOrders : GoMap UpdateOrderAction
  cancelOrders : GoMap CancelOrderAction
  updatePositions : GoMap UpdatePositionAction
  closePositions : GoMap ClosePositionAction
  annotations : List Annotation
deriving DecidableEq, Repr

/-- The zero value `Actions{}`. -/
def zeroActions : Actions := ⟨none, none, none, none, none, []⟩

/-- strategy/order_actions.go:20-22, 34-36, 43-45 and strategy/position_actions.go:19-21, 28-30
`GenerateID`, on the loop's copy of the action. -/
def CreateOrderAction.generateID (a : CreateOrderAction) (id : String) := { a with id := id }
def UpdateOrderAction.generateID (a : UpdateOrderAction) (id : String) := { a with id := id }
def CancelOrderAction.generateID (a : CancelOrderAction) (id : String) := { a with id := id }
def UpdatePositionAction.generateID (a : UpdatePositionAction) (id : String) := { a with id := id }
def ClosePositionAction.generateID (a : ClosePositionAction) (id : String) := { a with id := id }

/-- The loop shared by the five Add methods: for each action (a copy), generate an ID and store
it under `idOf` of the copy. `none` is the panic of a nil map. -/
def addLoop {α : Type} (gen : Nat → String) (generateID : α → String → α) (idOf : α → String) :
    Nat → GoMap α → List α → Option (Nat × GoMap α)
  | n, m, [] => some (n, m)
  | n, m, action :: rest =>
    let action := generateID action (gen n)
    match GoMap.set m (idOf action) action with
    | none => none
    | some m => addLoop gen generateID idOf (n + 1) m rest

/-- Lines 14-16 (and alike): a nil map is replaced by an empty one. -/
def makeIfNil {α : Type} (m : GoMap α) : GoMap α :=
  match m with
  | none => some []
  | some l => some l

/-- strategy/actions.go:13-22 `AddCreateOrders`. -/
def addCreateOrders (gen : Nat → String) (n : Nat) (a : Actions) (actions : List CreateOrderAction) :
    Option (Nat × Actions) :=
  (addLoop gen CreateOrderAction.generateID CreateOrderAction.id n (makeIfNil a.createOrders) actions).map
    fun r => (r.1, { a with createOrders := r.2 })

/-- strategy/actions.go:24-33 `AddUpdateOrders`. -/
def addUpdateOrders (gen : Nat → String) (n : Nat) (a : Actions) (actions : List UpdateOrderAction) :
    Option (Nat × Actions) :=
  (addLoop gen UpdateOrderAction.generateID UpdateOrderAction.id n (makeIfNil a.updateOrders) actions).map
    fun r => (r.1, { a with updateOrders := r.2 })

/-- strategy/actions.go:35-44 `AddCancelOrders`. -/
def addCancelOrders (gen : Nat → String) (n : Nat) (a : Actions) (actions : List CancelOrderAction) :
    Option (Nat × Actions) :=
  (addLoop gen CancelOrderAction.generateID CancelOrderAction.id n (makeIfNil a.cancelOrders) actions).map
    fun r => (r.1, { a with cancelOrders := r.2 })

/-- strategy/actions.go:46-55 `AddUpdatePositions`. -/
def addUpdatePositions (gen : Nat → String) (n : Nat) (a : Actions) (actions : List UpdatePositionAction) :
    Option (Nat × Actions) :=
  (addLoop gen UpdatePositionAction.generateID UpdatePositionAction.id n (makeIfNil a.updatePositions) actions).map
    fun r => (r.1, { a with updatePositions := r.2 })

/-- strategy/actions.go:57-66 `AddClosePositions`. -/
def addClosePositions (gen : Nat → String) (n : Nat) (a : Actions) (actions : List ClosePositionAction) :
    Option (Nat × Actions) :=
  (addLoop gen ClosePositionAction.generateID ClosePositionAction.id n (makeIfNil a.closePositions) actions).map
    fun r => (r.1, { a with closePositions := r.2 })

/-- strategy/actions.go:68-70 `AddAnnotations`. -/
def addAnnotations (n : Nat) (a : Actions) (actions : List Annotation) : Option (Nat × Actions) :=
  some (n, { a with annotations := a.annotations ++ actions })

/-- One call of the API. -/
inductive ActionCall where
  | create (l : List CreateOrderAction)
  | update (l : List UpdateOrderAction)
  | cancel (l : List CancelOrderAction)
  | updatePos (l : List UpdatePositionAction)
  | closePos (l : List ClosePositionAction)
  | annotate (l : List Annotation)

/-- The method called. -/
def callActions (gen : Nat → String) (n : Nat) (a : Actions) : ActionCall → Option (Nat × Actions)
  | .create l => addCreateOrders gen n a l
  | .update l => addUpdateOrders gen n a l
  | .cancel l => addCancelOrders gen n a l
  | .updatePos l => addUpdatePositions gen n a l
  | .closePos l => addClosePositions gen n a l
  | .annotate l => addAnnotations n a l

/-- A history of calls on one receiver. -/
def runActions (gen : Nat → String) (n : Nat) (a : Actions) : List ActionCall → Option (Nat × Actions)
  | [] => some (n, a)
  | c :: cs =>
    match callActions gen n a c with
    | none => none
    | some r => runActions gen r.1 r.2 cs

end Finmod
