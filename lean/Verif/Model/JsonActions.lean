import Verif.Model.Json
import Verif.Model.Tick

/-!
# Maps in JSON: `Actions`, `AddAnnotationsAction` and `Tick`

These structs have no tags: the names are the Go names. Simplifications as in `Model/Json.lean`. A
map is written with its keys in ascending order of bytes, which is the order of the characters.
-/

namespace Go

/-- `m[k] = v` for a map that is not nil. -/
def GoMap.put {α : Type} (m : GoMap α) (k : String) (v : α) : GoMap α := (GoMap.set m k v).getD m

/-- `map[string]V`. A nil map is written as null, and null makes the map nil. An object is read into
the map as it is, or into a new one if it is nil: each member is read into a zero value and stored,
whether or not there was a type error, but not when reading stops. -/
def Codec.map {α : Type} (c : Codec α) : Codec (GoMap α) where
  zero := none
  enc
    | none => some .null
    | some l => ((l.mergeSort fun a b => decide (a.1 ≤ b.1)).mapM fun (e : String × α) =>
        (c.enc e.2).map fun j => (e.1.toList, j)).map .obj
  dec old
    | .null => (none, .none)
    | .obj ms => ms.foldl (fun st m => next st fun l =>
        if (c.dec c.zero m.2).2 = .stop then (l, .stop)
        else (GoMap.put l (String.ofList m.1) (c.dec c.zero m.2).1, (c.dec c.zero m.2).2)) (some (old.getD []), .none)
    | _ => (old, .type)

end Go

namespace Finmod
open Go

/-- strategy/annotation.go:10-12 `AddAnnotationsAction`. -/
structure AddAnnotationsAction where
  annotations : List Annotation
deriving DecidableEq, Repr

/-- strategy/strategy.go:11-18 `Tick`, with all its fields. -/
structure TickRecord where
  candle : Option Candle
  pendingActions : Option Actions
  openOrders : GoMap Order
  openPositions : GoMap Position
  closedPositions : GoMap Position
  capital : Fl
deriving DecidableEq, Repr

namespace Json

/-- strategy/actions.go:4-11 `Actions`: its fields. -/
def Env.actionsFields (E : Env) : List (JField Actions) := [
  Codec.field E.createOrderAction.map "CreateOrders" (·.createOrders) (fun r v => { r with createOrders := v }),
  Codec.field E.updateOrderAction.map "UpdateOrders" (·.updateOrders) (fun r v => { r with updateOrders := v }),
  Codec.field E.cancelOrderAction.map "CancelOrders" (·.cancelOrders) (fun r v => { r with cancelOrders := v }),
  Codec.field E.updatePositionAction.map "UpdatePositions" (·.updatePositions) (fun r v => { r with updatePositions := v }),
  Codec.field E.closePositionAction.map "ClosePositions" (·.closePositions) (fun r v => { r with closePositions := v }),
  Codec.field (Codec.slice (E.isNil "Annotations") (E.stale _ "Annotations") E.annotation) "Annotations" (·.annotations) (fun r v => { r with annotations := v })]

/-- `Actions` as JSON. -/
def Env.actions (E : Env) : Codec Actions := Codec.struct zeroActions E.actionsFields

/-- strategy/annotation.go:10-12 `AddAnnotationsAction`: its field. -/
def Env.addAnnotationsActionFields (E : Env) : List (JField AddAnnotationsAction) := [
  Codec.field (Codec.slice (E.isNil "Annotations") (E.stale _ "Annotations") E.annotation) "Annotations" (·.annotations) (fun r v => { r with annotations := v })]

/-- `AddAnnotationsAction` as JSON. -/
def Env.addAnnotationsAction (E : Env) : Codec AddAnnotationsAction := Codec.struct ⟨[]⟩ E.addAnnotationsActionFields

/-- strategy/strategy.go:11-18 `Tick`: its fields. -/
def Env.tickFields (E : Env) : List (JField TickRecord) := [
  Codec.field E.candle.ptr "Candle" (·.candle) (fun r v => { r with candle := v }),
  Codec.field E.actions.ptr "PendingActions" (·.pendingActions) (fun r v => { r with pendingActions := v }),
  Codec.field E.order.map "OpenOrders" (·.openOrders) (fun r v => { r with openOrders := v }),
  Codec.field E.position.map "OpenPositions" (·.openPositions) (fun r v => { r with openPositions := v }),
  Codec.field E.position.map "ClosedPositions" (·.closedPositions) (fun r v => { r with closedPositions := v }),
  Codec.field E.float "Capital" (·.capital) (fun r v => { r with capital := v })]

/-- `Tick` as JSON. -/
def Env.tick (E : Env) : Codec TickRecord := Codec.struct ⟨none, none, none, none, none, .fin 0⟩ E.tickFields

end Json
end Finmod
