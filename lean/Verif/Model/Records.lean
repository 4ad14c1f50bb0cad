import Verif.Model.Order
import Verif.Model.Actions

/-!
# Model of the database records: `GetSchema`, `GetID`, `Update` of Trade, Order, Position and
Annotation, and `NewAnnotation`

The receiver is a non-nil pointer. Struct assignment copies every field; the slices and pointers
inside are shared, which is modelled in `Model/HeapPosition.lean`.
-/

namespace Finmod
open Go

/-- A value of type `interface{}`: a pointer to one of the four records (`none` is a typed nil
pointer), the nil interface, or a value of any other dynamic type, such as a struct passed by
value. -/
inductive AnyVal where
  | tradePtr (p : Option Trade)
  | orderPtr (p : Option Order)
  | positionPtr (p : Option Position)
  | annotationPtr (p : Option Annotation)
  | nilInterface
  | other (typeName : String)
deriving DecidableEq, Repr

/-- The type assertions `i.(*T)`: `none` when `ok` is false. -/
def AnyVal.asTrade : AnyVal → Option (Option Trade) | .tradePtr p => some p | _ => none
def AnyVal.asOrder : AnyVal → Option (Option Order) | .orderPtr p => some p | _ => none
def AnyVal.asPosition : AnyVal → Option (Option Position) | .positionPtr p => some p | _ => none
def AnyVal.asAnnotation : AnyVal → Option (Option Annotation) | .annotationPtr p => some p | _ => none

/-- market/trade.go:62-73 `Trade.Update`; the result carries the receiver after the call. -/
def Trade.update (t : Trade) (i : AnyVal) : Res Trade :=
  match i.asTrade with
  | none => .err .einvalid t
  | some none => .panic
  | some (some trade) => .ok trade

/-- market/order.go:84-95 `Order.Update`. -/
def Order.update (o : Order) (i : AnyVal) : Res Order :=
  match i.asOrder with
  | none => .err .einvalid o
  | some none => .panic
  | some (some order) => .ok order

/-- market/position.go:86-97 `Position.Update`. -/
def Position.update (p : Position) (i : AnyVal) : Res Position :=
  match i.asPosition with
  | none => .err .einvalid p
  | some none => .panic
  | some (some position) => .ok position

/-- strategy/annotation.go:56-67 `Annotation.Update`. -/
def Annotation.update (a : Annotation) (i : AnyVal) : Res Annotation :=
  match i.asAnnotation with
  | none => .err .einvalid a
  | some none => .panic
  | some (some model) => .ok model

/-- `interfaces.Schema` of the state package: the two fields used. -/
structure Schema where
  name : String
  pkey : String
deriving DecidableEq, Repr

/-- market/trade.go:52-54, market/order.go:74-76, market/position.go:76-78,
strategy/annotation.go:46-48 `GetSchema`: they read nothing of the receiver. -/
def Trade.getSchema (_ : Trade) : Schema := ⟨"trades", "id"⟩
def Order.getSchema (_ : Order) : Schema := ⟨"orders", "id"⟩
def Position.getSchema (_ : Position) : Schema := ⟨"positions", "id"⟩
def Annotation.getSchema (_ : Annotation) : Schema := ⟨"annotations", "id"⟩

/-- market/trade.go:57-59, market/order.go:79-81, market/position.go:81-83,
strategy/annotation.go:51-53 `GetID`. -/
def Trade.getID (t : Trade) : String := t.id
def Order.getID (o : Order) : String := o.id
def Position.getID (p : Position) : String := p.id
def Annotation.getID (a : Annotation) : String := a.id

/-- strategy/annotation.go:69-77 `NewAnnotation`; `id` is the fresh xid. -/
def newAnnotation (id : String) (t : Int) (price : Fl) (label tooltip : String) : Annotation :=
  { id := id, time := t, creationTime := 0, price := price, executionID := "", label := label,
    tooltip := tooltip }

end Finmod
