import Verif.Model.Actions

/-!
# What the action maps should hold

Stated with `get` and `size` of the maps and the list of actions passed to the API.
-/

namespace Finmod.Spec
open Go

/-- The actions of each kind passed in by a history of calls, in order. -/
def addedCreate (cs : List ActionCall) : List CreateOrderAction :=
  cs.flatMap fun | .create l => l | _ => []
def addedUpdate (cs : List ActionCall) : List UpdateOrderAction :=
  cs.flatMap fun | .update l => l | _ => []
def addedCancel (cs : List ActionCall) : List CancelOrderAction :=
  cs.flatMap fun | .cancel l => l | _ => []
def addedUpdatePos (cs : List ActionCall) : List UpdatePositionAction :=
  cs.flatMap fun | .updatePos l => l | _ => []
def addedClosePos (cs : List ActionCall) : List ClosePositionAction :=
  cs.flatMap fun | .closePos l => l | _ => []
def addedAnnotations (cs : List ActionCall) : List Annotation :=
  cs.flatMap fun | .annotate l => l | _ => []

/-- Every entry is an action passed in with only its ID replaced, by its key. -/
def KeyedByID {α : Type} (withID : α → String → α) (m : GoMap α) (added : List α) : Prop :=
  ∀ k v, m.get k = some v → ∃ a ∈ added, v = withID a k

/-- There is one entry per action passed in: distinct keys, one for each, and no other entry. -/
def NothingLost {α : Type} (withID : α → String → α) (m : GoMap α) (added : List α) : Prop :=
  m.size = added.length ∧ ∃ keys : List String, keys.Nodup ∧ keys.length = added.length ∧
    ∀ (i : Nat) (a : α) (k : String), added[i]? = some a → keys[i]? = some k → m.get k = some (withID a k)

/-- The entries of `m` are still in `m'`. -/
def Keeps {α : Type} (m m' : GoMap α) : Prop := ∀ k v, m.get k = some v → m'.get k = some v

end Finmod.Spec
