import Verif.Go.Heap
import Verif.Model.Position

/-!
# Model of the `Trades` slice of `market/position.go` over shared memory

All fields other than `Trades` are those of `Model/Position.lean`.
-/

namespace Finmod
open Go

/-- market/position.go:33-49 `Position`: `rest` has every field but `Trades` (its own `trades` is not
read here), `log` is the header of `Trades`. -/
structure HPosition where
  rest : Position
  log : Slice
deriving DecidableEq

/-- market/position.go:52-73 `NewPosition`: `Trades: []string{trade.ID}` is a fresh array. -/
def hNewPosition (h : Heap String) (id : String) (zeroTime : Int) (trade : Trade) : Heap String × HPosition :=
  ({ h.store h.next 0 [trade.id] with next := h.next + 1 }, ⟨newPosition id zeroTime trade, ⟨h.next, 0, 1, 1⟩⟩)

/-- `p.Trades = append(p.Trades, trade.ID)` (market/position.go:152, 183), with the other fields. -/
def hLog (grow : Nat → Nat → Nat) (h : Heap String) (p : HPosition) (rest : Position) (trade : Trade) :
    Heap String × HPosition :=
  let r := h.append grow p.log [trade.id]
  (r.1, ⟨rest, r.2⟩)

/-- market/position.go:158-186 `substract` as called from `Modify` (its error is dropped). -/
def hSubstract (S : FloatSem) (grow : Nat → Nat → Nat) (h : Heap String) (p : HPosition) (trade : Trade) :
    Heap String × HPosition :=
  match posSubstract S p.rest trade with
  | .ok q => hLog grow h p q trade
  | .err _ _ => (h, p)
  | .panic => (h, p)

/-- market/position.go:125-143 `Modify`. -/
def hModify (S : FloatSem) (grow : Nat → Nat → Nat) (h : Heap String) (p : HPosition) (trade : Trade) :
    Heap String × HPosition :=
  if p.rest.pair ≠ trade.pair then (h, p)
  else if p.rest.type = longPosition ∧ trade.action = buyAction then hLog grow h p (posAdd S p.rest trade) trade
  else if p.rest.type = longPosition ∧ trade.action = sellAction then hSubstract S grow h p trade
  else if p.rest.type = shortPosition ∧ trade.action = buyAction then hSubstract S grow h p trade
  else if p.rest.type = shortPosition ∧ trade.action = sellAction then hLog grow h p (posAdd S p.rest trade) trade
  else (h, p)

/-- Two positions in one memory; each trade goes to the first (`true`) or the second. -/
def hModifyTwo (S : FloatSem) (grow : Nat → Nat → Nat) (h : Heap String) (p q : HPosition) :
    List (Bool × Trade) → Heap String × HPosition × HPosition
  | [] => (h, p, q)
  | (true, t) :: ts => let r := hModify S grow h p t; hModifyTwo S grow r.1 r.2 q ts
  | (false, t) :: ts => let r := hModify S grow h q t; hModifyTwo S grow r.1 p r.2 ts

/-- A history of `Modify` calls on one position. -/
def hModifyAll (S : FloatSem) (grow : Nat → Nat → Nat) (h : Heap String) (p : HPosition) :
    List Trade → Heap String × HPosition
  | [] => (h, p)
  | t :: ts => let r := hModify S grow h p t; hModifyAll S grow r.1 r.2 ts

end Finmod
