import Verif.Go.Heap
import Verif.Model.OrderBook

/-!
# Model of `market/orderbook.go` over shared memory

The same functions as in `Model/OrderBook.lean`, with slices as windows of arrays. `grow` chooses
the capacity of a fresh array. Loops that only read or write one slice are written as one read or one
write of that slice.
-/

namespace Finmod
open Go

/-- market/orderbook.go:12-17 `OrderBook`, holding slice headers. -/
structure HBook where
  time : Int
  asks : Slice
  bids : Slice
  maxDepth : Int
deriving DecidableEq

/-- `s[:n]`; panics when `n` is negative or above the capacity (market/orderbook.go:45, 46, 67, 71). -/
def hSliceTo (s : Slice) (n : Int) : Option Slice :=
  if n < 0 ∨ (s.cap : Int) < n then none else some (s.upTo n.toNat)

/-- market/orderbook.go:33-63 `(*OrderBook).sort`: both sorts work in place, then the slices are cut,
then AccumVolume is written in place. -/
def HBook.sort (S : FloatSem) (h : Heap Row) (b : HBook) : Res (Heap Row × HBook) :=
  let h := h.store b.asks.arr b.asks.off (sliceStable (fun x y => Fl.lt x.price y.price) (h.load b.asks))
  let h := h.store b.bids.arr b.bids.off (sliceStable (fun x y => Fl.gt x.price y.price) (h.load b.bids))
  match hSliceTo b.asks (depthCut S b.asks.len b.maxDepth), hSliceTo b.bids (depthCut S b.bids.len b.maxDepth) with
  | some asks, some bids =>
    let h := h.store asks.arr asks.off (accumulate S none (h.load asks))
    let h := h.store bids.arr bids.off (accumulate S none (h.load bids))
    .ok (h, { b with asks := asks, bids := bids })
  | _, _ => .panic

/-- market/orderbook.go:19-31 `NewOrderBook`: keeps the caller's slices. -/
def hNewOrderBook (S : FloatSem) (h : Heap Row) (now : Int) (asks bids : Slice) (maxDepth : Int) :
    Res (Heap Row × HBook) :=
  HBook.sort S h { time := now, asks := asks, bids := bids, maxDepth := maxDepth }

/-- One side of market/orderbook.go:65-73 `(*OrderBook).limit`. -/
def hLimitSide (s : Slice) (maxDepth : Int) : Option Slice :=
  if (s.len : Int) > maxDepth then hSliceTo s maxDepth else some s

/-- market/orderbook.go:65-73 `(*OrderBook).limit`. -/
def HBook.limit (h : Heap Row) (b : HBook) : Res (Heap Row × HBook) :=
  match hLimitSide b.asks b.maxDepth, hLimitSide b.bids b.maxDepth with
  | some asks, some bids => .ok (h, { b with asks := asks, bids := bids })
  | _, _ => .panic

/-- market/orderbook.go:95-112, the "ask" branch of `removeInvalid`: a reslice, or an empty literal. -/
def hRemoveInvalidAsk (h : Heap Row) (s : Slice) (price : Fl) : Slice :=
  match (h.load s)[0]? with
  | none => s
  | some first =>
    if Fl.lt price first.price then s
    else
      match (h.load s).findIdx? (fun r => !(Fl.lt r.price price)) with
      | some i => s.since (min (i + 1) (s.len - 1))
      | none => Slice.empty

/-- market/orderbook.go:114-131, the "bid" branch of `removeInvalid`. -/
def hRemoveInvalidBid (h : Heap Row) (s : Slice) (price : Fl) : Slice :=
  match (h.load s)[0]? with
  | none => s
  | some first =>
    if Fl.gt price first.price then s
    else
      match (h.load s).findIdx? (fun r => !(Fl.gt r.price price)) with
      | some i => s.since (min (i + 1) (s.len - 1))
      | none => Slice.empty

/-- market/orderbook.go:251-253 `removeElement`: `append(slice[:s], slice[s+1:]...)`. -/
def hRemoveElement (grow : Nat → Nat → Nat) (h : Heap Row) (s : Slice) (i : Nat) : Heap Row × Slice :=
  h.append grow (s.upTo i) (h.load (s.since (i + 1)))

/-- market/orderbook.go:142-181 and 195-234: the slice after a non-zero update. `before r` tells
that the new row goes before row `r` (`>` for asks, `<` for bids). -/
def hUpsert (grow : Nat → Nat → Nat) (before : Row → Bool) (h : Heap Row) (s : Slice) (p v : Fl) : Heap Row × Slice :=
  match (h.load s).findIdx? (fun r => Fl.eq r.price p) with
  | some i => (h.put s i (mkRow p v), s)
  | none =>
    if s.len = 0 then h.append grow s [mkRow p v]
    else if s.len = 1 then
      match (h.load s)[0]? with
      | some r0 =>
        if before r0 then
          let r := h.append grow s [r0]
          (r.1.put r.2 0 (mkRow p v), r.2)
        else h.append grow s [mkRow p v]
      | none => (h, s)
    else
      match (h.load s).findIdx? before with
      | some i =>
        let r := h.append grow s [zeroRow]
        ((r.1.copyShift r.2 i).put r.2 i (mkRow p v), r.2)
      | none => h.append grow s [mkRow p v]

/-- market/orderbook.go:136-249 `(*OrderBook).ApplyUpdate`. -/
def HBook.applyUpdate (grow : Nat → Nat → Nat) (h : Heap Row) (b : HBook) (u : Update) : Res (Heap Row × HBook) :=
  if u.side = "ask" then
    if Fl.ne u.volume (.fin 0) then
      let b := { b with bids := hRemoveInvalidBid h b.bids u.price }
      let r := hUpsert grow (fun r => Fl.gt r.price u.price) h b.asks u.price u.volume
      HBook.limit r.1 { b with asks := r.2 }
    else
      match (h.load b.asks).findIdx? (fun r => Fl.eq r.price u.price) with
      | some i =>
        let r := hRemoveElement grow h b.asks i
        HBook.limit r.1 { b with asks := r.2 }
      | none => .ok (h, b)
  else if u.side = "bid" then
    if Fl.ne u.volume (.fin 0) then
      let b := { b with asks := hRemoveInvalidAsk h b.asks u.price }
      let r := hUpsert grow (fun r => Fl.lt r.price u.price) h b.bids u.price u.volume
      HBook.limit r.1 { b with bids := r.2 }
    else
      match (h.load b.bids).findIdx? (fun r => Fl.eq r.price u.price) with
      | some i =>
        let r := hRemoveElement grow h b.bids i
        HBook.limit r.1 { b with bids := r.2 }
      | none => .ok (h, b)
  else .err .einvalid (h, b)

/-- A history of `ApplyUpdate` calls on one book. -/
def HBook.applyAll (grow : Nat → Nat → Nat) (h : Heap Row) (b : HBook) : List Update → Res (Heap Row × HBook)
  | [] => .ok (h, b)
  | u :: us =>
    match b.applyUpdate grow h u with
    | .ok (h', b') => b'.applyAll grow h' us
    | .err _ (h', b') => b'.applyAll grow h' us
    | .panic => .panic

/-- Two books in one memory; each update goes to the first (`true`) or second book. -/
def hTwoBooks (grow : Nat → Nat → Nat) (h : Heap Row) (b1 b2 : HBook) :
    List (Bool × Update) → Res (Heap Row × HBook × HBook)
  | [] => .ok (h, b1, b2)
  | (true, u) :: us =>
    match b1.applyUpdate grow h u with
    | .ok (h', b1') => hTwoBooks grow h' b1' b2 us
    | .err _ (h', b1') => hTwoBooks grow h' b1' b2 us
    | .panic => .panic
  | (false, u) :: us =>
    match b2.applyUpdate grow h u with
    | .ok (h', b2') => hTwoBooks grow h' b1 b2' us
    | .err _ (h', b2') => hTwoBooks grow h' b1 b2' us
    | .panic => .panic

end Finmod
