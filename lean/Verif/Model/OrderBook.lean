import Verif.Go.Basic
import Verif.Go.Sort

/-!
# Model of `market/orderbook.go` and `market/orderbook_types.go`

Slices are lists: the in-place effects on backing arrays are modelled in `Model/HeapBook.lean`.
-/

namespace Finmod
open Go

/-- market/orderbook_types.go:6-10 `OrderBookRow`. -/
structure Row where
  price : Fl
  volume : Fl
  accum : Fl
deriving DecidableEq, Repr

/-- market/orderbook_types.go:16-20 `OrderBookUpdate`. -/
structure Update where
  price : Fl
  volume : Fl
  side : String
deriving DecidableEq, Repr

/-- market/orderbook.go:12-17 `OrderBook`. -/
structure Book where
  time : Int
  asks : List Row
  bids : List Row
  maxDepth : Int
deriving DecidableEq, Repr

/-- The composite literal `OrderBookRow{Price: p, Volume: v}` (AccumVolume is zero),
market/orderbook.go:145, 153, 160, 164, 173, 178, 198, 206, 213, 217, 226, 231. -/
def mkRow (p v : Fl) : Row := ⟨p, v, .fin 0⟩

/-- The zero row `OrderBookRow{}`, market/orderbook.go:171, 224. -/
def zeroRow : Row := ⟨.fin 0, .fin 0, .fin 0⟩

/-- `sort.SliceStable` (market/orderbook.go:34, 38): the library's algorithm, `Go.Sort.sliceStable`. That it never
panics, so that the `getD` is never used, is `C182_elements`. -/
def sliceStable (less : Row → Row → Bool) (rows : List Row) : List Row := (Go.Sort.sliceStable less rows).getD rows

/-- market/orderbook.go:48-54 and 56-62: `AccumVolume` of a row is its volume plus the previous
row's `AccumVolume`; `prev` is the previous row's value, if any. -/
def accumulate (S : FloatSem) : Option Fl → List Row → List Row
  | _, [] => []
  | none, r :: rs => { r with accum := r.volume } :: accumulate S (some r.volume) rs
  | some a, r :: rs =>
    { r with accum := S.add r.volume a } :: accumulate S (some (S.add r.volume a)) rs

/-- market/orderbook.go:42-43 and the `int(..)` of 45-46:
`int(math.Min(float64(len), float64(MaxDepth)))`. -/
def depthCut (S : FloatSem) (len : Nat) (maxDepth : Int) : Int :=
  S.toInt (mathMin (S.ofInt len) (S.ofInt maxDepth))

/-- `s[:n]` for `n ≤ len s`; panics when `n` is negative (market/orderbook.go:45, 46, 67, 71). -/
def sliceTo (rows : List Row) (n : Int) : Option (List Row) :=
  if n < 0 then none else some (rows.take n.toNat)

/-- market/orderbook.go:33-63 `(*OrderBook).sort`. -/
def Book.sort (S : FloatSem) (b : Book) : Res Book :=
  let asks := sliceStable (fun x y => Fl.lt x.price y.price) b.asks
  let bids := sliceStable (fun x y => Fl.gt x.price y.price) b.bids
  match sliceTo asks (depthCut S asks.length b.maxDepth),
        sliceTo bids (depthCut S bids.length b.maxDepth) with
  | some asks, some bids =>
    .ok { b with asks := accumulate S none asks, bids := accumulate S none bids }
  | _, _ => .panic

/-- market/orderbook.go:19-31 `NewOrderBook`; `now` is `time.Now().Unix()`. -/
def newOrderBook (S : FloatSem) (now : Int) (asks bids : List Row) (maxDepth : Int) : Res Book :=
  Book.sort S { time := now, asks := asks, bids := bids, maxDepth := maxDepth }

/-- One side of market/orderbook.go:65-73 `(*OrderBook).limit`. -/
def limitSide (rows : List Row) (maxDepth : Int) : Option (List Row) :=
  if (rows.length : Int) > maxDepth then sliceTo rows maxDepth else some rows

/-- market/orderbook.go:65-73 `(*OrderBook).limit`; panics when MaxDepth is negative. -/
def Book.limit (b : Book) : Res Book :=
  match limitSide b.asks b.maxDepth, limitSide b.bids b.maxDepth with
  | some asks, some bids => .ok { b with asks := asks, bids := bids }
  | _, _ => .panic

/-- market/orderbook.go:95-112, the "ask" branch of `removeInvalid`: rows removed and the new
asks.  `startIndex` is `int(math.Min(float64(i+1), float64(len-1)))`, modelled on integers
(the same for slices shorter than 2^53: `startIndex_float`). -/
def removeInvalidAsk (asks : List Row) (price : Fl) : List Row × Int :=
  match asks with
  | [] => (asks, 0)
  | first :: _ =>
    if Fl.lt price first.price then (asks, 0)
    else
      match asks.findIdx? (fun r => !(Fl.lt r.price price)) with
      | some i => (asks.drop (min (i + 1) (asks.length - 1)), (asks.length : Int) - i)
      | none => ([], 0)

/-- market/orderbook.go:114-131, the "bid" branch of `removeInvalid`. -/
def removeInvalidBid (bids : List Row) (price : Fl) : List Row × Int :=
  match bids with
  | [] => (bids, 0)
  | first :: _ =>
    if Fl.gt price first.price then (bids, 0)
    else
      match bids.findIdx? (fun r => !(Fl.gt r.price price)) with
      | some i => (bids.drop (min (i + 1) (bids.length - 1)), (bids.length : Int) - i)
      | none => ([], 0)

/-- market/orderbook.go:91-134 `(*OrderBook).removeInvalid`. -/
def Book.removeInvalid (b : Book) (side : String) (price : Fl) : Book × Int :=
  if side = "ask" then
    let (asks, n) := removeInvalidAsk b.asks price
    ({ b with asks := asks }, n)
  else if side = "bid" then
    let (bids, n) := removeInvalidBid b.bids price
    ({ b with bids := bids }, n)
  else (b, -1)

/-- market/orderbook.go:251-253 `removeElement`. -/
def removeElement (rows : List Row) (s : Nat) : List Row := rows.take s ++ rows.drop (s + 1)

/-- market/orderbook.go:142-181: new asks (before `limit`) for a non-zero ask update. -/
def upsertAsk (asks : List Row) (p v : Fl) : List Row :=
  match asks.findIdx? (fun r => Fl.eq r.price p) with
  | some i => asks.set i (mkRow p v)
  | none =>
    match asks with
    | [] => asks ++ [mkRow p v]
    | [a0] =>
      if Fl.gt a0.price p then (asks ++ [a0]).set 0 (mkRow p v)
      else asks ++ [mkRow p v]
    | _ =>
      match asks.findIdx? (fun r => Fl.gt r.price p) with
      | some i => (shiftRight (asks ++ [zeroRow]) i).set i (mkRow p v)
      | none => asks ++ [mkRow p v]

/-- market/orderbook.go:195-234: new bids (before `limit`) for a non-zero bid update. -/
def upsertBid (bids : List Row) (p v : Fl) : List Row :=
  match bids.findIdx? (fun r => Fl.eq r.price p) with
  | some i => bids.set i (mkRow p v)
  | none =>
    match bids with
    | [] => bids ++ [mkRow p v]
    | [b0] =>
      if Fl.lt b0.price p then (bids ++ [b0]).set 0 (mkRow p v)
      else bids ++ [mkRow p v]
    | _ =>
      match bids.findIdx? (fun r => Fl.lt r.price p) with
      | some i => (shiftRight (bids ++ [zeroRow]) i).set i (mkRow p v)
      | none => bids ++ [mkRow p v]

/-- market/orderbook.go:136-249 `(*OrderBook).ApplyUpdate`. -/
def Book.applyUpdate (b : Book) (u : Update) : Res Book :=
  if u.side = "ask" then
    if Fl.ne u.volume (.fin 0) then
      let b := (b.removeInvalid "bid" u.price).1
      Book.limit { b with asks := upsertAsk b.asks u.price u.volume }
    else
      match b.asks.findIdx? (fun r => Fl.eq r.price u.price) with
      | some i => Book.limit { b with asks := removeElement b.asks i }
      | none => .ok b
  else if u.side = "bid" then
    if Fl.ne u.volume (.fin 0) then
      let b := (b.removeInvalid "ask" u.price).1
      Book.limit { b with bids := upsertBid b.bids u.price u.volume }
    else
      match b.bids.findIdx? (fun r => Fl.eq r.price u.price) with
      | some i => Book.limit { b with bids := removeElement b.bids i }
      | none => .ok b
  else .err .einvalid b

/-- A history of `ApplyUpdate` calls on one book (errors leave the book usable, a panic stops). -/
def Book.applyAll (b : Book) : List Update → Res Book
  | [] => .ok b
  | u :: us =>
    match b.applyUpdate u with
    | .ok b' => b'.applyAll us
    | .err _ b' => b'.applyAll us
    | .panic => .panic

/-- market/orderbook.go:257-286 `(*OrderBook).GetDepth`. `index` is
`int(math.Max(0, float64(k-1)))`, modelled on integers (the same below 2^53: `depthIndex_float`). -/
def Book.getDepth (b : Book) (price : Fl) : Res Fl :=
  if Fl.le price (.fin 0) then .err .einvalid (.fin 0)
  else
    match b.asks.head?, b.asks.getLast?, b.bids.head?, b.bids.getLast? with
    | some firstAsk, some lastAsk, some firstBid, some lastBid =>
      if Fl.le firstAsk.price price && Fl.le price lastAsk.price then
        match b.asks.findIdx? (fun r => Fl.gt r.price price) with
        | some k =>
          match b.asks[k - 1]? with
          | some r => .ok r.price
          | none => .panic
        | none => .ok lastAsk.price
      else if Fl.le lastBid.price price && Fl.le price firstBid.price then
        match b.bids.findIdx? (fun r => Fl.lt r.price price) with
        | some k =>
          match b.bids[k - 1]? with
          | some r => .ok r.price
          | none => .panic
        | none => .ok lastBid.price
      else .err .enotfound (.fin 0)
    | _, _, _, _ => .panic

/-- market/orderbook.go:291-298 and 299-306: add up volumes until `stop`; the index stays 0 when
no row stops the loop. -/
def overlapScan (S : FloatSem) (stop : Row → Bool) : List Row → Nat → Fl → Fl × Nat
  | [], _, acc => (acc, 0)
  | r :: rs, i, acc =>
    if stop r then (acc, i) else overlapScan S stop rs (i + 1) (S.add acc r.volume)

/-- market/orderbook.go:311-320: walk the given rows (already in visiting order). -/
def overlapFill (S : FloatSem) (target : Fl) : List Row → Fl → Fl → Fl
  | [], _, res => res
  | r :: rs, vol, res =>
    if Fl.gt (S.add vol r.volume) target then S.add res (S.mul (S.sub target vol) r.price)
    else overlapFill S target rs (S.add vol r.volume) (S.add res (S.mul r.price r.volume))

/-- market/orderbook.go:321-323: total cost of rows. -/
def overlapCost (S : FloatSem) : List Row → Fl → Fl
  | [], res => res
  | r :: rs, res => overlapCost S rs (S.add res (S.mul r.price r.volume))

/-- market/orderbook.go:288-326 `overlapCalculation`; panics only on empty sides (never reached
from `CalculateOverlap`). -/
def overlapCalculation (S : FloatSem) (obA obB : Book) : Res Fl :=
  match obA.asks, obB.bids with
  | ask0 :: _, bid0 :: _ =>
    let (accA, idxA) := overlapScan S (fun r => Fl.gt r.price bid0.price) obA.asks 0 (.fin 0)
    let (_, idxB) := overlapScan S (fun r => Fl.lt r.price ask0.price) obB.bids 0 (.fin 0)
    let resB := overlapFill S accA (obB.bids.take idxB).reverse (.fin 0) (.fin 0)
    let resA := overlapCost S (obA.asks.take idxA) (.fin 0)
    .ok (Fl.abs (S.sub resA resB))
  | _, _ => .panic

/-- market/orderbook.go:328-341 `CalculateOverlap`. The condition is evaluated with Go's
short-circuit `||`, so the second pair of sides is only touched when the first test fails. -/
def calculateOverlap (S : FloatSem) (obA obB : Book) : Res Fl :=
  match obA.asks, obB.bids with
  | aAsk :: _, bBid :: _ =>
    if Fl.lt aAsk.price bBid.price then overlapCalculation S obA obB
    else
      match obA.bids, obB.asks with
      | aBid :: _, bAsk :: _ =>
        if Fl.gt aBid.price bAsk.price then overlapCalculation S obB obA
        else .err .enotfound (S.const (-1))
      | _, _ => .panic
  | _, _ => .panic

/-- Lines written by `Print`. -/
inductive PrintLine where
  | title
  | separator
  | row (r : Row)
deriving DecidableEq, Repr

/-- market/orderbook.go:79-89 `(*OrderBook).Print`; the text of a row is in `Model/Strings.lean`. The
index rewrite `i = len(ob.Asks) - 1 - i` visits the asks from last to first. -/
def Book.print (b : Book) : List PrintLine :=
  [.title] ++ ((List.range b.asks.length).filterMap
      (fun i => (b.asks[b.asks.length - 1 - i]?).map .row))
    ++ [.separator] ++ b.bids.map .row

end Finmod
