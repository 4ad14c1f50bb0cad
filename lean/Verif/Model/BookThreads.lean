import Verif.Go.Threads
import Verif.Go.SortThreads
import Verif.Model.HeapBook

/-!
# `market/orderbook.go`, access by access

`Model/HeapBook.lean` does a whole call at once. Here the functions are programs of single reads and writes of rows, in
the order of the code, so that several goroutines can run them interleaved. A read takes a whole row, also where the
code reads one field. The fields of the `OrderBook` itself (slice headers, depth) belong to the goroutine that
calls, as does the copy that `CalculateOverlap` gets.
-/

namespace Finmod
open Go

/-- market/orderbook.go:48-54 and 56-62, see `accumulate`: `n` rows from index `i` on. The code writes only the field
`AccumVolume`; here the row is written with its other fields as read. -/
def accumP (S : FloatSem) (s : Slice) : Nat → Nat → HProg Row Unit
  | 0, _ => .done ()
  | n + 1, i =>
    .get s.arr (s.off + i) fun r =>
      if i = 0 then .put s.arr (s.off + i) { r with accum := r.volume } (accumP S s n (i + 1))
      else .get s.arr (s.off + (i - 1)) fun q =>
        .put s.arr (s.off + i) { r with accum := S.add r.volume q.accum } (accumP S s n (i + 1))

/-- market/orderbook.go:33-63 `(*OrderBook).sort`. -/
def sortP (S : FloatSem) (b : HBook) : HProg Row (Res HBook) :=
  (Go.Sort.sliceStableP (fun x y : Row => Fl.lt x.price y.price) b.asks).bind fun r1 =>
  match r1 with
  | none => .done .panic
  | some _ =>
    (Go.Sort.sliceStableP (fun x y : Row => Fl.gt x.price y.price) b.bids).bind fun r2 =>
    match r2 with
    | none => .done .panic
    | some _ =>
      match hSliceTo b.asks (depthCut S b.asks.len b.maxDepth), hSliceTo b.bids (depthCut S b.bids.len b.maxDepth) with
      | some asks, some bids =>
        (accumP S asks asks.len 0).bind fun _ => (accumP S bids bids.len 0).bind fun _ =>
          .done (.ok { b with asks := asks, bids := bids })
      | _, _ => .done .panic

/-- market/orderbook.go:19-31 `NewOrderBook`. -/
def newOrderBookP (S : FloatSem) (now : Int) (asks bids : Slice) (maxDepth : Int) : HProg Row (Res HBook) :=
  sortP S { time := now, asks := asks, bids := bids, maxDepth := maxDepth }

/-- market/orderbook.go:95-112, see `hRemoveInvalidAsk`. -/
def removeInvalidAskP (s : Slice) (price : Fl) : HProg Row Slice :=
  if s.len = 0 then .done s
  else .get s.arr s.off fun first =>
    if Fl.lt price first.price then .done s
    else (HProg.find (fun r => !(Fl.lt r.price price)) s).bind fun i =>
      .done (match i with | some i => s.since (min (i + 1) (s.len - 1)) | none => Slice.empty)

/-- market/orderbook.go:114-131, see `hRemoveInvalidBid`. -/
def removeInvalidBidP (s : Slice) (price : Fl) : HProg Row Slice :=
  if s.len = 0 then .done s
  else .get s.arr s.off fun first =>
    if Fl.gt price first.price then .done s
    else (HProg.find (fun r => !(Fl.gt r.price price)) s).bind fun i =>
      .done (match i with | some i => s.since (min (i + 1) (s.len - 1)) | none => Slice.empty)

/-- market/orderbook.go:251-253 `removeElement`. -/
def removeElementP (grow : Nat → Nat → Nat) (s : Slice) (i : Nat) : HProg Row Slice :=
  (HProg.load (s.since (i + 1))).bind fun xs => HProg.append grow (s.upTo i) xs

/-- market/orderbook.go:142-181 and 195-234, see `hUpsert`. In line 159 (212) the first row is read once more. -/
def upsertP (grow : Nat → Nat → Nat) (before : Row → Bool) (s : Slice) (p v : Fl) : HProg Row Slice :=
  (HProg.find (fun r => Fl.eq r.price p) s).bind fun f => match f with
    | some i => .put s.arr (s.off + i) (mkRow p v) (.done s)
    | none =>
      if s.len = 0 then HProg.append grow s [mkRow p v]
      else if s.len = 1 then
        .get s.arr s.off fun r0 =>
          if before r0 then
            .get s.arr s.off fun r0 => (HProg.append grow s [r0]).bind fun s' =>
              .put s'.arr s'.off (mkRow p v) (.done s')
          else HProg.append grow s [mkRow p v]
      else
        (HProg.find before s).bind fun f => match f with
          | some i => (HProg.append grow s [zeroRow]).bind fun s' => (HProg.copyShift s' i).bind fun _ =>
              .put s'.arr (s'.off + i) (mkRow p v) (.done s')
          | none => HProg.append grow s [mkRow p v]

/-- market/orderbook.go:65-73 `(*OrderBook).limit`. -/
def limitP (b : HBook) : HProg Row (Res HBook) :=
  .done (match hLimitSide b.asks b.maxDepth, hLimitSide b.bids b.maxDepth with
    | some asks, some bids => .ok { b with asks := asks, bids := bids }
    | _, _ => .panic)

/-- market/orderbook.go:136-249 `(*OrderBook).ApplyUpdate`. -/
def applyUpdateP (grow : Nat → Nat → Nat) (b : HBook) (u : Update) : HProg Row (Res HBook) :=
  if u.side = "ask" then
    if Fl.ne u.volume (.fin 0) then
      (removeInvalidBidP b.bids u.price).bind fun bids =>
        (upsertP grow (fun r => Fl.gt r.price u.price) b.asks u.price u.volume).bind fun asks =>
          limitP { b with asks := asks, bids := bids }
    else
      (HProg.find (fun r => Fl.eq r.price u.price) b.asks).bind fun f => match f with
        | some i => (removeElementP grow b.asks i).bind fun asks => limitP { b with asks := asks }
        | none => .done (.ok b)
  else if u.side = "bid" then
    if Fl.ne u.volume (.fin 0) then
      (removeInvalidAskP b.asks u.price).bind fun asks =>
        (upsertP grow (fun r => Fl.lt r.price u.price) b.bids u.price u.volume).bind fun bids =>
          limitP { b with asks := asks, bids := bids }
    else
      (HProg.find (fun r => Fl.eq r.price u.price) b.bids).bind fun f => match f with
        | some i => (removeElementP grow b.bids i).bind fun bids => limitP { b with bids := bids }
        | none => .done (.ok b)
  else .done (.err .einvalid b)

/-- A goroutine that applies updates to one book; errors leave the book usable, a panic stops. -/
def applyAllP (grow : Nat → Nat → Nat) (b : HBook) : List Update → HProg Row (Res HBook)
  | [] => .done (.ok b)
  | u :: us => (applyUpdateP grow b u).bind fun r => match r with
    | .ok b' => applyAllP grow b' us
    | .err _ b' => applyAllP grow b' us
    | .panic => .done .panic

/-- A goroutine that makes a book of rows and then updates it. -/
def makeP (grow : Nat → Nat → Nat) (S : FloatSem) (now : Int) (asks bids : Slice) (maxDepth : Int) (us : List Update) :
    HProg Row (Res HBook) :=
  (newOrderBookP S now asks bids maxDepth).bind fun r => match r with
    | .ok b => applyAllP grow b us
    | .err _ b => applyAllP grow b us
    | .panic => .done .panic

/-- market/orderbook.go:257-286 `(*OrderBook).GetDepth`. -/
def getDepthP (b : HBook) (price : Fl) : HProg Row (Res Fl) :=
  if Fl.le price (.fin 0) then .done (.err .einvalid (.fin 0))
  else if b.asks.len = 0 ∨ b.bids.len = 0 then .done .panic
  else
    .get b.asks.arr b.asks.off fun firstAsk => .get b.asks.arr (b.asks.off + (b.asks.len - 1)) fun lastAsk =>
    .get b.bids.arr b.bids.off fun firstBid => .get b.bids.arr (b.bids.off + (b.bids.len - 1)) fun lastBid =>
      if Fl.le firstAsk.price price && Fl.le price lastAsk.price then
        (HProg.find (fun r => Fl.gt r.price price) b.asks).bind fun f => match f with
          | some k => .get b.asks.arr (b.asks.off + (k - 1)) fun r => .done (.ok r.price)
          | none => .done (.ok lastAsk.price)
      else if Fl.le lastBid.price price && Fl.le price firstBid.price then
        (HProg.find (fun r => Fl.lt r.price price) b.bids).bind fun f => match f with
          | some k => .get b.bids.arr (b.bids.off + (k - 1)) fun r => .done (.ok r.price)
          | none => .done (.ok lastBid.price)
      else .done (.err .enotfound (.fin 0))

/-- market/orderbook.go:81-84: `n` asks, from index `n - 1` down to 0. -/
def printAsksP (s : Slice) : Nat → HProg Row (List PrintLine)
  | 0 => .done []
  | n + 1 => .get s.arr (s.off + n) fun r => (printAsksP s n).bind fun ls => .done (.row r :: ls)

/-- market/orderbook.go:79-89 `(*OrderBook).Print`. -/
def printP (b : HBook) : HProg Row (List PrintLine) :=
  (printAsksP b.asks b.asks.len).bind fun asks => (HProg.load b.bids).bind fun bids =>
    .done ([.title] ++ asks ++ [.separator] ++ bids.map .row)

/-- market/orderbook.go:291-298 and 299-306, see `overlapScan`: `n` rows of `s` from index `i` on; every iteration reads
the first row of the other side, `other`, and the volume is read again. -/
def overlapScanP (S : FloatSem) (stop : Row → Row → Bool) (s other : Slice) : Nat → Nat → Fl → HProg Row (Fl × Nat)
  | 0, _, acc => .done (acc, 0)
  | n + 1, i, acc =>
    .get s.arr (s.off + i) fun r => .get other.arr other.off fun o =>
      if stop r o then .done (acc, i)
      else .get s.arr (s.off + i) fun r => overlapScanP S stop s other n (i + 1) (S.add acc r.volume)

/-- market/orderbook.go:311-320, see `overlapFill`: `n` rows, from index `n - 1` down to 0. -/
def overlapFillP (S : FloatSem) (target : Fl) (s : Slice) : Nat → Fl → Fl → HProg Row Fl
  | 0, _, res => .done res
  | n + 1, vol, res =>
    .get s.arr (s.off + n) fun r =>
      if Fl.gt (S.add vol r.volume) target then .done (S.add res (S.mul (S.sub target vol) r.price))
      else overlapFillP S target s n (S.add vol r.volume) (S.add res (S.mul r.price r.volume))

/-- market/orderbook.go:321-323, see `overlapCost`: `n` rows from index `i` on. -/
def overlapCostP (S : FloatSem) (s : Slice) : Nat → Nat → Fl → HProg Row Fl
  | 0, _, res => .done res
  | n + 1, i, res => .get s.arr (s.off + i) fun r => overlapCostP S s n (i + 1) (S.add res (S.mul r.price r.volume))

/-- market/orderbook.go:288-326 `overlapCalculation` of two books with non-empty sides. -/
def overlapCalculationP (S : FloatSem) (obA obB : HBook) : HProg Row (Res Fl) :=
  (overlapScanP S (fun r o => Fl.gt r.price o.price) obA.asks obB.bids obA.asks.len 0 (.fin 0)).bind fun a =>
  (overlapScanP S (fun r o => Fl.lt r.price o.price) obB.bids obA.asks obB.bids.len 0 (.fin 0)).bind fun b =>
  (overlapFillP S a.1 obB.bids b.2 (.fin 0) (.fin 0)).bind fun resB =>
  (overlapCostP S obA.asks a.2 0 (.fin 0)).bind fun resA => .done (.ok (Fl.abs (S.sub resA resB)))

/-- market/orderbook.go:328-341 `CalculateOverlap`; the tests of lines 331, 334 and 337 read their rows anew. -/
def calculateOverlapP (S : FloatSem) (obA obB : HBook) : HProg Row (Res Fl) :=
  if obA.asks.len = 0 ∨ obB.bids.len = 0 then .done .panic
  else
    .get obA.asks.arr obA.asks.off fun aAsk => .get obB.bids.arr obB.bids.off fun bBid =>
      if Fl.lt aAsk.price bBid.price then again
      else if obA.bids.len = 0 ∨ obB.asks.len = 0 then .done .panic
      else
        .get obA.bids.arr obA.bids.off fun aBid => .get obB.asks.arr obB.asks.off fun bAsk =>
          if Fl.gt aBid.price bAsk.price then again else .done (.err .enotfound (S.const (-1)))
where
  /-- market/orderbook.go:334-340, once one of the tests has succeeded -/
  again : HProg Row (Res Fl) :=
    .get obA.asks.arr obA.asks.off fun aAsk => .get obB.bids.arr obB.bids.off fun bBid =>
      if Fl.lt aAsk.price bBid.price then overlapCalculationP S obA obB
      else if obA.bids.len = 0 ∨ obB.asks.len = 0 then .done .panic
      else
        .get obA.bids.arr obA.bids.off fun aBid => .get obB.asks.arr obB.asks.off fun bAsk =>
          if Fl.gt aBid.price bAsk.price then overlapCalculationP S obB obA else .done (.ok (.fin 0))

/-- A call that a goroutine makes. -/
inductive BookTask where
  | make (now : Int) (asks bids : Slice) (maxDepth : Int) (us : List Update)
  | update (b : HBook) (us : List Update)
  | depth (b : HBook) (price : Fl)
  | print (b : HBook)
  | overlap (a b : HBook)

/-- What it gives. -/
inductive BookAnswer where
  | make (r : Res HBook)
  | update (r : Res HBook)
  | depth (r : Res Fl)
  | print (r : List PrintLine)
  | overlap (r : Res Fl)
deriving DecidableEq

/-- The program of a call. -/
def BookTask.prog (grow : Nat → Nat → Nat) (S : FloatSem) : BookTask → HProg Row BookAnswer
  | .make now asks bids maxDepth us => (makeP grow S now asks bids maxDepth us).bind fun r => .done (.make r)
  | .update b us => (applyAllP grow b us).bind fun r => .done (.update r)
  | .depth b price => (getDepthP b price).bind fun r => .done (.depth r)
  | .print b => (printP b).bind fun r => .done (.print r)
  | .overlap a b => (calculateOverlapP S a b).bind fun r => .done (.overlap r)

end Finmod
