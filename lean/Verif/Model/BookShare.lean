import Verif.Model.BookThreads

/-!
# `market/orderbook.go` on a book that several goroutines share

In `Model/BookThreads.lean` the slice headers belong to the goroutine that calls. Here they are in memory too, as the fields of
the `OrderBook` at an address `a`, and are read again wherever the code says `ob.Asks`, `ob.Bids` or `ob.MaxDepth`, so that a goroutine can
find that another one has replaced them. A header is read and written whole. `none` is a panic.
-/

namespace Finmod
open Go

/-- A memory cell: a row of a slice, a slice header, or a number. -/
inductive BCell where
  | row (r : Row)
  | head (s : Slice)
  | int (n : Int)
deriving DecidableEq

namespace BCell
/-- The row in a cell. -/
def asRow : BCell → Row | .row r => r | _ => zeroRow
/-- The slice header in a cell. -/
def asHead : BCell → Slice | .head s => s | _ => Slice.empty
/-- The number in a cell. -/
def asInt : BCell → Int | .int n => n | _ => 0
end BCell

/-- market/orderbook.go:13-16: the fields of an `OrderBook`, in order. -/
def fTime : Nat := 0
def fAsks : Nat := 1
def fBids : Nat := 2
def fMaxDepth : Nat := 3

/-- One part of a function and then the rest, unless the first panics. -/
def andThen {β γ : Type} (p : HProg BCell (Option β)) (f : β → HProg BCell (Option γ)) : HProg BCell (Option γ) :=
  p.bind fun o => match o with
    | none => .done none
    | some x => f x

/-- `len(ob.Asks)` -/
def lenS (a f : Nat) : HProg BCell (Option Nat) := .get a f fun c => .done (some c.asHead.len)

/-- `ob.Asks[i]` -/
def rowS (a f i : Nat) : HProg BCell (Option Row) :=
  .get a f fun c => if i < c.asHead.len then .get c.asHead.arr (c.asHead.off + i) fun r => .done (some r.asRow) else .done none

/-- `ob.Asks[i] = r` -/
def setRowS (a f i : Nat) (r : Row) : HProg BCell (Option Unit) :=
  .get a f fun c => if i < c.asHead.len then .put c.asHead.arr (c.asHead.off + i) (.row r) (.done (some ())) else .done none

/-- The loop `for i := range ob.Asks` that stops at the first row with `q`: `n` more rows from index `i` on. -/
def findFromS (q : Row → Bool) (a f : Nat) : Nat → Nat → HProg BCell (Option (Option Nat))
  | 0, _ => .done (some none)
  | n + 1, i => andThen (rowS a f i) fun r => if q r then .done (some (some i)) else findFromS q a f n (i + 1)

/-- The same from the start; the length is read once. -/
def findS (q : Row → Bool) (a f : Nat) : HProg BCell (Option (Option Nat)) := andThen (lenS a f) fun n => findFromS q a f n 0

/-- `ob.Asks = append(ob.Asks, r)`; `r` comes of `p`, which runs after `ob.Asks` has been read. -/
def appendS (grow : Nat → Nat → Nat) (a f : Nat) (p : HProg BCell (Option Row)) : HProg BCell (Option Unit) :=
  .get a f fun c => andThen p fun r =>
    (HProg.append grow c.asHead [.row r]).bind fun s => .put a f (.head s) (.done (some ()))

/-- `copy(ob.Asks[i+1:], ob.Asks[i:])` (market/orderbook.go:172, 225) -/
def copyS (a f i : Nat) : HProg BCell (Option Unit) :=
  .get a f fun c => if i + 1 ≤ c.asHead.len then .get a f fun d => if i ≤ d.asHead.len then
    (HProg.readAll d.asHead.arr (d.asHead.off + i) (min (c.asHead.len - (i + 1)) (d.asHead.len - i))).bind fun xs =>
      (HProg.writeAll c.asHead.arr (c.asHead.off + (i + 1)) xs).bind fun _ => .done (some ())
    else .done none
  else .done none

/-- `ob.Asks = removeElement(ob.Asks, i)` with market/orderbook.go:251-253; `slice[:i]` cannot panic once `slice[i+1:]` does not. -/
def removeS (grow : Nat → Nat → Nat) (a f i : Nat) : HProg BCell (Option Unit) :=
  .get a f fun c => if i + 1 ≤ c.asHead.len then
    (HProg.load (c.asHead.since (i + 1))).bind fun xs => (HProg.append grow (c.asHead.upTo i) xs).bind fun s =>
      .put a f (.head s) (.done (some ()))
  else .done none

/-- market/orderbook.go:66-68 and 70-72, one side of `limit`. -/
def limitSideS (a f : Nat) : HProg BCell (Option Unit) :=
  .get a f fun c => .get a fMaxDepth fun d =>
    if (c.asHead.len : Int) > d.asInt then
      .get a f fun c => .get a fMaxDepth fun d => match hSliceTo c.asHead d.asInt with
        | some s => .put a f (.head s) (.done (some ()))
        | none => .done none
    else .done (some ())

/-- market/orderbook.go:65-73 `(*OrderBook).limit`. -/
def limitS (a : Nat) : HProg BCell (Option Unit) := andThen (limitSideS a fAsks) fun _ => limitSideS a fBids

/-- market/orderbook.go:95-112 and 114-131, one side of `removeInvalid`: nothing if the first row has `outside`; otherwise the loop
stops at the first row without `passes`. The result of `removeInvalid` is not used, but its length is read (line 103, 122). -/
def removeInvalidS (outside passes : Row → Bool) (a f : Nat) : HProg BCell (Option Unit) :=
  andThen (lenS a f) fun n => if n = 0 then .done (some ()) else
  andThen (rowS a f 0) fun first => if outside first then .done (some ()) else
  andThen (findS (fun r => !passes r) a f) fun o => match o with
    | some i =>
      andThen (lenS a f) fun n => andThen (lenS a f) fun _ =>
      .get a f fun c => if n = 0 then .done none else
        if min (i + 1) (n - 1) ≤ c.asHead.len then .put a f (.head (c.asHead.since (min (i + 1) (n - 1)))) (.done (some ()))
        else .done none
    | none => .put a f (.head Slice.empty) (.done (some ()))

/-- market/orderbook.go:142-181 and 195-234, without `limit`. -/
def upsertS (grow : Nat → Nat → Nat) (before : Row → Bool) (a f : Nat) (p v : Fl) : HProg BCell (Option Unit) :=
  andThen (findS (fun r => Fl.eq r.price p) a f) fun o => match o with
    | some i => setRowS a f i (mkRow p v)
    | none =>
      andThen (lenS a f) fun n => if n = 0 then appendS grow a f (.done (some (mkRow p v))) else
      andThen (lenS a f) fun n => if n = 1 then
        andThen (rowS a f 0) fun r0 =>
          if before r0 then andThen (appendS grow a f (rowS a f 0)) fun _ => setRowS a f 0 (mkRow p v)
          else appendS grow a f (.done (some (mkRow p v)))
      else
        andThen (findS before a f) fun o => match o with
          | some i => andThen (appendS grow a f (.done (some zeroRow))) fun _ => andThen (copyS a f i) fun _ =>
              setRowS a f i (mkRow p v)
          | none => appendS grow a f (.done (some (mkRow p v)))

/-- market/orderbook.go:183-189 and 236-242. -/
def deleteS (grow : Nat → Nat → Nat) (a f : Nat) (p : Fl) : HProg BCell (Option Unit) :=
  andThen (findS (fun r => Fl.eq r.price p) a f) fun o => match o with
    | some i => andThen (removeS grow a f i) fun _ => limitS a
    | none => .done (some ())

/-- market/orderbook.go:136-249 `(*OrderBook).ApplyUpdate`; the result is the code of the error, if any. -/
def applyUpdateS (grow : Nat → Nat → Nat) (a : Nat) (u : Update) : HProg BCell (Option (Option ErrCode)) :=
  if u.side = "ask" then
    andThen
      (if Fl.ne u.volume (.fin 0) then
        andThen (removeInvalidS (fun r => Fl.gt u.price r.price) (fun r => Fl.gt r.price u.price) a fBids) fun _ =>
        andThen (upsertS grow (fun r => Fl.gt r.price u.price) a fAsks u.price u.volume) fun _ => limitS a
      else deleteS grow a fAsks u.price) fun _ => .done (some none)
  else if u.side = "bid" then
    andThen
      (if Fl.ne u.volume (.fin 0) then
        andThen (removeInvalidS (fun r => Fl.lt u.price r.price) (fun r => Fl.lt r.price u.price) a fAsks) fun _ =>
        andThen (upsertS grow (fun r => Fl.lt r.price u.price) a fBids u.price u.volume) fun _ => limitS a
      else deleteS grow a fBids u.price) fun _ => .done (some none)
  else .done (some (some .einvalid))

/-- `ob.Asks[len(ob.Asks)-1]` -/
def lastS (a f : Nat) : HProg BCell (Option Row) := andThen (lenS a f) fun n => if n = 0 then .done none else rowS a f (n - 1)

/-- market/orderbook.go:257-286 `(*OrderBook).GetDepth`. -/
def getDepthS (a : Nat) (price : Fl) : HProg BCell (Option (Res Fl)) :=
  if Fl.le price (.fin 0) then .done (some (.err .einvalid (.fin 0)))
  else
    andThen (rowS a fAsks 0) fun firstAsk => andThen (lastS a fAsks) fun lastAsk =>
    andThen (rowS a fBids 0) fun firstBid => andThen (lastS a fBids) fun lastBid =>
      if Fl.le firstAsk.price price && Fl.le price lastAsk.price then
        andThen (findS (fun r => Fl.gt r.price price) a fAsks) fun o => match o with
          | some k => andThen (rowS a fAsks (k - 1)) fun r => .done (some (.ok r.price))
          | none => .done (some (.ok lastAsk.price))
      else if Fl.le lastBid.price price && Fl.le price firstBid.price then
        andThen (findS (fun r => Fl.lt r.price price) a fBids) fun o => match o with
          | some k => andThen (rowS a fBids (k - 1)) fun r => .done (some (.ok r.price))
          | none => .done (some (.ok lastBid.price))
      else .done (some (.err .enotfound (.fin 0)))

/-- market/orderbook.go:81-84: `n` more rounds, from round `i` on; the length is read anew in each. -/
def printAsksS (a : Nat) : Nat → Nat → HProg BCell (Option (List PrintLine))
  | 0, _ => .done (some [])
  | n + 1, i => andThen (lenS a fAsks) fun m => if m < i + 1 then .done none else
      andThen (rowS a fAsks (m - 1 - i)) fun r => andThen (printAsksS a n (i + 1)) fun ls => .done (some (.row r :: ls))

/-- market/orderbook.go:79-89 `(*OrderBook).Print`; the loop over the bids works on the slice as it was at its start. -/
def printS (a : Nat) : HProg BCell (Option (List PrintLine)) :=
  andThen (lenS a fAsks) fun n => andThen (printAsksS a n 0) fun asks =>
    .get a fBids fun c => (HProg.load c.asHead).bind fun bids =>
      .done (some ([.title] ++ asks ++ [.separator] ++ bids.map fun r => .row r.asRow))

/-- One call that a goroutine makes on a book in memory. -/
inductive SharedTask where
  | update (a : Nat) (u : Update)
  | depth (a : Nat) (price : Fl)
  | print (a : Nat)

/-- How the call ends; `none` is a panic. -/
inductive SharedAnswer where
  | update (r : Option (Option ErrCode))
  | depth (r : Option (Res Fl))
  | print (r : Option (List PrintLine))
deriving DecidableEq

/-- The call as a program. -/
def SharedTask.prog (grow : Nat → Nat → Nat) : SharedTask → HProg BCell SharedAnswer
  | .update a u => (applyUpdateS grow a u).bind fun r => .done (.update r)
  | .depth a price => (getDepthS a price).bind fun r => .done (.depth r)
  | .print a => (printS a).bind fun r => .done (.print r)

end Finmod
