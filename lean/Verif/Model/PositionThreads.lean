import Verif.Go.Threads
import Verif.Model.HeapPosition
import Verif.Model.Strings

/-!
# `market/position.go`, access by access

`Model/Position.lean` does a whole call at once. Here the functions are programs of single reads and writes of fields of a
`Position` in memory, in the order of the source and once for every mention of a field, so that several goroutines can run
them interleaved. The trade that a call gets belongs to the goroutine (no function of positions writes to a trade).
The fields of struct type (`Pair`, `TakeProfit`, `StopLoss`), strings and slice headers are read and written whole.
-/

namespace Finmod
open Go

/-- What a cell of memory holds: a field of a `Position` or (`str`) an element of `Trades`. -/
inductive PCell where
  | str (s : String)
  | pair (p : Pair)
  | flag (b : Bool)
  | closeOrder (c : PositionCloseOrder)
  | num (x : Fl)
  | time (t : Int)
  | log (s : Slice)
deriving DecidableEq

namespace PCell
/-- The content of a cell, read as its type says (a field never holds anything of another type). -/
def asStr : PCell → String | .str s => s | _ => ""
/-- See `asStr`. -/
def asPair : PCell → Pair | .pair p => p | _ => ⟨⟨"", "", ""⟩, ⟨"", "", ""⟩⟩
/-- See `asStr`. -/
def asFlag : PCell → Bool | .flag b => b | _ => false
/-- See `asStr`. -/
def asNum : PCell → Fl | .num x => x | _ => .fin 0
/-- See `asStr`. -/
def asTime : PCell → Int | .time t => t | _ => 0
/-- See `asStr`. -/
def asLog : PCell → Slice | .log s => s | _ => Slice.empty
end PCell

/-! market/position.go:33-49: the fields of a `Position`, cells 0 to 14 of its array (a struct is an array of fields here). -/

/-- `ID` -/
def fId : Nat := 0
/-- `Type` -/
def fType : Nat := 1
/-- `Pair` -/
def fPair : Nat := 2
/-- `Open` -/
def fOpen : Nat := 3
/-- `TakeProfit` -/
def fTakeProfit : Nat := 4
/-- `StopLoss` -/
def fStopLoss : Nat := 5
/-- `OpenPrice` -/
def fOpenPrice : Nat := 6
/-- `ClosePrice` -/
def fClosePrice : Nat := 7
/-- `Quantity` -/
def fQuantity : Nat := 8
/-- `Profit` -/
def fProfit : Nat := 9
/-- `OpenTime` -/
def fOpenTime : Nat := 10
/-- `CloseTime` -/
def fCloseTime : Nat := 11
/-- `Trades` -/
def fTrades : Nat := 12
/-- `ExecutionID` -/
def fExecutionID : Nat := 13
/-- `Data` -/
def fData : Nat := 14

/-- The cells of a position, in the order of the struct; `log` is the header of `Trades`. -/
def positionCells (p : Position) (log : Slice) : List PCell :=
  [.str p.id, .str p.type, .pair p.pair, .flag p.opened, .closeOrder p.takeProfit, .closeOrder p.stopLoss,
    .num p.openPrice, .num p.closePrice, .num p.quantity, .num p.profit, .time p.openTime, .time p.closeTime,
    .log log, .str p.executionID, .str p.data]

/-- `p.Trades = append(p.Trades, trade.ID)` (market/position.go:152 and 183). -/
def logP (grow : Nat → Nat → Nat) (a : Nat) (t : Trade) : HProg PCell Unit :=
  .get a fTrades fun l => (HProg.append grow l.asLog [.str t.id]).bind fun l' => .put a fTrades (.log l') (.done ())

/-- market/position.go:146-155 `add`. -/
def addP (S : FloatSem) (grow : Nat → Nat → Nat) (a : Nat) (t : Trade) : HProg PCell Unit :=
  .get a fQuantity fun q =>
    let total := S.add q.asNum t.quantity
    .get a fOpenPrice fun o => .get a fQuantity fun q' =>
      .put a fOpenPrice (.num (S.add (S.div (S.mul o.asNum q'.asNum) total) (S.div (S.mul t.price t.quantity) total)))
        (.put a fQuantity (.num total) (logP grow a t))

/-- market/position.go:169-173: `p.Profit = …` of a position that is being closed. -/
def profitP (S : FloatSem) (a : Nat) (k : HProg PCell Unit) : HProg PCell Unit :=
  .get a fType fun ty =>
    if ty.asStr = longPosition then
      .get a fClosePrice fun c => .get a fOpenPrice fun o => .get a fQuantity fun q =>
        .put a fProfit (.num (S.mul (S.sub c.asNum o.asNum) q.asNum)) k
    else
      .get a fOpenPrice fun o => .get a fClosePrice fun c => .get a fQuantity fun q =>
        .put a fProfit (.num (S.mul (S.sub o.asNum c.asNum) q.asNum)) k

/-- market/position.go:158-186 `substract` as called from `Modify`, which drops its error. -/
def substractP (S : FloatSem) (grow : Nat → Nat → Nat) (a : Nat) (t : Trade) : HProg PCell Unit :=
  .get a fQuantity fun q =>
    let total := S.sub q.asNum t.quantity
    if Fl.lt total (.fin 0) && Fl.lt total (S.const (-1 / 10000)) then .done ()
    else if Fl.le total (.fin 0) then
      .put a fClosePrice (.num t.price) (profitP S a
        (.put a fOpen (.flag false) (.put a fCloseTime (.time t.executionTime) (logP grow a t))))
    else
      .get a fOpenPrice fun o => .get a fQuantity fun q1 => .get a fQuantity fun q2 =>
        .put a fOpenPrice (.num (S.div (S.mul (S.sub o.asNum (S.mul t.price (S.div t.quantity q1.asNum))) q2.asNum) total))
          (.put a fQuantity (.num total) (logP grow a t))

/-- market/position.go:125-143 `Modify`; the result is the code of the error, if one is returned. `p.Type` is read again in
every test. -/
def modifyP (S : FloatSem) (grow : Nat → Nat → Nat) (a : Nat) (t : Trade) : HProg PCell (Option ErrCode) :=
  .get a fPair fun c =>
    if c.asPair ≠ t.pair then .done (some .einvalid)
    else .get a fType fun x =>
      if x.asStr = longPosition ∧ t.action = buyAction then (addP S grow a t).bind fun _ => .done none
      else .get a fType fun x =>
        if x.asStr = longPosition ∧ t.action = sellAction then (substractP S grow a t).bind fun _ => .done none
        else .get a fType fun x =>
          if x.asStr = shortPosition ∧ t.action = buyAction then (substractP S grow a t).bind fun _ => .done none
          else .get a fType fun x =>
            if x.asStr = shortPosition ∧ t.action = sellAction then (addP S grow a t).bind fun _ => .done none
            else .done none

/-- A goroutine that gives trades to one position, one after the other, and notes the errors. -/
def modifyAllP (S : FloatSem) (grow : Nat → Nat → Nat) (a : Nat) : List Trade → HProg PCell (List (Option ErrCode))
  | [] => .done []
  | t :: ts => (modifyP S grow a t).bind fun e => (modifyAllP S grow a ts).bind fun es => .done (e :: es)

/-- market/position.go:52-73 `NewPosition`: new memory for the trades and for the position; the result is the address of
the position. -/
def newPositionP (id : String) (zeroTime : Int) (t : Trade) : HProg PCell Nat :=
  .alloc fun l => .put l 0 (.str t.id) (.alloc fun a =>
    (HProg.writeAll a 0 (positionCells (newPosition id zeroTime t) ⟨l, 0, 1, 1⟩)).bind fun _ => .done a)

/-- market/position.go:116-122 `UnrealizedProfit`. -/
def unrealizedProfitP (S : FloatSem) (a : Nat) (price : Fl) : HProg PCell Fl :=
  .get a fType fun ty =>
    if ty.asStr = longPosition then
      .get a fOpenPrice fun o => .get a fQuantity fun q => .done (S.mul (S.sub price o.asNum) q.asNum)
    else
      .get a fOpenPrice fun o => .get a fQuantity fun q => .done (S.mul (S.sub o.asNum price) q.asNum)

/-- market/position.go:81-83 `GetID`. -/
def getIDP (a : Nat) : HProg PCell String := .get a fId fun c => .done c.asStr

/-- market/position.go:99-113 `String`; `p.ID[0:8]` is evaluated first. Of `Trades` only the length is read. -/
def stringP (F : Fmt) (a : Nat) : HProg PCell (Res (List UInt8)) :=
  .get a fId fun i =>
    if (bytes i.asStr).length < 8 then .done .panic
    else .get a fType fun ty => .get a fPair fun pr => .get a fOpen fun op => .get a fOpenPrice fun o =>
      .get a fClosePrice fun c => .get a fQuantity fun q => .get a fProfit fun pf => .get a fOpenTime fun ot =>
      .get a fCloseTime fun ct => .get a fTrades fun l =>
        .done (Position.string F
          { id := i.asStr, type := ty.asStr, pair := pr.asPair, opened := op.asFlag, takeProfit := ⟨.fin 0, ""⟩,
            stopLoss := ⟨.fin 0, ""⟩, openPrice := o.asNum, closePrice := c.asNum, quantity := q.asNum,
            profit := pf.asNum, openTime := ot.asTime, closeTime := ct.asTime,
            trades := List.replicate l.asLog.len "", executionID := "", data := "" })

/-- market/position.go:86-97 `Update` of the position at `a` with that at `b`: the fields are copied, and with them the
header of `Trades`, not the trades. -/
def updateP (a b : Nat) : HProg PCell Unit :=
  (HProg.readAll b 0 15).bind fun cs => HProg.writeAll a 0 cs

/-- A call that a goroutine makes. -/
inductive PosTask where
  | make (id : String) (zeroTime : Int) (t : Trade) (ts : List Trade)
  | modify (a : Nat) (ts : List Trade)
  | update (a b : Nat)
  | mark (a : Nat) (price : Fl)
  | ident (a : Nat)
  | text (a : Nat)

/-- What it gives. -/
inductive PosAnswer where
  | make (a : Nat) (es : List (Option ErrCode))
  | modify (es : List (Option ErrCode))
  | update
  | mark (x : Fl)
  | ident (s : String)
  | text (r : Res (List UInt8))
deriving DecidableEq

/-- The program of a call. -/
def PosTask.prog (S : FloatSem) (grow : Nat → Nat → Nat) (F : Fmt) : PosTask → HProg PCell PosAnswer
  | .make id zeroTime t ts => (newPositionP id zeroTime t).bind fun a => (modifyAllP S grow a ts).bind fun es => .done (.make a es)
  | .modify a ts => (modifyAllP S grow a ts).bind fun es => .done (.modify es)
  | .update a b => (updateP a b).bind fun _ => .done .update
  | .mark a price => (unrealizedProfitP S a price).bind fun x => .done (.mark x)
  | .ident a => (getIDP a).bind fun x => .done (.ident x)
  | .text a => (stringP F a).bind fun x => .done (.text x)

end Finmod
