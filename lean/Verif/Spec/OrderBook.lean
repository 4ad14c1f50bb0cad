import Verif.Model.OrderBook

/-!
# Specification vocabulary for the order book

Everything here is stated with filters, memberships and orderings only; none of the model's
loops are used.
-/

namespace Finmod.Spec
open Go

/-- Asks strictly ascending: best (cheapest) first, one row per price. -/
def AskSorted (rows : List Row) : Prop := rows.Pairwise (fun a b => Fl.lt a.price b.price = true)

/-- Bids strictly descending: best (dearest) first, one row per price. -/
def BidSorted (rows : List Row) : Prop := rows.Pairwise (fun a b => Fl.gt a.price b.price = true)

/-- No row has a NaN price. -/
def NumPrices (rows : List Row) : Prop := ∀ r ∈ rows, r.price ≠ .nan

/-- A book with real prices whose sides are strictly sorted. -/
structure WellFormed (b : Book) : Prop where
  asks_num : NumPrices b.asks
  bids_num : NumPrices b.bids
  asks_sorted : AskSorted b.asks
  bids_sorted : BidSorted b.bids

/-- Each side has at most `MaxDepth` rows. -/
def DepthOk (b : Book) : Prop :=
  (b.asks.length : Int) ≤ b.maxDepth ∧ (b.bids.length : Int) ≤ b.maxDepth

/-- No bid is above an ask. -/
def Uncrossed (b : Book) : Prop :=
  ∀ x ∈ b.bids, ∀ y ∈ b.asks, Fl.le x.price y.price = true

/-- Every bid is strictly below every ask. -/
def Unlocked (b : Book) : Prop :=
  ∀ x ∈ b.bids, ∀ y ∈ b.asks, Fl.lt x.price y.price = true

/-- Ask side with level `p` set to `v`: cheaper rows, the level, dearer rows. -/
def setAsk (rows : List Row) (p v : Fl) : List Row :=
  rows.filter (fun r => Fl.lt r.price p) ++ [⟨p, v, .fin 0⟩] ++
    rows.filter (fun r => Fl.gt r.price p)

/-- Bid side with level `p` set to `v`: dearer rows, the level, cheaper rows. -/
def setBid (rows : List Row) (p v : Fl) : List Row :=
  rows.filter (fun r => Fl.gt r.price p) ++ [⟨p, v, .fin 0⟩] ++
    rows.filter (fun r => Fl.lt r.price p)

/-- Side without level `p`. -/
def deleteLevel (rows : List Row) (p : Fl) : List Row :=
  rows.filter (fun r => !(Fl.eq r.price p))

/-- The rows of a side by its name. -/
def side (b : Book) (s : String) : List Row := if s = "ask" then b.asks else b.bids

/-- Volume written by the latest update of `side` at price `p`, if there is one. -/
def lastWrite (side : String) (p : Fl) (us : List Update) : Option Fl :=
  ((us.filter (fun u => u.side == side && Fl.eq u.price p)).getLast?).map (·.volume)

/-- No update has a NaN price. -/
def NumUpdates (us : List Update) : Prop := ∀ u ∈ us, u.price ≠ .nan

/-- Left-to-right float sum of a list, starting from its first element. -/
def runningSum (S : FloatSem) : List Fl → Fl
  | [] => .fin 0
  | v :: vs => vs.foldl S.add v

/-- `AccumVolume` of every row is the running sum of the volumes up to it. -/
def AccumOk (S : FloatSem) (rows : List Row) : Prop :=
  ∀ i (h : i < rows.length), rows[i].accum = runningSum S ((rows.take (i + 1)).map (·.volume))

/-- The volume the side shows at price `p`, if any. -/
def volumeAt (rows : List Row) (p : Fl) : Option Fl :=
  (rows.find? (fun r => Fl.eq r.price p)).map (·.volume)

/-! Decidability, used only to check concrete examples. -/

instance (rows) : Decidable (AskSorted rows) := by unfold AskSorted; infer_instance
instance (rows) : Decidable (BidSorted rows) := by unfold BidSorted; infer_instance
instance (rows) : Decidable (NumPrices rows) := by unfold NumPrices; infer_instance
instance (us) : Decidable (NumUpdates us) := by unfold NumUpdates; infer_instance
instance (b) : Decidable (DepthOk b) := by unfold DepthOk; infer_instance
instance (b) : Decidable (Uncrossed b) := by unfold Uncrossed; infer_instance
instance (b) : Decidable (Unlocked b) := by unfold Unlocked; infer_instance
instance (b) : Decidable (WellFormed b) :=
  decidable_of_iff (NumPrices b.asks ∧ NumPrices b.bids ∧ AskSorted b.asks ∧ BidSorted b.bids)
    ⟨fun h => ⟨h.1, h.2.1, h.2.2.1, h.2.2.2⟩,
     fun h => ⟨h.asks_num, h.bids_num, h.asks_sorted, h.bids_sorted⟩⟩

end Finmod.Spec
