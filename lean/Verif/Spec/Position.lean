import Verif.Model.Position

/-!
# Specification vocabulary for positions
-/

namespace Finmod.Spec
open Go

/-- A trade with a finite price and a positive finite quantity. -/
def GoodTrade (t : Trade) : Prop :=
  t.price.isFinite = true ∧ t.quantity.isFinite = true ∧ 0 < t.quantity.toRat

instance (t) : Decidable (GoodTrade t) := by unfold GoodTrade; infer_instance

/-- The trade buys or sells. -/
def BuyOrSell (t : Trade) : Prop := t.action = "buy" ∨ t.action = "sell"

instance (t) : Decidable (BuyOrSell t) := by unfold BuyOrSell; infer_instance

/-- Money received (negative: paid) in a trade. -/
def cash (t : Trade) : ℚ :=
  if t.action = "buy" then -(t.price.toRat * t.quantity.toRat) else t.price.toRat * t.quantity.toRat

/-- Units bought (negative: sold) in a trade. -/
def units (t : Trade) : ℚ := if t.action = "buy" then t.quantity.toRat else -t.quantity.toRat

/-- The sign of a position: +1 long, -1 short. -/
def posSign (p : Position) : ℚ := if p.type = "long" then 1 else -1

/-- The trades of a history that show up in the position's log. -/
def applied (S : FloatSem) (p : Position) : List Trade → List Trade
  | [] => []
  | t :: ts =>
    if (modified S p t).trades = p.trades then applied S (modified S p t) ts
    else t :: applied S (modified S p t) ts

/-- The trade reduces the position (sell on a long, buy on a short). -/
def Reduces (p : Position) (t : Trade) : Prop :=
  (p.type = "long" ∧ t.action = "sell") ∨ (p.type = "short" ∧ t.action = "buy")

/-- The trade adds to the position. -/
def Adds (p : Position) (t : Trade) : Prop :=
  (p.type = "long" ∧ t.action = "buy") ∨ (p.type = "short" ∧ t.action = "sell")

instance (p t) : Decidable (Reduces p t) := by unfold Reduces; infer_instance
instance (p t) : Decidable (Adds p t) := by unfold Adds; infer_instance

/-- A reducing trade larger than the position by more than 0.0001. -/
def Oversized (S : FloatSem) (p : Position) (t : Trade) : Prop :=
  Fl.lt (S.sub p.quantity t.quantity) (.fin 0) = true ∧
  Fl.lt (S.sub p.quantity t.quantity) (S.const (-1 / 10000)) = true

instance (S p t) : Decidable (Oversized S p t) := by unfold Oversized; infer_instance

/-- The trade will be applied: same pair, and it adds, or it reduces and is not oversized. -/
def Accepts (S : FloatSem) (p : Position) (t : Trade) : Prop :=
  p.pair = t.pair ∧ (Adds p t ∨ (Reduces p t ∧ ¬ Oversized S p t))

instance (S p t) : Decidable (Accepts S p t) := by unfold Accepts; infer_instance

/-- A position with finite open price and positive finite quantity that is long or short. -/
structure Sound (p : Position) : Prop where
  price : p.openPrice.isFinite = true
  qty : p.quantity.isFinite = true
  pos : 0 < p.quantity.toRat
  type : p.type = "long" ∨ p.type = "short"

/-- A trade as a float64 program sees it: price up to 2^100, quantity between 2^-100 and 2^100,
both numbers a float64 can hold. -/
structure FloatTrade (t : Trade) : Prop where
  price : t.price.isFinite = true
  qty : t.quantity.isFinite = true
  priceRep : ieee.Rep t.price
  qtyRep : ieee.Rep t.quantity
  price_nonneg : 0 ≤ t.price.toRat
  price_le : t.price.toRat ≤ 2 ^ (100 : ℤ)
  qty_ge : 2 ^ (-100 : ℤ) ≤ t.quantity.toRat
  qty_le : t.quantity.toRat ≤ 2 ^ (100 : ℤ)

end Finmod.Spec
