import Verif.Model.Fractals

/-!
# What the fractal properties talk about
-/

namespace Finmod.Spec
open Go

/-- The price a fractal of this type looks at: the high for up, the low for down. -/
def price (t : FractalType) (c : Candle) : Fl :=
  match t with
  | .up => c.high
  | .down => c.low

/-- `a` is strictly more extreme than `b`: higher for up fractals, lower for down fractals. -/
def beats (t : FractalType) (a b : Fl) : Bool :=
  match t with
  | .up => Fl.lt b a
  | .down => Fl.lt a b

/-- Candle `m` is strictly more extreme than the two candles on each side. -/
def localExtreme (t : FractalType) (cs : List Candle) (m : Nat) : Bool :=
  match cs[m - 2]?, cs[m - 1]?, cs[m]?, cs[m + 1]?, cs[m + 2]? with
  | some a, some b, some c, some d, some e =>
    beats t (price t c) (price t a) && beats t (price t c) (price t b) &&
    beats t (price t c) (price t d) && beats t (price t c) (price t e)
  | _, _, _, _, _ => false

/-- The fractals candle `m` should give. -/
def fractalsAt (cs : List Candle) (m : Nat) : List WilliamFractal :=
  match cs[m]? with
  | none => []
  | some c =>
    (if localExtreme .up cs m then [⟨c.time, c.high, .up⟩] else []) ++
    (if localExtreme .down cs m then [⟨c.time, c.low, .down⟩] else [])

/-- No high or low is NaN. -/
def NoNaN (cs : List Candle) : Prop := ∀ c ∈ cs, c.high ≠ .nan ∧ c.low ≠ .nan

/-- No candle has the same high, or the same low, as one of the two candles after it. -/
def NoTies (cs : List Candle) : Prop :=
  ∀ (m d : Nat) (c e : Candle), cs[m]? = some c → (d = 1 ∨ d = 2) → cs[m + d]? = some e →
    Fl.eq c.high e.high = false ∧ Fl.eq c.low e.low = false

/-- How many of the candles `m+1 .. j-1` are strictly less extreme than candle `m`. -/
def weaker (t : FractalType) (cs : List Candle) (m j : Nat) (c : Candle) : Nat :=
  ((cs.drop (m + 1)).take (j - (m + 1))).countP fun e => beats t (price t c) (price t e)

end Finmod.Spec
