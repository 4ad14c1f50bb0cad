import Verif.Model.Candle

/-!
# Specification vocabulary for candles
-/

namespace Finmod.Spec
open Go

/-- `y` is `x` printed with five decimals and read back: NaN and infinities stay, a finite `q`
becomes the float nearest to some multiple of 0.00001 at distance at most 0.000005. -/
def Rounded5 (S : FloatSem) (x y : Fl) : Prop :=
  (x.isFinite = false ∧ y = x) ∨
  (x.isFinite = true ∧ ∃ n : ℤ, |x.toRat * 100000 - n| ≤ 1 / 2 ∧
    (y = S.rnd ((n : ℚ) / 100000) ∨ (n = 0 ∧ y.Is 0)))

/-- Left-to-right float sum of the volumes. -/
def volumeSum (S : FloatSem) (g : List Candle) : Fl :=
  (g.map (·.volume)).foldl S.add (.fin 0)

/-- `c` is the OHLCV summary of the non-empty group `g`. The bounds -1e308 and 1e308 are the
code's starting values: they show only if no high is above (no low below) them. -/
structure Summary (S : FloatSem) (g : List Candle) (c : Candle) : Prop where
  time : (g.head?).map (·.time) = some c.time
  opn : (g.head?).map (·.opn) = some c.opn
  close : (g.getLast?).map (·.close) = some c.close
  high_ub : ∀ v ∈ g, v.high ≠ .nan → S.const (-10 ^ 308) ≠ .nan → Fl.le v.high c.high = true
  high_mem : (∃ v ∈ g, v.high = c.high) ∨
    (c.high = S.const (-10 ^ 308) ∧ ∀ v ∈ g, Fl.gt v.high (S.const (-10 ^ 308)) = false)
  low_lb : ∀ v ∈ g, v.low ≠ .nan → S.const (10 ^ 308) ≠ .nan → Fl.le c.low v.low = true
  low_mem : (∃ v ∈ g, v.low = c.low) ∨
    (c.low = S.const (10 ^ 308) ∧ ∀ v ∈ g, Fl.lt v.low (S.const (10 ^ 308)) = false)
  volume : Rounded5 S (volumeSum S g) c.volume

/-- The minute part of an interval: itself up to 60, else its remainder by 60; 60 for 0. -/
def minutePart (interval : Int) : Int :=
  let m := if interval > 60 then interval % 60 else interval
  if m = 0 then 60 else m

/-- The local minute of the candle is 0 or a multiple of the interval's minute part. -/
def Aligned (minute : Int → Int) (interval : Int) (c : Candle) : Prop :=
  minute c.time = 0 ∨ minutePart interval ∣ minute c.time

instance (minute interval c) : Decidable (Aligned minute interval c) := by
  unfold Aligned; infer_instance

/-- A candle whose prices are ordered and within the code's working range. -/
structure OkCandle (S : FloatSem) (c : Candle) : Prop where
  low_open : Fl.le c.low c.opn = true
  low_close : Fl.le c.low c.close = true
  open_high : Fl.le c.opn c.high = true
  close_high : Fl.le c.close c.high = true
  high_range : Fl.gt c.high (S.const (-10 ^ 308)) = true
  low_range : Fl.lt c.low (S.const (10 ^ 308)) = true

/-- One candle every `d` minutes, with times a float represents exactly. -/
def Regular (d : Nat) (cs : List Candle) : Prop :=
  (∀ c ∈ cs, |c.time| ≤ 2 ^ 53) ∧
  ∀ i (h : i < cs.length), cs[i].time = (cs[0]'(by omega)).time + 60 * d * i

/-- The volume is a multiple of 0.00001 (and not negative zero). -/
def OnGrid (c : Candle) : Prop := ∃ n : ℤ, c.volume = .fin ((n : ℚ) / 100000)

end Finmod.Spec
