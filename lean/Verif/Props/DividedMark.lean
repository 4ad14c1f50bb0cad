import Verif.Props.Divided
import Verif.Props.MarkRange

/-!
# C287: what several positions are worth together
-/

namespace Finmod
open Go Spec

/-- An open position: its first trade and what came after. -/
structure Spec.Stake where
  id : String
  time : Int
  first : Trade
  hist : List Trade

/-- The position now. -/
def Spec.Stake.now (S : FloatSem) (d : Stake) : Position := modifiedAll S (newPosition d.id d.time d.first) d.hist

/-- The trades that were applied. -/
def Spec.Stake.log (S : FloatSem) (d : Stake) : List Trade := d.first :: applied S (newPosition d.id d.time d.first) d.hist

/-- Good trades that leave the position open. -/
structure Spec.Stake.Exact (d : Stake) : Prop where
  first_good : GoodTrade d.first
  first_action : BuyOrSell d.first
  hist_good : ∀ t ∈ d.hist, GoodTrade t
  opened : (d.now FloatSem.exact).opened = true

/-- Trades of float64 that leave the position open. -/
structure Spec.Stake.Float (d : Stake) : Prop where
  first_good : FloatTrade d.first
  first_action : BuyOrSell d.first
  hist_good : ∀ t ∈ d.hist, FloatTrade t
  opened : (d.now ieee).opened = true
  short : (d.log ieee).length ≤ 2 ^ 40

/-- The bound of C245 on the rounding error of the unrealized profit at the price `x`. -/
def Spec.Stake.err (x : ℚ) (d : Stake) : ℚ :=
  (d.log ieee).length * (38 * (2 ^ (-53 : ℤ) * (((d.log ieee).map fun t => |cash t|).sum +
    |x| * ((d.log ieee).map fun t => |units t|).sum)) + 2 ^ (-799 : ℤ))

/-- The bound of C112, and the units that the closing trade left unaccounted for, at the price `x`. -/
def Spec.Deal.errAt (x : ℚ) (d : Deal) : ℚ := d.err + |x| * |((d.log ieee).map units).sum|

/-- All the trades of open and closed positions. -/
def Spec.allTrades (S : FloatSem) (os : List Stake) (ds : List Deal) : List Trade :=
  (os.flatMap fun d => d.log S) ++ ds.flatMap fun d => d.log S

/-- What open and closed positions have made together: unrealized profits at the price, and profits. -/
def Spec.together (S : FloatSem) (price : Fl) (os : List Stake) (ds : List Deal) : ℚ :=
  (os.map fun d => (unrealizedProfit S (d.now S) price).toRat).sum + (ds.map fun d => (d.after S).profit.toRat).sum

/-- A trade's money and its units at the price `x`. -/
def worthAt (x : ℚ) (t : Trade) : ℚ := cash t + x * units t

theorem sum_worthAt (x : ℚ) (l : List Trade) : (l.map (worthAt x)).sum = (l.map cash).sum + x * (l.map units).sum := by
  induction l with
  | nil => simp
  | cons t l ih => simp only [List.map_cons, List.sum_cons, ih, worthAt]; ring

theorem sum_worthAt_flatMap {α : Type} (x : ℚ) (f : α → List Trade) (l : List α) :
    ((l.flatMap f).map (worthAt x)).sum = (l.map fun d => ((f d).map (worthAt x)).sum).sum := by
  induction l with
  | nil => rfl
  | cons a l ih => simp [List.flatMap_cons, ih]

theorem stake_worth {d : Stake} (h : d.Exact) {price : Fl} (hp : price.isFinite = true) :
    (unrealizedProfit FloatSem.exact (d.now FloatSem.exact) price).toRat = ((d.log FloatSem.exact).map (worthAt price.toRat)).sum := by
  obtain ⟨h1, h2, h3, h4⟩ := h
  obtain ⟨hq, -, hb⟩ := C41_cost_basis (id := d.id) (z := d.time) h1 h2 h3 h4
  have hs := sound_modifiedAll (sound_newPosition (id := d.id) (z := d.time) h1 h2) h3
  have hsg : posSign (d.now FloatSem.exact) = if d.first.action = "buy" then 1 else -1 := by
    rw [← posSign_new (id := d.id) (z := d.time) h2, posSign, posSign, Stake.now, type_modifiedAll]
  have hu := (unrealizedProfit_exact hs (Fl.is_iff.2 ⟨hp, rfl⟩)).toRat
  rw [sum_worthAt]
  unfold Stake.now Stake.log at *
  rw [hu, hsg, sub_mul, hb, hq.toRat]
  split <;> ring

theorem deal_worth {d : Deal} (h : d.Exact) (x : ℚ) :
    (d.after FloatSem.exact).profit.toRat = ((d.log FloatSem.exact).map (worthAt x)).sum := by
  obtain ⟨h1, h2, h3, h4, h5, h6, h7, h8, h9⟩ := h
  have hc := (C40_profit_is_net_cash (id := d.id) (z := d.time) h1 h2 h3 h4 h5 h6 h7 h8 h9).2.2.toRat
  obtain ⟨hq, -, -⟩ := C41_cost_basis (id := d.id) (z := d.time) h1 h2 h3 h8
  have hu : ((d.log FloatSem.exact).map units).sum = 0 := by
    have e := h9.trans hq.toRat
    unfold Deal.log
    rw [List.map_append, List.sum_append, List.map_singleton, List.sum_singleton]
    rcases h2 with a | a <;> rcases h5 with b | b
    · exact absurd (b.trans a.symm) h6
    · simp only [a, if_true, one_mul] at e
      simp only [units, b] at e ⊢
      simp only [show ("sell" : String) ≠ "buy" by decide, if_false, e]
      ring
    · simp only [a, show ("sell" : String) ≠ "buy" by decide, if_false] at e
      simp only [units, b, if_true] at e ⊢
      rw [e]
      ring
    · exact absurd (b.trans a.symm) h6
  rw [sum_worthAt, hu, mul_zero, add_zero]
  exact hc

theorem together_exact {price : Fl} (hp : price.isFinite = true) {os : List Stake} {ds : List Deal} (ho : ∀ d ∈ os, d.Exact)
    (hd : ∀ d ∈ ds, d.Exact) :
    together FloatSem.exact price os ds = ((allTrades FloatSem.exact os ds).map (worthAt price.toRat)).sum := by
  unfold together allTrades
  rw [List.map_append, List.sum_append, sum_worthAt_flatMap, sum_worthAt_flatMap]
  congr 2
  · exact List.map_congr_left fun d h => stake_worth (ho d h) hp
  · exact List.map_congr_left fun d h => deal_worth (hd d h) _

/-- **C287, in exact arithmetic** Open positions marked at one price and closed positions make together what the trades make,
however the trades are divided among them. -/
theorem C287_together {price : Fl} (hp : price.isFinite = true) {os os' : List Stake} {ds ds' : List Deal}
    (ho : ∀ d ∈ os, d.Exact) (hd : ∀ d ∈ ds, d.Exact) (ho' : ∀ d ∈ os', d.Exact) (hd' : ∀ d ∈ ds', d.Exact)
    (h : (allTrades FloatSem.exact os ds).Perm (allTrades FloatSem.exact os' ds')) :
    together FloatSem.exact price os ds = together FloatSem.exact price os' ds' := by
  rw [together_exact hp ho hd, together_exact hp ho' hd']
  exact (h.map _).sum_eq

/-- **C287, in exact arithmetic** It is the money of all the trades and their units at the price. -/
theorem C287_worth {price : Fl} (hp : price.isFinite = true) {os : List Stake} {ds : List Deal} (ho : ∀ d ∈ os, d.Exact)
    (hd : ∀ d ∈ ds, d.Exact) :
    together FloatSem.exact price os ds =
      ((allTrades FloatSem.exact os ds).map cash).sum + price.toRat * ((allTrades FloatSem.exact os ds).map units).sum := by
  rw [together_exact hp ho hd, sum_worthAt]

theorem sums_within {α : Type} (f g e : α → ℚ) {l : List α} (h : ∀ d ∈ l, |f d - g d| ≤ e d) :
    |(l.map f).sum - (l.map g).sum| ≤ (l.map e).sum := by
  induction l with
  | nil => simp
  | cons d l ih =>
    have a := h d (by simp)
    have b := ih fun x hx => h x (by simp [hx])
    simp only [List.map_cons, List.sum_cons]
    rw [abs_le] at a b ⊢
    constructor <;> linarith [a.1, a.2, b.1, b.2]

theorem together_float {price : Fl} (hp : price.isFinite = true) (hr : ieee.Rep price) (hle : |price.toRat| ≤ 2 ^ (100 : ℤ))
    {os : List Stake} {ds : List Deal} (ho : ∀ d ∈ os, d.Float) (hd : ∀ d ∈ ds, d.Float) :
    |together ieee price os ds - ((allTrades ieee os ds).map (worthAt price.toRat)).sum| ≤
      (os.map (Stake.err price.toRat)).sum + (ds.map (Deal.errAt price.toRat)).sum := by
  unfold together allTrades
  rw [List.map_append, List.sum_append, sum_worthAt_flatMap, sum_worthAt_flatMap]
  have a := sums_within (fun d : Stake => (unrealizedProfit ieee (d.now ieee) price).toRat)
    (fun d => ((d.log ieee).map (worthAt price.toRat)).sum) (Stake.err price.toRat) (l := os) fun d h => by
      obtain ⟨h1, h2, h3, h4, h5⟩ := ho d h
      have := (C245_mark (id := d.id) (z := d.time) h1 h2 h3 h4 hp hr hle h5).2
      simp only [sum_worthAt]
      exact this
  have b := sums_within (fun d : Deal => (d.after ieee).profit.toRat)
    (fun d => ((d.log ieee).map (worthAt price.toRat)).sum) (Deal.errAt price.toRat) (l := ds) fun d h => by
      obtain ⟨h1, h2, h3, h4, h5, h6, h7⟩ := hd d h
      have a : |(d.after ieee).profit.toRat - ((d.log ieee).map cash).sum| ≤ d.err :=
        (C112_profit (id := d.id) (z := d.time) h1 h2 h3 h4 h5 h6 h7).2
      simp only [sum_worthAt, Deal.errAt]
      rw [← abs_mul, ← sub_sub]
      exact (abs_sub _ _).trans (by linarith)
  rw [abs_le] at a b ⊢
  constructor <;> linarith [a.1, a.2, b.1, b.2]

/-- **C287, in float64** The two differ by at most the rounding errors of all the positions. -/
theorem C287_near {price : Fl} (hp : price.isFinite = true) (hr : ieee.Rep price) (hle : |price.toRat| ≤ 2 ^ (100 : ℤ))
    {os os' : List Stake} {ds ds' : List Deal}
    (ho : ∀ d ∈ os, d.Float) (hd : ∀ d ∈ ds, d.Float) (ho' : ∀ d ∈ os', d.Float) (hd' : ∀ d ∈ ds', d.Float)
    (h : (allTrades ieee os ds).Perm (allTrades ieee os' ds')) :
    |together ieee price os ds - together ieee price os' ds'| ≤
      ((os.map (Stake.err price.toRat)).sum + (ds.map (Deal.errAt price.toRat)).sum) +
      ((os'.map (Stake.err price.toRat)).sum + (ds'.map (Deal.errAt price.toRat)).sum) := by
  have a := together_float hp hr hle ho hd
  have b := together_float hp hr hle ho' hd'
  rw [← (h.map (worthAt price.toRat)).sum_eq] at b
  rw [abs_le] at a b ⊢
  constructor <;> linarith [a.1, a.2, b.1, b.2]

/-- A position bought at 20 that is still open, beside one bought at 10 and sold at 30; and one with all three trades. -/
def exStake : Stake := ⟨"q", 0, exTrade "b" "buy" 20 2, []⟩

/-- See `exStake`. -/
def exClosed : Deal := ⟨"p", 0, exTrade "a" "buy" 10 1, [], exTrade "c" "sell" 30 1⟩

/-- See `exStake`. -/
def exAll : Stake := ⟨"p", 0, exTrade "b" "buy" 20 2, [exTrade "a" "buy" 10 1, exTrade "c" "sell" 30 1]⟩

example : exStake.Exact ∧ exClosed.Exact ∧ exAll.Exact ∧
    allTrades FloatSem.exact [exStake] [exClosed] = allTrades FloatSem.exact [exAll] [] ∧
    together FloatSem.exact (.fin 35) [exStake] [exClosed] = 50 ∧ together FloatSem.exact (.fin 35) [exAll] [] = 50 := by
  refine ⟨?_, ?_, ?_, by decide +kernel, by decide +kernel, by decide +kernel⟩ <;> constructor <;> decide +kernel

example : exStake.Float ∧ exClosed.Float ∧ exAll.Float ∧
    allTrades ieee [exStake] [exClosed] = allTrades ieee [exAll] [] := by
  have a : FloatTrade (exTrade "a" "buy" 10 1) := floatTrade_of (by decide +kernel)
  have b : FloatTrade (exTrade "b" "buy" 20 2) := floatTrade_of (by decide +kernel)
  have c : FloatTrade (exTrade "c" "sell" 30 1) := floatTrade_of (by decide +kernel)
  refine ⟨⟨b, by decide +kernel, by simp [exStake], by decide +kernel, by decide +kernel⟩,
    ⟨a, by decide +kernel, by simp [exClosed], c, by decide +kernel, by decide +kernel, by decide +kernel⟩,
    ⟨b, by decide +kernel, ?_, by decide +kernel, by decide +kernel⟩, by decide +kernel⟩
  intro t ht
  simp only [exAll, List.mem_cons, List.not_mem_nil, or_false] at ht
  rcases ht with rfl | rfl
  exacts [a, c]

end Finmod
