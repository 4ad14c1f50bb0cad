import Verif.Props.PositionAccuracy

/-!
# C286: trades divided among positions
-/

namespace Finmod
open Go Spec

/-- A position from its opening to its closing trade. -/
structure Spec.Deal where
  id : String
  time : Int
  first : Trade
  hist : List Trade
  last : Trade

/-- The position before the closing trade. -/
def Spec.Deal.before (S : FloatSem) (d : Deal) : Position := modifiedAll S (newPosition d.id d.time d.first) d.hist

/-- The position after the closing trade. -/
def Spec.Deal.after (S : FloatSem) (d : Deal) : Position := modified S (d.before S) d.last

/-- The trades that were applied. -/
def Spec.Deal.log (S : FloatSem) (d : Deal) : List Trade := d.first :: applied S (newPosition d.id d.time d.first) d.hist ++ [d.last]

/-- Good trades; the position is open before the last trade, which is for exactly what is open and goes the other way. -/
structure Spec.Deal.Exact (d : Deal) : Prop where
  first_good : GoodTrade d.first
  first_action : BuyOrSell d.first
  hist_good : ∀ t ∈ d.hist, GoodTrade t
  last_good : GoodTrade d.last
  last_action : BuyOrSell d.last
  opposite : d.last.action ≠ d.first.action
  pair : d.last.pair = d.first.pair
  opened : (d.before FloatSem.exact).opened = true
  quantity : d.last.quantity.toRat = (d.before FloatSem.exact).quantity.toRat

/-- Trades of float64; the position is open before the last trade and closed after it. -/
structure Spec.Deal.Float (d : Deal) : Prop where
  first_good : FloatTrade d.first
  first_action : BuyOrSell d.first
  hist_good : ∀ t ∈ d.hist, FloatTrade t
  last_good : FloatTrade d.last
  opened : (d.before ieee).opened = true
  closed : (d.after ieee).opened = false
  short : (d.log ieee).length ≤ 2 ^ 40

/-- The bound of C112 on the rounding error of the profit. -/
def Spec.Deal.err (d : Deal) : ℚ :=
  (d.log ieee).length * (32 * (2 ^ (-53 : ℤ) * ((d.log ieee).map fun t => |cash t|).sum) + 2 ^ (-800 : ℤ)) +
    2 * (d.last.price.toRat * |(d.before ieee).quantity.toRat - d.last.quantity.toRat|)

theorem sum_flatMap {α : Type} (f : α → List Trade) (l : List α) :
    ((l.flatMap f).map cash).sum = (l.map fun d => ((f d).map cash).sum).sum := by
  induction l with
  | nil => rfl
  | cons a l ih => simp [List.flatMap_cons, ih]

theorem deals_exact {ds : List Deal} (h : ∀ d ∈ ds, d.Exact) :
    (ds.map fun d => (d.after FloatSem.exact).profit.toRat).sum = ((ds.flatMap fun d => d.log FloatSem.exact).map cash).sum := by
  rw [sum_flatMap]
  congr 1
  apply List.map_congr_left
  intro d hd
  obtain ⟨h1, h2, h3, h4, h5, h6, h7, h8, h9⟩ := h d hd
  exact (C40_profit_is_net_cash (id := d.id) (z := d.time) h1 h2 h3 h4 h5 h6 h7 h8 h9).2.2.toRat

/-- **C286, in exact arithmetic** However the same trades are divided among positions that are all closed, the profits add up to the same. -/
theorem C286_divided {ds es : List Deal} (hd : ∀ d ∈ ds, d.Exact) (he : ∀ d ∈ es, d.Exact)
    (h : (ds.flatMap fun d => d.log FloatSem.exact).Perm (es.flatMap fun d => d.log FloatSem.exact)) :
    (ds.map fun d => (d.after FloatSem.exact).profit.toRat).sum = (es.map fun d => (d.after FloatSem.exact).profit.toRat).sum := by
  rw [deals_exact hd, deals_exact he]
  exact (h.map cash).sum_eq

theorem deals_float {ds : List Deal} (h : ∀ d ∈ ds, d.Float) :
    |(ds.map fun d => (d.after ieee).profit.toRat).sum - ((ds.flatMap fun d => d.log ieee).map cash).sum| ≤ (ds.map Deal.err).sum := by
  induction ds with
  | nil => simp
  | cons d ds ih =>
    obtain ⟨h1, h2, h3, h4, h5, h6, h7⟩ := h d (by simp)
    have a := (C112_profit (id := d.id) (z := d.time) h1 h2 h3 h4 h5 h6 h7).2
    have b := ih fun x hx => h x (by simp [hx])
    have a' : |(d.after ieee).profit.toRat - ((d.log ieee).map cash).sum| ≤ d.err := a
    simp only [List.map_cons, List.sum_cons, List.flatMap_cons, List.map_append, List.sum_append]
    rw [abs_le] at a' b ⊢
    constructor <;> linarith [a'.1, a'.2, b.1, b.2]

/-- **C286, in float64** The two sums differ by at most the rounding errors of all the positions. -/
theorem C286_near {ds es : List Deal} (hd : ∀ d ∈ ds, d.Float) (he : ∀ d ∈ es, d.Float)
    (h : (ds.flatMap fun d => d.log ieee).Perm (es.flatMap fun d => d.log ieee)) :
    |(ds.map fun d => (d.after ieee).profit.toRat).sum - (es.map fun d => (d.after ieee).profit.toRat).sum| ≤
      (ds.map Deal.err).sum + (es.map Deal.err).sum := by
  have a := deals_float hd
  have b := deals_float he
  rw [← (h.map cash).sum_eq] at b
  rw [abs_le] at a b ⊢
  constructor <;> linarith [a.1, a.2, b.1, b.2]

/-- Two positions, bought at 10 and 20, sold at 30 and 35; and one with all four trades. -/
def exDeals : List Deal := [⟨"p", 0, exTrade "a" "buy" 10 1, [], exTrade "c" "sell" 30 1⟩, ⟨"q", 0, exTrade "b" "buy" 20 2, [], exTrade "d" "sell" 35 2⟩]

/-- See `exDeals`. -/
def exDeal : Deal := ⟨"p", 0, exTrade "a" "buy" 10 1, [exTrade "b" "buy" 20 2, exTrade "c" "sell" 30 1], exTrade "d" "sell" 35 2⟩

example : (∀ d ∈ exDeals, d.Exact) ∧ exDeal.Exact ∧
    (exDeals.flatMap fun d => d.log FloatSem.exact).Perm ([exDeal].flatMap fun d => d.log FloatSem.exact) ∧
    (exDeals.map fun d => (d.after FloatSem.exact).profit) = [.fin 20, .fin 30] ∧ (exDeal.after FloatSem.exact).profit = .fin 50 := by
  refine ⟨?_, ?_, ?_, by decide +kernel, by decide +kernel⟩
  · intro d hd
    simp only [exDeals, List.mem_cons, List.not_mem_nil, or_false] at hd
    rcases hd with rfl | rfl <;> constructor <;> decide +kernel
  · constructor <;> decide +kernel
  · have e1 : (exDeals.flatMap fun d => d.log FloatSem.exact) =
        [exTrade "a" "buy" 10 1, exTrade "c" "sell" 30 1, exTrade "b" "buy" 20 2, exTrade "d" "sell" 35 2] := by decide +kernel
    have e2 : ([exDeal].flatMap fun d => d.log FloatSem.exact) =
        [exTrade "a" "buy" 10 1, exTrade "b" "buy" 20 2, exTrade "c" "sell" 30 1, exTrade "d" "sell" 35 2] := by decide +kernel
    rw [e1, e2]
    exact (List.Perm.swap _ _ _).cons _

example : (∀ d ∈ exDeals, d.Float) ∧ exDeal.Float ∧
    (exDeals.flatMap fun d => d.log ieee) = [exTrade "a" "buy" 10 1, exTrade "c" "sell" 30 1, exTrade "b" "buy" 20 2, exTrade "d" "sell" 35 2] ∧
    ([exDeal].flatMap fun d => d.log ieee) = [exTrade "a" "buy" 10 1, exTrade "b" "buy" 20 2, exTrade "c" "sell" 30 1, exTrade "d" "sell" 35 2] := by
  have a : FloatTrade (exTrade "a" "buy" 10 1) := floatTrade_of (by decide +kernel)
  have b : FloatTrade (exTrade "b" "buy" 20 2) := floatTrade_of (by decide +kernel)
  have c : FloatTrade (exTrade "c" "sell" 30 1) := floatTrade_of (by decide +kernel)
  have d : FloatTrade (exTrade "d" "sell" 35 2) := floatTrade_of (by decide +kernel)
  refine ⟨?_, ⟨a, by decide +kernel, ?_, d, by decide +kernel, by decide +kernel, by decide +kernel⟩, by decide +kernel, by decide +kernel⟩
  · intro x hx
    simp only [exDeals, List.mem_cons, List.not_mem_nil, or_false] at hx
    rcases hx with rfl | rfl
    · exact ⟨a, by decide +kernel, by simp, c, by decide +kernel, by decide +kernel, by decide +kernel⟩
    · exact ⟨b, by decide +kernel, by simp, d, by decide +kernel, by decide +kernel, by decide +kernel⟩
  · intro t ht
    simp only [exDeal, List.mem_cons, List.not_mem_nil, or_false] at ht
    rcases ht with rfl | rfl
    exacts [b, c]

end Finmod
