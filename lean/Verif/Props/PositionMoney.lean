import Mathlib.Tactic.LinearCombination
import Verif.Lemmas.Position

/-!
# Positions: money (C40–C43, C50)

All statements here are about exact arithmetic: the values of prices and quantities are
arbitrary rationals.
-/

namespace Finmod
open Go Spec

/-- A pair used by the examples. -/
def exPair : Pair := ⟨⟨"Bitcoin", "BTC", ""⟩, ⟨"Dollar", "USD", ""⟩⟩
/-- A trade used by the examples. -/
def exTrade (id action : String) (price qty : ℚ) : Trade :=
  ⟨id, 7, action, "market", exPair, .fin price, .fin qty, .fin 0, .fin (price * qty), ""⟩

theorem opposite_reduces {id : String} {z : Int} {first t : Trade} {hist : List Trade}
    {S : FloatSem} (hb : BuyOrSell first) (ht : BuyOrSell t) (hne : t.action ≠ first.action) :
    Reduces (modifiedAll S (newPosition id z first) hist) t := by
  have key : ∀ (hist : List Trade) (p : Position), (modifiedAll S p hist).type = p.type := by
    intro hist
    induction hist with
    | nil => intro p; rfl
    | cons a as ih =>
      intro p
      refine (ih (modified S p a)).trans ?_
      rcases modified_cases S p a with ⟨_, e⟩ | ⟨_, _, e⟩ | ⟨_, _, _, e⟩ | ⟨_, _, _, e⟩ <;> rw [e] <;> rfl
  unfold Reduces
  rw [key]
  rcases hb with h | h <;> rcases ht with h' | h' <;> simp_all [newPosition, buyAction, sellAction,
    longPosition, shortPosition]

theorem pair_modifiedAll {S : FloatSem} {hist : List Trade} {p : Position} :
    (modifiedAll S p hist).pair = p.pair := by
  induction hist generalizing p with
  | nil => rfl
  | cons a as ih =>
    refine (ih (p := modified S p a)).trans ?_
    rcases modified_cases S p a with ⟨_, e⟩ | ⟨_, _, e⟩ | ⟨_, _, _, e⟩ | ⟨_, _, _, e⟩ <;> rw [e] <;> rfl

/-- A reducing trade for exactly the open quantity closes. -/
theorem exactQuantity_closes {p : Position} {t : Trade} (hp : Sound p) (ht : GoodTrade t)
    (hr : Reduces p t) (hpair : p.pair = t.pair) (hq : t.quantity.toRat = p.quantity.toRat) :
    modified FloatSem.exact p t = closedBy FloatSem.exact p t := by
  have hs := FloatSem.exact_sub hp.is.2 ht.is.2
  rw [hq, sub_self] at hs
  have hle : Fl.le (FloatSem.exact.sub p.quantity t.quantity) (.fin 0) = true := by
    rw [hs.le (Fl.is_fin 0)]; simp
  have hlt : Fl.lt (FloatSem.exact.sub p.quantity t.quantity) (.fin 0) = false := by
    rw [hs.lt (Fl.is_fin 0)]; simp
  have hacc : Accepts FloatSem.exact p t := by
    refine ⟨hpair, .inr ⟨hr, ?_⟩⟩
    rintro ⟨h, _⟩
    rw [hlt] at h; cases h
  rcases modified_cases FloatSem.exact p t with ⟨h, _⟩ | ⟨_, h, _⟩ | ⟨_, _, _, e⟩ | ⟨_, _, h, _⟩
  · exact absurd hacc h
  · exact absurd hr (not_adds_and_reduces h)
  · exact e
  · rw [hle] at h; cases h

theorem closedBy_profit {p : Position} {t : Trade} (hp : Sound p) (ht : GoodTrade t) :
    (closedBy FloatSem.exact p t).profit.Is
      (posSign p * ((t.price.toRat - p.openPrice.toRat) * p.quantity.toRat)) := by
  unfold closedBy posSign
  rcases hp.type with h | h
  · simp only [h, longPosition, if_true, one_mul]
    exact FloatSem.exact_mul (FloatSem.exact_sub ht.is.1 hp.is.1) hp.is.2
  · simp only [h, longPosition]
    have e : -1 * ((t.price.toRat - p.openPrice.toRat) * p.quantity.toRat) =
      (p.openPrice.toRat - t.price.toRat) * p.quantity.toRat := by ring
    simp only [show ("short" : String) ≠ "long" by decide, if_false, e]
    exact FloatSem.exact_mul (FloatSem.exact_sub hp.is.1 ht.is.1) hp.is.2

theorem unrealizedProfit_exact {p : Position} (hp : Sound p) {c : Fl} {x : ℚ} (hc : c.Is x) :
    (unrealizedProfit FloatSem.exact p c).Is
      (posSign p * ((x - p.openPrice.toRat) * p.quantity.toRat)) := by
  unfold unrealizedProfit posSign
  rcases hp.type with h | h
  · simp only [h, longPosition, if_true, one_mul]
    exact FloatSem.exact_mul (FloatSem.exact_sub hc hp.is.1) hp.is.2
  · simp only [h, longPosition]
    have e : -1 * ((x - p.openPrice.toRat) * p.quantity.toRat) =
      (p.openPrice.toRat - x) * p.quantity.toRat := by ring
    simp only [show ("short" : String) ≠ "long" by decide, if_false, e]
    exact FloatSem.exact_mul (FloatSem.exact_sub hp.is.1 hc) hp.is.2

/-- **C40.** Open a position with a buy or sell, send it any history of trades (some may be
ignored or rejected) that leaves it open, then close it with the opposite action for exactly the
open quantity: `Profit` is the net cash flow (sales minus purchases) of the opening trade, the
trades that were applied and the closing trade. -/
theorem C40_profit_is_net_cash {id : String} {z : Int} {first last : Trade} {hist : List Trade}
    (hfirst : GoodTrade first) (hfa : BuyOrSell first) (hhist : ∀ t ∈ hist, GoodTrade t)
    (hlast : GoodTrade last) (hla : BuyOrSell last) (hopp : last.action ≠ first.action)
    (hpair : last.pair = first.pair)
    (hopen : (modifiedAll FloatSem.exact (newPosition id z first) hist).opened = true)
    (hq : last.quantity.toRat =
      (modifiedAll FloatSem.exact (newPosition id z first) hist).quantity.toRat) :
    let closed := modified FloatSem.exact
      (modifiedAll FloatSem.exact (newPosition id z first) hist) last
    closed.opened = false ∧ closed.closePrice = last.price ∧
    closed.profit.Is (((first ::
      applied FloatSem.exact (newPosition id z first) hist) ++ [last]).map cash).sum := by
  intro closed
  have hs0 := sound_newPosition (id := id) (z := z) hfirst hfa
  have hs := sound_modifiedAll hs0 hhist
  have hr := opposite_reduces (id := id) (z := z) (hist := hist) (S := FloatSem.exact) hfa hla hopp
  have hc : closed = _ := exactQuantity_closes hs hlast hr
    (by rw [pair_modifiedAll]; exact hpair.symm) hq
  obtain ⟨b1, b2, b3⟩ := basis_history hs0 hhist hopen
  refine ⟨by rw [hc]; rfl, by rw [hc]; rfl, ?_⟩
  rw [hc]
  have hprofit := closedBy_profit hs hlast
  convert hprofit using 1
  rw [b1, sub_mul, b3]
  have hsq : posSign (newPosition id z first) * posSign (newPosition id z first) = 1 := by
    unfold posSign; split <;> norm_num
  have hcl : posSign (newPosition id z first) * (last.price.toRat * last.quantity.toRat) = cash last := by
    clear hprofit b1 b2 b3 hc hr hs hs0 hq hsq hopen hhist
    rcases hfa with h | h <;> rcases hla with h' | h' <;>
      simp_all [posSign, cash, newPosition, buyAction, sellAction, longPosition, shortPosition]
  have hop : posSign (newPosition id z first) * (first.price.toRat * first.quantity.toRat) =
      -cash first := by
    clear hprofit b1 b2 b3 hc hr hs hs0 hq hsq hopen hhist hcl hopp
    rcases hfa with h | h <;>
      simp_all [posSign, cash, newPosition, buyAction, sellAction, longPosition, shortPosition]
  simp only [List.map_cons, List.map_append, List.map_nil, List.sum_cons,
    List.sum_append, List.sum_nil, List.cons_append]
  rw [← hq]
  have e1 : (newPosition id z first).openPrice.toRat = first.price.toRat := rfl
  have e2 : (newPosition id z first).quantity.toRat = first.quantity.toRat := rfl
  rw [e1, e2]
  linear_combination (-1 : ℚ) * hcl + hop +
    (-((applied FloatSem.exact (newPosition id z first) hist).map cash).sum) * hsq

/-- A long position built in two buys, reduced once (and sent one wrong trade), then closed. -/
example : ∃ first last hist,
    GoodTrade first ∧ BuyOrSell first ∧ (∀ t ∈ hist, GoodTrade t) ∧ GoodTrade last ∧
    BuyOrSell last ∧ last.action ≠ first.action ∧ last.pair = first.pair ∧
    (modifiedAll FloatSem.exact (newPosition "p" 0 first) hist).opened = true ∧
    last.quantity.toRat =
      (modifiedAll FloatSem.exact (newPosition "p" 0 first) hist).quantity.toRat ∧
    (modified FloatSem.exact
      (modifiedAll FloatSem.exact (newPosition "p" 0 first) hist) last).profit = .fin 17 :=
  ⟨exTrade "a" "buy" 10 2, exTrade "d" "sell" 14 4,
    [exTrade "b" "buy" 11 3, exTrade "x" "sell" 9 100, exTrade "c" "sell" 14 1],
    by decide +kernel, by decide +kernel, by decide +kernel, by decide +kernel, by decide +kernel,
    by decide +kernel, by decide +kernel, by decide +kernel, by decide +kernel, by decide +kernel⟩

/-- **C41.** While the position is open, its quantity is the signed sum of the applied
quantities, and open price times quantity is the signed sum of price times quantity. For a long
position additions are buys; for a short one they are sells (`posSign` flips the sign). -/
theorem C41_cost_basis {id : String} {z : Int} {first : Trade} {hist : List Trade}
    (hfirst : GoodTrade first) (hfa : BuyOrSell first) (hhist : ∀ t ∈ hist, GoodTrade t)
    (hopen : (modifiedAll FloatSem.exact (newPosition id z first) hist).opened = true) :
    let p := modifiedAll FloatSem.exact (newPosition id z first) hist
    let log := first :: applied FloatSem.exact (newPosition id z first) hist
    let sign : ℚ := if first.action = "buy" then 1 else -1
    p.quantity.Is (sign * (log.map units).sum) ∧
    p.openPrice.isFinite = true ∧
    p.openPrice.toRat * p.quantity.toRat = -(sign * (log.map cash).sum) := by
  intro p log sign
  have hs0 := sound_newPosition (id := id) (z := z) hfirst hfa
  have hs := sound_modifiedAll hs0 hhist
  obtain ⟨b1, b2, b3⟩ := basis_history hs0 hhist hopen
  have hsg : posSign (newPosition id z first) = sign := by
    rcases hfa with h | h <;>
      simp_all [posSign, sign, newPosition, buyAction, sellAction, longPosition, shortPosition]
  have e1 : (newPosition id z first).openPrice.toRat = first.price.toRat := rfl
  have e2 : (newPosition id z first).quantity.toRat = first.quantity.toRat := rfl
  have hu : sign * units first = first.quantity.toRat := by
    rcases hfa with h | h <;> simp [sign, units, h]
  have hk : sign * cash first = -(first.price.toRat * first.quantity.toRat) := by
    rcases hfa with h | h <;> simp [sign, cash, h]
  rw [hsg] at b2 b3
  refine ⟨?_, hs.price, ?_⟩
  · rw [Fl.is_iff]
    refine ⟨hs.qty, ?_⟩
    rw [b2, e2]
    simp only [log, List.map_cons, List.sum_cons]
    linear_combination -hu
  · simp only [p]
    rw [b3, e1, e2]
    simp only [log, List.map_cons, List.sum_cons]
    linear_combination hk

example : let first := exTrade "a" "sell" 10 2
    let hist := [exTrade "b" "sell" 12 2, exTrade "c" "buy" 9 1, exTrade "x" "buy" 9 100]
    GoodTrade first ∧ BuyOrSell first ∧ (∀ t ∈ hist, GoodTrade t) ∧
    (modifiedAll FloatSem.exact (newPosition "p" 0 first) hist).opened = true ∧
    (modifiedAll FloatSem.exact (newPosition "p" 0 first) hist).quantity = .fin 3 ∧
    (modifiedAll FloatSem.exact (newPosition "p" 0 first) hist).openPrice = .fin (35 / 3) :=
  ⟨by decide +kernel, by decide +kernel, by decide +kernel, by decide +kernel, by decide +kernel,
    by decide +kernel⟩

/-- **C42.** A trade at price `c` that is applied and leaves the position open does not change
the mark-to-market profit at `c`. -/
theorem C42_trade_at_mark {p : Position} {t : Trade} (hp : Sound p) (ht : GoodTrade t)
    (hopen : (modified FloatSem.exact p t).opened = true) :
    ∃ x, (unrealizedProfit FloatSem.exact p t.price).Is x ∧
      (unrealizedProfit FloatSem.exact (modified FloatSem.exact p t) t.price).Is x := by
  have hs := sound_modified hp ht
  obtain ⟨b1, b2, b3⟩ := basis_step hp ht hopen
  refine ⟨_, unrealizedProfit_exact hp ht.is.1, ?_⟩
  convert unrealizedProfit_exact hs ht.is.1 using 1
  rw [b1]
  rw [sub_mul, sub_mul, b3, b2]
  have : ∀ l : List Trade, (l = [] ∨ l = [t]) →
      (t.price.toRat * (l.map units).sum) = -(l.map cash).sum := by
    rintro l (rfl | rfl)
    · simp
    · simp only [List.map_cons, List.map_nil, List.sum_cons, List.sum_nil, units, cash]
      split <;> ring
  have h2 := this (if (modified FloatSem.exact p t).trades = p.trades then [] else [t])
    (by split <;> simp)
  linear_combination (- (posSign p * posSign p)) * h2

example : Sound (newPosition "p" 0 (exTrade "a" "sell" 10 2)) ∧ GoodTrade (exTrade "b" "buy" 8 1) ∧
    (modified FloatSem.exact (newPosition "p" 0 (exTrade "a" "sell" 10 2))
      (exTrade "b" "buy" 8 1)).opened = true ∧
    unrealizedProfit FloatSem.exact (newPosition "p" 0 (exTrade "a" "sell" 10 2)) (.fin 8) = .fin 4 ∧
    (modified FloatSem.exact (newPosition "p" 0 (exTrade "a" "sell" 10 2))
      (exTrade "b" "buy" 8 1)).openPrice = .fin 12 :=
  ⟨⟨by decide +kernel, by decide +kernel, by decide +kernel, by decide +kernel⟩,
    by decide +kernel, by decide +kernel, by decide +kernel, by decide +kernel⟩

/-- **C42.** A reducing trade at price `c` for exactly the whole quantity closes the position
with the profit that `UnrealizedProfit(c)` showed before. -/
theorem C42_close_at_mark {p : Position} {t : Trade} (hp : Sound p) (ht : GoodTrade t)
    (hr : Reduces p t) (hpair : p.pair = t.pair) (hq : t.quantity.toRat = p.quantity.toRat) :
    (modified FloatSem.exact p t).opened = false ∧
    (modified FloatSem.exact p t).profit = unrealizedProfit FloatSem.exact p t.price := by
  rw [exactQuantity_closes hp ht hr hpair hq]
  exact ⟨rfl, rfl⟩

/-- **C43.** Adding to a position averages its open price. -/
theorem C43_add_averages {p : Position} {t : Trade} (hp : Sound p) (ht : GoodTrade t)
    (ha : Adds p t) (hpair : p.pair = t.pair) :
    let p' := modified FloatSem.exact p t
    p'.openPrice.isFinite = true ∧
    min p.openPrice.toRat t.price.toRat ≤ p'.openPrice.toRat ∧
    p'.openPrice.toRat ≤ max p.openPrice.toRat t.price.toRat ∧
    p'.quantity.Is (p.quantity.toRat + t.quantity.toRat) := by
  intro p'
  have e : p' = posAdd FloatSem.exact p t := by
    simp only [p', modified, modify_adds hpair ha]
  obtain ⟨h1, h2⟩ := posAdd_exact hp ht
  rw [← e] at h1 h2
  have hpos := hp.pos
  have hpos' := ht.2.2
  have hsum := add_pos hpos hpos'
  refine ⟨(Fl.is_iff.1 h2).1, ?_, ?_, h1⟩
  · rw [h2.toRat, le_div_iff₀ hsum]
    have a1 := min_le_left p.openPrice.toRat t.price.toRat
    have a2 := min_le_right p.openPrice.toRat t.price.toRat
    nlinarith
  · rw [h2.toRat, div_le_iff₀ hsum]
    have a1 := le_max_left p.openPrice.toRat t.price.toRat
    have a2 := le_max_right p.openPrice.toRat t.price.toRat
    nlinarith

example : Sound (newPosition "p" 0 (exTrade "a" "buy" 10 2)) ∧ GoodTrade (exTrade "b" "buy" 16 1) ∧
    Adds (newPosition "p" 0 (exTrade "a" "buy" 10 2)) (exTrade "b" "buy" 16 1) ∧
    (modified FloatSem.exact (newPosition "p" 0 (exTrade "a" "buy" 10 2))
      (exTrade "b" "buy" 16 1)).openPrice = .fin 12 :=
  ⟨⟨by decide +kernel, by decide +kernel, by decide +kernel, by decide +kernel⟩,
    by decide +kernel, by decide +kernel, by decide +kernel⟩

/-- **C50.** What a reducing trade of quantity `q` does to a position of quantity `Q`. -/
theorem C50_close_decision {p : Position} {t : Trade} (hp : Sound p) (ht : GoodTrade t)
    (hr : Reduces p t) (hpair : p.pair = t.pair) (hopen : p.opened = true) :
    let Q := p.quantity.toRat
    let q := t.quantity.toRat
    let p' := modified FloatSem.exact p t
    (Q - q < -(1 / 10000) ↔ p' = p) ∧
    (p'.opened = false ↔ (-(1 / 10000) ≤ Q - q ∧ Q - q ≤ 0)) ∧
    (0 < Q - q → p'.opened = true ∧ p'.quantity.Is (Q - q) ∧ p'.trades = p.trades ++ [t.id]) := by
  intro Q q p'
  have hs := FloatSem.exact_sub hp.is.2 ht.is.2
  have h1 : Oversized FloatSem.exact p t ↔ Q - q < -(1 / 10000) := by
    unfold Oversized
    rw [hs.lt (Fl.is_fin 0), hs.lt (FloatSem.exact_const _)]
    simp only [decide_eq_true_eq]
    constructor
    · rintro ⟨_, h⟩; simp only [Q, q]; linarith
    · intro h; simp only [Q, q] at h; constructor <;> linarith
  have h2 : Fl.le (FloatSem.exact.sub p.quantity t.quantity) (.fin 0) = decide (Q - q ≤ 0) := by
    rw [hs.le (Fl.is_fin 0)]
  have hna : ¬ Adds p t := fun h => not_adds_and_reduces h hr
  rcases modified_cases FloatSem.exact p t with ⟨h, e⟩ | ⟨_, h, _⟩ | ⟨h, _, hle, e⟩ | ⟨h, _, hle, e⟩
  · have hO : Oversized FloatSem.exact p t := by
      by_contra hO; exact h ⟨hpair, .inr ⟨hr, hO⟩⟩
    have hO := h1.1 hO
    refine ⟨⟨fun _ => e, fun _ => hO⟩, ⟨fun h => ?_, fun h => ?_⟩, fun h => ?_⟩
    · simp only [p', e, hopen] at h; cases h
    · linarith [h.1]
    · linarith
  · exact absurd h hna
  · have hO : ¬ Oversized FloatSem.exact p t := by
      rcases h.2 with h | h
      · exact absurd h hna
      · exact h.2
    rw [h1] at hO
    rw [h2] at hle
    simp only [decide_eq_true_eq] at hle
    refine ⟨⟨fun h => absurd h hO, fun h => ?_⟩, ⟨fun _ => ⟨by linarith, hle⟩, fun _ => ?_⟩, fun h => ?_⟩
    · have := congrArg Position.opened h
      simp only [p', e, closedBy, hopen] at this; cases this
    · simp only [p', e]; rfl
    · linarith
  · have hO : ¬ Oversized FloatSem.exact p t := by
      rcases h.2 with h | h
      · exact absurd h hna
      · exact h.2
    rw [h1] at hO
    rw [h2] at hle
    simp only [decide_eq_false_iff_not] at hle
    refine ⟨⟨fun h => absurd h hO, fun h => ?_⟩, ⟨fun h => ?_, fun h => absurd h.2 hle⟩, fun _ => ?_⟩
    · have := congrArg Position.trades h
      simp [p', e, shrunkBy] at this
    · simp [p', e, shrunkBy, hopen] at h
    · simp only [p', e]; exact ⟨hopen, hs, rfl⟩

example : let p := newPosition "p" 0 (exTrade "a" "buy" 10 2)
    Sound p ∧ p.opened = true ∧
    (modified FloatSem.exact p (exTrade "b" "sell" 16 (200005/100000))).opened = false ∧
    (modified FloatSem.exact p (exTrade "b" "sell" 16 (20002/10000))) = p :=
  ⟨⟨by decide +kernel, by decide +kernel, by decide +kernel, by decide +kernel⟩,
    by decide +kernel, by decide +kernel, by decide +kernel⟩

end Finmod
