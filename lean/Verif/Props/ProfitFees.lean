import Verif.Props.PositionAccuracy
import Verif.Props.MarkFloat

/-!
# Profit and fees: C253
-/

namespace Finmod
open Go Spec

/-- A trade made by `NewTrade` at a finite cost. -/
def Spec.Made (S : FloatSem) (t : Trade) : Prop :=
  t.cost.isFinite = true ∧ t = { newTrade S t.id t.executionTime t.action t.orderType t.pair t.price t.quantity t.cost with
    executionID := t.executionID }

/-- Money that changed hands, fees included: what a purchase cost, what a sale brought. -/
def Spec.money (t : Trade) : ℚ := if t.action = "buy" then -t.cost.toRat else t.cost.toRat

theorem mem_applied {S : FloatSem} {p : Position} {hist : List Trade} {t : Trade} (h : t ∈ applied S p hist) : t ∈ hist := by
  induction hist generalizing p with
  | nil => exact h
  | cons a l ih =>
    unfold applied at h
    split at h
    · exact List.mem_cons_of_mem _ (ih h)
    · rcases List.mem_cons.1 h with rfl | h
      · simp
      · exact List.mem_cons_of_mem _ (ih h)

theorem made_fee {S : FloatSem} {t : Trade} (h : Made S t) :
    t.fee = if t.action = "buy" then S.sub t.cost (S.mul t.price t.quantity) else S.sub (S.mul t.price t.quantity) t.cost := by
  exact congrArg Trade.fee h.2

/-- **C253.** Exact arithmetic: a position opened with a trade, taken through any history and closed for exactly its
quantity has as `Profit` the money gained plus the fees of its trades: fees are not taken off. -/
theorem C253_profit {id : String} {z : Int} {first last : Trade} {hist : List Trade}
    (hfirst : GoodTrade first) (hfa : BuyOrSell first) (hhist : ∀ t ∈ hist, GoodTrade t)
    (hlast : GoodTrade last) (hla : BuyOrSell last) (hopp : last.action ≠ first.action)
    (hpair : last.pair = first.pair) (hmade : ∀ t ∈ first :: hist ++ [last], Made FloatSem.exact t)
    (hopen : (modifiedAll FloatSem.exact (newPosition id z first) hist).opened = true)
    (hq : last.quantity.toRat =
      (modifiedAll FloatSem.exact (newPosition id z first) hist).quantity.toRat) :
    let closed := modified FloatSem.exact
      (modifiedAll FloatSem.exact (newPosition id z first) hist) last
    let log := first :: applied FloatSem.exact (newPosition id z first) hist ++ [last]
    closed.opened = false ∧ closed.profit.Is ((log.map money).sum + (log.map fun t => t.fee.toRat).sum) := by
  intro closed log
  obtain ⟨h1, -, h3⟩ := C40_profit_is_net_cash (id := id) (z := z) hfirst hfa hhist hlast hla hopp hpair hopen hq
  refine ⟨h1, ?_⟩
  have hlog : ∀ t ∈ log, t ∈ first :: hist ++ [last] := by
    intro t ht
    simp only [log, List.cons_append, List.mem_cons, List.mem_append, List.not_mem_nil, or_false] at ht ⊢
    rcases ht with h | h | h
    · exact .inl h
    · exact .inr (.inl (mem_applied h))
    · exact .inr (.inr h)
  have key : (log.map money).sum + (log.map fun t => t.fee.toRat).sum = (log.map cash).sum := by
    rw [← List.sum_map_add]
    congr 1
    apply List.map_congr_left
    intro t ht
    have hm := hmade t (hlog t ht)
    have hg : GoodTrade t := by
      have := hlog t ht
      simp only [List.cons_append, List.mem_cons, List.mem_append, List.not_mem_nil, or_false] at this
      rcases this with rfl | h | rfl
      · exact hfirst
      · exact hhist _ h
      · exact hlast
    have hp := Fl.isFinite_is hg.1
    have hqq := Fl.isFinite_is hg.2.1
    have hc := Fl.isFinite_is hm.1
    have hmul := FloatSem.exact_mul hp hqq
    rw [made_fee hm]
    unfold money cash
    split
    · rw [(FloatSem.exact_sub hc hmul).toRat]; ring
    · rw [(FloatSem.exact_sub hmul hc).toRat]; ring
  rw [key]
  exact h3

/-- **C253.** The same in float64: `Profit` is within a rounding error of the money gained plus the fees, apart from what
the closing quantity differs from `Quantity`. -/
theorem C253_profit_float {id : String} {z : Int} {first last : Trade} {hist : List Trade}
    (hfirst : FloatTrade first) (hfa : BuyOrSell first) (hhist : ∀ t ∈ hist, FloatTrade t)
    (hlast : FloatTrade last) (hmade : ∀ t ∈ first :: hist ++ [last], Made ieee t)
    (hcost : ∀ t ∈ first :: hist ++ [last], ieee.Rep t.cost ∧ |t.cost.toRat| ≤ 2 ^ (900 : ℤ))
    (hopen : (modifiedAll ieee (newPosition id z first) hist).opened = true) :
    let p := modifiedAll ieee (newPosition id z first) hist
    let log := first :: applied ieee (newPosition id z first) hist ++ [last]
    (modified ieee p last).opened = false → log.length ≤ 2 ^ 40 →
    |(modified ieee p last).profit.toRat - ((log.map money).sum + (log.map fun t => t.fee.toRat).sum)| ≤
      log.length * (32 * (2 ^ (-53 : ℤ) * (log.map fun t => |cash t|).sum) + 2 ^ (-800 : ℤ)) +
      2 * (last.price.toRat * |p.quantity.toRat - last.quantity.toRat|) +
      (log.map fun t => 2 ^ (-53 : ℤ) * (|money t| + 3 * |cash t|) + 2 ^ (-1074 : ℤ)).sum := by
  intro p log hclosed hlen
  obtain ⟨-, h⟩ := C112_profit hfirst hfa hhist hlast hopen hclosed hlen
  have hlog : ∀ t ∈ log, t ∈ first :: hist ++ [last] := by
    intro t ht
    simp only [log, List.cons_append, List.mem_cons, List.mem_append, List.not_mem_nil, or_false] at ht ⊢
    rcases ht with h | h | h
    · exact .inl h
    · exact .inr (.inl (mem_applied h))
    · exact .inr (.inr h)
  have each : ∀ t ∈ log, |cash t - (money t + t.fee.toRat)| ≤ 2 ^ (-53 : ℤ) * (|money t| + 3 * |cash t|) + 2 ^ (-1074 : ℤ) := by
    intro t ht
    have hm := hmade t (hlog t ht)
    have hc := hcost t (hlog t ht)
    have hf : FloatTrade t := by
      have := hlog t ht
      simp only [List.cons_append, List.mem_cons, List.mem_append, List.not_mem_nil, or_false] at this
      rcases this with rfl | h | rfl
      · exact hfirst
      · exact hhist _ h
      · exact hlast
    have hb : |t.price.toRat * t.quantity.toRat| ≤ 2 ^ (900 : ℤ) := by
      rw [abs_of_nonneg (mul_nonneg hf.price_nonneg (le_trans (by positivity) hf.qty_ge))]
      calc t.price.toRat * t.quantity.toRat ≤ 2 ^ (100 : ℤ) * 2 ^ (100 : ℤ) :=
            mul_le_mul hf.price_le hf.qty_le (le_trans (by positivity) hf.qty_ge) (by positivity)
        _ = 2 ^ (200 : ℤ) := by rw [← zpow_add₀ (by norm_num)]; norm_num
        _ ≤ 2 ^ (900 : ℤ) := zpow_le_zpow_right₀ (by norm_num) (by norm_num)
    obtain ⟨_, he⟩ := C122_fee_accurate t.id t.executionTime t.action t.orderType t.pair t.price t.quantity t.cost
      hf.price hf.qty hm.1 hc.1 hb hc.2
    have hfee : (newTrade ieee t.id t.executionTime t.action t.orderType t.pair t.price t.quantity t.cost).fee = t.fee :=
      (made_fee hm).symm
    rw [hfee] at he
    have e1074 : (2 : ℚ) ^ (-1074 : ℤ) = 2 * 2 ^ (-1075 : ℤ) := by
      rw [show (-1074 : ℤ) = 1 + -1075 by norm_num, zpow_add₀ (by norm_num)]; norm_num
    rw [e1074]
    generalize (2 : ℚ) ^ (-1075 : ℤ) = w at he ⊢
    have hu : (0 : ℚ) ≤ 2 ^ (-53 : ℤ) := by positivity
    generalize (2 : ℚ) ^ (-53 : ℤ) = u at he hu ⊢
    unfold money cash
    by_cases hbuy : t.action = "buy"
    · rw [if_pos hbuy] at he ⊢
      rw [if_pos hbuy, abs_neg, abs_neg]
      have h1 := abs_sub t.cost.toRat (t.price.toRat * t.quantity.toRat)
      have h2 := mul_le_mul_of_nonneg_left h1 hu
      rw [show -(t.price.toRat * t.quantity.toRat) - (-t.cost.toRat + t.fee.toRat) =
        -(t.fee.toRat - (t.cost.toRat - t.price.toRat * t.quantity.toRat)) by ring, abs_neg]
      linarith
    · rw [if_neg hbuy] at he ⊢
      rw [if_neg hbuy]
      have h1 := abs_sub (t.price.toRat * t.quantity.toRat) t.cost.toRat
      have h2 := mul_le_mul_of_nonneg_left h1 hu
      rw [show t.price.toRat * t.quantity.toRat - (t.cost.toRat + t.fee.toRat) =
        -(t.fee.toRat - (t.price.toRat * t.quantity.toRat - t.cost.toRat)) by ring, abs_neg]
      linarith
  have total : ∀ l : List Trade, (∀ t ∈ l, t ∈ log) →
      |(l.map cash).sum - ((l.map money).sum + (l.map fun t => t.fee.toRat).sum)| ≤
        (l.map fun t => 2 ^ (-53 : ℤ) * (|money t| + 3 * |cash t|) + 2 ^ (-1074 : ℤ)).sum := by
    intro l
    induction l with
    | nil => intro _; simp
    | cons t l ih =>
      intro hl
      have a := each t (hl t (by simp))
      have b := ih fun x hx => hl x (by simp [hx])
      simp only [List.map_cons, List.sum_cons]
      rw [show cash t + (l.map cash).sum - (money t + (l.map money).sum + (t.fee.toRat + (l.map fun t => t.fee.toRat).sum)) =
        (cash t - (money t + t.fee.toRat)) + ((l.map cash).sum - ((l.map money).sum + (l.map fun t => t.fee.toRat).sum)) by ring]
      exact (abs_add_le _ _).trans (add_le_add a b)
  have ht := total log fun t h => h
  rw [show (modified ieee p last).profit.toRat - ((log.map money).sum + (log.map fun t => t.fee.toRat).sum) =
    ((modified ieee p last).profit.toRat - (log.map cash).sum) +
      ((log.map cash).sum - ((log.map money).sum + (log.map fun t => t.fee.toRat).sum)) by ring]
  exact (abs_add_le _ _).trans (add_le_add h ht)

/-- A purchase of 2 units at 100 for 201, a sale at 110 that brings 218. -/
def feeBuy (S : FloatSem) : Trade := newTrade S "a" 0 "buy" "limit" exPair (.fin 100) (.fin 2) (.fin 201)
def feeSell (S : FloatSem) : Trade := newTrade S "b" 1 "sell" "limit" exPair (.fin 110) (.fin 2) (.fin 218)

/-- **Example for C253.** The profit shown is 20; 17 were earned, 3 paid as fees. -/
example : Made FloatSem.exact (feeBuy .exact) ∧ Made FloatSem.exact (feeSell .exact) ∧ GoodTrade (feeBuy .exact) ∧
    GoodTrade (feeSell .exact) ∧ (modified FloatSem.exact (newPosition "p" 0 (feeBuy .exact)) (feeSell .exact)).profit = .fin 20 ∧
    money (feeBuy .exact) + money (feeSell .exact) = 17 ∧ (feeBuy .exact).fee = .fin 1 ∧ (feeSell .exact).fee = .fin 2 := by
  unfold Made; decide +kernel

/-- **Example for C253.** In float64. -/
example : Made ieee (feeBuy ieee) ∧ Made ieee (feeSell ieee) ∧ FloatTrade (feeBuy ieee) ∧ FloatTrade (feeSell ieee) ∧
    (modified ieee (newPosition "p" 0 (feeBuy ieee)) (feeSell ieee)).profit = .fin 20 :=
  ⟨by unfold Made; decide +kernel, by unfold Made; decide +kernel, floatTrade_of (by decide +kernel),
    floatTrade_of (by decide +kernel), by decide +kernel⟩

end Finmod
