import Verif.Props.ProfitRange

/-!
# C281: trading at one price
-/

namespace Finmod
open Go Spec

/-- **C281** When all trades of a position are at one price, that is its open price, and closing it brings neither profit nor loss. -/
def Spec.C281_claim (S : FloatSem) (Good : Trade → Prop) : Prop :=
  ∀ (id : String) (z : Int) (first : Trade) (hist : List Trade) (x : ℚ),
    Good first → BuyOrSell first → (∀ t ∈ hist, Good t) → (∀ t ∈ first :: hist, t.price.toRat = x) →
    (modifiedAll S (newPosition id z first) hist).opened = true →
    (modifiedAll S (newPosition id z first) hist).openPrice.toRat = x ∧
    ∀ last : Trade, Good last → BuyOrSell last → last.action ≠ first.action → last.pair = first.pair → last.price.toRat = x →
      last.quantity.toRat = (modifiedAll S (newPosition id z first) hist).quantity.toRat →
      (modified S (modifiedAll S (newPosition id z first) hist) last).opened = false ∧
      (modified S (modifiedAll S (newPosition id z first) hist) last).profit.toRat = 0

/-- **C281 is false of the code in float64**: after buying 3 and selling 2, all at 5, the open price is 5.000000000000001, and selling the last
one at 5 makes a loss of 8.9e-16. -/
theorem C281_one_price_violated : ¬ Spec.C281_claim ieee FloatTrade := by
  intro h
  have := (h "p" 0 (exTrade "a" "buy" 5 3) [exTrade "b" "sell" 5 2] 5 (floatTrade_of (by decide +kernel)) (by decide +kernel)
    (by
      intro t ht
      simp only [List.mem_cons, List.not_mem_nil, or_false] at ht
      subst ht
      exact floatTrade_of (by decide +kernel))
    (by decide +kernel) (by decide +kernel)).1
  revert this
  decide +kernel

/-- The loss of the example, and the open price before. -/
theorem C281_loss_violated :
    (modifiedAll ieee (newPosition "p" 0 (exTrade "a" "buy" 5 3)) [exTrade "b" "sell" 5 2]).openPrice = .fin (5 + 2 ^ (-50 : ℤ)) ∧
    (modifiedAll ieee (newPosition "p" 0 (exTrade "a" "buy" 5 3)) [exTrade "b" "sell" 5 2, exTrade "c" "sell" 5 1]).opened = false ∧
    (modifiedAll ieee (newPosition "p" 0 (exTrade "a" "buy" 5 3)) [exTrade "b" "sell" 5 2, exTrade "c" "sell" 5 1]).profit =
      .fin (-2 ^ (-50 : ℤ)) := by
  refine ⟨?_, ?_, ?_⟩ <;> decide +kernel

/-- **C281, the part that holds of the code**: in exact arithmetic.
Missing: float64, where `C281_near_partial` bounds the difference. -/
theorem C281_one_price_partial : Spec.C281_claim FloatSem.exact GoodTrade := by
  intro id z first hist x hfirst hfa hhist hx hopen
  have hr : ∀ t ∈ first :: hist, Priced x x t := fun t ht => ⟨(hx t ht).ge, (hx t ht).le⟩
  have h := C276_between_partial (id := id) (z := z) hfirst hfa hhist hr hopen
  simp only [sub_self, zero_mul, sub_zero, add_zero] at h
  refine ⟨le_antisymm h.2 h.1, fun last hlast hla hopp hpair hlx hq => ?_⟩
  have h' := C277_profit (lo := x) (hi := x) hfirst hfa hhist hlast hla hopp hpair
    (by
      intro t ht
      rcases List.mem_append.1 ht with ht | ht
      · exact hr t ht
      · rw [List.mem_singleton] at ht; subst ht; exact ⟨hlx.ge, hlx.le⟩) hopen hq
  refine ⟨h'.1, ?_⟩
  have := h'.2
  rw [sub_self, zero_mul] at this
  exact abs_nonpos_iff.1 this

/-- **C281, the part that holds in float64**: the cost of what is open is its quantity at the one price, and what closing it brings is zero, up
to rounding. -/
theorem C281_near_partial {id : String} {z : Int} {first : Trade} {hist : List Trade} {x : ℚ}
    (hfirst : FloatTrade first) (hfa : BuyOrSell first) (hhist : ∀ t ∈ hist, FloatTrade t) (hx : ∀ t ∈ first :: hist, t.price.toRat = x)
    (h0 : 0 ≤ x) (hopen : (modifiedAll ieee (newPosition id z first) hist).opened = true) :
    let p := modifiedAll ieee (newPosition id z first) hist
    let log := first :: applied ieee (newPosition id z first) hist
    let err : List Trade → ℚ := fun log =>
      log.length * (2 ^ (-53 : ℤ) * (32 * (log.map fun t => |cash t|).sum + 2 * x * (log.map fun t => |units t|).sum) + 2 ^ (-800 : ℤ))
    (log.length ≤ 2 ^ 40 → |p.openPrice.toRat * p.quantity.toRat - x * p.quantity.toRat| ≤ err log) ∧
    ∀ last : Trade, FloatTrade last → last.price.toRat = x → (modified ieee p last).opened = false → (log ++ [last]).length ≤ 2 ^ 40 →
      (modified ieee p last).profit.isFinite = true ∧
      |(modified ieee p last).profit.toRat| ≤ err (log ++ [last]) + 3 * (x * |p.quantity.toRat - last.quantity.toRat|) := by
  intro p log err
  have hr : ∀ t ∈ first :: hist, Priced x x t := fun t ht => ⟨(hx t ht).ge, (hx t ht).le⟩
  refine ⟨fun hlen => ?_, fun last hlast hlx hcl hlen => ?_⟩
  · obtain ⟨-, h1, h2⟩ := C276_near_partial (id := id) (z := z) hfirst hfa hhist hr h0 hopen hlen
    simp only [sub_self, zero_mul, sub_zero, add_zero] at h1 h2
    rw [abs_le]
    constructor <;> (simp only [err, log, p]; linarith)
  · obtain ⟨h1, h2⟩ := C277_near (id := id) (z := z) (lo := x) (hi := x) hfirst hfa hhist hlast
      (by
        intro t ht
        rcases List.mem_append.1 ht with ht | ht
        · exact hr t ht
        · rw [List.mem_singleton] at ht; subst ht; exact ⟨hlx.ge, hlx.le⟩) h0 hopen hcl hlen
    refine ⟨h1, ?_⟩
    rw [sub_self, zero_mul, zero_add] at h2
    exact h2

example : GoodTrade (exTrade "a" "sell" 5 3) ∧ BuyOrSell (exTrade "a" "sell" 5 3) ∧
    (∀ t ∈ [exTrade "b" "sell" 5 2, exTrade "c" "buy" 5 4], GoodTrade t) ∧
    (modifiedAll FloatSem.exact (newPosition "p" 0 (exTrade "a" "sell" 5 3)) [exTrade "b" "sell" 5 2, exTrade "c" "buy" 5 4]).opened = true ∧
    (modifiedAll FloatSem.exact (newPosition "p" 0 (exTrade "a" "sell" 5 3)) [exTrade "b" "sell" 5 2, exTrade "c" "buy" 5 4]).openPrice = .fin 5 := by
  decide +kernel

end Finmod
