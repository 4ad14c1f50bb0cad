import Verif.Props.ProfitRange
import Verif.Props.MarkHistory

/-!
# C279: what an open position can be worth
-/

namespace Finmod
open Go Spec

/-- The units bought in a trade. -/
def Spec.boughtUnits (t : Trade) : ℚ := if t.action = "buy" then t.quantity.toRat else 0

theorem worth_range {lo hi x : ℚ} {log : List Trade} (h : ∀ t ∈ log, 0 ≤ t.quantity.toRat ∧ Priced lo hi t) :
    -((hi - x) * (log.map boughtUnits).sum + (x - lo) * (log.map soldUnits).sum) ≤ (log.map cash).sum + x * (log.map units).sum ∧
    (log.map cash).sum + x * (log.map units).sum ≤ (x - lo) * (log.map boughtUnits).sum + (hi - x) * (log.map soldUnits).sum := by
  induction log with
  | nil => simp
  | cons t ts ih =>
    obtain ⟨i1, i2⟩ := ih fun y hy => h y (List.mem_cons_of_mem _ hy)
    obtain ⟨h0, h1, h2⟩ := h t List.mem_cons_self
    have k1 := mul_le_mul_of_nonneg_right h1 h0
    have k2 := mul_le_mul_of_nonneg_right h2 h0
    simp only [List.map_cons, List.sum_cons]
    have e : ∀ c u b s : ℚ, (-((hi - x) * b + (x - lo) * s) ≤ c + x * u ∧ c + x * u ≤ (x - lo) * b + (hi - x) * s) →
        ∀ C U B S : ℚ, (-((hi - x) * B + (x - lo) * S) ≤ C + x * U ∧ C + x * U ≤ (x - lo) * B + (hi - x) * S) →
        (-((hi - x) * (b + B) + (x - lo) * (s + S)) ≤ (c + C) + x * (u + U) ∧
          (c + C) + x * (u + U) ≤ (x - lo) * (b + B) + (hi - x) * (s + S)) := by
      intro c u b s ⟨a1, a2⟩ C U B S ⟨b1, b2⟩
      constructor <;> linarith
    refine e _ _ _ _ ?_ _ _ _ _ ⟨i1, i2⟩
    unfold cash units boughtUnits soldUnits
    split <;> constructor <;> linarith

/-- **C279, in exact arithmetic** Traded at prices from `lo` to `hi`, an open position is worth at the price `x` at most `x - lo` for every unit
bought and `hi - x` for every unit sold, and loses at most `hi - x` for every unit bought and `x - lo` for every unit sold. -/
theorem C279_mark {id : String} {z : Int} {first : Trade} {hist : List Trade} {lo hi : ℚ}
    (hfirst : GoodTrade first) (hfa : BuyOrSell first) (hhist : ∀ t ∈ hist, GoodTrade t) (hr : ∀ t ∈ first :: hist, Priced lo hi t)
    (hopen : (modifiedAll FloatSem.exact (newPosition id z first) hist).opened = true) {price : Fl} (hfin : price.isFinite = true) :
    let p := modifiedAll FloatSem.exact (newPosition id z first) hist
    let log := first :: applied FloatSem.exact (newPosition id z first) hist
    let x := price.toRat;
    -((hi - x) * (log.map boughtUnits).sum + (x - lo) * (log.map soldUnits).sum) ≤ (unrealizedProfit FloatSem.exact p price).toRat ∧
    (unrealizedProfit FloatSem.exact p price).toRat ≤ (x - lo) * (log.map boughtUnits).sum + (hi - x) * (log.map soldUnits).sum := by
  intro p log x
  obtain ⟨hq, -, hb⟩ := C41_cost_basis (id := id) (z := z) hfirst hfa hhist hopen
  have hs := sound_modifiedAll (sound_newPosition (id := id) (z := z) hfirst hfa) hhist
  have hsg : posSign p = if first.action = "buy" then 1 else -1 := by
    rw [← posSign_new (id := id) (z := z) hfa, posSign, posSign, type_modifiedAll]
  have hu : (unrealizedProfit FloatSem.exact p price).toRat = (log.map cash).sum + x * (log.map units).sum := by
    rw [(unrealizedProfit_exact hs (Fl.isFinite_is hfin)).toRat]
    change posSign p * ((x - p.openPrice.toRat) * p.quantity.toRat) = _
    have e1 : p.quantity.toRat = (if first.action = "buy" then 1 else -1) * (log.map units).sum := hq.toRat
    have e2 : p.openPrice.toRat * p.quantity.toRat = -((if first.action = "buy" then 1 else -1) * (log.map cash).sum) := hb
    rw [sub_mul, e2, e1, hsg]
    split <;> ring
  rw [hu]
  refine worth_range fun t ht => ?_
  rcases List.mem_cons.1 ht with rfl | ht
  · exact ⟨hfirst.2.2.le, hr _ List.mem_cons_self⟩
  · exact ⟨(hhist t (mem_of_applied t ht)).2.2.le, hr t (List.mem_cons_of_mem _ (mem_of_applied t ht))⟩

/-- **C279, in float64** The same up to the rounding errors of C245. -/
theorem C279_near {id : String} {z : Int} {first : Trade} {hist : List Trade} {lo hi : ℚ}
    (hfirst : FloatTrade first) (hfa : BuyOrSell first) (hhist : ∀ t ∈ hist, FloatTrade t) (hr : ∀ t ∈ first :: hist, Priced lo hi t)
    (hopen : (modifiedAll ieee (newPosition id z first) hist).opened = true)
    {price : Fl} (hfin : price.isFinite = true) (hrep : ieee.Rep price) (hle : |price.toRat| ≤ 2 ^ (100 : ℤ)) :
    let p := modifiedAll ieee (newPosition id z first) hist
    let log := first :: applied ieee (newPosition id z first) hist
    let x := price.toRat
    let err := log.length * (38 * (2 ^ (-53 : ℤ) * ((log.map fun t => |cash t|).sum + |x| * (log.map fun t => |units t|).sum)) + 2 ^ (-799 : ℤ))
    log.length ≤ 2 ^ 40 →
    (unrealizedProfit ieee p price).isFinite = true ∧
    -((hi - x) * (log.map boughtUnits).sum + (x - lo) * (log.map soldUnits).sum) - err ≤ (unrealizedProfit ieee p price).toRat ∧
    (unrealizedProfit ieee p price).toRat ≤ (x - lo) * (log.map boughtUnits).sum + (hi - x) * (log.map soldUnits).sum + err := by
  intro p log x err hlen
  obtain ⟨hf, hacc⟩ := C245_mark (id := id) (z := z) hfirst hfa hhist hopen hfin hrep hle hlen
  obtain ⟨w1, w2⟩ := worth_range (lo := lo) (hi := hi) (x := x) (log := log) fun t ht => by
    rcases List.mem_cons.1 ht with rfl | ht
    · exact ⟨hfirst.facts.2.2.1.le, hr _ List.mem_cons_self⟩
    · exact ⟨(hhist t (mem_of_applied t ht)).facts.2.2.1.le, hr t (List.mem_cons_of_mem _ (mem_of_applied t ht))⟩
  obtain ⟨a1, a2⟩ := abs_le.1 hacc
  change -err ≤ _ at a1
  change _ ≤ err at a2
  change -err ≤ (unrealizedProfit ieee p price).toRat - ((log.map cash).sum + x * (log.map units).sum) at a1
  change (unrealizedProfit ieee p price).toRat - ((log.map cash).sum + x * (log.map units).sum) ≤ err at a2
  exact ⟨hf, by linarith, by linarith⟩

/-- Ten units bought at 10, nine sold at 20: at 15 what is left is worth 95 more than it cost, of at most 5 for each of 10 and 5 for each of 9. -/
example : let first := exTrade "a" "buy" 10 10
    let hist := [exTrade "b" "sell" 20 9]
    (FloatTrade first ∧ ∀ t ∈ hist, FloatTrade t) ∧ GoodTrade first ∧ BuyOrSell first ∧ (∀ t ∈ hist, GoodTrade t) ∧
      (∀ t ∈ first :: hist, Priced 10 20 t) ∧ (modifiedAll ieee (newPosition "p" 0 first) hist).opened = true ∧
      (modifiedAll FloatSem.exact (newPosition "p" 0 first) hist).opened = true ∧
      unrealizedProfit ieee (modifiedAll ieee (newPosition "p" 0 first) hist) (.fin 15) = .fin 95 ∧
      (15 - 10) * ((first :: applied ieee (newPosition "p" 0 first) hist).map boughtUnits).sum +
        (20 - 15) * ((first :: applied ieee (newPosition "p" 0 first) hist).map soldUnits).sum = 95 :=
  ⟨⟨floatTrade_of (by decide +kernel), by
      intro t ht
      simp only [List.mem_cons, List.not_mem_nil, or_false] at ht
      subst ht
      exact floatTrade_of (by decide +kernel)⟩,
    by decide +kernel, by decide +kernel, by decide +kernel, by decide +kernel, by decide +kernel, by decide +kernel, by decide +kernel,
    by unfold boughtUnits soldUnits; decide +kernel⟩

end Finmod
