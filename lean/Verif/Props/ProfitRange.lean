import Verif.Props.OpenPriceRange

/-!
# C277: a position gains no more than the range of the prices allows
-/

namespace Finmod
open Go Spec

/-- The units sold in a trade. -/
def Spec.soldUnits (t : Trade) : ℚ := if t.action = "buy" then 0 else t.quantity.toRat

theorem against_one {t : Trade} (h : 0 ≤ t.quantity.toRat) : against 1 t = soldUnits t := by
  unfold against soldUnits units
  split
  · exact max_eq_left (by linarith)
  · rw [max_eq_right (by linarith)]; ring

theorem sold_sum {log : List Trade} (h : ∀ t ∈ log, 0 ≤ t.quantity.toRat) : (log.map (against 1)).sum = (log.map soldUnits).sum := by
  congr 1
  exact List.map_congr_left fun t ht => against_one (h t ht)

/-- **C277, in exact arithmetic** A position opened, traded and closed for its whole quantity at prices from `lo` to `hi` books a profit or loss of
at most `hi - lo` times the units sold; at one price only, none. -/
theorem C277_profit {id : String} {z : Int} {first last : Trade} {hist : List Trade} {lo hi : ℚ}
    (hfirst : GoodTrade first) (hfa : BuyOrSell first) (hhist : ∀ t ∈ hist, GoodTrade t)
    (hlast : GoodTrade last) (hla : BuyOrSell last) (hopp : last.action ≠ first.action) (hpair : last.pair = first.pair)
    (hr : ∀ t ∈ first :: hist ++ [last], Priced lo hi t)
    (hopen : (modifiedAll FloatSem.exact (newPosition id z first) hist).opened = true)
    (hq : last.quantity.toRat = (modifiedAll FloatSem.exact (newPosition id z first) hist).quantity.toRat) :
    let closed := modified FloatSem.exact (modifiedAll FloatSem.exact (newPosition id z first) hist) last
    let log := first :: applied FloatSem.exact (newPosition id z first) hist ++ [last]
    closed.opened = false ∧ |closed.profit.toRat| ≤ (hi - lo) * (log.map soldUnits).sum := by
  intro closed log
  obtain ⟨h1, -, h3⟩ := C40_profit_is_net_cash (id := id) (z := z) hfirst hfa hhist hlast hla hopp hpair hopen hq
  refine ⟨h1, ?_⟩
  have hlog : ∀ t ∈ log, GoodTrade t ∧ Priced lo hi t := by
    intro t ht
    simp only [log, List.cons_append, List.mem_cons, List.mem_append, List.not_mem_nil, or_false] at ht
    rcases ht with rfl | h | rfl
    · exact ⟨hfirst, hr _ (by simp)⟩
    · have := mem_of_applied t h
      exact ⟨hhist t this, hr t (by simp [this])⟩
    · exact ⟨hlast, hr _ (by simp)⟩
  obtain ⟨c1, c2⟩ := cost_range 1 fun t ht => (hlog t ht).2
  have hred := reduces_signed (opposite_reduces (id := id) (z := z) (hist := hist) (S := FloatSem.exact) hfa hla hopp)
  have hu : (log.map units).sum = 0 := by
    obtain ⟨b1, -, -⟩ := C41_cost_basis (id := id) (z := z) hfirst hfa hhist hopen
    have hsg : posSign (modifiedAll FloatSem.exact (newPosition id z first) hist) = if first.action = "buy" then 1 else -1 := by
      rw [← posSign_new (id := id) (z := z) hfa, posSign, posSign, type_modifiedAll]
    have e := b1.toRat
    have e' := hred.1
    rw [hsg] at e'
    simp only [log, List.map_append, List.sum_append, List.map_cons, List.map_nil, List.sum_cons, List.sum_nil] at e ⊢
    rcases hfa with h | h <;> simp only [h, if_true, String.reduceEq, if_false] at e e' <;> linarith
  rw [hu, sold_sum fun t ht => (hlog t ht).1.2.2.le] at c1 c2
  rw [h3.toRat, abs_le]
  change -((hi - lo) * (log.map soldUnits).sum) ≤ (log.map cash).sum ∧ (log.map cash).sum ≤ _
  constructor <;> linarith

/-- **C277, in float64** The same up to rounding errors relative to the turnover and to the highest price times the quantity traded, and three
times the highest price times the difference between the closing quantity and `Quantity`. -/
theorem C277_near {id : String} {z : Int} {first last : Trade} {hist : List Trade} {lo hi : ℚ}
    (hfirst : FloatTrade first) (hfa : BuyOrSell first) (hhist : ∀ t ∈ hist, FloatTrade t) (hlast : FloatTrade last)
    (hr : ∀ t ∈ first :: hist ++ [last], Priced lo hi t) (hlo : 0 ≤ lo)
    (hopen : (modifiedAll ieee (newPosition id z first) hist).opened = true) :
    let p := modifiedAll ieee (newPosition id z first) hist
    let log := first :: applied ieee (newPosition id z first) hist ++ [last]
    (modified ieee p last).opened = false → log.length ≤ 2 ^ 40 →
    (modified ieee p last).profit.isFinite = true ∧
    |(modified ieee p last).profit.toRat| ≤ (hi - lo) * (log.map soldUnits).sum +
      log.length * (2 ^ (-53 : ℤ) * (32 * (log.map fun t => |cash t|).sum + 2 * hi * (log.map fun t => |units t|).sum) + 2 ^ (-800 : ℤ)) +
      3 * (hi * |p.quantity.toRat - last.quantity.toRat|) := by
  intro p log hclosed hlen
  obtain ⟨hf, hp⟩ := C112_profit hfirst hfa hhist hlast hopen hclosed hlen
  refine ⟨hf, ?_⟩
  have hlen' : (first :: applied ieee (newPosition id z first) hist).length ≤ 2 ^ 40 := by
    simp only [log, List.length_append, List.length_cons, List.length_nil] at hlen ⊢; omega
  obtain ⟨-, -, -, hq, -⟩ := C111_quantity_and_basis (id := id) (z := z) hfirst hfa hhist hopen hlen'
  have hlog : ∀ t ∈ log, FloatTrade t ∧ Priced lo hi t := by
    intro t ht
    simp only [log, List.cons_append, List.mem_cons, List.mem_append, List.not_mem_nil, or_false] at ht
    rcases ht with rfl | h | rfl
    · exact ⟨hfirst, hr _ (by simp)⟩
    · have := mem_of_applied t h
      exact ⟨hhist t this, hr t (by simp [this])⟩
    · exact ⟨hlast, hr _ (by simp)⟩
  have hlh := (hr last (by simp)).2
  have hhi : lo ≤ hi := (hr last (by simp)).1.trans hlh
  have hred : Reduces p last := by
    have ho : p.opened = true := hopen
    rcases modified_cases ieee p last with ⟨_, e⟩ | ⟨_, _, e⟩ | ⟨_, hr, _, e⟩ | ⟨_, _, _, e⟩
    · rw [e, ho] at hclosed; cases hclosed
    · rw [e] at hclosed; simp [posAdd, ho] at hclosed
    · exact hr
    · rw [e] at hclosed; simp [shrunkBy, ho] at hclosed
  obtain ⟨c1, c2⟩ := cost_range 1 fun t ht => (hlog t ht).2
  rw [sold_sum fun t ht => (hlog t ht).1.facts.2.2.1.le] at c1 c2
  have hsg : posSign p = if first.action = "buy" then 1 else -1 := by
    rw [← posSign_new (id := id) (z := z) hfa, posSign, posSign, type_modifiedAll]
  have hul := (reduces_signed hred).1
  rw [hsg] at hul
  have hW : (log.map fun t => |units t|).sum =
      ((first :: applied ieee (newPosition id z first) hist).map fun t => |units t|).sum + last.quantity.toRat := by
    rw [← hlast.abs_units]
    simp only [log, List.map_append, List.sum_append, List.map_cons, List.map_nil, List.sum_cons, List.sum_nil]
    ring
  have hU : (log.map units).sum = ((first :: applied ieee (newPosition id z first) hist).map units).sum + units last := by
    simp only [log, List.map_append, List.sum_append, List.map_cons, List.map_nil, List.sum_cons, List.sum_nil]
    ring
  have hn : ((first :: applied ieee (newPosition id z first) hist).length : ℚ) ≤ (log.length : ℚ) := by
    simp only [log, List.length_append]
    push_cast
    linarith [Nat.cast_nonneg (α := ℚ) [last].length]
  have hw0 : 0 ≤ ((first :: applied ieee (newPosition id z first) hist).map fun t => |units t|).sum :=
    List.sum_nonneg fun x hx => by obtain ⟨t, -, rfl⟩ := List.mem_map.1 hx; exact abs_nonneg _
  have hlq := hlast.facts.2.2.1.le
  have hnet : |(log.map units).sum| ≤ 2 * log.length * 2 ^ (-53 : ℤ) * (log.map fun t => |units t|).sum +
      |p.quantity.toRat - last.quantity.toRat| := by
    have h1 : |(log.map units).sum| ≤ |p.quantity.toRat - (if first.action = "buy" then (1 : ℚ) else -1) *
        ((first :: applied ieee (newPosition id z first) hist).map units).sum| + |p.quantity.toRat - last.quantity.toRat| := by
      have e : |(log.map units).sum| = |(if first.action = "buy" then (1 : ℚ) else -1) * (log.map units).sum| := by
        split <;> simp
      rw [e, hU, mul_add, hul]
      refine le_trans (le_of_eq ?_) ((abs_sub _ _).trans (le_of_eq (add_comm _ _)))
      congr 1; ring
    refine h1.trans (add_le_add (hq.trans ?_) le_rfl)
    have hu : (0 : ℚ) < 2 ^ (-53 : ℤ) := zpow_pos (by norm_num) _
    rw [hW]
    refine mul_le_mul (mul_le_mul_of_nonneg_right (by linarith) hu.le) (by linarith) hw0 (by positivity)
  have m1 := mul_le_mul_of_nonneg_left hnet (hlo.trans hhi)
  have m2 : lo * |(log.map units).sum| ≤ hi * |(log.map units).sum| := mul_le_mul_of_nonneg_right hhi (abs_nonneg _)
  have m3 := mul_le_mul_of_nonneg_left (neg_abs_le (log.map units).sum) hlo
  have m4 := mul_le_mul_of_nonneg_left (le_abs_self (log.map units).sum) (hlo.trans hhi)
  have m5 := mul_le_mul_of_nonneg_right hlh (abs_nonneg (p.quantity.toRat - last.quantity.toRat))
  obtain ⟨p1, p2⟩ := abs_le.1 hp
  change _ ≤ (modified ieee p last).profit.toRat - (log.map cash).sum at p1
  change (modified ieee p last).profit.toRat - (log.map cash).sum ≤ _ at p2
  change -(_ + 2 * (last.price.toRat * |p.quantity.toRat - last.quantity.toRat|)) ≤ _ at p1
  change _ ≤ _ + 2 * (last.price.toRat * |p.quantity.toRat - last.quantity.toRat|) at p2
  change -((log.length : ℚ) * (32 * (2 ^ (-53 : ℤ) * (log.map fun t => |cash t|).sum) + 2 ^ (-800 : ℤ)) + _) ≤ _ at p1
  change _ ≤ (log.length : ℚ) * (32 * (2 ^ (-53 : ℤ) * (log.map fun t => |cash t|).sum) + 2 ^ (-800 : ℤ)) + _ at p2
  rw [abs_le]
  constructor <;> linarith

example : let first := exTrade "a" "buy" 10 10
    let hist := [exTrade "b" "sell" 20 9]
    let last := exTrade "c" "sell" 15 1
    (FloatTrade first ∧ (∀ t ∈ hist, FloatTrade t) ∧ FloatTrade last) ∧ BuyOrSell first ∧ BuyOrSell last ∧ last.action ≠ first.action ∧
      last.pair = first.pair ∧ (∀ t ∈ first :: hist ++ [last], GoodTrade t ∧ Priced 10 20 t) ∧
      (modifiedAll ieee (newPosition "p" 0 first) hist).quantity = .fin 1 ∧
      (modified ieee (modifiedAll ieee (newPosition "p" 0 first) hist) last).opened = false ∧
      (modified ieee (modifiedAll ieee (newPosition "p" 0 first) hist) last).profit = .fin 95 ∧
      (20 - 10) * ((first :: applied ieee (newPosition "p" 0 first) hist ++ [last]).map soldUnits).sum = 100 :=
  ⟨⟨floatTrade_of (by decide +kernel), by
      intro t ht
      simp only [List.mem_cons, List.not_mem_nil, or_false] at ht
      subst ht
      exact floatTrade_of (by decide +kernel), floatTrade_of (by decide +kernel)⟩,
    by decide +kernel, by decide +kernel, by decide +kernel, by decide +kernel, by decide +kernel, by decide +kernel, by decide +kernel,
    by decide +kernel, by unfold soldUnits; decide +kernel⟩

end Finmod
