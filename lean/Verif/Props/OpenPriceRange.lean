import Verif.Props.PositionAccuracy

/-!
# C276: between which prices `OpenPrice` lies
-/

namespace Finmod
open Go Spec

/-- The quantity of a trade that goes against a position of this sign (+1 long, -1 short); 0 for one that goes with it. -/
def Spec.against (sign : ℚ) (t : Trade) : ℚ := max 0 (-(sign * units t))

/-- The trade's price lies in this range. -/
def Spec.Priced (lo hi : ℚ) (t : Trade) : Prop := lo ≤ t.price.toRat ∧ t.price.toRat ≤ hi

instance (lo hi t) : Decidable (Spec.Priced lo hi t) := by unfold Spec.Priced; infer_instance

theorem mem_of_applied {S : FloatSem} {hist : List Trade} : ∀ {p : Position}, ∀ t ∈ applied S p hist, t ∈ hist := by
  induction hist with
  | nil => intro p t h; simp [applied] at h
  | cons a as ih =>
    intro p t h
    unfold applied at h
    split at h
    · exact List.mem_cons_of_mem _ (ih t h)
    · rcases List.mem_cons.1 h with rfl | h
      · exact List.mem_cons_self
      · exact List.mem_cons_of_mem _ (ih t h)

theorem cash_eq (t : Trade) : cash t = -(t.price.toRat * units t) := by
  unfold cash units; split <;> ring

/-- What a list of trades at prices from `lo` to `hi` cost. -/
theorem cost_range {lo hi : ℚ} (s : ℚ) {log : List Trade} (h : ∀ t ∈ log, Priced lo hi t) :
    lo * (s * (log.map units).sum) - (hi - lo) * (log.map (against s)).sum ≤ -(s * (log.map cash).sum) ∧
    -(s * (log.map cash).sum) ≤ hi * (s * (log.map units).sum) + (hi - lo) * (log.map (against s)).sum := by
  induction log with
  | nil => simp
  | cons t ts ih =>
    obtain ⟨i1, i2⟩ := ih fun x hx => h x (List.mem_cons_of_mem _ hx)
    obtain ⟨h1, h2⟩ := h t List.mem_cons_self
    simp only [List.map_cons, List.sum_cons]
    have key : lo * (s * units t) - (hi - lo) * against s t ≤ -(s * cash t) ∧
        -(s * cash t) ≤ hi * (s * units t) + (hi - lo) * against s t := by
      have e : -(s * cash t) = t.price.toRat * (s * units t) := by rw [cash_eq]; ring
      rw [e, against]
      generalize s * units t = u
      generalize t.price.toRat = x at h1 h2
      rcases le_total 0 u with hu | hu
      · rw [max_eq_left (by linarith)]
        constructor <;> nlinarith
      · rw [max_eq_right (by linarith)]
        constructor <;> nlinarith
    constructor <;> nlinarith [key.1, key.2]

/-- **C276, as one would like it**: while a position is open, `OpenPrice` lies between the lowest and the highest price of its trades. -/
def Spec.C276_claim (S : FloatSem) (Good : Trade → Prop) : Prop :=
  ∀ (id : String) (z : Int) (first : Trade) (hist : List Trade) (lo hi : ℚ),
    Good first → BuyOrSell first → (∀ t ∈ hist, Good t) → (∀ t ∈ first :: hist, Priced lo hi t) →
    (modifiedAll S (newPosition id z first) hist).opened = true →
    lo ≤ (modifiedAll S (newPosition id z first) hist).openPrice.toRat ∧ (modifiedAll S (newPosition id z first) hist).openPrice.toRat ≤ hi

/-- **C276 is false of the code**: what a partial close brings in is taken off the cost of what is left. Buying 10 at 10 and selling 9 of them at
20 leaves one unit with an open price of -80; selling 9 at 1 leaves one with an open price of 91. In exact arithmetic and in float64. -/
theorem C276_between_violated : ¬ Spec.C276_claim FloatSem.exact GoodTrade ∧ ¬ Spec.C276_claim ieee FloatTrade := by
  refine ⟨fun h => ?_, fun h => ?_⟩
  · have := (h "p" 0 (exTrade "a" "buy" 10 10) [exTrade "b" "sell" 20 9] 10 20 (by decide +kernel) (by decide +kernel) (by decide +kernel)
      (by decide +kernel) (by decide +kernel)).1
    revert this
    decide +kernel
  · have := (h "p" 0 (exTrade "a" "buy" 10 10) [exTrade "b" "sell" 1 9] 1 10 (floatTrade_of (by decide +kernel)) (by decide +kernel)
      (by
        intro t ht
        simp only [List.mem_cons, List.not_mem_nil, or_false] at ht
        subst ht
        exact floatTrade_of (by decide +kernel))
      (by decide +kernel) (by decide +kernel)).2
    revert this
    decide +kernel

example : (modifiedAll ieee (newPosition "p" 0 (exTrade "a" "buy" 10 10)) [exTrade "b" "sell" 20 9]).openPrice = .fin (-80) ∧
    (modifiedAll ieee (newPosition "p" 0 (exTrade "a" "buy" 10 10)) [exTrade "b" "sell" 1 9]).openPrice = .fin 91 := by
  decide +kernel

/-- **C276, in exact arithmetic** `OpenPrice` leaves the range of the prices by at most the width of the range times the ratio of the quantity
traded against the position to the quantity left. -/
theorem C276_between_partial {id : String} {z : Int} {first : Trade} {hist : List Trade} {lo hi : ℚ}
    (hfirst : GoodTrade first) (hfa : BuyOrSell first) (hhist : ∀ t ∈ hist, GoodTrade t) (hr : ∀ t ∈ first :: hist, Priced lo hi t)
    (hopen : (modifiedAll FloatSem.exact (newPosition id z first) hist).opened = true) :
    let p := modifiedAll FloatSem.exact (newPosition id z first) hist
    let log := first :: applied FloatSem.exact (newPosition id z first) hist
    let back := (log.map (against (if first.action = "buy" then 1 else -1))).sum
    lo - (hi - lo) * (back / p.quantity.toRat) ≤ p.openPrice.toRat ∧
    p.openPrice.toRat ≤ hi + (hi - lo) * (back / p.quantity.toRat) := by
  intro p log back
  obtain ⟨hq, -, hb⟩ := C41_cost_basis (id := id) (z := z) hfirst hfa hhist hopen
  have hpos : 0 < p.quantity.toRat := (sound_modifiedAll (sound_newPosition (id := id) (z := z) hfirst hfa) hhist).pos
  have hlog : ∀ t ∈ log, Priced lo hi t := by
    intro t ht
    rcases List.mem_cons.1 ht with rfl | ht
    · exact hr _ List.mem_cons_self
    · exact hr t (List.mem_cons_of_mem _ (mem_of_applied t ht))
  obtain ⟨c1, c2⟩ := cost_range (if first.action = "buy" then 1 else -1) hlog
  rw [← hb, ← hq.toRat] at c1 c2
  change lo * p.quantity.toRat - (hi - lo) * back ≤ p.openPrice.toRat * p.quantity.toRat at c1
  change p.openPrice.toRat * p.quantity.toRat ≤ hi * p.quantity.toRat + (hi - lo) * back at c2
  constructor
  · refine le_of_mul_le_mul_right ?_ hpos
    have : (lo - (hi - lo) * (back / p.quantity.toRat)) * p.quantity.toRat = lo * p.quantity.toRat - (hi - lo) * back := by
      field_simp
    linarith
  · refine le_of_mul_le_mul_right ?_ hpos
    have : (hi + (hi - lo) * (back / p.quantity.toRat)) * p.quantity.toRat = hi * p.quantity.toRat + (hi - lo) * back := by
      field_simp
    linarith

/-- **C276, in exact arithmetic** As long as no trade goes against the position, `OpenPrice` lies between the prices. -/
theorem C276_adding_partial {id : String} {z : Int} {first : Trade} {hist : List Trade} {lo hi : ℚ}
    (hfirst : GoodTrade first) (hfa : BuyOrSell first) (hhist : ∀ t ∈ hist, GoodTrade t) (hr : ∀ t ∈ first :: hist, Priced lo hi t)
    (hadd : ∀ t ∈ hist, t.action = first.action)
    (hopen : (modifiedAll FloatSem.exact (newPosition id z first) hist).opened = true) :
    lo ≤ (modifiedAll FloatSem.exact (newPosition id z first) hist).openPrice.toRat ∧
    (modifiedAll FloatSem.exact (newPosition id z first) hist).openPrice.toRat ≤ hi := by
  have h := C276_between_partial (id := id) (z := z) hfirst hfa hhist hr hopen
  have h0 : ∀ l : List Trade, (∀ t ∈ l, GoodTrade t ∧ t.action = first.action) →
      (l.map (against (if first.action = "buy" then 1 else -1))).sum = 0 := by
    intro l
    induction l with
    | nil => intro _; rfl
    | cons t ts ih =>
      intro hl
      obtain ⟨⟨-, -, hq⟩, ha⟩ := hl t List.mem_cons_self
      rw [List.map_cons, List.sum_cons, ih fun x hx => hl x (List.mem_cons_of_mem _ hx), add_zero, against]
      apply max_eq_left
      rcases hfa with e | e <;> simp [units, ha, e] <;> linarith
  simp only [h0 (first :: applied FloatSem.exact (newPosition id z first) hist) (by
    intro t ht
    rcases List.mem_cons.1 ht with rfl | ht
    · exact ⟨hfirst, rfl⟩
    · exact ⟨hhist t (mem_of_applied t ht), hadd t (mem_of_applied t ht)⟩), zero_div, mul_zero, sub_zero, add_zero] at h
  exact h

/-- **C276, in float64** The same for `OpenPrice` times `Quantity`, up to rounding errors relative to the turnover and to the highest price times
the quantity traded. -/
theorem C276_near_partial {id : String} {z : Int} {first : Trade} {hist : List Trade} {lo hi : ℚ}
    (hfirst : FloatTrade first) (hfa : BuyOrSell first) (hhist : ∀ t ∈ hist, FloatTrade t) (hr : ∀ t ∈ first :: hist, Priced lo hi t)
    (hlo : 0 ≤ lo) (hopen : (modifiedAll ieee (newPosition id z first) hist).opened = true) :
    let p := modifiedAll ieee (newPosition id z first) hist
    let log := first :: applied ieee (newPosition id z first) hist
    let back := (log.map (against (if first.action = "buy" then 1 else -1))).sum
    let err := log.length * (2 ^ (-53 : ℤ) * (32 * (log.map fun t => |cash t|).sum + 2 * hi * (log.map fun t => |units t|).sum) + 2 ^ (-800 : ℤ))
    log.length ≤ 2 ^ 40 →
    0 < p.quantity.toRat ∧ lo * p.quantity.toRat - (hi - lo) * back - err ≤ p.openPrice.toRat * p.quantity.toRat ∧
    p.openPrice.toRat * p.quantity.toRat ≤ hi * p.quantity.toRat + (hi - lo) * back + err := by
  intro p log back err hlen
  obtain ⟨-, -, hpos, hq, hb⟩ := C111_quantity_and_basis (id := id) (z := z) hfirst hfa hhist hopen hlen
  have hlog : ∀ t ∈ log, Priced lo hi t := by
    intro t ht
    rcases List.mem_cons.1 ht with rfl | ht
    · exact hr _ List.mem_cons_self
    · exact hr t (List.mem_cons_of_mem _ (mem_of_applied t ht))
  have hhi : lo ≤ hi := (hr first List.mem_cons_self).1.trans (hr first List.mem_cons_self).2
  obtain ⟨c1, c2⟩ := cost_range (if first.action = "buy" then 1 else -1) hlog
  change |p.quantity.toRat - _| ≤ _ at hq
  change |p.openPrice.toRat * p.quantity.toRat + _| ≤ _ at hb
  change 0 < p.quantity.toRat at hpos
  obtain ⟨q1, q2⟩ := abs_le.1 hq
  obtain ⟨b1, b2⟩ := abs_le.1 hb
  have m1 := mul_le_mul_of_nonneg_left q1 hlo
  have m2 := mul_le_mul_of_nonneg_left q2 hlo
  have m3 := mul_le_mul_of_nonneg_left q1 (hlo.trans hhi)
  have m4 := mul_le_mul_of_nonneg_left q2 (hlo.trans hhi)
  have hw : 0 ≤ 2 * (log.length : ℚ) * 2 ^ (-53 : ℤ) * (log.map fun t => |units t|).sum := (abs_nonneg _).trans hq
  have m5 := mul_le_mul_of_nonneg_right hhi hw
  refine ⟨hpos, ?_, ?_⟩ <;> simp only [err, back] <;> dsimp only [log] at * <;> linarith

example : let first := exTrade "a" "buy" 10 10
    let hist := [exTrade "b" "sell" 20 9]
    (FloatTrade first ∧ ∀ t ∈ hist, FloatTrade t) ∧ GoodTrade first ∧ BuyOrSell first ∧ (∀ t ∈ hist, GoodTrade t) ∧
      (∀ t ∈ first :: hist, Priced 10 20 t) ∧ (modifiedAll ieee (newPosition "p" 0 first) hist).opened = true ∧
      (modifiedAll FloatSem.exact (newPosition "p" 0 first) hist).opened = true ∧
      ((first :: applied ieee (newPosition "p" 0 first) hist).map (against 1)).sum = 9 :=
  ⟨⟨floatTrade_of (by decide +kernel), by
      intro t ht
      simp only [List.mem_cons, List.not_mem_nil, or_false] at ht
      subst ht
      exact floatTrade_of (by decide +kernel)⟩,
    by decide +kernel, by decide +kernel, by decide +kernel, by decide +kernel, by decide +kernel, by decide +kernel,
    by unfold against; decide +kernel⟩

end Finmod
