import Verif.Lemmas.FusedPos
import Verif.Props.MarkFloat
import Verif.Props.PositionAccuracy

/-!
# Positions and fees with fused multiply-add (C158)

What fusing may change of a position (open price and profit, nothing else) and the bounds of C111,
C112 and C122 whatever the compiler fuses.
-/

namespace Finmod
open Go Spec FloatSem

/-- Without fusing, the compiled functions are the ones of `Model/Position.lean`. -/
theorem C158_unfused (S : FloatSem) (p : Position) (hist : List Trade) (id : String) (time : Int)
    (action orderType : String) (pair : Pair) (price quantity cost : Fl) :
    modifiedAllF S p (hist.map fun t => (false, t)) = modifiedAll S p hist ∧
    newTradeF S false id time action orderType pair price quantity cost =
      newTrade S id time action orderType pair price quantity cost := by
  refine ⟨?_, rfl⟩
  unfold modifiedAllF modifiedAll
  rw [List.foldl_map]
  rfl

theorem sameBooks_history {S : FloatSem} {p p' : Position} (h : SameBooks p p') (hist : List (Bool × Trade)) :
    SameBooks (modifiedAll S p (hist.map Prod.snd)) (modifiedAllF S p' hist) := by
  induction hist generalizing p p' with
  | nil => exact h
  | cons kt ts ih => exact ih (same_step kt.1 h kt.2)

/-- **C158.** In any float arithmetic: fusing can change the `OpenPrice` and the `Profit` of a position
but no other field. -/
theorem C158_books (S : FloatSem) (p : Position) (hist : List (Bool × Trade)) :
    let a := modifiedAll S p (hist.map Prod.snd)
    let b := modifiedAllF S p hist
    b.id = a.id ∧ b.type = a.type ∧ b.pair = a.pair ∧ b.opened = a.opened ∧ b.takeProfit = a.takeProfit ∧
    b.stopLoss = a.stopLoss ∧ b.closePrice = a.closePrice ∧ b.quantity = a.quantity ∧
    b.openTime = a.openTime ∧ b.closeTime = a.closeTime ∧ b.trades = a.trades ∧
    b.executionID = a.executionID ∧ b.data = a.data := by
  intro a b
  have h : SameBooks a b := sameBooks_history (SameBooks.refl p) hist
  rw [h]
  simp only [and_self]

theorem posErrF_all {id : String} {z : Int} {first : Trade} {hist : List (Bool × Trade)}
    (hfirst : FloatTrade first) (hfa : BuyOrSell first) (hhist : ∀ kt ∈ hist, FloatTrade kt.2)
    (hopen : (modifiedAllF ieee (newPosition id z first) hist).opened = true)
    (hlen : (first :: applied ieee (newPosition id z first) (hist.map Prod.snd)).length ≤ 2 ^ 40) :
    PosErr (modifiedAllF ieee (newPosition id z first) hist)
      ((first :: applied ieee (newPosition id z first) (hist.map Prod.snd)).length : ℚ)
      ((if first.action = "buy" then 1 else -1) *
        ((first :: applied ieee (newPosition id z first) (hist.map Prod.snd)).map units).sum)
      ((first :: applied ieee (newPosition id z first) (hist.map Prod.snd)).map fun t => |units t|).sum
      (-((if first.action = "buy" then 1 else -1) *
        ((first :: applied ieee (newPosition id z first) (hist.map Prod.snd)).map cash).sum))
      ((first :: applied ieee (newPosition id z first) (hist.map Prod.snd)).map fun t => |cash t|).sum ∧
    posSign (modifiedAllF ieee (newPosition id z first) hist) = if first.action = "buy" then 1 else -1 := by
  have hl : ((1 : ℚ) + (applied ieee (newPosition id z first) (hist.map Prod.snd)).length) ≤ 2 ^ 40 := by
    simp only [List.length_cons] at hlen
    have : (((applied ieee (newPosition id z first) (hist.map Prod.snd)).length + 1 : ℕ) : ℚ) ≤
        ((2 ^ 40 : ℕ) : ℚ) := by exact_mod_cast hlen
    push_cast at this
    linarith
  obtain ⟨h1, h2⟩ := posErrF_history (posErr_new (id := id) (z := z) hfirst) hhist le_rfl hl hopen
  rw [posSign_new hfa] at h1 h2
  refine ⟨?_, h2⟩
  have hu : (if first.action = "buy" then (1 : ℚ) else -1) * units first = first.quantity.toRat := by
    rcases hfa with h | h <;> simp [units, h]
  have hk : (if first.action = "buy" then (1 : ℚ) else -1) * cash first =
      -(first.price.toRat * first.quantity.toRat) := by
    rcases hfa with h | h <;> simp [cash, h]
  simp only [List.length_cons, List.map_cons, List.sum_cons]
  rw [mul_add, mul_add, hu, hk, hfirst.abs_units, hfirst.abs_cash]
  push_cast
  convert h1 using 1 <;> first | rfl | ring1

/-- **C158.** The bounds of C111 hold whatever is fused. -/
theorem C158_quantity_and_basis {id : String} {z : Int} {first : Trade} {hist : List (Bool × Trade)}
    (hfirst : FloatTrade first) (hfa : BuyOrSell first) (hhist : ∀ kt ∈ hist, FloatTrade kt.2)
    (hopen : (modifiedAllF ieee (newPosition id z first) hist).opened = true) :
    let p := modifiedAllF ieee (newPosition id z first) hist
    let log := first :: applied ieee (newPosition id z first) (hist.map Prod.snd)
    let sign : ℚ := if first.action = "buy" then 1 else -1
    log.length ≤ 2 ^ 40 →
    p.quantity.isFinite = true ∧ p.openPrice.isFinite = true ∧ 0 < p.quantity.toRat ∧
    |p.quantity.toRat - sign * (log.map units).sum| ≤
      2 * log.length * 2 ^ (-53 : ℤ) * (log.map fun t => |units t|).sum ∧
    |p.openPrice.toRat * p.quantity.toRat + sign * (log.map cash).sum| ≤
      log.length * (32 * (2 ^ (-53 : ℤ) * (log.map fun t => |cash t|).sum) + 2 ^ (-800 : ℤ)) := by
  intro p log sign hlen
  obtain ⟨h, _⟩ := posErrF_all hfirst hfa hhist hopen hlen
  refine ⟨(Fl.is_iff.1 h.qF.1).1, (Fl.is_iff.1 h.oF.1).1, h.pos, ?_, ?_⟩
  · have := h.q_err
    rwa [uR_eq] at this
  · have := h.b_err
    rwa [uR_eq, eta_eq, sub_neg_eq_add] at this

theorem closing_profit {P : Position} {last : Trade} {n Q V C T s : ℚ} (h : PosErr P n Q V (-(s * C)) T)
    (hs : s = 1 ∨ s = -1) (hsg : posSign P = s) (hlast : FloatTrade last) (hn : n ≤ 2 ^ 40) (hn1 : 1 ≤ n)
    (hty : P.type = "long" ∨ P.type = "short") (hr : Reduces P last) :
    (closedBy ieee P last).profit.isFinite = true ∧
    |(closedBy ieee P last).profit.toRat - (C + cash last)| ≤
      (n + 1) * (32 * (uR * (T + last.price.toRat * last.quantity.toRat)) + eta) +
      2 * (last.price.toRat * |P.quantity.toRat - last.quantity.toRat|) := by
  obtain ⟨m, hm, hme⟩ := h.closing hlast hn hty
  obtain ⟨b1, b2, b3, b4, b5⟩ := h.bounds hn
  have hcash := (reduces_signed hr).2
  have hpos := h.pos
  have hr0 := hlast.price_nonneg
  have lq0 := hlast.facts.2.2.1
  rw [hm.toRat]
  refine ⟨(Fl.is_iff.1 hm).1, ?_⟩
  have hbe := h.b_err
  have hT0 : 0 ≤ T := (abs_nonneg _).trans h.absB
  rw [hsg] at hcash hme
  have hss : s * s = 1 := by rcases hs with rfl | rfl <;> norm_num
  have hsa : |s| = 1 := by rcases hs with rfl | rfl <;> norm_num
  set x := P.quantity.toRat
  set o := P.openPrice.toRat
  set r := last.price.toRat
  set w := last.quantity.toRat
  -- the exact profit against the net cash
  have k1 : |s * ((r - o) * x) - (C + cash last)| ≤ |o * x - -(s * C)| + r * |x - w| := by
    have e : s * ((r - o) * x) - (C + cash last) = s * ((r * (x - w)) - (o * x - -(s * C))) := by
      have : cash last = s * (r * w) := by rw [← hcash, ← mul_assoc, hss, one_mul]
      rw [this]
      linear_combination C * hss
    rw [e, abs_mul, hsa, one_mul]
    refine (abs_sub _ _).trans ?_
    rw [abs_mul, abs_of_nonneg hr0]
    linarith
  have k2 : |(r - o) * x| ≤ r * w + r * |x - w| + (2 * T + n * eta) := by
    have e : (r - o) * x = r * w + r * (x - w) - o * x := by ring
    rw [e]
    refine (abs_sub _ _).trans (add_le_add ((abs_add_le _ _).trans ?_) b3)
    rw [abs_of_nonneg (mul_nonneg hr0 lq0.le), abs_mul, abs_of_nonneg hr0]
  have k3 : uR * |(r - o) * x| ≤ uR * (r * w + r * |x - w| + (2 * T + n * eta)) :=
    mul_le_mul_of_nonneg_left k2 uR_nonneg
  have k4 : uR * (r * w + r * |x - w| + (2 * T + n * eta)) =
      uR * (r * w) + uR * (r * |x - w|) + 2 * (uR * T) + n * uR * eta := by ring
  have hus : uR = 1 / 2 ^ 53 := by rw [uR_eq]; norm_num
  have k5 : n * uR * eta ≤ eta / 100 := by
    have : n * uR ≤ 1 / 100 := by
      rw [hus]
      have := mul_le_mul_of_nonneg_right hn (by norm_num : (0 : ℚ) ≤ 1 / 2 ^ 53)
      have e : (2 : ℚ) ^ 40 * (1 / 2 ^ 53) ≤ 1 / 100 := by norm_num
      linarith
    have := mul_le_mul_of_nonneg_right this eta_pos.le
    linarith
  have k6 : uR * (r * |x - w|) ≤ 1 / 10 * (r * |x - w|) :=
    mul_le_mul_of_nonneg_right (by rw [hus]; norm_num) (mul_nonneg hr0 (abs_nonneg _))
  have k7 : tiny ≤ eta / 20 := by
    have := tiny_mul (x := 1) (by norm_num)
    linarith
  have k8 : m - (C + cash last) = (m - s * ((r - o) * x)) + (s * ((r - o) * x) - (C + cash last)) := by ring
  have k9 : |m - (C + cash last)| ≤ |m - s * ((r - o) * x)| + |s * ((r - o) * x) - (C + cash last)| := by
    rw [k8]; exact abs_add_le _ _
  have hrx := mul_nonneg hr0 (abs_nonneg (x - w))
  have hA : 0 ≤ uR * (r * w) := mul_nonneg uR_nonneg (mul_nonneg hr0 lq0.le)
  have hB : 0 ≤ uR * T := mul_nonneg uR_nonneg hT0
  have e1 : (n + 1) * (32 * (uR * (T + r * w)) + eta) =
      n * (32 * (uR * T) + eta) + 32 * (n * (uR * (r * w))) + 32 * (uR * T) + 32 * (uR * (r * w)) + eta := by ring
  have hC : 0 ≤ n * (uR * (r * w)) := mul_nonneg (by linarith) hA
  rw [e1]
  have := eta_pos
  linarith only [k9, hme, k1, hbe, k3, k4, k5, k6, k7, hrx, hA, hB, hC, this]

/-- **C158.** The bound of C112 holds whatever is fused. -/
theorem C158_profit {id : String} {z : Int} {first last : Trade} {hist : List (Bool × Trade)} {k : Bool}
    (hfirst : FloatTrade first) (hfa : BuyOrSell first) (hhist : ∀ kt ∈ hist, FloatTrade kt.2)
    (hlast : FloatTrade last)
    (hopen : (modifiedAllF ieee (newPosition id z first) hist).opened = true) :
    let p := modifiedAllF ieee (newPosition id z first) hist
    let log := first :: applied ieee (newPosition id z first) (hist.map Prod.snd) ++ [last]
    (modifiedF ieee k p last).opened = false → log.length ≤ 2 ^ 40 →
    (modifiedF ieee k p last).profit.isFinite = true ∧
    |(modifiedF ieee k p last).profit.toRat - (log.map cash).sum| ≤
      log.length * (32 * (2 ^ (-53 : ℤ) * (log.map fun t => |cash t|).sum) + 2 ^ (-800 : ℤ)) +
      2 * (last.price.toRat * |p.quantity.toRat - last.quantity.toRat|) := by
  intro p log hclosed hlen
  have hlen' : (first :: applied ieee (newPosition id z first) (hist.map Prod.snd)).length ≤ 2 ^ 40 := by
    simp only [log, List.length_append, List.length_cons, List.length_nil] at hlen ⊢; omega
  obtain ⟨h, hsg⟩ := posErrF_all hfirst hfa hhist hopen hlen'
  have hn : ((first :: applied ieee (newPosition id z first) (hist.map Prod.snd)).length : ℚ) ≤ 2 ^ 40 := by
    have : (((first :: applied ieee (newPosition id z first) (hist.map Prod.snd)).length : ℕ) : ℚ) ≤
        ((2 ^ 40 : ℕ) : ℚ) := by exact_mod_cast hlen'
    push_cast at this ⊢
    linarith
  have hn1 : (1 : ℚ) ≤ ((first :: applied ieee (newPosition id z first) (hist.map Prod.snd)).length : ℚ) := by
    simp only [List.length_cons]; push_cast
    have : (0 : ℚ) ≤ (applied ieee (newPosition id z first) (hist.map Prod.snd)).length := Nat.cast_nonneg _
    linarith
  have hty : p.type = "long" ∨ p.type = "short" := by
    rw [show p.type = _ from (C158_books ieee (newPosition id z first) hist).2.1, type_modifiedAll]
    exact type_new hfa
  have hc : Reduces p last ∧ modifiedF ieee k p last = closedBy ieee p last := by
    have ho : p.opened = true := hopen
    rcases modifiedF_cases ieee k p last with ⟨_, e⟩ | ⟨_, _, e⟩ | ⟨_, hr, _, e⟩ | ⟨_, _, _, e⟩
    · rw [e, ho] at hclosed; cases hclosed
    · rw [e] at hclosed; simp [posAdd, ho] at hclosed
    · exact ⟨hr, e⟩
    · rw [e] at hclosed; simp [shrunkByF, ho] at hclosed
  obtain ⟨hr, hc⟩ := hc
  have key := closing_profit h (by by_cases a : first.action = "buy" <;> simp [a]) hsg hlast hn hn1 hty hr
  rw [hc]
  have hlogc : (log.map cash).sum =
      ((first :: applied ieee (newPosition id z first) (hist.map Prod.snd)).map cash).sum + cash last := by
    simp only [log, List.map_append, List.sum_append, List.map_cons, List.map_nil, List.sum_cons, List.sum_nil]
    ring
  have hloga : (log.map fun t => |cash t|).sum =
      ((first :: applied ieee (newPosition id z first) (hist.map Prod.snd)).map fun t => |cash t|).sum +
        |cash last| := by
    simp only [log, List.map_append, List.sum_append, List.map_cons, List.map_nil, List.sum_cons, List.sum_nil]
    ring
  have hlogn : (log.length : ℚ) =
      ((first :: applied ieee (newPosition id z first) (hist.map Prod.snd)).length : ℚ) + 1 := by
    simp only [log, List.length_append, List.length_cons, List.length_nil]
    push_cast; ring
  rw [hlogc, hloga, hlogn, hlast.abs_cash, ← uR_eq, ← eta_eq]
  exact key

/-! ### Fees -/

/-- **C158.** The bound of C122 holds whatever is fused; a fused fee is even the rounded difference. -/
theorem C158_fee_accurate (k : Bool) (id : String) (time : Int) (action orderType : String) (pair : Pair)
    (price quantity cost : Fl) (hp : price.isFinite = true) (hq : quantity.isFinite = true)
    (hc : cost.isFinite = true) (hrc : ieee.Rep cost) (hb : |price.toRat * quantity.toRat| ≤ 2 ^ (900 : ℤ))
    (hcb : |cost.toRat| ≤ 2 ^ (900 : ℤ)) :
    let t := newTradeF ieee k id time action orderType pair price quantity cost
    let amount := price.toRat * quantity.toRat
    let fee := if action = "buy" then cost.toRat - amount else amount - cost.toRat
    t.fee.isFinite = true ∧
    |t.fee.toRat - fee| ≤ 2 ^ (-53 : ℤ) * |fee| + 2 * 2 ^ (-53 : ℤ) * |amount| + 2 * 2 ^ (-1075 : ℤ) ∧
    (k = true → |t.fee.toRat - fee| ≤ 2 ^ (-53 : ℤ) * |fee| + 2 ^ (-1075 : ℤ)) := by
  cases k with
  | false =>
    obtain ⟨h1, h2⟩ := C122_fee_accurate id time action orderType pair price quantity cost hp hq hc hrc hb hcb
    exact ⟨h1, h2, (by intro h; cases h)⟩
  | true =>
    intro t amount fee
    have hp := Fl.isFinite_is hp
    have hq := Fl.isFinite_is hq
    have hc := Fl.isFinite_is hc
    have H := two900
    have H0 := huge_pos
    have hu0 := uR_nonneg
    have ht0 := tiny_nonneg
    rw [← uR_eq, ← tiny_eq]
    have hsum := abs_sub cost.toRat amount
    have hW : |cost.toRat - amount| ≤ huge := by
      change |amount| ≤ _ at hb
      generalize (2 : ℚ) ^ (900 : ℤ) = W at *
      have := abs_nonneg amount
      linarith
    have hpos : 0 ≤ uR * |amount| := mul_nonneg hu0 (abs_nonneg _)
    by_cases ha : action = "buy"
    · have et : t.fee = ieee.fma price.neg quantity cost := by simp [t, newTradeF, ha, buyAction, FloatSem.subMul]
      have ef : fee = -price.toRat * quantity.toRat + cost.toRat := by simp [fee, ha, amount]; ring
      rw [et, ef]
      obtain ⟨r, hr, er⟩ := fma_near hp.neg hq hc (by
        rwa [show -price.toRat * quantity.toRat + cost.toRat = cost.toRat - amount by simp only [amount]; ring])
      rw [hr.1.toRat]
      exact ⟨(Fl.is_iff.1 hr.1).1, by linarith, fun _ => er⟩
    · have et : t.fee = ieee.fma price quantity cost.neg := by simp [t, newTradeF, ha, buyAction, FloatSem.mulSub]
      have ef : fee = price.toRat * quantity.toRat + -cost.toRat := by simp [fee, ha, amount]; ring
      rw [et, ef]
      obtain ⟨r, hr, er⟩ := fma_near hp hq hc.neg (by
        rwa [show price.toRat * quantity.toRat + -cost.toRat = -(cost.toRat - amount) by
          simp only [amount]; ring, abs_neg])
      rw [hr.1.toRat]
      exact ⟨(Fl.is_iff.1 hr.1).1, by linarith, fun _ => er⟩

/-- **C158**, against C122: a trade whose cost is the computed price times quantity can have a fee once
the subtraction is fused. -/
theorem C158_fee_of_own_cost : ∃ price quantity : Fl,
    (newTradeF ieee true "t" 0 "buy" "limit" exPair price quantity (ieee.mul price quantity)).fee.toRat ≠ 0 ∧
    (newTradeF ieee false "t" 0 "buy" "limit" exPair price quantity (ieee.mul price quantity)).fee.toRat = 0 :=
  ⟨ieee.rnd (1 / 10), .fin 3, by decide +kernel⟩

theorem exTrade_float {id action : String} {price qty : ℚ} (hp : ieee.rnd price = .fin price)
    (hq : ieee.rnd qty = .fin qty) (h : 0 ≤ price ∧ price ≤ 2 ^ 100 ∧ 1 ≤ qty ∧ qty ≤ 2 ^ 100) :
    FloatTrade (exTrade id action price qty) where
  price := rfl
  qty := rfl
  priceRep := by intro q h; cases h; exact hp
  qtyRep := by intro q h; cases h; exact hq
  price_nonneg := h.1
  price_le := by exact_mod_cast h.2.1
  qty_ge := le_trans (zpow_le_one_of_nonpos₀ (by norm_num) (by norm_num)) h.2.2.1
  qty_le := by exact_mod_cast h.2.2.2

/-- The hypotheses are met, and fusing does change the open price. -/
example :
    let first := exTrade "a" "buy" 11 3
    let t := exTrade "b" "sell" 7 1
    let p := newPosition "p" 0 first
    FloatTrade first ∧ FloatTrade t ∧ BuyOrSell first ∧ (modifiedAllF ieee p [(true, t)]).opened = true ∧
    (modifiedAllF ieee p [(true, t)]).openPrice ≠ (modifiedAllF ieee p [(false, t)]).openPrice ∧
    (modifiedF ieee true (modifiedAllF ieee p [(true, t)]) (exTrade "c" "sell" 9 2)).opened = false := by
  refine ⟨exTrade_float ?_ ?_ ?_, exTrade_float ?_ ?_ ?_, .inl rfl, ?_⟩ <;> decide +kernel

end Finmod
