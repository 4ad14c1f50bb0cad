import Verif.Props.PositionAccuracy
import Verif.Props.MarkFloat

/-!
# What a position is worth after a history, in float64: C245
-/

namespace Finmod
open Go Spec

/-- **C245.** In float64: open a position with a buy or sell and send it any history of trades that leaves it open.
With `n` trades in its log, `UnrealizedProfit` at a price is within `38 n 2^-53` of what was turned over, and of what
all units traded are worth at that price, from the money that the trades and the sale of the remaining units at that
price bring in. -/
theorem C245_mark {id : String} {z : Int} {first : Trade} {hist : List Trade}
    (hfirst : FloatTrade first) (hfa : BuyOrSell first) (hhist : ∀ t ∈ hist, FloatTrade t)
    (hopen : (modifiedAll ieee (newPosition id z first) hist).opened = true)
    {price : Fl} (hfin : price.isFinite = true) (hrep : ieee.Rep price) (hle : |price.toRat| ≤ 2 ^ (100 : ℤ)) :
    let p := modifiedAll ieee (newPosition id z first) hist
    let log := first :: applied ieee (newPosition id z first) hist
    log.length ≤ 2 ^ 40 →
    (unrealizedProfit ieee p price).isFinite = true ∧
    |(unrealizedProfit ieee p price).toRat - ((log.map cash).sum + price.toRat * (log.map units).sum)| ≤
      log.length * (38 * (2 ^ (-53 : ℤ) * ((log.map fun t => |cash t|).sum +
        |price.toRat| * (log.map fun t => |units t|).sum)) + 2 ^ (-799 : ℤ)) := by
  intro p log hlen
  obtain ⟨h, hsg⟩ := posErr_all hfirst hfa hhist hopen hlen
  have hn : ((first :: applied ieee (newPosition id z first) hist).length : ℚ) ≤ 2 ^ 40 := by
    have : (((first :: applied ieee (newPosition id z first) hist).length : ℕ) : ℚ) ≤ ((2 ^ 40 : ℕ) : ℚ) := by
      exact_mod_cast hlen
    push_cast at this ⊢
    linarith
  have hn1 : (1 : ℚ) ≤ ((first :: applied ieee (newPosition id z first) hist).length : ℚ) := by
    simp only [List.length_cons]; push_cast
    have : (0 : ℚ) ≤ (applied ieee (newPosition id z first) hist).length := Nat.cast_nonneg _
    linarith
  obtain ⟨b1, b2, b3, b4, b5⟩ := h.bounds hn
  have hT0 := (abs_nonneg _).trans h.absB
  have hV0 := (abs_nonneg _).trans h.absQ
  have hqe := h.q_err
  have hbe := h.b_err
  have hqF := h.qF
  have hoF := h.oF
  have hpos := h.pos
  have hty : p.type = "long" ∧ (if first.action = "buy" then (1 : ℚ) else -1) = 1 ∨
      p.type ≠ "long" ∧ (if first.action = "buy" then (1 : ℚ) else -1) = -1 := by
    rw [← hsg]
    have : p.type = (newPosition id z first).type := type_modifiedAll
    rcases type_new (id := id) (z := z) hfa with e | e
    · left
      refine ⟨this.trans e, ?_⟩
      unfold posSign
      rw [if_pos (by rw [← e]; exact this)]
    · right
      have e' : p.type = "short" := this.trans e
      refine ⟨by rw [e']; decide, ?_⟩
      unfold posSign
      rw [if_neg (by intro k; rw [show (modifiedAll ieee (newPosition id z first) hist).type = "short" from e'] at k; revert k; decide)]
  have hxF := isF_of_rep (Fl.isFinite_is hfin) hrep
  rw [two100] at hle
  have e799 : (2 : ℚ) ^ (-799 : ℤ) = 2 * eta := by
    rw [eta_eq, show (-799 : ℤ) = 1 + -800 by norm_num, zpow_add₀ (by norm_num)]; norm_num
  rw [← uR_eq, e799]
  show (unrealizedProfit ieee p price).isFinite = true ∧
    |(unrealizedProfit ieee p price).toRat - (((first :: applied ieee (newPosition id z first) hist).map cash).sum +
      price.toRat * ((first :: applied ieee (newPosition id z first) hist).map units).sum)| ≤
      ((first :: applied ieee (newPosition id z first) hist).length : ℚ) *
      (38 * (uR * (((first :: applied ieee (newPosition id z first) hist).map fun t => |cash t|).sum +
        |price.toRat| * ((first :: applied ieee (newPosition id z first) hist).map fun t => |units t|).sum)) + 2 * eta)
  set s : ℚ := if first.action = "buy" then 1 else -1 with hs
  have hss : s * s = 1 := by rw [hs]; split <;> norm_num
  have hsa : |s| = 1 := by rw [hs]; split <;> norm_num
  change IsF p.quantity p.quantity.toRat at hqF
  change IsF p.openPrice p.openPrice.toRat at hoF
  change 0 < p.quantity.toRat at hpos
  change p.quantity.toRat ≤ _ at b1
  change p.quantity.toRat ≤ _ at b2
  change |p.openPrice.toRat * p.quantity.toRat| ≤ _ at b3
  change |p.openPrice.toRat * p.quantity.toRat| ≤ _ at b4
  change |p.openPrice.toRat| ≤ _ at b5
  change |p.quantity.toRat - _| ≤ _ at hqe
  change |p.openPrice.toRat * p.quantity.toRat - _| ≤ _ at hbe
  generalize ((first :: applied ieee (newPosition id z first) hist).length : ℚ) = n at *
  generalize ((first :: applied ieee (newPosition id z first) hist).map cash).sum = C at *
  generalize ((first :: applied ieee (newPosition id z first) hist).map units).sum = U at *
  generalize ((first :: applied ieee (newPosition id z first) hist).map fun t => |cash t|).sum = T at *
  generalize ((first :: applied ieee (newPosition id z first) hist).map fun t => |units t|).sum = V at *
  clear_value s p
  clear log hlen hopen h hsg hs
  generalize p.quantity.toRat = q at *
  generalize p.openPrice.toRat = o at *
  generalize price.toRat = x at *
  have hx0 := abs_nonneg x
  -- the products stay small
  have hab : |x - o| ≤ 2 ^ 100 + 2 ^ 200 * 2 ^ 200 := (abs_sub _ _).trans (add_le_add hle b5)
  have hxq : |x * q| ≤ 2 ^ 100 * 2 ^ 141 := by
    rw [abs_mul, abs_of_pos hpos]
    exact mul_le_mul hle b2 hpos.le (by norm_num)
  have eg : (x - o) * q = x * q - o * q := by ring
  have hW : 4 * ((2 : ℚ) ^ 100 + 2 ^ 200 * 2 ^ 200) ≤ huge := by
    refine (by norm_num : (4 : ℚ) * (2 ^ 100 + 2 ^ 200 * 2 ^ 200) ≤ 2 ^ 200 * 2 ^ 203).trans ?_
    rw [huge_eq, ← pow_add, ← zpow_natCast]
    exact zpow_le_zpow_right₀ (by norm_num) (by decide)
  have hprod : |(x - o) * q| ≤ 2 ^ 100 + 2 ^ 200 * 2 ^ 200 := by
    rw [eg]
    refine (abs_sub _ _).trans ((add_le_add hxq b4).trans (by norm_num))
  -- the mark against the exact gain
  have key : (unrealizedProfit ieee p price).isFinite = true ∧
      |(unrealizedProfit ieee p price).toRat - s * ((x - o) * q)| ≤ 3 * uR * |(x - o) * q| + tiny := by
    unfold unrealizedProfit longPosition
    rcases hty with ⟨ht, e⟩ | ⟨ht, e⟩
    · rw [if_pos ht, e, one_mul]
      exact gain_near hxF hoF hqF.1 hW hab hprod
    · rw [if_neg ht, e, show (-1 : ℚ) * ((x - o) * q) = (o - x) * q by ring,
        show |(x - o) * q| = |(o - x) * q| by rw [abs_mul, abs_mul, abs_sub_comm]]
      refine gain_near hoF hxF hqF.1 hW (by rw [abs_sub_comm]; exact hab) ?_
      rw [abs_mul, abs_sub_comm, ← abs_mul]
      exact hprod
  refine ⟨key.1, ?_⟩
  have k1 : |s * ((x - o) * q) - (C + x * U)| ≤ |x| * (2 * n * uR * V) + n * (32 * (uR * T) + eta) := by
    have e : s * ((x - o) * q) - (C + x * U) = s * (x * (q - s * U) - (o * q - -(s * C))) := by
      linear_combination (C + x * U) * hss
    rw [e, abs_mul, hsa, one_mul]
    refine (abs_sub _ _).trans (add_le_add ?_ hbe)
    rw [abs_mul]
    exact mul_le_mul_of_nonneg_left hqe hx0
  have k2 : |(x - o) * q| ≤ 2 * (|x| * V) + (2 * T + n * eta) := by
    rw [eg]
    refine (abs_sub _ _).trans (add_le_add ?_ b3)
    rw [abs_mul, abs_of_pos hpos]
    have := mul_le_mul_of_nonneg_left b1 hx0
    linarith
  have k3 : uR * |(x - o) * q| ≤ uR * (2 * (|x| * V) + (2 * T + n * eta)) := mul_le_mul_of_nonneg_left k2 uR_nonneg
  have hus : uR = 1 / 2 ^ 53 := by rw [uR_eq]; norm_num
  have k5 : n * uR * eta ≤ eta / 100 := by
    have : n * uR ≤ 1 / 100 := by
      rw [hus]
      have := mul_le_mul_of_nonneg_right hn (by norm_num : (0 : ℚ) ≤ 1 / 2 ^ 53)
      have e : (2 : ℚ) ^ 40 * (1 / 2 ^ 53) ≤ 1 / 100 := by norm_num
      linarith
    have := mul_le_mul_of_nonneg_right this eta_pos.le
    linarith
  have k7 : tiny ≤ eta / 20 := by
    have := tiny_mul (x := 1) (by norm_num)
    linarith
  have k9 := abs_add_le ((unrealizedProfit ieee p price).toRat - s * ((x - o) * q)) (s * ((x - o) * q) - (C + x * U))
  rw [sub_add_sub_cancel] at k9
  have hA : 0 ≤ uR * (|x| * V) := mul_nonneg uR_nonneg (mul_nonneg hx0 hV0)
  have hB : 0 ≤ uR * T := mul_nonneg uR_nonneg hT0
  have hA' : 0 ≤ (n - 1) * (uR * (|x| * V)) := mul_nonneg (by linarith) hA
  have hB' : 0 ≤ (n - 1) * (uR * T) := mul_nonneg (by linarith) hB
  have he : 0 ≤ (n - 1) * eta := mul_nonneg (by linarith) eta_pos.le
  have := eta_pos
  have hk := key.2
  have e2 : n * (38 * (uR * (T + |x| * V)) + 2 * eta) = 38 * (n * (uR * T)) + 38 * (n * (uR * (|x| * V))) + 2 * (n * eta) := by ring
  rw [e2]
  linarith only [k9, hk, k1, k3, k5, k7, hA, hB, hA', hB', he, this]

/-- **Example for C245.** A short position of two sales, partly bought back, marked at 99.5; the mark is rounded. -/
example : ∃ first hist, ∃ price : Fl, FloatTrade first ∧ BuyOrSell first ∧ (∀ t ∈ hist, FloatTrade t) ∧
    (modifiedAll ieee (newPosition "p" 0 first) hist).opened = true ∧
    price.isFinite = true ∧ ieee.Rep price ∧ |price.toRat| ≤ 2 ^ (100 : ℤ) ∧
    (first :: applied ieee (newPosition "p" 0 first) hist).length = 3 ∧
    (unrealizedProfit ieee (modifiedAll ieee (newPosition "p" 0 first) hist) price).toRat ≠
      ((first :: applied ieee (newPosition "p" 0 first) hist).map cash).sum +
        price.toRat * ((first :: applied ieee (newPosition "p" 0 first) hist).map units).sum :=
  ⟨exTrade "a" "sell" 100 tenth, [exTrade "b" "sell" 101 1, exTrade "c" "buy" 99 (1 / 2)], .fin (199 / 2),
    floatTrade_of (by decide +kernel), by decide +kernel, by
      intro t ht
      simp only [List.mem_cons, List.not_mem_nil, or_false] at ht
      rcases ht with rfl | rfl <;> exact floatTrade_of (by decide +kernel),
    by decide +kernel, rfl, by rintro q ⟨⟩; decide +kernel, by
      rw [Fl.toRat, two100, abs_of_nonneg (by norm_num)]; norm_num, by decide +kernel, by decide +kernel⟩

end Finmod
