import Verif.Props.MarkHistory

/-!
# The order of trades in float64: C251
-/

namespace Finmod
open Go Spec

/-- Two positions on the same side whose logs hold the same trades, in whatever order; both still open. -/
structure Spec.SameTrades (id id' : String) (z z' : Int) (first first' : Trade) (hist hist' : List Trade) : Prop where
  float : ∀ t ∈ first :: hist, FloatTrade t
  float' : ∀ t ∈ first' :: hist', FloatTrade t
  side : first.action = first'.action
  action : BuyOrSell first
  opened : (modifiedAll ieee (newPosition id z first) hist).opened = true
  opened' : (modifiedAll ieee (newPosition id' z' first') hist').opened = true
  logs : (first' :: applied ieee (newPosition id' z' first') hist').Perm (first :: applied ieee (newPosition id z first) hist)

/-- Full statement of C251: the order of the trades makes no difference to the quantity in float64. -/
def Spec.C251_claim : Prop :=
  ∀ (id id' : String) (z z' : Int) (first first' : Trade) (hist hist' : List Trade),
    SameTrades id id' z z' first first' hist hist' →
    (modifiedAll ieee (newPosition id' z' first') hist').quantity = (modifiedAll ieee (newPosition id z first) hist).quantity

theorem apart {x y c e : ℚ} (h : |x - c| ≤ e) (h' : |y - c| ≤ e) : |y - x| ≤ 2 * e := by
  rw [abs_le] at *
  constructor <;> linarith [h.1, h.2, h'.1, h'.2]

/-- **C251**, what holds: quantities, cost bases and marks of the two positions differ by rounding errors only. With `n`
trades in the log, quantities differ by at most `4 n 2^-53` of the quantity traded, cost bases (open price times quantity)
by `64 n 2^-53` of the turnover, marks by `76 n 2^-53` of turnover plus price times quantity traded. -/
theorem C251_near_partial {id id' : String} {z z' : Int} {first first' : Trade} {hist hist' : List Trade}
    (h : SameTrades id id' z z' first first' hist hist') :
    let p := modifiedAll ieee (newPosition id z first) hist
    let p' := modifiedAll ieee (newPosition id' z' first') hist'
    let log := first :: applied ieee (newPosition id z first) hist
    let V := (log.map fun t => |units t|).sum
    let T := (log.map fun t => |cash t|).sum
    log.length ≤ 2 ^ 40 →
    |p'.quantity.toRat - p.quantity.toRat| ≤ 2 * (2 * log.length * 2 ^ (-53 : ℤ) * V) ∧
    |p'.openPrice.toRat * p'.quantity.toRat - p.openPrice.toRat * p.quantity.toRat| ≤
      2 * (log.length * (32 * (2 ^ (-53 : ℤ) * T) + 2 ^ (-800 : ℤ))) ∧
    ∀ price : Fl, price.isFinite = true → ieee.Rep price → |price.toRat| ≤ 2 ^ (100 : ℤ) →
      |(unrealizedProfit ieee p' price).toRat - (unrealizedProfit ieee p price).toRat| ≤
        2 * (log.length * (38 * (2 ^ (-53 : ℤ) * (T + |price.toRat| * V)) + 2 ^ (-799 : ℤ))) := by
  intro p p' log V T hlen
  have hfa' : BuyOrSell first' := by have := h.action; unfold BuyOrSell at this ⊢; rwa [h.side] at this
  have hl : (first' :: applied ieee (newPosition id' z' first') hist').length = log.length := h.logs.length_eq
  have e1 : ((first' :: applied ieee (newPosition id' z' first') hist').map units).sum = (log.map units).sum :=
    (h.logs.map _).sum_eq
  have e2 : ((first' :: applied ieee (newPosition id' z' first') hist').map cash).sum = (log.map cash).sum :=
    (h.logs.map _).sum_eq
  have e3 : ((first' :: applied ieee (newPosition id' z' first') hist').map fun t => |units t|).sum = V :=
    (h.logs.map _).sum_eq
  have e4 : ((first' :: applied ieee (newPosition id' z' first') hist').map fun t => |cash t|).sum = T :=
    (h.logs.map _).sum_eq
  have f1 := h.float first (by simp)
  have f2 : ∀ t ∈ hist, FloatTrade t := fun t ht => h.float t (by simp [ht])
  have f1' := h.float' first' (by simp)
  have f2' : ∀ t ∈ hist', FloatTrade t := fun t ht => h.float' t (by simp [ht])
  obtain ⟨-, -, -, a1, a2⟩ := C111_quantity_and_basis f1 h.action f2 h.opened hlen
  obtain ⟨-, -, -, b1, b2⟩ := C111_quantity_and_basis f1' hfa' f2' h.opened' (hl.trans_le hlen)
  rw [e1, e3, hl, ← h.side] at b1
  rw [e2, e4, hl, ← h.side] at b2
  refine ⟨apart a1 b1, ?_, ?_⟩
  · rw [← sub_neg_eq_add] at a2 b2
    exact apart a2 b2
  · intro price hfin hrep hle
    obtain ⟨-, a3⟩ := C245_mark f1 h.action f2 h.opened hfin hrep hle hlen
    obtain ⟨-, b3⟩ := C245_mark f1' hfa' f2' h.opened' hfin hrep hle (hl.trans_le hlen)
    rw [e1, e2, e3, e4, hl] at b3
    exact apart a3 b3

/-- The float64 nearest to 0.3. -/
def threeTenths : ℚ := 5404319552844595 / 2 ^ 54

theorem sameTrades_ex : SameTrades "p" "p" 0 0 (exTrade "a" "buy" 100 (2 * tenth)) (exTrade "a" "buy" 100 (2 * tenth))
    [exTrade "b" "buy" 100 tenth, exTrade "c" "buy" 100 threeTenths]
    [exTrade "c" "buy" 100 threeTenths, exTrade "b" "buy" 100 tenth] where
  float := by
    intro t ht
    simp only [List.mem_cons, List.not_mem_nil, or_false] at ht
    rcases ht with rfl | rfl | rfl <;> exact floatTrade_of (by decide +kernel)
  float' := by
    intro t ht
    simp only [List.mem_cons, List.not_mem_nil, or_false] at ht
    rcases ht with rfl | rfl | rfl <;> exact floatTrade_of (by decide +kernel)
  side := rfl
  action := by decide +kernel
  opened := by decide +kernel
  opened' := by decide +kernel
  logs := by
    have e : applied ieee (newPosition "p" 0 (exTrade "a" "buy" 100 (2 * tenth)))
        [exTrade "c" "buy" 100 threeTenths, exTrade "b" "buy" 100 tenth] =
        [exTrade "c" "buy" 100 threeTenths, exTrade "b" "buy" 100 tenth] := by decide +kernel
    have e' : applied ieee (newPosition "p" 0 (exTrade "a" "buy" 100 (2 * tenth)))
        [exTrade "b" "buy" 100 tenth, exTrade "c" "buy" 100 threeTenths] =
        [exTrade "b" "buy" 100 tenth, exTrade "c" "buy" 100 threeTenths] := by decide +kernel
    rw [e, e']
    exact (List.Perm.swap _ _ _).cons _

/-- **C251** is false: 0.2, 0.1 and 0.3 units make 0.6000000000000001, 0.2, 0.3 and 0.1 make 0.6. -/
theorem C251_order_violated : ¬ Spec.C251_claim := by
  intro h
  have := h _ _ _ _ _ _ _ _ sameTrades_ex
  revert this
  decide +kernel

/-- **Example for C251.** -/
example : ∃ first first' hist hist', SameTrades "p" "p" 0 0 first first' hist hist' ∧
    (first :: applied ieee (newPosition "p" 0 first) hist).length = 3 := ⟨_, _, _, _, sameTrades_ex, by decide +kernel⟩

end Finmod
