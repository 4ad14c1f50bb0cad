import Verif.Props.OrderFloat

/-!
# An order filled in parts, in float64: C267
-/

namespace Finmod
open Go Spec

/-- The fills of a trade: at its price, on its side, of quantities that add up to its quantity. -/
structure Spec.FilledBy (t : Trade) (fs : List Trade) : Prop where
  action : ∀ f ∈ fs, f.action = t.action
  price : ∀ f ∈ fs, f.price = t.price
  qty : (fs.map fun f => f.quantity.toRat).sum = t.quantity.toRat

/-- Two positions on the same side, both still open; the log of the second holds fills of the trades in the log of the first, in
whatever order. -/
structure Spec.InFills (id id' : String) (z z' : Int) (first first' : Trade) (hist hist' : List Trade) : Prop where
  float : ∀ t ∈ first :: hist, FloatTrade t
  float' : ∀ t ∈ first' :: hist', FloatTrade t
  side : first.action = first'.action
  action : BuyOrSell first
  opened : (modifiedAll ieee (newPosition id z first) hist).opened = true
  opened' : (modifiedAll ieee (newPosition id' z' first') hist').opened = true
  logs : ∃ parts : List (List Trade), List.Forall₂ FilledBy (first :: applied ieee (newPosition id z first) hist) parts ∧
    (first' :: applied ieee (newPosition id' z' first') hist').Perm parts.flatten

/-- Full statement of C267: whether orders are filled at once or in parts makes no difference to the quantity in float64. -/
def Spec.C267_claim : Prop :=
  ∀ (id id' : String) (z z' : Int) (first first' : Trade) (hist hist' : List Trade),
    InFills id id' z z' first first' hist hist' →
    (modifiedAll ieee (newPosition id' z' first') hist').quantity = (modifiedAll ieee (newPosition id z first) hist).quantity

theorem Spec.FilledBy.sums {t : Trade} {fs : List Trade} (h : FilledBy t fs) :
    (fs.map units).sum = units t ∧ (fs.map cash).sum = cash t := by
  obtain ⟨ha, hp, hq⟩ := h
  have key : ∀ fs : List Trade, (∀ f ∈ fs, f.action = t.action) → (∀ f ∈ fs, f.price = t.price) →
      (fs.map units).sum = (if t.action = "buy" then 1 else -1) * (fs.map fun f => f.quantity.toRat).sum ∧
      (fs.map cash).sum = (if t.action = "buy" then -1 else 1) * t.price.toRat * (fs.map fun f => f.quantity.toRat).sum := by
    intro fs h1 h2
    induction fs with
    | nil => simp
    | cons f fs ih =>
      obtain ⟨i1, i2⟩ := ih (fun g hg => h1 g (by simp [hg])) fun g hg => h2 g (by simp [hg])
      simp only [List.map_cons, List.sum_cons, i1, i2, units, cash, h1 f (by simp), h2 f (by simp)]
      constructor <;> split_ifs <;> ring
  obtain ⟨k1, k2⟩ := key fs ha hp
  rw [k1, k2, hq]
  unfold units cash
  constructor <;> split_ifs <;> ring

theorem Spec.FilledBy.abs_sums {t : Trade} {fs : List Trade} (h : FilledBy t fs) (hf : ∀ f ∈ fs, 0 ≤ f.quantity.toRat)
    (hp : 0 ≤ t.price.toRat) :
    (fs.map fun f => |units f|).sum = |units t| ∧ (fs.map fun f => |cash f|).sum = |cash t| := by
  obtain ⟨ha, hpr, hq⟩ := h
  have h0 : 0 ≤ t.quantity.toRat := by
    rw [← hq]; exact List.sum_nonneg (by simpa using hf)
  have u : ∀ f : Trade, 0 ≤ f.quantity.toRat → |units f| = f.quantity.toRat := by
    intro f h
    unfold units; split_ifs
    · exact abs_of_nonneg h
    · rw [abs_neg, abs_of_nonneg h]
  have c : ∀ f : Trade, 0 ≤ f.quantity.toRat → 0 ≤ f.price.toRat → |cash f| = f.price.toRat * f.quantity.toRat := by
    intro f h h'
    unfold cash; split_ifs
    · rw [abs_neg, abs_of_nonneg (mul_nonneg h' h)]
    · exact abs_of_nonneg (mul_nonneg h' h)
  have e1 : fs.map (fun f => |units f|) = fs.map fun f => f.quantity.toRat :=
    List.map_congr_left fun f hf' => u f (hf f hf')
  have e2 : fs.map (fun f => |cash f|) = fs.map fun f => t.price.toRat * f.quantity.toRat :=
    List.map_congr_left fun f hf' => by
      have := hpr f hf'
      rw [c f (hf f hf') (by rw [this]; exact hp), this]
  have e3 : (fs.map fun f => t.price.toRat * f.quantity.toRat).sum = t.price.toRat * (fs.map fun f => f.quantity.toRat).sum := by
    clear e1 e2 hq hf ha hpr
    induction fs with
    | nil => simp
    | cons f fs ih => simp only [List.map_cons, List.sum_cons, ih]; ring
  rw [e1, e2, e3, hq, u t h0, c t h0 hp]
  exact ⟨rfl, rfl⟩

theorem flatten_sums {f : Trade → ℚ} {log : List Trade} {parts : List (List Trade)}
    (h : List.Forall₂ (fun t fs => (fs.map f).sum = f t) log parts) : (parts.flatten.map f).sum = (log.map f).sum := by
  induction h with
  | nil => rfl
  | cons h1 _ ih => rw [List.flatten_cons, List.map_append, List.sum_append, h1, ih, List.map_cons, List.sum_cons]

/-- Two values near one, with bounds of their own. -/
theorem apart_two {x y c e e' : ℚ} (h : |x - c| ≤ e) (h' : |y - c| ≤ e') : |y - x| ≤ e + e' := by
  rw [abs_le] at *
  constructor <;> linarith [h.1, h.2, h'.1, h'.2]

/-- **C267**, what holds: quantities, cost bases and marks differ by rounding errors only, of the order of `2^-53` per trade logged
on either side, times what was traded. -/
theorem C267_near_partial {id id' : String} {z z' : Int} {first first' : Trade} {hist hist' : List Trade}
    (h : InFills id id' z z' first first' hist hist') :
    let p := modifiedAll ieee (newPosition id z first) hist
    let p' := modifiedAll ieee (newPosition id' z' first') hist'
    let log := first :: applied ieee (newPosition id z first) hist
    let log' := first' :: applied ieee (newPosition id' z' first') hist'
    let n : ℚ := log.length + log'.length
    let V := (log.map fun t => |units t|).sum
    let T := (log.map fun t => |cash t|).sum
    log.length ≤ 2 ^ 40 → log'.length ≤ 2 ^ 40 →
    |p'.quantity.toRat - p.quantity.toRat| ≤ 2 * n * 2 ^ (-53 : ℤ) * V ∧
    |p'.openPrice.toRat * p'.quantity.toRat - p.openPrice.toRat * p.quantity.toRat| ≤
      n * (32 * (2 ^ (-53 : ℤ) * T) + 2 ^ (-800 : ℤ)) ∧
    ∀ price : Fl, price.isFinite = true → ieee.Rep price → |price.toRat| ≤ 2 ^ (100 : ℤ) →
      |(unrealizedProfit ieee p' price).toRat - (unrealizedProfit ieee p price).toRat| ≤
        n * (38 * (2 ^ (-53 : ℤ) * (T + |price.toRat| * V)) + 2 ^ (-799 : ℤ)) := by
  intro p p' log log' n V T hlen hlen'
  have hfa' : BuyOrSell first' := by have := h.action; unfold BuyOrSell at this ⊢; rwa [h.side] at this
  have f1 := h.float first (by simp)
  have f2 : ∀ t ∈ hist, FloatTrade t := fun t ht => h.float t (by simp [ht])
  have f1' := h.float' first' (by simp)
  have f2' : ∀ t ∈ hist', FloatTrade t := fun t ht => h.float' t (by simp [ht])
  have sub : ∀ (hist : List Trade) (q : Position), applied ieee q hist ⊆ hist := by
    intro hist
    induction hist with
    | nil => intro q; simp [applied]
    | cons t ts ih =>
      intro q
      unfold applied
      split_ifs
      · exact fun x hx => List.mem_cons_of_mem _ (ih _ hx)
      · exact List.cons_subset_cons _ (ih _)
  have g : ∀ t ∈ log, FloatTrade t := by
    intro t ht
    rcases List.mem_cons.1 ht with rfl | ht
    · exact f1
    · exact f2 t (sub _ _ ht)
  have g' : ∀ t ∈ log', FloatTrade t := by
    intro t ht
    rcases List.mem_cons.1 ht with rfl | ht
    · exact f1'
    · exact f2' t (sub _ _ ht)
  obtain ⟨parts, hparts, hperm⟩ := h.logs
  have nonneg : ∀ {t : Trade}, FloatTrade t → 0 ≤ t.quantity.toRat := fun ht =>
    (zpow_pos (by norm_num : (0 : ℚ) < 2) _).le.trans ht.qty_ge
  have hfull : List.Forall₂ (fun t fs => FilledBy t fs ∧ (∀ f ∈ fs, 0 ≤ f.quantity.toRat) ∧ 0 ≤ t.price.toRat) log parts := by
    have g1 : ∀ fs ∈ parts, ∀ f ∈ fs, 0 ≤ f.quantity.toRat := fun fs hfs f hf =>
      nonneg (g' f (hperm.mem_iff.2 (List.mem_flatten.2 ⟨fs, hfs, hf⟩)))
    have key : ∀ {l : List Trade} {ps : List (List Trade)}, List.Forall₂ FilledBy l ps → (∀ t ∈ l, FloatTrade t) →
        (∀ fs ∈ ps, ∀ f ∈ fs, 0 ≤ f.quantity.toRat) →
        List.Forall₂ (fun t fs => FilledBy t fs ∧ (∀ f ∈ fs, 0 ≤ f.quantity.toRat) ∧ 0 ≤ t.price.toRat) l ps := by
      intro l ps hl
      induction hl with
      | nil => exact fun _ _ => .nil
      | cons h1 _ ih =>
        intro a b
        exact .cons ⟨h1, b _ (by simp), (a _ (by simp)).price_nonneg⟩
          (ih (fun t ht => a t (by simp [ht])) fun fs hfs => b fs (by simp [hfs]))
    exact key hparts g g1
  have e1 : (log'.map units).sum = (log.map units).sum :=
    (hperm.map _).sum_eq.trans (flatten_sums (hfull.imp fun _ _ h => h.1.sums.1))
  have e2 : (log'.map cash).sum = (log.map cash).sum :=
    (hperm.map _).sum_eq.trans (flatten_sums (hfull.imp fun _ _ h => h.1.sums.2))
  have e3 : (log'.map fun t => |units t|).sum = V :=
    (hperm.map _).sum_eq.trans (flatten_sums (hfull.imp fun _ _ h => (h.1.abs_sums h.2.1 h.2.2).1))
  have e4 : (log'.map fun t => |cash t|).sum = T :=
    (hperm.map _).sum_eq.trans (flatten_sums (hfull.imp fun _ _ h => (h.1.abs_sums h.2.1 h.2.2).2))
  obtain ⟨-, -, -, a1, a2⟩ := C111_quantity_and_basis f1 h.action f2 h.opened hlen
  obtain ⟨-, -, -, b1, b2⟩ := C111_quantity_and_basis f1' hfa' f2' h.opened' hlen'
  rw [show (first' :: applied ieee (newPosition id' z' first') hist') = log' from rfl, e1, e3, ← h.side] at b1
  rw [show (first' :: applied ieee (newPosition id' z' first') hist') = log' from rfl, e2, e4, ← h.side] at b2
  refine ⟨(apart_two a1 b1).trans (le_of_eq ?_), ?_, ?_⟩
  · show _ = 2 * ((log.length : ℚ) + log'.length) * 2 ^ (-53 : ℤ) * V
    ring
  · rw [← sub_neg_eq_add] at a2 b2
    refine (apart_two a2 b2).trans (le_of_eq ?_)
    show _ = ((log.length : ℚ) + log'.length) * _
    ring
  · intro price hfin hrep hle
    obtain ⟨-, a3⟩ := C245_mark f1 h.action f2 h.opened hfin hrep hle hlen
    obtain ⟨-, b3⟩ := C245_mark f1' hfa' f2' h.opened' hfin hrep hle hlen'
    rw [show (first' :: applied ieee (newPosition id' z' first') hist') = log' from rfl, e1, e2, e3, e4] at b3
    refine (apart_two a3 b3).trans (le_of_eq ?_)
    show _ = ((log.length : ℚ) + log'.length) * _
    ring

theorem inFills_ex : InFills "p" "p" 0 0 (exTrade "a" "buy" 100 1) (exTrade "a" "buy" 100 1)
    [exTrade "b" "buy" 100 (1 / 2 ^ 52)] [exTrade "b" "buy" 100 (1 / 2 ^ 53), exTrade "c" "buy" 100 (1 / 2 ^ 53)] where
  float := by
    intro t ht
    simp only [List.mem_cons, List.not_mem_nil, or_false] at ht
    rcases ht with rfl | rfl <;> exact floatTrade_of (by decide +kernel)
  float' := by
    intro t ht
    simp only [List.mem_cons, List.not_mem_nil, or_false] at ht
    rcases ht with rfl | rfl | rfl <;> exact floatTrade_of (by decide +kernel)
  side := rfl
  action := by decide +kernel
  opened := by decide +kernel
  opened' := by decide +kernel
  logs := by
    refine ⟨[[exTrade "a" "buy" 100 1], [exTrade "b" "buy" 100 (1 / 2 ^ 53), exTrade "c" "buy" 100 (1 / 2 ^ 53)]], ?_, ?_⟩
    · have e : applied ieee (newPosition "p" 0 (exTrade "a" "buy" 100 1)) [exTrade "b" "buy" 100 (1 / 2 ^ 52)] =
        [exTrade "b" "buy" 100 (1 / 2 ^ 52)] := by decide +kernel
      rw [e]
      exact .cons ⟨by simp, by simp, by decide +kernel⟩ (.cons ⟨by simp [exTrade], by simp [exTrade], by decide +kernel⟩ .nil)
    · have e : applied ieee (newPosition "p" 0 (exTrade "a" "buy" 100 1))
          [exTrade "b" "buy" 100 (1 / 2 ^ 53), exTrade "c" "buy" 100 (1 / 2 ^ 53)] =
          [exTrade "b" "buy" 100 (1 / 2 ^ 53), exTrade "c" "buy" 100 (1 / 2 ^ 53)] := by decide +kernel
      rw [e]
      exact List.Perm.refl _

/-- **C267** is false: 1 and 2^-52 units make more than 1, but 1, 2^-53 and 2^-53 units make 1. -/
theorem C267_fills_violated : ¬ Spec.C267_claim := by
  intro h
  have := h _ _ _ _ _ _ _ _ inFills_ex
  revert this
  decide +kernel

/-- **Example for C267.** -/
example : ∃ first first' hist hist', InFills "p" "p" 0 0 first first' hist hist' ∧
    (first :: applied ieee (newPosition "p" 0 first) hist).length = 2 ∧
    (first' :: applied ieee (newPosition "p" 0 first') hist').length = 3 :=
  ⟨_, _, _, _, inFills_ex, by decide +kernel, by decide +kernel⟩

end Finmod
