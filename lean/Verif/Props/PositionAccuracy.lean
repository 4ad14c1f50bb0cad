import Verif.Lemmas.PosErr
import Verif.Props.PositionMoney

/-!
# Positions in float64 (C111–C113)

How far quantity, cost basis and booked profit drift from the true book-keeping, and when selling
back what was bought closes the position.
-/

namespace Finmod
open Go Spec

theorem posSign_new {id : String} {z : Int} {first : Trade} (hfa : BuyOrSell first) :
    posSign (newPosition id z first) = if first.action = "buy" then 1 else -1 := by
  rcases hfa with h | h <;>
    simp [h, posSign, newPosition, buyAction, sellAction, longPosition, shortPosition]

theorem type_modifiedAll {S : FloatSem} {hist : List Trade} {p : Position} :
    (modifiedAll S p hist).type = p.type := by
  induction hist generalizing p with
  | nil => rfl
  | cons a as ih =>
    refine (ih (p := modified S p a)).trans ?_
    rcases modified_cases S p a with ⟨_, e⟩ | ⟨_, _, e⟩ | ⟨_, _, _, e⟩ | ⟨_, _, _, e⟩ <;> rw [e] <;> rfl

theorem type_new {id : String} {z : Int} {first : Trade} (hfa : BuyOrSell first) :
    (newPosition id z first).type = "long" ∨ (newPosition id z first).type = "short" := by
  rcases hfa with h | h <;> simp [h, newPosition, buyAction, sellAction, longPosition, shortPosition]

/-- The error state reached by a history. -/
theorem posErr_all {id : String} {z : Int} {first : Trade} {hist : List Trade}
    (hfirst : FloatTrade first) (hfa : BuyOrSell first) (hhist : ∀ t ∈ hist, FloatTrade t)
    (hopen : (modifiedAll ieee (newPosition id z first) hist).opened = true)
    (hlen : (first :: applied ieee (newPosition id z first) hist).length ≤ 2 ^ 40) :
    PosErr (modifiedAll ieee (newPosition id z first) hist)
      ((first :: applied ieee (newPosition id z first) hist).length : ℚ)
      ((if first.action = "buy" then 1 else -1) *
        ((first :: applied ieee (newPosition id z first) hist).map units).sum)
      ((first :: applied ieee (newPosition id z first) hist).map fun t => |units t|).sum
      (-((if first.action = "buy" then 1 else -1) *
        ((first :: applied ieee (newPosition id z first) hist).map cash).sum))
      ((first :: applied ieee (newPosition id z first) hist).map fun t => |cash t|).sum ∧
    posSign (modifiedAll ieee (newPosition id z first) hist) = if first.action = "buy" then 1 else -1 := by
  have hl : ((1 : ℚ) + (applied ieee (newPosition id z first) hist).length) ≤ 2 ^ 40 := by
    simp only [List.length_cons] at hlen
    have : (((applied ieee (newPosition id z first) hist).length + 1 : ℕ) : ℚ) ≤ ((2 ^ 40 : ℕ) : ℚ) := by
      exact_mod_cast hlen
    push_cast at this
    linarith
  obtain ⟨h1, h2⟩ := posErr_history (posErr_new (id := id) (z := z) hfirst) hhist le_rfl hl hopen
  rw [posSign_new hfa] at h1 h2
  refine ⟨?_, h2⟩
  have hu : (if first.action = "buy" then (1 : ℚ) else -1) * units first = first.quantity.toRat := by
    rcases hfa with h | h <;> simp [units, h]
  have hk : (if first.action = "buy" then (1 : ℚ) else -1) * cash first =
      -(first.price.toRat * first.quantity.toRat) := by
    rcases hfa with h | h <;> simp [cash, h]
  simp only [List.length_cons, List.map_cons, List.sum_cons]
  rw [mul_add, mul_add, hu, hk, hfirst.abs_units, hfirst.abs_cash]
  push_cast
  convert h1 using 1 <;> first | rfl | ring1

/-- **C111.** In float64: open a position with a buy or sell and send it any history of trades that
leaves it open. With `n` trades in its log, `Quantity` is within `2 n 2^-53` of the total quantity
traded from the signed sum of the applied quantities, and `OpenPrice * Quantity` is within
`32 n 2^-53` of the total turnover from the net amount paid. -/
theorem C111_quantity_and_basis {id : String} {z : Int} {first : Trade} {hist : List Trade}
    (hfirst : FloatTrade first) (hfa : BuyOrSell first) (hhist : ∀ t ∈ hist, FloatTrade t)
    (hopen : (modifiedAll ieee (newPosition id z first) hist).opened = true) :
    let p := modifiedAll ieee (newPosition id z first) hist
    let log := first :: applied ieee (newPosition id z first) hist
    let sign : ℚ := if first.action = "buy" then 1 else -1
    log.length ≤ 2 ^ 40 →
    p.quantity.isFinite = true ∧ p.openPrice.isFinite = true ∧ 0 < p.quantity.toRat ∧
    |p.quantity.toRat - sign * (log.map units).sum| ≤
      2 * log.length * 2 ^ (-53 : ℤ) * (log.map fun t => |units t|).sum ∧
    |p.openPrice.toRat * p.quantity.toRat + sign * (log.map cash).sum| ≤
      log.length * (32 * (2 ^ (-53 : ℤ) * (log.map fun t => |cash t|).sum) + 2 ^ (-800 : ℤ)) := by
  intro p log sign hlen
  obtain ⟨h, _⟩ := posErr_all hfirst hfa hhist hopen hlen
  refine ⟨(Fl.is_iff.1 h.qF.1).1, (Fl.is_iff.1 h.oF.1).1, h.pos, ?_, ?_⟩
  · have := h.q_err
    rwa [uR_eq] at this
  · have := h.b_err
    rwa [uR_eq, eta_eq, sub_neg_eq_add] at this

/-- **C112.** In float64: when a trade then closes the position, the booked `Profit` is within
`32 (n+1) 2^-53` of the total turnover from the true net cash flow of all applied trades, plus twice
the closing price times the difference between the closing quantity and `Quantity`. -/
theorem C112_profit {id : String} {z : Int} {first last : Trade} {hist : List Trade}
    (hfirst : FloatTrade first) (hfa : BuyOrSell first) (hhist : ∀ t ∈ hist, FloatTrade t)
    (hlast : FloatTrade last)
    (hopen : (modifiedAll ieee (newPosition id z first) hist).opened = true) :
    let p := modifiedAll ieee (newPosition id z first) hist
    let log := first :: applied ieee (newPosition id z first) hist ++ [last]
    (modified ieee p last).opened = false → log.length ≤ 2 ^ 40 →
    (modified ieee p last).profit.isFinite = true ∧
    |(modified ieee p last).profit.toRat - (log.map cash).sum| ≤
      log.length * (32 * (2 ^ (-53 : ℤ) * (log.map fun t => |cash t|).sum) + 2 ^ (-800 : ℤ)) +
      2 * (last.price.toRat * |p.quantity.toRat - last.quantity.toRat|) := by
  intro p log hclosed hlen
  have hlen' : (first :: applied ieee (newPosition id z first) hist).length ≤ 2 ^ 40 := by
    simp only [log, List.length_append, List.length_cons, List.length_nil] at hlen ⊢; omega
  obtain ⟨h, hsg⟩ := posErr_all hfirst hfa hhist hopen hlen'
  have hn : ((first :: applied ieee (newPosition id z first) hist).length : ℚ) ≤ 2 ^ 40 := by
    have : (((first :: applied ieee (newPosition id z first) hist).length : ℕ) : ℚ) ≤ ((2 ^ 40 : ℕ) : ℚ) := by
      exact_mod_cast hlen'
    push_cast at this ⊢
    linarith
  have hc : Reduces p last ∧ modified ieee p last = closedBy ieee p last := by
    have ho : p.opened = true := hopen
    rcases modified_cases ieee p last with ⟨_, e⟩ | ⟨_, _, e⟩ | ⟨_, hr, _, e⟩ | ⟨_, _, _, e⟩
    · rw [e, ho] at hclosed; cases hclosed
    · rw [e] at hclosed; simp [posAdd, ho] at hclosed
    · exact ⟨hr, e⟩
    · rw [e] at hclosed; simp [shrunkBy, ho] at hclosed
  obtain ⟨hr, hc⟩ := hc
  obtain ⟨m, hm, hme⟩ := h.closing hlast hn (by rw [type_modifiedAll]; exact type_new hfa)
  obtain ⟨b1, b2, b3, b4, b5⟩ := h.bounds hn
  have hcash := (reduces_signed hr).2
  have habs := hlast.abs_cash
  have hpos := h.pos
  have hr0 := hlast.price_nonneg
  have lq0 := hlast.facts.2.2.1
  rw [hc, hm.toRat]
  refine ⟨(Fl.is_iff.1 hm).1, ?_⟩
  have hlogc : (log.map cash).sum =
      ((first :: applied ieee (newPosition id z first) hist).map cash).sum + cash last := by
    simp only [log, List.map_append, List.sum_append, List.map_cons, List.map_nil, List.sum_cons, List.sum_nil]
    ring
  have hloga : (log.map fun t => |cash t|).sum =
      ((first :: applied ieee (newPosition id z first) hist).map fun t => |cash t|).sum + |cash last| := by
    simp only [log, List.map_append, List.sum_append, List.map_cons, List.map_nil, List.sum_cons, List.sum_nil]
    ring
  have hlogn : (log.length : ℚ) = ((first :: applied ieee (newPosition id z first) hist).length : ℚ) + 1 := by
    simp only [log, List.length_append, List.length_cons, List.length_nil]
    push_cast; ring
  rw [hlogc, hloga, hlogn, habs, ← uR_eq, ← eta_eq]
  have hbe := h.b_err
  have hT0 : 0 ≤ ((first :: applied ieee (newPosition id z first) hist).map fun t => |cash t|).sum :=
    (abs_nonneg _).trans h.absB
  have hn1 : (1 : ℚ) ≤ ((first :: applied ieee (newPosition id z first) hist).length : ℚ) := by
    simp only [List.length_cons]; push_cast
    have : (0 : ℚ) ≤ (applied ieee (newPosition id z first) hist).length := Nat.cast_nonneg _
    linarith
  change _ ≤ _ + 2 * (last.price.toRat *
    |(modifiedAll ieee (newPosition id z first) hist).quantity.toRat - last.quantity.toRat|)
  change posSign (modifiedAll ieee (newPosition id z first) hist) * cash last = _ at hcash
  rw [hsg] at hcash hme
  set P := modifiedAll ieee (newPosition id z first) hist
  set s : ℚ := if first.action = "buy" then 1 else -1 with hs
  have hss : s * s = 1 := by rw [hs]; split <;> norm_num
  have hsa : |s| = 1 := by rw [hs]; split <;> norm_num
  generalize ((first :: applied ieee (newPosition id z first) hist).length : ℚ) = n at *
  generalize ((first :: applied ieee (newPosition id z first) hist).map cash).sum = C at *
  generalize ((first :: applied ieee (newPosition id z first) hist).map fun t => |cash t|).sum = T at *
  set x := P.quantity.toRat
  set o := P.openPrice.toRat
  set r := last.price.toRat
  set w := last.quantity.toRat
  -- the exact profit against the net cash
  have k1 : |s * ((r - o) * x) - (C + cash last)| ≤ |o * x - -(s * C)| + r * |x - w| := by
    have e : s * ((r - o) * x) - (C + cash last) = s * ((r * (x - w)) - (o * x - -(s * C))) := by
      have : cash last = s * (r * w) := by rw [← hcash, ← mul_assoc, hss, one_mul]
      rw [this]
      linear_combination C * hss
    rw [e, abs_mul, hsa, one_mul]
    refine (abs_sub _ _).trans ?_
    rw [abs_mul, abs_of_nonneg hr0]
    linarith
  have k2 : |(r - o) * x| ≤ r * w + r * |x - w| + (2 * T + n * eta) := by
    have e : (r - o) * x = r * w + r * (x - w) - o * x := by ring
    rw [e]
    refine (abs_sub _ _).trans (add_le_add ((abs_add_le _ _).trans ?_) b3)
    rw [abs_of_nonneg (mul_nonneg hr0 lq0.le), abs_mul, abs_of_nonneg hr0]
  have k3 : uR * |(r - o) * x| ≤ uR * (r * w + r * |x - w| + (2 * T + n * eta)) :=
    mul_le_mul_of_nonneg_left k2 uR_nonneg
  have k4 : uR * (r * w + r * |x - w| + (2 * T + n * eta)) =
      uR * (r * w) + uR * (r * |x - w|) + 2 * (uR * T) + n * uR * eta := by ring
  have hus : uR = 1 / 2 ^ 53 := by rw [uR_eq]; norm_num
  have k5 : n * uR * eta ≤ eta / 100 := by
    have : n * uR ≤ 1 / 100 := by
      rw [hus]
      have := mul_le_mul_of_nonneg_right hn (by norm_num : (0 : ℚ) ≤ 1 / 2 ^ 53)
      have e : (2 : ℚ) ^ 40 * (1 / 2 ^ 53) ≤ 1 / 100 := by norm_num
      linarith
    have := mul_le_mul_of_nonneg_right this eta_pos.le
    linarith
  have k6 : uR * (r * |x - w|) ≤ 1 / 10 * (r * |x - w|) :=
    mul_le_mul_of_nonneg_right (by rw [hus]; norm_num) (mul_nonneg hr0 (abs_nonneg _))
  have k7 : tiny ≤ eta / 20 := by
    have := tiny_mul (x := 1) (by norm_num)
    linarith
  have k8 : m - (C + cash last) = (m - s * ((r - o) * x)) + (s * ((r - o) * x) - (C + cash last)) := by ring
  have k9 : |m - (C + cash last)| ≤ |m - s * ((r - o) * x)| + |s * ((r - o) * x) - (C + cash last)| := by
    rw [k8]; exact abs_add_le _ _
  have hrx := mul_nonneg hr0 (abs_nonneg (x - w))
  have hA : 0 ≤ uR * (r * w) := mul_nonneg uR_nonneg (mul_nonneg hr0 lq0.le)
  have hB : 0 ≤ uR * T := mul_nonneg uR_nonneg hT0
  have e1 : (n + 1) * (32 * (uR * (T + r * w)) + eta) =
      n * (32 * (uR * T) + eta) + 32 * (n * (uR * (r * w))) + 32 * (uR * T) + 32 * (uR * (r * w)) + eta := by ring
  have hC : 0 ≤ n * (uR * (r * w)) := mul_nonneg (by linarith) hA
  rw [e1]
  have := eta_pos
  linarith only [k9, hme, k1, hbe, k3, k4, k5, k6, k7, hrx, hA, hB, hC, this]

/-! ### Selling back what was bought -/

/-- Full statement of C113: a trade that brings the signed sum of the applied quantities to zero
closes the position. -/
def Spec.C113_claim (S : FloatSem) (Good : Trade → Prop) : Prop :=
  ∀ (id : String) (z : Int) (first last : Trade) (hist : List Trade),
    Good first → BuyOrSell first → (∀ t ∈ hist, Good t) → Good last → BuyOrSell last →
    last.action ≠ first.action → last.pair = first.pair →
    (modifiedAll S (newPosition id z first) hist).opened = true →
    ((first :: applied S (newPosition id z first) hist ++ [last]).map units).sum = 0 →
    (modified S (modifiedAll S (newPosition id z first) hist) last).opened = false

/-- The last trade has just the signed sum as its quantity. -/
theorem last_qty {first last : Trade} {l : List Trade} (hfa : BuyOrSell first) (hla : BuyOrSell last)
    (hopp : last.action ≠ first.action) (h : ((first :: l ++ [last]).map units).sum = 0) :
    last.quantity.toRat = (if first.action = "buy" then (1 : ℚ) else -1) * ((first :: l).map units).sum := by
  simp only [List.map_append, List.sum_append, List.map_cons, List.map_nil, List.sum_cons, List.sum_nil] at h ⊢
  have hu : (if first.action = "buy" then (1 : ℚ) else -1) * units last = -last.quantity.toRat := by
    rcases hfa with h1 | h1 <;> rcases hla with h2 | h2 <;> simp_all [units]
  linear_combination (-(if first.action = "buy" then (1 : ℚ) else -1)) * h + hu

/-- **C113** in exact arithmetic: always. -/
theorem C113_closes_exact_partial : Spec.C113_claim FloatSem.exact GoodTrade := by
  intro id z first last hist hfirst hfa hhist hlast hla hopp hpair hopen hsum
  have h41 := (C41_cost_basis (id := id) (z := z) hfirst hfa hhist hopen).1
  have hq := last_qty hfa hla hopp hsum
  exact (C40_profit_is_net_cash (id := id) (z := z) hfirst hfa hhist hlast hla hopp hpair hopen
    (by rw [h41.toRat]; exact hq)).1

/-- A power-of-two grid that float64 can add on without rounding. -/
structure Spec.GridTrade (g : ℤ) (t : Trade) : Prop where
  good : GoodTrade t
  mul : ∃ k : ℤ, t.quantity.toRat = k * (2 : ℚ) ^ g

theorem rnd_exact_of_mulOf {g : ℤ} {q : ℚ} (hg : -1074 ≤ g) (hg2 : g ≤ 970) (h : MulOf g q)
    (hq : |q| ≤ 2 ^ (53 + g)) : ieee.rnd q = .fin q := by
  obtain ⟨k, rfl⟩ := h
  apply C102_nearest_even.1.exact
  rw [pow2_eq] at *
  have hpg : (0 : ℚ) < 2 ^ g := zpow_pos (by norm_num) _
  have hk : |k| ≤ 2 ^ 53 := by
    rw [abs_mul, abs_of_pos hpg, zpow_add₀ (by norm_num)] at hq
    have := le_of_mul_le_mul_right hq hpg
    have e : (2 : ℚ) ^ (53 : ℤ) = ((2 ^ 53 : ℤ) : ℚ) := by norm_num
    rw [e] at this
    exact_mod_cast this
  rcases lt_or_eq_of_le hk with hk | hk
  · exact ⟨k, g, by exact_mod_cast hk, hg, by push_cast; omega, rfl⟩
  · have h2 : (2 : ℚ) ^ (g + 1) = 2 ^ g * 2 := by rw [zpow_add₀ (by norm_num)]; norm_num
    rcases abs_choice k with e | e <;> rw [e] at hk
    · refine ⟨2 ^ 52, g + 1, by norm_num, by omega, by push_cast; omega, ?_⟩
      rw [hk, h2]; push_cast; ring
    · refine ⟨-2 ^ 52, g + 1, by norm_num, by omega, by push_cast; omega, ?_⟩
      have : k = -2 ^ 53 := by omega
      rw [this, h2]; push_cast; ring

theorem add_exact {x y : Fl} {a b : ℚ} {g : ℤ} (hg : -1074 ≤ g) (hg2 : g ≤ 970) (hx : x.Is a) (hy : y.Is b)
    (ha : MulOf g a) (hb : MulOf g b) (h : |a + b| ≤ 2 ^ (53 + g)) : (ieee.add x y).Is (a + b) := by
  rcases FloatSem.add_is (S := ieee) hx hy with e | ⟨e, rfl, rfl⟩
  · rw [e, rnd_exact_of_mulOf hg hg2 (ha.add hb) h]; exact Fl.is_fin _
  · rw [e, add_zero]; exact Fl.is_negZero

/-- On a grid, no quantity is rounded. -/
theorem grid_history {g : ℤ} (hg : -1074 ≤ g) (hg2 : g ≤ 970) {p : Position} {hist : List Trade} {x V : ℚ}
    (hq : p.quantity.Is x) (hx : MulOf g x) (hxV : |x| ≤ V) (ht : ∀ t ∈ hist, GridTrade g t)
    (hV : V + ((applied ieee p hist).map fun t => t.quantity.toRat).sum ≤ 2 ^ (53 + g))
    (hopen : (modifiedAll ieee p hist).opened = true) :
    (modifiedAll ieee p hist).quantity.Is (x + posSign p * ((applied ieee p hist).map units).sum) := by
  induction hist generalizing p x V with
  | nil => simpa [modifiedAll, applied] using hq
  | cons t ts ih =>
    have ho1 : (modified ieee p t).opened = true := opened_of_modifiedAll (hist := ts) hopen
    obtain ⟨⟨t1, t2, t3⟩, k, hk⟩ := ht t (by simp)
    have htq := Fl.isFinite_is t2
    have htm : MulOf g t.quantity.toRat := ⟨k, by rw [pow2_eq]; exact hk⟩
    have hrest : ∀ u ∈ ts, GridTrade g u := fun u h => ht u (by simp [h])
    by_cases hacc : Accepts ieee p t
    · have hlog : ¬ (modified ieee p t).trades = p.trades := by rw [applied_log]; simpa using hacc
      simp only [applied, if_neg hlog, List.map_cons, List.sum_cons] at hV ⊢
      have hnn : 0 ≤ ((applied ieee (modified ieee p t) ts).map fun t => t.quantity.toRat).sum := by
        apply List.sum_nonneg
        intro y hy
        obtain ⟨u, hu, rfl⟩ := List.mem_map.1 hy
        have : ∀ (l : List Trade) (p : Position), ∀ u ∈ applied ieee p l, u ∈ l := by
          intro l
          induction l with
          | nil => intro p u h; simp [applied] at h
          | cons a as ih2 =>
            intro p u h
            simp only [applied] at h
            split at h
            · exact List.mem_cons_of_mem _ (ih2 _ _ h)
            · rcases List.mem_cons.1 h with h | h
              · simp [h]
              · exact List.mem_cons_of_mem _ (ih2 _ _ h)
        exact (hrest u (this _ _ u hu)).good.2.2.le
      have step : (modified ieee p t).quantity.Is (x + posSign p * units t) ∧
          MulOf g (x + posSign p * units t) ∧ |x + posSign p * units t| ≤ V + t.quantity.toRat ∧
          posSign (modified ieee p t) = posSign p := by
        rcases modified_cases ieee p t with ⟨h', e⟩ | ⟨_, ha, e⟩ | ⟨_, _, _, e⟩ | ⟨_, hr, hle, e⟩
        · exact absurd hacc h'
        · have hb : |x + t.quantity.toRat| ≤ V + t.quantity.toRat :=
            (abs_add_le _ _).trans (by rw [abs_of_pos t3]; linarith)
          rw [e, (adds_signed ha).1]
          exact ⟨add_exact hg hg2 hq htq hx htm (by linarith), hx.add htm, hb, rfl⟩
        · rw [e] at ho1; simp [closedBy] at ho1
        · have hb : |x + -t.quantity.toRat| ≤ V + t.quantity.toRat :=
            (abs_add_le _ _).trans (by rw [abs_neg, abs_of_pos t3]; linarith)
          rw [e, (reduces_signed hr).1]
          exact ⟨add_exact hg hg2 hq htq.neg hx htm.neg (by linarith), hx.add htm.neg, hb, rfl⟩
      obtain ⟨s1, s2, s3, s4⟩ := step
      have := ih s1 s2 s3 hrest (by linarith) hopen
      rw [s4] at this
      change (modifiedAll ieee (modified ieee p t) ts).quantity.Is _
      convert this using 1
      ring
    · have hlog : (modified ieee p t).trades = p.trades := by rw [applied_log]; exact hacc
      have e : modified ieee p t = p := by
        rcases modified_cases ieee p t with ⟨_, e⟩ | ⟨h', _⟩ | ⟨h', _⟩ | ⟨h', _⟩
        · exact e
        all_goals exact absurd h' hacc
      simp only [applied, if_pos hlog] at hV ⊢
      have e2 : modifiedAll ieee p (t :: ts) = modifiedAll ieee p ts := by
        change modifiedAll ieee (modified ieee p t) ts = _
        rw [e]
      rw [e] at hV ⊢
      rw [e2] at hopen ⊢
      exact ih hq hx hxV hrest hV hopen

/-- **C113** in float64, when all quantities are multiples of some power of two `2^g` (whole
numbers: `g = 0`) and the applied quantities add up to at most `2^53` units of it. -/
theorem C113_closes_on_grid_partial {g : ℤ} (hg : -1074 ≤ g) (hg2 : g ≤ 970) {id : String} {z : Int}
    {first last : Trade} {hist : List Trade} (hfirst : GridTrade g first) (hfa : BuyOrSell first)
    (hhist : ∀ t ∈ hist, GridTrade g t) (hlast : GoodTrade last) (hla : BuyOrSell last)
    (hopp : last.action ≠ first.action) (hpair : last.pair = first.pair)
    (hV : ((first :: applied ieee (newPosition id z first) hist).map fun t => t.quantity.toRat).sum ≤
      2 ^ (53 + g))
    (hopen : (modifiedAll ieee (newPosition id z first) hist).opened = true)
    (hsum : ((first :: applied ieee (newPosition id z first) hist ++ [last]).map units).sum = 0) :
    (modified ieee (modifiedAll ieee (newPosition id z first) hist) last).opened = false := by
  obtain ⟨⟨f1, f2, f3⟩, k, hk⟩ := hfirst
  have hq := grid_history hg hg2 (p := newPosition id z first) (hist := hist) (V := first.quantity.toRat)
    (Fl.isFinite_is f2) ⟨k, by rw [pow2_eq]; exact hk⟩ (abs_of_pos f3).le hhist
    (by simpa using hV) hopen
  rw [posSign_new hfa] at hq
  have hl := last_qty hfa hla hopp hsum
  have hu : (if first.action = "buy" then (1 : ℚ) else -1) * units first = first.quantity.toRat := by
    rcases hfa with h | h <;> simp [units, h]
  have e : first.quantity.toRat + (if first.action = "buy" then (1 : ℚ) else -1) *
      ((applied ieee (newPosition id z first) hist).map units).sum = last.quantity.toRat := by
    rw [hl, List.map_cons, List.sum_cons, mul_add, hu]
  have e0 : (newPosition id z first).quantity.toRat = first.quantity.toRat := rfl
  rw [e0, e] at hq
  have hz : (ieee.sub (modifiedAll ieee (newPosition id z first) hist).quantity last.quantity).Is 0 := by
    unfold FloatSem.sub
    rcases FloatSem.add_is (S := ieee) hq (Fl.isFinite_is hlast.2.1).neg with e | ⟨e, _, _⟩
    · rw [e, add_neg_cancel, rnd_exact_of_mulOf (g := 0) (by norm_num) (by norm_num) MulOf.zero (by simp)]
      exact Fl.is_fin _
    · rw [e]; exact Fl.is_negZero
  have hr := opposite_reduces (id := id) (z := z) (hist := hist) (S := ieee) hfa hla hopp
  have hlt : Fl.lt (ieee.sub (modifiedAll ieee (newPosition id z first) hist).quantity last.quantity)
      (.fin 0) = false := by rw [hz.lt (Fl.is_fin 0)]; simp
  have hle : Fl.le (ieee.sub (modifiedAll ieee (newPosition id z first) hist).quantity last.quantity)
      (.fin 0) = true := by rw [hz.le (Fl.is_fin 0)]; simp
  have hacc : Accepts ieee (modifiedAll ieee (newPosition id z first) hist) last := by
    refine ⟨by rw [pair_modifiedAll]; exact hpair.symm, .inr ⟨hr, ?_⟩⟩
    rintro ⟨h, _⟩
    rw [hlt] at h; cases h
  rcases modified_cases ieee (modifiedAll ieee (newPosition id z first) hist) last with
    ⟨h, _⟩ | ⟨_, h, _⟩ | ⟨_, _, _, e⟩ | ⟨_, _, h, _⟩
  · exact absurd hacc h
  · exact absurd hr (not_adds_and_reduces h)
  · rw [e]; rfl
  · rw [hle] at h; cases h

/-- **C113**, what float64 leaves behind otherwise: if the signed sum is zero and the position is
still open, the quantity left is at most `2 n 2^-53` of the total quantity traded. -/
theorem C113_dust_partial {id : String} {z : Int} {first : Trade} {hist : List Trade}
    (hfirst : FloatTrade first) (hfa : BuyOrSell first) (hhist : ∀ t ∈ hist, FloatTrade t)
    (hlen : (first :: applied ieee (newPosition id z first) hist).length ≤ 2 ^ 40)
    (hsum : ((first :: applied ieee (newPosition id z first) hist).map units).sum = 0)
    (hopen : (modifiedAll ieee (newPosition id z first) hist).opened = true) :
    let p := modifiedAll ieee (newPosition id z first) hist
    let log := first :: applied ieee (newPosition id z first) hist
    0 < p.quantity.toRat ∧
    p.quantity.toRat ≤ 2 * log.length * 2 ^ (-53 : ℤ) * (log.map fun t => |units t|).sum := by
  intro p log
  obtain ⟨_, _, h3, h4, _⟩ := C111_quantity_and_basis (id := id) (z := z) hfirst hfa hhist hopen hlen
  rw [hsum, mul_zero, sub_zero, abs_of_pos h3] at h4
  exact ⟨h3, h4⟩

/-! ### Examples -/

theorem floatTrade_of {t : Trade} (h : t.price.isFinite = true ∧ t.quantity.isFinite = true ∧
    ieee.rnd t.price.toRat = .fin t.price.toRat ∧ ieee.rnd t.quantity.toRat = .fin t.quantity.toRat ∧
    0 ≤ t.price.toRat ∧ t.price.toRat ≤ 2 ^ 100 ∧ 1 / 2 ^ 100 ≤ t.quantity.toRat ∧
    t.quantity.toRat ≤ 2 ^ 100) : FloatTrade t := by
  obtain ⟨h1, h2, h3, h4, h5, h6, h7, h8⟩ := h
  refine ⟨h1, h2, fun q hq => ?_, fun q hq => ?_, h5, ?_, ?_, ?_⟩
  · rw [hq] at h3; exact h3
  · rw [hq] at h4; exact h4
  · rw [two100]; exact h6
  · have e : (2 : ℚ) ^ (-100 : ℤ) = 1 / 2 ^ 100 := by norm_num
    rw [e]; exact h7
  · rw [two100]; exact h8

/-- The float64 nearest to 0.1. -/
def tenth : ℚ := 3602879701896397 / 36028797018963968
/-- The float64 nearest to 0.2. -/
def fifth : ℚ := 3602879701896397 / 18014398509481984

/-- Bought 0.1 and 0.2, sold 0.1, price 100. -/
def dustHist : List Trade := [exTrade "b" "buy" 100 fifth, exTrade "c" "sell" 100 tenth]

/-- **C113** fails in float64: buy 0.1, buy 0.2, sell 0.1, sell 0.2 leaves the position open. -/
theorem C113_closes_violated : ¬ Spec.C113_claim ieee FloatTrade := by
  intro h
  have := h "p" 0 (exTrade "a" "buy" 100 tenth) (exTrade "d" "sell" 100 fifth) dustHist
    (floatTrade_of (by decide +kernel)) (by decide +kernel)
    (by
      intro t ht
      simp only [dustHist, List.mem_cons, List.not_mem_nil, or_false] at ht
      rcases ht with rfl | rfl <;> exact floatTrade_of (by decide +kernel))
    (floatTrade_of (by decide +kernel)) (by decide +kernel) (by decide +kernel) (by decide +kernel)
    (by decide +kernel) (by decide +kernel)
  revert this
  decide +kernel

/-- What is left: 2^-54 units, entered in the books at an open price of 0 (C111, C113 hypotheses). -/
example : ∃ first hist, FloatTrade first ∧ BuyOrSell first ∧ (∀ t ∈ hist, FloatTrade t) ∧
    (modifiedAll ieee (newPosition "p" 0 first) hist).opened = true ∧
    ((first :: applied ieee (newPosition "p" 0 first) hist).map units).sum = 0 ∧
    (modifiedAll ieee (newPosition "p" 0 first) hist).quantity ≠ .fin 0 :=
  ⟨exTrade "a" "buy" 100 tenth, dustHist ++ [exTrade "d" "sell" 100 fifth],
    floatTrade_of (by decide +kernel), by decide +kernel, by
      intro t ht
      simp only [dustHist, List.cons_append, List.nil_append, List.mem_cons, List.not_mem_nil, or_false] at ht
      rcases ht with rfl | rfl | rfl <;> exact floatTrade_of (by decide +kernel),
    by decide +kernel, by decide +kernel, by decide +kernel⟩

/-- A short position closed at a profit that is rounded (C112 hypotheses). -/
example : ∃ first hist last, FloatTrade first ∧ BuyOrSell first ∧ (∀ t ∈ hist, FloatTrade t) ∧
    FloatTrade last ∧ (modifiedAll ieee (newPosition "p" 0 first) hist).opened = true ∧
    (modified ieee (modifiedAll ieee (newPosition "p" 0 first) hist) last).opened = false ∧
    (modified ieee (modifiedAll ieee (newPosition "p" 0 first) hist) last).profit.toRat ≠
      ((first :: applied ieee (newPosition "p" 0 first) hist ++ [last]).map cash).sum :=
  ⟨exTrade "a" "sell" 100 tenth, [exTrade "b" "sell" 101 1], exTrade "c" "buy" 99 (2476979795053773 / 2251799813685248),
    floatTrade_of (by decide +kernel), by decide +kernel, by
      intro t ht
      simp only [List.mem_cons, List.not_mem_nil, or_false] at ht
      rcases ht with rfl; exact floatTrade_of (by decide +kernel),
    floatTrade_of (by decide +kernel), by decide +kernel, by decide +kernel, by decide +kernel⟩

/-- Whole quantities (C113 on a grid). -/
example : ∃ first hist last, GridTrade 0 first ∧ (∀ t ∈ hist, GridTrade 0 t) ∧ GoodTrade last ∧
    last.action ≠ first.action ∧ last.pair = first.pair ∧
    ((first :: applied ieee (newPosition "p" 0 first) hist).map fun t => t.quantity.toRat).sum ≤ 2 ^ 53 ∧
    (modifiedAll ieee (newPosition "p" 0 first) hist).opened = true ∧
    ((first :: applied ieee (newPosition "p" 0 first) hist ++ [last]).map units).sum = 0 :=
  ⟨exTrade "a" "buy" 10 3, [exTrade "b" "buy" 11 4, exTrade "c" "sell" 12 2], exTrade "d" "sell" 9 5,
    ⟨by decide +kernel, 3, by decide +kernel⟩, by
      intro t ht
      simp only [List.mem_cons, List.not_mem_nil, or_false] at ht
      rcases ht with rfl | rfl
      · exact ⟨by decide +kernel, 4, by decide +kernel⟩
      · exact ⟨by decide +kernel, 2, by decide +kernel⟩,
    by decide +kernel, by decide +kernel, by decide +kernel, by decide +kernel, by decide +kernel,
    by decide +kernel⟩

end Finmod
