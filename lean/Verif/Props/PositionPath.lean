import Verif.Props.PositionMoney

/-!
# C145: order and size of the fills do not matter

In exact arithmetic a position that never goes flat on the way keeps only the net amounts: the order
of its trades and the way an order is split into fills leave no trace in quantity, open price,
unrealized profit and final profit.
-/

namespace Finmod
open Go Spec

/-- +1 for a position opened by a buy, -1 for one opened by a sell. -/
def Spec.dir (first : Trade) : ℚ := if first.action = "buy" then 1 else -1

/-- Trades of one pair that buy or sell positive quantities at finite prices. -/
structure Spec.PlainTrades (first : Trade) (hist : List Trade) : Prop where
  first_good : GoodTrade first
  first_action : BuyOrSell first
  good : ∀ t ∈ hist, GoodTrade t
  action : ∀ t ∈ hist, BuyOrSell t
  pair : ∀ t ∈ hist, t.pair = first.pair

/-- After each of the trades something is still held. -/
def Spec.NeverFlat (first : Trade) (hist : List Trade) : Prop :=
  ∀ k ≤ hist.length, 0 < dir first * ((first :: hist.take k).map units).sum

theorem plain_step {p : Position} {t : Trade} (hp : Sound p) (ho : p.opened = true) (ht : GoodTrade t)
    (ha : BuyOrSell t) (hpair : t.pair = p.pair) (hq : 0 < p.quantity.toRat + posSign p * units t) :
    (modified FloatSem.exact p t).opened = true ∧ (modified FloatSem.exact p t).trades = p.trades ++ [t.id] ∧
      (modified FloatSem.exact p t).type = p.type ∧ (modified FloatSem.exact p t).pair = p.pair := by
  have hcase : Adds p t ∨ Reduces p t := by
    rcases hp.type with h1 | h1 <;> rcases ha with h2 | h2 <;> simp [Adds, Reduces, h1, h2]
  have hr : Reduces p t → 0 < p.quantity.toRat - t.quantity.toRat := by
    rintro (⟨h1, h2⟩ | ⟨h1, h2⟩) <;> simp [posSign, units, h1, h2] at hq <;> linarith
  rcases modified_cases FloatSem.exact p t with ⟨h, e⟩ | ⟨_, _, e⟩ | ⟨_, h, hle, e⟩ | ⟨_, _, _, e⟩
  · exfalso
    rcases hcase with hc | hc
    · exact h ⟨hpair.symm, .inl hc⟩
    · refine h ⟨hpair.symm, .inr ⟨hc, ?_⟩⟩
      rintro ⟨hlt, -⟩
      rw [(FloatSem.exact_sub hp.is.2 ht.is.2).lt (Fl.is_fin 0)] at hlt
      have := hr hc
      simp only [decide_eq_true_eq] at hlt
      linarith
  · rw [e]; exact ⟨ho, rfl, rfl, rfl⟩
  · exfalso
    rw [(FloatSem.exact_sub hp.is.2 ht.is.2).le (Fl.is_fin 0)] at hle
    have := hr h
    simp only [decide_eq_true_eq] at hle
    linarith
  · rw [e]; exact ⟨ho, rfl, rfl, rfl⟩

theorem plain_all : ∀ {hist : List Trade} {p : Position}, Sound p → p.opened = true →
    (∀ t ∈ hist, GoodTrade t) → (∀ t ∈ hist, BuyOrSell t) → (∀ t ∈ hist, t.pair = p.pair) →
    (∀ k ≤ hist.length, 0 < p.quantity.toRat + posSign p * ((hist.take k).map units).sum) →
    (modifiedAll FloatSem.exact p hist).opened = true ∧
    (modifiedAll FloatSem.exact p hist).trades = p.trades ++ hist.map (·.id) ∧
    applied FloatSem.exact p hist = hist
  | [], p, _, ho, _, _, _, _ => by simp [modifiedAll, applied, ho]
  | t :: ts, p, hp, ho, hg, ha, hpr, hq => by
    have h1 := hq 1 (by simp)
    simp only [List.take_succ_cons, List.take_zero, List.map_cons, List.map_nil, List.sum_cons, List.sum_nil, add_zero] at h1
    obtain ⟨s1, s2, s3, s4⟩ := plain_step hp ho (hg t (by simp)) (ha t (by simp)) (hpr t (by simp)) h1
    have hb := basis_step hp (hg t (by simp)) s1
    have hne : (modified FloatSem.exact p t).trades ≠ p.trades := by rw [s2]; simp
    simp only [if_neg hne, List.map_cons, List.map_nil, List.sum_cons, List.sum_nil, add_zero] at hb
    obtain ⟨i1, i2, i3⟩ := plain_all (hist := ts) (sound_modified hp (hg t (by simp))) s1
      (fun t h => hg t (by simp [h])) (fun t h => ha t (by simp [h])) (fun t h => by rw [s4]; exact hpr t (by simp [h]))
      (fun k hk => by
        have := hq (k + 1) (by simpa using hk)
        rw [List.take_succ_cons, List.map_cons, List.sum_cons] at this
        rw [hb.1, hb.2.1]
        linarith)
    refine ⟨i1, ?_, ?_⟩
    · show (modifiedAll FloatSem.exact (modified FloatSem.exact p t) ts).trades = _
      rw [i2, s2]; simp
    · rw [applied, if_neg hne, i3]

theorem posSign_newPosition {id : String} {z : Int} {first : Trade} (hfa : BuyOrSell first) :
    posSign (newPosition id z first) = dir first := by
  rcases hfa with h | h <;>
    simp [posSign, dir, newPosition, buyAction, sellAction, longPosition, shortPosition, h]

/-- **C145.** Every trade of such a history is applied, and the position is its net amounts: quantity
the net units, open price the net money per unit, `Trades` all the IDs in order. -/
theorem C145_net_amounts {id : String} {z : Int} {first : Trade} {hist : List Trade}
    (h : PlainTrades first hist) (hn : NeverFlat first hist) :
    let p := modifiedAll FloatSem.exact (newPosition id z first) hist
    p.opened = true ∧ p.trades = (first :: hist).map (·.id) ∧
    p.quantity.Is (dir first * ((first :: hist).map units).sum) ∧
    p.openPrice.Is ((((first :: hist).map cash).sum) / -((first :: hist).map units).sum) := by
  intro p
  have hs0 := sound_newPosition (id := id) (z := z) h.first_good h.first_action
  have hsg := posSign_newPosition (id := id) (z := z) h.first_action
  have hd1 : dir first * units first = first.quantity.toRat := by
    rcases h.first_action with e | e <;> simp [dir, units, e]
  obtain ⟨a1, a2, a3⟩ := plain_all (hist := hist) hs0 rfl h.good h.action h.pair (fun k hk => by
    have := hn k hk
    rw [List.map_cons, List.sum_cons, mul_add, hd1] at this
    rw [hsg]
    exact this)
  obtain ⟨b1, b2, b3⟩ := C41_cost_basis (id := id) (z := z) h.first_good h.first_action h.good a1
  rw [a3] at b1 b3
  have hpos := hn hist.length (le_refl _)
  rw [List.take_length] at hpos
  have hsn := sound_modifiedAll hs0 h.good
  refine ⟨a1, by rw [a2]; rfl, b1, ?_⟩
  have hp := hsn.is.1
  have hq := b1.toRat
  generalize hU : ((first :: hist).map units).sum = U at *
  generalize hC : ((first :: hist).map cash).sum = C at *
  have hU0 : U ≠ 0 := by rintro rfl; simp at hpos
  have e : p.openPrice.toRat = C / -U := by
    rw [eq_div_iff (neg_ne_zero.2 hU0)]
    change _ = -(dir first * C) at b3
    change _ = dir first * U at hq
    rw [hq] at b3
    have hdd : dir first * dir first = 1 := by unfold dir; split_ifs <;> norm_num
    have := congrArg (fun x => dir first * x) b3
    calc p.openPrice.toRat * -U = -(dir first * dir first) * (p.openPrice.toRat * U) := by rw [hdd]; ring
      _ = -(dir first * (p.openPrice.toRat * (dir first * U))) := by ring
      _ = (dir first * dir first) * C := by rw [show dir first * (p.openPrice.toRat * (dir first * U)) = _ from this]; ring
      _ = C := by rw [hdd]; ring
  rw [← e]
  exact hp

/-- **C145.** Two such histories of the same net units and net money are the same position as far as
numbers go; in particular a reordered history. -/
theorem C145_order_irrelevant {id id' : String} {z z' : Int} {first : Trade} {hist hist' : List Trade}
    (h : PlainTrades first hist) (h' : PlainTrades first hist') (hn : NeverFlat first hist)
    (hn' : NeverFlat first hist') (hperm : hist'.Perm hist) :
    let p := modifiedAll FloatSem.exact (newPosition id z first) hist
    let p' := modifiedAll FloatSem.exact (newPosition id' z' first) hist'
    p.opened = true ∧ p'.opened = true ∧ p'.quantity.toRat = p.quantity.toRat ∧
      p'.openPrice.toRat = p.openPrice.toRat := by
  intro p p'
  obtain ⟨a1, _, a3, a4⟩ := C145_net_amounts (id := id) (z := z) h hn
  obtain ⟨b1, _, b3, b4⟩ := C145_net_amounts (id := id') (z := z') h' hn'
  have e1 : ((first :: hist').map units).sum = ((first :: hist).map units).sum :=
    ((hperm.cons first).map units).sum_eq
  have e2 : ((first :: hist').map cash).sum = ((first :: hist).map cash).sum :=
    ((hperm.cons first).map cash).sum_eq
  refine ⟨a1, b1, ?_, ?_⟩
  · rw [a3.toRat, b3.toRat, e1]
  · rw [a4.toRat, b4.toRat, e1, e2]

/-- `a` and `b` are fills of `t`: same action, pair and price, quantities adding up. -/
structure Spec.Fills (t a b : Trade) : Prop where
  good_a : GoodTrade a
  good_b : GoodTrade b
  action_a : a.action = t.action
  action_b : b.action = t.action
  pair_a : a.pair = t.pair
  pair_b : b.pair = t.pair
  price_a : a.price.toRat = t.price.toRat
  price_b : b.price.toRat = t.price.toRat
  qty : a.quantity.toRat + b.quantity.toRat = t.quantity.toRat

theorem Spec.Fills.units {t a b : Trade} (h : Fills t a b) : Spec.units a + Spec.units b = Spec.units t := by
  unfold Spec.units
  rw [h.action_a, h.action_b, ← h.qty]
  split_ifs <;> ring

theorem Spec.Fills.cash {t a b : Trade} (h : Fills t a b) : Spec.cash a + Spec.cash b = Spec.cash t := by
  unfold Spec.cash
  rw [h.action_a, h.action_b, ← h.qty, h.price_a, h.price_b]
  split_ifs <;> ring

/-- **C145.** Splitting any trade of a history into two fills changes neither quantity nor open
price, and the split history does not go flat either. -/
theorem C145_split {id id' : String} {z z' : Int} {first t a b : Trade} {l r : List Trade}
    (h : PlainTrades first (l ++ t :: r)) (hn : NeverFlat first (l ++ t :: r)) (hf : Fills t a b) :
    let p := modifiedAll FloatSem.exact (newPosition id z first) (l ++ t :: r)
    let p' := modifiedAll FloatSem.exact (newPosition id' z' first) (l ++ a :: b :: r)
    p'.opened = true ∧ p'.quantity.toRat = p.quantity.toRat ∧ p'.openPrice.toRat = p.openPrice.toRat := by
  intro p p'
  have htm : t ∈ l ++ t :: r := by simp
  have h' : PlainTrades first (l ++ a :: b :: r) := by
    have key : ∀ (P : Trade → Prop), (∀ x ∈ l ++ t :: r, P x) → P a → P b → ∀ x ∈ l ++ a :: b :: r, P x := by
      intro P hP ha hb x hx
      simp only [List.mem_append, List.mem_cons] at hx hP
      rcases hx with hx | rfl | rfl | hx
      · exact hP x (.inl hx)
      · exact ha
      · exact hb
      · exact hP x (.inr (.inr hx))
    refine ⟨h.first_good, h.first_action, key _ h.good hf.good_a hf.good_b, key _ h.action ?_ ?_,
      key _ h.pair ?_ ?_⟩
    · have := h.action t htm
      unfold BuyOrSell at *; rw [hf.action_a]; exact this
    · have := h.action t htm
      unfold BuyOrSell at *; rw [hf.action_b]; exact this
    · rw [hf.pair_a]; exact h.pair t htm
    · rw [hf.pair_b]; exact h.pair t htm
  have hu := hf.units
  have hn' : NeverFlat first (l ++ a :: b :: r) := by
    intro k hk
    rcases Nat.lt_or_ge l.length k with hlt | hge
    · rcases Nat.lt_or_ge (l.length + 1) k with hlt2 | hge2
      · -- past both fills
        obtain ⟨j, rfl⟩ : ∃ j, k = l.length + (j + 2) := ⟨k - l.length - 2, by omega⟩
        have := hn (l.length + (j + 1)) (by simp at hk ⊢; omega)
        rw [List.take_length_add_append] at this ⊢
        simp only [List.take_succ_cons, List.map_cons, List.map_append, List.sum_cons, List.sum_append] at this ⊢
        rw [← hu] at this
        linarith
      · -- between the fills
        have e : k = l.length + 1 := by omega
        subst e
        have h1 := hn l.length (by simp)
        have h2 := hn (l.length + 1) (by simp)
        rw [List.take_length_add_append] at h2 ⊢
        rw [show l.length = l.length + 0 by omega, List.take_length_add_append] at h1
        simp only [List.take_succ_cons, List.take_zero, List.map_cons, List.map_append, List.sum_cons, List.sum_append,
          List.map_nil, List.sum_nil, add_zero, List.append_nil] at h1 h2 ⊢
        rw [← hu] at h2
        have ga := hf.good_a.2.2
        have gb := hf.good_b.2.2
        have hsgn : 0 ≤ dir first * units a ∨ 0 ≤ dir first * -units b := by
          unfold Spec.units dir
          rw [hf.action_a, hf.action_b]
          split_ifs <;> simp <;> first | (left; linarith) | (right; linarith)
        rcases hsgn with hsgn | hsgn
        · linarith
        · linarith
    · have := hn k (by simp; omega)
      rw [List.take_append_of_le_length hge] at this ⊢
      exact this
  obtain ⟨a1, _, a3, a4⟩ := C145_net_amounts (id := id) (z := z) h hn
  obtain ⟨b1, _, b3, b4⟩ := C145_net_amounts (id := id') (z := z') h' hn'
  have e1 : ((first :: (l ++ a :: b :: r)).map units).sum = ((first :: (l ++ t :: r)).map units).sum := by
    simp only [List.map_cons, List.map_append, List.sum_cons, List.sum_append, ← hu]; ring
  have e2 : ((first :: (l ++ a :: b :: r)).map cash).sum = ((first :: (l ++ t :: r)).map cash).sum := by
    simp only [List.map_cons, List.map_append, List.sum_cons, List.sum_append, ← hf.cash]; ring
  refine ⟨b1, ?_, ?_⟩
  · rw [a3.toRat, b3.toRat, e1]
  · rw [a4.toRat, b4.toRat, e1, e2]

/-- Bought 2 at 10, 3 at 16, sold 1 at 14 — in either order, and with the 3 filled as 1 and 2. -/
example : PlainTrades (exTrade "a" "buy" 10 2) [exTrade "b" "buy" 16 3, exTrade "c" "sell" 14 1] ∧
    NeverFlat (exTrade "a" "buy" 10 2) [exTrade "b" "buy" 16 3, exTrade "c" "sell" 14 1] ∧
    NeverFlat (exTrade "a" "buy" 10 2) [exTrade "c" "sell" 14 1, exTrade "b" "buy" 16 3] ∧
    Fills (exTrade "b" "buy" 16 3) (exTrade "b1" "buy" 16 1) (exTrade "b2" "buy" 16 2) ∧
    (modifiedAll FloatSem.exact (newPosition "p" 0 (exTrade "a" "buy" 10 2))
      [exTrade "b" "buy" 16 3, exTrade "c" "sell" 14 1]).openPrice = .fin (27 / 2) := by
  refine ⟨⟨by decide +kernel, by decide +kernel, by decide +kernel, by decide +kernel, by decide +kernel⟩,
    ?_, ?_, ⟨by decide +kernel, by decide +kernel, rfl, rfl, rfl, rfl, by decide +kernel, by decide +kernel, by decide +kernel⟩,
    by decide +kernel⟩
  all_goals
    intro k hk
    have : k = 0 ∨ k = 1 ∨ k = 2 := by simp at hk; omega
    rcases this with rfl | rfl | rfl <;> decide +kernel

end Finmod
