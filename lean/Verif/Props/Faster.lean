import Verif.Props.Trend

/-!
# A faster average is ahead of a slower one: C270
-/

namespace Finmod
open Go Spec

theorem scan_drop {α β : Type} (f : α → β → α) (a : α) (l : List β) (d : Nat) (h : d ≤ l.length) :
    (scan f a l).drop d = scan f ((l.take d).foldl f a) (l.drop d) := by
  induction d generalizing a l with
  | zero => simp
  | succ d ih =>
    cases l with
    | nil => simp at h
    | cons b l => simpa [scan] using ih (f a b) l (by simpa using h)

theorem Spec.Trend.self {R T : ℚ → ℚ → Prop} (h : Trend R T) : Trend T T := by
  cases h
  · exact .rises
  · exact .rises
  · exact .falls
  · exact .falls

section
variable {R T : ℚ → ℚ → Prop} (h : Trend R T)
include h

theorem Spec.Trend.rfl' (a : ℚ) : T a a := by cases h <;> exact le_refl a

/-- The greater weight on a later close is ahead. -/
theorem Spec.Trend.mix {a b c w w' : ℚ} (hw : w' ≤ w) (hw1 : w' ≤ 1) (h1 : T b a) (h2 : T a c) :
    T (c * w' + b * (1 - w')) (c * w + a * (1 - w)) := by
  cases h <;>
    nlinarith [mul_nonneg (sub_nonneg.2 hw) (sub_nonneg.2 h2), mul_nonneg (sub_nonneg.2 hw1) (sub_nonneg.2 h1)]

theorem Spec.Trend.later {b c c' w : ℚ} (hw : 0 ≤ w) (h1 : T c c') : T (c * w + b * (1 - w)) (c' * w + b * (1 - w)) := by
  cases h <;>
    nlinarith [mul_nonneg hw (sub_nonneg.2 h1)]

/-- The later part of a list has a later mean than all of it. -/
theorem mean_append_trend {u v : List ℚ} (hv : v ≠ []) (huv : ∀ x ∈ u, ∀ y ∈ v, T x y) : T (mean (u ++ v)) (mean v) := by
  have hl : (0 : ℚ) < v.length := by exact_mod_cast List.length_pos_iff.2 hv
  have hs : v.sum = v.length * mean v := by unfold mean; field_simp
  have hm : ∀ x ∈ u, T x (mean v) := by
    intro x hx
    have key : ∀ l : List ℚ, (∀ y ∈ l, T x y) → T (l.length * x) l.sum := by
      intro l hl
      induction l with
      | nil => cases h <;> simp
      | cons a l ih =>
        have i1 := hl a (by simp)
        have i2 := ih fun y hy => hl y (by simp [hy])
        rw [List.sum_cons, List.length_cons]
        cases h <;> beta_reduce at * <;> push_cast <;> linarith
    have := key v (huv x hx)
    rw [hs] at this
    cases h <;> beta_reduce at * <;>
      exact le_of_mul_le_mul_left this hl
  have hu : T u.sum (u.length * mean v) := by
    clear huv
    induction u with
    | nil => cases h <;> simp
    | cons a u ih =>
      have i1 := hm a (by simp)
      have i2 := ih fun y hy => hm y (by simp [hy])
      rw [List.sum_cons, List.length_cons]
      cases h <;> beta_reduce at * <;> push_cast <;> linarith
  have hl' : (0 : ℚ) < u.length + v.length := by positivity
  have e : mean (u ++ v) = (u.sum + v.length * mean v) / (u.length + v.length) := by
    rw [← hs]
    unfold mean
    simp
  rw [e]
  cases h <;> beta_reduce at *
  · rw [div_le_iff₀ hl']; linarith
  · rw [div_le_iff₀ hl']; linarith
  · rw [le_div_iff₀ hl']; linarith
  · rw [le_div_iff₀ hl']; linarith

/-- Two recursive averages over the same closes: the one with the greater weight stays ahead. -/
theorem scan_faster {w w' : ℚ} (hw0 : 0 < w') (hw : w' ≤ w) (hw1 : w ≤ 1) {f g : ℚ → ℚ → ℚ} (hf : ∀ a b, f a b = b * w + a * (1 - w))
    (hg : ∀ a b, g a b = b * w' + a * (1 - w')) :
    ∀ (l : List ℚ) (a b : ℚ), l.Pairwise T → (∀ c ∈ l, T a c) → T b a → List.Forall₂ T (scan g b l) (scan f a l) := by
  intro l
  induction l with
  | nil => intro a b _ _ hab; exact .cons hab .nil
  | cons c l ih =>
    intro a b hp ha hab
    rw [List.pairwise_cons] at hp
    have hc := ha c (by simp)
    refine .cons hab (ih _ _ hp.2 (fun d hd => ?_) ?_)
    · rw [hf]
      exact h.self.trans (h.self.between (hw0.trans_le hw) hw1 hc).2 (hp.1 d hd)
    · rw [hf, hg]
      exact h.mix hw (hw.trans hw1) hab hc

end

theorem mean_take_succ {xs : List ℚ} {k : Nat} (hk : k < xs.length) :
    mean (xs.take (k + 1)) = xs[k] * (1 / ((k : ℚ) + 1)) + mean (xs.take k) * (1 - 1 / ((k : ℚ) + 1)) := by
  have hk0 : (k : ℚ) + 1 ≠ 0 := by positivity
  unfold mean
  rw [← List.take_concat_get' xs k hk, List.sum_append, List.length_append]
  have hl : (xs.take k).length = k := by simp; omega
  rw [hl]
  simp only [List.sum_cons, List.sum_nil, List.length_cons, List.length_nil]
  rcases Nat.eq_zero_or_pos k with rfl | h0
  · simp
  · have : (k : ℚ) ≠ 0 := by positivity
    push_cast
    field_simp
    ring

/-- A recursive average that starts as a mean stays ahead of the mean, whether it leaves out a close (`s = 1`) or not (`s = 0`). -/
theorem warm_trend {T : ℚ → ℚ → Prop} (h : Trend T T) {xs : List ℚ} (hp : xs.Pairwise T) {n s : Nat} (h1 : 1 ≤ n) {w : ℚ}
    (hw : 1 / ((n : ℚ) + 1) ≤ w) (hw1 : w ≤ 1) {f : ℚ → ℚ → ℚ} (hf : ∀ a b, f a b = b * w + a * (1 - w)) :
    ∀ d : Nat, (hd : n + d + s ≤ xs.length) → 
      T (mean (xs.take (n + d))) (((xs.drop (n + s)).take d).foldl f (mean (xs.take n))) ∧
      ∀ i, (hi : i < xs.length) → n + d + s ≤ i → T (((xs.drop (n + s)).take d).foldl f (mean (xs.take n))) xs[i] := by
  have hw0 : 0 < w := lt_of_lt_of_le (by positivity) hw
  intro d
  induction d with
  | zero =>
    intro hd
    refine ⟨by simpa using h.rfl' _, fun i hi hle => ?_⟩
    have := (seed_trend h hp h1 (by omega)).2 xs[i] (by
      rw [List.mem_iff_getElem]
      refine ⟨i - n, by simp; omega, ?_⟩
      rw [List.getElem_drop]
      congr 1; omega)
    simpa using this
  | succ d ih =>
    intro hd
    obtain ⟨i1, i2⟩ := ih (by omega)
    have hlen : d < (xs.drop (n + s)).length := by simp; omega
    have e : ((xs.drop (n + s)).take (d + 1)).foldl f (mean (xs.take n)) =
        xs[n + s + d] * w + (((xs.drop (n + s)).take d).foldl f (mean (xs.take n))) * (1 - w) := by
      rw [← List.take_concat_get' _ d hlen, List.foldl_append, List.foldl_cons, List.foldl_nil, hf, List.getElem_drop]
    rw [e]
    have hE := i2 (n + s + d) (by omega) (by omega)
    refine ⟨?_, fun i hi hle => h.trans (h.between hw0 hw1 hE).2 (List.pairwise_iff_getElem.1 hp _ _ _ _ (by omega))⟩
    rw [show n + (d + 1) = n + d + 1 by omega, mean_take_succ (by omega)]
    have hnd : (1 : ℚ) / (((n + d : ℕ) : ℚ) + 1) ≤ 1 / ((n : ℚ) + 1) := by
      apply one_div_le_one_div_of_le (by positivity)
      push_cast
      have : (0 : ℚ) ≤ d := by positivity
      linarith
    have hx : T xs[n + d] xs[n + s + d] := by
      rcases Nat.eq_zero_or_pos s with rfl | hs
      · exact h.rfl' _
      · exact List.pairwise_iff_getElem.1 hp _ _ _ _ (by omega)
    refine h.trans (h.later (by positivity) hx) (h.mix (hnd.trans hw) ?_ i1 hE)
    rw [div_le_one (by positivity)]
    have : (0 : ℚ) ≤ ((n + d : ℕ) : ℚ) := by positivity
    linarith

/-- The averages without rounding: those of period `n` and those of a longer period `m`, at the same candles. -/
theorem faster_q {R T : ℚ → ℚ → Prop} (hR : Trend R T) {xs : List ℚ} (hpR : xs.Pairwise R) {n m : Nat} (h1 : 1 ≤ n) (hnm : n ≤ m)
    (h2 : m ≤ xs.length) :
    List.Forall₂ T (maQ xs m) ((maQ xs n).drop (m - n)) ∧
    List.Forall₂ T (emaQ xs m) ((emaQ xs n).drop (m - n)) ∧
    List.Forall₂ T (smmaQ xs m) ((smmaQ xs n).drop (m - n)) := by
  have h := hR.self
  have hp : xs.Pairwise T := hpR.imp hR.weak
  have hn0 : (1 : ℚ) ≤ n := by exact_mod_cast h1
  have hnm' : (n : ℚ) ≤ m := by exact_mod_cast hnm
  refine ⟨?_, ?_, ?_⟩
  · rw [List.forall₂_iff_get]
    refine ⟨by simp [maQ]; omega, fun i i1 i2 => ?_⟩
    have hi : i + m ≤ xs.length := by simp [maQ] at i1; omega
    simp only [List.get_eq_getElem, List.getElem_drop, maQ, List.getElem_map, List.getElem_range]
    have e : (xs.drop i).take m = (xs.drop i).take (m - n) ++ (xs.drop (m - n + i)).take n := by
      conv_lhs => rw [show m = (m - n) + n by omega, List.take_add]
      rw [List.drop_drop, Nat.add_comm i]
    rw [e]
    refine mean_append_trend h (by intro h0; have := congrArg List.length h0; simp at this; omega) fun x hx y hy => ?_
    obtain ⟨a, ha, rfl⟩ := List.mem_iff_getElem.1 hx
    obtain ⟨b, hb, rfl⟩ := List.mem_iff_getElem.1 hy
    simp only [List.length_take, List.length_drop] at ha hb
    simp only [List.getElem_take, List.getElem_drop]
    exact List.pairwise_iff_getElem.1 hp _ _ _ _ (by omega)
  · rcases Nat.lt_or_ge m xs.length with hlt | hge
    · have e : ∀ k, k < xs.length → emaQ xs k =
          scan (fun prev x => x * (2 / ((k : ℚ) + 1)) + prev * (1 - 2 / ((k : ℚ) + 1))) (mean (xs.take k)) (xs.drop (k + 1)) := by
        intro k hk
        unfold emaQ
        rw [List.drop_eq_getElem_cons hk]
      rw [e m hlt, e n (by omega), scan_drop _ _ _ _ (by simp; omega), List.drop_drop, show n + 1 + (m - n) = m + 1 by omega]
      obtain ⟨w1, w2⟩ := weight_trend h1
      obtain ⟨v1, v2⟩ := weight_trend (h1.trans hnm)
      obtain ⟨k1, k2⟩ := warm_trend h hp (s := 1) h1 (w := 2 / ((n : ℚ) + 1)) (by
          apply div_le_div_of_nonneg_right (by norm_num) (by positivity)) w2
          (f := fun prev x => x * (2 / ((n : ℚ) + 1)) + prev * (1 - 2 / ((n : ℚ) + 1))) (fun _ _ => rfl) (m - n) (by omega)
      rw [show n + (m - n) = m by omega] at k1 k2
      refine scan_faster h v1 ?_ w2 (fun _ _ => rfl) (fun _ _ => rfl) _ _ _ (hp.sublist (List.drop_sublist _ _)) ?_ k1
      · apply div_le_div_of_nonneg_left (by norm_num) (by positivity); linarith
      · intro c hc
        obtain ⟨j, hj, rfl⟩ := List.mem_iff_getElem.1 hc
        rw [List.getElem_drop]
        exact k2 _ _ (by omega)
    · have e1 : emaQ xs m = [] := by unfold emaQ; rw [List.drop_eq_nil_of_le hge]
      have e2 : (emaQ xs n).drop (m - n) = [] := by
        rw [List.drop_eq_nil_iff]
        unfold emaQ
        split
        · simp
        · rename_i c rest hd
          rw [length_scan]
          have := congrArg List.length hd
          simp at this
          omega
      rw [e1, e2]; exact .nil
  · unfold smmaQ
    rw [scan_drop _ _ _ _ (by simp; omega), List.drop_drop, show n + (m - n) = m by omega]
    have hw : (1 : ℚ) / m ≤ 1 / n := one_div_le_one_div_of_le (by linarith) hnm'
    have hw2 : (1 : ℚ) / n ≤ 1 := by rw [div_le_one (by linarith)]; exact hn0
    obtain ⟨k1, k2⟩ := warm_trend h hp (s := 0) h1 (w := 1 / n) (by
        apply one_div_le_one_div_of_le (by linarith); linarith) hw2
        (f := fun prev x => (prev * ((n : ℚ) - 1) + x) / n) (fun a b => by field_simp; ring) (m - n) (by omega)
    rw [show n + (m - n) = m by omega] at k1 k2
    have hm0 : (0 : ℚ) < m := by linarith
    refine scan_faster h (w := 1 / n) (w' := 1 / m) (by positivity) hw hw2 (fun a b => by field_simp; ring) (fun a b => by field_simp; ring) _ _ _
      (hp.sublist (List.drop_sublist _ _)) ?_ k1
    intro c hc
    obtain ⟨j, hj, rfl⟩ := List.mem_iff_getElem.1 hc
    rw [List.getElem_drop]
    exact k2 _ _ (by omega)

/-- **C270** Without rounding, while the closes rise an average of a shorter period is never below the same average of a longer period
at the same candle, and while they fall never above it. -/
theorem C270_ahead_partial {R T : ℚ → ℚ → Prop} (h : Trend R T) {cs : List Candle} {xs : List ℚ} (hx : Closes cs xs) (hp : xs.Pairwise R)
    (n m : Nat) (h1 : 1 ≤ n) (hnm : n ≤ m) (h2 : m ≤ cs.length) :
    (∃ slow fast ss fs, movingAverage FloatSem.exact (some cs) m = .ok slow ∧ movingAverage FloatSem.exact (some cs) n = .ok fast ∧
      List.Forall₂ Fl.Is slow ss ∧ List.Forall₂ Fl.Is fast fs ∧ List.Forall₂ T ss (fs.drop (m - n))) ∧
    (∃ slow fast ss fs, exponentialMovingAverage FloatSem.exact (some cs) m = .ok slow ∧
      exponentialMovingAverage FloatSem.exact (some cs) n = .ok fast ∧
      List.Forall₂ Fl.Is slow ss ∧ List.Forall₂ Fl.Is fast fs ∧ List.Forall₂ T ss (fs.drop (m - n))) ∧
    (∃ slow fast ss fs, smoothedMovingAverage FloatSem.exact (some cs) m = .ok slow ∧ smoothedMovingAverage FloatSem.exact (some cs) n = .ok fast ∧
      List.Forall₂ Fl.Is slow ss ∧ List.Forall₂ Fl.Is fast fs ∧ List.Forall₂ T ss (fs.drop (m - n))) := by
  obtain ⟨q1, q2, q3⟩ := faster_q h hp h1 hnm (hx.length ▸ h2)
  obtain ⟨o1, e1, f1⟩ := ma_exact hx h1 (hnm.trans h2)
  obtain ⟨o2, e2, f2⟩ := ema_exact hx h1 (hnm.trans h2)
  obtain ⟨o3, e3, f3⟩ := smma_exact hx h1 (hnm.trans h2)
  obtain ⟨p1, d1, g1⟩ := ma_exact hx (h1.trans hnm) h2
  obtain ⟨p2, d2, g2⟩ := ema_exact hx (h1.trans hnm) h2
  obtain ⟨p3, d3, g3⟩ := smma_exact hx (h1.trans hnm) h2
  exact ⟨⟨_, _, _, _, d1, e1, g1, f1, q1⟩, ⟨_, _, _, _, d2, e2, g2, f2, q2⟩, ⟨_, _, _, _, d3, e3, g3, f3, q3⟩⟩

theorem near_forall₂ {D E : ℚ} {slow fast : List Fl} {ss fs : List ℚ} (hs : List.Forall₂ (fun y q => ∃ r, y.Is r ∧ |r - q| ≤ D) slow ss)
    (hf : List.Forall₂ (fun y q => ∃ r, y.Is r ∧ |r - q| ≤ E) fast fs) {d : Nat} (h : List.Forall₂ (fun a b => a ≤ b) ss (fs.drop d)) :
    List.Forall₂ (fun x y => ∃ r s, x.Is r ∧ y.Is s ∧ r ≤ s + (D + E)) slow (fast.drop d) := by
  have hf' : List.Forall₂ (fun y q => ∃ r, y.Is r ∧ |r - q| ≤ E) (fast.drop d) (fs.drop d) := List.forall₂_drop d hf
  rw [List.forall₂_iff_get] at *
  obtain ⟨a1, a2⟩ := hs
  obtain ⟨b1, b2⟩ := hf'
  obtain ⟨c1, c2⟩ := h
  refine ⟨by omega, fun i i1 i2 => ?_⟩
  obtain ⟨r, hr, hrD⟩ := a2 i i1 (a1 ▸ i1)
  obtain ⟨s, hs, hsE⟩ := b2 i i2 (b1 ▸ i2)
  have := c2 i (a1 ▸ i1) (b1 ▸ i2)
  rw [abs_le] at hrD hsE
  exact ⟨r, s, hr, hs, by linarith⟩

/-- The accuracy of MovingAverage (C107) with one bound for all closes. -/
theorem ma_near_all {cs : List Candle} {xs : List ℚ} (hx : Closes cs xs) (hr : FloatCloses cs) {n : Nat} (h1 : 1 ≤ n) (hn : n ≤ 2 ^ 52)
    (h2 : n ≤ cs.length) {M : ℚ} (hM : ∀ x ∈ xs, |x| ≤ M) (hbig : M ≤ 2 ^ (900 : ℤ)) :
    ∃ out, movingAverage ieee (some cs) n = .ok out ∧
      List.Forall₂ (fun y q => ∃ r, y.Is r ∧ |r - q| ≤ 2 * (n + 1) * 2 ^ (-53 : ℤ) * M + 2 ^ (-1075 : ℤ)) out (maQ xs n) := by
  obtain ⟨out, e, hl, h⟩ := C107_moving_average_accurate hx hr h1 hn h2
  refine ⟨out, e, List.forall₂_iff_get.2 ⟨by simp [maQ, hl, hx.length], fun i i1 i2 => ?_⟩⟩
  obtain ⟨y, r, hy, hyr, hb⟩ := h i M (by omega) (fun x hx => hM x (List.mem_of_mem_drop (List.mem_of_mem_take hx))) hbig
  rw [List.getElem?_eq_getElem i1, Option.some.injEq] at hy
  exact ⟨r, by rw [List.get_eq_getElem, hy]; exact hyr, by simpa [maQ] using hb⟩

/-- **C270** In float64 the shorter average of closes that do not fall is behind the longer one by at most the two rounding errors. -/
theorem C270_near_partial {cs : List Candle} {xs : List ℚ} (hx : Closes cs xs) (hr : FloatCloses cs) (hp : xs.Pairwise fun a b => a ≤ b)
    {n m : Nat} (h1 : 1 ≤ n) (hnm : n ≤ m) (hm : m ≤ 2 ^ 47) (h2 : m ≤ cs.length) {M : ℚ} (hM : ∀ x ∈ xs, |x| ≤ M)
    (hbig : M ≤ 2 ^ (900 : ℤ)) :
    (∃ slow fast, movingAverage ieee (some cs) m = .ok slow ∧ movingAverage ieee (some cs) n = .ok fast ∧
      List.Forall₂ (fun x y => ∃ r s, x.Is r ∧ y.Is s ∧ r ≤ s + (2 * (m + 1) * 2 ^ (-53 : ℤ) * M + 2 ^ (-1075 : ℤ) +
        (2 * (n + 1) * 2 ^ (-53 : ℤ) * M + 2 ^ (-1075 : ℤ)))) slow (fast.drop (m - n))) ∧
    (∃ slow fast, exponentialMovingAverage ieee (some cs) m = .ok slow ∧ exponentialMovingAverage ieee (some cs) n = .ok fast ∧
      List.Forall₂ (fun x y => ∃ r s, x.Is r ∧ y.Is s ∧ r ≤ s + ((m + 1) * (16 * 2 ^ (-53 : ℤ) * M + 4 * 2 ^ (-1075 : ℤ)) +
        (n + 1) * (16 * 2 ^ (-53 : ℤ) * M + 4 * 2 ^ (-1075 : ℤ)))) slow (fast.drop (m - n))) ∧
    (∃ slow fast, smoothedMovingAverage ieee (some cs) m = .ok slow ∧ smoothedMovingAverage ieee (some cs) n = .ok fast ∧
      List.Forall₂ (fun x y => ∃ r s, x.Is r ∧ y.Is s ∧ r ≤ s + (8 * m * (2 ^ (-53 : ℤ) * M + 2 ^ (-1075 : ℤ)) +
        8 * n * (2 ^ (-53 : ℤ) * M + 2 ^ (-1075 : ℤ)))) slow (fast.drop (m - n))) := by
  obtain ⟨q1, q2, q3⟩ := faster_q .rises hp h1 hnm (hx.length ▸ h2)
  obtain ⟨o1, e1, f1⟩ := C108_ema_accurate hx hr h1 (hnm.trans hm) (hnm.trans h2) hM hbig
  obtain ⟨o2, e2, f2⟩ := C108_smma_accurate hx hr h1 (hnm.trans hm) (hnm.trans h2) hM hbig
  obtain ⟨p1, d1, g1⟩ := C108_ema_accurate hx hr (h1.trans hnm) hm h2 hM hbig
  obtain ⟨p2, d2, g2⟩ := C108_smma_accurate hx hr (h1.trans hnm) hm h2 hM hbig
  obtain ⟨o0, e0, f0⟩ := ma_near_all hx hr h1 (hnm.trans (hm.trans (by norm_num))) (hnm.trans h2) hM hbig
  obtain ⟨p0, d0, g0⟩ := ma_near_all hx hr (h1.trans hnm) (hm.trans (by norm_num)) h2 hM hbig
  exact ⟨⟨p0, o0, d0, e0, near_forall₂ g0 f0 q1⟩, ⟨p1, o1, d1, e1, near_forall₂ g1 f1 q2⟩, ⟨p2, o2, d2, e2, near_forall₂ g2 f2 q3⟩⟩

/-- The claim for float64: while the closes do not fall, the average of a longer period is never above that of a shorter one. -/
def Spec.C270_claim (f : FloatSem → Option (List Candle) → Int → Res (List Fl)) : Prop :=
  ∀ (cs : List Candle) (n m : Nat) (slow fast : List Fl), CloseRises cs → 1 ≤ n → n ≤ m → m ≤ cs.length → f ieee (some cs) m = .ok slow →
    f ieee (some cs) n = .ok fast → List.Forall₂ (fun x y => Fl.le x y = true) slow (fast.drop (m - n))

/-- **C270** is false of all three in float64: with all closes 0.1 the average of three is 0.10000000000000002, that of one is 0.1. -/
theorem C270_ahead_violated :
    ¬ Spec.C270_claim movingAverage ∧ ¬ Spec.C270_claim exponentialMovingAverage ∧ ¬ Spec.C270_claim smoothedMovingAverage := by
  refine ⟨fun h => ?_, fun h => ?_, fun h => ?_⟩
  · have := h (flatCandles (3602879701896397 / 36028797018963968) 3) 1 3 [.fin (7205759403792795 / 72057594037927936)]
      (List.replicate 3 (.fin (3602879701896397 / 36028797018963968))) (flat_rises (by norm_num) _) (by norm_num) (by norm_num) (by decide)
      (by decide +kernel) (by decide +kernel)
    cases this with | cons h _ => revert h; decide +kernel
  · have := h (flatCandles (3602879701896397 / 36028797018963968) 4) 1 3 [.fin (7205759403792795 / 72057594037927936)]
      (List.replicate 3 (.fin (3602879701896397 / 36028797018963968))) (flat_rises (by norm_num) _) (by norm_num) (by norm_num) (by decide)
      (by decide +kernel) (by decide +kernel)
    cases this with | cons h _ => revert h; decide +kernel
  · have := h (flatCandles (3602879701896397 / 36028797018963968) 3) 1 3 [.fin (7205759403792795 / 72057594037927936)]
      (List.replicate 3 (.fin (3602879701896397 / 36028797018963968))) (flat_rises (by norm_num) _) (by norm_num) (by norm_num) (by decide)
      (by decide +kernel) (by decide +kernel)
    cases this with | cons h _ => revert h; decide +kernel

example : Closes [⟨0, .fin 1, .fin 1, .fin 1, .fin 1, .fin 1⟩, ⟨60, .fin 1, .fin 1, .fin 1, .fin 2, .fin 1⟩, ⟨120, .fin 1, .fin 1, .fin 1, .fin 4, .fin 1⟩] [1, 2, 4] ∧
    [(1 : ℚ), 2, 4].Pairwise (fun a b => a < b) ∧ Spec.Trend (fun a b => a < b) (fun a b => a ≤ b) ∧ maQ [1, 2, 4] 3 = [7 / 3] ∧
    (maQ [1, 2, 4] 2).drop 1 = [3] ∧ CloseRises (flatCandles 3 4) ∧ FloatCloses (flatCandles 3 4) ∧ Closes (flatCandles 3 4) [3, 3, 3, 3] := by
  exact ⟨.cons (Fl.is_fin _) (.cons (Fl.is_fin _) (.cons (Fl.is_fin _) .nil)), by simp; norm_num, .risesStrictly, by decide +kernel,
    by decide +kernel, flat_rises (by norm_num) _,
    fun c hc => by rw [List.eq_of_mem_replicate hc]; intro q hq; cases hq; decide +kernel,
    .cons (Fl.is_fin _) (.cons (Fl.is_fin _) (.cons (Fl.is_fin _) (.cons (Fl.is_fin _) .nil)))⟩

end Finmod
