import Verif.Lemmas.PosErr
import Verif.Props.CandleCompose

/-!
# Resampling in float64 (C114, C115)

When all volumes are decimals with five places, the final `%.5f` of `compressCandle` removes the
rounding error of the running sum.
-/

namespace Finmod
open Go Spec

/-- The float64 that reads `n` steps of 0.00001. -/
def Spec.stepFloat (n : ℕ) : Fl := ieee.rnd ((n : ℚ) / 100000)

/-! ### Sums of non-negative floats -/

/-- Zero or positive, not minus zero. -/
def NN (x : Fl) : Prop := (∃ a, 0 ≤ a ∧ x = .fin a) ∨ x = .inf false

theorem rnd_nn {q : ℚ} (h : 0 ≤ q) : NN (ieee.rnd q) := by
  have hN := C102_nearest_even.1
  have m := ieee_lawful.r64.mono 0 q h
  have z : ieee.rnd 0 = .fin 0 := by
    have := ieee_lawful.r64.int 0 (by norm_num)
    simpa using this
  rw [z] at m
  cases e : ieee.rnd q with
  | nan => exact absurd e (hN.num q)
  | inf b =>
    have := ((hN.infinite q b).1 e).2
    rw [decide_eq_false (not_lt.2 h)] at this
    rw [this]; exact .inr rfl
  | negZero => exact absurd (hN.negZero q e).1 (not_lt.2 h)
  | fin r =>
    rw [e] at m
    refine .inl ⟨r, ?_, rfl⟩
    simpa [Fl.le, Fl.key] using m

theorem add_nn {x y : Fl} (hx : NN x) (hy : NN y) : NN (ieee.add x y) := by
  rcases hx with ⟨a, ha, rfl⟩ | rfl <;> rcases hy with ⟨b, hb, rfl⟩ | rfl
  · exact rnd_nn (by simpa [Fl.toRat] using add_nonneg ha hb)
  · exact .inr rfl
  · exact .inr rfl
  · exact .inr rfl

theorem foldl_nn {xs : List Fl} (h : ∀ x ∈ xs, NN x) {acc : Fl} (ha : NN acc) : NN (xs.foldl ieee.add acc) := by
  induction xs generalizing acc with
  | nil => exact ha
  | cons x xs ih => exact ih (fun y hy => h y (by simp [hy])) (add_nn ha (h x (by simp)))

theorem NN.fin {x : Fl} {r : ℚ} (h : NN x) (hr : x.Is r) : 0 ≤ r ∧ x = .fin r := by
  rcases h with ⟨a, ha, rfl⟩ | rfl
  · have := hr.toRat
    simp only [Fl.toRat] at this
    subst this; exact ⟨ha, rfl⟩
  · rcases hr with hr | ⟨hr, _⟩ <;> cases hr

/-! ### The running volume of a group -/

theorem stepFloat_near {n : ℕ} (hn : n ≤ 2 ^ 50) : ∃ a, IsF (stepFloat n) a ∧
    |a - (n : ℚ) / 100000| ≤ uR * ((n : ℚ) / 100000) + tiny := by
  have hn' : (n : ℚ) ≤ 2 ^ 50 := by exact_mod_cast hn
  have h0 : (0 : ℚ) ≤ (n : ℚ) / 100000 := by positivity
  obtain ⟨a, h1, h2⟩ := rnd_near (q := (n : ℚ) / 100000) (by
    rw [abs_of_nonneg h0]
    apply le_huge
    have : (2 : ℚ) ^ 50 ≤ 2 ^ 250 * 2 ^ 250 := by norm_num
    linarith)
  rw [abs_of_nonneg h0] at h2
  exact ⟨a, ⟨h1, rnd_grid h1⟩, h2⟩

theorem steps_near {ns : List ℕ} (h : ∀ n ∈ ns, n ≤ 2 ^ 50) : ∃ as, List.Forall₂ IsF (ns.map stepFloat) as ∧
    (as.map abs).sum ≤ (1 + uR) * ((ns.sum : ℕ) : ℚ) / 100000 + ns.length * tiny ∧
    |as.sum - ((ns.sum : ℕ) : ℚ) / 100000| ≤ uR * (((ns.sum : ℕ) : ℚ) / 100000) + ns.length * tiny := by
  induction ns with
  | nil => exact ⟨[], .nil, by simp, by simp⟩
  | cons n ns ih =>
    obtain ⟨as, h1, h2, h3⟩ := ih (fun m hm => h m (by simp [hm]))
    obtain ⟨a, a1, a2⟩ := stepFloat_near (h n (by simp))
    refine ⟨a :: as, .cons a1 h1, ?_, ?_⟩
    · have : |a| ≤ (n : ℚ) / 100000 + (uR * ((n : ℚ) / 100000) + tiny) := by
        have e : a = (n : ℚ) / 100000 + (a - (n : ℚ) / 100000) := by ring
        have h0 : (0 : ℚ) ≤ (n : ℚ) / 100000 := by positivity
        calc |a| = |(n : ℚ) / 100000 + (a - (n : ℚ) / 100000)| := by rw [← e]
          _ ≤ |(n : ℚ) / 100000| + |a - (n : ℚ) / 100000| := abs_add_le _ _
          _ ≤ _ := by rw [abs_of_nonneg h0]; linarith
      simp only [List.map_cons, List.sum_cons, List.length_cons]
      push_cast at h2 ⊢
      linarith
    · have e : (a :: as).sum - (((n :: ns).sum : ℕ) : ℚ) / 100000 =
          (a - (n : ℚ) / 100000) + (as.sum - ((ns.sum : ℕ) : ℚ) / 100000) := by
        simp only [List.sum_cons]; push_cast; ring
      rw [e]
      refine (abs_add_le _ _).trans ?_
      simp only [List.sum_cons, List.length_cons]
      push_cast at h3 ⊢
      linarith

theorem roundInt_of_close {q : ℚ} {n : ℤ} (h : |q - n| < 1 / 2) : roundInt q = n := by
  have h1 := roundInt_half q
  have : |((roundInt q - n : ℤ) : ℚ)| < 1 := by
    push_cast
    have e : (roundInt q : ℚ) - n = (q - n) - (q - roundInt q) := by ring
    rw [e]
    exact lt_of_le_of_lt (abs_sub _ _) (by linarith)
  have : |roundInt q - n| < 1 := by exact_mod_cast this
  have := Int.abs_lt_one_iff.1 this
  omega

/-- Five-decimal volumes add up to the float nearest to the true total. -/
theorem fixed5_steps {ns : List ℕ} (h : (ns.length + 1) * ns.sum ≤ 2 ^ 50) (hl : ns.length ≤ 2 ^ 50) :
    fixed5 ieee ((ns.map stepFloat).foldl ieee.add (.fin 0)) = some (stepFloat ns.sum) := by
  have hsum : ns.sum ≤ 2 ^ 50 := le_trans (Nat.le_mul_of_pos_left _ (by omega)) h
  have hle : ∀ n ∈ ns, n ≤ 2 ^ 50 := fun n hn => (List.le_sum_of_mem hn).trans hsum
  obtain ⟨as, h1, h2, h3⟩ := steps_near hle
  have hus : uR = 1 / 2 ^ 53 := by rw [uR_eq]; norm_num
  have hlQ : (ns.length : ℚ) ≤ 2 ^ 50 := by exact_mod_cast hl
  have hN : ((ns.sum : ℕ) : ℚ) ≤ 2 ^ 50 := by exact_mod_cast hsum
  have hN0 : (0 : ℚ) ≤ ((ns.sum : ℕ) : ℚ) := Nat.cast_nonneg _
  have hl0 : (0 : ℚ) ≤ (ns.length : ℚ) := Nat.cast_nonneg _
  have hprod : ((ns.length : ℚ) + 1) * ((ns.sum : ℕ) : ℚ) ≤ 2 ^ 50 := by exact_mod_cast h
  have htin : (2 : ℚ) ^ 50 * tiny ≤ 1 / 2 ^ 100 := by
    rw [tiny_eq]
    calc (2 : ℚ) ^ 50 * 2 ^ (-1075 : ℤ) ≤ 2 ^ 50 * 2 ^ (-200 : ℤ) :=
          mul_le_mul_of_nonneg_left (zpow_le_zpow_right₀ (by norm_num) (by norm_num)) (by norm_num)
      _ ≤ _ := by norm_num
  have hlt : (ns.length : ℚ) * tiny ≤ 1 / 2 ^ 100 :=
    le_trans (mul_le_mul_of_nonneg_right hlQ tiny_nonneg) htin
  have hlt0 : 0 ≤ (ns.length : ℚ) * tiny := mul_nonneg hl0 tiny_nonneg
  have hA : (as.map abs).sum ≤ 2 * (((ns.sum : ℕ) : ℚ) / 100000) + 1 / 2 ^ 100 := by
    have : uR * ((ns.sum : ℕ) : ℚ) ≤ 1 * ((ns.sum : ℕ) : ℚ) :=
      mul_le_mul_of_nonneg_right (by rw [hus]; norm_num) hN0
    linarith
  have hA2 : (as.map abs).sum ≤ (((ns.sum : ℕ) : ℚ) / 100000) * (1 + uR) + 1 / 2 ^ 100 := by linarith
  obtain ⟨r, hr, hre⟩ := sum_near h1 (by
    rw [List.length_map, hus]
    have := mul_le_mul_of_nonneg_right hlQ (by norm_num : (0 : ℚ) ≤ 1 / 2 ^ 53)
    have e : (2 : ℚ) ^ 50 * (1 / 2 ^ 53) = 1 / 8 := by norm_num
    linarith) (by
    apply le_huge
    have e2 : 2 * (2 * ((2 : ℚ) ^ 50 / 100000) + 1 / 2 ^ 100) ≤ 2 ^ 250 * 2 ^ 250 := by norm_num
    linarith)
  rw [List.length_map] at hre
  obtain ⟨r0, hrf⟩ := (foldl_nn (xs := ns.map stepFloat) (acc := .fin 0)
    (by intro x hx; obtain ⟨n, _, rfl⟩ := List.mem_map.1 hx; exact rnd_nn (by positivity))
    (.inl ⟨0, le_rfl, rfl⟩)).fin hr.1
  rw [hrf]
  have hclose : |r * 100000 - ((ns.sum : ℕ) : ℤ)| < 1 / 2 := by
    have hT : |r - ((ns.sum : ℕ) : ℚ) / 100000| < 1 / 2 / 100000 := by
      have e : r - ((ns.sum : ℕ) : ℚ) / 100000 = (r - as.sum) + (as.sum - ((ns.sum : ℕ) : ℚ) / 100000) := by ring
      rw [e]
      refine lt_of_le_of_lt (abs_add_le _ _) ?_
      have k1 : 2 * (ns.length : ℚ) * uR * (as.map abs).sum ≤
          2 * (ns.length : ℚ) * uR * ((((ns.sum : ℕ) : ℚ) / 100000) * (1 + uR) + 1 / 2 ^ 100) :=
        mul_le_mul_of_nonneg_left hA2 (mul_nonneg (mul_nonneg (by norm_num) hl0) uR_nonneg)
      have k2 : 2 * (ns.length : ℚ) * uR * ((((ns.sum : ℕ) : ℚ) / 100000) * (1 + uR) + 1 / 2 ^ 100) =
          2 * (uR * (1 + uR)) * ((ns.length : ℚ) * ((ns.sum : ℕ) : ℚ)) / 100000 +
            2 * (ns.length * uR) * (1 / 2 ^ 100) := by ring
      have k3 : (ns.length : ℚ) * uR ≤ 1 := by
        rw [hus]
        have := mul_le_mul_of_nonneg_right hlQ (by norm_num : (0 : ℚ) ≤ 1 / 2 ^ 53)
        have e : (2 : ℚ) ^ 50 * (1 / 2 ^ 53) = 1 / 8 := by norm_num
        linarith
      have k4 : 2 * (uR * (1 + uR)) * ((ns.length : ℚ) * ((ns.sum : ℕ) : ℚ)) ≤
          2 * (uR * (1 + uR)) * (2 ^ 50 - ((ns.sum : ℕ) : ℚ)) :=
        mul_le_mul_of_nonneg_left (by linarith) (by rw [hus]; norm_num)
      rw [hus] at hre h3 k1 k2 k3 k4
      have e5 : (2 : ℚ) * (1 / 2 ^ 53 * (1 + 1 / 2 ^ 53)) * 2 ^ 50 < 3 / 8 := by norm_num
      have e6 : (1 : ℚ) / 2 ^ 53 ≤ 2 * (1 / 2 ^ 53 * (1 + 1 / 2 ^ 53)) := by norm_num
      have e7 := mul_le_mul_of_nonneg_right e6 hN0
      have e8 : (3 : ℚ) / 8 / 100000 + 2 * 1 * (1 / 2 ^ 100) + 1 / 2 ^ 100 < 1 / 2 / 100000 := by norm_num
      linarith
    have e : r * 100000 - (((ns.sum : ℕ) : ℤ) : ℚ) = (r - ((ns.sum : ℕ) : ℚ) / 100000) * 100000 := by
      push_cast; ring
    rw [e, abs_mul, abs_of_pos (by norm_num : (0 : ℚ) < 100000)]
    linarith
  have hri : roundInt (r * 100000) = ((ns.sum : ℕ) : ℤ) := roundInt_of_close hclose
  simp only [fixed5, hri]
  obtain ⟨a, ha, _⟩ := stepFloat_near hsum
  obtain ⟨_, ha⟩ := (rnd_nn (q := ((ns.sum : ℕ) : ℚ) / 100000) (by positivity)).fin ha.1
  split
  · rename_i h0
    have h0' : ns.sum = 0 := by exact_mod_cast h0
    rw [decide_eq_false (not_lt.2 r0), h0']
    have := ieee_lawful.r64.int 0 (by norm_num)
    simp only [Int.cast_zero] at this
    simp [stepFloat, this, Fl.zero]
  · have e : ((((ns.sum : ℕ) : ℤ) : ℚ) / 100000) = ((ns.sum : ℕ) : ℚ) / 100000 := by push_cast; rfl
    rw [e]
    simp only [stepFloat]
    rw [ha]

/-- The group's volumes are `ns` steps. -/
def Steps (g : List Candle) (ns : List ℕ) : Prop := List.Forall₂ (fun c n => c.volume = stepFloat n) g ns

theorem steps_volumes {g : List Candle} {ns : List ℕ} (h : Steps g ns) : g.map (·.volume) = ns.map stepFloat := by
  induction h with
  | nil => rfl
  | cons h _ ih => simp [h, ih]

theorem compressGroup_steps {g : List Candle} {ns : List ℕ} (h : Steps g ns) (hne : g ≠ [])
    (hb : (g.length + 1) * ns.sum ≤ 2 ^ 50) (hl : g.length ≤ 2 ^ 50) :
    compressGroup ieee g = .ok ⟨(g.head hne).time, (g.head hne).opn, highLoop (minHigh ieee) g,
      lowLoop (maxLow ieee) g, (g.getLast hne).close, stepFloat ns.sum⟩ := by
  have hlen : g.length = ns.length := h.length_eq
  rw [compressGroup, List.head?_eq_some_head hne, List.getLast?_eq_some_getLast hne]
  have := fixed5_steps (ns := ns) (by rw [← hlen]; exact hb) (by rw [← hlen]; exact hl)
  rw [← steps_volumes h, ← volumeLoop_eq] at this
  simp only [this]

theorem steps_map {g : List Candle} {n : Candle → ℕ} (h : ∀ c ∈ g, c.volume = stepFloat (n c)) :
    Steps g (g.map n) := by
  unfold Steps
  rw [List.forall₂_map_right_iff, List.forall₂_same]
  exact h

/-- The number of steps in a list of candles. -/
def Spec.steps (n : Candle → ℕ) (g : List Candle) : ℕ := (g.map n).sum

theorem steps_append (n : Candle → ℕ) (a b : List Candle) : steps n (a ++ b) = steps n a + steps n b := by
  simp [steps]

theorem steps_flatten (n : Candle → ℕ) (G : List (List Candle)) : (G.map (steps n)).sum = steps n G.flatten := by
  induction G with
  | nil => rfl
  | cons g G ih => rw [List.flatten_cons, steps_append, ← ih]; simp

/-- A part of a list obeys the list's bound. -/
theorem part_bound {n : Candle → ℕ} {l g pre post : List Candle} (h : l = pre ++ g ++ post)
    (hb : (l.length + 1) * steps n l ≤ 2 ^ 50) : (g.length + 1) * steps n g ≤ 2 ^ 50 := by
  subst h
  refine le_trans (Nat.mul_le_mul ?_ ?_) hb
  · simp only [List.length_append]; omega
  · simp only [steps_append]; omega

/-- **C114.** In float64: if every volume is the float nearest to a decimal with five places, `n c`
steps of 0.00001, then every output volume is the float nearest to the exact sum over its group. -/
theorem C114_volume_nearest (minute : Int → Int) (candles : List Candle) (interval : Int)
    (out : List Candle) (n : Candle → ℕ) (hlen : 2 ≤ candles.length) (hlen2 : candles.length ≤ 2 ^ 50)
    (hv : ∀ c ∈ candles, c.volume = stepFloat (n c))
    (hb : (candles.length + 1) * steps n candles ≤ 2 ^ 50)
    (h : modifyInterval ieee minute candles interval = .ok out) :
    ∃ groups : List (List Candle),
      candles = candles.takeWhile (fun c => decide (¬ Aligned minute interval c)) ++ groups.flatten ∧
      (∀ g ∈ groups, g ≠ []) ∧
      List.Forall₂ (fun g c => Summary ieee g c ∧ c.volume = stepFloat (steps n g)) groups out := by
  obtain ⟨pre, p, rest, hs, hpre, hp, _, hm⟩ := modifyInterval_ok hlen h
  have hne := splitB_ne_nil (boundary ieee interval p.time) [p] rest (by simp)
  have hfl := splitB_flatten (boundary ieee interval p.time) [p] rest
  generalize splitB (boundary ieee interval p.time) [p] rest = groups at hm hne hfl
  refine ⟨groups, ?_, hne, ?_⟩
  · have e : candles.takeWhile (fun c => decide (¬ Aligned minute interval c)) = pre := by
      rw [hs, List.takeWhile_append_of_pos]
      · rw [List.takeWhile_cons_of_neg]
        · simp
        · simp only [decide_not, Bool.not_eq_true', decide_eq_false_iff_not, not_not]
          exact (isAligned_iff _ _ _).1 hp
      · intro v hv
        have := hpre v hv
        simp only [decide_eq_true_eq]
        intro hc
        rw [(isAligned_iff _ _ _).2 hc] at this
        exact absurd this (by simp)
    rw [e, hfl, hs]; rfl
  · have hcs : candles = pre ++ groups.flatten := by rw [hfl, hs]; rfl
    have key : ∀ g ∈ groups, (∀ c ∈ g, c ∈ candles) ∧ (g.length + 1) * steps n g ≤ 2 ^ 50 ∧ g.length ≤ 2 ^ 50 := by
      intro g hg
      obtain ⟨G1, G2, rfl⟩ := List.append_of_mem hg
      have e : candles = (pre ++ G1.flatten) ++ g ++ G2.flatten := by
        rw [hcs]; simp
      refine ⟨fun c hc => by rw [e]; simp [hc], part_bound e hb, ?_⟩
      have : g.length ≤ candles.length := by rw [e]; simp only [List.length_append]; omega
      omega
    have hF := resMapL_ok hm
    have : ∀ g c, g ∈ groups → compressGroup ieee g = .ok c →
        Summary ieee g c ∧ c.volume = stepFloat (steps n g) := by
      intro g c hg hc
      obtain ⟨k1, k2, k3⟩ := key g hg
      refine ⟨compressGroup_summary hc, ?_⟩
      have e := compressGroup_steps (steps_map fun c hc => hv c (k1 c hc)) (hne g hg) k2 k3
      rw [e] at hc
      simp only [Res.ok.injEq] at hc
      rw [← hc]; rfl
    clear hm hcs hfl key h
    induction hF with
    | nil => exact .nil
    | cons h1 _ ih =>
      exact .cons (this _ _ (by simp) h1) (ih (fun g hg => hne g (by simp [hg]))
        (fun g c hg hc => this g c (by simp [hg]) hc))

/-- **C114**, totals: the output volumes add up to the true total of the retained candles up to
relative error `2^-53` (and `2^-1075` per output candle). -/
theorem C114_total_volume (minute : Int → Int) (candles : List Candle) (interval : Int)
    (out : List Candle) (n : Candle → ℕ) (hlen : 2 ≤ candles.length) (hlen2 : candles.length ≤ 2 ^ 50)
    (hv : ∀ c ∈ candles, c.volume = stepFloat (n c))
    (hb : (candles.length + 1) * steps n candles ≤ 2 ^ 50)
    (h : modifyInterval ieee minute candles interval = .ok out) :
    let total := ((steps n (candles.dropWhile fun c => decide (¬ Aligned minute interval c)) : ℕ) : ℚ) / 100000
    |totalVolume out - total| ≤ 2 ^ (-53 : ℤ) * total + out.length * 2 ^ (-1075 : ℤ) := by
  intro total
  obtain ⟨groups, h1, hgne, h3⟩ := C114_volume_nearest minute candles interval out n hlen hlen2 hv hb h
  clear hgne
  have hd : candles.dropWhile (fun c => decide (¬ Aligned minute interval c)) = groups.flatten := by
    have := List.takeWhile_append_dropWhile (p := fun c => decide (¬ Aligned minute interval c)) (l := candles)
    exact List.append_cancel_left (this.trans h1)
  have hst : steps n groups.flatten ≤ 2 ^ 50 := by
    rw [← hd]
    have e : steps n candles = steps n (candles.takeWhile fun c => decide (¬ Aligned minute interval c)) +
        steps n (candles.dropWhile fun c => decide (¬ Aligned minute interval c)) := by
      rw [← steps_append, List.takeWhile_append_dropWhile]
    have : steps n candles ≤ (candles.length + 1) * steps n candles := Nat.le_mul_of_pos_left _ (by omega)
    exact le_trans (by omega) hb
  simp only [total]
  rw [hd, ← uR_eq, ← tiny_eq]
  clear h1 hd hb hv h
  induction h3 with
  | nil => simp [totalVolume, steps]
  | @cons g c gs cs hgc hrest ih =>
    rw [List.flatten_cons, steps_append] at hst ⊢
    obtain ⟨a, ha, hae⟩ := stepFloat_near (n := steps n g) (by omega)
    have hi := ih (by omega)
    have hc : c.volume.toRat = a := by rw [hgc.2]; exact ha.1.toRat
    have e : totalVolume (c :: cs) - ((steps n g + steps n gs.flatten : ℕ) : ℚ) / 100000 =
        (a - ((steps n g : ℕ) : ℚ) / 100000) + (totalVolume cs - ((steps n gs.flatten : ℕ) : ℚ) / 100000) := by
      have : totalVolume (c :: cs) = a + totalVolume cs := by simp [totalVolume, hc]
      rw [this]; push_cast; ring
    rw [e]
    refine (abs_add_le _ _).trans ?_
    simp only [List.length_cons]
    push_cast
    linarith

/-! ### Identity and composition -/

/-- **C115** (identity). In float64: resampling an aligned regular series to its own spacing changes
nothing, if the volumes are five-decimal floats up to 2^49 steps. -/
theorem C115_identity (minute : Int → Int) (d : Nat) (hd : 1 ≤ d) (candles : List Candle)
    (hne : candles ≠ []) (hr : Regular d candles)
    (hal : Aligned minute d (candles.head hne))
    (hv : ∀ c ∈ candles, ∃ n, n ≤ 2 ^ 49 ∧ c.volume = stepFloat n)
    (hhi : ∀ c ∈ candles, Fl.gt c.high (ieee.const (-10 ^ 308)) = true)
    (hlo : ∀ c ∈ candles, Fl.lt c.low (ieee.const (10 ^ 308)) = true) :
    modifyInterval ieee minute candles d = .ok candles := by
  by_cases h1 : candles.length = 1
  · simp [modifyInterval, h1]
  have hlen : 2 ≤ candles.length := by
    have := List.length_pos_iff.2 hne; omega
  have e0 : candles[0]'(by omega) = candles.head hne := (List.head_eq_getElem hne).symm
  obtain ⟨groups, he, hgl, hgi, _⟩ := regular_groups ieee_lawful minute hd (le_refl 1) hlen hr
    (j := 0) (by omega) (by rw [e0]; simpa using hal) (by omega)
  simp only [Nat.one_mul] at he
  rw [he]
  apply resMapL_of_ok
  rw [List.forall₂_iff_get]
  have hl : groups.length = candles.length := by rw [hgl]; simp
  refine ⟨hl, ?_⟩
  intro i h1 h2
  simp only [List.get_eq_getElem]
  rw [hgi i h1]
  have : ((candles.drop (0 + i * 1)).take 1) = [candles[i]] := by
    rw [Nat.zero_add, Nat.mul_one, List.take_one, List.head?_drop, List.getElem?_eq_getElem h2]
    rfl
  rw [this]
  have hm := List.getElem_mem h2
  generalize candles[i] = c at hm
  obtain ⟨n, hn, hcv⟩ := hv c hm
  have a : highLoop (minHigh ieee) [c] = c.high := by
    simp only [highLoop]; exact if_pos (hhi c hm)
  have b : lowLoop (maxLow ieee) [c] = c.low := by
    simp only [lowLoop]; exact if_pos (hlo c hm)
  rw [compressGroup_steps (g := [c]) (ns := [n]) (.cons hcv .nil) (by simp)
    (by simp only [List.length_singleton, List.sum_singleton]; omega) (by norm_num)]
  simp only [a, b, List.head_singleton, List.getLast_singleton, List.sum_singleton, ← hcv]

/-- The summary of a group of five-decimal candles. -/
def sumF (n : Candle → ℕ) (g : List Candle) : Candle :=
  match g.head?, g.getLast? with
  | some f, some l =>
    ⟨f.time, f.opn, highLoop (minHigh ieee) g, lowLoop (maxLow ieee) g, l.close, stepFloat (steps n g)⟩
  | _, _ => ⟨0, .fin 0, .fin 0, .fin 0, .fin 0, .fin 0⟩

theorem sumF_eq {n : Candle → ℕ} {g : List Candle} (h : g ≠ []) : sumF n g =
    ⟨(g.head h).time, (g.head h).opn, highLoop (minHigh ieee) g,
      lowLoop (maxLow ieee) g, (g.getLast h).close, stepFloat (steps n g)⟩ := by
  simp [sumF, List.head?_eq_some_head h, List.getLast?_eq_some_getLast h]

theorem minHigh_ieee : minHigh ieee ≠ .nan := ieee_lawful.r64.not_nan _
theorem maxLow_ieee : maxLow ieee ≠ .nan := ieee_lawful.r64.not_nan _

theorem high_concatF (n : Candle → ℕ) (Gs : List (List Candle)) (hne : ∀ g ∈ Gs, g ≠ []) (acc : Fl)
    (ha : acc ≠ .nan) (hge : (minHigh ieee).key ≤ acc.key) :
    highLoop acc (Gs.map (sumF n)) = highLoop acc Gs.flatten := by
  induction Gs generalizing acc with
  | nil => rfl
  | cons g Gs ih =>
    simp only [List.map_cons, highLoop, List.flatten_cons, highLoop_append]
    have e : (sumF n g).high = highLoop (minHigh ieee) g := by
      rw [sumF_eq (hne g (by simp))]
    rw [e, highLoop_assoc ha minHigh_ieee]
    have : (if Fl.gt (minHigh ieee) acc = true then minHigh ieee else acc) = acc := by
      rw [if_neg]
      intro hc
      exact absurd (Fl.lt_iff.1 hc).2.2 (not_lt.2 hge)
    rw [this]
    obtain ⟨h1, h2, _⟩ := highLoop_ge acc g ha
    exact ih (fun g hg => hne g (by simp [hg])) _ h1 (hge.trans h2)

theorem low_concatF (n : Candle → ℕ) (Gs : List (List Candle)) (hne : ∀ g ∈ Gs, g ≠ []) (acc : Fl)
    (ha : acc ≠ .nan) (hge : acc.key ≤ (maxLow ieee).key) :
    lowLoop acc (Gs.map (sumF n)) = lowLoop acc Gs.flatten := by
  induction Gs generalizing acc with
  | nil => rfl
  | cons g Gs ih =>
    simp only [List.map_cons, lowLoop, List.flatten_cons, lowLoop_append]
    have e : (sumF n g).low = lowLoop (maxLow ieee) g := by
      rw [sumF_eq (hne g (by simp))]
    rw [e, lowLoop_assoc ha maxLow_ieee]
    have : (if Fl.lt (maxLow ieee) acc = true then maxLow ieee else acc) = acc := by
      rw [if_neg]
      intro hc
      exact absurd (Fl.lt_iff.1 hc).2.2 (not_lt.2 hge)
    rw [this]
    obtain ⟨h1, h2, _⟩ := lowLoop_le acc g ha
    exact ih (fun g hg => hne g (by simp [hg])) _ h1 (h2.trans hge)

theorem length_le_flatten {α : Type} {Gs : List (List α)} (hne : ∀ g ∈ Gs, g ≠ []) :
    Gs.length ≤ Gs.flatten.length := by
  induction Gs with
  | nil => simp
  | cons g Gs ih =>
    have h1 := List.length_pos_iff.2 (hne g (by simp))
    have h2 := ih (fun g hg => hne g (by simp [hg]))
    simp only [List.length_cons, List.flatten_cons, List.length_append]; omega

/-- Summarising summaries of consecutive groups summarises the whole. -/
theorem compress_concatF {n : Candle → ℕ} {Gs : List (List Candle)} (hne : ∀ g ∈ Gs, g ≠ []) (h0 : Gs ≠ [])
    (hb : (Gs.flatten.length + 1) * steps n Gs.flatten ≤ 2 ^ 50) (hl : Gs.flatten.length ≤ 2 ^ 50) :
    compressGroup ieee (Gs.map (sumF n)) = .ok (sumF n Gs.flatten) := by
  have hmne : Gs.map (sumF n) ≠ [] := by simpa using h0
  have hfne : Gs.flatten ≠ [] := by
    obtain ⟨g, gs, rfl⟩ := List.exists_cons_of_ne_nil h0
    simp [hne g (by simp)]
  have hle := length_le_flatten hne
  have hst : Steps (Gs.map (sumF n)) (Gs.map (steps n)) := by
    unfold Steps
    rw [List.forall₂_map_left_iff, List.forall₂_map_right_iff, List.forall₂_same]
    intro g hg
    rw [sumF_eq (hne g hg)]
  rw [compressGroup_steps hst hmne
    (by
      rw [List.length_map, steps_flatten]
      exact le_trans (Nat.mul_le_mul_right _ (by omega)) hb)
    (by rw [List.length_map]; omega), sumF_eq hfne, steps_flatten,
    high_concatF n Gs hne _ minHigh_ieee (le_refl _), low_concatF n Gs hne _ maxLow_ieee (le_refl _)]
  have eh : ((Gs.map (sumF n)).head hmne).time = (Gs.flatten.head hfne).time ∧
      ((Gs.map (sumF n)).head hmne).opn = (Gs.flatten.head hfne).opn := by
    obtain ⟨g, gs, rfl⟩ := List.exists_cons_of_ne_nil h0
    obtain ⟨c, cs, rfl⟩ := List.exists_cons_of_ne_nil (hne g (by simp))
    simp [sumF_eq]
  have el : ((Gs.map (sumF n)).getLast hmne).close = (Gs.flatten.getLast hfne).close := by
    obtain ⟨gs, g, rfl⟩ : ∃ gs g, Gs = gs ++ [g] :=
      ⟨Gs.dropLast, Gs.getLast h0, (List.dropLast_append_getLast h0).symm⟩
    have hgne := hne g (by simp)
    simp only [List.map_append, List.map_cons, List.map_nil, List.getLast_append_singleton,
      List.flatten_append, List.flatten_cons, List.flatten_nil, List.append_nil]
    rw [List.getLast_append_of_ne_nil _ hgne, sumF_eq hgne]
  rw [eh.1, eh.2, el]

/-- Groups of a regular series that starts on the hour. -/
theorem hour_groupsF (minute : Int → Int) {d m : Nat} (hd : 1 ≤ d) (hm : 1 ≤ m)
    {l : List Candle} (hlen : 2 ≤ l.length) (hr : Regular d l)
    (h0 : minute (l[0]'(by omega)).time = 0) :
    ∃ G : List (List Candle),
      modifyInterval ieee minute l (m * d : Nat) = resMapL (compressGroup ieee) G ∧
      G.length = (l.length + m - 1) / m ∧
      (∀ i (hi : i < G.length), G[i] = (l.drop (i * m)).take m) ∧
      (∀ g ∈ G, g ≠ []) := by
  obtain ⟨G, he, hgl, hgi, _⟩ := regular_groups ieee_lawful minute hd hm hlen hr
    (j := 0) (by omega) (aligned_zero h0) (by omega)
  simp only [Nat.sub_zero, Nat.zero_add] at hgl hgi
  refine ⟨G, he, hgl, hgi, ?_⟩
  intro g hg
  obtain ⟨i, hi, rfl⟩ := List.getElem_of_mem hg
  rw [hgi i hi]
  have : i * m < l.length := lt_of_lt_ceil hm (by omega)
  simp only [ne_eq, List.take_eq_nil_iff, List.drop_eq_nil_iff, not_or, not_le]
  exact ⟨by omega, this⟩

theorem chunk_bound {n : Candle → ℕ} {l : List Candle} (hb : (l.length + 1) * steps n l ≤ 2 ^ 50)
    (i m : Nat) : ((((l.drop i).take m).length + 1) * steps n ((l.drop i).take m) ≤ 2 ^ 50) := by
  apply part_bound (pre := l.take i) (post := (l.drop i).drop m) (l := l) _ hb
  rw [List.append_assoc, List.take_append_drop, List.take_append_drop]

/-- **C115** (composition). In float64: resampling to `a * d` and then to `b * a * d` minutes equals
resampling to `b * a * d` minutes at once, for a series of spacing `d` that starts at minute 0 and
has five-decimal volumes. -/
theorem C115_compose (minute : Int → Int) (d a b : Nat) (hd : 1 ≤ d) (ha : 1 ≤ a) (hb : 1 ≤ b)
    (candles : List Candle) (n : Candle → ℕ) (hlen : 2 ≤ candles.length) (hlen2 : candles.length ≤ 2 ^ 50)
    (hr : Regular d candles) (h0 : minute (candles[0]'(by omega)).time = 0)
    (hv : ∀ c ∈ candles, c.volume = stepFloat (n c))
    (hbd : (candles.length + 1) * steps n candles ≤ 2 ^ 50) :
    ∃ mid out, modifyInterval ieee minute candles (a * d : Nat) = .ok mid ∧
      modifyInterval ieee minute mid (b * a * d : Nat) = .ok out ∧
      modifyInterval ieee minute candles (b * a * d : Nat) = .ok out := by
  have hba : 1 ≤ b * a := Nat.mul_pos hb ha
  have single : ∀ i m, (candles.drop i).take m ≠ [] →
      compressGroup ieee ((candles.drop i).take m) = .ok (sumF n ((candles.drop i).take m)) := by
    intro i m hne
    rw [compressGroup_steps (steps_map (n := n) fun c hc => hv c
      (List.mem_of_mem_drop (List.mem_of_mem_take hc))) hne (chunk_bound hbd i m)
      (by simp only [List.length_take, List.length_drop]; omega), sumF_eq hne]
    rfl
  have first : ∀ m, 1 ≤ m → ∃ G : List (List Candle),
      modifyInterval ieee minute candles (m * d : Nat) = .ok (G.map (sumF n)) ∧
      G.length = (candles.length + m - 1) / m ∧
      (∀ i (hi : i < G.length), G[i] = (candles.drop (i * m)).take m) ∧ (∀ g ∈ G, g ≠ []) := by
    intro m hm
    obtain ⟨G, h1, h2, h3, h4⟩ := hour_groupsF minute hd hm hlen hr h0
    refine ⟨G, ?_, h2, h3, h4⟩
    rw [h1]
    apply resMapL_of_ok
    rw [List.forall₂_map_right_iff, List.forall₂_same]
    intro g hg
    have hne := h4 g hg
    obtain ⟨i, hi, rfl⟩ := List.getElem_of_mem hg
    rw [h3 i hi] at hne ⊢
    exact single _ _ hne
  obtain ⟨G, hG, hGl, hGi, hGne⟩ := first a ha
  obtain ⟨K, hK, hKl, hKi, hKne⟩ := first (b * a) hba
  have hcov : candles.length ≤ G.length * a := by rw [hGl]; exact le_ceil_mul _ _ ha
  have hGpos : 1 ≤ G.length := by
    rw [hGl]
    exact (Nat.one_le_div_iff (by omega)).2 (by omega)
  have htime : ∀ i (hi : i < G.length), (sumF n G[i]).time = candles[0].time + 60 * (a * d : Nat) * i := by
    intro i hi
    have hlt : i * a < candles.length := lt_of_lt_ceil ha (by omega)
    rw [sumF_eq (hGne _ (List.getElem_mem hi))]
    have : (G[i].head (hGne _ (List.getElem_mem hi))) = candles[i * a] := by
      have e : G[i].head? = some candles[i * a] := by
        rw [hGi i hi, List.head?_take, if_neg (by omega), List.head?_drop,
          List.getElem?_eq_getElem hlt]
      rw [List.head?_eq_some_head (hGne _ (List.getElem_mem hi))] at e
      simpa using e
    rw [this, hr.2 (i * a) hlt]
    push_cast; ring
  refine ⟨G.map (sumF n), K.map (sumF n), hG, ?_, hK⟩
  by_cases h1 : G.length = 1
  · have hn : candles.length ≤ a := by rw [h1] at hcov; omega
    have hK1 : K.length = 1 := by
      rw [hKl]
      have hle : candles.length ≤ b * a := hn.trans (Nat.le_mul_of_pos_left a hb)
      have e : candles.length + b * a - 1 = (candles.length - 1) + b * a := by omega
      rw [e, Nat.add_div_right _ hba, Nat.div_eq_of_lt (by omega)]
    have e1 : G = [candles] := by
      rw [List.length_eq_one_iff] at h1
      obtain ⟨g, rfl⟩ := h1
      have := hGi 0 (by simp)
      simp only [List.getElem_cons_zero, Nat.zero_mul, List.drop_zero] at this
      rw [this, List.take_of_length_le hn]
    have e2 : K = [candles] := by
      rw [List.length_eq_one_iff] at hK1
      obtain ⟨g, rfl⟩ := hK1
      have := hKi 0 (by simp)
      simp only [List.getElem_cons_zero, Nat.zero_mul, List.drop_zero] at this
      rw [this, List.take_of_length_le (hn.trans (Nat.le_mul_of_pos_left a hb))]
    rw [e1, e2]
    simp [modifyInterval]
  · have hmlen : 2 ≤ (G.map (sumF n)).length := by rw [List.length_map]; omega
    have hmreg : Regular (a * d) (G.map (sumF n)) := by
      constructor
      · intro c hc
        obtain ⟨g, hg, rfl⟩ := List.mem_map.1 hc
        obtain ⟨i, hi, rfl⟩ := List.getElem_of_mem hg
        have hlt : i * a < candles.length := lt_of_lt_ceil ha (by omega)
        rw [htime i hi]
        have := hr.1 _ (List.getElem_mem hlt)
        rw [hr.2 (i * a) hlt] at this
        convert this using 2
        push_cast; ring
      · intro i hi
        simp only [List.getElem_map]
        rw [htime i (by simpa using hi), htime 0 (by omega)]
        push_cast; ring
    have hm0 : minute ((G.map (sumF n))[0]'(by omega)).time = 0 := by
      rw [List.getElem_map, htime 0 (by omega)]
      simpa using h0
    obtain ⟨H, hH, hHl, hHi, hHne⟩ := hour_groupsF minute (d := a * d) (m := b)
      (Nat.mul_pos ha hd) hb hmlen hmreg hm0
    rw [Nat.mul_assoc, hH]
    apply resMapL_of_ok
    rw [List.forall₂_iff_get]
    refine ⟨?_, ?_⟩
    · rw [List.length_map, hHl, hKl, List.length_map, hGl]
      exact ceil_ceil _ _ _ ha hb
    · intro i hi1 hi2
      simp only [List.length_map] at hi2
      simp only [List.get_eq_getElem, List.getElem_map]
      have hblk := chunks_block hcov hGi (i * b) b
      have hne0 : (G.drop (i * b)).take b ≠ [] := by
        intro hc
        have := hHne _ (List.getElem_mem hi1)
        rw [hHi i hi1, ← List.map_drop, ← List.map_take, hc] at this
        exact this rfl
      rw [hHi i hi1, ← List.map_drop, ← List.map_take, compress_concatF, hblk, hKi i hi2, Nat.mul_assoc]
      · intro g hg
        exact hGne g (List.mem_of_mem_drop (List.mem_of_mem_take hg))
      · exact hne0
      · rw [hblk]; exact chunk_bound hbd _ _
      · rw [hblk]; simp only [List.length_take, List.length_drop]; omega

/-! ### Examples -/

/-- Steps of a volume. -/
def exSteps (c : Candle) : ℕ := (roundInt (c.volume.toRat * 100000)).toNat

/-- Volumes 0.1, 0.2, 0.3, 0.1 as float64: their running float sum is not a five-decimal float. -/
def floatCandles : List Candle :=
  [⟨0, .fin 1, .fin 2, .fin 1, .fin 2, stepFloat 10000⟩, ⟨60, .fin 2, .fin 5, .fin 2, .fin 3, stepFloat 20000⟩,
   ⟨120, .fin 3, .fin 4, .fin 0, .fin 1, stepFloat 30000⟩, ⟨180, .fin 1, .fin 2, .fin 1, .fin 2, stepFloat 10000⟩]

/-- C114 and C115: volumes of 10000 steps and more, whose float64 sum is not the float64 next to the sum. -/
example : (∀ c ∈ floatCandles, c.volume = stepFloat (exSteps c)) ∧
    (floatCandles.length + 1) * steps exSteps floatCandles ≤ 2 ^ 50 ∧
    Regular 1 floatCandles ∧ utcMinute (floatCandles[0]'(by decide)).time = 0 ∧
    volumeLoop ieee (.fin 0) floatCandles ≠ stepFloat 70000 := by
  refine ⟨by decide +kernel, by decide +kernel, ⟨by decide +kernel, ?_⟩, by decide, by decide +kernel⟩
  intro i hi
  simp only [floatCandles, List.length_cons, List.length_nil] at hi
  interval_cases i <;> rfl

example : (∀ c ∈ floatCandles, Fl.gt c.high (ieee.const (-10 ^ 308)) = true) ∧
    (∀ c ∈ floatCandles, Fl.lt c.low (ieee.const (10 ^ 308)) = true) := by decide +kernel

example : modifyInterval ieee utcMinute floatCandles 3 = .ok
    [⟨0, .fin 1, .fin 5, .fin 0, .fin 1, stepFloat 60000⟩, ⟨180, .fin 1, .fin 2, .fin 1, .fin 2, stepFloat 10000⟩] := by
  decide +kernel

end Finmod
