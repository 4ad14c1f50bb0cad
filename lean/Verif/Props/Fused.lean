import Verif.Lemmas.FusedErr

/-!
# Averages and volatility with fused multiply-add (C157)

The accuracy bounds of C108 and C109 and the sign of C75 hold whatever products the compiler fuses
into additions.
-/

namespace Finmod
open Go Spec FloatSem

/-- Without fusing, the compiled functions are the ones of `Model/Averages.lean`. -/
theorem C157_unfused (S : FloatSem) (cs : Option (List Candle)) (n : Int) (l : List Candle) (beta : Fl) :
    exponentialMovingAverageF S (fun _ => .no) cs n = exponentialMovingAverage S cs n ∧
    smoothedMovingAverageF S (fun _ => false) cs n = smoothedMovingAverage S cs n ∧
    exponentialWeightedVolatilityF S (fun _ => .no) l beta = exponentialWeightedVolatility S l beta := by
  refine ⟨rfl, rfl, ?_⟩
  unfold exponentialWeightedVolatilityF exponentialWeightedVolatility
  have : ∀ (l : List Candle) (k : Nat) (v : Fl),
      (l.zipIdx k).foldl (fun v ci => ewvStepF S beta .no v ci.1) v = l.foldl (ewvStep S beta) v := by
    intro l
    induction l with
    | nil => intros; rfl
    | cons c l ih => intro k v; exact ih (k + 1) _
  exact this l 0 _

/-- **C157.** Whatever is fused, every value of `ExponentialMovingAverage` is within the bound of
C108 of the true exponential average. -/
theorem C157_ema_accurate (f : Nat → Fuse) {cs : List Candle} {xs : List ℚ} (hx : Closes cs xs) (hr : FloatCloses cs)
    {n : Nat} (h1 : 1 ≤ n) (hn : n ≤ 2 ^ 47) (h2 : n ≤ cs.length) {M : ℚ} (hM : ∀ x ∈ xs, |x| ≤ M)
    (hbig : M ≤ 2 ^ (900 : ℤ)) :
    ∃ out, exponentialMovingAverageF ieee f (some cs) n = .ok out ∧
      List.Forall₂ (fun y q => ∃ r, y.Is r ∧
        |r - q| ≤ (n + 1) * (16 * 2 ^ (-53 : ℤ) * M + 4 * 2 ^ (-1075 : ℤ))) out (emaQ xs n) := by
  rw [← uR_eq, ← tiny_eq]
  have hF := closes_isF hx hr
  have hlen := hx.length
  refine ⟨_, emaF_ok ieee f cs n h1 h2, ?_⟩
  have hd := hx.drop n
  unfold emaQ
  cases hc : cs.drop n with
  | nil =>
    have : xs.drop n = [] := by
      rw [List.drop_eq_nil_iff] at hc ⊢; omega
    rw [this]; exact .nil
  | cons c rest =>
    cases hxd : xs.drop n with
    | nil => rw [List.drop_eq_nil_iff] at hxd; have := congrArg List.length hc; simp at this; omega
    | cons x xrest =>
      simp only
      rw [hc, hxd] at hd
      have hq : (1 : ℚ) ≤ n := by exact_mod_cast h1
      have hq2 : (n : ℚ) ≤ 140737488355328 := by
        have : (n : ℚ) ≤ ((2 ^ 47 : ℕ) : ℚ) := by exact_mod_cast hn
        exact this.trans (by norm_num)
      have hmem : ∀ x ∈ xs.take n, |x| ≤ M := fun x hx => hM x (List.mem_of_mem_take hx)
      have htn : (cs.take n).length = n := by simp; omega
      have hxn : (xs.take n).length = n := by simp; omega
      have hne : xs.take n ≠ [] := by rw [← List.length_pos_iff, hxn]; omega
      have hM0 : 0 ≤ M := (abs_nonneg _).trans (mean_abs_le hne hmem)
      have hu := uR_pos
      have ht := tiny_pos
      have hnu : ((n : ℚ) + 1) * uR ≤ 1 / 32 := by
        have : uR = 1 / 9007199254740992 := by rw [uR_eq]; norm_num
        rw [this]; linarith
      have hnt : ((n : ℚ) + 1) * tiny ≤ 1 / 16 := by
        have h3 := tiny_small
        calc ((n : ℚ) + 1) * tiny ≤ 140737488355329 * (1 / 2 ^ 200) :=
              mul_le_mul (by linarith) h3 ht.le (by norm_num)
          _ ≤ 1 / 16 := by norm_num
      set E : ℚ := (n + 1) * (16 * uR * M + 4 * tiny) with hE
      have hE0 : 0 ≤ E := by positivity
      have hEM : E ≤ M / 2 + 1 / 4 := by
        have : E = 16 * (((n : ℚ) + 1) * uR) * M + 4 * (((n : ℚ) + 1) * tiny) := by rw [hE]; ring
        rw [this]; nlinarith
      have huE : 9 * uR * E ≤ 5 * uR * M + 2 * tiny := by
        have : uR * E = (((n : ℚ) + 1) * uR) * (16 * uR * M + 4 * tiny) := by rw [hE]; ring
        have h0 : 0 ≤ 16 * uR * M + 4 * tiny := by positivity
        nlinarith [mul_nonneg hu.le hM0]
      have hbig2 := huge_big (c := 12) (M := M) (by
        calc (12 : ℚ) ≤ 2 ^ (4 : ℤ) := by norm_num
          _ ≤ _ := zpow_two_le (by norm_num)) hM0 hbig
      have hone := huge_one
      have hge : (4 : ℚ) ≤ 2 ^ (100 : ℤ) := by
        calc (4 : ℚ) = 2 ^ (2 : ℤ) := by norm_num
          _ ≤ _ := zpow_two_le (by norm_num)
      have hbig3 : 8 * (M + E) + 4 ≤ huge := by
        have : 24 ≤ huge := by
          have := huge_big (c := 24) (M := 1) (by
            calc (24 : ℚ) ≤ 2 ^ (5 : ℤ) := by norm_num
              _ ≤ _ := zpow_two_le (by norm_num)) (by norm_num) (by
            calc (1 : ℚ) = 2 ^ (0 : ℤ) := by norm_num
              _ ≤ _ := zpow_two_le (by norm_num))
          linarith
        linarith
      obtain ⟨p, hp, hpe⟩ := emaWeight_near h1 (hn.trans (by norm_num))
      have hw := weight_bounds h1
      obtain ⟨a, ha, hae⟩ := average_near (cs := cs.take n) (closes_isF (hx.take n)
          (fun c hc => hr c (List.mem_of_mem_take hc)))
        (by rw [← List.length_pos_iff, htn]; omega) (by rw [htn]; exact hn.trans (by norm_num)) hmem hbig
      rw [htn] at hae
      have hwE : 2 / ((n : ℚ) + 1) * E = 32 * uR * M + 8 * tiny := by
        rw [hE]; field_simp; ring
      have hR : List.Forall₂ (Within E M)
          (scan (fun x (ci : Candle × Nat) => emaNextF ieee (emaWeight ieee n) (f ci.2) x ci.1.close)
            (average ieee (cs.take n)) (rest.zipIdx (n + 1)))
          (scan (fun prev x => x * (2 / ((n : ℚ) + 1)) + prev * (1 - 2 / ((n : ℚ) + 1)))
            (mean (xs.take n)) xrest) := by
        apply scan_forall₂ (Q := fun ci x => IsF ci.1.close x ∧ |x| ≤ M)
        · refine ⟨a, ha, hae.trans ?_, mean_abs_le hne hmem⟩
          rw [hE]
          nlinarith [mul_nonneg hu.le hM0]
        · have hd2 : Closes rest xrest := (List.forall₂_cons.1 hd).2
          have hmr : ∀ c ∈ rest, ieee.Rep c.close := fun c hc' => hr c (List.mem_of_mem_drop (i := n) (by rw [hc]; simp [hc']))
          have hmx : ∀ x ∈ xrest, |x| ≤ M := fun x hx' => hM x (List.mem_of_mem_drop (i := n) (by rw [hxd]; simp [hx']))
          have := closes_isF hd2 hmr
          exact forall₂_and_mem (zipIdx_forall₂ (List.forall₂_map_left_iff.1 this) (n + 1)) hmx
        · rintro y q c x ⟨r, hr1, hr2, hr3⟩ ⟨hc1, hc2⟩
          obtain ⟨r', h3, h4⟩ := emaF_step_near (f c.2) hw.1 hw.2 hp hpe hr1 hr2 hr3 hc1 hc2 hbig3
          refine ⟨r', h3, ?_, ?_⟩
          · refine h4.trans ?_
            nlinarith
          · refine (abs_add_le _ _).trans ?_
            rw [abs_mul, abs_mul, abs_of_nonneg hw.1, abs_of_nonneg (by linarith [hw.2] : (0 : ℚ) ≤ 1 - 2 / ((n : ℚ) + 1))]
            nlinarith [hw.1, hw.2]
      exact hR.imp (fun y q h => by obtain ⟨r, a1, a2, _⟩ := h; exact ⟨r, a1.1, a2⟩)

/-- **C157.** Whatever is fused, every value of `SmoothedMovingAverage` is within the bound of C108
of the true smoothed average. -/
theorem C157_smma_accurate (f : Nat → Bool) {cs : List Candle} {xs : List ℚ} (hx : Closes cs xs) (hr : FloatCloses cs)
    {n : Nat} (h1 : 1 ≤ n) (hn : n ≤ 2 ^ 47) (h2 : n ≤ cs.length) {M : ℚ} (hM : ∀ x ∈ xs, |x| ≤ M)
    (hbig : M ≤ 2 ^ (900 : ℤ)) :
    ∃ out, smoothedMovingAverageF ieee f (some cs) n = .ok out ∧
      List.Forall₂ (fun y q => ∃ r, y.Is r ∧
        |r - q| ≤ 8 * n * (2 ^ (-53 : ℤ) * M + 2 ^ (-1075 : ℤ))) out (smmaQ xs n) := by
  rw [← uR_eq, ← tiny_eq]
  have hlen := hx.length
  have hq : (1 : ℚ) ≤ n := by exact_mod_cast h1
  have hn0 : (0 : ℚ) < n := by linarith
  have hq2 : (n : ℚ) ≤ 140737488355328 := by
    have : (n : ℚ) ≤ ((2 ^ 47 : ℕ) : ℚ) := by exact_mod_cast hn
    exact this.trans (by norm_num)
  have hmem : ∀ x ∈ xs.take n, |x| ≤ M := fun x hx => hM x (List.mem_of_mem_take hx)
  have htn : (cs.take n).length = n := by simp; omega
  have hxn : (xs.take n).length = n := by simp; omega
  have hne : xs.take n ≠ [] := by rw [← List.length_pos_iff, hxn]; omega
  have hM0 : 0 ≤ M := (abs_nonneg _).trans (mean_abs_le hne hmem)
  have hu := uR_pos
  have ht := tiny_pos
  have hnu : (n : ℚ) * uR ≤ 1 / 32 := by
    have : uR = 1 / 9007199254740992 := by rw [uR_eq]; norm_num
    rw [this]; linarith
  have hnt : (n : ℚ) * tiny ≤ 1 / 32 := by
    calc (n : ℚ) * tiny ≤ 140737488355328 * (1 / 2 ^ 200) :=
          mul_le_mul (by linarith) tiny_small ht.le (by norm_num)
      _ ≤ 1 / 32 := by norm_num
  set E : ℚ := 8 * n * (uR * M + tiny) with hE
  have hE0 : 0 ≤ E := by positivity
  have hEM : E ≤ M / 4 + 1 / 4 := by
    have : E = 8 * ((n : ℚ) * uR) * M + 8 * ((n : ℚ) * tiny) := by rw [hE]; ring
    rw [this]; nlinarith
  have huE : 5 * uR * E ≤ 2 * uR * M + 2 * tiny := by
    have : uR * E = 8 * ((n : ℚ) * uR) * (uR * M + tiny) := by rw [hE]; ring
    have h0 : 0 ≤ uR * M + tiny := by positivity
    nlinarith
  have hbig2 := huge_big (c := 8 * n) (M := M) (by
    calc 8 * (n : ℚ) ≤ 2 ^ (60 : ℤ) := by norm_num; linarith
      _ ≤ _ := zpow_two_le (by norm_num)) hM0 hbig
  have hbig4 := huge_big (c := 8 * n) (M := 1) (by
    calc 8 * (n : ℚ) ≤ 2 ^ (60 : ℤ) := by norm_num; linarith
      _ ≤ _ := zpow_two_le (by norm_num)) (by norm_num) (by
    calc (1 : ℚ) = 2 ^ (0 : ℤ) := by norm_num
      _ ≤ _ := zpow_two_le (by norm_num))
  have hbig3 : 4 * n * (M + E) + 4 ≤ huge := by
    have h3 : 4 * (n : ℚ) * (M + E) ≤ 4 * n * (M + (M / 4 + 1 / 4)) :=
      mul_le_mul_of_nonneg_left (by linarith) (by linarith)
    have h4 : 4 * (n : ℚ) * (M + (M / 4 + 1 / 4)) = 5 * (n * M) + n := by ring
    have h5 : 0 ≤ (n : ℚ) * M := by positivity
    linarith
  have hEn : (1 - 1 / (n : ℚ)) * E = E - 8 * (uR * M + tiny) := by
    rw [hE]; field_simp
  have hstep : ∀ q x : ℚ, |q| ≤ M → |x| ≤ M → |(q * ((n : ℚ) - 1) + x) / n| ≤ M := by
    intro q x hq1 hx1
    rw [abs_div, abs_of_pos hn0, div_le_iff₀ hn0]
    refine (abs_add_le _ _).trans ?_
    rw [abs_mul, abs_of_nonneg (by linarith : (0 : ℚ) ≤ (n : ℚ) - 1)]
    have := mul_le_mul_of_nonneg_right hq1 (by linarith : (0 : ℚ) ≤ (n : ℚ) - 1)
    linarith
  obtain ⟨a, ha, hae⟩ := average_near (cs := cs.take n) (closes_isF (hx.take n)
      (fun c hc => hr c (List.mem_of_mem_take hc)))
    (by rw [← List.length_pos_iff, htn]; omega) (by rw [htn]; exact hn.trans (by norm_num)) hmem hbig
  have efirst : smmaFirst ieee cs n = average ieee (cs.take n) := by
    rw [average_eq, isF_const_zero, htn]; rfl
  rw [htn] at hae
  have hfirst : Within E M (smmaFirst ieee cs n) (mean (xs.take n)) := by
    rw [efirst]
    refine ⟨a, ha, hae.trans ?_, mean_abs_le hne hmem⟩
    rw [hE]
    have : 0 ≤ uR * M := by positivity
    nlinarith
  refine ⟨_, smmaF_ok ieee f cs n h1 h2, ?_⟩
  suffices hR : List.Forall₂ (Within E M) (smmaFirst ieee cs n :: (match cs.drop n with
      | [] => []
      | c :: rest => scan (fun x (ci : Candle × Nat) => smmaNextF ieee n (f ci.2) x ci.1.close)
          (smmaSecondF ieee n (f n) (smmaFirst ieee cs n) c.close) (rest.zipIdx (n + 1))))
      (smmaQ xs n) from
    hR.imp (fun y q h => by obtain ⟨r, a1, a2, _⟩ := h; exact ⟨r, a1.1, a2⟩)
  have hd := hx.drop n
  unfold smmaQ
  cases hc : cs.drop n with
  | nil =>
    have : xs.drop n = [] := by
      rw [List.drop_eq_nil_iff] at hc ⊢; omega
    rw [this]; exact .cons hfirst .nil
  | cons c rest =>
    cases hxd : xs.drop n with
    | nil => rw [List.drop_eq_nil_iff] at hxd; have := congrArg List.length hc; simp at this; omega
    | cons x xrest =>
      rw [hc, hxd] at hd
      have hcr : ∀ c' ∈ c :: rest, ieee.Rep c'.close := fun c' h' => hr c' (List.mem_of_mem_drop (i := n) (by rw [hc]; exact h'))
      have hxr : ∀ x' ∈ x :: xrest, |x'| ≤ M := fun x' h' => hM x' (List.mem_of_mem_drop (i := n) (by rw [hxd]; exact h'))
      have hall := forall₂_and_mem (closes_isF hd hcr) hxr
      simp only [closes, List.map_cons, List.forall₂_cons] at hall
      obtain ⟨⟨hc1, hc2⟩, hall⟩ := hall
      simp only [scan]
      refine .cons hfirst ?_
      apply scan_forall₂ (Q := fun ci x => IsF ci.1.close x ∧ |x| ≤ M) ?_
        (zipIdx_forall₂ (List.forall₂_map_left_iff.1 hall) (n + 1))
      · rintro y q c x ⟨r, hr1, hr2, hr3⟩ ⟨hc1, hc2⟩
        obtain ⟨r', h3, h4⟩ := smmaNextF_near (f c.2) h1 hn hr1 hr2 hr3 hc1 hc2 hbig3
        refine ⟨r', h3, h4.trans ?_, hstep _ _ hr3 hc2⟩
        rw [hEn]; nlinarith
      · obtain ⟨r, hr1, hr2, hr3⟩ := hfirst
        obtain ⟨r', h3, h4⟩ := smmaSecondF_near (f n) h1 hn hr1 hr2 hr3 hc1 hc2 hbig3
        refine ⟨r', h3, h4.trans ?_, hstep _ _ hr3 hc2⟩
        rw [hEn]; nlinarith

/-- **C157.** Whatever is fused, the volatility is within the bound of C109 of the true weighted
sum. -/
theorem C157_volatility_accurate (f : Nat → Fuse) {cs : List Candle} (hf : FiniteRanges cs) (hr : FloatRanges cs)
    {beta : Fl} {b M : ℚ} (hb : beta.Is b) (hbr : ieee.Rep beta) (hb0 : 0 ≤ b)
    (hb1 : 32 * 2 ^ (-53 : ℤ) ≤ 1 - b) (hM0 : 0 ≤ M) (hM : ∀ c ∈ cs, |rangeOf c| ≤ M) (hbig : M ≤ 2 ^ (900 : ℤ)) :
    ∃ r, (exponentialWeightedVolatilityF ieee f cs beta).Is r ∧
      |r - ∑ i ∈ Finset.range cs.length,
        (1 - b) * b ^ (cs.length - 1 - i) * (cs.map rangeOf).getD i 0| ≤
        (16 * 2 ^ (-53 : ℤ) * M + 4 * 2 ^ (-1075 : ℤ)) / (1 - b) := by
  rw [← uR_eq] at *
  rw [← tiny_eq]
  have hu := uR_pos
  have ht := tiny_pos
  have h1b : 0 < 1 - b := by linarith only [hb1, hu]
  have hb' := isF_of_rep hb hbr
  set E : ℚ := (16 * uR * M + 4 * tiny) / (1 - b) with hE
  have hE0 : 0 ≤ E := div_nonneg (add_nonneg (mul_nonneg (mul_nonneg (by norm_num) hu.le) hM0) (mul_nonneg (by norm_num) ht.le)) h1b.le
  have hEb : (1 - b) * E = 16 * uR * M + 4 * tiny := by rw [hE]; field_simp
  have huE : 32 * (uR * E) ≤ 16 * uR * M + 4 * tiny := by
    rw [← hEb]; nlinarith
  have htu : 16 * tiny ≤ uR := by
    have : (16 : ℚ) * (1 / 2 ^ 200) ≤ uR := by rw [uR_eq]; norm_num
    linarith [tiny_small]
  have hEM : E ≤ M / 2 + 1 / 4 := by
    have h3 : 32 * uR * E ≤ 16 * uR * M + uR := by linarith
    have h4 : 32 * E ≤ 16 * M + 1 := by
      by_contra hc
      have := mul_lt_mul_of_pos_left (not_le.1 hc) hu
      linarith
    linarith
  have hbig2 := huge_big (c := 24) (M := M) (by
    calc (24 : ℚ) ≤ 2 ^ (5 : ℤ) := by norm_num
      _ ≤ _ := zpow_two_le (by norm_num)) hM0 hbig
  have hbig3 : 16 * (M + E) + 4 ≤ huge := by
    have : 24 ≤ huge := by
      have := huge_big (c := 24) (M := 1) (by
        calc (24 : ℚ) ≤ 2 ^ (5 : ℤ) := by norm_num
          _ ≤ _ := zpow_two_le (by norm_num)) (by norm_num) (by
        calc (1 : ℚ) = 2 ^ (0 : ℤ) := by norm_num
          _ ≤ _ := zpow_two_le (by norm_num))
      linarith
    linarith
  suffices h : ∀ (cs : List Candle) (k : Nat) (v w : Fl) (q : ℚ), FiniteRanges cs → FloatRanges cs →
      (∀ c ∈ cs, |rangeOf c| ≤ M) → Within E M v q → w.Is q →
      ∃ q', Within E M ((cs.zipIdx k).foldl (fun v ci => ewvStepF ieee beta (f ci.2) v ci.1) v) q' ∧ (cs.foldl (ewvStep FloatSem.exact beta) w).Is q' by
    obtain ⟨q, ⟨r, h1, h2, _⟩, h3⟩ := h cs 0 (.fin 0) (.fin 0) 0 hf hr hM
      ⟨0, isF_zero, by simpa using hE0, by simpa using hM0⟩ (Fl.is_fin 0)
    refine ⟨r, h1.1, ?_⟩
    have := Fl.Is.unique h3 (C74_weighted_sum hf hb)
    rw [← this]; exact h2
  intro cs
  induction cs with
  | nil => intro k v w q _ _ _ h1 h2; exact ⟨q, h1, h2⟩
  | cons c cs ih =>
    intro k v w q hf hr hM hv hw
    obtain ⟨f1, f2⟩ := hf c (by simp)
    obtain ⟨r1, r2⟩ := hr c (by simp)
    have hMc := hM c (by simp)
    obtain ⟨r, hr1, hr2, hr3⟩ := hv
    have hhi := isF_of_rep (Fl.isFinite_is f1) r1
    have hlo := isF_of_rep (Fl.isFinite_is f2) r2
    obtain ⟨r', h3, h4⟩ := ewvF_step_near (f k) hb' hb0 (by linarith) hr1 hr2 hr3 hhi hlo hMc hbig3
    simp only [List.zipIdx_cons, List.foldl_cons]
    refine ih (k + 1) _ _ (b * q + (1 - b) * rangeOf c) (fun c hc => hf c (by simp [hc]))
      (fun c hc => hr c (by simp [hc])) (fun c hc => hM c (by simp [hc])) ⟨r', h3, ?_, ?_⟩
      (ewvStep_exact hb hw f1 f2)
    · refine h4.trans ?_
      have : b * E = E - (16 * uR * M + 4 * tiny) := by linarith only [hEb]
      have huM : 0 ≤ uR * M := mul_nonneg hu.le hM0
      linarith only [this, huM, huE, ht]
    · refine (abs_add_le _ _).trans ?_
      rw [abs_mul, abs_mul, abs_of_nonneg hb0, abs_of_pos h1b]
      nlinarith

/-! ### The sign of the volatility -/

theorem fma_nonneg {S : FloatSem} (hS : Lawful S) {x y z : Fl} {a : ℚ} (hx : x.Is a) (ha : 0 ≤ a)
    (hy : Fl.le (.fin 0) y = true) (h0 : a = 0 → y.isFinite = true) (hz : Fl.le (.fin 0) z = true) :
    Fl.le (.fin 0) (S.fma x y z) = true := by
  rcases nonneg_cases hy with rfl | ⟨b, hb, hb0⟩
  · have e : S.fma x (.inf false) z = S.add (S.mul x (.inf false)) z := by simp [FloatSem.fma, Fl.isFinite]
    rw [e]
    exact add_nonneg_fl hS (mul_nonneg_fl hS hx ha hy h0) hz
  · rcases nonneg_cases hz with rfl | ⟨c, hc, hc0⟩
    · have e : S.fma x y (.inf false) = .inf false := by
        unfold FloatSem.fma
        rw [(Fl.is_iff.1 hx).1, (Fl.is_iff.1 hb).1]
        rfl
      rw [e]; decide
    · rcases FloatSem.fma_is (S := S) hx hb hc with ⟨_, e⟩ | ⟨_, e⟩
      · rw [e]; exact rnd_nonneg hS (add_nonneg (mul_nonneg ha hb0) hc0)
      · exact is_nonneg e le_rfl

theorem ewvStepF_inv (k : FloatSem.Fuse) {S : FloatSem} (hS : Lawful S) {beta v : Fl} {b : ℚ} (hb : beta.Is b)
    (h0 : 0 ≤ b) (h1 : b ≤ 1) {c : Candle} (hh : c.high.isFinite = true) (hl : c.low.isFinite = true)
    (hge : Fl.le c.low c.high = true) (hr : (S.sub c.high c.low).isFinite = true)
    (hv : EwvInv b v) : EwvInv b (ewvStepF S beta k v c) := by
  obtain ⟨hv1, hv2⟩ := hv
  have hrng := sub_ge_nonneg hS hh hl hge
  have hw : ∃ w, (S.sub (S.const 1) beta).Is w ∧ 0 ≤ w ∧ (b = 0 → w = 1) := by
    have h1' : (S.const 1).Is 1 := by
      unfold FloatSem.const; rw [rnd_one hS]; exact Fl.is_fin 1
    unfold FloatSem.sub
    rcases FloatSem.add_is (S := S) h1' hb.neg with h | ⟨_, h, _⟩
    · rw [h]
      have hlo := rnd_nonneg hS (q := 1 + -b) (by linarith)
      have hhi := hS.r64.mono (1 + -b) 1 (by linarith)
      rw [rnd_one hS] at hhi
      rcases nonneg_cases hlo with he | ⟨w, hw, hw0⟩
      · rw [he] at hhi; simp [Fl.key] at hhi
      · refine ⟨w, hw, hw0, ?_⟩
        rintro rfl
        rw [neg_zero, add_zero, rnd_one hS] at hw
        exact (Fl.is_fin_iff.1 hw).symm
    · norm_num at h
  obtain ⟨w, hw, hw0, hw1⟩ := hw
  have hm1 := mul_nonneg_fl hS hb h0 hv1 hv2
  have hm2 := mul_nonneg_fl hS hw hw0 hrng (fun _ => hr)
  cases k with
  | no => exact ewvStep_inv hS hb h0 h1 hh hl hge hr ⟨hv1, hv2⟩
  | left =>
    refine ⟨fma_nonneg hS hb h0 hv1 hv2 hm2, fun hb0 => ?_⟩
    have hw2 := hw1 hb0
    subst hb0 hw2
    have hrep := sub_rep hS (Fl.isFinite_is hh) (Fl.isFinite_is hl)
    unfold ewvStepF FloatSem.dot
    simp only
    generalize S.sub c.high c.low = r at *
    have hmul : ∃ q, (S.mul (S.sub (S.const 1) beta) r).Is q ∧ (S.rnd q).isFinite = true := by
      rcases FloatSem.mul_is (S := S) hw (Fl.isFinite_is hr) with ⟨h, e⟩ | ⟨_, h⟩
      · rw [one_mul] at e h
        cases r with
        | fin q =>
          simp only [Fl.toRat] at e
          have := hrep q rfl
          rw [e, this]
          exact ⟨q, Fl.is_fin q, by rw [this]; rfl⟩
        | _ => simp [Fl.toRat] at h
      · have h0' : S.rnd ((0 : ℤ) : ℚ) = .fin ((0 : ℤ) : ℚ) := hS.r64.int 0 (by norm_num)
        rw [Int.cast_zero] at h0'
        exact ⟨0, h, by rw [h0']; rfl⟩
    obtain ⟨q, hq, hq'⟩ := hmul
    rcases FloatSem.fma_is (S := S) hb (Fl.isFinite_is (hv2 rfl)) hq with ⟨_, e⟩ | ⟨_, e⟩
    · rw [e, zero_mul, zero_add]; exact hq'
    · exact (Fl.is_iff.1 e).1
  | right =>
    refine ⟨fma_nonneg hS hw hw0 hrng (fun _ => hr) hm1, fun hb0 => ?_⟩
    have hw2 := hw1 hb0
    subst hb0 hw2
    have hvz : (S.mul beta v).Is 0 := by
      rcases FloatSem.mul_is (S := S) hb (Fl.isFinite_is (hv2 rfl)) with ⟨h, _⟩ | ⟨_, h⟩
      · simp at h
      · exact h
    have hrep := sub_rep hS (Fl.isFinite_is hh) (Fl.isFinite_is hl)
    unfold ewvStepF FloatSem.dot
    simp only
    generalize S.sub c.high c.low = r at *
    rcases FloatSem.fma_is (S := S) hw (Fl.isFinite_is hr) hvz with ⟨h, e⟩ | ⟨_, e⟩
    · rw [one_mul, add_zero] at e h
      rw [e]
      cases r with
      | fin q => simp only [Fl.toRat]; rw [hrep q rfl]; rfl
      | _ => simp [Fl.toRat] at h
    · exact (Fl.is_iff.1 e).1

/-- **C157.** Whatever is fused, in every lawful float semantics the volatility is a number `≥ 0`
under the conditions of C75. -/
theorem C157_volatility_nonneg (f : Nat → Fuse) {S : FloatSem} (hS : Lawful S) {cs : List Candle} {beta : Fl}
    (hb0 : Fl.le (.fin 0) beta = true) (hb1 : Fl.le beta (.fin 1) = true)
    (hc : ∀ c ∈ cs, c.high.isFinite = true ∧ c.low.isFinite = true ∧ Fl.le c.low c.high = true ∧
      (S.sub c.high c.low).isFinite = true) :
    Fl.le (.fin 0) (exponentialWeightedVolatilityF S f cs beta) = true ∧
      exponentialWeightedVolatilityF S f cs beta ≠ .nan := by
  have hb : ∃ b, beta.Is b ∧ 0 ≤ b ∧ b ≤ 1 := by
    rcases nonneg_cases hb0 with rfl | ⟨b, hb, h0⟩
    · simp [Fl.le, Fl.isNaN, Fl.key] at hb1
    · refine ⟨b, hb, h0, ?_⟩
      rw [hb.le (Fl.is_fin 1)] at hb1
      simpa using hb1
  obtain ⟨b, hb, h0, h1⟩ := hb
  have : ∀ (l : List Candle) (k : Nat) (v : Fl), (∀ c ∈ l, c ∈ cs) → EwvInv b v →
      EwvInv b ((l.zipIdx k).foldl (fun v ci => ewvStepF S beta (f ci.2) v ci.1) v) := by
    intro l
    induction l with
    | nil => intro _ v _ hv; exact hv
    | cons c l ih =>
      intro k v hl hv
      obtain ⟨a1, a2, a3, a4⟩ := hc c (hl c (by simp))
      exact ih (k + 1) _ (fun c hc => hl c (by simp [hc])) (ewvStepF_inv (f k) hS hb h0 h1 a1 a2 a3 a4 hv)
  have := this cs 0 (.fin 0) (fun _ h => h) ⟨by decide, fun _ => rfl⟩
  refine ⟨this.1, ?_⟩
  have h := this.1
  rintro e
  unfold exponentialWeightedVolatilityF at e
  rw [e] at h
  simp [Fl.le, Fl.isNaN] at h

/-! ### Examples -/

/-- Fusing does change results: a step of the exponential average of period 2. -/
example : emaNextF ieee (emaWeight ieee 2) .left (ieee.rnd (1 / 10)) (ieee.rnd (3 / 10)) ≠
    emaNextF ieee (emaWeight ieee 2) .no (ieee.rnd (1 / 10)) (ieee.rnd (3 / 10)) := by decide +kernel

example : FloatCloses accCandles ∧ FloatRanges accCandles ∧ FiniteRanges accCandles ∧
    Closes accCandles [2, 3602879701896397 / 36028797018963968, 4, 5] ∧
    (∀ c ∈ accCandles, c.high.isFinite = true ∧ c.low.isFinite = true ∧ Fl.le c.low c.high = true ∧
      (ieee.sub c.high c.low).isFinite = true) := by
  refine ⟨?_, ?_, ?_, ?_, by decide +kernel⟩
  · intro c hc q hq
    have : ∀ c ∈ accCandles, ieee.rnd c.close.toRat = .fin c.close.toRat := by decide +kernel
    have h := this c hc
    rw [hq] at h; exact h
  · intro c hc
    have : ∀ c ∈ accCandles, ieee.rnd c.high.toRat = .fin c.high.toRat ∧ ieee.rnd c.low.toRat = .fin c.low.toRat := by
      decide +kernel
    obtain ⟨h1, h2⟩ := this c hc
    exact ⟨fun q hq => by rw [hq] at h1; exact h1, fun q hq => by rw [hq] at h2; exact h2⟩
  · unfold FiniteRanges; decide +kernel
  · refine .cons ?_ (.cons ?_ (.cons ?_ (.cons ?_ .nil))) <;> exact .inl (by decide +kernel)

end Finmod
