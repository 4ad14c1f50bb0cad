import Verif.Props.AvgMono
import Verif.Props.Accuracy

/-!
# Averages of a rising or falling series (C266)
-/

namespace Finmod
open Go Spec

/-- The ways a series can go on: the relation of each value to the later ones, and its weak form. -/
inductive Spec.Trend : (ℚ → ℚ → Prop) → (ℚ → ℚ → Prop) → Prop
  | rises : Spec.Trend (fun a b => a ≤ b) (fun a b => a ≤ b)
  | risesStrictly : Spec.Trend (fun a b => a < b) (fun a b => a ≤ b)
  | falls : Spec.Trend (fun a b => b ≤ a) (fun a b => b ≤ a)
  | fallsStrictly : Spec.Trend (fun a b => b < a) (fun a b => b ≤ a)

section
variable {R T : ℚ → ℚ → Prop} (h : Trend R T)
include h

theorem Spec.Trend.trans {a b c : ℚ} (h1 : R a b) (h2 : R b c) : R a c := by
  cases h <;> linarith

theorem Spec.Trend.weak {a b : ℚ} (h1 : R a b) : T a b := by
  cases h <;> linarith

theorem Spec.Trend.of_weak {a b c : ℚ} (h1 : T a b) (h2 : R b c) : R a c := by
  cases h <;> linarith

theorem Spec.Trend.add {a b c d : ℚ} (h1 : R a b) (h2 : R c d) : R (a + c) (b + d) := by
  cases h <;> linarith

theorem Spec.Trend.div {a b n : ℚ} (hn : 0 < n) (h1 : R a b) : R (a / n) (b / n) := by
  cases h <;> first | exact (div_le_div_iff_of_pos_right hn).2 h1 | exact (div_lt_div_iff_of_pos_right hn).2 h1

/-- A weighted mean of a value and a later one lies between them. -/
theorem Spec.Trend.between {a b w : ℚ} (hw : 0 < w) (hw1 : w ≤ 1) (h1 : R a b) :
    R a (b * w + a * (1 - w)) ∧ T (b * w + a * (1 - w)) b := by
  cases h <;> beta_reduce at * <;> constructor <;> nlinarith

theorem sum_trend {xs ys : List ℚ} (hr : List.Forall₂ R xs ys) (hne : xs ≠ []) : R xs.sum ys.sum := by
  induction hr with
  | nil => exact absurd rfl hne
  | @cons a b l m hab hl ih =>
    cases hl with
    | nil => simpa using hab
    | cons h1 h2 =>
      rw [List.sum_cons, List.sum_cons (a := b)]
      exact h.add hab (ih (by simp))

/-- The mean of values that all come before a later one. -/
theorem mean_trend {xs : List ℚ} {b : ℚ} (hne : xs ≠ []) (hx : ∀ x ∈ xs, T x b) : T (mean xs) b := by
  have hl : (0 : ℚ) < xs.length := by exact_mod_cast List.length_pos_iff.2 hne
  have key : ∀ l : List ℚ, (∀ x ∈ l, T x b) → T l.sum (l.length * b) := by
    intro l hl
    induction l with
    | nil => cases h <;> simp
    | cons a l ih =>
      have h1 := hl a (by simp)
      have h2 := ih fun x hx => hl x (by simp [hx])
      rw [List.sum_cons, List.length_cons]
      cases h <;> beta_reduce at * <;> push_cast <;> linarith
  have := key xs hx
  unfold mean
  cases h <;> beta_reduce at * <;> first | exact (div_le_iff₀ hl).2 (by linarith) | exact (le_div_iff₀ hl).2 (by linarith)

/-- A recursive average follows a trend, behind it. -/
theorem scan_trend {w : ℚ} (hw : 0 < w) (hw1 : w ≤ 1) {f : ℚ → ℚ → ℚ} (hf : ∀ a b, f a b = b * w + a * (1 - w)) :
    ∀ (l : List ℚ) (a : ℚ), l.Pairwise R → (∀ b ∈ l, R a b) →
      (scan f a l).Pairwise R ∧ List.Forall₂ T (scan f a l).tail l ∧ (scan f a l).head? = some a := by
  intro l
  induction l with
  | nil => intro a _ _; simp [scan]
  | cons b l ih =>
    intro a hp ha
    rw [List.pairwise_cons] at hp
    obtain ⟨b1, b2⟩ := h.between hw hw1 (ha b (by simp))
    rw [← hf] at b1 b2
    obtain ⟨i1, i2, i3⟩ := ih (f a b) hp.2 fun c hc => h.of_weak b2 (hp.1 c hc)
    rw [scan]
    generalize hs : scan f (f a b) l = s at i1 i2 i3
    cases s with
    | nil => simp at i3
    | cons c s =>
      simp only [List.head?_cons, Option.some.injEq] at i3
      subst i3
      refine ⟨List.pairwise_cons.2 ⟨fun y hy => ?_, i1⟩, .cons b2 i2, rfl⟩
      rcases List.mem_cons.1 hy with rfl | hy
      · exact b1
      · exact h.trans b1 ((List.pairwise_cons.1 i1).1 y hy)

end

theorem window_trend {R : ℚ → ℚ → Prop} {xs : List ℚ} (hp : xs.Pairwise R) {n k k' : Nat} (hk : k < k') (hn : k' + n ≤ xs.length) :
    List.Forall₂ R ((xs.drop k).take n) ((xs.drop k').take n) := by
  rw [List.forall₂_iff_get]
  refine ⟨by simp; omega, fun i h1 h2 => ?_⟩
  simp only [List.get_eq_getElem, List.getElem_take, List.getElem_drop]
  exact List.pairwise_iff_getElem.1 hp _ _ _ _ (by omega)

theorem pairwise_range_map {α : Type} {R : α → α → Prop} {g : Nat → α} {m : Nat} (h : ∀ k k', k < k' → k' < m → R (g k) (g k')) :
    ((List.range m).map g).Pairwise R := by
  rw [List.pairwise_map]
  refine (List.pairwise_lt_range (n := m)).imp_of_mem fun {a b} _ hb hab => h a b hab (List.mem_range.1 hb)

/-- The windows' means follow the trend, behind it. -/
theorem maQ_trend {R T : ℚ → ℚ → Prop} (h : Trend R T) {xs : List ℚ} (hp : xs.Pairwise R) {n : Nat} (h1 : 1 ≤ n) (h2 : n ≤ xs.length) :
    (maQ xs n).Pairwise R ∧ List.Forall₂ T (maQ xs n) (xs.drop (n - 1)) := by
  have hn0 : (0 : ℚ) < n := by exact_mod_cast h1
  have hT : ∀ a, T a a := by cases h <;> intro a <;> exact le_refl a
  constructor
  · refine pairwise_range_map fun k k' hk hk' => ?_
    have hs := sum_trend h (window_trend hp (n := n) hk (by omega)) (by
      intro h0
      have := congrArg List.length h0
      simp at this; omega)
    unfold mean
    have e : ∀ j, j + n ≤ xs.length → ((xs.drop j).take n).length = n := fun j hj => by simp; omega
    rw [e k (by omega), e k' (by omega)]
    exact h.div hn0 hs
  · rw [List.forall₂_iff_get]
    refine ⟨by simp [maQ]; omega, fun i i1 i2 => ?_⟩
    have hi : i + n ≤ xs.length := by simp [maQ] at i1; omega
    simp only [List.get_eq_getElem, maQ, List.getElem_map, List.getElem_range, List.getElem_drop]
    refine mean_trend h (by intro h0; have := congrArg List.length h0; simp at this; omega) fun x hx => ?_
    obtain ⟨j, hj, rfl⟩ := List.mem_iff_getElem.1 hx
    simp only [List.length_take, List.length_drop] at hj
    simp only [List.getElem_take, List.getElem_drop]
    rcases Nat.lt_or_ge j (n - 1) with hlt | hge
    · exact h.weak (List.pairwise_iff_getElem.1 hp _ _ _ _ (by omega))
    · have : i + j = n - 1 + i := by omega
      simp only [this]
      exact hT _

/-- The mean of the first values comes before all later ones. -/
theorem seed_trend {R T : ℚ → ℚ → Prop} (h : Trend R T) {xs : List ℚ} (hp : xs.Pairwise R) {n : Nat} (h1 : 1 ≤ n) (h2 : n ≤ xs.length) :
    T (mean (xs.take n)) (xs[n - 1]'(by omega)) ∧ ∀ b ∈ xs.drop n, R (mean (xs.take n)) b := by
  have h0 := (maQ_trend h hp h1 h2).2
  rw [List.forall₂_iff_get] at h0
  have := h0.2 0 (by simp [maQ]) (by simp; omega)
  simp only [List.get_eq_getElem, maQ, List.getElem_map, List.getElem_range, List.getElem_drop, List.drop_zero, Nat.add_zero] at this
  refine ⟨this, fun b hb => h.of_weak this ?_⟩
  obtain ⟨j, hj, rfl⟩ := List.mem_iff_getElem.1 hb
  rw [List.length_drop] at hj
  rw [List.getElem_drop]
  exact List.pairwise_iff_getElem.1 hp _ _ _ _ (by omega)

theorem weight_trend {n : Nat} (h1 : 1 ≤ n) : (0 : ℚ) < 2 / ((n : ℚ) + 1) ∧ 2 / ((n : ℚ) + 1) ≤ 1 := by
  have : (1 : ℚ) ≤ n := by exact_mod_cast h1
  exact ⟨by positivity, by rw [div_le_one (by linarith)]; linarith⟩

theorem emaQ_trend {R T : ℚ → ℚ → Prop} (h : Trend R T) {xs : List ℚ} (hp : xs.Pairwise R) {n : Nat} (h1 : 1 ≤ n) (h2 : n ≤ xs.length) :
    (emaQ xs n).Pairwise R ∧ List.Forall₂ T (emaQ xs n) (xs.drop n) := by
  obtain ⟨s1, s2⟩ := seed_trend h hp h1 h2
  obtain ⟨w1, w2⟩ := weight_trend h1
  unfold emaQ
  have hd : (xs.drop n).Pairwise R := hp.sublist (List.drop_sublist _ _)
  generalize xs.drop n = m at hd s2
  cases m with
  | nil => exact ⟨.nil, .nil⟩
  | cons c rest =>
    obtain ⟨i1, i2, i3⟩ := scan_trend h w1 w2 (f := fun prev x => x * (2 / ((n : ℚ) + 1)) + prev * (1 - 2 / ((n : ℚ) + 1)))
      (fun _ _ => rfl) rest _ (List.pairwise_cons.1 hd).2 fun b hb => s2 b (by simp [hb])
    refine ⟨i1, ?_⟩
    dsimp only
    generalize scan _ _ rest = s at i2 i3
    cases s with
    | nil => simp at i3
    | cons a s =>
      simp only [List.head?_cons, Option.some.injEq] at i3
      subst i3
      exact .cons (h.weak (s2 c (by simp))) i2

theorem smmaQ_trend {R T : ℚ → ℚ → Prop} (h : Trend R T) {xs : List ℚ} (hp : xs.Pairwise R) {n : Nat} (h1 : 1 ≤ n) (h2 : n ≤ xs.length) :
    (smmaQ xs n).Pairwise R ∧ List.Forall₂ T (smmaQ xs n) (xs.drop (n - 1)) := by
  obtain ⟨s1, s2⟩ := seed_trend h hp h1 h2
  unfold smmaQ
  have hn : (1 : ℚ) ≤ n := by exact_mod_cast h1
  obtain ⟨i1, i2, i3⟩ := scan_trend h (w := 1 / n) (by positivity) (by rw [div_le_one (by linarith)]; exact hn)
    (f := fun prev x => (prev * ((n : ℚ) - 1) + x) / n) (fun a b => by field_simp; ring) (xs.drop n) _
    (hp.sublist (List.drop_sublist _ _)) s2
  refine ⟨i1, ?_⟩
  have e2 : xs.drop (n - 1) = xs[n - 1]'(by omega) :: xs.drop n := by
    rw [List.drop_eq_getElem_cons (by omega), show n - 1 + 1 = n by omega]
  rw [e2]
  generalize scan _ _ (xs.drop n) = s at i2 i3
  cases s with
  | nil => simp at i3
  | cons a s =>
    simp only [List.head?_cons, Option.some.injEq] at i3
    subst i3
    exact .cons s1 i2

/-- **C266** Without rounding: when the closes rise, all averages rise and stay below the closes of
their candles; when they fall, all averages fall and stay above; strictly if the closes do. -/
theorem C266_trend_partial {R T : ℚ → ℚ → Prop} (h : Trend R T) {cs : List Candle} {xs : List ℚ} (hx : Closes cs xs) (hp : xs.Pairwise R)
    (n : Nat) (h1 : 1 ≤ n) (h2 : n ≤ cs.length) :
    (∃ out ys, movingAverage FloatSem.exact (some cs) n = .ok out ∧ List.Forall₂ Fl.Is out ys ∧ ys.Pairwise R ∧
      List.Forall₂ T ys (xs.drop (n - 1))) ∧
    (∃ out ys, exponentialMovingAverage FloatSem.exact (some cs) n = .ok out ∧ List.Forall₂ Fl.Is out ys ∧ ys.Pairwise R ∧
      List.Forall₂ T ys (xs.drop n)) ∧
    (∃ out ys, smoothedMovingAverage FloatSem.exact (some cs) n = .ok out ∧ List.Forall₂ Fl.Is out ys ∧ ys.Pairwise R ∧
      List.Forall₂ T ys (xs.drop (n - 1))) := by
  have hl : n ≤ xs.length := hx.length ▸ h2
  obtain ⟨o1, e1, f1⟩ := ma_exact hx h1 h2
  obtain ⟨o2, e2, f2⟩ := ema_exact hx h1 h2
  obtain ⟨o3, e3, f3⟩ := smma_exact hx h1 h2
  exact ⟨⟨o1, _, e1, f1, maQ_trend h hp h1 hl⟩, ⟨o2, _, e2, f2, emaQ_trend h hp h1 hl⟩, ⟨o3, _, e3, f3, smmaQ_trend h hp h1 hl⟩⟩

/-- Values within `E` of values that do not fall, fall by at most `2 E`. -/
theorem near_pairwise {E : ℚ} {out : List Fl} {ys : List ℚ} (h : List.Forall₂ (fun y q => ∃ r, y.Is r ∧ |r - q| ≤ E) out ys)
    (hp : ys.Pairwise fun a b => a ≤ b) : out.Pairwise fun x y => ∃ r s, x.Is r ∧ y.Is s ∧ r ≤ s + 2 * E := by
  induction h with
  | nil => exact .nil
  | cons hx hl ih =>
    rw [List.pairwise_cons] at hp ⊢
    refine ⟨fun y hy => ?_, ih hp.2⟩
    obtain ⟨r, hr, hrE⟩ := hx
    obtain ⟨i, hi, rfl⟩ := List.mem_iff_getElem.1 hy
    obtain ⟨hlen, hget⟩ := List.forall₂_iff_get.1 hl
    obtain ⟨s, hs, hsE⟩ := hget i hi (hlen ▸ hi)
    have := hp.1 _ (List.getElem_mem (hlen ▸ hi))
    simp only [List.get_eq_getElem] at hs hsE
    rw [abs_le] at hrE hsE
    exact ⟨r, s, hr, hs, by linarith⟩

/-- **C266** In float64 the other averages of closes that do not fall may fall, but over any stretch by no more than a rounding error
that does not depend on the number of candles. -/
theorem C266_near_partial {cs : List Candle} {xs : List ℚ} (hx : Closes cs xs) (hr : FloatCloses cs) (hp : xs.Pairwise fun a b => a ≤ b)
    {n : Nat} (h1 : 1 ≤ n) (hn : n ≤ 2 ^ 47) (h2 : n ≤ cs.length) {M : ℚ} (hM : ∀ x ∈ xs, |x| ≤ M) (hbig : M ≤ 2 ^ (900 : ℤ)) :
    (∃ out, exponentialMovingAverage ieee (some cs) n = .ok out ∧
      out.Pairwise fun x y => ∃ r s, x.Is r ∧ y.Is s ∧ r ≤ s + 2 * ((n + 1) * (16 * 2 ^ (-53 : ℤ) * M + 4 * 2 ^ (-1075 : ℤ)))) ∧
    (∃ out, smoothedMovingAverage ieee (some cs) n = .ok out ∧
      out.Pairwise fun x y => ∃ r s, x.Is r ∧ y.Is s ∧ r ≤ s + 2 * (8 * n * (2 ^ (-53 : ℤ) * M + 2 ^ (-1075 : ℤ)))) := by
  have hl : n ≤ xs.length := hx.length ▸ h2
  obtain ⟨o1, e1, f1⟩ := C108_ema_accurate hx hr h1 hn h2 hM hbig
  obtain ⟨o2, e2, f2⟩ := C108_smma_accurate hx hr h1 hn h2 hM hbig
  exact ⟨⟨o1, e1, near_pairwise f1 (emaQ_trend .rises hp h1 hl).1⟩, ⟨o2, e2, near_pairwise f2 (smmaQ_trend .rises hp h1 hl).1⟩⟩

/-- Closes that are not negative and do not fall. -/
def Spec.CloseRises (cs : List Candle) : Prop :=
  (∀ c ∈ cs, Fl.le (.fin 0) c.close = true) ∧ cs.Pairwise fun c d => Fl.le c.close d.close = true

/-- **C266** MovingAverage never falls while the closes rise, and never rises while they fall, in float64 too. -/
theorem C266_ma_partial {S : FloatSem} (hS : Lawful S) (cs : List Candle) (n : Nat) (h1 : 1 ≤ n) (h2 : n ≤ cs.length) (h3 : n ≤ 2 ^ 53) :
    ∃ out, movingAverage S (some cs) n = .ok out ∧
      (CloseRises cs → out.Pairwise fun x y => Fl.le x y = true) ∧
      (CloseRises cs.reverse → out.Pairwise fun x y => Fl.le y x = true) := by
  refine ⟨_, movingAverage_ok S cs n h1 h2, fun ⟨h0, hp⟩ => ?_, fun ⟨h0, hp⟩ => ?_⟩
  · refine pairwise_range_map fun k k' hk hk' => ?_
    refine (average_mono hS ?_ (by simp; omega) (by simp; omega)).2
    unfold Raised
    rw [List.forall₂_iff_get]
    refine ⟨by simp; omega, fun i i1 i2 => ?_⟩
    simp only [List.get_eq_getElem, List.getElem_take, List.getElem_drop]
    exact ⟨h0 _ (List.getElem_mem _), List.pairwise_iff_getElem.1 hp _ _ _ _ (by omega)⟩
  · rw [List.pairwise_reverse] at hp
    refine pairwise_range_map fun k k' hk hk' => ?_
    refine (average_mono hS ?_ (by simp; omega) (by simp; omega)).2
    unfold Raised
    rw [List.forall₂_iff_get]
    refine ⟨by simp; omega, fun i i1 i2 => ?_⟩
    simp only [List.get_eq_getElem, List.getElem_take, List.getElem_drop]
    exact ⟨h0 _ (List.mem_reverse.2 (List.getElem_mem _)), List.pairwise_iff_getElem.1 hp _ _ _ _ (by omega)⟩

/-- The claim for float64: no average falls while the closes do not. -/
def Spec.C266_claim (f : FloatSem → Option (List Candle) → Int → Res (List Fl)) : Prop :=
  ∀ (cs : List Candle) (n : Nat) (out : List Fl), CloseRises cs → 1 ≤ n → n ≤ cs.length → f ieee (some cs) n = .ok out →
    out.Pairwise fun x y => Fl.le x y = true

/-- `n` candles that all close at the same price. -/
def flatCandles (x : ℚ) (n : Nat) : List Candle := List.replicate n ⟨0, .fin 1, .fin 1, .fin 1, .fin x, .fin 1⟩

theorem flat_rises {x : ℚ} (h : 0 ≤ x) (n : Nat) : CloseRises (flatCandles x n) := by
  refine ⟨fun c hc => ?_, ?_⟩
  · rw [List.eq_of_mem_replicate hc]; simpa using h
  · refine List.pairwise_replicate.2 (.inr ?_); simp

/-- **C266** is false of ExponentialMovingAverage and SmoothedMovingAverage in float64: with all closes 0.1 the first falls from
0.10000000000000002 to 0.1, with all closes 0.3 the second falls from 0.3 to 0.29999999999999993. -/
theorem C266_trend_violated : ¬ Spec.C266_claim exponentialMovingAverage ∧ ¬ Spec.C266_claim smoothedMovingAverage := by
  constructor
  · intro h
    have := h (flatCandles (3602879701896397 / 36028797018963968) 5) 3 [.fin (7205759403792795 / 72057594037927936), .fin (3602879701896397 / 36028797018963968)]
      (flat_rises (by norm_num) _) (by norm_num) (by decide) (by decide +kernel)
    revert this; decide +kernel
  · intro h
    have := h (flatCandles (5404319552844595 / 18014398509481984) 8) 7 [.fin (5404319552844595 / 18014398509481984), .fin (5404319552844594 / 18014398509481984)]
      (flat_rises (by norm_num) _) (by norm_num) (by decide) (by decide +kernel)
    revert this; decide +kernel

example : Closes [⟨0, .fin 1, .fin 1, .fin 1, .fin 1, .fin 1⟩, ⟨60, .fin 1, .fin 1, .fin 1, .fin 2, .fin 1⟩, ⟨120, .fin 1, .fin 1, .fin 1, .fin 4, .fin 1⟩] [1, 2, 4] ∧
    [(1 : ℚ), 2, 4].Pairwise (fun a b => a < b) ∧ Spec.Trend (fun a b => a < b) (fun a b => a ≤ b) ∧ CloseRises (flatCandles 3 4) ∧
    CloseRises (flatCandles 3 4).reverse ∧ FloatCloses (flatCandles 3 4) ∧ Closes (flatCandles 3 4) [3, 3, 3, 3] := by
  refine ⟨.cons (Fl.is_fin _) (.cons (Fl.is_fin _) (.cons (Fl.is_fin _) .nil)), by simp; norm_num, .risesStrictly, flat_rises (by norm_num) _, ?_,
    fun c hc => by rw [List.eq_of_mem_replicate hc]; intro q hq; cases hq; decide +kernel,
    .cons (Fl.is_fin _) (.cons (Fl.is_fin _) (.cons (Fl.is_fin _) (.cons (Fl.is_fin _) .nil)))⟩
  rw [flatCandles, List.reverse_replicate]; exact flat_rises (by norm_num) _

end Finmod
