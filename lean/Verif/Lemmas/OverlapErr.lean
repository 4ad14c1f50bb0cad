import Verif.Lemmas.FusedErr
import Verif.Props.BookOverlap

/-!
# Rounding errors of the loops of `overlapCalculation`
-/

namespace Finmod
open Go Spec FloatSem

/-- Prices and volumes are finite and not negative; volumes are float64. -/
structure Spec.FloatRow (r : Row) : Prop where
  price : r.price.isFinite = true
  volume : r.volume.isFinite = true
  rep : ieee.Rep r.volume
  price_nonneg : 0 ≤ r.price.toRat
  volume_nonneg : 0 ≤ r.volume.toRat

theorem addMul_near (k : Bool) {acc x y : Fl} {s a b : ℚ} (hs : IsF acc s) (hx : x.Is a) (hy : y.Is b)
    (hbig : |s| + 2 * |a * b| + 1 ≤ huge) :
    ∃ r, IsF (ieee.addMul k acc x y) r ∧ |r - (s + a * b)| ≤ uR * |s| + 3 * (uR * |a * b|) + 2 * tiny := by
  have hu := uR_nonneg
  have hus := uR_small
  have ht := tiny_nonneg
  have ht1 := tiny_small
  have s0 := abs_nonneg s
  have m0 := abs_nonneg (a * b)
  have us := mul_nonneg hu s0
  have um := mul_nonneg hu m0
  have um' : uR * |a * b| ≤ 1 / 1000000000000000 * |a * b| := mul_le_mul_of_nonneg_right hus m0
  have ut' : uR * tiny ≤ 1 / 1000000000000000 * tiny := mul_le_mul_of_nonneg_right hus ht
  cases k with
  | true =>
    have h1 := abs_add_le s (a * b)
    obtain ⟨r, hr, he⟩ := fma_near hx hy hs.1 (by rw [add_comm]; linarith)
    rw [add_comm (a * b)] at he
    have := mul_le_mul_of_nonneg_left h1 hu
    exact ⟨r, hr, by linarith⟩
  | false =>
    obtain ⟨m, hm, em⟩ := mul_near hx hy (by linarith)
    have h1 := abs_add_le (m - a * b) (a * b)
    rw [sub_add_cancel] at h1
    have h2 := abs_add_le s m
    obtain ⟨r, hr, er⟩ := add_near hs hm (by linarith)
    refine ⟨r, hr, ?_⟩
    have h3 := abs_add_le (r - (s + m)) (m - a * b)
    rw [show r - (s + m) + (m - a * b) = r - (s + a * b) by ring] at h3
    have h4 := mul_le_mul_of_nonneg_left h2 hu
    have h5 : uR * |m| ≤ uR * (uR * |a * b| + tiny + |a * b|) := mul_le_mul_of_nonneg_left (by linarith) hu
    have h6 : uR * (uR * |a * b|) ≤ 1 / 1000000000000000 * (uR * |a * b|) := mul_le_mul_of_nonneg_right hus um
    linarith

/-- The counts of rows considered: up to 2^40. -/
theorem count_uR {k : ℚ} (hk : k ≤ 2 ^ 40) : 4 * k * uR ≤ 1 / 1000 := by
  have hus : uR = 1 / 2 ^ 53 := by rw [uR_eq]; norm_num
  rw [hus]
  have e : 4 * (2 : ℚ) ^ 40 * (1 / 2 ^ 53) ≤ 1 / 1000 := by norm_num
  have := mul_le_mul_of_nonneg_right hk (by norm_num : (0 : ℚ) ≤ 4 * (1 / 2 ^ 53))
  linarith

theorem count_tiny {k : ℚ} (hk : k ≤ 2 ^ 40) : 4 * k * tiny ≤ 1 / 1000 := by
  have ht := tiny_nonneg
  have : tiny ≤ 1 / 2 ^ 60 := by
    rw [tiny_eq, show (1 : ℚ) / 2 ^ 60 = 2 ^ (-60 : ℤ) by norm_num]
    exact zpow_le_zpow_right₀ (by norm_num) (by norm_num)
  have h1 := mul_le_mul_of_nonneg_right hk ht
  have e : 4 * ((2 : ℚ) ^ 40 * (1 / 2 ^ 60)) ≤ 1 / 1000 := by norm_num
  have h2 := mul_le_mul_of_nonneg_left this (by norm_num : (0 : ℚ) ≤ 2 ^ 40)
  linarith

theorem cost_nonneg {rows : List Row} (h : ∀ r ∈ rows, FloatRow r) : 0 ≤ cost rows := by
  refine List.sum_nonneg ?_
  intro q hq
  obtain ⟨r, hr, rfl⟩ := List.mem_map.1 hq
  exact mul_nonneg (h r hr).price_nonneg (h r hr).volume_nonneg

theorem costF_near_aux (f : Nat → Bool) {rows : List Row} (h : ∀ r ∈ rows, FloatRow r) :
    ∀ (i : Nat) (acc : Fl) (k s t : ℚ), IsF acc s → 0 ≤ k → 0 ≤ t → |s - t| ≤ 4 * k * (uR * t + tiny) →
      k + rows.length ≤ 2 ^ 40 → 2 * (t + cost rows) + 2 ≤ huge →
      ∃ r, IsF (overlapCostF ieee f rows i acc) r ∧
        |r - (t + cost rows)| ≤ 4 * (k + rows.length) * (uR * (t + cost rows) + tiny) := by
  induction rows with
  | nil => intro i acc k s t hs _ _ he _ _; exact ⟨s, hs, by simpa [cost] using he⟩
  | cons r rs ih =>
    intro i acc k s t hs hk ht he hn hbig
    have hr := h r (by simp)
    have hrs : ∀ r ∈ rs, FloatRow r := fun x hx => h x (by simp [hx])
    have hc := cost_nonneg hrs
    have hu := uR_nonneg
    have hti := tiny_nonneg
    have hlen : (0 : ℚ) ≤ rs.length := Nat.cast_nonneg _
    simp only [List.length_cons] at hn ⊢
    push_cast at hn ⊢
    have ec : cost (r :: rs) = r.price.toRat * r.volume.toRat + cost rs := by simp [cost]
    rw [ec] at hbig ⊢
    have hm : 0 ≤ r.price.toRat * r.volume.toRat := mul_nonneg hr.price_nonneg hr.volume_nonneg
    have c1 := count_uR (k := k) (by linarith)
    have c2 := count_tiny (k := k) (by linarith)
    have hE : 4 * k * (uR * t + tiny) = 4 * k * uR * t + 4 * k * tiny := by ring
    have hE1 : 4 * k * uR * t ≤ 1 / 1000 * t := mul_le_mul_of_nonneg_right c1 ht
    have hsb := abs_add_le (s - t) t
    rw [sub_add_cancel, abs_of_nonneg ht] at hsb
    obtain ⟨s', hs', e'⟩ := addMul_near (f i) hs (Fl.isFinite_is hr.price) (Fl.isFinite_is hr.volume) (by
      rw [abs_of_nonneg hm]; linarith)
    rw [abs_of_nonneg hm] at e'
    generalize r.price.toRat * r.volume.toRat = m at *
    have step : |s' - (t + m)| ≤ 4 * (k + 1) * (uR * (t + m) + tiny) := by
      have h1 := abs_add_le (s' - (s + m)) (s - t)
      rw [show s' - (s + m) + (s - t) = s' - (t + m) by ring] at h1
      have h2 := mul_le_mul_of_nonneg_left hsb hu
      have h3 := mul_le_mul_of_nonneg_left he hu
      have h4 : uR * (4 * k * (uR * t + tiny)) = 4 * k * uR * (uR * t) + 4 * k * uR * tiny := by ring
      have h5 : 4 * k * uR * (uR * t) ≤ 1 / 1000 * (uR * t) := mul_le_mul_of_nonneg_right c1 (mul_nonneg hu ht)
      have h6 : 4 * k * uR * tiny ≤ 1 / 1000 * tiny := mul_le_mul_of_nonneg_right c1 hti
      have h7 : 4 * (k + 1) * (uR * (t + m) + tiny) =
        4 * k * (uR * t + tiny) + 4 * k * (uR * m) + 4 * (uR * t) + 4 * (uR * m) + 4 * tiny := by ring
      have h8 := mul_nonneg hu hm
      have h9 := mul_nonneg hk h8
      have h10 := mul_nonneg hu ht
      linarith
    obtain ⟨q, hq, eq⟩ := ih hrs (i + 1) _ (k + 1) s' (t + m) hs' (by linarith) (by linarith) step (by linarith)
      (by linarith)
    refine ⟨q, hq, ?_⟩
    rw [show t + (m + cost rs) = t + m + cost rs by ring, show k + ((rs.length : ℚ) + 1) = k + 1 + rs.length by ring]
    exact eq

theorem costF_near (f : Nat → Bool) {rows : List Row} (h : ∀ r ∈ rows, FloatRow r) (i : Nat)
    (hn : (rows.length : ℚ) ≤ 2 ^ 40) (hbig : 2 * cost rows + 2 ≤ huge) :
    ∃ r, IsF (overlapCostF ieee f rows i (.fin 0)) r ∧
      |r - cost rows| ≤ 4 * rows.length * (uR * cost rows + tiny) := by
  have := costF_near_aux f h i (.fin 0) 0 0 0 isF_zero le_rfl le_rfl (by simp) (by simpa using hn) (by simpa using hbig)
  simpa using this

/-- Where the loop over the bids stops. -/
theorem fillF_split (S : FloatSem) (f : Nat → Bool) (target : Fl) (rows : List Row) (i : Nat) (vol res : Fl) :
    ∃ l1 l2, rows = l1 ++ l2 ∧ (l1 ≠ [] → Fl.gt ((l1.map (·.volume)).foldl S.add vol) target = false) ∧
      ((l2 = [] ∧ overlapFillF S f target rows i vol res = overlapCostF S f l1 i res) ∨
       ∃ r rs k, l2 = r :: rs ∧ Fl.gt (S.add ((l1.map (·.volume)).foldl S.add vol) r.volume) target = true ∧
         overlapFillF S f target rows i vol res = S.addMul k (overlapCostF S f l1 i res)
           (S.sub target ((l1.map (·.volume)).foldl S.add vol)) r.price) := by
  induction rows generalizing i vol res with
  | nil => exact ⟨[], [], rfl, by simp, .inl ⟨rfl, rfl⟩⟩
  | cons r rs ih =>
    by_cases h : Fl.gt (S.add vol r.volume) target = true
    · refine ⟨[], r :: rs, rfl, by simp, .inr ⟨r, rs, f i, rfl, h, ?_⟩⟩
      unfold overlapFillF
      rw [if_pos h]
      rfl
    · obtain ⟨l1, l2, e1, e2, e3⟩ := ih (i + 1) (S.add vol r.volume) (S.addMul (f i) res r.price r.volume)
      have e : overlapFillF S f target (r :: rs) i vol res =
          overlapFillF S f target rs (i + 1) (S.add vol r.volume) (S.addMul (f i) res r.price r.volume) := by
        rw [overlapFillF, if_neg h]
      refine ⟨r :: l1, l2, by rw [e1]; rfl, ?_, ?_⟩
      · intro _
        cases l1 with
        | nil => simpa using h
        | cons a as => exact e2 (by simp)
      · rw [e]; exact e3

/-! ### The proceeds -/

/-- Total volume. -/
def Spec.volumes (rows : List Row) : ℚ := (rows.map (·.volume.toRat)).sum

theorem volumes_nonneg {rows : List Row} (h : ∀ r ∈ rows, FloatRow r) : 0 ≤ volumes rows := by
  refine List.sum_nonneg ?_
  intro q hq
  obtain ⟨r, hr, rfl⟩ := List.mem_map.1 hq
  exact (h r hr).volume_nonneg

theorem volumes_append (a b : List Row) : volumes (a ++ b) = volumes a + volumes b := by
  simp [volumes]

theorem cost_le {rows : List Row} {P : ℚ} (h : ∀ r ∈ rows, FloatRow r) (hP : ∀ r ∈ rows, r.price.toRat ≤ P) :
    cost rows ≤ P * volumes rows := by
  induction rows with
  | nil => simp [cost, volumes]
  | cons r rs ih =>
    have h1 := ih (fun x hx => h x (by simp [hx])) (fun x hx => hP x (by simp [hx]))
    have h2 := mul_le_mul_of_nonneg_right (hP r (by simp)) (h r (by simp)).volume_nonneg
    simp only [cost, volumes, List.map_cons, List.sum_cons, mul_add] at h1 ⊢
    linarith

theorem proceeds_append (a b : List Row) (v : ℚ) :
    proceeds v (a ++ b) = proceeds v a + proceeds (v - volumes a) b := by
  induction a generalizing v with
  | nil => simp [proceeds, volumes]
  | cons r rs ih =>
    simp only [List.cons_append, proceeds, ih, volumes, List.map_cons, List.sum_cons]
    rw [add_assoc, sub_sub]

theorem proceeds_bounds {rows : List Row} {P : ℚ} (h : ∀ r ∈ rows, FloatRow r)
    (hP : ∀ r ∈ rows, r.price.toRat ≤ P) (hP0 : 0 ≤ P) (v : ℚ) :
    0 ≤ proceeds v rows ∧ proceeds v rows ≤ P * max 0 v := by
  induction rows generalizing v with
  | nil => simp only [proceeds]; exact ⟨le_rfl, mul_nonneg hP0 (le_max_left _ _)⟩
  | cons r rs ih =>
    obtain ⟨h1, h2⟩ := ih (fun x hx => h x (by simp [hx])) (fun x hx => hP x (by simp [hx])) (v - r.volume.toRat)
    have hr := h r (by simp)
    have hrP := hP r (by simp)
    have v0 := hr.volume_nonneg
    unfold proceeds
    have h3 : 0 ≤ min r.volume.toRat (max 0 v) := le_min v0 (le_max_left _ _)
    refine ⟨add_nonneg (mul_nonneg hr.price_nonneg h3) h1, ?_⟩
    have h4 := mul_le_mul_of_nonneg_right hrP h3
    have h5 : min r.volume.toRat (max 0 v) + max 0 (v - r.volume.toRat) = max 0 v := by
      rcases le_total v 0 with a | a
      · rw [max_eq_left a, min_eq_right v0, max_eq_left (by linarith)]; ring
      · rw [max_eq_right a]
        rcases le_total v r.volume.toRat with b | b
        · rw [min_eq_right b, max_eq_left (by linarith)]; ring
        · rw [min_eq_left b, max_eq_right (by linarith)]; ring
    have h6 : P * max 0 v = P * min r.volume.toRat (max 0 v) + P * max 0 (v - r.volume.toRat) := by
      rw [← mul_add, h5]
    linarith

/-- Rows taken in full although a little less was wanted. -/
theorem cost_sub_proceeds {rows : List Row} {P : ℚ} (h : ∀ r ∈ rows, FloatRow r)
    (hP : ∀ r ∈ rows, r.price.toRat ≤ P) (hP0 : 0 ≤ P) (v : ℚ) (hv : 0 ≤ v) :
    0 ≤ cost rows - proceeds v rows ∧ cost rows - proceeds v rows ≤ P * max 0 (volumes rows - v) := by
  induction rows generalizing v with
  | nil => simp only [proceeds, cost, List.map_nil, List.sum_nil, sub_self]; exact ⟨le_rfl, mul_nonneg hP0 (le_max_left _ _)⟩
  | cons r rs ih =>
    have hr := h r (by simp)
    have hrP := hP r (by simp)
    have v0 := hr.volume_nonneg
    have hrs : ∀ r ∈ rs, FloatRow r := fun x hx => h x (by simp [hx])
    have hPs : ∀ r ∈ rs, r.price.toRat ≤ P := fun x hx => hP x (by simp [hx])
    have ec : cost (r :: rs) = r.price.toRat * r.volume.toRat + cost rs := by simp [cost]
    have ev : volumes (r :: rs) = r.volume.toRat + volumes rs := by simp [volumes]
    unfold proceeds
    rw [ec, ev, max_eq_right hv]
    have W0 := volumes_nonneg hrs
    rcases le_total r.volume.toRat v with b | b
    · obtain ⟨h1, h2⟩ := ih hrs hPs (v - r.volume.toRat) (by linarith)
      rw [min_eq_left b]
      have e : volumes rs - (v - r.volume.toRat) = r.volume.toRat + volumes rs - v := by ring
      rw [e] at h2
      exact ⟨by linarith, by linarith⟩
    · rw [min_eq_right b, proceeds_nonpos (fun x hx => (hrs x hx).volume_nonneg) (by linarith)]
      have h1 : 0 ≤ r.price.toRat * (r.volume.toRat - v) := mul_nonneg hr.price_nonneg (by linarith)
      have h2 := mul_le_mul_of_nonneg_right hrP (by linarith : 0 ≤ r.volume.toRat - v)
      have h3 := cost_le hrs hPs
      have h4 := cost_nonneg hrs
      rw [max_eq_right (by linarith)]
      exact ⟨by linarith, by linarith⟩

/-- The last level taken in part. -/
theorem part_sub_proceeds {r : Row} {rs : List Row} {P d : ℚ} (h : ∀ x ∈ r :: rs, FloatRow x)
    (hP : ∀ x ∈ r :: rs, x.price.toRat ≤ P) (x : ℚ) (hd : 0 ≤ d) (h1 : -d ≤ x) (h2 : x - r.volume.toRat ≤ d) :
    |r.price.toRat * x - proceeds x (r :: rs)| ≤ P * d := by
  have hr := h r (by simp)
  have hrP := hP r (by simp)
  have p0 := hr.price_nonneg
  have v0 := hr.volume_nonneg
  have hP0 : 0 ≤ P := p0.trans hrP
  have hrs : ∀ r ∈ rs, FloatRow r := fun x hx => h x (by simp [hx])
  have hPs : ∀ r ∈ rs, r.price.toRat ≤ P := fun x hx => hP x (by simp [hx])
  unfold proceeds
  rcases le_total x 0 with a | a
  · rw [max_eq_left a, min_eq_right v0, proceeds_nonpos (fun x hx => (hrs x hx).volume_nonneg) (by linarith)]
    rw [mul_zero, add_zero, sub_zero, abs_mul, abs_of_nonneg p0, abs_of_nonpos a]
    exact (mul_le_mul_of_nonneg_right hrP (by linarith)).trans (mul_le_mul_of_nonneg_left (by linarith) hP0)
  · rw [max_eq_right a]
    rcases le_total x r.volume.toRat with b | b
    · rw [min_eq_right b, proceeds_nonpos (fun x hx => (hrs x hx).volume_nonneg) (by linarith)]
      rw [add_zero, sub_self, abs_zero]
      exact mul_nonneg hP0 hd
    · obtain ⟨q1, q2⟩ := proceeds_bounds hrs hPs hP0 (x - r.volume.toRat)
      rw [max_eq_right (by linarith)] at q2
      rw [min_eq_left b]
      have e : r.price.toRat * x - (r.price.toRat * r.volume.toRat + proceeds (x - r.volume.toRat) rs) =
        r.price.toRat * (x - r.volume.toRat) - proceeds (x - r.volume.toRat) rs := by ring
      rw [e]
      have c1 := mul_nonneg p0 (by linarith : 0 ≤ x - r.volume.toRat)
      have c2 := mul_le_mul_of_nonneg_right hrP (by linarith : 0 ≤ x - r.volume.toRat)
      have c3 := mul_le_mul_of_nonneg_left h2 hP0
      rw [abs_le]
      exact ⟨by linarith, by linarith⟩

theorem volumes_isF {rows : List Row} (h : ∀ r ∈ rows, FloatRow r) :
    List.Forall₂ IsF (rows.map (·.volume)) (rows.map (·.volume.toRat)) := by
  rw [List.forall₂_map_left_iff, List.forall₂_map_right_iff, List.forall₂_same]
  intro r hr
  exact isF_of_rep (Fl.isFinite_is (h r hr).volume) (h r hr).rep

theorem volumes_near {rows : List Row} (h : ∀ r ∈ rows, FloatRow r) (hn : (rows.length : ℚ) ≤ 2 ^ 40)
    (hb : 2 * volumes rows ≤ huge) :
    ∃ r, IsF ((rows.map (·.volume)).foldl ieee.add (.fin 0)) r ∧
      |r - volumes rows| ≤ 2 * rows.length * uR * volumes rows := by
  have habs : ((rows.map (·.volume.toRat)).map abs).sum = volumes rows := by
    rw [List.map_map]
    refine congrArg List.sum (List.map_congr_left ?_)
    intro r hr
    exact abs_of_nonneg (h r hr).volume_nonneg
  have c := count_uR hn
  have := sum_near (volumes_isF h) (by rw [List.length_map]; linarith) (by rw [habs]; exact hb)
  rw [habs, List.length_map] at this
  exact this

/-- The loop over the bids. -/
theorem fillF_near (f : Nat → Bool) {rows : List Row} {target : Fl} {t T eT n P W : ℚ}
    (h : ∀ r ∈ rows, FloatRow r) (hP : ∀ r ∈ rows, r.price.toRat ≤ P) (hP0 : 0 ≤ P)
    (ht : IsF target t) (ht0 : 0 ≤ t) (hT0 : 0 ≤ T) (hTW : T ≤ W) (htT : |t - T| ≤ eT)
    (hn : n ≤ 2 ^ 40) (hln : (rows.length : ℚ) ≤ n) (hW : volumes rows ≤ W)
    (he : eT + 2 * rows.length * uR * volumes rows ≤ 2 * n * uR * W)
    (hb1 : 8 * W ≤ huge) (hb2 : 8 * (P * W) + 8 ≤ huge) :
    ∃ r, IsF (overlapFillF ieee f target rows 0 (.fin 0) (.fin 0)) r ∧
      |r - proceeds T rows| ≤ (10 * n + 16) * (uR * (P * W) + tiny) := by
  have hu := uR_nonneg
  have hus := uR_small
  have hti := tiny_nonneg
  obtain ⟨l1, l2, e1, e2, e3⟩ := fillF_split ieee f target rows 0 (.fin 0) (.fin 0)
  have hl1 : ∀ r ∈ l1, FloatRow r := fun r hr => h r (by rw [e1]; simp [hr])
  have hl2 : ∀ r ∈ l2, FloatRow r := fun r hr => h r (by rw [e1]; simp [hr])
  have hP1 : ∀ r ∈ l1, r.price.toRat ≤ P := fun r hr => hP r (by rw [e1]; simp [hr])
  have hP2 : ∀ r ∈ l2, r.price.toRat ≤ P := fun r hr => hP r (by rw [e1]; simp [hr])
  have hlen : (l1.length : ℚ) ≤ rows.length := by rw [e1, List.length_append]; push_cast; simp
  have ev : volumes rows = volumes l1 + volumes l2 := by rw [e1, volumes_append]
  have V1 := volumes_nonneg hl1
  have V2 := volumes_nonneg hl2
  have V0 : 0 ≤ volumes rows := by linarith
  have hn0 : 0 ≤ n := (Nat.cast_nonneg _).trans hln
  have W0 : 0 ≤ W := by linarith
  have PW0 := mul_nonneg hP0 W0
  have uPW := mul_nonneg hu PW0
  obtain ⟨v, hv, hve⟩ := volumes_near hl1 (by linarith) (by linarith)
  have hc1 : cost l1 ≤ P * W := (cost_le hl1 hP1).trans (mul_le_mul_of_nonneg_left (by linarith) hP0)
  have hc0 := cost_nonneg hl1
  obtain ⟨s, hs, hse⟩ := costF_near f hl1 0 (by linarith) (by linarith)
  have cn := count_uR hn
  have cnt := count_tiny hn
  -- the volume so far
  have hve' : |v - volumes l1| ≤ 2 * rows.length * uR * volumes rows := hve.trans
    (mul_le_mul (mul_le_mul_of_nonneg_right (by linarith) hu) (by linarith) V1
      (mul_nonneg (by linarith [Nat.cast_nonneg (α := ℚ) rows.length]) hu))
  set evv := 2 * (rows.length : ℚ) * uR * volumes rows
  have eT0 : 0 ≤ eT := (abs_nonneg _).trans htT
  have ev0 : 0 ≤ evv := (abs_nonneg _).trans hve'
  set e := 2 * n * uR * W with hedef
  have e0 : 0 ≤ e := by linarith
  have eW : e ≤ 1 / 2000 * W := by
    have := mul_le_mul_of_nonneg_right cn W0
    rw [hedef]; linarith
  have Pe : P * e = 2 * n * (uR * (P * W)) := by rw [hedef]; ring
  have hvt : v ≤ t := by
    by_cases hnil : l1 = []
    · subst hnil
      have : v = 0 := Fl.Is.unique hv.1 (Fl.is_fin 0)
      rw [this]; exact ht0
    · have := e2 hnil
      change Fl.lt target _ = false at this
      rw [ht.1.lt hv.1] at this
      simpa using this
  have t1 := abs_le.1 htT
  have v1 := abs_le.1 hve'
  have hpT : volumes l1 ≤ T + e := by linarith
  have hsP : |s - cost l1| ≤ 4 * n * (uR * (P * W) + tiny) := hse.trans
    (mul_le_mul (by linarith) (by linarith [mul_le_mul_of_nonneg_left hc1 hu]) (by linarith [mul_nonneg hu hc0])
      (by linarith))
  obtain ⟨k1, k2⟩ := cost_sub_proceeds hl1 hP1 hP0 T hT0
  have k3 : P * max 0 (volumes l1 - T) ≤ P * e :=
    mul_le_mul_of_nonneg_left (max_le e0 (by linarith)) hP0
  have epr : proceeds T rows = proceeds T l1 + proceeds (T - volumes l1) l2 := by rw [e1, proceeds_append]
  have nG : 0 ≤ n * (uR * (P * W)) := mul_nonneg hn0 uPW
  have nt : 0 ≤ n * tiny := mul_nonneg hn0 hti
  have fin : (10 * n + 16) * (uR * (P * W) + tiny) =
    10 * (n * (uR * (P * W))) + 16 * (uR * (P * W)) + 10 * (n * tiny) + 16 * tiny := by ring
  have e4 : 4 * n * (uR * (P * W) + tiny) = 4 * (n * (uR * (P * W))) + 4 * (n * tiny) := by ring
  rw [e4] at hsP
  have hsP' := abs_le.1 hsP
  rcases e3 with ⟨rfl, e3⟩ | ⟨r, rs, k, rfl, e5, e3⟩
  · refine ⟨s, by rw [e3]; exact hs, ?_⟩
    rw [epr, fin]
    simp only [proceeds, add_zero]
    rw [abs_le]
    exact ⟨by linarith, by linarith⟩
  · have hr := hl2 r (by simp)
    have hrP := hP2 r (by simp)
    have vr0 := hr.volume_nonneg
    have hrs0 : 0 ≤ volumes rs := volumes_nonneg (fun x hx => hl2 x (by simp [hx]))
    have ev2 : volumes (r :: rs) = r.volume.toRat + volumes rs := by simp [volumes]
    rw [ev2] at ev V2
    have hvv : IsF r.volume r.volume.toRat := isF_of_rep (Fl.isFinite_is hr.volume) hr.rep
    have hvabs : |v + r.volume.toRat| ≤ 2 * W := by
      rw [abs_le]; exact ⟨by linarith, by linarith⟩
    obtain ⟨a, ha, hae⟩ := add_near hv hvv (by linarith)
    change Fl.lt target _ = true at e5
    rw [ht.1.lt ha.1] at e5
    have hat : t < a := by simpa using e5
    have hae' := abs_le.1 (hae.trans (mul_le_mul_of_nonneg_left hvabs hu))
    set x := T - volumes l1 with hx
    have uW : 0 ≤ uR * W := mul_nonneg hu W0
    have x1 : -(e + 2 * (uR * W)) ≤ x := by linarith
    have x2 : x - r.volume.toRat ≤ e + 2 * (uR * W) := by linarith
    have part := part_sub_proceeds hl2 hP2 x (by linarith) x1 x2
    have htv : |t - v| ≤ 2 * W := by
      rw [abs_le]; exact ⟨by linarith, by linarith⟩
    obtain ⟨w, hw, hwe⟩ := sub_near ht hv (by linarith)
    have hwe' := abs_le.1 (hwe.trans (mul_le_mul_of_nonneg_left htv hu))
    have hwx : |w - x| ≤ e + 2 * (uR * W) := by
      rw [abs_le]; exact ⟨by linarith, by linarith⟩
    have uWs : uR * W ≤ 1 / 1000000000000000 * W := mul_le_mul_of_nonneg_right hus W0
    have hwW : |w| ≤ 3 * W := by
      have hwx' := abs_le.1 hwx
      rw [abs_le]; exact ⟨by linarith, by linarith⟩
    have hwp : |w * r.price.toRat| ≤ 3 * (P * W) := by
      rw [abs_mul, abs_of_nonneg hr.price_nonneg]
      have := mul_le_mul hwW hrP hr.price_nonneg (by linarith)
      linarith
    have nu : n * (uR * (P * W)) ≤ 1 / 4000 * (P * W) := by
      have := mul_le_mul_of_nonneg_right cn PW0
      linarith
    have hs2 : |s| ≤ 2 * (P * W) + 1 := by
      rw [abs_le]; exact ⟨by linarith, by linarith⟩
    have hs3 : |s| ≤ 2 * (P * W) + 4 * (n * tiny) := by
      rw [abs_le]; exact ⟨by linarith, by linarith⟩
    obtain ⟨q, hq, hqe⟩ := addMul_near k hs hw.1 (Fl.isFinite_is hr.price) (by linarith)
    refine ⟨q, by rw [e3]; exact hq, ?_⟩
    have c1 : uR * |s| ≤ 2 * (uR * (P * W)) + tiny := by
      have a1 := mul_le_mul_of_nonneg_left hs3 hu
      have a2 : uR * (2 * (P * W) + 4 * (n * tiny)) = 2 * (uR * (P * W)) + 4 * n * uR * tiny := by ring
      have a3 := mul_le_mul_of_nonneg_right cn hti
      linarith
    have c2 := mul_le_mul_of_nonneg_left hwp hu
    have c3 : |w * r.price.toRat - r.price.toRat * x| ≤ P * (e + 2 * (uR * W)) := by
      rw [show w * r.price.toRat - r.price.toRat * x = r.price.toRat * (w - x) by ring, abs_mul,
        abs_of_nonneg hr.price_nonneg]
      exact mul_le_mul hrP hwx (abs_nonneg _) hP0
    have c4 : P * (e + 2 * (uR * W)) = P * e + 2 * (uR * (P * W)) := by ring
    rw [c4] at c3 part
    have c3' := abs_le.1 c3
    have part' := abs_le.1 part
    have hqe' := abs_le.1 hqe
    rw [epr, fin, abs_le]
    exact ⟨by linarith, by linarith⟩

end Finmod
