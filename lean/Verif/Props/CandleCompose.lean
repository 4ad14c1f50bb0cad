import Mathlib.Tactic.Order
import Verif.Props.CandleRegular

/-!
# C33: resampling in two steps
-/

namespace Finmod
open Go Spec

/-- Summary of a non-empty group of grid-volume candles, as a total function. -/
def sumC (g : List Candle) : Candle :=
  match g.head?, g.getLast? with
  | some f, some l =>
    ⟨f.time, f.opn, highLoop (minHigh FloatSem.exact) g, lowLoop (maxLow FloatSem.exact) g, l.close,
      volumeLoop FloatSem.exact (.fin 0) g⟩
  | _, _ => ⟨0, .fin 0, .fin 0, .fin 0, .fin 0, .fin 0⟩

theorem sumC_eq {g : List Candle} (h : g ≠ []) : sumC g =
    ⟨(g.head h).time, (g.head h).opn, highLoop (minHigh FloatSem.exact) g,
      lowLoop (maxLow FloatSem.exact) g, (g.getLast h).close, volumeLoop FloatSem.exact (.fin 0) g⟩ := by
  simp [sumC, List.head?_eq_some_head h, List.getLast?_eq_some_getLast h]

theorem compressGroup_grid {g : List Candle} (h : g ≠ []) (hg : ∀ c ∈ g, OnGrid c) :
    compressGroup FloatSem.exact g = .ok (sumC g) := by
  obtain ⟨k, hk⟩ := grid_sum hg 0
  simp only [Int.cast_zero, zero_div] at hk
  rw [sumC_eq h, compressGroup, List.head?_eq_some_head h, List.getLast?_eq_some_getLast h]
  simp only [hk, fixed5_grid]

theorem pickMax_assoc {a x h : Fl} (ha : a ≠ .nan) (hx : x ≠ .nan) :
    (if Fl.gt (if Fl.gt h x then h else x) a then (if Fl.gt h x then h else x) else a) =
      (if Fl.gt h (if Fl.gt x a then x else a) then h else (if Fl.gt x a then x else a)) := by
  by_cases hh : h = .nan
  · subst hh; simp [Fl.gt, Fl.lt, Fl.isNaN]
  · simp only [Fl.gt]
    by_cases h1 : Fl.lt x h = true <;> by_cases h2 : Fl.lt a x = true <;> by_cases h3 : Fl.lt a h = true <;>
      simp only [h1, h2, h3, if_true, if_false, Bool.false_eq_true]
    · exfalso
      rw [Fl.lt_iff] at h1 h2
      exact h3 (Fl.lt_iff.2 ⟨ha, hh, h2.2.2.trans h1.2.2⟩)
    · exfalso
      rw [Fl.lt_iff] at h1 h2 h3
      simp only [not_and, ha, hx, hh, ne_eq, not_false_eq_true, forall_const] at h1 h2
      exact absurd h3.2.2 (not_lt.2 ((not_lt.1 h1).trans (not_lt.1 h2)))

theorem highLoop_assoc {a x : Fl} (ha : a ≠ .nan) (hx : x ≠ .nan) (g : List Candle) :
    (if Fl.gt (highLoop x g) a then highLoop x g else a) =
      highLoop (if Fl.gt x a then x else a) g := by
  induction g generalizing x with
  | nil => rfl
  | cons v g ih =>
    simp only [highLoop]
    rw [← pickMax_assoc ha hx]
    apply ih
    split
    · rename_i h; exact (Fl.lt_iff.1 h).2.1
    · exact hx

theorem pickMin_assoc {a x h : Fl} (ha : a ≠ .nan) (hx : x ≠ .nan) :
    (if Fl.lt (if Fl.lt h x then h else x) a then (if Fl.lt h x then h else x) else a) =
      (if Fl.lt h (if Fl.lt x a then x else a) then h else (if Fl.lt x a then x else a)) := by
  by_cases hh : h = .nan
  · subst hh; simp [Fl.lt, Fl.isNaN]
  · by_cases h1 : Fl.lt h x = true <;> by_cases h2 : Fl.lt x a = true <;> by_cases h3 : Fl.lt h a = true <;>
      simp only [h1, h2, h3, if_true, if_false, Bool.false_eq_true]
    · exfalso
      rw [Fl.lt_iff] at h1 h2
      exact h3 (Fl.lt_iff.2 ⟨hh, ha, h1.2.2.trans h2.2.2⟩)
    · exfalso
      rw [Fl.lt_iff] at h1 h2 h3
      simp only [not_and, ha, hx, hh, ne_eq, not_false_eq_true, forall_const] at h1 h2
      exact absurd h3.2.2 (not_lt.2 ((not_lt.1 h2).trans (not_lt.1 h1)))

theorem lowLoop_assoc {a x : Fl} (ha : a ≠ .nan) (hx : x ≠ .nan) (g : List Candle) :
    (if Fl.lt (lowLoop x g) a then lowLoop x g else a) =
      lowLoop (if Fl.lt x a then x else a) g := by
  induction g generalizing x with
  | nil => rfl
  | cons v g ih =>
    simp only [lowLoop]
    rw [← pickMin_assoc ha hx]
    apply ih
    split
    · rename_i h; exact (Fl.lt_iff.1 h).1
    · exact hx

theorem highLoop_append (acc : Fl) (g h : List Candle) :
    highLoop acc (g ++ h) = highLoop (highLoop acc g) h := by
  induction g generalizing acc with
  | nil => rfl
  | cons v g ih => simp [highLoop, ih]

theorem lowLoop_append (acc : Fl) (g h : List Candle) :
    lowLoop acc (g ++ h) = lowLoop (lowLoop acc g) h := by
  induction g generalizing acc with
  | nil => rfl
  | cons v g ih => simp [lowLoop, ih]

theorem volumeLoop_append (S : FloatSem) (acc : Fl) (g h : List Candle) :
    volumeLoop S acc (g ++ h) = volumeLoop S (volumeLoop S acc g) h := by
  induction g generalizing acc with
  | nil => rfl
  | cons v g ih => simp [volumeLoop, ih]

theorem volumeLoop_grid {g : List Candle} (hg : ∀ c ∈ g, OnGrid c) (q : ℚ) :
    volumeLoop FloatSem.exact (.fin q) g = .fin (q + totalVolume g) := by
  induction g generalizing q with
  | nil => simp [volumeLoop, totalVolume]
  | cons c g ih =>
    obtain ⟨n, hn⟩ := hg c (by simp)
    have : FloatSem.exact.add (.fin q) c.volume = .fin (q + c.volume.toRat) := by
      rw [hn]; rfl
    simp only [volumeLoop, this]
    rw [ih (fun c hc => hg c (by simp [hc]))]
    simp [totalVolume, add_assoc]

/-- Summaries of consecutive groups summarise to the summary of the whole. -/
theorem high_concat (Gs : List (List Candle)) (hne : ∀ g ∈ Gs, g ≠ []) (acc : Fl)
    (ha : acc ≠ .nan) (hge : (minHigh FloatSem.exact).key ≤ acc.key) :
    highLoop acc (Gs.map sumC) = highLoop acc Gs.flatten := by
  induction Gs generalizing acc with
  | nil => rfl
  | cons g Gs ih =>
    have hm : minHigh FloatSem.exact ≠ .nan := by simp [minHigh, FloatSem.const, FloatSem.exact]
    simp only [List.map_cons, highLoop, List.flatten_cons, highLoop_append]
    have e : (sumC g).high = highLoop (minHigh FloatSem.exact) g := by
      rw [sumC_eq (hne g (by simp))]
    rw [e, highLoop_assoc ha hm]
    have : (if Fl.gt (minHigh FloatSem.exact) acc = true then minHigh FloatSem.exact else acc) = acc := by
      rw [if_neg]
      intro hc
      exact absurd (Fl.lt_iff.1 hc).2.2 (not_lt.2 hge)
    rw [this]
    obtain ⟨h1, h2, _⟩ := highLoop_ge acc g ha
    exact ih (fun g hg => hne g (by simp [hg])) _ h1 (hge.trans h2)

theorem low_concat (Gs : List (List Candle)) (hne : ∀ g ∈ Gs, g ≠ []) (acc : Fl)
    (ha : acc ≠ .nan) (hge : acc.key ≤ (maxLow FloatSem.exact).key) :
    lowLoop acc (Gs.map sumC) = lowLoop acc Gs.flatten := by
  induction Gs generalizing acc with
  | nil => rfl
  | cons g Gs ih =>
    have hm : maxLow FloatSem.exact ≠ .nan := by simp [maxLow, FloatSem.const, FloatSem.exact]
    simp only [List.map_cons, lowLoop, List.flatten_cons, lowLoop_append]
    have e : (sumC g).low = lowLoop (maxLow FloatSem.exact) g := by
      rw [sumC_eq (hne g (by simp))]
    rw [e, lowLoop_assoc ha hm]
    have : (if Fl.lt (maxLow FloatSem.exact) acc = true then maxLow FloatSem.exact else acc) = acc := by
      rw [if_neg]
      intro hc
      exact absurd (Fl.lt_iff.1 hc).2.2 (not_lt.2 hge)
    rw [this]
    obtain ⟨h1, h2, _⟩ := lowLoop_le acc g ha
    exact ih (fun g hg => hne g (by simp [hg])) _ h1 (h2.trans hge)

theorem sumC_grid {g : List Candle} (h : g ≠ []) (hg : ∀ c ∈ g, OnGrid c) : OnGrid (sumC g) := by
  obtain ⟨k, hk⟩ := grid_sum hg 0
  simp only [Int.cast_zero, zero_div] at hk
  exact ⟨k, by rw [sumC_eq h]; exact hk⟩

theorem totalVolume_append (a b : List Candle) :
    totalVolume (a ++ b) = totalVolume a + totalVolume b := by simp [totalVolume]

theorem sumC_volume {g : List Candle} (h : g ≠ []) (hg : ∀ c ∈ g, OnGrid c) :
    (sumC g).volume = .fin (totalVolume g) := by
  rw [sumC_eq h]; simp [volumeLoop_grid hg]

theorem totalVolume_concat (Gs : List (List Candle)) (hne : ∀ g ∈ Gs, g ≠ [])
    (hg : ∀ g ∈ Gs, ∀ c ∈ g, OnGrid c) : totalVolume (Gs.map sumC) = totalVolume Gs.flatten := by
  induction Gs with
  | nil => rfl
  | cons g Gs ih =>
    rw [List.map_cons, List.flatten_cons, totalVolume_append,
      ← ih (fun g hg => hne g (by simp [hg])) (fun g h => hg g (by simp [h]))]
    have : (sumC g).volume.toRat = totalVolume g := by
      rw [sumC_volume (hne g (by simp)) (hg g (by simp))]; rfl
    simp [totalVolume, this] at *

theorem sumC_concat (Gs : List (List Candle)) (hne : ∀ g ∈ Gs, g ≠ []) (h0 : Gs ≠ [])
    (hg : ∀ g ∈ Gs, ∀ c ∈ g, OnGrid c) : sumC (Gs.map sumC) = sumC Gs.flatten := by
  have hmne : Gs.map sumC ≠ [] := by simpa using h0
  have hfne : Gs.flatten ≠ [] := by
    obtain ⟨g, gs, rfl⟩ := List.exists_cons_of_ne_nil h0
    simp [hne g (by simp)]
  rw [sumC_eq hmne, sumC_eq hfne]
  have hm : minHigh FloatSem.exact ≠ .nan := by simp [minHigh, FloatSem.const, FloatSem.exact]
  have hm' : maxLow FloatSem.exact ≠ .nan := by simp [maxLow, FloatSem.const, FloatSem.exact]
  have eh : ((Gs.map sumC).head hmne).time = (Gs.flatten.head hfne).time ∧
      ((Gs.map sumC).head hmne).opn = (Gs.flatten.head hfne).opn := by
    obtain ⟨g, gs, rfl⟩ := List.exists_cons_of_ne_nil h0
    obtain ⟨c, cs, rfl⟩ := List.exists_cons_of_ne_nil (hne g (by simp))
    simp [sumC_eq]
  have el : ((Gs.map sumC).getLast hmne).close = (Gs.flatten.getLast hfne).close := by
    obtain ⟨gs, g, rfl⟩ : ∃ gs g, Gs = gs ++ [g] :=
      ⟨Gs.dropLast, Gs.getLast h0, (List.dropLast_append_getLast h0).symm⟩
    have hgne := hne g (by simp)
    simp only [List.map_append, List.map_cons, List.map_nil, List.getLast_append_singleton,
      List.flatten_append, List.flatten_cons, List.flatten_nil, List.append_nil]
    rw [List.getLast_append_of_ne_nil _ hgne, sumC_eq hgne]
  rw [eh.1, eh.2, el, high_concat Gs hne _ hm (le_refl _), low_concat Gs hne _ hm' (le_refl _),
    volumeLoop_grid, volumeLoop_grid, totalVolume_concat Gs hne hg]
  · intro c hc
    obtain ⟨g, h1, h2⟩ := List.mem_flatten.1 hc
    exact hg g h1 c h2
  · intro c hc
    obtain ⟨g, h1, rfl⟩ := List.mem_map.1 hc
    exact sumC_grid (hne g h1) (hg g h1)

/-! ### chunks of chunks -/

theorem chunks_take {α : Type} {l : List α} {G : List (List α)} {a : Nat}
    (hlen : l.length ≤ G.length * a)
    (hi : ∀ i (h : i < G.length), G[i] = (l.drop (i * a)).take a) (k : Nat) :
    (G.take k).flatten = l.take (k * a) := by
  induction k with
  | zero => simp
  | succ k ih =>
    by_cases hk : k < G.length
    · rw [List.take_succ_eq_append_getElem hk, List.flatten_append, ih, hi k hk,
        Nat.add_mul, Nat.one_mul, List.take_add]
      simp
    · rw [List.take_of_length_le (by omega), List.take_of_length_le (by
        have : G.length * a ≤ (k + 1) * a := Nat.mul_le_mul_right _ (by omega)
        omega)]
      rw [List.take_of_length_le (by omega), List.take_of_length_le (by
        have : G.length * a ≤ k * a := Nat.mul_le_mul_right _ (by omega)
        omega)] at ih
      exact ih

theorem chunks_block {α : Type} {l : List α} {G : List (List α)} {a : Nat}
    (hlen : l.length ≤ G.length * a)
    (hi : ∀ i (h : i < G.length), G[i] = (l.drop (i * a)).take a) (k b : Nat) :
    ((G.drop k).take b).flatten = (l.drop (k * a)).take (b * a) := by
  have h1 := chunks_take hlen hi (k + b)
  rw [List.take_add, List.flatten_append, chunks_take hlen hi k, Nat.add_mul, List.take_add] at h1
  exact List.append_cancel_left h1

theorem ceil_ceil (n a b : Nat) (ha : 1 ≤ a) (hb : 1 ≤ b) :
    ((n + a - 1) / a + b - 1) / b = (n + b * a - 1) / (b * a) := by
  have h1 : (n + b * a - 1) = (n + a - 1) + a * (b - 1) := by
    obtain ⟨b', rfl⟩ : ∃ b', b = b' + 1 := ⟨b - 1, by omega⟩
    simp only [Nat.add_sub_cancel]
    have : (b' + 1) * a = a * b' + a := by ring
    omega
  rw [h1, Nat.mul_comm b a, ← Nat.div_div_eq_div_mul, Nat.add_mul_div_left _ _ (by omega : 0 < a)]
  congr 1
  generalize (n + a - 1) / a = x
  omega

theorem le_ceil_mul (n a : Nat) (ha : 1 ≤ a) : n ≤ (n + a - 1) / a * a := by
  have := Nat.lt_div_mul_add (a := n + a - 1) (b := a) (by omega)
  omega

theorem lt_of_lt_ceil {i n a : Nat} (ha : 1 ≤ a) (h : i < (n + a - 1) / a) : i * a < n := by
  have h1 := Nat.div_mul_le_self (n + a - 1) a
  have h2 : (i + 1) * a ≤ (n + a - 1) / a * a := Nat.mul_le_mul_right _ h
  have h3 : (i + 1) * a = i * a + a := by ring
  omega

theorem aligned_zero {minute : Int → Int} {interval : Int} {c : Candle} (h : minute c.time = 0) :
    Aligned minute interval c := Or.inl h

/-- Groups of a regular series that starts on the hour, all volumes on the grid. -/
theorem hour_groups (minute : Int → Int) {d m : Nat} (hd : 1 ≤ d) (hm : 1 ≤ m)
    {l : List Candle} (hlen : 2 ≤ l.length) (hr : Regular d l)
    (h0 : minute (l[0]'(by omega)).time = 0) (hgrid : ∀ c ∈ l, OnGrid c) :
    ∃ G : List (List Candle),
      modifyInterval FloatSem.exact minute l (m * d : Nat) = .ok (G.map sumC) ∧
      G.length = (l.length + m - 1) / m ∧
      (∀ i (hi : i < G.length), G[i] = (l.drop (i * m)).take m) ∧
      (∀ g ∈ G, g ≠ []) ∧ (∀ g ∈ G, ∀ c ∈ g, OnGrid c) := by
  obtain ⟨G, he, hgl, hgi, _⟩ := regular_groups exact_lawful minute hd hm hlen hr
    (j := 0) (by omega) (aligned_zero h0) (by omega)
  simp only [Nat.sub_zero, Nat.zero_add] at hgl hgi
  have hne : ∀ g ∈ G, g ≠ [] := by
    intro g hg
    obtain ⟨i, hi, rfl⟩ := List.getElem_of_mem hg
    rw [hgi i hi]
    have : i * m < l.length := lt_of_lt_ceil hm (by omega)
    simp only [ne_eq, List.take_eq_nil_iff, List.drop_eq_nil_iff, not_or, not_le]
    exact ⟨by omega, this⟩
  have hgr : ∀ g ∈ G, ∀ c ∈ g, OnGrid c := by
    intro g hg c hc
    obtain ⟨i, hi, rfl⟩ := List.getElem_of_mem hg
    rw [hgi i hi] at hc
    exact hgrid c (List.mem_of_mem_drop (List.mem_of_mem_take hc))
  refine ⟨G, ?_, hgl, hgi, hne, hgr⟩
  rw [he]
  apply resMapL_of_ok
  rw [List.forall₂_map_right_iff, List.forall₂_same]
  exact fun g hg => compressGroup_grid (hne g hg) (hgr g hg)

/-- C33: resampling to `a * d` and then to `b * a * d` minutes equals resampling to
`b * a * d` minutes at once, for a series of spacing `d` that starts at minute 0. -/
theorem C33_compose (minute : Int → Int) (d a b : Nat) (hd : 1 ≤ d) (ha : 1 ≤ a) (hb : 1 ≤ b)
    (candles : List Candle) (hlen : 2 ≤ candles.length) (hr : Regular d candles)
    (h0 : minute (candles[0]'(by omega)).time = 0) (hgrid : ∀ c ∈ candles, OnGrid c) :
    ∃ mid out, modifyInterval FloatSem.exact minute candles (a * d : Nat) = .ok mid ∧
      modifyInterval FloatSem.exact minute mid (b * a * d : Nat) = .ok out ∧
      modifyInterval FloatSem.exact minute candles (b * a * d : Nat) = .ok out := by
  have hba : 1 ≤ b * a := Nat.mul_pos hb ha
  obtain ⟨G, hG, hGl, hGi, hGne, hGg⟩ := hour_groups minute hd ha hlen hr h0 hgrid
  obtain ⟨K, hK, hKl, hKi, hKne, hKg⟩ := hour_groups minute hd hba hlen hr h0 hgrid
  have hcov : candles.length ≤ G.length * a := by rw [hGl]; exact le_ceil_mul _ _ ha
  have hGpos : 1 ≤ G.length := by
    rw [hGl]
    exact (Nat.one_le_div_iff (by omega)).2 (by omega)
  have htime : ∀ i (hi : i < G.length), (sumC G[i]).time = candles[0].time + 60 * (a * d : Nat) * i := by
    intro i hi
    have hlt : i * a < candles.length := lt_of_lt_ceil ha (by omega)
    rw [sumC_eq (hGne _ (List.getElem_mem hi))]
    have : (G[i].head (hGne _ (List.getElem_mem hi))) = candles[i * a] := by
      have e : G[i].head? = some candles[i * a] := by
        rw [hGi i hi, List.head?_take, if_neg (by omega), List.head?_drop,
          List.getElem?_eq_getElem hlt]
      rw [List.head?_eq_some_head (hGne _ (List.getElem_mem hi))] at e
      simpa using e
    rw [this, hr.2 (i * a) hlt]
    push_cast; ring
  refine ⟨G.map sumC, K.map sumC, hG, ?_, hK⟩
  by_cases h1 : G.length = 1
  · -- a single group: the second call returns it unchanged
    have hn : candles.length ≤ a := by rw [h1] at hcov; omega
    have hK1 : K.length = 1 := by
      rw [hKl]
      have hle : candles.length ≤ b * a := hn.trans (Nat.le_mul_of_pos_left a hb)
      have e : candles.length + b * a - 1 = (candles.length - 1) + b * a := by omega
      rw [e, Nat.add_div_right _ hba, Nat.div_eq_of_lt (by omega)]
    have e1 : G = [candles] := by
      rw [List.length_eq_one_iff] at h1
      obtain ⟨g, rfl⟩ := h1
      have := hGi 0 (by simp)
      simp only [List.getElem_cons_zero, Nat.zero_mul, List.drop_zero] at this
      rw [this, List.take_of_length_le hn]
    have e2 : K = [candles] := by
      rw [List.length_eq_one_iff] at hK1
      obtain ⟨g, rfl⟩ := hK1
      have := hKi 0 (by simp)
      simp only [List.getElem_cons_zero, Nat.zero_mul, List.drop_zero] at this
      rw [this, List.take_of_length_le (hn.trans (Nat.le_mul_of_pos_left a hb))]
    rw [e1, e2]
    simp [modifyInterval]
  · have hmlen : 2 ≤ (G.map sumC).length := by rw [List.length_map]; omega
    have hmreg : Regular (a * d) (G.map sumC) := by
      constructor
      · intro c hc
        obtain ⟨g, hg, rfl⟩ := List.mem_map.1 hc
        obtain ⟨i, hi, rfl⟩ := List.getElem_of_mem hg
        have hlt : i * a < candles.length := lt_of_lt_ceil ha (by omega)
        rw [htime i hi]
        have := hr.1 _ (List.getElem_mem hlt)
        rw [hr.2 (i * a) hlt] at this
        convert this using 2
        push_cast; ring
      · intro i hi
        simp only [List.getElem_map]
        rw [htime i (by simpa using hi), htime 0 (by omega)]
        push_cast; ring
    have hm0 : minute ((G.map sumC)[0]'(by omega)).time = 0 := by
      rw [List.getElem_map, htime 0 (by omega)]
      simpa using h0
    have hmg : ∀ c ∈ G.map sumC, OnGrid c := by
      intro c hc
      obtain ⟨g, hg, rfl⟩ := List.mem_map.1 hc
      exact sumC_grid (hGne g hg) (hGg g hg)
    obtain ⟨H, hH, hHl, hHi, hHne, _⟩ := hour_groups minute (d := a * d) (m := b)
      (Nat.mul_pos ha hd) hb hmlen hmreg hm0 hmg
    rw [Nat.mul_assoc, hH]
    congr 1
    apply List.ext_getElem
    · rw [List.length_map, List.length_map, hHl, hKl, List.length_map, hGl]
      exact ceil_ceil _ _ _ ha hb
    · intro i hi1 hi2
      simp only [List.length_map] at hi1 hi2
      simp only [List.getElem_map]
      have hblk := chunks_block hcov hGi (i * b) b
      rw [hHi i hi1, hKi i hi2, ← List.map_drop, ← List.map_take, sumC_concat, hblk, Nat.mul_assoc]
      · intro g hg
        exact hGne g (List.mem_of_mem_drop (List.mem_of_mem_take hg))
      · intro hc
        have := hHne _ (List.getElem_mem hi1)
        rw [hHi i hi1, ← List.map_drop, ← List.map_take, hc] at this
        exact this rfl
      · intro g hg
        exact hGg g (List.mem_of_mem_drop (List.mem_of_mem_take hg))

/-- A five-candle series starting at minute 0. -/
example :
    let cs : List Candle := ⟨0, .fin 1, .fin 1, .fin 1, .fin 1, .fin (1/4)⟩ :: demoCandles
    Regular 1 cs ∧ utcMinute (cs[0].time) = 0 ∧ (∀ c ∈ cs, OnGrid c) ∧
    modifyInterval FloatSem.exact utcMinute cs (2 * 1 : Nat) ≠
      modifyInterval FloatSem.exact utcMinute cs (2 * 2 * 1 : Nat) := by
  refine ⟨⟨by decide, ?_⟩, by decide, ?_, by decide +kernel⟩
  · intro i hi
    simp only [demoCandles, List.length_cons, List.length_nil] at hi
    interval_cases i <;> rfl
  · intro c hc
    simp only [demoCandles, List.mem_cons, List.not_mem_nil, or_false] at hc
    rcases hc with rfl | rfl | rfl | rfl | rfl
    · exact ⟨25000, by norm_num⟩
    · exact ⟨100000, by norm_num⟩
    · exact ⟨50000, by norm_num⟩
    · exact ⟨200000, by norm_num⟩
    · exact ⟨100000, by norm_num⟩

end Finmod
