import Verif.Props.Fractals

/-!
# Fractals of one kind are apart: C264
-/

namespace Finmod
open Go Spec

/-- Two candles that give fractals of one kind are at least three apart. -/
theorem findFractal_apart {cs : List Candle} (hn : Spec.NoNaN cs) {t : FractalType} {i j : Nat} {f g : WilliamFractal}
    (hij : i < j) (hj : j + 4 < cs.length) (hf : findFractal cs i t = some f) (hg : findFractal cs j t = some g) : i + 3 ≤ j := by
  rw [findFractal_eq (by omega), leftFails_eq (noNaN_price hn _ _) (noNaN_price hn _ _),
    leftFails_eq (noNaN_price hn _ _) (noNaN_price hn _ _)] at hf hg
  split_ifs at hf with h1 h2
  split_ifs at hg with h3 h4
  simp only [Bool.or_eq_true, Bool.not_eq_true', not_or, Bool.not_eq_false] at h3
  rw [rightScan_iff t _ _ 0 (by omega)] at h2
  by_contra hc
  have hj' : j = i + 1 ∨ j = i + 2 := by omega
  rcases hj' with rfl | rfl
  · have := h2 0 cs[i + 3] (by rw [List.getElem?_drop]; exact List.getElem?_eq_getElem (by omega)) (by simp)
    have h5 := h3.2
    simp only [show i + 1 + 2 = i + 3 by omega, show i + 1 + 1 = i + 2 by omega] at h5
    rw [this] at h5
    cases h5
  · have := h2 1 cs[i + 4] (by rw [List.getElem?_drop]; exact List.getElem?_eq_getElem (by omega)) (by
      have := List.countP_le_length (p := fun e => beats t (price t cs[i + 2]) (price t e)) (l := (cs.drop (i + 3)).take 1)
      have h6 : ((cs.drop (i + 3)).take 1).length ≤ 1 := List.length_take_le _ _
      omega)
    have h5 := h3.1
    simp only [show i + 2 + 2 = i + 4 by omega] at h5
    rw [this] at h5
    cases h5

theorem filter_kind (cs : List Candle) (t : FractalType) (i : Nat) (h : i + 4 < cs.length) :
    (findFractals cs i).filter (fun f => f.ftype = t) = (findFractal cs i t).toList := by
  rw [findFractals_eq, List.filter_append]
  have key : ∀ s, (findFractal cs i s).toList.filter (fun f => f.ftype = t) =
      if s = t then (findFractal cs i s).toList else [] := by
    intro s
    rw [findFractal_eq h]
    split_ifs <;> simp_all
  rw [key, key]
  cases t <;> simp

/-- **C264** The fractals of one kind, in the order reported, come from candles each at least three after the one before. -/
theorem C264_apart {cs : List Candle} (hn : Spec.NoNaN cs) (t : FractalType) :
    ∃ ms : List Nat, (williamFractals cs).filter (fun f => f.ftype = t) =
        ms.filterMap (fun m => cs[m]?.map fun c => ⟨c.time, price t c, t⟩) ∧
      (∀ m ∈ ms, 2 ≤ m ∧ m + 2 < cs.length) ∧ ms.Pairwise fun m m' => m + 3 ≤ m' := by
  refine ⟨((List.range (cs.length - 4)).filter fun i => (findFractal cs i t).isSome).map (· + 2), ?_, ?_, ?_⟩
  · have e : williamFractals cs = (List.range (cs.length - 4)).flatMap (findFractals cs) := by
      unfold williamFractals
      split
      · rw [show cs.length - 4 = 0 by omega]; rfl
      · rfl
    rw [e, List.filter_flatMap]
    have hr : ∀ i ∈ List.range (cs.length - 4), i + 4 < cs.length := fun i hi => by rw [List.mem_range] at hi; omega
    generalize List.range (cs.length - 4) = l at hr
    induction l with
    | nil => rfl
    | cons i l ih =>
      have hi := hr i (by simp)
      rw [List.flatMap_cons, filter_kind cs t i hi, ih fun k hk => hr k (by simp [hk]), List.filter_cons]
      rw [findFractal_eq hi]
      split_ifs <;> simp_all
      rw [List.filterMap_cons, List.getElem?_eq_getElem (by omega)]
      simp
  · intro m hm
    simp only [List.mem_map, List.mem_filter, List.mem_range] at hm
    obtain ⟨i, ⟨hi, -⟩, rfl⟩ := hm
    omega
  · rw [List.pairwise_map]
    refine List.Pairwise.imp_of_mem ?_ ((List.pairwise_lt_range (n := cs.length - 4)).filter _)
    intro i j hi hj hij
    simp only [List.mem_filter, List.mem_range] at hi hj
    obtain ⟨f, hf⟩ := Option.isSome_iff_exists.1 hi.2
    obtain ⟨g, hg⟩ := Option.isSome_iff_exists.1 hj.2
    have := findFractal_apart hn hij (by omega) hf hg
    omega

theorem length_of_apart {N : Nat} : ∀ (l : List Nat) (lo : Nat), l.Pairwise (fun i j => i + 3 ≤ j) → (∀ x ∈ l, lo ≤ x ∧ x < N) →
    3 * l.length ≤ N + 2 - lo
  | [], _, _, _ => by simp
  | a :: l, lo, hp, hb => by
    rw [List.pairwise_cons] at hp
    have h1 := hb a (by simp)
    have := length_of_apart l (a + 3) hp.2 fun x hx => ⟨hp.1 x hx, (hb x (by simp [hx])).2⟩
    simp only [List.length_cons]
    omega

/-- **C264** At most one fractal of each kind for every three candles that can give one. -/
theorem C264_count {cs : List Candle} (hn : Spec.NoNaN cs) :
    (∀ t, 3 * ((williamFractals cs).filter (fun f => f.ftype = t)).length ≤ cs.length - 2) ∧
    3 * (williamFractals cs).length ≤ 2 * (cs.length - 2) := by
  have h : ∀ t, 3 * ((williamFractals cs).filter (fun f => f.ftype = t)).length ≤ cs.length - 2 := by
    intro t
    obtain ⟨ms, e, hb, hp⟩ := C264_apart hn t
    rw [e]
    have h1 := List.length_filterMap_le (fun m => cs[m]?.map fun c => (⟨c.time, price t c, t⟩ : WilliamFractal)) ms
    have h2 := length_of_apart (N := cs.length - 2) ms 2 hp fun x hx => by have := hb x hx; omega
    omega
  refine ⟨h, ?_⟩
  have h1 := h .up
  have h2 := h .down
  have e : (williamFractals cs).filter (fun f => f.ftype = .down) =
      (williamFractals cs).filter (fun f => !decide (f.ftype = .up)) := by
    apply List.filter_congr
    intro f _
    cases f.ftype <;> decide
  have := List.length_eq_length_filter_add (l := williamFractals cs) (fun f => decide (f.ftype = .up))
  rw [e] at h2
  omega

/-- **Example for C264.** Nine candles, and up fractals as near as can be. -/
example : Spec.NoNaN [exHL 1 1 0, exHL 2 2 0, exHL 3 5 0, exHL 4 3 0, exHL 5 4 0, exHL 6 6 0, exHL 7 1 0, exHL 8 2 0, exHL 9 9 0] ∧
    (williamFractals [exHL 1 1 0, exHL 2 2 0, exHL 3 5 0, exHL 4 3 0, exHL 5 4 0, exHL 6 6 0, exHL 7 1 0, exHL 8 2 0,
      exHL 9 9 0]).filter (fun f => f.ftype = .up) = [⟨3, .fin 5, .up⟩, ⟨6, .fin 6, .up⟩] := by
  decide +kernel

end Finmod
