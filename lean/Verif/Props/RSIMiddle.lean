import Verif.Props.RSIAccuracy

/-!
# C284: RSI above and below 50
-/

namespace Finmod
open Go Spec

/-- **C284** An RSI that is a number is above 50 exactly when the last close of its window is above the first, below 50 exactly when it is below. -/
def Spec.C284_claim (S : FloatSem) : Prop :=
  ∀ (cs spare : List Candle) (n : Nat), (∀ c ∈ cs ++ spare, c.close.isFinite = true ∧ S.Rep c.close) → 14 ≤ cs.length → spare ≠ [] →
    n ≤ cs.length → ∀ out, RSI S (some cs) spare n = .ok out → ∀ k v first last, out[k]? = some v → v ≠ .nan →
    (cs ++ spare)[k]? = some first → (cs ++ spare)[k + n]? = some last →
    (Fl.gt v (.fin 50) = Fl.gt last.close first.close) ∧ (Fl.lt v (.fin 50) = Fl.lt last.close first.close)

/-- The rises less the falls are the whole way. -/
theorem rise_sub_fall (x : ℚ) (xs : List ℚ) : riseQ (x :: xs) - fallQ (x :: xs) = (x :: xs).getLast (by simp) - x := by
  induction xs generalizing x with
  | nil => simp [riseQ, fallQ]
  | cons y ys ih =>
    have eR : riseQ (x :: y :: ys) = max (y - x) 0 + riseQ (y :: ys) := by simp [riseQ]
    have eF : fallQ (x :: y :: ys) = max (x - y) 0 + fallQ (y :: ys) := by simp [fallQ]
    have := ih y
    rw [eR, eF, List.getLast_cons_cons]
    have : max (y - x) 0 - max (x - y) 0 = y - x := by
      rcases le_total x y with h | h
      · rw [max_eq_left (by linarith), max_eq_right (by linarith)]; ring
      · rw [max_eq_right (by linarith), max_eq_left (by linarith)]; ring
    linarith

theorem window_way {xs : List ℚ} {k n : Nat} (h : k + n < xs.length) :
    riseQ ((xs.drop k).take (n + 1)) - fallQ ((xs.drop k).take (n + 1)) = xs[k + n] - xs[k] := by
  have hlen : ((xs.drop k).take (n + 1)).length = n + 1 := by simp; omega
  cases hw : (xs.drop k).take (n + 1) with
  | nil => rw [hw] at hlen; simp at hlen
  | cons x w =>
    rw [rise_sub_fall]
    have e0 : ((xs.drop k).take (n + 1))[0]? = some x := by rw [hw]; rfl
    have e1 : ((xs.drop k).take (n + 1))[n]? = some ((x :: w).getLast (by simp)) := by
      rw [hw] at hlen ⊢
      rw [← List.getLast?_eq_some_getLast, List.getLast?_eq_getElem?, hlen]
      rfl
    rw [List.getElem?_take_of_lt (by omega), List.getElem?_drop, List.getElem?_eq_getElem (by omega)] at e0 e1
    have a := Option.some.inj e0
    rw [← Option.some.inj e1]
    simp only [Nat.add_zero] at a
    rw [a]

/-- **C284 is false of the code in float64**: of the closes 0, 10^9 and 1, then 1 on and on, the RSI is 50 although they rose. -/
theorem C284_middle_violated : ¬ Spec.C284_claim ieee := by
  intro h
  have := (h ([0, 1000000000, 1, 1, 1, 1, 1, 1, 1, 1, 1, 1, 1, 1].map rsiCandle) [rsiCandle 1] 14
    (by
      intro c hc
      have : c = rsiCandle 0 ∨ c = rsiCandle 1000000000 ∨ c = rsiCandle 1 := by
        simp only [List.map_cons, List.map_nil, List.cons_append, List.nil_append, List.mem_cons, List.not_mem_nil, or_false] at hc
        tauto
      rcases this with rfl | rfl | rfl <;> exact ⟨rfl, fun q hq => by cases hq; decide +kernel⟩)
    (by decide) (by simp) (by decide) [.fin 50] (by decide +kernel) 0 (.fin 50) (rsiCandle 0) (rsiCandle 1) rfl (by decide) rfl rfl).1
  revert this
  decide +kernel

/-- **C284, the part that holds of the code**: without rounding. Missing: float64, for which see `C284_near_partial`. -/
theorem C284_middle_partial : Spec.C284_claim FloatSem.exact := by
  intro cs spare n hf h14 hs hn out hout k v first last hv hnan h1 h2
  have hx : Closes (cs ++ spare) ((cs ++ spare).map fun c => c.close.toRat) := by
    unfold Closes
    rw [List.forall₂_map_right_iff, List.forall₂_same]
    exact fun c hc => Fl.isFinite_is (hf c hc).1
  obtain ⟨out', e, -, hk⟩ := C78_rsi_exact hx h14 hs n hn
  rw [e] at hout
  cases hout
  obtain ⟨hkl, -⟩ := List.getElem?_eq_some_iff.1 hv
  have hk := hk k hkl
  obtain ⟨l1, g1⟩ := List.getElem?_eq_some_iff.1 h1
  obtain ⟨l2, g2⟩ := List.getElem?_eq_some_iff.1 h2
  have way := window_way (xs := (cs ++ spare).map fun c => c.close.toRat) (k := k) (n := n) (by simpa using l2)
  simp only [List.getElem_map, g1, g2] at way
  simp only at hk
  generalize (((cs ++ spare).map fun c => c.close.toRat).drop k).take (n + 1) = w at hk way
  have p1 := riseQ_nonneg w
  have p2 := fallQ_nonneg w
  rw [hv] at hk
  split_ifs at hk with h0
  · exact absurd (Option.some.inj hk) hnan
  · have hpos : 0 < riseQ w + fallQ w := lt_of_le_of_ne (by linarith) (Ne.symm h0)
    rw [Option.some.inj hk]
    have f1 := Fl.isFinite_is (hf _ (List.mem_of_getElem? h1)).1
    have f2 := Fl.isFinite_is (hf _ (List.mem_of_getElem? h2)).1
    unfold Fl.gt
    rw [(Fl.is_fin _).lt (Fl.is_fin _), (Fl.is_fin _).lt (Fl.is_fin _), f1.lt f2, f2.lt f1]
    simp only [decide_eq_decide, lt_div_iff₀ hpos, div_lt_iff₀ hpos]
    constructor <;> constructor <;> intro h <;> linarith

/-- **C284, the part that holds in float64**: the RSI is within 0.00001 of 50 plus 50 times the way from the first close to the last divided by
all the way the closes went. So it is on the right side of 50 whenever the one is more than 0.0000002 of the other. -/
theorem C284_near_partial {cs spare : List Candle} {xs : List ℚ} (h : Closes (cs ++ spare) xs)
    (hr : FloatCloses (cs ++ spare)) (hM : ∀ x ∈ xs, |x| ≤ 2 ^ (900 : ℤ))
    (h14 : 14 ≤ cs.length) (hs : spare ≠ []) (n : Nat) (hn : n ≤ cs.length) (hn2 : n < 2 ^ 20) :
    ∃ out, RSI ieee (some cs) spare n = .ok out ∧ ∀ (k : Nat) first last way, k < out.length → xs[k]? = some first → xs[k + n]? = some last →
      riseQ ((xs.drop k).take (n + 1)) + fallQ ((xs.drop k).take (n + 1)) = way → way ≠ 0 →
      ∃ y r, out[k]? = some y ∧ y.Is r ∧ |r - (50 + 50 * (last - first) / way)| ≤ 1 / 100000 ∧
        (way / 5000000 < last - first → 50 < r) ∧ (way / 5000000 < first - last → r < 50) := by
  obtain ⟨out, e, -, hk⟩ := C110_rsi_accurate h hr hM h14 hs n hn hn2
  refine ⟨out, e, fun k first last way hkl h1 h2 hw h0 => ?_⟩
  obtain ⟨y, r, e1, e2, e3⟩ := (hk k hkl).2 (hw ▸ h0)
  obtain ⟨l1, g1⟩ := List.getElem?_eq_some_iff.1 h1
  obtain ⟨l2, g2⟩ := List.getElem?_eq_some_iff.1 h2
  have hd := window_way (xs := xs) (k := k) (n := n) l2
  rw [g1, g2] at hd
  have p1 := riseQ_nonneg ((xs.drop k).take (n + 1))
  have p2 := fallQ_nonneg ((xs.drop k).take (n + 1))
  generalize riseQ ((xs.drop k).take (n + 1)) = U at *
  generalize fallQ ((xs.drop k).take (n + 1)) = D at *
  subst hw
  have hpos : 0 < U + D := lt_of_le_of_ne (by linarith) (Ne.symm h0)
  have eq : 100 * U / (U + D) = 50 + 50 * (last - first) / (U + D) := by
    field_simp
    linarith
  rw [eq] at e3
  refine ⟨y, r, e1, e2, e3, fun hlt => ?_, fun hlt => ?_⟩
  · rw [abs_le] at e3
    have : 1 / 100000 < 50 * (last - first) / (U + D) := by rw [lt_div_iff₀ hpos]; linarith
    linarith [e3.1]
  · rw [abs_le] at e3
    have : 50 * (last - first) / (U + D) < -(1 / 100000) := by rw [div_lt_iff₀ hpos]; linarith
    linarith [e3.2]

/-- From 10 to 15 the index is above 50, from 10 down to 0 below. -/
example : RSI FloatSem.exact (some rsiExample) [rsiCandle 0] 13 = .ok [.fin (200 / 3), .fin (275 / 4), .fin (275 / 8)] ∧
    (rsiExample ++ [rsiCandle 0])[0]? = some (rsiCandle 10) ∧ (rsiExample ++ [rsiCandle 0])[0 + 13]? = some (rsiCandle 15) ∧
    (rsiExample ++ [rsiCandle 0])[2]? = some (rsiCandle 10) ∧ (rsiExample ++ [rsiCandle 0])[2 + 13]? = some (rsiCandle 0) := by
  decide +kernel

end Finmod
