import Verif.Props.Fractals

/-!
# Fractals of a series with a repeated candle: C255
-/

namespace Finmod
open Go Spec

/-- Full statement of C255: a candle that comes twice in a row does not change the fractals. -/
def Spec.C255_claim : Prop := ∀ (a b : List Candle) (c : Candle),
  williamFractals (a ++ c :: c :: b) = williamFractals (a ++ c :: b)

theorem rightScan_more (t : FractalType) (x : Candle) : ∀ (r : List Candle) (k : Nat), k + 1 ≤ 2 →
    rightScan t x k r = true → rightScan t x (k + 1) r = true
  | [], _, _, _ => rfl
  | c :: r, k, hk, h => by
    rw [rightScan_cons] at h ⊢
    rw [if_neg (by omega)] at h
    by_cases h2 : k + 1 = 2
    · rw [if_pos h2]
    · rw [if_neg h2]
      split_ifs at h ⊢
      · exact rightScan_more t x r _ (by omega) h
      · exact rightScan_more t x r _ (by omega) h

theorem rightScan_two (t : FractalType) (x : Candle) (r : List Candle) : rightScan t x 2 r = true := by
  cases r with
  | nil => rfl
  | cons c r => rw [rightScan_cons, if_pos rfl]

theorem rightScan_twice (t : FractalType) (x c : Candle) (s : List Candle) : ∀ (r : List Candle) (k : Nat), k ≤ 2 →
    rightScan t x k (r ++ c :: s) = true → rightScan t x k (r ++ c :: c :: s) = true
  | [], k, hk, h => by
    simp only [List.nil_append] at h ⊢
    rw [rightScan_cons] at h ⊢
    split_ifs at h ⊢ with h1 h2 h3
    · rfl
    · rw [rightScan_cons]
      split_ifs
      · rfl
      · exact rightScan_more t x s _ (by omega) h
    · rw [rightScan_cons, if_neg h1, if_neg h2, if_neg h3]
      exact h
  | d :: r, k, hk, h => by
    simp only [List.cons_append] at h ⊢
    rw [rightScan_cons] at h ⊢
    split_ifs at h ⊢ with h1 h2 h3
    · rfl
    · exact rightScan_twice t x c s r _ (by omega) h
    · exact rightScan_twice t x c s r _ hk h

/-- Where a fractal is found. -/
theorem mem_fractals_at {cs : List Candle} {f : WilliamFractal} : f ∈ williamFractals cs ↔
    ∃ u c0 c1 x r, cs = u ++ c0 :: c1 :: x :: r ∧ 2 ≤ r.length ∧ leftFails f.ftype x c0 = false ∧
      leftFails f.ftype x c1 = false ∧ rightScan f.ftype x 0 r = true ∧ f = ⟨x.time, price f.ftype x, f.ftype⟩ := by
  rw [mem_williamFractals]
  constructor
  · rintro ⟨i, hi, h⟩
    rw [findFractal_eq hi] at h
    split_ifs at h with h1 h2
    rw [Bool.or_eq_true, not_or, Bool.not_eq_true, Bool.not_eq_true] at h1
    refine ⟨cs.take i, cs[i], cs[i + 1], cs[i + 2], cs.drop (i + 3), ?_, by simp; omega, h1.1, h1.2, h2, ?_⟩
    · rw [← List.drop_eq_getElem_cons (by omega), ← List.drop_eq_getElem_cons (by omega),
        ← List.drop_eq_getElem_cons (by omega), List.take_append_drop]
    · exact (Option.some.inj h).symm
  · rintro ⟨u, c0, c1, x, r, rfl, hr, h0, h1, h2, e⟩
    refine ⟨u.length, by simp; omega, ?_⟩
    unfold findFractal
    rw [List.drop_left]
    simp only [h0, h1, h2, Bool.or_self, Bool.false_eq_true, if_false, if_true]
    refine Eq.trans ?_ (congrArg some e.symm)
    cases f.ftype <;> rfl

/-- **C255**, what holds: a repeated candle removes no fractal. -/
theorem C255_kept_partial (a b : List Candle) (c : Candle) {f : WilliamFractal} (h : f ∈ williamFractals (a ++ c :: b)) :
    f ∈ williamFractals (a ++ c :: c :: b) := by
  obtain ⟨u, c0, c1, x, r, hs, hr, h0, h1, h2, e⟩ := mem_fractals_at.1 h
  rw [mem_fractals_at]
  rcases List.append_eq_append_iff.1 hs with ⟨d, e1, e2⟩ | ⟨d, e1, e2⟩
  · cases d with
    | nil =>
      simp only [List.nil_append, List.cons.injEq, List.append_nil] at e1 e2
      obtain ⟨rfl, rfl⟩ := e2
      exact ⟨a ++ [c], c, c1, x, r, by simp, hr, h0, h1, h2, e⟩
    | cons z d =>
      simp only [List.cons_append, List.cons.injEq] at e2
      obtain ⟨rfl, rfl⟩ := e2
      exact ⟨a ++ c :: c :: d, c0, c1, x, r, by simp, hr, h0, h1, h2, e⟩
  · match d, e1, e2 with
    | [], e1, e2 =>
      simp only [List.nil_append, List.cons.injEq, List.append_nil] at e1 e2
      obtain ⟨rfl, rfl⟩ := e2
      exact ⟨a ++ [c0], c0, c1, x, r, by simp, hr, h0, h1, h2, e⟩
    | [z], e1, e2 =>
      simp only [List.cons_append, List.nil_append, List.cons.injEq] at e2
      obtain ⟨rfl, rfl, rfl⟩ := e2
      exact ⟨u ++ [c0], c1, c1, x, r, by simp [e1], hr, h1, h1, h2, e⟩
    | [z, y], e1, e2 =>
      simp only [List.cons_append, List.nil_append, List.cons.injEq] at e2
      obtain ⟨rfl, rfl, rfl, rfl⟩ := e2
      refine ⟨u, c0, c1, x, x :: r, by simp [e1], by simp; omega, h0, h1, ?_, e⟩
      rw [rightScan_cons, if_neg (by decide)]
      have hb : beats f.ftype (price f.ftype x) (price f.ftype x) = false := by
        cases hb : beats f.ftype (price f.ftype x) (price f.ftype x) with
        | false => rfl
        | true => exact (beats_asymm hb).symm.trans hb |>.symm ▸ rfl
      rw [hb]
      simpa using h2
    | z :: y :: w :: d, e1, e2 =>
      simp only [List.cons_append, List.cons.injEq] at e2
      obtain ⟨rfl, rfl, rfl, rfl⟩ := e2
      exact ⟨u, c0, c1, x, d ++ c :: c :: b, by simp [e1], by simp; omega, h0, h1, rightScan_twice _ _ _ _ _ _ (by decide) h2, e⟩

/-- Any number of repetitions. -/
theorem C255_kept_many (a b : List Candle) (c : Candle) (n : Nat) {f : WilliamFractal}
    (h : f ∈ williamFractals (a ++ c :: b)) : f ∈ williamFractals (a ++ List.replicate (n + 1) c ++ b) := by
  induction n with
  | zero => simpa using h
  | succ n ih =>
    have := C255_kept_partial a (List.replicate n c ++ b) c (f := f) (by simpa [List.replicate_succ] using ih)
    simpa [List.replicate_succ] using this

/-- A fractal that only the repeated candle brings about is at or before the second candle after it. -/
theorem C255_new (a b : List Candle) (c : Candle) {f : WilliamFractal} (h : f ∈ williamFractals (a ++ c :: c :: b))
    (hn : f ∉ williamFractals (a ++ c :: b)) : ∃ x ∈ a ++ c :: b.take 2, f.time = x.time ∧ f.price = price f.ftype x := by
  obtain ⟨u, c0, c1, x, r, hs, hr, h0, h1, h2, e⟩ := mem_fractals_at.1 h
  by_contra hx
  have hx' : x ∉ a ++ c :: b.take 2 := fun hm => hx ⟨x, hm, congrArg WilliamFractal.time e, congrArg WilliamFractal.price e⟩
  apply hn
  rw [mem_fractals_at]
  have hs' : (a ++ [c]) ++ c :: b = u ++ c0 :: c1 :: x :: r := by rw [← hs]; simp
  rcases List.append_eq_append_iff.1 hs' with ⟨d, e1, e2⟩ | ⟨d, e1, e2⟩
  · cases d with
    | nil =>
      simp only [List.nil_append, List.cons.injEq, List.append_nil] at e1 e2
      obtain ⟨rfl, rfl⟩ := e2
      exact ⟨a, c, c1, x, r, rfl, hr, h0, h1, h2, e⟩
    | cons z d =>
      simp only [List.cons_append, List.cons.injEq] at e2
      obtain ⟨rfl, rfl⟩ := e2
      exact ⟨a ++ c :: d, c0, c1, x, r, by simp, hr, h0, h1, h2, e⟩
  · exfalso
    apply hx'
    match d, e1, e2 with
    | [], e1, e2 =>
      obtain ⟨rfl, rfl⟩ : c0 = c ∧ c1 :: x :: r = b := by simpa using e2
      simp
    | [z], e1, e2 =>
      obtain ⟨rfl, rfl, rfl⟩ : c0 = z ∧ c1 = c ∧ x :: r = b := by simpa using e2
      simp
    | [z, y], e1, e2 =>
      obtain ⟨rfl, rfl, rfl, rfl⟩ : c0 = z ∧ c1 = y ∧ x = c ∧ r = b := by simpa using e2
      simp
    | z :: y :: w :: d, e1, e2 =>
      obtain ⟨rfl, rfl, rfl, rfl⟩ : c0 = z ∧ c1 = y ∧ x = w ∧ r = d ++ c :: b := by simpa using e2
      have : x ∈ a ++ [c] := by rw [e1]; simp
      simp only [List.mem_append, List.mem_cons, List.not_mem_nil, or_false] at this ⊢
      tauto

/-- Six candles; the fourth has the highest high but one. -/
def twiceFr : List Candle :=
  [⟨1, .fin 1, .fin 4, .fin 1, .fin 1, .fin 1⟩, ⟨2, .fin 1, .fin 9, .fin 1, .fin 1, .fin 1⟩, ⟨3, .fin 1, .fin 5, .fin 1, .fin 1, .fin 1⟩,
   ⟨4, .fin 1, .fin 7, .fin 1, .fin 1, .fin 1⟩, ⟨5, .fin 1, .fin 6, .fin 1, .fin 1, .fin 1⟩, ⟨6, .fin 1, .fin 5, .fin 1, .fin 1, .fin 1⟩]

/-- **C255** is false: without the repetition there is no up fractal; with the third candle twice there is one. -/
theorem C255_twice_violated : ¬ Spec.C255_claim := by
  intro h
  have := h (twiceFr.take 2) (twiceFr.drop 3) ⟨3, .fin 1, .fin 5, .fin 1, .fin 1, .fin 1⟩
  revert this
  decide +kernel

/-- **Example for C255.** The fractal that the repeated candle brings about, of the candle after it. -/
example : (⟨4, .fin 7, .up⟩ : WilliamFractal) ∈
      williamFractals (twiceFr.take 2 ++ ⟨3, .fin 1, .fin 5, .fin 1, .fin 1, .fin 1⟩ :: ⟨3, .fin 1, .fin 5, .fin 1, .fin 1, .fin 1⟩ ::
        twiceFr.drop 3) ∧
    (⟨4, .fin 7, .up⟩ : WilliamFractal) ∉
      williamFractals (twiceFr.take 2 ++ ⟨3, .fin 1, .fin 5, .fin 1, .fin 1, .fin 1⟩ :: twiceFr.drop 3) := by decide +kernel

/-- **Example for C255.** A series with a fractal, which stays when its own candle comes three times. -/
example :
    let u : List Candle := [⟨1, .fin 1, .fin 4, .fin 1, .fin 1, .fin 1⟩, ⟨2, .fin 1, .fin 6, .fin 1, .fin 1, .fin 1⟩]
    let v : List Candle := [⟨4, .fin 1, .fin 7, .fin 1, .fin 1, .fin 1⟩, ⟨5, .fin 1, .fin 6, .fin 1, .fin 1, .fin 1⟩]
    (⟨3, .fin 9, .up⟩ : WilliamFractal) ∈
      williamFractals (u ++ List.replicate (2 + 1) ⟨3, .fin 1, .fin 9, .fin 1, .fin 1, .fin 1⟩ ++ v) :=
  C255_kept_many _ _ _ 2 (by decide +kernel)

end Finmod
