import Verif.Props.SharedLive
import Verif.Props.Fractals

/-!
# Fractals while the last candle changes: C239
-/

namespace Finmod.Shared
open Go Spec

variable {cs : List Candle} {mem : Nat → Nat → Candle}

/-- A last candle that rules out what can be ruled out. -/
def loudCandle : Candle := ⟨0, .fin 0, .inf false, .inf true, .fin 0, .fin 0⟩

/-- A last candle that rules out nothing. -/
def quietCandle : Candle := ⟨0, .nan, .nan, .nan, .nan, .nan⟩

theorem not_above {x y : Fl} (h : ¬ Fl.gt (.inf false) y = true) : ¬ Fl.gt x y = true := by
  intro k
  rw [Fl.lt_iff] at h k
  exact h ⟨k.1, by simp, lt_of_lt_of_le k.2.2 le_top⟩

theorem not_below {x y : Fl} (h : ¬ Fl.lt (.inf true) y = true) : ¬ Fl.lt x y = true := by
  intro k
  rw [Fl.lt_iff] at h k
  exact h ⟨by simp, k.2.1, lt_of_le_of_lt bot_le k.2.2⟩

theorem scan_up (third : Candle) (count : Nat) (c : Candle) (l : List Candle) : rightScan .up third count (c :: l) =
    if count = 2 then true else if Fl.gt c.high third.high then false
    else if Fl.lt c.high third.high then rightScan .up third (count + 1) l else rightScan .up third count l := by
  rw [rightScan.eq_def]

theorem scan_down (third : Candle) (count : Nat) (c : Candle) (l : List Candle) : rightScan .down third count (c :: l) =
    if count = 2 then true else if Fl.lt c.low third.low then false
    else if Fl.gt c.low third.low then rightScan .down third (count + 1) l else rightScan .down third count l := by
  rw [rightScan.eq_def]

/-- The candles on the right, the last of them live. -/
theorem right_any (hm : Undisturbed cs mem) (ty : FractalType) (third : Candle) : ∀ (n count i t : Nat), i + n = cs.length →
    (rightScan ty third count (cs.drop i ++ [loudCandle]) = true → (rightP ty third count i (n + 1)).exec mem t = true) ∧
    ((rightP ty third count i (n + 1)).exec mem t = true → rightScan ty third count (cs.drop i ++ [quietCandle]) = true)
  | 0, count, i, t, h => by
    rw [List.drop_of_length_le (by omega), List.nil_append, List.nil_append]
    cases ty with
    | up =>
      rw [rightP, scan_up, scan_up]
      by_cases h2 : count = 2
      · simp [h2, Prog.exec]
      · rw [if_neg h2, if_neg h2, if_neg h2]
        refine ⟨fun hl => ?_, fun _ => by simp [quietCandle, Fl.gt, Fl.lt, Fl.isNaN, rightScan]⟩
        have hn : ¬ Fl.gt (.inf false) third.high = true := fun hg => by rw [if_pos (show Fl.gt loudCandle.high third.high = true from hg)] at hl; cases hl
        rw [Prog.exec]
        dsimp only
        rw [if_neg (not_above hn)]
        rfl
    | down =>
      rw [rightP, scan_down, scan_down]
      by_cases h2 : count = 2
      · simp [h2, Prog.exec]
      · rw [if_neg h2, if_neg h2, if_neg h2]
        refine ⟨fun hl => ?_, fun _ => by simp [quietCandle, Fl.gt, Fl.lt, Fl.isNaN, rightScan]⟩
        have hn : ¬ Fl.lt (.inf true) third.low = true := fun hg => by rw [if_pos (show Fl.lt loudCandle.low third.low = true from hg)] at hl; cases hl
        rw [Prog.exec]
        dsimp only
        rw [if_neg (not_below hn)]
        rfl
  | n + 1, count, i, t, h => by
    obtain ⟨a, ha, hd⟩ := drop_at (l := cs) (i := i) (by omega)
    have ih : ∀ c t, _ := fun c t => right_any hm ty third n c (i + 1) t (by omega)
    rw [hd, List.cons_append, List.cons_append]
    cases ty with
    | up =>
      rw [rightP, scan_up, scan_up]
      by_cases h2 : count = 2
      · simp [h2, Prog.exec]
      · rw [if_neg h2, if_neg h2, if_neg h2, Prog.exec, hm t i a ha]
        dsimp only
        by_cases g1 : Fl.gt a.high third.high = true
        · rw [if_pos g1, if_pos g1, if_pos g1]; simp [Prog.exec]
        · rw [if_neg g1, if_neg g1, if_neg g1, Prog.exec, hm _ i a ha]
          by_cases g2 : Fl.lt a.high third.high = true
          · rw [if_pos g2, if_pos g2, if_pos g2]; exact ih _ _
          · rw [if_neg g2, if_neg g2, if_neg g2]; exact ih _ _
    | down =>
      rw [rightP, scan_down, scan_down]
      by_cases h2 : count = 2
      · simp [h2, Prog.exec]
      · rw [if_neg h2, if_neg h2, if_neg h2, Prog.exec, hm t i a ha]
        dsimp only
        by_cases g1 : Fl.lt a.low third.low = true
        · rw [if_pos g1, if_pos g1, if_pos g1]; simp [Prog.exec]
        · rw [if_neg g1, if_neg g1, if_neg g1, Prog.exec, hm _ i a ha]
          by_cases g2 : Fl.gt a.low third.low = true
          · rw [if_pos g2, if_pos g2, if_pos g2]; exact ih _ _
          · rw [if_neg g2, if_neg g2, if_neg g2]; exact ih _ _

theorem find_any (hm : Undisturbed cs mem) (ty : FractalType) {i : Nat} (h : i + 4 ≤ cs.length) (t : Nat) (f : WilliamFractal) :
    (findFractal (cs ++ [loudCandle]) i ty = some f → (findFractalP (cs.length + 1) i ty).exec mem t = some f) ∧
    ((findFractalP (cs.length + 1) i ty).exec mem t = some f → findFractal (cs ++ [quietCandle]) i ty = some f) := by
  obtain ⟨third, h2, d2⟩ := drop_at (l := cs) (i := i + 2) (by omega)
  obtain ⟨c0, c1, hd, hl⟩ := reads_left ty third (i := i) (cs := cs) (by omega)
  have e : ∀ c : Candle, (cs ++ [c]).drop i = c0 :: c1 :: third :: (cs.drop (i + 3) ++ [c]) := fun c => by
    rw [List.drop_append_of_le_length (by omega), hd, d2]; rfl
  have er : cs.length + 1 - (i + 3) = cs.length - (i + 3) + 1 := by omega
  obtain ⟨k1, k2⟩ := right_any hm ty third (cs.length - (i + 3)) 0 (i + 3) (ended mem (leftP ty third i 2) (t + 1)) (by omega)
  rw [findFractal, findFractal, e, e, findFractalP, Prog.exec, hm t _ _ h2, exec_bind_at, hl.exec hm, er]
  dsimp only
  split
  · rename_i hf
    simp [Prog.exec]
  · rename_i hf
    rw [exec_bind_at]
    cases hr : (rightP ty third 0 (i + 3) (cs.length - (i + 3) + 1)).exec mem (ended mem (leftP ty third i 2) (t + 1)) with
    | true =>
      rw [if_pos (k2 hr), Prog.exec, if_pos rfl]
      exact ⟨fun h => by split_ifs at h; rw [← h]; cases ty <;> rfl, fun h => by rw [← h]; cases ty <;> rfl⟩
    | false =>
      refine ⟨fun h => ?_, fun h => by rw [Prog.exec, if_neg (by simp)] at h; cases h⟩
      split_ifs at h with hl
      rw [k1 hl] at hr; cases hr

theorem loop_any {len : Nat} : ∀ (n i t : Nat) (f : WilliamFractal),
    ((∃ j ty, i ≤ j ∧ j < i + n ∧ ∀ s, (findFractalP len j ty).exec mem s = some f) → f ∈ (fractalLoopP len i n).exec mem t) ∧
    (f ∈ (fractalLoopP len i n).exec mem t → ∃ j ty s, i ≤ j ∧ j < i + n ∧ (findFractalP len j ty).exec mem s = some f)
  | 0, i, t, f => ⟨fun ⟨j, _, h1, h2, _⟩ => by omega, fun h => by cases h⟩
  | n + 1, i, t, f => by
    rw [fractalLoopP, exec_bind_at, exec_bind_done, findFractalsP, exec_bind_at, exec_bind_done, List.mem_append, mem_sortByTime, List.mem_append,
      Option.mem_toList, Option.mem_toList]
    obtain ⟨k1, k2⟩ := loop_any (len := len) n (i + 1) (ended mem ((findFractalP len i .up).bind fun u => (findFractalP len i .down).bind fun d =>
      .done (sortByTime (u.toList ++ d.toList))) t) f
    constructor
    · rintro ⟨j, ty, h1, h2, h⟩
      by_cases e : j = i
      · subst e
        cases ty
        · exact .inl (.inl (h _))
        · exact .inl (.inr (h _))
      · exact .inr (k1 ⟨j, ty, by omega, by omega, h⟩)
    · rintro ((h | h) | h)
      · exact ⟨i, .up, _, le_rfl, by omega, h⟩
      · exact ⟨i, .down, _, le_rfl, by omega, h⟩
      · obtain ⟨j, ty, s, h1, h2, h⟩ := k2 h
        exact ⟨j, ty, s, by omega, by omega, h⟩

/-- **C239.** While the last candle changes and the others `cs` do not: a fractal that `WilliamFractals` reports whatever the last candle is, is
reported. -/
theorem C239_sure (hm : Undisturbed cs mem) (t : Nat) {f : WilliamFractal} (h : ∀ c, f ∈ williamFractals (cs ++ [c])) :
    f ∈ (williamFractalsP (cs.length + 1)).exec mem t := by
  obtain ⟨i, hi, hf⟩ := mem_williamFractals.1 (h loudCandle)
  rw [List.length_append, List.length_singleton] at hi
  rw [williamFractalsP, if_neg (by omega)]
  exact (loop_any _ 0 t f).1 ⟨i, f.ftype, by omega, by omega, fun s => (find_any hm f.ftype (by omega) s f).1 hf⟩

theorem ended_bind_at {α A B : Type} (mem : Nat → Nat → α) (f : A → Prog α B) : ∀ (p : Prog α A) (t : Nat),
    ended mem (p.bind f) t = ended mem (f (p.exec mem t)) (ended mem p t)
  | .done a, t => rfl
  | .read i k, t => ended_bind_at mem f (k (mem t i)) (t + 1)

/-- The candles on the right: it is as if the last one were read once. -/
theorem right_moment (hm : Undisturbed cs mem) (ty : FractalType) (third : Candle) : ∀ (n count i t : Nat), i + n = cs.length →
    ∃ t', t ≤ t' ∧ t' ≤ ended mem (rightP ty third count i (n + 1)) t ∧
      (rightP ty third count i (n + 1)).exec mem t = rightScan ty third count (cs.drop i ++ [mem t' cs.length])
  | 0, count, i, t, h => by
    refine ⟨t, le_rfl, le_ended .., ?_⟩
    have hi : i = cs.length := by omega
    subst hi
    rw [List.drop_of_length_le le_rfl, List.nil_append]
    cases ty with
    | up =>
      rw [rightP, scan_up]
      by_cases h2 : count = 2
      · simp [h2, Prog.exec]
      · rw [if_neg h2, if_neg h2, Prog.exec]
        dsimp only
        split
        · rfl
        · rw [Prog.exec]; split <;> simp [rightScan, rightP, Prog.exec]
    | down =>
      rw [rightP, scan_down]
      by_cases h2 : count = 2
      · simp [h2, Prog.exec]
      · rw [if_neg h2, if_neg h2, Prog.exec]
        dsimp only
        split
        · rfl
        · rw [Prog.exec]; split <;> simp [rightScan, rightP, Prog.exec]
  | n + 1, count, i, t, h => by
    obtain ⟨a, ha, hd⟩ := drop_at (l := cs) (i := i) (by omega)
    have ih : ∀ c t, _ := fun c t => right_moment hm ty third n c (i + 1) t (by omega)
    rw [hd]
    cases ty with
    | up =>
      rw [rightP]
      by_cases h2 : count = 2
      · exact ⟨t, le_rfl, le_ended .., by rw [List.cons_append, scan_up]; simp [h2, Prog.exec]⟩
      · rw [if_neg h2, Prog.exec, ended, hm t i a ha]
        dsimp only
        by_cases g1 : Fl.gt a.high third.high = true
        · exact ⟨t, le_rfl, by rw [if_pos g1]; exact Nat.le_succ t, by rw [List.cons_append, scan_up, if_neg h2, if_pos g1, if_pos g1]; rfl⟩
        · rw [if_neg g1, Prog.exec, ended, hm _ i a ha]
          obtain ⟨t', k1, k2, k3⟩ := ih (if Fl.lt a.high third.high = true then count + 1 else count) (t + 1 + 1)
          refine ⟨t', by omega, k2, ?_⟩
          rw [k3, List.cons_append, scan_up, if_neg h2, if_neg g1]
          split <;> rfl
    | down =>
      rw [rightP]
      by_cases h2 : count = 2
      · exact ⟨t, le_rfl, le_ended .., by rw [List.cons_append, scan_down]; simp [h2, Prog.exec]⟩
      · rw [if_neg h2, Prog.exec, ended, hm t i a ha]
        dsimp only
        by_cases g1 : Fl.lt a.low third.low = true
        · exact ⟨t, le_rfl, by rw [if_pos g1]; exact Nat.le_succ t, by rw [List.cons_append, scan_down, if_neg h2, if_pos g1, if_pos g1]; rfl⟩
        · rw [if_neg g1, Prog.exec, ended, hm _ i a ha]
          obtain ⟨t', k1, k2, k3⟩ := ih (if Fl.gt a.low third.low = true then count + 1 else count) (t + 1 + 1)
          refine ⟨t', by omega, k2, ?_⟩
          rw [k3, List.cons_append, scan_down, if_neg h2, if_neg g1]
          split <;> rfl

/-- One window is looked at with the last candle as it is at one moment. -/
theorem find_moment (hm : Undisturbed cs mem) (ty : FractalType) {i : Nat} (h : i + 4 ≤ cs.length) (t : Nat) :
    ∃ t', t ≤ t' ∧ t' ≤ ended mem (findFractalP (cs.length + 1) i ty) t ∧
      (findFractalP (cs.length + 1) i ty).exec mem t = findFractal (cs ++ [mem t' cs.length]) i ty := by
  obtain ⟨third, h2, d2⟩ := drop_at (l := cs) (i := i + 2) (by omega)
  obtain ⟨c0, c1, hd, hl⟩ := reads_left ty third (i := i) (cs := cs) (by omega)
  have e : ∀ c : Candle, (cs ++ [c]).drop i = c0 :: c1 :: third :: (cs.drop (i + 3) ++ [c]) := fun c => by
    rw [List.drop_append_of_le_length (by omega), hd, d2]; rfl
  have er : cs.length + 1 - (i + 3) = cs.length - (i + 3) + 1 := by omega
  obtain ⟨t', k1, k2, k3⟩ := right_moment hm ty third (cs.length - (i + 3)) 0 (i + 3) (ended mem (leftP ty third i 2) (t + 1)) (by omega)
  have l1 := le_ended mem (leftP ty third i 2) (t + 1)
  rw [findFractalP, Prog.exec, ended, hm t _ _ h2, exec_bind_at, ended_bind_at, hl.exec hm, er]
  by_cases hf : (leftFails ty third c0 || leftFails ty third c1) = true
  · refine ⟨t, le_rfl, ?_, ?_⟩
    · rw [if_pos hf]; show t ≤ ended mem (leftP ty third i 2) (t + 1); omega
    · rw [findFractal, e]; dsimp only; rw [if_pos hf, if_pos hf]; rfl
  · refine ⟨t', by omega, ?_, ?_⟩
    · rw [if_neg hf, ended_bind_at]; exact k2
    · rw [findFractal, e, if_neg hf, exec_bind_at, k3]
      dsimp only
      rw [if_neg hf]
      split <;> rename_i hr
      · rw [Prog.exec]; cases ty <;> rfl
      · rw [Prog.exec]

theorem loop_moment {len : Nat} : ∀ (n i t : Nat) (f : WilliamFractal),
    ((∃ j ty, i ≤ j ∧ j < i + n ∧ ∀ s, t ≤ s → ended mem (findFractalP len j ty) s ≤ ended mem (fractalLoopP len i n) t →
      (findFractalP len j ty).exec mem s = some f) → f ∈ (fractalLoopP len i n).exec mem t) ∧
    (f ∈ (fractalLoopP len i n).exec mem t → ∃ j ty s, i ≤ j ∧ j < i + n ∧ t ≤ s ∧
      ended mem (findFractalP len j ty) s ≤ ended mem (fractalLoopP len i n) t ∧ (findFractalP len j ty).exec mem s = some f)
  | 0, i, t, f => ⟨fun ⟨j, _, h1, h2, _⟩ => by omega, fun h => by cases h⟩
  | n + 1, i, t, f => by
    have q1 := le_ended mem (findFractalP len i .up) t
    have q2 := le_ended mem (findFractalP len i .down) (ended mem (findFractalP len i .up) t)
    have q3 := le_ended mem (fractalLoopP len (i + 1) n) (ended mem (findFractalP len i .down) (ended mem (findFractalP len i .up) t))
    have eE : ended mem (fractalLoopP len i (n + 1)) t =
        ended mem (fractalLoopP len (i + 1) n) (ended mem (findFractalP len i .down) (ended mem (findFractalP len i .up) t)) := by
      rw [fractalLoopP, ended_bind_at, ended_bind_at, findFractalsP, ended_bind_at, ended_bind_at]; rfl
    have eV : f ∈ (fractalLoopP len i (n + 1)).exec mem t ↔ ((findFractalP len i .up).exec mem t = some f ∨
        (findFractalP len i .down).exec mem (ended mem (findFractalP len i .up) t) = some f) ∨
        f ∈ (fractalLoopP len (i + 1) n).exec mem (ended mem (findFractalP len i .down) (ended mem (findFractalP len i .up) t)) := by
      rw [fractalLoopP, exec_bind_at, exec_bind_done, findFractalsP, exec_bind_at, exec_bind_done, List.mem_append, mem_sortByTime, List.mem_append,
        Option.mem_toList, Option.mem_toList, ended_bind_at, ended_bind_at]
      rfl
    rw [eV, eE]
    obtain ⟨k1, k2⟩ := loop_moment (len := len) n (i + 1) (ended mem (findFractalP len i .down) (ended mem (findFractalP len i .up) t)) f
    constructor
    · rintro ⟨j, ty, h1, h2, h⟩
      by_cases e : j = i
      · subst e
        cases ty
        · exact .inl (.inl (h _ le_rfl (by omega)))
        · exact .inl (.inr (h _ q1 (by omega)))
      · exact .inr (k1 ⟨j, ty, by omega, by omega, fun s hs he => h s (by omega) he⟩)
    · rintro ((h | h) | h)
      · exact ⟨i, .up, _, le_rfl, by omega, le_rfl, by omega, h⟩
      · exact ⟨i, .down, _, le_rfl, by omega, q1, by omega, h⟩
      · obtain ⟨j, ty, s, h1, h2, h3, h4, h⟩ := k2 h
        exact ⟨j, ty, s, by omega, by omega, by omega, h4, h⟩

theorem find_ftype {l : List Candle} {i : Nat} {ty : FractalType} {f : WilliamFractal} (hf : findFractal l i ty = some f) :
    f.ftype = ty ∧ ∃ c, l[i + 2]? = some c ∧ f.time = c.time := by
  unfold findFractal at hf
  split at hf
  · rename_i c0 c1 third rest hd
    simp only at hf
    split_ifs at hf
    cases hf
    refine ⟨rfl, third, ?_, rfl⟩
    rw [← List.getElem?_drop, hd]; rfl
  · cases hf

/-- **C239.** And what is reported is reported for the last candle as it was at some moment of the call. -/
theorem C239_possible (hm : Undisturbed cs mem) (t : Nat) {f : WilliamFractal} (h : f ∈ (williamFractalsP (cs.length + 1)).exec mem t) :
    ∃ t', t ≤ t' ∧ t' ≤ ended mem (williamFractalsP (cs.length + 1)) t ∧ f ∈ williamFractals (cs ++ [mem t' cs.length]) := by
  rw [williamFractalsP] at h ⊢
  split_ifs at h ⊢ with hl
  · cases h
  obtain ⟨j, ty, s, h1, h2, h3, h4, e⟩ := (loop_moment _ 0 t f).2 h
  obtain ⟨t', g1, g2, g3⟩ := find_moment hm ty (i := j) (by omega) s
  rw [g3] at e
  refine ⟨t', by omega, by omega, mem_williamFractals.2 ⟨j, by rw [List.length_append, List.length_singleton]; omega, ?_⟩⟩
  rw [(find_ftype e).1]; exact e

/-- **C239.** If no two candles have the same time, a fractal is reported that is reported for the last candle as it is at every moment of the
call. -/
theorem C239_steady (hm : Undisturbed cs mem) (hn : (cs.map Candle.time).Nodup) (t : Nat) {f : WilliamFractal}
    (h : ∀ t', t ≤ t' → t' ≤ ended mem (williamFractalsP (cs.length + 1)) t → f ∈ williamFractals (cs ++ [mem t' cs.length])) :
    f ∈ (williamFractalsP (cs.length + 1)).exec mem t := by
  obtain ⟨i, hi, hf⟩ := mem_williamFractals.1 (h t le_rfl (le_ended ..))
  rw [List.length_append, List.length_singleton] at hi
  rw [williamFractalsP, if_neg (by omega)] at h ⊢
  refine (loop_moment _ 0 t f).1 ⟨i, f.ftype, by omega, by omega, fun s hs he => ?_⟩
  obtain ⟨t', g1, g2, g3⟩ := find_moment hm f.ftype (i := i) (by omega) s
  rw [g3]
  obtain ⟨j, hj, hk⟩ := mem_williamFractals.1 (h t' (by omega) (by omega))
  rw [List.length_append, List.length_singleton] at hj
  obtain ⟨-, c, hc, ec⟩ := find_ftype hf
  obtain ⟨-, d, hd, ed⟩ := find_ftype hk
  rw [List.getElem?_append_left (by omega)] at hc hd
  have : i + 2 = j + 2 := by
    refine (List.getElem?_inj (l := cs.map Candle.time) (i := i + 2) (j := j + 2) (by rw [List.length_map]; omega) hn).1 ?_
    rw [List.getElem?_map, List.getElem?_map, hc, hd]
    exact congrArg some (ec.symm.trans ed)
  have hij : i = j := by omega
  rw [hij]; exact hk

/-- Five candles with a high in the third. -/
def peakCandles : List Candle :=
  [⟨0, .fin 5, .fin 6, .fin 4, .fin 5, .fin 1⟩, ⟨60, .fin 5, .fin 7, .fin 4, .fin 5, .fin 1⟩, ⟨120, .fin 5, .fin 9, .fin 4, .fin 5, .fin 1⟩,
    ⟨180, .fin 5, .fin 7, .fin 4, .fin 5, .fin 1⟩, ⟨240, .fin 5, .fin 6, .fin 4, .fin 5, .fin 1⟩]

/-- C239: two lower highs follow, so the third candle is a fractal whatever the last candle is. -/
example (c : Candle) : ⟨120, .fin 9, .up⟩ ∈ williamFractals (peakCandles ++ [c]) :=
  mem_williamFractals.2 ⟨0, by simp [peakCandles], by
    simp only [peakCandles, List.cons_append, List.nil_append, findFractal, List.drop]
    have e : rightScan .up ⟨120, .fin 5, .fin 9, .fin 4, .fin 5, .fin 1⟩ 0 [⟨180, .fin 5, .fin 7, .fin 4, .fin 5, .fin 1⟩,
        ⟨240, .fin 5, .fin 6, .fin 4, .fin 5, .fin 1⟩, c] = true := by
      rw [scan_up, if_neg (by decide), if_neg (by decide +kernel), if_pos (by decide +kernel), scan_up, if_neg (by decide), if_neg (by decide +kernel),
        if_pos (by decide +kernel), scan_up, if_pos rfl]
    rw [e]
    decide +kernel⟩

/-- C239: without the fifth candle the last one decides: the high it shows when it is read is not the one it has in the end. -/
example : (williamFractalsP 5).exec (fun t i => match (peakCandles.take 4)[i]? with
      | some c => c
      | none => ⟨240, .fin 5, .fin (if t < 6 then 6 else 10), .fin 4, .fin 5, .fin 1⟩) 0 = [⟨120, .fin 9, .up⟩] ∧
    williamFractals (peakCandles.take 4 ++ [⟨240, .fin 5, .fin 10, .fin 4, .fin 5, .fin 1⟩]) = [] := by
  decide +kernel

/-- C239: the high of the last candle goes up and down but stays below the third, and the fractal is reported. -/
example : ∀ t, ⟨120, .fin 9, .up⟩ ∈ (williamFractalsP ((peakCandles.take 4).length + 1)).exec (fun t i => match (peakCandles.take 4)[i]? with
      | some c => c
      | none => ⟨240, .fin 5, .fin (if t % 2 = 0 then 6 else 8), .fin 4, .fin 5, .fin 1⟩) t := by
  intro t
  refine C239_steady (cs := peakCandles.take 4) (fun s i c h => by simp only [h]) (by decide) t fun t' _ _ => ?_
  rcases Nat.mod_two_eq_zero_or_one t' with e | e <;> simp only [e] <;> decide +kernel

end Finmod.Shared
