import Verif.Props.FractalsLive

/-!
# ModifyInterval while the last candle changes: C243
-/

namespace Finmod.Spec
open Go Shared

/-- A candle with the time and open of `a`, the close of `b`, and the rest of `c`. -/
def mixed (a b c : Candle) : Candle := ⟨a.time, a.opn, c.high, c.low, b.close, c.volume⟩

/-- While another goroutine changes the last candle, but for its time, and no other, `ModifyInterval` gives what it gives for the last candle as
it was at one moment of the call. -/
def C243_claim (S : FloatSem) : Prop :=
  ∀ (cs : List Candle) (mem : Nat → Nat → Candle) (minute : Int → Int) (interval : Int) (t : Nat), cs ≠ [] → Undisturbed cs mem →
    (∀ s s', (mem s cs.length).time = (mem s' cs.length).time) →
    ∃ t', t ≤ t' ∧ t' ≤ ended mem (modifyIntervalP S minute (cs.length + 1) interval) t ∧
      (modifyIntervalP S minute (cs.length + 1) interval).exec mem t = some (modifyInterval S minute (cs ++ [mem t' cs.length]) interval)

end Finmod.Spec

namespace Finmod.Shared
open Go Spec

variable {S : FloatSem} {cs : List Candle} {m1 m2 : Nat → Nat → Candle}

/-- Two memories that have the candles `cs`, and after them a candle of which only the time is known. -/
structure Alike (cs : List Candle) (m1 m2 : Nat → Nat → Candle) : Prop where
  one : Undisturbed cs m1
  two : Undisturbed cs m2
  time : ∀ s s', (m1 s cs.length).time = (m2 s' cs.length).time

theorem Alike.cell (h : Alike cs m1 m2) {i : Nat} (hi : i < cs.length) (s s' : Nat) : m1 s i = m2 s' i := by
  have e : cs[i]? = some cs[i] := by simp
  rw [h.one s i _ e, h.two s' i _ e]

theorem Alike.times (h : Alike cs m1 m2) {i : Nat} (hi : i ≤ cs.length) (s s' : Nat) : (m1 s i).time = (m2 s' i).time := by
  rcases Nat.lt_or_ge i cs.length with g | g
  · rw [h.cell g s s']
  · rw [show i = cs.length by omega]; exact h.time s s'

theorem first_same (h : Alike cs m1 m2) (minute : Int → Int) (mi : Int) : ∀ (n i t t' : Nat), i + n ≤ cs.length + 1 →
    (firstP minute mi i n).exec m1 t = (firstP minute mi i n).exec m2 t'
  | 0, _, _, _, _ => rfl
  | n + 1, i, t, t', hi => by
    rw [firstP, Prog.exec, Prog.exec]
    have e : isAligned minute mi (m1 t i) = isAligned minute mi (m2 t' i) := by
      unfold isAligned; rw [h.times (by omega) t t']
    rw [e]
    split_ifs
    · rfl
    · exact first_same h minute mi n (i + 1) (t + 1) (t' + 1) (by omega)

theorem group_same (h : Alike cs m1 m2) : ∀ (n i t t' : Nat) (high low vol : Fl), i + n ≤ cs.length →
    (groupP S high low vol i n).exec m1 t = (groupP S high low vol i n).exec m2 t'
  | 0, _, _, _, _, _, _, _ => rfl
  | n + 1, i, t, t', high, low, vol, hi => by
    rw [groupP, Prog.exec, Prog.exec, h.cell (by omega) t t']
    exact group_same h n (i + 1) (t + 1) (t' + 1) _ _ _ (by omega)

theorem compress_same (h : Alike cs m1 m2) {start stop : Nat} (h1 : start < stop) (h2 : stop ≤ cs.length) (t t' : Nat) :
    (compressP S (cs.length + 1) start stop).exec m1 t = (compressP S (cs.length + 1) start stop).exec m2 t' := by
  unfold compressP
  rw [if_pos (by omega)]
  simp only [Prog.exec]
  rw [if_pos (by omega), if_pos (by omega), exec_bind_done, exec_bind_done, h.cell (i := start) (by omega) t t',
    h.cell (i := start) (by omega) (t + 1) (t' + 1), h.cell (i := stop - 1) (by omega) (t + 1 + 1) (t' + 1 + 1),
    group_same h (stop - start) start (t + 1 + 1 + 1) (t' + 1 + 1 + 1) _ _ _ (by omega)]

theorem resample_same (h : Alike cs m1 m2) (mi pivot : Int) : ∀ (n idx start t t' : Nat) (acc : List Candle), idx + n ≤ cs.length + 1 → start < idx →
    (resampleP S (cs.length + 1) mi pivot n idx start acc).exec m1 t = (resampleP S (cs.length + 1) mi pivot n idx start acc).exec m2 t'
  | 0, _, _, _, _, _, _, _ => rfl
  | n + 1, idx, start, t, t', acc, hi, hs => by
    rw [resampleP, Prog.exec, Prog.exec]
    have e : isBoundary S mi pivot (m1 t idx) = isBoundary S mi pivot (m2 t' idx) := by
      unfold isBoundary; rw [h.times (by omega) t t']
    rw [e]
    split
    · rfl
    · rw [exec_bind_at, exec_bind_at, compress_same h hs (by omega) (t + 1) (t' + 1)]
      cases (compressP S (cs.length + 1) start idx).exec m2 (t' + 1) with
      | ok c => exact resample_same h mi pivot n (idx + 1) idx _ _ _ (by omega) (by omega)
      | err e v => rfl
      | panic => rfl
    · exact resample_same h mi pivot n (idx + 1) start (t + 1) (t' + 1) acc (by omega) (by omega)

theorem group_last (h : Alike cs m1 m2) : ∀ (n i t t' : Nat) (high low vol : Fl), i + n = cs.length →
    (∀ s, (m2 s cs.length).high = (m1 (t + n) cs.length).high ∧ (m2 s cs.length).low = (m1 (t + n) cs.length).low ∧
      (m2 s cs.length).volume = (m1 (t + n) cs.length).volume) →
    (groupP S high low vol i (n + 1)).exec m1 t = (groupP S high low vol i (n + 1)).exec m2 t'
  | 0, i, t, t', high, low, vol, hi, hl => by
    obtain ⟨e1, e2, e3⟩ := hl t'
    rw [show i = cs.length by omega]
    simp only [groupP, Prog.exec]
    rw [e1, e2, e3]; rfl
  | n + 1, i, t, t', high, low, vol, hi, hl => by
    rw [groupP, Prog.exec, Prog.exec, h.cell (by omega) t t']
    refine group_last h n (i + 1) (t + 1) (t' + 1) _ _ _ (by omega) ?_
    rw [show t + 1 + n = t + (n + 1) by omega]; exact hl

/-- The last group: the open is read, then the close, then the rest. -/
theorem compress_last (h : Alike cs m1 m2) {start : Nat} (h1 : start ≤ cs.length) (t t' : Nat)
    (hl : ∀ s, m2 s cs.length = mixed (m1 (t + 1) cs.length) (m1 (t + 2) cs.length) (m1 (t + 3 + (cs.length - start)) cs.length)) :
    (compressP S (cs.length + 1) start (cs.length + 1)).exec m1 t = (compressP S (cs.length + 1) start (cs.length + 1)).exec m2 t' := by
  unfold compressP
  rw [if_pos (by omega)]
  simp only [Prog.exec]
  rw [if_pos (by omega), if_pos (by omega), exec_bind_done, exec_bind_done]
  have eo : (m1 (t + 1) start).opn = (m2 (t' + 1) start).opn := by
    rcases Nat.lt_or_ge start cs.length with g | g
    · rw [h.cell g (t + 1) (t' + 1)]
    · rw [show start = cs.length by omega, hl]; rfl
  have ec : (m1 (t + 1 + 1) (cs.length + 1 - 1)).close = (m2 (t' + 1 + 1) (cs.length + 1 - 1)).close := by
    rw [Nat.add_sub_cancel, hl]; rfl
  rw [h.times h1 t t', eo, ec, show cs.length + 1 - start = cs.length - start + 1 by omega,
    group_last h (cs.length - start) start (t + 1 + 1 + 1) (t' + 1 + 1 + 1) _ _ _ (by omega) fun s => by rw [hl]; exact ⟨rfl, rfl, rfl⟩]

theorem ended_group {m : Nat → Nat → Candle} : ∀ (n i t : Nat) (high low vol : Fl), ended m (groupP S high low vol i n) t = t + n
  | 0, _, _, _, _, _ => rfl
  | n + 1, i, t, high, low, vol => by
    rw [groupP, ended, ended_group n]; omega

theorem ended_compress {m : Nat → Nat → Candle} {start : Nat} (h1 : start ≤ cs.length) (t : Nat) :
    ended m (compressP S (cs.length + 1) start (cs.length + 1)) t = t + 3 + (cs.length + 1 - start) := by
  unfold compressP
  rw [if_pos (by omega)]
  simp only [ended]
  rw [if_pos (by omega), ended_bind_at, ended_group]
  rfl

theorem resample_start (mi pivot : Int) {m : Nat → Nat → Candle} {len : Nat} : ∀ (n idx start t : Nat) (acc acc' : List Candle) (b : Nat), start < idx →
    (resampleP S len mi pivot n idx start acc).exec m t = .ok (acc', b) → b < idx + n
  | 0, idx, start, _, _, _, _, h, e => by cases e; omega
  | n + 1, idx, start, t, acc, acc', b, h, e => by
    rw [resampleP, Prog.exec] at e
    split at e
    · cases e
    · rw [exec_bind_at] at e
      cases hc : (compressP S len start idx).exec m (t + 1) with
      | ok c => rw [hc] at e; have := resample_start mi pivot n (idx + 1) idx _ _ acc' b (by omega) e; omega
      | err x v => rw [hc] at e; cases e
      | panic => rw [hc] at e; cases e
    · have := resample_start mi pivot n (idx + 1) start _ acc acc' b (by omega) e; omega

/-- **C243.** What holds: the result is that for a last candle made of three moments of the call, one after the other: its open of the first, its
close of the second, and high, low and volume of the third. -/
theorem C243_modifyInterval_partial {mem : Nat → Nat → Candle} (hne : cs ≠ []) (hm : Undisturbed cs mem)
    (ht : ∀ s s', (mem s cs.length).time = (mem s' cs.length).time) (minute : Int → Int) (interval : Int) (t : Nat) :
    ∃ ta tb tc, t ≤ ta ∧ ta ≤ tb ∧ tb ≤ tc ∧ tc ≤ ended mem (modifyIntervalP S minute (cs.length + 1) interval) t ∧
      (modifyIntervalP S minute (cs.length + 1) interval).exec mem t =
        some (modifyInterval S minute (cs ++ [mixed (mem ta cs.length) (mem tb cs.length) (mem tc cs.length)]) interval) := by
  have hpos : 0 < cs.length := List.length_pos_iff.2 hne
  -- whatever the last candle, it suffices to run the program on a memory that keeps it
  have key : ∀ ta tb tc, (modifyIntervalP S minute (cs.length + 1) interval).exec
      (fun s i => if i = cs.length then mixed (mem ta cs.length) (mem tb cs.length) (mem tc cs.length) else mem s i) t =
        some (modifyInterval S minute (cs ++ [mixed (mem ta cs.length) (mem tb cs.length) (mem tc cs.length)]) interval) := by
    intro ta tb tc
    have := C197_modifyInterval (S := S) (cs := cs ++ [mixed (mem ta cs.length) (mem tb cs.length) (mem tc cs.length)])
      (mem := fun s i => if i = cs.length then mixed (mem ta cs.length) (mem tb cs.length) (mem tc cs.length) else mem s i) (by
        intro s i c hc
        dsimp only
        rcases Nat.lt_trichotomy i cs.length with g | g | g
        · rw [if_neg (by omega)]
          rw [List.getElem?_append_left g] at hc
          exact hm s i c hc
        · subst g
          rw [if_pos rfl]
          simpa using hc
        · rw [List.getElem?_eq_none (by simp; omega)] at hc
          cases hc) minute interval (by simp; omega) t
    rwa [List.length_append, List.length_singleton] at this
  have alike : ∀ ta tb tc, Alike cs mem
      (fun s i => if i = cs.length then mixed (mem ta cs.length) (mem tb cs.length) (mem tc cs.length) else mem s i) := fun ta tb tc => by
    refine ⟨hm, fun s i c hc => ?_, fun s s' => ?_⟩
    · have : i < cs.length := (List.getElem?_eq_some_iff.1 hc).1
      rw [if_neg (by omega)]; exact hm s i c hc
    · rw [if_pos rfl]; exact ht s ta
  simp only [← key]
  clear key
  unfold modifyIntervalP
  rw [if_neg (by omega), if_neg (by omega)]
  simp only [Prog.exec, ended]
  have e1 : ∀ ta tb tc, (mem t 1).time = ((fun s i => if i = cs.length then mixed (mem ta cs.length) (mem tb cs.length) (mem tc cs.length) else mem s i) t 1).time :=
    fun ta tb tc => (alike ta tb tc).times (by omega) t t
  have e0 : ∀ ta tb tc, (mem (t + 1) 0).time =
      ((fun s i => if i = cs.length then mixed (mem ta cs.length) (mem tb cs.length) (mem tc cs.length) else mem s i) (t + 1) 0).time :=
    fun ta tb tc => (alike ta tb tc).times (by omega) (t + 1) (t + 1)
  simp only at e1 e0
  simp only [← e1, ← e0]
  split_ifs with c1 c2 c3
  · exact ⟨t, t, t, le_rfl, le_rfl, le_rfl, by show t ≤ t + 1 + 1; omega, rfl⟩
  · exact ⟨t, t, t, le_rfl, le_rfl, le_rfl, by show t ≤ t + 1 + 1; omega, rfl⟩
  · exact ⟨t, t, t, le_rfl, le_rfl, le_rfl, by show t ≤ t + 1 + 1; omega, rfl⟩
  simp only [exec_bind_at, ended_bind_at]
  have ef := fun ta tb tc => first_same (alike ta tb tc) minute interval (cs.length + 1) 0 (t + 1 + 1) (t + 1 + 1) (by omega)
  simp only [← ef]
  have l1 := le_ended mem (firstP minute interval 0 (cs.length + 1)) (t + 1 + 1)
  cases hf : (firstP minute interval 0 (cs.length + 1)).exec mem (t + 1 + 1) with
  | none => exact ⟨t, t, t, le_rfl, le_rfl, le_rfl, by show t ≤ ended mem _ (t + 1 + 1); omega, rfl⟩
  | some first =>
    have hfl := first_lt _ _ _ _ hf
    simp only [Prog.exec, ended, exec_bind_at, ended_bind_at]
    generalize hu : ended mem (firstP minute interval 0 (cs.length + 1)) (t + 1 + 1) = u at *
    have ep := fun ta tb tc => (alike ta tb tc).times (i := first) (by omega) u
      (ended (fun s i => if i = cs.length then mixed (mem ta cs.length) (mem tb cs.length) (mem tc cs.length) else mem s i)
        (firstP minute interval 0 (cs.length + 1)) (t + 1 + 1))
    simp only [← ep]
    have er := fun ta tb tc t' => resample_same (S := S) (alike ta tb tc) interval (mem u first).time (cs.length + 1 - (first + 1)) (first + 1) first
      (u + 1) t' [] (by omega) (by omega)
    simp only [← er]
    have l2 := le_ended mem (resampleP S (cs.length + 1) interval (mem u first).time (cs.length + 1 - (first + 1)) (first + 1) first []) (u + 1)
    generalize hv : ended mem (resampleP S (cs.length + 1) interval (mem u first).time (cs.length + 1 - (first + 1)) (first + 1) first []) (u + 1) = v at *
    cases hr : (resampleP S (cs.length + 1) interval (mem u first).time (cs.length + 1 - (first + 1)) (first + 1) first []).exec mem (u + 1) with
    | err e w => exact ⟨t, t, t, le_rfl, le_rfl, le_rfl, by show t ≤ v; omega, rfl⟩
    | panic => exact ⟨t, t, t, le_rfl, le_rfl, le_rfl, by show t ≤ v; omega, rfl⟩
    | ok r =>
      obtain ⟨acc, b⟩ := r
      have hb := resample_start _ _ _ _ _ _ _ _ _ (by omega) hr
      simp only [exec_bind_done, ended_bind_at]
      refine ⟨v + 1, v + 2, v + 3 + (cs.length - b), by omega, by omega, by omega, ?_, ?_⟩
      · show _ ≤ ended mem (compressP S (cs.length + 1) b (cs.length + 1)) v
        rw [ended_compress (by omega)]; omega
      · rw [compress_last (alike (v + 1) (v + 2) (v + 3 + (cs.length - b))) (by omega) v _ fun s => if_pos rfl]

/-- A candle that falls back from 9 to 5 after it was seen at 9, and is replaced: one candle before it. -/
def fallenCandles : Nat → Nat → Candle := fun t i => match i with
  | 0 => ⟨0, .fin 5, .fin 6, .fin 4, .fin 5, .fin 1⟩
  | _ => if t < 12 then ⟨60, .fin 5, .fin 9, .fin 5, .fin 9, .fin 1⟩ else ⟨60, .fin 5, .fin 6, .fin 5, .fin 5, .fin 1⟩

theorem fallen_undisturbed : Undisturbed [⟨0, .fin 5, .fin 6, .fin 4, .fin 5, .fin 1⟩] fallenCandles := by
  intro t i c h
  cases i with
  | zero => simpa [fallenCandles] using h
  | succ i => simp at h

theorem fallen_time (s s' : Nat) : (fallenCandles s 1).time = (fallenCandles s' 1).time := by
  unfold fallenCandles; split_ifs <;> rfl

/-- **C243.** False: the close is read before the high and the low. -/
theorem C243_modifyInterval_violated : ¬ C243_claim ieee := by
  intro h
  obtain ⟨t', -, -, e⟩ := h [⟨0, .fin 5, .fin 6, .fin 4, .fin 5, .fin 1⟩] fallenCandles utcMinute 1 0 (by simp) fallen_undisturbed fallen_time
  have : fallenCandles t' 1 = ⟨60, .fin 5, .fin 9, .fin 5, .fin 9, .fin 1⟩ ∨ fallenCandles t' 1 = ⟨60, .fin 5, .fin 6, .fin 5, .fin 5, .fin 1⟩ := by
    unfold fallenCandles; split_ifs
    · exact .inl rfl
    · exact .inr rfl
  rcases this with h | h <;>
  · rw [show ([⟨0, .fin 5, .fin 6, .fin 4, .fin 5, .fin 1⟩] : List Candle).length = 1 from rfl, h] at e
    revert e; decide +kernel

/-- **C243.** So the last candle of the result can close above its high, although every candle is in order at every moment. -/
theorem C243_above : ∃ (cs : List Candle) (mem : Nat → Nat → Candle) (interval : Int) (out : List Candle) (c : Candle), Undisturbed cs mem ∧
    (∀ s s', (mem s cs.length).time = (mem s' cs.length).time) ∧ (∀ s i, InOrder (mem s i)) ∧
    (modifyIntervalP ieee utcMinute (cs.length + 1) interval).exec mem 0 = some (.ok out) ∧ c ∈ out ∧ Fl.gt c.close c.high = true := by
  refine ⟨[⟨0, .fin 5, .fin 6, .fin 4, .fin 5, .fin 1⟩], fallenCandles, 1,
    [⟨0, .fin 5, .fin 6, .fin 4, .fin 5, .fin 1⟩, ⟨60, .fin 5, .fin 6, .fin 5, .fin 9, .fin 1⟩], ⟨60, .fin 5, .fin 6, .fin 5, .fin 9, .fin 1⟩,
    fallen_undisturbed, fallen_time, fun s i => ?_, by decide +kernel, by simp, by decide +kernel⟩
  unfold fallenCandles InOrder
  split
  · decide +kernel
  · split_ifs <;> decide +kernel

/-- C243: resampled to two minutes, the last candle is part of a group; what is read is made of three moments. -/
example : (modifyIntervalP ieee utcMinute 2 2).exec (fun t i => match i with
      | 0 => ⟨0, .fin 5, .fin 6, .fin 4, .fin 5, .fin 1⟩
      | _ => ⟨60, .fin t, .fin (t + 10), .fin t, .fin (t + 5), .fin 1⟩) 0 =
    some (.ok [⟨0, .fin 5, .fin 19, .fin 4, .fin 12, .fin 2⟩]) := by
  decide +kernel

end Finmod.Shared
