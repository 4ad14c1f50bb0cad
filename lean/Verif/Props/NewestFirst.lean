import Verif.Props.CandleGroups
import Verif.Props.CandleSpacing
import Verif.Props.Averages
import Verif.Props.RSI
import Verif.Props.Fractals

/-!
# Candles given newest first: C252
-/

namespace Finmod
open Go Spec

/-- Full statement of C252 for `ModifyInterval`: newest first in, newest first out. -/
def Spec.C252_claim (S : FloatSem) (minute : Int → Int) : Prop :=
  ∀ (cs out : List Candle) (interval : Int), cs.Pairwise (fun a b => a.time < b.time) →
    modifyInterval S minute cs interval = .ok out → modifyInterval S minute cs.reverse interval = .ok out.reverse

theorem zip_tail_reverse {α β : Type} (f : α × α → β) (l : List α) :
    (l.reverse.zip l.reverse.tail).map f = ((l.zip l.tail).map fun m => f (m.2, m.1)).reverse := by
  apply List.ext_getElem
  · simp
  · intro i h1 h2
    simp only [List.length_map, List.length_zip, List.length_reverse, List.length_tail] at h1
    simp only [List.getElem_map, List.getElem_zip, List.getElem_reverse, List.getElem_tail, List.length_map,
      List.length_zip, List.length_tail]
    congr 2
    · congr 1; omega
    · congr 1; omega

/-- **C252.** `GetMinInterval` does not mind the order. -/
theorem C252_minInterval {S : FloatSem} (hS : Lawful S) (cs : List Candle) (hb : ∀ g ∈ gaps cs, g < 2 ^ 53) :
    getMinInterval S cs.reverse = getMinInterval S cs := by
  by_cases hlen : 2 ≤ cs.length
  · have e : gaps cs.reverse = (gaps cs).reverse := by
      have := zip_tail_reverse (fun m : Candle × Candle => |m.2.time - m.1.time|) cs
      unfold gaps
      rw [this]
      simp only [abs_sub_comm]
    obtain ⟨g, hg, hmin, e1⟩ := C34_minInterval S hS cs hlen hb
    obtain ⟨g', hg', hmin', e2⟩ := C34_minInterval S hS cs.reverse (by simpa) (by rw [e]; simpa using hb)
    rw [e] at hg' hmin'
    have := hmin g' (by simpa using hg')
    have := hmin' g (by simpa using hg)
    rw [e1, e2, le_antisymm (hmin g' (by simpa using hg')) (hmin' g (by simpa using hg))]
  · match cs, hlen with
    | [], _ => rfl
    | [_], _ => rfl
    | _ :: _ :: _, h => simp at h

theorem closes_reverse {cs : List Candle} {xs : List ℚ} (h : Closes cs xs) : Closes cs.reverse xs.reverse :=
  List.rel_reverse h

theorem window_reverse {α : Type} (l : List α) {k n : Nat} (h : k + n ≤ l.length) :
    (l.reverse.drop (l.length - n - k)).take n = ((l.drop k).take n).reverse := by
  apply List.ext_getElem
  · simp; omega
  · intro i h1 h2
    simp only [List.length_take, List.length_drop, List.length_reverse] at h1 h2
    simp only [List.getElem_take, List.getElem_drop, List.getElem_reverse, List.length_take, List.length_drop]
    congr 1; omega

/-- **C252.** Moving averages come out in reverse order; exact arithmetic. -/
theorem C252_moving_average {cs : List Candle} {xs : List ℚ} (h : Closes cs xs) (n : Nat) (h1 : 1 ≤ n) (h2 : n ≤ cs.length) :
    ∃ out out', movingAverage FloatSem.exact (some cs) n = .ok out ∧
      movingAverage FloatSem.exact (some cs.reverse) n = .ok out' ∧ out'.map Fl.toRat = (out.map Fl.toRat).reverse := by
  obtain ⟨out, e, l, hv⟩ := C65_moving_average_exact h n h1 h2
  obtain ⟨out', e', l', hv'⟩ := C65_moving_average_exact (closes_reverse h) n h1 (by simpa)
  refine ⟨out, out', e, e', ?_⟩
  rw [List.length_reverse] at l'
  apply List.ext_getElem
  · simp; omega
  · intro i hi hi'
    simp only [List.length_map] at hi
    simp only [List.getElem_map, List.getElem_reverse, List.length_map]
    have a := hv' i _ (List.getElem?_eq_getElem hi)
    have b := hv (out.length - 1 - i) _ (List.getElem?_eq_getElem (by omega))
    rw [a.toRat, b.toRat]
    have hw := window_reverse xs (k := out.length - 1 - i) (n := n) (by have := h.length; omega)
    have : xs.length - n - (out.length - 1 - i) = i := by have := h.length; omega
    rw [this] at hw
    rw [hw, List.sum_reverse]

theorem riseQ_reverse (xs : List ℚ) : riseQ xs.reverse = fallQ xs := by
  unfold riseQ fallQ
  rw [zip_tail_reverse, List.sum_reverse]

theorem fallQ_reverse (xs : List ℚ) : fallQ xs.reverse = riseQ xs := by
  unfold riseQ fallQ
  rw [zip_tail_reverse, List.sum_reverse]

/-- **C252.** RSI turns upside down: the values of a series newest first are 100 minus those of the series, in reverse
order (NaN where those are). `a` is the oldest candle, `b` the newest; RSI reads one candle behind its slice (C77), so
the two slices are those that leave out one at the end. -/
theorem C252_rsi {a b : Candle} {cs : List Candle} {xs : List ℚ} (h : Closes (a :: cs ++ [b]) xs) (h14 : 13 ≤ cs.length)
    (n : Nat) (hn : n ≤ cs.length + 1) :
    ∃ out out', RSI FloatSem.exact (some (a :: cs)) [b] n = .ok out ∧
      RSI FloatSem.exact (some (b :: cs.reverse)) [a] n = .ok out' ∧ out'.length = out.length ∧
      ∀ k, k < out.length → (out[k]? = some .nan ∧ out'[out.length - 1 - k]? = some .nan) ∨
        ∃ v, out[k]? = some (.fin v) ∧ out'[out.length - 1 - k]? = some (.fin (100 - v)) := by
  have h' : Closes (b :: cs.reverse ++ [a]) xs.reverse := by
    have := closes_reverse h
    simpa using this
  obtain ⟨out, e, l, hv⟩ := C78_rsi_exact (cs := a :: cs) (spare := [b]) h (by simp; omega) (by simp) n (by simpa using hn)
  obtain ⟨out', e', l', hv'⟩ := C78_rsi_exact (cs := b :: cs.reverse) (spare := [a]) h' (by simp; omega) (by simp) n
    (by simpa using hn)
  have hx : xs.length = cs.length + 2 := by have := h.length; simp at this; omega
  simp only [List.length_cons, List.length_reverse] at l l'
  refine ⟨out, out', e, e', by omega, ?_⟩
  intro k hk
  have a1 := hv k hk
  have b1 := hv' (out.length - 1 - k) (by omega)
  have hw := window_reverse xs (k := k) (n := n + 1) (by omega)
  rw [show xs.length - (n + 1) - k = out.length - 1 - k by omega] at hw
  simp only [hw, riseQ_reverse, fallQ_reverse] at b1
  simp only at a1
  rw [a1, b1]
  generalize (xs.drop k).take (n + 1) = w
  by_cases h0 : riseQ w + fallQ w = 0
  · left
    rw [if_pos h0, if_pos (by rw [add_comm]; exact h0)]
    exact ⟨rfl, rfl⟩
  · right
    rw [if_neg h0, if_neg (by rw [add_comm]; exact h0)]
    refine ⟨_, rfl, ?_⟩
    congr 2
    rw [add_comm (fallQ w)]
    field_simp
    ring

/-- **C252.** Without NaN and ties the same fractals are found. -/
theorem C252_fractals {cs : List Candle} (hn : Spec.NoNaN cs) (ht : NoTies cs) :
    (williamFractals cs.reverse).Perm (williamFractals cs) := by
  have hn' : Spec.NoNaN cs.reverse := fun c hc => hn c (by simpa using hc)
  have get : ∀ m, m < cs.length → cs.reverse[m]? = cs[cs.length - 1 - m]? := fun m hm => by
    rw [List.getElem?_reverse hm]
  have eqc : ∀ x y : Fl, Fl.eq x y = Fl.eq y x := by
    intro x y; unfold Fl.eq; rw [Bool.eq_iff_iff]; simp only [Bool.and_eq_true, Bool.not_eq_true', beq_iff_eq, decide_eq_true_eq]; tauto
  have ht' : NoTies cs.reverse := by
    intro m d c e hc hd he
    have hl : m + d < cs.length := by
      have := (List.getElem?_eq_some_iff.1 he).1; simpa using this
    rw [get _ (by omega)] at hc
    rw [get _ hl] at he
    have := ht (cs.length - 1 - (m + d)) d e c he hd (by rw [← hc]; congr 1; omega)
    rw [eqc, eqc c.low]
    exact this
  rw [C83_local_extremes hn ht, C83_local_extremes hn' ht', List.length_reverse]
  have hloc : ∀ t i, i < cs.length - 4 →
      localExtreme t cs.reverse (i + 2) = localExtreme t cs (cs.length - 4 - 1 - i + 2) := by
    intro t i hi
    unfold localExtreme
    rw [get _ (by omega), get _ (by omega), get _ (by omega), get _ (by omega), get _ (by omega)]
    rw [show cs.length - 1 - (i + 2 - 2) = cs.length - 4 - 1 - i + 2 + 2 by omega,
      show cs.length - 1 - (i + 2 - 1) = cs.length - 4 - 1 - i + 2 + 1 by omega,
      show cs.length - 1 - (i + 2) = cs.length - 4 - 1 - i + 2 by omega,
      show cs.length - 1 - (i + 2 + 1) = cs.length - 4 - 1 - i + 2 - 1 by omega,
      show cs.length - 1 - (i + 2 + 2) = cs.length - 4 - 1 - i + 2 - 2 by omega]
    generalize cs.length - 4 - 1 - i + 2 = j
    rcases cs[j - 2]? with _ | a <;> rcases cs[j - 1]? with _ | b <;> rcases cs[j]? with _ | c <;>
      rcases cs[j + 1]? with _ | d <;> rcases cs[j + 2]? with _ | e <;> try rfl
    simp only [Bool.and_comm, Bool.and_left_comm, Bool.and_assoc]
  have hat : ∀ i, i < cs.length - 4 → fractalsAt cs.reverse (i + 2) = fractalsAt cs (cs.length - 4 - 1 - i + 2) := by
    intro i hi
    unfold fractalsAt
    rw [get _ (by omega), hloc _ _ hi, hloc _ _ hi, show cs.length - 1 - (i + 2) = cs.length - 4 - 1 - i + 2 by omega]
  have hrev : (List.range (cs.length - 4)).flatMap (fun i => fractalsAt cs.reverse (i + 2)) =
      (List.range (cs.length - 4)).reverse.flatMap fun i => fractalsAt cs (i + 2) := by
    have : (List.range (cs.length - 4)).reverse = (List.range (cs.length - 4)).map fun i => cs.length - 4 - 1 - i := by
      apply List.ext_getElem
      · simp
      · intro i h1 h2; simp
    rw [this, List.flatMap_map]
    apply List.flatMap_congr
    intro i hi
    exact hat i (List.mem_range.1 hi)
  rw [hrev]
  exact (List.reverse_perm _).flatMap_right _

/-- **C252**, what `ModifyInterval` gives for a series newest first: every candle it makes shows time and open of the
newest of a group of consecutive candles, and the close of the oldest: opens and closes are swapped. -/
theorem C252_swapped_partial (S : FloatSem) (minute : Int → Int) {cs out : List Candle} {interval : Int} (hlen : 2 ≤ cs.length)
    (hord : cs.Pairwise fun a b => b.time < a.time) (h : modifyInterval S minute cs interval = .ok out) :
    ∃ (pre : List Candle) (groups : List (List Candle)), cs = pre ++ groups.flatten ∧
      List.Forall₂ (fun g o => ∃ newest ∈ g, ∃ oldest ∈ g, (∀ c ∈ g, oldest.time ≤ c.time ∧ c.time ≤ newest.time) ∧
        o.time = newest.time ∧ o.opn = newest.opn ∧ o.close = oldest.close) groups out := by
  obtain ⟨pre, groups, e, -, hne, hs⟩ := C24_groups S minute cs interval out hlen h
  refine ⟨pre, groups, e, ?_⟩
  have hg : ∀ g ∈ groups, g.Pairwise fun a b => b.time < a.time := by
    intro g hg
    rw [e] at hord
    exact (List.pairwise_append.1 hord).2.1.sublist (List.sublist_flatten_of_mem hg)
  clear e h
  induction hs with
  | nil => exact .nil
  | @cons g o gs os hgo _ ih =>
    refine .cons ?_ (ih (fun x hx => hne x (by simp [hx])) fun x hx => hg x (by simp [hx]))
    have hp := hg g (by simp)
    have hn := hne g (by simp)
    refine ⟨g.head hn, List.head_mem hn, g.getLast hn, List.getLast_mem hn, ?_, ?_, ?_, ?_⟩
    · intro c hc
      constructor
      · rw [← List.dropLast_append_getLast hn] at hc hp
        rcases List.mem_append.1 hc with hc | hc
        · exact (((List.pairwise_append.1 hp).2.2 c hc _ (by simp)).le).trans (le_refl _)
        · simp at hc; rw [hc]
      · cases g with
        | nil => exact absurd rfl hn
        | cons a g =>
          rcases List.mem_cons.1 hc with rfl | hc
          · exact le_refl _
          · exact ((List.pairwise_cons.1 hp).1 c hc).le
    · have := hgo.time; rw [List.head?_eq_some_head hn] at this; simpa using this.symm
    · have := hgo.opn; rw [List.head?_eq_some_head hn] at this; simpa using this.symm
    · have := hgo.close; rw [List.getLast?_eq_some_getLast hn] at this; simpa using this.symm

/-- **C252** is false of `ModifyInterval`: four one-minute candles to two minutes, oldest and newest first. -/
theorem C252_newest_first_violated : ¬ Spec.C252_claim ieee utcMinute := by
  intro h
  have := h demoCandles [⟨120, .fin 2, .fin 5, .fin 0, .fin 1, .fin (5/2)⟩, ⟨240, .fin 1, .fin 2, .fin 1, .fin 2, .fin 1⟩] 2
    (by decide +kernel) (by decide +kernel)
  revert this
  decide +kernel

/-- **Example for C252.** Newest first: the first candle made has the open of 240 and the close of 180. -/
example : demoCandles.reverse.Pairwise (fun a b => b.time < a.time) ∧ modifyInterval ieee utcMinute demoCandles.reverse 2 =
    .ok [⟨240, .fin 1, .fin 4, .fin 0, .fin 1, .fin 3⟩, ⟨120, .fin 2, .fin 5, .fin 1, .fin 2, .fin (3/2)⟩] := by
  decide +kernel

/-- **Example for C252.** -/
example : getMinInterval ieee demoCandles.reverse = 1 ∧ getMinInterval ieee demoCandles = 1 ∧
    RSI FloatSem.exact (some rsiExample) [rsiCandle 0] 13 = .ok [.fin (200/3), .fin (275/4), .fin (275/8)] ∧
    RSI FloatSem.exact (some ((rsiExample ++ [rsiCandle 0]).reverse.take 15)) [rsiCandle 10] 13 =
      .ok [.fin (525/8), .fin (125/4), .fin (100/3)] := by decide +kernel

/-- **Example for C252.** -/
example : Spec.NoNaN exFractals ∧ NoTies exFractals ∧
    williamFractals exFractals.reverse = [⟨4, .fin 2, .down⟩, ⟨3, .fin 15, .up⟩] :=
  ⟨by decide +kernel, noTies_of_check (by decide +kernel), by decide +kernel⟩

end Finmod
