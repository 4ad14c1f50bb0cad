import Mathlib.Data.List.Induction
import Mathlib.Algebra.Order.Ring.Abs
import Mathlib.Tactic.Ring
import Mathlib.Tactic.Linarith
import Verif.Spec.Candle
import Verif.Lemmas.ListX

/-! `ModifyInterval` as "cut into groups, summarise each group". -/

namespace Finmod
open Go Spec

/-- Summary of one group, as `compressCandle` computes it. -/
def compressGroup (S : FloatSem) (g : List Candle) : Res Candle :=
  match g.head?, g.getLast? with
  | some first, some last =>
    match fixed5 S (volumeLoop S (.fin 0) g) with
    | some vol =>
      .ok { time := first.time, opn := first.opn, high := highLoop (minHigh S) g,
            low := lowLoop (maxLow S) g, close := last.close, volume := vol }
    | none => .err .external { time := 0, opn := .fin 0, high := .fin 0, low := .fin 0, close := .fin 0, volume := .fin 0 }
  | _, _ => .panic

/-- First failure wins. -/
def resMapL {α β : Type} (f : α → Res β) : List α → Res (List β)
  | [] => .ok []
  | a :: as =>
    match f a with
    | .ok b =>
      match resMapL f as with
      | .ok bs => .ok (b :: bs)
      | .err e _ => .err e []
      | .panic => .panic
    | .err e _ => .err e []
    | .panic => .panic

/-- Cut before every boundary. -/
def splitB (bd : Candle → Bool) : List Candle → List Candle → List (List Candle)
  | cur, [] => [cur]
  | cur, v :: vs => if bd v then cur :: splitB bd [v] vs else splitB bd (cur ++ [v]) vs

theorem compressCandle_group (S : FloatSem) (pre cur post : List Candle) (h : cur ≠ []) :
    compressCandle S (pre ++ cur ++ post) pre.length (pre.length + cur.length) =
      compressGroup S cur := by
  have hlen : 0 < cur.length := List.length_pos_iff.2 h
  have e1 : (pre ++ cur ++ post)[pre.length]? = cur.head? := by
    rw [List.append_assoc, List.getElem?_append_right (le_refl _), List.getElem?_append_left (by omega)]
    simp [List.head?_eq_getElem?]
  have e2 : (pre ++ cur ++ post)[pre.length + cur.length - 1]? = cur.getLast? := by
    rw [List.append_assoc, List.getElem?_append_right (by omega),
      List.getElem?_append_left (by omega), List.getLast?_eq_getElem?]
    congr 1; omega
  have e3 : ((pre ++ cur ++ post).drop pre.length).take (pre.length + cur.length - pre.length) = cur := by
    rw [List.append_assoc, List.drop_left, Nat.add_sub_cancel_left, List.take_left]
  unfold compressCandle compressGroup
  rw [e1, e2, e3, List.head?_eq_some_head h, List.getLast?_eq_some_getLast h]
  simp only
  rw [if_pos ⟨by omega, by simp⟩]
  cases fixed5 S (volumeLoop S (Fl.fin 0) cur) <;> rfl

/-- The loop and the final group, together. -/
theorem resample_eq (S : FloatSem) (interval pivot : Int) (bd : Candle → Bool)
    (vs : List Candle) (hbd : ∀ v ∈ vs, isBoundary S interval pivot v = some (bd v))
    (pre cur : List Candle) (hcur : cur ≠ []) (acc candles : List Candle)
    (hc : candles = pre ++ cur ++ vs) :
    (match resampleLoop S candles interval pivot vs (pre.length + cur.length) pre.length acc with
      | .ok (acc, start) =>
        match compressCandle S candles start candles.length with
        | .ok c => Res.ok (acc ++ [c])
        | .err e _ => .err e []
        | .panic => .panic
      | .err e _ => .err e []
      | .panic => .panic) =
    match resMapL (compressGroup S) (splitB bd cur vs) with
      | .ok cs => .ok (acc ++ cs)
      | .err e _ => .err e []
      | .panic => .panic := by
  induction vs generalizing pre cur acc with
  | nil =>
    have : compressCandle S candles pre.length candles.length = compressGroup S cur := by
      have hl : candles.length = pre.length + cur.length := by rw [hc]; simp
      rw [hl, hc]; exact compressCandle_group S pre cur [] hcur
    simp only [resampleLoop, this, splitB, resMapL]
    cases compressGroup S cur <;> rfl
  | cons v vs ih =>
    have hb := hbd v (by simp)
    cases hv : bd v with
    | false =>
      rw [hv] at hb
      have := ih (fun w hw => hbd w (by simp [hw])) pre (cur ++ [v]) (by simp) acc
        (by rw [hc]; simp)
      simp only [resampleLoop, hb, splitB, hv, Bool.false_eq_true, if_false]
      rw [← this]
      simp [Nat.add_assoc]
    | true =>
      rw [hv] at hb
      have hcg : compressCandle S candles pre.length (pre.length + cur.length) = compressGroup S cur := by
        rw [hc]; exact compressCandle_group S pre cur (v :: vs) hcur
      simp only [resampleLoop, hb, splitB, hv, if_true, hcg, resMapL]
      cases hg : compressGroup S cur with
      | ok c =>
        have := ih (fun w hw => hbd w (by simp [hw])) (pre ++ cur) [v] (by simp) (acc ++ [c])
          (by rw [hc]; simp)
        simp only [List.length_append, List.length_singleton] at this
        rw [this]
        cases resMapL (compressGroup S) (splitB bd [v] vs) <;> simp
      | err e w => rfl
      | panic => rfl

/-! ### splitB -/

theorem splitB_flatten (bd : Candle → Bool) (cur vs : List Candle) :
    (splitB bd cur vs).flatten = cur ++ vs := by
  induction vs generalizing cur with
  | nil => simp [splitB]
  | cons v vs ih =>
    unfold splitB
    split <;> simp [ih]

theorem splitB_ne_nil (bd : Candle → Bool) (cur vs : List Candle) (h : cur ≠ []) :
    ∀ g ∈ splitB bd cur vs, g ≠ [] := by
  induction vs generalizing cur with
  | nil => simp [splitB, h]
  | cons v vs ih =>
    unfold splitB
    split
    · intro g hg
      rcases List.mem_cons.1 hg with rfl | hg
      · exact h
      · exact ih [v] (by simp) g hg
    · exact ih _ (by simp)

theorem splitB_none (bd : Candle → Bool) (cur vs : List Candle) (h : ∀ v ∈ vs, bd v = false) :
    splitB bd cur vs = [cur ++ vs] := by
  induction vs generalizing cur with
  | nil => simp [splitB]
  | cons v vs ih =>
    unfold splitB
    rw [h v (by simp)]
    simp [ih _ (fun w hw => h w (by simp [hw]))]

theorem splitB_block (bd : Candle → Bool) (cur a b : List Candle) (v : Candle)
    (h : ∀ w ∈ a, bd w = false) (hv : bd v = true) :
    splitB bd cur (a ++ v :: b) = (cur ++ a) :: splitB bd [v] b := by
  induction a generalizing cur with
  | nil => simp [splitB, hv]
  | cons w a ih =>
    rw [List.cons_append, splitB, h w (by simp)]
    simp [ih _ (fun x hx => h x (by simp [hx]))]

/-- Boundaries at every `m`-th place give the chunks of size `m`. -/
theorem splitB_chunks (bd : Candle → Bool) (m : Nat) (hm : 0 < m) (p : Candle) (rest : List Candle)
    (h : ∀ j (hj : j < (p :: rest).length), 0 < j → (bd (p :: rest)[j] = true ↔ m ∣ j)) :
    (splitB bd [p] rest).length = ((p :: rest).length + m - 1) / m ∧
    ∀ i (hi : i < (splitB bd [p] rest).length),
      (splitB bd [p] rest)[i] = ((p :: rest).drop (i * m)).take m := by
  induction hn : rest.length using Nat.strong_induction_on generalizing p rest with
  | _ n ih =>
  by_cases hlt : rest.length < m
  · have hnone : ∀ v ∈ rest, bd v = false := by
      intro v hv
      obtain ⟨j, hj, rfl⟩ := List.getElem_of_mem hv
      have := h (j + 1) (by simp; omega) (by omega)
      simp only [List.getElem_cons_succ] at this
      by_contra hc
      simp only [Bool.not_eq_false] at hc
      have := Nat.le_of_dvd (by omega) (this.1 hc)
      omega
    rw [splitB_none bd [p] rest hnone]
    constructor
    · simp only [List.length_cons, List.length_nil]
      have : (rest.length + 1 + m - 1) / m = 1 := by
        rw [show rest.length + 1 + m - 1 = rest.length + m by omega, Nat.add_div_right _ hm,
          Nat.div_eq_of_lt hlt]
      omega
    · intro i hi
      simp only [List.length_singleton, Nat.lt_one_iff] at hi
      subst hi
      simp only [List.getElem_cons_zero, Nat.zero_mul, List.drop_zero]
      rw [List.take_of_length_le (by simp; omega)]
      rfl
  · -- a full block, then a boundary
    obtain ⟨a, v, b, hr, ha⟩ : ∃ a v b, rest = a ++ v :: b ∧ a.length = m - 1 := by
      refine ⟨rest.take (m - 1), rest[m - 1], rest.drop m, ?_, by simp; omega⟩
      obtain ⟨m', rfl⟩ : ∃ m', m = m' + 1 := ⟨m - 1, by omega⟩
      simp only [Nat.add_sub_cancel, List.getElem_cons_drop, List.take_append_drop]
    have hna : ∀ w ∈ a, bd w = false := by
      intro w hw
      obtain ⟨j, hj, rfl⟩ := List.getElem_of_mem hw
      have h1 := h (j + 1) (by rw [hr]; simp; omega) (by omega)
      have e : (p :: rest)[j + 1]'(by rw [hr]; simp; omega) = a[j] := by
        simp only [hr, List.getElem_cons_succ]
        rw [List.getElem_append_left hj]
      rw [e] at h1
      by_contra hc
      simp only [Bool.not_eq_false] at hc
      have := Nat.le_of_dvd (by omega) (h1.1 hc)
      omega
    have hvb : bd v = true := by
      have h1 := h m (by rw [hr]; simp; omega) hm
      have e : (p :: rest)[m]'(by rw [hr]; simp; omega) = v := by
        obtain ⟨m', rfl⟩ : ∃ m', m = m' + 1 := ⟨m - 1, by omega⟩
        simp only [hr, List.getElem_cons_succ]
        rw [List.getElem_append_right (by omega)]
        simp [ha]
      rw [e] at h1
      exact h1.2 (dvd_refl _)
    have hdrop : (p :: rest).drop m = v :: b := by
      rw [hr, ← List.cons_append, List.drop_append_of_le_length (by simp; omega),
        List.drop_of_length_le (by simp; omega)]
      rfl
    have hrec := ih b.length (by rw [← hn, hr]; simp; omega) v b (by
      intro j hj hj0
      have h1 := h (j + m) (by
        have := congrArg List.length hdrop
        simp only [List.length_drop] at this
        omega) (by omega)
      have e : (p :: rest)[j + m]'(by
        have := congrArg List.length hdrop
        simp only [List.length_drop] at this
        omega) = (v :: b)[j] := by
        simp only [← hdrop, List.getElem_drop, Nat.add_comm m j]
      rw [e] at h1
      rw [h1]; simp) rfl
    have hs : splitB bd [p] rest = (p :: a) :: splitB bd [v] b := by
      rw [hr]; exact splitB_block bd [p] a b v hna hvb
    have hl : (p :: rest).length = m + (v :: b).length := by
      have := congrArg List.length hdrop
      simp only [List.length_drop] at this
      simp only [List.length_cons] at *
      omega
    refine ⟨?_, ?_⟩
    · rw [hs, List.length_cons, hrec.1, hl]
      rw [show m + (v :: b).length + m - 1 = ((v :: b).length + m - 1) + m by simp; omega,
        Nat.add_div_right _ hm]
    · intro i hi
      simp only [hs]
      cases i with
      | zero =>
        simp only [List.getElem_cons_zero, Nat.zero_mul, List.drop_zero]
        rw [hr, ← List.cons_append, List.take_append_of_le_length (by simp; omega),
          List.take_of_length_le (by simp; omega)]
      | succ i =>
        simp only [List.getElem_cons_succ]
        rw [hrec.2, ← hdrop, List.drop_drop]
        congr 2
        ring

/-! ### the whole call -/

theorem resMapL_ok {α β : Type} {f : α → Res β} {l : List α} {out : List β}
    (h : resMapL f l = .ok out) : List.Forall₂ (fun a b => f a = .ok b) l out := by
  induction l generalizing out with
  | nil => simp [resMapL] at h; subst h; exact .nil
  | cons a l ih =>
    unfold resMapL at h
    cases ha : f a with
    | ok b =>
      rw [ha] at h
      cases hl : resMapL f l with
      | ok bs => rw [hl] at h; simp at h; subst h; exact .cons ha (ih hl)
      | err e w => rw [hl] at h; simp at h
      | panic => rw [hl] at h; simp at h
    | err e w => rw [ha] at h; simp at h
    | panic => rw [ha] at h; simp at h

theorem resMapL_of_ok {α β : Type} {f : α → Res β} {l : List α} {out : List β}
    (h : List.Forall₂ (fun a b => f a = .ok b) l out) : resMapL f l = .ok out := by
  induction h with
  | nil => rfl
  | cons h _ ih => simp [resMapL, h, ih]

theorem isAligned_iff (minute : Int → Int) (interval : Int) (c : Candle) :
    isAligned minute interval c = true ↔ Aligned minute interval c := by
  have e : modMinutes interval = minutePart interval := by
    unfold modMinutes minutePart imod
    split
    · rw [Int.tmod_eq_emod_of_nonneg (by omega)]
    · rfl
  unfold isAligned Aligned imod
  rw [e]
  simp only [Bool.or_eq_true, beq_iff_eq]
  rw [or_comm, Int.dvd_iff_tmod_eq_zero]

/-- The boundary test as a Boolean function (for a non-zero interval). -/
def boundary (S : FloatSem) (interval pivot : Int) (c : Candle) : Bool :=
  imod (S.toInt (Fl.abs (S.ofInt (idiv (wrap64 (c.time - pivot)) 60)))) interval == 0

theorem isBoundary_eq (S : FloatSem) {interval : Int} (h : interval ≠ 0) (pivot : Int) (c : Candle) :
    isBoundary S interval pivot c = some (boundary S interval pivot c) := by
  simp [isBoundary, boundary, h]

/-- Spacing of the first two candles in whole minutes, as the code computes it. -/
def spacing (c0 c1 : Candle) : Int := idiv (wrap64 (c1.time - c0.time)) 60

theorem modifyInterval_eq (S : FloatSem) (minute : Int → Int) (c0 c1 : Candle) (cs : List Candle)
    (interval : Int) (h1 : ¬ (spacing c0 c1 ≠ 1 ∧ interval = 1)) (h2 : spacing c0 c1 ≠ 0)
    (h3 : imod interval (spacing c0 c1) = 0) (pre : List Candle) (p : Candle) (rest : List Candle)
    (hs : c0 :: c1 :: cs = pre ++ p :: rest)
    (hpre : ∀ v ∈ pre, isAligned minute interval v = false)
    (hp : isAligned minute interval p = true) (h0 : interval ≠ 0) :
    modifyInterval S minute (c0 :: c1 :: cs) interval =
      resMapL (compressGroup S) (splitB (boundary S interval p.time) [p] rest) := by
  have hidx : findFirstIndex minute (c0 :: c1 :: cs) interval = .ok pre.length := by
    have : (c0 :: c1 :: cs).findIdx? (isAligned minute interval) = some pre.length := by
      rw [hs, List.findIdx?_append]
      have hn : pre.findIdx? (isAligned minute interval) = none := by
        rw [List.findIdx?_eq_none_iff]; exact hpre
      rw [hn]
      simp [List.findIdx?_cons, hp]
    simp [findFirstIndex, this]
  have hget : (c0 :: c1 :: cs)[pre.length]? = some p := by rw [hs]; simp
  have hdrop : (c0 :: c1 :: cs).drop (pre.length + 1) = rest := by
    rw [hs, List.drop_append]; simp
  have hr := resample_eq S interval p.time (boundary S interval p.time) rest
    (fun v _ => isBoundary_eq S h0 p.time v) pre [p] (by simp) [] (c0 :: c1 :: cs)
    (by rw [hs]; simp)
  unfold modifyInterval
  rw [if_neg (by simp)]
  simp only
  unfold spacing at h1 h2 h3
  rw [if_neg h1, if_neg h2, if_neg (by simpa using h3), hidx]
  simp only [hget, hdrop]
  simp only [List.length_singleton] at hr
  refine hr.trans ?_
  cases hm : resMapL (compressGroup S) (splitB (boundary S interval p.time) [p] rest) with
  | ok v => rfl
  | panic => rfl
  | err e w =>
    have : w = [] := by
      clear hr
      revert hm
      generalize splitB (boundary S interval p.time) [p] rest = l
      intro hm
      cases l with
      | nil => simp [resMapL] at hm
      | cons a l =>
        unfold resMapL at hm
        split at hm
        · split at hm <;> simp_all
        · simp_all
        · simp_all
    rw [this]

/-- What a successful call on two or more candles looks like. -/
theorem modifyInterval_ok {S : FloatSem} {minute : Int → Int} {candles : List Candle}
    {interval : Int} {out : List Candle} (hlen : 2 ≤ candles.length)
    (h : modifyInterval S minute candles interval = .ok out) :
    ∃ pre p rest, candles = pre ++ p :: rest ∧
      (∀ v ∈ pre, isAligned minute interval v = false) ∧ isAligned minute interval p = true ∧
      ((interval = 0 ∧ rest = []) ∨ interval ≠ 0) ∧
      resMapL (compressGroup S) (splitB (boundary S interval p.time) [p] rest) = .ok out := by
  match candles, hlen with
  | c0 :: c1 :: cs, _ =>
  have h' := h
  unfold modifyInterval at h
  rw [if_neg (by simp)] at h
  simp only at h
  split at h
  · simp at h
  split at h
  · simp at h
  split at h
  · simp at h
  rename_i h1 h2 h3
  cases hf : findFirstIndex minute (c0 :: c1 :: cs) interval with
  | err e w => rw [hf] at h; simp at h
  | panic => rw [hf] at h; simp at h
  | ok i =>
    unfold findFirstIndex at hf
    split at hf
    · rename_i j hj
      simp at hf; subst hf
      obtain ⟨pre, p, rest, hs, hl, hp, hpre⟩ := findIdx?_some_split hj
      by_cases h0 : interval = 0
      · -- interval 0: every later candle would panic
        refine ⟨pre, p, rest, hs, hpre, hp, ?_, ?_⟩
        · left; refine ⟨h0, ?_⟩
          by_contra hne
          obtain ⟨v, vs, rfl⟩ := List.exists_cons_of_ne_nil hne
          have hidx : findFirstIndex minute (c0 :: c1 :: cs) interval = .ok j := by
            simp [findFirstIndex, hj]
          have hget : (c0 :: c1 :: cs)[j]? = some p := by rw [hs, ← hl]; simp
          have hdrop : (c0 :: c1 :: cs).drop (j + 1) = v :: vs := by
            rw [hs, ← hl, List.drop_append]; simp
          rw [hidx] at h
          simp only [hget, hdrop] at h
          simp [resampleLoop, isBoundary, h0] at h
        · have hr : rest = [] := by
            by_contra hne
            obtain ⟨v, vs, rfl⟩ := List.exists_cons_of_ne_nil hne
            have hidx : findFirstIndex minute (c0 :: c1 :: cs) interval = .ok j := by
              simp [findFirstIndex, hj]
            have hget : (c0 :: c1 :: cs)[j]? = some p := by rw [hs, ← hl]; simp
            have hdrop : (c0 :: c1 :: cs).drop (j + 1) = v :: vs := by
              rw [hs, ← hl, List.drop_append]; simp
            rw [hidx] at h
            simp only [hget, hdrop] at h
            simp [resampleLoop, isBoundary, h0] at h
          subst hr
          have hidx : findFirstIndex minute (c0 :: c1 :: cs) interval = .ok j := by
            simp [findFirstIndex, hj]
          have hget : (c0 :: c1 :: cs)[j]? = some p := by rw [hs, ← hl]; simp
          have hdrop : (c0 :: c1 :: cs).drop (j + 1) = [] := by
            rw [hs, ← hl, List.drop_append]; simp
          have hcg := compressCandle_group S pre [p] [] (by simp)
          rw [hidx] at h
          simp only [hget, hdrop, resampleLoop] at h
          have hlen : (c0 :: c1 :: cs).length = pre.length + [p].length := by rw [hs]; simp
          have hcg' : compressCandle S (c0 :: c1 :: cs) j (c0 :: c1 :: cs).length =
              compressGroup S [p] := by
            rw [hlen, ← hl, hs]; simpa using hcg
          rw [hcg'] at h
          simp only [splitB, resMapL]
          cases hc : compressGroup S [p] with
          | ok c => rw [hc] at h; simpa using h
          | err e w => rw [hc] at h; simp at h
          | panic => rw [hc] at h; simp at h
      · refine ⟨pre, p, rest, hs, hpre, hp, .inr h0, ?_⟩
        rw [← modifyInterval_eq S minute c0 c1 cs interval h1 h2 (by simpa [spacing] using h3) pre p rest hs
          hpre hp h0]
        exact h'
    · simp at hf

/-! ### groups and summaries -/

theorem highLoop_eq (acc : Fl) (g : List Candle) :
    highLoop acc g = (g.map (·.high)).foldl (fun a h => if Fl.gt h a then h else a) acc := by
  induction g generalizing acc with
  | nil => rfl
  | cons v g ih => simp [highLoop, ih]

theorem volumeLoop_eq (S : FloatSem) (acc : Fl) (g : List Candle) :
    volumeLoop S acc g = (g.map (·.volume)).foldl S.add acc := by
  induction g generalizing acc with
  | nil => rfl
  | cons v g ih => simp [volumeLoop, ih]

theorem highLoop_mem (acc : Fl) (g : List Candle) :
    (∃ v ∈ g, v.high = highLoop acc g) ∨
      (highLoop acc g = acc ∧ ∀ v ∈ g, Fl.gt v.high acc = false) := by
  induction g generalizing acc with
  | nil => right; exact ⟨rfl, by simp⟩
  | cons v g ih =>
    simp only [highLoop]
    by_cases hv : Fl.gt v.high acc = true
    · rw [if_pos hv]
      rcases ih v.high with ⟨w, hw, h⟩ | ⟨h, _⟩
      · left; exact ⟨w, by simp [hw], h⟩
      · left; exact ⟨v, by simp, h.symm⟩
    · rw [if_neg hv]
      rcases ih acc with ⟨w, hw, h⟩ | ⟨h, hall⟩
      · left; exact ⟨w, by simp [hw], h⟩
      · right; refine ⟨h, ?_⟩
        intro w hw
        rcases List.mem_cons.1 hw with rfl | hw
        · simpa using hv
        · exact hall w hw

theorem highLoop_ge (acc : Fl) (g : List Candle) (hacc : acc ≠ .nan) :
    highLoop acc g ≠ .nan ∧ acc.key ≤ (highLoop acc g).key ∧
      ∀ v ∈ g, v.high ≠ .nan → v.high.key ≤ (highLoop acc g).key := by
  induction g generalizing acc with
  | nil => exact ⟨hacc, le_refl _, by simp⟩
  | cons v g ih =>
    simp only [highLoop]
    by_cases hv : Fl.gt v.high acc = true
    · rw [if_pos hv]
      have hlt := Fl.lt_iff.1 hv
      obtain ⟨h1, h2, h3⟩ := ih v.high hlt.2.1
      refine ⟨h1, hlt.2.2.le.trans h2, ?_⟩
      intro w hw hn
      rcases List.mem_cons.1 hw with rfl | hw
      · exact h2
      · exact h3 w hw hn
    · rw [if_neg hv]
      obtain ⟨h1, h2, h3⟩ := ih acc hacc
      refine ⟨h1, h2, ?_⟩
      intro w hw hn
      rcases List.mem_cons.1 hw with rfl | hw
      · have : ¬ acc.key < w.high.key := fun hc => hv (Fl.lt_iff.2 ⟨hacc, hn, hc⟩)
        exact (not_lt.1 this).trans h2
      · exact h3 w hw hn

theorem lowLoop_mem (acc : Fl) (g : List Candle) :
    (∃ v ∈ g, v.low = lowLoop acc g) ∨
      (lowLoop acc g = acc ∧ ∀ v ∈ g, Fl.lt v.low acc = false) := by
  induction g generalizing acc with
  | nil => right; exact ⟨rfl, by simp⟩
  | cons v g ih =>
    simp only [lowLoop]
    by_cases hv : Fl.lt v.low acc = true
    · rw [if_pos hv]
      rcases ih v.low with ⟨w, hw, h⟩ | ⟨h, _⟩
      · left; exact ⟨w, by simp [hw], h⟩
      · left; exact ⟨v, by simp, h.symm⟩
    · rw [if_neg hv]
      rcases ih acc with ⟨w, hw, h⟩ | ⟨h, hall⟩
      · left; exact ⟨w, by simp [hw], h⟩
      · right; refine ⟨h, ?_⟩
        intro w hw
        rcases List.mem_cons.1 hw with rfl | hw
        · simpa using hv
        · exact hall w hw

theorem lowLoop_le (acc : Fl) (g : List Candle) (hacc : acc ≠ .nan) :
    lowLoop acc g ≠ .nan ∧ (lowLoop acc g).key ≤ acc.key ∧
      ∀ v ∈ g, v.low ≠ .nan → (lowLoop acc g).key ≤ v.low.key := by
  induction g generalizing acc with
  | nil => exact ⟨hacc, le_refl _, by simp⟩
  | cons v g ih =>
    simp only [lowLoop]
    by_cases hv : Fl.lt v.low acc = true
    · rw [if_pos hv]
      have hlt := Fl.lt_iff.1 hv
      obtain ⟨h1, h2, h3⟩ := ih v.low hlt.1
      refine ⟨h1, h2.trans hlt.2.2.le, ?_⟩
      intro w hw hn
      rcases List.mem_cons.1 hw with rfl | hw
      · exact h2
      · exact h3 w hw hn
    · rw [if_neg hv]
      obtain ⟨h1, h2, h3⟩ := ih acc hacc
      refine ⟨h1, h2, ?_⟩
      intro w hw hn
      rcases List.mem_cons.1 hw with rfl | hw
      · have : ¬ w.low.key < acc.key := fun hc => hv (Fl.lt_iff.2 ⟨hn, hacc, hc⟩)
        exact h2.trans (not_lt.1 this)
      · exact h3 w hw hn

theorem roundInt_half (q : ℚ) : |q - roundInt q| ≤ 1 / 2 := by
  unfold roundInt
  have h1 := Int.floor_le q
  have h2 := Int.lt_floor_add_one q
  simp only
  split
  · rw [abs_le]; constructor <;> linarith
  · split
    · push_cast; rw [abs_le]; constructor <;> linarith
    · split
      · rw [abs_le]; constructor <;> linarith
      · push_cast; rw [abs_le]; constructor <;> linarith

theorem fixed5_rounded {S : FloatSem} {x y : Fl} (h : fixed5 S x = some y) : Rounded5 S x y := by
  unfold fixed5 at h
  cases x with
  | nan => left; simp at h; exact ⟨rfl, h.symm⟩
  | inf b => left; simp at h; exact ⟨rfl, h.symm⟩
  | negZero =>
    right; refine ⟨rfl, 0, by simp [Fl.toRat], ?_⟩
    simp at h; subst h; right; simp
  | fin q =>
    right; refine ⟨rfl, roundInt (q * 100000), roundInt_half _, ?_⟩
    simp only at h
    split at h
    · rename_i h0
      right; refine ⟨h0, ?_⟩
      simp at h; subst h; simp
    · left
      split at h
      · simp at h
      · simp at h; rw [← h]

theorem compressGroup_summary {S : FloatSem} {g : List Candle} {c : Candle}
    (h : compressGroup S g = .ok c) : Summary S g c := by
  unfold compressGroup at h
  split at h
  · rename_i f l hf hl
    split at h
    · rename_i vol hv
      simp at h
      subst h
      constructor
      · simp [hf]
      · simp [hf]
      · simp [hl]
      · intro v hv hn hm
        obtain ⟨a, _, b⟩ := highLoop_ge (minHigh S) g hm
        exact Fl.le_iff.2 ⟨hn, a, b v hv hn⟩
      · exact highLoop_mem _ _
      · intro v hv hn hm
        obtain ⟨a, _, b⟩ := lowLoop_le (maxLow S) g hm
        exact Fl.le_iff.2 ⟨a, hn, b v hv hn⟩
      · exact lowLoop_mem _ _
      · have := fixed5_rounded hv
        rwa [volumeLoop_eq] at this
    · simp at h
  · simp at h

end Finmod
