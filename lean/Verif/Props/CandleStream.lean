import Verif.Props.CandleGroups

/-!
# C149: resampling a growing series

New candles at the end of the series only touch the last candle of the output.
-/

namespace Finmod
open Go Spec

theorem splitB_append (bd : Candle → Bool) (cur vs ext : List Candle) :
    ∃ front last, splitB bd cur vs = front ++ [last] ∧
      splitB bd cur (vs ++ ext) = front ++ splitB bd last ext := by
  induction vs generalizing cur with
  | nil => exact ⟨[], cur, by simp [splitB], by simp⟩
  | cons v vs ih =>
    by_cases hv : bd v = true
    · obtain ⟨front, last, h1, h2⟩ := ih [v]
      exact ⟨cur :: front, last, by simp [splitB, hv, h1], by simp [splitB, hv, h2]⟩
    · obtain ⟨front, last, h1, h2⟩ := ih (cur ++ [v])
      exact ⟨front, last, by simp [splitB, hv, h1], by simp [splitB, hv, h2]⟩

theorem splitB_head (bd : Candle → Bool) (cur vs : List Candle) :
    ∃ a tail, splitB bd cur vs = (cur ++ a) :: tail := by
  induction vs generalizing cur with
  | nil => exact ⟨[], [], by simp [splitB]⟩
  | cons v vs ih =>
    by_cases hv : bd v = true
    · exact ⟨[], splitB bd [v] vs, by simp [splitB, hv]⟩
    · obtain ⟨a, tail, h⟩ := ih (cur ++ [v])
      exact ⟨v :: a, tail, by simp [splitB, hv, h]⟩

theorem forall₂_append_left {α β : Type} {R : α → β → Prop} {l1 l2 : List α} {m : List β}
    (h : List.Forall₂ R (l1 ++ l2) m) :
    ∃ m1 m2, m = m1 ++ m2 ∧ List.Forall₂ R l1 m1 ∧ List.Forall₂ R l2 m2 := by
  induction l1 generalizing m with
  | nil => exact ⟨[], m, rfl, .nil, h⟩
  | cons a l1 ih =>
    cases h with
    | cons ha h' =>
      obtain ⟨m1, m2, rfl, h1, h2⟩ := ih h'
      exact ⟨_ :: m1, m2, rfl, .cons ha h1, h2⟩

theorem forall₂_fun {α β : Type} {R : α → β → Prop} (hR : ∀ a b c, R a b → R a c → b = c)
    {l : List α} {m1 m2 : List β} (h1 : List.Forall₂ R l m1) (h2 : List.Forall₂ R l m2) :
    m1 = m2 := by
  induction h1 generalizing m2 with
  | nil => cases h2; rfl
  | cons ha _ ih =>
    cases h2 with
    | cons hb h' => rw [hR _ _ _ ha hb, ih h']

theorem highLoop_append (acc : Fl) (g a : List Candle) :
    highLoop acc (g ++ a) = highLoop (highLoop acc g) a := by
  induction g generalizing acc with
  | nil => rfl
  | cons v g ih => simp only [List.cons_append, highLoop, ih]

theorem lowLoop_append (acc : Fl) (g a : List Candle) :
    lowLoop acc (g ++ a) = lowLoop (lowLoop acc g) a := by
  induction g generalizing acc with
  | nil => rfl
  | cons v g ih => simp only [List.cons_append, lowLoop, ih]

theorem compressGroup_parts {S : FloatSem} {g : List Candle} {c : Candle}
    (h : compressGroup S g = .ok c) :
    ∃ f, g.head? = some f ∧ c.time = f.time ∧ c.opn = f.opn ∧
      c.high = highLoop (minHigh S) g ∧ c.low = lowLoop (maxLow S) g := by
  unfold compressGroup at h
  split at h
  · rename_i f l hf hl
    split at h
    · simp only [Res.ok.injEq] at h; subst h; exact ⟨f, hf, rfl, rfl, rfl, rfl⟩
    · simp at h
  · simp at h

/-- The two outputs and the last, still open, candle. -/
theorem stream_core {S : FloatSem} {minute : Int → Int} {cs ext : List Candle} {interval : Int}
    {out out' : List Candle} (hlen : 2 ≤ cs.length)
    (h : modifyInterval S minute cs interval = .ok out)
    (h' : modifyInterval S minute (cs ++ ext) interval = .ok out') :
    ∃ front last next tail g a, out = front ++ [last] ∧ out' = front ++ next :: tail ∧
      g ≠ [] ∧ compressGroup S g = .ok last ∧ compressGroup S (g ++ a) = .ok next := by
  obtain ⟨pre, p, rest, hs, hpre, hp, _, hm⟩ := modifyInterval_ok hlen h
  obtain ⟨pre', p', rest', hs', hpre', hp', _, hm'⟩ :=
    modifyInterval_ok (by rw [List.length_append]; omega) h'
  have hw : (cs ++ ext).dropWhile (fun c => !isAligned minute interval c) = p :: (rest ++ ext) := by
    rw [hs, List.append_assoc, List.dropWhile_append_of_pos]
    · rw [List.cons_append, List.dropWhile_cons_of_neg]; simp [hp]
    · intro v hv; simp [hpre v hv]
  have hw' : (cs ++ ext).dropWhile (fun c => !isAligned minute interval c) = p' :: rest' := by
    rw [hs', List.dropWhile_append_of_pos]
    · rw [List.dropWhile_cons_of_neg]; simp [hp']
    · intro v hv; simp [hpre' v hv]
  rw [hw] at hw'
  obtain ⟨rfl, rfl⟩ := List.cons.inj hw'
  obtain ⟨front, last, e1, e2⟩ := splitB_append (boundary S interval p.time) [p] rest ext
  obtain ⟨a, tail, e3⟩ := splitB_head (boundary S interval p.time) last ext
  have hne : last ≠ [] := splitB_ne_nil (boundary S interval p.time) [p] rest (by simp) last
    (by rw [e1]; simp)
  rw [e2, e3] at hm'
  rw [e1] at hm
  obtain ⟨m1, m2, rfl, a1, a2⟩ := forall₂_append_left (resMapL_ok hm)
  obtain ⟨n1, n2, rfl, b1, b2⟩ := forall₂_append_left (resMapL_ok hm')
  have hmn : m1 = n1 := forall₂_fun (fun a b c hb hc => by rw [hb] at hc; exact Res.ok.inj hc) a1 b1
  subst hmn
  cases a2 with
  | cons ha hz =>
    cases hz
    cases b2 with
    | cons hb ht => exact ⟨m1, _, _, _, last, a, rfl, rfl, hne, ha, hb⟩

/-- C149: when candles are appended to a series of at least two, all earlier output candles stay
as they are except the last one, whose time and open stay. -/
theorem C149_append (S : FloatSem) (minute : Int → Int) (cs ext : List Candle) (interval : Int)
    (out out' : List Candle) (hlen : 2 ≤ cs.length)
    (h : modifyInterval S minute cs interval = .ok out)
    (h' : modifyInterval S minute (cs ++ ext) interval = .ok out') :
    ∃ front last next tail, out = front ++ [last] ∧ out' = front ++ next :: tail ∧
      next.time = last.time ∧ next.opn = last.opn := by
  obtain ⟨front, last, next, tail, g, a, e1, e2, hg, hl, hn⟩ := stream_core hlen h h'
  obtain ⟨f, hf, t1, o1, _, _⟩ := compressGroup_parts hl
  obtain ⟨f', hf', t2, o2, _, _⟩ := compressGroup_parts hn
  have : f' = f := by
    cases g with
    | nil => exact absurd rfl hg
    | cons x xs => simp at hf hf'; rw [← hf, ← hf']
  subst this
  exact ⟨front, last, next, tail, e1, e2, by rw [t1, t2], by rw [o1, o2]⟩

/-- C149: in float64, the high of that last candle never falls and its low never rises. -/
theorem C149_range_grows (minute : Int → Int) (cs ext : List Candle) (interval : Int)
    (out out' : List Candle) (hlen : 2 ≤ cs.length)
    (h : modifyInterval ieee minute cs interval = .ok out)
    (h' : modifyInterval ieee minute (cs ++ ext) interval = .ok out') :
    ∃ front last next tail, out = front ++ [last] ∧ out' = front ++ next :: tail ∧
      Fl.le last.high next.high = true ∧ Fl.le next.low last.low = true := by
  obtain ⟨front, last, next, tail, g, a, e1, e2, hg, hl, hn⟩ := stream_core hlen h h'
  obtain ⟨f, hf, _, _, u1, l1⟩ := compressGroup_parts hl
  obtain ⟨f', hf', _, _, u2, l2⟩ := compressGroup_parts hn
  have hm : minHigh ieee ≠ .nan := by decide +kernel
  have hm' : maxLow ieee ≠ .nan := by decide +kernel
  refine ⟨front, last, next, tail, e1, e2, ?_, ?_⟩
  · rw [u1, u2, highLoop_append]
    have h1 := (highLoop_ge _ g hm).1
    obtain ⟨h2, h3, _⟩ := highLoop_ge _ a h1
    rw [Fl.le_of_num h1 h2]; simpa using h3
  · rw [l1, l2, lowLoop_append]
    have h1 := (lowLoop_le _ g hm').1
    obtain ⟨h2, h3, _⟩ := lowLoop_le _ a h1
    rw [Fl.le_of_num h2 h1]; simpa using h3

theorem compressCandle_err {S : FloatSem} {cs : List Candle} {i j : Nat} {e : ErrCode} {w : Candle}
    (h : compressCandle S cs i j = .err e w) : e = .external := by
  unfold compressCandle at h
  split at h
  · split at h
    · simp only at h
      split at h
      · simp at h
      · simp only [Res.err.injEq] at h; exact h.1.symm
    · simp at h
  · simp at h

theorem resampleLoop_err {S : FloatSem} {candles vs : List Candle} {interval pivot : Int}
    {i start : Nat} {acc : List Candle} {e : ErrCode} {w : List Candle × Nat}
    (h : resampleLoop S candles interval pivot vs i start acc = .err e w) : e = .external := by
  induction vs generalizing i start acc with
  | nil => simp [resampleLoop] at h
  | cons v vs ih =>
    unfold resampleLoop at h
    split at h
    · simp at h
    · split at h
      · exact ih h
      · rename_i hc
        simp only [Res.err.injEq] at h
        rw [← h.1]; exact compressCandle_err hc
      · simp at h
    · exact ih h

theorem conflict_iff (S : FloatSem) (minute : Int → Int) (c0 c1 : Candle) (cs : List Candle)
    (interval : Int) :
    modifyInterval S minute (c0 :: c1 :: cs) interval = .err .econflict [] ↔
      (spacing c0 c1 ≠ 1 ∧ interval = 1) ∨
        (spacing c0 c1 ≠ 0 ∧ imod interval (spacing c0 c1) ≠ 0) := by
  unfold modifyInterval
  rw [if_neg (by simp)]
  simp only
  change ((if spacing c0 c1 ≠ 1 ∧ interval = 1 then _ else if spacing c0 c1 = 0 then _ else
    if imod interval (spacing c0 c1) ≠ 0 then _ else _) = _) ↔ _
  by_cases h1 : spacing c0 c1 ≠ 1 ∧ interval = 1
  · rw [if_pos h1]; simp [h1]
  rw [if_neg h1]
  by_cases h2 : spacing c0 c1 = 0
  · rw [if_pos h2]; simp [h2] at h1 ⊢; exact h1
  rw [if_neg h2]
  by_cases h3 : imod interval (spacing c0 c1) ≠ 0
  · rw [if_pos h3]; simp [h2, h3]
  rw [if_neg h3]
  constructor
  · intro h
    exfalso
    split at h
    · split at h
      · split at h
        · split at h
          · simp at h
          · rename_i hc
            simp only [Res.err.injEq] at h
            rw [compressCandle_err hc] at h; exact absurd h.1 (by decide)
          · simp at h
        · rename_i hc
          simp only [Res.err.injEq] at h
          rw [resampleLoop_err hc] at h; exact absurd h.1 (by decide)
        · simp at h
      · simp at h
    · rename_i hc
      simp only [Res.err.injEq] at h
      unfold findFirstIndex at hc
      split at hc
      · simp at hc
      · simp only [Res.err.injEq] at hc
        rw [← hc.1] at h; exact absurd h.1 (by decide)
    · simp at h
  · rintro (h | h)
    · exact absurd h h1
    · exact absurd h.2 h3

/-- C149: a refusal because of the interval does not depend on later candles. -/
theorem C149_conflict (S : FloatSem) (minute : Int → Int) (cs ext : List Candle) (interval : Int)
    (hlen : 2 ≤ cs.length) :
    modifyInterval S minute (cs ++ ext) interval = .err .econflict [] ↔
      modifyInterval S minute cs interval = .err .econflict [] := by
  match cs, hlen with
  | c0 :: c1 :: cs, _ =>
    rw [List.cons_append, List.cons_append, conflict_iff, conflict_iff]

/-- The demo series cut after its second candle: the group still open then is the first one. -/
example : modifyInterval ieee utcMinute (demoCandles.take 2) 2 = .ok
      [⟨120, .fin 2, .fin 5, .fin 2, .fin 3, .fin (1/2)⟩] ∧
    modifyInterval ieee utcMinute (demoCandles.take 2 ++ demoCandles.drop 2) 2 = .ok
      [⟨120, .fin 2, .fin 5, .fin 0, .fin 1, .fin (5/2)⟩,
       ⟨240, .fin 1, .fin 2, .fin 1, .fin 2, .fin 1⟩] := by
  decide +kernel

/-- The first two candles decide about a conflict: 2 minutes apart, asked for 3. -/
example : modifyInterval ieee utcMinute [demoCandles[0], demoCandles[2], demoCandles[3]] 3 =
    .err .econflict [] := by decide +kernel

end Finmod
