import Verif.Props.IntervalJoin
import Verif.Props.CandleSpacing
import Verif.Lemmas.Print5

/-!
# A candle that is delivered twice: C254
-/

namespace Finmod
open Go Spec

/-- Full statement of C254: a candle that comes twice in a row does not change the result of `ModifyInterval`. -/
def Spec.C254_claim (S : FloatSem) (minute : Int → Int) : Prop :=
  ∀ (a b : List Candle) (c : Candle) (interval : Int) (out : List Candle), 2 ≤ a.length →
    modifyInterval S minute (a ++ c :: b) interval = .ok out →
    modifyInterval S minute (a ++ c :: c :: b) interval = .ok out

/-- Two candles that differ at most in their volumes. -/
def Spec.SameButVolume (o o' : Candle) : Prop :=
  o.time = o'.time ∧ o.opn = o'.opn ∧ o.high = o'.high ∧ o.low = o'.low ∧ o.close = o'.close

theorem highLoop_twice (c : Candle) (y : List Candle) : ∀ (x : List Candle) (acc : Fl),
    highLoop acc (x ++ c :: c :: y) = highLoop acc (x ++ c :: y)
  | [], acc => by
    simp only [List.nil_append, highLoop]
    congr 1
    split_ifs <;> rfl
  | _ :: x, acc => by
    simp only [List.cons_append, highLoop]
    exact highLoop_twice c y x _

theorem lowLoop_twice (c : Candle) (y : List Candle) : ∀ (x : List Candle) (acc : Fl),
    lowLoop acc (x ++ c :: c :: y) = lowLoop acc (x ++ c :: y)
  | [], acc => by
    simp only [List.nil_append, lowLoop]
    congr 1
    split_ifs <;> rfl
  | _ :: x, acc => by
    simp only [List.cons_append, lowLoop]
    exact lowLoop_twice c y x _

theorem compressGroup_close {S : FloatSem} {g : List Candle} {c : Candle} (h : compressGroup S g = .ok c) :
    ∃ l, g.getLast? = some l ∧ c.close = l.close := by
  unfold compressGroup at h
  split at h
  · rename_i f l hf hl
    split at h
    · simp only [Res.ok.injEq] at h; subst h; exact ⟨l, hl, rfl⟩
    · simp at h
  · simp at h

theorem compressGroup_twice {S : FloatSem} {x y : List Candle} {c o o' : Candle} (hx : x ≠ [])
    (h : compressGroup S (x ++ c :: y) = .ok o) (h' : compressGroup S (x ++ c :: c :: y) = .ok o') :
    SameButVolume o o' := by
  obtain ⟨f, hf, t, p, hh, hl⟩ := compressGroup_parts h
  obtain ⟨f', hf', t', p', hh', hl'⟩ := compressGroup_parts h'
  obtain ⟨l, el, ec⟩ := compressGroup_close h
  obtain ⟨l', el', ec'⟩ := compressGroup_close h'
  have e : f = f' := by
    cases x with
    | nil => exact absurd rfl hx
    | cons z zs => simp at hf hf'; rw [← hf, ← hf']
  have e' : l = l' := by
    rw [List.getLast?_append] at el el'
    rw [List.getLast?_cons_cons] at el'
    rw [el] at el'
    exact Option.some.inj el'
  exact ⟨by rw [t, t', e], by rw [p, p', e], by rw [hh, hh', highLoop_twice], by rw [hl, hl', lowLoop_twice],
    by rw [ec, ec', e']⟩

theorem splitB_before (bd : Candle → Bool) : ∀ (a cur : List Candle), cur ≠ [] →
    ∃ L w, w ≠ [] ∧ ∀ b, splitB bd cur (a ++ b) = L ++ splitB bd w b
  | [], cur, h => ⟨[], cur, h, fun _ => rfl⟩
  | v :: a, cur, h => by
    cases hv : bd v
    · obtain ⟨L, w, hw, e⟩ := splitB_before bd a (cur ++ [v]) (by simp)
      exact ⟨L, w, hw, fun b => by simp [splitB, hv, e]⟩
    · obtain ⟨L, w, hw, e⟩ := splitB_before bd a [v] (by simp)
      exact ⟨cur :: L, w, hw, fun b => by simp [splitB, hv, e]⟩

theorem splitB_after (bd : Candle → Bool) : ∀ b : List Candle, ∃ t R, ∀ cur, splitB bd cur b = (cur ++ t) :: R
  | [] => ⟨[], [], fun _ => by simp [splitB]⟩
  | v :: b => by
    cases hv : bd v
    · obtain ⟨t, R, e⟩ := splitB_after bd b
      exact ⟨v :: t, R, fun cur => by simp [splitB, hv, e]⟩
    · exact ⟨[], splitB bd [v] b, fun cur => by simp [splitB, hv]⟩

theorem resMapL_split {α β : Type} {f : α → Res β} {l m : List α} {o : List β} (h : resMapL f (l ++ m) = .ok o) :
    ∃ p q, o = p ++ q ∧ resMapL f l = .ok p ∧ resMapL f m = .ok q := by
  induction l generalizing o with
  | nil => exact ⟨[], o, rfl, rfl, h⟩
  | cons a l ih =>
    rw [List.cons_append, resMapL] at h
    cases ha : f a with
    | ok b =>
      rw [ha] at h
      cases hl : resMapL f (l ++ m) with
      | ok bs =>
        simp only [hl, Res.ok.injEq] at h; subst h
        obtain ⟨p, q, rfl, h1, h2⟩ := ih hl
        exact ⟨b :: p, q, rfl, by rw [resMapL, ha]; simp only [h1], h2⟩
      | err e w => simp [hl] at h
      | panic => simp [hl] at h
    | err e w => simp [ha] at h
    | panic => simp [ha] at h

theorem resMapL_single {α β : Type} {f : α → Res β} {a : α} {b : β} (h : f a = .ok b) : resMapL f [a] = .ok [b] := by
  simp [resMapL, h]

theorem resMapL_cons {α β : Type} {f : α → Res β} {a : α} {m : List α} {o : List β} (h : resMapL f (a :: m) = .ok o) :
    ∃ b q, o = b :: q ∧ f a = .ok b ∧ resMapL f m = .ok q := by
  rw [resMapL] at h
  cases ha : f a with
  | ok b =>
    rw [ha] at h
    cases hl : resMapL f m with
    | ok bs => simp only [hl, Res.ok.injEq] at h; exact ⟨b, bs, h.symm, rfl, rfl⟩
    | err e w => simp [hl] at h
    | panic => simp [hl] at h
  | err e w => simp [ha] at h
  | panic => simp [ha] at h

/-- What a repeated candle changes in the results of the groups. -/
theorem groups_twice {S : FloatSem} (hS : Lawful S) (hP : PrintSafe S) (bd : Candle → Bool) (cur a b : List Candle) (c : Candle)
    (out : List Candle) (hcur : cur ≠ []) (h : resMapL (compressGroup S) (splitB bd cur (a ++ c :: b)) = .ok out) :
    ∃ l o r, out = l ++ o :: r ∧
      (bd c = true → o.time = c.time ∧ ∃ k, Summary S [c] k ∧
        resMapL (compressGroup S) (splitB bd cur (a ++ c :: c :: b)) = .ok (l ++ k :: o :: r)) ∧
      (bd c = false → ∃ o' x y, SameButVolume o o' ∧ Summary S (x ++ c :: y) o ∧ Summary S (x ++ c :: c :: y) o' ∧
        resMapL (compressGroup S) (splitB bd cur (a ++ c :: c :: b)) = .ok (l ++ o' :: r)) := by
  obtain ⟨L, w, hw, e⟩ := splitB_before bd a cur hcur
  obtain ⟨t, R, e'⟩ := splitB_after bd b
  cases hv : bd c
  · rw [e, splitB, if_neg (by simp [hv]), e'] at h
    obtain ⟨l, q, rfl, h1, h2⟩ := resMapL_split h
    obtain ⟨o, r, rfl, h3, h4⟩ := resMapL_cons h2
    refine ⟨l, o, r, rfl, by simp, fun _ => ?_⟩
    obtain ⟨o', ho'⟩ := compressGroup_ok hS hP (g := w ++ c :: c :: t) (by simp)
    simp only [List.append_assoc, List.singleton_append] at h3
    refine ⟨o', w, t, compressGroup_twice hw h3 ho', compressGroup_summary h3, compressGroup_summary ho', ?_⟩
    rw [e, splitB, if_neg (by simp [hv]), splitB, if_neg (by simp [hv]), e']
    refine resMapL_append h1 ?_
    simp only [List.append_assoc, List.singleton_append]
    exact resMapL_append (resMapL_single ho') h4
  · rw [e, splitB, if_pos hv, e'] at h
    obtain ⟨l1, q, rfl, h1, h2⟩ := resMapL_split h
    obtain ⟨z, q, rfl, h3, h4⟩ := resMapL_cons h2
    obtain ⟨o, r, rfl, h5, h6⟩ := resMapL_cons h4
    refine ⟨l1 ++ [z], o, r, by simp, fun _ => ?_, by simp⟩
    obtain ⟨k, hk⟩ := compressGroup_ok hS hP (g := [c]) (by simp)
    obtain ⟨f, hf, ht, _⟩ := compressGroup_parts h5
    simp at hf
    refine ⟨by rw [ht, ← hf], k, compressGroup_summary hk, ?_⟩
    rw [e, splitB, if_pos hv, splitB, if_pos hv, e']
    rw [show l1 ++ [z] ++ k :: o :: r = l1 ++ ([z] ++ ([k] ++ (o :: r))) by simp]
    refine resMapL_append h1 (resMapL_append (l := [w]) (resMapL_single h3) (resMapL_append (l := [[c]]) (resMapL_single hk) ?_))
    exact resMapL_append (l := [[c] ++ t]) (resMapL_single h5) h6

/-- A repeated candle before the first aligned one changes nothing. -/
theorem C254_before {S : FloatSem} (minute : Int → Int) (a b : List Candle) (c : Candle) (interval : Int) (out : List Candle)
    (ha : 2 ≤ a.length) (h0 : interval ≠ 0) (hn : ∀ v ∈ a ++ [c], ¬ Aligned minute interval v)
    (h : modifyInterval S minute (a ++ c :: b) interval = .ok out) :
    modifyInterval S minute (a ++ c :: c :: b) interval = .ok out := by
  obtain ⟨pre, p, rest, hs, hpre, hp, _, hm⟩ := modifyInterval_ok (by simp; omega) h
  have hpp := (isAligned_iff _ _ _).1 hp
  obtain ⟨b', hb⟩ : ∃ b', pre = (a ++ [c]) ++ b' ∧ b = b' ++ p :: rest := by
    have hs' : (a ++ [c]) ++ b = pre ++ p :: rest := by rw [← hs]; simp
    rcases List.append_eq_append_iff.1 hs' with ⟨d, h1, h2⟩ | ⟨d, h1, h2⟩
    · exact ⟨d, h1, h2⟩
    · cases d with
      | nil => exact ⟨[], by simpa using h1.symm, by simpa using h2.symm⟩
      | cons z d =>
        simp only [List.cons_append, List.cons.injEq] at h2
        exact absurd hpp (hn p (by rw [h1, h2.1]; simp))
  obtain ⟨rfl, rfl⟩ := hb
  match a, ha with
  | c0 :: c1 :: cs, _ =>
    obtain ⟨h1, h2, h3⟩ := spacing_ok (by simpa only [List.cons_append] using h)
    rw [List.cons_append, List.cons_append, modifyInterval_eq S minute c0 c1 _ interval h1 h2 h3
      (c0 :: c1 :: cs ++ c :: c :: b') p rest (by simp) ?_ hp h0]
    · exact hm
    · intro v hv
      refine hpre v ?_
      simp only [List.mem_append, List.mem_cons, List.not_mem_nil, or_false] at hv ⊢
      tauto

/-- The call with other candles after the first two. -/
theorem call_twice {S : FloatSem} {minute : Int → Int} {a b b' : List Candle} {interval : Int} {out : List Candle}
    (ha : 2 ≤ a.length) (h0 : interval ≠ 0) (h : modifyInterval S minute (a ++ b) interval = .ok out)
    (pre : List Candle) (p : Candle) (rest : List Candle) (hr : a ++ b' = pre ++ p :: rest)
    (hpre : ∀ v ∈ pre, isAligned minute interval v = false) (hp : isAligned minute interval p = true) :
    modifyInterval S minute (a ++ b') interval =
      resMapL (compressGroup S) (splitB (boundary S interval p.time) [p] rest) := by
  match a, ha with
  | c0 :: c1 :: cs, _ =>
    simp only [List.cons_append] at h hr ⊢
    obtain ⟨h1, h2, h3⟩ := spacing_ok h
    exact modifyInterval_eq S minute c0 c1 _ interval h1 h2 h3 pre p rest hr hpre hp h0

/-- **C254**, what holds: a repeated candle from the first aligned one on either adds a candle of its own, when it begins an
interval, or changes at most the volume of the candle it goes into. -/
theorem C254_twice_partial {S : FloatSem} (hS : Lawful S) (hP : PrintSafe S) (minute : Int → Int) (a b : List Candle)
    (c o0 : Candle) (interval : Int) (out : List Candle) (ha : 2 ≤ a.length) (h0 : interval ≠ 0)
    (hn : ∃ v ∈ a ++ [c], Aligned minute interval v) (ht : ∀ v ∈ a ++ [c], |v.time| ≤ 2 ^ 53)
    (h : modifyInterval S minute (a ++ c :: b) interval = .ok out) (ho : out.head? = some o0) :
    ∃ l o r, out = l ++ o :: r ∧
      (interval ∣ Int.tdiv (c.time - o0.time) 60 → o.time = c.time ∧ ∃ k, Summary S [c] k ∧
        modifyInterval S minute (a ++ c :: c :: b) interval = .ok (l ++ k :: o :: r)) ∧
      (¬ interval ∣ Int.tdiv (c.time - o0.time) 60 → ∃ o' x y, SameButVolume o o' ∧
        Summary S (x ++ c :: y) o ∧ Summary S (x ++ c :: c :: y) o' ∧
        modifyInterval S minute (a ++ c :: c :: b) interval = .ok (l ++ o' :: r)) := by
  obtain ⟨pre, p, rest, hs, hpre, hp, _, hm⟩ := modifyInterval_ok (by simp; omega) h
  have hop : o0.time = p.time := by
    obtain ⟨g, tail, e⟩ := splitB_head (boundary S interval p.time) [p] rest
    have := resMapL_ok hm
    rw [e] at this
    cases this with
    | cons hc _ =>
      simp only [List.head?_cons, Option.some.injEq] at ho
      subst ho
      obtain ⟨f, hf, hft, _⟩ := compressGroup_parts hc
      simp at hf
      rw [hft, ← hf]
  have hpm : p ∈ a ++ [c] ∧ ((a = pre ∧ c = p ∧ b = rest) ∨ ∃ a', a = pre ++ p :: a' ∧ rest = a' ++ c :: b) := by
    rcases List.append_eq_append_iff.1 hs with ⟨d, h1, h2⟩ | ⟨d, h1, h2⟩
    · cases d with
      | nil =>
        simp only [List.nil_append, List.cons.injEq] at h2
        exact ⟨by simp [h2.1], .inl ⟨by simpa using h1.symm, h2⟩⟩
      | cons z d =>
        simp only [List.cons_append, List.cons.injEq] at h2
        obtain ⟨v, hv, hva⟩ := hn
        have : isAligned minute interval v = false := by
          refine hpre v ?_
          rw [h1, ← h2.1]
          simp only [List.mem_append, List.mem_cons, List.not_mem_nil, or_false] at hv ⊢
          tauto
        rw [(isAligned_iff _ _ _).2 hva] at this
        cases this
    · cases d with
      | nil =>
        simp only [List.nil_append, List.cons.injEq] at h2
        exact ⟨by simp [h2.1], .inl ⟨by simpa using h1, h2.1.symm, h2.2.symm⟩⟩
      | cons z d =>
        simp only [List.cons_append, List.cons.injEq] at h2
        exact ⟨by rw [h1, h2.1]; simp, .inr ⟨d, by rw [h1, h2.1], h2.2⟩⟩
  have hbd : boundary S interval p.time c = true ↔ interval ∣ Int.tdiv (c.time - o0.time) 60 := by
    rw [hop]
    exact boundary_iff hS (ht p hpm.1) (ht c (by simp))
  have hcall := fun rest' (hr : a ++ c :: c :: b = pre ++ p :: rest') => call_twice ha h0 h pre p rest' hr hpre hp
  rcases hpm.2 with ⟨rfl, rfl, rfl⟩ | ⟨a', e1, rfl⟩
  · have hb : boundary S interval c.time c = true := by rw [hbd, hop]; simp
    obtain ⟨t, R, e'⟩ := splitB_after (boundary S interval c.time) b
    rw [e'] at hm
    obtain ⟨o, r, rfl, h5, h6⟩ := resMapL_cons hm
    refine ⟨[], o, r, rfl, fun _ => ?_, fun hne => absurd (hbd.1 hb) hne⟩
    obtain ⟨k, hk⟩ := compressGroup_ok hS hP (g := [c]) (by simp)
    obtain ⟨f, hf, ht, _⟩ := compressGroup_parts h5
    simp at hf
    refine ⟨by rw [ht, ← hf], k, compressGroup_summary hk, ?_⟩
    rw [hcall _ rfl, splitB, if_pos hb, e']
    rw [List.nil_append, show k :: o :: r = [k] ++ ([o] ++ r) from rfl]
    exact resMapL_append (l := [[c]]) (resMapL_single hk) (resMapL_append (l := [[c] ++ t]) (resMapL_single h5) h6)
  · obtain ⟨l, o, r, e, hy, hno⟩ := groups_twice hS hP (boundary S interval p.time) [p] a' b c out (by simp) hm
    rw [hcall (a' ++ c :: c :: b) (by rw [e1]; simp)]
    refine ⟨l, o, r, e, fun hd => hy (hbd.2 hd), fun hd => hno ?_⟩
    rw [← hbd] at hd
    simpa using hd

/-- The smallest distance of a series with a repeated candle is zero minutes. -/
theorem C254_minInterval {S : FloatSem} (hS : Lawful S) (a b : List Candle) (c : Candle)
    (hb : ∀ g ∈ gaps (a ++ c :: c :: b), g < 2 ^ 53) : getMinInterval S (a ++ c :: c :: b) = 0 := by
  obtain ⟨g, hg, hmin, e⟩ := C34_minInterval S hS (a ++ c :: c :: b) (by simp; omega) hb
  have h0 : (0 : Int) ∈ gaps (a ++ c :: c :: b) := by
    clear hb hmin hg e
    induction a with
    | nil => simp [gaps]
    | cons z a ih =>
      cases a with
      | nil => simp [gaps]
      | cons y a =>
        simp only [gaps, List.cons_append, List.tail_cons, List.zip_cons_cons, List.map_cons, List.mem_cons] at ih ⊢
        exact .inr ih
  have hle := hmin 0 h0
  have hge : 0 ≤ g := by
    obtain ⟨p, _, rfl⟩ := List.mem_map.1 hg
    exact abs_nonneg _
  rw [e, le_antisymm hle hge]
  rfl

/-- A series that begins with a repeated candle makes `ModifyInterval` panic, for every interval but one minute. -/
theorem C254_first {S : FloatSem} (minute : Int → Int) (b : List Candle) (c : Candle) (interval : Int) (h1 : interval ≠ 1) :
    modifyInterval S minute (c :: c :: b) interval = .panic := by
  have hs : spacing c c = 0 := by unfold spacing; rw [sub_self]; decide
  rw [spacing, sub_self] at hs
  unfold modifyInterval
  simp [hs, h1]

/-- Four candles of five minutes. -/
def twiceCs : List Candle :=
  [⟨0, .fin 1, .fin 4, .fin 1, .fin 2, .fin 1⟩, ⟨300, .fin 2, .fin 5, .fin 1, .fin 3, .fin 1⟩,
   ⟨600, .fin 3, .fin 6, .fin 1, .fin 4, .fin 1⟩, ⟨900, .fin 4, .fin 7, .fin 1, .fin 5, .fin 1⟩]

/-- **C254** is false: the fourth candle twice is counted twice in the volume. -/
theorem C254_twice_violated : ¬ Spec.C254_claim ieee utcMinute := by
  intro h
  have := h (twiceCs.take 3) [] ⟨900, .fin 4, .fin 7, .fin 1, .fin 5, .fin 1⟩ 10
    [⟨0, .fin 1, .fin 5, .fin 1, .fin 3, .fin 2⟩, ⟨600, .fin 3, .fin 7, .fin 1, .fin 5, .fin 2⟩] (by decide)
    (by decide +kernel)
  revert this
  decide +kernel

/-- **Example for C254.** The third candle twice gives one candle more, with the same time as the next. -/
example : modifyInterval ieee utcMinute
    (twiceCs.take 2 ++ ⟨600, .fin 3, .fin 6, .fin 1, .fin 4, .fin 1⟩ :: ⟨600, .fin 3, .fin 6, .fin 1, .fin 4, .fin 1⟩ ::
      twiceCs.drop 3) 10 =
    .ok [⟨0, .fin 1, .fin 5, .fin 1, .fin 3, .fin 2⟩, ⟨600, .fin 3, .fin 6, .fin 1, .fin 4, .fin 1⟩,
      ⟨600, .fin 3, .fin 7, .fin 1, .fin 5, .fin 2⟩] := by decide +kernel

/-- **Example for C254.** The hypotheses hold for the third candle of the four. -/
example : ∃ l o r, [⟨0, .fin 1, .fin 5, .fin 1, .fin 3, .fin 2⟩, ⟨600, .fin 3, .fin 7, .fin 1, .fin 5, .fin 2⟩] = l ++ o :: r ∧
    o.time = 600 ∧ ∃ k, Summary ieee [⟨600, .fin 3, .fin 6, .fin 1, .fin 4, .fin 1⟩] k ∧
      modifyInterval ieee utcMinute (twiceCs.take 2 ++ ⟨600, .fin 3, .fin 6, .fin 1, .fin 4, .fin 1⟩ ::
        ⟨600, .fin 3, .fin 6, .fin 1, .fin 4, .fin 1⟩ :: twiceCs.drop 3) 10 = .ok (l ++ k :: o :: r) := by
  obtain ⟨l, o, r, e, h, _⟩ := C254_twice_partial ieee_lawful ieee_printSafe utcMinute (twiceCs.take 2) (twiceCs.drop 3)
    ⟨600, .fin 3, .fin 6, .fin 1, .fin 4, .fin 1⟩ ⟨0, .fin 1, .fin 5, .fin 1, .fin 3, .fin 2⟩ 10
    [⟨0, .fin 1, .fin 5, .fin 1, .fin 3, .fin 2⟩, ⟨600, .fin 3, .fin 7, .fin 1, .fin 5, .fin 2⟩] (by decide) (by decide)
    (by decide +kernel) (by decide +kernel) (by decide +kernel) rfl
  exact ⟨l, o, r, e, h (by decide)⟩

/-- **Example for C254.** A repeated candle before the first aligned one. -/
example : modifyInterval ieee utcMinute
    ([⟨60, .fin 1, .fin 4, .fin 1, .fin 2, .fin 1⟩, ⟨120, .fin 1, .fin 4, .fin 1, .fin 2, .fin 1⟩] ++
      ⟨180, .fin 1, .fin 4, .fin 1, .fin 2, .fin 1⟩ :: ⟨180, .fin 1, .fin 4, .fin 1, .fin 2, .fin 1⟩ ::
      [⟨300, .fin 1, .fin 4, .fin 1, .fin 2, .fin 1⟩]) 5 = .ok [⟨300, .fin 1, .fin 4, .fin 1, .fin 2, .fin 1⟩] :=
  C254_before utcMinute _ _ _ 5 _ (by decide) (by decide) (by decide +kernel) (by decide +kernel)

/-- **Example for C254.** Distances below 2^53 seconds. -/
example : getMinInterval ieee (twiceCs.take 2 ++ ⟨600, .fin 3, .fin 6, .fin 1, .fin 4, .fin 1⟩ ::
    ⟨600, .fin 3, .fin 6, .fin 1, .fin 4, .fin 1⟩ :: twiceCs.drop 3) = 0 :=
  C254_minInterval ieee_lawful _ _ _ (by decide +kernel)

end Finmod
