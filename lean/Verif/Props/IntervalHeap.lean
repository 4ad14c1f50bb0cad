import Verif.Model.HeapCandle
import Verif.Props.CandleStream

/-!
# Whose memory the result of ModifyInterval is (C242)
-/

namespace Finmod
open Go

/-- `r` is the outcome `l` of the function on values, kept in the memory `h`. -/
def Holds (h : Heap Candle) : Res Slice → Res (List Candle) → Prop
  | .ok t, .ok l => h.load t = l
  | .err e t, .err e' l => e = e' ∧ h.load t = l
  | .panic, .panic => True
  | _, _ => False

theorem load_of_fresh {h h' : Heap Candle} {acc s : Slice} (st : Heap.Step h Slice.empty h' acc)
    (hw : Heap.WF h s) : h'.load s = h.load s ∧ acc.Separate s := by
  have := st.other hw (by rintro a i ⟨-, h1, h2⟩; simp [Slice.empty] at h1 h2)
  exact ⟨this.1, this.2.2⟩

theorem drop_load_cell {h : Heap Candle} {s : Slice} {idx n : Nat} (e : s.len - idx = n + 1) :
    (h.load s).drop idx = h.cell s.arr (s.off + idx) :: (h.load s).drop (idx + 1) := by
  have hl := Heap.length_load h s
  have hi : idx < (h.load s).length := by omega
  rw [List.drop_eq_getElem_cons hi]
  congr 1
  have := Heap.getElem?_load h s idx
  rw [if_pos (by omega), List.getElem?_eq_getElem hi] at this
  simpa using this

theorem resampleHeap_eq (S : FloatSem) (grow : Nat → Nat → Nat) {h0 : Heap Candle} {s : Slice}
    (hw : Heap.WF h0 s) (mi pivot : Int) :
    ∀ n idx start (h : Heap Candle) (acc : Slice), s.len - idx = n →
      Heap.Step h0 Slice.empty h acc →
      (match (resampleHeap S grow s mi pivot n idx start h acc),
          resampleLoop S (h0.load s) mi pivot ((h0.load s).drop idx) idx start (h.load acc) with
        | (h', .ok (t, b)), .ok (l, b') => Heap.Step h0 Slice.empty h' t ∧ h'.load t = l ∧ b = b'
        | (h', .err e _), .err e' _ => e = e' ∧ Heap.Step h0 Slice.empty h' Slice.empty
        | (h', .panic), .panic => Heap.Step h0 Slice.empty h' Slice.empty
        | _, _ => False) := by
  intro n
  induction n with
  | zero =>
    intro idx start h acc hn st
    have hl := Heap.length_load h0 s
    rw [List.drop_eq_nil_of_le (by omega)]
    exact ⟨st, rfl, rfl⟩
  | succ n ih =>
    intro idx start h acc hn st
    have hs := (load_of_fresh st hw).1
    have hc : h.cell s.arr (s.off + idx) = h0.cell s.arr (s.off + idx) := by
      have h1 := Heap.getElem?_load h s idx
      have h2 := Heap.getElem?_load h0 s idx
      rw [hs, h2, if_pos (by omega), if_pos (by omega)] at h1
      exact (Option.some.inj h1).symm
    have he : Heap.Step h0 Slice.empty h Slice.empty := st.trans (Heap.step_empty h acc).1
    rw [drop_load_cell hn]
    unfold resampleHeap resampleLoop
    rw [hc, hs]
    cases isBoundary S mi pivot (h0.cell s.arr (s.off + idx)) with
    | none => exact he
    | some b =>
      cases b with
      | false => exact ih (idx + 1) start h acc (by omega) st
      | true =>
        cases compressCandle S (h0.load s) start idx with
        | panic => exact he
        | err e v => exact ⟨rfl, he⟩
        | ok c =>
          have ha := Heap.step_append grow st.wf [c]
          have := ih (idx + 1) idx _ _ (by omega) (st.trans ha.1)
          rw [ha.2] at this
          exact this

theorem modifyIntervalHeap_eq (S : FloatSem) (minute : Int → Int) (grow : Nat → Nat → Nat)
    {h : Heap Candle} {s : Slice} (hw : Heap.WF h s) (mi : Int) :
    Holds (modifyIntervalHeap S minute grow h s mi).1 (modifyIntervalHeap S minute grow h s mi).2
        (modifyInterval S minute (h.load s) mi) ∧
      Heap.Step h Slice.empty (modifyIntervalHeap S minute grow h s mi).1 Slice.empty ∧
      ∀ t, s.len ≠ 1 → (modifyIntervalHeap S minute grow h s mi).2 = .ok t →
        Heap.Step h Slice.empty (modifyIntervalHeap S minute grow h s mi).1 t := by
  have hl := Heap.length_load h s
  have h00 : Heap.Step h Slice.empty h Slice.empty := (Heap.step_empty h Slice.empty).1
  unfold modifyIntervalHeap modifyInterval
  rw [hl]
  by_cases h1 : s.len = 1
  · rw [if_pos h1, if_pos h1]
    exact ⟨rfl, h00, fun t hn => absurd h1 hn⟩
  rw [if_neg h1, if_neg h1]
  by_cases h0 : s.len = 0
  · rw [if_pos h0, List.eq_nil_of_length_eq_zero (hl.trans h0)]
    exact ⟨trivial, h00, fun t _ he => nomatch he⟩
  rw [if_neg h0]
  have hx : ∃ rest, h.load s = h.cell s.arr s.off :: h.cell s.arr (s.off + 1) :: rest := by
    have a := drop_load_cell (h := h) (s := s) (idx := 0) (n := s.len - 1) (by omega)
    have b := drop_load_cell (h := h) (s := s) (idx := 1) (n := s.len - 2) (by omega)
    simp only [List.drop_zero, zero_add, add_zero] at a
    rw [b] at a
    exact ⟨_, a⟩
  obtain ⟨rest, hr⟩ := hx
  generalize hL : h.load s = L at *
  subst hr
  simp only
  set delta := idiv (wrap64 ((h.cell s.arr (s.off + 1)).time - (h.cell s.arr s.off).time)) 60
  by_cases d1 : delta ≠ 1 ∧ mi = 1
  · rw [if_pos d1, if_pos d1]
    exact ⟨⟨rfl, rfl⟩, h00, fun t _ he => nomatch he⟩
  rw [if_neg d1, if_neg d1]
  by_cases d2 : delta = 0
  · rw [if_pos d2, if_pos d2]
    exact ⟨trivial, h00, fun t _ he => nomatch he⟩
  rw [if_neg d2, if_neg d2]
  by_cases d3 : imod mi delta ≠ 0
  · rw [if_pos d3, if_pos d3]
    exact ⟨⟨rfl, rfl⟩, h00, fun t _ he => nomatch he⟩
  rw [if_neg d3, if_neg d3]
  rw [← hL] at hl ⊢
  cases hf : findFirstIndex minute (h.load s) mi with
  | panic => exact ⟨trivial, h00, fun t _ he => nomatch he⟩
  | err e v => exact ⟨⟨rfl, rfl⟩, h00, fun t _ he => nomatch he⟩
  | ok first =>
    have hlt : first < s.len := by
      unfold findFirstIndex at hf
      cases hi : (h.load s).findIdx? (isAligned minute mi) with
      | none => rw [hi] at hf; exact nomatch hf
      | some i =>
        rw [hi] at hf
        have := (List.findIdx?_eq_some_iff_findIdx_eq.mp hi).1
        cases hf
        omega
    have hp := Heap.getElem?_load h s first
    rw [if_pos hlt] at hp
    simp only [hp]
    have key := resampleHeap_eq S grow hw mi (h.cell s.arr (s.off + first)).time
      (s.len - (first + 1)) (first + 1) first h Slice.empty rfl h00
    rw [(Heap.step_empty h Slice.empty).2] at key
    revert key
    generalize resampleHeap S grow s mi (h.cell s.arr (s.off + first)).time
      (s.len - (first + 1)) (first + 1) first h Slice.empty = A
    generalize resampleLoop S (h.load s) mi (h.cell s.arr (s.off + first)).time
      ((h.load s).drop (first + 1)) (first + 1) first [] = B
    obtain ⟨h', A⟩ := A
    intro key
    rcases A with ⟨acc, b⟩ | ⟨e, v⟩ | _ <;> rcases B with ⟨l, b'⟩ | ⟨e', v'⟩ | _ <;> try exact key.elim
    · obtain ⟨k1, k2, rfl⟩ := key
      simp only
      have hs := (load_of_fresh k1 hw).1
      have he := k1.trans (Heap.step_empty h' acc).1
      rw [hs]
      cases compressCandle S (h.load s) b s.len with
      | panic => exact ⟨trivial, he, fun t _ he => nomatch he⟩
      | err e v => exact ⟨⟨rfl, rfl⟩, he, fun t _ he => nomatch he⟩
      | ok c =>
        have ha := Heap.step_append grow k1.wf [c]
        refine ⟨?_, (k1.trans ha.1).trans (Heap.step_empty _ _).1, ?_⟩
        · show Heap.load _ _ = _
          rw [ha.2, k2]
        · intro t _ ht
          cases ht
          exact k1.trans ha.1
    · obtain ⟨rfl, k⟩ := key
      exact ⟨⟨rfl, rfl⟩, k, fun t _ he => nomatch he⟩
    · exact ⟨trivial, key, fun t _ he => nomatch he⟩

namespace Spec

/-- `out` and `t` have nothing to do with each other: whatever is written to, or appended to, the
one is not seen in the other. -/
def Unrelated (h : Heap Candle) (out t : Slice) : Prop :=
  (∀ i x, i < out.len → (h.put out i x).load t = h.load t) ∧
  (∀ grow xs, (h.append grow out xs).1.load t = h.load t) ∧
  (∀ i x, i < t.len → (h.put t i x).load out = h.load out) ∧
  ∀ grow xs, (h.append grow t xs).1.load out = h.load out

/-- What `ModifyInterval` returns has nothing to do with any slice the caller had, its argument
included. -/
def C242_claim (S : FloatSem) (minute : Int → Int) (grow : Nat → Nat → Nat) : Prop :=
  ∀ (h : Heap Candle) (s : Slice) (interval : Int) (out t : Slice), Heap.WF h s → Heap.WF h t →
    (modifyIntervalHeap S minute grow h s interval).2 = .ok out →
    Unrelated (modifyIntervalHeap S minute grow h s interval).1 out t

end Spec

theorem unrelated_of_separate {h : Heap Candle} {out t : Slice} (ho : Heap.WF h out) (ht : Heap.WF h t)
    (hs : out.Separate t) : Spec.Unrelated h out t := by
  have hs' := Heap.separate_comm hs
  exact ⟨fun i x hi => ((Heap.step_put ho x hi).1.other ht hs).1,
    fun grow xs => ((Heap.step_append grow ho xs).1.other ht hs).1,
    fun i x hi => ((Heap.step_put ht x hi).1.other ho hs').1,
    fun grow xs => ((Heap.step_append grow ht xs).1.other ho hs').1⟩

/-- What is returned is what the function on values gives, and every slice there was, the argument
included, still holds what it held. -/
theorem C242_memory (S : FloatSem) (minute : Int → Int) (grow : Nat → Nat → Nat)
    {h h' : Heap Candle} {s : Slice} (hw : Heap.WF h s) {interval : Int} {r : Res Slice}
    (hr : modifyIntervalHeap S minute grow h s interval = (h', r)) :
    (∀ t, Heap.WF h t → h'.load t = h.load t) ∧
    (∀ out, r = .ok out → modifyInterval S minute (h.load s) interval = .ok (h'.load out)) ∧
    (∀ e v, r = .err e v → modifyInterval S minute (h.load s) interval = .err e (h'.load v)) ∧
    (r = .panic → modifyInterval S minute (h.load s) interval = .panic) := by
  obtain ⟨a, b, -⟩ := modifyIntervalHeap_eq S minute grow hw interval
  rw [hr] at a b
  simp only at a b
  refine ⟨fun t ht => (load_of_fresh b ht).1, ?_, ?_, ?_⟩
  · rintro out rfl
    cases hm : modifyInterval S minute (h.load s) interval with
    | ok l => rw [hm] at a; exact congrArg Res.ok (Eq.symm a)
    | err e v => rw [hm] at a; exact a.elim
    | panic => rw [hm] at a; exact a.elim
  · rintro e v rfl
    cases hm : modifyInterval S minute (h.load s) interval with
    | ok l => rw [hm] at a; exact a.elim
    | err e' l =>
      rw [hm] at a
      rw [a.1, a.2]
    | panic => rw [hm] at a; exact a.elim
  · rintro rfl
    cases hm : modifyInterval S minute (h.load s) interval with
    | ok l => rw [hm] at a; exact a.elim
    | err e' l => rw [hm] at a; exact a.elim
    | panic => rfl

/-- One candle: the argument itself comes back. A write to the result is a write to the argument. -/
theorem C242_one_candle (S : FloatSem) (minute : Int → Int) (grow : Nat → Nat → Nat)
    (h : Heap Candle) {s : Slice} (hw : Heap.WF h s) (h1 : s.len = 1) (interval : Int) :
    modifyIntervalHeap S minute grow h s interval = (h, .ok s) ∧
    ∀ x, (h.put s 0 x).load s = [x] := by
  refine ⟨by unfold modifyIntervalHeap; rw [if_pos h1], fun x => ?_⟩
  have hl := Heap.length_load h s
  rw [(Heap.step_put hw x (by omega)).2]
  obtain ⟨c, hL⟩ := List.length_eq_one_iff.mp (hl.trans h1)
  rw [hL]
  rfl

/-- **C242 is false of the code**, whatever the arithmetic: with one candle the result and the
argument are the same slice. -/
theorem C242_result_violated (S : FloatSem) (minute : Int → Int) (grow : Nat → Nat → Nat) :
    ¬ Spec.C242_claim S minute grow := by
  intro hc
  let c (t : Int) : Candle := ⟨t, .fin 1, .fin 1, .fin 1, .fin 1, .fin 1⟩
  have hw : Heap.WF (⟨fun _ _ => c 0, 1⟩ : Heap Candle) ⟨0, 0, 1, 1⟩ := ⟨le_rfl, fun _ => Nat.zero_lt_one⟩
  have h1 := C242_one_candle S minute grow _ hw rfl 5
  have := (hc _ _ 5 ⟨0, 0, 1, 1⟩ ⟨0, 0, 1, 1⟩ hw hw (by rw [h1.1])).1 0 (c 60) Nat.zero_lt_one
  rw [h1.1] at this
  rw [h1.2] at this
  have h2 := congrArg (List.map Candle.time) this
  revert h2
  simp [Heap.load, c]

/-- Of two candles or more: what is returned has nothing to do with any slice the caller had. -/
theorem C242_result_partial (S : FloatSem) (minute : Int → Int) (grow : Nat → Nat → Nat)
    {h : Heap Candle} {s : Slice} (hw : Heap.WF h s) (hn : s.len ≠ 1) (interval : Int) {out t : Slice}
    (ht : Heap.WF h t) (ho : (modifyIntervalHeap S minute grow h s interval).2 = .ok out) :
    Spec.Unrelated (modifyIntervalHeap S minute grow h s interval).1 out t := by
  have st := (modifyIntervalHeap_eq S minute grow hw interval).2.2 out hn ho
  have hs := (load_of_fresh st ht).2
  exact unrelated_of_separate st.wf ⟨ht.1, fun h0 => lt_of_lt_of_le (ht.2 h0) st.next⟩ hs

/-- Four candles a minute apart in an array with room for one more, of which the caller has the last
four. -/
def quarterHeap : Heap Candle :=
  ⟨fun _ i => ⟨60 * i, .fin 1, .fin (i + 1), .fin 1, .fin 1, .fin 1⟩, 1⟩

/-- C242: four candles resampled to two minutes go to a new array; one candle stays where it is, and an
append to the result overwrites the candle behind it. -/
example : Heap.WF quarterHeap ⟨0, 2, 4, 5⟩ ∧
    (modifyIntervalHeap ieee utcMinute (fun _ _ => 0) quarterHeap ⟨0, 2, 4, 5⟩ 2).2 = .ok ⟨2, 0, 2, 2⟩ ∧
    modifyInterval ieee utcMinute (quarterHeap.load ⟨0, 2, 4, 5⟩) 2 =
      .ok ((modifyIntervalHeap ieee utcMinute (fun _ _ => 0) quarterHeap ⟨0, 2, 4, 5⟩ 2).1.load ⟨2, 0, 2, 2⟩) ∧
    ((quarterHeap.append (fun _ _ => 0) ⟨0, 2, 1, 4⟩ [⟨7, .fin 1, .fin 1, .fin 1, .fin 1, .fin 1⟩]).1.load
      ⟨0, 2, 3, 4⟩).map Candle.time = [120, 7, 240] := by
  refine ⟨⟨by decide, fun _ => by decide⟩, ?_⟩
  decide +kernel

end Finmod
