import Verif.Props.Fractals

/-!
# Fractals look only at the order of highs and lows (C120)
-/

namespace Finmod
open Go Spec

/-- Two series of candles have their highs in the same order, and their lows in the same order. -/
def Spec.SameOrder (cs ds : List Candle) : Prop :=
  cs.length = ds.length ∧
  ∀ (i j : Nat) (a b a' b' : Candle), cs[i]? = some a → cs[j]? = some b → ds[i]? = some a' → ds[j]? = some b' →
    Fl.lt a.high b.high = Fl.lt a'.high b'.high ∧ Fl.le a.high b.high = Fl.le a'.high b'.high ∧
    Fl.lt a.low b.low = Fl.lt a'.low b'.low ∧ Fl.le a.low b.low = Fl.le a'.low b'.low

/-- The fractal of type `t` at candle `m`. -/
def Spec.fractalOf (cs : List Candle) (m : Nat × FractalType) : Option WilliamFractal :=
  cs[m.1]?.map fun c => ⟨c.time, price m.2 c, m.2⟩

/-- Same comparisons of the pairs `(a, b)` and `(a', b')`. -/
def SameCmp (a b a' b' : Candle) : Prop :=
  Fl.lt a.high b.high = Fl.lt a'.high b'.high ∧ Fl.le a.high b.high = Fl.le a'.high b'.high ∧
  Fl.lt a.low b.low = Fl.lt a'.low b'.low ∧ Fl.le a.low b.low = Fl.le a'.low b'.low

theorem leftFails_same {t : FractalType} {a b a' b' : Candle} (h : SameCmp a b a' b') (h' : SameCmp b a b' a') :
    leftFails t a b = leftFails t a' b' := by
  cases t
  · exact h.2.1
  · exact h'.2.2.2

theorem rightScan_same {t : FractalType} {a a' : Candle} {l l' : List Candle}
    (h : List.Forall₂ (fun c c' => SameCmp a c a' c' ∧ SameCmp c a c' a') l l') : ∀ k,
    rightScan t a k l = rightScan t a' k l' := by
  induction h with
  | nil => intro k; rfl
  | @cons c c' l l' hc _ ih =>
    intro k
    obtain ⟨h1, h2⟩ := hc
    rw [rightScan_cons, rightScan_cons, ih, ih]
    have e1 : beats t (price t c) (price t a) = beats t (price t c') (price t a') := by
      cases t
      · exact h1.1
      · exact h2.2.2.1
    have e2 : beats t (price t a) (price t c) = beats t (price t a') (price t c') := by
      cases t
      · exact h2.1
      · exact h1.2.2.1
    rw [e1, e2]

/-- Whether candle `i + 2` is reported as a fractal of type `t`. -/
def marked (cs : List Candle) (i : Nat) (t : FractalType) : Bool := (findFractal cs i t).isSome

theorem findFractal_marked {cs : List Candle} {i : Nat} (h : i + 4 < cs.length) (t : FractalType) :
    findFractal cs i t = if marked cs i t then fractalOf cs (i + 2, t) else none := by
  unfold marked
  rw [findFractal_eq h]
  have : cs[i + 2]? = some cs[i + 2] := List.getElem?_eq_getElem (by omega)
  unfold fractalOf
  rw [this]
  split_ifs <;> simp_all

theorem marked_same {cs ds : List Candle} (hs : SameOrder cs ds) {i : Nat} (h : i + 4 < cs.length)
    (t : FractalType) : marked cs i t = marked ds i t := by
  obtain ⟨hl, hs⟩ := hs
  have h' : i + 4 < ds.length := hl ▸ h
  have key : ∀ a b (ha : a < cs.length) (hb : b < cs.length),
      SameCmp cs[a] cs[b] (ds[a]'(hl ▸ ha)) (ds[b]'(hl ▸ hb)) := fun a b ha hb =>
    hs a b _ _ _ _ (List.getElem?_eq_getElem ha) (List.getElem?_eq_getElem hb)
      (List.getElem?_eq_getElem (hl ▸ ha)) (List.getElem?_eq_getElem (hl ▸ hb))
  unfold marked
  rw [findFractal_eq h, findFractal_eq h']
  have e1 := leftFails_same (t := t) (key (i + 2) i (by omega) (by omega)) (key i (i + 2) (by omega) (by omega))
  have e2 := leftFails_same (t := t) (key (i + 2) (i + 1) (by omega) (by omega))
    (key (i + 1) (i + 2) (by omega) (by omega))
  have e3 : rightScan t cs[i + 2] 0 (cs.drop (i + 3)) = rightScan t ds[i + 2] 0 (ds.drop (i + 3)) := by
    apply rightScan_same
    rw [List.forall₂_iff_get]
    refine ⟨by simp [hl], ?_⟩
    intro j hj hj'
    simp only [List.length_drop] at hj hj'
    simp only [List.get_eq_getElem, List.getElem_drop]
    exact ⟨key _ _ (by omega) (by omega), key _ _ (by omega) (by omega)⟩
  rw [e1, e2, e3]
  split_ifs <;> simp

/-- The candles reported, with the type, for one start index. -/
def marksAt (cs : List Candle) (i : Nat) : List (Nat × FractalType) :=
  (if marked cs i .up then [(i + 2, .up)] else []) ++ (if marked cs i .down then [(i + 2, .down)] else [])

theorem findFractals_marks {cs : List Candle} {i : Nat} (h : i + 4 < cs.length) :
    findFractals cs i = (marksAt cs i).filterMap (fractalOf cs) := by
  rw [findFractals_eq, findFractal_marked h, findFractal_marked h]
  have : cs[i + 2]? = some cs[i + 2] := List.getElem?_eq_getElem (by omega)
  unfold marksAt
  split_ifs <;> simp [fractalOf, this]

/-- **C120** Two series with their highs and their lows in the same order have fractals at the same
candles, of the same types, in the same order. -/
theorem C120_order_only (cs ds : List Candle) (h : SameOrder cs ds) :
    ∃ marks : List (Nat × FractalType), (∀ m ∈ marks, m.1 < cs.length) ∧
      williamFractals cs = marks.filterMap (fractalOf cs) ∧
      williamFractals ds = marks.filterMap (fractalOf ds) := by
  have hl := h.1
  by_cases h5 : cs.length < 5
  · refine ⟨[], by simp, ?_, ?_⟩ <;> unfold williamFractals
    · rw [if_pos h5]; rfl
    · rw [if_pos (hl ▸ h5)]; rfl
  · refine ⟨(List.range (cs.length - 4)).flatMap (marksAt cs), ?_, ?_, ?_⟩
    · intro m hm
      obtain ⟨i, hi, hm⟩ := List.mem_flatMap.1 hm
      have hi := List.mem_range.1 hi
      have : m.1 = i + 2 := by
        unfold marksAt at hm
        split_ifs at hm <;> simp at hm <;> aesop
      omega
    · unfold williamFractals
      rw [if_neg h5, List.filterMap_flatMap]
      refine List.flatMap_congr fun i hi => ?_
      have hi := List.mem_range.1 hi
      exact findFractals_marks (by omega)
    · unfold williamFractals
      rw [← hl, if_neg h5, List.filterMap_flatMap]
      refine List.flatMap_congr fun i hi => ?_
      have hi := List.mem_range.1 hi
      rw [findFractals_marks (by omega)]
      unfold marksAt
      rw [marked_same h (by omega), marked_same h (by omega)]

/-- A candle with its high and low replaced by `f` of them. -/
def Spec.relabel (f : Fl → Fl) (c : Candle) : Candle := { c with high := f c.high, low := f c.low }

/-- **C120**, second part: changing prices by a map that keeps their order changes the fractals'
prices by that map, and nothing else. -/
theorem C120_relabel (f : Fl → Fl) (cs : List Candle)
    (hf : ∀ a ∈ cs, ∀ b ∈ cs, Fl.lt (f a.high) (f b.high) = Fl.lt a.high b.high ∧
      Fl.le (f a.high) (f b.high) = Fl.le a.high b.high ∧ Fl.lt (f a.low) (f b.low) = Fl.lt a.low b.low ∧
      Fl.le (f a.low) (f b.low) = Fl.le a.low b.low) :
    williamFractals (cs.map (relabel f)) =
      (williamFractals cs).map fun w => { w with price := f w.price } := by
  have hs : SameOrder cs (cs.map (relabel f)) := by
    refine ⟨by simp, ?_⟩
    intro i j a b a' b' ha hb ha' hb'
    rw [List.getElem?_map, ha] at ha'
    rw [List.getElem?_map, hb] at hb'
    cases ha'; cases hb'
    obtain ⟨h1, h2, h3, h4⟩ := hf a (List.mem_of_getElem? ha) b (List.mem_of_getElem? hb)
    exact ⟨h1.symm, h2.symm, h3.symm, h4.symm⟩
  obtain ⟨marks, _, e1, e2⟩ := C120_order_only cs _ hs
  rw [e1, e2, List.map_filterMap]
  congr 1
  funext ⟨m, t⟩
  unfold fractalOf
  rw [List.getElem?_map]
  cases cs[m]? with
  | none => rfl
  | some c => cases t <;> rfl

/-- Five candles with a peak in the middle, prices in dollars; and the same in cents. -/
example :
    let cs := [(10, 9), (11, 8), (14, 10), (12, 9), (11, 7)].map
      (fun p : ℚ × ℚ => (⟨0, .fin 0, .fin p.1, .fin p.2, .fin 0, .fin 0⟩ : Candle))
    williamFractals cs = [⟨0, .fin 14, .up⟩] ∧
    williamFractals (cs.map (relabel (FloatSem.exact.mul (.fin 100)))) = [⟨0, .fin 1400, .up⟩] := by
  decide +kernel

/-- In exact arithmetic multiplying by a positive number keeps the order, so `C120_relabel` applies to
changes of currency. -/
example (k : ℚ) (hk : 0 < k) (x y : ℚ) :
    Fl.lt (FloatSem.exact.mul (.fin k) (.fin x)) (FloatSem.exact.mul (.fin k) (.fin y)) = Fl.lt (.fin x) (.fin y) := by
  have hx : ∀ z : ℚ, (FloatSem.exact.mul (.fin k) (.fin z)).Is (k * z) := fun z => by
    rcases FloatSem.mul_is (S := FloatSem.exact) (Fl.is_fin k) (Fl.is_fin z) with ⟨_, e⟩ | ⟨h0, e⟩
    · rw [e]; exact Fl.is_fin _
    · rw [h0]; exact e
  rw [(hx x).lt (hx y), (Fl.is_fin x).lt (Fl.is_fin y)]
  simp [mul_lt_mul_iff_right₀ hk]

end Finmod
