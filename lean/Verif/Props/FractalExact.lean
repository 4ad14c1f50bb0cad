import Verif.Props.Fractals

/-!
# C140: exactly which fractals are final

C86 (a reported fractal stays reported when candles are appended) is false of the code. Here is
precisely what new candles can do: they can only take reported fractals away or add fractals of the
newest candles, and a reported fractal can still be taken away exactly as long as fewer than two
strictly weaker candles have followed its candle.
-/

namespace Finmod
open Go Spec

/-- A longer scan accepts less. -/
theorem rightScan_mono (t : FractalType) (third : Candle) (cs ext : List Candle) : ∀ k, k ≤ 2 →
    rightScan t third k (cs ++ ext) = true → rightScan t third k cs = true := by
  intro k hk h
  rw [rightScan_iff _ _ _ _ hk] at h ⊢
  intro j e hj hc
  have hlt : j < cs.length := by
    by_contra hn; rw [List.getElem?_eq_none (by omega)] at hj; cases hj
  refine h j e (by rw [List.getElem?_append_left hlt]; exact hj) ?_
  rw [List.take_append_of_le_length (by omega)]
  exact hc

theorem findFractal_mono {cs : List Candle} (ext : List Candle) {i : Nat} (hi : i + 4 < cs.length)
    (t : FractalType) :
    findFractal (cs ++ ext) i t = none ∨ findFractal (cs ++ ext) i t = findFractal cs i t := by
  have hi' : i + 4 < (cs ++ ext).length := by simp; omega
  have hg : ∀ k (hk : k < cs.length), (cs ++ ext)[k]'(by simp; omega) = cs[k] := by
    intro k hk; exact List.getElem_append_left hk
  rw [findFractal_eq hi, findFractal_eq hi', hg i (by omega), hg (i + 1) (by omega),
    hg (i + 2) (by omega), List.drop_append_of_le_length (by omega)]
  split_ifs with h1 h2 h3 h3
  · exact .inl rfl
  · exact .inr rfl
  · exact absurd (rightScan_mono _ _ _ _ 0 (by omega) h2) h3
  · exact .inl rfl
  · exact .inl rfl

theorem findFractals_mono {cs : List Candle} (ext : List Candle) {i : Nat} (hi : i + 4 < cs.length) :
    (findFractals (cs ++ ext) i).Sublist (findFractals cs i) := by
  rw [findFractals_eq, findFractals_eq]
  apply List.Sublist.append
  · rcases findFractal_mono ext hi .up with h | h <;> rw [h]
    simp
  · rcases findFractal_mono ext hi .down with h | h <;> rw [h]
    simp

theorem flatMap_sublist {α β : Type} {f g : α → List β} : ∀ (l : List α),
    (∀ a ∈ l, (f a).Sublist (g a)) → (l.flatMap f).Sublist (l.flatMap g)
  | [], _ => by simp
  | a :: l, h => by
    rw [List.flatMap_cons, List.flatMap_cons]
    exact (h a (by simp)).append (flatMap_sublist l fun b hb => h b (by simp [hb]))

theorem findFractal_time {cs : List Candle} {i : Nat} {t : FractalType} {f : WilliamFractal}
    (h : findFractal cs i t = some f) : ∃ c, cs[i + 2]? = some c ∧ f = ⟨c.time, price t c, t⟩ := by
  unfold findFractal at h
  have hd : cs[i + 2]? = (cs.drop i)[2]? := by rw [List.getElem?_drop]
  rw [hd]
  split at h
  · rename_i e
    simp only at h
    rw [e]
    split_ifs at h
    cases h
    refine ⟨_, rfl, ?_⟩
    cases t <;> rfl
  · cases h

/-- **C140.** Appending candles only takes reported fractals away (without reordering the others)
and adds fractals at the end, all of them of the last two old candles or of new ones. -/
theorem C140_only_retracts (cs ext : List Candle) :
    ∃ old new, williamFractals (cs ++ ext) = old ++ new ∧ old.Sublist (williamFractals cs) ∧
      ∀ f ∈ new, ∃ m c, cs.length ≤ m + 2 ∧ (cs ++ ext)[m]? = some c ∧
        f = ⟨c.time, price f.ftype c, f.ftype⟩ := by
  have hat : ∀ i, ∀ f ∈ findFractals (cs ++ ext) i, ∃ c, (cs ++ ext)[i + 2]? = some c ∧
      f = ⟨c.time, price f.ftype c, f.ftype⟩ := by
    intro i f hf
    rw [findFractals_eq, List.mem_append, Option.mem_toList, Option.mem_toList] at hf
    rcases hf with hf | hf
    all_goals
      obtain ⟨c, h1, rfl⟩ := findFractal_time hf
      exact ⟨c, h1, rfl⟩
  by_cases hl : cs.length < 5
  · refine ⟨[], williamFractals (cs ++ ext), rfl, by simp, ?_⟩
    intro f hf
    obtain ⟨i, hi, h⟩ := mem_williamFractals.1 hf
    obtain ⟨c, h1, h2⟩ := findFractal_time h
    exact ⟨i + 2, c, by omega, h1, h2⟩
  · unfold williamFractals
    rw [if_neg hl, if_neg (by simp; omega)]
    rw [show (cs ++ ext).length - 4 = (cs.length - 4) + ext.length by simp; omega, List.range_add,
      List.flatMap_append]
    refine ⟨_, _, rfl, ?_, ?_⟩
    · apply flatMap_sublist
      intro i hi
      rw [List.mem_range] at hi
      exact findFractals_mono ext (by omega)
    · intro f hf
      rw [List.mem_flatMap] at hf
      obtain ⟨i, hi, hf⟩ := hf
      rw [List.mem_map] at hi
      obtain ⟨k, hk, rfl⟩ := hi
      obtain ⟨c, h1, h2⟩ := hat _ _ hf
      exact ⟨_, c, by omega, h1, h2⟩

/-- A price that no number beats: `+Inf` for up fractals, `-Inf` for down fractals. -/
def Spec.top : FractalType → Fl
  | .up => .inf false
  | .down => .inf true

theorem beats_top {t : FractalType} {x : Fl} (h1 : x ≠ .nan) (h2 : x ≠ top t) : beats t (top t) x = true := by
  cases t
  · cases x with
    | nan => exact absurd rfl h1
    | inf s => cases s with
      | true => rfl
      | false => exact absurd rfl h2
    | fin q => rfl
    | negZero => rfl
  · cases x with
    | nan => exact absurd rfl h1
    | inf s => cases s with
      | false => rfl
      | true => exact absurd rfl h2
    | fin q => rfl
    | negZero => rfl

/-- Later candles do not change what came before them. -/
theorem weaker_append (t : FractalType) (cs ext : List Candle) (m : Nat) (c : Candle) (hm : m < cs.length) :
    weaker t (cs ++ ext) m cs.length c = weaker t cs m cs.length c := by
  unfold weaker
  rw [List.drop_append_of_le_length (by omega), List.take_append_of_le_length (by simp)]

theorem time_inj {cs : List Candle} (h : cs.Pairwise fun a b => a.time < b.time) {i j : Nat}
    (hi : i < cs.length) (hj : j < cs.length) (e : cs[i].time = cs[j].time) : i = j := by
  rw [List.pairwise_iff_getElem] at h
  rcases lt_trichotomy i j with hl | hl | hl
  · have := h i j hi hj hl; omega
  · exact hl
  · have := h j i hj hi hl; omega

/-- **C140.** For candles in strict time order and without NaN: the fractal reported for candle `m`
is still reported after every extension of the data exactly when two strictly weaker candles have
already followed candle `m`. (A fractal at an infinite price cannot be beaten, so it is left out.) -/
theorem C140_final_iff {cs : List Candle} (hn : NoNaN cs)
    (ho : cs.Pairwise fun a b => a.time < b.time) {t : FractalType} {m : Nat} (hm : m < cs.length)
    (hf : (⟨cs[m].time, price t cs[m], t⟩ : WilliamFractal) ∈ williamFractals cs)
    (hfin : price t cs[m] ≠ top t) :
    (∀ ext, NoNaN ext → ((cs ++ ext).Pairwise fun a b => a.time < b.time) →
      (⟨cs[m].time, price t cs[m], t⟩ : WilliamFractal) ∈ williamFractals (cs ++ ext)) ↔
    2 ≤ weaker t cs m cs.length cs[m] := by
  have hg : ∀ ext k (hk : k < cs.length), (cs ++ ext)[k]'(by simp; omega) = cs[k] := by
    intro ext k hk; exact List.getElem_append_left hk
  obtain ⟨i, hi, hfi⟩ := mem_williamFractals.1 hf
  have him : i + 2 = m := by
    obtain ⟨c, h1, h2⟩ := findFractal_time hfi
    rw [List.getElem?_eq_getElem (by omega)] at h1
    have h3 : cs[m].time = c.time := congrArg WilliamFractal.time h2
    rw [← Option.some.inj h1] at h3
    exact (time_inj ho hm (by omega) h3).symm
  subst him
  constructor
  · intro h
    by_contra hw
    let ext : List Candle := [⟨(cs.getLast (by intro h; simp [h] at hm)).time + 1, .fin 0, .inf false, .inf true, .fin 0, .fin 0⟩]
    have hx : NoNaN ext := by
      intro c hc
      simp only [ext, List.mem_singleton] at hc
      subst hc
      exact ⟨by simp, by simp⟩
    have hnx : NoNaN (cs ++ ext) := by
      intro c hc
      rcases List.mem_append.1 hc with hc | hc
      · exact hn c hc
      · exact hx c hc
    have hox : (cs ++ ext).Pairwise fun a b => a.time < b.time := by
      rw [List.pairwise_append]
      refine ⟨ho, by simp [ext], ?_⟩
      intro a ha b hb
      simp only [ext, List.mem_singleton] at hb
      subst hb
      show a.time < _ + 1
      obtain ⟨k, hk, rfl⟩ := List.getElem_of_mem ha
      rw [List.getLast_eq_getElem]
      rcases Nat.lt_or_ge k (cs.length - 1) with hl | hl
      · have := (List.pairwise_iff_getElem.1 ho) k (cs.length - 1) hk (by omega) hl
        omega
      · have e : k = cs.length - 1 := by omega
        subst e
        omega
    have hmem := h ext hx hox
    obtain ⟨m', h2, hm', e, -, -, hr⟩ := (C84_reported_iff hnx _).1 hmem
    have het : cs[i + 2].time = (cs ++ ext)[m'].time := congrArg WilliamFractal.time e
    rw [← hg ext (i + 2) hm] at het
    have := time_inj hox _ _ het
    subst this
    have hj : cs.length < (cs ++ ext).length := by simp [ext]
    have hb := hr cs.length hj (by omega) (by
      rw [hg ext (i + 2) hm, weaker_append _ _ _ _ _ hm]; exact not_le.1 hw)
    have hlast : (cs ++ ext)[cs.length] =
        ⟨(cs.getLast (by intro h; simp [h] at hm)).time + 1, .fin 0, .inf false, .inf true, .fin 0, .fin 0⟩ := by
      rw [List.getElem_append_right (le_refl _)]
      simp [ext]
    rw [hlast, hg ext (i + 2) hm] at hb
    have ht : price t (⟨(cs.getLast (by intro h; simp [h] at hm)).time + 1, .fin 0, .inf false, .inf true,
        .fin 0, .fin 0⟩ : Candle) = top t := by cases t <;> rfl
    have hb' : beats t (top t) (price t cs[i + 2]) = false := by rw [← ht]; exact hb
    rw [beats_top (noNaN_price hn hm t) hfin] at hb'
    cases hb'
  · intro hw ext _ _
    refine mem_williamFractals.2 ⟨i, by simp; omega, ?_⟩
    rw [C86_confirmed_partial cs ext hi t hw]
    exact hfi

example : NoNaN exTies ∧ (exTies.Pairwise fun a b => a.time < b.time) ∧
    (⟨exTies[2].time, price .up exTies[2], .up⟩ : WilliamFractal) ∈ williamFractals exTies ∧
    price .up exTies[2] ≠ top .up ∧ weaker .up exTies 2 exTies.length exTies[2] = 0 := by
  decide +kernel

end Finmod
