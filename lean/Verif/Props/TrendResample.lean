import Verif.Props.Trend
import Verif.Props.FractalResample

/-!
# Trends survive resampling: C269
-/

namespace Finmod
open Go Spec

/-- Values picked from consecutive groups stand to each other as all values of the series do. -/
theorem groups_pairwise {α : Type} {R : α → α → Prop} {f : Candle → α} {P : List Candle → Candle → Prop}
    {groups : List (List Candle)} {out : List Candle} (hP : ∀ g c, P g c → ∃ v ∈ g, f v = f c)
    (h : List.Forall₂ P groups out) (hp : groups.flatten.Pairwise fun a b => R (f a) (f b)) :
    out.Pairwise fun a b => R (f a) (f b) := by
  induction h with
  | nil => exact .nil
  | @cons g c gs out hg hr ih =>
    rw [List.flatten_cons, List.pairwise_append] at hp
    rw [List.pairwise_cons]
    refine ⟨fun d hd => ?_, ih hp.2.1⟩
    obtain ⟨i, hi, rfl⟩ := List.mem_iff_getElem.1 hd
    obtain ⟨hl, hget⟩ := List.forall₂_iff_get.1 hr
    obtain ⟨v, hv, e⟩ := hP _ _ hg
    obtain ⟨w, hw, e'⟩ := hP _ _ (hget i (hl ▸ hi) hi)
    have := hp.2.2 v hv w (List.mem_flatten.2 ⟨_, List.get_mem _ _, hw⟩)
    rw [e, e'] at this
    exact this

/-- **C269** However the closes (opens, times) of a series stand to the later ones, those of the resampled series do too, in any float
arithmetic; and highs and lows, if they are in the range where the loops find them. -/
theorem C269_keeps (S : FloatSem) (minute : Int → Int) (candles : List Candle) (interval : Int) (out : List Candle)
    (hlen : 2 ≤ candles.length) (h : modifyInterval S minute candles interval = .ok out) :
    (∀ R : Fl → Fl → Prop,
      (candles.Pairwise (fun a b => R a.close b.close) → out.Pairwise fun a b => R a.close b.close) ∧
      (candles.Pairwise (fun a b => R a.opn b.opn) → out.Pairwise fun a b => R a.opn b.opn) ∧
      ((∀ c ∈ candles, InRange S c) →
        (candles.Pairwise (fun a b => R a.high b.high) → out.Pairwise fun a b => R a.high b.high) ∧
        (candles.Pairwise (fun a b => R a.low b.low) → out.Pairwise fun a b => R a.low b.low))) ∧
    ∀ R : Int → Int → Prop, candles.Pairwise (fun a b => R a.time b.time) → out.Pairwise fun a b => R a.time b.time := by
  obtain ⟨pre, groups, h1, -, h3, h4⟩ := C24_groups S minute candles interval out hlen h
  have sub : groups.flatten.Sublist candles := by rw [h1]; exact List.sublist_append_right _ _
  have hgr : (∀ c ∈ candles, InRange S c) → List.Forall₂ (fun g c => Summary S g c ∧ g ≠ [] ∧ ∀ v ∈ g, InRange S v) groups out := by
    intro hr
    rw [List.forall₂_iff_get] at h4 ⊢
    refine ⟨h4.1, fun i i1 i2 => ⟨h4.2 i i1 i2, h3 _ (List.get_mem _ _), fun v hv => hr v ?_⟩⟩
    exact sub.subset (List.mem_flatten.2 ⟨_, List.get_mem _ _, hv⟩)
  have pick : ∀ {α : Type} (f : Candle → α) {o : Option Candle} {g : List Candle} {c : Candle}, (∀ v, o = some v → v ∈ g) →
      o.map f = some (f c) → ∃ v ∈ g, f v = f c := by
    intro α f o g c ho he
    cases o with
    | none => simp at he
    | some v => exact ⟨v, ho v rfl, by simpa using he⟩
  refine ⟨fun R => ⟨fun hp => ?_, fun hp => ?_, fun hr => ⟨fun hp => ?_, fun hp => ?_⟩⟩, fun R hp => ?_⟩
  · exact groups_pairwise (f := Candle.close) (fun g c hs => pick _ (fun v hv => List.mem_of_getLast? hv) hs.close) h4 (hp.sublist sub)
  · exact groups_pairwise (f := Candle.opn) (fun g c hs => pick _ (fun v hv => List.mem_of_head? hv) hs.opn) h4 (hp.sublist sub)
  · exact groups_pairwise (f := Candle.high) (fun g c hs => (summary_price hs.1 hs.2.1 hs.2.2 .up).1) (hgr hr) (hp.sublist sub)
  · exact groups_pairwise (f := Candle.low) (fun g c hs => (summary_price hs.1 hs.2.1 hs.2.2 .down).1) (hgr hr) (hp.sublist sub)
  · exact groups_pairwise (f := Candle.time) (fun g c hs => pick _ (fun v hv => List.mem_of_head? hv) hs.time) h4 (hp.sublist sub)

/-- **C269** The moving averages of a resampled series of rising closes rise, in float64 too. -/
theorem C269_average {S : FloatSem} (hS : Lawful S) (minute : Int → Int) (candles : List Candle) (interval : Int) (out : List Candle)
    (hlen : 2 ≤ candles.length) (h : modifyInterval S minute candles interval = .ok out) (hc : CloseRises candles)
    (n : Nat) (h1 : 1 ≤ n) (h2 : n ≤ out.length) (h3 : n ≤ 2 ^ 53) :
    ∃ avg, movingAverage S (some out) n = .ok avg ∧ avg.Pairwise fun x y => Fl.le x y = true := by
  obtain ⟨avg, e, hr, -⟩ := C266_ma_partial hS out n h1 h2 h3
  refine ⟨avg, e, hr ⟨fun c hm => ?_, ((C269_keeps S minute candles interval out hlen h).1 (fun x y => Fl.le x y = true)).1 hc.2⟩⟩
  obtain ⟨pre, groups, g1, -, -, g4⟩ := C24_groups S minute candles interval out hlen h
  obtain ⟨i, hi, rfl⟩ := List.mem_iff_getElem.1 hm
  obtain ⟨hl, hget⟩ := List.forall₂_iff_get.1 g4
  have hs := (hget i (hl ▸ hi) hi).close
  simp only [List.get_eq_getElem] at hs
  cases hg : (groups[i]'(hl ▸ hi)).getLast? with
  | none => rw [hg] at hs; simp at hs
  | some v =>
    rw [hg] at hs
    simp only [Option.map_some, Option.some.injEq] at hs
    rw [← hs]
    refine hc.1 v ?_
    rw [g1]
    exact List.mem_append_right _ (List.mem_flatten.2 ⟨_, List.getElem_mem (hl ▸ hi), List.mem_of_getLast? hg⟩)

/-- Highs and lows that rise from candle to candle, or fall. -/
def Spec.Straight (cs : List Candle) : Prop :=
  cs.Pairwise (fun a b => Fl.lt a.high b.high = true ∧ Fl.lt a.low b.low = true) ∨
  cs.Pairwise (fun a b => Fl.lt b.high a.high = true ∧ Fl.lt b.low a.low = true)

/-- No fractal in a straight trend. -/
theorem straight_none {cs : List Candle} (h : Straight cs) : williamFractals cs = [] := by
  have key : ∀ i t, i + 4 < cs.length → findFractal cs i t = none := by
    intro i t hi
    have e : ∃ rest, cs.drop i = cs[i] :: cs[i + 1] :: cs[i + 2] :: cs[i + 3] :: rest := by
      refine ⟨cs.drop (i + 4), ?_⟩
      rw [List.drop_eq_getElem_cons (by omega), List.drop_eq_getElem_cons (by omega), List.drop_eq_getElem_cons (by omega),
        List.drop_eq_getElem_cons (by omega)]
    obtain ⟨rest, e⟩ := e
    have le_of : ∀ {x y : Fl}, Fl.lt x y = true → Fl.le x y = true := fun h =>
      Fl.le_iff.2 ⟨(lt_not_nan h).1, (lt_not_nan h).2, ((Fl.lt_iff.1 h).2.2).le⟩
    unfold findFractal
    rw [e]
    dsimp only
    rcases h with h | h
    · obtain ⟨a1, a2⟩ := List.pairwise_iff_getElem.1 h (i + 1) (i + 2) (by omega) (by omega) (by omega)
      obtain ⟨b1, b2⟩ := List.pairwise_iff_getElem.1 h (i + 2) (i + 3) (by omega) (by omega) (by omega)
      cases t with
      | up =>
        have : rightScan .up cs[i + 2] 0 (cs[i + 3] :: rest) = false := by
          rw [rightScan]; simp [Fl.gt, b1]
        rw [this]; simp
      | down =>
        have : leftFails .down cs[i + 2] cs[i + 1] = true := le_of a2
        rw [this]; simp
    · obtain ⟨a1, a2⟩ := List.pairwise_iff_getElem.1 h (i + 1) (i + 2) (by omega) (by omega) (by omega)
      obtain ⟨b1, b2⟩ := List.pairwise_iff_getElem.1 h (i + 2) (i + 3) (by omega) (by omega) (by omega)
      cases t with
      | up =>
        have : leftFails .up cs[i + 2] cs[i + 1] = true := le_of a1
        rw [this]; simp
      | down =>
        have : rightScan .down cs[i + 2] 0 (cs[i + 3] :: rest) = false := by
          rw [rightScan]; simp [b2]
        rw [this]; simp
  unfold williamFractals
  split_ifs with h5
  · rfl
  · refine List.flatMap_eq_nil_iff.2 fun i hi => ?_
    rw [List.mem_range] at hi
    unfold findFractals
    rw [key i .up (by omega), key i .down (by omega)]
    rfl

/-- **C269** A series whose highs and lows rise from candle to candle, or fall, has no fractal, and neither has a resampled one. -/
theorem C269_fractals (S : FloatSem) (minute : Int → Int) (candles : List Candle) (interval : Int) (h : Straight candles) :
    williamFractals candles = [] ∧
    ∀ out, 2 ≤ candles.length → (∀ c ∈ candles, InRange S c) → modifyInterval S minute candles interval = .ok out →
      williamFractals out = [] := by
  refine ⟨straight_none h, fun out hlen hr hm => straight_none ?_⟩
  have k := (C269_keeps S minute candles interval out hlen hm).1
  rcases h with h | h
  · have a := ((k fun x y => Fl.lt x y = true).2.2 hr).1 (h.imp And.left)
    have b := ((k fun x y => Fl.lt x y = true).2.2 hr).2 (h.imp And.right)
    exact .inl (a.imp₂ (fun _ _ => And.intro) b)
  · have a := ((k fun x y => Fl.lt y x = true).2.2 hr).1 (h.imp And.left)
    have b := ((k fun x y => Fl.lt y x = true).2.2 hr).2 (h.imp And.right)
    exact .inr (a.imp₂ (fun _ _ => And.intro) b)

/-- Rising candles, one a minute. -/
def risingCandles (n : Nat) : List Candle :=
  (List.range n).map fun k => ⟨60 * k, .fin k, .fin (k + 2), .fin k, .fin (k + 1), .fin 1⟩

/-- **Example for C269.** -/
example : Straight (risingCandles 10) ∧ CloseRises (risingCandles 10) ∧ (∀ c ∈ risingCandles 10, InRange ieee c) ∧
    (modifyInterval ieee utcMinute (risingCandles 10) 2).isOk = true := by
  refine ⟨.inl (by decide +kernel), ⟨by decide +kernel, by decide +kernel⟩, ?_, by decide +kernel⟩
  unfold InRange
  decide +kernel

end Finmod
