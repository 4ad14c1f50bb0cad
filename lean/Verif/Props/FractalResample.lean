import Verif.Lemmas.FloatX
import Verif.Props.CandleGroups
import Verif.Props.Fractals

/-!
# C219: fractals of resampled series
-/

namespace Finmod
open Go Spec

/-- `p` beats every candle of the group. -/
def Spec.beatsAll (t : FractalType) (p : Fl) (g : List Candle) : Bool := g.all fun v => beats t p (price t v)

/-- No candle of the group beats `p`. -/
def Spec.unbeatenBy (t : FractalType) (g : List Candle) (p : Fl) : Prop := ∀ v ∈ g, beats t (price t v) p = false

/-- How the fractal of group number `m` looks in the candles of the groups: `p` is the extreme of group `m`, it beats all
candles of the two groups before, and no candle of a later group beats it before two groups have come all whose candles it
beats. -/
def Spec.GroupFractal (t : FractalType) (groups : List (List Candle)) (m : Nat) (g : List Candle) (p : Fl) : Prop :=
  2 ≤ m ∧ m + 2 < groups.length ∧ groups[m]? = some g ∧ (∃ v ∈ g, price t v = p) ∧ unbeatenBy t g p ∧
  (∀ k h, k = m - 2 ∨ k = m - 1 → groups[k]? = some h → beatsAll t p h = true) ∧
  ∀ j h, m < j → groups[j]? = some h → (((groups.drop (m + 1)).take (j - (m + 1))).countP fun g => beatsAll t p g) < 2 →
    unbeatenBy t h p

/-- Highs and lows are numbers within the range the code starts from. -/
def Spec.InRange (S : FloatSem) (c : Candle) : Prop :=
  Fl.gt c.high (S.const (-10 ^ 308)) = true ∧ Fl.lt c.low (S.const (10 ^ 308)) = true

theorem lt_not_nan {x y : Fl} (h : Fl.lt x y = true) : x ≠ .nan ∧ y ≠ .nan := by
  constructor <;> rintro rfl <;> simp [Fl.lt, Fl.isNaN] at h

/-- The extreme of a summary is that of one candle of the group and no candle of the group is more extreme. -/
theorem summary_price {S : FloatSem} {g : List Candle} {c : Candle} (hs : Summary S g c) (hg : g ≠ [])
    (hr : ∀ v ∈ g, InRange S v) (t : FractalType) :
    (∃ v ∈ g, price t v = price t c) ∧ ∀ v ∈ g,
      (match t with | .up => Fl.le (price t v) (price t c) | .down => Fl.le (price t c) (price t v)) = true := by
  obtain ⟨w, hw⟩ := List.exists_mem_of_ne_nil g hg
  cases t with
  | up =>
    refine ⟨?_, fun v hv => hs.high_ub v hv (lt_not_nan (hr v hv).1).2 (lt_not_nan (hr v hv).1).1⟩
    rcases hs.high_mem with h | ⟨_, h⟩
    · exact h
    · exact absurd (hr w hw).1 (by rw [h w hw]; simp)
  | down =>
    refine ⟨?_, fun v hv => hs.low_lb v hv (lt_not_nan (hr v hv).2).1 (lt_not_nan (hr v hv).2).2⟩
    rcases hs.low_mem with h | ⟨_, h⟩
    · exact h
    · exact absurd (hr w hw).2 (by rw [h w hw]; simp)

theorem beatsAll_iff {S : FloatSem} {g : List Candle} {c : Candle} (hs : Summary S g c) (hg : g ≠ [])
    (hr : ∀ v ∈ g, InRange S v) (t : FractalType) (p : Fl) : beatsAll t p g = beats t p (price t c) := by
  obtain ⟨⟨w, hw, e⟩, hb⟩ := summary_price hs hg hr t
  rw [Bool.eq_iff_iff]
  unfold beatsAll
  rw [List.all_eq_true]
  constructor
  · intro h; rw [← e]; exact h w hw
  · intro h v hv
    have := hb v hv
    cases t with
    | up => exact fl_lt_of_le_of_lt this h
    | down => exact fl_lt_of_lt_of_le h this

theorem unbeatenBy_iff {S : FloatSem} {g : List Candle} {c : Candle} (hs : Summary S g c) (hg : g ≠ [])
    (hr : ∀ v ∈ g, InRange S v) (t : FractalType) (p : Fl) : unbeatenBy t g p ↔ beats t (price t c) p = false := by
  obtain ⟨⟨w, hw, e⟩, hb⟩ := summary_price hs hg hr t
  unfold unbeatenBy
  constructor
  · intro h; rw [← e]; exact h w hw
  · intro h v hv
    have := hb v hv
    by_contra hc
    rw [Bool.not_eq_false] at hc
    have : beats t (price t c) p = true := by
      cases t with
      | up => exact fl_lt_of_lt_of_le hc this
      | down => exact fl_lt_of_le_of_lt this hc
    rw [h] at this
    cases this

theorem forall₂_at {α β : Type} {R : α → β → Prop} {l : List α} {l' : List β} (h : List.Forall₂ R l l') :
    (∀ (k : Nat) (a : α), l[k]? = some a → ∃ b, l'[k]? = some b ∧ R a b) ∧
    ∀ (k : Nat) (b : β), l'[k]? = some b → ∃ a, l[k]? = some a ∧ R a b := by
  induction h with
  | nil => simp
  | cons hab _ ih =>
    refine ⟨?_, ?_⟩
    · intro k a e
      cases k with
      | zero => simp only [List.getElem?_cons_zero, Option.some.injEq] at e; subst e; exact ⟨_, rfl, hab⟩
      | succ k => simpa using ih.1 k a (by simpa using e)
    · intro k b e
      cases k with
      | zero => simp only [List.getElem?_cons_zero, Option.some.injEq] at e; subst e; exact ⟨_, rfl, hab⟩
      | succ k => simpa using ih.2 k b (by simpa using e)

theorem forall₂_countP {α β : Type} {R : α → β → Prop} {p : α → Bool} {q : β → Bool} {l : List α} {l' : List β}
    (h : List.Forall₂ R l l') (hpq : ∀ a ∈ l, ∀ b, R a b → p a = q b) : l.countP p = l'.countP q := by
  induction h with
  | nil => rfl
  | cons hab _ ih =>
    rw [List.countP_cons, List.countP_cons, ih fun a ha => hpq a (List.mem_cons_of_mem _ ha),
      hpq _ List.mem_cons_self _ hab]

/-- **C219** A fractal of a resampled series, in terms of the candles before resampling: there is a way to cut the candles
into the groups of `ModifyInterval` such that the fractals reported are those of the groups. The fractal has the time of the
first candle of its group and the price of its most extreme one. Every arithmetic. -/
theorem C219_resampled (S : FloatSem) (minute : Int → Int) (candles : List Candle) (interval : Int) (out : List Candle)
    (hlen : 2 ≤ candles.length) (h : modifyInterval S minute candles interval = .ok out)
    (hr : ∀ c ∈ candles, InRange S c) :
    ∃ (pre : List Candle) (groups : List (List Candle)), candles = pre ++ groups.flatten ∧ (∀ g ∈ groups, g ≠ []) ∧
      List.Forall₂ (Summary S) groups out ∧
      (∀ f ∈ williamFractals out, ∃ m g, GroupFractal f.ftype groups m g f.price ∧
        g.head?.map (·.time) = some f.time) ∧
      ∀ t m g p, GroupFractal t groups m g p →
        ∃ f ∈ williamFractals out, f.ftype = t ∧ Fl.eq f.price p = true ∧ g.head?.map (·.time) = some f.time := by
  obtain ⟨pre, groups, h1, -, h3, h4⟩ := C24_groups S minute candles interval out hlen h
  have hgr : ∀ g ∈ groups, ∀ v ∈ g, InRange S v := by
    intro g hg v hv
    refine hr v ?_
    rw [h1]
    exact List.mem_append_right _ (List.mem_flatten.2 ⟨g, hg, hv⟩)
  have hl : groups.length = out.length := h4.length_eq
  obtain ⟨fw, bw⟩ := forall₂_at h4
  have hn : NoNaN out := by
    intro c hc
    obtain ⟨k, hk⟩ := List.mem_iff_getElem?.1 hc
    obtain ⟨g, hg, hs⟩ := bw k c hk
    have hm := List.mem_of_getElem? hg
    obtain ⟨⟨v, hv, e⟩, -⟩ := summary_price hs (h3 g hm) (hgr g hm) .up
    obtain ⟨⟨w, hw, e'⟩, -⟩ := summary_price hs (h3 g hm) (hgr g hm) .down
    simp only [price] at e e'
    rw [← e, ← e']
    exact ⟨(lt_not_nan (hgr g hm v hv).1).2, (lt_not_nan (hgr g hm w hw).2).1⟩
  have cnt : ∀ t p m j, (((groups.drop (m + 1)).take (j - (m + 1))).countP fun g => beatsAll t p g) =
      (((out.drop (m + 1)).take (j - (m + 1))).countP fun e => beats t p (price t e)) := by
    intro t p m j
    refine forall₂_countP (List.forall₂_take _ (List.forall₂_drop _ h4)) ?_
    intro g hg c hs
    have hm : g ∈ groups := List.mem_of_mem_drop (List.mem_of_mem_take hg)
    exact beatsAll_iff hs (h3 g hm) (hgr g hm) t p
  refine ⟨pre, groups, h1, h3, h4, ?_, ?_⟩
  · intro f hf
    obtain ⟨m, h2, hm, e, b1, b2, b3⟩ := (C84_reported_iff hn f).1 hf
    obtain ⟨g, hg, hs⟩ := bw m out[m] (List.getElem?_eq_getElem _)
    have hgm := List.mem_of_getElem? hg
    have ep : f.price = price f.ftype out[m] := by rw [e]
    refine ⟨m, g, ⟨h2, by omega, hg, ?_, ?_, ?_, ?_⟩, ?_⟩
    · rw [ep]
      exact (summary_price hs (h3 g hgm) (hgr g hgm) f.ftype).1
    · rw [ep, unbeatenBy_iff hs (h3 g hgm) (hgr g hgm)]
      cases f.ftype <;> simp [beats, Fl.lt]
    · intro k h hk hgk
      obtain ⟨c, hc, hs'⟩ := fw k h hgk
      have hh := List.mem_of_getElem? hgk
      rw [ep, beatsAll_iff hs' (h3 h hh) (hgr h hh)]
      rcases hk with rfl | rfl
      · rw [List.getElem?_eq_getElem (by omega), Option.some.injEq] at hc
        rw [← hc]; exact b1
      · rw [List.getElem?_eq_getElem (by omega), Option.some.injEq] at hc
        rw [← hc]; exact b2
    · intro j h hmj hgj hc
      obtain ⟨c, hc', hs'⟩ := fw j h hgj
      have hh := List.mem_of_getElem? hgj
      obtain ⟨hj, e'⟩ := List.getElem?_eq_some_iff.1 hc'
      rw [ep, unbeatenBy_iff hs' (h3 h hh) (hgr h hh), ← e']
      refine b3 j hj hmj ?_
      rw [cnt, ep] at hc
      exact hc
    · rw [hs.time, e]
  · rintro t m g p ⟨h2, hm, hg, ⟨v, hv, ev⟩, hu, hk, hj⟩
    obtain ⟨c, hc, hs⟩ := fw m g hg
    have hgm := List.mem_of_getElem? hg
    obtain ⟨hm', ec⟩ := List.getElem?_eq_some_iff.1 hc
    obtain ⟨⟨w, hw, ew⟩, hb⟩ := summary_price hs (h3 g hgm) (hgr g hgm) t
    -- the price of the summary equals `p`
    have hpn : p ≠ .nan := by
      rw [← ev]
      cases t
      exacts [(lt_not_nan (hgr g hgm v hv).1).2, (lt_not_nan (hgr g hgm v hv).2).1]
    have hle := hb v hv
    have hnb := (unbeatenBy_iff hs (h3 g hgm) (hgr g hgm) t p).1 hu
    rw [ev] at hle
    have heq : Fl.eq (price t c) p = true := by
      cases t <;> simp only [beats, Fl.lt, Fl.le, Fl.eq, Bool.and_eq_true, Bool.and_eq_false_iff, decide_eq_true_eq,
        decide_eq_false_iff_not, Bool.not_eq_true', Bool.not_eq_false'] at hle hnb ⊢
      · refine ⟨⟨hle.1.2, hle.1.1⟩, ?_⟩
        rcases hnb with (h | h) | h
        · simp [hle.1.1] at h
        · simp [hle.1.2] at h
        · exact le_antisymm (not_lt.1 h) hle.2
      · refine ⟨⟨hle.1.1, hle.1.2⟩, ?_⟩
        rcases hnb with (h | h) | h
        · simp [hle.1.1] at h
        · simp [hle.1.2] at h
        · exact le_antisymm hle.2 (not_lt.1 h)
    have bl : ∀ x, beats t (price t c) x = beats t p x := by
      intro x
      simp only [Fl.eq, Bool.and_eq_true, Bool.not_eq_true', decide_eq_true_eq] at heq
      cases t <;> simp only [beats, Fl.lt, heq.1.1, heq.1.2, heq.2]
    have br : ∀ x, beats t x (price t c) = beats t x p := by
      intro x
      simp only [Fl.eq, Bool.and_eq_true, Bool.not_eq_true', decide_eq_true_eq] at heq
      cases t <;> simp only [beats, Fl.lt, heq.1.1, heq.1.2, heq.2]
    refine ⟨⟨c.time, price t c, t⟩, ?_, rfl, heq, hs.time⟩
    rw [C84_reported_iff hn]
    subst ec
    refine ⟨m, h2, by omega, rfl, ?_, ?_, ?_⟩
    · obtain ⟨h, hh, hs'⟩ := bw (m - 2) (out[m - 2]'(by omega)) (List.getElem?_eq_getElem _)
      have hhm := List.mem_of_getElem? hh
      have := hk (m - 2) h (.inl rfl) hh
      rwa [beatsAll_iff hs' (h3 h hhm) (hgr h hhm), ← bl] at this
    · obtain ⟨h, hh, hs'⟩ := bw (m - 1) (out[m - 1]'(by omega)) (List.getElem?_eq_getElem _)
      have hhm := List.mem_of_getElem? hh
      have := hk (m - 1) h (.inr rfl) hh
      rwa [beatsAll_iff hs' (h3 h hhm) (hgr h hhm), ← bl] at this
    · intro j hj' hmj hwk
      obtain ⟨h, hh, hs'⟩ := bw j out[j] (List.getElem?_eq_getElem _)
      have hhm := List.mem_of_getElem? hh
      have := hj j h hmj hh (by
        rw [cnt]
        unfold weaker at hwk
        simp only [bl] at hwk
        exact hwk)
      rwa [unbeatenBy_iff hs' (h3 h hhm) (hgr h hhm), ← br] at this

/-- Ten candles, one each minute; highs of the pairs 2, 3, 7, 5, 4. -/
def Ex.tenMinutes : List Candle :=
  ([1, 2, 3, 1, 6, 7, 5, 2, 4, 3] : List ℚ).zipIdx.map fun (q, i) => ⟨60 * i, .fin q, .fin q, .fin (q - 1), .fin q, .fin 1⟩

/-- Resampled to two minutes they have an up fractal at minute 4, with the high 7 of minute 5. -/
example : (match modifyInterval FloatSem.exact (fun t => t / 60 % 60) Ex.tenMinutes 2 with
      | .ok out => decide (williamFractals out = [⟨240, .fin 7, .up⟩])
      | _ => false) = true ∧ ∀ c ∈ Ex.tenMinutes, InRange FloatSem.exact c :=
  ⟨by decide +kernel, by unfold InRange; decide +kernel⟩

end Finmod
