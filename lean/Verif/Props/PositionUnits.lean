import Verif.Props.PositionMoney

/-!
# C154: positions under a change of price scale

In exact arithmetic, replacing every price `x` by `a*x + b` does the same to open and close prices and
multiplies profits by `a`; nothing else changes.
-/

namespace Finmod
open Go Spec

/-- `y` is `a*x + b`, both finite. -/
def Spec.Follows (a b : ℚ) (x y : Fl) : Prop := ∃ q, x.Is q ∧ y.Is (a * q + b)

/-- The same trade at the changed price; fee and cost are free. -/
structure Spec.Repriced (a b : ℚ) (t t' : Trade) : Prop where
  same : t' = { t with price := t'.price, fee := t'.fee, cost := t'.cost }
  price : Follows a b t.price t'.price

/-- The same position with changed prices and profit. -/
structure Spec.RepricedPos (a b : ℚ) (p p' : Position) : Prop where
  same : p' = { p with openPrice := p'.openPrice, closePrice := p'.closePrice, profit := p'.profit }
  openPrice : Follows a b p.openPrice p'.openPrice
  profit : Follows a 0 p.profit p'.profit
  unset : p.opened = true → p'.closePrice = p.closePrice
  closePrice : p.opened = false → Follows a b p.closePrice p'.closePrice

theorem Spec.Follows.toRat {a b : ℚ} {x y : Fl} (h : Follows a b x y) : y.toRat = a * x.toRat + b := by
  obtain ⟨q, h1, h2⟩ := h
  rw [h1.toRat, h2.toRat]

theorem follows_of {a b : ℚ} {x y : Fl} {u v : ℚ} (hx : x.Is u) (hy : y.Is v) (h : v = a * u + b) :
    Follows a b x y := ⟨u, hx, h ▸ hy⟩

theorem repriced_gain {a b : ℚ} {o o' c c' q : Fl} (ho : Follows a b o o') (hc : Follows a b c c')
    (hq : q.isFinite = true) :
    Follows a 0 (FloatSem.exact.mul (FloatSem.exact.sub c o) q) (FloatSem.exact.mul (FloatSem.exact.sub c' o') q) := by
  obtain ⟨x, h1, h2⟩ := ho
  obtain ⟨y, h3, h4⟩ := hc
  have hq := Fl.isFinite_is hq
  refine follows_of (FloatSem.exact_mul (FloatSem.exact_sub h3 h1) hq)
    (FloatSem.exact_mul (FloatSem.exact_sub h4 h2) hq) ?_
  ring

/-- **C154.** `UnrealizedProfit` at the changed price is `a` times the old one. -/
theorem C154_unrealized {a b : ℚ} {p p' : Position} (h : RepricedPos a b p p') (hq : p.quantity.isFinite = true)
    {c c' : Fl} (hc : Follows a b c c') :
    Follows a 0 (unrealizedProfit FloatSem.exact p c) (unrealizedProfit FloatSem.exact p' c') := by
  have ht : p'.type = p.type := by rw [h.same]
  have hqq : p'.quantity = p.quantity := by rw [h.same]
  unfold unrealizedProfit
  rw [ht, hqq]
  split
  · exact repriced_gain h.openPrice hc hq
  · exact repriced_gain hc h.openPrice hq

theorem repriced_step {a b : ℚ} {p p' : Position} {t t' : Trade} (h : RepricedPos a b p p') (hp : Sound p)
    (ht : GoodTrade t) (hr : Repriced a b t t') :
    RepricedPos a b (modified FloatSem.exact p t) (modified FloatSem.exact p' t') := by
  have hp' : Sound p' := by
    refine ⟨?_, ?_, ?_, ?_⟩
    · obtain ⟨q, _, h2⟩ := h.openPrice; exact (Fl.is_iff.1 h2).1
    · rw [h.same]; exact hp.qty
    · rw [h.same]; exact hp.pos
    · rw [h.same]; exact hp.type
  have ht' : GoodTrade t' := by
    refine ⟨?_, ?_, ?_⟩
    · obtain ⟨q, _, h2⟩ := hr.price; exact (Fl.is_iff.1 h2).1
    · rw [hr.same]; exact ht.2.1
    · rw [hr.same]; exact ht.2.2
  have eo := h.openPrice.toRat
  have ep := hr.price.toRat
  have hqQ := hp.pos
  have hqT := ht.2.2
  obtain ⟨hsame, hopen, hprof, hun, hcl⟩ := h
  obtain ⟨hts, htp⟩ := hr
  have q1 : p'.quantity = p.quantity := by rw [hsame]
  have q2 : t'.quantity = t.quantity := by rw [hts]
  have hA : Accepts FloatSem.exact p' t' ↔ Accepts FloatSem.exact p t := by rw [hsame, hts]; rfl
  have hAd : Adds p' t' ↔ Adds p t := by rw [hsame, hts]; rfl
  have hRe : Reduces p' t' ↔ Reduces p t := by rw [hsame, hts]; rfl
  rcases modified_cases FloatSem.exact p t with ⟨c1, e⟩ | ⟨c1, c2, e⟩ | ⟨c1, c2, c3, e⟩ | ⟨c1, c2, c3, e⟩ <;>
  rcases modified_cases FloatSem.exact p' t' with ⟨d1, e'⟩ | ⟨d1, d2, e'⟩ | ⟨d1, d2, d3, e'⟩ | ⟨d1, d2, d3, e'⟩
  all_goals first
    | exact absurd (hA.1 d1) c1
    | exact absurd (hA.2 c1) d1
    | exact absurd (hRe.1 d2) (not_adds_and_reduces c2)
    | exact absurd (hRe.2 c2) (not_adds_and_reduces d2)
    | (rw [q1, q2, c3] at d3; exact absurd d3 (by decide))
    | skip
  · rw [e, e']; exact ⟨hsame, hopen, hprof, hun, hcl⟩
  · obtain ⟨x1, x2⟩ := posAdd_exact hp ht
    obtain ⟨y1, y2⟩ := posAdd_exact hp' ht'
    rw [e, e']
    refine ⟨?_, ?_, hprof, hun, hcl⟩
    · rw [hsame, hts]; rfl
    · refine follows_of x2 y2 ?_
      rw [eo, ep, q1, q2]
      have : p.quantity.toRat + t.quantity.toRat ≠ 0 := by linarith
      field_simp
      ring
  · rw [e, e']
    refine ⟨?_, hopen, ?_, (by intro h; cases h), fun _ => htp⟩
    · rw [hsame, hts]; rfl
    · have ty : p'.type = p.type := by rw [hsame]
      simp only [closedBy, ty, q1]
      split
      · exact repriced_gain hopen htp hp.qty
      · exact repriced_gain htp hopen hp.qty
  · obtain ⟨x0, x1, x2⟩ := shrunkBy_exact hp ht c3
    obtain ⟨_, y1, y2⟩ := shrunkBy_exact hp' ht' d3
    rw [e, e']
    refine ⟨?_, ?_, hprof, hun, hcl⟩
    · rw [hsame, hts]; rfl
    · refine follows_of x2 y2 ?_
      rw [eo, ep, q1, q2]
      have := x0.ne'
      field_simp
      ring

/-- **C154.** From the opening trade on: after any history of good trades, repriced. -/
theorem C154_affine {a b : ℚ} {id : String} {z : Int} {first first' : Trade} {hist hist' : List Trade}
    (hf : GoodTrade first) (ha : BuyOrSell first) (hr : Repriced a b first first')
    (hg : ∀ t ∈ hist, GoodTrade t) (hh : List.Forall₂ (Repriced a b) hist hist') :
    RepricedPos a b (modifiedAll FloatSem.exact (newPosition id z first) hist)
      (modifiedAll FloatSem.exact (newPosition id z first') hist') := by
  have h0 : RepricedPos a b (newPosition id z first) (newPosition id z first') := by
    refine ⟨?_, hr.price, ⟨0, by simp [newPosition], by simp [newPosition]⟩, fun _ => rfl, by intro h; cases h⟩
    rw [hr.same]; rfl
  have hs := sound_newPosition (id := id) (z := z) hf ha
  generalize newPosition id z first = p at *
  generalize newPosition id z first' = p' at *
  clear hf ha hr
  induction hh generalizing p p' with
  | nil => exact h0
  | cons ht _ ih =>
    exact ih (fun t h => hg t (by simp [h])) _ (sound_modified hs (hg _ (by simp)))
      _ (repriced_step h0 hs (hg _ (by simp)) ht)

namespace Ex

/-- Prices in cents above 50: `x ↦ 100*x - 5000`. -/
def dear (t : Trade) : Trade := { t with price := .fin (100 * t.price.toRat - 5000), cost := .fin 0 }

def units : List Trade := [exTrade "2" "buy" 120 1, exTrade "3" "sell" 130 1, exTrade "4" "sell" 140 2]

theorem dear_repriced {id act : String} {x q : ℚ} :
    Repriced 100 (-5000) (exTrade id act x q) (dear (exTrade id act x q)) :=
  ⟨rfl, x, Fl.is_fin x, by show Fl.Is (.fin (100 * x - 5000)) _; rw [sub_eq_add_neg]; exact Fl.is_fin _⟩

example : (∀ t ∈ exTrade "1" "buy" 100 2 :: units, GoodTrade t) ∧ BuyOrSell (exTrade "1" "buy" 100 2) ∧
    List.Forall₂ (Repriced 100 (-5000)) units (units.map dear) :=
  ⟨by decide +kernel, by decide +kernel,
    .cons dear_repriced (.cons dear_repriced (.cons dear_repriced .nil))⟩

example :
    ((modifiedAll FloatSem.exact (newPosition "p" 3 (exTrade "1" "buy" 100 2)) units).profit.toRat = 90 ∧
    (modifiedAll FloatSem.exact (newPosition "p" 3 (dear (exTrade "1" "buy" 100 2))) (units.map dear)).profit.toRat
      = 9000) := by decide +kernel

end Ex

end Finmod
