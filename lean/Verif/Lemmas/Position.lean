import Mathlib.Tactic.FieldSimp
import Mathlib.Tactic.Ring
import Mathlib.Tactic.Linarith
import Verif.Spec.Position

/-! `Modify`, case by case. -/

namespace Finmod
open Go Spec

theorem long_ne_short : longPosition ≠ shortPosition := by decide
theorem buy_ne_sell : buyAction ≠ sellAction := by decide

theorem modified_wrongPair {S : FloatSem} {p : Position} {t : Trade} (h : p.pair ≠ t.pair) :
    modify S p t = .err .einvalid p := by
  simp [modify, h]

theorem modify_adds {S : FloatSem} {p : Position} {t : Trade} (hp : p.pair = t.pair)
    (h : Adds p t) : modify S p t = .ok (posAdd S p t) := by
  unfold modify
  rw [if_neg (by simpa using hp)]
  rcases h with ⟨h1, h2⟩ | ⟨h1, h2⟩
  · rw [if_pos ⟨h1, h2⟩]
  · simp [h1, h2, longPosition, shortPosition, buyAction, sellAction]

theorem modify_reduces {S : FloatSem} {p : Position} {t : Trade} (hp : p.pair = t.pair)
    (h : Reduces p t) : modify S p t = .ok (posSubstract' S p t) := by
  unfold modify
  rw [if_neg (by simpa using hp)]
  rcases h with ⟨h1, h2⟩ | ⟨h1, h2⟩ <;>
    simp [h1, h2, longPosition, shortPosition, buyAction, sellAction]

theorem modify_other {S : FloatSem} {p : Position} {t : Trade} (hp : p.pair = t.pair)
    (h1 : ¬ Adds p t) (h2 : ¬ Reduces p t) : modify S p t = .ok p := by
  unfold modify
  rw [if_neg (by simpa using hp)]
  unfold Adds at h1
  unfold Reduces at h2
  push Not at h1 h2
  have a := h1.1; have b := h1.2; have c := h2.1; have d := h2.2
  rw [if_neg, if_neg, if_neg, if_neg]
  · rintro ⟨x, y⟩; exact b x y
  · rintro ⟨x, y⟩; exact d x y
  · rintro ⟨x, y⟩; exact c x y
  · rintro ⟨x, y⟩; exact a x y

/-- The position after closing by the trade. -/
def closedBy (S : FloatSem) (p : Position) (trade : Trade) : Position :=
  { p with
      closePrice := trade.price
      profit :=
        if p.type = longPosition then S.mul (S.sub trade.price p.openPrice) p.quantity
        else S.mul (S.sub p.openPrice trade.price) p.quantity
      opened := false
      closeTime := trade.executionTime
      trades := p.trades ++ [trade.id] }

/-- The position after shrinking by the trade. -/
def shrunkBy (S : FloatSem) (p : Position) (trade : Trade) : Position :=
  { p with
      openPrice := S.div (S.mul (S.sub p.openPrice
        (S.mul trade.price (S.div trade.quantity p.quantity))) p.quantity)
          (S.sub p.quantity trade.quantity)
      quantity := S.sub p.quantity trade.quantity
      trades := p.trades ++ [trade.id] }

theorem posSubstract'_cases (S : FloatSem) (p : Position) (t : Trade) :
    (Oversized S p t ∧ posSubstract' S p t = p) ∨
    (¬ Oversized S p t ∧ Fl.le (S.sub p.quantity t.quantity) (.fin 0) = true ∧
      posSubstract' S p t = closedBy S p t) ∨
    (¬ Oversized S p t ∧ Fl.le (S.sub p.quantity t.quantity) (.fin 0) = false ∧
      posSubstract' S p t = shrunkBy S p t) := by
  unfold posSubstract' posSubstract Oversized
  by_cases h1 : Fl.lt (S.sub p.quantity t.quantity) (.fin 0) = true ∧
      Fl.lt (S.sub p.quantity t.quantity) (S.const (-1 / 10000)) = true
  · left
    refine ⟨h1, ?_⟩
    simp only [h1.1, h1.2, Bool.and_self, if_true]
  · right
    have h1' : ¬ ((Fl.lt (S.sub p.quantity t.quantity) (.fin 0) &&
        Fl.lt (S.sub p.quantity t.quantity) (S.const (-1 / 10000))) = true) := by
      simpa using h1
    by_cases h2 : Fl.le (S.sub p.quantity t.quantity) (.fin 0) = true
    · left
      refine ⟨h1, h2, ?_⟩
      simp only [h1', h2, if_true]
      rfl
    · right
      refine ⟨h1, by simpa using h2, ?_⟩
      simp only [h1', h2]
      rfl

theorem not_adds_and_reduces {p : Position} {t : Trade} (h : Adds p t) : ¬ Reduces p t := by
  rcases h with ⟨h1, h2⟩ | ⟨h1, h2⟩ <;> simp [Reduces, h1, h2]

/-- All outcomes of a `Modify` call. -/
theorem modified_cases (S : FloatSem) (p : Position) (t : Trade) :
    (¬ Accepts S p t ∧ modified S p t = p) ∨
    (Accepts S p t ∧ Adds p t ∧ modified S p t = posAdd S p t) ∨
    (Accepts S p t ∧ Reduces p t ∧ Fl.le (S.sub p.quantity t.quantity) (.fin 0) = true ∧
      modified S p t = closedBy S p t) ∨
    (Accepts S p t ∧ Reduces p t ∧ Fl.le (S.sub p.quantity t.quantity) (.fin 0) = false ∧
      modified S p t = shrunkBy S p t) := by
  unfold modified
  by_cases hp : p.pair = t.pair
  swap
  · left; rw [modified_wrongPair hp]; exact ⟨fun h => hp h.1, rfl⟩
  by_cases ha : Adds p t
  · right; left; rw [modify_adds hp ha]; exact ⟨⟨hp, .inl ha⟩, ha, rfl⟩
  by_cases hr : Reduces p t
  · rw [modify_reduces hp hr]
    rcases posSubstract'_cases S p t with ⟨h1, h2⟩ | ⟨h1, h2, h3⟩ | ⟨h1, h2, h3⟩
    · left
      refine ⟨?_, h2⟩
      rintro ⟨_, h | ⟨_, h⟩⟩
      · exact ha h
      · exact h h1
    · right; right; left; exact ⟨⟨hp, .inr ⟨hr, h1⟩⟩, hr, h2, h3⟩
    · right; right; right; exact ⟨⟨hp, .inr ⟨hr, h1⟩⟩, hr, h2, h3⟩
  · left
    rw [modify_other hp ha hr]
    exact ⟨by rintro ⟨_, h | ⟨h, _⟩⟩ <;> contradiction, rfl⟩

theorem applied_log {S : FloatSem} {p : Position} {t : Trade} :
    ((modified S p t).trades = p.trades) ↔ ¬ Accepts S p t := by
  rcases modified_cases S p t with ⟨h, e⟩ | ⟨h, _, e⟩ | ⟨h, _, _, e⟩ | ⟨h, _, _, e⟩ <;>
    simp [h, e, posAdd, closedBy, shrunkBy]

/-! ### exact arithmetic -/

theorem Spec.Sound.is {p : Position} (h : Sound p) :
    p.openPrice.Is p.openPrice.toRat ∧ p.quantity.Is p.quantity.toRat :=
  ⟨Fl.isFinite_is h.price, Fl.isFinite_is h.qty⟩

theorem Spec.GoodTrade.is {t : Trade} (h : GoodTrade t) :
    t.price.Is t.price.toRat ∧ t.quantity.Is t.quantity.toRat :=
  ⟨Fl.isFinite_is h.1, Fl.isFinite_is h.2.1⟩

theorem posAdd_exact {p : Position} {t : Trade} (hp : Sound p) (ht : GoodTrade t) :
    (posAdd FloatSem.exact p t).quantity.Is (p.quantity.toRat + t.quantity.toRat) ∧
    (posAdd FloatSem.exact p t).openPrice.Is
      ((p.openPrice.toRat * p.quantity.toRat + t.price.toRat * t.quantity.toRat) /
        (p.quantity.toRat + t.quantity.toRat)) := by
  have hq := FloatSem.exact_add hp.is.2 ht.is.2
  have hpos : p.quantity.toRat + t.quantity.toRat ≠ 0 := ne_of_gt (add_pos hp.pos ht.2.2)
  refine ⟨hq, ?_⟩
  have h := FloatSem.exact_add (FloatSem.exact_div (FloatSem.exact_mul hp.is.1 hp.is.2) hq hpos)
    (FloatSem.exact_div (FloatSem.exact_mul ht.is.1 ht.is.2) hq hpos)
  rw [← add_div] at h
  exact h

theorem shrunkBy_exact {p : Position} {t : Trade} (hp : Sound p) (ht : GoodTrade t)
    (h : Fl.le (FloatSem.exact.sub p.quantity t.quantity) (.fin 0) = false) :
    0 < p.quantity.toRat - t.quantity.toRat ∧
    (shrunkBy FloatSem.exact p t).quantity.Is (p.quantity.toRat - t.quantity.toRat) ∧
    (shrunkBy FloatSem.exact p t).openPrice.Is
      ((p.openPrice.toRat * p.quantity.toRat - t.price.toRat * t.quantity.toRat) /
        (p.quantity.toRat - t.quantity.toRat)) := by
  have hq := FloatSem.exact_sub hp.is.2 ht.is.2
  rw [hq.le (Fl.is_fin 0)] at h
  have hpos : 0 < p.quantity.toRat - t.quantity.toRat := by simpa using h
  refine ⟨hpos, hq, ?_⟩
  have hQ := ne_of_gt hp.pos
  have h := FloatSem.exact_div (FloatSem.exact_mul (FloatSem.exact_sub hp.is.1
    (FloatSem.exact_mul ht.is.1 (FloatSem.exact_div ht.is.2 hp.is.2 hQ))) hp.is.2) hq (ne_of_gt hpos)
  have e : (p.openPrice.toRat - t.price.toRat * (t.quantity.toRat / p.quantity.toRat)) *
      p.quantity.toRat = p.openPrice.toRat * p.quantity.toRat - t.price.toRat * t.quantity.toRat := by
    field_simp
  rw [e] at h
  exact h

theorem sound_newPosition {id : String} {z : Int} {t : Trade} (ht : GoodTrade t) (ha : BuyOrSell t) :
    Sound (newPosition id z t) := by
  refine ⟨ht.1, ht.2.1, ht.2.2, ?_⟩
  rcases ha with h | h <;> simp [newPosition, h, buyAction, sellAction, longPosition, shortPosition]

theorem sound_modified {p : Position} {t : Trade} (hp : Sound p) (ht : GoodTrade t) :
    Sound (modified FloatSem.exact p t) := by
  rcases modified_cases FloatSem.exact p t with ⟨_, e⟩ | ⟨_, _, e⟩ | ⟨_, _, _, e⟩ | ⟨_, _, h, e⟩
  · rw [e]; exact hp
  · rw [e]
    obtain ⟨h1, h2⟩ := posAdd_exact hp ht
    exact ⟨(Fl.is_iff.1 h2).1, (Fl.is_iff.1 h1).1, by rw [h1.toRat]; exact add_pos hp.pos ht.2.2, hp.type⟩
  · rw [e]; exact ⟨hp.price, hp.qty, hp.pos, hp.type⟩
  · rw [e]
    obtain ⟨h0, h1, h2⟩ := shrunkBy_exact hp ht h
    exact ⟨(Fl.is_iff.1 h2).1, (Fl.is_iff.1 h1).1, by rw [h1.toRat]; exact h0, hp.type⟩

theorem sound_modifiedAll {p : Position} {hist : List Trade} (hp : Sound p)
    (ht : ∀ t ∈ hist, GoodTrade t) : Sound (modifiedAll FloatSem.exact p hist) := by
  induction hist generalizing p with
  | nil => exact hp
  | cons t ts ih =>
    exact ih (sound_modified hp (ht t (by simp))) (fun t h => ht t (by simp [h]))

theorem opened_of_modified {S : FloatSem} {p : Position} {t : Trade}
    (h : (modified S p t).opened = true) : p.opened = true := by
  rcases modified_cases S p t with ⟨_, e⟩ | ⟨_, _, e⟩ | ⟨_, _, _, e⟩ | ⟨_, _, _, e⟩ <;> rw [e] at h
  · exact h
  · exact h
  · simp [closedBy] at h
  · exact h

theorem opened_of_modifiedAll {S : FloatSem} {p : Position} {hist : List Trade}
    (h : (modifiedAll S p hist).opened = true) : p.opened = true := by
  induction hist generalizing p with
  | nil => exact h
  | cons t ts ih => exact opened_of_modified (ih h)

/-- The book-keeping of one call that leaves the position open. -/
theorem basis_step {p : Position} {t : Trade} (hp : Sound p) (ht : GoodTrade t)
    (hopen : (modified FloatSem.exact p t).opened = true) :
    let p' := modified FloatSem.exact p t
    let a := if p'.trades = p.trades then [] else [t]
    posSign p' = posSign p ∧
    p'.quantity.toRat = p.quantity.toRat + posSign p * (a.map units).sum ∧
    p'.openPrice.toRat * p'.quantity.toRat =
      p.openPrice.toRat * p.quantity.toRat - posSign p * (a.map cash).sum := by
  intro p' a
  have hs : ∀ t, Adds p t → posSign p * units t = t.quantity.toRat ∧
      posSign p * cash t = -(t.price.toRat * t.quantity.toRat) := by
    intro t h
    rcases h with ⟨h1, h2⟩ | ⟨h1, h2⟩ <;> simp [posSign, units, cash, h1, h2]
  have hr : ∀ t, Reduces p t → posSign p * units t = -t.quantity.toRat ∧
      posSign p * cash t = t.price.toRat * t.quantity.toRat := by
    intro t h
    rcases h with ⟨h1, h2⟩ | ⟨h1, h2⟩ <;> simp [posSign, units, cash, h1, h2]
  have hlog := applied_log (S := FloatSem.exact) (p := p) (t := t)
  rcases modified_cases FloatSem.exact p t with ⟨h, e⟩ | ⟨h, ha, e⟩ | ⟨h, _, _, e⟩ | ⟨h, hrd, hle, e⟩
  · have : a = [] := by simp only [a]; rw [if_pos (hlog.2 h)]
    simp only [p', this, e]; simp
  · have : a = [t] := by simp only [a]; rw [if_neg (by rw [hlog]; simpa using h)]
    obtain ⟨h1, h2⟩ := posAdd_exact hp ht
    obtain ⟨s1, s2⟩ := hs t ha
    have hne : p.quantity.toRat + t.quantity.toRat ≠ 0 := ne_of_gt (add_pos hp.pos ht.2.2)
    refine ⟨by simp only [p', e]; rfl, ?_, ?_⟩
    · simp only [p', this, e, h1.toRat]; simp [s1]
    · simp only [p', this, e, h1.toRat, h2.toRat]
      simp only [List.map_cons, List.map_nil, List.sum_cons, List.sum_nil, add_zero, s2]
      field_simp; ring
  · rw [e] at hopen; simp [closedBy] at hopen
  · have : a = [t] := by simp only [a]; rw [if_neg (by rw [hlog]; simpa using h)]
    obtain ⟨h0, h1, h2⟩ := shrunkBy_exact hp ht hle
    obtain ⟨s1, s2⟩ := hr t hrd
    have hne := ne_of_gt h0
    refine ⟨by simp only [p', e]; rfl, ?_, ?_⟩
    · simp only [p', this, e, h1.toRat]; simp [s1]; ring
    · simp only [p', this, e, h1.toRat, h2.toRat]
      simp only [List.map_cons, List.map_nil, List.sum_cons, List.sum_nil, add_zero, s2]
      field_simp

theorem basis_history {p : Position} {hist : List Trade} (hp : Sound p)
    (ht : ∀ t ∈ hist, GoodTrade t)
    (hopen : (modifiedAll FloatSem.exact p hist).opened = true) :
    let p' := modifiedAll FloatSem.exact p hist
    posSign p' = posSign p ∧
    p'.quantity.toRat = p.quantity.toRat + posSign p * ((applied FloatSem.exact p hist).map units).sum ∧
    p'.openPrice.toRat * p'.quantity.toRat = p.openPrice.toRat * p.quantity.toRat -
      posSign p * ((applied FloatSem.exact p hist).map cash).sum := by
  induction hist generalizing p with
  | nil => simp [modifiedAll, applied]
  | cons t ts ih =>
    have ho1 : (modified FloatSem.exact p t).opened = true := opened_of_modifiedAll (hist := ts) hopen
    obtain ⟨a1, a2, a3⟩ := basis_step hp (ht t (by simp)) ho1
    obtain ⟨b1, b2, b3⟩ := ih (p := modified FloatSem.exact p t) (sound_modified hp (ht t (by simp)))
      (fun t h => ht t (by simp [h])) hopen
    have e : modifiedAll FloatSem.exact p (t :: ts) =
      modifiedAll FloatSem.exact (modified FloatSem.exact p t) ts := rfl
    simp only [e]
    refine ⟨b1.trans a1, ?_, ?_⟩
    · rw [b2, a2, a1]
      simp only [applied]
      split
      · simp
      · simp; ring
    · rw [b3, a3, a1]
      simp only [applied]
      split
      · simp
      · simp; ring

end Finmod
