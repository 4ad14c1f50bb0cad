import Verif.Props.MoreExact

/-!
# A trade that is delivered twice: C256
-/

namespace Finmod
open Go Spec

/-- Full statement of C256: passing a trade to `Modify` again changes nothing. -/
def Spec.C256_claim (S : FloatSem) : Prop :=
  ∀ (p : Position) (t : Trade), p.opened = true → modified S (modified S p t) t = modified S p t

/-- When the second delivery changes nothing: exactly if it is not accepted. Otherwise the log has the ID twice. -/
theorem C256_unchanged_iff (S : FloatSem) (p : Position) (t : Trade) :
    (modified S (modified S p t) t = modified S p t ↔ ¬ Accepts S (modified S p t) t) ∧
    (Accepts S p t → Accepts S (modified S p t) t →
      (modified S (modified S p t) t).trades = p.trades ++ [t.id, t.id]) := by
  obtain ⟨h1, _⟩ := C138_changes_iff S (modified S p t) t
  refine ⟨by rw [← h1, not_not], fun ha ha' => ?_⟩
  rw [(C138_changes_iff S (modified S p t) t).2, (C138_changes_iff S p t).2, if_pos ha, if_pos ha']
  simp

/-- A trade that is not accepted has no effect however often it comes. -/
theorem C256_refused (S : FloatSem) (p : Position) (t : Trade) (h : ¬ Accepts S p t) (n : Nat) :
    modifiedAll S p (List.replicate n t) = p := by
  induction n with
  | zero => rfl
  | succ n ih =>
    have e : modified S p t = p := by
      by_contra hc
      exact h ((C138_changes_iff S p t).1.1 hc)
    rw [List.replicate_succ, modifiedAll, List.foldl_cons, e]
    exact ih

/-- **C256**, what holds: a closing trade delivered again leaves everything but the log as it is. -/
theorem C256_closing_partial (S : FloatSem) (p : Position) (t : Trade) (ha : Accepts S p t) (hr : Reduces p t)
    (hc : Fl.le (S.sub p.quantity t.quantity) (.fin 0) = true) :
    modified S (modified S p t) t = { modified S p t with trades := p.trades ++ [t.id, t.id] } := by
  have e : modified S p t = closedBy S p t := by
    rcases modified_cases S p t with ⟨h, _⟩ | ⟨_, h, _⟩ | ⟨_, _, _, e⟩ | ⟨_, _, h, _⟩
    · exact absurd ha h
    · exact absurd hr (not_adds_and_reduces h)
    · exact e
    · exact absurd (h.symm.trans hc) (by simp)
  have hr' : Reduces (closedBy S p t) t := hr
  have ha' : Accepts S (closedBy S p t) t := ha
  have hc' : Fl.le (S.sub (closedBy S p t).quantity t.quantity) (.fin 0) = true := hc
  rw [e]
  rcases modified_cases S (closedBy S p t) t with ⟨h, _⟩ | ⟨_, h, _⟩ | ⟨_, _, _, e'⟩ | ⟨_, _, h, _⟩
  · exact absurd ha' h
  · exact absurd hr' (not_adds_and_reduces h)
  · rw [e']; simp only [closedBy, List.append_assoc]; rfl
  · exact absurd (h.symm.trans hc') (by simp)

/-- A trade that adds is counted twice. -/
theorem C256_added {p : Position} {t : Trade} (hp : Sound p) (ht : GoodTrade t) (hpair : p.pair = t.pair) (ha : Adds p t) :
    let q := modified FloatSem.exact (modified FloatSem.exact p t) t
    q.quantity.Is (p.quantity.toRat + 2 * t.quantity.toRat) ∧
    q.openPrice.Is ((p.openPrice.toRat * p.quantity.toRat + 2 * (t.price.toRat * t.quantity.toRat)) /
      (p.quantity.toRat + 2 * t.quantity.toRat)) := by
  intro q
  have key : ∀ {p : Position}, p.pair = t.pair → Adds p t → modified FloatSem.exact p t = posAdd FloatSem.exact p t := by
    intro p hpair ha
    rcases modified_cases FloatSem.exact p t with ⟨h, _⟩ | ⟨_, _, e⟩ | ⟨_, h, _⟩ | ⟨_, h, _⟩
    · exact absurd ⟨hpair, .inl ha⟩ h
    · exact e
    · exact absurd h (not_adds_and_reduces ha)
    · exact absurd h (not_adds_and_reduces ha)
  obtain ⟨h1, h2⟩ := posAdd_exact hp ht
  have hp' := sound_modified hp ht
  have e1 := key hpair ha
  rw [e1] at hp'
  have e2 := key (p := posAdd FloatSem.exact p t) hpair ha
  obtain ⟨h3, h4⟩ := posAdd_exact hp' ht
  have eq : q = posAdd FloatSem.exact (posAdd FloatSem.exact p t) t := by rw [← e2, ← e1]
  have hpos : 0 < p.quantity.toRat + t.quantity.toRat := add_pos hp.pos ht.2.2
  rw [eq]
  rw [h1.toRat] at h3 h4
  rw [h2.toRat] at h4
  constructor
  · convert h3 using 1; ring
  · convert h4 using 1
    rw [div_mul_cancel₀ _ hpos.ne']
    congr 1 <;> ring

/-- A trade that sells part of a long position, or buys back part of a short one: whether the second delivery is accepted,
and what it then does. -/
theorem C256_reduced {p : Position} {t : Trade} (hp : Sound p) (ht : GoodTrade t) (hpair : p.pair = t.pair) (hr : Reduces p t)
    (hq : t.quantity.toRat < p.quantity.toRat) (ho : p.opened = true) :
    let p1 := modified FloatSem.exact p t
    let q := modified FloatSem.exact p1 t
    p1.opened = true ∧ p1.quantity.Is (p.quantity.toRat - t.quantity.toRat) ∧
    (2 * t.quantity.toRat < p.quantity.toRat → q.opened = true ∧ q.quantity.Is (p.quantity.toRat - 2 * t.quantity.toRat)) ∧
    (p.quantity.toRat ≤ 2 * t.quantity.toRat → 2 * t.quantity.toRat ≤ p.quantity.toRat + 1 / 10000 → q.opened = false) ∧
    (p.quantity.toRat + 1 / 10000 < 2 * t.quantity.toRat → q = p1) := by
  intro p1 q
  have acc : ∀ {p : Position}, Sound p → p.pair = t.pair → Reduces p t →
      (Accepts FloatSem.exact p t ↔ t.quantity.toRat ≤ p.quantity.toRat + 1 / 10000) := by
    intro p hp hpair hr
    have hs := FloatSem.exact_sub hp.is.2 ht.is.2
    have hc : (FloatSem.exact.const (-1 / 10000)).Is (-1 / 10000) := Fl.is_fin _
    constructor
    · rintro ⟨_, h | ⟨_, h⟩⟩
      · exact absurd hr (not_adds_and_reduces h)
      · by_contra hlt
        push Not at hlt
        apply h
        refine ⟨?_, ?_⟩
        · rw [hs.lt (Fl.is_fin 0)]; simp only [decide_eq_true_eq]; linarith
        · rw [hs.lt hc]; simp only [decide_eq_true_eq]; linarith
    · intro h
      refine ⟨hpair, .inr ⟨hr, fun ho => ?_⟩⟩
      have := ho.2
      rw [hs.lt hc] at this
      simp only [decide_eq_true_eq] at this
      linarith
  have hq0 := ht.2.2
  have hle : ∀ {p : Position}, Sound p → (Fl.le (FloatSem.exact.sub p.quantity t.quantity) (.fin 0) = true ↔
      p.quantity.toRat ≤ t.quantity.toRat) := by
    intro p hp
    rw [(FloatSem.exact_sub hp.is.2 ht.is.2).le (Fl.is_fin 0)]
    simp
  have hA : Accepts FloatSem.exact p t := (acc hp hpair hr).2 (by linarith)
  have e1 : p1 = shrunkBy FloatSem.exact p t := by
    rcases modified_cases FloatSem.exact p t with ⟨h, _⟩ | ⟨_, h, _⟩ | ⟨_, _, h, _⟩ | ⟨_, _, _, e⟩
    · exact absurd hA h
    · exact absurd hr (not_adds_and_reduces h)
    · rw [hle hp] at h; exact absurd h (not_le.2 hq)
    · exact e
  have hp1 : Sound p1 := sound_modified hp ht
  have hq1 : p1.quantity.Is (p.quantity.toRat - t.quantity.toRat) := by
    rw [e1]
    exact (shrunkBy_exact hp ht (by rw [Bool.eq_false_iff]; exact fun h => absurd ((hle hp).1 h) (not_le.2 hq))).2.1
  have hpair1 : p1.pair = t.pair := by rw [e1]; exact hpair
  have hr1 : Reduces p1 t := by rw [e1]; exact hr
  have hacc := acc hp1 hpair1 hr1
  rw [hq1.toRat] at hacc
  have hle1 := hle hp1
  rw [hq1.toRat] at hle1
  have ho1 : p1.opened = true := by rw [e1]; exact ho
  refine ⟨ho1, hq1, fun h => ?_, fun h h' => ?_, fun h => ?_⟩
  · rcases modified_cases FloatSem.exact p1 t with ⟨hn, _⟩ | ⟨_, hn, _⟩ | ⟨_, _, hn, _⟩ | ⟨_, _, hn, e⟩
    · exact absurd (hacc.2 (by linarith)) hn
    · exact absurd hr1 (not_adds_and_reduces hn)
    · have := hle1.1 hn; linarith
    · have hq2 := (shrunkBy_exact hp1 ht hn).2.1
      rw [hq1.toRat] at hq2
      refine ⟨by show (modified FloatSem.exact p1 t).opened = true; rw [e]; exact ho1, ?_⟩
      show (modified FloatSem.exact p1 t).quantity.Is _
      rw [e]
      convert hq2 using 1
      ring
  · rcases modified_cases FloatSem.exact p1 t with ⟨hn, _⟩ | ⟨_, hn, _⟩ | ⟨_, _, hn, e⟩ | ⟨_, _, hn, e⟩
    · exact absurd (hacc.2 (by linarith)) hn
    · exact absurd hr1 (not_adds_and_reduces hn)
    · show (modified FloatSem.exact p1 t).opened = false
      rw [e]; rfl
    · have := hle1.2 (by linarith)
      rw [hn] at this; cases this
  · rcases modified_cases FloatSem.exact p1 t with ⟨_, e⟩ | ⟨hn, _⟩ | ⟨hn, _⟩ | ⟨hn, _⟩
    · exact e
    all_goals
      have := hacc.1 hn
      linarith

/-- **C256** is false: a purchase delivered twice is counted twice. -/
theorem C256_twice_violated : ¬ Spec.C256_claim FloatSem.exact ∧ ¬ Spec.C256_claim ieee := by
  constructor
  all_goals
    intro h
    have := h (newPosition "p" 0 (exTrade "a" "buy" 10 2)) (exTrade "b" "buy" 12 2) (by decide +kernel)
    exact absurd this (by decide +kernel)

/-- **Example for C256.** A sale that closes the position, delivered twice. -/
example : modified ieee (modified ieee (newPosition "p" 0 (exTrade "a" "buy" 10 2)) (exTrade "b" "sell" 12 2)) (exTrade "b" "sell" 12 2) =
    { modified ieee (newPosition "p" 0 (exTrade "a" "buy" 10 2)) (exTrade "b" "sell" 12 2) with
      trades := ["a"] ++ ["b", "b"] } :=
  C256_closing_partial ieee _ _ (by decide +kernel) (by decide +kernel) (by decide +kernel)

/-- **Example for C256.** Half of a position sold, delivered twice: the position is closed. -/
example : (modified FloatSem.exact (modified FloatSem.exact (newPosition "p" 0 (exTrade "a" "buy" 10 2)) (exTrade "b" "sell" 12 1))
    (exTrade "b" "sell" 12 1)).opened = false :=
  (C256_reduced (p := newPosition "p" 0 (exTrade "a" "buy" 10 2)) (t := exTrade "b" "sell" 12 1)
    (sound_newPosition (by decide +kernel) (by decide +kernel)) (by decide +kernel) (by decide +kernel) (by decide +kernel)
    (by decide +kernel) (by decide +kernel)).2.2.2.1 (by decide +kernel) (by decide +kernel)

/-- **Example for C256.** The hypotheses of `C256_added`. -/
example : (modified FloatSem.exact (modified FloatSem.exact (newPosition "p" 0 (exTrade "a" "buy" 10 2)) (exTrade "b" "buy" 12 1))
    (exTrade "b" "buy" 12 1)).quantity.Is (2 + 2 * 1) :=
  (C256_added (p := newPosition "p" 0 (exTrade "a" "buy" 10 2)) (t := exTrade "b" "buy" 12 1)
    (sound_newPosition (by decide +kernel) (by decide +kernel)) (by decide +kernel) (by decide +kernel) (by decide +kernel)).1

/-- **Example for C256.** A sale of too much is refused however often it comes. -/
example : ¬ Accepts ieee (newPosition "p" 0 (exTrade "a" "buy" 10 2)) (exTrade "b" "sell" 12 3) := by decide +kernel

end Finmod
