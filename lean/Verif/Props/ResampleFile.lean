import Verif.Props.CandleFile
import Verif.Props.CandleGroups

/-!
# C215: resampled series can be stored and read back
-/

namespace Finmod
open Go Spec

variable {S : FloatSem} {pick : ℚ → Nat × ℤ} {eprec : ℤ}

theorem rnd_rep (hS : Lawful S) (q : ℚ) : S.Rep (S.rnd q) := fun _ h => hS.r64.idem _ _ h

theorem rounded5_rep (hS : Lawful S) {x y : Fl} (h : Rounded5 S x y) : S.Rep y := by
  rcases h with ⟨h, rfl⟩ | ⟨_, n, _, rfl | ⟨_, h⟩⟩
  · intro q e; subst e; cases h
  · exact rnd_rep hS _
  · intro q e
    subst e
    have : q = 0 := Fl.Is.unique (Fl.is_fin q) h
    subst this
    simpa using hS.r64.int 0 (by norm_num)

/-- **C215** Every field of a resampled candle is a machine value if those of the candles are, and its time is one of theirs. -/
theorem C215_values (hS : Lawful S) (minute : Int → Int) (cs : List Candle) (interval : Int) (out : List Candle)
    (h : modifyInterval S minute cs interval = .ok out) (hc : ∀ c ∈ cs, GoCandle S c) :
    ∀ c ∈ out, GoCandle S c ∧ ∃ v ∈ cs, v.time = c.time := by
  by_cases h1 : cs.length = 1
  · simp only [modifyInterval, if_pos h1] at h
    cases h
    exact fun c h => ⟨hc c h, c, h, rfl⟩
  have hlen : 2 ≤ cs.length := by
    rcases cs with _ | ⟨a, _ | ⟨b, l⟩⟩
    · simp [modifyInterval] at h
    · simp at h1
    · simp
  obtain ⟨pre, groups, e, -, -, hf⟩ := C24_groups S minute cs interval out hlen h
  have hm : ∀ g ∈ groups, ∀ v ∈ g, v ∈ cs := fun g hg v hv => by
    rw [e]; exact List.mem_append_right _ (List.mem_flatten.2 ⟨g, hg, hv⟩)
  intro c hcout
  obtain ⟨g, hg, s⟩ : ∃ g ∈ groups, Summary S g c := by
    clear e h
    induction hf with
    | nil => cases hcout
    | cons hd _ ih =>
      rcases List.mem_cons.1 hcout with rfl | h'
      · exact ⟨_, List.mem_cons_self, hd⟩
      · obtain ⟨g, hg, s⟩ := ih (fun g hg => hm g (List.mem_cons_of_mem _ hg)) h'
        exact ⟨g, List.mem_cons_of_mem _ hg, s⟩
  have first : ∃ v ∈ g, v.time = c.time ∧ v.opn = c.opn := by
    have t := s.time
    have o := s.opn
    cases hh : g.head? with
    | none => rw [hh] at t; cases t
    | some v =>
      rw [hh] at t o
      exact ⟨v, List.mem_of_head? hh, by simpa using t, by simpa using o⟩
  have last : ∃ v ∈ g, v.close = c.close := by
    have t := s.close
    cases hh : g.getLast? with
    | none => rw [hh] at t; cases t
    | some v => rw [hh] at t; exact ⟨v, List.mem_of_getLast? hh, by simpa using t⟩
  obtain ⟨v, hv, ht, ho⟩ := first
  obtain ⟨w, hw, hcl⟩ := last
  have gv := hc v (hm g hg v hv)
  refine ⟨⟨ho ▸ gv.1, ?_, ?_, hcl ▸ (hc w (hm g hg w hw)).2.2.2.1, rounded5_rep hS s.volume, ht ▸ gv.2.2.2.2.2.1,
    ht ▸ gv.2.2.2.2.2.2⟩, v, hm g hg v hv, ht⟩
  · rcases s.high_mem with ⟨x, hx, e⟩ | ⟨e, -⟩
    · exact e ▸ (hc x (hm g hg x hx)).2.1
    · rw [e]; exact rnd_rep hS _
  · rcases s.low_mem with ⟨x, hx, e⟩ | ⟨e, -⟩
    · exact e ▸ (hc x (hm g hg x hx)).2.2.1
    · rw [e]; exact rnd_rep hS _

/-- **C215** A stored series, loaded, resampled, stored and loaded again, is the series resampled. -/
theorem C215_pipeline (hS : Lawful S) (hp : GoodPick S pick) (he : eprec ≤ 21) (minute : Int → Int) (cs : List Candle)
    (interval : Int) (out : List Candle) (h : modifyInterval S minute cs interval = .ok out)
    (hc : ∀ c ∈ cs, GoCandle S c) (ht : ∀ c ∈ cs, Time32 c) (old old' : Option (List Char)) (accept accept' : Nat → Nat)
    (hw : AllWritten pick eprec accept cs) (hw' : AllWritten pick eprec accept' out) :
    ∃ cs' out', loadCandles S (saveCandles pick eprec true accept old cs).2 = .ok cs' ∧
      modifyInterval S minute cs' interval = .ok out' ∧
      (saveCandles pick eprec true accept' old' out').1 = .ok () ∧
      loadCandles S (saveCandles pick eprec true accept' old' out').2 = .ok out := by
  have hv := C215_values hS minute cs interval out h hc
  have ht' : ∀ c ∈ out, Time32 c := fun c hcm => by
    obtain ⟨-, v, hvm, e⟩ := hv c hcm
    have := ht v hvm
    unfold Time32 at this ⊢
    rwa [← e]
  obtain ⟨-, l1⟩ := C36_roundtrip hS hp he accept old cs hc ht hw
  obtain ⟨s2, l2⟩ := C36_roundtrip hS hp he accept' old' out (fun c hcm => (hv c hcm).1) ht' hw'
  exact ⟨cs, out, l1, h, s2, l2⟩

/-- **C215** In float64: the text of the resampled candles loads as they are if the times of the series fit in 32 bits. -/
theorem C215_float64 (he : eprec ≤ 21) (minute : Int → Int) (cs : List Candle) (interval : Int) (out : List Candle)
    (h : modifyInterval ieee minute cs interval = .ok out) (hc : ∀ c ∈ cs, GoCandle ieee c) (ht : ∀ c ∈ cs, Time32 c) :
    loadCandles ieee (some (candleText (shortest ieee) eprec out)) = .ok out := by
  have hv := C215_values ieee_lawful minute cs interval out h hc
  refine C36_roundtrip_ieee he out (fun c hcm => (hv c hcm).1) fun c hcm => ?_
  obtain ⟨-, v, hvm, e⟩ := hv c hcm
  have := ht v hvm
  unfold Time32 at this ⊢
  rwa [← e]

/-- Candles it applies to. -/
example : (∀ c ∈ demoCandles, GoCandle ieee c ∧ Time32 c) ∧ ∃ out, modifyInterval ieee utcMinute demoCandles 2 = .ok out ∧
    out ≠ demoCandles := by
  have hr : ∀ q : ℚ, ieee.rnd q = .fin q → ieee.Rep (.fin q) := by intro q h x hx; cases hx; exact h
  refine ⟨?_, [⟨120, .fin 2, .fin 5, .fin 0, .fin 1, .fin (5/2)⟩, ⟨240, .fin 1, .fin 2, .fin 1, .fin 2, .fin 1⟩],
    by decide +kernel, by decide +kernel⟩
  intro c hc
  simp only [demoCandles, List.mem_cons, List.not_mem_nil, or_false] at hc
  rcases hc with rfl | rfl | rfl | rfl <;>
    exact ⟨⟨hr _ (by decide +kernel), hr _ (by decide +kernel), hr _ (by decide +kernel), hr _ (by decide +kernel),
      hr _ (by decide +kernel), by decide, by decide⟩, by unfold Time32; decide⟩

end Finmod
