import Verif.Props.CandleRegular

/-!
# C146: exactly when no output candle of `ModifyInterval` spans more than the interval

C29 is false of the code: a hole over a boundary merges later candles into an earlier one. It holds
exactly for the series in which every interval that has a candle has one in its first minute, before
the others.
-/

namespace Finmod
open Go Spec

theorem splitB_heads (bd : Candle → Bool) : ∀ (vs : List Candle) (cur : List Candle) (h0 : Candle),
    cur.head? = some h0 → ∀ g ∈ splitB bd cur vs, ∃ f, g.head? = some f ∧ (f = h0 ∨ (f ∈ vs ∧ bd f = true))
  | [], cur, h0, h, g, hg => by
    simp only [splitB, List.mem_singleton] at hg
    subst hg
    exact ⟨h0, h, .inl rfl⟩
  | v :: vs, cur, h0, h, g, hg => by
    unfold splitB at hg
    split_ifs at hg with hb
    · rcases List.mem_cons.1 hg with rfl | hg
      · exact ⟨h0, h, .inl rfl⟩
      · obtain ⟨f, h1, h2⟩ := splitB_heads bd vs [v] v rfl g hg
        refine ⟨f, h1, .inr ?_⟩
        rcases h2 with rfl | ⟨h2, h3⟩
        · exact ⟨by simp, hb⟩
        · exact ⟨by simp [h2], h3⟩
    · obtain ⟨f, h1, h2⟩ := splitB_heads bd vs (cur ++ [v]) h0 (by rw [List.head?_append, h]; rfl) g hg
      refine ⟨f, h1, ?_⟩
      rcases h2 with rfl | ⟨h2, h3⟩
      · exact .inl rfl
      · exact .inr ⟨by simp [h2], h3⟩

theorem chain_of_pairs {α : Type} {R : α → α → Prop} : ∀ (l : List α),
    (∀ x a b y, l = x ++ a :: b :: y → R a b) → l.IsChain R
  | [], _ => by simp
  | [_], _ => by simp
  | a :: b :: t, h => by
    rw [List.isChain_cons_cons]
    exact ⟨h [] a b t rfl, chain_of_pairs (b :: t) fun x a' b' y e => h (a :: x) a' b' y (by rw [e]; rfl)⟩

/-- **C146.** For a time-ordered series (times up to 2^53): every candle lies within the interval
that starts at some output candle if and only if, from the first aligned candle on, each candle that
is in another interval than the one before it lies in the first minute of its interval. -/
theorem C146_span_iff (S : FloatSem) (hS : Lawful S) (minute : Int → Int)
    (candles out : List Candle) (interval : Int) (p : Candle) (rest : List Candle)
    (hsorted : candles.Pairwise (fun a b => a.time ≤ b.time)) (hlen : 2 ≤ candles.length)
    (hi : 1 ≤ interval) (hts : ∀ c ∈ candles, |c.time| ≤ 2 ^ 53)
    (h : modifyInterval S minute candles interval = .ok out)
    (hret : retained minute interval candles = p :: rest) :
    (∀ v ∈ p :: rest, ∃ c ∈ out, c.time ≤ v.time ∧ v.time < c.time + 60 * interval) ↔
    (p :: rest).IsChain (fun a b =>
      bucket interval p.time b.time = bucket interval p.time a.time ∨
      interval ∣ (b.time - p.time) / 60) := by
  refine ⟨fun hall => ?_, C29_span_partial S hS minute candles out interval p rest hsorted hlen hi hts h hret⟩
  obtain ⟨pre, p', rest', hs, hpre, hp, _, hm⟩ := modifyInterval_ok hlen h
  have hret' : retained minute interval candles = p' :: rest' := by
    rw [hs, retained, List.dropWhile_append_of_pos]
    · rw [List.dropWhile_cons_of_neg]
      simp only [decide_not, Bool.not_eq_true', decide_eq_false_iff_not, not_not]
      exact (isAligned_iff _ _ _).1 hp
    · intro v hv
      have := hpre v hv
      simp only [decide_eq_true_eq]
      intro hc
      rw [(isAligned_iff _ _ _).2 hc] at this
      exact absurd this (by simp)
  rw [hret] at hret'
  obtain ⟨rfl, rfl⟩ := List.cons.inj hret'
  have hsub : ∀ v ∈ p :: rest, v ∈ candles := by
    intro v hv; rw [hs]; exact List.mem_append_right _ hv
  have hsp : (p :: rest).Pairwise (fun a b => a.time ≤ b.time) := by
    rw [hs] at hsorted; exact (List.pairwise_append.1 hsorted).2.1
  have hge : ∀ v ∈ p :: rest, p.time ≤ v.time := by
    intro v hv
    rcases List.mem_cons.1 hv with rfl | hv
    · exact le_refl _
    · exact (List.pairwise_cons.1 hsp).1 v hv
  have hf := resMapL_ok hm
  -- every output starts in the first minute of an interval, at the time of some candle
  have hout : ∀ c ∈ out, ∃ f ∈ p :: rest, f.time = c.time ∧ interval ∣ (f.time - p.time) / 60 := by
    intro c hc
    obtain ⟨g, hg, hcg⟩ := forall₂_mem_right hf c hc
    have hsum := (compressGroup_summary hcg).time
    obtain ⟨f, h1, h2⟩ := splitB_heads (boundary S interval p.time) rest [p] p rfl g hg
    rw [h1] at hsum
    simp only [Option.map_some, Option.some.injEq] at hsum
    rcases h2 with rfl | ⟨h2, h3⟩
    · exact ⟨f, by simp, hsum, by simp⟩
    · refine ⟨f, by simp [h2], hsum, ?_⟩
      have hb := (boundary_iff hS (interval := interval) (hts p (hsub p (by simp)))
        (hts f (hsub f (by simp [h2])))).1 h3
      rwa [Int.tdiv_eq_ediv_of_nonneg (by have := hge f (by simp [h2]); omega)] at hb
  apply chain_of_pairs
  intro x a b y e
  by_cases hdvd : interval ∣ (b.time - p.time) / 60
  · exact .inr hdvd
  left
  have hbm : b ∈ p :: rest := by rw [e]; simp
  have ham : a ∈ p :: rest := by rw [e]; simp
  obtain ⟨c, hc, hc1, hc2⟩ := hall b hbm
  obtain ⟨f, hfm, hfc, hfd⟩ := hout c hc
  have hne : f.time ≠ b.time := by
    intro e; rw [e] at hfd; exact hdvd hfd
  have hlt : f.time < b.time := by omega
  have hab : a.time ≤ b.time := by
    rw [e] at hsp
    have := (List.pairwise_append.1 hsp).2.1
    exact (List.pairwise_cons.1 this).1 b (by simp)
  have hfa : f.time ≤ a.time := by
    rw [e] at hfm hsp
    obtain ⟨_, q2, q3⟩ := List.pairwise_append.1 hsp
    rcases List.mem_append.1 hfm with hfx | hfx
    · exact q3 f hfx a (by simp)
    · rcases List.mem_cons.1 hfx with rfl | hfx
      · exact le_refl _
      · rcases List.mem_cons.1 hfx with rfl | hfx
        · exact absurd hlt (lt_irrefl _)
        · have := (List.pairwise_cons.1 (List.pairwise_cons.1 q2).2).1 f hfx
          omega
  have hpf := hge f hfm
  -- compare the intervals
  unfold bucket
  obtain ⟨k, hk⟩ := hfd
  have m1 : (f.time - p.time) / 60 ≤ (a.time - p.time) / 60 := Int.ediv_le_ediv (by norm_num) (by omega)
  have m2 : (a.time - p.time) / 60 ≤ (b.time - p.time) / 60 := Int.ediv_le_ediv (by norm_num) (by omega)
  have m3 : (b.time - p.time) / 60 ≤ (f.time - p.time) / 60 + interval := by omega
  have m4 : (b.time - p.time) / 60 ≠ interval * k + interval := by
    intro e
    exact hdvd ⟨k + 1, by rw [e]; ring⟩
  rw [hk] at m1 m3
  have key : ∀ n, interval * k ≤ n → n < interval * k + interval → n / interval = k := by
    intro n h1 h2
    apply le_antisymm
    · have : n / interval < k + 1 := by
        rw [Int.ediv_lt_iff_lt_mul (by omega)]
        linarith [mul_comm interval k]
      omega
    · rw [Int.le_ediv_iff_mul_le (by omega)]
      linarith [mul_comm interval k]
  rw [key _ (by omega) (by omega), key _ (by omega) (by omega)]

/-- Both outcomes: the regular series satisfies the condition, the one with a hole does not. -/
example : retained utcMinute 5 gapCandles = gapCandles[0] :: gapCandles.drop 1 ∧
    modifyInterval ieee utcMinute gapCandles 5 = .ok [⟨0, .fin 1, .fin 9, .fin 1, .fin 1, .fin 3⟩] ∧
    ¬ (gapCandles[0] :: gapCandles.drop 1).IsChain (fun a b =>
      bucket 5 (gapCandles[0]).time b.time = bucket 5 (gapCandles[0]).time a.time ∨
      (5 : Int) ∣ (b.time - (gapCandles[0]).time) / 60) := by
  decide +kernel

end Finmod
