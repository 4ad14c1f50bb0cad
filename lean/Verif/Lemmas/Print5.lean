import Verif.Lemmas.Candle
import Verif.Lemmas.FloatX

/-! Printing a float with five decimals and reading it back never overflows. -/

namespace Finmod
open Go Spec

/-- Printing a representable float with five decimals and parsing it never fails. -/
def PrintSafe (S : FloatSem) : Prop := ∀ q, S.rnd q = .fin q → fixed5 S (.fin q) ≠ none

theorem exact_printSafe : PrintSafe FloatSem.exact := by
  intro q _
  unfold fixed5
  simp only
  split <;> simp [FloatSem.exact]

theorem roundInt_neg_le {q : ℚ} {N : ℤ} (h : |q| ≤ N) : |roundInt q| ≤ N := by
  rw [abs_le] at *
  constructor
  · exact int_le_roundInt (by push_cast; exact h.1)
  · exact roundInt_le_int h.2

/-- Large float64 values are whole numbers. -/
theorem rnd64_big_int {q : ℚ} (h : rnd64 q = .fin q) (hq : 2 ^ 53 ≤ |q|) : ∃ z : ℤ, q = z := by
  have key : ∀ q : ℚ, rnd64 q = .fin q → 2 ^ 53 ≤ q → ∃ z : ℤ, q = z := by
    intro q h hq
    have hpos : 0 < q := lt_of_lt_of_le (by norm_num) hq
    rw [rnd64, rne_pos hpos] at h
    split_ifs at h
    simp only [Fl.fin.injEq] at h
    have hlog : 53 ≤ Int.log 2 q := by
      rw [← Int.zpow_le_iff_le_log (by norm_num) hpos]
      exact_mod_cast hq
    have he : 0 ≤ ulpExp 53 (-1074) q := by
      unfold ulpExp
      apply le_max_of_le_left
      push_cast; omega
    obtain ⟨k, hk⟩ := Int.eq_ofNat_of_zero_le he
    unfold roundMag at h
    simp only [hk] at h
    refine ⟨roundInt (q / pow2 (k : ℤ)) * 2 ^ k, ?_⟩
    rw [← h, h]
    conv_lhs => rw [← h]
    rw [pow2_eq]
    push_cast
    simp
  rcases le_or_gt 0 q with h0 | h0
  · exact key q h (by rwa [abs_of_nonneg h0] at hq)
  · rw [abs_of_neg h0] at hq
    have hodd := ieee_lawful.r64.odd q (ne_of_lt h0)
    change rnd64 (-q) = Fl.neg (rnd64 q) at hodd
    rw [h] at hodd
    simp only [Fl.neg, ne_of_lt h0, if_false] at hodd
    obtain ⟨z, hz⟩ := key (-q) hodd hq
    exact ⟨-z, by push_cast; linarith⟩

theorem ieee_printSafe : PrintSafe ieee := by
  intro q hq
  unfold fixed5
  simp only
  split
  · simp
  · by_cases hbig : 2 ^ 53 ≤ |q|
    · obtain ⟨z, rfl⟩ := rnd64_big_int hq hbig
      have e : (z : ℚ) * 100000 = ((z * 100000 : ℤ) : ℚ) := by push_cast; ring
      have e2 : (((z * 100000 : ℤ) : ℚ)) / 100000 = z := by push_cast; ring
      rw [e, roundInt_int, e2, hq]; simp
    · have hb : |q * 100000| ≤ ((2 ^ 53 * 100000 : ℤ) : ℚ) := by
        rw [abs_mul, abs_of_pos (by norm_num : (0 : ℚ) < 100000)]
        push_cast
        nlinarith
      have hr := roundInt_neg_le hb
      have hr' : |((roundInt (q * 100000) : ℤ) : ℚ)| ≤ 2 ^ 53 * 100000 := by exact_mod_cast hr
      rw [abs_le] at hr'
      have h1 : ((roundInt (q * 100000) : ℤ) : ℚ) / 100000 ≤ ((2 ^ 53 : ℤ) : ℚ) := by
        push_cast; linarith [hr'.2]
      have h2 : ((-2 ^ 53 : ℤ) : ℚ) ≤ ((roundInt (q * 100000) : ℤ) : ℚ) / 100000 := by
        push_cast; linarith [hr'.1]
      have m1 := ieee_lawful.r64.mono _ _ h1
      have m2 := ieee_lawful.r64.mono _ _ h2
      rw [ieee_lawful.r64.int _ (by norm_num)] at m1 m2
      have hn := ieee_lawful.r64.not_nan (((roundInt (q * 100000) : ℤ) : ℚ) / 100000)
      cases hx : ieee.rnd (((roundInt (q * 100000) : ℤ) : ℚ) / 100000) with
      | nan => exact absurd hx hn
      | inf b =>
        rw [hx] at m1 m2
        cases b with
        | true =>
          exfalso
          simp only [Fl.key] at m2
          exact absurd m2 (not_le.2 Ext.bot_lt_ofRat)
        | false =>
          exfalso
          simp only [Fl.key] at m1
          exact absurd m1 (not_le.2 Ext.ofRat_lt_top)
      | fin r => simp
      | negZero => simp

theorem rep_add {S : FloatSem} (hS : Lawful S) {x y : Fl} : S.Rep (S.add x y) := by
  intro q h
  cases x <;> cases y <;> simp only [FloatSem.add] at h
  all_goals first
    | (split at h <;> simp at h)
    | exact hS.r64.idem _ _ h
    | simp at h

theorem rep_volumeLoop {S : FloatSem} (hS : Lawful S) {acc : Fl} (h : S.Rep acc) (g : List Candle) :
    S.Rep (volumeLoop S acc g) := by
  induction g generalizing acc with
  | nil => exact h
  | cons v g ih => exact ih (rep_add hS)

/-- A non-empty group always has a summary. -/
theorem compressGroup_ok {S : FloatSem} (hS : Lawful S) (hp : PrintSafe S) {g : List Candle}
    (h : g ≠ []) : ∃ c, compressGroup S g = .ok c := by
  have h0 : S.Rep (.fin 0) := by
    intro q hq
    simp only [Fl.fin.injEq] at hq; subst hq
    have := hS.r64.int 0 (by norm_num)
    simpa using this
  have hrep := rep_volumeLoop hS h0 g
  have hne : fixed5 S (volumeLoop S (.fin 0) g) ≠ none := by
    cases hv : volumeLoop S (.fin 0) g with
    | fin q => exact hp q (hrep q hv)
    | nan => simp [fixed5]
    | inf b => simp [fixed5]
    | negZero => simp [fixed5]
  obtain ⟨y, hy⟩ := Option.ne_none_iff_exists'.1 hne
  simp only [compressGroup, List.head?_eq_some_head h, List.getLast?_eq_some_getLast h, hy]
  exact ⟨_, rfl⟩

theorem resMapL_total {α β : Type} {f : α → Res β} {l : List α} (h : ∀ a ∈ l, ∃ b, f a = .ok b) :
    ∃ out, resMapL f l = .ok out := by
  induction l with
  | nil => exact ⟨[], rfl⟩
  | cons a l ih =>
    obtain ⟨b, hb⟩ := h a (by simp)
    obtain ⟨bs, hbs⟩ := ih (fun x hx => h x (by simp [hx]))
    exact ⟨b :: bs, by simp [resMapL, hb, hbs]⟩

end Finmod
