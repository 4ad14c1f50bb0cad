import Verif.Props.JsonActions
import Verif.Lemmas.ShortestBest

/-!
# C169: strings and numbers in JSON

The text of a string, character by character, and of a float64, digit by digit.
-/

namespace Finmod.Json
open Go Finmod

namespace Spec

/-- The text of one character inside a string. `short` is true for Go 1.22 and later. -/
inductive CharText (short : Bool) : Char → List Char → Prop
  | quote : CharText short '"' ['\\', '"']
  | backslash : CharText short '\\' ['\\', '\\']
  | newline : CharText short '\n' ['\\', 'n']
  | carriageReturn : CharText short '\r' ['\\', 'r']
  | tab : CharText short '\t' ['\\', 't']
  | backspace : short = true → CharText short (Char.ofNat 8) ['\\', 'b']
  | formFeed : short = true → CharText short (Char.ofNat 12) ['\\', 'f']
  | less : CharText short '<' ['\\', 'u', '0', '0', '3', 'c']
  | greater : CharText short '>' ['\\', 'u', '0', '0', '3', 'e']
  | ampersand : CharText short '&' ['\\', 'u', '0', '0', '2', '6']
  | lineSeparator : CharText short (Char.ofNat 0x2028) ['\\', 'u', '2', '0', '2', '8']
  | paragraphSeparator : CharText short (Char.ofNat 0x2029) ['\\', 'u', '2', '0', '2', '9']
  | control (c : Char) (x : Char) : c.toNat < 32 → c ≠ '\n' → c ≠ '\r' → c ≠ '\t' →
      (short = true → c.toNat ≠ 8 ∧ c.toNat ≠ 12) →
      "0123456789abcdef".toList[c.toNat % 16]? = some x →
      CharText short c ['\\', 'u', '0', '0', if c.toNat < 16 then '0' else '1', x]
  | plain (c : Char) : 32 ≤ c.toNat → c ≠ '"' → c ≠ '\\' → c ≠ '<' → c ≠ '>' → c ≠ '&' → c.toNat ≠ 0x2028 →
      c.toNat ≠ 0x2029 → CharText short c [c]

/-- Digits. -/
def AllDigits (l : List Char) : Prop := ∀ c ∈ l, c ∈ "0123456789".toList

/-- A point before the digits, if there are any. -/
def pointed (F : List Char) : List Char := if F = [] then [] else '.' :: F

/-- A number without exponent, with no superfluous zeros, and its value. -/
def Plain (u : List Char) (v : ℚ) : Prop :=
  ∃ I F, u = I ++ pointed F ∧ I ≠ [] ∧ AllDigits I ∧ AllDigits F ∧ (I.head? = some '0' → I = ['0']) ∧
    F.getLast? ≠ some '0' ∧ v = Nat.ofDigitChars 10 (I ++ F) 0 / 10 ^ F.length

/-- A number with exponent, with no superfluous zeros, and its value. -/
def Scientific (u : List Char) (v : ℚ) : Prop :=
  ∃ (d : Char) (F : List Char) (x : ℤ),
    u = d :: (pointed F ++ 'e' :: (if x < 0 then '-' else '+') :: Nat.toDigits 10 x.natAbs) ∧
    AllDigits (d :: F) ∧ d ≠ '0' ∧ F.getLast? ≠ some '0' ∧
    v = Nat.ofDigitChars 10 (d :: F) 0 / 10 ^ F.length * 10 ^ x

/-- The decimal `v` reads back as the float64 `q`, no decimal with fewer digits does, and none with as few
digits is closer. -/
def Shortest (q v : ℚ) : Prop :=
  rnd64 v = .fin q ∧ ∃ (N : Nat) (e : ℤ), v = N * 10 ^ e ∧
    ∀ (M : Nat) (f : ℤ), rnd64 (M * 10 ^ f) = .fin q →
      (Nat.toDigits 10 N).length ≤ (Nat.toDigits 10 M).length ∧
      ((Nat.toDigits 10 M).length = (Nat.toDigits 10 N).length → |v - q| ≤ |M * 10 ^ f - q|)

/-- The float64 next to 1e-6. -/
def micro : ℚ := 4722366482869645 / 4722366482869645213696

end Spec
open Spec

/-! ### Strings -/

theorem hexDigit_eq {n : Nat} (h : n < 16) : "0123456789abcdef".toList[n]? = some (hexDigit n) := by
  have : ∀ n < 16, "0123456789abcdef".toList[n]? = some (hexDigit n) := by decide +kernel
  exact this n h

theorem escU_control {n : Nat} (h : n < 32) : escU n = ['\\', 'u', '0', '0', if n < 16 then '0' else '1', hexDigit (n % 16)] := by
  have : ∀ n < 32, escU n = ['\\', 'u', '0', '0', if n < 16 then '0' else '1', hexDigit (n % 16)] := by decide +kernel
  exact this n h

theorem char_eq_of_toNat {c d : Char} (h : c.toNat = d.toNat) : c = d := Char.toNat_inj.1 h

theorem charText_iff (short : Bool) (c : Char) (t : List Char) : CharText short c t ↔ escChar short c = t := by
  constructor
  · intro h
    cases h with
    | quote => cases short <;> decide
    | backslash => cases short <;> decide
    | newline => cases short <;> decide
    | carriageReturn => cases short <;> decide
    | tab => cases short <;> decide
    | backspace h => subst h; decide
    | formFeed h => subst h; decide
    | less => cases short <;> decide
    | greater => cases short <;> decide
    | ampersand => cases short <;> decide
    | lineSeparator => cases short <;> decide
    | paragraphSeparator => cases short <;> decide
    | control _ x h1 h2 h3 h4 h5 h6 =>
      have hne : ¬ (c = '"' ∨ c = '\\') := by
        rintro (rfl | rfl) <;> exact absurd h1 (by decide)
      have h7 : ¬ ((short = true) ∧ c.toNat = 8) := fun h => (h5 h.1).1 h.2
      have h8 : ¬ ((short = true) ∧ c.toNat = 12) := fun h => (h5 h.1).2 h.2
      rw [hexDigit_eq (by omega)] at h6
      rw [escChar, if_neg hne, if_neg h2, if_neg h3, if_neg h4, if_neg h7, if_neg h8, if_pos (Or.inl h1), escU_control h1,
        Option.some.inj h6]
    | plain _ h1 h2 h3 h4 h5 h6 h7 h8 =>
      have k : ∀ d : Char, d.toNat < 32 → c ≠ d := fun d hd h => by rw [h] at h1; omega
      rw [escChar, if_neg (by simp [h2, h3]), if_neg (k _ (by decide)), if_neg (k _ (by decide)), if_neg (k _ (by decide)),
        if_neg (by omega), if_neg (by omega), if_neg (by simp only [h4, h5, h6, h7, h8, or_false, not_lt]; exact h1)]
  · intro h
    subst h
    unfold escChar
    split_ifs with h1 h2 h3 h4 h5 h6 h7
    · rcases h1 with rfl | rfl
      exacts [.quote, .backslash]
    · subst h2; exact .newline
    · subst h3; exact .carriageReturn
    · subst h4; exact .tab
    · rw [char_eq_of_toNat (c := c) (d := Char.ofNat 8) (by rw [h5.2]; decide)]; exact .backspace h5.1
    · rw [char_eq_of_toNat (c := c) (d := Char.ofNat 12) (by rw [h6.2]; decide)]; exact .formFeed h6.1
    · rcases h7 with h7 | rfl | rfl | rfl | h7 | h7
      · rw [escU_control h7]
        exact .control c _ h7 h2 h3 h4 (fun hs => ⟨fun h => h5 ⟨hs, h⟩, fun h => h6 ⟨hs, h⟩⟩) (hexDigit_eq (by omega))
      · exact .less
      · exact .greater
      · exact .ampersand
      · rw [char_eq_of_toNat (c := c) (d := Char.ofNat 0x2028) (by rw [h7]; decide)]; exact .lineSeparator
      · rw [char_eq_of_toNat (c := c) (d := Char.ofNat 0x2029) (by rw [h7]; decide)]; exact .paragraphSeparator
    · simp only [not_or, not_lt] at h1 h7
      exact .plain c h7.1 h1.1 h1.2 h7.2.1 h7.2.2.1 h7.2.2.2.1 h7.2.2.2.2.1 h7.2.2.2.2.2

/-- C169: a string is written as its characters between quotes. -/
theorem C169_string (short : Bool) (s : String) (t : List Char) :
    Codec.str.marshal short s = some t ↔
      ∃ ts, List.Forall₂ (CharText short) s.toList ts ∧ t = '"' :: (ts.flatten ++ ['"']) := by
  have key : ∀ l : List Char, ∀ ts, List.Forall₂ (CharText short) l ts ↔ ts = l.map (escChar short) := by
    intro l
    induction l with
    | nil => intro ts; cases ts <;> simp
    | cons c l ih =>
      intro ts
      cases ts with
      | nil => simp
      | cons t ts => rw [List.forall₂_cons, ih, charText_iff, List.map_cons, List.cons.injEq, eq_comm]
  simp only [key, exists_eq_left]
  simp only [Codec.marshal, Codec.str, Option.map_some, J.emit, emitStr, Option.some.injEq, List.flatMap]
  exact eq_comm

example : Codec.str.marshal true "a<\n\u0001é" = some "\"a\\u003c\\n\\u0001é\"".toList := by decide +kernel

/-! ### Numbers -/

theorem allDigits_of {l : List Char} (h : ∀ c ∈ l, digitC c = true) : AllDigits l := by
  intro c hc
  have := h c hc
  have h2 : 48 ≤ c.toNat ∧ c.toNat ≤ 57 := by
    simp only [digitC, decide_eq_true_eq] at this
    exact ⟨this.1, this.2⟩
  have h3 : ∀ n, 48 ≤ n → n ≤ 57 → Char.ofNat n ∈ "0123456789".toList := by
    intro n a b; interval_cases n <;> decide
  have h4 := h3 c.toNat h2.1 h2.2
  rwa [Char.ofNat_toNat] at h4

theorem toDigits_last {N : Nat} (h : N % 10 ≠ 0) : (Nat.toDigits 10 N).getLast? ≠ some '0' := by
  have hd : ∀ k < 10, k ≠ 0 → Nat.digitChar k ≠ '0' := by decide
  by_cases hN : N < 10
  · rw [Nat.toDigits_of_lt_base hN]
    simpa using hd N hN (by omega)
  · rw [Nat.toDigits_of_base_le (by norm_num) (by omega), List.getLast?_append]
    simpa using hd (N % 10) (by omega) h

theorem fmtF_plain {N : Nat} (hN : N % 10 ≠ 0) (e : ℤ) :
    Plain (fmtF (Nat.toDigits 10 N) ((Nat.toDigits 10 N).length + e)) (N * 10 ^ e) := by
  have hlast := toDigits_last hN
  obtain ⟨a, A, hA, h0⟩ := toDigits_head (n := N) (by omega)
  have hv : Nat.ofDigitChars 10 (Nat.toDigits 10 N) 0 = N := Nat.ofDigitChars_ten_toDigits
  have hd : ∀ c ∈ Nat.toDigits 10 N, digitC c = true := fun c => digitC_toDigits
  have hne : Nat.toDigits 10 N ≠ [] := Nat.toDigits_ne_nil
  have hhead : (Nat.toDigits 10 N).head? ≠ some '0' := by rw [hA]; simpa using h0
  generalize Nat.toDigits 10 N = ds at *
  have hz : ∀ n : Nat, ∀ c ∈ List.replicate n '0', digitC c = true := by
    intro n c hc; rw [List.mem_replicate] at hc; rw [hc.2]; decide
  unfold fmtF
  split_ifs with h1 h2
  · refine ⟨ds ++ List.replicate ((ds.length : ℤ) + e - ds.length).toNat '0', [], by simp [pointed], by simp [hne],
      allDigits_of ?_, by simp [AllDigits], ?_, by simp, ?_⟩
    · intro c hc; rcases List.mem_append.1 hc with hc | hc; exacts [hd c hc, hz _ c hc]
    · intro h
      rw [List.head?_append_of_ne_nil _ hne] at h
      exact absurd h hhead
    · obtain ⟨k, rfl⟩ := Int.eq_ofNat_of_zero_le (a := e) (by omega)
      rw [show ((ds.length : ℤ) + (k : ℤ) - ds.length).toNat = k by omega, List.append_nil, Nat.ofDigitChars_append, hv,
        Nat.ofDigitChars_replicate_zero]
      simp [mul_comm]
  · obtain ⟨k, hk⟩ : ∃ k : Nat, (ds.length : ℤ) + e = k := Int.eq_ofNat_of_zero_le (by omega)
    have hk' : ((ds.length : ℤ) + e).toNat = k := by omega
    have hkl : k < ds.length := by omega
    rw [hk']
    have hF : ds.drop k ≠ [] := by rw [Ne, List.drop_eq_nil_iff]; omega
    refine ⟨ds.take k, ds.drop k, by simp [pointed, hF], ?_, allDigits_of fun c hc => hd c (List.mem_of_mem_take hc),
      allDigits_of fun c hc => hd c (List.mem_of_mem_drop hc), ?_, ?_, ?_⟩
    · rw [Ne, List.take_eq_nil_iff]; simp [hne]; omega
    · intro h
      rw [List.head?_take, if_neg (by omega)] at h
      exact absurd h hhead
    · rw [List.getLast?_drop, if_neg (by omega)]; exact hlast
    · rw [List.take_append_drop, hv, List.length_drop, show e = -((ds.length - k : Nat) : ℤ) by omega, zpow_neg,
        zpow_natCast, div_eq_mul_inv]
  · refine ⟨['0'], List.replicate (-((ds.length : ℤ) + e)).toNat '0' ++ ds, by simp [pointed, hne], by simp,
      allDigits_of (by intro c hc; simp at hc; subst hc; decide), allDigits_of ?_, fun _ => rfl, ?_, ?_⟩
    · intro c hc; rcases List.mem_append.1 hc with hc | hc; exacts [hz _ c hc, hd c hc]
    · rw [List.getLast?_append_of_ne_nil _ hne]; exact hlast
    · rw [List.cons_append, List.nil_append, Nat.ofDigitChars_cons, Nat.ofDigitChars_append,
        Nat.ofDigitChars_eq_ofDigitChars_zero (l := ds)]
      simp only [Nat.ofDigitChars_replicate_zero, hv, List.length_append, List.length_replicate]
      simp only [Nat.mul_zero, Nat.sub_self, Nat.add_zero, Nat.zero_add]
      have : e = -(((-((ds.length : ℤ) + e)).toNat + ds.length : Nat) : ℤ) := by push_cast; omega
      conv_lhs => rw [this, zpow_neg, zpow_natCast]
      rw [div_eq_mul_inv]

theorem jsonExp_eq {x : ℤ} (h : x < 0 ∨ 10 ≤ x) :
    jsonExp x = (if x < 0 then '-' else '+') :: Nat.toDigits 10 x.natAbs := by
  unfold jsonExp fmtExp
  by_cases hx : x < 0
  · by_cases hl : (Nat.toDigits 10 x.natAbs).length < 2 <;> simp [hx, hl]
  · have hl : ¬ (Nat.toDigits 10 x.natAbs).length < 2 := by
      rw [Nat.lt_succ_iff, Nat.length_toDigits_le_iff (by norm_num) (by norm_num)]; omega
    simp [hx, hl]

theorem jsonE_scientific {N : Nat} (hN : N % 10 ≠ 0) (e : ℤ)
    (hx : (Nat.toDigits 10 N).length + e - 1 < 0 ∨ 10 ≤ (Nat.toDigits 10 N).length + e - 1) :
    Scientific (jsonE (Nat.toDigits 10 N) ((Nat.toDigits 10 N).length + e)) (N * 10 ^ e) := by
  have hlast := toDigits_last hN
  obtain ⟨a, A, hA, h0⟩ := toDigits_head (n := N) (by omega)
  have hv : Nat.ofDigitChars 10 (Nat.toDigits 10 N) 0 = N := Nat.ofDigitChars_ten_toDigits
  have hd : ∀ c ∈ Nat.toDigits 10 N, digitC c = true := fun c => digitC_toDigits
  rw [hA] at hlast hv hd hx ⊢
  refine ⟨a, A, ((a :: A).length : ℤ) + e - 1, ?_, allDigits_of hd, h0, ?_, ?_⟩
  · rw [← jsonExp_eq hx]
    cases A <;> simp [jsonE, pointed]
  · cases A with
    | nil => simp
    | cons b B => rwa [List.getLast?_cons_cons] at hlast
  · rw [hv, show ((a :: A).length : ℤ) + e - 1 = (A.length : ℤ) + e by push_cast [List.length_cons]; ring, zpow_add₀ (by norm_num), zpow_natCast]
    field_simp

theorem exponent_bounds {N : Nat} (hN : 0 < N) (e k : ℤ) :
    ((10 : ℚ) ^ k ≤ N * 10 ^ e → k ≤ (Nat.toDigits 10 N).length + e - 1) ∧
    ((N : ℚ) * 10 ^ e < 10 ^ k → (Nat.toDigits 10 N).length + e - 1 < k) := by
  have h10 : (0 : ℚ) < 10 ^ e := zpow_pos (by norm_num) e
  have hl : 0 < (Nat.toDigits 10 N).length := Nat.length_toDigits_pos
  have hlt : N < 10 ^ (Nat.toDigits 10 N).length := (Nat.length_toDigits_le_iff (by norm_num) hl).1 (le_refl _)
  have hge : 10 ^ ((Nat.toDigits 10 N).length - 1) ≤ N := by
    by_cases h1 : (Nat.toDigits 10 N).length = 1
    · rw [h1]; exact hN
    · have := (Nat.length_toDigits_le_iff (b := 10) (n := N) (by norm_num)
        (k := (Nat.toDigits 10 N).length - 1) (by omega)).not.1 (by omega)
      omega
  constructor
  · intro h
    have h1 : (10 : ℚ) ^ k < 10 ^ (((Nat.toDigits 10 N).length : ℤ) + e) := by
      refine lt_of_le_of_lt h ?_
      rw [zpow_add₀ (by norm_num), zpow_natCast]
      exact mul_lt_mul_of_pos_right (by exact_mod_cast hlt) h10
    have := (zpow_lt_zpow_iff_right₀ (by norm_num : (1 : ℚ) < 10)).1 h1
    omega
  · intro h
    have h1 : (10 : ℚ) ^ (((Nat.toDigits 10 N).length : ℤ) + e - 1) < 10 ^ k := by
      refine lt_of_le_of_lt ?_ h
      rw [show ((Nat.toDigits 10 N).length : ℤ) + e - 1 = (((Nat.toDigits 10 N).length - 1 : Nat) : ℤ) + e by omega,
        zpow_add₀ (by norm_num), zpow_natCast]
      exact mul_le_mul_of_nonneg_right (by exact_mod_cast hge) h10.le
    exact (zpow_lt_zpow_iff_right₀ (by norm_num : (1 : ℚ) < 10)).1 h1

theorem rnd_micro : ieee.rnd (1 / 10 ^ 6) = .fin micro := by decide +kernel

theorem rnd_10_21 : ieee.rnd (10 ^ 21) = .fin (10 ^ 21) := by decide +kernel

theorem rnd_10_20 : ieee.rnd (10 ^ 20) = .fin (10 ^ 20) := by decide +kernel

theorem rnd_one : ieee.rnd 1 = .fin 1 := by decide +kernel

theorem micro_lt_one : micro < 1 := by decide +kernel

theorem key_fin_le {a b : ℚ} (h : (Fl.fin a).key ≤ (Fl.fin b).key) : a ≤ b := by simpa [Fl.key] using h

/-- C169: the text of a float64 other than zero. -/
theorem C169_number {E : Env} (hS : E.S = ieee) (hp : E.pick = shortest ieee) (short : Bool) {q : ℚ} (h0 : q ≠ 0)
    (hq : rnd64 q = .fin q) :
    ∃ u v, E.float.marshal short (.fin q) = some (if q < 0 then '-' :: u else u) ∧ Shortest |q| v ∧
      (micro ≤ |q| ∧ |q| < 10 ^ 21 → Plain u v) ∧ (|q| < micro ∨ 10 ^ 21 ≤ |q| → Scientific u v) := by
  have ha : 0 < |q| := abs_pos.2 h0
  have hr : ieee.rnd |q| = .fin |q| := by
    rcases abs_cases q with ⟨h, -⟩ | ⟨h, -⟩
    · rw [h]; exact hq
    · rw [h, ieee_lawful.r64.odd q h0]; show Fl.neg (rnd64 q) = _; rw [hq]; simp [Fl.neg, h0]
  obtain ⟨s1, -, -⟩ := shortest_good.size _ ha hr
  have sb := shortest_good.back _ ha hr
  have sm := shortest_mod ha hr
  have best : Shortest |q| ((shortest ieee |q|).1 * 10 ^ (shortest ieee |q|).2) := by
    rw [← pow10_eq]
    refine ⟨sb, _, _, by rw [pow10_eq], ?_⟩
    intro M f hM
    rw [← pow10_eq] at hM ⊢
    exact shortest_best ha hr hM
  rw [pow10_eq] at sb
  refine ⟨if Fl.lt (.fin |q|) (ieee.rnd (1 / 10 ^ 6)) || Fl.le (ieee.rnd (10 ^ 21)) (.fin |q|) then
      jsonE (Nat.toDigits 10 (shortest ieee |q|).1) ((Nat.toDigits 10 (shortest ieee |q|).1).length + (shortest ieee |q|).2)
    else fmtF (Nat.toDigits 10 (shortest ieee |q|).1) ((Nat.toDigits 10 (shortest ieee |q|).1).length + (shortest ieee |q|).2),
    _, ?_, best, ?_, ?_⟩
  · simp only [Codec.marshal, Env.float, Codec.float, hS, hp, jsonFloat, h0, if_false, Option.map_some, J.emit]
  · rintro ⟨h1, h2⟩
    rw [rnd_micro, rnd_10_21, if_neg]
    · exact fmtF_plain sm _
    · simp only [Fl.lt_iff, Fl.le_iff, Bool.or_eq_true, not_or]
      constructor
      · rintro ⟨-, -, h⟩; simp [Fl.key] at h; linarith
      · rintro ⟨-, -, h⟩; have := key_fin_le h; linarith
  · intro h
    rw [rnd_micro, rnd_10_21, if_pos]
    · refine jsonE_scientific sm _ ?_
      have hb := exponent_bounds s1 (shortest ieee |q|).2
      rcases h with h | h
      · left
        refine (hb 0).2 ?_
        rw [zpow_zero]
        by_contra hc
        have := ieee_lawful.r64.mono _ _ (not_lt.1 hc)
        rw [rnd_one, sb] at this
        have h1 := key_fin_le this
        have h2 := micro_lt_one
        linarith
      · right
        have : (20 : ℤ) ≤ (Nat.toDigits 10 (shortest ieee |q|).1).length + (shortest ieee |q|).2 - 1 := by
          refine (hb 20).1 ?_
          by_contra hc
          have := ieee_lawful.r64.mono _ _ (not_le.1 hc).le
          rw [show (10 : ℚ) ^ (20 : ℤ) = 10 ^ 20 from zpow_ofNat _ _, rnd_10_20, sb] at this
          have h1 := key_fin_le this
          linarith [show (10 : ℚ) ^ 20 < 10 ^ 21 by norm_num]
        omega
    · simp only [Fl.lt_iff, Fl.le_iff, Bool.or_eq_true]
      rcases h with h | h
      · left; refine ⟨by simp, by simp, ?_⟩; simpa [Fl.key] using h
      · right; refine ⟨by simp, by simp, ?_⟩; simpa [Fl.key] using h

/-- C169: zeros, and what is not a number. -/
theorem C169_zero (E : Env) (short : Bool) :
    E.float.marshal short (.fin 0) = some ['0'] ∧ E.float.marshal short .negZero = some ['-', '0'] ∧
    E.float.marshal short .nan = none ∧ ∀ b, E.float.marshal short (.inf b) = none := by
  refine ⟨?_, rfl, rfl, fun _ => rfl⟩
  simp [Codec.marshal, Env.float, Codec.float, jsonFloat, J.emit]

example : exampleEnv.float.marshal true (.fin (1 / 8)) = some "0.125".toList := by decide +kernel

example : exampleEnv.float.marshal true (.fin (-3 * 10 ^ 21)) = some "-3e+21".toList := by decide +kernel

example : rnd64 (1 / 8) = .fin (1 / 8) ∧ rnd64 (-3 * 10 ^ 21) = .fin (-3 * 10 ^ 21) := by decide +kernel

end Finmod.Json
