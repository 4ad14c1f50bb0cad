import Verif.Go.Json
import Verif.Lemmas.Text
import Mathlib.Tactic.IntervalCases

/-!
# A JSON value read back from its text
-/

namespace Go

/-! ### Numbers -/

/-- The text of a JSON number: sign, integer part, fraction, exponent. -/
def NumLit (s : List Char) : Prop :=
  ∃ (neg : Bool) (a : Char) (A P r : List Char), s = signText neg ++ (a :: A ++ (P ++ r)) ∧
    digitC a = true ∧ (∀ c ∈ A, digitC c = true) ∧ (a = '0' → A = []) ∧
    (P = [] ∨ ∃ B, P = '.' :: B ∧ B ≠ [] ∧ ∀ c ∈ B, digitC c = true) ∧
    (r = [] ∨ ∃ sg D, r = 'e' :: sg :: D ∧ (sg = '+' ∨ sg = '-') ∧ D ≠ [] ∧ ∀ c ∈ D, digitC c = true)

/-- What may follow a value in a compact text. -/
def Stop (r : List Char) : Prop := ∀ c cs, r = c :: cs → c = ',' ∨ c = ']' ∨ c = '}'

theorem spanDigits_append {D r : List Char} (hD : ∀ c ∈ D, digitC c = true)
    (hr : ∀ c cs, r = c :: cs → digitC c = false) : spanDigits (D ++ r) = (D, r) := by
  induction D with
  | nil =>
    cases r with
    | nil => rfl
    | cons c cs => simp [spanDigits, hr c cs rfl]
  | cons d D ih =>
    have := ih (fun c h => hD c (by simp [h]))
    simp only [spanDigits, Prod.mk.injEq] at this
    simp [spanDigits, hD d (by simp), this.1, this.2]

theorem scanInt_append {a : Char} {A r : List Char} (ha : digitC a = true) (hA : ∀ c ∈ A, digitC c = true)
    (h0 : a = '0' → A = []) (hr : ∀ c cs, r = c :: cs → digitC c = false) :
    scanInt (a :: A ++ r) = some (a :: A, r) := by
  by_cases h : a = '0'
  · subst h; rw [h0 rfl]; rfl
  · have hs := spanDigits_append (D := a :: A) (r := r)
      (by intro c hc; rcases List.mem_cons.1 hc with rfl | hc; exacts [ha, hA c hc]) hr
    unfold scanInt
    split
    · rename_i heq; simp only [List.cons_append, List.cons.injEq] at heq; exact absurd heq.1 h
    · rw [hs]; simp

theorem scanNum_append {s rest : List Char} (hs : NumLit s) (hrest : Stop rest) :
    scanNum (s ++ rest) = some (s, rest) := by
  obtain ⟨neg, a, A, P, r, rfl, ha, hA, h0, hP, hr⟩ := hs
  have restD : ∀ c cs, rest = c :: cs → digitC c = false := by
    intro c cs h; rcases hrest c cs h with rfl | rfl | rfl <;> decide
  have hE : scanExpo (r ++ rest) = some (r, rest) := by
    rcases hr with rfl | ⟨sg, D, rfl, hsg, hD0, hD⟩
    · unfold scanExpo
      split
      · rename_i h; rcases hrest _ _ h with h | h | h <;> simp at h
      · rename_i h; rcases hrest _ _ h with h | h | h <;> simp at h
      · rfl
    · have := spanDigits_append hD restD
      rcases hsg with rfl | rfl <;> simp [scanExpo, scanSigned, this, hD0]
  have rD : ∀ c cs, r ++ rest = c :: cs → digitC c = false ∧ c ≠ '.' := by
    intro c cs h
    rcases hr with rfl | ⟨sg, D, rfl, -⟩
    · refine ⟨restD c cs h, ?_⟩
      rcases hrest c cs h with rfl | rfl | rfl <;> decide
    · simp only [List.cons_append, List.cons.injEq] at h; rw [← h.1]; decide
  have hF : scanFrac (P ++ (r ++ rest)) = some (P, r ++ rest) := by
    rcases hP with rfl | ⟨B, rfl, hB0, hB⟩
    · unfold scanFrac
      split
      · rename_i h; exact absurd rfl (rD _ _ h).2
      · rfl
    · have := spanDigits_append hB (fun c cs h => (rD c cs h).1)
      simp [scanFrac, this, hB0]
  have PD : ∀ c cs, P ++ (r ++ rest) = c :: cs → digitC c = false := by
    intro c cs h
    rcases hP with rfl | ⟨B, rfl, -⟩
    · exact (rD c cs h).1
    · simp only [List.cons_append, List.cons.injEq] at h; rw [← h.1]; decide
  have hI := scanInt_append ha hA h0 PD
  have hU : scanUnsigned (a :: A ++ (P ++ (r ++ rest))) = some (a :: A ++ P ++ r, rest) := by
    simp only [scanUnsigned, hI, Option.bind_some, hF, hE, Option.map_some]
  have e : ∀ l, l ++ (a :: A ++ (P ++ r)) ++ rest = l ++ (a :: A ++ (P ++ (r ++ rest))) := by simp
  rw [e]
  cases neg
  · simp only [signText, Bool.false_eq_true, if_false, List.nil_append]
    unfold scanNum
    split
    · rename_i h; simp only [List.cons_append, List.cons.injEq] at h
      rw [h.1] at ha; exact absurd ha (by decide)
    · rw [hU]; simp
  · simp only [signText, if_true, List.cons_append, List.nil_append] at hU ⊢
    simp [scanNum, hU]

theorem NumLit.head {s : List Char} (h : NumLit s) :
    ∃ c cs, s = c :: cs ∧ (c = '-' ∨ digitC c = true) := by
  obtain ⟨neg, a, A, P, r, rfl, ha, -⟩ := h
  cases neg
  · exact ⟨a, _, by simp [signText]; rfl, Or.inr ha⟩
  · exact ⟨'-', _, by simp [signText]; rfl, Or.inl rfl⟩

/-! ### Strings -/

theorem hexDigit_ok {n : Nat} (h : n < 16) : hexC (hexDigit n) = true ∧ hexVal (hexDigit n) = n := by
  interval_cases n <;> decide

theorem hex4_escU {n : Nat} (h : n < 65536) :
    hex4 (hexDigit (n / 4096)) (hexDigit (n / 256 % 16)) (hexDigit (n / 16 % 16)) (hexDigit (n % 16)) = some n := by
  obtain ⟨a1, a2⟩ := hexDigit_ok (n := n / 4096) (by omega)
  obtain ⟨b1, b2⟩ := hexDigit_ok (n := n / 256 % 16) (by omega)
  obtain ⟨c1, c2⟩ := hexDigit_ok (n := n / 16 % 16) (by omega)
  obtain ⟨d1, d2⟩ := hexDigit_ok (n := n % 16) (by omega)
  simp only [hex4, a1, b1, c1, d1, a2, b2, c2, d2, Bool.and_self, if_true, Option.some.injEq]
  omega

theorem scanStr_raw {c : Char} (r : List Char) (h1 : c ≠ '"') (h2 : c ≠ '\\') (h3 : ¬ c.toNat < 32) :
    scanStr none (c :: r) = (scanStr none r).map fun p => (c :: p.1, p.2) := by
  rw [scanStr]
  · simp [h1, h2, h3, lone]
  · intro a b c' d r' h; simp [h2] at h
  · intro c' r' h; simp [h2] at h

theorem scanStr_esc {c x : Char} (r : List Char) (hu : c ≠ 'u') (hx : unescape c = some x) :
    scanStr none ('\\' :: c :: r) = (scanStr none r).map fun p => (x :: p.1, p.2) := by
  rw [scanStr]
  · simp [hx, lone]
  · intro a b c' d r' h; simp [hu] at h

theorem scanStr_escU {c : Char} (r : List Char) (h : c.toNat < 0xD800 ∨ (0xE000 ≤ c.toNat ∧ c.toNat < 65536)) :
    scanStr none (escU c.toNat ++ r) = (scanStr none r).map fun p => (c :: p.1, p.2) := by
  simp only [escU, List.cons_append, List.nil_append]
  rw [scanStr, hex4_escU (by omega)]
  simp only
  rw [if_neg (by omega), if_neg (by omega)]
  simp

theorem scanStr_escChar (short : Bool) (c : Char) (r : List Char) :
    scanStr none (escChar short c ++ r) = (scanStr none r).map fun p => (c :: p.1, p.2) := by
  unfold escChar
  split_ifs with h1 h2 h3 h4 h5 h6 h7
  · rcases h1 with rfl | rfl
    · exact scanStr_esc r (by decide) rfl
    · exact scanStr_esc r (by decide) rfl
  · subst h2; exact scanStr_esc r (by decide) rfl
  · subst h3; exact scanStr_esc r (by decide) rfl
  · subst h4; exact scanStr_esc r (by decide) rfl
  · have : c = Char.ofNat 8 := by rw [← h5.2, Char.ofNat_toNat]
    subst this; exact scanStr_esc r (by decide) rfl
  · have : c = Char.ofNat 12 := by rw [← h6.2, Char.ofNat_toNat]
    subst this; exact scanStr_esc r (by decide) rfl
  · apply scanStr_escU
    rcases h7 with h | rfl | rfl | rfl | h | h
    · omega
    · decide
    · decide
    · decide
    · omega
    · omega
  · push Not at h1 h7
    exact scanStr_raw r h1.1 h1.2 (by omega)

theorem scanStr_emit (short : Bool) (s r : List Char) :
    scanStr none (s.flatMap (escChar short) ++ '"' :: r) = some (s, r) := by
  induction s with
  | nil =>
    rw [List.flatMap_nil, List.nil_append, scanStr]
    · simp [lone]
    · intro a b c' d r' h; simp at h
    · intro c' r' h; simp at h
  | cons c s ih =>
    rw [List.flatMap_cons, List.append_assoc, scanStr_escChar, ih]; simp

theorem escChar_contains (short : Bool) (c : Char) :
    (escChar short c).contains '\\' = (escChar true c).contains '\\' := by
  cases short with
  | true => rfl
  | false =>
    by_cases h8 : c.toNat = 8
    · have : c = Char.ofNat 8 := by rw [← h8, Char.ofNat_toNat]
      subst this; decide
    by_cases h12 : c.toNat = 12
    · have : c = Char.ofNat 12 := by rw [← h12, Char.ofNat_toNat]
      subst this; decide
    simp only [escChar, h8, h12, and_false, if_false]

theorem noEscape_emit (short : Bool) (s rest : List Char) :
    noEscape (s.flatMap (escChar short) ++ '"' :: rest) rest = asIs s := by
  have e : (s.flatMap (escChar short) ++ '"' :: rest).take
      ((s.flatMap (escChar short) ++ '"' :: rest).length - rest.length) = s.flatMap (escChar short) ++ ['"'] := by
    have : s.flatMap (escChar short) ++ '"' :: rest = (s.flatMap (escChar short) ++ ['"']) ++ rest := by simp
    rw [this, List.length_append, Nat.add_sub_cancel]
    exact List.take_left' rfl
  rw [noEscape, e]
  induction s with
  | nil => rfl
  | cons c s ih =>
    have h := escChar_contains short c
    have e' : (s.flatMap (escChar short) ++ '"' :: rest).take
      ((s.flatMap (escChar short) ++ '"' :: rest).length - rest.length) = s.flatMap (escChar short) ++ ['"'] := by
      have : s.flatMap (escChar short) ++ '"' :: rest = (s.flatMap (escChar short) ++ ['"']) ++ rest := by simp
      rw [this, List.length_append, Nat.add_sub_cancel]
      exact List.take_left' rfl
    have ih := ih e'
    rw [asIs] at ih ⊢
    rw [List.all_cons, ← ih, ← h, List.flatMap_cons]
    simp only [List.contains_eq_mem, List.mem_append, List.append_assoc]
    by_cases h1 : '\\' ∈ escChar short c <;> simp [h1]

/-! ### Values -/

mutual
/-- A value whose numbers are well written and whose nesting is at most `d`. -/
def J.Good : Nat → J → Prop
  | _, .null => True
  | _, .bool _ => True
  | _, .num lit => NumLit lit
  | _, .str s p => p = asIs s
  | d, .arr l => 1 ≤ d ∧ J.GoodElems (d - 1) l
  | d, .obj l => 1 ≤ d ∧ J.GoodMembers (d - 1) l
/-- All of these values are good. -/
def J.GoodElems : Nat → List J → Prop
  | _, [] => True
  | d, v :: vs => v.Good d ∧ J.GoodElems d vs
/-- All values of these members are good. -/
def J.GoodMembers : Nat → List (List Char × J) → Prop
  | _, [] => True
  | d, m :: ms => m.2.Good d ∧ J.GoodMembers d ms
end

theorem skipWs_ne {c : Char} (cs : List Char) (h : c ≠ ' ' ∧ c ≠ '\t' ∧ c ≠ '\r' ∧ c ≠ '\n') :
    skipWs (c :: cs) = c :: cs := by simp [skipWs, h]

/-- The first character of a value. -/
theorem emit_head (short : Bool) (j : J) {d : Nat} (h : j.Good d) :
    ∃ c cs, j.emit short = c :: cs ∧ (c ≠ ' ' ∧ c ≠ '\t' ∧ c ≠ '\r' ∧ c ≠ '\n') ∧ c ≠ ']' ∧ c ≠ '}' := by
  match j, h with
  | .null, _ => exact ⟨_, _, by simp [J.emit]; exact ⟨rfl, rfl⟩, by decide⟩
  | .bool true, _ => exact ⟨_, _, by simp [J.emit]; exact ⟨rfl, rfl⟩, by decide⟩
  | .bool false, _ => exact ⟨_, _, by simp [J.emit]; exact ⟨rfl, rfl⟩, by decide⟩
  | .num lit, h =>
    obtain ⟨c, cs, rfl, hc⟩ := NumLit.head (by simpa [J.Good] using h)
    refine ⟨c, cs, by simp [J.emit], ?_⟩
    rcases hc with rfl | hc
    · decide
    · exact ⟨⟨digitC_ne hc (by decide), digitC_ne hc (by decide), digitC_ne hc (by decide), digitC_ne hc (by decide)⟩,
        digitC_ne hc (by decide), digitC_ne hc (by decide)⟩
  | .str s _, _ => exact ⟨_, _, by simp [J.emit, emitStr]; exact ⟨rfl, rfl⟩, by decide⟩
  | .arr [], _ => exact ⟨_, _, by simp [J.emit]; exact ⟨rfl, rfl⟩, by decide⟩
  | .arr (v :: vs), _ => exact ⟨_, _, by simp [J.emit]; exact ⟨rfl, rfl⟩, by decide⟩
  | .obj [], _ => exact ⟨_, _, by simp [J.emit]; exact ⟨rfl, rfl⟩, by decide⟩
  | .obj (m :: ms), _ => exact ⟨_, _, by simp [J.emit]; exact ⟨rfl, rfl⟩, by decide⟩

theorem emitElems_stop (short : Bool) (vs : List J) (rest : List Char) :
    Stop (J.emitElems short vs ++ rest) := by
  intro c cs h
  cases vs <;> simp [J.emitElems] at h <;> simp [← h.1]

theorem emitMembers_stop (short : Bool) (ms : List (List Char × J)) (rest : List Char) :
    Stop (J.emitMembers short ms ++ rest) := by
  intro c cs h
  cases ms <;> simp [J.emitMembers] at h <;> simp [← h.1]

theorem scan_num {n d : Nat} {s rest : List Char} (hs : NumLit s) (hr : Stop rest) :
    J.scan (n + 1) d (s ++ rest) = some (.num s, rest) := by
  have key := scanNum_append hs hr
  obtain ⟨c, cs, rfl, hc⟩ := hs.head
  have hne : ∀ x : Char, x ≠ '-' → digitC x = false → c ≠ x := by
    intro x hx hd; rcases hc with rfl | hc
    · exact Ne.symm hx
    · exact digitC_ne hc hd
  rw [List.cons_append] at key ⊢
  rw [J.scan, skipWs_ne _ ⟨hne _ (by decide) (by decide), hne _ (by decide) (by decide),
    hne _ (by decide) (by decide), hne _ (by decide) (by decide)⟩]
  split
  · rename_i h; simp at h
  · rename_i h; simp only [List.cons.injEq] at h; exact absurd h.1 (hne _ (by decide) (by decide))
  · rename_i h; simp only [List.cons.injEq] at h; exact absurd h.1 (hne _ (by decide) (by decide))
  · rename_i h; simp only [List.cons.injEq] at h; exact absurd h.1 (hne _ (by decide) (by decide))
  · rename_i h; simp only [List.cons.injEq] at h; exact absurd h.1 (hne _ (by decide) (by decide))
  · rename_i h; simp only [List.cons.injEq] at h; exact absurd h.1 (hne _ (by decide) (by decide))
  · rename_i h; simp only [List.cons.injEq] at h; exact absurd h.1 (hne _ (by decide) (by decide))
  · rename_i h; simp only [List.cons.injEq] at h; rw [← h.1, ← h.2, key]; rfl

mutual
theorem scan_emit (short : Bool) : ∀ (j : J) (n d : Nat) (rest : List Char), j.Good d → Stop rest →
    2 * (j.emit short).length ≤ n → J.scan n d (j.emit short ++ rest) = some (j, rest)
  | .null, n, d, rest, _, hr, hn => by
    obtain ⟨n, rfl⟩ : ∃ m, n = m + 1 := ⟨n - 1, by simp [J.emit] at hn; omega⟩
    simp [J.emit, J.scan, skipWs]
  | .bool true, n, d, rest, _, hr, hn => by
    obtain ⟨n, rfl⟩ : ∃ m, n = m + 1 := ⟨n - 1, by simp [J.emit] at hn; omega⟩
    simp [J.emit, J.scan, skipWs]
  | .bool false, n, d, rest, _, hr, hn => by
    obtain ⟨n, rfl⟩ : ∃ m, n = m + 1 := ⟨n - 1, by simp [J.emit] at hn; omega⟩
    simp [J.emit, J.scan, skipWs]
  | .num s, n, d, rest, h, hr, hn => by
    have hs : NumLit s := by simpa [J.Good] using h
    obtain ⟨n, rfl⟩ : ∃ m, n = m + 1 := ⟨n - 1, by
      obtain ⟨c, cs, rfl, -⟩ := hs.head
      simp [J.emit] at hn; omega⟩
    simpa [J.emit] using scan_num hs hr
  | .str s p, n, d, rest, h, hr, hn => by
    obtain rfl : p = asIs s := by simpa [J.Good] using h
    obtain ⟨n, rfl⟩ : ∃ m, n = m + 1 := ⟨n - 1, by simp [J.emit, emitStr] at hn; omega⟩
    have := scanStr_emit short s rest
    have h2 := noEscape_emit short s rest
    simp [J.emit, J.scan, emitStr, skipWs, this, h2]
  | .arr [], n, d, rest, h, hr, hn => by
    obtain ⟨n, rfl⟩ : ∃ m, n = m + 1 := ⟨n - 1, by simp [J.emit] at hn; omega⟩
    obtain ⟨d, rfl⟩ : ∃ m, d = m + 1 := ⟨d - 1, by simp [J.Good] at h; omega⟩
    simp [J.emit, J.scan, skipWs]
  | .arr (v :: vs), n, d, rest, h, hr, hn => by
    obtain ⟨n, rfl⟩ : ∃ m, n = m + 1 := ⟨n - 1, by simp [J.emit] at hn; omega⟩
    simp only [J.Good] at h
    obtain ⟨d, rfl⟩ : ∃ m, d = m + 1 := ⟨d - 1, by omega⟩
    simp only [J.emit, List.length_cons, List.length_append] at hn
    have key := scanElems_emit short v vs n d rest (by simpa [J.GoodElems] using h.2.1) h.2.2 (by omega)
    obtain ⟨c, cs, hc, hw, hb, -⟩ := emit_head short v h.2.1
    rw [hc, List.cons_append] at key
    have hw' := skipWs_ne (cs ++ (J.emitElems short vs ++ rest)) hw
    rw [J.emit, List.cons_append, J.scan, skipWs_ne _ (by decide)]
    simp only [List.append_assoc, hc, List.cons_append, hw']
    split
    · rename_i h'; simp only [List.cons.injEq] at h'; exact absurd h'.1 hb
    · rw [key]; rfl
  | .obj [], n, d, rest, h, hr, hn => by
    obtain ⟨n, rfl⟩ : ∃ m, n = m + 1 := ⟨n - 1, by simp [J.emit] at hn; omega⟩
    obtain ⟨d, rfl⟩ : ∃ m, d = m + 1 := ⟨d - 1, by simp [J.Good] at h; omega⟩
    simp [J.emit, J.scan, skipWs]
  | .obj ((k, v) :: ms), n, d, rest, h, hr, hn => by
    obtain ⟨n, rfl⟩ : ∃ m, n = m + 1 := ⟨n - 1, by simp [J.emit] at hn; omega⟩
    simp only [J.Good] at h
    obtain ⟨d, rfl⟩ : ∃ m, d = m + 1 := ⟨d - 1, by omega⟩
    simp only [J.emit, List.length_cons, List.length_append] at hn
    have key := scanMembers_emit short k v ms n d rest h.2.1 h.2.2 (by omega)
    rw [J.emit, List.cons_append, J.scan, skipWs_ne _ (by decide)]
    simp only [List.append_assoc, emitStr, List.cons_append, List.nil_append] at key ⊢
    rw [skipWs_ne _ (by decide)]
    simp [key]
termination_by _ n => n
theorem scanElems_emit (short : Bool) : ∀ (v : J) (vs : List J) (n d : Nat) (rest : List Char),
    v.Good d → J.GoodElems d vs →
    2 * ((v.emit short).length + (J.emitElems short vs).length) + 1 ≤ n →
    J.scanElems n d (v.emit short ++ (J.emitElems short vs ++ rest)) = some (v :: vs, rest)
  | v, [], n, d, rest, hv, _, hn => by
    obtain ⟨n, rfl⟩ : ∃ m, n = m + 1 := ⟨n - 1, by omega⟩
    have := scan_emit short v n d (J.emitElems short [] ++ rest) hv (emitElems_stop _ _ _) (by omega)
    rw [J.scanElems, this]
    simp [J.emitElems, skipWs]
  | v, w :: vs, n, d, rest, hv, hvs, hn => by
    obtain ⟨n, rfl⟩ : ∃ m, n = m + 1 := ⟨n - 1, by omega⟩
    have h1 := scan_emit short v n d (J.emitElems short (w :: vs) ++ rest) hv (emitElems_stop _ _ _) (by omega)
    simp only [J.GoodElems] at hvs
    simp only [J.emitElems, List.length_cons, List.length_append] at hn
    have h2 := scanElems_emit short w vs n d rest hvs.1 hvs.2 (by omega)
    rw [J.scanElems, h1]
    simp [J.emitElems, skipWs, h2]
termination_by _ _ n => n
theorem scanMembers_emit (short : Bool) : ∀ (k : List Char) (v : J) (ms : List (List Char × J)) (n d : Nat)
    (rest : List Char), v.Good d → J.GoodMembers d ms →
    2 * ((v.emit short).length + (J.emitMembers short ms).length) + 1 ≤ n →
    J.scanMembers n d (emitStr short k ++ ':' :: (v.emit short ++ (J.emitMembers short ms ++ rest))) =
      some ((k, v) :: ms, rest)
  | k, v, [], n, d, rest, hv, _, hn => by
    obtain ⟨n, rfl⟩ : ∃ m, n = m + 1 := ⟨n - 1, by omega⟩
    have h1 := scan_emit short v n d (J.emitMembers short [] ++ rest) hv (emitMembers_stop _ _ _) (by omega)
    have h0 := scanStr_emit short k (':' :: (v.emit short ++ (J.emitMembers short [] ++ rest)))
    simp only [emitStr, List.cons_append, List.append_assoc, List.nil_append]
    rw [J.scanMembers, skipWs_ne _ (by decide)]
    simp only [h0]
    rw [skipWs_ne _ (by decide)]
    simp only [h1]
    simp [J.emitMembers, skipWs]
  | k, v, (k', w) :: ms, n, d, rest, hv, hms, hn => by
    obtain ⟨n, rfl⟩ : ∃ m, n = m + 1 := ⟨n - 1, by omega⟩
    have h1 := scan_emit short v n d (J.emitMembers short ((k', w) :: ms) ++ rest) hv (emitMembers_stop _ _ _) (by omega)
    have h0 := scanStr_emit short k (':' :: (v.emit short ++ (J.emitMembers short ((k', w) :: ms) ++ rest)))
    simp only [J.GoodMembers] at hms
    simp only [J.emitMembers, List.length_cons, List.length_append] at hn
    have h2 := scanMembers_emit short k' w ms n d rest hms.1 hms.2 (by omega)
    simp only [emitStr, List.cons_append, List.append_assoc, List.nil_append] at h2 ⊢
    rw [J.scanMembers, skipWs_ne _ (by decide)]
    simp only [h0]
    rw [skipWs_ne _ (by decide)]
    simp only [h1]
    simp [J.emitMembers, emitStr, skipWs, h2]
termination_by _ _ _ n => n
end

/-- A value reads back from its text. -/
theorem parse_emit (short : Bool) {j : J} (h : j.Good 10000) : J.parse (j.emit short) = some j := by
  have := scan_emit short j (2 * (j.emit short).length + 2) 10000 [] h (by intro c cs h; simp at h) (by omega)
  rw [List.append_nil] at this
  simp [J.parse, this, skipWs]

end Go
