import Verif.Props.JsonText

/-!
# C170: which texts are JSON, and what they mean

A grammar of JSON, with the limits of `encoding/json`: 10000 nested arrays and objects. A text of the
grammar is read as the value the grammar gives it; any other text is an error and changes nothing.
-/

namespace Finmod.Json
open Go Finmod

namespace Spec

/-- White space. -/
def Blank (w : List Char) : Prop := ∀ c ∈ w, c = ' ' ∨ c = '\t' ∨ c = '\r' ∨ c = '\n'

/-- A number: sign, integer part, fraction, exponent. -/
def Number (t : List Char) : Prop :=
  ∃ s I F X, t = s ++ (I ++ (F ++ X)) ∧ (s = [] ∨ s = ['-']) ∧
    I ≠ [] ∧ AllDigits I ∧ (I.head? = some '0' → I = ['0']) ∧
    (F = [] ∨ ∃ D, F = '.' :: D ∧ D ≠ [] ∧ AllDigits D) ∧
    (X = [] ∨ ∃ e g D, X = e :: (g ++ D) ∧ (e = 'e' ∨ e = 'E') ∧ (g = [] ∨ g = ['+'] ∨ g = ['-']) ∧ D ≠ [] ∧
      AllDigits D)

/-- A hexadecimal digit and its value. -/
def Hex (c : Char) (n : Nat) : Prop :=
  "0123456789abcdef".toList[n]? = some c ∨ "0123456789ABCDEF".toList[n]? = some c

/-- The parts of a string: a character, or a number of 16 bits. -/
inductive Item : List Char → Char ⊕ Nat → Prop
  | plain (c : Char) : 32 ≤ c.toNat → c ≠ '"' → c ≠ '\\' → Item [c] (.inl c)
  | quote : Item ['\\', '"'] (.inl '"')
  | backslash : Item ['\\', '\\'] (.inl '\\')
  | slash : Item ['\\', '/'] (.inl '/')
  | backspace : Item ['\\', 'b'] (.inl (Char.ofNat 8))
  | formFeed : Item ['\\', 'f'] (.inl (Char.ofNat 12))
  | newline : Item ['\\', 'n'] (.inl '\n')
  | carriageReturn : Item ['\\', 'r'] (.inl '\r')
  | tab : Item ['\\', 't'] (.inl '\t')
  | unit (a b c d : Char) (x y z w : Nat) : Hex a x → Hex b y → Hex c z → Hex d w →
      Item ['\\', 'u', a, b, c, d] (.inr (4096 * x + 256 * y + 16 * z + w))

/-- The first half of a surrogate pair. -/
def High (n : Nat) : Prop := 0xD800 ≤ n ∧ n < 0xDC00

/-- The second half of a surrogate pair. -/
def Low (n : Nat) : Prop := 0xDC00 ≤ n ∧ n < 0xE000

/-- The characters of a string: pairs of surrogates are joined, half a pair becomes U+FFFD. -/
inductive Decoded : List (Char ⊕ Nat) → List Char → Prop
  | nil : Decoded [] []
  | char (c : Char) (l s) : Decoded l s → Decoded (.inl c :: l) (c :: s)
  | unit (n : Nat) (l s) : ¬ High n → ¬ Low n → Decoded l s → Decoded (.inr n :: l) (Char.ofNat n :: s)
  | pair (n m : Nat) (l s) : High n → Low m → Decoded l s →
      Decoded (.inr n :: .inr m :: l) (Char.ofNat (0x10000 + 0x400 * (n - 0xD800) + (m - 0xDC00)) :: s)
  | low (n : Nat) (l s) : Low n → Decoded l s → Decoded (.inr n :: l) (Char.ofNat 0xFFFD :: s)
  | high (n : Nat) (l s) : High n → (∀ m l', l = .inr m :: l' → ¬ Low m) → Decoded l s →
      Decoded (.inr n :: l) (Char.ofNat 0xFFFD :: s)

/-- A string and its characters. -/
def Str (t s : List Char) : Prop :=
  ∃ texts items, List.Forall₂ Item texts items ∧ Decoded items s ∧ t = '"' :: (texts.flatten ++ ['"'])

mutual
/-- `Value d t j`: the text `t` is the value `j`, with at most `d` nested arrays and objects. -/
inductive Value : Nat → List Char → J → Prop
  | null (d) : Value d "null".toList .null
  | true (d) : Value d "true".toList (.bool Bool.true)
  | false (d) : Value d "false".toList (.bool Bool.false)
  | number (d t) : Number t → Value d t (.num t)
  | string (d t s plain) : Str t s → (plain = Bool.true ↔ '\\' ∉ t) → Value d t (.str s plain)
  | emptyArray (d w) : Blank w → Value (d + 1) ('[' :: (w ++ [']'])) (.arr [])
  | array (d t l) : Elements d t l → Value (d + 1) ('[' :: (t ++ [']'])) (.arr l)
  | emptyObject (d w) : Blank w → Value (d + 1) ('{' :: (w ++ ['}'])) (.obj [])
  | object (d t l) : Members d t l → Value (d + 1) ('{' :: (t ++ ['}'])) (.obj l)
/-- Values with commas between them. -/
inductive Elements : Nat → List Char → List J → Prop
  | last (d a t b v) : Blank a → Value d t v → Blank b → Elements d (a ++ (t ++ b)) [v]
  | more (d a t b u v l) : Blank a → Value d t v → Blank b → Elements d u l →
      Elements d (a ++ (t ++ (b ++ ',' :: u))) (v :: l)
/-- Names and values with commas between them. -/
inductive Members : Nat → List Char → List (List Char × J) → Prop
  | last (d a k b c t e s v) : Blank a → Str k s → Blank b → Blank c → Value d t v → Blank e →
      Members d (a ++ (k ++ (b ++ ':' :: (c ++ (t ++ e))))) [(s, v)]
  | more (d a k b c t e u s v l) : Blank a → Str k s → Blank b → Blank c → Value d t v → Blank e → Members d u l →
      Members d (a ++ (k ++ (b ++ ':' :: (c ++ (t ++ (e ++ ',' :: u)))))) ((s, v) :: l)
end

/-- The text is JSON and means `j`. -/
def IsJson (s : List Char) (j : J) : Prop := ∃ a t b, s = a ++ (t ++ b) ∧ Blank a ∧ Value 10000 t j ∧ Blank b

end Spec
open Spec

/-! ### White space -/

theorem skipWs_sound (s : List Char) : ∃ a, s = a ++ skipWs s ∧ Blank a := by
  induction s with
  | nil => exact ⟨[], rfl, by simp [Blank]⟩
  | cons c s ih =>
    obtain ⟨a, ha, hb⟩ := ih
    rw [skipWs]
    split_ifs with h
    · refine ⟨c :: a, by rw [List.cons_append, ← ha], ?_⟩
      intro x hx; rcases List.mem_cons.1 hx with rfl | hx
      exacts [h, hb x hx]
    · exact ⟨[], rfl, by simp [Blank]⟩

theorem skipWs_blank {a : List Char} (h : Blank a) (s : List Char) : skipWs (a ++ s) = skipWs s := by
  induction a with
  | nil => rfl
  | cons c a ih =>
    rw [List.cons_append, skipWs, if_pos (h c (by simp)), ih fun x hx => h x (by simp [hx])]

theorem skipWs_all {a : List Char} (h : Blank a) : skipWs a = [] := by
  have := skipWs_blank h []; rwa [List.append_nil] at this

theorem skipWs_idem (s : List Char) : skipWs (skipWs s) = skipWs s := by
  obtain ⟨a, ha, hb⟩ := skipWs_sound s
  conv_rhs => rw [ha, skipWs_blank hb]

/-! ### Numbers -/

theorem digits_of_allDigits {l : List Char} (h : AllDigits l) : ∀ c ∈ l, digitC c = true := by
  intro c hc
  have : ∀ c ∈ "0123456789".toList, digitC c = true := by decide
  exact this c (h c hc)

theorem spanDigits_sound (s : List Char) : s = (spanDigits s).1 ++ (spanDigits s).2 ∧ AllDigits (spanDigits s).1 := by
  refine ⟨(List.takeWhile_append_dropWhile).symm, allDigits_of fun c hc => ?_⟩
  exact List.all_eq_true.1 (List.all_takeWhile (l := s) (p := digitC)) c hc

theorem spanDigits_head (s : List Char) : ∀ c cs, (spanDigits s).2 = c :: cs → digitC c = false := by
  intro c cs h
  have := List.head?_dropWhile_not digitC s
  rw [show s.dropWhile digitC = c :: cs from h] at this
  simpa using this

theorem scanSigned_sound {s t r : List Char} (h : scanSigned s = some (t, r)) :
    s = t ++ r ∧ ∃ g D, t = g ++ D ∧ (g = [] ∨ g = ['+'] ∨ g = ['-']) ∧ D ≠ [] ∧ AllDigits D := by
  unfold scanSigned at h
  split at h
  · rename_i r'
    obtain ⟨h1, h2⟩ := spanDigits_sound r'
    split_ifs at h with h0
    obtain ⟨rfl, rfl⟩ := Prod.mk.inj (Option.some.inj h)
    exact ⟨by rw [List.cons_append, ← h1], ['+'], _, rfl, by simp, h0, h2⟩
  · rename_i r'
    obtain ⟨h1, h2⟩ := spanDigits_sound r'
    split_ifs at h with h0
    obtain ⟨rfl, rfl⟩ := Prod.mk.inj (Option.some.inj h)
    exact ⟨by rw [List.cons_append, ← h1], ['-'], _, rfl, by simp, h0, h2⟩
  · obtain ⟨h1, h2⟩ := spanDigits_sound s
    split_ifs at h with h0
    have h' := Option.some.inj h
    rw [h'] at h1 h2 h0
    exact ⟨h1, [], _, rfl, by simp, h0, h2⟩

theorem scanUnsigned_sound {s t r : List Char} (h : scanUnsigned s = some (t, r)) :
    s = t ++ r ∧ ∃ I F X, t = I ++ (F ++ X) ∧ I ≠ [] ∧ AllDigits I ∧ (I.head? = some '0' → I = ['0']) ∧
    (F = [] ∨ ∃ D, F = '.' :: D ∧ D ≠ [] ∧ AllDigits D) ∧
    (X = [] ∨ ∃ e g D, X = e :: (g ++ D) ∧ (e = 'e' ∨ e = 'E') ∧ (g = [] ∨ g = ['+'] ∨ g = ['-']) ∧ D ≠ [] ∧
      AllDigits D) := by
  unfold scanUnsigned at h
  rw [Option.bind_eq_some_iff] at h
  obtain ⟨⟨I, r1⟩, hI, h⟩ := h
  rw [Option.bind_eq_some_iff] at h
  obtain ⟨⟨F, r2⟩, hF, h⟩ := h
  rw [Option.map_eq_some_iff] at h
  obtain ⟨⟨X, r3⟩, hX, h⟩ := h
  simp only [Prod.mk.injEq] at h hF hX
  obtain ⟨rfl, rfl⟩ := h
  have h1 : s = I ++ r1 ∧ I ≠ [] ∧ AllDigits I ∧ (I.head? = some '0' → I = ['0']) := by
    unfold scanInt at hI
    split at hI
    · obtain ⟨rfl, rfl⟩ := Prod.mk.inj (Option.some.inj hI)
      exact ⟨rfl, by simp, allDigits_of (by intro c hc; simp at hc; subst hc; decide), fun _ => rfl⟩
    · rename_i hne
      obtain ⟨a, b⟩ := spanDigits_sound s
      split_ifs at hI with h0
      have h' := Option.some.inj hI
      rw [h'] at a b h0
      refine ⟨a, h0, b, fun hz => ?_⟩
      cases I with
      | nil => simp at hz
      | cons c cs =>
        simp only [List.head?_cons, Option.some.injEq] at hz
        subst hz
        exact absurd a (hne _)
  have h2 : r1 = F ++ r2 ∧ (F = [] ∨ ∃ D, F = '.' :: D ∧ D ≠ [] ∧ AllDigits D) := by
    unfold scanFrac at hF
    split at hF
    · rename_i r'
      obtain ⟨a, b⟩ := spanDigits_sound r'
      split_ifs at hF with h0
      obtain ⟨rfl, rfl⟩ := Prod.mk.inj (Option.some.inj hF)
      exact ⟨by rw [List.cons_append, ← a], Or.inr ⟨_, rfl, h0, b⟩⟩
    · obtain ⟨rfl, rfl⟩ := Prod.mk.inj (Option.some.inj hF)
      exact ⟨rfl, Or.inl rfl⟩
  have h3 : r2 = X ++ r3 ∧ (X = [] ∨ ∃ e g D, X = e :: (g ++ D) ∧ (e = 'e' ∨ e = 'E') ∧
      (g = [] ∨ g = ['+'] ∨ g = ['-']) ∧ D ≠ [] ∧ AllDigits D) := by
    unfold scanExpo at hX
    split at hX
    · rw [Option.map_eq_some_iff] at hX
      obtain ⟨⟨t', r'⟩, hs, he⟩ := hX
      obtain ⟨rfl, rfl⟩ := Prod.mk.inj he
      obtain ⟨a, g, D, rfl, b⟩ := scanSigned_sound hs
      exact ⟨by rw [a]; rfl, Or.inr ⟨'e', g, D, rfl, by simp, b⟩⟩
    · rw [Option.map_eq_some_iff] at hX
      obtain ⟨⟨t', r'⟩, hs, he⟩ := hX
      obtain ⟨rfl, rfl⟩ := Prod.mk.inj he
      obtain ⟨a, g, D, rfl, b⟩ := scanSigned_sound hs
      exact ⟨by rw [a]; rfl, Or.inr ⟨'E', g, D, rfl, by simp, b⟩⟩
    · obtain ⟨rfl, rfl⟩ := Prod.mk.inj (Option.some.inj hX)
      exact ⟨rfl, Or.inl rfl⟩
  refine ⟨?_, I, F, X, by simp, h1.2.1, h1.2.2.1, h1.2.2.2, h2.2, h3.2⟩
  rw [h1.1, h2.1, h3.1]; simp

theorem scanNum_sound {s t r : List Char} (h : scanNum s = some (t, r)) : s = t ++ r ∧ Number t := by
  unfold scanNum at h
  split at h
  · rw [Option.map_eq_some_iff] at h
    obtain ⟨⟨t', r'⟩, hs, he⟩ := h
    obtain ⟨rfl, rfl⟩ := Prod.mk.inj he
    obtain ⟨a, I, F, X, rfl, b⟩ := scanUnsigned_sound hs
    exact ⟨by rw [a]; rfl, ['-'], I, F, X, rfl, by simp, b⟩
  · obtain ⟨a, I, F, X, rfl, b⟩ := scanUnsigned_sound h
    exact ⟨a, [], I, F, X, rfl, by simp, b⟩

/-- What may follow a value. -/
def Ends (r : List Char) : Prop :=
  ∀ c cs, r = c :: cs → c = ',' ∨ c = ']' ∨ c = '}' ∨ c = ' ' ∨ c = '\t' ∨ c = '\r' ∨ c = '\n'

theorem ends_blank {b r : List Char} (h : Blank b) (hr : Ends r) : Ends (b ++ r) := by
  intro c cs he
  cases b with
  | nil => exact hr c cs he
  | cons x b =>
    simp only [List.cons_append, List.cons.injEq] at he
    have := h x (by simp)
    rw [he.1] at this
    tauto

theorem ends_nil : Ends [] := by intro c cs h; simp at h

theorem ends_cons {c : Char} (r : List Char) (h : c = ',' ∨ c = ']' ∨ c = '}') : Ends (c :: r) := by
  intro x xs he
  simp only [List.cons.injEq] at he
  rw [← he.1]; tauto

theorem scanSigned_complete {g D r : List Char} (hg : g = [] ∨ g = ['+'] ∨ g = ['-']) (h0 : D ≠ [])
    (hD : AllDigits D) (hr : ∀ c cs, r = c :: cs → digitC c = false) :
    scanSigned (g ++ D ++ r) = some (g ++ D, r) := by
  have hs := spanDigits_append (digits_of_allDigits hD) hr
  rcases hg with rfl | rfl | rfl
  · rw [List.nil_append]
    cases D with
    | nil => exact absurd rfl h0
    | cons d D =>
      have hd := digits_of_allDigits hD d (by simp)
      unfold scanSigned
      split
      · rename_i h; simp only [List.cons_append, List.cons.injEq] at h; rw [h.1] at hd; exact absurd hd (by decide)
      · rename_i h; simp only [List.cons_append, List.cons.injEq] at h; rw [h.1] at hd; exact absurd hd (by decide)
      · rw [hs]; simp
  · simp [scanSigned, hs, h0]
  · simp [scanSigned, hs, h0]

theorem scanNum_complete {t r : List Char} (h : Number t) (hr : Ends r) : scanNum (t ++ r) = some (t, r) := by
  obtain ⟨s, I, F, X, rfl, hs, hI0, hI, hz, hF, hX⟩ := h
  have restD : ∀ c cs, r = c :: cs → digitC c = false ∧ c ≠ '.' ∧ c ≠ 'e' ∧ c ≠ 'E' := by
    intro c cs h; rcases hr c cs h with rfl | rfl | rfl | rfl | rfl | rfl | rfl <;> decide
  have hE : scanExpo (X ++ r) = some (X, r) := by
    rcases hX with rfl | ⟨e, g, D, rfl, he, hg, hD0, hD⟩
    · unfold scanExpo
      split
      · rename_i h; exact absurd rfl (restD _ _ h).2.2.1
      · rename_i h; exact absurd rfl (restD _ _ h).2.2.2
      · rfl
    · have := scanSigned_complete hg hD0 hD fun c cs h => (restD c cs h).1
      rcases he with rfl | rfl <;> simp only [List.cons_append, scanExpo, this, Option.map_some]
  have rD : ∀ c cs, X ++ r = c :: cs → digitC c = false ∧ c ≠ '.' := by
    intro c cs h
    rcases hX with rfl | ⟨e, g, D, rfl, he, -⟩
    · exact ⟨(restD c cs h).1, (restD c cs h).2.1⟩
    · simp only [List.cons_append, List.cons.injEq] at h
      rw [← h.1]; rcases he with rfl | rfl <;> decide
  have hFr : scanFrac (F ++ (X ++ r)) = some (F, X ++ r) := by
    rcases hF with rfl | ⟨B, rfl, hB0, hB⟩
    · unfold scanFrac
      split
      · rename_i h; exact absurd rfl (rD _ _ h).2
      · rfl
    · have := spanDigits_append (digits_of_allDigits hB) (fun c cs h => (rD c cs h).1)
      simp [scanFrac, this, hB0]
  have PD : ∀ c cs, F ++ (X ++ r) = c :: cs → digitC c = false := by
    intro c cs h
    rcases hF with rfl | ⟨B, rfl, -⟩
    · exact (rD c cs h).1
    · simp only [List.cons_append, List.cons.injEq] at h; rw [← h.1]; decide
  obtain ⟨a, A, rfl⟩ := List.exists_cons_of_ne_nil hI0
  have hId := digits_of_allDigits hI
  have hIn := scanInt_append (a := a) (A := A) (hId a (by simp)) (fun c hc => hId c (by simp [hc]))
    (fun h => by have := hz (by simp [h]); simp only [List.cons.injEq] at this; exact this.2) PD
  have hU : scanUnsigned (a :: A ++ (F ++ (X ++ r))) = some (a :: A ++ F ++ X, r) := by
    simp only [scanUnsigned, hIn, Option.bind_some, hFr, hE, Option.map_some]
  have e : s ++ (a :: A ++ (F ++ X)) ++ r = s ++ (a :: A ++ (F ++ (X ++ r))) := by simp
  rw [e]
  rcases hs with rfl | rfl
  · rw [List.nil_append]
    unfold scanNum
    split
    · rename_i h; simp only [List.cons_append, List.cons.injEq] at h
      have := hId a (by simp)
      rw [h.1] at this; exact absurd this (by decide)
    · rw [hU]; simp
  · simp only [List.cons_append, List.nil_append] at hU ⊢
    simp [scanNum, hU]

/-! ### Strings -/

theorem hex_iff (c : Char) (n : Nat) : Hex c n ↔ hexC c = true ∧ hexVal c = n := by
  constructor
  · have key : ∀ n < 16, ∀ c, Hex c n → hexC c = true ∧ hexVal c = n := by
      intro n hn c h
      interval_cases n <;>
        (rcases h with h | h <;> (simp at h; subst h; decide))
    intro h
    refine key n ?_ c h
    by_contra hc
    rcases h with h | h <;> rw [List.getElem?_eq_none (by simpa using not_lt.1 hc)] at h <;> simp at h
  · rintro ⟨h, rfl⟩
    have key : ∀ k < 128, hexC (Char.ofNat k) = true → Hex (Char.ofNat k) (hexVal (Char.ofNat k)) := by
      unfold Hex; decide +kernel
    have hlt : c.toNat < 128 := by
      simp only [hexC, Bool.or_eq_true, decide_eq_true_eq, digitC] at h
      unfold lowerC at h
      split_ifs at h <;> omega
    have := key c.toNat hlt
    rw [Char.ofNat_toNat] at this
    exact this h

theorem hex4_iff {a b c d : Char} {n : Nat} :
    hex4 a b c d = some n ↔ ∃ x y z w, Hex a x ∧ Hex b y ∧ Hex c z ∧ Hex d w ∧ n = 4096 * x + 256 * y + 16 * z + w := by
  unfold hex4
  simp only [hex_iff]
  constructor
  · intro h
    split_ifs at h with hc
    simp only [Bool.and_eq_true] at hc
    refine ⟨_, _, _, _, ⟨hc.1.1.1, rfl⟩, ⟨hc.1.1.2, rfl⟩, ⟨hc.1.2, rfl⟩, ⟨hc.2, rfl⟩, ?_⟩
    have := Option.some.inj h
    omega
  · rintro ⟨x, y, z, w, ⟨h1, rfl⟩, ⟨h2, rfl⟩, ⟨h3, rfl⟩, ⟨h4, rfl⟩, rfl⟩
    simp only [h1, h2, h3, h4, Bool.and_self, if_true, Option.some.injEq]
    omega

/-- A pending high surrogate before the items. -/
def pend (hi : Option Nat) (l : List (Char ⊕ Nat)) : List (Char ⊕ Nat) :=
  match hi with
  | none => l
  | some h => .inr h :: l

theorem decoded_lone {hi : Option Nat} (hh : ∀ h, hi = some h → High h) {l : List (Char ⊕ Nat)} {s : List Char}
    (hl : ∀ m l', l = .inr m :: l' → ¬ Low m) (h : Decoded l s) : Decoded (pend hi l) (lone hi s) := by
  cases hi with
  | none => exact h
  | some n => exact .high n l s (hh n rfl) hl h

theorem item_unescape {c x : Char} (h : unescape c = some x) : Item ['\\', c] (.inl x) := by
  unfold unescape at h
  split at h <;> first | (obtain rfl := Option.some.inj h; constructor) | simp at h

theorem scanStr_sound : ∀ (n : Nat) (r : List Char) (hi : Option Nat), r.length ≤ n → (∀ h, hi = some h → High h) →
    ∀ s rest, scanStr hi r = some (s, rest) →
    ∃ texts items, List.Forall₂ Item texts items ∧ Decoded (pend hi items) s ∧ r = texts.flatten ++ '"' :: rest := by
  intro n
  induction n with
  | zero =>
    intro r hi hn _ s rest h
    rw [List.length_eq_zero_iff.1 (Nat.le_zero.1 hn)] at h
    simp [scanStr] at h
  | succ n ih =>
    intro r hi hn hh s rest h
    unfold scanStr at h
    split at h
    · simp at h
    · rename_i hi a b c d r
      simp only [List.length_cons] at hn
      split at h
      · simp at h
      · rename_i k hk
        obtain ⟨x, y, z, w, hx, hy, hz, hw, rfl⟩ := hex4_iff.1 hk
        have it := Item.unit a b c d x y z w hx hy hz hw
        generalize 4096 * x + 256 * y + 16 * z + w = k at it h
        split at h
        · rename_i m
          have hm := hh m rfl
          split_ifs at h with h1 h2
          · rw [Option.map_eq_some_iff] at h
            obtain ⟨⟨s', r'⟩, hs, he⟩ := h
            obtain ⟨rfl, rfl⟩ := Prod.mk.inj he
            obtain ⟨ts, is, f, dd, e⟩ := ih r none (by omega) (by simp) _ _ hs
            refine ⟨_ :: ts, _ :: is, .cons it f, ?_, by simp [e]⟩
            have := Decoded.pair m k is s' hm h1 dd
            rwa [Nat.mul_comm 0x400] at this
          · rw [Option.map_eq_some_iff] at h
            obtain ⟨⟨s', r'⟩, hs, he⟩ := h
            obtain ⟨rfl, rfl⟩ := Prod.mk.inj he
            obtain ⟨ts, is, f, dd, e⟩ := ih r (some k) (by omega) (by rintro _ ⟨⟩; exact h2) _ _ hs
            refine ⟨_ :: ts, _ :: is, .cons it f, ?_, by simp [e]⟩
            refine .high m _ s' hm ?_ dd
            rintro m' l' ⟨⟩; exact h1
          · rw [Option.map_eq_some_iff] at h
            obtain ⟨⟨s', r'⟩, hs, he⟩ := h
            obtain ⟨rfl, rfl⟩ := Prod.mk.inj he
            obtain ⟨ts, is, f, dd, e⟩ := ih r none (by omega) (by simp) _ _ hs
            refine ⟨_ :: ts, _ :: is, .cons it f, ?_, by simp [e]⟩
            refine .high m _ _ hm ?_ (.unit k is s' h2 h1 dd)
            rintro m' l' ⟨⟩; exact h1
        · split_ifs at h with h1 h2
          · obtain ⟨ts, is, f, dd, e⟩ := ih r (some k) (by omega) (by rintro _ ⟨⟩; exact h1) _ _ h
            exact ⟨_ :: ts, _ :: is, .cons it f, dd, by simp [e]⟩
          · rw [Option.map_eq_some_iff] at h
            obtain ⟨⟨s', r'⟩, hs, he⟩ := h
            obtain ⟨rfl, rfl⟩ := Prod.mk.inj he
            obtain ⟨ts, is, f, dd, e⟩ := ih r none (by omega) (by simp) _ _ hs
            exact ⟨_ :: ts, _ :: is, .cons it f, .low k is s' h2 dd, by simp [e]⟩
          · rw [Option.map_eq_some_iff] at h
            obtain ⟨⟨s', r'⟩, hs, he⟩ := h
            obtain ⟨rfl, rfl⟩ := Prod.mk.inj he
            obtain ⟨ts, is, f, dd, e⟩ := ih r none (by omega) (by simp) _ _ hs
            exact ⟨_ :: ts, _ :: is, .cons it f, .unit k is s' h1 h2 dd, by simp [e]⟩
    · rename_i hi c r _
      simp only [List.length_cons] at hn
      split at h
      · simp at h
      · rename_i x hx
        rw [Option.map_eq_some_iff] at h
        obtain ⟨⟨s', r'⟩, hs, he⟩ := h
        obtain ⟨rfl, rfl⟩ := Prod.mk.inj he
        obtain ⟨ts, is, f, dd, e⟩ := ih r none (by omega) (by simp) _ _ hs
        refine ⟨_ :: ts, _ :: is, .cons (item_unescape hx) f, ?_, by simp [e]⟩
        exact decoded_lone hh (by simp) (.char x is s' dd)
    · rename_i hi c r _ _
      simp only [List.length_cons] at hn
      split_ifs at h with h1 h2
      · obtain ⟨rfl, rfl⟩ := Prod.mk.inj (Option.some.inj h)
        subst h1
        exact ⟨[], [], .nil, decoded_lone hh (by simp) .nil, rfl⟩
      · rw [Option.map_eq_some_iff] at h
        obtain ⟨⟨s', r'⟩, hs, he⟩ := h
        obtain ⟨rfl, rfl⟩ := Prod.mk.inj he
        obtain ⟨ts, is, f, dd, e⟩ := ih r none (by omega) (by simp) _ _ hs
        rw [not_or, not_lt] at h2
        refine ⟨_ :: ts, _ :: is, .cons (.plain c h2.2 h1 h2.1) f, ?_, by simp [e]⟩
        exact decoded_lone hh (by simp) (.char c is s' dd)

theorem decoded_pend_inl {hi : Option Nat} (hh : ∀ h, hi = some h → High h) {c : Char} {l : List (Char ⊕ Nat)}
    {s : List Char} (h : Decoded (pend hi (.inl c :: l)) s) : ∃ s', Decoded l s' ∧ s = lone hi (c :: s') := by
  cases hi with
  | none => cases h with | char _ _ s' h => exact ⟨s', h, rfl⟩
  | some n =>
    have hn := hh n rfl
    cases h with
    | unit _ _ _ h1 => exact absurd hn h1
    | low _ _ _ h1 => exact absurd hn.2 (not_lt.2 h1.1)
    | high _ _ s' _ _ h => cases h with | char _ _ s' h => exact ⟨s', h, rfl⟩

theorem decoded_pend_nil {hi : Option Nat} (hh : ∀ h, hi = some h → High h) {s : List Char}
    (h : Decoded (pend hi []) s) : s = lone hi [] := by
  cases hi with
  | none => cases h; rfl
  | some n =>
    have hn := hh n rfl
    cases h with
    | unit _ _ _ h1 => exact absurd hn h1
    | low _ _ _ h1 => exact absurd hn.2 (not_lt.2 h1.1)
    | high _ _ s' _ _ h => cases h; rfl

theorem scanStr_unescape (hi : Option Nat) {c x : Char} (r : List Char) (hu : c ≠ 'u') (hx : unescape c = some x) :
    scanStr hi ('\\' :: c :: r) = (scanStr none r).map fun p => (lone hi (x :: p.1), p.2) := by
  rw [scanStr]
  · simp [hx]
  · intro a b c' d r' h; simp [hu] at h

theorem scanStr_complete {texts : List (List Char)} {items : List (Char ⊕ Nat)} (h : List.Forall₂ Item texts items) :
    ∀ (hi : Option Nat) (s rest : List Char), (∀ h, hi = some h → High h) → Decoded (pend hi items) s →
    scanStr hi (texts.flatten ++ '"' :: rest) = some (s, rest) := by
  induction h with
  | nil =>
    intro hi s rest hh hd
    rw [decoded_pend_nil hh hd, List.flatten_nil, List.nil_append, scanStr]
    · simp
    · intro a b c' d r' h; simp at h
    · intro c' r' h; simp at h
  | @cons t i ts is ht _ ih =>
    intro hi s rest hh hd
    rw [List.flatten_cons, List.append_assoc]
    have esc : ∀ c x, c ≠ 'u' → unescape c = some x → Decoded (pend hi (.inl x :: is)) s →
        scanStr hi (['\\', c] ++ (ts.flatten ++ '"' :: rest)) = some (s, rest) := by
      intro c x hu hx hd
      obtain ⟨s', h1, rfl⟩ := decoded_pend_inl hh hd
      rw [List.cons_append, List.cons_append, List.nil_append, scanStr_unescape hi _ hu hx, ih none s' rest (by simp) h1]
      rfl
    cases ht with
    | plain c h1 h2 h3 =>
      obtain ⟨s', h4, rfl⟩ := decoded_pend_inl hh hd
      rw [List.cons_append, List.nil_append, scanStr]
      · rw [if_neg h2, if_neg (by simp [h3, h1]), ih none s' rest (by simp) h4]; rfl
      · intro a b c' d r' h; simp [h3] at h
      · intro c' r' h; simp [h3] at h
    | quote => exact esc _ _ (by decide) rfl hd
    | backslash => exact esc _ _ (by decide) rfl hd
    | slash => exact esc _ _ (by decide) rfl hd
    | backspace => exact esc _ _ (by decide) rfl hd
    | formFeed => exact esc _ _ (by decide) rfl hd
    | newline => exact esc _ _ (by decide) rfl hd
    | carriageReturn => exact esc _ _ (by decide) rfl hd
    | tab => exact esc _ _ (by decide) rfl hd
    | unit a b c d x y z w hx hy hz hw =>
      have hk := hex4_iff.2 ⟨x, y, z, w, hx, hy, hz, hw, rfl⟩
      generalize 4096 * x + 256 * y + 16 * z + w = k at hk hd
      simp only [List.cons_append, List.nil_append]
      rw [scanStr, hk]
      cases hi with
      | none =>
        simp only
        cases hd with
        | unit _ _ s' h1 h2 h3 => rw [if_neg (show ¬ (_ ∧ _) from h1), if_neg (show ¬ (_ ∧ _) from h2), ih none s' rest (by simp) h3]; rfl
        | pair _ m l s' h1 h2 h3 =>
          rw [if_pos (show _ ∧ _ from h1)]
          exact ih (some k) _ rest (by rintro _ ⟨⟩; exact h1) (.pair k m l s' h1 h2 h3)
        | low _ _ s' h1 h2 =>
          rw [if_neg (show ¬ (_ ∧ _) from fun h => absurd h.2 (not_lt.2 h1.1)), if_pos (show _ ∧ _ from h1), ih none s' rest (by simp) h2]; rfl
        | high _ _ s' h1 h2 h3 =>
          rw [if_pos (show _ ∧ _ from h1)]
          exact ih (some k) _ rest (by rintro _ ⟨⟩; exact h1) (.high k is s' h1 h2 h3)
      | some m =>
        have hm := hh m rfl
        simp only
        cases hd with
        | unit _ _ _ h1 => exact absurd hm h1
        | low _ _ _ h1 => exact absurd hm.2 (not_lt.2 h1.1)
        | pair _ _ l s' h1 h2 h3 =>
          rw [if_pos (show _ ∧ _ from h2), ih none s' rest (by simp) h3, Nat.mul_comm 0x400]; rfl
        | high _ _ s' h1 h2 h3 =>
          have hl : ¬ Low k := h2 k is rfl
          rw [if_neg (show ¬ (_ ∧ _) from hl)]
          cases h3 with
          | unit _ _ s' h1 h2 h3 => rw [if_neg (show ¬ (_ ∧ _) from h1), ih none s' rest (by simp) h3]; rfl
          | pair _ m l s' h1 h4 h3 =>
            rw [if_pos (show _ ∧ _ from h1), ih (some k) _ rest (by rintro _ ⟨⟩; exact h1) (.pair k m l s' h1 h4 h3)]; rfl
          | low _ _ s' h1 h2 => exact absurd h1 hl
          | high _ _ s' h1 h2 h3 =>
            rw [if_pos (show _ ∧ _ from h1), ih (some k) _ rest (by rintro _ ⟨⟩; exact h1) (.high k is s' h1 h2 h3)]; rfl

theorem scanStr_str {r s rest : List Char} (h : scanStr none r = some (s, rest)) :
    ∃ t, '"' :: r = t ++ rest ∧ Str t s := by
  obtain ⟨ts, is, f, d, e⟩ := scanStr_sound r.length r none (le_refl _) (by simp) s rest h
  exact ⟨_, by simp [e], ts, is, f, d, rfl⟩

theorem noEscape_iff {r t rest : List Char} (h : '"' :: r = t ++ rest) (ht : t ≠ []) :
    noEscape r rest = true ↔ '\\' ∉ t := by
  cases t with
  | nil => exact absurd rfl ht
  | cons c t =>
    simp only [List.cons_append, List.cons.injEq] at h
    obtain ⟨rfl, rfl⟩ := h
    rw [noEscape, List.length_append, Nat.add_sub_cancel, List.take_left' rfl]
    simp

theorem Spec.Str.ne_nil {t s : List Char} (h : Str t s) : t ≠ [] := by
  obtain ⟨ts, is, f, d, rfl⟩ := h
  simp

theorem str_scanStr {t s : List Char} (h : Str t s) (rest : List Char) :
    ∃ r, t ++ rest = '"' :: r ∧ scanStr none r = some (s, rest) := by
  obtain ⟨ts, is, f, d, rfl⟩ := h
  exact ⟨ts.flatten ++ '"' :: rest, by simp, scanStr_complete f none s rest (by simp) d⟩

/-! ### Values -/

theorem scan_sound : ∀ n : Nat,
    (∀ d s v r, J.scan n d s = some (v, r) → ∃ a t, s = a ++ (t ++ r) ∧ Blank a ∧ Value d t v) ∧
    (∀ d s l r, J.scanElems n d s = some (l, r) → ∃ t, s = t ++ ']' :: r ∧ Elements d t l) ∧
    (∀ d s l r, J.scanMembers n d s = some (l, r) → ∃ t, s = t ++ '}' :: r ∧ Members d t l) := by
  intro n
  induction n with
  | zero => simp [J.scan, J.scanElems, J.scanMembers]
  | succ n ih =>
    obtain ⟨ih1, ih2, ih3⟩ := ih
    refine ⟨?_, ?_, ?_⟩
    · intro d s v r h
      obtain ⟨a, ha, hb⟩ := skipWs_sound s
      have fin : ∀ t, skipWs s = t ++ r → Value d t v → ∃ a t, s = a ++ (t ++ r) ∧ Blank a ∧ Value d t v :=
        fun t ht hv => ⟨a, t, by rw [← ht, ← ha], hb, hv⟩
      clear ha
      unfold J.scan at h
      split at h
      · simp at h
      · rename_i r' hs
        rw [Option.map_eq_some_iff] at h
        obtain ⟨⟨s', r''⟩, hs', he⟩ := h
        obtain ⟨rfl, rfl⟩ := Prod.mk.inj he
        obtain ⟨t, h1, h2⟩ := scanStr_str hs'
        exact fin t (by rw [hs, h1]) (.string d t s' _ h2 (noEscape_iff h1 h2.ne_nil))
      · rename_i r' hs
        split at h
        · simp at h
        · rename_i d
          obtain ⟨w, hw, hwb⟩ := skipWs_sound r'
          split at h
          · rename_i r'' hs'
            obtain ⟨rfl, rfl⟩ := Prod.mk.inj (Option.some.inj h)
            refine fin _ ?_ (.emptyArray d w hwb)
            rw [hs, hw, hs']; simp
          · rw [Option.map_eq_some_iff] at h
            obtain ⟨⟨l, r''⟩, hl, he⟩ := h
            obtain ⟨rfl, rfl⟩ := Prod.mk.inj he
            obtain ⟨t, ht, hE⟩ := ih2 d _ l r'' hl
            have hE' : Elements d (w ++ t) l := by
              cases hE with
              | last d a t b v h1 h2 h3 =>
                rw [← List.append_assoc]
                exact .last d _ t b v (by intro c hc; rcases List.mem_append.1 hc with hc | hc; exacts [hwb c hc, h1 c hc]) h2 h3
              | more d a t b u v l h1 h2 h3 h4 =>
                rw [← List.append_assoc]
                exact .more d _ t b u v l
                  (by intro c hc; rcases List.mem_append.1 hc with hc | hc; exacts [hwb c hc, h1 c hc]) h2 h3 h4
            refine fin _ ?_ (.array d _ l hE')
            rw [hs, hw, ht]; simp
      · rename_i r' hs
        split at h
        · simp at h
        · rename_i d
          obtain ⟨w, hw, hwb⟩ := skipWs_sound r'
          split at h
          · rename_i r'' hs'
            obtain ⟨rfl, rfl⟩ := Prod.mk.inj (Option.some.inj h)
            refine fin _ ?_ (.emptyObject d w hwb)
            rw [hs, hw, hs']; simp
          · rw [Option.map_eq_some_iff] at h
            obtain ⟨⟨l, r''⟩, hl, he⟩ := h
            obtain ⟨rfl, rfl⟩ := Prod.mk.inj he
            obtain ⟨t, ht, hE⟩ := ih3 d _ l r'' hl
            have hE' : Members d (w ++ t) l := by
              cases hE with
              | last d a k b c t e s v h1 h2 h3 h4 h5 h6 =>
                rw [← List.append_assoc]
                exact .last d _ k b c t e s v
                  (by intro c hc; rcases List.mem_append.1 hc with hc | hc; exacts [hwb c hc, h1 c hc]) h2 h3 h4 h5 h6
              | more d a k b c t e u s v l h1 h2 h3 h4 h5 h6 h7 =>
                rw [← List.append_assoc]
                exact .more d _ k b c t e u s v l
                  (by intro c hc; rcases List.mem_append.1 hc with hc | hc; exacts [hwb c hc, h1 c hc]) h2 h3 h4 h5 h6 h7
            refine fin _ ?_ (.object d _ l hE')
            rw [hs, hw, ht]; simp
      · rename_i r' hs
        obtain ⟨rfl, rfl⟩ := Prod.mk.inj (Option.some.inj h)
        exact fin _ (by rw [hs]; rfl) (.null d)
      · rename_i r' hs
        obtain ⟨rfl, rfl⟩ := Prod.mk.inj (Option.some.inj h)
        exact fin _ (by rw [hs]; rfl) (.true d)
      · rename_i r' hs
        obtain ⟨rfl, rfl⟩ := Prod.mk.inj (Option.some.inj h)
        exact fin _ (by rw [hs]; rfl) (.false d)
      · rename_i c r' hs
        rw [Option.map_eq_some_iff] at h
        obtain ⟨⟨t, r''⟩, hn, he⟩ := h
        obtain ⟨rfl, rfl⟩ := Prod.mk.inj he
        obtain ⟨h1, h2⟩ := scanNum_sound hn
        exact fin t (by rw [hs, h1]) (.number d t h2)
    · intro d s l r h
      unfold J.scanElems at h
      split at h
      · simp at h
      · rename_i v r1 hv
        obtain ⟨a, t, h1, h2, h3⟩ := ih1 d s v r1 hv
        obtain ⟨b, hb, hbb⟩ := skipWs_sound r1
        split at h
        · rename_i r2 hs
          obtain ⟨rfl, rfl⟩ := Prod.mk.inj (Option.some.inj h)
          exact ⟨_, by rw [h1, hb, hs]; simp, .last d a t b v h2 h3 hbb⟩
        · rename_i r2 hs
          rw [Option.map_eq_some_iff] at h
          obtain ⟨⟨l', r3⟩, hl, he⟩ := h
          obtain ⟨rfl, rfl⟩ := Prod.mk.inj he
          obtain ⟨u, hu, hE⟩ := ih2 d r2 l' r3 hl
          exact ⟨_, by rw [h1, hb, hs, hu]; simp, .more d a t b u v l' h2 h3 hbb hE⟩
        · simp at h
    · intro d s l r h
      unfold J.scanMembers at h
      obtain ⟨a, ha, hab⟩ := skipWs_sound s
      split at h
      · rename_i r0 hs0
        split at h
        · simp at h
        · rename_i k r1 hk
          obtain ⟨kt, hk1, hk2⟩ := scanStr_str hk
          obtain ⟨b, hb, hbb⟩ := skipWs_sound r1
          split at h
          · rename_i r2 hs2
            split at h
            · simp at h
            · rename_i v r3 hv
              obtain ⟨c, t, h1, h2, h3⟩ := ih1 d r2 v r3 hv
              obtain ⟨e, he, heb⟩ := skipWs_sound r3
              have hs : s = a ++ (kt ++ (b ++ ':' :: (c ++ (t ++ (e ++ skipWs r3))))) := by
                rw [ha, hs0, hk1, hb, hs2, h1, ← he]
              split at h
              · rename_i r4 hs4
                obtain ⟨rfl, rfl⟩ := Prod.mk.inj (Option.some.inj h)
                exact ⟨_, by rw [hs, hs4]; simp, .last d a kt b c t e k v hab hk2 hbb h2 h3 heb⟩
              · rename_i r4 hs4
                rw [Option.map_eq_some_iff] at h
                obtain ⟨⟨l', r5⟩, hl, hE⟩ := h
                obtain ⟨rfl, rfl⟩ := Prod.mk.inj hE
                obtain ⟨u, hu, hM⟩ := ih3 d r4 l' r5 hl
                exact ⟨_, by rw [hs, hs4, hu]; simp, .more d a kt b c t e u k v l' hab hk2 hbb h2 h3 heb hM⟩
              · simp at h
          · simp at h
      · simp at h

theorem number_head {t : List Char} (h : Number t) : ∃ c cs, t = c :: cs ∧ (c = '-' ∨ digitC c = true) := by
  obtain ⟨s, I, F, X, rfl, hs, hI0, hI, -⟩ := h
  obtain ⟨a, A, rfl⟩ := List.exists_cons_of_ne_nil hI0
  rcases hs with rfl | rfl
  · exact ⟨a, _, by simp; rfl, Or.inr (digits_of_allDigits hI a (by simp))⟩
  · exact ⟨'-', _, by simp; rfl, Or.inl rfl⟩

theorem value_head {d : Nat} {t : List Char} {v : J} (h : Value d t v) :
    ∃ c cs, t = c :: cs ∧ (c ≠ ' ' ∧ c ≠ '\t' ∧ c ≠ '\r' ∧ c ≠ '\n') ∧ c ≠ ']' ∧ c ≠ '}' := by
  cases h with
  | null => exact ⟨_, _, rfl, by decide⟩
  | true => exact ⟨_, _, rfl, by decide⟩
  | false => exact ⟨_, _, rfl, by decide⟩
  | number _ _ h =>
    obtain ⟨c, cs, rfl, hc⟩ := number_head h
    refine ⟨c, cs, rfl, ?_⟩
    rcases hc with rfl | hc
    · decide
    · exact ⟨⟨digitC_ne hc (by decide), digitC_ne hc (by decide), digitC_ne hc (by decide), digitC_ne hc (by decide)⟩,
        digitC_ne hc (by decide), digitC_ne hc (by decide)⟩
  | string _ _ s _ h =>
    obtain ⟨ts, is, -, -, rfl⟩ := h
    exact ⟨_, _, rfl, by decide⟩
  | emptyArray => exact ⟨_, _, rfl, by decide⟩
  | array => exact ⟨_, _, rfl, by decide⟩
  | emptyObject => exact ⟨_, _, rfl, by decide⟩
  | object => exact ⟨_, _, rfl, by decide⟩

theorem scan_number {n d : Nat} {s rest : List Char} (hs : Number s) (hr : Ends rest) :
    J.scan (n + 1) d (s ++ rest) = some (.num s, rest) := by
  have key := scanNum_complete hs hr
  obtain ⟨c, cs, rfl, hc⟩ := number_head hs
  have hne : ∀ x : Char, x ≠ '-' → digitC x = false → c ≠ x := by
    intro x hx hd; rcases hc with rfl | hc
    · exact Ne.symm hx
    · exact digitC_ne hc hd
  rw [List.cons_append] at key ⊢
  rw [J.scan, skipWs_ne _ ⟨hne _ (by decide) (by decide), hne _ (by decide) (by decide),
    hne _ (by decide) (by decide), hne _ (by decide) (by decide)⟩]
  split
  · rename_i h; simp at h
  · rename_i h; simp only [List.cons.injEq] at h; exact absurd h.1 (hne _ (by decide) (by decide))
  · rename_i h; simp only [List.cons.injEq] at h; exact absurd h.1 (hne _ (by decide) (by decide))
  · rename_i h; simp only [List.cons.injEq] at h; exact absurd h.1 (hne _ (by decide) (by decide))
  · rename_i h; simp only [List.cons.injEq] at h; exact absurd h.1 (hne _ (by decide) (by decide))
  · rename_i h; simp only [List.cons.injEq] at h; exact absurd h.1 (hne _ (by decide) (by decide))
  · rename_i h; simp only [List.cons.injEq] at h; exact absurd h.1 (hne _ (by decide) (by decide))
  · rename_i h; simp only [List.cons.injEq] at h; rw [← h.1, ← h.2, key]; rfl

theorem scan_skip (n d : Nat) (s : List Char) : J.scan n d (skipWs s) = J.scan n d s := by
  cases n with
  | zero => rfl
  | succ n => rw [J.scan, J.scan, skipWs_idem]

theorem scanElems_skip (n d : Nat) (s : List Char) : J.scanElems n d (skipWs s) = J.scanElems n d s := by
  cases n with
  | zero => rfl
  | succ n => rw [J.scanElems, J.scanElems, scan_skip]

theorem scanMembers_skip (n d : Nat) (s : List Char) : J.scanMembers n d (skipWs s) = J.scanMembers n d s := by
  cases n with
  | zero => rfl
  | succ n => rw [J.scanMembers, J.scanMembers, skipWs_idem]

theorem elements_head {d : Nat} {t : List Char} {l : List J} (h : Elements d t l) (rest : List Char) :
    ∃ c cs, skipWs (t ++ rest) = c :: cs ∧ c ≠ ']' := by
  have key : ∀ a u x, Blank a → (∃ v, Value d u v) → ∃ c cs, skipWs (a ++ (u ++ x)) = c :: cs ∧ c ≠ ']' := by
    rintro a u x ha ⟨v, hv⟩
    obtain ⟨c, cs, rfl, h1, h2, -⟩ := value_head hv
    exact ⟨c, cs ++ x, by rw [skipWs_blank ha, List.cons_append, skipWs_ne _ h1], h2⟩
  cases h with
  | last _ a t b v h1 h2 h3 => simpa using key a t (b ++ rest) h1 ⟨v, h2⟩
  | more _ a t b u v l h1 h2 h3 h4 => simpa using key a t (b ++ ',' :: (u ++ rest)) h1 ⟨v, h2⟩

theorem members_head {d : Nat} {t : List Char} {l : List (List Char × J)} (h : Members d t l) (rest : List Char) :
    ∃ c cs, skipWs (t ++ rest) = c :: cs ∧ c ≠ '}' := by
  have key : ∀ a k x, Blank a → (∃ s, Str k s) → ∃ c cs, skipWs (a ++ (k ++ x)) = c :: cs ∧ c ≠ '}' := by
    rintro a k x ha ⟨s, ts, is, -, -, rfl⟩
    exact ⟨'"', _, by rw [skipWs_blank ha, List.cons_append, skipWs_ne _ (by decide)], by decide⟩
  cases h with
  | last _ a k b c t e s v h1 h2 => simpa using key a k (b ++ ':' :: (c ++ (t ++ (e ++ rest)))) h1 ⟨s, h2⟩
  | more _ a k b c t e u s v l h1 h2 =>
    simpa using key a k (b ++ ':' :: (c ++ (t ++ (e ++ ',' :: (u ++ rest))))) h1 ⟨s, h2⟩

theorem scan_complete_all : ∀ n : Nat,
    (∀ d t v, Value d t v → ∀ (a rest : List Char), Blank a → Ends rest → 2 * t.length ≤ n →
      J.scan n d (a ++ (t ++ rest)) = some (v, rest)) ∧
    (∀ d t l, Elements d t l → ∀ rest : List Char, 2 * t.length + 1 ≤ n →
      J.scanElems n d (t ++ ']' :: rest) = some (l, rest)) ∧
    (∀ d t l, Members d t l → ∀ rest : List Char, 2 * t.length + 1 ≤ n →
      J.scanMembers n d (t ++ '}' :: rest) = some (l, rest)) := by
  intro n
  induction n with
  | zero =>
    refine ⟨?_, fun _ _ _ _ _ h => by omega, fun _ _ _ _ _ h => by omega⟩
    intro d t v h a rest _ _ hn
    obtain ⟨c, cs, rfl, -⟩ := value_head h
    simp only [List.length_cons] at hn; omega
  | succ n ih =>
    obtain ⟨ih1, ih2, ih3⟩ := ih
    refine ⟨?_, ?_, ?_⟩
    · intro d t v h a rest ha hr hn
      rw [← scan_skip, skipWs_blank ha, scan_skip]
      cases h with
      | null => simp [J.scan, skipWs]
      | true => simp [J.scan, skipWs]
      | false => simp [J.scan, skipWs]
      | number _ _ h => exact scan_number h hr
      | string _ _ s plain h hp =>
        obtain ⟨r, h1, h2⟩ := str_scanStr h rest
        have h3 : noEscape r rest = plain := Bool.eq_iff_iff.2 ((noEscape_iff h1.symm h.ne_nil).trans hp.symm)
        rw [h1, J.scan, skipWs_ne _ (by decide)]
        simp [h2, h3]
      | emptyArray d w h =>
        rw [List.cons_append, J.scan, skipWs_ne _ (by decide)]
        simp only [List.append_assoc, skipWs_blank h, List.cons_append, List.nil_append]
        simp [skipWs]
      | array d t l h =>
        simp only [List.length_cons, List.length_append, List.length_nil] at hn
        have key := ih2 d t l h rest (by omega)
        obtain ⟨c, cs, h1, h2⟩ := elements_head h (']' :: rest)
        rw [← scanElems_skip] at key
        rw [List.cons_append, J.scan, skipWs_ne _ (by decide)]
        simp only [List.append_assoc, List.cons_append, List.nil_append]
        split
        · rename_i h3; rw [h1] at h3; simp only [List.cons.injEq] at h3; exact absurd h3.1 h2
        · rw [key]; rfl
      | emptyObject d w h =>
        rw [List.cons_append, J.scan, skipWs_ne _ (by decide)]
        simp only [List.append_assoc, skipWs_blank h, List.cons_append, List.nil_append]
        simp [skipWs]
      | object d t l h =>
        simp only [List.length_cons, List.length_append, List.length_nil] at hn
        have key := ih3 d t l h rest (by omega)
        obtain ⟨c, cs, h1, h2⟩ := members_head h ('}' :: rest)
        rw [← scanMembers_skip] at key
        rw [List.cons_append, J.scan, skipWs_ne _ (by decide)]
        simp only [List.append_assoc, List.cons_append, List.nil_append]
        split
        · rename_i h3; rw [h1] at h3; simp only [List.cons.injEq] at h3; exact absurd h3.1 h2
        · rw [key]; rfl
    · intro d t l h rest hn
      cases h with
      | last _ a t b v h1 h2 h3 =>
        simp only [List.length_append] at hn
        have := ih1 d t v h2 a (b ++ ']' :: rest) h1 (ends_blank h3 (ends_cons _ (by simp))) (by omega)
        simp only [List.append_assoc, J.scanElems, this, skipWs_blank h3]
        simp [skipWs]
      | more _ a t b u v l h1 h2 h3 h4 =>
        simp only [List.length_append, List.length_cons] at hn
        have := ih1 d t v h2 a (b ++ ',' :: (u ++ ']' :: rest)) h1 (ends_blank h3 (ends_cons _ (by simp))) (by omega)
        have h5 := ih2 d u l h4 rest (by omega)
        simp only [List.append_assoc, List.cons_append, J.scanElems, this, skipWs_blank h3]
        simp [skipWs, h5]
    · intro d t l h rest hn
      cases h with
      | last _ a k b c t e s v h1 h2 h3 h4 h5 h6 =>
        simp only [List.length_append, List.length_cons] at hn
        have hv := ih1 d t v h5 c (e ++ '}' :: rest) h4 (ends_blank h6 (ends_cons _ (by simp))) (by omega)
        obtain ⟨r, hr1, hr2⟩ := str_scanStr h2 (b ++ ':' :: (c ++ (t ++ (e ++ '}' :: rest))))
        simp only [List.append_assoc, List.cons_append, J.scanMembers, skipWs_blank h1, hr1]
        rw [skipWs_ne _ (by decide)]
        simp only [hr2, skipWs_blank h3]
        rw [skipWs_ne _ (by decide)]
        simp only [hv, skipWs_blank h6]
        simp [skipWs]
      | more _ a k b c t e u s v l h1 h2 h3 h4 h5 h6 h7 =>
        simp only [List.length_append, List.length_cons] at hn
        have hv := ih1 d t v h5 c (e ++ ',' :: (u ++ '}' :: rest)) h4 (ends_blank h6 (ends_cons _ (by simp))) (by omega)
        have hm := ih3 d u l h7 rest (by omega)
        obtain ⟨r, hr1, hr2⟩ := str_scanStr h2 (b ++ ':' :: (c ++ (t ++ (e ++ ',' :: (u ++ '}' :: rest)))))
        simp only [List.append_assoc, List.cons_append, J.scanMembers, skipWs_blank h1, hr1]
        rw [skipWs_ne _ (by decide)]
        simp only [hr2, skipWs_blank h3]
        rw [skipWs_ne _ (by decide)]
        simp only [hv, skipWs_blank h6]
        simp [skipWs, hm]

theorem scan_complete {d : Nat} {t : List Char} {v : J} (h : Value d t v) (n : Nat) (a rest : List Char) (ha : Blank a)
    (hr : Ends rest) (hn : 2 * t.length ≤ n) : J.scan n d (a ++ (t ++ rest)) = some (v, rest) :=
  (scan_complete_all n).1 d t v h a rest ha hr hn

/-- C170: what is read from a text is what the grammar says. -/
theorem C170_meaning (s : List Char) (j : J) : J.parse s = some j ↔ IsJson s j := by
  constructor
  · intro h
    unfold J.parse at h
    split at h
    · rename_i v r hs
      split_ifs at h with hr
      obtain rfl := Option.some.inj h
      obtain ⟨a, t, h1, h2, h3⟩ := (scan_sound _).1 _ _ _ _ hs
      obtain ⟨b, hb, hbb⟩ := skipWs_sound r
      rw [hr, List.append_nil] at hb
      exact ⟨a, t, b, by rw [h1, hb], h2, h3, hbb⟩
    · simp at h
  · rintro ⟨a, t, b, rfl, h1, h2, h3⟩
    have := scan_complete h2 (2 * (a ++ (t ++ b)).length + 2) a b h1
      (by simpa using ends_blank h3 ends_nil) (by simp only [List.length_append]; omega)
    unfold J.parse
    rw [this]
    simp [skipWs_all h3]

/-- C170: a text has one meaning at most. -/
theorem C170_unique {s : List Char} {j k : J} (hj : IsJson s j) (hk : IsJson s k) : j = k := by
  rw [← C170_meaning] at hj hk
  exact Option.some.inj (hj.symm.trans hk)

/-- C170: reading goes by the meaning of the text. -/
theorem C170_reads {α : Type} (c : Codec α) (old : α) {s : List Char} {j : J} (h : IsJson s j) :
    c.unmarshal old s = ((c.dec old j).1, decide ((c.dec old j).2 ≠ .none)) := by
  unfold Codec.unmarshal
  rw [(C170_meaning s j).2 h]

/-- C170: a text that is not JSON is an error and changes nothing. -/
theorem C170_rejects {α : Type} (c : Codec α) (old : α) {s : List Char} (h : ∀ j, ¬ IsJson s j) :
    c.unmarshal old s = (old, true) := by
  unfold Codec.unmarshal
  cases hp : J.parse s with
  | none => rfl
  | some j => exact absurd ((C170_meaning s j).1 hp) (h j)

example : ∃ j, IsJson " {\"a\\u00e9\": [1.5e3, null]}\n".toList j ∧ j.emit true = "{\"aé\":[1.5e3,null]}".toList := by
  have h : (J.parse " {\"a\\u00e9\": [1.5e3, null]}\n".toList).map (J.emit true) =
      some "{\"aé\":[1.5e3,null]}".toList := by decide +kernel
  obtain ⟨j, h1, h2⟩ := Option.map_eq_some_iff.1 h
  exact ⟨j, (C170_meaning _ _).1 h1, h2⟩

example : ∀ j, ¬ IsJson "[1,]".toList j := by
  intro j h
  have h1 : (J.parse "[1,]".toList).isNone = true := by decide +kernel
  rw [(C170_meaning _ _).2 h] at h1
  simp at h1

end Finmod.Json
