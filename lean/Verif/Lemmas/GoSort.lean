import Verif.Go.Sort
import Mathlib.Order.Defs.LinearOrder
import Mathlib.Data.List.Perm.Basic
import Mathlib.Tactic.Ring
import Mathlib.Data.Nat.Basic

/-!
# The library's stable sort is a stable sort

Every step only swaps, so the elements stay the same (for any comparison); if the comparison is that of
keys in a linear order, the result is sorted and elements with equal keys stay in order.
-/

namespace Go.Sort

variable {α κ : Type} [LinearOrder κ]

/-- Sorted by key. -/
def SortedBy (k : α → κ) (l : List α) : Prop := l.Pairwise fun x y => k x ≤ k y

/-- The elements of every key are the same, in the same order. -/
def SameByKey (k : α → κ) (l l' : List α) : Prop :=
  ∀ c, l.filter (fun x => decide (k x = c)) = l'.filter (fun x => decide (k x = c))

theorem SameByKey.refl (k : α → κ) (l : List α) : SameByKey k l l := fun _ => rfl

theorem SameByKey.trans {k : α → κ} {l l' l'' : List α} (h : SameByKey k l l') (h' : SameByKey k l' l'') :
    SameByKey k l l'' := fun c => (h c).trans (h' c)

theorem SameByKey.symm {k : α → κ} {l l' : List α} (h : SameByKey k l l') : SameByKey k l' l := fun c => (h c).symm

theorem SameByKey.append {k : α → κ} {a a' b b' : List α} (h : SameByKey k a a') (h' : SameByKey k b b') :
    SameByKey k (a ++ b) (a' ++ b') := fun c => by
  rw [List.filter_append, List.filter_append, h c, h' c]

/-- Neighbouring stretches without a common key may change places. -/
theorem SameByKey.swap {k : α → κ} {a b : List α} (h : ∀ x ∈ a, ∀ y ∈ b, k x ≠ k y) :
    SameByKey k (a ++ b) (b ++ a) := fun c => by
  rw [List.filter_append, List.filter_append]
  by_cases hc : ∃ x ∈ a, k x = c
  · obtain ⟨x, hx, rfl⟩ := hc
    have : b.filter (fun y => decide (k y = k x)) = [] := by
      rw [List.filter_eq_nil_iff]
      intro y hy; simpa using (h x hx y hy).symm
    simp [this]
  · have : a.filter (fun y => decide (k y = c)) = [] := by
      rw [List.filter_eq_nil_iff]
      intro y hy; simpa using fun e => hc ⟨y, hy, e⟩
    simp [this]

/-- A sorted list is determined by the elements of every key. -/
theorem sorted_unique {k : α → κ} : ∀ {l l' : List α}, SortedBy k l → SortedBy k l' → SameByKey k l l' → l = l'
  | [], [], _, _, _ => rfl
  | [], y :: l', _, _, h => by have := h (k y); simp at this
  | x :: l, [], _, _, h => by have := h (k x); simp at this
  | x :: l, y :: l', hs, hs', h => by
    obtain ⟨h1, h2⟩ := List.pairwise_cons.1 hs
    obtain ⟨h1', h2'⟩ := List.pairwise_cons.1 hs'
    have hx : ∃ z ∈ y :: l', k z = k x := by
      have := h (k x)
      have hm : x ∈ (x :: l).filter (fun z => decide (k z = k x)) := by simp
      rw [this] at hm
      exact ⟨x, (List.mem_filter.1 hm).1, rfl⟩
    have hy : ∃ z ∈ x :: l, k z = k y := by
      have := h (k y)
      have hm : y ∈ (y :: l').filter (fun z => decide (k z = k y)) := by simp
      rw [← this] at hm
      exact ⟨y, (List.mem_filter.1 hm).1, rfl⟩
    have e : k x = k y := by
      apply le_antisymm
      · obtain ⟨z, hz, e⟩ := hy
        rw [← e]
        rcases List.mem_cons.1 hz with rfl | hz
        · exact le_refl _
        · exact h1 z hz
      · obtain ⟨z, hz, e⟩ := hx
        rw [← e]
        rcases List.mem_cons.1 hz with rfl | hz
        · exact le_refl _
        · exact h1' z hz
    have e2 : x = y := by
      have := h (k x)
      rw [List.filter_cons_of_pos (by simp), List.filter_cons_of_pos (by simp [e])] at this
      exact (List.cons.inj this).1
    subst e2
    rw [sorted_unique h2 h2' fun c => by
      have := h c
      by_cases hc : k x = c
      · rw [List.filter_cons_of_pos (by simp [hc]), List.filter_cons_of_pos (by simp [hc])] at this
        exact (List.cons.inj this).2
      · rwa [List.filter_cons_of_neg (by simp [hc]), List.filter_cons_of_neg (by simp [hc])] at this]

/-! ### Swaps -/

theorem get_at (P : List α) (x : α) (Q : List α) {i : Nat} (hi : i = P.length) : (P ++ x :: Q)[i]? = some x := by
  subst hi; simp

theorem swap?_at (P : List α) (x : α) (Q : List α) (y : α) (R : List α) {i j : Nat} (hi : i = P.length)
    (hj : j = P.length + 1 + Q.length) :
    swap? (P ++ x :: (Q ++ y :: R)) i j = some (P ++ y :: (Q ++ x :: R)) := by
  have e2 : (P ++ x :: (Q ++ y :: R)) = (P ++ x :: Q) ++ y :: R := by simp
  unfold swap?
  rw [get_at P x _ hi, e2, get_at (P ++ x :: Q) y R (by simp; omega), ← e2]
  subst hi
  have e3 : (P ++ x :: (Q ++ y :: R)).set P.length y = (P ++ y :: Q) ++ y :: R := by simp
  simp only [e3]
  have : j = (P ++ y :: Q).length := by simp; omega
  rw [this]
  simp

/-- The swap with the indices the other way round. -/
theorem swap?_at' (P : List α) (x : α) (Q : List α) (y : α) (R : List α) {i j : Nat} (hi : i = P.length)
    (hj : j = P.length + 1 + Q.length) :
    swap? (P ++ x :: (Q ++ y :: R)) j i = some (P ++ y :: (Q ++ x :: R)) := by
  have e2 : (P ++ x :: (Q ++ y :: R)) = (P ++ x :: Q) ++ y :: R := by simp
  unfold swap?
  rw [get_at P x _ hi, e2, get_at (P ++ x :: Q) y R (by simp; omega), ← e2]
  simp only
  have hj' : j = (P ++ x :: Q).length := by simp; omega
  rw [e2, hj', List.set_append_right _ _ (le_refl _), Nat.sub_self, List.set_cons_zero, hi]
  simp

theorem swapRange_at : ∀ (X Y P Q R : List α) {a b : Nat}, X.length = Y.length → a = P.length →
    b = P.length + X.length + Q.length →
    swapRange (P ++ X ++ Q ++ Y ++ R) a b X.length = some (P ++ Y ++ Q ++ X ++ R)
  | [], [], P, Q, R, a, b, _, _, _ => by simp [swapRange]
  | [], _ :: _, _, _, _, _, _, h, _, _ => by simp at h
  | _ :: _, [], _, _, _, _, _, h, _, _ => by simp at h
  | x :: X, y :: Y, P, Q, R, a, b, h, ha, hb => by
    have hl : X.length = Y.length := by simpa using h
    have e : P ++ (x :: X) ++ Q ++ (y :: Y) ++ R = P ++ x :: ((X ++ Q) ++ y :: (Y ++ R)) := by simp
    rw [e, List.length_cons, swapRange, swap?_at P x (X ++ Q) y (Y ++ R) ha (by simp at hb ⊢; omega)]
    have ih := swapRange_at X Y (P ++ [y]) (Q ++ [x]) R (a := a + 1) (b := b + 1) hl (by simp [ha])
      (by simp at hb ⊢; omega)
    have e2 : P ++ y :: ((X ++ Q) ++ x :: (Y ++ R)) = (P ++ [y]) ++ X ++ (Q ++ [x]) ++ Y ++ R := by simp
    rw [e2]
    simp only [ih]
    simp

theorem rotateLoop_at (m : Nat) : ∀ (fuel : Nat) (X Y P R : List α), X ≠ [] → Y ≠ [] → X.length + Y.length ≤ fuel →
    m = P.length + X.length →
    rotateLoop m fuel X.length Y.length (P ++ X ++ Y ++ R) = some (P ++ Y ++ X ++ R)
  | 0, X, Y, _, _, hX, _, hf, _ => by
    exact absurd (List.length_eq_zero_iff.1 (by omega)) hX
  | fuel + 1, X, Y, P, R, hX, hY, hf, hm => by
    have lx : 0 < X.length := List.length_pos_iff.2 hX
    have ly : 0 < Y.length := List.length_pos_iff.2 hY
    unfold rotateLoop
    by_cases c1 : X.length = Y.length
    · rw [if_pos c1]
      have := swapRange_at X Y P [] R (a := m - X.length) (b := m) c1 (by omega) (by simp; omega)
      simpa using this
    · rw [if_neg c1]
      by_cases c2 : X.length > Y.length
      · rw [if_pos c2]
        obtain ⟨X1, X2, rfl, h1⟩ : ∃ X1 X2, X = X1 ++ X2 ∧ X1.length = Y.length :=
          ⟨X.take Y.length, X.drop Y.length, (List.take_append_drop _ _).symm, by simp; omega⟩
        have s := swapRange_at X1 Y P X2 R (a := m - (X1 ++ X2).length) (b := m) h1 (by omega) (by simp at hm ⊢; omega)
        rw [h1] at s
        rw [show P ++ (X1 ++ X2) ++ Y ++ R = P ++ X1 ++ X2 ++ Y ++ R by simp, s]
        have h2 : (X1 ++ X2).length - Y.length = X2.length := by simp; omega
        have hX2 : X2 ≠ [] := by rintro rfl; simp at c2; omega
        have hX1 : X1 ≠ [] := by rintro rfl; simp at h1; omega
        have ih := rotateLoop_at m fuel X2 X1 (P ++ Y) R hX2 hX1 (by simp at hf; omega)
          (by simp at hm ⊢; omega)
        simp only
        rw [h2, ← h1]
        simpa using ih
      · rw [if_neg c2]
        obtain ⟨Y1, Y2, rfl, h1⟩ : ∃ Y1 Y2, Y = Y1 ++ Y2 ∧ Y2.length = X.length :=
          ⟨Y.take (Y.length - X.length), Y.drop (Y.length - X.length), (List.take_append_drop _ _).symm, by simp; omega⟩
        have s := swapRange_at X Y2 P Y1 R (a := m - X.length) (b := m + (Y1 ++ Y2).length - X.length) h1.symm (by omega)
          (by simp at hm ⊢; omega)
        rw [show P ++ X ++ (Y1 ++ Y2) ++ R = P ++ X ++ Y1 ++ Y2 ++ R by simp, s]
        have h2 : (Y1 ++ Y2).length - X.length = Y1.length := by simp; omega
        have hY1 : Y1 ≠ [] := by rintro rfl; simp at c2 c1; omega
        have hY2 : Y2 ≠ [] := by rintro rfl; simp at h1; omega
        have ih := rotateLoop_at m fuel Y2 Y1 P (X ++ R) hY2 hY1 (by simp at hf; omega)
          (by omega)
        simp only
        rw [h2, ← h1]
        simpa using ih

theorem rotate_at (X Y P R : List α) {a m b : Nat} (hX : X ≠ []) (hY : Y ≠ []) (ha : a = P.length)
    (hm : m = a + X.length) (hb : b = m + Y.length) :
    rotate a m b (P ++ X ++ Y ++ R) = some (P ++ Y ++ X ++ R) := by
  unfold rotate
  have e1 : m - a = X.length := by omega
  have e2 : b - m = Y.length := by omega
  rw [e1, e2]
  exact rotateLoop_at m _ X Y P R hX hY (by omega) (by omega)

theorem carryUp_at : ∀ (X P R : List α) (x : α) {k : Nat}, k = P.length →
    carryUp X.length k (P ++ x :: (X ++ R)) = some (P ++ X ++ x :: R)
  | [], P, R, x, k, _ => by simp [carryUp]
  | y :: X, P, R, x, k, hk => by
    have s := swap?_at P x [] y (X ++ R) (i := k) (j := k + 1) hk (by simp [hk])
    rw [List.length_cons, carryUp]
    simp only [List.nil_append] at s
    rw [List.cons_append, s]
    have ih := carryUp_at X (P ++ [y]) R x (k := k + 1) (by simp [hk])
    simp only
    simpa using ih

theorem carryDown_at (i : Nat) : ∀ (n : Nat) (X P R : List α) (x : α) {k : Nat}, X.length = n → i = P.length → k = i + X.length →
    carryDown i k (P ++ X ++ x :: R) = some (P ++ x :: (X ++ R))
  | 0, X, P, R, x, k, hX, hi, hk => by
    obtain rfl := List.length_eq_zero_iff.1 hX
    cases k with
    | zero => simp [carryDown]
    | succ k => rw [carryDown, if_neg (by simp at hk; omega)]; simp
  | n + 1, X, P, R, x, k, hX, hi, hk => by
    obtain ⟨X0, y, rfl⟩ : ∃ X0 y, X = X0 ++ [y] := by
      rcases List.eq_nil_or_concat X with rfl | ⟨X0, y, rfl⟩
      · simp at hX
      · exact ⟨X0, y, by simp⟩
    cases k with
    | zero => simp at hk
    | succ k =>
      rw [carryDown, if_pos (by simp at hk; omega)]
      have s := swap?_at' (P ++ X0) y [] x R (i := k) (j := k + 1) (by simp at hk ⊢; omega) (by simp at hk ⊢; omega)
      rw [show P ++ (X0 ++ [y]) ++ x :: R = P ++ X0 ++ y :: ([] ++ x :: R) by simp, s]
      have ih := carryDown_at i n X0 P (y :: R) x (k := k) (by simpa using hX) hi (by simp at hk; omega)
      simp only [List.nil_append]
      rw [ih]; simp

/-! ### The binary search -/

theorem search_spec {f : Nat → Option Bool} : ∀ (fuel i j : Nat), i ≤ j → j - i ≤ fuel →
    (∀ h, i ≤ h → h < j → ∃ v, f h = some v) →
    ∃ s, search f fuel i j = some s ∧ i ≤ s ∧ s ≤ j ∧
      ((∀ x y, i ≤ x → x < y → y < j → f y = some true → f x = some true) →
        (∀ x, i ≤ x → x < s → f x = some true) ∧ ∀ x, s ≤ x → x < j → f x = some false)
  | 0, i, j, hij, hf, _ => by
    refine ⟨i, ?_, le_refl _, hij, fun _ => ⟨fun x _ _ => by omega, fun x _ _ => by omega⟩⟩
    unfold search
    rw [if_neg (by omega)]
  | fuel + 1, i, j, hij, hf, hd => by
    unfold search
    by_cases c : i < j
    · rw [if_pos c]
      have h1 : i ≤ (i + j) / 2 := by omega
      have h2 : (i + j) / 2 < j := by omega
      obtain ⟨v, hv⟩ := hd _ h1 h2
      generalize (i + j) / 2 = h at *
      rw [hv]
      cases v with
      | true =>
        obtain ⟨s, e, a, b, g⟩ := search_spec fuel (h + 1) j (by omega) (by omega) fun x _ _ => hd x (by omega) (by omega)
        refine ⟨s, e, by omega, b, fun mono => ?_⟩
        obtain ⟨g1, g2⟩ := g fun x y _ _ _ hy => mono x y (by omega) (by omega) (by omega) hy
        refine ⟨fun x _ _ => ?_, g2⟩
        rcases lt_trichotomy x h with hx | rfl | hx
        · exact mono x h (by omega) hx h2 hv
        · exact hv
        · exact g1 x (by omega) (by omega)
      | false =>
        obtain ⟨s, e, a, b, g⟩ := search_spec fuel i h (by omega) (by omega) fun x _ _ => hd x (by omega) (by omega)
        refine ⟨s, e, a, by omega, fun mono => ?_⟩
        obtain ⟨g1, g2⟩ := g fun x y _ _ _ hy => mono x y (by omega) (by omega) (by omega) hy
        refine ⟨g1, fun x _ _ => ?_⟩
        rcases lt_trichotomy x h with hx | rfl | hx
        · exact g2 x (by omega) hx
        · exact hv
        · obtain ⟨w, hw⟩ := hd x (by omega) (by omega)
          cases w with
          | false => exact hw
          | true => have := mono h x h1 hx (by omega) hw; rw [hv] at this; cases this
    · rw [if_neg c]
      exact ⟨i, rfl, le_refl _, hij, fun _ => ⟨fun x _ _ => by omega, fun x _ _ => by omega⟩⟩

/-! ### Insertion sort -/

/-- On elements satisfying `Q` the comparison is that of the keys. -/
def Compares (lt : α → α → Bool) (k : α → κ) (Q : α → Prop) : Prop := ∀ x y, Q x → Q y → (lt x y = true ↔ k x < k y)

theorem Compares.false {lt : α → α → Bool} {k : α → κ} {Q : α → Prop} (h : Compares lt k Q) {x y : α} (hx : Q x) (hy : Q y) :
    lt x y = false ↔ k y ≤ k x := by
  rw [← not_lt, ← h x y hx hy]; simp

theorem less?_at {lt : α → α → Bool} {l : List α} {i j : Nat} {x y : α} (hi : l[i]? = some x) (hj : l[j]? = some y) :
    less? lt l i j = some (lt x y) := by
  unfold less?; rw [hi, hj]

theorem sink_at (lt : α → α → Bool) (a : Nat) : ∀ (n : Nat) (S P T : List α) (x : α) {j : Nat}, S.length = n → a = P.length →
    j = a + S.length →
    ∃ S1 S2, S = S1 ++ S2 ∧ sink lt a j (P ++ S ++ x :: T) = some (P ++ S1 ++ x :: (S2 ++ T)) ∧
      (∀ z ∈ S2, lt x z = true) ∧ ∀ z, S1.getLast? = some z → lt x z = false
  | 0, S, P, T, x, j, hS, ha, hj => by
    obtain rfl := List.length_eq_zero_iff.1 hS
    refine ⟨[], [], rfl, ?_, by simp, by simp⟩
    cases j with
    | zero => simp [sink]
    | succ j => rw [sink, if_neg (by simp at hj; omega)]; simp
  | n + 1, S, P, T, x, j, hS, ha, hj => by
    obtain ⟨S0, y, rfl⟩ : ∃ S0 y, S = S0 ++ [y] := by
      rcases List.eq_nil_or_concat S with rfl | ⟨S0, y, rfl⟩
      · simp at hS
      · exact ⟨S0, y, by simp⟩
    cases j with
    | zero => simp at hj
    | succ j =>
      have e : P ++ (S0 ++ [y]) ++ x :: T = (P ++ S0) ++ y :: ([] ++ x :: T) := by simp
      have hj' : j = (P ++ S0).length := by simp at hj ⊢; omega
      have g1 : (P ++ (S0 ++ [y]) ++ x :: T)[j]? = some y := by rw [e]; exact get_at _ _ _ hj'
      have g2 : (P ++ (S0 ++ [y]) ++ x :: T)[j + 1]? = some x := get_at _ _ _ (by simp at hj' ⊢; omega)
      rw [sink, if_pos (by simp at hj; omega), less?_at g2 g1]
      cases hlt : lt x y with
      | false =>
        refine ⟨S0 ++ [y], [], by simp, by simp, by simp, ?_⟩
        intro z hz
        simp at hz
        rw [← hz]; exact hlt
      | true =>
        rw [e, swap?_at' (P ++ S0) y [] x T hj' (by simp at hj' ⊢; omega)]
        obtain ⟨S1, S2, rfl, h2, h3, h4⟩ := sink_at lt a n S0 P (y :: T) x (j := j) (by simpa using hS) ha (by simp at hj; omega)
        refine ⟨S1, S2 ++ [y], by simp, ?_, ?_, h4⟩
        · simp only [List.nil_append]
          rw [h2]; simp
        · intro z hz
          rcases List.mem_append.1 hz with hz | hz
          · exact h3 z hz
          · rw [List.mem_singleton.1 hz]; exact hlt

/-- What a sorting step gives: the same elements; with keys, sorted and with equal keys in order. -/
def Sorts (lt : α → α → Bool) (k : α → κ) (pre : Prop) (A C : List α) : Prop :=
  C.Perm A ∧ ∀ Q : α → Prop, Compares lt k Q → (∀ x ∈ A, Q x) → pre → SortedBy k C ∧ SameByKey k A C

theorem insertionLoop_at (lt : α → α → Bool) (k : α → κ) (a : Nat) : ∀ (T S P R : List α) {i : Nat}, a = P.length → i = a + S.length →
    ∃ C, insertionLoop lt a T.length i (P ++ S ++ T ++ R) = some (P ++ C ++ R) ∧ Sorts lt k (SortedBy k S) (S ++ T) C
  | [], S, P, R, i, _, _ => ⟨S, by simp [insertionLoop], by simp, fun _ _ _ h => ⟨h, by simpa using SameByKey.refl k S⟩⟩
  | x :: T, S, P, R, i, ha, hi => by
    obtain ⟨S1, S2, rfl, h2, h3, h4⟩ := sink_at lt a S.length S P (T ++ R) x (j := i) rfl ha hi
    rw [List.length_cons, insertionLoop, show P ++ (S1 ++ S2) ++ x :: T ++ R = P ++ (S1 ++ S2) ++ x :: (T ++ R) by simp, h2]
    obtain ⟨C, e, hp, hs⟩ := insertionLoop_at lt k a T (S1 ++ x :: S2) P R (i := i + 1) ha (by simp at hi ⊢; omega)
    have perm : (S1 ++ x :: S2 ++ T).Perm (S1 ++ S2 ++ x :: T) := by
      have h1 : (S1 ++ x :: S2 ++ T).Perm (x :: (S1 ++ S2 ++ T)) := by
        simp
      exact h1.trans (List.perm_middle (l₁ := S1 ++ S2)).symm
    refine ⟨C, ?_, hp.trans perm, fun Q hQ hA hS => ?_⟩
    · simp only
      rw [← e]; simp
    · have hA' : ∀ y ∈ S1 ++ x :: S2 ++ T, Q y := fun y hy => hA y (perm.mem_iff.1 hy)
      have qx : Q x := hA x (by simp)
      have k1 : ∀ y ∈ S1, k y ≤ k x := by
        intro y hy
        rcases List.eq_nil_or_concat S1 with rfl | ⟨S0, z, rfl⟩
        · cases hy
        · have hz : k z ≤ k x := (hQ.false qx (hA z (by simp))).1 (h4 z (by simp))
          rw [List.concat_eq_append] at hy
          rcases List.mem_append.1 hy with hy | hy
          · refine le_trans ?_ hz
            have := (List.pairwise_append.1 hS).1
            rw [List.concat_eq_append] at this
            exact (List.pairwise_append.1 this).2.2 y hy z (by simp)
          · rw [List.mem_singleton.1 hy]; exact hz
      have k2 : ∀ y ∈ S2, k x < k y := fun y hy => (hQ x y qx (hA y (by simp [hy]))).1 (h3 y hy)
      have hS' : SortedBy k (S1 ++ x :: S2) := by
        unfold SortedBy at hS ⊢
        rw [List.pairwise_append] at hS ⊢
        refine ⟨hS.1, List.pairwise_cons.2 ⟨fun y hy => (k2 y hy).le, hS.2.1⟩, fun y hy z hz => ?_⟩
        rcases List.mem_cons.1 hz with rfl | hz
        · exact k1 y hy
        · exact hS.2.2 y hy z hz
      obtain ⟨r1, r2⟩ := hs Q hQ hA' hS'
      refine ⟨r1, SameByKey.trans ?_ r2⟩
      have sw : SameByKey k (S2 ++ [x]) ([x] ++ S2) := SameByKey.swap fun y hy z hz => by
        rw [List.mem_singleton.1 hz]; exact (k2 y hy).ne'
      have := ((SameByKey.refl k S1).append sw).append (SameByKey.refl k T)
      simpa using this

theorem insertionSort_at (lt : α → α → Bool) (k : α → κ) (A P R : List α) {a b : Nat} (ha : a = P.length) (hb : b = a + A.length) :
    ∃ C, insertionSort lt a b (P ++ A ++ R) = some (P ++ C ++ R) ∧ Sorts lt k True A C := by
  unfold insertionSort
  cases A with
  | nil =>
    refine ⟨[], ?_, List.Perm.refl _, fun _ _ _ _ => ⟨List.Pairwise.nil, SameByKey.refl k _⟩⟩
    rw [show b - (a + 1) = 0 by simp at hb; omega]; simp [insertionLoop]
  | cons x A =>
    obtain ⟨C, e, hp, hs⟩ := insertionLoop_at lt k a A [x] P R (i := a + 1) ha (by simp)
    refine ⟨C, ?_, by simpa using hp, fun Q hQ hA _ => by
      have := hs Q hQ (by simpa using hA) (List.pairwise_singleton _ _)
      simpa using this⟩
    rw [show b - (a + 1) = A.length by simp at hb; omega, ← e]
    simp

/-! ### SymMerge -/

theorem sorted_get {k : α → κ} {A : List α} (h : SortedBy k A) {i j : Nat} (hij : i ≤ j) {x y : α} (hx : A[i]? = some x)
    (hy : A[j]? = some y) : k x ≤ k y := by
  rcases Nat.lt_or_ge i j with hlt | hge
  · obtain ⟨h1, rfl⟩ := List.getElem?_eq_some_iff.1 hx
    obtain ⟨h2, rfl⟩ := List.getElem?_eq_some_iff.1 hy
    exact List.pairwise_iff_getElem.1 h i j h1 h2 hlt
  · have : i = j := by omega
    subst this
    rw [hx] at hy; cases hy; exact le_refl _

theorem mem_take_get {A : List α} {d : Nat} {x : α} (h : x ∈ A.take d) : ∃ i, i < d ∧ A[i]? = some x := by
  obtain ⟨i, hi⟩ := List.mem_iff_getElem?.1 h
  rw [List.getElem?_take] at hi
  split at hi
  · exact ⟨i, by assumption, hi⟩
  · cases hi

theorem mem_drop_get {A : List α} {d : Nat} {x : α} (h : x ∈ A.drop d) : ∃ i, d ≤ i ∧ A[i]? = some x := by
  obtain ⟨i, hi⟩ := List.mem_iff_getElem?.1 h
  rw [List.getElem?_drop] at hi
  exact ⟨d + i, by omega, hi⟩

theorem get_left (P A B R : List α) {h : Nat} (h1 : P.length ≤ h) (h2 : h < P.length + A.length) :
    (P ++ A ++ B ++ R)[h]? = A[h - P.length]? := by
  rw [List.append_assoc, List.getElem?_append_left (by simp; omega), List.getElem?_append_right h1]

theorem get_right (P A B R : List α) {h : Nat} (h1 : P.length + A.length ≤ h) (h2 : h < P.length + A.length + B.length) :
    (P ++ A ++ B ++ R)[h]? = B[h - (P.length + A.length)]? := by
  rw [List.getElem?_append_left (by simp; omega), List.getElem?_append_right (by simp; omega)]
  simp

theorem get_some {A : List α} {i : Nat} (h : i < A.length) : ∃ x, A[i]? = some x :=
  ⟨A[i], List.getElem?_eq_getElem h⟩

theorem symMerge_at (lt : α → α → Bool) (k : α → κ) : ∀ (fuel : Nat) (A B P R : List α) {a m b : Nat}, A ≠ [] → B ≠ [] →
    a = P.length → m = a + A.length → b = m + B.length → A.length + B.length ≤ fuel →
    ∃ C, symMerge lt fuel a m b (P ++ A ++ B ++ R) = some (P ++ C ++ R) ∧
      Sorts lt k (SortedBy k A ∧ SortedBy k B) (A ++ B) C
  | 0, A, _, _, _, _, _, _, hA, _, _, _, _, hf => absurd (List.length_eq_zero_iff.1 (by omega)) hA
  | fuel + 1, A, B, P, R, a, m, b, hA, hB, ha, hm, hb, hf => by
    have la : 0 < A.length := List.length_pos_iff.2 hA
    have lb : 0 < B.length := List.length_pos_iff.2 hB
    unfold symMerge
    by_cases c1 : m - a = 1
    · rw [if_pos c1]
      obtain ⟨x, rfl⟩ := List.length_eq_one_iff.1 (show A.length = 1 by omega)
      simp only [List.length_singleton] at *
      have ga : (P ++ [x] ++ B ++ R)[a]? = some x := by
        rw [show P ++ [x] ++ B ++ R = P ++ x :: (B ++ R) by simp]; exact get_at _ _ _ ha
      have fv : ∀ {h : Nat}, m ≤ h → h < b → ∃ z, B[h - m]? = some z ∧ less? lt (P ++ [x] ++ B ++ R) h a = some (lt z x) := by
        intro h h1 h2
        obtain ⟨z, hz⟩ := get_some (A := B) (i := h - m) (by omega)
        refine ⟨z, hz, less?_at ?_ ga⟩
        rw [get_right P [x] B R (by simp; omega) (by simp; omega), ← hz]
        congr 1; simp; omega
      obtain ⟨s, e, s1, s2, hs⟩ := search_spec (f := fun h => less? lt (P ++ [x] ++ B ++ R) h a) (b - m) m b (by omega) (le_refl _)
        fun h h1 h2 => let ⟨_, _, e⟩ := fv h1 h2; ⟨_, e⟩
      rw [e]
      have lt1 : (B.take (s - m)).length = s - 1 - a := by simp; omega
      have cu := carryUp_at (B.take (s - m)) P (B.drop (s - m) ++ R) x (k := a) ha
      rw [lt1] at cu
      refine ⟨B.take (s - m) ++ x :: B.drop (s - m), ?_, ?_, fun Q hQ hq ⟨_, hsB⟩ => ?_⟩
      · simp only
        rw [show P ++ [x] ++ B ++ R = P ++ x :: (B.take (s - m) ++ (B.drop (s - m) ++ R)) by
          rw [← List.append_assoc (B.take _), List.take_append_drop]; simp, cu]
        simp
      · have := List.perm_middle (a := x) (l₁ := B.take (s - m)) (l₂ := B.drop (s - m))
        rw [List.take_append_drop] at this
        simpa using this
      · have qx : Q x := hq x (by simp)
        have qB : ∀ {z : α} {i : Nat}, B[i]? = some z → Q z := fun h => hq _ (by simp [List.mem_of_getElem? h])
        obtain ⟨g1, g2⟩ := hs fun u v h1 h2 h3 hv => by
          obtain ⟨zv, hzv, ev⟩ := fv (h := v) (by omega) h3
          obtain ⟨zu, hzu, eu⟩ := fv (h := u) h1 (by omega)
          rw [ev, Option.some.injEq] at hv
          rw [eu, Option.some.injEq, hQ _ _ (qB hzu) qx]
          exact lt_of_le_of_lt (sorted_get hsB (by omega) hzu hzv) ((hQ _ _ (qB hzv) qx).1 hv)
        have k1 : ∀ z ∈ B.take (s - m), k z < k x := by
          intro z hz
          obtain ⟨i, hi, hz⟩ := mem_take_get hz
          obtain ⟨z', hz', e'⟩ := fv (h := m + i) (by omega) (by omega)
          rw [show m + i - m = i by omega, hz, Option.some.injEq] at hz'
          subst hz'
          have := g1 (m + i) (by omega) (by omega)
          rw [e', Option.some.injEq] at this
          exact (hQ _ _ (qB hz) qx).1 this
        have k2 : ∀ z ∈ B.drop (s - m), k x ≤ k z := by
          intro z hz
          obtain ⟨i, hi, hz⟩ := mem_drop_get hz
          have hib : i < B.length := (List.getElem?_eq_some_iff.1 hz).1
          obtain ⟨z', hz', e'⟩ := fv (h := m + i) (by omega) (by omega)
          rw [show m + i - m = i by omega, hz, Option.some.injEq] at hz'
          subst hz'
          have := g2 (m + i) (by omega) (by omega)
          rw [e', Option.some.injEq] at this
          exact (hQ.false (qB hz) qx).1 this
        have hsB' := hsB
        rw [← List.take_append_drop (s - m) B] at hsB'
        obtain ⟨p1, p2, p3⟩ := List.pairwise_append.1 hsB'
        constructor
        · refine List.pairwise_append.2 ⟨p1, List.pairwise_cons.2 ⟨k2, p2⟩, fun y hy z hz => ?_⟩
          rcases List.mem_cons.1 hz with rfl | hz
          · exact (k1 y hy).le
          · exact p3 y hy z hz
        · have sw : SameByKey k ([x] ++ B.take (s - m)) (B.take (s - m) ++ [x]) := SameByKey.swap fun y hy z hz => by
            rw [List.mem_singleton.1 hy]; exact (k1 z hz).ne'
          have := sw.append (SameByKey.refl k (B.drop (s - m)))
          rw [List.append_assoc, List.take_append_drop] at this
          simpa using this
    rw [if_neg c1]
    by_cases c2 : b - m = 1
    · rw [if_pos c2]
      obtain ⟨y, rfl⟩ := List.length_eq_one_iff.1 (show B.length = 1 by omega)
      simp only [List.length_singleton] at *
      have gm : (P ++ A ++ [y] ++ R)[m]? = some y := by
        rw [show P ++ A ++ [y] ++ R = (P ++ A) ++ y :: R by simp]; exact get_at _ _ _ (by simp; omega)
      have fv : ∀ {h : Nat}, a ≤ h → h < m → ∃ z, A[h - a]? = some z ∧
          (less? lt (P ++ A ++ [y] ++ R) m h).map (!·) = some (!lt y z) := by
        intro h h1 h2
        obtain ⟨z, hz⟩ := get_some (A := A) (i := h - a) (by omega)
        refine ⟨z, hz, ?_⟩
        rw [less?_at gm (y := z)]
        · rfl
        · rw [get_left P A [y] R (by omega) (by omega), ← ha, hz]
      obtain ⟨s, e, s1, s2, hs⟩ := search_spec (f := fun h => (less? lt (P ++ A ++ [y] ++ R) m h).map (!·)) (m - a) a m (by omega)
        (le_refl _) fun h h1 h2 => let ⟨_, _, e⟩ := fv h1 h2; ⟨_, e⟩
      rw [e]
      have cd := carryDown_at s (A.drop (s - a)).length (A.drop (s - a)) (P ++ A.take (s - a)) R y (k := m) rfl (by simp; omega)
        (by simp; omega)
      refine ⟨A.take (s - a) ++ y :: A.drop (s - a), ?_, ?_, fun Q hQ hq ⟨hsA, _⟩ => ?_⟩
      · simp only
        rw [show P ++ A ++ [y] ++ R = P ++ A.take (s - a) ++ A.drop (s - a) ++ y :: R by
          rw [List.append_assoc P (A.take _), List.take_append_drop]; simp, cd]
        simp
      · have := List.perm_middle (a := y) (l₁ := A.take (s - a)) (l₂ := A.drop (s - a))
        rw [List.take_append_drop] at this
        exact this.trans (List.perm_append_singleton y A).symm
      · have qy : Q y := hq y (by simp)
        have qA : ∀ {z : α} {i : Nat}, A[i]? = some z → Q z := fun h => hq _ (by simp [List.mem_of_getElem? h])
        obtain ⟨g1, g2⟩ := hs fun u v h1 h2 h3 hv => by
          obtain ⟨zv, hzv, ev⟩ := fv (h := v) (by omega) h3
          obtain ⟨zu, hzu, eu⟩ := fv (h := u) h1 (by omega)
          rw [ev, Option.some.injEq, Bool.not_eq_true', hQ.false qy (qA hzv)] at hv
          rw [eu, Option.some.injEq, Bool.not_eq_true', hQ.false qy (qA hzu)]
          exact le_trans (sorted_get hsA (by omega) hzu hzv) hv
        have k1 : ∀ z ∈ A.take (s - a), k z ≤ k y := by
          intro z hz
          obtain ⟨i, hi, hz⟩ := mem_take_get hz
          obtain ⟨z', hz', e'⟩ := fv (h := a + i) (by omega) (by omega)
          rw [show a + i - a = i by omega, hz, Option.some.injEq] at hz'
          subst hz'
          have := g1 (a + i) (by omega) (by omega)
          rw [e', Option.some.injEq, Bool.not_eq_true', hQ.false qy (qA hz)] at this
          exact this
        have k2 : ∀ z ∈ A.drop (s - a), k y < k z := by
          intro z hz
          obtain ⟨i, hi, hz⟩ := mem_drop_get hz
          have hib : i < A.length := (List.getElem?_eq_some_iff.1 hz).1
          obtain ⟨z', hz', e'⟩ := fv (h := a + i) (by omega) (by omega)
          rw [show a + i - a = i by omega, hz, Option.some.injEq] at hz'
          subst hz'
          have := g2 (a + i) (by omega) (by omega)
          rw [e', Option.some.injEq, Bool.not_eq_false', hQ _ _ qy (qA hz)] at this
          exact this
        have hsA' := hsA
        rw [← List.take_append_drop (s - a) A] at hsA'
        obtain ⟨p1, p2, p3⟩ := List.pairwise_append.1 hsA'
        constructor
        · refine List.pairwise_append.2 ⟨p1, List.pairwise_cons.2 ⟨fun z hz => (k2 z hz).le, p2⟩, fun w hw z hz => ?_⟩
          rcases List.mem_cons.1 hz with rfl | hz
          · exact k1 w hw
          · exact p3 w hw z hz
        · have sw : SameByKey k (A.drop (s - a) ++ [y]) ([y] ++ A.drop (s - a)) := SameByKey.swap fun w hw z hz => by
            rw [List.mem_singleton.1 hz]; exact (k2 w hw).ne'
          have := (SameByKey.refl k (A.take (s - a))).append sw
          rw [← List.append_assoc, List.take_append_drop] at this
          simpa using this
    rw [if_neg c2]
    set mid := (a + b) / 2 with hmid
    have bounds : ∀ c, (if m > mid then mid + m - b else a) ≤ c → c < (if m > mid then mid else m) →
        a ≤ c ∧ c < m ∧ c ≤ mid + m - 1 ∧ m ≤ mid + m - 1 - c ∧ mid + m - 1 - c < b := by
      intro c h1 h2
      split at h1 <;> split at h2 <;> omega
    set l := P ++ A ++ B ++ R with hl
    have fv : ∀ {c : Nat}, (if m > mid then mid + m - b else a) ≤ c → c < (if m > mid then mid else m) →
        ∃ x y, A[c - a]? = some x ∧ B[mid + m - 1 - c - m]? = some y ∧
          notLessMirror lt l (mid + m - 1) c = some (!lt y x) := by
      intro c h1 h2
      obtain ⟨b1, b2, b3, b4, b5⟩ := bounds c h1 h2
      obtain ⟨x, hx⟩ := get_some (A := A) (i := c - a) (by omega)
      obtain ⟨y, hy⟩ := get_some (A := B) (i := mid + m - 1 - c - m) (by omega)
      refine ⟨x, y, hx, hy, ?_⟩
      have e1 : l[c]? = some x := by rw [hl, get_left P A B R (by omega) (by omega), ← ha, hx]
      have e2 : l[mid + m - 1 - c]? = some y := by
        rw [hl, get_right P A B R (by omega) (by omega), ← hy]; congr 1; omega
      unfold notLessMirror
      rw [if_pos b3, less?_at e2 e1]; rfl
    obtain ⟨s, e, s1, s2, hs⟩ := search_spec (f := notLessMirror lt l (mid + m - 1))
      ((if m > mid then mid else m) - (if m > mid then mid + m - b else a)) (if m > mid then mid + m - b else a)
      (if m > mid then mid else m) (by split <;> omega) (le_refl _) fun h h1 h2 => let ⟨_, _, _, _, e⟩ := fv h1 h2; ⟨_, e⟩
    simp only
    rw [e]
    simp only
    have t1 : a ≤ s := by split at s1 <;> omega
    have t2 : s ≤ m ∧ s ≤ mid := by split at s2 <;> omega
    have t3 : m ≤ mid + m - s ∧ mid + m - s ≤ b := by split at s1 <;> omega
    obtain ⟨A1, A2, eA, lA1⟩ : ∃ A1 A2, A = A1 ++ A2 ∧ A1.length = s - a :=
      ⟨A.take (s - a), A.drop (s - a), (List.take_append_drop _ _).symm, by simp; omega⟩
    obtain ⟨B1, B2, eB, lB1⟩ : ∃ B1 B2, B = B1 ++ B2 ∧ B1.length = mid - s :=
      ⟨B.take (mid - s), B.drop (mid - s), (List.take_append_drop _ _).symm, by simp; omega⟩
    have lA2 : A2.length = m - s := by have := congrArg List.length eA; simp at this; omega
    have lB2 : B2.length = b - (mid + m - s) := by have := congrArg List.length eB; simp at this; omega
    -- the rotation
    have h1 : (if s < m ∧ m < mid + m - s then rotate s m (mid + m - s) l else some l) =
        some (P ++ A1 ++ B1 ++ (A2 ++ B2 ++ R)) := by
      split
      · have := rotate_at A2 B1 (P ++ A1) (B2 ++ R) (a := s) (m := m) (b := mid + m - s)
          (by rintro rfl; simp at lA2; omega) (by rintro rfl; simp at lB1; omega) (by simp; omega) (by omega) (by omega)
        rw [hl, eA, eB]
        simpa using this
      · have : A2 = [] ∨ B1 = [] := by
          by_cases c : A2.length = 0
          · exact .inl (List.length_eq_zero_iff.1 c)
          · exact .inr (List.length_eq_zero_iff.1 (by omega))
        rw [hl, eA, eB]
        rcases this with rfl | rfl <;> simp
    rw [h1]
    simp only
    -- the left half
    obtain ⟨C1, h2, q1⟩ : ∃ C1, (if a < s ∧ s < mid then symMerge lt fuel a s mid (P ++ A1 ++ B1 ++ (A2 ++ B2 ++ R))
          else some (P ++ A1 ++ B1 ++ (A2 ++ B2 ++ R))) = some (P ++ C1 ++ (A2 ++ B2 ++ R)) ∧
        Sorts lt k (SortedBy k A1 ∧ SortedBy k B1) (A1 ++ B1) C1 := by
      split
      · exact symMerge_at lt k fuel A1 B1 P (A2 ++ B2 ++ R) (by rintro rfl; simp at lA1; omega)
          (by rintro rfl; simp at lB1; omega) ha (by omega) (by omega) (by omega)
      · refine ⟨A1 ++ B1, by simp, List.Perm.refl _, fun _ _ _ ⟨g1, g2⟩ => ⟨?_, SameByKey.refl k _⟩⟩
        have : A1 = [] ∨ B1 = [] := by
          by_cases c : A1.length = 0
          · exact .inl (List.length_eq_zero_iff.1 c)
          · exact .inr (List.length_eq_zero_iff.1 (by omega))
        rcases this with rfl | rfl
        · simpa using g2
        · simpa using g1
    rw [h2]
    simp only
    have lC1 : C1.length = mid - a := by have := q1.1.length_eq; simp at this; omega
    -- the right half
    obtain ⟨C2, h3, q2⟩ : ∃ C2, (if mid < mid + m - s ∧ mid + m - s < b then
          symMerge lt fuel mid (mid + m - s) b (P ++ C1 ++ (A2 ++ B2 ++ R)) else some (P ++ C1 ++ (A2 ++ B2 ++ R))) =
            some (P ++ C1 ++ (C2 ++ R)) ∧ Sorts lt k (SortedBy k A2 ∧ SortedBy k B2) (A2 ++ B2) C2 := by
      split
      · obtain ⟨C, e, hC⟩ := symMerge_at lt k fuel A2 B2 (P ++ C1) R (a := mid) (m := mid + m - s) (b := b)
          (by rintro rfl; simp at lA2; omega) (by rintro rfl; simp at lB2; omega) (by simp; omega) (by omega) (by omega) (by omega)
        exact ⟨C, by rw [show P ++ C1 ++ (A2 ++ B2 ++ R) = P ++ C1 ++ A2 ++ B2 ++ R by simp, e]; simp, hC⟩
      · refine ⟨A2 ++ B2, by simp, List.Perm.refl _, fun _ _ _ ⟨g1, g2⟩ => ⟨?_, SameByKey.refl k _⟩⟩
        have : A2 = [] ∨ B2 = [] := by
          by_cases c : A2.length = 0
          · exact .inl (List.length_eq_zero_iff.1 c)
          · exact .inr (List.length_eq_zero_iff.1 (by omega))
        rcases this with rfl | rfl
        · simpa using g2
        · simpa using g1
    rw [h3]
    refine ⟨C1 ++ C2, by simp, ?_, fun Q hQ hq ⟨hsA, hsB⟩ => ?_⟩
    · have p := q1.1.append q2.1
      refine p.trans ?_
      rw [eA, eB]
      have : (A1 ++ (B1 ++ A2) ++ B2).Perm (A1 ++ (A2 ++ B1) ++ B2) :=
        (List.perm_append_comm.append_left A1).append_right B2
      simpa using this
    · have qA : ∀ {z : α} {i : Nat}, A[i]? = some z → Q z := fun h => hq _ (by simp [List.mem_of_getElem? h])
      have qB : ∀ {z : α} {i : Nat}, B[i]? = some z → Q z := fun h => hq _ (by simp [List.mem_of_getElem? h])
      obtain ⟨g1, g2⟩ := hs fun u v i1 i2 i3 hv => by
        obtain ⟨xu, yu, hxu, hyu, eu⟩ := fv (c := u) i1 (by omega)
        obtain ⟨xv, yv, hxv, hyv, ev⟩ := fv (c := v) (by omega) i3
        obtain ⟨b1, b2, b3, b4, b5⟩ := bounds u i1 (by omega)
        obtain ⟨b1', b2', b3', b4', b5'⟩ := bounds v (by omega) i3
        rw [ev, Option.some.injEq, Bool.not_eq_true', hQ.false (qB hyv) (qA hxv)] at hv
        rw [eu, Option.some.injEq, Bool.not_eq_true', hQ.false (qB hyu) (qA hxu)]
        exact le_trans (sorted_get hsA (by omega) hxu hxv) (le_trans hv (sorted_get hsB (by omega) hyv hyu))
      have getA1 : ∀ x ∈ A1, ∃ i, i < s - a ∧ A[i]? = some x := fun x hx => by
        apply mem_take_get
        rw [eA, ← lA1]; simpa using hx
      have getA2 : ∀ x ∈ A2, ∃ i, s - a ≤ i ∧ A[i]? = some x := fun x hx => by
        apply mem_drop_get
        rw [eA, ← lA1]; simpa using hx
      have getB1 : ∀ x ∈ B1, ∃ i, i < mid - s ∧ B[i]? = some x := fun x hx => by
        apply mem_take_get
        rw [eB, ← lB1]; simpa using hx
      have getB2 : ∀ x ∈ B2, ∃ i, mid - s ≤ i ∧ B[i]? = some x := fun x hx => by
        apply mem_drop_get
        rw [eB, ← lB1]; simpa using hx
      have lenA : ∀ {i : Nat} {x : α}, A[i]? = some x → i < A.length := fun h => (List.getElem?_eq_some_iff.1 h).1
      have lenB : ∀ {i : Nat} {x : α}, B[i]? = some x → i < B.length := fun h => (List.getElem?_eq_some_iff.1 h).1
      -- moved right is above moved left
      have k1 : ∀ x ∈ A2, ∀ y ∈ B1, k y < k x := by
        intro x hx y hy
        obtain ⟨i, i1, hx⟩ := getA2 x hx
        obtain ⟨j, j1, hy⟩ := getB1 y hy
        have := lenA hx
        have hr : s < (if m > mid then mid else m) := by split <;> omega
        obtain ⟨x', y', hx', hy', e'⟩ := fv s1 hr
        have hf := g2 s (le_refl _) hr
        rw [e', Option.some.injEq, Bool.not_eq_false', hQ _ _ (qB hy') (qA hx')] at hf
        exact lt_of_le_of_lt (sorted_get hsB (by omega) hy hy') (lt_of_lt_of_le hf (sorted_get hsA i1 hx' hx))
      -- what stays left is not above what stays right
      have k2 : ∀ x ∈ A1, ∀ y ∈ B2, k x ≤ k y := by
        intro x hx y hy
        obtain ⟨i, i1, hx⟩ := getA1 x hx
        obtain ⟨j, j1, hy⟩ := getB2 y hy
        have := lenB hy
        have hr : (if m > mid then mid + m - b else a) ≤ s - 1 := by split <;> omega
        have hr' : s - 1 < (if m > mid then mid else m) := by split <;> omega
        obtain ⟨x', y', hx', hy', e'⟩ := fv hr hr'
        have hf := g1 (s - 1) hr (by omega)
        rw [e', Option.some.injEq, Bool.not_eq_true', hQ.false (qB hy') (qA hx')] at hf
        exact le_trans (sorted_get hsA (by omega) hx hx') (le_trans hf (sorted_get hsB (by omega) hy' hy))
      have pA := hsA
      have pB := hsB
      unfold SortedBy at pA pB
      rw [eA, List.pairwise_append] at pA
      rw [eB, List.pairwise_append] at pB
      obtain ⟨z1, w1⟩ := q1.2 Q hQ (fun x hx => hq x (by rw [eA, eB]; simp at hx ⊢; tauto)) ⟨pA.1, pB.1⟩
      obtain ⟨z2, w2⟩ := q2.2 Q hQ (fun x hx => hq x (by rw [eA, eB]; simp at hx ⊢; tauto)) ⟨pA.2.1, pB.2.1⟩
      constructor
      · refine List.pairwise_append.2 ⟨z1, z2, fun x hx y hy => ?_⟩
        rcases List.mem_append.1 (q1.1.mem_iff.1 hx) with hx | hx <;> rcases List.mem_append.1 (q2.1.mem_iff.1 hy) with hy | hy
        · exact pA.2.2 x hx y hy
        · exact k2 x hx y hy
        · exact (k1 y hy x hx).le
        · exact pB.2.2 x hx y hy
      · have sw : SameByKey k (A2 ++ B1) (B1 ++ A2) := SameByKey.swap fun x hx y hy => (k1 x hx y hy).ne'
        have t := ((SameByKey.refl k A1).append sw).append (SameByKey.refl k B2)
        have u := w1.append w2
        rw [eA, eB]
        refine SameByKey.trans ?_ u
        simpa using t

/-! ### The whole sort -/

/-- Every block of `bs` elements, counted from the left, is sorted. -/
def BlockSorted (k : α → κ) (bs : Nat) (l : List α) : Prop := ∀ i, SortedBy k ((l.drop (i * bs)).take bs)

theorem blockSorted_append {k : α → κ} {bs : Nat} {A l : List α} (hA : A.length = bs) (h : SortedBy k A)
    (hl : BlockSorted k bs l) : BlockSorted k bs (A ++ l) := by
  intro i
  cases i with
  | zero => simpa [hA] using h
  | succ i =>
    have := hl i
    rw [List.drop_append, List.drop_eq_nil_of_le (by rw [hA]; exact Nat.le_mul_of_pos_left bs (by omega)),
      List.nil_append, hA, show (i + 1) * bs - bs = i * bs by rw [Nat.succ_mul]; omega]
    exact this

theorem blockSorted_short {k : α → κ} {bs : Nat} {l : List α} (_ : l.length ≤ bs) (h : SortedBy k l) : BlockSorted k bs l := by
  intro i
  refine List.Pairwise.sublist ?_ h
  exact (List.take_sublist _ _).trans (List.drop_sublist _ _)

theorem blockSorted_head {k : α → κ} {bs : Nat} {A l : List α} (h : BlockSorted k bs (A ++ l)) (hA : A.length ≤ bs)
    (he : A.length = bs ∨ l = []) : SortedBy k A := by
  have := h 0
  rw [Nat.zero_mul, List.drop_zero] at this
  rcases he with he | rfl
  · rw [← he, List.take_left] at this; exact this
  · rw [List.append_nil, List.take_of_length_le hA] at this; exact this

theorem blockSorted_tail {k : α → κ} {bs : Nat} {A l : List α} (h : BlockSorted k bs (A ++ l)) (hA : A.length = bs) :
    BlockSorted k bs l := by
  intro i
  have := h (i + 1)
  rwa [List.drop_append, List.drop_eq_nil_of_le (by rw [hA]; exact Nat.le_mul_of_pos_left bs (by omega)),
    List.nil_append, hA, show (i + 1) * bs - bs = i * bs by rw [Nat.succ_mul]; omega] at this

/-- What a pass gives: the same elements; with keys, blocks sorted and elements of equal keys in order. -/
def SortsBlocks (lt : α → α → Bool) (k : α → κ) (bs : Nat) (pre : Prop) (L C : List α) : Prop :=
  C.Perm L ∧ ∀ Q : α → Prop, Compares lt k Q → (∀ x ∈ L, Q x) → pre → BlockSorted k bs C ∧ SameByKey k L C

theorem sortBlocks_at (lt : α → α → Bool) (k : α → κ) {bs : Nat} (hbs : 0 < bs) : ∀ (fuel : Nat) (L P : List α) {a n : Nat},
    a = P.length → n = a + L.length → L.length < fuel →
    ∃ C, sortBlocks lt bs n fuel a (P ++ L) = some (P ++ C) ∧ SortsBlocks lt k bs True L C
  | 0, _, _, _, _, _, _, hf => by omega
  | fuel + 1, L, P, a, n, ha, hn, hf => by
    unfold sortBlocks
    split
    · obtain ⟨A, L2, rfl, lA⟩ : ∃ A L2, L = A ++ L2 ∧ A.length = bs :=
        ⟨L.take bs, L.drop bs, (List.take_append_drop _ _).symm, by simp; omega⟩
      obtain ⟨C, e, hC⟩ := insertionSort_at lt k A P L2 (a := a) (b := a + bs) ha (by omega)
      rw [← List.append_assoc, e]
      have lC : C.length = bs := by rw [hC.1.length_eq, lA]
      obtain ⟨D, e2, hD⟩ := sortBlocks_at lt k hbs fuel L2 (P ++ C) (a := a + bs) (n := n) (by simp; omega) (by simp at hn; omega)
        (by simp at hf; omega)
      simp only
      refine ⟨C ++ D, by rw [e2]; simp, hC.1.append hD.1, fun Q hQ hq _ => ?_⟩
      obtain ⟨c1, c2⟩ := hC.2 Q hQ (fun x hx => hq x (by simp [hx])) trivial
      obtain ⟨d1, d2⟩ := hD.2 Q hQ (fun x hx => hq x (by simp [hx])) trivial
      exact ⟨blockSorted_append lC c1 d1, c2.append d2⟩
    · obtain ⟨C, e, hC⟩ := insertionSort_at lt k L P [] (a := a) (b := n) ha hn
      refine ⟨C, by simpa using e, hC.1, fun Q hQ hq _ => ?_⟩
      obtain ⟨c1, c2⟩ := hC.2 Q hQ hq trivial
      exact ⟨blockSorted_short (by rw [hC.1.length_eq]; omega) c1, c2⟩

theorem mergePass_at (lt : α → α → Bool) (k : α → κ) {bs : Nat} (hbs : 0 < bs) : ∀ (fuel : Nat) (L P : List α) {a n : Nat},
    a = P.length → n = a + L.length → L.length < fuel →
    ∃ C, mergePass lt bs n fuel a (P ++ L) = some (P ++ C) ∧ SortsBlocks lt k (2 * bs) (BlockSorted k bs L) L C
  | 0, _, _, _, _, _, _, hf => by omega
  | fuel + 1, L, P, a, n, ha, hn, hf => by
    unfold mergePass
    split
    · obtain ⟨A, B, L2, rfl, lA, lB⟩ : ∃ A B L2, L = A ++ (B ++ L2) ∧ A.length = bs ∧ B.length = bs :=
        ⟨L.take bs, (L.drop bs).take bs, (L.drop bs).drop bs, by rw [List.take_append_drop, List.take_append_drop],
          by simp; omega, by simp; omega⟩
      obtain ⟨C, e, hC⟩ := symMerge_at lt k (2 * bs) A B P L2 (a := a) (m := a + bs) (b := a + 2 * bs)
        (by rintro rfl; simp at lA; omega) (by rintro rfl; simp at lB; omega) ha (by omega) (by omega) (by omega)
      rw [show P ++ (A ++ (B ++ L2)) = P ++ A ++ B ++ L2 by simp, e]
      have lC : C.length = 2 * bs := by rw [hC.1.length_eq]; simp; omega
      obtain ⟨D, e2, hD⟩ := mergePass_at lt k hbs fuel L2 (P ++ C) (a := a + 2 * bs) (n := n) (by simp; omega)
        (by simp at hn; omega) (by simp at hf; omega)
      simp only
      refine ⟨C ++ D, by rw [e2]; simp, by simpa using hC.1.append hD.1, fun Q hQ hq hpre => ?_⟩
      have t := blockSorted_tail hpre lA
      obtain ⟨c1, c2⟩ := hC.2 Q hQ (fun x hx => hq x (by simp at hx ⊢; tauto))
        ⟨blockSorted_head hpre lA.le (.inl lA), blockSorted_head t lB.le (.inl lB)⟩
      obtain ⟨d1, d2⟩ := hD.2 Q hQ (fun x hx => hq x (by simp [hx])) (blockSorted_tail t lB)
      exact ⟨blockSorted_append lC c1 d1, by simpa using c2.append d2⟩
    · split
      · obtain ⟨A, B, rfl, lA⟩ : ∃ A B, L = A ++ B ∧ A.length = bs :=
          ⟨L.take bs, L.drop bs, (List.take_append_drop _ _).symm, by simp; omega⟩
        have lB : 0 < B.length ∧ B.length < bs := by simp at hn; omega
        obtain ⟨C, e, hC⟩ := symMerge_at lt k (n - a) A B P [] (a := a) (m := a + bs) (b := n)
          (by rintro rfl; simp at lA; omega) (by rintro rfl; simp at lB) ha (by omega) (by simp at hn; omega) (by simp at hn; omega)
        refine ⟨C, by simpa using e, hC.1, fun Q hQ hq hpre => ?_⟩
        have t := blockSorted_tail hpre lA
        obtain ⟨c1, c2⟩ := hC.2 Q hQ hq ⟨blockSorted_head hpre lA.le (.inl lA),
          blockSorted_head (l := []) (by simpa using t) lB.2.le (.inr rfl)⟩
        exact ⟨blockSorted_short (by rw [hC.1.length_eq]; simp; omega) c1, c2⟩
      · refine ⟨L, rfl, List.Perm.refl _, fun Q hQ hq hpre => ⟨?_, SameByKey.refl k L⟩⟩
        exact blockSorted_short (by omega) (blockSorted_head (l := []) (by simpa using hpre) (by omega) (.inr rfl))

theorem mergeLoop_at (lt : α → α → Bool) (k : α → κ) : ∀ (fuel : Nat) (L : List α) {bs n : Nat}, 0 < bs → n = L.length →
    n < fuel + bs → 0 < fuel →
    ∃ C, mergeLoop lt n fuel bs L = some C ∧ Sorts lt k (BlockSorted k bs L) L C
  | 0, L, bs, n, hbs, hn, hf, h0 => by omega
  | fuel + 1, L, bs, n, hbs, hn, hf, h0 => by
    unfold mergeLoop
    split
    · obtain ⟨C, e, hC⟩ := mergePass_at lt k hbs (n + 1) L [] (a := 0) (n := n) rfl (by simpa using hn) (by omega)
      simp only [List.nil_append] at e
      rw [e]
      obtain ⟨D, e2, hD⟩ := mergeLoop_at lt k fuel C (bs := 2 * bs) (n := n) (by omega) (by rw [hC.1.length_eq]; exact hn) (by omega) (by omega)
      refine ⟨D, e2, hD.1.trans hC.1, fun Q hQ hq hpre => ?_⟩
      obtain ⟨c1, c2⟩ := hC.2 Q hQ hq hpre
      obtain ⟨d1, d2⟩ := hD.2 Q hQ (fun x hx => hq x (hC.1.mem_iff.1 hx)) c1
      exact ⟨d1, c2.trans d2⟩
    · refine ⟨L, rfl, List.Perm.refl _, fun Q hQ hq hpre => ⟨?_, SameByKey.refl k L⟩⟩
      exact blockSorted_head (l := []) (by simpa using hpre) (by omega) (.inr rfl)

/-- `sort.SliceStable` never panics and returns the same elements, whatever the comparison; if it compares keys of
a linear order, the result is sorted by key and elements of equal keys keep their order. -/
theorem sliceStable_at (lt : α → α → Bool) (k : α → κ) (l : List α) :
    ∃ c, sliceStable lt l = some c ∧ Sorts lt k True l c := by
  unfold sliceStable
  obtain ⟨C, e, hC⟩ := sortBlocks_at lt k (bs := 20) (by omega) (l.length + 1) l [] (a := 0) (n := l.length) rfl (by simp) (by omega)
  simp only [List.nil_append] at e
  rw [e]
  obtain ⟨D, e2, hD⟩ := mergeLoop_at lt k (l.length + 1) C (bs := 20) (n := l.length) (by omega) hC.1.length_eq.symm (by omega) (by omega)
  refine ⟨D, e2, hD.1.trans hC.1, fun Q hQ hq _ => ?_⟩
  obtain ⟨c1, c2⟩ := hC.2 Q hQ hq trivial
  obtain ⟨d1, d2⟩ := hD.2 Q hQ (fun x hx => hq x (hC.1.mem_iff.1 hx)) c1
  exact ⟨d1, c2.trans d2⟩

/-! ### Elements renamed -/

section Rename
variable {β : Type} {lt : α → α → Bool} {lt' : β → β → Bool} {φ : α → β} (H : ∀ x y, lt' (φ x) (φ y) = lt x y)

theorem swap?_map (l : List α) (i j : Nat) : swap? (l.map φ) i j = (swap? l i j).map (List.map φ) := by
  unfold swap?
  rw [List.getElem?_map, List.getElem?_map]
  cases l[i]? <;> cases l[j]? <;> simp [List.map_set]

theorem swapRange_map : ∀ (n : Nat) (l : List α) (a b : Nat), swapRange (l.map φ) a b n = (swapRange l a b n).map (List.map φ)
  | 0, _, _, _ => rfl
  | n + 1, l, a, b => by
    unfold swapRange
    rw [swap?_map]
    cases swap? l a b with
    | none => rfl
    | some l' => exact swapRange_map n l' _ _

theorem rotateLoop_map (m : Nat) : ∀ (fuel i j : Nat) (l : List α),
    rotateLoop m fuel i j (l.map φ) = (rotateLoop m fuel i j l).map (List.map φ)
  | 0, _, _, _ => rfl
  | fuel + 1, i, j, l => by
    unfold rotateLoop
    split
    · exact swapRange_map _ _ _ _
    · split
      · rw [swapRange_map]
        cases swapRange l (m - i) m j with
        | none => rfl
        | some l' => exact rotateLoop_map m fuel _ _ l'
      · rw [swapRange_map]
        cases swapRange l (m - i) (m + j - i) i with
        | none => rfl
        | some l' => exact rotateLoop_map m fuel _ _ l'

theorem carryUp_map : ∀ (n k : Nat) (l : List α), carryUp n k (l.map φ) = (carryUp n k l).map (List.map φ)
  | 0, _, _ => rfl
  | n + 1, k, l => by
    unfold carryUp
    rw [swap?_map]
    cases swap? l k (k + 1) with
    | none => rfl
    | some l' => exact carryUp_map n _ l'

theorem carryDown_map (i : Nat) : ∀ (k : Nat) (l : List α), carryDown i k (l.map φ) = (carryDown i k l).map (List.map φ)
  | 0, _ => rfl
  | k + 1, l => by
    unfold carryDown
    split
    · rw [swap?_map]
      cases swap? l (k + 1) k with
      | none => rfl
      | some l' => exact carryDown_map i k l'
    · rfl

theorem bind_map (o : Option (List α)) (f : List β → Option (List β)) (g : List α → Option (List α))
    (h : ∀ t, f (t.map φ) = (g t).map (List.map φ)) :
    (match o.map (List.map φ) with | none => none | some t => f t) =
      (match o with | none => none | some t => g t).map (List.map φ) := by
  cases o with
  | none => rfl
  | some t => exact h t

include H

theorem less?_map (l : List α) (i j : Nat) : less? lt' (l.map φ) i j = less? lt l i j := by
  unfold less?
  rw [List.getElem?_map, List.getElem?_map]
  cases l[i]? <;> cases l[j]? <;> simp [H]

theorem sink_map (a : Nat) : ∀ (j : Nat) (l : List α), sink lt' a j (l.map φ) = (sink lt a j l).map (List.map φ)
  | 0, _ => rfl
  | j + 1, l => by
    unfold sink
    split
    · rw [less?_map H, swap?_map]
      cases less? lt l (j + 1) j with
      | none => rfl
      | some b =>
        cases b
        · rfl
        · cases swap? l (j + 1) j with
          | none => rfl
          | some l' => exact sink_map a j l'
    · rfl

theorem insertionLoop_map (a : Nat) : ∀ (k i : Nat) (l : List α),
    insertionLoop lt' a k i (l.map φ) = (insertionLoop lt a k i l).map (List.map φ)
  | 0, _, _ => rfl
  | k + 1, i, l => by
    unfold insertionLoop
    rw [sink_map H]
    cases sink lt a i l with
    | none => rfl
    | some l' => exact insertionLoop_map a k _ l'

theorem symMerge_map : ∀ (fuel a m b : Nat) (l : List α),
    symMerge lt' fuel a m b (l.map φ) = (symMerge lt fuel a m b l).map (List.map φ)
  | 0, _, _, _, _ => rfl
  | fuel + 1, a, m, b, l => by
    have e1 : (fun h => less? lt' (l.map φ) h a) = fun h => less? lt l h a := funext fun h => less?_map H l h a
    have e2 : (fun h => (less? lt' (l.map φ) m h).map (!·)) = fun h => (less? lt l m h).map (!·) :=
      funext fun h => by rw [less?_map H l m h]
    have e3 : ∀ p, notLessMirror lt' (l.map φ) p = notLessMirror lt l p := fun p => funext fun c => by
      unfold notLessMirror; rw [less?_map H]
    unfold symMerge
    split
    · rw [e1]
      cases search (fun h => less? lt l h a) (b - m) m b with
      | none => rfl
      | some i => exact carryUp_map _ _ _
    · split
      · rw [e2]
        cases search (fun h => (less? lt l m h).map (!·)) (m - a) a m with
        | none => rfl
        | some i => exact carryDown_map _ _ _
      · simp only [e3]
        cases search (notLessMirror lt l _) _ _ _ with
        | none => rfl
        | some start =>
          simp only
          have r : ∀ (c : Prop) [Decidable c] (x y z : Nat), (if c then rotate x y z (l.map φ) else some (l.map φ)) =
              (if c then rotate x y z l else some l).map (List.map φ) := by
            intro c _ x y z
            split
            · exact rotateLoop_map _ _ _ _ _
            · rfl
          rw [r]
          refine bind_map _ _ _ fun l1 => ?_
          have q : ∀ (c : Prop) [Decidable c] (x y z : Nat) (t : List α), (if c then symMerge lt' fuel x y z (t.map φ) else some (t.map φ)) =
              (if c then symMerge lt fuel x y z t else some t).map (List.map φ) := by
            intro c _ x y z t
            split
            · exact symMerge_map _ _ _ _ _
            · rfl
          rw [q]
          exact bind_map _ _ _ fun l2 => q _ _ _ _ _

theorem sortBlocks_map (bs n : Nat) : ∀ (fuel a : Nat) (l : List α),
    sortBlocks lt' bs n fuel a (l.map φ) = (sortBlocks lt bs n fuel a l).map (List.map φ)
  | 0, _, _ => rfl
  | fuel + 1, a, l => by
    unfold sortBlocks insertionSort
    split
    · rw [insertionLoop_map H]
      cases insertionLoop lt a _ (a + 1) l with
      | none => rfl
      | some l' => exact sortBlocks_map bs n fuel _ l'
    · exact insertionLoop_map H _ _ _ _

theorem mergePass_map (bs n : Nat) : ∀ (fuel a : Nat) (l : List α),
    mergePass lt' bs n fuel a (l.map φ) = (mergePass lt bs n fuel a l).map (List.map φ)
  | 0, _, _ => rfl
  | fuel + 1, a, l => by
    unfold mergePass
    split
    · rw [symMerge_map H]
      cases symMerge lt _ a _ _ l with
      | none => rfl
      | some l' => exact mergePass_map bs n fuel _ l'
    · split
      · exact symMerge_map H _ _ _ _ _
      · rfl

theorem mergeLoop_map (n : Nat) : ∀ (fuel bs : Nat) (l : List α),
    mergeLoop lt' n fuel bs (l.map φ) = (mergeLoop lt n fuel bs l).map (List.map φ)
  | 0, _, _ => rfl
  | fuel + 1, bs, l => by
    unfold mergeLoop
    split
    · rw [mergePass_map H]
      cases mergePass lt bs n (n + 1) 0 l with
      | none => rfl
      | some l' => exact mergeLoop_map n fuel _ l'
    · rfl

theorem sliceStable_map (l : List α) : sliceStable lt' (l.map φ) = (sliceStable lt l).map (List.map φ) := by
  unfold sliceStable
  rw [List.length_map, sortBlocks_map H]
  cases sortBlocks lt 20 l.length (l.length + 1) 0 l with
  | none => rfl
  | some l' => exact mergeLoop_map H _ _ _ _

end Rename

/-- Renaming elements in a way that keeps the comparisons of the elements that occur. -/
theorem sliceStable_map_of {β : Type} {lt : α → α → Bool} {lt' : β → β → Bool} {φ : α → β} {l : List α}
    (H : ∀ x ∈ l, ∀ y ∈ l, lt' (φ x) (φ y) = lt x y) : sliceStable lt' (l.map φ) = (sliceStable lt l).map (List.map φ) := by
  have h1 := sliceStable_map (lt := fun x y : {x // x ∈ l} => lt x.1 y.1) (lt' := lt) (φ := Subtype.val) (fun _ _ => rfl) l.attach
  have h2 := sliceStable_map (lt := fun x y : {x // x ∈ l} => lt x.1 y.1) (lt' := lt') (φ := fun x => φ x.1)
    (fun x y => H x.1 x.2 y.1 y.2) l.attach
  rw [List.attach_map_subtype_val] at h1
  have e : l.attach.map (fun x => φ x.1) = l.map φ := by
    conv_rhs => rw [← List.attach_map_subtype_val l, List.map_map]
    rfl
  rw [e] at h2
  rw [h1, h2]
  cases sliceStable (fun x y : {x // x ∈ l} => lt x.1 y.1) l.attach with
  | none => rfl
  | some t => simp

end Go.Sort
