import Mathlib.Tactic.FieldSimp
import Mathlib.Tactic.LinearCombination
import Mathlib.Algebra.BigOperators.Group.List.Basic
import Mathlib.Data.List.Forall2
import Verif.Model.Averages
import Verif.Lemmas.FloatX

/-! Closed forms of the loops of the moving averages. -/

namespace Finmod
open Go

/-- All intermediate values of a left fold, the start value included. -/
def scan {α β : Type} (f : α → β → α) (a : α) : List β → List α
  | [] => [a]
  | b :: bs => a :: scan f (f a b) bs

theorem length_scan {α β : Type} (f : α → β → α) (a : α) (l : List β) :
    (scan f a l).length = l.length + 1 := by
  induction l generalizing a with
  | nil => rfl
  | cons b bs ih => simp [scan, ih]

theorem scan_zero {α β : Type} (f : α → β → α) (a : α) (l : List β) : (scan f a l)[0]? = some a := by
  cases l <;> rfl

theorem scan_succ {α β : Type} (f : α → β → α) (a : α) (l : List β) (k : Nat) (x : α) (b : β)
    (hx : (scan f a l)[k]? = some x) (hb : l[k]? = some b) :
    (scan f a l)[k + 1]? = some (f x b) := by
  induction l generalizing a k with
  | nil => simp at hb
  | cons c cs ih =>
    cases k with
    | zero =>
      simp only [List.getElem?_cons_zero, Option.some.injEq] at hb
      subst hb
      simp only [scan, List.getElem?_cons_zero, Option.some.injEq] at hx
      subst hx
      simp only [scan, List.getElem?_cons_succ]
      exact scan_zero _ _ _
    | succ k =>
      simp only [scan, List.getElem?_cons_succ] at hx hb ⊢
      exact ih (f a c) k hx hb

theorem scan_append {α β : Type} (f : α → β → α) (a : α) (l m : List β) :
    scan f a l <+: scan f a (l ++ m) := by
  induction l generalizing a with
  | nil => cases m with
    | nil => exact List.prefix_refl _
    | cons b bs => exact ⟨scan f (f a b) bs, rfl⟩
  | cons b bs ih => exact (List.prefix_cons_inj a).2 (ih (f a b))

theorem scan_ne_nil {α β : Type} (f : α → β → α) (a : α) (l : List β) : scan f a l ≠ [] := by
  cases l <;> simp [scan]

theorem scan_forall₂ {α β α' β' : Type} {R : α → α' → Prop} {Q : β → β' → Prop}
    {f : α → β → α} {g : α' → β' → α'} {a : α} {a' : α'} {l : List β} {l' : List β'}
    (ha : R a a') (hl : List.Forall₂ Q l l')
    (hf : ∀ x x' y y', R x x' → Q y y' → R (f x y) (g x' y')) :
    List.Forall₂ R (scan f a l) (scan g a' l') := by
  induction hl generalizing a a' with
  | nil => exact .cons ha .nil
  | cons h _ ih => exact .cons ha (ih (hf _ _ _ _ ha h))

theorem scan_all {α β : Type} {P : α → Prop} {Q : β → Prop} {f : α → β → α} {a : α} {l : List β}
    (ha : P a) (hl : ∀ b ∈ l, Q b) (hf : ∀ x y, P x → Q y → P (f x y)) :
    ∀ x ∈ scan f a l, P x := by
  induction l generalizing a with
  | nil => intro x hx; simp only [scan, List.mem_singleton] at hx; subst hx; exact ha
  | cons b bs ih =>
    intro x hx
    simp only [scan, List.mem_cons] at hx
    rcases hx with rfl | hx
    · exact ha
    · exact ih (hf _ _ ha (hl b (by simp))) (fun b hb => hl b (by simp [hb])) x hx

/-- The closes of a list of candles. -/
def closes (cs : List Candle) : List Fl := cs.map Candle.close

theorem average_eq (S : FloatSem) (cs : List Candle) :
    average S cs = S.div ((closes cs).foldl S.add (S.const 0)) (S.ofInt cs.length) := by
  unfold average closes
  rw [List.foldl_map]

/-! ### MovingAverage -/

theorem maLoop_eq (S : FloatSem) (cs : List Candle) (fuel i j : Nat) (hj : j ≤ cs.length)
    (hf : cs.length < fuel + j) :
    maLoop S cs fuel i j =
      .ok ((List.range (cs.length - j)).map fun k => average S ((cs.take (j + k + 1)).drop (i + k))) := by
  induction fuel generalizing i j with
  | zero => omega
  | succ fuel ih =>
    unfold maLoop
    by_cases h : j = cs.length
    · rw [if_pos h]; simp [h]
    · rw [if_neg h, if_neg (by omega), ih (i + 1) (j + 1) (by omega) (by omega)]
      simp only
      congr 1
      have e : cs.length - j = (cs.length - (j + 1)) + 1 := by omega
      rw [e, List.range_succ_eq_map]
      simp only [List.map_cons, Nat.add_zero, List.map_map]
      congr 1
      apply List.map_congr_left
      intro k _
      simp only [Function.comp]
      rw [show j + 1 + k + 1 = j + (k + 1) + 1 by omega, show i + 1 + k = i + (k + 1) by omega]

theorem movingAverage_ok (S : FloatSem) (cs : List Candle) (n : Nat) (h1 : 1 ≤ n) (h2 : n ≤ cs.length) :
    movingAverage S (some cs) n =
      .ok ((List.range (cs.length - n + 1)).map fun k => average S ((cs.drop k).take n)) := by
  unfold movingAverage
  simp only
  rw [if_neg (by omega), if_neg (by omega), maLoop_eq S cs _ _ _ (by simp; omega) (by simp; omega)]
  have e : cs.length - ((n : Int).toNat - 1) = cs.length - n + 1 := by simp; omega
  rw [e]
  congr 1
  apply List.map_congr_left
  intro k _
  congr 1
  rw [List.take_drop]
  congr 2 <;> simp <;> omega

theorem zipIdx_split (cs : List Candle) (n : Nat) (h : n ≤ cs.length) :
    cs.zipIdx = (cs.take n).zipIdx ++ (cs.drop n).zipIdx n := by
  conv_lhs => rw [← List.take_append_drop n cs, List.zipIdx_append]
  congr 2
  simp; omega

/-! ### ExponentialMovingAverage -/

theorem emaFold_before (S : FloatSem) (cs : List Candle) (n : Nat) (p : Fl) (arr : List Fl)
    (l : List Candle) (k : Nat) (h : k + l.length ≤ n) :
    (l.zipIdx k).foldl (emaStep S cs n p) arr = arr := by
  induction l generalizing k with
  | nil => rfl
  | cons c l ih =>
    simp only [List.length_cons] at h
    simp only [List.zipIdx_cons, List.foldl_cons]
    rw [show emaStep S cs n p arr (c, k) = arr by
      unfold emaStep; rw [if_pos (by simp only; omega)]]
    exact ih (k + 1) (by omega)

theorem emaFold_after (S : FloatSem) (cs : List Candle) (n : Nat) (p : Fl) (arr : List Fl) (x : Fl)
    (l : List Candle) (k : Nat) (h : n ≤ k) :
    (l.zipIdx k).foldl (emaStep S cs n p) (arr ++ [x]) = arr ++ scan (emaNext S p) x (closes l) := by
  induction l generalizing k arr x with
  | nil => rfl
  | cons c l ih =>
    simp only [List.zipIdx_cons, List.foldl_cons]
    have e : emaStep S cs n p (arr ++ [x]) (c, k) = (arr ++ [x]) ++ [emaNext S p x c.close] := by
      unfold emaStep
      rw [if_neg (by simp only; omega)]
      simp
    rw [e, ih _ _ _ (by omega)]
    simp [closes, scan]

theorem ema_ok (S : FloatSem) (cs : List Candle) (n : Nat) (h1 : 1 ≤ n) (h2 : n ≤ cs.length) :
    exponentialMovingAverage S (some cs) n = .ok (match cs.drop n with
      | [] => []
      | _ :: rest => scan (emaNext S (emaWeight S n)) (average S (cs.take n)) (closes rest)) := by
  unfold exponentialMovingAverage
  simp only
  rw [if_neg (by omega), if_neg (by omega)]
  congr 1
  rw [zipIdx_split cs n h2, List.foldl_append, emaFold_before S cs n _ [] (cs.take n) 0 (by simp)]
  cases hd : cs.drop n with
  | nil => rfl
  | cons c rest =>
    simp only [List.zipIdx_cons, List.foldl_cons]
    have e : emaStep S cs n (emaWeight S n) [] (c, n) = [] ++ [average S (cs.take n)] := by
      unfold emaStep
      rw [if_neg (by simp only; omega)]
      simp
    rw [e, emaFold_after _ _ _ _ _ _ _ _ (by omega)]
    rfl

/-! ### SmoothedMovingAverage -/

theorem smmaFold_before (S : FloatSem) (cs : List Candle) (n : Nat) (arr : List Fl)
    (l : List Candle) (k : Nat) (h : k + l.length + 1 ≤ n) :
    (l.zipIdx k).foldl (smmaStep S cs n) (some arr) = some arr := by
  induction l generalizing k with
  | nil => rfl
  | cons c l ih =>
    simp only [List.length_cons] at h
    simp only [List.zipIdx_cons, List.foldl_cons]
    rw [show smmaStep S cs n (some arr) (c, k) = some arr by
      unfold smmaStep; simp only; rw [if_pos (by omega)]]
    exact ih (k + 1) (by omega)

theorem closingSum_some (S : FloatSem) (cs : List Candle) (n : Nat) (h : n ≤ cs.length) :
    ∃ x, closingSum S cs n = some x := by
  unfold closingSum
  rw [if_neg (by omega)]
  exact ⟨_, rfl⟩

theorem smmaFold_after (S : FloatSem) (cs : List Candle) (n : Nat) (arr : List Fl) (x : Fl)
    (l : List Candle) (k : Nat) (h : n ≤ k + 1) (hk : k + l.length ≤ cs.length) (ha : arr ≠ []) :
    (l.zipIdx k).foldl (smmaStep S cs n) (some (arr ++ [x])) =
      some (arr ++ scan (smmaNext S n) x (closes l)) := by
  induction l generalizing k arr x with
  | nil => rfl
  | cons c l ih =>
    simp only [List.length_cons] at hk
    simp only [List.zipIdx_cons, List.foldl_cons]
    have e : smmaStep S cs n (some (arr ++ [x])) (c, k) =
        some ((arr ++ [x]) ++ [smmaNext S n x c.close]) := by
      unfold smmaStep
      simp only
      rw [if_neg (by omega)]
      obtain ⟨y, hy⟩ := closingSum_some S (cs.take (k + 1)) n (by simp; omega)
      rw [hy]
      cases arr with
      | nil => exact absurd rfl ha
      | cons a as =>
        cases as with
        | nil => simp
        | cons b bs =>
          have hg : (b :: (bs ++ [x])).getLast? = some x := by
            rw [← List.cons_append]; exact List.getLast?_concat
          simp [hg]
    rw [e, ih _ _ _ (by omega) (by omega) (by simp)]
    simp [closes, scan]

/-- The first value of the smoothed average. -/
def smmaFirst (S : FloatSem) (cs : List Candle) (n : Nat) : Fl :=
  S.div ((closes (cs.take n)).foldl S.add (.fin 0)) (S.ofInt n)

theorem smma_ok (S : FloatSem) (cs : List Candle) (n : Nat) (h1 : 1 ≤ n) (h2 : n ≤ cs.length) :
    smoothedMovingAverage S (some cs) n = .ok (smmaFirst S cs n :: (match cs.drop n with
      | [] => []
      | c :: rest => scan (smmaNext S n) (smmaSecond S n (smmaFirst S cs n) c.close) (closes rest))) := by
  unfold smoothedMovingAverage
  simp only
  rw [if_neg (by omega), if_neg (by omega)]
  obtain ⟨m, rfl⟩ : ∃ m, n = m + 1 := ⟨n - 1, by omega⟩
  have hfold : cs.zipIdx.foldl (smmaStep S cs (m + 1 : Nat)) (some []) =
      some (smmaFirst S cs (m + 1) :: (match cs.drop (m + 1) with
      | [] => []
      | c :: rest => scan (smmaNext S (m + 1 : Nat)) (smmaSecond S (m + 1 : Nat) (smmaFirst S cs (m + 1)) c.close)
          (closes rest))) := by
    rw [zipIdx_split cs m (by omega), List.foldl_append, smmaFold_before _ _ _ _ _ _ (by simp)]
    cases hd : cs.drop m with
    | nil => simp only [List.drop_eq_nil_iff] at hd; omega
    | cons c rest =>
      have hrest : cs.drop (m + 1) = rest := by
        rw [← List.drop_drop, hd]; rfl
      have hlen : rest.length = cs.length - (m + 1) := by rw [← hrest]; simp
      simp only [List.zipIdx_cons, List.foldl_cons]
      have e : smmaStep S cs (m + 1 : Nat) (some []) (c, m) = some [smmaFirst S cs (m + 1)] := by
        unfold smmaStep
        simp only
        rw [if_neg (by omega)]
        unfold closingSum
        rw [if_neg (by simp; omega)]
        simp only [smmaFirst, closes, List.foldl_map]
        congr 5
        have : (cs.take (m + 1)).length - ((m + 1 : Nat) : Int).toNat = 0 := by simp
        rw [this]; rfl
      rw [e, hrest]
      cases rest with
      | nil => rfl
      | cons d rest =>
        simp only [List.length_cons] at hlen
        simp only [List.zipIdx_cons, List.foldl_cons]
        have e2 : smmaStep S cs (m + 1 : Nat) (some [smmaFirst S cs (m + 1)]) (d, m + 1) =
            some ([smmaFirst S cs (m + 1)] ++
              [smmaSecond S (m + 1 : Nat) (smmaFirst S cs (m + 1)) d.close]) := by
          unfold smmaStep
          simp only
          rw [if_neg (by omega)]
          obtain ⟨y, hy⟩ := closingSum_some S (cs.take (m + 1 + 1)) (m + 1) (by simp; omega)
          rw [hy]
          rfl
        rw [e2, smmaFold_after _ _ _ _ _ _ _ (by omega) (by omega) (by simp)]
        rfl
  rw [hfold]

end Finmod
