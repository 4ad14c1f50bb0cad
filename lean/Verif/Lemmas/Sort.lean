import Mathlib.Data.List.Pairwise
import Mathlib.Data.List.Induction
import Mathlib.Tactic.Linarith
import Verif.Lemmas.Side
import Verif.Lemmas.GoSort
import Verif.Spec.OrderBook

/-! `sort.SliceStable`, the depth cut and the running sums of `NewOrderBook`. -/

namespace Finmod
open Go Spec

section
variable {lt : Fl → Fl → Bool} {α : Type} [LinearOrder α] {k : Fl → α} (O : SideOrd lt k)

/-- Ascending in the key. -/
def KSorted (k : Fl → α) (rows : List Row) : Prop := rows.Pairwise (fun a b => k a.price ≤ k b.price)

abbrev lessOf (lt : Fl → Fl → Bool) : Row → Row → Bool := fun x y => lt x.price y.price

omit [LinearOrder α] in
theorem sliceStable_perm (less : Row → Row → Bool) (l : List Row) :
    (sliceStable less l).Perm l := by
  obtain ⟨c, e, h⟩ := Go.Sort.sliceStable_at less (fun _ => (0 : Nat)) l
  unfold sliceStable
  rw [e]; exact h.1

theorem sliceStable_num {l : List Row} (less : Row → Row → Bool) (hn : NoNaN l) :
    NoNaN (sliceStable less l) := fun r hr => hn r ((sliceStable_perm less l).subset hr)

include O

theorem compares_row : Go.Sort.Compares (lessOf lt) (fun r : Row => k r.price) (fun r => r.price ≠ .nan) :=
  fun _ _ hx hy => O.lt_iff _ _ hx hy

theorem sliceStable_sorted {l : List Row} (hn : NoNaN l) :
    KSorted k (sliceStable (lessOf lt) l) := by
  obtain ⟨c, e, h⟩ := Go.Sort.sliceStable_at (lessOf lt) (fun r : Row => k r.price) l
  unfold sliceStable
  rw [e]; exact (h.2 _ (compares_row O) hn trivial).1

theorem sliceStable_stable {l : List Row} (hn : NoNaN l) (c : α) :
    (sliceStable (lessOf lt) l).filter (fun r => decide (k r.price = c)) =
      l.filter (fun r => decide (k r.price = c)) := by
  obtain ⟨d, e, h⟩ := Go.Sort.sliceStable_at (lessOf lt) (fun r : Row => k r.price) l
  unfold sliceStable
  rw [e]; exact ((h.2 _ (compares_row O) hn trivial).2 c).symm

/-- With pairwise different prices the result is strictly sorted. -/
theorem sliceStable_strict {l : List Row} (hn : NoNaN l)
    (hd : l.Pairwise (fun a b => Fl.eq a.price b.price = false)) :
    GSorted lt (sliceStable (lessOf lt) l) := by
  have hs := sliceStable_sorted O hn
  have hp := sliceStable_perm (lessOf lt) l
  have hsym : Std.Symm (fun a b : Row => Fl.eq a.price b.price = false) := by
    constructor
    intro a b h
    have : Fl.eq b.price a.price = Fl.eq a.price b.price := by
      unfold Fl.eq; rw [Bool.and_comm (!Fl.isNaN b.price)]; simp [eq_comm]
    rw [this]; exact h
  have hd' : (sliceStable (lessOf lt) l).Pairwise (fun a b => Fl.eq a.price b.price = false) :=
    (hp.pairwise_iff (fun {a b} h => hsym.symm a b h)).2 hd
  unfold KSorted at hs
  have hnn := sliceStable_num (lessOf lt) hn
  refine List.Pairwise.imp_of_mem ?_ (List.Pairwise.and hs hd')
  intro a b ha hb h
  have := (O.eq_false_iff (hnn a ha) (hnn b hb)).1 h.2
  exact (O.lt_iff _ _ (hnn a ha) (hnn b hb)).2 (lt_of_le_of_ne h.1 this)

end

theorem add_comm' (S : FloatSem) (x y : Fl) : S.add x y = S.add y x := by
  cases x <;> cases y <;> simp [FloatSem.add, add_comm, eq_comm]
  split_ifs with h <;> simp [h]

/-! ### accumulate -/

theorem accumulate_length (S : FloatSem) (a : Option Fl) (rows : List Row) :
    (accumulate S a rows).length = rows.length := by
  induction rows generalizing a with
  | nil => cases a <;> rfl
  | cons r rs ih => cases a <;> simp [accumulate, ih]

theorem accumulate_pv (S : FloatSem) (a : Option Fl) (rows : List Row) :
    (accumulate S a rows).map (fun r => (r.price, r.volume)) =
      rows.map (fun r => (r.price, r.volume)) := by
  induction rows generalizing a with
  | nil => cases a <;> rfl
  | cons r rs ih => cases a <;> simp [accumulate, ih]

theorem accumulate_some (S : FloatSem) (a : Fl) (rows : List Row) (i : Nat)
    (h : i < (accumulate S (some a) rows).length) :
    (accumulate S (some a) rows)[i].accum =
      ((rows.take (i + 1)).map (·.volume)).foldl S.add a := by
  induction rows generalizing a i with
  | nil => simp [accumulate] at h
  | cons r rs ih =>
    cases i with
    | zero => simp [accumulate, add_comm']
    | succ i =>
      simp only [accumulate, List.getElem_cons_succ]
      rw [ih]
      simp [add_comm']

theorem accumulate_none (S : FloatSem) (rows : List Row) (i : Nat)
    (h : i < (accumulate S none rows).length) :
    (accumulate S none rows)[i].accum =
      runningSum S ((rows.take (i + 1)).map (·.volume)) := by
  cases rows with
  | nil => simp [accumulate] at h
  | cons r rs =>
    cases i with
    | zero => simp [accumulate, runningSum]
    | succ i =>
      simp only [accumulate, List.getElem_cons_succ]
      rw [accumulate_some]
      simp [runningSum]

/-- `accumulate` keeps prices, so anything said about prices only is unchanged. -/
theorem accumulate_mem_price (S : FloatSem) (a : Option Fl) (rows : List Row) (r : Row)
    (h : r ∈ accumulate S a rows) : ∃ r' ∈ rows, r'.price = r.price ∧ r'.volume = r.volume := by
  have : (r.price, r.volume) ∈ (accumulate S a rows).map (fun r => (r.price, r.volume)) :=
    List.mem_map_of_mem h
  rw [accumulate_pv] at this
  obtain ⟨r', h1, h2⟩ := List.mem_map.1 this
  simp only [Prod.mk.injEq] at h2
  exact ⟨r', h1, h2.1, h2.2⟩

theorem accumulate_pairwise (S : FloatSem) (R : Fl → Fl → Prop) (a : Option Fl) (rows : List Row)
    (h : rows.Pairwise (fun x y => R x.price y.price)) :
    (accumulate S a rows).Pairwise (fun x y => R x.price y.price) := by
  have e : ∀ l : List Row, l.Pairwise (fun x y => R x.price y.price) ↔
      (l.map (fun r => (r.price, r.volume))).Pairwise (fun x y => R x.1 y.1) := by
    intro l; rw [List.pairwise_map]
  rw [e, accumulate_pv, ← e]; exact h

/-! ### depth cut -/

theorem rnd_ofInt {S : FloatSem} (hS : Lawful S) {n : Int} (h : |n| ≤ 2 ^ 53) :
    S.ofInt n = .fin n := hS.r64.int n h

theorem depthCut_eq {S : FloatSem} (hS : Lawful S) {len : Nat} {d : Int} (hl : len < 2 ^ 53)
    (hd : 0 ≤ d) : depthCut S len d = min (len : Int) d := by
  have h1 : S.ofInt len = .fin (len : ℚ) := by
    have := rnd_ofInt hS (n := (len : Int)) (by rw [abs_of_nonneg (by positivity)]; exact_mod_cast hl.le)
    simpa using this
  have hti : ∀ n : Int, 0 ≤ n → n < 2 ^ 53 → S.toInt (.fin (n : ℚ)) = n := by
    intro n h0 h2
    unfold FloatSem.toInt
    simp only [Int.floor_intCast, Int.ceil_intCast]
    simp only [ite_self]
    rw [if_pos (by omega)]
  unfold depthCut
  by_cases hc : d ≤ 2 ^ 53
  · have h2 : S.ofInt d = .fin (d : ℚ) := rnd_ofInt hS (by rw [abs_of_nonneg hd]; exact hc)
    rw [h1, h2]
    unfold mathMin
    simp only [reduceCtorEq, or_self, if_false, Fl.lt_fin, decide_eq_true_eq]
    have hzero : Fl.sgn (.fin (len : ℚ)) = false := by simp [Fl.sgn]
    by_cases hlt : (len : ℚ) < d
    · have hlt' : (len : Int) < d := by exact_mod_cast hlt
      have hz : ¬ (Fl.isZero (.fin (len : ℚ)) = true ∧ Fl.isZero (.fin (d : ℚ)) = true) := by
        rintro ⟨_, hb⟩
        simp [Fl.isZero] at hb
        omega
      rw [if_neg hz, if_pos hlt, min_eq_left hlt'.le]
      exact hti len (by positivity) (by exact_mod_cast hl)
    · have hlt' : d ≤ (len : Int) := by rw [not_lt] at hlt; exact_mod_cast hlt
      rw [if_neg hlt, min_eq_right hlt', hzero]
      simp only [Bool.false_eq_true, if_false, ite_self]
      exact hti d hd (by omega)
  · have hd2 : (2 : Int) ^ 53 < d := by omega
    have hm := hS.r64.mono ((2 ^ 53 : Int) : ℚ) (d : ℚ) (by exact_mod_cast hd2.le)
    have hi := hS.r64.int (2 ^ 53) (by simp)
    rw [hi] at hm
    have hnn := hS.r64.not_nan (d : ℚ)
    have hlen : (len : ℚ) < 2 ^ 53 := by exact_mod_cast hl
    have hlt : Fl.lt (.fin (len : ℚ)) (S.ofInt d) = true := by
      rw [Fl.lt_iff]
      refine ⟨by simp, hnn, lt_of_lt_of_le ?_ hm⟩
      simp only [Fl.key, Ext.ofRat_lt]
      push_cast; exact hlen
    rw [h1]
    unfold mathMin
    have a1 : S.ofInt d ≠ .inf true := by
      intro h; rw [h, Fl.lt_iff] at hlt; simp [Fl.key] at hlt
    have a2 : ¬ (Fl.isZero (.fin (len : ℚ)) = true ∧ Fl.isZero (S.ofInt d) = true) := by
      rintro ⟨_, hb⟩
      have hle : Ext.ofRat 0 < (S.ofInt d).key := by
        refine lt_of_lt_of_le ?_ hm
        simp [Fl.key]
      cases hv : S.ofInt d with
      | nan => rw [hv] at hb; simp [Fl.isZero] at hb
      | inf n => rw [hv] at hb; simp [Fl.isZero] at hb
      | fin q => rw [hv] at hb hle; simp [Fl.isZero, Fl.key] at hb hle; linarith
      | negZero => rw [hv] at hle; simp [Fl.key] at hle
    have a3 : S.ofInt d ≠ .nan := hnn
    simp only [reduceCtorEq, a1, a3, or_self, if_false, a2, hlt, if_true]
    rw [min_eq_left (by omega)]
    exact hti len (by positivity) (by exact_mod_cast hl)

end Finmod
