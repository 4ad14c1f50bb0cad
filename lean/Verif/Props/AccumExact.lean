import Mathlib.Data.List.Sort
import Verif.Props.BookHistory

/-!
# C141: exactly when the cumulative volumes are still right

C16 (after updates every `AccumVolume` is still the running volume) is false of the code. With
positive volumes, in exact arithmetic, it holds of a side exactly when the side is a beginning of
the side the book started with: nothing was written that is still shown, and nothing but rows at
the end was lost.
-/

namespace Finmod
open Go Spec

/-- A positive number. -/
def Spec.Positive (v : Fl) : Prop := ∃ q : ℚ, 0 < q ∧ v = .fin q

/-- Cumulative volumes of rows that come after a volume of `a`. -/
def accFrom : ℚ → List Row → Prop
  | _, [] => True
  | a, r :: t => r.accum = .fin (a + r.volume.toRat) ∧ accFrom (a + r.volume.toRat) t

theorem foldl_exact : ∀ (vs : List Fl) (a : ℚ), (∀ v ∈ vs, Positive v) →
    vs.foldl FloatSem.exact.add (.fin a) = .fin (a + (vs.map Fl.toRat).sum)
  | [], a, _ => by simp
  | v :: vs, a, h => by
    obtain ⟨q, _, rfl⟩ := h v (by simp)
    rw [List.foldl_cons, show FloatSem.exact.add (.fin a) (.fin q) = .fin (a + q) from rfl,
      foldl_exact vs (a + q) fun v hv => h v (by simp [hv])]
    simp [Fl.toRat, add_assoc]

theorem runningSum_exact {vs : List Fl} (h : ∀ v ∈ vs, Positive v) :
    runningSum FloatSem.exact vs = .fin (vs.map Fl.toRat).sum := by
  cases vs with
  | nil => rfl
  | cons v vs =>
    obtain ⟨q, _, rfl⟩ := h v (by simp)
    rw [runningSum, foldl_exact vs q fun v hv => h v (by simp [hv])]
    simp [Fl.toRat]

theorem accFrom_of : ∀ (rows : List Row) (a : ℚ),
    (∀ i (h : i < rows.length), rows[i].accum = .fin (a + ((rows.take (i + 1)).map (·.volume.toRat)).sum)) →
    accFrom a rows
  | [], _, _ => trivial
  | r :: t, a, h => by
    refine ⟨by have := h 0 (by simp); simpa only [List.getElem_cons_zero, Nat.zero_add, List.take_succ_cons, List.take_zero, List.map_cons, List.map_nil, List.sum_cons, List.sum_nil, add_zero] using this, accFrom_of t _ fun i hi => ?_⟩
    have := h (i + 1) (by simpa using hi)
    simpa [add_assoc] using this

theorem accFrom_of_ok {rows : List Row} (hp : ∀ r ∈ rows, Positive r.volume)
    (h : AccumOk FloatSem.exact rows) : accFrom 0 rows := by
  refine accFrom_of rows 0 fun i hi => ?_
  rw [h i hi, runningSum_exact, List.map_map, zero_add]
  · rfl
  · intro v hv
    obtain ⟨r, hr, rfl⟩ := List.mem_map.1 hv
    exact hp r (List.mem_of_mem_take hr)

theorem accFrom_mem : ∀ {rows : List Row} {a : ℚ}, (∀ r ∈ rows, Positive r.volume) → accFrom a rows →
    ∀ r ∈ rows, ∃ c, r.accum = .fin c ∧ a + r.volume.toRat ≤ c
  | [], _, _, _ => by simp
  | x :: t, a, hp, h => by
    intro r hr
    rcases List.mem_cons.1 hr with rfl | hr
    · exact ⟨_, h.1, le_refl _⟩
    · obtain ⟨c, h1, h2⟩ := accFrom_mem (fun r hr => hp r (by simp [hr])) h.2 r hr
      obtain ⟨q, hq, e⟩ := hp x (by simp)
      rw [e, show (Fl.fin q).toRat = q from rfl] at h2
      exact ⟨c, h1, by linarith⟩

/-- Rows picked from a side with right totals have right totals only if they are its first rows. -/
theorem prefix_of_accFrom {l' l : List Row} (hs : l'.Sublist l) : ∀ {a : ℚ},
    (∀ r ∈ l, Positive r.volume) → accFrom a l → accFrom a l' → l' <+: l := by
  induction hs with
  | slnil => intro _ _ _ _; exact List.prefix_refl _
  | @cons l1 l2 x hs _ =>
    intro a hp h h'
    cases l1 with
    | nil => exact List.nil_prefix
    | cons y t =>
      exfalso
      obtain ⟨c, h1, h2⟩ := accFrom_mem (fun r hr => hp r (by simp [hr])) h.2 y (hs.subset (by simp))
      have e := h'.1
      rw [h1, Fl.fin.injEq] at e
      obtain ⟨q, hq, ex⟩ := hp x (by simp)
      rw [ex, show (Fl.fin q).toRat = q from rfl] at h2
      linarith
  | cons_cons x hs ih =>
    intro a hp h h'
    exact List.cons_prefix_cons.2 ⟨rfl, ih (fun r hr => hp r (by simp [hr])) h.2 h'.2⟩

theorem accumOk_prefix {S : FloatSem} {l' l : List Row} (hp : l' <+: l) (h : AccumOk S l) : AccumOk S l' := by
  obtain ⟨t, rfl⟩ := hp
  intro i hi
  have := h i (by simp; omega)
  rw [List.getElem_append_left hi, List.take_append_of_le_length (by omega)] at this
  exact this

theorem sublist_of_sorted {lt : Fl → Fl → Bool} (hirr : ∀ x, lt x x = false)
    (htr : ∀ x y z, lt x y = true → lt y z = true → lt x z = true) {l' l : List Row}
    (h' : l'.Pairwise fun a b => lt a.price b.price = true)
    (h : l.Pairwise fun a b => lt a.price b.price = true) (hs : ∀ r ∈ l', r ∈ l) : l'.Sublist l := by
  classical
  have e : l' = l.filter (fun r => decide (r ∈ l')) := by
    have : Std.Irrefl (fun a b : Row => lt a.price b.price = true) := ⟨fun a => by rw [hirr]; simp⟩
    have : Std.Antisymm (fun a b : Row => lt a.price b.price = true) := ⟨fun a b h1 h2 => by
      have := htr _ _ _ h1 h2; rw [hirr] at this; cases this⟩
    refine List.Pairwise.eq_of_mem_iff h' (h.filter _) fun r => ?_
    rw [List.mem_filter]
    simp only [decide_eq_true_eq]
    exact ⟨fun hr => ⟨hs r hr, hr⟩, fun hr => hr.2⟩
  rw [e]
  exact List.filter_sublist

theorem fl_lt_irrefl (x : Fl) : Fl.lt x x = false := by
  rw [Bool.eq_false_iff]; intro h; exact lt_irrefl _ (Fl.lt_iff.1 h).2.2

theorem fl_lt_trans' (x y z : Fl) (h1 : Fl.lt x y = true) (h2 : Fl.lt y z = true) : Fl.lt x z = true := by
  rw [Fl.lt_iff] at *
  exact ⟨h1.1, h2.2.1, h1.2.2.trans h2.2.2⟩

/-- **C141.** Exact arithmetic, positive volumes. Take any book with right cumulative volumes and
any history of updates. Afterwards the cumulative volumes of a side are right if and only if the
side is a beginning (possibly all, possibly nothing) of what it was at the start. -/
theorem C141_accum_right_iff (b : Book) (h : WellFormed b) (hd : 0 ≤ b.maxDepth) (hb : DepthOk b)
    (us : List Update) (hu : NumUpdates us)
    (hv : ∀ u ∈ us, u.volume.isZero = true ∨ Positive u.volume) (s : String)
    (hs : s = "ask" ∨ s = "bid") (hp : ∀ r ∈ side b s, Positive r.volume)
    (ha : AccumOk FloatSem.exact (side b s)) :
    ∃ b', b.applyAll us = .ok b' ∧
      (AccumOk FloatSem.exact (side b' s) ↔ side b' s <+: side b s) := by
  have hg : Good b := ⟨h, hd, hb⟩
  obtain ⟨b', h1, hg', -⟩ := applyAll_good (P := fun _ => True) hu (fun _ _ _ _ _ _ _ => trivial)
    hg trivial
  refine ⟨b', h1, fun hok => ?_, fun hpre => accumOk_prefix hpre ha⟩
  have hrow : ∀ r ∈ side b' s, r ∈ side b s ∨ (Positive r.volume ∧ r.accum = .fin 0) := by
    intro r hr
    obtain ⟨k1, k2⟩ := latest_write hu hs hg h1 r hr
    cases hl : lastWrite s r.price us with
    | none => exact Or.inl (k2 hl)
    | some v =>
      obtain ⟨a, z, c⟩ := k1 v hl
      refine Or.inr ⟨?_, c⟩
      unfold lastWrite at hl
      rw [Option.map_eq_some_iff] at hl
      obtain ⟨u, hu1, rfl⟩ := hl
      have hm : u ∈ us := (List.mem_filter.1 (List.mem_of_getLast? hu1)).1
      rcases hv u hm with hz | hz
      · exfalso
        cases hvv : u.volume with
        | fin q =>
          rw [hvv] at hz z
          have : q = 0 := by simpa [Fl.isZero] using hz
          subst this
          revert z; decide +kernel
        | negZero => rw [hvv] at z; revert z; decide +kernel
        | nan => rw [hvv] at hz; cases hz
        | inf n => rw [hvv] at hz; cases hz
      · rw [a]; exact hz
  have hpos : ∀ r ∈ side b' s, Positive r.volume := fun r hr => by
    rcases hrow r hr with hr | hr
    · exact hp r hr
    · exact hr.1
  have hacc := accFrom_of_ok hpos hok
  have hsub : ∀ r ∈ side b' s, r ∈ side b s := by
    intro r hr
    rcases hrow r hr with hr' | hr'
    · exact hr'
    · exfalso
      obtain ⟨c, e, hc⟩ := accFrom_mem hpos hacc r hr
      rw [hr'.2, Fl.fin.injEq] at e
      obtain ⟨q, hq, ev⟩ := hr'.1
      rw [ev, show (Fl.fin q).toRat = q from rfl] at hc
      linarith
  refine prefix_of_accFrom ?_ hp (accFrom_of_ok hp ha) hacc
  rcases hs with rfl | rfl
  · exact sublist_of_sorted (lt := Fl.lt) fl_lt_irrefl fl_lt_trans' hg'.wf.asks_sorted h.asks_sorted hsub
  · exact sublist_of_sorted (lt := Fl.gt) fl_lt_irrefl (fun x y z h1 h2 => fl_lt_trans' z y x h2 h1)
      hg'.wf.bids_sorted h.bids_sorted hsub

/-- Asks 2 at 10 and 3 at 11. -/
def exAccum : Book := ⟨0, [⟨.fin 10, .fin 2, .fin 2⟩, ⟨.fin 11, .fin 3, .fin 5⟩], [], 5⟩

/-- Both sides of the equivalence occur: deleting the worst ask keeps the totals right, deleting
the best does not. -/
example : WellFormed exAccum ∧ DepthOk exAccum ∧
    exAccum.applyAll [⟨.fin 11, .fin 0, "ask"⟩] = .ok ⟨0, [⟨.fin 10, .fin 2, .fin 2⟩], [], 5⟩ ∧
    exAccum.applyAll [⟨.fin 10, .fin 0, "ask"⟩] = .ok ⟨0, [⟨.fin 11, .fin 3, .fin 5⟩], [], 5⟩ := by
  decide +kernel

example : (∀ r ∈ side exAccum "ask", Positive r.volume) ∧ AccumOk FloatSem.exact (side exAccum "ask") := by
  constructor
  · intro r hr
    simp only [side, exAccum, if_pos, List.mem_cons, List.not_mem_nil, or_false] at hr
    rcases hr with rfl | rfl
    · exact ⟨2, by norm_num, rfl⟩
    · exact ⟨3, by norm_num, rfl⟩
  · intro i hi
    have : i = 0 ∨ i = 1 := by simp [side, exAccum] at hi; omega
    rcases this with rfl | rfl <;> (revert hi; decide +kernel)

end Finmod
