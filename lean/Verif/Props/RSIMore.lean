import Verif.Props.RSI
import Verif.Props.AvgMono
import Verif.Props.MarkFloat

/-!
# C151: RSI under mirrored prices, a higher last close, and more candles
-/

namespace Finmod
open Go Spec

/-! ## Mirrored prices -/

theorem moves_mirror (b : ℚ) (xs : List ℚ) :
    (xs.map fun x => b - x).zip (xs.map fun x => b - x).tail =
      (xs.zip xs.tail).map fun m => (b - m.1, b - m.2) := by
  rw [← List.map_tail, List.zip_map]
  rfl

theorem riseQ_mirror (b : ℚ) (xs : List ℚ) :
    riseQ (xs.map fun x => b - x) = fallQ xs ∧ fallQ (xs.map fun x => b - x) = riseQ xs := by
  unfold riseQ fallQ
  rw [moves_mirror, List.map_map, List.map_map]
  constructor <;>
  · congr 1
    apply List.map_congr_left
    intro m _
    simp only [Function.comp]
    congr 1
    ring

theorem calculateRSI_mirror {cs cs' : List Candle} {xs : List ℚ} {b : ℚ}
    (h : Closes cs xs) (h' : Closes cs' (xs.map fun x => b - x)) :
    calculateRSI FloatSem.exact cs' = FloatSem.exact.sub (.fin 100) (calculateRSI FloatSem.exact cs) := by
  rw [calculateRSI_exact h, calculateRSI_exact h']
  obtain ⟨e1, e2⟩ := riseQ_mirror b xs
  rw [e1, e2, add_comm (fallQ xs)]
  by_cases hz : riseQ xs + fallQ xs = 0
  · rw [if_pos hz, if_pos hz]; rfl
  · rw [if_neg hz, if_neg hz]
    rw [show FloatSem.exact.sub (.fin 100) (.fin (100 * riseQ xs / (riseQ xs + fallQ xs))) =
        .fin (100 + -(100 * riseQ xs / (riseQ xs + fallQ xs))) from ?_]
    · congr 1; field_simp; ring
    · unfold FloatSem.sub
      rcases FloatSem.add_is (S := FloatSem.exact) (Fl.is_fin 100)
        (Fl.is_fin (100 * riseQ xs / (riseQ xs + fallQ xs))).neg with e | ⟨_, e, _⟩
      · exact e
      · norm_num at e

/-! ## A higher last close -/

/-- Infinite, or a number of the format. -/
def InfOrRep (S : FloatSem) (x : Fl) : Prop := x = .inf false ∨ ∃ q, x = .fin q ∧ S.rnd q = .fin q

theorem add_rep {S : FloatSem} (hS : Lawful S) {x y : Fl} (hx : Fl.le (.fin 0) x = true) (hz : x ≠ .negZero)
    (hy : Fl.le (.fin 0) y = true) : InfOrRep S (S.add x y) := by
  have hnn := add_nonneg_fl hS hx hy
  have hnz := add_ne_negZero hS hx hz hy
  rcases nonneg_cases hx with rfl | ⟨a, ha, ha0⟩
  · left; exact add_inf_left hy
  · rcases nonneg_cases hy with rfl | ⟨b, hb, hb0⟩
    · left; exact add_inf_right hx
    · rcases FloatSem.add_is (S := S) ha hb with e | ⟨e, _, _⟩
      · cases hr : S.add x y with
        | nan => rw [hr] at hnn; simp [Fl.le, Fl.isNaN] at hnn
        | negZero => exact absurd hr hnz
        | inf s => cases s with
          | false => left; rfl
          | true => rw [hr] at hnn; simp [Fl.le, Fl.isNaN, Fl.key] at hnn
        | fin q => right; exact ⟨q, rfl, hS.r64.idem _ _ (e.symm.trans hr)⟩
      · exact absurd e hnz

theorem le_add_rep {S : FloatSem} (hS : Lawful S) {x y : Fl} (hx : Fl.le (.fin 0) x = true) (hr : InfOrRep S x)
    (hy : Fl.le (.fin 0) y = true) : Fl.le x (S.add x y) = true := by
  rcases hr with rfl | ⟨q, rfl, hq⟩
  · rw [add_inf_left hy]; decide
  · rcases nonneg_cases hy with rfl | ⟨b, hb, hb0⟩
    · rw [add_inf_right hx]; exact le_inf (by simp)
    · rcases FloatSem.add_is (S := S) (Fl.is_fin q) hb with e | ⟨e, h0, _⟩
      · rw [e, Fl.le_iff]
        refine ⟨by simp, hS.r64.not_nan _, ?_⟩
        have := hS.r64.mono q (q + b) (by linarith)
        rwa [hq] at this
      · rw [e, h0]; simp [Fl.le, Fl.isNaN, Fl.key]

theorem sums_rep {S : FloatSem} (hS : Lawful S) {l : List Fl} (hl : ∀ x ∈ l, Fl.le (.fin 0) x = true) :
    ∀ acc : Fl, Fl.le (.fin 0) acc = true → acc ≠ .negZero → InfOrRep S acc → InfOrRep S (l.foldl S.add acc) := by
  induction l with
  | nil => intro acc _ _ h; exact h
  | cons x l ih =>
    intro acc h1 h2 _
    have hx := hl x (by simp)
    exact ih (fun y hy => hl y (by simp [hy])) _ (add_nonneg_fl hS h1 hx) (add_ne_negZero hS h1 h2 hx)
      (add_rep hS h1 h2 hx)

theorem sub_mono {S : FloatSem} (hS : Lawful S) {x y x' y' : Fl} (hx : x.isFinite = true)
    (hy : y.isFinite = true) (hx' : x'.isFinite = true) (hy' : y'.isFinite = true) (h : Fl.le x x' = true)
    (h' : Fl.le y' y = true) : Fl.le (S.sub x y) (S.sub x' y') = true := by
  have hx := Fl.isFinite_is hx
  have hy := Fl.isFinite_is hy
  have hx' := Fl.isFinite_is hx'
  have hy' := Fl.isFinite_is hy'
  rw [hx.le hx'] at h
  rw [hy'.le hy] at h'
  have h : x.toRat ≤ x'.toRat := by simpa using h
  have h' : y'.toRat ≤ y.toRat := by simpa using h'
  obtain ⟨n1, k1⟩ := sub_key hS hx hy
  obtain ⟨n2, k2⟩ := sub_key hS hx' hy'
  refine Fl.le_iff.2 ⟨n1, n2, ?_⟩
  rw [k1, k2]
  exact hS.r64.mono _ _ (by linarith)

theorem le_refl_fl {x : Fl} (h : x ≠ .nan) : Fl.le x x = true := Fl.le_iff.2 ⟨h, h, le_refl _⟩

theorem div_zero_pos {S : FloatSem} {x : Fl} {a : ℚ} (hx : x.Is a) (ha : 0 < a) :
    S.div x (.fin 0) = .inf false := by
  rcases hx with rfl | ⟨rfl, rfl⟩
  · simp [FloatSem.div, Fl.isZero, Fl.sgn, ha.ne', not_lt.2 ha.le]
  · exact absurd ha (lt_irrefl _)

theorem div_zero_zero {S : FloatSem} {x : Fl} (hx : x.Is 0) : S.div x (.fin 0) = .nan := by
  rcases hx with rfl | ⟨rfl, _⟩ <;> simp [FloatSem.div, Fl.isZero]

theorem div_by_inf {S : FloatSem} {x : Fl} {a : ℚ} (hx : x.Is a) : (S.div x (.inf false)).Is 0 := by
  rcases hx with rfl | ⟨rfl, _⟩ <;> (simp [FloatSem.div, Fl.zero, Fl.sgn]; try (split <;> simp))

theorem div_mono_ratio {S : FloatSem} (hS : Lawful S) {u u' d d' : Fl} (hu : Fl.le (.fin 0) u = true)
    (hd' : Fl.le (.fin 0) d' = true) (huu : Fl.le u u' = true) (hdd : Fl.le d' d = true)
    (hz' : d' ≠ .negZero)
    (hn : S.div u d ≠ .nan) (hn' : S.div u' d' ≠ .nan) : Fl.le (S.div u d) (S.div u' d') = true := by
  have hu' := fl_le_trans hu huu
  have hd := fl_le_trans hd' hdd
  rcases nonneg_cases hu' with rfl | ⟨a', ha', ha0'⟩
  · rcases nonneg_cases hd' with rfl | ⟨b', hb', hb0'⟩
    · exact absurd rfl hn'
    · rcases hb' with rfl | ⟨rfl, _⟩
      · rw [show S.div (.inf false) (.fin b') = .inf false by
          simp [FloatSem.div, Fl.sgn, not_lt.2 hb0']]
        exact le_inf hn
      · exact absurd rfl hz'
  obtain ⟨a, ha, ha0, hle⟩ := le_nonneg_finite hu huu ha'
  rcases nonneg_cases hd with rfl | ⟨b, hb, hb0⟩
  · have h0 := (div_nonneg_fl hS hu' hd' hz').resolve_left hn'
    have e := div_by_inf (S := S) ha
    refine fl_le_trans ?_ h0
    rw [e.le (Fl.is_fin 0)]; simp
  obtain ⟨b', hb', hb0', hle'⟩ := le_nonneg_finite hd' hdd hb
  rcases hb0'.eq_or_lt with rfl | hpos'
  · rcases hb' with rfl | ⟨rfl, _⟩
    · rcases ha0'.eq_or_lt with rfl | hap
      · exact absurd (div_zero_zero ha') hn'
      · rw [div_zero_pos ha' hap]; exact le_inf hn
    · exact absurd rfl hz'
  · have hpos : 0 < b := by linarith
    obtain ⟨n1, k1⟩ := div_key hS ha hb hpos.ne'
    obtain ⟨n2, k2⟩ := div_key hS ha' hb' hpos'.ne'
    refine Fl.le_iff.2 ⟨n1, n2, ?_⟩
    rw [k1, k2]
    exact hS.r64.mono _ _ (div_le_div₀ ha0' hle hpos' hle')

theorem to32_mono {S : FloatSem} (hS : Lawful S) {x y : Fl} {a b : ℚ} (hx : x.Is a) (hy : y.Is b)
    (h : a ≤ b) : Fl.le (S.to32 x) (S.to32 y) = true := by
  have z32 : S.rnd32 0 = .fin 0 := by simpa using hS.r32.int 0 (by norm_num)
  have key : ∀ {x : Fl} {a : ℚ}, x.Is a → S.to32 x ≠ .nan ∧ (S.to32 x).key = (S.rnd32 a).key := by
    intro x a hx
    rcases hx with rfl | ⟨rfl, rfl⟩
    · by_cases hq : a = 0
      · subst hq; simp [FloatSem.to32, z32]
      · simp [FloatSem.to32, hq, hS.r32.not_nan]
    · simp [FloatSem.to32, z32, Fl.key]
  obtain ⟨n1, k1⟩ := key hx
  obtain ⟨n2, k2⟩ := key hy
  refine Fl.le_iff.2 ⟨n1, n2, ?_⟩
  rw [k1, k2]
  exact hS.r32.mono _ _ h

theorem hundred_between {S : FloatSem} (hS : Lawful S) {r : Fl} (h : Fl.le (.fin 0) r = true) :
    Spec.Between (0 : ℤ) (100 : ℤ) (S.div (.fin 100) (S.add (.fin 1) r)) := by
  rcases one_add hS h with e | ⟨q, e, hq⟩
  · rw [e, show S.div (.fin 100) (.inf false) = .fin 0 by simp [FloatSem.div, Fl.sgn, Fl.zero]]
    exact ⟨by simp, by simp⟩
  · rw [e]
    rcases FloatSem.div_is (S := S) (Fl.is_fin 100) (Fl.is_fin q) (by linarith) with ⟨_, h⟩ | ⟨h, _⟩
    · rw [h]
      have hq0 : 0 < q := by linarith
      refine between_rnd hS (by norm_num) (by norm_num) ?_ ?_
      · push_cast; positivity
      · push_cast; rw [div_le_iff₀ hq0]; linarith
    · norm_num at h

theorem hundred_sub_between {S : FloatSem} (hS : Lawful S) {z : Fl} (h : Spec.Between (0 : ℤ) (100 : ℤ) z) :
    Spec.Between (0 : ℤ) (100 : ℤ) (S.sub (.fin 100) z) := by
  obtain ⟨y, hy, y0, y1⟩ := between_is h
  push_cast at y0 y1
  unfold FloatSem.sub
  rcases FloatSem.add_is (S := S) (Fl.is_fin 100) hy.neg with e | ⟨_, e, _⟩
  · rw [e]
    exact between_rnd hS (by norm_num) (by norm_num) (by push_cast; linarith) (by push_cast; linarith)
  · norm_num at e

theorem is_isFinite {x : Fl} {a : ℚ} (h : x.Is a) : x.isFinite = true := by
  rcases h with rfl | ⟨rfl, _⟩ <;> rfl

theorem one_add_ne {S : FloatSem} (hS : Lawful S) {r : Fl} (h : Fl.le (.fin 0) r = true) :
    Fl.le (.fin 0) (S.add (.fin 1) r) = true ∧ S.add (.fin 1) r ≠ .negZero :=
  ⟨add_nonneg_fl hS (by simp) h, add_ne_negZero hS (by simp) (by simp) h⟩

theorem rsiIndex_mono {S : FloatSem} (hS : Lawful S) {u u' d d' : Fl} (hu : Fl.le (.fin 0) u = true)
    (hd' : Fl.le (.fin 0) d' = true) (huu : Fl.le u u' = true) (hdd : Fl.le d' d = true)
    (hz : d ≠ .negZero) (hz' : d' ≠ .negZero)
    (hn : rsiIndex S u d ≠ .nan) (hn' : rsiIndex S u' d' ≠ .nan) :
    Fl.le (rsiIndex S u d) (rsiIndex S u' d') = true := by
  have c1 : S.const 1 = .fin 1 := by simpa using const_int hS 1 (by norm_num)
  have c100 : S.const 100 = .fin 100 := by simpa using const_int hS 100 (by norm_num)
  unfold rsiIndex at *
  simp only [c1, c100] at *
  have m1 : S.div u d ≠ .nan := fun e => hn (by rw [e]; rfl)
  have m2 : S.div u' d' ≠ .nan := fun e => hn' (by rw [e]; rfl)
  have hm := div_mono_ratio hS hu hd' huu hdd hz' m1 m2
  have h0 := (div_nonneg_fl hS hu (fl_le_trans hd' hdd) hz).resolve_left m1
  have h0' := fl_le_trans h0 hm
  have b1 := hundred_between hS h0
  have b2 := hundred_between hS h0'
  obtain ⟨a1, i1, _, _⟩ := between_is b1
  obtain ⟨a2, i2, _, _⟩ := between_is b2
  have hy : Fl.le (S.add (.fin 1) (S.div u d)) (S.add (.fin 1) (S.div u' d')) = true :=
    add_mono_nonneg hS (by simp) h0 (by simp) hm
  have hq := div_mono_ratio hS (u := .fin 100) (u' := .fin 100) (by simp) (one_add_ne hS h0).1 (by simp) hy
    (one_add_ne hS h0).2 i2.ne_nan i1.ne_nan
  have hs := sub_mono hS (x := .fin 100) (x' := .fin 100) rfl (is_isFinite i1) rfl (is_isFinite i2) (by simp) hq
  obtain ⟨w1, j1, _, _⟩ := between_is (hundred_sub_between hS b1)
  obtain ⟨w2, j2, _, _⟩ := between_is (hundred_sub_between hS b2)
  refine to32_mono hS j1 j2 ?_
  rw [j1.le j2] at hs
  simpa using hs

theorem moves_snoc (xs : List Fl) (p c : Fl) :
    moves (xs ++ [p] ++ [c]) = moves (xs ++ [p]) ++ [(p, c)] := by
  induction xs with
  | nil => rfl
  | cons x xs ih =>
    cases xs with
    | nil => rfl
    | cons y ys =>
      simp only [moves, List.cons_append, List.tail_cons, List.zip_cons_cons] at ih ⊢
      exact congrArg _ ih

theorem fsum_rises_snoc (S : FloatSem) (xs : List Fl) (p c : Fl) :
    fsum S (rises S (xs ++ [p] ++ [c])) = if Fl.lt p c then S.add (fsum S (rises S (xs ++ [p]))) (S.sub c p)
      else fsum S (rises S (xs ++ [p])) := by
  unfold rises
  rw [moves_snoc]
  cases h : Fl.lt p c <;> simp [fsum, h]

theorem fsum_falls_snoc (S : FloatSem) (xs : List Fl) (p c : Fl) :
    fsum S (falls S (xs ++ [p] ++ [c])) = if Fl.lt c p then S.add (fsum S (falls S (xs ++ [p]))) (S.sub p c)
      else fsum S (falls S (xs ++ [p])) := by
  unfold falls
  rw [moves_snoc]
  cases h : Fl.lt c p <;> simp [fsum, h]

theorem fsum_rep {S : FloatSem} (hS : Lawful S) {l : List Fl} (hl : ∀ x ∈ l, Fl.le (.fin 0) x = true) :
    Fl.le (.fin 0) (fsum S l) = true ∧ fsum S l ≠ .negZero ∧ InfOrRep S (fsum S l) := by
  have h := foldl_add_inv hS hl (.fin 0) (by simp) (by simp)
  exact ⟨h.1, h.2, sums_rep hS hl _ (by simp) (by simp) (.inr ⟨0, rfl, rnd_zero hS⟩)⟩

/-- A window with a higher last close has no lower index. -/
theorem calculateRSI_last_close {S : FloatSem} (hS : Lawful S) (w : List Candle) (p c c' : Candle)
    (hp : p.close.isFinite = true) (hc : c.close.isFinite = true) (hc' : c'.close.isFinite = true)
    (h : Fl.le c.close c'.close = true)
    (hn : calculateRSI S (w ++ [p] ++ [c]) ≠ .nan) (hn' : calculateRSI S (w ++ [p] ++ [c']) ≠ .nan) :
    Fl.le (calculateRSI S (w ++ [p] ++ [c])) (calculateRSI S (w ++ [p] ++ [c'])) = true := by
  have ip := Fl.isFinite_is hp
  have ic := Fl.isFinite_is hc
  have ic' := Fl.isFinite_is hc'
  have hq : c.close.toRat ≤ c'.close.toRat := by rw [ic.le ic'] at h; simpa using h
  have nn : ∀ x : Fl, x.isFinite = true → Fl.le x x = true := fun x hx =>
    le_refl_fl (Fl.isFinite_is hx).ne_nan
  obtain ⟨u0, uz, ur⟩ := fsum_rep hS (rises_nonneg hS ((w ++ [p]).map Candle.close))
  obtain ⟨d0, dz, dr⟩ := fsum_rep hS (falls_nonneg hS ((w ++ [p]).map Candle.close))
  obtain ⟨e0, ez, _⟩ := fsum_rep hS (falls_nonneg hS ((w ++ [p] ++ [c]).map Candle.close))
  obtain ⟨f0, fz, _⟩ := fsum_rep hS (falls_nonneg hS ((w ++ [p] ++ [c']).map Candle.close))
  obtain ⟨g0, _, _⟩ := fsum_rep hS (rises_nonneg hS ((w ++ [p] ++ [c]).map Candle.close))
  rw [calculateRSI_eq] at *
  rw [calculateRSI_eq]
  refine rsiIndex_mono hS g0 f0 ?_ ?_ ez fz hn hn'
  · simp only [List.map_append, List.map_cons, List.map_nil] at u0 ur ⊢
    rw [fsum_rises_snoc, fsum_rises_snoc, ip.lt ic, ip.lt ic']
    by_cases h1 : p.close.toRat < c.close.toRat
    · rw [if_pos (by simpa using h1), if_pos (by simpa using lt_of_lt_of_le h1 hq)]
      exact add_mono_nonneg hS u0 (sub_gt_nonneg hS (by rw [ip.lt ic]; simpa using h1))
        (le_refl_fl (nonneg_num u0)) (sub_mono hS hc hp hc' hp h (nn _ hp))
    · rw [if_neg (by simpa using h1)]
      by_cases h2 : p.close.toRat < c'.close.toRat
      · rw [if_pos (by simpa using h2)]
        exact le_add_rep hS u0 ur (sub_gt_nonneg hS (by rw [ip.lt ic']; simpa using h2))
      · rw [if_neg (by simpa using h2)]
        exact le_refl_fl (nonneg_num u0)
  · simp only [List.map_append, List.map_cons, List.map_nil] at d0 dr ⊢
    rw [fsum_falls_snoc, fsum_falls_snoc, ic.lt ip, ic'.lt ip]
    by_cases h1 : c'.close.toRat < p.close.toRat
    · rw [if_pos (by simpa using h1), if_pos (by simpa using lt_of_le_of_lt hq h1)]
      exact add_mono_nonneg hS d0 (sub_gt_nonneg hS (by rw [ic'.lt ip]; simpa using h1))
        (le_refl_fl (nonneg_num d0)) (sub_mono hS hp hc' hp hc (nn _ hp) h)
    · rw [if_neg (by simpa using h1)]
      by_cases h2 : c.close.toRat < p.close.toRat
      · rw [if_pos (by simpa using h2)]
        exact le_add_rep hS d0 dr (sub_gt_nonneg hS (by rw [ic.lt ip]; simpa using h2))
      · rw [if_neg (by simpa using h2)]
        exact le_refl_fl (nonneg_num d0)

theorem window_last {α : Type} {l : List α} {k n : Nat} {p c : α} (hn : 1 ≤ n) (hp : l[k + n - 1]? = some p)
    (hc : l[k + n]? = some c) :
    (l.drop k).take (n + 1) = (l.drop k).take (n - 1) ++ [p] ++ [c] := by
  obtain ⟨m, rfl⟩ : ∃ m, n = m + 1 := ⟨n - 1, by omega⟩
  rw [List.take_add_one, List.take_add_one, Nat.add_sub_cancel, List.getElem?_drop, List.getElem?_drop]
  rw [show k + (m + 1) - 1 = k + m by omega] at hp
  rw [hp, hc]
  simp

theorem window_set {α : Type} (l : List α) {k n i : Nat} (x : α) (h : i < k ∨ k + n < i) :
    ((l.set i x).drop k).take (n + 1) = (l.drop k).take (n + 1) := by
  apply List.ext_getElem?
  intro j
  rw [List.getElem?_take, List.getElem?_take]
  split
  · rw [List.getElem?_drop, List.getElem?_drop, List.getElem?_set_ne (by omega)]
  · rfl

/-- **C151.** A higher close of one candle does not lower the value of the window that ends with that
candle (a number in both runs), and leaves the value of every window without that candle as it was. -/
theorem C151_last_close {S : FloatSem} (hS : Lawful S) (cs spare cs' spare' : List Candle)
    (h14 : 14 ≤ cs.length) (hs : spare ≠ []) (n k : Nat) (hn1 : 1 ≤ n) (hn : n ≤ cs.length)
    (hk : k ≤ cs.length - n) (p c c' : Candle)
    (hl : cs'.length = cs.length) (hset : cs' ++ spare' = (cs ++ spare).set (k + n) c')
    (ep : (cs ++ spare)[k + n - 1]? = some p) (ec : (cs ++ spare)[k + n]? = some c)
    (hp : p.close.isFinite = true) (hc : c.close.isFinite = true) (hc' : c'.close.isFinite = true)
    (h : Fl.le c.close c'.close = true) :
    ∃ out out', RSI S (some cs) spare n = .ok out ∧ RSI S (some cs') spare' n = .ok out' ∧
      out'.length = out.length ∧
      (∃ v v', out[k]? = some v ∧ out'[k]? = some v' ∧ (v ≠ .nan → v' ≠ .nan → Fl.le v v' = true)) ∧
      ∀ j, j < k ∨ k + n < j → out'[j]? = out[j]? := by
  have hl2 : spare'.length = spare.length := by
    have := congrArg List.length hset
    simp only [List.length_append, List.length_set] at this
    omega
  have hs' : spare' ≠ [] := by
    rw [← List.length_pos_iff, hl2]; exact List.length_pos_iff.2 hs
  have hin : k + n < (cs ++ spare).length := (List.getElem?_eq_some_iff.1 ec).1
  refine ⟨_, _, rsi_ok S cs spare h14 hs n hn, rsi_ok S cs' spare' (by omega) hs' n (by omega), by simp [hl],
    ⟨calculateRSI S (((cs ++ spare).drop k).take (n + 1)), calculateRSI S (((cs' ++ spare').drop k).take (n + 1)),
      ?_, ?_, ?_⟩, ?_⟩
  · rw [List.getElem?_map, List.getElem?_range (by omega)]; rfl
  · rw [List.getElem?_map, List.getElem?_range (by omega)]; rfl
  · have e1 := window_last hn1 ep ec
    have e2 : ((cs' ++ spare').drop k).take (n + 1) = ((cs ++ spare).drop k).take (n - 1) ++ [p] ++ [c'] := by
      rw [hset, window_last (p := p) (c := c') hn1 (by rw [List.getElem?_set_ne (by omega)]; exact ep)
        (List.getElem?_set_self hin)]
      congr 2
      by_cases h1 : n = 1
      · subst h1; rfl
      · have := window_set (cs ++ spare) (k := k) (n := n - 2) (i := k + n) c' (by omega)
        rwa [show n - 2 + 1 = n - 1 by omega] at this
    rw [e1, e2]
    exact calculateRSI_last_close hS _ p c c' hp hc hc' h
  · intro j hj
    rw [hl, List.getElem?_map, List.getElem?_map]
    by_cases hj' : j < cs.length - n + 1
    · rw [List.getElem?_range hj']
      simp only [Option.map_some]
      rw [hset, window_set _ _ (by omega)]
    · rw [List.getElem?_eq_none (by simp; omega)]
      rfl

/-- Window 1 of 14 candles ends with the spare candle; its close goes up from 0 to 16. -/
example : RSI ieee (some rsiExample) [rsiCandle 0] 14 =
      .ok [.fin (9252141 / 131072), .fin (8738133 / 262144)] ∧
    (match RSI ieee (some rsiExample) [rsiCandle 16] 14 with
      | .ok [a, b] => decide (a = .fin (9252141 / 131072)) && Fl.lt (.fin (8738133 / 262144)) b
      | _ => false) = true ∧
    rsiExample ++ [rsiCandle 16] = (rsiExample ++ [rsiCandle 0]).set (1 + 14) (rsiCandle 16) := by
  decide +kernel

/-! ## Mirrored prices, the whole result -/

/-- Each value `v` becomes `100 - v`. -/
def Spec.mirrorRes : Res (List Fl) → Res (List Fl)
  | .ok l => .ok (l.map fun v => FloatSem.exact.sub (.fin 100) v)
  | .err e l => .err e (l.map fun v => FloatSem.exact.sub (.fin 100) v)
  | .panic => .panic

theorem rsiLoop_mirror {arr arr' : List Candle} {len : Nat} (hl : arr.length = arr'.length)
    (hc : ∀ i j, calculateRSI FloatSem.exact ((arr'.take j).drop i) =
      FloatSem.exact.sub (.fin 100) (calculateRSI FloatSem.exact ((arr.take j).drop i))) :
    ∀ (fuel i : Nat) (j : Int) (acc : List Fl),
      rsiLoop FloatSem.exact arr' len fuel i j (acc.map fun v => FloatSem.exact.sub (.fin 100) v) =
        mirrorRes (rsiLoop FloatSem.exact arr len fuel i j acc) := by
  intro fuel
  induction fuel with
  | zero => intros; rfl
  | succ fuel ih =>
    intro i j acc
    unfold rsiLoop
    rw [← hl]
    split_ifs
    · rfl
    · rw [hc, ← ih]
      simp
    · rfl

/-- **C151.** Prices turned upside down (`x` becomes `b - x`) turn every value `v` into `100 - v`, for
every period; errors and panics stay. -/
theorem C151_mirror {cs cs' spare spare' : List Candle} {xs ys : List ℚ} {b : ℚ}
    (h1 : Closes cs xs) (h2 : Closes spare ys) (h1' : Closes cs' (xs.map fun x => b - x))
    (h2' : Closes spare' (ys.map fun x => b - x)) (period : Int) :
    RSI FloatSem.exact (some cs') spare' period = mirrorRes (RSI FloatSem.exact (some cs) spare period) := by
  have l1 : cs'.length = cs.length := by rw [h1'.length_eq, h1.length_eq, List.length_map]
  have l2 : spare'.length = spare.length := by rw [h2'.length_eq, h2.length_eq, List.length_map]
  have hall : Closes (cs ++ spare) (xs ++ ys) := List.rel_append h1 h2
  have hall' : Closes (cs' ++ spare') ((xs ++ ys).map fun x => b - x) := by
    rw [List.map_append]; exact List.rel_append h1' h2'
  unfold RSI
  simp only
  rw [l1, show (cs' ++ spare').length = (cs ++ spare).length by simp [l1, l2]]
  split_ifs
  · rfl
  · refine rsiLoop_mirror (by simp [l1, l2]) ?_ _ _ _ []
    intro i j
    refine calculateRSI_mirror (xs := ((xs ++ ys).take j).drop i) (b := b) ?_ ?_
    · exact List.forall₂_drop i (List.forall₂_take j hall)
    · rw [List.map_drop, List.map_take]
      exact List.forall₂_drop i (List.forall₂_take j hall')

example : RSI FloatSem.exact (some rsiExample) [rsiCandle 0] 13 =
      .ok [.fin (200/3), .fin (275/4), .fin (275/8)] ∧
    RSI FloatSem.exact (some ([10, 11, 10, 12, 13, 12, 12, 14, 13, 15, 16, 15, 14, 15, 17].map
      fun x => rsiCandle (30 - x))) [rsiCandle 30] 13 = .ok [.fin (100/3), .fin (125/4), .fin (525/8)] := by
  decide +kernel

/-! ## More candles -/

/-- **C151.** When the slice grows over candles that its array already holds, the values it had stay. -/
theorem C151_more_candles (S : FloatSem) (cs ext spare : List Candle) (h14 : 14 ≤ cs.length) (hs : spare ≠ [])
    (n : Nat) (hn : n ≤ cs.length) :
    ∃ out more, RSI S (some cs) (ext ++ spare) n = .ok out ∧
      RSI S (some (cs ++ ext)) spare n = .ok (out ++ more) ∧ more.length = ext.length := by
  refine ⟨_, (List.range ext.length).map fun k => calculateRSI S
    (((cs ++ ext ++ spare).drop (cs.length - n + 1 + k)).take (n + 1)),
    rsi_ok S cs (ext ++ spare) h14 (by simp [hs]) n hn, ?_, by simp⟩
  rw [rsi_ok S (cs ++ ext) spare (by simp; omega) hs n (by simp; omega)]
  rw [List.length_append, show cs.length + ext.length - n + 1 = (cs.length - n + 1) + ext.length by omega,
    List.range_add, List.map_append, List.map_map, List.append_assoc]
  rfl

example : RSI ieee (some rsiExample) [rsiCandle 0, rsiCandle 3] 14 =
      .ok [.fin (9252141 / 131072), .fin (8738133 / 262144)] ∧
    (match RSI ieee (some (rsiExample ++ [rsiCandle 0])) [rsiCandle 3] 14 with
      | .ok [a, b, _] => decide (a = .fin (9252141 / 131072) ∧ b = .fin (8738133 / 262144))
      | _ => false) = true := by
  decide +kernel

end Finmod
