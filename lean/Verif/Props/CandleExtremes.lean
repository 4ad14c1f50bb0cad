import Verif.Props.CandleSpacing
import Verif.Props.NaNSpread
import Verif.Props.Extremes

/-!
# C207, C208: error codes, special volumes and the interval of resampled candles
-/

namespace Finmod
open Go Spec

theorem compressCandle_not_err {S : FloatSem} (hS : Lawful S) (hp : PrintSafe S) {cs : List Candle} {i j : Nat}
    {e : ErrCode} {w : Candle} : compressCandle S cs i j ≠ .err e w := by
  intro h
  unfold compressCandle at h
  split at h
  · split at h
    · simp only at h
      split at h
      · simp at h
      · rename_i hn
        have h0 : S.Rep (.fin 0) := by
          intro q hq
          simp only [Fl.fin.injEq] at hq; subst hq
          simpa using hS.r64.int 0 (by norm_num)
        have hrep := rep_volumeLoop hS h0 ((cs.drop i).take (j - i))
        cases hv : volumeLoop S (.fin 0) ((cs.drop i).take (j - i)) with
        | fin q => rw [hv] at hn; exact hp q (hrep q hv) hn
        | nan => rw [hv] at hn; simp [fixed5] at hn
        | inf b => rw [hv] at hn; simp [fixed5] at hn
        | negZero => rw [hv] at hn; simp [fixed5] at hn
    · simp at h
  · simp at h

theorem resampleLoop_not_err {S : FloatSem} (hS : Lawful S) (hp : PrintSafe S) {candles vs : List Candle}
    {interval pivot : Int} {i start : Nat} {acc : List Candle} {e : ErrCode} {w : List Candle × Nat} :
    resampleLoop S candles interval pivot vs i start acc ≠ .err e w := by
  intro h
  induction vs generalizing i start acc with
  | nil => simp [resampleLoop] at h
  | cons v vs ih =>
    unfold resampleLoop at h
    split at h
    · simp at h
    · split at h
      · exact ih h
      · rename_i hc; exact compressCandle_not_err hS hp hc
      · simp at h
    · exact ih h

/-- **C207** The error of a failed call: ECONFLICT if the interval does not fit the spacing of the
first two candles, EINVALID if no candle starts an interval, and no candles either way. The error of
reading back the printed volume never occurs, whatever the prices and volumes. -/
theorem C207_codes {S : FloatSem} (hS : Lawful S) (hp : PrintSafe S) (minute : Int → Int) (cs : List Candle)
    (interval : Int) (e : ErrCode) (v : List Candle) (h : modifyInterval S minute cs interval = .err e v) :
    v = [] ∧ ((e = .econflict ∧ ∃ c0 c1 rest, cs = c0 :: c1 :: rest ∧
        (let d := Int.tdiv (wrap64 (c1.time - c0.time)) 60; (d ≠ 1 ∧ interval = 1) ∨ ¬ d ∣ interval)) ∨
      (e = .einvalid ∧ ∀ c ∈ cs, ¬ Aligned minute interval c)) := by
  unfold modifyInterval at h
  split at h
  · simp at h
  · split at h
    · rename_i c0 c1 rest _
      simp only at h
      split at h
      · rename_i hx
        simp only [Res.err.injEq] at h
        exact ⟨h.2.symm, .inl ⟨h.1.symm, _, _, _, rfl, .inl hx⟩⟩
      split at h
      · simp at h
      split at h
      · rename_i hx
        simp only [Res.err.injEq] at h
        exact ⟨h.2.symm, .inl ⟨h.1.symm, _, _, _, rfl, .inr fun hd => hx (Int.dvd_iff_tmod_eq_zero.1 hd)⟩⟩
      split at h
      · split at h
        · split at h
          · split at h
            · simp at h
            · rename_i hc; exact absurd hc (compressCandle_not_err hS hp)
            · simp at h
          · rename_i hc; exact absurd hc (resampleLoop_not_err hS hp)
          · simp at h
        · simp at h
      · rename_i hf
        simp only [Res.err.injEq] at h
        refine ⟨h.2.symm, .inr ?_⟩
        unfold findFirstIndex at hf
        split at hf
        · simp at hf
        · rename_i hidx
          simp only [Res.err.injEq] at hf
          refine ⟨by rw [← h.1, ← hf.1], ?_⟩
          intro c hc hal
          have := findIdx?_none_all hidx c hc
          rw [(isAligned_iff _ _ _).2 hal] at this
          exact absurd this (by simp)
      · simp at h
    · simp at h

theorem ieee_codes (minute : Int → Int) (cs : List Candle) (interval : Int) (e : ErrCode) (v : List Candle)
    (h : modifyInterval ieee minute cs interval = .err e v) : e = .econflict ∨ e = .einvalid := by
  rcases (C207_codes ieee_lawful ieee_printSafe minute cs interval e v h).2 with h | h
  · exact .inl h.1
  · exact .inr h.1

theorem sum_nonneg_fl {S : FloatSem} (hS : Lawful S) {l : List Fl} (h : ∀ x ∈ l, Fl.le (.fin 0) x = true) {a : Fl}
    (ha : Fl.le (.fin 0) a = true) : Fl.le (.fin 0) (l.foldl S.add a) = true := by
  induction l generalizing a with
  | nil => exact ha
  | cons x l ih =>
    exact ih (fun y hy => h y (by simp [hy])) (add_nonneg_fl hS ha (h x (by simp)))

theorem inf_add_nonneg {S : FloatSem} {x : Fl} (h : Fl.le (.fin 0) x = true) : S.add (.inf false) x = .inf false := by
  rcases nonneg_cases h with rfl | ⟨q, hx, _⟩
  · rfl
  · exact add_inf_finite (isFinite_of_is hx)

theorem nonneg_add_inf {S : FloatSem} {x : Fl} (h : Fl.le (.fin 0) x = true) : S.add x (.inf false) = .inf false := by
  rcases nonneg_cases h with rfl | ⟨q, hx, _⟩
  · rfl
  · exact add_finite_inf (isFinite_of_is hx)

theorem sum_from_inf {S : FloatSem} {l : List Fl} (h : ∀ x ∈ l, Fl.le (.fin 0) x = true) :
    l.foldl S.add (.inf false) = .inf false := by
  induction l with
  | nil => rfl
  | cons x l ih => rw [List.foldl_cons, inf_add_nonneg (h x (by simp))]; exact ih (fun y hy => h y (by simp [hy]))

theorem sum_mem_inf {S : FloatSem} (hS : Lawful S) {l : List Fl} (h : ∀ x ∈ l, Fl.le (.fin 0) x = true) {a : Fl}
    (ha : Fl.le (.fin 0) a = true) (hm : Fl.inf false ∈ l) : l.foldl S.add a = .inf false := by
  induction l generalizing a with
  | nil => simp at hm
  | cons x l ih =>
    have hl : ∀ y ∈ l, Fl.le (.fin 0) y = true := fun y hy => h y (by simp [hy])
    rw [List.foldl_cons]
    rcases List.mem_cons.1 hm with e | hm
    · rw [← e, nonneg_add_inf ha]; exact sum_from_inf hl
    · exact ih hl (add_nonneg_fl hS ha (h x (by simp))) hm

theorem rounded_nonneg {S : FloatSem} (hS : Lawful S) {x y : Fl} (hr : Rounded5 S x y) (hx : Fl.le (.fin 0) x = true) :
    Fl.le (.fin 0) y = true := by
  rcases hr with ⟨_, rfl⟩ | ⟨hf, n, hn, hy⟩
  · exact hx
  · have h0 : 0 ≤ x.toRat := by
      rcases nonneg_cases hx with rfl | ⟨q, hq, h0⟩
      · simp [Fl.isFinite] at hf
      · rw [(Fl.is_iff.1 hq).2]; exact h0
    rcases hy with rfl | ⟨_, hy⟩
    · apply rnd_nonneg hS
      have h1 : (-1 : ℚ) < (n : ℚ) := by
        have := (abs_le.1 hn).2
        nlinarith
      have h2 : (0 : ℤ) ≤ n := by
        have : (-1 : ℤ) < n := by exact_mod_cast h1
        omega
      have h3 : (0 : ℚ) ≤ n := by exact_mod_cast h2
      positivity
    · exact is_nonneg hy (le_refl _)

/-- `c` has the volume that group `g` of candles with volumes of zero or more gives: a number of zero
or more, infinite exactly if the running sum reaches infinity, as it does from an infinite volume. -/
structure Spec.VolumeOf (S : FloatSem) (g : List Candle) (c : Candle) : Prop where
  nonneg : Fl.le (.fin 0) c.volume = true
  of_inf : (∃ v ∈ g, v.volume = .inf false) → c.volume = .inf false
  overflow : volumeSum S g = .inf false → c.volume = .inf false
  finite : volumeSum S g ≠ .inf false → c.volume.isFinite = true

theorem summary_volume {S : FloatSem} (hS : Lawful S) {g : List Candle} {c : Candle}
    (hc : compressGroup S g = .ok c) (h : ∀ v ∈ g, Fl.le (.fin 0) v.volume = true) : VolumeOf S g c := by
  have hv := (compressGroup_summary hc).volume
  have hl : ∀ x ∈ g.map (·.volume), Fl.le (.fin 0) x = true := by
    intro x hx
    obtain ⟨v, hv, rfl⟩ := List.mem_map.1 hx
    exact h v hv
  have hz : Fl.le (.fin 0) (.fin 0) = true := by decide
  have h0 : Fl.le (.fin 0) (volumeSum S g) = true := sum_nonneg_fl hS hl hz
  have hov : volumeSum S g = .inf false → c.volume = .inf false := by
    intro e
    rw [e] at hv
    rcases hv with ⟨_, hv⟩ | ⟨hv, _⟩
    · exact hv
    · simp [Fl.isFinite] at hv
  refine ⟨rounded_nonneg hS hv h0, ?_, hov, ?_⟩
  · rintro ⟨v, hv, e⟩
    apply hov
    exact sum_mem_inf hS hl hz (List.mem_map.2 ⟨v, hv, e⟩)
  · intro hne
    rcases nonneg_cases h0 with e | ⟨q, hq, _⟩
    · exact absurd e hne
    unfold compressGroup at hc
    split at hc
    · split at hc
      · rename_i vol hf
        simp only [Res.ok.injEq] at hc
        rw [← hc]
        rw [volumeLoop_eq] at hf
        change fixed5 S (volumeSum S g) = some vol at hf
        change vol.isFinite = true
        cases hx : volumeSum S g with
        | nan => rw [hx] at hq; simp [Fl.Is] at hq
        | inf b => rw [hx] at hq; simp [Fl.Is] at hq
        | negZero => rw [hx] at hf; simp [fixed5] at hf; rw [← hf]; rfl
        | fin r =>
          rw [hx] at hf
          simp only [fixed5] at hf
          split at hf
          · simp only [Option.some.injEq] at hf
            rw [← hf]; cases decide (r < 0) <;> rfl
          · have hn := hS.r64.not_nan ((roundInt (r * 100000) : ℚ) / 100000)
            split at hf
            · simp at hf
            · rename_i y hy
              simp only [Option.some.injEq] at hf
              rw [← hf]
              cases hr : S.rnd ((roundInt (r * 100000) : ℚ) / 100000) with
              | nan => exact absurd hr hn
              | inf b => exact absurd hr (hy b)
              | fin _ => rfl
              | negZero => rfl
      · simp at hc
    · simp at hc

/-- **C207** Candles whose volumes are numbers of zero or more: no resampled volume is NaN or negative. -/
theorem C207_volume {S : FloatSem} (hS : Lawful S) (minute : Int → Int) (cs : List Candle)
    (interval : Int) (out : List Candle) (hlen : 2 ≤ cs.length) (h : modifyInterval S minute cs interval = .ok out)
    (hv : ∀ v ∈ cs, Fl.le (.fin 0) v.volume = true) :
    ∃ groups : List (List Candle), retained minute interval cs = groups.flatten ∧
      List.Forall₂ (fun g c => Summary S g c ∧ VolumeOf S g c) groups out := by
  obtain ⟨pre, p, rest, hs, hpre, hp, _, hm⟩ := modifyInterval_ok hlen h
  have hret : retained minute interval cs = p :: rest := by
    rw [hs, retained, List.dropWhile_append_of_pos]
    · rw [List.dropWhile_cons_of_neg]
      simp only [decide_not, Bool.not_eq_true', decide_eq_false_iff_not, not_not]
      exact (isAligned_iff _ _ _).1 hp
    · intro v hv
      have := hpre v hv
      simp only [decide_eq_true_eq]
      intro hc
      rw [(isAligned_iff _ _ _).2 hc] at this
      exact absurd this (by simp)
  have hfl : (splitB (boundary S interval p.time) [p] rest).flatten = p :: rest := by
    rw [splitB_flatten]; rfl
  refine ⟨splitB (boundary S interval p.time) [p] rest, by rw [hret, hfl], ?_⟩
  have hf := resMapL_ok hm
  have key : ∀ {gs : List (List Candle)} {os : List Candle},
      List.Forall₂ (fun g c => compressGroup S g = .ok c) gs os → (∀ g ∈ gs, ∀ v ∈ g, v ∈ cs) →
      List.Forall₂ (fun g c => Summary S g c ∧ VolumeOf S g c) gs os := by
    intro gs os hf
    induction hf with
    | nil => intro _; exact .nil
    | cons h _ ih =>
      intro hmem
      refine .cons ⟨compressGroup_summary h, summary_volume hS h (fun v hvv => hv v (hmem _ (by simp) v hvv))⟩ ?_
      exact ih (fun g hg => hmem g (by simp [hg]))
  refine key hf ?_
  intro g hg v hvg
  have : v ∈ (splitB (boundary S interval p.time) [p] rest).flatten := List.mem_flatten.2 ⟨g, hg, hvg⟩
  rw [hfl] at this
  rw [hs]; exact List.mem_append.2 (.inr this)

theorem rnd_scaled {k : ℕ} (hk : k < 2 ^ 53) :
    ieee.rnd ((k : ℚ) * (2 : ℚ) ^ (971 : ℤ)) = .fin ((k : ℚ) * (2 : ℚ) ^ (971 : ℤ)) := by
  refine C102_nearest_even.1.exact _ ⟨(k : ℤ), 971, ?_, by norm_num, by norm_num, by push_cast; rfl⟩
  rw [abs_of_nonneg (by omega)]
  exact_mod_cast hk

theorem sum_bounded {B : ℚ} (hB : ∀ k : ℕ, k < 2 ^ 53 → ieee.rnd ((k : ℚ) * B) = .fin ((k : ℚ) * B)) {l : List Fl} (k : ℕ)
    (hk : k + l.length < 2 ^ 53) (h : ∀ x ∈ l, ∃ q, x.Is q ∧ 0 ≤ q ∧ q ≤ B) {a : Fl} {b : ℚ} (ha : a.Is b)
    (hb0 : 0 ≤ b) (hb : b ≤ (k : ℚ) * B) : (l.foldl ieee.add a).isFinite = true := by
  induction l generalizing k a b with
  | nil => exact isFinite_of_is ha
  | cons x l ih =>
    obtain ⟨q, hq, hq0, hq1⟩ := h x (by simp)
    rw [List.length_cons] at hk
    have hle : b + q ≤ ((k + 1 : ℕ) : ℚ) * B := by push_cast; linarith
    have hm := ieee_lawful.r64.mono _ _ hle
    rw [hB (k + 1) (by omega)] at hm
    have hBk : 0 ≤ ((k + 1 : ℕ) : ℚ) * B := by linarith
    rw [List.foldl_cons]
    have hnext : ∃ r, (ieee.add a x).Is r ∧ 0 ≤ r ∧ r ≤ ((k + 1 : ℕ) : ℚ) * B := by
      rcases FloatSem.add_is (S := ieee) ha hq with e | ⟨e, -, -⟩
      · rw [e]
        rcases rnd_nonneg_cases ieee_lawful (add_nonneg hb0 hq0) with e' | ⟨r, hr, hr0⟩
        · rw [e'] at hm
          simp only [Fl.key] at hm
          exact absurd hm (not_le.2 Ext.ofRat_lt_top)
        · refine ⟨r, hr, hr0, ?_⟩
          rw [hr.key] at hm
          simpa [Fl.key] using hm
      · rw [e]; exact ⟨0, Fl.is_negZero, le_rfl, hBk⟩
    obtain ⟨r, hr, hr0, hr1⟩ := hnext
    exact ih (k + 1) (by omega) (fun y hy => h y (by simp [hy])) hr hr0 hr1

/-- **C207** binary64 volumes from 0 to `2^971`: no resampled volume is infinite. -/
theorem C207_bounded (minute : Int → Int) (cs : List Candle) (interval : Int) (out : List Candle)
    (hlen : 2 ≤ cs.length) (hlt : cs.length < 2 ^ 53) (h : modifyInterval ieee minute cs interval = .ok out)
    (hv : ∀ v ∈ cs, ∃ q, v.volume.Is q ∧ 0 ≤ q ∧ q ≤ (2 : ℚ) ^ (971 : ℤ)) :
    ∀ c ∈ out, ∃ q, c.volume.Is q ∧ 0 ≤ q := by
  obtain ⟨groups, hfl, hf⟩ := C207_volume ieee_lawful minute cs interval out hlen h (by
    intro v hm
    obtain ⟨q, hq, h0, _⟩ := hv v hm
    exact is_nonneg hq h0)
  intro c hc
  obtain ⟨g, hg, -, hgv⟩ := forall₂_mem_right hf c hc
  have hsub : (groups.flatten).Sublist cs := by rw [← hfl]; exact List.dropWhile_sublist _
  have hgs : g.Sublist cs := (List.sublist_flatten_of_mem hg).trans hsub
  have hfin : (volumeSum ieee g).isFinite = true := by
    unfold volumeSum
    refine sum_bounded (B := (2 : ℚ) ^ (971 : ℤ)) (fun k hk => rnd_scaled hk) 0 ?_ ?_ (b := 0) (by simp) le_rfl (by simp)
    · have := hgs.length_le
      simp only [List.length_map]; omega
    · intro x hx
      obtain ⟨v, hvm, rfl⟩ := List.mem_map.1 hx
      exact hv v (hgs.subset hvm)
  have hcf := hgv.finite (by intro e; rw [e] at hfin; simp [Fl.isFinite] at hfin)
  obtain ⟨a, ha⟩ := fin_of_finite hcf
  refine ⟨a, ha, ?_⟩
  have h0 := hgv.nonneg
  rcases nonneg_cases h0 with e | ⟨q, hq, h0⟩
  · rw [e] at hcf; simp [Fl.isFinite] at hcf
  · rwa [Fl.Is.unique ha hq]

/-- Four candles of a minute, to two minutes: the volumes of the first two add up beyond the largest float. -/
def hugeCandles : List Candle :=
  [⟨0, .fin 1, .fin 4, .fin 1, .fin 2, .fin (2 ^ 1023)⟩, ⟨60, .fin 1, .fin 5, .fin 1, .fin 3, .fin (2 ^ 1023)⟩,
   ⟨120, .fin 1, .fin 3, .fin 1, .fin 2, .fin (2 ^ 1023)⟩, ⟨180, .fin 1, .fin 6, .fin 1, .fin 4, .fin 1⟩]

example : 2 ≤ hugeCandles.length ∧ (∀ v ∈ hugeCandles, Fl.le (.fin 0) v.volume = true) ∧
    modifyInterval ieee utcMinute hugeCandles 2 =
      .ok [⟨0, .fin 1, .fin 5, .fin 1, .fin 3, .inf false⟩, ⟨120, .fin 1, .fin 6, .fin 1, .fin 4, .fin (2 ^ 1023)⟩] ∧
    modifyInterval ieee utcMinute hugeCandles 0 = .panic ∧
    modifyInterval ieee utcMinute (hugeCandles.map fun c => { c with time := 2 * c.time + 60 }) 3 = .err .econflict [] ∧
    modifyInterval ieee (fun _ => 7) hugeCandles 2 = .err .einvalid [] := by decide +kernel

/-- A gap of the resampled series. -/
theorem gaps_const {cs : List Candle} {t0 : Int} {w : Nat} (h : ∀ i (hi : i < cs.length), cs[i].time = t0 + w * i) :
    ∀ g ∈ gaps cs, g = w := by
  intro g hg
  unfold gaps at hg
  obtain ⟨p, hp, rfl⟩ := List.mem_map.1 hg
  obtain ⟨i, hi, rfl⟩ := List.getElem_of_mem hp
  simp only [List.length_zip, List.length_tail] at hi
  simp only [List.getElem_zip, List.getElem_tail]
  rw [h i (by omega), h (i + 1) (by omega)]
  have : t0 + (w : Int) * ((i + 1 : ℕ) : Int) - (t0 + w * i) = w := by push_cast; ring
  rw [this]; exact abs_of_nonneg (by omega)

/-- **C208** A regular series resampled to an interval has that interval, as `GetMinInterval` sees it. -/
theorem C208_minInterval (S : FloatSem) (hS : Lawful S) (minute : Int → Int) (d m : Nat)
    (hd : 1 ≤ d) (hm : 1 ≤ m) (hw : m * d < 2 ^ 47) (cs : List Candle) (hlen : 2 ≤ cs.length)
    (hr : Regular d cs) (out : List Candle) (h : modifyInterval S minute cs (m * d : Nat) = .ok out)
    (hout : 2 ≤ out.length) :
    getMinInterval S cs = d ∧ getMinInterval S out = (m * d : Nat) := by
  have hd47 : d < 2 ^ 47 := lt_of_le_of_lt (Nat.le_mul_of_pos_left d hm) hw
  have key : ∀ (l : List Candle) (t0 : Int) (k : Nat), k < 2 ^ 47 → 2 ≤ l.length →
      (∀ i (hi : i < l.length), l[i].time = t0 + (60 * k : Nat) * i) → getMinInterval S l = k := by
    intro l t0 k hk hl ht
    have hg := gaps_const (w := 60 * k) ht
    obtain ⟨g, hgm, _, e⟩ := C34_minInterval S hS l hl (by
      intro g hgm
      rw [hg g hgm]; push_cast; omega)
    rw [e, hg g hgm]; push_cast; omega
  constructor
  · refine key cs (cs[0].time) d hd47 hlen ?_
    intro i hi
    rw [hr.2 i hi]; push_cast; ring
  · obtain ⟨pre, p, rest, hs, hpre, hp, _, _⟩ := modifyInterval_ok hlen h
    have hj : pre.length < cs.length := by rw [hs]; simp
    have hcj : cs[pre.length] = p := by simp [hs]
    obtain ⟨_, hc⟩ := C28_regular S hS minute d m hd hm cs hlen hr pre.length hj
      (by rw [hcj]; exact (isAligned_iff _ _ _).1 hp)
      (by
        intro i hi hal
        have hci : cs[i] = pre[i] := by simp [hs, List.getElem_append_left hi]
        have := hpre pre[i] (List.getElem_mem hi)
        rw [hci] at hal
        rw [(isAligned_iff _ _ _).2 hal] at this
        exact absurd this (by simp)) out h
    refine key out (cs[pre.length].time) (m * d) hw hout ?_
    intro i hi
    rw [(hc i hi).2]; push_cast; ring

example : ∃ out, Regular 1 hugeCandles ∧ modifyInterval ieee utcMinute hugeCandles 2 = .ok out ∧ 2 ≤ out.length ∧
    getMinInterval ieee hugeCandles = 1 ∧ getMinInterval ieee out = 2 :=
  ⟨[⟨0, .fin 1, .fin 5, .fin 1, .fin 3, .inf false⟩, ⟨120, .fin 1, .fin 6, .fin 1, .fin 4, .fin (2 ^ 1023)⟩],
    ⟨by decide, by decide⟩, by decide +kernel, by decide, by decide +kernel, by decide +kernel⟩

end Finmod
