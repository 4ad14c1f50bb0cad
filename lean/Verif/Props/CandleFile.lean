import Verif.Lemmas.CandleFile

/-!
# Candle files (C36–C39, C103–C105)

Every statement holds for any platform (`S`), any choice of decimal digits that reads back (`pick`)
and any switch-over to scientific notation (`eprec`); `shortest_good` shows that the shortest digits
of a float64 qualify.
-/

namespace Finmod
open Go Spec

section
variable {S : FloatSem} {pick : ℚ → Nat × ℤ} {eprec : ℤ}

/-- Every write of the save was complete. -/
def Spec.AllWritten (pick : ℚ → Nat × ℤ) (eprec : ℤ) (accept : Nat → Nat) (cs : List Candle) : Prop :=
  ∀ (i : Nat) (c : Candle), cs[i]? = some c → (candleLine pick eprec c).length + 1 ≤ accept i

/-- C36. What a complete save wrote loads back as the same candles. -/
theorem C36_roundtrip (hS : Lawful S) (hp : GoodPick S pick) (he : eprec ≤ 21) (accept : Nat → Nat)
    (old : Option (List Char)) (cs : List Candle) (hc : ∀ c ∈ cs, GoCandle S c) (ht : ∀ c ∈ cs, Time32 c)
    (hw : AllWritten pick eprec accept cs) :
    (saveCandles pick eprec true accept old cs).1 = .ok () ∧
    loadCandles S (saveCandles pick eprec true accept old cs).2 = .ok cs := by
  refine ⟨rfl, ?_⟩
  have h1 : writeLoop pick eprec accept 0 cs = candleText pick eprec cs :=
    writeLoop_full accept 0 cs (fun j c h => by simpa using hw j c h)
  have h2 := (load_append hS hp he cs [] [] hc).1 ht
  simp only [saveCandles, if_true, loadCandles, h1]
  simpa [rawLines, loadLoop] using h2

/-- C36 on the machine: IEEE-754 doubles printed with the shortest digits. -/
theorem C36_roundtrip_ieee (he : eprec ≤ 21) (cs : List Candle) (hc : ∀ c ∈ cs, GoCandle ieee c)
    (ht : ∀ c ∈ cs, Time32 c) :
    loadCandles ieee (some (candleText (shortest ieee) eprec cs)) = .ok cs := by
  have h2 := (load_append ieee_lawful shortest_good he cs [] [] hc).1 ht
  simpa [loadCandles, rawLines, loadLoop] using h2

/-- C36. Two different lists never give the same file. -/
theorem C36_injective (hS : Lawful S) (hp : GoodPick S pick) (he : eprec ≤ 21) (cs ds : List Candle)
    (hc : ∀ c ∈ cs, GoCandle S c ∧ Time32 c) (hd : ∀ c ∈ ds, GoCandle S c ∧ Time32 c)
    (h : candleText pick eprec cs = candleText pick eprec ds) : cs = ds := by
  have h1 := (load_append hS hp he cs [] [] (fun c h => (hc c h).1)).1 (fun c h => (hc c h).2)
  have h2 := (load_append hS hp he ds [] [] (fun c h => (hd c h).1)).1 (fun c h => (hd c h).2)
  rw [h, h2] at h1
  simpa [rawLines, loadLoop] using h1.symm

/-- C37 as stated: every list of candles comes back. -/
def Spec.C37_claim (S : FloatSem) (pick : ℚ → Nat × ℤ) (eprec : ℤ) : Prop :=
  ∀ cs : List Candle, (∀ c ∈ cs, GoCandle S c) → loadCandles S (some (candleText pick eprec cs)) = .ok cs

/-- C37, as far as true: a saved list comes back exactly when every time fits in 32 bits; with any
other time the whole load is an error. -/
theorem C37_times_partial (hS : Lawful S) (hp : GoodPick S pick) (he : eprec ≤ 21) (cs : List Candle)
    (hc : ∀ c ∈ cs, GoCandle S c) :
    (loadCandles S (some (candleText pick eprec cs)) = .ok cs ↔ ∀ c ∈ cs, Time32 c) ∧
    ((∃ c ∈ cs, ¬ Time32 c) → loadCandles S (some (candleText pick eprec cs)) = .err .external []) := by
  obtain ⟨h1, h2⟩ := load_append hS hp he cs [] [] hc
  simp only [List.append_nil, List.nil_append] at h1 h2
  simp only [loadCandles]
  refine ⟨⟨?_, fun h => by simpa [rawLines, loadLoop] using h1 h⟩, h2⟩
  intro h
  by_contra hn
  push Not at hn
  rw [h2 hn] at h
  cases h

theorem rep_one (hS : Lawful S) : S.Rep (.fin 1) := by
  intro q h; cases h; simpa using hS.r64.int 1 (by norm_num)

/-- C37 is false: a candle of the year 2038 (or later) saves but does not load. -/
theorem C37_claim_violated (hS : Lawful S) (hp : GoodPick S pick) (he : eprec ≤ 21) :
    ¬ Spec.C37_claim S pick eprec := by
  intro h
  have h1 := rep_one hS
  have hc : ∀ c ∈ [(⟨2 ^ 31, .fin 1, .fin 1, .fin 1, .fin 1, .fin 1⟩ : Candle)], GoCandle S c := by
    intro c hc; simp only [List.mem_singleton] at hc; subst hc
    exact ⟨h1, h1, h1, h1, h1, by norm_num, by norm_num⟩
  have := ((C37_times_partial hS hp he _ hc).1.1 (h _ hc)) _ (List.mem_singleton.2 rfl)
  simp [Time32] at this

/-- C38 as stated: after a crash at any byte, the file is refused or gives a prefix of the candles. -/
def Spec.C38_claim (S : FloatSem) (pick : ℚ → Nat × ℤ) (eprec : ℤ) : Prop :=
  ∀ cs : List Candle, (∀ c ∈ cs, GoCandle S c) → (∀ c ∈ cs, Time32 c) →
    ∀ p, p <+: candleText pick eprec cs →
      (∃ code v, loadCandles S (some p) = .err code v) ∨ ∃ k, loadCandles S (some p) = .ok (cs.take k)

/-- C38 is false: after the first byte of a candle the load panics. -/
theorem C38_claim_violated (hS : Lawful S) : ¬ Spec.C38_claim S pick eprec := by
  intro h
  have h1 := rep_one hS
  have hc : ∀ c ∈ [(⟨1, .fin 1, .fin 1, .fin 1, .fin 1, .fin 1⟩ : Candle)], GoCandle S c ∧ Time32 c := by
    intro c hc; simp only [List.mem_singleton] at hc; subst hc
    exact ⟨⟨h1, h1, h1, h1, h1, by norm_num, by norm_num⟩, by simp [Time32]⟩
  have hp : loadCandles S (some ['{']) = .panic := by
    simp [loadCandles, rawLines, loadLoop, dropCR, parseLine]
  rcases h _ (fun c h => (hc c h).1) (fun c h => (hc c h).2) ['{'] ⟨_, rfl⟩ with ⟨_, _, h⟩ | ⟨_, h⟩ <;>
  · rw [hp] at h; cases h

/-- C38 is false in a second way: a file cut inside the last volume loads without complaint and
with a different volume. -/
theorem C38_misread_violated (he : 2 ≤ eprec) : ∃ (cs cs' : List Candle) (p : List Char),
    (∀ c ∈ cs, GoCandle ieee c ∧ Time32 c) ∧ p <+: candleText (shortest ieee) eprec cs ∧
    loadCandles ieee (some p) = .ok cs' ∧ ¬ cs' <+: cs := by
  have h1 := rep_one ieee_lawful
  have h12 : ieee.Rep (.fin 12) := by intro q h; cases h; simpa using ieee_lawful.r64.int 12 (by norm_num)
  have t : candleText (shortest ieee) eprec [⟨1, .fin 1, .fin 1, .fin 1, .fin 1, .fin 12⟩] =
      "{1 1 1 1 1 12}\n".toList := by
    have e1 : fmtFloat (shortest ieee) eprec (.fin 1) = ['1'] := by
      have hs : shortest ieee |1| = (1, 0) := by decide +kernel
      have hd : Nat.toDigits 10 1 = ['1'] := by decide
      simp only [fmtFloat, hs, hd, fmtG, fmtF]
      rw [if_neg (by norm_num), if_neg (by norm_num), if_neg (by norm_num; omega)]; decide
    have e12 : fmtFloat (shortest ieee) eprec (.fin 12) = ['1', '2'] := by
      have hs : shortest ieee |12| = (12, 0) := by decide +kernel
      have hd : Nat.toDigits 10 12 = ['1', '2'] := by decide
      simp only [fmtFloat, hs, hd, fmtG, fmtF]
      rw [if_neg (by norm_num), if_neg (by norm_num), if_neg (by norm_num; omega)]; decide
    simp only [candleText, candleLine, e1, e12, List.flatMap_cons, List.flatMap_nil]
    decide
  refine ⟨[⟨1, .fin 1, .fin 1, .fin 1, .fin 1, .fin 12⟩], [⟨1, .fin 1, .fin 1, .fin 1, .fin 1, .fin 1⟩],
    "{1 1 1 1 1 12".toList, ?_, ?_, by decide +kernel, by decide +kernel⟩
  · intro c hc; simp only [List.mem_singleton] at hc; subst hc
    exact ⟨⟨h1, h1, h1, h1, h12, by norm_num, by norm_num⟩, by simp [Time32]⟩
  · rw [t]; decide

/-- C38, as far as true: whatever the crash point, if the load succeeds it gives a prefix of the
saved candles, followed at most by the next candle with everything right but possibly its volume,
which is then the number spelled by a beginning of the volume's digits. -/
theorem C38_torn_partial (hS : Lawful S) (hp : GoodPick S pick) (he : eprec ≤ 21) (cs : List Candle)
    (hc : ∀ c ∈ cs, GoCandle S c) (p : List Char) (h : p <+: candleText pick eprec cs) (out : List Candle)
    (hout : loadCandles S (some p) = .ok out) :
    (∃ k, out = cs.take k) ∨
    ∃ (k : Nat) (c : Candle) (x : Fl) (digits : List Char), cs[k]? = some c ∧
      out = cs.take k ++ [{ c with volume := x }] ∧
      digits <+: fmtFloat pick eprec c.volume ∧ parseFloat S digits = some x := by
  obtain ⟨k, r, rfl, hr⟩ := prefix_candleText cs p h
  have hck : ∀ c ∈ cs.take k, GoCandle S c := fun c h => hc c (List.mem_of_mem_take h)
  obtain ⟨a, b⟩ := load_append hS hp he (cs.take k) [] r hck
  simp only [loadCandles] at hout
  by_cases ht : ∀ c ∈ cs.take k, Time32 c
  · rw [a ht, List.nil_append] at hout
    rcases hr with rfl | ⟨c, hk, hr⟩
    · left; exact ⟨k, by simpa [rawLines, loadLoop] using hout.symm⟩
    · have hch : ∀ x ∈ r, x ≠ '\n' ∧ x ≠ '\r' := fun x hx => candleLine_chars c x (hr.subset hx)
      rw [rawLines_last (fun hm => (hch _ hm).1 rfl)] at hout
      split_ifs at hout with h0
      · left; exact ⟨k, by simpa [loadLoop] using hout.symm⟩
      · have hcG := hc c (List.mem_of_getElem? hk)
        have hlen : ¬ 65535 < r.length := by
          have := length_candleLine hS hp he hcG
          have := hr.length_le
          omega
        simp only [loadLoop, hlen, if_false, dropCR_of_chars (fun x hx => (hch x hx).2)] at hout
        split at hout
        · rename_i c' hc'
          obtain ⟨v, v1, v2, v3, -⟩ := parseLine_prefix hS hp hcG hr hc'
          right
          refine ⟨k, c, c'.volume, v, hk, ?_, v1, v2⟩
          rw [← v3]; simpa using hout.symm
        · cases hout
        · cases hout
  · push Not at ht
    rw [b ht] at hout; cases hout

/-- C38: a file cut between lines loads as the candles written so far. -/
theorem C38_line_boundary_partial (hS : Lawful S) (hp : GoodPick S pick) (he : eprec ≤ 21) (cs : List Candle)
    (hc : ∀ c ∈ cs, GoCandle S c) (ht : ∀ c ∈ cs, Time32 c) (k : Nat) :
    candleText pick eprec (cs.take k) <+: candleText pick eprec cs ∧
    loadCandles S (some (candleText pick eprec (cs.take k))) = .ok (cs.take k) := by
  constructor
  · refine ⟨candleText pick eprec (cs.drop k), ?_⟩
    simp only [candleText, ← List.flatMap_append, List.take_append_drop]
  · exact (C37_times_partial hS hp he _ (fun c h => hc c (List.mem_of_mem_take h))).1.2
      (fun c h => ht c (List.mem_of_mem_take h))

/-! ### Arbitrary files -/

theorem splitSp_fields (text : List Char) : splitSp [] ((text.drop 1).dropLast) = fields text :=
  splitSp_splitOn _

theorem prefix_six {α : Type} (f : List α) (a b c d e g : α) :
    [a, b, c, d, e, g] <+: f ↔ f[0]? = some a ∧ f[1]? = some b ∧ f[2]? = some c ∧ f[3]? = some d ∧
      f[4]? = some e ∧ f[5]? = some g := by
  constructor
  · rintro ⟨r, rfl⟩; simp
  · rintro ⟨h0, h1, h2, h3, h4, h5⟩
    match f, h0, h1, h2, h3, h4, h5 with
    | _ :: _ :: _ :: _ :: _ :: _ :: r, h0, h1, h2, h3, h4, h5 =>
      simp only [List.getElem?_cons_zero, List.getElem?_cons_succ, Option.some.injEq] at h0 h1 h2 h3 h4 h5
      subst h0 h1 h2 h3 h4 h5
      exact ⟨r, rfl⟩

/-- A line gives a candle exactly when it spells it. -/
theorem parseLine_candle (text : List Char) (c : Candle) : parseLine S text = .candle c ↔ Spells S text c := by
  unfold parseLine Spells
  by_cases hl : text.length < 2
  · simp [hl]
  · simp only [hl, if_false, splitSp_fields, timeField_candle, floatField_candle, prefix_six, Parsed.candle.injEq]
    constructor
    · rintro ⟨t, t', ht, ht', o, o', ho, ho', h, h', hh, hh', l, l', hl1, hl', k, k', hk, hk', v, v', hv, hv', rfl⟩
      exact ⟨by omega, t, o, h, l, k, v, ⟨ht, ho, hh, hl1, hk, hv⟩, ht', ho', hh', hl', hk', hv'⟩
    · rintro ⟨-, t, o, h, l, k, v, ⟨ht, ho, hh, hl1, hk, hv⟩, ht', ho', hh', hl', hk', hv'⟩
      exact ⟨t, _, ht, ht', o, _, ho, ho', h, _, hh, hh', l, _, hl1, hl', k, _, hk, hk', v, _, hv, hv', rfl⟩

theorem floatField_panics {f : List (List Char)} {i : Nat} {k : Fl → Parsed} :
    floatField S f i k = .panics ↔ f[i]? = none ∨ ∃ s x, f[i]? = some s ∧ parseFloat S s = some x ∧ k x = .panics := by
  unfold floatField
  split
  · rename_i h; simp [h]
  · rename_i s h
    split
    · rename_i h2; simp [h, h2]
    · rename_i x h2; simp [h, h2]

theorem timeField_panics {f : List (List Char)} {k : Int → Parsed} :
    timeField f k = .panics ↔ f[0]? = none ∨ ∃ s x, f[0]? = some s ∧ parseInt 32 s = some x ∧ k x = .panics := by
  unfold timeField
  split
  · rename_i h; simp [h]
  · rename_i s h
    split
    · rename_i h2; simp [h, h2]
    · rename_i x h2; simp [h, h2]

/-- From field `i` on, `n` fields are read: the chain panics exactly when one of them is missing and
those before it are readable. -/
theorem chain_panics {f : List (List Char)} {i : Nat} {k : Fl → Parsed} {P : Prop}
    (hk : ∀ x, k x = .panics ↔ P) :
    floatField S f i k = .panics ↔ f[i]? = none ∨ ((∃ s, f[i]? = some s ∧ parseFloat S s ≠ none) ∧ P) := by
  rw [floatField_panics]
  simp only [hk]
  constructor
  · rintro (h | ⟨s, x, h1, h2, h3⟩)
    · exact Or.inl h
    · exact Or.inr ⟨⟨s, h1, by simp [h2]⟩, h3⟩
  · rintro (h | ⟨⟨s, h1, h2⟩, h3⟩)
    · exact Or.inl h
    · obtain ⟨x, hx⟩ := Option.ne_none_iff_exists'.1 h2
      exact Or.inr ⟨s, x, h1, hx, h3⟩

/-- A line panics exactly when there is too little on it. -/
theorem parseLine_panics (text : List Char) : parseLine S text = .panics ↔ TooFew S text := by
  unfold parseLine TooFew
  by_cases hl : text.length < 2
  · simp [hl]
  simp only [hl, if_false, splitSp_fields, false_or]
  generalize fields text = f
  rw [timeField_panics]
  have h5 : ∀ t o h l c : _, floatField S f 5 (fun v => Parsed.candle ⟨t, o, h, l, c, v⟩) = .panics ↔
      (f[5]? = none ∨ ((∃ s, f[5]? = some s ∧ parseFloat S s ≠ none) ∧ False)) := fun t o h l c =>
    chain_panics (fun x => by simp)
  simp only [chain_panics (fun o => chain_panics (fun h => chain_panics (fun l => chain_panics (fun c => h5 _ o h l c))))]
  simp only [and_false, or_false]
  have some_iff : ∀ i : Nat, f[i]? = none ↔ f.length ≤ i := fun i => List.getElem?_eq_none_iff
  constructor
  · intro h
    have hshort : f.length < 6 := by
      rcases h with h | ⟨s, x, h1, h2, h | ⟨-, h | ⟨-, h | ⟨-, h | ⟨-, h⟩⟩⟩⟩⟩ <;> rw [some_iff] at h <;> omega
    refine ⟨hshort, ?_, ?_⟩
    · intro s hs
      rcases h with h | ⟨s', x, h1, h2, -⟩
      · rw [h] at hs; cases hs
      · rw [h1] at hs; cases hs; simp [h2]
    · intro j s hj hs
      have hjl := (List.getElem?_eq_some_iff.1 hs).1
      have use : ∀ i : Nat, (∃ s, f[i]? = some s ∧ parseFloat S s ≠ none) → i = j → parseFloat S s ≠ none := by
        rintro i ⟨s', a, b⟩ rfl
        rw [hs] at a; cases a; exact b
      rcases h with h | ⟨_, _, -, -, h | ⟨g1, h | ⟨g2, h | ⟨g3, h | ⟨g4, h⟩⟩⟩⟩⟩ <;> rw [some_iff] at h
      · omega
      · omega
      · exact use 1 g1 (by omega)
      · rcases (show j = 1 ∨ j = 2 by omega) with rfl | rfl
        exacts [use 1 g1 rfl, use 2 g2 rfl]
      · rcases (show j = 1 ∨ j = 2 ∨ j = 3 by omega) with rfl | rfl | rfl
        exacts [use 1 g1 rfl, use 2 g2 rfl, use 3 g3 rfl]
      · rcases (show j = 1 ∨ j = 2 ∨ j = 3 ∨ j = 4 by omega) with rfl | rfl | rfl | rfl
        exacts [use 1 g1 rfl, use 2 g2 rfl, use 3 g3 rfl, use 4 g4 rfl]
  · rintro ⟨hs, h0, hj⟩
    have step : ∀ (i : Nat) (P : Prop), 1 ≤ i → P → (f[i]? = none ∨ ((∃ s, f[i]? = some s ∧ parseFloat S s ≠ none) ∧ P)) := by
      intro i P hi hP
      cases hfi : f[i]? with
      | none => exact Or.inl rfl
      | some s => exact Or.inr ⟨⟨s, rfl, hj i s hi hfi⟩, hP⟩
    cases hf0 : f[0]? with
    | none => exact Or.inl rfl
    | some s =>
      obtain ⟨x, hx⟩ := Option.ne_none_iff_exists'.1 (h0 s hf0)
      refine Or.inr ⟨s, x, rfl, hx, ?_⟩
      refine step 1 _ le_rfl (step 2 _ (by omega) (step 3 _ (by omega) (step 4 _ (by omega) ?_)))
      rw [some_iff]; omega

/-- The loop over the lines, when none is over-long. -/
theorem loadLoop_ok (ls : List (List Char)) (acc out : List Candle) (hlen : ∀ l ∈ ls, l.length ≤ 65535) :
    loadLoop S acc ls = .ok out ↔ ∃ cs, out = acc ++ cs ∧ List.Forall₂ (fun l c => Spells S (trimmed l) c) ls cs := by
  induction ls generalizing acc with
  | nil => simp [loadLoop]; exact eq_comm
  | cons l ls ih =>
    have h1 : ¬ 65535 < l.length := by have := hlen l (by simp); omega
    simp only [loadLoop, h1, if_false]
    have ht : dropCR l = trimmed l := rfl
    rw [ht]
    cases hp : parseLine S (trimmed l) with
    | candle c =>
      simp only
      rw [ih _ (fun x hx => hlen x (by simp [hx]))]
      have hs := (parseLine_candle _ _).1 hp
      constructor
      · rintro ⟨cs, rfl, h⟩; exact ⟨c :: cs, by simp, .cons hs h⟩
      · rintro ⟨cs, rfl, h⟩
        cases h with
        | cons hd htl =>
          rename_i c' cs'
          have := (parseLine_candle _ _).2 hd
          rw [hp] at this; cases this
          exact ⟨cs', by simp, htl⟩
    | refused =>
      simp only [reduceCtorEq, false_iff]
      rintro ⟨cs, rfl, h⟩
      cases h with
      | cons hd htl => have := (parseLine_candle _ _).2 hd; rw [hp] at this; cases this
    | panics =>
      simp only [reduceCtorEq, false_iff]
      rintro ⟨cs, rfl, h⟩
      cases h with
      | cons hd htl => have := (parseLine_candle _ _).2 hd; rw [hp] at this; cases this

/-- C105. A file without over-long lines loads exactly when each of its lines spells a candle, and
gives those candles, one per line and in order. -/
theorem C105_loads_lines (bytes : List Char) (hlen : ∀ l ∈ lines bytes, l.length ≤ 65535) (cs : List Candle) :
    loadCandles S (some bytes) = .ok cs ↔ List.Forall₂ (fun l c => Spells S (trimmed l) c) (lines bytes) cs := by
  simp only [loadCandles, rawLines_lines]
  rw [loadLoop_ok _ _ _ hlen]
  simp

/-- C105, for every file: a load with a nil error gives one candle for each line of an initial part
of the file, and stops before its end only at an over-long line. -/
theorem C105_loads_prefix (bytes : List Char) (cs : List Candle) (h : loadCandles S (some bytes) = .ok cs) :
    ∃ n, List.Forall₂ (fun l c => Spells S (trimmed l) c) ((lines bytes).take n) cs ∧
      (n = (lines bytes).length ∨ ∃ l, (lines bytes)[n]? = some l ∧ 65535 < l.length) := by
  simp only [loadCandles, rawLines_lines] at h
  have gen : ∀ (ls : List (List Char)) (acc : List Candle), loadLoop S acc ls = .ok cs →
      ∃ n ds, cs = acc ++ ds ∧ List.Forall₂ (fun l c => Spells S (trimmed l) c) (ls.take n) ds ∧
        (n = ls.length ∨ ∃ l, ls[n]? = some l ∧ 65535 < l.length) := by
    intro ls
    induction ls with
    | nil => intro acc h; simp only [loadLoop, Res.ok.injEq] at h; exact ⟨0, [], by simp [h], by simp, Or.inl rfl⟩
    | cons l ls ih =>
      intro acc h
      by_cases h1 : 65535 < l.length
      · simp only [loadLoop, h1, if_true, Res.ok.injEq] at h
        exact ⟨0, [], by simp [h], by simp, Or.inr ⟨l, by simp, h1⟩⟩
      · simp only [loadLoop, h1, if_false] at h
        split at h
        · rename_i c hp
          obtain ⟨n, ds, rfl, h2, h3⟩ := ih _ h
          refine ⟨n + 1, c :: ds, by simp, ?_, ?_⟩
          · rw [List.take_succ_cons]; exact .cons ((parseLine_candle _ _).1 hp) h2
          · simpa using h3
        · cases h
        · cases h
  obtain ⟨n, ds, rfl, h2, h3⟩ := gen _ _ h
  exact ⟨n, by simpa using h2, h3⟩

/-- C39 as stated: no file content makes the load panic. -/
def Spec.C39_claim (S : FloatSem) : Prop := ∀ bytes, loadCandles S (some bytes) ≠ .panic

/-- C39 is false: an empty line is enough. -/
theorem C39_claim_violated : ¬ Spec.C39_claim S := by
  intro h
  apply h ['\n']
  simp [loadCandles, rawLines, loadLoop, dropCR, parseLine]

/-- C39, exactly: the load panics iff the first line that does not spell a candle (none before it
being over-long) has too little on it. -/
theorem C39_panics_iff_partial (bytes : List Char) :
    loadCandles S (some bytes) = .panic ↔ ∃ (i : Nat) (l : List Char), (lines bytes)[i]? = some l ∧
      l.length ≤ 65535 ∧ TooFew S (trimmed l) ∧
      ∀ (j : Nat) (l' : List Char), j < i → (lines bytes)[j]? = some l' →
        l'.length ≤ 65535 ∧ ∃ c, Spells S (trimmed l') c := by
  simp only [loadCandles, rawLines_lines]
  generalize lines bytes = ls
  suffices gen : ∀ (ls : List (List Char)) (acc : List Candle), loadLoop S acc ls = .panic ↔
      ∃ (i : Nat) (l : List Char), ls[i]? = some l ∧ l.length ≤ 65535 ∧ TooFew S (trimmed l) ∧
      ∀ (j : Nat) (l' : List Char), j < i → ls[j]? = some l' → l'.length ≤ 65535 ∧ ∃ c, Spells S (trimmed l') c from gen _ _
  intro ls
  induction ls with
  | nil => intro acc; simp [loadLoop]
  | cons l ls ih =>
    intro acc
    have nopan : ∀ i, i ≠ 0 → ¬ (l.length ≤ 65535 ∧ ∃ c, Spells S (trimmed l) c) →
        ¬ ∃ (l0 : List Char), (l :: ls)[i]? = some l0 ∧ l0.length ≤ 65535 ∧ TooFew S (trimmed l0) ∧
          ∀ (j : Nat) (l' : List Char), j < i → (l :: ls)[j]? = some l' → l'.length ≤ 65535 ∧ ∃ c, Spells S (trimmed l') c := by
      rintro i hi hno ⟨l0, -, -, -, h⟩
      exact hno (h 0 l (by omega) (by simp))
    by_cases h1 : 65535 < l.length
    · simp only [loadLoop, h1, if_true, reduceCtorEq, false_iff]
      rintro ⟨i, h⟩
      by_cases hi : i = 0
      · subst hi
        obtain ⟨l0, e, h2, -⟩ := h
        simp only [List.getElem?_cons_zero, Option.some.injEq] at e; subst e; omega
      · exact nopan i hi (by rintro ⟨a, -⟩; omega) h
    · simp only [loadLoop, h1, if_false]
      have ht : dropCR l = trimmed l := rfl
      rw [ht]
      cases hp : parseLine S (trimmed l) with
      | candle c =>
        simp only
        rw [ih]
        have hs := (parseLine_candle _ _).1 hp
        have hnot : ¬ TooFew S (trimmed l) := fun hf => by
          have := (parseLine_panics _).2 hf; rw [hp] at this; cases this
        constructor
        · rintro ⟨i, l0, e, h2, h3, h4⟩
          refine ⟨i + 1, l0, by simpa using e, h2, h3, ?_⟩
          intro j l' hj e'
          cases j with
          | zero =>
            simp only [List.getElem?_cons_zero, Option.some.injEq] at e'; subst e'
            exact ⟨by omega, c, hs⟩
          | succ j => exact h4 j l' (by omega) (by simpa using e')
        · rintro ⟨i, l0, e, h2, h3, h4⟩
          cases i with
          | zero =>
            simp only [List.getElem?_cons_zero, Option.some.injEq] at e; subst e
            exact absurd h3 hnot
          | succ i =>
            refine ⟨i, l0, by simpa using e, h2, h3, ?_⟩
            intro j l' hj e'
            exact h4 (j + 1) l' (by omega) (by simpa using e')
      | refused =>
        simp only [reduceCtorEq, false_iff]
        rintro ⟨i, h⟩
        by_cases hi : i = 0
        · subst hi
          obtain ⟨l0, e, -, h3, -⟩ := h
          simp only [List.getElem?_cons_zero, Option.some.injEq] at e; subst e
          have := (parseLine_panics _).2 h3; rw [hp] at this; cases this
        · refine nopan i hi ?_ h
          rintro ⟨-, c, hs⟩
          have := (parseLine_candle _ _).2 hs; rw [hp] at this; cases this
      | panics =>
        simp only [true_iff]
        exact ⟨0, l, by simp, by omega, (parseLine_panics _).1 hp, fun j l' hj _ => by omega⟩

/-- C39, a usable condition: with at least six words on every line the load never panics. -/
theorem C39_six_words_partial (bytes : List Char)
    (h : ∀ l ∈ lines bytes, 2 ≤ (trimmed l).length ∧ 6 ≤ (fields (trimmed l)).length) :
    loadCandles S (some bytes) ≠ .panic := by
  intro hp
  obtain ⟨i, l, e, -, h3, -⟩ := (C39_panics_iff_partial bytes).1 hp
  obtain ⟨a, b⟩ := h l (List.mem_of_getElem? e)
  rcases h3 with h3 | ⟨h3, -⟩ <;> omega

/-- C103 as stated: a nil error from the save means the candles are on disk. -/
def Spec.C103_claim (S : FloatSem) (pick : ℚ → Nat × ℤ) (eprec : ℤ) : Prop :=
  ∀ (created : Bool) (accept : Nat → Nat) (old : Option (List Char)) (cs : List Candle),
    (∀ c ∈ cs, GoCandle S c) → (∀ c ∈ cs, Time32 c) →
    (saveCandles pick eprec created accept old cs).1 = .ok () →
    loadCandles S (saveCandles pick eprec created accept old cs).2 = .ok cs

/-- C103 is false: on a full disk nothing is written and the save still reports success. -/
theorem C103_claim_violated (hS : Lawful S) : ¬ Spec.C103_claim S pick eprec := by
  intro h
  have h1 := rep_one hS
  have := h true (fun _ => 0) none [⟨1, .fin 1, .fin 1, .fin 1, .fin 1, .fin 1⟩]
    (by intro c hc; simp only [List.mem_singleton] at hc; subst hc
        exact ⟨h1, h1, h1, h1, h1, by norm_num, by norm_num⟩)
    (by intro c hc; simp only [List.mem_singleton] at hc; subst hc; simp [Time32]) rfl
  simp [saveCandles, writeLoop, loadCandles, rawLines, loadLoop] at this

/-- C103, as far as true: an error leaves the path as it was; a nil error means the file was created,
and it then holds, for each candle in order, a beginning of its line. -/
theorem C103_save_partial (created : Bool) (accept : Nat → Nat) (old : Option (List Char)) (cs : List Candle) :
    ((saveCandles pick eprec created accept old cs).1 ≠ .ok () → (saveCandles pick eprec created accept old cs).2 = old) ∧
    ((saveCandles pick eprec created accept old cs).1 = .ok () → ∃ pieces : List (List Char),
      (saveCandles pick eprec created accept old cs).2 = some pieces.flatten ∧
      List.Forall₂ (fun piece c => piece <+: candleLine pick eprec c ++ ['\n']) pieces cs) := by
  cases created with
  | false => simp [saveCandles]
  | true =>
    refine ⟨by simp [saveCandles], fun hok => ?_⟩
    clear hok
    have gen : ∀ i, ∃ pieces : List (List Char), writeLoop pick eprec accept i cs = pieces.flatten ∧
        List.Forall₂ (fun piece c => piece <+: candleLine pick eprec c ++ ['\n']) pieces cs := by
      induction cs with
      | nil => intro i; exact ⟨[], rfl, .nil⟩
      | cons c cs ih =>
        intro i
        obtain ⟨ps, h1, h2⟩ := ih (i + 1)
        exact ⟨_ :: ps, by rw [writeLoop, h1, List.flatten_cons], .cons (List.take_prefix _ _) h2⟩
    obtain ⟨ps, h1, h2⟩ := gen 0
    exact ⟨ps, by simp [saveCandles, h1], h2⟩

/-- C104 as stated: a nil error from the load means every line was read. -/
def Spec.C104_claim (S : FloatSem) : Prop :=
  ∀ (bytes : List Char) (cs : List Candle), loadCandles S (some bytes) = .ok cs → cs.length = (lines bytes).length

/-- C104 is false: a line of 64 KiB or more ends the load silently. -/
theorem C104_claim_violated : ¬ Spec.C104_claim S := by
  intro h
  have hn : '\n' ∉ List.replicate 65536 ' ' := by
    intro hm; rw [List.mem_replicate] at hm; simp at hm
  have hr : rawLines [] (List.replicate 65536 ' ') = [List.replicate 65536 ' '] := by
    rw [rawLines_last hn, if_neg]
    rw [List.replicate_eq_nil_iff]; norm_num
  have hload : loadCandles S (some (List.replicate 65536 ' ')) = .ok [] := by
    simp only [loadCandles, hr, loadLoop, List.length_replicate]
    rw [if_pos (by norm_num)]
  have := h _ _ hload
  rw [← rawLines_lines, hr, List.length_singleton, List.length_nil] at this
  omega

/-- C104, as far as true: without over-long lines there is one candle per line. -/
theorem C104_counts_lines_partial (bytes : List Char) (hlen : ∀ l ∈ lines bytes, l.length ≤ 65535) (cs : List Candle)
    (h : loadCandles S (some bytes) = .ok cs) : cs.length = (lines bytes).length :=
  ((C105_loads_lines bytes hlen cs).1 h).length_eq.symm

end

/-! ### The hypotheses are met -/

/-- The last minute of 1969 and a volume that is not a short decimal. -/
def sampleCandles : List Candle :=
  [⟨-60, ieee.rnd (277242 / 100), ieee.rnd (277264 / 100), ieee.rnd (1 / 3), .negZero, .inf false⟩,
   ⟨1619827200, .fin 0, ieee.rnd (1 / 10000000), ieee.rnd (-123456789 / 1), .nan, ieee.rnd (48653484 / 100000)⟩]

example : (∀ c ∈ sampleCandles, GoCandle ieee c) ∧ (∀ c ∈ sampleCandles, Time32 c) := by
  have hr : ∀ q, ieee.Rep (ieee.rnd q) := fun q r h => ieee_lawful.r64.idem q r h
  have h0 : ieee.Rep (.fin 0) := by intro q h; cases h; simpa using ieee_lawful.r64.int 0 (by norm_num)
  have hx : ∀ x : Fl, (∀ q, x ≠ .fin q) → ieee.Rep x := fun x h q e => absurd e (h q)
  constructor <;> intro c hc <;> simp only [sampleCandles, List.mem_cons, List.not_mem_nil, or_false] at hc <;>
    rcases hc with rfl | rfl
  · exact ⟨hr _, hr _, hr _, hx _ (by simp), hx _ (by simp), by norm_num, by norm_num⟩
  · exact ⟨h0, hr _, hr (-123456789 / 1), hx _ (by simp), hr _, by norm_num, by norm_num⟩
  · simp [Time32]
  · simp [Time32]


example : candleText (shortest ieee) 6 sampleCandles =
    "{-60 2772.42 2772.64 0.3333333333333333 -0 +Inf}\n{1619827200 0 1e-07 -1.23456789e+08 NaN 486.53484}\n".toList := by
  decide +kernel

/-- C36, C37 and C105: the two lines spell the two candles. -/
example : loadCandles ieee (some (candleText (shortest ieee) 6 sampleCandles)) = .ok sampleCandles := by
  decide +kernel

/-- C38: the second line is cut in its volume. -/
example : loadCandles ieee (some "{-60 2772.42 2772.64 0.3333333333333333 -0 +Inf}\n{1619827200 0 1e-07 -1.23456789e+08 NaN 486.53".toList) =
    .ok [sampleCandles[0], { sampleCandles[1] with volume := ieee.rnd (4865 / 10) }] := by
  decide +kernel

/-- C103: of the first line 10 bytes are written, of the second all; no error is reported. -/
example : saveCandles (shortest ieee) 6 true (fun i => if i = 0 then 10 else 1000) (some "old".toList) sampleCandles =
    (.ok (), some "{-60 2772.{1619827200 0 1e-07 -1.23456789e+08 NaN 486.53484}\n".toList) := by
  decide +kernel

/-- C39: an error, not a panic; the fourth word is not a number. -/
example : loadCandles ieee (some "{1 2 3 x}\n".toList) = .err .external [] := by decide +kernel
/-- C39: a panic, four words. -/
example : loadCandles ieee (some "{1 2 3 4}\n".toList) = .panic := by decide +kernel
/-- C105: extra words are ignored, a carriage return is dropped. -/
example : loadCandles ieee (some "{1 2 3 4 5 6 7}\r\n".toList) = .ok [⟨1, .fin 2, .fin 3, .fin 4, .fin 5, .fin 6⟩] := by
  decide +kernel

end Finmod
