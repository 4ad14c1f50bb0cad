import Verif.Model.CandleFile
import Verif.Spec.CandleFile
import Verif.Lemmas.Shortest

/-!
# Reading back a written candle file
-/

namespace Finmod
open Go Spec

/-- Characters that do not disturb the splitting. -/
def Plain (c : Char) : Prop := c ≠ ' ' ∧ c ≠ '\n' ∧ c ≠ '\r'

instance (c : Char) : Decidable (Plain c) := inferInstanceAs (Decidable (_ ∧ _))

theorem plain_digit {c : Char} (h : digitC c = true) : Plain c :=
  ⟨digitC_ne h (by decide), digitC_ne h (by decide), digitC_ne h (by decide)⟩

theorem plain_toDigits (n : Nat) : ∀ c ∈ Nat.toDigits 10 n, Plain c :=
  fun _ h => plain_digit (digitC_toDigits h)

theorem plain_cons {c : Char} {l : List Char} (hc : Plain c) (hl : ∀ x ∈ l, Plain x) :
    ∀ x ∈ c :: l, Plain x := by
  intro x hx
  rcases List.mem_cons.1 hx with rfl | h
  exacts [hc, hl x h]

theorem plain_append {l m : List Char} (hl : ∀ x ∈ l, Plain x) (hm : ∀ x ∈ m, Plain x) :
    ∀ x ∈ l ++ m, Plain x := by
  intro x hx
  rcases List.mem_append.1 hx with h | h
  exacts [hl x h, hm x h]

theorem plain_replicate (n : Nat) : ∀ x ∈ List.replicate n '0', Plain x := by
  intro x hx; rw [List.mem_replicate] at hx; rw [hx.2]; decide

theorem plain_fmtInt (n : Int) : ∀ c ∈ fmtInt n, Plain c := by
  unfold fmtInt
  split_ifs
  · exact plain_cons (by decide) (plain_toDigits _)
  · exact plain_toDigits _

theorem plain_fmtExp (e : ℤ) : ∀ c ∈ fmtExp e, Plain c := by
  obtain ⟨D, hD, -, h1, -, -⟩ := fmtExp_digits e
  rw [hD]
  refine plain_cons ?_ (fun c hc => plain_digit (h1 c hc))
  split_ifs <;> decide

theorem plain_fmtE {ds : List Char} (h : ∀ c ∈ ds, Plain c) (dp : ℤ) : ∀ c ∈ fmtE ds dp, Plain c := by
  unfold fmtE
  split
  · simp
  · exact plain_cons (h _ (by simp)) (plain_cons (by decide) (plain_fmtExp _))
  · exact plain_cons (h _ (by simp)) (plain_cons (by decide)
      (plain_append (fun c hc => h c (by simp [hc])) (plain_cons (by decide) (plain_fmtExp _))))

theorem plain_fmtF {ds : List Char} (h : ∀ c ∈ ds, Plain c) (dp : ℤ) : ∀ c ∈ fmtF ds dp, Plain c := by
  unfold fmtF
  split_ifs
  · exact plain_append h (plain_replicate _)
  · exact plain_append (fun c hc => h c (List.mem_of_mem_take hc))
      (plain_cons (by decide) (fun c hc => h c (List.mem_of_mem_drop hc)))
  · exact plain_cons (by decide) (plain_cons (by decide) (plain_append (plain_replicate _) h))

theorem plain_fmtFloat (pick : ℚ → Nat × ℤ) (eprec : ℤ) (x : Fl) : ∀ c ∈ fmtFloat pick eprec x, Plain c := by
  have hG : ∀ n dp, ∀ c ∈ fmtG eprec (Nat.toDigits 10 n) dp, Plain c := by
    intro n dp
    unfold fmtG
    split_ifs
    · exact plain_fmtE (plain_toDigits _) _
    · exact plain_fmtF (plain_toDigits _) _
  unfold fmtFloat
  split
  · decide
  · decide
  · decide
  · decide
  · dsimp only
    split_ifs
    · decide
    · exact plain_cons (by decide) (hG _ _)
    · exact hG _ _

/-! ### Lengths -/

theorem length_fmtExp {e : ℤ} (h : e.natAbs < 100000) : (fmtExp e).length ≤ 7 := by
  obtain ⟨D, hD, -, -, -, h5⟩ := fmtExp_digits e
  have := (Nat.length_toDigits_le_iff (b := 10) (n := e.natAbs) (k := 5) (by norm_num) (by norm_num)).2 (by omega)
  rw [hD, List.length_cons]; omega

theorem length_fmtG {eprec : ℤ} (hp : eprec ≤ 21) {ds : List Char} {dp : ℤ} (h : (dp - 1).natAbs < 100000) :
    (fmtG eprec ds dp).length ≤ ds.length + 21 := by
  have h7 := length_fmtExp h
  unfold fmtG
  split_ifs with hg
  · unfold fmtE
    split
    · simp
    · simp; omega
    · simp; omega
  · unfold fmtF
    split_ifs with h1 h2
    · simp; omega
    · rw [List.length_append, List.length_cons, List.length_take, List.length_drop]; omega
    · simp; omega

theorem length_fmtFloat {S : FloatSem} (hS : Lawful S) {pick : ℚ → Nat × ℤ} (hp : GoodPick S pick) {eprec : ℤ} (he : eprec ≤ 21)
    {x : Fl} (hx : S.Rep x) : (fmtFloat pick eprec x).length ≤ 2600 := by
  cases x with
  | nan => simp [fmtFloat]
  | inf b => cases b <;> simp [fmtFloat]
  | negZero => simp [fmtFloat]
  | fin q =>
    have hq := hx q rfl
    by_cases h0 : q = 0
    · simp [fmtFloat, h0]
    · have ha : 0 < |q| := abs_pos.2 h0
      have hr : S.rnd |q| = .fin |q| := by
        rcases abs_cases q with ⟨h, -⟩ | ⟨h, -⟩
        · rw [h, hq]
        · rw [h, hS.r64.odd q h0, hq]; simp [Fl.neg, h0]
      obtain ⟨s1, s2, s3⟩ := hp.size _ ha hr
      have := length_fmtG he (ds := Nat.toDigits 10 (pick |q|).1)
        (dp := (Nat.toDigits 10 (pick |q|).1).length + (pick |q|).2) (by
          have := Nat.length_toDigits_pos (b := 10) (n := (pick |q|).1)
          omega)
      simp only [fmtFloat, h0, if_false]
      split_ifs
      · rw [List.length_cons]; omega
      · omega

theorem length_fmtInt {n : Int} (h1 : -2 ^ 63 ≤ n) (h2 : n < 2 ^ 63) : (fmtInt n).length ≤ 21 := by
  have := (Nat.length_toDigits_le_iff (b := 10) (n := n.natAbs) (k := 20) (by norm_num) (by norm_num)).2 (by
    have : n.natAbs ≤ 2 ^ 63 := by omega
    norm_num at this ⊢; omega)
  unfold fmtInt
  split_ifs
  · rw [List.length_cons]; omega
  · omega

/-! ### Splitting -/

theorem splitSp_eq (acc s : List Char) : splitSp acc s = (s.splitOn ' ').modifyHead (acc.reverse ++ ·) := by
  induction s generalizing acc with
  | nil => simp [splitSp]
  | cons c r ih =>
    rw [splitSp, List.splitOn_cons_eq_if_modifyHead]
    split_ifs with h1 h2 h2
    · rw [ih]
      cases hs : r.splitOn ' ' <;> simp
    · simp [h1] at h2
    · simp at h2; exact absurd h2 h1
    · rw [ih]
      cases hs : r.splitOn ' ' <;> simp

theorem splitSp_splitOn (s : List Char) : splitSp [] s = s.splitOn ' ' := by
  rw [splitSp_eq]
  cases s.splitOn ' ' <;> simp

theorem rawLines_eq (acc s : List Char) : rawLines acc s =
    (let ls := (s.splitOn '\n').modifyHead (acc.reverse ++ ·)
     if ls.getLast? = some [] then ls.dropLast else ls) := by
  induction s generalizing acc with
  | nil =>
    simp only [rawLines, List.splitOn_nil, List.modifyHead_cons, List.append_nil, List.getLast?_singleton,
      List.dropLast_singleton]
    by_cases h : acc = [] <;> simp [h]
  | cons c r ih =>
    have hne : r.splitOn '\n' ≠ [] := List.splitOn_ne_nil _ _
    obtain ⟨w, ws, hw⟩ := List.exists_cons_of_ne_nil hne
    rw [rawLines, List.splitOn_cons_eq_if_modifyHead]
    split_ifs with h1 h2 h2
    · rw [ih, hw]
      simp only [List.reverse_nil, List.nil_append, List.modifyHead_cons, List.append_nil]
      simp only [List.getLast?_cons_cons, List.dropLast_cons_cons]
      split_ifs <;> rfl
    · simp [h1] at h2
    · simp at h2; exact absurd h2 h1
    · rw [ih, hw]; simp

theorem rawLines_lines (s : List Char) : rawLines [] s = lines s := by
  rw [rawLines_eq, lines]
  have : (s.splitOn '\n').modifyHead (([] : List Char).reverse ++ ·) = s.splitOn '\n' := by
    cases s.splitOn '\n' <;> simp
  rw [this]

theorem rawLines_line {l : List Char} (hl : '\n' ∉ l) (r : List Char) :
    rawLines [] (l ++ '\n' :: r) = l :: rawLines [] r := by
  have gen : ∀ (acc l : List Char), '\n' ∉ l → rawLines acc (l ++ '\n' :: r) = (acc.reverse ++ l) :: rawLines [] r := by
    intro acc l
    induction l generalizing acc with
    | nil => intro _; simp [rawLines]
    | cons c cs ih =>
      intro h
      have hc : c ≠ '\n' := fun e => h (by simp [e])
      rw [List.cons_append, rawLines, if_neg hc, ih _ (fun hm => h (by simp [hm]))]
      simp
  simpa using gen [] l hl

theorem rawLines_last {l : List Char} (hl : '\n' ∉ l) : rawLines [] l = if l = [] then [] else [l] := by
  have gen : ∀ (acc l : List Char), '\n' ∉ l → rawLines acc l = if acc.reverse ++ l = [] then [] else [acc.reverse ++ l] := by
    intro acc l
    induction l generalizing acc with
    | nil => intro _; simp [rawLines]
    | cons c cs ih =>
      intro h
      have hc : c ≠ '\n' := fun e => h (by simp [e])
      rw [rawLines, if_neg hc, ih _ (fun hm => h (by simp [hm]))]
      simp
  have := gen [] l hl
  simp only [List.reverse_nil, List.nil_append] at this
  rw [this]
  by_cases h : l = [] <;> simp [h]

theorem prefix_append_cases {q X Y : List Char} (h : q <+: X ++ Y) :
    q <+: X ∨ ∃ r, q = X ++ r ∧ r <+: Y := by
  rcases List.prefix_or_prefix_of_prefix h (List.prefix_append X Y) with h1 | ⟨r, rfl⟩
  · exact Or.inl h1
  · exact Or.inr ⟨r, rfl, (List.prefix_append_right_inj X).1 h⟩

theorem splitSp_word {w : List Char} (hw : ' ' ∉ w) (r : List Char) :
    splitSp [] (w ++ ' ' :: r) = w :: splitSp [] r := by
  rw [splitSp_splitOn, splitSp_splitOn, List.splitOn_append_cons_self, List.splitOn_eq_singleton hw]; rfl

theorem splitSp_single {w : List Char} (hw : ' ' ∉ w) : splitSp [] w = [w] := by
  rw [splitSp_splitOn, List.splitOn_eq_singleton hw]

/-- A prefix of joined words splits into complete words and a prefix of the next one. -/
theorem splitSp_prefix (ws : List (List Char)) (h0 : ws ≠ []) (hw : ∀ w ∈ ws, ' ' ∉ w) (q : List Char)
    (hq : q <+: joinSp ws) : ∃ (k : Nat) (w v : List Char), ws[k]? = some w ∧ v <+: w ∧
      splitSp [] q = ws.take k ++ [v] := by
  induction ws generalizing q with
  | nil => exact absurd rfl h0
  | cons w ws ih =>
    have hsp : ' ' ∉ w := hw w (by simp)
    cases ws with
    | nil =>
      refine ⟨0, w, q, by simp, hq, ?_⟩
      rw [splitSp_single (fun hm => hsp (hq.subset hm))]; simp
    | cons w2 rest =>
      rw [joinSp] at hq
      · rcases prefix_append_cases hq with h | ⟨r, rfl, hr⟩
        · refine ⟨0, w, q, by simp, h, ?_⟩
          rw [splitSp_single (fun hm => hsp (h.subset hm))]; simp
        · cases r with
          | nil =>
            refine ⟨0, w, w, by simp, List.prefix_rfl, ?_⟩
            rw [List.append_nil, splitSp_single hsp]; simp
          | cons c r =>
            rw [List.cons_prefix_cons] at hr
            obtain ⟨rfl, hr⟩ := hr
            obtain ⟨k, w', v, h1, h2, h3⟩ := ih (by simp) (fun x hx => hw x (List.mem_cons_of_mem _ hx)) r hr
            refine ⟨k + 1, w', v, by simpa using h1, h2, ?_⟩
            rw [splitSp_word hsp, h3]; simp
      · simp

theorem splitSp_joinSp (ws : List (List Char)) (h0 : ws ≠ []) (hw : ∀ w ∈ ws, ' ' ∉ w) :
    splitSp [] (joinSp ws) = ws := by
  induction ws with
  | nil => exact absurd rfl h0
  | cons w ws ih =>
    have hsp : ' ' ∉ w := hw w (by simp)
    cases ws with
    | nil => exact splitSp_single hsp
    | cons w2 rest =>
      rw [joinSp, splitSp_word hsp, ih (by simp) (fun x hx => hw x (List.mem_cons_of_mem _ hx))]
      simp

/-! ### Whole lines and files -/

section
variable {S : FloatSem} {pick : ℚ → Nat × ℤ} {eprec : ℤ}

/-- The six printed fields. -/
def words (pick : ℚ → Nat × ℤ) (eprec : ℤ) (c : Candle) : List (List Char) :=
  [fmtInt c.time, fmtFloat pick eprec c.opn, fmtFloat pick eprec c.high,
    fmtFloat pick eprec c.low, fmtFloat pick eprec c.close, fmtFloat pick eprec c.volume]

theorem candleLine_eq (c : Candle) : candleLine pick eprec c = '{' :: (joinSp (words pick eprec c) ++ ['}']) := rfl

theorem plain_words (c : Candle) : ∀ w ∈ words pick eprec c, ∀ x ∈ w, Plain x := by
  intro w hw
  simp only [words, List.mem_cons, List.not_mem_nil, or_false] at hw
  rcases hw with rfl | rfl | rfl | rfl | rfl | rfl
  · exact plain_fmtInt _
  all_goals exact plain_fmtFloat _ _ _

theorem words_noSpace (c : Candle) : ∀ w ∈ words pick eprec c, ' ' ∉ w :=
  fun w hw hm => (plain_words c w hw _ hm).1 rfl

theorem mem_joinSp {ws : List (List Char)} {x : Char} (h : x ∈ joinSp ws) : x = ' ' ∨ ∃ w ∈ ws, x ∈ w := by
  induction ws with
  | nil => simp [joinSp] at h
  | cons w ws ih =>
    cases ws with
    | nil => exact Or.inr ⟨w, by simp, h⟩
    | cons w2 rest =>
      rw [joinSp] at h
      · rcases List.mem_append.1 h with h | h
        · exact Or.inr ⟨w, by simp, h⟩
        · rcases List.mem_cons.1 h with h | h
          · exact Or.inl h
          · rcases ih h with h | ⟨v, hv, h⟩
            · exact Or.inl h
            · exact Or.inr ⟨v, List.mem_cons_of_mem _ hv, h⟩
      · simp

/-- A printed line holds no line breaks. -/
theorem candleLine_chars (c : Candle) : ∀ x ∈ candleLine pick eprec c, x ≠ '\n' ∧ x ≠ '\r' := by
  intro x hx
  rw [candleLine_eq] at hx
  rcases List.mem_cons.1 hx with rfl | hx
  · decide
  rcases List.mem_append.1 hx with hx | hx
  · rcases mem_joinSp hx with rfl | ⟨w, hw, hx⟩
    · decide
    · exact (plain_words c w hw x hx).2
  · simp at hx; subst hx; decide

theorem candleLine_noNewline (c : Candle) : '\n' ∉ candleLine pick eprec c :=
  fun h => (candleLine_chars c _ h).1 rfl

theorem dropCR_of_chars {l : List Char} (h : ∀ x ∈ l, x ≠ '\r') : dropCR l = l := by
  unfold dropCR
  rw [if_neg]
  intro hl
  exact h _ (List.mem_of_getLast? hl) rfl

theorem length_candleLine (hS : Lawful S) (hp : GoodPick S pick) (he : eprec ≤ 21) {c : Candle} (hc : GoCandle S c) :
    (candleLine pick eprec c).length ≤ 65535 := by
  obtain ⟨h1, h2, h3, h4, h5, h6, h7⟩ := hc
  have l0 := length_fmtInt h6 h7
  have l1 := length_fmtFloat hS hp he h1
  have l2 := length_fmtFloat hS hp he h2
  have l3 := length_fmtFloat hS hp he h3
  have l4 := length_fmtFloat hS hp he h4
  have l5 := length_fmtFloat hS hp he h5
  simp only [candleLine, joinSp, List.length_cons, List.length_append, List.length_nil]
  omega

/-- A complete line reads back as its candle, or is refused because of its time. -/
theorem parseLine_candleLine (hS : Lawful S) (hp : GoodPick S pick) {c : Candle} (hc : GoCandle S c) :
    (Time32 c → parseLine S (candleLine pick eprec c) = .candle c) ∧
    (¬ Time32 c → parseLine S (candleLine pick eprec c) = .refused) := by
  obtain ⟨h1, h2, h3, h4, h5, -, -⟩ := hc
  have hlen : ¬ (candleLine pick eprec c).length < 2 := by rw [candleLine_eq]; simp
  have hf : splitSp [] (((candleLine pick eprec c).drop 1).dropLast) = words pick eprec c := by
    rw [candleLine_eq, List.drop_one, List.tail_cons, List.dropLast_concat,
      splitSp_joinSp _ (by simp [words]) (words_noSpace c)]
  constructor
  · intro ht
    have t := parseInt_fmtInt (bits := 32) (n := c.time) ht.1 ht.2
    simp only [parseLine, hlen, if_false, hf]
    simp [words, timeField, floatField, t, parseFloat_fmtFloat hS hp eprec h1, parseFloat_fmtFloat hS hp eprec h2,
      parseFloat_fmtFloat hS hp eprec h3, parseFloat_fmtFloat hS hp eprec h4, parseFloat_fmtFloat hS hp eprec h5]
  · intro ht
    have t := parseInt_fmtInt_none (bits := 32) (n := c.time) ht
    simp only [parseLine, hlen, if_false, hf]
    simp [words, timeField, t]

/-- Loading a complete line in front of more text. -/
theorem loadLoop_line (hS : Lawful S) (hp : GoodPick S pick) (he : eprec ≤ 21) {c : Candle} (hc : GoCandle S c)
    (acc : List Candle) (ls : List (List Char)) :
    (Time32 c → loadLoop S acc (candleLine pick eprec c :: ls) = loadLoop S (acc ++ [c]) ls) ∧
    (¬ Time32 c → loadLoop S acc (candleLine pick eprec c :: ls) = .err .external []) := by
  have hl : ¬ 65535 < (candleLine pick eprec c).length := by
    have := length_candleLine hS hp he hc; omega
  have hd := dropCR_of_chars (fun x hx => (candleLine_chars (pick := pick) (eprec := eprec) c x hx).2)
  obtain ⟨a, b⟩ := parseLine_candleLine (eprec := eprec) hS hp hc
  constructor
  · intro ht; simp only [loadLoop, hl, if_false, hd, a ht]
  · intro ht; simp only [loadLoop, hl, if_false, hd, b ht]

theorem rawLines_candleText (c : Candle) (cs : List Candle) (p : List Char) :
    rawLines [] (candleText pick eprec (c :: cs) ++ p) =
      candleLine pick eprec c :: rawLines [] (candleText pick eprec cs ++ p) := by
  have : candleText pick eprec (c :: cs) ++ p =
      candleLine pick eprec c ++ '\n' :: (candleText pick eprec cs ++ p) := by
    simp [candleText]
  rw [this, rawLines_line (candleLine_noNewline c)]

/-- Complete lines in front of more text load first; a time of more than 32 bits stops everything. -/
theorem load_append (hS : Lawful S) (hp : GoodPick S pick) (he : eprec ≤ 21) (cs acc : List Candle) (p : List Char)
    (hc : ∀ c ∈ cs, GoCandle S c) :
    ((∀ c ∈ cs, Time32 c) → loadLoop S acc (rawLines [] (candleText pick eprec cs ++ p)) =
      loadLoop S (acc ++ cs) (rawLines [] p)) ∧
    ((∃ c ∈ cs, ¬ Time32 c) → loadLoop S acc (rawLines [] (candleText pick eprec cs ++ p)) = .err .external []) := by
  induction cs generalizing acc with
  | nil => simp [candleText]
  | cons c cs ih =>
    obtain ⟨a, b⟩ := loadLoop_line (eprec := eprec) hS hp he (hc c (by simp)) acc
      (rawLines [] (candleText pick eprec cs ++ p))
    obtain ⟨i1, i2⟩ := ih (acc ++ [c]) (fun x hx => hc x (by simp [hx]))
    rw [rawLines_candleText]
    constructor
    · intro h
      rw [a (h c (by simp)), i1 (fun x hx => h x (by simp [hx]))]; simp
    · rintro ⟨x, hx, hn⟩
      by_cases hcT : Time32 c
      · rw [a hcT]
        apply i2
        rcases List.mem_cons.1 hx with rfl | hx
        · exact absurd hcT hn
        · exact ⟨x, hx, hn⟩
      · exact b hcT

theorem floatField_candle {f : List (List Char)} {i : Nat} {k : Fl → Parsed} {c : Candle} :
    floatField S f i k = .candle c ↔ ∃ s x, f[i]? = some s ∧ parseFloat S s = some x ∧ k x = .candle c := by
  unfold floatField
  split
  · rename_i h; simp [h]
  · rename_i s h
    split
    · rename_i h2; simp [h, h2]
    · rename_i x h2; simp [h, h2]

theorem timeField_candle {f : List (List Char)} {k : Int → Parsed} {c : Candle} :
    timeField f k = .candle c ↔ ∃ s x, f[0]? = some s ∧ parseInt 32 s = some x ∧ k x = .candle c := by
  unfold timeField
  split
  · rename_i h; simp [h]
  · rename_i s h
    split
    · rename_i h2; simp [h, h2]
    · rename_i x h2; simp [h, h2]

theorem parseLine_six {f : List (List Char)} {c : Candle}
    (h : (timeField f fun t => floatField S f 1 fun o => floatField S f 2 fun h =>
      floatField S f 3 fun l => floatField S f 4 fun c => floatField S f 5 fun v =>
        .candle ⟨t, o, h, l, c, v⟩) = .candle c) : ∃ s, f[5]? = some s := by
  simp only [timeField_candle, floatField_candle] at h
  obtain ⟨-, -, -, -, -, -, -, -, -, -, -, -, -, -, -, -, -, -, -, -, s, -, hs, -⟩ := h
  exact ⟨s, hs⟩

/-- A cut line that is read as a candle at all shows everything but the volume. -/
theorem parseLine_prefix (hS : Lawful S) (hp : GoodPick S pick) {c : Candle} (hc : GoCandle S c) {p : List Char}
    (h : p <+: candleLine pick eprec c) {c' : Candle} (hc' : parseLine S p = .candle c') :
    ∃ v, v <+: fmtFloat pick eprec c.volume ∧ parseFloat S v = some c'.volume ∧
      c' = { c with volume := c'.volume } ∧ Time32 c := by
  obtain ⟨h1, h2, h3, h4, h5, -, -⟩ := hc
  unfold parseLine at hc'
  split_ifs at hc' with hlen
  rw [candleLine_eq] at h
  obtain ⟨x, q, rfl⟩ := List.exists_cons_of_length_pos (l := p) (by omega)
  rw [List.cons_prefix_cons] at h
  obtain ⟨rfl, h⟩ := h
  have hq : q.dropLast <+: joinSp (words pick eprec c) := by
    rcases prefix_append_cases h with h | ⟨r, rfl, hr⟩
    · exact (List.dropLast_prefix q).trans h
    · cases r with
      | nil => simp only [List.append_nil]; exact List.dropLast_prefix _
      | cons y r =>
        rw [List.cons_prefix_cons, List.prefix_nil] at hr
        obtain ⟨rfl, rfl⟩ := hr
        rw [List.dropLast_concat]
  obtain ⟨k, w, v, k1, k2, k3⟩ := splitSp_prefix _ (by simp [words]) (words_noSpace c) _ hq
  simp only [List.drop_one, List.tail_cons, k3] at hc'
  have hk : k < 6 := by
    have := (List.getElem?_eq_some_iff.1 k1).1
    simpa [words] using this
  have hk5 : k = 5 := by
    obtain ⟨s, hs⟩ := parseLine_six hc'
    have := (List.getElem?_eq_some_iff.1 hs).1
    simp only [List.length_append, List.length_take, List.length_cons, List.length_nil] at this
    omega
  subst hk5
  have hw : w = fmtFloat pick eprec c.volume := by simpa [words] using k1.symm
  subst hw
  by_cases hT : Time32 c
  · have t := parseInt_fmtInt (bits := 32) (n := c.time) hT.1 hT.2
    refine ⟨v, k2, ?_, ?_, hT⟩ <;>
    · cases hv : parseFloat S v with
      | none =>
        simp [words, timeField, floatField, t, parseFloat_fmtFloat hS hp eprec h1, parseFloat_fmtFloat hS hp eprec h2,
          parseFloat_fmtFloat hS hp eprec h3, parseFloat_fmtFloat hS hp eprec h4, hv] at hc'
      | some z =>
        simp [words, timeField, floatField, t, parseFloat_fmtFloat hS hp eprec h1, parseFloat_fmtFloat hS hp eprec h2,
          parseFloat_fmtFloat hS hp eprec h3, parseFloat_fmtFloat hS hp eprec h4, hv] at hc'
        subst hc'; simp
  · have t := parseInt_fmtInt_none (bits := 32) (n := c.time) hT
    simp [words, timeField, t] at hc'

/-- A prefix of a file is complete lines and a piece of the next one. -/
theorem prefix_candleText (cs : List Candle) (p : List Char) (h : p <+: candleText pick eprec cs) :
    ∃ (k : Nat) (r : List Char), p = candleText pick eprec (cs.take k) ++ r ∧
      (r = [] ∨ ∃ c, cs[k]? = some c ∧ r <+: candleLine pick eprec c) := by
  induction cs generalizing p with
  | nil =>
    refine ⟨0, [], ?_, Or.inl rfl⟩
    simpa [candleText] using h
  | cons c cs ih =>
    have e : candleText pick eprec (c :: cs) = candleLine pick eprec c ++ '\n' :: candleText pick eprec cs := by
      simp [candleText]
    rw [e] at h
    rcases prefix_append_cases h with h | ⟨r, rfl, hr⟩
    · exact ⟨0, p, by simp [candleText], Or.inr ⟨c, by simp, h⟩⟩
    · cases r with
      | nil => exact ⟨0, _, by simp [candleText]; rfl, Or.inr ⟨c, by simp, by simp⟩⟩
      | cons x r =>
        rw [List.cons_prefix_cons] at hr
        obtain ⟨rfl, hr⟩ := hr
        obtain ⟨k, r', rfl, h2⟩ := ih r hr
        refine ⟨k + 1, r', by simp [candleText], ?_⟩
        simpa using h2

/-- The bytes on disk when every write succeeds. -/
theorem writeLoop_full (accept : Nat → Nat) (i : Nat) (cs : List Candle)
    (h : ∀ (j : Nat) (c : Candle), cs[j]? = some c → (candleLine pick eprec c).length + 1 ≤ accept (i + j)) :
    writeLoop pick eprec accept i cs = candleText pick eprec cs := by
  induction cs generalizing i with
  | nil => rfl
  | cons c cs ih =>
    have h0 := h 0 c (by simp)
    rw [writeLoop, ih (i + 1) (fun j c' hj => by
      have := h (j + 1) c' (by simpa using hj); rwa [show i + 1 + j = i + (j + 1) by omega])]
    rw [List.take_of_length_le (by simpa using h0)]
    simp [candleText]
end

end Finmod
