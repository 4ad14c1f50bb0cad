import Verif.Props.MarkFloat
import Verif.Props.CandleFile
import Verif.Props.RSI
import Verif.Props.AvgMono

/-!
# C134, C136–C139: exact conditions for completed requests, RSI values, candle files, `Modify`,
flat averages

C55, C79, C104, C46 and C125 are false of the code; these theorems say exactly when they fail.
-/

namespace Finmod
open Go Spec

theorem div_by_zero {S : FloatSem} {x y : Fl} (hx : x.isFinite = true) (h0 : x.isZero = false)
    (hy : y.isZero = true) : ∃ s, S.div x y = .inf s := by
  have hx' : ∃ q, x = .fin q := by cases x <;> simp [Fl.isFinite, Fl.isZero] at *
  have hy' : y = .fin 0 ∨ y = .negZero := by cases y <;> simp [Fl.isZero] at * ; assumption
  obtain ⟨q, rfl⟩ := hx'
  rcases hy' with rfl | rfl
  · exact ⟨_, by simp only [FloatSem.div, hy, h0, if_true, Bool.false_eq_true, if_false]; rfl⟩
  · exact ⟨_, by simp only [FloatSem.div, hy, h0, if_true, Bool.false_eq_true, if_false]; rfl⟩

/-! ### C134 -/

/-- **C134** A request with finite fields is completed to finite fields exactly if: the quantity was
given and quantity times price is in the float64 range; or the total was given, the price is not
zero, and total over price is in range. -/
theorem C134_finite_iff (o : OrderRequest) (current : Fl) (h : OneGiven o)
    (ht : o.total.isFinite = true) (hq : o.quantity.isFinite = true) :
    let price := if o.type = "market" then current else o.price
    price.isFinite = true →
    ∃ r, (calculateFields ieee o current).2 = .ok (some r) ∧
      ((r.total.isFinite = true ∧ r.quantity.isFinite = true) ↔
        (o.quantity.toRat ≠ 0 ∧
          |o.quantity.toRat * price.toRat| < 2 ^ (1024 : ℤ) - 2 ^ (970 : ℤ)) ∨
        (o.quantity.toRat = 0 ∧ price.toRat ≠ 0 ∧
          |o.total.toRat / price.toRat| < 2 ^ (1024 : ℤ) - 2 ^ (970 : ℤ))) := by
  intro price hp
  have he : effectivePrice o current = price := rfl
  have hqi := Fl.isFinite_is hq
  have hti := Fl.isFinite_is ht
  have hpi := Fl.isFinite_is hp
  refine ⟨_, by rw [calculateFields_ok h], ?_⟩
  by_cases h0 : o.quantity.toRat = 0
  · rw [if_neg (by rw [hqi.isZero]; simpa using h0), he]
    simp only [ht, true_and, h0, ne_eq, not_true_eq_false, false_and, false_or]
    by_cases hp0 : price.toRat = 0
    · simp only [hp0, not_true_eq_false, false_and, iff_false]
      have ht0 : o.total.isZero = false := by
        rcases h with ⟨_, h⟩ | ⟨h, _⟩
        · rw [hqi.isZero] at h; simp [h0] at h
        · exact h
      have hz : price.isZero = true := by rw [hpi.isZero]; simpa using hp0
      obtain ⟨s, e⟩ := div_by_zero (S := ieee) ht ht0 hz
      rw [e]; simp [Fl.isFinite]
    · simp only [hp0, not_false_eq_true, true_and]
      rcases FloatSem.div_is (S := ieee) hti hpi hp0 with ⟨_, e⟩ | ⟨e0, e⟩
      · rw [e]; exact (rounds_rnd _).2.1
      · rw [e0, zero_div]; exact (rounds_zero e).2.1
  · rw [if_pos (by rw [hqi.isZero]; simpa using h0), he]
    simp only [hq, and_true, h0, ne_eq, not_false_eq_true, true_and, false_and, or_false]
    rcases FloatSem.mul_is (S := ieee) hqi hpi with ⟨_, e⟩ | ⟨e0, e⟩
    · rw [e]; exact (rounds_rnd _).2.1
    · rw [e0]; exact (rounds_zero e).2.1

/-- **C134** In exact arithmetic only a zero price with a given total fails, and what comes out then
is an infinite quantity. -/
theorem C134_finite_iff_exact (o : OrderRequest) (current : Fl) (h : OneGiven o)
    (ht : o.total.isFinite = true) (hq : o.quantity.isFinite = true) :
    let price := if o.type = "market" then current else o.price
    price.isFinite = true →
    ∃ r, (calculateFields FloatSem.exact o current).2 = .ok (some r) ∧
      ((r.total.isFinite = true ∧ r.quantity.isFinite = true) ↔
        ¬ (price.toRat = 0 ∧ o.total.toRat ≠ 0)) ∧
      (price.toRat = 0 → o.total.toRat ≠ 0 → ∃ s, r = { o with quantity := .inf s }) := by
  intro price hp
  have he : effectivePrice o current = price := rfl
  have hqi := Fl.isFinite_is hq
  have hti := Fl.isFinite_is ht
  have hpi := Fl.isFinite_is hp
  refine ⟨_, by rw [calculateFields_ok h], ?_⟩
  by_cases h0 : o.quantity.toRat = 0
  · rw [if_neg (by rw [hqi.isZero]; simpa using h0), he]
    have ht0 : o.total.isZero = false := by
      rcases h with ⟨_, h⟩ | ⟨h, _⟩
      · rw [hqi.isZero] at h; simp [h0] at h
      · exact h
    have ht1 : o.total.toRat ≠ 0 := by rw [hti.isZero] at ht0; simpa using ht0
    simp only [ht, true_and, ht1, ne_eq, not_false_eq_true, and_true]
    by_cases hp0 : price.toRat = 0
    · have hz : price.isZero = true := by rw [hpi.isZero]; simpa using hp0
      obtain ⟨s, e⟩ := div_by_zero (S := FloatSem.exact) ht ht0 hz
      rw [e]
      refine ⟨by simp [Fl.isFinite, hp0], fun _ _ => ⟨s, rfl⟩⟩
    · refine ⟨?_, fun h => absurd h hp0⟩
      simp only [hp0, not_false_eq_true, iff_true]
      exact (Fl.is_iff.1 (FloatSem.exact_div hti hpi hp0)).1
  · rw [if_pos (by rw [hqi.isZero]; simpa using h0), he]
    have ht1 : o.total.toRat = 0 := by
      rcases h with ⟨h, _⟩ | ⟨_, h⟩
      · rw [hti.isZero] at h; simpa using h
      · rw [hqi.isZero] at h; exact absurd (by simpa using h) h0
    simp only [hq, and_true, ht1, ne_eq, not_true_eq_false, and_false, not_false_eq_true, iff_true,
      false_imp_iff, implies_true]
    exact (Fl.is_iff.1 (FloatSem.exact_mul hqi hpi)).1

example :
    let o : OrderRequest := ⟨"sell", "take_profit", exPair, .fin 0, .fin 0, .fin 0, .fin 0, .fin 10⟩
    OneGiven o ∧ ∃ r, (calculateFields ieee o (.fin 3)).2 = .ok (some r) ∧ r.quantity = .inf false :=
  ⟨by unfold OneGiven; decide +kernel, _, rfl, by decide +kernel⟩

/-! ### C136 -/

theorem rsi_nan_iff {S : FloatSem} (hS : Lawful S) (hG : Gradual S) {cs : List Candle}
    (hr : ∀ c ∈ cs, S.Rep c.close) :
    calculateRSI S cs = .nan ↔
      (∀ m ∈ moves (cs.map Candle.close), Fl.lt m.1 m.2 = false ∧ Fl.lt m.2 m.1 = false) ∨
      (fsum S (rises S (cs.map Candle.close)) = .inf false ∧
        fsum S (falls S (cs.map Candle.close)) = .inf false) := by
  have h1 := foldl_add_inv hS (rises_nonneg hS (cs.map Candle.close)) (.fin 0) (by simp) (by simp)
  have h2 := foldl_add_inv hS (falls_nonneg hS (cs.map Candle.close)) (.fin 0) (by simp) (by simp)
  have c1 : S.const 1 = .fin 1 := by simpa using const_int hS 1 (by norm_num)
  have c100 : S.const 100 = .fin 100 := by simpa using const_int hS 100 (by norm_num)
  constructor
  · intro hn
    by_contra hc
    rw [not_or] at hc
    obtain ⟨hf, hi⟩ := hc
    refine C79_number_partial hS hG hr ?_ ?_ hn
    · by_contra hm
      apply hf
      intro m hm'
      constructor
      · by_contra hlt; exact hm ⟨m, hm', Or.inl (by simpa using hlt)⟩
      · by_contra hlt; exact hm ⟨m, hm', Or.inr (by simpa using hlt)⟩
    · by_contra ho
      rw [not_or] at ho
      apply hi
      constructor
      · rcases nonneg_cases h1.1 with e | ⟨a, ha, _⟩
        · exact e
        · exact absurd (Fl.is_iff.1 ha).1 ho.1
      · rcases nonneg_cases h2.1 with e | ⟨a, ha, _⟩
        · exact e
        · exact absurd (Fl.is_iff.1 ha).1 ho.2
  · rw [calculateRSI_eq]
    rintro (hf | ⟨e1, e2⟩)
    · have r1 : rises S (cs.map Candle.close) = [] := by
        unfold rises
        rw [List.map_eq_nil_iff, List.filter_eq_nil_iff]
        intro m hm; rw [(hf m hm).1]; simp
      have r2 : falls S (cs.map Candle.close) = [] := by
        unfold falls
        rw [List.map_eq_nil_iff, List.filter_eq_nil_iff]
        intro m hm; rw [(hf m hm).2]; simp
      rw [r1, r2]
      simp [fsum, rsiIndex, c1, c100, FloatSem.div, FloatSem.add, FloatSem.sub, Fl.isZero, Fl.neg, FloatSem.to32]
    · rw [e1, e2]
      simp [rsiIndex, c1, c100, FloatSem.div, FloatSem.add, FloatSem.sub, Fl.neg, FloatSem.to32]

/-- **C136** Value `k` of a successful `RSI` is NaN exactly if the closes `k .. k+period` are flat
(no close above or below its predecessor) or both the rises and the falls among them add up to
infinity. -/
theorem C136_nan_iff {S : FloatSem} (hS : Lawful S) (hG : Gradual S) (cs spare : List Candle)
    (hr : ∀ c ∈ cs ++ spare, S.Rep c.close) (h14 : 14 ≤ cs.length) (hs : spare ≠ []) (n : Nat)
    (hn : n ≤ cs.length) :
    ∃ out, RSI S (some cs) spare n = .ok out ∧ out.length = cs.length - n + 1 ∧
      ∀ k v, out[k]? = some v →
        let w := ((((cs ++ spare).map Candle.close).drop k).take (n + 1))
        (v = .nan ↔ (∀ m ∈ moves w, Fl.lt m.1 m.2 = false ∧ Fl.lt m.2 m.1 = false) ∨
          (fsum S (rises S w) = .inf false ∧ fsum S (falls S w) = .inf false)) := by
  refine ⟨_, rsi_ok S cs spare h14 hs n hn, by simp, ?_⟩
  intro k v hv w
  rw [List.getElem?_map, Option.map_eq_some_iff] at hv
  obtain ⟨k', hk', rfl⟩ := hv
  have hkk : k' = k := by
    rw [List.getElem?_eq_some_iff] at hk'
    obtain ⟨_, e⟩ := hk'
    simpa using e.symm
  subst hkk
  have hw : w = (((cs ++ spare).drop k').take (n + 1)).map Candle.close := by
    simp only [w, List.map_take, List.map_drop]
  rw [hw]
  exact rsi_nan_iff hS hG (fun c hc => hr c (List.mem_of_mem_drop (List.mem_of_mem_take hc)))

example : ∃ out, RSI FloatSem.exact (some (List.replicate 14 (rsiCandle 7))) [rsiCandle 7] 14 = .ok out ∧
    out[0]? = some .nan := ⟨_, rfl, by decide +kernel⟩

/-! ### C137 -/

section
variable {S : FloatSem}

theorem mem_takeWhile_imp' {α : Type} {q : α → Bool} {l : List α} {x : α} (h : x ∈ l.takeWhile q) :
    q x = true := by
  induction l with
  | nil => simp at h
  | cons a l ih =>
    by_cases ha : q a = true
    · rw [List.takeWhile_cons_of_pos ha] at h
      rcases List.mem_cons.1 h with rfl | h
      · exact ha
      · exact ih h
    · rw [List.takeWhile_cons_of_neg ha] at h
      simp at h

theorem takeWhile_all' {α : Type} {q : α → Bool} {l : List α} (h : ∀ x ∈ l, q x = true) :
    l.takeWhile q = l := by
  induction l with
  | nil => rfl
  | cons a l ih =>
    rw [List.takeWhile_cons_of_pos (h a (by simp)), ih (fun x hx => h x (by simp [hx]))]

/-- The loop over the lines reads up to the first over-long line. -/
theorem loadLoop_takeWhile (ls : List (List Char)) (acc : List Candle) :
    loadLoop S acc ls = loadLoop S acc (ls.takeWhile (fun l => decide (l.length ≤ 65535))) := by
  induction ls generalizing acc with
  | nil => rfl
  | cons l ls ih =>
    by_cases h1 : 65535 < l.length
    · rw [List.takeWhile_cons_of_neg (by simpa using h1)]
      simp [loadLoop, h1]
    · rw [List.takeWhile_cons_of_pos (by simpa using h1)]
      simp only [loadLoop, h1, if_false]
      split
      · exact ih _
      · rfl
      · rfl

/-- **C137** A load gives a nil error exactly if every line before the first over-long one spells a
candle, and it then gives those candles and no others. -/
theorem C137_loads (bytes : List Char) (cs : List Candle) :
    loadCandles S (some bytes) = .ok cs ↔
      List.Forall₂ (fun l c => Spells S (trimmed l) c)
        ((lines bytes).takeWhile (fun l => decide (l.length ≤ 65535))) cs := by
  simp only [loadCandles, rawLines_lines]
  rw [loadLoop_takeWhile, loadLoop_ok _ _ _ (fun l hl => by simpa using mem_takeWhile_imp' hl)]
  simp

/-- **C137** A nil error means that every line was read exactly if there is no over-long line. -/
theorem C137_counts_iff (bytes : List Char) (cs : List Candle)
    (h : loadCandles S (some bytes) = .ok cs) :
    cs.length = (lines bytes).length ↔ ∀ l ∈ lines bytes, l.length ≤ 65535 := by
  rw [← ((C137_loads bytes cs).1 h).length_eq]
  constructor
  · intro hl l hm
    have hp := List.takeWhile_prefix (l := lines bytes) (fun l => decide (l.length ≤ 65535))
    have e := hp.eq_of_length hl
    rw [← e] at hm
    simpa using mem_takeWhile_imp' hm
  · intro hl
    rw [takeWhile_all' (fun l hm => by simpa using hl l hm)]

/-- **C137** The other two outcomes: an external error exactly if the first line that spells no
candle (none before it being over-long) is one that the parsers refuse rather than panic on. -/
theorem C137_error_otherwise (bytes : List Char) (h1 : ∀ cs, loadCandles S (some bytes) ≠ .ok cs)
    (h2 : loadCandles S (some bytes) ≠ .panic) :
    loadCandles S (some bytes) = .err .external [] := by
  have gen : ∀ (ls : List (List Char)) (acc : List Candle), (∃ cs, loadLoop S acc ls = .ok cs) ∨
      loadLoop S acc ls = .panic ∨ loadLoop S acc ls = .err .external [] := by
    intro ls
    induction ls with
    | nil => intro acc; exact Or.inl ⟨acc, rfl⟩
    | cons l ls ih =>
      intro acc
      unfold loadLoop
      split
      · exact Or.inl ⟨_, rfl⟩
      · split
        · exact ih _
        · exact Or.inr (Or.inr rfl)
        · exact Or.inr (Or.inl rfl)
  rcases gen (rawLines [] bytes) [] with ⟨cs, h⟩ | h | h
  · exact absurd h (h1 cs)
  · exact absurd h h2
  · exact h

end

example : loadCandles ieee (some ("{1 2 3 4 5 6}\n".toList ++ List.replicate 65536 'x')) =
    .ok [⟨1, .fin 2, .fin 3, .fin 4, .fin 5, .fin 6⟩] := by
  have hn : '\n' ∉ List.replicate 65536 'x' := by
    intro hm; rw [List.mem_replicate] at hm; exact absurd hm.2 (by decide)
  have e : rawLines [] ("{1 2 3 4 5 6}\n".toList ++ List.replicate 65536 'x') =
      "{1 2 3 4 5 6}".toList :: rawLines [] (List.replicate 65536 'x') := by rfl
  have e2 : rawLines [] (List.replicate 65536 'x') = [List.replicate 65536 'x'] := by
    rw [rawLines_last hn, if_neg]
    rw [List.replicate_eq_nil_iff]; norm_num
  unfold loadCandles
  simp only
  rw [e, e2, loadLoop_takeWhile, List.takeWhile_cons_of_pos (by decide),
    List.takeWhile_cons_of_neg (by rw [List.length_replicate]; decide)]
  decide +kernel

/-! ### C138 -/

/-- **C138** A trade changes a position exactly if the position accepts it, open or closed; and each
accepted trade appends its id to the log, so nothing undoes it. -/
theorem C138_changes_iff (S : FloatSem) (p : Position) (t : Trade) :
    (modified S p t ≠ p ↔ Accepts S p t) ∧
    (modified S p t).trades = p.trades ++ (if Accepts S p t then [t.id] else []) := by
  rcases modified_cases S p t with ⟨h, e⟩ | ⟨h, _, e⟩ | ⟨h, _, _, e⟩ | ⟨h, _, _, e⟩
  · rw [e]; simp [h]
  all_goals
    have ht : (modified S p t).trades = p.trades ++ [t.id] := by rw [e]; rfl
    refine ⟨iff_of_true ?_ h, by rw [ht, if_pos h]⟩
    intro hc
    rw [hc] at ht
    have := congrArg List.length ht
    simp at this

/-- **C138** What a trade leaves alone. Nothing ever changes the id, type, pair, open time, bounds,
execution id or data; adding and shrinking keep also the close price, close time, profit and the
open flag; closing keeps the open price and quantity, and takes price and time from the trade. -/
theorem C138_frame (S : FloatSem) (p : Position) (t : Trade) :
    let q := modified S p t
    (q.id = p.id ∧ q.type = p.type ∧ q.pair = p.pair ∧ q.openTime = p.openTime ∧
      q.takeProfit = p.takeProfit ∧ q.stopLoss = p.stopLoss ∧ q.executionID = p.executionID ∧
      q.data = p.data) ∧
    (Accepts S p t → Reduces p t → Fl.le (S.sub p.quantity t.quantity) (.fin 0) = true →
      q.openPrice = p.openPrice ∧ q.quantity = p.quantity ∧ q.closePrice = t.price ∧
      q.closeTime = t.executionTime ∧ q.opened = false) ∧
    (¬ (Accepts S p t ∧ Reduces p t ∧ Fl.le (S.sub p.quantity t.quantity) (.fin 0) = true) →
      q.closePrice = p.closePrice ∧ q.closeTime = p.closeTime ∧ q.profit = p.profit ∧
      q.opened = p.opened) := by
  intro q
  rcases modified_cases S p t with ⟨h, e⟩ | ⟨h, ha, e⟩ | ⟨h, hr, hle, e⟩ | ⟨h, hr, hle, e⟩
  · have hq : q = p := e
    rw [hq]
    exact ⟨by simp, fun h' => absurd h' h, by simp⟩
  · have hq : q = posAdd S p t := e
    rw [hq]
    exact ⟨by simp [posAdd], fun _ hr => absurd hr (not_adds_and_reduces ha), by simp [posAdd]⟩
  · have hq : q = closedBy S p t := e
    rw [hq]
    exact ⟨by simp [closedBy], fun _ _ _ => by simp [closedBy], fun hc => absurd ⟨h, hr, hle⟩ hc⟩
  · have hq : q = shrunkBy S p t := e
    rw [hq]
    exact ⟨by simp [shrunkBy], fun _ _ h' => absurd (hle.symm.trans h') (by simp), by simp [shrunkBy]⟩

example : Accepts ieee (modified ieee (newPosition "p" 0 (exTrade "a" "buy" 10 2))
    (exTrade "b" "sell" 12 2)) (exTrade "c" "sell" 20 2) := by decide +kernel

/-! ### C139 -/

/-- **C139** Flat averages of period 1 and 2 are exact in float64 for every finite close, as long as
twice the close does not overflow in the second case. -/
theorem C139_flat_short (cs : List Candle) (x : ℚ) (hx : IsFloat64 x)
    (hc : ∀ c ∈ cs, c.close = .fin x) :
    (1 ≤ cs.length → ∃ out, movingAverage ieee (some cs) 1 = .ok out ∧
      out.length = cs.length ∧ ∀ y ∈ out, y.Is x) ∧
    (2 ≤ cs.length → |x| < 2 ^ (1023 : ℤ) → ∃ out, movingAverage ieee (some cs) 2 = .ok out ∧
      out.length = cs.length - 1 ∧ ∀ y ∈ out, y.Is x) := by
  have hrx : ieee.rnd x = .fin x := C102_nearest_even.1.exact x hx
  have win : ∀ n k, k < cs.length - n + 1 → n ≤ cs.length →
      closes ((cs.drop k).take n) = List.replicate n (.fin x) := by
    intro n k hk hn
    rw [List.eq_replicate_iff]
    refine ⟨by simp [closes]; omega, ?_⟩
    intro b hb
    obtain ⟨c, hcm, rfl⟩ := List.mem_map.1 hb
    exact hc c (List.mem_of_mem_drop (List.mem_of_mem_take hcm))
  have step0 : (ieee.add (.fin 0) (.fin x)) = .fin x := by
    have : ieee.add (.fin 0) (.fin x) = ieee.rnd (0 + x) := rfl
    rw [this, zero_add, hrx]
  constructor
  · intro h1
    refine ⟨_, movingAverage_ok _ cs 1 le_rfl h1, by simp; omega, ?_⟩
    intro y hy
    obtain ⟨k, hk, rfl⟩ := List.mem_map.1 hy
    rw [List.mem_range] at hk
    have hlen : ((cs.drop k).take 1).length = 1 := by simp; omega
    rw [average_eq, hlen, win 1 k hk h1, const_zero ieee_lawful]
    obtain ⟨hi, _⟩ := ofInt_pos ieee_lawful (n := 1) le_rfl (by norm_num)
    simp only [List.replicate_one, List.foldl_cons, List.foldl_nil, step0]
    rcases FloatSem.div_is (S := ieee) (Fl.is_fin x) hi (by norm_num) with ⟨_, e1⟩ | ⟨e0, e1⟩
    · rw [e1]
      rw [show x / ((1 : ℕ) : ℚ) = x by simp, hrx]; exact Fl.is_fin _
    · rw [e0]; rw [e0] at e1; exact e1
  · intro h2 hlt
    refine ⟨_, movingAverage_ok _ cs 2 (by norm_num) h2, by simp; omega, ?_⟩
    intro y hy
    obtain ⟨k, hk, rfl⟩ := List.mem_map.1 hy
    rw [List.mem_range] at hk
    have hlen : ((cs.drop k).take 2).length = 2 := by simp; omega
    rw [average_eq, hlen, win 2 k hk h2, const_zero ieee_lawful]
    obtain ⟨hi, _⟩ := ofInt_pos ieee_lawful (n := 2) (by norm_num) (by norm_num)
    have hdouble : IsFloat64 (2 * x) := by
      obtain ⟨m, e, h1, h2, h3, rfl⟩ := hx
      by_cases he : e + 1 + (53 : ℕ) ≤ (1024 : ℕ)
      · exact ⟨m, e + 1, h1, by omega, he, by rw [zpow_add_one₀ (by norm_num)]; ring⟩
      · have e971 : e = 971 := by push_cast at h3 he; omega
        subst e971
        refine ⟨2 * m, 971, ?_, by norm_num, by norm_num, by rw [Int.cast_mul, mul_assoc]; rfl⟩
        have hpw : (2 : ℚ) ^ (1023 : ℤ) = 2 ^ (52 : ℤ) * 2 ^ (971 : ℤ) := by
          rw [← zpow_add₀ (by norm_num)]; norm_num
        have hpos : (0 : ℚ) < 2 ^ (971 : ℤ) := zpow_pos (by norm_num) _
        rw [abs_mul, abs_of_pos hpos, hpw] at hlt
        have := lt_of_mul_lt_mul_right hlt hpos.le
        have h52 : |m| < 2 ^ 52 := by exact_mod_cast this
        rw [abs_mul]
        norm_num
        norm_num at h52
        omega
    have step1 : ieee.add (.fin x) (.fin x) = .fin (2 * x) := by
      have : ieee.add (.fin x) (.fin x) = ieee.rnd (x + x) := rfl
      rw [this, ← two_mul, C102_nearest_even.1.exact _ hdouble]
    simp only [List.replicate_succ, List.replicate_zero, List.foldl_cons, List.foldl_nil, step0, step1]
    rcases FloatSem.div_is (S := ieee) (Fl.is_fin (2 * x)) hi (by norm_num) with ⟨_, e1⟩ | ⟨e0, e1⟩
    · rw [e1]
      rw [show 2 * x / ((2 : ℕ) : ℚ) = x by simp, hrx]; exact Fl.is_fin _
    · have : x = 0 := by linarith
      rw [this]; rw [this] at e1; exact e1

/-- 0.1 twice: the average of period 2 is 0.1 again (that of period 3 is not, C125). -/
example :
    let c : Candle := ⟨0, .fin 1, .fin 1, .fin 1, .fin (3602879701896397 / 36028797018963968), .fin 1⟩
    IsFloat64 (3602879701896397 / 36028797018963968) ∧
    movingAverage ieee (some [c, c, c]) 2 = .ok [c.close, c.close] :=
  ⟨⟨3602879701896397, -55, by norm_num, by norm_num, by norm_num, by norm_num⟩, by decide +kernel⟩

end Finmod
