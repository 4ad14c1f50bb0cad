import Verif.Props.Shared
import Verif.Props.RSI
import Verif.Props.Averages
import Verif.Props.CandleStream

/-!
# Candles that change while they are read: C234–C238, C240, C241
-/

namespace Finmod.Spec
open Go Shared

/-- The time after the last read of a run. -/
def ended {α R : Type} (mem : Nat → Nat → α) : Prog α R → Nat → Nat
  | .done _, t => t
  | .read i k, t => ended mem (k (mem t i)) (t + 1)

/-- The candles `cs`, but from time `T` on the one with index `m` is `c`. -/
def replacedAt (cs : List Candle) (m : Nat) (c : Candle) (T : Nat) : Nat → Nat → Candle :=
  fun t i => if i = m ∧ T ≤ t then c else cs[i]?.getD c

/-- Low, open, close and high are in order. -/
def InOrder (c : Candle) : Prop :=
  Fl.le c.low c.opn = true ∧ Fl.le c.low c.close = true ∧ Fl.le c.opn c.high = true ∧ Fl.le c.close c.high = true

/-- Candles as they grow while their time runs: always in order, the high never falls and the low never rises. -/
structure LiveMemory (mem : Nat → Nat → Candle) : Prop where
  inOrder : ∀ t i, InOrder (mem t i)
  high : ∀ t t' i, t ≤ t' → Fl.le (mem t i).high (mem t' i).high = true
  low : ∀ t t' i, t ≤ t' → Fl.le (mem t' i).low (mem t i).low = true

/-- The candle `c` reaches at least as high and as low as candle `i` of `now`. -/
def Covers (now : Nat → Candle) (i : Nat) (c : Candle) : Prop :=
  Fl.le (now i).high c.high = true ∧ Fl.le c.low (now i).low = true

/-- What `mem` gives to a reader who reads the candles of `real` field by field: the fields of a candle read at time `t` are those of any moments
between `clock t` and `clock (t + 1)`. -/
def Torn (real mem : Nat → Nat → Candle) (clock : Nat → Nat) : Prop :=
  ∀ t, clock t ≤ clock (t + 1) ∧ ∀ i,
    (∃ s, clock t ≤ s ∧ s ≤ clock (t + 1) ∧ (mem t i).time = (real s i).time) ∧
    (∃ s, clock t ≤ s ∧ s ≤ clock (t + 1) ∧ (mem t i).opn = (real s i).opn) ∧
    (∃ s, clock t ≤ s ∧ s ≤ clock (t + 1) ∧ (mem t i).high = (real s i).high) ∧
    (∃ s, clock t ≤ s ∧ s ≤ clock (t + 1) ∧ (mem t i).low = (real s i).low) ∧
    (∃ s, clock t ≤ s ∧ s ≤ clock (t + 1) ∧ (mem t i).close = (real s i).close) ∧
    ∃ s, clock t ≤ s ∧ s ≤ clock (t + 1) ∧ (mem t i).volume = (real s i).volume

/-- The volatility given while candle `m` is replaced by `c`, read field by field, is that of the old candles or that of the new ones. -/
def C241_claim (S : FloatSem) : Prop :=
  ∀ (cs : List Candle) (m : Nat) (c : Candle) (T : Nat) (beta : Fl) (mem : Nat → Nat → Candle) (clock : Nat → Nat) (t : Nat), m < cs.length →
    Torn (replacedAt cs m c T) mem clock →
    (volatilityP S cs.length beta).exec mem t = exponentialWeightedVolatility S cs beta ∨
    (volatilityP S cs.length beta).exec mem t = exponentialWeightedVolatility S (cs.set m c) beta

/-- The values of RSI are NaN or between 0 and 100 while another goroutine replaces one candle; `spare` is behind the slice. -/
def C237_claim (S : FloatSem) : Prop :=
  ∀ (cs spare : List Candle) (period : Int) (m : Nat) (c : Candle) (T : Nat) (out : List Fl),
    (rsiP S (some (cs.length, (cs ++ spare).length)) period).exec (replacedAt (cs ++ spare) m c T) 0 = .ok out →
    ∀ v ∈ out, v = .nan ∨ (Fl.le (.fin 0) v = true ∧ Fl.le v (.fin 100) = true)

end Finmod.Spec

namespace Finmod.Shared
open Go Spec

section
variable {α R Q : Type} {l : List α}

/-- The program reads elements of `l`, and the one behind them once at most (but for reads whose result is not used). -/
inductive Once (l : List α) : Prog α R → Prop
  | quiet {p : Prog α R} {r : R} : Reads l p r → Once l p
  | skip {i : Nat} {k : α → Prog α R} {a : α} : l[i]? = some a → Once l (k a) → Once l (.read i k)
  | live {k : α → Prog α R} : (∀ c, ∃ r, Reads l (k c) r) → Once l (.read l.length k)
  | ignore {k : α → Prog α R} : (∀ c c', k c = k c') → (∀ c, Once l (k c)) → Once l (.read l.length k)

theorem Reads.once {p : Prog α R} {r : R} {f : R → Prog α Q} (h : Reads l p r) (hf : Once l (f r)) : Once l (p.bind f) := by
  induction h with
  | done r => exact hf
  | read ha _ ih => exact .skip ha (ih hf)

theorem Once.bind {p : Prog α R} {f : R → Prog α Q} (h : Once l p) (hf : ∀ r, ∃ q, Reads l (f r) q) : Once l (p.bind f) := by
  induction h with
  | quiet h => obtain ⟨q, hq⟩ := hf _; exact .quiet (h.bind hq)
  | skip ha _ ih => exact .skip ha ih
  | live hk =>
    refine .live fun c => ?_
    obtain ⟨r, hr⟩ := hk c
    obtain ⟨q, hq⟩ := hf r
    exact ⟨q, hr.bind hq⟩
  | ignore h1 _ ih => exact .ignore (fun c c' => by rw [h1 c c']) ih

theorem Prog.bind_assoc {U : Type} : ∀ (p : Prog α R) (f : R → Prog α Q) (g : Q → Prog α U), (p.bind f).bind g = p.bind fun r => (f r).bind g
  | .done _, _, _ => rfl
  | .read i k, f, g => congrArg (Prog.read i) (funext fun a => bind_assoc (k a) f g)

theorem le_ended (mem : Nat → Nat → α) : ∀ (p : Prog α R) (t : Nat), t ≤ ended mem p t
  | .done _, _ => le_rfl
  | .read i k, t => le_trans (Nat.le_succ t) (le_ended mem (k (mem t i)) (t + 1))

theorem Once.exec {mem : Nat → Nat → α} (h0 : Undisturbed l mem) {p : Prog α R} (h : Once l p) (t : Nat) :
    ∃ t', t ≤ t' ∧ t' ≤ ended mem p t ∧ ∀ mem' s, Undisturbed (l ++ [mem t' l.length]) mem' → p.exec mem t = p.exec mem' s := by
  have old : ∀ {x : α} {mem' : Nat → Nat → α}, Undisturbed (l ++ [x]) mem' → Undisturbed l mem' := fun hm t i a ha =>
    hm t i a (by rw [List.getElem?_append_left (List.getElem?_eq_some_iff.1 ha).1]; exact ha)
  induction h generalizing t with
  | quiet h => exact ⟨t, le_rfl, le_ended .., fun mem' s hm => (h.exec h0 t).trans (h.exec (old hm) s).symm⟩
  | skip ha _ ih =>
    obtain ⟨t', h1, h2, h3⟩ := ih (t + 1)
    refine ⟨t', by omega, ?_, fun mem' s hm => ?_⟩
    · rw [ended, h0 t _ _ ha]; exact h2
    · rw [Prog.exec, Prog.exec, h0 t _ _ ha, old hm s _ _ ha]
      exact h3 mem' (s + 1) hm
  | live hk =>
    refine ⟨t, le_rfl, le_ended .., fun mem' s hm => ?_⟩
    obtain ⟨r, hr⟩ := hk (mem t l.length)
    rw [Prog.exec, Prog.exec, hm s l.length (mem t l.length) (by simp), hr.exec h0, hr.exec (old hm)]
  | @ignore k h1 _ ih =>
    obtain ⟨t', k1, k2, k3⟩ := ih (mem t l.length) (t + 1)
    refine ⟨t', by omega, k2, fun mem' s hm => ?_⟩
    rw [Prog.exec, Prog.exec, h1 (mem' s l.length) (mem t l.length)]
    exact k3 mem' (s + 1) hm

/-- Memory that shows a list. -/
def still (l : List α) (d : α) : Nat → Nat → α := fun _ i => l[i]?.getD d

theorem still_undisturbed (l : List α) (d : α) : Undisturbed l (still l d) := fun _ i a ha => by simp [still, ha]
end

variable {S : FloatSem} {l : List Candle}

theorem once_sum : ∀ (n : Nat) (acc : Fl) (i : Nat), i + n ≤ l.length + 1 → Once l (sumP S acc i n)
  | 0, acc, _, _ => .quiet (.done acc)
  | n + 1, acc, i, h => by
    rcases Nat.lt_or_ge i l.length with hi | hi
    · exact .skip (List.getElem?_eq_getElem hi) (once_sum n _ (i + 1) (by omega))
    · obtain rfl : i = l.length := by omega
      obtain rfl : n = 0 := by omega
      exact .live fun c => ⟨_, .done _⟩

theorem once_sum_ignored {Q : Type} {f : Fl → Prog Candle Q} (hf : ∀ r r', f r = f r') (h1 : ∀ r, Once l (f r)) :
    ∀ (n : Nat) (acc : Fl) (i : Nat), i + n ≤ l.length + 1 → Once l ((sumP S acc i n).bind f)
  | 0, acc, _, _ => h1 acc
  | n + 1, acc, i, h => by
    rcases Nat.lt_or_ge i l.length with hi | hi
    · exact .skip (List.getElem?_eq_getElem hi) (once_sum_ignored hf h1 n _ (i + 1) (by omega))
    · obtain rfl : i = l.length := by omega
      obtain rfl : n = 0 := by omega
      exact .ignore (fun c c' => hf _ _) fun c => h1 _

theorem once_maLoop (fuel : Nat) : ∀ i j, i ≤ j + 1 → Once l (maLoopP S (l.length + 1) fuel i j) := by
  induction fuel with
  | zero => intro i j _; exact .quiet (.done _)
  | succ fuel ih =>
    intro i j hij
    rw [maLoopP]
    split_ifs with h1 h2
    · exact .quiet (.done _)
    · exact .quiet (.done _)
    · rcases Nat.lt_or_ge j l.length with hj | hj
      · exact (reads_average (by omega)).once ((ih (i + 1) (j + 1) (by omega)).bind fun r => ⟨_, .done _⟩)
      · obtain rfl : j = l.length := by omega
        refine ((once_sum _ _ _ (by omega)).bind fun r => ⟨_, .done _⟩).bind fun a => ?_
        cases fuel with
        | zero => exact ⟨_, .done _⟩
        | succ fuel => rw [maLoopP, if_pos rfl]; exact ⟨_, .done _⟩

theorem once_movingAverage (period : Int) : Once l (movingAverageP S (some (l.length + 1)) period) := by
  rw [movingAverageP]
  split_ifs with h1 h2
  · exact .quiet (.done _)
  · exact .quiet (.done _)
  · exact once_maLoop _ _ _ (by omega)

theorem once_ema {period : Int} (p : Fl) (n : Nat) : ∀ i arr, i + n = l.length + 1 → Once l (emaLoopP S period p n i arr) := by
  induction n with
  | zero => intro i arr _; exact .quiet (.done _)
  | succ n ih =>
    intro i arr h
    rw [emaLoopP]
    split_ifs with h2
    · exact ih (i + 1) arr (by omega)
    · cases hl : arr.getLast? with
      | none => exact (reads_average (i := 0) (n := period.toNat) (by omega)).once (ih (i + 1) _ (by omega))
      | some last =>
        rcases Nat.lt_or_ge i l.length with hi | hi
        · exact .skip (List.getElem?_eq_getElem hi) (ih (i + 1) _ (by omega))
        · obtain rfl : i = l.length := by omega
          obtain rfl : n = 0 := by omega
          exact .live fun c => ⟨_, .done _⟩

theorem once_exponential (period : Int) : Once l (exponentialMovingAverageP S (some (l.length + 1)) period) := by
  rw [exponentialMovingAverageP]
  split_ifs with h1 h2
  · exact .quiet (.done _)
  · exact .quiet (.done _)
  · exact (once_ema _ _ 0 [] (by omega)).bind fun r => ⟨_, .done _⟩

theorem once_smma {period : Int} (hp : 0 < period) (n : Nat) : ∀ i arr, i + n = l.length + 1 → Once l (smmaLoopP S period n i arr) := by
  induction n with
  | zero => intro i arr _; exact .quiet (.done _)
  | succ n ih =>
    intro i arr h
    rw [smmaLoopP]
    split_ifs with h2
    · exact ih (i + 1) arr (by omega)
    · rcases Nat.lt_or_ge i l.length with hi | hi
      · refine (reads_closingSum (len := i + 1) (by omega) hp).once ?_
        have ha := List.getElem?_eq_getElem hi
        cases closingSum S (l.take (i + 1)) period with
        | none => exact .quiet (.done _)
        | some sum =>
          match arr with
          | [] => exact ih (i + 1) _ (by omega)
          | [_] => exact .skip ha (ih (i + 1) _ (by omega))
          | x :: y :: r =>
            simp only
            cases (x :: y :: r).getLast? with
            | none => exact ih (i + 1) _ (by omega)
            | some prev => exact .skip ha (ih (i + 1) _ (by omega))
      · obtain rfl : i = l.length := by omega
        obtain rfl : n = 0 := by omega
        rw [closingSumP, if_neg (by omega), Prog.bind_assoc]
        have hr : l.length + 1 - period.toNat + min period.toNat (l.length + 1) ≤ l.length + 1 := by omega
        match arr with
        | [] => exact (once_sum _ _ _ hr).bind fun r => ⟨_, .done _⟩
        | [_] => exact once_sum_ignored (fun _ _ => rfl) (fun _ => .live fun c => ⟨_, .done _⟩) _ _ _ hr
        | x :: y :: r =>
          refine once_sum_ignored (fun _ _ => rfl) (fun _ => ?_) _ _ _ hr
          simp only [Prog.bind]
          cases (x :: y :: r).getLast? with
          | none => exact .quiet (.done _)
          | some prev => exact .live fun c => ⟨_, .done _⟩

theorem once_smoothed (period : Int) : Once l (smoothedMovingAverageP S (some (l.length + 1)) period) := by
  rw [smoothedMovingAverageP]
  split_ifs with h1 h2
  · exact .quiet (.done _)
  · exact .quiet (.done _)
  · exact (once_smma (by omega) _ 0 [] (by omega)).bind fun r => ⟨_, .done _⟩

end Finmod.Shared

namespace Finmod
open Go Spec Shared

variable {S : FloatSem} {l : List Candle} {mem : Nat → Nat → Candle}

theorem once_result {R : Type} {p : Prog Candle R} (hp : Once l p) {F : List Candle → R}
    (hF : ∀ c mem', Undisturbed (l ++ [c]) mem' → p.exec mem' 0 = F (l ++ [c])) (h : Undisturbed l mem) (t : Nat) :
    ∃ t', t ≤ t' ∧ t' ≤ ended mem p t ∧ p.exec mem t = F (l ++ [mem t' l.length]) := by
  obtain ⟨t', h1, h2, h3⟩ := hp.exec h t
  have hu := still_undisturbed (l ++ [mem t' l.length]) (mem t' l.length)
  exact ⟨t', h1, h2, (h3 _ 0 hu).trans (hF _ _ hu)⟩

/-- **C234.** `MovingAverage` while the last candle is changed, as often as you like, and the others are not: the result is that for the last candle as it was
at some moment of the call. -/
theorem C234_movingAverage (h : Undisturbed l mem) (period : Int) (t : Nat) :
    ∃ t', t ≤ t' ∧ t' ≤ ended mem (movingAverageP S (some (l.length + 1)) period) t ∧
      (movingAverageP S (some (l.length + 1)) period).exec mem t = movingAverage S (some (l ++ [mem t' l.length])) period :=
  once_result (F := fun cs => movingAverage S (some cs) period) (once_movingAverage period) (fun c mem' hm => by
    have := C197_movingAverage (S := S) hm period 0
    rwa [List.length_append] at this) h t

/-- **C234.** `ExponentialMovingAverage`. -/
theorem C234_exponential (h : Undisturbed l mem) (period : Int) (t : Nat) :
    ∃ t', t ≤ t' ∧ t' ≤ ended mem (exponentialMovingAverageP S (some (l.length + 1)) period) t ∧
      (exponentialMovingAverageP S (some (l.length + 1)) period).exec mem t = exponentialMovingAverage S (some (l ++ [mem t' l.length])) period :=
  once_result (F := fun cs => exponentialMovingAverage S (some cs) period) (once_exponential period) (fun c mem' hm => by
    have := C197_exponential (S := S) hm period 0
    rwa [List.length_append] at this) h t

/-- **C234.** `SmoothedMovingAverage`. -/
theorem C234_smoothed (h : Undisturbed l mem) (period : Int) (t : Nat) :
    ∃ t', t ≤ t' ∧ t' ≤ ended mem (smoothedMovingAverageP S (some (l.length + 1)) period) t ∧
      (smoothedMovingAverageP S (some (l.length + 1)) period).exec mem t = smoothedMovingAverage S (some (l ++ [mem t' l.length])) period :=
  once_result (F := fun cs => smoothedMovingAverage S (some cs) period) (once_smoothed period) (fun c mem' hm => by
    have := C197_smoothed (S := S) hm period 0
    rwa [List.length_append] at this) h t

theorem ewv_any (beta : Fl) : ∀ (n i t : Nat) (v : Fl), (ewvLoopP S beta v i n).exec mem t =
    ((List.range n).map fun k => mem (t + k) (i + k)).foldl (ewvStep S beta) v
  | 0, _, _, _ => rfl
  | n + 1, i, t, v => by
    rw [ewvLoopP, Prog.exec, ewv_any beta n (i + 1) (t + 1), List.range_succ_eq_map, List.map_cons, List.foldl_cons, List.map_map]
    congr 2
    funext k
    simp only [Function.comp, Nat.succ_eq_add_one]
    rw [show t + 1 + k = t + (k + 1) by omega, show i + 1 + k = i + (k + 1) by omega]

/-- **C235.** `ExponentialWeightedVolatility` while any candles are changed: the result is that for a list in which every candle is one that
was there at a moment of the call, in order of time. -/
theorem C235_volatility (len : Nat) (beta : Fl) (t : Nat) :
    (volatilityP S len beta).exec mem t = exponentialWeightedVolatility S ((List.range len).map fun k => mem (t + k) k) beta := by
  rw [volatilityP, ewv_any, exponentialWeightedVolatility]
  simp only [Nat.zero_add]

theorem exec_bind_done {α R Q : Type} {mem : Nat → Nat → α} (f : R → Q) : ∀ (p : Prog α R) (t : Nat), (p.bind fun r => .done (f r)).exec mem t = f (p.exec mem t)
  | .done _, _ => rfl
  | .read i k, t => exec_bind_done f (k (mem t i)) (t + 1)

theorem write_any (pick : ℚ → Nat × ℤ) (e : ℤ) (accept : Nat → Nat) : ∀ (n i t : Nat), (writeP pick e accept i n).exec mem t =
    writeLoop pick e accept i ((List.range n).map fun k => mem (t + k) (i + k))
  | 0, _, _ => rfl
  | n + 1, i, t => by
    rw [writeP, Prog.exec, exec_bind_done, write_any pick e accept n (i + 1) (t + 1), List.range_succ_eq_map, List.map_cons, writeLoop, List.map_map]
    congr 3
    funext k
    simp only [Function.comp, Nat.succ_eq_add_one]
    rw [show t + 1 + k = t + (k + 1) by omega, show i + 1 + k = i + (k + 1) by omega]

/-- **C235.** What `SaveCandlesToFile` writes while any candles are changed. -/
theorem C235_save (pick : ℚ → Nat × ℤ) (e : ℤ) (accept : Nat → Nat) (len t : Nat) :
    (writeP pick e accept 0 len).exec mem t = writeLoop pick e accept 0 ((List.range len).map fun k => mem (t + k) k) := by
  rw [write_any]
  simp only [Nat.zero_add]

/-- A program that makes `n` reads in any case. -/
theorem sum_any {Q : Type} : ∀ (n i t : Nat) (acc : Fl) (f : Fl → Prog Candle Q), ((sumP S acc i n).bind f).exec mem t =
    (f (((List.range n).map fun q => mem (t + q) (i + q)).foldl (fun s c => S.add s c.close) acc)).exec mem (t + n)
  | 0, _, _, _, _ => rfl
  | n + 1, i, t, acc, f => by
    show ((sumP S (S.add acc (mem t i).close) (i + 1) n).bind f).exec mem (t + 1) = _
    rw [sum_any n (i + 1) (t + 1), List.range_succ_eq_map, List.map_cons, List.foldl_cons, List.map_map]
    rw [show t + 1 + n = t + (n + 1) by omega]
    congr 4
    funext k
    simp only [Function.comp, Nat.succ_eq_add_one]
    rw [show t + 1 + k = t + (k + 1) by omega, show i + 1 + k = i + (k + 1) by omega]

theorem maLoop_any {len n : Nat} (hn : 1 ≤ n) : ∀ (m fuel i t : Nat), i + n - 1 + m = len → m + 1 ≤ fuel →
    (maLoopP S len fuel i (i + n - 1)).exec mem t =
      .ok ((List.range m).map fun k => average S ((List.range n).map fun q => mem (t + k * n + q) (i + k + q)))
  | 0, fuel + 1, i, t, h, _ => by rw [maLoopP, if_pos (by omega)]; rfl
  | m + 1, fuel + 1, i, t, h, hf => by
    rw [maLoopP, if_neg (by omega), if_neg (by omega), averageP, Prog.bind_assoc, sum_any]
    show Prog.exec mem (Prog.bind _ fun r => .done _) _ = _
    rw [exec_bind_done, show i + n - 1 + 1 - i = n by omega, show i + n - 1 + 1 = i + 1 + n - 1 by omega,
      maLoop_any hn m fuel (i + 1) (t + n) (by omega) (by omega), List.range_succ_eq_map, List.map_cons, List.map_map]
    simp only [average, List.length_map, List.length_range, Nat.zero_mul, Nat.add_zero]
    congr 3
    funext k
    simp only [Function.comp, Nat.succ_eq_add_one]
    congr 3
    funext q
    rw [show t + n + k * n + q = t + (k + 1) * n + q by rw [Nat.add_mul]; omega, show i + 1 + k + q = i + (k + 1) + q by omega]

/-- **C236.** `MovingAverage` while any candles are changed: value `k` is the average of the candles `k` to `k+n-1` as they were when the
call came to them for this value; a candle may differ from value to value. -/
theorem C236_windows {len n : Nat} (hn : 1 ≤ n) (hl : n ≤ len) (t : Nat) :
    (movingAverageP S (some len) n).exec mem t =
      .ok ((List.range (len - n + 1)).map fun k => average S ((List.range n).map fun q => mem (t + k * n + q) (k + q))) := by
  rw [movingAverageP, if_neg (by omega), if_neg (by omega), Int.toNat_natCast]
  have := maLoop_any (S := S) (mem := mem) (len := len) hn (len - n + 1) (len + 1) 0 t (by omega) (by omega)
  simpa using this

/-- A list by its elements. -/
theorem map_range_eq {α : Type} {w : List α} {n : Nat} {f : Nat → α} (hl : w.length = n) (hf : ∀ q, q < n → w[q]? = some (f q)) :
    (List.range n).map f = w := by
  refine List.ext_getElem? fun q => ?_
  rcases Nat.lt_or_ge q n with hq | hq
  · rw [hf q hq, List.getElem?_map, List.getElem?_range hq]; rfl
  · rw [List.getElem?_eq_none (by simpa using hq), List.getElem?_eq_none (by omega)]

theorem average_replaced {cs : List Candle} {xs : List ℚ} (h : Closes cs xs) {m : Nat} {x y : ℚ} {c : Candle} (hx : xs[m]? = some x) (hy : c.close.Is y)
    (hxy : x ≠ y) {k n : Nat} (h1 : k ≤ m) (h2 : m < k + n) (hl : k + n ≤ cs.length) :
    average .exact (((cs.set m c).drop k).take n) ≠ average .exact ((cs.drop k).take n) := by
  have hw := (h.drop k).take n
  have e1 : ((cs.set m c).drop k).take n = ((cs.drop k).take n).set (m - k) c := by
    rw [List.drop_set, if_neg (by omega), List.take_set]
  have hlen : xs.length = cs.length := h.length_eq.symm
  have hw' : Closes (((cs.drop k).take n).set (m - k) c) (((xs.drop k).take n).set (m - k) y) := by
    refine List.forall₂_iff_get.2 ⟨by simp [hlen], fun i hi hi' => ?_⟩
    simp only [List.get_eq_getElem, List.getElem_set]
    split_ifs with e
    · exact hy
    · exact hw.get (by simpa using hi) (by simpa using hi')
  have hlx : ((xs.drop k).take n).length = n := by rw [List.length_take, List.length_drop]; omega
  have hlc : ((cs.drop k).take n).length = n := by rw [List.length_take, List.length_drop]; omega
  have a1 := average_exact hw' (by intro e; have := congrArg List.length e; rw [List.length_set, hlc, List.length_nil] at this; omega)
  have a2 := average_exact hw (by intro e; have := congrArg List.length e; rw [hlc, List.length_nil] at this; omega)
  rw [e1]
  intro e
  rw [e] at a1
  have := a1.unique a2
  unfold mean at this
  rw [List.length_set, hlx] at this
  have hn : (n : ℚ) ≠ 0 := by have : 0 < n := by omega
                              positivity
  rw [div_left_inj' hn, List.sum_set', dif_pos (by omega)] at this
  have hg : ((xs.drop k).take n)[m - k]'(by omega) = x := by
    have hm : m < xs.length := (List.getElem?_eq_some_iff.1 hx).1
    rw [List.getElem_take, List.getElem_drop]
    have : xs[m] = x := (List.getElem?_eq_some_iff.1 hx).2
    rw [← this]
    congr 1; omega
  rw [hg] at this
  apply hxy
  linarith

/-- **C236.** A candle that two neighbouring windows share is replaced by one with another close: there is a moment for it such that the
result of `MovingAverage` (exact arithmetic) is neither that for the candles before nor that for the candles after. -/
theorem C236_mixed {cs : List Candle} {xs : List ℚ} (h : Closes cs xs) {m : Nat} {x y : ℚ} {c : Candle} (hx : xs[m]? = some x) (hy : c.close.Is y)
    (hxy : x ≠ y) {k n : Nat} (h1 : k + 1 ≤ m) (h2 : m < k + n) (hl : k + 1 + n ≤ cs.length) :
    ∃ T, (movingAverageP .exact (some cs.length) n).exec (replacedAt cs m c T) 0 ≠ movingAverage .exact (some cs) n ∧
      (movingAverageP .exact (some cs.length) n).exec (replacedAt cs m c T) 0 ≠ movingAverage .exact (some (cs.set m c)) n := by
  refine ⟨(k + 1) * n, ?_⟩
  have hset : (cs.set m c).length = cs.length := List.length_set ..
  rw [C236_windows (by omega) (by omega), movingAverage_ok _ cs n (by omega) (by omega), movingAverage_ok _ (cs.set m c) n (by omega) (by omega), hset]
  have wk : (List.range n).map (fun q => replacedAt cs m c ((k + 1) * n) (0 + k * n + q) (k + q)) = (cs.drop k).take n := by
    refine map_range_eq (by rw [List.length_take, List.length_drop]; omega) fun q hq => ?_
    rw [List.getElem?_take, if_pos hq, List.getElem?_drop, replacedAt, if_neg (by rw [Nat.add_mul]; omega), List.getElem?_eq_getElem (by omega)]; rfl
  have wk1 : (List.range n).map (fun q => replacedAt cs m c ((k + 1) * n) (0 + (k + 1) * n + q) (k + 1 + q)) = ((cs.set m c).drop (k + 1)).take n := by
    refine map_range_eq (by rw [List.length_take, List.length_drop, hset]; omega) fun q hq => ?_
    rw [List.getElem?_take, if_pos hq, List.getElem?_drop, List.getElem?_set, replacedAt]
    by_cases e : k + 1 + q = m
    · rw [if_pos e.symm, if_pos (by omega), if_pos ⟨e, by omega⟩]
    · rw [if_neg (Ne.symm e), if_neg (fun h => e h.1), List.getElem?_eq_getElem (by omega)]; rfl
  constructor
  · intro e
    injection e with e
    have e2 := congrArg (fun l => l[k + 1]?) e
    simp only [List.getElem?_map, List.getElem?_range (show k + 1 < cs.length - n + 1 by omega), Option.map_some, Option.some.injEq] at e2
    rw [wk1] at e2
    exact average_replaced h hx hy hxy h1 (by omega) (by omega) e2
  · intro e
    injection e with e
    have e2 := congrArg (fun l => l[k]?) e
    simp only [List.getElem?_map, List.getElem?_range (show k < cs.length - n + 1 by omega), Option.map_some, Option.some.injEq] at e2
    rw [wk] at e2
    exact average_replaced h hx hy hxy (by omega) h2 (by omega) e2.symm

/-- Closes 11, 12, then ten; the candle with close 12 becomes 10 after it has been read once. -/
def fallingCandles : List Candle := closeAt 11 :: closeAt 12 :: List.replicate 12 (closeAt 10)

/-- **C237** is false: the candle is compared as a rise and then counted as a fall, and the value is -100. -/
theorem C237_rsi_violated : ¬ C237_claim .exact ∧ ¬ C237_claim ieee := by
  constructor
  · intro h
    have := h fallingCandles [closeAt 8] 14 1 (closeAt 10) 1 [.fin (-100)] (by decide +kernel) (.fin (-100)) (by simp)
    revert this; decide +kernel
  · intro h
    have := h fallingCandles [closeAt 8] 14 1 (closeAt 10) 1 [.fin (-100)] (by decide +kernel) (.fin (-100)) (by simp)
    revert this; decide +kernel

/-- **C237.** It holds while nobody writes to the candles and to the one behind the slice. -/
theorem C237_rsi_partial {S : FloatSem} (hS : Lawful S) {cs spare : List Candle} {mem : Nat → Nat → Candle}
    (h : Undisturbed ((cs ++ spare).take (cs.length + 1)) mem) (period : Int) (t : Nat) {out : List Fl}
    (e : (rsiP S (some (cs.length, (cs ++ spare).length)) period).exec mem t = .ok out) :
    ∀ v ∈ out, v = .nan ∨ (Fl.le (.fin 0) v = true ∧ Fl.le v (.fin 100) = true) := by
  rw [C198_rsi_partial h period t] at e
  exact C76_rsi_range hS _ _ _ e

theorem exec_bind_at {α R Q : Type} {mem : Nat → Nat → α} (f : R → Prog α Q) : ∀ (p : Prog α R) (t : Nat),
    (p.bind f).exec mem t = (f (p.exec mem t)).exec mem (ended mem p t)
  | .done _, _ => rfl
  | .read i k, t => exec_bind_at f (k (mem t i)) (t + 1)

theorem Fl.le_trans' {x y z : Fl} (h1 : Fl.le x y = true) (h2 : Fl.le y z = true) : Fl.le x z = true := by
  rw [Fl.le_iff] at *
  exact ⟨h1.1, h2.2.1, le_trans h1.2.2 h2.2.2⟩

/-- The high and the low of a group are at least and at most those of every candle as it was read. -/
theorem group_any (hm : ∀ t i, (mem t i).high ≠ .nan ∧ (mem t i).low ≠ .nan) : ∀ (n i t : Nat) (high low vol : Fl), high ≠ .nan → low ≠ .nan →
    Fl.le high ((groupP S high low vol i n).exec mem t).1 = true ∧ Fl.le ((groupP S high low vol i n).exec mem t).2.1 low = true ∧
    ∀ k, k < n → Fl.le (mem (t + k) (i + k)).high ((groupP S high low vol i n).exec mem t).1 = true ∧
      Fl.le ((groupP S high low vol i n).exec mem t).2.1 (mem (t + k) (i + k)).low = true
  | 0, _, _, _, _, _, hh, hl => ⟨Fl.le_iff.2 ⟨hh, hh, le_rfl⟩, Fl.le_iff.2 ⟨hl, hl, le_rfl⟩, fun _ h => absurd h (by omega)⟩
  | n + 1, i, t, high, low, vol, hh, hl => by
    obtain ⟨v1, v2⟩ := hm t i
    have eh : ∃ x, x = (if Fl.gt (mem t i).high high then (mem t i).high else high) ∧ Fl.le high x = true ∧ Fl.le (mem t i).high x = true ∧ x ≠ .nan := by
      refine ⟨_, rfl, ?_⟩
      split_ifs with hg
      · rw [Fl.lt_iff] at hg
        exact ⟨Fl.le_iff.2 ⟨hh, v1, hg.2.2.le⟩, Fl.le_iff.2 ⟨v1, v1, le_rfl⟩, v1⟩
      · rw [Fl.lt_iff] at hg
        exact ⟨Fl.le_iff.2 ⟨hh, hh, le_rfl⟩, Fl.le_iff.2 ⟨v1, hh, not_lt.1 fun h => hg ⟨hh, v1, h⟩⟩, hh⟩
    have el : ∃ x, x = (if Fl.lt (mem t i).low low then (mem t i).low else low) ∧ Fl.le x low = true ∧ Fl.le x (mem t i).low = true ∧ x ≠ .nan := by
      refine ⟨_, rfl, ?_⟩
      split_ifs with hg
      · rw [Fl.lt_iff] at hg
        exact ⟨Fl.le_iff.2 ⟨v2, hl, hg.2.2.le⟩, Fl.le_iff.2 ⟨v2, v2, le_rfl⟩, v2⟩
      · rw [Fl.lt_iff] at hg
        exact ⟨Fl.le_iff.2 ⟨hl, hl, le_rfl⟩, Fl.le_iff.2 ⟨hl, v2, not_lt.1 fun h => hg ⟨v2, hl, h⟩⟩, hl⟩
    obtain ⟨x, ex, x1, x2, x3⟩ := eh
    obtain ⟨y, ey, y1, y2, y3⟩ := el
    rw [groupP, Prog.exec, ← ex, ← ey]
    obtain ⟨k1, k2, k3⟩ := group_any hm n (i + 1) (t + 1) x y (S.add vol (mem t i).volume) x3 y3
    refine ⟨Fl.le_trans' x1 k1, Fl.le_trans' k2 y1, fun k hk => ?_⟩
    cases k with
    | zero => exact ⟨Fl.le_trans' x2 k1, Fl.le_trans' k2 y2⟩
    | succ k =>
      have := k3 k (by omega)
      rw [show t + 1 + k = t + (k + 1) by omega, show i + 1 + k = i + (k + 1) by omega] at this
      exact this

/-- What is read of a candle lies between the lows and the highs read later. -/
structure Later (mem : Nat → Nat → Candle) : Prop where
  nn : ∀ t i, (mem t i).high ≠ .nan ∧ (mem t i).low ≠ .nan
  bound : ∀ t t' i, t < t' → Fl.le (mem t' i).low (mem t i).opn = true ∧ Fl.le (mem t' i).low (mem t i).close = true ∧
    Fl.le (mem t i).opn (mem t' i).high = true ∧ Fl.le (mem t i).close (mem t' i).high = true

theorem later_live (hg : LiveMemory mem) : Later mem where
  nn t i := ⟨(Fl.le_iff.1 (hg.inOrder t i).2.2.1).2.1, (Fl.le_iff.1 (hg.inOrder t i).1).1⟩
  bound t t' i h := ⟨Fl.le_trans' (hg.low t t' i h.le) (hg.inOrder t i).1, Fl.le_trans' (hg.low t t' i h.le) (hg.inOrder t i).2.1,
    Fl.le_trans' (hg.inOrder t i).2.2.1 (hg.high t t' i h.le), Fl.le_trans' (hg.inOrder t i).2.2.2 (hg.high t t' i h.le)⟩

theorem clock_mono {real mem : Nat → Nat → Candle} {clock : Nat → Nat} (ht : Torn real mem clock) {a b : Nat} (h : a ≤ b) : clock a ≤ clock b :=
  monotone_nat_of_le_succ (fun n => (ht n).1) h

theorem later_torn {real : Nat → Nat → Candle} {clock : Nat → Nat} (hg : LiveMemory real) (ht : Torn real mem clock) : Later mem where
  nn t i := by
    obtain ⟨-, -, ⟨a, -, -, ea⟩, ⟨b, -, -, eb⟩, -⟩ := (ht t).2 i
    rw [ea, eb]
    exact ⟨((later_live hg).nn a i).1, ((later_live hg).nn b i).2⟩
  bound t t' i h := by
    obtain ⟨-, ⟨a, -, ha, ea⟩, -, -, ⟨b, -, hb, eb⟩, -⟩ := (ht t).2 i
    obtain ⟨-, -, ⟨c, hc, -, ec⟩, ⟨d, hd, -, ed⟩, -⟩ := (ht t').2 i
    have hm := clock_mono ht (show t + 1 ≤ t' from h)
    rw [ea, eb, ec, ed]
    exact ⟨Fl.le_trans' (hg.low a d i (by omega)) (hg.inOrder a i).1, Fl.le_trans' (hg.low b d i (by omega)) (hg.inOrder b i).2.1,
      Fl.le_trans' (hg.inOrder a i).2.2.1 (hg.high a c i (by omega)), Fl.le_trans' (hg.inOrder b i).2.2.2 (hg.high b c i (by omega))⟩

theorem compress_inOrder (hS : Lawful S) (hg : Later mem) {len start stop t : Nat} (hlt : start < stop) {c : Candle}
    (e : (compressP S len start stop).exec mem t = .ok c) : InOrder c := by
  unfold compressP at e
  split_ifs at e with h1 h2
  · simp only [Prog.exec] at e
    rw [exec_bind_done] at e
    obtain ⟨-, -, k⟩ := group_any (S := S) hg.nn (stop - start) start (t + 1 + 1 + 1) (minHigh S) (maxLow S) (.fin 0) (hS.r64.not_nan _) (hS.r64.not_nan _)
    split at e
    · injection e with e
      subst e
      obtain ⟨a1, a2⟩ := k 0 (by omega)
      obtain ⟨b1, b2⟩ := k (stop - start - 1) (by omega)
      rw [show start + (stop - start - 1) = stop - 1 by omega] at b1 b2
      refine ⟨?_, ?_, ?_, ?_⟩
      · exact Fl.le_trans' a2 (hg.bound (t + 1) _ start (by omega)).1
      · exact Fl.le_trans' b2 (hg.bound (t + 1 + 1) _ (stop - 1) (by omega)).2.1
      · exact Fl.le_trans' (hg.bound (t + 1) _ start (by omega)).2.2.1 a1
      · exact Fl.le_trans' (hg.bound (t + 1 + 1) _ (stop - 1) (by omega)).2.2.2 b1
    · cases e
  · cases e
  · cases e

theorem resample_inOrder (hS : Lawful S) (hg : Later mem) {len : Nat} {mi pivot : Int} : ∀ (n idx start t : Nat) (acc : List Candle), start < idx →
    (∀ c ∈ acc, InOrder c) → ∀ {out : List Candle} {last : Nat}, (resampleP S len mi pivot n idx start acc).exec mem t = .ok (out, last) →
    (∀ c ∈ out, InOrder c) ∧ last < idx + n
  | 0, idx, start, t, acc, hs, ha, out, last, e => by
    injection e with e; injection e with e1 e2; subst e1 e2
    exact ⟨ha, by omega⟩
  | n + 1, idx, start, t, acc, hs, ha, out, last, e => by
    rw [resampleP, Prog.exec] at e
    split at e
    · cases e
    · rw [exec_bind_at] at e
      cases ec : (compressP S len start idx).exec mem (t + 1) with
      | ok c =>
        rw [ec] at e
        have hc := compress_inOrder hS hg hs ec
        obtain ⟨k1, k2⟩ := resample_inOrder hS hg n (idx + 1) idx _ (acc ++ [c]) (by omega) (fun x hx => by
          rcases List.mem_append.1 hx with h | h
          · exact ha x h
          · rw [List.mem_singleton.1 h]; exact hc) e
        exact ⟨k1, by omega⟩
      | err a b => rw [ec] at e; cases e
      | panic => rw [ec] at e; cases e
    · obtain ⟨k1, k2⟩ := resample_inOrder hS hg n (idx + 1) start _ acc (by omega) ha e
      exact ⟨k1, by omega⟩

theorem first_lt {minute : Int → Int} {mi : Int} : ∀ (n i t f : Nat), (firstP minute mi i n).exec mem t = some f → f < i + n
  | 0, _, _, _, e => by cases e
  | n + 1, i, t, f, e => by
    rw [firstP, Prog.exec] at e
    split_ifs at e
    · injection e with e; omega
    · have := first_lt n (i + 1) (t + 1) f e; omega

theorem modify_inOrder (hS : Lawful S) (hg : Later mem) {minute : Int → Int} {len : Nat} {mi : Int} {t : Nat} {out : List Candle}
    (e : (modifyIntervalP S minute len mi).exec mem t = some (.ok out)) : ∀ c ∈ out, InOrder c := by
  unfold modifyIntervalP at e
  split_ifs at e with h1 h2
  · cases e
  · cases e
  · simp only [Prog.exec] at e
    split_ifs at e
    · cases e
    · cases e
    · cases e
    · rw [exec_bind_at] at e
      cases ef : (firstP minute mi 0 len).exec mem (t + 1 + 1) with
      | none => rw [ef] at e; cases e
      | some first =>
        have hf := first_lt _ _ _ _ ef
        rw [ef] at e
        simp only [Prog.exec] at e
        rw [exec_bind_at] at e
        cases er : (resampleP S len mi (mem (ended mem (firstP minute mi 0 len) (t + 1 + 1)) first).time (len - (first + 1)) (first + 1) first []).exec mem
            (ended mem (firstP minute mi 0 len) (t + 1 + 1) + 1) with
        | ok r =>
          obtain ⟨acc, start⟩ := r
          obtain ⟨k1, k2⟩ := resample_inOrder hS hg _ _ _ _ _ (by omega) (fun _ h => by cases h) er
          rw [er] at e
          simp only at e
          rw [exec_bind_done] at e
          injection e with e
          split at e
          · rename_i c ec
            injection e with e
            subst e
            intro x hx
            rcases List.mem_append.1 hx with h | h
            · exact k1 x h
            · rw [List.mem_singleton.1 h]; exact compress_inOrder hS hg (by omega) ec
          · cases e
          · cases e
        | err a b => rw [er] at e; cases e
        | panic => rw [er] at e; cases e

/-- **C238.** `ModifyInterval` while the candles grow: low, open, close and high of every candle of the result are in order. -/
theorem C238_modifyInterval (hS : Lawful S) (hg : LiveMemory mem) {minute : Int → Int} {len : Nat} {mi : Int} {t : Nat} {out : List Candle}
    (e : (modifyIntervalP S minute len mi).exec mem t = some (.ok out)) : ∀ c ∈ out, InOrder c := modify_inOrder hS (later_live hg) e

/-- **C240.** The same when the candles are read field by field. -/
theorem C240_modifyInterval (hS : Lawful S) {real : Nat → Nat → Candle} {clock : Nat → Nat} (hg : LiveMemory real) (hr : Torn real mem clock)
    {minute : Int → Int} {len : Nat} {mi : Int} {t : Nat} {out : List Candle}
    (e : (modifyIntervalP S minute len mi).exec mem t = some (.ok out)) : ∀ c ∈ out, InOrder c := modify_inOrder hS (later_torn hg hr) e

/-- From time `t0` on candle `i` is read with at least the high and at most the low of `b i`. -/
def Above (mem : Nat → Nat → Candle) (b : Nat → Candle) (t0 : Nat) : Prop :=
  ∀ t i, t0 ≤ t → Fl.le (b i).high (mem t i).high = true ∧ Fl.le (mem t i).low (b i).low = true

theorem compress_covers (hS : Lawful S) (hg : Later mem) {base : Nat → Candle} {t0 len start stop t : Nat} (hb : Above mem base t0) (ht : t0 ≤ t) {c : Candle}
    (e : (compressP S len start stop).exec mem t = .ok c) {i : Nat} (h1 : start ≤ i) (h2 : i < stop) : Covers base i c := by
  unfold compressP at e
  split_ifs at e
  · simp only [Prog.exec] at e
    rw [exec_bind_done] at e
    obtain ⟨-, -, k⟩ := group_any (S := S) hg.nn (stop - start) start (t + 1 + 1 + 1) (minHigh S) (maxLow S) (.fin 0) (hS.r64.not_nan _) (hS.r64.not_nan _)
    split at e
    · injection e with e
      subst e
      obtain ⟨a1, a2⟩ := k (i - start) (by omega)
      rw [show start + (i - start) = i by omega] at a1 a2
      exact ⟨Fl.le_trans' (hb _ i (by omega)).1 a1, Fl.le_trans' a2 (hb _ i (by omega)).2⟩
    · cases e
  · cases e
  · cases e

theorem resample_covers (hS : Lawful S) (hg : Later mem) {base : Nat → Candle} {t0 len lo : Nat} (hb : Above mem base t0) {mi pivot : Int} : ∀ (n idx start t : Nat) (acc : List Candle), t0 ≤ t →
    (∀ i, lo ≤ i → i < start → ∃ c ∈ acc, Covers base i c) → ∀ {out : List Candle} {last : Nat},
    (resampleP S len mi pivot n idx start acc).exec mem t = .ok (out, last) → ∀ i, lo ≤ i → i < last → ∃ c ∈ out, Covers base i c
  | 0, idx, start, t, acc, ht, ha, out, last, e => by
    injection e with e; injection e with e1 e2; subst e1 e2
    exact ha
  | n + 1, idx, start, t, acc, ht, ha, out, last, e => by
    rw [resampleP, Prog.exec] at e
    split at e
    · cases e
    · rw [exec_bind_at] at e
      cases ec : (compressP S len start idx).exec mem (t + 1) with
      | ok c =>
        rw [ec] at e
        refine resample_covers hS hg hb n (idx + 1) idx _ (acc ++ [c]) (le_trans (by omega) (le_ended mem _ (t + 1))) (fun i h1 h2 => ?_) e
        by_cases h : i < start
        · obtain ⟨d, hd, k⟩ := ha i h1 h
          exact ⟨d, List.mem_append_left _ hd, k⟩
        · exact ⟨c, by simp, compress_covers hS hg hb (by omega) ec (by omega) h2⟩
      | err a b => rw [ec] at e; cases e
      | panic => rw [ec] at e; cases e
    · exact resample_covers hS hg hb n (idx + 1) start _ acc (by omega) ha e

theorem first_le {minute : Int → Int} {mi : Int} {j : Nat} (hj : ∀ s, Aligned minute mi (mem s j)) : ∀ (n i t f : Nat), i ≤ j →
    (firstP minute mi i n).exec mem t = some f → f ≤ j
  | 0, _, _, _, _, e => by cases e
  | n + 1, i, t, f, h, e => by
    rw [firstP, Prog.exec] at e
    split_ifs at e with ha
    · injection e with e; omega
    · refine first_le hj n (i + 1) (t + 1) f ?_ e
      rcases Nat.lt_or_eq_of_le h with h | h
      · omega
      · subst h; exact absurd ((isAligned_iff _ _ _).2 (hj t)) ha

theorem modify_covers (hS : Lawful S) (hg : Later mem) {base : Nat → Candle} {minute : Int → Int} {len : Nat} {mi : Int} {t : Nat} (hb : Above mem base t) {out : List Candle}
    (e : (modifyIntervalP S minute len mi).exec mem t = some (.ok out)) {j i : Nat} (hj : ∀ s, Aligned minute mi (mem s j)) (hji : j ≤ i)
    (hi : i < len) : ∃ c ∈ out, Covers base i c := by
  unfold modifyIntervalP at e
  split_ifs at e with h1 h2
  · cases e
  · cases e
  · simp only [Prog.exec] at e
    split_ifs at e
    · cases e
    · cases e
    · cases e
    · rw [exec_bind_at] at e
      cases ef : (firstP minute mi 0 len).exec mem (t + 1 + 1) with
      | none => rw [ef] at e; cases e
      | some first =>
        have hf := first_le hj _ _ _ _ (Nat.zero_le _) ef
        have ht := le_ended mem (firstP minute mi 0 len) (t + 1 + 1)
        rw [ef] at e
        simp only [Prog.exec] at e
        rw [exec_bind_at] at e
        cases er : (resampleP S len mi (mem (ended mem (firstP minute mi 0 len) (t + 1 + 1)) first).time (len - (first + 1)) (first + 1) first []).exec mem
            (ended mem (firstP minute mi 0 len) (t + 1 + 1) + 1) with
        | ok r =>
          obtain ⟨acc, start⟩ := r
          have k1 := resample_covers (t0 := t) (lo := first) hS hg hb _ _ _ _ _ (by omega) (fun _ _ _ => by omega) er
          rw [er] at e
          simp only at e
          rw [exec_bind_done] at e
          injection e with e
          split at e
          · rename_i c ec
            injection e with e
            subst e
            by_cases h : i < start
            · obtain ⟨d, hd, k⟩ := k1 i (by omega) h
              exact ⟨d, List.mem_append_left _ hd, k⟩
            · exact ⟨c, by simp, compress_covers hS hg hb (le_trans (by omega) (le_ended mem _ _)) ec (by omega) hi⟩
          · cases e
          · cases e
        | err a b => rw [er] at e; cases e
        | panic => rw [er] at e; cases e

/-- **C238.** Nothing that was there when the call began is lost: from an aligned candle on, every candle's high and low at that moment
lie within a candle of the result. -/
theorem C238_covers (hS : Lawful S) (hg : LiveMemory mem) {minute : Int → Int} {len : Nat} {mi : Int} {t : Nat} {out : List Candle}
    (e : (modifyIntervalP S minute len mi).exec mem t = some (.ok out)) {j i : Nat} (hj : ∀ s, Aligned minute mi (mem s j)) (hji : j ≤ i)
    (hi : i < len) : ∃ c ∈ out, Covers (mem t) i c :=
  modify_covers hS (later_live hg) (fun _ _ h => ⟨hg.high _ _ _ h, hg.low _ _ _ h⟩) e hj hji hi

/-- **C240.** The same when the candles are read field by field: what the candles have reached when the call begins lies within the result. -/
theorem C240_covers (hS : Lawful S) {real : Nat → Nat → Candle} {clock : Nat → Nat} (hg : LiveMemory real) (hr : Torn real mem clock)
    {minute : Int → Int} {len : Nat} {mi : Int} {t : Nat} {out : List Candle}
    (e : (modifyIntervalP S minute len mi).exec mem t = some (.ok out)) {j i : Nat} (hj : ∀ s, Aligned minute mi (real s j)) (hji : j ≤ i)
    (hi : i < len) : ∃ c ∈ out, Covers (real (clock t)) i c := by
  refine modify_covers hS (later_torn hg hr) (fun t' k h => ?_) e (fun s => ?_) hji hi
  · obtain ⟨-, -, ⟨a, ha, -, ea⟩, ⟨b, hb, -, eb⟩, -⟩ := (hr t').2 k
    have := clock_mono hr h
    rw [ea, eb]
    exact ⟨hg.high _ _ _ (by omega), hg.low _ _ _ (by omega)⟩
  · obtain ⟨⟨a, -, -, ea⟩, -⟩ := (hr s).2 j
    have := hj a
    unfold Aligned at this ⊢
    rw [ea]; exact this

/-- A candle at price 1, one at price 2 that replaces it, and what is read when the low is read after the replacement. -/
def lowCandle : Candle := ⟨0, .fin 1, .fin 1, .fin 1, .fin 1, .fin 1⟩
def highCandle : Candle := ⟨0, .fin 2, .fin 2, .fin 2, .fin 2, .fin 1⟩
def tornMemory : Nat → Nat → Candle :=
  fun t i => if t = 0 ∧ i = 0 then ⟨0, .fin 1, .fin 1, .fin 2, .fin 1, .fin 1⟩ else highCandle

theorem torn_tornMemory : Torn (replacedAt [lowCandle] 0 highCandle 1) tornMemory (fun t => if t = 0 then 0 else 2) := by
  intro t
  cases t with
  | zero =>
    refine ⟨by simp, fun i => ?_⟩
    cases i with
    | zero => exact ⟨⟨0, by simp [replacedAt, tornMemory, lowCandle]⟩, ⟨0, by simp [replacedAt, tornMemory, lowCandle]⟩,
        ⟨0, by simp [replacedAt, tornMemory, lowCandle]⟩, ⟨1, by simp [replacedAt, tornMemory, highCandle]⟩,
        ⟨0, by simp [replacedAt, tornMemory, lowCandle]⟩, ⟨0, by simp [replacedAt, tornMemory, lowCandle]⟩⟩
    | succ i => exact ⟨⟨0, by simp [replacedAt, tornMemory]⟩, ⟨0, by simp [replacedAt, tornMemory]⟩, ⟨0, by simp [replacedAt, tornMemory]⟩,
        ⟨0, by simp [replacedAt, tornMemory]⟩, ⟨0, by simp [replacedAt, tornMemory]⟩, ⟨0, by simp [replacedAt, tornMemory]⟩⟩
  | succ t =>
    refine ⟨by simp, fun i => ?_⟩
    cases i <;> exact ⟨⟨2, by simp [replacedAt, tornMemory]⟩, ⟨2, by simp [replacedAt, tornMemory]⟩, ⟨2, by simp [replacedAt, tornMemory]⟩,
      ⟨2, by simp [replacedAt, tornMemory]⟩, ⟨2, by simp [replacedAt, tornMemory]⟩, ⟨2, by simp [replacedAt, tornMemory]⟩⟩

/-- **C241.** False: high and low of one candle can be of two moments. -/
theorem C241_volatility_violated : ¬ C241_claim ieee := by
  intro h
  have := h [lowCandle] 0 highCandle 1 (.fin 0) tornMemory (fun t => if t = 0 then 0 else 2) 0 (by decide) torn_tornMemory
  revert this; decide +kernel

/-- **C241.** The volatility can then be negative, although both candles are in order. -/
theorem C241_negative : ∃ (cs : List Candle) (m : Nat) (c : Candle) (T : Nat) (beta : Fl) (mem : Nat → Nat → Candle) (clock : Nat → Nat),
    m < cs.length ∧ Torn (replacedAt cs m c T) mem clock ∧ (∀ d ∈ c :: cs, InOrder d) ∧ Fl.le (.fin 0) beta = true ∧
    Fl.lt ((volatilityP ieee cs.length beta).exec mem 0) (.fin 0) = true :=
  ⟨[lowCandle], 0, highCandle, 1, .fin 0, tornMemory, _, by decide, torn_tornMemory, by
    intro d hd
    simp only [List.mem_cons, List.not_mem_nil, or_false] at hd
    rcases hd with rfl | rfl <;> (unfold InOrder; decide +kernel), by decide +kernel, by decide +kernel⟩

theorem torn_field {A : Type} {cs : List Candle} {m : Nat} {c : Candle} {T : Nat} {g : Candle → A} {x : A} {lo hi k : Nat}
    (h : ∃ s, lo ≤ s ∧ s ≤ hi ∧ x = g (replacedAt cs m c T s k)) (hk : k < cs.length) : x = g cs[k] ∨ k = m ∧ x = g c := by
  obtain ⟨s, -, -, e⟩ := h
  rw [replacedAt] at e
  split_ifs at e with h
  · exact .inr ⟨h.1, e⟩
  · rw [List.getElem?_eq_getElem hk] at e; exact .inl e

/-- **C241.** What holds: it is the volatility with a candle in that place whose high is the old or the new one, and whose low is the old or the new
one. -/
theorem C241_volatility_partial {cs : List Candle} {m : Nat} (hm : m < cs.length) {c : Candle} {T : Nat} {clock : Nat → Nat}
    (hr : Torn (replacedAt cs m c T) mem clock) (beta : Fl) (t : Nat) :
    ∃ d, (d.high = cs[m].high ∨ d.high = c.high) ∧ (d.low = cs[m].low ∨ d.low = c.low) ∧
      (volatilityP S cs.length beta).exec mem t = exponentialWeightedVolatility S (cs.set m d) beta := by
  refine ⟨mem (t + m) m, ?_, ?_, ?_⟩
  · obtain ⟨-, -, h, -⟩ := (hr (t + m)).2 m
    exact (torn_field (g := Candle.high) h hm).imp id And.right
  · obtain ⟨-, -, -, h, -⟩ := (hr (t + m)).2 m
    exact (torn_field (g := Candle.low) h hm).imp id And.right
  · rw [C235_volatility]
    congr 1
    refine List.ext_getElem (by simp) fun k h1 h2 => ?_
    rw [List.getElem_map, List.getElem_range, List.getElem_set]
    have hk : k < cs.length := by simpa using h1
    split_ifs with e
    · rw [e]
    · obtain ⟨a1, a2, a3, a4, a5, a6⟩ := (hr (t + k)).2 k
      have ne : k ≠ m := fun h => e h.symm
      have b1 := (torn_field (g := Candle.time) a1 hk).resolve_right fun h => ne h.1
      have b2 := (torn_field (g := Candle.opn) a2 hk).resolve_right fun h => ne h.1
      have b3 := (torn_field (g := Candle.high) a3 hk).resolve_right fun h => ne h.1
      have b4 := (torn_field (g := Candle.low) a4 hk).resolve_right fun h => ne h.1
      have b5 := (torn_field (g := Candle.close) a5 hk).resolve_right fun h => ne h.1
      have b6 := (torn_field (g := Candle.volume) a6 hk).resolve_right fun h => ne h.1
      cases hx : mem (t + k) k
      cases hy : cs[k]
      rw [hx, hy] at b1 b2 b3 b4 b5 b6
      simp only at b1 b2 b3 b4 b5 b6
      subst b1 b2 b3 b4 b5 b6
      rfl

/-- C240 and C241: a reader of whole candles is a reader field by field. -/
example (real : Nat → Nat → Candle) : Torn real real id := fun t =>
  ⟨Nat.le_succ t, fun _ => ⟨⟨t, le_rfl, Nat.le_succ t, rfl⟩, ⟨t, le_rfl, Nat.le_succ t, rfl⟩, ⟨t, le_rfl, Nat.le_succ t, rfl⟩, ⟨t, le_rfl, Nat.le_succ t, rfl⟩,
    ⟨t, le_rfl, Nat.le_succ t, rfl⟩, ⟨t, le_rfl, Nat.le_succ t, rfl⟩⟩⟩

/-- C240: one who reads the close of a candle after its high. -/
example (real : Nat → Nat → Candle) : Torn real (fun t i => { real (2 * t) i with close := (real (2 * t + 1) i).close }) (fun t => 2 * t) := fun t => by
  refine ⟨by simp only; omega, fun i => ⟨⟨2 * t, ?_⟩, ⟨2 * t, ?_⟩, ⟨2 * t, ?_⟩, ⟨2 * t, ?_⟩, ⟨2 * t + 1, ?_⟩, ⟨2 * t, ?_⟩⟩⟩ <;>
    exact ⟨by simp only; omega, by simp only; omega, rfl⟩

/-- C238: the first candle is aligned whatever happens to the others. -/
example : ∀ s, Aligned utcMinute 5 ((fun t i => ⟨60 * i, .fin 5, .fin (6 + t), .fin 4, .fin (5 + t), .fin t⟩ : Nat → Nat → Candle) s 0) := by
  exact fun _ => Or.inl (show utcMinute 0 = 0 by decide +kernel)

/-- C238: a candle whose close goes up and down while it grows. -/
example : LiveMemory (fun t i => if i < 2 then ⟨60 * i, .fin 5, .fin 6, .fin 4, .fin 5, .fin 1⟩
    else ⟨60 * i, .fin 5, .fin (6 + t), .fin 4, .fin (if t % 2 = 0 then 5 + t else 4), .fin t⟩) := by
  have e : ∀ q r : ℚ, Fl.le (.fin q) (.fin r) = true ↔ q ≤ r := fun q r => by rw [(Fl.is_fin q).le (Fl.is_fin r)]; simp
  refine ⟨fun t i => ?_, fun t t' i h => ?_, fun t t' i h => ?_⟩
  · have ht : (0 : ℚ) ≤ t := by positivity
    by_cases hi : i < 2
    · simp only [hi, if_true, InOrder, e]; norm_num
    · simp only [hi, if_false, InOrder, e]
      split_ifs <;> refine ⟨?_, ?_, ?_, ?_⟩ <;> linarith
  · have ht : (t : ℚ) ≤ t' := by exact_mod_cast h
    by_cases hi : i < 2
    · simp only [hi, if_true, e]; norm_num
    · simp only [hi, if_false, e]; linarith
  · by_cases hi : i < 2
    · simp only [hi, if_true, e]; norm_num
    · simp only [hi, if_false, e]; norm_num

/-- C238: the close is read before the high. -/
example : (modifyIntervalP ieee utcMinute 3 1).exec (fun t i => ⟨60 * i, .fin 5, .fin (6 + t), .fin 4, .fin (5 + t), .fin t⟩) 0 =
    some (.ok [⟨0, .fin 5, .fin 14, .fin 4, .fin 12, .fin 8⟩, ⟨60, .fin 5, .fin 19, .fin 4, .fin 17, .fin 13⟩,
      ⟨120, .fin 5, .fin 23, .fin 4, .fin 21, .fin 17⟩]) := by
  decide +kernel

/-- C238: a candle always in order whose high falls when it is replaced: the result has a close above its high. -/
example : (modifyIntervalP ieee utcMinute 2 1).exec (fun t i => if t < 12 then ⟨60 * i, .fin 5, .fin 9, .fin 4, .fin 8, .fin 1⟩
      else ⟨60 * i, .fin 5, .fin 6, .fin 4, .fin 5, .fin 1⟩) 0 =
    some (.ok [⟨0, .fin 5, .fin 9, .fin 4, .fin 8, .fin 1⟩, ⟨60, .fin 5, .fin 6, .fin 4, .fin 8, .fin 1⟩]) := by
  decide +kernel

/-- C234: four candles, the last of which changes all the time. -/
example : ∃ t', (movingAverageP .exact (some 4) 2).exec busy 0 =
    movingAverage .exact (some [closeAt 1, closeAt 2, closeAt 3, busy t' 3]) 2 := by
  obtain ⟨t', -, -, h⟩ := C234_movingAverage (S := .exact) busy_undisturbed 2 0
  exact ⟨t', h⟩

example : ∃ t', (smoothedMovingAverageP .exact (some 4) 2).exec busy 7 =
    smoothedMovingAverage .exact (some [closeAt 1, closeAt 2, closeAt 3, busy t' 3]) 2 := by
  obtain ⟨t', -, -, h⟩ := C234_smoothed (S := .exact) busy_undisturbed 2 7
  exact ⟨t', h⟩

example : (movingAverageP .exact (some 4) 2).exec busy 0 = .ok [.fin (3 / 2), .fin (5 / 2), .fin 4] := by decide +kernel

/-- C235: the last candle is that of the fourth read. -/
example : (volatilityP .exact 4 (.fin 0)).exec (fun t _ => ⟨0, .fin 1, .fin (t + 2), .fin 1, .fin 1, .fin 1⟩) 0 = .fin 4 := by
  rw [C235_volatility]; decide +kernel

/-- C236: the middle of three candles becomes 4 between the two windows. -/
example : ∃ T, (movingAverageP .exact (some 3) 2).exec (replacedAt [closeAt 1, closeAt 2, closeAt 3] 1 (closeAt 4) T) 0 ≠
      movingAverage .exact (some [closeAt 1, closeAt 2, closeAt 3]) 2 ∧
    (movingAverageP .exact (some 3) 2).exec (replacedAt [closeAt 1, closeAt 2, closeAt 3] 1 (closeAt 4) T) 0 ≠
      movingAverage .exact (some [closeAt 1, closeAt 4, closeAt 3]) 2 :=
  C236_mixed (cs := [closeAt 1, closeAt 2, closeAt 3]) (xs := [1, 2, 3]) (m := 1) (x := 2) (y := 4) (k := 0) (n := 2)
    (.cons (Fl.is_fin _) (.cons (Fl.is_fin _) (.cons (Fl.is_fin _) .nil))) rfl (Fl.is_fin _) (by norm_num) le_rfl (by omega) le_rfl

/-- C237: a change behind the candle behind the slice does no harm. -/
example : Undisturbed ((fallingCandles ++ [closeAt 8]).take (fallingCandles.length + 1)) (replacedAt (fallingCandles ++ [closeAt 8]) 15 (closeAt 1) 3) := by
  intro t i a ha
  have hi : i < 15 := by
    have := (List.getElem?_eq_some_iff.1 ha).1
    simpa [fallingCandles] using this
  rw [List.getElem?_take, if_pos (by simpa [fallingCandles] using hi)] at ha
  rw [replacedAt, if_neg (by omega), ha]; rfl

end Finmod
