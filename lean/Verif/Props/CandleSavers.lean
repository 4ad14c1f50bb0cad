import Verif.Model.CandleSavers
import Verif.Props.CandleFile

/-!
# C203: several processes save to the same file
-/

namespace Finmod
open Go Spec

namespace Spec

/-- Some interleaving of the processes leads from `s` to `t`. -/
def Interleaved {ι : Type} [DecidableEq ι] (s t : Savers ι) : Prop := Relation.ReflTransGen SaveStep s t

/-- All processes are done. -/
def AllSaved {ι : Type} (s : Savers ι) : Prop := ∀ i, s.offset i ≠ none ∧ s.todo i = []

end Spec

/-- Positions before, within and behind the bytes written. -/
theorem writeAt_getElem? (f : List Char) (n : Nat) (b : List Char) (j : Nat) :
    (writeAt f n b)[j]? =
      if j < n then (if j < f.length then f[j]? else some '\x00')
      else if j < n + b.length then b[j - n]? else f[j]? := by
  have hl : (f ++ List.replicate (n - f.length) '\x00').length = max f.length n := by simp; omega
  have ht : ((f ++ List.replicate (n - f.length) '\x00').take n).length = n := by rw [List.length_take, hl]; omega
  unfold writeAt
  simp only
  rw [List.append_assoc, List.getElem?_append, ht]
  split
  · rename_i h
    rw [List.getElem?_take_of_lt h, List.getElem?_append]
    split
    · rfl
    · rw [List.getElem?_replicate, if_pos (by omega)]
  · rename_i h
    rw [List.getElem?_append]
    split
    · rename_i h'
      rw [if_pos (by omega)]
    · rename_i h'
      rw [if_neg (by omega), List.getElem?_drop, show n + b.length + (j - n - b.length) = j by omega, List.getElem?_append]
      split
      · rfl
      · rename_i hf
        rw [List.getElem?_replicate, if_neg (by omega), List.getElem?_eq_none (by omega)]

theorem writeAt_length (f : List Char) (n : Nat) (b : List Char) :
    (writeAt f n b).length = max f.length (n + b.length) := by
  unfold writeAt
  simp only [List.length_append, List.length_take, List.length_drop, List.length_replicate]
  omega

section
variable {ι : Type} [DecidableEq ι] {f₀ : List Char} {lines : ι → List (List Char)}

/-- What process `i` has yet to write is its text from its offset on. -/
theorem saved_rest {s : Savers ι} (h : Interleaved (savers f₀ lines) s) (i : ι) :
    (s.todo i).flatten = (lines i).flatten.drop ((s.offset i).getD 0) := by
  induction h with
  | refl => simp [savers]
  | tail _ st ih =>
    cases st with
    | create i' ho =>
      simp only
      by_cases hi : i = i'
      · subst hi; rw [ho] at ih; simpa using ih
      · rw [Function.update_of_ne hi]; exact ih
    | write i' n l ls ho ht =>
      simp only
      by_cases hi : i = i'
      · subst hi
        rw [ho, ht] at ih
        simp only [Option.getD_some, List.flatten_cons] at ih
        simp only [Function.update_self, Option.getD_some]
        rw [← List.drop_drop, ← ih, List.drop_left]
      · rw [Function.update_of_ne hi, Function.update_of_ne hi]; exact ih

/-- The bytes written next are those of the text at the offset. -/
theorem saved_next {s : Savers ι} (h : Interleaved (savers f₀ lines) s) {i : ι} {n : Nat} {l : List Char}
    {ls : List (List Char)} (ho : s.offset i = some n) (ht : s.todo i = l :: ls) :
    (∀ j < l.length, l[j]? = (lines i).flatten[n + j]?) ∧ (l ≠ [] → n + l.length ≤ (lines i).flatten.length) := by
  have e := saved_rest h i
  rw [ho, ht] at e
  simp only [Option.getD_some, List.flatten_cons] at e
  constructor
  · intro j hj
    rw [← List.getElem?_drop, ← e, List.getElem?_append_left hj]
  · intro hl
    have := congrArg List.length e
    rw [List.length_append, List.length_drop] at this
    have := List.length_pos_iff.2 hl
    omega

/-- **C203.** Whatever processes save to the file, and however they are interleaved: at every moment, each byte of the
file is the one some process writes at that position, or zero; before the first `os.Create` the file is as it was. -/
theorem C203_bytes {s : Savers ι} (h : Interleaved (savers f₀ lines) s) :
    ((∀ i, s.offset i = none) ∧ s.file = f₀) ∨
    ∀ (j : Nat) (c : Char), s.file[j]? = some c → c = '\x00' ∨ ∃ i, s.offset i ≠ none ∧ (lines i).flatten[j]? = some c := by
  induction h with
  | refl => left; exact ⟨fun _ => rfl, rfl⟩
  | @tail u _ hs st ih =>
    cases st with
    | create i ho => right; intro j c hc; simp at hc
    | write i n l ls ho ht =>
      right
      rcases ih with ⟨ih, -⟩ | ih
      · rw [ih i] at ho; cases ho
      · intro j c hc
        obtain ⟨hb, -⟩ := saved_next hs ho ht
        have keep : ∀ {k}, (∃ i', u.offset i' ≠ none ∧ (lines i').flatten[j]? = some c) → k = some (n + l.length) →
            ∃ i', Function.update u.offset i k i' ≠ none ∧ (lines i').flatten[j]? = some c := by
          rintro k ⟨i', h1, h2⟩ rfl
          refine ⟨i', ?_, h2⟩
          by_cases hi : i' = i
          · subst hi; simp
          · rw [Function.update_of_ne hi]; exact h1
        simp only [writeAt_getElem?] at hc
        simp only
        split at hc
        · split at hc
          · rcases ih j c hc with h | h
            · exact .inl h
            · exact .inr (keep h rfl)
          · left; exact (Option.some.inj hc).symm
        · split at hc
          · right
            refine ⟨i, by simp, ?_⟩
            rw [hb (j - n) (by omega)] at hc
            rw [← hc]; congr 1; omega
          · rcases ih j c hc with h | h
            · exact .inl h
            · exact .inr (keep h rfl)

/-- Processes that all write the text `t`: the last one to have created the file has filled it up to its offset. -/
theorem saved_same {t : List Char} (ht : ∀ i, (lines i).flatten = t) (hl : ∀ i, ∀ l ∈ lines i, l ≠ [])
    {s : Savers ι} (h : Interleaved (savers f₀ lines) s) :
    (∀ i, s.offset i = none) ∨ (s.file.length ≤ t.length ∧
      ∃ i n, s.offset i = some n ∧ n ≤ s.file.length ∧ ∀ j < n, s.file[j]? = t[j]?) := by
  have sub : ∀ {s : Savers ι}, Interleaved (savers f₀ lines) s → ∀ i, ∀ l ∈ s.todo i, l ∈ lines i := by
    intro s h
    induction h with
    | refl => exact fun _ _ h => h
    | tail _ st ih =>
      cases st with
      | create i' ho => exact ih
      | write i' n l ls ho ht =>
        intro i x hx
        simp only at hx
        by_cases hi : i = i'
        · subst hi
          rw [Function.update_self] at hx
          exact ih i x (by rw [ht]; exact List.mem_cons_of_mem _ hx)
        · rw [Function.update_of_ne hi] at hx; exact ih i x hx
  induction h with
  | refl => left; exact fun _ => rfl
  | @tail u _ hs st ih =>
    right
    cases st with
    | create i ho => exact ⟨by simp, i, 0, by simp, by simp, by simp⟩
    | write i n l ls ho hto =>
      rcases ih with ih | ⟨ihl, b, m, hb, hm, heq⟩
      · rw [ih i] at ho; cases ho
      · obtain ⟨h1, h2⟩ := saved_next hs ho hto
        have h2 := h2 (hl i l (sub hs i l (by rw [hto]; simp)))
        rw [ht i] at h1 h2
        have agree : ∀ j < m, (writeAt u.file n l)[j]? = t[j]? := by
          intro j hj
          rw [writeAt_getElem?]
          split
          · rw [if_pos (by omega), heq j hj]
          · split
            · rw [h1 _ (by omega)]; congr 1; omega
            · exact heq j hj
        refine ⟨by simp only [writeAt_length]; omega, ?_⟩
        by_cases hbi : b = i
        · subst hbi
          rw [hb] at ho
          cases ho
          refine ⟨b, n + l.length, by simp, by simp only [writeAt_length]; omega, fun j hj => ?_⟩
          simp only
          by_cases hjm : j < n
          · exact agree j hjm
          · rw [writeAt_getElem?, if_neg hjm, if_pos hj, h1 _ (by omega)]
            congr 1; omega
        · exact ⟨b, m, by simp only; rw [Function.update_of_ne hbi, hb], by simp only [writeAt_length]; omega, agree⟩

end

variable {S : FloatSem} {pick : ℚ → Nat × ℤ} {eprec : ℤ}

theorem candleLines_flatten (cs : List Candle) : (candleLines pick eprec cs).flatten = candleText pick eprec cs := by
  simp only [candleLines, candleText, List.flatMap]

/-- **C203.** Any number of processes, at least one, that save the same candles to the same file: when all are done the
file is the one a single save writes, however they were interleaved. -/
theorem C203_same_candles {ι : Type} [DecidableEq ι] [Nonempty ι] (old : List Char) (cs : List Candle) {s : Savers ι}
    (h : Interleaved (savers old fun _ => candleLines pick eprec cs) s) (hd : AllSaved s) :
    s.file = candleText pick eprec cs := by
  rcases saved_same (fun _ => candleLines_flatten cs) (fun _ l hl => by
      simp only [candleLines, List.mem_map] at hl
      obtain ⟨c, -, rfl⟩ := hl
      simp) h with h0 | ⟨hl, i, n, ho, hn, heq⟩
  · obtain ⟨i⟩ := ‹Nonempty ι›
    exact absurd (h0 i) (hd i).1
  · have e := saved_rest h i
    rw [(hd i).2, ho, candleLines_flatten] at e
    simp only [List.flatten_nil, Option.getD_some] at e
    have e := (List.drop_eq_nil_iff.1 e.symm)
    apply List.ext_getElem?
    intro j
    by_cases hj : j < n
    · exact heq j hj
    · rw [List.getElem?_eq_none (by omega), List.getElem?_eq_none (by omega)]

/-- **C203.** And a later load returns these candles. -/
theorem C203_same_candles_load (hS : Lawful S) (hp : GoodPick S pick) (he : eprec ≤ 21) {ι : Type} [DecidableEq ι]
    [Nonempty ι] (old : List Char) (cs : List Candle) (hc : ∀ c ∈ cs, GoCandle S c) (ht : ∀ c ∈ cs, Time32 c)
    {s : Savers ι} (h : Interleaved (savers old fun _ => candleLines pick eprec cs) s) (hd : AllSaved s) :
    loadCandles S (some s.file) = .ok cs := by
  rw [C203_same_candles old cs h hd]
  exact (C37_times_partial hS hp he cs hc).1.2 ht

/-- **C203.** If process `i` creates the file when all the others are done, the file is in the end the one it writes,
whatever the others saved and whatever was there before. -/
theorem C203_last_alone {ι : Type} [DecidableEq ι] (old : List Char) (cs : ι → List Candle) (i : ι) {s t : Savers ι}
    (h : Interleaved (savers old fun k => candleLines pick eprec (cs k)) s) (hi : s.offset i = none)
    (ho : ∀ k ≠ i, s.offset k ≠ none ∧ s.todo k = []) (h' : Interleaved s t) (hd : AllSaved t) :
    t.file = candleText pick eprec (cs i) := by
  have key : (∀ k ≠ i, t.offset k ≠ none ∧ t.todo k = []) ∧ (t.offset i = none ∨ ∃ n, t.offset i = some n ∧
      t.file = (candleText pick eprec (cs i)).take n ∧ n ≤ (candleText pick eprec (cs i)).length) := by
    clear hd
    induction h' with
    | refl => exact ⟨ho, .inl hi⟩
    | @tail u _ hs st ih =>
      obtain ⟨ih1, ih2⟩ := ih
      cases st with
      | create k hk =>
        have e : k = i := by by_contra hne; exact (ih1 k hne).1 hk
        subst e
        refine ⟨fun j hj => ?_, .inr ⟨0, by simp, by simp, by simp⟩⟩
        simp only
        rw [Function.update_of_ne hj]; exact ih1 j hj
      | write k n l ls hk ht =>
        have e : k = i := by by_contra hne; have := (ih1 k hne).2; rw [ht] at this; cases this
        subst e
        refine ⟨fun j hj => ?_, .inr ⟨n + l.length, by simp, ?_, ?_⟩⟩
        · simp only
          rw [Function.update_of_ne hj, Function.update_of_ne hj]; exact ih1 j hj
        all_goals
          rcases ih2 with h0 | ⟨m, e, ef, hm⟩
          · rw [hk] at h0; cases h0
          rw [hk] at e
          cases e
          have er := saved_rest (h.trans hs) k
          rw [ht, hk, candleLines_flatten] at er
          simp only [List.flatten_cons, Option.getD_some] at er
          have hlen := congrArg List.length er
          rw [List.length_append, List.length_drop] at hlen
        · simp only
          have hf : u.file.length = n := by rw [ef, List.length_take]; omega
          unfold writeAt
          simp only [hf, Nat.sub_self, List.replicate_zero, List.append_nil]
          rw [List.drop_eq_nil_of_le (by omega), List.append_nil, List.take_of_length_le (by omega), ef, List.take_add, ← er,
            List.take_left]
        · omega
  rcases key.2 with h0 | ⟨n, e, ef, hn⟩
  · exact absurd h0 (hd i).1
  · have er := saved_rest (h.trans h') i
    rw [(hd i).2, e, candleLines_flatten] at er
    simp only [List.flatten_nil, Option.getD_some] at er
    rw [ef, List.take_of_length_le (List.drop_eq_nil_iff.1 er.symm)]

/-- Two processes that save different candles. -/
def twoLines : Bool → List (List Char)
  | true => ["{1 1 1 1 1 12}\n".toList, "{2 1 1 1 1 12}\n".toList]
  | false => ["{3 1 1 1 1 5}\n".toList]

/-- The first process creates the file and writes a line, the second saves, the first writes its second line: there is a
zero byte in the file, and loading it is an error. -/
example : ∃ s, Interleaved (savers [] twoLines) s ∧ AllSaved s ∧
    s.file = "{3 1 1 1 1 5}\n\x00{2 1 1 1 1 12}\n".toList ∧ loadCandles ieee (some s.file) = .err .external [] := by
  refine ⟨_, ((((Relation.ReflTransGen.refl.tail (.create _ true rfl)).tail (.write _ true 0 _ _ rfl rfl)).tail
    (.create _ false rfl)).tail (.write _ false 0 _ _ rfl rfl)).tail (.write _ true 15 _ _ (by decide) rfl), ?_, ?_, ?_⟩
  · intro i; cases i <;> decide
  · decide +kernel
  · decide +kernel

/-- The second process creates the file between the two lines of the first: the first line survives nowhere, and the
load returns a candle of each. -/
example : ∃ s, Interleaved (savers [] fun b : Bool => if b then twoLines true else ["{3 1 1 1 1 55}\n".toList]) s ∧ AllSaved s ∧
    loadCandles ieee (some s.file) = .ok [⟨3, .fin 1, .fin 1, .fin 1, .fin 1, .fin 55⟩, ⟨2, .fin 1, .fin 1, .fin 1, .fin 1, .fin 12⟩] := by
  refine ⟨_, ((((Relation.ReflTransGen.refl.tail (.create _ true rfl)).tail (.write _ true 0 _ _ rfl rfl)).tail
    (.create _ false rfl)).tail (.write _ false 0 _ _ rfl rfl)).tail (.write _ true 15 _ _ (by decide) rfl), ?_, ?_⟩
  · intro i; cases i <;> decide
  · decide +kernel

end Finmod
