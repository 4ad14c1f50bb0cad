import Verif.Props.CandleFile

/-!
# Candle files put one after the other: C250
-/

namespace Finmod
open Go Spec

variable {S : FloatSem} {pick : ℚ → Nat × ℤ} {eprec : ℤ}

/-- Full statement of C250: two files that load, one after the other, load as the candles of both. -/
def Spec.C250_claim (S : FloatSem) : Prop :=
  ∀ (a b : List Char) (cs ds : List Candle), loadCandles S (some a) = .ok cs → loadCandles S (some b) = .ok ds →
    loadCandles S (some (a ++ b)) = .ok (cs ++ ds)

/-- Candles in front of what a load gives. -/
def Spec.before (cs : List Candle) : Res (List Candle) → Res (List Candle)
  | .ok ds => .ok (cs ++ ds)
  | r => r

/-- The file is empty or its last line is ended. -/
def Spec.Ended (a : List Char) : Prop := a = [] ∨ a.getLast? = some '\n'

theorem rawLines_ended {a : List Char} (h : Ended a) (b : List Char) :
    rawLines [] (a ++ b) = rawLines [] a ++ rawLines [] b := by
  have gen : ∀ (a : List Char) (acc : List Char), a.getLast? = some '\n' →
      rawLines acc (a ++ b) = rawLines acc a ++ rawLines [] b := by
    intro a
    induction a with
    | nil => intro acc h; cases h
    | cons c r ih =>
      intro acc h
      by_cases hr : r = []
      · subst hr
        simp only [List.getLast?_singleton, Option.some.injEq] at h
        subst h
        simp [rawLines]
      · have h' : r.getLast? = some '\n' := by
          rw [List.getLast?_cons_of_ne_nil hr] at h
          exact h
        rw [List.cons_append]
        simp only [rawLines.eq_2]
        split
        · rw [ih _ h']; rfl
        · exact ih _ h'
  rcases h with rfl | h
  · rfl
  · exact gen a [] h

theorem loadLoop_before (ls : List (List Char)) (acc : List Candle) :
    loadLoop S acc ls = before acc (loadLoop S [] ls) := by
  induction ls generalizing acc with
  | nil => simp [loadLoop, before]
  | cons l ls ih =>
    unfold loadLoop
    split
    · simp [before]
    · split
      · rename_i c _
        rw [ih, ih ([] ++ [c])]
        cases loadLoop S [] ls <;> simp [before]
      · rfl
      · rfl

theorem loadLoop_join {ls : List (List Char)} (hlen : ∀ l ∈ ls, l.length ≤ 65535) (ms : List (List Char))
    (acc : List Candle) :
    loadLoop S acc (ls ++ ms) = match loadLoop S acc ls with
      | .ok cs => loadLoop S cs ms
      | r => r := by
  induction ls generalizing acc with
  | nil => rfl
  | cons l ls ih =>
    have h1 : ¬ 65535 < l.length := by have := hlen l (by simp); omega
    rw [List.cons_append, loadLoop.eq_2, loadLoop.eq_2, if_neg h1, if_neg h1]
    cases parseLine S (dropCR l)
    · exact ih (fun l hl => hlen l (by simp [hl])) _
    · rfl
    · rfl

theorem loadLoop_long {ls : List (List Char)} (hlong : ∃ l ∈ ls, 65535 < l.length) (ms : List (List Char))
    (acc : List Candle) : loadLoop S acc (ls ++ ms) = loadLoop S acc ls := by
  induction ls generalizing acc with
  | nil => simp at hlong
  | cons l ls ih =>
    rw [List.cons_append]
    unfold loadLoop
    split
    · rfl
    · rename_i h1
      split
      · refine ih ?_ _
        obtain ⟨k, hk, hl⟩ := hlong
        rcases List.mem_cons.1 hk with rfl | hk
        · exact absurd hl h1
        · exact ⟨k, hk, hl⟩
      · rfl
      · rfl

/-- **C250**, what holds: behind a file with its last line ended and no line above 65535 bytes, another file loads as its
own candles behind those of the first, or fails the way it fails alone. -/
theorem C250_join_partial {a : List Char} (h : Ended a) (hlen : ∀ l ∈ lines a, l.length ≤ 65535) {cs : List Candle}
    (ha : loadCandles S (some a) = .ok cs) (b : List Char) :
    loadCandles S (some (a ++ b)) = before cs (loadCandles S (some b)) := by
  simp only [loadCandles] at ha ⊢
  rw [rawLines_ended h, loadLoop_join (by rw [rawLines_lines]; exact hlen), ha]
  exact loadLoop_before _ _

/-- **C250**: if the first file fails, the two together fail the same way. -/
theorem C250_first_fails {a : List Char} (h : Ended a) (ha : ∀ cs, loadCandles S (some a) ≠ .ok cs) (b : List Char) :
    loadCandles S (some (a ++ b)) = loadCandles S (some a) := by
  simp only [loadCandles] at ha ⊢
  rw [rawLines_ended h]
  by_cases hlong : ∃ l ∈ rawLines [] a, 65535 < l.length
  · exact loadLoop_long hlong _ _
  · push Not at hlong
    rw [loadLoop_join hlong]
    split
    · rename_i cs hcs; exact absurd hcs (ha cs)
    · rfl

/-- **C250**: behind a line above 65535 bytes nothing of the second file is seen, and nothing tells. -/
theorem C250_long_line {a : List Char} (h : Ended a) (hlong : ∃ l ∈ lines a, 65535 < l.length) (b : List Char) :
    loadCandles S (some (a ++ b)) = loadCandles S (some a) := by
  simp only [loadCandles]
  rw [rawLines_ended h]
  exact loadLoop_long (by rw [rawLines_lines]; exact hlong) _ _

/-- **C250**: saved files can be joined: they are the file of the joined series, and load as that. -/
theorem C250_saved (hS : Lawful S) (hp : GoodPick S pick) (he : eprec ≤ 21) (cs ds : List Candle)
    (hc : ∀ c ∈ cs ++ ds, GoCandle S c) (ht : ∀ c ∈ cs ++ ds, Time32 c) {accept accept' : Nat → Nat} {old old' : Option (List Char)}
    (hw : AllWritten pick eprec accept cs) (hw' : AllWritten pick eprec accept' ds) :
    ∃ a b, (saveCandles pick eprec true accept old cs).2 = some a ∧ (saveCandles pick eprec true accept' old' ds).2 = some b ∧
      loadCandles S (some (a ++ b)) = .ok (cs ++ ds) := by
  refine ⟨_, _, rfl, rfl, ?_⟩
  rw [writeLoop_full accept 0 cs (fun j c h => by simpa using hw j c h),
    writeLoop_full accept' 0 ds (fun j c h => by simpa using hw' j c h)]
  have e : candleText pick eprec cs ++ candleText pick eprec ds = candleText pick eprec (cs ++ ds) := by
    simp [candleText]
  rw [e]
  have h2 := (load_append hS hp he (cs ++ ds) [] [] hc).1 ht
  simpa [loadCandles, rawLines, loadLoop] using h2

/-- **C250** is false: if the last line of the first file is not ended, the first candle of the second file can vanish
without an error, or the load fails. -/
theorem C250_join_violated : ¬ Spec.C250_claim ieee := by
  intro h
  have := h "{1 1 1 1 1 12 ".toList "{2 1 1 1 1 3}\n".toList [⟨1, .fin 1, .fin 1, .fin 1, .fin 1, .fin 12⟩]
    [⟨2, .fin 1, .fin 1, .fin 1, .fin 1, .fin 3⟩] (by decide +kernel) (by decide +kernel)
  revert this
  decide +kernel

/-- **Example for C250.** Without an end of line between: a candle lost, and an error; with one: both candles. -/
example :
    loadCandles ieee (some ("{1 1 1 1 1 12 ".toList ++ "{2 1 1 1 1 3}\n".toList)) = .ok [⟨1, .fin 1, .fin 1, .fin 1, .fin 1, .fin 12⟩] ∧
    loadCandles ieee (some ("{1 1 1 1 1 12}".toList ++ "{2 1 1 1 1 3}\n".toList)) = .err .external [] ∧
    loadCandles ieee (some ("{1 1 1 1 1 12}\n".toList ++ "{2 1 1 1 1 3}\n".toList)) =
      .ok [⟨1, .fin 1, .fin 1, .fin 1, .fin 1, .fin 12⟩, ⟨2, .fin 1, .fin 1, .fin 1, .fin 1, .fin 3⟩] := by decide +kernel

/-- **Example for C250.** A first file that fails. -/
example : Ended "{1 1 1}\n".toList ∧ loadCandles ieee (some "{1 1 1}\n".toList) = .panic := by
  constructor
  · right; decide
  · decide +kernel

end Finmod
