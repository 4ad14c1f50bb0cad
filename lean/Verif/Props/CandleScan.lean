import Verif.Model.CandleScan
import Verif.Props.CandleFile

/-!
# C184: however the system hands out the bytes of a candle file
-/

namespace Finmod
open Go Spec

/-- What always holds of the scanner. -/
structure Scanner.Ok (s : Scanner) : Prop where
  fits : s.start + s.data.length ≤ s.size
  most : s.size ≤ 65536
  ended : s.err = true → s.rest = [] ∧ s.data.length ≤ 65535

theorem scanLines_newline {l t : List Char} {e : Bool} (hl : '\n' ∉ l) :
    scanLines (l ++ '\n' :: t) e = (l.length + 1, some (dropCR l)) := by
  have h : (l ++ '\n' :: t).findIdx? (· == '\n') = some l.length := by
    rw [List.findIdx?_append, List.findIdx?_eq_none_iff.2 (by intro x hx; simpa using fun e : x = '\n' => hl (e ▸ hx))]
    simp [List.findIdx?_cons]
  unfold scanLines
  rw [if_neg (by simp), h]
  simp

theorem scanLines_none {l : List Char} {e : Bool} (hl : '\n' ∉ l) :
    scanLines l e = if e ∧ l ≠ [] then (l.length, some (dropCR l)) else (0, none) := by
  have h : l.findIdx? (· == '\n') = none :=
    List.findIdx?_eq_none_iff.2 (by intro x hx; simpa using fun e : x = '\n' => hl (e ▸ hx))
  unfold scanLines
  rw [h]
  cases e <;> by_cases hn : l = [] <;> simp [hn]

theorem rawLines_long {d : List Char} (hd : '\n' ∉ d) (h0 : d ≠ []) (r : List Char) :
    ∃ l ls, rawLines [] (d ++ r) = l :: ls ∧ d.length ≤ l.length := by
  by_cases hr : '\n' ∈ r
  · obtain ⟨l, t, e, hl⟩ := List.eq_append_cons_of_mem hr
    refine ⟨d ++ l, rawLines [] t, ?_, by simp⟩
    rw [e, ← List.append_assoc, rawLines_line (by simp [hd, hl])]
  · refine ⟨d ++ r, [], ?_, by simp⟩
    rw [rawLines_last (by simp [hd, hr]), if_neg (by simp [h0])]

theorem read_ok {s : Scanner} (h : s.Ok) (chunk : Nat → Nat) (he : s.err = false) (room : s.start + s.data.length < s.size) :
    (s.read chunk).Ok ∧ (s.read chunk).data ++ (s.read chunk).rest = s.data ++ s.rest ∧
      ((s.read chunk).err = true ∨ (s.read chunk).rest.length < s.rest.length) := by
  have m := h.most
  unfold Scanner.read
  split
  · rename_i hr
    exact ⟨⟨room.le, m, fun _ => ⟨hr, by simp only; omega⟩⟩, rfl, .inl rfl⟩
  · rename_i hr
    refine ⟨⟨?_, m, fun e => by simp only [he] at e; cases e⟩, by simp, .inr ?_⟩
    · simp only [List.length_append, List.length_take]; omega
    · have : 0 < s.rest.length := List.length_pos_iff.2 hr
      simp only [List.length_drop]; omega

/-- After `shift` and `grow` there is room, or the buffer is full of one line. -/
theorem grow_ok {s : Scanner} (h : s.Ok) :
    (s.shift.grow = none ∧ s.data.length = 65536) ∨
    ∃ s', s.shift.grow = some s' ∧ s'.Ok ∧ s'.data = s.data ∧ s'.rest = s.rest ∧ s'.err = s.err ∧
      s'.start + s'.data.length < s'.size := by
  obtain ⟨size, start, data, rest, reads, err⟩ := s
  have f := h.fits
  have m := h.most
  simp only at f m
  unfold Scanner.shift Scanner.grow
  simp only
  split
  · rename_i hs
    simp only
    rw [if_neg (by omega)]
    refine .inr ⟨_, rfl, ⟨?_, m, h.ended⟩, rfl, rfl, rfl, ?_⟩ <;> simp only <;> omega
  · rename_i hs
    simp only
    split
    · rename_i he
      have h0 : start = 0 := by omega
      split
      · left; exact ⟨rfl, by omega⟩
      · right
        refine ⟨_, rfl, ⟨?_, ?_, h.ended⟩, rfl, rfl, rfl, ?_⟩ <;> simp only
        · split <;> omega
        · split <;> omega
        · split <;> omega
    · right
      exact ⟨_, rfl, h, rfl, rfl, rfl, by simp only; omega⟩

/-- What one call of `Scan` gives, from the bytes not yet given out as tokens. -/
theorem scan_spec (chunk : Nat → Nat) : ∀ (fuel : Nat) (s : Scanner), s.Ok → s.rest.length + 1 < fuel + (if s.err then 1 else 0) →
    match rawLines [] (s.data ++ s.rest) with
    | [] => ∃ s', s.scan chunk fuel = some (none, s')
    | l :: ls =>
      if 65535 < l.length then ∃ s', s.scan chunk fuel = some (none, s')
      else ∃ s', s.scan chunk fuel = some (some (dropCR l), s') ∧ s'.Ok ∧ rawLines [] (s'.data ++ s'.rest) = ls ∧
        s'.data.length + s'.rest.length < s.data.length + s.rest.length
  | 0, s, h, hf => by split at hf <;> omega
  | fuel + 1, s, h, hf => by
    by_cases hn : '\n' ∈ s.data
    · obtain ⟨l, t, e, hl⟩ : ∃ l t, s.data = l ++ '\n' :: t ∧ '\n' ∉ l := by
        obtain ⟨l, t, e, hl⟩ := List.eq_append_cons_of_mem hn
        exact ⟨l, t, e, hl⟩
      have len : s.data.length = l.length + 1 + t.length := by rw [e]; simp; omega
      have f := h.fits
      have m := h.most
      rw [show s.data ++ s.rest = l ++ '\n' :: (t ++ s.rest) by rw [e]; simp, rawLines_line hl]
      simp only
      rw [if_neg (by omega)]
      refine ⟨{ s with start := s.start + (l.length + 1), data := t }, ?_, ⟨?_, m, ?_⟩, rfl, ?_⟩
      · have : (l ++ '\n' :: t).drop (l.length + 1) = t := by
          rw [show l ++ '\n' :: t = (l ++ ['\n']) ++ t by simp, List.drop_left' (by simp)]
        simp only [Scanner.scan, e]
        rw [if_pos (by simp), scanLines_newline hl]
        simp only [this]
      · simp only; omega
      · intro he; have := h.ended he; simp only; exact ⟨this.1, by omega⟩
      · simp only; omega
    · cases he : s.err with
      | true =>
        obtain ⟨h1, h2⟩ := h.ended he
        rw [h1, List.append_nil, rawLines_last hn]
        have f := h.fits
        have m := h.most
        by_cases hd : s.data = []
        · rw [if_pos hd]
          simp only [Scanner.scan, hd, he]
          simp [scanLines]
        · rw [if_neg hd]
          simp only
          rw [if_neg (by omega)]
          refine ⟨{ s with start := s.start + s.data.length, data := [] }, ?_, ⟨?_, m, ?_⟩, ?_, ?_⟩
          · simp only [Scanner.scan, he]
            rw [if_pos (by simp), scanLines_none hn, if_pos ⟨rfl, hd⟩]
            simp
          · simpa using f
          · intro _; simp [h1]
          · simp [h1, rawLines]
          · simp [h1]; exact List.length_pos_iff.2 hd
      | false =>
        have split0 : (if s.data ≠ [] ∨ s.err then scanLines s.data s.err else (0, none)) = (0, none) := by
          split
          · rw [scanLines_none hn, if_neg (by simp [he])]
          · rfl
        rw [he] at split0
        simp only [Scanner.scan, he, split0]
        rcases grow_ok h with ⟨g, len⟩ | ⟨s', g, o, d, r, e', room⟩
        · rw [g]
          obtain ⟨l, ls, e, hl⟩ := rawLines_long hn (by rintro h; simp [h] at len) s.rest
          rw [e]
          simp only
          rw [if_pos (by omega)]
          exact ⟨_, rfl⟩
        · rw [g]
          simp only
          obtain ⟨o2, p2, q2⟩ := read_ok o chunk (e'.trans he) room
          have hlt : (s'.read chunk).rest.length + 1 < fuel + (if (s'.read chunk).err then 1 else 0) := by
            rw [he] at hf
            simp only [Bool.false_eq_true, if_false] at hf
            rw [r] at q2
            cases hb : (s'.read chunk).err with
            | true => rw [(o2.ended hb).1]; simp; omega
            | false => rw [hb] at q2; simp at q2 ⊢; omega
          have := scan_spec chunk fuel (s'.read chunk) o2 hlt
          rw [p2, d, r] at this
          have len : (s'.read chunk).data.length + (s'.read chunk).rest.length = s.data.length + s.rest.length := by
            have := congrArg List.length p2
            rw [d, r] at this
            simpa using this
          rwa [len] at this

/-- The loop, from any state of the scanner. -/
theorem loadScan_spec (S : FloatSem) (chunk : Nat → Nat) : ∀ (fuel : Nat) (acc : List Candle) (s : Scanner), s.Ok →
    s.data.length + s.rest.length < fuel →
    loadScan S chunk fuel acc s = some (loadLoop S acc (rawLines [] (s.data ++ s.rest)))
  | 0, _, _, _, hf => by omega
  | fuel + 1, acc, s, h, hf => by
    have := scan_spec chunk (s.rest.length + 2) s h (by split <;> omega)
    simp only [loadScan]
    cases hr : rawLines [] (s.data ++ s.rest) with
    | nil =>
      rw [hr] at this
      obtain ⟨s', e⟩ := this
      rw [e]; rfl
    | cons l ls =>
      rw [hr] at this
      simp only at this
      by_cases hl : 65535 < l.length
      · rw [if_pos hl] at this
        obtain ⟨s', e⟩ := this
        rw [e]; simp only [loadLoop, if_pos hl]
      · rw [if_neg hl] at this
        obtain ⟨s', e, o, r, len⟩ := this
        rw [e]
        simp only [loadLoop, if_neg hl]
        cases parseLine S (dropCR l) with
        | refused => rfl
        | panics => rfl
        | candle c =>
          simp only
          rw [loadScan_spec S chunk fuel _ s' o (by omega), r]

/-- **C184.** Whatever sizes the system's reads have, `LoadCandlesFromFile` ends and its outcome depends only on the bytes
given before the end of the file or a read error: the line-by-line reading of C36-C39, C104, C105, C137 and C143. -/
theorem C184_any_reads (S : FloatSem) (chunk : Nat → Nat) (given : Option (List Char)) :
    loadCandlesBy S chunk given = some (loadCandles S given) := by
  cases given with
  | none => rfl
  | some bytes =>
    simp only [loadCandlesBy, loadCandles]
    rw [loadScan_spec S chunk _ _ _ ⟨by simp, by simp, by simp⟩ (by simp)]
    simp

variable {S : FloatSem} {pick : ℚ → Nat × ℤ} {eprec : ℤ}

/-- **C184.** A read error is not reported: if it comes behind `k` lines of a saved file, the first `k` candles are returned
with a nil error. -/
theorem C184_read_error (hS : Lawful S) (hp : GoodPick S pick) (he : eprec ≤ 21) (cs : List Candle)
    (hc : ∀ c ∈ cs, GoCandle S c) (ht : ∀ c ∈ cs, Time32 c) (k : Nat) (chunk : Nat → Nat) :
    loadCandlesBy S chunk (some ((candleText pick eprec cs).take (candleText pick eprec (cs.take k)).length)) =
      some (.ok (cs.take k)) := by
  obtain ⟨⟨r, e⟩, h⟩ := C38_line_boundary_partial (S := S) hS hp he cs hc ht k
  rw [C184_any_reads, ← e, List.take_left, h]

/-- Two lines read three bytes at a time. -/
example : loadCandlesBy ieee (fun _ => 3) (some "{1 1 1 1 1 12}\n{2 1 1 1 1 0.5}\n".toList) =
    some (.ok [⟨1, .fin 1, .fin 1, .fin 1, .fin 1, .fin 12⟩, ⟨2, .fin 1, .fin 1, .fin 1, .fin 1, .fin (1 / 2)⟩]) := by
  decide +kernel

/-- A read error in the middle of the last number: the volume 12 is read as 1, and no error is returned. -/
example : loadCandlesBy ieee (fun _ => 7) (some ("{1 1 1 1 1 12}\n".toList.take 13)) =
    some (.ok [⟨1, .fin 1, .fin 1, .fin 1, .fin 1, .fin 1⟩]) := by decide +kernel

end Finmod
