import Verif.Model.CandleRace
import Verif.Props.CandleScan

/-!
# C202: a candle file loaded while another process writes to it
-/

namespace Finmod
open Go Spec

/-- The bytes `G` come from reads number `k` to `n - 1`, the first of them at the offset `off`. -/
inductive ReadFrom (file : Nat → List Char) : Nat → Nat → Nat → List Char → Prop
  | done (off k : Nat) : ReadFrom file off k k []
  | step (off k n : Nat) (piece G : List Char) : piece <+: (file k).drop off →
      ReadFrom file (off + piece.length) (k + 1) n G → ReadFrom file off k n (piece ++ G)

theorem ReadFrom.append {file : Nat → List Char} {off k n m : Nat} {G H : List Char} (h : ReadFrom file off k n G)
    (h' : ReadFrom file (off + G.length) n m H) : ReadFrom file off k m (G ++ H) := by
  induction h with
  | done => simpa using h'
  | step off k n piece G hp _ ih =>
    rw [List.append_assoc]
    refine .step _ _ _ _ _ hp (ih ?_)
    rwa [List.length_append, ← Nat.add_assoc] at h'

theorem ReadFrom.le {file : Nat → List Char} {off k n : Nat} {G : List Char} (h : ReadFrom file off k n G) : k ≤ n := by
  induction h with
  | done => exact le_refl _
  | step => omega

theorem ReadFrom.when {file : Nat → List Char} {off k n : Nat} {G : List Char} (h : ReadFrom file off k n G) :
    ∃ w : Nat → Nat, Monotone w ∧ (∀ i, k ≤ w i) ∧
      ∀ i (hi : i < G.length), w i < n ∧ (file (w i))[off + i]? = some G[i] := by
  induction h with
  | done off k => exact ⟨fun _ => k, fun _ _ _ => le_refl _, fun _ => le_refl _, by simp⟩
  | step off k n piece G hp hr ih =>
    obtain ⟨w, m, lo, hw⟩ := ih
    refine ⟨fun i => if i < piece.length then k else w (i - piece.length), ?_, ?_, ?_⟩
    · intro a b hab
      simp only
      split <;> split
      · exact le_refl _
      · exact le_trans (Nat.le_succ k) (lo _)
      · omega
      · exact m (by omega)
    · intro i
      simp only
      split
      · exact le_refl _
      · exact le_trans (Nat.le_succ k) (lo _)
    · intro i hi
      simp only
      split
      · rename_i h
        refine ⟨hr.le, ?_⟩
        obtain ⟨t, e⟩ := hp
        rw [← List.getElem?_drop, ← e, List.getElem?_append_left h, List.getElem_append_left h]
        simp
      · rename_i h
        have h2 := hw (i - piece.length) (by rw [List.length_append] at hi; omega)
        refine ⟨h2.1, ?_⟩
        rw [List.getElem_append_right (by omega), ← h2.2]
        congr 1; omega

/-- The last of the first `n` reads was at the end of the file. -/
def Ended (file : Nat → List Char) (off n : Nat) : Prop := ∃ k, n = k + 1 ∧ (file k).length ≤ off

/-- What always holds of the scanner and the offset. -/
structure Scanner.Fit (file : Nat → List Char) (off : Nat) (s : Scanner) : Prop where
  fits : s.start + s.data.length ≤ s.size
  most : s.size ≤ 65536
  ended : s.err = true → Ended file off s.reads ∧ s.data.length ≤ 65535

theorem grow_fit {file : Nat → List Char} {off : Nat} {s : Scanner} (h : s.Fit file off) :
    (s.shift.grow = none ∧ s.data.length = 65536 ∧ s.shift.reads = s.reads) ∨
    ∃ s', s.shift.grow = some s' ∧ s'.Fit file off ∧ s'.data = s.data ∧ s'.reads = s.reads ∧ s'.err = s.err ∧
      s'.start + s'.data.length < s'.size := by
  obtain ⟨size, start, data, rest, reads, err⟩ := s
  have f := h.fits
  have m := h.most
  simp only at f m
  unfold Scanner.shift Scanner.grow
  simp only
  split
  · rename_i hs
    simp only
    rw [if_neg (by omega)]
    refine .inr ⟨_, rfl, ⟨?_, m, h.ended⟩, rfl, rfl, rfl, ?_⟩ <;> simp only <;> omega
  · rename_i hs
    simp only
    split
    · rename_i he
      have h0 : start = 0 := by omega
      split
      · left; exact ⟨rfl, by omega, trivial⟩
      · right
        refine ⟨_, rfl, ⟨?_, ?_, h.ended⟩, rfl, rfl, rfl, ?_⟩ <;> simp only
        · split <;> omega
        · split <;> omega
        · split <;> omega
    · right
      exact ⟨_, rfl, h, rfl, rfl, rfl, by simp only; omega⟩

theorem readLive_fit {file : Nat → List Char} {off : Nat} {s : Scanner} (chunk : Nat → Nat) (h : s.Fit file off)
    (he : s.err = false) (room : s.start + s.data.length < s.size) :
    ∃ s' piece, s.readLive chunk file off = (off + piece.length, s') ∧ s'.Fit file (off + piece.length) ∧
      s'.data = s.data ++ piece ∧ s'.reads = s.reads + 1 ∧ piece <+: (file s.reads).drop off ∧
      ((s'.err = true ∧ piece = []) ∨ (s'.err = false ∧ 0 < piece.length ∧ off + piece.length ≤ (file s.reads).length)) := by
  have m := h.most
  unfold Scanner.readLive
  split
  · rename_i hr
    refine ⟨{ s with err := true, reads := s.reads + 1 }, [], rfl, ⟨room.le, m, fun _ => ⟨⟨s.reads, rfl, ?_⟩, ?_⟩⟩, by simp, rfl, by simp,
      .inl ⟨rfl, rfl⟩⟩
    · simpa using hr
    · simp only; omega
  · rename_i hr
    have : 0 < ((file s.reads).drop off).length := List.length_pos_iff.2 hr
    rw [List.length_drop] at this
    refine ⟨_, ((file s.reads).drop off).take (min (max 1 (chunk s.reads)) (s.size - (s.start + s.data.length))), rfl,
      ⟨?_, m, fun e => by simp only [he] at e; cases e⟩, rfl, rfl, List.take_prefix _ _, .inr ⟨he, ?_, ?_⟩⟩
    · simp only [List.length_append, List.length_take, List.length_drop]; omega
    · simp only [List.length_take, List.length_drop]; omega
    · simp only [List.length_take, List.length_drop]; omega

/-- What one call of `Scan` gives. -/
theorem scanLive_spec (chunk : Nat → Nat) (file : Nat → List Char) (L : Nat) (hL : ∀ k, (file k).length ≤ L) :
    ∀ (fuel off : Nat) (s : Scanner), s.Fit file off → L - off + 1 < fuel + (if s.err then 1 else 0) →
    ∃ t off' s' G, s.scanLive chunk file fuel off = some (t, off', s') ∧ off' = off + G.length ∧
      ReadFrom file off s.reads s'.reads G ∧ (s.err = true → G = [] ∧ s'.reads = s.reads) ∧
      match t with
      | none => (rawLines [] (s.data ++ G) = [] ∧ Ended file off' s'.reads) ∨
          ∀ T, ∃ l ls, rawLines [] (s.data ++ G ++ T) = l :: ls ∧ 65535 < l.length
      | some tok => s'.Fit file off' ∧ (s.err = true → s'.err = true) ∧ s'.data.length + (L - off') < s.data.length + (L - off) ∧
          ∃ l, tok = dropCR l ∧ ¬ 65535 < l.length ∧
            ∀ T, (s'.err = true → T = []) → rawLines [] (s.data ++ G ++ T) = l :: rawLines [] (s'.data ++ T)
  | 0, off, s, h, hf => by split at hf <;> omega
  | fuel + 1, off, s, h, hf => by
    have f := h.fits
    have m := h.most
    by_cases hn : '\n' ∈ s.data
    · obtain ⟨l, t, e, hl⟩ : ∃ l t, s.data = l ++ '\n' :: t ∧ '\n' ∉ l := by
        obtain ⟨l, t, e, hl⟩ := List.eq_append_cons_of_mem hn
        exact ⟨l, t, e, hl⟩
      have len : s.data.length = l.length + 1 + t.length := by rw [e]; simp; omega
      refine ⟨some (dropCR l), off, { s with start := s.start + (l.length + 1), data := t }, [], ?_, rfl, .done _ _,
        fun _ => ⟨rfl, rfl⟩, ⟨?_, m, ?_⟩, id, ?_, l, rfl, by omega, ?_⟩
      · have : (l ++ '\n' :: t).drop (l.length + 1) = t := by
          rw [show l ++ '\n' :: t = (l ++ ['\n']) ++ t by simp, List.drop_left' (by simp)]
        simp only [Scanner.scanLive, e]
        rw [if_pos (by simp), scanLines_newline hl]
        simp only [this]
      · simp only; omega
      · intro he; have := h.ended he; simp only; exact ⟨this.1, by omega⟩
      · simp only; omega
      · intro T _
        rw [show s.data ++ [] ++ T = l ++ '\n' :: (t ++ T) by rw [e]; simp, rawLines_line hl]
    · cases he : s.err with
      | true =>
        obtain ⟨h1, h2⟩ := h.ended he
        by_cases hd : s.data = []
        · refine ⟨none, off, { s with start := 0, data := [] }, [], ?_, rfl, .done _ _, fun _ => ⟨rfl, rfl⟩,
            .inl ⟨by simp [hd, rawLines], h1⟩⟩
          simp only [Scanner.scanLive, hd, he]
          simp [scanLines]
        · refine ⟨some (dropCR s.data), off, { s with start := s.start + s.data.length, data := [] }, [], ?_, rfl, .done _ _,
            fun _ => ⟨rfl, rfl⟩, ⟨?_, m, ?_⟩, fun _ => he, ?_, s.data, rfl, by omega, ?_⟩
          · simp only [Scanner.scanLive, he]
            rw [if_pos (by simp), scanLines_none hn, if_pos ⟨rfl, hd⟩]
            simp
          · simpa using f
          · intro _; exact ⟨h1, by simp⟩
          · have := List.length_pos_iff.2 hd
            simp only [List.length_nil]; omega
          · intro T hT
            rw [hT he, List.append_nil, List.append_nil, rawLines_last hn, if_neg hd]
            simp [rawLines]
      | false =>
        have split0 : (if s.data ≠ [] ∨ s.err then scanLines s.data s.err else (0, none)) = (0, none) := by
          split
          · rw [scanLines_none hn, if_neg (by simp [he])]
          · rfl
        rw [he] at split0
        simp only [Scanner.scanLive, he, split0]
        rcases grow_fit h with ⟨g, len, hr⟩ | ⟨s1, g, o, d, r, e', room⟩
        · rw [g]
          refine ⟨none, off, { s.shift with err := true }, [], by simp, rfl, ?_, by simp, .inr ?_⟩
          · simp only [hr]; exact .done _ _
          · intro T
            obtain ⟨l, ls, e, hl⟩ := rawLines_long hn (by rintro h; simp [h] at len) T
            exact ⟨l, ls, by simpa using e, by omega⟩
        · rw [g]
          obtain ⟨s2, piece, e2, o2, d2, r2, hp, q2⟩ := readLive_fit chunk o (e'.trans he) room
          simp only [e2, Bool.false_eq_true, if_false, false_imp_iff, true_and]
          rw [he] at hf
          simp only [Bool.false_eq_true, if_false] at hf
          have hlt : L - (off + piece.length) + 1 < fuel + (if s2.err then 1 else 0) := by
            have := hL s1.reads
            rcases q2 with ⟨a, b⟩ | ⟨a, b, c⟩
            · rw [a, b]; simp; omega
            · rw [a]; simp; omega
          obtain ⟨t, off', s', G, e3, eo, hR, hE, hM⟩ := scanLive_spec chunk file L hL fuel _ s2 o2 hlt
          rw [r] at hp
          rw [r2, r] at hR
          refine ⟨t, off', s', piece ++ G, e3, by rw [eo, List.length_append]; omega, .step _ _ _ _ _ hp hR, ?_⟩
          have ed : s2.data ++ G = s.data ++ (piece ++ G) := by rw [d2, d, List.append_assoc]
          rw [ed] at hM
          cases t with
          | none => exact hM
          | some tok =>
            obtain ⟨a, _, b, c⟩ := hM
            refine ⟨a, ?_, c⟩
            have := hL s1.reads
            rw [d2, d, List.length_append] at b
            rcases q2 with ⟨a, b'⟩ | ⟨a, b', c'⟩
            · rw [b'] at b; simpa using b
            · omega

/-- The loop, from any state of the scanner. -/
theorem loadLive_spec (S : FloatSem) (chunk : Nat → Nat) (file : Nat → List Char) (L : Nat)
    (hL : ∀ k, (file k).length ≤ L) : ∀ (fuel : Nat) (acc : List Candle) (off : Nat) (s : Scanner), s.Fit file off →
    s.data.length + (L - off) < fuel →
    ∃ r G n, loadLive S chunk file (L + 2) fuel acc off s = some r ∧ ReadFrom file off s.reads n G ∧
      (s.err = true → G = [] ∧ n = s.reads) ∧ r = loadLoop S acc (rawLines [] (s.data ++ G)) ∧
      (Ended file (off + G.length) n ∨ ∀ T, loadLoop S acc (rawLines [] (s.data ++ G ++ T)) = r)
  | 0, _, _, _, _, hf => by omega
  | fuel + 1, acc, off, s, h, hf => by
    obtain ⟨t, off', s', G, e, rfl, hR, hE, hM⟩ := scanLive_spec chunk file L hL (L + 2) off s h (by split <;> omega)
    simp only [loadLive, e]
    cases t with
    | none =>
      refine ⟨.ok acc, G, s'.reads, rfl, hR, hE, ?_⟩
      rcases hM with ⟨a, b⟩ | hM
      · exact ⟨by rw [a]; rfl, .inl b⟩
      · have : ∀ T, loadLoop S acc (rawLines [] (s.data ++ G ++ T)) = .ok acc := by
          intro T
          obtain ⟨l, ls, e, hl⟩ := hM T
          rw [e]; simp only [loadLoop, if_pos hl]
        exact ⟨by simpa using (this []).symm, .inr this⟩
    | some tok =>
      obtain ⟨o, herr, len, l, rfl, hl, hT⟩ := hM
      have stop : ∀ {r}, loadLoop S acc [l] = r → (∀ ls, loadLoop S acc (l :: ls) = r) →
          r = loadLoop S acc (rawLines [] (s.data ++ G)) ∧
          (Ended file (off + G.length) s'.reads ∨ ∀ T, loadLoop S acc (rawLines [] (s.data ++ G ++ T)) = r) := by
        intro r _ hr
        refine ⟨?_, ?_⟩
        · have := hT [] (fun _ => rfl)
          rw [List.append_nil] at this
          rw [this, hr]
        · cases he : s'.err with
          | true => exact .inl (o.ended he).1
          | false => exact .inr fun T => by rw [hT T (by simp [he]), hr]
      cases hp : parseLine S (dropCR l) with
      | refused =>
        have : ∀ ls, loadLoop S acc (l :: ls) = .err .external [] := fun ls => by simp only [loadLoop, if_neg hl, hp]
        exact ⟨_, G, s'.reads, by simp only [hp], hR, hE, stop (this _) this⟩
      | panics =>
        have : ∀ ls, loadLoop S acc (l :: ls) = .panic := fun ls => by simp only [loadLoop, if_neg hl, hp]
        exact ⟨_, G, s'.reads, by simp only [hp], hR, hE, stop (this _) this⟩
      | candle c =>
        have step : ∀ ls, loadLoop S acc (l :: ls) = loadLoop S (acc ++ [c]) ls := fun ls => by
          simp only [loadLoop, if_neg hl, hp]
        obtain ⟨r, G', n, e', hR', hE', hr, hend⟩ := loadLive_spec S chunk file L hL fuel (acc ++ [c]) _ s' o (by omega)
        refine ⟨r, G ++ G', n, by simp only [hp]; exact e', hR.append hR', ?_, ?_, ?_⟩
        · intro he
          obtain ⟨a, b⟩ := hE he
          obtain ⟨a', b'⟩ := hE' (herr he)
          exact ⟨by rw [a, a']; rfl, b'.trans b⟩
        · rw [← List.append_assoc, hT G' (fun he => (hE' he).1), step, hr]
        · rw [List.length_append, ← Nat.add_assoc]
          cases he : s'.err with
          | true =>
            left
            obtain ⟨a, b⟩ := hE' he
            rw [a, b]
            exact (o.ended he).1
          | false =>
            rcases hend with hend | hend
            · exact .inl hend
            · refine .inr fun T => ?_
              rw [← List.append_assoc, List.append_assoc _ G', hT _ (by simp [he]), step, ← List.append_assoc]
              exact hend T

namespace Spec

/-- `p` is read off a changing file from front to back: the byte at position `i` is the one the file has there at the
moment `w i`, the moments do not run backwards, and none is later than `last`. -/
def SeenUntil (file : Nat → List Char) (last : Nat) (p : List Char) : Prop :=
  ∃ w : Nat → Nat, Monotone w ∧ ∀ i (hi : i < p.length), w i ≤ last ∧ (file (w i))[i]? = some p[i]

/-- The file only grows. -/
def Growing (file : Nat → List Char) : Prop := ∀ k, file k <+: file (k + 1)

end Spec

/-- **C202.** However the file changes during the load and whatever sizes the reads have, `LoadCandlesFromFile` ends, as
long as the file does not grow without bound, and its outcome is that of loading some bytes `p` read off the changing
file from front to back; `p` reaches the end the file has at the last of these moments, or nothing that follows `p` has
any influence. -/
theorem C202_any_changes (S : FloatSem) (chunk : Nat → Nat) (file : Nat → List Char) (most : Nat)
    (hm : ∀ k, (file k).length ≤ most) :
    ∃ p last, SeenUntil file last p ∧ loadCandlesLive S chunk file most = some (loadCandles S (some p)) ∧
      ((file last).length ≤ p.length ∨ ∀ rest, loadCandles S (some (p ++ rest)) = loadCandles S (some p)) := by
  obtain ⟨r, G, n, e, hR, -, hr, hend⟩ := loadLive_spec S chunk file most hm (most + 1) [] 0 ⟨0, 0, [], [], 0, false⟩
    ⟨by simp, by simp, by simp⟩ (by simp)
  obtain ⟨w, mono, -, hw⟩ := hR.when
  simp only [List.nil_append] at hr hend
  refine ⟨G, n - 1, ⟨w, mono, fun i hi => ?_⟩, ?_, ?_⟩
  · obtain ⟨a, b⟩ := hw i hi
    exact ⟨by omega, by simpa using b⟩
  · rw [loadCandlesLive, e, hr]; rfl
  · rcases hend with ⟨k, rfl, h⟩ | h
    · left; simpa using h
    · right; intro rest
      simp only [loadCandles]
      rw [h rest, hr]

theorem prefix_of_seen {p q : List Char} (h : ∀ i (hi : i < p.length), q[i]? = some p[i]) : p <+: q := by
  rw [List.prefix_iff_eq_take]
  apply List.ext_getElem?
  intro i
  rw [List.getElem?_take]
  split
  · rename_i hi; rw [h i hi, List.getElem?_eq_getElem hi]
  · rename_i hi; rw [List.getElem?_eq_none (by omega)]

theorem Spec.Growing.le {file : Nat → List Char} (h : Growing file) {a b : Nat} (hab : a ≤ b) : file a <+: file b := by
  induction hab with
  | refl => exact List.prefix_refl _
  | step _ ih => exact ih.trans (h _)

theorem prefix_getElem? {p q : List Char} (h : p <+: q) {i : Nat} {c : Char} (hp : p[i]? = some c) : q[i]? = some c := by
  obtain ⟨t, rfl⟩ := h
  obtain ⟨hi, e⟩ := List.getElem?_eq_some_iff.1 hp
  rw [List.getElem?_append_left hi, hp]

/-- **C202.** While the file only grows, the load has the outcome of a load at one single moment. -/
theorem C202_one_moment (S : FloatSem) (chunk : Nat → Nat) (file : Nat → List Char) (most : Nat)
    (hm : ∀ k, (file k).length ≤ most) (hg : Growing file) :
    ∃ k, loadCandlesLive S chunk file most = some (loadCandles S (some (file k))) := by
  obtain ⟨p, last, ⟨w, -, hw⟩, e, hend⟩ := C202_any_changes S chunk file most hm
  have hp : p <+: file last := prefix_of_seen fun i hi => prefix_getElem? (hg.le (hw i hi).1) (hw i hi).2
  refine ⟨last, ?_⟩
  rcases hend with h | h
  · rw [e, hp.eq_of_length_le h]
  · obtain ⟨t, ht⟩ := hp
    rw [e, ← ht, h t]

variable {S : FloatSem} {pick : ℚ → Nat × ℤ} {eprec : ℤ}

/-- **C202.** A load that runs while `SaveCandlesToFile` writes `cs`, and starts to read after the file was created,
returns without an error only a beginning of `cs`, or such a beginning and one candle whose volume is cut off. -/
theorem C202_during_save (hS : Lawful S) (hp : GoodPick S pick) (he : eprec ≤ 21) (cs : List Candle)
    (hc : ∀ c ∈ cs, GoCandle S c) (chunk : Nat → Nat) (file : Nat → List Char)
    (hf : ∀ k, file k <+: candleText pick eprec cs) (hg : Growing file) (out : List Candle)
    (hout : loadCandlesLive S chunk file (candleText pick eprec cs).length = some (.ok out)) :
    (∃ k, out = cs.take k) ∨
    ∃ (k : Nat) (c : Candle) (x : Fl) (digits : List Char), cs[k]? = some c ∧
      out = cs.take k ++ [{ c with volume := x }] ∧
      digits <+: fmtFloat pick eprec c.volume ∧ parseFloat S digits = some x := by
  obtain ⟨k, e⟩ := C202_one_moment S chunk file _ (fun k => (hf k).length_le) hg
  rw [e] at hout
  exact C38_torn_partial hS hp he cs hc _ (hf k) out (Option.some.inj hout)

/-- **C202.** A load that began on the old contents and goes on after the file was created anew sees the first bytes of
the old text, followed by bytes of the new text from the same position on. -/
theorem C202_across_create (S : FloatSem) (chunk : Nat → Nat) (file : Nat → List Char) (old new : List Char) (at_ : Nat)
    (ho : ∀ k < at_, file k = old) (hn : ∀ k, at_ ≤ k → file k <+: new) :
    ∃ i j, loadCandlesLive S chunk file (max old.length new.length) =
      some (loadCandles S (some (old.take i ++ (new.take j).drop i))) := by
  have hm : ∀ k, (file k).length ≤ max old.length new.length := by
    intro k
    rcases Nat.lt_or_ge k at_ with h | h
    · rw [ho k h]; exact le_max_left _ _
    · exact le_trans (hn k h).length_le (le_max_right _ _)
  obtain ⟨p, last, ⟨w, mono, hw⟩, e, -⟩ := C202_any_changes S chunk file _ hm
  -- the number of bytes that come from the old text
  obtain ⟨i, hi, hlo, hhi⟩ : ∃ i ≤ p.length, (∀ a < i, w a < at_) ∧ ∀ a, i ≤ a → a < p.length → at_ ≤ w a := by
    by_cases h : ∃ a, a < p.length ∧ at_ ≤ w a
    · classical
      refine ⟨Nat.find h, (Nat.find_spec h).1.le, fun a ha => ?_, fun a ha _ => le_trans (Nat.find_spec h).2 (mono ha)⟩
      have := Nat.find_min h ha
      have := (Nat.find_spec h).1
      by_contra hc
      exact ‹¬ (a < p.length ∧ _)› ⟨by omega, by omega⟩
    · exact ⟨p.length, le_refl _, fun a ha => by by_contra hc; exact h ⟨a, ha, by omega⟩, fun a h1 h2 => by omega⟩
  refine ⟨i, p.length, ?_⟩
  rw [e]
  congr 3
  have h1 : p.take i <+: old := prefix_of_seen fun a ha => by
    rw [List.length_take] at ha
    have := (hw a (by omega)).2
    rw [ho _ (hlo a (by omega))] at this
    simpa using this
  have l1 : (p.take i).length = i := by rw [List.length_take]; omega
  have e1 : old.take i = p.take i := by
    have := List.prefix_iff_eq_take.1 h1
    rw [l1] at this; exact this.symm
  rw [e1]
  conv_lhs => rw [← List.take_append_drop i p]
  congr 1
  apply List.ext_getElem?
  intro a
  rw [List.getElem?_drop, List.getElem?_drop, List.getElem?_take]
  split
  · rename_i h
    have := (hw (i + a) h).2
    rw [prefix_getElem? (hn _ (hhi _ (by omega) h)) this, List.getElem?_eq_getElem h]
  · rename_i h
    rw [List.getElem?_eq_none (by omega)]

/-- A saver that has written one line and a part of the next at the first read, and nothing more at the second. -/
example : loadCandlesLive ieee (fun _ => 4096) (fun k => "{1 1 1 1 1 12}\n{2 1 1 1 1 34}\n".toList.take (if k < 1 then 20 else 28)) 30 =
    some (.ok [⟨1, .fin 1, .fin 1, .fin 1, .fin 1, .fin 12⟩, ⟨2, .fin 1, .fin 1, .fin 1, .fin 1, .fin 3⟩]) := by
  decide +kernel

/-- A load across the creation of the file returns a candle that is neither in the old file nor in the new one. -/
example : loadCandlesLive ieee (fun _ => 8) (fun k => if k < 1 then "{1 1 1 1 1 12}\n".toList else "{2 7 7 7 7 77}\n".toList) 15 =
    some (.ok [⟨1, .fin 1, .fin 1, .fin 1, .fin 7, .fin 77⟩]) := by
  decide +kernel

end Finmod
