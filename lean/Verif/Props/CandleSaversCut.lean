import Verif.Model.CandleSaversCut
import Verif.Props.CandleSavers

/-!
# C221: several processes save to the same file, and writes fail
-/

namespace Finmod
open Go Spec

namespace Spec

/-- Some interleaving of the processes leads from `s` to `t`. -/
def CutInterleaved {ι : Type} [DecidableEq ι] (lines : ι → List (List Char)) (s t : CutSavers ι) : Prop :=
  Relation.ReflTransGen (CutStep lines) s t

/-- Process `i` has returned. -/
def Returned {ι : Type} (s : CutSavers ι) (i : ι) : Prop := s.proc i = .refused ∨ ∃ w, s.proc i = .writing w []

/-- What the system has taken of process `i`, if its `os.Create` succeeded. -/
def TakenOf {ι : Type} (s : CutSavers ι) (i : ι) (w : List Char) : Prop := ∃ ls, s.proc i = .writing w ls

end Spec

section
variable {ι : Type} [DecidableEq ι] {lines : ι → List (List Char)}

/-- What has been taken stays taken. -/
theorem cut_grows {s t : CutSavers ι} (st : CutStep lines s t) {i : ι} {w : List Char} (h : TakenOf s i w) :
    ∃ w', TakenOf t i w' ∧ w <+: w' := by
  obtain ⟨ls, h⟩ := h
  cases st with
  | create k hk =>
    have hi : i ≠ k := by rintro rfl; rw [hk] at h; cases h
    exact ⟨w, ⟨ls, by simp only [Function.update_of_ne hi, h]⟩, List.prefix_rfl⟩
  | refuse k hk =>
    have hi : i ≠ k := by rintro rfl; rw [hk] at h; cases h
    exact ⟨w, ⟨ls, by simp only [Function.update_of_ne hi, h]⟩, List.prefix_rfl⟩
  | piece k v a b r hk =>
    by_cases hi : i = k
    · subst hi
      rw [hk] at h; cases h
      exact ⟨w ++ a, ⟨_, Function.update_self ..⟩, List.prefix_append _ _⟩
    · exact ⟨w, ⟨ls, by simp only [Function.update_of_ne hi, h]⟩, List.prefix_rfl⟩
  | next k v l r hk =>
    by_cases hi : i = k
    · subst hi
      rw [hk] at h; cases h
      exact ⟨w, ⟨_, Function.update_self ..⟩, List.prefix_rfl⟩
    · exact ⟨w, ⟨ls, by simp only [Function.update_of_ne hi, h]⟩, List.prefix_rfl⟩

/-- **C221.** Whatever processes save to the file, however they are interleaved, into whatever pieces their lines are cut
and whichever writes fail: at every moment, each byte of the file is one the system took from some process at that
position, or zero; before the first `os.Create` that succeeds the file is as it was. -/
theorem C221_bytes {old : List Char} {s : CutSavers ι} (h : CutInterleaved lines (cutSavers old) s) :
    ((∀ i w, ¬ TakenOf s i w) ∧ s.file = old) ∨
    ∀ (j : Nat) (c : Char), s.file[j]? = some c → c = '\x00' ∨ ∃ i w, TakenOf s i w ∧ w[j]? = some c := by
  induction h with
  | refl => left; exact ⟨(by rintro i w ⟨ls, h⟩; cases h), rfl⟩
  | @tail u v hs st ih =>
    have keep : ∀ {j : Nat} {c : Char}, (∃ i w, TakenOf u i w ∧ w[j]? = some c) → ∃ i w, TakenOf v i w ∧ w[j]? = some c := by
      rintro j c ⟨i, w, h1, h2⟩
      obtain ⟨w', h3, r, rfl⟩ := cut_grows st h1
      refine ⟨i, _, h3, ?_⟩
      rw [List.getElem?_append_left (List.getElem?_eq_some_iff.1 h2).1, h2]
    cases st with
    | create i hi => right; intro j c hc; simp at hc
    | refuse i hi =>
      rcases ih with ⟨ih, e⟩ | ih
      · left
        refine ⟨?_, e⟩
        rintro k w ⟨ls, hk⟩
        by_cases hki : k = i
        · subst hki; simp at hk
        · simp only [Function.update_of_ne hki] at hk; exact ih k w ⟨ls, hk⟩
      · right; intro j c hc
        rcases ih j c hc with h | h
        · exact .inl h
        · exact .inr (keep h)
    | piece i w a b ls hi =>
      rcases ih with ⟨ih, -⟩ | ih
      · exact absurd ⟨_, hi⟩ (ih i w)
      · right
        intro j c hc
        simp only [writeAt_getElem?] at hc
        split at hc
        · split at hc
          · rcases ih j c hc with h | h
            · exact .inl h
            · exact .inr (keep h)
          · left; exact (Option.some.inj hc).symm
        · split at hc
          · right
            refine ⟨i, w ++ a, ⟨_, Function.update_self ..⟩, ?_⟩
            rw [List.getElem?_append_right (by omega), hc]
          · rcases ih j c hc with h | h
            · exact .inl h
            · exact .inr (keep h)
    | next i w l ls hi =>
      rcases ih with ⟨ih, -⟩ | ih
      · exact absurd ⟨_, hi⟩ (ih i w)
      · right; intro j c hc
        rcases ih j c hc with h | h
        · exact .inl h
        · exact .inr (keep h)

/-- What has been taken: whole beginnings of the lines done with, and a beginning of the line at hand. -/
theorem cut_pieces {old : List Char} {s : CutSavers ι} (h : CutInterleaved lines (cutSavers old) s) {i : ι} {w : List Char}
    {todo : List (List Char)} (hw : s.proc i = .writing w todo) :
    ∃ (ps done : List (List Char)), List.Forall₂ (· <+: ·) ps done ∧
      ((lines i = done ++ todo ∧ w = ps.flatten) ∨
       ∃ a b r, todo = b :: r ∧ lines i = done ++ (a ++ b) :: r ∧ w = ps.flatten ++ a) := by
  induction h generalizing w todo with
  | refl => cases hw
  | @tail u v hs st ih =>
    cases st with
    | create k hk =>
      by_cases hi : i = k
      · subst hi
        simp only [Function.update_self] at hw; cases hw
        exact ⟨[], [], .nil, .inl ⟨rfl, rfl⟩⟩
      · simp only [Function.update_of_ne hi] at hw; exact ih hw
    | refuse k hk =>
      by_cases hi : i = k
      · subst hi; simp at hw
      · simp only [Function.update_of_ne hi] at hw; exact ih hw
    | piece k v a b r hk =>
      by_cases hi : i = k
      · subst hi
        simp only [Function.update_self] at hw; cases hw
        obtain ⟨ps, done, hf, ⟨e1, e2⟩ | ⟨a', b', r', e0, e1, e2⟩⟩ := ih hk
        · exact ⟨ps, done, hf, .inr ⟨a, b, r, rfl, e1, by rw [e2]⟩⟩
        · cases e0
          exact ⟨ps, done, hf, .inr ⟨a' ++ a, b, r, rfl, by rw [e1, List.append_assoc], by rw [e2, List.append_assoc]⟩⟩
      · simp only [Function.update_of_ne hi] at hw; exact ih hw
    | next k v l r hk =>
      by_cases hi : i = k
      · subst hi
        simp only [Function.update_self] at hw; cases hw
        obtain ⟨ps, done, hf, ⟨e1, e2⟩ | ⟨a', b', r', e0, e1, e2⟩⟩ := ih hk
        · refine ⟨ps ++ [[]], done ++ [l], List.rel_append hf (.cons List.nil_prefix .nil), .inl ⟨by simp [e1], by simp [e2]⟩⟩
        · cases e0
          exact ⟨ps ++ [a'], done ++ [a' ++ l], List.rel_append hf (.cons (List.prefix_append _ _) .nil),
            .inl ⟨by simp [e1], by simp [e2]⟩⟩
      · simp only [Function.update_of_ne hi] at hw; exact ih hw

/-- As long as only beginnings of the text `t` have been taken of all processes, the file is no longer than `t`. -/
theorem cut_same {t old : List Char} {s : CutSavers ι} (h : CutInterleaved lines (cutSavers old) s)
    (ht : ∀ i w, TakenOf s i w → w <+: t) :
    (∀ i w, ¬ TakenOf s i w) ∨ (s.file.length ≤ t.length ∧
      ∃ i w, TakenOf s i w ∧ w.length ≤ s.file.length ∧ ∀ j < w.length, s.file[j]? = t[j]?) := by
  induction h with
  | refl => left; rintro i w ⟨ls, h⟩; cases h
  | @tail u v hs st ih =>
    have ih := ih fun i w hw => by
      obtain ⟨w', h1, h2⟩ := cut_grows st hw
      exact h2.trans (ht i w' h1)
    cases st with
    | create i hi => exact .inr ⟨by simp, i, [], ⟨_, Function.update_self ..⟩, by simp, by simp⟩
    | refuse i hi =>
      have same : ∀ k w, TakenOf (⟨u.file, Function.update u.proc i .refused⟩ : CutSavers ι) k w ↔ TakenOf u k w := by
        intro k w
        unfold TakenOf
        by_cases hk : k = i
        · subst hk; simp [hi]
        · simp only [Function.update_of_ne hk]
      simpa only [same] using ih
    | next i w l ls hi =>
      have same : ∀ k w', TakenOf (⟨u.file, Function.update u.proc i (.writing w ls)⟩ : CutSavers ι) k w' ↔ TakenOf u k w' := by
        intro k w'
        unfold TakenOf
        by_cases hk : k = i
        · subst hk; simp [hi]
        · simp only [Function.update_of_ne hk]
      simpa only [same] using ih
    | piece i w a b ls hi =>
      right
      rcases ih with ih | ⟨ihl, k, m, hk, hm, heq⟩
      · exact absurd ⟨_, hi⟩ (ih i w)
      · obtain ⟨r, hr⟩ := ht i (w ++ a) ⟨_, Function.update_self ..⟩
        have hlen := congrArg List.length hr
        simp only [List.length_append] at hlen
        have h1 : ∀ j, w.length ≤ j → j < w.length + a.length → a[j - w.length]? = t[j]? := by
          intro j h1 h2
          rw [← hr, List.getElem?_append_left (by rw [List.length_append]; omega), List.getElem?_append_right h1]
        have agree : ∀ j < m.length, (writeAt u.file w.length a)[j]? = t[j]? := by
          intro j hj
          rw [writeAt_getElem?]
          split
          · rw [if_pos (by omega), heq j hj]
          · split
            · exact h1 j (by omega) (by omega)
            · exact heq j hj
        refine ⟨by simp only [writeAt_length]; omega, ?_⟩
        by_cases hki : k = i
        · subst hki
          obtain ⟨ls', hk⟩ := hk
          rw [hi] at hk; cases hk
          refine ⟨k, w ++ a, ⟨_, Function.update_self ..⟩, by simp only [writeAt_length, List.length_append]; omega,
            fun j hj => ?_⟩
          rw [List.length_append] at hj
          by_cases hjm : j < w.length
          · exact agree j hjm
          · simp only [writeAt_getElem?, if_neg hjm, if_pos hj]
            exact h1 j (by omega) hj
        · obtain ⟨ls', hk⟩ := hk
          exact ⟨k, m, ⟨ls', by simp only [Function.update_of_ne hki, hk]⟩, by simp only [writeAt_length]; omega, agree⟩

end

variable {S : FloatSem} {pick : ℚ → Nat × ℤ} {eprec : ℤ}

/-- Beginnings of the lines are what a single save with some failing writes leaves. -/
theorem cut_writeLoop (cs : List Candle) (ps : List (List Char)) (h : List.Forall₂ (· <+: ·) ps (candleLines pick eprec cs))
    (i : Nat) : ∃ accept : Nat → Nat, writeLoop pick eprec accept i cs = ps.flatten := by
  induction cs generalizing ps i with
  | nil => cases h; exact ⟨fun _ => 0, rfl⟩
  | cons c cs ih =>
    simp only [candleLines, List.map_cons] at h
    cases h with
    | @cons p _ ps _ h1 h2 =>
      obtain ⟨accept, e⟩ := ih ps h2 (i + 1)
      refine ⟨fun k => if k = i then p.length else accept k, ?_⟩
      have later : ∀ (cs : List Candle) (k : Nat), i < k →
          writeLoop pick eprec (fun k => if k = i then p.length else accept k) k cs = writeLoop pick eprec accept k cs := by
        intro cs
        induction cs with
        | nil => intros; rfl
        | cons c cs ih => intro k hk; simp only [writeLoop, if_neg (show k ≠ i by omega), ih (k + 1) (by omega)]
      simp only [writeLoop, if_pos, later cs (i + 1) (by omega), e, List.flatten_cons]
      rw [← List.prefix_iff_eq_take.1 h1]

/-- **C221.** What the system takes of a process that returns is what `SaveCandlesToFile` alone leaves in the file when some
of its writes fail, whatever the other processes do. -/
theorem C221_taken {ι : Type} [DecidableEq ι] (old : List Char) (cs : ι → List Candle) {s : CutSavers ι}
    (h : CutInterleaved (fun k => candleLines pick eprec (cs k)) (cutSavers old) s) {i : ι} {w : List Char}
    (hw : s.proc i = .writing w []) :
    ∃ accept : Nat → Nat, ∀ before, saveCandles pick eprec true accept before (cs i) = (.ok (), some w) := by
  obtain ⟨ps, done, hf, ⟨e1, e2⟩ | ⟨a, b, r, e0, -, -⟩⟩ := cut_pieces h hw
  · rw [List.append_nil] at e1
    subst e1
    obtain ⟨accept, e⟩ := cut_writeLoop (cs i) ps hf 0
    exact ⟨accept, fun before => by simp only [saveCandles, if_true, e, e2]⟩
  · cases e0

/-- **C221.** If process `i` calls `os.Create` when all the others have returned, the file is in the end what
`SaveCandlesToFile` alone makes of it, refused or with some of its writes failing; the pieces in which lines are written
are of no account. -/
theorem C221_last_alone {ι : Type} [DecidableEq ι] (old : List Char) (cs : ι → List Candle) (i : ι) {s t : CutSavers ι}
    (h : CutInterleaved (fun k => candleLines pick eprec (cs k)) (cutSavers old) s) (hi : s.proc i = .waiting)
    (ho : ∀ k ≠ i, Returned s k) (h' : CutInterleaved (fun k => candleLines pick eprec (cs k)) s t)
    (hd : ∀ k, Returned t k) :
    (t.proc i = .refused ∧ t.file = s.file) ∨
    ∃ (w : List Char) (accept : Nat → Nat), t.proc i = .writing w [] ∧
      saveCandles pick eprec true accept (some s.file) (cs i) = (.ok (), some w) ∧ t.file = w := by
  have key : (∀ k ≠ i, Returned t k) ∧ ((t.proc i = .waiting ∧ t.file = s.file) ∨ (t.proc i = .refused ∧ t.file = s.file) ∨
      ∃ w ls, t.proc i = .writing w ls ∧ t.file = w) := by
    clear hd
    induction h' with
    | refl => exact ⟨ho, .inl ⟨hi, rfl⟩⟩
    | @tail u _ hs st ih =>
      obtain ⟨ih1, ih2⟩ := ih
      have other : ∀ {k x file'}, k = i → ∀ j ≠ i, Returned (⟨file', Function.update u.proc k x⟩ : CutSavers ι) j := by
        rintro k x file' rfl j hj
        unfold Returned
        simp only [Function.update_of_ne hj]; exact ih1 j hj
      cases st with
      | create k hk =>
        have e : k = i := by
          by_contra hne
          rcases ih1 k hne with h | ⟨w, h⟩ <;> rw [hk] at h <;> cases h
        exact ⟨other e, .inr (.inr ⟨[], _, by simp only [e, Function.update_self]; rfl, rfl⟩)⟩
      | refuse k hk =>
        have e : k = i := by
          by_contra hne
          rcases ih1 k hne with h | ⟨w, h⟩ <;> rw [hk] at h <;> cases h
        refine ⟨other e, .inr (.inl ⟨by simp only [e, Function.update_self], ?_⟩)⟩
        subst e
        rcases ih2 with h | h | ⟨w, ls, h, -⟩
        · exact h.2
        · exact h.2
        · rw [hk] at h; cases h
      | piece k w a b r hk =>
        have e : k = i := by
          by_contra hne
          rcases ih1 k hne with h | ⟨w, h⟩ <;> rw [hk] at h <;> cases h
        refine ⟨other e, .inr (.inr ⟨w ++ a, _, by simp only [e, Function.update_self]; rfl, ?_⟩)⟩
        subst e
        rcases ih2 with h | h | ⟨w', ls, h, hf⟩
        · rw [hk] at h; cases h.1
        · rw [hk] at h; cases h.1
        · rw [hk] at h; cases h
          simp [hf, writeAt]
      | next k w l r hk =>
        have e : k = i := by
          by_contra hne
          rcases ih1 k hne with h | ⟨w, h⟩
          · rw [hk] at h; cases h
          · rw [hk] at h; cases h
        refine ⟨other e, .inr (.inr ⟨w, _, by simp only [e, Function.update_self]; rfl, ?_⟩)⟩
        subst e
        rcases ih2 with h | h | ⟨w', ls, h, hf⟩
        · rw [hk] at h; cases h.1
        · rw [hk] at h; cases h.1
        · rw [hk] at h; cases h; exact hf
  rcases key.2 with h0 | h0 | ⟨w, ls, hw, hf⟩
  · rcases hd i with h1 | ⟨w, h1⟩ <;> rw [h0.1] at h1 <;> cases h1
  · exact .inl h0
  · right
    rcases hd i with h1 | ⟨w', h1⟩
    · rw [hw] at h1; cases h1
    · rw [hw] at h1; cases h1
      obtain ⟨accept, e⟩ := C221_taken old cs (h.trans h') hw
      exact ⟨w, accept, hw, e _, hf⟩

/-- **C221.** Processes save the same candles to the same file, in whatever pieces: if every one of them was refused or
wrote all its lines, and not all were refused, the file is the one a single save writes. -/
theorem C221_same_candles {ι : Type} [DecidableEq ι] (old : List Char) (cs : List Candle) {s : CutSavers ι}
    (h : CutInterleaved (fun _ => candleLines pick eprec cs) (cutSavers old) s)
    (hd : ∀ i, s.proc i = .refused ∨ s.proc i = .writing (candleText pick eprec cs) [])
    (h1 : ∃ i, s.proc i ≠ .refused) : s.file = candleText pick eprec cs := by
  have full : ∀ i w, TakenOf s i w → w = candleText pick eprec cs := by
    rintro i w ⟨ls, hw⟩
    rcases hd i with h | h <;> rw [hw] at h <;> cases h
    rfl
  rcases cut_same (t := candleText pick eprec cs) h (fun i w hw => by rw [full i w hw]) with h0 | ⟨hl, i, w, hw, hn, heq⟩
  · obtain ⟨i, hi⟩ := h1
    exact absurd ⟨_, (hd i).resolve_left hi⟩ (h0 i _)
  · rw [full i w hw] at hn heq
    apply List.ext_getElem?
    intro j
    by_cases hj : j < (candleText pick eprec cs).length
    · exact heq j hj
    · rw [List.getElem?_eq_none (by omega), List.getElem?_eq_none (by omega)]

/-- **C221.** Processes save the same candles to the same file and stop at their first failing write, as when the disk is
full: the file is never longer than the one a single save writes. -/
theorem C221_full_disk {ι : Type} [DecidableEq ι] (old : List Char) (cs : List Candle) {s : CutSavers ι}
    (h : CutInterleaved (fun _ => candleLines pick eprec cs) (cutSavers old) s)
    (hd : ∀ i w, TakenOf s i w → w <+: candleText pick eprec cs) (h1 : ∃ i w, TakenOf s i w) :
    s.file.length ≤ (candleText pick eprec cs).length ∧
    ∀ (j : Nat) (c : Char), s.file[j]? = some c → c = '\x00' ∨ (candleText pick eprec cs)[j]? = some c := by
  rcases cut_same (t := candleText pick eprec cs) h hd with h0 | ⟨hl, -⟩
  · obtain ⟨i, w, hw⟩ := h1
    exact absurd hw (h0 i w)
  · refine ⟨hl, fun j c hc => ?_⟩
    rcases C221_bytes h with ⟨h0, -⟩ | h0
    · obtain ⟨i, w, hw⟩ := h1
      exact absurd hw (h0 i w)
    · rcases h0 j c hc with h | ⟨i, w, hw, e⟩
      · exact .inl h
      · obtain ⟨r, hr⟩ := hd i w hw
        right
        rw [← hr, List.getElem?_append_left (List.getElem?_eq_some_iff.1 e).1, e]

/-- **C221.** A process that goes on after a failing write can spoil the file of a process that created it later and wrote
everything: both save the candles of the two lines `twoLines true`, nothing of the first line of one process is taken,
the other creates the file last and writes everything, and a load returns the second candle twice, without an error. -/
theorem C221_spoiled : ∃ s, CutInterleaved (fun _ : Bool => twoLines true) (cutSavers []) s ∧ (∀ i, Returned s i) ∧
    s.proc false = .writing (twoLines true).flatten [] ∧
    loadCandles ieee (some (twoLines true).flatten) =
      .ok [⟨1, .fin 1, .fin 1, .fin 1, .fin 1, .fin 12⟩, ⟨2, .fin 1, .fin 1, .fin 1, .fin 1, .fin 12⟩] ∧
    loadCandles ieee (some s.file) =
      .ok [⟨2, .fin 1, .fin 1, .fin 1, .fin 1, .fin 12⟩, ⟨2, .fin 1, .fin 1, .fin 1, .fin 1, .fin 12⟩] := by
  refine ⟨_, (((((((((Relation.ReflTransGen.refl.tail (.create _ true rfl)).tail (.create _ false rfl)).tail
    (.piece _ false [] "{1 1 1 1 1 12}\n".toList [] ["{2 1 1 1 1 12}\n".toList] rfl)).tail
    (.next _ false _ [] _ rfl)).tail
    (.piece _ false _ "{2 1 1 1 1 12}\n".toList [] [] rfl)).tail
    (.next _ false _ [] _ rfl)).tail
    (.next _ true [] "{1 1 1 1 1 12}\n".toList ["{2 1 1 1 1 12}\n".toList] rfl)).tail
    (.piece _ true [] "{2 1 1 1 1 12}\n".toList [] [] rfl)).tail
    (.next _ true _ [] _ rfl)), ?_, rfl, by decide +kernel, ?_⟩
  · intro i; cases i <;> exact .inr ⟨_, rfl⟩
  · decide +kernel

/-- Two processes save the same candles in pieces, one coming in the middle of the other's line: the file is the one a single save writes. -/
example : ∃ s, CutInterleaved (fun _ : Bool => ["{1 1 1 1 1 12}\n".toList]) (cutSavers ['o', 'l', 'd']) s ∧
    (∀ i, s.proc i = .writing "{1 1 1 1 1 12}\n".toList []) ∧ s.file = "{1 1 1 1 1 12}\n".toList := by
  refine ⟨_, (((((((Relation.ReflTransGen.refl.tail (.create _ true rfl)).tail
    (.piece _ true [] "{1 1 ".toList "1 1 1 12}\n".toList [] rfl)).tail (.create _ false rfl)).tail
    (.piece _ false [] "{1 1 1 1 1 12}\n".toList [] [] rfl)).tail (.next _ false _ [] _ rfl)).tail
    (.piece _ true "{1 1 ".toList "1 1 1 12}\n".toList [] [] rfl)).tail (.next _ true _ [] _ rfl)), ?_, ?_⟩
  · intro i; cases i <;> rfl
  · decide +kernel

/-- The disk is full in the middle of the only process' line: what a single save leaves when its write is cut. -/
example : ∃ s, CutInterleaved (fun _ : Unit => ["{1 1 1 1 1 12}\n".toList]) (cutSavers ['o', 'l', 'd']) s ∧
    (∀ i, Returned s i) ∧ s.file = "{1 1 ".toList := by
  refine ⟨_, ((Relation.ReflTransGen.refl.tail (.create _ () rfl)).tail
    (.piece _ () [] "{1 1 ".toList "1 1 1 12}\n".toList [] rfl)).tail (.next _ () _ _ _ rfl), ?_, ?_⟩
  · intro i; exact .inr ⟨_, rfl⟩
  · decide +kernel

end Finmod
