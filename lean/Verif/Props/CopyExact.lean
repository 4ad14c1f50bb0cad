import Verif.Props.HeapPosition
import Verif.Lemmas.Position

/-!
# C147: exactly when a copied position loses a trade from its log

C101 is false of the code: a copy shares the array of `Trades`. One trade on each is enough to see
exactly when that shows.
-/

namespace Finmod
open Go Go.Heap Spec

theorem hModify_accepts (S : FloatSem) (grow : Nat → Nat → Nat) (h : Heap String) (p : HPosition) (t : Trade)
    (ha : Accepts S p.rest t) :
    (hModify S grow h p t).1 = (h.append grow p.log [t.id]).1 ∧
      (hModify S grow h p t).2.log = (h.append grow p.log [t.id]).2 ∧
      (hModify S grow h p t).2.rest.trades = p.rest.trades ++ [t.id] := by
  rcases hModify_cases S grow h p t with ⟨_, _, _, e⟩ | ⟨e1, e2, e3, e4⟩
  · exact absurd ha (applied_log.1 e)
  · exact ⟨e1, e2, by rw [e3, e4]⟩

/-- **C147.** A position with a right log is copied, and then the original takes one trade and the
copy another, both accepted. The log of the copy is right. The log of the original is right if and
only if the array of `Trades` was full at the copy, or the two trades have the same ID; otherwise
its last entry is the other trade's ID. -/
theorem C147_original_log_iff (S : FloatSem) (grow : Nat → Nat → Nat) {h : Heap String} {p : HPosition}
    (hp : LogShows h p) (t1 t2 : Trade) (h1 : Accepts S p.rest t1) (h2 : Accepts S p.rest t2) :
    let r := hModifyTwo S grow h p p [(true, t1), (false, t2)]
    LogShows r.1 r.2.2 ∧
    (LogShows r.1 r.2.1 ↔ p.log.len = p.log.cap ∨ t1.id = t2.id) ∧
    (p.log.len ≠ p.log.cap → r.1.load r.2.1.log = p.rest.trades ++ [t2.id]) := by
  intro r
  by_cases hfull : p.log.len = p.log.cap
  · obtain ⟨a, b, -⟩ := C101_full_copy_partial S grow hp hfull [(true, t1), (false, t2)]
    exact ⟨b, ⟨fun _ => .inl hfull, fun _ => a⟩, fun hn => absurd hfull hn⟩
  · have hroom : p.log.len + 1 ≤ p.log.cap := by have := hp.1.1; omega
    have happ : ∀ (h : Heap String) (x : String), h.append grow p.log [x] =
        (h.store p.log.arr (p.log.off + p.log.len) [x], { p.log with len := p.log.len + 1 }) := by
      intro h x
      unfold Heap.append
      simp only [List.length_cons, List.length_nil]
      rw [if_pos hroom]
    obtain ⟨a1, a2, a3⟩ := hModify_accepts S grow h p t1 h1
    obtain ⟨b1, b2, b3⟩ := hModify_accepts S grow (hModify S grow h p t1).1 p t2 h2
    have e1 : r.1 = (hModify S grow (hModify S grow h p t1).1 p t2).1 := rfl
    have e2 : r.2.1 = (hModify S grow h p t1).2 := rfl
    have e3 : r.2.2 = (hModify S grow (hModify S grow h p t1).1 p t2).2 := rfl
    rw [happ] at a1 a2 b1 b2
    have hload : r.1.load { p.log with len := p.log.len + 1 } = p.rest.trades ++ [t2.id] := by
      rw [e1, b1, a1, ← hp.2]
      unfold load
      rw [List.range_succ, List.map_append]
      congr 1
      · apply List.map_congr_left
        intro i hi
        rw [List.mem_range] at hi
        simp only [store]
        rw [if_neg (by omega), if_neg (by omega)]
      · simp [store]
    have hnext : h.next ≤ r.1.next := by rw [e1, b1, a1]; exact le_refl _
    have hwf : WF r.1 { p.log with len := p.log.len + 1 } :=
      ⟨hroom, fun hc => lt_of_lt_of_le (hp.1.2 hc) hnext⟩
    refine ⟨?_, ?_, fun _ => ?_⟩
    · unfold LogShows
      rw [e3, b2, b3]
      exact ⟨hwf, hload⟩
    · unfold LogShows
      rw [e2, a2, a3]
      constructor
      · rintro ⟨-, h⟩
        rw [hload] at h
        right
        simpa using (List.append_cancel_left h).symm
      · rintro (h | h)
        · exact absurd h hfull
        · exact ⟨hwf, by rw [hload, h]⟩
    · rw [e2, a2]; exact hload

/-- A position with spare room in its log, and two accepted trades of different IDs. -/
example : ∃ (h : Heap String) (p : HPosition) (t1 t2 : Trade), LogShows h p ∧ p.log.len ≠ p.log.cap ∧
    Accepts ieee p.rest t1 ∧ Accepts ieee p.rest t2 ∧ t1.id ≠ t2.id := by
  let pr : Pair := ⟨⟨"", "", ""⟩, ⟨"", "", ""⟩⟩
  let t : String → Trade := fun i => ⟨i, 0, "buy", "", pr, .fin 1, .fin 1, .fin 0, .fin 1, ""⟩
  refine ⟨⟨fun _ i => if i = 0 then "a" else "", 1⟩, ⟨newPosition "" 0 (t "a"), ⟨0, 0, 1, 2⟩⟩, t "b", t "c",
    ⟨⟨by decide, fun _ => by decide⟩, by decide +kernel⟩, by decide, by decide +kernel, by decide +kernel, by decide⟩

end Finmod
