import Verif.Model.PrintPtr
import Verif.Props.Strings

/-!
# Pointers printed with `fmt`: C257
-/

namespace Finmod
open Go Spec

/-- The texts of a printed pointer whose `String` method cannot panic for values: `<nil>`, or what the method returns. -/
def Spec.PrintsAs {α : Type} (print : String → Ptr α → List UInt8) (string : α → Res (List UInt8)) : Prop :=
  ∀ verb, print verb none = bytes "<nil>" ∧ ∀ a, string a = .ok (print verb (some a))

theorem printsAs {α : Type} {stringN : Ptr α → Res (List UInt8)} {string : α → Res (List UInt8)} {cause : α → String}
    (h0 : stringN none = .panic) (h : ∀ a, stringN (some a) = string a) (hs : ∀ a, ∃ t, string a = .ok t) :
    PrintsAs (printPtr stringN cause) string := by
  intro verb
  refine ⟨by simp [printPtr, h0, catchPanic], fun a => ?_⟩
  obtain ⟨t, e⟩ := hs a
  simp [printPtr, h, e]

/-- **C257** Pointers to the values whose `String` cannot panic, whatever the text of a panic would be. -/
theorem C257_prints (F : Fmt) (w : String) :
    PrintsAs (printPtr assetStringN fun _ => w) (fun a => .ok (bytes a.string)) ∧
    PrintsAs (printPtr pairStringN fun _ => w) (fun p => .ok (bytes p.string)) ∧
    PrintsAs (printPtr (annotationStringN F) fun _ => w) (fun a => .ok (bytes (a.text F))) ∧
    PrintsAs (printPtr (annotationsStringN F) fun _ => w) (annotationsString F) ∧
    PrintsAs (printPtr (candleStringN F) fun _ => w) (·.string F) ∧
    PrintsAs (printPtr (tickerStringN F) fun _ => w) (·.string F) ∧
    PrintsAs (printPtr (tradeStringN F) fun _ => w) (·.string F) ∧
    PrintsAs (printPtr (orderStringN F) fun _ => w) (·.string F) ∧
    PrintsAs (printPtr (orderRequestStringN F) fun _ => w) (·.string F) ∧
    PrintsAs (printPtr (closeOrderStringN F) fun _ => w) (·.string F) ∧
    PrintsAs (printPtr (balanceSnapshotStringN F) fun _ => w) (·.string F) ∧
    PrintsAs (printPtr (assetsSnapshotStringN F) fun _ => w) (·.string F) ∧
    PrintsAs (printPtr (rowStringN F) fun _ => w) (·.string F) ∧
    PrintsAs (printPtr (bookStringN F) fun _ => w) (·.string F) ∧
    PrintsAs (printPtr (fractalStringN F) fun _ => w) (·.string F) := by
  refine ⟨?_, ?_, ?_, ?_, ?_, ?_, ?_, ?_, ?_, ?_, ?_, ?_, ?_, ?_, ?_⟩
  all_goals exact printsAs rfl (fun _ => rfl) fun _ => ⟨_, rfl⟩

theorem printPtr_ok {α : Type} {stringN : Ptr α → Res (List UInt8)} {cause : α → String} {verb : String} {a : α} {t : List UInt8}
    (h : stringN (some a) = .ok t) : printPtr stringN cause verb (some a) = t := by simp [printPtr, h]

theorem printPtr_panic {α : Type} {stringN : Ptr α → Res (List UInt8)} {cause : α → String} {verb : String} {a : α}
    (h : stringN (some a) = .panic) :
    printPtr stringN cause verb (some a) = bytes ("%!" ++ verb ++ "(PANIC=String method: " ++ cause a ++ ")") := by
  simp [printPtr, h, catchPanic]

theorem printPtr_nil {α : Type} {stringN : Ptr α → Res (List UInt8)} {cause : α → String} {verb : String}
    (h : stringN none = .panic) : printPtr stringN cause verb none = bytes "<nil>" := by
  simp [printPtr, h, catchPanic]

/-- **C257** A pointer to a position: what `String` returns if the ID has at least eight bytes; else the panic as text. -/
theorem C257_position (F : Fmt) (verb : String) :
    printPtr (positionStringN F) Position.stringCause verb none = bytes "<nil>" ∧
    (∀ p : Position, 8 ≤ p.id.utf8ByteSize →
      p.string F = .ok (printPtr (positionStringN F) Position.stringCause verb (some p))) ∧
    (∀ p : Position, p.id.utf8ByteSize < 8 →
      printPtr (positionStringN F) Position.stringCause verb (some p) =
        bytes ("%!" ++ verb ++ "(PANIC=String method: " ++ ("runtime error: slice bounds out of range [:8] with length " ++
          toString p.id.utf8ByteSize) ++ ")")) := by
  have hlen : ∀ s : String, (bytes s).length = s.utf8ByteSize := fun s => by simp [bytes]
  refine ⟨printPtr_nil rfl, fun p hp => ?_, fun p hp => ?_⟩
  · obtain ⟨rest, h⟩ := (C98_prints_iff_partial F).2.1 p hp
    rw [printPtr_ok (t := bytes "ID: " ++ (bytes p.id).take 8 ++ rest) (by exact h)]
    exact h
  · have h := ((C98_prints_iff_partial F).1 p).2 hp
    rw [printPtr_panic (by exact h)]
    have e : p.stringCause = "runtime error: slice bounds out of range [:8] with length " ++ toString p.id.utf8ByteSize := by
      unfold Position.stringCause sliceBounds
      rw [hlen]
      exact congrArg (· ++ toString p.id.utf8ByteSize)
        (show "runtime error: slice bounds out of range [:" ++ toString 8 ++ "] with length " =
          "runtime error: slice bounds out of range [:8] with length " by decide +kernel)
    rw [e]

/-- **C257** A pointer to a balance: what `String` returns if there is an asset; else the panic as text. -/
theorem C257_balance (F : Fmt) (verb : String) :
    printPtr (balanceStringN F) Balance.stringCause verb none = bytes "<nil>" ∧
    (∀ b : Balance, b.asset ≠ none →
      b.string F = .ok (printPtr (balanceStringN F) Balance.stringCause verb (some b))) ∧
    (∀ b : Balance, b.asset = none →
      printPtr (balanceStringN F) Balance.stringCause verb (some b) =
        bytes ("%!" ++ verb ++ "(PANIC=String method: " ++ "runtime error: invalid memory address or nil pointer dereference" ++
          ")")) := by
  refine ⟨printPtr_nil rfl, fun b hb => ?_, fun b hb => ?_⟩
  · cases hr : b.string F with
    | ok t => rw [printPtr_ok (by exact hr)]
    | err c t =>
      cases h : b.asset with
      | none => exact absurd h hb
      | some a => simp [Balance.string, h] at hr
    | panic => exact absurd (((C98_prints_iff_partial F).2.2 b).1 hr) hb
  · have h := ((C98_prints_iff_partial F).2.2 b).2 hb
    rw [printPtr_panic (by exact h)]
    rfl

/-- **Example for C257.** A position with the ID "p1", printed with `%v`. -/
example : printPtr (positionStringN demoFmt) Position.stringCause "v" (some (idPosition "p1")) =
    bytes "%!v(PANIC=String method: runtime error: slice bounds out of range [:8] with length 2)" := by decide +kernel

/-- **Example for C257.** A position that prints, a balance that does not. -/
example : 8 ≤ (idPosition "c9k3s2b8f1j0d7h5g6a4").id.utf8ByteSize ∧ (⟨none, .fin 1⟩ : Balance).asset = none := by decide +kernel

end Finmod
