import Verif.Model.Strings

/-!
# C98: printing
-/

namespace Finmod
open Go

namespace Spec
/-- C98 as stated, for the two methods that can fail and for orders. -/
def C98_claim : Prop :=
  (∀ F (p : Position), p.string F ≠ .panic) ∧ (∀ F (b : Balance), b.string F ≠ .panic) ∧
  (∀ F (o : Order), o.string F ≠ .panic)
end Spec

/-- Some formatting functions. -/
def demoFmt : Fmt := ⟨fun _ _ => "1.00", fun _ => "1", fun _ => "7", fun _ => "t", fun _ => "u", fun _ => "true"⟩

/-- A position with a given ID. -/
def idPosition (id : String) : Position :=
  { id := id, type := "long", pair := ⟨⟨"Bitcoin", "BTC", ""⟩, ⟨"US Dollar", "USD", ""⟩⟩, opened := true,
    takeProfit := ⟨.fin 0, ""⟩, stopLoss := ⟨.fin 0, ""⟩, openPrice := .fin 1, closePrice := .fin 0,
    quantity := .fin 1, profit := .fin 0, openTime := 0, closeTime := 0, trades := [], executionID := "",
    data := "" }

/-- C98 is false of the code: a position with a short ID, e.g. the zero value, cannot be
printed. -/
theorem C98_position_string_panics_violated : ¬ Spec.C98_claim := by
  intro h
  exact h.1 demoFmt (idPosition "p1") (by decide +kernel)

/-- It is false for balances too: one without an asset cannot be printed. -/
theorem C98_balance_string_panics_violated : ¬ ∀ F (b : Balance), b.string F ≠ .panic := by
  intro h
  exact h demoFmt ⟨none, .fin 1⟩ rfl

/-- What holds: a position prints iff its ID has at least 8 bytes and then begins with the first 8
of them; a balance prints iff it has an asset. -/
theorem C98_prints_iff_partial (F : Fmt) :
    (∀ p : Position, p.string F = .panic ↔ p.id.utf8ByteSize < 8) ∧
    (∀ p : Position, 8 ≤ p.id.utf8ByteSize →
      ∃ rest, p.string F = .ok (bytes "ID: " ++ (bytes p.id).take 8 ++ rest)) ∧
    (∀ b : Balance, b.string F = .panic ↔ b.asset = none) := by
  have hlen : ∀ s : String, (bytes s).length = s.utf8ByteSize := fun s => by
    simp [bytes]
  refine ⟨fun p => ?_, fun p hp => ?_, fun b => ?_⟩
  · rw [← hlen]
    unfold Position.string
    split_ifs with h <;> simp [h]
  · rw [← hlen] at hp
    unfold Position.string
    rw [if_neg (by omega)]
    exact ⟨_, rfl⟩
  · cases h : b.asset <;> simp [Balance.string, h]

/-- The other types always print. -/
theorem C98_others_print_partial (F : Fmt) :
    (∀ o : Order, o.string F ≠ .panic) ∧ (∀ t : Trade, t.string F ≠ .panic) ∧
    (∀ r : OrderRequest, r.string F ≠ .panic) ∧ (∀ c : Candle, c.string F ≠ .panic) ∧
    (∀ t : Ticker, t.string F ≠ .panic) ∧ (∀ b : BalanceSnapshot, b.string F ≠ .panic) ∧
    (∀ a : AssetsSnapshot, a.string F ≠ .panic) ∧ (∀ c : PositionCloseOrder, c.string F ≠ .panic) ∧
    (∀ r : Row, r.string F ≠ .panic) ∧ (∀ b : Book, b.string F ≠ .panic) ∧
    (∀ l : List Annotation, annotationsString F l ≠ .panic) ∧ (∀ w : WilliamFractal, w.string F ≠ .panic) := by
  refine ⟨?_, ?_, ?_, ?_, ?_, ?_, ?_, ?_, ?_, ?_, ?_, ?_⟩ <;> intro x h <;> cases h

/-- Positions made by `NewPosition` print: xid strings have 20 bytes. -/
theorem C98_new_position_prints_partial (F : Fmt) (id : String) (hid : id.utf8ByteSize = 20) (z : Int)
    (t : Trade) : (newPosition id z t).string F ≠ .panic := by
  rw [ne_eq, (C98_prints_iff_partial F).1]
  simp only [newPosition]
  omega

example : ("c9k3s2b8f1j0d7h5g6a4" : String).utf8ByteSize = 20 ∧
    (idPosition "c9k3s2b8f1j0d7h5g6a4").string demoFmt ≠ .panic ∧
    (idPosition "").string demoFmt = .panic := by decide +kernel

end Finmod
