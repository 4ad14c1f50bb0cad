import Verif.Props.PrintedOrder

/-!
# C290: what the texts of balances and close orders tell
-/

namespace Finmod
open Go Spec

/-- The words of a balance do not run into the labels. -/
def Spec.PlainBalance (a : Asset) : Prop := ':' ∉ a.name.toList ∧ '\n' ∉ a.symbol.toList

/-- **C290.** Two balances with the same `String` are of assets with the same name and symbol, and their amounts differ by at most 0.000001. -/
theorem C290_balance {pick : ℚ → Nat × ℤ} {eprec : ℤ} {time unixTime : Int → String} {a a' : Asset} {x x' : Fl}
    (h : PlainBalance a) (h' : PlainBalance a')
    (e : (⟨some a, x⟩ : Balance).string (Fmt.go pick eprec time unixTime) = (⟨some a', x'⟩ : Balance).string (Fmt.go pick eprec time unixTime)) :
    a.name = a'.name ∧ a.symbol = a'.symbol ∧ WithinUnit (1 / 10 ^ 6) x x' := by
  have e := congrArg String.toList (bytes_injective (Res.ok.inj e))
  simp only [Asset.string, String.toList_append, List.append_assoc, Fmt.go, String.toList_ofList] at e
  have e := List.append_cancel_left e
  have l1 : ": ".toList = ':' :: [' '] := by decide +kernel
  have l2 : "\n".toList = ['\n'] := by decide +kernel
  rw [l1, l2] at e
  have hnl : ∀ k x, '\n' ∉ fmtFixed k x := fun k x hm => (numeral_fmtFixed k x _ hm).ne (d := '\n') (by decide) rfl
  simp only [List.cons_append, List.nil_append] at e
  obtain ⟨e1, e⟩ := sep_split h.1 h'.1 e
  obtain ⟨e2, e⟩ := sep_split h.2 h'.2 (List.cons.inj e).2
  have e := List.append_cancel_left e
  obtain ⟨e3, -⟩ := sep_split (hnl _ _) (hnl _ _) e
  exact ⟨String.toList_injective e1, String.toList_injective e2, C175_close (by norm_num) e3⟩

/-- **C290.** Two close orders with the same `String` have the same order ID, and prices that differ by at most 0.000001. -/
theorem C290_close {pick : ℚ → Nat × ℤ} {eprec : ℤ} {time unixTime : Int → String} {o o' : PositionCloseOrder}
    (e : o.string (Fmt.go pick eprec time unixTime) = o'.string (Fmt.go pick eprec time unixTime)) :
    o.orderID = o'.orderID ∧ WithinUnit (1 / 10 ^ 6) o.price o'.price := by
  have e := congrArg String.toList (bytes_injective (Res.ok.inj e))
  simp only [String.toList_append, List.append_assoc, Fmt.go, String.toList_ofList] at e
  have e := List.append_cancel_left e
  have l1 : ", OrderID: ".toList = ',' :: " OrderID: ".toList := by decide +kernel
  rw [l1] at e
  have hc : ∀ k x, ',' ∉ fmtFixed k x := fun k x hm => (numeral_fmtFixed k x _ hm).ne (d := ',') (by decide) rfl
  simp only [List.cons_append] at e
  obtain ⟨e1, e⟩ := sep_split (hc _ _) (hc _ _) e
  have e := List.append_cancel_left e
  exact ⟨String.toList_injective (List.append_cancel_right e), C175_close (by norm_num) e1⟩

/-- Values in brackets, each of which begins with `{` and can be told from what follows it. -/
theorem bracket_cut {α : Type} {f : α → String} {R : α → α → Prop} {P : α → Prop} (hd : ∀ r, ∃ t, (f r).toList = '{' :: t)
    (hs : ∀ r r' x y, P r → P r' → (f r).toList ++ x = (f r').toList ++ y → R r r' ∧ x = y) (l l' : List α)
    (h : ∀ r ∈ l, P r) (h' : ∀ r ∈ l', P r) {x y : List Char}
    (e : (spaced (l.map f)).toList ++ ']' :: x = (spaced (l'.map f)).toList ++ ']' :: y) : List.Forall₂ R l l' ∧ x = y := by
  have hd' : ∀ (r : α) (l : List α), ∃ t, (spaced ((r :: l).map f)).toList = '{' :: t := by
    intro r l
    obtain ⟨t, ht⟩ := hd r
    cases l with
    | nil => exact ⟨t, by simpa [spaced] using ht⟩
    | cons r' l => exact ⟨_, by simp only [List.map_cons, spaced, String.toList_append, ht, List.cons_append]; rfl⟩
  induction l generalizing l' with
  | nil =>
    cases l' with
    | nil => exact ⟨.nil, by simpa using e⟩
    | cons r' l' =>
      obtain ⟨t, ht⟩ := hd' r' l'
      rw [ht] at e
      simp [spaced] at e
  | cons r l ih =>
    cases l' with
    | nil =>
      obtain ⟨t, ht⟩ := hd' r l
      rw [ht] at e
      simp [spaced] at e
    | cons r' l' =>
      have hr := h r (by simp)
      have hr' := h' r' (by simp)
      cases l with
      | nil =>
        cases l' with
        | nil =>
          simp only [List.map_cons, List.map_nil, spaced] at e
          obtain ⟨a, e'⟩ := hs _ _ _ _ hr hr' e
          exact ⟨.cons a .nil, by simpa using e'⟩
        | cons r2 l' =>
          simp only [List.map_cons, List.map_nil, spaced, String.toList_append, List.append_assoc] at e
          obtain ⟨a, e'⟩ := hs _ _ _ _ hr hr' e
          simp at e'
      | cons r1 l =>
        cases l' with
        | nil =>
          simp only [List.map_cons, List.map_nil, spaced, String.toList_append, List.append_assoc] at e
          obtain ⟨a, e'⟩ := hs _ _ _ _ hr hr' e
          simp at e'
        | cons r2 l' =>
          simp only [List.map_cons, spaced, String.toList_append, List.append_assoc] at e
          obtain ⟨a, e'⟩ := hs _ _ _ _ hr hr' e
          have e : (spaced ((r1 :: l).map f)).toList ++ ']' :: x = (spaced ((r2 :: l').map f)).toList ++ ']' :: y := by
            simpa [spaced, String.toList_append] using e'
          obtain ⟨e1, e2⟩ := ih (r2 :: l') (fun r hr => h r (by simp [hr])) (fun r hr => h' r (by simp [hr])) e
          exact ⟨.cons a e1, e2⟩

/-- The same amount of an asset with the same name and symbol, or of no asset. -/
def Spec.SameBalance (b b' : Balance) : Prop :=
  (b.asset.map fun a => (a.name, a.symbol)) = (b'.asset.map fun a => (a.name, a.symbol)) ∧ b.amount = b'.amount

/-- The words of the asset do not run into what is around them, and the amount is a float64. -/
def Spec.PlainHolding (S : FloatSem) (b : Balance) : Prop :=
  (∀ a, b.asset = some a → PlainBalance a ∧ '<' ∉ a.name.toList) ∧ S.Rep b.amount

theorem balance_split {S : FloatSem} {pick : ℚ → Nat × ℤ} {eprec : ℤ} {time unixTime : Int → String} (hS : Lawful S) (hp : GoodPick S pick)
    (b b' : Balance) (x y : List Char) (h : PlainHolding S b) (h' : PlainHolding S b')
    (e : (b.fields (Fmt.go pick eprec time unixTime)).toList ++ x = (b'.fields (Fmt.go pick eprec time unixTime)).toList ++ y) :
    SameBalance b b' ∧ x = y := by
  obtain ⟨a, v⟩ := b
  obtain ⟨a', v'⟩ := b'
  have hbr : ∀ z, '}' ∉ fmtFloat pick eprec z := fun z hm => (numeral_fmtFloat pick eprec z _ hm).ne (d := '}') (by decide) rfl
  have l1 : "{".toList = ['{'] := by decide +kernel
  have l2 : "}".toList = ['}'] := by decide +kernel
  have l3 : " ".toList = [' '] := by decide +kernel
  have l4 : ": ".toList = [':', ' '] := by decide +kernel
  have l5 : "\n".toList = ['\n'] := by decide +kernel
  have l6 : "<nil>".toList = '<' :: "nil>".toList := by decide +kernel
  have amount : ∀ {x y : List Char}, fmtFloat pick eprec v ++ '}' :: x = fmtFloat pick eprec v' ++ '}' :: y → v = v' ∧ x = y := by
    intro x y e
    obtain ⟨e1, e⟩ := sep_split (hbr _) (hbr _) e
    exact ⟨fmtFloat_inj hS hp h.2 h'.2 e1, e⟩
  have nil_ne : ∀ {n x z : List Char}, '<' ∉ n → '<' :: z ≠ n ++ ':' :: x := by
    intro n x z hn e
    cases n with
    | nil => simp at e
    | cons c n => exact hn (List.mem_cons.2 (.inl (List.cons.inj e).1))
  cases a with
  | none =>
    cases a' with
    | none =>
      simp only [Balance.fields, Fmt.go, String.toList_append, List.append_assoc, l1, l2, l3, String.toList_ofList, List.cons_append,
        List.nil_append, List.cons.injEq, true_and] at e
      have e := List.append_cancel_left e
      simp only [List.cons.injEq, true_and] at e
      obtain ⟨e1, e⟩ := amount e
      exact ⟨⟨rfl, e1⟩, e⟩
    | some a' =>
      simp only [Balance.fields, Asset.string, Fmt.go, String.toList_append, List.append_assoc, l1, l2, l3, l4, l5, l6, String.toList_ofList,
        List.cons_append, List.nil_append, List.cons.injEq, true_and] at e
      exact absurd e (nil_ne (h'.1 a' rfl).2)
  | some a =>
    cases a' with
    | none =>
      simp only [Balance.fields, Asset.string, Fmt.go, String.toList_append, List.append_assoc, l1, l2, l3, l4, l5, l6, String.toList_ofList,
        List.cons_append, List.nil_append, List.cons.injEq, true_and] at e
      exact absurd e.symm (nil_ne (h.1 a rfl).2)
    | some a' =>
      simp only [Balance.fields, Asset.string, Fmt.go, String.toList_append, List.append_assoc, l1, l2, l3, l4, l5, String.toList_ofList,
        List.cons_append, List.nil_append, List.cons.injEq, true_and] at e
      obtain ⟨e1, e⟩ := sep_split (h.1 a rfl).1.1 (h'.1 a' rfl).1.1 e
      obtain ⟨e2, e⟩ := sep_split (h.1 a rfl).1.2 (h'.1 a' rfl).1.2 (List.cons.inj e).2
      obtain ⟨e3, e⟩ := amount (List.cons.inj e).2
      exact ⟨⟨by simp [String.toList_injective e1, String.toList_injective e2], e3⟩, e⟩

/-- **C290.** Two assets snapshots with the same `String` list the same amounts of the same assets in the same order, and their times differ by at
most 0.000001. -/
theorem C290_assets {S : FloatSem} {pick : ℚ → Nat × ℤ} {eprec : ℤ} {time unixTime : Int → String} (hS : Lawful S) (hp : GoodPick S pick)
    {a a' : AssetsSnapshot} (h : ∀ b ∈ a.assets, PlainHolding S b) (h' : ∀ b ∈ a'.assets, PlainHolding S b)
    (e : a.string (Fmt.go pick eprec time unixTime) = a'.string (Fmt.go pick eprec time unixTime)) :
    WithinUnit (1 / 10 ^ 6) a.time a'.time ∧ List.Forall₂ SameBalance a.assets a'.assets := by
  have e := congrArg String.toList (bytes_injective (Res.ok.inj e))
  simp only [String.toList_append, List.append_assoc, bracketed] at e
  have e := List.append_cancel_left e
  have c1 : ", Assets: ".toList = ',' :: " Assets: ".toList := by decide +kernel
  have c2 : "]".toList = [']'] := by decide +kernel
  rw [c1, c2] at e
  have hc : ∀ k x, ',' ∉ ((Fmt.go pick eprec time unixTime).f k x).toList := by
    intro k x hm
    simp only [Fmt.go, String.toList_ofList] at hm
    exact (numeral_fmtFixed k x _ hm).ne (d := ',') (by decide) rfl
  simp only [List.cons_append, List.nil_append] at e
  obtain ⟨e1, e⟩ := sep_split (hc _ _) (hc _ _) e
  have e := List.append_cancel_left (List.append_cancel_left e)
  obtain ⟨e2, -⟩ := bracket_cut (P := PlainHolding S) (fun b => ⟨_, by
      rw [Balance.fields, String.toList_append, String.toList_append, String.toList_append, String.toList_append,
        show "{".toList = ['{'] by decide +kernel]
      simp only [List.cons_append, List.nil_append, List.append_assoc]
      rfl⟩) (balance_split hS hp) _ _ h h' e
  refine ⟨C175_close (by norm_num) ?_, e2⟩
  simpa [Fmt.go] using e1

/-- Without the condition: two different assets with the same text. -/
example : (⟨some ⟨"A: B", "C", ""⟩, .fin 1⟩ : Balance).string (Fmt.go (shortest ieee) 21 (fun _ => "") fun _ => "") =
      (⟨some ⟨"A", "B: C", ""⟩, .fin 1⟩ : Balance).string (Fmt.go (shortest ieee) 21 (fun _ => "") fun _ => "") ∧
    PlainBalance ⟨"Bitcoin", "BTC", "XBT"⟩ ∧
    (⟨some ⟨"Bitcoin", "BTC", "XBT"⟩, .fin (3 / 2)⟩ : Balance).string (Fmt.go (shortest ieee) 21 (fun _ => "") fun _ => "") =
      .ok (bytes "Asset: Bitcoin: BTC\n, Amount: 1.500000\n") ∧
    (⟨.fin (3 / 2), "x"⟩ : PositionCloseOrder).string (Fmt.go (shortest ieee) 21 (fun _ => "") fun _ => "") =
      .ok (bytes "Price: 1.500000, OrderID: x\n") := by
  unfold PlainBalance
  decide +kernel

/-- A snapshot of two balances. -/
example : let a : AssetsSnapshot := ⟨.fin 5, [⟨some ⟨"Bitcoin", "BTC", "XBT"⟩, .fin (3 / 2)⟩, ⟨none, .fin 2⟩]⟩
    (∀ b ∈ a.assets, PlainHolding ieee b) ∧ a.string (Fmt.go (shortest ieee) 21 (fun _ => "") fun _ => "") =
      .ok (bytes "Time: 5.000000, Assets: [{Bitcoin: BTC\n 1.5} {<nil> 2}]\n") := by
  have hr : ∀ q : ℚ, ieee.rnd q = .fin q → ieee.Rep (.fin q) := by intro q h x hx; cases hx; exact h
  refine ⟨?_, by decide +kernel⟩
  intro b hb
  simp only [List.mem_cons, List.not_mem_nil, or_false] at hb
  rcases hb with rfl | rfl
  · refine ⟨?_, hr _ (by decide +kernel)⟩
    rintro a ⟨⟩
    unfold PlainBalance
    decide +kernel
  · exact ⟨by rintro a ⟨⟩, hr _ (by decide +kernel)⟩

end Finmod
