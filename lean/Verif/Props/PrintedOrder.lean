import Verif.Props.PrintedPosition

/-!
# C289: what the texts of orders and trades tell
-/

namespace Finmod
open Go Spec

/-- The words of an order do not run into the labels, and the zone can show its times. -/
structure Spec.PlainOrder (z : Zone) (o : Order) : Prop where
  id : '|' ∉ o.id.toList
  action : '|' ∉ o.action.toList
  type : '|' ∉ o.type.toList
  status : '|' ∉ o.status.toList
  pair : ∀ p, o.pair = some p → '|' ∉ p.base.symbol.toList ∧ '|' ∉ p.quote.symbol.toList ∧ '/' ∉ p.base.symbol.toList
  openTime : ZoneAt z o.openTime
  closeTime : ZoneAt z o.closeTime
  line : '\n' ∉ (z o.closeTime).2

/-- The symbols of an optional pair. -/
def Spec.symbols (p : Option Pair) : Option (String × String) := p.map fun p => (p.base.symbol, p.quote.symbol)

/-- **C289.** Two orders with the same `String` agree on ID, action, type, pair, status and times; their numbers differ by at most 0.0001. -/
theorem C289_order {pick : ℚ → Nat × ℤ} {eprec : ℤ} {unixTime : Int → String} {z : Zone} {o o' : Order}
    (h : PlainOrder z o) (h' : PlainOrder z o')
    (e : o.string (Fmt.go pick eprec z.text unixTime) = o'.string (Fmt.go pick eprec z.text unixTime)) :
    o.id = o'.id ∧ o.action = o'.action ∧ o.type = o'.type ∧ symbols o.pair = symbols o'.pair ∧
      WithinUnit (1 / 10 ^ 4) o.price o'.price ∧ WithinUnit (1 / 10 ^ 4) o.volume o'.volume ∧
      WithinUnit (1 / 10 ^ 4) o.executedVolume o'.executedVolume ∧ WithinUnit (1 / 10 ^ 4) o.fee o'.fee ∧
      WithinUnit (1 / 10 ^ 4) o.cost o'.cost ∧ o.status = o'.status ∧ o.openTime = o'.openTime ∧ o.closeTime = o'.closeTime := by
  obtain ⟨i1, i2, i3, i4, i5, ⟨o1, o2, o3, o4⟩, ⟨c1, c2, c3, c4⟩, i6⟩ := h
  obtain ⟨i1', i2', i3', i4', i5', ⟨o1', o2', o3', o4'⟩, ⟨c1', c2', c3', c4'⟩, i6'⟩ := h'
  have e := congrArg String.toList (bytes_injective (Res.ok.inj e))
  have hpair : ∀ q : Option Pair, (∀ p, q = some p → '|' ∉ p.base.symbol.toList ∧ '|' ∉ p.quote.symbol.toList ∧ '/' ∉ p.base.symbol.toList) →
      '|' ∉ (match q with | none => "" | some p => p.string : String).toList := by
    intro q hq
    cases q with
    | none => decide +kernel
    | some p =>
      obtain ⟨a, b, -⟩ := hq p rfl
      have l1 : '|' ∉ "/".toList := by decide +kernel
      have l2 : '|' ∉ "\n".toList := by decide +kernel
      simp only [Pair.string, String.toList_append, List.mem_append, not_or]
      exact ⟨⟨⟨a, l1⟩, b⟩, l2⟩
  simp only [String.toList_append, List.append_assoc, Fmt.go, Zone.text, String.toList_ofList] at e
  have e := List.append_cancel_left e
  have l1 : " | Action: ".toList = ' ' :: '|' :: " Action: ".toList := by decide +kernel
  have l2 : " | Type: ".toList = ' ' :: '|' :: " Type: ".toList := by decide +kernel
  have l3 : " | Pair: ".toList = ' ' :: '|' :: " Pair: ".toList := by decide +kernel
  have l4 : " | Price: ".toList = ' ' :: '|' :: " Price: ".toList := by decide +kernel
  have l5 : " | Volume: ".toList = ' ' :: '|' :: " Volume: ".toList := by decide +kernel
  have l6 : " | ExecVolume: ".toList = ' ' :: '|' :: " ExecVolume: ".toList := by decide +kernel
  have l7 : " | Fee: $".toList = ' ' :: '|' :: " Fee: $".toList := by decide +kernel
  have l8 : " | Cost: $".toList = ' ' :: '|' :: " Cost: $".toList := by decide +kernel
  have l9 : " | Status: ".toList = ' ' :: '|' :: " Status: ".toList := by decide +kernel
  have l10 : " | OT: ".toList = ' ' :: '|' :: " OT: ".toList := by decide +kernel
  have l11 : " | CT: ".toList = ' ' :: '|' :: " CT: ".toList := by decide +kernel
  have l12 : "\n".toList = ['\n'] := by decide +kernel
  rw [l1, l2, l3, l4, l5, l6, l7, l8, l9, l10, l11, l12] at e
  have hb : ∀ k x, '|' ∉ fmtFixed k x := fun k x hm => (numeral_fmtFixed k x _ hm).ne (d := '|') (by decide) rfl
  simp only [List.cons_append] at e
  obtain ⟨e1, e⟩ := bar_split i1 i1' e
  have e := List.append_cancel_left e
  obtain ⟨e2, e⟩ := bar_split i2 i2' e
  have e := List.append_cancel_left e
  obtain ⟨e3, e⟩ := bar_split i3 i3' e
  have e := List.append_cancel_left e
  obtain ⟨e4, e⟩ := bar_split (hpair _ i5) (hpair _ i5') e
  have e := List.append_cancel_left e
  obtain ⟨e5, e⟩ := bar_split (hb _ _) (hb _ _) e
  have e := List.append_cancel_left e
  obtain ⟨e6, e⟩ := bar_split (hb _ _) (hb _ _) e
  have e := List.append_cancel_left e
  obtain ⟨e7, e⟩ := bar_split (hb _ _) (hb _ _) e
  have e := List.append_cancel_left e
  obtain ⟨e8, e⟩ := bar_split (hb _ _) (hb _ _) e
  have e := List.append_cancel_left e
  obtain ⟨e9, e⟩ := bar_split (hb _ _) (hb _ _) e
  have e := List.append_cancel_left e
  obtain ⟨e10, e⟩ := bar_split i4 i4' e
  have e := List.append_cancel_left e
  obtain ⟨e11, e⟩ := bar_split (timeString_without (by decide) (by decide) o4) (timeString_without (by decide) (by decide) o4') e
  have e := List.append_cancel_left e
  obtain ⟨e12, -⟩ := sep_split (timeString_without (by decide) (by decide) i6) (timeString_without (by decide) (by decide) i6') e
  refine ⟨String.toList_injective e1, String.toList_injective e2, String.toList_injective e3, ?_, C175_close (by norm_num) e5,
    C175_close (by norm_num) e6, C175_close (by norm_num) e7, C175_close (by norm_num) e8, C175_close (by norm_num) e9,
    String.toList_injective e10, (C175_instant o1 o1' o2 o2' o3 o3' e11).1, (C175_instant c1 c1' c2 c2' c3 c3' e12).1⟩
  have e4 := String.toList_injective e4
  have hne : ∀ p : Pair, p.string ≠ "" := by
    intro p hp
    have := congrArg (fun s => s.toList.length) hp
    simp [Pair.string, String.toList_append] at this
  cases hq : o.pair with
  | none =>
    cases hq' : o'.pair with
    | none => rfl
    | some p' => rw [hq, hq'] at e4; exact absurd e4.symm (hne p')
  | some p =>
    cases hq' : o'.pair with
    | none => rw [hq, hq'] at e4; exact absurd e4 (hne p)
    | some p' =>
      rw [hq, hq'] at e4
      obtain ⟨a, b⟩ := C127_texts_identify.1 p p' (i5 p hq).2.2 (i5' p' hq').2.2 e4
      simp [symbols, a, b]

/-- Cutting at the last space. -/
theorem last_split {c : Char} {a b x y : List Char} (hx : c ∉ x) (hy : c ∉ y) (h : a ++ c :: x = b ++ c :: y) : a = b ∧ x = y := by
  have h' := congrArg List.reverse h
  simp only [List.reverse_append, List.reverse_cons, List.append_assoc, List.singleton_append] at h'
  obtain ⟨h1, h2⟩ := sep_split (by simpa using hx) (by simpa using hy) h'
  exact ⟨List.reverse_injective h2, List.reverse_injective h1⟩

/-- No `}` in the name and the symbols, no space in the symbols. -/
structure Spec.PlainAsset (a : Asset) : Prop where
  name : '}' ∉ a.name.toList
  symbol : '}' ∉ a.symbol.toList ∧ ' ' ∉ a.symbol.toList
  altSymbol : '}' ∉ a.altSymbol.toList ∧ ' ' ∉ a.altSymbol.toList

/-- The words of a trade do not run into the labels, and the zone can show its time (its abbreviation is without `c`). -/
structure Spec.PlainTrade (z : Zone) (t : Trade) : Prop where
  id : ' ' ∉ t.id.toList
  action : ' ' ∉ t.action.toList
  orderType : ' ' ∉ t.orderType.toList
  base : PlainAsset t.pair.base
  quote : PlainAsset t.pair.quote
  time : ZoneAt z t.executionTime
  zone : 'c' ∉ (z t.executionTime).2

theorem asset_inner {a b : Asset} (ha : PlainAsset a) (hb : PlainAsset b)
    (e : a.name.toList ++ (' ' :: (a.symbol.toList ++ ' ' :: a.altSymbol.toList)) =
      b.name.toList ++ (' ' :: (b.symbol.toList ++ ' ' :: b.altSymbol.toList))) : a = b := by
  have e' : (a.name.toList ++ ' ' :: a.symbol.toList) ++ ' ' :: a.altSymbol.toList =
      (b.name.toList ++ ' ' :: b.symbol.toList) ++ ' ' :: b.altSymbol.toList := by simpa using e
  obtain ⟨e1, e2⟩ := last_split ha.altSymbol.2 hb.altSymbol.2 e'
  obtain ⟨e3, e4⟩ := last_split ha.symbol.2 hb.symbol.2 e1
  have h1 := String.toList_injective e3
  have h2 := String.toList_injective e4
  have h3 := String.toList_injective e2
  cases a; cases b; simp_all

theorem pair_eq {p q : Pair} (h1 : p.base = q.base) (h2 : p.quote = q.quote) : p = q := by
  cases p; cases q; cases h1; cases h2; rfl

/-- **C289.** Two trades with the same `String` agree on ID, time, action, type and pair; prices, fees and costs differ by at most 0.01 and
quantities by at most 0.0001. -/
theorem C289_trade {pick : ℚ → Nat × ℤ} {eprec : ℤ} {unixTime : Int → String} {z : Zone} {t t' : Trade}
    (h : PlainTrade z t) (h' : PlainTrade z t')
    (e : t.string (Fmt.go pick eprec z.text unixTime) = t'.string (Fmt.go pick eprec z.text unixTime)) :
    t.id = t'.id ∧ t.executionTime = t'.executionTime ∧ t.action = t'.action ∧ t.orderType = t'.orderType ∧ t.pair = t'.pair ∧
      WithinUnit (1 / 10 ^ 2) t.price t'.price ∧ WithinUnit (1 / 10 ^ 4) t.quantity t'.quantity ∧
      WithinUnit (1 / 10 ^ 2) t.fee t'.fee ∧ WithinUnit (1 / 10 ^ 2) t.cost t'.cost := by
  obtain ⟨i1, i2, i3, b1, q1, ⟨o1, o2, o3, o4⟩, hz⟩ := h
  obtain ⟨i1', i2', i3', b1', q1', ⟨o1', o2', o3', o4'⟩, hz'⟩ := h'
  have e := congrArg String.toList (bytes_injective (Res.ok.inj e))
  simp only [Pair.fields, Asset.fields, String.toList_append, List.append_assoc, Fmt.go, Zone.text, String.toList_ofList] at e
  have e := List.append_cancel_left e
  have l1 : " Execution Time: ".toList = ' ' :: "Execution Time: ".toList := by decide +kernel
  have l2 : " Action: ".toList = ' ' :: 'A' :: 'c' :: "tion: ".toList := by decide +kernel
  have l3 : " Type: ".toList = ' ' :: "Type: ".toList := by decide +kernel
  have l4 : " Pair: ".toList = ' ' :: "Pair: ".toList := by decide +kernel
  have l5 : "{".toList = ['{'] := by decide +kernel
  have l6 : "}".toList = ['}'] := by decide +kernel
  have l7 : " ".toList = [' '] := by decide +kernel
  have l8 : " Quantity: ".toList = ' ' :: "Quantity: ".toList := by decide +kernel
  have l9 : " Fee: $".toList = ' ' :: "Fee: $".toList := by decide +kernel
  have l10 : " Cost: $".toList = ' ' :: "Cost: $".toList := by decide +kernel
  have l11 : "\n".toList = ['\n'] := by decide +kernel
  rw [l1, l2, l3, l4, l5, l6, l7, l8, l9, l10, l11] at e
  have hsp : ∀ k x, ' ' ∉ fmtFixed k x := fun k x hm => (numeral_fmtFixed k x _ hm).ne (d := ' ') (by decide) rfl
  have hnl : ∀ k x, '\n' ∉ fmtFixed k x := fun k x hm => (numeral_fmtFixed k x _ hm).ne (d := '\n') (by decide) rfl
  simp only [List.cons_append, List.nil_append] at e
  obtain ⟨e1, e⟩ := sep_split i1 i1' e
  have e := List.append_cancel_left e
  have two : ∀ {a b x y : List Char}, 'c' ∉ a → 'c' ∉ b →
      a ++ ' ' :: 'A' :: 'c' :: x = b ++ ' ' :: 'A' :: 'c' :: y → a = b ∧ x = y := by
    intro a b x y ha hb h
    have h' : (a ++ [' ', 'A']) ++ 'c' :: x = (b ++ [' ', 'A']) ++ 'c' :: y := by simpa using h
    obtain ⟨h1, h2⟩ := sep_split (by simp only [List.mem_append, not_or]; exact ⟨ha, by decide⟩)
      (by simp only [List.mem_append, not_or]; exact ⟨hb, by decide⟩) h'
    exact ⟨List.append_cancel_right h1, h2⟩
  obtain ⟨e2, e⟩ := two (timeString_without (by decide) (by decide) hz) (timeString_without (by decide) (by decide) hz') e
  have e := List.append_cancel_left e
  obtain ⟨e3, e⟩ := sep_split i2 i2' e
  have e := List.append_cancel_left e
  obtain ⟨e4, e⟩ := sep_split i3 i3' e
  have e := List.append_cancel_left e
  have hin : ∀ {a : Asset}, PlainAsset a → '}' ∉ a.name.toList ++ (' ' :: (a.symbol.toList ++ ' ' :: a.altSymbol.toList)) := by
    intro a ha hm
    simp only [List.mem_append, List.mem_cons] at hm
    rcases hm with h | h | h | h | h
    · exact ha.name h
    · revert h; decide
    · exact ha.symbol.1 h
    · revert h; decide
    · exact ha.altSymbol.1 h
  have assoc : ∀ (n s a x : List Char), n ++ ' ' :: (s ++ ' ' :: (a ++ '}' :: x)) = (n ++ (' ' :: (s ++ ' ' :: a))) ++ '}' :: x := by
    intro n s a x; simp
  simp only [assoc, List.cons.injEq, true_and] at e
  obtain ⟨e5, e⟩ := sep_split (hin b1) (hin b1') e
  simp only [List.cons.injEq, true_and] at e
  obtain ⟨e6, e⟩ := sep_split (hin q1) (hin q1') e
  simp only [List.cons.injEq, true_and] at e
  have e := List.append_cancel_left e
  obtain ⟨e7, e⟩ := sep_split (hsp _ _) (hsp _ _) e
  have e := List.append_cancel_left e
  obtain ⟨e8, e⟩ := sep_split (hsp _ _) (hsp _ _) e
  have e := List.append_cancel_left e
  obtain ⟨e9, e⟩ := sep_split (hsp _ _) (hsp _ _) e
  have e := List.append_cancel_left e
  obtain ⟨e10, -⟩ := sep_split (hnl _ _) (hnl _ _) e
  have hp : t.pair = t'.pair :=
    pair_eq (asset_inner b1 b1' e5) (asset_inner q1 q1' e6)
  exact ⟨String.toList_injective e1, (C175_instant o1 o1' o2 o2' o3 o3' e2).1, String.toList_injective e3, String.toList_injective e4, hp,
    C175_close (by norm_num) e7, C175_close (by norm_num) e8, C175_close (by norm_num) e9, C175_close (by norm_num) e10⟩

/-- An order and a trade, printed in UTC. -/
example : let z : Zone := fun _ => (0, "UTC".toList)
    let pair : Pair := ⟨⟨"Bitcoin", "BTC", "XBT"⟩, ⟨"US Dollar", "USD", ""⟩⟩
    let o : Order := ⟨"x", "buy", "limit", some pair, .fin 10, .fin 2, .fin 1, .fin 0, .fin 10, "open", 1592611200000000000,
      1592611260000000000, [], .fin 0, .fin 0, "", ""⟩
    let t : Trade := ⟨"a", 1592611200000000000, "buy", "limit", pair, .fin 10, .fin 2, .fin 1, .fin 21, ""⟩
    PlainOrder z o ∧ PlainTrade z t ∧ o.string (Fmt.go (shortest ieee) 21 z.text z.unixText) = .ok (bytes
      ("ID: x | Action: buy | Type: limit | Pair: BTC/USD\n | Price: 10.0000 | Volume: 2.0000 | ExecVolume: 1.0000 | Fee: $0.0000 | Cost: $10.0000" ++
        " | Status: open | OT: 2020-06-20 00:00:00 +0000 UTC | CT: 2020-06-20 00:01:00 +0000 UTC\n")) ∧
    t.string (Fmt.go (shortest ieee) 21 z.text z.unixText) = .ok (bytes
      ("ID: a Execution Time: 2020-06-20 00:00:00 +0000 UTC Action: buy Type: limit Pair: {{Bitcoin BTC XBT} {US Dollar USD }}" ++
        " Price: $10.00 Quantity: 2.0000 Fee: $1.00 Cost: $21.00\n")) := by
  have hz : ∀ ns : Int, ns = 1592611200000000000 ∨ ns = 1592611260000000000 → ZoneAt (fun _ => (0, "UTC".toList)) ns := by
    intro ns h
    refine ⟨show IsOffset 0 by unfold IsOffset; decide, ⟨0, rfl⟩, ?_, show '|' ∉ "UTC".toList by decide⟩
    show FourDigits 0 ns
    unfold FourDigits
    rw [midnight_first, midnight_last]
    unfold clock
    omega
  refine ⟨⟨by decide +kernel, by decide +kernel, by decide +kernel, by decide +kernel, ?_, hz _ (.inl rfl), hz _ (.inr rfl), by decide +kernel⟩,
    ⟨by decide +kernel, by decide +kernel, by decide +kernel, ⟨by decide +kernel, by decide +kernel, by decide +kernel⟩,
      ⟨by decide +kernel, by decide +kernel, by decide +kernel⟩, hz _ (.inl rfl), by decide +kernel⟩, by decide +kernel, by decide +kernel⟩
  rintro p ⟨⟩
  decide +kernel

end Finmod
