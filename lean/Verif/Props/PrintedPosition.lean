import Verif.Props.PrintedTime
import Verif.Props.ErrorMessages

/-!
# C288: what the text of a position tells
-/

namespace Finmod
open Go Spec

/-- The zone shows a year of four digits and an offset in whole minutes below a day, and its abbreviation is without `l` and `#`
(abbreviations are capital letters, or a sign and digits). -/
def Spec.ShownAt (z : Zone) (ns : Int) : Prop :=
  IsOffset (z ns).1 ∧ Minutes (z ns).1 ∧ FourDigits (z ns).1 ns ∧ 'l' ∉ (z ns).2 ∧ '#' ∉ (z ns).2

/-- A position whose words do not run into the labels, and whose times the zone can show. -/
structure Spec.Printable (z : Zone) (p : Position) : Prop where
  id : 8 ≤ (bytes p.id).length
  type : ' ' ∉ p.type.toList
  base : '/' ∉ p.pair.base.symbol.toList
  quote : '\n' ∉ p.pair.quote.symbol.toList
  openTime : ShownAt z p.openTime
  closeTime : ShownAt z p.closeTime

theorem timeString_without {off ns : Int} {name : List Char} {c : Char} (hd : digitC c = false)
    (hc : c ∉ ['-', '+', ':', '.', ' ']) (hn : c ∉ name) : c ∉ timeString off name ns := by
  intro hm
  rcases mem_timeString _ hm with h | h | h
  · rw [hd] at h; exact absurd h (by decide)
  · exact hc h
  · exact hn h

/-- **C288.** Two positions with the same `String` agree on the first eight bytes of the ID, on type, pair, times and number of trades and on
whether they are open; prices and profits differ by at most 0.01 and quantities by at most 0.0001. -/
theorem C288_position {pick : ℚ → Nat × ℤ} {eprec : ℤ} {unixTime : Int → String} {z : Zone} {p p' : Position}
    (h : Printable z p) (h' : Printable z p')
    (e : p.string (Fmt.go pick eprec z.text unixTime) = p'.string (Fmt.go pick eprec z.text unixTime)) :
    (bytes p.id).take 8 = (bytes p'.id).take 8 ∧ p.type = p'.type ∧ p.pair.base.symbol = p'.pair.base.symbol ∧
      p.pair.quote.symbol = p'.pair.quote.symbol ∧ p.opened = p'.opened ∧ WithinUnit (1 / 10 ^ 2) p.openPrice p'.openPrice ∧
      WithinUnit (1 / 10 ^ 2) p.closePrice p'.closePrice ∧ WithinUnit (1 / 10 ^ 4) p.quantity p'.quantity ∧
      WithinUnit (1 / 10 ^ 2) p.profit p'.profit ∧ p.openTime = p'.openTime ∧ p.closeTime = p'.closeTime ∧
      p.trades.length = p'.trades.length := by
  obtain ⟨i1, i2, i3, i4, ⟨o1, o2, o3, o4, o5⟩, ⟨c1, c2, c3, c4, c5⟩⟩ := h
  obtain ⟨i1', i2', i3', i4', ⟨o1', o2', o3', o4', o5'⟩, ⟨c1', c2', c3', c4', c5'⟩⟩ := h'
  unfold Position.string at e
  rw [if_neg (by omega), if_neg (by omega)] at e
  have e := Res.ok.inj e
  rw [List.append_assoc, List.append_assoc] at e
  have e := List.append_cancel_left e
  obtain ⟨hid, e⟩ := List.append_inj e (by rw [List.length_take, List.length_take]; omega)
  refine ⟨hid, ?_⟩
  have e := congrArg String.toList (bytes_injective e)
  simp only [Pair.string, String.toList_append, List.append_assoc, Fmt.go, Zone.text, String.toList_ofList] at e
  have e := List.append_cancel_left e
  have l1 : " Pair: ".toList = ' ' :: "Pair: ".toList := by decide +kernel
  have l2 : "/".toList = ['/'] := by decide +kernel
  have l3 : "\n".toList = ['\n'] := by decide +kernel
  have l4 : " OpenPrice: ".toList = ' ' :: "OpenPrice: ".toList := by decide +kernel
  have l5 : " ClosePrice: ".toList = ' ' :: "ClosePrice: ".toList := by decide +kernel
  have l6 : " Quantity: ".toList = ' ' :: "Quantity: ".toList := by decide +kernel
  have l7 : " Profit: ".toList = ' ' :: "Profit: ".toList := by decide +kernel
  have l8 : " OpenTime: ".toList = ' ' :: "OpenTime: ".toList := by decide +kernel
  have l9 : " CloseTime: ".toList = ' ' :: 'C' :: 'l' :: "oseTime: ".toList := by decide +kernel
  have l10 : " # Trades: ".toList = ' ' :: '#' :: " Trades: ".toList := by decide +kernel
  rw [l1, l2, l3, l4, l5, l6, l7, l8, l9, l10] at e
  have hsp : ∀ k x, ' ' ∉ fmtFixed k x := fun k x hm => (numeral_fmtFixed k x _ hm).ne (d := ' ') (by decide) rfl
  have hb : ∀ b : Bool, ' ' ∉ (if b = true then "true" else "false").toList := by decide +kernel
  have hnl : ∀ n : Int, '\n' ∉ fmtInt n := fun n hm => (numeral_fmtInt n _ hm).ne (d := '\n') (by decide) rfl
  simp only [List.cons_append, List.nil_append] at e
  obtain ⟨e1, e⟩ := sep_split i2 i2' e
  have e := List.append_cancel_left e
  obtain ⟨e2, e⟩ := sep_split i3 i3' e
  obtain ⟨e3, e⟩ := sep_split i4 i4' e
  have e := List.append_cancel_left e
  obtain ⟨e4, e⟩ := sep_split (hb _) (hb _) e
  have e := List.append_cancel_left e
  obtain ⟨e5, e⟩ := sep_split (hsp _ _) (hsp _ _) e
  have e := List.append_cancel_left e
  obtain ⟨e6, e⟩ := sep_split (hsp _ _) (hsp _ _) e
  have e := List.append_cancel_left e
  obtain ⟨e7, e⟩ := sep_split (hsp _ _) (hsp _ _) e
  have e := List.append_cancel_left e
  obtain ⟨e8, e⟩ := sep_split (hsp _ _) (hsp _ _) e
  have e := List.append_cancel_left e
  have two : ∀ {c d f : Char} {a b x y : List Char}, f ∉ a → f ∉ b → f ∉ [c, d] →
      a ++ c :: d :: f :: x = b ++ c :: d :: f :: y → a = b ∧ x = y := by
    intro c d f a b x y ha hb hcd h
    have h' : (a ++ [c, d]) ++ f :: x = (b ++ [c, d]) ++ f :: y := by simpa using h
    obtain ⟨h1, h2⟩ := sep_split (by simp only [List.mem_append, not_or]; exact ⟨ha, hcd⟩)
      (by simp only [List.mem_append, not_or]; exact ⟨hb, hcd⟩) h'
    exact ⟨List.append_cancel_right h1, h2⟩
  have one : ∀ {c f : Char} {a b x y : List Char}, f ∉ a → f ∉ b → f ∉ [c] →
      a ++ c :: f :: x = b ++ c :: f :: y → a = b ∧ x = y := by
    intro c f a b x y ha hb hcd h
    have h' : (a ++ [c]) ++ f :: x = (b ++ [c]) ++ f :: y := by simpa using h
    obtain ⟨h1, h2⟩ := sep_split (by simp only [List.mem_append, not_or]; exact ⟨ha, hcd⟩)
      (by simp only [List.mem_append, not_or]; exact ⟨hb, hcd⟩) h'
    exact ⟨List.append_cancel_right h1, h2⟩
  obtain ⟨e9, e⟩ := two (timeString_without (by decide) (by decide) o4) (timeString_without (by decide) (by decide) o4') (by decide) e
  have e := List.append_cancel_left e
  obtain ⟨e10, e⟩ := one (timeString_without (by decide) (by decide) c5) (timeString_without (by decide) (by decide) c5') (by decide) e
  have e := List.append_cancel_left e
  obtain ⟨e11, -⟩ := sep_split (hnl _) (hnl _) e
  have hbool : ∀ b b' : Bool, (if b = true then "true" else "false").toList = (if b' = true then "true" else "false").toList → b = b' := by
    decide +kernel
  exact ⟨String.toList_injective e1, String.toList_injective e2, String.toList_injective e3, hbool _ _ e4,
    C175_close (by norm_num) e5, C175_close (by norm_num) e6, C175_close (by norm_num) e7, C175_close (by norm_num) e8,
    (C175_instant o1 o1' o2 o2' o3 o3' e9).1, (C175_instant c1 c1' c2 c2' c3 c3' e10).1, by
      have := fmtInt_back e11
      omega⟩

/-- A closed position, printed in UTC. -/
example : let z : Zone := fun _ => (0, "UTC".toList)
    let p : Position := ⟨"bq8s3hk4d7lg", "long", ⟨⟨"Bitcoin", "BTC", ""⟩, ⟨"US Dollar", "USD", ""⟩⟩, false, ⟨.fin 0, ""⟩, ⟨.fin 0, ""⟩, .fin 10,
      .fin 15, .fin 2, .fin 10, 1592611200000000000, 1592611260000000000, ["a", "b"], "", ""⟩
    Printable z p ∧ p.string (Fmt.go (shortest ieee) 21 z.text z.unixText) = .ok (bytes
      ("ID: bq8s3hk4 Type: long Pair: BTC/USD\n Open: false OpenPrice: 10.00 ClosePrice: 15.00 Quantity: 2.0000 Profit: 10.00" ++
        " OpenTime: 2020-06-20 00:00:00 +0000 UTC CloseTime: 2020-06-20 00:01:00 +0000 UTC # Trades: 2\n")) := by
  have hz : ∀ ns : Int, ns = 1592611200000000000 ∨ ns = 1592611260000000000 → ShownAt (fun _ => (0, "UTC".toList)) ns := by
    intro ns h
    refine ⟨show IsOffset 0 by unfold IsOffset; decide, ⟨0, rfl⟩, ?_, show 'l' ∉ "UTC".toList by decide, show '#' ∉ "UTC".toList by decide⟩
    show FourDigits 0 ns
    unfold FourDigits
    rw [midnight_first, midnight_last]
    unfold clock
    omega
  exact ⟨⟨by decide +kernel, by decide +kernel, by decide +kernel, by decide +kernel, hz _ (.inl rfl), hz _ (.inr rfl)⟩, by decide +kernel⟩

/-- **C288.** Two tickers with the same `String` have the same time, and numbers that differ by at most 0.000001. -/
theorem C288_ticker {pick : ℚ → Nat × ℤ} {eprec : ℤ} {time unixTime : Int → String} {t t' : Ticker}
    (e : t.string (Fmt.go pick eprec time unixTime) = t'.string (Fmt.go pick eprec time unixTime)) :
    t.time = t'.time ∧ WithinUnit (1 / 10 ^ 6) t.ask t'.ask ∧ WithinUnit (1 / 10 ^ 6) t.bid t'.bid ∧
      WithinUnit (1 / 10 ^ 6) t.last t'.last ∧ WithinUnit (1 / 10 ^ 6) t.volume t'.volume ∧ WithinUnit (1 / 10 ^ 6) t.vwap t'.vwap := by
  have e := congrArg String.toList (bytes_injective (Res.ok.inj e))
  simp only [String.toList_append, List.append_assoc, Fmt.go, String.toList_ofList] at e
  have e := List.append_cancel_left e
  have l1 : ", Ask: ".toList = ',' :: " Ask: ".toList := by decide +kernel
  have l2 : ", Bid: ".toList = ',' :: " Bid: ".toList := by decide +kernel
  have l3 : ", Last: ".toList = ',' :: " Last: ".toList := by decide +kernel
  have l4 : ", Volume: ".toList = ',' :: " Volume: ".toList := by decide +kernel
  have l5 : ", VWAP: ".toList = ',' :: " VWAP: ".toList := by decide +kernel
  have l6 : "\n".toList = ['\n'] := by decide +kernel
  rw [l1, l2, l3, l4, l5, l6] at e
  have hc : ∀ k x, ',' ∉ fmtFixed k x := fun k x hm => (numeral_fmtFixed k x _ hm).ne (d := ',') (by decide) rfl
  have hd : ∀ n : Int, ',' ∉ fmtInt n := fun n hm => (numeral_fmtInt n _ hm).ne (d := ',') (by decide) rfl
  have hnl : ∀ k x, '\n' ∉ fmtFixed k x := fun k x hm => (numeral_fmtFixed k x _ hm).ne (d := '\n') (by decide) rfl
  simp only [List.cons_append] at e
  obtain ⟨e1, e⟩ := sep_split (hd _) (hd _) e
  have e := List.append_cancel_left e
  obtain ⟨e2, e⟩ := sep_split (hc _ _) (hc _ _) e
  have e := List.append_cancel_left e
  obtain ⟨e3, e⟩ := sep_split (hc _ _) (hc _ _) e
  have e := List.append_cancel_left e
  obtain ⟨e4, e⟩ := sep_split (hc _ _) (hc _ _) e
  have e := List.append_cancel_left e
  obtain ⟨e5, e⟩ := sep_split (hc _ _) (hc _ _) e
  have e := List.append_cancel_left e
  obtain ⟨e6, -⟩ := sep_split (hnl _ _) (hnl _ _) e
  exact ⟨fmtInt_back e1, C175_close (by norm_num) e2, C175_close (by norm_num) e3, C175_close (by norm_num) e4, C175_close (by norm_num) e5,
    C175_close (by norm_num) e6⟩

/-- **C288.** Two balance snapshots with the same `String` have numbers that differ by at most 0.000001. -/
theorem C288_snapshot {pick : ℚ → Nat × ℤ} {eprec : ℤ} {time unixTime : Int → String} {b b' : BalanceSnapshot}
    (e : b.string (Fmt.go pick eprec time unixTime) = b'.string (Fmt.go pick eprec time unixTime)) :
    WithinUnit (1 / 10 ^ 6) b.balance b'.balance ∧ WithinUnit (1 / 10 ^ 6) b.equity b'.equity ∧
      WithinUnit (1 / 10 ^ 6) b.margin b'.margin ∧ WithinUnit (1 / 10 ^ 6) b.freeMargin b'.freeMargin := by
  have e := congrArg String.toList (bytes_injective (Res.ok.inj e))
  simp only [String.toList_append, List.append_assoc, Fmt.go, String.toList_ofList] at e
  have e := List.append_cancel_left e
  have l1 : ", Equity: ".toList = ',' :: " Equity: ".toList := by decide +kernel
  have l2 : ", Margin: ".toList = ',' :: " Margin: ".toList := by decide +kernel
  have l3 : ", Free Margin: ".toList = ',' :: " Free Margin: ".toList := by decide +kernel
  have l4 : "\n".toList = ['\n'] := by decide +kernel
  rw [l1, l2, l3, l4] at e
  have hc : ∀ k x, ',' ∉ fmtFixed k x := fun k x hm => (numeral_fmtFixed k x _ hm).ne (d := ',') (by decide) rfl
  have hnl : ∀ k x, '\n' ∉ fmtFixed k x := fun k x hm => (numeral_fmtFixed k x _ hm).ne (d := '\n') (by decide) rfl
  simp only [List.cons_append] at e
  obtain ⟨e1, e⟩ := sep_split (hc _ _) (hc _ _) e
  have e := List.append_cancel_left e
  obtain ⟨e2, e⟩ := sep_split (hc _ _) (hc _ _) e
  have e := List.append_cancel_left e
  obtain ⟨e3, e⟩ := sep_split (hc _ _) (hc _ _) e
  have e := List.append_cancel_left e
  obtain ⟨e4, -⟩ := sep_split (hnl _ _) (hnl _ _) e
  exact ⟨C175_close (by norm_num) e1, C175_close (by norm_num) e2, C175_close (by norm_num) e3, C175_close (by norm_num) e4⟩

/-- The words of an order request do not run into the labels. -/
structure Spec.PlainRequest (o : OrderRequest) : Prop where
  action : ' ' ∉ o.action.toList
  type : ' ' ∉ o.type.toList
  base : '/' ∉ o.pair.base.symbol.toList
  quote : '\n' ∉ o.pair.quote.symbol.toList

/-- **C288.** Two order requests with the same `String` have the same action, type and pair, and numbers that differ by at most 0.0001. -/
theorem C288_request {pick : ℚ → Nat × ℤ} {eprec : ℤ} {time unixTime : Int → String} {o o' : OrderRequest}
    (h : PlainRequest o) (h' : PlainRequest o')
    (e : o.string (Fmt.go pick eprec time unixTime) = o'.string (Fmt.go pick eprec time unixTime)) :
    o.action = o'.action ∧ o.type = o'.type ∧ o.pair.base.symbol = o'.pair.base.symbol ∧ o.pair.quote.symbol = o'.pair.quote.symbol ∧
      WithinUnit (1 / 10 ^ 4) o.quantity o'.quantity ∧ WithinUnit (1 / 10 ^ 4) o.price o'.price ∧
      WithinUnit (1 / 10 ^ 4) o.total o'.total := by
  have e := congrArg String.toList (bytes_injective (Res.ok.inj e))
  simp only [Pair.string, String.toList_append, List.append_assoc, Fmt.go, String.toList_ofList] at e
  have e := List.append_cancel_left e
  have l1 : " | Type: ".toList = ' ' :: "| Type: ".toList := by decide +kernel
  have l2 : " | Pair: ".toList = ' ' :: "| Pair: ".toList := by decide +kernel
  have l3 : "/".toList = ['/'] := by decide +kernel
  have l4 : "\n".toList = ['\n'] := by decide +kernel
  have l5 : " | Price: $".toList = ' ' :: "| Price: $".toList := by decide +kernel
  have l6 : " | Total: $".toList = ' ' :: "| Total: $".toList := by decide +kernel
  rw [l1, l2, l3, l4, l5, l6] at e
  have hsp : ∀ k x, ' ' ∉ fmtFixed k x := fun k x hm => (numeral_fmtFixed k x _ hm).ne (d := ' ') (by decide) rfl
  have hnl : ∀ k x, '\n' ∉ fmtFixed k x := fun k x hm => (numeral_fmtFixed k x _ hm).ne (d := '\n') (by decide) rfl
  simp only [List.cons_append, List.nil_append] at e
  obtain ⟨e1, e⟩ := sep_split h.action h'.action e
  have e := List.append_cancel_left e
  obtain ⟨e2, e⟩ := sep_split h.type h'.type e
  have e := List.append_cancel_left e
  obtain ⟨e3, e⟩ := sep_split h.base h'.base e
  obtain ⟨e4, e⟩ := sep_split h.quote h'.quote e
  have e := List.append_cancel_left e
  obtain ⟨e5, e⟩ := sep_split (hsp _ _) (hsp _ _) e
  have e := List.append_cancel_left e
  obtain ⟨e6, e⟩ := sep_split (hsp _ _) (hsp _ _) e
  have e := List.append_cancel_left e
  obtain ⟨e7, -⟩ := sep_split (hnl _ _) (hnl _ _) e
  exact ⟨String.toList_injective e1, String.toList_injective e2, String.toList_injective e3, String.toList_injective e4,
    C175_close (by norm_num) e5, C175_close (by norm_num) e6, C175_close (by norm_num) e7⟩

/-- **C288.** Two fractals with the same `String` are of the same kind, have the same time, and prices that differ by at most 0.000001. -/
theorem C288_fractal {pick : ℚ → Nat × ℤ} {eprec : ℤ} {time unixTime : Int → String} {w w' : WilliamFractal}
    (e : w.string (Fmt.go pick eprec time unixTime) = w'.string (Fmt.go pick eprec time unixTime)) :
    w.time = w'.time ∧ WithinUnit (1 / 10 ^ 6) w.price w'.price ∧ w.ftype = w'.ftype := by
  have e := congrArg String.toList (bytes_injective (Res.ok.inj e))
  simp only [String.toList_append, List.append_assoc, Fmt.go, String.toList_ofList] at e
  have l1 : " ".toList = [' '] := by decide +kernel
  rw [l1] at e
  have hsp : ∀ k x, ' ' ∉ fmtFixed k x := fun k x hm => (numeral_fmtFixed k x _ hm).ne (d := ' ') (by decide) rfl
  simp only [List.cons_append, List.nil_append] at e
  obtain ⟨e1, e⟩ := sep_split (fmtInt_noSpace _) (fmtInt_noSpace _) e
  obtain ⟨e2, e⟩ := sep_split (hsp _ _) (hsp _ _) e
  refine ⟨fmtInt_back e1, C175_close (by norm_num) e2, ?_⟩
  revert e
  cases w.ftype <;> cases w'.ftype <;> decide +kernel

/-- A request, and two different tickers and fractals with the same text. -/
example : let o : OrderRequest := ⟨"buy", "limit", ⟨⟨"Bitcoin", "BTC", ""⟩, ⟨"US Dollar", "USD", ""⟩⟩, .fin 10, .fin 0, .fin 0, .fin 2, .fin 20⟩
    PlainRequest o ∧ o.string (Fmt.go (shortest ieee) 21 (fun _ => "") fun _ => "") = .ok (bytes
      "Action: buy | Type: limit | Pair: BTC/USD\n | Quantity: 2.0000 | Price: $10.0000 | Total: $20.0000\n") ∧
    (⟨5, .fin (1 / 2 ^ 22), .fin 1, .fin 1, .fin 1, .fin 1⟩ : Ticker).string (Fmt.go (shortest ieee) 21 (fun _ => "") fun _ => "") =
      (⟨5, .fin (1 / 2 ^ 23), .fin 1, .fin 1, .fin 1, .fin 1⟩ : Ticker).string (Fmt.go (shortest ieee) 21 (fun _ => "") fun _ => "") ∧
    (⟨5, .fin (1 / 2 ^ 22), .up⟩ : WilliamFractal).string (Fmt.go (shortest ieee) 21 (fun _ => "") fun _ => "") =
      (⟨5, .fin (1 / 2 ^ 23), .up⟩ : WilliamFractal).string (Fmt.go (shortest ieee) 21 (fun _ => "") fun _ => "") := by
  refine ⟨⟨by decide +kernel, by decide +kernel, by decide +kernel, by decide +kernel⟩, by decide +kernel, by decide +kernel, by decide +kernel⟩

end Finmod
