import Verif.Props.JsonGrammar
import Verif.Props.JsonActionsRead
import Verif.Props.MarkFloat

/-!
# C171: when reading JSON is an error, and which number is read

The types of the fields of the structs, and which JSON values fit a type. Reading a text into a struct
is an error exactly when the text is not JSON or the value does not fit. A number is read as the float64
nearest to the decimal.
-/

namespace Finmod.Json
open Go Finmod

namespace Spec

/-- The number the digits of an exponent stand for. Only the first five digits after leading zeros count. -/
def exponentDigits (D : List Char) : Nat := Nat.ofDigitChars 10 ((D.dropWhile (· == '0')).take 5) 0

/-- An exponent (or none) and its value. -/
def Exponent (X : List Char) (e : ℤ) : Prop :=
  (X = [] ∧ e = 0) ∨ ∃ c g D, X = c :: (g ++ D) ∧ (c = 'e' ∨ c = 'E') ∧ D ≠ [] ∧ AllDigits D ∧
    (((g = [] ∨ g = ['+']) ∧ e = exponentDigits D) ∨ (g = ['-'] ∧ e = -(exponentDigits D : ℤ)))

/-- A number, its sign and its absolute value: digits, digits behind the point, exponent. -/
def Decimal (t : List Char) (neg : Bool) (v : ℚ) : Prop :=
  ∃ I F X e, t = (if neg then ['-'] else []) ++ (I ++ (pointed F ++ X)) ∧ I ≠ [] ∧ AllDigits I ∧ AllDigits F ∧
    Exponent X e ∧ v = Nat.ofDigitChars 10 (I ++ F) 0 / 10 ^ F.length * 10 ^ e

/-- A number without fraction and exponent, and its value. -/
def Integer (t : List Char) (n : ℤ) : Prop :=
  ∃ I, I ≠ [] ∧ AllDigits I ∧
    ((t = I ∧ n = Nat.ofDigitChars 10 I 0) ∨ (t = '-' :: I ∧ n = -(Nat.ofDigitChars 10 I 0 : ℤ)))

/-- The types of fields. A pointer is like the type it points to. -/
inductive Shape where
  | float
  | int
  | str
  | bool
  | time
  | list (s : Shape)
  | map (s : Shape)
  | struct (fs : List (String × Shape))

/-- Which values fit a type. Null fits every type. A struct ignores members with unknown names, and all
members with a known name have to fit. -/
inductive Fits (E : Env) : Shape → J → Prop
  | null (sh) : Fits E sh .null
  | float (t neg v) : Decimal t neg v → (∀ b, E.S.rnd v ≠ .inf b) → Fits E .float (.num t)
  | int (t n) : Integer t n → -2 ^ 63 ≤ n → n < 2 ^ 63 → Fits E .int (.num t)
  | str (s p) : Fits E .str (.str s p)
  | bool (b) : Fits E .bool (.bool b)
  | time (s t) : E.read s = some t → Fits E .time (.str s true)
  | list (sh l) : (∀ j ∈ l, Fits E sh j) → Fits E (.list sh) (.arr l)
  | map (sh ms) : (∀ m ∈ ms, Fits E sh m.2) → Fits E (.map sh) (.obj ms)
  | struct (fs ms) : (∀ m ∈ ms, ∀ f ∈ fs, foldName m.1 = foldName f.1.toList → Fits E f.2 m.2) →
      Fits E (.struct fs) (.obj ms)

/-! ### The structs -/

/-- market/orderbook_types.go:6-10 `OrderBookRow`. -/
def rowShape : Shape := .struct [
  ("price", .float),
  ("volume", .float),
  ("accum_volume", .float)]

/-- market/orderbook_types.go:16-20 `OrderBookUpdate`. -/
def updateShape : Shape := .struct [
  ("price", .float),
  ("volume", .float),
  ("side", .str)]

/-- market/orderbook.go:12-17 `OrderBook`. -/
def bookShape : Shape := .struct [
  ("time", .int),
  ("asks", .list rowShape),
  ("bids", .list rowShape),
  ("max_depth", .int)]

/-- market/candle.go:13-20 `Candle`. -/
def candleShape : Shape := .struct [
  ("time", .int),
  ("open", .float),
  ("high", .float),
  ("low", .float),
  ("close", .float),
  ("volume", .float)]

/-- market/asset.go:10-14 `Asset`. -/
def assetShape : Shape := .struct [
  ("name", .str),
  ("symbol", .str),
  ("alt_symbol", .str)]

/-- market/pair.go:8-11 `Pair`. -/
def pairShape : Shape := .struct [
  ("base", assetShape),
  ("quote", assetShape)]

/-- market/ticker.go:6-13 `Ticker`. -/
def tickerShape : Shape := .struct [
  ("time", .int),
  ("ask", .float),
  ("bid", .float),
  ("last", .float),
  ("volume", .float),
  ("vwap", .float)]

/-- market/balances.go:6-11 `BalanceSnapshot`. -/
def balanceSnapshotShape : Shape := .struct [
  ("balance", .float),
  ("equity", .float),
  ("margin", .float),
  ("free_margin", .float)]

/-- market/balances.go:28-31 `Balance`. -/
def balanceShape : Shape := .struct [
  ("asset", assetShape),
  ("amount", .float)]

/-- market/balances.go:18-21 `AssetsSnapshot`. -/
def assetsSnapshotShape : Shape := .struct [
  ("time", .float),
  ("assets", .list balanceShape)]

/-- market/trade.go:12-23 `Trade`. -/
def tradeShape : Shape := .struct [
  ("id", .str),
  ("execution_time", .time),
  ("action", .str),
  ("order_type", .str),
  ("pair", pairShape),
  ("price", .float),
  ("quantity", .float),
  ("fee", .float),
  ("cost", .float),
  ("execution_id", .str)]

/-- market/position.go:23-26 `PositionCloseOrder`. -/
def positionCloseOrderShape : Shape := .struct [
  ("price", .float),
  ("order_id", .str)]

/-- market/position.go:33-49 `Position`. -/
def positionShape : Shape := .struct [
  ("id", .str),
  ("type", .str),
  ("pair", pairShape),
  ("open", .bool),
  ("take_profit", positionCloseOrderShape),
  ("stop_loss", positionCloseOrderShape),
  ("open_price", .float),
  ("close_price", .float),
  ("quantity", .float),
  ("profit", .float),
  ("open_time", .time),
  ("close_time", .time),
  ("trades", .list .str),
  ("execution_id", .str),
  ("data", .str)]

/-- market/order.go:53-71 `Order`. -/
def orderShape : Shape := .struct [
  ("id", .str),
  ("action", .str),
  ("type", .str),
  ("pair", pairShape),
  ("price", .float),
  ("volume", .float),
  ("executed_volume", .float),
  ("fee", .float),
  ("cost", .float),
  ("status", .str),
  ("open_time", .time),
  ("close_time", .time),
  ("trades", .list .str),
  ("take_profit", .float),
  ("stop_loss", .float),
  ("position_id", .str),
  ("execution_id", .str)]

/-- market/order_request.go:10-19 `OrderRequest`. -/
def orderRequestShape : Shape := .struct [
  ("Action", .str),
  ("Type", .str),
  ("Pair", pairShape),
  ("Price", .float),
  ("TakeProfit", .float),
  ("StopLoss", .float),
  ("Quantity", .float),
  ("Total", .float)]

/-- strategy/order_actions.go:8-18 `CreateOrderAction`. -/
def createOrderActionShape : Shape := .struct [
  ("id", .str),
  ("symbol", .str),
  ("action_type", .str),
  ("order_type", .str),
  ("price", .float),
  ("volume", .float),
  ("stop_loss", .float),
  ("take_profit", .float),
  ("slippage", .float)]

/-- strategy/order_actions.go:24-32 `UpdateOrderAction`. -/
def updateOrderActionShape : Shape := .struct [
  ("id", .str),
  ("order_id", .str),
  ("price", .float),
  ("volume", .float),
  ("stop_loss", .float),
  ("take_profit", .float),
  ("slippage", .float)]

/-- strategy/order_actions.go:38-41 `CancelOrderAction`. -/
def cancelOrderActionShape : Shape := .struct [
  ("id", .str),
  ("order_id", .str)]

/-- strategy/position_actions.go:8-17 `UpdatePositionAction`. -/
def updatePositionActionShape : Shape := .struct [
  ("id", .str),
  ("position_id", .str),
  ("action_type", .str),
  ("order_type", .str),
  ("volume", .float),
  ("stop_loss", .float),
  ("take_profit", .float),
  ("slippage", .float)]

/-- strategy/position_actions.go:23-26 `ClosePositionAction`. -/
def closePositionActionShape : Shape := .struct [
  ("id", .str),
  ("position_id", .str)]

/-- strategy/annotation.go:23-31 `Annotation`. -/
def annotationShape : Shape := .struct [
  ("id", .str),
  ("time", .int),
  ("creation_time", .int),
  ("price", .float),
  ("execution_id", .str),
  ("label", .str),
  ("tooltip", .str)]

/-- strategy/actions.go:4-11 `Actions`. -/
def actionsShape : Shape := .struct [
  ("CreateOrders", .map createOrderActionShape),
  ("UpdateOrders", .map updateOrderActionShape),
  ("CancelOrders", .map cancelOrderActionShape),
  ("UpdatePositions", .map updatePositionActionShape),
  ("ClosePositions", .map closePositionActionShape),
  ("Annotations", .list annotationShape)]

/-- strategy/annotation.go:10-12 `AddAnnotationsAction`. -/
def addAnnotationsActionShape : Shape := .struct [
  ("Annotations", .list annotationShape)]

/-- strategy/strategy.go:11-18 `Tick`. -/
def tickShape : Shape := .struct [
  ("Candle", candleShape),
  ("PendingActions", actionsShape),
  ("OpenOrders", .map orderShape),
  ("OpenPositions", .map positionShape),
  ("ClosedPositions", .map positionShape),
  ("Capital", .float)]

end Spec
open Spec

/-! ### Numbers -/

theorem scanExp_full {a : Nat} (ha : 10000 ≤ a) (D : List Char) (hD : ∀ c ∈ D, digitC c = true) :
    scanExp a D = (a, []) := by
  induction D with
  | nil => rfl
  | cons c cs ih =>
    have hc := hD c (by simp)
    have h1 : c ≠ '_' := digitC_ne hc (by decide)
    rw [scanExp, if_neg h1, if_pos hc, if_neg (by omega), ih fun c h => hD c (by simp [h])]

theorem scanExp_zeros (D : List Char) : scanExp 0 D = scanExp 0 (D.dropWhile (· == '0')) := by
  induction D with
  | nil => rfl
  | cons c cs ih =>
    by_cases h : c = '0'
    · subst h
      rw [List.dropWhile_cons_of_pos (by rfl), ← ih, scanExp, if_neg (by decide), if_pos (by decide)]
      rfl
    · rw [List.dropWhile_cons_of_neg (by simpa using h)]

theorem ofDigitChars_lower {c : Char} (hc : digitC c = true) (h0 : c ≠ '0') (D : List Char) :
    10 ^ D.length ≤ Nat.ofDigitChars 10 (c :: D) 0 := by
  have h1 : 1 ≤ c.toNat - 48 := by
    simp only [digitC, decide_eq_true_eq] at hc
    have : c.toNat ≠ 48 := fun h => h0 (by
      apply Char.ext; apply UInt32.toNat_inj.1; exact h)
    omega
  have key : ∀ (D : List Char) (a : Nat), 10 ^ D.length * a ≤ Nat.ofDigitChars 10 D a := by
    intro D
    induction D with
    | nil => intro a; simp
    | cons d D ih =>
      intro a
      rw [Nat.ofDigitChars_cons, List.length_cons, pow_succ]
      refine le_trans ?_ (ih _)
      have : 10 ^ D.length * 10 * a = 10 ^ D.length * (10 * a) := by ring
      rw [this]
      exact Nat.mul_le_mul_left _ (by omega)
  rw [Nat.ofDigitChars_cons]
  refine le_trans ?_ (key _ _)
  have : '0'.toNat = 48 := by decide
  rw [this]
  exact Nat.le_mul_of_pos_right _ (by omega)

theorem ofDigitChars_upper (D : List Char) (hD : ∀ c ∈ D, digitC c = true) :
    Nat.ofDigitChars 10 D 0 < 10 ^ D.length := by
  induction D using List.reverseRecOn with
  | nil => simp
  | append_singleton l c ih =>
    have hc := hD c (by simp)
    have := ih fun c h => hD c (by simp [h])
    rw [Nat.ofDigitChars_append, Nat.ofDigitChars_cons, Nat.ofDigitChars_nil]
    simp only [digitC, decide_eq_true_eq] at hc
    have h0 : '0'.toNat = 48 := by decide
    rw [h0, List.length_append, List.length_singleton, pow_succ]
    omega

theorem scanExp_all (D : List Char) (hD : ∀ c ∈ D, digitC c = true) : scanExp 0 D = (exponentDigits D, []) := by
  rw [scanExp_zeros, exponentDigits]
  have hD' : ∀ c ∈ D.dropWhile (· == '0'), digitC c = true := fun c hc => hD c ((List.dropWhile_suffix _).subset hc)
  have hh : ∀ c cs, D.dropWhile (· == '0') = c :: cs → c ≠ '0' := by
    intro c cs h
    have := List.head?_dropWhile_not (· == '0') D
    rw [h] at this
    simpa using this
  generalize D.dropWhile (· == '0') = L at *
  have h5 : ∀ c ∈ L.take 5, digitC c = true := fun c hc => hD' c ((List.take_subset 5 L) hc)
  have hu : Nat.ofDigitChars 10 (L.take 5) 0 < 100000 := by
    refine lt_of_lt_of_le (ofDigitChars_upper _ h5) ?_
    exact le_trans (Nat.pow_le_pow_right (by norm_num) (List.length_take_le 5 L)) (by norm_num)
  conv_lhs => rw [← List.take_append_drop 5 L]
  rw [(scanExp_append 0 _ _ h5).1, scanExp_digits _ h5 hu]
  by_cases hl : L.length ≤ 5
  · rw [List.drop_eq_nil_of_le hl]; rfl
  · match L, hl with
    | c :: cs, hl =>
      refine scanExp_full ?_ _ fun c hc => hD' c ((List.drop_subset 5 _) hc)
      have := ofDigitChars_lower (hD' c (by simp)) (hh c cs rfl) (cs.take 4)
      rw [List.length_take, min_eq_left (by simp at hl; omega)] at this
      simpa using this

theorem parseExp_exponent {X : List Char} {e : ℤ} (h : Exponent X e) :
    parseExp false X = some (e, []) ∧ Go.Ends X ∧ '_' ∉ X := by
  rcases h with ⟨rfl, rfl⟩ | ⟨c, g, D, rfl, hc, h0, hD, hg⟩
  · exact ⟨rfl, Or.inl rfl, by simp⟩
  · have hD' := digits_of_allDigits hD
    obtain ⟨d, ds, rfl⟩ := List.exists_cons_of_ne_nil h0
    have hd := hD' d (by simp)
    have hs := scanExp_all _ hD'
    have hl : lowerC c = 'e' := by rcases hc with rfl | rfl <;> decide
    refine ⟨?_, Or.inr ⟨c, _, rfl, hc⟩, ?_⟩
    · have ht : takeSign (g ++ d :: ds) = (decide (g = ['-']), d :: ds) := by
        rcases hg with ⟨rfl | rfl, -⟩ | ⟨rfl, -⟩
        · simpa using takeSign_digit hd ds
        · simp [takeSign]
        · simp [takeSign]
      simp only [parseExp, hl, ht, hd, hs]
      rcases hg with ⟨rfl | rfl, rfl⟩ | ⟨rfl, rfl⟩ <;> simp
    · simp only [List.mem_cons, List.mem_append]
      have hu : ∀ x ∈ d :: ds, x ≠ '_' := fun x hx => digitC_ne (hD' x hx) (by decide)
      rintro (h | h | h)
      · rcases hc with rfl | rfl <;> simp at h
      · rcases hg with ⟨rfl | rfl, -⟩ | ⟨rfl, -⟩ <;> simp at h
      · exact hu '_' (List.mem_cons.2 h) rfl

theorem parseFloat_decimal (S : FloatSem) {t : List Char} {neg : Bool} {v : ℚ} (h : Decimal t neg v) :
    parseFloat S t = finish S neg v := by
  obtain ⟨I, F, X, e, rfl, h0, hI, hF, hX, rfl⟩ := h
  obtain ⟨p1, p2, p3⟩ := parseExp_exponent hX
  have := parse_body_exp S neg (A := I) (B := F) (P := pointed F) (r := X) (e := e) h0 (digits_of_allDigits hI)
    (digits_of_allDigits hF) (by unfold pointed; split_ifs with h <;> simp [h]) p2 p1 p3
  rw [show (if neg then ['-'] else []) = signText neg from rfl, this]
  congr 1
  rw [pow10_eq, zpow_sub₀ (by norm_num : (10 : ℚ) ≠ 0), zpow_natCast]
  ring

theorem number_decimal {t : List Char} (h : Number t) : ∃ neg v, Decimal t neg v := by
  obtain ⟨s, I, F, X, rfl, hs, h0, hI, -, hF, hX⟩ := h
  obtain ⟨G, rfl, hG⟩ : ∃ G, F = pointed G ∧ AllDigits G := by
    rcases hF with rfl | ⟨D, rfl, hD0, hD⟩
    · exact ⟨[], rfl, by simp [AllDigits]⟩
    · exact ⟨D, by rw [pointed, if_neg hD0], hD⟩
  obtain ⟨e, he⟩ : ∃ e, Exponent X e := by
    rcases hX with rfl | ⟨c, g, D, rfl, hc, hg, hD0, hD⟩
    · exact ⟨0, Or.inl ⟨rfl, rfl⟩⟩
    · rcases hg with rfl | rfl | rfl
      · exact ⟨_, Or.inr ⟨c, _, D, rfl, hc, hD0, hD, Or.inl ⟨Or.inl rfl, rfl⟩⟩⟩
      · exact ⟨_, Or.inr ⟨c, _, D, rfl, hc, hD0, hD, Or.inl ⟨Or.inr rfl, rfl⟩⟩⟩
      · exact ⟨_, Or.inr ⟨c, _, D, rfl, hc, hD0, hD, Or.inr ⟨rfl, rfl⟩⟩⟩
  rcases hs with rfl | rfl
  · exact ⟨false, _, I, G, X, e, rfl, h0, hI, hG, he, rfl⟩
  · exact ⟨true, _, I, G, X, e, rfl, h0, hI, hG, he, rfl⟩

theorem parseInt_integer {t : List Char} {n : ℤ} (h : Integer t n) :
    parseInt 64 t = if -2 ^ 63 ≤ n ∧ n < 2 ^ 63 then some n else none := by
  obtain ⟨I, h0, hI, h⟩ := h
  have hd : I.all digitC = true := List.all_eq_true.2 (digits_of_allDigits hI)
  rcases h with ⟨rfl, rfl⟩ | ⟨rfl, rfl⟩
  · obtain ⟨c, cs, rfl⟩ := List.exists_cons_of_ne_nil h0
    have ht := takeSign_digit (digits_of_allDigits hI c (by simp)) cs
    simp only [parseInt, ht, hd, h0]
    generalize Nat.ofDigitChars 10 (c :: cs) 0 = n
    have hn : n < 2 ^ 63 ↔ (-2 ^ 63 ≤ (n : ℤ) ∧ (n : ℤ) < 2 ^ 63) := by omega
    simp only [or_self, Bool.true_eq_false, if_false, Bool.false_eq_true, Nat.reduceSub, hn]
  · have ht : takeSign ('-' :: I) = (true, I) := rfl
    simp only [parseInt, ht, hd, h0]
    generalize Nat.ofDigitChars 10 I 0 = n
    have hn : n ≤ 2 ^ 63 ↔ (-2 ^ 63 ≤ -(n : ℤ) ∧ -(n : ℤ) < 2 ^ 63) := by omega
    simp only [or_self, Bool.true_eq_false, if_false, if_true, Nat.reduceSub, hn]

theorem integer_of_parseInt {t : List Char} (hN : Number t) {n : ℤ} (h : parseInt 64 t = some n) : Integer t n := by
  obtain ⟨s, I, F, X, rfl, hs, h0, hI, -, hF, hX⟩ := hN
  have hd : ((takeSign (s ++ (I ++ (F ++ X)))).2).all digitC = true := by
    by_contra hc
    simp only [parseInt] at h
    rw [if_pos (Or.inr (by simpa using hc))] at h
    simp at h
  have ht : (takeSign (s ++ (I ++ (F ++ X)))).2 = I ++ (F ++ X) := by
    rcases hs with rfl | rfl
    · obtain ⟨c, cs, rfl⟩ := List.exists_cons_of_ne_nil h0
      exact congrArg Prod.snd (takeSign_digit (digits_of_allDigits hI c (by simp)) _)
    · rfl
  rw [ht, List.all_append, List.all_append, Bool.and_eq_true, Bool.and_eq_true] at hd
  have hF0 : F = [] := by
    rcases hF with rfl | ⟨D, rfl, -, -⟩
    · rfl
    · have := hd.2.1; simp [show digitC '.' = false by decide] at this
  have hX0 : X = [] := by
    rcases hX with rfl | ⟨c, g, D, rfl, rfl | rfl, -, -, -⟩
    · rfl
    · have := hd.2.2; simp [show digitC 'e' = false by decide] at this
    · have := hd.2.2; simp [show digitC 'E' = false by decide] at this
  subst hF0 hX0
  simp only [List.append_nil] at h ⊢
  obtain ⟨m, hm⟩ : ∃ m, Integer (s ++ I) m := by
    rcases hs with rfl | rfl
    · exact ⟨_, I, h0, hI, Or.inl ⟨rfl, rfl⟩⟩
    · exact ⟨_, I, h0, hI, Or.inr ⟨rfl, rfl⟩⟩
  rw [parseInt_integer hm] at h
  split_ifs at h
  cases h
  exact hm

/-! ### Values of the grammar -/

/-- All numbers in the value are numbers of the grammar. -/
inductive Proper : J → Prop
  | null : Proper .null
  | bool (b) : Proper (.bool b)
  | str (s p) : Proper (.str s p)
  | num (t) : Number t → Proper (.num t)
  | arr (l) : (∀ j ∈ l, Proper j) → Proper (.arr l)
  | obj (ms) : (∀ m ∈ ms, Proper m.2) → Proper (.obj ms)

mutual
theorem value_proper {d : Nat} {t : List Char} {j : J} : Value d t j → Proper j
  | .null _ => .null
  | .true _ => .bool _
  | .false _ => .bool _
  | .number _ t h => .num t h
  | .string _ _ _ _ _ _ => .str _ _
  | .emptyArray _ _ _ => .arr _ (by simp)
  | .array _ _ _ h => .arr _ (elements_proper h)
  | .emptyObject _ _ _ => .obj _ (by simp)
  | .object _ _ _ h => .obj _ (members_proper h)
theorem elements_proper {d : Nat} {t : List Char} {l : List J} : Elements d t l → ∀ j ∈ l, Proper j
  | .last _ _ _ _ _ _ h _ => List.forall_mem_singleton.2 (value_proper h)
  | .more _ _ _ _ _ _ _ _ h _ h' => List.forall_mem_cons.2 ⟨value_proper h, elements_proper h'⟩
theorem members_proper {d : Nat} {t : List Char} {l : List (List Char × J)} : Members d t l → ∀ m ∈ l, Proper m.2
  | .last _ _ _ _ _ _ _ _ _ _ _ _ _ h _ => List.forall_mem_singleton.2 (value_proper h)
  | .more _ _ _ _ _ _ _ _ _ _ _ _ _ _ _ h _ h' => List.forall_mem_cons.2 ⟨value_proper h, members_proper h'⟩
end

theorem Spec.IsJson.proper {s : List Char} {j : J} (h : IsJson s j) : Proper j := by
  obtain ⟨a, t, b, -, -, h, -⟩ := h
  exact value_proper h

/-! ### Types and errors -/

/-- Reading ends without error exactly for the values that fit. -/
def Typed {α : Type} (E : Env) (c : Codec α) (sh : Shape) : Prop :=
  ∀ old j, Proper j → ((c.dec old j).2 = .none ↔ Fits E sh j)

theorem finish_some {S : FloatSem} (hS : Lawful S) (neg : Bool) (v : ℚ) :
    (∃ x, finish S neg v = some x) ↔ ∀ b, S.rnd v ≠ .inf b := by
  unfold finish
  by_cases h : v = 0
  · subst h
    simp [rnd_zero hS]
  · rw [if_neg h]
    cases hr : S.rnd v <;> simp

theorem typed_float {E : Env} (hS : Lawful E.S) : Typed E E.float .float := by
  intro old j hj
  cases hj with
  | null => exact iff_of_true rfl (.null _)
  | num t h =>
    obtain ⟨neg, v, hv⟩ := number_decimal h
    have hp := parseFloat_decimal E.S hv
    constructor
    · intro hd
      refine .float t neg v hv ((finish_some hS neg v).1 ?_)
      cases hf : finish E.S neg v with
      | some x => exact ⟨x, rfl⟩
      | none => rw [hf] at hp; simp [Env.float, Codec.float, hp] at hd
    · intro hf
      cases hf with
      | float t neg' v' hv' hinf =>
        obtain ⟨x, hx⟩ := (finish_some hS neg' v').2 hinf
        have hp' := parseFloat_decimal E.S hv'
        rw [hx] at hp'
        simp [Env.float, Codec.float, hp']
  | _ => exact iff_of_false (by simp [Env.float, Codec.float]) (by intro h; cases h)

theorem typed_int (E : Env) : Typed E Codec.int .int := by
  intro old j hj
  cases hj with
  | null => exact iff_of_true rfl (.null _)
  | num t h =>
    constructor
    · intro hd
      cases hp : parseInt 64 t with
      | none => simp [Codec.int, hp] at hd
      | some n =>
        have hi := integer_of_parseInt h hp
        obtain ⟨h1, h2⟩ := parseInt_range hp
        exact .int t n hi h1 h2
    · intro hf
      cases hf with
      | int t n hi h1 h2 =>
        have hp := parseInt_integer hi
        rw [if_pos ⟨h1, h2⟩] at hp
        simp [Codec.int, hp]
  | _ => exact iff_of_false (by simp [Codec.int]) (by intro h; cases h)

theorem typed_str (E : Env) : Typed E Codec.str .str := by
  intro old j hj
  cases hj with
  | null => exact iff_of_true rfl (.null _)
  | str s p => exact iff_of_true rfl (.str _ _)
  | _ => exact iff_of_false (by simp [Codec.str]) (by intro h; cases h)

theorem typed_bool (E : Env) : Typed E Codec.bool .bool := by
  intro old j hj
  cases hj with
  | null => exact iff_of_true rfl (.null _)
  | bool b => exact iff_of_true rfl (.bool _)
  | _ => exact iff_of_false (by simp [Codec.bool]) (by intro h; cases h)

theorem typed_time (E : Env) : Typed E E.time .time := by
  intro old j hj
  cases hj with
  | null => exact iff_of_true rfl (.null _)
  | str s p =>
    cases p with
    | false => exact iff_of_false (by simp [Env.time, Codec.time]) (by intro h; cases h)
    | true =>
      cases hr : E.read s with
      | none => exact iff_of_false (by simp [Env.time, Codec.time, hr]) (by intro h; cases h with | time _ t h => simp [hr] at h)
      | some t => exact iff_of_true (by simp [Env.time, Codec.time, hr]) (.time s t hr)
  | _ => exact iff_of_false (by simp [Env.time, Codec.time]) (by intro h; cases h)

theorem typed_ptr {α : Type} {E : Env} {c : Codec α} {sh : Shape} (h : Typed E c sh) : Typed E c.ptr sh := by
  intro old j hj
  cases j with
  | null => exact iff_of_true rfl (.null _)
  | _ => exact h _ _ hj

theorem decElems_none {α : Type} {c : Codec α} {P : J → Prop} {l : List J}
    (h : ∀ j ∈ l, ∀ old, (c.dec old j).2 = .none ↔ P j) (old stale : List α) :
    (decElems c old stale l).2 = .none ↔ ∀ j ∈ l, P j := by
  induction l generalizing old stale with
  | nil => simp [decElems]
  | cons j l ih =>
    have h1 := h j (by simp) (firstOf old stale c.zero)
    have h2 := ih (fun j hj => h j (by simp [hj])) old.tail (if old.isEmpty then stale.tail else stale)
    rw [decElems, List.forall_mem_cons, ← h1, ← h2]
    by_cases hs : (c.dec (firstOf old stale c.zero) j).2 = .stop
    · rw [if_pos hs, hs]; simp
    · rw [if_neg hs]; exact JErr.or_eq_none

theorem typed_slice {α : Type} {E : Env} {c : Codec α} {sh : Shape} (isNil : Bool) (stale : List α → List α)
    (h : Typed E c sh) : Typed E (Codec.slice isNil stale c) (.list sh) := by
  intro old j hj
  cases hj with
  | null => exact iff_of_true rfl (.null _)
  | arr l hl =>
    have := decElems_none (c := c) (P := fun j => Fits E sh j) (l := l) (fun j hj old => h old j (hl j hj)) old (stale old)
    exact this.trans ⟨fun h => .list sh l h, fun h => by cases h; assumption⟩
  | _ => exact iff_of_false (by simp [Codec.slice]) (by intro h; cases h)

theorem typed_map {α : Type} {E : Env} {c : Codec α} {sh : Shape} (h : Typed E c sh) : Typed E c.map (.map sh) := by
  intro old j hj
  cases hj with
  | null => exact iff_of_true rfl (.null _)
  | obj ms hm =>
    have key : ∀ (ms : List (List Char × J)) (st : GoMap α × JErr), (∀ m ∈ ms, Proper m.2) →
        ((ms.foldl (fun st m => next st fun l =>
          if (c.dec c.zero m.2).2 = .stop then (l, .stop)
          else (GoMap.put l (String.ofList m.1) (c.dec c.zero m.2).1, (c.dec c.zero m.2).2)) st).2 = .none ↔
        st.2 = .none ∧ ∀ m ∈ ms, Fits E sh m.2) := by
      intro ms
      induction ms with
      | nil => intro st _; simp
      | cons m ms ih =>
        intro st hp
        rw [List.foldl_cons, ih _ fun m hm => hp m (by simp [hm]), next_snd, JErr.or_eq_none, List.forall_mem_cons,
          ← h c.zero m.2 (hp m (by simp)), and_assoc]
        split_ifs with hs
        · simp [hs]
        · rfl
    have := key ms (some (old.getD []), .none) hm
    simp only [true_and] at this
    exact this.trans ⟨fun h => .map sh ms h, fun h => by cases h; assumption⟩
  | _ => exact iff_of_false (by simp [Codec.map]) (by intro h; cases h)

/-- A field with its type. -/
def TypedField {ρ : Type} (E : Env) (f : JField ρ) (p : String × Shape) : Prop :=
  f.name = p.1 ∧ ∀ r j, Proper j → ((f.dec r j).2 = .none ↔ Fits E p.2 j)

theorem typed_field {α ρ : Type} {E : Env} {c : Codec α} {sh : Shape} (h : Typed E c sh) (name : String) (get : ρ → α)
    (set : ρ → α → ρ) : TypedField E (c.field name get set) (name, sh) :=
  ⟨rfl, fun _ j hj => h _ j hj⟩

theorem foldl_none {ρ : Type} {fs : List (JField ρ)} {P : JField ρ → J → Prop} {ms : List (List Char × J)}
    (h : ∀ m ∈ ms, ∀ f ∈ fs, ∀ r, (f.dec r m.2).2 = .none ↔ P f m.2) (st : ρ × JErr) :
    (ms.foldl (decMember fs) st).2 = .none ↔ st.2 = .none ∧ ∀ m ∈ ms, ∀ f, findField fs m.1 = some f → P f m.2 := by
  induction ms generalizing st with
  | nil => simp
  | cons m ms ih =>
    rw [List.foldl_cons, ih fun m hm => h m (by simp [hm]), List.forall_mem_cons, ← and_assoc]
    refine and_congr ?_ Iff.rfl
    unfold decMember
    cases hf : findField fs m.1 with
    | none => simp
    | some f =>
      simp only [next_snd, JErr.or_eq_none, Option.some.injEq, forall_eq']
      exact and_congr Iff.rfl (h m (by simp) f (findField_mem hf) _)

theorem typed_struct {ρ : Type} {E : Env} {zero : ρ} {fs : List (JField ρ)} {l : List (String × Shape)}
    (hn : (fs.map fun f => foldName f.name.toList).Nodup) (h : List.Forall₂ (TypedField E) fs l) :
    Typed E (Codec.struct zero fs) (.struct l) := by
  intro old j hj
  cases hj with
  | null => exact iff_of_true rfl (.null _)
  | obj ms hm =>
    have hl : ∀ f ∈ fs, ∃ p ∈ l, TypedField E f p := by
      clear hn
      induction h with
      | nil => simp
      | cons h _ ih =>
        rintro g hg
        rcases List.mem_cons.1 hg with rfl | hg
        · exact ⟨_, by simp, h⟩
        · obtain ⟨p, hp, hr⟩ := ih g hg
          exact ⟨p, by simp [hp], hr⟩
    have hr : ∀ p ∈ l, ∃ f ∈ fs, TypedField E f p := by
      clear hn hl
      induction h with
      | nil => simp
      | cons h _ ih =>
        rintro g hg
        rcases List.mem_cons.1 hg with rfl | hg
        · exact ⟨_, by simp, h⟩
        · obtain ⟨p, hp, hr⟩ := ih g hg
          exact ⟨p, by simp [hp], hr⟩
    have key := foldl_none (fs := fs) (P := fun f j => ∀ r, (f.dec r j).2 = .none) (ms := ms)
      (fun m hmm f hf r => by
        obtain ⟨p, -, -, hp⟩ := hl f hf
        exact ⟨fun h r' => (hp r' _ (hm m hmm)).2 ((hp r _ (hm m hmm)).1 h), fun h => h r⟩) (old, .none)
    simp only [true_and] at key
    have hd : ((Codec.struct zero fs).dec old (.obj ms)).2 = (ms.foldl (decMember fs) (old, .none)).2 := by
      simp only [Codec.struct, visible_eq (nodup_of_fold hn)]
    rw [hd, key]
    constructor
    · intro h
      refine .struct l ms fun m hmm p hp he => ?_
      obtain ⟨f, hf, h1, h2⟩ := hr p hp
      have := h m hmm f ((findField_iff hn).2 ⟨hf, by rw [h1, he]⟩)
      exact (h2 old _ (hm m hmm)).1 (this old)
    · intro h m hmm f hf r
      cases h with
      | struct _ _ h =>
        obtain ⟨hf, he⟩ := (findField_iff hn).1 hf
        obtain ⟨p, hp, h1, h2⟩ := hl f hf
        exact (h2 r _ (hm m hmm)).2 (h m hmm p hp (by rw [← he, h1]))
  | _ => exact iff_of_false (by simp [Codec.struct]) (by intro h; cases h)

theorem typed_unmarshal {α : Type} {E : Env} {c : Codec α} {sh : Shape} (h : Typed E c sh) (old : α) (s : List Char) :
    (c.unmarshal old s).2 = false ↔ ∃ j, IsJson s j ∧ Fits E sh j := by
  by_cases hs : ∃ j, IsJson s j
  · obtain ⟨j, hj⟩ := hs
    rw [C170_reads c old hj]
    simp only [ne_eq, decide_not, Bool.not_eq_false', decide_eq_true_eq]
    rw [h old j hj.proper]
    exact ⟨fun h => ⟨j, hj, h⟩, fun ⟨k, hk, h⟩ => C170_unique hk hj ▸ h⟩
  · rw [C170_rejects c old fun j hj => hs ⟨j, hj⟩]
    exact iff_of_false (by simp) fun ⟨j, hj, _⟩ => hs ⟨j, hj⟩

/-! ### The structs -/

theorem row_typed {E : Env} (hS : Lawful E.S) : Typed E E.row rowShape :=
  typed_struct (row_names E) <|
    .cons (typed_field (typed_float hS) _ _ _) <|
    .cons (typed_field (typed_float hS) _ _ _) <|
    .cons (typed_field (typed_float hS) _ _ _) .nil

/-- C171 for `OrderBookRow`. -/
theorem C171_row {E : Env} (hS : Lawful E.S) (old : Row) (s : List Char) :
    (E.row.unmarshal old s).2 = false ↔ ∃ j, IsJson s j ∧ Fits E rowShape j :=
  typed_unmarshal (row_typed hS) old s

theorem update_typed {E : Env} (hS : Lawful E.S) : Typed E E.update updateShape :=
  typed_struct (update_names E) <|
    .cons (typed_field (typed_float hS) _ _ _) <|
    .cons (typed_field (typed_float hS) _ _ _) <|
    .cons (typed_field (typed_str E) _ _ _) .nil

/-- C171 for `OrderBookUpdate`. -/
theorem C171_update {E : Env} (hS : Lawful E.S) (old : Update) (s : List Char) :
    (E.update.unmarshal old s).2 = false ↔ ∃ j, IsJson s j ∧ Fits E updateShape j :=
  typed_unmarshal (update_typed hS) old s

theorem book_typed {E : Env} (hS : Lawful E.S) : Typed E E.book bookShape :=
  typed_struct (book_names E) <|
    .cons (typed_field (typed_int E) _ _ _) <|
    .cons (typed_field (typed_slice _ _ (row_typed hS)) _ _ _) <|
    .cons (typed_field (typed_slice _ _ (row_typed hS)) _ _ _) <|
    .cons (typed_field (typed_int E) _ _ _) .nil

/-- C171 for `OrderBook`. -/
theorem C171_book {E : Env} (hS : Lawful E.S) (old : Book) (s : List Char) :
    (E.book.unmarshal old s).2 = false ↔ ∃ j, IsJson s j ∧ Fits E bookShape j :=
  typed_unmarshal (book_typed hS) old s

theorem candle_typed {E : Env} (hS : Lawful E.S) : Typed E E.candle candleShape :=
  typed_struct (candle_names E) <|
    .cons (typed_field (typed_int E) _ _ _) <|
    .cons (typed_field (typed_float hS) _ _ _) <|
    .cons (typed_field (typed_float hS) _ _ _) <|
    .cons (typed_field (typed_float hS) _ _ _) <|
    .cons (typed_field (typed_float hS) _ _ _) <|
    .cons (typed_field (typed_float hS) _ _ _) .nil

/-- C171 for `Candle`. -/
theorem C171_candle {E : Env} (hS : Lawful E.S) (old : Candle) (s : List Char) :
    (E.candle.unmarshal old s).2 = false ↔ ∃ j, IsJson s j ∧ Fits E candleShape j :=
  typed_unmarshal (candle_typed hS) old s

theorem asset_typed {E : Env} (_hS : Lawful E.S) : Typed E E.asset assetShape :=
  typed_struct (asset_names E) <|
    .cons (typed_field (typed_str E) _ _ _) <|
    .cons (typed_field (typed_str E) _ _ _) <|
    .cons (typed_field (typed_str E) _ _ _) .nil

/-- C171 for `Asset`. -/
theorem C171_asset {E : Env} (hS : Lawful E.S) (old : Asset) (s : List Char) :
    (E.asset.unmarshal old s).2 = false ↔ ∃ j, IsJson s j ∧ Fits E assetShape j :=
  typed_unmarshal (asset_typed hS) old s

theorem pair_typed {E : Env} (hS : Lawful E.S) : Typed E E.pair pairShape :=
  typed_struct (pair_names E) <|
    .cons (typed_field (asset_typed hS) _ _ _) <|
    .cons (typed_field (asset_typed hS) _ _ _) .nil

/-- C171 for `Pair`. -/
theorem C171_pair {E : Env} (hS : Lawful E.S) (old : Pair) (s : List Char) :
    (E.pair.unmarshal old s).2 = false ↔ ∃ j, IsJson s j ∧ Fits E pairShape j :=
  typed_unmarshal (pair_typed hS) old s

theorem ticker_typed {E : Env} (hS : Lawful E.S) : Typed E E.ticker tickerShape :=
  typed_struct (ticker_names E) <|
    .cons (typed_field (typed_int E) _ _ _) <|
    .cons (typed_field (typed_float hS) _ _ _) <|
    .cons (typed_field (typed_float hS) _ _ _) <|
    .cons (typed_field (typed_float hS) _ _ _) <|
    .cons (typed_field (typed_float hS) _ _ _) <|
    .cons (typed_field (typed_float hS) _ _ _) .nil

/-- C171 for `Ticker`. -/
theorem C171_ticker {E : Env} (hS : Lawful E.S) (old : Ticker) (s : List Char) :
    (E.ticker.unmarshal old s).2 = false ↔ ∃ j, IsJson s j ∧ Fits E tickerShape j :=
  typed_unmarshal (ticker_typed hS) old s

theorem balanceSnapshot_typed {E : Env} (hS : Lawful E.S) : Typed E E.balanceSnapshot balanceSnapshotShape :=
  typed_struct (balanceSnapshot_names E) <|
    .cons (typed_field (typed_float hS) _ _ _) <|
    .cons (typed_field (typed_float hS) _ _ _) <|
    .cons (typed_field (typed_float hS) _ _ _) <|
    .cons (typed_field (typed_float hS) _ _ _) .nil

/-- C171 for `BalanceSnapshot`. -/
theorem C171_balanceSnapshot {E : Env} (hS : Lawful E.S) (old : BalanceSnapshot) (s : List Char) :
    (E.balanceSnapshot.unmarshal old s).2 = false ↔ ∃ j, IsJson s j ∧ Fits E balanceSnapshotShape j :=
  typed_unmarshal (balanceSnapshot_typed hS) old s

theorem balance_typed {E : Env} (hS : Lawful E.S) : Typed E E.balance balanceShape :=
  typed_struct (balance_names E) <|
    .cons (typed_field (typed_ptr (asset_typed hS)) _ _ _) <|
    .cons (typed_field (typed_float hS) _ _ _) .nil

/-- C171 for `Balance`. -/
theorem C171_balance {E : Env} (hS : Lawful E.S) (old : Balance) (s : List Char) :
    (E.balance.unmarshal old s).2 = false ↔ ∃ j, IsJson s j ∧ Fits E balanceShape j :=
  typed_unmarshal (balance_typed hS) old s

theorem assetsSnapshot_typed {E : Env} (hS : Lawful E.S) : Typed E E.assetsSnapshot assetsSnapshotShape :=
  typed_struct (assetsSnapshot_names E) <|
    .cons (typed_field (typed_float hS) _ _ _) <|
    .cons (typed_field (typed_slice _ _ (balance_typed hS)) _ _ _) .nil

/-- C171 for `AssetsSnapshot`. -/
theorem C171_assetsSnapshot {E : Env} (hS : Lawful E.S) (old : AssetsSnapshot) (s : List Char) :
    (E.assetsSnapshot.unmarshal old s).2 = false ↔ ∃ j, IsJson s j ∧ Fits E assetsSnapshotShape j :=
  typed_unmarshal (assetsSnapshot_typed hS) old s

theorem trade_typed {E : Env} (hS : Lawful E.S) : Typed E E.trade tradeShape :=
  typed_struct (trade_names E) <|
    .cons (typed_field (typed_str E) _ _ _) <|
    .cons (typed_field (typed_time E) _ _ _) <|
    .cons (typed_field (typed_str E) _ _ _) <|
    .cons (typed_field (typed_str E) _ _ _) <|
    .cons (typed_field (pair_typed hS) _ _ _) <|
    .cons (typed_field (typed_float hS) _ _ _) <|
    .cons (typed_field (typed_float hS) _ _ _) <|
    .cons (typed_field (typed_float hS) _ _ _) <|
    .cons (typed_field (typed_float hS) _ _ _) <|
    .cons (typed_field (typed_str E) _ _ _) .nil

/-- C171 for `Trade`. -/
theorem C171_trade {E : Env} (hS : Lawful E.S) (old : Trade) (s : List Char) :
    (E.trade.unmarshal old s).2 = false ↔ ∃ j, IsJson s j ∧ Fits E tradeShape j :=
  typed_unmarshal (trade_typed hS) old s

theorem positionCloseOrder_typed {E : Env} (hS : Lawful E.S) : Typed E E.positionCloseOrder positionCloseOrderShape :=
  typed_struct (positionCloseOrder_names E) <|
    .cons (typed_field (typed_float hS) _ _ _) <|
    .cons (typed_field (typed_str E) _ _ _) .nil

/-- C171 for `PositionCloseOrder`. -/
theorem C171_positionCloseOrder {E : Env} (hS : Lawful E.S) (old : PositionCloseOrder) (s : List Char) :
    (E.positionCloseOrder.unmarshal old s).2 = false ↔ ∃ j, IsJson s j ∧ Fits E positionCloseOrderShape j :=
  typed_unmarshal (positionCloseOrder_typed hS) old s

theorem position_typed {E : Env} (hS : Lawful E.S) : Typed E E.position positionShape :=
  typed_struct (position_names E) <|
    .cons (typed_field (typed_str E) _ _ _) <|
    .cons (typed_field (typed_str E) _ _ _) <|
    .cons (typed_field (pair_typed hS) _ _ _) <|
    .cons (typed_field (typed_bool E) _ _ _) <|
    .cons (typed_field (positionCloseOrder_typed hS) _ _ _) <|
    .cons (typed_field (positionCloseOrder_typed hS) _ _ _) <|
    .cons (typed_field (typed_float hS) _ _ _) <|
    .cons (typed_field (typed_float hS) _ _ _) <|
    .cons (typed_field (typed_float hS) _ _ _) <|
    .cons (typed_field (typed_float hS) _ _ _) <|
    .cons (typed_field (typed_time E) _ _ _) <|
    .cons (typed_field (typed_time E) _ _ _) <|
    .cons (typed_field (typed_slice _ _ (typed_str E)) _ _ _) <|
    .cons (typed_field (typed_str E) _ _ _) <|
    .cons (typed_field (typed_str E) _ _ _) .nil

/-- C171 for `Position`. -/
theorem C171_position {E : Env} (hS : Lawful E.S) (old : Position) (s : List Char) :
    (E.position.unmarshal old s).2 = false ↔ ∃ j, IsJson s j ∧ Fits E positionShape j :=
  typed_unmarshal (position_typed hS) old s

theorem order_typed {E : Env} (hS : Lawful E.S) : Typed E E.order orderShape :=
  typed_struct (order_names E) <|
    .cons (typed_field (typed_str E) _ _ _) <|
    .cons (typed_field (typed_str E) _ _ _) <|
    .cons (typed_field (typed_str E) _ _ _) <|
    .cons (typed_field (typed_ptr (pair_typed hS)) _ _ _) <|
    .cons (typed_field (typed_float hS) _ _ _) <|
    .cons (typed_field (typed_float hS) _ _ _) <|
    .cons (typed_field (typed_float hS) _ _ _) <|
    .cons (typed_field (typed_float hS) _ _ _) <|
    .cons (typed_field (typed_float hS) _ _ _) <|
    .cons (typed_field (typed_str E) _ _ _) <|
    .cons (typed_field (typed_time E) _ _ _) <|
    .cons (typed_field (typed_time E) _ _ _) <|
    .cons (typed_field (typed_slice _ _ (typed_str E)) _ _ _) <|
    .cons (typed_field (typed_float hS) _ _ _) <|
    .cons (typed_field (typed_float hS) _ _ _) <|
    .cons (typed_field (typed_str E) _ _ _) <|
    .cons (typed_field (typed_str E) _ _ _) .nil

/-- C171 for `Order`. -/
theorem C171_order {E : Env} (hS : Lawful E.S) (old : Order) (s : List Char) :
    (E.order.unmarshal old s).2 = false ↔ ∃ j, IsJson s j ∧ Fits E orderShape j :=
  typed_unmarshal (order_typed hS) old s

theorem orderRequest_typed {E : Env} (hS : Lawful E.S) : Typed E E.orderRequest orderRequestShape :=
  typed_struct (orderRequest_names E) <|
    .cons (typed_field (typed_str E) _ _ _) <|
    .cons (typed_field (typed_str E) _ _ _) <|
    .cons (typed_field (pair_typed hS) _ _ _) <|
    .cons (typed_field (typed_float hS) _ _ _) <|
    .cons (typed_field (typed_float hS) _ _ _) <|
    .cons (typed_field (typed_float hS) _ _ _) <|
    .cons (typed_field (typed_float hS) _ _ _) <|
    .cons (typed_field (typed_float hS) _ _ _) .nil

/-- C171 for `OrderRequest`. -/
theorem C171_orderRequest {E : Env} (hS : Lawful E.S) (old : OrderRequest) (s : List Char) :
    (E.orderRequest.unmarshal old s).2 = false ↔ ∃ j, IsJson s j ∧ Fits E orderRequestShape j :=
  typed_unmarshal (orderRequest_typed hS) old s

theorem createOrderAction_typed {E : Env} (hS : Lawful E.S) : Typed E E.createOrderAction createOrderActionShape :=
  typed_struct (createOrderAction_names E) <|
    .cons (typed_field (typed_str E) _ _ _) <|
    .cons (typed_field (typed_str E) _ _ _) <|
    .cons (typed_field (typed_str E) _ _ _) <|
    .cons (typed_field (typed_str E) _ _ _) <|
    .cons (typed_field (typed_float hS) _ _ _) <|
    .cons (typed_field (typed_float hS) _ _ _) <|
    .cons (typed_field (typed_float hS) _ _ _) <|
    .cons (typed_field (typed_float hS) _ _ _) <|
    .cons (typed_field (typed_float hS) _ _ _) .nil

/-- C171 for `CreateOrderAction`. -/
theorem C171_createOrderAction {E : Env} (hS : Lawful E.S) (old : CreateOrderAction) (s : List Char) :
    (E.createOrderAction.unmarshal old s).2 = false ↔ ∃ j, IsJson s j ∧ Fits E createOrderActionShape j :=
  typed_unmarshal (createOrderAction_typed hS) old s

theorem updateOrderAction_typed {E : Env} (hS : Lawful E.S) : Typed E E.updateOrderAction updateOrderActionShape :=
  typed_struct (updateOrderAction_names E) <|
    .cons (typed_field (typed_str E) _ _ _) <|
    .cons (typed_field (typed_str E) _ _ _) <|
    .cons (typed_field (typed_float hS) _ _ _) <|
    .cons (typed_field (typed_float hS) _ _ _) <|
    .cons (typed_field (typed_float hS) _ _ _) <|
    .cons (typed_field (typed_float hS) _ _ _) <|
    .cons (typed_field (typed_float hS) _ _ _) .nil

/-- C171 for `UpdateOrderAction`. -/
theorem C171_updateOrderAction {E : Env} (hS : Lawful E.S) (old : UpdateOrderAction) (s : List Char) :
    (E.updateOrderAction.unmarshal old s).2 = false ↔ ∃ j, IsJson s j ∧ Fits E updateOrderActionShape j :=
  typed_unmarshal (updateOrderAction_typed hS) old s

theorem cancelOrderAction_typed {E : Env} (_hS : Lawful E.S) : Typed E E.cancelOrderAction cancelOrderActionShape :=
  typed_struct (cancelOrderAction_names E) <|
    .cons (typed_field (typed_str E) _ _ _) <|
    .cons (typed_field (typed_str E) _ _ _) .nil

/-- C171 for `CancelOrderAction`. -/
theorem C171_cancelOrderAction {E : Env} (hS : Lawful E.S) (old : CancelOrderAction) (s : List Char) :
    (E.cancelOrderAction.unmarshal old s).2 = false ↔ ∃ j, IsJson s j ∧ Fits E cancelOrderActionShape j :=
  typed_unmarshal (cancelOrderAction_typed hS) old s

theorem updatePositionAction_typed {E : Env} (hS : Lawful E.S) : Typed E E.updatePositionAction updatePositionActionShape :=
  typed_struct (updatePositionAction_names E) <|
    .cons (typed_field (typed_str E) _ _ _) <|
    .cons (typed_field (typed_str E) _ _ _) <|
    .cons (typed_field (typed_str E) _ _ _) <|
    .cons (typed_field (typed_str E) _ _ _) <|
    .cons (typed_field (typed_float hS) _ _ _) <|
    .cons (typed_field (typed_float hS) _ _ _) <|
    .cons (typed_field (typed_float hS) _ _ _) <|
    .cons (typed_field (typed_float hS) _ _ _) .nil

/-- C171 for `UpdatePositionAction`. -/
theorem C171_updatePositionAction {E : Env} (hS : Lawful E.S) (old : UpdatePositionAction) (s : List Char) :
    (E.updatePositionAction.unmarshal old s).2 = false ↔ ∃ j, IsJson s j ∧ Fits E updatePositionActionShape j :=
  typed_unmarshal (updatePositionAction_typed hS) old s

theorem closePositionAction_typed {E : Env} (_hS : Lawful E.S) : Typed E E.closePositionAction closePositionActionShape :=
  typed_struct (closePositionAction_names E) <|
    .cons (typed_field (typed_str E) _ _ _) <|
    .cons (typed_field (typed_str E) _ _ _) .nil

/-- C171 for `ClosePositionAction`. -/
theorem C171_closePositionAction {E : Env} (hS : Lawful E.S) (old : ClosePositionAction) (s : List Char) :
    (E.closePositionAction.unmarshal old s).2 = false ↔ ∃ j, IsJson s j ∧ Fits E closePositionActionShape j :=
  typed_unmarshal (closePositionAction_typed hS) old s

theorem annotation_typed {E : Env} (hS : Lawful E.S) : Typed E E.annotation annotationShape :=
  typed_struct (annotation_names E) <|
    .cons (typed_field (typed_str E) _ _ _) <|
    .cons (typed_field (typed_int E) _ _ _) <|
    .cons (typed_field (typed_int E) _ _ _) <|
    .cons (typed_field (typed_float hS) _ _ _) <|
    .cons (typed_field (typed_str E) _ _ _) <|
    .cons (typed_field (typed_str E) _ _ _) <|
    .cons (typed_field (typed_str E) _ _ _) .nil

/-- C171 for `Annotation`. -/
theorem C171_annotation {E : Env} (hS : Lawful E.S) (old : Annotation) (s : List Char) :
    (E.annotation.unmarshal old s).2 = false ↔ ∃ j, IsJson s j ∧ Fits E annotationShape j :=
  typed_unmarshal (annotation_typed hS) old s

theorem actions_typed {E : Env} (hS : Lawful E.S) : Typed E E.actions actionsShape :=
  typed_struct (actions_names E) <|
    .cons (typed_field (typed_map (createOrderAction_typed hS)) _ _ _) <|
    .cons (typed_field (typed_map (updateOrderAction_typed hS)) _ _ _) <|
    .cons (typed_field (typed_map (cancelOrderAction_typed hS)) _ _ _) <|
    .cons (typed_field (typed_map (updatePositionAction_typed hS)) _ _ _) <|
    .cons (typed_field (typed_map (closePositionAction_typed hS)) _ _ _) <|
    .cons (typed_field (typed_slice _ _ (annotation_typed hS)) _ _ _) .nil

/-- C171 for `Actions`. -/
theorem C171_actions {E : Env} (hS : Lawful E.S) (old : Actions) (s : List Char) :
    (E.actions.unmarshal old s).2 = false ↔ ∃ j, IsJson s j ∧ Fits E actionsShape j :=
  typed_unmarshal (actions_typed hS) old s

theorem addAnnotationsAction_typed {E : Env} (hS : Lawful E.S) : Typed E E.addAnnotationsAction addAnnotationsActionShape :=
  typed_struct (addAnnotationsAction_names E) <|
    .cons (typed_field (typed_slice _ _ (annotation_typed hS)) _ _ _) .nil

/-- C171 for `AddAnnotationsAction`. -/
theorem C171_addAnnotationsAction {E : Env} (hS : Lawful E.S) (old : AddAnnotationsAction) (s : List Char) :
    (E.addAnnotationsAction.unmarshal old s).2 = false ↔ ∃ j, IsJson s j ∧ Fits E addAnnotationsActionShape j :=
  typed_unmarshal (addAnnotationsAction_typed hS) old s

theorem tick_typed {E : Env} (hS : Lawful E.S) : Typed E E.tick tickShape :=
  typed_struct (tick_names E) <|
    .cons (typed_field (typed_ptr (candle_typed hS)) _ _ _) <|
    .cons (typed_field (typed_ptr (actions_typed hS)) _ _ _) <|
    .cons (typed_field (typed_map (order_typed hS)) _ _ _) <|
    .cons (typed_field (typed_map (position_typed hS)) _ _ _) <|
    .cons (typed_field (typed_map (position_typed hS)) _ _ _) <|
    .cons (typed_field (typed_float hS) _ _ _) .nil

/-- C171 for `Tick`. -/
theorem C171_tick {E : Env} (hS : Lawful E.S) (old : TickRecord) (s : List Char) :
    (E.tick.unmarshal old s).2 = false ↔ ∃ j, IsJson s j ∧ Fits E tickShape j :=
  typed_unmarshal (tick_typed hS) old s

/-! ### Numbers read -/

/-- C171: a number read into a float64 becomes the float nearest to the decimal, with its sign; if that
is infinite the variable keeps its value and there is an error. -/
theorem C171_float {E : Env} (hS : Lawful E.S) (old : Fl) {s t : List Char} {neg : Bool} {v : ℚ}
    (hs : IsJson s (.num t)) (ht : Decimal t neg v) :
    ((∀ b, E.S.rnd v ≠ .inf b) → E.float.unmarshal old s = (if neg then Fl.neg (E.S.rnd v) else E.S.rnd v, false)) ∧
    (∀ b, E.S.rnd v = .inf b → E.float.unmarshal old s = (old, true)) := by
  have hp := parseFloat_decimal E.S ht
  rw [C170_reads E.float old hs]
  constructor
  · intro h
    have : finish E.S neg v = some (if neg then Fl.neg (E.S.rnd v) else E.S.rnd v) := by
      unfold finish
      by_cases h0 : v = 0
      · subst h0
        rw [if_pos rfl, rnd_zero hS]
        cases neg <;> simp [Fl.zero, Fl.neg]
      · rw [if_neg h0]
        cases hr : E.S.rnd v <;> simp
        exact absurd hr (h _)
    rw [this] at hp
    simp [Env.float, Codec.float, hp]
  · intro b h
    have : finish E.S neg v = none := by
      unfold finish
      by_cases h0 : v = 0
      · subst h0; rw [rnd_zero hS] at h; cases h
      · rw [if_neg h0, h]
    rw [this] at hp
    simp [Env.float, Codec.float, hp]

/-- C171: every number of the grammar is a decimal. -/
theorem C171_decimal {t : List Char} (h : Number t) : ∃ neg v, Decimal t neg v := number_decimal h

theorem roundMag_threshold {v : ℚ} (hv : 0 < v) : roundMag 53 (-1074) v < pow2 1024 ↔ v < 2 ^ 1024 - 2 ^ 970 := by
  have hlog : ∀ w : ℚ, 2 ^ 1023 ≤ w → w < 2 ^ 1024 → ulpExp 53 (-1074) w = 971 := by
    intro w h1 h2
    have hw : (0 : ℚ) < w := lt_of_lt_of_le (by positivity) h1
    have a1 : (1023 : ℤ) ≤ Int.log 2 w := (Int.zpow_le_iff_le_log (by norm_num) hw).1 (by exact_mod_cast h1)
    have a2 : Int.log 2 w < 1024 := (Int.lt_zpow_iff_log_lt (by norm_num) hw).1 (by exact_mod_cast h2)
    unfold ulpExp
    have : Int.log 2 w = 1023 := by omega
    rw [this]; norm_num
  obtain ⟨U, hU⟩ : ∃ U : ℚ, U = 2 ^ 970 := ⟨_, rfl⟩
  have hU0 : 0 < U := by rw [hU]; positivity
  have e971 : pow2 971 = 2 * U := by
    rw [pow2_eq, hU]; exact (zpow_ofNat 2 971).trans (pow_add 2 1 970)
  have e1024 : pow2 1024 = 2 ^ 54 * U := by
    rw [pow2_eq, hU]; exact (zpow_ofNat 2 1024).trans (pow_add 2 54 970)
  have f1024 : (2 : ℚ) ^ 1024 = 2 ^ 54 * U := by rw [hU]; exact pow_add 2 54 970
  have f1023 : (2 : ℚ) ^ 1023 = 2 ^ 53 * U := by rw [hU]; exact pow_add 2 53 970
  rw [f1024, f1023] at hlog
  rw [f1024, ← hU, e1024]
  clear hU f1024 f1023 e1024
  have key : ∀ w : ℚ, 2 ^ 53 * U ≤ w → w < 2 ^ 54 * U → roundMag 53 (-1074) w = roundInt (w / (2 * U)) * (2 * U) := by
    intro w h1 h2
    simp only [roundMag, hlog w h1 h2, e971]
  have e3 : 2 ^ 54 * U - U < 2 ^ 54 * U := by linarith
  have e4 : 2 ^ 53 * U < 2 ^ 54 * U - U := by linarith
  constructor
  · intro h
    by_contra hc
    push Not at hc
    have hm := roundMag_mono (p := 53) (emin := -1074) (by norm_num)
      (q := 2 ^ 54 * U - U) (by linarith) hc
    have : roundMag 53 (-1074) (2 ^ 54 * U - U) = 2 ^ 54 * U := by
      rw [key _ e4.le e3]
      have hx : (2 ^ 54 * U - U) / (2 * U) = 2 ^ 53 - 1 / 2 := by field_simp
      have : roundInt (2 ^ 53 - 1 / 2) = 2 ^ 53 := by decide +kernel
      rw [hx, this]; push_cast; ring
    rw [this] at hm
    exact absurd h (not_lt.2 hm)
  · intro h
    have hw : v ≤ max v (2 ^ 53 * U) := le_max_left _ _
    refine lt_of_le_of_lt (roundMag_mono (p := 53) (emin := -1074) (by norm_num) hv hw) ?_
    have hlt : max v (2 ^ 53 * U) < 2 ^ 54 * U - U := max_lt h e4
    have hge : 2 ^ 53 * U ≤ max v (2 ^ 53 * U) := le_max_right _ _
    generalize max v (2 ^ 53 * U) = w at *
    rw [key w hge (lt_trans hlt e3), show (2 : ℚ) ^ 54 * U = 2 ^ 53 * (2 * U) by ring]
    refine mul_lt_mul_of_pos_right ?_ (by linarith)
    have hq : w / (2 * U) < 2 ^ 53 - 1 / 2 := by
      rw [div_lt_iff₀ (by linarith)]; linarith
    generalize w / (2 * U) = x at *
    have hfl : ⌊x⌋ < 2 ^ 53 := by
      rw [Int.floor_lt]; push_cast; linarith
    have hr : roundInt x ≤ 2 ^ 53 - 1 := by
      unfold roundInt
      simp only
      by_cases hk : ⌊x⌋ = 2 ^ 53 - 1
      · rw [if_pos (by rw [hk]; push_cast; linarith)]; omega
      · split_ifs <;> omega
    have : (roundInt x : ℚ) ≤ (2 ^ 53 - 1 : ℤ) := by exact_mod_cast hr
    push_cast at this
    linarith

/-- C171: in float64, the decimals that are errors are those from halfway between the largest number and
2^1024 on. -/
theorem C171_range {v : ℚ} (hv : 0 ≤ v) : (∀ b, ieee.rnd v ≠ .inf b) ↔ v < 2 ^ 1024 - 2 ^ 970 := by
  rcases hv.eq_or_lt with rfl | hv
  · rw [show ieee.rnd 0 = .fin 0 from rnd_zero ieee_lawful]
    have : (2 : ℚ) ^ 970 < 2 ^ 1024 := pow_lt_pow_right₀ (by norm_num) (by norm_num)
    exact iff_of_true (by simp) (sub_pos.2 this)
  · have h := rne_pos (p := 53) (emin := -1074) (emax := 1024) hv
    change rnd64 v = _ at h
    have he : ieee.rnd v = rnd64 v := rfl
    rw [he, h, ← roundMag_threshold hv]
    have hc : ((1024 : ℕ) : ℤ) = 1024 := rfl
    rw [hc]
    split_ifs with hb
    · simpa using hb
    · simpa using hb

/-- C171: a number read into an integer. -/
theorem C171_int (old : Int) {s t : List Char} (hs : IsJson s (.num t)) :
    (∀ n, Integer t n → -2 ^ 63 ≤ n → n < 2 ^ 63 → Codec.int.unmarshal old s = (n, false)) ∧
    ((∀ n, Integer t n → ¬ (-2 ^ 63 ≤ n ∧ n < 2 ^ 63)) → Codec.int.unmarshal old s = (old, true)) := by
  rw [C170_reads Codec.int old hs]
  constructor
  · intro n hn h1 h2
    have := parseInt_integer hn
    rw [if_pos ⟨h1, h2⟩] at this
    simp [Codec.int, this]
  · intro h
    have hN : Number t := by cases hs.proper; assumption
    cases hp : parseInt 64 t with
    | none => simp [Codec.int, hp]
    | some n => exact absurd (parseInt_range hp) (h n (integer_of_parseInt hN hp))

/-- C171: whether reading an object into a struct is an error does not depend on the order of the members. -/
theorem C171_reordered {E : Env} {fs : List (String × Shape)} {ms ms' : List (List Char × J)} (h : ms.Perm ms') :
    Fits E (.struct fs) (.obj ms) ↔ Fits E (.struct fs) (.obj ms') := by
  have key : ∀ {a b : List (List Char × J)}, a.Perm b → Fits E (.struct fs) (.obj a) → Fits E (.struct fs) (.obj b) := by
    intro a b hp hf
    cases hf with
    | struct _ _ hf => exact .struct _ _ fun m hm => hf m (hp.mem_iff.2 hm)
  exact ⟨key h, key h.symm⟩

instance (l : List Char) : Decidable (AllDigits l) := inferInstanceAs (Decidable (∀ c ∈ l, c ∈ "0123456789".toList))

/-- "-12.50e-01" is minus 1.25; the number and the value of its exponent. -/
example : Number "-12.50e-01".toList ∧ Decimal "-12.50e-01".toList true (5 / 4) := by
  refine ⟨⟨"-".toList, "12".toList, ".50".toList, "e-01".toList, by decide, Or.inr (by decide), by decide, by decide,
    by decide, Or.inr ⟨"50".toList, by decide, by decide, by decide⟩,
    Or.inr ⟨'e', ['-'], "01".toList, by decide, Or.inl rfl, by simp, by decide, by decide⟩⟩, ?_⟩
  refine ⟨"12".toList, "50".toList, "e-01".toList, -1, by decide, by decide, by decide, by decide,
    Or.inr ⟨'e', ['-'], "01".toList, by decide, Or.inl rfl, by decide, by decide, Or.inr ⟨rfl, by decide⟩⟩, ?_⟩
  rw [show Nat.ofDigitChars 10 ("12".toList ++ "50".toList) 0 = 1250 by decide,
    show "50".toList.length = 2 by decide]
  norm_num

/-- Digits of an exponent beyond the fifth do not count: the exponent of "1e0123456" is 12345. -/
example : exponentDigits "0123456".toList = 12345 := by decide

/-- A candle whose time has a fraction does not fit; one with unknown members of any kind does. -/
example : ¬ Fits exampleEnv candleShape (.obj [("Time".toList, .num "1.0".toList)]) ∧
    Fits exampleEnv candleShape (.obj [("x".toList, .arr []), ("TIME".toList, .num "-7".toList), ("open".toList, .null)]) := by
  constructor
  · intro h
    cases h with
    | struct _ _ h =>
      have := h ("Time".toList, .num "1.0".toList) (by simp) ("time", .int) (by simp) (by decide)
      cases this with
      | int _ n hi _ _ =>
        obtain ⟨I, -, hI, ⟨h, -⟩ | ⟨h, -⟩⟩ := hi
        · rw [← h] at hI; exact absurd hI (by decide)
        · exact absurd h (by simp)
  · refine .struct _ _ ?_
    intro m hm f hf he
    simp only [List.mem_cons, List.not_mem_nil, or_false] at hm hf
    rcases hm with rfl | rfl | rfl
    · rcases hf with rfl | rfl | rfl | rfl | rfl | rfl <;> exact absurd he (by decide)
    · rcases hf with rfl | rfl | rfl | rfl | rfl | rfl
      · exact .int _ (-7) ⟨"7".toList, by decide, by decide, Or.inr ⟨by decide, by decide⟩⟩ (by norm_num) (by norm_num)
      all_goals exact absurd he (by decide)
    · exact .null _

end Finmod.Json
