import Verif.Model.Nil

/-!
# Nil pointers: C194, C195
-/

namespace Finmod.Spec
open Go

/-- Above zero, or not a number. -/
def AboveZeroOrNaN : Fl → Prop
  | .nan => True
  | .inf neg => neg = false
  | .fin q => 0 < q
  | .negZero => False

/-- What `*p = *q` does when the value given holds the pointer `q`, and the refusal when it holds another type. -/
def Overwrites {α : Type} (f : Ptr α → AnyVal → Res (Ptr α)) (wrap : Ptr α → AnyVal) : Prop :=
  (∀ p i, (∀ q, i ≠ wrap q) → f p i = .err .einvalid p) ∧
  (∀ a b, f (some a) (wrap (some b)) = .ok (some b)) ∧
  (∀ q, f none (wrap q) = .panic) ∧
  (∀ p, f p (wrap none) = .panic)

end Finmod.Spec

namespace Finmod
open Go Spec

/-- **C194** `GetSchema` answers for nil. -/
theorem C194_schema :
    (∀ p, tradeSchemaN p = .ok ⟨"trades", "id"⟩) ∧ (∀ p, orderSchemaN p = .ok ⟨"orders", "id"⟩) ∧
    (∀ p, positionSchemaN p = .ok ⟨"positions", "id"⟩) ∧ (∀ p, annotationSchemaN p = .ok ⟨"annotations", "id"⟩) :=
  ⟨fun _ => rfl, fun _ => rfl, fun _ => rfl, fun _ => rfl⟩

/-- **C194** `Update` refuses a value of another type without touching the receiver, nil or not; given a pointer of
its own type it panics exactly when one of the two pointers is nil. -/
theorem C194_update :
    Overwrites tradeUpdateN .tradePtr ∧ Overwrites orderUpdateN .orderPtr ∧
    Overwrites positionUpdateN .positionPtr ∧ Overwrites annotationUpdateN .annotationPtr := by
  refine ⟨⟨?_, ?_, ?_, ?_⟩, ⟨?_, ?_, ?_, ?_⟩, ⟨?_, ?_, ?_, ?_⟩, ⟨?_, ?_, ?_, ?_⟩⟩ <;>
    first
    | (intro a b; rfl)
    | (intro q; rfl)
    | (intro p; cases p <;> rfl)
    | (intro p i h; cases i <;> first | rfl | exact absurd rfl (h _))

/-- **C194** `GetDepth` of a nil book: refused for a price not above zero, a panic otherwise. -/
theorem C194_depth (price : Fl) :
    (AboveZeroOrNaN price → getDepthN none price = .panic) ∧
    (¬ AboveZeroOrNaN price → getDepthN none price = .err .einvalid (.fin 0)) := by
  have key : Fl.le price (.fin 0) = true ↔ ¬ AboveZeroOrNaN price := by
    cases price with
    | nan => simp [AboveZeroOrNaN, Fl.le, Fl.isNaN]
    | inf neg =>
      cases neg with
      | false =>
        simp only [AboveZeroOrNaN, Fl.le, Fl.isNaN, Fl.key, Ext.ofRat]
        simp only [top_le_iff, Bool.not_false, Bool.true_and, decide_eq_true_eq, not_true_eq_false, iff_false]
        exact fun h => nomatch h
      | true => simp [AboveZeroOrNaN, Fl.le, Fl.isNaN, Fl.key, Ext.ofRat]
    | fin q => rw [(Fl.is_fin q).le (Fl.is_fin 0)]; simp [AboveZeroOrNaN]
    | negZero => rw [Fl.Is.le (x := .negZero) (a := 0) (by simp [Fl.Is]) (Fl.is_fin 0)]; simp [AboveZeroOrNaN]
  refine ⟨fun h => ?_, fun h => ?_⟩
  · rw [getDepthN, if_neg (fun e => key.1 e h)]; rfl
  · rw [getDepthN, if_pos (key.2 h)]

/-- **C194** `ApplyUpdate` on a nil book: a panic for a side of the book, whatever the price and the volume; another
side is refused. -/
theorem C194_applyUpdate (u : Update) :
    (u.side = "ask" ∨ u.side = "bid" → applyUpdateN none u = .panic) ∧
    (u.side ≠ "ask" → u.side ≠ "bid" → applyUpdateN none u = .err .einvalid none) := by
  refine ⟨fun h => ?_, fun h1 h2 => ?_⟩
  · simp [applyUpdateN, h, Ptr.load]
  · simp [applyUpdateN, h1, h2]

/-- **C194** `GetLocationTime` of a nil tick: the error of an unknown location, a panic for a known one. -/
theorem C194_locationTime (zones : String → Bool) (location : String) :
    (loadLocation zones location = none → locationTimeN zones none location = .err .external zeroTime) ∧
    (∀ loc, loadLocation zones location = some loc → locationTimeN zones none location = .panic) := by
  refine ⟨fun h => ?_, fun loc h => ?_⟩ <;> simp [locationTimeN, h, Ptr.load]

/-- **C194** The `String` methods panic for nil. -/
theorem C194_strings (F : Fmt) :
    assetStringN none = .panic ∧ pairStringN none = .panic ∧ candleStringN F none = .panic ∧
    tickerStringN F none = .panic ∧ tradeStringN F none = .panic ∧ orderStringN F none = .panic ∧
    orderRequestStringN F none = .panic ∧ positionStringN F none = .panic ∧ closeOrderStringN F none = .panic ∧
    balanceSnapshotStringN F none = .panic ∧ assetsSnapshotStringN F none = .panic ∧ balanceStringN F none = .panic ∧
    rowStringN F none = .panic ∧ bookStringN F none = .panic ∧ annotationStringN F none = .panic ∧
    annotationsStringN F none = .panic ∧ fractalStringN F none = .panic :=
  ⟨rfl, rfl, rfl, rfl, rfl, rfl, rfl, rfl, rfl, rfl, rfl, rfl, rfl, rfl, rfl, rfl, rfl⟩

/-- **C194** The other methods panic for nil, whatever their arguments; `Modify` also for a nil trade, `AddX` also
with nothing to add. -/
theorem C194_others (S : FloatSem) :
    tradeIDN none = .panic ∧ orderIDN none = .panic ∧ positionIDN none = .panic ∧ annotationIDN none = .panic ∧
    (∀ s, pairSymbolN none s = .panic) ∧ orderIsOpenN none = .panic ∧ (∀ x, unrealizedProfitN S none x = .panic) ∧
    (∀ x, calculateFieldsN S none x = .panic) ∧ (∀ id z, newPositionN id z none = .panic) ∧
    (∀ t, modifyN S none t = .panic) ∧ (∀ p, modifyN S p none = .panic) ∧ localTimeN none = .panic ∧
    (∀ gen n c, callActionsN gen n none c = .panic) ∧ (∀ id, createIDN none id = .panic) ∧
    (∀ id, updateIDN none id = .panic) ∧ (∀ id, cancelIDN none id = .panic) ∧
    (∀ id, updatePositionIDN none id = .panic) ∧ (∀ id, closePositionIDN none id = .panic) := by
  refine ⟨rfl, rfl, rfl, rfl, fun _ => rfl, rfl, fun _ => rfl, fun _ => rfl, fun _ _ => rfl, fun _ => rfl, ?_, rfl,
    fun _ _ _ => rfl, fun _ => rfl, fun _ => rfl, fun _ => rfl, fun _ => rfl, fun _ => rfl⟩
  intro p; cases p <;> rfl

/-- **C194** Through a pointer that is not nil the methods are those of the other model files. -/
theorem C194_same (S : FloatSem) (F : Fmt) :
    (∀ t i, tradeUpdateN (some t) i = (match Trade.update t i with
      | .ok v => .ok (some v) | .err c v => .err c (some v) | .panic => .panic)) ∧
    (∀ t i, orderUpdateN (some t) i = (match Order.update t i with
      | .ok v => .ok (some v) | .err c v => .err c (some v) | .panic => .panic)) ∧
    (∀ t i, positionUpdateN (some t) i = (match Position.update t i with
      | .ok v => .ok (some v) | .err c v => .err c (some v) | .panic => .panic)) ∧
    (∀ t i, annotationUpdateN (some t) i = (match Annotation.update t i with
      | .ok v => .ok (some v) | .err c v => .err c (some v) | .panic => .panic)) ∧
    (∀ b u, applyUpdateN (some b) u = (match Book.applyUpdate b u with
      | .ok v => .ok (some v) | .err c v => .err c (some v) | .panic => .panic)) ∧
    (∀ b x, getDepthN (some b) x = Book.getDepth b x) ∧
    (∀ b, printN F (some b) = (b.printed F, false)) ∧
    (∀ zones t l, locationTimeN zones (some t) l = Tick.getLocationTime zones t l) ∧
    (∀ t, localTimeN (some t) = t.getLocalTime) ∧
    (∀ p t, modifyN S (some p) (some t) = modify S p t) ∧
    (∀ pick e created accept old cs, saveCandlesN pick e created accept old (some cs)
      = saveCandles pick e created accept old cs) := by
  refine ⟨?_, ?_, ?_, ?_, ?_, ?_, fun _ => rfl, ?_, fun _ => rfl, fun _ _ => rfl, ?_⟩
  · intro t i; cases i with
    | tradePtr q => cases q <;> rfl
    | _ => rfl
  · intro t i; cases i with
    | orderPtr q => cases q <;> rfl
    | _ => rfl
  · intro t i; cases i with
    | positionPtr q => cases q <;> rfl
    | _ => rfl
  · intro t i; cases i with
    | annotationPtr q => cases q <;> rfl
    | _ => rfl
  · intro b u
    unfold applyUpdateN
    split_ifs with h
    · rfl
    · have h1 : u.side ≠ "ask" := fun e => h (.inl e)
      have h2 : u.side ≠ "bid" := fun e => h (.inr e)
      simp [Book.applyUpdate, h1, h2]
  · intro b x
    unfold getDepthN
    split_ifs with h
    · simp [Book.getDepth, h]
    · rfl
  · intro zones t l
    unfold locationTimeN Tick.getLocationTime
    cases loadLocation zones l <;> rfl
  · intro pick e created accept old cs
    cases created <;> rfl

/-- **C194** The same for the methods with no refusal of their own. -/
theorem C194_same_readers (S : FloatSem) (F : Fmt) :
    (∀ a, assetStringN (some a) = .ok (bytes a.string)) ∧ (∀ p, pairStringN (some p) = .ok (bytes p.string)) ∧
    (∀ c, candleStringN F (some c) = c.string F) ∧ (∀ t, tickerStringN F (some t) = t.string F) ∧
    (∀ t, tradeStringN F (some t) = t.string F) ∧ (∀ o, orderStringN F (some o) = o.string F) ∧
    (∀ o, orderRequestStringN F (some o) = o.string F) ∧ (∀ p, positionStringN F (some p) = p.string F) ∧
    (∀ p, closeOrderStringN F (some p) = p.string F) ∧ (∀ b, balanceSnapshotStringN F (some b) = b.string F) ∧
    (∀ a, assetsSnapshotStringN F (some a) = a.string F) ∧ (∀ b, balanceStringN F (some b) = b.string F) ∧
    (∀ r, rowStringN F (some r) = r.string F) ∧ (∀ b, bookStringN F (some b) = b.string F) ∧
    (∀ a, annotationStringN F (some a) = .ok (bytes (a.text F))) ∧
    (∀ l, annotationsStringN F (some l) = annotationsString F l) ∧ (∀ w, fractalStringN F (some w) = w.string F) ∧
    (∀ t, tradeIDN (some t) = .ok t.id) ∧ (∀ o, orderIDN (some o) = .ok o.id) ∧
    (∀ p, positionIDN (some p) = .ok p.id) ∧ (∀ a, annotationIDN (some a) = .ok a.id) ∧
    (∀ p s, pairSymbolN (some p) s = .ok (p.symbolWith s)) ∧ (∀ o, orderIsOpenN (some o) = .ok o.isOpen) ∧
    (∀ p x, unrealizedProfitN S (some p) x = .ok (unrealizedProfit S p x)) ∧
    (∀ o x, calculateFieldsN S (some o) x = (calculateFields S o x).2) ∧
    (∀ id z t, newPositionN id z (some t) = .ok (newPosition id z t)) ∧
    (∀ gen n a c r, callActionsN gen n (some a) c = .ok r ↔ callActions gen n a c = some r) ∧
    (∀ a id, createIDN (some a) id = .ok { a with id := id }) ∧
    (∀ a id, updateIDN (some a) id = .ok { a with id := id }) ∧
    (∀ a id, cancelIDN (some a) id = .ok { a with id := id }) ∧
    (∀ a id, updatePositionIDN (some a) id = .ok { a with id := id }) ∧
    (∀ a id, closePositionIDN (some a) id = .ok { a with id := id }) := by
  refine ⟨?_, ?_, ?_, ?_, ?_, ?_, ?_, ?_, ?_, ?_, ?_, ?_, ?_, ?_, ?_, ?_, ?_, ?_, ?_, ?_, ?_, ?_, ?_, ?_, ?_, ?_, ?_, ?_, ?_,
    ?_, ?_, ?_⟩
  case refine_27 =>
    intro gen n a c r
    simp only [callActionsN, Ptr.load]
    cases callActions gen n a c <;> simp
  all_goals intros; rfl

/-- **C195** Saving candles through a nil pointer empties the file and then panics; if the file cannot be created, it
is an error and the file keeps what it held. -/
theorem C195_save (pick : ℚ → Nat × ℤ) (e : ℤ) (accept : Nat → Nat) (old : Option (List Char)) :
    saveCandlesN pick e true accept old none = (.panic, some []) ∧
    (∀ cs, saveCandlesN pick e false accept old cs = (.err .external (), old)) :=
  ⟨rfl, fun _ => rfl⟩

/-- **C195** Printing a nil book writes the title line and then panics; no other book panics. -/
theorem C195_print (F : Fmt) :
    printN F none = ("======= OrderBook =======\n", true) ∧ (∀ b, (printN F (some b)).2 = false) :=
  ⟨rfl, fun _ => rfl⟩

/-- A book that is not nil is refused, not panicked on, for a price of minus one, as is a nil one. -/
example : getDepthN none (.fin (-1)) = .err .einvalid (.fin 0) :=
  (C194_depth (.fin (-1))).2 (by simp [AboveZeroOrNaN])

example : getDepthN none .nan = .panic := (C194_depth .nan).1 trivial

example : applyUpdateN none ⟨.fin 1, .fin 2, "buy"⟩ = .err .einvalid none :=
  (C194_applyUpdate _).2 (by decide) (by decide)

example : locationTimeN (fun _ => false) none "Mars/Base" = .err .external zeroTime :=
  (C194_locationTime _ _).1 (by decide +kernel)

example : locationTimeN (fun _ => false) none "UTC" = .panic :=
  (C194_locationTime _ _).2 "UTC" (by decide +kernel)

example : tradeUpdateN none .nilInterface = .err .einvalid none :=
  C194_update.1.1 none .nilInterface (fun _ h => nomatch h)

end Finmod
