import Verif.Props.JsonActionsRead

/-!
# C185: lists are read element by element

What a list of a record holds after `json.Unmarshal`: an array replaces the list, but each of its elements is
read into the element that was there before. A field an element does not mention keeps what the old element at
the same index had, and behind the old list what its memory still holds of a longer one.
-/

namespace Finmod.Json
open Go Finmod

namespace Spec

/-- `r` has one element for each of `l`. The `i`-th is read into what stood at index `i` of the old list or, behind
it, of the hidden rest of its memory; beyond that into zero. -/
def ListRead {α : Type} (elem : α → J → α) (old hidden : List α) (zero : α) (l : List J) (r : List α) : Prop :=
  r.length = l.length ∧ ∀ i j, l[i]? = some j → r[i]? = some (elem ((old ++ hidden).getD i zero) j)

/-- The object has one member with this name, up to case, and its value is the array. -/
def OnlyArray (name : String) (ms : List (List Char × J)) (l : List J) : Prop :=
  ∃ n, (ms.filter fun m => foldName m.1 == foldName name.toList) = [(n, .arr l)]

/-- A row read from an object: each number is what the members with its name leave in the old one. Null and
anything else leave the row as it was. -/
def rowRead (float : Codec Fl) (old : Row) : J → Row
  | .obj ms => ⟨held float "price" ms old.price, held float "volume" ms old.volume, held float "accum_volume" ms old.accum⟩
  | _ => old

/-- A balance read from an object. -/
def balanceRead (float : Codec Fl) (asset : Codec (Option Asset)) (old : Balance) : J → Balance
  | .obj ms => ⟨held asset "asset" ms old.asset, held float "amount" ms old.amount⟩
  | _ => old

/-- An annotation read from an object. -/
def annotationRead (float : Codec Fl) (old : Annotation) : J → Annotation
  | .obj ms => ⟨held Codec.str "id" ms old.id, held Codec.int "time" ms old.time,
      held Codec.int "creation_time" ms old.creationTime, held float "price" ms old.price,
      held Codec.str "execution_id" ms old.executionID, held Codec.str "label" ms old.label,
      held Codec.str "tooltip" ms old.tooltip⟩
  | _ => old

/-- A text read from a string; anything else leaves it as it was. -/
def textRead (old : String) : J → String
  | .str s _ => String.ofList s
  | _ => old

end Spec
open Spec

theorem decElems_read {α : Type} {c : Codec α} (h : NeverStops c) (old hidden : List α) (l : List J) :
    ListRead (fun v j => (c.dec v j).1) old hidden c.zero l (decElems c old hidden l).1 := by
  induction l generalizing old hidden with
  | nil => exact ⟨rfl, by simp⟩
  | cons j l ih =>
    have hs := h (firstOf old hidden c.zero) j
    have hi := ih old.tail (if old.isEmpty then hidden.tail else hidden)
    rw [decElems, if_neg hs]
    refine ⟨by rw [List.length_cons, hi.1, List.length_cons], ?_⟩
    intro i k hk
    cases i with
    | zero =>
      obtain rfl : j = k := by simpa using hk
      cases old <;> cases hidden <;> simp [firstOf]
    | succ i =>
      have := hi.2 i k (by simpa using hk)
      rw [List.getElem?_cons_succ, this]
      cases old <;> cases hidden <;> simp

theorem slice_read {α : Type} {c : Codec α} (h : NeverStops c) (isNil : Bool) (stale : List α → List α) (name : String)
    (old : List α) {ms : List (List Char × J)} {l : List J} (hm : OnlyArray name ms l) :
    ListRead (fun v j => (c.dec v j).1) old (stale old) c.zero l (held (Codec.slice isNil stale c) name ms old) := by
  obtain ⟨n, hn⟩ := hm
  rw [held, hn]
  exact decElems_read h old (stale old) l

theorem row_dec (E : Env) (old : Row) (j : J) : (E.row.dec old j).1 = rowRead E.float old j := by
  cases j with
  | obj ms =>
    show (ms.foldl (decMember (visible E.rowFields)) (old, .none)).1 = _
    rw [visible_eq (nodup_of_fold (row_names E))]
    obtain ⟨h1, h2, h3⟩ := row_folded E old ms
    generalize (ms.foldl (decMember E.rowFields) (old, JErr.none)).1 = r at *
    cases r
    simp only at h1 h2 h3
    subst h1 h2 h3
    rfl
  | _ => rfl

theorem balance_dec (E : Env) (old : Balance) (j : J) : (E.balance.dec old j).1 = balanceRead E.float E.asset.ptr old j := by
  cases j with
  | obj ms =>
    show (ms.foldl (decMember (visible E.balanceFields)) (old, .none)).1 = _
    rw [visible_eq (nodup_of_fold (balance_names E))]
    obtain ⟨h1, h2⟩ := balance_folded E old ms
    generalize (ms.foldl (decMember E.balanceFields) (old, JErr.none)).1 = r at *
    cases r
    simp only at h1 h2
    subst h1 h2
    rfl
  | _ => rfl

theorem annotation_dec (E : Env) (old : Annotation) (j : J) : (E.annotation.dec old j).1 = annotationRead E.float old j := by
  cases j with
  | obj ms =>
    show (ms.foldl (decMember (visible E.annotationFields)) (old, .none)).1 = _
    rw [visible_eq (nodup_of_fold (annotation_names E))]
    obtain ⟨h1, h2, h3, h4, h5, h6, h7⟩ := annotation_folded E old ms
    generalize (ms.foldl (decMember E.annotationFields) (old, JErr.none)).1 = r at *
    cases r
    simp only at h1 h2 h3 h4 h5 h6 h7
    subst h1 h2 h3 h4 h5 h6 h7
    rfl
  | _ => rfl

theorem str_dec (old : String) (j : J) : (Codec.str.dec old j).1 = textRead old j := by
  cases j <;> rfl

theorem listRead_congr {α : Type} {f g : α → J → α} (h : ∀ v j, f v j = g v j) {old hidden : List α} {zero : α}
    {l : List J} {r : List α} (hr : ListRead f old hidden zero l r) : ListRead g old hidden zero l r :=
  ⟨hr.1, fun i j hj => by rw [hr.2 i j hj, h]⟩

/-- C185 for the asks and bids of a book. -/
theorem C185_book (E : Env) (old : Book) {s : List Char} {ms : List (List Char × J)} {l : List J}
    (hs : J.parse s = some (.obj ms)) :
    (OnlyArray "asks" ms l → ListRead (rowRead E.float) old.asks (E.stale _ "asks" old.asks) ⟨.fin 0, .fin 0, .fin 0⟩ l
      (E.book.unmarshal old s).1.asks) ∧
    (OnlyArray "bids" ms l → ListRead (rowRead E.float) old.bids (E.stale _ "bids" old.bids) ⟨.fin 0, .fin 0, .fin 0⟩ l
      (E.book.unmarshal old s).1.bids) := by
  obtain ⟨-, h1, h2, -⟩ := C163_book E old hs
  rw [h1, h2]
  exact ⟨fun hm => listRead_congr (row_dec E) (slice_read (row_nevers E) _ _ _ _ hm),
    fun hm => listRead_congr (row_dec E) (slice_read (row_nevers E) _ _ _ _ hm)⟩

/-- C185 for the balances of a snapshot. -/
theorem C185_assets (E : Env) (old : AssetsSnapshot) {s : List Char} {ms : List (List Char × J)} {l : List J}
    (hs : J.parse s = some (.obj ms)) (hm : OnlyArray "assets" ms l) :
    ListRead (balanceRead E.float E.asset.ptr) old.assets (E.stale _ "assets" old.assets) ⟨none, .fin 0⟩ l
      (E.assetsSnapshot.unmarshal old s).1.assets := by
  rw [(C163_assetsSnapshot E old hs).2]
  exact listRead_congr (balance_dec E) (slice_read (balance_nevers E) _ _ _ _ hm)

/-- C185 for the trade IDs of a position, given among the members that are read. -/
theorem C185_position (E : Env) (old : Position) {s : List Char} {ms ns : List (List Char × J)} {l : List J}
    (hs : J.parse s = some (.obj ms)) (hl : ReadPart (BadTime E ["open_time", "close_time"]) ms ns)
    (hm : OnlyArray "trades" ns l) :
    ListRead textRead old.trades (E.stale _ "trades" old.trades) "" l (E.position.unmarshal old s).1.trades := by
  rw [(C163_position E old hs hl).2.2.2.2.2.2.2.2.2.2.2.2.1]
  exact listRead_congr str_dec (slice_read never_str _ _ _ _ hm)

/-- C185 for the trade IDs of an order, given among the members that are read. -/
theorem C185_order (E : Env) (old : Order) {s : List Char} {ms ns : List (List Char × J)} {l : List J}
    (hs : J.parse s = some (.obj ms)) (hl : ReadPart (BadTime E ["open_time", "close_time"]) ms ns)
    (hm : OnlyArray "trades" ns l) :
    ListRead textRead old.trades (E.stale _ "trades" old.trades) "" l (E.order.unmarshal old s).1.trades := by
  rw [(C163_order E old hs hl).2.2.2.2.2.2.2.2.2.2.2.2.1]
  exact listRead_congr str_dec (slice_read never_str _ _ _ _ hm)

/-- C185 for the annotations of `Actions` and of `AddAnnotationsAction`. -/
theorem C185_annotations (E : Env) (old : Actions) (old' : AddAnnotationsAction) {s : List Char}
    {ms : List (List Char × J)} {l : List J} (hs : J.parse s = some (.obj ms)) (hm : OnlyArray "Annotations" ms l) :
    ListRead (annotationRead E.float) old.annotations (E.stale _ "Annotations" old.annotations)
      ⟨"", 0, 0, .fin 0, "", "", ""⟩ l (E.actions.unmarshal old s).1.annotations ∧
    ListRead (annotationRead E.float) old'.annotations (E.stale _ "Annotations" old'.annotations)
      ⟨"", 0, 0, .fin 0, "", "", ""⟩ l (E.addAnnotationsAction.unmarshal old' s).1.annotations := by
  rw [(C163_actions E old hs).2.2.2.2.2, C163_addAnnotationsAction E old' hs]
  exact ⟨listRead_congr (annotation_dec E) (slice_read (annotation_nevers E) _ _ _ _ hm),
    listRead_congr (annotation_dec E) (slice_read (annotation_nevers E) _ _ _ _ hm)⟩

/-- An old row lends its volume to a new one that gives only a price. -/
example : (exampleEnv.book.unmarshal ⟨0, [⟨.fin 1, .fin 7, .fin 7⟩, ⟨.fin 2, .fin 8, .fin 15⟩], [], 5⟩
      "{\"asks\":[{\"price\":3},null,{\"price\":4}]}".toList) =
    (⟨0, [⟨.fin 3, .fin 7, .fin 7⟩, ⟨.fin 2, .fin 8, .fin 15⟩, ⟨.fin 4, .fin 0, .fin 0⟩], [], 5⟩, false) := by
  decide +kernel

example : OnlyArray "trades" [("id".toList, .str "x".toList true), ("Trades".toList, .arr [.null, .str "b".toList true])]
    [.null, .str "b".toList true] := by
  refine ⟨"Trades".toList, ?_⟩
  rw [List.filter_cons_of_neg (by decide +kernel), List.filter_cons_of_pos (by decide +kernel), List.filter_nil]

example : ListRead textRead ["a"] ["hidden"] "" [.null, .null, .null, .str "b".toList true] ["a", "hidden", "", "b"] := by
  refine ⟨rfl, ?_⟩
  intro i j h
  match i with
  | 0 | 1 | 2 | 3 => cases h; rfl
  | i + 4 => simp at h

end Finmod.Json
