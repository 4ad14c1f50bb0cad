import Verif.Props.JsonRecords
import Mathlib.Data.List.Perm.Basic

/-!
# C188: maps with keys and values of any bytes in JSON

`Actions`, `AddAnnotationsAction` and `Tick` with strings of any bytes. The entries are written in the order of the
bytes of their keys. Different keys may stand for the same text; then one entry is read, the one whose key is the
greatest in that order.
-/

set_option linter.unusedSimpArgs false
set_option linter.unusedVariables false

namespace Finmod.Json
open Go Finmod

namespace Spec

/-- Two maps entry by entry: keys of bytes and the characters they stand for, values related by `R`. -/
def EntriesRead {α : Type} (R : α → α → Prop) : GoMap α → GoMap α → Prop :=
  Option.Rel (List.Forall₂ fun e e' => StrReads e.1 e'.1 ∧ R e.2 e'.2)

/-- What a map variable holds after the text of the map `m` is read into it, `m'` being `m` as characters entry by
entry: nil for nil; otherwise of the entries of `m` with the same characters as key the one with the greatest key, and
under all other keys what was there. -/
def MapReadsB {α : Type} (m m' old new : GoMap α) : Prop :=
  (m = none → new = none) ∧
  (∀ l l', m = some l → m' = some l' → new ≠ none ∧
    (∀ e e', (e, e') ∈ l.zip l' → (∀ x x', (x, x') ∈ l.zip l' → x'.1 = e'.1 → x.1 ≤ e.1) →
      GoMap.get new e'.1 = some e'.2) ∧
    (∀ k, k ∉ l'.map (·.1) → GoMap.get new k = GoMap.get old k)) ∧
  (DistinctKeys old → DistinctKeys new)

/-- `Actions`: strings of bytes and the characters they stand for, all else equal. -/
def ActionsReads (a b : Actions) : Prop :=
  EntriesRead CreateOrderActionReads a.createOrders b.createOrders ∧
  EntriesRead UpdateOrderActionReads a.updateOrders b.updateOrders ∧
  EntriesRead CancelOrderActionReads a.cancelOrders b.cancelOrders ∧
  EntriesRead UpdatePositionActionReads a.updatePositions b.updatePositions ∧
  EntriesRead ClosePositionActionReads a.closePositions b.closePositions ∧
  List.Forall₂ AnnotationReads a.annotations b.annotations

/-- `Actions` after the text of `a` is read into them, `b` being `a` as characters. -/
def ActionsAfter (a b old new : Actions) : Prop :=
  MapReadsB a.createOrders b.createOrders old.createOrders new.createOrders ∧
  MapReadsB a.updateOrders b.updateOrders old.updateOrders new.updateOrders ∧
  MapReadsB a.cancelOrders b.cancelOrders old.cancelOrders new.cancelOrders ∧
  MapReadsB a.updatePositions b.updatePositions old.updatePositions new.updatePositions ∧
  MapReadsB a.closePositions b.closePositions old.closePositions new.closePositions ∧
  new.annotations = b.annotations

/-- `AddAnnotationsAction`: strings of bytes and the characters they stand for, all else equal. -/
def AddAnnotationsActionReads (a b : AddAnnotationsAction) : Prop :=
  List.Forall₂ AnnotationReads a.annotations b.annotations

/-- `Tick`: strings of bytes and the characters they stand for, all else equal. -/
def TickReads (a b : TickRecord) : Prop :=
  a.candle = b.candle ∧ Option.Rel ActionsReads a.pendingActions b.pendingActions ∧
  EntriesRead OrderReads a.openOrders b.openOrders ∧
  EntriesRead PositionReads a.openPositions b.openPositions ∧
  EntriesRead PositionReads a.closedPositions b.closedPositions ∧ a.capital = b.capital

/-- A `Tick` after the text of `t` is read into it, `u` being `t` as characters. -/
def TickAfter (t u old new : TickRecord) : Prop :=
  new.candle = t.candle ∧
  (t.pendingActions = none → new.pendingActions = none) ∧
  (∀ a b, t.pendingActions = some a → u.pendingActions = some b → ∃ c, new.pendingActions = some c ∧
    ActionsAfter a b (old.pendingActions.getD zeroActions) c) ∧
  MapReadsB t.openOrders u.openOrders old.openOrders new.openOrders ∧
  MapReadsB t.openPositions u.openPositions old.openPositions new.openPositions ∧
  MapReadsB t.closedPositions u.closedPositions old.closedPositions new.closedPositions ∧
  new.capital = t.capital

/-- The value `v` has a text, which is valid UTF-8; reading the text into `old` gives no error and a value related to
`v`, `w` and `old`. -/
def ReadsInto {α : Type} (c : Codec α) (v w : α) (rel : α → α → α → α → Prop) : Prop :=
  ∀ short, ∃ bs, c.marshalB short v = some bs ∧ ValidUtf8 bs ∧
    ∀ old, ∃ new, c.unmarshalB old bs = (new, false) ∧ rel v w old new

end Spec
open Spec

variable {short : Bool}

/-- The value is written, and reading its text turns what was there into `f` of it. -/
def ReadsB {α : Type} (short : Bool) (c : Codec α) (d : Nat) (v : α) (f : α → α) : Prop :=
  ∃ j, c.enc v = some j ∧ j.Good d ∧ ∀ old, c.dec old (j.heal short) = (f old, .none)

theorem RoundB.reads {α : Type} {c : Codec α} {d : Nat} {v w : α} (h : RoundB short c d v w) :
    ReadsB short c d v fun _ => w := h

theorem readsB_struct {ρ : Type} {zero : ρ} {fus : List (JField ρ × (ρ → ρ))} {d : Nat} {r : ρ}
    (hnames : (fus.map (·.1.name)).Nodup)
    (hf : ∀ p ∈ fus, (∀ c ∈ p.1.name.toList, c.toNat < 0x80) ∧
      ∃ j, p.1.enc r = some j ∧ j.Good d ∧ ∀ s, p.1.dec s (j.heal short) = (p.2 s, .none)) :
    ReadsB short (Codec.struct zero (fus.map (·.1))) (d + 1) r fun s => fus.foldl (fun s p => p.2 s) s := by
  have hn : ((fus.map (·.1)).map (·.name)).Nodup := by simpa [List.map_map, Function.comp_def] using hnames
  have key : ∀ gs : List (JField ρ × (ρ → ρ)), (∀ g ∈ gs, g ∈ fus) → ∃ ms,
      (gs.map (·.1)).mapM (fun (f : JField ρ) => (f.enc r).map fun j => (f.name.toList, j)) = some ms ∧ J.GoodMembers d ms ∧
      ∀ s, (J.healMembers short ms).foldl (decMember (fus.map (·.1))) (s, .none) =
        (gs.foldl (fun s p => p.2 s) s, .none) := by
    intro gs hgs
    induction gs with
    | nil => exact ⟨[], rfl, by simp [J.GoodMembers], by simp [J.healMembers]⟩
    | cons g gs ih =>
      obtain ⟨h0, j, h1, h2, h3⟩ := hf g (hgs g (by simp))
      obtain ⟨ms, k1, k2, k3⟩ := ih (fun x hx => hgs x (by simp [hx]))
      refine ⟨(g.1.name.toList, j) :: ms, by simp only [List.map_cons, List.mapM_cons, h1, k1]; simp,
        by simp [J.GoodMembers, h2, k2], ?_⟩
      intro s
      rw [J.healMembers, List.foldl_cons, List.foldl_cons, ← k3]
      congr 1
      simp [decMember, runes_all_ascii h0, findField_name hn (List.mem_map_of_mem (hgs g (by simp))), h3, next, JErr.or]
  obtain ⟨ms, h1, h2, h3⟩ := key fus (fun _ h => h)
  refine ⟨.obj ms, ?_, by simp [J.Good, h2], ?_⟩
  · simp only [Codec.struct, visible_eq hn, h1, Option.map_some]
  · intro old
    rw [J.heal]
    simp only [Codec.struct, visible_eq hn, h3]

theorem readsB_field {α ρ : Type} {c : Codec α} {name : String} {get : ρ → α} {set : ρ → α → ρ} {d d' : Nat} {r : ρ}
    {f : α → α} {u : ρ → ρ} (hd : d ≤ d') (hname : name.toList.all fun c => decide (c.toNat < 0x80))
    (h : ReadsB short c d (get r) f) (hu : ∀ s, u s = set s (f (get s))) :
    (∀ x ∈ (c.field name get set).name.toList, x.toNat < 0x80) ∧
    ∃ j, (c.field name get set).enc r = some j ∧ j.Good d' ∧
      ∀ s, (c.field name get set).dec s (j.heal short) = (u s, .none) := by
  obtain ⟨j, h1, h2, h3⟩ := h
  exact ⟨by simpa [Codec.field] using hname, j, h1, Good.mono j hd h2, by intro s; simp [Codec.field, h3, hu]⟩

theorem readsB_ptr {α : Type} {c : Codec α} {d : Nat} (hn : NeverNull c) {v : α} {f : α → α} (h : ReadsB short c d v f) :
    ReadsB short c.ptr d (some v) fun old => some (f (old.getD c.zero)) := by
  obtain ⟨j, h1, h2, h3⟩ := h
  refine ⟨j, h1, h2, ?_⟩
  intro old
  have : j ≠ .null := fun h => hn v (h ▸ h1)
  have h4 := h3 (old.getD c.zero)
  cases j <;> simp_all [Codec.ptr, J.heal]

theorem readsB_ptr_none {α : Type} (c : Codec α) (d : Nat) : ReadsB short c.ptr d none fun _ => none :=
  ⟨.null, rfl, by simp [J.Good], by intro old; rw [J.heal]; simp [Codec.ptr]⟩

/-! ### Maps -/

theorem get_put {α : Type} (m : List (String × α)) (k : String) (v : α) (k' : String) :
    GoMap.get (GoMap.put (some m) k v) k' = if k' = k then some v else GoMap.get (some m) k' := by
  show ((k, v) :: m.filter fun x => decide (x.1 ≠ k)).lookup k' = if k' = k then some v else m.lookup k'
  rw [List.lookup_cons]
  split_ifs with h
  · simp [h]
  · simp only [beq_eq_false_iff_ne.2 h]
    induction m with
    | nil => rfl
    | cons e m ih =>
      rw [List.filter_cons, List.lookup_cons]
      split_ifs with h1
      · rw [List.lookup_cons, ih]
      · have : e.1 = k := by simpa using h1
        rw [beq_eq_false_iff_ne.2 (this ▸ h), ih]

theorem put_some {α : Type} (m : List (String × α)) (k : String) (v : α) :
    GoMap.put (some m) k v = some ((k, v) :: m.filter fun x => decide (x.1 ≠ k)) := rfl

/-- What storing the entries one after another makes of a map. -/
theorem fold_get {α : Type} (es : List (String × α)) (acc : List (String × α)) : ∃ r,
    es.foldl (fun st e => GoMap.put st e.1 e.2) (some acc) = some r ∧
    (∀ k, k ∉ es.map (·.1) → GoMap.get (some r) k = GoMap.get (some acc) k) ∧
    (∀ A e B, es = A ++ e :: B → e.1 ∉ B.map (·.1) → GoMap.get (some r) e.1 = some e.2) ∧
    ((acc.map (·.1)).Nodup → (r.map (·.1)).Nodup) := by
  induction es generalizing acc with
  | nil => exact ⟨acc, rfl, fun _ _ => rfl, by intro A e B h; simp at h, id⟩
  | cons x es ih =>
    obtain ⟨r, h1, h2, h3, h4⟩ := ih ((x.1, x.2) :: acc.filter fun y => decide (y.1 ≠ x.1))
    refine ⟨r, by rw [List.foldl_cons, put_some, h1], ?_, ?_, ?_⟩
    · intro k hk
      rw [List.map_cons, List.mem_cons, not_or] at hk
      rw [h2 k hk.2, ← put_some, get_put, if_neg hk.1]
    · intro A e B he hB
      cases A with
      | nil =>
        obtain ⟨rfl, rfl⟩ := List.cons.inj he
        rw [h2 _ hB, ← put_some, get_put, if_pos rfl]
      | cons a A => exact h3 A e B (List.cons.inj he).2 hB
    · intro hn
      apply h4
      rw [List.map_cons, List.nodup_cons]
      refine ⟨?_, hn.sublist (List.Sublist.map _ List.filter_sublist)⟩
      rintro h
      obtain ⟨y, hy, hy'⟩ := List.mem_map.1 h
      have := (List.mem_filter.1 hy).2
      simp at this
      exact this hy'

theorem forall₂_split {α β : Type} {r : α → β → Prop} {A : List α} {e : α} {B : List α} {s : List β}
    (h : List.Forall₂ r (A ++ e :: B) s) : ∃ A' e' B', s = A' ++ e' :: B' ∧ r e e' ∧ List.Forall₂ r B B' := by
  induction A generalizing s with
  | nil =>
    cases h with
    | cons h0 h1 => exact ⟨[], _, _, rfl, h0, h1⟩
  | cons a A ih =>
    cases h with
    | cons _ h1 =>
      obtain ⟨A', e', B', rfl, h2, h3⟩ := ih h1
      exact ⟨_ :: A', e', B', rfl, h2, h3⟩

theorem forall₂_right {α β : Type} {r : α → β → Prop} {l : List α} {m : List β} (h : List.Forall₂ r l m) {y : β}
    (hy : y ∈ m) : ∃ x ∈ l, r x y := by
  induction h with
  | nil => simp at hy
  | @cons a b l m h0 _ ih =>
    rcases List.mem_cons.1 hy with rfl | hy
    · exact ⟨a, by simp, h0⟩
    · obtain ⟨x, hx, hr⟩ := ih hy
      exact ⟨x, by simp [hx], hr⟩

theorem readsB_map {α : Type} {c : Codec α} {d : Nat} {m m' : GoMap α} {R : α → α → Prop} (hk : DistinctKeys m)
    (hr : EntriesRead R m m') (h : ∀ e ∈ m.getD [], ∀ w, R e.2 w → RoundB short c d e.2 w) :
    ∃ f, ReadsB short c.map (d + 1) m f ∧ ∀ old, MapReadsB m m' old (f old) := by
  cases hr with
  | none =>
    refine ⟨fun _ => none, ⟨.null, rfl, by simp [J.Good], by intro old; rw [J.heal]; simp [Codec.map]⟩, ?_⟩
    intro old
    exact ⟨fun _ => rfl, nofun, fun _ => by simp [DistinctKeys]⟩
  | @some l l' hr =>
    have hk : (l.map (·.1)).Nodup := hk
    simp only [Option.getD_some] at h
    have hlen := hr.length_eq
    have hz : List.Forall₂ (fun e e' => (e, e') ∈ l.zip l' ∧ StrReads e.1 e'.1 ∧ RoundB short c d e.2 e'.2) l l' := by
      have : ∀ (a : List (String × α)) (b : List (String × α)), List.Forall₂ (fun e e' => StrReads e.1 e'.1 ∧ R e.2 e'.2) a b →
          (∀ p ∈ a.zip b, p ∈ l.zip l') → (∀ e ∈ a, e ∈ l) →
          List.Forall₂ (fun e e' => (e, e') ∈ l.zip l' ∧ StrReads e.1 e'.1 ∧ RoundB short c d e.2 e'.2) a b := by
        intro a b hab
        induction hab with
        | nil => exact fun _ _ => .nil
        | cons h0 _ ih =>
          intro h1 h2
          refine .cons ⟨h1 _ (by simp), h0.1, h _ (h2 _ (by simp)) _ h0.2⟩ (ih ?_ ?_)
          · exact fun p hp => h1 p (by simp [hp])
          · exact fun e he => h2 e (by simp [he])
      exact this l l' hr (fun _ h => h) (fun _ h => h)
    obtain ⟨s', hs, hp⟩ := List.perm_comp_forall₂ (sortMap_perm l) hz
    have key : ∀ es es' : List (String × α), List.Forall₂ (fun e e' => (e, e') ∈ l.zip l' ∧ StrReads e.1 e'.1 ∧
        RoundB short c d e.2 e'.2) es es' → ∃ ms,
        es.mapM (fun (e : String × α) => (c.enc e.2).map fun j => (e.1.toList, j)) = some ms ∧ J.GoodMembers d ms ∧
        ∀ m, (J.healMembers short ms).foldl (fun st m => next st fun l =>
            if (c.dec c.zero m.2).2 = .stop then (l, .stop)
            else (GoMap.put l (String.ofList m.1) (c.dec c.zero m.2).1, (c.dec c.zero m.2).2))
          (m, .none) = (es'.foldl (fun st e => GoMap.put st e.1 e.2) m, .none) := by
      intro es es' hes
      induction hes with
      | nil => exact ⟨[], rfl, by simp [J.GoodMembers], by simp [J.healMembers]⟩
      | @cons e e' es es' he _ ih =>
        obtain ⟨-, ⟨bs, hb, hb'⟩, j, h1, h2, h3⟩ := he
        obtain ⟨ms, k1, k2, k3⟩ := ih
        refine ⟨(e.1.toList, j) :: ms, by simp [List.mapM_cons, h1, k1], by simp [J.GoodMembers, h2, k2], ?_⟩
        intro m
        have hkey : runes e.1.toList = e'.1.toList := by
          rw [hb, ofBytes, String.toList_ofList]; exact reads_runes hb'
        rw [J.healMembers, List.foldl_cons, List.foldl_cons, ← k3]
        simp [h3, next, JErr.or, hkey]
    obtain ⟨ms, h1, h2, h3⟩ := key _ _ hs
    refine ⟨fun old => s'.foldl (fun st e => GoMap.put st e.1 e.2) (some (old.getD [])), ⟨.obj ms, ?_, by simp [J.Good, h2], ?_⟩, ?_⟩
    · show Option.map J.obj ((sortMap l).mapM fun (e : String × α) => (c.enc e.2).map fun j => (e.1.toList, j)) = _
      rw [h1]; rfl
    · intro old
      rw [J.heal]
      show (J.healMembers short ms).foldl _ (some (old.getD []), JErr.none) = _
      rw [h3]
    · intro old
      obtain ⟨r, r1, r2, r3, r4⟩ := fold_get s' (old.getD [])
      simp only [r1]
      refine ⟨nofun, ?_, r4⟩
      rintro _ _ ⟨⟩ ⟨⟩
      refine ⟨by simp, ?_, ?_⟩
      · intro e e' he hmax
        have hel : e ∈ sortMap l := (sortMap_perm l).mem_iff.2 (List.of_mem_zip he).1
        obtain ⟨A, B, hAB⟩ := List.append_of_mem hel
        rw [hAB] at hs
        obtain ⟨A', e'', B', rfl, h0, hB⟩ := forall₂_split hs
        · have : e'' = e' := by
            obtain ⟨i, hi, hi'⟩ := List.mem_iff_getElem.1 he
            obtain ⟨j, hj, hj'⟩ := List.mem_iff_getElem.1 h0.1
            rw [List.getElem_zip] at hi' hj'
            have e1 := (Prod.mk.inj hi').1
            have e2 := (Prod.mk.inj hj').1
            have : i = j := by
              have hi2 : i < (l.map (·.1)).length := by simp at hi ⊢; omega
              have hj2 : j < (l.map (·.1)).length := by simp at hj ⊢; omega
              refine (List.Nodup.getElem_inj_iff hk (hi := hi2) (hj := hj2)).1 ?_
              simp [e1, e2]
            subst this
            exact (Prod.mk.inj hj').2.symm.trans (Prod.mk.inj hi').2
          subst this
          refine r3 A' e'' B' rfl ?_
          intro hmem
          obtain ⟨x', hx', hx2⟩ := List.mem_map.1 hmem
          have hlt : ∀ x ∈ B, e.1 < x.1 := by
            have := sortMap_sorted hk
            rw [hAB, List.pairwise_append] at this
            exact fun x hx => (List.pairwise_cons.1 this.2.1).1 x hx
          obtain ⟨x, hx, hxz, -⟩ := forall₂_right hB hx'
          exact absurd (hlt x hx) (Std.not_lt.2 (hmax x x' hxz hx2))
      · intro k hk'
        rw [r2 k (fun h => hk' ((hp.map _).mem_iff.1 h))]
        cases old <;> rfl

theorem readsInto {α : Type} {c : Codec α} {d : Nat} {v w : α} {rel : α → α → α → α → Prop} (hd : d ≤ 10000)
    (h : ∀ short, ∃ f, ReadsB short c d v f ∧ ∀ old, rel v w old (f old)) : ReadsInto c v w rel := by
  intro short
  obtain ⟨f, ⟨j, h1, h2, h3⟩, hr⟩ := h short
  obtain ⟨t, t1, t2⟩ := text_value short j 10000 (Good.mono j hd h2)
  refine ⟨utf8 t, by simp [Codec.marshalB, h1, t1, unraw_raw], ⟨t, rfl⟩, fun old => ⟨f old, ?_, hr old⟩⟩
  rw [C186_unmarshal _ _ (C186_utf8 t)]
  have hp : J.parse t = some (j.heal short) := (C170_meaning _ _).2 ⟨[], t, [], by simp, blank_nil, t2, blank_nil⟩
  simp [Codec.unmarshal, hp, h3]

/-! ### The records -/

theorem readsB_actions {E : Env} (hE : Good E) (hT : AsciiTimes E) {a b : Actions} (h : ActionsOk E a)
    (hr : ActionsReads a b) : ∃ f, ReadsB short E.actions 3 a f ∧ ∀ old, ActionsAfter a b old (f old) := by
  obtain ⟨⟨k1, h1⟩, ⟨k2, h2⟩, k3, ⟨k4, h4⟩, k5, h6⟩ := h
  obtain ⟨e1, e2, e3, e4, e5, e6⟩ := hr
  obtain ⟨f1, p1, q1⟩ := readsB_map (short := short) k1 e1 (fun e he w hw => roundB_createOrderAction hE hT (h1 e he) hw)
  obtain ⟨f2, p2, q2⟩ := readsB_map (short := short) k2 e2 (fun e he w hw => roundB_updateOrderAction hE hT (h2 e he) hw)
  obtain ⟨f3, p3, q3⟩ := readsB_map (short := short) k3 e3 (fun e he w hw => roundB_cancelOrderAction hE hT hw)
  obtain ⟨f4, p4, q4⟩ := readsB_map (short := short) k4 e4 (fun e he w hw => roundB_updatePositionAction hE hT (h4 e he) hw)
  obtain ⟨f5, p5, q5⟩ := readsB_map (short := short) k5 e5 (fun e he w hw => roundB_closePositionAction hE hT hw)
  have key := readsB_struct (short := short) (zero := zeroActions) (d := 2) (r := a) (fus := E.actionsFields.zip [
    fun s => { s with createOrders := f1 s.createOrders },
    fun s => { s with updateOrders := f2 s.updateOrders },
    fun s => { s with cancelOrders := f3 s.cancelOrders },
    fun s => { s with updatePositions := f4 s.updatePositions },
    fun s => { s with closePositions := f5 s.closePositions },
    fun s => { s with annotations := b.annotations }]) (nodup_of_fold (actions_names E)) (by
      intro p hp
      simp only [Env.actionsFields, List.zip_cons_cons, List.zip_nil_left, List.mem_cons, List.not_mem_nil, or_false] at hp
      rcases hp with rfl | rfl | rfl | rfl | rfl | rfl
      · dsimp only; exact readsB_field (le_refl _) (by decide) p1 (fun _ => rfl)
      · dsimp only; exact readsB_field (le_refl _) (by decide) p2 (fun _ => rfl)
      · dsimp only; exact readsB_field (le_refl _) (by decide) p3 (fun _ => rfl)
      · dsimp only; exact readsB_field (le_refl _) (by decide) p4 (fun _ => rfl)
      · dsimp only; exact readsB_field (le_refl _) (by decide) p5 (fun _ => rfl)
      · dsimp only; exact readsB_field (f := fun _ => b.annotations) (le_refl _) (by decide)
          (roundB_slice _ _ (forall₂_mem e6 h6 (fun v w h hr => roundB_annotation hE hT h hr))).reads (fun _ => rfl))
  exact ⟨_, key, fun old => ⟨q1 _, q2 _, q3 _, q4 _, q5 _, rfl⟩⟩

theorem roundB_candle {E : Env} (hE : Good E) {r : Candle} (h : CandleOk E r) : RoundB short E.candle 1 r r := by
  obtain ⟨h1, h2, h3, h4, h5, h6⟩ := h
  refine roundB_struct (nodup_of_fold (candle_names E)) (fun _ => by
    simp only [Env.candleFields, Codec.field, List.foldl_cons, List.foldl_nil]) ?_
  intro f hf
  simp only [Env.candleFields, List.mem_cons, List.not_mem_nil, or_false] at hf
  rcases hf with rfl | rfl | rfl | rfl | rfl | rfl
  · exact roundB_field (by omega) (by decide) (roundB_int h1.1 h1.2 rfl)
  · exact roundB_field (by omega) (by decide) (roundB_float hE.1 hE.2 h2 rfl)
  · exact roundB_field (by omega) (by decide) (roundB_float hE.1 hE.2 h3 rfl)
  · exact roundB_field (by omega) (by decide) (roundB_float hE.1 hE.2 h4 rfl)
  · exact roundB_field (by omega) (by decide) (roundB_float hE.1 hE.2 h5 rfl)
  · exact roundB_field (by omega) (by decide) (roundB_float hE.1 hE.2 h6 rfl)

/-- C188 for `Actions`. -/
theorem C188_actions {E : Env} (hE : Good E) (hT : AsciiTimes E) {a b : Actions} (h : ActionsOk E a)
    (hr : ActionsReads a b) : ReadsInto E.actions a b ActionsAfter :=
  readsInto (by omega) fun _ => readsB_actions hE hT h hr

/-- C188 for `AddAnnotationsAction`. -/
theorem C188_addAnnotationsAction {E : Env} (hE : Good E) (hT : AsciiTimes E) {a b : AddAnnotationsAction}
    (h : AddAnnotationsActionOk E a) (hr : AddAnnotationsActionReads a b) : ReadsAs E.addAnnotationsAction a b := by
  intro short
  refine marshalB_round (d := 3) (by omega) ?_
  refine roundB_struct (nodup_of_fold (addAnnotationsAction_names E)) (fun _ => by
    simp only [Env.addAnnotationsActionFields, Codec.field, List.foldl_cons, List.foldl_nil]) ?_
  intro f hf
  simp only [Env.addAnnotationsActionFields, List.mem_cons, List.not_mem_nil, or_false] at hf
  subst hf
  exact roundB_field (le_refl _) (by decide)
    (roundB_slice _ _ (forall₂_mem hr h (fun v w h hr => roundB_annotation hE hT h hr)))

/-- C188 for `Tick`. -/
theorem C188_tick {E : Env} (hE : Good E) (hT : AsciiTimes E) {t u : TickRecord} (h : TickOk E t)
    (hr : TickReads t u) : ReadsInto E.tick t u TickAfter := by
  refine readsInto (d := 5) (by omega) fun short => ?_
  obtain ⟨h1, h2, ⟨k3, h3⟩, ⟨k4, h4⟩, ⟨k5, h5⟩, h6⟩ := h
  obtain ⟨e1, e2, e3, e4, e5, e6⟩ := hr
  have hc : RoundB short E.candle.ptr 1 t.candle t.candle := by
    refine roundB_ptr (neverNull_struct _ _) ?_
    cases hc : t.candle with
    | none => exact .none
    | some c => exact .some (roundB_candle hE (h1 c hc))
  have hp : ∃ f, ReadsB short E.actions.ptr 3 t.pendingActions f ∧ ∀ old,
      (t.pendingActions = none → f old = none) ∧
      ∀ a b, t.pendingActions = some a → u.pendingActions = some b → ∃ c, f old = some c ∧
        ActionsAfter a b (old.getD zeroActions) c := by
    cases ht : t.pendingActions with
    | none => exact ⟨_, readsB_ptr_none _ _, fun old => ⟨fun _ => rfl, nofun⟩⟩
    | some a =>
      cases hu : u.pendingActions with
      | none => rw [ht, hu] at e2; nomatch e2
      | some b =>
        rw [ht, hu] at e2
        cases e2 with
        | some e2 =>
          obtain ⟨f, p, q⟩ := readsB_actions (short := short) hE hT (h2 a ht) e2
          refine ⟨_, readsB_ptr (neverNull_struct _ _) p, fun old => ⟨nofun, ?_⟩⟩
          rintro _ _ ⟨⟩ ⟨⟩
          exact ⟨_, rfl, q _⟩
  obtain ⟨f2, p2, q2⟩ := hp
  obtain ⟨f3, p3, q3⟩ := readsB_map (short := short) k3 e3 (fun e he w hw => roundB_order hE hT (h3 e he) hw)
  obtain ⟨f4, p4, q4⟩ := readsB_map (short := short) k4 e4 (fun e he w hw => roundB_position hE hT (h4 e he) hw)
  obtain ⟨f5, p5, q5⟩ := readsB_map (short := short) k5 e5 (fun e he w hw => roundB_position hE hT (h5 e he) hw)
  have key := readsB_struct (short := short) (zero := (⟨none, none, none, none, none, .fin 0⟩ : TickRecord)) (d := 4) (r := t)
    (fus := E.tickFields.zip [
      fun s => { s with candle := t.candle },
      fun s => { s with pendingActions := f2 s.pendingActions },
      fun s => { s with openOrders := f3 s.openOrders },
      fun s => { s with openPositions := f4 s.openPositions },
      fun s => { s with closedPositions := f5 s.closedPositions },
      fun s => { s with capital := t.capital }]) (nodup_of_fold (tick_names E)) (by
      intro p hp'
      simp only [Env.tickFields, List.zip_cons_cons, List.zip_nil_left, List.mem_cons, List.not_mem_nil, or_false] at hp'
      rcases hp' with rfl | rfl | rfl | rfl | rfl | rfl
      · dsimp only; exact readsB_field (f := fun _ => t.candle) (by omega) (by decide) hc.reads (fun _ => rfl)
      · dsimp only; exact readsB_field (by omega) (by decide) p2 (fun _ => rfl)
      · dsimp only; exact readsB_field (le_refl _) (by decide) p3 (fun _ => rfl)
      · dsimp only; exact readsB_field (le_refl _) (by decide) p4 (fun _ => rfl)
      · dsimp only; exact readsB_field (le_refl _) (by decide) p5 (fun _ => rfl)
      · dsimp only; exact readsB_field (d := 0) (f := fun _ => t.capital) (by omega) (by decide)
          (roundB_float hE.1 hE.2 h6 rfl).reads (fun _ => rfl))
  exact ⟨_, key, fun old => ⟨rfl, (q2 _).1, (q2 _).2, q3 _, q4 _, q5 _, rfl⟩⟩

/-- Two orders to cancel, under the keys of the bytes FE and FF. -/
def bytesActions : Actions :=
  { zeroActions with cancelOrders := some [(ofBytes [0xFF], ⟨"", ofBytes [0x42]⟩), (ofBytes [0xFE], ⟨"", ofBytes [0xFF]⟩)] }

/-- The same as characters. -/
def bytesActionsRead : Actions :=
  { zeroActions with cancelOrders := some [("\uFFFD", ⟨"", "B"⟩), ("\uFFFD", ⟨"", "\uFFFD"⟩)] }

theorem bytesActions_ok : ActionsOk exampleEnv bytesActions := by
  refine ⟨⟨List.nodup_nil, by intro e he; cases he⟩, ⟨List.nodup_nil, by intro e he; cases he⟩, ?_,
    ⟨List.nodup_nil, by intro e he; cases he⟩, List.nodup_nil, by intro v hv; cases hv⟩
  show [ofBytes [0xFF], ofBytes [0xFE]].Nodup
  decide +kernel

theorem strReads_of {bs : List UInt8} {t : String} (h : runes (raw bs) = t.toList) : StrReads (ofBytes bs) t := by
  obtain ⟨l, hl, -⟩ := C186_reads bs
  refine ⟨bs, rfl, ?_⟩
  rw [← h, reads_runes hl]; exact hl

theorem bytesActions_reads : ActionsReads bytesActions bytesActionsRead := by
  have e : StrReads "" "" := ⟨[], rfl, .nil⟩
  exact ⟨.none, .none, .some (.cons ⟨strReads_of (by decide +kernel), e, strReads_of (by decide +kernel)⟩
    (.cons ⟨strReads_of (by decide +kernel), e, strReads_of (by decide +kernel)⟩ .nil)), .none, .none, .nil⟩

example : ReadsInto exampleEnv.actions bytesActions bytesActionsRead ActionsAfter :=
  C188_actions exampleEnv_good example_ascii bytesActions_ok bytesActions_reads

/-- The entry under FF is the one read, although it was listed first. -/
example {old new : Actions} (h : ActionsAfter bytesActions bytesActionsRead old new) :
    GoMap.get new.cancelOrders "\uFFFD" = some ⟨"", "B"⟩ := by
  refine (h.2.2.1.2.1 _ _ rfl rfl).2.1 _ _ (List.mem_cons_self ..) ?_
  intro x x' hx _
  have : ∀ y ∈ [ofBytes [0xFF], ofBytes [0xFE]], y ≤ ofBytes [0xFF] := by decide +kernel
  refine this x.1 ?_
  rcases List.mem_cons.1 hx with h | hx
  · rw [(Prod.mk.inj h).1]; simp
  · rw [(Prod.mk.inj (List.mem_singleton.1 hx)).1]; simp

/-- A `Tick` with them pending. -/
def bytesTick (a : Actions) : TickRecord :=
  { candle := some sampleCandle, pendingActions := some a, openOrders := none, openPositions := some []
    closedPositions := none, capital := .fin (5 / 2) }

theorem bytesTick_ok : TickOk exampleEnv (bytesTick bytesActions) := by
  refine ⟨?_, ?_, ⟨List.nodup_nil, ?_⟩, ⟨List.nodup_nil, ?_⟩, ⟨List.nodup_nil, ?_⟩, example_float⟩
  · intro c hc; cases hc; exact sampleCandle_ok
  · intro a ha; cases ha; exact bytesActions_ok
  all_goals intro e he; simp [bytesTick] at he

example : ReadsInto exampleEnv.tick (bytesTick bytesActions) (bytesTick bytesActionsRead) TickAfter :=
  C188_tick exampleEnv_good example_ascii bytesTick_ok ⟨rfl, .some bytesActions_reads, .none, .some .nil, .none, rfl⟩

end Finmod.Json
