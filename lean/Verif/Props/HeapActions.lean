import Verif.Model.HeapActions
import Verif.Props.Actions

/-!
# Copies of `Actions` (C228)
-/

namespace Finmod
open Go Go.Heap

section
variable {α : Type} {gen : Nat → String} {gid : α → String → α} {idOf : α → String}

theorem addLoopH_spec (a : Nat) (l : List α) : ∀ (n : Nat) (M : Maps α),
    (addLoopH gen gid idOf a n M l).1 = n + l.length ∧ (addLoopH gen gid idOf a n M l).2.next = M.next ∧
    (∀ b, b ≠ a → (addLoopH gen gid idOf a n M l).2.cell b = M.cell b) ∧
    addLoop gen gid idOf n (some (M.cell a)) l = some (n + l.length, some ((addLoopH gen gid idOf a n M l).2.cell a)) := by
  induction l with
  | nil => exact fun n M => ⟨rfl, rfl, fun _ _ => rfl, rfl⟩
  | cons x l ih =>
    intro n M
    obtain ⟨h1, h2, h3, h4⟩ := ih (n + 1) (M.set a (idOf (gid x (gen n))) (gid x (gen n)))
    refine ⟨h1.trans (by simp only [List.length_cons]; omega), h2, fun b hb => (h3 b hb).trans (Function.update_of_ne hb ..), ?_⟩
    simp only [Maps.set, Function.update_self] at h4
    rw [addLoop]
    simp only [GoMap.set]
    rw [h4, List.length_cons, show n + 1 + l.length = n + (l.length + 1) by omega]
    rfl

/-- The map at an address of allocated memory. -/
def MapOk (M : Maps α) (m : Option Nat) : Prop := ∀ a, m = some a → a < M.next

theorem addMapH_spec (l : List α) (n : Nat) (M : Maps α) (m : Option Nat) (hm : MapOk M m) :
    let r := addMapH gen gid idOf n M m l
    r.1 = n + l.length ∧ M.next ≤ r.2.1.next ∧ MapOk r.2.1 r.2.2 ∧ r.2.2 ≠ none ∧
    addLoop gen gid idOf n (makeIfNil (M.shown m)) l = some (n + l.length, r.2.1.shown r.2.2) ∧
    (∀ q, MapOk M q → q ≠ m ∨ q = none → r.2.1.shown q = M.shown q ∧ (q = none ∨ q ≠ r.2.2)) ∧
    (m ≠ none → r.2.2 = m) := by
  intro r
  cases m with
  | none =>
    obtain ⟨h1, h2, h3, h4⟩ := addLoopH_spec (gen := gen) (gid := gid) (idOf := idOf) M.next l n M.new
    have e0 : M.new.cell M.next = [] := Function.update_self ..
    rw [e0] at h4
    refine ⟨h1, by rw [show r.2.1.next = M.next + 1 from h2]; omega, ?_, Option.some_ne_none _, h4, ?_, fun h => absurd rfl h⟩
    · rintro _ ⟨⟩; rw [show r.2.1.next = M.next + 1 from h2]; omega
    · rintro (_ | q) hq -
      · exact ⟨rfl, .inl rfl⟩
      · have hlt := hq q rfl
        refine ⟨?_, .inr fun e => by injection e with e; omega⟩
        show some (r.2.1.cell q) = some (M.cell q)
        rw [show r.2.1.cell q = M.new.cell q from h3 q (by omega), show M.new.cell q = M.cell q from Function.update_of_ne (by omega) ..]
  | some a =>
    obtain ⟨h1, h2, h3, h4⟩ := addLoopH_spec (gen := gen) (gid := gid) (idOf := idOf) a l n M
    refine ⟨h1, by rw [show r.2.1.next = M.next from h2], ?_, Option.some_ne_none _, h4, ?_, fun _ => rfl⟩
    · rintro _ ⟨⟩; rw [show r.2.1.next = M.next from h2]; exact hm a rfl
    · rintro (_ | q) hq hne
      · exact ⟨rfl, .inl rfl⟩
      · have hqa : q ≠ a := by rintro rfl; rcases hne with h | h; exact h rfl; cases h
        refine ⟨?_, .inr fun e => by injection e with e; exact hqa e⟩
        show some (r.2.1.cell q) = some (M.cell q)
        rw [show r.2.1.cell q = M.cell q from h3 q hqa]

end

/-- Number of IDs that a call uses. -/
def Spec.idsUsed : ActionCall → Nat
  | .create l => l.length
  | .update l => l.length
  | .cancel l => l.length
  | .updatePos l => l.length
  | .closePos l => l.length
  | .annotate _ => 0

/-- What an `Actions` shows that takes part in those calls of a history for which `who` holds; the IDs are handed out in the
order of all the calls. -/
def Spec.seen (gen : Nat → String) (who : Bool → Bool) : Nat → Actions → List (Bool × ActionCall) → Actions
  | _, x, [] => x
  | n, x, (w, c) :: cs =>
    Spec.seen gen who (n + Spec.idsUsed c) (if who w then ((callActions gen n x c).map Prod.snd).getD x else x) cs

/-- All memory that an `Actions` refers to is allocated. -/
structure Spec.ActOk (M : ActMem) (a : HActions) : Prop where
  create : MapOk M.create a.createOrders
  update : MapOk M.update a.updateOrders
  cancel : MapOk M.cancel a.cancelOrders
  updatePos : MapOk M.updatePos a.updatePositions
  closePos : MapOk M.closePos a.closePositions
  notes : WF M.notes a.annotations

open Spec

section
variable {gen : Nat → String} {grow : Nat → Nat → Nat}

theorem callActionsH_spec (c : ActionCall) (n : Nat) {M : ActMem} {a : HActions} (h : ActOk M a) :
    let r := callActionsH gen grow n M a c
    r.1 = n + idsUsed c ∧ ActOk r.2.1 r.2.2 ∧ callActions gen n (a.value M) c = some (n + idsUsed c, r.2.2.value r.2.1) := by
  cases c with
  | create l =>
    obtain ⟨h1, h2, h3, -, h4, -, -⟩ := addMapH_spec (gen := gen) (gid := CreateOrderAction.generateID) (idOf := CreateOrderAction.id) l n M.create a.createOrders h.create
    exact ⟨h1, ⟨h3, h.update, h.cancel, h.updatePos, h.closePos, h.notes⟩, congrArg (Option.map _) h4⟩
  | update l =>
    obtain ⟨h1, h2, h3, -, h4, -, -⟩ := addMapH_spec (gen := gen) (gid := UpdateOrderAction.generateID) (idOf := UpdateOrderAction.id) l n M.update a.updateOrders h.update
    exact ⟨h1, ⟨h.create, h3, h.cancel, h.updatePos, h.closePos, h.notes⟩, congrArg (Option.map _) h4⟩
  | cancel l =>
    obtain ⟨h1, h2, h3, -, h4, -, -⟩ := addMapH_spec (gen := gen) (gid := CancelOrderAction.generateID) (idOf := CancelOrderAction.id) l n M.cancel a.cancelOrders h.cancel
    exact ⟨h1, ⟨h.create, h.update, h3, h.updatePos, h.closePos, h.notes⟩, congrArg (Option.map _) h4⟩
  | updatePos l =>
    obtain ⟨h1, h2, h3, -, h4, -, -⟩ := addMapH_spec (gen := gen) (gid := UpdatePositionAction.generateID) (idOf := UpdatePositionAction.id) l n M.updatePos a.updatePositions h.updatePos
    exact ⟨h1, ⟨h.create, h.update, h.cancel, h3, h.closePos, h.notes⟩, congrArg (Option.map _) h4⟩
  | closePos l =>
    obtain ⟨h1, h2, h3, -, h4, -, -⟩ := addMapH_spec (gen := gen) (gid := ClosePositionAction.generateID) (idOf := ClosePositionAction.id) l n M.closePos a.closePositions h.closePos
    exact ⟨h1, ⟨h.create, h.update, h.cancel, h.updatePos, h3, h.notes⟩, congrArg (Option.map _) h4⟩
  | annotate l =>
    obtain ⟨st, e⟩ := step_append grow h.notes l
    refine ⟨rfl, ⟨h.create, h.update, h.cancel, h.updatePos, h.closePos, st.wf⟩, ?_⟩
    show some (n, { a.value M with annotations := (a.value M).annotations ++ l }) = _
    have : (a.value M).annotations ++ l = _ := e.symm
    rw [this]; rfl

/-- **C228.** One `Actions` in memory shows what the methods do with values (so all that is said about them holds in memory). -/
theorem C228_receiver (cs : List ActionCall) : ∀ (n : Nat) {M : ActMem} {a : HActions}, ActOk M a →
    let r := runActionsH gen grow n M a cs
    runActions gen n (a.value M) cs = some (r.1, r.2.2.value r.2.1) := by
  induction cs with
  | nil => exact fun n M a _ => rfl
  | cons c cs ih =>
    intro n M a h
    obtain ⟨h1, h2, h3⟩ := callActionsH_spec (gen := gen) (grow := grow) c n h
    show runActions gen n (a.value M) (c :: cs) = _
    rw [runActions, h3]
    have := ih (n + idsUsed c) h2
    rw [← h1] at this ⊢
    exact this

/-- **C228.** The book-keeping of the memory: a map of an `Actions` shows as nil if and only if it has no address, and otherwise shows the
entries at its address. -/
theorem C228_value (M : ActMem) (a : HActions) :
    ((a.value M).createOrders = none ↔ a.createOrders = none) ∧ (∀ x, a.createOrders = some x → (a.value M).createOrders = some (M.create.cell x)) ∧
    ((a.value M).updateOrders = none ↔ a.updateOrders = none) ∧ (∀ x, a.updateOrders = some x → (a.value M).updateOrders = some (M.update.cell x)) ∧
    ((a.value M).cancelOrders = none ↔ a.cancelOrders = none) ∧ (∀ x, a.cancelOrders = some x → (a.value M).cancelOrders = some (M.cancel.cell x)) ∧
    ((a.value M).updatePositions = none ↔ a.updatePositions = none) ∧
    (∀ x, a.updatePositions = some x → (a.value M).updatePositions = some (M.updatePos.cell x)) ∧
    ((a.value M).closePositions = none ↔ a.closePositions = none) ∧
    (∀ x, a.closePositions = some x → (a.value M).closePositions = some (M.closePos.cell x)) := by
  have key : ∀ {V : Type} (N : Maps V) (p : Option Nat), (N.shown p = none ↔ p = none) ∧ ∀ x, p = some x → N.shown p = some (N.cell x) := by
    intro V N p
    constructor
    · cases p
      · exact ⟨fun _ => rfl, fun _ => rfl⟩
      · exact ⟨fun h => (Option.some_ne_none _ h).elim, fun h => (Option.some_ne_none _ h).elim⟩
    · rintro x rfl; rfl
  exact ⟨(key M.create _).1, (key M.create _).2, (key M.update _).1, (key M.update _).2, (key M.cancel _).1, (key M.cancel _).2,
    (key M.updatePos _).1, (key M.updatePos _).2, (key M.closePos _).1, (key M.closePos _).2⟩

/-- One of the five maps. -/
structure MapKind (gen : Nat → String) (grow : Nat → Nat → Nat) (α : Type) where
  maps : ActMem → Maps α
  ptr : HActions → Option Nat
  val : Actions → GoMap α
  gid : α → String → α
  idOf : α → String
  args : ActionCall → Option (List α)
  used : ∀ c l, args c = some l → idsUsed c = l.length
  hit : ∀ c l, args c = some l → ∀ n M a,
    (maps (callActionsH gen grow n M a c).2.1, ptr (callActionsH gen grow n M a c).2.2) = (addMapH gen gid idOf n (maps M) (ptr a) l).2
  miss : ∀ c, args c = none → ∀ n M a,
    maps (callActionsH gen grow n M a c).2.1 = maps M ∧ ptr (callActionsH gen grow n M a c).2.2 = ptr a
  vhit : ∀ c l, args c = some l → ∀ n x m, addLoop gen gid idOf n (makeIfNil (val x)) l = some m →
    val (((callActions gen n x c).map Prod.snd).getD x) = m.2
  vmiss : ∀ c, args c = none → ∀ n x, val (((callActions gen n x c).map Prod.snd).getD x) = val x

/-- Two map variables that show `x` and `y`, and are one map if `shared`. -/
structure TwoMaps {α : Type} (M : Maps α) (p q : Option Nat) (x y : GoMap α) (shared : Prop) : Prop where
  left : MapOk M p
  right : MapOk M q
  same : shared → p = q ∧ p ≠ none
  apart : ¬ shared → p ≠ q ∨ q = none
  shows : M.shown p = x
  shows' : M.shown q = y

theorem TwoMaps.symm {α : Type} {M : Maps α} {p q : Option Nat} {x y : GoMap α} {shared : Prop}
    (h : TwoMaps M p q x y shared) : TwoMaps M q p y x shared :=
  ⟨h.right, h.left, fun s => ⟨(h.same s).1.symm, (h.same s).1 ▸ (h.same s).2⟩, fun s => by
    rcases h.apart s with e | e
    · exact .inl (Ne.symm e)
    · by_cases hp : p = none
      · exact .inr hp
      · exact .inl fun e' => hp (e' ▸ e), h.shows', h.shows⟩

theorem TwoMaps.add {α : Type} {gid : α → String → α} {idOf : α → String} {M : Maps α} {p q : Option Nat} {x y : GoMap α}
    {shared : Prop} [Decidable shared] (h : TwoMaps M p q x y shared) (n : Nat) (l : List α) :
    ∃ m, addLoop gen gid idOf n (makeIfNil x) l = some (n + l.length, m) ∧
      TwoMaps (addMapH gen gid idOf n M p l).2.1 (addMapH gen gid idOf n M p l).2.2 q m (if shared then m else y) shared := by
  obtain ⟨h1, h2, h3, h4, h5, h6, h7⟩ := addMapH_spec (gen := gen) (gid := gid) (idOf := idOf) l n M p h.left
  rw [h.shows] at h5
  refine ⟨_, h5, h3, fun a ha => lt_of_lt_of_le (h.right a ha) h2, fun s => ?_, fun s => ?_, rfl, ?_⟩
  · obtain ⟨e, hne⟩ := h.same s
    rw [h7 hne]; exact ⟨e, hne⟩
  · rcases (h6 q h.right ((h.apart s).imp Ne.symm id)).2 with e | e
    · exact .inr e
    · exact .inl (Ne.symm e)
  · by_cases s : shared
    · obtain ⟨e, hne⟩ := h.same s
      rw [if_pos s, ← e, h7 hne]
    · rw [if_neg s, (h6 q h.right ((h.apart s).imp Ne.symm id)).1, h.shows']

theorem callActionsH_count (c : ActionCall) (n : Nat) (M : ActMem) (a : HActions) (h : ActOk M a) :
    (callActionsH gen grow n M a c).1 = n + idsUsed c := (callActionsH_spec c n h).1

theorem Spec.ActOk.mono {M M' : ActMem} {a : HActions} (h : ActOk M a) (h1 : M.create.next ≤ M'.create.next)
    (h2 : M.update.next ≤ M'.update.next) (h3 : M.cancel.next ≤ M'.cancel.next) (h4 : M.updatePos.next ≤ M'.updatePos.next)
    (h5 : M.closePos.next ≤ M'.closePos.next) (h6 : M.notes.next ≤ M'.notes.next) : ActOk M' a :=
  ⟨fun x e => (h.create x e).trans_le h1, fun x e => (h.update x e).trans_le h2, fun x e => (h.cancel x e).trans_le h3,
    fun x e => (h.updatePos x e).trans_le h4, fun x e => (h.closePos x e).trans_le h5,
    ⟨h.notes.1, fun e => (h.notes.2 e).trans_le h6⟩⟩

theorem callActionsH_other (c : ActionCall) (n : Nat) {M : ActMem} {a b : HActions} (h : ActOk M a) (hb : ActOk M b) :
    ActOk (callActionsH gen grow n M a c).2.1 b := by
  cases c with
  | create l =>
    exact hb.mono (addMapH_spec l n M.create a.createOrders h.create).2.1 le_rfl le_rfl le_rfl le_rfl le_rfl
  | update l =>
    exact hb.mono le_rfl (addMapH_spec l n M.update a.updateOrders h.update).2.1 le_rfl le_rfl le_rfl le_rfl
  | cancel l =>
    exact hb.mono le_rfl le_rfl (addMapH_spec l n M.cancel a.cancelOrders h.cancel).2.1 le_rfl le_rfl le_rfl
  | updatePos l =>
    exact hb.mono le_rfl le_rfl le_rfl (addMapH_spec l n M.updatePos a.updatePositions h.updatePos).2.1 le_rfl le_rfl
  | closePos l =>
    exact hb.mono le_rfl le_rfl le_rfl le_rfl (addMapH_spec l n M.closePos a.closePositions h.closePos).2.1 le_rfl
  | annotate l =>
    exact hb.mono le_rfl le_rfl le_rfl le_rfl le_rfl (step_append grow h.notes l).1.next

/-- Who is seen by the first or by the second of two copies. -/
def whoSees (shared : Prop) [Decidable shared] (me : Bool) : Bool → Bool := fun w => decide shared || w == me

theorem two_maps {α : Type} (K : MapKind gen grow α) {shared : Prop} [Decidable shared] (cs : List (Bool × ActionCall)) :
    ∀ (n : Nat) {M : ActMem} {a b : HActions} {x y : Actions}, ActOk M a → ActOk M b →
    TwoMaps (K.maps M) (K.ptr a) (K.ptr b) (K.val x) (K.val y) shared →
    let r := runTwoActionsH gen grow n M a b cs
    TwoMaps (K.maps r.2.1) (K.ptr r.2.2.1) (K.ptr r.2.2.2) (K.val (seen gen (whoSees shared true) n x cs))
      (K.val (seen gen (whoSees shared false) n y cs)) shared := by
  induction cs with
  | nil => exact fun n M a b x y _ _ h => h
  | cons wc cs ih =>
    obtain ⟨w, c⟩ := wc
    intro n M a b x y ha hb h
    cases w with
    | true =>
      obtain ⟨h1, h2, -⟩ := callActionsH_spec (gen := gen) (grow := grow) c n ha
      have er : runTwoActionsH gen grow n M a b ((true, c) :: cs) = runTwoActionsH gen grow (n + idsUsed c)
          (callActionsH gen grow n M a c).2.1 (callActionsH gen grow n M a c).2.2 b cs := by rw [← h1]; rfl
      simp only [er]
      rw [seen, seen]
      refine ih (n + idsUsed c) h2 (callActionsH_other c n ha hb) ?_
      cases hc : K.args c with
      | none =>
        obtain ⟨e1, e2⟩ := K.miss c hc n M a
        rw [e1, e2]
        have hx : K.val (if whoSees shared true true then ((callActions gen n x c).map Prod.snd).getD x else x) = K.val x := by
          split
          · exact K.vmiss c hc n x
          · rfl
        have hy : K.val (if whoSees shared false true then ((callActions gen n y c).map Prod.snd).getD y else y) = K.val y := by
          split
          · exact K.vmiss c hc n y
          · rfl
        rw [hx, hy]; exact h
      | some l =>
        have e := K.hit c l hc n M a
        obtain ⟨m, hm, ht⟩ := h.add (gen := gen) (gid := K.gid) (idOf := K.idOf) n l
        rw [← e] at ht
        have hx : K.val (if whoSees shared true true then ((callActions gen n x c).map Prod.snd).getD x else x) = m := by
          rw [if_pos (by simp [whoSees])]; exact K.vhit c l hc n x _ hm
        have hy : K.val (if whoSees shared false true then ((callActions gen n y c).map Prod.snd).getD y else y) =
            if shared then m else K.val y := by
          by_cases s : shared
          · rw [if_pos (by simp [whoSees, s]), if_pos s]
            have exy : K.val x = K.val y := by rw [← h.shows, ← h.shows', (h.same s).1]
            exact K.vhit c l hc n y _ (exy ▸ hm)
          · rw [if_neg (by simp [whoSees, s]), if_neg s]
        rw [hx, hy]; exact ht
    | false =>
      obtain ⟨h1, h2, -⟩ := callActionsH_spec (gen := gen) (grow := grow) c n hb
      have er : runTwoActionsH gen grow n M a b ((false, c) :: cs) = runTwoActionsH gen grow (n + idsUsed c)
          (callActionsH gen grow n M b c).2.1 a (callActionsH gen grow n M b c).2.2 cs := by rw [← h1]; rfl
      simp only [er]
      rw [seen, seen]
      refine ih (n + idsUsed c) (callActionsH_other c n hb ha) h2 ?_
      cases hc : K.args c with
      | none =>
        obtain ⟨e1, e2⟩ := K.miss c hc n M b
        rw [e1, e2]
        have hx : K.val (if whoSees shared true false then ((callActions gen n x c).map Prod.snd).getD x else x) = K.val x := by
          split
          · exact K.vmiss c hc n x
          · rfl
        have hy : K.val (if whoSees shared false false then ((callActions gen n y c).map Prod.snd).getD y else y) = K.val y := by
          split
          · exact K.vmiss c hc n y
          · rfl
        rw [hx, hy]; exact h
      | some l =>
        have e := K.hit c l hc n M b
        obtain ⟨m, hm, ht⟩ := h.symm.add (gen := gen) (gid := K.gid) (idOf := K.idOf) n l
        rw [← e] at ht
        have hy : K.val (if whoSees shared false false then ((callActions gen n y c).map Prod.snd).getD y else y) = m := by
          rw [if_pos (by simp [whoSees])]; exact K.vhit c l hc n y _ hm
        have hx : K.val (if whoSees shared true false then ((callActions gen n x c).map Prod.snd).getD x else x) =
            if shared then m else K.val x := by
          by_cases s : shared
          · rw [if_pos (by simp [whoSees, s]), if_pos s]
            have exy : K.val y = K.val x := by rw [← h.shows, ← h.shows', (h.same s).1]
            exact K.vhit c l hc n x _ (exy ▸ hm)
          · rw [if_neg (by simp [whoSees, s]), if_neg s]
        rw [hx, hy]; exact ht.symm

theorem two_maps_copy {α : Type} (K : MapKind gen grow α) (cs : List (Bool × ActionCall)) (n : Nat) {M : ActMem} {a : HActions}
    (ha : ActOk M a) (hk : MapOk (K.maps M) (K.ptr a)) (hv : K.val (a.value M) = (K.maps M).shown (K.ptr a)) :
    let r := runTwoActionsH gen grow n M a a cs
    (K.maps r.2.1).shown (K.ptr r.2.2.1) = K.val (seen gen (fun w => K.ptr a ≠ none || w == true) n (a.value M) cs) ∧
    (K.maps r.2.1).shown (K.ptr r.2.2.2) = K.val (seen gen (fun w => K.ptr a ≠ none || w == false) n (a.value M) cs) := by
  have := two_maps K (shared := K.ptr a ≠ none) cs n ha ha
    (x := a.value M) (y := a.value M) ⟨hk, hk, fun s => ⟨rfl, s⟩, fun s => .inr (not_not.1 s), hv.symm, hv.symm⟩
  exact ⟨this.shows, this.shows'⟩

theorem getD_field {α β : Type} (o : Option α) (f : α → Actions) (x : Actions) (val : Actions → β) (h : ∀ r, val (f r) = val x) :
    val ((o.map f).getD x) = val x := by
  cases o with
  | none => rfl
  | some r => exact h r

/-- The map `createOrders`. -/
def createKind (gen : Nat → String) (grow : Nat → Nat → Nat) : MapKind gen grow CreateOrderAction where
  maps := ActMem.create
  ptr := HActions.createOrders
  val := Actions.createOrders
  gid := CreateOrderAction.generateID
  idOf := CreateOrderAction.id
  args | .create l => some l | _ => none
  used c l h := by cases c <;> simp at h; subst h; rfl
  hit c l h n M a := by cases c <;> simp at h; subst h; rfl
  miss c h n M a := by cases c <;> simp at h <;> exact ⟨rfl, rfl⟩
  vhit c l h n x m e := by cases c <;> simp at h; subst h; simp only [callActions, addCreateOrders, e, Option.map_some, Option.getD_some]
  vmiss c h n x := by
    cases c <;> simp at h <;> simp only [callActions, addUpdateOrders, addCancelOrders, addUpdatePositions, addClosePositions, addAnnotations, Option.map_map, Option.map_some, Option.getD_some] <;>
      exact getD_field _ _ _ _ (fun _ => rfl)

/-- The map `updateOrders`. -/
def updateKind (gen : Nat → String) (grow : Nat → Nat → Nat) : MapKind gen grow UpdateOrderAction where
  maps := ActMem.update
  ptr := HActions.updateOrders
  val := Actions.updateOrders
  gid := UpdateOrderAction.generateID
  idOf := UpdateOrderAction.id
  args | .update l => some l | _ => none
  used c l h := by cases c <;> simp at h; subst h; rfl
  hit c l h n M a := by cases c <;> simp at h; subst h; rfl
  miss c h n M a := by cases c <;> simp at h <;> exact ⟨rfl, rfl⟩
  vhit c l h n x m e := by cases c <;> simp at h; subst h; simp only [callActions, addUpdateOrders, e, Option.map_some, Option.getD_some]
  vmiss c h n x := by
    cases c <;> simp at h <;> simp only [callActions, addCreateOrders, addCancelOrders, addUpdatePositions, addClosePositions, addAnnotations, Option.map_map, Option.map_some, Option.getD_some] <;>
      exact getD_field _ _ _ _ (fun _ => rfl)

/-- The map `cancelOrders`. -/
def cancelKind (gen : Nat → String) (grow : Nat → Nat → Nat) : MapKind gen grow CancelOrderAction where
  maps := ActMem.cancel
  ptr := HActions.cancelOrders
  val := Actions.cancelOrders
  gid := CancelOrderAction.generateID
  idOf := CancelOrderAction.id
  args | .cancel l => some l | _ => none
  used c l h := by cases c <;> simp at h; subst h; rfl
  hit c l h n M a := by cases c <;> simp at h; subst h; rfl
  miss c h n M a := by cases c <;> simp at h <;> exact ⟨rfl, rfl⟩
  vhit c l h n x m e := by cases c <;> simp at h; subst h; simp only [callActions, addCancelOrders, e, Option.map_some, Option.getD_some]
  vmiss c h n x := by
    cases c <;> simp at h <;> simp only [callActions, addCreateOrders, addUpdateOrders, addUpdatePositions, addClosePositions, addAnnotations, Option.map_map, Option.map_some, Option.getD_some] <;>
      exact getD_field _ _ _ _ (fun _ => rfl)

/-- The map `updatePositions`. -/
def updatePosKind (gen : Nat → String) (grow : Nat → Nat → Nat) : MapKind gen grow UpdatePositionAction where
  maps := ActMem.updatePos
  ptr := HActions.updatePositions
  val := Actions.updatePositions
  gid := UpdatePositionAction.generateID
  idOf := UpdatePositionAction.id
  args | .updatePos l => some l | _ => none
  used c l h := by cases c <;> simp at h; subst h; rfl
  hit c l h n M a := by cases c <;> simp at h; subst h; rfl
  miss c h n M a := by cases c <;> simp at h <;> exact ⟨rfl, rfl⟩
  vhit c l h n x m e := by cases c <;> simp at h; subst h; simp only [callActions, addUpdatePositions, e, Option.map_some, Option.getD_some]
  vmiss c h n x := by
    cases c <;> simp at h <;> simp only [callActions, addCreateOrders, addUpdateOrders, addCancelOrders, addClosePositions, addAnnotations, Option.map_map, Option.map_some, Option.getD_some] <;>
      exact getD_field _ _ _ _ (fun _ => rfl)

/-- The map `closePositions`. -/
def closePosKind (gen : Nat → String) (grow : Nat → Nat → Nat) : MapKind gen grow ClosePositionAction where
  maps := ActMem.closePos
  ptr := HActions.closePositions
  val := Actions.closePositions
  gid := ClosePositionAction.generateID
  idOf := ClosePositionAction.id
  args | .closePos l => some l | _ => none
  used c l h := by cases c <;> simp at h; subst h; rfl
  hit c l h n M a := by cases c <;> simp at h; subst h; rfl
  miss c h n M a := by cases c <;> simp at h <;> exact ⟨rfl, rfl⟩
  vhit c l h n x m e := by cases c <;> simp at h; subst h; simp only [callActions, addClosePositions, e, Option.map_some, Option.getD_some]
  vmiss c h n x := by
    cases c <;> simp at h <;> simp only [callActions, addCreateOrders, addUpdateOrders, addCancelOrders, addUpdatePositions, addAnnotations, Option.map_map, Option.map_some, Option.getD_some] <;>
      exact getD_field _ _ _ _ (fun _ => rfl)


/-- **C228.** An `Actions` is copied, and then Add methods are called on the original (`true`) and on the copy in any order.
A map that was not nil at the copy is one map for both: each shows what all the calls added. A map that was nil belongs to
each alone: it shows what its own calls added. -/
theorem C228_maps (cs : List (Bool × ActionCall)) (n : Nat) {M : ActMem} {a : HActions} (ha : ActOk M a) :
    let r := runTwoActionsH gen grow n M a a cs
    let first := r.2.2.1.value r.2.1
    let second := r.2.2.2.value r.2.1
    let sees (own : Bool) (m : Option Nat) := seen gen (fun w => m ≠ none || w == own) n (a.value M) cs
    (first.createOrders = (sees true a.createOrders).createOrders ∧
      second.createOrders = (sees false a.createOrders).createOrders) ∧
    (first.updateOrders = (sees true a.updateOrders).updateOrders ∧
      second.updateOrders = (sees false a.updateOrders).updateOrders) ∧
    (first.cancelOrders = (sees true a.cancelOrders).cancelOrders ∧
      second.cancelOrders = (sees false a.cancelOrders).cancelOrders) ∧
    (first.updatePositions = (sees true a.updatePositions).updatePositions ∧
      second.updatePositions = (sees false a.updatePositions).updatePositions) ∧
    (first.closePositions = (sees true a.closePositions).closePositions ∧
      second.closePositions = (sees false a.closePositions).closePositions) :=
  ⟨two_maps_copy (createKind gen grow) cs n ha ha.create rfl, two_maps_copy (updateKind gen grow) cs n ha ha.update rfl,
    two_maps_copy (cancelKind gen grow) cs n ha ha.cancel rfl, two_maps_copy (updatePosKind gen grow) cs n ha ha.updatePos rfl,
    two_maps_copy (closePosKind gen grow) cs n ha ha.closePos rfl⟩

theorem load_two_stores {α : Type} (h : Heap α) (s : Slice) (l1 l2 : List α) :
    ((h.store s.arr (s.off + s.len) l1).store s.arr (s.off + s.len) l2).load { s with len := s.len + l1.length } =
      h.load s ++ (l2.take l1.length ++ l1.drop l2.length) := by
  have hl := length_load h s
  apply List.ext_getElem?
  intro j
  rw [getElem?_load]
  simp only [store, true_and]
  rcases Nat.lt_or_ge j s.len with h1 | h1
  · rw [if_pos (by omega), if_neg (by omega), if_neg (by omega), List.getElem?_append_left (by omega), getElem?_load, if_pos h1]
  · rw [List.getElem?_append_right (by omega), hl, if_pos (show s.off + s.len ≤ s.off + j by omega),
      if_pos (show s.off + s.len ≤ s.off + j by omega), show s.off + j - (s.off + s.len) = j - s.len by omega]
    obtain ⟨k, rfl⟩ : ∃ k, j = s.len + k := ⟨j - s.len, by omega⟩
    rw [Nat.add_sub_cancel_left]
    by_cases hk : k < l1.length
    · rw [if_pos (by omega)]
      by_cases hk2 : k < l2.length
      · rw [List.getElem?_append_left (by simp; omega), List.getElem?_take_of_lt hk, List.getElem?_eq_getElem hk2]; rfl
      · rw [List.getElem?_append_right (by simp; omega), List.getElem?_drop, List.length_take,
          show l2.length + (k - min l1.length l2.length) = k by omega, List.getElem?_eq_none (l := l2) (by omega),
          List.getElem?_eq_getElem hk]; rfl
    · rw [if_neg (by omega), List.getElem?_eq_none (by simp; omega)]

theorem append_keeps {α : Type} (grow : Nat → Nat → Nat) {h : Heap α} {s : Slice} (hw : WF h s) (xs : List α) :
    (h.append grow s xs).1.load s = h.load s := by
  apply load_congr
  intro i hi
  unfold append
  dsimp only
  split_ifs
  · simp only [store]
    rw [if_neg (by omega)]
  · have : s.arr < h.next := hw.2 (by have := hw.1; omega)
    simp only [store]
    rw [if_neg (by omega)]

/-- **C228.** The original adds annotations `l1`, then the copy adds `l2`. The copy shows the old ones and `l2`. The original
shows the old ones and `l1` unless both fitted into the old array: then `l2` was written over `l1`. -/
theorem C228_annotations (n : Nat) {M : ActMem} {a : HActions} (ha : ActOk M a) (l1 l2 : List Annotation) :
    let r := runTwoActionsH gen grow n M a a [(true, .annotate l1), (false, .annotate l2)]
    let old := M.notes.load a.annotations
    let fits (l : List Annotation) := a.annotations.len + l.length ≤ a.annotations.cap
    (r.2.2.2.value r.2.1).annotations = old ++ l2 ∧
    (r.2.2.1.value r.2.1).annotations =
      (if fits l1 ∧ fits l2 then old ++ (l2.take l1.length ++ l1.drop l2.length) else old ++ l1) ∧
    ((r.2.2.1.value r.2.1).annotations = old ++ l1 ↔
      ¬ fits l1 ∨ ¬ fits l2 ∨ l2.take l1.length = l1.take l2.length) := by
  intro r old fits
  obtain ⟨st1, e1⟩ := step_append grow ha.notes l1
  have ha' : WF (M.notes.append grow a.annotations l1).1 a.annotations := ⟨ha.notes.1, fun e => (ha.notes.2 e).trans_le st1.next⟩
  obtain ⟨st2, e2⟩ := step_append grow ha' l2
  have key : (r.2.2.1.value r.2.1).annotations =
      (if fits l1 ∧ fits l2 then old ++ (l2.take l1.length ++ l1.drop l2.length) else old ++ l1) := by
    show ((M.notes.append grow a.annotations l1).1.append grow a.annotations l2).1.load (M.notes.append grow a.annotations l1).2 = _
    by_cases h1 : fits l1
    · have f1 : M.notes.append grow a.annotations l1 =
          (M.notes.store a.annotations.arr (a.annotations.off + a.annotations.len) l1,
            { a.annotations with len := a.annotations.len + l1.length }) := by
        unfold Heap.append; exact if_pos h1
      by_cases h2 : fits l2
      · rw [if_pos ⟨h1, h2⟩, f1]
        have f2 : ∀ h : Heap Annotation, h.append grow a.annotations l2 =
            (h.store a.annotations.arr (a.annotations.off + a.annotations.len) l2,
              { a.annotations with len := a.annotations.len + l2.length }) := by
          intro h; unfold Heap.append; exact if_pos h2
        rw [f2]
        exact load_two_stores ..
      · rw [if_neg (fun h => h2 h.2), ← e1]
        apply load_congr
        intro i hi
        have f2 : ∀ h : Heap Annotation, h.append grow a.annotations l2 =
            ({ h.store h.next 0 (h.load a.annotations ++ l2) with next := h.next + 1 },
              ⟨h.next, 0, a.annotations.len + l2.length, a.annotations.len + l2.length +
                grow a.annotations.cap (a.annotations.len + l2.length)⟩) := by
          intro h; unfold Heap.append; exact if_neg h2
        rw [f2]
        have hlt := st1.wf.2 (by have := st1.wf.1; omega)
        simp only [store]
        rw [if_neg (by omega)]
    · rw [if_neg (fun h => h1 h.1), ← e1]
      apply load_congr
      intro i hi
      have hlt := st1.wf.2 (by have := st1.wf.1; omega)
      refine st2.frame _ _ hlt ?_
      have f1 : (M.notes.append grow a.annotations l1).2.arr = M.notes.next := by
        unfold Heap.append; rw [if_neg h1]
      rw [f1]
      rintro ⟨h3, h4, h5⟩
      have := ha.notes.2 (by omega)
      omega
  refine ⟨e2.trans (by rw [append_keeps grow ha.notes]), key, ?_⟩
  rw [key]
  by_cases h : fits l1 ∧ fits l2
  · rw [if_pos h, List.append_right_inj]
    constructor
    · intro e
      right; right
      conv at e => rhs; rw [← List.take_append_drop l2.length l1]
      exact List.append_left_inj _ |>.1 e
    · rintro (e | e | e)
      · exact absurd h.1 e
      · exact absurd h.2 e
      · rw [e, List.take_append_drop]
  · rw [if_neg h]
    refine ⟨fun _ => ?_, fun _ => rfl⟩
    by_cases h1 : fits l1
    · exact .inr (.inl fun h2 => h ⟨h1, h2⟩)
    · exact .inl h1

end
/-- An `Actions` with one map of cancellations and room for three annotations, one of them used; copied below. -/
def demoMem : ActMem :=
  ⟨⟨fun _ => [], 0⟩, ⟨fun _ => [], 0⟩, ⟨fun _ => [("a", ⟨"a", "o0"⟩)], 1⟩, ⟨fun _ => [], 0⟩, ⟨fun _ => [], 0⟩,
    ⟨fun _ i => if i = 0 then ⟨"n0", 1, 1, .fin 1, "", "old", ""⟩ else ⟨"", 0, 0, .fin 0, "", "", ""⟩, 1⟩⟩

def demoActions : HActions := ⟨none, none, some 0, none, none, ⟨0, 0, 1, 3⟩⟩

def demoNote (s : String) : Annotation := ⟨s, 1, 1, .fin 1, "", s, ""⟩

theorem demoActions_ok : ActOk demoMem demoActions :=
  have none_ok : ∀ {α : Type} (M : Maps α), MapOk M none := fun _ _ h => absurd h.symm (Option.some_ne_none _)
  ⟨none_ok _, none_ok _, fun a h => by cases h; decide, none_ok _, none_ok _, by decide, fun _ => by decide⟩

/-- A history on one `Actions`. -/
example : let r := runActionsH demoGen (fun _ _ => 2) 0 demoMem demoActions [.cancel [⟨"", "o1"⟩], .create [], .annotate [demoNote "x"]]
    (r.2.2.value r.2.1).cancelOrders.size = 2 ∧ (r.2.2.value r.2.1).createOrders = some [] ∧
      (r.2.2.value r.2.1).annotations.map Annotation.label = ["old", "x"] := by decide +kernel

def demoBoth : List (Bool × ActionCall) :=
  [(true, .cancel [⟨"", "o1"⟩]), (false, .cancel [⟨"", "o2"⟩]), (true, .closePos [⟨"", "p1"⟩]), (false, .closePos [⟨"", "p2"⟩])]

def demoNotes : List (Bool × ActionCall) := [(true, .annotate [demoNote "x", demoNote "y"]), (false, .annotate [demoNote "z"])]

/-- The cancellations (a map at the copy) of both are seen by both, the positions to close (nil at the copy) are not. -/
example : let r := runTwoActionsH demoGen (fun _ _ => 2) 0 demoMem demoActions demoActions demoBoth
    (r.2.2.1.value r.2.1).cancelOrders.size = 3 ∧ (r.2.2.2.value r.2.1).cancelOrders.size = 3 ∧
      (r.2.2.1.value r.2.1).closePositions = some [("xx", ⟨"xx", "p1"⟩)] ∧
      (r.2.2.2.value r.2.1).closePositions = some [("xxx", ⟨"xxx", "p2"⟩)] := by decide +kernel

/-- The copy's annotation is written over the first of the original's. -/
example : let r := runTwoActionsH demoGen (fun _ _ => 2) 0 demoMem demoActions demoActions demoNotes
    (r.2.2.1.value r.2.1).annotations.map Annotation.label = ["old", "z", "y"] ∧
      (r.2.2.2.value r.2.1).annotations.map Annotation.label = ["old", "z"] := by decide +kernel

end Finmod
