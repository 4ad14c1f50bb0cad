import Verif.Model.ActionThreads
import Verif.Props.HeapActions
import Verif.Props.BookShare
import Mathlib.Tactic.IntervalCases

/-!
# Actions filled by several goroutines (C232, C233)
-/

namespace Finmod
open Go Go.Heap Spec

/-- What an `Actions` holds, with actions of all kinds as one type: map variables 0 to 4, and the annotations. -/
structure AnyActions where
  maps : Nat → GoMap AnyAction
  notes : List Annotation

/-- The entries of a map with actions as `AnyAction`. -/
def entriesOf {V : Type} (c : V → AnyAction) (m : GoMap V) : GoMap AnyAction := m.map fun es => es.map fun e => (e.1, c e.2)

/-- An `Actions` seen as `AnyActions`. -/
def Actions.any (x : Actions) : AnyActions where
  maps f := match f with
    | 0 => entriesOf .create x.createOrders
    | 1 => entriesOf .update x.updateOrders
    | 2 => entriesOf .cancel x.cancelOrders
    | 3 => entriesOf .updatePos x.updatePositions
    | 4 => entriesOf .closePos x.closePositions
    | _ => none
  notes := x.annotations

/-- The memory at `a` shows `x`: map variables `p`, annotations in the slice `s`. -/
structure ActAt (h : Heap ACell) (a : Nat) (x : AnyActions) (p : Nat → Option Nat) (s : Slice) : Prop where
  ptrs : ∀ f, f < 5 → h.cell a f = .ptr (p f)
  isNil : ∀ f, f < 5 → p f = none → x.maps f = none
  maps : ∀ f m, f < 5 → p f = some m → ∃ es, h.cell m 0 = .map es ∧ x.maps f = some es
  mapNe : ∀ f m, f < 5 → p f = some m → m ≠ a
  mapNotes : ∀ f m, f < 5 → p f = some m → ∀ i, ¬ s.Owns m i
  mapsApart : ∀ f g m, f < 5 → g < 5 → f ≠ g → p f = some m → p g ≠ some m
  notes : h.cell a 5 = .notes s
  load : h.load s = x.notes.map .note
  wf : WF h s
  apart : ∀ i, ¬ s.Owns a i

/-- A goroutine has the `Actions` at `a` for itself. -/
structure ActHas (view : Cells) (h : Heap ACell) (own : Cells) (a : Nat) (x : AnyActions) (p : Nat → Option Nat) (s : Slice) : Prop where
  held : ActAt h a x p s
  mine : ∀ f, f < 6 → own a f
  mapMine : ∀ f m, f < 5 → p f = some m → own m 0
  log : OwnsAll own s
  old : ∀ b i, own b i ∨ view b i → b < h.next

section
variable {view own : Cells} {h h' : Heap ACell} {a : Nat} {x : AnyActions} {p : Nat → Option Nat} {s : Slice}

theorem ActAt.rely {keep : Cells} (hr : Rely keep h h') (hh : ActAt h a x p s) (hk : ∀ f, f < 6 → keep a f)
    (hm : ∀ f m, f < 5 → p f = some m → keep m 0) (hs : OwnsAll keep s) : ActAt h' a x p s where
  ptrs f hf := by rw [hr.same a f (hk f (by omega))]; exact hh.ptrs f hf
  isNil := hh.isNil
  maps f m hf e := by rw [hr.same m 0 (hm f m hf e)]; exact hh.maps f m hf e
  mapNe := hh.mapNe
  mapNotes := hh.mapNotes
  mapsApart := hh.mapsApart
  notes := by rw [hr.same a 5 (hk 5 (by omega))]; exact hh.notes
  load := (hr.load hh.wf.1 hs).trans hh.load
  wf := ⟨hh.wf.1, fun h0 => lt_of_lt_of_le (hh.wf.2 h0) hr.next⟩
  apart := hh.apart

theorem ActHas.rely (hr : Rely (fun a i => own a i ∨ view a i) h h') (hh : ActHas view h own a x p s) : ActHas view h' own a x p s :=
  ⟨hh.held.rely hr (fun f hf => .inl (hh.mine f hf)) (fun f m hf e => .inl (hh.mapMine f m hf e)) fun b i hb => .inl (hh.log b i hb),
    hh.mine, hh.mapMine, hh.log, fun b i hb => lt_of_lt_of_le (hh.old b i hb) hr.next⟩

theorem ActHas.alloc (hh : ActHas view h own a x p s) :
    ActHas view { h with next := h.next + 1 } (fun b i => own b i ∨ b = h.next) a x p s := by
  have h1 := hh.held.rely (h' := { h with next := h.next + 1 }) (keep := own) ⟨Nat.le_succ _, fun _ _ _ => rfl⟩ hh.mine hh.mapMine hh.log
  refine ⟨h1, fun f hf => .inl (hh.mine f hf), fun f m hf e => .inl (hh.mapMine f m hf e), fun b i hb => .inl (hh.log b i hb), ?_⟩
  rintro b i ((hb | hb) | hb)
  · exact Nat.lt_succ_of_lt (hh.old b i (.inl hb))
  · simp only; omega
  · exact Nat.lt_succ_of_lt (hh.old b i (.inr hb))

theorem cell_put {α : Type} (h : Heap α) (a i : Nat) (x : α) (b j : Nat) :
    (h.store a i [x]).cell b j = if b = a ∧ j = i then x else h.cell b j := by
  simp only [Heap.store]
  by_cases hb : b = a
  · rcases Nat.lt_trichotomy j i with hj | hj | hj
    · rw [if_neg (by omega), if_neg (by omega)]
    · subst hj; simp [hb]
    · rw [if_pos ⟨hb, by omega⟩, if_neg (by omega), List.getElem?_eq_none (by simp; omega)]; rfl
  · rw [if_neg (by tauto), if_neg (by tauto)]

theorem load_put {α : Type} {h : Heap α} {s : Slice} (hw : s.len ≤ s.cap) {b i : Nat} (hn : ¬ s.Owns b i) (c : α) :
    (h.store b i [c]).load s = h.load s := by
  refine load_congr fun j hj => ?_
  rw [cell_put, if_neg]
  rintro ⟨h1, h2⟩
  exact hn ⟨h1.symm, by omega, by omega⟩

/-- A map of one's own is written. -/
theorem ActHas.setMap (hh : ActHas view h own a x p s) {f m : Nat} (hf : f < 5) (e : p f = some m) (es : List (String × AnyAction)) :
    ActHas view (h.store m 0 [.map es]) own a { x with maps := Function.update x.maps f (some es) } p s where
  held :=
    { ptrs := fun g hg => by rw [cell_put, if_neg (fun h => hh.held.mapNe f m hf e h.1.symm)]; exact hh.held.ptrs g hg
      isNil := fun g hg e' => by
        by_cases hgf : g = f
        · subst hgf; rw [e] at e'; cases e'
        · simp only [Function.update_of_ne hgf]; exact hh.held.isNil g hg e'
      maps := fun g m' hg e' => by
        by_cases hgf : g = f
        · subst hgf
          rw [e] at e'; cases e'
          rw [cell_put, if_pos ⟨rfl, rfl⟩]
          exact ⟨es, rfl, by simp⟩
        · have hne : m' ≠ m := fun h => hh.held.mapsApart g f m' hg hf hgf e' (h ▸ e)
          rw [cell_put, if_neg (fun h => hne h.1)]
          simp only [Function.update_of_ne hgf]
          exact hh.held.maps g m' hg e'
      mapNe := hh.held.mapNe
      mapNotes := hh.held.mapNotes
      mapsApart := hh.held.mapsApart
      notes := by rw [cell_put, if_neg (fun h => hh.held.mapNe f m hf e h.1.symm)]; exact hh.held.notes
      load := (load_put hh.held.wf.1 (hh.held.mapNotes f m hf e 0) _).trans hh.held.load
      wf := hh.held.wf
      apart := hh.held.apart }
  mine := hh.mine
  mapMine := hh.mapMine
  log := hh.log
  old := hh.old

/-- A map variable is given a new map. -/
theorem ActHas.newMap (hh : ActHas view h own a x p s) {f : Nat} (hf : f < 5) {h1 : Heap ACell}
    (hr : Rely (fun a i => own a i ∨ view a i) h h1) :
    ActHas view ((({ h1 with next := h1.next + 1 } : Heap ACell).store h1.next 0 [.map []]).store a f [.ptr (some h1.next)])
      (fun b i => own b i ∨ b = h1.next) a { x with maps := Function.update x.maps f (some []) } (Function.update p f (some h1.next)) s := by
  have h2 := hh.rely hr
  have h3 := h2.alloc
  have fresh : ∀ b i, own b i → b ≠ h1.next := fun b i hb e => by have := h2.old b i (.inl hb); omega
  have ha : a ≠ h1.next := fresh a 0 (hh.mine 0 (by omega))
  have hs : ∀ i, ¬ s.Owns h1.next i := fun i ho => fresh _ i (hh.log _ i ho) rfl
  refine ⟨⟨?_, ?_, ?_, ?_, ?_, ?_, ?_, ?_, ?_, hh.held.apart⟩, h3.mine, ?_, h3.log, h3.old⟩
  · intro g hg
    rw [cell_put]
    by_cases hgf : g = f
    · subst hgf; rw [if_pos ⟨rfl, rfl⟩, Function.update_self]
    · rw [if_neg (fun h => hgf h.2), cell_put, if_neg (fun h => ha h.1), Function.update_of_ne hgf]; exact h3.held.ptrs g hg
  · intro g hg e
    by_cases hgf : g = f
    · subst hgf; rw [Function.update_self] at e; cases e
    · rw [Function.update_of_ne hgf] at e
      simp only [Function.update_of_ne hgf]; exact hh.held.isNil g hg e
  · intro g m hg e
    by_cases hgf : g = f
    · subst hgf
      rw [Function.update_self] at e; cases e
      rw [cell_put, if_neg (fun h => ha h.1.symm), cell_put, if_pos ⟨rfl, rfl⟩]
      exact ⟨[], rfl, by simp⟩
    · rw [Function.update_of_ne hgf] at e
      rw [cell_put, if_neg (fun h => hh.held.mapNe g m hg e h.1), cell_put, if_neg (fun h => fresh m 0 (hh.mapMine g m hg e) h.1)]
      simp only [Function.update_of_ne hgf]
      exact h3.held.maps g m hg e
  · intro g m hg e
    by_cases hgf : g = f
    · subst hgf; rw [Function.update_self] at e; cases e; exact ha.symm
    · rw [Function.update_of_ne hgf] at e; exact hh.held.mapNe g m hg e
  · intro g m hg e
    by_cases hgf : g = f
    · subst hgf; rw [Function.update_self] at e; cases e; exact hs
    · rw [Function.update_of_ne hgf] at e; exact hh.held.mapNotes g m hg e
  · intro g g' m hg hg' hne e e'
    by_cases hgf : g = f
    · subst hgf
      rw [Function.update_self] at e; cases e
      rw [Function.update_of_ne hne.symm] at e'
      exact fresh _ 0 (hh.mapMine g' _ hg' e') rfl
    · rw [Function.update_of_ne hgf] at e
      by_cases hgf' : g' = f
      · subst hgf'
        rw [Function.update_self] at e'; cases e'
        exact fresh _ 0 (hh.mapMine g _ hg e) rfl
      · rw [Function.update_of_ne hgf'] at e'
        exact hh.held.mapsApart g g' m hg hg' hne e e'
  · rw [cell_put, if_neg (by omega), cell_put, if_neg (fun h => ha h.1)]; exact h3.held.notes
  · rw [load_put hh.held.wf.1 (hh.held.apart f), load_put hh.held.wf.1 (hs 0)]; exact h3.held.load
  · exact h3.held.wf
  · intro g m hg e
    by_cases hgf : g = f
    · subst hgf; rw [Function.update_self] at e; cases e; exact .inr rfl
    · rw [Function.update_of_ne hgf] at e; exact .inl (hh.mapMine g m hg e)

variable {gen : Nat → String} {grow : Nat → Nat → Nat}

/-- The entries after actions have been stored under the given IDs. -/
def addAll : List (String × AnyAction) → List AnyAction → List String → List (String × AnyAction)
  | es, x :: l, i :: ids => addAll (setEntry es (x.generateID i)) l ids
  | es, _, _ => es

/-- An Add call with the given IDs on map variable `f`. -/
def AnyActions.add (x : AnyActions) (f : Nat) (l : List AnyAction) (ids : List String) : AnyActions :=
  { x with maps := Function.update x.maps f (some (addAll ((x.maps f).getD []) l ids)) }

/-- The numbers that a goroutine has used for IDs: ascending, and its own. -/
structure Numbers (h : Heap ACell) (own : Cells) (ns : List Nat) : Prop where
  sorted : ns.Pairwise (· < ·)
  mine : ∀ n ∈ ns, own n 0

theorem Numbers.next {ns : List Nat} (hn : Numbers h own ns) (old : ∀ b i, own b i ∨ view b i → b < h.next) {h1 : Heap ACell}
    (hr : Rely (fun a i => own a i ∨ view a i) h h1) :
    Numbers { h1 with next := h1.next + 1 } (fun b i => own b i ∨ b = h1.next) (ns ++ [h1.next]) := by
  constructor
  · rw [List.pairwise_append]
    refine ⟨hn.sorted, List.pairwise_singleton .., fun n hn' m hm => ?_⟩
    rw [List.mem_singleton] at hm
    have := old n 0 (.inl (hn.mine n hn'))
    have := hr.next
    omega
  · intro n hn'
    rcases List.mem_append.1 hn' with h1 | h1
    · exact .inl (hn.mine n h1)
    · exact .inr (List.mem_singleton.1 h1)

theorem Numbers.wider {ns : List Nat} (hn : Numbers h own ns) {own' : Cells} (ho : ∀ b i, own b i → own' b i) : Numbers h' own' ns :=
  ⟨hn.sorted, fun n h => ho _ _ (hn.mine n h)⟩

/-- How a call of a goroutine with its own `Actions` ends: with new numbers `ms`, `k` of them, and the actions `y ms`. -/
def Ends (view : Cells) (a k : Nat) (ns : List Nat) (y : List Nat → AnyActions) (h : Heap ACell) (own : Cells) (o : Option Unit) : Prop :=
  o = some () ∧ ∃ ms p s, ms.length = k ∧ ActHas view h own a (y ms) p s ∧ Numbers h own (ns ++ ms)

theorem safe_addActLoop {f m : Nat} (hf : f < 5) : ∀ (l : List AnyAction) {h : Heap ACell} {own : Cells} {x : AnyActions} {ns : List Nat},
    ActHas view h own a x p s → p f = some m → Numbers h own ns →
    Safe view (addActLoopP gen a f l) h own (Ends view a l.length ns fun ms => x.add f l (ms.map gen))
  | [], h, own, x, ns, hh, e, hn => by
    refine ⟨rfl, [], p, s, rfl, ?_, by rw [List.append_nil]; exact hn⟩
    obtain ⟨es, _, e2⟩ := hh.held.maps f m hf e
    have : x.add f [] ([].map gen) = x := by
      unfold AnyActions.add
      rw [e2]
      show ({ x with maps := Function.update x.maps f (some es) } : AnyActions) = x
      rw [← e2, Function.update_eq_self]
    beta_reduce
    rw [this]; exact hh
  | b :: l, h, own, x, ns, hh, e, hn => by
    intro h1 hr
    have h2 := (hh.rely hr).alloc
    have n2 := hn.next hh.old hr
    refine ⟨.inl (h2.mine f (by omega)), ?_⟩
    rw [h2.held.ptrs f hf, e]
    obtain ⟨es, e1, e2⟩ := h2.held.maps f m hf e
    refine ⟨.inl (h2.mapMine f m hf e), h2.mapMine f m hf e, ?_⟩
    rw [e1]
    have h3 := h2.setMap hf e (setEntry es (b.generateID (gen h1.next)))
    refine safe_mono ?_ _ _ _ (safe_addActLoop hf l (ns := ns ++ [h1.next]) h3 e (n2.wider fun _ _ h => h))
    rintro h4 own4 o ⟨rfl, ms, p', s', k1, k2, k3⟩
    refine ⟨rfl, h1.next :: ms, p', s', by simp [k1], ?_, by simpa using k3⟩
    convert k2 using 1
    unfold AnyActions.add
    simp only [Function.update_self, Function.update_idem, Option.getD_some, List.map_cons, addAll, e2]

theorem safe_addAct {f : Nat} (hf : f < 5) (l : List AnyAction) {ns : List Nat} (hh : ActHas view h own a x p s) (hn : Numbers h own ns) :
    Safe view (addActP gen a f l) h own (Ends view a l.length ns fun ms => x.add f l (ms.map gen)) := by
  refine ⟨.inl (hh.mine f (by omega)), ?_⟩
  rw [hh.held.ptrs f hf]
  cases e : p f with
  | some m => exact safe_addActLoop hf l hh e hn
  | none =>
    intro h1 hr
    have h2 := hh.newMap hf hr
    refine ⟨.inr rfl, h2.mine f (by omega), ?_⟩
    refine safe_mono ?_ _ _ _ (safe_addActLoop (ns := ns) hf l h2 (Function.update_self ..) (hn.wider fun _ _ h => .inl h))
    rintro h4 own4 o ⟨rfl, ms, p', s', k1, k2, k3⟩
    refine ⟨rfl, ms, p', s', k1, ?_, k3⟩
    convert k2 using 1
    unfold AnyActions.add
    simp only [Function.update_self, Function.update_idem, Option.getD_some, hh.held.isNil f hf e, Option.getD_none]

theorem safe_annotate (l : List Annotation) {ns : List Nat} (hh : ActHas view h own a x p s) (hn : Numbers h own ns) :
    Safe view (annotateP grow a l) h own (Ends view a 0 ns fun _ => { x with notes := x.notes ++ l }) := by
  refine ⟨.inl (hh.mine 5 (by omega)), ?_⟩
  rw [hh.held.notes]
  refine safe_bind _ _ _ (safe_append grow hh.held.wf.1 hh.log _ hh.old ?_)
  intro h0 own' hr hsub hown hold
  have h1 := hh.rely hr
  have ho1 : ∀ b i, own b i → b < h0.next := fun b i hb => h1.old b i (.inl hb)
  obtain ⟨st, ld⟩ := step_append grow h1.held.wf (l.map ACell.note)
  refine ⟨hsub _ _ (hh.mine 5 (by omega)), rfl, [], p, (h0.append grow s (l.map ACell.note)).2, rfl, ?_,
    by rw [List.append_nil]; exact hn.wider hsub⟩
  have frame : ∀ b i, own b i → ¬ s.Owns b i → (h0.append grow s (l.map ACell.note)).1.cell b i = h0.cell b i :=
    fun b i hb hn => st.frame b i (ho1 b i hb) hn
  have inh : ∀ b i, own b 0 ∨ own b i → (∀ i, ¬ s.Owns b i) → ¬ (h0.append grow s (l.map ACell.note)).2.Owns b i := by
    intro b i hb hn ho
    rcases st.inherits b i ho with h2 | h2
    · exact hn i h2
    · rcases hb with hb | hb
      · have := ho1 b _ hb; omega
      · have := ho1 b _ hb; omega
  refine ⟨⟨?_, ?_, ?_, ?_, ?_, ?_, ?_, ?_, ?_, ?_⟩, fun f hf => hsub _ _ (hh.mine f hf), fun f m hf e => hsub _ _ (hh.mapMine f m hf e), hown, ?_⟩
  · intro f hf
    rw [cell_put, if_neg (by omega), frame a f (hh.mine f (by omega)) (hh.held.apart f)]
    exact h1.held.ptrs f hf
  · exact h1.held.isNil
  · intro f m hf e
    rw [cell_put, if_neg (fun h => hh.held.mapNe f m hf e h.1), frame m 0 (hh.mapMine f m hf e) (hh.held.mapNotes f m hf e 0)]
    exact h1.held.maps f m hf e
  · exact h1.held.mapNe
  · intro f m hf e i
    exact inh m i (.inl (hh.mapMine f m hf e)) (hh.held.mapNotes f m hf e)
  · exact h1.held.mapsApart
  · rw [cell_put, if_pos ⟨rfl, rfl⟩]
  · rw [load_put st.wf.1 (inh a 5 (.inr (hh.mine 5 (by omega))) hh.held.apart), ld, h1.held.load]; simp
  · exact st.wf
  · intro i
    exact inh a i (.inl (hh.mine 0 (by omega))) hh.held.apart
  · rintro b i (hb | hb)
    · exact hold b i hb
    · exact lt_of_lt_of_le (h1.old b i (.inr hb)) st.next

/-- What a history of calls with the given IDs makes of the actions. -/
def AnyActions.call (x : AnyActions) : ActionCall → List String → AnyActions
  | .create l, ids => x.add 0 (l.map .create) ids
  | .update l, ids => x.add 1 (l.map .update) ids
  | .cancel l, ids => x.add 2 (l.map .cancel) ids
  | .updatePos l, ids => x.add 3 (l.map .updatePos) ids
  | .closePos l, ids => x.add 4 (l.map .closePos) ids
  | .annotate l, _ => { x with notes := x.notes ++ l }

/-- See `AnyActions.call`. -/
def AnyActions.run (x : AnyActions) : List ActionCall → List String → AnyActions
  | [], _ => x
  | c :: cs, ids => (x.call c (ids.take (idsUsed c))).run cs (ids.drop (idsUsed c))

theorem safe_call (c : ActionCall) {ns : List Nat} (hh : ActHas view h own a x p s) (hn : Numbers h own ns) :
    Safe view (callActP gen grow a c) h own (Ends view a (idsUsed c) ns fun ms => x.call c (ms.map gen)) := by
  cases c with
  | create l => have := safe_addAct (gen := gen) (f := 0) (by omega) (l.map .create) hh hn; rw [List.length_map] at this; exact this
  | update l => have := safe_addAct (gen := gen) (f := 1) (by omega) (l.map .update) hh hn; rw [List.length_map] at this; exact this
  | cancel l => have := safe_addAct (gen := gen) (f := 2) (by omega) (l.map .cancel) hh hn; rw [List.length_map] at this; exact this
  | updatePos l => have := safe_addAct (gen := gen) (f := 3) (by omega) (l.map .updatePos) hh hn; rw [List.length_map] at this; exact this
  | closePos l => have := safe_addAct (gen := gen) (f := 4) (by omega) (l.map .closePos) hh hn; rw [List.length_map] at this; exact this
  | annotate l => exact safe_annotate l hh hn

theorem safe_runActions : ∀ (cs : List ActionCall) {h : Heap ACell} {own : Cells} {x : AnyActions} {ns : List Nat} {p : Nat → Option Nat} {s : Slice},
    ActHas view h own a x p s → Numbers h own ns →
    Safe view (runActP gen grow a cs) h own (Ends view a (cs.map idsUsed).sum ns fun ms => x.run cs (ms.map gen))
  | [], h, own, x, ns, p, s, hh, hn => ⟨rfl, [], p, s, rfl, hh, by rw [List.append_nil]; exact hn⟩
  | c :: cs, h, own, x, ns, p, s, hh, hn => by
    refine safe_bind _ _ _ (safe_mono ?_ _ _ _ (safe_call c hh hn))
    rintro h1 own1 o ⟨rfl, ms, p1, s1, k1, k2, k3⟩
    refine safe_mono ?_ _ _ _ (safe_runActions cs k2 k3)
    rintro h2 own2 o ⟨rfl, ms2, p2, s2, l1, l2, l3⟩
    refine ⟨rfl, ms ++ ms2, p2, s2, by simp [k1, l1], ?_, by rw [← List.append_assoc]; exact l3⟩
    show ActHas view h2 own2 a ((x.call c (((ms ++ ms2).map gen).take (idsUsed c))).run cs (((ms ++ ms2).map gen).drop (idsUsed c))) p2 s2
    have hl : (ms.map gen).length = idsUsed c := by rw [List.length_map, k1]
    rw [List.map_append, ← hl, List.take_left, List.drop_left]
    exact l2

/-- The list-level loop, with the IDs given. -/
theorem addLoop_any {V : Type} (c : V → AnyAction) {gid : V → String → V} {idOf : V → String}
    (h1 : ∀ v i, (c v).generateID i = c (gid v i)) (h2 : ∀ v, (c v).id = idOf v) (g : Nat → String) :
    ∀ (l : List V) (n : Nat) (es : List (String × V)) (ids : List String), ids.length = l.length →
      (∀ k i, ids[k]? = some i → g (n + k) = i) →
      ∃ es', addLoop g gid idOf n (some es) l = some (n + l.length, some es') ∧
        es'.map (fun e => (e.1, c e.2)) = addAll (es.map fun e => (e.1, c e.2)) (l.map c) ids
  | [], n, es, ids, _, _ => ⟨es, rfl, by cases ids <;> rfl⟩
  | v :: l, n, es, [], hl, _ => by cases hl
  | v :: l, n, es, i :: ids, hl, hg => by
    have e0 : g n = i := hg 0 i rfl
    obtain ⟨es', k1, k2⟩ := addLoop_any c h1 h2 g l (n + 1) ((idOf (gid v i), gid v i) :: es.filter fun e => e.1 ≠ idOf (gid v i)) ids
      (by simpa using hl) (fun k j hk => by rw [show n + 1 + k = n + (k + 1) by omega]; exact hg (k + 1) j hk)
    refine ⟨es', ?_, ?_⟩
    · unfold addLoop
      simp only [GoMap.set, e0]
      rw [k1, List.length_cons]
      congr 2; omega
    · rw [k2]
      simp only [List.map_cons, addAll, setEntry, h1, h2]
      congr 2
      rw [List.filter_map]
      rfl

theorem add_any {V : Type} (c : V → AnyAction) {gid : V → String → V} {idOf : V → String}
    (h1 : ∀ v i, (c v).generateID i = c (gid v i)) (h2 : ∀ v, (c v).id = idOf v) (g : Nat → String) (l : List V) (n : Nat) (m : GoMap V)
    (ids : List String) (hl : ids.length = l.length) (hg : ∀ k i, ids[k]? = some i → g (n + k) = i) :
    ∃ m', addLoop g gid idOf n (makeIfNil m) l = some (n + l.length, m') ∧
      entriesOf c m' = some (addAll ((entriesOf c m).getD []) (l.map c) ids) := by
  obtain ⟨es, e, he⟩ : ∃ es, makeIfNil m = some es ∧ (entriesOf c m).getD [] = es.map fun e => (e.1, c e.2) := by
    cases m with
    | none => exact ⟨[], rfl, rfl⟩
    | some es => exact ⟨es, rfl, rfl⟩
  obtain ⟨es', k1, k2⟩ := addLoop_any c h1 h2 g l n es ids hl hg
  rw [e]
  exact ⟨_, k1, by rw [he, ← k2]; rfl⟩

theorem any_ext {x y : AnyActions} (h1 : ∀ f, x.maps f = y.maps f) (h2 : x.notes = y.notes) : x = y := by
  cases x; cases y
  simp only at h1 h2
  rw [h2, funext h1]

theorem call_any (g : Nat → String) (n : Nat) (A : Actions) (c : ActionCall) (ids : List String) (hl : ids.length = idsUsed c)
    (hg : ∀ k i, ids[k]? = some i → g (n + k) = i) :
    ∃ A', callActions g n A c = some (n + idsUsed c, A') ∧ A'.any = A.any.call c ids := by
  cases c with
  | create l =>
    obtain ⟨m', k1, k2⟩ := add_any AnyAction.create (gid := CreateOrderAction.generateID) (idOf := CreateOrderAction.id) (fun _ _ => rfl)
      (fun _ => rfl) g l n A.createOrders ids hl hg
    refine ⟨{ A with createOrders := m' }, by simp only [callActions, addCreateOrders, k1]; rfl, any_ext (fun f => ?_) rfl⟩
    match f with
    | 0 => exact k2
    | 1 | 2 | 3 | 4 | _ + 5 => rfl
  | update l =>
    obtain ⟨m', k1, k2⟩ := add_any AnyAction.update (gid := UpdateOrderAction.generateID) (idOf := UpdateOrderAction.id) (fun _ _ => rfl)
      (fun _ => rfl) g l n A.updateOrders ids hl hg
    refine ⟨{ A with updateOrders := m' }, by simp only [callActions, addUpdateOrders, k1]; rfl, any_ext (fun f => ?_) rfl⟩
    match f with
    | 1 => exact k2
    | 0 | 2 | 3 | 4 | _ + 5 => rfl
  | cancel l =>
    obtain ⟨m', k1, k2⟩ := add_any AnyAction.cancel (gid := CancelOrderAction.generateID) (idOf := CancelOrderAction.id) (fun _ _ => rfl)
      (fun _ => rfl) g l n A.cancelOrders ids hl hg
    refine ⟨{ A with cancelOrders := m' }, by simp only [callActions, addCancelOrders, k1]; rfl, any_ext (fun f => ?_) rfl⟩
    match f with
    | 2 => exact k2
    | 0 | 1 | 3 | 4 | _ + 5 => rfl
  | updatePos l =>
    obtain ⟨m', k1, k2⟩ := add_any AnyAction.updatePos (gid := UpdatePositionAction.generateID) (idOf := UpdatePositionAction.id) (fun _ _ => rfl)
      (fun _ => rfl) g l n A.updatePositions ids hl hg
    refine ⟨{ A with updatePositions := m' }, by simp only [callActions, addUpdatePositions, k1]; rfl, any_ext (fun f => ?_) rfl⟩
    match f with
    | 3 => exact k2
    | 0 | 1 | 2 | 4 | _ + 5 => rfl
  | closePos l =>
    obtain ⟨m', k1, k2⟩ := add_any AnyAction.closePos (gid := ClosePositionAction.generateID) (idOf := ClosePositionAction.id) (fun _ _ => rfl)
      (fun _ => rfl) g l n A.closePositions ids hl hg
    refine ⟨{ A with closePositions := m' }, by simp only [callActions, addClosePositions, k1]; rfl, any_ext (fun f => ?_) rfl⟩
    match f with
    | 4 => exact k2
    | 0 | 1 | 2 | 3 | _ + 5 => rfl
  | annotate l => exact ⟨{ A with annotations := A.annotations ++ l }, rfl, rfl⟩

theorem run_any (g : Nat → String) : ∀ (cs : List ActionCall) (n : Nat) (A : Actions) (ids : List String),
    ids.length = (cs.map idsUsed).sum → (∀ k i, ids[k]? = some i → g (n + k) = i) →
    ∃ A', runActions g n A cs = some (n + (cs.map idsUsed).sum, A') ∧ A'.any = A.any.run cs ids
  | [], n, A, ids, _, _ => ⟨A, rfl, rfl⟩
  | c :: cs, n, A, ids, hl, hg => by
    rw [List.map_cons, List.sum_cons] at hl
    obtain ⟨A1, k1, k2⟩ := call_any g n A c (ids.take (idsUsed c)) (by rw [List.length_take]; omega) (fun k i hk => by
      rw [List.getElem?_take] at hk
      split at hk
      · exact hg k i hk
      · cases hk)
    obtain ⟨A2, l1, l2⟩ := run_any g cs (n + idsUsed c) A1 (ids.drop (idsUsed c)) (by rw [List.length_drop]; omega) (fun k i hk => by
      rw [List.getElem?_drop] at hk
      rw [Nat.add_assoc]; exact hg _ i hk)
    refine ⟨A2, ?_, ?_⟩
    · rw [runActions, k1, List.map_cons, List.sum_cons, ← Nat.add_assoc]; exact l1
    · rw [l2, k2]; rfl

/-- Memory at `a` shows `A`. -/
def Spec.ActShown (h : Heap ACell) (a : Nat) (A : Actions) : Prop := ∃ p s, ActAt h a A.any p s

/-- The cells of the `Actions` at `a`: its six fields, its maps, and the array of its annotations up to the capacity. -/
def Spec.ActCells (a : Nat) (p : Nat → Option Nat) (s : Slice) : Cells := fun b i =>
  (b = a ∧ i < 6) ∨ (i = 0 ∧ ∃ f, f < 5 ∧ p f = some b) ∨ s.Owns b i

/-- Every goroutine has an `Actions` of its own in memory. -/
structure Spec.OwnActions {ι : Type} (h : Heap ACell) (a : ι → Nat) (A : ι → Actions) (p : ι → Nat → Option Nat) (s : ι → Slice) : Prop where
  held : ∀ i, ActAt h (a i) (A i).any (p i) (s i)
  old : ∀ i b c, ActCells (a i) (p i) (s i) b c → b < h.next
  apart : ∀ i j, i ≠ j → ∀ b c, ActCells (a i) (p i) (s i) b c → ¬ ActCells (a j) (p j) (s j) b c

theorem ActAt.has (hh : ActAt h a x p s) (ho : ∀ b c, ActCells a p s b c → b < h.next) :
    ActHas (fun _ _ => False) h (ActCells a p s) a x p s :=
  ⟨hh, fun _ hf => .inl ⟨rfl, hf⟩, fun f _ hf e => .inr (.inl ⟨rfl, f, hf, e⟩), fun _ _ hb => .inr (.inr hb), fun b i hb =>
    hb.elim (ho b i) False.elim⟩

theorem stable_ends {k : Nat} {ns : List Nat} {y : List Nat → AnyActions} : Stable view (Ends view a k ns y) := by
  rintro h h' own o hr ⟨h1, ms, p, s, h2, h3, h4⟩
  exact ⟨h1, ms, p, s, h2, h3.rely hr, h4.wider fun _ _ h => h⟩

section
variable {ι : Type} {a : ι → Nat} {A : ι → Actions} {p : ι → Nat → Option Nat} {s : ι → Slice} {cs : ι → List ActionCall}

theorem allSafe_own (hs : OwnActions h a A p s) : AllSafe (R := fun _ => Option Unit) (fun _ _ => False)
    (fun i => Ends (fun _ _ => False) (a i) ((cs i).map idsUsed).sum [] fun ms => (A i).any.run (cs i) (ms.map gen))
    ⟨h, fun i => runActP gen grow (a i) (cs i)⟩ fun i => ActCells (a i) (p i) (s i) where
  safe i := safe_runActions (cs i) ((hs.held i).has (hs.old i)) ⟨.nil, fun _ h => by cases h⟩
  apart := hs.apart
  unseen _ _ _ _ h := h
  old := hs.old
  oldView _ _ h := h.elim

/-- **C232.** Goroutines that fill an `Actions` each, in any order of steps: whoever has come to an end has not panicked, and its
`Actions` is as if it had been alone; no ID is used twice, by one goroutine or by two. -/
theorem C232_alone [DecidableEq ι] (hg : Function.Injective gen) (hs : OwnActions h a A p s) {t : Threads ι ACell (fun _ => Option Unit)}
    (st : Relation.ReflTransGen ThreadStep ⟨h, fun i => runActP gen grow (a i) (cs i)⟩ t) :
    ∃ ids : ι → List String, (∀ i, (ids i).Nodup) ∧ (∀ i j, i ≠ j → ∀ x ∈ ids i, x ∉ ids j) ∧
      ∀ i o, t.prog i = .done o → o = some () ∧ (ids i).length = ((cs i).map idsUsed).sum ∧
        ∃ A', runActions (fun k => (ids i).getD k "") 0 (A i) (cs i) = some ((ids i).length, A') ∧ ActShown t.heap (a i) A' := by
  obtain ⟨own, k⟩ := safe_all (fun i => stable_ends) (allSafe_own (gen := gen) (grow := grow) (cs := cs) hs) st
  have ex : ∀ i, ∃ ms : List Nat, ms.Pairwise (· < ·) ∧ (∀ n ∈ ms, own i n 0) ∧ ∀ o, t.prog i = .done o → o = some () ∧
      ms.length = ((cs i).map idsUsed).sum ∧ ∃ p s, ActAt t.heap (a i) ((A i).any.run (cs i) (ms.map gen)) p s := by
    intro i
    by_cases hd : ∃ o, t.prog i = .done o
    · obtain ⟨o, e⟩ := hd
      have h1 := k.safe i
      rw [e] at h1
      obtain ⟨rfl, ms, p, s, h2, h3, h4⟩ := h1
      refine ⟨ms, h4.sorted, h4.mine, fun o e' => ?_⟩
      rw [e] at e'
      injection e' with e'
      exact ⟨e'.symm, h2, p, s, h3.held⟩
    · exact ⟨[], .nil, (fun _ h => by cases h), fun o e => absurd ⟨o, e⟩ hd⟩
  choose ms m1 m2 m3 using ex
  refine ⟨fun i => (ms i).map gen, fun i => ?_, ?_, ?_⟩
  · exact ((m1 i).imp fun h => Nat.ne_of_lt h).map gen fun a b hab e => hab (hg e)
  · intro i j hij x hx hx'
    obtain ⟨n, hn, rfl⟩ := List.mem_map.1 hx
    obtain ⟨n', hn', e⟩ := List.mem_map.1 hx'
    rw [hg e] at hn'
    exact k.apart i j hij n 0 (m2 i n hn) (m2 j n hn')
  · intro i o e
    obtain ⟨h1, h2, p', s', h3⟩ := m3 i o e
    have hl : ((ms i).map gen).length = ((cs i).map idsUsed).sum := by rw [List.length_map, h2]
    obtain ⟨A', r1, r2⟩ := run_any (fun k => ((ms i).map gen).getD k "") (cs i) 0 (A i) ((ms i).map gen) hl (fun k x hk => by
      simp only [Nat.zero_add, List.getD_eq_getElem?_getD, hk, Option.getD_some])
    refine ⟨h1, hl, A', ?_, p', s', by rw [r2]; exact h3⟩
    rw [hl]; rw [Nat.zero_add] at r1; exact r1

/-- **C232.** No two of these goroutines ever are at one memory cell with one of them writing. -/
theorem C232_no_race [DecidableEq ι] (hs : OwnActions h a A p s) {t : Threads ι ACell (fun _ => Option Unit)}
    (st : Relation.ReflTransGen ThreadStep ⟨h, fun i => runActP gen grow (a i) (cs i)⟩ t) {i j : ι} (hij : i ≠ j) {b c : Nat}
    (hw : WritesCell (t.prog i) b c) : ¬ ReadsCell (t.prog j) b c ∧ ¬ WritesCell (t.prog j) b c := by
  obtain ⟨own, k⟩ := safe_all (fun i => stable_ends) (allSafe_own (gen := gen) (grow := grow) (cs := cs) hs) st
  exact k.no_race hij hw

/-- **C232.** Each of them can come to its end without a panic, however far the others have got. -/
theorem C232_finish [DecidableEq ι] (hs : OwnActions h a A p s) {t : Threads ι ACell (fun _ => Option Unit)}
    (st : Relation.ReflTransGen ThreadStep ⟨h, fun i => runActP gen grow (a i) (cs i)⟩ t) (i : ι) :
    ∃ u : Threads ι ACell (fun _ => Option Unit), Relation.ReflTransGen ThreadStep t u ∧ u.prog i = .done (some ()) ∧
      ∀ j, j ≠ i → u.prog j = t.prog j := by
  obtain ⟨u, o, h1, h2, h3⟩ := threads_finish i (t.prog i) t rfl
  obtain ⟨own, k⟩ := safe_all (fun i => stable_ends) (allSafe_own (gen := gen) (grow := grow) (cs := cs) hs) (st.trans h1)
  have h4 := k.safe i
  rw [h2] at h4
  obtain ⟨rfl, _⟩ := h4
  exact ⟨u, h1, h2, h3⟩
end

/-- The map variable that a call fills, and the actions it is given. -/
def Spec.fills : ActionCall → Option (Nat × List AnyAction)
  | .create l => some (0, l.map .create)
  | .update l => some (1, l.map .update)
  | .cancel l => some (2, l.map .cancel)
  | .updatePos l => some (3, l.map .updatePos)
  | .closePos l => some (4, l.map .closePos)
  | .annotate _ => none

theorem fills_call {c : ActionCall} {f : Nat} {l : List AnyAction} (e : fills c = some (f, l)) :
    f < 5 ∧ idsUsed c = l.length ∧ callActP gen grow a c = addActP gen a f l ∧ ∀ ids, x.call c ids = x.add f l ids := by
  cases c with
  | annotate l => cases e
  | _ l =>
    injection e with e; injection e with e1 e2; subst e1 e2
    exact ⟨by omega, (List.length_map ..).symm, rfl, fun _ => rfl⟩

theorem run_one {c : ActionCall} : (runActP gen grow a [c]) = callActP gen grow a c := by
  have : (fun o : Option Unit => match o with | none => HProg.done none | some _ => runActP gen grow a []) = HProg.done (α := ACell) := by
    funext o; rcases o with _ | ⟨⟩ <;> rfl
  show (callActP gen grow a c).bind (fun o : Option Unit => match o with | none => HProg.done none | some _ => runActP gen grow a []) = _
  rw [this, HProg.bind_done]

theorem length_addAll : ∀ (l : List AnyAction) (es : List (String × AnyAction)) (ids : List String), ids.length = l.length → ids.Nodup →
    (∀ i ∈ ids, ∀ e ∈ es, e.1 ≠ i) → (addAll es l ids).length = es.length + l.length
  | [], es, ids, _, _, _ => by cases ids <;> simp [addAll]
  | b :: l, es, [], hl, _, _ => by cases hl
  | b :: l, es, i :: ids, hl, hn, hd => by
    have e : (b.generateID i).id = i := by cases b <;> rfl
    have hf : es.filter (fun e => e.1 ≠ i) = es := List.filter_eq_self.2 fun e he => by simpa using hd i (by simp) e he
    rw [addAll, length_addAll l _ ids (by simpa using hl) (List.nodup_cons.1 hn).2, setEntry, e, hf]
    · simp; omega
    · intro j hj e' he'
      unfold setEntry at he'
      rw [e, hf] at he'
      rcases List.mem_cons.1 he' with rfl | he'
      · rintro rfl; exact (List.nodup_cons.1 hn).1 hj
      · exact hd j (by simp [hj]) e' he'

theorem numbers_nodup (hg : Function.Injective gen) {ns : List Nat} (hn : Numbers h own ns) : (ns.map gen).Nodup :=
  (hn.sorted.imp fun h => Nat.ne_of_lt h).map gen fun _ _ hab e => hab (hg e)

theorem keys_addAll : ∀ (l : List AnyAction) (es : List (String × AnyAction)) (ids : List String), ids.length = l.length →
    ∀ e ∈ addAll es l ids, e ∈ es ∨ e.1 ∈ ids
  | [], es, ids, _, e, he => by cases ids <;> exact .inl he
  | b :: l, es, [], hl, _, _ => by cases hl
  | b :: l, es, i :: ids, hl, e, he => by
    have hi : (b.generateID i).id = i := by cases b <;> rfl
    rcases keys_addAll l _ ids (by simpa using hl) e he with h1 | h1
    · unfold setEntry at h1
      rcases List.mem_cons.1 h1 with rfl | h1
      · exact .inr (by rw [hi]; simp)
      · exact .inl (List.mem_filter.1 h1).1
    · exact .inr (by simp [h1])

theorem seq_add {A : Actions} {c1 c2 : ActionCall} {f : Nat} {l1 l2 : List AnyAction} (e1 : fills c1 = some (f, l1))
    (e2 : fills c2 = some (f, l2)) (hnil : A.any.maps f = none) {ids : List String} (hnd : ids.Nodup) (hl' : ids.length = l1.length + l2.length) :
    ∃ A' es, runActions (fun k => ids.getD k "") 0 A [c1, c2] = some (ids.length, A') ∧ A'.any.maps f = some es ∧ es.length = l1.length + l2.length := by
  obtain ⟨hf, u1, -, x1⟩ := fills_call (gen := fun _ => "") (grow := fun _ _ => 0) (a := 0) (x := A.any) e1
  obtain ⟨-, u2, -, x2⟩ := fills_call (gen := fun _ => "") (grow := fun _ _ => 0) (a := 0) (x := A.any.call c1 (ids.take (idsUsed c1))) e2
  have hl : ids.length = ([c1, c2].map idsUsed).sum := by rw [hl']; simp [u1, u2]
  obtain ⟨A', r1, r2⟩ := run_any (fun k => ids.getD k "") [c1, c2] 0 A ids hl (fun k x hk => by
    simp only [Nat.zero_add, List.getD_eq_getElem?_getD, hk, Option.getD_some])
  have em : A'.any.maps f = some (addAll (addAll [] l1 (ids.take l1.length)) l2 (ids.drop l1.length)) := by
    rw [r2]
    show ((A.any.call c1 (ids.take (idsUsed c1))).call c2 ((ids.drop (idsUsed c1)).take (idsUsed c2))).maps f = _
    rw [x2, x1, u1, u2]
    simp only [AnyActions.add, Function.update_self, Option.getD_some, hnil, Option.getD_none]
    have : (ids.drop l1.length).take l2.length = ids.drop l1.length := List.take_of_length_le (by rw [List.length_drop]; omega)
    rw [this]
  have ht : (ids.take l1.length).length = l1.length := by rw [List.length_take]; omega
  have hd : (ids.drop l1.length).length = l2.length := by rw [List.length_drop]; omega
  have hn3 : (ids.take l1.length ++ ids.drop l1.length).Nodup := by rw [List.take_append_drop]; exact hnd
  obtain ⟨n1, n2, n3⟩ := List.nodup_append.1 hn3
  refine ⟨A', _, by rw [r1, hl, Nat.zero_add], em, ?_⟩
  rw [length_addAll l2 _ _ hd n2, length_addAll l1 [] _ ht n1 (fun _ _ _ h => by cases h)]
  · simp
  · intro i hi e he heq
    rcases keys_addAll l1 [] _ ht e he with h1 | h1
    · cases h1
    · exact n3 _ h1 _ hi heq

/-- **C233.** Two goroutines call the same Add method on one `Actions` whose map is nil: both can return while the map has the actions of
one of them only. Called one after the other, it has those of both. -/
theorem C233_lost (hg : Function.Injective gen) {A : Actions} (hh : ActAt h a A.any p s) (ho : ∀ b c, ActCells a p s b c → b < h.next)
    {c1 c2 : ActionCall} {f : Nat} {l1 l2 : List AnyAction} (e1 : fills c1 = some (f, l1)) (e2 : fills c2 = some (f, l2)) (hnil : A.any.maps f = none)
    {ι : Type} [DecidableEq ι] {cs : ι → List ActionCall} {i j : ι} (hij : i ≠ j) (ti : cs i = [c1]) (tj : cs j = [c2]) :
    (∀ ids : List String, ids.Nodup → ids.length = l1.length + l2.length → ∃ A' es,
      runActions (fun k => ids.getD k "") 0 A [c1, c2] = some (ids.length, A') ∧ A'.any.maps f = some es ∧ es.length = l1.length + l2.length) ∧
    ∃ (t : Threads ι ACell (fun _ => Option Unit)) (ids : List String) (A' : Actions) (es : List (String × AnyAction)),
      Relation.ReflTransGen ThreadStep ⟨h, fun i => runActP gen grow a (cs i)⟩ t ∧
      t.prog i = .done (some ()) ∧ t.prog j = .done (some ()) ∧ ids.Nodup ∧
      runActions (fun k => ids.getD k "") 0 A [c1] = some (ids.length, A') ∧ ActShown t.heap a A' ∧
      A'.any.maps f = some es ∧ es.length = l1.length := by
  obtain ⟨hf, u1, g1, x1⟩ := fills_call (gen := gen) (grow := grow) (a := a) (x := A.any) e1
  obtain ⟨-, u2, g2, -⟩ := fills_call (gen := gen) (grow := grow) (a := a) (x := A.any) e2
  have hp : p f = none := by
    cases e : p f with
    | none => rfl
    | some m => obtain ⟨es, _, k⟩ := hh.maps f m hf e; rw [hnil] at k; cases k
  constructor
  · exact fun ids hnd hl => seq_add e1 e2 hnil hnd hl
  · have P : HProg.Part (addActP gen a f l1) h (.alloc fun m => .put m 0 (.map []) (.put a f (.ptr (some m)) (addActLoopP gen a f l1))) h := by
      refine .get _ _ _ ?_
      rw [hh.ptrs f hf, hp]
      exact .refl _ _
    obtain ⟨t, k1, k2, k3, k4⟩ := threads_between hij (P := fun i => runActP gen grow a (cs i)) (h := h) (h0 := h) (by
      simp only [ti, run_one, g1]; exact P)
    simp only [tj, run_one, g2] at k2 k3 k4
    obtain ⟨own1, o1, ms1, p1, s1, q1, q2, q3⟩ := safe_run _ _ _ (safe_addAct (gen := gen) hf l2 (hh.has ho) (ns := []) ⟨.nil, fun _ h => by cases h⟩)
    have S : Safe (fun _ _ => False) (.alloc fun m => .put m 0 (.map []) (.put a f (.ptr (some m)) (addActLoopP gen a f l1)))
        ((addActP gen a f l2).run h).2 own1 (Ends (fun _ _ => False) a l1.length [] fun ms =>
          { (A.any.add f l2 (ms1.map gen)) with maps := Function.update (A.any.add f l2 (ms1.map gen)).maps f (some (addAll [] l1 (ms.map gen))) }) := by
      intro h1 hr
      have h2 := q2.newMap hf hr
      refine ⟨.inr rfl, h2.mine f (by omega), ?_⟩
      refine safe_mono ?_ _ _ _ (safe_addActLoop (gen := gen) (ns := []) hf l1 h2 (Function.update_self ..) ⟨.nil, fun _ h => by cases h⟩)
      rintro h4 own4 o ⟨rfl, ms, p', s', k1, k2, k3⟩
      refine ⟨rfl, ms, p', s', k1, ?_, k3⟩
      convert k2 using 1
      unfold AnyActions.add
      simp only [Function.update_self, Function.update_idem, Option.getD_some]
    obtain ⟨own2, o2, ms2, p2, s2, w1, w2, w3⟩ := safe_run _ _ _ S
    have hl : (ms2.map gen).length = ([c1].map idsUsed).sum := by rw [List.length_map, w1]; simp [u1]
    have hl' : (ms2.map gen).length = l1.length := by rw [List.length_map, w1]
    obtain ⟨A', r1, r2⟩ := run_any (fun k => (ms2.map gen).getD k "") [c1] 0 A (ms2.map gen) hl (fun k x hk => by
      simp only [Nat.zero_add, List.getD_eq_getElem?_getD, hk, Option.getD_some])
    have hnd : (ms2.map gen).Nodup := numbers_nodup hg (by simpa using w3)
    have ea : A'.any = { A.any with maps := Function.update A.any.maps f (some (addAll [] l1 (ms2.map gen))) } := by
      rw [r2]
      show A.any.call c1 ((ms2.map gen).take (idsUsed c1)) = _
      rw [x1, u1, List.take_of_length_le (by omega), AnyActions.add, hnil]; rfl
    refine ⟨t, ms2.map gen, A', addAll [] l1 (ms2.map gen), k1, by rw [k3, o2], by rw [k4, o1], hnd, by rw [r1, hl, Nat.zero_add], ?_, ?_, ?_⟩
    · refine ⟨p2, s2, ?_⟩
      rw [k2, ea]
      have := w2.held
      simp only [AnyActions.add, Function.update_idem] at this
      exact this
    · rw [ea]; simp only [Function.update_self]
    · rw [length_addAll l1 [] _ hl' hnd (fun _ _ _ h => by cases h)]; simp

/-- **C233.** Two goroutines call the same Add method, each with an action, on one `Actions` that has the map: there is an order of steps in which both are
about to write to the map at the same time, which Go forbids. -/
theorem C233_map_race {A : Actions} (hh : ActAt h a A.any p s)
    {c1 c2 : ActionCall} {f : Nat} {b1 b2 : AnyAction} {l1 l2 : List AnyAction} (e1 : fills c1 = some (f, b1 :: l1)) (e2 : fills c2 = some (f, b2 :: l2))
    {es : List (String × AnyAction)} (hsome : A.any.maps f = some es)
    {ι : Type} [DecidableEq ι] {cs : ι → List ActionCall} {i j : ι} (hij : i ≠ j) {d1 d2 : List ActionCall} (ti : cs i = c1 :: d1) (tj : cs j = c2 :: d2) :
    ∃ (t : Threads ι ACell (fun _ => Option Unit)) (m : Nat),
      Relation.ReflTransGen ThreadStep ⟨h, fun i => runActP gen grow a (cs i)⟩ t ∧
      t.heap.cell a f = .ptr (some m) ∧ t.heap.cell m 0 = .map es ∧ WritesCell (t.prog i) m 0 ∧ WritesCell (t.prog j) m 0 := by
  obtain ⟨hf, -, g1, -⟩ := fills_call (gen := gen) (grow := grow) (a := a) (x := A.any) e1
  obtain ⟨-, -, g2, -⟩ := fills_call (gen := gen) (grow := grow) (a := a) (x := A.any) e2
  obtain ⟨m, hp⟩ : ∃ m, p f = some m := by
    cases e : p f with
    | none => rw [hh.isNil f hf e] at hsome; cases hsome
    | some m => exact ⟨m, rfl⟩
  obtain ⟨es', k, k'⟩ := hh.maps f m hf hp
  rw [hsome] at k'; cases k'
  have P : ∀ (b : AnyAction) (l : List AnyAction) (h' : Heap ACell), h'.cell = h.cell → HProg.Part (addActP gen a f (b :: l)) h'
      (.put m 0 (.map (setEntry es (b.generateID (gen h'.next)))) (addActLoopP gen a f l)) { h' with next := h'.next + 1 } := by
    intro b l h' e
    refine .get _ _ _ ?_
    rw [e, hh.ptrs f hf, hp]
    refine .alloc _ (.get _ _ _ ?_)
    simp only [e]
    rw [hh.ptrs f hf, hp]
    refine .get _ _ _ ?_
    simp only
    rw [k]
    exact .refl _ _
  let q : Option Unit → List ActionCall → HProg ACell (Option Unit) := fun o d => match o with | none => .done none | some _ => runActP gen grow a d
  have s1 := threads_to (R := fun _ => Option Unit) i ((P b1 l1 h rfl).bind (fun o => q o d1)) ⟨h, fun i => runActP gen grow a (cs i)⟩ rfl (by
    simp only [ti]; rw [← g1]; rfl)
  have s2 := fun (Q : ι → HProg ACell (Option Unit)) (e : Q j = (addActP gen a f (b2 :: l2)).bind fun o => q o d2) => threads_to (R := fun _ => Option Unit) j
    ((P b2 l2 { h with next := h.next + 1 } rfl).bind (fun o => q o d2)) ⟨_, Q⟩ rfl e
  refine ⟨_, m, s1.trans (s2 _ (Eq.trans (Function.update_of_ne hij.symm _ _) (by
    simp only [tj]; rw [← g2]; rfl))), ?_, k, ?_, ?_⟩
  · show h.cell a f = _
    rw [hh.ptrs f hf, hp]
  · simp only [Function.update_of_ne hij, Function.update_self]
    exact ⟨_, _, rfl⟩
  · simp only [Function.update_self]
    exact ⟨_, _, rfl⟩

theorem store_store {α : Type} (h : Heap α) (a i : Nat) (x y : α) : (h.store a i [x]).store a i [y] = h.store a i [y] := by
  have : ((h.store a i [x]).store a i [y]).cell = (h.store a i [y]).cell := by
    funext b j
    rw [cell_put, cell_put, cell_put]
    split_ifs <;> rfl
  cases h
  simp only [Heap.store] at this ⊢
  rw [this]

/-- The annotations are appended to by someone who has read the header `s`, whatever header is in memory now. -/
theorem ActAt.annotated (hh : ActAt (h.store a 5 [.notes s]) a x p s) (ho : ∀ b c, ActCells a p s b c → b < h.next) (l : List Annotation) :
    ActAt ((h.append grow s (l.map ACell.note)).1.store a 5 [.notes (h.append grow s (l.map ACell.note)).2]) a { x with notes := x.notes ++ l } p
      (h.append grow s (l.map ACell.note)).2 := by
  have hw : WF h s := hh.wf
  obtain ⟨st, ld⟩ := step_append grow hw (l.map ACell.note)
  have hc : ∀ b i, ¬ (b = a ∧ i = 5) → (h.store a 5 [ACell.notes s]).cell b i = h.cell b i := fun b i hn => by rw [cell_put, if_neg hn]
  have inh : ∀ b i, b < h.next → (∀ i, ¬ s.Owns b i) → ¬ (h.append grow s (l.map ACell.note)).2.Owns b i := by
    intro b i hb hn ho
    rcases st.inherits b i ho with h2 | h2
    · exact hn i h2
    · omega
  have ha : a < h.next := ho a 0 (.inl ⟨rfl, by omega⟩)
  refine ⟨?_, hh.isNil, ?_, hh.mapNe, ?_, hh.mapsApart, by rw [cell_put, if_pos ⟨rfl, rfl⟩], ?_, st.wf, fun i => inh a i ha hh.apart⟩
  · intro f hf
    rw [cell_put, if_neg (by omega), st.frame a f ha (hh.apart f), ← hc a f (by omega)]
    exact hh.ptrs f hf
  · intro f m hf e
    have hm : m < h.next := ho m 0 (.inr (.inl ⟨rfl, f, hf, e⟩))
    have hne := hh.mapNe f m hf e
    rw [cell_put, if_neg (fun h => hne h.1), st.frame m 0 hm (hh.mapNotes f m hf e 0), ← hc m 0 (fun h => hne h.1)]
    exact hh.maps f m hf e
  · intro f m hf e i
    exact inh m i (ho m 0 (.inr (.inl ⟨rfl, f, hf, e⟩))) (hh.mapNotes f m hf e)
  · rw [load_put st.wf.1 (inh a 5 ha hh.apart), ld, ← load_put hw.1 (hh.apart 5) (ACell.notes s), hh.load]; simp

theorem load_append_old {α : Type} {h : Heap α} {s : Slice} (hw : WF h s) (xs : List α) : (h.append grow s xs).1.load s = h.load s := by
  refine load_congr fun i hi => ?_
  unfold Heap.append
  dsimp only
  split_ifs with hc
  · simp only [Heap.store]
    rw [if_neg (by omega)]
  · have := hw.2 (by have := hw.1; omega)
    simp only [Heap.store]
    rw [if_neg (by omega)]

theorem run_annotate (h : Heap ACell) (s : Slice) (l : List Annotation) :
    ((HProg.append grow s (l.map ACell.note)).bind fun s => .put a 5 (.notes s) (.done (some ()))).run h =
      (some (), (h.append grow s (l.map ACell.note)).1.store a 5 [.notes (h.append grow s (l.map ACell.note)).2]) := by
  rw [HProg.run_bind, HProg.run_append]; rfl

/-- **C233.** Two goroutines call `AddAnnotations` on one `Actions`: both can return while the annotations of one of them only have been
added. -/
theorem C233_lost_annotations {A : Actions} (hh : ActAt h a A.any p s) (ho : ∀ b c, ActCells a p s b c → b < h.next) {l1 l2 : List Annotation}
    {ι : Type} [DecidableEq ι] {cs : ι → List ActionCall} {i j : ι} (hij : i ≠ j) (ti : cs i = [.annotate l1]) (tj : cs j = [.annotate l2]) :
    ∃ t : Threads ι ACell (fun _ => Option Unit), Relation.ReflTransGen ThreadStep ⟨h, fun i => runActP gen grow a (cs i)⟩ t ∧
      t.prog i = .done (some ()) ∧ t.prog j = .done (some ()) ∧ ActShown t.heap a { A with annotations := A.annotations ++ l1 } := by
  have P : HProg.Part (callActP gen grow a (.annotate l1)) h
      ((HProg.append grow s (l1.map ACell.note)).bind fun s => .put a 5 (.notes s) (.done (some ()))) h := by
    refine .get _ _ _ ?_
    rw [hh.notes]
    exact .refl _ _
  have J : (callActP gen grow a (.annotate l2)).run h = (some (), (h.append grow s (l2.map ACell.note)).1.store a 5 [.notes (h.append grow s (l2.map ACell.note)).2]) := by
    show (HProg.run _ h) = _
    rw [callActP, annotateP, HProg.run, hh.notes]
    exact run_annotate h s l2
  obtain ⟨t, k1, k2, k3, k4⟩ := threads_between hij (P := fun i => runActP gen grow a (cs i)) (h := h) (h0 := h) (by
    simp only [ti, run_one]; exact P)
  simp only [tj, run_one, J, run_annotate] at k2 k3 k4
  obtain ⟨st, -⟩ := step_append grow hh.wf (l2.map ACell.note)
  have ha : a < h.next := ho a 0 (.inl ⟨rfl, by omega⟩)
  suffices hs : ActAt (((h.append grow s (l2.map ACell.note)).1.store a 5 [.notes (h.append grow s (l2.map ACell.note)).2]).store a 5 [.notes s]) a A.any p s from
    ⟨t, k1, k3, k4, p, _, by
      rw [k2]; exact ActAt.annotated (grow := grow) (x := A.any) hs (fun b c hb => lt_of_lt_of_le (ho b c hb) st.next) l1⟩
  rw [store_store]
  refine ⟨?_, hh.isNil, ?_, hh.mapNe, hh.mapNotes, hh.mapsApart, by rw [cell_put, if_pos ⟨rfl, rfl⟩], ?_,
    ⟨hh.wf.1, fun h0 => lt_of_lt_of_le (hh.wf.2 h0) st.next⟩, hh.apart⟩
  · intro f hf
    rw [cell_put, if_neg (by omega), st.frame a f ha (hh.apart f)]; exact hh.ptrs f hf
  · intro f m hf e
    rw [cell_put, if_neg (fun h => hh.mapNe f m hf e h.1), st.frame m 0 (ho m 0 (.inr (.inl ⟨rfl, f, hf, e⟩))) (hh.mapNotes f m hf e 0)]
    exact hh.maps f m hf e
  · rw [load_put hh.wf.1 (hh.apart 5), load_append_old hh.wf]; exact hh.load

end

/-- Two `Actions` at 1 and 2: that at 1 has one cancellation (map at 3) and one annotation (array 4, capacity 2), that at 2 is empty. -/
def exActHeap : Heap ACell where
  cell b i := match b, i with
    | 1, 2 => .ptr (some 3)
    | 1, 5 => .notes ⟨4, 0, 1, 2⟩
    | 2, 5 => .notes Slice.empty
    | 3, 0 => .map [("c0", .cancel ⟨"c0", "o0"⟩)]
    | 4, 0 => .note (demoNote "old")
    | _, _ => .ptr none
  next := 5

def exActs (i : Bool) : Actions :=
  if i then ⟨none, none, some [("c0", ⟨"c0", "o0"⟩)], none, none, [demoNote "old"]⟩ else ⟨none, none, none, none, none, []⟩

def exPtrs (i : Bool) (f : Nat) : Option Nat := if i ∧ f = 2 then some 3 else none
def exNotes (i : Bool) : Slice := if i then ⟨4, 0, 1, 2⟩ else Slice.empty
def exAddr (i : Bool) : Nat := if i then 1 else 2

theorem exActAt : ∀ i, ActAt exActHeap (exAddr i) (exActs i).any (exPtrs i) (exNotes i)
  | true => by
    refine ⟨?_, ?_, ?_, ?_, ?_, ?_, rfl, rfl, ⟨by decide, fun _ => by decide⟩, ?_⟩
    · intro f hf; interval_cases f <;> rfl
    · intro f hf; interval_cases f <;> simp [exPtrs, exActs, Actions.any, entriesOf]
    · intro f m hf; interval_cases f <;> simp [exPtrs, exActs, Actions.any, entriesOf]
      rintro rfl; rfl
    · intro f m hf; interval_cases f <;> simp [exPtrs, exAddr]
      omega
    · intro f m hf; interval_cases f <;> simp [exPtrs, exNotes, Slice.Owns]
      omega
    · intro f g m hf hg; interval_cases f <;> interval_cases g <;> simp [exPtrs]
    · intro i; simp [exNotes, exAddr, Slice.Owns]
  | false => by
    refine ⟨?_, ?_, ?_, ?_, ?_, ?_, rfl, rfl, ⟨by decide, fun h => absurd rfl h⟩, ?_⟩
    · intro f hf; interval_cases f <;> rfl
    · intro f hf; interval_cases f <;> simp [exPtrs, exActs, Actions.any, entriesOf]
    · intro f m hf; simp [exPtrs]
    · intro f m hf; simp [exPtrs]
    · intro f m hf; simp [exPtrs]
    · intro f g m hf hg; simp [exPtrs]
    · intro i; simp [exNotes, exAddr, Slice.Owns, Slice.empty]

theorem exCells (i : Bool) (b c : Nat) (h : ActCells (exAddr i) (exPtrs i) (exNotes i) b c) :
    if i then b = 1 ∨ b = 3 ∨ b = 4 else b = 2 := by
  rcases i with _ | _ <;> rcases h with h | ⟨-, f, -, h⟩ | h <;>
    simp [exAddr, exPtrs, exNotes, Slice.Owns, Slice.empty] at h ⊢ <;> omega

/-- C232: the two goroutines have an `Actions` each. -/
theorem exOwnActions : OwnActions exActHeap exAddr exActs exPtrs exNotes where
  held := exActAt
  old i b c h := by
    have := exCells i b c h
    rcases i with _ | _ <;> simp [exActHeap] at this ⊢ <;> omega
  apart i j hij b c h h' := by
    have h1 := exCells i b c h
    have h2 := exCells j b c h'
    rcases i with _ | _ <;> rcases j with _ | _ <;> simp at h1 h2 hij <;> omega

def exCalls (i : Bool) : List ActionCall :=
  if i then [.cancel [⟨"", "o1"⟩, ⟨"", "o2"⟩], .annotate [demoNote "x"]] else [.cancel [⟨"", "o3"⟩], .closePos []]

/-- C232: after a run of both. -/
example : ∃ (t : Threads Bool ACell (fun _ => Option Unit)) (ids : Bool → List String), t.prog true = .done (some ()) ∧ (ids true).length = 2 ∧
    (∀ x ∈ ids true, x ∉ ids false) ∧ ∃ A', runActions (fun k => (ids true).getD k "") 0 (exActs true) (exCalls true) = some (2, A') ∧
      ActShown t.heap 1 A' := by
  obtain ⟨t, st, k1, -⟩ := C232_finish (gen := demoGen) (grow := fun _ _ => 2) (cs := exCalls) exOwnActions .refl true
  obtain ⟨ids, -, h2, h3⟩ := C232_alone demoGen_inj exOwnActions st
  obtain ⟨-, k2, A', k3, k4⟩ := h3 true _ k1
  have k2' : (ids true).length = 2 := k2
  exact ⟨t, ids, k1, k2', h2 true false (by decide), A', by rw [k2'] at k3; exact k3, k4⟩

/-- C233: positions to close of two goroutines in one `Actions` without that map. -/
example : ∃ (t : Threads Bool ACell (fun _ => Option Unit)) (A' : Actions), t.prog true = .done (some ()) ∧ t.prog false = .done (some ()) ∧
    ActShown t.heap 1 A' ∧ ∃ es, A'.any.maps 4 = some es ∧ es.length = 1 := by
  obtain ⟨t, ids, A', es, k1, k2, k3, k4, k5, k6, k7, k8⟩ := (C233_lost (gen := demoGen) (grow := fun _ _ => 2) demoGen_inj (exActAt true) (exOwnActions.old true)
    (c1 := .closePos [⟨"", "p1"⟩]) (c2 := .closePos [⟨"", "p2"⟩, ⟨"", "p3"⟩]) (f := 4) rfl rfl rfl (i := true) (j := false)
    (cs := fun i => if i then [.closePos [⟨"", "p1"⟩]] else [.closePos [⟨"", "p2"⟩, ⟨"", "p3"⟩]]) (by decide) rfl rfl).2
  exact ⟨t, A', k2, k3, k6, es, k7, k8⟩

/-- C233: annotations of two goroutines in one `Actions`. -/
example : ∃ t : Threads Bool ACell (fun _ => Option Unit), t.prog true = .done (some ()) ∧ t.prog false = .done (some ()) ∧
    ActShown t.heap 1 { exActs true with annotations := [demoNote "old", demoNote "x"] } := by
  obtain ⟨t, -, k2, k3, k4⟩ := C233_lost_annotations (gen := demoGen) (grow := fun _ _ => 2) (exActAt true) (exOwnActions.old true)
    (l1 := [demoNote "x"]) (l2 := [demoNote "y", demoNote "z"]) (i := true) (j := false)
    (cs := fun i => if i then [.annotate [demoNote "x"]] else [.annotate [demoNote "y", demoNote "z"]]) (by decide) rfl rfl
  exact ⟨t, k2, k3, k4⟩

/-- C233: cancellations of two goroutines in one `Actions` that has the map. -/
example : ∃ (t : Threads Bool ACell (fun _ => Option Unit)) (m : Nat), WritesCell (t.prog true) m 0 ∧ WritesCell (t.prog false) m 0 := by
  obtain ⟨t, m, -, -, -, k2, k3⟩ := C233_map_race (gen := demoGen) (grow := fun _ _ => 2) (exActAt true)
    (c1 := .cancel [⟨"", "o1"⟩]) (c2 := .cancel [⟨"", "o2"⟩, ⟨"", "o3"⟩]) (f := 2) rfl rfl rfl (i := true) (j := false)
    (cs := fun i => if i then [.cancel [⟨"", "o1"⟩]] else [.cancel [⟨"", "o2"⟩, ⟨"", "o3"⟩]]) (by decide) rfl rfl
  exact ⟨t, m, k2, k3⟩

end Finmod
