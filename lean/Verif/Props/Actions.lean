import Verif.Spec.Actions
import Verif.Lemmas.ListX
import Mathlib.Data.List.Nodup

/-!
# C89-C91: the actions of a strategy
-/

namespace Finmod
open Go Spec

/-! ## The loop -/

section loop
variable {α : Type} {gen : Nat → String} {g : α → String → α} {idOf : α → String}

/-- The entries a run of the loop creates. -/
def freshEntries (gen : Nat → String) (g : α → String → α) : Nat → List α → List (String × α)
  | _, [] => []
  | n, a :: rest => (gen n, g a (gen n)) :: freshEntries gen g (n + 1) rest

theorem addLoop_total (hid : ∀ a s, idOf (g a s) = s) (acts : List α) :
    ∀ n l, ∃ l', addLoop gen g idOf n (some l) acts = some (n + acts.length, some l') ∧
      ∀ e ∈ l', e ∈ l ∨ ∃ a ∈ acts, ∃ j, n ≤ j ∧ j < n + acts.length ∧ e = (gen j, g a (gen j)) := by
  induction acts with
  | nil => intro n l; exact ⟨l, rfl, fun e he => .inl he⟩
  | cons a rest ih =>
    intro n l
    obtain ⟨l', h1, h2⟩ := ih (n + 1) ((gen n, g a (gen n)) :: l.filter (fun e => e.1 ≠ gen n))
    refine ⟨l', ?_, ?_⟩
    · simp only [addLoop, GoMap.set, hid, h1, List.length_cons]
      congr 2; omega
    · intro e he
      rcases h2 e he with h | ⟨b, hb, j, hj1, hj2, hje⟩
      · rcases List.mem_cons.1 h with h | h
        · exact .inr ⟨a, by simp, n, le_refl _, by simp, h⟩
        · exact .inl (List.mem_filter.1 h).1
      · exact .inr ⟨b, by simp [hb], j, by omega, by simp; omega, hje⟩

theorem addLoop_fresh (hid : ∀ a s, idOf (g a s) = s) (hinj : Function.Injective gen) (acts : List α) :
    ∀ n l, (∀ e ∈ l, ∀ j, n ≤ j → e.1 ≠ gen j) →
      addLoop gen g idOf n (some l) acts
        = some (n + acts.length, some ((freshEntries gen g n acts).reverse ++ l)) := by
  induction acts with
  | nil => intro n l _; rfl
  | cons a rest ih =>
    intro n l hl
    have hf : l.filter (fun e => e.1 ≠ gen n) = l := by
      rw [List.filter_eq_self]
      intro e he
      simpa using hl e he n (le_refl n)
    have := ih (n + 1) ((gen n, g a (gen n)) :: l) (by
      intro e he j hj
      rcases List.mem_cons.1 he with h | h
      · subst h
        intro hc
        have := hinj hc
        omega
      · exact hl e h j (by omega))
    simp only [addLoop, GoMap.set, hid, hf, this, List.length_cons, freshEntries, List.reverse_cons,
      List.append_assoc, List.singleton_append]
    congr 2; omega

theorem mem_freshEntries {acts : List α} :
    ∀ {n e}, e ∈ freshEntries gen g n acts → ∃ j, n ≤ j ∧ j < n + acts.length ∧ e.1 = gen j := by
  induction acts with
  | nil => intro n e h; simp [freshEntries] at h
  | cons a rest ih =>
    intro n e h
    simp only [freshEntries, List.mem_cons] at h
    rcases h with h | h
    · exact ⟨n, le_refl _, by simp, by rw [h]⟩
    · obtain ⟨j, h1, h2, h3⟩ := ih h
      exact ⟨j, by omega, by simp; omega, h3⟩

theorem freshEntries_length (acts : List α) : ∀ n, (freshEntries gen g n acts).length = acts.length := by
  induction acts with
  | nil => intro n; rfl
  | cons a rest ih => intro n; simp [freshEntries, ih]

theorem freshEntries_nodup (hinj : Function.Injective gen) (acts : List α) :
    ∀ n, ((freshEntries gen g n acts).map Prod.fst).Nodup := by
  induction acts with
  | nil => intro n; simp [freshEntries]
  | cons a rest ih =>
    intro n
    simp only [freshEntries, List.map_cons, List.nodup_cons]
    refine ⟨?_, ih _⟩
    intro h
    obtain ⟨e, he, hk⟩ := List.mem_map.1 h
    obtain ⟨j, h1, _, h3⟩ := mem_freshEntries he
    have := hinj (h3.symm.trans hk)
    omega

theorem freshEntries_get (acts : List α) : ∀ (n i : Nat) (e : String × α), (freshEntries gen g n acts)[i]? = some e →
    ∃ a, acts[i]? = some a ∧ e.2 = g a e.1 := by
  induction acts with
  | nil => intro n i e h; simp [freshEntries] at h
  | cons a rest ih =>
    intro n i e h
    cases i with
    | zero =>
      simp only [freshEntries, List.getElem?_cons_zero, Option.some.injEq] at h
      subst h
      exact ⟨a, rfl, rfl⟩
    | succ i => exact ih (n + 1) i e (by simpa [freshEntries] using h)

end loop

/-- Looking up the key of an entry finds it when keys are distinct. -/
theorem lookup_of_mem {α : Type} {l : List (String × α)} (hn : (l.map Prod.fst).Nodup) {e : String × α}
    (he : e ∈ l) : l.lookup e.1 = some e.2 := by
  induction l with
  | nil => simp at he
  | cons x xs ih =>
    rw [List.map_cons, List.nodup_cons] at hn
    obtain ⟨hx, hn⟩ := hn
    rcases List.mem_cons.1 he with h | h
    · subst h; simp [List.lookup]
    · have hne : e.1 ≠ x.1 := by
        intro hc; exact hx (hc ▸ List.mem_map_of_mem h)
      have hne' : (e.1 == x.1) = false := by simpa using hne
      simp [List.lookup, hne', ih hn h]

theorem mem_of_lookup {α : Type} {l : List (String × α)} {k : String} {v : α}
    (h : l.lookup k = some v) : (k, v) ∈ l := by
  induction l with
  | nil => simp at h
  | cons x xs ih =>
    by_cases hk : k = x.1
    · subst hk
      simp [List.lookup] at h
      simp [← h]
    · have hne' : (k == x.1) = false := by simpa using hk
      simp only [List.lookup, hne'] at h
      simp [ih h]

/-! ## The five kinds in one place -/

/-- What the proofs need to know of one kind of action. -/
structure Kind (α : Type) where
  proj : Actions → GoMap α
  added : ActionCall → List α
  g : α → String → α
  idOf : α → String
  law : ∀ a s, idOf (g a s) = s
  zero : proj zeroActions = none
  step : ∀ gen n a c n' a', callActions gen n a c = some (n', a') →
    (proj a' = proj a ∧ added c = []) ∨
    addLoop gen g idOf n (makeIfNil (proj a)) (added c) = some (n', proj a')

theorem callActions_total (gen : Nat → String) (n : Nat) (a : Actions) (c : ActionCall) :
    ∃ n' a', callActions gen n a c = some (n', a') ∧ n ≤ n' := by
  have key : ∀ {α : Type} (g : α → String → α) (idOf : α → String) (_ : ∀ a s, idOf (g a s) = s)
      (m : GoMap α) (l : List α), ∃ m', addLoop gen g idOf n (makeIfNil m) l = some (n + l.length, m') := by
    intro α g idOf hl m l
    cases m with
    | none => obtain ⟨l', h, _⟩ := addLoop_total (gen := gen) hl l n []; exact ⟨_, h⟩
    | some e => obtain ⟨l', h, _⟩ := addLoop_total (gen := gen) hl l n e; exact ⟨_, h⟩
  cases c with
  | create l =>
    obtain ⟨m', h⟩ := key CreateOrderAction.generateID CreateOrderAction.id (fun _ _ => rfl) a.createOrders l
    exact ⟨_, _, by simp only [callActions, addCreateOrders, h]; rfl, by simp⟩
  | update l =>
    obtain ⟨m', h⟩ := key UpdateOrderAction.generateID UpdateOrderAction.id (fun _ _ => rfl) a.updateOrders l
    exact ⟨_, _, by simp only [callActions, addUpdateOrders, h]; rfl, by simp⟩
  | cancel l =>
    obtain ⟨m', h⟩ := key CancelOrderAction.generateID CancelOrderAction.id (fun _ _ => rfl) a.cancelOrders l
    exact ⟨_, _, by simp only [callActions, addCancelOrders, h]; rfl, by simp⟩
  | updatePos l =>
    obtain ⟨m', h⟩ := key UpdatePositionAction.generateID UpdatePositionAction.id (fun _ _ => rfl) a.updatePositions l
    exact ⟨_, _, by simp only [callActions, addUpdatePositions, h]; rfl, by simp⟩
  | closePos l =>
    obtain ⟨m', h⟩ := key ClosePositionAction.generateID ClosePositionAction.id (fun _ _ => rfl) a.closePositions l
    exact ⟨_, _, by simp only [callActions, addClosePositions, h]; rfl, by simp⟩
  | annotate l => exact ⟨_, _, rfl, le_refl _⟩

theorem map_some_inv {α β : Type} {r : Option α} {f : α → β} {x : β} (h : r.map f = some x) :
    ∃ y, r = some y ∧ f y = x := by
  cases r with
  | none => simp at h
  | some y => exact ⟨y, rfl, by simpa using h⟩

def kCreate : Kind CreateOrderAction where
  proj := Actions.createOrders
  added := fun | .create l => l | _ => []
  g a k := { a with id := k }
  idOf := CreateOrderAction.id
  law _ _ := rfl
  zero := rfl
  step gen n a c n' a' h := by
    cases c with
    | create l =>
      obtain ⟨y, h1, h2⟩ := map_some_inv h
      simp only [Prod.mk.injEq] at h2
      obtain ⟨rfl, rfl⟩ := h2
      exact .inr h1
    | annotate l =>
      simp only [callActions, addAnnotations, Option.some.injEq, Prod.mk.injEq] at h
      obtain ⟨rfl, rfl⟩ := h
      exact .inl ⟨rfl, rfl⟩
    | _ l =>
      obtain ⟨y, h1, h2⟩ := map_some_inv h
      simp only [Prod.mk.injEq] at h2
      obtain ⟨rfl, rfl⟩ := h2
      exact .inl ⟨rfl, rfl⟩

def kUpdate : Kind UpdateOrderAction where
  proj := Actions.updateOrders
  added := fun | .update l => l | _ => []
  g a k := { a with id := k }
  idOf := UpdateOrderAction.id
  law _ _ := rfl
  zero := rfl
  step gen n a c n' a' h := by
    cases c with
    | update l =>
      obtain ⟨y, h1, h2⟩ := map_some_inv h
      simp only [Prod.mk.injEq] at h2
      obtain ⟨rfl, rfl⟩ := h2
      exact .inr h1
    | annotate l =>
      simp only [callActions, addAnnotations, Option.some.injEq, Prod.mk.injEq] at h
      obtain ⟨rfl, rfl⟩ := h
      exact .inl ⟨rfl, rfl⟩
    | _ l =>
      obtain ⟨y, h1, h2⟩ := map_some_inv h
      simp only [Prod.mk.injEq] at h2
      obtain ⟨rfl, rfl⟩ := h2
      exact .inl ⟨rfl, rfl⟩

def kCancel : Kind CancelOrderAction where
  proj := Actions.cancelOrders
  added := fun | .cancel l => l | _ => []
  g a k := { a with id := k }
  idOf := CancelOrderAction.id
  law _ _ := rfl
  zero := rfl
  step gen n a c n' a' h := by
    cases c with
    | cancel l =>
      obtain ⟨y, h1, h2⟩ := map_some_inv h
      simp only [Prod.mk.injEq] at h2
      obtain ⟨rfl, rfl⟩ := h2
      exact .inr h1
    | annotate l =>
      simp only [callActions, addAnnotations, Option.some.injEq, Prod.mk.injEq] at h
      obtain ⟨rfl, rfl⟩ := h
      exact .inl ⟨rfl, rfl⟩
    | _ l =>
      obtain ⟨y, h1, h2⟩ := map_some_inv h
      simp only [Prod.mk.injEq] at h2
      obtain ⟨rfl, rfl⟩ := h2
      exact .inl ⟨rfl, rfl⟩

def kUpdatePos : Kind UpdatePositionAction where
  proj := Actions.updatePositions
  added := fun | .updatePos l => l | _ => []
  g a k := { a with id := k }
  idOf := UpdatePositionAction.id
  law _ _ := rfl
  zero := rfl
  step gen n a c n' a' h := by
    cases c with
    | updatePos l =>
      obtain ⟨y, h1, h2⟩ := map_some_inv h
      simp only [Prod.mk.injEq] at h2
      obtain ⟨rfl, rfl⟩ := h2
      exact .inr h1
    | annotate l =>
      simp only [callActions, addAnnotations, Option.some.injEq, Prod.mk.injEq] at h
      obtain ⟨rfl, rfl⟩ := h
      exact .inl ⟨rfl, rfl⟩
    | _ l =>
      obtain ⟨y, h1, h2⟩ := map_some_inv h
      simp only [Prod.mk.injEq] at h2
      obtain ⟨rfl, rfl⟩ := h2
      exact .inl ⟨rfl, rfl⟩

def kClosePos : Kind ClosePositionAction where
  proj := Actions.closePositions
  added := fun | .closePos l => l | _ => []
  g a k := { a with id := k }
  idOf := ClosePositionAction.id
  law _ _ := rfl
  zero := rfl
  step gen n a c n' a' h := by
    cases c with
    | closePos l =>
      obtain ⟨y, h1, h2⟩ := map_some_inv h
      simp only [Prod.mk.injEq] at h2
      obtain ⟨rfl, rfl⟩ := h2
      exact .inr h1
    | annotate l =>
      simp only [callActions, addAnnotations, Option.some.injEq, Prod.mk.injEq] at h
      obtain ⟨rfl, rfl⟩ := h
      exact .inl ⟨rfl, rfl⟩
    | _ l =>
      obtain ⟨y, h1, h2⟩ := map_some_inv h
      simp only [Prod.mk.injEq] at h2
      obtain ⟨rfl, rfl⟩ := h2
      exact .inl ⟨rfl, rfl⟩

/-! ## Histories -/

theorem runActions_append (gen : Nat → String) (cs ds : List ActionCall) : ∀ n a,
    runActions gen n a (cs ++ ds) = match runActions gen n a cs with
      | none => none
      | some r => runActions gen r.1 r.2 ds := by
  induction cs with
  | nil => intro n a; rfl
  | cons c cs ih =>
    intro n a
    simp only [List.cons_append, runActions]
    cases callActions gen n a c with
    | none => rfl
    | some r => exact ih r.1 r.2

theorem runActions_total (gen : Nat → String) (cs : List ActionCall) : ∀ n a,
    ∃ n' a', runActions gen n a cs = some (n', a') := by
  induction cs with
  | nil => intro n a; exact ⟨_, _, rfl⟩
  | cons c cs ih =>
    intro n a
    obtain ⟨n1, a1, h, _⟩ := callActions_total gen n a c
    obtain ⟨n2, a2, h2⟩ := ih n1 a1
    exact ⟨n2, a2, by simp only [runActions, h, h2]⟩

/-- Induction along a history, adding calls at the end. -/
theorem run_induction (gen : Nat → String) (P : List ActionCall → Nat → Actions → Prop)
    (h0 : P [] 0 zeroActions)
    (hs : ∀ cs n a c n' a', P cs n a → callActions gen n a c = some (n', a') → n ≤ n' → P (cs ++ [c]) n' a') :
    ∀ cs n a, runActions gen 0 zeroActions cs = some (n, a) → P cs n a := by
  intro cs
  induction cs using List.reverseRecOn with
  | nil =>
    intro n a h
    simp only [runActions, Option.some.injEq, Prod.mk.injEq] at h
    obtain ⟨rfl, rfl⟩ := h
    exact h0
  | append_singleton cs c ih =>
    intro n a h
    rw [runActions_append] at h
    obtain ⟨n1, a1, h1⟩ := runActions_total gen cs 0 zeroActions
    obtain ⟨n2, a2, h2, hle⟩ := callActions_total gen n1 a1 c
    simp only [h1, runActions, h2, Option.some.injEq, Prod.mk.injEq] at h
    obtain ⟨rfl, rfl⟩ := h
    exact hs cs n1 a1 c _ _ (ih _ _ h1) h2 hle

section kinds
variable {α : Type} (K : Kind α)

theorem keyed_history (gen : Nat → String) (cs : List ActionCall) (n : Nat) (a : Actions)
    (h : runActions gen 0 zeroActions cs = some (n, a)) :
    ∀ e ∈ (K.proj a).getD [], ∃ b ∈ cs.flatMap K.added, e = (e.1, K.g b e.1) := by
  refine run_induction gen (fun cs _ a => ∀ e ∈ (K.proj a).getD [], ∃ b ∈ cs.flatMap K.added,
    e = (e.1, K.g b e.1)) ?_ ?_ cs n a h
  · simp [K.zero]
  · intro cs n a c n' a' ih hc _ e he
    rcases K.step gen n a c n' a' hc with ⟨h1, _⟩ | h1
    · rw [h1] at he
      obtain ⟨b, hb, hbe⟩ := ih e he
      exact ⟨b, by simp [List.flatMap_append, hb], hbe⟩
    · have hm : makeIfNil (K.proj a) = some ((K.proj a).getD []) := by
        cases K.proj a <;> rfl
      rw [hm] at h1
      obtain ⟨l', h2, h3⟩ := addLoop_total (gen := gen) K.law (K.added c) n ((K.proj a).getD [])
      rw [h2] at h1
      simp only [Option.some.injEq, Prod.mk.injEq] at h1
      obtain ⟨_, h1⟩ := h1
      rw [← h1] at he
      rcases h3 e he with h | ⟨b, hb, j, _, _, hj⟩
      · obtain ⟨b, hb, hbe⟩ := ih e h
        exact ⟨b, by simp [List.flatMap_append, hb], hbe⟩
      · refine ⟨b, ?_, by rw [hj]⟩
        simp only [List.flatMap_append, List.mem_append, List.flatMap_cons, List.flatMap_nil,
          List.append_nil]
        exact .inr hb

theorem keyed_final (gen : Nat → String) (cs : List ActionCall) (n : Nat) (a : Actions)
    (h : runActions gen 0 zeroActions cs = some (n, a)) :
    KeyedByID K.g (K.proj a) (cs.flatMap K.added) := by
  intro k v hk
  cases hp : K.proj a with
  | none => simp [hp, GoMap.get] at hk
  | some l =>
    have := keyed_history K gen cs n a h (k, v) (by
      rw [hp]; rw [hp] at hk; exact mem_of_lookup hk)
    obtain ⟨b, hb, he⟩ := this
    exact ⟨b, hb, by simpa using he⟩

/-- With distinct IDs the entries are exactly the actions added, newest first. -/
theorem entries_history (gen : Nat → String) (hinj : Function.Injective gen) (cs : List ActionCall)
    (n : Nat) (a : Actions) (h : runActions gen 0 zeroActions cs = some (n, a)) :
    (((K.proj a).getD []).map Prod.fst).Nodup ∧
    (∀ e ∈ (K.proj a).getD [], ∃ j, j < n ∧ e.1 = gen j) ∧
    ((K.proj a).getD []).length = (cs.flatMap K.added).length ∧
    ∀ (i : Nat) (e : String × α), ((K.proj a).getD []).reverse[i]? = some e →
      ∃ b, (cs.flatMap K.added)[i]? = some b ∧ e.2 = K.g b e.1 := by
  refine run_induction gen (fun cs n a =>
    (((K.proj a).getD []).map Prod.fst).Nodup ∧
    (∀ e ∈ (K.proj a).getD [], ∃ j, j < n ∧ e.1 = gen j) ∧
    ((K.proj a).getD []).length = (cs.flatMap K.added).length ∧
    ∀ (i : Nat) (e : String × α), ((K.proj a).getD []).reverse[i]? = some e →
      ∃ b, (cs.flatMap K.added)[i]? = some b ∧ e.2 = K.g b e.1) ?_ ?_ cs n a h
  · simp [K.zero]
  · intro cs n a c n' a' ⟨ih1, ih2, ih3, ih4⟩ hc hle
    rcases K.step gen n a c n' a' hc with ⟨h1, h2⟩ | h1
    · rw [h1]
      refine ⟨ih1, ?_, ?_, ?_⟩
      · intro e he
        obtain ⟨j, hj, hje⟩ := ih2 e he
        exact ⟨j, by omega, hje⟩
      · simpa [List.flatMap_append, h2] using ih3
      · simpa [List.flatMap_append, h2] using ih4
    · have hm : makeIfNil (K.proj a) = some ((K.proj a).getD []) := by
        cases K.proj a <;> rfl
      rw [hm, addLoop_fresh K.law hinj] at h1
      swap
      · intro e he j hj hc
        obtain ⟨j', hj', hje⟩ := ih2 e he
        have := hinj (hje.symm.trans hc)
        omega
      simp only [Option.some.injEq, Prod.mk.injEq] at h1
      obtain ⟨hn', h1⟩ := h1
      rw [← h1]
      simp only [Option.getD_some]
      refine ⟨?_, ?_, ?_, ?_⟩
      · rw [List.map_append, List.map_reverse]
        rw [List.nodup_append]
        refine ⟨List.nodup_reverse.2 (freshEntries_nodup hinj _ _), ih1, ?_⟩
        intro x hx y hy hxy
        subst hxy
        obtain ⟨e, he, rfl⟩ := List.mem_map.1 (List.mem_reverse.1 hx)
        obtain ⟨e', he', hee⟩ := List.mem_map.1 hy
        obtain ⟨j, hj, _, hje⟩ := mem_freshEntries he
        obtain ⟨j', hj', hje'⟩ := ih2 e' he'
        have := hinj (hje.symm.trans (hee.symm.trans hje'))
        omega
      · intro e he
        rcases List.mem_append.1 he with he | he
        · obtain ⟨j, hj, hj2, hje⟩ := mem_freshEntries (List.mem_reverse.1 he)
          exact ⟨j, by omega, hje⟩
        · obtain ⟨j', hj', hje'⟩ := ih2 e he
          exact ⟨j', by omega, hje'⟩
      · simp [freshEntries_length, ih3, List.flatMap_append, Nat.add_comm]
      · intro i e hi
        rw [List.reverse_append, List.reverse_reverse] at hi
        simp only [List.flatMap_append, List.flatMap_cons, List.flatMap_nil, List.append_nil]
        by_cases hlt : i < ((K.proj a).getD []).length
        · rw [List.getElem?_append_left (by simpa using hlt)] at hi
          rw [List.getElem?_append_left (by omega)]
          exact ih4 i e hi
        · rw [List.getElem?_append_right (by simp; omega)] at hi
          rw [List.getElem?_append_right (by omega)]
          obtain ⟨b, hb, hbe⟩ := freshEntries_get _ _ _ _ hi
          refine ⟨b, ?_, hbe⟩
          rw [← hb, List.length_reverse, ih3]

theorem nothingLost_final (gen : Nat → String) (hinj : Function.Injective gen) (cs : List ActionCall)
    (n : Nat) (a : Actions) (h : runActions gen 0 zeroActions cs = some (n, a)) :
    NothingLost K.g (K.proj a) (cs.flatMap K.added) := by
  obtain ⟨h1, _, h3, h4⟩ := entries_history K gen hinj cs n a h
  refine ⟨h3, ((K.proj a).getD []).reverse.map Prod.fst, ?_, by simpa using h3, ?_⟩
  · rw [List.map_reverse]; exact List.nodup_reverse.2 h1
  · intro i b k hb hk
    rw [List.getElem?_map] at hk
    cases he : ((K.proj a).getD []).reverse[i]? with
    | none => simp [he] at hk
    | some e =>
      simp only [he, Option.map_some, Option.some.injEq] at hk
      obtain ⟨b', hb', hbe⟩ := h4 i e he
      have hmem : e ∈ (K.proj a).getD [] := by
        have := List.mem_of_getElem? he
        simpa using this
      have hl := lookup_of_mem h1 hmem
      have hbb : b' = b := by rw [hb'] at hb; simpa using hb
      subst hbb
      cases hp : K.proj a with
      | none => simp [hp] at hmem
      | some l =>
        simp only [hp, Option.getD_some] at hl
        simp only [GoMap.get, ← hk, hl, hbe]

theorem keeps_call (gen : Nat → String) (hinj : Function.Injective gen) (cs : List ActionCall)
    (n : Nat) (a : Actions) (h : runActions gen 0 zeroActions cs = some (n, a)) (c : ActionCall)
    (n' : Nat) (a' : Actions) (hc : callActions gen n a c = some (n', a')) :
    Keeps (K.proj a) (K.proj a') := by
  intro k v hk
  obtain ⟨h1, h2, _, _⟩ := entries_history K gen hinj cs n a h
  obtain ⟨h1', _, _, _⟩ := entries_history K gen hinj (cs ++ [c]) n' a' (by
    rw [runActions_append, h]; simp only [runActions, hc])
  rcases K.step gen n a c n' a' hc with ⟨h3, _⟩ | h3
  · rw [h3]; exact hk
  · have hm : makeIfNil (K.proj a) = some ((K.proj a).getD []) := by
      cases K.proj a <;> rfl
    rw [hm, addLoop_fresh K.law hinj] at h3
    swap
    · intro e he j hj hc
      obtain ⟨j', hj', hje⟩ := h2 e he
      have := hinj (hje.symm.trans hc)
      omega
    simp only [Option.some.injEq, Prod.mk.injEq] at h3
    obtain ⟨_, h3⟩ := h3
    cases hp : K.proj a with
    | none => simp [hp, GoMap.get] at hk
    | some l =>
      simp only [hp, GoMap.get] at hk
      simp only [hp, Option.getD_some] at h3
      rw [← h3] at h1' ⊢
      exact lookup_of_mem h1' (e := (k, v)) (List.mem_append_right _ (mem_of_lookup hk))

end kinds

/-! ## C89 -/

/-- C89: whatever the IDs generated, after any history every entry of each map is stored under
its own ID and is an action passed to the API with only the ID replaced. No call panics. -/
theorem C89_keyed_by_own_id (gen : Nat → String) (cs : List ActionCall) :
    ∃ n a, runActions gen 0 zeroActions cs = some (n, a) ∧
      KeyedByID (fun x k => { x with id := k }) a.createOrders (addedCreate cs) ∧
      KeyedByID (fun x k => { x with id := k }) a.updateOrders (addedUpdate cs) ∧
      KeyedByID (fun x k => { x with id := k }) a.cancelOrders (addedCancel cs) ∧
      KeyedByID (fun x k => { x with id := k }) a.updatePositions (addedUpdatePos cs) ∧
      KeyedByID (fun x k => { x with id := k }) a.closePositions (addedClosePos cs) := by
  obtain ⟨n, a, h⟩ := runActions_total gen cs 0 zeroActions
  exact ⟨n, a, h, keyed_final kCreate gen cs n a h, keyed_final kUpdate gen cs n a h,
    keyed_final kCancel gen cs n a h, keyed_final kUpdatePos gen cs n a h,
    keyed_final kClosePos gen cs n a h⟩

/-- The same read off the entries: the ID of the stored action is its key. -/
theorem C89_id_is_key (gen : Nat → String) (cs : List ActionCall) (n : Nat) (a : Actions)
    (h : runActions gen 0 zeroActions cs = some (n, a)) (k : String) :
    (∀ v, a.createOrders.get k = some v → v.id = k) ∧ (∀ v, a.updateOrders.get k = some v → v.id = k) ∧
    (∀ v, a.cancelOrders.get k = some v → v.id = k) ∧ (∀ v, a.updatePositions.get k = some v → v.id = k) ∧
    (∀ v, a.closePositions.get k = some v → v.id = k) := by
  refine ⟨?_, ?_, ?_, ?_, ?_⟩
  · intro v hv; obtain ⟨b, _, rfl⟩ := keyed_final kCreate gen cs n a h k v hv; rfl
  · intro v hv; obtain ⟨b, _, rfl⟩ := keyed_final kUpdate gen cs n a h k v hv; rfl
  · intro v hv; obtain ⟨b, _, rfl⟩ := keyed_final kCancel gen cs n a h k v hv; rfl
  · intro v hv; obtain ⟨b, _, rfl⟩ := keyed_final kUpdatePos gen cs n a h k v hv; rfl
  · intro v hv; obtain ⟨b, _, rfl⟩ := keyed_final kClosePos gen cs n a h k v hv; rfl

/-- A generator whose IDs never repeat, for the examples. -/
def demoGen (n : Nat) : String := String.ofList (List.replicate n 'x')

theorem demoGen_inj : Function.Injective demoGen := by
  intro a b h
  have := congrArg (fun s => s.toList.length) h
  simpa [demoGen] using this

/-- A history with three kinds of calls. -/
def demoCalls : List ActionCall :=
  [.cancel [⟨"mine", "o1"⟩, ⟨"mine", "o2"⟩], .closePos [⟨"", "p1"⟩], .cancel [⟨"mine", "o3"⟩],
   .annotate [⟨"n1", 5, 0, .fin 1, "", "a", "b"⟩], .create []]

example : ∃ n a, runActions demoGen 0 zeroActions demoCalls = some (n, a) ∧ n = 4 ∧
    a.cancelOrders.get "xxx" = some ⟨"xxx", "o3"⟩ ∧ a.cancelOrders.size = 3 ∧
    a.cancelOrders.get "mine" = none := by
  refine ⟨_, _, rfl, ?_⟩
  decide +kernel

/-! ## C90 -/

/-- C90: if generated IDs never repeat, each map holds exactly one entry for every action passed
to its method, whatever IDs the caller had set. -/
theorem C90_nothing_lost (gen : Nat → String) (hinj : Function.Injective gen) (cs : List ActionCall) :
    ∃ n a, runActions gen 0 zeroActions cs = some (n, a) ∧
      NothingLost (fun x k => { x with id := k }) a.createOrders (addedCreate cs) ∧
      NothingLost (fun x k => { x with id := k }) a.updateOrders (addedUpdate cs) ∧
      NothingLost (fun x k => { x with id := k }) a.cancelOrders (addedCancel cs) ∧
      NothingLost (fun x k => { x with id := k }) a.updatePositions (addedUpdatePos cs) ∧
      NothingLost (fun x k => { x with id := k }) a.closePositions (addedClosePos cs) := by
  obtain ⟨n, a, h⟩ := runActions_total gen cs 0 zeroActions
  exact ⟨n, a, h, nothingLost_final kCreate gen hinj cs n a h, nothingLost_final kUpdate gen hinj cs n a h,
    nothingLost_final kCancel gen hinj cs n a h, nothingLost_final kUpdatePos gen hinj cs n a h,
    nothingLost_final kClosePos gen hinj cs n a h⟩

/-- C90: and no call changes or removes an earlier entry of any map. -/
theorem C90_entries_kept (gen : Nat → String) (hinj : Function.Injective gen) (cs : List ActionCall)
    (n : Nat) (a : Actions) (h : runActions gen 0 zeroActions cs = some (n, a)) (c : ActionCall)
    (n' : Nat) (a' : Actions) (hc : callActions gen n a c = some (n', a')) :
    Keeps a.createOrders a'.createOrders ∧ Keeps a.updateOrders a'.updateOrders ∧
    Keeps a.cancelOrders a'.cancelOrders ∧ Keeps a.updatePositions a'.updatePositions ∧
    Keeps a.closePositions a'.closePositions :=
  ⟨keeps_call kCreate gen hinj cs n a h c n' a' hc, keeps_call kUpdate gen hinj cs n a h c n' a' hc,
   keeps_call kCancel gen hinj cs n a h c n' a' hc, keeps_call kUpdatePos gen hinj cs n a h c n' a' hc,
   keeps_call kClosePos gen hinj cs n a h c n' a' hc⟩

/-- The hypothesis matters: with a generator that repeats, an action is lost. -/
example : ∃ n a, runActions (fun _ => "same") 0 zeroActions [.cancel [⟨"", "o1"⟩, ⟨"", "o2"⟩]] = some (n, a) ∧
    a.cancelOrders.size = 1 := ⟨_, _, rfl, by decide +kernel⟩

example : Function.Injective demoGen ∧ (addedCancel demoCalls).length = 3 := ⟨demoGen_inj, rfl⟩

/-! ## C91 -/

/-- C91: a call changes only its own map or list. -/
theorem C91_no_interference (gen : Nat → String) (n : Nat) (a : Actions) (c : ActionCall) (n' : Nat)
    (a' : Actions) (hc : callActions gen n a c = some (n', a')) :
    ((∀ l, c ≠ .create l) → a'.createOrders = a.createOrders) ∧
    ((∀ l, c ≠ .update l) → a'.updateOrders = a.updateOrders) ∧
    ((∀ l, c ≠ .cancel l) → a'.cancelOrders = a.cancelOrders) ∧
    ((∀ l, c ≠ .updatePos l) → a'.updatePositions = a.updatePositions) ∧
    ((∀ l, c ≠ .closePos l) → a'.closePositions = a.closePositions) ∧
    ((∀ l, c ≠ .annotate l) → a'.annotations = a.annotations) := by
  cases c with
  | annotate l =>
    simp only [callActions, addAnnotations, Option.some.injEq, Prod.mk.injEq] at hc
    obtain ⟨_, rfl⟩ := hc
    simp
  | _ l =>
    obtain ⟨y, _, h2⟩ := map_some_inv hc
    simp only [Prod.mk.injEq] at h2
    obtain ⟨_, rfl⟩ := h2
    simp

/-- C91: after any history the annotations are those passed in, in order. -/
theorem C91_annotations_in_order (gen : Nat → String) (cs : List ActionCall) (n : Nat) (a : Actions)
    (h : runActions gen 0 zeroActions cs = some (n, a)) : a.annotations = addedAnnotations cs := by
  refine run_induction gen (fun cs _ a => a.annotations = addedAnnotations cs) rfl ?_ cs n a h
  intro cs n a c n' a' ih hc _
  have hf := (C91_no_interference gen n a c n' a' hc).2.2.2.2.2
  cases c with
  | annotate l =>
    simp only [callActions, addAnnotations, Option.some.injEq, Prod.mk.injEq] at hc
    obtain ⟨_, rfl⟩ := hc
    simp [addedAnnotations, List.flatMap_append, ih]
  | _ l =>
    rw [hf (by simp), ih]
    simp [addedAnnotations, List.flatMap_append]

example : ∃ n a, runActions demoGen 0 zeroActions demoCalls = some (n, a) ∧ a.annotations.length = 1 ∧
    a.closePositions.size = 1 ∧ a.updateOrders = none := ⟨_, _, rfl, by decide +kernel⟩

end Finmod
