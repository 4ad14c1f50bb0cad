import Verif.Model.JsonActions
import Verif.Lemmas.JsonCodec

/-!
# Maps written and read back
-/

namespace Go

/-- The value is written, and reading it turns what was there into `f` of it. -/
def Reads {α : Type} (c : Codec α) (d : Nat) (v : α) (f : α → α) : Prop :=
  ∃ j, c.enc v = some j ∧ j.Good d ∧ ∀ old, c.dec old j = (f old, .none)

theorem Round.reads {α : Type} {c : Codec α} {d : Nat} {v : α} (h : Round c d v) : Reads c d v fun _ => v := h

theorem Reads.mono {α : Type} {c : Codec α} {d d' : Nat} {v : α} {f : α → α} (hd : d ≤ d') (h : Reads c d v f) :
    Reads c d' v f := by
  obtain ⟨j, h1, h2, h3⟩ := h
  exact ⟨j, h1, Good.mono j hd h2, h3⟩

/-- A record, field by field. -/
theorem reads_struct {ρ : Type} {zero : ρ} {fus : List (JField ρ × (ρ → ρ))} {d : Nat} {r : ρ}
    (hnames : (fus.map (·.1.name)).Nodup)
    (hf : ∀ p ∈ fus, ∃ j, p.1.enc r = some j ∧ j.Good d ∧ ∀ s, p.1.dec s j = (p.2 s, .none)) :
    Reads (Codec.struct zero (fus.map (·.1))) (d + 1) r fun s => fus.foldl (fun s p => p.2 s) s := by
  have hn : ((fus.map (·.1)).map (·.name)).Nodup := by simpa [List.map_map, Function.comp_def] using hnames
  have key : ∀ gs : List (JField ρ × (ρ → ρ)), (∀ g ∈ gs, g ∈ fus) → ∃ ms,
      (gs.map (·.1)).mapM (fun (f : JField ρ) => (f.enc r).map fun j => (f.name.toList, j)) = some ms ∧ J.GoodMembers d ms ∧
      ∀ s, ms.foldl (decMember (fus.map (·.1))) (s, .none) = (gs.foldl (fun s p => p.2 s) s, .none) := by
    intro gs hgs
    induction gs with
    | nil => exact ⟨[], rfl, by simp [J.GoodMembers], by simp⟩
    | cons g gs ih =>
      obtain ⟨j, h1, h2, h3⟩ := hf g (hgs g (by simp))
      obtain ⟨ms, k1, k2, k3⟩ := ih (fun x hx => hgs x (by simp [hx]))
      refine ⟨(g.1.name.toList, j) :: ms, by simp only [List.map_cons, List.mapM_cons, h1, k1]; simp,
        by simp [J.GoodMembers, h2, k2], ?_⟩
      intro s
      rw [List.foldl_cons, List.foldl_cons, ← k3]
      congr 1
      simp [decMember, findField_name hn (List.mem_map_of_mem (hgs g (by simp))), h3, next, JErr.or]
  obtain ⟨ms, h1, h2, h3⟩ := key fus (fun _ h => h)
  refine ⟨.obj ms, ?_, by simp [J.Good, h2], ?_⟩
  · simp only [Codec.struct, visible_eq hn, h1, Option.map_some]
  · intro old
    simp only [Codec.struct, visible_eq hn, h3]

theorem reads_field {α ρ : Type} {c : Codec α} {name : String} {get : ρ → α} {set : ρ → α → ρ} {d d' : Nat} {r : ρ}
    {f : α → α} {u : ρ → ρ} (hd : d ≤ d') (h : Reads c d (get r) f) (hu : ∀ s, u s = set s (f (get s))) :
    ∃ j, (c.field name get set).enc r = some j ∧ j.Good d' ∧ ∀ s, (c.field name get set).dec s j = (u s, .none) := by
  obtain ⟨j, h1, h2, h3⟩ := h
  exact ⟨j, h1, Good.mono j hd h2, by intro s; simp [Codec.field, h3, hu]⟩

theorem reads_ptr {α : Type} {c : Codec α} {d : Nat} (hn : NeverNull c) {v : α} {f : α → α} (h : Reads c d v f) :
    Reads c.ptr d (some v) fun old => some (f (old.getD c.zero)) := by
  obtain ⟨j, h1, h2, h3⟩ := h
  refine ⟨j, h1, h2, ?_⟩
  intro old
  have : j ≠ .null := fun h => hn v (h ▸ h1)
  cases j <;> simp_all [Codec.ptr]

theorem reads_ptr_none {α : Type} (c : Codec α) (d : Nat) : Reads c.ptr d none fun _ => none :=
  ⟨.null, rfl, by simp [J.Good], by intro old; simp [Codec.ptr]⟩

/-- The entries of the map, sorted. -/
def sortMap {α : Type} (l : List (String × α)) : List (String × α) := l.mergeSort fun a b => decide (a.1 ≤ b.1)

theorem sortMap_perm {α : Type} (l : List (String × α)) : (sortMap l).Perm l := List.mergeSort_perm _ _

theorem sortMap_sorted {α : Type} {l : List (String × α)} (h : (l.map (·.1)).Nodup) :
    (sortMap l).Pairwise fun a b => a.1 < b.1 := by
  have h1 : (sortMap l).Pairwise fun a b => a.1 ≤ b.1 := by
    have := List.pairwise_mergeSort (le := fun a b : String × α => decide (a.1 ≤ b.1))
      (by intro a b c; simp only [decide_eq_true_eq]; exact String.le_trans)
      (by intro a b; simp only [Bool.or_eq_true, decide_eq_true_eq]; exact String.le_total _ _) l
    exact this.imp (by simp)
  have h2 : ((sortMap l).map (·.1)).Nodup := ((sortMap_perm l).map _).nodup_iff.2 h
  rw [List.Nodup, List.pairwise_map] at h2
  exact (h1.and h2).imp fun h => Std.lt_of_le_of_ne h.1 h.2

/-- What reading the entries of `l` makes of a map. -/
def mergeMap {α : Type} (m old : GoMap α) : GoMap α :=
  m.map fun l => (sortMap l).reverse ++ (old.getD []).filter fun e => decide (e.1 ∉ l.map (·.1))

theorem fold_put {α : Type} (l : List (String × α)) (acc : List (String × α)) (h : (l.map (·.1)).Nodup) :
    l.foldl (fun st e => GoMap.put st e.1 e.2) (some acc) =
      some (l.reverse ++ acc.filter fun e => decide (e.1 ∉ l.map (·.1))) := by
  induction l generalizing acc with
  | nil => simp
  | cons e l ih =>
    rw [List.map_cons, List.nodup_cons] at h
    rw [List.foldl_cons]
    have : GoMap.put (some acc) e.1 e.2 = some ((e.1, e.2) :: acc.filter fun x => x.1 ≠ e.1) := rfl
    rw [this, ih _ h.2]
    congr 1
    rw [List.filter_cons_of_pos (by simpa using h.1), List.filter_filter, List.reverse_cons, List.append_assoc]
    congr 1
    show _ :: _ = e :: _
    congr 1
    apply List.filter_congr
    intro x _
    simp only [List.map_cons, List.mem_cons, not_or, ne_eq, Bool.decide_and, Bool.and_comm]

theorem reads_map {α : Type} {c : Codec α} {d : Nat} {m : GoMap α} (hk : ((m.getD []).map (·.1)).Nodup)
    (h : ∀ e ∈ m.getD [], Round c d e.2) : Reads c.map (d + 1) m (mergeMap m) := by
  cases m with
  | none => exact ⟨.null, rfl, by simp [J.Good], by intro old; simp [Codec.map, mergeMap]⟩
  | some l =>
    simp only [Option.getD_some] at hk h
    have hs : ((sortMap l).map (·.1)).Nodup := ((sortMap_perm l).map _).nodup_iff.2 hk
    have key : ∀ es : List (String × α), (∀ e ∈ es, Round c d e.2) → ∃ ms,
        es.mapM (fun (e : String × α) => (c.enc e.2).map fun j => (e.1.toList, j)) = some ms ∧ J.GoodMembers d ms ∧
        ∀ m, ms.foldl (fun st m => next st fun l =>
            if (c.dec c.zero m.2).2 = .stop then (l, .stop)
            else (GoMap.put l (String.ofList m.1) (c.dec c.zero m.2).1, (c.dec c.zero m.2).2))
          (m, .none) = (es.foldl (fun st e => GoMap.put st e.1 e.2) m, .none) := by
      intro es hes
      induction es with
      | nil => exact ⟨[], rfl, by simp [J.GoodMembers], by simp⟩
      | cons e es ih =>
        obtain ⟨j, h1, h2, h3⟩ := hes e (by simp)
        obtain ⟨ms, k1, k2, k3⟩ := ih (fun x hx => hes x (by simp [hx]))
        refine ⟨(e.1.toList, j) :: ms, by simp [List.mapM_cons, h1, k1], by simp [J.GoodMembers, h2, k2], ?_⟩
        intro m
        rw [List.foldl_cons, List.foldl_cons, ← k3]
        simp [h3, next, JErr.or]
    obtain ⟨ms, h1, h2, h3⟩ := key (sortMap l) (fun e he => h e ((sortMap_perm l).mem_iff.1 he))
    refine ⟨.obj ms, ?_, by simp [J.Good, h2], ?_⟩
    · show Option.map J.obj ((sortMap l).mapM fun (e : String × α) => (c.enc e.2).map fun j => (e.1.toList, j)) = _
      rw [h1]; rfl
    · intro old
      show ms.foldl _ (some (old.getD []), JErr.none) = _
      rw [h3, fold_put _ _ hs]
      simp only [mergeMap, Option.map_some]
      congr 3
      apply List.filter_congr
      intro x _
      simp only [((sortMap_perm l).map (·.1)).mem_iff]

theorem never_map {α : Type} {c : Codec α} (h : NeverStops c) : NeverStops c.map := by
  intro old j
  cases j with
  | obj ms =>
    show (ms.foldl _ (some (old.getD []), JErr.none)).2 ≠ .stop
    have : ∀ st : GoMap α × JErr, st.2 ≠ .stop → (ms.foldl (fun st m => next st fun l =>
        if (c.dec c.zero m.2).2 = .stop then (l, .stop)
        else (GoMap.put l (String.ofList m.1) (c.dec c.zero m.2).1, (c.dec c.zero m.2).2)) st).2 ≠ .stop := by
      induction ms with
      | nil => exact fun st h => h
      | cons m ms ih =>
        intro st hst
        rw [List.foldl_cons]
        apply ih
        rw [next_snd, if_neg (h _ _)]
        simp only [ne_eq, JErr.or_eq_stop, not_or]
        exact ⟨hst, h _ _⟩
    exact this _ none_ne_stop
  | _ => simp [Codec.map]

theorem map_stops {α : Type} {c : Codec α} (old : GoMap α) (j : J) :
    (c.map.dec old j).2 = .stop ↔ ∃ ms, j = .obj ms ∧ ∃ m ∈ ms, (c.dec c.zero m.2).2 = .stop := by
  cases j with
  | obj ms =>
    show (ms.foldl _ (some (old.getD []), JErr.none)).2 = .stop ↔ _
    have : ∀ st : GoMap α × JErr, (ms.foldl (fun st m => next st fun l =>
        if (c.dec c.zero m.2).2 = .stop then (l, .stop)
        else (GoMap.put l (String.ofList m.1) (c.dec c.zero m.2).1, (c.dec c.zero m.2).2)) st).2 = .stop ↔
        st.2 = .stop ∨ ∃ m ∈ ms, (c.dec c.zero m.2).2 = .stop := by
      induction ms with
      | nil => simp
      | cons m ms ih =>
        intro st
        rw [List.foldl_cons, ih, next_snd, JErr.or_eq_stop]
        simp only [List.mem_cons, exists_eq_or_imp, or_assoc]
        split_ifs with hs <;> simp [hs]
    rw [this]
    simp
  | _ => simp [Codec.map]

theorem map_none {α : Type} {c : Codec α} {m : GoMap α} :
    c.map.enc m = none ↔ ∃ e ∈ m.getD [], c.enc e.2 = none := by
  cases m with
  | none => simp [Codec.map]
  | some l =>
    show Option.map J.obj ((sortMap l).mapM fun (e : String × α) => (c.enc e.2).map fun j => (e.1.toList, j)) = none ↔ _
    rw [Option.map_eq_none_iff, mapM_none]
    simp [(sortMap_perm l).mem_iff]

theorem lookup_append {α : Type} (l l' : List (String × α)) (k : String) :
    (l ++ l').lookup k = (l.lookup k).or (l'.lookup k) := by
  induction l with
  | nil => simp
  | cons e l ih => obtain ⟨a, v⟩ := e; rw [List.cons_append, List.lookup_cons, List.lookup_cons, ih]; split <;> simp

theorem lookup_eq_some {α : Type} {l : List (String × α)} (h : (l.map (·.1)).Nodup) {k : String} {v : α} :
    l.lookup k = some v ↔ (k, v) ∈ l := by
  induction l with
  | nil => simp
  | cons e l ih =>
    obtain ⟨a, w⟩ := e
    rw [List.map_cons, List.nodup_cons] at h
    rw [List.lookup_cons]
    by_cases hk : k = a
    · subst hk
      simp only [beq_self_eq_true, List.mem_cons, Prod.mk.injEq, true_and, Option.some.injEq]
      constructor
      · intro h'; exact Or.inl h'.symm
      · rintro (h' | h')
        · exact h'.symm
        · exact absurd (List.mem_map_of_mem (f := (·.1)) h') h.1
    · rw [beq_eq_false_iff_ne.2 hk, ih h.2]
      simp [hk]

theorem lookup_perm {α : Type} {l l' : List (String × α)} (hp : l.Perm l') (h : (l.map (·.1)).Nodup) (k : String) :
    l.lookup k = l'.lookup k := by
  have h' : (l'.map (·.1)).Nodup := (hp.map _).nodup_iff.1 h
  ext v
  rw [lookup_eq_some h, lookup_eq_some h', hp.mem_iff]

theorem lookup_none {α : Type} {l : List (String × α)} {k : String} : l.lookup k = none ↔ k ∉ l.map (·.1) := by
  induction l with
  | nil => simp
  | cons e l ih =>
    obtain ⟨a, w⟩ := e
    rw [List.lookup_cons]
    by_cases hk : k = a
    · simp [hk]
    · rw [beq_eq_false_iff_ne.2 hk, ih]; simp [hk]

theorem lookup_filter {α : Type} {l : List (String × α)} {p : String → Bool} {k : String} (hp : p k = true) :
    (l.filter fun e => p e.1).lookup k = l.lookup k := by
  induction l with
  | nil => rfl
  | cons e l ih =>
    obtain ⟨a, w⟩ := e
    by_cases hk : k = a
    · subst hk; rw [List.filter_cons_of_pos (by simpa using hp), List.lookup_cons, List.lookup_cons]; simp
    · rw [List.lookup_cons, beq_eq_false_iff_ne.2 hk, ← ih, List.filter_cons]
      split
      · rw [List.lookup_cons, beq_eq_false_iff_ne.2 hk]
      · rfl

theorem get_mergeMap {α : Type} {l : List (String × α)} (h : (l.map (·.1)).Nodup) (old : GoMap α) (k : String) :
    GoMap.get (mergeMap (some l) old) k = (GoMap.get (some l) k).or (GoMap.get old k) := by
  have hp : (sortMap l).reverse.Perm l := (List.reverse_perm _).trans (sortMap_perm l)
  have hs : ((sortMap l).reverse.map (·.1)).Nodup := ((hp.map _).nodup_iff).2 h
  have ho : (old.getD []).lookup k = GoMap.get old k := by cases old <;> rfl
  simp only [mergeMap, Option.map_some, GoMap.get, lookup_append, lookup_perm hp hs]
  cases hl : l.lookup k with
  | some v => rfl
  | none =>
    rw [lookup_none] at hl
    simp only [Option.none_or]
    rw [lookup_filter (p := fun x => decide (x ∉ l.map (·.1))) (by simpa using hl)]
    exact ho

end Go
