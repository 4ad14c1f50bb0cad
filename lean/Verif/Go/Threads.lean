import Verif.Go.Heap
import Mathlib.Logic.Function.Basic
import Mathlib.Logic.Relation

/-!
# Goroutines over shared memory

A goroutine is a program of single reads, writes and allocations; several of them run interleaved, step by step, in
one memory. `Safe` says that a program stays within the cells it owns (or only reads, among cells nobody
writes) and ends with a given result whatever the others do to all other cells; `safe_all` shows that programs which
are safe with cells of their own are so together.
-/

namespace Go

/-- A program that reads and writes cells `i` of arrays `a`, makes new arrays, and then gives a result. -/
inductive HProg (α R : Type) where
  | done (r : R)
  | get (a i : Nat) (k : α → HProg α R)
  | put (a i : Nat) (x : α) (k : HProg α R)
  | alloc (k : Nat → HProg α R)

namespace HProg
variable {α R Q : Type}

/-- One program and then another. -/
def bind (p : HProg α R) (f : R → HProg α Q) : HProg α Q :=
  match p with
  | .done r => f r
  | .get a i k => .get a i fun x => (k x).bind f
  | .put a i x k => .put a i x (k.bind f)
  | .alloc k => .alloc fun n => (k n).bind f

/-- `n` elements from cell `i` on, read one after the other. -/
def readAll (a i : Nat) : Nat → HProg α (List α)
  | 0 => .done []
  | n + 1 => .get a i fun x => (readAll a (i + 1) n).bind fun xs => .done (x :: xs)

/-- Elements written one after the other, from cell `i` on. -/
def writeAll (a i : Nat) : List α → HProg α Unit
  | [] => .done ()
  | x :: xs => .put a i x (writeAll a (i + 1) xs)

/-- A loop over `n` elements from cell `i` on that stops at the first with `q`; the result is its index, counted from
`at_`. -/
def findFrom (q : α → Bool) (a i at_ : Nat) : Nat → HProg α (Option Nat)
  | 0 => .done none
  | n + 1 => .get a i fun x => if q x then .done (some at_) else findFrom q a (i + 1) (at_ + 1) n

/-- The elements of a slice. -/
def load (s : Slice) : HProg α (List α) := readAll s.arr s.off s.len

/-- The index of the first element with `q`. -/
def find (q : α → Bool) (s : Slice) : HProg α (Option Nat) := findFrom q s.arr s.off 0 s.len

/-- `append(s, xs...)`, see `Heap.append`: in a new array the old elements are copied first. -/
def append (grow : Nat → Nat → Nat) (s : Slice) (xs : List α) : HProg α Slice :=
  let n := s.len + xs.length
  if n ≤ s.cap then (writeAll s.arr (s.off + s.len) xs).bind fun _ => .done { s with len := n }
  else .alloc fun a => (load s).bind fun old => (writeAll a 0 (old ++ xs)).bind fun _ =>
    .done ⟨a, 0, n, n + grow s.cap n⟩

/-- `copy(s[i+1:], s[i:])`, see `Heap.copyShift`. -/
def copyShift (s : Slice) (i : Nat) : HProg α Unit :=
  (readAll s.arr (s.off + i) (s.len - (i + 1))).bind fun xs => writeAll s.arr (s.off + (i + 1)) xs

end HProg

/-- A set of cells. -/
abbrev Cells := Nat → Nat → Prop

/-- What the others may do: allocate, and write to all cells but those in `keep`. -/
structure Rely {α : Type} (keep : Cells) (h h' : Heap α) : Prop where
  next : h.next ≤ h'.next
  same : ∀ a i, keep a i → h'.cell a i = h.cell a i

namespace Rely
variable {α : Type} {keep : Cells}

theorem refl (h : Heap α) : Rely keep h h := ⟨le_rfl, fun _ _ _ => rfl⟩

theorem trans {h h1 h2 : Heap α} (a : Rely keep h h1) (b : Rely keep h1 h2) : Rely keep h h2 :=
  ⟨a.next.trans b.next, fun x i hk => (b.same x i hk).trans (a.same x i hk)⟩

theorem mono {keep' : Cells} {h h' : Heap α} (hk : ∀ a i, keep' a i → keep a i) (r : Rely keep h h') : Rely keep' h h' :=
  ⟨r.next, fun a i h => r.same a i (hk a i h)⟩

theorem store {h h' : Heap α} (r : Rely keep h h') (a i : Nat) (xs : List α) : Rely keep (h.store a i xs) (h'.store a i xs) := by
  refine ⟨r.next, fun b j hk => ?_⟩
  simp only [Heap.store]
  rw [r.same b j hk]

theorem load {h h' : Heap α} (r : Rely keep h h') {s : Slice} (hw : s.len ≤ s.cap) (hk : ∀ a i, s.Owns a i → keep a i) :
    h'.load s = h.load s :=
  Heap.load_congr fun i hi => r.same _ _ (hk _ _ ⟨rfl, by omega, by omega⟩)

end Rely

section
variable {α R Q : Type}

/-- Owning `own`, reading also `view`, whatever happens elsewhere the program reads and writes only these cells, and if
it ends then with memory, owned cells and result in `post`. New arrays are owned. -/
def Safe (view : Cells) : HProg α R → Heap α → Cells → (Heap α → Cells → R → Prop) → Prop
  | .done r, h, own, post => post h own r
  | .get a i k, h, own, post => (own a i ∨ view a i) ∧ Safe view (k (h.cell a i)) h own post
  | .put a i x k, h, own, post => own a i ∧ Safe view k (h.store a i [x]) own post
  | .alloc k, h, own, post => ∀ h', Rely (fun a i => own a i ∨ view a i) h h' →
      Safe view (k h'.next) { h' with next := h'.next + 1 } (fun a i => own a i ∨ a = h'.next) post

/-- What others do does not falsify `post`. -/
def Stable (view : Cells) (post : Heap α → Cells → R → Prop) : Prop :=
  ∀ h h' own r, Rely (fun a i => own a i ∨ view a i) h h' → post h own r → post h' own r

theorem safe_stable {view : Cells} {post : Heap α → Cells → R → Prop} (hp : Stable view post) :
    ∀ (p : HProg α R) (h h' : Heap α) (own : Cells), Rely (fun a i => own a i ∨ view a i) h h' →
      Safe view p h own post → Safe view p h' own post
  | .done _, _, _, _, hr, hs => hp _ _ _ _ hr hs
  | .get a i _, _, _, _, hr, hs => by
    refine ⟨hs.1, ?_⟩
    rw [hr.same a i hs.1]
    exact safe_stable hp _ _ _ _ hr hs.2
  | .put a i x _, _, _, _, hr, hs => ⟨hs.1, safe_stable hp _ _ _ _ (hr.store a i [x]) hs.2⟩
  | .alloc _, _, _, _, hr, hs => fun h2 hr2 => hs h2 (hr.trans hr2)

theorem safe_mono {view : Cells} {post post' : Heap α → Cells → R → Prop} (hi : ∀ h own r, post h own r → post' h own r) :
    ∀ (p : HProg α R) (h : Heap α) (own : Cells), Safe view p h own post → Safe view p h own post'
  | .done _, _, _, hs => hi _ _ _ hs
  | .get _ _ _, _, _, hs => ⟨hs.1, safe_mono hi _ _ _ hs.2⟩
  | .put _ _ _ _, _, _, hs => ⟨hs.1, safe_mono hi _ _ _ hs.2⟩
  | .alloc _, _, _, hs => fun h' hr => safe_mono hi _ _ _ (hs h' hr)

theorem safe_bind {view : Cells} {f : R → HProg α Q} {post : Heap α → Cells → Q → Prop} :
    ∀ (p : HProg α R) (h : Heap α) (own : Cells), Safe view p h own (fun h own r => Safe view (f r) h own post) →
      Safe view (p.bind f) h own post
  | .done _, _, _, hs => hs
  | .get _ _ _, _, _, hs => ⟨hs.1, safe_bind _ _ _ hs.2⟩
  | .put _ _ _ _, _, _, hs => ⟨hs.1, safe_bind _ _ _ hs.2⟩
  | .alloc _, _, _, hs => fun h' hr => safe_bind _ _ _ (hs h' hr)

theorem safe_readAll {view : Cells} {post : Heap α → Cells → List α → Prop} {h : Heap α} {own : Cells} {a : Nat} :
    ∀ (n i : Nat), (∀ j, i ≤ j → j < i + n → own a j ∨ view a j) →
      post h own ((List.range n).map fun j => h.cell a (i + j)) → Safe view (HProg.readAll a i n) h own post
  | 0, _, _, hp => hp
  | n + 1, i, ho, hp => by
    refine ⟨ho i le_rfl (by omega), safe_bind _ _ _ ?_⟩
    refine safe_readAll n (i + 1) (fun j h1 h2 => ho j (by omega) (by omega)) ?_
    have : h.cell a i :: (List.range n).map (fun j => h.cell a (i + 1 + j)) = (List.range (n + 1)).map fun j => h.cell a (i + j) := by
      rw [List.range_succ_eq_map]
      simp [Function.comp_def, Nat.add_assoc, Nat.add_comm 1]
    show post h own (h.cell a i :: _)
    rw [this]
    exact hp

theorem store_cons (h : Heap α) (a i : Nat) (x : α) (xs : List α) :
    (h.store a i [x]).store a (i + 1) xs = h.store a i (x :: xs) := by
  obtain ⟨cell, next⟩ := h
  simp only [Heap.store, Heap.mk.injEq, and_true]
  funext b j
  by_cases hb : b = a
  · rcases Nat.lt_trichotomy j i with hj | hj | hj
    · simp [hb, show ¬ i + 1 ≤ j by omega, show ¬ i ≤ j by omega]
    · subst hj; simp [hb]
    · rw [if_pos ⟨hb, by omega⟩, if_pos ⟨hb, by omega⟩, if_pos ⟨hb, by omega⟩, show j - i = (j - (i + 1)) + 1 by omega,
        List.getElem?_cons_succ]
      simp
  · simp [hb]

theorem store_nil (h : Heap α) (a i : Nat) : h.store a i [] = h := by
  obtain ⟨cell, next⟩ := h
  simp [Heap.store]

theorem safe_writeAll {view : Cells} {post : Heap α → Cells → Unit → Prop} {own : Cells} {a : Nat} :
    ∀ (xs : List α) (h : Heap α) (i : Nat), (∀ j, i ≤ j → j < i + xs.length → own a j) →
      post (h.store a i xs) own () → Safe view (HProg.writeAll a i xs) h own post
  | [], h, i, _, hp => by rw [store_nil] at hp; exact hp
  | x :: xs, h, i, ho, hp => by
    refine ⟨ho i le_rfl (by simp), safe_writeAll xs _ (i + 1) (fun j h1 h2 => ho j (by omega) (by simp; omega)) ?_⟩
    rw [store_cons]; exact hp

theorem safe_findFrom {view : Cells} {post : Heap α → Cells → Option Nat → Prop} {h : Heap α} {own : Cells} {a : Nat}
    {q : α → Bool} : ∀ (n i at_ : Nat), (∀ j, i ≤ j → j < i + n → own a j ∨ view a j) →
      post h own ((((List.range n).map fun j => h.cell a (i + j)).findIdx? q).map (· + at_)) →
      Safe view (HProg.findFrom q a i at_ n) h own post
  | 0, _, _, _, hp => hp
  | n + 1, i, at_, ho, hp => by
    refine ⟨ho i le_rfl (by omega), ?_⟩
    have e : (List.range (n + 1)).map (fun j => h.cell a (i + j)) =
        h.cell a i :: (List.range n).map (fun j => h.cell a (i + 1 + j)) := by
      rw [List.range_succ_eq_map]
      simp [Function.comp_def, Nat.add_assoc, Nat.add_comm 1]
    rw [e, List.findIdx?_cons] at hp
    beta_reduce
    by_cases hq : q (h.cell a i) = true
    · rw [if_pos hq] at hp ⊢
      have : post h own (some at_) := by simpa using hp
      exact this
    · rw [if_neg hq] at hp ⊢
      refine safe_findFrom n (i + 1) (at_ + 1) (fun j h1 h2 => ho j (by omega) (by omega)) ?_
      convert hp using 1
      cases ((List.range n).map fun j => h.cell a (i + 1 + j)).findIdx? q <;> simp [Nat.add_assoc, Nat.add_comm 1]

/-- A program may read the cells of a slice. -/
def MayRead (own view : Cells) (s : Slice) : Prop := ∀ a i, s.Owns a i → own a i ∨ view a i

/-- A program owns the cells of a slice. -/
def OwnsAll (own : Cells) (s : Slice) : Prop := ∀ a i, s.Owns a i → own a i

theorem OwnsAll.read {own view : Cells} {s : Slice} (h : OwnsAll own s) : MayRead own view s := fun a i ho => .inl (h a i ho)

theorem safe_load {view : Cells} {post : Heap α → Cells → List α → Prop} {h : Heap α} {own : Cells} {s : Slice}
    (hw : s.len ≤ s.cap) (ho : MayRead own view s) (hp : post h own (h.load s)) : Safe view (HProg.load s) h own post :=
  safe_readAll _ _ (fun j h1 h2 => ho _ _ ⟨rfl, h1, by omega⟩) hp

theorem safe_find {view : Cells} {q : α → Bool} {post : Heap α → Cells → Option Nat → Prop} {h : Heap α} {own : Cells}
    {s : Slice} (hw : s.len ≤ s.cap) (ho : MayRead own view s) (hp : post h own ((h.load s).findIdx? q)) :
    Safe view (HProg.find q s) h own post :=
  safe_findFrom _ _ _ (fun j h1 h2 => ho _ _ ⟨rfl, h1, by omega⟩) (by simpa [Heap.load] using hp)

theorem safe_append {view : Cells} (grow : Nat → Nat → Nat) {post : Heap α → Cells → Slice → Prop} {h : Heap α}
    {own : Cells} {s : Slice} (hw : s.len ≤ s.cap) (ho : OwnsAll own s) (xs : List α)
    (hn : ∀ a i, own a i ∨ view a i → a < h.next)
    (hp : ∀ h0 own', Rely (fun a i => own a i ∨ view a i) h h0 → (∀ a i, own a i → own' a i) →
      OwnsAll own' (h0.append grow s xs).2 → (∀ a i, own' a i → a < (h0.append grow s xs).1.next) →
      post (h0.append grow s xs).1 own' (h0.append grow s xs).2) :
    Safe view (HProg.append grow s xs) h own post := by
  unfold HProg.append
  simp only
  split
  · rename_i hc
    have e : h.append grow s xs = (h.store s.arr (s.off + s.len) xs, { s with len := s.len + xs.length }) := by
      unfold Heap.append; simp only; rw [if_pos hc]
    have := hp h own (Rely.refl h) (fun _ _ h => h)
    rw [e] at this
    exact safe_bind _ _ _ (safe_writeAll _ _ _ (fun j h1 h2 => ho _ _ ⟨rfl, by omega, by omega⟩)
      (this (fun a i h => ho a i h) (fun a i h => hn a i (.inl h))))
  · rename_i hc
    intro h0 hr
    have e : h0.append grow s xs = ({ h0.store h0.next 0 (h0.load s ++ xs) with next := h0.next + 1 },
        ⟨h0.next, 0, s.len + xs.length, s.len + xs.length + grow s.cap (s.len + xs.length)⟩) := by
      unfold Heap.append; simp only; rw [if_neg hc]
    have := hp h0 (fun a i => own a i ∨ a = h0.next) hr (fun _ _ h => .inl h)
    rw [e] at this
    refine safe_bind _ _ _ (safe_load hw (fun a i h => .inl (.inl (ho a i h))) ?_)
    refine safe_bind _ _ _ (safe_writeAll _ _ _ (fun j _ _ => .inr rfl) ?_)
    refine this (fun a i h => .inr h.1) ?_
    rintro a i (h | rfl)
    · have := hn a i (.inl h); have := hr.next; simp only; omega
    · simp

theorem safe_copyShift {view : Cells} {post : Heap α → Cells → Unit → Prop} {h : Heap α} {own : Cells} {s : Slice} {i : Nat}
    (hw : s.len ≤ s.cap) (hi : i < s.len) (ho : OwnsAll own s) (hp : post (h.copyShift s i) own ()) :
    Safe view (HProg.copyShift s i) h own post := by
  have e : (List.range (s.len - (i + 1))).map (fun j => h.cell s.arr (s.off + i + j)) =
      ((h.load s).drop i).take (s.len - (i + 1)) := by
    apply List.ext_getElem?
    intro j
    rw [List.getElem?_map, List.getElem?_take]
    split
    · rename_i hj
      rw [List.getElem?_range hj, List.getElem?_drop, Heap.getElem?_load, if_pos (by omega)]
      simp [Nat.add_assoc]
    · rename_i hj
      rw [List.getElem?_eq_none (by simpa using hj)]; rfl
  refine safe_bind _ _ _ (safe_readAll _ _ (fun j h1 h2 => .inl (ho _ _ ⟨rfl, by omega, by omega⟩)) ?_)
  rw [e]
  refine safe_writeAll _ _ _ (fun j h1 h2 => ho _ _ ⟨rfl, by omega, ?_⟩) hp
  rw [List.length_take] at h2
  omega

end

/-! ## Several goroutines -/

/-- The memory and what is left to do for each goroutine. -/
structure Threads (ι α : Type) (R : ι → Type) where
  heap : Heap α
  prog : (i : ι) → HProg α (R i)

/-- One step of one goroutine. -/
inductive ThreadStep {ι α : Type} {R : ι → Type} [DecidableEq ι] : Threads ι α R → Threads ι α R → Prop
  | get (s : Threads ι α R) (i : ι) (a j : Nat) (k : α → HProg α (R i)) : s.prog i = .get a j k →
      ThreadStep s ⟨s.heap, Function.update s.prog i (k (s.heap.cell a j))⟩
  | put (s : Threads ι α R) (i : ι) (a j : Nat) (x : α) (k : HProg α (R i)) : s.prog i = .put a j x k →
      ThreadStep s ⟨s.heap.store a j [x], Function.update s.prog i k⟩
  | alloc (s : Threads ι α R) (i : ι) (k : Nat → HProg α (R i)) : s.prog i = .alloc k →
      ThreadStep s ⟨{ s.heap with next := s.heap.next + 1 }, Function.update s.prog i (k s.heap.next)⟩

/-- All goroutines are safe, with cells of their own. -/
structure AllSafe {ι α : Type} {R : ι → Type} (view : Cells) (post : (i : ι) → Heap α → Cells → R i → Prop)
    (s : Threads ι α R) (own : ι → Cells) : Prop where
  safe : ∀ i, Safe view (s.prog i) s.heap (own i) (post i)
  apart : ∀ i j, i ≠ j → ∀ a c, own i a c → ¬ own j a c
  unseen : ∀ i a c, own i a c → ¬ view a c
  old : ∀ i a c, own i a c → a < s.heap.next
  oldView : ∀ a c, view a c → a < s.heap.next

theorem allSafe_step {ι α : Type} {R : ι → Type} [DecidableEq ι] {view : Cells}
    {post : (i : ι) → Heap α → Cells → R i → Prop} (hp : ∀ i, Stable view (post i)) {s t : Threads ι α R} {own : ι → Cells}
    (h : AllSafe view post s own) (st : ThreadStep s t) : ∃ own', AllSafe view post t own' := by
  cases st with
  | get i a j k e =>
    refine ⟨own, fun i' => ?_, h.apart, h.unseen, h.old, h.oldView⟩
    by_cases hi : i' = i
    · subst hi
      have := h.safe i'
      rw [e] at this
      simp only [Function.update_self]
      exact this.2
    · simp only [Function.update_of_ne hi]; exact h.safe i'
  | put i a j x k e =>
    have hs := h.safe i
    rw [e] at hs
    refine ⟨own, fun i' => ?_, h.apart, h.unseen, h.old, h.oldView⟩
    by_cases hi : i' = i
    · subst hi
      simp only [Function.update_self]
      exact hs.2
    · simp only [Function.update_of_ne hi]
      refine safe_stable (hp i') _ s.heap _ _ ⟨le_rfl, fun b c hk => ?_⟩ (h.safe i')
      simp only [Heap.store]
      split
      · rename_i hc
        obtain ⟨rfl, hj⟩ := hc
        by_cases hcj : c = j
        · subst hcj
          rcases hk with hk | hk
          · exact absurd hs.1 (h.apart i' i hi _ _ hk)
          · exact absurd hk (h.unseen i _ _ hs.1)
        · rw [List.getElem?_eq_none (by simp; omega)]; rfl
      · rfl
  | alloc i k e =>
    have hs := h.safe i
    rw [e] at hs
    refine ⟨Function.update own i (fun a c => own i a c ∨ a = s.heap.next), fun i' => ?_, ?_, ?_, ?_, ?_⟩
    · by_cases hi : i' = i
      · subst hi
        simp only [Function.update_self]
        exact hs s.heap (Rely.refl _)
      · simp only [Function.update_of_ne hi]
        exact safe_stable (hp i') _ s.heap _ _ ⟨by simp, fun _ _ _ => rfl⟩ (h.safe i')
    · intro i1 i2 hne a c h1 h2
      by_cases e1 : i1 = i
      · subst e1
        rw [Function.update_self] at h1
        rw [Function.update_of_ne (Ne.symm hne)] at h2
        rcases h1 with h1 | rfl
        · exact h.apart _ _ hne _ _ h1 h2
        · exact absurd (h.old _ _ _ h2) (lt_irrefl _)
      · rw [Function.update_of_ne e1] at h1
        by_cases e2 : i2 = i
        · subst e2
          rw [Function.update_self] at h2
          rcases h2 with h2 | rfl
          · exact h.apart _ _ hne _ _ h1 h2
          · exact absurd (h.old _ _ _ h1) (lt_irrefl _)
        · rw [Function.update_of_ne e2] at h2
          exact h.apart _ _ hne _ _ h1 h2
    · intro i1 a c h1
      by_cases e1 : i1 = i
      · subst e1
        rw [Function.update_self] at h1
        rcases h1 with h1 | rfl
        · exact h.unseen _ _ _ h1
        · exact fun hv => absurd (h.oldView _ _ hv) (lt_irrefl _)
      · rw [Function.update_of_ne e1] at h1
        exact h.unseen _ _ _ h1
    · intro i1 a c h1
      by_cases e1 : i1 = i
      · subst e1
        rw [Function.update_self] at h1
        rcases h1 with h1 | rfl
        · exact Nat.lt_succ_of_lt (h.old _ _ _ h1)
        · exact Nat.lt_succ_self _
      · rw [Function.update_of_ne e1] at h1
        exact Nat.lt_succ_of_lt (h.old _ _ _ h1)
    · exact fun a c hv => Nat.lt_succ_of_lt (h.oldView a c hv)

/-- Safe goroutines stay safe, in every interleaving. -/
theorem safe_all {ι α : Type} {R : ι → Type} [DecidableEq ι] {view : Cells}
    {post : (i : ι) → Heap α → Cells → R i → Prop} (hp : ∀ i, Stable view (post i)) {s t : Threads ι α R} {own : ι → Cells}
    (h : AllSafe view post s own) (st : Relation.ReflTransGen ThreadStep s t) : ∃ own', AllSafe view post t own' := by
  induction st with
  | refl => exact ⟨own, h⟩
  | tail _ st ih =>
    obtain ⟨o, ho⟩ := ih
    exact allSafe_step hp ho st

/-- A goroutine is about to read or to write a cell. -/
def ReadsCell {α R : Type} (p : HProg α R) (a j : Nat) : Prop := ∃ k, p = .get a j k
/-- See `ReadsCell`. -/
def WritesCell {α R : Type} (p : HProg α R) (a j : Nat) : Prop := ∃ x k, p = .put a j x k

theorem AllSafe.no_race {ι α : Type} {R : ι → Type} {view : Cells} {post : (i : ι) → Heap α → Cells → R i → Prop}
    {s : Threads ι α R} {own : ι → Cells} (h : AllSafe view post s own) {i j : ι} (hij : i ≠ j) {a c : Nat}
    (hw : WritesCell (s.prog i) a c) : ¬ ReadsCell (s.prog j) a c ∧ ¬ WritesCell (s.prog j) a c := by
  obtain ⟨x, k, e⟩ := hw
  have hi := h.safe i
  rw [e] at hi
  have hj := h.safe j
  constructor
  · rintro ⟨k', e'⟩
    rw [e'] at hj
    rcases hj.1 with hj | hj
    · exact h.apart i j hij _ _ hi.1 hj
    · exact h.unseen i _ _ hi.1 hj
  · rintro ⟨x', k', e'⟩
    rw [e'] at hj
    exact h.apart i j hij _ _ hi.1 hj.1

/-- Every goroutine can come to its end, however far the others have got. -/
theorem threads_finish {ι α : Type} {R : ι → Type} [DecidableEq ι] (i : ι) : ∀ (p : HProg α (R i)) (s : Threads ι α R),
    s.prog i = p → ∃ (t : Threads ι α R) (r : R i), Relation.ReflTransGen ThreadStep s t ∧ t.prog i = .done r ∧
      ∀ j, j ≠ i → t.prog j = s.prog j := by
  intro p
  induction p with
  | done r => exact fun s e => ⟨s, r, .refl, e, fun _ _ => rfl⟩
  | get a c k ih =>
    intro s e
    obtain ⟨t, r, h1, h2, h3⟩ := ih (s.heap.cell a c) ⟨s.heap, Function.update s.prog i (k (s.heap.cell a c))⟩
      (by simp)
    exact ⟨t, r, .head (.get s i a c k e) h1, h2, fun j hj => (h3 j hj).trans (by simp [hj])⟩
  | put a c x k ih =>
    intro s e
    obtain ⟨t, r, h1, h2, h3⟩ := ih ⟨s.heap.store a c [x], Function.update s.prog i k⟩ (by simp)
    exact ⟨t, r, .head (.put s i a c x k e) h1, h2, fun j hj => (h3 j hj).trans (by simp [hj])⟩
  | alloc k ih =>
    intro s e
    obtain ⟨t, r, h1, h2, h3⟩ := ih s.heap.next
      ⟨{ s.heap with next := s.heap.next + 1 }, Function.update s.prog i (k s.heap.next)⟩ (by simp)
    exact ⟨t, r, .head (.alloc s i k e) h1, h2, fun j hj => (h3 j hj).trans (by simp [hj])⟩

/-- One step of goroutine `i`, if it has not finished. -/
def Threads.step {ι α : Type} {R : ι → Type} [DecidableEq ι] (s : Threads ι α R) (i : ι) : Threads ι α R :=
  match s.prog i with
  | .done _ => s
  | .get a j k => ⟨s.heap, Function.update s.prog i (k (s.heap.cell a j))⟩
  | .put a j x k => ⟨s.heap.store a j [x], Function.update s.prog i k⟩
  | .alloc k => ⟨{ s.heap with next := s.heap.next + 1 }, Function.update s.prog i (k s.heap.next)⟩

theorem Threads.step_run {ι α : Type} {R : ι → Type} [DecidableEq ι] (s : Threads ι α R) (i : ι) :
    Relation.ReflTransGen ThreadStep s (s.step i) := by
  unfold Threads.step
  cases e : s.prog i with
  | done r => exact .refl
  | get a j k => exact .single (.get s i a j k e)
  | put a j x k => exact .single (.put s i a j x k e)
  | alloc k => exact .single (.alloc s i k e)

/-- The steps of a schedule. -/
theorem Threads.steps_run {ι α : Type} {R : ι → Type} [DecidableEq ι] : ∀ (l : List ι) (s : Threads ι α R),
    Relation.ReflTransGen ThreadStep s (l.foldl Threads.step s)
  | [], _ => .refl
  | i :: l, s => (s.step_run i).trans (steps_run l (s.step i))

/-- The result of a program that has finished. -/
def HProg.result {α R : Type} : HProg α R → Option R
  | .done r => some r
  | _ => none

theorem HProg.result_done {α R : Type} {p : HProg α R} {r : R} (h : p.result = some r) : p = .done r := by
  cases p with
  | done x => exact congrArg _ (Option.some.inj h)
  | get => cases h
  | put => cases h
  | alloc => cases h

/-- The cell that a program is about to write. -/
def HProg.target {α R : Type} : HProg α R → Option (Nat × Nat)
  | .put a j _ _ => some (a, j)
  | _ => none

theorem HProg.writes_target {α R : Type} {p : HProg α R} {a j : Nat} (h : p.target = some (a, j)) : WritesCell p a j := by
  cases p with
  | put a' j' x k => cases h; exact ⟨x, k, rfl⟩
  | get => cases h
  | done => cases h
  | alloc => cases h

end Go
