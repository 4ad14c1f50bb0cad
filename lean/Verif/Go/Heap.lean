import Mathlib.Tactic.Linarith

/-!
# Go slices over shared memory

A slice is a window of an array; copying a slice copies the window, not the array. `append` writes
into the spare capacity when it suffices and otherwise moves to a fresh array whose capacity is chosen by the runtime (`grow`,
arbitrary).
-/

namespace Go

/-- Memory: the elements of every array, and the first unused address. -/
structure Heap (α : Type) where
  cell : Nat → Nat → α
  next : Nat

/-- A slice header: array, first element, length, capacity (counted from the first element). -/
structure Slice where
  arr : Nat
  off : Nat
  len : Nat
  cap : Nat
deriving DecidableEq, Repr

namespace Slice
/-- The cells a slice can write to, now or after reslicing. -/
def Owns (s : Slice) (a i : Nat) : Prop := a = s.arr ∧ s.off ≤ i ∧ i < s.off + s.cap
/-- `s[:n]`. -/
def upTo (s : Slice) (n : Nat) : Slice := { s with len := n }
/-- `s[n:]`. -/
def since (s : Slice) (n : Nat) : Slice := { s with off := s.off + n, len := s.len - n, cap := s.cap - n }
/-- An empty literal `[]T{}`. -/
def empty : Slice := ⟨0, 0, 0, 0⟩
/-- No cell in common. -/
def Separate (s t : Slice) : Prop := ∀ a i, s.Owns a i → ¬ t.Owns a i
end Slice

namespace Heap
variable {α : Type}

/-- The elements of a slice. -/
def load (h : Heap α) (s : Slice) : List α := (List.range s.len).map fun i => h.cell s.arr (s.off + i)

/-- Writing a list of elements from index `i` of array `a` on. -/
def store (h : Heap α) (a i : Nat) (xs : List α) : Heap α :=
  { h with cell := fun b j => if b = a ∧ i ≤ j then (xs[j - i]?).getD (h.cell b j) else h.cell b j }

/-- `s[i] = x`. -/
def put (h : Heap α) (s : Slice) (i : Nat) (x : α) : Heap α := h.store s.arr (s.off + i) [x]

/-- `append(s, xs...)`; the values `xs` are read before anything is written. -/
def append (grow : Nat → Nat → Nat) (h : Heap α) (s : Slice) (xs : List α) : Heap α × Slice :=
  let n := s.len + xs.length
  if n ≤ s.cap then (h.store s.arr (s.off + s.len) xs, { s with len := n })
  else ({ h.store h.next 0 (h.load s ++ xs) with next := h.next + 1 }, ⟨h.next, 0, n, n + grow s.cap n⟩)

/-- `copy(s[i+1:], s[i:])` (memmove: read first, then written). -/
def copyShift (h : Heap α) (s : Slice) (i : Nat) : Heap α :=
  h.store s.arr (s.off + (i + 1)) (((h.load s).drop i).take (s.len - (i + 1)))

/-- A slice of allocated memory with its length within its capacity. -/
def WF (h : Heap α) (s : Slice) : Prop := s.len ≤ s.cap ∧ (s.cap ≠ 0 → s.arr < h.next)

/-- From `(h, s)` to `(h', s')` only cells of `s` and fresh arrays were touched, and `s'` uses only
such cells. -/
structure Step (h : Heap α) (s : Slice) (h' : Heap α) (s' : Slice) : Prop where
  wf : WF h' s'
  next : h.next ≤ h'.next
  frame : ∀ a i, a < h.next → ¬ s.Owns a i → h'.cell a i = h.cell a i
  inherits : ∀ a i, s'.Owns a i → s.Owns a i ∨ h.next ≤ a

theorem length_load (h : Heap α) (s : Slice) : (h.load s).length = s.len := by simp [load]

theorem load_congr {h h' : Heap α} {s : Slice}
    (e : ∀ i, i < s.len → h'.cell s.arr (s.off + i) = h.cell s.arr (s.off + i)) : h'.load s = h.load s := by
  unfold load
  apply List.map_congr_left
  intro i hi
  exact e i (List.mem_range.1 hi)

theorem getElem?_load (h : Heap α) (s : Slice) (i : Nat) :
    (h.load s)[i]? = if i < s.len then some (h.cell s.arr (s.off + i)) else none := by
  unfold load
  rw [List.getElem?_map]
  split_ifs with hi
  · rw [List.getElem?_range hi]; rfl
  · rw [List.getElem?_eq_none (by simpa using hi)]; rfl

theorem Step.refl {h : Heap α} {s : Slice} (hw : WF h s) : Step h s h s :=
  ⟨hw, le_rfl, fun _ _ _ _ => rfl, fun _ _ h => Or.inl h⟩

theorem Step.trans {h h1 h2 : Heap α} {s s1 s2 : Slice} (a : Step h s h1 s1) (b : Step h1 s1 h2 s2) :
    Step h s h2 s2 := by
  refine ⟨b.wf, a.next.trans b.next, ?_, ?_⟩
  · intro x i hx hn
    rw [b.frame x i (lt_of_lt_of_le hx a.next), a.frame x i hx hn]
    intro ho
    rcases a.inherits x i ho with h | h
    · exact hn h
    · omega
  · intro x i ho
    rcases b.inherits x i ho with h | h
    · exact a.inherits x i h
    · right; have := a.next; omega

/-- A step leaves every other separate slice as it was, and separate. -/
theorem Step.other {h h' : Heap α} {s s' t : Slice} (a : Step h s h' s') (ht : WF h t) (hs : s.Separate t) :
    h'.load t = h.load t ∧ WF h' t ∧ s'.Separate t := by
  refine ⟨?_, ⟨ht.1, fun h0 => lt_of_lt_of_le (ht.2 h0) a.next⟩, ?_⟩
  · apply load_congr
    intro i hi
    have hc : t.cap ≠ 0 := by have := ht.1; omega
    apply a.frame _ _ (ht.2 hc)
    intro ho
    exact hs _ _ ho ⟨rfl, by omega, by have := ht.1; omega⟩
  · intro x i ho ht'
    rcases a.inherits x i ho with h1 | h1
    · exact hs x i h1 ht'
    · obtain ⟨rfl, h2, h3⟩ := ht'
      have hc : t.cap ≠ 0 := by omega
      have := ht.2 hc
      omega

theorem separate_comm {s t : Slice} (h : s.Separate t) : t.Separate s := fun a i h1 h2 => h a i h2 h1

theorem step_store {h : Heap α} {s : Slice} (hw : WF h s) {i : Nat} {xs : List α} (hi : i + xs.length ≤ s.cap)
    (n : Nat) (hn : n ≤ s.cap) :
    Step h s (h.store s.arr (s.off + i) xs) { s with len := n } := by
  refine ⟨⟨hn, hw.2⟩, le_rfl, ?_, fun a i h => Or.inl h⟩
  intro a j _ hno
  simp only [store]
  split_ifs with hc
  · obtain ⟨rfl, hj⟩ := hc
    rw [List.getElem?_eq_none]
    · rfl
    · by_contra hlt
      exact hno ⟨rfl, by omega, by omega⟩
  · rfl

theorem load_store {h : Heap α} {s : Slice} {i n : Nat} {xs : List α} (hi : i ≤ s.len) (hn : n = max s.len (i + xs.length)) :
    (h.store s.arr (s.off + i) xs).load { s with len := n } =
      (h.load s).take i ++ xs ++ (h.load s).drop (i + xs.length) := by
  apply List.ext_getElem?
  intro j
  rw [getElem?_load]
  have hl := length_load h s
  change (if j < n then some (if s.arr = s.arr ∧ s.off + i ≤ s.off + j then
    (xs[s.off + j - (s.off + i)]?).getD (h.cell s.arr (s.off + j)) else h.cell s.arr (s.off + j)) else none) = _
  rcases Nat.lt_or_ge j i with h1 | h1
  · rw [if_pos (by omega), if_neg (by omega), List.append_assoc, List.getElem?_append_left (by simp; omega),
      List.getElem?_take_of_lt h1, getElem?_load, if_pos (by omega)]
  · rcases Nat.lt_or_ge j (i + xs.length) with h2 | h2
    · rw [if_pos (by omega), if_pos ⟨rfl, by omega⟩, List.append_assoc,
        List.getElem?_append_right (by simp; omega), List.getElem?_append_left (by simp; omega)]
      simp only [List.length_take, hl]
      rw [show s.off + j - (s.off + i) = j - i by omega, show j - min i s.len = j - i by omega,
        List.getElem?_eq_getElem (by omega)]
      rfl
    · rw [List.getElem?_append_right (by simp; omega), List.getElem?_drop, getElem?_load]
      simp only [List.length_append, List.length_take, hl]
      rw [show i + xs.length + (j - (min i s.len + xs.length)) = j by omega]
      by_cases hj : j < s.len
      · rw [if_pos (by omega), if_pos hj, if_pos ⟨trivial, by omega⟩, List.getElem?_eq_none (by omega)]; rfl
      · rw [if_neg (by omega), if_neg hj]

/-- `s[i] = x`. -/
theorem step_put {h : Heap α} {s : Slice} (hw : WF h s) {i : Nat} (x : α) (hi : i < s.len) :
    Step h s (h.put s i x) s ∧ (h.put s i x).load s = (h.load s).set i x := by
  have hl := length_load h s
  refine ⟨step_store hw (xs := [x]) (by have := hw.1; simp; omega) s.len hw.1, ?_⟩
  have := load_store (h := h) (s := s) (i := i) (n := s.len) (xs := [x]) (by omega) (by simp; omega)
  rw [put]
  refine this.trans ?_
  rw [List.set_eq_take_append_cons_drop, if_pos (by omega)]; simp

/-- `append`. -/
theorem step_append (grow : Nat → Nat → Nat) {h : Heap α} {s : Slice} (hw : WF h s) (xs : List α) :
    Step h s (h.append grow s xs).1 (h.append grow s xs).2 ∧
    (h.append grow s xs).1.load (h.append grow s xs).2 = h.load s ++ xs := by
  have hl := length_load h s
  unfold append
  dsimp only
  split_ifs with hc
  · refine ⟨step_store hw hc _ hc, ?_⟩
    have := load_store (h := h) (s := s) (i := s.len) (n := s.len + xs.length) (xs := xs) le_rfl (by omega)
    refine this.trans ?_
    rw [List.take_of_length_le (by omega), List.drop_eq_nil_of_le (by omega), List.append_nil]
  · constructor
    · refine ⟨⟨by simp, fun _ => by simp⟩, by simp, ?_, ?_⟩
      · intro a i ha _
        simp only [store]
        rw [if_neg (by omega)]
      · rintro a i ⟨rfl, -, -⟩; right; exact le_rfl
    · apply List.ext_getElem?
      intro j
      rw [getElem?_load]
      simp only [store, Nat.zero_le, and_true, Nat.zero_add, if_true, Nat.sub_zero]
      split_ifs with hj
      · rw [List.getElem?_eq_getElem (by simp [hl]; omega)]; rfl
      · rw [List.getElem?_eq_none (by simp [hl]; omega)]

/-- Overwriting all elements. -/
theorem step_storeAll {h : Heap α} {s : Slice} (hw : WF h s) {xs : List α} (hx : xs.length = s.len) :
    Step h s (h.store s.arr s.off xs) s ∧ (h.store s.arr s.off xs).load s = xs := by
  have hl := length_load h s
  refine ⟨step_store hw (i := 0) (by have := hw.1; omega) s.len hw.1, ?_⟩
  have := load_store (h := h) (s := s) (i := 0) (n := s.len) (xs := xs) (by omega) (by omega)
  refine this.trans ?_
  rw [List.drop_eq_nil_of_le (by omega)]; simp

theorem step_upTo {h : Heap α} {s : Slice} (hw : WF h s) {n : Nat} (hn : n ≤ s.len) :
    Step h s h (s.upTo n) ∧ h.load (s.upTo n) = (h.load s).take n := by
  refine ⟨⟨⟨by have := hw.1; show n ≤ s.cap; omega, hw.2⟩, le_rfl, fun _ _ _ _ => rfl, fun _ _ h => Or.inl h⟩, ?_⟩
  apply List.ext_getElem?
  intro j
  rw [getElem?_load, List.getElem?_take, getElem?_load]
  change (if j < n then some (h.cell s.arr (s.off + j)) else none) = _
  by_cases h1 : j < n
  · rw [if_pos h1, if_pos h1, if_pos (by omega)]
  · rw [if_neg h1, if_neg h1]

theorem step_since {h : Heap α} {s : Slice} (hw : WF h s) {n : Nat} (hn : n ≤ s.len) :
    Step h s h (s.since n) ∧ h.load (s.since n) = (h.load s).drop n := by
  have h1 := hw.1
  constructor
  · refine ⟨⟨by simp only [Slice.since]; omega, ?_⟩, le_rfl, fun _ _ _ _ => rfl, ?_⟩
    · intro h0; apply hw.2; simp only [Slice.since] at h0; omega
    · rintro a i ⟨rfl, h2, h3⟩
      simp only [Slice.since] at h2 h3
      exact Or.inl ⟨rfl, by omega, by omega⟩
  · apply List.ext_getElem?
    intro j
    rw [getElem?_load, List.getElem?_drop, getElem?_load]
    change (if j < s.len - n then some (h.cell s.arr (s.off + n + j)) else none) = _
    by_cases hj : n + j < s.len
    · rw [if_pos (by omega), if_pos hj, Nat.add_assoc]
    · rw [if_neg (by omega), if_neg hj]

theorem step_empty (h : Heap α) (s : Slice) : Step h s h Slice.empty ∧ h.load Slice.empty = [] := by
  refine ⟨⟨⟨le_rfl, fun h0 => absurd rfl h0⟩, le_rfl, fun _ _ _ _ => rfl, ?_⟩, rfl⟩
  rintro a i ⟨-, h1, h2⟩
  simp only [Slice.empty] at h1 h2
  omega

end Heap

end Go
