import Mathlib.Data.List.Nodup
import Verif.Model.PairMappings

/-!
# Facts about every row of the pair table

The table is one finite literal of the source; these facts are about all of its 1951 rows. They
are evaluated by the kernel, through a binary search tree of numeric codes.
-/

namespace Finmod

/-- A number for each list of bytes (injective). -/
def code : List UInt8 → Nat
  | [] => 0
  | c :: cs => (c.toNat + 1) + 512 * code cs

theorem code_inj : Function.Injective code := by
  intro a
  induction a with
  | nil =>
    intro b h
    cases b with
    | nil => rfl
    | cons c cs => simp only [code] at h; omega
  | cons c cs ih =>
    intro b h
    cases b with
    | nil => simp only [code] at h; omega
    | cons d ds =>
      simp only [code] at h
      have hc := c.toNat_lt
      have hd := d.toNat_lt
      have h1 : c.toNat = d.toNat := by omega
      have h2 : code cs = code ds := by omega
      rw [ih h2, UInt8.toNat_inj.1 h1]

/-- Binary search trees of numbers, used to check that a long list has no duplicates. -/
inductive Tree where
  | leaf
  | node (l : Tree) (n : Nat) (r : Tree)

/-- Members. -/
def Tree.Mem (m : Nat) : Tree → Prop
  | .leaf => False
  | .node l n r => Tree.Mem m l ∨ m = n ∨ Tree.Mem m r

/-- Ordered tree. -/
def Tree.Ordered : Tree → Prop
  | .leaf => True
  | .node l n r => (∀ m, Tree.Mem m l → m < n) ∧ (∀ m, Tree.Mem m r → n < m) ∧ l.Ordered ∧ r.Ordered

/-- Insert a new number; `none` if it is there already. -/
def Tree.insert (m : Nat) : Tree → Option Tree
  | .leaf => some (.node .leaf m .leaf)
  | .node l n r =>
    if Nat.blt m n then (l.insert m).map (fun l' => .node l' n r)
    else if Nat.blt n m then (r.insert m).map (fun r' => .node l n r')
    else none

/-- Insert all (the match on the number makes the kernel evaluate it once). -/
def Tree.insertAll : List Nat → Tree → Bool
  | [], _ => true
  | 0 :: ms, t =>
    match t.insert 0 with
    | some t' => Tree.insertAll ms t'
    | none => false
  | (k + 1) :: ms, t =>
    match t.insert (k + 1) with
    | some t' => Tree.insertAll ms t'
    | none => false

theorem Tree.insert_spec {m : Nat} {t t' : Tree} (ho : t.Ordered) (h : t.insert m = some t') :
    t'.Ordered ∧ ¬ Tree.Mem m t ∧ ∀ k, Tree.Mem k t' ↔ k = m ∨ Tree.Mem k t := by
  induction t generalizing t' with
  | leaf =>
    simp only [Tree.insert, Option.some.injEq] at h
    subst h
    simp [Tree.Ordered, Tree.Mem]
  | node l n r ihl ihr =>
    obtain ⟨o1, o2, o3, o4⟩ := ho
    simp only [Tree.insert] at h
    by_cases h1 : m < n
    · have : Nat.blt m n = true := by simp [Nat.blt]; omega
      rw [if_pos this] at h
      simp only [Option.map_eq_some_iff] at h
      obtain ⟨l', hl', rfl⟩ := h
      obtain ⟨a, b, c⟩ := ihl o3 hl'
      refine ⟨⟨?_, o2, a, o4⟩, ?_, ?_⟩
      · intro k hk
        rcases (c k).1 hk with rfl | hk
        · exact h1
        · exact o1 k hk
      · rintro (h | h | h)
        · exact b h
        · omega
        · have := o2 m h; omega
      · intro k; simp only [Tree.Mem, c]; tauto
    · have : ¬ Nat.blt m n = true := by simp [Nat.blt]; omega
      rw [if_neg this] at h
      by_cases h2 : n < m
      · have : Nat.blt n m = true := by simp [Nat.blt]; omega
        rw [if_pos this] at h
        simp only [Option.map_eq_some_iff] at h
        obtain ⟨r', hr', rfl⟩ := h
        obtain ⟨a, b, c⟩ := ihr o4 hr'
        refine ⟨⟨o1, ?_, o3, a⟩, ?_, ?_⟩
        · intro k hk
          rcases (c k).1 hk with rfl | hk
          · exact h2
          · exact o2 k hk
        · rintro (h | h | h)
          · have := o1 m h; omega
          · omega
          · exact b h
        · intro k; simp only [Tree.Mem, c]; tauto
      · have : ¬ Nat.blt n m = true := by simp [Nat.blt]; omega
        rw [if_neg this] at h
        cases h

theorem Tree.insertAll_nodup {l : List Nat} {t : Tree} (ho : t.Ordered)
    (h : Tree.insertAll l t = true) : l.Nodup ∧ ∀ m ∈ l, ¬ Tree.Mem m t := by
  induction l generalizing t with
  | nil => simp
  | cons m ms ih =>
    have h : (match t.insert m with
        | some t' => Tree.insertAll ms t'
        | none => false) = true := by
      cases m <;> simpa only [Tree.insertAll] using h
    cases hi : t.insert m with
    | none => rw [hi] at h; cases h
    | some t' =>
      rw [hi] at h
      obtain ⟨a, b, c⟩ := Tree.insert_spec ho hi
      obtain ⟨d, e⟩ := ih a h
      refine ⟨List.nodup_cons.2 ⟨fun hm => e m hm ((c m).2 (.inl rfl)), d⟩, ?_⟩
      intro k hk
      rcases List.mem_cons.1 hk with rfl | hk
      · exact b
      · intro hk'; exact e k hk ((c k).2 (.inr hk'))

theorem nodup_of_codes {l : List String} (h : Tree.insertAll (l.map fun s => code s.toByteArray.data.toList) .leaf = true) :
    l.Nodup := by
  have := (Tree.insertAll_nodup (t := .leaf) trivial h).1
  exact List.Nodup.of_map _ this

set_option maxRecDepth 20000 in
theorem pairTable_keys_nodup : (pairTable.map fun e => e.1).Nodup :=
  nodup_of_codes (by decide +kernel)

set_option maxRecDepth 20000 in
theorem pairTable_pairs_nodup : (pairTable.map fun e => e.2.1 ++ "/" ++ e.2.2).Nodup :=
  nodup_of_codes (by decide +kernel)

set_option maxRecDepth 20000 in
theorem pairTable_symbols_nodup : (pairTable.map fun e => e.2.1 ++ e.2.2).Nodup :=
  nodup_of_codes (by decide +kernel)

set_option maxRecDepth 20000 in
theorem pairTable_rows : ∀ e ∈ pairTable,
    e.1 ≠ "" ∧ e.2.1 ≠ "" ∧ e.2.2 ≠ "" ∧ e.2.1 ≠ e.2.2 ∧ (e.1 = e.2.1 ++ e.2.2 ∨ e.1 = "DYDXETH") := by
  decide +kernel

end Finmod
