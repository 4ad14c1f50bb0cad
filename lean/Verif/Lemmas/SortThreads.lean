import Verif.Go.SortThreads

/-! The programs of `Go/SortThreads.lean` do in memory what those of `Go/Sort.lean` do with a list. -/

namespace Go.Sort
open Go Go.Heap

variable {α R Q : Type}

/-- The program `p` looks at `s` and finds what `f` says of its elements. -/
def Looks (s : Slice) (p : HProg α (Option R)) (f : List α → Option R) : Prop :=
  ∀ (view own : Cells) (h : Heap α) (post : Heap α → Cells → Option R → Prop) (r : R), OwnsAll own s →
    f (h.load s) = some r → post h own (some r) → Safe view p h own post

/-- The program `p` makes of the elements of `s` what `f` makes of the list. -/
def Makes (s : Slice) (p : HProg α (Option Unit)) (f : List α → Option (List α)) : Prop :=
  (∀ l l', f l = some l' → l'.length = l.length) ∧
  ∀ (view own : Cells) (h : Heap α) (post : Heap α → Cells → Option Unit → Prop) (l' : List α), OwnsAll own s →
    f (h.load s) = some l' → post (h.store s.arr s.off l') own (some ()) → Safe view p h own post

theorem store_load (h : Heap α) (s : Slice) : h.store s.arr s.off (h.load s) = h := by
  obtain ⟨cell, next⟩ := h
  simp only [Heap.store, Heap.mk.injEq, and_true]
  funext b j
  split
  · rename_i hc
    obtain ⟨rfl, hj⟩ := hc
    rw [getElem?_load]
    split
    · rw [show s.off + (j - s.off) = j by omega]; rfl
    · rfl
  · rfl

theorem load_store_all {h : Heap α} {s : Slice} {l : List α} (hl : l.length = s.len) : (h.store s.arr s.off l).load s = l := by
  apply List.ext_getElem?
  intro j
  rw [getElem?_load]
  split
  · rename_i hj
    simp only [Heap.store]
    rw [if_pos ⟨trivial, by omega⟩, show s.off + j - s.off = j by omega, List.getElem?_eq_getElem (by omega)]
    rfl
  · rw [List.getElem?_eq_none (by omega)]

theorem store_store (h : Heap α) {a i : Nat} {l l' : List α} (hl : l.length = l'.length) :
    (h.store a i l).store a i l' = h.store a i l' := by
  obtain ⟨cell, next⟩ := h
  simp only [Heap.store, Heap.mk.injEq, and_true]
  funext b j
  split
  · rcases Nat.lt_or_ge (j - i) l.length with h1 | h1
    · rw [List.getElem?_eq_getElem (by omega : j - i < l'.length)]; rfl
    · rw [List.getElem?_eq_none h1]; rfl
  · rfl

theorem store_set (h : Heap α) {s : Slice} {l : List α} {i : Nat} (hl : l.length = s.len) (hi : i < s.len) (x : α) :
    (h.store s.arr s.off l).store s.arr (s.off + i) [x] = h.store s.arr s.off (l.set i x) := by
  obtain ⟨cell, next⟩ := h
  simp only [Heap.store, Heap.mk.injEq, and_true]
  funext b j
  by_cases hb : b = s.arr
  · subst hb
    rcases Nat.lt_trichotomy j (s.off + i) with h1 | h1 | h1
    · rw [if_neg (by omega)]
      split
      · rw [List.getElem?_set_ne (by omega)]
      · rfl
    · subst h1
      simp [show i < l.length by omega]
    · rw [if_pos ⟨rfl, by omega⟩, if_pos ⟨rfl, by omega⟩, if_pos ⟨rfl, by omega⟩, List.getElem?_set_ne (by omega),
        List.getElem?_eq_none (by simp; omega)]
      rfl
  · simp [hb]

section
variable {s : Slice}

theorem Looks.congr {p : HProg α (Option R)} {f g : List α → Option R} (h : Looks s p f) (e : ∀ l, g l = f l) : Looks s p g :=
  fun view own hp post r ho he hx => h view own hp post r ho (by rw [← e]; exact he) hx

theorem Makes.congr {p : HProg α (Option Unit)} {f g : List α → Option (List α)} (h : Makes s p f) (e : ∀ l, g l = f l) :
    Makes s p g := by
  have : g = f := funext e
  rw [this]; exact h

theorem looks_done (r : R) : Looks s (.done (some r)) (fun _ : List α => some r) := by
  intro view own h post r' _ e hp
  cases e; exact hp

theorem looks_none : Looks s (.done none) (fun _ : List α => (none : Option R)) := by
  intro view own h post r' _ e hp
  cases e

theorem makes_fine : Makes s fine (fun l : List α => some l) := by
  refine ⟨fun l l' e => by cases e; rfl, ?_⟩
  intro view own h post l' _ e hp
  cases e
  rw [store_load] at hp
  exact hp

theorem makes_none : Makes s (.done none) (fun _ : List α => none) := by
  refine ⟨fun l l' e => (by cases e), ?_⟩
  intro view own h post r' _ e hp
  cases e

theorem Looks.then {p : HProg α (Option R)} {f : List α → Option R} (hp : Looks s p f) {q : R → HProg α (Option Q)}
    {g : R → List α → Option Q} (hq : ∀ r, Looks s (q r) (g r)) :
    Looks s (andThen p q) (fun l => match f l with | none => none | some r => g r l) := by
  intro view own h post r ho e hx
  refine safe_bind _ _ _ ?_
  cases hf : f (h.load s) with
  | none => simp only [hf] at e; cases e
  | some r' =>
    simp only [hf] at e
    exact hp view own h _ r' ho hf (hq r' view own h post r ho e hx)

theorem Looks.make {p : HProg α (Option R)} {f : List α → Option R} (hp : Looks s p f) {q : R → HProg α (Option Unit)}
    {g : R → List α → Option (List α)} (hq : ∀ r, Makes s (q r) (g r)) :
    Makes s (andThen p q) (fun l => match f l with | none => none | some r => g r l) := by
  constructor
  · intro l l' e
    cases hf : f l with
    | none => simp only [hf] at e; cases e
    | some r => simp only [hf] at e; exact (hq r).1 l l' e
  · intro view own h post l' ho e hx
    refine safe_bind _ _ _ ?_
    cases hf : f (h.load s) with
    | none => simp only [hf] at e; cases e
    | some r =>
      simp only [hf] at e
      exact hp view own h _ r ho hf ((hq r).2 view own h post l' ho e hx)

theorem Makes.then {p : HProg α (Option Unit)} {f : List α → Option (List α)} (hp : Makes s p f)
    {q : HProg α (Option Unit)} {g : List α → Option (List α)} (hq : Makes s q g) :
    Makes s (andThen p fun _ => q) (fun l => match f l with | none => none | some l' => g l') := by
  constructor
  · intro l l' e
    cases hf : f l with
    | none => simp only [hf] at e; cases e
    | some m => simp only [hf] at e; exact (hq.1 m l' e).trans (hp.1 l m hf)
  · intro view own h post l' ho e hx
    refine safe_bind _ _ _ ?_
    cases hf : f (h.load s) with
    | none => simp only [hf] at e; cases e
    | some m =>
      simp only [hf] at e
      have hm : m.length = s.len := (hp.1 _ _ hf).trans (length_load h s)
      refine hp.2 view own h _ m ho hf (hq.2 view own _ post l' ho ?_ ?_)
      · rw [load_store_all hm]; exact e
      · rw [store_store h (hq.1 m l' e).symm]; exact hx

theorem makes_ite {p q : HProg α (Option Unit)} {f g : List α → Option (List α)} (c : Prop) [Decidable c]
    (hp : Makes s p f) (hq : Makes s q g) : Makes s (if c then p else q) (fun l => if c then f l else g l) := by
  by_cases h : c
  · simp only [if_pos h]; exact hp
  · simp only [if_neg h]; exact hq

theorem looks_ite {p q : HProg α (Option R)} {f g : List α → Option R} (c : Prop) [Decidable c]
    (hp : Looks s p f) (hq : Looks s q g) : Looks s (if c then p else q) (fun l => if c then f l else g l) := by
  by_cases h : c
  · simp only [if_pos h]; exact hp
  · simp only [if_neg h]; exact hq

variable (hw : s.len ≤ s.cap)
include hw

theorem looks_less (lt : α → α → Bool) (i j : Nat) : Looks s (lessP lt s i j) (fun l => less? lt l i j) := by
  intro view own h post r ho e hp
  unfold lessP
  unfold less? at e
  beta_reduce at e
  rw [getElem?_load, getElem?_load] at e
  by_cases hc : i < s.len ∧ j < s.len
  · rw [if_pos hc]
    rw [if_pos hc.1, if_pos hc.2] at e
    cases e
    exact ⟨.inl (ho _ _ ⟨rfl, by omega, by omega⟩), .inl (ho _ _ ⟨rfl, by omega, by omega⟩), hp⟩
  · exfalso
    split at e
    · rename_i h1 h2
      split at h1 <;> split at h2 <;> first | (cases h1; done) | (cases h2; done) | exact hc ⟨‹_›, ‹_›⟩
    · cases e

theorem makes_swap (i j : Nat) : Makes (α := α) s (swapP s i j) (fun l => swap? l i j) := by
  constructor
  · intro l l' e
    unfold swap? at e
    beta_reduce at e
    split at e
    · cases e; simp
    · cases e
  · intro view own h post l' ho e hp
    unfold swapP
    unfold swap? at e
    beta_reduce at e
    rw [getElem?_load, getElem?_load] at e
    by_cases hc : i < s.len ∧ j < s.len
    · rw [if_pos hc]
      rw [if_pos hc.1, if_pos hc.2] at e
      cases e
      have mine : ∀ k, k < s.len → own s.arr (s.off + k) := fun k hk => ho _ _ ⟨rfl, by omega, by omega⟩
      refine ⟨.inl (mine i hc.1), .inl (mine j hc.2), mine i hc.1, mine j hc.2, ?_⟩
      have e1 : h.store s.arr (s.off + i) [h.cell s.arr (s.off + j)] =
          h.store s.arr s.off ((h.load s).set i (h.cell s.arr (s.off + j))) := by
        rw [← store_set h (length_load h s) hc.1, store_load]
      show post _ own (some ())
      rw [e1, store_set h (by rw [List.length_set, length_load]) hc.2]
      exact hp
    · exfalso
      split at e
      · rename_i h1 h2
        split at h1 <;> split at h2 <;> first | (cases h1; done) | (cases h2; done) | exact hc ⟨‹_›, ‹_›⟩
      · cases e

theorem makes_sink (lt : α → α → Bool) (a : Nat) : ∀ j, Makes s (sinkP lt s a j) (sink lt a j)
  | 0 => makes_fine.congr fun l => rfl
  | j + 1 => by
    refine (makes_ite (j + 1 > a) (g := some) ((looks_less hw lt (j + 1) j).make (g := fun b l => if b then
      (match swap? l (j + 1) j with | none => none | some l' => sink lt a j l') else some l) fun b =>
        makes_ite (b = true) ((makes_swap hw (j + 1) j).then (makes_sink lt a j)) makes_fine) makes_fine).congr fun l => ?_
    simp only [sink]
    split
    · cases less? lt l (j + 1) j with
      | none => rfl
      | some b => cases b <;> rfl
    · rfl

theorem makes_insertionLoop (lt : α → α → Bool) (a : Nat) : ∀ k i, Makes s (insertionLoopP lt s a k i) (insertionLoop lt a k i)
  | 0, _ => makes_fine.congr fun l => rfl
  | k + 1, i => ((makes_sink hw lt a i).then (makes_insertionLoop lt a k (i + 1))).congr fun l => by
      rw [insertionLoop]; rfl

theorem makes_insertionSort (lt : α → α → Bool) (a b : Nat) : Makes s (insertionSortP lt s a b) (insertionSort lt a b) :=
  makes_insertionLoop hw lt a _ _

omit hw in
theorem looks_search {p : Nat → HProg α (Option Bool)} {f : List α → Nat → Option Bool}
    (hp : ∀ h, Looks s (p h) (fun l => f l h)) : ∀ fuel i j, Looks s (searchP p fuel i j) (fun l => search (f l) fuel i j)
  | 0, i, j => (looks_ite (i < j) looks_none (looks_done i)).congr fun l => by rw [search]
  | fuel + 1, i, j => by
    refine (looks_ite (i < j) ((hp ((i + j) / 2)).then (g := fun b l => if b then search (f l) fuel ((i + j) / 2 + 1) j
      else search (f l) fuel i ((i + j) / 2)) fun b => looks_ite (b = true) (looks_search hp fuel _ _) (looks_search hp fuel _ _))
      (looks_done i)).congr fun l => ?_
    rw [search]
    split
    · cases f l ((i + j) / 2) with
      | none => rfl
      | some b => cases b <;> rfl
    · rfl

theorem makes_swapRange : ∀ n a b, Makes (α := α) s (swapRangeP s a b n) (fun l => swapRange l a b n)
  | 0, _, _ => makes_fine.congr fun l => by rw [swapRange]
  | n + 1, a, b => ((makes_swap hw a b).then (makes_swapRange n (a + 1) (b + 1))).congr fun l => by rw [swapRange]; rfl

theorem makes_rotateLoop (m : Nat) : ∀ fuel i j, Makes (α := α) s (rotateLoopP s m fuel i j) (rotateLoop m fuel i j)
  | 0, _, _ => makes_none.congr fun l => rfl
  | fuel + 1, i, j => by
    refine (makes_ite (i = j) (makes_swapRange hw i (m - i) m) (makes_ite (i > j)
      ((makes_swapRange hw j (m - i) m).then (makes_rotateLoop m fuel (i - j) j))
      ((makes_swapRange hw i (m - i) (m + j - i)).then (makes_rotateLoop m fuel i (j - i))))).congr fun l => ?_
    rw [rotateLoop]; rfl

theorem makes_rotate (a m b : Nat) : Makes (α := α) s (rotateP s a m b) (rotate a m b) := makes_rotateLoop hw m _ _ _

theorem makes_carryUp : ∀ n k, Makes (α := α) s (carryUpP s n k) (carryUp n k)
  | 0, _ => makes_fine.congr fun l => rfl
  | n + 1, k => ((makes_swap hw k (k + 1)).then (makes_carryUp n (k + 1))).congr fun l => by rw [carryUp]; rfl

theorem makes_carryDown (i : Nat) : ∀ k, Makes (α := α) s (carryDownP s i k) (carryDown i k)
  | 0 => makes_fine.congr fun l => rfl
  | k + 1 => (makes_ite (k + 1 > i) ((makes_swap hw (k + 1) k).then (makes_carryDown i k)) makes_fine).congr fun l => by
      rw [carryDown]; rfl

omit hw in
theorem looks_not {p : HProg α (Option Bool)} {f : List α → Option Bool} (hp : Looks s p f) :
    Looks s (notP p) (fun l => (f l).map (!·)) :=
  (hp.then (g := fun b _ => some !b) fun b => looks_done (!b)).congr fun l => by cases f l <;> rfl

theorem looks_notLessMirror (lt : α → α → Bool) (p c : Nat) :
    Looks s (notLessMirrorP lt s p c) (fun l => notLessMirror lt l p c) :=
  looks_ite (c ≤ p) (looks_not (looks_less hw lt (p - c) c)) looks_none

theorem makes_symMerge (lt : α → α → Bool) : ∀ fuel a m b, Makes s (symMergeP lt s fuel a m b) (symMerge lt fuel a m b)
  | 0, _, _, _ => makes_none.congr fun l => rfl
  | fuel + 1, a, m, b => by
    refine (makes_ite (m - a = 1)
      ((looks_search (fun h => looks_less hw lt h a) (b - m) m b).make fun i => makes_carryUp hw (i - 1 - a) a)
      (makes_ite (b - m = 1)
        ((looks_search (fun h => looks_not (looks_less hw lt m h)) (m - a) a m).make fun i => makes_carryDown hw i m)
        ((looks_search (fun c => looks_notLessMirror hw lt ((a + b) / 2 + m - 1) c) _ _ _).make fun start =>
          (makes_ite _ (makes_rotate hw start m _) makes_fine).then
            ((makes_ite _ (makes_symMerge lt fuel a start _) makes_fine).then
              (makes_ite _ (makes_symMerge lt fuel _ _ b) makes_fine))))).congr fun l => ?_
    rw [symMerge]
    split
    · cases search (fun h => less? lt l h a) (b - m) m b <;> rfl
    · split
      · cases search (fun h => Option.map (fun x => !x) (less? lt l m h)) (m - a) a m <;> rfl
      · dsimp only
        cases search (notLessMirror lt l ((a + b) / 2 + m - 1)) ((if m > (a + b) / 2 then (a + b) / 2 else m) -
          if m > (a + b) / 2 then (a + b) / 2 + m - b else a) (if m > (a + b) / 2 then (a + b) / 2 + m - b else a)
          (if m > (a + b) / 2 then (a + b) / 2 else m) with
        | none => rfl
        | some r =>
          dsimp only
          cases (if r < m ∧ m < (a + b) / 2 + m - r then rotate r m ((a + b) / 2 + m - r) l else some l) with
          | none => rfl
          | some l1 =>
            dsimp only
            cases (if a < r ∧ r < (a + b) / 2 then symMerge lt fuel a r ((a + b) / 2) l1 else some l1) <;> rfl

theorem makes_sortBlocks (lt : α → α → Bool) (bs n : Nat) : ∀ fuel a, Makes s (sortBlocksP lt s bs n fuel a) (sortBlocks lt bs n fuel a)
  | 0, _ => makes_none.congr fun l => rfl
  | fuel + 1, a => (makes_ite (a + bs ≤ n) ((makes_insertionSort hw lt a (a + bs)).then (makes_sortBlocks lt bs n fuel (a + bs)))
      (makes_insertionSort hw lt a n)).congr fun l => by rw [sortBlocks]; rfl

theorem makes_mergePass (lt : α → α → Bool) (bs n : Nat) : ∀ fuel a, Makes s (mergePassP lt s bs n fuel a) (mergePass lt bs n fuel a)
  | 0, _ => makes_none.congr fun l => rfl
  | fuel + 1, a => (makes_ite (a + 2 * bs ≤ n)
      ((makes_symMerge hw lt (2 * bs) a (a + bs) (a + 2 * bs)).then (makes_mergePass lt bs n fuel (a + 2 * bs)))
      (makes_ite (a + bs < n) (makes_symMerge hw lt (n - a) a (a + bs) n) makes_fine)).congr fun l => by rw [mergePass]; rfl

theorem makes_mergeLoop (lt : α → α → Bool) (n : Nat) : ∀ fuel bs, Makes s (mergeLoopP lt s n fuel bs) (mergeLoop lt n fuel bs)
  | 0, _ => makes_none.congr fun l => rfl
  | fuel + 1, bs => (makes_ite (bs < n) ((makes_mergePass hw lt bs n (n + 1) 0).then (makes_mergeLoop lt n fuel (2 * bs)))
      makes_fine).congr fun l => by rw [mergeLoop]; rfl

/-- The sort in memory ends as the sort of the list. -/
theorem safe_sliceStable (lt : α → α → Bool) {view own : Cells} {h : Heap α} {post : Heap α → Cells → Option Unit → Prop}
    (ho : OwnsAll own s) {l' : List α} (e : sliceStable lt (h.load s) = some l')
    (hp : post (h.store s.arr s.off l') own (some ())) : Safe view (sliceStableP lt s) h own post := by
  refine ((makes_sortBlocks hw lt 20 s.len (s.len + 1) 0).then (makes_mergeLoop hw lt s.len (s.len + 1) 20)).2
    view own h post l' ho ?_ hp
  rw [sliceStable, length_load] at e
  exact e

end

end Go.Sort
