import Verif.Lemmas.JsonHeal
import Verif.Lemmas.JsonMap
import Verif.Props.JsonActions

/-!
# The text of values whose strings are in UTF-8
-/

namespace Finmod.Json
open Go Finmod Spec

/-! ### Order -/

theorem char_lt_iff {a b : Char} : a < b ↔ a.toNat < b.toNat := Iff.rfl

theorem char_eq_iff {a b : Char} : a = b ↔ a.toNat = b.toNat := Char.toNat_inj.symm

/-- A smaller character has smaller bytes. -/
theorem encode_lt {c d : Char} (h : c < d) (r s : List Char) :
    raw (String.utf8EncodeChar c) ++ r < raw (String.utf8EncodeChar d) ++ s := by
  have hc := char_bounds c
  have hd := char_bounds d
  obtain ⟨l, hl, h1⟩ := raw_encode c
  obtain ⟨m, hm, h2⟩ := raw_encode d
  rw [hl, hm]
  rw [char_lt_iff] at h
  rcases h1 with ⟨c1, rfl⟩ | ⟨c1, c2, a, b, rfl, c3, c4⟩ | ⟨c1, c2, a, b, e, rfl, c3, c4, c5⟩ | ⟨c1, a, b, e, f, rfl, c3, c4, c5, c6⟩ <;>
  rcases h2 with ⟨d1, rfl⟩ | ⟨d1, d2, a', b', rfl, d3, d4⟩ | ⟨d1, d2, a', b', e', rfl, d3, d4, d5⟩ | ⟨d1, a', b', e', f', rfl, d3, d4, d5, d6⟩ <;>
  simp only [List.cons_append, List.nil_append, List.cons_lt_cons_iff, char_lt_iff, char_eq_iff] <;> omega

theorem utf8_lt {l m : List Char} (h : l < m) : raw (utf8 l) < raw (utf8 m) := by
  induction l generalizing m with
  | nil =>
    cases m with
    | nil => exact absurd h (List.lt_irrefl _)
    | cons b m =>
      show [] < raw (utf8 (b :: m))
      have : raw (utf8 (b :: m)) ≠ [] := by
        intro e
        have e2 : utf8 (b :: m) = [] := by simpa [raw] using e
        have e3 : String.utf8EncodeChar b ++ utf8 m = [] := e2
        exact encode_ne_nil b (List.append_eq_nil_iff.1 e3).1
      cases hx : raw (utf8 (b :: m)) with
      | nil => exact absurd hx this
      | cons x y => exact List.nil_lt_cons x y
  | cons a l ih =>
    cases m with
    | nil => exact absurd h (List.not_lt_nil _)
    | cons b m =>
      show raw (String.utf8EncodeChar a ++ utf8 l) < raw (String.utf8EncodeChar b ++ utf8 m)
      rw [raw_append, raw_append]
      rcases List.cons_lt_cons_iff.1 h with h | ⟨rfl, hlm⟩
      · exact encode_lt h _ _
      · have : ∀ p : List Char, p ++ raw (utf8 l) < p ++ raw (utf8 m) := by
          intro p
          induction p with
          | nil => exact ih hlm
          | cons x p ihp => exact List.cons_lt_cons_iff.2 (.inr ⟨rfl, ihp⟩)
        exact this _

/-- A string in UTF-8. -/
def utf8Str (s : String) : String := String.ofList (raw (utf8 s.toList))

theorem utf8Str_le (s t : String) : utf8Str s ≤ utf8Str t ↔ s ≤ t := by
  constructor
  · intro h
    by_contra hn
    have : t < s := String.not_le.1 hn
    refine String.not_lt.2 h (String.lt_iff.2 ?_)
    simpa [utf8Str] using utf8_lt (String.lt_iff.1 this)
  · intro h
    by_contra hn
    have h1 : utf8Str t < utf8Str s := String.not_le.1 hn
    have h3 : s < t ∨ s = t ∨ t < s := by
      rcases Decidable.em (t < s) with h2 | h2
      · exact .inr (.inr h2)
      · rcases Decidable.em (s < t) with h3 | h3
        · exact .inl h3
        · exact .inr (.inl (String.le_antisymm (String.not_lt.1 h2) (String.not_lt.1 h3)))
    rcases h3 with h2 | rfl | h2
    · have : utf8Str s < utf8Str t := String.lt_iff.2 (by simpa [utf8Str] using utf8_lt (String.lt_iff.1 h2))
      exact String.lt_irrefl _ (String.lt_trans this h1)
    · exact String.lt_irrefl _ h1
    · exact String.not_lt.2 h h2

/-! ### Texts -/

/-- The text of a value with strings of bytes is the UTF-8 of the text of a value with strings of characters. -/
def Same (short : Bool) (j j' : J) : Prop := j.emitB short = raw (utf8 (j'.emit short))

/-- Values written alike. -/
def TextB {α : Type} (short : Bool) (c : Codec α) (v w : α) : Prop := Option.Rel (Same short) (c.enc v) (c.enc w)

variable {short : Bool}

theorem quote_utf8 (s : List Char) : quote short (raw (utf8 s)) = raw (utf8 (emitStr short s)) := by
  have h := (C186_text short (utf8 s)).2 s rfl
  obtain ⟨t, h1, -, -⟩ := quote_value short (raw (utf8 s))
  have : quoteBytes short (utf8 s) = utf8 t := by
    unfold quoteBytes; rw [h1, unraw_raw]
  rw [h1, ← this, h]

theorem same_ascii {j j' : J} (h : j.emitB short = j'.emit short) (ha : ∀ c ∈ j'.emit short, c.toNat < 0x80) : Same short j j' := by
  rw [Same, h, raw_ascii ha]

theorem digits_ascii (n : Nat) : ∀ c ∈ Nat.toDigits 10 n, c.toNat < 0x80 := fun _ h => digit_ascii (digitC_toDigits h)

theorem textB_int (n : Int) : TextB short Codec.int n n := by
  refine .some (same_ascii (by simp [J.emitB, J.emit]) ?_)
  rw [J.emit]
  exact numLit_ascii (jsonInt_numLit n)

theorem textB_bool (b : Bool) : TextB short Codec.bool b b := by
  refine .some ?_
  cases b <;> exact same_ascii (by simp [J.emitB, J.emit]) (by rw [J.emit]; decide)

theorem jsonFloat_ascii {S : FloatSem} {pick : ℚ → Nat × ℤ} {x : Fl} {s : List Char} (h : jsonFloat S pick x = some s) :
    ∀ c ∈ s, c.toNat < 0x80 := by
  have hx : ∀ e, ∀ c ∈ jsonExp e, c.toNat < 0x80 := by
    intro e c hc
    unfold jsonExp at hc
    split_ifs at hc
    · rcases List.mem_cons.1 hc with rfl | hc
      · decide
      · exact digits_ascii _ c hc
    · unfold fmtExp at hc
      rcases List.mem_cons.1 hc with rfl | hc
      · split <;> decide
      · split_ifs at hc
        · rcases List.mem_cons.1 hc with rfl | hc
          · decide
          · exact digits_ascii _ c hc
        · exact digits_ascii _ c hc
  have ht : ∀ ds : List Char, (∀ c ∈ ds, c.toNat < 0x80) → ∀ dp, (∀ c ∈ jsonE ds dp, c.toNat < 0x80) ∧
      ∀ c ∈ fmtF ds dp, c.toNat < 0x80 := by
    intro ds hd dp
    constructor
    · intro c hc
      unfold jsonE at hc
      split at hc
      · simp at hc
      · simp only [List.mem_cons] at hc
        rcases hc with rfl | rfl | hc
        · exact hd _ (by simp)
        · decide
        · exact hx _ c hc
      · simp only [List.mem_cons, List.mem_append] at hc
        rcases hc with rfl | rfl | hc | rfl | hc
        · exact hd _ (by simp)
        · decide
        · exact hd _ (by simp [hc])
        · decide
        · exact hx _ c hc
    · intro c hc
      unfold fmtF at hc
      split_ifs at hc
      · rcases List.mem_append.1 hc with hc | hc
        · exact hd c hc
        · rw [(List.mem_replicate.1 hc).2]; decide
      · simp only [List.mem_cons, List.mem_append] at hc
        rcases hc with hc | rfl | hc
        · exact hd c (List.mem_of_mem_take hc)
        · decide
        · exact hd c (List.mem_of_mem_drop hc)
      · simp only [List.mem_cons, List.mem_append] at hc
        rcases hc with rfl | rfl | hc | hc
        · decide
        · decide
        · rw [(List.mem_replicate.1 hc).2]; decide
        · exact hd c hc
  cases x with
  | nan => simp [jsonFloat] at h
  | inf _ => simp [jsonFloat] at h
  | negZero =>
    obtain rfl := Option.some.inj h
    decide
  | fin q =>
    by_cases hq : q = 0
    · rw [jsonFloat, if_pos hq] at h
      obtain rfl := Option.some.inj h
      decide
    · rw [jsonFloat, if_neg hq] at h
      obtain rfl := Option.some.inj h
      have hd := digits_ascii (pick |q|).1
      intro c hc
      split_ifs at hc
      · rcases List.mem_cons.1 hc with rfl | hc
        · decide
        · exact (ht _ hd _).1 c hc
      · rcases List.mem_cons.1 hc with rfl | hc
        · decide
        · exact (ht _ hd _).2 c hc
      · exact (ht _ hd _).1 c hc
      · exact (ht _ hd _).2 c hc

theorem textB_float (S : FloatSem) (pick : ℚ → Nat × ℤ) (x : Fl) : TextB short (Codec.float S pick) x x := by
  unfold TextB
  show Option.Rel _ ((jsonFloat S pick x).map J.num) ((jsonFloat S pick x).map J.num)
  cases h : jsonFloat S pick x with
  | none => exact .none
  | some s => exact .some (same_ascii (by simp [J.emitB, J.emit]) (by rw [J.emit]; exact jsonFloat_ascii h))

theorem textB_str (s : String) : TextB short Codec.str (utf8Str s) s := by
  refine .some ?_
  rw [Same, J.emitB, J.emit]
  simp only [utf8Str, String.toList_ofList]
  exact quote_utf8 _

theorem textB_time {zero : Int} {kept : Bool} {write : Int → Option (List Char)} {read : List Char → Option Int}
    (h8 : ∀ t s, write t = some s → ∀ c ∈ s, c.toNat < 0x80) (t : Int) : TextB short (Codec.time zero kept write read) t t := by
  show Option.Rel (Same short) ((write t).map fun s => J.str s (asIs s)) ((write t).map fun s => J.str s (asIs s))
  cases h : write t with
  | none => exact .none
  | some s =>
    refine .some ?_
    rw [Same, J.emitB, J.emit, ← quote_utf8, raw_ascii (h8 t s h)]

theorem textB_ptr {α : Type} {c : Codec α} {o : Option α} {g : α → α} (h : ∀ v, TextB short c (g v) v) :
    TextB short c.ptr (o.map g) o := by
  cases o with
  | none => exact .some (same_ascii (by simp [J.emitB, J.emit]) (by rw [J.emit]; decide))
  | some v => exact h v

theorem same_elems {js js' : List J} (h : List.Forall₂ (Same short) js js') :
    J.emitElemsB short js = raw (utf8 (J.emitElems short js')) := by
  induction h with
  | nil => rw [J.emitElemsB, J.emitElems, raw_ascii (by decide)]
  | cons h0 _ ih => rw [J.emitElemsB, J.emitElems, ih, h0, raw_cat, raw_cons (by decide)]

theorem same_arr {js js' : List J} (h : List.Forall₂ (Same short) js js') : Same short (.arr js) (.arr js') := by
  cases h with
  | nil => exact same_ascii (by rw [J.emitB, J.emit]) (by rw [J.emit]; decide)
  | cons h0 h1 => rw [Same, J.emitB, J.emit, same_elems h1, h0, raw_cat, raw_cons (by decide)]

/-- Members written alike. -/
def SameMember (short : Bool) (m m' : List Char × J) : Prop := m.1 = raw (utf8 m'.1) ∧ Same short m.2 m'.2

theorem same_members {ms ms' : List (List Char × J)} (h : List.Forall₂ (SameMember short) ms ms') :
    J.emitMembersB short ms = raw (utf8 (J.emitMembers short ms')) := by
  induction h with
  | nil => rw [J.emitMembersB, J.emitMembers, raw_ascii (by decide)]
  | @cons m m' ms ms' h0 _ ih =>
    obtain ⟨k, v⟩ := m
    obtain ⟨k', v'⟩ := m'
    obtain ⟨rfl, h0⟩ := h0
    rw [J.emitMembersB, J.emitMembers, ih, h0, quote_utf8, raw_cat, raw_cons (by decide), raw_cat, raw_cons (by decide)]

theorem same_obj {ms ms' : List (List Char × J)} (h : List.Forall₂ (SameMember short) ms ms') :
    Same short (.obj ms) (.obj ms') := by
  cases h with
  | nil => exact same_ascii (by rw [J.emitB, J.emit]) (by rw [J.emit]; decide)
  | @cons m m' ms ms' h0 h1 =>
    obtain ⟨k, v⟩ := m
    obtain ⟨k', v'⟩ := m'
    obtain ⟨rfl, h0⟩ := h0
    rw [Same, J.emitB, J.emit, same_members h1, h0, quote_utf8, raw_cat, raw_cons (by decide), raw_cat, raw_cons (by decide)]

theorem rel_map {α β γ δ : Type} {R : α → β → Prop} {S : γ → δ → Prop} {f : α → γ} {g : β → δ} {o : Option α} {p : Option β}
    (h : Option.Rel R o p) (hs : ∀ a b, R a b → S (f a) (g b)) : Option.Rel S (o.map f) (p.map g) := by
  cases h with
  | none => exact .none
  | some h => exact .some (hs _ _ h)

theorem rel_mapM {α β γ δ : Type} {R : α → γ → Prop} {S : β → δ → Prop} {f : α → Option β} {g : γ → Option δ} {l : List α} {m : List γ}
    (h : List.Forall₂ R l m) (hs : ∀ a c, R a c → Option.Rel S (f a) (g c)) :
    Option.Rel (List.Forall₂ S) (l.mapM f) (m.mapM g) := by
  induction h with
  | nil => exact .some .nil
  | @cons v w l m h0 _ ih =>
    rw [List.mapM_cons, List.mapM_cons]
    have h1 := hs _ _ h0
    cases hf : f v <;> cases hg : g w <;> rw [hf, hg] at h1
    · exact .none
    · nomatch h1
    · nomatch h1
    · cases h1 with
      | some h1 =>
        cases hf2 : l.mapM f <;> cases hg2 : m.mapM g <;> rw [hf2, hg2] at ih
        · exact .none
        · nomatch ih
        · nomatch ih
        · cases ih with
          | some h2 => exact .some (.cons h1 h2)

theorem forall₂_map {α : Type} (g : α → α) (l : List α) : List.Forall₂ (fun a b => a = g b) (l.map g) l := by
  induction l with
  | nil => exact .nil
  | cons a l ih => exact .cons rfl ih

theorem textB_slice {α : Type} {c : Codec α} {isNil : Bool} {stale : List α → List α} {l : List α} {g : α → α}
    (h : ∀ v, TextB short c (g v) v) : TextB short (Codec.slice isNil stale c) (l.map g) l := by
  unfold TextB
  show Option.Rel _ (if isNil && (l.map g).isEmpty then some J.null else ((l.map g).mapM c.enc).map J.arr)
    (if isNil && l.isEmpty then some J.null else (l.mapM c.enc).map J.arr)
  rw [List.isEmpty_map]
  split_ifs with hn
  · exact .some (same_ascii (by rw [J.emitB, J.emit]) (by rw [J.emit]; decide))
  · exact rel_map (rel_mapM (forall₂_map g l) (by rintro a c rfl; exact h c)) fun _ _ h => same_arr h

theorem textB_field {α ρ : Type} {c : Codec α} {name : String} {get : ρ → α} {set : ρ → α → ρ} {r r' : ρ}
    (hname : name.toList.all fun c => decide (c.toNat < 0x80)) (h : TextB short c (get r) (get r')) :
    (∀ x ∈ (c.field name get set).name.toList, x.toNat < 0x80) ∧
      Option.Rel (Same short) ((c.field name get set).enc r) ((c.field name get set).enc r') :=
  ⟨by simpa [Codec.field] using hname, h⟩

theorem textB_struct {ρ : Type} {zero : ρ} {fs : List (JField ρ)} {r r' : ρ}
    (hf : ∀ f ∈ fs, (∀ x ∈ f.name.toList, x.toNat < 0x80) ∧ Option.Rel (Same short) (f.enc r) (f.enc r')) :
    TextB short (Codec.struct zero fs) r r' := by
  have hv : List.Forall₂ (fun f g : JField ρ => f = g ∧ f ∈ fs) (visible fs) (visible fs) := by
    have : ∀ gs : List (JField ρ), (∀ g ∈ gs, g ∈ fs) → List.Forall₂ (fun f g : JField ρ => f = g ∧ f ∈ fs) gs gs := by
      intro gs h
      induction gs with
      | nil => exact .nil
      | cons g gs ih => exact .cons ⟨rfl, h g (by simp)⟩ (ih fun x hx => h x (by simp [hx]))
    exact this _ fun g hg => (List.mem_filter.1 hg).1
  refine rel_map (rel_mapM hv ?_) fun _ _ h => same_obj h
  rintro f _ ⟨rfl, hm⟩
  exact rel_map (hf f hm).2 fun _ _ h => ⟨(raw_ascii (hf f hm).1).symm, h⟩

theorem textB_map {α : Type} {c : Codec α} {m : GoMap α} {g : α → α} (h : ∀ v, TextB short c (g v) v) :
    TextB short c.map (m.map fun l => l.map fun e => (utf8Str e.1, g e.2)) m := by
  cases m with
  | none => exact .some (same_ascii (by rw [J.emitB, J.emit]) (by rw [J.emit]; decide))
  | some l =>
    have hs : ∀ k : List (String × α), c.map.enc (some k) = ((sortMap k).mapM fun (e : String × α) =>
        (c.enc e.2).map fun j => (e.1.toList, j)).map J.obj := fun _ => rfl
    rw [TextB, Option.map_some, hs, hs]
    have hm : sortMap (l.map fun e => (utf8Str e.1, g e.2)) = (sortMap l).map fun e => (utf8Str e.1, g e.2) := by
      refine (List.map_mergeSort ?_).symm
      intro a _ b _
      exact decide_eq_decide.2 (utf8Str_le a.1 b.1).symm
    rw [hm]
    generalize sortMap l = l
    have : List.Forall₂ (fun a b : String × α => a = (utf8Str b.1, g b.2)) (l.map fun e => (utf8Str e.1, g e.2)) l := by
      induction l with
      | nil => exact .nil
      | cons a l ih => exact .cons rfl ih
    refine rel_map (rel_mapM this ?_) fun _ _ h => same_obj h
    rintro _ b rfl
    exact rel_map (h b.2) fun _ _ h => ⟨by simp [utf8Str], h⟩

theorem marshalB_text {α : Type} {c : Codec α} {v w : α} (h : TextB short c v w) :
    c.marshalB short v = (c.marshal short w).map utf8 := by
  unfold TextB at h
  unfold Codec.marshalB Codec.marshal
  cases hv : c.enc v <;> cases hw : c.enc w <;> rw [hv, hw] at h
  · rfl
  · nomatch h
  · nomatch h
  · cases h with
    | some h => simp only [Option.map_some]; rw [h, unraw_raw]

end Finmod.Json
