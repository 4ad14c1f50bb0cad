import Verif.Props.JsonBytes

/-!
# What is read of a text written with Go strings of any bytes
-/

namespace Go

mutual
/-- The value read back from the text of a value with Go strings. -/
def J.heal (short : Bool) : J → J
  | .null => .null
  | .bool b => .bool b
  | .num lit => .num lit
  | .str s _ => .str (runes s) (!(quoteN short s.length s).contains '\\')
  | .arr l => .arr (J.healElems short l)
  | .obj l => .obj (J.healMembers short l)
/-- The same for elements. -/
def J.healElems (short : Bool) : List J → List J
  | [] => []
  | v :: vs => v.heal short :: J.healElems short vs
/-- The same for members. -/
def J.healMembers (short : Bool) : List (List Char × J) → List (List Char × J)
  | [] => []
  | (k, v) :: ms => (runes k, v.heal short) :: J.healMembers short ms
end

end Go

namespace Finmod.Json
open Go Finmod Spec

theorem runes_utf8 (t : List Char) : runes (raw (utf8 t)) = t := reads_runes (C186_utf8 t)

theorem quote_value (short : Bool) (s : List Char) : ∃ t, quote short s = raw (utf8 t) ∧ Str t (runes s) ∧
    ('\\' ∉ t ↔ '\\' ∉ quoteN short s.length s) := by
  obtain ⟨t, h1, h2, -⟩ := quote_text short _ s le_rfl
  have hq : scanStr none ['"'] = some ([], []) := by decide
  have hs : scanStr none (t ++ ['"']) = some (runes s, []) := by rw [h2, hq]; simp
  obtain ⟨u, hu, hstr⟩ := scanStr_str hs
  rw [List.append_nil] at hu
  have q : raw (utf8 ['"']) = ['"'] := raw_ascii (by decide)
  refine ⟨u, ?_, hstr, ?_⟩
  · rw [quote, h1, ← hu, show '"' :: (t ++ ['"']) = ['"'] ++ (t ++ ['"']) from rfl, utf8_append, utf8_append, raw_append,
      raw_append, q]
    rfl
  · have := mem_runes (x := '\\') (by decide) _ (raw (utf8 t)) le_rfl
    rw [runes_utf8] at this
    rw [← hu, h1, ← this]
    simp

theorem numLit_ascii {s : List Char} (h : NumLit s) : ∀ c ∈ s, c.toNat < 0x80 := by
  obtain ⟨neg, a, A, P, r, rfl, ha, hA, h0, hP, hr⟩ := h
  intro c hc
  simp only [List.mem_append, List.mem_cons] at hc
  rcases hc with hc | (rfl | hc) | hc | hc
  · cases neg <;> simp [signText] at hc
    subst hc; decide
  · exact digit_ascii ha
  · exact digit_ascii (hA c hc)
  · rcases hP with rfl | ⟨B, rfl, -, hB⟩
    · simp at hc
    · rcases List.mem_cons.1 hc with rfl | hc
      · decide
      · exact digit_ascii (hB c hc)
  · rcases hr with rfl | ⟨sg, D, rfl, hsg, -, hD⟩
    · simp at hc
    · simp only [List.mem_cons] at hc
      rcases hc with rfl | rfl | hc
      · decide
      · rcases hsg with rfl | rfl <;> decide
      · exact digit_ascii (hD c hc)

theorem numLit_number {s : List Char} (h : NumLit s) : Number s := by
  have := scanNum_append h (rest := []) (by intro c cs h; simp at h)
  exact (scanNum_sound this).2

theorem raw_cons {a : Char} (ha : a.toNat < 0x80) (t : List Char) : a :: raw (utf8 t) = raw (utf8 (a :: t)) := by
  rw [show a :: t = [a] ++ t from rfl, utf8_append, raw_append, raw_ascii (l := [a]) (by simpa using ha)]; rfl

theorem raw_cat (a b : List Char) : raw (utf8 a) ++ raw (utf8 b) = raw (utf8 (a ++ b)) := by
  rw [utf8_append, raw_append]

theorem blank_nil : Blank [] := by simp [Blank]

mutual
theorem text_value (short : Bool) : ∀ (j : J) (d : Nat), j.Good d →
    ∃ t, j.emitB short = raw (utf8 t) ∧ Value d t (j.heal short)
  | .null, d, _ => ⟨['n', 'u', 'l', 'l'], by rw [raw_ascii (by decide)]; rfl, .null d⟩
  | .bool true, d, _ => ⟨['t', 'r', 'u', 'e'], by rw [raw_ascii (by decide)]; rfl, .true d⟩
  | .bool false, d, _ => ⟨['f', 'a', 'l', 's', 'e'], by rw [raw_ascii (by decide)]; rfl, .false d⟩
  | .num lit, d, h => by
    have h : NumLit lit := by simpa [J.Good] using h
    exact ⟨lit, by rw [raw_ascii (numLit_ascii h), J.emitB], .number d lit (numLit_number h)⟩
  | .str s p, d, _ => by
    obtain ⟨t, h1, h2, h3⟩ := quote_value short s
    exact ⟨t, by rw [← h1, J.emitB], .string d t _ _ h2 (by rw [h3]; simp)⟩
  | .arr [], d, h => by
    obtain ⟨d, rfl⟩ : ∃ e, d = e + 1 := ⟨d - 1, by simp only [J.Good] at h; omega⟩
    exact ⟨['[', ']'], by rw [raw_ascii (by decide)]; simp [J.emitB],
      by simpa [J.heal, J.healElems] using Value.emptyArray d [] blank_nil⟩
  | .arr (v :: vs), d, h => by
    simp only [J.Good, J.GoodElems] at h
    obtain ⟨d, rfl⟩ : ∃ e, d = e + 1 := ⟨d - 1, by omega⟩
    obtain ⟨t, h1, h2⟩ := text_elems short v vs d h.2.1 h.2.2
    exact ⟨'[' :: (t ++ [']']), by rw [J.emitB, h1, raw_cons (by decide)], by
      rw [J.heal, J.healElems]; exact Value.array d t _ h2⟩
  | .obj [], d, h => by
    obtain ⟨d, rfl⟩ : ∃ e, d = e + 1 := ⟨d - 1, by simp only [J.Good] at h; omega⟩
    exact ⟨['{', '}'], by rw [raw_ascii (by decide)]; simp [J.emitB],
      by simpa [J.heal, J.healMembers] using Value.emptyObject d [] blank_nil⟩
  | .obj ((k, v) :: ms), d, h => by
    simp only [J.Good, J.GoodMembers] at h
    obtain ⟨d, rfl⟩ : ∃ e, d = e + 1 := ⟨d - 1, by omega⟩
    obtain ⟨t, h1, h2⟩ := text_members short k v ms d h.2.1 h.2.2
    exact ⟨'{' :: (t ++ ['}']), by rw [J.emitB, h1, raw_cons (by decide)], by
      rw [J.heal, J.healMembers]; exact Value.object d t _ h2⟩
theorem text_elems (short : Bool) : ∀ (v : J) (vs : List J) (d : Nat), v.Good d → J.GoodElems d vs →
    ∃ t, v.emitB short ++ J.emitElemsB short vs = raw (utf8 (t ++ [']'])) ∧
      Elements d t (v.heal short :: J.healElems short vs)
  | v, [], d, h, _ => by
    obtain ⟨t, h1, h2⟩ := text_value short v d h
    refine ⟨t, ?_, by simpa [J.healElems] using Elements.last d [] t [] _ blank_nil h2 blank_nil⟩
    rw [h1, J.emitElemsB, ← raw_cat, raw_ascii (l := [']']) (by decide)]
  | v, w :: vs, d, h, h' => by
    simp only [J.GoodElems] at h'
    obtain ⟨t, h1, h2⟩ := text_value short v d h
    obtain ⟨u, h3, h4⟩ := text_elems short w vs d h'.1 h'.2
    refine ⟨t ++ ',' :: u, ?_, by
      simpa [J.healElems] using Elements.more d [] t [] u _ _ blank_nil h2 blank_nil h4⟩
    rw [J.emitElemsB, h1, h3, raw_cons (by decide), raw_cat]
    simp
theorem text_members (short : Bool) : ∀ (k : List Char) (v : J) (ms : List (List Char × J)) (d : Nat), v.Good d →
    J.GoodMembers d ms →
    ∃ t, quote short k ++ ':' :: (v.emitB short ++ J.emitMembersB short ms) = raw (utf8 (t ++ ['}'])) ∧
      Members d t ((runes k, v.heal short) :: J.healMembers short ms)
  | k, v, [], d, h, _ => by
    obtain ⟨t, h1, h2⟩ := text_value short v d h
    obtain ⟨q, q1, q2, -⟩ := quote_value short k
    refine ⟨q ++ ':' :: t, ?_, by
      simpa [J.healMembers] using Members.last d [] q [] [] t [] _ _ blank_nil q2 blank_nil blank_nil h2 blank_nil⟩
    have e : J.emitMembersB short [] = raw (utf8 ['}']) := by rw [raw_ascii (by decide), J.emitMembersB]
    rw [q1, h1, e, raw_cat, raw_cons (by decide), raw_cat]
    simp
  | k, v, (l, w) :: ms, d, h, h' => by
    simp only [J.GoodMembers] at h'
    obtain ⟨t, h1, h2⟩ := text_value short v d h
    obtain ⟨q, q1, q2, -⟩ := quote_value short k
    obtain ⟨u, h3, h4⟩ := text_members short l w ms d h'.1 h'.2
    refine ⟨q ++ ':' :: (t ++ ',' :: u), ?_, by
      simpa [J.healMembers] using
        Members.more d [] q [] [] t [] u _ _ _ blank_nil q2 blank_nil blank_nil h2 blank_nil h4⟩
    rw [J.emitMembersB, q1, h1, h3, raw_cons (by decide), raw_cat, raw_cons (by decide), raw_cat]
    simp
end

/-! ### Types -/

/-- The value `v` is written, with nesting at most `d`, and read back as `w` whatever was there before. -/
def RoundB {α : Type} (short : Bool) (c : Codec α) (d : Nat) (v w : α) : Prop :=
  ∃ j, c.enc v = some j ∧ j.Good d ∧ ∀ old, c.dec old (j.heal short) = (w, .none)

variable {short : Bool}

theorem roundB_float {S : FloatSem} (hS : Lawful S) {pick : ℚ → Nat × ℤ} (hp : GoodPick S pick) {x y : Fl}
    (hx : Finite64 S x) (e : x = y) : RoundB short (Codec.float S pick) 0 x y := by
  subst e
  obtain ⟨s, h1, h2, h3⟩ := jsonFloat_back hS hp hx
  exact ⟨.num s, by simp [Codec.float, h1], by simpa [J.Good] using h2, by
    intro old; rw [J.heal]; simp [Codec.float, h3]⟩

theorem roundB_int {n m : Int} (h1 : -2 ^ 63 ≤ n) (h2 : n < 2 ^ 63) (e : n = m) : RoundB short Codec.int 0 n m := by
  subst e
  exact ⟨.num (fmtInt n), rfl, by simpa [J.Good] using jsonInt_numLit n, by
    intro old; rw [J.heal]; simp [Codec.int, parseInt_fmtInt (bits := 64) h1 h2]⟩

theorem roundB_str {s t : String} (h : runes s.toList = t.toList) : RoundB short Codec.str 0 s t :=
  ⟨.str s.toList (asIs s.toList), rfl, by simp [J.Good], by
    intro old; rw [J.heal]; simp [Codec.str, h]⟩

theorem roundB_bool {b c : Bool} (e : b = c) : RoundB short Codec.bool 0 b c := by
  subst e
  exact ⟨.bool b, rfl, by simp [J.Good], by intro old; rw [J.heal]; simp [Codec.bool]⟩

theorem runes_all_ascii {s : List Char} (h : ∀ c ∈ s, c.toNat < 0x80) : runes s = s := by
  induction s with
  | nil => rfl
  | cons a s ih => rw [runes_ascii (h a (by simp)), ih fun c hc => h c (by simp [hc])]

theorem quoteN_ascii (short : Bool) {s : List Char} (h : ∀ c ∈ s, c.toNat < 0x80) :
    quoteN short s.length s = s.flatMap (escChar short) := by
  induction s with
  | nil => rfl
  | cons a s ih =>
    rw [List.length_cons, quoteN, if_pos (h a (by simp)), ih fun c hc => h c (by simp [hc]), List.flatMap_cons]

theorem roundB_time {zero : Int} {kept : Bool} {write : Int → Option (List Char)} {read : List Char → Option Int}
    {t u : Int} {s : List Char} (hw : write t = some s) (hr : read s = some t) (ha : asIs s = true)
    (h8 : ∀ c ∈ s, c.toNat < 0x80) (e : t = u) : RoundB short (Codec.time zero kept write read) 0 t u := by
  subst e
  refine ⟨.str s true, by simp [Codec.time, hw, ha], by simp [J.Good, ha], ?_⟩
  intro old
  have hq : (!(quoteN short s.length s).contains '\\') = true := by
    rw [quoteN_ascii short h8]
    have : '\\' ∉ s.flatMap (escChar short) := by
      intro h
      obtain ⟨c, hc, hc'⟩ := List.mem_flatMap.1 h
      have h1 := List.all_eq_true.1 ha c hc
      have h2 := escChar_contains short c
      simp only [List.contains_eq_mem] at h1 h2
      simp_all
    simpa using this
  rw [J.heal, hq, runes_all_ascii h8]
  simp [Codec.time, hr]

theorem roundB_ptr {α : Type} {c : Codec α} {d : Nat} (hn : NeverNull c) {o p : Option α}
    (h : Option.Rel (RoundB short c d) o p) : RoundB short c.ptr d o p := by
  cases h with
  | none => exact ⟨.null, rfl, by simp [J.Good], by intro old; rw [J.heal]; simp [Codec.ptr]⟩
  | @some v w h =>
    obtain ⟨j, h1, h2, h3⟩ := h
    refine ⟨j, h1, h2, ?_⟩
    intro old
    have : j ≠ .null := fun h => hn v (h ▸ h1)
    have h4 := h3 (old.getD c.zero)
    cases j <;> simp_all [Codec.ptr, J.heal]

theorem roundB_elems {α : Type} {c : Codec α} {d : Nat} {l m : List α} (h : List.Forall₂ (RoundB short c d) l m) :
    ∃ js, l.mapM c.enc = some js ∧ J.GoodElems d js ∧
      ∀ old stale, decElems c old stale (J.healElems short js) = (m, .none) := by
  induction h with
  | nil => exact ⟨[], rfl, by simp [J.GoodElems], by simp [decElems, J.healElems]⟩
  | cons h _ ih =>
    obtain ⟨j, h1, h2, h3⟩ := h
    obtain ⟨js, k1, k2, k3⟩ := ih
    refine ⟨j :: js, by simp [List.mapM_cons, h1, k1], by simp [J.GoodElems, h2, k2], ?_⟩
    intro old stale
    simp [J.healElems, decElems, h3, k3, JErr.or]

theorem roundB_slice {α : Type} {c : Codec α} {d : Nat} (isNil : Bool) (stale : List α → List α) {l m : List α}
    (h : List.Forall₂ (RoundB short c d) l m) : RoundB short (Codec.slice isNil stale c) (d + 1) l m := by
  obtain ⟨js, h1, h2, h3⟩ := roundB_elems h
  by_cases hn : (isNil && l.isEmpty) = true
  · have : l = [] := by simp at hn; exact hn.2
    subst this
    cases h
    exact ⟨.null, by simp only [Codec.slice, hn, if_true], by simp [J.Good], by
      intro old; rw [J.heal]; simp [Codec.slice]⟩
  · refine ⟨.arr js, by simp only [Codec.slice, hn, h1]; simp, by simp [J.Good, h2], ?_⟩
    intro old
    rw [J.heal]
    simp only [Codec.slice, h3]

/-- A field of `r` is written and read back as that of `r'`. -/
def RoundFieldB {ρ : Type} (short : Bool) (f : JField ρ) (d : Nat) (r r' : ρ) : Prop :=
  (∀ c ∈ f.name.toList, c.toNat < 0x80) ∧
  ∃ j, f.enc r = some j ∧ j.Good d ∧ ∀ s, f.dec s (j.heal short) = (f.put r' s, .none)

theorem roundB_field {α ρ : Type} {c : Codec α} {name : String} {get : ρ → α} {set : ρ → α → ρ} {d d' : Nat} {r r' : ρ}
    (hd : d ≤ d') (hname : name.toList.all fun c => decide (c.toNat < 0x80)) (h : RoundB short c d (get r) (get r')) :
    RoundFieldB short (c.field name get set) d' r r' := by
  obtain ⟨j, h1, h2, h3⟩ := h
  exact ⟨by simpa [Codec.field] using hname, j, h1, Good.mono j hd h2, by intro s; simp [Codec.field, h3]⟩

theorem roundB_struct {ρ : Type} {zero : ρ} {fs : List (JField ρ)} {d : Nat} {r r' : ρ}
    (hnames : (fs.map (·.name)).Nodup) (hall : ∀ s, fs.foldl (fun s f => f.put r' s) s = r')
    (hf : ∀ f ∈ fs, RoundFieldB short f d r r') : RoundB short (Codec.struct zero fs) (d + 1) r r' := by
  have key : ∀ gs : List (JField ρ), (∀ g ∈ gs, g ∈ fs) → ∃ ms,
      gs.mapM (fun (f : JField ρ) => (f.enc r).map fun j => (f.name.toList, j)) = some ms ∧ J.GoodMembers d ms ∧
      ∀ s, (J.healMembers short ms).foldl (decMember fs) (s, .none) = (gs.foldl (fun s f => f.put r' s) s, .none) := by
    intro gs hgs
    induction gs with
    | nil => exact ⟨[], rfl, by simp [J.GoodMembers], by simp [J.healMembers]⟩
    | cons g gs ih =>
      obtain ⟨h0, j, h1, h2, h3⟩ := hf g (hgs g (by simp))
      obtain ⟨ms, k1, k2, k3⟩ := ih (fun x hx => hgs x (by simp [hx]))
      refine ⟨(g.name.toList, j) :: ms, by simp [List.mapM_cons, h1, k1], by simp [J.GoodMembers, h2, k2], ?_⟩
      intro s
      rw [J.healMembers, List.foldl_cons, List.foldl_cons, ← k3]
      congr 1
      simp [decMember, runes_all_ascii h0, findField_name hnames (hgs g (by simp)), h3, next, JErr.or]
  obtain ⟨ms, h1, h2, h3⟩ := key fs (fun _ h => h)
  refine ⟨.obj ms, ?_, by simp [J.Good, h2], ?_⟩
  · simp only [Codec.struct, visible_eq hnames, h1, Option.map_some]
  · intro old
    rw [J.heal]
    simp only [Codec.struct, visible_eq hnames, h3, hall]

/-- As texts. -/
theorem marshalB_round {α : Type} {c : Codec α} {d : Nat} {v w : α} (hd : d ≤ 10000) (h : RoundB short c d v w) :
    ∃ bs, c.marshalB short v = some bs ∧ ValidUtf8 bs ∧ ∀ old, c.unmarshalB old bs = (w, false) := by
  obtain ⟨j, h1, h2, h3⟩ := h
  obtain ⟨t, t1, t2⟩ := text_value short j 10000 (Good.mono j hd h2)
  refine ⟨utf8 t, by simp [Codec.marshalB, h1, t1, unraw_raw], ⟨t, rfl⟩, ?_⟩
  intro old
  rw [C186_unmarshal _ _ (C186_utf8 t)]
  have hp : J.parse t = some (j.heal short) := (C170_meaning _ _).2 ⟨[], t, [], by simp, blank_nil, t2, blank_nil⟩
  simp [Codec.unmarshal, hp, h3]

end Finmod.Json
