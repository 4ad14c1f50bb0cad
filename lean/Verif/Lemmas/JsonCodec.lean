import Verif.Lemmas.JsonText
import Mathlib.Data.List.Nodup

/-!
# Go values read back from their JSON
-/

namespace Go

/-! ### The text of numbers -/

theorem toDigits_head {n : Nat} (hn : 0 < n) : ∃ a A, Nat.toDigits 10 n = a :: A ∧ a ≠ '0' := by
  induction n using Nat.strongRecOn with
  | ind n ih =>
    by_cases h : n < 10
    · rw [Nat.toDigits_of_lt_base h]
      refine ⟨_, _, rfl, ?_⟩
      interval_cases n <;> decide
    · obtain ⟨a, A, hA, h0⟩ := ih (n / 10) (by omega) (by omega)
      rw [Nat.toDigits_of_base_le (by norm_num) (by omega), hA]
      exact ⟨a, _, rfl, h0⟩

theorem jsonInt_numLit (n : Int) : NumLit (fmtInt n) := by
  obtain ⟨a, A, hA, h0⟩ : ∃ a A, Nat.toDigits 10 n.natAbs = a :: A ∧ (a = '0' → A = []) := by
    by_cases h : n.natAbs = 0
    · exact ⟨'0', [], by rw [h]; decide, fun _ => rfl⟩
    · obtain ⟨a, A, hA, h0⟩ := toDigits_head (Nat.pos_of_ne_zero h)
      exact ⟨a, A, hA, fun h => absurd h h0⟩
  have hd : ∀ c ∈ a :: A, digitC c = true := fun c hc => digitC_toDigits (n := n.natAbs) (hA ▸ hc)
  refine ⟨decide (n < 0), a, A, [], [], ?_, hd a (by simp), fun c hc => hd c (by simp [hc]), h0, Or.inl rfl, Or.inl rfl⟩
  by_cases h : n < 0 <;> simp [fmtInt, h, signText, hA]

/-- The exponent is a sign and digits that read back. -/
theorem jsonExp_digits (e : ℤ) : ∃ sg D, jsonExp e = sg :: D ∧ (sg = '+' ∨ sg = '-') ∧ D ≠ [] ∧
    (∀ c ∈ D, digitC c = true) ∧ (sg = '-' ↔ e < 0) ∧ Nat.ofDigitChars 10 D 0 = e.natAbs := by
  unfold jsonExp
  split_ifs with h
  · exact ⟨'-', _, rfl, Or.inr rfl, Nat.toDigits_ne_nil, fun c => digitC_toDigits, by simp [h.1],
      Nat.ofDigitChars_ten_toDigits⟩
  · obtain ⟨D, hD, h0, h1, h2, -⟩ := fmtExp_digits e
    refine ⟨_, D, hD, ?_, h0, h1, ?_, h2⟩
    · split_ifs <;> simp
    · split_ifs with h <;> simp [h]

theorem parseExp_jsonExp {e : ℤ} (h : e.natAbs < 100000) :
    parseExp false ('e' :: jsonExp e) = some (e, []) := by
  obtain ⟨sg, D, hD, hsg, h0, h1, h3, h2⟩ := jsonExp_digits e
  obtain ⟨d, ds, rfl⟩ := List.exists_cons_of_ne_nil h0
  have hd := h1 d (by simp)
  have hs := scanExp_digits (d :: ds) h1 (by omega)
  have key : takeSign (jsonExp e) = (decide (e < 0), d :: ds) := by
    rw [hD]
    rcases hsg with rfl | rfl
    · have : ¬ e < 0 := fun h => by simp at h3; omega
      simp [takeSign, this]
    · have : e < 0 := h3.1 rfl
      simp [takeSign, this]
  simp only [parseExp, show lowerC 'e' = 'e' by decide, key, hd, hs, h2]
  have hab : (e.natAbs : ℤ) = if e < 0 then -e else e := by split_ifs <;> omega
  simp only [hab]
  by_cases he : e < 0 <;> simp [he]

theorem jsonExp_no_underscore (e : ℤ) : '_' ∉ 'e' :: jsonExp e := by
  obtain ⟨sg, D, hD, hsg, -, h1, -, -⟩ := jsonExp_digits e
  rw [hD]
  simp only [List.mem_cons]
  rintro (hm | hm | hm)
  · simp at hm
  · rcases hsg with rfl | rfl <;> simp at hm
  · have := h1 _ hm; simp [digitC] at this

/-- The text with exponent reads back as the decimal it shows. -/
theorem parse_jsonE (S : FloatSem) (neg : Bool) {N : Nat} {e : ℤ}
    (he : ((Nat.toDigits 10 N).length + e - 1).natAbs < 100000) :
    parseFloat S (signText neg ++
      jsonE (Nat.toDigits 10 N) ((Nat.toDigits 10 N).length + e)) = finish S neg (N * pow10 e) := by
  have hN : Nat.ofDigitChars 10 (Nat.toDigits 10 N) 0 = N := Nat.ofDigitChars_ten_toDigits
  have hd : ∀ c ∈ Nat.toDigits 10 N, digitC c = true := fun c => digitC_toDigits
  have h0 : Nat.toDigits 10 N ≠ [] := Nat.toDigits_ne_nil
  generalize Nat.toDigits 10 N = ds at *
  match ds, h0 with
  | [d], _ =>
    have := parse_body_exp S neg (A := [d]) (B := []) (P := []) (r := 'e' :: jsonExp (1 + e - 1)) (e := 1 + e - 1)
      (by simp) hd (by simp) (Or.inl ⟨rfl, rfl⟩) (Or.inr ⟨_, _, rfl, Or.inl rfl⟩)
      (parseExp_jsonExp (by simpa using he)) (jsonExp_no_underscore _)
    simp only [List.nil_append, List.append_nil, hN, List.length_nil, List.cons_append] at this
    simp only [jsonE, List.length_cons, List.length_nil]
    norm_num at this ⊢
    rw [this]
  | d :: d' :: rest, _ =>
    have := parse_body_exp S neg (A := [d]) (B := d' :: rest) (P := '.' :: d' :: rest)
      (r := 'e' :: jsonExp (((d :: d' :: rest).length : ℤ) + e - 1)) (e := ((d :: d' :: rest).length : ℤ) + e - 1)
      (by simp) (fun c hc => hd c (by simp at hc; simp [hc])) (fun c hc => hd c (by simp at hc ⊢; right; exact hc))
      (Or.inr rfl) (Or.inr ⟨_, _, rfl, Or.inl rfl⟩) (parseExp_jsonExp he) (jsonExp_no_underscore _)
    simp only [List.cons_append, List.nil_append, hN] at this
    simp only [jsonE]
    rw [show ∀ l, d :: '.' :: (d' :: rest ++ l) = d :: '.' :: d' :: (rest ++ l) from fun l => rfl, this]
    congr 3
    simp only [List.length_cons]; push_cast; ring

theorem jsonE_numLit (neg : Bool) {N : Nat} (hN : 0 < N) (dp : ℤ) :
    NumLit (signText neg ++ jsonE (Nat.toDigits 10 N) dp) := by
  obtain ⟨a, A, hA, h0⟩ := toDigits_head hN
  have hd : ∀ c ∈ a :: A, digitC c = true := fun c hc => digitC_toDigits (n := N) (hA ▸ hc)
  obtain ⟨sg, D, hD, hsg, hD0, hD1, -, -⟩ := jsonExp_digits (dp - 1)
  have hr : ∃ sg' D', 'e' :: jsonExp (dp - 1) = 'e' :: sg' :: D' ∧ (sg' = '+' ∨ sg' = '-') ∧ D' ≠ [] ∧
      ∀ c ∈ D', digitC c = true := ⟨sg, D, by rw [hD], hsg, hD0, hD1⟩
  rw [hA]
  match A, hd with
  | [], hd =>
    exact ⟨neg, a, [], [], 'e' :: jsonExp (dp - 1), by simp [jsonE], hd a (by simp), by simp, fun _ => rfl, Or.inl rfl,
      Or.inr hr⟩
  | b :: B, hd =>
    exact ⟨neg, a, [], '.' :: b :: B, 'e' :: jsonExp (dp - 1), by simp [jsonE], hd a (by simp), by simp, fun _ => rfl,
      Or.inr ⟨b :: B, rfl, by simp, fun c hc => hd c (by simp at hc ⊢; right; exact hc)⟩, Or.inr hr⟩

theorem fmtF_numLit (neg : Bool) {N : Nat} (hN : 0 < N) (dp : ℤ) :
    NumLit (signText neg ++ fmtF (Nat.toDigits 10 N) dp) := by
  obtain ⟨a, A, hA, h0⟩ := toDigits_head hN
  have hd : ∀ c ∈ a :: A, digitC c = true := fun c hc => digitC_toDigits (n := N) (hA ▸ hc)
  have hz : ∀ n : Nat, ∀ c ∈ List.replicate n '0', digitC c = true := by
    intro n c hc; rw [List.mem_replicate] at hc; rw [hc.2]; decide
  rw [hA]
  unfold fmtF
  split_ifs with h1 h2
  · refine ⟨neg, a, A ++ List.replicate (dp - ((a :: A).length : ℤ)).toNat '0', [], [], by simp, hd a (by simp), ?_,
      fun h => absurd h h0, Or.inl rfl, Or.inl rfl⟩
    intro c hc
    rcases List.mem_append.1 hc with hc | hc
    exacts [hd c (by simp [hc]), hz _ c hc]
  · obtain ⟨k, hk⟩ : ∃ k : Nat, dp.toNat = k + 1 := ⟨dp.toNat - 1, by omega⟩
    rw [hk, List.take_succ_cons, List.drop_succ_cons]
    refine ⟨neg, a, A.take k, '.' :: A.drop k, [], by simp, hd a (by simp),
      fun c hc => hd c (by simp [List.mem_of_mem_take hc]), fun h => absurd h h0, Or.inr ⟨_, rfl, ?_, ?_⟩, Or.inl rfl⟩
    · rw [Ne, List.drop_eq_nil_iff]; simp at h1; omega
    · intro c hc; exact hd c (by simp [List.mem_of_mem_drop hc])
  · refine ⟨neg, '0', [], '.' :: (List.replicate (-dp).toNat '0' ++ (a :: A)), [], by simp, by decide, by simp,
      fun _ => rfl, Or.inr ⟨_, rfl, by simp, ?_⟩, Or.inl rfl⟩
    intro c hc
    rcases List.mem_append.1 hc with hc | hc
    exacts [hz _ c hc, hd c hc]

/-- A finite float64: a number the format has, or the negative zero. -/
def Finite64 (S : FloatSem) (x : Fl) : Prop := x = .negZero ∨ ∃ q, x = .fin q ∧ S.rnd q = .fin q

/-- A finite float is written as a JSON number that reads back as itself. -/
theorem jsonFloat_back {S : FloatSem} (hS : Lawful S) {pick : ℚ → Nat × ℤ} (hp : GoodPick S pick) {x : Fl}
    (hx : Finite64 S x) : ∃ s, jsonFloat S pick x = some s ∧ NumLit s ∧ parseFloat S s = some x := by
  have zero : ∀ neg : Bool, NumLit (signText neg ++ ['0']) ∧ parseFloat S (signText neg ++ ['0']) = some (Fl.zero neg) := by
    intro neg
    refine ⟨⟨neg, '0', [], [], [], by simp, by decide, by simp, fun _ => rfl, Or.inl rfl, Or.inl rfl⟩, ?_⟩
    have := parse_body S neg (A := ['0']) (B := []) (P := []) (r := []) (e := 0) (by simp)
      (by intro c hc; simp at hc; subst hc; decide) (by simp) (Or.inl ⟨rfl, rfl⟩) (Or.inl ⟨rfl, rfl⟩)
    simpa [finish, show Nat.ofDigitChars 10 ['0'] 0 = 0 by decide] using this
  rcases hx with rfl | ⟨q, rfl, hq⟩
  · exact ⟨_, rfl, (zero true).1, (zero true).2⟩
  · by_cases h0 : q = 0
    · subst h0; exact ⟨_, by simp [jsonFloat, signText], (zero false).1, (zero false).2⟩
    · have ha : 0 < |q| := abs_pos.2 h0
      have hr : S.rnd |q| = .fin |q| := by
        rcases abs_cases q with ⟨h, -⟩ | ⟨h, -⟩
        · rw [h, hq]
        · rw [h, hS.r64.odd q h0, hq]; simp [Fl.neg, h0]
      obtain ⟨s1, s2, s3⟩ := hp.size _ ha hr
      have hb := hp.back _ ha hr
      have hpos : (0 : ℚ) < (pick |q|).1 * pow10 (pick |q|).2 :=
        mul_pos (by exact_mod_cast s1) (pow10_pos _)
      have hE := parse_jsonE S (decide (q < 0)) (N := (pick |q|).1) (e := (pick |q|).2) (by
        have := Nat.length_toDigits_pos (b := 10) (n := (pick |q|).1)
        omega)
      have hF := parse_fmtF S (decide (q < 0)) (N := (pick |q|).1) (e := (pick |q|).2)
      rw [finish, if_neg hpos.ne', hb] at hE hF
      have hfin : (if decide (q < 0) then Fl.neg (.fin |q|) else Fl.fin |q|) = .fin q := by
        by_cases hn : q < 0
        · simp [hn, Fl.neg, h0, abs_of_neg hn]
        · simp [hn, abs_of_nonneg (not_lt.1 hn)]
      have hs : ∀ t : List Char, (if q < 0 then '-' :: t else t) = signText (decide (q < 0)) ++ t := by
        intro t; by_cases hn : q < 0 <;> simp [hn, signText]
      simp only at hE hF
      rw [hfin] at hE hF
      simp only [jsonFloat, h0, if_false, hs]
      refine ⟨_, rfl, ?_⟩
      split_ifs
      · exact ⟨jsonE_numLit _ s1 _, hE⟩
      · exact ⟨fmtF_numLit _ s1 _, hF⟩

/-! ### Types -/

mutual
theorem Good.mono : ∀ (j : J) {d d' : Nat}, d ≤ d' → j.Good d → j.Good d'
  | .null, _, _, _, _ => by simp [J.Good]
  | .bool _, _, _, _, _ => by simp [J.Good]
  | .num _, _, _, _, h => by simpa [J.Good] using h
  | .str _ _, _, _, _, h => by simpa [J.Good] using h
  | .arr l, d, d', hd, h => by
    simp only [J.Good] at h ⊢; exact ⟨by omega, GoodElems.mono l (by omega) h.2⟩
  | .obj l, d, d', hd, h => by
    simp only [J.Good] at h ⊢; exact ⟨by omega, GoodMembers.mono l (by omega) h.2⟩
theorem GoodElems.mono : ∀ (l : List J) {d d' : Nat}, d ≤ d' → J.GoodElems d l → J.GoodElems d' l
  | [], _, _, _, _ => by simp [J.GoodElems]
  | v :: vs, _, _, hd, h => by
    simp only [J.GoodElems] at h ⊢; exact ⟨Good.mono v hd h.1, GoodElems.mono vs hd h.2⟩
theorem GoodMembers.mono : ∀ (l : List (List Char × J)) {d d' : Nat}, d ≤ d' → J.GoodMembers d l → J.GoodMembers d' l
  | [], _, _, _, _ => by simp [J.GoodMembers]
  | (_, v) :: ms, _, _, hd, h => by
    simp only [J.GoodMembers] at h ⊢; exact ⟨Good.mono v hd h.1, GoodMembers.mono ms hd h.2⟩
end

/-- The value is written, with nesting at most `d`, and read back whatever was there before. -/
def Round {α : Type} (c : Codec α) (d : Nat) (v : α) : Prop :=
  ∃ j, c.enc v = some j ∧ j.Good d ∧ ∀ old, c.dec old j = (v, .none)

/-- The value is never written as null. -/
def NeverNull {α : Type} (c : Codec α) : Prop := ∀ v, c.enc v ≠ some .null

theorem Round.mono {α : Type} {c : Codec α} {d d' : Nat} {v : α} (hd : d ≤ d') (h : Round c d v) : Round c d' v := by
  obtain ⟨j, h1, h2, h3⟩ := h
  exact ⟨j, h1, Good.mono j hd h2, h3⟩

theorem round_float {S : FloatSem} (hS : Lawful S) {pick : ℚ → Nat × ℤ} (hp : GoodPick S pick) {x : Fl}
    (hx : Finite64 S x) : Round (Codec.float S pick) 0 x := by
  obtain ⟨s, h1, h2, h3⟩ := jsonFloat_back hS hp hx
  exact ⟨.num s, by simp [Codec.float, h1], by simpa [J.Good] using h2, by intro old; simp [Codec.float, h3]⟩

theorem round_int {n : Int} (h1 : -2 ^ 63 ≤ n) (h2 : n < 2 ^ 63) : Round Codec.int 0 n :=
  ⟨.num (fmtInt n), rfl, by simpa [J.Good] using jsonInt_numLit n, by
    intro old; simp [Codec.int, parseInt_fmtInt (bits := 64) h1 h2]⟩

theorem round_str (s : String) : Round Codec.str 0 s :=
  ⟨.str s.toList (asIs s.toList), rfl, by simp [J.Good], by intro old; simp [Codec.str]⟩

theorem round_bool (b : Bool) : Round Codec.bool 0 b :=
  ⟨.bool b, rfl, by simp [J.Good], by intro old; simp [Codec.bool]⟩

theorem round_time {zero : Int} {kept : Bool} {write : Int → Option (List Char)} {read : List Char → Option Int} {t : Int}
    {s : List Char} (hw : write t = some s) (hr : read s = some t) (ha : asIs s = true) :
    Round (Codec.time zero kept write read) 0 t :=
  ⟨.str s true, by simp [Codec.time, hw, ha], by simp [J.Good, ha], by intro old; simp [Codec.time, hr]⟩

theorem round_ptr {α : Type} {c : Codec α} {d : Nat} (hn : NeverNull c) {o : Option α}
    (h : ∀ v, o = some v → Round c d v) : Round c.ptr d o := by
  cases o with
  | none => exact ⟨.null, rfl, by simp [J.Good], by intro old; simp [Codec.ptr]⟩
  | some v =>
    obtain ⟨j, h1, h2, h3⟩ := h v rfl
    refine ⟨j, h1, h2, ?_⟩
    intro old
    have : j ≠ .null := fun h => hn v (h ▸ h1)
    cases j <;> simp_all [Codec.ptr]

theorem round_elems {α : Type} {c : Codec α} {d : Nat} {l : List α} (h : ∀ v ∈ l, Round c d v) :
    ∃ js, l.mapM c.enc = some js ∧ J.GoodElems d js ∧
      ∀ old stale, decElems c old stale js = (l, .none) := by
  induction l with
  | nil => exact ⟨[], rfl, by simp [J.GoodElems], by simp [decElems]⟩
  | cons v vs ih =>
    obtain ⟨j, h1, h2, h3⟩ := h v (by simp)
    obtain ⟨js, k1, k2, k3⟩ := ih (fun w hw => h w (by simp [hw]))
    refine ⟨j :: js, by simp [List.mapM_cons, h1, k1], by simp [J.GoodElems, h2, k2], ?_⟩
    intro old stale
    simp [decElems, h3, k3, JErr.or]

theorem round_slice {α : Type} {c : Codec α} {d : Nat} (isNil : Bool) (stale : List α → List α) {l : List α}
    (h : ∀ v ∈ l, Round c d v) : Round (Codec.slice isNil stale c) (d + 1) l := by
  obtain ⟨js, h1, h2, h3⟩ := round_elems h
  by_cases hn : (isNil && l.isEmpty) = true
  · have : l = [] := by simp at hn; exact hn.2
    exact ⟨.null, by simp only [Codec.slice, hn, if_true], by simp [J.Good], by intro old; simp [Codec.slice, this]⟩
  · refine ⟨.arr js, by simp only [Codec.slice, hn, h1]; simp, by simp [J.Good, h2], ?_⟩
    intro old
    simp only [Codec.slice, h3]

theorem visible_eq {ρ : Type} {fs : List (JField ρ)} (h : (fs.map (·.name)).Nodup) : visible fs = fs := by
  unfold visible
  rw [List.filter_eq_self]
  intro f hf
  have := List.count_eq_one_of_mem h (List.mem_map_of_mem hf)
  simpa using this

theorem findField_name {ρ : Type} {fs : List (JField ρ)} (h : (fs.map (·.name)).Nodup) {f : JField ρ} (hf : f ∈ fs) :
    findField fs f.name.toList = some f := by
  have : fs.find? (fun g => g.name.toList == f.name.toList) = some f := by
    induction fs with
    | nil => simp at hf
    | cons g gs ih =>
      rw [List.map_cons, List.nodup_cons] at h
      rcases List.mem_cons.1 hf with rfl | hf
      · simp
      · have : g.name ≠ f.name := fun e => h.1 (e ▸ List.mem_map_of_mem hf)
        have h' : (g.name.toList == f.name.toList) = false := by
          rw [beq_eq_false_iff_ne]; intro e; exact this (String.toList_inj.1 e)
        rw [List.find?_cons, h']; exact ih h.2 hf
  simp [findField, this]

/-- A field of the record is written and read back. -/
def RoundField {ρ : Type} (f : JField ρ) (d : Nat) (r : ρ) : Prop :=
  ∃ j, f.enc r = some j ∧ j.Good d ∧ ∀ s, f.dec s j = (f.put r s, .none)

theorem round_field {α ρ : Type} {c : Codec α} {name : String} {get : ρ → α} {set : ρ → α → ρ} {d d' : Nat} {r : ρ}
    (hd : d ≤ d') (h : Round c d (get r)) : RoundField (c.field name get set) d' r := by
  obtain ⟨j, h1, h2, h3⟩ := h
  exact ⟨j, h1, Good.mono j hd h2, by intro s; simp [Codec.field, h3]⟩

/-- A record is written and read back when its fields are, they have different names, and together
they make up the record. -/
theorem round_struct {ρ : Type} {zero : ρ} {fs : List (JField ρ)} {d : Nat} {r : ρ}
    (hnames : (fs.map (·.name)).Nodup) (hall : ∀ s, fs.foldl (fun s f => f.put r s) s = r)
    (hf : ∀ f ∈ fs, RoundField f d r) : Round (Codec.struct zero fs) (d + 1) r := by
  have key : ∀ gs : List (JField ρ), (∀ g ∈ gs, g ∈ fs) → ∃ ms,
      gs.mapM (fun (f : JField ρ) => (f.enc r).map fun j => (f.name.toList, j)) = some ms ∧ J.GoodMembers d ms ∧
      ∀ s, ms.foldl (decMember fs) (s, .none) = (gs.foldl (fun s f => f.put r s) s, .none) := by
    intro gs hgs
    induction gs with
    | nil => exact ⟨[], rfl, by simp [J.GoodMembers], by simp⟩
    | cons g gs ih =>
      obtain ⟨j, h1, h2, h3⟩ := hf g (hgs g (by simp))
      obtain ⟨ms, k1, k2, k3⟩ := ih (fun x hx => hgs x (by simp [hx]))
      refine ⟨(g.name.toList, j) :: ms, by simp [List.mapM_cons, h1, k1], by simp [J.GoodMembers, h2, k2], ?_⟩
      intro s
      rw [List.foldl_cons, List.foldl_cons, ← k3]
      congr 1
      simp [decMember, findField_name hnames (hgs g (by simp)), h3, next, JErr.or]
  obtain ⟨ms, h1, h2, h3⟩ := key fs (fun _ h => h)
  refine ⟨.obj ms, ?_, by simp [J.Good, h2], ?_⟩
  · simp only [Codec.struct, visible_eq hnames, h1, Option.map_some]
  · intro old
    simp only [Codec.struct, visible_eq hnames, h3, hall]

theorem neverNull_struct {ρ : Type} (zero : ρ) (fs : List (JField ρ)) : NeverNull (Codec.struct zero fs) := by
  intro v h
  simp [Codec.struct] at h

/-- A value that is written and read back, as texts. -/
theorem marshal_round {α : Type} {c : Codec α} {d : Nat} {v : α} (hd : d ≤ 10000) (h : Round c d v) (short : Bool) :
    ∃ s, c.marshal short v = some s ∧ ∀ old, c.unmarshal old s = (v, false) := by
  obtain ⟨j, h1, h2, h3⟩ := h
  refine ⟨j.emit short, by simp [Codec.marshal, h1], ?_⟩
  intro old
  simp [Codec.unmarshal, parse_emit short (Good.mono j hd h2), h3]

/-! ### What cannot be written -/

theorem jsonFloat_none {S : FloatSem} {pick : ℚ → Nat × ℤ} {x : Fl} :
    jsonFloat S pick x = none ↔ x = .nan ∨ ∃ b, x = .inf b := by
  cases x with
  | nan => simp [jsonFloat]
  | inf b => simp [jsonFloat]
  | negZero => simp [jsonFloat]
  | fin q => by_cases h : q = 0 <;> simp [jsonFloat, h]

theorem mapM_none {α β : Type} {f : α → Option β} {l : List α} : l.mapM f = none ↔ ∃ v ∈ l, f v = none := by
  induction l with
  | nil => simp
  | cons v vs ih =>
    rw [List.mapM_cons]
    cases h : f v with
    | none => simp [h]
    | some w =>
      cases h' : vs.mapM f with
      | none => simpa [h, h'] using ih
      | some ws => simpa [h, h'] using ih

theorem struct_none {ρ : Type} {zero : ρ} {fs : List (JField ρ)} (hnames : (fs.map (·.name)).Nodup) {r : ρ} :
    (Codec.struct zero fs).enc r = none ↔ ∃ f ∈ fs, f.enc r = none := by
  simp only [Codec.struct, visible_eq hnames, Option.map_eq_none_iff, mapM_none]

theorem slice_none {α : Type} {c : Codec α} {isNil : Bool} {stale : List α → List α} {l : List α} :
    (Codec.slice isNil stale c).enc l = none ↔ ∃ v ∈ l, c.enc v = none := by
  simp only [Codec.slice]
  split_ifs with h
  · have : l = [] := by simp at h; exact h.2
    simp [this]
  · simp [mapM_none]

theorem ptr_none {α : Type} {c : Codec α} {o : Option α} :
    c.ptr.enc o = none ↔ ∃ v, o = some v ∧ c.enc v = none := by
  cases o <;> simp [Codec.ptr]

/-! ### The text of a record -/

/-- Members of an object as text, after the first one. -/
theorem emitMembers_eq (short : Bool) (ms : List (List Char × J)) :
    J.emitMembers short ms =
      (ms.flatMap fun m => ',' :: (emitStr short m.1 ++ ':' :: m.2.emit short)) ++ ['}'] := by
  induction ms with
  | nil => simp [J.emitMembers]
  | cons m ms ih => obtain ⟨k, v⟩ := m; simp [J.emitMembers, ih]

/-! ### Members in any order -/

/-- Reading different fields commutes. -/
def Commuting {ρ : Type} (fs : List (JField ρ)) : Prop :=
  ∀ f ∈ fs, ∀ g ∈ fs, f.name ≠ g.name → ∀ s j k,
    (f.dec (g.dec s k).1 j).1 = (g.dec (f.dec s j).1 k).1 ∧
    (f.dec (g.dec s k).1 j).2 = (f.dec s j).2

theorem findField_mem {ρ : Type} {fs : List (JField ρ)} {k : List Char} {f : JField ρ} (h : findField fs k = some f) :
    f ∈ fs := by
  unfold findField at h
  split at h
  · rename_i g hg; cases h; exact List.mem_of_find?_eq_some hg
  · exact List.mem_of_find?_eq_some h

/-- Reading the member does not stop the reading. -/
def Calm {ρ : Type} (fs : List (JField ρ)) (m : List Char × J) : Prop :=
  ∀ f, findField fs m.1 = some f → ∀ s, (f.dec s m.2).2 ≠ .stop

theorem none_ne_stop : JErr.none ≠ JErr.stop := by decide

theorem JErr.or_none (e : JErr) : e.or .none = e := by cases e <;> rfl

theorem JErr.or_stop (e : JErr) : e.or .stop = .stop := by cases e <;> rfl

theorem JErr.or_eq_stop {a b : JErr} : a.or b = .stop ↔ a = .stop ∨ b = .stop := by cases a <;> cases b <;> decide

theorem JErr.or_eq_none {a b : JErr} : a.or b = .none ↔ a = .none ∧ b = .none := by cases a <;> cases b <;> decide

theorem next_fst {σ : Type} {st : σ × JErr} (h : st.2 ≠ .stop) (f : σ → σ × JErr) : (next st f).1 = (f st.1).1 := by
  rw [next, if_neg h]

theorem next_snd {σ : Type} (st : σ × JErr) (f : σ → σ × JErr) : (next st f).2 = st.2.or (f st.1).2 := by
  unfold next
  split_ifs with h
  · rw [h]; rfl
  · rfl

theorem decMember_stopped {ρ : Type} {fs : List (JField ρ)} {st : ρ × JErr} (h : st.2 = .stop) (m : List Char × J) :
    decMember fs st m = st := by
  unfold decMember
  cases findField fs m.1 with
  | none => rfl
  | some f => simp only [next, h, if_true]

theorem foldl_stopped {ρ : Type} {fs : List (JField ρ)} {st : ρ × JErr} (h : st.2 = .stop) (ms : List (List Char × J)) :
    ms.foldl (decMember fs) st = st := by
  induction ms with
  | nil => rfl
  | cons m ms ih => rw [List.foldl_cons, decMember_stopped h, ih]

theorem decMember_calm {ρ : Type} {fs : List (JField ρ)} {st : ρ × JErr} (h : st.2 ≠ .stop) {m : List Char × J}
    (hm : Calm fs m) : (decMember fs st m).2 ≠ .stop := by
  unfold decMember
  cases hf : findField fs m.1 with
  | none => exact h
  | some f =>
    simp only [next_snd, ne_eq, JErr.or_eq_stop, not_or]
    exact ⟨h, hm f hf _⟩

/-- Two members that do not name the same field can be read in either order, if neither stops the
reading. -/
theorem decMember_comm {ρ : Type} {fs : List (JField ρ)} (hc : Commuting fs) {m n : List Char × J}
    (hmn : ∀ f g, findField fs m.1 = some f → findField fs n.1 = some g → f.name ≠ g.name)
    (hm : Calm fs m) (hn : Calm fs n) (st : ρ × JErr) :
    decMember fs (decMember fs st m) n = decMember fs (decMember fs st n) m := by
  by_cases hst : st.2 = .stop
  · rw [decMember_stopped hst, decMember_stopped hst, decMember_stopped hst]
  have q1 := decMember_calm hst hm
  have q2 := decMember_calm hst hn
  revert q1 q2
  unfold decMember
  cases hf : findField fs m.1 with
  | none => cases hg : findField fs n.1 <;> intros <;> rfl
  | some f =>
    cases hg : findField fs n.1 with
    | none => intros; rfl
    | some g =>
      intro q1 q2
      have hne := hmn f g hf hg
      obtain ⟨a1, a2⟩ := hc f (findField_mem hf) g (findField_mem hg) hne st.1 m.2 n.2
      obtain ⟨b1, b2⟩ := hc g (findField_mem hg) f (findField_mem hf) hne.symm st.1 n.2 m.2
      refine Prod.ext ?_ ?_
      · simp only [next_fst q1, next_fst q2, next_fst hst]
        exact a1.symm
      · simp only [next_snd, next_fst hst, a2, b2]
        cases st.2 <;> cases (f.dec st.1 m.2).2 <;> cases (g.dec st.1 n.2).2 <;> rfl

/-- No two of the members name the same field. -/
def Separate {ρ : Type} (fs : List (JField ρ)) (ms : List (List Char × J)) : Prop :=
  ms.Pairwise fun m n => ∀ f g, findField fs m.1 = some f → findField fs n.1 = some g → f.name ≠ g.name

theorem foldl_decMember_perm {ρ : Type} {fs : List (JField ρ)} (hc : Commuting fs) {ms ms' : List (List Char × J)}
    (hp : ms.Perm ms') (hs : Separate fs ms) (hq : ∀ m ∈ ms, Calm fs m) (st : ρ × JErr) :
    ms.foldl (decMember fs) st = ms'.foldl (decMember fs) st := by
  induction hp generalizing st with
  | nil => rfl
  | cons x hp ih => exact ih (List.pairwise_cons.1 hs).2 (fun m hm => hq m (by simp [hm])) _
  | swap x y l =>
    have := (List.pairwise_cons.1 hs).1 x (by simp)
    simp only [List.foldl_cons]
    rw [decMember_comm hc this (hq _ (by simp)) (hq _ (by simp))]
  | trans h1 h2 ih1 ih2 =>
    rw [ih1 hs hq, ih2 ?_ fun m hm => hq m (h1.mem_iff.2 hm)]
    refine (h1.pairwise_iff ?_).1 hs
    intro a b hab f g hf hg
    exact (hab g f hg hf).symm

/-- Members with unknown keys do not matter. -/
theorem foldl_decMember_known {ρ : Type} {fs : List (JField ρ)} (ms : List (List Char × J)) (st : ρ × JErr) :
    (ms.filter fun m => (findField fs m.1).isSome).foldl (decMember fs) st = ms.foldl (decMember fs) st := by
  induction ms generalizing st with
  | nil => rfl
  | cons m ms ih =>
    cases h : findField fs m.1 with
    | none => simp [h, decMember, ih]
    | some f => simp [h, ih]

/-! ### Types that never stop the reading -/

/-- Reading a value of this type never stops. -/
def NeverStops {α : Type} (c : Codec α) : Prop := ∀ old j, (c.dec old j).2 ≠ .stop

theorem never_float (S : FloatSem) (pick : ℚ → Nat × ℤ) : NeverStops (Codec.float S pick) := by
  intro old j
  cases j with
  | num l => cases h : parseFloat S l <;> simp [Codec.float, h]
  | _ => simp [Codec.float]

theorem never_int : NeverStops Codec.int := by
  intro old j
  cases j with
  | num l => cases h : parseInt 64 l <;> simp [Codec.int, h]
  | _ => simp [Codec.int]

theorem never_str : NeverStops Codec.str := by
  intro old j
  cases j <;> simp [Codec.str]

theorem never_bool : NeverStops Codec.bool := by
  intro old j
  cases j <;> simp [Codec.bool]

theorem never_ptr {α : Type} {c : Codec α} (h : NeverStops c) : NeverStops c.ptr := by
  intro old j
  cases j <;> first | exact h _ _ | simp [Codec.ptr]

theorem never_slice {α : Type} (isNil : Bool) (stale : List α → List α) {c : Codec α} (h : NeverStops c) :
    NeverStops (Codec.slice isNil stale c) := by
  intro old j
  cases j with
  | arr l =>
    show (decElems c old (stale old) l).2 ≠ .stop
    generalize stale old = st
    induction l generalizing old st with
    | nil => simp [decElems]
    | cons j js ih =>
      rw [decElems, if_neg (h _ _)]
      simp only [ne_eq, JErr.or_eq_stop, not_or]
      exact ⟨h _ _, ih _ _⟩
  | _ => simp [Codec.slice]

theorem foldl_calm {ρ : Type} {fs : List (JField ρ)} {ms : List (List Char × J)} (hq : ∀ m ∈ ms, Calm fs m)
    {st : ρ × JErr} (h : st.2 ≠ .stop) : (ms.foldl (decMember fs) st).2 ≠ .stop := by
  induction ms generalizing st with
  | nil => exact h
  | cons m ms ih => exact ih (fun x hx => hq x (by simp [hx])) (decMember_calm h (hq m (by simp)))

theorem calm_all {ρ : Type} {fs : List (JField ρ)} (h : ∀ f ∈ fs, ∀ s j, (f.dec s j).2 ≠ .stop) (m : List Char × J) :
    Calm fs m := fun f hf s => h f (findField_mem hf) s m.2

theorem never_struct {ρ : Type} (zero : ρ) {fs : List (JField ρ)} (hn : (fs.map (·.name)).Nodup)
    (h : ∀ f ∈ fs, ∀ s j, (f.dec s j).2 ≠ .stop) : NeverStops (Codec.struct zero fs) := by
  intro old j
  cases j with
  | obj ms =>
    simp only [Codec.struct, visible_eq hn]
    exact foldl_calm (fun m _ => calm_all h m) (by simp)
  | _ => simp [Codec.struct]

/-! ### Which field a key names -/

/-- The names up to case. -/
def foldName (s : List Char) : List Char := s.map foldC

theorem nodup_of_fold {ρ : Type} {fs : List (JField ρ)} (h : (fs.map fun f => foldName f.name.toList).Nodup) :
    (fs.map (·.name)).Nodup := by
  apply List.Nodup.of_map (fun s : String => foldName s.toList)
  simpa [List.map_map, Function.comp_def] using h

theorem eq_of_fold {ρ : Type} {fs : List (JField ρ)} (h : (fs.map fun f => foldName f.name.toList).Nodup)
    {f g : JField ρ} (hf : f ∈ fs) (hg : g ∈ fs) (he : foldName f.name.toList = foldName g.name.toList) : f = g :=
  List.inj_on_of_nodup_map h hf hg he

/-- When names differ even up to case, a key names the field that it equals up to case. -/
theorem findField_iff {ρ : Type} {fs : List (JField ρ)} (h : (fs.map fun f => foldName f.name.toList).Nodup)
    {k : List Char} {f : JField ρ} :
    findField fs k = some f ↔ f ∈ fs ∧ foldName f.name.toList = foldName k := by
  constructor
  · intro hf
    refine ⟨findField_mem hf, ?_⟩
    unfold findField at hf
    split at hf
    · rename_i g hg
      cases hf
      have := List.find?_some hg
      simp only [beq_iff_eq] at this
      rw [this]
    · have := List.find?_some hf
      simpa [foldName] using this
  · rintro ⟨hf, he⟩
    cases hk : findField fs k with
    | none =>
      exfalso
      unfold findField at hk
      split at hk
      · simp at hk
      · rw [List.find?_eq_none] at hk
        exact hk f hf (by simpa [foldName] using he)
    | some g =>
      congr 1
      have hgm := findField_mem hk
      apply eq_of_fold h hgm hf
      rw [he]
      unfold findField at hk
      split at hk
      · rename_i g' hg
        cases hk
        have := List.find?_some hg
        simp only [beq_iff_eq] at this
        rw [this]
      · have := List.find?_some hk
        simpa [foldName] using this

/-- Keys that differ up to case name different fields. -/
theorem separate_of_fold {ρ : Type} {fs : List (JField ρ)} (h : (fs.map fun f => foldName f.name.toList).Nodup)
    {ms : List (List Char × J)} (hm : ms.Pairwise fun m n => foldName m.1 ≠ foldName n.1) : Separate fs ms := by
  refine hm.imp ?_
  intro m n hne f g hf hg he
  rw [findField_iff h] at hf hg
  exact hne (by rw [← hf.2, ← hg.2, he])

/-- A field holds what the members naming it, in their order, leave in it; only the last member may stop
the reading. -/
theorem read_field {α ρ : Type} {fs : List (JField ρ)} (h : (fs.map fun f => foldName f.name.toList).Nodup)
    {c : Codec α} {name : String} {get : ρ → α} {set : ρ → α → ρ} (hf : c.field name get set ∈ fs)
    (hgs : ∀ r v, get (set r v) = v)
    (ho : ∀ g ∈ fs, g.name ≠ name → ∀ s j, get (g.dec s j).1 = get s) (ms : List (List Char × J))
    (hq : ∀ m ∈ ms.dropLast, Calm fs m) (st : ρ × JErr) (hst : st.2 ≠ .stop) :
    get (ms.foldl (decMember fs) st).1 =
      (ms.filter fun m => foldName m.1 == foldName name.toList).foldl (fun v m => (c.dec v m.2).1) (get st.1) := by
  induction ms generalizing st with
  | nil => rfl
  | cons m ms ih =>
    have e : get (ms.foldl (decMember fs) (decMember fs st m)).1 =
        (ms.filter fun m => foldName m.1 == foldName name.toList).foldl (fun v m => (c.dec v m.2).1)
          (get (decMember fs st m).1) := by
      cases ms with
      | nil => rfl
      | cons m' ms =>
        rw [List.dropLast_cons_cons] at hq
        exact ih (fun x hx => hq x (by simp [hx])) _ (decMember_calm hst (hq m (by simp)))
    rw [List.foldl_cons, e]
    by_cases hm : foldName m.1 = foldName name.toList
    · have : findField fs m.1 = some (c.field name get set) := (findField_iff h).2 ⟨hf, hm.symm⟩
      simp [hm, decMember, this, Codec.field, hgs, next, hst]
    · have hm' : (foldName m.1 == foldName name.toList) = false := by simpa using hm
      rw [List.filter_cons, hm']
      simp only [Bool.false_eq_true, if_false]
      congr 1
      unfold decMember
      cases hk : findField fs m.1 with
      | none => rfl
      | some g =>
        simp only [next_fst hst]
        apply ho g (findField_mem hk)
        intro e
        apply hm
        rw [← ((findField_iff h).1 hk).2, e]

end Go
