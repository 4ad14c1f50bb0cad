import Verif.Props.Printed

/-!
# C174: a printed order book identifies its rows
-/

namespace Finmod
open Go Spec

/-! ### The characters of numbers -/

/-- A digit or one of `.-+eNaIf` and `n`. -/
def Numeral (c : Char) : Prop := digitC c = true ∨ c ∈ ['.', '-', '+', 'e', 'N', 'a', 'I', 'n', 'f']

instance (c : Char) : Decidable (Numeral c) := inferInstanceAs (Decidable (_ ∨ _))

theorem Numeral.ne {c d : Char} (h : Numeral c) (hd : ¬ Numeral d) : c ≠ d := by rintro rfl; exact hd h

theorem numeral_cons {c : Char} {l : List Char} (hc : Numeral c) (hl : ∀ x ∈ l, Numeral x) : ∀ x ∈ c :: l, Numeral x := by
  intro x hx
  rcases List.mem_cons.1 hx with rfl | h
  exacts [hc, hl x h]

theorem numeral_append {l m : List Char} (hl : ∀ x ∈ l, Numeral x) (hm : ∀ x ∈ m, Numeral x) : ∀ x ∈ l ++ m, Numeral x := by
  intro x hx
  rcases List.mem_append.1 hx with h | h
  exacts [hl x h, hm x h]

theorem numeral_toDigits (n : Nat) : ∀ c ∈ Nat.toDigits 10 n, Numeral c := fun _ h => .inl (digitC_toDigits h)

theorem numeral_replicate (n : Nat) : ∀ x ∈ List.replicate n '0', Numeral x := by
  intro x hx; rw [List.mem_replicate] at hx; rw [hx.2]; decide

theorem numeral_fmtInt (n : Int) : ∀ c ∈ fmtInt n, Numeral c := by
  unfold fmtInt
  split_ifs
  · exact numeral_cons (by decide) (numeral_toDigits _)
  · exact numeral_toDigits _

theorem numeral_fmtExp (e : ℤ) : ∀ c ∈ fmtExp e, Numeral c := by
  obtain ⟨D, hD, -, h1, -, -⟩ := fmtExp_digits e
  rw [hD]
  refine numeral_cons ?_ (fun c hc => .inl (h1 c hc))
  split_ifs <;> decide

theorem numeral_fmtE {ds : List Char} (h : ∀ c ∈ ds, Numeral c) (dp : ℤ) : ∀ c ∈ fmtE ds dp, Numeral c := by
  unfold fmtE
  split
  · simp
  · exact numeral_cons (h _ (by simp)) (numeral_cons (by decide) (numeral_fmtExp _))
  · exact numeral_cons (h _ (by simp)) (numeral_cons (by decide)
      (numeral_append (fun c hc => h c (by simp [hc])) (numeral_cons (by decide) (numeral_fmtExp _))))

theorem numeral_fmtF {ds : List Char} (h : ∀ c ∈ ds, Numeral c) (dp : ℤ) : ∀ c ∈ fmtF ds dp, Numeral c := by
  unfold fmtF
  split_ifs
  · exact numeral_append h (numeral_replicate _)
  · exact numeral_append (fun c hc => h c (List.mem_of_mem_take hc))
      (numeral_cons (by decide) (fun c hc => h c (List.mem_of_mem_drop hc)))
  · exact numeral_cons (by decide) (numeral_cons (by decide) (numeral_append (numeral_replicate _) h))

theorem numeral_fmtFloat (pick : ℚ → Nat × ℤ) (eprec : ℤ) (x : Fl) : ∀ c ∈ fmtFloat pick eprec x, Numeral c := by
  have hG : ∀ n dp, ∀ c ∈ fmtG eprec (Nat.toDigits 10 n) dp, Numeral c := by
    intro n dp
    unfold fmtG
    split_ifs
    · exact numeral_fmtE (numeral_toDigits _) _
    · exact numeral_fmtF (numeral_toDigits _) _
  unfold fmtFloat
  split
  · decide
  · decide
  · decide
  · decide
  · dsimp only
    split_ifs
    · decide
    · exact numeral_cons (by decide) (hG _ _)
    · exact hG _ _

theorem numeral_fmtFixed (k : Nat) (x : Fl) : ∀ c ∈ fmtFixed k x, Numeral c := by
  unfold fmtFixed
  split
  · decide
  · decide
  · decide
  · exact numeral_cons (by decide) (numeral_cons (by decide) (numeral_cons (by decide) (numeral_replicate _)))
  · dsimp only
    split_ifs
    · exact numeral_cons (by decide) (numeral_fmtF (numeral_toDigits _) _)
    · exact numeral_fmtF (numeral_toDigits _) _

theorem bytes_ofList (l : List Char) : bytes (String.ofList l) = l.flatMap String.utf8EncodeChar := by
  unfold bytes String.toUTF8
  rw [String.toByteArray_ofList]
  simp [List.utf8Encode]

theorem bytes_injective {s t : String} (h : bytes s = bytes t) : s = t := by
  refine String.toByteArray_inj.1 ?_
  unfold bytes String.toUTF8 at h
  exact ByteArray.ext (Array.toList_inj.1 h)

theorem numeral_byte {c : Char} (h : Numeral c) : (10 : UInt8) ∉ String.utf8EncodeChar c := by
  have key : ∀ v : Nat, 43 ≤ v → v ≤ 127 → (10 : UInt8) ≠ UInt8.ofNat v := by
    intro v h1 h2 e
    have := congrArg UInt8.toNat e
    simp at this
    omega
  have hv : 43 ≤ c.val.toNat ∧ c.val.toNat ≤ 127 := by
    rcases h with h | h
    · simp only [digitC, decide_eq_true_eq] at h
      change 43 ≤ c.toNat ∧ c.toNat ≤ 127
      omega
    · have : ∀ d ∈ ['.', '-', '+', 'e', 'N', 'a', 'I', 'n', 'f'], 43 ≤ d.val.toNat ∧ d.val.toNat ≤ 127 := by decide
      exact this c h
  simp only [String.utf8EncodeChar, hv.2, if_true, List.mem_singleton]
  exact key _ hv.1 hv.2

theorem flat_numeral {l : List Char} (h : ∀ c ∈ l, Numeral c) : Flat (String.ofList l) := by
  unfold Flat feeds
  rw [bytes_ofList, List.count_eq_zero]
  intro hm
  obtain ⟨c, hc, hb⟩ := List.mem_flatMap.1 hm
  exact numeral_byte (h c hc) hb

/-- **C173.** Numbers are written without line feeds, so the texts are lines as far as the times are
(C128). -/
theorem C173_flat (pick : ℚ → Nat × ℤ) (eprec : ℤ) {time unixTime : Int → String} (ht : ∀ n, Flat (time n))
    (hu : ∀ n, Flat (unixTime n)) : FlatFmt (Fmt.go pick eprec time unixTime) where
  f k x := flat_numeral (numeral_fmtFixed k x)
  v x := flat_numeral (numeral_fmtFloat pick eprec x)
  d n := flat_numeral (numeral_fmtInt n)
  time := ht
  unixTime := hu
  bool b := by
    cases b
    · exact (by decide +kernel : feeds (bytes "false") = 0)
    · exact (by decide +kernel : feeds (bytes "true") = 0)

/-! ### Reading rows back -/

/-- All numbers of the book are float64 values. -/
def Spec.BookRep (S : FloatSem) (b : Book) : Prop :=
  ∀ r ∈ b.asks ++ b.bids, S.Rep r.price ∧ S.Rep r.volume ∧ S.Rep r.accum

variable {S : FloatSem} {pick : ℚ → Nat × ℤ} {eprec : ℤ} {time unixTime : Int → String}

theorem fmtFloat_inj (hS : Lawful S) (hp : GoodPick S pick) {x y : Fl} (hx : S.Rep x) (hy : S.Rep y)
    (h : fmtFloat pick eprec x = fmtFloat pick eprec y) : x = y := by
  have h1 := parseFloat_fmtFloat hS hp eprec hx
  rw [h, parseFloat_fmtFloat hS hp eprec hy] at h1
  exact (Option.some.inj h1).symm

theorem row_toList (r : Row) : (r.fields (Fmt.go pick eprec time unixTime)).toList =
    '{' :: (fmtFloat pick eprec r.price ++ ' ' :: (fmtFloat pick eprec r.volume ++ ' ' :: (fmtFloat pick eprec r.accum ++ ['}']))) := by
  simp [Row.fields, Fmt.go, String.toList_append]

theorem row_split (hS : Lawful S) (hp : GoodPick S pick) {r r' : Row} (h : S.Rep r.price ∧ S.Rep r.volume ∧ S.Rep r.accum)
    (h' : S.Rep r'.price ∧ S.Rep r'.volume ∧ S.Rep r'.accum) {x y : List Char}
    (e : (r.fields (Fmt.go pick eprec time unixTime)).toList ++ x = (r'.fields (Fmt.go pick eprec time unixTime)).toList ++ y) :
    r = r' ∧ x = y := by
  have hsp : ∀ z, ' ' ∉ fmtFloat pick eprec z := fun z hm => (numeral_fmtFloat pick eprec z _ hm).ne (d := ' ') (by decide) rfl
  have hbr : ∀ z, '}' ∉ fmtFloat pick eprec z := fun z hm => (numeral_fmtFloat pick eprec z _ hm).ne (d := '}') (by decide) rfl
  simp only [row_toList, List.cons_append, List.append_assoc, List.cons.injEq, true_and] at e
  obtain ⟨e1, e⟩ := sep_split (hsp _) (hsp _) e
  obtain ⟨e2, e⟩ := sep_split (hsp _) (hsp _) e
  obtain ⟨e3, e⟩ := sep_split (hbr _) (hbr _) e
  refine ⟨?_, by simpa using e⟩
  cases r; cases r'
  simp only [Row.mk.injEq]
  exact ⟨fmtFloat_inj hS hp h.1 h'.1 e1, fmtFloat_inj hS hp h.2.1 h'.2.1 e2, fmtFloat_inj hS hp h.2.2 h'.2.2 e3⟩

theorem row_head (r : Row) : ∃ t, (r.fields (Fmt.go pick eprec time unixTime)).toList = '{' :: t := ⟨_, row_toList r⟩

/-- Rows one to a line, before something that is no row. -/
theorem lines_split (hS : Lawful S) (hp : GoodPick S pick) (l l' : List Row)
    (h : ∀ r ∈ l, S.Rep r.price ∧ S.Rep r.volume ∧ S.Rep r.accum) (h' : ∀ r ∈ l', S.Rep r.price ∧ S.Rep r.volume ∧ S.Rep r.accum)
    {x y : List Char} (hx : x.head? ≠ some '{') (hy : y.head? ≠ some '{')
    (e : (l.flatMap fun r => (r.fields (Fmt.go pick eprec time unixTime)).toList ++ ['\n']) ++ x =
      (l'.flatMap fun r => (r.fields (Fmt.go pick eprec time unixTime)).toList ++ ['\n']) ++ y) : l = l' ∧ x = y := by
  induction l generalizing l' with
  | nil =>
    cases l' with
    | nil => exact ⟨rfl, by simpa using e⟩
    | cons r' l' =>
      obtain ⟨t, ht⟩ := row_head (pick := pick) (eprec := eprec) (time := time) (unixTime := unixTime) r'
      simp only [List.flatMap_nil, List.nil_append, List.flatMap_cons, ht, List.cons_append] at e
      rw [e] at hx; simp at hx
  | cons r l ih =>
    cases l' with
    | nil =>
      obtain ⟨t, ht⟩ := row_head (pick := pick) (eprec := eprec) (time := time) (unixTime := unixTime) r
      simp only [List.flatMap_nil, List.nil_append, List.flatMap_cons, ht, List.cons_append] at e
      rw [← e] at hy; simp at hy
    | cons r' l' =>
      simp only [List.flatMap_cons, List.append_assoc] at e
      obtain ⟨rfl, e'⟩ := row_split hS hp (h r (by simp)) (h' r' (by simp)) e
      obtain ⟨rfl, rfl⟩ := ih l' (fun r hr => h r (by simp [hr])) (fun r hr => h' r (by simp [hr])) (by simpa using e')
      exact ⟨rfl, rfl⟩

/-- Rows in brackets. -/
theorem bracket_split (hS : Lawful S) (hp : GoodPick S pick) (l l' : List Row)
    (h : ∀ r ∈ l, S.Rep r.price ∧ S.Rep r.volume ∧ S.Rep r.accum) (h' : ∀ r ∈ l', S.Rep r.price ∧ S.Rep r.volume ∧ S.Rep r.accum)
    {x y : List Char}
    (e : (spaced (l.map (Row.fields (Fmt.go pick eprec time unixTime)))).toList ++ ']' :: x =
      (spaced (l'.map (Row.fields (Fmt.go pick eprec time unixTime)))).toList ++ ']' :: y) : l = l' ∧ x = y := by
  have hd : ∀ (r : Row) (l : List Row), ∃ t, (spaced ((r :: l).map (Row.fields (Fmt.go pick eprec time unixTime)))).toList = '{' :: t := by
    intro r l
    obtain ⟨t, ht⟩ := row_head (pick := pick) (eprec := eprec) (time := time) (unixTime := unixTime) r
    cases l with
    | nil => exact ⟨t, by simpa [spaced] using ht⟩
    | cons r' l => exact ⟨_, by simp only [List.map_cons, spaced, String.toList_append, ht, List.cons_append]; rfl⟩
  induction l generalizing l' with
  | nil =>
    cases l' with
    | nil => exact ⟨rfl, by simpa using e⟩
    | cons r' l' =>
      obtain ⟨t, ht⟩ := hd r' l'
      rw [ht] at e
      simp [spaced] at e
  | cons r l ih =>
    cases l' with
    | nil =>
      obtain ⟨t, ht⟩ := hd r l
      rw [ht] at e
      simp [spaced] at e
    | cons r' l' =>
      cases l with
      | nil =>
        cases l' with
        | nil =>
          simp only [List.map_cons, List.map_nil, spaced] at e
          obtain ⟨rfl, e'⟩ := row_split hS hp (h r (by simp)) (h' r' (by simp)) e
          exact ⟨rfl, by simpa using e'⟩
        | cons r2 l' =>
          simp only [List.map_cons, List.map_nil, spaced, String.toList_append, List.append_assoc] at e
          obtain ⟨rfl, e'⟩ := row_split hS hp (h r (by simp)) (h' r' (by simp)) e
          simp at e'
      | cons r1 l =>
        cases l' with
        | nil =>
          simp only [List.map_cons, List.map_nil, spaced, String.toList_append, List.append_assoc] at e
          obtain ⟨rfl, e'⟩ := row_split hS hp (h r (by simp)) (h' r' (by simp)) e
          simp at e'
        | cons r2 l' =>
          simp only [List.map_cons, spaced, String.toList_append, List.append_assoc] at e
          obtain ⟨rfl, e'⟩ := row_split hS hp (h r (by simp)) (h' r' (by simp)) e
          have e : (spaced ((r1 :: l).map (Row.fields (Fmt.go pick eprec time unixTime)))).toList ++ ']' :: x =
              (spaced ((r2 :: l').map (Row.fields (Fmt.go pick eprec time unixTime)))).toList ++ ']' :: y := by
            simpa [spaced, String.toList_append] using e'
          obtain ⟨e1, e2⟩ := ih (r2 :: l') (fun r hr => h r (by simp [hr])) (fun r hr => h' r (by simp [hr])) e
          rw [e1]; exact ⟨rfl, e2⟩

theorem printed_toList (F : Fmt) (b : Book) : (b.printed F).toList = "======= OrderBook =======\n".toList ++
    ((b.asks.reverse.flatMap fun r => (r.fields F).toList ++ ['\n']) ++
      ("-------------------------\n".toList ++ ((b.bids.flatMap fun r => (r.fields F).toList ++ ['\n']) ++ []))) := by
  have hf : ∀ (l : List String) (s : String), (l.foldl (· ++ ·) s).toList = s.toList ++ l.flatMap String.toList := by
    intro l
    induction l with
    | nil => intro s; simp
    | cons a l ih => intro s; rw [List.foldl_cons, ih, String.toList_append, List.flatMap_cons, List.append_assoc]
  have hm : ∀ l : List Row, (l.map PrintLine.row).flatMap (fun x => (PrintLine.text F x).toList) =
      l.flatMap fun r => (r.fields F).toList ++ ['\n'] := by
    intro l
    rw [List.flatMap_map]
    exact List.flatMap_congr fun r _ => by simp only [PrintLine.text, String.toList_append]; rfl
  unfold Book.printed
  rw [hf, List.flatMap_map, show b.print = [.title] ++ b.asks.reverse.map .row ++ [.separator] ++ b.bids.map .row by
      unfold Book.print; rw [print_asks]]
  simp only [List.flatMap_append, List.flatMap_cons, List.flatMap_nil, List.append_nil, hm, List.append_assoc,
    String.toList_empty, List.nil_append]
  rfl

/-- **C174.** Two books with the same `Print` output have the same asks and the same bids. -/
theorem C174_print (hS : Lawful S) (hp : GoodPick S pick) {b b' : Book} (hb : BookRep S b) (hb' : BookRep S b')
    (e : b.printed (Fmt.go pick eprec time unixTime) = b'.printed (Fmt.go pick eprec time unixTime)) :
    b.asks = b'.asks ∧ b.bids = b'.bids := by
  have e := congrArg String.toList e
  rw [printed_toList, printed_toList] at e
  have e := List.append_cancel_left e
  have hd : ∀ z, ("-------------------------\n".toList ++ z).head? ≠ some '{' := by
    intro z
    rw [show "-------------------------\n".toList = '-' :: "------------------------\n".toList by decide +kernel]
    simp
  obtain ⟨e1, e⟩ := lines_split hS hp _ _ (fun r hr => hb r (by simp at hr; simp [hr])) (fun r hr => hb' r (by simp at hr; simp [hr]))
    (hd _) (hd _) e
  have e := List.append_cancel_left e
  obtain ⟨e2, -⟩ := lines_split hS hp _ _ (fun r hr => hb r (by simp [hr])) (fun r hr => hb' r (by simp [hr]))
    (by simp) (by simp) e
  exact ⟨List.reverse_injective e1, e2⟩

theorem fmtInt_inj {m n : Int} (h : fmtInt m = fmtInt n) : m = n := by
  obtain ⟨bits, h1, h2, h3, h4⟩ : ∃ bits : Nat, -2 ^ (bits - 1) ≤ m ∧ m < 2 ^ (bits - 1) ∧ -2 ^ (bits - 1) ≤ n ∧ n < 2 ^ (bits - 1) := by
    refine ⟨m.natAbs + n.natAbs + 1, ?_⟩
    have : (m.natAbs + n.natAbs : ℕ) < 2 ^ (m.natAbs + n.natAbs) := Nat.lt_two_pow_self
    have h : ((m.natAbs + n.natAbs : ℕ) : ℤ) < 2 ^ (m.natAbs + n.natAbs) := by exact_mod_cast this
    rw [Nat.add_sub_cancel]
    generalize (2 : ℤ) ^ (m.natAbs + n.natAbs) = K at *
    omega
  have e1 := parseInt_fmtInt h1 h2
  rw [h, parseInt_fmtInt h3 h4] at e1
  exact (Option.some.inj e1).symm

/-- **C174.** Two books with the same `String` have the same time, the same asks and the same bids. -/
theorem C174_string (hS : Lawful S) (hp : GoodPick S pick) {b b' : Book} (hb : BookRep S b) (hb' : BookRep S b')
    (e : b.string (Fmt.go pick eprec time unixTime) = b'.string (Fmt.go pick eprec time unixTime)) :
    b.time = b'.time ∧ b.asks = b'.asks ∧ b.bids = b'.bids := by
  have e := congrArg String.toList (bytes_injective (Res.ok.inj e))
  simp only [String.toList_append, List.append_assoc, bracketed] at e
  have e := List.append_cancel_left e
  have c1 : ", Asks: ".toList = ',' :: " Asks: ".toList := by decide +kernel
  have c2 : "]".toList = [']'] := by decide +kernel
  rw [c1, c2] at e
  have hc : ∀ n, ',' ∉ ((Fmt.go pick eprec time unixTime).d n).toList := by
    intro n hm
    simp only [Fmt.go, String.toList_ofList] at hm
    exact (numeral_fmtInt n _ hm).ne (d := ',') (by decide) rfl
  simp only [List.cons_append, List.nil_append] at e
  obtain ⟨e1, e⟩ := sep_split (hc _) (hc _) e
  have e := List.append_cancel_left (List.append_cancel_left e)
  obtain ⟨e2, e⟩ := bracket_split hS hp _ _ (fun r hr => hb r (by simp [hr])) (fun r hr => hb' r (by simp [hr])) e
  have e := List.append_cancel_left (List.append_cancel_left e)
  obtain ⟨e3, -⟩ := bracket_split hS hp _ _ (fun r hr => hb r (by simp [hr])) (fun r hr => hb' r (by simp [hr])) e
  refine ⟨fmtInt_inj ?_, e2, e3⟩
  simpa [Fmt.go] using e1

/-- **C174.** `Print` writes two lines more than the book has rows. -/
theorem C174_lines {F : Fmt} (hF : FlatFmt F) (b : Book) :
    Lines (2 + b.asks.length + b.bids.length) (.ok (bytes (b.printed F))) := by
  have hrow : ∀ r : Row, nl (r.fields F) = 0 := by
    intro r
    have v : ∀ x, nl (F.v x) = 0 := hF.v
    unfold Row.fields; count_feeds; simp only [v]
  have hl : ∀ l : List PrintLine, ∀ s, nl ((l.map (PrintLine.text F)).foldl (· ++ ·) s) = nl s + l.length := by
    intro l
    induction l with
    | nil => intro s; simp
    | cons a l ih =>
      intro s
      have ha : nl (PrintLine.text F a) = 1 := by
        cases a with
        | title => exact (by decide +kernel : nl "======= OrderBook =======\n" = 1)
        | separator => exact (by decide +kernel : nl "-------------------------\n" = 1)
        | row r =>
          show nl (r.fields F ++ "\n") = 1
          rw [nl_append, hrow, show nl "\n" = 1 by decide +kernel]
      rw [List.map_cons, List.foldl_cons, ih, nl_append, ha, List.length_cons]; omega
  have hlast : ∀ l : List PrintLine, l ≠ [] → ∀ s, (bytes ((l.map (PrintLine.text F)).foldl (· ++ ·) s)).getLast? = some 10 := by
    intro l
    induction l with
    | nil => intro h; exact absurd rfl h
    | cons a l ih =>
      intro _ s
      rw [List.map_cons, List.foldl_cons]
      by_cases h : l = []
      · subst h
        rw [List.map_nil, List.foldl_nil, bytes_append]
        have ha : (bytes (PrintLine.text F a)).getLast? = some 10 := by
          cases a with
          | title => exact (by decide +kernel : (bytes "======= OrderBook =======\n").getLast? = some 10)
          | separator => exact (by decide +kernel : (bytes "-------------------------\n").getLast? = some 10)
          | row r => exact last_append _
        rw [List.getLast?_append, ha]; rfl
      · exact ih h _
  have hlen : b.print.length = 2 + b.asks.length + b.bids.length := by
    unfold Book.print; rw [print_asks]; simp; omega
  refine ⟨_, rfl, ?_, hlast _ ?_ _⟩
  · have := hl b.print ""
    rw [show nl "" = 0 by decide +kernel, hlen, Nat.zero_add] at this
    exact this
  · intro h; rw [h] at hlen; simp at hlen; omega

/-- A book with two asks and a bid; the last ask is not a whole number. -/
example : let F := Fmt.go (shortest ieee) 21 (fun _ => "") (fun _ => "")
    let b : Book := ⟨7, [⟨.fin 100, .fin 2, .fin 2⟩, ⟨.fin 101, .fin (1 / 2), .fin (5 / 2)⟩], [⟨.fin 99, .fin 1, .fin 1⟩], 10⟩
    GoodPick ieee (shortest ieee) ∧ Lawful ieee ∧ BookRep ieee b ∧
    b.printed F = "======= OrderBook =======\n{101 0.5 2.5}\n{100 2 2}\n-------------------------\n{99 1 1}\n" ∧
    b.string F = .ok (bytes "Time: 7, Asks: [{100 2 2} {101 0.5 2.5}], Bids: [{99 1 1}]\n") := by
  refine ⟨shortest_good, ieee_lawful, ?_, by decide +kernel, by decide +kernel⟩
  have hr : ∀ q : ℚ, ieee.rnd q = .fin q → ieee.Rep (.fin q) := by intro q h x hx; cases hx; exact h
  have hh : ieee.rnd (1 / 2) = .fin (1 / 2) ∧ ieee.rnd (5 / 2) = .fin (5 / 2) ∧ ieee.rnd 100 = .fin 100 ∧ ieee.rnd 2 = .fin 2 ∧
      ieee.rnd 101 = .fin 101 ∧ ieee.rnd 99 = .fin 99 ∧ ieee.rnd 1 = .fin 1 := by decide +kernel
  obtain ⟨h1, h2, h3, h4, h5, h6, h7⟩ := hh
  intro r hm
  simp only [List.cons_append, List.nil_append, List.mem_cons, List.not_mem_nil, or_false] at hm
  rcases hm with rfl | rfl | rfl
  · exact ⟨hr _ h3, hr _ h4, hr _ h4⟩
  · exact ⟨hr _ h5, hr _ h1, hr _ h2⟩
  · exact ⟨hr _ h6, hr _ h7, hr _ h7⟩

end Finmod
