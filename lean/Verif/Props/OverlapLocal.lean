import Verif.Props.BookOverlap
import Verif.Props.BookUpdate

/-!
# C216: what an overlap depends on
-/

namespace Finmod
open Go Spec

/-- **C216** A book that began with no bid above an ask does not overlap itself, after any history of updates. -/
theorem C216_self (S : FloatSem) (b : Book) (h : WellFormed b) (hd : 0 ≤ b.maxDepth) (hb : DepthOk b)
    (hx : Uncrossed b) (us : List Update) (hu : NumUpdates us) :
    ∃ b', b.applyAll us = .ok b' ∧
      (b'.asks ≠ [] ∧ b'.bids ≠ [] → calculateOverlap S b' b' = .err .enotfound (S.const (-1))) ∧
      (b'.asks = [] ∨ b'.bids = [] → calculateOverlap S b' b' = .panic) := by
  obtain ⟨b', h1, h2⟩ := C08_book_never_crossed b h hd hb hx us hu
  refine ⟨b', h1, ?_, ?_⟩
  · rintro ⟨ha, hbi⟩
    have hn : ¬ Overlaps b' b' := by
      rintro ⟨a, c, e1, e2, hlt⟩
      have hle := h2 c (List.mem_of_head? e2) a (List.mem_of_head? e1)
      simp only [Fl.lt, Fl.le, Bool.and_eq_true, decide_eq_true_eq] at hlt hle
      exact absurd hle.2 (not_le.2 hlt.2)
    exact (calculateOverlap_cases S b' b' ⟨ha, hbi, ha, hbi⟩).2.2 hn hn
  · intro he
    unfold calculateOverlap
    rcases b' with ⟨t, _ | ⟨a, as⟩, _ | ⟨c, cs⟩, d⟩ <;> simp at he ⊢

theorem scan_split (S : FloatSem) (stop : Row → Bool) {F G G' : List Row} (hF : ∀ r ∈ F, stop r = false)
    (hG : ∀ r ∈ G, stop r = true) (hG' : ∀ r ∈ G', stop r = true) (he : G = [] ↔ G' = []) (acc : Fl) :
    overlapScan S stop (F ++ G) 0 acc = overlapScan S stop (F ++ G') 0 acc ∧
    (F ++ G).take (overlapScan S stop (F ++ G') 0 acc).2 = (F ++ G').take (overlapScan S stop (F ++ G') 0 acc).2 := by
  have key : ∀ K : List Row, (∀ r ∈ K, stop r = true) →
      overlapScan S stop (F ++ K) 0 acc = ((F.map (·.volume)).foldl S.add acc, if K = [] then 0 else F.length) := by
    intro K hK
    rw [overlapScan_eq]
    have e1 : (F ++ K).takeWhile (fun r => !(stop r)) = F := by
      rw [List.takeWhile_append_of_pos (by intro r hr; simp [hF r hr])]
      cases K with
      | nil => simp
      | cons k K => simp [hK k List.mem_cons_self]
    have e2 : (F ++ K).any stop = !K.isEmpty := by
      rw [List.any_append]
      have : F.any stop = false := by simpa using hF
      rw [this]
      cases K with
      | nil => rfl
      | cons k K => simp [hK k List.mem_cons_self]
    rw [e1, e2]
    cases K <;> simp
  rw [key G hG, key G' hG']
  refine ⟨by simp only [he], ?_⟩
  simp only
  split_ifs
  · rfl
  · rw [List.take_left, List.take_left]

/-- **C216** Only the crossing rows count. `F` are the asks up to the other book's best bid, `H` the bids down to the best
ask. What lies beyond may be replaced by anything that lies beyond; only whether there is something matters. So may the two sides
that do not take part. Every arithmetic, sorted or not. -/
theorem C216_far_rows (S : FloatSem) {x x' y y' : Book} {a b : Row} {F G G' H K K' : List Row}
    (hx : x.asks = a :: F ++ G) (hx' : x'.asks = a :: F ++ G') (hy : y.bids = b :: H ++ K) (hy' : y'.bids = b :: H ++ K')
    (hab : Fl.lt a.price b.price = true)
    (hF : ∀ r ∈ F, Fl.gt r.price b.price = false) (hG : ∀ r ∈ G ++ G', Fl.gt r.price b.price = true)
    (hH : ∀ r ∈ H, Fl.lt r.price a.price = false) (hK : ∀ r ∈ K ++ K', Fl.lt r.price a.price = true)
    (eG : G = [] ↔ G' = []) (eK : K = [] ↔ K' = []) :
    calculateOverlap S x y = calculateOverlap S x' y' := by
  have hba : Fl.gt a.price b.price = false ∧ Fl.lt b.price a.price = false := by
    have : Fl.lt b.price a.price = false := by
      simp only [Fl.lt, Bool.and_eq_true, decide_eq_true_eq] at hab
      simp only [Fl.lt, Bool.and_eq_false_iff, decide_eq_false_iff_not]
      exact .inr (not_lt.2 hab.2.le)
    exact ⟨this, this⟩
  obtain ⟨s1, s2⟩ := scan_split S (fun r => Fl.gt r.price b.price) (F := a :: F) (G := G) (G' := G')
    (by intro r hr; rcases List.mem_cons.1 hr with rfl | hr; exacts [hba.1, hF r hr])
    (fun r hr => hG r (List.mem_append_left _ hr)) (fun r hr => hG r (List.mem_append_right _ hr)) eG (.fin 0)
  obtain ⟨t1, t2⟩ := scan_split S (fun r => Fl.lt r.price a.price) (F := b :: H) (G := K) (G' := K')
    (by intro r hr; rcases List.mem_cons.1 hr with rfl | hr; exacts [hba.2, hH r hr])
    (fun r hr => hK r (List.mem_append_left _ hr)) (fun r hr => hK r (List.mem_append_right _ hr)) eK (.fin 0)
  have e : overlapCalculation S x y = overlapCalculation S x' y' := by
    unfold overlapCalculation
    rw [hx, hx', hy, hy']
    simp only [List.cons_append] at s1 s2 t1 t2 ⊢
    simp only [s1, s2, t1, t2]
  unfold calculateOverlap
  rw [e, hx, hx', hy, hy']
  simp only [List.cons_append, hab, if_true]

theorem sorted_far {l : List Row} {far : Row → Bool}
    (hs : l.Pairwise fun r c => far r = true → far c = true) :
    l = l.filter (fun r => !(far r)) ++ l.filter far := by
  induction l with
  | nil => rfl
  | cons r l ih =>
    obtain ⟨h1, h2⟩ := List.pairwise_cons.1 hs
    cases hg : far r with
    | false =>
      rw [List.filter_cons_of_pos (by simp [hg]), List.filter_cons_of_neg (by simp [hg]), List.cons_append]
      congr 1
      exact ih h2
    | true =>
      rw [List.filter_cons_of_neg (by simp [hg]), List.filter_cons_of_pos (by simp [hg]),
        List.filter_eq_nil_iff.2 (by intro c hc; simp [h1 c hc hg]), List.filter_eq_self.2 fun c hc => h1 c hc hg]
      rfl

theorem ask_far {l : List Row} (hs : AskSorted l) (q : Fl) :
    l = l.filter (fun r => !(Fl.gt r.price q)) ++ l.filter (fun r => Fl.gt r.price q) := by
  refine sorted_far (hs.imp ?_)
  intro r c h hg
  simp only [Fl.gt, Fl.lt, Bool.and_eq_true, decide_eq_true_eq] at h hg ⊢
  exact ⟨⟨hg.1.1, h.1.2⟩, hg.2.trans h.2⟩

theorem bid_far {l : List Row} (hs : BidSorted l) (q : Fl) :
    l = l.filter (fun r => !(Fl.lt r.price q)) ++ l.filter (fun r => Fl.lt r.price q) := by
  refine sorted_far (hs.imp ?_)
  intro r c h hg
  simp only [Fl.gt, Fl.lt, Bool.and_eq_true, decide_eq_true_eq] at h hg ⊢
  exact ⟨⟨h.1.1, hg.1.2⟩, h.2.trans hg.2⟩

/-- Taking at least the near rows leaves the near rows and a part of the far ones. -/
theorem take_far (F G : List Row) {n : ℕ} (h : F.length ≤ n) : (F ++ G).take n = F ++ G.take (n - F.length) := by
  rw [List.take_append, List.take_of_length_le h]

theorem ask_set_far {l : List Row} (hn : NumPrices l) {p q v : Fl} (hpq : Fl.gt p q = true) :
    ∃ G, (∀ r ∈ G, Fl.gt r.price q = true) ∧
      (AskSorted l → setAsk l p v = l.filter (fun r => !(Fl.gt r.price q)) ++ G) := by
  refine ⟨(l.filter fun r => Fl.lt r.price p).filter (fun r => Fl.gt r.price q) ++ [⟨p, v, .fin 0⟩] ++
    l.filter (fun r => Fl.gt r.price p), ?_, ?_⟩
  · intro r hr
    simp only [List.mem_append, List.mem_filter, List.mem_singleton] at hr
    rcases hr with (⟨_, h⟩ | rfl) | ⟨_, h⟩
    · exact h
    · exact hpq
    · simp only [Fl.gt, Fl.lt, Bool.and_eq_true, decide_eq_true_eq] at h hpq ⊢
      exact ⟨⟨hpq.1.1, h.1.2⟩, hpq.2.trans h.2⟩
  · intro hs
    have e : (l.filter fun r => Fl.lt r.price p) =
        l.filter (fun r => !(Fl.gt r.price q)) ++ (l.filter fun r => Fl.lt r.price p).filter (fun r => Fl.gt r.price q) := by
      have h1 := ask_far (l := l.filter fun r => Fl.lt r.price p) (hs.filter _) q
      have h2 : (l.filter fun r => Fl.lt r.price p).filter (fun r => !(Fl.gt r.price q)) =
          l.filter (fun r => !(Fl.gt r.price q)) := by
        rw [List.filter_filter]
        refine List.filter_congr fun r hr => ?_
        have hnr := hn r hr
        cases hg : Fl.gt r.price q with
        | true => rfl
        | false =>
          have : Fl.lt r.price p = true := by
            simp only [Fl.gt, Fl.lt, Bool.and_eq_true, decide_eq_true_eq, Bool.and_eq_false_iff,
              decide_eq_false_iff_not, Bool.not_eq_true', Bool.not_eq_false'] at hg hpq ⊢
            have hr' : r.price.isNaN = false := by cases hr' : r.price <;> simp_all [Fl.isNaN]
            rcases hg with (h | h) | h
            · simp [hpq.1.1] at h
            · simp [hr'] at h
            · exact ⟨⟨hr', hpq.1.2⟩, (not_lt.1 h).trans_lt hpq.2⟩
          simp [this]
      rw [h2] at h1
      exact h1
    unfold setAsk
    conv_lhs => rw [e]
    simp only [List.append_assoc]

theorem ask_delete_far {l : List Row} (hs : AskSorted l) {p q : Fl} (hpq : Fl.gt p q = true) :
    deleteLevel l p = l.filter (fun r => !(Fl.gt r.price q)) ++
      (l.filter fun r => Fl.gt r.price q).filter (fun r => !(Fl.eq r.price p)) := by
  unfold deleteLevel
  conv_lhs => rw [ask_far hs q]
  rw [List.filter_append]
  congr 1
  refine List.filter_eq_self.2 fun r hr => ?_
  have hg : Fl.gt r.price q = false := by simpa using (List.mem_filter.1 hr).2
  cases he : Fl.eq r.price p with
  | false => rfl
  | true =>
    exfalso
    simp only [Fl.gt, Fl.lt, Fl.eq, Bool.and_eq_true, decide_eq_true_eq] at he hpq
    have : Fl.gt r.price q = true := by
      simp only [Fl.gt, Fl.lt, Bool.and_eq_true, decide_eq_true_eq]
      exact ⟨⟨hpq.1.1, he.1.1⟩, by rw [he.2]; exact hpq.2⟩
    rw [hg] at this
    cases this

/-- After an update beyond `q` the asks are the same rows up to `q` and then rows beyond. -/
theorem ask_update_far {x x' : Book} (h : WellFormed x) (hd : 0 ≤ x.maxDepth) (hb : DepthOk x) {u : Update} {q : Fl}
    (hs : u.side = "ask") (hq : Fl.gt u.price q = true) (hx : x.applyUpdate u = .ok x') :
    ∃ G, (∀ r ∈ G, Fl.gt r.price q = true) ∧ x'.asks = x.asks.filter (fun r => !(Fl.gt r.price q)) ++ G := by
  have hp : u.price ≠ .nan := by
    rintro e
    rw [e] at hq
    simp [Fl.gt, Fl.lt, Fl.isNaN] at hq
  cases hv : Fl.eq u.volume (.fin 0) with
  | true =>
    rw [(C06_zero_update_deletes_level x h hd hb u hp hv).1 hs] at hx
    cases hx
    exact ⟨_, fun r hr => (List.mem_filter.1 (List.mem_filter.1 hr).1).2, ask_delete_far h.asks_sorted hq⟩
  | false =>
    obtain ⟨b', e1, e2⟩ := (C05_nonzero_update_sets_level x h hd u hp (by simp [Fl.ne, hv])).1 hs
    rw [e1] at hx
    cases hx
    obtain ⟨G, g1, g2⟩ := ask_set_far (v := u.volume) h.asks_num hq
    have hl : (x.asks.filter (fun r => !(Fl.gt r.price q))).length ≤ x.maxDepth.toNat := by
      have h1 := List.length_filter_le (fun r => !(Fl.gt r.price q)) x.asks
      have h2 := hb.1
      omega
    rw [g2 h.asks_sorted, take_far _ _ hl] at e2
    exact ⟨_, fun r hr => g1 r (List.mem_of_mem_take hr), e2⟩

theorem bid_set_far {l : List Row} (hn : NumPrices l) {p q v : Fl} (hpq : Fl.lt p q = true) :
    ∃ G, (∀ r ∈ G, Fl.lt r.price q = true) ∧
      (BidSorted l → setBid l p v = l.filter (fun r => !(Fl.lt r.price q)) ++ G) := by
  refine ⟨(l.filter fun r => Fl.gt r.price p).filter (fun r => Fl.lt r.price q) ++ [⟨p, v, .fin 0⟩] ++
    l.filter (fun r => Fl.lt r.price p), ?_, ?_⟩
  · intro r hr
    simp only [List.mem_append, List.mem_filter, List.mem_singleton] at hr
    rcases hr with (⟨_, h⟩ | rfl) | ⟨_, h⟩
    · exact h
    · exact hpq
    · simp only [Fl.lt, Bool.and_eq_true, decide_eq_true_eq] at h hpq ⊢
      exact ⟨⟨h.1.1, hpq.1.2⟩, h.2.trans hpq.2⟩
  · intro hs
    have e : (l.filter fun r => Fl.gt r.price p) =
        l.filter (fun r => !(Fl.lt r.price q)) ++ (l.filter fun r => Fl.gt r.price p).filter (fun r => Fl.lt r.price q) := by
      have h1 := bid_far (l := l.filter fun r => Fl.gt r.price p) (hs.filter _) q
      have h2 : (l.filter fun r => Fl.gt r.price p).filter (fun r => !(Fl.lt r.price q)) =
          l.filter (fun r => !(Fl.lt r.price q)) := by
        rw [List.filter_filter]
        refine List.filter_congr fun r hr => ?_
        have hnr := hn r hr
        cases hg : Fl.lt r.price q with
        | true => rfl
        | false =>
          have : Fl.gt r.price p = true := by
            simp only [Fl.lt, Fl.gt, Bool.and_eq_true, decide_eq_true_eq, Bool.and_eq_false_iff,
              decide_eq_false_iff_not, Bool.not_eq_true', Bool.not_eq_false'] at hg hpq ⊢
            have hr' : r.price.isNaN = false := by cases hr' : r.price <;> simp_all [Fl.isNaN]
            rcases hg with (h | h) | h
            · simp [hr'] at h
            · simp [hpq.1.2] at h
            · exact ⟨⟨hpq.1.1, hr'⟩, hpq.2.trans_le (not_lt.1 h)⟩
          simp [this]
      rw [h2] at h1
      exact h1
    unfold setBid
    conv_lhs => rw [e]
    simp only [List.append_assoc]

theorem bid_delete_far {l : List Row} (hs : BidSorted l) {p q : Fl} (hpq : Fl.lt p q = true) :
    deleteLevel l p = l.filter (fun r => !(Fl.lt r.price q)) ++
      (l.filter fun r => Fl.lt r.price q).filter (fun r => !(Fl.eq r.price p)) := by
  unfold deleteLevel
  conv_lhs => rw [bid_far hs q]
  rw [List.filter_append]
  congr 1
  refine List.filter_eq_self.2 fun r hr => ?_
  have hg : Fl.lt r.price q = false := by simpa using (List.mem_filter.1 hr).2
  cases he : Fl.eq r.price p with
  | false => rfl
  | true =>
    exfalso
    simp only [Fl.lt, Fl.eq, Bool.and_eq_true, decide_eq_true_eq] at he hpq
    have : Fl.lt r.price q = true := by
      simp only [Fl.lt, Bool.and_eq_true, decide_eq_true_eq]
      exact ⟨⟨he.1.1, hpq.1.2⟩, by rw [he.2]; exact hpq.2⟩
    rw [hg] at this
    cases this

/-- After an update beyond `q` the bids are the same rows up to `q` and then rows beyond. -/
theorem bid_update_far {x x' : Book} (h : WellFormed x) (hd : 0 ≤ x.maxDepth) (hb : DepthOk x) {u : Update} {q : Fl}
    (hs : u.side = "bid") (hq : Fl.lt u.price q = true) (hx : x.applyUpdate u = .ok x') :
    ∃ G, (∀ r ∈ G, Fl.lt r.price q = true) ∧ x'.bids = x.bids.filter (fun r => !(Fl.lt r.price q)) ++ G := by
  have hp : u.price ≠ .nan := by
    rintro e
    rw [e] at hq
    simp [Fl.lt, Fl.isNaN] at hq
  cases hv : Fl.eq u.volume (.fin 0) with
  | true =>
    rw [(C06_zero_update_deletes_level x h hd hb u hp hv).2 hs] at hx
    cases hx
    exact ⟨_, fun r hr => (List.mem_filter.1 (List.mem_filter.1 hr).1).2, bid_delete_far h.bids_sorted hq⟩
  | false =>
    obtain ⟨b', e1, e2⟩ := (C05_nonzero_update_sets_level x h hd u hp (by simp [Fl.ne, hv])).2 hs
    rw [e1] at hx
    cases hx
    obtain ⟨G, g1, g2⟩ := bid_set_far (v := u.volume) h.bids_num hq
    have hl : (x.bids.filter (fun r => !(Fl.lt r.price q))).length ≤ x.maxDepth.toNat := by
      have h1 := List.length_filter_le (fun r => !(Fl.lt r.price q)) x.bids
      have h2 := hb.2
      omega
    rw [g2 h.bids_sorted, take_far _ _ hl] at e2
    exact ⟨_, fun r hr => g1 r (List.mem_of_mem_take hr), e2⟩

/-- **C216** An update beyond the crossing does not change the overlap, as long as there is an ask (a bid) beyond it before
and after. -/
theorem C216_far_update (S : FloatSem) {x y : Book} (hx : WellFormed x) (hy : WellFormed y) {a b : Row}
    (ha : x.asks.head? = some a) (hb : y.bids.head? = some b) (hab : Fl.lt a.price b.price = true) (u : Update) :
    (0 ≤ x.maxDepth → DepthOk x → u.side = "ask" → Fl.gt u.price b.price = true →
      ∀ x', x.applyUpdate u = .ok x' →
        (∃ r ∈ x.asks, Fl.gt r.price b.price = true) → (∃ r ∈ x'.asks, Fl.gt r.price b.price = true) →
        calculateOverlap S x' y = calculateOverlap S x y) ∧
    (0 ≤ y.maxDepth → DepthOk y → u.side = "bid" → Fl.lt u.price a.price = true →
      ∀ y', y.applyUpdate u = .ok y' →
        (∃ r ∈ y.bids, Fl.lt r.price a.price = true) → (∃ r ∈ y'.bids, Fl.lt r.price a.price = true) →
        calculateOverlap S x y' = calculateOverlap S x y) := by
  have hba : Fl.gt a.price b.price = false ∧ Fl.lt b.price a.price = false := by
    have : Fl.lt b.price a.price = false := by
      simp only [Fl.lt, Bool.and_eq_true, decide_eq_true_eq] at hab
      simp only [Fl.lt, Bool.and_eq_false_iff, decide_eq_false_iff_not]
      exact .inr (not_lt.2 hab.2.le)
    exact ⟨this, this⟩
  obtain ⟨F, hF⟩ : ∃ F, x.asks.filter (fun r => !(Fl.gt r.price b.price)) = a :: F := by
    cases hxa : x.asks with
    | nil => simp [hxa] at ha
    | cons c l =>
      simp only [hxa, List.head?_cons, Option.some.injEq] at ha
      subst ha
      exact ⟨_, List.filter_cons_of_pos (by simp [hba.1])⟩
  obtain ⟨H, hH⟩ : ∃ H, y.bids.filter (fun r => !(Fl.lt r.price a.price)) = b :: H := by
    cases hyb : y.bids with
    | nil => simp [hyb] at hb
    | cons c l =>
      simp only [hyb, List.head?_cons, Option.some.injEq] at hb
      subst hb
      exact ⟨_, List.filter_cons_of_pos (by simp [hba.2])⟩
  have nF : ∀ r ∈ a :: F, Fl.gt r.price b.price = false := by
    intro r hr; rw [← hF] at hr; simpa using (List.mem_filter.1 hr).2
  have nH : ∀ r ∈ b :: H, Fl.lt r.price a.price = false := by
    intro r hr; rw [← hH] at hr; simpa using (List.mem_filter.1 hr).2
  have xe := ask_far hx.asks_sorted b.price
  have ye := bid_far hy.bids_sorted a.price
  rw [hF] at xe
  rw [hH] at ye
  refine ⟨?_, ?_⟩
  · rintro hd hk hs hq x' hu ⟨r, hr, hr'⟩ ⟨c, hc, hc'⟩
    obtain ⟨G, g1, g2⟩ := ask_update_far hx hd hk hs hq hu
    rw [hF] at g2
    refine C216_far_rows S g2 xe ye ye hab (fun r hr => nF r (List.mem_cons_of_mem _ hr)) ?_
      (fun r hr => nH r (List.mem_cons_of_mem _ hr)) ?_ ?_ Iff.rfl
    · intro r hr
      rcases List.mem_append.1 hr with hr | hr
      exacts [g1 r hr, (List.mem_filter.1 hr).2]
    · intro r hr
      rcases List.mem_append.1 hr with hr | hr
      exacts [(List.mem_filter.1 hr).2, (List.mem_filter.1 hr).2]
    · constructor
      · rintro rfl
        rw [g2, List.append_nil] at hc
        rw [nF c hc] at hc'
        cases hc'
      · intro e
        exact absurd hr' (by simpa using List.filter_eq_nil_iff.1 e r hr)
  · rintro hd hk hs hq y' hu ⟨r, hr, hr'⟩ ⟨c, hc, hc'⟩
    obtain ⟨G, g1, g2⟩ := bid_update_far hy hd hk hs hq hu
    rw [hH] at g2
    refine C216_far_rows S xe xe g2 ye hab (fun r hr => nF r (List.mem_cons_of_mem _ hr)) ?_
      (fun r hr => nH r (List.mem_cons_of_mem _ hr)) ?_ Iff.rfl ?_
    · intro r hr
      rcases List.mem_append.1 hr with hr | hr
      exacts [(List.mem_filter.1 hr).2, (List.mem_filter.1 hr).2]
    · intro r hr
      rcases List.mem_append.1 hr with hr | hr
      exacts [g1 r hr, (List.mem_filter.1 hr).2]
    · constructor
      · rintro rfl
        rw [g2, List.append_nil] at hc
        rw [nH c hc] at hc'
        cases hc'
      · intro e
        exact absurd hr' (by simpa using List.filter_eq_nil_iff.1 e r hr)

/-! The two sample books overlap; asks 11 and 12, bids 12.5 and 11 take part. -/

example := C216_self ieee Ex.book (by decide +kernel) (by decide) (by decide +kernel) (by decide +kernel)
  [⟨.fin 12, .fin 9, "bid"⟩, ⟨.fin 11, .fin 0, "ask"⟩] (by decide +kernel)

example := C216_far_rows ieee (x := Ex.book) (y := Ex.book2)
  (x' := { Ex.book with asks := Ex.book.asks.take 2 ++ [⟨.fin 40, .nan, .nan⟩, ⟨.fin 13, .fin 1, .fin 1⟩], bids := [] }) (y' := Ex.book2)
  rfl rfl rfl rfl (by decide +kernel) (F := [⟨.fin 12, .fin 4, .fin 5⟩]) (H := [⟨.fin 11, .fin 2, .fin 4⟩])
  (by decide +kernel) (by decide +kernel) (by decide +kernel) (by decide +kernel) (by simp) Iff.rfl

example := (C216_far_update ieee (x := Ex.book) (y := Ex.book2) (by decide +kernel) (by decide +kernel) rfl rfl
  (by decide +kernel) ⟨.fin 14, .fin 7, "ask"⟩).1 (by decide) (by decide +kernel) rfl (by decide +kernel) _ rfl
  ⟨⟨.fin 13, .fin 2, .fin 7⟩, by decide +kernel, by decide +kernel⟩
  ⟨⟨.fin 13, .fin 2, .fin 7⟩, by decide +kernel, by decide +kernel⟩

example := (C216_far_update ieee (x := Ex.book) (y := Ex.book2) (by decide +kernel) (by decide +kernel) rfl rfl
  (by decide +kernel) ⟨.fin 10, .fin 7, "bid"⟩).2 (by decide) (by decide +kernel) rfl (by decide +kernel)
  { Ex.book2 with bids := Ex.book2.bids.take 2 ++ [⟨.fin 10, .fin 7, .fin 0⟩, ⟨.fin 9, .fin 5, .fin 9⟩] } (by decide +kernel)
  ⟨⟨.fin 9, .fin 5, .fin 9⟩, by decide +kernel, by decide +kernel⟩
  ⟨⟨.fin 9, .fin 5, .fin 9⟩, by decide +kernel, by decide +kernel⟩

/-- The condition is needed: deleting the only ask beyond the crossing changes the overlap. -/
example : ∃ x', Ex.book.applyUpdate ⟨.fin 13, .fin 0, "ask"⟩ = .ok x' ∧
    calculateOverlap .exact x' Ex.book2 ≠ calculateOverlap .exact Ex.book Ex.book2 :=
  ⟨_, rfl, by decide +kernel⟩

end Finmod
