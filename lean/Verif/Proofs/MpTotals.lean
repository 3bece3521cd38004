import Verif.Proofs.MpReps

/-! The entries of the output arrays of a multipole run with no slop, as sums over triples of rows. -/

namespace TreeCorr
open Classical
variable {P : Type} [PseudoMetricSpace P]

theorem inLog_same {p : Params} {x x' y : P} (h : dist x x' = 0) (k : ℤ) :
    InLogBin p.minsep p.binsize p.nbins k (dist x y) ↔ InLogBin p.minsep p.binsize p.nbins k (dist x' y) := by
  rw [dist_of_zero (u := x') (v := y) h.le (by rw [dist_self])]

theorem binRows_same {p : Params} {x x' : P} (h : dist x x' = 0) (k : ℤ) (m : Multiset (Obj P)) :
    binRows p x k m = binRows p x' k m := by
  unfold binRows
  exact Multiset.filter_congr fun o _ => inLog_same h k

theorem zero_cell {c : Cell P} (hb : c.Bounded 0) (h0 : c.size = 0) {o o' : Obj P} (ho : o ∈ c.objs) (ho' : o' ∈ c.objs) :
    dist o.pos o'.pos = 0 := by
  have h1 := hb.dist_le le_rfl ho
  have h2 := hb.dist_le le_rfl ho'
  have h3 := dist_triangle o.pos c.pos o'.pos
  rw [dist_comm c.pos o'.pos] at h3
  exact le_antisymm (by linarith) dist_nonneg

theorem both_bins {p : Params} (hp : LogParams p) (x : P) (k2 k3 : ℤ) (m : Multiset (Obj P)) :
    (m.filter fun o => InLogBin p.minsep p.binsize p.nbins k3 (dist x o.pos) ∧
      InLogBin p.minsep p.binsize p.nbins k2 (dist x o.pos)) = if k2 = k3 then binRows p x k2 m else 0 := by
  split
  · rename_i h; subst h
    unfold binRows
    exact Multiset.filter_congr fun o _ => and_self_iff
  · rename_i h
    rw [Multiset.filter_eq_nil]
    rintro o _ ⟨h1, h2⟩
    exact h (inLogBin_unique hp h2 h1)

section
variable {K : Type} [CommRing K] {p : Params} {ph : P → P → ℂ} {maxn : ℕ} {k2 k3 : ℤ}

/-- An output of the form `Σ g1(o1) a(o1,o2) b(o1,o3)`: what its entry is made of. -/
structure SepAuto (p : Params) (ph : P → P → ℂ) (maxn : ℕ) (apart : Prop) (k2 k3 : ℤ) (f : MpVals → K) (g1 : Obj P → K)
    (a b : P → Obj P → K) (good : P → Obj P → Prop) : Prop where
  val : ∀ (c : Cell P), c.SumsOK → ∀ (x : P) (mp : Scratch) (R : ℤ → Multiset (Obj P)), MpRep p ph maxn true apart x mp R →
    (∀ o ∈ R k2, good x o) →
    f (mpVal maxn c mp k2 k3) = (c.objs.map g1).sum * (((R k3).map (a x)).sum * ((R k2).map (b x)).sum -
      if k2 = k3 then ((R k2).map fun o => a x o * b x o).sum else 0)
  same : ∀ x x' o, dist x x' = 0 → a x o = a x' o ∧ b x o = b x' o

/-- The same for two lists, point 2 from the one and point 3 from the other. -/
structure SepCross (p : Params) (ph : P → P → ℂ) (maxn : ℕ) (k2 k3 : ℤ) (f : MpVals → K) (g1 : Obj P → K)
    (a b : P → Obj P → K) : Prop where
  val : ∀ (c : Cell P), c.SumsOK → ∀ (x : P) (mp2 mp3 : Scratch) (R2 R3 : ℤ → Multiset (Obj P)),
    MpRep p ph maxn false False x mp2 R2 → MpRep p ph maxn false False x mp3 R3 →
    f (mpVal2 maxn false c mp2 mp3 k2 k3) = (c.objs.map g1).sum * (((R2 k3).map (a x)).sum * ((R3 k2).map (b x)).sum)
  same : ∀ x x' o, dist x x' = 0 → a x o = a x' o ∧ b x o = b x' o

theorem binRows_ne (hp : LogParams p) {x : P} {k : ℤ} {m : Multiset (Obj P)} {o : Obj P} (h : o ∈ binRows p x k m) :
    dist x o.pos ≠ 0 :=
  ((Multiset.mem_filter.1 h).2.pos hp.minsep).ne'

theorem mpSum_mul (m : Multiset (Obj P × Obj P)) (t : K) (a b : Obj P → K) :
    (m.map fun q => t * a q.1 * b q.2).sum = t * (m.map fun q => a q.1 * b q.2).sum := by
  rw [← Multiset.sum_map_mul_left]
  congr 1
  apply Multiset.map_congr rfl
  intro q _
  ring

/-- Any entry of the form `Σ g1(o1) a(o1,o2) b(o1,o3)`, for any scratch arrays. -/
theorem gen_leaf {S A : Type} {gn : Cell P → Cell P → ℝ → ℝ → ℤ → S → S} {zeta : Cell P → S → ℤ → ℤ → List A} {clear : S}
    {Rep : P → S → (ℤ → Multiset (Obj P)) → Prop} {tot : List A → K} {v : Cell P → S → K} (hp : LogParams p) {apart : Prop}
    {g1 : Obj P → K} {a b : P → Obj P → K} {good : P → Obj P → Prop}
    (hclear : ∀ x, Rep x clear fun _ => 0)
    (hstep : ∀ (c : Cell P) x, c.Bounded 0 → c.size = 0 → (∃ o ∈ c.objs, o.pos = x) → GnRep p gn (MpCell apart) c (Rep x))
    (hz : ∀ c mp ks mink, tot (zeta c mp ks mink) = if ks ≤ min k2 k3 ∧ min k2 k3 < mink then v c mp else 0)
    (hval : ∀ c : Cell P, MpCell False c → c.size = 0 → ∀ x mp R, Rep x mp R → (∀ o ∈ R k2, good x o) →
      v c mp = (c.objs.map g1).sum * (((R k3).map (a x)).sum * ((R k2).map (b x)).sum -
        if k2 = k3 then ((R k2).map fun o => a x o * b x o).sum else 0))
    (hsame : ∀ x x' o, dist x x' = 0 → a x o = a x' o ∧ b x o = b x' o)
    (h2 : 0 ≤ k2 ∧ k2 < p.nbins) (h3 : 0 ≤ k3 ∧ k3 < p.nbins) (L : List (Obj P))
    {c : Cell P} (hc : MpCell False c) (hg : ∀ o1 ∈ c.objs, ∀ o2 ∈ L, dist o1.pos o2.pos ≠ 0 → good o1.pos o2) (h0 : c.size = 0) :
    LeafRep p gn (MpCell apart) zeta clear tot (min k2 k3)
      (fun o1 => (((orderedPairs L).filter fun q => InSides p k2 k3 (o1, q)).map fun q => g1 o1 * a o1.pos q.1 * b o1.pos q.2).sum)
      (L : Multiset (Obj P)) c := by
  obtain ⟨o0, ho0⟩ := List.exists_mem_of_ne_nil _ hc.1.2.ne_nil
  refine ⟨Rep o0.pos, hclear _, hstep c _ hc.1.1 h0 ⟨o0, ho0, rfl⟩, ?_⟩
  rintro x ⟨o, ho, rfl⟩ mp R hR
  refine ⟨?_⟩
  intro ks mink hks _ hdone
  rw [hz]
  by_cases hj : ks ≤ min k2 k3 ∧ min k2 k3 < mink
  swap
  · rw [if_neg hj, if_neg hj]
  rw [if_pos hj, if_pos hj]
  have e2 := hdone k2 (by omega) h2.2
  have e3 := hdone k3 (by omega) h3.2
  have hoo := zero_cell hc.1.1 h0 ho ho0
  rw [binRows_same hoo] at e2 e3
  rw [hval c hc h0 o0.pos mp R hR (by
      rw [e2]; intro u hu; exact hg o0 ho0 u (Multiset.mem_coe.1 (Multiset.mem_filter.1 hu).1) (binRows_ne hp hu)),
    e2, e3, ← List.sum_map_mul_right]
  congr 1
  apply List.map_congr_left
  intro o1 ho1
  have h1 := zero_cell hc.1.1 h0 ho1 ho0
  rw [mpSum_mul]
  have hf : ((orderedPairs L).filter fun q => InSides p k2 k3 (o1, q)) =
      (orderedPairs L).filter fun q => InLogBin p.minsep p.binsize p.nbins k2 (dist o0.pos q.2.pos) ∧
        InLogBin p.minsep p.binsize p.nbins k3 (dist o0.pos q.1.pos) := by
    apply Multiset.filter_congr
    intro q _
    unfold InSides side2 side3
    simp only
    rw [inLog_same h1, inLog_same h1]
  rw [hf]
  have hm : ((orderedPairs L).filter fun q => InLogBin p.minsep p.binsize p.nbins k2 (dist o0.pos q.2.pos) ∧
        InLogBin p.minsep p.binsize p.nbins k3 (dist o0.pos q.1.pos)).map (fun q => a o1.pos q.1 * b o1.pos q.2) =
      ((orderedPairs L).filter fun q => InLogBin p.minsep p.binsize p.nbins k2 (dist o0.pos q.2.pos) ∧
        InLogBin p.minsep p.binsize p.nbins k3 (dist o0.pos q.1.pos)).map (fun q => a o0.pos q.1 * b o0.pos q.2) := by
    apply Multiset.map_congr rfl
    intro q _
    rw [(hsame _ _ q.1 h1).1, (hsame _ _ q.2 h1).2]
  rw [hm, orderedPairs_filter_sum L (fun o => InLogBin p.minsep p.binsize p.nbins k3 (dist o0.pos o.pos))
    (fun o => InLogBin p.minsep p.binsize p.nbins k2 (dist o0.pos o.pos)) (a o0.pos) (b o0.pos), both_bins hp]
  unfold binRows
  split <;> simp

theorem sepAuto_leaf (hp : LogParams p) {apart : Prop} {f : MpVals → K} {g1 : Obj P → K} {a b : P → Obj P → K}
    {good : P → Obj P → Prop} (hs : SepAuto p ph maxn apart k2 k3 f g1 a b good) (h2 : 0 ≤ k2 ∧ k2 < p.nbins) (h3 : 0 ≤ k3 ∧ k3 < p.nbins) (L : List (Obj P))
    {c : Cell P} (hc : MpCell False c) (hg : ∀ o1 ∈ c.objs, ∀ o2 ∈ L, dist o1.pos o2.pos ≠ 0 → good o1.pos o2) (h0 : c.size = 0) :
    LeafRep p (calculateGn ph maxn true) (MpCell apart) (calculateZeta maxn p.nbins) Scratch.clear (fun l => mpTotal f l k2 k3)
      (min k2 k3)
      (fun o1 => (((orderedPairs L).filter fun q => InSides p k2 k3 (o1, q)).map fun q => g1 o1 * a o1.pos q.1 * b o1.pos q.2).sum)
      (L : Multiset (Obj P)) c :=
  gen_leaf (zeta := calculateZeta maxn p.nbins) (tot := fun l => mpTotal f l k2 k3) (v := fun c mp => f (mpVal maxn c mp k2 k3)) hp (mpRep_clear p ph maxn true apart) (fun c x => mpRep_step hp)
    (fun c mp ks mink => total_calculateZeta f maxn h2.2 h3.2 c mp ks mink) (fun c hc _ => hs.val c hc.1.2) hs.same h2 h3 L hc hg h0

/-- The same for two lists. -/
theorem gen_leaf2 {S A : Type} {gn : Cell P → Cell P → ℝ → ℝ → ℤ → S → S} {zeta : Cell P → S → S → ℤ → ℤ → List A} {clear : S}
    {Rep : P → S → (ℤ → Multiset (Obj P)) → Prop} {tot : List A → K} {v : Cell P → S → S → K} (hp : LogParams p) {swap23 : Bool}
    {g1 : Obj P → K} {a b : P → Obj P → K}
    (hclear : ∀ x, Rep x clear fun _ => 0)
    (hstep : ∀ (c : Cell P) x, c.Bounded 0 → c.size = 0 → (∃ o ∈ c.objs, o.pos = x) → GnRep p gn (MpCell False) c (Rep x))
    (hz : ∀ c mp2 mp3 ks mink, tot (zeta c mp2 mp3 ks mink) =
      if ks ≤ min k2 k3 ∧ min k2 k3 < mink then v c mp2 mp3 + (if swap23 then v c mp3 mp2 else 0) else 0)
    (hval : ∀ c : Cell P, MpCell False c → c.size = 0 → ∀ x mp2 mp3 R2 R3, Rep x mp2 R2 → Rep x mp3 R3 →
      v c mp2 mp3 = (c.objs.map g1).sum * (((R2 k3).map (a x)).sum * ((R3 k2).map (b x)).sum))
    (hsame : ∀ x x' o, dist x x' = 0 → a x o = a x' o ∧ b x o = b x' o)
    (h2 : 0 ≤ k2 ∧ k2 < p.nbins) (h3 : 0 ≤ k3 ∧ k3 < p.nbins)
    (L2 L3 : Multiset (Obj P)) {c : Cell P} (hc : MpCell False c) (h0 : c.size = 0) :
    LeafRep2 p gn (MpCell False) zeta clear tot (min k2 k3)
      (fun o1 => (((L2 ×ˢ L3 + if swap23 then L3 ×ˢ L2 else 0).filter fun q => InSides p k2 k3 (o1, q)).map fun q =>
        g1 o1 * a o1.pos q.1 * b o1.pos q.2).sum) L2 L3 c := by
  obtain ⟨o0, ho0⟩ := List.exists_mem_of_ne_nil _ hc.1.2.ne_nil
  refine ⟨Rep o0.pos, hclear _, hstep c _ hc.1.1 h0 ⟨o0, ho0, rfl⟩, ?_⟩
  rintro x ⟨o, ho, rfl⟩ mp2 R2 mp3 R3 hR2 hR3
  refine ⟨?_⟩
  intro ks mink hks _ hdone
  rw [hz]
  by_cases hj : ks ≤ min k2 k3 ∧ min k2 k3 < mink
  swap
  · rw [if_neg hj, if_neg hj]
  rw [if_pos hj, if_pos hj]
  obtain ⟨e22, e32⟩ := hdone k2 (by omega) h2.2
  obtain ⟨e23, e33⟩ := hdone k3 (by omega) h3.2
  have hoo := zero_cell hc.1.1 h0 ho ho0
  rw [binRows_same hoo] at e22 e32 e23 e33
  have part : ∀ (M N : Multiset (Obj P)) (o1 : Obj P), dist o1.pos o0.pos = 0 →
      (((M ×ˢ N).filter fun q => InSides p k2 k3 (o1, q)).map fun q => g1 o1 * a o1.pos q.1 * b o1.pos q.2).sum =
        g1 o1 * (((binRows p o0.pos k3 M).map (a o0.pos)).sum * ((binRows p o0.pos k2 N).map (b o0.pos)).sum) := by
    intro M N o1 h1
    rw [mpSum_mul]
    have hf : ((M ×ˢ N).filter fun q => InSides p k2 k3 (o1, q)) =
        (M ×ˢ N).filter fun q => InLogBin p.minsep p.binsize p.nbins k2 (dist o0.pos q.2.pos) ∧
          InLogBin p.minsep p.binsize p.nbins k3 (dist o0.pos q.1.pos) := by
      apply Multiset.filter_congr
      intro q _
      unfold InSides side2 side3
      simp only
      rw [inLog_same h1, inLog_same h1]
    rw [hf]
    have hm : ((M ×ˢ N).filter fun q => InLogBin p.minsep p.binsize p.nbins k2 (dist o0.pos q.2.pos) ∧
          InLogBin p.minsep p.binsize p.nbins k3 (dist o0.pos q.1.pos)).map (fun q => a o1.pos q.1 * b o1.pos q.2) =
        ((M ×ˢ N).filter fun q => InLogBin p.minsep p.binsize p.nbins k2 (dist o0.pos q.2.pos) ∧
          InLogBin p.minsep p.binsize p.nbins k3 (dist o0.pos q.1.pos)).map (fun q => a o0.pos q.1 * b o0.pos q.2) := by
      apply Multiset.map_congr rfl
      intro q _
      rw [(hsame _ _ q.1 h1).1, (hsame _ _ q.2 h1).2]
    rw [hm, crossPairs_filter_sum M N (fun o => InLogBin p.minsep p.binsize p.nbins k3 (dist o0.pos o.pos))
      (fun o => InLogBin p.minsep p.binsize p.nbins k2 (dist o0.pos o.pos)) (a o0.pos) (b o0.pos)]
    rfl
  rw [hval c hc h0 o0.pos mp2 mp3 R2 R3 hR2 hR3, hval c hc h0 o0.pos mp3 mp2 R3 R2 hR3 hR2, e22, e32, e23, e33]
  have eq : ∀ o1 ∈ c.objs, (((L2 ×ˢ L3 + if swap23 then L3 ×ˢ L2 else 0).filter fun q => InSides p k2 k3 (o1, q)).map fun q =>
        g1 o1 * a o1.pos q.1 * b o1.pos q.2).sum =
      g1 o1 * ((((binRows p o0.pos k3 L2).map (a o0.pos)).sum * ((binRows p o0.pos k2 L3).map (b o0.pos)).sum) +
        if swap23 then (((binRows p o0.pos k3 L3).map (a o0.pos)).sum * ((binRows p o0.pos k2 L2).map (b o0.pos)).sum) else 0) := by
    intro o1 ho1
    have h1 := zero_cell hc.1.1 h0 ho1 ho0
    rw [Multiset.filter_add, Multiset.map_add, Multiset.sum_add, part L2 L3 o1 h1]
    cases swap23
    · simp
    · simp only [if_true]
      rw [part L3 L2 o1 h1]; ring
  rw [List.map_congr_left eq, List.sum_map_mul_right]
  cases swap23
  · simp
  · simp only [if_true]; ring

theorem sepCross_leaf (hp : LogParams p) {swap23 : Bool} {f : MpVals → K} {g1 : Obj P → K} {a b : P → Obj P → K}
    (hs : SepCross p ph maxn k2 k3 f g1 a b) (hsw : ∀ (c : Cell P) mp2 mp3, f (mpVal2 maxn swap23 c mp2 mp3 k2 k3) =
      f (mpVal2 maxn false c mp2 mp3 k2 k3) + if swap23 then f (mpVal2 maxn false c mp3 mp2 k2 k3) else 0)
    (h2 : 0 ≤ k2 ∧ k2 < p.nbins) (h3 : 0 ≤ k3 ∧ k3 < p.nbins)
    (L2 L3 : Multiset (Obj P)) {c : Cell P} (hc : MpCell False c) (h0 : c.size = 0) :
    LeafRep2 p (calculateGn ph maxn false) (MpCell False) (calculateZeta2 maxn p.nbins swap23) Scratch.clear
      (fun l => mpTotal f l k2 k3) (min k2 k3)
      (fun o1 => (((L2 ×ˢ L3 + if swap23 then L3 ×ˢ L2 else 0).filter fun q => InSides p k2 k3 (o1, q)).map fun q =>
        g1 o1 * a o1.pos q.1 * b o1.pos q.2).sum) L2 L3 c :=
  gen_leaf2 (zeta := calculateZeta2 maxn p.nbins swap23) (tot := fun l => mpTotal f l k2 k3) (v := fun c mp2 mp3 => f (mpVal2 maxn false c mp2 mp3 k2 k3)) hp (mpRep_clear p ph maxn false False)
    (fun c x => mpRep_step hp) (fun c mp2 mp3 ks mink => by rw [total_calculateZeta2 f maxn swap23 h2.2 h3.2, hsw])
    (fun c hc _ => hs.val c hc.1.2) hs.same h2 h3 L2 L3 hc h0

theorem hered_objs (S : Obj P → Prop) : Hered fun c : Cell P => ∀ o ∈ c.objs, S o := by
  intro d s l r h
  exact ⟨fun o ho => h o (List.mem_append_left _ ho), fun o ho => h o (List.mem_append_right _ ho)⟩

/-- The entries of a run over one list. -/
theorem auto_total (hp : LogParams p) (hsh : Sharp p) {apart : Prop} {f : MpVals → K} {g1 : Obj P → K} {a b : P → Obj P → K}
    {good : P → Obj P → Prop} (hs : SepAuto p ph maxn apart k2 k3 f g1 a b good) (h2 : 0 ≤ k2 ∧ k2 < p.nbins) (h3 : 0 ≤ k3 ∧ k3 < p.nbins)
    (cells1 cells2 : List (Cell P)) (q1 : ∀ c ∈ cells1, MpCell False c) (q2 : ∀ c ∈ cells2, MpCell apart c)
    (hg : ∀ o1 ∈ objsOf cells1, ∀ o2 ∈ objsOf cells2, dist o1.pos o2.pos ≠ 0 → good o1.pos o2) :
    ∃ out, multipoleRun p (calculateGn ph maxn true) (calculateZeta maxn p.nbins) Scratch.clear cells1 cells2 = some out ∧
      mpTotal f out k2 k3 = (((cross12Triples (objsOf cells1) (objsOf cells2)).filter (InSides p k2 k3)).map fun q =>
        g1 q.1 * a q.1.pos q.2.1 * b q.1.pos q.2.2).sum := by
  obtain ⟨out, e1, e2⟩ := run_sharp hp hsh (hered_mpCell apart) (fun c h => h.1.1)
    ((hered_mpCell False).and (hered_objs fun o => o ∈ objsOf cells1)) (fun c h => h.1.1.1)
    (fun c h => h.1.1.2.ne_nil) (fun a b => mpTotal_append f a b k2 k3) (mpTotal_nil f k2 k3) cells2 q2
    (fun c hc h0 => sepAuto_leaf hp hs h2 h3 (objsOf cells2) hc.1 (fun o1 h1 => hg o1 (hc.2 o1 h1)) h0) cells1
    (fun c hc => ⟨q1 c hc, fun o ho => List.mem_flatMap.2 ⟨c, hc, ho⟩⟩)
  refine ⟨out, e1, ?_⟩
  rw [e2, if_pos (by omega)]
  unfold cross12Triples
  rw [triples_sum]
  rfl

/-- The entries of a run over two lists. -/
theorem cross_total (hp : LogParams p) (hsh : Sharp p) {swap23 : Bool} {f : MpVals → K} {g1 : Obj P → K} {a b : P → Obj P → K}
    (hs : SepCross p ph maxn k2 k3 f g1 a b) (hsw : ∀ (c : Cell P) mp2 mp3, f (mpVal2 maxn swap23 c mp2 mp3 k2 k3) =
      f (mpVal2 maxn false c mp2 mp3 k2 k3) + if swap23 then f (mpVal2 maxn false c mp3 mp2 k2 k3) else 0)
    (h2 : 0 ≤ k2 ∧ k2 < p.nbins) (h3 : 0 ≤ k3 ∧ k3 < p.nbins)
    (cells1 cells2 cells3 : List (Cell P)) (q1 : ∀ c ∈ cells1, MpCell False c) (q2 : ∀ c ∈ cells2, MpCell False c)
    (q3 : ∀ c ∈ cells3, MpCell False c) :
    ∃ out, multipole3 p maxn ph swap23 cells1 cells2 cells3 = some out ∧
      mpTotal f out k2 k3 = (((crossTriples (objsOf cells1) (objsOf cells2) (objsOf cells3) +
        if swap23 then crossTriples (objsOf cells1) (objsOf cells3) (objsOf cells2) else 0).filter (InSides p k2 k3)).map fun q =>
        g1 q.1 * a q.1.pos q.2.1 * b q.1.pos q.2.2).sum := by
  obtain ⟨out, e1, e2⟩ := run2_sharp hp hsh (hered_mpCell False) (fun c h => h.1.1) (hered_mpCell False) (fun c h => h.1.1)
    (fun c h => h.1.2.ne_nil) (fun a b => mpTotal_append f a b k2 k3) (mpTotal_nil f k2 k3) cells2 cells3 q2 q3
    (fun c hc h0 => sepCross_leaf hp hs hsw h2 h3 (cellRows cells2) (cellRows cells3) hc h0) cells1 q1
  refine ⟨out, e1, ?_⟩
  rw [e2, if_pos (by omega)]
  have : (crossTriples (objsOf cells1) (objsOf cells2) (objsOf cells3) +
      if swap23 then crossTriples (objsOf cells1) (objsOf cells3) (objsOf cells2) else 0) =
      (cellRows cells1) ×ˢ (cellRows cells2 ×ˢ cellRows cells3 + if swap23 then cellRows cells3 ×ˢ cellRows cells2 else 0) := by
    unfold crossTriples
    cases swap23
    · simp only [Bool.false_eq_true, if_false, add_zero]; rfl
    · simp only [if_true]; rw [Multiset.product_add]; rfl
  rw [this, triples_sum]

end

end TreeCorr
