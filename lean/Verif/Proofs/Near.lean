import Verif.Model.Near
import Verif.Proofs.Tree

/-! Lemmas about the neighbour queries. -/

namespace TreeCorr
open Classical
variable {P : Type} [PseudoMetricSpace P]

/-- The positions of the leaves. -/
def Cell.leafPos : Cell P → List P
  | .leaf d _ => [d.pos]
  | .node _ _ l r => l.leafPos ++ r.leafPos

/-- The objects found by `GetNear` below a cell. -/
noncomputable def Cell.nearObjs (p : P) (sep : ℝ) : Cell P → List (Obj P)
  | .leaf d os => if dist d.pos p ≤ sep then os else []
  | .node d s l r => if sep + s < dist d.pos p then [] else l.nearObjs p sep ++ r.nearObjs p sep

/-- In every node of size at most `R` the positions of the leaves are within the size. -/
def Cell.InBall (R : ℝ) : Cell P → Prop
  | .leaf _ _ => True
  | .node d s l r => (s ≤ R → ∀ q ∈ l.leafPos ++ r.leafPos, dist q d.pos ≤ s) ∧ l.InBall R ∧ r.InBall R

theorem sq_le_iff {d sep : ℝ} (hd : 0 ≤ d) (hs : 0 ≤ sep) : d ^ 2 ≤ sep ^ 2 ↔ d ≤ sep :=
  ⟨fun h => abs_le_of_sq_le_sq' h hs |>.2, fun h => by gcongr⟩

theorem prune_iff {d sep s : ℝ} (hd : 0 ≤ d) (hs : 0 ≤ sep) (h : 0 < s) :
    (d ^ 2 > sep ^ 2 ∧ d ^ 2 > (sep + s) ^ 2) ↔ sep + s < d := by
  rw [gt_iff_lt, gt_iff_lt, ← not_le, ← not_le, sq_le_iff hd hs, sq_le_iff hd (by linarith)]
  constructor
  · rintro ⟨_, h⟩; exact not_le.1 h
  · intro h; constructor <;> linarith

theorem inside_iff {d sep s : ℝ} (hd : 0 ≤ d) (hs : 0 ≤ sep) (h : 0 < s) :
    (d ^ 2 ≤ sep ^ 2 ∧ s < sep ∧ d ^ 2 ≤ (sep - s) ^ 2) ↔ s < sep ∧ d + s ≤ sep := by
  rw [sq_le_iff hd hs]
  constructor
  · rintro ⟨_, h1, h2⟩
    rw [sq_le_iff hd (by linarith)] at h2
    exact ⟨h1, by linarith⟩
  · rintro ⟨h1, h2⟩
    rw [sq_le_iff hd (by linarith)]
    exact ⟨by linarith, h1, by linarith⟩

theorem objs_ne_nil (c : Cell P) (h : c.SumsOK) : c.objs ≠ [] := by
  induction c with
  | leaf d os => exact h.1
  | node d s l r ihl ihr =>
    simp only [Cell.SumsOK] at h
    simp only [Cell.objs, ne_eq, List.append_eq_nil_iff, not_and]
    intro hl
    exact absurd hl (ihl h.2.2.2.1)

theorem nearObjs_sublist (p : P) (sep : ℝ) (c : Cell P) : (c.nearObjs p sep).Sublist c.objs := by
  induction c with
  | leaf d os => simp only [Cell.nearObjs, Cell.objs]; split <;> simp
  | node d s l r ihl ihr =>
    simp only [Cell.nearObjs, Cell.objs]; split
    · simp
    · exact ihl.append ihr

/-- All objects close to the point are found. -/
theorem nearObjs_filter {p : P} {sep δ : ℝ} (q : Obj P → Prop) [DecidablePred q]
    (hq : ∀ o, q o → dist o.pos p ≤ sep) (c : Cell P) (hb : c.Bounded δ) (hδ : 0 ≤ δ) :
    (c.nearObjs p (sep + δ)).filter q = c.objs.filter q := by
  induction c with
  | leaf d os =>
    simp only [Cell.nearObjs, Cell.objs]
    split
    · rfl
    · rename_i h
      symm
      rw [List.filter_nil, List.filter_eq_nil_iff]
      intro o ho hqo
      have h1 := hb o ho
      have h2 := hq o (by simpa using hqo)
      have := dist_triangle d.pos o.pos p
      rw [dist_comm d.pos o.pos] at this
      linarith
  | node d s l r ihl ihr =>
    simp only [Cell.Bounded] at hb
    simp only [Cell.nearObjs, Cell.objs]
    split
    · rename_i h
      symm
      rw [List.filter_nil, List.filter_eq_nil_iff]
      intro o ho hqo
      have h1 := hb.2.1 o ho
      have h2 := hq o (by simpa using hqo)
      have := dist_triangle d.pos o.pos p
      rw [dist_comm d.pos o.pos] at this
      linarith
    · rw [List.filter_append, List.filter_append, ihl hb.2.2.1, ihr hb.2.2.2]

theorem nearObjs_all {p : P} {sep δ : ℝ} (c : Cell P) (hb : c.Bounded δ) (hc : c.SumsOK)
    (h1 : ∀ o ∈ c.objs, dist o.pos p ≤ sep) (h2 : ∀ q ∈ c.leafPos, dist q p ≤ sep) :
    c.nearObjs p sep = c.objs := by
  induction c with
  | leaf d os => simpa [Cell.nearObjs, Cell.objs, Cell.leafPos] using fun h => absurd h (not_lt.2 (h2 d.pos (by simp [Cell.leafPos])))
  | node d s l r ihl ihr =>
    have hne := objs_ne_nil _ hc
    simp only [Cell.Bounded] at hb
    simp only [Cell.SumsOK] at hc
    simp only [Cell.objs, Cell.leafPos, List.mem_append] at h1 h2 hne
    simp only [Cell.nearObjs, Cell.objs]
    rw [ihl hb.2.2.1 hc.2.2.2.1 (fun o ho => h1 o (.inl ho)) (fun q hq => h2 q (.inl hq)),
      ihr hb.2.2.2 hc.2.2.2.2 (fun o ho => h1 o (.inr ho)) (fun q hq => h2 q (.inr hq)), if_neg]
    intro h
    obtain ⟨o, ho⟩ := List.exists_mem_of_ne_nil _ hne
    have h3 := hb.2.1 o ho
    have h4 := h1 o (List.mem_append.1 ho)
    have := dist_triangle d.pos o.pos p
    rw [dist_comm d.pos o.pos] at this
    linarith

theorem getNear_eq {p : P} {sep δ : ℝ} (hs : 0 ≤ sep) (n : ℕ) (c : Cell P) (hb : c.Bounded δ) (hc : c.SumsOK)
    (buf : List ℕ) (hn : buf.length + (c.nearObjs p sep).length ≤ n) :
    c.getNear p sep n buf = some (buf ++ (c.nearObjs p sep).map Obj.idx) := by
  induction c generalizing buf with
  | leaf d os =>
    simp only [Cell.getNear, Cell.nearObjs, sq_le_iff dist_nonneg hs] at hn ⊢
    split_ifs at hn ⊢ with h1 h2
    · rw [hc.2.1] at h2; omega
    · rfl
    · exact absurd hc.2.1.symm ‹_›
    · simp
  | node d s l r ihl ihr =>
    simp only [Cell.Bounded] at hb
    simp only [Cell.SumsOK] at hc
    simp only [Cell.getNear, Cell.nearObjs, prune_iff dist_nonneg hs hb.1] at hn ⊢
    rw [if_neg hb.1.ne']
    split_ifs at hn ⊢ with h1
    · simp
    · rw [List.length_append] at hn
      rw [ihl hb.2.2.1 hc.2.2.2.1 buf (by omega)]
      simp only [Option.bind_some]
      rw [ihr hb.2.2.2 hc.2.2.2.2 _ (by rw [List.length_append, List.length_map]; omega)]
      simp

theorem countNear_eq {p : P} {sep δ R : ℝ} (hs : 0 ≤ sep) (hR : sep ≤ R) (c : Cell P) (hb : c.Bounded δ)
    (hc : c.SumsOK) (hi : c.InBall R) : c.countNear p sep = (c.nearObjs p sep).length := by
  induction c with
  | leaf d os =>
    simp only [Cell.countNear, Cell.nearObjs, sq_le_iff dist_nonneg hs]
    split_ifs
    · exact hc.2.1
    · rfl
  | node d s l r ihl ihr =>
    have hb0 := hb
    have hc0 := hc
    simp only [Cell.Bounded] at hb
    simp only [Cell.SumsOK] at hc
    simp only [Cell.InBall] at hi
    have e : (Cell.node d s l r).countNear p sep = (if sep + s < dist d.pos p then 0 else
      if s < sep ∧ dist d.pos p + s ≤ sep then d.n else l.countNear p sep + r.countNear p sep) := by
      simp only [Cell.countNear, if_neg hb.1.ne', prune_iff dist_nonneg hs hb.1, inside_iff dist_nonneg hs hb.1]
    rw [e]
    split_ifs with h1 h2
    · simp [Cell.nearObjs, h1]
    · rw [nearObjs_all _ hb0 hc0]
      · exact hc.1
      · intro o ho
        have := hb.2.1 o ho
        have := dist_triangle o.pos d.pos p
        linarith
      · intro q hq
        have := hi.1 (by linarith) q hq
        have := dist_triangle q d.pos p
        linarith
    · simp only [Cell.nearObjs, if_neg h1, List.length_append]
      rw [ihl hb.2.2.1 hc.2.2.2.1 hi.2.1, ihr hb.2.2.2 hc.2.2.2.2 hi.2.2]

/-- Trees whose leaves hold coincident objects only. -/
theorem inBall_zero (R : ℝ) (c : Cell P) (hb : c.Bounded 0) (hc : c.SumsOK) : c.InBall R := by
  have key : ∀ c : Cell P, c.Bounded 0 → c.SumsOK → ∀ q ∈ c.leafPos, ∃ o ∈ c.objs, dist o.pos q ≤ 0 := by
    intro c
    induction c with
    | leaf d os =>
      intro hb hc q hq
      obtain ⟨o, ho⟩ := List.exists_mem_of_ne_nil _ hc.1
      simp only [Cell.leafPos, List.mem_singleton] at hq
      exact ⟨o, ho, hq ▸ hb o ho⟩
    | node d s l r ihl ihr =>
      intro hb hc q hq
      simp only [Cell.leafPos, List.mem_append] at hq
      simp only [Cell.objs, List.mem_append]
      rcases hq with hq | hq
      · obtain ⟨o, h1, h2⟩ := ihl hb.2.2.1 hc.2.2.2.1 q hq; exact ⟨o, .inl h1, h2⟩
      · obtain ⟨o, h1, h2⟩ := ihr hb.2.2.2 hc.2.2.2.2 q hq; exact ⟨o, .inr h1, h2⟩
  induction c with
  | leaf => trivial
  | node d s l r ihl ihr =>
    refine ⟨fun _ q hq => ?_, ihl hb.2.2.1 hc.2.2.2.1, ihr hb.2.2.2 hc.2.2.2.2⟩
    obtain ⟨o, h1, h2⟩ := key (.node d s l r) hb hc q hq
    have := hb.2.1 o h1
    have := dist_triangle q o.pos d.pos
    rw [dist_comm q o.pos] at this
    linarith

/-! The whole field. -/

theorem foldl_count (p : P) (sep : ℝ) (cs : List (Cell P)) (h : ∀ c ∈ cs, c.countNear p sep = (c.nearObjs p sep).length)
    (a : ℕ) : cs.foldl (fun ntot c => ntot + c.countNear p sep) a
      = a + (cs.flatMap (fun c => c.nearObjs p sep)).length := by
  induction cs generalizing a with
  | nil => rfl
  | cons c cs ih =>
    rw [List.foldl_cons, ih (fun c hc => h c (List.mem_cons_of_mem _ hc)), h c (List.mem_cons_self),
      List.flatMap_cons, List.length_append]
    omega

theorem foldlM_get {p : P} {sep δ : ℝ} (hs : 0 ≤ sep) (n : ℕ) (cs : List (Cell P))
    (h : ∀ c ∈ cs, c.Bounded δ ∧ c.SumsOK) (buf : List ℕ)
    (hn : buf.length + (cs.flatMap (fun c => c.nearObjs p sep)).length ≤ n) :
    cs.foldlM (fun buf c => c.getNear p sep n buf) buf
      = some (buf ++ (cs.flatMap (fun c => c.nearObjs p sep)).map Obj.idx) := by
  induction cs generalizing buf with
  | nil => simp
  | cons c cs ih =>
    rw [List.flatMap_cons, List.length_append] at hn
    obtain ⟨h1, h2⟩ := h c (List.mem_cons_self)
    rw [List.foldlM_cons, getNear_eq hs n c h1 h2 buf (by omega)]
    simp only [Option.bind_eq_bind, Option.bind_some]
    rw [ih (fun c hc => h c (List.mem_cons_of_mem _ hc)) _ (by rw [List.length_append, List.length_map]; omega)]
    simp

theorem getNearArr_eq {p : P} {sep δ R : ℝ} (hs : 0 ≤ sep) (hR : sep ≤ R) (f : Field P)
    (h : ∀ c ∈ f.cells, c.Bounded δ ∧ c.SumsOK ∧ c.InBall R) :
    f.getNearArr p sep = some ((f.cells.flatMap (fun c => c.nearObjs p sep)).map Obj.idx) ∧
    f.countNear p sep = (f.cells.flatMap (fun c => c.nearObjs p sep)).length := by
  have e : f.countNear p sep = (f.cells.flatMap (fun c => c.nearObjs p sep)).length := by
    unfold Field.countNear
    rw [foldl_count p sep f.cells (fun c hc => countNear_eq hs hR c (h c hc).1 (h c hc).2.1 (h c hc).2.2)]
    omega
  refine ⟨?_, e⟩
  unfold Field.getNearArr Field.getNear
  rw [e]
  simp only
  rw [foldlM_get hs _ f.cells (fun c hc => ⟨(h c hc).1, (h c hc).2.1⟩) [] (by simp)]
  simp

theorem flatMap_filter {α β : Type} (q : β → Bool) (f g : α → List β) (cs : List α)
    (h : ∀ c ∈ cs, (f c).filter q = (g c).filter q) :
    (cs.flatMap f).filter q = (cs.flatMap g).filter q := by
  induction cs with
  | nil => rfl
  | cons c cs ih =>
    simp only [List.flatMap_cons, List.filter_append]
    rw [h c (List.mem_cons_self), ih (fun c hc => h c (List.mem_cons_of_mem _ hc))]

/-! The means of objects. -/

/-- Means stay in `U`, and means of objects of non-negative position weight do not leave balls up to radius `R`. -/
structure Geom.Hull (g : Geom P) (U : P → Prop) (R : ℝ) : Prop where
  mean_mem : ∀ l : List (Obj P), l ≠ [] → (∀ o ∈ l, U o.pos) → U (g.mean l)
  mean_dist : ∀ l : List (Obj P), l ≠ [] → (∀ o ∈ l, U o.pos ∧ 0 ≤ o.wpos) → ∀ c, U c → ∀ s ≤ R,
    (∀ o ∈ l, dist o.pos c ≤ s) → dist (g.mean l) c ≤ s

theorem buildCell_inBall (A : StdAlg P) (g : Geom P) (hg : g.Dominates) {U : P → Prop} {R : ℝ} (hh : g.Hull U R)
    (sm : SplitMethod) {m : ℝ} (hm : 0 ≤ m) (l : List (Obj P)) (hl : ∀ o ∈ l, U o.pos ∧ 0 ≤ o.wpos) :
    (buildCell A g sm (m * m) l).InBall R := by
  have key : ∀ l : List (Obj P), l ≠ [] → (∀ o ∈ l, U o.pos ∧ 0 ≤ o.wpos) → ∀ c, U c → ∀ s ≤ R,
      (∀ o ∈ l, dist o.pos c ≤ s) → ∀ q ∈ (buildCell A g sm (m * m) l).leafPos, dist q c ≤ s := by
    intro l
    induction l using buildCell.induct A g sm (m * m) with
    | case1 => intro h; exact absurd rfl h
    | case2 o =>
      intro _ hl c hc s hs h q hq
      simp only [buildCell, Cell.leafPos, List.mem_singleton] at hq
      exact hq ▸ h o (by simp)
    | case3 o1 o2 os l d sz h sp ih1 ih2 =>
      intro hne hl c hc s hs hd q hq
      rw [buildCell, if_pos h] at hq
      have hp := splitData_perm A g sm (o1 :: o2 :: os) d.pos
      have hlt := splitData_lt A g sm (o1 :: o2 :: os) d.pos (by simp)
      simp only [Cell.leafPos, List.mem_append] at hq
      have m1 : ∀ o ∈ sp.1, o ∈ l := fun o ho => hp.mem_iff.1 (List.mem_append_left _ ho)
      have m2 : ∀ o ∈ sp.2, o ∈ l := fun o ho => hp.mem_iff.1 (List.mem_append_right _ ho)
      rcases hq with hq | hq
      · exact ih1 (List.ne_nil_of_length_pos hlt.1) (fun o ho => hl o (m1 o ho)) c hc s hs (fun o ho => hd o (m1 o ho)) q hq
      · exact ih2 (List.ne_nil_of_length_pos hlt.2.2.1) (fun o ho => hl o (m2 o ho)) c hc s hs (fun o ho => hd o (m2 o ho)) q hq
    | case4 o1 o2 os l d sz h =>
      intro hne hl c hc s hs hd q hq
      rw [buildCell, if_neg h] at hq
      simp only [Cell.leafPos, List.mem_singleton] at hq
      rw [hq]
      exact hh.mean_dist l hne hl c hc s hs hd
  induction l using buildCell.induct A g sm (m * m) with
  | case1 => simp [buildCell, Cell.InBall]
  | case2 o => simp [buildCell, Cell.InBall]
  | case3 o1 o2 os l d sz h sp ih1 ih2 =>
    have hb := buildCell_bounded A g hg sm hm l
    have hk := fun c hc s hs hd => key l (by simp [l]) hl c hc s hs hd
    have hper := buildCell_perm A g sm (m * m) l
    simp only [l] at hb hk hper
    rw [buildCell, if_pos h] at hb hk hper ⊢
    have hp := splitData_perm A g sm (o1 :: o2 :: os) d.pos
    have m1 : ∀ o ∈ sp.1, o ∈ l := fun o ho => hp.mem_iff.1 (List.mem_append_left _ ho)
    have m2 : ∀ o ∈ sp.2, o ∈ l := fun o ho => hp.mem_iff.1 (List.mem_append_right _ ho)
    refine ⟨fun hs => ?_, ih1 (fun o ho => hl o (m1 o ho)), ih2 (fun o ho => hl o (m2 o ho))⟩
    refine hk _ (hh.mean_mem l (by simp [l]) (fun o ho => (hl o ho).1)) _ hs ?_
    intro o ho
    exact hb.2.1 o (hper.mem_iff.2 ho)
  | case4 o1 o2 os l d sz h => rw [buildCell, if_neg h]; trivial

theorem buildField_inBall (A : StdAlg P) (g : Geom P) (hg : g.Dominates) {U : P → Prop} {R : ℝ} (hh : g.Hull U R)
    (fp : FieldParams) (hm : 0 ≤ fp.minsize) (l : List (Obj P)) (hl : ∀ o ∈ l, U o.pos ∧ 0 ≤ o.wpos) :
    ∀ c ∈ (buildField A g fp l).cells, c.InBall R := by
  intro c hc
  simp only [buildField, List.mem_map] at hc
  obtain ⟨s, hs, rfl⟩ := hc
  refine buildCell_inBall A g hg hh fp.sm hm s (fun o ho => hl o ?_)
  rw [← (topCells_perm A g fp.sm (fp.maxsize * fp.maxsize) fp.mintop fp.maxtop l).mem_iff]
  exact List.mem_flatten.2 ⟨s, hs, ho⟩

end TreeCorr
