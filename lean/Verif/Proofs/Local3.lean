import Verif.Model.Local3
import Verif.Proofs.Local
import Verif.Proofs.PatchTri
import Verif.Proofs.PatchHist3
import Verif.Proofs.MpTriples

/-! Lemmas for `patch_method='local'` of the three-point classes. -/

namespace TreeCorr
open Classical
noncomputable section

/-! ### The loops as lists of jobs -/

section
variable {V C : Type} [AddCommMonoid V]

/-- The jobs of a local loop. -/
def localJobs3 (res : C → Res3 V) (cats : List (ℕ × C)) : List (Job3 V) :=
  cats.map fun c => ⟨(c.1, c.1, c.1), (c.1, c.1, c.1), true, res c.2, 0⟩

theorem localPass_eq (K : Kit3 V C) (mine : ℕ → ℕ → ℕ → Prop) (res : C → Res3 V) (cats : List (ℕ × C)) (S : TriCorr V) :
    K.localPass mine res cats S = ((localJobs3 res cats).filter (jobMine3 mine)).foldl (Job3.run K) S := by
  unfold Kit3.localPass localJobs3
  rw [map_flatMap_one]
  apply foldl_jobs
  intro S c
  rw [filter_one]
  simp [jobMine3, Job3.run]

theorem localJobs3_val (K : Kit3 V C) (res : C → Res3 V) (cats : List (ℕ × C)) :
    (localJobs3 res cats).map (Job3.val K) = cats.map fun c => res c.2 := by
  simp [localJobs3, Job3.val, Function.comp_def]

theorem localJobs3_stored (K : Kit3 V C) (res : C → Res3 V) (cats : List (ℕ × C)) :
    (localJobs3 res cats).flatMap (Job3.stored K) = cats.map fun c => ((c.1, c.1, c.1), res c.2) := by
  induction cats with
  | nil => rfl
  | cons c t ih =>
    have e : localJobs3 res (c :: t) = ⟨(c.1, c.1, c.1), (c.1, c.1, c.1), true, res c.2, 0⟩ :: localJobs3 res t := rfl
    rw [e, List.flatMap_cons, ih]
    simp [Job3.stored, Job3.val]

theorem localJobs3_nodup (res : C → Res3 V) {cats : List (ℕ × C)} (h : (cats.map Prod.fst).Nodup) :
    ((localJobs3 res cats).map Job3.key).Nodup := by
  have : (localJobs3 res cats).map Job3.key = (cats.map Prod.fst).map fun i => (i, i, i) := by
    simp [localJobs3, Function.comp_def]
  rw [this]
  exact h.map fun a b e => (Prod.ext_iff.1 e).1

theorem localJobs3_good {G : V → Prop} {res : C → Res3 V} (h : ∀ c, G (res c).acc) (cats : List (ℕ × C)) :
    ∀ J ∈ localJobs3 res cats, J.Good G := by
  intro J hJ
  obtain ⟨c, _, rfl⟩ := List.mem_map.1 hJ
  exact h c.2

theorem localRes12_good {K : Kit3 V C} {G : V → Prop} (hK : K.Good G) (w : ℝ) (c1 : C) (e : Option C) :
    G (K.localRes12 w c1 e).acc := by
  cases e with
  | none => exact hK.zero
  | some c =>
    simp only [Kit3.localRes12]
    split
    · exact hK.zero
    · exact hK.cross12 _ _ _

theorem localRes123_good {K : Kit3 V C} {G : V → Prop} (hK : K.Good G) (O : Ord3) (w2 w3 : ℝ) (c1 : C) (e2 e3 : Option C) :
    G (K.localRes123 O w2 w3 c1 e2 e3).acc := by
  rcases e2 with _ | c2 <;> rcases e3 with _ | c3
  · exact hK.zero
  · exact hK.zero
  · exact hK.zero
  · simp only [Kit3.localRes123]
    split
    · exact hK.zero
    · exact hK.cross _ _ _ _

theorem localPass_self {K : Kit3 V C} {G : V → Prop} (hK : K.Good G) {res : C → Res3 V} (h : ∀ c, G (res c).acc)
    (cats : List (ℕ × C)) (S : TriCorr V) :
    (K.localPass (fun _ _ _ => True) res cats S).self = S.self + (cats.map fun c => res c.2).sum := by
  rw [localPass_eq, serial_filter3, run_jobs_self3 hK _ (localJobs3_good h cats), localJobs3_val]

end

/-! ### Dropping rows that are in no triangle -/

/-- `l'` is `l` without some rows, all of which satisfy `far`. -/
inductive DropOf {α : Type} (far : α → Prop) : List α → List α → Prop
  | nil : DropOf far [] []
  | keep (a : α) {l' l : List α} : DropOf far l' l → DropOf far (a :: l') (a :: l)
  | drop (a : α) {l' l : List α} : far a → DropOf far l' l → DropOf far l' (a :: l)

namespace DropOf
variable {α : Type} {far : α → Prop}

theorem append {a' a b' b : List α} (h1 : DropOf far a' a) (h2 : DropOf far b' b) : DropOf far (a' ++ b') (a ++ b) := by
  induction h1 with
  | nil => exact h2
  | keep x _ ih => exact .keep x ih
  | drop x hx _ ih => exact .drop x hx ih

theorem none {l : List α} (h : ∀ x ∈ l, far x) : DropOf far [] l := by
  induction l with
  | nil => exact .nil
  | cons a t ih => exact .drop a (h a (by simp)) (ih fun x hx => h x (by simp [hx]))

theorem filter {l : List α} {q : α → Bool} (h : ∀ x ∈ l, q x = false → far x) : DropOf far (l.filter q) l := by
  induction l with
  | nil => exact .nil
  | cons a t ih =>
    have ht := ih fun x hx => h x (by simp [hx])
    by_cases hq : q a = true
    · rw [List.filter_cons_of_pos hq]; exact .keep a ht
    · rw [List.filter_cons_of_neg hq]; exact .drop a (h a (by simp) (by simpa using hq)) ht

/-- Far in second or third place. -/
def Bad (far : α → Prop) (a : List α) (q : α × α × α) : Prop := q.1 ∈ a ∧ (far q.2.1 ∨ far q.2.2)

theorem orders_ne_any {O : Ord3} (hO : O ≠ .any) {x y z : α} {q : α × α × α} (h : q ∈ O.orders (x, y, z)) :
    q = (x, y, z) ∨ q = (x, z, y) := by
  cases O with
  | any => exact absurd rfl hO
  | first => simpa [Ord3.orders, orders2] using h
  | fixed => left; simpa [Ord3.orders] using h

theorem bad_far1 {O : Ord3} (hO : O ≠ .any) {a b c : List α} (h : ∀ y ∈ b, far y) : ∀ q ∈ from111 O a b c, Bad far a q := by
  intro q hq
  obtain ⟨x, hx, y, hy, z, hz, ho⟩ := mem_from111.1 hq
  rcases orders_ne_any hO ho with rfl | rfl
  · exact ⟨hx, Or.inl (h y hy)⟩
  · exact ⟨hx, Or.inr (h y hy)⟩

theorem bad_far2 {O : Ord3} (hO : O ≠ .any) {a b c : List α} (h : ∀ y ∈ c, far y) : ∀ q ∈ from111 O a b c, Bad far a q := by
  intro q hq
  obtain ⟨x, hx, y, hy, z, hz, ho⟩ := mem_from111.1 hq
  rcases orders_ne_any hO ho with rfl | rfl
  · exact ⟨hx, Or.inr (h z hz)⟩
  · exact ⟨hx, Or.inl (h z hz)⟩

theorem from111_2 {O : Ord3} (hO : O ≠ .any) (a c : List α) {b' b : List α} (h : DropOf far b' b) :
    ∃ rest, from111 O a b c = from111 O a b' c + rest ∧ ∀ q ∈ rest, Bad far a q := by
  induction h with
  | nil => exact ⟨0, by simp, by simp⟩
  | @keep x l' l _ ih =>
    obtain ⟨r, e, hr⟩ := ih
    refine ⟨r, ?_, hr⟩
    have e1 : from111 O a (x :: l) c = from111 O a [x] c + from111 O a l c := from111_append2 O [x] l a c
    have e2 : from111 O a (x :: l') c = from111 O a [x] c + from111 O a l' c := from111_append2 O [x] l' a c
    rw [e1, e2, e]; abel
  | @drop x l' l hx _ ih =>
    obtain ⟨r, e, hr⟩ := ih
    refine ⟨from111 O a [x] c + r, ?_, fun q hq => ?_⟩
    · have e1 : from111 O a (x :: l) c = from111 O a [x] c + from111 O a l c := from111_append2 O [x] l a c
      rw [e1, e]; abel
    · rcases Multiset.mem_add.1 hq with h | h
      · exact bad_far1 hO (by simpa using hx) q h
      · exact hr q h

theorem from111_3 {O : Ord3} (hO : O ≠ .any) (a b : List α) {c' c : List α} (h : DropOf far c' c) :
    ∃ rest, from111 O a b c = from111 O a b c' + rest ∧ ∀ q ∈ rest, Bad far a q := by
  induction h with
  | nil => exact ⟨0, by simp, by simp⟩
  | @keep x l' l _ ih =>
    obtain ⟨r, e, hr⟩ := ih
    refine ⟨r, ?_, hr⟩
    have e1 : from111 O a b (x :: l) = from111 O a b [x] + from111 O a b l := from111_append3 O [x] l a b
    have e2 : from111 O a b (x :: l') = from111 O a b [x] + from111 O a b l' := from111_append3 O [x] l' a b
    rw [e1, e2, e]; abel
  | @drop x l' l hx _ ih =>
    obtain ⟨r, e, hr⟩ := ih
    refine ⟨from111 O a b [x] + r, ?_, fun q hq => ?_⟩
    · have e1 : from111 O a b (x :: l) = from111 O a b [x] + from111 O a b l := from111_append3 O [x] l a b
      rw [e1, e]; abel
    · rcases Multiset.mem_add.1 hq with h | h
      · exact bad_far2 hO (by simpa using hx) q h
      · exact hr q h

theorem from111 {O : Ord3} (hO : O ≠ .any) (a : List α) {b' b c' c : List α} (h2 : DropOf far b' b) (h3 : DropOf far c' c) :
    ∃ rest, TreeCorr.from111 O a b c = TreeCorr.from111 O a b' c' + rest ∧ ∀ q ∈ rest, Bad far a q := by
  obtain ⟨r, e, hr⟩ := from111_2 hO a c h2
  obtain ⟨s, f, hs⟩ := from111_3 hO a b' h3
  refine ⟨s + r, by rw [e, f]; abel, fun q hq => ?_⟩
  rcases Multiset.mem_add.1 hq with h | h
  · exact hs q h
  · exact hr q h

theorem from12 {O : Ord3} (hO : O ≠ .any) (a : List α) {b' b : List α} (h : DropOf far b' b) :
    ∃ rest, TreeCorr.from12 O a b = TreeCorr.from12 O a b' + rest ∧ ∀ q ∈ rest, Bad far a q := by
  induction h with
  | nil => exact ⟨0, by simp, by simp⟩
  | @keep x l' l hl ih =>
    obtain ⟨r, e, hr⟩ := ih
    obtain ⟨s, f, hs⟩ := from111_3 hO a [x] hl
    have e1 : TreeCorr.from12 O a (x :: l) = TreeCorr.from12 O a [x] + TreeCorr.from12 O a l + TreeCorr.from111 O a [x] l :=
      from12_append2 O a [x] l
    have e2 : TreeCorr.from12 O a (x :: l') = TreeCorr.from12 O a [x] + TreeCorr.from12 O a l' + TreeCorr.from111 O a [x] l' :=
      from12_append2 O a [x] l'
    refine ⟨r + s, by rw [e1, e2, e, f]; abel, fun q hq => ?_⟩
    rcases Multiset.mem_add.1 hq with h | h
    · exact hr q h
    · exact hs q h
  | @drop x l' l hx hl ih =>
    obtain ⟨r, e, hr⟩ := ih
    have e1 : TreeCorr.from12 O a (x :: l) = TreeCorr.from12 O a [x] + TreeCorr.from12 O a l + TreeCorr.from111 O a [x] l :=
      from12_append2 O a [x] l
    have e2 : TreeCorr.from12 O a [x] = 0 := by simp [TreeCorr.from12, autoPairs]
    refine ⟨r + TreeCorr.from111 O a [x] l, by rw [e1, e2, e]; abel, fun q hq => ?_⟩
    rcases Multiset.mem_add.1 hq with h | h
    · exact hr q h
    · exact bad_far1 hO (by simpa using hx) q h

end DropOf

/-! ### The rows of an expanded patch -/

section
variable {d : ℕ}

/-- At least `maxsep` away from all rows of `c1`. -/
def FarFrom (maxsep : ℝ) (c1 : List (Obj (EuclideanSpace ℝ (Fin d)))) (o : Obj (EuclideanSpace ℝ (Fin d))) : Prop :=
  ∀ x ∈ c1, maxsep ≤ dist x.pos o.pos

theorem kept_drop {threeD : Bool} {maxsep : ℝ} {c1 p : List (Obj (EuclideanSpace ℝ (Fin d)))}
    (hn : CollapseNear threeD (centerSize c1).1 p) : DropOf (FarFrom maxsep c1) (keptRows threeD maxsep c1 p) p := by
  unfold keptRows
  split
  · rename_i h
    refine DropOf.none fun y hy x hx => ?_
    have h1 := centerSize_le c1 x hx
    have h2 := centerSize_le p y hy
    have h3 := hn.1
    have h4 := dist_triangle4 (centerSize p).1 y.pos x.pos (centerSize c1).1
    rw [dist_comm (centerSize p).1 y.pos, dist_comm y.pos x.pos] at h4
    linarith
  · refine DropOf.filter fun y hy hq x hx => ?_
    have h1 := centerSize_le c1 x hx
    have h2 := hn.2 y hy
    have h3 : ¬ _ := of_decide_eq_false hq
    push Not at h3
    have h4 := dist_triangle y.pos x.pos (centerSize c1).1
    rw [dist_comm y.pos x.pos] at h4
    linarith

theorem expanded_drop {threeD : Bool} {maxsep : ℝ} {c1 : List (Obj (EuclideanSpace ℝ (Fin d)))}
    {cats2 : List (ℕ × List (Obj (EuclideanSpace ℝ (Fin d))))} (hn : ∀ c ∈ cats2, CollapseNear threeD (centerSize c1).1 c.2) :
    DropOf (FarFrom maxsep c1) ((cats2.map Prod.snd).flatMap (keptRows threeD maxsep c1)) (cats2.flatMap Prod.snd) := by
  induction cats2 with
  | nil => exact .nil
  | cons c t ih =>
    simp only [List.map_cons, List.flatMap_cons]
    exact (kept_drop (hn c (by simp))).append (ih fun c hc => hn c (by simp [hc]))

theorem expanded_sub {threeD : Bool} {maxsep : ℝ} {c1 : List (Obj (EuclideanSpace ℝ (Fin d)))}
    {cats2 : List (ℕ × List (Obj (EuclideanSpace ℝ (Fin d))))} :
    ∀ o ∈ (cats2.map Prod.snd).flatMap (keptRows threeD maxsep c1), o ∈ cats2.flatMap Prod.snd := by
  intro o ho
  obtain ⟨p, hp, ho⟩ := List.mem_flatMap.1 ho
  obtain ⟨c, hc, rfl⟩ := List.mem_map.1 hp
  exact List.mem_flatMap.2 ⟨c, hc, keptRows_sub o ho⟩

/-- The triangles in range with the first row in a patch have the others in the surroundings of the patch. -/
theorem bad_not_in {maxsep : ℝ} {c1 : List (Obj (EuclideanSpace ℝ (Fin d)))}
    {q : Obj (EuclideanSpace ℝ (Fin d)) × Obj (EuclideanSpace ℝ (Fin d)) × Obj (EuclideanSpace ℝ (Fin d))}
    (h : DropOf.Bad (FarFrom maxsep c1) c1 q) : ¬ (side2 q < maxsep ∧ side3 q < maxsep) := by
  rintro ⟨h2, h3⟩
  rcases h.2 with hf | hf
  · exact absurd (hf _ h.1) (not_le.2 h3)
  · exact absurd (hf _ h.1) (not_le.2 h2)

theorem filter_rest {β : Type} {m n r : Multiset β} {A : β → Prop} (h : m = n + r) (hr : ∀ q ∈ r, ¬ A q) : m.filter A = n.filter A := by
  rw [h, Multiset.filter_add, Multiset.filter_eq_nil.2 hr, add_zero]

/-! ### Each pass -/

variable {A : StdAlg (EuclideanSpace ℝ (Fin d))} {g : Geom (EuclideanSpace ℝ (Fin d))} {fp : FieldParams}
  {B : Bin3 (EuclideanSpace ℝ (Fin d))} {M : Metric3 (EuclideanSpace ℝ (Fin d))} {prm : Prm3}
  {same : List (Obj (EuclideanSpace ℝ (Fin d))) → List (Obj (EuclideanSpace ℝ (Fin d))) → Prop} {nn : Bool}
  {Gc : Ord3 → Obj (EuclideanSpace ℝ (Fin d)) × Obj (EuclideanSpace ℝ (Fin d)) × Obj (EuclideanSpace ℝ (Fin d)) → Prop}
  {inBin : ℤ → Obj (EuclideanSpace ℝ (Fin d)) × Obj (EuclideanSpace ℝ (Fin d)) × Obj (EuclideanSpace ℝ (Fin d)) → Prop}
  {fu fv : Obj (EuclideanSpace ℝ (Fin d)) × Obj (EuclideanSpace ℝ (Fin d)) × Obj (EuclideanSpace ℝ (Fin d)) → ℝ}
  {cats1 cats2 cats3 : List (ℕ × List (Obj (EuclideanSpace ℝ (Fin d))))} {threeD : Bool}

/-- What the loop over one catalogue with its surroundings in another adds. -/
def pass12Val {V : Type} [AddCommMonoid V] (K : Kit3 V (List (Obj (EuclideanSpace ℝ (Fin d))))) (threeD : Bool) (maxsep : ℝ)
    (cats1 cats2 : List (ℕ × List (Obj (EuclideanSpace ℝ (Fin d))))) : Res3 V :=
  (cats1.map fun c => K.localRes12 (K.allSumw cats2) c.2 (expandPatch threeD maxsep c.2 (cats2.map Prod.snd))).sum

def pass123Val {V : Type} [AddCommMonoid V] (K : Kit3 V (List (Obj (EuclideanSpace ℝ (Fin d))))) (threeD : Bool) (maxsep : ℝ) (O : Ord3)
    (cats1 cats2 cats3 : List (ℕ × List (Obj (EuclideanSpace ℝ (Fin d))))) : Res3 V :=
  (cats1.map fun c => K.localRes123 O (K.allSumw cats2) (K.allSumw cats3) c.2 (expandPatch threeD maxsep c.2 (cats2.map Prod.snd))
    (expandPatch threeD maxsep c.2 (cats3.map Prod.snd))).sum

theorem pass12_self {V : Type} [AddCommMonoid V] {K : Kit3 V (List (Obj (EuclideanSpace ℝ (Fin d))))} {G : V → Prop} (hK : K.Good G)
    (threeD : Bool) (maxsep : ℝ) (cats1 cats2 : List (ℕ × List (Obj (EuclideanSpace ℝ (Fin d))))) (S : TriCorr V) :
    (K.localPass12 (fun _ _ _ => True) threeD maxsep cats1 cats2 S).self = S.self + pass12Val K threeD maxsep cats1 cats2 :=
  localPass_self hK (fun _ => localRes12_good hK _ _ _) _ _

theorem pass123_self {V : Type} [AddCommMonoid V] {K : Kit3 V (List (Obj (EuclideanSpace ℝ (Fin d))))} {G : V → Prop} (hK : K.Good G)
    (threeD : Bool) (maxsep : ℝ) (O : Ord3) (cats1 cats2 cats3 : List (ℕ × List (Obj (EuclideanSpace ℝ (Fin d))))) (S : TriCorr V) :
    (K.localPass123 (fun _ _ _ => True) threeD maxsep O cats1 cats2 cats3 S).self
      = S.self + pass123Val K threeD maxsep O cats1 cats2 cats3 :=
  localPass_self hK (fun _ => localRes123_good hK _ _ _ _ _ _) _ _

theorem from111_first_eq {α : Type} (a b c : List α) : from111 .first a b c = crossTriples a b c + crossTriples a c b := by
  rw [crossTriples_bind, crossTriples_bind]
  unfold from111
  simp only [Ord3.orders, orders2, Multiset.bind_add]
  congr 2
  funext x
  exact Multiset.bind_bind _ _

theorem pass12_holds (hx : Exact3 B M prm.minsep (ValidCell 0) Gc inBin Weightless (Call3 fu fv))
    (hr : ∀ k t, inBin k t → SidesLe t (2 * prm.maxsep)) (hnear : ∀ k t, inBin k t → side2 t < prm.maxsep ∧ side3 t < prm.maxsep)
    (hg : g.Dominates) (hf : fp.minsize = 0) (hw1 : ∀ c ∈ cats1, ∀ o ∈ c.2, o.Valid) (hw2 : ∀ o ∈ cats2.flatMap Prod.snd, o.Valid)
    (hn : ∀ c1 ∈ cats1, ∀ c2 ∈ cats2, CollapseNear threeD (centerSize c1.2).1 c2.2)
    (hG : ∀ q ∈ from12 .first (cats1.flatMap Prod.snd) (cats2.flatMap Prod.snd), Gc .first q) (k : ℤ) :
    (pass12Val (triKit A g fp B M prm same nn) threeD prm.maxsep cats1 cats2).acc.Holds k
      ((from12 .first (cats1.flatMap Prod.snd) (cats2.flatMap Prod.snd)).filter (inBin k)) fu fv := by
  unfold pass12Val
  rw [Res3.sum_acc, List.map_map]
  rw [from12_flatMap1] at hG ⊢
  refine (holds_addRel (inBin k) k fu fv).sum fun c1 h1 => ?_
  obtain ⟨r, e, hbad⟩ := DropOf.from12 (O := .first) (by simp) c1.2 (expanded_drop (maxsep := prm.maxsep) (hn c1 h1))
  rw [filter_rest e fun q hq hb => bad_not_in (hbad q hq) (hnear k q hb)]
  simp only [Function.comp_apply]
  rw [expandPatch_eq]
  set L := (cats2.map Prod.snd).flatMap (keptRows threeD prm.maxsep c1.2) with hL
  by_cases he : L = []
  · rw [if_pos he, he]
    exact holds_zero fun t ht => by simp [from12, autoPairs] at ht
  · rw [if_neg he]
    have := tri_cross12_job (A := A) (same := same) (nn := nn) hx hr hg hf true (hw1 c1 h1) (l2 := L) (fun o ho => hw2 o (expanded_sub o ho))
      (fun q hq => hG q (mem_list_sum h1 (by rw [e]; exact Multiset.mem_add.2 (Or.inl hq)))) k
    simp only [Kit3.localRes12]
    split <;> rename_i h <;> simp only [h, if_true, if_false] at this <;> exact this

theorem pass123_holds (hx : Exact3 B M prm.minsep (ValidCell 0) Gc inBin Weightless (Call3 fu fv))
    (hr : ∀ k t, inBin k t → SidesLe t (2 * prm.maxsep)) (hnear : ∀ k t, inBin k t → side2 t < prm.maxsep ∧ side3 t < prm.maxsep)
    (hg : g.Dominates) (hf : fp.minsize = 0) {O : Ord3} (hO : O ≠ .any) (hw1 : ∀ c ∈ cats1, ∀ o ∈ c.2, o.Valid)
    (hw2 : ∀ o ∈ cats2.flatMap Prod.snd, o.Valid) (hw3 : ∀ o ∈ cats3.flatMap Prod.snd, o.Valid)
    (hn2 : ∀ c1 ∈ cats1, ∀ c2 ∈ cats2, CollapseNear threeD (centerSize c1.2).1 c2.2)
    (hn3 : ∀ c1 ∈ cats1, ∀ c3 ∈ cats3, CollapseNear threeD (centerSize c1.2).1 c3.2)
    (hG : ∀ q ∈ from111 O (cats1.flatMap Prod.snd) (cats2.flatMap Prod.snd) (cats3.flatMap Prod.snd), Gc O q) (k : ℤ) :
    (pass123Val (triKit A g fp B M prm same nn) threeD prm.maxsep O cats1 cats2 cats3).acc.Holds k
      ((from111 O (cats1.flatMap Prod.snd) (cats2.flatMap Prod.snd) (cats3.flatMap Prod.snd)).filter (inBin k)) fu fv := by
  unfold pass123Val
  rw [Res3.sum_acc, List.map_map]
  rw [from111_flatMap1] at hG ⊢
  refine (holds_addRel (inBin k) k fu fv).sum fun c1 h1 => ?_
  obtain ⟨r, e, hbad⟩ := DropOf.from111 hO c1.2 (expanded_drop (maxsep := prm.maxsep) (hn2 c1 h1))
    (expanded_drop (maxsep := prm.maxsep) (hn3 c1 h1))
  rw [filter_rest e fun q hq hb => bad_not_in (hbad q hq) (hnear k q hb)]
  simp only [Function.comp_apply]
  rw [expandPatch_eq, expandPatch_eq]
  set L := (cats2.map Prod.snd).flatMap (keptRows threeD prm.maxsep c1.2) with hL
  set L' := (cats3.map Prod.snd).flatMap (keptRows threeD prm.maxsep c1.2) with hL'
  by_cases he : L = []
  · rw [if_pos he, he]
    exact holds_zero fun t ht => by simp [from111] at ht
  by_cases he' : L' = []
  · rw [if_pos he', he', if_neg he]
    exact holds_zero fun t ht => by simp [from111] at ht
  rw [if_neg he, if_neg he']
  have := tri_cross_job (A := A) (same := same) (nn := nn) hx hr hg hf O (hw1 c1 h1) (l2 := L) (l3 := L')
    (fun o ho => hw2 o (expanded_sub o ho)) (fun o ho => hw3 o (expanded_sub o ho))
    (fun q hq => hG q (mem_list_sum h1 (by rw [e]; exact Multiset.mem_add.2 (Or.inl hq)))) k
  simp only [Kit3.localRes123]
  split <;> rename_i h <;> simp only [h, if_true, if_false] at this <;> exact this

/-! ### All passes -/

theorem clear_acc (S : TriCorr Acc3) : (if true = true then (TriCorr.clear : TriCorr Acc3) else S).self = 0 := rfl

theorem localAuto3_self {V : Type} [AddCommMonoid V] {K : Kit3 V (List (Obj (EuclideanSpace ℝ (Fin d))))} {G : V → Prop} (hK : K.Good G)
    (threeD : Bool) (maxsep : ℝ) (cats : List (ℕ × List (Obj (EuclideanSpace ℝ (Fin d))))) (S : TriCorr V) :
    (K.localAuto threeD maxsep true cats S).self = pass12Val K threeD maxsep cats cats := by
  simp only [Kit3.localAuto, Kit3.allLocalAuto, if_true]
  rw [pass12_self hK]
  exact zero_add _

theorem localCross12_self {V : Type} [AddCommMonoid V] {K : Kit3 V (List (Obj (EuclideanSpace ℝ (Fin d))))} {G : V → Prop}
    (hK : K.Good G) (threeD : Bool) (maxsep : ℝ) (o : Bool) (cats1 cats2 : List (ℕ × List (Obj (EuclideanSpace ℝ (Fin d)))))
    (S : TriCorr V) :
    (K.localCross12 threeD maxsep true o cats1 cats2 S).self = pass12Val K threeD maxsep cats1 cats2 +
      if o = true then 0 else pass123Val K threeD maxsep .first cats2 cats1 cats2 := by
  simp only [Kit3.localCross12, Kit3.allLocalCross12, if_true]
  cases o
  · simp only [Bool.false_eq_true, if_false]
    rw [pass123_self hK, pass12_self hK]
    congr 1
    exact zero_add _
  · simp only [if_true]
    rw [pass12_self hK]
    exact (zero_add _).trans (add_zero _).symm

theorem localCross3_self {V : Type} [AddCommMonoid V] {K : Kit3 V (List (Obj (EuclideanSpace ℝ (Fin d))))} {G : V → Prop} (hK : K.Good G)
    (threeD : Bool) (maxsep : ℝ) {O : Ord3} (hO : O ≠ .any) (cats1 cats2 cats3 : List (ℕ × List (Obj (EuclideanSpace ℝ (Fin d)))))
    (S : TriCorr V) :
    (K.localCross threeD maxsep true O cats1 cats2 cats3 S).self = pass123Val K threeD maxsep O cats1 cats2 cats3 := by
  have : (K.localPass123 (fun _ _ _ => True) threeD maxsep O cats1 cats2 cats3 TriCorr.clear).self
      = pass123Val K threeD maxsep O cats1 cats2 cats3 := by
    rw [pass123_self hK]; exact zero_add _
  cases O with
  | any => exact absurd rfl hO
  | first => exact this
  | fixed => exact this

theorem localCross3_self_any {V : Type} [AddCommMonoid V] {K : Kit3 V (List (Obj (EuclideanSpace ℝ (Fin d))))} {G : V → Prop}
    (hK : K.Good G) (threeD : Bool) (maxsep : ℝ) (cats1 cats2 cats3 : List (ℕ × List (Obj (EuclideanSpace ℝ (Fin d)))))
    (S : TriCorr V) :
    (K.localCross threeD maxsep true .any cats1 cats2 cats3 S).self = pass123Val K threeD maxsep .first cats1 cats2 cats3 +
      pass123Val K threeD maxsep .first cats2 cats1 cats3 + pass123Val K threeD maxsep .first cats3 cats1 cats2 := by
  simp only [Kit3.localCross, Kit3.allLocalCross, if_true]
  rw [pass123_self hK, pass123_self hK, pass123_self hK]
  congr 2
  exact zero_add _

theorem Acc3.Holds.add {P : Type} [PseudoMetricSpace P] {a b : Acc3} {k : ℤ} {m n : Multiset (Obj P × Obj P × Obj P)}
    {fu fv : Obj P × Obj P × Obj P → ℝ} (ha : a.Holds k m fu fv) (hb : b.Holds k n fu fv) : (a + b).Holds k (m + n) fu fv := by
  have e : ∀ (i : DecidablePred fun _ : Obj P × Obj P × Obj P => True) (m : Multiset (Obj P × Obj P × Obj P)),
      @Multiset.filter _ (fun _ => True) i m = m := fun i m => (@Multiset.filter_eq_self _ _ i m).2 fun _ _ => trivial
  have := (holds_addRel (fun _ : Obj P × Obj P × Obj P => True) k fu fv).add (a := a) (b := b) (m := m) (n := n)
    (by rw [e]; exact ha) (by rw [e]; exact hb)
  rwa [e] at this

/-- Nothing is in a bin whose first row coincides with another. -/
def SidesPos (inBin : ℤ → Obj (EuclideanSpace ℝ (Fin d)) × Obj (EuclideanSpace ℝ (Fin d)) × Obj (EuclideanSpace ℝ (Fin d)) → Prop) : Prop :=
  ∀ k t, inBin k t → 0 < side2 t ∧ 0 < side3 t

theorem SidesPos.ne1 (h : SidesPos inBin) {k : ℤ} (q) (hq : inBin k q) : q.1 ≠ q.2.1 := by
  intro e
  have := (h k q hq).2
  simp [side3, e] at this

theorem SidesPos.ne2 (h : SidesPos inBin) {k : ℤ} (q) (hq : inBin k q) : q.1 ≠ q.2.2 := by
  intro e
  have := (h k q hq).1
  simp [side2, e] at this

theorem from12_auto_filter (h : SidesPos inBin) (k : ℤ) (l : List (Obj (EuclideanSpace ℝ (Fin d)))) :
    (from12 .first l l).filter (inBin k) = (orderedTriples l).filter (inBin k) := by
  rw [from12_first_eq]
  exact ordered_filter l (inBin k) h.ne1 h.ne2

theorem from12_mixed_filter (h : SidesPos inBin) (k : ℤ) (l1 l2 : List (Obj (EuclideanSpace ℝ (Fin d)))) :
    (from12 .first l1 l2).filter (inBin k) + (from111 .first l2 l1 l2).filter (inBin k) = (mixedTriples l1 l2).filter (inBin k) := by
  rw [← mixed_filter l1 l2 (inBin k) h.ne1 h.ne2, from12_first_eq, from111_first_eq, Multiset.filter_add, add_comm]
  simp only [Multiset.filter_add]

theorem from111_mixed (l1 l2 l3 : List (Obj (EuclideanSpace ℝ (Fin d)))) :
    from111 .first l1 l2 l3 + from111 .first l2 l1 l3 + from111 .first l3 l1 l2 = mixed3Triples l1 l2 l3 := by
  rw [mixed3_eq, from111_first_eq, from111_first_eq, from111_first_eq]
  abel

end
end
end TreeCorr
