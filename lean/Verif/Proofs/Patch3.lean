import Verif.Model.Patch3
import Verif.Proofs.Mpi

/-! Lemmas about the patch bookkeeping of the three-point classes. -/

namespace TreeCorr
open Classical
noncomputable section
variable {V C : Type} [AddCommMonoid V]

@[ext] theorem Res3.ext {r s : Res3 V} (h1 : r.acc = s.acc) (h2 : r.tot = s.tot) : r = s := by
  cases r; cases s; simp_all

instance : Zero (Res3 V) := ⟨Res3.zero⟩
instance : Add (Res3 V) := ⟨fun r s => ⟨r.acc + s.acc, r.tot + s.tot⟩⟩

instance : AddCommMonoid (Res3 V) where
  add_assoc := by intro a b c; apply Res3.ext; exacts [_root_.add_assoc _ _ _, _root_.add_assoc _ _ _]
  add_comm := by intro a b; apply Res3.ext; exacts [_root_.add_comm _ _, _root_.add_comm _ _]
  zero_add := by intro a; apply Res3.ext; exacts [_root_.zero_add _, _root_.zero_add _]
  add_zero := by intro a; apply Res3.ext; exacts [_root_.add_zero _, _root_.add_zero _]
  nsmul := nsmulRec

theorem Res3.add_acc (r s : Res3 V) : (r + s).acc = r.acc + s.acc := rfl
theorem Res3.add_tot (r s : Res3 V) : (r + s).tot = r.tot + s.tot := rfl
theorem Res3.zero_def : (0 : Res3 V) = Res3.zero := rfl
@[simp] theorem Res3.zero_tot : (0 : Res3 V).tot = 0 := rfl
@[simp] theorem Res3.zero_acc : (0 : Res3 V).acc = 0 := rfl

theorem Res3.sum_tot (l : List (Res3 V)) : l.sum.tot = (l.map Res3.tot).sum := by
  induction l with
  | nil => rfl
  | cons a t ih => simp [Res3.add_tot, ih]

theorem Res3.sum_acc (l : List (Res3 V)) : l.sum.acc = (l.map Res3.acc).sum := by
  induction l with
  | nil => rfl
  | cons a t ih => simp [Res3.add_acc, ih]

/-- Counting yields arrays from a set `G` closed under addition in which only the zero arrays count no triangles. -/
structure Kit3.Good (K : Kit3 V C) (G : V → Prop) : Prop where
  zero : G 0
  add : ∀ {a b}, G a → G b → G (a + b)
  eq_zero : ∀ {a}, G a → ¬ K.nz a → a = 0
  nz_zero : ¬ K.nz 0
  auto : ∀ c, G (K.auto c)
  cross12 : ∀ o c1 c2, G (K.cross12 o c1 c2)
  cross : ∀ O c1 c2 c3, G (K.cross O c1 c2 c3)

theorem Kit3.Good.sum {K : Kit3 V C} {G : V → Prop} (hK : K.Good G) {l : List V} (h : ∀ a ∈ l, G a) : G l.sum := by
  induction l with
  | nil => exact hK.zero
  | cons a t ih =>
    rw [List.sum_cons]
    exact hK.add (h a (by simp)) (ih fun b hb => h b (by simp [hb]))

theorem Kit3.Good.iadd_eq {K : Kit3 V C} {G : V → Prop} (hK : K.Good G) (r : Res3 V) {s : Res3 V} (h : G s.acc) :
    K.iadd r s = r + s := by
  unfold Kit3.iadd
  apply Res3.ext
  · show (if K.nz s.acc then r.acc + s.acc else r.acc) = r.acc + s.acc
    split
    · rfl
    · rename_i hn
      rw [hK.eq_zero h hn, add_zero]
  · rfl

/-- A job of the loops: its key in `results`, the indices by which it is assigned to a process, whether it is recorded even if
empty, the result of counting and the `tot` recorded if it is empty. -/
structure Job3 (V : Type) where
  key : ℕ × ℕ × ℕ
  gate : ℕ × ℕ × ℕ
  force : Bool
  temp : Res3 V
  tot : ℝ

/-- What a job does. -/
def Job3.run (K : Kit3 V C) (S : TriCorr V) (J : Job3 V) : TriCorr V :=
  if K.nz J.temp.acc ∨ J.force = true then K.keep J.key J.temp S
  else if K.nn then ⟨⟨S.self.acc, S.self.tot + J.tot⟩, S.results.set J.key ⟨0, J.tot⟩⟩ else S

/-- What a job adds. -/
def Job3.val (K : Kit3 V C) (J : Job3 V) : Res3 V :=
  if K.nz J.temp.acc ∨ J.force = true then J.temp else ⟨J.temp.acc, if K.nn then J.tot else 0⟩

/-- What a job puts into `results`. -/
def Job3.stored (K : Kit3 V C) (J : Job3 V) : Dict3 V :=
  if K.nz J.temp.acc ∨ J.force = true ∨ K.nn = true then [(J.key, J.val K)] else []

/-- Sound results. -/
def Job3.Good (G : V → Prop) (J : Job3 V) : Prop := G J.temp.acc

theorem Dict3.set_fresh {d : Dict3 V} {key : ℕ × ℕ × ℕ} (h : key ∉ d.map Prod.fst) (v : Res3 V) :
    d.set key v = d ++ [(key, v)] := by rw [Dict3.set, if_neg h]

theorem Dict3.get_fresh {d : Dict3 V} {key : ℕ × ℕ × ℕ} (h : key ∉ d.map Prod.fst) : d.get key = none := by
  unfold Dict3.get
  rw [List.lookup_eq_none_iff]
  intro p hp
  rw [bne_iff_ne]
  rintro rfl
  exact h (List.mem_map_of_mem hp)

theorem Job3.val_acc (K : Kit3 V C) (J : Job3 V) : (J.val K).acc = J.temp.acc := by
  unfold Job3.val
  split <;> rfl

theorem Job3.run_fresh {K : Kit3 V C} {G : V → Prop} (hK : K.Good G) (S : TriCorr V) (J : Job3 V) (hJ : J.Good G)
    (h : J.key ∉ S.results.map Prod.fst) :
    J.run K S = ⟨S.self + J.val K, S.results ++ J.stored K⟩ := by
  unfold Job3.run Job3.val Job3.stored
  by_cases hc : K.nz J.temp.acc ∨ J.force = true
  · have hc' : K.nz J.temp.acc ∨ J.force = true ∨ K.nn = true := by tauto
    simp only [hc, hc', if_true, Kit3.keep, Dict3.get_fresh h, Dict3.set_fresh h, Job3.val]
    rw [hK.iadd_eq _ hJ]
  · have h0 : J.temp.acc = 0 := hK.eq_zero hJ fun hh => hc (Or.inl hh)
    cases hn : K.nn
    · have hc' : ¬ (K.nz J.temp.acc ∨ J.force = true ∨ false = true) := by simpa using hc
      rw [if_neg hc, if_neg hc, if_neg hc', if_neg (by simp), if_neg (by simp), h0, List.append_nil]
      have : (⟨0, 0⟩ : Res3 V) = 0 := rfl
      rw [this, add_zero]
    · rw [if_neg hc, if_neg hc, if_pos rfl, if_pos rfl, if_pos (by simp), Dict3.set_fresh h, Job3.val, if_neg hc, hn, h0, if_pos rfl]
      congr 1
      apply Res3.ext
      · show S.self.acc = S.self.acc + 0
        rw [add_zero]
      · rfl

theorem Job3.stored_keys (K : Kit3 V C) (J : Job3 V) : ∀ x ∈ J.stored K, x = (J.key, J.val K) := by
  intro x hx
  unfold Job3.stored at hx
  split at hx
  · simpa using hx
  · cases hx

theorem Job3.stored_sum {K : Kit3 V C} {G : V → Prop} (hK : K.Good G) (J : Job3 V) (hJ : J.Good G) :
    ((J.stored K).map Prod.snd).sum = J.val K := by
  unfold Job3.stored
  split
  · simp
  · rename_i h
    push Not at h
    obtain ⟨h1, h2, h3⟩ := h
    have h3 : K.nn = false := by simpa using h3
    have hc : ¬ (K.nz J.temp.acc ∨ J.force = true) := by tauto
    rw [Job3.val, if_neg hc, hK.eq_zero hJ h1, h3]
    rfl

theorem run_jobs3 {K : Kit3 V C} {G : V → Prop} (hK : K.Good G) (js : List (Job3 V)) : ∀ (S : TriCorr V),
    (∀ J ∈ js, J.Good G) → (js.map Job3.key).Nodup → (∀ J ∈ js, J.key ∉ S.results.map Prod.fst) →
    js.foldl (Job3.run K) S = ⟨S.self + (js.map (Job3.val K)).sum, S.results ++ js.flatMap (Job3.stored K)⟩ := by
  induction js with
  | nil => intro S _ _ _; simp
  | cons J js ih =>
    intro S hg hnd hfr
    rw [List.foldl_cons, Job3.run_fresh hK S J (hg J (by simp)) (hfr J (by simp)), ih]
    · simp [add_assoc]
    · exact fun J' h => hg J' (by simp [h])
    · simp at hnd; simpa using hnd.2
    · intro J' hJ' hmem
      simp only [List.map_append, List.mem_append] at hmem
      rcases hmem with h | h
      · exact hfr J' (by simp [hJ']) h
      · rw [List.mem_map] at h
        obtain ⟨x, hx, hxk⟩ := h
        rw [Job3.stored_keys K J x hx] at hxk
        simp only [List.map_cons, List.nodup_cons] at hnd
        have hxk : J.key = J'.key := hxk
        exact hnd.1 (by rw [hxk]; exact List.mem_map_of_mem hJ')

theorem stored_total3 {K : Kit3 V C} {G : V → Prop} (hK : K.Good G) (js : List (Job3 V)) (hg : ∀ J ∈ js, J.Good G) :
    ((js.flatMap (Job3.stored K)).map Prod.snd).sum = (js.map (Job3.val K)).sum := by
  induction js with
  | nil => rfl
  | cons J js ih =>
    simp [ih fun J' h => hg J' (by simp [h]), Job3.stored_sum hK J (hg J (by simp))]

/-! ### The loops as lists of jobs -/

/-- The job of `single111`. -/
def job111 (K : Kit3 V C) (c : ℕ × C) : Job3 V := ⟨(c.1, c.1, c.1), (c.1, c.1, c.1), true, K.autoRes c.2, 0⟩

/-- The job of `single12`. -/
def job12 (K : Kit3 V C) (force o : Bool) (key gate : ℕ × ℕ × ℕ) (c1 c2 : C) : Job3 V :=
  ⟨key, gate, force, if K.triv c1 c2 c2 then 0 else K.cross12Res o c1 c2, K.sumw c1 * K.sumw c2 * K.sumw c2 / 2⟩

/-- The job of `single123`. -/
def job123 (K : Kit3 V C) (force : Bool) (O : Ord3) (c1 c2 c3 : ℕ × C) : Job3 V :=
  ⟨(c1.1, c2.1, c3.1), (c1.1, c2.1, c3.1), force, if K.triv c1.2 c2.2 c3.2 then 0 else K.crossRes O c1.2 c2.2 c3.2,
    if K.same c2.2 c3.2 then K.sumw c1.2 * K.sumw c2.2 * K.sumw c3.2 / 2 else K.sumw c1.2 * K.sumw c2.2 * K.sumw c3.2⟩

theorem job111_run (K : Kit3 V C) (c : ℕ × C) (S : TriCorr V) : (job111 K c).run K S = K.single111 c.1 c.2 S := by
  simp [Job3.run, job111, Kit3.single111]

theorem job12_run (K : Kit3 V C) (force o : Bool) (key gate : ℕ × ℕ × ℕ) (c1 c2 : C) (S : TriCorr V) :
    (job12 K force o key gate c1 c2).run K S = K.single12 force o key c1 c2 S := by
  simp only [Job3.run, job12, Kit3.single12, Kit3.addTot, if_true]
  rfl

theorem job123_run (K : Kit3 V C) (force : Bool) (O : Ord3) (c1 c2 c3 : ℕ × C) (S : TriCorr V) :
    (job123 K force O c1 c2 c3).run K S = K.single123 force O (c1.1, c2.1, c3.1) c1.2 c2.2 c3.2 S := by
  simp only [Job3.run, job123, Kit3.single123, Kit3.addTot]
  rfl

theorem job111_good {K : Kit3 V C} {G : V → Prop} (hK : K.Good G) (c : ℕ × C) : (job111 K c).Good G := hK.auto _

theorem job12_good {K : Kit3 V C} {G : V → Prop} (hK : K.Good G) (force o : Bool) (key gate : ℕ × ℕ × ℕ) (c1 c2 : C) :
    (job12 K force o key gate c1 c2).Good G := by
  unfold Job3.Good job12
  simp only
  split
  · exact hK.zero
  · exact hK.cross12 _ _ _

theorem job123_good {K : Kit3 V C} {G : V → Prop} (hK : K.Good G) (force : Bool) (O : Ord3) (c1 c2 c3 : ℕ × C) :
    (job123 K force O c1 c2 c3).Good G := by
  unfold Job3.Good job123
  simp only
  split
  · exact hK.zero
  · exact hK.cross _ _ _ _

/-- The jobs of a pair of patches of the auto loop. -/
def autoPairJobs3 (K : Kit3 V C) (cats : List (ℕ × C)) (c1 c2 : ℕ × C) : List (Job3 V) :=
  job12 K false false (c1.1, c2.1, c2.1) (c1.1, c2.1, c2.1) c1.2 c2.2 ::
    job12 K false false (c1.1, c1.1, c2.1) (c1.1, c2.1, c2.1) c2.2 c1.2 ::
    (cats.filter fun c3 => c2.1 < c3.1).map fun c3 => job123 K false .any c1 c2 c3

/-- The jobs of a row of the auto loop. -/
def autoRowJobs3 (K : Kit3 V C) (cats : List (ℕ × C)) (c1 : ℕ × C) : List (Job3 V) :=
  job111 K c1 :: (cats.reverse.filter fun c2 => c1.1 < c2.1).flatMap (autoPairJobs3 K cats c1)

def autoJobs3 (K : Kit3 V C) (cats : List (ℕ × C)) : List (Job3 V) := cats.flatMap (autoRowJobs3 K cats)

def cross12Row (K : Kit3 V C) (o : Bool) (n1 n2 : ℕ) (cats2 : List (ℕ × C)) (c1 c2 : ℕ × C) : List (Job3 V) :=
  job12 K (decide (c1.1 = c2.1) || decide (n1 = 1) || decide (n2 = 1)) o (c1.1, c2.1, c2.1) (c1.1, c2.1, c2.1) c1.2 c2.2 ::
    (cats2.reverse.filter fun c3 => c2.1 < c3.1).map fun c3 => job123 K false (ord12 o) c1 c2 c3

def cross12Jobs (K : Kit3 V C) (o : Bool) (n1 n2 : ℕ) (cats1 cats2 : List (ℕ × C)) : List (Job3 V) :=
  cats1.flatMap fun c1 => cats2.flatMap fun c2 => cross12Row K o n1 n2 cats2 c1 c2

def cross123Jobs (K : Kit3 V C) (o : Bool) (n1 n2 n3 : ℕ) (cats1 cats2 cats3 : List (ℕ × C)) : List (Job3 V) :=
  cats1.flatMap fun c1 => cats2.flatMap fun c2 => cats3.map fun c3 =>
    job123 K ((decide (c1.1 = c2.1) && decide (c2.1 = c3.1)) || decide (n1 = 1) || decide (n2 = 1) || decide (n3 = 1)) (ord123 o)
      c1 c2 c3

def jobMine3 (mine : ℕ → ℕ → ℕ → Prop) (J : Job3 V) : Bool := decide (mine J.gate.1 J.gate.2.1 J.gate.2.2)

/-- A loop whose body runs a list of jobs runs all these jobs in turn. -/
theorem foldl_jobs {α : Type} {K : Kit3 V C} {p : Job3 V → Bool} {f : TriCorr V → α → TriCorr V} {js : α → List (Job3 V)}
    (h : ∀ S a, f S a = ((js a).filter p).foldl (Job3.run K) S) (l : List α) (S : TriCorr V) :
    l.foldl f S = ((l.flatMap js).filter p).foldl (Job3.run K) S := by
  induction l generalizing S with
  | nil => rfl
  | cons a t ih => rw [List.foldl_cons, ih, List.flatMap_cons, List.filter_append, List.foldl_append, h]

/-- The same when the jobs are done only for some elements. -/
theorem foldl_jobs_if {α : Type} {K : Kit3 V C} {p : Job3 V → Bool} {q : α → Prop} [DecidablePred q] {f : TriCorr V → α → TriCorr V}
    {js : α → List (Job3 V)} (h : ∀ S a, f S a = if q a then ((js a).filter p).foldl (Job3.run K) S else S) (l : List α)
    (S : TriCorr V) :
    l.foldl f S = (((l.filter fun a => decide (q a)).flatMap js).filter p).foldl (Job3.run K) S := by
  induction l generalizing S with
  | nil => rfl
  | cons a t ih =>
    rw [List.foldl_cons, ih, h]
    by_cases hq : q a
    · simp [hq, List.flatMap_cons, List.filter_append, List.foldl_append]
    · simp [hq]

theorem filter_one {p : Job3 V → Bool} (K : Kit3 V C) (J : Job3 V) (S : TriCorr V) :
    ([J].filter p).foldl (Job3.run K) S = if p J = true then J.run K S else S := by
  rw [List.filter_singleton]
  cases p J <;> simp

theorem map_flatMap_one {α β : Type} (l : List α) (f : α → β) : l.map f = l.flatMap fun a => [f a] := by
  induction l with
  | nil => rfl
  | cons a t ih => simp [ih]

theorem allAuto3_eq (K : Kit3 V C) (mine : ℕ → ℕ → ℕ → Prop) (cats : List (ℕ × C)) (S : TriCorr V) :
    K.allAuto mine cats S = ((autoJobs3 K cats).filter (jobMine3 mine)).foldl (Job3.run K) S := by
  unfold Kit3.allAuto autoJobs3
  apply foldl_jobs
  intro S c1
  simp only
  unfold autoRowJobs3
  rw [List.filter_cons]
  have e0 : ∀ T : TriCorr V, cats.reverse.foldl (fun S c2 =>
      if c1.1 < c2.1 then
        cats.foldl (fun S c3 =>
          if c2.1 < c3.1 ∧ mine c1.1 c2.1 c3.1 then K.single123 false .any (c1.1, c2.1, c3.1) c1.2 c2.2 c3.2 S else S)
          (if mine c1.1 c2.1 c2.1 then
            K.single12 false false (c1.1, c1.1, c2.1) c2.2 c1.2 (K.single12 false false (c1.1, c2.1, c2.1) c1.2 c2.2 S)
          else S)
      else S) T
      = (((cats.reverse.filter fun c2 => decide (c1.1 < c2.1)).flatMap (autoPairJobs3 K cats c1)).filter (jobMine3 mine)).foldl
        (Job3.run K) T := by
    intro T
    refine foldl_jobs_if (q := fun c2 : ℕ × C => c1.1 < c2.1) (fun S c2 => ?_) _ _
    by_cases hlt : c1.1 < c2.1
    · simp only [hlt, if_true]
      unfold autoPairJobs3
      rw [List.filter_cons, List.filter_cons, map_flatMap_one]
      have g1 : jobMine3 mine (job12 K false false (c1.1, c2.1, c2.1) (c1.1, c2.1, c2.1) c1.2 c2.2) = decide (mine c1.1 c2.1 c2.1) := rfl
      have g2 : jobMine3 mine (job12 K false false (c1.1, c1.1, c2.1) (c1.1, c2.1, c2.1) c2.2 c1.2) = decide (mine c1.1 c2.1 c2.1) := rfl
      have e1 : ∀ T : TriCorr V, cats.foldl (fun S c3 =>
          if c2.1 < c3.1 ∧ mine c1.1 c2.1 c3.1 then K.single123 false .any (c1.1, c2.1, c3.1) c1.2 c2.2 c3.2 S else S) T
          = (((cats.filter fun c3 => decide (c2.1 < c3.1)).flatMap fun c3 => [job123 K false .any c1 c2 c3]).filter
            (jobMine3 mine)).foldl (Job3.run K) T := by
        intro T
        refine foldl_jobs_if (q := fun c3 : ℕ × C => c2.1 < c3.1) (fun S c3 => ?_) _ _
        rw [filter_one, job123_run]
        have : jobMine3 mine (job123 K false .any c1 c2 c3) = decide (mine c1.1 c2.1 c3.1) := rfl
        rw [this]
        by_cases a : c2.1 < c3.1 <;> by_cases b : mine c1.1 c2.1 c3.1 <;> simp [a, b]
      rw [e1, g1, g2]
      by_cases b : mine c1.1 c2.1 c2.1
      · simp only [b, decide_true, if_true, List.foldl_cons]
        rw [job12_run, job12_run]
      · simp only [b, decide_false, if_false, Bool.false_eq_true]
    · simp [hlt]
  rw [e0]
  have g : jobMine3 mine (job111 K c1) = decide (mine c1.1 c1.1 c1.1) := rfl
  rw [g]
  by_cases b : mine c1.1 c1.1 c1.1
  · simp only [b, decide_true, if_true, List.foldl_cons]
    rw [job111_run]
  · simp only [b, decide_false, if_false, Bool.false_eq_true]

theorem allCross12_eq (K : Kit3 V C) (mine : ℕ → ℕ → ℕ → Prop) (o : Bool) (n1 n2 : ℕ) (cats1 cats2 : List (ℕ × C)) (S : TriCorr V) :
    K.allCross12 mine o n1 n2 cats1 cats2 S
      = ((cross12Jobs K o n1 n2 cats1 cats2).filter (jobMine3 mine)).foldl (Job3.run K) S := by
  unfold Kit3.allCross12 cross12Jobs
  apply foldl_jobs
  intro S c1
  apply foldl_jobs
  intro S c2
  simp only
  unfold cross12Row
  rw [List.filter_cons, map_flatMap_one]
  have e1 : ∀ T : TriCorr V, cats2.reverse.foldl (fun S c3 =>
      if c2.1 < c3.1 ∧ mine c1.1 c2.1 c3.1 then K.single123 false (ord12 o) (c1.1, c2.1, c3.1) c1.2 c2.2 c3.2 S else S) T
      = (((cats2.reverse.filter fun c3 => decide (c2.1 < c3.1)).flatMap fun c3 => [job123 K false (ord12 o) c1 c2 c3]).filter
        (jobMine3 mine)).foldl (Job3.run K) T := by
    intro T
    refine foldl_jobs_if (q := fun c3 : ℕ × C => c2.1 < c3.1) (fun S c3 => ?_) _ _
    rw [filter_one, job123_run]
    have : jobMine3 mine (job123 K false (ord12 o) c1 c2 c3) = decide (mine c1.1 c2.1 c3.1) := rfl
    rw [this]
    by_cases a : c2.1 < c3.1 <;> by_cases b : mine c1.1 c2.1 c3.1 <;> simp [a, b]
  rw [e1]
  have g : ∀ f, jobMine3 mine (job12 K f o (c1.1, c2.1, c2.1) (c1.1, c2.1, c2.1) c1.2 c2.2) = decide (mine c1.1 c2.1 c2.1) :=
    fun _ => rfl
  rw [g]
  by_cases b : mine c1.1 c2.1 c2.1
  · simp only [b, decide_true, if_true, List.foldl_cons]
    rw [job12_run]
  · simp only [b, decide_false, if_false, Bool.false_eq_true]

theorem allCross123_eq (K : Kit3 V C) (mine : ℕ → ℕ → ℕ → Prop) (o : Bool) (n1 n2 n3 : ℕ) (cats1 cats2 cats3 : List (ℕ × C))
    (S : TriCorr V) :
    K.allCross mine o n1 n2 n3 cats1 cats2 cats3 S
      = ((cross123Jobs K o n1 n2 n3 cats1 cats2 cats3).filter (jobMine3 mine)).foldl (Job3.run K) S := by
  unfold Kit3.allCross cross123Jobs
  apply foldl_jobs
  intro S c1
  apply foldl_jobs
  intro S c2
  rw [map_flatMap_one]
  apply foldl_jobs
  intro S c3
  rw [filter_one, job123_run]
  have : ∀ f, jobMine3 mine (job123 K f (ord123 o) c1 c2 c3) = decide (mine c1.1 c2.1 c3.1) := fun _ => rfl
  rw [this]
  by_cases b : mine c1.1 c2.1 c3.1 <;> simp [b]

theorem autoJobs3_good {K : Kit3 V C} {G : V → Prop} (hK : K.Good G) (cats : List (ℕ × C)) : ∀ J ∈ autoJobs3 K cats, J.Good G := by
  intro J hJ
  obtain ⟨c1, _, h1⟩ := List.mem_flatMap.1 hJ
  rcases List.mem_cons.1 h1 with rfl | h1
  · exact job111_good hK _
  · obtain ⟨c2, _, h2⟩ := List.mem_flatMap.1 h1
    rcases List.mem_cons.1 h2 with rfl | h2
    · exact job12_good hK _ _ _ _ _ _
    rcases List.mem_cons.1 h2 with rfl | h2
    · exact job12_good hK _ _ _ _ _ _
    · obtain ⟨c3, _, rfl⟩ := List.mem_map.1 h2
      exact job123_good hK _ _ _ _ _

theorem cross12Jobs_good {K : Kit3 V C} {G : V → Prop} (hK : K.Good G) (o : Bool) (n1 n2 : ℕ) (cats1 cats2 : List (ℕ × C)) :
    ∀ J ∈ cross12Jobs K o n1 n2 cats1 cats2, J.Good G := by
  intro J hJ
  obtain ⟨c1, _, h1⟩ := List.mem_flatMap.1 hJ
  obtain ⟨c2, _, h2⟩ := List.mem_flatMap.1 h1
  rcases List.mem_cons.1 h2 with rfl | h2
  · exact job12_good hK _ _ _ _ _ _
  · obtain ⟨c3, _, rfl⟩ := List.mem_map.1 h2
    exact job123_good hK _ _ _ _ _

theorem cross123Jobs_good {K : Kit3 V C} {G : V → Prop} (hK : K.Good G) (o : Bool) (n1 n2 n3 : ℕ)
    (cats1 cats2 cats3 : List (ℕ × C)) : ∀ J ∈ cross123Jobs K o n1 n2 n3 cats1 cats2 cats3, J.Good G := by
  intro J hJ
  obtain ⟨c1, _, h1⟩ := List.mem_flatMap.1 hJ
  obtain ⟨c2, _, h2⟩ := List.mem_flatMap.1 h1
  obtain ⟨c3, _, rfl⟩ := List.mem_map.1 h2
  exact job123_good hK _ _ _ _ _

/-! ### No key is used twice -/

theorem nodup_reverse_filter {cats : List (ℕ × C)} (h : (cats.map Prod.fst).Nodup) (p : ℕ × C → Bool) :
    ((cats.reverse.filter p).map Prod.fst).Nodup := by
  apply List.Nodup.sublist (List.Sublist.map _ List.filter_sublist)
  rw [List.map_reverse, List.nodup_reverse]
  exact h

theorem nodup_filter {cats : List (ℕ × C)} (h : (cats.map Prod.fst).Nodup) (p : ℕ × C → Bool) :
    ((cats.filter p).map Prod.fst).Nodup :=
  List.Nodup.sublist (List.Sublist.map _ List.filter_sublist) h

/-- A list of jobs made of parts with different values of `t` has different keys if each part has. -/
theorem nodup_flatMap_keys {js : ℕ × C → List (Job3 V)} {l : List (ℕ × C)} (hl : (l.map Prod.fst).Nodup) (t : ℕ × ℕ × ℕ → ℕ)
    (h1 : ∀ c ∈ l, ((js c).map Job3.key).Nodup) (h2 : ∀ c ∈ l, ∀ J ∈ js c, t J.key = c.1) :
    ((l.flatMap js).map Job3.key).Nodup := by
  rw [List.map_flatMap, List.nodup_flatMap]
  refine ⟨h1, ?_⟩
  rw [List.Nodup, List.pairwise_map] at hl
  have hl' := List.Pairwise.and_mem.1 hl
  refine hl'.imp ?_
  rintro a b ⟨ha, hb, hab⟩ x hx hy
  obtain ⟨J, hJ, rfl⟩ := List.mem_map.1 hx
  obtain ⟨J', hJ', hk⟩ := List.mem_map.1 hy
  apply hab
  rw [← h2 a ha J hJ, ← h2 b hb J' hJ', hk]

theorem autoJobs3_nodup (K : Kit3 V C) {cats : List (ℕ × C)} (h : (cats.map Prod.fst).Nodup) :
    ((autoJobs3 K cats).map Job3.key).Nodup := by
  apply nodup_flatMap_keys h (fun k => k.1)
  · intro c1 _
    unfold autoRowJobs3
    rw [List.map_cons, List.nodup_cons]
    constructor
    · intro hm
      obtain ⟨J, hJ, hk⟩ := List.mem_map.1 hm
      obtain ⟨c2, hc2, h2⟩ := List.mem_flatMap.1 hJ
      simp only [List.mem_filter, decide_eq_true_eq] at hc2
      have hlt := hc2.2
      rcases List.mem_cons.1 h2 with rfl | h2
      · simp [job12, job111] at hk; omega
      rcases List.mem_cons.1 h2 with rfl | h2
      · simp [job12, job111] at hk; omega
      · obtain ⟨c3, h3, rfl⟩ := List.mem_map.1 h2
        simp [job123, job111] at hk; omega
    · apply nodup_flatMap_keys (nodup_reverse_filter h _) (fun k => if k.1 = k.2.1 then k.2.2 else k.2.1)
      · intro c2 hc2
        simp only [List.mem_filter, decide_eq_true_eq] at hc2
        have hlt := hc2.2
        unfold autoPairJobs3
        rw [List.map_cons, List.map_cons, List.nodup_cons, List.nodup_cons]
        refine ⟨?_, ?_, ?_⟩
        · intro hm
          rcases List.mem_cons.1 hm with hm | hm
          · simp [job12] at hm; omega
          · rw [List.map_map] at hm
            obtain ⟨c3, h3, hk⟩ := List.mem_map.1 hm
            simp only [List.mem_filter, decide_eq_true_eq] at h3
            simp [job12, job123] at hk; omega
        · intro hm
          rw [List.map_map] at hm
          obtain ⟨c3, h3, hk⟩ := List.mem_map.1 hm
          simp only [List.mem_filter, decide_eq_true_eq] at h3
          simp [job12, job123] at hk; omega
        · rw [List.map_map]
          have : (Job3.key ∘ fun c3 : ℕ × C => job123 K false .any c1 c2 c3) = (fun j => (c1.1, c2.1, j)) ∘ Prod.fst := by
            funext c3; rfl
          rw [this, ← List.map_map]
          exact (nodup_filter h _).map (fun a b hab => by simpa using hab)
      · intro c2 hc2 J hJ
        simp only [List.mem_filter, decide_eq_true_eq] at hc2
        have hlt := hc2.2
        rcases List.mem_cons.1 hJ with rfl | h2
        · show (if c1.1 = c2.1 then c2.1 else c2.1) = c2.1
          rw [ite_self]
        rcases List.mem_cons.1 h2 with rfl | h2
        · simp [job12]
        · obtain ⟨c3, h3, rfl⟩ := List.mem_map.1 h2
          have : c1.1 ≠ c2.1 := by omega
          simp [job123, this]
  · intro c1 _ J hJ
    rcases List.mem_cons.1 hJ with rfl | h1
    · rfl
    · obtain ⟨c2, _, h2⟩ := List.mem_flatMap.1 h1
      rcases List.mem_cons.1 h2 with rfl | h2
      · rfl
      rcases List.mem_cons.1 h2 with rfl | h2
      · rfl
      · obtain ⟨c3, _, rfl⟩ := List.mem_map.1 h2
        rfl

theorem cross12Jobs_nodup (K : Kit3 V C) (o : Bool) (n1 n2 : ℕ) {cats1 cats2 : List (ℕ × C)} (h1 : (cats1.map Prod.fst).Nodup)
    (h2 : (cats2.map Prod.fst).Nodup) : ((cross12Jobs K o n1 n2 cats1 cats2).map Job3.key).Nodup := by
  apply nodup_flatMap_keys h1 (fun k => k.1)
  · intro c1 _
    apply nodup_flatMap_keys h2 (fun k => k.2.1)
    · intro c2 _
      unfold cross12Row
      rw [List.map_cons, List.nodup_cons, List.map_map]
      constructor
      · intro hm
        obtain ⟨c3, h3, hk⟩ := List.mem_map.1 hm
        simp only [List.mem_filter, decide_eq_true_eq] at h3
        simp [job12, job123] at hk; omega
      · have : (Job3.key ∘ fun c3 : ℕ × C => job123 K false (ord12 o) c1 c2 c3) = (fun j => (c1.1, c2.1, j)) ∘ Prod.fst := by
          funext c3; rfl
        rw [this, ← List.map_map]
        exact (nodup_reverse_filter h2 _).map (fun a b hab => by simpa using hab)
    · intro c2 _ J hJ
      rcases List.mem_cons.1 hJ with rfl | h3
      · rfl
      · obtain ⟨c3, _, rfl⟩ := List.mem_map.1 h3
        rfl
  · intro c1 _ J hJ
    obtain ⟨c2, _, h3⟩ := List.mem_flatMap.1 hJ
    rcases List.mem_cons.1 h3 with rfl | h3
    · rfl
    · obtain ⟨c3, _, rfl⟩ := List.mem_map.1 h3
      rfl

theorem cross123Jobs_nodup (K : Kit3 V C) (o : Bool) (n1 n2 n3 : ℕ) {cats1 cats2 cats3 : List (ℕ × C)}
    (h1 : (cats1.map Prod.fst).Nodup) (h2 : (cats2.map Prod.fst).Nodup) (h3 : (cats3.map Prod.fst).Nodup) :
    ((cross123Jobs K o n1 n2 n3 cats1 cats2 cats3).map Job3.key).Nodup := by
  apply nodup_flatMap_keys h1 (fun k => k.1)
  · intro c1 _
    apply nodup_flatMap_keys h2 (fun k => k.2.1)
    · intro c2 _
      rw [List.map_map]
      have : ∀ l : List (ℕ × C), l.map (Job3.key ∘ fun c3 : ℕ × C => job123 K ((decide (c1.1 = c2.1) && decide (c2.1 = c3.1)) ||
          decide (n1 = 1) || decide (n2 = 1) || decide (n3 = 1)) (ord123 o) c1 c2 c3) = (l.map Prod.fst).map fun j => (c1.1, c2.1, j) := by
        intro l; rw [List.map_map]; rfl
      rw [this]
      exact h3.map (fun a b hab => by simpa using hab)
    · intro c2 _ J hJ
      obtain ⟨c3, _, rfl⟩ := List.mem_map.1 hJ
      rfl
  · intro c1 _ J hJ
    obtain ⟨c2, _, h3⟩ := List.mem_flatMap.1 hJ
    obtain ⟨c3, _, rfl⟩ := List.mem_map.1 h3
    rfl

end
end TreeCorr
