import Verif.Model.Patch
import Verif.Proofs.Parallel
import Mathlib.Algebra.BigOperators.Group.List.Basic
import Mathlib.Data.List.Perm.Basic
import Mathlib.Data.List.Nodup
import Mathlib.Data.List.Sort
import Mathlib.Data.Prod.Lex
import Mathlib.Tactic.Ring

/-! Lemmas about the patch bookkeeping. -/

namespace TreeCorr
open Classical
noncomputable section
variable {C : Type}

instance : Zero Acc := ⟨Acc.zero⟩
instance : Add Acc := ⟨Acc.add⟩

instance : AddCommMonoid Acc where
  add_assoc := Acc.add_assoc
  add_comm := Acc.add_comm
  zero_add := Acc.zero_add
  add_zero := Acc.add_zero
  nsmul := nsmulRec

theorem Acc.add_def (A B : Acc) : A + B = A.add B := rfl
theorem Acc.zero_def : (0 : Acc) = Acc.zero := rfl

@[ext] theorem Res.ext {r s : Res} (h1 : r.acc = s.acc) (h2 : r.tot = s.tot) : r = s := by
  cases r; cases s; simp_all

instance : Zero Res := ⟨Res.zero⟩
instance : Add Res := ⟨fun r s => ⟨r.acc + s.acc, r.tot + s.tot⟩⟩

instance : AddCommMonoid Res where
  add_assoc := by intro a b c; apply Res.ext; exacts [_root_.add_assoc _ _ _, _root_.add_assoc _ _ _]
  add_comm := by intro a b; apply Res.ext; exacts [_root_.add_comm _ _, _root_.add_comm _ _]
  zero_add := by intro a; apply Res.ext; exacts [_root_.zero_add _, _root_.zero_add _]
  add_zero := by intro a; apply Res.ext; exacts [_root_.add_zero _, _root_.add_zero _]
  nsmul := nsmulRec

theorem Res.add_acc (r s : Res) : (r + s).acc = r.acc + s.acc := rfl
theorem Res.add_tot (r s : Res) : (r + s).tot = r.tot + s.tot := rfl
theorem Res.zero_def : (0 : Res) = Res.zero := rfl
@[simp] theorem Res.zero_tot : (0 : Res).tot = 0 := rfl
@[simp] theorem Res.zero_acc : (0 : Res).acc = 0 := rfl

theorem Res.sum_tot (l : List Res) : l.sum.tot = (l.map Res.tot).sum := by
  induction l with
  | nil => rfl
  | cons a t ih => simp [Res.add_tot, ih]

theorem Res.sum_acc (l : List Res) : l.sum.acc = (l.map Res.acc).sum := by
  induction l with
  | nil => rfl
  | cons a t ih => simp [Res.add_acc, ih]

/-- Arrays as the pair counter leaves them: no negative counts, and nothing in bins without pairs. -/
def Acc.Good (A : Acc) : Prop := ∀ k, 0 ≤ A.npairs k ∧
  (A.npairs k = 0 → A.weight k = 0 ∧ A.meanr k = 0 ∧ A.meanlogr k = 0 ∧ A.nk k = 0 ∧ A.kk k = 0)

theorem Acc.Good.zero : Acc.zero.Good := by intro k; simp [Acc.zero]

theorem Acc.Good.add {A B : Acc} (hA : A.Good) (hB : B.Good) : (A + B).Good := by
  intro k
  obtain ⟨a0, a1⟩ := hA k
  obtain ⟨b0, b1⟩ := hB k
  have e : ∀ f : Acc → ℤ → ℝ, (∀ X Y : Acc, f (X.add Y) k = f X k + f Y k) → f (A + B) k = f A k + f B k :=
    fun f h => h A B
  refine ⟨by show 0 ≤ A.npairs k + B.npairs k; linarith, ?_⟩
  intro h
  have h' : A.npairs k + B.npairs k = 0 := h
  obtain ⟨a2, a3, a4, a5, a6⟩ := a1 (by linarith)
  obtain ⟨b2, b3, b4, b5, b6⟩ := b1 (by linarith)
  refine ⟨?_, ?_, ?_, ?_, ?_⟩
  · show A.weight k + B.weight k = 0; rw [a2, b2]; simp
  · show A.meanr k + B.meanr k = 0; rw [a3, b3]; simp
  · show A.meanlogr k + B.meanlogr k = 0; rw [a4, b4]; simp
  · show A.nk k + B.nk k = 0; rw [a5, b5]; simp
  · show A.kk k + B.kk k = 0; rw [a6, b6]; simp

theorem Acc.Good.sum {l : List Acc} (h : ∀ A ∈ l, A.Good) : l.sum.Good := by
  induction l with
  | nil => exact Acc.Good.zero
  | cons a t ih =>
    rw [List.sum_cons]
    exact (h a (by simp)).add (ih fun A hA => h A (by simp [hA]))

theorem Acc.Good.eq_zero {A : Acc} (hA : A.Good) (h : ¬ ∃ k, A.npairs k ≠ 0) : A = 0 := by
  push Not at h
  have z : ∀ k, _ := fun k => (hA k).2 (h k)
  show A = Acc.zero
  ext k
  · exact h k
  · exact (z k).1
  · exact (z k).2.1
  · exact (z k).2.2.1
  · exact (z k).2.2.2.1
  · exact (z k).2.2.2.2

theorem Res.iadd_eq (r : Res) {s : Res} (h : s.acc.Good) : r.iadd s = r + s := by
  unfold Res.iadd
  apply Res.ext
  · show (if s.nonzero then r.acc.add s.acc else r.acc) = r.acc + s.acc
    split
    · rfl
    · rename_i hn
      rw [h.eq_zero hn, add_zero]
  · rfl

/-- The pair counter yields good arrays. -/
def Kit.Good (K : Kit C) : Prop := (∀ c, (K.auto c).Good) ∧ ∀ c1 c2, (K.cross c1 c2).Good

/-- A job of the loops. -/
inductive Job (C : Type) where
  | auto (i : ℕ) (c : C)
  | cross (force : Bool) (i j : ℕ) (c1 c2 : C)

def Job.key : Job C → ℕ × ℕ
  | .auto i _ => (i, i)
  | .cross _ i j _ _ => (i, j)

/-- What a job does. -/
def Job.run (K : Kit C) (S : Corr) : Job C → Corr
  | .auto i c => K.single11 i c S
  | .cross force i j c1 c2 => K.single12 force (i, j) c1 c2 S

/-- What a job adds. -/
def Job.val (K : Kit C) : Job C → Res
  | .auto _ c => K.autoRes c
  | .cross force _ _ c1 c2 =>
    ⟨if K.triv c1 c2 then 0 else K.cross c1 c2,
      if K.nn = true ∧ ¬ (force = true ∧ K.triv c1 c2) then K.sumw c1 * K.sumw c2 else 0⟩

/-- What a job puts into `results`. -/
def Job.stored (K : Kit C) : Job C → List ((ℕ × ℕ) × Res)
  | .auto i c => [((i, i), K.autoRes c)]
  | .cross force i j c1 c2 =>
    if (Job.cross force i j c1 c2).val K = 0 ∧ K.nn = false ∧ force = false then []
    else [((i, j), (Job.cross force i j c1 c2).val K)]

theorem Dict.set_fresh {d : Dict} {key : ℕ × ℕ} (h : key ∉ d.map Prod.fst) (v : Res) :
    d.set key v = d ++ [(key, v)] := by rw [Dict.set, if_neg h]

theorem Dict.get_fresh {d : Dict} {key : ℕ × ℕ} (h : key ∉ d.map Prod.fst) : d.get key = none := by
  unfold Dict.get
  rw [List.lookup_eq_none_iff]
  intro p hp
  rw [bne_iff_ne]
  rintro rfl
  exact h (List.mem_map_of_mem hp)

theorem Job.val_good {K : Kit C} (hK : K.Good) (J : Job C) : (J.val K).acc.Good := by
  cases J with
  | auto i c => exact hK.1 c
  | cross force i j c1 c2 =>
    simp only [Job.val]
    split
    · exact Acc.Good.zero
    · exact hK.2 _ _

theorem Job.run_fresh {K : Kit C} (hK : K.Good) (S : Corr) (J : Job C) (h : J.key ∉ S.results.map Prod.fst) :
    J.run K S = ⟨S.self + J.val K, S.results ++ J.stored K⟩ := by
  cases J with
  | auto i c =>
    simp only [Job.key] at h
    simp only [Job.run, Kit.single11, Dict.get_fresh h, Dict.set_fresh h, Job.val, Job.stored]
    rw [Res.iadd_eq _ (hK.1 c : (K.autoRes c).acc.Good)]
  | cross force i j c1 c2 =>
    simp only [Job.key] at h
    set temp := if K.triv c1 c2 then Res.zero else K.crossRes c1 c2 with ht
    have hg : temp.acc.Good := by
      rw [ht]; split
      · exact Acc.Good.zero
      · exact hK.2 _ _
    simp only [Job.run, Kit.single12, ← ht]
    split
    · rename_i hc
      simp only [Dict.get_fresh h, Dict.set_fresh h]
      have hv : Job.val K (.cross force i j c1 c2) = temp := by
        simp only [Job.val, ht]
        by_cases htr : K.triv c1 c2
        · have hf : force = true := by
            rcases hc with hc | hc
            · rw [ht, if_pos htr] at hc
              obtain ⟨k, hk⟩ := hc
              exact absurd rfl hk
            · exact hc
          simp [htr, hf]
          rfl
        · simp [htr, Kit.crossRes]
      have hs : Job.stored K (.cross force i j c1 c2) = [((i, j), temp)] := by
        simp only [Job.stored, hv]
        rw [if_neg]
        rintro ⟨h0, _, hf⟩
        rcases hc with ⟨k, hk⟩ | hc
        · rw [h0] at hk
          exact hk rfl
        · rw [hc] at hf; cases hf
      rw [hs, hv, Res.iadd_eq _ hg]
    · rename_i hc
      push Not at hc
      obtain ⟨hc, hf⟩ := hc
      have hf : force = false := by simpa using hf
      have h0 : temp.acc = 0 := hg.eq_zero hc
      have hx : (if K.triv c1 c2 then (0 : Acc) else K.cross c1 c2) = 0 := by
        by_cases htr : K.triv c1 c2
        · simp [htr]
        · rw [ht, if_neg htr] at h0
          rw [if_neg htr]
          exact h0
      cases hn : K.nn
      · simp only [Kit.addTot, hn, Job.val, Job.stored, hx, hf]
        have : (⟨0, 0⟩ : Res) = 0 := rfl
        simp [this]
      · simp only [Kit.addTot, hn, Job.val, Job.stored, hx, hf]
        simp only [if_true, Dict.set_fresh h]
        have e0 : Acc.zero = 0 := rfl
        simp [e0]
        apply Res.ext
        · show S.self.acc = S.self.acc + 0
          rw [add_zero]
        · rfl

theorem Job.stored_keys (K : Kit C) (J : Job C) : ∀ x ∈ J.stored K, x = (J.key, J.val K) := by
  cases J with
  | auto i c => simp [Job.stored, Job.key, Job.val]
  | cross force i j c1 c2 =>
    intro x hx
    simp only [Job.stored] at hx
    split at hx
    · cases hx
    · simpa [Job.key] using hx

theorem Job.stored_sum (K : Kit C) (J : Job C) : ((J.stored K).map Prod.snd).sum = J.val K := by
  cases J with
  | auto i c => simp [Job.stored, Job.val]
  | cross force i j c1 c2 =>
    simp only [Job.stored]
    split
    · rename_i h; simp [h.1]
    · simp

theorem run_jobs {K : Kit C} (hK : K.Good) (js : List (Job C)) : ∀ (S : Corr),
    (js.map Job.key).Nodup → (∀ J ∈ js, J.key ∉ S.results.map Prod.fst) →
    js.foldl (Job.run K) S = ⟨S.self + (js.map (Job.val K)).sum, S.results ++ js.flatMap (Job.stored K)⟩ := by
  induction js with
  | nil => intro S _ _; simp
  | cons J js ih =>
    intro S hnd hfr
    rw [List.foldl_cons, Job.run_fresh hK S J (hfr J (by simp)), ih]
    · simp [add_assoc]
    · simp at hnd; simpa using hnd.2
    · intro J' hJ' hmem
      simp only [List.map_append, List.mem_append] at hmem
      rcases hmem with h | h
      · exact hfr J' (by simp [hJ']) h
      · rw [List.mem_map] at h
        obtain ⟨x, hx, hxk⟩ := h
        rw [Job.stored_keys K J x hx] at hxk
        simp only [List.map_cons, List.nodup_cons] at hnd
        have hxk : J.key = J'.key := hxk
        exact hnd.1 (by rw [hxk]; exact List.mem_map_of_mem hJ')

theorem stored_total (K : Kit C) (js : List (Job C)) :
    ((js.flatMap (Job.stored K)).map Prod.snd).sum = (js.map (Job.val K)).sum := by
  induction js with
  | nil => rfl
  | cons J js ih => simp [ih, Job.stored_sum]

/-! ### The loops as lists of jobs -/

/-- The jobs of one row of the auto loop. -/
def autoRowJobs (cats : List (ℕ × C)) (c1 : ℕ × C) : List (Job C) :=
  Job.auto c1.1 c1.2 :: (cats.reverse.filter (fun c2 => c1.1 < c2.1)).map
    (fun c2 => Job.cross false c1.1 c2.1 c1.2 c2.2)

def autoJobs (cats : List (ℕ × C)) : List (Job C) := cats.flatMap (autoRowJobs cats)

def crossJobs (n1 n2 : ℕ) (cats1 cats2 : List (ℕ × C)) : List (Job C) :=
  cats1.flatMap fun c1 => cats2.map fun c2 =>
    Job.cross (decide (c1.1 = c2.1) || decide (n1 = 1) || decide (n2 = 1)) c1.1 c2.1 c1.2 c2.2

def jobMine (mine : ℕ → ℕ → Prop) (J : Job C) : Bool := decide (mine J.key.1 J.key.2)

theorem foldl_if {α β : Type} (p : β → Prop) [DecidablePred p] (f : α → β → α) (l : List β) (a : α) :
    l.foldl (fun a b => if p b then f a b else a) a = (l.filter (fun b => decide (p b))).foldl f a := by
  induction l generalizing a with
  | nil => rfl
  | cons b t ih =>
    simp only [List.foldl_cons]
    by_cases h : p b
    · simp [h, ih]
    · simp [h, ih]

theorem allAuto_eq (K : Kit C) (mine : ℕ → ℕ → Prop) (cats : List (ℕ × C)) (S : Corr) :
    K.allAuto mine cats S = ((autoJobs cats).filter (jobMine mine)).foldl (Job.run K) S := by
  unfold Kit.allAuto autoJobs
  rw [List.filter_flatMap]
  generalize hg : cats.reverse = rc
  have : autoRowJobs cats = fun c1 : ℕ × C => Job.auto c1.1 c1.2 :: (rc.filter (fun c2 => c1.1 < c2.1)).map
    (fun c2 => Job.cross false c1.1 c2.1 c1.2 c2.2) := by
    funext c1; rw [autoRowJobs, hg]
  rw [this]
  clear hg this
  induction cats generalizing S with
  | nil => rfl
  | cons c1 t ih =>
    simp only [List.foldl_cons, List.flatMap_cons, List.foldl_append]
    rw [ih]
    congr 1
    rw [foldl_if (fun c2 : ℕ × C => c1.1 < c2.1 ∧ mine c1.1 c2.1)
      (fun S c2 => K.single12 false (c1.1, c2.1) c1.2 c2.2 S)]
    have e2 : ∀ S, (rc.filter (fun c2 : ℕ × C => decide (c1.1 < c2.1 ∧ mine c1.1 c2.1))).foldl
        (fun S c2 => K.single12 false (c1.1, c2.1) c1.2 c2.2 S) S
        = (((rc.filter (fun c2 => decide (c1.1 < c2.1))).map
            (fun c2 => Job.cross false c1.1 c2.1 c1.2 c2.2)).filter (jobMine mine)).foldl (Job.run K) S := by
      intro S
      rw [List.filter_map, List.filter_filter, List.foldl_map]
      have : (fun c2 : ℕ × C => decide (c1.1 < c2.1 ∧ mine c1.1 c2.1))
        = fun c2 => (jobMine mine ∘ fun c2 : ℕ × C => Job.cross false c1.1 c2.1 c1.2 c2.2) c2
            && decide (c1.1 < c2.1) := by
        funext c2
        rw [Bool.eq_iff_iff]
        simp [jobMine, Job.key, and_comm]
        intro _
        exact decide_eq_true_iff.symm
      rw [this]
      rfl
    rw [e2, List.filter_cons]
    have e3 : jobMine mine (Job.auto c1.1 c1.2 : Job C) = decide (mine c1.1 c1.1) := rfl
    rw [e3]
    by_cases h : mine c1.1 c1.1
    · simp only [h, if_true, decide_true, List.foldl_cons]
      rfl
    · simp only [h, if_false, decide_false]
      rfl

theorem allCross_eq (K : Kit C) (mine : ℕ → ℕ → Prop) (n1 n2 : ℕ) (cats1 cats2 : List (ℕ × C)) (S : Corr) :
    K.allCross mine n1 n2 cats1 cats2 S
      = ((crossJobs n1 n2 cats1 cats2).filter (jobMine mine)).foldl (Job.run K) S := by
  unfold Kit.allCross crossJobs
  rw [List.filter_flatMap]
  induction cats1 generalizing S with
  | nil => rfl
  | cons c1 t ih =>
    simp only [List.foldl_cons, List.flatMap_cons, List.foldl_append]
    rw [ih]
    congr 1
    rw [foldl_if (fun c2 : ℕ × C => mine c1.1 c2.1), List.filter_map, List.foldl_map]
    rfl

theorem autoJobs_nodup {cats : List (ℕ × C)} (h : (cats.map Prod.fst).Nodup) :
    ((autoJobs cats).map Job.key).Nodup := by
  unfold autoJobs
  rw [List.map_flatMap, List.nodup_flatMap]
  constructor
  · intro c1 _
    simp only [autoRowJobs, List.map_cons, List.map_map, List.nodup_cons]
    constructor
    · intro hm
      rw [List.mem_map] at hm
      obtain ⟨c2, hc2, hk⟩ := hm
      simp only [List.mem_filter, decide_eq_true_eq] at hc2
      simp [Job.key] at hk
      omega
    · have : ((cats.reverse.filter (fun c2 => decide (c1.1 < c2.1))).map Prod.fst).Nodup := by
        apply List.Nodup.sublist (List.Sublist.map _ List.filter_sublist)
        rw [List.map_reverse, List.nodup_reverse]
        exact h
      have e : (Job.key ∘ fun c2 : ℕ × C => Job.cross false c1.1 c2.1 c1.2 c2.2) = (fun j => (c1.1, j)) ∘ Prod.fst := by
        funext c2; rfl
      rw [e, ← List.map_map]
      exact this.map (fun a b hab => by simpa using hab)
  · rw [List.Nodup, List.pairwise_map] at h
    refine h.imp ?_
    intro a b hab x hx hy
    simp only [List.mem_map] at hx hy
    obtain ⟨J, hJ, rfl⟩ := hx
    obtain ⟨J', hJ', hk⟩ := hy
    have key1 : ∀ (c : ℕ × C) (J : Job C), J ∈ autoRowJobs cats c → J.key.1 = c.1 := by
      intro c J hJ
      simp only [autoRowJobs, List.mem_cons, List.mem_map] at hJ
      rcases hJ with rfl | ⟨c2, _, rfl⟩ <;> rfl
    exact hab (by rw [← key1 a J hJ, ← key1 b J' hJ', hk])

theorem crossJobs_nodup {n1 n2 : ℕ} {cats1 cats2 : List (ℕ × C)} (h1 : (cats1.map Prod.fst).Nodup)
    (h2 : (cats2.map Prod.fst).Nodup) : ((crossJobs n1 n2 cats1 cats2).map Job.key).Nodup := by
  unfold crossJobs
  rw [List.map_flatMap, List.nodup_flatMap]
  constructor
  · intro c1 _
    rw [List.map_map]
    have : ∀ l : List (ℕ × C), l.map (Job.key ∘ fun c2 : ℕ × C =>
        Job.cross (decide (c1.1 = c2.1) || decide (n1 = 1) || decide (n2 = 1)) c1.1 c2.1 c1.2 c2.2)
        = (l.map Prod.fst).map (fun j => (c1.1, j)) := by
      intro l; rw [List.map_map]; rfl
    rw [this]
    exact h2.map (fun a b hab => by simpa using hab)
  · rw [List.Nodup, List.pairwise_map] at h1
    refine h1.imp ?_
    intro a b hab x hx hy
    simp only [List.mem_map] at hx hy
    obtain ⟨J, ⟨c2, _, rfl⟩, rfl⟩ := hx
    obtain ⟨J', ⟨c2', _, rfl⟩, hk⟩ := hy
    simp [Job.key] at hk
    exact hab hk.1.symm

end
end TreeCorr
