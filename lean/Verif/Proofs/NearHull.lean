import Verif.Proofs.Near

/-! Mean positions stay inside balls: flat and 3d always, on the sphere for balls smaller than a hemisphere. -/

namespace TreeCorr
open Classical

section
variable {E : Type} [NormedAddCommGroup E] [InnerProductSpace ℝ E]

theorem wsum_norm_le (l : List (Obj E)) (c : E) (s : ℝ) (h : ∀ o ∈ l, dist o.pos c ≤ s) (hw : ∀ o ∈ l, 0 ≤ o.wpos) :
    ‖(l.map (fun o => o.wpos • o.pos)).sum - (l.map Obj.wpos).sum • c‖ ≤ (l.map Obj.wpos).sum * s := by
  induction l with
  | nil => simp
  | cons o l ih =>
    simp only [List.map_cons, List.sum_cons]
    have h1 := ih (fun o ho => h o (List.mem_cons_of_mem _ ho)) (fun o ho => hw o (List.mem_cons_of_mem _ ho))
    have h2 := h o List.mem_cons_self
    have h3 := hw o List.mem_cons_self
    have e : o.wpos • o.pos + (l.map (fun o => o.wpos • o.pos)).sum - (o.wpos + (l.map Obj.wpos).sum) • c
        = o.wpos • (o.pos - c) + ((l.map (fun o => o.wpos • o.pos)).sum - (l.map Obj.wpos).sum • c) := by
      rw [add_smul, smul_sub]; abel
    rw [e]
    refine (norm_add_le _ _).trans ?_
    rw [norm_smul, Real.norm_of_nonneg h3, ← dist_eq_norm, add_mul]
    gcongr

theorem wpos_nonneg (l : List (Obj E)) (hw : ∀ o ∈ l, 0 ≤ o.wpos) : 0 ≤ (l.map Obj.wpos).sum := by
  apply List.sum_nonneg
  intro x hx
  obtain ⟨o, ho, rfl⟩ := List.mem_map.1 hx
  exact hw o ho

theorem wmean_dist (l : List (Obj E)) (hl : (l.map Obj.wpos).sum ≠ 0) (c : E) (s : ℝ) (h : ∀ o ∈ l, dist o.pos c ≤ s)
    (hw : ∀ o ∈ l, 0 ≤ o.wpos) :
    dist (((l.map Obj.wpos).sum)⁻¹ • (l.map (fun o => o.wpos • o.pos)).sum) c ≤ s := by
  have h1 := wsum_norm_le l c s h hw
  have hp : 0 < (l.map Obj.wpos).sum := lt_of_le_of_ne (wpos_nonneg l hw) (Ne.symm hl)
  set W := (l.map Obj.wpos).sum
  set S := (l.map (fun o => o.wpos • o.pos)).sum
  have e : W⁻¹ • S - c = W⁻¹ • (S - W • c) := by
    rw [smul_sub, smul_smul, inv_mul_cancel₀ hl, one_smul]
  rw [dist_eq_norm, e, norm_smul, Real.norm_of_nonneg (inv_nonneg.2 hp.le), inv_mul_le_iff₀ hp]
  exact h1

/-- On the unit sphere: moving a point of the ball out to the sphere keeps it in the ball around a point of the
sphere, if the radius is less than `√2`. -/
theorem normalize_dist {m c : E} {s : ℝ} (hs : s ^ 2 < 2) (hc : ‖c‖ = 1) (hm : ‖m‖ ≤ 1) (h0 : 0 ≤ s)
    (h : 1 - s ^ 2 / 2 ≤ inner ℝ m c) : ‖m‖ ≠ 0 ∧ dist (‖m‖⁻¹ • m) c ≤ s := by
  have hpos : 0 < inner ℝ m c := by linarith
  have hm0 : ‖m‖ ≠ 0 := by
    intro h0
    rw [norm_eq_zero.1 h0, inner_zero_left] at hpos
    exact lt_irrefl _ hpos
  have hmp : 0 < ‖m‖ := lt_of_le_of_ne (norm_nonneg _) (Ne.symm hm0)
  refine ⟨hm0, ?_⟩
  rw [dist_eq_norm, ← sq_le_sq₀ (norm_nonneg _) h0, norm_sub_sq_real, hc, norm_smul,
    Real.norm_of_nonneg (inv_nonneg.2 hmp.le), inv_mul_cancel₀ hm0, real_inner_smul_left]
  have : inner ℝ m c ≤ ‖m‖⁻¹ * inner ℝ m c := by
    rw [← div_eq_inv_mul, le_div_iff₀ hmp]
    nlinarith
  linarith

theorem winner_ge (l : List (Obj E)) (c : E) (t : ℝ) (h : ∀ o ∈ l, t ≤ inner ℝ o.pos c) (hw : ∀ o ∈ l, 0 ≤ o.wpos) :
    (l.map Obj.wpos).sum * t ≤ inner ℝ (l.map (fun o => o.wpos • o.pos)).sum c := by
  induction l with
  | nil => simp
  | cons o l ih =>
    simp only [List.map_cons, List.sum_cons, inner_add_left, real_inner_smul_left, add_mul]
    have h1 := ih (fun o ho => h o (List.mem_cons_of_mem _ ho)) (fun o ho => hw o (List.mem_cons_of_mem _ ho))
    have h2 := h o List.mem_cons_self
    have h3 := hw o List.mem_cons_self
    have := mul_le_mul_of_nonneg_left h2 h3
    linarith

end

/-- Flat and 3d positions. -/
theorem euclidGeom_hull (d : ℕ) (R : ℝ) : (euclidGeom d).Hull (fun _ => True) R where
  mean_mem := fun _ _ _ => trivial
  mean_dist := by
    intro l hne hl c _ s _ h
    show dist (wmean id l) c ≤ s
    unfold wmean
    simp only
    split
    · rename_i hW
      exact wmean_dist l hW c s h (fun o ho => (hl o ho).2)
    · match l, hne with
      | o :: l, _ => exact h o List.mem_cons_self

theorem sphereNormalize_norm (p : EuclideanSpace ℝ (Fin 3)) : ‖sphereNormalize p‖ = 1 := by
  unfold sphereNormalize
  split
  · rw [EuclideanSpace.norm_eq]; simp [Fin.sum_univ_three]
  · rename_i h
    rw [norm_smul, norm_inv, norm_norm, inv_mul_cancel₀ h]

/-- Spherical positions, chords shorter than `√2`. -/
theorem sphereGeom_hull {R : ℝ} (hR : R < Real.sqrt 2) : sphereGeom.Hull (fun p => ‖p‖ = 1) R where
  mean_mem := by
    intro l hne hl
    show ‖wmean sphereNormalize l‖ = 1
    unfold wmean
    simp only
    split
    · exact sphereNormalize_norm _
    · match l, hne with
      | o :: l, _ => exact hl o List.mem_cons_self
  mean_dist := by
    intro l hne hl c hc s hs h
    show dist (wmean sphereNormalize l) c ≤ s
    unfold wmean
    simp only
    split
    · rename_i hW
      have hw : ∀ o ∈ l, 0 ≤ o.wpos := fun o ho => (hl o ho).2
      have hp : 0 < (l.map Obj.wpos).sum := lt_of_le_of_ne (wpos_nonneg l hw) (Ne.symm hW)
      obtain ⟨o, ho⟩ := List.exists_mem_of_ne_nil _ hne
      have h0 : 0 ≤ s := dist_nonneg.trans (h o ho)
      have hs2 : s ^ 2 < 2 := by
        have := Real.sq_sqrt (show (0:ℝ) ≤ 2 by norm_num)
        nlinarith
      have hin : ∀ o ∈ l, 1 - s ^ 2 / 2 ≤ inner ℝ o.pos c := by
        intro o ho
        have h1 := h o ho
        rw [dist_eq_norm, ← sq_le_sq₀ (norm_nonneg _) h0, norm_sub_sq_real, hc, (hl o ho).1] at h1
        linarith
      have hi := winner_ge l c _ hin hw
      have hn : ‖((l.map Obj.wpos).sum)⁻¹ • (l.map (fun o => o.wpos • o.pos)).sum‖ ≤ 1 := by
        have := wmean_dist l hW 0 1 (fun o ho => by rw [dist_zero_right, (hl o ho).1]) hw
        rwa [dist_zero_right] at this
      have := normalize_dist hs2 hc hn h0 (by
        rw [real_inner_smul_left, ← div_eq_inv_mul, le_div_iff₀ hp]
        linarith)
      unfold sphereNormalize
      rw [if_neg this.1]
      exact this.2
    · match l, hne with
      | o :: l, _ => exact h o List.mem_cons_self

end TreeCorr
