import Verif.Proofs.MpShear

/-! The scratch arrays of the multipole algorithm for shear, and the sums over triangles its entries amount to. -/

namespace TreeCorr
open Classical ComplexConjugate
variable {P : Type}

theorem addAtC_rows {R : ℤ → Multiset (Obj P)} {f : ℤ → ℂ} {g : Obj P → ℂ} {os : List (Obj P)} {v : ℂ} (k : ℤ)
    (hf : ∀ j, f j = ((R j).map g).sum) (hv : v = (os.map g).sum) (j : ℤ) :
    addAtC f k v j = ((R j + if j = k then (os : Multiset (Obj P)) else 0).map g).sum := by
  unfold addAtC
  split
  · rw [Multiset.map_add, Multiset.sum_add, hf, hv, Multiset.map_coe, Multiset.sum_coe]
  · rw [add_zero, hf]

theorem addPowersG_rows {R : ℤ → Multiset (Obj P)} {f : ℤ → ℤ → ℂ} {g : Obj P → ℂ} {os : List (Obj P)} {v z : ℂ} {maxn : ℕ} {n : ℤ}
    (hn : n.natAbs ≤ maxn + 1) (k : ℤ) (hf : ∀ j, f j n = ((R j).map g).sum) (hv : v * upow z n = (os.map g).sum) (j : ℤ) :
    addPowersG f maxn k v z j n = ((R j + if j = k then (os : Multiset (Obj P)) else 0).map g).sum := by
  unfold addPowersG
  by_cases h : j = k
  · rw [if_pos ⟨h, hn⟩, if_pos h, Multiset.map_add, Multiset.sum_add, hf, ← Multiset.sum_coe, ← Multiset.map_coe] at *
    rw [← hv]; rfl
  · rw [if_neg (by simp [h]), if_neg h, add_zero, hf]

section
variable [PseudoMetricSpace P]

/-- What a row adds to `Gn`. -/
noncomputable def gnAt (ph fac : P → P → ℂ) (sh : Obj P → ℂ) (n : ℤ) (x : P) (o : Obj P) : ℂ :=
  sh o * fac x o.pos * upow (ph x o.pos) n

/-- The scratch arrays hold the rows `R k` in bin `k`. -/
structure GRep (ph fac : P → P → ℂ) (sh : Obj P → ℂ) (maxn : ℕ) (ww : Bool) (apart : Prop) (x : P) (mp : GScratch)
    (R : ℤ → Multiset (Obj P)) : Prop where
  Gn : ∀ n : ℤ, n.natAbs ≤ maxn + 1 → ∀ k, mp.Gn k n = ((R k).map (gnAt ph fac sh n x)).sum
  gg0 : ww = true → apart → ∀ k, mp.gg0 k = ((R k).map fun o => (sh o * fac x o.pos) ^ 2 * conj (ph x o.pos * ph x o.pos)).sum
  gg1 : ww = true → apart → ∀ k, mp.gg1 k = ((R k).map fun o => (sh o * fac x o.pos) ^ 2 * (ph x o.pos * ph x o.pos)).sum
  gg2 : ww = true → apart → ∀ k, mp.gg2 k = ((R k).map fun o => (Complex.normSq (sh o) : ℂ) * conj (ph x o.pos * ph x o.pos)).sum

theorem gRep_clear (ph fac : P → P → ℂ) (sh : Obj P → ℂ) (maxn : ℕ) (ww : Bool) (apart : Prop) (x : P) :
    GRep ph fac sh maxn ww apart x GScratch.clear (fun _ => 0) := by
  constructor <;> intros <;> simp [GScratch.clear]

variable {p : Params} {ph fac : P → P → ℂ} {sh : Obj P → ℂ} {wg : Cell P → ℂ} {maxn : ℕ} {apart : Prop}

theorem gRep_step (hp : LogParams p) (ha : p.a = 0) (hph : SamePhase ph) (hfac : SamePhase fac) (hwg : SumsShear sh wg)
    {ww : Bool} {x : P} {c1 : Cell P} (hb : c1.Bounded 0) (h0 : c1.size = 0) (hx : ∃ o ∈ c1.objs, o.pos = x) :
    GnRep p (calculateGnG ph fac wg maxn ww) (MpCell apart) c1 (GRep ph fac sh maxn ww apart x) := by
  obtain ⟨o1, ho1, rfl⟩ := hx
  refine ⟨?_⟩
  intro c2 mp R k r logr q2 huse hR
  obtain ⟨⟨b2, s2⟩, a2⟩ := q2
  obtain ⟨-, -, -, -, -, bo, ho⟩ := mpPair_use hp huse
  have hz := sharp_size (P := P) ha ho
  have d1 : dist c1.pos o1.pos = 0 := by
    have := hb.dist_le le_rfl ho1
    rw [dist_comm] at this
    exact le_antisymm (by linarith) dist_nonneg
  have z2 : ∀ o ∈ c2.objs, dist c2.pos o.pos = 0 := by
    intro o hm
    have := b2.dist_le le_rfl hm
    rw [dist_comm] at this
    have := b2.size_nonneg
    exact le_antisymm (by linarith) dist_nonneg
  have hs := hwg c2 z2
  have pp : ∀ o ∈ c2.objs, ph o1.pos o.pos = ph c1.pos c2.pos := fun o hm => (hph _ _ _ _ d1 (z2 o hm)).symm
  have ff : ∀ o ∈ c2.objs, fac o1.pos o.pos = fac c1.pos c2.pos := fun o hm => (hfac _ _ _ _ d1 (z2 o hm)).symm
  have single : apart → ∃ o, c2.objs = [o] ∧ c2.sumWGSq wg = sh o ^ 2 ∧ c2.sumAbsWGSq wg = Complex.normSq (sh o) := by
    intro hap
    cases c2 with
    | leaf d os =>
      obtain ⟨o, rfl⟩ := apart_single b2 s2 (a2 hap)
      refine ⟨o, rfl, ?_, ?_⟩
      · simp only [Cell.sumWGSq]; rw [hs]; simp [Cell.objs]
      · simp only [Cell.sumAbsWGSq]; rw [hs]; simp [Cell.objs]
    | node d s l r =>
      have h1 : s ≠ 0 := b2.1.ne'
      have h2 : (Cell.node d s l r).size = s := rfl
      have := b2.1
      rw [h2] at hz
      exact absurd (le_antisymm (by linarith [c1.size]) this.le) h1
  constructor
  · intro n hn
    refine addPowersG_rows hn k (hR.Gn n hn) ?_
    rw [hs, mul_assoc, sum_scale_list c2.objs sh (fun o => fac o1.pos o.pos * upow (ph o1.pos o.pos) n) _
      (fun o hm => by rw [ff o hm, pp o hm])]
    refine congrArg _ (List.map_congr_left fun o _ => ?_)
    unfold gnAt; ring
  · intro hw hap
    subst hw
    obtain ⟨o, e1, e2, -⟩ := single hap
    refine addAtC_rows k (hR.gg0 rfl hap) ?_
    have hm : o ∈ c2.objs := by rw [e1]; simp
    rw [e1, e2, ← pp o hm, ← ff o hm]
    simp [mul_pow]
  · intro hw hap
    subst hw
    obtain ⟨o, e1, e2, -⟩ := single hap
    refine addAtC_rows k (hR.gg1 rfl hap) ?_
    have hm : o ∈ c2.objs := by rw [e1]; simp
    rw [e1, e2, ← pp o hm, ← ff o hm]
    simp [mul_pow]
  · intro hw hap
    subst hw
    obtain ⟨o, e1, -, e2⟩ := single hap
    refine addAtC_rows k (hR.gg2 rfl hap) ?_
    have hm : o ∈ c2.objs := by rw [e1]; simp
    rw [e1, e2, ← pp o hm]
    simp

/-- The factors of the three points in `gam_μ` of index `n`. -/
noncomputable def gam1st (sh : Obj P → ℂ) (μ : Fin 4) (o : Obj P) : ℂ :=
  match μ with
  | 0 => sh o
  | 1 => conj (sh o)
  | 2 => sh o
  | 3 => sh o
noncomputable def gam2nd (ph fac : P → P → ℂ) (sh : Obj P → ℂ) (n : ℤ) (μ : Fin 4) (x : P) (o : Obj P) : ℂ :=
  match μ with
  | 0 => gnAt ph fac sh (-n - 1) x o
  | 1 => gnAt ph fac sh (-n + 1) x o
  | 2 => conj (gnAt ph fac sh (n + 1) x o)
  | 3 => gnAt ph fac sh (-n - 1) x o
noncomputable def gam3rd (ph fac : P → P → ℂ) (sh : Obj P → ℂ) (n : ℤ) (μ : Fin 4) (x : P) (o : Obj P) : ℂ :=
  match μ with
  | 0 => gnAt ph fac sh (n - 1) x o
  | 1 => gnAt ph fac sh (n + 1) x o
  | 2 => gnAt ph fac sh (n - 1) x o
  | 3 => conj (gnAt ph fac sh (-n + 1) x o)

/-- Direction and factor are of modulus one. -/
def GoodAt (ph fac : P → P → ℂ) (x : P) (o : Obj P) : Prop :=
  Complex.normSq (ph x o.pos) = 1 ∧ Complex.normSq (fac x o.pos) = 1

theorem unit_conj {z : ℂ} (h : Complex.normSq z = 1) : conj z = z⁻¹ := by rw [Complex.inv_def, h]; simp

theorem unit_ne {z : ℂ} (h : Complex.normSq z = 1) : z ≠ 0 := by rintro rfl; simp at h

theorem gam_sq {n : ℤ} {x : P} {o : Obj P} (h : GoodAt ph fac x o) :
    gam2nd ph fac sh n 0 x o * gam3rd ph fac sh n 0 x o = (sh o * fac x o.pos) ^ 2 * conj (ph x o.pos * ph x o.pos) ∧
    gam2nd ph fac sh n 1 x o * gam3rd ph fac sh n 1 x o = (sh o * fac x o.pos) ^ 2 * (ph x o.pos * ph x o.pos) ∧
    gam2nd ph fac sh n 2 x o * gam3rd ph fac sh n 2 x o = (Complex.normSq (sh o) : ℂ) * conj (ph x o.pos * ph x o.pos) ∧
    gam2nd ph fac sh n 3 x o * gam3rd ph fac sh n 3 x o = (Complex.normSq (sh o) : ℂ) * conj (ph x o.pos * ph x o.pos) := by
  obtain ⟨h1, h2⟩ := h
  have z0 := unit_ne h1
  have f0 := unit_ne h2
  simp only [gam2nd, gam3rd, gnAt, upow_zpow h1, map_mul, map_zpow₀, unit_conj h1, unit_conj h2, ← Complex.mul_conj]
  generalize ph x o.pos = z at *
  generalize fac x o.pos = f at *
  have e1 : z ^ (-n - 1) * z ^ (n - 1) = z⁻¹ * z⁻¹ := by
    rw [← zpow_add₀ z0, ← zpow_neg_one, ← zpow_add₀ z0]; congr 1; ring
  have e2 : z ^ (-n + 1) * z ^ (n + 1) = z * z := by
    rw [← zpow_add₀ z0, ← zpow_two]; congr 1; ring
  have e3 : z⁻¹ ^ (n + 1) * z ^ (n - 1) = z⁻¹ * z⁻¹ := by
    rw [inv_zpow', ← zpow_add₀ z0, ← zpow_neg_one, ← zpow_add₀ z0]; congr 1; ring
  have e4 : z ^ (-n - 1) * z⁻¹ ^ (-n + 1) = z⁻¹ * z⁻¹ := by
    rw [inv_zpow', ← zpow_add₀ z0, ← zpow_neg_one, ← zpow_add₀ z0]; congr 1; ring
  have ef : f⁻¹ * f = 1 := inv_mul_cancel₀ f0
  refine ⟨?_, ?_, ?_, ?_⟩
  · linear_combination (sh o * f) ^ 2 * e1
  · linear_combination (sh o * f) ^ 2 * e2
  · linear_combination (conj (sh o) * sh o) * (f⁻¹ * f) * e3 + (conj (sh o) * sh o) * (z⁻¹ * z⁻¹) * ef
  · linear_combination (conj (sh o) * sh o) * (f⁻¹ * f) * e4 + (conj (sh o) * sh o) * (z⁻¹ * z⁻¹) * ef

/-- The product of the three factors is the natural component with its phase. -/
theorem gam_prod {n : ℤ} {μ : Fin 4} {o1 o2 o3 : Obj P} (h2 : GoodAt ph fac o1.pos o2) (h3 : GoodAt ph fac o1.pos o3) :
    gam1st sh μ o1 * gam2nd ph fac sh n μ o1.pos o2 * gam3rd ph fac sh n μ o1.pos o3 =
      natX ph fac sh μ (o1, o2, o3) * (ph o1.pos o3.pos / ph o1.pos o2.pos) ^ n := by
  obtain ⟨h1, -⟩ := h2
  obtain ⟨h3, -⟩ := h3
  have y0 := unit_ne h1
  have z0 := unit_ne h3
  fin_cases μ <;> simp only [gam1st, gam2nd, gam3rd, gnAt, natX, natural, upow_zpow h1, upow_zpow h3, map_mul, map_zpow₀,
    unit_conj h1, unit_conj h3, map_inv₀, inv_inv, div_zpow]
  all_goals
    generalize ph o1.pos o2.pos = y at *
    generalize ph o1.pos o3.pos = z at *
    rw [div_eq_mul_inv, ← zpow_neg]
    first | skip
  · have e1 : y ^ (-n - 1) = y ^ (-n) * y⁻¹ := by rw [zpow_sub_one₀ y0]
    have e2 : z ^ (n - 1) = z ^ n * z⁻¹ := by rw [zpow_sub_one₀ z0]
    rw [e1, e2]; ring
  · have e1 : y ^ (-n + 1) = y ^ (-n) * y := by rw [zpow_add_one₀ y0]
    have e2 : z ^ (n + 1) = z ^ n * z := by rw [zpow_add_one₀ z0]
    rw [e1, e2]; ring
  · have e1 : y⁻¹ ^ (n + 1) = y ^ (-n) * y⁻¹ := by rw [inv_zpow', neg_add, ← sub_eq_add_neg, zpow_sub_one₀ y0]
    have e2 : z ^ (n - 1) = z ^ n * z⁻¹ := by rw [zpow_sub_one₀ z0]
    rw [e1, e2]; ring
  · have e1 : y ^ (-n - 1) = y ^ (-n) * y⁻¹ := by rw [zpow_sub_one₀ y0]
    have e2 : z⁻¹ ^ (-n + 1) = z ^ n * z⁻¹ := by rw [inv_zpow', neg_add, neg_neg, ← sub_eq_add_neg, zpow_sub_one₀ z0]
    rw [e1, e2]; ring

theorem conj_sum_list (l : List (Obj P)) (f : Obj P → ℂ) : conj (l.map f).sum = (l.map fun o => conj (f o)).sum := by
  rw [map_list_sum, List.map_map]; rfl

theorem gVal_val {n : ℤ} (hn : n.natAbs ≤ maxn) (hwg : SumsShear sh wg) {k2 k3 : ℤ} (μ : Fin 4) (c : Cell P) (hc : MpCell False c)
    (h0 : c.size = 0) (x : P) (mp : GScratch) (R : ℤ → Multiset (Obj P)) (hR : GRep ph fac sh maxn true True x mp R)
    (hg : ∀ o ∈ R k2, GoodAt ph fac x o) :
    (gVal maxn wg c mp k2 k3).gam μ n = (c.objs.map (gam1st sh μ)).sum * (((R k3).map (gam2nd ph fac sh n μ x)).sum *
      ((R k2).map (gam3rd ph fac sh n μ x)).sum -
        if k2 = k3 then ((R k2).map fun o => gam2nd ph fac sh n μ x o * gam3rd ph fac sh n μ x o).sum else 0) := by
  have hw : wg c = (c.objs.map sh).sum := by
    apply hwg
    intro o ho
    have := hc.1.1.dist_le le_rfl ho
    rw [dist_comm] at this
    exact le_antisymm (by linarith) dist_nonneg
  have sq : ∀ G : Obj P → ℂ, (∀ o ∈ R k2, gam2nd ph fac sh n μ x o * gam3rd ph fac sh n μ x o = G o) →
      ((R k2).map fun o => gam2nd ph fac sh n μ x o * gam3rd ph fac sh n μ x o).sum = ((R k2).map G).sum :=
    fun G h => congrArg _ (Multiset.map_congr rfl h)
  have a1 : (n - 1).natAbs ≤ maxn + 1 := by omega
  have a2 : (n + 1).natAbs ≤ maxn + 1 := by omega
  have a3 : (-n - 1).natAbs ≤ maxn + 1 := by omega
  have a4 : (-n + 1).natAbs ≤ maxn + 1 := by omega
  match μ, sq with
  | 0, sq =>
    rw [sq _ fun o ho => (gam_sq (hg o ho)).1]
    simp only [GVals.gam]
    rw [gVal_gam0 wg c mp k2 k3 hn, hw, hR.Gn _ a3, hR.Gn _ a1, hR.gg0 rfl trivial]
    rfl
  | 1, sq =>
    rw [sq _ fun o ho => (gam_sq (hg o ho)).2.1]
    simp only [GVals.gam]
    rw [gVal_gam1 wg c mp k2 k3 hn, hw, hR.Gn _ a4, hR.Gn _ a2, hR.gg1 rfl trivial, conj_sum_list]
    rfl
  | 2, sq =>
    rw [sq _ fun o ho => (gam_sq (hg o ho)).2.2.1]
    simp only [GVals.gam]
    rw [gVal_gam2 wg c mp k2 k3 hn, hw, hR.Gn _ a2, hR.Gn _ a1, hR.gg2 rfl trivial, conj_sum]
    rfl
  | 3, sq =>
    rw [sq _ fun o ho => (gam_sq (hg o ho)).2.2.2]
    simp only [GVals.gam]
    rw [gVal_gam3 wg c mp k2 k3 hn, hw, hR.Gn _ a3, hR.Gn _ a4, hR.gg2 rfl trivial, conj_sum]
    rfl

theorem gam_same (hph : SamePhase ph) (hfac : SamePhase fac) (n : ℤ) (μ : Fin 4) (x x' : P) (o : Obj P) (h : dist x x' = 0) :
    gam2nd ph fac sh n μ x o = gam2nd ph fac sh n μ x' o ∧ gam3rd ph fac sh n μ x o = gam3rd ph fac sh n μ x' o := by
  have e : ∀ m, gnAt ph fac sh m x o = gnAt ph fac sh m x' o := by
    intro m
    unfold gnAt
    rw [hph _ _ _ _ h (dist_self o.pos), hfac _ _ _ _ h (dist_self o.pos)]
  fin_cases μ <;> simp only [gam2nd, gam3rd, e, and_self]

/-- The sums of products are those of the specification. -/
theorem sum_gam (hp : LogParams p) {n : ℤ} {μ : Fin 4} {k2 k3 : ℤ} (T : Multiset (Obj P × Obj P × Obj P))
    (hu : ∀ q ∈ T, (dist q.1.pos q.2.1.pos ≠ 0 → GoodAt ph fac q.1.pos q.2.1) ∧
      (dist q.1.pos q.2.2.pos ≠ 0 → GoodAt ph fac q.1.pos q.2.2)) :
    ((T.filter (InSides p k2 k3)).map fun q => gam1st sh μ q.1 * gam2nd ph fac sh n μ q.1.pos q.2.1 *
      gam3rd ph fac sh n μ q.1.pos q.2.2).sum = phaseSum ph n (natX ph fac sh μ) (T.filter (InSides p k2 k3)) := by
  unfold phaseSum
  congr 1
  apply Multiset.map_congr rfl
  rintro ⟨o1, o2, o3⟩ hq
  obtain ⟨e1, e2⟩ := (Multiset.mem_filter.1 hq).2.ne hp
  obtain ⟨u1, u2⟩ := hu _ (Multiset.mem_filter.1 hq).1
  exact gam_prod (u1 e1) (u2 e2)

/-- The entries of a run over one list. -/
theorem runG_holds (hp : LogParams p) (hnb : 0 < p.nbins) (ha : p.a = 0) (hph : SamePhase ph) (hfac : SamePhase fac)
    (hwg : SumsShear sh wg) (cells1 cells2 : List (Cell P)) (q1 : ∀ c ∈ cells1, MpCell False c) (q2 : ∀ c ∈ cells2, MpCell True c)
    (hg : ∀ o1 ∈ objsOf cells1, ∀ o2 ∈ objsOf cells2, dist o1.pos o2.pos ≠ 0 → GoodAt ph fac o1.pos o2) :
    ∃ out, multipoleG p maxn ph fac wg cells1 cells2 = some out ∧
      ∀ n : ℤ, n.natAbs ≤ maxn → MpGam p ph (natX ph fac sh) n (cross12Triples (objsOf cells1) (objsOf cells2)) out := by
  have key : ∀ n : ℤ, n.natAbs ≤ maxn → ∀ k2 k3, p.hasBin k2 → p.hasBin k3 → ∀ μ : Fin 4,
      ∃ out, multipoleG p maxn ph fac wg cells1 cells2 = some out ∧ mpTotal (fun v => v.gam μ n) out k2 k3 =
        phaseSum ph n (natX ph fac sh μ) ((cross12Triples (objsOf cells1) (objsOf cells2)).filter (InSides p k2 k3)) := by
    intro n hn k2 k3 h2 h3 μ
    obtain ⟨out, e1, e2⟩ := run_sharp hp (.inr ha) (hered_mpCell True) (fun c h => h.1.1)
      ((hered_mpCell False).and (hered_objs fun o => o ∈ objsOf cells1)) (fun c h => h.1.1.1)
      (fun c h => h.1.1.2.ne_nil) (fun a b => mpTotal_append (fun v : GVals => v.gam μ n) a b k2 k3)
      (mpTotal_nil (fun v : GVals => v.gam μ n) k2 k3) cells2 q2
      (fun c hc h0 => gen_leaf (zeta := calculateZetaG maxn p.nbins wg) (tot := fun l => mpTotal (fun v : GVals => v.gam μ n) l k2 k3)
        (v := fun c mp => (gVal maxn wg c mp k2 k3).gam μ n) (good := GoodAt ph fac) (apart := True) hp
        (gRep_clear ph fac sh maxn true True)
        (fun c x => gRep_step hp ha hph hfac hwg) (fun c mp ks mink => total_calculateZetaG _ maxn h2.2 h3.2 wg c mp ks mink)
        (gVal_val hn hwg μ) (gam_same hph hfac n μ) h2 h3 (objsOf cells2) hc.1 (fun o1 h1 => hg o1 (hc.2 o1 h1)) h0) cells1
      (fun c hc => ⟨q1 c hc, fun o ho => List.mem_flatMap.2 ⟨c, hc, ho⟩⟩)
    refine ⟨out, e1, ?_⟩
    rw [e2, if_pos (by have := h2.1; have := h3.1; have := h2.2; have := h3.2; omega)]
    rw [← sum_gam hp]
    · unfold cross12Triples
      rw [triples_sum]
      rfl
    · rintro ⟨a, b, c⟩ hq
      obtain ⟨m1, m2⟩ := Multiset.mem_product.1 hq
      have hbc : (b, c) ∈ (objsOf cells2 : Multiset (Obj P)) ×ˢ (objsOf cells2 : Multiset (Obj P)) := by
        rw [self_product]; exact Multiset.mem_add.2 (.inl m2)
      obtain ⟨hb, hc⟩ := Multiset.mem_product.1 hbc
      exact ⟨hg a m1 b hb, hg a m1 c hc⟩
  obtain ⟨out, e, -⟩ := key 0 (by simp) 0 0 ⟨le_rfl, hnb⟩ ⟨le_rfl, hnb⟩ 0
  refine ⟨out, e, ?_⟩
  intro n hn k2 k3 h2 h3 μ
  obtain ⟨out', e', t⟩ := key n hn k2 k3 h2 h3 μ
  rw [e] at e'; cases e'
  exact t

theorem spreadG_add {f0 g0 : ℂ} {fp gp fm gm : ℤ → ℂ} (n : ℤ) :
    spreadG maxn (f0 + g0) (fun m => fp m + gp m) (fun m => fm m + gm m) n = spreadG maxn f0 fp fm n + spreadG maxn g0 gp gm n := by
  unfold spreadG
  split
  · rfl
  · split
    · split <;> simp
    · split <;> simp

theorem gamOrd_swap {n : ℤ} (μ : Fin 4) (swap23 : Bool) (c : Cell P) (mp2 mp3 : GScratch) (k2 k3 : ℤ) :
    (gamOrd maxn wg swap23 c mp2 mp3 k2 k3).gam μ n = (gamOrd maxn wg false c mp2 mp3 k2 k3).gam μ n +
      if swap23 then (gamOrd maxn wg false c mp3 mp2 k2 k3).gam μ n else 0 := by
  cases swap23
  · simp
  · fin_cases μ <;> simp only [GVals.gam, gamOrd, if_true, spreadG_add, Bool.false_eq_true, if_false, add_zero]

theorem gamOrd_gam0 {n : ℤ} (hn : n.natAbs ≤ maxn) {c : Cell P} {mp2 mp3 : GScratch} {k2 k3 : ℤ} :
    (gamOrd maxn wg false c mp2 mp3 k2 k3).gam 0 n = wg c * (mp2.Gn k3 (-n - 1) * mp3.Gn k2 (n - 1)) := by
  dsimp only [gamOrd, GVals.gam]
  refine spreadG_eq hn ?_ ?_ ?_ (h := fun n => wg c * (mp2.Gn k3 (-n - 1) * mp3.Gn k2 (n - 1)))
  · simp only [Bool.false_eq_true, if_false, neg_zero, zero_sub]; ring
  · intro m; simp only [gamPM, Bool.false_eq_true, if_false]; ring
  · intro m; simp only [gamPM, Bool.false_eq_true, if_false, neg_neg]; ring

theorem gamOrd_gam1 {n : ℤ} (hn : n.natAbs ≤ maxn) {c : Cell P} {mp2 mp3 : GScratch} {k2 k3 : ℤ} :
    (gamOrd maxn wg false c mp2 mp3 k2 k3).gam 1 n = conj (wg c) * (mp2.Gn k3 (-n + 1) * mp3.Gn k2 (n + 1)) := by
  dsimp only [gamOrd, GVals.gam]
  refine spreadG_eq hn ?_ ?_ ?_ (h := fun n => conj (wg c) * (mp2.Gn k3 (-n + 1) * mp3.Gn k2 (n + 1)))
  · simp only [Bool.false_eq_true, if_false, neg_zero, zero_add]; ring
  · intro m; simp only [gamPM, Bool.false_eq_true, if_false]; ring
  · intro m; simp only [gamPM, Bool.false_eq_true, if_false, neg_neg, map_mul, Complex.conj_conj]; ring

theorem gamOrd_gam2 {n : ℤ} (hn : n.natAbs ≤ maxn) {c : Cell P} {mp2 mp3 : GScratch} {k2 k3 : ℤ} :
    (gamOrd maxn wg false c mp2 mp3 k2 k3).gam 2 n = wg c * (conj (mp2.Gn k3 (n + 1)) * mp3.Gn k2 (n - 1)) := by
  dsimp only [gamOrd, GVals.gam]
  refine spreadG_eq hn ?_ ?_ ?_ (h := fun n => wg c * (conj (mp2.Gn k3 (n + 1)) * mp3.Gn k2 (n - 1)))
  · simp only [Bool.false_eq_true, if_false, zero_sub, zero_add]; ring
  · intro m; simp only [gamPM, Bool.false_eq_true, if_false]; ring
  · intro m; simp only [gamPM, Bool.false_eq_true, if_false]; ring

theorem gamOrd_gam3 {n : ℤ} (hn : n.natAbs ≤ maxn) {c : Cell P} {mp2 mp3 : GScratch} {k2 k3 : ℤ} :
    (gamOrd maxn wg false c mp2 mp3 k2 k3).gam 3 n = wg c * (mp2.Gn k3 (-n - 1) * conj (mp3.Gn k2 (-n + 1))) := by
  dsimp only [gamOrd, GVals.gam]
  refine spreadG_eq hn ?_ ?_ ?_ (h := fun n => wg c * (mp2.Gn k3 (-n - 1) * conj (mp3.Gn k2 (-n + 1))))
  · simp only [Bool.false_eq_true, if_false, neg_zero, zero_sub, zero_add, map_mul, Complex.conj_conj]; ring
  · intro m; simp only [gamPM, Bool.false_eq_true, if_false]; ring
  · intro m; simp only [gamPM, Bool.false_eq_true, if_false, neg_neg, map_mul, Complex.conj_conj]; ring

theorem gamOrd_val {n : ℤ} (hn : n.natAbs ≤ maxn) (hwg : SumsShear sh wg) {k2 k3 : ℤ} (μ : Fin 4) (c : Cell P) (hc : MpCell False c)
    (h0 : c.size = 0) (x : P) (mp2 mp3 : GScratch) (R2 R3 : ℤ → Multiset (Obj P)) (hR2 : GRep ph fac sh maxn false False x mp2 R2)
    (hR3 : GRep ph fac sh maxn false False x mp3 R3) :
    (gamOrd maxn wg false c mp2 mp3 k2 k3).gam μ n = (c.objs.map (gam1st sh μ)).sum *
      (((R2 k3).map (gam2nd ph fac sh n μ x)).sum * ((R3 k2).map (gam3rd ph fac sh n μ x)).sum) := by
  have hw : wg c = (c.objs.map sh).sum := by
    apply hwg
    intro o ho
    have := hc.1.1.dist_le le_rfl ho
    rw [dist_comm] at this
    exact le_antisymm (by linarith) dist_nonneg
  have a1 : (n - 1).natAbs ≤ maxn + 1 := by omega
  have a2 : (n + 1).natAbs ≤ maxn + 1 := by omega
  have a3 : (-n - 1).natAbs ≤ maxn + 1 := by omega
  have a4 : (-n + 1).natAbs ≤ maxn + 1 := by omega
  match μ with
  | 0 =>
    rw [gamOrd_gam0 hn, hw, hR2.Gn _ a3, hR3.Gn _ a1]
    rfl
  | 1 =>
    rw [gamOrd_gam1 hn, hw, hR2.Gn _ a4, hR3.Gn _ a2, conj_sum_list]
    rfl
  | 2 =>
    rw [gamOrd_gam2 hn, hw, hR2.Gn _ a2, hR3.Gn _ a1, conj_sum]
    rfl
  | 3 =>
    rw [gamOrd_gam3 hn, hw, hR2.Gn _ a3, hR3.Gn _ a4, conj_sum]
    rfl

/-- The directions in the triples are of modulus one. -/
def GoodOn (ph fac : P → P → ℂ) (T : Multiset (Obj P × Obj P × Obj P)) : Prop :=
  ∀ q ∈ T, (dist q.1.pos q.2.1.pos ≠ 0 → GoodAt ph fac q.1.pos q.2.1) ∧ (dist q.1.pos q.2.2.pos ≠ 0 → GoodAt ph fac q.1.pos q.2.2)

/-- The entries of a run over two lists. -/
theorem runG3_holds (hp : LogParams p) (hnb : 0 < p.nbins) (ha : p.a = 0) (hph : SamePhase ph) (hfac : SamePhase fac)
    (hwg : SumsShear sh wg) (swap23 : Bool) (cells1 cells2 cells3 : List (Cell P)) (q1 : ∀ c ∈ cells1, MpCell False c)
    (q2 : ∀ c ∈ cells2, MpCell False c) (q3 : ∀ c ∈ cells3, MpCell False c)
    (hg : GoodOn ph fac (swapTriples swap23 (objsOf cells1) (objsOf cells2) (objsOf cells3))) :
    ∃ out, multipoleG3 p maxn ph fac wg swap23 cells1 cells2 cells3 = some out ∧
      ∀ n : ℤ, n.natAbs ≤ maxn →
        MpGam p ph (natX ph fac sh) n (swapTriples swap23 (objsOf cells1) (objsOf cells2) (objsOf cells3)) out := by
  have key : ∀ n : ℤ, n.natAbs ≤ maxn → ∀ k2 k3, p.hasBin k2 → p.hasBin k3 → ∀ μ : Fin 4,
      ∃ out, multipoleG3 p maxn ph fac wg swap23 cells1 cells2 cells3 = some out ∧ mpTotal (fun v => v.gam μ n) out k2 k3 =
        phaseSum ph n (natX ph fac sh μ)
          ((swapTriples swap23 (objsOf cells1) (objsOf cells2) (objsOf cells3)).filter (InSides p k2 k3)) := by
    intro n hn k2 k3 h2 h3 μ
    obtain ⟨out, e1, e2⟩ := run2_sharp hp (.inr ha) (hered_mpCell False) (fun c h => h.1.1) (hered_mpCell False) (fun c h => h.1.1)
      (fun c h => h.1.2.ne_nil) (fun a b => mpTotal_append (fun v : GVals => v.gam μ n) a b k2 k3)
      (mpTotal_nil (fun v : GVals => v.gam μ n) k2 k3) cells2 cells3 q2 q3
      (fun c hc h0 => gen_leaf2 (zeta := calculateZetaG2 maxn p.nbins wg swap23)
        (tot := fun l => mpTotal (fun v : GVals => v.gam μ n) l k2 k3)
        (v := fun c mp2 mp3 => (gamOrd maxn wg false c mp2 mp3 k2 k3).gam μ n) hp (gRep_clear ph fac sh maxn false False)
        (fun c x => gRep_step hp ha hph hfac hwg)
        (fun c mp2 mp3 ks mink => by
          rw [← gamOrd_swap]
          exact total_entries2 _ h2.2 h3.2 (gamOrd maxn wg swap23 c mp2 mp3) ks mink)
        (gamOrd_val hn hwg μ) (gam_same hph hfac n μ) h2 h3 (cellRows cells2) (cellRows cells3) hc h0) cells1 q1
    refine ⟨out, e1, ?_⟩
    rw [e2, if_pos (by have := h2.1; have := h3.1; have := h2.2; have := h3.2; omega), ← sum_gam hp _ hg]
    have : swapTriples swap23 (objsOf cells1) (objsOf cells2) (objsOf cells3) =
        (cellRows cells1) ×ˢ (cellRows cells2 ×ˢ cellRows cells3 + if swap23 then cellRows cells3 ×ˢ cellRows cells2 else 0) := by
      unfold swapTriples crossTriples
      cases swap23
      · simp only [Bool.false_eq_true, if_false, add_zero]; rfl
      · simp only [if_true]; rw [Multiset.product_add]; rfl
    rw [this, triples_sum]
  obtain ⟨out, e, -⟩ := key 0 (by simp) 0 0 ⟨le_rfl, hnb⟩ ⟨le_rfl, hnb⟩ 0
  refine ⟨out, e, ?_⟩
  intro n hn k2 k3 h2 h3 μ
  obtain ⟨out', e', t⟩ := key n hn k2 k3 h2 h3 μ
  rw [e] at e'; cases e'
  exact t

theorem MpGam.append {F : Fin 4 → Obj P × Obj P × Obj P → ℂ} {n : ℤ} {T T' : Multiset (Obj P × Obj P × Obj P)}
    {a b : List (ℤ × ℤ × GVals)} (h : MpGam p ph F n T a) (h' : MpGam p ph F n T' b) : MpGam p ph F n (T + T') (a ++ b) := by
  intro k2 k3 h2 h3 μ
  rw [mpTotal_append, h k2 k3 h2 h3, h' k2 k3 h2 h3]
  simp [phaseSum, Multiset.filter_add]

theorem MpGam.congr {F : Fin 4 → Obj P × Obj P × Obj P → ℂ} {n : ℤ} {T T' : Multiset (Obj P × Obj P × Obj P)}
    {a : List (ℤ × ℤ × GVals)} (h : MpGam p ph F n T a)
    (hT : ∀ k2 k3, T.filter (InSides p k2 k3) = T'.filter (InSides p k2 k3)) : MpGam p ph F n T' a := by
  intro k2 k3 h2 h3; rw [← hT]; exact h k2 k3 h2 h3

end

end TreeCorr
