import Verif.Proofs.LogBin

/-! `process11` decisions with Log binning and a plain metric. -/

namespace TreeCorr
variable {P : Type}

open Classical in
/-- `decide11` for a plain metric. -/
theorem decide11_plain [PseudoMetricSpace P] (B : BinHelper P) (prm : Params) (R : Bool) (c1 c2 : Cell P) :
  decide11 B (plainMetric P) prm R c1 c2 = 
   if c1.w = 0 ∨ c2.w = 0 then .drop
   else if B.tooSmall (dist c1.pos c2.pos ^ 2) (c1.size + c2.size) prm then .drop
   else if B.tooLarge (dist c1.pos c2.pos ^ 2) (c1.size + c2.size) prm then .drop
   else match B.singleBin (dist c1.pos c2.pos ^ 2) (c1.size + c2.size) c1.pos c2.pos prm with
     | some o => if B.inRange (dist c1.pos c2.pos ^ 2) c1.pos c2.pos prm then .direct (directProcess11 B prm R c1 c2 (dist c1.pos c2.pos ^ 2) o) else .drop
     | none => .split (calcSplitSq c1.size c2.size (B.effBSq (dist c1.pos c2.pos ^ 2) prm)).1 (calcSplitSq c1.size c2.size (B.effBSq (dist c1.pos c2.pos ^ 2) prm)).2 := by
  unfold decide11
  simp [plainMetric]
  congr!

theorem hered_bounded [PseudoMetricSpace P] (δ : ℝ) : Hered (Cell.Bounded (P := P) δ) := by
  intro d s l r h
  simp only [Cell.Bounded] at h
  exact ⟨h.2.2.1, h.2.2.2⟩

theorem hered_sumsOK : Hered (Cell.SumsOK (P := P)) := by
  intro d s l r h
  simp only [Cell.SumsOK] at h
  exact ⟨h.2.2.2.1, h.2.2.2.2⟩

theorem hered_posW : Hered (Cell.PosW (P := P)) := by
  intro d s l r h
  exact ⟨fun o ho => h o (by simp [Cell.objs, ho]), fun o ho => h o (by simp [Cell.objs, ho])⟩

theorem Hered.and {Q R : Cell P → Prop} (hQ : Hered Q) (hR : Hered R) :
    Hered (fun c => Q c ∧ R c) := by
  intro d s l r h
  exact ⟨⟨(hQ _ _ _ _ h.1).1, (hR _ _ _ _ h.2).1⟩, ⟨(hQ _ _ _ _ h.1).2, (hR _ _ _ _ h.2).2⟩⟩

theorem Cell.SumsOK.ne_nil {c : Cell P} (h : c.SumsOK) : c.objs ≠ [] := by
  induction c with
  | leaf d os => exact h.1
  | node d s l r ihl ihr =>
    simp only [SumsOK] at h
    simp [Cell.objs, ihl h.2.2.2.1]

theorem Cell.SumsOK.w_eq {c : Cell P} (h : c.SumsOK) : c.w = (c.objs.map Obj.w).sum := by
  cases c with
  | leaf d os => exact h.2.2.1
  | node d s l r => exact h.2.1

theorem Cell.SumsOK.n_eq {c : Cell P} (h : c.SumsOK) : c.n = c.objs.length := by
  cases c with
  | leaf d os => exact h.2.1
  | node d s l r => exact h.1

theorem Cell.SumsOK.wk_eq {c : Cell P} (h : c.SumsOK) : c.wk = (c.objs.map Obj.wk).sum := by
  cases c with
  | leaf d os => exact h.2.2.2
  | node d s l r => exact h.2.2.1

theorem sum_pos_of {α : Type} (f : α → ℝ) (l : List α) (hne : l ≠ []) (h : ∀ x ∈ l, 0 < f x) :
    0 < (l.map f).sum := by
  induction l with
  | nil => exact (hne rfl).elim
  | cons x xs ih =>
    simp only [List.map_cons, List.sum_cons]
    have hx := h x (by simp)
    rcases eq_or_ne xs [] with rfl | hxs
    · simpa using hx
    · have := ih hxs (fun y hy => h y (by simp [hy]))
      linarith

theorem Cell.w_pos {c : Cell P} (h : c.SumsOK) (hw : c.PosW) : 0 < c.w := by
  rw [h.w_eq]
  exact sum_pos_of _ _ h.ne_nil hw

theorem Cell.Bounded.size_nonneg [PseudoMetricSpace P] {δ : ℝ} {c : Cell P} (h : c.Bounded δ) :
    0 ≤ c.size := by
  cases c with
  | leaf d os => exact le_rfl
  | node d s l r => exact h.1.le

theorem Cell.Bounded.dist_le [PseudoMetricSpace P] {δ : ℝ} (hδ : 0 ≤ δ) {c : Cell P}
    (h : c.Bounded δ) {o : Obj P} (ho : o ∈ c.objs) : dist o.pos c.pos ≤ c.size + δ := by
  cases c with
  | leaf d os => simpa [Cell.size, Cell.pos, Cell.data] using h o ho
  | node d s l r =>
    have := h.2.1 o ho
    simp only [Cell.size, Cell.pos, Cell.data]
    linarith

theorem clamp {d r s t : ℝ} (hs : 0 ≤ s) (ht : 0 ≤ t) (h : |d - r| ≤ s + t) :
    ∃ d', |d' - r| ≤ s ∧ |d - d'| ≤ t := by
  refine ⟨max (r - s) (min d (r + s)), ?_, ?_⟩
  · rw [abs_le] at h ⊢
    constructor
    · have := le_max_left (r - s) (min d (r + s)); linarith
    · have : max (r - s) (min d (r + s)) ≤ r + s := max_le (by linarith) (min_le_right _ _)
      linarith
  · rw [abs_le] at h ⊢
    rcases le_total d (r + s) with h1 | h1
    · rw [min_eq_left h1]
      rcases le_total (r - s) d with h2 | h2
      · rw [max_eq_right h2]; constructor <;> linarith
      · rw [max_eq_left h2]; constructor <;> linarith
    · rw [min_eq_right h1, max_eq_right (by linarith)]; constructor <;> linarith

/-- The objects are within `δ` of the ball given by position and size. -/
def Cell.Within [PseudoMetricSpace P] (δ : ℝ) (c : Cell P) : Prop :=
  0 ≤ c.size ∧ ∀ o ∈ c.objs, dist o.pos c.pos ≤ c.size + δ

theorem Cell.Bounded.within [PseudoMetricSpace P] {δ : ℝ} (hδ : 0 ≤ δ) {c : Cell P} (h : c.Bounded δ) : c.Within δ :=
  ⟨h.size_nonneg, fun _ ho => h.dist_le hδ ho⟩

theorem cells_near [PseudoMetricSpace P] {δ : ℝ} (hδ : 0 ≤ δ) {a b : Cell P} (ha : a.Within δ)
    (hb : b.Within δ) {o1 o2 : Obj P} (h1 : o1 ∈ a.objs) (h2 : o2 ∈ b.objs) :
    ∃ d', |d' - dist a.pos b.pos| ≤ a.size + b.size ∧ |dist o1.pos o2.pos - d'| ≤ 2 * δ := by
  have := dist_near (ha.2 _ h1) (hb.2 _ h2)
  exact clamp (add_nonneg ha.1 hb.1) (by linarith) (by linarith)

/-- A pair put into bin `k`: its separation, changed by at most `2δ`, is in bin `k` widened by the slop. -/
theorem log_direct_within [PseudoMetricSpace P] {p : Params} (hp : LogParams p) {δ : ℝ} (hδ : 0 ≤ δ)
    {a b : Cell P} (ha : a.Within δ) (hb : b.Within δ) {R : Bool} {e : Emit P}
    (h : decide11 (logBin P) (plainMetric P) p R a b = .direct e) {o1 o2 : Obj P}
    (h1 : o1 ∈ a.objs) (h2 : o2 ∈ b.objs) :
    0 ≤ e.k ∧ e.k < p.nbins ∧ ∃ d', |dist o1.pos o2.pos - d'| ≤ 2 * δ ∧ 0 < d' ∧
      Real.log p.minsep + e.k * p.binsize - (p.b + p.b ^ 2) ≤ Real.log d' ∧
      Real.log d' < Real.log p.minsep + (e.k + 1) * p.binsize + p.b := by
  obtain ⟨d', hd', hdd⟩ := cells_near hδ ha hb h1 h2
  have hm := hp.minsep
  have hbs := hp.binsize
  have hbb := hp.b
  have hmx := hp.maxsep_pos
  rw [decide11_plain] at h
  split at h
  · cases h
  split at h
  · cases h
  split at h
  · cases h
  split at h
  swap
  · cases h
  rename_i o ho
  split at h
  swap
  · cases h
  rename_i hin
  injection h with h
  set r := dist a.pos b.pos with hr
  have hr0 : 0 ≤ r := dist_nonneg
  simp only [logBin] at ho hin
  obtain ⟨hlo, hhi⟩ := hin
  have hlo' : p.minsep ≤ r := le_of_sq_le_sq hlo hr0
  have hhi' : r < p.maxsep := lt_of_pow_lt_pow_left₀ 2 hmx.le hhi
  have hrpos : 0 < r := lt_of_lt_of_le hm hlo'
  have hll : Real.log p.minsep ≤ Real.log r := Real.log_le_log hm hlo'
  have hlh : Real.log r < Real.log p.minsep + p.nbins * p.binsize := by
    rw [← hp.log_maxsep]; exact Real.log_lt_log hrpos hhi'
  set kk := (Real.log r - Real.log p.minsep) / p.binsize with hkk
  have hkk' : kk * p.binsize = Real.log r - Real.log p.minsep := by rw [hkk]; field_simp
  have hkk0 : 0 ≤ kk := div_nonneg (by linarith) hbs.le
  have hkkn : kk < p.nbins := by rw [hkk, div_lt_iff₀ hbs]; linarith
  have hfl0 : 0 ≤ ⌊kk⌋ := Int.floor_nonneg.2 hkk0
  have hfln : ⌊kk⌋ < p.nbins := Int.floor_lt.2 hkkn
  have hf1 := Int.floor_le kk
  have hf2 := Int.lt_floor_add_one kk
  have hs0 : 0 ≤ a.size + b.size := add_nonneg ha.1 hb.1
  rcases logSingleBin_sound hp hr0 hs0 ho hd' with ⟨ho', hs⟩ | ⟨_, hdpos, _, _, hok, hk, _⟩
  · -- default out-parameters: the bin of `r`
    have hek : e.k = ⌊kk⌋ := by
      rw [← h]
      simp only [directProcess11, ho', logBin]
      norm_num
      rw [Real.sqrt_sq hr0, ← hkk, truncInt_nonneg hkk0, if_neg hfln.ne]
    refine ⟨hek ▸ hfl0, hek ▸ hfln, d', hdd, ?_⟩
    rw [hek]
    have g1 : (⌊kk⌋ : ℝ) * p.binsize ≤ Real.log r - Real.log p.minsep := by
      rw [← hkk']; exact mul_le_mul_of_nonneg_right hf1 hbs.le
    have g2 : Real.log r - Real.log p.minsep < ((⌊kk⌋ : ℝ) + 1) * p.binsize := by
      rw [← hkk']; exact mul_lt_mul_of_pos_right hf2 hbs
    have hb2 : 0 ≤ p.b ^ 2 := sq_nonneg _
    rcases hs with hs | ⟨_, hsa, hsb⟩
    · rw [hs] at hd'
      have : d' = r := by
        have := abs_nonpos_iff.1 hd'
        linarith
      rw [this]
      exact ⟨hrpos, by linarith, by linarith⟩
    · set x := (a.size + b.size) / r with hx
      have hxs : a.size + b.size = x * r := by rw [hx]; field_simp
      have hx0 : 0 ≤ x := div_nonneg hs0 hr0
      have hxa : x ≤ p.a := by rw [hx, div_le_iff₀ hrpos]; exact hsa
      have hxb : x ≤ p.b := by rw [hx, div_le_iff₀ hrpos]; exact hsb
      have hx2 : x ≤ 1 / 2 := by
        rcases hp.half with h | h
        · exact hxa.trans h
        · linarith [h.1]
      have hdlo : r * (1 - x) ≤ d' := by have := (abs_le.1 hd').1; linarith
      have hdhi : d' ≤ r * (1 + x) := by have := (abs_le.1 hd').2; linarith
      have hdpos : 0 < d' := lt_of_lt_of_le (mul_pos hrpos (by linarith)) hdlo
      have hup : Real.log d' ≤ Real.log r + x := by
        have h1 : Real.log d' ≤ Real.log (r * (1 + x)) := Real.log_le_log hdpos hdhi
        rw [Real.log_mul hrpos.ne' (by linarith)] at h1
        have h2 := Real.log_le_sub_one_of_pos (by linarith : (0:ℝ) < 1 + x)
        linarith
      have hdown : Real.log r - (x + x ^ 2) ≤ Real.log d' := by
        have h1 : Real.log (r * (1 - x)) ≤ Real.log d' :=
          Real.log_le_log (mul_pos hrpos (by linarith)) hdlo
        rw [Real.log_mul hrpos.ne' (by linarith)] at h1
        have h2 := neg_log_one_sub_le hx0 hx2
        linarith
      have hxx : x ^ 2 ≤ p.b ^ 2 := pow_le_pow_left₀ hx0 hxb 2
      exact ⟨hdpos, by linarith, by linarith⟩
  · have hok' : o.k = ⌊kk⌋ := by rw [hok, truncInt_nonneg hkk0]
    have hek : e.k = o.k := by
      rw [← h]
      simp only [directProcess11]
      have g1 : ¬ o.k < 0 := by rw [hok']; exact not_lt.2 hfl0
      have g2 : o.k ≠ p.nbins := by rw [hok']; exact hfln.ne
      simp only [g1, g2, if_false]
    rw [hek]
    refine ⟨hok' ▸ hfl0, hok' ▸ hfln, d', hdd, hdpos, ?_, (hk hlo').2⟩
    have := (hk hlo').1
    have hb2 : 0 ≤ p.b ^ 2 := sq_nonneg _
    linarith

theorem log_direct [PseudoMetricSpace P] {p : Params} (hp : LogParams p) {δ : ℝ} (hδ : 0 ≤ δ)
    {a b : Cell P} (ha : a.Bounded δ) (hb : b.Bounded δ) {R : Bool} {e : Emit P}
    (h : decide11 (logBin P) (plainMetric P) p R a b = .direct e) {o1 o2 : Obj P}
    (h1 : o1 ∈ a.objs) (h2 : o2 ∈ b.objs) :
    0 ≤ e.k ∧ e.k < p.nbins ∧ ∃ d', |dist o1.pos o2.pos - d'| ≤ 2 * δ ∧ 0 < d' ∧
      Real.log p.minsep + e.k * p.binsize - (p.b + p.b ^ 2) ≤ Real.log d' ∧
      Real.log d' < Real.log p.minsep + (e.k + 1) * p.binsize + p.b :=
  log_direct_within hp hδ (ha.within hδ) (hb.within hδ) h h1 h2

/-- A pair dropped: its separation, changed by at most `2δ`, is below `min_sep` or at least `max_sep`
up to slop. -/
theorem log_drop_within [PseudoMetricSpace P] {p : Params} (hp : LogParams p) {δ : ℝ} (hδ : 0 ≤ δ)
    {a b : Cell P} (ha : a.Within δ) (hb : b.Within δ) (hwa : a.w ≠ 0) (hwb : b.w ≠ 0) {R : Bool}
    (h : decide11 (logBin P) (plainMetric P) p R a b = .drop) {o1 o2 : Obj P}
    (h1 : o1 ∈ a.objs) (h2 : o2 ∈ b.objs) :
    ∃ d', |dist o1.pos o2.pos - d'| ≤ 2 * δ ∧
      (d' < p.minsep * Real.exp p.b ∨ p.maxsep * Real.exp (-(p.b + p.b ^ 2)) ≤ d') := by
  obtain ⟨d', hd', hdd⟩ := cells_near hδ ha hb h1 h2
  have hm := hp.minsep
  have hbs := hp.binsize
  have hbb := hp.b
  have hmx := hp.maxsep_pos
  have hb2 : 0 ≤ p.b ^ 2 := sq_nonneg _
  have hge : p.minsep ≤ p.minsep * Real.exp p.b := by
    have := Real.add_one_le_exp p.b; nlinarith
  have hle : p.maxsep * Real.exp (-(p.b + p.b ^ 2)) ≤ p.maxsep := by
    have : Real.exp (-(p.b + p.b ^ 2)) ≤ 1 := Real.exp_le_one_iff.2 (by linarith)
    nlinarith
  refine ⟨d', hdd, ?_⟩
  have hab := abs_le.1 hd'
  have hs0 : 0 ≤ a.size + b.size := add_nonneg ha.1 hb.1
  rw [decide11_plain, if_neg (by tauto)] at h
  set r := dist a.pos b.pos with hr
  have hr0 : 0 ≤ r := dist_nonneg
  split at h
  · rename_i hts
    obtain ⟨_, t2, t3⟩ := hts
    left
    have : r < p.minsep - (a.size + b.size) := lt_of_pow_lt_pow_left₀ 2 (by linarith) t3
    linarith
  split at h
  · rename_i htl
    obtain ⟨_, t3⟩ := htl
    right
    have : p.maxsep + (a.size + b.size) ≤ r := le_of_sq_le_sq t3 hr0
    linarith
  split at h
  swap
  · cases h
  rename_i o ho
  split at h
  · cases h
  rename_i hin
  simp only [logBin, not_and_or, ge_iff_le, not_le, not_lt] at ho hin
  have hcase : r < p.minsep ∨ p.maxsep ≤ r := by
    rcases hin with hin | hin
    · left; exact lt_of_pow_lt_pow_left₀ 2 hm.le hin
    · right; exact le_of_sq_le_sq hin hr0
  rcases logSingleBin_sound hp hr0 hs0 ho hd' with
    ⟨_, hs⟩ | ⟨hrpos, hdpos, _, _, hok, hk, hk'⟩
  · rcases hs with hs | ⟨hrpos, hsa, hsb⟩
    · rw [hs] at hd'
      have : d' = r := by
        have := abs_nonpos_iff.1 hd'
        linarith
      rw [this]
      rcases hcase with h | h
      · left; linarith
      · right; linarith
    · rcases hcase with h | h
      · left
        have : d' ≤ r * (1 + p.b) := by linarith
        have h3 := Real.add_one_le_exp p.b
        nlinarith
      · right
        set x := (a.size + b.size) / r with hx
        have hxs : a.size + b.size = x * r := by rw [hx]; field_simp
        have hx0 : 0 ≤ x := div_nonneg hs0 hr0
        have hxa : x ≤ p.a := by rw [hx, div_le_iff₀ hrpos]; exact hsa
        have hxb : x ≤ p.b := by rw [hx, div_le_iff₀ hrpos]; exact hsb
        have hx2 : x ≤ 1 / 2 := by
          rcases hp.half with h | h
          · exact hxa.trans h
          · linarith [h.1]
        have hdlo : r * (1 - x) ≤ d' := by linarith
        have hxx : x ^ 2 ≤ p.b ^ 2 := pow_le_pow_left₀ hx0 hxb 2
        have h4 : Real.exp (-(p.b + p.b ^ 2)) ≤ 1 - x := by
          rw [← Real.le_log_iff_exp_le (by linarith)]
          have := neg_log_one_sub_le hx0 hx2
          linarith
        calc p.maxsep * Real.exp (-(p.b + p.b ^ 2))
            ≤ r * (1 - x) := mul_le_mul h h4 (Real.exp_pos _).le hr0
          _ ≤ d' := hdlo
  · rcases hcase with h | h
    · left
      have := hk' h
      rw [← Real.log_lt_log_iff hdpos (by positivity), Real.log_mul hm.ne' (Real.exp_pos _).ne',
        Real.log_exp]
      exact this
    · right
      have hmr : p.minsep ≤ r := by
        rw [hp.maxsep] at h
        have : 1 ≤ Real.exp (p.nbins * p.binsize) := by
          apply Real.one_le_exp
          have : (0:ℝ) ≤ p.nbins := by exact_mod_cast hp.nbins
          positivity
        nlinarith
      have h5 := (hk hmr).1
      have hlr : Real.log p.minsep + p.nbins * p.binsize ≤ Real.log r := by
        rw [← hp.log_maxsep]; exact Real.log_le_log hmx h
      have hkkn : (p.nbins : ℝ) ≤ (Real.log r - Real.log p.minsep) / p.binsize := by
        rw [le_div_iff₀ hbs]; linarith
      have hkn : p.nbins ≤ o.k := by
        have hn : (0:ℝ) ≤ p.nbins := by exact_mod_cast hp.nbins
        rw [hok, truncInt_nonneg (hn.trans hkkn)]
        exact Int.le_floor.2 hkkn
      have hkn' : (p.nbins : ℝ) * p.binsize ≤ o.k * p.binsize :=
        mul_le_mul_of_nonneg_right (by exact_mod_cast hkn) hbs.le
      rw [← Real.log_le_log_iff (by positivity) hdpos, Real.log_mul hmx.ne' (Real.exp_pos _).ne',
        Real.log_exp, hp.log_maxsep]
      linarith

theorem log_drop [PseudoMetricSpace P] {p : Params} (hp : LogParams p) {δ : ℝ} (hδ : 0 ≤ δ)
    {a b : Cell P} (ha : a.Bounded δ) (hb : b.Bounded δ) (hwa : a.w ≠ 0) (hwb : b.w ≠ 0) {R : Bool}
    (h : decide11 (logBin P) (plainMetric P) p R a b = .drop) {o1 o2 : Obj P}
    (h1 : o1 ∈ a.objs) (h2 : o2 ∈ b.objs) :
    ∃ d', |dist o1.pos o2.pos - d'| ≤ 2 * δ ∧
      (d' < p.minsep * Real.exp p.b ∨ p.maxsep * Real.exp (-(p.b + p.b ^ 2)) ≤ d') :=
  log_drop_within hp hδ (ha.within hδ) (hb.within hδ) hwa hwb h h1 h2

/-- Splitting is only asked for cells with children, for any binning that accepts size-zero cells. -/
theorem safeSplit_nonneg [PseudoMetricSpace P] (B : BinHelper P) (p : Params) (R : Bool)
    (h0 : ∀ rsq p1 p2, 0 ≤ rsq → B.singleBin rsq 0 p1 p2 p ≠ none)
    (heff : ∀ rsq, 0 ≤ rsq → 0 ≤ B.effBSq rsq p) :
    SafeSplit (decide11 B (plainMetric P) p R) (fun c => 0 ≤ c.size) (fun c => 0 ≤ c.size) := by
  intro a b s1 s2 ha hb h
  rw [decide11_plain] at h
  split at h
  · cases h
  split at h
  · cases h
  split at h
  · cases h
  split at h
  · split at h <;> cases h
  rename_i ho
  injection h with h1 h2
  have hne : a.size + b.size ≠ 0 := by
    intro hz
    rw [hz] at ho
    exact h0 _ _ _ (sq_nonneg _) ho
  have h0a : 0 ≤ a.size := ha
  have h0b : 0 ≤ b.size := hb
  have key : ∀ c : Cell P, 0 < c.size → c.children.isSome := by
    intro c hc
    cases c with
    | leaf d os => simp [Cell.size] at hc
    | node d s l r => simp [Cell.children]
  have heff : 0 ≤ B.effBSq (dist a.pos b.pos ^ 2) p := heff _ (sq_nonneg _)
  have hpos : 0 < a.size + b.size := lt_of_le_of_ne (by linarith) (Ne.symm hne)
  subst h1 h2
  unfold calcSplitSq
  split
  · split
    · exact ⟨by simp, fun _ => key b (by linarith), by simp⟩
    · refine ⟨fun h => key a ?_, fun _ => key b (by linarith), by simp⟩
      simp only [decide_eq_true_eq] at h
      by_contra hn
      have : a.size = 0 := by linarith
      rw [this] at h
      nlinarith
  · split
    · exact ⟨fun _ => key a (by linarith), by simp, by simp⟩
    · refine ⟨fun _ => key a (by linarith), fun h => key b ?_, by simp⟩
      simp only [decide_eq_true_eq] at h
      by_contra hn
      have : b.size = 0 := by linarith
      rw [this] at h
      nlinarith

theorem safeSplit_of [PseudoMetricSpace P] (B : BinHelper P) (p : Params) (δ δ' : ℝ) (R : Bool)
    (h0 : ∀ rsq p1 p2, 0 ≤ rsq → B.singleBin rsq 0 p1 p2 p ≠ none)
    (heff : ∀ rsq, 0 ≤ rsq → 0 ≤ B.effBSq rsq p) :
    SafeSplit (decide11 B (plainMetric P) p R) (Cell.Bounded δ) (Cell.Bounded δ') :=
  fun a b s1 s2 ha hb he => safeSplit_nonneg B p R h0 heff a b s1 s2 ha.size_nonneg hb.size_nonneg he

theorem log_safeSplit_nonneg [PseudoMetricSpace P] (p : Params) (R : Bool) :
    SafeSplit (decide11 (logBin P) (plainMetric P) p R) (fun c => 0 ≤ c.size) (fun c => 0 ≤ c.size) := by
  apply safeSplit_nonneg
  · intro rsq p1 p2 _
    simp [logBin, logSingleBin]
  · intro rsq h
    simp only [logBin]
    have := le_min (sq_nonneg p.b) (sq_nonneg p.a)
    positivity

theorem log_safeSplit [PseudoMetricSpace P] (p : Params) (δ δ' : ℝ) (R : Bool) :
    SafeSplit (decide11 (logBin P) (plainMetric P) p R) (Cell.Bounded δ) (Cell.Bounded δ') := by
  apply safeSplit_of
  · intro rsq p1 p2 _
    simp [logBin, logSingleBin]
  · intro rsq h
    simp only [logBin]
    have := le_min (sq_nonneg p.b) (sq_nonneg p.a)
    positivity

theorem linear_safeSplit [PseudoMetricSpace P] (p : Params) (hb : 0 ≤ p.b) (δ δ' : ℝ) (R : Bool) :
    SafeSplit (decide11 (linearBin P) (plainMetric P) p R) (Cell.Bounded δ) (Cell.Bounded δ') := by
  apply safeSplit_of
  · intro rsq p1 p2 h
    have h1 : ¬ ((0:ℝ) ^ 2 > p.a ^ 2 * rsq) := by
      have : 0 ≤ p.a ^ 2 * rsq := by positivity
      simpa using this
    simp only [linearBin, linearSingleBin, if_neg h1, if_pos hb]
    simp
  · intro rsq h
    simp only [linearBin]
    exact le_min (sq_nonneg p.b) (by positivity)

theorem twoD_safeSplit (p : Params) (hb : 0 ≤ p.b) (δ δ' : ℝ) (R : Bool) :
    SafeSplit (decide11 twoDBin (plainMetric Flat2) p R) (Cell.Bounded δ) (Cell.Bounded δ') := by
  apply safeSplit_of
  · intro rsq p1 p2 h
    have h1 : ¬ ((0:ℝ) ^ 2 > p.a ^ 2 * rsq) := by
      have : 0 ≤ p.a ^ 2 * rsq := by positivity
      simpa using this
    simp only [twoDBin, twoDSingleBin, if_neg h1, if_pos hb]
    simp
  · intro rsq h
    simp only [twoDBin]
    exact le_min (sq_nonneg p.b) (by positivity)

end TreeCorr
