import Verif.Proofs.Arc
import Verif.Proofs.NearArgs
import Verif.Props.Near

/-!
C84: the arguments of neighbour queries.
-/

namespace TreeCorr
namespace NearArgs
open Classical
noncomputable section

/-- **C84.** The calls that are accepted are the documented ones, each with the documented meaning. -/
theorem accepted_iff (c : Coords) (args : List Arg) (k : Kw) (res : ℝ × ℝ × ℝ × ℝ) :
    parse c args k = .ok res ↔ Call c args k res :=
  ⟨call_of_parse, parse_of_call⟩

/-- **C84.** Every other call is a TypeError or a ValueError. -/
theorem rejected_iff (c : Coords) (args : List Arg) (k : Kw) :
    (¬ ∃ res, Call c args k res) ↔ parse c args k = .error .typeError ∨ parse c args k = .error .valueError := by
  constructor
  · intro h
    cases e : parse c args k with
    | ok res => exact absurd ⟨res, call_of_parse e⟩ h
    | error e' => rcases soft_parse c args k e' e with rfl | rfl <;> simp
  · rintro h ⟨res, hr⟩
    rw [parse_of_call hr] at h
    simp at h

/-- **C84.** No call has two meanings. -/
theorem meaning_unique {c : Coords} {args : List Arg} {k : Kw} {res res' : ℝ × ℝ × ℝ × ℝ} (h : Call c args k res)
    (h' : Call c args k res') : res = res' := by
  have := (parse_of_call h).symm.trans (parse_of_call h')
  simpa using this

/-- The direction with this right ascension and declination. -/
def direction (ra dec : ℝ) : EuclideanSpace ℝ (Fin 3) :=
  pt3 (Real.cos dec * Real.cos ra) (Real.cos dec * Real.sin ra) (Real.sin dec)

theorem norm_direction (ra dec : ℝ) : ‖direction ra dec‖ = 1 := by
  rw [EuclideanSpace.norm_eq, Real.sqrt_eq_one]
  simp only [direction, pt3, Fin.sum_univ_three, Real.norm_eq_abs, sq_abs]
  have h1 := Real.sin_sq_add_cos_sq ra
  have h2 := Real.sin_sq_add_cos_sq dec
  simp
  nlinarith

/-- Chords and angles are in the same order up to 180 degrees. -/
theorem chord_le_iff {p q : EuclideanSpace ℝ (Fin 3)} (hp : ‖p‖ = 1) (hq : ‖q‖ = 1) {s : ℝ} (h0 : 0 ≤ s) (h1 : s ≤ Real.pi) :
    dist p q ≤ chord s ↔ InnerProductGeometry.angle p q ≤ s := by
  have a0 := InnerProductGeometry.angle_nonneg p q
  have a1 := InnerProductGeometry.angle_le_pi p q
  rw [dist_eq_norm, chord_arc hp hq, chord, mul_le_mul_iff_right₀ (by norm_num : (0 : ℝ) < 2),
    Real.strictMonoOn_sin.le_iff_le ⟨by linarith, by linarith⟩ ⟨by linarith, by linarith⟩]
  constructor <;> intro h <;> linarith

/-- **C84, partial.** On the sphere, however the call is spelt: a catalogue of unit vectors, a field built with `min_size = 0`, a
separation between 0 and 180 degrees: `get_near` returns the rows whose angle from the direction named is at most the separation
named, and `count_near` their number.
Missing: separations over 180 degrees, where it is false (`large_sep_wrong`); `min_size > 0` (see C12). -/
theorem near_sky_partial (A : StdAlg _) (fp : FieldParams) (hm : fp.minsize = 0) (rows : List (Obj (EuclideanSpace ℝ (Fin 3))))
    (hr : Numbered rows) (hu : ∀ o ∈ rows, ‖o.pos‖ = 1) (args : List Arg) (k : Kw) (a d s : Ang) (h : OnSky args k a d s)
    (hd : IsDec d.rad) (h0 : 0 ≤ s.rad) (h1 : s.rad ≤ Real.pi) :
    ∃ x y z t, parse .sphere args k = .ok (x, y, z, t) ∧
      (buildField A sphereGeom fp rows).getNearPy fp.minsize rows (pt3 x y z) t
        = some (rowsWhere rows (fun p => InnerProductGeometry.angle p (direction a.rad d.rad) ≤ s.rad)) ∧
      (buildField A sphereGeom fp rows).countNearPy fp.minsize rows (pt3 x y z) t
        = some (rowsWhere rows (fun p => InnerProductGeometry.angle p (direction a.rad d.rad) ≤ s.rad)).length := by
  refine ⟨_, _, _, _, parse_of_call (.sky args k a d s h hd), ?_⟩
  have hp : pt3 (Real.cos d.rad * Real.cos a.rad * 1) (Real.cos d.rad * Real.sin a.rad * 1) (Real.sin d.rad * 1)
      = direction a.rad d.rad := by simp [direction]
  rw [hp]
  have hc : 0 ≤ chord s.rad := mul_nonneg (by norm_num) (Real.sin_nonneg_of_nonneg_of_le_pi (by linarith) (by linarith))
  have e : rowsWhere rows (fun p => InnerProductGeometry.angle p (direction a.rad d.rad) ≤ s.rad)
      = rowsWhere rows (fun p => dist p (direction a.rad d.rad) ≤ chord s.rad) := by
    unfold rowsWhere
    refine List.filter_congr fun i _ => ?_
    rw [decide_eq_decide]
    refine exists_congr fun o => and_congr_right fun ho => ?_
    exact (chord_le_iff (hu o (List.mem_of_getElem? ho)) (norm_direction _ _) h0 h1).symm
  rw [e]
  exact near_exact_partial A _ sphereGeom_dominates fp hm rows hr _ _ hc

/-- **C84, partial.** In space, `min_size = 0`: the rows at distance at most `sep` of the point, given by `x`, `y`, `z` or by `ra`, `dec`, `r`. -/
theorem near_space_partial (A : StdAlg _) (fp : FieldParams) (hm : fp.minsize = 0) (rows : List (Obj (EuclideanSpace ℝ (Fin 3))))
    (hr : Numbered rows) (args : List Arg) (k : Kw) (x y z s : ℝ) (h : Call .threeD args k (x, y, z, s)) (h0 : 0 ≤ s) :
    ∃ x' y' z' s', parse .threeD args k = .ok (x', y', z', s') ∧
      (buildField A (euclidGeom 3) fp rows).getNearPy fp.minsize rows (pt3 x' y' z') s'
        = some (rowsWhere rows (fun p => dist p (pt3 x y z) ≤ s)) ∧
      (buildField A (euclidGeom 3) fp rows).countNearPy fp.minsize rows (pt3 x' y' z') s'
        = some (rowsWhere rows (fun p => dist p (pt3 x y z) ≤ s)).length :=
  ⟨x, y, z, s, parse_of_call h, near_exact_partial A _ (euclidGeom_dominates 3) fp hm rows hr _ _ h0⟩

/-- **C84, negation.** A separation of 360 degrees, which every direction is within: its chord is 0, and the opposite direction is not
found. -/
theorem large_sep_wrong : ∃ (rows : List (Obj (EuclideanSpace ℝ (Fin 3)))) (args : List Arg) (k : Kw) (a d s : Ang) (x y z t : ℝ),
    OnSky args k a d s ∧ IsDec d.rad ∧ s.rad = 2 * Real.pi ∧ (∀ o ∈ rows, ‖o.pos‖ = 1) ∧
    rowsWhere rows (fun p => InnerProductGeometry.angle p (direction a.rad d.rad) ≤ s.rad) = [0] ∧
    parse .sphere args k = .ok (x, y, z, t) ∧
    ∀ (A : StdAlg _) (fp : FieldParams), fp.minsize = 0 →
      (buildField A sphereGeom fp rows).getNearPy fp.minsize rows (pt3 x y z) t = some [] := by
  have hI : IsDec (Ang.angle 0).rad := ⟨by simp [Ang.rad]; positivity, by simp [Ang.rad]; positivity⟩
  have hu : ‖pt3 (-1) 0 0‖ = 1 := by
    rw [EuclideanSpace.norm_eq, Real.sqrt_eq_one]
    simp [pt3, Fin.sum_univ_three]
  refine ⟨[ob3 (-1) 0 0 0], _, _, .angle 0, .angle 0, .units 360 (Real.pi / 180), _, _, _, _, .all _ _ _, hI, ?_, ?_, ?_,
    parse_of_call (.sky _ _ _ _ _ (.all _ _ _) hI), fun A fp hm => ?_⟩
  · simp only [Ang.rad]; ring
  · intro o ho
    rw [List.mem_singleton.1 ho]
    exact hu
  · have : InnerProductGeometry.angle (pt3 (-1) 0 0) (direction 0 0) ≤ 360 * (Real.pi / 180) := by
      have := InnerProductGeometry.angle_le_pi (pt3 (-1) 0 0) (direction 0 0)
      have := Real.pi_pos
      linarith
    simp [rowsWhere, Ang.rad, ob3, this]
  · have hc : chord (Ang.units 360 (Real.pi / 180)).rad = 0 := by
      have : (360 : ℝ) * (Real.pi / 180) / 2 = Real.pi := by ring
      simp [chord, Ang.rad, this]
    rw [hc, (near_exact_partial A _ sphereGeom_dominates fp hm _ (numbered_one _ rfl) _ 0 le_rfl).1]
    congr 1
    have : ¬ dist (ob3 (-1) 0 0 0).pos (pt3 1 0 0) ≤ 0 := by
      have e : (ob3 (-1) 0 0 0).pos = pt3 (-1) 0 0 := rfl
      rw [e, dist_pt3, not_le]
      norm_num
    simp only [rowsWhere, List.length_cons, List.length_nil, List.filter_eq_nil_iff]
    intro i hi
    simp only [zero_add, List.mem_range, Nat.lt_one_iff] at hi
    subst hi
    simpa [Ang.rad] using this

/-- **C84.** What is left over is refused: units for an angle that has its own, `sep_units` off the sphere, and keywords nobody knows. -/
theorem leftovers_refused (c : Coords) (args : List Arg) (k : Kw) :
    (k.other = true → ¬ ∃ res, Call c args k res) ∧ (c ≠ .sphere → k.sepU ≠ none → ¬ ∃ res, Call c args k res) ∧
    (c = .flat → (k.raU ≠ none ∨ k.decU ≠ none) → ¬ ∃ res, Call c args k res) := by
  refine ⟨?_, ?_, ?_⟩
  · rintro h ⟨res, hr⟩
    cases hr with
    | sky _ _ _ _ _ hs => cases hs <;> simp at h
    | _ => simp at h
  · rintro hc h ⟨res, hr⟩
    cases hr with
    | sky => exact hc rfl
    | _ => simp at h
  · rintro rfl h ⟨res, hr⟩
    cases hr <;> simp at h

/-! ### Cases -/

/-- The keywords `ra=60, dec=-45, sep=30`, all in degrees. -/
def exKw : Kw where
  ra := some (.num 60)
  dec := some (.num (-45))
  sep := some (.num 30)
  raU := some (some (Real.pi / 180))
  decU := some (some (Real.pi / 180))
  sepU := some (some (Real.pi / 180))

/-- Two spellings of the same question. -/
example : ∃ res, parse .sphere [] exKw = .ok res ∧
    parse .sphere [.coord (60 * (Real.pi / 180)) (-45 * (Real.pi / 180)), .angle (30 * (Real.pi / 180))] {} = .ok res := by
  have hI : IsDec (Ang.units (-45) (Real.pi / 180)).rad := by
    have := Real.pi_pos
    constructor <;> simp only [Ang.rad] <;> linarith
  have h1 : OnSky [] exKw (.units 60 (Real.pi / 180)) (.units (-45) (Real.pi / 180)) (.units 30 (Real.pi / 180)) := OnSky.named
    (.units 60 (Real.pi / 180)) (.units (-45) (Real.pi / 180)) (.units 30 (Real.pi / 180))
  have h2 := OnSky.coordAll (60 * (Real.pi / 180)) (-45 * (Real.pi / 180)) (.angle (30 * (Real.pi / 180)))
  have e1 := parse_of_call (.sky _ _ _ _ _ h1 hI)
  have e2 := parse_of_call (.sky _ _ _ _ _ h2 hI)
  simp only [Ang.rad, Ang.arg, Ang.unit] at e1 e2
  exact ⟨_, e1, e2⟩

/-- The same four numbers: with units, right ascension, declination and distance; without, `x`, `y`, `z`. -/
example : parse .threeD [.num 0, .num 0, .num 5, .num 1] { raU := some (some 1), decU := some (some 1) } = .ok (5, 0, 0, 1) ∧
    parse .threeD [.num 0, .num 0, .num 5, .num 1] {} = .ok (0, 0, 5, 1) := by
  have hI : IsDec (Ang.units 0 1).rad := by
    have := Real.pi_pos
    constructor <;> simp only [Ang.rad] <;> linarith
  refine ⟨?_, parse_of_call (.xyz4 0 0 5 1)⟩
  have := parse_of_call (.radec4 (.units 0 1) (.units 0 1) 5 1 hI)
  simpa [Ang.arg, Ang.unit, Ang.rad, skyPoint] using this

/-- A case of `near_sky_partial`: two opposite directions, 90 degrees around the first. -/
example (A : StdAlg _) (fp : FieldParams) (hm : fp.minsize = 0) :
    ∃ x y z t, parse .sphere [.coord 0 0] { sep := some (.num 90), sepU := some (some (Real.pi / 180)) } = .ok (x, y, z, t) ∧
      (buildField A sphereGeom fp [ob3 1 0 0 0, ob3 (-1) 0 0 1]).getNearPy fp.minsize [ob3 1 0 0 0, ob3 (-1) 0 0 1] (pt3 x y z) t
        = some [0] := by
  have hI : IsDec (Ang.angle 0).rad := ⟨by simp [Ang.rad]; positivity, by simp [Ang.rad]; positivity⟩
  have hn : ∀ x : ℝ, x ^ 2 = 1 → ‖pt3 x 0 0‖ = 1 := by
    intro x hx
    rw [EuclideanSpace.norm_eq, Real.sqrt_eq_one]
    simp [pt3, Fin.sum_univ_three, hx]
  have hr : Numbered [ob3 1 0 0 0, ob3 (-1) 0 0 1] := by
    intro i o ho
    match i with
    | 0 => simp at ho; rw [← ho]; rfl
    | 1 => simp at ho; rw [← ho]; rfl
    | i + 2 => simp at ho
  have hpi := Real.pi_pos
  obtain ⟨x, y, z, t, h1, h2, -⟩ := near_sky_partial A fp hm _ hr
    (by
      intro o ho
      simp only [List.mem_cons, List.not_mem_nil, or_false] at ho
      rcases ho with rfl | rfl
      · exact hn 1 (by norm_num)
      · exact hn (-1) (by norm_num))
    _ _ _ _ (.units 90 (Real.pi / 180)) (.coord 0 0 _) hI (by simp only [Ang.rad]; positivity) (by simp only [Ang.rad]; linarith)
  refine ⟨x, y, z, t, h1, h2.trans ?_⟩
  congr 1
  have hdir : direction 0 0 = pt3 1 0 0 := by simp [direction]
  have ha : InnerProductGeometry.angle (pt3 1 0 0) (pt3 1 0 0) = 0 :=
    InnerProductGeometry.angle_self (by intro h; have := hn 1 (by norm_num); rw [h] at this; simp at this)
  have hb : InnerProductGeometry.angle (pt3 (-1) 0 0) (pt3 1 0 0) = Real.pi := by
    have : pt3 (-1) 0 0 = - pt3 1 0 0 := by
      ext i; fin_cases i <;> simp [pt3]
    rw [this]
    exact InnerProductGeometry.angle_neg_self_of_nonzero (by intro h; have := hn 1 (by norm_num); rw [h] at this; simp at this)
  have e0 : (0 : ℝ) ≤ 90 * (Real.pi / 180) := by positivity
  have e1 : ¬ Real.pi ≤ 90 * (Real.pi / 180) := by linarith
  simp [rowsWhere, List.range_succ, List.filter, Ang.rad, hdir, ob3, ha, hb, e0, e1]

end
end NearArgs
end TreeCorr
