import Verif.Spec.Aperture

/-!
The product of three aperture masses in the plane, without the code.
-/

namespace TreeCorr.Map3

open scoped ComplexConjugate
open Aperture

noncomputable section

/-- The weight of the shear at the displacement `z` from the centre in `Map + i Mx` for an aperture of radius `k`
(the 'Crittenden' form). -/
def apertureFilter (k : ℝ) (z : ℂ) : ℂ := 1 / (k : ℂ) ^ 2 * shearFilter critQ (z / k)

/-- The weight of the product of the shears at three points in `(2 π)²` times the mean over the centre of the product of
three apertures with the same centre and with the filters `F1`, `F2`, `F3`. -/
def kernel3 (F1 F2 F3 : ℂ → ℂ) (p1 p2 p3 : ℂ) : ℂ := (2 * Real.pi) ^ 2 * ∫ x : ℂ, F1 (p1 - x) * F2 (p2 - x) * F3 (p3 - x)

/-- The filter of the conjugate aperture mass `Map - i Mx`, which multiplies the conjugate shear. -/
def conjFilter (F : ℂ → ℂ) (z : ℂ) : ℂ := conj (F z)

/-- The centroid. -/
def centroid (p1 p2 p3 : ℂ) : ℂ := (p1 + p2 + p3) / 3

/-- A shear at `p` relative to the direction from `p` to `c`. -/
def relTo (c p g : ℂ) : ℂ := g * (conj (c - p) / (c - p))

/-- The points of a triangle. -/
structure Tri where
  p1 : ℂ
  p2 : ℂ
  p3 : ℂ

/-- None of the points is the centroid (one could be if the points are on a line). -/
structure Tri.Proper (t : Tri) : Prop where
  n1 : t.p1 ≠ centroid t.p1 t.p2 t.p3
  n2 : t.p2 ≠ centroid t.p1 t.p2 t.p3
  n3 : t.p3 ≠ centroid t.p1 t.p2 t.p3

/-- Twice the area, positive if the points 1, 2, 3 are counter-clockwise. -/
def Tri.turn (t : Tri) : ℝ := (conj (t.p2 - t.p1) * (t.p3 - t.p1)).im

/-- The factor of a product of three shears at the points of a triangle when each is taken relative to the direction to the
centroid.  `none`: none of the three is conjugated, `some i`: the one at the point `i` is. -/
def Tri.phase (t : Tri) (i : Option (Fin 3)) : ℂ :=
  let c := centroid t.p1 t.p2 t.p3
  let F (j : Fin 3) (p : ℂ) : ℂ := if i = some j then conj (relTo c p 1) else relTo c p 1
  F 0 t.p1 * F 1 t.p2 * F 2 t.p3

/-- The filter of aperture number `a`, conjugated if it is the one of number `j`. -/
def filterNo (k : Fin 3 → ℝ) (j : Option (Fin 3)) (a : Fin 3) : ℂ → ℂ :=
  if j = some a then conjFilter (apertureFilter (k a)) else apertureFilter (k a)

/-- The point that aperture `j` acts on if the apertures `a`, `b`, `c` act on the points 1, 2, 3. -/
def pointOf (j : Option (Fin 3)) (a b c : Fin 3) : Option (Fin 3) :=
  if j = some a then some 0 else if j = some b then some 1 else if j = some c then some 2 else none

/-- What a triangle, with the mean products `Z` of the shears at its points, contributes to the mean of the product of the
three aperture masses of radii `k` (the one of number `j` conjugated) if the apertures `a`, `b`, `c` act on the points 1, 2, 3. -/
def contribution (k : Fin 3 → ℝ) (j : Option (Fin 3)) (t : Tri) (Z : Option (Fin 3) → ℂ) (a b c : Fin 3) : ℂ :=
  kernel3 (filterNo k j a) (filterNo k j b) (filterNo k j c) t.p1 t.p2 t.p3 * Z (pointOf j a b c)

/-- The sum over all ways in which the apertures can act on the points of the triangle. -/
def allWays (f : Fin 3 → Fin 3 → Fin 3 → ℂ) : ℂ := f 0 1 2 + f 0 2 1 + f 1 0 2 + f 1 2 0 + f 2 0 1 + f 2 1 0

/-- The sum over the two ways in which aperture 0 acts on the first point. -/
def firstWays (f : Fin 3 → Fin 3 → Fin 3 → ℂ) : ℂ := f 0 1 2 + f 0 2 1

end

end TreeCorr.Map3
