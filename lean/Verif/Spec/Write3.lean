import Verif.Model.Write3

/-!
# Files of three-point correlations: what it means that an object was restored

`Core.stored f` is an object whose numbers went through the printing `f`; errors are stored as their
square root.
-/

namespace TreeCorr
namespace IO3

open TreeCorr.IO (Arr Val Dict isShape)

/-- The data of an object after each number was printed and read again by `f`. -/
noncomputable def Core.stored (f : ℝ → ℝ) (c : Core) : Core :=
  { c with
    means := c.means.map (List.map f)
    weight := c.weight.map (List.map f)
    ntri := c.ntri.map f
    xi := c.xi.map (List.map f)
    var := c.var.map (List.map fun v => f (Real.sqrt v) ^ 2) }

/-- Two patch results hold the same data. For the NNN class `zeta` is not part of the data of a
patch result: it is computed from the sums over patches. -/
structure SameData (K : Kind) (a b : Core) : Prop where
  coords : a.coords = b.coords
  metric : a.metric = b.metric
  means : a.means = b.means
  weight : a.weight = b.weight
  ntri : a.ntri = b.ntri
  tot : a.tot = b.tot
  xi : K.nn = false → a.xi = b.xi ∧ a.var = b.var

/-- The arrays have the shape of the bins, and the object was processed. -/
structure Core.WF (K : Kind) (n : ℕ) (c : Core) : Prop where
  means : c.means.length = K.means.length ∧ ∀ a ∈ c.means, a.length = n
  weight : c.weight.length = K.weight.length ∧ ∀ a ∈ c.weight, a.length = n
  ntri : c.ntri.length = n
  /-- `zeta` is there, except that NNN has it only after `calculateZeta` -/
  comps : (c.xi.length = K.xi.length ∧ c.var.length = K.sigma.length) ∨
    (K.nn = true ∧ c.xi = [] ∧ c.var = [])
  xi : ∀ a ∈ c.xi, a.length = n
  var : ∀ a ∈ c.var, a.length = n
  coords : c.coords.isSome
  metric : c.metric.isSome
  /-- only NNN has `tot` -/
  tot : K.nn = false → c.tot = 0

/-- What `process` leaves behind. -/
structure Corr.WF (K : Kind) (x : Corr) : Prop where
  nom : ∀ a ∈ x.nom, a.length = size x.nom
  core : x.core.WF K (size x.nom)
  results : ∀ r ∈ x.results, r.2.WF K (size x.nom)
  keys : (x.results.map Prod.fst).Nodup
  /-- patch triples without counted triangles hold zeros -/
  zeros : ∀ r ∈ x.results, K.nn = true → ¬ r.2.nonzero →
    r.2 = { coords := x.core.coords, metric := x.core.metric
            means := K.means.map fun _ => List.replicate (size x.nom) 0
            weight := K.weight.map fun _ => List.replicate (size x.nom) 0
            ntri := List.replicate (size x.nom) 0, xi := [], var := [], tot := r.2.tot }
  /-- the covariance is a square matrix -/
  cov : ∀ m, x.cov = some m → ∃ k, 0 < k ∧ isShape (k, k) m

/-- The variances are not negative. -/
def Core.VarOK (c : Core) : Prop := ∀ a ∈ c.var, ∀ v ∈ a, 0 ≤ v

/-- The columns RRR, DRR, RDD. -/
structure ExtraOK (n : ℕ) (extra : List (String × Arr)) : Prop where
  names : (extra.map Prod.fst).Sublist ["RRR", "DRR", "RDD"]
  lens : ∀ c ∈ extra, c.2.length = n

/-- The parameter values `x` was made with; the metric is the one used by `process`, which is not
necessarily the one in the config. -/
def Corr.settings (x : Corr) : Dict :=
  effective (match x.core.metric with
    | some m => x.cfg.set "metric" (.str m)
    | none => x.cfg)

/-- `x` has the bins that its parameters ask for. -/
def Made (mk : Dict → Option (List Arr)) (x : Corr) : Prop :=
  mk x.settings = some x.nom ∧ binType x.settings = some x.bin

/-- `y` is `x` restored from a file: the data, bins and settings; with `wpr` the patch results, as a
dict; with `wcov` the covariance.  `f`, `g`, `h` say what printing did to the numbers. -/
structure Restored (K : Kind) (f g : Core → Core) (h : ℝ → ℝ) (wpr wcov : Bool) (x y : Corr) : Prop where
  core : y.core = f x.core
  nom : y.nom = x.nom
  bin : y.bin = x.bin
  settings : effective y.cfg = x.settings
  npatch : wpr = true → y.npatch1 = x.npatch1 ∧ y.npatch2 = x.npatch2 ∧ y.npatch3 = x.npatch3
  keys : wpr = true → (y.results.map Prod.fst).Perm (x.results.map Prod.fst)
  results : wpr = true → ∀ k c, (k, c) ∈ x.results → ∃ c', (k, c') ∈ y.results ∧ SameData K c' (g c)
  cov : wcov = true → y.cov = x.cov.map (List.map (List.map h))

/-- The same for a correlation of randoms kept by an NNN object. -/
structure RestoredRan (K : Kind) (g h : Core → Core) (x y : Corr) : Prop where
  core : SameData K y.core (g x.core)
  npatch : y.npatch1 = x.npatch1 ∧ y.npatch2 = x.npatch2 ∧ y.npatch3 = x.npatch3
  keys : (y.results.map Prod.fst).Perm (x.results.map Prod.fst)
  results : ∀ k c, (k, c) ∈ x.results → ∃ c', (k, c') ∈ y.results ∧ SameData K c' (h c)

/-- What an NNN object must satisfy: its randoms have the same bins. -/
structure CorrNNN.WF (x : CorrNNN) : Prop where
  main : x.main.WF (kind .nnn x.main.bin)
  ran : ∀ y, x.rrr = some y ∨ x.drr = some y ∨ x.rdd = some y →
    y.WF (kind .nnn x.main.bin) ∧ y.nom = x.main.nom

end IO3
end TreeCorr
