import Verif.Model.Write

/-!
# Files: what it means that an object was restored

`Core.stored f` is an object whose numbers went through the printing `f`; errors are stored as their
square root.
-/

namespace TreeCorr
namespace IO

/-- The data of an object after each number was printed and read again by `f`. -/
noncomputable def Core.stored (f : ℝ → ℝ) (c : Core) : Core :=
  { c with
    meanr := c.meanr.map f
    meanlogr := c.meanlogr.map f
    weight := c.weight.map f
    npairs := c.npairs.map f
    xi := c.xi.map (List.map f)
    var := c.var.map (List.map fun v => f (Real.sqrt v) ^ 2) }

/-- Two patch results hold the same data. For the NN class `xi` is not part of the data of a patch
result: it is computed from the sums over patches. -/
structure SameData (K : Kind) (a b : Core) : Prop where
  coords : a.coords = b.coords
  metric : a.metric = b.metric
  meanr : a.meanr = b.meanr
  meanlogr : a.meanlogr = b.meanlogr
  weight : a.weight = b.weight
  npairs : a.npairs = b.npairs
  tot : a.tot = b.tot
  xi : K.nn = false → a.xi = b.xi ∧ a.var = b.var

/-- The arrays have the shape of the bins, and the object was processed. -/
structure Core.WF (K : Kind) (n : ℕ) (c : Core) : Prop where
  meanr : c.meanr.length = n
  meanlogr : c.meanlogr.length = n
  weight : c.weight.length = n
  npairs : c.npairs.length = n
  /-- `xi` is there, except that NN has it only after `calculateXi` -/
  comps : (c.xi.length = K.xi.length ∧ c.var.length = K.sigma.length) ∨
    (K.nn = true ∧ c.xi = [] ∧ c.var = [])
  xi : ∀ a ∈ c.xi, a.length = n
  var : ∀ a ∈ c.var, a.length = n
  coords : c.coords.isSome
  metric : c.metric.isSome
  /-- only NN has `tot` -/
  tot : K.nn = false → c.tot = 0

/-- What `process` leaves behind. -/
structure Corr.WF (K : Kind) (x : Corr) : Prop where
  core : x.core.WF K x.rnom.length
  results : ∀ r ∈ x.results, r.2.WF K x.rnom.length
  keys : (x.results.map Prod.fst).Nodup
  /-- patch pairs without counted pairs hold zeros -/
  zeros : ∀ r ∈ x.results, K.nn = true → ¬ r.2.nonzero →
    r.2 = { coords := x.core.coords, metric := x.core.metric, meanr := List.replicate x.rnom.length 0,
            meanlogr := List.replicate x.rnom.length 0, weight := List.replicate x.rnom.length 0,
            npairs := List.replicate x.rnom.length 0, xi := [], var := [], tot := r.2.tot }
  /-- the covariance is a square matrix -/
  cov : ∀ m, x.cov = some m → ∃ k, 0 < k ∧ isShape (k, k) m

/-- The variances are not negative. -/
def Core.VarOK (c : Core) : Prop := ∀ a ∈ c.var, ∀ v ∈ a, 0 ≤ v

/-- The columns RR, DR, RD. -/
structure ExtraOK (n : ℕ) (extra : List (String × Arr)) : Prop where
  names : (extra.map Prod.fst).Sublist ["RR", "DR", "RD"]
  lens : ∀ c ∈ extra, c.2.length = n

/-- The parameter values `x` was made with; the metric is the one used by `process`, which is not
necessarily the one in the config. -/
def Corr.settings (x : Corr) : Dict :=
  effective (match x.core.metric with
    | some m => x.cfg.set "metric" (.str m)
    | none => x.cfg)

/-- `y` is `x` restored from a file: the data, bins and settings; with `wpr` the patch results, as a
dict; with `wcov` the covariance.  `f`, `g`, `h` say what printing did to the numbers. -/
structure Restored (K : Kind) (f g : Core → Core) (h : ℝ → ℝ) (wpr wcov : Bool) (x y : Corr) : Prop where
  core : y.core = f x.core
  rnom : y.rnom = x.rnom
  settings : effective y.cfg = x.settings
  npatch : wpr = true → y.npatch1 = x.npatch1 ∧ y.npatch2 = x.npatch2
  keys : wpr = true → (y.results.map Prod.fst).Perm (x.results.map Prod.fst)
  results : wpr = true → ∀ k c, (k, c) ∈ x.results → ∃ c', (k, c') ∈ y.results ∧ SameData K c' (g c)
  cov : wcov = true → y.cov = x.cov.map (List.map (List.map h))

/-- The same for a correlation of randoms kept by an NN object. -/
structure RestoredRan (g h : Core → Core) (x y : Corr) : Prop where
  core : SameData kindNN y.core (g x.core)
  npatch : y.npatch1 = x.npatch1 ∧ y.npatch2 = x.npatch2
  keys : (y.results.map Prod.fst).Perm (x.results.map Prod.fst)
  results : ∀ k c, (k, c) ∈ x.results → ∃ c', (k, c') ∈ y.results ∧ SameData kindNN c' (h c)

/-- Both there or both not there. -/
def OptRel {α β : Type} (R : α → β → Prop) : Option α → Option β → Prop
  | none, none => True
  | some a, some b => R a b
  | _, _ => False

end IO
end TreeCorr
