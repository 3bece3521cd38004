import Verif.Model.Binning

/-!
Model of the choice of metric and coordinate system: `parse_metric`, `_set_metric`, the enums of the
C++ layer and the instantiation of the templates.
-/

namespace TreeCorr

/-- `parse_metric`, `/repo/treecorr/util.py:291-337`.  Coordinate systems and metrics are strings, `none` is Python's
`None`.  The last `else` of the `Arc` branch cannot be reached and is left out. -/
def parseMetric (metric coords : String) (coords2 coords3 : Option String) : Except PyErr (String × String) :=
  let auto := coords2.isNone
  let cross : Except PyErr String :=
    if auto then .ok coords
    else
      let coords2 := if metric = "Rlens" ∧ coords2 = some "spherical" then some "3d" else coords2
      let coords3 := if metric = "Rlens" ∧ coords3 = some "spherical" then some "3d" else coords3
      if metric = "Arc" then
        let all := [some coords, coords2, coords3]
        if all.all (fun c => c = none ∨ c = some "3d") then .ok coords
        else if all.any (fun c => ¬ (c = none ∨ c = some "spherical" ∨ c = some "3d")) then .error .valueError
        else .ok "spherical"
      else if coords2 ≠ some coords ∨ (coords3 ≠ none ∧ coords3 ≠ some coords) then .error .valueError
      else .ok coords
  match cross with
  | .error e => .error e
  | .ok coords =>
    if coords ∉ ["flat", "spherical", "3d"] then .error .valueError
    else if metric ∉ ["Euclidean", "Rperp", "OldRperp", "FisherRperp", "Rlens", "Arc", "Periodic"] then .error .valueError
    else if metric ∈ ["Rperp", "OldRperp", "FisherRperp"] ∧ coords ≠ "3d" then .error .valueError
    else if metric = "Rlens" ∧ auto then .error .valueError
    else if metric = "Rlens" ∧ coords ≠ "3d" then .error .valueError
    else if metric = "Arc" ∧ coords ∉ ["spherical", "3d"] then .error .valueError
    else .ok (coords, metric)

/-- The settings of a two-point correlation that `_set_metric` looks at.  `rparSet` says that `min_rpar` or `max_rpar` is not
its default; `xp`, `yp`, `zp` say that the period is not 0. -/
structure MetricSettings where
  twoD : Bool
  sepUnits : Bool
  rparSet : Bool
  xp : Bool
  yp : Bool
  zp : Bool

/-- `Corr2._set_metric`, `/repo/treecorr/corr2base.py:1365-1387` (with `metric` given), without the warnings. -/
def setMetric (S : MetricSettings) (metric coords1 : String) (coords2 : Option String) :
    Except PyErr (String × String) :=
  match parseMetric metric coords1 coords2 none with
  | .error e => .error e
  | .ok (coords, metric) =>
    if coords ≠ "3d" ∧ S.rparSet then .error .valueError
    else if S.twoD ∧ (coords ≠ "flat" ∨ metric ≠ "Euclidean") then .error .valueError
    else if S.sepUnits ∧ coords = "3d" ∧ metric ≠ "Arc" then .error .valueError
    else if metric = "Periodic" then
      if S.xp = false ∨ S.yp = false ∨ (coords = "3d" ∧ S.zp = false) then .error .valueError
      else .ok (coords, metric)
    else if S.xp ∨ S.yp ∨ S.zp then .error .valueError
    else .ok (coords, metric)

/-- `enum Coord`, `/repo/include/Position.h`. -/
inductive CCoord where
  | flat | sphere | threeD
deriving DecidableEq

/-- `enum Metric`, `/repo/include/Metric.h:29`. -/
inductive CMetric where
  | euclidean | rperp | rlens | arc | oldRperp | periodic
deriving DecidableEq

/-- `coord_enum`, util.py:340-350. -/
def coordEnum (c : String) : Except PyErr CCoord :=
  if c = "flat" then .ok .flat
  else if c = "spherical" then .ok .sphere
  else if c = "3d" then .ok .threeD
  else .error .valueError

/-- `metric_enum`, util.py:352-369, where `Rperp_alias` is `"FisherRperp"` (`/repo/treecorr/__init__.py`). -/
def metricEnum (m : String) : Except PyErr CMetric :=
  if m = "Euclidean" then .ok .euclidean
  else if m = "Rperp" ∨ m = "FisherRperp" then .ok .rperp
  else if m = "OldRperp" then .ok .oldRperp
  else if m = "Rlens" then .ok .rlens
  else if m = "Arc" then .ok .arc
  else if m = "Periodic" then .ok .periodic
  else .error .valueError

/-- The enums `_Flat`, `_ThreeD`, `_Sphere` of `MetricHelper`, Metric.h:128, 258, 385, 521, 596, 734: does the entry for
the coordinate system equal the coordinate system? -/
def helperHas : CMetric → CCoord → Bool
  | .euclidean, _ => true
  | .rperp, c => c = .threeD
  | .rlens, c => c = .threeD
  | .oldRperp, c => c = .threeD
  | .arc, c => c ≠ .flat
  | .periodic, c => c ≠ .sphere

/-- `ValidMC<M,C>::_M`, Metric.h:862-874: the metric whose code runs when `M` is asked for in coordinates `C`
(Corr2.cpp:974-980, 1034-1040; the `Assert` there only prints a message unless compiled for debugging, dbg.h:88-89). -/
def validMC (m : CMetric) (c : CCoord) : CMetric := if helperHas m c then m else .euclidean

/-- The two names for the alias of `Rperp`: the attribute `treecorr.Rperp_alias` (`/repo/treecorr/__init__.py:29`) and the name
that `from . import Rperp_alias` binds in the module `util` when it is first imported (util.py:26). -/
structure AliasNames where
  package : String
  util : String

/-- The state after `import treecorr`. -/
def AliasNames.imported : AliasNames := ⟨"FisherRperp", "FisherRperp"⟩

/-- `treecorr.Rperp_alias = v` in a user's program. -/
def AliasNames.assign (s : AliasNames) (v : String) : AliasNames := { s with package := v }

/-- `metric_enum` with the alias as it is looked up, util.py:357-358. -/
def metricEnumIn (s : AliasNames) (m : String) : Except PyErr CMetric :=
  if m = "Rperp" then metricEnum s.util else metricEnum m

/-- The metric with which the C++ layer processes, for accepted settings. -/
def runMetric (S : MetricSettings) (metric coords1 : String) (coords2 : Option String) : Except PyErr CMetric :=
  match setMetric S metric coords1 coords2 with
  | .error e => .error e
  | .ok (c, m) =>
    match coordEnum c, metricEnum m with
    | .ok c, .ok m => .ok (validMC m c)
    | .error e, _ => .error e
    | _, .error e => .error e

end TreeCorr
