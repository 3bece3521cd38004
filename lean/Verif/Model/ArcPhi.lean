import Verif.Model.Corr3
import Mathlib.Analysis.InnerProductSpace.PiL2

/-! The angle of a triangle for the `Arc` metric, used by the `LogSAS` bins. -/

namespace TreeCorr
noncomputable section

/-- `MetricHelper<Arc,0>::calculateCosPhi`, /repo/include/Metric.h:691-722: from the positions themselves, for positions on the sphere and
in space alike. -/
def arcCosPhi (p1 p2 p3 : EuclideanSpace ℝ (Fin 3)) : ℝ :=
  let d1sq := ‖p2 - p3‖ ^ 2
  let d2sq := ‖p1 - p3‖ ^ 2
  let d3sq := ‖p1 - p2‖ ^ 2
  let cosphi := d2sq + d3sq - 0.5 * d2sq * d3sq - d1sq
  cosphi / (2 * Real.sqrt (d2sq * d3sq * (1 - 0.25 * d2sq) * (1 - 0.25 * d3sq)))

end
end TreeCorr
