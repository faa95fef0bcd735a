import Verif.Arc.Model

/-!
# Model of the distance of a circle of space to a line segment (`utils/common_operations.py`, `curves.py`, `edges.py`)
-/

namespace Volmdlr.Arc

open Real

/-- curves.py:1090-1097 `CircleMixin.point_at_abscissa`, of a circle of space. -/
noncomputable def Circle3.pointAtAbscissa (c : Circle3) (s : ℝ) : V3 ℝ :=
  V3.rotation (c.frame.origin + V3.smul c.radius c.frame.basis.u) c.frame.origin c.frame.basis.w (s / c.radius)

/-- edges.py:711-718 `LineSegment.point_at_abscissa` (the start and the unit direction vector). -/
noncomputable def segmentAt (start fin : V3 ℝ) (s : ℝ) : Except PyErr (V3 ℝ) :=
  match V3.unitVector (fin - start) with
  | none => .error .zeroDivision
  | some e => .ok (start + V3.smul s e)

/-- common_operations.py:146-154 `distance_squared`, with `x = (a, t)`. -/
noncomputable def residual (radius : ℝ) (u v k w : V3 ℝ) (a t : ℝ) : ℝ :=
  V3.dot u u * a ^ 2 + V3.dot w w + V3.dot v v * sin t ^ 2 * radius ^ 2 + V3.dot k k * cos t ^ 2 * radius ^ 2
    - 2 * a * V3.dot w u - 2 * a * radius * sin t * V3.dot u v - 2 * a * radius * cos t * V3.dot u k
    + 2 * radius * sin t * V3.dot w v + 2 * radius * cos t * V3.dot w k + sin (2 * t) * V3.dot v k * radius ^ 2

open Classical in
/-- common_operations.py:138-177 `minimum_distance_points_circle3d_linesegment3d`, of a circle (its `angle` is `2π`, curves.py:1651); `solve residual initial` is `least_squares` (its bounds are part of the
assumptions on it), in floats for the code. -/
noncomputable def minimumDistancePoints (solve : (ℝ → ℝ → ℝ) → ℝ × ℝ → ℝ × ℝ) (c : Circle3) (start fin : V3 ℝ) : Except PyErr (V3 ℝ × V3 ℝ) :=
  match V3.unitVector (c.pointAtAbscissa 0 - c.frame.origin) with
  | none => .error .zeroDivision
  | some k => do
    let u := fin - start
    let w := c.frame.origin - start
    let v := V3.cross c.frame.basis.w k
    let f := residual c.radius u v k w
    let r0 := solve f (1 / 2, 2 * π / 2)
    let r1 := solve f (1 / 2, 0)
    let r2 := solve f (1 / 2, 2 * π)
    let length := V3.pointDistance start fin
    let point1 ← segmentAt start fin (r0.1 * length)
    let point2 := c.pointAtAbscissa (r1.2 * c.radius)
    [r1, r2].foldlM (fun acc couple => do
      let ptest1 ← segmentAt start fin (couple.1 * length)
      let ptest2 := c.pointAtAbscissa (couple.2 * c.radius)
      .ok (if V3.pointDistance ptest1 ptest2 < V3.dot v v then (ptest1, ptest2) else acc)) (point1, point2)

/-- curves.py:2052-2063 `Circle3D.distance_linesegment`. -/
noncomputable def circleSegmentDistance (solve : (ℝ → ℝ → ℝ) → ℝ × ℝ → ℝ × ℝ) (c : Circle3) (start fin : V3 ℝ) : Except PyErr ℝ :=
  (minimumDistancePoints solve c start fin).map fun p => V3.pointDistance p.1 p.2

end Volmdlr.Arc
