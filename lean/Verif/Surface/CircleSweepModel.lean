import Verif.Surface.RevolutionModel
import Verif.Arc.Model

/-!
# Model of the extrusion and of the revolution of a circle of space (`curves.py`)
-/

namespace Volmdlr.Surface

open Volmdlr.Angle Volmdlr.Arc Real

/-- A rectangle of parameters of a cylinder or of a torus. -/
inductive CircleFace where
  | cylinder (s : Cylinder) (theta1 theta2 z1 z2 : ℝ)
  | torus (s : Torus) (theta1 theta2 phi1 phi2 : ℝ)

/-- curves.py:1971-1986 `Circle3D.extrusion`; `colinear` is `normal.is_colinear_to` (core_compiled.pyx). The frame of `deterministic_unit_normal_vector` and the product with the normal is that of `from_point_and_normal`. -/
noncomputable def circleExtrusion (colinear : V3 ℝ → Bool) (c : Circle3) (vector : V3 ℝ) : Except PyErr (List CircleFace) :=
  if colinear vector then
    match Frame3.fromPointAndNormal c.frame.origin c.frame.basis.w, V3.unitVector vector with
    | some f, some w => .ok [.cylinder ⟨⟨c.frame.origin, ⟨f.basis.u, f.basis.v, w⟩⟩, c.radius⟩ 0 (lastAngle (2 * π)) 0 (V3.norm vector)]
    | _, _ => .error .zeroDivision
  else .error .notImplemented

open Classical in
/-- faces.py:2757-2764: an end angle of a rectangle of parameters of a torus whose start is zero. -/
noncomputable def torusAngle (angle : ℝ) : ℝ := if 0 = angle then angle + 2 * π else if angle < 0 then angle + 2 * π else angle

open Classical in
/-- curves.py:1988-2006 `Circle3D.revolution`. -/
noncomputable def circleRevolution (c : Circle3) (axisPoint axis : V3 ℝ) (angle : ℝ) : Except PyErr (List CircleFace) :=
  match pointProjection3 c.frame.origin axisPoint (axisPoint + axis) with
  | none => .error .zeroDivision
  | some (center, _) =>
    match V3.unitVector (c.frame.origin - center) with
    | none => .error .zeroDivision
    | some u =>
      if ¬mathIsClose (V3.dot c.frame.basis.w u) 0 (1 / 10 ^ 9) then .error .notImplemented
      else .ok [.torus ⟨⟨center, ⟨u, V3.cross axis u, axis⟩⟩, V3.pointDistance center c.frame.origin, c.radius⟩ 0 (torusAngle angle) 0 (torusAngle (2 * π))]

end Volmdlr.Surface
