import Verif.Surface.ArcSweepModel

/-!
# Model of the extrusion of an arc of space (`edges.py`)
-/

namespace Volmdlr.Surface

open Volmdlr.Angle Volmdlr.Arc Real

open Classical in
/-- faces.py:2618-2619: the last angle of a rectangle of parameters of a cylinder. -/
noncomputable def cylinderEnd (a b : ℝ) : ℝ := if a = b then b + 2 * π else b

open Classical in
/-- edges.py:5887-5899 `Arc3D.extrusion`; `angle1` and `angle2` are the angles of the start and of the end of the arc of the plane (5892-5893), `colinear` is `normal.is_colinear_to`. -/
noncomputable def arcExtrusion (colinear : V3 ℝ → Bool) (circle : Circle3) (angle1 angle2 : ℝ) (vector : V3 ℝ) : Except PyErr (List CircleFace) :=
  if colinear vector then
    match V3.unitVector vector with
    | none => .error .zeroDivision
    | some w =>
      let last := if angle2 < angle1 then angle2 + 2 * π else angle2
      .ok [.cylinder ⟨circle.frame, circle.radius⟩ angle1 (cylinderEnd angle1 last) 0 (V3.dot w circle.frame.basis.w * V3.norm vector)]
  else .error .notImplemented

end Volmdlr.Surface
