import Verif.Surface.CircleSweepModel

/-!
# Model of the revolution of an arc of space (`edges.py`)
-/

namespace Volmdlr.Surface

open Volmdlr.Angle Volmdlr.Arc Real

/-- A rectangle of parameters of a sphere or of a torus. -/
inductive ArcFace where
  | sphere (s : Sphere) (theta1 theta2 phi1 phi2 : ℝ)
  | torus (s : Torus) (theta1 theta2 phi1 phi2 : ℝ)

open Classical in
/-- faces.py:2757-2764 and 3019-3026: the end of a side of a rectangle of parameters. -/
noncomputable def rectangleEnd (a b : ℝ) : ℝ := if a = b then b + 2 * π else if b < a then b + 2 * π else b

open Classical in
/-- edges.py:5901-5950 `Arc3D.revolution`, of the arc of `circle` from `start` to `fin` of the angle `arcAngle`; `spherePhi` and `torusPhi` are the second coordinate of `point3d_to_2d` of the surface.
When the two ends are on the axis, `self.middle_point - interior_p` (5925) is a `TypeError`, as `middle_point` is a method. -/
noncomputable def arcRevolution (spherePhi : Sphere → V3 ℝ → ℝ) (torusPhi : Torus → V3 ℝ → ℝ) (circle : Circle3) (start fin : V3 ℝ) (arcAngle : ℝ) (axisPoint axis : V3 ℝ) (angle : ℝ) :
    Except PyErr (List ArcFace) :=
  match pointProjection3 circle.frame.origin axisPoint (axisPoint + axis) with
  | none => .error .zeroDivision
  | some (center, _) =>
    if mathIsClose (V3.pointDistance center circle.frame.origin) 0 (1 / 10 ^ 6) then
      match pointProjection3 start axisPoint (axisPoint + axis), pointProjection3 fin axisPoint (axisPoint + axis) with
      | some (startP, _), some (endP, _) =>
        if mathIsClose (V3.norm (start - startP)) 0 (1 / 10 ^ 6) ∧ mathIsClose (V3.norm (fin - endP)) 0 (1 / 10 ^ 6) then .error .typeError
        else
          match V3.unitVector (if mathIsClose (V3.norm (start - startP)) 0 (1 / 10 ^ 6) then fin - endP else start - startP) with
          | none => .error .zeroDivision
          | some u =>
            let v := V3.cross axis u
            let s : Sphere := ⟨⟨circle.frame.origin, ⟨u, v, axis⟩⟩, circle.radius⟩
            let phi := spherePhi s start
            let other := phi + arcAngle * V3.dot v circle.frame.basis.w
            .ok [.sphere s 0 (rectangleEnd 0 angle) (min phi other) (rectangleEnd (min phi other) (max phi other))]
      | _, _ => .error .zeroDivision
    else
      match V3.unitVector (circle.frame.origin - center) with
      | none => .error .zeroDivision
      | some u =>
        let v := V3.cross axis u
        if ¬mathIsClose (V3.dot circle.frame.basis.w u) 0 (1 / 10 ^ 6) then .error .notImplemented
        else
          let s : Torus := ⟨⟨center, ⟨u, v, axis⟩⟩, V3.pointDistance center circle.frame.origin, circle.radius⟩
          let phi := torusPhi s start
          let other := phi - arcAngle * V3.dot v circle.frame.basis.w
          .ok [.torus s 0 (rectangleEnd 0 angle) (min phi other) (rectangleEnd (min phi other) (max phi other))]

end Volmdlr.Surface
