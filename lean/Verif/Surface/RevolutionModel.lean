import Verif.Surface.Model

/-!
# Model of the revolution of a line segment of space (`edges.py`)
-/

namespace Volmdlr.Surface

open Volmdlr.Angle Volmdlr.Intersect Real

/-- A face of a revolution: a rectangle of parameters of a cone or a cylinder, or a part of a plane, as a set of points of its frame (Simplification: instead of its contour). -/
inductive RevFace where
  | cone (s : Cone) (theta1 theta2 z1 z2 : ℝ)
  | cylinder (s : Cylinder) (theta1 theta2 z1 z2 : ℝ)
  | plane (frame : Frame3 ℝ) (region : Set (V2 ℝ))

/-- faces.py:2618-2619, 2848-2851: the last angle of a rectangle of parameters whose first angle is zero. -/
noncomputable def lastAngle (angle : ℝ) : ℝ := open Classical in if 0 = angle then angle + 2 * π else angle

/-- edges.py:4697-4715 `_conical_revolution`, of a segment of direction `dir`; `none` is `ZeroDivisionError`. -/
noncomputable def conicalRevolution (dir axis u : V3 ℝ) (dist1 dist2 angle : ℝ) (coneOrigin : V3 ℝ) : Option RevFace := open Classical in
  let v := V3.cross axis u
  (V3.unitVector dir).bind fun d : V3 ℝ =>
    let semi := atan2 (V3.dot d u) (V3.dot d axis)
    let s : Cone × ℝ := if semi > 1 / 2 * π then (⟨⟨coneOrigin, ⟨u, -v, -axis⟩⟩, π - semi⟩, -angle) else (⟨⟨coneOrigin, ⟨u, v, axis⟩⟩, semi⟩, angle)
    if tan s.1.semiAngle = 0 then none
    else some (.cone s.1 0 (lastAngle s.2) (dist1 / tan s.1.semiAngle) (dist2 / tan s.1.semiAngle))

/-- edges.py:4717-4723 `_cylindrical_revolution`. -/
noncomputable def cylindricalRevolution (start fin axis u p1Proj : V3 ℝ) (dist1 angle : ℝ) : RevFace :=
  .cylinder ⟨⟨p1Proj, ⟨u, V3.cross axis u, axis⟩⟩, dist1⟩ 0 (lastAngle angle) 0 (V3.dot (fin - start) axis)

/-- edges.py:4725-4747: the part of a disk between two radii, from the angle `from_` and of the angle `angle`; two such arcs and two radii, or two radii and one arc. -/
def sector (small big from_ angle : ℝ) : Set (V2 ℝ) := {p | ∃ r t : ℝ, small ≤ r ∧ r ≤ big ∧ from_ ≤ t ∧ t ≤ from_ + angle ∧ p = ⟨r * cos t, r * sin t⟩}

open Classical in
/-- edges.py:4800-4816 `_plane_revolution`, with 4725-4747, 4749-4767 and 4769-4798. -/
noncomputable def planeRevolution (axis : V3 ℝ) (angle : ℝ) (p1Proj u : V3 ℝ) (distance1 distance2 : ℝ) (meets : Bool) : List RevFace :=
  let frame : Frame3 ℝ := ⟨p1Proj, ⟨u, V3.cross axis u, axis⟩⟩
  if meets then
    (if mathIsClose distance1 0 (1 / 10 ^ 9) then [] else [.plane frame (sector 0 distance1 0 angle)]) ++
    (if mathIsClose distance2 0 (1 / 10 ^ 9) then [] else [.plane frame (sector 0 distance2 π angle)])
  else
    let smaller := min distance1 distance2
    let bigger := max distance1 distance2
    if mathIsClose angle (2 * π) (1 / 10 ^ 6) then [.plane frame (sector smaller bigger 0 (2 * π))]
    else [.plane frame (sector smaller bigger 0 angle)]

open Classical in
/-- edges.py:4818-4855 `LineSegment3D.revolution`; `onAxis` is the test of the two ends on the axis (4823-4824), `inter` is the intersection of the line and the axis, `belongs` is `point_belongs` of the segment,
`colinear` is `is_colinear_to` the direction of the segment; a cone without origin is a `TypeError`. -/
noncomputable def revolution (onAxis : Bool) (inter : Option (V3 ℝ)) (belongs colinear : V3 ℝ → Bool) (start fin axisPoint axis : V3 ℝ) (angle : ℝ) : Except PyErr (List RevFace) :=
  if onAxis then .ok []
  else
    match pointProjection3 start axisPoint (axisPoint + axis), pointProjection3 fin axisPoint (axisPoint + axis) with
    | some (p1Proj, _), some (p2Proj, _) =>
      let distance1 := V3.pointDistance start p1Proj
      let distance2 := V3.pointDistance fin p2Proj
      if mathIsClose distance1 0 (1 / 10 ^ 9) ∧ mathIsClose distance2 0 (1 / 10 ^ 9) then .ok []
      else
        match (if mathIsClose distance1 0 (1 / 10 ^ 9) then V3.unitVector (fin - p2Proj) else V3.unitVector (start - p1Proj)) with
        | none => .error .zeroDivision
        | some u =>
          if colinear u then
            match inter with
            | none => .error .typeError
            | some i => .ok (planeRevolution axis angle p1Proj u distance1 distance2 (belongs i))
          else
            let crossing := match inter with
              | some i => if belongs i ∧ ¬mathIsClose distance1 0 (1 / 10 ^ 9) ∧ ¬mathIsClose distance2 0 (1 / 10 ^ 9) then some i else none
              | none => none
            match crossing with
            | some i =>
              match V3.unitVector (start - p1Proj), V3.unitVector (fin - p2Proj) with
              | some u1, some u2 =>
                match conicalRevolution (fin - start) axis u1 0 distance1 angle i, conicalRevolution (fin - start) axis u2 0 distance2 angle i with
                | some f, some g => .ok [f, g]
                | _, _ => .error .zeroDivision
              | _, _ => .error .zeroDivision
            | none =>
              if ¬mathIsClose distance1 distance2 (1 / 10 ^ 9) then
                match inter with
                | none => .error .typeError
                | some i =>
                  match conicalRevolution (fin - start) axis u distance1 distance2 angle i with
                  | some f => .ok [f]
                  | none => .error .zeroDivision
              else .ok [cylindricalRevolution start fin axis u p1Proj distance1 angle]
    | _, _ => .error .zeroDivision

end Volmdlr.Surface
