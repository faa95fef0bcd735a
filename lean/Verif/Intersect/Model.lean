import Verif.Arc.Model

/-!
# Model of the line methods and of the intersection functions

`curves.py` (`Line`, `Line2D`, `Line3D`), `utils/intersections.py`, `utils/common_operations.py` and `Vector.is_colinear_to`.

A line is given by its two points (`Line.__init__`, curves.py:175-179), a plane by its frame.  `ZeroDivisionError` and the `ValueError`
of `math.sqrt` on a negative number are `Except` errors.
-/

namespace Volmdlr.Intersect

open Volmdlr.Angle Volmdlr.Arc

/-- curves.py:163-179 `Line`, 744-755 `Line3D`: the two points of a line of space. -/
structure Line3 where
  point1 : V3 ℝ
  point2 : V3 ℝ

/-- curves.py:163-179, 375 `Line2D`: the two points of a line of the plane. -/
structure Line2 where
  point1 : V2 ℝ
  point2 : V2 ℝ

/-- curves.py:225-236 `Line.direction_vector` (the cached value is this one). -/
def Line3.dir (l : Line3) : V3 ℝ := l.point2 - l.point1
/-- curves.py:225-236 `Line.direction_vector` in the plane. -/
def Line2.dir (l : Line2) : V2 ℝ := l.point2 - l.point1

open Classical in
/-- core_compiled.pyx:501-519 `Vector.is_colinear_to`, vectors of space. -/
noncomputable def isColinear (u v : V3 ℝ) (tol : ℝ := 1 / 10 ^ 6) : Bool :=
  if V3.norm u = 0 ∨ V3.norm v = 0 then false
  else decide (mathIsClose (|V3.dot u v| / V3.norm u / V3.norm v) 1 tol)

/-! ## Lines -/

/-- curves.py:257-273 `Line.point_projection`: the projection and its abscissa; `none`: division by zero. -/
noncomputable def Line3.pointProjection (l : Line3) (p : V3 ℝ) : Option (V3 ℝ × ℝ) := pointProjection3 p l.point1 l.point2
/-- curves.py:257-273 `Line.point_projection` in the plane. -/
noncomputable def Line2.pointProjection (l : Line2) (p : V2 ℝ) : Option (V2 ℝ × ℝ) := pointProjection2 p l.point1 l.point2

/-- curves.py:275-287 `Line.abscissa`. -/
noncomputable def Line3.abscissa (l : Line3) (p : V3 ℝ) : Option ℝ :=
  if V3.norm l.dir = 0 then none else some (V3.dot (p - l.point1) l.dir / V3.norm l.dir)

/-- curves.py:289-298 `Line.point_at_abscissa`. -/
noncomputable def Line3.pointAtAbscissa (l : Line3) (s : ℝ) : Option (V3 ℝ) :=
  (V3.unitVector l.dir).map fun u => l.point1 + V3.smul s u

/-- curves.py:347-358 `Line.closest_point_on_line`. -/
noncomputable def Line3.closestPoint (l : Line3) (p : V3 ℝ) : Option (V3 ℝ) :=
  if V3.dot l.dir l.dir = 0 then none else some (l.point1 + V3.smul (V3.dot (p - l.point1) l.dir / V3.dot l.dir l.dir) l.dir)

/-- curves.py:785-791 `Line3D.point_distance`. -/
noncomputable def Line3.pointDistance (l : Line3) (p : V3 ℝ) : Option ℝ :=
  if V3.norm l.dir = 0 then none else some (V3.norm (V3.cross (p - l.point1) l.dir) / V3.norm l.dir)

/-- curves.py:702-713 `Line2D.point_distance`. -/
noncomputable def Line2.pointDistance (l : Line2) (p : V2 ℝ) : Option ℝ :=
  let vectorV := V2.normalVector l.dir
  if V2.norm vectorV = 0 then none else some (|V2.dot vectorV (l.point1 - p)| / V2.norm vectorV)

/-- curves.py:793-807 `Line3D.line_distance`. -/
noncomputable def Line3.lineDistance (l m : Line3) : Option ℝ :=
  if isColinear l.dir m.dir then
    if V3.norm l.dir = 0 then none else some (V3.norm (V3.cross l.dir (m.point1 - l.point1)) / V3.norm l.dir)
  else
    if V3.norm (V3.cross l.dir m.dir) = 0 then none
    else some (|V3.dot (m.point1 - l.point1) (V3.cross l.dir m.dir)| / V3.norm (V3.cross l.dir m.dir))

open Classical in
/-- curves.py:822-849 `Line3D.intersection`; the outer `Option` is `none` on a division by zero, the inner one is the `None` of the code. -/
noncomputable def Line3.intersection (l m : Line3) (tol : ℝ := 1 / 10 ^ 6) : Option (Option (V3 ℝ)) :=
  (l.lineDistance m).bind fun d =>
    if isColinear l.dir m.dir ∨ ¬mathIsClose d 0 tol then some none
    else if mathIsClose d 0 tol ∧ mathIsClose (V3.dot l.dir m.dir) 0 tol then
      (l.pointProjection m.point1).map fun pr => some pr.1
    else
      let vector := l.point1 - m.point1
      let den := V3.dot l.dir l.dir * V3.dot m.dir m.dir - V3.dot l.dir m.dir * V3.dot m.dir l.dir
      if den = 0 then none
      else
        let t := (V3.dot vector m.dir * V3.dot m.dir l.dir - V3.dot vector l.dir * V3.dot m.dir m.dir) / den
        some (some (l.point1 + V3.smul t l.dir))

/-- curves.py:500-524 `Line2D.line_intersections` of two `Line2D`: the projections of the point on both lines always exist. -/
noncomputable def Line2.lineIntersections (l m : Line2) : List (V2 ℝ) :=
  match lineIntersection l.point1 l.point2 m.point1 m.point2 with
  | none => []
  | some r =>
    match l.pointProjection r.1, m.pointProjection r.1 with
    | some pr, some _ => [pr.1]
    | _, _ => []

/-- The value returned by `Line2D.line_distance`: a number, or a point. -/
inductive DistOrPoint where
  | dist (d : ℝ)
  | point (p : V2 ℝ)

/-- curves.py:487-498 `Line2D.line_distance`: `distance, _ = self.point_projection(...)` stores the projection in `distance`. -/
noncomputable def Line2.lineDistance (l m : Line2) : Option DistOrPoint :=
  if l.lineIntersections m ≠ [] then some (.dist 0) else (l.pointProjection m.point1).map fun pr => .point pr.1

/-! ## Planes -/

open Classical in
/-- intersections.py:407-424 `get_plane_line_intersections`. -/
noncomputable def planeLine (plane : Frame3 ℝ) (l : Line3) (tol : ℝ := 1 / 10 ^ 6) : List (V3 ℝ) :=
  let u := l.point2 - l.point1
  let w := l.point1 - plane.origin
  if mathIsClose (V3.dot plane.basis.w u) 0 tol then []
  else [l.point1 + V3.smul (-V3.dot plane.basis.w w / V3.dot plane.basis.w u) u]

open Classical in
/-- intersections.py:381-404 `get_plane_linesegment_intersections`; `none`: `unit_vector` divides by zero (cannot happen after the
first test). -/
noncomputable def planeSegment (plane : Frame3 ℝ) (s : Seg3) (tol : ℝ := 1 / 10 ^ 6) : Option (List (V3 ℝ)) :=
  let u := s.stop - s.start
  let w := s.start - plane.origin
  let nu := V3.dot plane.basis.w u
  if nu = 0 then some []
  else (V3.unitVector plane.basis.w).bind fun n => (V3.unitVector u).bind fun d =>
    if mathIsClose (V3.dot n d) 0 tol then some []
    else
      let t := -V3.dot plane.basis.w w / nu
      if t < 0 ∨ t > 1 then
        if mathIsClose |t| 0 tol then some [s.start]
        else if mathIsClose t 1 tol then some [s.stop]
        else some []
      else some [s.start + V3.smul t u]

/-- common_operations.py:331-338 `get_plane_equation_coefficients`. -/
noncomputable def planeCoefficients (plane : Frame3 ℝ) : ℝ × ℝ × ℝ × ℝ :=
  let d := -V3.dot plane.origin plane.basis.w
  (round12 plane.basis.w.x, round12 plane.basis.w.y, round12 plane.basis.w.z, round12 d)

/-- common_operations.py:341-351 `get_plane_point_distance`; `none`: division by zero. -/
noncomputable def planePointDistance (plane : Frame3 ℝ) (p : V3 ℝ) : Option ℝ :=
  let c := planeCoefficients plane
  if c.1 ^ 2 + c.2.1 ^ 2 + c.2.2.1 ^ 2 = 0 then none
  else some (|V3.dot plane.basis.w p + c.2.2.2| / Real.sqrt (c.1 ^ 2 + c.2.1 ^ 2 + c.2.2.1 ^ 2))

/-- intersections.py:427-450 `_helper_two_plane_intersections`, on the two quadruples of coefficients. -/
noncomputable def twoPlanesPoint (p q : ℝ × ℝ × ℝ × ℝ) : Except PyErr (V3 ℝ) :=
  let a1 := p.1; let b1 := p.2.1; let c1 := p.2.2.1; let d1 := p.2.2.2
  let a2 := q.1; let b2 := q.2.1; let c2 := q.2.2.1; let d2 := q.2.2.2
  let tol := 1 / 10 ^ 10
  if |a1 * b2 - a2 * b1| > tol then
    .ok ⟨(b1 * d2 - b2 * d1) / (a1 * b2 - a2 * b1), (a2 * d1 - a1 * d2) / (a1 * b2 - a2 * b1), 0⟩
  else if |a2 * c1 - a1 * c2| > tol then
    .ok ⟨(c2 * d1 - c1 * d2) / (a2 * c1 - a1 * c2), 0, (a1 * d2 - a2 * d1) / (a2 * c1 - a1 * c2)⟩
  else if |c1 * b2 - b1 * c2| > tol then
    .ok ⟨0, (-c2 * d1 + c1 * d2) / (b1 * c2 - c1 * b2), (-b1 * d2 + b2 * d1) / (b1 * c2 - c1 * b2)⟩
  else .error .notImplemented

/-- intersections.py:453-470 `get_two_planes_intersections`; the value `none` is the `None` returned for a short direction. -/
noncomputable def twoPlanes (f g : Frame3 ℝ) (tol : ℝ := 1 / 10 ^ 8) : Except PyErr (Option (List (V3 ℝ))) :=
  if isColinear f.basis.w g.basis.w tol then .ok (some [])
  else
    let lineDirection := V3.cross f.basis.w g.basis.w
    if V3.norm lineDirection < tol then .ok none
    else (twoPlanesPoint (planeCoefficients f) (planeCoefficients g)).map fun p => some [p, p + lineDirection]

/-! ## Circles -/

open Classical in
/-- intersections.py:193-230 `get_circle_intersections`: `center1, r1, center2, r2`; the error is the `ValueError` of `math.sqrt`. -/
noncomputable def circleCircle (c1 : V2 ℝ) (r1 : ℝ) (c2 : V2 ℝ) (r2 : ℝ) : Except PyErr (List (V2 ℝ)) :=
  if isClose2 c1 c2 (1 / 10 ^ 6) then .ok []
  else
    let d := Real.sqrt ((c2.x - c1.x) ^ 2 + (c2.y - c1.y) ^ 2)
    if d > r1 + r2 then .ok []
    else if d < |r1 - r2| then .ok []
    else if d = 0 ∧ r1 = r2 then .ok []
    else if 2 * d = 0 then .error .zeroDivision
    else
      let a := (r1 ^ 2 - r2 ^ 2 + d ^ 2) / (2 * d)
      if ¬|r1 - a| < 1 / 10 ^ 6 ∧ r1 ^ 2 - a ^ 2 < 0 then .error .valueError
      else
        let h := if |r1 - a| < 1 / 10 ^ 6 then 0 else Real.sqrt (r1 ^ 2 - a ^ 2)
        let x2 := c1.x + a * (c2.x - c1.x) / d
        let y2 := c1.y + a * (c2.y - c1.y) / d
        .ok [⟨x2 + h * (c2.y - c1.y) / d, y2 - h * (c2.x - c1.x) / d⟩, ⟨x2 - h * (c2.y - c1.y) / d, y2 + h * (c2.x - c1.x) / d⟩]

open Classical in
/-- intersections.py:15-47 `get_planar_circle3d_line_intersections`; `none`: the two points of the line are equal. -/
noncomputable def planarCircleLine (c : Circle3) (l : Line3) (tol : ℝ := 1 / 10 ^ 7) : Option (List (V3 ℝ)) :=
  let first := isClose3 l.point1 c.frame.origin (1 / 10 ^ 6)
  let point1 := if first then l.point2 else l.point1
  let raw := if first then l.point1 - l.point2 else l.point2 - l.point1
  (V3.unitVector raw).map fun vec =>
    let a := V3.dot vec vec
    let b := 2 * V3.dot vec (point1 - c.frame.origin)
    let k := V3.dot point1 point1 + V3.dot c.frame.origin c.frame.origin - 2 * V3.dot point1 c.frame.origin - c.radius ^ 2
    let delta := b ^ 2 - 4 * a * k
    if delta < 0 then []
    else if mathIsClose delta 0 tol then [point1 + V3.smul (-b / (2 * a)) vec]
    else
      let sqrtDelta := Real.sqrt delta
      [point1 + V3.smul ((-b + sqrtDelta) / (2 * a)) vec, point1 + V3.smul ((-b - sqrtDelta) / (2 * a)) vec]

open Classical in
/-- intersections.py:50-85 `circle_3d_line_intersections`, the part run on a circle whose normal is close to the third axis (66-85);
lines 61-65 reduce the other circles to this case. -/
noncomputable def circleLineZ (c : Circle3) (l : Line3) (tol : ℝ := 1 / 10 ^ 6) : Except PyErr (List (V3 ℝ)) :=
  match l.pointDistance c.frame.origin with
  | none => .error .zeroDivision
  | some dist =>
    if dist > c.radius then .ok []
    else if mathIsClose l.point1.z l.point2.z (1 / 10 ^ 6) ∧ mathIsClose l.point2.z c.frame.origin.z tol then
      match planarCircleLine c l with
      | none => .error .zeroDivision
      | some r => .ok r
    else if l.dir.z = 0 then .error .zeroDivision
    else
      let k := (c.frame.origin.z - l.point1.z) / l.dir.z
      let x := k * l.dir.x + l.point1.x
      let y := k * l.dir.y + l.point1.y
      if mathIsClose ((x - c.frame.origin.x) ^ 2 + (y - c.frame.origin.y) ^ 2) (c.radius ^ 2) (1 / 10 ^ 6) then
        .ok [⟨x, y, c.frame.origin.z⟩]
      else .ok []

/-! ## Ellipses -/

open Classical in
/-- intersections.py:119-136 `_get_ellipse2d_vertical_line_intersectioons`: `a`, `b` are the half axes. -/
noncomputable def ellipseVertical (a b : ℝ) (l : Line2) : Except PyErr (List (V2 ℝ)) :=
  let x1 := l.point1.x
  if 1 - x1 ^ 2 / a ^ 2 < 0 then .error .valueError
  else
    let y1 := b * Real.sqrt (1 - x1 ^ 2 / a ^ 2)
    if isClose2 ⟨x1, y1⟩ ⟨x1, -y1⟩ (1 / 10 ^ 6) then .ok [⟨x1, y1⟩] else .ok [⟨x1, y1⟩, ⟨x1, -y1⟩]

open Classical in
/-- intersections.py:139-167 `_get_local_ellise2d_line_intersections`: the ellipse of half axes `a`, `b` at the origin.  `get_slope` and
`get_y_intersection` (curves.py:715-733) are finite there: the line is not vertical. -/
noncomputable def ellipseLineLocal (a b : ℝ) (l : Line2) (tol : ℝ := 1 / 10 ^ 6) : Except PyErr (List (V2 ℝ)) :=
  if mathIsClose l.point2.x l.point1.x tol then ellipseVertical a b l
  else
    let m := (l.point2.y - l.point1.y) / (l.point2.x - l.point1.x)
    let q := l.point1.y - m * l.point1.x
    let ap := 1 / a ^ 2 + m ^ 2 / b ^ 2
    let bp := 2 * m * q / b ^ 2
    let cp := q ^ 2 / b ^ 2 - 1
    if bp ^ 2 > 4 * ap * cp then
      let x1 := (-bp + Real.sqrt (bp ^ 2 - 4 * ap * cp)) / (2 * ap)
      let x2 := (-bp - Real.sqrt (bp ^ 2 - 4 * ap * cp)) / (2 * ap)
      let p1 : V2 ℝ := ⟨x1, m * x1 + q⟩
      let p2 : V2 ℝ := ⟨x2, m * x2 + q⟩
      if isClose2 p1 p2 tol then .ok [p1] else .ok [p1, p2]
    else .ok []

open Classical in
/-- intersections.py:170-190 `ellipse2d_line_intersections`; `frame` is the frame of the ellipse, `a`, `b` its half axes.  The mapped ellipse
(186) only gives its half axes to the local function; the calls of lines 187 and 190 use the default tolerance. -/
noncomputable def ellipseLine (frame : Frame2 ℝ) (a b : ℝ) (l : Line2) (tol : ℝ := 1 / 10 ^ 6) : Except PyErr (List (V2 ℝ)) :=
  match l.pointDistance frame.origin with
  | none => .error .zeroDivision
  | some d =>
    if d > a + tol then .ok []
    else
      let theta := clockwiseAngle frame.basis.u ⟨1, 0⟩
      if (¬mathIsClose theta 0 (1 / 10 ^ 6) ∧ ¬mathIsClose theta (2 * Real.pi) (1 / 10 ^ 6)) ∨ ¬isClose2 frame.origin ⟨0, 0⟩ (1 / 10 ^ 6) then do
        let p1 ← frame.globalToLocal l.point1
        let p2 ← frame.globalToLocal l.point2
        let r ← ellipseLineLocal a b ⟨p1, p2⟩
        return r.map frame.localToGlobal
      else ellipseLineLocal a b l

end Volmdlr.Intersect
