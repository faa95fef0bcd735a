import Verif.Frame.Model
import Verif.Angle.Model
import Verif.BBox.Model
import Verif.Intersect.Model

/-!
# Model of the elementary surfaces of `volmdlr/surfaces.py`

Cylinders, tori, cones, spheres and planes: the two directions of the parametrisation (`point2d_to_3d`, `point3d_to_2d`), the
vectorised version (`parametric_points_to_3d`, one row of the array), bounding boxes, `point_belongs`, `is_coincident` and the
constructors of planes.  A surface is its frame and its radii.  The parameter point `Point2D` is a `V2 ℝ`.  `math.atan2` is the argument
of a complex number, `asin`/`acos`/`tan` are those of `ℝ`.
-/

namespace Volmdlr.Surface

open Volmdlr.Angle Volmdlr.Intersect Real

/-- surfaces.py:2508-2511 and similar: a value below a threshold is replaced by zero. -/
noncomputable def snap (eps x : ℝ) : ℝ := if |x| < eps then 0 else x

/-- surfaces.py:2342-2370 `CylindricalSurface3D`. -/
structure Cylinder where
  frame : Frame3 ℝ
  radius : ℝ
/-- surfaces.py:4038-4066 `ConicalSurface3D`. -/
structure Cone where
  frame : Frame3 ℝ
  semiAngle : ℝ
/-- surfaces.py:4780-4810 `SphericalSurface3D`. -/
structure Sphere where
  frame : Frame3 ℝ
  radius : ℝ
/-- surfaces.py:2912-2950 `ToroidalSurface3D`. -/
structure Torus where
  frame : Frame3 ℝ
  majorRadius : ℝ
  minorRadius : ℝ

/-! ## Parametrisations -/

/-- surfaces.py:2456-2467 `CylindricalSurface3D.point2d_to_3d`. -/
noncomputable def Cylinder.to3d (s : Cylinder) (p : V2 ℝ) : V3 ℝ :=
  s.frame.localToGlobal ⟨s.radius * cos p.x, s.radius * sin p.x, p.y⟩

/-- surfaces.py:2499-2517 `CylindricalSurface3D.point3d_to_2d`. -/
noncomputable def Cylinder.to2d (s : Cylinder) (p : V3 ℝ) : Except PyErr (V2 ℝ) := do
  let q ← s.frame.globalToLocal p
  return ⟨snap (1 / 10 ^ 9) (atan2 (snap (1 / 10 ^ 12) q.y) (snap (1 / 10 ^ 12) q.x)), q.z⟩

/-- surfaces.py:2469-2497 `CylindricalSurface3D.parametric_points_to_3d`, one point. -/
noncomputable def Cylinder.paramTo3d (s : Cylinder) (p : V2 ℝ) : V3 ℝ :=
  s.frame.origin + V3.smul s.radius (V3.smul (cos p.x) s.frame.basis.u + V3.smul (sin p.x) s.frame.basis.v)
    + V3.smul p.y s.frame.basis.w

/-- surfaces.py:4199-4211 `ConicalSurface3D.point2d_to_3d`. -/
noncomputable def Cone.to3d (s : Cone) (p : V2 ℝ) : V3 ℝ :=
  s.frame.localToGlobal ⟨tan s.semiAngle * p.y * cos p.x, tan s.semiAngle * p.y * sin p.x, p.y⟩

/-- surfaces.py:4213-4230 `ConicalSurface3D.point3d_to_2d`. -/
noncomputable def Cone.to2d (s : Cone) (p : V3 ℝ) : Except PyErr (V2 ℝ) := do
  let q ← s.frame.globalToLocal p
  return ⟨snap (1 / 10 ^ 9) (atan2 (snap (1 / 10 ^ 12) q.y) (snap (1 / 10 ^ 12) q.x)), q.z⟩

/-- surfaces.py:4232-4259 `ConicalSurface3D.parametric_points_to_3d`, one point. -/
noncomputable def Cone.paramTo3d (s : Cone) (p : V2 ℝ) : V3 ℝ :=
  s.frame.origin + V3.smul (p.y * tan s.semiAngle) (V3.smul (cos p.x) s.frame.basis.u + V3.smul (sin p.x) s.frame.basis.v)
    + V3.smul p.y s.frame.basis.w

/-- surfaces.py:4959-4973 `SphericalSurface3D.point2d_to_3d`. -/
noncomputable def Sphere.to3d (s : Sphere) (p : V2 ℝ) : V3 ℝ :=
  s.frame.localToGlobal ⟨s.radius * cos p.y * cos p.x, s.radius * cos p.y * sin p.x, s.radius * sin p.y⟩

/-- surfaces.py:4975-5001 `SphericalSurface3D.point3d_to_2d` (the rewriting of `-0.0` at 4982-4983 has no counterpart in `ℝ`). -/
noncomputable def Sphere.to2d (s : Sphere) (p : V3 ℝ) : Except PyErr (V2 ℝ) := do
  let q ← s.frame.globalToLocal p
  let z := min s.radius (max (-s.radius) q.z)
  if s.radius = 0 then .error .zeroDivision
  else
    return ⟨snap (1 / 10 ^ 10) (atan2 (snap (1 / 10 ^ 7) q.y) (snap (1 / 10 ^ 7) q.x)), snap (1 / 10 ^ 10) (arcsin (z / s.radius))⟩

/-- surfaces.py:5003-5032 `SphericalSurface3D.parametric_points_to_3d`, one point. -/
noncomputable def Sphere.paramTo3d (s : Sphere) (p : V2 ℝ) : V3 ℝ :=
  s.frame.origin + V3.smul (s.radius * cos p.y) (V3.smul (cos p.x) s.frame.basis.u + V3.smul (sin p.x) s.frame.basis.v)
    + V3.smul (s.radius * sin p.y) s.frame.basis.w

/-- surfaces.py:3064-3076 `ToroidalSurface3D.point2d_to_3d`. -/
noncomputable def Torus.to3d (s : Torus) (p : V2 ℝ) : V3 ℝ :=
  s.frame.localToGlobal ⟨(s.majorRadius + s.minorRadius * cos p.y) * cos p.x, (s.majorRadius + s.minorRadius * cos p.y) * sin p.x,
    s.minorRadius * sin p.y⟩

/-- surfaces.py:3109-3112: the angle of the tube when the point is on the side of the axis. -/
noncomputable def torusPhi (phi phi2 : ℝ) : ℝ :=
  if phi ≥ 0 ∧ phi2 > 1 / 2 * π then π - phi
  else if phi < 0 ∧ phi2 > 1 / 2 * π then -π - phi
  else phi

/-- surfaces.py:3117-3123: the self-intersecting torus. -/
noncomputable def torusTheta (majorRadius minorRadius theta phi : ℝ) : ℝ :=
  if majorRadius < minorRadius ∧ |phi| > arccos (-majorRadius / minorRadius) then
    if theta ≥ 0 then theta - π else theta + π
  else theta

/-- surfaces.py:3078-3124 `ToroidalSurface3D.point3d_to_2d`, after the change of frame; `none`: division by zero in
`vectors3d_angle`. -/
noncomputable def Torus.localTo2d (majorRadius minorRadius : ℝ) (q : V3 ℝ) : Option (V2 ℝ) :=
  let x := snap (1 / 10 ^ 12) q.x
  let y := snap (1 / 10 ^ 12) q.y
  let z := snap (1 / 10 ^ 6) (min minorRadius (max (-minorRadius) q.z))
  let phi := snap (1 / 10 ^ 9) (arcsin (z / minorRadius))
  let u := majorRadius + √(minorRadius ^ 2 - z ^ 2)
  let theta := atan2 (y / u) (x / u)
  let tube : V3 ℝ := ⟨|majorRadius| * cos theta, |majorRadius| * sin theta, 0⟩
  match vectors3dAngle tube (⟨x, y, z⟩ - tube) with
  | none => none
  | some phi2 =>
    let phi' := snap (1 / 10 ^ 9) (torusPhi phi phi2)
    some ⟨torusTheta majorRadius minorRadius (snap (1 / 10 ^ 9) theta) phi', phi'⟩

/-- surfaces.py:3078-3124 `ToroidalSurface3D.point3d_to_2d`. -/
noncomputable def Torus.to2d (s : Torus) (p : V3 ℝ) : Except PyErr (V2 ℝ) := do
  let q ← s.frame.globalToLocal p
  match Torus.localTo2d s.majorRadius s.minorRadius q with
  | none => .error .zeroDivision
  | some r => return r

/-- surfaces.py:3126-3155 `ToroidalSurface3D.parametric_points_to_3d`, one point. -/
noncomputable def Torus.paramTo3d (s : Torus) (p : V2 ℝ) : V3 ℝ :=
  s.frame.origin + V3.smul (s.majorRadius + s.minorRadius * cos p.y) (V3.smul (cos p.x) s.frame.basis.u + V3.smul (sin p.x) s.frame.basis.v)
    + V3.smul (s.minorRadius * sin p.y) s.frame.basis.w

/-- surfaces.py:2352, 2926, 4046, 4790: `x_periodicity` of the four classes (`volmdlr.TWO_PI`). -/
noncomputable def xPeriodicity : ℝ := 2 * π
/-- surfaces.py:2927 `ToroidalSurface3D.y_periodicity`. -/
noncomputable def Torus.yPeriodicity : ℝ := 2 * π
/-- surfaces.py:4791 `SphericalSurface3D.y_periodicity`. -/
noncomputable def Sphere.yPeriodicity : ℝ := π

/-! ## Bounding boxes -/

/-- surfaces.py:4868-4877 `SphericalSurface3D._bounding_box`. -/
noncomputable def Sphere.boundingBox (s : Sphere) : Except PyErr (Box3 ℝ) :=
  Box3.fromPoints [s.frame.origin + ⟨-s.radius, -s.radius, -s.radius⟩, s.frame.origin + ⟨s.radius, s.radius, s.radius⟩]

/-- surfaces.py:3037-3062 `ToroidalSurface3D._bounding_box`. -/
noncomputable def Torus.boundingBox (s : Torus) : Except PyErr (Box3 ℝ) :=
  let d := s.majorRadius + s.minorRadius
  let u := V3.smul d s.frame.basis.u
  let v := V3.smul d s.frame.basis.v
  let w := V3.smul s.minorRadius s.frame.basis.w
  let o := s.frame.origin
  Box3.fromPoints [o + u + v + w, o + u + v - w, o + u - v + w, o + u - v - w, o - u + v + w, o - u + v - w, o - u - v + w, o - u - v - w]

/-! ## Membership and coincidence -/

open Classical in
/-- surfaces.py:1467-1475 `Plane3D.point_belongs`; a plane is its frame. -/
noncomputable def planePointBelongs (plane : Frame3 ℝ) (p : V3 ℝ) (tol : ℝ := 1 / 10 ^ 6) : Bool :=
  decide (mathIsClose (V3.dot plane.basis.w (p - plane.origin)) 0 tol)

/-- surfaces.py:1555-1562 `Plane3D.is_parallel`. -/
noncomputable def planeIsParallel (a b : Frame3 ℝ) (tol : ℝ := 1 / 10 ^ 6) : Bool := isColinear a.basis.w b.basis.w tol

/-- surfaces.py:1543-1553 `Plane3D.is_coincident` of two planes. -/
noncomputable def planeIsCoincident (a b : Frame3 ℝ) (tol : ℝ := 1 / 10 ^ 6) : Bool :=
  planeIsParallel a b tol && planePointBelongs b a.origin tol

open Classical in
/-- surfaces.py:2764-2775 `CylindricalSurface3D.point_belongs`. -/
noncomputable def Cylinder.pointBelongs (s : Cylinder) (p : V3 ℝ) (tol : ℝ := 1 / 10 ^ 5) : Except PyErr Bool := do
  let q ← s.frame.globalToLocal p
  return decide (mathIsClose (q.x ^ 2 + q.y ^ 2) (s.radius ^ 2) tol)

open Classical in
/-- surfaces.py:2746-2762 `CylindricalSurface3D.is_coincident` of two cylinders; `none`: division by zero (the axis of the other is
null). -/
noncomputable def Cylinder.isCoincident (s t : Cylinder) (tol : ℝ := 1 / 10 ^ 6) : Option Bool :=
  let line : Line3 := ⟨t.frame.origin, t.frame.origin + t.frame.basis.w⟩
  (line.pointDistance s.frame.origin).map fun distance =>
    decide (mathIsClose |V3.dot s.frame.basis.w t.frame.basis.w| 1 tol ∧ mathIsClose distance 0 tol ∧ s.radius = t.radius)

open Classical in
/-- surfaces.py:3759-3773 `ToroidalSurface3D.is_coincident` of two tori. -/
noncomputable def Torus.isCoincident (s t : Torus) (tol : ℝ := 1 / 10 ^ 6) : Bool :=
  decide (mathIsClose |V3.dot s.frame.basis.w t.frame.basis.w| 1 tol ∧ mathIsClose s.majorRadius t.majorRadius tol ∧
    mathIsClose s.minorRadius t.minorRadius tol)

open Classical in
/-- surfaces.py:4160-4174 `ConicalSurface3D.is_coincident` of two cones. -/
noncomputable def Cone.isCoincident (s t : Cone) (tol : ℝ := 1 / 10 ^ 6) : Bool :=
  decide (mathIsClose (V3.dot s.frame.basis.w t.frame.basis.w) 1 tol ∧ Arc.isClose3 s.frame.origin t.frame.origin (1 / 10 ^ 6) ∧
    mathIsClose s.semiAngle t.semiAngle tol)

/-! ## Planes -/

/-- surfaces.py:1383-1397 `Plane3D.from_3_points`; `none`: a null vector is normalised. -/
noncomputable def planeFrom3Points (p1 p2 p3 : V3 ℝ) : Option (Frame3 ℝ) :=
  (V3.unitVector (p2 - p1)).bind fun v1 =>
    (V3.unitVector (p3 - p1)).bind fun v2 =>
      (V3.unitVector (V3.cross v1 v2)).map fun n => ⟨p1, ⟨v1, V3.cross n v1, n⟩⟩

/-- surfaces.py:1399-1404 `Plane3D.from_normal`. -/
noncomputable def planeFromNormal (point normal : V3 ℝ) : Option (Frame3 ℝ) :=
  (V3.deterministicNormalVector normal).bind fun n =>
    (V3.unitVector n).map fun v1 => ⟨point, ⟨v1, V3.cross v1 normal, normal⟩⟩

/-- surfaces.py:1406-1419 `Plane3D.from_plane_vectors`. -/
noncomputable def planeFromPlaneVectors (o x y : V3 ℝ) : Frame3 ℝ := ⟨o, ⟨x, y, V3.cross x y⟩⟩

/-- surfaces.py:1434-1440: the copies of the first point (up to 1e-6) are removed. -/
noncomputable def dropFirstCopies (p0 : V3 ℝ) (ps : List (V3 ℝ)) : List (V3 ℝ) :=
  by classical exact ps.filter fun p => ¬ Arc.isClose3 p p0 (1 / 10 ^ 6)

/-- surfaces.py:1448-1454: the vector most perpendicular to the first one; `none`: a null vector is normalised. -/
noncomputable def mostPerpendicular (origin v1 : V3 ℝ) : List (V3 ℝ) → V3 ℝ → Option (V3 ℝ)
  | [], best => some best
  | p :: ps, best =>
    (V3.unitVector (p - origin)).bind fun v2 =>
      if |V3.dot v1 v2| < |V3.dot v1 best| then mostPerpendicular origin v1 ps v2 else mostPerpendicular origin v1 ps best

/-- surfaces.py:1421-1455 `Plane3D.from_points`. -/
noncomputable def planeFromPoints : List (V3 ℝ) → Except PyErr (Frame3 ℝ)
  | [p1, p2, p3] => match planeFrom3Points p1 p2 p3 with
    | none => .error .zeroDivision
    | some f => .ok f
  | p0 :: p1 :: p2 :: p3 :: ps =>
    match dropFirstCopies p0 (p1 :: p2 :: p3 :: ps) with
    | q1 :: q2 :: qs =>
      match V3.unitVector (q1 - p0), V3.unitVector (q2 - p0) with
      | some v1, some v2 =>
        match mostPerpendicular p0 v1 qs v2 with
        | none => .error .zeroDivision
        | some v2 => match planeFrom3Points p0 (v1 + p0) (v2 + p0) with
          | none => .error .zeroDivision
          | some f => .ok f
      | _, _ => .error .zeroDivision
    | _ => .error .indexError
  | _ => .error .valueError

end Volmdlr.Surface
