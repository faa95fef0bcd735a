import Verif.Surface.Model
import Verif.Arc.Model

/-!
# Model of `linesegment2d_to_3d` of the cylinder, the cone, the torus and the sphere (surfaces.py)

The points of the surfaces are given by the same formulas as in `parametric_points_to_3d`: the flushing of coordinates below 1e-16 made by
`local_to_global_coordinates` (C53) is left out.
-/

namespace Volmdlr.Iso

open Real Volmdlr.Angle Volmdlr.Arc Volmdlr.Surface

/-- The names of segments of the parametric domain which the conversion looks at. -/
inductive SegName | none | linesegment | arc | fullarc | construction
  deriving DecidableEq

/-- What the conversion of a segment gives: nothing, a segment, an arc, a full circle with its starting point, or a curve through points. -/
inductive Image where
  | nothing
  | line (a b : V3 ℝ)
  | arc (a : Arc3)
  | fullArc (c : Circle3) (startEnd : V3 ℝ)
  | fitted (points : List (V3 ℝ))

/-- edges.py:711-722 and 122-150 `discretization_points` of a segment of the parametric domain with `n` points. -/
noncomputable def pointsOf (a b : V2 ℝ) (n : ℕ) : List (V2 ℝ) :=
  (List.range n).map fun (i : ℕ) => ⟨a.x + (b.x - a.x) * (i / (n - 1)), a.y + (b.y - a.y) * (i / (n - 1))⟩

open Classical in
/-- surfaces.py:2217-2252 `PeriodicalSurface.linesegment2d_to_3d`, for a cylinder. -/
noncomputable def cylinderSegment (s : Cylinder) (name : SegName) (a b : V2 ℝ) : Except PyErr Image :=
  let start := s.paramTo3d a
  let fin := s.paramTo3d b
  let u := s.frame.basis.u
  let v := s.frame.basis.v
  let center := s.frame.origin + V3.smul a.y s.frame.basis.w
  let circle : Circle3 :=
    if a.x > b.x then ⟨⟨center, ⟨u, -v, V3.cross u (-v)⟩⟩, V3.pointDistance start center⟩
    else ⟨⟨center, ⟨u, v, s.frame.basis.w⟩⟩, V3.pointDistance start center⟩
  if mathIsClose a.x b.x (1 / 10 ^ 4) ∨ name = .linesegment then
    if isClose3 start fin (1 / 10 ^ 6) then .ok .nothing else .ok (.line start fin)
  else if mathIsClose a.y b.y (1 / 10 ^ 4) ∨ name = .arc ∨ name = .fullarc then
    if mathIsClose |a.x - b.x| (2 * π) (1 / 10 ^ 4) then .ok (.fullArc circle start)
    else (Arc3.make circle start fin).map .arc
  else if isClose3 start fin (1 / 10 ^ 6) then .ok .nothing
  else .ok (.fitted ((pointsOf a b 10).map s.paramTo3d))

open Classical in
/-- surfaces.py:3210-3247 `ToroidalSurface3D.linesegment2d_to_3d` (the last line simplifies the curve fitted: left out). -/
noncomputable def torusSegment (s : Torus) (a b : V2 ℝ) : Except PyErr Image :=
  let start := s.paramTo3d a
  let fin := s.paramTo3d b
  let u := s.frame.basis.u
  let v := s.frame.basis.v
  let w := s.frame.basis.w
  if mathIsClose a.x b.x (1 / 10 ^ 4) then
    let center := V3.rotation (s.frame.origin + V3.smul s.majorRadius u) s.frame.origin w a.x
    match V3.unitVector (center - s.frame.origin) with
    | none => .error .zeroDivision
    | some uVector =>
      let wVector := if a.y < b.y then V3.cross uVector w else V3.cross w uVector
      let vVector := V3.cross wVector uVector
      let circle : Circle3 := ⟨⟨center, ⟨uVector, vVector, wVector⟩⟩, V3.pointDistance start center⟩
      if mathIsClose |a.y - b.y| (2 * π) (1 / 10 ^ 4) then .ok (.fullArc circle (center + V3.smul s.minorRadius uVector))
      else (Arc3.make circle start fin).map .arc
  else if mathIsClose a.y b.y (1 / 10 ^ 4) then
    let center := s.frame.origin + V3.smul (s.minorRadius * sin a.y) w
    let basis : Basis3 ℝ := if a.x > b.x then ⟨u, -v, V3.cross u (-v)⟩ else ⟨u, v, w⟩
    let circle : Circle3 := ⟨⟨center, basis⟩, V3.pointDistance start center⟩
    if mathIsClose |a.x - b.x| (2 * π) (1 / 10 ^ 4) then .ok (.fullArc circle (center + V3.smul (s.minorRadius + s.majorRadius) u))
    else (Arc3.make circle start fin).map .arc
  else .ok (.fitted ((pointsOf a b 10).map s.paramTo3d))

/-- curves.py:2020-2026 `Circle3D.reverse`. -/
def reverseCircle (c : Circle3) : Circle3 := ⟨⟨c.frame.origin, ⟨c.frame.basis.u, -c.frame.basis.v, V3.cross c.frame.basis.u (-c.frame.basis.v)⟩⟩, c.radius⟩

open Classical in
/-- surfaces.py:4286-4317 `ConicalSurface3D.linesegment2d_to_3d`, up to the segments which are neither rules nor parallels (`fitted`: what follows
intersects the cone with the plane of three points of the segment); `belongs` is the test that an arc contains a point
(`Arc3D.point_belongs`).  The direction of the segment has a positive first coordinate when its end is to the right of its start. -/
noncomputable def coneSegment (s : Cone) (belongs : Arc3 → V3 ℝ → Bool) (name : SegName) (a b : V2 ℝ) : Except PyErr Image :=
  let start := s.paramTo3d a
  let fin := s.paramTo3d b
  let u := s.frame.basis.u
  let v := s.frame.basis.v
  let w := s.frame.basis.w
  if mathIsClose a.x b.x (1 / 10 ^ 4) then .ok (.line start fin)
  else if name = .construction ∨ (mathIsClose a.y b.y (1 / 10 ^ 4) ∧ mathIsClose a.y 0 (1 / 10 ^ 6)) then .ok .nothing
  else
    let center := s.frame.origin + V3.smul a.y w
    let circle : Circle3 := ⟨⟨center, if b.x - a.x > 0 then ⟨u, v, w⟩ else ⟨u, -v, -w⟩⟩, V3.pointDistance center start⟩
    if mathIsClose a.y b.y (1 / 10 ^ 4) then
      if |a.x - b.x| = 2 * π then .ok (.fullArc circle start)
      else
        let interior := s.paramTo3d ⟨1 / 2 * (a.x + b.x), a.y⟩
        match Arc3.make circle start fin with
        | .error e => .error e
        | .ok arc => if belongs arc interior then .ok (.arc arc) else (Arc3.make (reverseCircle circle) start fin).map .arc
    else .ok (.fitted ((pointsOf a b 3).map s.paramTo3d))

open Classical in
/-- surfaces.py:5042-5052: the circle of `SphericalSurface3D.linesegment2d_to_3d`; `none` is a division by zero. -/
noncomputable def sphereCircle (s : Sphere) (a b : V2 ℝ) : Option Circle3 :=
  let start := s.paramTo3d a
  let interior := s.paramTo3d ⟨1 / 2 * (a.x + b.x), 1 / 2 * (a.y + b.y)⟩
  match V3.unitVector (start - s.frame.origin), V3.unitVector (interior - s.frame.origin) with
  | some u, some v => some ⟨⟨s.frame.origin, ⟨u, v, V3.cross u v⟩⟩, V3.pointDistance start s.frame.origin⟩
  | _, _ => none

open Classical in
/-- surfaces.py:5034-5059 `SphericalSurface3D.linesegment2d_to_3d`; `belongs` is the test that an arc contains a point (`Arc3D.point_belongs`). -/
noncomputable def sphereSegment (s : Sphere) (belongs : Arc3 → V3 ℝ → Bool) (name : SegName) (a b : V2 ℝ) : Except PyErr Image :=
  if name = .construction then .ok .nothing
  else
    let start := s.paramTo3d a
    let interior := s.paramTo3d ⟨1 / 2 * (a.x + b.x), 1 / 2 * (a.y + b.y)⟩
    let fin := s.paramTo3d b
    if isClose3 start interior (1 / 10 ^ 6) ∧ isClose3 interior fin (1 / 10 ^ 6) ∧ isClose3 fin start (1 / 10 ^ 6) then .ok .nothing
    else
      match sphereCircle s a b with
      | none => .error .zeroDivision
      | some circle =>
        if isClose3 start fin (1 / 10 ^ 6) ∨ V2.pointDistance a b = 2 * π then .ok (.fullArc circle start)
        else
          match Arc3.make circle start fin with
          | .error e => .error e
          | .ok arc => if belongs arc interior then .ok (.arc arc) else (Arc3.make (reverseCircle circle) start fin).map .arc

end Volmdlr.Iso
