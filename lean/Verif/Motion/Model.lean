import Verif.Arc.Arc3Props
import Verif.Surface.Model
import Verif.Solid.Model
import Verif.Nurbs.SurfModel

/-!
# Model of the moves `rotation`, `translation` and `frame_mapping` of curves, edges, surfaces and faces

The three methods of a class are the same text with another method name, so each class has one definition over the kinds of moves
(`Move`, `Move2`); the lines of the three methods are cited.  Names and colours are dropped (`Triangle3D`: C102).
-/

namespace Volmdlr.Motion

open Volmdlr.Arc Volmdlr.Surface Volmdlr.Solid

/-- The arguments of `rotation(center, axis, angle)`, `translation(offset)`, `frame_mapping(frame, side)` in space. -/
inductive Move
  | rotation (center axis : V3 ℝ) (angle : ℝ)
  | translation (offset : V3 ℝ)
  | mapping (frame : Frame3 ℝ) (side : String)

/-- core_compiled.pyx:1574-1593, 1654-1663, 1665-1686: a point of space. -/
noncomputable def Move.point : Move → V3 ℝ → Except PyErr (V3 ℝ)
  | .rotation center axis angle, p => .ok (V3.rotation p center axis angle)
  | .translation offset, p => .ok (V3.translation p offset)
  | .mapping frame side, p => V3.frameMapping p frame side

/-- core_compiled.pyx:3475-3511, 3513-3523: a frame of space. -/
noncomputable def Move.frame : Move → Frame3 ℝ → Except PyErr (Frame3 ℝ)
  | .rotation center axis angle, f => .ok (frameRotation f center axis angle)
  | .translation offset, f => .ok (frameTranslation f offset)
  | .mapping frame side, f => f.frameMapping frame side

/-- curves.py:1693-1720 `Circle3D.rotation`, `translation`, `frame_mapping`. -/
noncomputable def moveCircle (m : Move) (c : Circle3) : Except PyErr Circle3 := do
  let f ← m.frame c.frame
  return ⟨f, c.radius⟩

/-- edges.py:5715-5751 `Arc3D.rotation`, `translation`, `frame_mapping`: the constructor computes the angles again. -/
noncomputable def moveArc (m : Move) (a : Arc3) : Except PyErr Arc3 := do
  let c ← moveCircle m a.circle
  let s ← m.point a.start
  let e ← m.point a.fin
  Arc3.make c s e

/-- edges.py:6093-6104 `FullArc3D` objects, with the angles its constructor computes. -/
noncomputable def fullArc (c : Circle3) (startEnd : V3 ℝ) : Except PyErr Arc3 := Arc3.make c startEnd startEnd

/-- edges.py:6182-6221 `FullArc3D.rotation`, `translation`, `frame_mapping`. -/
noncomputable def moveFullArc (m : Move) (a : Arc3) : Except PyErr Arc3 := do
  let s ← m.point a.start
  let c ← moveCircle m a.circle
  fullArc c s

/-! ## Surfaces and faces -/

/-- surfaces.py:1582-1613 `Plane3D`. -/
noncomputable def movePlane (m : Move) (s : Frame3 ℝ) : Except PyErr (Frame3 ℝ) := m.frame s

/-- surfaces.py:2552-2560, 2567-2587 `CylindricalSurface3D`. -/
noncomputable def moveCylinder (m : Move) (s : Cylinder) : Except PyErr Cylinder := do
  let f ← m.frame s.frame
  return ⟨f, s.radius⟩

/-- surfaces.py:3193-3204, 3378-3399 `ToroidalSurface3D`. -/
noncomputable def moveTorus (m : Move) (s : Torus) : Except PyErr Torus := do
  let f ← m.frame s.frame
  return ⟨f, s.majorRadius, s.minorRadius⟩

/-- surfaces.py:4190-4197, 4361-4382 `ConicalSurface3D`. -/
noncomputable def moveCone (m : Move) (s : Cone) : Except PyErr Cone := do
  let f ← m.frame s.frame
  return ⟨f, s.semiAngle⟩

/-- surfaces.py:5614-5645 `SphericalSurface3D`. -/
noncomputable def moveSphere (m : Move) (s : Sphere) : Except PyErr Sphere := do
  let f ← m.frame s.frame
  return ⟨f, s.radius⟩

/-- surfaces.py:1658-1664 `Plane3D.point2d_to_3d`, without the rounding to 12 digits of `Point2D.to_3d` (simplification; C06 bounds its
effect). -/
noncomputable def planePoint (s : Frame3 ℝ) (p : V2 ℝ) : V3 ℝ := V2.vecTo3d p s.origin s.basis.u s.basis.v

/-- surfaces.py:1689-1693 `Plane3D.point3d_to_2d`. -/
noncomputable def planeParam (s : Frame3 ℝ) (p : V3 ℝ) : V2 ℝ := V3.to2d p s.origin s.basis.u s.basis.v

/-! ## Splines -/

section
variable {K : Type*} [Field K] [LinearOrder K] {V : Type*} [AddCommGroup V] [Module K V] {W : Type*} [AddCommGroup W] [Module K W]

/-- edges.py:1474-1488, 1950-1960, 2089-2101, 5135-5149, 5328-5341 `BSplineCurve.translation`, `frame_mapping`, `BSplineCurve2D.rotation`,
`BSplineCurve3D.rotation`, `to_2d`: every control point is mapped, the rest is given back to the constructor. -/
def moveCurve (f : V → W) (c : BCurve K V) : BCurve K W := BCurve.new c.degree (c.ctrlpts.map f) c.mults c.knots c.weights

/-- edges.py:2171-2183 `BSplineCurve2D.axial_symmetry`: the knots and multiplicities are taken backwards, the control points are not. -/
def symmetricCurve (f : V → W) (c : BCurve K V) : BCurve K W :=
  BCurve.new c.degree (c.ctrlpts.map f) c.mults.reverse c.knots.reverse c.weights

/-- surfaces.py:8310-8365 `BSplineSurface3D.rotation`, `translation`, `frame_mapping`: every control point is mapped, the rest is given back to
the constructor. -/
def moveSurf (f : V → W) (s : BSurf K V) : BSurf K W :=
  BSurf.new s.degreeU s.degreeV (s.ctrlpts.map f) s.nbU s.nbV s.uMults s.vMults s.uKnots s.vKnots s.weights

end

/-! ## The plane -/

/-- The arguments of `rotation(center, angle)`, `translation(offset)`, `frame_mapping(frame, side)` in the plane. -/
inductive Move2
  | rotation (center : V2 ℝ) (angle : ℝ)
  | translation (offset : V2 ℝ)
  | mapping (frame : Frame2 ℝ) (side : String)

/-- core_compiled.pyx:797-822, 824-844: a point of the plane (`frame_mapping` with another side returns a variable that was never
assigned). -/
noncomputable def Move2.point : Move2 → V2 ℝ → Except PyErr (V2 ℝ)
  | .rotation center angle, p => .ok (V2.rotation p center angle)
  | .translation offset, p => .ok (V2.translation p offset)
  | .mapping frame side, p =>
    if side = "old" then .ok (frame.localToGlobal p) else if side = "new" then frame.globalToLocal p else .error .unboundLocal

/-- core_compiled.pyx:3183-3195 `Frame2D.frame_mapping`. -/
noncomputable def frameMapping2 (self frame : Frame2 ℝ) (side : String) : Except PyErr (Frame2 ℝ) :=
  if side = "new" then do
    let o ← frame.globalToLocal self.origin
    let u ← frame.basis.globalToLocal self.basis.u
    let v ← frame.basis.globalToLocal self.basis.v
    return ⟨o, ⟨u, v⟩⟩
  else if side = "old" then
    .ok ⟨frame.localToGlobal self.origin, ⟨frame.basis.localToGlobal self.basis.u, frame.basis.localToGlobal self.basis.v⟩⟩
  else .error .valueError

open Classical in
/-- core_compiled.pyx:2616-2629, 3209-3227 `Frame2D.rotation`. -/
noncomputable def frameRotation2 (f : Frame2 ℝ) (center : V2 ℝ) (angle : ℝ) (rotateBasis : Bool) : Frame2 ℝ :=
  let o := if isClose2 center f.origin (1 / 10 ^ 6) then f.origin else V2.rotation f.origin center angle
  let b : Basis2 ℝ := if rotateBasis then ⟨V2.rotation f.basis.u ⟨0, 0⟩ angle, V2.rotation f.basis.v ⟨0, 0⟩ angle⟩ else f.basis
  ⟨o, b⟩

open Classical in
/-- curves.py:1568-1595 `Circle2D.rotation`, `translation`, `frame_mapping`; core_compiled.pyx:3197-3207 `Frame2D.translation`. -/
noncomputable def moveCircle2 : Move2 → Circle2 → Except PyErr Circle2
  | .rotation center angle, c =>
    if isClose2 center c.frame.origin (1 / 10 ^ 6) then .ok ⟨frameRotation2 c.frame center angle true, c.radius⟩
    else .ok ⟨frameRotation2 c.frame center angle false, c.radius⟩
  | .translation offset, c => .ok ⟨⟨V2.translation c.frame.origin offset, c.frame.basis⟩, c.radius⟩
  | .mapping frame side, c => (frameMapping2 c.frame frame side).map fun f => ⟨f, c.radius⟩

/-- edges.py:3288-3328 `Arc2D.rotation`, `translation`, `frame_mapping`. -/
noncomputable def moveArc2 (m : Move2) (a : Arc2) : Except PyErr Arc2 := do
  let c ← moveCircle2 m a.circle
  let s ← m.point a.start
  let e ← m.point a.fin
  Arc2.make c s e

/-- curves.py:2184-2200 `Ellipse2D`, 2539-2546 `Ellipse3D`: the semi-axes and the frame. -/
structure Ellipse2 where
  majorAxis : ℝ
  minorAxis : ℝ
  frame : Frame2 ℝ

/-- curves.py:2539-2546 `Ellipse3D`. -/
structure Ellipse3 where
  majorAxis : ℝ
  minorAxis : ℝ
  frame : Frame3 ℝ

open Classical in
/-- curves.py:2476-2493 `Ellipse2D.rotation` (`is_trigo` is the sign of the cross product of the frame's vectors; the unit vector of a null
vector raises), 2495-2510 `translation`, `frame_mapping`. -/
noncomputable def moveEllipse2 : Move2 → Ellipse2 → Except PyErr Ellipse2
  | .rotation center angle, e =>
    let rotatedCenter := V2.rotation e.frame.origin center angle
    let pointMajorDir := e.frame.origin + V2.smul e.majorAxis e.frame.basis.u
    let rotatedPoint := V2.rotation pointMajorDir center angle
    match V2.unitVector (rotatedPoint - rotatedCenter) with
    | none => .error .zeroDivision
    | some u =>
      let v := if 0 < V2.cross e.frame.basis.u e.frame.basis.v then V2.normalVector u else -V2.normalVector u
      .ok ⟨e.majorAxis, e.minorAxis, ⟨rotatedCenter, ⟨u, v⟩⟩⟩
  | .translation offset, e => .ok ⟨e.majorAxis, e.minorAxis, ⟨V2.translation e.frame.origin offset, e.frame.basis⟩⟩
  | .mapping frame side, e => (frameMapping2 e.frame frame side).map fun f => ⟨e.majorAxis, e.minorAxis, f⟩

/-- curves.py:2711-2738 `Ellipse3D.rotation`, `translation`, `frame_mapping`. -/
noncomputable def moveEllipse3 (m : Move) (e : Ellipse3) : Except PyErr Ellipse3 := do
  let f ← m.frame e.frame
  return ⟨e.majorAxis, e.minorAxis, f⟩

end Volmdlr.Motion
