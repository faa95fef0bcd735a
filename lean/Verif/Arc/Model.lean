import Verif.Angle.Model
import Verif.Frame.Model
import Verif.Segment.Model

/-!
# Model of circles and arcs

`curves.py` (`CircleMixin`, `Circle2D`), `edges.py` (`ArcMixin`, `Arc2D`, `Arc3D`).

An arc stores its circle, start, end and the two angles computed by its constructor.  The caches (`_angle`, `_length`) hold values that
never change (a computed angle is never zero, C57).  Names are dropped; so is the argument `is_trigo` given by `split` in the
place of the name: the direction of the arcs is that of their circle.
-/

namespace Volmdlr.Arc

open Real Volmdlr.Angle

/-- curves.py:1122-1127 `Circle2D.__init__`. -/
structure Circle2 where
  frame : Frame2 ℝ
  radius : ℝ

/-- curves.py:1636-1653 `Circle3D.__init__`. -/
structure Circle3 where
  frame : Frame3 ℝ
  radius : ℝ

/-- core_compiled.pyx:658-675 `is_close` of two points of the plane. -/
def isClose2 (p q : V2 ℝ) (tol : ℝ) : Prop := mathIsClose (V2.pointDistance p q) 0 tol

/-- core_compiled.pyx:1447-1464 `is_close` of two points of space. -/
def isClose3 (p q : V3 ℝ) (tol : ℝ) : Prop := mathIsClose (V3.pointDistance p q) 0 tol

/-- curves.py:1160-1169 `Circle2D.is_trigo`. -/
def Circle2.IsTrigo (c : Circle2) : Prop := 0 < V2.cross c.frame.basis.u c.frame.basis.v

/-- curves.py:1312-1316 `Circle2D.reverse`. -/
def Circle2.reverse (c : Circle2) : Circle2 := ⟨⟨c.frame.origin, ⟨c.frame.basis.u, -c.frame.basis.v⟩⟩, c.radius⟩

/-- curves.py:1090-1098 `CircleMixin.point_at_abscissa`, in the plane. -/
noncomputable def Circle2.pointAtAbscissa (c : Circle2) (s : ℝ) : V2 ℝ :=
  let start := c.frame.origin + V2.smul c.radius c.frame.basis.u
  V2.rotation start c.frame.origin (V2.cross c.frame.basis.u c.frame.basis.v * s / c.radius)

open Classical in
/-- curves.py:1052-1073 `CircleMixin.abscissa`, in the plane. -/
noncomputable def Circle2.abscissa (c : Circle2) (point : V2 ℝ) (tol : ℝ := 1 / 10 ^ 6) : Except PyErr ℝ :=
  if ¬mathIsClose (V2.pointDistance c.frame.origin point) c.radius tol then .error .valueError
  else do
    let l ← c.frame.globalToLocal point
    if c.radius = 0 then .error .zeroDivision
    else return c.radius * |sinCosAngle (l.x / c.radius) (l.y / c.radius)|

open Classical in
/-- edges.py:2661-2666 `ArcMixin._arc_point_angle`, in the plane. -/
noncomputable def Circle2.pointAngle (c : Circle2) (p : V2 ℝ) : Except PyErr ℝ := do
  let l ← c.frame.globalToLocal p
  if c.radius = 0 then .error .zeroDivision
  else return sinCosAngle (l.x / c.radius) (l.y / c.radius)

open Classical in
/-- edges.py:2661-2666 `ArcMixin._arc_point_angle`, in space. -/
noncomputable def Circle3.pointAngle (c : Circle3) (p : V3 ℝ) : Except PyErr ℝ := do
  let l ← c.frame.globalToLocal p
  if c.radius = 0 then .error .zeroDivision
  else return sinCosAngle (l.x / c.radius) (l.y / c.radius)

/-- edges.py:2679-2680: the end angle is taken after the start angle. -/
noncomputable def endAfter (startAngle endAngle : ℝ) : ℝ := if startAngle ≥ endAngle then endAngle + 2 * π else endAngle

/-- edges.py:2901-2905, 2626-2633 `Arc2D` objects. -/
structure Arc2 where
  circle : Circle2
  start : V2 ℝ
  fin : V2 ℝ
  angleStart : ℝ
  angleEnd : ℝ

/-- edges.py:5569-5573, 2626-2633 `Arc3D` objects. -/
structure Arc3 where
  circle : Circle3
  start : V3 ℝ
  fin : V3 ℝ
  angleStart : ℝ
  angleEnd : ℝ

/-- edges.py:2901-2905, 2626-2633, 2675-2681 `Arc2D.__init__` with `get_start_end_angles`. -/
noncomputable def Arc2.make (circle : Circle2) (start fin : V2 ℝ) : Except PyErr Arc2 := do
  let a ← circle.pointAngle start
  let b ← circle.pointAngle fin
  return ⟨circle, start, fin, a, endAfter a b⟩

/-- edges.py:5569-5573, 2626-2633, 2675-2681 `Arc3D.__init__` with `get_start_end_angles`. -/
noncomputable def Arc3.make (circle : Circle3) (start fin : V3 ℝ) : Except PyErr Arc3 := do
  let a ← circle.pointAngle start
  let b ← circle.pointAngle fin
  return ⟨circle, start, fin, a, endAfter a b⟩

/-- edges.py:2645-2654 `ArcMixin.angle`. -/
def Arc2.angle (a : Arc2) : ℝ := a.angleEnd - a.angleStart

/-- edges.py:2645-2654 `ArcMixin.angle`. -/
def Arc3.angle (a : Arc3) : ℝ := a.angleEnd - a.angleStart

/-- edges.py:2683-2691 `ArcMixin.length`. -/
noncomputable def Arc2.length (a : Arc2) : ℝ := a.circle.radius * |a.angle|

/-- edges.py:2683-2691 `ArcMixin.length`. -/
noncomputable def Arc3.length (a : Arc3) : ℝ := a.circle.radius * |a.angle|

open Classical in
/-- edges.py:2693-2702 `ArcMixin.point_at_abscissa`, used by `Arc2D`. -/
noncomputable def Arc2.pointAtAbscissa (a : Arc2) (s : ℝ) : V2 ℝ :=
  if a.circle.IsTrigo then V2.rotation a.start a.circle.frame.origin (s / a.circle.radius)
  else V2.rotation a.start a.circle.frame.origin (-s / a.circle.radius)

open Classical in
/-- edges.py:5693-5702 `Arc3D.point_at_abscissa`. -/
noncomputable def Arc3.pointAtAbscissa (a : Arc3) (s : ℝ) : Except PyErr (V3 ℝ) :=
  if s > a.length + 1 / 10 ^ 6 then .error .valueError
  else .ok (V3.rotation a.start a.circle.frame.origin a.circle.frame.basis.w (s / a.circle.radius))

/-- edges.py:2796-2804 `ArcMixin.get_reverse`. -/
noncomputable def Arc2.reverse (a : Arc2) : Except PyErr Arc2 := Arc2.make a.circle.reverse a.fin a.start

open Classical in
/-- edges.py:2806-2824 `ArcMixin.split`, `Arc2D`. -/
noncomputable def Arc2.split (a : Arc2) (p : V2 ℝ) (tol : ℝ := 1 / 10 ^ 6) : Except PyErr (Option Arc2 × Option Arc2) :=
  if isClose2 p a.start tol then .ok (none, some a)
  else if isClose2 p a.fin tol then .ok (some a, none)
  else do
    let b ← Arc2.make a.circle a.start p
    let c ← Arc2.make a.circle p a.fin
    return (some b, some c)

open Classical in
/-- edges.py:2806-2824 `ArcMixin.split`, `Arc3D`. -/
noncomputable def Arc3.split (a : Arc3) (p : V3 ℝ) (tol : ℝ := 1 / 10 ^ 6) : Except PyErr (Option Arc3 × Option Arc3) :=
  if isClose3 p a.start tol then .ok (none, some a)
  else if isClose3 p a.fin tol then .ok (some a, none)
  else do
    let b ← Arc3.make a.circle a.start p
    let c ← Arc3.make a.circle p a.fin
    return (some b, some c)

/-- `math.isclose` of the standard library with a relative tolerance only. -/
def mathIsCloseRel (a b rel : ℝ) : Prop := |a - b| ≤ rel * max |a| |b|

open Classical in
/-- edges.py:2966-2969 and 3059-3062: the arc itself, reversed when it is trigonometric. -/
noncomputable def Arc2.clockwise (a : Arc2) : Except PyErr Arc2 := if a.circle.IsTrigo then a.reverse else .ok a

open Classical in
/-- edges.py:2958-2977 `Arc2D.point_belongs`. -/
noncomputable def Arc2.pointBelongs (a : Arc2) (p : V2 ℝ) (tol : ℝ := 1 / 10 ^ 6) : Except PyErr Bool :=
  if ¬mathIsCloseRel (V2.pointDistance p a.circle.frame.origin) a.circle.radius (5 / 1000) then .ok false
  else if isClose2 p a.start tol ∨ isClose2 p a.fin tol then .ok true
  else do
    let c ← a.clockwise
    let vs := c.start - c.circle.frame.origin
    let ve := c.fin - c.circle.frame.origin
    let vp := p - c.circle.frame.origin
    return decide (mathIsCloseRel (clockwiseAngle vs ve) (clockwiseAngle vs vp + clockwiseAngle vp ve) (1 / 100))

open Classical in
/-- edges.py:3048-3070 `Arc2D.abscissa`. -/
noncomputable def Arc2.abscissa (a : Arc2) (p : V2 ℝ) (tol : ℝ := 1 / 10 ^ 6) : Except PyErr ℝ :=
  if ¬mathIsClose (V2.pointDistance p a.circle.frame.origin) a.circle.radius tol then .error .valueError
  else if V2.pointDistance p a.start < tol then .ok 0
  else if V2.pointDistance p a.fin < tol then .ok a.length
  else do
    let c ← a.clockwise
    let vs := c.start - c.circle.frame.origin
    let ve := c.fin - c.circle.frame.origin
    let vp := p - c.circle.frame.origin
    let ps := clockwiseAngle vs vp
    if mathIsClose (clockwiseAngle vs ve) (ps + clockwiseAngle vp ve) tol then
      if a.circle.IsTrigo then return a.length - a.circle.radius * ps
      else return a.circle.radius * ps
    else .error .valueError

open Classical in
/-- edges.py:3104-3120 `Arc2D.straight_line_area`. -/
noncomputable def Arc2.straightLineArea (a : Arc2) : ℝ :=
  let area :=
    if a.angle ≥ π then
      let angle := 2 * π - a.angle
      π * a.circle.radius ^ 2 - 1 / 2 * a.circle.radius ^ 2 * (angle - sin angle)
    else 1 / 2 * a.circle.radius ^ 2 * (a.angle - sin a.angle)
  if a.circle.IsTrigo then area else -area

/-- edges.py:2765-2767 `ArcMixin.discretization_points` with the number of points given (`n ≠ 1`, else a division by zero), `Arc2D`. -/
noncomputable def Arc2.discretizationPoints (a : Arc2) (n : ℕ) : List (V2 ℝ) :=
  (List.range n).map fun i : ℕ => a.pointAtAbscissa (i * (a.length / (n - 1)))

/-- edges.py:3090-3102 `Arc2D.bounding_rectangle`: minimum and maximum of the coordinates of twenty points of the arc
(`xmin, xmax, ymin, ymax`). -/
noncomputable def Arc2.boundingRectangle (a : Arc2) : ℝ × ℝ × ℝ × ℝ :=
  let l := a.discretizationPoints 20
  let least (m : List ℝ) : ℝ := m.tail.foldl min (m.headD 0)
  let greatest (m : List ℝ) : ℝ := m.tail.foldl max (m.headD 0)
  (least (l.map V2.x), greatest (l.map V2.x), least (l.map V2.y), greatest (l.map V2.y))

/-- curves.py:1234-1258 `Circle2D.find_circle_center_from_3_points`.  Both branches solve the same linear system (`npy.linalg.solve`
is used when the determinant is below `1e-10`); exactly, the solution is the same.  `none` is `LinAlgError`: zero determinant. -/
noncomputable def circleCenter (p1 p2 p3 : V2 ℝ) : Option (V2 ℝ) :=
  let m : M22 ℝ := ⟨2 * (p1.x - p2.x), 2 * (p1.y - p2.y), 2 * (p1.x - p3.x), 2 * (p1.y - p3.y)⟩
  let b : V2 ℝ := ⟨-(p2.x ^ 2 + p2.y ^ 2 - p1.x ^ 2 - p1.y ^ 2), -(p3.x ^ 2 + p3.y ^ 2 - p1.x ^ 2 - p1.y ^ 2)⟩
  if M22.det m = 0 then none
  else some ⟨(m.m22 * b.x - m.m12 * b.y) / M22.det m, (m.m11 * b.y - m.m21 * b.x) / M22.det m⟩

/-- curves.py:1221-1231 `Circle2D.from_3_points` with the default direction. -/
noncomputable def circleFrom3Points (p1 p2 p3 : V2 ℝ) : Option Circle2 :=
  (circleCenter p1 p2 p3).map fun c => ⟨⟨c, ⟨⟨1, 0⟩, ⟨0, 1⟩⟩⟩, V2.pointDistance p1 c⟩

/-- edges.py:2931-2942 `Arc2D.from_3_points`; the failure to solve is the `valueError` here (`LinAlgError` is a `ValueError`). -/
noncomputable def Arc2.from3Points (p1 p2 p3 : V2 ℝ) : Except PyErr Arc2 :=
  match circleFrom3Points p1 p2 p3 with
  | none => .error .valueError
  | some circle => do
    let arc ← Arc2.make circle p1 p3
    let b ← arc.pointBelongs p2
    if ¬b then Arc2.make circle.reverse p1 p3 else return arc

/-- edges.py:2668-2673 `ArcMixin.get_arc_point_angle`, `Arc3D`. -/
noncomputable def Arc3.arcPointAngle (a : Arc3) (p : V3 ℝ) : Except PyErr ℝ := do
  let t ← a.circle.pointAngle p
  return if a.angleStart > t then t + 2 * π else t

open Classical in
/-- edges.py:5676-5691 `Arc3D.abscissa`. -/
noncomputable def Arc3.abscissa (a : Arc3) (p : V3 ℝ) (tol : ℝ := 1 / 10 ^ 6) : Except PyErr ℝ :=
  if V3.pointDistance p a.start ≤ tol then .ok 0
  else if V3.pointDistance p a.fin ≤ tol then .ok a.length
  else do
    let t ← a.arcPointAngle p
    if ¬(a.angleStart ≤ t ∧ t ≤ a.angleEnd) then .error .valueError
    else return a.circle.radius * |t - a.angleStart|

/-- edges.py:5628-5642 `Arc3D.from_angle` for an angle other than `2π`; `none` is the division by zero of the projection. -/
noncomputable def Arc3.fromAngle (start : V3 ℝ) (angle : ℝ) (axisPoint axis : V3 ℝ) : Option (Except PyErr Arc3) :=
  let fin := V3.rotation start axisPoint axis angle
  (pointProjection3 start axisPoint (axisPoint + axis)).map fun pr =>
    let center := pr.1
    let u := start - center
    Arc3.make ⟨⟨center, ⟨u, V3.cross axis u, axis⟩⟩, V3.pointDistance center start⟩ start fin

end Volmdlr.Arc
