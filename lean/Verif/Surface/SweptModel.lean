import Verif.Surface.Model
import Verif.Segment.Model

/-!
# Model of the swept surfaces of `volmdlr/surfaces.py`

`RevolutionSurface3D` (a generatrix turned about an axis) and `ExtrusionSurface3D` (a generatrix translated along a direction).  The
generatrix is a line, a segment, an arc of circle or any other edge; of the last two the model keeps what the surfaces use: the length,
`point_at_abscissa` and `abscissa`, as functions (`none`: an exception), and the centre and the radius of the arc.
-/

namespace Volmdlr.Surface

open Volmdlr.Angle Volmdlr.Intersect Real

/-- edges.py:114-121, 396-404 `Edge`: what the swept surfaces ask of an edge. -/
structure Curve where
  length : ℝ
  pointAt : ℝ → Option (V3 ℝ)
  abscissa : V3 ℝ → Option ℝ

/-- The classes of generatrix that `RevolutionSurface3D` tells apart (surfaces.py:6337, 6379, 6699-6708). -/
inductive Generatrix where
  | line (l : Line3)
  | segment (s : Seg3)
  | arc (center : V3 ℝ) (radius : ℝ) (c : Curve)
  | other (c : Curve)

/-- `point_at_abscissa`: curves.py:289-298 for a line, edges.py:711-718 for a segment. -/
noncomputable def Generatrix.pointAt : Generatrix → ℝ → Option (V3 ℝ)
  | .line l => l.pointAtAbscissa
  | .segment s => s.pointAtAbscissa
  | .arc _ _ c => c.pointAt
  | .other c => c.pointAt

/-- `abscissa`: curves.py:275-287 for a line, edges.py:627-645 for a segment (default tolerance 1e-6). -/
noncomputable def Generatrix.abscissa : Generatrix → V3 ℝ → Option ℝ
  | .line l => l.abscissa
  | .segment s => fun p => (s.abscissa p (1 / 10 ^ 6)).toOption
  | .arc _ _ c => c.abscissa
  | .other c => c.abscissa

/-- surfaces.py:6337-6340: the abscissa of the second reference point (`0.5 * edge.length()`, or `0.05` for a line). -/
noncomputable def Generatrix.secondAbscissa : Generatrix → ℝ
  | .line _ => 1 / 20
  | .segment s => 1 / 2 * s.length
  | .arc _ _ c => 1 / 2 * c.length
  | .other c => 1 / 2 * c.length

/-! ## Revolution -/

/-- surfaces.py:6313-6347 `RevolutionSurface3D`. -/
structure Revolution where
  edge : Generatrix
  axisPoint : V3 ℝ
  axis : V3 ℝ
  frame : Frame3 ℝ

/-- core_compiled.pyx:556-562 `Vector.vector_projection`; `none`: division by zero. -/
noncomputable def vectorProjection (a b : V3 ℝ) : Option (V3 ℝ) :=
  if V3.dot b b = 0 then none else some (V3.smul (V3.dot a b / V3.dot b b) b)

open Classical in
/-- surfaces.py:6333-6341: the point of the generatrix that fixes the first vector of the frame. -/
noncomputable def referencePoint (edge : Generatrix) (axisPoint w : V3 ℝ) : Option (V3 ℝ) :=
  (edge.pointAt 0).bind fun point1 =>
    if Arc.isClose3 point1 axisPoint (1 / 10 ^ 6) ∨ isColinear w (point1 - axisPoint) = true then edge.pointAt edge.secondAbscissa
    else some point1

/-- surfaces.py:6327-6347 `RevolutionSurface3D.__init__`; `none`: an exception (null vector normalised, no such point of the edge). -/
noncomputable def Revolution.new (edge : Generatrix) (axisPoint axis : V3 ℝ) : Option Revolution :=
  (V3.unitVector axis).bind fun w =>
    (referencePoint edge axisPoint w).bind fun point1 =>
      let vector1 := point1 - axisPoint
      (vectorProjection vector1 w).bind fun pr =>
        (V3.unitVector (vector1 - pr)).map fun u =>
          ⟨edge, axisPoint, w, ⟨axisPoint, ⟨u, V3.cross w u, w⟩⟩⟩

/-- surfaces.py:6389-6401 `RevolutionSurface3D.point2d_to_3d`. -/
noncomputable def Revolution.to3d (s : Revolution) (p : V2 ℝ) : Option (V3 ℝ) :=
  (s.edge.pointAt p.y).map fun pointAtCurve =>
    let pointVector := pointAtCurve - s.axisPoint
    s.axisPoint + V3.smul (cos p.x) pointVector + V3.smul (1 - cos p.x) (V3.smul (V3.dot pointVector s.axis) s.axis)
      + V3.smul (sin p.x) (V3.cross s.axis pointVector)

/-- surfaces.py:6403-6416 `RevolutionSurface3D.point3d_to_2d`. -/
noncomputable def Revolution.to2d (s : Revolution) (p : V3 ℝ) : Option (V2 ℝ) :=
  (s.frame.globalToLocal p).toOption.bind fun q =>
    let u := atan2 (snap (1 / 10 ^ 12) q.y) (snap (1 / 10 ^ 12) q.x)
    (s.edge.abscissa (V3.rotation p s.axisPoint s.axis (-u))).map fun v => ⟨u, v⟩

open Classical in
/-- surfaces.py:6359-6387 `RevolutionSurface3D.y_periodicity`; outer `none`: exception.  For a line the bound of the domain is infinite and
the comparison of the points fails: no periodicity. -/
noncomputable def Revolution.yPeriodicity (s : Revolution) : Option (Option ℝ) :=
  let closed (d : ℝ) : Option (Option ℝ) :=
    (s.to3d ⟨1 / 2 * (π - -π), 0⟩).bind fun pc =>
      (s.to3d ⟨1 / 2 * (π - -π), d⟩).map fun pd => if Arc.isClose3 pd pc (1 / 10 ^ 6) then some d else none
  match s.edge with
  | .line _ => some none
  | .segment e => closed e.length
  | .arc _ _ c => closed c.length
  | .other c => closed c.length

/-- surfaces.py:6439-6441 and 6023-6025: a value is brought back by one period (a null period is not one). -/
noncomputable def wrapPeriod (period : Option ℝ) (x : ℝ) : ℝ :=
  match period with
  | none => x
  | some d => if d = 0 then x else
    let x := if x > d then x - d else x
    if x < 0 then x + d else x

/-- surfaces.py:6418-6450 `RevolutionSurface3D.parametric_points_to_3d`, one row: the row as it is left in the array of the caller
(`reshape` is a view, the values are changed in place) and the point. -/
noncomputable def Revolution.paramTo3d (s : Revolution) (p : V2 ℝ) : Option (V2 ℝ × V3 ℝ) :=
  s.yPeriodicity.bind fun period =>
    let v := wrapPeriod period p.y
    (s.edge.pointAt v).map fun c =>
      let d := c - s.axisPoint
      (⟨p.x, v⟩, s.axisPoint + V3.smul (cos p.x) d + V3.smul (1 - cos p.x) (V3.smul (V3.dot d s.axis) s.axis)
        + V3.cross s.axis (V3.smul (sin p.x) d))

/-- edges.py:4468-4501, curves.py:906-930 `translation` and `rotation` of a segment or a line: both points are moved; of another edge only
what the surface uses is kept: its points are moved, its abscissas are those of the point moved back. -/
noncomputable def Generatrix.map (f g : V3 ℝ → V3 ℝ) : Generatrix → Generatrix
  | .line l => .line ⟨f l.point1, f l.point2⟩
  | .segment s => .segment ⟨f s.start, f s.stop⟩
  | .arc c r k => .arc (f c) r ⟨k.length, fun s => (k.pointAt s).map f, fun p => k.abscissa (g p)⟩
  | .other k => .other ⟨k.length, fun s => (k.pointAt s).map f, fun p => k.abscissa (g p)⟩

/-- surfaces.py:6672-6680 `RevolutionSurface3D.translation`. -/
noncomputable def Revolution.translation (s : Revolution) (offset : V3 ℝ) : Option Revolution :=
  Revolution.new (s.edge.map (fun p => p + offset) (fun p => p - offset)) (s.axisPoint + offset) s.axis

/-- surfaces.py:6682-6694 `RevolutionSurface3D.rotation`: the axis is turned like a point, about the given centre. -/
noncomputable def Revolution.rotation (s : Revolution) (center axis : V3 ℝ) (angle : ℝ) : Option Revolution :=
  Revolution.new (s.edge.map (fun p => V3.rotation p center axis angle) (fun p => V3.rotation p center axis (-angle)))
    (V3.rotation s.axisPoint center axis angle) (V3.rotation s.axis center axis angle)

/-- What `simplify` returns. -/
inductive Simplified where
  | sphere (s : Sphere)
  | cone (s : Cone)
  | cylinder (s : Cylinder)
  | same (s : Revolution)

/-- curves.py:785-791 `Line3D.point_distance`, edges.py:4413-4422 `LineSegment3D.point_distance`. -/
noncomputable def Generatrix.pointDistance : Generatrix → V3 ℝ → Option ℝ
  | .line l, p => l.pointDistance p
  | .segment s, p => (linesegment3dPointDistance s.start s.stop p).map Prod.fst
  | _, _ => none

open Classical in
/-- surfaces.py:6704-6726: the generatrix is carried by a line. -/
noncomputable def Revolution.simplifyLine (s : Revolution) (generatrix : Line3) : Option Simplified :=
  let line3d : Line3 := ⟨s.axisPoint, s.axisPoint + s.axis⟩
  (line3d.intersection generatrix).bind fun intersections =>
    (V3.unitVector generatrix.dir).bind fun direction =>
      match intersections with
      | some x =>
        (if V3.dot s.axis direction > 0 then vectors3dAngle s.axis direction else vectors3dAngle s.axis (-direction)).bind fun semiAngle =>
          if ¬Arc.isClose3 s.axisPoint x (1 / 10 ^ 6) then
            (V3.unitVector (s.axisPoint - x)).map fun w =>
              .cone ⟨⟨x, ⟨s.frame.basis.u, V3.cross w s.frame.basis.u, w⟩⟩, semiAngle⟩
          else some (.cone ⟨⟨x, s.frame.basis⟩, semiAngle⟩)
      | none =>
        if isColinear s.axis direction = true then
          (s.edge.pointDistance s.axisPoint).map fun r => .cylinder ⟨s.frame, r⟩
        else some (.same s)

open Classical in
/-- surfaces.py:6696-6727 `RevolutionSurface3D.simplify`; `none`: an exception. -/
noncomputable def Revolution.simplify (s : Revolution) : Option Simplified :=
  match s.edge with
  | .arc center radius _ =>
    ((⟨s.axisPoint, s.axisPoint + s.axis⟩ : Line3).pointProjection center).map fun pr =>
      if mathIsClose (V3.pointDistance pr.1 center) 0 (1 / 10 ^ 6) then .sphere ⟨s.frame, radius⟩ else .same s
  | .segment e => s.simplifyLine ⟨e.start, e.stop⟩
  | .line l => s.simplifyLine l
  | .other _ => some (.same s)

/-! ## Extrusion -/

/-- The edge of an extrusion: its start, its centre if it has one, its `line_intersections` if it has that method, its
`point_projection` if it has one (surfaces.py:5907, 5986, 5993). -/
structure ExtrudedEdge where
  curve : Curve
  start : V3 ℝ
  stop : V3 ℝ
  center : Option (V3 ℝ)
  lineIntersections : Option (Line3 → List (V3 ℝ))
  pointProjection : Option (V3 ℝ → V3 ℝ)

/-- surfaces.py:5886-5913 `ExtrusionSurface3D`. -/
structure Extrusion where
  edge : ExtrudedEdge
  direction : V3 ℝ
  frame : Frame3 ℝ

/-- surfaces.py:5902-5913 `ExtrusionSurface3D.__init__`. -/
noncomputable def Extrusion.new (edge : ExtrudedEdge) (direction : V3 ℝ) : Option Extrusion :=
  (V3.unitVector direction).bind fun d =>
    (Frame3.fromPointAndVector (edge.center.getD edge.start) d ⟨0, 0, 1⟩).toOption.map fun f => ⟨edge, d, f⟩

open Classical in
/-- surfaces.py:5925-5935 `ExtrusionSurface3D.x_periodicity` (the cached value is this one). -/
noncomputable def Extrusion.xPeriodicity (s : Extrusion) : Option ℝ :=
  if Arc.isClose3 s.edge.start s.edge.stop (1 / 10 ^ 6) then some s.edge.curve.length else none

/-- surfaces.py:5963-5967: one period is subtracted or added. -/
noncomputable def wrapPeriodElse (period : Option ℝ) (x : ℝ) : ℝ :=
  match period with
  | none => x
  | some d => if d = 0 then x else if x > d then x - d else if x < 0 then x + d else x

/-- surfaces.py:5952-5970 `ExtrusionSurface3D.point2d_to_3d`. -/
noncomputable def Extrusion.to3d (s : Extrusion) (p : V2 ℝ) : Option (V3 ℝ) :=
  (s.edge.curve.pointAt (wrapPeriodElse s.xPeriodicity (snap (1 / 10 ^ 7) p.x))).map fun c =>
    c + V3.smul (snap (1 / 10 ^ 7) p.y) s.frame.basis.w

/-- surfaces.py:5983-5998: the point of the edge facing a point. -/
noncomputable def Extrusion.facingPoint (s : Extrusion) (p : V3 ℝ) (x y : ℝ) : V3 ℝ :=
  let fallback := match s.edge.pointProjection with
    | some f => f p
    | none => s.frame.localToGlobal ⟨x, y, 0⟩
  match s.edge.lineIntersections with
  | none => fallback
  | some f => match f ⟨p, p + s.frame.basis.w⟩ with
    | [] => fallback
    | c :: _ => c

/-- surfaces.py:5972-6002 `ExtrusionSurface3D.point3d_to_2d` (in the last branch 5997 `point_at_curve_local` is not computed from the
point: it is `(x, y, 0)`, the two differ by the rounding of `local_to_global_coordinates` only). -/
noncomputable def Extrusion.to2d (s : Extrusion) (p : V3 ℝ) : Option (V2 ℝ) :=
  (s.frame.globalToLocal p).toOption.bind fun q =>
    let c := s.facingPoint p (snap (1 / 10 ^ 7) q.x) (snap (1 / 10 ^ 7) q.y)
    (s.frame.globalToLocal c).toOption.bind fun local' =>
      (s.edge.curve.abscissa c).map fun u => ⟨u, snap (1 / 10 ^ 7) q.z - local'.z⟩

/-- surfaces.py:6004-6030 `ExtrusionSurface3D.parametric_points_to_3d`, one row: the row left in the array of the caller (changed in
place) and the point. -/
noncomputable def Extrusion.paramTo3d (s : Extrusion) (p : V2 ℝ) : Option (V2 ℝ × V3 ℝ) :=
  let u := wrapPeriod s.xPeriodicity p.x
  (s.edge.curve.pointAt u).map fun c => (⟨u, p.y⟩, c + V3.smul p.y s.direction)

/-! ### A straight generatrix -/

open Classical in
/-- curves.py:773-783 `Line3D.point_belongs`. -/
noncomputable def lineBelongs (l : Line3) (p : V3 ℝ) : Option Bool :=
  if Arc.isClose3 p l.point1 (1 / 10 ^ 6) then some true else (l.pointDistance p).map fun d => decide (d < 1 / 10 ^ 6)

open Classical in
/-- curves.py:809-820 `Line3D.skew_to`. -/
noncomputable def skewTo (l m : Line3) : Option Bool :=
  if isColinear l.dir m.dir = true then some false
  else (l.lineDistance m).map fun d => !decide (mathIsClose d 0 (1 / 10 ^ 6))

open Classical in
/-- edges.py:772-788 `LineSegment.point_belongs`, 4413-4422. -/
noncomputable def segBelongs (e : Seg3) (p : V3 ℝ) : Option Bool :=
  (linesegment3dPointDistance e.start e.stop p).map fun d => decide (mathIsClose d.1 0 (1 / 10 ^ 6))

/-- edges.py:4434-4452 `LineSegment3D.line_intersections`; `none`: an exception. -/
noncomputable def segLineIntersections (e : Seg3) (line : Line3) : Option (List (V3 ℝ)) :=
  (skewTo ⟨e.start, e.stop⟩ line).bind fun sk =>
    if sk then some []
    else ((⟨e.start, e.stop⟩ : Line3).intersection line).bind fun x =>
      let otherwise : Option (List (V3 ℝ)) := (lineBelongs line e.start).bind fun b =>
        if b then some [e.start] else (lineBelongs line e.stop).map fun b' => if b' then [e.stop] else []
      match x with
      | some x => (segBelongs e x).bind fun b => if b then some [x] else otherwise
      | none => otherwise

/-- A `LineSegment3D` as the edge of an extrusion (edges.py:627-645, 671-684, 711-718, 4434-4452); an exception of
`line_intersections` is taken for an empty result. -/
noncomputable def straightEdge (e : Seg3) : ExtrudedEdge where
  curve := ⟨e.length, e.pointAtAbscissa, fun p => (e.abscissa p (1 / 10 ^ 6)).toOption⟩
  start := e.start
  stop := e.stop
  center := none
  lineIntersections := some fun l => (segLineIntersections e l).getD []
  pointProjection := some fun p => e.start + V3.smul (V3.dot (p - e.start) (e.stop - e.start) / V3.norm (e.stop - e.start) ^ 2) (e.stop - e.start)

end Volmdlr.Surface
