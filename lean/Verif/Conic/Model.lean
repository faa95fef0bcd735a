import Verif.Intersect.Model
import Verif.Nurbs.CurveModel
import Verif.Nurbs.HelpersModel

/-!
# Model of the conic curves of `curves.py`: `Parabola2D`, `Hyperbola2D`, `Circle2D`, and of the boxes of circles and ellipses

A number that may be `None` is an `Option`.  The slope `math.inf` with the intercept `None` of a vertical line is `none`.
-/

namespace Volmdlr.Conic

open Volmdlr.Angle Volmdlr.Arc Volmdlr.Intersect

/-! ## Lines in a frame -/

/-- curves.py:424-436 `Line2D.frame_mapping(frame, 'new')`: both points in local coordinates (core_compiled.pyx:842-843). -/
noncomputable def toLocal (f : Frame2 ℝ) (l : Line2) : Except PyErr Line2 := do
  let p1 ← f.globalToLocal l.point1
  let p2 ← f.globalToLocal l.point2
  return ⟨p1, p2⟩

open Classical in
/-- curves.py:715-733 `Line2D.get_slope` and `get_y_intersection`; `none` is the pair `(math.inf, None)` of a vertical line. -/
noncomputable def slopeIntercept (l : Line2) : Option (ℝ × ℝ) :=
  if l.point1.x = l.point2.x then none
  else
    let m := (l.point2.y - l.point1.y) / (l.point2.x - l.point1.x)
    some (m, l.point1.y - m * l.point1.x)

/-- `npy.linspace(a, b, n)` of numpy. -/
noncomputable def npLinspace (a b : ℝ) (n : ℕ) : List ℝ := (List.range n).map fun i : ℕ => a + (i : ℝ) * ((b - a) / (n - 1))

open Classical in
/-- curves.py:3290-3292 and 2922-2924: the bounds of `get_points`.  `not x` is true for `None` and for zero; `npy.linspace` of `None` raises
`TypeError`. -/
noncomputable def bounds (dflt : ℝ) (lo hi : Option ℝ) : Except PyErr (ℝ × ℝ) :=
  if (lo = none ∨ lo = some 0) ∧ (hi = none ∨ hi = some 0) then .ok (-dflt, dflt)
  else
    match lo, hi with
    | some a, some b => .ok (a, b)
    | _, _ => .error .typeError

/-! ## Parabola -/

/-- curves.py:3252-3271 `Parabola2D`: frame and focal length. -/
structure Parabola2 where
  frame : Frame2 ℝ
  focal : ℝ

/-- curves.py:3268: `vrtx_equation_a`. -/
noncomputable def Parabola2.a (P : Parabola2) : ℝ := 1 / (4 * P.focal)

/-- curves.py:3266: the focus. -/
noncomputable def Parabola2.focus (P : Parabola2) : V2 ℝ := P.frame.origin + V2.smul P.focal P.frame.basis.v

/-- curves.py:3222-3230 `get_y`. -/
noncomputable def Parabola2.getY (P : Parabola2) (x : ℝ) : ℝ := 1 / 2 * x ^ 2 / (2 * P.focal)

/-- curves.py:3281-3299 `get_points`. -/
noncomputable def Parabola2.getPoints (P : Parabola2) (lo hi : Option ℝ) (n : ℕ) : Except PyErr (List (V2 ℝ)) := do
  let b ← bounds (P.focal * 5) lo hi
  return (npLinspace b.1 b.2 n).map fun x => P.frame.localToGlobal ⟨x, P.getY x⟩

open Classical in
/-- curves.py:3301-3313 `point_belongs`. -/
noncomputable def Parabola2.pointBelongs (P : Parabola2) (p : V2 ℝ) (tol : ℝ := 1 / 10 ^ 6) : Except PyErr Bool := do
  let q ← P.frame.globalToLocal p
  return decide (mathIsClose q.y (P.a * q.x ^ 2) tol)

/-- curves.py:3332-3353 `tangent`. -/
noncomputable def Parabola2.tangent (P : Parabola2) (p : V2 ℝ) : Except PyErr (V2 ℝ) := do
  let q ← P.frame.globalToLocal p
  let second : V2 ℝ := q + ⟨1, 2 * P.a * q.x⟩
  return P.frame.localToGlobal second - p

open Classical in
/-- curves.py:3315-3330 `line_intersections`, the line given in local coordinates; the tangent point is returned in local coordinates. -/
noncomputable def Parabola2.lineLocal (P : Parabola2) (l : Line2) (tol : ℝ := 1 / 10 ^ 6) : Except PyErr (List (V2 ℝ)) :=
  match slopeIntercept l with
  | none => .error .typeError
  | some (m, c) =>
    if m ^ 2 > -4 * P.a * c then
      let delta := Real.sqrt (m ^ 2 - 4 * P.a * (-c))
      let x1 := (m + delta) / (2 * P.a)
      let x2 := (m - delta) / (2 * P.a)
      .ok [P.frame.localToGlobal ⟨x1, m * x1 + c⟩, P.frame.localToGlobal ⟨x2, m * x2 + c⟩]
    else if mathIsClose (m ^ 2) (-4 * P.a * c) tol then
      let x := m / (2 * P.a)
      .ok [⟨x, m * x + c⟩]
    else .ok []

/-- curves.py:3315-3330 `line_intersections`. -/
noncomputable def Parabola2.lineIntersections (P : Parabola2) (l : Line2) (tol : ℝ := 1 / 10 ^ 6) : Except PyErr (List (V2 ℝ)) := do
  let m ← toLocal P.frame l
  P.lineLocal m tol

/-- The coordinates of a point, for the control points of the curves. -/
def coords (p : V2 ℝ) : ℝ × ℝ := (p.x, p.y)

/-- edges.py:2232-2242 `BezierCurve2D.__init__`: clamped uniform knots of multiplicity one; `none` is the `ValueError` of
`generate_knot_vector`. -/
noncomputable def bezier (degree : ℕ) (ctrl : List (V2 ℝ)) : Option (BCurve ℝ (ℝ × ℝ)) :=
  (generateKnotVector degree ctrl.length true).map fun kv =>
    BCurve.new degree (ctrl.map coords) (List.replicate kv.length 1) kv none

/-- curves.py:3232-3249 `trim`: the Bézier curve of degree two whose middle control point is the intersection of the tangents; `line_inters[0]` of
an empty list is an `IndexError`. -/
noncomputable def Parabola2.trim (P : Parabola2) (p1 p2 : V2 ℝ) : Except PyErr (BCurve ℝ (ℝ × ℝ)) := do
  let t1 ← P.tangent p1
  let t2 ← P.tangent p2
  let l1 : Line2 := ⟨p1, p1 + t1⟩
  let l2 : Line2 := ⟨p2, p2 + t2⟩
  match l1.lineIntersections l2 with
  | [] => .error .indexError
  | q :: _ =>
    match bezier 2 [p1, q, p2] with
    | none => .error .valueError
    | some c => return c

/-! ## Hyperbola -/

/-- curves.py:2891-2907 `Hyperbola2D`: frame, half axes. -/
structure Hyperbola2 where
  frame : Frame2 ℝ
  major : ℝ
  minor : ℝ

open Classical in
/-- curves.py:2838-2843 `HyperbolaMixin.__eq__` (the equality of the frames is that of the coordinates here: the tolerance of `Frame2D.__eq__` is
not modelled). -/
noncomputable def Hyperbola2.eq (h k : Hyperbola2) : Bool :=
  if h.frame ≠ k.frame then false
  else if h.major ≠ k.major ∨ ¬(h.minor ≠ k.minor) then false
  else true

/-- curves.py:2868-2875 `get_x`. -/
noncomputable def Hyperbola2.getX (h : Hyperbola2) (y : ℝ) : ℝ := Real.sqrt ((y ^ 2 / h.minor ^ 2 + 1) * h.major ^ 2)

/-- curves.py:2913-2931 `get_points`. -/
noncomputable def Hyperbola2.getPoints (h : Hyperbola2) (lo hi : Option ℝ) (n : ℕ) : Except PyErr (List (V2 ℝ)) := do
  let b ← bounds (h.major * 5) lo hi
  return (npLinspace b.1 b.2 n).map fun y => h.frame.localToGlobal ⟨h.getX y, y⟩

open Classical in
/-- curves.py:2933-2946 `point_belongs` (the minor half axis is not squared). -/
noncomputable def Hyperbola2.pointBelongs (h : Hyperbola2) (p : V2 ℝ) (tol : ℝ := 1 / 10 ^ 6) : Except PyErr Bool := do
  let q ← h.frame.globalToLocal p
  return decide (mathIsClose (q.x ^ 2 / h.major ^ 2 - q.y ^ 2 / h.minor ^ 1) 1 tol)

/-- curves.py:2948-2956 `get_dx_dy`. -/
noncomputable def Hyperbola2.getDxDy (h : Hyperbola2) (p : V2 ℝ) : ℝ :=
  h.major ^ 2 * p.y / (h.minor ^ 2 * Real.sqrt (h.major ^ 2 * p.y ^ 2 / h.minor ^ 2 + h.major ^ 2))

/-- curves.py:2958-2982 `tangent`: the slope is taken at the point in global coordinates. -/
noncomputable def Hyperbola2.tangent (h : Hyperbola2) (p : V2 ℝ) : Except PyErr (V2 ℝ) := do
  let q ← h.frame.globalToLocal p
  let second : V2 ℝ := q + ⟨h.getDxDy p, 1⟩
  return h.frame.localToGlobal second - p

open Classical in
/-- curves.py:2992-3013 `line_intersections`, the line given in local coordinates. -/
noncomputable def Hyperbola2.lineLocal (h : Hyperbola2) (l : Line2) : Except PyErr (List (V2 ℝ)) :=
  match slopeIntercept l with
  | none => .error .typeError
  | some (m, c) =>
    let qa := h.major ^ 2 * m ^ 2 - h.minor ^ 2
    let qb := 2 * h.major ^ 2 * m * c
    let qc := h.major ^ 2 * (h.minor ^ 2 + c ^ 2)
    if c ^ 2 < h.major ^ 2 * m ^ 2 - h.minor ^ 2 then .ok []
    else if qa = 0 then .ok []
    else
      let delta := Real.sqrt (qb ^ 2 - 4 * qa * qc)
      let x1 := (-qb + delta) / (2 * qa)
      let x2 := (-qb - delta) / (2 * qa)
      let r := (if x1 > 0 then [(⟨x1, m * x1 + c⟩ : V2 ℝ)] else []) ++ (if x2 > 0 then [(⟨x2, m * x2 + c⟩ : V2 ℝ)] else [])
      .ok (r.map h.frame.localToGlobal)

/-- curves.py:2984-3013 `line_intersections`. -/
noncomputable def Hyperbola2.lineIntersections (h : Hyperbola2) (l : Line2) : Except PyErr (List (V2 ℝ)) := do
  let m ← toLocal h.frame l
  h.lineLocal m

/-- curves.py:27-44 `hyperbola_parabola_control_point_and_weight`: the middle control point and its weight.  `none` is a missing intersection
(`IndexError`) or a division by zero.  The tangents are not normalised here: the lines are the same. -/
noncomputable def controlPointAndWeight (start startTangent fin endTangent point : V2 ℝ) : Option (V2 ℝ × ℝ) :=
  let line02 : Line2 := ⟨start, start + (fin - start)⟩
  match (⟨start, start + startTangent⟩ : Line2).lineIntersections ⟨fin, fin + endTangent⟩ with
  | [] => none
  | point1 :: _ =>
    let vectorP1 := point1 - point
    match line02.lineIntersections ⟨point1, point1 + vectorP1⟩ with
    | [] => none
    | q :: _ =>
      if V2.norm (q - fin) = 0 then none
      else
        let a := Real.sqrt (V2.norm (start - q) / V2.norm (q - fin))
        let u := a / (1 + a)
        let num := (1 - u) ^ 2 * V2.dot (point - start) vectorP1 + u ^ 2 * V2.dot (point - fin) vectorP1
        let den := 2 * u * (1 - u) * V2.dot vectorP1 vectorP1
        if den = 0 then none else some (point1, num / den)

open Classical in
/-- core_compiled.pyx:501-519 `Vector.is_colinear_to`, vectors of the plane. -/
noncomputable def isColinear2 (u v : V2 ℝ) (tol : ℝ := 1 / 10 ^ 6) : Bool :=
  if V2.norm u = 0 ∨ V2.norm v = 0 then false
  else decide (mathIsClose (|V2.dot u v| / V2.norm u / V2.norm v) 1 tol)

/-- The value returned by `HyperbolaMixin.trim`: a segment or a curve. -/
inductive Trimmed where
  | segment (start fin : V2 ℝ)
  | curve (c : BCurve ℝ (ℝ × ℝ))

/-- curves.py:2886-2888: the rational curve of degree two with the weights `1, w, 1` and the clamped uniform knots. -/
noncomputable def rational2 (p q r : V2 ℝ) (w : ℝ) : Option (BCurve ℝ (ℝ × ℝ)) :=
  (generateKnotVector 2 3 true).map fun kv => BCurve.new 2 [coords p, coords q, coords r] (List.replicate kv.length 1) kv (some [1, w, 1])

open Classical in
/-- curves.py:2861-2888 `HyperbolaMixin.trim` for a `Hyperbola2D`.  A missing intersection or a division by zero is an `indexError`. -/
noncomputable def Hyperbola2.trim (h : Hyperbola2) (p1 p2 : V2 ℝ) : Except PyErr Trimmed := do
  let q1 ← h.frame.globalToLocal p1
  let q2 ← h.frame.globalToLocal p2
  let ps ← h.getPoints (some (min q1.y q2.y)) (some (max q1.y q2.y)) 3
  let ps' : List (V2 ℝ) := if ¬isClose2 (ps.getD 0 ⟨0, 0⟩) p1 (1 / 10 ^ 6) then ps.reverse else ps
  let t1 ← h.tangent (ps'.getD 0 ⟨0, 0⟩)
  let t2 ← h.tangent (ps'.getD 2 ⟨0, 0⟩)
  if isColinear2 t1 t2 then return .segment (ps'.getD 0 ⟨0, 0⟩) (ps'.getD 2 ⟨0, 0⟩)
  else
    match controlPointAndWeight (ps'.getD 0 ⟨0, 0⟩) t1 (ps'.getD 2 ⟨0, 0⟩) t2 (ps'.getD 1 ⟨0, 0⟩) with
    | none => .error .indexError
    | some (q, w) =>
      match rational2 p1 q p2 w with
      | none => .error .valueError
      | some c => return .curve c

/-! ## Circles and lines -/

open Classical in
/-- curves.py:1384-1412 `_helper_line_intersections`: the circle is taken at the origin.  The square root of a negative number is a
`ValueError`. -/
noncomputable def circleHelper (r : ℝ) (l : Line2) : Except PyErr (List (V2 ℝ)) :=
  match slopeIntercept l with
  | none =>
    let x := l.point1.x
    if r ^ 2 - x ^ 2 < 0 then .error .valueError
    else .ok [⟨x, -Real.sqrt (r ^ 2 - x ^ 2)⟩, ⟨x, Real.sqrt (r ^ 2 - x ^ 2)⟩]
  | some (m, c) =>
    let qa := 1 + m ^ 2
    let qb := 2 * m * c
    let qc := c ^ 2 - r ^ 2
    let delta := qb ^ 2 - 4 * qa * qc
    if delta < 0 ∨ qa = 0 then .ok []
    else if mathIsClose delta 0 (1 / 10 ^ 6) then
      let x1 := -qb / 2 * qa
      .ok [⟨x1, m * x1 + c⟩]
    else
      let x1 := (-qb + Real.sqrt delta) / (2 * qa)
      let x2 := (-qb - Real.sqrt delta) / (2 * qa)
      .ok [⟨x1, m * x1 + c⟩, ⟨x2, m * x2 + c⟩]

open Classical in
/-- curves.py:1422-1426, 1431-1432: the part of `line_intersections` for a centre `c`, `k` being what is done when the line does not pass through
the centre. -/
noncomputable def circleLineWith (c : V2 ℝ) (r : ℝ) (l : Line2) (tol : ℝ) (k : Except PyErr (List (V2 ℝ))) : Except PyErr (List (V2 ℝ)) :=
  match l.pointDistance c with
  | none => .error .zeroDivision
  | some d =>
    if d > r + tol then .ok []
    else if mathIsClose d 0 (1 / 10 ^ 6) then
      match V2.unitVector l.dir with
      | none => .error .zeroDivision
      | some dir => .ok [c + V2.smul r dir, c - V2.smul r dir]
    else k

open Classical in
/-- curves.py:1414-1432 `Circle2D.line_intersections`.  The recursive call has the default tolerance and a circle whose centre is the origin. -/
noncomputable def circleLine (c : Circle2) (l : Line2) (tol : ℝ := 1 / 10 ^ 9) : Except PyErr (List (V2 ℝ)) :=
  circleLineWith c.frame.origin c.radius l tol
    (if ¬isClose2 c.frame.origin ⟨0, 0⟩ (1 / 10 ^ 6) then do
      let m ← toLocal c.frame l
      let o ← c.frame.globalToLocal c.frame.origin
      let r ← circleLineWith o c.radius m (1 / 10 ^ 9) (circleHelper c.radius m)
      return r.map c.frame.localToGlobal
    else circleHelper c.radius l)

/-! ## Other methods of circles and ellipses -/

/-- curves.py:1583-1587 `Circle2D.translation`, core_compiled.pyx:3197-3206 `Frame2D.translation`. -/
def Circle2.translation (c : Circle2) (offset : V2 ℝ) : Circle2 := ⟨⟨V2.translation c.frame.origin offset, c.frame.basis⟩, c.radius⟩

/-- curves.py:1286-1294 `Circle2D.point_symmetric`. -/
noncomputable def Circle2.pointSymmetric (c : Circle2) (p : V2 ℝ) : Circle2 := Circle2.translation c (V2.smul 2 p - c.frame.origin)

/-- curves.py:1296-1302 `Circle2D.axial_symmetry`; `none` is the division by zero of the projection. -/
noncomputable def Circle2.axialSymmetry (c : Circle2) (l : Line2) : Option Circle2 :=
  (Volmdlr.axialSymmetry c.frame.origin l.point1 l.point2).map fun s => Circle2.translation c (s - c.frame.origin)

/-- curves.py:1338-1345 `Circle2D.point_distance`. -/
noncomputable def Circle2.pointDistance (c : Circle2) (p : V2 ℝ) : ℝ := |V2.pointDistance p c.frame.origin - c.radius|

open Classical in
/-- curves.py:1319-1336 `Circle2D.point_belongs`: the disk, with or without its border. -/
noncomputable def Circle2.pointBelongs (c : Circle2) (p : V2 ℝ) (edge : Bool := true) (tol : ℝ := 1 / 10 ^ 6) : Bool :=
  if edge then decide (V2.pointDistance p c.frame.origin ≤ c.radius + tol) else decide (V2.pointDistance p c.frame.origin < c.radius)

/-- core.py `BoundingRectangle`: `xmin, xmax, ymin, ymax`. -/
structure Rect where
  xmin : ℝ
  xmax : ℝ
  ymin : ℝ
  ymax : ℝ

/-- curves.py:1347-1357 `Circle2D.get_bounding_rectangle`. -/
noncomputable def Circle2.boundingRectangle (c : Circle2) : Rect :=
  ⟨c.frame.origin.x - c.radius, c.frame.origin.x + c.radius, c.frame.origin.y - c.radius, c.frame.origin.y + c.radius⟩

/-- curves.py:2247-2260 `Ellipse2D.get_bounding_rectangle`: the extreme coordinates of the four vertices; `a`, `b` are the half axes. -/
noncomputable def ellipseRectangle (f : Frame2 ℝ) (a b : ℝ) : Rect :=
  let p1 := f.origin - V2.smul a f.basis.u
  let p2 := f.origin + V2.smul a f.basis.u
  let p3 := f.origin - V2.smul b f.basis.v
  let p4 := f.origin + V2.smul b f.basis.v
  ⟨min (min (min p1.x p2.x) p3.x) p4.x, max (max (max p1.x p2.x) p3.x) p4.x,
   min (min (min p1.y p2.y) p3.y) p4.y, max (max (max p1.y p2.y) p3.y) p4.y⟩

/-- curves.py:1881-1889 `Circle3D._bounding_box`: the extreme coordinates of the four points of the axes (lower and upper corner). -/
noncomputable def Circle3.boundingBox (c : Circle3) : V3 ℝ × V3 ℝ :=
  let o := c.frame.origin
  let p1 := o + V3.smul c.radius c.frame.basis.u
  let p2 := o + V3.smul c.radius (-c.frame.basis.u)
  let p3 := o + V3.smul c.radius c.frame.basis.v
  let p4 := o + V3.smul c.radius (-c.frame.basis.v)
  (⟨min (min (min p1.x p2.x) p3.x) p4.x, min (min (min p1.y p2.y) p3.y) p4.y, min (min (min p1.z p2.z) p3.z) p4.z⟩,
   ⟨max (max (max p1.x p2.x) p3.x) p4.x, max (max (max p1.y p2.y) p3.y) p4.y, max (max (max p1.z p2.z) p3.z) p4.z⟩)

/-- curves.py:1070-1087 `CircleMixin.discretization_points` of a `Circle2D` for a number of points. -/
noncomputable def Circle2.discretizationPoints (c : Circle2) (n : ℕ) : List (V2 ℝ) :=
  (npLinspace 0 (2 * Real.pi) n).map fun t =>
    c.frame.origin + V2.smul (c.radius * Real.cos t) c.frame.basis.u + V2.smul (c.radius * Real.sin t) c.frame.basis.v

end Volmdlr.Conic
