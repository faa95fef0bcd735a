import Verif.Frame.Model
import Verif.Arc.Model
import Verif.Nurbs.CurveModel
import Verif.Shell.Model

/-!
# Model of the geometry in STEP files: `to_step` and `from_step`

A line `#12 = NAME('name',#3,1.5);` is an identifier, a kind and a list of arguments; names of objects are left out, numbers are
exact (Python writes the shortest text that reads as the same number).  What is read is kept in a dictionary from identifiers
to objects.  The importer instantiates each entity after the entities it refers to (C35, C36); here the entities are read in the
order of the file, which is such an order for the files of the exporter (C34).
-/

namespace Volmdlr.StepGeo

open Volmdlr.Arc Volmdlr.Shells

/-- The entities of the model with their arguments, in the order of the file: a number, an integer, a reference (`ℕ`), `.T.` or
`.F.`, lists of them.  Arguments that are always the same text (`*`, `.UNSPECIFIED.`, `.PLANE_SURF.`) are left out. -/
inductive Body
  | cartesianPoint (x y z : ℝ)
  | direction (x y z : ℝ)
  | vector (direction : ℕ) (magnitude : ℝ)
  | vertexPoint (point : ℕ)
  | axis1Placement (point direction : ℕ)
  | axis2Placement3d (point w u : ℕ)
  | line (point vector : ℕ)
  | circle (frame : ℕ) (radius : ℝ)
  | bsplineCurve (degree : ℕ) (points : List ℕ) (closed selfIntersect : Bool) (mults : List ℕ) (knots : List ℝ)
  | edgeCurve (start stop curve : ℕ) (sameSense : Bool)
  | orientedEdge (edge : ℕ) (orientation : Bool)
  | edgeLoop (edges : List ℕ)
  | faceOuterBound (contour : ℕ) (orientation : Bool)
  | faceBound (contour : ℕ) (orientation : Bool)
  | plane (frame : ℕ)
  | cylindricalSurface (frame : ℕ) (radius : ℝ)
  | toroidalSurface (frame : ℕ) (major minor : ℝ)
  | conicalSurface (frame : ℕ) (radius semiAngle : ℝ)
  | sphericalSurface (frame : ℕ) (radius : ℝ)
  | linearExtrusion (edge direction : ℕ)
  | surfaceOfRevolution (edge axis : ℕ)
  | bsplineSurface (degreeU degreeV : ℕ) (points : List (List ℕ)) (multsU multsV : List ℕ) (knotsU knotsV : List ℝ)
  | advancedFace (bounds : List ℕ) (surface : ℕ) (sameSense : Bool)
  | shell (faces : List ℕ)
  | solidBrep (shell : ℕ)
  | surfaceModel (shells : List ℕ)

/-- A line of the file. -/
structure Ent where
  id : ℕ
  body : Body

/-- What a writer returns: the text and the last identifier. -/
abbrev W := List Ent × ℕ

/-- An edge: a line segment with its line (`line` attribute, by two points), an arc and a full arc of a circle, a B-spline curve. -/
inductive Edge
  | segment (p1 p2 start fin : V3 ℝ)
  | arc (circle : Circle3) (start fin : V3 ℝ)
  | fullArc (circle : Circle3) (startEnd : V3 ℝ)
  | bspline (curve : BCurve ℝ (V3 ℝ))

/-- The attributes of a B-spline surface, surfaces.py:6838-6871. -/
structure BSurf where
  degreeU : ℕ
  degreeV : ℕ
  ctrlpts : List (V3 ℝ)
  nbU : ℕ
  nbV : ℕ
  multsU : List ℕ
  multsV : List ℕ
  knotsU : List ℝ
  knotsV : List ℝ
  weights : Option (List ℝ)

/-- A surface by its attributes. -/
inductive Surf
  | plane (frame : Frame3 ℝ)
  | cylinder (frame : Frame3 ℝ) (radius : ℝ)
  | torus (frame : Frame3 ℝ) (major minor : ℝ)
  | cone (frame : Frame3 ℝ) (semiAngle : ℝ)
  | sphere (frame : Frame3 ℝ) (radius : ℝ)
  | extrusion (edge : Edge) (direction : V3 ℝ)
  | revolution (edge : Edge) (axisPoint axis : V3 ℝ)
  | bspline (s : BSurf)

/-- A face by its surface, its outer contour and its inner contours. -/
structure Face where
  surface : Surf
  outer : List Edge
  inner : List (List Edge)

/-- What is in the dictionary of the objects.  `edge none` is the `None` of an edge without length. -/
inductive Val
  | point (p : V3 ℝ)
  | vec (v : V3 ℝ)
  | axis (p v : V3 ℝ)
  | frame (f : Frame3 ℝ)
  | line (p q : V3 ℝ)
  | circle (c : Circle3)
  | edge (e : Option Edge)
  | contour (l : List Edge)
  | surface (s : Surf)
  | face (f : Face)
  | shell (fs : List Face)

/-! ## Writing -/

/-- core_compiled.pyx:2079-2101 `Point3D.to_step`. -/
noncomputable def pointToStep (p : V3 ℝ) (vertex : Bool) (c : ℕ) : W :=
  let pointId := c + 1
  let point : Ent := ⟨pointId, .cartesianPoint (1000 * p.x) (1000 * p.y) (1000 * p.z)⟩
  if vertex then ([point, ⟨pointId + 1, .vertexPoint pointId⟩], pointId + 1) else ([point], pointId)

/-- core_compiled.pyx:1853-1879 `Vector3D.to_step`; the norm is written with six digits. -/
noncomputable def vectorToStep (v : V3 ℝ) (vector : Bool) (c : ℕ) : W :=
  let directionId := c + 1
  let direction : Ent := ⟨directionId, .direction v.x v.y v.z⟩
  if vector then ([direction, ⟨directionId + 1, .vector directionId (npRound 6 (V3.norm v))⟩], directionId + 1)
  else ([direction], directionId)

/-- core_compiled.pyx:3537-3553 `Frame3D.to_step`. -/
noncomputable def frameToStep (f : Frame3 ℝ) (c : ℕ) : W :=
  let o := pointToStep f.origin false c
  let w := vectorToStep f.basis.w false o.2
  let u := vectorToStep f.basis.u false w.2
  let cur := u.2 + 1
  (o.1 ++ (w.1 ++ u.1) ++ [⟨cur, .axis2Placement3d o.2 w.2 u.2⟩], cur)

/-- curves.py:333-341 `Line3D.to_step`; the unit direction vector of a line through two equal points is an error. -/
noncomputable def lineToStep (p1 p2 : V3 ℝ) (c : ℕ) : Except PyErr W :=
  match V3.unitVector (p2 - p1) with
  | none => .error .zeroDivision
  | some d =>
    let p := pointToStep p1 false c
    let u := vectorToStep d true p.2
    .ok (p.1 ++ u.1 ++ [⟨u.2 + 1, .line p.2 u.2⟩], u.2 + 1)

/-- edges.py:5092-5100 (surfaces.py:8455-8461 for a row of a surface): the loop over the control points; the text, the
identifiers of the points and `point_id`. -/
noncomputable def pointsLoop : List (V3 ℝ) → ℕ → List Ent × List ℕ × ℕ
  | [], c => ([], [], c)
  | p :: ps, c =>
    let w := pointToStep p false c
    let r := pointsLoop ps (w.2 + 1)
    (w.1 ++ r.1, w.2 :: r.2.1, r.2.2)

/-- The start of an edge; edges.py:876 for a B-spline curve (there is always a control point). -/
def Edge.start : Edge → V3 ℝ
  | .segment _ _ s _ => s
  | .arc _ s _ => s
  | .fullArc _ s => s
  | .bspline b => b.ctrlpts.headD ⟨0, 0, 0⟩

/-- The end of an edge. -/
def Edge.fin : Edge → V3 ℝ
  | .segment _ _ _ e => e
  | .arc _ _ e => e
  | .fullArc _ s => s
  | .bspline b => b.ctrlpts.getLastD ⟨0, 0, 0⟩

/-- edges.py:797-808 `LineSegment3D.to_step`; 5955-5974 `Arc3D.to_step`; 6140-6158 `FullArc3D.to_step`; 5090-5133
`BSplineCurve3D.to_step` without `curve2d` (no caller gives one).  The weights are not written. -/
noncomputable def Edge.toStep : Edge → ℕ → Except PyErr W
  | .segment p1 p2 s e, c =>
    match lineToStep p1 p2 c with
    | .error err => .error err
    | .ok line =>
      let start := pointToStep s true line.2
      let stop := pointToStep e true start.2
      let cur := stop.2 + 1
      .ok (line.1 ++ (start.1 ++ stop.1) ++ [⟨cur, .edgeCurve start.2 stop.2 line.2 true⟩], cur)
  | .arc circle s e, c =>
    let frame := frameToStep circle.frame c
    let curveId := frame.2 + 1
    let start := pointToStep s true curveId
    let stop := pointToStep e true start.2
    let cur := stop.2 + 1
    .ok (frame.1 ++ [⟨curveId, .circle frame.2 (circle.radius * 1000)⟩] ++ (start.1 ++ stop.1) ++
      [⟨cur, .edgeCurve start.2 stop.2 curveId true⟩], cur)
  | .fullArc circle s, c =>
    match V3.unitVector (s - circle.frame.origin) with
    | none => .error .zeroDivision
    | some u =>
      let frame := frameToStep circle.frame c
      let curveId := frame.2 + 1
      let p1 := pointToStep (circle.frame.origin + V3.smul circle.radius u) true curveId
      let cur := p1.2 + 1
      .ok (frame.1 ++ [⟨curveId, .circle frame.2 (circle.radius * 1000)⟩] ++ p1.1 ++
        [⟨cur, .edgeCurve p1.2 p1.2 curveId true⟩], cur)
  | .bspline b, c =>
    let pts := pointsLoop b.ctrlpts c
    let curveId := pts.2.2
    let start := pointToStep (Edge.bspline b).start true (curveId + 1)
    let stop := pointToStep (Edge.bspline b).fin true (start.2 + 1 + 1)
    let cur := stop.2 + 1
    .ok (pts.1 ++ [⟨curveId, .bsplineCurve b.degree pts.2.1 false false b.mults b.knots⟩] ++ (start.1 ++ stop.1) ++
      [⟨cur, .edgeCurve start.2 stop.2 curveId true⟩], cur)

/-- wires.py:4270-4277: the loop over the edges of a contour; the text, the identifiers of the oriented edges and the last one. -/
noncomputable def contourLoop : List Edge → ℕ → Except PyErr (List Ent × List ℕ × ℕ)
  | [], c => .ok ([], [], c)
  | e :: es, c =>
    match e.toStep c with
    | .error err => .error err
    | .ok p =>
      let cur := p.2 + 1
      match contourLoop es cur with
      | .error err => .error err
      | .ok r => .ok (p.1 ++ [⟨cur, .orientedEdge p.2 true⟩] ++ r.1, cur :: r.2.1, r.2.2)

/-- wires.py:4259-4281 `Contour3D.to_step`. -/
noncomputable def contourToStep (es : List Edge) (c : ℕ) : Except PyErr W :=
  match contourLoop es c with
  | .error err => .error err
  | .ok r => .ok (r.1 ++ [⟨r.2.2 + 1, .edgeLoop r.2.1⟩], r.2.2 + 1)

/-- surfaces.py:6949-6962 `control_points_table`: rows of `nb_v` points; `row` are the points of the row that is not finished.
Points of a row that is not finished at the end are dropped. -/
def tableRows (nbV : ℕ) : List (V3 ℝ) → List (V3 ℝ) → List (List (V3 ℝ))
  | [], _ => []
  | p :: ps, row => if row.length + 1 = nbV then (row ++ [p]) :: tableRows nbV ps [] else tableRows nbV ps (row ++ [p])

/-- surfaces.py:8455-8464: the loop over the rows; the text, the identifiers and `current_id`. -/
noncomputable def rowsLoop : List (List (V3 ℝ)) → ℕ → List Ent × List (List ℕ) × ℕ
  | [], c => ([], [], c)
  | row :: rows, c =>
    let w := pointsLoop row c
    let r := rowsLoop rows w.2.2
    (w.1 ++ r.1, w.2.1 :: r.2.1, r.2.2)

/-- A surface given by a frame. -/
noncomputable def framedToStep (f : Frame3 ℝ) (body : ℕ → Body) (c : ℕ) : W :=
  let w := frameToStep f c
  (w.1 ++ [⟨w.2 + 1, body w.2⟩], w.2 + 1)

/-- surfaces.py:1368-1380 (plane), 2538-2550 (cylinder), 3178-3191 (torus), 4176-4188 (cone), 4945-4957 (sphere), 6077-6087
(extrusion), 6500-6514 (revolution), 8451-8474 (B-spline surface).  Some radii are rounded to four digits (in millimetres). -/
noncomputable def Surf.toStep : Surf → ℕ → Except PyErr W
  | .plane f, c => .ok (framedToStep f .plane c)
  | .cylinder f r, c => .ok (framedToStep f (fun i : ℕ => .cylindricalSurface i (npRound 4 (1000 * r))) c)
  | .torus f a b, c => .ok (framedToStep f (fun i : ℕ => .toroidalSurface i (npRound 4 (1000 * a)) (npRound 4 (1000 * b))) c)
  | .cone f a, c => .ok (framedToStep f (fun i : ℕ => .conicalSurface i 0 a) c)
  | .sphere f r, c => .ok (framedToStep f (fun i : ℕ => .sphericalSurface i (npRound 4 (1000 * r))) c)
  | .extrusion e d, c =>
    match e.toStep c with
    | .error err => .error err
    | .ok w =>
      let v := vectorToStep d false (w.2 + 1)
      .ok (w.1 ++ v.1 ++ [⟨v.2 + 1, .linearExtrusion w.2 v.2⟩], v.2 + 1)
  | .revolution e p a, c =>
    match e.toStep c with
    | .error err => .error err
    | .ok w =>
      let q := pointToStep p false (w.2 + 1)
      let v := vectorToStep a false (q.2 + 1)
      let cur := v.2 + 1
      .ok (w.1 ++ q.1 ++ v.1 ++ [⟨cur, .axis1Placement q.2 v.2⟩] ++
        [⟨cur + 1, .surfaceOfRevolution w.2 cur⟩], cur + 1)
  | .bspline s, c =>
    let r := rowsLoop (tableRows s.nbV s.ctrlpts []) c
    .ok (r.1 ++ [⟨r.2.2, .bsplineSurface s.degreeU s.degreeV r.2.1 s.multsU s.multsV s.knotsU s.knotsV⟩], r.2.2)

/-- faces.py:353-361: the loop over the inner contours; the text, the identifiers of the bounds, `current_id`. -/
noncomputable def innerLoop : List (List Edge) → ℕ → Except PyErr (List Ent × List ℕ × ℕ)
  | [], c => .ok ([], [], c)
  | k :: ks, c =>
    match contourToStep k c with
    | .error err => .error err
    | .ok w =>
      let bound := w.2 + 1
      match innerLoop ks (bound + 1) with
      | .error err => .error err
      | .ok r => .ok (w.1 ++ [⟨bound, .faceBound w.2 true⟩] ++ r.1, bound :: r.2.1, r.2.2)

/-- faces.py:340-368 `Face3D.to_step`. -/
noncomputable def Face.toStep (f : Face) (c : ℕ) : Except PyErr W :=
  match f.surface.toStep c with
  | .error err => .error err
  | .ok s =>
    match contourToStep f.outer s.2 with
    | .error err => .error err
    | .ok o =>
      match innerLoop f.inner (o.2 + 2) with
      | .error err => .error err
      | .ok r =>
        .ok (s.1 ++ o.1 ++ [⟨o.2 + 1, .faceOuterBound o.2 true⟩] ++ r.1 ++
          [⟨r.2.2, .advancedFace ((o.2 + 1) :: r.2.1) s.2 true⟩], r.2.2)

/-- shells.py:340-348: the loop over the faces; the text, the identifiers of the faces, `current_id`. -/
noncomputable def facesLoop : List Face → ℕ → Except PyErr (List Ent × List ℕ × ℕ)
  | [], c => .ok ([], [], c)
  | f :: fs, c =>
    match f.toStep c with
    | .error err => .error err
    | .ok w =>
      match facesLoop fs w.2 with
      | .error err => .error err
      | .ok r => .ok (w.1 ++ r.1, w.2 :: r.2.1, r.2.2)

/-- shells.py:332-361 `Shell3D.to_step`; `closed` is for a `ClosedShell3D`. -/
noncomputable def shellToStep (closed : Bool) (faces : List Face) (c : ℕ) : Except PyErr W :=
  match facesLoop faces c with
  | .error err => .error err
  | .ok r =>
    let shellId := r.2.2 + 1
    .ok (r.1 ++ [⟨shellId, .shell r.2.1⟩] ++
      [if closed then ⟨shellId + 1, .solidBrep shellId⟩ else ⟨shellId + 1, .surfaceModel [shellId]⟩], shellId + 1)

/-! ## Reading -/

/-- The dictionary of the objects. -/
abbrev Dict := ℕ → Option Val

/-- What the importer knows of the file: the units (step.py:759-762), and the tolerance of edges.py:175.  `twin` is
`Edge.direction_independent_is_close` (edges.py:97-106), which is not modelled. -/
structure Reader where
  length : ℝ
  angle : ℝ
  tol : ℝ
  twin : Edge → Edge → Prop

/-- A point of the dictionary. -/
def getPoint (D : Dict) (n : ℕ) : Except PyErr (V3 ℝ) :=
  match D n with
  | some (.point p) => .ok p
  | some _ => .error .typeError
  | none => .error .keyError

/-- A vector of the dictionary. -/
def getVec (D : Dict) (n : ℕ) : Except PyErr (V3 ℝ) :=
  match D n with
  | some (.vec v) => .ok v
  | some _ => .error .typeError
  | none => .error .keyError

/-- A frame of the dictionary. -/
def getFrame (D : Dict) (n : ℕ) : Except PyErr (Frame3 ℝ) :=
  match D n with
  | some (.frame f) => .ok f
  | some _ => .error .typeError
  | none => .error .keyError

/-- An edge of the dictionary. -/
def getEdge (D : Dict) (n : ℕ) : Except PyErr (Option Edge) :=
  match D n with
  | some (.edge e) => .ok e
  | some _ => .error .typeError
  | none => .error .keyError

/-- A contour of the dictionary. -/
def getContour (D : Dict) (n : ℕ) : Except PyErr (List Edge) :=
  match D n with
  | some (.contour l) => .ok l
  | some _ => .error .typeError
  | none => .error .keyError

/-- A surface of the dictionary. -/
def getSurface (D : Dict) (n : ℕ) : Except PyErr Surf :=
  match D n with
  | some (.surface s) => .ok s
  | some _ => .error .typeError
  | none => .error .keyError

/-- A face of the dictionary. -/
def getFace (D : Dict) (n : ℕ) : Except PyErr Face :=
  match D n with
  | some (.face f) => .ok f
  | some _ => .error .typeError
  | none => .error .keyError

/-- core_compiled.pyx:3631-3657 `Frame3D.from_step` with both directions. -/
noncomputable def readFrame (o w u : V3 ℝ) : Except PyErr (Frame3 ℝ) :=
  match V3.unitVector (u - V3.smul (V3.dot u w) w) with
  | none => .error .zeroDivision
  | some u' => .ok ⟨o, ⟨u', V3.cross w u', w⟩⟩

/-- curves.py:1820-1837 `Circle3D.from_step` and 1911-1918 `from_center_normal`. -/
noncomputable def readCircle (f : Frame3 ℝ) (radius : ℝ) : Except PyErr Circle3 :=
  match V3.unitVector f.basis.w with
  | none => .error .zeroDivision
  | some n =>
    match Frame3.fromPointAndNormal f.origin n with
    | none => .error .zeroDivision
    | some g => .ok ⟨g, radius⟩

/-- curves.py:2008-2018 `Circle3D.point_belongs`. -/
def circleBelongs (c : Circle3) (p : V3 ℝ) (tol : ℝ) : Prop :=
  Angle.mathIsClose (V3.pointDistance p c.frame.origin) c.radius tol ∧ Angle.mathIsClose (V3.dot c.frame.basis.w (p - c.frame.origin)) 0 tol

/-- curves.py:2020-2026 `Circle3D.reverse`. -/
def circleReverse (c : Circle3) : Circle3 :=
  ⟨⟨c.frame.origin, ⟨c.frame.basis.u, -c.frame.basis.v, V3.cross c.frame.basis.u (-c.frame.basis.v)⟩⟩, c.radius⟩

open Classical in
/-- curves.py:1025-1050 `Circle3D.trim`.  Points that are not on the circle, which are projected on it, are not modelled. -/
noncomputable def trimCircle (c : Circle3) (p1 p2 : V3 ℝ) (sameSense : Bool) (tol : ℝ) : Except PyErr Edge :=
  let circle := if sameSense then c else circleReverse c
  if circleBelongs c p1 (1 / 10 ^ 5) ∧ circleBelongs c p2 (1 / 10 ^ 5) then
    if isClose3 p1 p2 tol then .ok (.fullArc circle p1) else .ok (.arc circle p1 p2)
  else .error .notImplemented

/-- edges.py:928-934 `BSplineCurve.periodic`: the domain is not from 0 to 1, or the ends are close. -/
def bsplinePeriodic (b : BCurve ℝ (V3 ℝ)) : Prop :=
  (kvFun b.knotvector b.degree ≠ 0 ∨ kvFun b.knotvector b.ctrlpts.length ≠ 1) ∨
    isClose3 (Edge.bspline b).start (Edge.bspline b).fin (1 / 10 ^ 6)

open Classical in
/-- edges.py:5151-5172 `BSplineCurve3D.trim` between the ends of a curve that is not periodic, in its direction.  The other cases
need the length of the curve or the parameter of a point and are not modelled. -/
noncomputable def trimBspline (b : BCurve ℝ (V3 ℝ)) (p1 p2 : V3 ℝ) (sameSense : Bool) (tol : ℝ) : Except PyErr Edge :=
  if bsplinePeriodic b ∨ sameSense = false then .error .notImplemented
  else if (isClose3 p1 (Edge.bspline b).start tol ∧ isClose3 p2 (Edge.bspline b).fin tol) ∨
      (isClose3 p1 (Edge.bspline b).fin tol ∧ isClose3 p2 (Edge.bspline b).start tol) then .ok (.bspline b)
  else .error .notImplemented

open Classical in
/-- edges.py:159-195 `Edge.from_step`. -/
noncomputable def readEdgeCurve (R : Reader) (obj : Val) (point1 point2 : V3 ℝ) (sameSense : Bool) : Except PyErr Val :=
  match obj with
  | .edge (some (.segment _ _ _ _)) => .ok (.edge (if point1 ≠ point2 then some (.segment point1 point2 point1 point2) else none))
  | .line a b =>
    let p1 := if sameSense then point1 else point2
    let p2 := if sameSense then point2 else point1
    .ok (.edge (if p1 ≠ p2 then some (.segment a b p1 p2) else none))
  | .circle c => (trimCircle c point1 point2 sameSense R.tol).map fun e : Edge => .edge (some e)
  | .edge (some (.bspline b)) => (trimBspline b point1 point2 sameSense R.tol).map fun e : Edge => .edge (some e)
  | _ => .error .notImplemented

/-- edges.py:5062-5088 `BSplineCurve3D.from_step` without weights. -/
noncomputable def readBsplineCurve (degree : ℕ) (points : List (V3 ℝ)) (mults : List ℕ) (knots : List ℝ) : Edge :=
  if points.length = 2 ∧ degree = 1 then
    .segment (points.headD ⟨0, 0, 0⟩) (points.getLastD ⟨0, 0, 0⟩) (points.headD ⟨0, 0, 0⟩) (points.getLastD ⟨0, 0, 0⟩)
  else .bspline (BCurve.new degree points mults knots none)

/-- Each edge ends where the next one starts. -/
def chained : List Edge → Prop
  | [] => True
  | [_] => True
  | a :: b :: l => isClose3 a.fin b.start (1 / 10 ^ 6) ∧ chained (b :: l)

/-- wires.py:1506-1520 `Contour.is_ordered` for a contour with at least two edges. -/
def isOrdered (R : Reader) (l : List Edge) : Prop :=
  (∀ a b, l = [a, b] → ¬ R.twin a b) ∧ chained l ∧
    ∀ a b, l.head? = some a → l.getLast? = some b → isClose3 b.fin a.start (1 / 10 ^ 6)

open Classical in
/-- wires.py:4219-4257 `Contour3D.from_step` for an `EDGE_LOOP`.  The reordering of a contour that is not ordered is not
modelled here (C66). -/
noncomputable def readLoop (R : Reader) (edges : List (Option Edge)) : Except PyErr (List Edge) :=
  let raw := edges.filterMap id
  if raw.length = 1 then .ok raw
  else if raw ≠ [] ∧ isOrdered R raw then .ok raw
  else .error .notImplemented

/-- `object_dict[int(i[1:])] for i in …`. -/
def getAll {ι α : Type} (get : ι → Except PyErr α) : List ι → Except PyErr (List α)
  | [] => .ok []
  | n :: ns =>
    match get n with
    | .error err => .error err
    | .ok a =>
      match getAll get ns with
      | .error err => .error err
      | .ok l => .ok (a :: l)

/-- surfaces.py:8421-8427: the points of all rows; the number of points of the last row is the number of points of a row. -/
noncomputable def readBsplineSurface (degreeU degreeV : ℕ) (rows : List (List (V3 ℝ))) (multsU multsV : List ℕ)
    (knotsU knotsV : List ℝ) : Except PyErr BSurf :=
  match rows.getLast? with
  | none => .error .unboundLocal
  | some last =>
    if last.length = 0 then .error .zeroDivision
    else .ok ⟨degreeU, degreeV, rows.flatten, rows.flatten.length / last.length, last.length, multsU, multsV,
      standardizeKnotVector knotsU, standardizeKnotVector knotsV, none⟩

/-- `Frame3D.normalize`, core_compiled.pyx:3401-3408. -/
noncomputable def normalizeFrame (f : Frame3 ℝ) : Except PyErr (Frame3 ℝ) :=
  match V3.unitVector f.basis.u, V3.unitVector f.basis.v, V3.unitVector f.basis.w with
  | some u, some v, some w => .ok ⟨f.origin, ⟨u, v, w⟩⟩
  | _, _, _ => .error .zeroDivision

/-- The shell of the dictionary, utils/step_reader.py:480-489 and 565-569. -/
def getShell (D : Dict) (n : ℕ) : Except PyErr Val :=
  match D n with
  | some (.shell fs) => .ok (.shell fs)
  | some _ => .error .typeError
  | none => .error .keyError

/-- surfaces.py:4138-4158 `ConicalSurface3D.from_step`.  That the frame of the dictionary is changed in place is not modelled here
(see C147). -/
noncomputable def readCone (R : Reader) (f : Frame3 ℝ) (r a : ℝ) : Except PyErr Val :=
  if Real.tan (a * R.angle) = 0 then .error .zeroDivision
  else .ok (.surface (.cone ⟨f.origin - V3.smul (r * R.length / Real.tan (a * R.angle)) f.basis.w, f.basis⟩ (a * R.angle)))

/-- surfaces.py:6055-6075 and 5902-5913 `ExtrusionSurface3D.from_step`, for an edge. -/
noncomputable def readExtrusion (e : Option Edge) (v : V3 ℝ) : Except PyErr Val :=
  match e, V3.unitVector v with
  | some e, some d => .ok (.surface (.extrusion e d))
  | _, _ => .error .zeroDivision

/-- surfaces.py:6478-6498 and 6327-6331 `RevolutionSurface3D.from_step`, before the simplification. -/
noncomputable def readRevolution (e : Option Edge) (axis : Option Val) : Except PyErr Val :=
  match e, axis with
  | some e, some (.axis p v) =>
    match V3.unitVector v with
    | some d => .ok (.surface (.revolution e p d))
    | none => .error .zeroDivision
  | _, _ => .error .typeError

/-- faces.py:186-222: what `from_contours3d` is called with; the outer contour is the first one (faces.py:286-288). -/
def readFace (contours : List (List Edge)) (s : Surf) : Except PyErr Val :=
  match contours with
  | [] => .error .valueError
  | outer :: inner => .ok (.face ⟨s, outer, inner⟩)

/-- edges.py:162-166: the arguments of `Edge.from_step`. -/
noncomputable def readEdge (R : Reader) (D : Dict) (p1 p2 obj : ℕ) (sense : Bool) : Except PyErr Val :=
  match D obj with
  | none => .error .keyError
  | some obj => (getPoint D p1).bind fun p1 : V3 ℝ => (getPoint D p2).bind fun p2 : V3 ℝ => readEdgeCurve R obj p1 p2 sense

/-- step.py:382-405 `instantiate`: the `from_step` methods and the functions of step_reader.py.  Points and directions:
core_compiled.pyx:2025-2041 and 1827-1851; `VERTEX_POINT` and `AXIS1_PLACEMENT`: utils/step_reader.py:270-281; `LINE`:
curves.py:964-979; oriented edges and bounds: utils/step_reader.py:284-329 (the reverse of an edge and the inversion of a contour
are not modelled); surfaces: surfaces.py:1352-1366, 2520-2536, 3158-3176, 4927-4943, 8403-8449 (before the simplification);
faces and shells: faces.py:186-222, shells.py:308-330, utils/step_reader.py:480-489 and 565-569. -/
noncomputable def readEnt (R : Reader) (D : Dict) : Body → Except PyErr Val
  | .cartesianPoint x y z => .ok (.point ⟨x * R.length, y * R.length, z * R.length⟩)
  | .direction x y z => .ok (.vec ⟨x, y, z⟩)
  | .vector d m => (getVec D d).map fun v : V3 ℝ => .vec (V3.smul (R.length * m) v)
  | .vertexPoint p => (getPoint D p).map fun p : V3 ℝ => .point p
  | .axis1Placement p v => (getPoint D p).bind fun p : V3 ℝ => (getVec D v).map fun v : V3 ℝ => .axis p v
  | .axis2Placement3d o w u =>
    (getPoint D o).bind fun o : V3 ℝ => (getVec D w).bind fun w : V3 ℝ => (getVec D u).bind fun u : V3 ℝ =>
      (readFrame o w u).map fun f : Frame3 ℝ => .frame f
  | .line p v => (getPoint D p).bind fun p : V3 ℝ => (getVec D v).map fun v : V3 ℝ => .line p (p + v)
  | .circle f r => (getFrame D f).bind fun f : Frame3 ℝ => (readCircle f (r * R.length)).map fun c : Circle3 => .circle c
  | .bsplineCurve degree points _ _ mults knots =>
    (getAll (getPoint D) points).map fun points : List (V3 ℝ) => .edge (some (readBsplineCurve degree points mults knots))
  | .edgeCurve p1 p2 obj sense => readEdge R D p1 p2 obj sense
  | .orientedEdge e orientation =>
    if orientation then (getEdge D e).map fun e : Option Edge => .edge e else .error .notImplemented
  | .edgeLoop es =>
    (getAll (getEdge D) es).bind fun es : List (Option Edge) => (readLoop R es).map fun l : List Edge => .contour l
  | .faceOuterBound c orientation =>
    if orientation then (getContour D c).map fun l : List Edge => .contour l else .error .notImplemented
  | .faceBound c _ => (getContour D c).map fun l : List Edge => .contour l
  | .plane f => (getFrame D f).bind fun f : Frame3 ℝ => (normalizeFrame f).map fun f : Frame3 ℝ => .surface (.plane f)
  | .cylindricalSurface f r => (getFrame D f).map fun f : Frame3 ℝ => .surface (.cylinder f (r * R.length))
  | .toroidalSurface f a b => (getFrame D f).map fun f : Frame3 ℝ => .surface (.torus f (|a| * R.length) (|b| * R.length))
  | .conicalSurface f r a => (getFrame D f).bind fun f : Frame3 ℝ => readCone R f r a
  | .sphericalSurface f r => (getFrame D f).map fun f : Frame3 ℝ => .surface (.sphere f (r * R.length))
  | .linearExtrusion e v =>
    (getEdge D e).bind fun e : Option Edge => (getVec D v).bind fun v : V3 ℝ => readExtrusion e v
  | .surfaceOfRevolution e a => (getEdge D e).bind fun e : Option Edge => readRevolution e (D a)
  | .bsplineSurface du dv rows mu mv ku kv =>
    (getAll (fun row : List ℕ => getAll (getPoint D) row) rows).bind fun rows : List (List (V3 ℝ)) =>
      (readBsplineSurface du dv rows mu mv ku kv).map fun s : BSurf => .surface (.bspline s)
  | .advancedFace bounds s _ =>
    (getAll (getContour D) bounds).bind fun contours : List (List Edge) => (getSurface D s).bind fun s : Surf => readFace contours s
  | .shell fs => (getAll (getFace D) fs).map fun fs : List Face => .shell fs
  | .solidBrep s => getShell D s
  | .surfaceModel ss =>
    match ss with
    | [s] => getShell D s
    | _ => .error .notImplemented

/-- step.py:805-812: the objects are put in the dictionary one after the other. -/
noncomputable def readAll (R : Reader) : Dict → List Ent → Except PyErr Dict
  | D, [] => .ok D
  | D, e :: es =>
    match readEnt R D e.body with
    | .error err => .error err
    | .ok v => readAll R (Function.update D e.id (some v)) es

/-- What the importer reads from the context written by the exporter (utils/step_writer.py:40-64): millimetres, radians and an
uncertainty of `1e-4` millimetres. -/
noncomputable def exportReader (twin : Edge → Edge → Prop) : Reader := ⟨1 / 1000, 1, min (1 / 10 ^ 6) (1 / 10 ^ 4 * (1 / 1000)), twin⟩

end Volmdlr.StepGeo
