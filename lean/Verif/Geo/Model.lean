import Verif.Frame.Model

/-!
# `.geo` files of gmsh: shells, volume models, faces, 2D surfaces (shells.py:882-998, core.py:1618-1717, faces.py:728-798, surfaces.py:509-634)

A line of the file is a value of `Stmt`: the text is not modelled.
-/

namespace Volmdlr.Geo
variable {K : Type*} [Field K] [LinearOrder K]

/-- The lines that define geometry. -/
inductive Stmt (K : Type*) where
  /-- `Point(tag) = {x, y, z, 0};` core_compiled.pyx:1333-1349, 2144-2160 without mesh size. -/
  | point (tag : ℕ) (p : V3 K)
  /-- `Line(tag) = {a, b};` edges.py:720-735. -/
  | line (tag a b : ℕ)
  /-- `Circle(tag) = {a, centre, b};` edges.py:2767-2785. -/
  | circle (tag a c b : ℕ)
  /-- `Line Loop(tag) = {…};` wires.py:1859-1872. -/
  | loop (tag : ℕ) (curves : List ℤ)
  /-- `Plane Surface(tag) = {…};` (faces.py:814-820, 2102-2107) or `Surface(tag) = {…};` (faces.py:2567-2573). -/
  | surface (plane : Bool) (tag : ℕ) (loops : List ℕ)
  /-- `Surface Loop(tag) = {…};` shells.py:987-990. -/
  | surfaceLoop (tag : ℕ) (surfaces : List ℕ)
  /-- `Volume(tag) = {…};` core.py:1641. -/
  | volume (tag : ℕ) (surfaceLoop : ℕ)
  deriving DecidableEq

/-- core_compiled.pyx:1447-1465 `is_close` and 2167-2183 `point3d_in_list`, with the default tolerance. -/
def near (p q : V3 K) : Bool := decide ((p.x - q.x) ^ 2 + (p.y - q.y) ^ 2 + (p.z - q.z) ^ 2 ≤ (1 / 10 ^ 6) ^ 2)

/-- The edges of a contour.  An arc is given by its start, the centre of its circle, its middle point and its end (a full circle ends at its start); a B-spline by
its discretization points.  Simplification: other edges, which have no `get_geo_points`, are left out. -/
inductive Edge (K : Type*) where
  | seg (start stop : V3 K)
  | arc (start centre middle stop : V3 K)
  | spline (points : List (V3 K))
  deriving DecidableEq

namespace Edge
/-- edges.py:91-94 `reverse`. -/
def reverse : Edge K → Edge K
  | seg a b => seg b a
  | arc a c m b => arc b c m a
  | spline l => spline l.reverse

/-- edges.py:810-823, 1931-1949, 2842-2857 `is_close`.  Simplifications: for arcs, that the middle of the second is on the first is replaced by the nearness of their
middles; for B-splines, that the discretization points of the second are on the first by the nearness of these points to those of the first. -/
def isClose : Edge K → Edge K → Bool
  | seg a b, seg a' b' => near a a' && near b b'
  | arc a c m b, arc a' c' m' b' => near a a' && near b b' && near c c' && near m m'
  | spline l, spline l' => l.length == l'.length && (l.zip l').all fun pq : V3 K × V3 K => near pq.1 pq.2
  | _, _ => false

/-- edges.py:737-739, 1679-1681, 2787-2795 `get_geo_points`. -/
def geoPoints : Edge K → List (V3 K)
  | seg a b => [a, b]
  | arc a c _ b => [a, c, b]
  | spline l => l
end Edge

/-- A face: whether its class writes `Plane Surface`, and its contours, the outer one first. -/
structure Face (K : Type*) where
  plane : Bool
  contours : List (List (Edge K))

/-- shells.py:899-901: the loop over the points of a contour. -/
def addPoint (points : List (V3 K)) (p : V3 K) : List (V3 K) := if points.any (near p) then points else points ++ [p]

/-- shells.py:898-901 with wires.py:1874-1881: `get_geo_points` of a contour is a set, which is read in an order that is not known: `order`. -/
def addPoints (order : List (V3 K) → List (V3 K)) (points : List (V3 K)) (contour : List (Edge K)) : List (V3 K) :=
  (order (contour.flatMap Edge.geoPoints)).foldl addPoint points

/-- shells.py:906-909: the loop over the primitives of a contour (core.py:38-50, 71-82). -/
def addEdge (edges : List (Edge K)) (e : Edge K) : List (Edge K) :=
  if edges.any e.isClose || edges.any e.reverse.isClose then edges else edges ++ [e]

/-- shells.py:894-909: all the contours of a shell. -/
def allContours (faces : List (Face K)) : List (List (Edge K)) := faces.flatMap Face.contours

/-- shells.py:894-901. -/
def shellPoints (order : List (V3 K) → List (V3 K)) (faces : List (Face K)) : List (V3 K) := (allContours faces).foldl (addPoints order) []

/-- shells.py:894-909. -/
def shellEdges (faces : List (Face K)) : List (Edge K) := (allContours faces).flatten.foldl addEdge []

/-- core.py:85-118 `get_point_index_in_list` `+ 1 + point_account`. -/
def pointTag (points : List (V3 K)) (account : ℕ) (p : V3 K) : Except PyErr ℕ :=
  match points.findIdx? fun q : V3 K => near q p with
  | none => .error .typeError
  | some i => .ok (i + 1 + account)

/-- shells.py:938-970: the line that defines an edge; a B-spline is written as the segment between its first two discretization points. -/
def defineEdge (points : List (V3 K)) (account tag : ℕ) : Edge K → Except PyErr (Stmt K)
  | .seg a b => (pointTag points account a).bind fun i => (pointTag points account b).bind fun j => .ok (.line tag i j)
  | .arc a c _ b => (pointTag points account a).bind fun i => (pointTag points account c).bind fun k => (pointTag points account b).bind fun j =>
      .ok (.circle tag i k j)
  | .spline (a :: b :: _) => (pointTag points account a).bind fun i => (pointTag points account b).bind fun j => .ok (.line tag i j)
  | .spline _ => .error .indexError

/-- shells.py:932-934 with core.py:85-97. -/
def edgeIndex (edges : List (Edge K)) (e : Edge K) : Option ℕ :=
  match edges.findIdx? fun f : Edge K => f.isClose e with
  | some i => some i
  | none => edges.findIdx? fun f : Edge K => f.isClose e.reverse

/-- The variables `indices_check` and `line_account`. -/
structure State where
  check : List (Option ℕ)
  lineAccount : ℕ

/-- What a turn adds: lines, and tags of the loop. -/
structure Output (K : Type*) where
  lines : List (Stmt K)
  tags : List ℤ

/-- shells.py:936-974: the first test of a turn. -/
def turnForward (points : List (V3 K)) (account : ℕ) (s : State) (i : ℕ) (p e : Edge K) : Except PyErr (Output K × State) :=
  if p.isClose e then
    (defineEdge points account s.lineAccount e).bind fun l =>
      .ok (⟨[l], [(s.lineAccount : ℤ)]⟩, ⟨s.check.set i (some s.lineAccount), s.lineAccount + 1⟩)
  else .ok (⟨[], []⟩, s)

/-- shells.py:976-977: the second test of a turn; the opposite of `None` raises. -/
def turnBackward (i : ℕ) (p e : Edge K) (r : Output K × State) : Except PyErr (Output K × State) :=
  if p.isClose e.reverse then
    match r.2.check[i]? with
    | some (some t) => .ok (⟨r.1.lines, r.1.tags ++ [-(t : ℤ)]⟩, r.2)
    | _ => .error .typeError
  else .ok r

/-- shells.py:930-977: one turn of the loop over the primitives of a contour. -/
def edgeTurn (points : List (V3 K)) (edges : List (Edge K)) (account : ℕ) (s : State) (e : Edge K) : Except PyErr (Output K × State) :=
  match edgeIndex edges e with
  | none => .error .typeError
  | some i => match edges[i]? with
    | none => .error .indexError
    | some p => (turnForward points account s i p e).bind (turnBackward i p e)

/-- shells.py:930-977: the loop over the primitives of a contour. -/
def contourTurns (points : List (V3 K)) (edges : List (Edge K)) (account : ℕ) : State → List (Edge K) → Except PyErr (Output K × State)
  | s, [] => .ok (⟨[], []⟩, s)
  | s, e :: l => (edgeTurn points edges account s e).bind fun r => (contourTurns points edges account r.2 l).bind fun r' =>
      .ok (⟨r.1.lines ++ r'.1.lines, r.1.tags ++ r'.1.tags⟩, r'.2)

/-- shells.py:924-982: the contours of a face, from the number `loops` of the last loop; the lines, the tags of the loops, and the variables. -/
def faceTurns (points : List (V3 K)) (edges : List (Edge K)) (account : ℕ) :
    ℕ → State → List (List (Edge K)) → Except PyErr (List (Stmt K) × List ℕ × State)
  | _, s, [] => .ok ([], [], s)
  | loops, s, c :: l => (contourTurns points edges account s c).bind fun r => (faceTurns points edges account (loops + 1) r.2 l).bind fun r' =>
      .ok (r.1.lines ++ .loop (loops + 1) r.1.tags :: r'.1, (loops + 1) :: r'.2.1, r'.2.2)

/-- shells.py:922-985: the faces, from the numbers of the last loop and of the last surface; the lines, the last loop and the variables. -/
def shellTurns (points : List (V3 K)) (edges : List (Edge K)) (account : ℕ) :
    ℕ → ℕ → State → List (Face K) → Except PyErr (List (Stmt K) × ℕ × State)
  | loops, _, s, [] => .ok ([], loops, s)
  | loops, surfaces, s, f :: l => (faceTurns points edges account loops s f.contours).bind fun r =>
      (shellTurns points edges account (loops + r.2.1.length) (surfaces + 1) r.2.2 l).bind fun r' =>
        .ok (r.1 ++ .surface f.plane (surfaces + 1) r.2.1 :: r'.1, r'.2.1, r'.2.2)

/-- core.py:1627-1631 `update_data`. -/
structure Accounts where
  point : ℕ
  line : ℕ
  lineLoop : ℕ
  surface : ℕ
  surfaceLoop : ℕ

/-- shells.py:882-998 `get_geo_lines` of a shell. -/
def shellLines (order : List (V3 K) → List (V3 K)) (d : Accounts) (faces : List (Face K)) : Except PyErr (List (Stmt K) × Accounts) :=
  let points := shellPoints order faces
  let edges := shellEdges faces
  (shellTurns points edges d.point d.lineLoop d.surface ⟨List.replicate edges.length none, d.line + 1⟩ faces).bind fun r =>
    .ok (points.zipIdx.map (fun pi : V3 K × ℕ => Stmt.point (pi.2 + d.point + 1) pi.1) ++ r.1 ++
        [.surfaceLoop (1 + d.surfaceLoop) ((List.range faces.length).map fun k : ℕ => d.surface + 1 + k)],
      ⟨d.point + points.length, d.line + (r.2.2.lineAccount - 1), d.lineLoop + r.2.1, d.surface + faces.length, d.surfaceLoop + 1⟩)

/-- The primitives of a volume model: closed shells, open shells, others. -/
inductive Prim (K : Type*) where
  | closed (faces : List (Face K))
  | opened (faces : List (Face K))
  | other

/-- The tag in the last line: core.py:1640. -/
def Stmt.tag : Stmt K → ℕ
  | .point t _ => t
  | .line t _ _ => t
  | .circle t _ _ _ => t
  | .loop t _ => t
  | .surface _ t _ => t
  | .surfaceLoop t _ => t
  | .volume t _ => t

/-- core.py:1635-1644: the loop, from the number of the last volume and the lines already written (`lines[-1]`). -/
def modelTurns (order : List (V3 K) → List (V3 K)) : ℕ → Accounts → List (Stmt K) → List (Prim K) → Except PyErr (List (Stmt K))
  | _, _, lines, [] => .ok lines
  | volume, d, lines, .closed faces :: l => (shellLines order d faces).bind fun r =>
      match (lines ++ r.1).getLast? with
      | none => .error .indexError
      | some last => modelTurns order (volume + 1) r.2 (lines ++ r.1 ++ [.volume (volume + 1) last.tag]) l
  | volume, d, lines, .opened faces :: l => (shellLines order d faces).bind fun r => modelTurns order volume r.2 (lines ++ r.1) l
  | volume, d, lines, .other :: l => modelTurns order volume d lines l

/-- core.py:1618-1646 `VolumeModel.get_geo_lines`. -/
def modelLines (order : List (V3 K) → List (V3 K)) (prims : List (Prim K)) : Except PyErr (List (Stmt K)) :=
  modelTurns order 0 ⟨0, 0, 0, 0, 0⟩ [] prims

/-! ## Faces and 2D surfaces -/

/-- A contour of a face or of a 2D surface: a `Circle2D`, or the points of a polygon (`to_polygon(1)` of another contour). -/
inductive Contour (K : Type*) where
  | circle (centre : V2 K) (radius : K)
  | polygon (points : List (V3 K))

/-- The variables of `geo_lines`: `point_account`, `line_account`, `line_loop_account`; `c_index`. -/
structure Counters where
  point : ℕ
  line : ℕ
  loop : ℕ
  index : ℕ

/-- wires.py:3009-3016, 4470-4478 `get_line_segments`: the number of segments of a closed polygon; a segment between two points that are the same is left out. -/
def segmentCount (same : V3 K → V3 K → Bool) (points : List (V3 K)) : ℕ :=
  if 1 < points.length then ((points.zip (points.tail ++ points.take 1)).filter fun pq : V3 K × V3 K => !same pq.1 pq.2).length else 0

/-- faces.py:764-788, surfaces.py:547-567: a polygon.  Simplification: a polygon without points or segments would reuse the last values of `i` and `p_index`. -/
def polygonLines (same : V3 K → V3 K → Bool) (c : Counters) (points : List (V3 K)) : List (Stmt K) :=
  points.zipIdx.map (fun pi : V3 K × ℕ => Stmt.point (c.point + pi.2 + 1) pi.1) ++
  (List.range (segmentCount same points)).map (fun i : ℕ =>
    Stmt.line (c.line + i + 1) (c.point + i + 1) (if i ≠ segmentCount same points - 1 then c.point + i + 2 else c.point + 1)) ++
  [.loop (c.index + 1) ((List.range (segmentCount same points)).map fun i : ℕ => ((c.line + i + 1 : ℕ) : ℤ))]

/-- The variables after a polygon: faces.py:789-791, surfaces.py:568-570. -/
def afterPolygon (same : V3 K → V3 K → Bool) (c : Counters) (points : List (V3 K)) : Counters :=
  ⟨c.point + (points.length - 1) + 1, c.line + (segmentCount same points - 1) + 1, c.loop + 1, c.index + 1⟩

/-- surfaces.py:518-545: a circle. -/
def circleLines (c : Counters) (centre : V2 K) (radius : K) : List (Stmt K) :=
  [.point (c.point + 1) ⟨centre.x - radius, centre.y, 0⟩, .point (c.point + 2) ⟨centre.x, centre.y, 0⟩,
   .point (c.point + 3) ⟨centre.x + radius, centre.y, 0⟩,
   .circle (c.line + 1) (c.point + 1) (c.point + 2) (c.point + 3), .circle (c.line + 2) (c.point + 3) (c.point + 2) (c.point + 1),
   .loop (c.index + 1) [((c.line + 1 : ℕ) : ℤ), ((c.line + 2 : ℕ) : ℤ)]]

/-- surfaces.py:509-571 `Surface2D.geo_lines`: the lines, and `line_surface`; points are equal when their coordinates are. -/
def surfaceTurns : Counters → List (Contour K) → List (Stmt K) × List ℕ
  | _, [] => ([], [])
  | c, .circle o r :: l =>
    let rest := surfaceTurns ⟨c.point + 2 + 1, c.line + 1 + 1, c.loop + 1, c.index + 1⟩ l
    (circleLines c o r ++ rest.1, c.loop :: rest.2)
  | c, .polygon ps :: l =>
    let rest := surfaceTurns (afterPolygon (fun p q : V3 K => decide (p = q)) c ps) l
    (polygonLines (fun p q : V3 K => decide (p = q)) c ps ++ rest.1, c.loop :: rest.2)

/-- surfaces.py:509-571 `Surface2D.geo_lines`. -/
def surface2dLines (contours : List (Contour K)) : List (Stmt K) :=
  let r := surfaceTurns ⟨0, 0, 1, 0⟩ contours
  r.1 ++ [.surface true 1 r.2]

/-- faces.py:728-798 `Face3D.geo_lines`: a `Circle2D` would be passed over (`c_index` grows, `line_loop_account` does not). -/
def faceTurns3 : Counters → List (Contour K) → List (Stmt K) × List ℕ
  | _, [] => ([], [])
  | c, .circle _ _ :: l => faceTurns3 ⟨c.point, c.line, c.loop, c.index + 1⟩ l
  | c, .polygon ps :: l =>
    let rest := faceTurns3 (afterPolygon near c ps) l
    (polygonLines near c ps ++ rest.1, c.loop :: rest.2)

/-- faces.py:728-798 `Face3D.geo_lines`. -/
def face3dLines (contours : List (Contour K)) : List (Stmt K) :=
  let r := faceTurns3 ⟨0, 0, 1, 0⟩ contours
  r.1 ++ [.surface true 1 r.2]

/-! ## Mesh fields -/

/-- The lines of `get_mesh_lines` that depend on the model. -/
inductive MeshStmt (K : Type*) where
  /-- `Field[n] = MathEval;` and `Field[n].F = "size";`. -/
  | mathEval (n : ℕ) (size : K)
  /-- `Field[n] = Restrict;`, `Field[n].InField = …;` and `Field[n].VolumesList = {…};`. -/
  | restrict (n inField volume : ℕ)
  /-- `Field[n] = MinAniso;` and `Field[n].FieldsList = {…};`. -/
  | minAniso (n : ℕ) (fields : List ℕ)
  /-- `Background Field = n;`. -/
  | background (n : ℕ)
  deriving DecidableEq

/-- core.py:1682-1707: the loop without `min_points`, from the number `i` of the primitive and `field_num`; `size` is the size for a closed shell. -/
def meshTurns (size : List (Face K) → K) : ℕ → ℕ → List (Prim K) → List (MeshStmt K) × List ℕ × ℕ
  | _, field, [] => ([], [], field)
  | i, field, .closed faces :: l =>
    let r := meshTurns size (i + 1) (field + 2) l
    (.mathEval field (size faces) :: .restrict (field + 1) field (i + 1) :: r.1, (field + 1) :: r.2.1, r.2.2)
  | i, field, .opened _ :: l => meshTurns size (i + 1) field l
  | i, field, .other :: l => meshTurns size (i + 1) field l

/-- core.py:1648-1717 `get_mesh_lines`.  With `min_points`, the first closed shell with a face raises: `wires` has no attribute `Circle3D`
(surfaces.py:618; an `AttributeError` is written `keyError`); the faces have an outer contour. -/
def meshLines (size : List (Face K) → K) (minPoints : Bool) (prims : List (Prim K)) : Except PyErr (List (MeshStmt K)) :=
  if minPoints && prims.any (fun p : Prim K => match p with
    | .closed faces => !faces.isEmpty
    | _ => false) then .error .keyError
  else
    let r := meshTurns size 0 1 prims
    .ok (r.1 ++ [.minAniso r.2.2 r.2.1, .background r.2.2])

end Volmdlr.Geo
