import Verif.BBox.Model
import Mathlib.Data.Real.Basic

/-!
# Model of the searches among nearby faces (`faces.py`, `shells.py`): octree decomposition, nearest groups, distances of shells and faces
-/

namespace Volmdlr.Near

section
variable {K F : Type*} [Field K] [LinearOrder K]

/-- faces.py:35-39: the first octant of the list with the centre. -/
def firstOctant (octants : List (Box3 K)) (center : V3 K) : Option ℕ := octants.findIdx? fun o : Box3 K => o.pointBelongs center

/-- faces.py:31-41 `octree_decomposition`: the groups that are not empty, with their octant; `center` is `face.bounding_box.center`. -/
def octreeDecomposition (bbox : Box3 K) (center : F → V3 K) (faces : List F) : List (Box3 K × List F) :=
  (bbox.octree.zipIdx.map fun ok : Box3 K × ℕ => (ok.1, faces.filter fun f : F => decide (firstOctant bbox.octree (center f) = some ok.2))).filter
    fun g : Box3 K × List F => !g.2.isEmpty

end

section
variable {P F : Type*}

/-- `np.min` of the distances of two clouds of points: `none` when one is empty (`ValueError`). -/
noncomputable def cloudDistance (dist : P → P → ℝ) (sampled query : List P) : Option ℝ :=
  match query.flatMap fun q : P => sampled.map fun p : P => dist q p with
  | [] => none
  | d :: ds => some (ds.foldl min d)

/-- The state of the search: the least distance (`none` is `math.inf`) and the indices. -/
abbrev Nearest := Option (ℝ × ℕ × ℕ)

/-- shells.py:684-690, faces.py:1523-1528: one turn of the search; the index is the first one with the same points. -/
noncomputable def nearestStep [DecidableEq P] (dist : P → P → ℝ) (clouds1 clouds2 : List (List P)) (best : Nearest) (pair : List P × List P) : Except PyErr Nearest :=
  match cloudDistance dist pair.1 pair.2 with
  | none => .error .valueError
  | some d =>
    let found : Nearest := some (d, clouds1.idxOf pair.1, clouds2.idxOf pair.2)
    match best with
    | none => .ok found
    | some (m, _, _) => if d < m then .ok found else .ok best

/-- shells.py:683-690: the pairs of `product`. -/
noncomputable def nearestPair [DecidableEq P] (dist : P → P → ℝ) (clouds1 clouds2 : List (List P)) : Except PyErr Nearest :=
  (clouds1.flatMap fun a : List P => clouds2.map fun b : List P => (a, b)).foldlM (nearestStep dist clouds1 clouds2) none

/-- shells.py:704-711, faces.py:1543-1550: the loop that keeps the first least distance; no distance is infinite. -/
noncomputable def leastOf {W : Type*} : List (ℝ × W) → Option (ℝ × W)
  | [] => none
  | a :: rest => some (rest.foldl (fun (best x : ℝ × W) => if x.1 < best.1 then x else best) a)

/-- shells.py:671-693 `get_minimum_distance_nearby_faces`: the groups of faces of the two shells; `sample` makes the cloud of a group. -/
noncomputable def nearbyFaces [DecidableEq P] (dist : P → P → ℝ) (sample : List F → List P) (groups1 groups2 : List (List F)) : Except PyErr (List F × List F) :=
  match nearestPair dist (groups1.map sample) (groups2.map sample) with
  | .error e => .error e
  | .ok none => .error .typeError
  | .ok (some (_, i, j)) =>
    match groups1[i]?, groups2[j]? with
    | some a, some b => .ok (a, b)
    | _, _ => .error .indexError

/-- shells.py:695-713 `minimum_distance` with its points; `faceDistance` is `face_minimum_distance`. -/
noncomputable def shellDistance [DecidableEq P] (dist : P → P → ℝ) (sample : List F → List P) (faceDistance : F → F → ℝ × P × P)
    (groups1 groups2 : List (List F)) : Except PyErr (ℝ × P × P) :=
  match nearbyFaces dist sample groups1 groups2 with
  | .error e => .error e
  | .ok (faces1, faces2) =>
    match leastOf (faces1.flatMap fun a : F => faces2.map fun b : F => faceDistance a b) with
    | none => .error .typeError
    | some r => .ok r

/-- faces.py:1508-1553 `Face3D.point_distance`; `groups` is the decomposition of the triangulation, `points` the points of a triangle, `triangleDistance` its
`point_distance`.  The point of the search is `(point[0], point[0], point[0])`. -/
noncomputable def facePointDistance [DecidableEq (V3 ℝ)] (points : F → List (V3 ℝ)) (triangleDistance : F → V3 ℝ → ℝ × V3 ℝ) (groups : List (List F)) (p : V3 ℝ) :
    Except PyErr (ℝ × V3 ℝ) :=
  match nearestPair V3.pointDistance (groups.map fun g : List F => g.flatMap points) [[⟨p.x, p.x, p.x⟩]] with
  | .error e => .error e
  | .ok none => .error .typeError
  | .ok (some (_, i, _)) =>
    match groups[i]? with
    | none => .error .indexError
    | some g =>
      match leastOf (g.map fun t : F => triangleDistance t p) with
      | none => .error .typeError
      | some r => .ok r

/-- shells.py:639-655 `minimum_distance_point`, with the least distance; `boxDistance` is the distance of the point to the box of the shell. -/
noncomputable def shellPoint (boxDistance : ℝ) (faceDistance : F → ℝ × P) : List F → Except PyErr (ℝ × P)
  | [] => .error .indexError
  | f :: rest => .ok (rest.foldl (fun (best : ℝ × P) (g : F) =>
      if boxDistance < best.1 then
        if (faceDistance g).1 < best.1 then faceDistance g else best
      else best) (faceDistance f))

/-- faces.py:1600-1626 `PlaneFace3D.point_distance`, in the frame of the plane: the point is its projection and its height. `belongs` is `point_belongs` of the
projection, `border` is `point_border_distance` of the polygon of the outer contour. -/
noncomputable def planeFaceDistance (belongs : V2 ℝ → Bool) (border : V2 ℝ → ℝ × V2 ℝ) (p : V3 ℝ) : ℝ × V3 ℝ :=
  if belongs ⟨p.x, p.y⟩ then (|p.z|, ⟨p.x, p.y, 0⟩)
  else (Real.sqrt (p.z ^ 2 + (border ⟨p.x, p.y⟩).1 ^ 2), ⟨(border ⟨p.x, p.y⟩).2.x, (border ⟨p.x, p.y⟩).2.y, 0⟩)

/-- faces.py:1637-1668 `minimum_distance_points_plane` of two faces given by the edges of their outer contours; `hits` is `edge_intersections` of the first face,
`edgeDistance` is `minimum_distance` of two edges. -/
noncomputable def planeFacesDistance {E : Type*} (hits : E → List P) (edgeDistance : E → E → ℝ × P × P) (edges1 edges2 : List E) : Except PyErr (ℝ × P × P) :=
  match edges2.flatMap hits with
  | p :: _ => .ok (0, p, p)
  | [] =>
    match leastOf (edges1.flatMap fun a : E => edges2.map fun b : E => edgeDistance a b) with
    | none => .error .unboundLocal
    | some r => .ok r

end

end Volmdlr.Near
