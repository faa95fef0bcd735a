import Verif.Grid.Model
import Verif.Lists.Model
import Verif.Intersect.Model

/-!
# Model of the searches along an edge (`utils/common_operations.py`)

An edge of space is seen through its length, the point at an abscissa and the abscissa of a point.  A search cuts a part of the edge into
chords, keeps the best chord and starts again between its ends.
-/

namespace Volmdlr.Search

open Volmdlr.Angle

/-- What the searches use of an edge (edges.py `length`, `point_at_abscissa`, `abscissa`, `periodic`).  Simplification: `point_at_abscissa`
and `abscissa` always answer. -/
structure Edge where
  length : ℝ
  pointAt : ℝ → V3 ℝ
  abscissa : V3 ℝ → ℝ
  periodic : Bool

/-- core_compiled.pyx:1447-1465 `is_close`, with the default tolerance. -/
noncomputable def isClose (p q : V3 ℝ) : Bool := point3dInList p [q] (1 / 10 ^ 6)

/-- common_operations.py:180-204 `get_abscissa_discretization`: the points with their abscissas. -/
noncomputable def abscissaDiscretization (e : Edge) (abscissa1 abscissa2 : ℝ) (num : ℕ) : List (V3 ℝ × ℝ) :=
  (Grid.npLinspace abscissa1 abscissa2 num).foldl (fun (kept : List (V3 ℝ × ℝ)) (abscissa : ℝ) =>
    if abscissa > e.length + 1 / 10 ^ 6 then kept
    else if point3dInList (e.pointAt abscissa) (kept.map Prod.fst) (1 / 10 ^ 6) then kept
    else kept ++ [(e.pointAt abscissa, abscissa)]) []

/-- edges.py:409-420 `local_discretization`. -/
noncomputable def localDiscretization (e : Edge) (point1 point2 : V3 ℝ) (num : ℕ) : List (V3 ℝ) :=
  (abscissaDiscretization e (e.abscissa point1) (e.abscissa point2) num).map Prod.fst

/-- `zip(points[:-1], points[1:])`. -/
def chords {α : Type*} (points : List α) : List (α × α) := points.zip points.tail

/-- common_operations.py:237-245, the chords of one turn; the state is `point1_`, `point2_`, `distance`.  A chord is a line segment, whose
`point_distance` (edges.py:4413-4418) is defined since its ends are not close. -/
noncomputable def chordScan (point : V3 ℝ) (st : V3 ℝ × V3 ℝ × ℝ) (l : List (V3 ℝ × V3 ℝ)) : V3 ℝ × V3 ℝ × ℝ :=
  l.foldl (fun (st : V3 ℝ × V3 ℝ × ℝ) (c : V3 ℝ × V3 ℝ) =>
    if isClose c.1 c.2 then st
    else match linesegment3dPointDistance c.1 c.2 point with
      | none => st
      | some (dist, _) => if dist < st.2.2 then (c.1, c.2, dist) else st) st

/-- common_operations.py:232-250, the loop, with `point1_`, `point2_` and `best_distance` (`none` is `math.inf`).  The outer `none` is a
search that has not ended after `fuel` turns.  `not point1_` is never true of a point. -/
noncomputable def searchLoop (disc : V3 ℝ → V3 ℝ → List (V3 ℝ)) (point : V3 ℝ) :
    ℕ → V3 ℝ → V3 ℝ → Option ℝ → Option (Option ℝ)
  | 0, _, _, _ => none
  | fuel + 1, point1, point2, best =>
    match disc point1 point2 with
    | [] => some best
    | q :: qs =>
      let r := chordScan point (point1, point2, V3.pointDistance point q) (chords (q :: qs))
      open Classical in
      if ∃ b ∈ best, mathIsClose r.2.2 b (1 / 10 ^ 7) then some (some r.2.2)
      else searchLoop disc point fuel r.1 r.2.1 (some r.2.2)

/-- The number of points of a turn (common_operations.py:218-227); `Sum.inl` is the distance answered at once (221). -/
noncomputable def numberPoints (e : Edge) (point start stop : V3 ℝ) : Except PyErr (ℝ ⊕ ℕ) :=
  open Classical in
  if start ≠ stop then
    if isClose start stop then
      if e.periodic = false then .ok (.inl (V3.pointDistance point start))
      else .ok (.inr (if |0 - e.length| > 5 / 10 ^ 6 then 10 else 2))
    else .ok (.inr (if |e.abscissa start - e.abscissa stop| > 5 / 10 ^ 6 then 10 else 2))
  else if e.periodic then .ok (.inr (if |0 - e.length| > 5 / 10 ^ 6 then 10 else 2))
  else .error .unboundLocal

/-- common_operations.py:207-251 `get_point_distance_to_edge`. -/
noncomputable def pointDistanceToEdge (e : Edge) (point start stop : V3 ℝ) (fuel : ℕ) : Except PyErr (Option (Option ℝ)) :=
  match numberPoints e point start stop with
  | .error err => .error err
  | .ok (.inl d) => .ok (some (some d))
  | .ok (.inr num) => .ok (searchLoop (fun p q => localDiscretization e p q num) point fuel start stop none)

end Volmdlr.Search
