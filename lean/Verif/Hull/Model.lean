import Verif.Arc.Model
import Verif.Segment.Model

/-!
# Model of the point-set and orientation methods of `ClosedPolygon2D` (wires.py)

`points_convex_hull`, `is_trigo`, `offset`, `point_border_distance`.
-/

namespace Volmdlr.Hull

open Real Volmdlr.Angle Volmdlr.Arc

/-! ## Convex hull -/

/-- wires.py:47-59 `argmin`, the loop from position `pos` with the current value and position: result (value, position). -/
noncomputable def argminFrom (pos : ℕ) (best : ℝ × ℕ) : List ℝ → ℝ × ℕ
  | [] => best
  | v :: l => argminFrom (pos + 1) (if v < best.1 then (v, pos) else best) l

/-- wires.py:47-59 `argmin`: the smallest value and its first position; `none` is the `IndexError` of an empty list. -/
noncomputable def argmin : List ℝ → Option (ℝ × ℕ)
  | [] => none
  | v :: l => some (argminFrom 1 (v, 0) l)

/-- wires.py:32-44 `argmax`: the largest value and its first position (the same loop with the order reversed). -/
noncomputable def argmax (l : List ℝ) : Option (ℝ × ℕ) := (argmin (l.map fun v => -v)).map fun r => (-r.1, r.2)

/-- wires.py:3240-3243: the barycenter of the points. -/
noncomputable def barycenter (points : List (V2 ℝ)) : V2 ℝ :=
  let s := points.tail.foldl (fun b p => b + p) (points.headD ⟨0, 0⟩)
  ⟨s.x / points.length, s.y / points.length⟩

/-- wires.py:3249-3253, 3265-3270: the opposite of the clockwise angles from `vec` to the vectors from `origin` to the points. -/
noncomputable def thetas (vec origin : V2 ℝ) (points : List (V2 ℝ)) : List ℝ :=
  points.map fun p => -clockwiseAngle vec (p - origin)

open Classical in
/-- wires.py:3264-3292 the loop: `hull` is the list built so far, `prev` and `next` its last two points, `vec` is
`initial_vector`.  The first argument bounds the number of turns (each one removes a point, so that the number of remaining
points is enough). -/
noncomputable def hullLoop (start bary : V2 ℝ) : ℕ → List (V2 ℝ) → V2 ℝ → V2 ℝ → List (V2 ℝ) → V2 ℝ → ℝ → Except PyErr (List (V2 ℝ))
  | 0, _, _, _, _, _, _ => .error .indexError
  | n + 1, hull, prev, next, remaining, vec, total =>
    if isClose2 next start (1 / 10 ^ 6) then .ok hull.dropLast
    else match argmin (thetas (next - prev) next remaining) with
      | none => .error .indexError
      | some (minTheta, pos) =>
        let q := remaining.getD pos ⟨0, 0⟩
        if mathIsClose minTheta (-2 * π) (1 / 10 ^ 6) ∨ mathIsClose minTheta 0 (1 / 10 ^ 6) then
          if q = start then .ok hull.dropLast
          else hullLoop start bary n hull prev next (remaining.eraseIdx pos) vec total
        else
          let vecNext := q - bary
          let total := total + (2 * π - clockwiseAngle vec vecNext)
          if total > 2 * π then .ok hull.dropLast
          else hullLoop start bary n (hull ++ [q]) next q (remaining.eraseIdx pos) vecNext total

/-- wires.py:3226-3294 `ClosedPolygon2D.points_convex_hull`: the points of the polygon, `none` when there are fewer than three
points. -/
noncomputable def pointsConvexHull (points : List (V2 ℝ)) : Except PyErr (Option (List (V2 ℝ))) :=
  if points.length < 3 then .ok none
  else match argmax (points.map V2.y) with
    | none => .error .indexError
    | some (_, posYmax) =>
      let start := points.getD posYmax ⟨0, 0⟩
      let bary := barycenter points
      let remaining := points.eraseIdx posYmax
      match argmin (thetas (start - bary) start remaining) with
      | none => .error .indexError
      | some (_, pos) =>
        let q := remaining.getD pos ⟨0, 0⟩
        match hullLoop start bary (points.length + 1) [start, q] start q (remaining.eraseIdx pos ++ [start]) (start - bary) 0 with
        | .ok hull => .ok (some hull)
        | .error e => .error e

/-! ## Line segments, orientation -/

/-- wires.py:3009-3016 `ClosedPolygon2D.get_line_segments`: the sides, without those whose ends are equal. -/
noncomputable def sides (points : List (V2 ℝ)) : List (V2 ℝ × V2 ℝ) :=
  open Classical in
  if points.length > 1 then (points.zip (points.tail ++ points.take 1)).filter fun e => decide (e.1 ≠ e.2) else []

/-- wires.py:3061-3064: the angle added for two consecutive sides with direction vectors `d1` and `d2` (the direction of the
second one is normalised, the normal vector of the first one is not). -/
noncomputable def turn (d1 d2 : V2 ℝ) : Option ℝ :=
  match V2.unitVector d1, V2.unitVector d2 with
  | some u1, some u2 => some (atan2 (V2.dot u2 (V2.normalVector d1)) (V2.dot u2 u1))
  | _, _ => none

/-- wires.py:3058-3064: the sum of the angles. -/
noncomputable def turnSum (segments : List (V2 ℝ × V2 ℝ)) : Option ℝ :=
  (segments.zip (segments.tail ++ segments.take 1)).foldl (fun acc p =>
    match acc, turn (p.1.2 - p.1.1) (p.2.2 - p.2.1) with
    | some a, some t => some (a + t)
    | _, _ => none) (some 0)

/-- wires.py:3052-3065 `ClosedPolygon2D.is_trigo`; `none`: an exception. (With no side, `self.line_segments[0]` raises.) -/
noncomputable def isTrigo (points : List (V2 ℝ)) : Option Bool :=
  if points.length < 3 then some true
  else if sides points = [] then none
  else (turnSum (sides points)).map fun a => decide (a > 0)

/-! ## Offset and distance to the border -/

/-- wires.py:3118-3137: the offset of the point `p` whose neighbours are `a` (before) and `b` (after); `none`: an exception. -/
noncomputable def offsetPoint (a p b : V2 ℝ) (offset : ℝ) : Option (V2 ℝ) :=
  open Classical in
  match V2.unitVector (a - p), V2.unitVector (b - p) with
  | some v1, some v2 =>
    match V2.unitVector v2, V2.unitVector (V2.normalVector v1), V2.unitVector (V2.normalVector v2) with
    | some v2', some n1, some n2 =>
      let vi := v1 + v2'
      let ov := if vi = ⟨0, 0⟩ then V2.normalVector v2
        else if V2.dot vi (V2.normalVector v1) > 0 then -vi else vi
      let alpha := Real.arccos (V2.dot (-n1) n2)
      if Real.cos (alpha / 2) = 0 then none
      else some (p + V2.smul (offset / Real.cos (alpha / 2)) (-ov))
    | _, _, _ => none
  | _, _ => none

/-- wires.py:3090-3139 `ClosedPolygon2D.offset`: the points of the result; `bounds` are the bounds `xmin, xmax, ymin, ymax` of the
polygon. -/
noncomputable def offset (points : List (V2 ℝ)) (bounds : ℝ × ℝ × ℝ × ℝ) (off : ℝ) : Except PyErr (List (V2 ℝ)) :=
  if off ≤ -(min (bounds.2.1 - bounds.1) (bounds.2.2.2 - bounds.2.2.1) / 2) then .error .valueError
  else
    let n := points.length
    match (List.range n).mapM fun i : ℕ =>
        offsetPoint (points.getD ((i + n - 1) % n) ⟨0, 0⟩) (points.getD i ⟨0, 0⟩) (points.getD ((i + 1) % n) ⟨0, 0⟩) off with
    | some l => .ok l
    | none => .error .zeroDivision

/-- wires.py:3149-3154: the loop on the other sides; state (distance, point). -/
noncomputable def borderLoop (point : V2 ℝ) (best : ℝ × V2 ℝ) : List (V2 ℝ × V2 ℝ) → Option (ℝ × V2 ℝ)
  | [] => some best
  | e :: l =>
    match linesegment2dPointDistance e.1 e.2 point with
    | none => none
    | some d => borderLoop point (if d.1 < best.1 then d else best) l

/-- wires.py:3141-3157 `ClosedPolygon2D.point_border_distance` with `return_other_point=True`; `none`: an exception. -/
noncomputable def pointBorderDistance (points : List (V2 ℝ)) (point : V2 ℝ) : Option (ℝ × V2 ℝ) :=
  match sides points with
  | [] => none
  | e :: l =>
    match linesegment2dPointDistance e.1 e.2 point with
    | none => none
    | some d => borderLoop point d l

end Volmdlr.Hull
