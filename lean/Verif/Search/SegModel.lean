import Verif.Search.Model
import Verif.Fillet.Model

/-!
# Model of the distances of a line segment of space (`edges.py`, `LineSegment3D`)
-/

namespace Volmdlr.Search

open Volmdlr.Angle Volmdlr.Fillet

/-- edges.py:772-788 `LineSegment.point_belongs` with 4413-4418 `LineSegment3D.point_distance`, for different ends (the constructor
refuses equal ones); `none`: division by zero. -/
noncomputable def segBelongs (start stop p : V3 ℝ) : Option Prop :=
  (linesegment3dPointDistance start stop p).map fun r : ℝ × V3 ℝ => mathIsClose r.1 0 (1 / 10 ^ 6)

/-- edges.py:4662-4666: a point, or the nearest end when it is not on the segment. -/
noncomputable def backToSegment (start stop p : V3 ℝ) : Option (V3 ℝ) :=
  (segBelongs start stop p).map fun b : Prop =>
    open Classical in
    if ¬ b then if V3.pointDistance start p < V3.pointDistance stop p then start else stop else p

/-- edges.py:4653-4669 `LineSegment3D.distance_linesegment` (with `return_points`), of the segments `[a, b]` and `[c, d]`. -/
noncomputable def distanceLinesegment (a b c d : V3 ℝ) : Option (ℝ × V3 ℝ × V3 ℝ) :=
  match minimumDistancePointsLines a b c d with
  | none => none
  | some (p1, p2) =>
    match backToSegment a b p1, backToSegment c d p2 with
    | some q1, some q2 => some (V3.pointDistance q1 q2, q1, q2)
    | _, _ => none

/-- edges.py:4871-4895 `LineSegment3D.line_distance` (with `return_points`), of the segment `[start, stop]` and the line through `p`, `q`. -/
noncomputable def lineDistance (start stop p q : V3 ℝ) : Option (ℝ × V3 ℝ × V3 ℝ) :=
  match minimumDistancePointsLines p q start stop with
  | none => none
  | some (m1, m2) =>
    (segBelongs start stop m2).map fun b : Prop =>
      open Classical in
      if b then (V3.pointDistance m1 m2, m1, m2)
      else
        let distance1 := V3.pointDistance m1 start
        let distance2 := V3.pointDistance m1 stop
        if distance1 < distance2 then (distance1, m1, start) else (distance1, m1, stop)

end Volmdlr.Search
