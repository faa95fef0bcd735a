import Verif.Near.Model

/-!
# Model of distances of line segments of the plane (`edges.py`, `curves.py`)
-/

namespace Volmdlr.Near

/-- edges.py:2540-2549 `closest_point_on_segment`, for the segment from `a` to `b`; `none` is `ZeroDivisionError`. -/
noncomputable def closestOnSegment (a b p : V2 ℝ) : Option (V2 ℝ) :=
  if V2.dot (b - a) (b - a) = 0 then none
  else
    let t := max 0 (min (V2.dot (p - a) (b - a) / V2.dot (b - a) (b - a)) 1)
    some ⟨a.x + t * (b - a).x, a.y + t * (b - a).y⟩

/-- curves.py:347-358 `closest_point_on_line`, for the line by `a` and `b`. -/
noncomputable def closestOnLine (a b p : V2 ℝ) : Option (V2 ℝ) :=
  if V2.dot (b - a) (b - a) = 0 then none
  else
    let t := V2.dot (p - a) (b - a) / V2.dot (b - a) (b - a)
    some ⟨a.x + t * (b - a).x, a.y + t * (b - a).y⟩

/-- edges.py:2551-2578 `LineSegment2D.distance_linesegment` with its points, of the segments from `a` to `b` and from `c` to `d`; `hits` is `linesegment_intersections`. -/
noncomputable def segmentsDistance (hits : List (V2 ℝ)) (a b c d : V2 ℝ) : Except PyErr (ℝ × V2 ℝ × V2 ℝ) :=
  match hits with
  | p :: _ => .ok (0, p, p)
  | [] =>
    match closestOnSegment a b c, closestOnSegment a b d, closestOnSegment c d a, closestOnSegment c d b with
    | some pc, some pd, some pa, some pb =>
      match leastOf [(V2.pointDistance pc c, (pc, c)), (V2.pointDistance pd d, (pd, d)), (V2.pointDistance pa a, (pa, a)), (V2.pointDistance pb b, (pb, b))] with
      | some r => .ok r
      | none => .error .typeError
    | _, _, _, _ => .error .zeroDivision

/-- edges.py:2580-2609 `LineSegment2D.line_distance` with its points, of the segment from `a` to `b` and the line by `l` and `m`; `hit` is the first of `line_intersections`, `belongs` is
`point_belongs` of the segment. -/
noncomputable def segmentLineDistance (hit : Option (V2 ℝ)) (belongs : V2 ℝ → Bool) (a b l m : V2 ℝ) : Except PyErr (ℝ × V2 ℝ × V2 ℝ) :=
  match hit with
  | none =>
    match closestOnLine l m a with
    | none => .error .zeroDivision
    | some pa => .ok (V2.pointDistance pa a, a, pa)
  | some h =>
    if belongs h then .ok (0, h, h)
    else
      match closestOnLine l m a, closestOnLine l m b with
      | some pa, some pb =>
        if V2.pointDistance pa a < V2.pointDistance pb b then .ok (V2.pointDistance pa a, a, pa) else .ok (V2.pointDistance pb b, b, pb)
      | _, _ => .error .zeroDivision

end Volmdlr.Near
