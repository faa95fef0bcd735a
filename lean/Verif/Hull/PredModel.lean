import Verif.Hull.Model
import Mathlib.Data.List.Sort

/-!
# Model of the predicates of `ClosedPolygon2D` (wires.py): `is_convex`, `self_intersects`, `polygon_distance`
-/

namespace Volmdlr.Hull

open Real Volmdlr.Angle Volmdlr.Arc

open Classical in
/-- wires.py:4003-4009: the angle from a side to the next one is accepted, in a polygon in the trigonometric direction or not. -/
noncomputable def turnAccepted (trigo : Bool) (d1 d2 : V2 ℝ) : Bool :=
  let angle := clockwiseAngle d1 d2
  if trigo then !decide (angle < π ∧ angle ≠ 0) else !decide (angle > π ∧ angle ≠ 2 * π)

/-- wires.py:3996-4010 `ClosedPolygon2D.is_convex`; `none`: an exception (with no side, `self.line_segments[0]` raises).  `is_trigo` is asked
for in every turn of the loop; it is a cached property. -/
noncomputable def isConvex (points : List (V2 ℝ)) : Option Bool :=
  let s := sides points
  if s = [] then none
  else
    match isTrigo points with
    | none => none
    | some trigo => some ((s.zip (s.tail ++ s.take 1)).all fun (p : (V2 ℝ × V2 ℝ) × (V2 ℝ × V2 ℝ)) =>
        turnAccepted trigo (p.1.2 - p.1.1) (p.2.2 - p.2.1))

section
variable {K : Type} [Field K] [LinearOrder K] [IsStrictOrderedRing K]

/-- The order of the keys `(points[p][0], points[p][1])` (wires.py:3187), a comparison of tuples. -/
def keyLe (points : List (V2 K)) (i j : ℕ) : Bool :=
  let p := points.getD i ⟨0, 0⟩
  let q := points.getD j ⟨0, 0⟩
  decide (p.x < q.x ∨ (p.x = q.x ∧ p.y ≤ q.y))

/-- wires.py:3187 `sorted_index`: `sorted` is a stable sort, as insertion is. -/
def sortedIndex (points : List (V2 K)) : List ℕ := (List.range points.length).insertionSort fun i j => keyLe points i j = true

/-- wires.py:3191-3203, one turn of the loop: the two segments added for position `i` of the sorted list; `sorted_index[i - 1]` is the last
element for `i = 0`, `sorted_index[i + 1]` an `IndexError` for the last position. -/
def segmentsAt (n : ℕ) (sorted : List ℕ) (i index : ℕ) : Except PyErr (List (ℕ × ℕ)) :=
  let before := if index = 0 then n - 1 else sorted.getD ((i + sorted.length - 1) % sorted.length) 0
  if n ≤ index + 1 then .ok [(index, before), (index, 0)]
  else
    match sorted[i + 1]? with
    | none => .error .indexError
    | some next => .ok [(index, before), (index, next)]

/-- wires.py:3179-3205 `_get_segments`, the loop from position `i`. -/
def segmentsFrom (n : ℕ) (sorted : List ℕ) : ℕ → List ℕ → Except PyErr (List (ℕ × ℕ))
  | _, [] => .ok []
  | i, index :: rest =>
    match segmentsAt n sorted i index with
    | .error e => .error e
    | .ok two =>
      match segmentsFrom n sorted (i + 1) rest with
      | .error e => .error e
      | .ok more => .ok (two ++ more)

/-- wires.py:3207-3226 `_segments_intersect` with `epsilon = 0`; the constructor of a segment raises `ValueError` for equal ends. -/
def segmentsIntersect (points : List (V2 K)) (s1 s2 : ℕ × ℕ) : Except PyErr Bool :=
  let a := points.getD s1.1 ⟨0, 0⟩
  let b := points.getD s1.2 ⟨0, 0⟩
  let c := points.getD s2.1 ⟨0, 0⟩
  let d := points.getD s2.2 ⟨0, 0⟩
  if (a.x = b.x ∧ a.y = b.y) ∨ (c.x = d.x ∧ c.y = d.y) then .error .valueError
  else
    match lineIntersection a b c d with
    | none => .ok false
    | some (_, t, u) => .ok (decide (0 ≤ t ∧ t ≤ 1 ∧ 0 ≤ u ∧ u ≤ 1))

/-- wires.py:3171-3175, the two nested loops, over the pairs of segments in their order. -/
def firstPair (points : List (V2 K)) : List ((ℕ × ℕ) × (ℕ × ℕ)) → Except PyErr (Option ((ℕ × ℕ) × (ℕ × ℕ)))
  | [] => .ok none
  | (s1, s2) :: rest =>
    if s1 = s2 then firstPair points rest
    else
      match segmentsIntersect points s1 s2 with
      | .error e => .error e
      | .ok true => .ok (some (s1, s2))
      | .ok false => firstPair points rest

/-- wires.py:3159-3177 `ClosedPolygon2D.self_intersects`: the two segments found, as pairs of indices, or `none` for `False, None, None`. -/
def selfIntersects (points : List (V2 K)) : Except PyErr (Option ((ℕ × ℕ) × (ℕ × ℕ))) :=
  match segmentsFrom points.length (sortedIndex points) 0 (sortedIndex points) with
  | .error e => .error e
  | .ok segs => firstPair points (segs.flatMap fun (s1 : ℕ × ℕ) => segs.map fun (s2 : ℕ × ℕ) => (s1, s2))

end

/-- wires.py:3043-3050 `ClosedPolygon2D.polygon_distance`: `none` for the exception raised by an empty polygon. -/
noncomputable def polygonDistance (p q : List (V2 ℝ)) : Option ℝ :=
  match p with
  | [] => none
  | a :: _ => (argmin (q.map fun (b : V2 ℝ) => V2.pointDistance a b)).map fun r => r.1

end Volmdlr.Hull
