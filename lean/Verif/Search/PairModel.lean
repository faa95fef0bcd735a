import Verif.Search.SegModel

/-!
# Model of `generic_minimum_distance` (`utils/common_operations.py`), for edges of space
-/

namespace Volmdlr.Search

open Volmdlr.Angle

/-- The variables of the loop, common_operations.py:266-268 and the parameters 254-255: `best_distance` (`none` is `math.inf`), the ends of the two parts, `distance` and
`distance_points`. -/
structure PairState where
  p1 : V3 ℝ
  p2 : V3 ℝ
  q1 : V3 ℝ
  q2 : V3 ℝ
  distance : ℝ
  points : V3 ℝ × V3 ℝ

/-- common_operations.py:279-290, the two `for` loops: all pairs of chords.  `linesegment_class_` refuses equal ends (`none`, a `NotImplementedError`);
`minimum_distance` of two line segments of space is `distance_linesegment` (edges.py:499-501). -/
noncomputable def pairScan (st : PairState) (l1 l2 : List (V3 ℝ × V3 ℝ)) : Option PairState :=
  (l1.product l2).foldlM (fun (st : PairState) (c : (V3 ℝ × V3 ℝ) × (V3 ℝ × V3 ℝ)) =>
    match distanceLinesegment c.1.1 c.1.2 c.2.1 c.2.2 with
    | none => none
    | some (dist, x, y) => if dist < st.distance then some ⟨c.1.1, c.1.2, c.2.1, c.2.2, dist, (x, y)⟩ else some st) st

/-- The answer: the distance and the two points (`return_points`); `none` when the first turn finds no points (`math.inf`, and a `TypeError` for the points). -/
abbrev PairAnswer := Option (ℝ × V3 ℝ × V3 ℝ)

/-- common_operations.py:271-294, the loop; the outer `none` is a search that has not ended after `fuel` turns. -/
noncomputable def pairLoop (disc1 : ℕ → V3 ℝ → V3 ℝ → List (V3 ℝ)) (disc2 : V3 ℝ → V3 ℝ → List (V3 ℝ)) :
    ℕ → ℕ → V3 ℝ → V3 ℝ → V3 ℝ → V3 ℝ → PairAnswer → Option (Except PyErr PairAnswer)
  | 0, _, _, _, _, _, _ => none
  | fuel + 1, n, p1, p2, q1, q2, best =>
    match disc1 (10 * n) p1 p2, disc2 q1 q2 with
    | [], _ => some (.ok best)
    | _ :: _, [] => some (.error .indexError)
    | a :: as, b :: bs =>
      match pairScan ⟨p1, p2, q1, q2, V3.pointDistance b a, (b, a)⟩ (chords (a :: as)) (chords (b :: bs)) with
      | none => some (.error .notImplemented)
      | some st =>
        open Classical in
        if ∃ r ∈ best, mathIsClose st.distance r.1 (1 / 10 ^ 6) then some (.ok (some (st.distance, st.points.1, st.points.2)))
        else pairLoop disc1 disc2 fuel 1 st.p1 st.p2 st.q1 st.q2 (some (st.distance, st.points.1, st.points.2))

/-- common_operations.py:254-297 `generic_minimum_distance` called by edges.py:475-486 with the ends of the edges.  `int` of a positive number is its floor. -/
noncomputable def genericMinimumDistance (e f : Edge) (start1 end1 start2 end2 : V3 ℝ) (fuel : ℕ) : Option (Except PyErr PairAnswer) :=
  if f.length = 0 then some (.error .zeroDivision)
  else
    let n := max 1 ⌊e.length / f.length⌋₊
    pairLoop (fun num p q => localDiscretization e p q num) (fun p q => localDiscretization f p q 10) fuel n start1 end1 start2 end2 none

end Volmdlr.Search
