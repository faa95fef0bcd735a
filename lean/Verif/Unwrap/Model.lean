import Verif.Vec.Model
import Mathlib.Algebra.Order.Field.Basic
import Mathlib.Algebra.Order.Ring.Abs

/-!
# Model of the passage of edges to the parametric domain of a periodical surface (utils/parametric.py, `PeriodicalSurface` in surfaces.py)

`math.pi` is a parameter `pi` of the functions: what is proved needs `1 ≤ pi` only, so that it holds for the real number `π`, and values can be
computed.
-/

namespace Volmdlr.Unwrap

variable {K : Type} [Field K] [LinearOrder K] [IsStrictOrderedRing K]

/-- `math.isclose(a, b, abs_tol=tol)` of the standard library, with its default relative tolerance `1e-9`. -/
def mathIsClose (a b tol : K) : Bool := decide (|a - b| ≤ max (1 / 10 ^ 9 * max |a| |b|) tol)

/-- utils/parametric.py:14-27 `find_sign_changes`. -/
def signChanges (l : List K) : List ℕ :=
  (List.range l.length).filter fun (i : ℕ) => decide (1 ≤ i ∧ l.getD i 0 * l.getD (i - 1) 0 < 0)

/-- `round(a / abs(a), 2)` (utils/parametric.py:46, surfaces.py:2026) for `a` different from zero: the quotient is 1 or -1. -/
def signOf (a : K) : K := if 0 < a then 1 else -1

/-- utils/parametric.py:46-49: the value `b` after a sign change from `a` is a jump from one end of the period to the other. -/
def wraps (pi a b : K) : Bool :=
  let delta := max |b + signOf a * (2 * pi) - a| (1 / 10 ^ 4)
  mathIsClose |b| pi (11 / 10 * delta) && !mathIsClose |b| 0 (11 / 10 * delta)

/-- utils/parametric.py:30-52 `angle_discontinuity`: the indices; the first value returned is whether there are any. -/
def discontinuities (pi : K) (l : List K) : List ℕ :=
  (signChanges l).filter fun (i : ℕ) => wraps pi (l.getD (i - 1) 0) (l.getD i 0)

/-- The coordinate `point[i]` of a point, `i = 0` for the direction "x". -/
def coord (dirX : Bool) (p : V2 K) : K := if dirX then p.x else p.y

/-- surfaces.py:2028, 2031: the point moved by `d` in a direction. -/
def shift (dirX : Bool) (d : K) (p : V2 K) : V2 K := if dirX then ⟨p.x + d, p.y⟩ else ⟨p.x, p.y + d⟩

/-- surfaces.py:2025-2033 `_helper_fix_angle_discontinuity`; `none` is the division by zero. -/
def helperFix (pi : K) (dirX : Bool) (points : List (V2 K)) (index : ℕ) : Option (List (V2 K)) :=
  let a := coord dirX (points.getD (index - 1) ⟨0, 0⟩)
  if a = 0 then none
  else some (points.zipIdx.map fun (q : V2 K × ℕ) => if index ≤ q.2 then shift dirX (signOf a * (2 * pi)) q.1 else q.1)

/-- surfaces.py:2044-2051, the points after one turn of the loop, `index` being the first index of the queue and `rest` the others. -/
def fixStep (pi : K) (dirX : Bool) (points : List (V2 K)) (index : ℕ) : List ℕ → Option (List (V2 K))
  | [] => helperFix pi dirX points index
  | next :: _ => (helperFix pi dirX (points.take next) index).map fun (l : List (V2 K)) => l ++ points.drop next

/-- surfaces.py:2041-2053, the `while` loop; the indices are searched again among the abscissas, whatever the direction.  The fuel is a number of
turns; `none`: an exception, or more turns than that. -/
def fixLoop (pi : K) (dirX : Bool) : ℕ → List (V2 K) → List ℕ → Option (List (V2 K))
  | _, points, [] => some points
  | 0, _, _ :: _ => none
  | n + 1, points, index :: rest =>
    match fixStep pi dirX points index rest with
    | none => none
    | some points' => fixLoop pi dirX n points' (discontinuities pi (points'.map fun (p : V2 K) => p.x))

/-- surfaces.py:2035-2054 `_fix_angle_discontinuity_on_discretization_points`, with at most as many turns of the loop as there are points. -/
def fixDiscontinuities (pi : K) (dirX : Bool) (points : List (V2 K)) (indexes : List ℕ) : Option (List (V2 K)) :=
  match indexes with
  | [i] => helperFix pi dirX points i
  | _ => fixLoop pi dirX points.length points indexes

/-- surfaces.py:2137-2141 (and 2175-2179, 2199-2203, 5420-5425, 5444-5448, 5554-5557): the discretization points of an edge, made continuous in
the first coordinate. -/
def unwrapX (pi : K) (points : List (V2 K)) : Option (List (V2 K)) :=
  match discontinuities pi (points.map fun (p : V2 K) => p.x) with
  | [] => some points
  | l => fixDiscontinuities pi true points l

/-- surfaces.py:3355-3366, the same for a torus: the indices of both coordinates are found first; then the first coordinate is treated, then the
second one. -/
def unwrapXY (pi : K) (points : List (V2 K)) : Option (List (V2 K)) :=
  let phis := discontinuities pi (points.map fun (p : V2 K) => p.y)
  match unwrapX pi points with
  | none => none
  | some points' =>
    match phis with
    | [] => some points'
    | l => fixDiscontinuities pi false points' l

/-- utils/parametric.py:125-147 `repair_start_end_angle_periodicity`. -/
def repairAngle (pi angle ref : K) : K :=
  if mathIsClose angle pi (1 / 10 ^ 3) = true ∧ ref < 0 then -pi
  else if mathIsClose angle (-pi) (1 / 10 ^ 3) = true ∧ 0 < ref then pi
  else if mathIsClose angle (1 / 2 * pi) (1 / 10 ^ 3) = true ∧ ref < 0 then -(1 / 2) * pi
  else if mathIsClose angle (-(1 / 2) * pi) (1 / 10 ^ 3) = true ∧ 0 < ref then 1 / 2 * pi
  else angle

/-- utils/parametric.py:150-159 `repair_arc3d_angle_continuity`. -/
def repairContinuity (start fin period : K) : K × K :=
  if start < fin then (start, fin - period) else (start, fin + period)

/-- utils/parametric.py:162-182 `arc3d_to_cylindrical_coordinates_verification`. -/
def arcToCylindrical (pi : K) (start fin : V2 K) (undefinedStart undefinedEnd : Bool) (ref1 ref2 : K) (discontinuity : Bool) : V2 K × V2 K :=
  let theta1 := if undefinedStart = true ∨ |start.x| = 1 / 2 * pi then repairAngle pi start.x ref1 else start.x
  let theta2 := if undefinedEnd = true ∨ |fin.x| = 1 / 2 * pi then repairAngle pi fin.x ref2 else fin.x
  let r := if discontinuity then repairContinuity theta1 theta2 (2 * pi) else (theta1, theta2)
  (⟨r.1, start.y⟩, ⟨r.2, fin.y⟩)

/-- utils/parametric.py:185-198 `fullarc_to_cylindrical_coordinates_verification`. -/
def fullArcToCylindrical (pi : K) (start fin : V2 K) (normalDot : K) : V2 K × V2 K :=
  if 0 < normalDot then (start, ⟨start.x + 2 * pi, fin.y⟩)
  else if normalDot < 0 ∧ mathIsClose start.x (-pi) (1 / 10 ^ 6) = true then (⟨pi, start.y⟩, fin)
  else if normalDot < 0 then (start, ⟨start.x - 2 * pi, fin.y⟩)
  else (start, fin)

/-- utils/parametric.py:201-220 `toroidal_repair_start_end_angle_periodicity`. -/
def toroidalRepair (pi : K) (start fin : V2 K) (uStartTheta uEndTheta uStartPhi uEndPhi : Bool) (after before : V2 K) : V2 K × V2 K :=
  (⟨if uStartTheta = true ∨ |start.x| = 1 / 2 * pi then repairAngle pi start.x after.x else start.x,
    if uStartPhi = true ∨ |start.y| = 1 / 2 * pi then repairAngle pi start.y after.y else start.y⟩,
   ⟨if uEndTheta = true ∨ |fin.x| = 1 / 2 * pi then repairAngle pi fin.x before.x else fin.x,
    if uEndPhi = true ∨ |fin.y| = 1 / 2 * pi then repairAngle pi fin.y before.y else fin.y⟩)

/-- utils/parametric.py:240-258 `arc3d_to_toroidal_coordinates_verification`. -/
def arcToToroidal (pi : K) (start fin : V2 K) (uStartTheta uEndTheta uStartPhi uEndPhi : Bool) (after before : V2 K)
    (thetaDiscontinuity phiDiscontinuity : Bool) : V2 K × V2 K :=
  let r := toroidalRepair pi start fin uStartTheta uEndTheta uStartPhi uEndPhi after before
  let t := if thetaDiscontinuity then repairContinuity r.1.x r.2.x (2 * pi) else (r.1.x, r.2.x)
  let p := if phiDiscontinuity then repairContinuity r.1.y r.2.y (2 * pi) else (r.1.y, r.2.y)
  (⟨t.1, p.1⟩, ⟨t.2, p.2⟩)

/-- surfaces.py:1986-2000 `_reference_points`, the first coordinate: `theta` gives the first parametric coordinate of the point of the edge at a
fraction of its length. -/
def referencePoints (pi : K) (theta : K → K) : K × K :=
  let t3 := theta (1 / 100)
  let t4 := theta (98 / 100)
  (if |t3| = pi ∨ |t3| = 1 / 2 * pi then theta (2 / 100) else t3, if |t4| = pi ∨ |t4| = 1 / 2 * pi then theta (97 / 100) else t4)

end Volmdlr.Unwrap
