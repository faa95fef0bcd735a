import Verif.Frame.Model

/-!
# Model of the line and line segment formulas

`core_compiled.pyx` (distance functions, `Point2D` intersections and projections), `curves.py` (`Line`)
and `edges.py` (`LineSegment`).
-/

namespace Volmdlr

/-- core_compiled.pyx:150-163 `c_linesegment2d_point_distance` (and the wrapper
`linesegment2d_point_distance`): distance and projection.  `none`: division by zero
(`start = end`, which `LineSegment.__init__`, edges.py:603-604, rejects). -/
noncomputable def linesegment2dPointDistance (p1 p2 point : V2 ℝ) : Option (ℝ × V2 ℝ) :=
  let u := p2 - p1
  let pp := point - p1
  if V2.norm u ^ 2 = 0 then none
  else
    let t := max 0 (min 1 (V2.dot pp u / V2.norm u ^ 2))
    let projection := p1 + V2.smul t u
    some (V2.norm (projection - point), projection)

/-- core_compiled.pyx:166-177, 318-319 `linesegment3d_point_distance`. -/
noncomputable def linesegment3dPointDistance (p1 p2 point : V3 ℝ) : Option (ℝ × V3 ℝ) :=
  let u := p2 - p1
  let pp := point - p1
  if V3.norm u ^ 2 = 0 then none
  else
    let t := max 0 (min 1 (V3.dot pp u / V3.norm u ^ 2))
    let projection := p1 + V3.smul t u
    some (V3.norm (projection - point), projection)

section
variable {K : Type*} [Field K] [LinearOrder K]

/-- core_compiled.pyx:322-423 `CLineSegment3DDistance`: the parameters `(s, t)` of the two returned points.
Kept as written, including `determinant = a*c - b*c` (330), the test `> -1e-6` (333) and
`b_times_d = a*d` (377). -/
def cLineSegment3DDistance (u v w : V3 K) : K × K :=
  let a := V3.dot u u
  let b := V3.dot u v
  let c := V3.dot v v
  let d := V3.dot u w
  let e := V3.dot v w
  let determinant := a * c - b * c
  if determinant > -(1 / 10 ^ 6) then
    let b_times_e := b * e
    let c_times_d := c * d
    if b_times_e ≤ c_times_d then
      if e ≤ 0 then
        let negative_d := -d
        (if negative_d ≥ a then 1 else if negative_d > 0 then negative_d / a else 0, 0)
      else if e < c then (0, e / c)
      else
        let b_minus_d := b - d
        (if b_minus_d ≥ a then 1 else if b_minus_d > 0 then b_minus_d / a else 0, 1)
    else
      let s_parameter := b_times_e - c_times_d
      if s_parameter ≥ determinant then
        let b_plus_e := b + e
        if b_plus_e ≤ 0 then
          let negative_d := -d
          (if negative_d ≤ 0 then 0 else if negative_d < a then negative_d / a else 1, 0)
        else if b_plus_e < c then (1, b_plus_e / c)
        else
          let b_minus_d := b - d
          (if b_minus_d ≤ 0 then 0 else if b_minus_d < a then b_minus_d / a else 1, 1)
      else
        let a_times_e := a * e
        let b_times_d := a * d
        if a_times_e ≤ b_times_d then
          let negative_d := -d
          (if negative_d ≤ 0 then 0 else if negative_d ≥ a then 1 else negative_d / a, 0)
        else
          let t_parameter := a_times_e - b_times_d
          if t_parameter ≥ determinant then
            let b_minus_d := b - d
            (if b_minus_d ≤ 0 then 0 else if b_minus_d ≥ a then 1 else b_minus_d / a, 1)
          else (s_parameter / determinant, t_parameter / determinant)
  else
    if e ≤ 0 then
      let negative_d := -d
      (if negative_d ≤ 0 then 0 else if negative_d ≥ a then 1 else negative_d / a, 0)
    else if e ≥ c then
      let b_minus_d := b - d
      (if b_minus_d ≤ 0 then 0 else if b_minus_d ≥ a then 1 else b_minus_d / a, 1)
    else (0, e / c)

/-- core_compiled.pyx:426-436 `LineSegment3DDistance`: the two returned points. -/
def lineSegment3DDistance (p1 p2 q1 q2 : V3 K) : V3 K × V3 K :=
  let u := p2 - p1
  let v := q2 - q1
  let w := p1 - q1
  let st := cLineSegment3DDistance u v w
  (p1 + V3.smul st.1 u, q1 + V3.smul st.2 v)

/-- core_compiled.pyx:1141-1180 `Point2D.line_intersection` with `curvilinear_abscissa=True`: point and the
parameters `t` (on line 1) and `u` (on line 2); `isclose(·, 0, abs_tol=1e-15)` is `|·| ≤ 1e-15`. -/
def lineIntersection (p1 p2 p3 p4 : V2 K) : Option (V2 K × K × K) :=
  let x1 := p1.x; let y1 := p1.y; let x2 := p2.x; let y2 := p2.y
  let x3 := p3.x; let y3 := p3.y; let x4 := p4.x; let y4 := p4.y
  let den := (x1 - x2) * (y3 - y4) - (y1 - y2) * (x3 - x4)
  if |den| ≤ 1 / 10 ^ 15 then none
  else
    let x := ((x1 * y2 - y1 * x2) * (x3 - x4) - (x1 - x2) * (x3 * y4 - y3 * x4)) / den
    let y := ((x1 * y2 - y1 * x2) * (y3 - y4) - (y1 - y2) * (x3 * y4 - y3 * x4)) / den
    let t := ((x1 - x3) * (y3 - y4) - (y1 - y3) * (x3 - x4)) / den
    let u := -((x1 - x2) * (y1 - y3) - (y1 - y2) * (x1 - x3)) / den
    some (⟨x, y⟩, t, u)

/-- core_compiled.pyx:1182-1230 `Point2D.segment_intersection` (the condition is an `or`, 1217). -/
def segmentIntersection (p1 p2 p3 p4 : V2 K) : Option (V2 K × K × K) :=
  let x1 := p1.x; let y1 := p1.y; let x2 := p2.x; let y2 := p2.y
  let x3 := p3.x; let y3 := p3.y; let x4 := p4.x; let y4 := p4.y
  let den := (x1 - x2) * (y3 - y4) - (y1 - y2) * (x3 - x4)
  if |den| ≤ 1 / 10 ^ 15 then none
  else
    let t := ((x1 - x3) * (y3 - y4) - (y1 - y3) * (x3 - x4)) / den
    let u := -((x1 - x2) * (y1 - y3) - (y1 - y2) * (x1 - x3)) / den
    if (0 ≤ t ∧ t ≤ 1) ∨ (0 ≤ u ∧ u ≤ 1) then
      let x := ((x1 * y2 - y1 * x2) * (x3 - x4) - (x1 - x2) * (x3 * y4 - y3 * x4)) / den
      let y := ((x1 * y2 - y1 * x2) * (y3 - y4) - (y1 - y2) * (x3 * y4 - y3 * x4)) / den
      some (⟨x, y⟩, t, u)
    else none
end

/-- core_compiled.pyx:1271-1291 `Point2D.line_projection`, curves.py:214-255 (`unit_normal_vector`);
`none`: zero-length line. -/
noncomputable def lineProjection (point p1 p2 : V2 ℝ) : Option (V2 ℝ) := do
  let d ← V2.unitVector (p2 - p1)
  let n := V2.normalVector d
  let pp1 := point - p1
  return pp1 - V2.smul (V2.dot pp1 n) n + p1

/-- curves.py:257-273 `Line.point_projection` and edges.py:671-684 `LineSegment.point_projection`
(same formula), in the plane: projection and abscissa. -/
noncomputable def pointProjection2 (point p1 p2 : V2 ℝ) : Option (V2 ℝ × ℝ) :=
  let vector := p2 - p1
  let normU := V2.norm vector
  if normU ^ 2 = 0 then none
  else
    let t := V2.dot (point - p1) vector / normU ^ 2
    some (p1 + V2.smul t vector, t * normU)

/-- Same as `pointProjection2`, in space (edges.py:671-684). -/
noncomputable def pointProjection3 (point p1 p2 : V3 ℝ) : Option (V3 ℝ × ℝ) :=
  let vector := p2 - p1
  let normU := V3.norm vector
  if normU ^ 2 = 0 then none
  else
    let t := V3.dot (point - p1) vector / normU ^ 2
    some (p1 + V3.smul t vector, t * normU)

/-- core_compiled.pyx:1311-1324 `Point2D.axial_symmetry`. -/
noncomputable def axialSymmetry (p p1 p2 : V2 ℝ) : Option (V2 ℝ) := do
  let pr ← pointProjection2 p p1 p2
  return pr.1 + (pr.1 - p)

/-- edges.py:595-625 `LineSegment` in space; the constructor refuses equal ends (603-604). -/
structure Seg3 where
  start : V3 ℝ
  stop : V3 ℝ

open Classical in
/-- edges.py:601-606 `LineSegment.__init__`. -/
noncomputable def Seg3.mk? (s e : V3 ℝ) : Except PyErr Seg3 :=
  if s = e then .error .valueError else .ok ⟨s, e⟩

/-- edges.py:621-625 `LineSegment.length`. -/
noncomputable def Seg3.length (s : Seg3) : ℝ := V3.pointDistance s.stop s.start

/-- edges.py:627-645 `LineSegment.abscissa` (default tolerance is the parameter `tol`). -/
noncomputable def Seg3.abscissa (s : Seg3) (point : V3 ℝ) (tol : ℝ) : Except PyErr ℝ :=
  if V3.pointDistance point s.start < tol then .ok 0
  else if V3.pointDistance point s.stop < tol then .ok s.length
  else
    let vector := s.stop - s.start
    let length := V3.norm vector
    if length = 0 then .error .zeroDivision
    else
      let t := V3.dot (point - s.start) vector / length
      if t < -(1 / 10 ^ 9) ∨ t > length + 1 / 10 ^ 9 then .error .valueError else .ok t

/-- edges.py:711-718 `LineSegment.point_at_abscissa` (`unit_direction_vector` is the unit vector of
`end - start`). -/
noncomputable def Seg3.pointAtAbscissa (s : Seg3) (a : ℝ) : Option (V3 ℝ) := do
  let u ← V3.unitVector (s.stop - s.start)
  return s.start + V3.smul a u

/-- edges.py:701-709 `LineSegment.middle_point`. -/
noncomputable def Seg3.middlePoint (s : Seg3) : V3 ℝ := V3.smul (1 / 2) (s.start + s.stop)

/-- edges.py:686-699 `LineSegment.split`; `is_close(p, tol)` is `distance ≤ tol`. -/
noncomputable def Seg3.split (s : Seg3) (p : V3 ℝ) (tol : ℝ) : Except PyErr (Option Seg3 × Option Seg3) :=
  if V3.pointDistance p s.start ≤ tol then .ok (none, some s)
  else if V3.pointDistance p s.stop ≤ tol then .ok (some s, none)
  else do
    let a ← Seg3.mk? s.start p
    let b ← Seg3.mk? p s.stop
    return (some a, some b)

end Volmdlr
