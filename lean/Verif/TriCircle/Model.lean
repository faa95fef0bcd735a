import Verif.Polygon.Model

/-!
# Circles and quality of a 2D triangle (wires.py)

`Triangle2D.incircle_radius`, `circumcircle_radius`, the two ratios and `aspect_ratio`; `none` is a `ZeroDivisionError`.
-/

namespace Volmdlr.TriCircle

/-- A `Triangle2D` (wires.py:4042-4056): its three points. -/
structure Tri2 where
  p1 : V2 ℝ
  p2 : V2 ℝ
  p3 : V2 ℝ

/-- wires.py:4058-4067 `Triangle2D.area`. -/
noncomputable def Tri2.area (t : Tri2) : ℝ := triangleArea t.p1 t.p2 t.p3

/-- wires.py:4076-4079 `incircle_radius`. -/
noncomputable def Tri2.incircleRadius (t : Tri2) : Option ℝ :=
  let a := V2.pointDistance t.p1 t.p2
  let b := V2.pointDistance t.p1 t.p3
  let c := V2.pointDistance t.p2 t.p3
  if a + b + c = 0 then none else some (2 * t.area / (a + b + c))

/-- wires.py:4088-4091 `circumcircle_radius`. -/
noncomputable def Tri2.circumcircleRadius (t : Tri2) : Option ℝ :=
  let a := V2.pointDistance t.p1 t.p2
  let b := V2.pointDistance t.p1 t.p3
  let c := V2.pointDistance t.p2 t.p3
  if t.area * 4 = 0 then none else some (a * b * c / (t.area * 4))

/-- wires.py:2783-2799 `ClosedPolygonMixin.length`, 3009-3016 the sides of the polygon (the last one closes it). -/
noncomputable def Tri2.length (t : Tri2) : ℝ :=
  [V2.pointDistance t.p1 t.p2, V2.pointDistance t.p2 t.p3, V2.pointDistance t.p3 t.p1].sum

/-- wires.py:4093-4100 `ratio_circumr_length`. -/
noncomputable def Tri2.ratioCircum (t : Tri2) : Option ℝ :=
  t.circumcircleRadius.bind fun r => if t.length = 0 then none else some (r / t.length)

/-- wires.py:4102-4109 `ratio_incircler_length`. -/
noncomputable def Tri2.ratioIncircle (t : Tri2) : Option ℝ :=
  t.incircleRadius.bind fun r => if t.length = 0 then none else some (r / t.length)

/-- wires.py:4111-4126 `aspect_ratio`: a division by zero is caught. -/
noncomputable def Tri2.aspectRatio (t : Tri2) : ℝ :=
  let a := V2.pointDistance t.p1 t.p2
  let b := V2.pointDistance t.p1 t.p3
  let c := V2.pointDistance t.p2 t.p3
  let s := 1 / 2 * (a + b + c)
  if s - a = 0 ∨ s - b = 0 ∨ s - c = 0 then 1000000
  else 1 / 8 * a * b * c / (s - a) / (s - b) / (s - c)

end Volmdlr.TriCircle
