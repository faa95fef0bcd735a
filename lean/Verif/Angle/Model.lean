import Mathlib.Analysis.SpecialFunctions.Trigonometric.Inverse
import Mathlib.Analysis.SpecialFunctions.Complex.Arg
import Mathlib.Algebra.Order.Floor.Ring
import Verif.Vec.Model

/-!
# Model of `volmdlr/geometry.py`

Angles and trigonometric functions are those of `ℝ`.  `math.pi` is `π`, `x // y` is `⌊x / y⌋` and `x % y` is `x - y ⌊x / y⌋`.
`math.atan2 y x` is the argument of `x + i y` (the sign of a zero, which Python's `atan2` looks at, does not exist in `ℝ`).
-/

namespace Volmdlr.Angle

open Real

/-- `math.isclose(a, b, abs_tol=tol)` of the standard library, with its default relative tolerance `1e-9`. -/
noncomputable def mathIsClose (a b tol : ℝ) : Prop := |a - b| ≤ max (1 / 10 ^ 9 * max |a| |b|) tol

/-- `math.atan2` of the standard library. -/
noncomputable def atan2 (y x : ℝ) : ℝ := Complex.arg ⟨x, y⟩

/-- geometry.py:101-117 `cos_image`.  The two values returned, in order. -/
noncomputable def cosImage (x1 x2 : ℝ) : ℝ × ℝ :=
  let intervalMin := ⌊x1 / π⌋
  let intervalMax := ⌊x2 / π⌋
  let nbInterval := intervalMax - intervalMin
  if nbInterval ≥ 2 then (-1, 1)
  else if nbInterval = 1 then
    if |intervalMin| % 2 = 0 then (-1, max (cos x1) (cos x2))
    else (min (cos x1) (cos x2), 1)
  else (min (cos x1) (cos x2), max (cos x1) (cos x2))

/-- geometry.py:120-127 `sin_image`. -/
noncomputable def sinImage (x1 x2 : ℝ) : ℝ × ℝ := cosImage (x1 - 1 / 2 * π) (x2 - 1 / 2 * π)

/-- geometry.py:130-146 `vectors3d_angle`; `none` is the division by zero. -/
noncomputable def vectors3dAngle (u v : V3 ℝ) : Option ℝ :=
  if V3.norm u * V3.norm v = 0 then none
  else some (arccos (max (min (V3.dot u v / (V3.norm u * V3.norm v)) 1) (-1)))

/-- geometry.py:160-172: the angle before the test of closeness to `2π`. -/
noncomputable def sinCosAngleRaw (u1 u2 : ℝ) : ℝ :=
  if u1 > 0 then
    if u2 ≥ 0 then arccos u1 else 2 * π + arcsin u2
  else
    if u2 ≥ 0 then arccos u1 else 2 * π - arccos u1

open Classical in
/-- geometry.py:149-175 `sin_cos_angle`. -/
noncomputable def sinCosAngle (u1 u2 : ℝ) : ℝ :=
  let c1 := max (-1) (min u1 1)
  let c2 := max (-1) (min u2 1)
  let theta := sinCosAngleRaw c1 c2
  if mathIsClose theta (2 * π) (1 / 10 ^ 9) then 0 else theta

/-- geometry.py:191-205: the angle of the interior point from those of start and end (the third branch, `raise`, cannot be reached). -/
noncomputable def clockwiseInteriorAngle (theta1 theta2 : ℝ) : ℝ :=
  let theta3 := if theta1 > theta2 then (theta1 + theta2) / 2 else (theta1 + theta2) / 2 + 2 * π / 2
  if theta3 > 2 * π then theta3 - 2 * π else theta3

/-- geometry.py:178-212 `clockwise_interior_from_circle3d`, in the coordinates of the plane of the circle (the conversions of
start, end and interior to and from the frame of the circle are those of C03).  Rounding to 12 decimals dropped. -/
noncomputable def clockwiseInterior (radius : ℝ) (start fin : V2 ℝ) : V2 ℝ :=
  let theta1 := sinCosAngle (start.x / radius) (start.y / radius)
  let theta2 := sinCosAngle (fin.x / radius) (fin.y / radius)
  let theta3 := clockwiseInteriorAngle theta1 theta2
  ⟨radius * cos theta3, radius * sin theta3⟩

open Classical in
/-- geometry.py:228-240 `angle_principal_measure`; the default of `minAngle` is `-π`. -/
noncomputable def anglePrincipalMeasure (angle : ℝ) (minAngle : ℝ := -π) : ℝ :=
  let maxAngle := minAngle + 2 * π
  let angle := angle - 2 * π * ⌊angle / (2 * π)⌋
  if mathIsClose angle minAngle (1 / 10 ^ 9) then minAngle
  else if mathIsClose angle maxAngle (1 / 10 ^ 9) then maxAngle
  else angle

open Classical in
/-- geometry.py:243-262 `clockwise_angle`.  `vector0 in (vector1, vector2)` compares coordinates exactly. -/
noncomputable def clockwiseAngle (v1 v2 : V2 ℝ) : ℝ :=
  if v1 = ⟨0, 0⟩ ∨ v2 = ⟨0, 0⟩ then 0
  else
    let sol := V2.dot v1 v2 / (V2.norm v1 * V2.norm v2)
    let inner := arccos (max (-1) (min 1 sol))
    if V2.cross v1 v2 < 0 then inner else 2 * π - inner

/-- A three by three matrix, by rows. -/
@[ext] structure Mat3 where
  (r00 r01 r02 r10 r11 r12 r20 r21 r22 : ℝ)

/-- geometry.py:16-32 `euler_angles_to_transfer_matrix`. -/
noncomputable def eulerToMatrix (psi theta phi : ℝ) : Mat3 where
  r00 := cos phi * cos psi - sin phi * cos theta * sin psi
  r01 := -sin psi * cos phi - cos psi * cos theta * sin phi
  r02 := sin theta * sin phi
  r10 := cos psi * sin phi + sin psi * cos theta * cos phi
  r11 := -sin phi * sin psi + cos phi * cos theta * cos psi
  r12 := -sin theta * cos phi
  r20 := sin psi * sin theta
  r21 := cos psi * sin theta
  r22 := cos theta

open Classical in
/-- geometry.py:35-49 `transfer_matrix_to_euler_angles`; `none` is the `ValueError` of `math.acos`. -/
noncomputable def matrixToEuler (r : Mat3) : Option (ℝ × ℝ × ℝ) :=
  if r.r22 ≠ 1 ∧ r.r22 ≠ -1 then
    if |r.r22| ≤ 1 then
      let theta := arccos r.r22
      some (atan2 (r.r20 / sin theta) (r.r21 / sin theta), theta, atan2 (r.r02 / sin theta) (-r.r12 / sin theta))
    else none
  else if r.r22 = 1 then some (atan2 r.r10 r.r00, 0, 0)
  else some (-atan2 r.r10 r.r00, π, 0)

end Volmdlr.Angle
