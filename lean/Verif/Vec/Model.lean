import Mathlib.Algebra.Order.Field.Basic
import Mathlib.Analysis.Real.Sqrt
import Mathlib.Analysis.SpecialFunctions.Trigonometric.Basic

/-!
# Model of the vector layer of `volmdlr/core_compiled.pyx`

`Vector2D`, `Point2D`, `Vector3D`, `Point3D` share their data and most operations: a point and a
vector are both modelled by their coordinates.  Names and class tags are dropped.
Floats are elements of an arbitrary (ordered) field, or of `ℝ` where `sqrt`, `sin`, `cos` occur.
-/

namespace Volmdlr

/-- core_compiled.pyx:582-595 (`Vector2D`), 998 (`Point2D`): coordinates only. -/
@[ext] structure V2 (K : Type*) where
  x : K
  y : K
  deriving DecidableEq, Repr

/-- core_compiled.pyx:1359-1378 (`Vector3D`), 1915 (`Point3D`): coordinates only. -/
@[ext] structure V3 (K : Type*) where
  x : K
  y : K
  z : K
  deriving DecidableEq, Repr

namespace V2
variable {K : Type*}

/-- core_compiled.pyx:35-36, 616-617 `Vector2D.__add__`. -/
instance [Add K] : Add (V2 K) := ⟨fun u v => ⟨u.x + v.x, u.y + v.y⟩⟩
/-- core_compiled.pyx:31-32, 622-623 `Vector2D.__sub__`. -/
instance [Sub K] : Sub (V2 K) := ⟨fun u v => ⟨u.x - v.x, u.y - v.y⟩⟩
/-- core_compiled.pyx:619-620 `Vector2D.__neg__`. -/
instance [Neg K] : Neg (V2 K) := ⟨fun u => ⟨-u.x, -u.y⟩⟩
/-- core_compiled.pyx:39-40, 625-626 `Vector2D.__mul__` (and `__rmul__`, same value). -/
def smul [Mul K] (a : K) (u : V2 K) : V2 K := ⟨u.x * a, u.y * a⟩
/-- core_compiled.pyx:43-44, 748-757 `Vector2D.dot`. -/
def dot [Add K] [Mul K] (u v : V2 K) : K := u.x * v.x + u.y * v.y
/-- core_compiled.pyx:759-768 `Vector2D.cross`. -/
def cross [Sub K] [Mul K] (u v : V2 K) : K := u.x * v.y - u.y * v.x
/-- core_compiled.pyx:51-52 `c_vector2d_squared_distance`. -/
def sqNorm [Add K] [Mul K] (u : V2 K) : K := u.x * u.x + u.y * u.y
/-- core_compiled.pyx:47-48, 732-739 `Vector2D.norm`. -/
noncomputable def norm (u : V2 ℝ) : ℝ := Real.sqrt (u.x * u.x + u.y * u.y)
/-- core_compiled.pyx:770-779 `Vector2D.point_distance`. -/
noncomputable def pointDistance (u v : V2 ℝ) : ℝ := norm (u - v)
/-- core_compiled.pyx:741-746 `Vector2D.unit_vector`: `none` is `ZeroDivisionError`. -/
noncomputable def unitVector (u : V2 ℝ) : Option (V2 ℝ) :=
  if norm u = 0 then none else some ⟨u.x / norm u, u.y / norm u⟩
/-- core_compiled.pyx:876-884 `Vector2D.normal_vector`. -/
def normalVector [Neg K] (u : V2 K) : V2 K := ⟨-u.y, u.x⟩
/-- core_compiled.pyx:811-822 `Vector2D.translation`. -/
def translation [Add K] (u offset : V2 K) : V2 K := ⟨u.x + offset.x, u.y + offset.y⟩

/-- core_compiled.pyx:781-795 `Vector2D.rotation_parameters`, with `c = cos angle`, `s = sin angle`. -/
def rotationCS [Add K] [Sub K] [Mul K] (p center : V2 K) (c s : K) : V2 K :=
  let u := p - center
  ⟨c * u.x - s * u.y + center.x, s * u.x + c * u.y + center.y⟩

/-- core_compiled.pyx:797-809 `Vector2D.rotation`. -/
noncomputable def rotation (p center : V2 ℝ) (angle : ℝ) : V2 ℝ :=
  rotationCS p center (Real.cos angle) (Real.sin angle)

@[simp] theorem add_x [Add K] (u v : V2 K) : (u + v).x = u.x + v.x := rfl
@[simp] theorem add_y [Add K] (u v : V2 K) : (u + v).y = u.y + v.y := rfl
@[simp] theorem sub_x [Sub K] (u v : V2 K) : (u - v).x = u.x - v.x := rfl
@[simp] theorem sub_y [Sub K] (u v : V2 K) : (u - v).y = u.y - v.y := rfl
@[simp] theorem neg_x [Neg K] (u : V2 K) : (-u).x = -u.x := rfl
@[simp] theorem neg_y [Neg K] (u : V2 K) : (-u).y = -u.y := rfl
@[simp] theorem smul_x [Mul K] (a : K) (u : V2 K) : (smul a u).x = u.x * a := rfl
@[simp] theorem smul_y [Mul K] (a : K) (u : V2 K) : (smul a u).y = u.y * a := rfl
end V2

namespace V3
variable {K : Type*}

/-- core_compiled.pyx:60-62, 1402-1403 `Vector3D.__add__`. -/
instance [Add K] : Add (V3 K) := ⟨fun u v => ⟨u.x + v.x, u.y + v.y, u.z + v.z⟩⟩
/-- core_compiled.pyx:55-57, 1408-1409 `Vector3D.__sub__`. -/
instance [Sub K] : Sub (V3 K) := ⟨fun u v => ⟨u.x - v.x, u.y - v.y, u.z - v.z⟩⟩
/-- core_compiled.pyx:1405-1406 `Vector3D.__neg__`. -/
instance [Neg K] : Neg (V3 K) := ⟨fun u => ⟨-u.x, -u.y, -u.z⟩⟩
/-- core_compiled.pyx:65-66, 1411-1412 `Vector3D.__mul__`. -/
def smul [Mul K] (a : K) (u : V3 K) : V3 K := ⟨u.x * a, u.y * a, u.z * a⟩
/-- core_compiled.pyx:69-71, 1523-1533 `Vector3D.dot`. -/
def dot [Add K] [Mul K] (u v : V3 K) : K := u.x * v.x + u.y * v.y + u.z * v.z
/-- core_compiled.pyx:82-84, 1535-1545 `Vector3D.cross`. -/
def cross [Sub K] [Mul K] (u v : V3 K) : V3 K :=
  ⟨u.y * v.z - u.z * v.y, u.z * v.x - u.x * v.z, u.x * v.y - u.y * v.x⟩
/-- core_compiled.pyx:78-79 `c_vector3d_squared_distance`. -/
def sqNorm [Add K] [Mul K] (u : V3 K) : K := u.x * u.x + u.y * u.y + u.z * u.z
/-- core_compiled.pyx:74-75, 1547-1554 `Vector3D.norm`. -/
noncomputable def norm (u : V3 ℝ) : ℝ := Real.sqrt (u.x * u.x + u.y * u.y + u.z * u.z)
/-- core_compiled.pyx:1563-1572 `Vector3D.point_distance`. -/
noncomputable def pointDistance (u v : V3 ℝ) : ℝ := norm (u - v)
/-- core_compiled.pyx:1556-1561 `Vector3D.unit_vector`: `none` is `ZeroDivisionError`. -/
noncomputable def unitVector (u : V3 ℝ) : Option (V3 ℝ) :=
  if norm u = 0 then none else some ⟨u.x / norm u, u.y / norm u, u.z / norm u⟩
/-- core_compiled.pyx:1654-1663 `Vector3D.translation`. -/
def translation [Add K] (u offset : V3 K) : V3 K := u + offset

/-- core_compiled.pyx:87-110 `c_vector3d_rotation`, with `c = cos angle`, `s = sin angle`. -/
def rotationCS [One K] [Add K] [Sub K] [Mul K] (p center axis : V3 K) (c s : K) : V3 K :=
  let u := p - center
  let rv1 : V3 K := ⟨c * u.x, c * u.y, c * u.z⟩
  let rv2 : V3 K := smul ((1 - c) * dot u axis) axis
  let rv3 : V3 K := cross axis u
  ⟨rv1.x + rv2.x + rv3.x * s + center.x,
   rv1.y + rv2.y + rv3.y * s + center.y,
   rv1.z + rv2.z + rv3.z * s + center.z⟩

/-- core_compiled.pyx:1574-1593 `Vector3D.rotation`. -/
noncomputable def rotation (p center axis : V3 ℝ) (angle : ℝ) : V3 ℝ :=
  rotationCS p center axis (Real.cos angle) (Real.sin angle)

/-- core_compiled.pyx:1595-1615 `Vector3D.axis_rotation_parameters`. -/
def axisRotationParameters [Add K] [Mul K] [Neg K] (a b c s : K) : K × K :=
  (c * a + s * b, -s * a + c * b)

/-- core_compiled.pyx:1617-1628 `Vector3D.x_rotation`. -/
noncomputable def xRotation (p : V3 ℝ) (angle : ℝ) : V3 ℝ :=
  let r := axisRotationParameters p.y p.z (Real.cos angle) (Real.sin angle)
  ⟨p.x, r.1, r.2⟩
/-- core_compiled.pyx:1630-1640 `Vector3D.y_rotation`. -/
noncomputable def yRotation (p : V3 ℝ) (angle : ℝ) : V3 ℝ :=
  let r := axisRotationParameters p.z p.x (Real.cos angle) (Real.sin angle)
  ⟨r.2, p.y, r.1⟩
/-- core_compiled.pyx:1642-1652 `Vector3D.z_rotation`. -/
noncomputable def zRotation (p : V3 ℝ) (angle : ℝ) : V3 ℝ :=
  let r := axisRotationParameters p.x p.y (Real.cos angle) (Real.sin angle)
  ⟨r.1, r.2, p.z⟩

/-- core_compiled.pyx:1756-1769 `Vector3D.deterministic_normal_vector`
(`math.isclose(y, 0, abs_tol=1e-7)` is `|y| ≤ 1e-7` because the relative part, `1e-9·|y|`, is
smaller than `|y|`); `norm()**2` is written as the squared norm.  The division by a zero norm is the
error branch of the Python code (`v.dot(self) * self / 0.0` raises `ZeroDivisionError`). -/
def deterministicNormalVector [Field K] [LinearOrder K] (p : V3 K) : Option (V3 K) :=
  let v : V3 K := if ¬ |p.y| ≤ 1 / 10000000 ∨ ¬ |p.z| ≤ 1 / 10000000 then ⟨1, 0, 0⟩ else ⟨0, 1, 0⟩
  if sqNorm p = 0 then none
  else
    let w := smul (dot v p) p
    some (v - ⟨w.x / sqNorm p, w.y / sqNorm p, w.z / sqNorm p⟩)

@[simp] theorem add_x [Add K] (u v : V3 K) : (u + v).x = u.x + v.x := rfl
@[simp] theorem add_y [Add K] (u v : V3 K) : (u + v).y = u.y + v.y := rfl
@[simp] theorem add_z [Add K] (u v : V3 K) : (u + v).z = u.z + v.z := rfl
@[simp] theorem sub_x [Sub K] (u v : V3 K) : (u - v).x = u.x - v.x := rfl
@[simp] theorem sub_y [Sub K] (u v : V3 K) : (u - v).y = u.y - v.y := rfl
@[simp] theorem sub_z [Sub K] (u v : V3 K) : (u - v).z = u.z - v.z := rfl
@[simp] theorem neg_x [Neg K] (u : V3 K) : (-u).x = -u.x := rfl
@[simp] theorem neg_y [Neg K] (u : V3 K) : (-u).y = -u.y := rfl
@[simp] theorem neg_z [Neg K] (u : V3 K) : (-u).z = -u.z := rfl
@[simp] theorem smul_x [Mul K] (a : K) (u : V3 K) : (smul a u).x = u.x * a := rfl
@[simp] theorem smul_y [Mul K] (a : K) (u : V3 K) : (smul a u).y = u.y * a := rfl
@[simp] theorem smul_z [Mul K] (a : K) (u : V3 K) : (smul a u).z = u.z * a := rfl
end V3

end Volmdlr
