import Verif.Vec.Model
import Mathlib.Analysis.SpecialFunctions.Trigonometric.Inverse
import Mathlib.Algebra.Order.Round
import Mathlib.Data.Rat.Floor

/-!
# Model of matrices, bases and frames of `volmdlr/core_compiled.pyx`

Not modelled: `Basis2D.__neg__`, `Frame2D.__neg__`, `Frame2D.__sub__` (2495-2498, 3038-3043, 3058-3065):
they index a `Matrix22` object with `[:, 0]`, which that class does not support, so every call raises
`TypeError`.
-/

namespace Volmdlr

/-- Exceptions of the modelled code, by Python class. -/
inductive PyErr
  | valueError | zeroDivision | indexError | unboundLocal | notImplemented | keyError | typeError
  deriving DecidableEq, Repr

variable {K : Type*} [Field K] [LinearOrder K]

/-- core_compiled.pyx:2211-2229 `Matrix22`. -/
@[ext] structure M22 (K : Type*) where
  (m11 m12 m21 m22 : K)
  deriving DecidableEq, Repr

namespace M22
/-- The identity matrix (specification). -/
def one : M22 K := ⟨1, 0, 0, 1⟩
/-- core_compiled.pyx:2238-2242 `Matrix22.__mul__`. -/
def mul (a b : M22 K) : M22 K :=
  ⟨a.m11 * b.m11 + a.m12 * b.m21, a.m11 * b.m12 + a.m12 * b.m22,
   a.m21 * b.m11 + a.m22 * b.m21, a.m21 * b.m12 + a.m22 * b.m22⟩
/-- core_compiled.pyx:122-127, 2244-2257 `Matrix22.vector_multiplication`. -/
def mulVec (a : M22 K) (v : V2 K) : V2 K := ⟨a.m11 * v.x + a.m12 * v.y, a.m21 * v.x + a.m22 * v.y⟩
/-- core_compiled.pyx:2259-2266 `Matrix22.determinent`. -/
def det (a : M22 K) : K := a.m11 * a.m22 - a.m12 * a.m21
/-- core_compiled.pyx:2268-2281 `Matrix22.inverse`; `math.isclose(det, 0, abs_tol=1e-10)` is
`|det| ≤ 1e-10` (the default relative tolerance `1e-9·|det|` adds nothing). -/
def inverse (a : M22 K) : Except PyErr (M22 K) :=
  if ¬ |det a| ≤ 1 / 10 ^ 10 then
    let detInv := 1 / det a
    .ok ⟨detInv * a.m22, -detInv * a.m12, -detInv * a.m21, detInv * a.m11⟩
  else .error .valueError
end M22

/-- core_compiled.pyx:2288-2323 `Matrix33`. -/
@[ext] structure M33 (K : Type*) where
  (m11 m12 m13 m21 m22 m23 m31 m32 m33 : K)
  deriving DecidableEq, Repr

/-- core_compiled.pyx:2381-2386: coordinates below `1e-16` are flushed to zero. -/
def flush (u : K) : K := if |u| < 1 / 10 ^ 16 then 0 else u

namespace M33
/-- The identity matrix (specification). -/
def one : M33 K := ⟨1, 0, 0, 0, 1, 0, 0, 0, 1⟩
/-- core_compiled.pyx:130-146, 2336-2346 `Matrix33.__mul__`. -/
def mul (a b : M33 K) : M33 K :=
  ⟨a.m11 * b.m11 + a.m12 * b.m21 + a.m13 * b.m31,
   a.m11 * b.m12 + a.m12 * b.m22 + a.m13 * b.m32,
   a.m11 * b.m13 + a.m12 * b.m23 + a.m13 * b.m33,
   a.m21 * b.m11 + a.m22 * b.m21 + a.m23 * b.m31,
   a.m21 * b.m12 + a.m22 * b.m22 + a.m23 * b.m32,
   a.m21 * b.m13 + a.m22 * b.m23 + a.m23 * b.m33,
   a.m31 * b.m11 + a.m32 * b.m21 + a.m33 * b.m31,
   a.m31 * b.m12 + a.m32 * b.m22 + a.m33 * b.m32,
   a.m31 * b.m13 + a.m32 * b.m23 + a.m33 * b.m33⟩
/-- core_compiled.pyx:113-120 `c_matrix_vector_multiplication3`. -/
def cMulVec (a : M33 K) (v : V3 K) : V3 K :=
  ⟨a.m11 * v.x + a.m12 * v.y + a.m13 * v.z,
   a.m21 * v.x + a.m22 * v.y + a.m23 * v.z,
   a.m31 * v.x + a.m32 * v.y + a.m33 * v.z⟩
/-- core_compiled.pyx:2367-2387 `Matrix33.vector_multiplication`. -/
def mulVec (a : M33 K) (v : V3 K) : V3 K :=
  let u := cMulVec a v
  ⟨flush u.x, flush u.y, flush u.z⟩
/-- core_compiled.pyx:2389-2399 `Matrix33.determinent`. -/
def det (a : M33 K) : K :=
  a.m11 * a.m22 * a.m33 + a.m12 * a.m23 * a.m31
   + a.m13 * a.m21 * a.m32 - a.m13 * a.m22 * a.m31
   - a.m23 * a.m32 * a.m11 - a.m33 * a.m12 * a.m21
/-- core_compiled.pyx:2401-2423 `Matrix33.inverse`. -/
def inverse (a : M33 K) : Except PyErr (M33 K) :=
  if ¬ |det a| ≤ 1 / 10 ^ 12 then
    let d := 1 / det a
    .ok ⟨d * (a.m22 * a.m33 - a.m23 * a.m32),
         d * (a.m13 * a.m32 - a.m12 * a.m33),
         d * (a.m12 * a.m23 - a.m13 * a.m22),
         d * (a.m23 * a.m31 - a.m21 * a.m33),
         d * (a.m11 * a.m33 - a.m13 * a.m31),
         d * (a.m21 * a.m13 - a.m23 * a.m11),
         d * (a.m21 * a.m32 - a.m31 * a.m22),
         d * (a.m12 * a.m31 - a.m32 * a.m11),
         d * (a.m11 * a.m22 - a.m21 * a.m12)⟩
  else .error .valueError
end M33

/-- core_compiled.pyx:2474-2487 `Basis2D`. -/
@[ext] structure Basis2 (K : Type*) where
  (u v : V2 K)
/-- core_compiled.pyx:2654-2680 `Basis3D`. -/
@[ext] structure Basis3 (K : Type*) where
  (u v w : V3 K)
/-- core_compiled.pyx:3023-3033 `Frame2D`. -/
@[ext] structure Frame2 (K : Type*) where
  origin : V2 K
  basis : Basis2 K
/-- core_compiled.pyx:3296-3308 `Frame3D`. -/
@[ext] structure Frame3 (K : Type*) where
  origin : V3 K
  basis : Basis3 K

namespace Basis2
/-- core_compiled.pyx:2539-2547 `Basis2D.transfer_matrix`. -/
def transfer (b : Basis2 K) : M22 K := ⟨b.u.x, b.v.x, b.u.y, b.v.y⟩
/-- core_compiled.pyx:2592-2602 `Basis2D.global_to_local_coordinates`. -/
def globalToLocal (b : Basis2 K) (p : V2 K) : Except PyErr (V2 K) := do
  let m ← b.transfer.inverse
  return m.mulVec p
/-- core_compiled.pyx:2604-2614 `Basis2D.local_to_global_coordinates`. -/
def localToGlobal (b : Basis2 K) (p : V2 K) : V2 K := b.transfer.mulVec p
end Basis2

namespace Frame2
/-- core_compiled.pyx:3161-3170 `Frame2D.global_to_local_coordinates`. -/
def globalToLocal (f : Frame2 K) (p : V2 K) : Except PyErr (V2 K) := f.basis.globalToLocal (p - f.origin)
/-- core_compiled.pyx:3172-3181 `Frame2D.local_to_global_coordinates`. -/
def localToGlobal (f : Frame2 K) (p : V2 K) : V2 K := f.basis.localToGlobal p + f.origin
/-- core_compiled.pyx:3045-3051 `Frame2D.__add__`. -/
def add (f g : Frame2 K) : Frame2 K :=
  let p1 := f.basis.transfer
  let m := p1.mul g.basis.transfer
  ⟨p1.mulVec g.origin + f.origin, ⟨⟨m.m11, m.m21⟩, ⟨m.m12, m.m22⟩⟩⟩
end Frame2

namespace Basis3
/-- core_compiled.pyx:2879-2888 `Basis3D.transfer_matrix`. -/
def transfer (b : Basis3 K) : M33 K :=
  ⟨b.u.x, b.v.x, b.w.x, b.u.y, b.v.y, b.w.y, b.u.z, b.v.z, b.w.z⟩
/-- core_compiled.pyx:2694-2696 and similar: the basis whose vectors are the columns of a matrix. -/
def ofMatrix (m : M33 K) : Basis3 K :=
  ⟨⟨m.m11, m.m21, m.m31⟩, ⟨m.m12, m.m22, m.m32⟩, ⟨m.m13, m.m23, m.m33⟩⟩
/-- core_compiled.pyx:2692-2696 `Basis3D.__add__`. -/
def add (a b : Basis3 K) : Basis3 K := ofMatrix (a.transfer.mul b.transfer)
/-- core_compiled.pyx:2698-2702 `Basis3D.__neg__`. -/
def neg (a : Basis3 K) : Except PyErr (Basis3 K) := do
  let m ← a.transfer.inverse
  return ofMatrix m
/-- core_compiled.pyx:2704-2710 `Basis3D.__sub__`. -/
def sub (a b : Basis3 K) : Except PyErr (Basis3 K) := do
  let p1inv ← b.transfer.inverse
  return ofMatrix (p1inv.mul a.transfer)
/-- core_compiled.pyx:2933-2943 `Basis3D.global_to_local_coordinates`. -/
def globalToLocal (b : Basis3 K) (p : V3 K) : Except PyErr (V3 K) := do
  let m ← b.transfer.inverse
  return m.mulVec p
/-- core_compiled.pyx:2945-2955 `Basis3D.local_to_global_coordinates`. -/
def localToGlobal (b : Basis3 K) (p : V3 K) : V3 K := b.transfer.mulVec p
end Basis3

namespace Frame3
/-- core_compiled.pyx:3453-3462 `Frame3D.global_to_local_coordinates`. -/
def globalToLocal (f : Frame3 K) (p : V3 K) : Except PyErr (V3 K) := f.basis.globalToLocal (p - f.origin)
/-- core_compiled.pyx:3464-3473 `Frame3D.local_to_global_coordinates`. -/
def localToGlobal (f : Frame3 K) (p : V3 K) : V3 K := f.basis.localToGlobal p + f.origin
/-- core_compiled.pyx:3331-3337 `Frame3D.__neg__`. -/
def neg (f : Frame3 K) : Except PyErr (Frame3 K) := do
  let m ← f.basis.transfer.inverse
  return ⟨m.mulVec f.origin, Basis3.ofMatrix m⟩
/-- core_compiled.pyx:3339-3347 `Frame3D.__add__`. -/
def add (f g : Frame3 K) : Frame3 K :=
  let p1 := f.basis.transfer
  ⟨p1.mulVec g.origin + f.origin, Basis3.ofMatrix (p1.mul g.basis.transfer)⟩
/-- core_compiled.pyx:3349-3357 `Frame3D.__sub__`. -/
def sub (f g : Frame3 K) : Except PyErr (Frame3 K) := do
  let p1inv ← g.basis.transfer.inverse
  return ⟨p1inv.mulVec (f.origin - g.origin), Basis3.ofMatrix (p1inv.mul f.basis.transfer)⟩
/-- core_compiled.pyx:3475-3491 `Frame3D.frame_mapping`. -/
def frameMapping (self frame : Frame3 K) (side : String) : Except PyErr (Frame3 K) :=
  if side = "new" then do
    let o ← frame.globalToLocal self.origin
    let u ← frame.basis.globalToLocal self.basis.u
    let v ← frame.basis.globalToLocal self.basis.v
    let w ← frame.basis.globalToLocal self.basis.w
    return ⟨o, ⟨u, v, w⟩⟩
  else if side = "old" then
    .ok ⟨frame.localToGlobal self.origin, ⟨frame.basis.localToGlobal self.basis.u,
      frame.basis.localToGlobal self.basis.v, frame.basis.localToGlobal self.basis.w⟩⟩
  else .error .valueError
end Frame3

/-- core_compiled.pyx:1665-1686 `Vector3D.frame_mapping`: with another `side` the local variable is
never assigned and Python raises `UnboundLocalError`. -/
def V3.frameMapping (p : V3 K) (frame : Frame3 K) (side : String) : Except PyErr (V3 K) :=
  if side = "old" then .ok (frame.localToGlobal p)
  else if side = "new" then frame.globalToLocal p
  else .error .unboundLocal

/-- core_compiled.pyx:846-865 `Vector2D.to_3d`. -/
def V2.vecTo3d (p : V2 K) (o vx vy : V3 K) : V3 K :=
  ⟨o.x + vx.x * p.x + vy.x * p.y, o.y + vx.y * p.x + vy.y * p.y, o.z + vx.z * p.x + vy.z * p.y⟩

/-- Python's `round(x, 12)`.  Simplification: ties are rounded up instead of to even. -/
def round12 [FloorRing K] (x : K) : K := (round (x * 10 ^ 12) : ℤ) / 10 ^ 12

/-- core_compiled.pyx:1068-1087 `Point2D.to_3d` (coordinates rounded to 12 digits). -/
def V2.ptTo3d [FloorRing K] (p : V2 K) (o vx vy : V3 K) : V3 K :=
  ⟨round12 (o.x + vx.x * p.x + vy.x * p.y), round12 (o.y + vx.y * p.x + vy.y * p.y),
   round12 (o.z + vx.z * p.x + vy.z * p.y)⟩

/-- core_compiled.pyx:1723-1742 `Vector3D.to_2d`. -/
def V3.to2d (p o x y : V3 K) : V2 K := ⟨V3.dot p x - V3.dot o x, V3.dot p y - V3.dot o y⟩

/-- core_compiled.pyx:1688-1703 `Vector3D.plane_projection3d`; `none` is `ZeroDivisionError` from
`unit_vector` (`x` and `y` parallel). -/
noncomputable def V3.planeProjection3d (p o x y : V3 ℝ) : Option (V3 ℝ) := do
  let z ← V3.unitVector (V3.cross x y)
  return p - V3.smul (V3.dot z (p - o)) z

/-- core_compiled.pyx:1705-1721 `Vector3D.plane_projection2d`. -/
noncomputable def V3.planeProjection2d (p o x y : V3 ℝ) : Option (V2 ℝ) := do
  let q ← V3.planeProjection3d p o x y
  return ⟨V3.dot q x, V3.dot q y⟩

/-! ## Constructions of bases and frames -/

/-- core_compiled.pyx:2746-2763 `Basis3D.from_two_vectors`. -/
noncomputable def Basis3.fromTwoVectors (v1 v2 : V3 ℝ) : Option (Basis3 ℝ) := do
  let u ← V3.unitVector v1
  let v ← V3.unitVector (v2 - V3.smul (V3.dot v2 v1) v1)
  return ⟨u, v, V3.cross u v⟩

/-- core_compiled.pyx:3710-3727 `Frame3D.from_3_points`. -/
noncomputable def Frame3.from3Points (p1 p2 p3 : V3 ℝ) : Option (Frame3 ℝ) := do
  let v1 ← V3.unitVector (p2 - p1)
  let v2 ← V3.unitVector (p3 - p1)
  let n ← V3.unitVector (V3.cross v1 v2)
  return ⟨p1, ⟨v1, V3.cross n v1, n⟩⟩

/-- core_compiled.pyx:1771-1779 `deterministic_unit_normal_vector` and 3729-3734
`Frame3D.from_point_and_normal`. -/
noncomputable def Frame3.fromPointAndNormal (origin normal : V3 ℝ) : Option (Frame3 ℝ) := do
  let n ← V3.deterministicNormalVector normal
  let u ← V3.unitVector n
  return ⟨origin, ⟨u, V3.cross normal u, normal⟩⟩

open Classical in
/-- core_compiled.pyx:3659-3708 `Frame3D.from_point_and_vector`. -/
noncomputable def Frame3.fromPointAndVector (point vector mainAxis : V3 ℝ) : Except PyErr (Frame3 ℝ) :=
  if mainAxis ≠ ⟨1, 0, 0⟩ ∧ mainAxis ≠ ⟨0, 1, 0⟩ ∧ mainAxis ≠ ⟨0, 0, 1⟩ then .error .valueError
  else match V3.unitVector vector with
  | none => .error .zeroDivision
  | some v =>
    if v = mainAxis then .ok ⟨point, ⟨⟨1, 0, 0⟩, ⟨0, 1, 0⟩, ⟨0, 0, 1⟩⟩⟩
    else if v = -mainAxis then .ok ⟨point, ⟨-⟨1, 0, 0⟩, -⟨0, 1, 0⟩, -⟨0, 0, 1⟩⟩⟩
    else
      let angle := Real.arccos (V3.dot mainAxis v / (V3.norm v * V3.norm mainAxis))
      match V3.unitVector (V3.cross mainAxis (v - mainAxis)) with
      | none => .error .zeroDivision
      | some a =>
        .ok ⟨point, ⟨V3.rotation ⟨1, 0, 0⟩ ⟨0, 0, 0⟩ a angle, V3.rotation ⟨0, 1, 0⟩ ⟨0, 0, 0⟩ a angle,
          V3.rotation ⟨0, 0, 1⟩ ⟨0, 0, 0⟩ a angle⟩⟩

/-- core_compiled.pyx:2777-2792 `Basis3D.rotation`. -/
noncomputable def Basis3.rotation (b : Basis3 ℝ) (axis : V3 ℝ) (angle : ℝ) : Basis3 ℝ :=
  ⟨V3.rotation b.u ⟨0, 0, 0⟩ axis angle, V3.rotation b.v ⟨0, 0, 0⟩ axis angle,
   V3.rotation b.w ⟨0, 0, 0⟩ axis angle⟩

/-- core_compiled.pyx:2839-2877 `Basis3D.euler_rotation`. -/
noncomputable def Basis3.eulerRotation (b : Basis3 ℝ) (psi theta phi : ℝ) : Basis3 ℝ :=
  let u := V3.rotation b.u ⟨0, 0, 0⟩ b.w psi
  let v := V3.rotation b.v ⟨0, 0, 0⟩ b.w psi
  let v := V3.rotation v ⟨0, 0, 0⟩ u theta
  let w := V3.rotation b.w ⟨0, 0, 0⟩ u theta
  let u := V3.rotation u ⟨0, 0, 0⟩ w phi
  let v := V3.rotation v ⟨0, 0, 0⟩ w phi
  ⟨u, v, w⟩

end Volmdlr
