import Verif.Vec.Model
import Verif.Surface.Model
import Verif.Lists.Model
import Mathlib.Algebra.Order.Floor.Defs
import Mathlib.Algebra.Order.Floor.Semiring

/-!
# Model of `Triangle3D` (faces.py)
-/

namespace Volmdlr.Triangles

/-- Three points of space: `Triangle3D.points`. -/
abbrev Tri := V3 ℝ × V3 ℝ × V3 ℝ

/-! ## Area, height, middle, normal -/

/-- faces.py:2286-2308 `Triangle3D.area`, Heron's formula.  The square root of a negative number is a `ValueError`, then the area is zero: so is
`Real.sqrt` of a negative number. -/
noncomputable def area (t : Tri) : ℝ :=
  let a := V3.pointDistance t.1 t.2.1
  let b := V3.pointDistance t.2.1 t.2.2
  let c := V3.pointDistance t.2.2 t.1
  let s := (a + b + c) / 2
  Real.sqrt (s * (s - a) * (s - b) * (s - c))

/-- faces.py:2310-2317 `Triangle3D.height`; `none` is a division by zero. -/
noncomputable def height (t : Tri) : Option ℝ :=
  if V3.pointDistance t.1 t.2.1 = 0 then none else some (2 * area t / V3.pointDistance t.1 t.2.1)

/-- faces.py:2462-2467 `Triangle3D.middle`. -/
noncomputable def middle (t : Tri) : V3 ℝ :=
  let s := t.1 + t.2.1 + t.2.2
  ⟨s.x / 3, s.y / 3, s.z / 3⟩

/-- faces.py:2469-2480 `Triangle3D.normal`, with the plane of 2220-2224 `surface3d`; `none` is the `ZeroDivisionError` of the construction of a
triangle whose points are on a line. -/
noncomputable def normal (t : Tri) : Option (V3 ℝ) :=
  (Surface.planeFrom3Points t.1 t.2.1 t.2.2).bind fun f => V3.unitVector f.basis.w

/-! ## The object and its copies -/

/-- faces.py:2174-2199: a `Triangle3D` object. -/
structure Triangle where
  points : Tri
  alpha : ℝ
  color : Option (ℝ × ℝ × ℝ)
  name : String

/-- faces.py:2174-2199 `Triangle3D.__init__`: `PlaneFace3D.__init__(self, self.surface3d, self.surface2d)` is called last, with the default name; it
calls core.py:255-259 `Primitive3D.__init__` with the default color and transparency.  `none` is the `ZeroDivisionError` of the plane. -/
noncomputable def Triangle.make (p1 p2 p3 : V3 ℝ) (_alpha : ℝ := 1) (_color : Option (ℝ × ℝ × ℝ) := none) (_name : String := "") : Option Triangle :=
  (Surface.planeFrom3Points p1 p2 p3).map fun _ => ⟨(p1, p2, p3), 1, none, ""⟩

/-- faces.py:2343-2356 `Triangle3D.translation`. -/
noncomputable def Triangle.translation (t : Triangle) (offset : V3 ℝ) : Option Triangle :=
  Triangle.make (V3.translation t.points.1 offset) (V3.translation t.points.2.1 offset) (V3.translation t.points.2.2 offset) t.alpha t.color t.name

/-- faces.py:2358-2371 `Triangle3D.rotation`. -/
noncomputable def Triangle.rotation (t : Triangle) (center axis : V3 ℝ) (angle : ℝ) : Option Triangle :=
  Triangle.make (V3.rotation t.points.1 center axis angle) (V3.rotation t.points.2.1 center axis angle) (V3.rotation t.points.2.2 center axis angle)
    t.alpha t.color t.name

/-- faces.py:2335-2337 `Triangle3D.copy`: the name is given as the fourth argument, which is the transparency; the constructor ignores it (the model
gives the default transparency instead of a string). -/
noncomputable def Triangle.copy (t : Triangle) : Option Triangle := Triangle.make t.points.1 t.points.2.1 t.points.2.2

/-- faces.py:2252-2265 `Triangle3D.to_dict`: the points, and the name when it is not empty. -/
def Triangle.toDict (t : Triangle) : Tri × Option String := (t.points, if t.name = "" then none else some t.name)

/-- faces.py:2267-2289 `Triangle3D.dict_to_object`: the name is given as the transparency, which the constructor ignores. -/
noncomputable def Triangle.dictToObject (d : Tri × Option String) : Option Triangle := Triangle.make d.1.1 d.1.2.1 d.1.2.2

/-- faces.py:2200-2205 `Triangle3D._data_hash`. -/
noncomputable def Triangle.dataHash (t : Triangle) : ℤ := V3.approxHash t.points.1 + V3.approxHash t.points.2.1 + V3.approxHash t.points.2.2

open Classical in
/-- faces.py:2207-2214 `Triangle3D._data_eq`: the same set of points. -/
noncomputable def Triangle.dataEq (t u : Triangle) : Bool :=
  decide ((({t.points.1, t.points.2.1, t.points.2.2} : Finset (V3 ℝ)) = {u.points.1, u.points.2.1, u.points.2.2}))

/-! ## Subdivision into triangles -/

/-- faces.py:2435-2440: the lengths of the sides. -/
noncomputable def lengths (t : Tri) : ℝ × ℝ × ℝ := (V3.pointDistance t.1 t.2.1, V3.pointDistance t.2.1 t.2.2, V3.pointDistance t.2.2 t.1)

/-- faces.py:2441, 2415: the greatest length. -/
noncomputable def maxLength (t : Tri) : ℝ := max (max (lengths t).1 (lengths t).2.1) (lengths t).2.2

open Classical in
/-- faces.py:2444, 2447-2448: the points turned so that the first longest side (`lengths.index(max_length)`) is the first one; the indices
`-3 + pos + k` count from the end. -/
noncomputable def turned (t : Tri) : Tri :=
  if (lengths t).1 = maxLength t then t
  else if (lengths t).2.1 = maxLength t then (t.2.1, t.2.2, t.1)
  else (t.2.2, t.1, t.2.1)

/-- faces.py:2445: the middle of the first two points. -/
noncomputable def midpoint (a b : V3 ℝ) : V3 ℝ := ⟨(a.x + b.x) / 2, (a.y + b.y) / 2, (a.z + b.z) / 2⟩

open Classical in
/-- faces.py:2434-2454: what replaces a triangle in one turn of the loop. -/
noncomputable def bisect (resolution : ℝ) (t : Tri) : List Tri :=
  if maxLength t > resolution then
    let u := turned t
    let m := midpoint u.1 u.2.1
    [(u.1, m, u.2.2), (u.2.1, m, u.2.2)]
  else [t]

/-- faces.py:2432-2459: the loop; the first argument bounds the number of turns. -/
noncomputable def subdivideLoop (resolution : ℝ) : ℕ → List Tri → Option (List Tri)
  | 0, _ => none
  | n + 1, l =>
    let l' := l.flatMap (bisect resolution)
    if l.length = l'.length then some l else subdivideLoop resolution n l'

/-- faces.py:2424-2460 `Triangle3D.subdescription_to_triangles`: the points of the triangles. -/
noncomputable def subdivide (resolution : ℝ) (fuel : ℕ) (t : Tri) : Option (List Tri) := subdivideLoop resolution fuel [t]

/-! ## Points in the triangle -/

/-- faces.py:2377-2381 the points on the longest side, `v` is its unit vector. -/
noncomputable def sidePoints (p1 v : V3 ℝ) (resolution maxLen : ℝ) : List (V3 ℝ) :=
  p1 :: (List.range (⌊maxLen / resolution⌋₊ + 1)).map fun k : ℕ => p1 + V3.smul (min ((k + 1 : ℕ) * resolution) maxLen) v

open Classical in
/-- faces.py:2386-2402: the points of the row of a point `q` of the longest side; `w` is the unit vector of the second side.  `none`: a null vector
is normalised. -/
noncomputable def rowPoints (p1 w : V3 ℝ) (resolution maxLen len21 : ℝ) (q : V3 ℝ) : Option (List (V3 ℝ)) :=
  let r := p1 + V3.smul (min (V3.pointDistance p1 q * len21 / maxLen) len21) w
  let len := V3.pointDistance r q
  let nb := ⌊len / resolution⌋₊ + 2
  if nb = 2 then some [r]
  else
    (V3.unitVector (r - q)).map fun z =>
      let step := len / (nb - 1 : ℕ)
      ((List.range nb).filter fun i : ℕ => decide (min (i * step) len ≠ 0)).map fun i : ℕ => q + V3.smul (min (i * step) len) z

/-- faces.py:2373-2405 `get_subdescription_points`; the order of the points and the copies removed by `set` are dropped. -/
noncomputable def subdescriptionPoints (t : Tri) (resolution maxLen : ℝ) : Option (List (V3 ℝ)) :=
  (V3.unitVector (t.1 - t.2.1)).bind fun v =>
    (V3.unitVector (t.2.2 - t.2.1)).bind fun w =>
      let side := sidePoints t.2.1 v resolution maxLen
      (side.mapM (rowPoints t.2.1 w resolution maxLen (V3.pointDistance t.2.2 t.2.1))).map fun rows => side ++ rows.flatten

open Classical in
/-- faces.py:2407-2422 `Triangle3D.subdescription`. -/
noncomputable def subdescription (t : Tri) (resolution : ℝ) : Option (List (V3 ℝ)) :=
  if maxLength t ≤ resolution then some [t.1, t.2.1, t.2.2]
  else subdescriptionPoints (turned t) resolution (maxLength t)

end Volmdlr.Triangles
