import Verif.Nurbs.CurveModel
import Verif.Nurbs.HelpersModel
import Verif.Nurbs.Model
import Verif.Frame.Model
import Mathlib.Analysis.Real.Sqrt
import Mathlib.LinearAlgebra.Matrix.NonsingularInverse
import Mathlib.Algebra.Order.Floor.Semiring

/-!
# Fitting of B-splines to points (nurbs/fitting.py)

A point is a row of coordinates (`Fin d → ℝ`), a list of points the array given to `fitting`.  Floats are real numbers.  Where the program would go on with
`nan` or `inf` the model says `notFinite`.
-/

namespace Volmdlr.Fit
open Finset

/-- A point with `d` coordinates (`Point2D` or `Point3D`, as the rows of the arrays of `fitting`). -/
abbrev Pt (d : ℕ) := Fin d → ℝ

/-- What a call ends with. -/
inductive Outcome (α : Type*) where
  /-- an exception -/
  | error (e : PyErr)
  /-- `None` is returned (after a warning) -/
  | nothing
  /-- the numbers of the result are `nan` or `inf` -/
  | notFinite
  | ok (a : α)

/-- `np.linalg.norm` of a row. -/
noncomputable def norm {d : ℕ} (v : Pt d) : ℝ := √(∑ k, v k ^ 2)

/-- nurbs/fitting.py:476-481: `cds[i]`, for `i < num_points`. -/
noncomputable def chord {d : ℕ} (cen : Bool) (P : List (Pt d)) (i : ℕ) : ℝ :=
  if i = 0 then 0 else if cen then √(norm (cpFun P i - cpFun P (i - 1))) else norm (cpFun P i - cpFun P (i - 1))

/-- nurbs/fitting.py:484: the total chord length, the sum of `cds[1:num_points]`. -/
noncomputable def totalChord {d : ℕ} (cen : Bool) (P : List (Pt d)) : ℝ := ∑ i ∈ Ico 1 P.length, chord cen P i

/-- nurbs/fitting.py:457-491 `compute_params_curve`; `none` stands for `nan`s (the total length is 0). -/
noncomputable def paramsCurve {d : ℕ} (cen : Bool) (P : List (Pt d)) : Option (ℕ → ℝ) :=
  if totalChord cen P = 0 then none else some fun i => (∑ k ∈ range (i + 1), chord cen P k) / totalChord cen P

/-- nurbs/fitting.py:374-407 `compute_knot_vector`, for `degree < num_points`. -/
noncomputable def knotVector (p n : ℕ) (u : ℕ → ℝ) : List ℝ :=
  (List.range (n + p + 1)).map fun k =>
    if n ≤ k then 1 else if p + 1 ≤ k then (1 / (p : ℝ)) * ∑ j ∈ Ico (k - (p + 1) + 1) (k - (p + 1) + p + 1), u j else 0

/-- nurbs/fitting.py:414-450 `compute_knot_vector2`: `m` data points, `n` control points (`cast(int, ·)` is the floor for the positive numbers used). -/
noncomputable def knotVector2 (p m n : ℕ) (u : ℕ → ℝ) : List ℝ :=
  (List.range (n + p + 1)).map fun k =>
    if n ≤ k then 1
    else if p + 1 ≤ k then
      let x : ℝ := (k - p : ℕ) * ((m : ℝ) / (n - p : ℕ))
      let i : ℕ := ⌊x⌋₊
      (1 - (x - i)) * u (i - 1) + (x - i) * u i
    else 0

/-- nurbs/core.pyx:562-592 `build_coeff_matrix`. -/
noncomputable def coeffMatrix (p : ℕ) (U : ℕ → ℝ) (u : ℕ → ℝ) (n : ℕ) (i j : ℕ) : ℝ :=
  let span := findSpanLinear p U n (u i)
  if span - p ≤ j ∧ j < span + 1 then basisOuter U span (u i) p (j - (span - p)) else 0

open Classical in
/-- `scipy.linalg.lu_solve(lu_factor(A), b)`, taken as an exact solver; `none` stands for the infinite numbers of a singular system. -/
noncomputable def luSolve {d : ℕ} (A : ℕ → ℕ → ℝ) (n : ℕ) (b : ℕ → Pt d) : Option (ℕ → Pt d) :=
  let M : Matrix (Fin n) (Fin n) ℝ := Matrix.of fun i j => A i j
  if M.det = 0 then none else some fun i => if h : i < n then ∑ j : Fin n, M⁻¹ ⟨i, h⟩ j • b j else 0

/-- The triple that the functions of `fitting` return for a curve, given to the constructor of the curve (edges.py:1589, 1639); knots and multiplicities by
`np.unique` and `find_multiplicity` (nurbs/fitting.py:62-63, 221-222). -/
noncomputable def toCurve {d : ℕ} (p n : ℕ) (kv : List ℝ) (x : ℕ → Pt d) : BCurve ℝ (Pt d) :=
  let km := getKnotsAndMultiplicities (1 / 10 ^ 15) kv
  BCurve.new p ((List.range n).map x) km.2 km.1 none

open Classical in
/-- nurbs/fitting.py:31-66 `interpolate_curve` and edges.py:1607-1640 `from_points_interpolation`. -/
noncomputable def fromPointsInterpolation {d : ℕ} (P : List (Pt d)) (p : ℕ) (cen : Bool) : Outcome (BCurve ℝ (Pt d)) :=
  if P.length ≤ p then .error .valueError
  else if P.toFinset.card < P.length - 1 then .nothing
  else match paramsCurve cen P with
    | none => .error .valueError
    | some u =>
      let kv := knotVector p P.length u
      match luSolve (coeffMatrix p (kvFun kv) u P.length) P.length (cpFun P) with
      | none => .notFinite
      | some x => .ok (toCurve p P.length kv x)

/-- nurbs/fitting.py:172-179: `matrix_n`. -/
noncomputable def matrixN (p n : ℕ) (U : ℕ → ℝ) (u : ℕ → ℝ) (i j : ℕ) : ℝ := basisFunctionOne p U (n + p + 1) (j + 1) (u (i + 1))

/-- nurbs/fitting.py:193-203: `r_k` (Eq 9.63). -/
noncomputable def restK {d : ℕ} (p m n : ℕ) (U : ℕ → ℝ) (u : ℕ → ℝ) (P : ℕ → Pt d) (k : ℕ) : Pt d :=
  P (k + 1) - basisFunctionOne p U (n + p + 1) 0 (u (k + 1)) • P 0 - basisFunctionOne p U (n + p + 1) (n - 1) (u (k + 1)) • P (m - 1)

/-- nurbs/fitting.py:205-211: `vector_r` (Eq 9.67). -/
noncomputable def vectorR {d : ℕ} (p m n : ℕ) (U : ℕ → ℝ) (u : ℕ → ℝ) (P : ℕ → Pt d) (i : ℕ) : Pt d :=
  ∑ k ∈ range (m - 2), basisFunctionOne p U (n + p + 1) (i + 1) (u (k + 1)) • restK p m n U u P k

/-- nurbs/fitting.py:181-183 the matrix `matrix_ntn`. -/
noncomputable def normalMatrix (p m n : ℕ) (U : ℕ → ℝ) (u : ℕ → ℝ) (r c : ℕ) : ℝ := ∑ k ∈ range (m - 2), matrixN p n U u k r * matrixN p n U u k c

/-- nurbs/fitting.py:185-219: the control points of `approximate_curve`. -/
noncomputable def approxPoints {d : ℕ} (p m n : ℕ) (U : ℕ → ℝ) (u : ℕ → ℝ) (P : ℕ → Pt d) (j : ℕ) : Pt d :=
  let LU := doolittle (normalMatrix p m n U u) (n - 2) (n - 2)
  if j = 0 then P 0
  else if j = n - 1 then P (m - 1)
  else fun k => backwardSub LU.2 (forwardSub LU.1 (fun i => vectorR p m n U u P i k) (n - 2)) (n - 2) (n - 2) (j - 1)

open Classical in
/-- nurbs/fitting.py:139-224 `approximate_curve` and edges.py:1560-1589 `from_points_approximation` (`size` is the keyword argument `ctrlpts_size`).
With one control point or fewer, `np.zeros` refuses the shape; with two, the substitutions read the first element of an empty list; a null pivot is divided
by in `backward_substitution`. -/
noncomputable def fromPointsApproximation {d : ℕ} (P : List (Pt d)) (p : ℕ) (cen : Bool) (size : Option ℕ) : Outcome (BCurve ℝ (Pt d)) :=
  let n := size.getD (P.length - 1)
  if P.length < 2 ∨ n < 2 then .error .valueError
  else if n = 2 then .error .indexError
  else match paramsCurve cen P with
    | none => .notFinite
    | some u =>
      let kv := knotVector2 p P.length n u
      if ∃ i < n - 2, (doolittle (normalMatrix p P.length n (kvFun kv) u) (n - 2) (n - 2)).2 i i = 0 then .error .zeroDivision
      else .ok (toCurve p n kv (approxPoints p P.length n (kvFun kv) u (cpFun P)))

/-! ## Surfaces -/

/-- surfaces.py:6838-6851: the attributes of a `BSplineSurface3D` without weights. -/
structure BSurface (d : ℕ) where
  degreeU : ℕ
  degreeV : ℕ
  ctrlpts : List (Pt d)
  nbU : ℕ
  nbV : ℕ
  multsU : List ℕ
  multsV : List ℕ
  knotsU : List ℝ
  knotsV : List ℝ

namespace BSurface
variable {d : ℕ}

/-- surfaces.py:6838-6871 `BSplineSurface3D.__init__`: the knots are standardised. -/
noncomputable def new (degreeU degreeV : ℕ) (ctrlpts : List (Pt d)) (nbU nbV : ℕ) (multsU multsV : List ℕ) (knotsU knotsV : List ℝ) : BSurface d :=
  ⟨degreeU, degreeV, ctrlpts, nbU, nbV, multsU, multsV, standardizeKnotVector knotsU, standardizeKnotVector knotsV⟩

/-- surfaces.py:6980-6990 `knotvector`, in the direction `u`. -/
noncomputable def knotvectorU (s : BSurface d) : List ℝ := repeatKnots s.knotsU s.multsU
/-- surfaces.py:6980-6990 `knotvector`, in the direction `v`. -/
noncomputable def knotvectorV (s : BSurface d) : List ℝ := repeatKnots s.knotsV s.multsV

/-- surfaces.py:6925-6939 (`data`) and the evaluation at one pair of parameters: `size` is `(nb_u, nb_v)`. -/
noncomputable def eval (s : BSurface d) (u v : ℝ) : Pt d :=
  surfacePoint s.degreeU s.degreeV (kvFun s.knotvectorU) (kvFun s.knotvectorV) (cpFun s.ctrlpts) s.nbU s.nbV u v

end BSurface

/-- nurbs/fitting.py:524, 543: a line of the grid, `[points[v + size_v * u] for u in range(size_u)]`. -/
def lineU {d : ℕ} (P : List (Pt d)) (su sv v : ℕ) : List (Pt d) := (List.range su).map fun u : ℕ => cpFun P (v + sv * u)
/-- nurbs/fitting.py:543: `[points[v + size_v * u] for v in range(size_v)]`. -/
def lineV {d : ℕ} (P : List (Pt d)) (sv u : ℕ) : List (Pt d) := (List.range sv).map fun v : ℕ => cpFun P (v + sv * u)

/-- The mean of the parameters of several lines (nurbs/fitting.py:529-532, 548-551); `none` (`nan`) when there is none for one of them. -/
noncomputable def meanParams (lines : List (Option (ℕ → ℝ))) : Option (ℕ → ℝ) :=
  match lines.mapM (fun o : Option (ℕ → ℝ) => o) with
  | none => none
  | some us => some fun i => (us.map fun u : ℕ → ℝ => u i).sum / lines.length

/-- nurbs/fitting.py:498-556 `compute_params_surface`: `u_k`. -/
noncomputable def paramsU {d : ℕ} (cen : Bool) (P : List (Pt d)) (su sv : ℕ) : Option (ℕ → ℝ) :=
  meanParams ((List.range sv).map fun v : ℕ => paramsCurve cen (lineU P su sv v))
/-- nurbs/fitting.py:498-556 `compute_params_surface`: `v_l`. -/
noncomputable def paramsV {d : ℕ} (cen : Bool) (P : List (Pt d)) (su sv : ℕ) : Option (ℕ → ℝ) :=
  meanParams ((List.range su).map fun u : ℕ => paramsCurve cen (lineV P sv u))

/-- The knots and multiplicities of a surface made from two knot vectors (nurbs/fitting.py:129-134 and surfaces.py:9114-9118). -/
noncomputable def toSurface {d : ℕ} (pu pv : ℕ) (ctrlpts : List (Pt d)) (nbU nbV : ℕ) (kvU kvV : List ℝ) : BSurface d :=
  let ku := getKnotsAndMultiplicities (1 / 10 ^ 15) kvU
  let kv := getKnotsAndMultiplicities (1 / 10 ^ 15) kvV
  BSurface.new pu pv ctrlpts nbU nbV ku.2 kv.2 ku.1 kv.1

open Classical in
/-- nurbs/fitting.py:71-136 `interpolate_surface` and surfaces.py:9092-9118 `from_points_interpolation` (which never asks for the centripetal method), for
degrees less than the sizes.  `ctrlpts_r[u + size_u * v]` is `R v u`. -/
noncomputable def surfaceInterpolation {d : ℕ} (P : List (Pt d)) (su sv pu pv : ℕ) : Outcome (BSurface d) :=
  match paramsU false P su sv, paramsV false P su sv with
  | some uk, some vl =>
    let kvU := knotVector pu su uk
    let kvV := knotVector pv sv vl
    let R : ℕ → Option (ℕ → Pt d) := fun v => luSolve (coeffMatrix pu (kvFun kvU) uk su) su (fun u => cpFun P (v + sv * u))
    if ∃ v < sv, R v = none then .notFinite
    else
      let Q : ℕ → Option (ℕ → Pt d) := fun u => luSolve (coeffMatrix pv (kvFun kvV) vl sv) sv (fun v => (R v).getD 0 u)
      if ∃ u < su, Q u = none then .notFinite
      else .ok (toSurface pu pv ((List.range (su * sv)).map fun k : ℕ => (Q (k / sv)).getD 0 (k % sv)) su sv kvU kvV)
  | _, _ => .error .valueError

open Classical in
/-- nurbs/fitting.py:229-367 `approximate_surface` and surfaces.py:9129-9171 `from_points_approximation`: a fit of each line in the direction `u`, then a fit
in the direction `v` of the control points found (`ctrlpts_tmp[j + size_v * i]`).  The constructor is given `size_u, size_v`, the numbers of data points. -/
noncomputable def surfaceApproximation {d : ℕ} (P : List (Pt d)) (su sv pu pv : ℕ) (sizeU sizeV : Option ℕ) : Outcome (BSurface d) :=
  let nu := sizeU.getD (su - 1)
  let nv := sizeV.getD (sv - 1)
  if su < 2 ∨ sv < 2 ∨ nu < 2 ∨ nv < 2 then .error .valueError
  else if nu = 2 ∨ nv = 2 then .error .indexError
  else match paramsU false P su sv, paramsV false P su sv with
    | some uk, some vl =>
      let kvU := knotVector2 pu su nu uk
      let kvV := knotVector2 pv sv nv vl
      if (∃ i < nu - 2, (doolittle (normalMatrix pu su nu (kvFun kvU) uk) (nu - 2) (nu - 2)).2 i i = 0) ∨
        (∃ i < nv - 2, (doolittle (normalMatrix pv sv nv (kvFun kvV) vl) (nv - 2) (nv - 2)).2 i i = 0) then .error .zeroDivision
      else
        let tmp : ℕ → ℕ → Pt d := fun j => approxPoints pu su nu (kvFun kvU) uk (fun i => cpFun P (j + sv * i))
        let net : ℕ → ℕ → Pt d := fun i => approxPoints pv sv nv (kvFun kvV) vl (fun j => tmp j i)
        .ok (toSurface pu pv ((List.range (nu * nv)).map fun k : ℕ => net (k / nv) (k % nv)) su sv kvU kvV)
    | _, _ => .notFinite

end Volmdlr.Fit
