import Verif.Frame.Model
import Mathlib.Algebra.Module.Basic
import Mathlib.Algebra.Order.Field.Basic

/-!
# Model of `volmdlr/nurbs/core.pyx` : knot spans, basis functions, curve and surface evaluation

A knot vector that is only read is a function `U : ℕ → K` (the memory view; the accesses are not bounds
checked in the Cython code, the theorems say which indices matter).  A control point is an element of a
`K`-module `V` (the code does the same arithmetic on each coordinate).
-/

namespace Volmdlr
section
variable {K : Type*} [Field K] [LinearOrder K]

/-- nurbs/core.pyx:86-91, the `while` loop of `find_span_linear_c`. -/
def spanLoop (U : ℕ → K) (n : ℕ) (u : K) (span : ℕ) : ℕ :=
  if span < n ∧ U span ≤ u then spanLoop U n u (span + 1) else span
termination_by n - span
decreasing_by omega

/-- nurbs/core.pyx:86-91 `find_span_linear_c`. -/
def findSpanLinear (degree : ℕ) (U : ℕ → K) (numCtrlpts : ℕ) (u : K) : ℕ :=
  spanLoop U numCtrlpts u (degree + 1) - 1

/-- nurbs/core.pyx:70-78, the `while` loop of `find_span_binsearch`; `none` when the fuel is used up. -/
def binLoop (U : ℕ → K) (u : K) : ℕ → ℕ → ℕ → ℕ → Option ℕ
  | 0, _, _, _ => none
  | fuel + 1, low, high, mid =>
    if u < U mid ∨ U (mid + 1) ≤ u then
      if u < U mid then binLoop U u fuel low mid ((low + mid) / 2)
      else binLoop U u fuel mid high ((mid + high) / 2)
    else some mid

/-- nurbs/core.pyx:31-80 `find_span_binsearch` (`tol` is `10e-6` by default).  `int((low + high) / 2)` and
`<int>round_c(mid + tol)` are the integer quotient (`0 ≤ tol < 1/2`). -/
def findSpanBinsearch (tol : K) (fuel degree : ℕ) (U : ℕ → K) (numCtrlpts : ℕ) (u : K) : Option ℕ :=
  let n := numCtrlpts - 1
  if |U (n + 1) - u| ≤ tol then some n
  else binLoop U u fuel degree numCtrlpts ((degree + numCtrlpts) / 2)

/-- nurbs/core.pyx:142-165 `find_multiplicity`. -/
def findMultiplicity (tol : K) (knot : K) (kv : List K) : ℕ :=
  kv.foldl (fun mult k => if |knot - k| ≤ tol then mult + 1 else mult) 0

/-- nurbs/core.pyx:183-191, the inner loop of `basis_function_c` at stage `j`: state (`N`, `saved`) after
`r` iterations.  `left[i] = u - U[span+1-i]`, `right[i] = U[span+i] - u`. -/
def basisInner (U : ℕ → K) (span : ℕ) (u : K) (j : ℕ) (N : ℕ → K) : ℕ → (ℕ → K) × K
  | 0 => (N, 0)
  | r + 1 =>
    let s := basisInner U span u j N r
    let right := U (span + (r + 1)) - u
    let left := u - U (span + 1 - (j - r))
    let temp := s.1 r / (right + left)
    (Function.update s.1 r (s.2 + right * temp), left * temp)

/-- nurbs/core.pyx:177-193, the outer loop of `basis_function_c`: the vector `N` after stage `j`. -/
def basisOuter (U : ℕ → K) (span : ℕ) (u : K) : ℕ → ℕ → K
  | 0 => Function.update (fun _ => 0) 0 1
  | j + 1 =>
    let s := basisInner U span u (j + 1) (basisOuter U span u j) (j + 1)
    Function.update s.1 (j + 1) s.2

/-- nurbs/core.pyx:172-196 `basis_function_c`: the list of `degree + 1` values. -/
def basisFunction (degree : ℕ) (U : ℕ → K) (span : ℕ) (u : K) : List K :=
  (List.range (degree + 1)).map (basisOuter U span u degree)

/-- nurbs/core.pyx:219-221, initialisation of `basis_function_one_c`. -/
def basisOneInit (degree : ℕ) (U : ℕ → K) (span : ℕ) (u : K) : ℕ → K := fun j =>
  if j < degree + 1 ∧ U (span + j) ≤ u ∧ u < U (span + j + 1) then 1 else 0

/-- nurbs/core.pyx:227-239, the loop over `j` of `basis_function_one_c` at stage `k`: state (`N`, `saved`)
after `j` iterations. -/
def basisOneInner (U : ℕ → K) (span : ℕ) (u : K) (k : ℕ) (N : ℕ → K) : ℕ → (ℕ → K) × K
  | 0 => (N, if N 0 ≠ 0 then ((u - U span) * N 0) / (U (span + k) - U span) else 0)
  | j + 1 =>
    let s := basisOneInner U span u k N j
    let Uleft := U (span + j + 1)
    let Uright := U (span + j + k + 1)
    if s.1 (j + 1) = 0 then (Function.update s.1 j s.2, 0)
    else
      let temp := s.1 (j + 1) / (Uright - Uleft)
      (Function.update s.1 j (s.2 + (Uright - u) * temp), (u - Uleft) * temp)

/-- nurbs/core.pyx:223-240, the loop over `k` of `basis_function_one_c`. -/
def basisOneOuter (degree : ℕ) (U : ℕ → K) (span : ℕ) (u : K) : ℕ → ℕ → K
  | 0 => basisOneInit degree U span u
  | k + 1 => (basisOneInner U span u (k + 1) (basisOneOuter degree U span u k) (degree - (k + 1) + 1)).1

/-- nurbs/core.pyx:199-262 `basis_function_one`; `m` is the number of knots. -/
def basisFunctionOne (degree : ℕ) (U : ℕ → K) (m span : ℕ) (u : K) : K :=
  if (span = 0 ∧ u = U 0) ∨ (span + degree + 2 = m ∧ u = U (m - 1)) then 1
  else if u < U span ∨ U (span + degree + 1) ≤ u then 0
  else basisOneOuter degree U span u degree 0

variable {V : Type*} [AddCommGroup V] [Module K V]

/-- nurbs/core.pyx:634-640, one point of `evaluate_curve_c` (Algorithm A3.1): accumulation over the
`degree + 1` basis functions. -/
def curvePoint (degree : ℕ) (U : ℕ → K) (ctrlpts : ℕ → V) (size : ℕ) (u : K) : V :=
  let span := findSpanLinear degree U size u
  let basis := basisOuter U span u degree
  (List.range (degree + 1)).foldl (fun crvpt i => crvpt + basis i • ctrlpts (span - degree + i)) 0

/-- nurbs/core.pyx:692-718 one point of `evaluate_curve_rational`: the homogeneous point (`ctrlpts` weighted,
weight as last coordinate) divided by its weight. -/
def curvePointRational (degree : ℕ) (U : ℕ → K) (ctrlptsw : ℕ → V × K) (size : ℕ) (u : K) : V :=
  let c := curvePoint degree U ctrlptsw size u
  (c.2)⁻¹ • c.1

/-- edges.py:865-868: `ctrlptsw`, the weighted control points with their weight. -/
def weighted (ctrlpts : ℕ → V) (weights : ℕ → K) : ℕ → V × K := fun i => (weights i • ctrlpts i, weights i)

/-- nurbs/core.pyx:805-823, one point of `evaluate_surface_c` (Algorithm A3.5); control points in one array,
row after row (`size_v` per row). -/
def surfacePoint (pu pv : ℕ) (Uu Uv : ℕ → K) (ctrlpts : ℕ → V) (su sv : ℕ) (u v : K) : V :=
  let spanU := findSpanLinear pu Uu su u
  let spanV := findSpanLinear pv Uv sv v
  let bu := basisOuter Uu spanU u pu
  let bv := basisOuter Uv spanV v pv
  let idxU := spanU - pu
  let idxV := spanV - pv
  (List.range (pu + 1)).foldl (fun spt k =>
    let temp := (List.range (pv + 1)).foldl (fun temp m => temp + bv m • ctrlpts (idxV + m + sv * (idxU + k))) 0
    spt + bu k • temp) 0

/-- nurbs/core.pyx:827-856 one point of `evaluate_surface_rational`. -/
def surfacePointRational (pu pv : ℕ) (Uu Uv : ℕ → K) (ctrlptsw : ℕ → V × K) (su sv : ℕ) (u v : K) : V :=
  let c := surfacePoint pu pv Uu Uv ctrlptsw su sv u v
  (c.2)⁻¹ • c.1

end
end Volmdlr
