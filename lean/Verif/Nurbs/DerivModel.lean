import Verif.Nurbs.Model
import Verif.Nurbs.HelpersModel

/-!
# Model of the derivative algorithms of `volmdlr/nurbs/core.pyx` (A2.2, A2.3, A2.5, A3.2, A3.6, A4.2, A4.4)

Arrays are functions of natural indices; an assignment `M[a][b] = v` is `upd2 M a b v`.  The C integers that
can be negative (`rk = r - k`) only ever occur as `rk + j` under guards that make the index non-negative; they
are written here as the natural subtractions `r - k` and `r + j - k`.  `PyMem_Malloc`/`PyMem_Free` of the
work arrays `left`, `right` are not modelled.
-/

namespace Volmdlr
section
variable {K : Type*} [Field K]

/-- nurbs/core.pyx:367-375, the loop over `r` of stage `j` of the table `ndu`: state (`ndu`, `saved`) after `r`
iterations. -/
def nduInner (U : ℕ → K) (span : ℕ) (u : K) (j : ℕ) (ndu : ℕ → ℕ → K) : ℕ → (ℕ → ℕ → K) × K
  | 0 => (ndu, 0)
  | r + 1 =>
    let s := nduInner U span u j ndu r
    let right := U (span + (r + 1)) - u
    let left := u - U (span + 1 - (j - r))
    let ndu1 := upd2 s.1 j r (right + left)
    let temp := ndu1 r (j - 1) / ndu1 j r
    (upd2 ndu1 r j (s.2 + right * temp), left * temp)

/-- nurbs/core.pyx:357-376, the table `ndu` after stage `j` (initialised with `1.0`): basis functions in the
upper triangle, knot differences in the lower one. -/
def nduTable (U : ℕ → K) (span : ℕ) (u : K) : ℕ → ℕ → ℕ → K
  | 0 => fun _ _ => 1
  | j + 1 =>
    let s := nduInner U span u (j + 1) (nduTable U span u j) (j + 1)
    upd2 s.1 (j + 1) (j + 1) s.2

/-- nurbs/core.pyx:409-411, the loop `for j in range(j1, j2 + 1)` after `m` iterations: state (`a`, `d`). -/
def derInner (ndu : ℕ → ℕ → K) (s1 s2 pk k r j1 : ℕ) (a : ℕ → ℕ → K) (d : K) : ℕ → (ℕ → ℕ → K) × K
  | 0 => (a, d)
  | m + 1 =>
    let s := derInner ndu s1 s2 pk k r j1 a d m
    let j := j1 + m
    let a' := upd2 s.1 s2 j ((s.1 s1 j - s.1 s1 (j - 1)) / ndu (pk + 1) (r + j - k))
    (a', s.2 + a' s2 j * ndu (r + j - k) pk)

/-- The variables of the loop over `k` of nurbs/core.pyx:386-420. -/
structure DerState (K : Type*) where
  a : ℕ → ℕ → K
  s1 : ℕ
  s2 : ℕ
  ders : ℕ → ℕ → K

/-- nurbs/core.pyx:395-420, the body of the loop over `k` (derivative order) for the function index `r`. -/
def derStep (degree : ℕ) (ndu : ℕ → ℕ → K) (r : ℕ) (st : DerState K) (k : ℕ) : DerState K :=
  let pk := degree - k
  let t0 : (ℕ → ℕ → K) × K :=
    if k ≤ r then
      let a := upd2 st.a st.s2 0 (st.a st.s1 0 / ndu (pk + 1) (r - k))
      (a, a st.s2 0 * ndu (r - k) pk)
    else (st.a, 0)
  let j1 := if k ≤ r + 1 then 1 else k - r
  let j2 := if r ≤ pk + 1 then k - 1 else degree - r
  let t1 := derInner ndu st.s1 st.s2 pk k r j1 t0.1 t0.2 (j2 + 1 - j1)
  let t2 : (ℕ → ℕ → K) × K :=
    if r ≤ pk then
      let a := upd2 t1.1 st.s2 k (-(t1.1 st.s1 (k - 1)) / ndu (pk + 1) r)
      (a, t1.2 + a st.s2 k * ndu r pk)
    else t1
  ⟨t2.1, st.s2, st.s1, upd2 st.ders k r t2.2⟩

/-- nurbs/core.pyx:390-420, the loop over `k = 1, 2, …` for the function index `r`. -/
def derLoopK (degree : ℕ) (ndu : ℕ → ℕ → K) (r : ℕ) (a ders : ℕ → ℕ → K) : ℕ → DerState K
  | 0 => ⟨upd2 a 0 0 1, 0, 1, ders⟩
  | k + 1 => derStep degree ndu r (derLoopK degree ndu r a ders k) (k + 1)

/-- nurbs/core.pyx:380-420, the loop over the function index `r`: state (`a`, `ders`) after `r` iterations; the
array `a` is not reinitialised between two function indices. -/
def derLoopR (degree order : ℕ) (ndu : ℕ → ℕ → K) : ℕ → (ℕ → ℕ → K) × (ℕ → ℕ → K)
  | 0 => (fun _ _ => 1, fun k j => if k = 0 then ndu j degree else 0)
  | r + 1 =>
    let s := derLoopR degree order ndu r
    let st := derLoopK degree ndu r s.1 s.2 order
    (st.a, st.ders)

/-- nurbs/core.pyx:423-427, the multiplication by the factors: state (`ders`, `f`) after the orders `1, …, k`. -/
def derFactors (degree : ℕ) (ders : ℕ → ℕ → K) : ℕ → (ℕ → ℕ → K) × K
  | 0 => (ders, (degree : K))
  | k + 1 =>
    let s := derFactors degree ders k
    (fun k' j => if k' = k + 1 ∧ j ≤ degree then s.1 k' j * s.2 else s.1 k' j, s.2 * ((degree : K) - ((k + 1 : ℕ) : K)))

/-- nurbs/core.pyx:333-430 `basis_function_ders` (Algorithm A2.3), `ders[k][j]`.  For `order > degree` the code
writes outside of its arrays (`ders` has `min(degree, order) + 1` rows); its callers `derivatives_curve_c` and
`derivatives_surface_c` never do that, and the model is meant for `order ≤ degree` only. -/
def basisFunctionDers (degree : ℕ) (U : ℕ → K) (span : ℕ) (u : K) (order : ℕ) : ℕ → ℕ → K :=
  (derFactors degree (derLoopR degree order (nduTable U span u degree) (degree + 1)).2 order).1

/-- nurbs/core.pyx:296-327 `basis_function_all`: `N[j][i]` is the `j`-th basis function of degree `i`, `none`
above the diagonal (the Python `None`). -/
def basisFunctionAll (degree : ℕ) (U : ℕ → K) (span : ℕ) (u : K) (j i : ℕ) : Option K :=
  if i ≤ degree ∧ j ≤ i then some (basisOuter U span u i j) else none

variable {V : Type*} [AddCommGroup V] [Module K V]

/-- nurbs/core.pyx:660-689 `derivatives_curve_c` (Algorithm A3.2): `CK[k]`, zero for `k > min(degree, order)`. -/
def derivativesCurve [LinearOrder K] (degree : ℕ) (U : ℕ → K) (ctrlpts : ℕ → V) (size : ℕ) (u : K) (order k : ℕ) : V :=
  let du := min degree order
  let span := findSpanLinear degree U size u
  let b := basisFunctionDers degree U span u du
  if k ≤ du then (List.range (degree + 1)).foldl (fun c j => c + b k j • ctrlpts (span - degree + j)) 0 else 0

/-- nurbs/core.pyx:752-761 `derivatives_curve_rational` (Algorithm A4.2) from the homogeneous derivatives `CKw`:
the list `CK[0], …, CK[k-1]`. -/
def rationalDerivs [LinearOrder K] (CKw : ℕ → V × K) : ℕ → List V
  | 0 => []
  | k + 1 =>
    let CK := rationalDerivs CKw k
    let v := (List.range k).foldl
      (fun v i => v - (binomialCoefficient k (i + 1) * (CKw (i + 1)).2 : K) • CK.getD (k - (i + 1)) 0) (CKw k).1
    CK ++ [((1 : K) / (CKw 0).2) • v]

/-- nurbs/core.pyx:726-764 `derivatives_curve_rational`: `CK[0], …, CK[order]`. -/
def derivativesCurveRational [LinearOrder K] (degree : ℕ) (U : ℕ → K) (ctrlptsw : ℕ → V × K) (size : ℕ) (u : K) (order : ℕ) :
    List V :=
  rationalDerivs (derivativesCurve degree U ctrlptsw size u order) (order + 1)

/-- nurbs/core.pyx:876-935 `derivatives_surface_c` (Algorithm A3.6): `SKL[k][l]`, control points in one array, row
after row; zero beyond the degrees. -/
def derivativesSurface [LinearOrder K] (pu pv : ℕ) (Uu Uv : ℕ → K) (ctrlpts : ℕ → V) (su sv : ℕ) (u v : K) (order k l : ℕ) : V :=
  let du := min pu order
  let dv := min pv order
  let spanU := findSpanLinear pu Uu su u
  let spanV := findSpanLinear pv Uv sv v
  let bu := basisFunctionDers pu Uu spanU u du
  let bv := basisFunctionDers pv Uv spanV v dv
  let temp := fun s => (List.range (pu + 1)).foldl
    (fun t r => t + bu k r • ctrlpts ((spanV - pv + s) + sv * (spanU - pu + r))) 0
  if k ≤ du ∧ l ≤ min order dv then (List.range (pv + 1)).foldl (fun t s => t + bv l s • temp s) 0 else 0

/-- nurbs/core.pyx:976-1001, the inner block of `derivatives_surface_rational` (Algorithm A4.4): the value
`SKL[k][l]` from the homogeneous derivatives `SKLw` and the values computed before (`SKL`). -/
def rationalSurfaceStep [LinearOrder K] (w : ℕ → ℕ → V × K) (SKL : ℕ → ℕ → V) (k l : ℕ) : V :=
  let v0 := (w k l).1
  let v1 := (List.range l).foldl (fun v j => v - (binomialCoefficient l (j + 1) * (w 0 (j + 1)).2 : K) • SKL k (l - (j + 1))) v0
  let v2 := (List.range k).foldl (fun v i =>
    let v := v - (binomialCoefficient k (i + 1) * (w (i + 1) 0).2 : K) • SKL (k - (i + 1)) l
    let s := (List.range l).foldl
      (fun s j => s + (binomialCoefficient l (j + 1) * (w (i + 1) (j + 1)).2 : K) • SKL (k - (i + 1)) (l - (j + 1))) 0
    v - (binomialCoefficient k (i + 1) : K) • s) v1
  (w 0 0).2⁻¹ • v2

/-- nurbs/core.pyx:975-1003, the loop over `li` for one `k`: the array `SKL` after `l` iterations. -/
def rationalSurfaceRow [LinearOrder K] (w : ℕ → ℕ → V × K) (SKL : ℕ → ℕ → V) (k : ℕ) : ℕ → ℕ → ℕ → V
  | 0 => SKL
  | l + 1 =>
    let S := rationalSurfaceRow w SKL k l
    fun k' l' => if k' = k ∧ l' = l then rationalSurfaceStep w S k l else S k' l'

/-- nurbs/core.pyx:974-1003, the loop over `k`: the array `SKL` (initialised with zeros) after `k` iterations. -/
def rationalSurfaceLoop [LinearOrder K] (w : ℕ → ℕ → V × K) (order : ℕ) : ℕ → ℕ → ℕ → V
  | 0 => fun _ _ => 0
  | k + 1 => rationalSurfaceRow w (rationalSurfaceLoop w order k) k (order + 1)

/-- nurbs/core.pyx:940-1005 `derivatives_surface_rational`: `SKL[k][l]`. -/
def derivativesSurfaceRational [LinearOrder K] (pu pv : ℕ) (Uu Uv : ℕ → K) (ctrlptsw : ℕ → V × K) (su sv : ℕ) (u v : K) (order : ℕ) :
    ℕ → ℕ → V :=
  rationalSurfaceLoop (derivativesSurface pu pv Uu Uv ctrlptsw su sv u v order) order (order + 1)

end

section
variable {K : Type*} [Field K] [LinearOrder K]

/-- nurbs/core.pyx:464-489, the table `N[j][k]` of `basis_function_ders_one`: column `k` is computed from column
`k - 1` as in `basis_function_one` (entries never written stay `0.0`). -/
def dersOneTable (degree : ℕ) (U : ℕ → K) (span : ℕ) (u : K) (j k : ℕ) : K :=
  if j ≤ degree - k ∧ k ≤ degree then basisOneOuter degree U span u k j else 0

/-- nurbs/core.pyx:507-526, the loop over `j` at stage `jj` of order `k`: state (`ND`, `saved`) after `j`
iterations. -/
def dersOneInner (degree : ℕ) (U : ℕ → K) (span k jj : ℕ) (ND : ℕ → K) : ℕ → (ℕ → K) × K
  | 0 => (ND, if ND 0 = 0 then 0 else ND 0 / (U (span + degree - k + jj) - U span))
  | j + 1 =>
    let s := dersOneInner degree U span k jj ND j
    let Uleft := U (span + j + 1)
    let Uright := U (span + j + degree - k + jj + 1)
    if s.1 (j + 1) = 0 then (Function.update s.1 j (((degree - k + jj : ℕ) : K) * s.2), 0)
    else
      let temp := s.1 (j + 1) / (Uright - Uleft)
      (Function.update s.1 j (((degree - k + jj : ℕ) : K) * (s.2 - temp)), temp)

/-- nurbs/core.pyx:497-526, the buffer `ND` after the stages `1, …, jj` of order `k`. -/
def dersOneOuter (degree : ℕ) (U : ℕ → K) (span : ℕ) (u : K) (k : ℕ) : ℕ → ℕ → K
  | 0 => fun j => dersOneTable degree U span u j (degree - k)
  | jj + 1 => (dersOneInner degree U span k (jj + 1) (dersOneOuter degree U span u k jj) (k - (jj + 1) + 1)).1

/-- nurbs/core.pyx:433-530 `basis_function_ders_one` (Algorithm A2.5), `ders[k]` (`order ≤ degree`; for a larger
order the Python lists raise an IndexError). -/
def basisFunctionDersOne (degree : ℕ) (U : ℕ → K) (span : ℕ) (u : K) (k : ℕ) : K :=
  if u < U span ∨ U (span + degree + 1) ≤ u then 0
  else if k = 0 then dersOneTable degree U span u 0 degree
  else dersOneOuter degree U span u k k 0

/-- surfaces.py:7464-7486 `basis_functions_u`, 7488-7508 `basis_functions_v`: the recursive basis functions of a
surface. -/
def recBasis (U : ℕ → K) (u : K) : ℕ → ℕ → K
  | 0, i => if U i ≤ u ∧ u < U (i + 1) then 1 else 0
  | k + 1, i =>
    let c1 := if U (i + (k + 1)) = U i then 0 else (u - U i) / (U (i + (k + 1)) - U i) * recBasis U u k i
    let c2 := if U (i + (k + 1) + 1) = U (i + 1) then 0
      else (U (i + (k + 1) + 1) - u) / (U (i + (k + 1) + 1) - U (i + 1)) * recBasis U u k (i + 1)
    c1 + c2

/-- surfaces.py:7534-7543 `blending_vector_u`, 7545-7555 `blending_vector_v`. -/
def blendingVector (degree n : ℕ) (U : ℕ → K) (u : K) : List K := (List.range n).map (recBasis U u degree)

end
end Volmdlr
