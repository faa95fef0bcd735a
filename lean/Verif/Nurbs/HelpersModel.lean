import Verif.Nurbs.CurveModel
import Mathlib.Algebra.BigOperators.Group.List.Basic

/-!
# Model of `volmdlr/nurbs/helpers.pyx`

Matrices are functions of two indices, lists of coordinates are functions of one index; the sizes are
parameters.  Rounding to 18 decimals is not modelled.
-/

namespace Volmdlr
section
variable {K : Type*} [Field K] [LinearOrder K]

/-- nurbs/helpers.pyx:24-25, the loop of `binomial_coefficient`. -/
def binomialLoop (k i : ℕ) : ℕ → K
  | 0 => 1
  | j + 1 => binomialLoop k i j * (((k - j : ℕ) : K) / ((i - j : ℕ) : K))

/-- nurbs/helpers.pyx:12-26 `binomial_coefficient`. -/
def binomialCoefficient (k i : ℕ) : K :=
  if k < i then 0
  else if i = 0 ∨ i = k then 1
  else binomialLoop k i i

/-- nurbs/helpers.pyx:35-65 `linspace` (without the rounding). -/
def linspace (start stop : K) (num : ℕ) : List K :=
  if |start - stop| ≤ 1 / 10 ^ 7 then [start]
  else (List.range num).map fun x : ℕ => start + (x : K) * (stop - start) / ((num - 1 : ℕ) : K)

/-- nurbs/helpers.pyx:70-124 `generate_knot_vector`; `none` is the `ValueError`.  For `num_ctrlpts > degree`
(otherwise the C integers `num_segments` become negative). -/
def generateKnotVector (degree n : ℕ) (clamped : Bool) : Option (List K) :=
  if degree = 0 ∨ n = 0 then none
  else
    let numRepeat := if clamped then degree else 0
    let numSegments := if clamped then n - (degree + 1) else degree + n - 1
    some (List.replicate numRepeat 0 ++ linspace 0 1 (numSegments + 2) ++ List.replicate numRepeat 1)

/-- nurbs/helpers.pyx:143-160 `insert_knots_and_mutiplicity`, the loop: knots and multiplicities still to be
read, index of the next one; the third component is the index returned. -/
def insertKnotsMult (x : K) (num : ℕ) : List K → List ℕ → ℕ → List K × List ℕ × ℕ
  | knot :: ks, m :: ms, i =>
    if x < knot then (x :: knot :: ks, num :: m :: ms, i)
    else if ks.isEmpty then ([knot], [m], i)
    else
      let r := insertKnotsMult x num ks ms (i + 1)
      (knot :: r.1, m :: r.2.1, r.2.2)
  | _, _, i => ([], [], i)

/-! ### linear systems -/

/-- Assignment `M[a][b] = v`. -/
def upd2 (M : ℕ → ℕ → K) (a b : ℕ) (v : K) : ℕ → ℕ → K := fun r c => if r = a ∧ c = b then v else M r c

/-- The sum of a Python list comprehension `sum([f(j) for j in range(0, i)])`. -/
def pysum (i : ℕ) (f : ℕ → K) : K := ((List.range i).map f).sum

/-- nurbs/helpers.pyx:178-189, the body of the loops of `doolittle`, on the pair (`matrix_l`, `matrix_u`). -/
def dooStep (A : ℕ → ℕ → K) (i : ℕ) (LU : (ℕ → ℕ → K) × (ℕ → ℕ → K)) (k : ℕ) : (ℕ → ℕ → K) × (ℕ → ℕ → K) :=
  let U := upd2 LU.2 i k (A i k - pysum i fun j => LU.1 i j * LU.2 j k)
  if i = k then (upd2 LU.1 i i 1, U)
  else
    let v := A k i - pysum i fun j => LU.1 k j * U j i
    if U i i ≠ 0 then (upd2 LU.1 k i (v / U i i), U) else (upd2 LU.1 k i 0, U)

/-- nurbs/helpers.pyx:177: the loop over `k in range(i, len(matrix_a))`, after `m` iterations. -/
def dooRow (A : ℕ → ℕ → K) (i : ℕ) (LU : (ℕ → ℕ → K) × (ℕ → ℕ → K)) : ℕ → (ℕ → ℕ → K) × (ℕ → ℕ → K)
  | 0 => LU
  | m + 1 => dooStep A i (dooRow A i LU m) (i + m)

/-- nurbs/helpers.pyx:176: the loop over `i`, after `i` iterations, for a matrix of size `n`. -/
def doolittle (A : ℕ → ℕ → K) (n : ℕ) : ℕ → (ℕ → ℕ → K) × (ℕ → ℕ → K)
  | 0 => (fun _ _ => 0, fun _ _ => 0)
  | i + 1 => dooRow A i (doolittle A n i) (n - i)

/-- nurbs/helpers.pyx:194-217 `lu_decomposition` of a list of rows; `none` is the `ValueError` for a matrix
that is not square. -/
def luDecomposition (A : List (List K)) : Option ((ℕ → ℕ → K) × (ℕ → ℕ → K)) :=
  if A.all (fun row => row.length == A.length) then
    some (doolittle (fun i j => (A.getD i []).getD j 0) A.length A.length)
  else none

/-- nurbs/helpers.pyx:235-238, `matrix_y` after `i` rows. -/
def forwardSub (L : ℕ → ℕ → K) (b : ℕ → K) : ℕ → ℕ → K
  | 0 => fun _ => 0
  | i + 1 =>
    let y := forwardSub L b i
    Function.update y i ((b i - pysum i fun j => L i j * y j) / L i i)

/-- nurbs/helpers.pyx:256-260, `matrix_x` after the rows `q-1, …, q-m`.  The first assignment is the case of an
empty sum, the sum in the loop starts at `j = i` where `matrix_x[i]` is still 0. -/
def backwardSub (U : ℕ → ℕ → K) (y : ℕ → K) (q : ℕ) : ℕ → ℕ → K
  | 0 => fun _ => 0
  | m + 1 =>
    let x := backwardSub U y q m
    let i := q - (m + 1)
    Function.update x i ((y i - pysum (q - i) fun j => U i (i + j) * x (i + j)) / U i i)

end
end Volmdlr
