import Verif.Nurbs.Model

/-!
# Model of knot insertion (`volmdlr/nurbs/operations.py`)
-/

namespace Volmdlr
section
variable {K : Type*} [Field K] [LinearOrder K] {V : Type*} [AddCommGroup V] [Module K V]

/-- Reading a knot vector given as a list.  Out-of-range reads (undefined in the Cython code, an error in
Python) give the last knot; no theorem depends on them. -/
def kvFun (kv : List K) (i : ℕ) : K := kv.getD i (kv.getLastD 0)

/-- Reading a control point list (0 out of range). -/
def cpFun (cp : List V) (i : ℕ) : V := cp.getD i 0

/-- Python slice assignment `l[a:b] = r` for `0 ≤ a`. -/
def sliceAssign {α : Type*} (l : List α) (a b : ℕ) (r : List α) : List α := l.take a ++ r ++ l.drop (max a b)

/-- nurbs/operations.py:76-94 `knot_insertion_alpha`. -/
def knotInsertionAlpha (u : K) (U : ℕ → K) (span idx leg : ℕ) : K :=
  (u - U (leg + idx)) / (U (idx + span + 1) - U (leg + idx))

/-- nurbs/operations.py:61-63, the loop over `i` at round `j`: the array `temp` after `i` iterations. -/
def insTemp (u : K) (U : ℕ → K) (span leg : ℕ) (temp : ℕ → V) : ℕ → ℕ → V
  | 0 => temp
  | i + 1 =>
    let t := insTemp u U span leg temp i
    let alpha := knotInsertionAlpha u U span i leg
    Function.update t i (alpha • t (i + 1) + (1 - alpha) • t i)

/-- nurbs/operations.py:59-66, the loop over `j`: (`temp`, `ctrlpts_new`) after `j` rounds.
`range(degree - j - s + 1)` is `degree + 1 - j - s` iterations. -/
def insLoop (p : ℕ) (U : ℕ → K) (u : K) (num s span : ℕ) (temp : ℕ → V) (new : List V) : ℕ → (ℕ → V) × List V
  | 0 => (temp, new)
  | j + 1 =>
    let st := insLoop p U u num s span temp new j
    let leg := span - p + (j + 1)
    let t := insTemp u U span leg st.1 (p + 1 - (j + 1) - s)
    (t, (st.2.set leg (t 0)).set (span + num - (j + 1) - s) (t (p - (j + 1) - s)))

/-- nurbs/operations.py:11-73 `knot_insertion` (for `num + s ≤ degree`, which `insert_knot_curve` checks, so
that no index is negative). -/
def knotInsertion (p : ℕ) (kv : List K) (ctrlpts : List V) (u : K) (num s span : ℕ) : List V :=
  let new0 : List V := List.replicate (ctrlpts.length + num) 0
  let new1 := sliceAssign new0 0 (span - p + 1) (ctrlpts.take (span - p + 1))
  let new2 := sliceAssign new1 (span - s + num) new1.length (ctrlpts.drop (span - s))
  let temp : ℕ → V := fun i => if i < p - s + 1 then cpFun ctrlpts (span - p + i) else 0
  let st := insLoop p (kvFun kv) u num s span temp new2 num
  let leg := span - p + num
  sliceAssign st.2 (leg + 1) (span - s) ((List.range (span - s - leg)).map fun i => st.1 (i + 1))

/-- nurbs/operations.py:97-126 `knot_insertion_kv`. -/
def knotInsertionKv (kv : List K) (u : K) (span num : ℕ) : List K :=
  kv.take (span + 1) ++ List.replicate num u ++ kv.drop (span + 1)

/-- nurbs/operations.py:729-737 `get_knots_and_multiplicities`; `numpy.unique` sorts and removes duplicates,
on a sorted vector it is `dedup`. -/
def getKnotsAndMultiplicities (tol : K) (kv : List K) : List K × List ℕ :=
  (kv.dedup, kv.dedup.map fun k => findMultiplicity tol k kv)

/-- edges.py:921-925 `knotvector`: `numpy.repeat(knots, multiplicities)`. -/
def repeatKnots (knots : List K) (mults : List ℕ) : List K :=
  (knots.zip mults).flatMap fun km => List.replicate km.2 km.1

end
end Volmdlr
