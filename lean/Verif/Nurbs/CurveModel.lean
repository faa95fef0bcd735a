import Verif.Nurbs.InsertModel

/-!
# Model of `BSplineCurve` (`volmdlr/edges.py`) and of the curve operations of `volmdlr/nurbs/operations.py`

`V` is the space of the control points (2D or 3D).  The formatting of knots and parameters with 18 decimals is
not modelled (exact arithmetic).  The subclass `BezierCurve` is not modelled here.
-/

namespace Volmdlr
section
variable {K : Type*} [Field K] [LinearOrder K] {V : Type*} [AddCommGroup V] [Module K V]

/-- nurbs/helpers.pyx:127-140 `standardize_knot_vector` (without the formatting to 18 decimals). -/
def standardizeKnotVector (kv : List K) : List K :=
  kv.map fun k => (k - kv.headD 0) / (kv.getLastD 0 - kv.headD 0)

/-- edges.py:852-881: the attributes of a `BSplineCurve` (`rational` is `weights is not None`). -/
structure BCurve (K V : Type*) where
  degree : ℕ
  ctrlpts : List V
  mults : List ℕ
  knots : List K
  weights : Option (List K)
deriving DecidableEq

namespace BCurve

/-- edges.py:852-875 `BSplineCurve.__init__`: the knots are standardised; weights that are all zero are
dropped (`weights.any()`). -/
def new (degree : ℕ) (ctrlpts : List V) (mults : List ℕ) (knots : List K) (weights : Option (List K)) : BCurve K V :=
  { degree, ctrlpts, mults
    knots := standardizeKnotVector knots
    weights := match weights with
      | none => none
      | some w => if w.any (fun a => a ≠ 0) then some w else none }

/-- edges.py:921-925 `knotvector`. -/
def knotvector (c : BCurve K V) : List K := repeatKnots c.knots c.mults

/-- edges.py:869: `ctrlptsw`. -/
def ctrlptsw (ctrlpts : List V) (w : List K) : List (V × K) := List.zipWith (fun P a => (a • P, a)) ctrlpts w

/-- edges.py:1124-1134 `evaluate_single` (for `evaluate_curve(self.data, u, u)` the only sample is `u`). -/
def eval (c : BCurve K V) (u : K) : V :=
  match c.weights with
  | none => curvePoint c.degree (kvFun c.knotvector) (cpFun c.ctrlpts) c.ctrlpts.length u
  | some w => curvePointRational c.degree (kvFun c.knotvector) (cpFun (ctrlptsw c.ctrlpts w)) c.ctrlpts.length u

/-- nurbs/operations.py:655-674 `separate_ctrlpts_weights`. -/
def separate (l : List (V × K)) : List V × List K := (l.map fun q => q.2⁻¹ • q.1, l.map fun q => q.2)

/-- nurbs/operations.py:129-190 `insert_knot_curve(obj, [x], [num], check_num)`; `none` is the `ValueError`.
`tol` is the `1e-15` of `find_multiplicity`. -/
def insertKnot (tol : K) (c : BCurve K V) (x : K) (num : ℕ) (check : Bool) : Option (BCurve K V) :=
  if num = 0 then some c
  else
    let kv := c.knotvector
    let s := findMultiplicity tol x kv
    if check = true ∧ c.degree < num + s then none
    else
      let span := findSpanLinear c.degree (kvFun kv) c.ctrlpts.length x
      let km := getKnotsAndMultiplicities tol (knotInsertionKv kv x span num)
      match c.weights with
      | none => some (new c.degree (knotInsertion c.degree kv c.ctrlpts x num s span) km.2 km.1 none)
      | some w =>
        let q := separate (knotInsertion c.degree kv (ctrlptsw c.ctrlpts w) x num s span)
        some (new c.degree q.1 km.2 km.1 (some q.2))

/-- nurbs/operations.py:193-250 `split_curve` (with `helper_split_knot_vectors` 720-727 and
`construct_split_curve` 229-250); `none` is the `ValueError` at a domain end.  The number of insertions
`degree - multiplicity` is not negative for the curves considered. -/
def split (tol : K) (c : BCurve K V) (x : K) : Option (BCurve K V × BCurve K V) :=
  let kv := c.knotvector
  let n := c.ctrlpts.length
  if x = kvFun kv c.degree ∨ x = kvFun kv (kv.length - (c.degree + 1)) then none
  else
    let s := findMultiplicity tol x kv
    let count := c.degree - s
    let knotSpan := findSpanLinear c.degree (kvFun kv) n x - c.degree + 1
    match insertKnot tol c x count false with
    | none => none
    | some t =>
      let spanNew := findSpanLinear t.degree (kvFun t.knotvector) t.ctrlpts.length x + 1
      let kv1 := t.knotvector.take spanNew ++ [x]
      let kv2 := List.replicate (t.degree + 1) x ++ t.knotvector.drop spanNew
      let km1 := getKnotsAndMultiplicities tol kv1
      let km2 := getKnotsAndMultiplicities tol kv2
      some (new t.degree (t.ctrlpts.take (knotSpan + count)) km1.2 km1.1 (t.weights.map (·.take (knotSpan + count))),
        new t.degree (t.ctrlpts.drop (knotSpan + count - 1)) km2.2 km2.1
          (t.weights.map (·.drop (knotSpan + count - 1))))

/-- edges.py:1198-1211 `get_reverse` (the weights are passed in the same order). -/
def reverse (c : BCurve K V) : BCurve K V :=
  new c.degree c.ctrlpts.reverse c.mults.reverse c.knots.reverse c.weights

end BCurve
end
end Volmdlr
