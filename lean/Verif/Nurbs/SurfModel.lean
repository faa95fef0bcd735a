import Verif.Nurbs.CurveModel

/-!
# Model of `BSplineSurface3D` and of the surface operations of `volmdlr/nurbs/operations.py`;
# `decompose_curve` and `link_curves`

The control points are stored row after row: the point of indices `(i, j)` (`i` along u, `j` along v) is number
`j + nb_v * i`.  The formatting of parameters with 18 decimals is not modelled (exact arithmetic).
-/

namespace Volmdlr
section
variable {K : Type*} [Field K] [LinearOrder K] {V : Type*} [AddCommGroup V] [Module K V]

/-! ### curves -/

namespace BCurve

/-- nurbs/operations.py:812, 820 `curve.knotvector[curve.degree + 1:-(curve.degree + 1)]`. -/
def innerKnots (p : ℕ) (kv : List K) : List K := (kv.take (kv.length - (p + 1))).drop (p + 1)

/-- nurbs/operations.py:816-830, the `while knots.any()` loop of `decompose_curve` with `return_params`; `none` when
the fuel is used up or a split is refused. -/
def decomposeLoop (tol : K) : ℕ → BCurve K V → K → K → Option (List (BCurve K V × K × K))
  | 0, _, _, _ => none
  | fuel + 1, curve, start, umax =>
    let knots := innerKnots curve.degree curve.knotvector
    if knots.any (fun a => a ≠ 0) then
      let knot := knots.headD 0
      match curve.split tol knot with
      | none => none
      | some (c1, c2) =>
        let umax0 := knot * (umax - start) + start
        (decomposeLoop tol fuel c2 umax0 umax).map fun l => (c1, start, umax0) :: l
    else some [(curve, start, umax)]

/-- nurbs/operations.py:792-830 `decompose_curve(obj, return_params=True)` without `number_max_patches`
(edges.py:1077-1089 `BSplineCurve.decompose(True)`): the Bézier patches with their parameters. -/
def decompose (tol : K) (fuel : ℕ) (c : BCurve K V) : Option (List (BCurve K V × K × K)) :=
  decomposeLoop tol fuel c (kvFun c.knotvector c.degree)
    (kvFun c.knotvector (c.knotvector.length - (c.degree + 1)))

/-- nurbs/operations.py:932-935: two consecutive curves touch; `close` stands for "not farther than `tol`". -/
def touches (close : V → V → Bool) : List (BCurve K V) → Bool
  | a :: b :: l => close (a.ctrlpts.getLastD 0) (b.ctrlpts.headD 0) && touches close (b :: l)
  | _ => true

/-- nurbs/operations.py:949-953 the weights of a curve in `link_curves`. -/
def linkWeights (c : BCurve K V) : List K :=
  match c.weights with
  | none => List.replicate c.ctrlpts.length 1
  | some w => w

/-- nurbs/operations.py:943-966, the loop of `link_curves` after its first round: (`knotvector`, `cpts`, `wgts`,
`pdomain_end`). -/
def linkLoop : List (BCurve K V) → List K × List V × List K × K → List K × List V × List K × K
  | [], st => st
  | c :: l, (kv, cp, w, e) =>
    let kvc := c.knotvector
    linkLoop l (kv ++ ((kvc.take (kvc.length - (c.degree + 1))).drop 1).map (fun k => e + k),
      cp ++ c.ctrlpts.drop 1, w ++ (linkWeights c).drop 1, e + kvc.getLastD 0)

/-- nurbs/operations.py:919-969 `link_curves` and edges.py:1507-1517 `merge_with_curves`: the merged curve of the
class and degree of the first one; `none` is the `ValueError`.  (The weights are dropped when they are all 1; a
knot vector is not empty after the first round as a curve has more than `degree + 1` knots.) -/
def mergeWith (tol : K) (close : V → V → Bool) (c : BCurve K V) (l : List (BCurve K V)) : Option (BCurve K V) :=
  if touches close (c :: l) then
    let kvc := c.knotvector
    let st := linkLoop l (kvc.take (kvc.length - (c.degree + 1)), c.ctrlpts, linkWeights c, kvc.getLastD 0)
    let last := (c :: l).getLastD c
    let kv := st.1 ++ List.replicate (last.degree + 1) st.2.2.2
    let wgts := if st.2.2.1.all (fun a => a = 1) then [] else st.2.2.1
    let km := getKnotsAndMultiplicities tol kv
    some (new c.degree st.2.1 km.2 km.1 (some wgts))
  else none

end BCurve

/-! ### surfaces -/

/-- surfaces.py:6838-6880: the attributes of a `BSplineSurface3D` (`rational` is `weights is not None`). -/
structure BSurf (K V : Type*) where
  degreeU : ℕ
  degreeV : ℕ
  ctrlpts : List V
  nbU : ℕ
  nbV : ℕ
  uMults : List ℕ
  vMults : List ℕ
  uKnots : List K
  vKnots : List K
  weights : Option (List K)
deriving DecidableEq

/-- A list of control points from row to row: nurbs/operations.py:291-296 the column of index `v`. -/
def netCol (cpts : List V) (nbU nbV v : ℕ) : List V := (List.range nbU).map fun u => cpFun cpts (v + nbV * u)

/-- nurbs/operations.py:324-328 the row of index `u`. -/
def netRow (cpts : List V) (nbV u : ℕ) : List V := (List.range nbV).map fun v => cpFun cpts (v + nbV * u)

/-- nurbs/operations.py:677-700 `flip_ctrlpts_u`. -/
def flipU (l : List V) (sizeU sizeV : ℕ) : List V :=
  (List.range sizeU).flatMap fun i => (List.range sizeV).map fun j => cpFun l (i + j * sizeU)

/-- nurbs/operations.py:288-301 and 372-384 the control points after inserting a knot in the u direction. -/
def insertNetU (p : ℕ) (kv : List K) (cpts : List V) (nbU nbV : ℕ) (x : K) (num s span : ℕ) : List V :=
  flipU ((List.range nbV).flatMap fun v => knotInsertion p kv (netCol cpts nbU nbV v) x num s span) (nbU + num) nbV

/-- nurbs/operations.py:322-329 and 415-423 the control points after inserting a knot in the v direction. -/
def insertNetV (p : ℕ) (kv : List K) (cpts : List V) (nbU nbV : ℕ) (x : K) (num s span : ℕ) : List V :=
  (List.range nbU).flatMap fun u => knotInsertion p kv (netRow cpts nbV u) x num s span

/-- surfaces.py:7422-7427 `ctrlpts2d`: the rows. -/
def netRows (cpts : List V) (nbU nbV : ℕ) : List (List V) := (List.range nbU).map fun u => netRow cpts nbV u

namespace BSurf

/-- surfaces.py:6838-6857 `BSplineSurface3D.__init__`: the knots are standardised. -/
def new (degreeU degreeV : ℕ) (ctrlpts : List V) (nbU nbV : ℕ) (uMults vMults : List ℕ) (uKnots vKnots : List K)
    (weights : Option (List K)) : BSurf K V :=
  { degreeU, degreeV, ctrlpts, nbU, nbV, uMults, vMults
    uKnots := standardizeKnotVector uKnots
    vKnots := standardizeKnotVector vKnots
    weights }

/-- surfaces.py:6978-6984 `knots_vector_u`. -/
def kvU (s : BSurf K V) : List K := repeatKnots s.uKnots s.uMults
/-- surfaces.py:6986-6992 `knots_vector_v`. -/
def kvV (s : BSurf K V) : List K := repeatKnots s.vKnots s.vMults

/-- surfaces.py:7594-7606 `point2d_to_3d`: the point of parameters `(u, v)` (the code first clamps the parameters to the
domain; this is for parameters within it). -/
def eval (s : BSurf K V) (u v : K) : V :=
  match s.weights with
  | none => surfacePoint s.degreeU s.degreeV (kvFun s.kvU) (kvFun s.kvV) (cpFun s.ctrlpts) s.nbU s.nbV u v
  | some w => surfacePointRational s.degreeU s.degreeV (kvFun s.kvU) (kvFun s.kvV)
      (cpFun (BCurve.ctrlptsw s.ctrlpts w)) s.nbU s.nbV u v

/-- nurbs/operations.py:271-308, the u part of `insert_knot_surface`; `none` is the `ValueError`. -/
def insertU (tol : K) (s : BSurf K V) (x : K) (num : ℕ) (check : Bool) : Option (BSurf K V) :=
  if num = 0 then some s
  else
    let kv := s.kvU
    let m := findMultiplicity tol x kv
    if check = true ∧ s.degreeU < num + m then none
    else
      let span := findSpanLinear s.degreeU (kvFun kv) s.nbU x
      let km := getKnotsAndMultiplicities tol (knotInsertionKv kv x span num)
      match s.weights with
      | none => some (new s.degreeU s.degreeV (insertNetU s.degreeU kv s.ctrlpts s.nbU s.nbV x num m span)
          (s.nbU + num) s.nbV km.2 s.vMults km.1 s.vKnots none)
      | some w =>
        let q := BCurve.separate (insertNetU s.degreeU kv (BCurve.ctrlptsw s.ctrlpts w) s.nbU s.nbV x num m span)
        some (new s.degreeU s.degreeV q.1 (s.nbU + num) s.nbV km.2 s.vMults km.1 s.vKnots (some q.2))

/-- nurbs/operations.py:309-341, the v part of `insert_knot_surface`; `none` is the `ValueError`. -/
def insertV (tol : K) (s : BSurf K V) (x : K) (num : ℕ) (check : Bool) : Option (BSurf K V) :=
  if num = 0 then some s
  else
    let kv := s.kvV
    let m := findMultiplicity tol x kv
    if check = true ∧ s.degreeV < num + m then none
    else
      let span := findSpanLinear s.degreeV (kvFun kv) s.nbV x
      let km := getKnotsAndMultiplicities tol (knotInsertionKv kv x span num)
      match s.weights with
      | none => some (new s.degreeU s.degreeV (insertNetV s.degreeV kv s.ctrlpts s.nbU s.nbV x num m span)
          s.nbU (s.nbV + num) s.uMults km.2 s.uKnots km.1 none)
      | some w =>
        let q := BCurve.separate (insertNetV s.degreeV kv (BCurve.ctrlptsw s.ctrlpts w) s.nbU s.nbV x num m span)
        some (new s.degreeU s.degreeV q.1 s.nbU (s.nbV + num) s.uMults km.2 s.uKnots km.1 (some q.2))

/-- nurbs/operations.py:254-341 `insert_knot_surface(obj, [x, y], [num_x, num_y])`; a parameter is `None` when no
knot is to be inserted in this direction. -/
def insertKnot (tol : K) (s : BSurf K V) (x y : Option K) (numX numY : ℕ) (check : Bool) : Option (BSurf K V) :=
  (match x with
    | none => some s
    | some a => insertU tol s a numX check).bind fun t : BSurf K V =>
  match y with
    | none => some t
    | some b => insertV tol t b numY check

/-- nurbs/operations.py:740-789 `construct_split_surfaces` for `direction == "u"`; `m` is
`knot_span + insertion_count`. -/
def constructSplitU (tol : K) (t : BSurf K V) (kv1 kv2 : List K) (m : ℕ) : BSurf K V × BSurf K V :=
  let km1 := getKnotsAndMultiplicities tol kv1
  let km2 := getKnotsAndMultiplicities tol kv2
  match t.weights with
  | none =>
    let rows := netRows t.ctrlpts t.nbU t.nbV
    (new t.degreeU t.degreeV (rows.take m).flatten m t.nbV km1.2 t.vMults km1.1 t.vKnots none,
      new t.degreeU t.degreeV (rows.drop (m - 1)).flatten (t.nbU - (m - 1)) t.nbV km2.2 t.vMults km2.1 t.vKnots none)
  | some w =>
    let rows := netRows (BCurve.ctrlptsw t.ctrlpts w) t.nbU t.nbV
    let q1 := BCurve.separate (rows.take m).flatten
    let q2 := BCurve.separate (rows.drop (m - 1)).flatten
    (new t.degreeU t.degreeV q1.1 m t.nbV km1.2 t.vMults km1.1 t.vKnots (some q1.2),
      new t.degreeU t.degreeV q2.1 (t.nbU - (m - 1)) t.nbV km2.2 t.vMults km2.1 t.vKnots (some q2.2))

/-- nurbs/operations.py:740-789 `construct_split_surfaces` for `direction == "v"`. -/
def constructSplitV (tol : K) (t : BSurf K V) (kv1 kv2 : List K) (m : ℕ) : BSurf K V × BSurf K V :=
  let km1 := getKnotsAndMultiplicities tol kv1
  let km2 := getKnotsAndMultiplicities tol kv2
  match t.weights with
  | none =>
    let rows := netRows t.ctrlpts t.nbU t.nbV
    (new t.degreeU t.degreeV (rows.flatMap fun r : List V => r.take m) t.nbU m t.uMults km1.2 t.uKnots km1.1 none,
      new t.degreeU t.degreeV (rows.flatMap fun r : List V => r.drop (m - 1)) t.nbU (t.nbV - (m - 1)) t.uMults km2.2
        t.uKnots km2.1 none)
  | some w =>
    let rows := netRows (BCurve.ctrlptsw t.ctrlpts w) t.nbU t.nbV
    let q1 := BCurve.separate (rows.flatMap fun r : List (V × K) => r.take m)
    let q2 := BCurve.separate (rows.flatMap fun r : List (V × K) => r.drop (m - 1))
    (new t.degreeU t.degreeV q1.1 t.nbU m t.uMults km1.2 t.uKnots km1.1 (some q1.2),
      new t.degreeU t.degreeV q2.1 t.nbU (t.nbV - (m - 1)) t.uMults km2.2 t.uKnots km2.1 (some q2.2))

/-- nurbs/operations.py:570-610 `split_surface_u` (with `helper_split_knot_vectors` 720-727); `none` is the
`ValueError` at an end of the domain. -/
def splitU (tol : K) (s : BSurf K V) (x : K) : Option (BSurf K V × BSurf K V) :=
  let kv := s.kvU
  if x = kvFun kv s.degreeU ∨ x = kvFun kv (kv.length - (s.degreeU + 1)) then none
  else
    let count := s.degreeU - findMultiplicity tol x kv
    let knotSpan := findSpanLinear s.degreeU (kvFun kv) s.nbU x - s.degreeU + 1
    match insertU tol s x count false with
    | none => none
    | some t =>
      let spanNew := findSpanLinear t.degreeU (kvFun t.kvU) t.nbU x + 1
      some (constructSplitU tol t (t.kvU.take spanNew ++ [x])
        (List.replicate (t.degreeU + 1) x ++ t.kvU.drop spanNew) (knotSpan + count))

/-- nurbs/operations.py:613-652 `split_surface_v`. -/
def splitV (tol : K) (s : BSurf K V) (x : K) : Option (BSurf K V × BSurf K V) :=
  let kv := s.kvV
  if x = kvFun kv s.degreeV ∨ x = kvFun kv (kv.length - (s.degreeV + 1)) then none
  else
    let count := s.degreeV - findMultiplicity tol x kv
    let knotSpan := findSpanLinear s.degreeV (kvFun kv) s.nbV x - s.degreeV + 1
    match insertV tol s x count false with
    | none => none
    | some t =>
      let spanNew := findSpanLinear t.degreeV (kvFun t.kvV) t.nbV x + 1
      some (constructSplitV tol t (t.kvV.take spanNew ++ [x])
        (List.replicate (t.degreeV + 1) x ++ t.kvV.drop spanNew) (knotSpan + count))

/-- nurbs/operations.py:477-520 `extract_surface_curve_u`; `none` is the `ValueError`. -/
def extractU (tol : K) (s : BSurf K V) (x : K) : Option (BCurve K V) :=
  let kv := s.kvU
  if x = kvFun kv s.degreeU ∨ x = kvFun kv (kv.length - (s.degreeU + 1)) then none
  else
    let m := findMultiplicity tol x kv
    let count := s.degreeU - m
    let span := findSpanLinear s.degreeU (kvFun kv) s.nbU x
    let knotSpan := span - s.degreeU + 1
    match s.weights with
    | none =>
      let net := insertNetU s.degreeU kv s.ctrlpts s.nbU s.nbV x count m span
      some (BCurve.new s.degreeU
        ((((netRows net (s.nbU + count) s.nbV).drop (knotSpan + count - 1)).flatten).take s.nbV) s.uMults s.uKnots none)
    | some w =>
      let net := insertNetU s.degreeU kv (BCurve.ctrlptsw s.ctrlpts w) s.nbU s.nbV x count m span
      let q := BCurve.separate
        ((((netRows net (s.nbU + count) s.nbV).drop (knotSpan + count - 1)).flatten).take s.nbV)
      some (BCurve.new s.degreeU q.1 s.uMults s.uKnots (some q.2))

/-- nurbs/operations.py:523-567 `extract_surface_curve_v`; `none` is the `ValueError`. -/
def extractV (tol : K) (s : BSurf K V) (x : K) : Option (BCurve K V) :=
  let kv := s.kvV
  if x = kvFun kv s.degreeV ∨ x = kvFun kv (kv.length - (s.degreeV + 1)) then none
  else
    let m := findMultiplicity tol x kv
    let count := s.degreeV - m
    let span := findSpanLinear s.degreeV (kvFun kv) s.nbV x
    let knotSpan := span - s.degreeV + 1
    match s.weights with
    | none =>
      let net := insertNetV s.degreeV kv s.ctrlpts s.nbU s.nbV x count m span
      some (BCurve.new s.degreeV
        ((netRows net s.nbU (s.nbV + count)).map fun r : List V => cpFun (r.drop (knotSpan + count - 1)) 0)
        s.vMults s.vKnots none)
    | some w =>
      let net := insertNetV s.degreeV kv (BCurve.ctrlptsw s.ctrlpts w) s.nbU s.nbV x count m span
      let q := BCurve.separate
        ((netRows net s.nbU (s.nbV + count)).map fun r : List (V × K) => cpFun (r.drop (knotSpan + count - 1)) 0)
      some (BCurve.new s.degreeV q.1 s.vMults s.vKnots (some q.2))

/-- surfaces.py:7248-7253 `extract_from_surface_boundary_u`. -/
def boundaryU (s : BSurf K V) (uPos : ℕ) : BCurve K V :=
  BCurve.new s.degreeU (netRow s.ctrlpts s.nbV uPos) s.uMults s.uKnots
    (s.weights.map fun w : List K => (List.range s.nbV).map fun j => w.getD (j + s.nbV * uPos) 0)

/-- surfaces.py:7255-7260 `extract_from_surface_boundary_v`. -/
def boundaryV (s : BSurf K V) (vPos : ℕ) : BCurve K V :=
  BCurve.new s.degreeV (netCol s.ctrlpts s.nbU s.nbV vPos) s.vMults s.vKnots
    (s.weights.map fun w : List K => (List.range s.nbU).map fun i => w.getD (vPos + s.nbV * i) 0)

/-- surfaces.py:7262-7272, 7275-7287: the curves of a list of parameters: the first one, those of `params[1:-1]`, the
last one; `lo` and `hi` are the ends of the domain. -/
def extractList (lo hi : K) (first last : BCurve K V) (extract : K → Option (BCurve K V)) (params : List K) :
    Option (List (BCurve K V)) :=
  match params with
  | [] => some []
  | a :: l =>
    (if a = lo then some first else extract a).bind fun c0 : BCurve K V =>
    (l.dropLast.mapM extract).bind fun cs : List (BCurve K V) =>
    (if (a :: l).getLastD 0 = hi then some last else extract ((a :: l).getLastD 0)).map fun c1 : BCurve K V =>
      (c0 :: cs) ++ [c1]

/-- surfaces.py:7234-7290 `extract_curves(u, v)`: (the curves of the u parameters, those of the v parameters). -/
def extractCurves (tol : K) (s : BSurf K V) (us vs : List K) : Option (List (BCurve K V) × List (BCurve K V)) :=
  (extractList (kvFun s.kvV s.degreeV) (kvFun s.kvV (s.kvV.length - (s.degreeV + 1))) (s.boundaryV 0)
    (s.boundaryV (s.nbV - 1)) (extractV tol s) vs).bind fun cv : List (BCurve K V) =>
  (extractList (kvFun s.kvU s.degreeU) (kvFun s.kvU (s.kvU.length - (s.degreeU + 1))) (s.boundaryU 0)
    (s.boundaryU (s.nbU - 1)) (extractU tol s) us).map fun cu : List (BCurve K V) => (cu, cv)

/-- surfaces.py:7198-7232 `get_surface_curves`: (the u curves, the v curves).  The weights are `[]` when the
surface is not rational. -/
def surfaceCurves (s : BSurf K V) : List (BCurve K V) × List (BCurve K V) :=
  ((List.range s.nbV).map fun v => BCurve.new s.degreeU (netCol s.ctrlpts s.nbU s.nbV v) s.uMults s.uKnots
      (some (match s.weights with
        | none => []
        | some w => (List.range s.nbU).map fun u => w.getD (v + s.nbV * u) 0)),
    (List.range s.nbU).map fun u => BCurve.new s.degreeV (netRow s.ctrlpts s.nbV u) s.vMults s.vKnots
      (some (match s.weights with
        | none => []
        | some w => (List.range s.nbV).map fun v => w.getD (v + s.nbV * u) 0)))

/-- The direction of a decomposition (`idx` in nurbs/operations.py:878). -/
inductive Dir | u | v
deriving DecidableEq

/-- The split function of a direction (nurbs/operations.py:857, 861). -/
def split (tol : K) : Dir → BSurf K V → K → Option (BSurf K V × BSurf K V)
  | .u => splitU tol
  | .v => splitV tol

/-- nurbs/operations.py:883-884 `srf.knotvector[idx][surf_degrees[idx] + 1:-(surf_degrees[idx] + 1)]`. -/
def innerKnots (d : Dir) (s : BSurf K V) : List K :=
  match d with
  | .u => BCurve.innerKnots s.degreeU s.kvU
  | .v => BCurve.innerKnots s.degreeV s.kvV

/-- nurbs/operations.py:894-914, the loop of `helper_decompose` with `return_params`: the patches with the
parameters `(start, end)` in the direction of the decomposition. -/
def decomposeLoop (tol : K) (d : Dir) : ℕ → BSurf K V → K → K → Option (List (BSurf K V × K × K))
  | 0, _, _, _ => none
  | fuel + 1, s, start, pmax =>
    let knots := innerKnots d s
    if knots.any (fun a => a ≠ 0) then
      let knot := knots.headD 0
      match split tol d s knot with
      | none => none
      | some (s1, s2) =>
        let pend := knot * (pmax - start) + start
        (decomposeLoop tol d fuel s2 pend pmax).map fun l => (s1, start, pend) :: l
    else some [(s, start, pmax)]

/-- nurbs/operations.py:878-916 `helper_decompose`; the domain is read from the knot vector (surfaces.py:7352). -/
def decomposeDir (tol : K) (d : Dir) (fuel : ℕ) (s : BSurf K V) : Option (List (BSurf K V × K × K)) :=
  match d with
  | .u => decomposeLoop tol d fuel s (kvFun s.kvU s.degreeU) (kvFun s.kvU (s.kvU.length - (s.degreeU + 1)))
  | .v => decomposeLoop tol d fuel s (kvFun s.kvV s.degreeV) (kvFun s.kvV (s.kvV.length - (s.degreeV + 1)))

/-- nurbs/operations.py:833-875 `decompose_surface(obj, True, decompose_dir="uv")`: the patches with
`((u_start, u_end), (v_start, v_end))`. -/
def decomposeUV (tol : K) (fuel : ℕ) (s : BSurf K V) : Option (List (BSurf K V × (K × K) × (K × K))) :=
  match decomposeDir tol .u fuel s with
  | none => none
  | some l =>
    (l.mapM fun q : BSurf K V × K × K =>
      (decomposeDir tol .v fuel q.1).map fun lv : List (BSurf K V × K × K) =>
        lv.map fun r : BSurf K V × K × K => (r.1, q.2, r.2)).map List.flatten

/-- nurbs/operations.py:452-463, the u loop of `refine_knot_vector_surface` (each insertion starts from `obj`);
`none` is the `ValueError`. -/
def refineU (tol : K) (obj : BSurf K V) : List K → BSurf K V → Option (BSurf K V)
  | [], t => some t
  | x :: l, _ =>
    if x = kvFun obj.kvU obj.degreeU ∨ x = kvFun obj.kvU (obj.kvU.length - (obj.degreeU + 1)) then none
    else
      match insertU tol obj x (obj.degreeU - findMultiplicity tol x obj.kvU) false with
      | none => none
      | some t => refineU tol obj l t

/-- nurbs/operations.py:464-474, the v loop of `refine_knot_vector_surface`. -/
def refineV (tol : K) (obj : BSurf K V) : List K → BSurf K V → Option (BSurf K V)
  | [], t => some t
  | x :: l, t =>
    if x = kvFun obj.kvV obj.degreeV ∨ x = kvFun obj.kvV (obj.kvV.length - (obj.degreeV + 1)) then none
    else
      match insertV tol t x (t.degreeV - findMultiplicity tol x t.kvV) false with
      | none => none
      | some t' => refineV tol obj l t'

/-- nurbs/operations.py:429-474 `refine_knot_vector_surface(obj, u, v)`. -/
def refine (tol : K) (obj : BSurf K V) (us vs : List K) : Option (BSurf K V) :=
  match refineU tol obj us obj with
  | none => none
  | some t => refineV tol obj vs t

end BSurf
end
end Volmdlr
