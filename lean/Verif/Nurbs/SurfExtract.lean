import Verif.Nurbs.SurfDecompose

/-!
# C153: curves of a surface
-/

namespace Volmdlr
open Finset
section
variable {K : Type*} [Field K] [LinearOrder K] [IsStrictOrderedRing K]
variable {V : Type*} [AddCommGroup V] [Module K V]

/-! ### curve objects on well-formed knots -/

theorem new_curve_none (tol : K) (p n : ℕ) (knots : List K) (mults : List ℕ) (ok : KnotsOK tol p n knots mults)
    (P : List V) (hP : P.length = n) :
    (BCurve.new p P mults knots none).Valid tol ∧ (BCurve.new p P mults knots none).degree = p ∧
    ∀ t, (BCurve.new p P mults knots none).eval t = curvePoint p (kvFun (repeatKnots knots mults)) (cpFun P) n t := by
  have hst := standardize_of_unit _ ok.headK ok.lastK
  unfold BCurve.new
  rw [hst]
  refine ⟨ok.valid P hP none (by simp) (by simp), rfl, fun t => ?_⟩
  rw [← hP]; rfl

theorem new_curve_empty (p : ℕ) (knots : List K) (mults : List ℕ) (P : List V) :
    BCurve.new p P mults knots (some []) = BCurve.new p P mults knots none := by
  unfold BCurve.new; simp

theorem new_curve_some (tol : K) (p n : ℕ) (knots : List K) (mults : List ℕ) (ok : KnotsOK tol p n knots mults)
    (P : List V) (hP : P.length = n) (w : List K) (hw : w.length = n) (hpos : ∀ a ∈ w, 0 < a) :
    (BCurve.new p P mults knots (some w)).Valid tol ∧ (BCurve.new p P mults knots (some w)).degree = p ∧
    ∀ t, (BCurve.new p P mults knots (some w)).eval t =
      curvePointRational p (kvFun (repeatKnots knots mults)) (cpFun (BCurve.ctrlptsw P w)) n t := by
  have hst := standardize_of_unit _ ok.headK ok.lastK
  have hn := ok.clamped.pn
  have hany : w.any (fun a => a ≠ 0) = true := by
    cases w with
    | nil => simp at hw; omega
    | cons a l =>
      rw [List.any_cons]
      simp [(hpos a (by simp)).ne']
  unfold BCurve.new
  rw [hst]
  dsimp only
  rw [if_pos hany]
  refine ⟨ok.valid P hP (some w) ?_ ?_, rfl, fun t => ?_⟩
  · intro l hl; rw [← Option.some.inj hl]; exact hw
  · intro l hl; rw [← Option.some.inj hl]; exact hpos
  · rw [← hP]; rfl

theorem separate_pos (Q : List (V × K)) (hQ : ∀ q ∈ Q, 0 < q.2) : ∀ a ∈ (BCurve.separate Q).2, 0 < a := by
  intro a ha
  unfold BCurve.separate at ha
  obtain ⟨q, hq, rfl⟩ := List.mem_map.1 ha
  exact hQ q hq

/-! ### the border of a net -/

theorem surf_left {W : Type*} [AddCommGroup W] [Module K W] (pu pv su sv : ℕ) (Uu Uv : ℕ → K) (hu : Clamped pu su Uu)
    (hv : pv < sv) (cp : List W) (v : K) :
    surfacePoint pu pv Uu Uv (cpFun cp) su sv (Uu pu) v = curvePoint pv Uv (cpFun (netRow cp sv 0)) sv v ∧
    surfacePoint pu pv Uu Uv (cpFun cp) su sv (Uu su) v = curvePoint pv Uv (cpFun (netRow cp sv (su - 1))) sv v := by
  obtain ⟨h1, h2⟩ := C21_end_points pu su Uu hu (fun k => curvePoint pv Uv (fun m => cpFun cp (m + sv * k)) sv v)
  rw [surfacePoint_eq, surfacePoint_eq, h1, h2]
  exact ⟨curvePoint_congr _ _ _ _ _ hv (fun j hj => (cpFun_netRow _ _ _ _ hj).symm) _,
    curvePoint_congr _ _ _ _ _ hv (fun j hj => (cpFun_netRow _ _ _ _ hj).symm) _⟩

theorem surf_bottom {W : Type*} [AddCommGroup W] [Module K W] (pu pv su sv : ℕ) (Uu Uv : ℕ → K) (hu : pu < su)
    (hv : Clamped pv sv Uv) (cp : List W) (u : K) :
    surfacePoint pu pv Uu Uv (cpFun cp) su sv u (Uv pv) = curvePoint pu Uu (cpFun (netCol cp su sv 0)) su u ∧
    surfacePoint pu pv Uu Uv (cpFun cp) su sv u (Uv sv) = curvePoint pu Uu (cpFun (netCol cp su sv (sv - 1))) su u := by
  have hpn := hv.pn
  rw [surfacePoint_rows _ _ _ _ _ _ _ hu hpn, surfacePoint_rows _ _ _ _ _ _ _ hu hpn, curvePoint_eq _ _ _ _ _ hu,
    curvePoint_eq _ _ _ _ _ hu]
  constructor <;> apply sum_congr rfl <;> intro i hi
  · rw [(C21_end_points pv sv Uv hv _).1, cpFun_netRow _ _ _ _ (by omega), cpFun_netCol _ _ _ _ _ (mem_range.1 hi)]
  · rw [(C21_end_points pv sv Uv hv _).2, cpFun_netRow _ _ _ _ (by omega), cpFun_netCol _ _ _ _ _ (mem_range.1 hi)]

theorem cpFun_ctrlptsw (cp : List V) (w : List K) (h : w.length = cp.length) (i : ℕ) :
    cpFun (BCurve.ctrlptsw cp w) i = (w.getD i 0 • cpFun cp i, w.getD i 0) := by
  unfold cpFun BCurve.ctrlptsw
  rcases Nat.lt_or_ge i cp.length with hi | hi
  · rw [List.getD_eq_getElem _ _ (by simp [h, hi]), List.getElem_zipWith, List.getD_eq_getElem _ _ hi,
      List.getD_eq_getElem _ _ (by omega)]
  · rw [List.getD_eq_default _ _ (by simp [h, hi]), List.getD_eq_default _ _ (by omega)]
    simp
    rfl

theorem netRow_ctrlptsw (cp : List V) (w : List K) (h : w.length = cp.length) (nv i : ℕ) :
    BCurve.ctrlptsw (netRow cp nv i) ((List.range nv).map fun j => w.getD (j + nv * i) 0) =
      netRow (BCurve.ctrlptsw cp w) nv i := by
  unfold netRow
  conv_lhs => unfold BCurve.ctrlptsw
  rw [List.zipWith_map, List.zipWith_self]
  exact List.map_congr_left fun j _ => (cpFun_ctrlptsw cp w h _).symm

theorem netCol_ctrlptsw (cp : List V) (w : List K) (h : w.length = cp.length) (nu nv j : ℕ) :
    BCurve.ctrlptsw (netCol cp nu nv j) ((List.range nu).map fun i => w.getD (j + nv * i) 0) =
      netCol (BCurve.ctrlptsw cp w) nu nv j := by
  unfold netCol
  conv_lhs => unfold BCurve.ctrlptsw
  rw [List.zipWith_map, List.zipWith_self]
  exact List.map_congr_left fun j _ => (cpFun_ctrlptsw cp w h _).symm

theorem net_index_lt (nu nv i j : ℕ) (hi : i < nu) (hj : j < nv) : j + nv * i < nu * nv := by
  have : nv * (i + 1) ≤ nv * nu := Nat.mul_le_mul_left nv hi
  rw [Nat.mul_succ] at this
  rw [Nat.mul_comm nu nv]; omega

theorem row_weights_pos (w : List K) (nu nv : ℕ) (hlen : w.length = nu * nv) (hpos : ∀ a ∈ w, 0 < a) (i : ℕ) (hi : i < nu) :
    ∀ a ∈ (List.range nv).map (fun j => w.getD (j + nv * i) 0), 0 < a := by
  intro a ha
  obtain ⟨j, hj, rfl⟩ := List.mem_map.1 ha
  rw [List.getD_eq_getElem _ _ (by rw [hlen]; exact net_index_lt _ _ _ _ hi (List.mem_range.1 hj))]
  exact hpos _ (List.getElem_mem _)

theorem col_weights_pos (w : List K) (nu nv : ℕ) (hlen : w.length = nu * nv) (hpos : ∀ a ∈ w, 0 < a) (j : ℕ) (hj : j < nv) :
    ∀ a ∈ (List.range nu).map (fun i => w.getD (j + nv * i) 0), 0 < a := by
  intro a ha
  obtain ⟨i, hi, rfl⟩ := List.mem_map.1 ha
  rw [List.getD_eq_getElem _ _ (by rw [hlen]; exact net_index_lt _ _ _ _ (List.mem_range.1 hi) hj)]
  exact hpos _ (List.getElem_mem _)

/-- The curve made with the control points (and weights) of row `i` and knots `knots`, `mults`, `p`. -/
theorem row_curve (tol : K) (s : BSurf K V) (hv : s.Valid tol) (p : ℕ) (knots : List K) (mults : List ℕ)
    (ok : KnotsOK tol p s.nbV knots mults) (i : ℕ) (hi : i < s.nbU) (c : BCurve K V)
    (hc : c = BCurve.new p (netRow s.ctrlpts s.nbV i) mults knots
      (s.weights.map fun w : List K => (List.range s.nbV).map fun j => w.getD (j + s.nbV * i) 0)) :
    c.Valid tol ∧ c.degree = p ∧ ∀ t, c.eval t = (match s.weights with
      | none => curvePoint p (kvFun (repeatKnots knots mults)) (cpFun (netRow s.ctrlpts s.nbV i)) s.nbV t
      | some w => curvePointRational p (kvFun (repeatKnots knots mults))
          (cpFun (netRow (BCurve.ctrlptsw s.ctrlpts w) s.nbV i)) s.nbV t) := by
  subst hc
  cases hw : s.weights with
  | none => exact new_curve_none tol p _ knots mults ok _ (netRow_length _ _ _)
  | some w =>
    have h1 := hv.wlen w hw
    have h2 := new_curve_some tol p _ knots mults ok (netRow s.ctrlpts s.nbV i) (netRow_length _ _ _)
      ((List.range s.nbV).map fun j => w.getD (j + s.nbV * i) 0) (by simp)
      (row_weights_pos w s.nbU s.nbV (by rw [h1, hv.len]) (hv.wpos w hw) i hi)
    rw [netRow_ctrlptsw _ _ h1] at h2
    exact h2

/-- The curve made with the control points (and weights) of column `j` and knots `knots`, `mults`, `p`. -/
theorem col_curve (tol : K) (s : BSurf K V) (hv : s.Valid tol) (p : ℕ) (knots : List K) (mults : List ℕ)
    (ok : KnotsOK tol p s.nbU knots mults) (j : ℕ) (hj : j < s.nbV) (c : BCurve K V)
    (hc : c = BCurve.new p (netCol s.ctrlpts s.nbU s.nbV j) mults knots
      (s.weights.map fun w : List K => (List.range s.nbU).map fun i => w.getD (j + s.nbV * i) 0)) :
    c.Valid tol ∧ c.degree = p ∧ ∀ t, c.eval t = (match s.weights with
      | none => curvePoint p (kvFun (repeatKnots knots mults)) (cpFun (netCol s.ctrlpts s.nbU s.nbV j)) s.nbU t
      | some w => curvePointRational p (kvFun (repeatKnots knots mults))
          (cpFun (netCol (BCurve.ctrlptsw s.ctrlpts w) s.nbU s.nbV j)) s.nbU t) := by
  subst hc
  cases hw : s.weights with
  | none => exact new_curve_none tol p _ knots mults ok _ (netCol_length _ _ _ _)
  | some w =>
    have h1 := hv.wlen w hw
    have h2 := new_curve_some tol p _ knots mults ok (netCol s.ctrlpts s.nbU s.nbV j) (netCol_length _ _ _ _)
      ((List.range s.nbU).map fun i => w.getD (j + s.nbV * i) 0) (by simp)
      (col_weights_pos w s.nbU s.nbV (by rw [h1, hv.len]) (hv.wpos w hw) j hj)
    rw [netCol_ctrlptsw _ _ h1] at h2
    exact h2

theorem eval_border_u (tol : K) (s : BSurf K V) (hv : s.Valid tol) (v : K) (i : ℕ) (a : K)
    (h : (a = 0 ∧ i = 0) ∨ (a = 1 ∧ i = s.nbU - 1)) :
    s.eval a v = (match s.weights with
      | none => curvePoint s.degreeV (kvFun s.kvV) (cpFun (netRow s.ctrlpts s.nbV i)) s.nbV v
      | some w => curvePointRational s.degreeV (kvFun s.kvV)
          (cpFun (netRow (BCurve.ctrlptsw s.ctrlpts w) s.nbV i)) s.nbV v) := by
  have u0 : kvFun s.kvU s.degreeU = 0 := hv.uOK.dom0
  have u1 : kvFun s.kvU s.nbU = 1 := hv.uOK.dom1
  have hu : Clamped s.degreeU s.nbU (kvFun s.kvU) := hv.uOK.clamped
  have hpv := hv.vOK.clamped.pn
  unfold BSurf.eval
  cases s.weights with
  | none =>
    dsimp only
    rcases h with ⟨rfl, rfl⟩ | ⟨rfl, rfl⟩
    · rw [← u0]; exact (surf_left _ _ _ _ _ _ hu hpv _ _).1
    · rw [← u1]; exact (surf_left _ _ _ _ _ _ hu hpv _ _).2
  | some w =>
    dsimp only
    unfold surfacePointRational curvePointRational
    rcases h with ⟨rfl, rfl⟩ | ⟨rfl, rfl⟩
    · rw [← u0, (surf_left _ _ _ _ _ _ hu hpv _ _).1]
    · rw [← u1, (surf_left _ _ _ _ _ _ hu hpv _ _).2]

theorem eval_border_v (tol : K) (s : BSurf K V) (hv : s.Valid tol) (u : K) (j : ℕ) (a : K)
    (h : (a = 0 ∧ j = 0) ∨ (a = 1 ∧ j = s.nbV - 1)) :
    s.eval u a = (match s.weights with
      | none => curvePoint s.degreeU (kvFun s.kvU) (cpFun (netCol s.ctrlpts s.nbU s.nbV j)) s.nbU u
      | some w => curvePointRational s.degreeU (kvFun s.kvU)
          (cpFun (netCol (BCurve.ctrlptsw s.ctrlpts w) s.nbU s.nbV j)) s.nbU u) := by
  have v0 : kvFun s.kvV s.degreeV = 0 := hv.vOK.dom0
  have v1 : kvFun s.kvV s.nbV = 1 := hv.vOK.dom1
  have hcv : Clamped s.degreeV s.nbV (kvFun s.kvV) := hv.vOK.clamped
  have hpu := hv.uOK.clamped.pn
  unfold BSurf.eval
  cases s.weights with
  | none =>
    dsimp only
    rcases h with ⟨rfl, rfl⟩ | ⟨rfl, rfl⟩
    · rw [← v0]; exact (surf_bottom _ _ _ _ _ _ hpu hcv _ _).1
    · rw [← v1]; exact (surf_bottom _ _ _ _ _ _ hpu hcv _ _).2
  | some w =>
    dsimp only
    unfold surfacePointRational curvePointRational
    rcases h with ⟨rfl, rfl⟩ | ⟨rfl, rfl⟩
    · rw [← v0, (surf_bottom _ _ _ _ _ _ hpu hcv _ _).1]
    · rw [← v1, (surf_bottom _ _ _ _ _ _ hpu hcv _ _).2]

/-- **C153** `get_surface_curves`: there are as many u curves as control points in v (and conversely), every one is a
valid curve of the degree of its direction, the first and the last u curves are the borders `v = 0` and `v = 1`
of the surface, the first and the last v curves the borders `u = 0` and `u = 1`. -/
theorem C153_surface_curves (tol : K) (s : BSurf K V) (hv : s.Valid tol) :
    s.surfaceCurves.1.length = s.nbV ∧ s.surfaceCurves.2.length = s.nbU ∧
    (∀ c ∈ s.surfaceCurves.1, c.Valid tol ∧ c.degree = s.degreeU) ∧
    (∀ c ∈ s.surfaceCurves.2, c.Valid tol ∧ c.degree = s.degreeV) ∧
    (∃ c, s.surfaceCurves.1.head? = some c ∧ ∀ u, c.eval u = s.eval u 0) ∧
    (∃ c, s.surfaceCurves.1.getLast? = some c ∧ ∀ u, c.eval u = s.eval u 1) ∧
    (∃ c, s.surfaceCurves.2.head? = some c ∧ ∀ v, c.eval v = s.eval 0 v) ∧
    ∃ c, s.surfaceCurves.2.getLast? = some c ∧ ∀ v, c.eval v = s.eval 1 v := by
  have hu := hv.uOK.clamped.pn
  have hw := hv.vOK.clamped.pn
  have hstu := standardize_of_unit _ hv.uOK.headK hv.uOK.lastK
  have hstv := standardize_of_unit _ hv.vOK.headK hv.vOK.lastK
  have hsc : s.surfaceCurves =
      ((List.range s.nbV).map fun j => BCurve.new s.degreeU (netCol s.ctrlpts s.nbU s.nbV j) s.uMults s.uKnots
        (s.weights.map fun w : List K => (List.range s.nbU).map fun i => w.getD (j + s.nbV * i) 0),
      (List.range s.nbU).map fun i => BCurve.new s.degreeV (netRow s.ctrlpts s.nbV i) s.vMults s.vKnots
        (s.weights.map fun w : List K => (List.range s.nbV).map fun j => w.getD (j + s.nbV * i) 0)) := by
    unfold BSurf.surfaceCurves
    cases s.weights with
    | none => simp only [new_curve_empty, Option.map_none]
    | some w => rfl
  rw [hsc]
  dsimp only
  refine ⟨by simp, by simp, ?_, ?_, ?_, ?_, ?_, ?_⟩
  · intro c hc
    obtain ⟨j, hj, rfl⟩ := List.mem_map.1 hc
    obtain ⟨h1, h2, -⟩ := col_curve tol s hv _ _ _ hv.uOK j (List.mem_range.1 hj) _ rfl
    exact ⟨h1, h2⟩
  · intro c hc
    obtain ⟨i, hi, rfl⟩ := List.mem_map.1 hc
    obtain ⟨h1, h2, -⟩ := row_curve tol s hv _ _ _ hv.vOK i (List.mem_range.1 hi) _ rfl
    exact ⟨h1, h2⟩
  · obtain ⟨-, -, h⟩ := col_curve tol s hv _ _ _ hv.uOK 0 (by omega) _ rfl
    refine ⟨_, by rw [List.head?_map, List.head?_range, if_neg (by omega)]; rfl, fun u => ?_⟩
    rw [h, eval_border_v tol s hv u 0 0 (Or.inl ⟨rfl, rfl⟩)]; rfl
  · obtain ⟨-, -, h⟩ := col_curve tol s hv _ _ _ hv.uOK (s.nbV - 1) (by omega) _ rfl
    refine ⟨_, by rw [List.getLast?_map, List.getLast?_range, if_neg (by omega)]; rfl, fun u => ?_⟩
    rw [h, eval_border_v tol s hv u _ 1 (Or.inr ⟨rfl, rfl⟩)]; rfl
  · obtain ⟨-, -, h⟩ := row_curve tol s hv _ _ _ hv.vOK 0 (by omega) _ rfl
    refine ⟨_, by rw [List.head?_map, List.head?_range, if_neg (by omega)]; rfl, fun u => ?_⟩
    rw [h, eval_border_u tol s hv u 0 0 (Or.inl ⟨rfl, rfl⟩)]; rfl
  · obtain ⟨-, -, h⟩ := row_curve tol s hv _ _ _ hv.vOK (s.nbU - 1) (by omega) _ rfl
    refine ⟨_, by rw [List.getLast?_map, List.getLast?_range, if_neg (by omega)]; rfl, fun u => ?_⟩
    rw [h, eval_border_u tol s hv u _ 1 (Or.inr ⟨rfl, rfl⟩)]; rfl

example : (exampleSurf (some exampleWeights)).surfaceCurves.1.length = 3 ∧
    ∃ c, (exampleSurf (some exampleWeights)).surfaceCurves.1.getLast? = some c ∧
      ∀ u, c.eval u = (exampleSurf (some exampleWeights)).eval u 1 := by
  obtain ⟨h1, -, -, -, -, h2, -⟩ := C153_surface_curves (1 / 10 ^ 15) _ exampleSurf_validw
  exact ⟨h1, h2⟩

/-! ### curves at inner parameters -/

/-- The row of the net after a full insertion at `x` in u: the curve `u = x` of the surface. -/
theorem iso_u {W : Type*} [AddCommGroup W] [Module K W] (tol : K) (p n : ℕ) (knots : List K) (mults : List ℕ)
    (ok : KnotsOK tol p n knots mults) (x : K) (hx : InnerKnot tol (repeatKnots knots mults) x) (k : ℕ)
    (hk : k = findSpanLinear p (kvFun (repeatKnots knots mults)) n x) (num : ℕ)
    (hnum : num + (repeatKnots knots mults).count x = p) (cp : List W) (pv nv : ℕ) (Uv : ℕ → K) (hv : pv < nv) (v : K) :
    let net := insertNetU p (repeatKnots knots mults) cp n nv x num ((repeatKnots knots mults).count x) k
    (((netRows net (n + num) nv).drop (k - p + num)).flatten).take nv = netRow net nv (k - p + num) ∧
    curvePoint pv Uv (cpFun (netRow net nv (k - p + num))) nv v =
      surfacePoint p pv (kvFun (repeatKnots knots mults)) Uv (cpFun cp) n nv x v := by
  obtain ⟨g1, g2, ⟨g3, g3'⟩, ⟨g4, g4'⟩⟩ := split_ok ok hx k hk num hnum _ rfl
  intro net
  constructor
  · rw [netRows_drop]
    obtain ⟨m, hm⟩ : ∃ m, n + num - (k - p + num) = m + 1 := ⟨n + num - (k - p + num) - 1, by omega⟩
    rw [hm, List.range_succ_eq_map, List.map_cons, List.flatten_cons, Nat.add_zero]
    exact List.take_left' (netRow_length _ _ _)
  · have hnet : ∀ j < nv, netCol net (n + num) nv j = netCol (if num = 0 then cp else net) (n + num) nv j := by
      intro j hj
      rw [insU_cols tol p n knots mults ok x hx k hk num hnum cp nv j hj]
      exact insertNetU_cols ok hx k hk num hnum cp nv j hj
    have h := (cutU_eval tol p n knots mults ok x hx k hk num hnum cp pv nv Uv hv _ rfl _ rfl 0 v (le_refl _) zero_le_one).2
    rw [zero_mul, add_zero] at h
    rw [← h, ← g4.dom0]
    rw [← g4']
    rw [(surf_left _ _ _ _ _ _ g4.clamped hv _ _).1]
    apply curvePoint_congr _ _ _ _ _ hv
    intro j hj
    rw [cpFun_netRow _ _ _ _ hj, cpFun_netRow _ _ _ _ hj]
    have e1 : cpFun net (j + nv * (k - p + num)) = cpFun (netCol net (n + num) nv j) (k - p + num) :=
      (cpFun_netCol _ _ _ _ _ (by omega)).symm
    rw [e1, hnet j hj, cpFun_netCol _ _ _ _ _ (by omega)]
    have e2 := netCol_drop (if num = 0 then cp else net) (n + num) nv (k - p + num) j hj
    have e3 := congrArg (fun l => cpFun l 0) e2
    rw [cpFun_netCol _ _ _ _ _ (by omega)] at e3
    refine Eq.trans ?_ e3.symm
    unfold cpFun
    rw [List.getD_eq_getElem?_getD (l := List.drop _ _), List.getElem?_drop, ← List.getD_eq_getElem?_getD]
    have := cpFun_netCol (if num = 0 then cp else net) (n + num) nv j (k - p + num) (by omega)
    unfold cpFun at this
    exact this.symm

/-- The column of the net after a full insertion at `x` in v: the curve `v = x` of the surface. -/
theorem iso_v {W : Type*} [AddCommGroup W] [Module K W] (tol : K) (p n : ℕ) (knots : List K) (mults : List ℕ)
    (ok : KnotsOK tol p n knots mults) (x : K) (hx : InnerKnot tol (repeatKnots knots mults) x) (k : ℕ)
    (hk : k = findSpanLinear p (kvFun (repeatKnots knots mults)) n x) (num : ℕ)
    (hnum : num + (repeatKnots knots mults).count x = p) (cp : List W) (pu nu : ℕ) (Uu : ℕ → K) (hu : pu < nu) (u : K) :
    let net := insertNetV p (repeatKnots knots mults) cp nu n x num ((repeatKnots knots mults).count x) k
    ((netRows net nu (n + num)).map fun r : List W => cpFun (r.drop (k - p + num)) 0) =
      netCol net nu (n + num) (k - p + num) ∧
    curvePoint pu Uu (cpFun (netCol net nu (n + num) (k - p + num))) nu u =
      surfacePoint pu p Uu (kvFun (repeatKnots knots mults)) (cpFun cp) nu n u x := by
  obtain ⟨g1, g2, ⟨g3, g3'⟩, ⟨g4, g4'⟩⟩ := split_ok ok hx k hk num hnum _ rfl
  have hdrop : ∀ (l : List W) (d : ℕ), cpFun (l.drop d) 0 = cpFun l d := by
    intro l d
    unfold cpFun
    rw [List.getD_eq_getElem?_getD, List.getElem?_drop, ← List.getD_eq_getElem?_getD, Nat.add_zero]
  intro net
  constructor
  · unfold netRows netCol
    rw [List.map_map]
    apply List.map_congr_left
    intro i _
    rw [Function.comp_apply, hdrop, cpFun_netRow _ _ _ _ (by omega)]
  · have hnet : ∀ i < nu, netRow net (n + num) i = netRow (if num = 0 then cp else net) (n + num) i := by
      intro i hi
      rw [insV_rows tol p n knots mults ok x hx k hk num hnum cp nu i hi]
      exact insertNetV_rows ok hx k hk num hnum cp nu i hi
    have h := (cutV_eval tol p n knots mults ok x hx k hk num hnum cp pu nu Uu hu _ rfl _ rfl u 0 (le_refl _) zero_le_one).2
    rw [zero_mul, add_zero] at h
    rw [← h, ← g4.dom0]
    rw [← g4']
    rw [(surf_bottom _ _ _ _ _ _ hu g4.clamped _ _).1]
    apply curvePoint_congr _ _ _ _ _ hu
    intro i hi
    rw [cpFun_netCol _ _ _ _ _ hi, cpFun_netCol _ _ _ _ _ hi]
    have e1 : cpFun net (k - p + num + (n + num) * i) = cpFun (netRow net (n + num) i) (k - p + num) :=
      (cpFun_netRow _ _ _ _ (by omega)).symm
    have e2 := netRow_drop (if num = 0 then cp else net) nu (n + num) (k - p + num) i hi
    have e3 := congrArg (fun l => cpFun l 0) e2
    rw [cpFun_netRow _ _ _ _ (by omega), hdrop] at e3
    rw [e1, hnet i hi]
    exact e3.symm

/-- Specification: both directions of the surface have the same degree and knots. -/
def BSurf.Alike (s : BSurf K V) : Prop := s.degreeU = s.degreeV ∧ s.uKnots = s.vKnots ∧ s.uMults = s.vMults

theorem BSurf.Alike.nb {tol : K} {s : BSurf K V} (h : s.Alike) (hv : s.Valid tol) : s.nbU = s.nbV := by
  have h1 := hv.uOK.length
  have h2 := hv.vOK.length
  rw [h.2.1, h.2.2, h.1] at h1
  omega

theorem mem_netCol {W : Type*} [AddCommGroup W] (cp : List W) (nu nv j : ℕ) (hlen : cp.length = nu * nv) (hj : j < nv) :
    ∀ q ∈ netCol cp nu nv j, q ∈ cp := by
  intro q hq
  obtain ⟨i, hi, rfl⟩ := List.mem_map.1 hq
  unfold cpFun
  rw [List.getD_eq_getElem _ _ (by rw [hlen]; exact net_index_lt _ _ _ _ (List.mem_range.1 hi) hj)]
  exact List.getElem_mem _

/-- `extract_surface_curve_u` at an inner parameter gives the control points of the curve `u = x`. -/
theorem extractU_spec (tol : K) (s : BSurf K V) (hv : s.Valid tol) (x : K) (hx : InnerKnot tol s.kvU x) (ha : s.Alike) :
    ∃ c, s.extractU tol x = some c ∧ c.Valid tol ∧ c.degree = s.degreeV ∧ ∀ v, c.eval v = s.eval x v := by
  have hok := hv.uOK
  obtain ⟨a, b, d, e, hl, f, g, i, hmle⟩ := ok_facts hok hx _ rfl
  have hm : findMultiplicity tol x s.kvU = s.kvU.count x := ok_mult hok hx
  change s.kvU.count x ≤ s.degreeU at hmle
  have hlen : s.kvU.length = s.nbU + s.degreeU + 1 := hok.length
  have hd0 : kvFun s.kvU s.degreeU = 0 := hok.dom0
  have hd1 : kvFun s.kvU s.nbU = 1 := hok.dom1
  have hnum : s.degreeU - s.kvU.count x + s.kvU.count x = s.degreeU := by omega
  have hpv := hv.vOK.clamped.pn
  unfold BSurf.extractU
  dsimp only
  rw [if_neg (by
    rw [hlen, show s.nbU + s.degreeU + 1 - (s.degreeU + 1) = s.nbU by omega, hd0, hd1]
    rintro (h | h)
    · exact hx.1.ne' h
    · exact hx.2.1.ne h), hm]
  change s.degreeU ≤ findSpanLinear s.degreeU (kvFun s.kvU) s.nbU x at a
  change findSpanLinear s.degreeU (kvFun s.kvU) s.nbU x < s.nbU at b
  generalize hn : s.degreeU - s.kvU.count x = num at *
  set k := findSpanLinear s.degreeU (kvFun s.kvU) s.nbU x with hk
  rw [show k - s.degreeU + 1 + num - 1 = k - s.degreeU + num by omega]
  have hnb := ha.nb hv
  have hpv' : s.degreeU < s.nbV := by rw [ha.1]; exact hpv
  have ok2 : KnotsOK tol s.degreeU s.nbV s.uKnots s.uMults := by rw [← hnb]; exact hok
  have hkv : repeatKnots s.uKnots s.uMults = s.kvV := by unfold BSurf.kvV; rw [ha.2.1, ha.2.2]
  cases hw : s.weights with
  | none =>
    dsimp only
    have hI := fun v => iso_u tol _ _ _ _ hok x hx k hk num hnum s.ctrlpts s.degreeU s.nbV
      (kvFun (repeatKnots s.uKnots s.uMults)) hpv' v
    obtain ⟨c1, c2, c3⟩ := new_curve_none tol s.degreeU s.nbV s.uKnots s.uMults ok2
      (netRow (insertNetU s.degreeU (repeatKnots s.uKnots s.uMults) s.ctrlpts s.nbU s.nbV x num
        ((repeatKnots s.uKnots s.uMults).count x) k) s.nbV (k - s.degreeU + num))
      (netRow_length _ _ _)
    have h1 := (hI 0).1
    refine ⟨_, congrArg (fun L => some (BCurve.new s.degreeU L s.uMults s.uKnots none)) h1, c1, by rw [c2, ha.1], fun v => ?_⟩
    have h2 := (hI v).2
    rw [c3]
    unfold BSurf.eval
    rw [hw, ← ha.1, ← hkv]
    exact h2
  | some w =>
    dsimp only
    have hI := fun v => iso_u tol _ _ _ _ hok x hx k hk num hnum (BCurve.ctrlptsw s.ctrlpts w) s.degreeU s.nbV
      (kvFun (repeatKnots s.uKnots s.uMults)) hpv' v
    have hcl : (BCurve.ctrlptsw s.ctrlpts w).length = s.nbU * s.nbV := by
      rw [ctrlptsw_length _ _ (hv.wlen w hw)]; exact hv.len
    have hnetpos := insertNetU_pos hok hx k hk num hnum (BCurve.ctrlptsw s.ctrlpts w) s.nbV hcl
      (ctrlptsw_mem_pos _ _ (hv.wpos w hw))
    have hnetlen := insertNetU_length hok hx k hk num hnum (BCurve.ctrlptsw s.ctrlpts w) s.nbV
    set net := insertNetU s.degreeU (repeatKnots s.uKnots s.uMults) (BCurve.ctrlptsw s.ctrlpts w) s.nbU s.nbV x num
      ((repeatKnots s.uKnots s.uMults).count x) k with hnet
    have hrow : ∀ q ∈ netRow net s.nbV (k - s.degreeU + num), 0 < q.2 := fun q hq =>
      hnetpos q (mem_netRow net (s.nbU + num) s.nbV _ hnetlen (by omega) q hq)
    have hsep := ctrlptsw_separate (netRow net s.nbV (k - s.degreeU + num)) fun q hq => (hrow q hq).ne'
    obtain ⟨c1, c2, c3⟩ := new_curve_some tol s.degreeU s.nbV s.uKnots s.uMults ok2
      (BCurve.separate (netRow net s.nbV (k - s.degreeU + num))).1
      (by rw [separate_fst_length, netRow_length]) (BCurve.separate (netRow net s.nbV (k - s.degreeU + num))).2
      (by unfold BCurve.separate; rw [List.length_map, netRow_length]) (separate_pos _ hrow)
    have h1 := (hI 0).1
    refine ⟨_, congrArg (fun L => some (BCurve.new s.degreeU (BCurve.separate L).1 s.uMults s.uKnots
      (some (BCurve.separate L).2))) h1, c1, by rw [c2, ha.1], fun v => ?_⟩
    have h2 := (hI v).2
    rw [c3, hsep]
    unfold BSurf.eval
    rw [hw, ← ha.1, ← hkv]
    dsimp only
    unfold curvePointRational surfacePointRational
    dsimp only
    rw [h2]
    rfl

/-- `extract_surface_curve_v` at an inner parameter gives the control points of the curve `v = x`. -/
theorem extractV_spec (tol : K) (s : BSurf K V) (hv : s.Valid tol) (x : K) (hx : InnerKnot tol s.kvV x) (ha : s.Alike) :
    ∃ c, s.extractV tol x = some c ∧ c.Valid tol ∧ c.degree = s.degreeU ∧ ∀ v, c.eval v = s.eval v x := by
  have hok := hv.vOK
  have ha1 := ha.1.symm
  have ha2 := ha.2.1.symm
  have ha3 := ha.2.2.symm
  obtain ⟨a, b, d, e, hl, f, g, i, hmle⟩ := ok_facts hok hx _ rfl
  have hm : findMultiplicity tol x s.kvV = s.kvV.count x := ok_mult hok hx
  change s.kvV.count x ≤ s.degreeV at hmle
  have hlen : s.kvV.length = s.nbV + s.degreeV + 1 := hok.length
  have hd0 : kvFun s.kvV s.degreeV = 0 := hok.dom0
  have hd1 : kvFun s.kvV s.nbV = 1 := hok.dom1
  have hnum : s.degreeV - s.kvV.count x + s.kvV.count x = s.degreeV := by omega
  have hpv := hv.uOK.clamped.pn
  unfold BSurf.extractV
  dsimp only
  rw [if_neg (by
    rw [hlen, show s.nbV + s.degreeV + 1 - (s.degreeV + 1) = s.nbV by omega, hd0, hd1]
    rintro (h | h)
    · exact hx.1.ne' h
    · exact hx.2.1.ne h), hm]
  change s.degreeV ≤ findSpanLinear s.degreeV (kvFun s.kvV) s.nbV x at a
  change findSpanLinear s.degreeV (kvFun s.kvV) s.nbV x < s.nbV at b
  generalize hn : s.degreeV - s.kvV.count x = num at *
  set k := findSpanLinear s.degreeV (kvFun s.kvV) s.nbV x with hk
  rw [show k - s.degreeV + 1 + num - 1 = k - s.degreeV + num by omega]
  have hnb := (ha.nb hv).symm
  have hpv' : s.degreeV < s.nbU := by rw [ha1]; exact hpv
  have ok2 : KnotsOK tol s.degreeV s.nbU s.vKnots s.vMults := by rw [← hnb]; exact hok
  have hkv : repeatKnots s.vKnots s.vMults = s.kvU := by unfold BSurf.kvU; rw [ha2, ha3]
  cases hw : s.weights with
  | none =>
    dsimp only
    have hI := fun v => iso_v tol _ _ _ _ hok x hx k hk num hnum s.ctrlpts s.degreeV s.nbU
      (kvFun (repeatKnots s.vKnots s.vMults)) hpv' v
    obtain ⟨c1, c2, c3⟩ := new_curve_none tol s.degreeV s.nbU s.vKnots s.vMults ok2
      (netCol (insertNetV s.degreeV (repeatKnots s.vKnots s.vMults) s.ctrlpts s.nbU s.nbV x num
        ((repeatKnots s.vKnots s.vMults).count x) k) s.nbU (s.nbV + num) (k - s.degreeV + num))
      (netCol_length _ _ _ _)
    have h1 := (hI 0).1
    refine ⟨_, congrArg (fun L => some (BCurve.new s.degreeV L s.vMults s.vKnots none)) h1, c1, by rw [c2, ha1], fun v => ?_⟩
    have h2 := (hI v).2
    rw [c3]
    unfold BSurf.eval
    rw [hw, ← ha1, ← hkv]
    exact h2
  | some w =>
    dsimp only
    have hI := fun v => iso_v tol _ _ _ _ hok x hx k hk num hnum (BCurve.ctrlptsw s.ctrlpts w) s.degreeV s.nbU
      (kvFun (repeatKnots s.vKnots s.vMults)) hpv' v
    have hcl : (BCurve.ctrlptsw s.ctrlpts w).length = s.nbU * s.nbV := by
      rw [ctrlptsw_length _ _ (hv.wlen w hw)]; exact hv.len
    have hnetpos := insertNetV_pos hok hx k hk num hnum (BCurve.ctrlptsw s.ctrlpts w) s.nbU hcl
      (ctrlptsw_mem_pos _ _ (hv.wpos w hw))
    have hnetlen := insertNetV_length hok hx k hk num hnum (BCurve.ctrlptsw s.ctrlpts w) s.nbU
    set net := insertNetV s.degreeV (repeatKnots s.vKnots s.vMults) (BCurve.ctrlptsw s.ctrlpts w) s.nbU s.nbV x num
      ((repeatKnots s.vKnots s.vMults).count x) k with hnet
    have hrow : ∀ q ∈ netCol net s.nbU (s.nbV + num) (k - s.degreeV + num), 0 < q.2 := fun q hq =>
      hnetpos q (mem_netCol net s.nbU (s.nbV + num) _ hnetlen (by omega) q hq)
    have hsep := ctrlptsw_separate (netCol net s.nbU (s.nbV + num) (k - s.degreeV + num)) fun q hq => (hrow q hq).ne'
    obtain ⟨c1, c2, c3⟩ := new_curve_some tol s.degreeV s.nbU s.vKnots s.vMults ok2
      (BCurve.separate (netCol net s.nbU (s.nbV + num) (k - s.degreeV + num))).1
      (by rw [separate_fst_length, netCol_length]) (BCurve.separate (netCol net s.nbU (s.nbV + num) (k - s.degreeV + num))).2
      (by unfold BCurve.separate; rw [List.length_map, netCol_length]) (separate_pos _ hrow)
    have h1 := (hI 0).1
    refine ⟨_, congrArg (fun L => some (BCurve.new s.degreeV (BCurve.separate L).1 s.vMults s.vKnots
      (some (BCurve.separate L).2))) h1, c1, by rw [c2, ha1], fun v => ?_⟩
    have h2 := (hI v).2
    rw [c3, hsep]
    unfold BSurf.eval
    rw [hw, ← ha1, ← hkv]
    dsimp only
    unfold curvePointRational surfacePointRational
    dsimp only
    rw [h2]
    rfl

theorem mapM_spec {A B : Type*} (f : A → Option B) (R : B → A → Prop) (l : List A) (h : ∀ a ∈ l, ∃ b, f a = some b ∧ R b a) :
    ∃ L, l.mapM f = some L ∧ List.Forall₂ R L l := by
  induction l with
  | nil => exact ⟨[], rfl, .nil⟩
  | cons a l ih =>
    obtain ⟨L, h1, h2⟩ := ih fun b hb => h b (List.mem_cons_of_mem _ hb)
    obtain ⟨b, h3, h4⟩ := h a (List.mem_cons_self ..)
    exact ⟨b :: L, by rw [List.mapM_cons, h3, h1]; rfl, .cons h4 h2⟩

/-- The parameters of an extraction: at least two, increasing, in the domain, each one an end of the domain or not
within the tolerance of a knot unless equal to it. -/
structure ExtractParams (tol : K) (kv : List K) (l : List K) : Prop where
  two : 2 ≤ l.length
  inc : l.Pairwise (· < ·)
  dom : ∀ a ∈ l, a = 0 ∨ a = 1 ∨ InnerKnot tol kv a

theorem extractList_spec (tol : K) (kv : List K) (l : List K) (hl : ExtractParams tol kv l) (first last : BCurve K V)
    (extract : K → Option (BCurve K V)) (R : BCurve K V → K → Prop) (h0 : R first 0) (h1 : R last 1)
    (hx : ∀ a, InnerKnot tol kv a → ∃ c, extract a = some c ∧ R c a) :
    ∃ L, BSurf.extractList 0 1 first last extract l = some L ∧ List.Forall₂ R L l := by
  obtain ⟨two, inc, dom⟩ := hl
  match l, two, inc, dom with
  | a :: b :: l, _, inc, dom =>
    obtain ⟨m, z, hmz⟩ : ∃ m z, b :: l = m ++ [z] :=
      ⟨(b :: l).dropLast, (b :: l).getLast (by simp), (List.dropLast_append_getLast (by simp)).symm⟩
    have hlast : (a :: b :: l).getLastD 0 = z := by
      rw [hmz, List.getLastD_eq_getLast?, ← List.cons_append, List.getLast?_concat]; rfl
    have hdrop : (b :: l).dropLast = m := by rw [hmz]; simp
    have hb : ∀ y ∈ a :: b :: l, 0 ≤ y ∧ y ≤ 1 := by
      intro y hy
      rcases dom y hy with h | h | h
      · rw [h]; exact ⟨le_refl _, zero_le_one⟩
      · rw [h]; exact ⟨zero_le_one, le_refl _⟩
      · exact ⟨h.1.le, h.2.1.le⟩
    have hab : ∀ {y}, y ∈ b :: l → a < y := fun h => List.rel_of_pairwise_cons inc h
    have hz : z ∈ b :: l := by rw [hmz]; simp
    have haz : a < z := hab hz
    have hmid : ∀ y ∈ m, InnerKnot tol kv y := by
      intro y hy
      have hyl : y ∈ b :: l := by rw [hmz]; exact List.mem_append_left _ hy
      have hay : a < y := hab hyl
      have hyz : y < z := by
        have := List.Pairwise.tail inc
        rw [List.tail_cons, hmz] at this
        exact (List.pairwise_append.1 this).2.2 y hy z (by simp)
      rcases dom y (List.mem_cons_of_mem _ hyl) with h | h | h
      · rw [h] at hay; exact absurd hay (not_lt.2 (hb a (by simp)).1)
      · rw [h] at hyz; exact absurd hyz (not_lt.2 (hb z (List.mem_cons_of_mem _ hz)).2)
      · exact h
    obtain ⟨L, hL, hR⟩ := mapM_spec extract R m fun y hy => hx y (hmid y hy)
    obtain ⟨c0, e0, r0⟩ : ∃ c, (if a = 0 then some first else extract a) = some c ∧ R c a := by
      by_cases ha : a = 0
      · exact ⟨first, by rw [if_pos ha], by rw [ha]; exact h0⟩
      · rw [if_neg ha]
        rcases dom a (by simp) with h | h | h
        · exact absurd h ha
        · rw [h] at haz; exact absurd haz (not_lt.2 (hb z (List.mem_cons_of_mem _ hz)).2)
        · exact hx a h
    obtain ⟨c1, e1, r1⟩ : ∃ c, (if z = 1 then some last else extract z) = some c ∧ R c z := by
      by_cases ha : z = 1
      · exact ⟨last, by rw [if_pos ha], by rw [ha]; exact h1⟩
      · rw [if_neg ha]
        rcases dom z (List.mem_cons_of_mem _ hz) with h | h | h
        · rw [h] at haz; exact absurd haz (not_lt.2 (hb a (by simp)).1)
        · exact absurd h ha
        · exact hx z h
    refine ⟨(c0 :: L) ++ [c1], ?_, ?_⟩
    · unfold BSurf.extractList
      dsimp only
      rw [hlast, hdrop, e0, e1, hL]
      rfl
    · rw [hmz]
      exact List.Forall₂.cons r0 (List.rel_append hR (.cons r1 .nil))

/-- **C153** (partial) `extract_curves` on a surface whose two directions have the same degree and knots, for at least
two increasing parameters in each list: one curve for each parameter, in order; the curve of a u parameter `a` is
the curve `u = a` of the surface, that of a v parameter `a` the curve `v = a`. -/
theorem C153_extract_partial (tol : K) (s : BSurf K V) (hv : s.Valid tol) (ha : s.Alike) (us vs : List K)
    (hu : ExtractParams tol s.kvU us) (hw : ExtractParams tol s.kvV vs) :
    ∃ cu cv, s.extractCurves tol us vs = some (cu, cv) ∧
      List.Forall₂ (fun c a => c.Valid tol ∧ ∀ t, c.eval t = s.eval a t) cu us ∧
      List.Forall₂ (fun c a => c.Valid tol ∧ ∀ t, c.eval t = s.eval t a) cv vs := by
  have lu : s.kvU.length = s.nbU + s.degreeU + 1 := hv.uOK.length
  have lv : s.kvV.length = s.nbV + s.degreeV + 1 := hv.vOK.length
  have u0 : kvFun s.kvU s.degreeU = 0 := hv.uOK.dom0
  have u1 : kvFun s.kvU s.nbU = 1 := hv.uOK.dom1
  have v0 : kvFun s.kvV s.degreeV = 0 := hv.vOK.dom0
  have v1 : kvFun s.kvV s.nbV = 1 := hv.vOK.dom1
  have hnb := ha.nb hv
  have hpu := hv.uOK.clamped.pn
  have hpv := hv.vOK.clamped.pn
  have okR : KnotsOK tol s.degreeU s.nbV s.uKnots s.uMults := by rw [← hnb]; exact hv.uOK
  have okC : KnotsOK tol s.degreeV s.nbU s.vKnots s.vMults := by rw [hnb]; exact hv.vOK
  have hk1 : repeatKnots s.uKnots s.uMults = s.kvV := by unfold BSurf.kvV; rw [ha.2.1, ha.2.2]
  have hk2 : repeatKnots s.vKnots s.vMults = s.kvU := by unfold BSurf.kvU; rw [ha.2.1, ha.2.2]
  have BU : ∀ i a, ((a = 0 ∧ i = 0) ∨ (a = 1 ∧ i = s.nbU - 1)) → i < s.nbU →
      (s.boundaryU i).Valid tol ∧ ∀ t, (s.boundaryU i).eval t = s.eval a t := by
    intro i a h hi
    obtain ⟨h1, h2, h3⟩ := row_curve tol s hv _ _ _ okR i hi (s.boundaryU i) rfl
    refine ⟨h1, fun t => ?_⟩
    rw [h3, eval_border_u tol s hv t i a h, hk1, ha.1]
  have BV : ∀ i a, ((a = 0 ∧ i = 0) ∨ (a = 1 ∧ i = s.nbV - 1)) → i < s.nbV →
      (s.boundaryV i).Valid tol ∧ ∀ t, (s.boundaryV i).eval t = s.eval t a := by
    intro i a h hi
    obtain ⟨h1, h2, h3⟩ := col_curve tol s hv _ _ _ okC i hi (s.boundaryV i) rfl
    refine ⟨h1, fun t => ?_⟩
    rw [h3, eval_border_v tol s hv t i a h, hk2, ha.1]
  obtain ⟨cu, c1, c2⟩ := extractList_spec tol s.kvU us hu (s.boundaryU 0) (s.boundaryU (s.nbU - 1)) (s.extractU tol)
    (fun c a => c.Valid tol ∧ ∀ t, c.eval t = s.eval a t) (BU _ _ (Or.inl ⟨rfl, rfl⟩) (by omega))
    (BU _ _ (Or.inr ⟨rfl, rfl⟩) (by omega)) (fun a h => by
      obtain ⟨c, q1, q2, -, q3⟩ := extractU_spec tol s hv a h ha
      exact ⟨c, q1, q2, q3⟩)
  obtain ⟨cv, d1, d2⟩ := extractList_spec tol s.kvV vs hw (s.boundaryV 0) (s.boundaryV (s.nbV - 1)) (s.extractV tol)
    (fun c a => c.Valid tol ∧ ∀ t, c.eval t = s.eval t a) (BV _ _ (Or.inl ⟨rfl, rfl⟩) (by omega))
    (BV _ _ (Or.inr ⟨rfl, rfl⟩) (by omega)) (fun a h => by
      obtain ⟨c, q1, q2, -, q3⟩ := extractV_spec tol s hv a h ha
      exact ⟨c, q1, q2, q3⟩)
  refine ⟨cu, cv, ?_, c2, d2⟩
  unfold BSurf.extractCurves
  rw [lu, lv, show s.nbU + s.degreeU + 1 - (s.degreeU + 1) = s.nbU by omega,
    show s.nbV + s.degreeV + 1 - (s.degreeV + 1) = s.nbV by omega, u0, u1, v0, v1, c1, d1]
  rfl

/-- A surface with the same knots in both directions. -/
def exampleSquare : BSurf ℚ (ℚ × ℚ × ℚ) :=
  { degreeU := 1, degreeV := 1
    ctrlpts := [(0, 0, 0), (0, 1, 1), (0, 2, 0), (1, 0, 2), (1, 1, 3), (1, 2, 1), (2, 0, 1), (2, 1, 0), (2, 2, 5)]
    nbU := 3, nbV := 3, uMults := [2, 1, 2], vMults := [2, 1, 2], uKnots := [0, 1 / 3, 1], vKnots := [0, 1 / 3, 1]
    weights := some [1, 2, 1, 1, 3, 1, 1, 1, 2] }

/-- The same net with other knots in u. -/
def exampleUneven : BSurf ℚ (ℚ × ℚ × ℚ) := { exampleSquare with uKnots := [0, 1 / 2, 1] }

theorem ok_third (x : ℚ) (h0 : (1 / 10 ^ 15 : ℚ) < x) (h1 : (1 / 10 ^ 15 : ℚ) < 1 - x) :
    KnotsOK (1 / 10 ^ 15) 1 3 [0, x, 1] [2, 1, 2] := by
  have hx : (0 : ℚ) < x := by norm_num at h0 ⊢; linarith
  have hx1 : x < 1 := by norm_num at h1 ⊢; linarith
  have hkv : repeatKnots [0, x, 1] [2, 1, 2] = [0, 0, x, 1, 1] := rfl
  have hs : ([0, 0, x, 1, 1] : List ℚ).Pairwise (· ≤ ·) := by
    simp [hx.le, hx1.le]
  have t0 : (1 / 10 ^ 15 : ℚ) < 1 := by norm_num
  refine ⟨by norm_num, by norm_num, rfl, rfl, rfl, by rw [hkv]; exact hs, ?_, rfl, ?_, ?_, rfl, rfl⟩
  · rw [hkv]
    intro a ha b hb hab
    have a1 : |x| = x := abs_of_pos hx
    have a2 : |1 - x| = 1 - x := abs_of_pos (by linarith)
    simp only [List.mem_cons, List.not_mem_nil, or_false] at ha hb
    rcases ha with rfl | rfl | rfl | rfl | rfl <;> rcases hb with rfl | rfl | rfl | rfl | rfl <;>
      first
        | exact absurd rfl hab
        | (rw [abs_sub_comm, sub_zero, abs_one]; exact t0)
        | (rw [sub_zero, abs_one]; exact t0)
        | (rw [abs_sub_comm, sub_zero, a1]; exact h0)
        | (rw [sub_zero, a1]; exact h0)
        | (rw [abs_sub_comm, a2]; exact h1)
        | (rw [a2]; exact h1)
  · rw [hkv]
    exact ⟨by norm_num, kvFun_mono _ hs, rfl, rfl, hx, hx1⟩
  · rw [hkv]
    intro i h2 h3
    have : i = 1 ∨ i = 2 := by omega
    rcases this with rfl | rfl
    · exact hx
    · exact hx1

theorem exampleSquare_valid : exampleSquare.Valid (1 / 10 ^ 15) :=
  ⟨ok_third (1 / 3) (by norm_num) (by norm_num), ok_third (1 / 3) (by norm_num) (by norm_num), rfl,
    by intro w hw; rw [← Option.some.inj hw]; rfl, by intro w hw; rw [← Option.some.inj hw]; decide +kernel⟩

theorem exampleUneven_valid : exampleUneven.Valid (1 / 10 ^ 15) :=
  ⟨ok_third (1 / 2) (by norm_num) (by norm_num), ok_third (1 / 3) (by norm_num) (by norm_num), rfl,
    by intro w hw; rw [← Option.some.inj hw]; rfl, by intro w hw; rw [← Option.some.inj hw]; decide +kernel⟩

example : ∃ cu cv, exampleSquare.extractCurves (1 / 10 ^ 15) [0, 1 / 3, 1 / 2] [1 / 4, 1] = some (cu, cv) ∧
    cu.length = 3 ∧ cv.length = 2 := by
  obtain ⟨cu, cv, h, h1, h2⟩ := C153_extract_partial (1 / 10 ^ 15) exampleSquare exampleSquare_valid ⟨rfl, rfl, rfl⟩
    [0, 1 / 3, 1 / 2] [1 / 4, 1]
    ⟨by simp, by decide +kernel, by
      intro a ha
      have : exampleSquare.kvU = [0, 0, 1 / 3, 1, 1] := rfl
      rw [this]; unfold InnerKnot
      revert a; decide +kernel⟩
    ⟨by simp, by decide +kernel, by
      intro a ha
      have : exampleSquare.kvV = [0, 0, 1 / 3, 1, 1] := rfl
      rw [this]; unfold InnerKnot
      revert a; decide +kernel⟩
  exact ⟨cu, cv, h, h1.length_eq, h2.length_eq⟩

/-- The full property, for the u curves: one curve for each parameter, the curve `u = a` of the surface. -/
def C153_extract_full_statement : Prop :=
  ∀ (s : BSurf ℚ (ℚ × ℚ × ℚ)), s.Valid (1 / 10 ^ 15) → ∀ us : List ℚ, us.Pairwise (· < ·) →
    (∀ a ∈ us, a = 0 ∨ a = 1 ∨ InnerKnot (1 / 10 ^ 15) s.kvU a) →
    ∃ cu cv, s.extractCurves (1 / 10 ^ 15) us [] = some (cu, cv) ∧
      List.Forall₂ (fun c a => ∀ t, 0 ≤ t → t ≤ 1 → c.eval t = s.eval a t) cu us

/-- **C153** it is false: the curve of a u parameter is given the degree and knots of the u direction, though its control
points run along v. -/
theorem C153_extract_counterexample : ¬ C153_extract_full_statement := by
  intro h
  obtain ⟨cu, cv, h1, h2⟩ := h exampleUneven exampleUneven_valid [1 / 4, 3 / 4] (by decide +kernel) (by
    have : exampleUneven.kvU = [0, 0, 1 / 2, 1, 1] := rfl
    rw [this]; unfold InnerKnot; decide +kernel)
  have h3 : (cu, cv) = (exampleUneven.extractCurves (1 / 10 ^ 15) [1 / 4, 3 / 4] []).getD ([], []) := by rw [h1]; rfl
  have h4 : cu = ((exampleUneven.extractCurves (1 / 10 ^ 15) [1 / 4, 3 / 4] []).getD ([], [])).1 := by rw [← h3]
  cases h2 with
  | cons a b =>
    have := a (1 / 2) (by norm_num) (by norm_num)
    rename_i c l
    have hc : c = (((exampleUneven.extractCurves (1 / 10 ^ 15) [1 / 4, 3 / 4] []).getD ([], [])).1).headD
        ⟨0, [], [], [], none⟩ := by rw [← h4]; rfl
    rw [hc] at this
    revert this
    decide +kernel

/-- **C153** and the curve of a single parameter is listed twice. -/
theorem C153_extract_single_counterexample : ¬ C153_extract_full_statement := by
  intro h
  obtain ⟨cu, cv, h1, h2⟩ := h exampleSquare exampleSquare_valid [1 / 2] (by decide +kernel) (by
    have : exampleSquare.kvU = [0, 0, 1 / 3, 1, 1] := rfl
    rw [this]; unfold InnerKnot; decide +kernel)
  have h3 : (cu, cv) = (exampleSquare.extractCurves (1 / 10 ^ 15) [1 / 2] []).getD ([], []) := by rw [h1]; rfl
  have h4 : cu = ((exampleSquare.extractCurves (1 / 10 ^ 15) [1 / 2] []).getD ([], [])).1 := by rw [← h3]
  have h5 := h2.length_eq
  rw [h4] at h5
  revert h5
  decide +kernel

end
end Volmdlr
