import Verif.Motion.SpaceProps
import Verif.Nurbs.Refine

/-!
# Moves of B-spline curves and surfaces (C187)
-/

namespace Volmdlr.Motion
open Finset

section
variable {K : Type*} [Field K] [LinearOrder K] [IsStrictOrderedRing K]
variable {V : Type*} [AddCommGroup V] [Module K V] {W : Type*} [AddCommGroup W] [Module K W]

/-- The affine map on weighted points. -/
def lift (A : V →ₗ[K] W) (b : W) : V × K →ₗ[K] W × K where
  toFun q := (A q.1 + q.2 • b, q.2)
  map_add' q r := by ext <;> simp [add_smul]; abel
  map_smul' k q := by ext <;> simp [smul_smul]

lemma ctrlptsw_map (A : V →ₗ[K] W) (b : W) (cp : List V) (w : List K) :
    BCurve.ctrlptsw (cp.map fun P => A P + b) w = (BCurve.ctrlptsw cp w).map (lift A b) := by
  unfold BCurve.ctrlptsw
  rw [List.zipWith_map_left, List.map_zipWith]
  congr 1
  funext P a
  simp [lift, smul_add]

omit [LinearOrder K] [IsStrictOrderedRing K] [Module K V] [Module K W] in
lemma cpFun_map {V' W' : Type*} [AddCommGroup V'] [AddCommGroup W'] (f : V' → W') (cp : List V') (i : ℕ) (h : i < cp.length) :
    cpFun (cp.map f) i = f (cpFun cp i) := by
  unfold cpFun
  rw [List.getD_eq_getElem _ _ (by simpa using h), List.getD_eq_getElem _ _ h, List.getElem_map]

lemma snd_pos {n : ℕ} {P : ℕ → V × K} (a : ℕ → K) (h0 : ∀ i, 0 ≤ a i) (h1 : ∑ i ∈ range n, a i = 1) (hP : ∀ i < n, 0 < (P i).2) :
    0 < (∑ i ∈ range n, a i • P i).2 := by
  rw [Prod.snd_sum]
  have : ∃ i ∈ range n, 0 < a i := by
    by_contra hc
    push Not at hc
    have := sum_nonpos hc
    rw [h1] at this
    exact absurd this (by norm_num)
  obtain ⟨i, hi, hp⟩ := this
  refine sum_pos' (fun j hj => ?_) ⟨i, hi, ?_⟩
  · exact mul_nonneg (h0 j) (hP j (mem_range.1 hj)).le
  · exact mul_pos hp (hP i (mem_range.1 hi))

lemma weights_pos (cp : List V) (w : List K) (hl : w.length = cp.length) (hw : ∀ a ∈ w, 0 < a) (i : ℕ) (hi : i < cp.length) :
    0 < (cpFun (BCurve.ctrlptsw cp w) i).2 := by
  have hlen := ctrlptsw_length cp w hl
  unfold cpFun
  rw [List.getD_eq_getElem _ _ (by omega)]
  unfold BCurve.ctrlptsw
  rw [List.getElem_zipWith]
  exact hw _ (List.getElem_mem _)

/-- C187: the spline built from the mapped control points of a well-formed curve, rational or not, is well formed, has the same knots and weights,
and its point at every parameter is the image of the point of the curve, for every affine map (translation, rotation, change of frame,
projection on a plane). -/
theorem C187_curve_affine (tol : K) (c : BCurve K V) (hv : c.Valid tol) (A : V →ₗ[K] W) (b : W) (u : K) (h0 : 0 ≤ u) (h1 : u ≤ 1) :
    (moveCurve (fun P => A P + b) c).Valid tol ∧ (moveCurve (fun P => A P + b) c).knotvector = c.knotvector ∧
      (moveCurve (fun P => A P + b) c).weights = c.weights ∧ (moveCurve (fun P => A P + b) c).eval u = A (c.eval u) + b := by
  have hkn : standardizeKnotVector c.knots = c.knots := standardize_of_unit _ hv.headK hv.lastK
  have hw : (match c.weights with
      | none => none
      | some w => if w.any (fun a => a ≠ 0) then some w else none) = c.weights := by
    cases hcw : c.weights with
    | none => rfl
    | some w =>
      have := hv.clamped.pn
      have hl := hv.wlen w hcw
      dsimp only
      rw [if_pos (any_ne_zero w (hv.wpos w hcw) (by omega))]
  have hc' : moveCurve (fun P => A P + b) c = ⟨c.degree, c.ctrlpts.map fun P => A P + b, c.mults, c.knots, c.weights⟩ := by
    unfold moveCurve BCurve.new
    rw [hkn]
    congr 1
  rw [hc']
  refine ⟨hv.knotsOK.valid _ (by simp) _ hv.wlen hv.wpos, rfl, rfl, ?_⟩
  have hpn := hv.clamped.pn
  have d0 : kvFun c.knotvector c.degree ≤ u := by rw [hv.dom0]; exact h0
  have d1 : u ≤ kvFun c.knotvector c.ctrlpts.length := by rw [hv.dom1]; exact h1
  unfold BCurve.eval
  change (match c.weights with
    | none => curvePoint c.degree (kvFun c.knotvector) (cpFun (c.ctrlpts.map fun P => A P + b)) (c.ctrlpts.map fun P => A P + b).length u
    | some w => curvePointRational c.degree (kvFun c.knotvector) (cpFun (BCurve.ctrlptsw (c.ctrlpts.map fun P => A P + b) w))
        (c.ctrlpts.map fun P => A P + b).length u) = _
  rw [List.length_map]
  cases hcw : c.weights with
  | none =>
    dsimp only
    rw [← C21_affine _ _ _ hv.clamped _ u d0 d1 A b]
    exact curvePoint_congr _ _ _ _ _ hpn (fun i hi => cpFun_map _ _ i hi) u
  | some w =>
    have hl := hv.wlen w hcw
    have hlen := ctrlptsw_length c.ctrlpts w hl
    dsimp only
    unfold curvePointRational
    dsimp only
    rw [ctrlptsw_map]
    have e : curvePoint c.degree (kvFun c.knotvector) (cpFun ((BCurve.ctrlptsw c.ctrlpts w).map (lift A b))) c.ctrlpts.length u =
        lift A b (curvePoint c.degree (kvFun c.knotvector) (cpFun (BCurve.ctrlptsw c.ctrlpts w)) c.ctrlpts.length u) := by
      have := C21_affine _ _ _ hv.clamped (cpFun (BCurve.ctrlptsw c.ctrlpts w)) u d0 d1 (lift A b) 0
      rw [add_zero] at this
      rw [← this]
      exact curvePoint_congr _ _ _ _ _ hpn (fun i hi => by rw [cpFun_map _ _ i (by omega), add_zero]) u
    have pos : 0 < (curvePoint c.degree (kvFun c.knotvector) (cpFun (BCurve.ctrlptsw c.ctrlpts w)) c.ctrlpts.length u).2 := by
      obtain ⟨a, a0, a1, hx⟩ := C21_convex_hull _ _ _ hv.clamped (cpFun (BCurve.ctrlptsw c.ctrlpts w)) u d0 d1
      rw [hx]
      exact snd_pos a a0 a1 (fun i hi => weights_pos _ _ hl (hv.wpos w hcw) i hi)
    rw [e]
    generalize curvePoint c.degree (kvFun c.knotvector) (cpFun (BCurve.ctrlptsw c.ctrlpts w)) c.ctrlpts.length u = q at *
    simp only [lift, LinearMap.coe_mk, AddHom.coe_mk, smul_add, map_smul, smul_smul]
    rw [inv_mul_cancel₀ pos.ne', one_smul]

lemma surfacePoint_congr (pu pv : ℕ) (Uu Uv : ℕ → K) (P P' : ℕ → V) (su sv : ℕ) (hu : pu < su) (hv : pv < sv)
    (h : ∀ i < su * sv, P i = P' i) (u v : K) : surfacePoint pu pv Uu Uv P su sv u v = surfacePoint pu pv Uu Uv P' su sv u v := by
  rw [surfacePoint_eq, surfacePoint_eq]
  refine curvePoint_congr _ _ _ _ _ hu (fun k hk => curvePoint_congr _ _ _ _ _ hv (fun m hm => h _ ?_) v) u
  calc m + sv * k < sv + sv * k := by omega
    _ = sv * (k + 1) := by ring
    _ ≤ sv * su := Nat.mul_le_mul_left _ hk
    _ = su * sv := by ring

/-- C187: the same for surfaces. -/
theorem C187_surface_affine (tol : K) (s : BSurf K V) (hv : s.Valid tol) (A : V →ₗ[K] W) (b : W) (u v : K) (hu0 : 0 ≤ u) (hu1 : u ≤ 1)
    (hv0 : 0 ≤ v) (hv1 : v ≤ 1) :
    (moveSurf (fun P => A P + b) s).Valid tol ∧ (moveSurf (fun P => A P + b) s).kvU = s.kvU ∧ (moveSurf (fun P => A P + b) s).kvV = s.kvV ∧
      (moveSurf (fun P => A P + b) s).weights = s.weights ∧ (moveSurf (fun P => A P + b) s).eval u v = A (s.eval u v) + b := by
  have hs' : moveSurf (fun P => A P + b) s =
      ⟨s.degreeU, s.degreeV, s.ctrlpts.map fun P => A P + b, s.nbU, s.nbV, s.uMults, s.vMults, s.uKnots, s.vKnots, s.weights⟩ := by
    unfold moveSurf BSurf.new
    rw [standardize_of_unit _ hv.uOK.headK hv.uOK.lastK, standardize_of_unit _ hv.vOK.headK hv.vOK.lastK]
  rw [hs']
  refine ⟨⟨hv.uOK, hv.vOK, by simpa using hv.len, by simpa using hv.wlen, hv.wpos⟩, rfl, rfl, rfl, ?_⟩
  have hpu := hv.uOK.clamped.pn
  have hpv := hv.vOK.clamped.pn
  have e0 : kvFun s.kvU s.degreeU ≤ u := hv.uOK.dom0.trans_le hu0
  have e1 : u ≤ kvFun s.kvU s.nbU := hu1.trans_eq hv.uOK.dom1.symm
  have f0 : kvFun s.kvV s.degreeV ≤ v := hv.vOK.dom0.trans_le hv0
  have f1 : v ≤ kvFun s.kvV s.nbV := hv1.trans_eq hv.vOK.dom1.symm
  have cu : Clamped s.degreeU s.nbU (kvFun s.kvU) := hv.uOK.clamped
  have cv : Clamped s.degreeV s.nbV (kvFun s.kvV) := hv.vOK.clamped
  unfold BSurf.eval
  change (match s.weights with
    | none => surfacePoint s.degreeU s.degreeV (kvFun s.kvU) (kvFun s.kvV) (cpFun (s.ctrlpts.map fun P => A P + b)) s.nbU s.nbV u v
    | some w => surfacePointRational s.degreeU s.degreeV (kvFun s.kvU) (kvFun s.kvV)
        (cpFun (BCurve.ctrlptsw (s.ctrlpts.map fun P => A P + b) w)) s.nbU s.nbV u v) = _
  cases hcw : s.weights with
  | none =>
    dsimp only
    rw [← C62_affine _ _ _ _ _ _ _ cu cv u v e0 e1 f0 f1 A b]
    exact surfacePoint_congr _ _ _ _ _ _ _ _ hpu hpv (fun i hi => cpFun_map _ _ i (by rw [hv.len]; exact hi)) u v
  | some w =>
    have hl := hv.wlen w hcw
    have hlen := ctrlptsw_length s.ctrlpts w hl
    have hn := hv.len
    dsimp only
    unfold surfacePointRational
    dsimp only
    rw [ctrlptsw_map]
    have e : surfacePoint s.degreeU s.degreeV (kvFun s.kvU) (kvFun s.kvV) (cpFun ((BCurve.ctrlptsw s.ctrlpts w).map (lift A b))) s.nbU s.nbV u v =
        lift A b (surfacePoint s.degreeU s.degreeV (kvFun s.kvU) (kvFun s.kvV) (cpFun (BCurve.ctrlptsw s.ctrlpts w)) s.nbU s.nbV u v) := by
      have := C62_affine _ _ _ _ (cpFun (BCurve.ctrlptsw s.ctrlpts w)) _ _ cu cv u v e0 e1 f0 f1 (lift A b) 0
      rw [add_zero] at this
      rw [← this]
      exact surfacePoint_congr _ _ _ _ _ _ _ _ hpu hpv (fun i hi => by rw [cpFun_map _ _ i (by omega), add_zero]) u v
    have pos : 0 < (surfacePoint s.degreeU s.degreeV (kvFun s.kvU) (kvFun s.kvV) (cpFun (BCurve.ctrlptsw s.ctrlpts w)) s.nbU s.nbV u v).2 := by
      rw [surfacePoint_eq]
      obtain ⟨a, a0, a1, hx⟩ := C21_convex_hull _ _ _ cu
        (fun k => curvePoint s.degreeV (kvFun s.kvV) (fun m => cpFun (BCurve.ctrlptsw s.ctrlpts w) (m + s.nbV * k)) s.nbV v) u e0 e1
      rw [hx]
      refine snd_pos a a0 a1 (fun k hk => ?_)
      obtain ⟨a', a0', a1', hx'⟩ := C21_convex_hull _ _ _ cv (fun m => cpFun (BCurve.ctrlptsw s.ctrlpts w) (m + s.nbV * k)) v f0 f1
      rw [hx']
      refine snd_pos a' a0' a1' (fun m hm => weights_pos _ _ hl (hv.wpos w hcw) _ ?_)
      rw [hn]
      calc m + s.nbV * k < s.nbV + s.nbV * k := by omega
        _ = s.nbV * (k + 1) := by ring
        _ ≤ s.nbV * s.nbU := Nat.mul_le_mul_left _ hk
        _ = s.nbU * s.nbV := by ring
    rw [e]
    generalize surfacePoint s.degreeU s.degreeV (kvFun s.kvU) (kvFun s.kvV) (cpFun (BCurve.ctrlptsw s.ctrlpts w)) s.nbU s.nbV u v = q at *
    simp only [lift, LinearMap.coe_mk, AddHom.coe_mk, smul_add, map_smul, smul_smul]
    rw [inv_mul_cancel₀ pos.ne', one_smul]

end

/-! ## The moves are affine -/

/-- Points of space as triples (a vector space). -/
def triple (p : V3 ℝ) : ℝ × ℝ × ℝ := (p.x, p.y, p.z)

/-- The point of a triple. -/
def point (q : ℝ × ℝ × ℝ) : V3 ℝ := ⟨q.1, q.2.1, q.2.2⟩

/-- C187: every proper move is an affine map of the triples of coordinates: the theorems above apply to translations, rotations and changes of
frame of spline curves and surfaces of space. -/
theorem C187_moves (m : Move) (_h : m.Proper) :
    ∃ (A : ℝ × ℝ × ℝ →ₗ[ℝ] ℝ × ℝ × ℝ) (b : ℝ × ℝ × ℝ), ∀ q, triple (m.map (point q)) = A q + b := by
  refine ⟨⟨⟨fun q => triple (m.turn (point q)), fun q r => ?_⟩, fun k q => ?_⟩, triple (m.map (point 0)), fun q => ?_⟩
  · have : point (q + r) = point q + point r := by ext <;> simp [point]
    rw [this, turn_add]
    rfl
  · have : point (k • q) = V3.smul k (point q) := by ext <;> simp [point, mul_comm]
    dsimp only
    rw [this, turn_smul]
    simp [triple]
    refine ⟨?_, ?_, ?_⟩ <;> ring
  · change _ = triple (m.turn (point q)) + _
    have : point q = point 0 + point q := by ext <;> simp [point]
    conv_lhs => rw [this, map_add]
    unfold triple
    ext <;> simp [add_comm]

/-- C187: in particular a spline of space of well-formed knots and positive weights, moved by the code where nothing is rounded, is the moved
curve at every parameter. -/
theorem C187_curve_partial (tol : ℝ) (m : Move) (h : m.Proper) (c : BCurve ℝ (ℝ × ℝ × ℝ)) (hv : c.Valid tol)
    (hs : ∀ q ∈ c.ctrlpts, m.SharpPoint (point q)) :
    c.ctrlpts.mapM (fun q => m.point (point q)) = .ok (c.ctrlpts.map fun q => m.map (point q)) ∧
      ∀ u, 0 ≤ u → u ≤ 1 → (moveCurve (fun q => triple (m.map (point q))) c).eval u = triple (m.map (point (c.eval u))) := by
  refine ⟨?_, fun u h0 h1 => ?_⟩
  · have key : ∀ l : List (ℝ × ℝ × ℝ), (∀ q ∈ l, m.SharpPoint (point q)) →
        l.mapM (fun q => m.point (point q)) = .ok (l.map fun q => m.map (point q)) := by
      intro l
      induction l with
      | nil => intro _; rfl
      | cons q l ih =>
        intro hl
        rw [List.mapM_cons, point_sharp h (hl q List.mem_cons_self), ih fun r hr => hl r (List.mem_cons_of_mem _ hr)]
        rfl
    exact key _ hs
  · obtain ⟨A, b, hA⟩ := C187_moves m h
    have e : (fun q => triple (m.map (point q))) = fun q => A q + b := funext hA
    rw [e, (C187_curve_affine tol c hv A b u h0 h1).2.2.2, hA]

/-! ## The symmetric curve -/

/-- C187, full statement about `axial_symmetry`: the symmetric curve is the mirrored curve. -/
def C187_symmetry_full_statement : Prop :=
  ∀ c : BCurve ℚ (ℚ × ℚ), c.Valid (1 / 10 ^ 15) → ∀ u, 0 ≤ u → u ≤ 1 →
    (symmetricCurve (fun q => (q.1, -q.2)) c).eval u = ((c.eval u).1, -(c.eval u).2)

section
variable {K : Type*} [Field K] [LinearOrder K] [IsStrictOrderedRing K]
variable {V : Type*} [AddCommGroup V] [Module K V] {W : Type*} [AddCommGroup W] [Module K W]

/-- C187: `axial_symmetry` gives the mirrored curve when the knots and their multiplicities read the same from the end. -/
theorem C187_symmetry_partial (tol : K) (c : BCurve K V) (hv : c.Valid tol) (hm : c.mults.reverse = c.mults)
    (hk : c.knots.reverse.map (fun k => 1 - k) = c.knots) (A : V →ₗ[K] W) (b : W) (u : K) (h0 : 0 ≤ u) (h1 : u ≤ 1) :
    (symmetricCurve (fun P => A P + b) c).eval u = A (c.eval u) + b := by
  have e : symmetricCurve (fun P => A P + b) c = moveCurve (fun P => A P + b) c := by
    unfold symmetricCurve moveCurve BCurve.new
    have e1 : standardizeKnotVector c.knots.reverse = standardizeKnotVector c.knots := by
      rw [standardize_of_unit c.knots hv.headK hv.lastK]
      unfold standardizeKnotVector
      have x0 : c.knots.reverse.headD 0 = 1 := by
        rw [List.headD_eq_head?_getD, List.head?_reverse, hv.lastK]; rfl
      have x1 : c.knots.reverse.getLastD 0 = 0 := by
        rw [List.getLastD_eq_getLast?, List.getLast?_reverse, hv.headK]; rfl
      rw [x0, x1]
      conv_rhs => rw [← hk]
      apply List.map_congr_left
      intro k _
      ring
    rw [hm, e1]
  rw [e]
  exact (C187_curve_affine tol c hv A b u h0 h1).2.2.2

end

/-- A quadratic curve with the knot vector `[0, 0, 0, 1/4, 1, 1, 1]`. -/
def lopsided : BCurve ℚ (ℚ × ℚ) := ⟨2, [(0, 0), (1, 2), (3, 1), (4, 5)], [3, 1, 3], [0, 1 / 4, 1], none⟩

lemma lopsided_valid : lopsided.Valid (1 / 10 ^ 15) := by
  have hs : ([0, 0, 0, 1 / 4, 1, 1, 1] : List ℚ).Pairwise (· ≤ ·) := by decide +kernel
  have hk : lopsided.knotvector = [0, 0, 0, 1 / 4, 1, 1, 1] := rfl
  refine ⟨by norm_num, show 0 < 2 by norm_num, rfl, rfl, rfl, ?_, ?_, rfl, ?_, ?_, ?_, ?_, (fun _ h => by cases h), (fun _ h => by cases h)⟩
  · rw [hk]; exact hs
  · rw [hk]; unfold Separated; decide +kernel
  · show Clamped 2 4 (kvFun [0, 0, 0, 1 / 4, 1, 1, 1])
    refine ⟨by decide +kernel, kvFun_mono _ hs, ?_, ?_, ?_, ?_⟩ <;> decide +kernel
  · show InteriorMult 2 4 (kvFun [0, 0, 0, 1 / 4, 1, 1, 1])
    intro i h3 h4
    rcases (by omega : i = 1 ∨ i = 2 ∨ i = 3) with rfl | rfl | rfl <;> decide +kernel
  · show kvFun [0, 0, 0, 1 / 4, 1, 1, 1] 2 = 0
    decide +kernel
  · show kvFun [0, 0, 0, 1 / 4, 1, 1, 1] 4 = 1
    decide +kernel

/-- C187: with other knots the symmetric curve is another curve: the knots are read from the end, the control points are not. -/
theorem C187_symmetry_counterexample : ¬C187_symmetry_full_statement := by
  intro h
  have := h lopsided lopsided_valid (1 / 2) (by norm_num) (by norm_num)
  revert this
  decide +kernel

/-- The hypotheses are met. -/
example : (exampleCurve (some [1, 2, 1, 3])).Valid (1 / 10 ^ 15) ∧ (exampleCurve none).mults.reverse = (exampleCurve none).mults ∧
    (exampleCurve none).knots.reverse.map (fun k => 1 - k) = (exampleCurve none).knots :=
  ⟨exampleCurve_valid _ (by simp) (by simp), by decide +kernel, by decide +kernel⟩

example : ∃ (m : Move) (q : ℝ × ℝ × ℝ), m.Proper ∧ m.SharpPoint (point q) ∧ triple (m.map (point q)) = (1, 5, 3) :=
  ⟨.translation ⟨0, 5, 0⟩, (1, 0, 3), trivial, trivial, by simp [triple, point, Move.map]⟩

end Volmdlr.Motion
