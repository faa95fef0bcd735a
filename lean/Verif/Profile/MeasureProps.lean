import Verif.Profile.MomentProps
import Mathlib.MeasureTheory.Function.Jacobian
import Mathlib.Analysis.SpecialFunctions.PolarCoord
import Mathlib.MeasureTheory.Integral.Prod
import Mathlib.Analysis.SpecialFunctions.Integrals.Basic

/-!
# The line integrals of a contour are integrals over what it bounds

For a contour seen from a point `o` (each half line from `o` meets it once), the line integrals `integralOf` are Lebesgue integrals over the region: with
C129, C130 and C131, the area, the centre of mass and the second moments are those of the region.
-/

namespace Volmdlr.Profile

open Real MeasureTheory Set Volmdlr.Angle Volmdlr.Arc

/-! ## Specification -/

/-- The point at the fraction `r` of the way from `o` to the point `t` of a primitive. -/
noncomputable def fan (o : V2 ℝ) (e : Edge) (z : ℝ × ℝ) : ℝ × ℝ :=
  (o.x + z.1 * ((e.path z.2).x - o.x), o.y + z.1 * ((e.path z.2).y - o.y))

/-- The region: the segments from `o` to the points of the contour. -/
def Region (o : V2 ℝ) (contour : List Edge) : Set (ℝ × ℝ) := {P | ∃ e ∈ contour, ∃ r ∈ Icc (0 : ℝ) 1, ∃ t ∈ Icc (0 : ℝ) 1, P = fan o e (r, t)}

/-- The contour is seen from `o`: it turns around `o` always in the same direction, and each half line from `o` meets it once (ends of primitives apart). -/
structure Star (σ : ℝ) (o : V2 ℝ) (contour : List Edge) : Prop where
  sign : σ = 1 ∨ σ = -1
  turns : ∀ e ∈ contour, ∀ t ∈ Ioo (0 : ℝ) 1, 0 < σ * V2.cross (e.path t - o) (e.velocity t)
  once : ∀ e ∈ contour, ∀ t ∈ Ioo (0 : ℝ) 1, ∀ u ∈ Ioo (0 : ℝ) 1, ∀ k : ℝ, 0 < k → e.path t - o = V2.smul k (e.path u - o) → t = u
  apart : contour.Pairwise fun e f => ∀ t ∈ Ioo (0 : ℝ) 1, ∀ u ∈ Ioo (0 : ℝ) 1, ∀ k : ℝ, 0 < k → e.path t - o ≠ V2.smul k (f.path u - o)

/-! ## Paths -/

/-- A primitive has a continuous velocity. -/
structure Smooth (e : Edge) : Prop where
  dx : ∀ t, HasDerivAt (fun s => (e.path s).x) (e.velocity t).x t
  dy : ∀ t, HasDerivAt (fun s => (e.path s).y) (e.velocity t).y t
  cx : Continuous fun t => (e.velocity t).x
  cy : Continuous fun t => (e.velocity t).y
  start : e.path 0 = e.start
  fin : e.path 1 = e.fin

theorem seg_smooth (a b : V2 ℝ) : Smooth (.seg a b) := by
  have hx : ∀ t, HasDerivAt (fun s => ((Edge.seg a b).path s).x) (b.x - a.x) t := by
    intro t
    simp only [seg_path]
    simpa using ((hasDerivAt_id t).mul_const (b.x - a.x)).const_add a.x
  have hy : ∀ t, HasDerivAt (fun s => ((Edge.seg a b).path s).y) (b.y - a.y) t := by
    intro t
    simp only [seg_path]
    simpa using ((hasDerivAt_id t).mul_const (b.y - a.y)).const_add a.y
  refine ⟨fun t => by rw [seg_velocity]; exact hx t, fun t => by rw [seg_velocity]; exact hy t, ?_, ?_, ?_, ?_⟩
  · simp only [seg_velocity]; exact continuous_const
  · simp only [seg_velocity]; exact continuous_const
  · rw [seg_path]; ext <;> simp [Edge.start]
  · rw [seg_path]; ext <;> simp [Edge.fin]

theorem arc_smooth {a : Arc2} (h : GoodArc a) : Smooth (.arc a) := by
  obtain ⟨ψ, σ, -, -, -, -, hR, hlen, hpath, hstart, hfin, -⟩ := arc_shape h
  have hpath' : ∀ t, (Edge.arc a).path t = ⟨a.circle.frame.origin.x + a.circle.radius * cos (ψ + t * (σ * a.angle)),
      a.circle.frame.origin.y + a.circle.radius * sin (ψ + t * (σ * a.angle))⟩ := by
    intro t
    change a.pointAtAbscissa (t * a.length) = _
    rw [hpath, hlen, show σ * (t * (a.circle.radius * a.angle) / a.circle.radius) = t * (σ * a.angle) by field_simp]
  have hin : ∀ t, HasDerivAt (fun s : ℝ => ψ + s * (σ * a.angle)) (σ * a.angle) t := by
    intro t
    simpa using ((hasDerivAt_id t).mul_const (σ * a.angle)).const_add ψ
  have hx : ∀ t, HasDerivAt (fun s => ((Edge.arc a).path s).x) (a.circle.radius * (-sin (ψ + t * (σ * a.angle)) * (σ * a.angle))) t := by
    intro t
    simp only [hpath']
    exact ((hin t).cos.const_mul a.circle.radius).const_add _
  have hy : ∀ t, HasDerivAt (fun s => ((Edge.arc a).path s).y) (a.circle.radius * (cos (ψ + t * (σ * a.angle)) * (σ * a.angle))) t := by
    intro t
    simp only [hpath']
    exact ((hin t).sin.const_mul a.circle.radius).const_add _
  have hvx : (fun t => ((Edge.arc a).velocity t).x) = fun t => a.circle.radius * (-sin (ψ + t * (σ * a.angle)) * (σ * a.angle)) := by
    funext t; exact (hx t).deriv
  have hvy : (fun t => ((Edge.arc a).velocity t).y) = fun t => a.circle.radius * (cos (ψ + t * (σ * a.angle)) * (σ * a.angle)) := by
    funext t; exact (hy t).deriv
  refine ⟨fun t => ?_, fun t => ?_, ?_, ?_, ?_, ?_⟩
  · have := congrFun hvx t; rw [this]; exact hx t
  · have := congrFun hvy t; rw [this]; exact hy t
  · rw [hvx]; fun_prop
  · rw [hvy]; fun_prop
  · rw [hpath', zero_mul, add_zero]; exact hstart.symm
  · rw [hpath', one_mul]; exact hfin.symm

theorem IsContour.smooth {contour : List Edge} (h : IsContour contour) {e : Edge} (he : e ∈ contour) : Smooth e := by
  cases e with
  | seg a b => exact seg_smooth a b
  | arc a => exact arc_smooth (h.arcs a he)

/-! ## One primitive -/

/-- The derivative of `fan`. -/
noncomputable def fanDeriv (o : V2 ℝ) (e : Edge) (z : ℝ × ℝ) : ℝ × ℝ →L[ℝ] ℝ × ℝ :=
  (Matrix.toLin (.finTwoProd ℝ) (.finTwoProd ℝ)
    !![(e.path z.2).x - o.x, z.1 * (e.velocity z.2).x; (e.path z.2).y - o.y, z.1 * (e.velocity z.2).y]).toContinuousLinearMap

theorem fan_hasFDerivAt (o : V2 ℝ) {e : Edge} (h : Smooth e) (z : ℝ × ℝ) : HasFDerivAt (fan o e) (fanDeriv o e z) z := by
  unfold fanDeriv
  rw [Matrix.toLin_finTwoProd_toContinuousLinearMap]
  convert! HasFDerivAt.prodMk (𝕜 := ℝ)
    ((hasFDerivAt_fst.mul (((h.dx z.2).sub_const o.x).comp_hasFDerivAt z hasFDerivAt_snd)).const_add o.x)
    ((hasFDerivAt_fst.mul (((h.dy z.2).sub_const o.y).comp_hasFDerivAt z hasFDerivAt_snd)).const_add o.y) using 2 <;>
  simp [smul_smul, add_comm]

theorem fanDeriv_det (o : V2 ℝ) (e : Edge) (z : ℝ × ℝ) : (fanDeriv o e z).det = z.1 * V2.cross (e.path z.2 - o) (e.velocity z.2) := by
  unfold fanDeriv
  simp only [LinearMap.det_toContinuousLinearMap, LinearMap.det_toLin, Matrix.det_fin_two_of, V2.cross, V2.sub_x, V2.sub_y]
  ring

/-- The open square. -/
def square : Set (ℝ × ℝ) := Ioo (0 : ℝ) 1 ×ˢ Ioo (0 : ℝ) 1

theorem fan_injOn {o : V2 ℝ} {e : Edge} {σ : ℝ} (hturn : ∀ t ∈ Ioo (0 : ℝ) 1, 0 < σ * V2.cross (e.path t - o) (e.velocity t))
    (honce : ∀ t ∈ Ioo (0 : ℝ) 1, ∀ u ∈ Ioo (0 : ℝ) 1, ∀ k : ℝ, 0 < k → e.path t - o = V2.smul k (e.path u - o) → t = u) :
    InjOn (fan o e) square := by
  rintro ⟨r, t⟩ ⟨hr, ht⟩ ⟨s, u⟩ ⟨hs, hu⟩ h
  simp only at hr ht hs hu
  have hx : r * ((e.path t).x - o.x) = s * ((e.path u).x - o.x) := by
    have := congrArg Prod.fst h; simp only [fan] at this; linarith
  have hy : r * ((e.path t).y - o.y) = s * ((e.path u).y - o.y) := by
    have := congrArg Prod.snd h; simp only [fan] at this; linarith
  have hr0 : r ≠ 0 := hr.1.ne'
  have htu : t = u := by
    refine honce t ht u hu (s / r) (div_pos hs.1 hr.1) ?_
    ext
    · simp only [V2.sub_x, V2.smul]; field_simp; linarith
    · simp only [V2.sub_y, V2.smul]; field_simp; linarith
  subst htu
  have hne := hturn t ht
  have hrs : r = s := by
    by_contra hc
    have hz : ∀ w : ℝ, r * w = s * w → w = 0 := by
      intro w hw
      have : (r - s) * w = 0 := by linarith
      exact (mul_eq_zero.1 this).resolve_left (sub_ne_zero.2 hc)
    have h1 := hz _ hx
    have h2 := hz _ hy
    simp only [V2.cross, V2.sub_x, V2.sub_y, h1, h2] at hne
    simp at hne
  rw [hrs]

/-- The integral of a homogeneous function over the part of the region in front of a primitive. -/
theorem fan_integral {o : V2 ℝ} {e : Edge} {σ : ℝ} (h : Smooth e) (hσ : σ = 1 ∨ σ = -1)
    (hturn : ∀ t ∈ Ioo (0 : ℝ) 1, 0 < σ * V2.cross (e.path t - o) (e.velocity t))
    (honce : ∀ t ∈ Ioo (0 : ℝ) 1, ∀ u ∈ Ioo (0 : ℝ) 1, ∀ k : ℝ, 0 < k → e.path t - o = V2.smul k (e.path u - o) → t = u)
    (p : V2 ℝ → ℝ) (k : ℕ) (hp : ∀ (v : V2 ℝ) (r : ℝ), 0 < r → p ⟨r * v.x, r * v.y⟩ = r ^ k * p v) :
    ∫ P in fan o e '' square, p ⟨P.1 - o.x, P.2 - o.y⟩ = σ * sweep p k o e := by
  have hsq : MeasurableSet square := measurableSet_Ioo.prod measurableSet_Ioo
  rw [integral_image_eq_integral_abs_det_fderiv_smul volume hsq (fun z _ => (fan_hasFDerivAt o h z).hasFDerivWithinAt) (fan_injOn hturn honce)]
  have e1 : ∫ z in square, |(fanDeriv o e z).det| • p ⟨(fan o e z).1 - o.x, (fan o e z).2 - o.y⟩ =
      ∫ z in square, z.1 ^ (k + 1) * (σ * (p (e.path z.2 - o) * V2.cross (e.path z.2 - o) (e.velocity z.2))) := by
    refine setIntegral_congr_fun hsq fun z hz => ?_
    have hz1 := hz.1
    have hz2 := hturn z.2 hz.2
    have hc : |V2.cross (e.path z.2 - o) (e.velocity z.2)| = σ * V2.cross (e.path z.2 - o) (e.velocity z.2) := by
      rw [← abs_of_pos hz2, abs_mul]
      rcases hσ with e | e <;> rw [e] <;> simp
    simp only [fanDeriv_det, smul_eq_mul]
    rw [abs_mul, abs_of_pos hz1.1, hc]
    have : (⟨(fan o e z).1 - o.x, (fan o e z).2 - o.y⟩ : V2 ℝ) = ⟨z.1 * (e.path z.2 - o).x, z.1 * (e.path z.2 - o).y⟩ := by
      simp only [fan, V2.sub_x, V2.sub_y]
      ext <;> simp
    rw [this, hp _ _ hz1.1]
    ring
  have e2 := setIntegral_prod_mul (μ := (volume : Measure ℝ)) (ν := (volume : Measure ℝ)) (fun r : ℝ => r ^ (k + 1))
    (fun t : ℝ => σ * (p (e.path t - o) * V2.cross (e.path t - o) (e.velocity t))) (Ioo 0 1) (Ioo 0 1)
  rw [e1, square]
  refine (show _ = _ from e2).trans ?_
  rw [← integral_Ioc_eq_integral_Ioo, ← integral_Ioc_eq_integral_Ioo, ← intervalIntegral.integral_of_le zero_le_one,
    ← intervalIntegral.integral_of_le zero_le_one, intervalIntegral.integral_const_mul, integral_pow]
  unfold sweep
  push_cast
  rw [one_pow, zero_pow (by omega)]
  ring

theorem Smooth.path_x {e : Edge} (h : Smooth e) : Continuous fun t => (e.path t).x := continuous_iff_continuousAt.2 fun t => (h.dx t).continuousAt

theorem Smooth.path_y {e : Edge} (h : Smooth e) : Continuous fun t => (e.path t).y := continuous_iff_continuousAt.2 fun t => (h.dy t).continuousAt

theorem fan_integrable {o : V2 ℝ} {e : Edge} {σ : ℝ} (h : Smooth e)
    (hturn : ∀ t ∈ Ioo (0 : ℝ) 1, 0 < σ * V2.cross (e.path t - o) (e.velocity t))
    (honce : ∀ t ∈ Ioo (0 : ℝ) 1, ∀ u ∈ Ioo (0 : ℝ) 1, ∀ k : ℝ, 0 < k → e.path t - o = V2.smul k (e.path u - o) → t = u)
    (p : V2 ℝ → ℝ) (hc : Continuous fun P : ℝ × ℝ => p ⟨P.1, P.2⟩) :
    IntegrableOn (fun P : ℝ × ℝ => p ⟨P.1 - o.x, P.2 - o.y⟩) (fan o e '' square) := by
  have hsq : MeasurableSet square := measurableSet_Ioo.prod measurableSet_Ioo
  rw [integrableOn_image_iff_integrableOn_abs_det_fderiv_smul volume hsq (fun z _ => (fan_hasFDerivAt o h z).hasFDerivWithinAt) (fan_injOn hturn honce)]
  have hx : Continuous fun z : ℝ × ℝ => (e.path z.2).x := h.path_x.comp continuous_snd
  have hy : Continuous fun z : ℝ × ℝ => (e.path z.2).y := h.path_y.comp continuous_snd
  have vx : Continuous fun z : ℝ × ℝ => (e.velocity z.2).x := h.cx.comp continuous_snd
  have vy : Continuous fun z : ℝ × ℝ => (e.velocity z.2).y := h.cy.comp continuous_snd
  have hpz : Continuous fun z : ℝ × ℝ => p ⟨(fan o e z).1 - o.x, (fan o e z).2 - o.y⟩ := by
    refine hc.comp (f := fun z : ℝ × ℝ => ((fan o e z).1 - o.x, (fan o e z).2 - o.y)) ?_
    simp only [fan]
    fun_prop
  have hcont : Continuous fun z : ℝ × ℝ => |(fanDeriv o e z).det| • p ⟨(fan o e z).1 - o.x, (fan o e z).2 - o.y⟩ := by
    simp only [fanDeriv_det, V2.cross, V2.sub_x, V2.sub_y]
    exact (by fun_prop : Continuous fun z : ℝ × ℝ =>
      |z.1 * (((e.path z.2).x - o.x) * (e.velocity z.2).y - ((e.path z.2).y - o.y) * (e.velocity z.2).x)|).smul hpz
  have hcomp : IsCompact (Icc (0 : ℝ) 1 ×ˢ Icc (0 : ℝ) 1) := isCompact_Icc.prod isCompact_Icc
  exact (hcont.continuousOn.integrableOn_compact hcomp).mono_set (prod_mono Ioo_subset_Icc_self Ioo_subset_Icc_self)

theorem fan_measurable {o : V2 ℝ} {e : Edge} {σ : ℝ} (h : Smooth e)
    (hturn : ∀ t ∈ Ioo (0 : ℝ) 1, 0 < σ * V2.cross (e.path t - o) (e.velocity t))
    (honce : ∀ t ∈ Ioo (0 : ℝ) 1, ∀ u ∈ Ioo (0 : ℝ) 1, ∀ k : ℝ, 0 < k → e.path t - o = V2.smul k (e.path u - o) → t = u) :
    MeasurableSet (fan o e '' square) :=
  measurable_image_of_fderivWithin (measurableSet_Ioo.prod measurableSet_Ioo) (fun z _ => (fan_hasFDerivAt o h z).hasFDerivWithinAt)
    (fan_injOn hturn honce)

/-! ## All the primitives -/

/-- The part of the region in front of the inner points of the primitives. -/
def Inner (o : V2 ℝ) (contour : List Edge) : Set (ℝ × ℝ) := {P | ∃ e ∈ contour, P ∈ fan o e '' square}

theorem inner_cons (o : V2 ℝ) (e : Edge) (l : List Edge) : Inner o (e :: l) = fan o e '' square ∪ Inner o l := by
  ext P
  simp [Inner]

theorem inner_spec {σ : ℝ} {o : V2 ℝ} (hσ : σ = 1 ∨ σ = -1) : ∀ {l : List Edge}, (∀ e ∈ l, Smooth e) → Star σ o l →
    ∀ (p : V2 ℝ → ℝ) (k : ℕ), (∀ (v : V2 ℝ) (r : ℝ), 0 < r → p ⟨r * v.x, r * v.y⟩ = r ^ k * p v) → (Continuous fun P : ℝ × ℝ => p ⟨P.1, P.2⟩) →
    MeasurableSet (Inner o l) ∧ IntegrableOn (fun P : ℝ × ℝ => p ⟨P.1 - o.x, P.2 - o.y⟩) (Inner o l) ∧
    ∫ P in Inner o l, p ⟨P.1 - o.x, P.2 - o.y⟩ = σ * integralOf p k o l := by
  intro l
  induction l with
  | nil =>
    intro _ _ p k _ _
    have : Inner o [] = ∅ := by ext P; simp [Inner]
    rw [this]
    simp [integralOf]
  | cons e l ih =>
    intro hsm hst p k hp hc
    have hst' : Star σ o l := ⟨hst.sign, fun e he => hst.turns e (List.mem_cons_of_mem _ he), fun e he => hst.once e (List.mem_cons_of_mem _ he),
      (List.pairwise_cons.1 hst.apart).2⟩
    obtain ⟨m, i, v⟩ := ih (fun e he => hsm e (List.mem_cons_of_mem _ he)) hst' p k hp hc
    have hs := hsm e List.mem_cons_self
    have ht := hst.turns e List.mem_cons_self
    have ho := hst.once e List.mem_cons_self
    have m1 := fan_measurable hs ht ho
    have i1 := fan_integrable hs ht ho p hc
    have hd : Disjoint (fan o e '' square) (Inner o l) := by
      rw [Set.disjoint_left]
      rintro P ⟨z, hz, rfl⟩ ⟨f, hf, w, hw, hwz⟩
      have hx := congrArg Prod.fst hwz
      have hy := congrArg Prod.snd hwz
      simp only [fan] at hx hy
      refine (List.pairwise_cons.1 hst.apart).1 f hf z.2 hz.2 w.2 hw.2 (w.1 / z.1) (div_pos hw.1.1 hz.1.1) ?_
      have hz0 : z.1 ≠ 0 := hz.1.1.ne'
      ext
      · simp only [V2.sub_x, V2.smul]; field_simp; linarith
      · simp only [V2.sub_y, V2.smul]; field_simp; linarith
    rw [inner_cons]
    refine ⟨m1.union m, i1.union i, ?_⟩
    rw [setIntegral_union hd m i1 i, v, fan_integral hs hσ ht ho p k hp]
    simp only [integralOf, List.map_cons, List.sum_cons]
    ring

/-- The region is its inner part and a negligible set. -/
theorem region_ae {o : V2 ℝ} {contour : List Edge} (hsm : ∀ e ∈ contour, Smooth e) : Region o contour =ᵐ[volume] Inner o contour := by
  obtain ⟨B, hB⟩ : ∃ B : Set (ℝ × ℝ), B = (Icc (0 : ℝ) 1 ×ˢ Icc (0 : ℝ) 1) \ square := ⟨_, rfl⟩
  have hB0 : volume B = 0 := by
    rw [hB, square]
    have h1 : volume ((Icc (0 : ℝ) 1 ×ˢ Icc (0 : ℝ) 1)) = 1 := by
      rw [Measure.volume_eq_prod, Measure.prod_prod]; simp
    have h2 : volume ((Ioo (0 : ℝ) 1 ×ˢ Ioo (0 : ℝ) 1)) = 1 := by
      rw [Measure.volume_eq_prod, Measure.prod_prod]; simp
    rw [measure_sdiff (prod_mono Ioo_subset_Icc_self Ioo_subset_Icc_self) (measurableSet_Ioo.prod measurableSet_Ioo).nullMeasurableSet (by rw [h2]; simp), h1, h2]
    simp
  have hnull : volume {P | ∃ e ∈ contour, P ∈ fan o e '' B} = 0 := by
    have : {P | ∃ e ∈ contour, P ∈ fan o e '' B} = ⋃ e ∈ {e | e ∈ contour}, fan o e '' B := by ext P; simp
    rw [this, measure_biUnion_null_iff (Set.Finite.countable (List.finite_toSet contour))]
    intro e he
    exact addHaar_image_eq_zero_of_differentiableOn_of_addHaar_eq_zero volume
      (fun z _ => (fan_hasFDerivAt o (hsm e he) z).differentiableAt.differentiableWithinAt) hB0
  have hunion : Region o contour = Inner o contour ∪ {P | ∃ e ∈ contour, P ∈ fan o e '' B} := by
    ext P
    constructor
    · rintro ⟨e, he, r, hr, t, ht, rfl⟩
      by_cases hz : (r, t) ∈ square
      · exact Or.inl ⟨e, he, _, hz, rfl⟩
      · exact Or.inr ⟨e, he, (r, t), by rw [hB]; exact ⟨⟨hr, ht⟩, hz⟩, rfl⟩
    · rintro (⟨e, he, z, hz, rfl⟩ | ⟨e, he, z, hz, rfl⟩)
      · exact ⟨e, he, z.1, Ioo_subset_Icc_self hz.1, z.2, Ioo_subset_Icc_self hz.2, rfl⟩
      · rw [hB] at hz
        exact ⟨e, he, z.1, hz.1.1, z.2, hz.1.2, rfl⟩
  rw [hunion]
  exact union_ae_eq_left_of_ae_eq_empty (ae_eq_empty.2 hnull)

/-- The line integral of a homogeneous polynomial along a contour seen from `o` is its integral over the region. -/
theorem region_integral {σ : ℝ} {o : V2 ℝ} {contour : List Edge} (h : IsContour contour) (hst : Star σ o contour)
    (p : V2 ℝ → ℝ) (k : ℕ) (hp : ∀ (v : V2 ℝ) (r : ℝ), 0 < r → p ⟨r * v.x, r * v.y⟩ = r ^ k * p v) (hc : Continuous fun P : ℝ × ℝ => p ⟨P.1, P.2⟩) :
    IntegrableOn (fun P : ℝ × ℝ => p ⟨P.1 - o.x, P.2 - o.y⟩) (Region o contour) ∧
    ∫ P in Region o contour, p ⟨P.1 - o.x, P.2 - o.y⟩ = σ * integralOf p k o contour := by
  have hae := region_ae (o := o) fun e he => h.smooth he
  obtain ⟨-, i, v⟩ := inner_spec hst.sign (fun e he => h.smooth he) hst p k hp hc
  exact ⟨i.congr_set_ae hae, (setIntegral_congr_set hae).trans v⟩

/-! ## Change of origin -/

theorem sum_ends (F : V2 ℝ → ℝ) {contour : List Edge} (h : contour.map Edge.fin = (contour.map Edge.start).rotate 1) :
    (contour.map fun e => F e.fin - F e.start).sum = 0 := by
  have := sum_chords (fun p q => F q - F p) h
  rw [this, cyclicSum_telescope]

/-- The fundamental theorem along a primitive. -/
theorem exact_sweep {e : Edge} (h : Smooth e) (G : ℝ × ℝ → ℝ) (g : ℝ → ℝ) (hg : Continuous g)
    (hd : ∀ t, HasDerivAt (fun s => G ((e.path s).x, (e.path s).y)) (g t) t) :
    ∫ t in (0 : ℝ)..1, g t = G (e.fin.x, e.fin.y) - G (e.start.x, e.start.y) := by
  rw [intervalIntegral.integral_eq_sub_of_hasDerivAt (fun t _ => hd t) (hg.intervalIntegrable _ _), h.start, h.fin]

/-- What is exact in the change of origin of the first moments. -/
noncomputable def shiftX (o P : V2 ℝ) : ℝ :=
  o.x / 6 * ((P.x - o.x) * (P.y - o.y)) + 1 / 3 * (o.x ^ 2 * (P.y - o.y) - o.x * o.y * (P.x - o.x) - o.y / 2 * (P.x - o.x) ^ 2)

noncomputable def shiftY (o P : V2 ℝ) : ℝ :=
  -(o.y / 6) * ((P.x - o.x) * (P.y - o.y)) + 1 / 3 * (o.x / 2 * (P.y - o.y) ^ 2 + o.x * o.y * (P.y - o.y) - o.y ^ 2 * (P.x - o.x))

theorem first_shift_edge {e : Edge} (h : Smooth e) (o : V2 ℝ) :
    (sweep V2.x 1 ⟨0, 0⟩ e = sweep V2.x 1 o e + o.x * sweep (fun _ => 1) 0 o e +
      (shiftX o e.fin -
       shiftX o e.start)) ∧
    (sweep V2.y 1 ⟨0, 0⟩ e = sweep V2.y 1 o e + o.y * sweep (fun _ => 1) 0 o e +
      (shiftY o e.fin -
       shiftY o e.start)) := by
  have hx := h.path_x
  have hy := h.path_y
  have vx := h.cx
  have vy := h.cy
  constructor
  · have ex := exact_sweep h (fun P => o.x / 6 * ((P.1 - o.x) * (P.2 - o.y)) + 1 / 3 * (o.x ^ 2 * (P.2 - o.y) - o.x * o.y * (P.1 - o.x) - o.y / 2 * (P.1 - o.x) ^ 2))
      (fun t => 1 / 3 * ((e.path t).x * ((e.path t).x * (e.velocity t).y - (e.path t).y * (e.velocity t).x)) -
        (1 / 3 * (((e.path t).x - o.x) * (((e.path t).x - o.x) * (e.velocity t).y - ((e.path t).y - o.y) * (e.velocity t).x)) +
         o.x * (1 / 2 * (((e.path t).x - o.x) * (e.velocity t).y - ((e.path t).y - o.y) * (e.velocity t).x)))) (by fun_prop) (by
        intro t
        have d1 := (h.dx t).sub_const o.x
        have d2 := (h.dy t).sub_const o.y
        refine ((((d1.mul d2).const_mul (o.x / 6)).add
          ((((d2.const_mul (o.x ^ 2)).sub (d1.const_mul (o.x * o.y))).sub ((d1.pow 2).const_mul (o.y / 2))).const_mul (1 / 3)))).congr_deriv ?_
        push_cast
        ring)
    have i1 : IntervalIntegrable (fun t => 1 / 3 * ((e.path t).x * ((e.path t).x * (e.velocity t).y - (e.path t).y * (e.velocity t).x))) volume 0 1 :=
      (by fun_prop : Continuous _).intervalIntegrable _ _
    have i2 : IntervalIntegrable (fun t => 1 / 3 * (((e.path t).x - o.x) * (((e.path t).x - o.x) * (e.velocity t).y - ((e.path t).y - o.y) * (e.velocity t).x))) volume 0 1 :=
      (by fun_prop : Continuous _).intervalIntegrable _ _
    have i3 : IntervalIntegrable (fun t => o.x * (1 / 2 * (((e.path t).x - o.x) * (e.velocity t).y - ((e.path t).y - o.y) * (e.velocity t).x))) volume 0 1 :=
      (by fun_prop : Continuous _).intervalIntegrable _ _
    rw [intervalIntegral.integral_sub i1 (i2.add i3), intervalIntegral.integral_add i2 i3, intervalIntegral.integral_const_mul,
      intervalIntegral.integral_const_mul, intervalIntegral.integral_const_mul, intervalIntegral.integral_const_mul] at ex
    unfold sweep
    simp only [shiftX, V2.cross, V2.sub_x, V2.sub_y, sub_zero, one_mul]
    push_cast
    linarith
  · have ex := exact_sweep h (fun P => -(o.y / 6) * ((P.1 - o.x) * (P.2 - o.y)) + 1 / 3 * (o.x / 2 * (P.2 - o.y) ^ 2 + o.x * o.y * (P.2 - o.y) - o.y ^ 2 * (P.1 - o.x)))
      (fun t => 1 / 3 * ((e.path t).y * ((e.path t).x * (e.velocity t).y - (e.path t).y * (e.velocity t).x)) -
        (1 / 3 * (((e.path t).y - o.y) * (((e.path t).x - o.x) * (e.velocity t).y - ((e.path t).y - o.y) * (e.velocity t).x)) +
         o.y * (1 / 2 * (((e.path t).x - o.x) * (e.velocity t).y - ((e.path t).y - o.y) * (e.velocity t).x)))) (by fun_prop) (by
        intro t
        have d1 := (h.dx t).sub_const o.x
        have d2 := (h.dy t).sub_const o.y
        refine ((((d1.mul d2).const_mul (-(o.y / 6))).add
          (((((d2.pow 2).const_mul (o.x / 2)).add (d2.const_mul (o.x * o.y))).sub (d1.const_mul (o.y ^ 2))).const_mul (1 / 3)))).congr_deriv ?_
        push_cast
        ring)
    have i1 : IntervalIntegrable (fun t => 1 / 3 * ((e.path t).y * ((e.path t).x * (e.velocity t).y - (e.path t).y * (e.velocity t).x))) volume 0 1 :=
      (by fun_prop : Continuous _).intervalIntegrable _ _
    have i2 : IntervalIntegrable (fun t => 1 / 3 * (((e.path t).y - o.y) * (((e.path t).x - o.x) * (e.velocity t).y - ((e.path t).y - o.y) * (e.velocity t).x))) volume 0 1 :=
      (by fun_prop : Continuous _).intervalIntegrable _ _
    have i3 : IntervalIntegrable (fun t => o.y * (1 / 2 * (((e.path t).x - o.x) * (e.velocity t).y - ((e.path t).y - o.y) * (e.velocity t).x))) volume 0 1 :=
      (by fun_prop : Continuous _).intervalIntegrable _ _
    rw [intervalIntegral.integral_sub i1 (i2.add i3), intervalIntegral.integral_add i2 i3, intervalIntegral.integral_const_mul,
      intervalIntegral.integral_const_mul, intervalIntegral.integral_const_mul, intervalIntegral.integral_const_mul] at ex
    unfold sweep
    simp only [shiftY, V2.cross, V2.sub_x, V2.sub_y, sub_zero, one_mul]
    push_cast
    linarith

/-- The first moments about the origin, from those about `o`. -/
theorem first_shift {contour : List Edge} (h : IsContour contour) (o : V2 ℝ) :
    integralOf V2.x 1 ⟨0, 0⟩ contour = integralOf V2.x 1 o contour + o.x * integralOf (fun _ => 1) 0 o contour ∧
    integralOf V2.y 1 ⟨0, 0⟩ contour = integralOf V2.y 1 o contour + o.y * integralOf (fun _ => 1) 0 o contour := by
  unfold integralOf
  constructor
  · rw [List.map_congr_left fun e he => (first_shift_edge (h.smooth he) o).1, List.sum_map_add, List.sum_map_add, List.sum_map_mul_left, sum_ends (shiftX o) h.closed, add_zero]
  · rw [List.map_congr_left fun e he => (first_shift_edge (h.smooth he) o).2, List.sum_map_add, List.sum_map_add, List.sum_map_mul_left, sum_ends (shiftY o) h.closed, add_zero]

/-! ## Area, centre of mass and second moments of the region -/

theorem region_area {σ : ℝ} {o : V2 ℝ} {contour : List Edge} (h : IsContour contour) (hst : Star σ o contour) :
    (volume (Region o contour)).toReal = σ * integralOf (fun _ => 1) 0 o contour ∧ volume (Region o contour) ≠ ⊤ := by
  obtain ⟨hi, hv⟩ := region_integral h hst (fun _ => 1) 0 (fun _ _ _ => by simp) continuous_const
  constructor
  · rw [← hv]; simp [Measure.real]
  · have := (integrableOn_const_iff (C := (1 : ℝ)) (μ := volume) (s := Region o contour)).1 hi
    exact (this.resolve_left (by simp)).ne

theorem area_origin {contour : List Edge} (h : IsContour contour) (o : V2 ℝ) :
    integralOf (fun _ => 1) 0 o contour = integralOf (fun _ => 1) 0 ⟨0, 0⟩ contour := by
  rw [area_decomposition h, area_decomposition h]

/-- **C129** the area of a contour seen from a point is the Lebesgue measure of what it bounds. -/
theorem C129_measure {σ : ℝ} {o : V2 ℝ} {contour : List Edge} (h : IsContour contour) (ho : Oriented contour) (hst : Star σ o contour) :
    contourArea contour = .ok (volume (Region o contour)).toReal := by
  rw [C129_area h ho, (region_area h hst).1, area_origin h o]
  have hnn : 0 ≤ σ * integralOf (fun _ => 1) 0 ⟨0, 0⟩ contour := by
    rw [← area_origin h o, ← (region_area h hst).1]; exact ENNReal.toReal_nonneg
  congr 1
  rw [← abs_of_nonneg hnn, abs_mul]
  rcases hst.sign with e | e <;> rw [e] <;> simp

/-- **C130** the centre of mass of a contour seen from a point is that of what it bounds, when the contour turns as the polygon of its starts. -/
theorem C130_measure_partial {σ : ℝ} {o : V2 ℝ} {contour : List Edge} (h : IsContour contour) (hl : LongChords contour) (hf : NotFlat contour)
    (ho : Oriented contour) (hst : Star σ o contour) (hor : orientation contour = some σ) (hpos : volume (Region o contour) ≠ 0) :
    contourCentre contour = .ok ⟨(∫ P in Region o contour, P.1) / (volume (Region o contour)).toReal,
      (∫ P in Region o contour, P.2) / (volume (Region o contour)).toReal⟩ := by
  obtain ⟨hv, hfin⟩ := region_area h hst
  have hV : 0 < (volume (Region o contour)).toReal := ENNReal.toReal_pos hpos hfin
  rw [C130_centre_partial h hl hf ho (by
    intro s hs
    rw [hor] at hs
    rw [← Option.some.inj hs, ← area_origin h o, ← hv]
    exact hV)]
  obtain ⟨ix, vx⟩ := region_integral h hst V2.x 1 (fun v r _ => by simp) continuous_fst
  obtain ⟨iy, vy⟩ := region_integral h hst V2.y 1 (fun v r _ => by simp) continuous_snd
  have hc : IntegrableOn (fun _ : ℝ × ℝ => (1 : ℝ)) (Region o contour) := (region_integral h hst (fun _ => 1) 0 (fun _ _ _ => by simp) continuous_const).1
  have h1 : ∫ P in Region o contour, P.1 = σ * integralOf V2.x 1 ⟨0, 0⟩ contour := by
    have e1 : ∀ P : ℝ × ℝ, P.1 = (P.1 - o.x) + o.x * 1 := fun P => by ring
    rw [setIntegral_congr_fun₀ (g := fun P : ℝ × ℝ => (P.1 - o.x) + o.x * 1) ?_ (fun P _ => e1 P)]
    · rw [integral_add (by exact ix) (hc.const_mul o.x)]
      rw [show ∫ P in Region o contour, P.1 - o.x = σ * integralOf V2.x 1 o contour from vx, (first_shift h o).1]
      rw [integral_const_mul]
      have : ∫ _ in Region o contour, (1 : ℝ) = σ * integralOf (fun _ => 1) 0 o contour := by rw [← hv]; simp [Measure.real]
      rw [this]; ring
    · exact (inner_spec hst.sign (fun e he => h.smooth he) hst V2.x 1 (fun v r _ => by simp) continuous_fst).1.nullMeasurableSet.congr
        (region_ae fun e he => h.smooth he).symm
  have h2 : ∫ P in Region o contour, P.2 = σ * integralOf V2.y 1 ⟨0, 0⟩ contour := by
    have e1 : ∀ P : ℝ × ℝ, P.2 = (P.2 - o.y) + o.y * 1 := fun P => by ring
    rw [setIntegral_congr_fun₀ (g := fun P : ℝ × ℝ => (P.2 - o.y) + o.y * 1) ?_ (fun P _ => e1 P)]
    · rw [integral_add (by exact iy) (hc.const_mul o.y)]
      rw [show ∫ P in Region o contour, P.2 - o.y = σ * integralOf V2.y 1 o contour from vy, (first_shift h o).2]
      rw [integral_const_mul]
      have : ∫ _ in Region o contour, (1 : ℝ) = σ * integralOf (fun _ => 1) 0 o contour := by rw [← hv]; simp [Measure.real]
      rw [this]; ring
    · exact (inner_spec hst.sign (fun e he => h.smooth he) hst V2.x 1 (fun v r _ => by simp) continuous_fst).1.nullMeasurableSet.congr
        (region_ae fun e he => h.smooth he).symm
  rw [h1, h2, hv, area_origin h o]
  have hs0 : σ ≠ 0 := by rcases hst.sign with e | e <;> rw [e] <;> norm_num
  congr 1
  ext
  · exact (mul_div_mul_left _ _ hs0).symm
  · exact (mul_div_mul_left _ _ hs0).symm

/-- **C131** about the common centre of the arcs, from which the contour is seen, the second moments are those of what it bounds. -/
theorem C131_measure_partial {σ : ℝ} {o : V2 ℝ} {contour : List Edge} (h : IsContour contour) (hc : CentredArcs contour o) (hm : MomentSign contour o)
    (hst : Star σ o contour) (hor : orientation contour = some σ) (hpos : volume (Region o contour) ≠ 0) :
    ∃ m, contourMoments contour o = .ok m ∧ m.1 = ∫ P in Region o contour, (P.2 - o.y) ^ 2 ∧ m.2.1 = ∫ P in Region o contour, (P.1 - o.x) ^ 2 ∧
      ((∀ a, .arc a ∈ contour → a.circle.IsTrigo) → m.2.2 = ∫ P in Region o contour, (P.1 - o.x) * (P.2 - o.y)) := by
  obtain ⟨hv, hfin⟩ := region_area h hst
  have hV : 0 < (volume (Region o contour)).toReal := ENNReal.toReal_pos hpos hfin
  rw [hv, area_origin h] at hV
  obtain ⟨m, hm1, h1, h2, h3⟩ := C131_contour_partial h hc hm hst.sign hor hV
  have hsign : (SignType.sign (integralOf (fun _ => 1) 0 ⟨0, 0⟩ contour) : ℝ) = σ := by
    rcases hst.sign with e | e
    · rw [e, one_mul] at hV; rw [sign_pos hV, e]; rfl
    · rw [e, neg_one_mul, Left.neg_pos_iff] at hV; rw [sign_neg hV, e]; simp
  rw [hsign] at h1 h2 h3
  refine ⟨m, hm1, ?_, ?_, fun ht => ?_⟩
  · rw [h1]; exact (region_integral h hst (fun p => p.y ^ 2) 2 (fun v r _ => by dsimp only; ring) (by dsimp only; fun_prop)).2.symm
  · rw [h2]; exact (region_integral h hst (fun p => p.x ^ 2) 2 (fun v r _ => by dsimp only; ring) (by dsimp only; fun_prop)).2.symm
  · rw [h3 ht]; exact (region_integral h hst (fun p => p.x * p.y) 2 (fun v r _ => by dsimp only; ring) (by dsimp only; fun_prop)).2.symm

/-! ## A concrete contour -/

theorem half_motion (t : ℝ) : (Edge.arc (firstHalf ⟨0, 0⟩ 1 1)).path t = ⟨cos (t * π), sin (t * π)⟩ ∧
    (Edge.arc (firstHalf ⟨0, 0⟩ 1 1)).velocity t = ⟨-sin (t * π) * π, cos (t * π) * π⟩ := by
  have hs : (1 : ℝ) = 1 ∨ (1 : ℝ) = -1 := Or.inl rfl
  obtain ⟨-, ψ, p, l, q, -, -⟩ := half_shape hs (firstHalf_good ⟨0, 0⟩ one_pos hs) rfl
  have a1 : (firstHalf ⟨0, 0⟩ 1 1).angle = π := by simp [firstHalf, Arc2.angle]
  have e1 : ψ = 0 := by rw [p]; simp [firstHalf]
  have hp : ∀ t, (Edge.arc (firstHalf ⟨0, 0⟩ 1 1)).path t = ⟨cos (t * π), sin (t * π)⟩ := by
    intro t
    change (firstHalf ⟨0, 0⟩ 1 1).pointAtAbscissa (t * (firstHalf ⟨0, 0⟩ 1 1).length) = _
    rw [q, l, a1, e1]
    simp [firstHalf, disc]
  refine ⟨hp t, ?_⟩
  have hin : HasDerivAt (fun s : ℝ => s * π) π t := by simpa using (hasDerivAt_id t).mul_const π
  unfold Edge.velocity
  simp only [hp]
  ext
  · exact hin.cos.deriv
  · exact hin.sin.deriv

theorem iceCream_star : Star 1 ⟨0, 0⟩ iceCream := by
  have hpi := pi_pos
  have hsin : ∀ t ∈ Ioo (0 : ℝ) 1, 0 < sin (t * π) := fun t ht => sin_pos_of_pos_of_lt_pi (mul_pos ht.1 hpi) (by nlinarith [ht.2])
  refine ⟨Or.inl rfl, ?_, ?_, ?_⟩
  · intro e he t ht
    simp only [iceCream, List.mem_cons, List.not_mem_nil, or_false] at he
    rcases he with rfl | rfl | rfl
    · rw [(half_motion t).1, (half_motion t).2]
      simp only [V2.cross, V2.sub_x, V2.sub_y]
      have := sin_sq_add_cos_sq (t * π)
      nlinarith
    · rw [seg_cross]; simp [V2.cross]
    · rw [seg_cross]; simp [V2.cross]
  · intro e he t ht u hu k hk h
    have hx := congrArg V2.x h
    have hy := congrArg V2.y h
    simp only [iceCream, List.mem_cons, List.not_mem_nil, or_false] at he
    rcases he with rfl | rfl | rfl
    · rw [(half_motion t).1, (half_motion u).1] at hx hy
      simp only [V2.smul, V2.sub_x, V2.sub_y, sub_zero] at hx hy
      have h0 : sin (t * π - u * π) = 0 := by rw [sin_sub, hx, hy]; ring
      have h1 : t * π - u * π = 0 := by
        rw [sin_eq_zero_iff_of_lt_of_lt] at h0
        · exact h0
        · nlinarith [ht.1, hu.2]
        · nlinarith [hu.1, ht.2]
      exact mul_right_cancel₀ hpi.ne' (sub_eq_zero.1 h1)
    · rw [seg_path, seg_path] at hx hy
      simp only [V2.smul, V2.sub_x, V2.sub_y] at hx hy
      nlinarith [ht.1, ht.2, hu.1, hu.2]
    · rw [seg_path, seg_path] at hx hy
      simp only [V2.smul, V2.sub_x, V2.sub_y] at hx hy
      nlinarith [ht.1, ht.2, hu.1, hu.2]
  · refine List.pairwise_cons.2 ⟨?_, List.pairwise_cons.2 ⟨?_, List.pairwise_singleton _ _⟩⟩
    · intro f hf t ht u hu k hk h
      have hy := congrArg V2.y h
      have hs := hsin t ht
      rw [(half_motion t).1] at hy
      simp only [List.mem_cons, List.not_mem_nil, or_false] at hf
      rcases hf with rfl | rfl
      · rw [seg_path] at hy
        simp only [V2.smul, V2.sub_y] at hy
        have := mul_pos hu.1 hk
        nlinarith
      · rw [seg_path] at hy
        simp only [V2.smul, V2.sub_y] at hy
        have := mul_pos (sub_pos.2 hu.2) hk
        nlinarith
    · intro f hf t ht u hu k hk h
      have hx := congrArg V2.x h
      simp only [List.mem_cons, List.not_mem_nil, or_false] at hf
      subst hf
      rw [seg_path, seg_path] at hx
      simp only [V2.smul, V2.sub_x] at hx
      have h1 := mul_pos hu.1 hk
      have h2 := ht.2
      nlinarith

/-- A concrete case: the half disc on a triangle, seen from the centre of the half disc. -/
example : contourArea iceCream = .ok (volume (Region ⟨0, 0⟩ iceCream)).toReal := C129_measure iceCream_contour iceCream_oriented iceCream_star

end Volmdlr.Profile
