import Verif.Solid.SphereProps
import Mathlib.MeasureTheory.Measure.Lebesgue.VolumeOfBalls
import Mathlib.MeasureTheory.Measure.Lebesgue.EqHaar
import Mathlib.Analysis.SpecialFunctions.Integrals.Basic

/-!
# C82: the volumes are Lebesgue measures
-/

namespace Volmdlr.Solid

open Real Volmdlr.Surface MeasureTheory

/-! ## Specification -/

/-- The Lebesgue measure of a set of points. -/
noncomputable def measureOf (S : V3 ℝ → Prop) : ENNReal := volume {x : Fin 3 → ℝ | S ⟨x 0, x 1, x 2⟩}

/-! ## Change of frame -/

/-- The matrix of a frame. -/
def frameMatrix (f : Frame3 ℝ) : Matrix (Fin 3) (Fin 3) ℝ :=
  !![f.basis.u.x, f.basis.v.x, f.basis.w.x; f.basis.u.y, f.basis.v.y, f.basis.w.y; f.basis.u.z, f.basis.v.z, f.basis.w.z]

theorem frameMatrix_det (f : Frame3 ℝ) : (frameMatrix f).det = triple f.basis.u f.basis.v f.basis.w := by
  unfold frameMatrix triple
  rw [Matrix.det_fin_three]
  simp [V3.dot, V3.cross]
  ring

/-- The measure of the image of a set of coordinates. -/
theorem measureOf_frame (f : Frame3 ℝ) (S0 : V3 ℝ → Prop) :
    measureOf (fun p => ∃ q, S0 q ∧ p = pt f q) = ENNReal.ofReal |triple f.basis.u f.basis.v f.basis.w| * measureOf S0 := by
  unfold measureOf
  have himg : {x : Fin 3 → ℝ | ∃ q, S0 q ∧ (⟨x 0, x 1, x 2⟩ : V3 ℝ) = pt f q} =
      (fun x : Fin 3 → ℝ => ![f.origin.x, f.origin.y, f.origin.z] + x) ''
        ((Matrix.toLin' (frameMatrix f)) '' {x : Fin 3 → ℝ | S0 ⟨x 0, x 1, x 2⟩}) := by
    ext x
    simp only [Set.mem_setOf_eq, Set.mem_image]
    constructor
    · rintro ⟨q, hq, hx⟩
      refine ⟨_, ⟨![q.x, q.y, q.z], by simpa using hq, rfl⟩, ?_⟩
      have h0 := congrArg V3.x hx
      have h1 := congrArg V3.y hx
      have h2 := congrArg V3.z hx
      unfold pt at h0 h1 h2
      simp only [V3.add_x, V3.add_y, V3.add_z, V3.smul_x, V3.smul_y, V3.smul_z] at h0 h1 h2
      funext i
      fin_cases i <;> simp [frameMatrix, Matrix.mulVec, dotProduct, Fin.sum_univ_three] <;> linarith
    · rintro ⟨_, ⟨y, hy, rfl⟩, rfl⟩
      refine ⟨⟨y 0, y 1, y 2⟩, hy, ?_⟩
      unfold pt
      ext <;> simp [frameMatrix, Matrix.mulVec, dotProduct, Fin.sum_univ_three] <;> ring
  rw [himg, Set.image_add_left, measure_preimage_add, Measure.addHaar_image_linearMap, LinearMap.det_toLin', frameMatrix_det]

theorem triple_orthonormal {f : Frame3 ℝ} (ho : Orthonormal3 f.basis) : |triple f.basis.u f.basis.v f.basis.w| = 1 := by
  obtain ⟨h1, h2, h3, h4, h5, h6⟩ := ho
  have gram : triple f.basis.u f.basis.v f.basis.w ^ 2 = V3.dot f.basis.u f.basis.u * (V3.dot f.basis.v f.basis.v * V3.dot f.basis.w f.basis.w - V3.dot f.basis.v f.basis.w ^ 2) -
      V3.dot f.basis.u f.basis.v * (V3.dot f.basis.u f.basis.v * V3.dot f.basis.w f.basis.w - V3.dot f.basis.v f.basis.w * V3.dot f.basis.u f.basis.w) +
      V3.dot f.basis.u f.basis.w * (V3.dot f.basis.u f.basis.v * V3.dot f.basis.v f.basis.w - V3.dot f.basis.v f.basis.v * V3.dot f.basis.u f.basis.w) := by
    simp only [triple, V3.dot, V3.cross]; ring
  rw [h1, h2, h3, h4, h5, h6] at gram
  have : triple f.basis.u f.basis.v f.basis.w ^ 2 = 1 := by linarith
  rw [← sq_abs] at this
  nlinarith [abs_nonneg (triple f.basis.u f.basis.v f.basis.w)]

/-! ## Solids of revolution in their own frame -/

/-- The area of an annulus. -/
theorem annulus (a b : ℝ) (ha : 0 ≤ a) (hab : a ≤ b) :
    volume {y : Fin 2 → ℝ | a ^ 2 ≤ y 0 ^ 2 + y 1 ^ 2 ∧ y 0 ^ 2 + y 1 ^ 2 ≤ b ^ 2} = ENNReal.ofReal (π * (b ^ 2 - a ^ 2)) := by
  have hb := ha.trans hab
  have hset : {y : Fin 2 → ℝ | a ^ 2 ≤ y 0 ^ 2 + y 1 ^ 2 ∧ y 0 ^ 2 + y 1 ^ 2 ≤ b ^ 2} =
      (WithLp.toLp 2) ⁻¹' (Metric.closedBall (0 : EuclideanSpace ℝ (Fin 2)) b \ Metric.ball 0 a) := by
    ext y
    simp only [Set.mem_setOf_eq, Set.mem_preimage, Set.mem_diff, mem_closedBall_zero_iff, mem_ball_zero_iff, not_lt,
      EuclideanSpace.norm_eq, Fin.sum_univ_two, Real.norm_eq_abs, sq_abs]
    rw [Real.le_sqrt ha (by positivity), Real.sqrt_le_left hb]
    exact and_comm
  have hsub : Metric.ball (0 : EuclideanSpace ℝ (Fin 2)) a ⊆ Metric.closedBall 0 b :=
    Metric.ball_subset_closedBall.trans (Metric.closedBall_subset_closedBall hab)
  rw [hset, (PiLp.volume_preserving_toLp (Fin 2)).measure_preimage
    (measurableSet_closedBall.diff measurableSet_ball).nullMeasurableSet,
    measure_sdiff hsub measurableSet_ball.nullMeasurableSet measure_ball_lt_top.ne,
    EuclideanSpace.volume_closedBall_fin_two, EuclideanSpace.volume_ball_fin_two,
    ← ENNReal.ofReal_pow hb, ← ENNReal.ofReal_pow ha, ← ENNReal.ofReal_mul (by positivity), ← ENNReal.ofReal_mul (by positivity),
    ← ENNReal.ofReal_sub _ (by have := pi_pos; positivity)]
  congr 1; ring

/-- A solid of revolution around the third axis. -/
def Revolved (a b : ℝ) (ρ1 ρ2 : ℝ → ℝ) (q : V3 ℝ) : Prop :=
  a ≤ q.z ∧ q.z ≤ b ∧ ρ1 q.z ^ 2 ≤ q.x ^ 2 + q.y ^ 2 ∧ q.x ^ 2 + q.y ^ 2 ≤ ρ2 q.z ^ 2

theorem revolved_measure (a b : ℝ) (ρ1 ρ2 : ℝ → ℝ) (hab : a ≤ b) (c1 : Continuous ρ1) (c2 : Continuous ρ2)
    (h : ∀ z, a ≤ z → z ≤ b → 0 ≤ ρ1 z ∧ ρ1 z ≤ ρ2 z) :
    measureOf (Revolved a b ρ1 ρ2) = ENNReal.ofReal (∫ z in a..b, π * (ρ2 z ^ 2 - ρ1 z ^ 2)) := by
  unfold measureOf
  obtain ⟨T, hT⟩ : ∃ T : Set (ℝ × (Fin 2 → ℝ)), T = {t | a ≤ t.1 ∧ t.1 ≤ b ∧ ρ1 t.1 ^ 2 ≤ t.2 0 ^ 2 + t.2 1 ^ 2 ∧
    t.2 0 ^ 2 + t.2 1 ^ 2 ≤ ρ2 t.1 ^ 2} := ⟨_, rfl⟩
  have hTc : IsClosed T := by
    rw [hT]
    have k1 : IsClosed {t : ℝ × (Fin 2 → ℝ) | a ≤ t.1} := isClosed_le (by fun_prop) (by fun_prop)
    have k2 : IsClosed {t : ℝ × (Fin 2 → ℝ) | t.1 ≤ b} := isClosed_le (by fun_prop) (by fun_prop)
    have k3 : IsClosed {t : ℝ × (Fin 2 → ℝ) | ρ1 t.1 ^ 2 ≤ t.2 0 ^ 2 + t.2 1 ^ 2} := isClosed_le (by fun_prop) (by fun_prop)
    have k4 : IsClosed {t : ℝ × (Fin 2 → ℝ) | t.2 0 ^ 2 + t.2 1 ^ 2 ≤ ρ2 t.1 ^ 2} := isClosed_le (by fun_prop) (by fun_prop)
    exact k1.inter (k2.inter (k3.inter k4))
  have hset : {x : Fin 3 → ℝ | Revolved a b ρ1 ρ2 ⟨x 0, x 1, x 2⟩} =
      (MeasurableEquiv.piFinSuccAbove (fun _ : Fin 3 => ℝ) 2) ⁻¹' T := by
    rw [hT]; ext x; rfl
  rw [hset, (volume_preserving_piFinSuccAbove (fun _ : Fin 3 => ℝ) 2).measure_preimage hTc.measurableSet.nullMeasurableSet,
    Measure.volume_eq_prod, Measure.prod_apply hTc.measurableSet]
  have hsl : ∀ z : ℝ, (volume : Measure (Fin 2 → ℝ)) (Prod.mk z ⁻¹' T) =
      (Set.Icc a b).indicator (fun z => ENNReal.ofReal (π * (ρ2 z ^ 2 - ρ1 z ^ 2))) z := by
    intro z
    by_cases hz : z ∈ Set.Icc a b
    · rw [Set.indicator_of_mem hz, ← annulus _ _ (h z hz.1 hz.2).1 (h z hz.1 hz.2).2]
      congr 1
      ext y
      rw [hT]
      simp only [Set.mem_preimage, Set.mem_setOf_eq]
      exact ⟨fun h => h.2.2, fun h => ⟨hz.1, hz.2, h⟩⟩
    · rw [Set.indicator_of_notMem hz]
      have : Prod.mk z ⁻¹' T = ∅ := by
        ext y
        rw [hT]
        simp only [Set.mem_preimage, Set.mem_setOf_eq, Set.mem_empty_iff_false, iff_false]
        exact fun h => hz ⟨h.1, h.2.1⟩
      rw [this, measure_empty]
  have e := lintegral_congr (μ := (volume : Measure ℝ)) hsl
  refine e.trans ?_
  rw [lintegral_indicator measurableSet_Icc, intervalIntegral.integral_of_le hab, ← integral_Icc_eq_integral_Ioc]
  have hcont : Continuous fun z => π * (ρ2 z ^ 2 - ρ1 z ^ 2) := by fun_prop
  rw [ofReal_integral_eq_lintegral_ofReal (hcont.continuousOn.integrableOn_Icc)]
  refine (ae_restrict_iff' measurableSet_Icc).mpr (Filter.Eventually.of_forall fun z hz => ?_)
  obtain ⟨k1, k2⟩ := h z hz.1 hz.2
  have : ρ1 z ^ 2 ≤ ρ2 z ^ 2 := pow_le_pow_left₀ k1 k2 2
  have := pi_pos
  simp only [Pi.zero_apply]
  exact mul_nonneg this.le (by linarith)

/-! ## Theorems -/

theorem measureOf_congr {S T : V3 ℝ → Prop} (h : ∀ p, S p ↔ T p) : measureOf S = measureOf T := by
  unfold measureOf; congr 1; ext x; exact h _

theorem perp_frame (o w : V3 ℝ) (hw : V3.dot w w = 1) : ∃ f : Frame3 ℝ, f.origin = o ∧ f.basis.w = w ∧ Orthonormal3 f.basis := by
  obtain ⟨f, -, h1, h2, h3⟩ := C63_fromPointAndNormal o w hw
  exact ⟨f, h1, h2, direct_orthonormal h3⟩

theorem pt_onto (f : Frame3 ℝ) (ho : Orthonormal3 f.basis) (p : V3 ℝ) : ∃ q, p = pt f q := by
  obtain ⟨q, hq, -⟩ := globalToLocal_flush f (orthonormal_invertible ho) p
  exact ⟨q, hq⟩

/-- C82: the volume of a cylinder is the Lebesgue measure of the set of its points. -/
theorem C82_cylinder (c : Cyl) (hw : V3.dot c.frame.basis.w c.frame.basis.w = 1) (hR : 0 ≤ c.radius) (hL : 0 ≤ c.length) :
    measureOf (InCyl c.frame.origin c.frame.basis.w c.radius c.length) = ENNReal.ofReal c.volume := by
  obtain ⟨f, h1, h2, ho⟩ := perp_frame c.frame.origin c.frame.basis.w hw
  rw [← h1, ← h2]
  rw [measureOf_congr (T := fun p => ∃ q, Revolved (-(c.length / 2)) (c.length / 2) (fun _ => 0) (fun _ => c.radius) q ∧
    p = pt f q), measureOf_frame, triple_orthonormal ho, ENNReal.ofReal_one, one_mul,
    revolved_measure _ _ _ _ (by linarith) (by fun_prop) (by fun_prop) (fun _ _ _ => ⟨le_rfl, hR⟩)]
  · congr 1
    rw [intervalIntegral.integral_const]
    unfold Cyl.volume
    simp only [smul_eq_mul]; ring
  · intro p
    unfold Revolved
    constructor
    · intro hp
      obtain ⟨q, rfl⟩ := pt_onto f ho p
      rw [inCyl_coord f ho, abs_le] at hp
      exact ⟨q, ⟨hp.2.1, hp.2.2, by dsimp only; nlinarith [sq_nonneg q.x, sq_nonneg q.y], hp.1⟩, rfl⟩
    · rintro ⟨q, ⟨a, b, -, d⟩, rfl⟩
      rw [inCyl_coord f ho, abs_le]
      exact ⟨d, a, b⟩

/-- Membership in a hollow cylinder in coordinates. -/
theorem inHollow_coord (f : Frame3 ℝ) (ho : Orthonormal3 f.basis) (Ri Ro L : ℝ) (q : V3 ℝ) :
    InHollow f.origin f.basis.w Ri Ro L (pt f q) ↔ Ri ^ 2 ≤ q.x ^ 2 + q.y ^ 2 ∧ q.x ^ 2 + q.y ^ 2 ≤ Ro ^ 2 ∧ |q.z| ≤ L / 2 := by
  obtain ⟨o, u, v, w⟩ := f
  obtain ⟨h1, h2, h3, h4, h5, h6⟩ := ho
  simp only [V3.dot] at h1 h2 h3 h4 h5 h6
  unfold pt
  dsimp only at *
  constructor
  · rintro ⟨t, r, ht, hr, hri, hrr, h⟩
    have hx := congrArg V3.x h
    have hy := congrArg V3.y h
    have hz := congrArg V3.z h
    simp only [V3.add_x, V3.add_y, V3.add_z, V3.smul_x, V3.smul_y, V3.smul_z, V3.dot] at hx hy hz hr hrr hri
    have tz : t = q.z := by
      linear_combination -w.x * hx - w.y * hy - w.z * hz - hr + q.x * h5 + q.y * h6 + q.z * h3 - t * h3
    rw [tz] at hx hy hz ht
    have r1 : r.x = q.x * u.x + q.y * v.x := by linarith
    have r2 : r.y = q.x * u.y + q.y * v.y := by linarith
    have r3 : r.z = q.x * u.z + q.y * v.z := by linarith
    rw [r1, r2, r3] at hrr hri
    have : (q.x * u.x + q.y * v.x) * (q.x * u.x + q.y * v.x) + (q.x * u.y + q.y * v.y) * (q.x * u.y + q.y * v.y) +
      (q.x * u.z + q.y * v.z) * (q.x * u.z + q.y * v.z) = q.x ^ 2 + q.y ^ 2 := by
      linear_combination q.x ^ 2 * h1 + q.y ^ 2 * h2 + 2 * q.x * q.y * h4
    exact ⟨by linarith, by linarith, ht⟩
  · rintro ⟨h', h, hz⟩
    have e : V3.dot (V3.smul q.x u + V3.smul q.y v) (V3.smul q.x u + V3.smul q.y v) = q.x ^ 2 + q.y ^ 2 := by
      simp only [V3.dot, V3.add_x, V3.add_y, V3.add_z, V3.smul_x, V3.smul_y, V3.smul_z]
      linear_combination q.x ^ 2 * h1 + q.y ^ 2 * h2 + 2 * q.x * q.y * h4
    refine ⟨q.z, V3.smul q.x u + V3.smul q.y v, hz, ?_, by rw [e]; exact h', by rw [e]; exact h, ?_⟩
    · simp only [V3.dot, V3.add_x, V3.add_y, V3.add_z, V3.smul_x, V3.smul_y, V3.smul_z]
      linear_combination q.x * h5 + q.y * h6
    · ext <;> simp <;> ring

/-- C82: the volume of a hollow cylinder. -/
theorem C82_hollow (c : HollowCyl) (hw : V3.dot c.frame.basis.w c.frame.basis.w = 1) (hi : 0 ≤ c.innerRadius)
    (hio : c.innerRadius ≤ c.outerRadius) (hL : 0 ≤ c.length) :
    measureOf (InHollow c.frame.origin c.frame.basis.w c.innerRadius c.outerRadius c.length) = ENNReal.ofReal c.volume := by
  obtain ⟨f, h1, h2, ho⟩ := perp_frame c.frame.origin c.frame.basis.w hw
  rw [← h1, ← h2]
  rw [measureOf_congr (T := fun p => ∃ q, Revolved (-(c.length / 2)) (c.length / 2) (fun _ => c.innerRadius)
    (fun _ => c.outerRadius) q ∧ p = pt f q), measureOf_frame, triple_orthonormal ho, ENNReal.ofReal_one, one_mul,
    revolved_measure _ _ _ _ (by linarith) (by fun_prop) (by fun_prop) (fun _ _ _ => ⟨hi, hio⟩)]
  · congr 1
    rw [intervalIntegral.integral_const]
    unfold HollowCyl.volume
    simp only [smul_eq_mul]; ring
  · intro p
    unfold Revolved
    constructor
    · intro hp
      obtain ⟨q, rfl⟩ := pt_onto f ho p
      rw [inHollow_coord f ho, abs_le] at hp
      exact ⟨q, ⟨hp.2.2.1, hp.2.2.2, hp.1, hp.2.1⟩, rfl⟩
    · rintro ⟨q, ⟨a, b, d, e⟩, rfl⟩
      rw [inHollow_coord f ho, abs_le]
      exact ⟨d, e, a, b⟩

/-- C82: the volume of a cone. -/
theorem C82_cone (c : ConeSolid) (hw : V3.dot c.frame.basis.w c.frame.basis.w = 1) (hR : 0 ≤ c.radius) (hL : 0 < c.length) :
    measureOf (InCone c.frame.origin c.frame.basis.w c.radius c.length) = ENNReal.ofReal c.volume := by
  obtain ⟨f, h1, h2, ho⟩ := perp_frame c.frame.origin c.frame.basis.w hw
  rw [← h1, ← h2]
  rw [measureOf_congr (T := fun p => ∃ q, Revolved (-(c.length / 2)) (c.length / 2) (fun _ => 0)
    (fun z => c.radius * ((c.length / 2 - z) / c.length)) q ∧ p = pt f q), measureOf_frame, triple_orthonormal ho,
    ENNReal.ofReal_one, one_mul, revolved_measure _ _ _ _ (by linarith) (by fun_prop) (by fun_prop)
      (fun z _ hz => ⟨le_rfl, mul_nonneg hR (div_nonneg (by linarith) hL.le)⟩)]
  · congr 1
    have e : ∀ z : ℝ, π * ((c.radius * ((c.length / 2 - z) / c.length)) ^ 2 - (0 : ℝ) ^ 2) =
        π * c.radius ^ 2 / c.length ^ 2 * (c.length / 2 - z) ^ 2 := by
      intro z; field_simp; ring
    simp only [e]
    rw [intervalIntegral.integral_const_mul, intervalIntegral.integral_comp_sub_left (fun x => x ^ 2), integral_pow]
    unfold ConeSolid.volume
    norm_num
    field_simp
  · intro p
    unfold Revolved
    constructor
    · intro hp
      obtain ⟨q, rfl⟩ := pt_onto f ho p
      rw [inCone_coord f ho, abs_le] at hp
      exact ⟨q, ⟨hp.2.1, hp.2.2, by dsimp only; nlinarith [sq_nonneg q.x, sq_nonneg q.y], hp.1⟩, rfl⟩
    · rintro ⟨q, ⟨a, b, -, d⟩, rfl⟩
      rw [inCone_coord f ho, abs_le]
      exact ⟨d, a, b⟩

/-- C82: the volume of a sphere. -/
theorem C82_sphere (c : V3 ℝ) (R : ℝ) (hR : 0 ≤ R) :
    measureOf (fun p => spherePointBelongs c R p = true) = ENNReal.ofReal (sphereVolume R) := by
  unfold measureOf
  have hset : {x : Fin 3 → ℝ | spherePointBelongs c R ⟨x 0, x 1, x 2⟩ = true} =
      (WithLp.toLp 2) ⁻¹' (Metric.closedBall (WithLp.toLp 2 ![c.x, c.y, c.z] : EuclideanSpace ℝ (Fin 3)) R) := by
    ext x
    simp only [Set.mem_setOf_eq, C81_sphere_belongs c R hR, Set.mem_preimage, Metric.mem_closedBall,
      EuclideanSpace.dist_eq, Fin.sum_univ_three, Real.dist_eq, sq_abs]
    rw [Real.sqrt_le_left hR]
    simp
  rw [hset, (PiLp.volume_preserving_toLp (Fin 3)).measure_preimage measurableSet_closedBall.nullMeasurableSet,
    EuclideanSpace.volume_closedBall_fin_three, ← ENNReal.ofReal_pow hR, ← ENNReal.ofReal_mul (by positivity)]
  congr 1
  unfold sphereVolume; ring

/-- C82: the measure of a block (oblique or not) is the absolute value of the triple product of its edge vectors; by
`C79_volume_partial` this is what `volume` returns for pairwise orthogonal edges. -/
theorem C82_block (f : Frame3 ℝ) :
    measureOf (InBlock f) = ENNReal.ofReal |triple f.basis.u f.basis.v f.basis.w| := by
  have : measureOf (InBlock f) = measureOf (fun p => ∃ q : V3 ℝ, (|q.x| ≤ 1 / 2 ∧ |q.y| ≤ 1 / 2 ∧ |q.z| ≤ 1 / 2) ∧ p = pt f q) := by
    refine measureOf_congr fun p => ?_
    unfold InBlock pt
    constructor
    · rintro ⟨a, b, c, ha, hb, hc, h⟩
      exact ⟨⟨a, b, c⟩, ⟨ha, hb, hc⟩, h⟩
    · rintro ⟨q, ⟨ha, hb, hc⟩, h⟩
      exact ⟨q.x, q.y, q.z, ha, hb, hc, h⟩
  rw [this, measureOf_frame]
  have hone : measureOf (fun q : V3 ℝ => |q.x| ≤ 1 / 2 ∧ |q.y| ≤ 1 / 2 ∧ |q.z| ≤ 1 / 2) = 1 := by
    unfold measureOf
    have hset : {x : Fin 3 → ℝ | |x 0| ≤ 1 / 2 ∧ |x 1| ≤ 1 / 2 ∧ |x 2| ≤ 1 / 2} =
        Set.Icc (fun _ => -(1 / 2)) (fun _ => 1 / 2) := by
      ext x
      simp only [Set.mem_setOf_eq, Set.mem_Icc, Pi.le_def, Fin.forall_fin_succ, abs_le]
      constructor
      · rintro ⟨⟨a, b⟩, ⟨c, d⟩, e, f⟩; exact ⟨⟨a, c, e, fun i => i.elim0⟩, b, d, f, fun i => i.elim0⟩
      · rintro ⟨⟨a, c, e, -⟩, b, d, f, -⟩; exact ⟨⟨a, b⟩, ⟨c, d⟩, e, f⟩
    rw [hset, Real.volume_Icc_pi]
    norm_num
  rw [hone, mul_one]

/-- C82: for a block with pairwise orthogonal edges `volume` is the measure of the set of its points. Missing: oblique
blocks, for which it is larger (`C79_volume_counterexample`). -/
theorem C82_block_volume_partial (f : Frame3 ℝ) (h1 : V3.dot f.basis.u f.basis.v = 0) (h2 : V3.dot f.basis.u f.basis.w = 0)
    (h3 : V3.dot f.basis.v f.basis.w = 0) : measureOf (InBlock f) = ENNReal.ofReal (blockVolume f) := by
  rw [C82_block, (C79_volume_partial f).2 h1 h2 h3]

/-- A concrete case. -/
example : measureOf (InCyl ⟨0, 0, 0⟩ ⟨3 / 5, 0, 4 / 5⟩ 1 2) = ENNReal.ofReal (2 * π * 1 ^ 2) :=
  C82_cylinder ⟨⟨⟨0, 0, 0⟩, ⟨⟨4 / 5, 0, -3 / 5⟩, ⟨0, 1, 0⟩, ⟨3 / 5, 0, 4 / 5⟩⟩⟩, 1, 2⟩ (by norm_num [V3.dot]) (by norm_num)
    (by norm_num)

end Volmdlr.Solid
