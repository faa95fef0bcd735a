import Verif.Solid.CylOps

/-!
# C81: spheres
-/

namespace Volmdlr.Solid

open Real Volmdlr.Surface Volmdlr.Angle

theorem pd_eq (p q : V3 ℝ) : V3.pointDistance p q = √((p.x - q.x) ^ 2 + (p.y - q.y) ^ 2 + (p.z - q.z) ^ 2) := by
  unfold V3.pointDistance V3.norm
  congr 1
  simp only [V3.sub_x, V3.sub_y, V3.sub_z]; ring

/-- C81: `point_belongs` of a sphere accepts exactly the points of the ball. -/
theorem C81_sphere_belongs (c : V3 ℝ) (R : ℝ) (hR : 0 ≤ R) (p : V3 ℝ) :
    spherePointBelongs c R p = true ↔ (p.x - c.x) ^ 2 + (p.y - c.y) ^ 2 + (p.z - c.z) ^ 2 ≤ R ^ 2 := by
  unfold spherePointBelongs
  rw [decide_eq_true_iff, pd_eq, sqrt_le_left hR]
  ring_nf

/-- The point of the sphere of colatitude `φ` (from the x axis) and longitude `ψ`. -/
noncomputable def sph (c : V3 ℝ) (R φ ψ : ℝ) : V3 ℝ :=
  ⟨c.x + R * cos φ, c.y + R * (sin φ * sin ψ), c.z - R * (sin φ * cos ψ)⟩

theorem init_eq (c : V3 ℝ) (R θ : ℝ) : V3.rotation (c + V3.smul R ⟨1, 0, 0⟩) c ⟨0, 1, 0⟩ θ = sph c R θ 0 := by
  unfold V3.rotation V3.rotationCS sph
  ext <;> simp [V3.dot, V3.cross] <;> ring

theorem sph_rotation (c : V3 ℝ) (R θ a : ℝ) :
    V3.rotation (sph c R θ 0) ⟨V3.dot ⟨1, 0, 0⟩ (sph c R θ 0), c.y, c.z⟩ ⟨1, 0, 0⟩ a = sph c R θ a := by
  unfold V3.rotation V3.rotationCS sph
  ext <;> simp [V3.dot, V3.cross] <;> ring

theorem sph_dist (c : V3 ℝ) (R φ ψ : ℝ) (hR : 0 ≤ R) : V3.pointDistance c (sph c R φ ψ) = R := by
  have h1 := sin_sq_add_cos_sq φ
  have h2 := sin_sq_add_cos_sq ψ
  have e : (c.x - (sph c R φ ψ).x) ^ 2 + (c.y - (sph c R φ ψ).y) ^ 2 + (c.z - (sph c R φ ψ).z) ^ 2 = R ^ 2 := by
    unfold sph
    dsimp only
    linear_combination R ^ 2 * sin φ ^ 2 * h2 + R ^ 2 * h1
  rw [pd_eq, e, sqrt_sq hR]

theorem floor_radius (c : V3 ℝ) (R θ : ℝ) (h : 0 ≤ R * sin θ) :
    V3.pointDistance ⟨V3.dot ⟨1, 0, 0⟩ (sph c R θ 0), c.y, c.z⟩ (sph c R θ 0) = R * sin θ := by
  rw [pd_eq]
  unfold sph
  simp only [V3.dot, cos_zero, sin_zero]
  rw [show (1 * (c.x + R * cos θ) + 0 * (c.y + R * (sin θ * 0)) + 0 * (c.z - R * (sin θ * 1)) - (c.x + R * cos θ)) ^ 2 +
    (c.y - (c.y + R * (sin θ * 0))) ^ 2 + (c.z - (c.z - R * (sin θ * 1))) ^ 2 = (R * sin θ) ^ 2 by ring, sqrt_sq h]

/-- The longitudes kept on a floor. -/
noncomputable def floorAngles (tf : ℝ) : List ℝ :=
  let n := intN (2 * π / tf)
  let rot := (List.range (n + 1)).map fun i : ℕ => (i : ℝ) * tf
  if (2 * π - (n : ℝ) * tf) / tf ≤ 1 / 10 then rot.dropLast else rot

theorem skinFloor_eq (c : V3 ℝ) (R res θ : ℝ) (h : 0 ≤ R * sin θ) :
    skinFloor c R res θ =
      open Classical in
      if mathIsClose θ 0 (1 / 10 ^ 6) ∨ mathIsClose θ π (1 / 10 ^ 6) then some [sph c R θ 0]
      else if R * sin θ = 0 then none
      else if res / (R * sin θ) = 0 then none
      else some ((floorAngles (res / (R * sin θ))).map fun a => sph c R θ a) := by
  unfold skinFloor floorAngles
  simp only [init_eq, floor_radius c R θ h, sph_rotation]

theorem flatMapM?_some {α β : Type*} (f : α → Option (List β)) (l : List α) (h : ∀ a ∈ l, ∃ m, f a = some m) :
    ∃ m, flatMapM? f l = some m ∧ ∀ b, b ∈ m ↔ ∃ a ∈ l, ∃ m', f a = some m' ∧ b ∈ m' := by
  induction l with
  | nil => exact ⟨[], rfl, by simp⟩
  | cons a l ih =>
    obtain ⟨m1, h1⟩ := h a (by simp)
    obtain ⟨m2, h2, h3⟩ := ih fun b hb => h b (by simp [hb])
    refine ⟨m1 ++ m2, by simp only [flatMapM?, h1, h2], fun b => ?_⟩
    rw [List.mem_append, h3]
    constructor
    · rintro (h | ⟨a', ha', m', hm', hb⟩)
      · exact ⟨a, by simp, m1, h1, h⟩
      · exact ⟨a', by simp [ha'], m', hm', hb⟩
    · rintro ⟨a', ha', m', hm', hb⟩
      rcases List.mem_cons.mp ha' with rfl | ha'
      · rw [h1] at hm'; cases hm'; exact Or.inl hb
      · exact Or.inr ⟨a', ha', m', hm', hb⟩

/-- The angle between two floors. -/
theorem theta_spec (R res : ℝ) (hr : 0 < res) (hR : res ≤ 2 * R) :
    0 < 2 * arcsin (res / (2 * R)) ∧ 2 * arcsin (res / (2 * R)) ≤ π ∧ 2 * R * sin (2 * arcsin (res / (2 * R)) / 2) = res := by
  have hRp : 0 < 2 * R := by linarith
  have hq0 : 0 < res / (2 * R) := div_pos hr hRp
  have hq1 : res / (2 * R) ≤ 1 := (div_le_one hRp).mpr hR
  refine ⟨by have := arcsin_pos.mpr hq0; linarith, by have := arcsin_le_pi_div_two (res / (2 * R)); linarith, ?_⟩
  rw [mul_div_cancel_left₀ _ (two_ne_zero), sin_arcsin (by linarith) hq1]
  have : R ≠ 0 := by linarith
  field_simp

theorem intN_bounds (x : ℝ) (hx : 0 ≤ x) : (intN x : ℝ) ≤ x ∧ x < intN x + 1 := by
  have h0 : 0 ≤ ⌊x⌋ := Int.floor_nonneg.mpr hx
  have e : ((intN x : ℕ) : ℝ) = ((⌊x⌋ : ℤ) : ℝ) := by
    unfold intN
    rw [← Int.cast_natCast, Int.toNat_of_nonneg h0]
  rw [e]
  exact ⟨Int.floor_le x, Int.lt_floor_add_one x⟩

/-- Every floor has its colatitude in `[0, π]`. -/
theorem floor_range (θ : ℝ) (h0 : 0 < θ) (n : ℕ) (hn : n ∈ List.range (intN (π / θ) + 1)) : 0 ≤ n * θ ∧ n * θ ≤ π := by
  rw [List.mem_range] at hn
  have h1 := (intN_bounds (π / θ) (by have := pi_pos; positivity)).1
  have h2 : (n : ℝ) ≤ intN (π / θ) := by exact_mod_cast Nat.lt_succ_iff.mp hn
  refine ⟨by positivity, ?_⟩
  have h3 : (n : ℝ) ≤ π / θ := h2.trans h1
  rwa [le_div_iff₀ h0] at h3

theorem isClose_self (a tol : ℝ) (h : 0 ≤ tol) : mathIsClose a a tol := by
  unfold mathIsClose; rw [sub_self, abs_zero]; exact le_max_of_le_right h

theorem floor_sin_pos (θ : ℝ) (h0 : 0 ≤ θ) (h1 : θ ≤ π) (hc : ¬ (mathIsClose θ 0 (1 / 10 ^ 6) ∨ mathIsClose θ π (1 / 10 ^ 6))) :
    0 < sin θ := by
  rw [not_or] at hc
  apply sin_pos_of_pos_of_lt_pi
  · rcases eq_or_lt_of_le h0 with h | h
    · rw [← h] at hc; exact absurd (isClose_self 0 _ (by norm_num)) hc.1
    · exact h
  · rcases eq_or_lt_of_le h1 with h | h
    · rw [h] at hc; exact absurd (isClose_self π _ (by norm_num)) hc.2
    · exact h

theorem skinFloor_total (c : V3 ℝ) (R res θ : ℝ) (hR : 0 < R) (hr : 0 < res) (h0 : 0 ≤ θ) (h1 : θ ≤ π) :
    ∃ m, skinFloor c R res θ = some m ∧ (∀ p ∈ m, ∃ a, p = sph c R θ a) ∧
      ((mathIsClose θ 0 (1 / 10 ^ 6) ∨ mathIsClose θ π (1 / 10 ^ 6)) ∧ m = [sph c R θ 0] ∨
       0 < sin θ ∧ m = (floorAngles (res / (R * sin θ))).map fun a => sph c R θ a) := by
  rw [skinFloor_eq c R res θ (mul_nonneg hR.le (sin_nonneg_of_nonneg_of_le_pi h0 h1))]
  by_cases hc : mathIsClose θ 0 (1 / 10 ^ 6) ∨ mathIsClose θ π (1 / 10 ^ 6)
  · rw [if_pos hc]
    exact ⟨_, rfl, by simp only [List.mem_singleton]; rintro p rfl; exact ⟨_, rfl⟩, Or.inl ⟨hc, rfl⟩⟩
  · have hs := floor_sin_pos θ h0 h1 hc
    have hp : 0 < R * sin θ := mul_pos hR hs
    rw [if_neg hc, if_neg hp.ne', if_neg (div_pos hr hp).ne']
    refine ⟨_, rfl, ?_, Or.inr ⟨hs, rfl⟩⟩
    simp only [List.mem_map]
    rintro p ⟨a, -, rfl⟩; exact ⟨a, rfl⟩

theorem skinPoints_eq (c : V3 ℝ) (R res : ℝ) (hr : 0 < res) (hR : res ≤ 2 * R) :
    skinPoints c R res = flatMapM? (fun n : ℕ => skinFloor c R res (n * (2 * arcsin (res / (2 * R)))))
      (List.range (intN (π / (2 * arcsin (res / (2 * R)))) + 1)) := by
  have hRp : 0 < 2 * R := by linarith
  unfold skinPoints
  dsimp only
  rw [if_neg (not_lt.mpr hR), if_neg hRp.ne', if_neg (theta_spec R res hr hR).1.ne']

/-- C81: for `0 < resolution ≤ 2·radius` `skin_points` never fails and all its points are at distance `radius` from the
centre; for a larger resolution it is empty; a zero resolution raises `ZeroDivisionError`. -/
theorem C81_skinPoints (c : V3 ℝ) (R res : ℝ) :
    (2 * R < res → skinPoints c R res = some []) ∧
    (0 < res → res ≤ 2 * R → ∃ l, skinPoints c R res = some l ∧ ∀ p ∈ l, V3.pointDistance c p = R) ∧
    (0 ≤ R → skinPoints c R 0 = none) := by
  refine ⟨fun h => ?_, fun hr hR => ?_, fun h => ?_⟩
  · unfold skinPoints; rw [if_pos h]
  · have hRp : 0 < R := by linarith
    obtain ⟨h0, -, -⟩ := theta_spec R res hr hR
    rw [skinPoints_eq c R res hr hR]
    generalize 2 * arcsin (res / (2 * R)) = θ at *
    have hfl : ∀ n ∈ List.range (intN (π / θ) + 1), ∃ m, skinFloor c R res (n * θ) = some m := by
      intro n hn
      obtain ⟨a, b⟩ := floor_range θ h0 n hn
      obtain ⟨m, hm, -⟩ := skinFloor_total c R res (n * θ) hRp hr a b
      exact ⟨m, hm⟩
    obtain ⟨l, hl, hmem⟩ := flatMapM?_some _ _ hfl
    refine ⟨l, hl, fun p hp => ?_⟩
    obtain ⟨n, hn, m, hm, hpm⟩ := (hmem p).mp hp
    obtain ⟨a, b⟩ := floor_range θ h0 n hn
    obtain ⟨m', hm', hall, -⟩ := skinFloor_total c R res (n * θ) hRp hr a b
    rw [hm'] at hm; cases hm
    obtain ⟨ψ, rfl⟩ := hall p hpm
    exact sph_dist c R _ ψ hRp.le
  · unfold skinPoints
    dsimp only
    rw [if_neg (by linarith)]
    split
    · rfl
    · rw [if_pos (by simp)]

/-! ### The skin points cover the sphere -/

theorem sph_onto (c : V3 ℝ) (R : ℝ) (hR : 0 < R) (p : V3 ℝ) (hp : V3.pointDistance c p = R) :
    ∃ φ ψ, 0 ≤ φ ∧ φ ≤ π ∧ 0 ≤ ψ ∧ ψ < 2 * π ∧ p = sph c R φ ψ := by
  have hsq : (p.x - c.x) ^ 2 + (p.y - c.y) ^ 2 + (p.z - c.z) ^ 2 = R ^ 2 := by
    rw [← hp, pd_eq]
    rw [sq_sqrt (by positivity)]; ring
  have hx1 : -1 ≤ (p.x - c.x) / R ∧ (p.x - c.x) / R ≤ 1 := by
    rw [le_div_iff₀ hR, div_le_iff₀ hR]
    have : (p.x - c.x) ^ 2 ≤ R ^ 2 := by nlinarith [sq_nonneg (p.y - c.y), sq_nonneg (p.z - c.z)]
    have := abs_le.mp (abs_le_of_sq_le_sq this hR.le)
    constructor <;> linarith [this.1, this.2]
  obtain ⟨φ, hφ⟩ : ∃ φ, φ = arccos ((p.x - c.x) / R) := ⟨_, rfl⟩
  have hc : R * cos φ = p.x - c.x := by rw [hφ, cos_arccos hx1.1 hx1.2]; field_simp
  have h0 : 0 ≤ φ := hφ ▸ arccos_nonneg _
  have h1 : φ ≤ π := hφ ▸ arccos_le_pi _
  have hs0 := sin_nonneg_of_nonneg_of_le_pi h0 h1
  have hyz : (p.y - c.y) ^ 2 + (p.z - c.z) ^ 2 = (R * sin φ) ^ 2 := by
    have := sin_sq_add_cos_sq φ
    rw [← hc] at hsq
    linear_combination hsq - R ^ 2 * this
  obtain ⟨ψ, e1, e2⟩ : ∃ ψ, p.y - c.y = R * sin φ * sin ψ ∧ c.z - p.z = R * sin φ * cos ψ := by
    have hn : ‖(⟨c.z - p.z, p.y - c.y⟩ : ℂ)‖ = R * sin φ := by
      rw [Complex.norm_def, Complex.normSq_mk,
        show (c.z - p.z) * (c.z - p.z) + (p.y - c.y) * (p.y - c.y) = (R * sin φ) ^ 2 by rw [← hyz]; ring,
        sqrt_sq (mul_nonneg hR.le hs0)]
    have hre := congrArg Complex.re (Complex.norm_mul_cos_add_sin_mul_I ⟨c.z - p.z, p.y - c.y⟩)
    have him := congrArg Complex.im (Complex.norm_mul_cos_add_sin_mul_I ⟨c.z - p.z, p.y - c.y⟩)
    rw [hn] at hre him
    generalize R * sin φ = ρ at hre him ⊢
    refine ⟨Complex.arg ⟨c.z - p.z, p.y - c.y⟩, ?_, ?_⟩
    · generalize Complex.arg ⟨c.z - p.z, p.y - c.y⟩ = ψ at *
      rw [← Complex.ofReal_cos, ← Complex.ofReal_sin] at him
      simp [-Complex.ofReal_cos, -Complex.ofReal_sin] at him; linarith
    · generalize Complex.arg ⟨c.z - p.z, p.y - c.y⟩ = ψ at *
      rw [← Complex.ofReal_cos, ← Complex.ofReal_sin] at hre
      simp [-Complex.ofReal_cos, -Complex.ofReal_sin] at hre; linarith
  refine ⟨φ, toIcoMod two_pi_pos 0 ψ, h0, h1, ?_, ?_, ?_⟩
  · have := (toIcoMod_mem_Ico two_pi_pos 0 ψ).1; exact this
  · have := (toIcoMod_mem_Ico two_pi_pos 0 ψ).2; linarith
  · have hm := toIcoMod_add_toIcoDiv_zsmul two_pi_pos 0 ψ
    generalize toIcoMod two_pi_pos 0 ψ = ψ' at *
    generalize toIcoDiv two_pi_pos 0 ψ = k at *
    have es : sin ψ = sin ψ' := by rw [← hm, zsmul_eq_mul, sin_add_int_mul_two_pi]
    have ec : cos ψ = cos ψ' := by rw [← hm, zsmul_eq_mul, cos_add_int_mul_two_pi]
    rw [es] at e1; rw [ec] at e2
    unfold sph
    ext <;> dsimp only <;> linarith

theorem pd_le {p q : V3 ℝ} {d : ℝ} (hd : 0 ≤ d) (h : (p.x - q.x) ^ 2 + (p.y - q.y) ^ 2 + (p.z - q.z) ^ 2 ≤ d ^ 2) :
    V3.pointDistance p q ≤ d := by
  rw [pd_eq, sqrt_le_left hd]; linarith

/-- Moving along a meridian. -/
theorem sph_meridian (c : V3 ℝ) (R Θ φ θ ψ : ℝ) (hR : 0 ≤ R) (hΘ0 : 0 ≤ Θ) (hΘ1 : Θ ≤ π) (h : |φ - θ| ≤ Θ) :
    V3.pointDistance (sph c R φ ψ) (sph c R θ ψ) ≤ 2 * R * sin (Θ / 2) := by
  have hs : 0 ≤ sin (Θ / 2) := sin_nonneg_of_nonneg_of_le_pi (by linarith) (by linarith)
  refine pd_le (by positivity) ?_
  unfold sph
  dsimp only
  have h2 := sin_sq_add_cos_sq ψ
  have h1 := sin_sq_add_cos_sq φ
  have h3 := sin_sq_add_cos_sq θ
  have e1 : (c.x + R * cos φ - (c.x + R * cos θ)) ^ 2 + (c.y + R * (sin φ * sin ψ) - (c.y + R * (sin θ * sin ψ))) ^ 2 +
      (c.z - R * (sin φ * cos ψ) - (c.z - R * (sin θ * cos ψ))) ^ 2 = 2 * R ^ 2 * (1 - cos (φ - θ)) := by
    rw [cos_sub]
    linear_combination R ^ 2 * (sin φ - sin θ) ^ 2 * h2 + R ^ 2 * h1 + R ^ 2 * h3
  have e2 : 1 - cos (φ - θ) = 2 * sin ((φ - θ) / 2) ^ 2 := by
    have := cos_sq ((φ - θ) / 2)
    rw [mul_div_cancel₀ _ (two_ne_zero)] at this
    have h4 := sin_sq_add_cos_sq ((φ - θ) / 2)
    linarith
  rw [e1, e2]
  have h5 : sin ((φ - θ) / 2) ^ 2 ≤ sin (Θ / 2) ^ 2 := by
    rw [← sq_abs (sin ((φ - θ) / 2))]
    have : |sin ((φ - θ) / 2)| = sin (|φ - θ| / 2) := by
      rcases le_total 0 (φ - θ) with h' | h'
      · rw [abs_of_nonneg h'] at h ⊢
        exact abs_of_nonneg (sin_nonneg_of_nonneg_of_le_pi (by linarith) (by linarith))
      · rw [abs_of_nonpos h'] at h ⊢
        rw [neg_div, sin_neg]
        refine abs_of_nonpos ?_
        rw [← neg_nonneg, ← sin_neg]
        exact sin_nonneg_of_nonneg_of_le_pi (by linarith) (by linarith)
    rw [this]
    refine pow_le_pow_left₀ (sin_nonneg_of_nonneg_of_le_pi (by positivity) (by linarith)) ?_ 2
    exact sin_le_sin_of_le_of_le_pi_div_two (by have := abs_nonneg (φ - θ); linarith [pi_pos]) (by linarith) (by linarith)
  nlinarith [sq_nonneg R]

/-- Moving along a parallel. -/
theorem sph_parallel (c : V3 ℝ) (R θ ψ a : ℝ) (h : 0 ≤ R * sin θ) :
    V3.pointDistance (sph c R θ ψ) (sph c R θ a) ≤ R * sin θ * |ψ - a| := by
  refine pd_le (by positivity) ?_
  unfold sph
  dsimp only
  have h2 := sin_sq_add_cos_sq ψ
  have h3 := sin_sq_add_cos_sq a
  have e1 : (c.x + R * cos θ - (c.x + R * cos θ)) ^ 2 + (c.y + R * (sin θ * sin ψ) - (c.y + R * (sin θ * sin a))) ^ 2 +
      (c.z - R * (sin θ * cos ψ) - (c.z - R * (sin θ * cos a))) ^ 2 = 2 * (R * sin θ) ^ 2 * (1 - cos (ψ - a)) := by
    rw [cos_sub]
    linear_combination (R * sin θ) ^ 2 * h2 + (R * sin θ) ^ 2 * h3
  rw [e1, mul_pow (R * sin θ), sq_abs]
  have := one_sub_sq_div_two_le_cos (x := ψ - a)
  nlinarith [sq_nonneg (R * sin θ)]

theorem sph_parallel_diam (c : V3 ℝ) (R θ ψ a : ℝ) (h : 0 ≤ R * sin θ) :
    V3.pointDistance (sph c R θ ψ) (sph c R θ a) ≤ 2 * (R * sin θ) := by
  refine pd_le (by positivity) ?_
  unfold sph
  dsimp only
  have h2 := sin_sq_add_cos_sq ψ
  have h3 := sin_sq_add_cos_sq a
  have e1 : (c.x + R * cos θ - (c.x + R * cos θ)) ^ 2 + (c.y + R * (sin θ * sin ψ) - (c.y + R * (sin θ * sin a))) ^ 2 +
      (c.z - R * (sin θ * cos ψ) - (c.z - R * (sin θ * cos a))) ^ 2 = 2 * (R * sin θ) ^ 2 * (1 - cos (ψ - a)) := by
    rw [cos_sub]
    linear_combination (R * sin θ) ^ 2 * h2 + (R * sin θ) ^ 2 * h3
  rw [e1]
  have := neg_one_le_cos (ψ - a)
  nlinarith [sq_nonneg (R * sin θ)]

/-- On a floor that is not much shorter than the resolution, every longitude is close to a kept one. -/
theorem floorAngles_cover (tf ψ : ℝ) (h0 : 0 < tf) (h1 : tf ≤ 2 * π) (hψ0 : 0 ≤ ψ) (hψ1 : ψ < 2 * π) :
    ∃ a ∈ floorAngles tf, |ψ - a| ≤ 11 / 10 * tf := by
  have hn := intN_bounds (2 * π / tf) (by have := pi_pos; positivity)
  have hk := intN_bounds (ψ / tf) (by positivity)
  have hn1 : 1 ≤ intN (2 * π / tf) := by
    by_contra hc
    have : intN (2 * π / tf) = 0 := by omega
    rw [this] at hn
    have h2 : 2 * π / tf < 1 := by simpa using hn.2
    rw [div_lt_one h0] at h2; linarith
  have hkn : intN (ψ / tf) ≤ intN (2 * π / tf) := by
    have h2 : ψ / tf ≤ 2 * π / tf := by gcongr
    have h3 : (intN (ψ / tf) : ℝ) < intN (2 * π / tf) + 1 := by linarith [hk.1, hn.2]
    have : intN (ψ / tf) < intN (2 * π / tf) + 1 := by exact_mod_cast h3
    omega
  obtain ⟨k, hkk⟩ : ∃ k, k = intN (ψ / tf) := ⟨_, rfl⟩
  obtain ⟨n, hnn⟩ : ∃ n, n = intN (2 * π / tf) := ⟨_, rfl⟩
  unfold floorAngles
  dsimp only
  rw [← hkk] at hk hkn
  rw [← hnn] at hn hn1 hkn ⊢
  have k1 : (k : ℝ) * tf ≤ ψ := by rw [← le_div_iff₀ h0]; exact hk.1
  have k2 : ψ < (k + 1 : ℝ) * tf := by rw [← div_lt_iff₀ h0]; exact hk.2
  by_cases hd : (2 * π - (n : ℝ) * tf) / tf ≤ 1 / 10
  · rw [if_pos hd]
    have hdl : ((List.range (n + 1)).map fun i : ℕ => (i : ℝ) * tf).dropLast = (List.range n).map fun i : ℕ => (i : ℝ) * tf := by
      rw [List.range_succ, List.map_append, List.map_singleton, List.dropLast_concat]
    rw [hdl]
    by_cases hlt : k < n
    · refine ⟨k * tf, List.mem_map.mpr ⟨k, List.mem_range.mpr hlt, rfl⟩, ?_⟩
      rw [abs_le]; constructor <;> nlinarith
    · have hkn' : k = n := by omega
      refine ⟨((n - 1 : ℕ) : ℝ) * tf, List.mem_map.mpr ⟨n - 1, List.mem_range.mpr (by omega), rfl⟩, ?_⟩
      rw [Nat.cast_sub hn1, Nat.cast_one]
      rw [hkn'] at k1 k2
      rw [div_le_iff₀ h0] at hd
      rw [abs_le]; constructor <;> nlinarith
  · rw [if_neg hd]
    refine ⟨k * tf, List.mem_map.mpr ⟨k, List.mem_range.mpr (by omega), rfl⟩, ?_⟩
    rw [abs_le]; constructor <;> nlinarith

theorem close_sin (θ : ℝ) (h0 : 0 ≤ θ) (h1 : θ ≤ π) (hc : mathIsClose θ 0 (1 / 10 ^ 6) ∨ mathIsClose θ π (1 / 10 ^ 6)) :
    sin θ ≤ 1 / 10 ^ 6 := by
  have hpi := pi_le_four
  have key : ∀ x : ℝ, 0 ≤ x → x ≤ max (1 / 10 ^ 9 * π) (1 / 10 ^ 6) → x ≤ 1 / 10 ^ 6 := by
    intro x _ hx
    rwa [max_eq_right (by nlinarith)] at hx
  rcases hc with hc | hc
  · unfold mathIsClose at hc
    rw [sub_zero, abs_zero, abs_of_nonneg h0, max_eq_left h0] at hc
    have h2 := key θ h0 (hc.trans (max_le_max_right _ (by nlinarith)))
    exact (sin_le h0).trans h2
  · unfold mathIsClose at hc
    rw [abs_of_nonpos (by linarith), abs_of_nonneg h0, abs_of_pos pi_pos, max_eq_right h1] at hc
    have h2 := key (-(θ - π)) (by linarith) hc
    rw [← sin_pi_sub]
    exact (sin_le (by linarith)).trans (by linarith)

/-- One floor covers its circle, when it is not much shorter than the resolution. -/
theorem floor_cover (c : V3 ℝ) (R res θ ψ : ℝ) (hR : 0 < R) (hr : 0 < res) (h0 : 0 ≤ θ) (h1 : θ ≤ π) (hψ0 : 0 ≤ ψ)
    (hψ1 : ψ < 2 * π) (hbig : 0 < sin θ → res ≤ 2 * π * (R * sin θ)) {m : List (V3 ℝ)} (hm : skinFloor c R res θ = some m) :
    ∃ p ∈ m, V3.pointDistance (sph c R θ ψ) p ≤ 11 / 10 * res + 2 / 10 ^ 6 * R := by
  have hs0 := sin_nonneg_of_nonneg_of_le_pi h0 h1
  obtain ⟨m', hm', -, h⟩ := skinFloor_total c R res θ hR hr h0 h1
  rw [hm'] at hm; cases hm
  rcases h with ⟨hc, rfl⟩ | ⟨hs, rfl⟩
  · refine ⟨_, List.mem_singleton.mpr rfl, (sph_parallel_diam c R θ ψ 0 (mul_nonneg hR.le hs0)).trans ?_⟩
    have := close_sin θ h0 h1 hc
    have : (2 : ℝ) / 10 ^ 6 = 2 * (1 / 10 ^ 6) := by norm_num
    rw [this]
    nlinarith
  · have hp : 0 < R * sin θ := mul_pos hR hs
    obtain ⟨a, ha, hd⟩ := floorAngles_cover (res / (R * sin θ)) ψ (div_pos hr hp) (by rw [div_le_iff₀ hp]; exact hbig hs)
      hψ0 hψ1
    refine ⟨_, List.mem_map.mpr ⟨a, ha, rfl⟩, (sph_parallel c R θ ψ a hp.le).trans ?_⟩
    have := mul_le_mul_of_nonneg_left hd hp.le
    have e : R * sin θ * (11 / 10 * (res / (R * sin θ))) = 11 / 10 * res := by field_simp
    rw [e] at this
    have : 0 ≤ 2 / 10 ^ 6 * R := by positivity
    linarith

/-- C81: every point of the sphere is within `3.1·resolution` (and 2e-6 times the radius) of a point of `skin_points`. -/
theorem C81_skinPoints_cover (c : V3 ℝ) (R res : ℝ) (hr : 0 < res) (hR : res ≤ 2 * R) (p : V3 ℝ)
    (hp : V3.pointDistance c p = R) :
    ∃ l, skinPoints c R res = some l ∧ ∃ q ∈ l, V3.pointDistance p q ≤ 31 / 10 * res + 2 / 10 ^ 6 * R := by
  have hRp : 0 < R := by linarith
  obtain ⟨φ, ψ, hφ0, hφ1, hψ0, hψ1, rfl⟩ := sph_onto c R hRp p hp
  obtain ⟨t0, t1, t2⟩ := theta_spec R res hr hR
  obtain ⟨l, hl, -⟩ := (C81_skinPoints c R res).2.1 hr hR
  refine ⟨l, hl, ?_⟩
  rw [skinPoints_eq c R res hr hR] at hl
  generalize 2 * arcsin (res / (2 * R)) = Θ at *
  have hfl : ∀ n ∈ List.range (intN (π / Θ) + 1), ∃ m, skinFloor c R res (n * Θ) = some m := by
    intro n hn
    obtain ⟨a, b⟩ := floor_range Θ t0 n hn
    obtain ⟨m, hm, -⟩ := skinFloor_total c R res (n * Θ) hRp hr a b
    exact ⟨m, hm⟩
  obtain ⟨l', hl', hmem⟩ := flatMapM?_some _ _ hfl
  rw [hl'] at hl; cases hl
  -- the floor of `p`
  have hk := intN_bounds (φ / Θ) (by positivity)
  obtain ⟨k, hkk⟩ : ∃ k, k = intN (φ / Θ) := ⟨_, rfl⟩
  rw [← hkk] at hk
  have k1 : (k : ℝ) * Θ ≤ φ := by rw [← le_div_iff₀ t0]; exact hk.1
  have k2 : φ < (k + 1 : ℝ) * Θ := by rw [← div_lt_iff₀ t0]; exact hk.2
  have kmem : k ∈ List.range (intN (π / Θ) + 1) := by
    rw [List.mem_range]
    have hn := intN_bounds (π / Θ) (by have := pi_pos; positivity)
    have h3 : (k : ℝ) < intN (π / Θ) + 1 := by
      have : φ / Θ ≤ π / Θ := by gcongr
      linarith [hk.1, hn.2]
    exact_mod_cast h3
  obtain ⟨ka, kb⟩ := floor_range Θ t0 k kmem
  obtain ⟨m, hm⟩ := hfl k kmem
  have d1 : V3.pointDistance (sph c R φ ψ) (sph c R (k * Θ) ψ) ≤ res :=
    (sph_meridian c R Θ φ (k * Θ) ψ hRp.le t0.le t1 (abs_le.mpr ⟨by linarith, by nlinarith⟩)).trans t2.le
  by_cases hbig : 0 < sin (k * Θ) → res ≤ 2 * π * (R * sin (k * Θ))
  · obtain ⟨q, hq, hd⟩ := floor_cover c R res (k * Θ) ψ hRp hr ka kb hψ0 hψ1 hbig hm
    refine ⟨q, (hmem q).mpr ⟨k, kmem, m, hm, hq⟩, ?_⟩
    have := V3.pointDistance_triangle (sph c R φ ψ) (sph c R (k * Θ) ψ) q
    linarith
  · push Not at hbig
    obtain ⟨hs, hsm⟩ := hbig
    -- the floor is tiny: it is not the first one, use the previous floor
    have hk1 : 1 ≤ k := by
      by_contra hc
      have : k = 0 := by omega
      rw [this] at hs; simp at hs
    have hpi3 := pi_gt_three
    have kc : ((k - 1 : ℕ) : ℝ) * Θ = k * Θ - Θ := by rw [Nat.cast_sub hk1, Nat.cast_one]; ring
    have k'mem : k - 1 ∈ List.range (intN (π / Θ) + 1) := by
      rw [List.mem_range] at kmem ⊢; omega
    obtain ⟨ka', kb'⟩ := floor_range Θ t0 (k - 1) k'mem
    obtain ⟨m', hm'⟩ := hfl (k - 1) k'mem
    have d2 : V3.pointDistance (sph c R (k * Θ) ψ) (sph c R ((k - 1 : ℕ) * Θ) ψ) ≤ res := by
      refine (sph_meridian c R Θ (k * Θ) ((k - 1 : ℕ) * Θ) ψ hRp.le t0.le t1 ?_).trans t2.le
      rw [kc, abs_le]; constructor <;> linarith
    have hbig' : 0 < sin ((k - 1 : ℕ) * Θ) → res ≤ 2 * π * (R * sin ((k - 1 : ℕ) * Θ)) := by
      intro hs'
      have hk2 : 2 ≤ k := by
        by_contra hc
        have : k - 1 = 0 := by omega
        rw [this] at hs'; simp at hs'
      have hΘ2 : Θ ≤ π / 2 := by
        have : (2 : ℝ) ≤ k := by exact_mod_cast hk2
        nlinarith
      have l1 : Θ ≤ ((k - 1 : ℕ) : ℝ) * Θ := by
        have : (1 : ℝ) ≤ ((k - 1 : ℕ) : ℝ) := by exact_mod_cast (by omega : 1 ≤ k - 1)
        nlinarith
      have l2 : ((k - 1 : ℕ) : ℝ) * Θ ≤ π - Θ := by rw [kc]; linarith
      have l3 : sin Θ ≤ sin ((k - 1 : ℕ) * Θ) := by
        rcases le_total (((k - 1 : ℕ) : ℝ) * Θ) (π / 2) with h | h
        · exact sin_le_sin_of_le_of_le_pi_div_two (by linarith) h l1
        · rw [← sin_pi_sub (((k - 1 : ℕ) : ℝ) * Θ)]
          exact sin_le_sin_of_le_of_le_pi_div_two (by linarith) (by linarith) (by linarith)
      have l4 : res ≤ 2 * (R * sin Θ) := by
        -- sin Θ = 2 sin (Θ/2) cos (Θ/2) with cos (Θ/2) ≥ 1/2
        have e : sin Θ = 2 * sin (Θ / 2) * cos (Θ / 2) := by rw [← sin_two_mul]; congr 1; ring
        have c1 : 1 / 2 ≤ cos (Θ / 2) := by
          rw [← cos_pi_div_three]
          exact cos_le_cos_of_nonneg_of_le_pi (by linarith) (by linarith) (by linarith)
        have s1 : 0 ≤ sin (Θ / 2) := sin_nonneg_of_nonneg_of_le_pi (by linarith) (by linarith)
        rw [e, ← t2]
        have := mul_nonneg hRp.le s1
        nlinarith
      have l5 : R * sin Θ ≤ R * sin ((k - 1 : ℕ) * Θ) := mul_le_mul_of_nonneg_left l3 hRp.le
      have l6 : 0 < R * sin ((k - 1 : ℕ) * Θ) := mul_pos hRp hs'
      nlinarith
    obtain ⟨q, hq, hd⟩ := floor_cover c R res ((k - 1 : ℕ) * Θ) ψ hRp hr ka' kb' hψ0 hψ1 hbig' hm'
    refine ⟨q, (hmem q).mpr ⟨k - 1, k'mem, m', hm', hq⟩, ?_⟩
    have := V3.pointDistance_triangle (sph c R φ ψ) (sph c R (k * Θ) ψ) q
    have := V3.pointDistance_triangle (sph c R (k * Θ) ψ) (sph c R ((k - 1 : ℕ) * Θ) ψ) q
    linarith

/-- C81: `inner_points` never fails for a positive resolution, contains the centre, and all its points are in the ball. -/
theorem C81_innerPoints (c : V3 ℝ) (R res : ℝ) (hR : 0 ≤ R) (hr : 0 < res) :
    ∃ l, innerPoints c R res = some l ∧ c ∈ l ∧ ∀ p ∈ l, V3.pointDistance c p ≤ R := by
  have hcc : V3.pointDistance c c = 0 := by rw [pd_eq]; simp
  unfold innerPoints
  dsimp only
  rw [if_neg hr.ne']
  by_cases hn : intN (R / res) = 0
  · rw [if_pos hn]
    exact ⟨[c], rfl, by simp, by simp [hcc, hR]⟩
  · rw [if_neg hn]
    have hb := (intN_bounds (R / res) (by positivity)).1
    generalize intN (R / res) = n at *
    have hsub : ∀ r ∈ (if (R - (n : ℝ) * res) / res ≤ 1 / 10 then
        ((List.range n).map fun k : ℕ => ((k + 1 : ℕ) : ℝ) * res).dropLast else
        (List.range n).map fun k : ℕ => ((k + 1 : ℕ) : ℝ) * res), res ≤ r ∧ r ≤ R := by
      intro r hr'
      have hr'' : r ∈ (List.range n).map fun k : ℕ => ((k + 1 : ℕ) : ℝ) * res := by
        split at hr'
        · exact List.dropLast_subset _ hr'
        · exact hr'
      obtain ⟨k, hk, rfl⟩ := List.mem_map.mp hr''
      rw [List.mem_range] at hk
      have h1 : ((k + 1 : ℕ) : ℝ) ≤ n := by exact_mod_cast hk
      have h2 : (1 : ℝ) ≤ ((k + 1 : ℕ) : ℝ) := by exact_mod_cast Nat.succ_le_succ (Nat.zero_le k)
      rw [le_div_iff₀ hr] at hb
      constructor <;> nlinarith
    generalize (if (R - (n : ℝ) * res) / res ≤ 1 / 10 then
        ((List.range n).map fun k : ℕ => ((k + 1 : ℕ) : ℝ) * res).dropLast else
        (List.range n).map fun k : ℕ => ((k + 1 : ℕ) : ℝ) * res) = radii at *
    obtain ⟨m, hm, hmem⟩ := flatMapM?_some (fun r => skinPoints c r res) radii fun r hr' => by
      obtain ⟨l, hl, -⟩ := (C81_skinPoints c r res).2.1 hr (by linarith [(hsub r hr').1])
      exact ⟨l, hl⟩
    rw [hm]
    refine ⟨c :: m, rfl, by simp, ?_⟩
    intro p hp
    rcases List.mem_cons.mp hp with rfl | hp
    · rw [hcc]; exact hR
    · obtain ⟨r, hr', l, hl, hpl⟩ := (hmem p).mp hp
      obtain ⟨l', hl', hd⟩ := (C81_skinPoints c r res).2.1 hr (by linarith [(hsub r hr').1])
      rw [hl'] at hl; cases hl
      rw [hd p hpl]; exact (hsub r hr').2

/-- A concrete case: the unit sphere with resolution 1/10. -/
example : ∃ l, skinPoints ⟨0, 0, 0⟩ 1 (1 / 10) = some l ∧ ∃ q ∈ l, V3.pointDistance ⟨0, 0, 1⟩ q ≤ 31 / 10 * (1 / 10) + 2 / 10 ^ 6 * 1 :=
  C81_skinPoints_cover _ _ _ (by norm_num) (by norm_num) _ (by rw [pd_eq]; norm_num)

end Volmdlr.Solid
