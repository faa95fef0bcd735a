import Verif.Profile.MeasureProps
import Verif.Solid.VolumeProps
import Mathlib.MeasureTheory.Measure.Lebesgue.Basic
import Mathlib.MeasureTheory.Constructions.Pi

/-!
# C132: surfaces with holes, C133: the volume of an extruded profile
-/

namespace Volmdlr.Profile

open Real MeasureTheory Set Volmdlr.Angle Volmdlr.Arc

/-! ## Specification -/

/-- What is left of a region when the holes are removed. -/
def Pierced (O : Set (ℝ × ℝ)) (holes : List (Set (ℝ × ℝ))) : Set (ℝ × ℝ) := {P | P ∈ O ∧ ∀ H ∈ holes, P ∉ H}

/-- The holes are in the outline, and they overlap at most on their borders. -/
structure Fits (O : Set (ℝ × ℝ)) (holes : List (Set (ℝ × ℝ))) : Prop where
  inside : ∀ H ∈ holes, H ⊆ O
  apart : holes.Pairwise fun H K => volume (H ∩ K) = 0

/-- A contour whose area is that of what it bounds: a contour seen from the point `o`. -/
structure Bounds (contour : List Edge) (R : Set (ℝ × ℝ)) : Prop where
  valid : IsContour contour
  oriented : Oriented contour
  star : ∃ σ o, Star σ o contour ∧ R = Region o contour

/-- The prism on `S` along the third axis of the frame, towards it or, for a negative length, away from it. -/
def Prism (f : Frame3 ℝ) (S : Set (ℝ × ℝ)) (length : ℝ) (p : V3 ℝ) : Prop :=
  ∃ x y z, (x, y) ∈ S ∧ min 0 length ≤ z ∧ z ≤ max 0 length ∧ p = Surface.pt f ⟨x, y, z⟩

/-! ## Measures of regions -/

theorem region_compact {o : V2 ℝ} {contour : List Edge} (hsm : ∀ e ∈ contour, Smooth e) : IsCompact (Region o contour) := by
  have : Region o contour = ⋃ e ∈ {e | e ∈ contour}, fan o e '' (Icc (0 : ℝ) 1 ×ˢ Icc (0 : ℝ) 1) := by
    ext P
    simp only [Region, mem_ofPred_eq, mem_iUnion, exists_prop, mem_image, mem_prod, Prod.exists]
    constructor
    · rintro ⟨e, he, r, hr, t, ht, rfl⟩
      exact ⟨e, he, r, t, ⟨hr, ht⟩, rfl⟩
    · rintro ⟨e, he, r, t, ⟨hr, ht⟩, rfl⟩
      exact ⟨e, he, r, hr, t, ht, rfl⟩
  rw [this]
  refine (List.finite_toSet contour).isCompact_biUnion fun e he => (isCompact_Icc.prod isCompact_Icc).image ?_
  exact continuous_iff_continuousAt.2 fun z => (fan_hasFDerivAt o (hsm e he) z).continuousAt

theorem Bounds.compact {contour : List Edge} {R : Set (ℝ × ℝ)} (h : Bounds contour R) : IsCompact R := by
  obtain ⟨σ, o, -, rfl⟩ := h.star
  exact region_compact fun e he => h.valid.smooth he

theorem Bounds.area {contour : List Edge} {R : Set (ℝ × ℝ)} (h : Bounds contour R) : contourArea contour = .ok (volume R).toReal := by
  obtain ⟨σ, o, hst, rfl⟩ := h.star
  exact C129_measure h.valid h.oriented hst

/-- The union of the holes. -/
def holeUnion (holes : List (Set (ℝ × ℝ))) : Set (ℝ × ℝ) := {P | ∃ H ∈ holes, P ∈ H}

theorem hole_union {holes : List (Set (ℝ × ℝ))} (hm : ∀ H ∈ holes, MeasurableSet H ∧ volume H ≠ ⊤)
    (hd : holes.Pairwise fun H K => volume (H ∩ K) = 0) (g : ℝ × ℝ → ℝ) (hg : ∀ H ∈ holes, IntegrableOn g H) :
    MeasurableSet (holeUnion holes) ∧ volume (holeUnion holes) ≠ ⊤ ∧ IntegrableOn g (holeUnion holes) ∧
    (volume (holeUnion holes)).toReal = (holes.map fun H => (volume H).toReal).sum ∧
    ∫ P in holeUnion holes, g P = (holes.map fun H => ∫ P in H, g P).sum := by
  induction holes with
  | nil =>
    have : holeUnion [] = ∅ := by ext P; simp [holeUnion]
    rw [this]; simp
  | cons H l ih =>
    obtain ⟨m, t, i, v, w⟩ := ih (fun K hK => hm K (List.mem_cons_of_mem _ hK)) (List.pairwise_cons.1 hd).2 (fun K hK => hg K (List.mem_cons_of_mem _ hK))
    obtain ⟨m1, t1⟩ := hm H List.mem_cons_self
    have i1 := hg H List.mem_cons_self
    have e : holeUnion (H :: l) = H ∪ holeUnion l := by ext P; simp [holeUnion]
    have hae : AEDisjoint volume H (holeUnion l) := by
      have : H ∩ holeUnion l = ⋃ K ∈ {K | K ∈ l}, H ∩ K := by
        ext P; simp only [holeUnion, mem_inter_iff, mem_ofPred_eq, mem_iUnion, exists_prop]
        constructor
        · rintro ⟨a, K, b, c⟩; exact ⟨K, b, a, c⟩
        · rintro ⟨K, b, a, c⟩; exact ⟨a, K, b, c⟩
      unfold AEDisjoint
      rw [this, measure_biUnion_null_iff (List.finite_toSet l).countable]
      exact fun K hK => (List.pairwise_cons.1 hd).1 K hK
    rw [e]
    refine ⟨m1.union m, ?_, i1.union i, ?_, ?_⟩
    · rw [measure_union₀ m.nullMeasurableSet hae]; exact ENNReal.add_ne_top.2 ⟨t1, t⟩
    · rw [measure_union₀ m.nullMeasurableSet hae, ENNReal.toReal_add t1 t, v, List.map_cons, List.sum_cons]
    · rw [setIntegral_union₀ hae m.nullMeasurableSet i1 i, w, List.map_cons, List.sum_cons]

/-- The measure of a pierced region, and the integrals over it. -/
theorem pierced_spec {O : Set (ℝ × ℝ)} {holes : List (Set (ℝ × ℝ))} (hO : IsCompact O) (hh : ∀ H ∈ holes, IsCompact H) (hf : Fits O holes)
    (g : ℝ × ℝ → ℝ) (hg : Continuous g) :
    MeasurableSet (Pierced O holes) ∧ volume (Pierced O holes) ≠ ⊤ ∧
    (volume (Pierced O holes)).toReal = (volume O).toReal - (holes.map fun H => (volume H).toReal).sum ∧
    ∫ P in Pierced O holes, g P = (∫ P in O, g P) - (holes.map fun H => ∫ P in H, g P).sum := by
  obtain ⟨m, t, i, v, w⟩ := hole_union (fun H hH => ⟨(hh H hH).measurableSet, (hh H hH).measure_lt_top.ne⟩) hf.apart g
    (fun H hH => hg.continuousOn.integrableOn_compact (hh H hH))
  have hsub : holeUnion holes ⊆ O := by rintro P ⟨H, hH, hP⟩; exact hf.inside H hH hP
  have e : Pierced O holes = O \ holeUnion holes := by
    ext P
    simp only [Pierced, holeUnion, mem_ofPred_eq, mem_sdiff, not_exists, not_and]
  have hOt : volume O ≠ ⊤ := hO.measure_lt_top.ne
  rw [e]
  refine ⟨hO.measurableSet.diff m, (measure_mono sdiff_subset |>.trans_lt hO.measure_lt_top).ne, ?_, ?_⟩
  · rw [measure_sdiff hsub m.nullMeasurableSet t, ENNReal.toReal_sub_of_le (measure_mono hsub) hOt, v]
  · rw [setIntegral_sdiff m (hg.continuousOn.integrableOn_compact hO) hsub, w]

theorem areas_ok : ∀ {inner : List (List Edge)} {holes : List (Set (ℝ × ℝ))}, List.Forall₂ Bounds inner holes →
    inner.mapM contourArea = .ok (holes.map fun H => (volume H).toReal) := by
  intro inner holes h
  induction h with
  | nil => rfl
  | cons h1 _ ih => rw [List.mapM_cons, h1.area, ih]; rfl

theorem Bounds.holes_compact {inner : List (List Edge)} {holes : List (Set (ℝ × ℝ))} (h : List.Forall₂ Bounds inner holes) : ∀ H ∈ holes, IsCompact H := by
  induction h with
  | nil => simp
  | cons h1 _ ih =>
    intro H hH
    rcases List.mem_cons.1 hH with rfl | hH
    · exact h1.compact
    · exact ih H hH

/-- **C132** the area of a surface with holes is the Lebesgue measure of what is left of the outline. -/
theorem C132_area {outer : List Edge} {O : Set (ℝ × ℝ)} {inner : List (List Edge)} {holes : List (Set (ℝ × ℝ))} (ho : Bounds outer O)
    (hi : List.Forall₂ Bounds inner holes) (hf : Fits O holes) :
    surface2dArea outer inner = .ok (volume (Pierced O holes)).toReal := by
  rw [surface2dArea, ho.area, areas_ok hi]
  exact congrArg Except.ok (pierced_spec ho.compact (Bounds.holes_compact hi) hf (fun _ => 0) continuous_const).2.2.1.symm

/-- **C132** and its centre of mass is that of what is left, when those of the contours are right (C130). -/
theorem C132_centre {outer : List Edge} {O : Set (ℝ × ℝ)} {inner : List (List Edge)} {holes : List (Set (ℝ × ℝ))} (ho : Bounds outer O)
    (hi : List.Forall₂ Bounds inner holes) (hf : Fits O holes) (hpos : volume (Pierced O holes) ≠ 0)
    (hoc : contourCentre outer = .ok ⟨(∫ P in O, P.1) / (volume O).toReal, (∫ P in O, P.2) / (volume O).toReal⟩)
    (hic : List.Forall₂ (fun c H => contourCentre c = .ok ⟨(∫ P in H, P.1) / (volume H).toReal, (∫ P in H, P.2) / (volume H).toReal⟩) inner holes) :
    surface2dCentre outer inner = .ok ⟨(∫ P in Pierced O holes, P.1) / (volume (Pierced O holes)).toReal,
      (∫ P in Pierced O holes, P.2) / (volume (Pierced O holes)).toReal⟩ := by
  have hpos0 : ∀ H : Set (ℝ × ℝ), volume H = 0 → ∀ g : ℝ × ℝ → ℝ, ∫ P in H, g P = 0 := fun H h g => setIntegral_measure_zero g h
  have hmul : ∀ H : Set (ℝ × ℝ), IsCompact H → ∀ g : ℝ × ℝ → ℝ, (volume H).toReal * ((∫ P in H, g P) / (volume H).toReal) = ∫ P in H, g P := by
    intro H hH g
    by_cases h0 : volume H = 0
    · rw [hpos0 H h0]; simp
    · have : (volume H).toReal ≠ 0 := (ENNReal.toReal_pos h0 hH.measure_lt_top.ne).ne'
      field_simp
  obtain ⟨-, ht, hv, -⟩ := pierced_spec ho.compact (Bounds.holes_compact hi) hf (fun _ => 0) continuous_const
  have hx := (pierced_spec ho.compact (Bounds.holes_compact hi) hf Prod.fst continuous_fst).2.2.2
  have hy := (pierced_spec ho.compact (Bounds.holes_compact hi) hf Prod.snd continuous_snd).2.2.2
  have hV : 0 < (volume (Pierced O holes)).toReal := ENNReal.toReal_pos hpos ht
  have hao : areaAndCentre outer = .ok ((volume O).toReal, ⟨(∫ P in O, P.1) / (volume O).toReal, (∫ P in O, P.2) / (volume O).toReal⟩) := by
    rw [areaAndCentre, ho.area, hoc]; rfl
  have hai : inner.mapM areaAndCentre = .ok (holes.map fun H => ((volume H).toReal,
      (⟨(∫ P in H, P.1) / (volume H).toReal, (∫ P in H, P.2) / (volume H).toReal⟩ : V2 ℝ))) := by
    clear hoc hao ho hpos hf hv hx hy hV ht
    induction hi with
    | nil => rfl
    | cons h1 _ ih =>
      obtain ⟨c1, c2⟩ := List.forall₂_cons.1 hic
      rw [List.mapM_cons, areaAndCentre, h1.area, c1, ih c2]
      rfl
  have hmap : (holes.map fun H => ((volume H).toReal, (⟨(∫ P in H, P.1) / (volume H).toReal, (∫ P in H, P.2) / (volume H).toReal⟩ : V2 ℝ))).map Prod.fst =
      holes.map fun H => (volume H).toReal := by rw [List.map_map]; rfl
  have hsa : surfaceArea (volume O).toReal (holes.map fun H => (volume H).toReal) = (volume (Pierced O holes)).toReal := hv.symm
  rw [surface2dCentre, hao, hai]
  change (if surfaceArea (volume O).toReal ((holes.map _).map Prod.fst) = 0 then _ else _) = _
  rw [hmap, hsa, if_neg hV.ne']
  congr 1
  unfold surfaceCentre
  dsimp only
  rw [hmap, hsa]
  have hfold : ∀ (l : List (Set (ℝ × ℝ))), (∀ H ∈ l, IsCompact H) → ∀ c : V2 ℝ, (l.map fun H => ((volume H).toReal,
      (⟨(∫ P in H, P.1) / (volume H).toReal, (∫ P in H, P.2) / (volume H).toReal⟩ : V2 ℝ))).foldl (fun (c : V2 ℝ) (i : ℝ × V2 ℝ) => c - V2.smul i.1 i.2) c =
      ⟨c.x - (l.map fun H => ∫ P in H, P.1).sum, c.y - (l.map fun H => ∫ P in H, P.2).sum⟩ := by
    intro l
    induction l with
    | nil => intro _ c; ext <;> simp
    | cons H l ih =>
      intro hc c
      rw [List.map_cons, List.foldl_cons, ih (fun K hK => hc K (List.mem_cons_of_mem _ hK))]
      have h1 := hmul H (hc H List.mem_cons_self) Prod.fst
      have h2 := hmul H (hc H List.mem_cons_self) Prod.snd
      ext
      · simp only [V2.sub_x, V2.smul, List.map_cons, List.sum_cons]; rw [mul_comm, h1]; ring
      · simp only [V2.sub_y, V2.smul, List.map_cons, List.sum_cons]; rw [mul_comm, h2]; ring
  rw [hfold holes (Bounds.holes_compact hi), hx, hy]
  have h1 := hmul O ho.compact Prod.fst
  have h2 := hmul O ho.compact Prod.snd
  ext
  · simp only [V2.smul]; rw [mul_comm _ (volume O).toReal, h1]; ring
  · simp only [V2.smul]; rw [mul_comm _ (volume O).toReal, h2]; ring

/-! ## Prisms -/

theorem prism_measure (f : Frame3 ℝ) (ho : Orthonormal3 f.basis) {S : Set (ℝ × ℝ)} (hS : MeasurableSet S) (length : ℝ) :
    Solid.measureOf (Prism f S length) = volume S * ENNReal.ofReal |length| := by
  have h1 : Solid.measureOf (Prism f S length) =
      Solid.measureOf (fun p => ∃ q : V3 ℝ, ((q.x, q.y) ∈ S ∧ min 0 length ≤ q.z ∧ q.z ≤ max 0 length) ∧ p = Surface.pt f q) := by
    apply Solid.measureOf_congr
    intro p
    constructor
    · rintro ⟨x, y, z, a, b, c, d⟩; exact ⟨⟨x, y, z⟩, ⟨a, b, c⟩, d⟩
    · rintro ⟨⟨x, y, z⟩, ⟨a, b, c⟩, d⟩; exact ⟨x, y, z, a, b, c, d⟩
  rw [h1, Solid.measureOf_frame, Solid.triple_orthonormal ho, ENNReal.ofReal_one, one_mul]
  unfold Solid.measureOf
  have hT : MeasurableSet ((Icc (min 0 length) (max 0 length)) ×ˢ (MeasurableEquiv.finTwoArrow (α := ℝ) ⁻¹' S)) :=
    measurableSet_Icc.prod (MeasurableEquiv.finTwoArrow.measurable hS)
  have hset : {x : Fin 3 → ℝ | (((⟨x 0, x 1, x 2⟩ : V3 ℝ).x, (⟨x 0, x 1, x 2⟩ : V3 ℝ).y) ∈ S ∧ min 0 length ≤ (⟨x 0, x 1, x 2⟩ : V3 ℝ).z ∧
        (⟨x 0, x 1, x 2⟩ : V3 ℝ).z ≤ max 0 length)} =
      (MeasurableEquiv.piFinSuccAbove (fun _ : Fin 3 => ℝ) 2) ⁻¹' ((Icc (min 0 length) (max 0 length)) ×ˢ (MeasurableEquiv.finTwoArrow (α := ℝ) ⁻¹' S)) := by
    ext x
    simp only [mem_ofPred_eq, mem_preimage, mem_prod, mem_Icc]
    have e1 : ((MeasurableEquiv.piFinSuccAbove (fun _ : Fin 3 => ℝ) 2) x).1 = x 2 := rfl
    have e2 : MeasurableEquiv.finTwoArrow ((MeasurableEquiv.piFinSuccAbove (fun _ : Fin 3 => ℝ) 2) x).2 = (x 0, x 1) := rfl
    rw [e1, e2]
    tauto
  rw [hset, (volume_preserving_piFinSuccAbove (fun _ : Fin 3 => ℝ) 2).measure_preimage hT.nullMeasurableSet]
  have := (Measure.prod_prod (μ := (volume : Measure ℝ)) (ν := (volume : Measure (Fin 2 → ℝ))) (Icc (min 0 length) (max 0 length))
    (MeasurableEquiv.finTwoArrow (α := ℝ) ⁻¹' S))
  refine (show _ = _ from this).trans ?_
  rw [(volume_preserving_finTwoArrow ℝ).measure_preimage hS.nullMeasurableSet, Real.volume_Icc, max_sub_min_eq_abs, sub_zero, mul_comm]

/-- **C133** the value computed by `volume`, for any length: the Lebesgue measure of the prism, with the sign of the length. -/
theorem C133_volume_signed (f : Frame3 ℝ) (hof : Orthonormal3 f.basis) {outer : List Edge} {O : Set (ℝ × ℝ)} {inner : List (List Edge)}
    {holes : List (Set (ℝ × ℝ))} (ho : Bounds outer O) (hi : List.Forall₂ Bounds inner holes) (hf : Fits O holes) (length : ℝ) :
    profileVolume f outer inner length = .ok ((SignType.sign length : ℝ) * (Solid.measureOf (Prism f (Pierced O holes) length)).toReal) := by
  obtain ⟨hm, ht, hv, -⟩ := pierced_spec ho.compact (Bounds.holes_compact hi) hf (fun _ => 0) continuous_const
  rw [prism_measure f hof hm, ENNReal.toReal_mul, ENNReal.toReal_ofReal (abs_nonneg _)]
  rw [profileVolume, ho.area, areas_ok hi]
  change extrudedVolume f (volume O).toReal (holes.map fun H => (volume H).toReal) length = _
  rw [extrudedVolume]
  have hno : ¬((holes.map fun H => (volume H).toReal).any fun a : ℝ => decide (a > (volume O).toReal)) = true := by
    rw [List.any_eq_true]
    rintro ⟨a, ha, hlt⟩
    obtain ⟨H, hH, rfl⟩ := List.mem_map.1 ha
    have h1 := of_decide_eq_true hlt
    have h2 := ENNReal.toReal_mono (ho.compact.measure_lt_top (μ := volume)).ne (measure_mono (hf.inside H hH))
    linarith
  rw [if_neg hno, hv]
  congr 1
  unfold surfaceArea
  rw [mul_left_comm, sign_mul_abs]
  congr 1
  obtain ⟨h1, h2, h3, h4, h5, h6⟩ := hof
  have hww : V3.dot f.basis.w f.basis.w = 1 := by assumption
  simp only [V3.dot, V3.smul] at hww ⊢
  linear_combination length * hww

/-- **C133** (full statement, false) the volume of an extruded profile is the Lebesgue measure of the prism. -/
def C133_volume_full_statement : Prop :=
  ∀ (f : Frame3 ℝ) (outer : List Edge) (O : Set (ℝ × ℝ)) (length : ℝ), Orthonormal3 f.basis → Bounds outer O →
    profileVolume f outer [] length = .ok (Solid.measureOf (Prism f O length)).toReal

/-- **C133** (partial) it is for a length that is not negative, with any holes. -/
theorem C133_volume_partial (f : Frame3 ℝ) (hof : Orthonormal3 f.basis) {outer : List Edge} {O : Set (ℝ × ℝ)} {inner : List (List Edge)}
    {holes : List (Set (ℝ × ℝ))} (ho : Bounds outer O) (hi : List.Forall₂ Bounds inner holes) (hf : Fits O holes) {length : ℝ} (hl : 0 ≤ length) :
    profileVolume f outer inner length = .ok (Solid.measureOf (Prism f (Pierced O holes) length)).toReal := by
  rw [C133_volume_signed f hof ho hi hf]
  rcases hl.lt_or_eq with h | h
  · rw [sign_pos h]; simp
  · obtain ⟨hm, -⟩ := pierced_spec ho.compact (Bounds.holes_compact hi) hf (fun _ => 0) continuous_const
    rw [prism_measure f hof hm, ← h]; simp

/-! ## Concrete cases -/

theorem iceCream_bounds : Bounds iceCream (Region ⟨0, 0⟩ iceCream) := ⟨iceCream_contour, iceCream_oriented, 1, ⟨0, 0⟩, iceCream_star, rfl⟩

theorem iceCream_measure : (volume (Region ⟨0, 0⟩ iceCream)).toReal = π / 2 + 1 := by
  have h2 : (iceCream.map Edge.straightLineArea).sum = π / 2 := by
    have hg : (disc ⟨0, 0⟩ 1 1).IsTrigo := by simp [Circle2.IsTrigo, disc, V2.cross]
    simp only [iceCream, List.map_cons, List.map_nil, Edge.straightLineArea, List.sum_cons, List.sum_nil, add_zero]
    rw [arc_straight_area (σ := 1) (Or.inl rfl) ⟨fun _ => rfl, fun _ => hg⟩]
    simp [firstHalf, disc, Arc2.angle]
    ring
  rw [(region_area iceCream_contour iceCream_star).1, area_decomposition iceCream_contour, iceCream_polygon, h2]
  have h1 : signedArea [(⟨1, 0⟩ : V2 ℝ), ⟨-1, 0⟩, ⟨0, -1⟩] = 1 := by simp [signedArea, cyclicSum, chainSum, crossPQ]
  rw [h1]
  ring

/-- The axes. -/
def axes : Frame3 ℝ := ⟨⟨0, 0, 0⟩, ⟨⟨1, 0, 0⟩, ⟨0, 1, 0⟩, ⟨0, 0, 1⟩⟩⟩

theorem axes_orthonormal : Orthonormal3 axes.basis := by
  refine ⟨?_, ?_, ?_, ?_, ?_, ?_⟩ <;> simp [axes, V3.dot]

theorem fits_nil (O : Set (ℝ × ℝ)) : Fits O [] := ⟨by simp, List.Pairwise.nil⟩

theorem pierced_nil (O : Set (ℝ × ℝ)) : Pierced O [] = O := by ext P; simp [Pierced]

/-- The extrusion of the half disc on a triangle along a length of two. -/
example : profileVolume axes iceCream [] 2 = .ok (π + 2) ∧ (Solid.measureOf (Prism axes (Region ⟨0, 0⟩ iceCream) 2)).toReal = π + 2 := by
  have hm : (Solid.measureOf (Prism axes (Region ⟨0, 0⟩ iceCream) 2)).toReal = π + 2 := by
    rw [prism_measure axes axes_orthonormal iceCream_bounds.compact.measurableSet, ENNReal.toReal_mul, iceCream_measure, ENNReal.toReal_ofReal (abs_nonneg _)]
    rw [abs_of_pos (by norm_num : (0 : ℝ) < 2)]; ring
  refine ⟨?_, hm⟩
  rw [C133_volume_partial axes axes_orthonormal iceCream_bounds List.Forall₂.nil (fits_nil _) (by norm_num : (0 : ℝ) ≤ 2), pierced_nil, hm]

/-- **C133** counterexample: with a length of minus one the volume is negative. -/
theorem C133_counterexample : profileVolume axes iceCream [] (-1) = .ok (-(π / 2 + 1)) ∧ ¬C133_volume_full_statement := by
  have hm : (Solid.measureOf (Prism axes (Region ⟨0, 0⟩ iceCream) (-1))).toReal = π / 2 + 1 := by
    rw [prism_measure axes axes_orthonormal iceCream_bounds.compact.measurableSet, ENNReal.toReal_mul, iceCream_measure, ENNReal.toReal_ofReal (abs_nonneg _)]
    rw [abs_neg, abs_one, mul_one]
  have hv : profileVolume axes iceCream [] (-1) = .ok (-(π / 2 + 1)) := by
    rw [C133_volume_signed axes axes_orthonormal iceCream_bounds List.Forall₂.nil (fits_nil _), pierced_nil, hm, sign_neg (by norm_num : (-1 : ℝ) < 0)]
    simp
  refine ⟨hv, fun h => ?_⟩
  have := h axes iceCream _ (-1) axes_orthonormal iceCream_bounds
  rw [hv, hm] at this
  have h2 := Except.ok.inj this
  have := pi_pos
  linarith

theorem halves_motion {r : ℝ} (hr : 0 < r) (t : ℝ) : ((Edge.arc (firstHalf ⟨0, 0⟩ r 1)).path t = ⟨r * cos (t * π), r * sin (t * π)⟩ ∧
    (Edge.arc (firstHalf ⟨0, 0⟩ r 1)).velocity t = ⟨r * (-sin (t * π) * π), r * (cos (t * π) * π)⟩) ∧
    ((Edge.arc (secondHalf ⟨0, 0⟩ r 1)).path t = ⟨-(r * cos (t * π)), -(r * sin (t * π))⟩ ∧
    (Edge.arc (secondHalf ⟨0, 0⟩ r 1)).velocity t = ⟨-(r * (-sin (t * π) * π)), -(r * (cos (t * π) * π))⟩) := by
  have hs : (1 : ℝ) = 1 ∨ (1 : ℝ) = -1 := Or.inl rfl
  obtain ⟨-, ψ, p, l, q, -, -⟩ := half_shape hs (firstHalf_good ⟨0, 0⟩ hr hs) rfl
  obtain ⟨-, ψ', p', l', q', -, -⟩ := half_shape hs (secondHalf_good ⟨0, 0⟩ hr hs) rfl
  have a1 : (firstHalf ⟨0, 0⟩ r 1).angle = π := by simp [firstHalf, Arc2.angle]
  have a2 : (secondHalf ⟨0, 0⟩ r 1).angle = π := by simp only [secondHalf, Arc2.angle]; ring
  have e1 : ψ = 0 := by rw [p]; simp [firstHalf]
  have e2 : ψ' = π := by rw [p']; simp [secondHalf]
  have hr0 := hr.ne'
  have hang : ∀ t : ℝ, (1 : ℝ) * (t * (r * π) / r) = t * π := fun t => by field_simp
  have hp : ∀ t, (Edge.arc (firstHalf ⟨0, 0⟩ r 1)).path t = ⟨r * cos (t * π), r * sin (t * π)⟩ := by
    intro t
    change (firstHalf ⟨0, 0⟩ r 1).pointAtAbscissa (t * (firstHalf ⟨0, 0⟩ r 1).length) = _
    rw [q, l, a1, e1]
    simp only [firstHalf, disc, hang, zero_add]
  have hp' : ∀ t, (Edge.arc (secondHalf ⟨0, 0⟩ r 1)).path t = ⟨-(r * cos (t * π)), -(r * sin (t * π))⟩ := by
    intro t
    change (secondHalf ⟨0, 0⟩ r 1).pointAtAbscissa (t * (secondHalf ⟨0, 0⟩ r 1).length) = _
    rw [q', l', a2, e2]
    simp only [secondHalf, disc, hang, zero_add, add_comm π, cos_add_pi, sin_add_pi, mul_neg]
  have hin : HasDerivAt (fun s : ℝ => s * π) π t := by simpa using (hasDerivAt_id t).mul_const π
  refine ⟨⟨hp t, ?_⟩, hp' t, ?_⟩
  · unfold Edge.velocity
    simp only [hp]
    ext
    · exact (hin.cos.const_mul r).deriv
    · exact (hin.sin.const_mul r).deriv
  · unfold Edge.velocity
    simp only [hp']
    ext
    · exact (hin.cos.const_mul r).neg.deriv
    · exact (hin.sin.const_mul r).neg.deriv

theorem twoHalves_star {r : ℝ} (hr : 0 < r) : Star 1 ⟨0, 0⟩ (twoHalves ⟨0, 0⟩ r 1) := by
  have hpi := pi_pos
  have hsin : ∀ t ∈ Ioo (0 : ℝ) 1, 0 < sin (t * π) := fun t ht => sin_pos_of_pos_of_lt_pi (mul_pos ht.1 hpi) (by nlinarith [ht.2])
  have honce : ∀ t ∈ Ioo (0 : ℝ) 1, ∀ u ∈ Ioo (0 : ℝ) 1, ∀ k : ℝ, r * cos (t * π) = r * cos (u * π) * k → r * sin (t * π) = r * sin (u * π) * k → t = u := by
    intro t ht u hu k hx hy
    have h0 : sin (t * π - u * π) = 0 := by
      have : r * sin (t * π - u * π) = 0 := by rw [sin_sub]; linear_combination hy * cos (u * π) - hx * sin (u * π)
      exact (mul_eq_zero.1 this).resolve_left hr.ne'
    have h1 : t * π - u * π = 0 := by
      rw [sin_eq_zero_iff_of_lt_of_lt] at h0
      · exact h0
      · nlinarith [ht.1, hu.2]
      · nlinarith [hu.1, ht.2]
    exact mul_right_cancel₀ hpi.ne' (sub_eq_zero.1 h1)
  refine ⟨Or.inl rfl, ?_, ?_, ?_⟩
  · intro e he t ht
    have hp : 0 < r ^ 2 * π := by positivity
    have hsc := sin_sq_add_cos_sq (t * π)
    simp only [twoHalves, List.mem_cons, List.not_mem_nil, or_false] at he
    rcases he with rfl | rfl
    · rw [(halves_motion hr t).1.1, (halves_motion hr t).1.2]
      simp only [V2.cross, V2.sub_x, V2.sub_y]
      have : 1 * ((r * cos (t * π) - 0) * (r * (cos (t * π) * π)) - (r * sin (t * π) - 0) * (r * (-sin (t * π) * π))) = r ^ 2 * π := by
        linear_combination (r ^ 2 * π) * hsc
      linarith
    · rw [(halves_motion hr t).2.1, (halves_motion hr t).2.2]
      simp only [V2.cross, V2.sub_x, V2.sub_y]
      have : 1 * ((-(r * cos (t * π)) - 0) * -(r * (cos (t * π) * π)) - (-(r * sin (t * π)) - 0) * -(r * (-sin (t * π) * π))) = r ^ 2 * π := by
        linear_combination (r ^ 2 * π) * hsc
      linarith
  · intro e he t ht u hu k hk h
    have hx := congrArg V2.x h
    have hy := congrArg V2.y h
    simp only [twoHalves, List.mem_cons, List.not_mem_nil, or_false] at he
    rcases he with rfl | rfl
    · rw [(halves_motion hr t).1.1, (halves_motion hr u).1.1] at hx hy
      simp only [V2.smul, V2.sub_x, V2.sub_y, sub_zero] at hx hy
      exact honce t ht u hu k hx hy
    · rw [(halves_motion hr t).2.1, (halves_motion hr u).2.1] at hx hy
      simp only [V2.smul, V2.sub_x, V2.sub_y, sub_zero] at hx hy
      exact honce t ht u hu k (by linarith) (by linarith)
  · refine List.pairwise_cons.2 ⟨?_, List.pairwise_singleton _ _⟩
    intro f hf t ht u hu k hk h
    simp only [List.mem_cons, List.not_mem_nil, or_false] at hf
    subst hf
    have hy := congrArg V2.y h
    rw [(halves_motion hr t).1.1, (halves_motion hr u).2.1] at hy
    simp only [V2.smul, V2.sub_y, sub_zero] at hy
    have h1 := mul_pos hr (hsin t ht)
    have h2 := mul_pos (mul_pos hr (hsin u hu)) hk
    linarith

theorem twoHalves_bounds {r : ℝ} (hr : 1 ≤ r) : Bounds (twoHalves ⟨0, 0⟩ r 1) (Region ⟨0, 0⟩ (twoHalves ⟨0, 0⟩ r 1)) :=
  ⟨twoHalves_contour _ hr (Or.inl rfl), twoHalves_oriented _ hr (Or.inl rfl), 1, ⟨0, 0⟩, twoHalves_star (by linarith), rfl⟩

/-- A ring: the disc of radius two with a hole of radius one. -/
theorem ring_fits : Fits (Region ⟨0, 0⟩ (twoHalves ⟨0, 0⟩ 2 1)) [Region ⟨0, 0⟩ (twoHalves ⟨0, 0⟩ 1 1)] := by
  refine ⟨?_, List.pairwise_singleton _ _⟩
  intro H hH
  rw [List.mem_singleton.1 hH]
  rintro P ⟨e, he, s, hs, t, ht, rfl⟩
  simp only [twoHalves, List.mem_cons, List.not_mem_nil, or_false] at he
  rcases he with rfl | rfl
  · refine ⟨_, List.mem_cons_self, s / 2, ⟨by linarith [hs.1], by linarith [hs.2]⟩, t, ht, ?_⟩
    simp only [fan, (halves_motion one_pos t).1.1, (halves_motion two_pos t).1.1]
    ext <;> simp only <;> ring
  · refine ⟨_, List.mem_cons_of_mem _ List.mem_cons_self, s / 2, ⟨by linarith [hs.1], by linarith [hs.2]⟩, t, ht, ?_⟩
    simp only [fan, (halves_motion one_pos t).2.1, (halves_motion two_pos t).2.1]
    ext <;> simp only <;> ring

/-- A concrete case: the area of the ring. -/
example : surface2dArea (twoHalves ⟨0, 0⟩ 2 1) [twoHalves ⟨0, 0⟩ 1 1] = .ok (3 * π) := by
  have hb2 : Bounds _ _ := twoHalves_bounds (r := 2) (by norm_num)
  have hb1 : Bounds _ _ := twoHalves_bounds (r := 1) le_rfl
  rw [C132_area hb2 (List.Forall₂.cons hb1 List.Forall₂.nil) ring_fits]
  congr 1
  rw [(pierced_spec hb2.compact (Bounds.holes_compact (List.Forall₂.cons hb1 List.Forall₂.nil)) ring_fits (fun _ => 0) continuous_const).2.2.1]
  simp only [List.map_cons, List.map_nil, List.sum_cons, List.sum_nil]
  rw [(region_area hb2.valid (twoHalves_star two_pos)).1, (region_area hb1.valid (twoHalves_star one_pos)).1,
    twoHalves_area _ _ (by norm_num) (Or.inl rfl), twoHalves_area _ _ le_rfl (Or.inl rfl)]
  ring

end Volmdlr.Profile
