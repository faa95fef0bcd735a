import Verif.Surface.SweptProps
import Verif.Solid.CylOps
import Verif.Fillet.Arc3Props

/-!
# C157: surfaces of extrusion
-/

namespace Volmdlr.Surface

open Volmdlr.Angle Volmdlr.Intersect Real

/-! ## Specification -/

/-- The edge is parametrised by its arc length (specification): from `start` to `stop`, moving by at most the difference of the
abscissas. -/
structure ArcLength (e : ExtrudedEdge) : Prop where
  first : e.curve.pointAt 0 = some e.start
  last : e.curve.pointAt e.curve.length = some e.stop
  total : ∀ u, 0 ≤ u → u ≤ e.curve.length → ∃ c, e.curve.pointAt u = some c
  lipschitz : ∀ u v c d, 0 ≤ u → u ≤ e.curve.length → 0 ≤ v → v ≤ e.curve.length → e.curve.pointAt u = some c → e.curve.pointAt v = some d →
    V3.pointDistance c d ≤ |u - v|

/-- A point on the line through a point of the edge, along the direction of the extrusion: `line_intersections` finds some point of that
line, whose abscissa is the one of a point of the edge at most `eps` away (specification). -/
def FindsFacing (e : ExtrudedEdge) (direction : V3 ℝ) (eps : ℝ) : Prop :=
  ∃ f, e.lineIntersections = some f ∧
    ∀ u c v, 0 ≤ u → u ≤ e.curve.length → e.curve.pointAt u = some c →
      ∃ c' rest t, f ⟨c + V3.smul v direction, c + V3.smul v direction + direction⟩ = c' :: rest ∧ c' = c + V3.smul t direction ∧
        ∃ u' c'', e.curve.abscissa c' = some u' ∧ 0 ≤ u' ∧ u' ≤ e.curve.length ∧ e.curve.pointAt u' = some c'' ∧
          V3.pointDistance c'' c' ≤ eps

/-- What the constructor guarantees. -/
structure Extrusion.Valid (s : Extrusion) : Prop where
  ortho : Orthonormal3 s.frame.basis
  w : s.frame.basis.w = s.direction

/-! ## The frame -/

/-- C157: the constructor fails exactly on a null direction; otherwise the frame is orthonormal, at the centre of the edge (its start when
it has no centre), and its third vector is the direction normalised. -/
theorem C157_frame (e : ExtrudedEdge) (d : V3 ℝ) :
    (Extrusion.new e d = none ↔ d = ⟨0, 0, 0⟩) ∧
    ∀ s, Extrusion.new e d = some s → s.edge = e ∧ V3.dot s.direction s.direction = 1 ∧ (∃ k, 0 < k ∧ d = V3.smul k s.direction) ∧
      Orthonormal3 s.frame.basis ∧ s.frame.basis.w = s.direction ∧ (∀ c, e.center = some c → s.frame.origin = c) ∧
      (e.center = none → s.frame.origin = e.start) := by
  by_cases hd : d = ⟨0, 0, 0⟩
  · have hn : V3.unitVector d = none := by
      rw [hd]; unfold V3.unitVector
      have : V3.norm (⟨0, 0, 0⟩ : V3 ℝ) = 0 := (V3.norm_eq_zero_iff _).mpr rfl
      simp [this]
    constructor
    · unfold Extrusion.new
      rw [hn]
      simp [hd]
    · intro s hs
      unfold Extrusion.new at hs
      rw [hn] at hs
      simp at hs
  · obtain ⟨w, hw⟩ := V3.unitVector_some hd
    obtain ⟨hN, hne, hww⟩ := V3.unitVector_spec hw
    obtain ⟨f, hf, ho, hb, hfw⟩ := Solid.local_frame (e.center.getD e.start) w hww
    have hnew : Extrusion.new e d = some ⟨e, w, f⟩ := by
      unfold Extrusion.new
      rw [hw, Option.bind_some, hf]
      rfl
    constructor
    · rw [hnew]; simp [hd]
    · intro s hs
      rw [hnew] at hs
      have hs := Option.some.inj hs
      subst hs
      refine ⟨rfl, hww, ⟨_, hN, hne⟩, hb, hfw, ?_, ?_⟩
      · intro c hc; simp [ho, hc]
      · intro hc; simp [ho, hc]

theorem Extrusion.new_valid {e : ExtrudedEdge} {d : V3 ℝ} {s : Extrusion} (h : Extrusion.new e d = some s) : s.Valid := by
  obtain ⟨-, -, -, h4, h5, -⟩ := (C157_frame e d).2 s h
  exact ⟨h4, h5⟩

theorem Extrusion.Valid.norm {s : Extrusion} (h : s.Valid) : V3.norm s.direction = 1 := by
  rw [← h.w]; exact norm_one_of_dot h.ortho.2.2.1

/-! ## The points -/

/-- Moving along a unit vector. -/
theorem dist_along (c d w : V3 ℝ) (a b : ℝ) (hw : V3.norm w = 1) :
    V3.pointDistance (c + V3.smul a w) (d + V3.smul b w) ≤ V3.pointDistance c d + |a - b| := by
  have h1 : V3.pointDistance (c + V3.smul a w) (d + V3.smul b w) ≤ V3.pointDistance (c + V3.smul a w) (d + V3.smul a w) +
      V3.pointDistance (d + V3.smul a w) (d + V3.smul b w) := V3.pointDistance_triangle _ _ _
  have h2 : V3.pointDistance (c + V3.smul a w) (d + V3.smul a w) = V3.pointDistance c d := by
    unfold V3.pointDistance
    congr 1
    ext <;> simp
  have h3 : V3.pointDistance (d + V3.smul a w) (d + V3.smul b w) = |a - b| := by
    unfold V3.pointDistance
    have : d + V3.smul a w - (d + V3.smul b w) = V3.smul (a - b) w := by ext <;> simp <;> ring
    rw [this, Fillet.V3.norm_smul_abs, hw, mul_one]
  linarith

theorem snap_mem {u L : ℝ} (h0 : 0 ≤ u) (hL : u ≤ L) : 0 ≤ snap (1 / 10 ^ 7) u ∧ snap (1 / 10 ^ 7) u ≤ L := by
  unfold snap
  split_ifs
  · exact ⟨le_refl _, h0.trans hL⟩
  · exact ⟨h0, hL⟩

theorem wrapElse_id {s : Extrusion} {u : ℝ} (h0 : 0 ≤ u) (hL : u ≤ s.edge.curve.length) : wrapPeriodElse s.xPeriodicity u = u := by
  unfold wrapPeriodElse Extrusion.xPeriodicity
  by_cases h : Arc.isClose3 s.edge.start s.edge.stop (1 / 10 ^ 6)
  · rw [if_pos h]
    dsimp only
    rw [if_neg (not_lt.mpr hL), if_neg (not_lt.mpr h0), ite_self]
  · rw [if_neg h]

theorem to3d_inside {s : Extrusion} (ha : ArcLength s.edge) {u v : ℝ} (h0 : 0 ≤ u) (hL : u ≤ s.edge.curve.length) :
    ∃ c, s.edge.curve.pointAt (snap (1 / 10 ^ 7) u) = some c ∧ s.to3d ⟨u, v⟩ = some (c + V3.smul (snap (1 / 10 ^ 7) v) s.frame.basis.w) := by
  obtain ⟨m0, mL⟩ := snap_mem h0 hL
  obtain ⟨c, hc⟩ := ha.total _ m0 mL
  refine ⟨c, hc, ?_⟩
  unfold Extrusion.to3d
  dsimp only
  rw [wrapElse_id m0 mL, hc, Option.map_some]

/-- C157: for an edge parametrised by its arc length, the point of parameters (u, v), `0 ≤ u ≤` length, is the point of abscissa u of the
edge translated by v along the direction, up to the 1e-7 below which a parameter is taken for zero. -/
theorem C157_points {s : Extrusion} (hs : s.Valid) (ha : ArcLength s.edge) (u v : ℝ) (h0 : 0 ≤ u) (hL : u ≤ s.edge.curve.length) :
    ∃ c p, s.edge.curve.pointAt u = some c ∧ s.to3d ⟨u, v⟩ = some p ∧ V3.pointDistance p (c + V3.smul v s.direction) ≤ 2 / 10 ^ 7 ∧
      (1 / 10 ^ 7 ≤ u → 1 / 10 ^ 7 ≤ |v| → p = c + V3.smul v s.direction) := by
  obtain ⟨c, hc⟩ := ha.total u h0 hL
  obtain ⟨c', hc', hp⟩ := to3d_inside (v := v) ha h0 hL
  obtain ⟨m0, mL⟩ := snap_mem h0 hL
  refine ⟨c, _, hc, hp, ?_, ?_⟩
  · rw [hs.w]
    have h1 := dist_along c' c s.direction (snap (1 / 10 ^ 7) v) v hs.norm
    have h2 := ha.lipschitz _ _ _ _ m0 mL h0 hL hc' hc
    have h3 := snap_dist (eps := 1 / 10 ^ 7) (by norm_num) u
    have h4 := snap_dist (eps := 1 / 10 ^ 7) (by norm_num) v
    linarith
  · intro hu hv
    have h3 : snap (1 / 10 ^ 7) u = u := by unfold snap; rw [if_neg]; rw [abs_of_nonneg h0]; linarith
    have h4 : snap (1 / 10 ^ 7) v = v := by unfold snap; rw [if_neg]; linarith
    rw [h3, hc] at hc'
    rw [h4, hs.w, Option.some.inj hc']

/-- C157: conversely every point of a generatrix line is the image of some parameters, up to 2e-7. -/
theorem C157_covers {s : Extrusion} (hs : s.Valid) (ha : ArcLength s.edge) (u : ℝ) (h0 : 0 ≤ u) (hL : u ≤ s.edge.curve.length) (c q : V3 ℝ)
    (hc : s.edge.curve.pointAt u = some c) (hq : V3.cross (q - c) s.direction = ⟨0, 0, 0⟩) :
    ∃ v p, s.to3d ⟨u, v⟩ = some p ∧ V3.pointDistance p q ≤ 2 / 10 ^ 7 := by
  obtain ⟨c', p, hc', hp, hd, -⟩ := C157_points hs ha u (V3.dot (q - c) s.direction) h0 hL
  rw [hc] at hc'
  have hc' := Option.some.inj hc'
  subst hc'
  refine ⟨_, p, hp, ?_⟩
  have hw : V3.dot s.direction s.direction = 1 := by rw [← hs.w]; exact hs.ortho.2.2.1
  have : c + V3.smul (V3.dot (q - c) s.direction) s.direction = q := by
    have h1 := congrArg V3.x hq
    have h2 := congrArg V3.y hq
    have h3 := congrArg V3.z hq
    simp only [V3.cross, V3.sub_x, V3.sub_y, V3.sub_z, V3.dot] at h1 h2 h3 hw
    ext <;> simp only [V3.dot, V3.sub_x, V3.sub_y, V3.sub_z, V3.add_x, V3.add_y, V3.add_z, V3.smul_x, V3.smul_y, V3.smul_z]
    · linear_combination (q.x - c.x) * hw - s.direction.y * h3 + s.direction.z * h2
    · linear_combination (q.y - c.y) * hw - s.direction.z * h1 + s.direction.x * h3
    · linear_combination (q.z - c.z) * hw - s.direction.x * h2 + s.direction.y * h1
  rwa [this] at hd

/-- C157: a closed edge makes the surface periodic in u: one period more or less gives the same point up to 1.1e-6. -/
theorem C157_periodic {s : Extrusion} (ha : ArcLength s.edge) (hc : V3.pointDistance s.edge.start s.edge.stop ≤ 1 / 10 ^ 6)
    (hl : 1 / 10 ^ 7 ≤ s.edge.curve.length) (u v : ℝ) (h0 : 0 ≤ u) (hL : u ≤ s.edge.curve.length) :
    ∃ p q r, s.to3d ⟨u, v⟩ = some p ∧ s.to3d ⟨u + s.edge.curve.length, v⟩ = some q ∧ s.to3d ⟨u - s.edge.curve.length, v⟩ = some r ∧
      V3.pointDistance p q ≤ 1 / 10 ^ 6 ∧ V3.pointDistance p r ≤ 11 / 10 ^ 7 := by
  obtain ⟨c, hc0, hp⟩ := to3d_inside (v := v) ha h0 hL
  obtain ⟨m0, mL⟩ := snap_mem h0 hL
  have hper : s.xPeriodicity = some s.edge.curve.length := by
    unfold Extrusion.xPeriodicity
    rw [if_pos]
    unfold Arc.isClose3
    rw [Intersect.mathIsClose_zero (by norm_num), abs_of_nonneg (show 0 ≤ V3.pointDistance _ _ from V3.norm_nonneg _)]
    exact hc
  have hd : ∀ a b : V3 ℝ, ∀ t : ℝ, V3.pointDistance (a + V3.smul t s.frame.basis.w) (b + V3.smul t s.frame.basis.w) = V3.pointDistance a b := by
    intro a b t
    unfold V3.pointDistance
    congr 1
    ext <;> simp
  have hself : ∀ a : V3 ℝ, V3.pointDistance a a = 0 := by
    intro a
    unfold V3.pointDistance
    rw [V3.norm_eq_zero_iff]
    ext <;> simp
  obtain ⟨cu, hcu⟩ := ha.total u h0 hL
  have hccu : V3.pointDistance c cu ≤ 1 / 10 ^ 7 :=
    (ha.lipschitz _ _ _ _ m0 mL h0 hL hc0 hcu).trans (snap_dist (eps := 1 / 10 ^ 7) (by norm_num) u)
  have hL0 : s.edge.curve.length ≠ 0 := by intro h; rw [h] at hl; norm_num at hl
  have hto : ∀ x a, s.edge.curve.pointAt (wrapPeriodElse s.xPeriodicity (snap (1 / 10 ^ 7) x)) = some a →
      s.to3d ⟨x, v⟩ = some (a + V3.smul (snap (1 / 10 ^ 7) v) s.frame.basis.w) := by
    intro x a hx
    unfold Extrusion.to3d
    dsimp only
    rw [hx, Option.map_some]
  have hq : ∃ b, s.edge.curve.pointAt (wrapPeriodElse s.xPeriodicity (snap (1 / 10 ^ 7) (u + s.edge.curve.length))) = some b ∧
      V3.pointDistance c b ≤ 1 / 10 ^ 6 := by
    have e : snap (1 / 10 ^ 7) (u + s.edge.curve.length) = u + s.edge.curve.length := by
      unfold snap; rw [if_neg]; rw [abs_of_nonneg (by linarith)]; linarith
    rw [e, hper]
    unfold wrapPeriodElse
    dsimp only
    rw [if_neg hL0]
    rcases h0.eq_or_lt with h | h
    · rw [← h, zero_add, if_neg (lt_irrefl _), if_neg (by linarith)]
      refine ⟨_, ha.last, ?_⟩
      have : snap (1 / 10 ^ 7) u = 0 := by rw [← h]; unfold snap; norm_num
      rw [this, ha.first] at hc0
      rw [← Option.some.inj hc0]
      exact hc
    · rw [if_pos (by linarith), add_sub_cancel_right]
      exact ⟨_, hcu, by linarith⟩
  have hr : ∃ b, s.edge.curve.pointAt (wrapPeriodElse s.xPeriodicity (snap (1 / 10 ^ 7) (u - s.edge.curve.length))) = some b ∧
      V3.pointDistance c b ≤ 11 / 10 ^ 7 := by
    rw [hper]
    unfold wrapPeriodElse
    dsimp only
    rw [if_neg hL0]
    by_cases hsm : |u - s.edge.curve.length| < 1 / 10 ^ 7
    · have e : snap (1 / 10 ^ 7) (u - s.edge.curve.length) = 0 := by unfold snap; rw [if_pos hsm]
      rw [e, if_neg (by linarith), if_neg (lt_irrefl _)]
      refine ⟨_, ha.first, ?_⟩
      by_cases hu : |u| < 1 / 10 ^ 7
      · have : snap (1 / 10 ^ 7) u = 0 := by unfold snap; rw [if_pos hu]
        rw [this, ha.first] at hc0
        rw [← Option.some.inj hc0, hself]
        norm_num
      · have : snap (1 / 10 ^ 7) u = u := by unfold snap; rw [if_neg hu]
        rw [this] at hc0
        have h1 := ha.lipschitz _ _ _ _ h0 hL (by linarith) (le_refl _) hc0 ha.last
        have h2 := V3.pointDistance_triangle c s.edge.stop s.edge.start
        rw [V3.pointDistance_symm s.edge.stop] at h2
        linarith
    · have e : snap (1 / 10 ^ 7) (u - s.edge.curve.length) = u - s.edge.curve.length := by unfold snap; rw [if_neg hsm]
      have hneg : u - s.edge.curve.length < 0 := by
        rcases lt_or_eq_of_le hL with h | h
        · linarith
        · exfalso; apply hsm; rw [h]; norm_num
      rw [e, if_neg (by linarith), if_pos hneg, sub_add_cancel]
      exact ⟨_, hcu, by linarith⟩
  obtain ⟨b, hb, hb'⟩ := hq
  obtain ⟨b2, hb2, hb2'⟩ := hr
  exact ⟨_, _, _, hp, hto _ _ hb, hto _ _ hb2, by rw [hd]; exact hb', by rw [hd]; exact hb2'⟩

/-! ## The vectorised version -/

/-- C157: `parametric_points_to_3d` gives the exact point of every (u, v), `0 ≤ u ≤` length, and leaves that row of the array unchanged;
`point2d_to_3d` agrees with it up to 2e-7. -/
theorem C157_parametric {s : Extrusion} (hs : s.Valid) (ha : ArcLength s.edge) (u v : ℝ) (h0 : 0 ≤ u) (hL : u ≤ s.edge.curve.length) :
    ∃ c p, s.edge.curve.pointAt u = some c ∧ s.paramTo3d ⟨u, v⟩ = some (⟨u, v⟩, c + V3.smul v s.direction) ∧ s.to3d ⟨u, v⟩ = some p ∧
      V3.pointDistance p (c + V3.smul v s.direction) ≤ 2 / 10 ^ 7 := by
  obtain ⟨c, p, hc, hp, hd, -⟩ := C157_points hs ha u v h0 hL
  refine ⟨c, p, hc, ?_, hp, hd⟩
  have hw : wrapPeriod s.xPeriodicity u = u := by
    unfold wrapPeriod Extrusion.xPeriodicity
    by_cases h : Arc.isClose3 s.edge.start s.edge.stop (1 / 10 ^ 6)
    · rw [if_pos h]
      dsimp only
      rw [if_neg (not_lt.mpr hL), if_neg (not_lt.mpr h0), ite_self]
    · rw [if_neg h]
  unfold Extrusion.paramTo3d
  dsimp only
  rw [hw, hc, Option.map_some]

/-! ## The round trip -/

/-- C157: full statement of the round trip on a straight generatrix that is not parallel to the direction: the parameters of a point of
the surface give the point back. -/
def C157_roundtrip_full_statement : Prop :=
  ∀ (e : Seg3) (d : V3 ℝ) (s : Extrusion), Extrusion.new (straightEdge e) d = some s → e.start ≠ e.stop →
    V3.cross (e.stop - e.start) d ≠ ⟨0, 0, 0⟩ → ∀ u v, 0 ≤ u → u ≤ V3.pointDistance e.start e.stop →
      ∃ p q p', s.to3d ⟨u, v⟩ = some p ∧ s.to2d p = some q ∧ s.to3d q = some p' ∧ V3.pointDistance p' p ≤ 14 / 10 ^ 7

/-- C157: round trip: the parameters of a point of the surface give the point back up to 4e-7 (plus the error of the edge), when the
`line_intersections` of the edge finds a point facing it (missing: edges on which it finds none, for which a projection of the point on
the edge is used). -/
theorem C157_roundtrip_partial {s : Extrusion} {eps : ℝ} (hs : s.Valid) (ha : ArcLength s.edge) (hf : FindsFacing s.edge s.direction eps)
    (u v : ℝ) (h0 : 0 ≤ u) (hL : u ≤ s.edge.curve.length) :
    ∃ p q p', s.to3d ⟨u, v⟩ = some p ∧ s.to2d p = some q ∧ s.to3d q = some p' ∧ V3.pointDistance p' p ≤ 4 / 10 ^ 7 + eps ∧
      0 ≤ q.x ∧ q.x ≤ s.edge.curve.length := by
  obtain ⟨c, hc, hp⟩ := to3d_inside (v := v) ha h0 hL
  obtain ⟨m0, mL⟩ := snap_mem h0 hL
  obtain ⟨f, hfe, hall⟩ := hf
  obtain ⟨c', rest, t, hfc, hc't, u', c'', hab, hu0, huL, hc'', hdist⟩ := hall _ c (snap (1 / 10 ^ 7) v) m0 mL hc
  set a := snap (1 / 10 ^ 7) v with hadef
  set p := c + V3.smul a s.frame.basis.w with hpdef
  obtain ⟨gp, rp, hgp, hrp, -, -, hzp⟩ := globalToLocal_spec hs.ortho p p ⟨by simp, by simp, by simp⟩
  obtain ⟨gc, rc, hgc, hrc, -, -, hzc⟩ := globalToLocal_spec hs.ortho c' c' ⟨by simp, by simp, by simp⟩
  have hfp : ∀ x y, s.facingPoint p x y = c' := by
    intro x y
    unfold Extrusion.facingPoint
    dsimp only
    rw [hfe]
    dsimp only
    rw [hpdef, hs.w, hfc]
  have hto2 : s.to2d p = some ⟨u', snap (1 / 10 ^ 7) rp.z - rc.z⟩ := by
    unfold Extrusion.to2d
    rw [hrp]
    dsimp only [Except.toOption, Option.bind_some]
    rw [hfp, hrc]
    dsimp only [Except.toOption, Option.bind_some]
    rw [hab, Option.map_some]
  obtain ⟨d, hd, hp'⟩ := to3d_inside (v := snap (1 / 10 ^ 7) rp.z - rc.z) ha hu0 huL
  refine ⟨p, _, _, hp, hto2, hp', ?_, hu0, huL⟩
  have hww : V3.dot s.frame.basis.w s.frame.basis.w = 1 := hs.ortho.2.2.1
  have hN : V3.norm s.frame.basis.w = 1 := norm_one_of_dot hww
  have hz : gp.z - gc.z = a - t := by
    rw [← height_pt hs.ortho gp, ← height_pt hs.ortho gc, ← hgp, ← hgc, hc't, hpdef, ← hs.w]
    unfold height
    have : ∀ o w : V3 ℝ, V3.dot (c + V3.smul a w - o) w - V3.dot (c + V3.smul t w - o) w = (a - t) * V3.dot w w := by
      intro o w
      simp only [V3.dot, V3.sub_x, V3.sub_y, V3.sub_z, V3.add_x, V3.add_y, V3.add_z, V3.smul_x, V3.smul_y, V3.smul_z]
      ring
    rw [this, hww, mul_one]
  have hpc : p = c' + V3.smul (a - t) s.frame.basis.w := by
    rw [hc't, hpdef, ← hs.w]
    ext <;> simp <;> ring
  have h1 := dist_along d c' s.frame.basis.w (snap (1 / 10 ^ 7) (snap (1 / 10 ^ 7) rp.z - rc.z)) (a - t) hN
  rw [← hpc] at h1
  have h2 := V3.pointDistance_triangle d c'' c'
  obtain ⟨n0, nL⟩ := snap_mem hu0 huL
  have h3 := ha.lipschitz _ _ _ _ n0 nL hu0 huL hd hc''
  have h4 := snap_dist (eps := 1 / 10 ^ 7) (by norm_num) u'
  have h5 := snap_dist (eps := 1 / 10 ^ 7) (by norm_num) (snap (1 / 10 ^ 7) rp.z - rc.z)
  have h6 := snap_dist (eps := 1 / 10 ^ 7) (by norm_num) rp.z
  have h7 : |snap (1 / 10 ^ 7) (snap (1 / 10 ^ 7) rp.z - rc.z) - (a - t)| ≤ 1 / 10 ^ 7 + 1 / 10 ^ 7 + 8 / 10 ^ 16 := by
    rw [← hz]
    rw [abs_le] at *
    constructor <;> linarith [h5.1, h5.2, h6.1, h6.2, hzp.1, hzp.2, hzc.1, hzc.2]
  have h8 : (1 : ℝ) / 10 ^ 7 + 1 / 10 ^ 7 + 8 / 10 ^ 16 ≤ 3 / 10 ^ 7 := by norm_num
  linarith

/-! ## A straight generatrix -/

theorem straight_at (e : Seg3) (h : e.start ≠ e.stop) : ∃ n, V3.norm n = 1 ∧ e.stop = e.start + V3.smul e.length n ∧ 0 < e.length ∧
    ∀ a, e.pointAtAbscissa a = some (e.start + V3.smul a n) := by
  obtain ⟨n, hn⟩ := V3.unitVector_some (u := e.stop - e.start) (by rw [Ne, V3.sub_eq_zero_iff]; exact h)
  obtain ⟨hN, hne, hnn⟩ := V3.unitVector_spec hn
  refine ⟨n, norm_one_of_dot hnn, ?_, hN, ?_⟩
  · change e.stop = e.start + V3.smul (V3.norm (e.stop - e.start)) n
    rw [← hne]; ext <;> simp
  · intro a
    unfold Seg3.pointAtAbscissa
    rw [hn]; rfl

theorem straight_arcLength (e : Seg3) (h : e.start ≠ e.stop) : ArcLength (straightEdge e) := by
  obtain ⟨n, hn, hstop, hpos, hat⟩ := straight_at e h
  refine ⟨?_, ?_, ?_, ?_⟩
  · refine (hat 0).trans ?_
    congr 1
    change _ = e.start
    ext <;> simp
  · exact (hat _).trans (congrArg some hstop.symm)
  · intro u _ _
    exact ⟨_, hat u⟩
  · intro u v c d _ _ _ _ hc hd
    have hc := Option.some.inj ((hat u).symm.trans hc)
    have hd := Option.some.inj ((hat v).symm.trans hd)
    rw [← hc, ← hd]
    have := dist_along e.start e.start n u v hn
    have h0 : V3.pointDistance e.start e.start = 0 := by
      unfold V3.pointDistance
      rw [V3.norm_eq_zero_iff]
      ext <;> simp
    linarith

/-- The abscissa of the point of abscissa `u` of a segment is `u`, or 0 or the length within the tolerance. -/
theorem straight_abscissa (e : Seg3) (h : e.start ≠ e.stop) {n : V3 ℝ} (hn : V3.norm n = 1) (hstop : e.stop = e.start + V3.smul e.length n)
    (u : ℝ) (h0 : 0 ≤ u) (hL : u ≤ e.length) :
    ∃ t, (e.abscissa (e.start + V3.smul u n) (1 / 10 ^ 6)).toOption = some t ∧ 0 ≤ t ∧ t ≤ e.length ∧ |t - u| ≤ 1 / 10 ^ 6 := by
  have hdist : ∀ a b, V3.pointDistance (e.start + V3.smul a n) (e.start + V3.smul b n) = |a - b| := by
    intro a b
    unfold V3.pointDistance
    have : e.start + V3.smul a n - (e.start + V3.smul b n) = V3.smul (a - b) n := by ext <;> simp <;> ring
    rw [this, Fillet.V3.norm_smul_abs, hn, mul_one]
  have hstart : e.start = e.start + V3.smul 0 n := by ext <;> simp
  have hpos : 0 < e.length := by
    rcases (h0.trans hL).eq_or_lt with h1 | h1
    · exfalso; apply h; rw [hstop, ← h1]; exact hstart
    · exact h1
  have hsub : e.stop - e.start = V3.smul e.length n := by
    have : e.stop - e.start = e.start + V3.smul e.length n - e.start := congrArg (fun a => a - e.start) hstop
    rw [this]; ext <;> simp
  have hnn : V3.dot n n = 1 := by rw [← V3.norm_pow_two, hn]; norm_num
  have hd0 : V3.pointDistance (e.start + V3.smul u n) e.start = |u - 0| := by
    have := hdist u 0
    rwa [← hstart] at this
  have hd1 : V3.pointDistance (e.start + V3.smul u n) e.stop = |u - e.length| := by
    have := hdist u e.length
    rwa [← hstop] at this
  have hnl : V3.norm (e.stop - e.start) = e.length := rfl
  unfold Seg3.abscissa
  dsimp only
  rw [hd0, hd1, hnl]
  by_cases h1 : |u - 0| < 1 / 10 ^ 6
  · rw [if_pos h1]
    exact ⟨0, rfl, le_refl _, hpos.le, by rw [abs_sub_comm]; exact h1.le⟩
  · rw [if_neg h1]
    by_cases h2 : |u - e.length| < 1 / 10 ^ 6
    · rw [if_pos h2]
      exact ⟨_, rfl, hpos.le, le_refl _, by rw [abs_sub_comm]; exact h2.le⟩
    · rw [if_neg h2, if_neg hpos.ne']
      have ht : V3.dot (e.start + V3.smul u n - e.start) (e.stop - e.start) / e.length = u := by
        rw [hsub, div_eq_iff hpos.ne']
        have : V3.dot (e.start + V3.smul u n - e.start) (V3.smul e.length n) = u * e.length * V3.dot n n := by
          simp only [V3.dot, V3.sub_x, V3.sub_y, V3.sub_z, V3.add_x, V3.add_y, V3.add_z, V3.smul_x, V3.smul_y, V3.smul_z]; ring
        rw [this, hnn, mul_one]
      rw [ht, if_neg (by push Not; constructor <;> linarith)]
      exact ⟨u, rfl, h0, hL, by rw [sub_self, abs_zero]; positivity⟩

/-- `line_intersections` of a segment with a line that crosses it is the crossing point. -/
theorem segLine_cross (e : Seg3) (m : Line3) (x : V3 ℝ) (h : e.start ≠ e.stop) (hm : V3.cross (e.stop - e.start) m.dir ≠ ⟨0, 0, 0⟩)
    (hc : isColinear (e.stop - e.start) m.dir = false)
    (ho : 1 / 10 ^ 6 < |V3.dot (e.stop - e.start) m.dir| ∨ V3.dot (e.stop - e.start) m.dir = 0)
    (h1 : OnSeg3 e.start e.stop x) (h2 : OnLine3 m.point1 m.point2 x) : segLineIntersections e m = some [x] := by
  have hon : OnLine3 e.start e.stop x := by
    obtain ⟨t, -, -, ht⟩ := h1
    exact ⟨t, ht⟩
  have hx := C73_intersection_partial ⟨e.start, e.stop⟩ m x hm hc ho hon h2
  have hskew : skewTo ⟨e.start, e.stop⟩ m = some false := by
    unfold skewTo
    have hx' := hx
    unfold Line3.intersection at hx'
    obtain ⟨d, hd, hx'⟩ := Option.bind_eq_some_iff.mp hx'
    split_ifs at hx' ⊢ with h3 <;> simp_all
  unfold segLineIntersections
  rw [hskew, Option.bind_some, hx]
  have hb : segBelongs e x = some true := by
    unfold segBelongs
    obtain ⟨d, q, hd, -, hdq, hmin⟩ := (C07_linesegment3d_distance e.start e.stop x).2 h
    rw [hd, Option.map_some]
    have : d ≤ 0 := by
      refine (hmin x h1).trans (le_of_eq ?_)
      unfold V3.pointDistance
      rw [V3.norm_eq_zero_iff]
      ext <;> simp
    have hd0 : 0 ≤ d := by rw [hdq]; exact V3.norm_nonneg _
    have hcl : mathIsClose d 0 (1 / 10 ^ 6) := by
      rw [le_antisymm this hd0, Intersect.mathIsClose_zero (by norm_num)]
      norm_num
    simp only [decide_eq_true_eq, Option.some.injEq]
    exact hcl
  simp [hb]

/-- C157: round trip on the surface of a straight generatrix: the parameters of a point give it back up to 1.4e-6, when the generatrix is
not almost parallel to the direction, nor almost (but not exactly) orthogonal to it. -/
theorem C157_roundtrip_straight {e : Seg3} {d : V3 ℝ} {s : Extrusion} (h : Extrusion.new (straightEdge e) d = some s) (he : e.start ≠ e.stop)
    (hc : isColinear (e.stop - e.start) s.direction = false) (hm : V3.cross (e.stop - e.start) s.direction ≠ ⟨0, 0, 0⟩)
    (ho : 1 / 10 ^ 6 < |V3.dot (e.stop - e.start) s.direction| ∨ V3.dot (e.stop - e.start) s.direction = 0)
    (u v : ℝ) (h0 : 0 ≤ u) (hL : u ≤ V3.pointDistance e.start e.stop) :
    ∃ p q p', s.to3d ⟨u, v⟩ = some p ∧ s.to2d p = some q ∧ s.to3d q = some p' ∧ V3.pointDistance p' p ≤ 14 / 10 ^ 7 := by
  obtain ⟨hse, -⟩ := (C157_frame _ d).2 s h
  have hlen : V3.pointDistance e.start e.stop = e.length := V3.pointDistance_symm _ _
  obtain ⟨n, hn, hstop, hpos, hat⟩ := straight_at e he
  have hf : FindsFacing s.edge s.direction (1 / 10 ^ 6) := by
    rw [hse]
    refine ⟨_, rfl, ?_⟩
    intro u c v h0 hL hcu
    have hcu' := Option.some.inj ((hat u).symm.trans hcu)
    have hdir : (⟨c + V3.smul v s.direction, c + V3.smul v s.direction + s.direction⟩ : Line3).dir = s.direction := by
      ext <;> simp [Line3.dir]
    have hL' : u ≤ e.length := hL
    have hon : OnSeg3 e.start e.stop c := by
      refine ⟨u / e.length, by positivity, (div_le_one hpos).mpr hL', ?_⟩
      have hx := congrArg V3.x hstop
      have hy := congrArg V3.y hstop
      have hz := congrArg V3.z hstop
      simp only [V3.add_x, V3.add_y, V3.add_z, V3.smul_x, V3.smul_y, V3.smul_z] at hx hy hz
      rw [← hcu', hx, hy, hz]
      simp only [V3.add_x, V3.add_y, V3.add_z, V3.smul_x, V3.smul_y, V3.smul_z]
      refine ⟨?_, ?_, ?_⟩ <;> field_simp <;> ring
    have hcr := segLine_cross e ⟨c + V3.smul v s.direction, c + V3.smul v s.direction + s.direction⟩ c he (by rw [hdir]; exact hm)
      (by rw [hdir]; exact hc) (by rw [hdir]; exact ho) hon ⟨-v, by simp; ring, by simp; ring, by simp; ring⟩
    refine ⟨c, [], 0, by rw [hcr]; rfl, by ext <;> simp, ?_⟩
    obtain ⟨t, ht, ht0, htL, hdt⟩ := straight_abscissa e he hn hstop u h0 hL'
    refine ⟨t, _, ?_, ht0, htL, hat t, ?_⟩
    · rw [← hcu']; exact ht
    · rw [← hcu']
      have h5 := dist_along e.start e.start n t u hn
      have h6 : V3.pointDistance e.start e.start = 0 := by
        unfold V3.pointDistance
        rw [V3.norm_eq_zero_iff]
        ext <;> simp
      linarith
  obtain ⟨p, q, p', h1, h2, h3, h4, -⟩ := C157_roundtrip_partial (Extrusion.new_valid h) (by rw [hse]; exact straight_arcLength e he) hf u v h0
    (by rw [hse]; exact hL.trans hlen.le)
  exact ⟨p, q, p', h1, h2, h3, by linarith⟩

-- the hypotheses of C157 are met by the segment from (0,0,0) to (3,4,0) extruded along (0,0,2)
example : ∃ s, Extrusion.new (straightEdge ⟨⟨0, 0, 0⟩, ⟨3, 4, 0⟩⟩) ⟨0, 0, 2⟩ = some s ∧ s.Valid ∧ ArcLength s.edge ∧ s.edge.curve.length = 5 ∧
    V3.dot ((⟨3, 4, 0⟩ : V3 ℝ) - ⟨0, 0, 0⟩) s.direction = 0 ∧ V3.cross ((⟨3, 4, 0⟩ : V3 ℝ) - ⟨0, 0, 0⟩) s.direction ≠ ⟨0, 0, 0⟩ ∧
    isColinear ((⟨3, 4, 0⟩ : V3 ℝ) - ⟨0, 0, 0⟩) s.direction = false := by
  have hne : (⟨0, 0, 2⟩ : V3 ℝ) ≠ ⟨0, 0, 0⟩ := by intro h; have := congrArg V3.z h; norm_num at this
  obtain ⟨h1, h2⟩ := C157_frame (straightEdge ⟨⟨0, 0, 0⟩, ⟨3, 4, 0⟩⟩) ⟨0, 0, 2⟩
  cases hs : Extrusion.new (straightEdge ⟨⟨0, 0, 0⟩, ⟨3, 4, 0⟩⟩) ⟨0, 0, 2⟩ with
  | none => exact absurd (h1.mp hs) hne
  | some s =>
    obtain ⟨e1, e2, ⟨k, hk, e3⟩, -⟩ := h2 s hs
    have hx := congrArg V3.x e3
    have hy := congrArg V3.y e3
    have hz := congrArg V3.z e3
    simp only [V3.smul_x, V3.smul_y, V3.smul_z] at hx hy hz
    have hx0 : s.direction.x = 0 := by rcases mul_eq_zero.mp hx.symm with h | h <;> [exact h; exact absurd h hk.ne']
    have hy0 : s.direction.y = 0 := by rcases mul_eq_zero.mp hy.symm with h | h <;> [exact h; exact absurd h hk.ne']
    have hz1 : s.direction.z = 1 := by
      simp only [V3.dot, hx0, hy0] at e2
      have : 0 < s.direction.z := by
        by_contra hn
        push Not at hn
        nlinarith
      nlinarith
    have hd : s.direction = ⟨0, 0, 1⟩ := by ext <;> assumption
    refine ⟨s, rfl, Extrusion.new_valid hs, ?_, ?_, ?_, ?_, ?_⟩
    · rw [e1]
      apply straight_arcLength
      intro h; have := congrArg V3.x h; norm_num at this
    · rw [e1]
      change V3.norm _ = 5
      unfold V3.norm
      rw [show (5 : ℝ) = √(5 * 5) by rw [Real.sqrt_mul_self (by norm_num)]]
      norm_num
    · rw [hd]; norm_num [V3.dot]
    · rw [hd]; intro h; have := congrArg V3.x h; norm_num [V3.cross] at this
    · rw [hd]
      unfold isColinear
      have hn5 : V3.norm ((⟨3, 4, 0⟩ : V3 ℝ) - ⟨0, 0, 0⟩) = 5 := by
        unfold V3.norm
        rw [show (5 : ℝ) = √(5 * 5) by rw [Real.sqrt_mul_self (by norm_num)]]
        norm_num
      rw [norm_z, hn5, if_neg (by norm_num), decide_eq_false_iff_not]
      unfold mathIsClose
      norm_num [V3.dot]

theorem norm_of_sq {u : V3 ℝ} {r : ℝ} (hr : 0 ≤ r) (h : u.x * u.x + u.y * u.y + u.z * u.z = r ^ 2) : V3.norm u = r := by
  unfold V3.norm
  rw [h, Real.sqrt_sq hr]

theorem dir_z_of {s : Extrusion} {e : ExtrudedEdge} (hs : Extrusion.new e ⟨0, 0, 1⟩ = some s) : s.direction = ⟨0, 0, 1⟩ := by
  obtain ⟨e1, e2, ⟨k, hk, e3⟩, -⟩ := (C157_frame e ⟨0, 0, 1⟩).2 s hs
  have hx := congrArg V3.x e3
  have hy := congrArg V3.y e3
  have hz := congrArg V3.z e3
  simp only [V3.smul_x, V3.smul_y, V3.smul_z] at hx hy hz
  have hx0 : s.direction.x = 0 := by rcases mul_eq_zero.mp hx.symm with h | h <;> [exact h; exact absurd h hk.ne']
  have hy0 : s.direction.y = 0 := by rcases mul_eq_zero.mp hy.symm with h | h <;> [exact h; exact absurd h hk.ne']
  have hz1 : s.direction.z = 1 := by
    simp only [V3.dot, hx0, hy0] at e2
    have : 0 < s.direction.z := by
      by_contra hn
      push Not at hn
      nlinarith
    nlinarith
  ext <;> assumption

/-- C157: a generatrix inclined by a thousandth on the direction: it is taken for parallel, the point is projected orthogonally on it, out
of the segment, and `point3d_to_2d` raises. -/
theorem C157_roundtrip_counterexample : ¬ C157_roundtrip_full_statement := by
  intro hfull
  obtain ⟨e, hedef⟩ : ∃ e : Seg3, e = ⟨⟨0, 0, 0⟩, ⟨4, 0, 3999999 / 1000⟩⟩ := ⟨_, rfl⟩
  have hes : e.start = ⟨0, 0, 0⟩ := by rw [hedef]
  have hee : e.stop = ⟨4, 0, 3999999 / 1000⟩ := by rw [hedef]
  have hsub : e.stop - e.start = ⟨4, 0, 3999999 / 1000⟩ := by rw [hes, hee]; ext <;> simp
  have hne : e.start ≠ e.stop := by
    rw [hes, hee]; intro h; have := congrArg V3.x h; norm_num at this
  have hlen : V3.norm (e.stop - e.start) = 4000001 / 1000 := by
    rw [hsub]; exact norm_of_sq (by norm_num) (by norm_num)
  have hdz : (⟨0, 0, 1⟩ : V3 ℝ) ≠ ⟨0, 0, 0⟩ := by intro h; have := congrArg V3.z h; norm_num at this
  cases hs : Extrusion.new (straightEdge e) ⟨0, 0, 1⟩ with
  | none => exact hdz ((C157_frame _ _).1.mp hs)
  | some s =>
    have hcr : V3.cross (e.stop - e.start) ⟨0, 0, 1⟩ ≠ ⟨0, 0, 0⟩ := by
      rw [hsub]; intro h; have := congrArg V3.y h; norm_num [V3.cross] at this
    obtain ⟨p, q, p', h1, h2, -⟩ := hfull e _ s hs hne hcr (4000001 / 2000) 4000 (by norm_num) (by
      rw [V3.pointDistance_symm]; change _ ≤ V3.norm (e.stop - e.start); rw [hlen]; norm_num)
    have hval := Extrusion.new_valid hs
    have hdir := dir_z_of hs
    obtain ⟨hse, -⟩ := (C157_frame _ _).2 s hs
    -- the point
    have hp : p = ⟨2, 0, 11999999 / 2000⟩ := by
      obtain ⟨c, p2, hc, hp2, -, hex⟩ := C157_points hval (by rw [hse]; exact straight_arcLength e hne) (4000001 / 2000) 4000 (by norm_num) (by
        rw [hse]; change _ ≤ V3.norm (e.stop - e.start); rw [hlen]; norm_num)
      rw [h1] at hp2
      rw [Option.some.inj hp2, hex (by norm_num) (by norm_num), hdir]
      rw [hse] at hc
      change e.pointAtAbscissa _ = _ at hc
      unfold Seg3.pointAtAbscissa V3.unitVector at hc
      rw [hlen, if_neg (by norm_num)] at hc
      have hc := Option.some.inj hc
      rw [← hc, hes, hee]
      ext <;> norm_num
    subst hp
    -- nothing is found in front of it
    have hw : s.frame.basis.w = ⟨0, 0, 1⟩ := hval.w.trans hdir
    obtain ⟨m, hm⟩ : ∃ m : Line3, m = ⟨⟨2, 0, 11999999 / 2000⟩, ⟨2, 0, 11999999 / 2000⟩ + ⟨0, 0, 1⟩⟩ := ⟨_, rfl⟩
    have hmd : m.dir = ⟨0, 0, 1⟩ := by rw [hm]; ext <;> simp [Line3.dir]
    have hld : (⟨e.start, e.stop⟩ : Line3).dir = e.stop - e.start := rfl
    have hcol : isColinear (⟨e.start, e.stop⟩ : Line3).dir m.dir = true := by
      rw [hld, hmd]
      unfold isColinear
      rw [hlen, norm_z, if_neg (by norm_num), hsub]
      have hcl : mathIsClose (|V3.dot ⟨4, 0, 3999999 / 1000⟩ (⟨0, 0, 1⟩ : V3 ℝ)| / (4000001 / 1000) / 1) 1 (1 / 10 ^ 6) := by
        unfold mathIsClose
        norm_num [V3.dot]
      simp only [decide_eq_true_eq]
      exact hcl
    have hbel : ∀ x z, x ≠ (2 : ℝ) → |x - 2| = 2 → lineBelongs m ⟨x, 0, z⟩ = some false := by
      intro x z hx hx2
      have hxx : (x - 2) * (x - 2) = 4 := by rw [← abs_mul_abs_self, hx2]; norm_num
      unfold lineBelongs
      rw [if_neg]
      · unfold Line3.pointDistance
        rw [hmd, norm_z, if_neg (by norm_num), Option.map_some, div_one]
        have : V3.norm (V3.cross ((⟨x, 0, z⟩ : V3 ℝ) - m.point1) ⟨0, 0, 1⟩) = 2 := by
          rw [hm]
          refine norm_of_sq (by norm_num) ?_
          simp [V3.cross]
          nlinarith
        rw [this]
        norm_num
      · unfold Arc.isClose3
        rw [Intersect.mathIsClose_zero (by norm_num), abs_of_nonneg (show 0 ≤ V3.pointDistance _ _ from V3.norm_nonneg _), not_le]
        refine lt_of_lt_of_le (b := 2) (by norm_num) ?_
        unfold V3.pointDistance V3.norm
        rw [hm]
        apply Real.le_sqrt_of_sq_le
        simp only [V3.sub_x, V3.sub_y, V3.sub_z]
        nlinarith [mul_self_nonneg (z - 11999999 / 2000)]
    have hint : segLineIntersections e m = some [] := by
      unfold segLineIntersections
      have h3 : skewTo ⟨e.start, e.stop⟩ m = some false := by unfold skewTo; rw [if_pos hcol]
      have h4 : (⟨e.start, e.stop⟩ : Line3).intersection m = some none := by
        unfold Line3.intersection Line3.lineDistance
        rw [if_pos hcol, hld, hlen, if_neg (by norm_num), Option.bind_some, if_pos]
        left
        rw [← hld]; exact hcol
      rw [h3, Option.bind_some, h4, if_neg (by simp), Option.bind_some]
      dsimp only
      rw [hes, hee, hbel 0 0 (by norm_num) (by norm_num), Option.bind_some, if_neg (by simp), hbel 4 _ (by norm_num) (by norm_num)]
      rfl
    -- the foot of the perpendicular is out of the segment
    obtain ⟨f, hf⟩ : ∃ f : V3 ℝ, f = e.start + V3.smul (V3.dot (⟨2, 0, 11999999 / 2000⟩ - e.start) (e.stop - e.start) / V3.norm (e.stop - e.start) ^ 2) (e.stop - e.start) :=
      ⟨_, rfl⟩
    have hface : ∀ x y, s.facingPoint ⟨2, 0, 11999999 / 2000⟩ x y = f := by
      intro x y
      unfold Extrusion.facingPoint
      dsimp only
      rw [hse, hw, ← hm]
      unfold straightEdge
      dsimp only
      rw [hint, hf]
      rfl
    have habs : e.abscissa f (1 / 10 ^ 6) = .error .valueError := by
      have hfe : f = ⟨V3.dot (⟨2, 0, 11999999 / 2000⟩ - e.start) (e.stop - e.start) / (4000001 / 1000) ^ 2 * 4, 0,
          V3.dot (⟨2, 0, 11999999 / 2000⟩ - e.start) (e.stop - e.start) / (4000001 / 1000) ^ 2 * (3999999 / 1000)⟩ := by
        rw [hf, hlen]
        generalize V3.dot (⟨2, 0, 11999999 / 2000⟩ - e.start) (e.stop - e.start) / (4000001 / 1000) ^ 2 = k
        rw [hsub, hes]
        ext <;> simp <;> ring
      have hk : 7 / 5 < V3.dot (⟨2, 0, 11999999 / 2000⟩ - e.start) (e.stop - e.start) / (4000001 / 1000) ^ 2 := by
        rw [hsub, hes]
        norm_num [V3.dot]
      generalize V3.dot (⟨2, 0, 11999999 / 2000⟩ - e.start) (e.stop - e.start) / (4000001 / 1000) ^ 2 = k at hfe hk
      have hfar : ∀ z : ℝ, ∀ x : ℝ, z ≤ 3999999 / 1000 → ¬ V3.pointDistance f ⟨x, 0, z⟩ < 1 / 10 ^ 6 := by
        intro z x hz
        rw [not_lt, hfe]
        refine le_trans (b := 1) (by norm_num) ?_
        unfold V3.pointDistance V3.norm
        apply Real.le_sqrt_of_sq_le
        simp only [V3.sub_x, V3.sub_y, V3.sub_z]
        have : 1 ≤ k * (3999999 / 1000) - z := by nlinarith
        nlinarith [mul_self_nonneg (k * 4 - x)]
      have ht : V3.dot (f - e.start) (e.stop - e.start) / (4000001 / 1000) = k * (4000001 / 1000) := by
        rw [hsub, hes, hfe, div_eq_iff (by norm_num)]
        simp only [V3.dot, V3.sub_x, V3.sub_y, V3.sub_z]
        ring
      unfold Seg3.abscissa
      dsimp only
      rw [if_neg (by rw [hes]; exact hfar 0 0 (by norm_num)), if_neg (by rw [hee]; exact hfar _ 4 (le_refl _)), hlen, if_neg (by norm_num), ht, if_pos]
      right
      nlinarith
    unfold Extrusion.to2d at h2
    obtain ⟨r, -, h2⟩ := Option.bind_eq_some_iff.mp h2
    dsimp only at h2
    rw [hface] at h2
    obtain ⟨r2, -, h2⟩ := Option.bind_eq_some_iff.mp h2
    rw [hse] at h2
    change Option.map _ (e.abscissa f (1 / 10 ^ 6)).toOption = _ at h2
    rw [habs] at h2
    simp [Except.toOption] at h2

/-! ## The array of the caller -/

/-- A circle of radius 1 (specification of the example): its length is 2π. -/
noncomputable def exampleRing : ExtrudedEdge where
  curve := ⟨2 * π, fun u => some ⟨cos u, sin u, 0⟩, fun _ => none⟩
  start := ⟨1, 0, 0⟩
  stop := ⟨1, 0, 0⟩
  center := some ⟨0, 0, 0⟩
  lineIntersections := none
  pointProjection := none

/-- C157: `parametric_points_to_3d` changes the array it is given: the row (7, 0) on a ring of length 2π. -/
theorem C157_input_counterexample : ∃ (s : Extrusion) (row : V2 ℝ) (q : V3 ℝ), Extrusion.new exampleRing ⟨0, 0, 1⟩ = some s ∧
    s.paramTo3d ⟨7, 0⟩ = some (row, q) ∧ row ≠ ⟨7, 0⟩ := by
  obtain ⟨h1, h2⟩ := C157_frame exampleRing ⟨0, 0, 1⟩
  cases hs : Extrusion.new exampleRing ⟨0, 0, 1⟩ with
  | none =>
    have := congrArg V3.z (h1.mp hs)
    norm_num at this
  | some s =>
    obtain ⟨e1, -⟩ := h2 s hs
    have hper : s.xPeriodicity = some (2 * π) := by
      unfold Extrusion.xPeriodicity
      rw [e1, if_pos]
      · rfl
      · unfold Arc.isClose3
        rw [Intersect.mathIsClose_zero (by norm_num)]
        norm_num [exampleRing, V3.pointDistance, V3.norm]
    have hw : wrapPeriod s.xPeriodicity 7 = 7 - 2 * π := by
      rw [hper]
      unfold wrapPeriod
      have h3 := pi_gt_three
      have h4 := pi_lt_d2
      dsimp only
      rw [if_pos (show (7 : ℝ) > 2 * π by linarith), if_neg (by positivity), if_neg (by linarith)]
    refine ⟨s, ⟨7 - 2 * π, 0⟩, ⟨cos (7 - 2 * π), sin (7 - 2 * π), 0⟩ + V3.smul 0 s.direction, rfl, ?_, ?_⟩
    · unfold Extrusion.paramTo3d
      dsimp only
      rw [hw, e1]
      rfl
    · intro h
      have := congrArg V2.x h
      dsimp only at this
      linarith [pi_pos]

end Volmdlr.Surface
