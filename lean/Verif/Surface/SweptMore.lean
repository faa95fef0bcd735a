import Verif.Surface.SweptProps
import Verif.Solid.CylOps

/-!
# C156, C158: moving and simplifying surfaces of revolution
-/

namespace Volmdlr.Surface

open Volmdlr.Angle Volmdlr.Intersect Real

/-! ## Direct isometries -/

/-- `f` is a direct isometry of space of linear part `F` (specification). -/
structure DirectIsometry (f F : V3 ℝ → V3 ℝ) : Prop where
  sub : ∀ p q, f p - f q = F (p - q)
  add : ∀ u v, F (u + v) = F u + F v
  smul : ∀ a u, F (V3.smul a u) = V3.smul a (F u)
  dot : ∀ u v, V3.dot (F u) (F v) = V3.dot u v
  cross : ∀ u v, V3.cross (F u) (F v) = F (V3.cross u v)

namespace DirectIsometry
variable {f F : V3 ℝ → V3 ℝ} (h : DirectIsometry f F)
include h

theorem lin_sub (u v : V3 ℝ) : F (u - v) = F u - F v := by
  have := h.add (u - v) v
  rw [show u - v + v = u by ext <;> simp] at this
  rw [this]; ext <;> simp

theorem apply_add (p u : V3 ℝ) : f (p + u) = f p + F u := by
  have := h.sub (p + u) p
  rw [show p + u - p = u by ext <;> simp] at this
  rw [← this]; ext <;> simp

theorem norm (u : V3 ℝ) : V3.norm (F u) = V3.norm u := by
  have := h.dot u u
  unfold V3.dot at this
  unfold V3.norm
  rw [this]

theorem unit (u : V3 ℝ) : V3.unitVector (F u) = (V3.unitVector u).map F := by
  unfold V3.unitVector
  rw [h.norm]
  by_cases h0 : V3.norm u = 0
  · rw [if_pos h0, if_pos h0]; rfl
  · rw [if_neg h0, if_neg h0, Option.map_some]
    congr 1
    have := h.smul (1 / V3.norm u) u
    rw [show V3.smul (1 / V3.norm u) u = ⟨u.x / V3.norm u, u.y / V3.norm u, u.z / V3.norm u⟩ by ext <;> simp <;> ring] at this
    rw [this]; ext <;> simp <;> ring

theorem dist (p q : V3 ℝ) : V3.pointDistance (f p) (f q) = V3.pointDistance p q := by
  unfold V3.pointDistance; rw [h.sub, h.norm]

/-- The points of the moved generatrix are the moved points. -/
theorem pointAt (g : V3 ℝ → V3 ℝ) (e : Generatrix) (v : ℝ) : (e.map f g).pointAt v = (e.pointAt v).map f := by
  cases e with
  | line l =>
    change Line3.pointAtAbscissa _ v = (Line3.pointAtAbscissa l v).map f
    unfold Line3.pointAtAbscissa Line3.dir
    dsimp only
    rw [h.sub, h.unit]
    cases V3.unitVector (l.point2 - l.point1) with
    | none => rfl
    | some n => simp only [Option.map_some]; rw [h.apply_add, h.smul]
  | segment s =>
    change Seg3.pointAtAbscissa _ v = (Seg3.pointAtAbscissa s v).map f
    unfold Seg3.pointAtAbscissa
    dsimp only
    rw [h.sub, h.unit]
    cases V3.unitVector (s.stop - s.start) with
    | none => rfl
    | some n =>
      change some _ = some _
      rw [h.apply_add, h.smul]
  | arc c r k => rfl
  | other k => rfl

theorem secondAbscissa (g : V3 ℝ → V3 ℝ) (e : Generatrix) : (e.map f g).secondAbscissa = e.secondAbscissa := by
  cases e with
  | segment s =>
    change 1 / 2 * V3.pointDistance (f s.stop) (f s.start) = _
    rw [h.dist]; rfl
  | line l => rfl
  | arc c r k => rfl
  | other k => rfl

/-- The constructor commutes with direct isometries. -/
theorem new (g : V3 ℝ → V3 ℝ) {e : Generatrix} {o a : V3 ℝ} {s : Revolution} (hs : Revolution.new e o a = some s) :
    Revolution.new (e.map f g) (f o) (F a)
      = some ⟨e.map f g, f o, F s.axis, ⟨f o, ⟨F s.frame.basis.u, F s.frame.basis.v, F s.frame.basis.w⟩⟩⟩ := by
  unfold Revolution.new at hs ⊢
  rw [h.unit]
  rw [Option.bind_eq_some_iff] at hs
  obtain ⟨w, hw, hs⟩ := hs
  rw [Option.bind_eq_some_iff] at hs
  obtain ⟨c, hc, hs⟩ := hs
  dsimp only at hs
  rw [Option.bind_eq_some_iff] at hs
  obtain ⟨pr, hpr, hs⟩ := hs
  rw [Option.map_eq_some_iff] at hs
  obtain ⟨u, hu, rfl⟩ := hs
  rw [hw, Option.map_some, Option.bind_some]
  have href : referencePoint (e.map f g) (f o) (F w) = some (f c) := by
    unfold referencePoint at hc ⊢
    rw [Option.bind_eq_some_iff] at hc
    obtain ⟨p, hp, hc⟩ := hc
    rw [h.pointAt, hp, Option.map_some, Option.bind_some, h.secondAbscissa, h.pointAt]
    have h1 : Arc.isClose3 (f p) (f o) (1 / 10 ^ 6) ↔ Arc.isClose3 p o (1 / 10 ^ 6) := by
      unfold Arc.isClose3; rw [h.dist]
    have h2 : isColinear (F w) (f p - f o) = isColinear w (p - o) := by
      unfold isColinear; rw [h.sub, h.norm, h.norm, h.dot]
    rw [h1, h2]
    split_ifs at hc ⊢ with hif
    · rw [hc]; rfl
    · rw [← Option.some.inj hc]
  rw [href, Option.bind_some]
  dsimp only
  have hp' : vectorProjection (f c - f o) (F w) = some (F pr) := by
    unfold vectorProjection at hpr ⊢
    rw [h.dot, h.sub, h.dot]
    split_ifs at hpr ⊢
    have := Option.some.inj hpr
    rw [← this, h.smul]
  rw [hp', Option.bind_some, h.sub, ← h.lin_sub, h.unit, hu, Option.map_some, Option.map_some, h.cross]

/-- The points of the moved surface are the moved points, with the same parameters. -/
theorem to3d (g : V3 ℝ → V3 ℝ) {s : Revolution} (hs : s.Valid) (fr : Frame3 ℝ) (p : V2 ℝ) :
    (⟨s.edge.map f g, f s.axisPoint, F s.axis, fr⟩ : Revolution).to3d p = (s.to3d p).map f := by
  unfold Revolution.to3d
  dsimp only
  rw [h.pointAt]
  cases s.edge.pointAt p.y with
  | none => rfl
  | some c =>
    simp only [Option.map_some]
    congr 1
    rw [h.sub, h.dot, h.cross, ← h.smul, ← h.smul, ← h.smul, ← h.smul]
    rw [show s.axisPoint + V3.smul (cos p.x) (c - s.axisPoint) + V3.smul (1 - cos p.x) (V3.smul (V3.dot (c - s.axisPoint) s.axis) s.axis)
        + V3.smul (sin p.x) (V3.cross s.axis (c - s.axisPoint))
      = s.axisPoint + (V3.smul (cos p.x) (c - s.axisPoint) + (V3.smul (1 - cos p.x) (V3.smul (V3.dot (c - s.axisPoint) s.axis) s.axis)
        + V3.smul (sin p.x) (V3.cross s.axis (c - s.axisPoint)))) by ext <;> simp <;> ring]
    rw [h.apply_add, h.add, h.add]
    ext <;> simp <;> ring

end DirectIsometry

theorem translation_isometry (t : V3 ℝ) : DirectIsometry (fun p => p + t) id where
  sub p q := by ext <;> simp
  add _ _ := rfl
  smul _ _ := rfl
  dot _ _ := rfl
  cross _ _ := rfl

/-- A surface is the one built from its own attributes. -/
theorem new_self {e : Generatrix} {o a : V3 ℝ} {s : Revolution} (h : Revolution.new e o a = some s) :
    Revolution.new s.edge s.axisPoint s.axis = some s := by
  have hv := new_valid h
  obtain ⟨he, ho, -⟩ := C156_frame h
  have hww : V3.unitVector s.axis = some s.axis := unit_of_dot (by rw [← hv.axis]; exact hv.direct.2.2.1)
  obtain ⟨w, c, u, k, hw, -⟩ := new_spec h
  unfold Revolution.new at h ⊢
  rw [hw, Option.bind_some] at h
  have hsw : s.axis = w := by
    rw [Option.bind_eq_some_iff] at h
    obtain ⟨c, -, h⟩ := h
    dsimp only at h
    rw [Option.bind_eq_some_iff] at h
    obtain ⟨pr, -, h⟩ := h
    rw [Option.map_eq_some_iff] at h
    obtain ⟨u, -, rfl⟩ := h
    rfl
  rw [hww, Option.bind_some, hsw, he, ho]
  exact h

/-- C156: `translation(offset)` of a surface of revolution is the surface of the translated points, with the same parameters. -/
theorem C156_translation {e : Generatrix} {o a : V3 ℝ} {s : Revolution} (h : Revolution.new e o a = some s) (offset : V3 ℝ) :
    ∃ t, s.translation offset = some t ∧ ∀ p, t.to3d p = (s.to3d p).map fun q => q + offset := by
  have hi := translation_isometry offset
  exact ⟨_, hi.new _ (new_self h), hi.to3d _ (new_valid h) _⟩

/-- The rotation about the origin is linear, and a direct isometry. -/
theorem rotation_isometry (center n : V3 ℝ) (t : ℝ) (hn : V3.norm n = 1) :
    DirectIsometry (fun p => V3.rotation p center n t) (fun p => V3.rotation p ⟨0, 0, 0⟩ n t) := by
  have hnn : V3.dot n n = 1 := by rw [← V3.norm_pow_two, hn]; norm_num
  obtain ⟨f, -, h1, h2, h3⟩ := Solid.local_frame ⟨0, 0, 0⟩ n hnn
  -- a direct frame of third vector the axis
  obtain ⟨g, hg⟩ : ∃ g : Frame3 ℝ, g = ⟨⟨0, 0, 0⟩, ⟨f.basis.u, V3.cross n f.basis.u, n⟩⟩ := ⟨_, rfl⟩
  have hd : DirectOrthonormal g.basis := by
    have huu := h2.1
    have huw := h2.2.2.2.2.1
    rw [h3] at huw
    rw [hg]
    generalize f.basis.u = u at *
    simp only [DirectOrthonormal, V3.dot, V3.cross] at *
    refine ⟨huu, ?_, hnn, ?_, huw, ?_, ?_⟩
    · linear_combination (n.x * n.x + n.y * n.y + n.z * n.z) * huu + hnn - (u.x * n.x + u.y * n.y + u.z * n.z) * huw
    · ring
    · ring
    · linear_combination (n.x * n.x + n.y * n.y + n.z * n.z) * huu + hnn - (u.x * n.x + u.y * n.y + u.z * n.z) * huw
  have ho := DirectOrthonormal.ortho hd
  have hgo : g.origin = ⟨0, 0, 0⟩ := by rw [hg]
  have hgw : g.basis.w = n := by rw [hg]
  have hrot : ∀ q : V3 ℝ, V3.rotation (pt g q) ⟨0, 0, 0⟩ n t = pt g ⟨q.x * cos t - q.y * sin t, q.x * sin t + q.y * cos t, q.z⟩ := by
    intro q; have := rotation_pt hd q t; rwa [hgo, hgw] at this
  have hdot : ∀ q r : V3 ℝ, V3.dot (pt g q) (pt g r) = V3.dot q r := by
    intro q r
    obtain ⟨a1, a2, a3, a4, a5, a6⟩ := ho
    simp only [V3.dot] at a1 a2 a3 a4 a5 a6
    unfold pt V3.dot
    rw [hgo]
    simp only [V3.add_x, V3.add_y, V3.add_z, V3.smul_x, V3.smul_y, V3.smul_z]
    linear_combination q.x * r.x * a1 + q.y * r.y * a2 + q.z * r.z * a3 + (q.x * r.y + q.y * r.x) * a4 + (q.x * r.z + q.z * r.x) * a5
      + (q.y * r.z + q.z * r.y) * a6
  have hcross : ∀ q r : V3 ℝ, V3.cross (pt g q) (pt g r) = pt g (V3.cross q r) := by
    intro q r
    obtain ⟨c1, c2⟩ := direct_cross hd
    have c3 : V3.cross g.basis.u g.basis.v = g.basis.w := cross_unique _ _ _ hd.1 hd.2.1 hd.2.2.1 hd.2.2.2.1 hd.2.2.2.2.2.2
    have x1 := congrArg V3.x c1
    have y1 := congrArg V3.y c1
    have z1 := congrArg V3.z c1
    have x2 := congrArg V3.x c2
    have y2 := congrArg V3.y c2
    have z2 := congrArg V3.z c2
    have x3 := congrArg V3.x c3
    have y3 := congrArg V3.y c3
    have z3 := congrArg V3.z c3
    simp only [V3.cross, V3.neg_x, V3.neg_y, V3.neg_z] at x1 y1 z1 x2 y2 z2 x3 y3 z3
    unfold pt V3.cross
    rw [hgo]
    ext <;> simp only [V3.add_x, V3.add_y, V3.add_z, V3.smul_x, V3.smul_y, V3.smul_z]
    · linear_combination (q.x * r.y - q.y * r.x) * x3 + (q.z * r.x - q.x * r.z) * x1 + (q.z * r.y - q.y * r.z) * x2
    · linear_combination (q.x * r.y - q.y * r.x) * y3 + (q.z * r.x - q.x * r.z) * y1 + (q.z * r.y - q.y * r.z) * y2
    · linear_combination (q.x * r.y - q.y * r.x) * z3 + (q.z * r.x - q.x * r.z) * z1 + (q.z * r.y - q.y * r.z) * z2
  have hsc := sin_sq_add_cos_sq t
  constructor
  · intro p q
    unfold V3.rotation V3.rotationCS V3.dot V3.cross
    ext <;> simp <;> ring
  · intro u v
    unfold V3.rotation V3.rotationCS V3.dot V3.cross
    ext <;> simp <;> ring
  · intro a u
    unfold V3.rotation V3.rotationCS V3.dot V3.cross
    ext <;> simp <;> ring
  · intro u v
    obtain ⟨q, rfl⟩ := exists_pt ho u
    obtain ⟨r, rfl⟩ := exists_pt ho v
    rw [hrot, hrot, hdot, hdot]
    unfold V3.dot
    linear_combination (q.x * r.x + q.y * r.y) * hsc
  · intro u v
    obtain ⟨q, rfl⟩ := exists_pt ho u
    obtain ⟨r, rfl⟩ := exists_pt ho v
    rw [hcross, hrot, hrot, hrot, hcross]
    congr 1
    unfold V3.cross
    ext <;> dsimp only
    · ring
    · ring
    · linear_combination (q.x * r.y - q.y * r.x) * hsc

/-- C156: the full statement for `rotation`. -/
def C156_rotation_full_statement : Prop :=
  ∀ (e : Generatrix) (o a : V3 ℝ) (s : Revolution) (center axis : V3 ℝ) (angle : ℝ), Revolution.new e o a = some s → V3.norm axis = 1 →
    ∃ t, s.rotation center axis angle = some t ∧ ∀ p, t.to3d p = (s.to3d p).map fun q => V3.rotation q center axis angle

/-- C156: `rotation` about an axis through the origin gives the surface of the turned points, with the same parameters. -/
theorem C156_rotation_partial {e : Generatrix} {o a : V3 ℝ} {s : Revolution} (h : Revolution.new e o a = some s) (axis : V3 ℝ) (angle : ℝ)
    (hn : V3.norm axis = 1) :
    ∃ t, s.rotation ⟨0, 0, 0⟩ axis angle = some t ∧ ∀ p, t.to3d p = (s.to3d p).map fun q => V3.rotation q ⟨0, 0, 0⟩ axis angle := by
  have hi := rotation_isometry ⟨0, 0, 0⟩ axis angle hn
  exact ⟨_, hi.new _ (new_self h), hi.to3d _ (new_valid h) _⟩

/-- C156: about another centre the axis of the surface, a vector, is turned as if it were a point: the cylinder of radius 1 and axis z,
turned by half a turn about the x-direction through (0,1,0), has an axis along (0,2,-1). -/
theorem C156_rotation_counterexample : ¬ C156_rotation_full_statement := by
  intro h
  obtain ⟨e, he⟩ : ∃ e : Generatrix, e = .segment ⟨⟨1, 0, 0⟩, ⟨1, 0, 1⟩⟩ := ⟨_, rfl⟩
  have hat : e.pointAt 0 = some ⟨1, 0, 0⟩ := by
    rw [he]
    change Seg3.pointAtAbscissa _ 0 = _
    unfold Seg3.pointAtAbscissa
    obtain ⟨n, hn⟩ := V3.unitVector_some (u := (⟨1, 0, 1⟩ - ⟨1, 0, 0⟩ : V3 ℝ)) (by intro h; have := congrArg V3.z h; norm_num at this)
    dsimp only
    rw [hn]
    change some _ = some _
    congr 1
    ext <;> simp
  have hnew := new_z e hat
  have hi := rotation_isometry ⟨0, 1, 0⟩ ⟨1, 0, 0⟩ π norm_x
  obtain ⟨t, ht, hto⟩ := h _ _ _ _ ⟨0, 1, 0⟩ ⟨1, 0, 0⟩ π hnew norm_x
  have hR : ∀ p : V3 ℝ, V3.rotation p ⟨0, 1, 0⟩ ⟨1, 0, 0⟩ π = ⟨p.x, 2 - p.y, -p.z⟩ := by
    intro p
    unfold V3.rotation V3.rotationCS V3.dot V3.cross
    rw [cos_pi, sin_pi]
    ext <;> simp <;> ring
  unfold Revolution.rotation at ht
  dsimp only at ht
  obtain ⟨f1, f2, f3, f4, f5, ⟨k, hk, hka⟩, -⟩ := C156_frame ht
  have hto := hto ⟨π / 2, 0⟩
  rw [to3d_rotation, to3d_rotation, f1, hi.pointAt] at hto
  dsimp only at hto
  rw [hat, Option.map_some, Option.map_some, Option.map_some, Option.map_some, f2] at hto
  have hto := Option.some.inj hto
  rw [hR] at hka
  simp only [hR] at hto
  have hy := congrArg V3.y hka
  have hx := congrArg V3.x hka
  simp only [V3.smul_x, V3.smul_y] at hy hx
  have hax : t.axis.x = 0 := by
    have : t.axis.x * k = 0 := by linarith
    exact (mul_eq_zero.mp this).resolve_right hk.ne'
  have hz := congrArg V3.z hto
  simp only [V3.rotation, V3.rotationCS, V3.dot, V3.cross, V3.sub_x, V3.sub_y, V3.sub_z, V3.smul_x, V3.smul_y, V3.smul_z, cos_pi_div_two,
    sin_pi_div_two, hax] at hz
  norm_num at hz
  rw [hz] at hy
  norm_num at hy

end Volmdlr.Surface
