import Verif.Motion.Model
import Verif.Surface.Props
import Verif.Surface.SweptPeriod

/-!
# Moves in space: circles, arcs, surfaces (C183, C184)
-/

namespace Volmdlr.Motion

open Real Volmdlr.Arc Volmdlr.Surface Volmdlr.Solid

/-! ## The exact maps (specification) -/

/-- The turn of the directions: none for a translation; the directions read in the frame, or written from their coordinates in it. -/
noncomputable def Move.turn : Move → V3 ℝ → V3 ℝ
  | .rotation _ axis angle, v => V3.rotation v ⟨0, 0, 0⟩ axis angle
  | .translation _, v => v
  | .mapping f side, v =>
    if side = "old" then V3.smul v.x f.basis.u + V3.smul v.y f.basis.v + V3.smul v.z f.basis.w
    else ⟨V3.dot f.basis.u v, V3.dot f.basis.v v, V3.dot f.basis.w v⟩

/-- Where a point goes: rotated; translated; the point of these coordinates in the frame (`'old'`); its coordinates in the frame (`'new'`). -/
noncomputable def Move.map : Move → V3 ℝ → V3 ℝ
  | .rotation center axis angle, p => V3.rotation p center axis angle
  | .translation offset, p => p + offset
  | .mapping f side, p =>
    if side = "old" then f.origin + V3.smul p.x f.basis.u + V3.smul p.y f.basis.v + V3.smul p.z f.basis.w
    else ⟨V3.dot f.basis.u (p - f.origin), V3.dot f.basis.v (p - f.origin), V3.dot f.basis.w (p - f.origin)⟩

/-- A rotation about a unit axis; a mapping by a direct orthonormal frame, with a side that exists. -/
def Move.Proper : Move → Prop
  | .rotation _ axis _ => V3.dot axis axis = 1
  | .translation _ => True
  | .mapping f side => DirectOrthonormal f.basis ∧ (side = "old" ∨ side = "new")

/-- The coordinates of the point are not rounded to zero (`1e-16`) by a frame mapping. -/
noncomputable def Move.SharpPoint : Move → V3 ℝ → Prop
  | .mapping f side, p => if side = "old" then ((Move.mapping f side).turn p).NotTiny else ((Move.mapping f side).map p).NotTiny
  | _, _ => True

/-- The coordinates of the direction are not rounded to zero by a frame mapping. -/
noncomputable def Move.SharpVector : Move → V3 ℝ → Prop
  | .mapping f side, v => ((Move.mapping f side).turn v).NotTiny
  | _, _ => True

/-- Nothing of the frame is rounded; a centre of rotation is the origin of the frame or not within the tolerance of it. -/
noncomputable def Move.SharpFrame (m : Move) (f : Frame3 ℝ) : Prop :=
  m.SharpPoint f.origin ∧ m.SharpVector f.basis.u ∧ m.SharpVector f.basis.v ∧ m.SharpVector f.basis.w ∧
    ∀ center axis angle, m = .rotation center axis angle → center = f.origin ∨ ¬isClose3 center f.origin (1 / 10 ^ 6)

/-- The frame carried along by the move. -/
noncomputable def Move.image (m : Move) (f : Frame3 ℝ) : Frame3 ℝ := ⟨m.map f.origin, ⟨m.turn f.basis.u, m.turn f.basis.v, m.turn f.basis.w⟩⟩

/-! ## Properties of the exact maps -/

lemma turn_add (m : Move) (a b : V3 ℝ) : m.turn (a + b) = m.turn a + m.turn b := by
  cases m with
  | rotation c x t =>
    simp only [Move.turn, V3.rotation, V3.rotationCS]
    ext <;> simp [V3.dot, V3.cross] <;> ring
  | translation d => rfl
  | mapping f side =>
    simp only [Move.turn]
    split <;> ext <;> simp [V3.dot] <;> ring

lemma turn_smul (m : Move) (k : ℝ) (a : V3 ℝ) : m.turn (V3.smul k a) = V3.smul k (m.turn a) := by
  cases m with
  | rotation c x t =>
    simp only [Move.turn, V3.rotation, V3.rotationCS]
    ext <;> simp [V3.dot, V3.cross] <;> ring
  | translation d => rfl
  | mapping f side =>
    simp only [Move.turn]
    split <;> ext <;> simp [V3.dot] <;> ring

lemma map_sub (m : Move) (p q : V3 ℝ) : m.map p - m.map q = m.turn (p - q) := by
  cases m with
  | rotation c x t =>
    simp only [Move.turn, Move.map, V3.rotation, V3.rotationCS]
    ext <;> simp [V3.dot, V3.cross] <;> ring
  | translation d =>
    simp only [Move.turn, Move.map]
    ext <;> simp
  | mapping f side =>
    simp only [Move.turn, Move.map]
    split <;> ext <;> simp [V3.dot] <;> ring

lemma map_add (m : Move) (p v : V3 ℝ) : m.map (p + v) = m.map p + m.turn v := by
  have h := map_sub m (p + v) p
  have e : p + v - p = v := by ext <;> simp
  rw [e] at h
  rw [← h]
  ext <;> simp

/-- The direction of given coordinates in a basis. -/
noncomputable def combo (b : Basis3 ℝ) (v : V3 ℝ) : V3 ℝ := V3.smul v.x b.u + V3.smul v.y b.v + V3.smul v.z b.w

/-- The coordinates of a direction in an orthonormal basis. -/
noncomputable def coords (b : Basis3 ℝ) (v : V3 ℝ) : V3 ℝ := ⟨V3.dot b.u v, V3.dot b.v v, V3.dot b.w v⟩

lemma coords_combo {b : Basis3 ℝ} (h : DirectOrthonormal b) (q : V3 ℝ) : coords b (combo b q) = q := by
  obtain ⟨h1, h2, h3, h4, h5, h6, -⟩ := h
  simp only [coords, combo, V3.dot, V3.add_x, V3.add_y, V3.add_z, V3.smul_x, V3.smul_y, V3.smul_z] at *
  ext
  · linear_combination q.x * h1 + q.y * h4 + q.z * h5
  · linear_combination q.x * h4 + q.y * h2 + q.z * h6
  · linear_combination q.x * h5 + q.y * h6 + q.z * h3

lemma combo_coords {b : Basis3 ℝ} (h : DirectOrthonormal b) (v : V3 ℝ) : combo b (coords b v) = v := by
  obtain ⟨q, hq, -⟩ := globalToLocal_flush ⟨⟨0, 0, 0⟩, b⟩ (orthonormal_invertible (direct_orthonormal h)) v
  have e : v = combo b q := by
    rw [hq]; unfold pt combo
    ext <;> simp
  rw [e, coords_combo h]

lemma combo_dot {b : Basis3 ℝ} (h : DirectOrthonormal b) (p q : V3 ℝ) : V3.dot (combo b p) (combo b q) = V3.dot p q := by
  obtain ⟨h1, h2, h3, h4, h5, h6, -⟩ := h
  simp only [combo, V3.dot, V3.add_x, V3.add_y, V3.add_z, V3.smul_x, V3.smul_y, V3.smul_z] at *
  linear_combination p.x * q.x * h1 + p.y * q.y * h2 + p.z * q.z * h3 + (p.x * q.y + p.y * q.x) * h4 + (p.x * q.z + p.z * q.x) * h5 +
    (p.y * q.z + p.z * q.y) * h6

lemma cross_pair {b : Basis3 ℝ} (h : DirectOrthonormal b) :
    V3.cross b.u b.v = b.w ∧ V3.cross b.v b.w = b.u ∧ V3.cross b.w b.u = b.v := by
  obtain ⟨h1, h2, h3⟩ := Arc.direct_cross h
  refine ⟨h3, ?_, h1⟩
  have e : V3.cross b.v b.w = -V3.cross b.w b.v := by ext <;> simp [V3.cross] <;> ring
  rw [e, h2]
  ext <;> simp

lemma combo_cross {b : Basis3 ℝ} (h : DirectOrthonormal b) (p q : V3 ℝ) : V3.cross (combo b p) (combo b q) = combo b (V3.cross p q) := by
  obtain ⟨c1, c2, c3⟩ := cross_pair h
  have e : V3.cross (combo b p) (combo b q) = V3.smul (p.y * q.z - p.z * q.y) (V3.cross b.v b.w) + V3.smul (p.z * q.x - p.x * q.z) (V3.cross b.w b.u) +
      V3.smul (p.x * q.y - p.y * q.x) (V3.cross b.u b.v) := by
    unfold combo V3.cross
    ext <;> simp <;> ring
  rw [e, c1, c2, c3]
  rfl

lemma turn_mapping (f : Frame3 ℝ) (side : String) (v : V3 ℝ) :
    (Move.mapping f side).turn v = if side = "old" then combo f.basis v else coords f.basis v := rfl

lemma map_mapping (f : Frame3 ℝ) (side : String) (p : V3 ℝ) :
    (Move.mapping f side).map p = if side = "old" then pt f p else coords f.basis (p - f.origin) := rfl

lemma turn_dot {m : Move} (h : m.Proper) (a b : V3 ℝ) : V3.dot (m.turn a) (m.turn b) = V3.dot a b := by
  cases m with
  | rotation c x t => exact V3.rotation_dot a b x t h
  | translation d => rfl
  | mapping f side =>
    obtain ⟨hd, -⟩ := h
    simp only [turn_mapping]
    split
    · exact combo_dot hd a b
    · rw [← combo_dot hd, combo_coords hd, combo_coords hd]

lemma turn_cross {m : Move} (h : m.Proper) (a b : V3 ℝ) : V3.cross (m.turn a) (m.turn b) = m.turn (V3.cross a b) := by
  cases m with
  | rotation c x t => exact V3.rotation_cross a b x t h
  | translation d => rfl
  | mapping f side =>
    obtain ⟨hd, -⟩ := h
    simp only [turn_mapping]
    split
    · exact combo_cross hd a b
    · rw [← coords_combo hd (V3.cross _ _), ← combo_cross hd, combo_coords hd, combo_coords hd]

lemma turn_direct {m : Move} (h : m.Proper) {b : Basis3 ℝ} (hb : DirectOrthonormal b) :
    DirectOrthonormal ⟨m.turn b.u, m.turn b.v, m.turn b.w⟩ := by
  obtain ⟨h1, h2, h3, h4, h5, h6, h7⟩ := hb
  refine ⟨?_, ?_, ?_, ?_, ?_, ?_, ?_⟩ <;> simp only [turn_cross h, turn_dot h] <;> assumption

/-! ## The code does these maps -/

lemma transfer_combo (b : Basis3 ℝ) (v : V3 ℝ) : b.transfer.cMulVec v = combo b v := by
  unfold Basis3.transfer M33.cMulVec combo
  ext <;> simp

lemma localToGlobal_sharp {b : Basis3 ℝ} {v : V3 ℝ} (h : (combo b v).NotTiny) : b.localToGlobal v = combo b v := by
  unfold Basis3.localToGlobal
  rw [M33.mulVec_eq (by rwa [transfer_combo]), transfer_combo]

lemma globalToLocal_eq {b : Basis3 ℝ} (hd : DirectOrthonormal b) (v : V3 ℝ) :
    b.globalToLocal v = .ok ⟨flush (coords b v).x, flush (coords b v).y, flush (coords b v).z⟩ := by
  obtain ⟨q, hq, h⟩ := globalToLocal_flush ⟨⟨0, 0, 0⟩, b⟩ (orthonormal_invertible (direct_orthonormal hd)) v
  have e : v = combo b q := by
    rw [hq]; unfold pt combo
    ext <;> simp
  have e2 : coords b v = q := by rw [e, coords_combo hd]
  rw [e2, ← h]
  unfold Frame3.globalToLocal
  congr 1
  ext <;> simp

lemma flush_sharp {v : V3 ℝ} (h : v.NotTiny) : (⟨flush v.x, flush v.y, flush v.z⟩ : V3 ℝ) = v := by
  obtain ⟨h1, h2, h3⟩ := h
  rw [flush_of_notTiny h1, flush_of_notTiny h2, flush_of_notTiny h3]

lemma globalToLocal_sharp {b : Basis3 ℝ} (hd : DirectOrthonormal b) {v : V3 ℝ} (h : (coords b v).NotTiny) : b.globalToLocal v = .ok (coords b v) := by
  rw [globalToLocal_eq hd, flush_sharp h]

lemma pt_combo (f : Frame3 ℝ) (q : V3 ℝ) : combo f.basis q + f.origin = pt f q := by
  unfold pt combo
  ext <;> simp <;> ring

lemma point_sharp {m : Move} (h : m.Proper) {p : V3 ℝ} (hp : m.SharpPoint p) : m.point p = .ok (m.map p) := by
  cases m with
  | rotation c x t => rfl
  | translation d => rfl
  | mapping f side =>
    obtain ⟨hd, hs⟩ := h
    simp only [Move.SharpPoint, turn_mapping, map_mapping] at hp
    simp only [Move.point, V3.frameMapping, map_mapping]
    by_cases ho : side = "old"
    · rw [if_pos ho, if_pos ho] at hp
      rw [if_pos ho, if_pos ho]
      unfold Frame3.localToGlobal
      rw [localToGlobal_sharp hp, pt_combo]
    · have hn := hs.resolve_left ho
      rw [if_neg ho, if_neg ho] at hp
      rw [if_neg ho, if_pos hn, if_neg ho]
      exact globalToLocal_sharp hd hp

lemma frame_sharp {m : Move} (h : m.Proper) {f : Frame3 ℝ} (hf : m.SharpFrame f) : m.frame f = .ok (m.image f) := by
  obtain ⟨hp, hu, hv, hw, hc⟩ := hf
  cases m with
  | rotation c x t =>
    simp only [Move.frame, frameRotation, Move.image, Move.map, Move.turn, Basis3.rotation]
    split
    · rename_i hcl
      rcases hc c x t rfl with h1 | h1
      · have e : V3.rotation f.origin c x t = f.origin := by
          rw [h1]; unfold V3.rotation V3.rotationCS
          ext <;> simp [V3.dot, V3.cross]
        rw [e]
      · exact absurd hcl h1
    · rfl
  | translation d => rfl
  | mapping g side =>
    obtain ⟨hd, hs⟩ := h
    simp only [Move.SharpPoint, Move.SharpVector, turn_mapping, map_mapping] at hp hu hv hw
    simp only [Move.frame, Frame3.frameMapping, Move.image, turn_mapping, map_mapping]
    by_cases ho : side = "old"
    · have hn : side ≠ "new" := by rw [ho]; decide
      simp only [if_pos ho] at hp hu hv hw
      simp only [if_neg hn, if_pos ho]
      unfold Frame3.localToGlobal
      rw [localToGlobal_sharp hp, pt_combo, localToGlobal_sharp hu, localToGlobal_sharp hv, localToGlobal_sharp hw]
    · have hn := hs.resolve_left ho
      simp only [if_neg ho] at hp hu hv hw
      simp only [if_neg ho, if_pos hn]
      unfold Frame3.globalToLocal
      rw [globalToLocal_sharp hd hp, globalToLocal_sharp hd hu, globalToLocal_sharp hd hv, globalToLocal_sharp hd hw]
      rfl

/-- The coordinates of a point in a frame are unchanged when both are moved. -/
lemma coords_image {m : Move} (h : m.Proper) {f : Frame3 ℝ} (p : V3 ℝ) :
    coords (m.image f).basis (m.map p - (m.image f).origin) = coords f.basis (p - f.origin) := by
  unfold Move.image coords
  dsimp only
  rw [map_sub]
  simp only [turn_dot h]

lemma globalToLocal_image {m : Move} (h : m.Proper) {f : Frame3 ℝ} (hf : DirectOrthonormal f.basis) (p : V3 ℝ) :
    (m.image f).globalToLocal (m.map p) = f.globalToLocal p := by
  unfold Frame3.globalToLocal
  rw [globalToLocal_eq (b := (m.image f).basis) (turn_direct h hf), globalToLocal_eq hf, coords_image h]

lemma pt_image {m : Move} (f : Frame3 ℝ) (q : V3 ℝ) : pt (m.image f) q = m.map (pt f q) := by
  unfold pt Move.image
  dsimp only
  rw [map_add, map_add, map_add, turn_smul, turn_smul, turn_smul]

lemma rotation_image {m : Move} (h : m.Proper) (p o a : V3 ℝ) (t : ℝ) :
    V3.rotation (m.map p) (m.map o) (m.turn a) t = m.map (V3.rotation p o a t) := by
  have e : ∀ q c x : V3 ℝ, V3.rotation q c x t = c + (V3.smul (cos t) (q - c) + V3.smul ((1 - cos t) * V3.dot (q - c) x) x + V3.smul (sin t) (V3.cross x (q - c))) := by
    intro q c x
    unfold V3.rotation V3.rotationCS
    ext <;> simp <;> ring
  rw [e, e, map_add, map_sub, turn_add, turn_add, turn_smul, turn_smul, turn_smul, turn_dot h, turn_cross h]

/-! ## C183: circles and arcs -/

/-- C183: a proper move keeps distances, and the code's moves of points are these maps wherever nothing is rounded. -/
theorem C183_points (m : Move) (h : m.Proper) :
    (∀ p, m.SharpPoint p → m.point p = .ok (m.map p)) ∧ (∀ p q, V3.pointDistance (m.map p) (m.map q) = V3.pointDistance p q) := by
  refine ⟨fun p hp => point_sharp h hp, fun p q => ?_⟩
  unfold V3.pointDistance V3.norm
  have e := turn_dot h (p - q) (p - q)
  rw [map_sub]
  unfold V3.dot at e
  rw [e]

/-- C183: a circle is carried along: its frame stays direct orthonormal, the radius is kept, and its point at each angle goes where the move
takes it. -/
theorem C183_circle_partial (m : Move) (h : m.Proper) (c : Circle3) (hc : c.Good) (hs : m.SharpFrame c.frame) :
    ∃ c', moveCircle m c = .ok c' ∧ c'.Good ∧ c'.radius = c.radius ∧ c'.frame.origin = m.map c.frame.origin ∧
      ∀ t, c'.at t = m.map (c.at t) := by
  refine ⟨⟨m.image c.frame, c.radius⟩, ?_, ⟨turn_direct h hc.direct, hc.pos⟩, rfl, rfl, fun t => ?_⟩
  · unfold moveCircle
    rw [frame_sharp h hs]
    rfl
  · rw [at_pt, at_pt, ← pt_image]

lemma pointAngle_image {m : Move} (h : m.Proper) {c : Circle3} (hc : c.Good) (p : V3 ℝ) :
    Circle3.pointAngle ⟨m.image c.frame, c.radius⟩ (m.map p) = c.pointAngle p := by
  unfold Circle3.pointAngle
  dsimp only
  rw [globalToLocal_image h hc.direct]

lemma make_image {m : Move} (h : m.Proper) {c : Circle3} (hc : c.Good) {p q : V3 ℝ} {arc : Arc3} (ha : Arc3.make c p q = .ok arc) :
    Arc3.make ⟨m.image c.frame, c.radius⟩ (m.map p) (m.map q) =
      .ok ⟨⟨m.image c.frame, c.radius⟩, m.map p, m.map q, arc.angleStart, arc.angleEnd⟩ ∧ arc.circle = c ∧ arc.start = p ∧ arc.fin = q := by
  unfold Arc3.make at *
  rw [pointAngle_image h hc, pointAngle_image h hc]
  cases ep : c.pointAngle p with
  | error e => rw [ep] at ha; simp [bind, Except.bind] at ha
  | ok a =>
    cases eq : c.pointAngle q with
    | error e => rw [ep, eq] at ha; simp [bind, Except.bind] at ha
    | ok b =>
      rw [ep, eq] at ha
      simp only [bind, Except.bind, pure, Except.pure, Except.ok.injEq] at ha ⊢
      subst ha
      exact ⟨rfl, rfl, rfl, rfl⟩

/-- The arc `a'` is the arc `a` carried along by the move: ends, angles, length, and the point at every abscissa. -/
def Carried (m : Move) (a a' : Arc3) : Prop :=
  a'.start = m.map a.start ∧ a'.fin = m.map a.fin ∧ a'.circle.frame.origin = m.map a.circle.frame.origin ∧ a'.circle.radius = a.circle.radius ∧
    a'.angleStart = a.angleStart ∧ a'.angleEnd = a.angleEnd ∧ a'.length = a.length ∧
    ∀ s, a'.pointAtAbscissa s = (a.pointAtAbscissa s).map m.map

lemma carried_image {m : Move} (h : m.Proper) (a : Arc3) :
    Carried m a ⟨⟨m.image a.circle.frame, a.circle.radius⟩, m.map a.start, m.map a.fin, a.angleStart, a.angleEnd⟩ := by
  refine ⟨rfl, rfl, rfl, rfl, rfl, rfl, rfl, fun s => ?_⟩
  unfold Arc3.pointAtAbscissa
  have e : (⟨⟨m.image a.circle.frame, a.circle.radius⟩, m.map a.start, m.map a.fin, a.angleStart, a.angleEnd⟩ : Arc3).length = a.length := rfl
  rw [e]
  split
  · rfl
  · unfold Move.image
    dsimp only
    rw [rotation_image h]
    rfl

/-- C183: the arc between any two points of a circle is carried along by every proper move in which nothing is rounded: the
constructor finds the same angles, so the moved arc is the image of the arc, not its complement.
Missing (see `C183_counterexample`, `C183_near_centre`): a centre of rotation within the tolerance of the centre of the circle, and coordinates
rounded to zero. -/
theorem C183_arc_partial (m : Move) (h : m.Proper) (c : Circle3) (hc : c.Good) (p q : V3 ℝ) (arc : Arc3) (ha : Arc3.make c p q = .ok arc)
    (hs : m.SharpFrame c.frame) (hp : m.SharpPoint p) (hq : m.SharpPoint q) :
    ∃ arc', moveArc m arc = .ok arc' ∧ Carried m arc arc' := by
  obtain ⟨h1, h2, h3, h4⟩ := make_image h hc ha
  refine ⟨⟨⟨m.image c.frame, c.radius⟩, m.map p, m.map q, arc.angleStart, arc.angleEnd⟩, ?_, ?_⟩
  · unfold moveArc moveCircle
    rw [h2, h3, h4, frame_sharp h hs, point_sharp h hp, point_sharp h hq]
    exact h1
  · have := carried_image h arc
    rw [h2, h3, h4] at this
    exact this

/-- C183: the same for a whole circle as an edge: its start is carried along, it is still a whole turn. -/
theorem C183_full_arc_partial (m : Move) (h : m.Proper) (c : Circle3) (hc : c.Good) (p : V3 ℝ) (arc : Arc3) (ha : fullArc c p = .ok arc)
    (hs : m.SharpFrame c.frame) (hp : m.SharpPoint p) :
    ∃ arc', moveFullArc m arc = .ok arc' ∧ Carried m arc arc' ∧ arc'.angle = 2 * π := by
  obtain ⟨h1, h2, h3, h4⟩ := make_image h hc ha
  refine ⟨⟨⟨m.image c.frame, c.radius⟩, m.map p, m.map p, arc.angleStart, arc.angleEnd⟩, ?_, ?_, ?_⟩
  · unfold moveFullArc moveCircle fullArc
    rw [h2, h3, frame_sharp h hs, point_sharp h hp]
    exact h1
  · have := carried_image h arc
    rw [h2, h3, h4] at this
    exact this
  · unfold Arc3.angle
    dsimp only
    unfold fullArc Arc3.make at ha
    cases ep : c.pointAngle p with
    | error e => rw [ep] at ha; simp [bind, Except.bind] at ha
    | ok a =>
      rw [ep] at ha
      simp only [bind, Except.bind, pure, Except.pure, Except.ok.injEq] at ha
      subst ha
      dsimp only
      unfold endAfter
      rw [if_pos le_rfl]
      ring

/-- C183, full statement: the same about every centre. -/
def C183_full_statement : Prop :=
  ∀ (m : Move), m.Proper → ∀ (c : Circle3), c.Good → ∀ (p q : V3 ℝ) (arc : Arc3), Arc3.make c p q = .ok arc →
    ∃ arc', moveArc m arc = .ok arc' ∧ Carried m arc arc'

/-- C183: a centre of rotation within the tolerance of the centre of the circle leaves that centre where it is, while the ends of the arc turn:
the distance between the two is at most `2e-6`. -/
theorem C183_near_centre (f : Frame3 ℝ) (center axis : V3 ℝ) (angle : ℝ) (ha : V3.dot axis axis = 1) :
    (frameRotation f center axis angle).basis = (Move.image (.rotation center axis angle) f).basis ∧
      V3.pointDistance (frameRotation f center axis angle).origin (V3.rotation f.origin center axis angle) ≤ 2 / 10 ^ 6 := by
  unfold frameRotation
  split
  · rename_i hcl
    refine ⟨rfl, ?_⟩
    have h1 : V3.pointDistance center f.origin ≤ 1 / 10 ^ 6 := (isClose3_le _ _).1 hcl
    have e2 : (Move.rotation center axis angle).map center = center := by
      unfold Move.map V3.rotation V3.rotationCS
      ext <;> simp [V3.dot, V3.cross]
    have e3 := turn_dot (m := .rotation center axis angle) ha (center - f.origin) (center - f.origin)
    rw [← map_sub, e2] at e3
    change V3.dot (center - V3.rotation f.origin center axis angle) (center - V3.rotation f.origin center axis angle) = _ at e3
    change V3.pointDistance f.origin (V3.rotation f.origin center axis angle) ≤ _
    generalize V3.rotation f.origin center axis angle = r at *
    unfold V3.pointDistance V3.norm at *
    rw [Real.sqrt_le_left (by positivity)] at h1 ⊢
    simp only [V3.dot, V3.sub_x, V3.sub_y, V3.sub_z] at *
    nlinarith [sq_nonneg ((center.x - f.origin.x) + (center.x - r.x)), sq_nonneg ((center.y - f.origin.y) + (center.y - r.y)),
      sq_nonneg ((center.z - f.origin.z) + (center.z - r.z))]
  · refine ⟨rfl, ?_⟩
    have : V3.pointDistance (V3.rotation f.origin center axis angle) (V3.rotation f.origin center axis angle) = 0 := by
      unfold V3.pointDistance V3.norm
      simp
    dsimp only
    rw [this]; positivity

lemma make_total {c : Circle3} (hc : c.Good) (p q : V3 ℝ) : ∃ arc, Arc3.make c p q = .ok arc ∧ arc.circle = c ∧ arc.start = p ∧ arc.fin = q := by
  have key : ∀ p, ∃ a, c.pointAngle p = .ok a := by
    intro p
    unfold Circle3.pointAngle Frame3.globalToLocal
    rw [globalToLocal_eq hc.direct]
    exact ⟨_, if_neg hc.pos.ne'⟩
  obtain ⟨a, ha⟩ := key p
  obtain ⟨b, hb⟩ := key q
  unfold Arc3.make
  rw [ha, hb]
  exact ⟨_, rfl, rfl, rfl, rfl⟩

/-- The unit circle of the plane `z = 0` (example). -/
noncomputable def unitCircle : Circle3 := ⟨⟨⟨0, 0, 0⟩, ⟨⟨1, 0, 0⟩, ⟨0, 1, 0⟩, ⟨0, 0, 1⟩⟩⟩, 1⟩

lemma unitCircle_good : unitCircle.Good := by
  refine ⟨?_, one_pos⟩
  unfold unitCircle DirectOrthonormal
  norm_num [V3.dot, V3.cross]

/-- C183: about a centre within the tolerance of the centre of the circle the ends of the arc turn, its centre does not. -/
theorem C183_counterexample : ¬C183_full_statement := by
  intro hf
  have hm : (Move.rotation ⟨1 / 10 ^ 6, 0, 0⟩ ⟨0, 0, 1⟩ π).Proper := by
    simp [Move.Proper, V3.dot]
  obtain ⟨arc, ha, h1, -⟩ := make_total unitCircle_good ⟨1, 0, 0⟩ ⟨0, 1, 0⟩
  obtain ⟨arc', h2, h3⟩ := hf _ hm _ unitCircle_good _ _ arc ha
  have hcl : isClose3 ⟨1 / 10 ^ 6, 0, 0⟩ unitCircle.frame.origin (1 / 10 ^ 6) := by
    rw [isClose3_le]
    unfold unitCircle V3.pointDistance V3.norm
    rw [Real.sqrt_le_left (by positivity)]
    norm_num
  have ho : arc'.circle.frame.origin = ⟨0, 0, 0⟩ := by
    unfold moveArc moveCircle at h2
    rw [h1] at h2
    simp only [Move.frame, Move.point, frameRotation, if_pos hcl, bind, Except.bind, pure, Except.pure] at h2
    unfold Arc3.make at h2
    revert h2
    generalize Circle3.pointAngle _ _ = x
    generalize Circle3.pointAngle _ _ = y
    intro h2
    cases x with
    | error e => simp [bind, Except.bind] at h2
    | ok a =>
      cases y with
      | error e => simp [bind, Except.bind] at h2
      | ok b =>
        simp only [bind, Except.bind, pure, Except.pure, Except.ok.injEq] at h2
        subst h2
        rfl
  have := h3.2.2.1
  rw [ho, h1] at this
  have hx := congrArg V3.x this
  simp only [Move.map, V3.rotation, V3.rotationCS, unitCircle, cos_pi, sin_pi, V3.dot, V3.cross, V3.sub_x, V3.sub_y, V3.sub_z, V3.smul_x] at hx
  norm_num at hx

/-- The hypotheses are met: a quarter of the unit circle turned about another point, translated, and mapped. -/
example : ∃ (m n k : Move) (arc : Arc3), Arc3.make unitCircle ⟨1, 0, 0⟩ ⟨0, 1, 0⟩ = .ok arc ∧ m.Proper ∧ n.Proper ∧ k.Proper ∧
    m.SharpFrame unitCircle.frame ∧ n.SharpFrame unitCircle.frame ∧ k.SharpFrame unitCircle.frame ∧
    m.map ⟨1, 0, 0⟩ = ⟨2, -1, 0⟩ ∧ n.map ⟨1, 0, 0⟩ = ⟨1, 5, 0⟩ ∧ k.map ⟨1, 0, 0⟩ = ⟨3, 1, 0⟩ ∧ k.SharpPoint ⟨1, 0, 0⟩ ∧ k.SharpPoint ⟨0, 1, 0⟩ := by
  obtain ⟨arc, ha, -⟩ := make_total unitCircle_good ⟨1, 0, 0⟩ ⟨0, 1, 0⟩
  refine ⟨.rotation ⟨2, 0, 0⟩ ⟨0, 0, 1⟩ (π / 2), .translation ⟨0, 5, 0⟩, .mapping ⟨⟨3, 0, 0⟩, ⟨⟨0, 1, 0⟩, ⟨-1, 0, 0⟩, ⟨0, 0, 1⟩⟩⟩ "old", arc, ha,
    by norm_num [Move.Proper, V3.dot], trivial, ⟨by norm_num [DirectOrthonormal, V3.dot, V3.cross], Or.inl rfl⟩, ?_, ?_, ?_, ?_, ?_, ?_, ?_, ?_⟩
  · refine ⟨trivial, trivial, trivial, trivial, ?_⟩
    intro c a t h
    injection h with h1 h2 h3
    subst h1
    right
    rw [isClose3_le, not_le]
    unfold unitCircle V3.pointDistance V3.norm
    rw [Real.lt_sqrt (by positivity)]
    norm_num
  · exact ⟨trivial, trivial, trivial, trivial, fun c a t h => by cases h⟩
  · refine ⟨?_, ?_, ?_, ?_, fun c a t h => by cases h⟩ <;>
      simp [Move.SharpPoint, Move.SharpVector, Move.turn, unitCircle, V3.NotTiny, NotTiny] <;> norm_num
  · change V3.rotation _ _ _ _ = _
    unfold V3.rotation V3.rotationCS
    rw [cos_pi_div_two, sin_pi_div_two]
    ext <;> norm_num [V3.dot, V3.cross]
  · unfold Move.map
    ext <;> simp
  · unfold Move.map
    ext <;> simp
  · simp [Move.SharpPoint, Move.turn, V3.NotTiny, NotTiny]; norm_num
  · simp [Move.SharpPoint, Move.turn, V3.NotTiny, NotTiny]; norm_num

/-! ## C184: surfaces -/

/-- C184: a plane, cylinder, cone, sphere or torus is carried along by a proper move in which nothing of its frame is rounded: its size does not
change, a point of parameters `q` goes where the move takes it, and a moved point has the parameters it had (so a face, which keeps its
contour in the parametric domain, is carried along too). -/
theorem C184_surfaces_partial (m : Move) (h : m.Proper) (f : Frame3 ℝ) (hf : DirectOrthonormal f.basis) (hs : m.SharpFrame f) :
    (∃ g, movePlane m f = .ok g ∧ (∀ q, planePoint g q = m.map (planePoint f q)) ∧ ∀ p, planeParam g (m.map p) = planeParam f p) ∧
    (∀ r, ∃ s, moveCylinder m ⟨f, r⟩ = .ok s ∧ s.radius = r ∧ (∀ q, s.paramTo3d q = m.map (Cylinder.paramTo3d ⟨f, r⟩ q)) ∧
      ∀ p, s.to2d (m.map p) = Cylinder.to2d ⟨f, r⟩ p) ∧
    (∀ a, ∃ s, moveCone m ⟨f, a⟩ = .ok s ∧ s.semiAngle = a ∧ (∀ q, s.paramTo3d q = m.map (Cone.paramTo3d ⟨f, a⟩ q)) ∧
      ∀ p, s.to2d (m.map p) = Cone.to2d ⟨f, a⟩ p) ∧
    (∀ r, ∃ s, moveSphere m ⟨f, r⟩ = .ok s ∧ s.radius = r ∧ (∀ q, s.paramTo3d q = m.map (Sphere.paramTo3d ⟨f, r⟩ q)) ∧
      ∀ p, s.to2d (m.map p) = Sphere.to2d ⟨f, r⟩ p) ∧
    (∀ R r, ∃ s, moveTorus m ⟨f, R, r⟩ = .ok s ∧ s.majorRadius = R ∧ s.minorRadius = r ∧
      (∀ q, s.paramTo3d q = m.map (Torus.paramTo3d ⟨f, R, r⟩ q)) ∧ ∀ p, s.to2d (m.map p) = Torus.to2d ⟨f, R, r⟩ p) := by
  have fs := frame_sharp h hs
  have gl := globalToLocal_image h hf
  refine ⟨⟨m.image f, fs, fun q => ?_, fun p => ?_⟩, fun r => ⟨⟨m.image f, r⟩, ?_, rfl, fun q => ?_, fun p => ?_⟩,
    fun r => ⟨⟨m.image f, r⟩, ?_, rfl, fun q => ?_, fun p => ?_⟩, fun r => ⟨⟨m.image f, r⟩, ?_, rfl, fun q => ?_, fun p => ?_⟩,
    fun R r => ⟨⟨m.image f, R, r⟩, ?_, rfl, rfl, fun q => ?_, fun p => ?_⟩⟩
  · have := pt_image (m := m) f ⟨q.x, q.y, 0⟩
    have e : ∀ g : Frame3 ℝ, planePoint g q = pt g ⟨q.x, q.y, 0⟩ := by
      intro g
      unfold planePoint pt V2.vecTo3d
      ext <;> simp
    rw [e, e, this]
  · have c := coords_image h (f := f) p
    have e : ∀ (g : Frame3 ℝ) (p : V3 ℝ), planeParam g p = ⟨(coords g.basis (p - g.origin)).x, (coords g.basis (p - g.origin)).y⟩ := by
      intro g p
      unfold planeParam V3.to2d coords V3.dot
      ext <;> simp <;> ring
    rw [e, e, c]
  · unfold moveCylinder; rw [fs]; rfl
  · have e : ∀ g : Frame3 ℝ, Cylinder.paramTo3d ⟨g, r⟩ q = pt g ⟨r * cos q.x, r * sin q.x, q.y⟩ := by
      intro g
      unfold Cylinder.paramTo3d pt
      ext <;> simp <;> ring
    rw [e, e, pt_image]
  · unfold Cylinder.to2d
    dsimp only
    rw [gl]
  · unfold moveCone; rw [fs]; rfl
  · have e : ∀ g : Frame3 ℝ, Cone.paramTo3d ⟨g, r⟩ q = pt g ⟨tan r * q.y * cos q.x, tan r * q.y * sin q.x, q.y⟩ := by
      intro g
      unfold Cone.paramTo3d pt
      ext <;> simp <;> ring
    rw [e, e, pt_image]
  · unfold Cone.to2d
    dsimp only
    rw [gl]
  · unfold moveSphere; rw [fs]; rfl
  · have e : ∀ g : Frame3 ℝ, Sphere.paramTo3d ⟨g, r⟩ q = pt g ⟨r * cos q.y * cos q.x, r * cos q.y * sin q.x, r * sin q.y⟩ := by
      intro g
      unfold Sphere.paramTo3d pt
      ext <;> simp <;> ring
    rw [e, e, pt_image]
  · unfold Sphere.to2d
    dsimp only
    rw [gl]
  · unfold moveTorus; rw [fs]; rfl
  · have e : ∀ g : Frame3 ℝ, Torus.paramTo3d ⟨g, R, r⟩ q = pt g ⟨(R + r * cos q.y) * cos q.x, (R + r * cos q.y) * sin q.x, r * sin q.y⟩ := by
      intro g
      unfold Torus.paramTo3d pt
      ext <;> simp <;> ring
    rw [e, e, pt_image]
  · unfold Torus.to2d
    dsimp only
    rw [gl]

end Volmdlr.Motion
