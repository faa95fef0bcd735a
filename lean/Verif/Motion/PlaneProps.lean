import Verif.Motion.SpaceProps

/-!
# Moves in the plane: arcs, circles, ellipses (C185, C186)
-/

namespace Volmdlr.Motion

open Real Volmdlr.Arc Volmdlr.Angle

/-! ## The exact maps (specification) -/

/-- An orthonormal basis of the plane, direct or not. -/
def Orthonormal2 (b : Basis2 ℝ) : Prop := V2.dot b.u b.u = 1 ∧ V2.dot b.v b.v = 1 ∧ V2.dot b.u b.v = 0

/-- The turn of the directions. -/
noncomputable def Move2.turn : Move2 → V2 ℝ → V2 ℝ
  | .rotation _ angle, v => V2.rotation v ⟨0, 0⟩ angle
  | .translation _, v => v
  | .mapping f side, v =>
    if side = "old" then V2.smul v.x f.basis.u + V2.smul v.y f.basis.v else ⟨V2.dot f.basis.u v, V2.dot f.basis.v v⟩

/-- Where a point goes: rotated; translated; the point of these coordinates in the frame (`'old'`); its coordinates in the frame (`'new'`). -/
noncomputable def Move2.map : Move2 → V2 ℝ → V2 ℝ
  | .rotation center angle, p => V2.rotation p center angle
  | .translation offset, p => p + offset
  | .mapping f side, p =>
    if side = "old" then f.origin + V2.smul p.x f.basis.u + V2.smul p.y f.basis.v
    else ⟨V2.dot f.basis.u (p - f.origin), V2.dot f.basis.v (p - f.origin)⟩

/-- A mapping is by an orthonormal frame, with a side that exists. -/
def Move2.Proper : Move2 → Prop
  | .mapping f side => Orthonormal2 f.basis ∧ (side = "old" ∨ side = "new")
  | _ => True

/-- `1` for the moves that keep orientations, `-1` for the mappings by an indirect frame. -/
noncomputable def Move2.sign : Move2 → ℝ
  | .mapping f _ => V2.cross f.basis.u f.basis.v
  | _ => 1

lemma turn2_smul (m : Move2) (k : ℝ) (a : V2 ℝ) : m.turn (V2.smul k a) = V2.smul k (m.turn a) := by
  cases m with
  | rotation c t => simp only [Move2.turn, V2.rotation, V2.rotationCS]; ext <;> simp <;> ring
  | translation d => rfl
  | mapping f side => simp only [Move2.turn]; split <;> ext <;> simp [V2.dot] <;> ring

lemma turn2_add (m : Move2) (a b : V2 ℝ) : m.turn (a + b) = m.turn a + m.turn b := by
  cases m with
  | rotation c t => simp only [Move2.turn, V2.rotation, V2.rotationCS]; ext <;> simp <;> ring
  | translation d => rfl
  | mapping f side => simp only [Move2.turn]; split <;> ext <;> simp [V2.dot] <;> ring

lemma map2_sub (m : Move2) (p q : V2 ℝ) : m.map p - m.map q = m.turn (p - q) := by
  cases m with
  | rotation c t => simp only [Move2.turn, Move2.map, V2.rotation, V2.rotationCS]; ext <;> simp <;> ring
  | translation d => simp only [Move2.turn, Move2.map]; ext <;> simp
  | mapping f side => simp only [Move2.turn, Move2.map]; split <;> ext <;> simp [V2.dot] <;> ring

lemma map2_add (m : Move2) (p v : V2 ℝ) : m.map (p + v) = m.map p + m.turn v := by
  have h := map2_sub m (p + v) p
  have e : p + v - p = v := by ext <;> simp
  rw [e] at h
  rw [← h]
  ext <;> simp

lemma basis2_spec {b : Basis2 ℝ} (h : Orthonormal2 b) :
    V2.cross b.u b.v ^ 2 = 1 ∧ b.v.x = -V2.cross b.u b.v * b.u.y ∧ b.v.y = V2.cross b.u b.v * b.u.x := by
  obtain ⟨h1, h2, h3⟩ := h
  unfold V2.cross
  simp only [V2.dot] at *
  refine ⟨?_, ?_, ?_⟩
  · linear_combination (b.v.x * b.v.x + b.v.y * b.v.y) * h1 + h2 - (b.u.x * b.v.x + b.u.y * b.v.y) * h3
  · linear_combination -b.v.x * h1 + b.u.x * h3
  · linear_combination -b.v.y * h1 + b.u.y * h3

lemma turn2_dot {m : Move2} (h : m.Proper) (a b : V2 ℝ) : V2.dot (m.turn a) (m.turn b) = V2.dot a b := by
  cases m with
  | rotation c t =>
    have := sin_sq_add_cos_sq t
    simp only [Move2.turn, V2.rotation, V2.rotationCS, V2.dot, V2.sub_x, V2.sub_y, sub_zero, add_zero]
    linear_combination (a.x * b.x + a.y * b.y) * this
  | translation d => rfl
  | mapping f side =>
    obtain ⟨hs, hx, hy⟩ := basis2_spec h.1
    obtain ⟨h1, h2, h3⟩ := h.1
    simp only [Move2.turn]
    generalize V2.cross f.basis.u f.basis.v = s at *
    split
    · simp only [V2.dot, V2.add_x, V2.add_y, V2.smul_x, V2.smul_y] at *
      linear_combination a.x * b.x * h1 + a.y * b.y * h2 + (a.x * b.y + a.y * b.x) * h3
    · simp only [V2.dot] at *
      rw [hx, hy]
      linear_combination (a.x * b.x + a.y * b.y) * h1 + (f.basis.u.y * a.x - f.basis.u.x * a.y) * (f.basis.u.y * b.x - f.basis.u.x * b.y) * hs

lemma sign2_sq {m : Move2} (h : m.Proper) : m.sign = 1 ∨ m.sign = -1 := by
  cases m with
  | rotation c t => exact Or.inl rfl
  | translation d => exact Or.inl rfl
  | mapping f side =>
    have := (basis2_spec h.1).1
    have e : (V2.cross f.basis.u f.basis.v - 1) * (V2.cross f.basis.u f.basis.v + 1) = 0 := by linear_combination this
    rcases mul_eq_zero.1 e with e | e
    · exact Or.inl (by change V2.cross _ _ = 1; linarith)
    · exact Or.inr (by change V2.cross _ _ = -1; linarith)

lemma turn2_cross {m : Move2} (h : m.Proper) (a b : V2 ℝ) : V2.cross (m.turn a) (m.turn b) = m.sign * V2.cross a b := by
  cases m with
  | rotation c t =>
    have := sin_sq_add_cos_sq t
    simp only [Move2.turn, Move2.sign, V2.rotation, V2.rotationCS, V2.cross, V2.sub_x, V2.sub_y, sub_zero, add_zero]
    linear_combination (a.x * b.y - a.y * b.x) * this
  | translation d => simp [Move2.turn, Move2.sign]
  | mapping f side =>
    simp only [Move2.turn, Move2.sign, V2.cross]
    split
    · simp only [V2.add_x, V2.add_y, V2.smul_x, V2.smul_y]; ring
    · simp only [V2.dot]; ring

/-! ## The code's moves are these maps -/

lemma globalToLocal2 {b : Basis2 ℝ} (h : Orthonormal2 b) (p : V2 ℝ) : b.globalToLocal p = .ok ⟨V2.dot b.u p, V2.dot b.v p⟩ := by
  have hg : Circle2.Good ⟨⟨⟨0, 0⟩, b⟩, 1⟩ := by
    obtain ⟨h1, h2, h3⟩ := h
    simp only [V2.dot] at *
    exact ⟨by linear_combination h1, by linear_combination h2, h3, one_pos⟩
  have := hg.globalToLocal p
  unfold Frame2.globalToLocal at this
  have e : p - (⟨0, 0⟩ : V2 ℝ) = p := by ext <;> simp
  dsimp only at this
  rw [e] at this
  rw [this]
  simp only [V2.dot, sub_zero, Except.ok.injEq, V2.mk.injEq]
  constructor <;> ring

lemma localToGlobal2 (b : Basis2 ℝ) (p : V2 ℝ) : b.localToGlobal p = V2.smul p.x b.u + V2.smul p.y b.v := by
  unfold Basis2.localToGlobal M22.mulVec Basis2.transfer
  ext <;> simp <;> ring

lemma point2_eq {m : Move2} (h : m.Proper) (p : V2 ℝ) : m.point p = .ok (m.map p) := by
  cases m with
  | rotation c t => rfl
  | translation d => rfl
  | mapping f side =>
    unfold Move2.point Move2.map
    dsimp only
    rcases h.2 with rfl | rfl
    · rw [if_pos rfl, if_pos rfl]
      unfold Frame2.localToGlobal
      rw [localToGlobal2]
      congr 1
      ext <;> simp <;> ring
    · rw [if_neg (show ¬"new" = "old" by decide), if_pos rfl, if_neg (show ¬"new" = "old" by decide)]
      unfold Frame2.globalToLocal
      rw [globalToLocal2 h.1]

/-- C185: a proper move keeps distances, and the code's moves of points are these maps, for every point. -/
theorem C185_points (m : Move2) (h : m.Proper) :
    (∀ p, m.point p = .ok (m.map p)) ∧ (∀ p q, V2.pointDistance (m.map p) (m.map q) = V2.pointDistance p q) := by
  refine ⟨fun p => point2_eq h p, fun p q => ?_⟩
  unfold V2.pointDistance V2.norm
  have e := turn2_dot h (p - q) (p - q)
  rw [map2_sub]
  unfold V2.dot at e
  rw [e]

/-! ## Circles and arcs -/

/-- The centre of rotation is the centre of the circle, or further from it than the tolerance. -/
def Move2.Sharp (m : Move2) (c : Circle2) : Prop :=
  ∀ center angle, m = .rotation center angle → center = c.frame.origin ∨ 1 / 10 ^ 6 < V2.pointDistance center c.frame.origin

/-- The move turns the frame of the circle (it does not when the circle is rotated about another centre: its frame is only displaced). -/
def Move2.Turns (m : Move2) (c : Circle2) : Prop := ∀ center angle, m = .rotation center angle → center = c.frame.origin

lemma isClose2_le (p q : V2 ℝ) : isClose2 p q (1 / 10 ^ 6) ↔ V2.pointDistance p q ≤ 1 / 10 ^ 6 := isClose2_iff (by positivity)

lemma turn2_good {m : Move2} (h : m.Proper) {c : Circle2} (hc : c.Good) (o : V2 ℝ) :
    Circle2.Good ⟨⟨o, ⟨m.turn c.frame.basis.u, m.turn c.frame.basis.v⟩⟩, c.radius⟩ := by
  have huu := turn2_dot h c.frame.basis.u c.frame.basis.u
  have hvv := turn2_dot h c.frame.basis.v c.frame.basis.v
  have huv := turn2_dot h c.frame.basis.u c.frame.basis.v
  obtain ⟨uu, vv, uv, hr⟩ := hc
  simp only [V2.dot] at huu hvv huv
  exact ⟨by dsimp only; linear_combination huu + uu, by dsimp only; linear_combination hvv + vv, by dsimp only; linear_combination huv + uv, hr⟩

/-- The moved circle when its frame turns. -/
lemma moveCircle2_turns {m : Move2} (h : m.Proper) {c : Circle2} (ht : m.Turns c) :
    moveCircle2 m c = .ok ⟨⟨m.map c.frame.origin, ⟨m.turn c.frame.basis.u, m.turn c.frame.basis.v⟩⟩, c.radius⟩ := by
  cases m with
  | rotation center t =>
    have e : center = c.frame.origin := ht center t rfl
    have hcl : isClose2 center c.frame.origin (1 / 10 ^ 6) := by
      rw [isClose2_le, e]
      unfold V2.pointDistance V2.norm
      simp
    unfold moveCircle2 frameRotation2 Move2.map Move2.turn
    dsimp only
    rw [if_pos hcl, if_pos hcl, if_pos rfl]
    have : V2.rotation c.frame.origin center t = c.frame.origin := by
      rw [e]; ext <;> simp [V2.rotation, V2.rotationCS]
    rw [this]
  | translation d => rfl
  | mapping f side =>
    have e := point2_eq h c.frame.origin
    unfold moveCircle2 frameMapping2 Move2.turn
    dsimp only
    rcases h.2 with rfl | rfl
    · rw [if_neg (by decide), if_pos rfl]
      simp only [Move2.point, if_pos] at e
      simp only [localToGlobal2, if_pos]
      rw [Except.ok.inj e]
      rfl
    · simp only [Move2.point] at e
      rw [if_neg (by decide), if_pos trivial] at e
      rw [if_pos rfl, e, globalToLocal2 h.1, globalToLocal2 h.1]
      rfl

/-- The moved circle when it is rotated about another centre. -/
lemma moveCircle2_other {center : V2 ℝ} {t : ℝ} {c : Circle2} (h : 1 / 10 ^ 6 < V2.pointDistance center c.frame.origin) :
    moveCircle2 (.rotation center t) c = .ok ⟨⟨V2.rotation c.frame.origin center t, c.frame.basis⟩, c.radius⟩ := by
  have hcl : ¬isClose2 center c.frame.origin (1 / 10 ^ 6) := by rw [isClose2_le]; exact not_le.2 h
  unfold moveCircle2 frameRotation2
  dsimp only
  rw [if_neg hcl, if_neg hcl, if_neg (by decide)]

lemma rotation2_image {m : Move2} (h : m.Proper) (p o : V2 ℝ) (t : ℝ) :
    V2.rotation (m.map p) (m.map o) (m.sign * t) = m.map (V2.rotation p o t) := by
  have e : ∀ q c : V2 ℝ, ∀ t : ℝ, V2.rotation q c t = c + (V2.smul (cos t) (q - c) + V2.smul (sin t) ⟨-(q - c).y, (q - c).x⟩) := by
    intro q c t
    unfold V2.rotation V2.rotationCS
    ext <;> simp <;> ring
  have k : ∀ v : V2 ℝ, m.turn ⟨-v.y, v.x⟩ = V2.smul m.sign ⟨-(m.turn v).y, (m.turn v).x⟩ := by
    intro v
    cases m with
    | rotation c a => simp only [Move2.turn, Move2.sign, V2.rotation, V2.rotationCS]; ext <;> simp <;> ring
    | translation d => simp only [Move2.turn, Move2.sign]; ext <;> simp
    | mapping f side =>
      obtain ⟨hs, hx, hy⟩ := basis2_spec h.1
      simp only [Move2.turn, Move2.sign]
      generalize V2.cross f.basis.u f.basis.v = s at *
      split
      · ext
        · simp only [V2.add_x, V2.add_y, V2.smul_x, V2.smul_y]; rw [hx, hy]; linear_combination v.y * f.basis.u.x * hs
        · simp only [V2.add_x, V2.add_y, V2.smul_x, V2.smul_y]; rw [hx, hy]; linear_combination v.y * f.basis.u.y * hs
      · ext
        · simp only [V2.smul_x, V2.dot]; rw [hx, hy]; linear_combination (f.basis.u.x * v.y - f.basis.u.y * v.x) * hs
        · simp only [V2.smul_y, V2.dot]; rw [hx, hy]; ring
  rw [e, e, map2_add, map2_sub, turn2_add, turn2_smul, turn2_smul, k]
  rcases sign2_sq h with hs | hs <;> rw [hs]
  · simp only [one_mul]
    ext <;> simp
  · simp only [neg_mul, one_mul, cos_neg, sin_neg]
    ext <;> simp

/-- C185: a circle is carried along as a set of points by every proper move: its frame stays orthonormal, the radius is kept, the point at an
angle goes to the point at the same angle, or at the angle increased by a constant (a rotation about another centre). -/
theorem C185_circle_points (m : Move2) (h : m.Proper) (c : Circle2) (hc : c.Good) (hs : m.Sharp c) :
    ∃ c' d, moveCircle2 m c = .ok c' ∧ c'.Good ∧ c'.radius = c.radius ∧ c'.frame.origin = m.map c.frame.origin ∧
      (∀ t, c'.at (t + d) = m.map (c.at t)) ∧ (m.Turns c → d = 0) := by
  have at_eq : ∀ (c : Circle2) (t : ℝ), c.at t = c.frame.origin + V2.smul c.radius (V2.smul (cos t) c.frame.basis.u + V2.smul (sin t) c.frame.basis.v) := by
    intro c t
    unfold Circle2.at
    ext <;> simp <;> ring
  by_cases ht : m.Turns c
  · refine ⟨_, 0, moveCircle2_turns h ht, turn2_good h hc _, rfl, rfl, fun t => ?_, fun _ => rfl⟩
    rw [at_eq, at_eq, map2_add, turn2_smul, turn2_add, turn2_smul, turn2_smul, add_zero]
  · unfold Move2.Turns at ht
    push Not at ht
    obtain ⟨center, a, rfl, hne⟩ := ht
    rcases hs center a rfl with e | e
    · exact absurd e hne
    · refine ⟨_, c.sign * a, moveCircle2_other e, ⟨hc.uu, hc.vv, hc.uv, hc.pos⟩, rfl, rfl, fun t => ?_, fun ht => absurd (ht center a rfl) hne⟩
      have := hc.rotation_at t a
      rw [at_eq c t, map2_add]
      obtain ⟨hs, hx, hy⟩ := hc.sign_spec
      rw [at_eq]
      dsimp only [Move2.map, Move2.turn]
      unfold V2.rotation V2.rotationCS
      generalize c.sign = s at *
      ext
      · simp only [V2.add_x, V2.add_y, V2.sub_x, V2.sub_y, V2.smul_x, V2.smul_y, hx, hy]
        rcases hs with e | e <;> rw [e] <;> simp only [one_mul, neg_mul, cos_add, sin_add, cos_neg, sin_neg] <;> ring
      · simp only [V2.add_x, V2.add_y, V2.sub_x, V2.sub_y, V2.smul_x, V2.smul_y, hx, hy]
        rcases hs with e | e <;> rw [e] <;> simp only [one_mul, neg_mul, cos_add, sin_add, cos_neg, sin_neg] <;> ring

/-- C185, full statement about circles as curves: the point at every abscissa goes where the move takes it. -/
def C185_circle_full_statement : Prop :=
  ∀ (m : Move2), m.Proper → ∀ (c : Circle2), c.Good → m.Sharp c →
    ∃ c', moveCircle2 m c = .ok c' ∧ ∀ s, c'.pointAtAbscissa s = m.map (c.pointAtAbscissa s)

/-- C185: true of translations, mappings, and rotations about the circle's own centre. -/
theorem C185_circle_partial (m : Move2) (h : m.Proper) (c : Circle2) (ht : m.Turns c) :
    ∃ c', moveCircle2 m c = .ok c' ∧ ∀ s, c'.pointAtAbscissa s = m.map (c.pointAtAbscissa s) := by
  refine ⟨_, moveCircle2_turns h ht, fun s => ?_⟩
  unfold Circle2.pointAtAbscissa
  dsimp only
  rw [turn2_cross h, ← rotation2_image h, map2_add, turn2_smul]
  congr 1
  ring

/-- C185: false of a rotation about another centre: the frame is displaced, not turned, so the start of the circle is not the turned start. -/
theorem C185_circle_counterexample : ¬C185_circle_full_statement := by
  intro hf
  have hsh : (Move2.rotation ⟨5, 0⟩ (π / 2)).Sharp Arc.unitCircle := by
    intro center a e
    injection e with e1 e2
    subst e1
    right
    unfold Arc.unitCircle V2.pointDistance V2.norm
    rw [Real.lt_sqrt (by positivity)]
    norm_num
  obtain ⟨c', h1, h2⟩ := hf (.rotation ⟨5, 0⟩ (π / 2)) trivial Arc.unitCircle Arc.unitCircle_good hsh
  rcases hsh _ _ rfl with e | e
  · have := congrArg V2.x e
    norm_num [Arc.unitCircle] at this
  · rw [moveCircle2_other e] at h1
    obtain rfl := Except.ok.inj h1
    have := congrArg V2.x (h2 0)
    simp [Circle2.pointAtAbscissa, Move2.map, V2.rotation, V2.rotationCS, Arc.unitCircle] at this

/-- The arc `a'` is the arc `a` carried along by the move: ends, length, and the point at every abscissa. -/
def Carried2 (m : Move2) (a a' : Arc2) : Prop :=
  a'.start = m.map a.start ∧ a'.fin = m.map a.fin ∧ a'.circle.frame.origin = m.map a.circle.frame.origin ∧ a'.circle.radius = a.circle.radius ∧
    a'.length = a.length ∧ ∀ s, a'.pointAtAbscissa s = m.map (a.pointAtAbscissa s)

lemma pointAngle2_image {m : Move2} (h : m.Proper) {c : Circle2} (hc : c.Good) (p : V2 ℝ) :
    Circle2.pointAngle ⟨⟨m.map c.frame.origin, ⟨m.turn c.frame.basis.u, m.turn c.frame.basis.v⟩⟩, c.radius⟩ (m.map p) = c.pointAngle p := by
  unfold Circle2.pointAngle
  rw [(turn2_good h hc _).globalToLocal, hc.globalToLocal]
  dsimp only
  have h1 := turn2_dot h (p - c.frame.origin) c.frame.basis.u
  have h2 := turn2_dot h (p - c.frame.origin) c.frame.basis.v
  rw [← map2_sub] at h1 h2
  simp only [V2.dot, V2.sub_x, V2.sub_y] at h1 h2
  rw [h1, h2]

/-- The points of two arcs at every abscissa, when the ends, centres and orientations correspond. -/
lemma pointAtAbscissa_image {m : Move2} (h : m.Proper) {a a' : Arc2} (hc : a.circle.Good) (hc' : a'.circle.Good)
    (h1 : a'.start = m.map a.start) (h2 : a'.circle.frame.origin = m.map a.circle.frame.origin) (h3 : a'.circle.radius = a.circle.radius)
    (h4 : a'.circle.sign = m.sign * a.circle.sign) (s : ℝ) : a'.pointAtAbscissa s = m.map (a.pointAtAbscissa s) := by
  have key : ∀ b : Arc2, b.circle.Good → b.pointAtAbscissa s = V2.rotation b.start b.circle.frame.origin (b.circle.sign * (s / b.circle.radius)) := by
    intro b hb
    unfold Arc2.pointAtAbscissa
    by_cases ht : b.circle.IsTrigo
    · rw [if_pos ht, hb.trigo_iff.1 ht, one_mul]
    · rw [if_neg ht, hb.not_trigo_iff.1 ht]; congr 1; ring
  rw [key a hc, key a' hc', ← rotation2_image h, h1, h2, h3, h4]
  congr 1
  ring

/-- C185: the arc between any two points of a circle is carried along by translations, mappings (by a direct frame or not), and rotations about
the circle's own centre; the angles do not change. -/
theorem C185_arc_turned (m : Move2) (h : m.Proper) (c : Circle2) (hc : c.Good) (p q : V2 ℝ) (arc : Arc2) (ha : Arc2.make c p q = .ok arc)
    (ht : m.Turns c) :
    ∃ arc', moveArc2 m arc = .ok arc' ∧ Carried2 m arc arc' ∧ arc'.angleStart = arc.angleStart ∧ arc'.angleEnd = arc.angleEnd := by
  obtain ⟨a, b, hp, hq, rfl⟩ := make2_spec ha
  refine ⟨⟨⟨⟨m.map c.frame.origin, ⟨m.turn c.frame.basis.u, m.turn c.frame.basis.v⟩⟩, c.radius⟩, m.map p, m.map q, a, endAfter a b⟩, ?_,
    ⟨rfl, rfl, rfl, rfl, rfl, fun s => ?_⟩, rfl, rfl⟩
  · unfold moveArc2
    dsimp only
    rw [moveCircle2_turns h ht, point2_eq h, point2_eq h]
    simp only [bind, Except.bind]
    unfold Arc2.make
    rw [pointAngle2_image h hc, pointAngle2_image h hc, hp, hq]
    rfl
  · refine pointAtAbscissa_image (a := ⟨c, p, q, a, endAfter a b⟩)
      (a' := ⟨⟨⟨m.map c.frame.origin, ⟨m.turn c.frame.basis.u, m.turn c.frame.basis.v⟩⟩, c.radius⟩, m.map p, m.map q, a, endAfter a b⟩)
      h hc (turn2_good h hc _) rfl rfl rfl ?_ s
    unfold Circle2.sign
    exact turn2_cross h _ _

/-- C185: an arc between points at angles `a`, `b` is also carried along by a rotation about another centre; its angles then change to `a'`, `b'`.
Missing: angles in the snapping zone of `sin_cos_angle`, where the length may change by `2π·1e-9` of the radius (the points at every abscissa do
not), and centres within the tolerance of the centre of the circle, without being it. -/
theorem C185_arc_partial (center : V2 ℝ) (t : ℝ) (c : Circle2) (hc : c.Good) (hne : 1 / 10 ^ 6 < V2.pointDistance center c.frame.origin)
    (a b : ℝ) (ha : Clear a) (hb : Clear b) (arc : Arc2) (h : Arc2.make c (c.at a) (c.at b) = .ok arc) (a' b' : ℝ) (ha' : Clear a') (hb' : Clear b')
    (n k : ℤ) (h1 : a' = a + c.sign * t + n * (2 * π)) (h2 : b' = b + c.sign * t + k * (2 * π)) :
    ∃ arc', moveArc2 (.rotation center t) arc = .ok arc' ∧ Carried2 (.rotation center t) arc arc' ∧ arc'.angleStart = a' := by
  have hm : (Move2.rotation center t).Proper := trivial
  rw [make_clear hc ha hb] at h
  obtain rfl := Except.ok.inj h
  have hsh : (Move2.rotation center t).Sharp c := by
    intro x y e
    injection e with e1 e2
    subst e1
    exact Or.inr hne
  obtain ⟨c', d, e1, e2, e3, e4, e5, -⟩ := C185_circle_points _ hm c hc hsh
  rw [moveCircle2_other hne] at e1
  have e1' := Except.ok.inj e1
  have at_moved : ∀ x y : ℝ, ∀ j : ℤ, y = x + c.sign * t + j * (2 * π) → c'.at y = Move2.map (.rotation center t) (c.at x) := by
    intro x y j hy
    have hr := hc.rotation_at x t
    have : c'.at y = c'.at (x + c.sign * t) := (e2.at_eq_iff).2 ⟨j, hy⟩
    rw [this]
    obtain ⟨hs, hx, hy⟩ := hc.sign_spec
    rw [← e1']
    unfold Move2.map Circle2.at V2.rotation V2.rotationCS
    dsimp only
    rw [hx, hy]
    ext
    · simp only [V2.sub_x, V2.sub_y]
      rcases hs with e | e <;> rw [e] <;> simp only [one_mul, neg_mul, cos_add, sin_add, cos_neg, sin_neg] <;> ring
    · simp only [V2.sub_x, V2.sub_y]
      rcases hs with e | e <;> rw [e] <;> simp only [one_mul, neg_mul, cos_add, sin_add, cos_neg, sin_neg] <;> ring
  have sg : c'.sign = c.sign := by rw [← e1']; rfl
  refine ⟨⟨c', c'.at a', c'.at b', a', endAfter a' b'⟩, ?_, ⟨at_moved a a' n h1, at_moved b b' k h2, e4, e3, ?_, fun s => ?_⟩, rfl⟩
  · unfold moveArc2
    dsimp only
    rw [moveCircle2_other hne, e1', point2_eq hm, point2_eq hm, ← at_moved a a' n h1, ← at_moved b b' k h2]
    simp only [bind, Except.bind]
    exact make_clear e2 ha' hb'
  · unfold Arc2.length Arc2.angle
    dsimp only
    rw [e3]
    obtain ⟨g1, g2, j, g3⟩ := endAfter_range ha.1 ha.lt hb.1 hb.lt
    have : endAfter a' b' - a' = endAfter a b - a := by
      refine angle_eq ha'.1 ha'.lt hb'.1 hb'.lt g1 g2 (k - n - j) ?_
      rw [g3, h1, h2]; push_cast; ring
    rw [this]
  · exact pointAtAbscissa_image hm hc e2 (at_moved a a' n h1) e4 e3 (by dsimp only; rw [sg]; simp [Move2.sign]) s

/-! ## C186: ellipses -/

/-- The point of an ellipse at an angle. -/
noncomputable def Ellipse2.at (e : Ellipse2) (t : ℝ) : V2 ℝ :=
  e.frame.origin + V2.smul (e.majorAxis * cos t) e.frame.basis.u + V2.smul (e.minorAxis * sin t) e.frame.basis.v

/-- The point of an ellipse of space at an angle. -/
noncomputable def Ellipse3.at (e : Ellipse3) (t : ℝ) : V3 ℝ :=
  e.frame.origin + V3.smul (e.majorAxis * cos t) e.frame.basis.u + V3.smul (e.minorAxis * sin t) e.frame.basis.v

/-- C186: an ellipse of the plane, direct or not, is carried along by every proper move: axes kept, the point at every angle goes where the move
takes it (`rotation` computes the minor direction again from the major one: it is the turned one, for indirect frames too). -/
theorem C186_ellipse2 (m : Move2) (h : m.Proper) (e : Ellipse2) (ho : Orthonormal2 e.frame.basis) (hp : 0 < e.majorAxis) :
    ∃ e', moveEllipse2 m e = .ok e' ∧ e'.majorAxis = e.majorAxis ∧ e'.minorAxis = e.minorAxis ∧ Orthonormal2 e'.frame.basis ∧
      ∀ t, e'.at t = m.map (e.at t) := by
  have key : Orthonormal2 ⟨m.turn e.frame.basis.u, m.turn e.frame.basis.v⟩ := by
    obtain ⟨h1, h2, h3⟩ := ho
    exact ⟨by rw [turn2_dot h, h1], by rw [turn2_dot h, h2], by rw [turn2_dot h, h3]⟩
  have main : ∀ t, Ellipse2.at ⟨e.majorAxis, e.minorAxis, ⟨m.map e.frame.origin, ⟨m.turn e.frame.basis.u, m.turn e.frame.basis.v⟩⟩⟩ t = m.map (e.at t) := by
    intro t
    unfold Ellipse2.at
    rw [map2_add, map2_add, turn2_smul, turn2_smul]
  refine ⟨⟨e.majorAxis, e.minorAxis, ⟨m.map e.frame.origin, ⟨m.turn e.frame.basis.u, m.turn e.frame.basis.v⟩⟩⟩, ?_, rfl, rfl, key, main⟩
  obtain ⟨hs, hx, hy⟩ := basis2_spec ho
  cases m with
  | rotation center a =>
    unfold moveEllipse2
    dsimp only
    have e1 : V2.rotation (e.frame.origin + V2.smul e.majorAxis e.frame.basis.u) center a - V2.rotation e.frame.origin center a =
        V2.smul e.majorAxis (Move2.turn (.rotation center a) e.frame.basis.u) := by
      have := map2_sub (.rotation center a) (e.frame.origin + V2.smul e.majorAxis e.frame.basis.u) e.frame.origin
      dsimp only [Move2.map] at this
      rw [this, ← turn2_smul]
      congr 1
      ext <;> simp
    have e2 : V2.unitVector (V2.smul e.majorAxis (Move2.turn (.rotation center a) e.frame.basis.u)) = some (Move2.turn (.rotation center a) e.frame.basis.u) := by
      have hu := key.1
      dsimp only at hu
      generalize Move2.turn (.rotation center a) e.frame.basis.u = u at *
      have hn : V2.norm (V2.smul e.majorAxis u) = e.majorAxis := by
        unfold V2.norm
        rw [show (V2.smul e.majorAxis u).x * (V2.smul e.majorAxis u).x + (V2.smul e.majorAxis u).y * (V2.smul e.majorAxis u).y = e.majorAxis ^ 2 from by
          simp only [V2.smul_x, V2.smul_y]; unfold V2.dot at hu; linear_combination e.majorAxis ^ 2 * hu]
        exact Real.sqrt_sq hp.le
      unfold V2.unitVector
      rw [hn, if_neg hp.ne']
      congr 1
      ext <;> simp <;> field_simp
    rw [e1, e2]
    dsimp only
    have e3 : (if 0 < V2.cross e.frame.basis.u e.frame.basis.v then V2.normalVector (Move2.turn (.rotation center a) e.frame.basis.u)
        else -V2.normalVector (Move2.turn (.rotation center a) e.frame.basis.u)) = Move2.turn (.rotation center a) e.frame.basis.v := by
      generalize V2.cross e.frame.basis.u e.frame.basis.v = s at *
      have e : (s - 1) * (s + 1) = 0 := by linear_combination hs
      unfold Move2.turn V2.rotation V2.rotationCS V2.normalVector
      rcases mul_eq_zero.1 e with e | e
      · have : s = 1 := by linarith
        subst this
        rw [if_pos one_pos]
        ext <;> simp [hx, hy] <;> ring
      · have : s = -1 := by linarith
        subst this
        rw [if_neg (by norm_num)]
        ext <;> simp [hx, hy] <;> ring
    rw [e3]
    rfl
  | translation d => rfl
  | mapping f side =>
    have hg := moveCircle2_turns h (c := ⟨e.frame, e.majorAxis⟩) (fun _ _ e => by cases e)
    unfold moveCircle2 at hg
    unfold moveEllipse2
    dsimp only at hg ⊢
    cases hx : frameMapping2 e.frame f side with
    | error x => rw [hx] at hg; cases hg
    | ok g =>
      rw [hx] at hg
      have := Except.ok.inj hg
      injection this with h1 h2
      simp only [Except.map, Except.ok.injEq, Ellipse2.mk.injEq, true_and]
      exact h1

/-- C186: an ellipse of space is carried along by every proper move in which nothing of its frame is rounded. -/
theorem C186_ellipse3_partial (m : Move) (h : m.Proper) (e : Ellipse3) (hd : DirectOrthonormal e.frame.basis) (hs : m.SharpFrame e.frame) :
    ∃ e', moveEllipse3 m e = .ok e' ∧ e'.majorAxis = e.majorAxis ∧ e'.minorAxis = e.minorAxis ∧ DirectOrthonormal e'.frame.basis ∧
      ∀ t, e'.at t = m.map (e.at t) := by
  refine ⟨⟨e.majorAxis, e.minorAxis, m.image e.frame⟩, ?_, rfl, rfl, turn_direct h hd, fun t => ?_⟩
  · unfold moveEllipse3
    rw [frame_sharp h hs]
    rfl
  · unfold Ellipse3.at Move.image
    dsimp only
    rw [map_add, map_add, turn_smul, turn_smul]

/-- The hypotheses are met: an indirect frame for the mapping, a rotation of the unit circle about another centre with the angles it gives, an
ellipse of an indirect frame. -/
example : (Move2.mapping ⟨⟨1, 2⟩, ⟨⟨0, 1⟩, ⟨1, 0⟩⟩⟩ "old").Proper ∧ (Move2.mapping ⟨⟨1, 2⟩, ⟨⟨0, 1⟩, ⟨1, 0⟩⟩⟩ "old").Turns Arc.unitCircle ∧
    (∃ (a b a' b' : ℝ) (n k : ℤ), Clear a ∧ Clear b ∧ Clear a' ∧ Clear b' ∧ a' = a + Arc.unitCircle.sign * (3 * π / 2) + n * (2 * π) ∧
      b' = b + Arc.unitCircle.sign * (3 * π / 2) + k * (2 * π)) ∧ 1 / 10 ^ 6 < V2.pointDistance ⟨3, 4⟩ Arc.unitCircle.frame.origin ∧
    Orthonormal2 ⟨⟨0, 1⟩, ⟨1, 0⟩⟩ := by
  have hpi := pi_pos
  have hsg : Arc.unitCircle.sign = 1 := by norm_num [Arc.unitCircle, Circle2.sign, V2.cross]
  refine ⟨⟨by norm_num [Orthonormal2, V2.dot], Or.inl rfl⟩, (fun _ _ e => by cases e), ⟨π / 4, π, 7 * π / 4, π / 2, 0, -1, ?_, ?_, ?_, ?_, ?_, ?_⟩, ?_, ?_⟩
  · constructor <;> nlinarith
  · constructor <;> nlinarith
  · constructor <;> nlinarith
  · constructor <;> nlinarith
  · rw [hsg]; push_cast; ring
  · rw [hsg]; push_cast; ring
  · unfold Arc.unitCircle V2.pointDistance V2.norm
    rw [Real.lt_sqrt (by positivity)]
    norm_num
  · norm_num [Orthonormal2, V2.dot]

end Volmdlr.Motion
