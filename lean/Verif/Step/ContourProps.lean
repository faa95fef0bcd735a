import Verif.Step.EdgeProps
import Verif.Arc.BoxProps

/-!
# Edges (what is lost) and contours of a STEP file (C144)
-/

namespace Volmdlr.StepGeo

open Volmdlr.Arc Volmdlr.Shells Volmdlr.Angle

/-- **C144, meaning of `SameCircle`.**  The two circles have the same points, run through in the same direction: one turns by a
fixed angle the origin of the angles of the other one. -/
theorem C144_same_circle {k k' : Circle3} (hk : k.Good) (h : SameCircle k k') : ∃ a, ∀ t, k'.at t = k.at (t + a) := by
  obtain ⟨ho, hw, hr, hk'⟩ := h
  obtain ⟨c1, -, -⟩ := direct_cross hk.direct
  obtain ⟨d1, -, -⟩ := direct_cross hk'.direct
  obtain ⟨c2, c3, c4⟩ := direct_cross hk.direct
  obtain ⟨uu, vv, ww, uv, uw, vw, -⟩ := hk.direct
  obtain ⟨uu', vv', ww', uv', uw', vw', -⟩ := hk'.direct
  rw [hw] at d1 uw'
  set u := k.frame.basis.u
  set v := k.frame.basis.v
  set w := k.frame.basis.w
  set u' := k'.frame.basis.u
  have hexp : u' = V3.smul (V3.dot u' u) u + V3.smul (V3.dot u' v) v := by
    have hx := congrArg V3.x c4
    have hy := congrArg V3.y c4
    have hz := congrArg V3.z c4
    have ax := congrArg V3.x c2
    have ay := congrArg V3.y c2
    have az := congrArg V3.z c2
    have bx := congrArg V3.x c3
    have by' := congrArg V3.y c3
    have bz := congrArg V3.z c3
    simp only [V3.dot, V3.cross, V3.neg_x, V3.neg_y, V3.neg_z] at *
    ext <;> simp only [V3.add_x, V3.add_y, V3.add_z, V3.smul_x, V3.smul_y, V3.smul_z] <;> grind
  have hone : V3.dot u' u ^ 2 + V3.dot u' v ^ 2 = 1 := by
    have : V3.dot u' u' = V3.dot u' u ^ 2 + V3.dot u' v ^ 2 := by
      conv_lhs => rw [hexp]
      generalize V3.dot u' u = a
      generalize V3.dot u' v = b
      simp only [V3.dot, V3.add_x, V3.add_y, V3.add_z, V3.smul_x, V3.smul_y, V3.smul_z] at *
      linear_combination a ^ 2 * uu + b ^ 2 * vv + 2 * a * b * uv
    rw [← this, uu']
  obtain ⟨p1, p2⟩ := Volmdlr.Surface.polar (V3.dot u' u) (V3.dot u' v)
  rw [hone, Real.sqrt_one, one_mul] at p1 p2
  generalize atan2 (V3.dot u' v) (V3.dot u' u) = a at *
  refine ⟨a, fun t => ?_⟩
  have hv' : k'.frame.basis.v = V3.smul (Real.cos a) v - V3.smul (Real.sin a) u := by
    rw [← d1, hexp, ← p1, ← p2]
    have ax := congrArg V3.x c2
    have ay := congrArg V3.y c2
    have az := congrArg V3.z c2
    have bx := congrArg V3.x c3
    have by' := congrArg V3.y c3
    have bz := congrArg V3.z c3
    simp only [V3.cross, V3.neg_x, V3.neg_y, V3.neg_z] at ax ay az bx by' bz
    ext <;> simp only [V3.cross, V3.sub_x, V3.sub_y, V3.sub_z, V3.add_x, V3.add_y, V3.add_z, V3.smul_x, V3.smul_y, V3.smul_z]
    · linear_combination Real.cos a * ax + Real.sin a * bx
    · linear_combination Real.cos a * ay + Real.sin a * by'
    · linear_combination Real.cos a * az + Real.sin a * bz
  unfold Circle3.at
  rw [ho, hr, hv', show k'.frame.basis.u = u' from rfl, hexp, ← p1, ← p2, Real.cos_add, Real.sin_add]
  ext <;> simp only [V3.sub_x, V3.sub_y, V3.sub_z, V3.add_x, V3.add_y, V3.add_z, V3.smul_x, V3.smul_y, V3.smul_z] <;> ring

/-! ## What is lost -/

/-- C144 as it should be for edges: no condition on the distance of the ends of an arc nor on the weights. -/
def C144_edge_full_statement : Prop :=
  ∀ (twin : Edge → Edge → Prop) (e : Edge) (c : ℕ),
    (match e with
      | .segment p q s f => p ≠ q ∧ s ≠ f
      | .arc k s f => k.Good ∧ (∃ t, s = k.at t) ∧ (∃ t, f = k.at t) ∧ s ≠ f
      | .fullArc k s => k.Good ∧ ∃ t, s = k.at t
      | .bspline b => b.ctrlpts ≠ [] ∧ b.knots.headD 0 = 0 ∧ b.knots.getLastD 0 = 1 ∧ ¬ bsplinePeriodic b) →
    ∃ w, e.toStep c = .ok w ∧ Reads (exportReader twin) c w (fun v => ∃ e', v = .edge (some e') ∧ SameEdge e e')

/-- **C144, counterexample.**  The weights of a rational B-spline curve are not in the file: it is read as the curve without
weights. -/
theorem C144_weights_counterexample (twin : Edge → Edge → Prop) (b : BCurve ℝ (V3 ℝ)) (wts : List ℝ) (hw : b.weights = some wts)
    (hs : (Edge.bspline { b with weights := none }).Sound) (c : ℕ) :
    ∃ w, (Edge.bspline b).toStep c = .ok w ∧
      Reads (exportReader twin) c w (fun v => ∃ e', v = .edge (some e') ∧ SameEdge (.bspline { b with weights := none }) e' ∧ e' ≠ .bspline b) := by
  obtain ⟨w, h1, h2, h3⟩ := C144_edge_partial twin _ hs c
  refine ⟨w, h1, h2, fun D => ?_⟩
  obtain ⟨D', r, k, v, e, e', rfl, hs'⟩ := h3 D
  refine ⟨D', r, k, _, e, e', rfl, hs', ?_⟩
  rintro rfl
  have : b = { b with weights := none } := hs'
  rw [this] at hw
  cases hw

/-- **C144, counterexample.**  An arc whose ends are at most `1e-7` apart is read as a full circle. -/
theorem C144_short_arc_counterexample (twin : Edge → Edge → Prop) (k : Circle3) (hk : k.Good) (t1 t2 : ℝ)
    (hnear : V3.pointDistance (k.at t1) (k.at t2) ≤ 1 / 10 ^ 7) (c : ℕ) :
    ∃ w, (Edge.arc k (k.at t1) (k.at t2)).toStep c = .ok w ∧
      Reads (exportReader twin) c w (fun v => ∃ k', v = .edge (some (.fullArc k' (k.at t1))) ∧ SameCircle k k') := by
  refine ⟨_, rfl, ?_⟩
  have hc := circle_reads twin k hk c
  have hs := C143_point twin (k.at t1) true ((frameToStep k.frame c).2 + 1)
  have hf := C143_point twin (k.at t2) true (pointToStep (k.at t1) true ((frameToStep k.frame c).2 + 1)).2
  refine ⟨by have := hc.1; have := hs.1; have := hf.1; simp only at *; omega, fun D => ?_⟩
  obtain ⟨D1, r1, k1, v1, e1, k', rfl, hkk⟩ := hc.2 D
  obtain ⟨D2, r2, k2, ⟨v2, e2, rfl⟩, v3, e3, rfl⟩ := hs.seq hf D1
  have b1 := at_belongs hk hkk t1 (1 / 10 ^ 5) (by norm_num)
  have b2 := at_belongs hk hkk t2 (1 / 10 ^ 5) (by norm_num)
  have hclose : isClose3 (k.at t1) (k.at t2) (exportReader twin).tol := by
    rw [exportTol, isClose3_iff (by norm_num)]
    exact hnear
  obtain ⟨D', s1, s2, s3, -⟩ := Reads.step (c := c) (n := (pointToStep (k.at t2) true (pointToStep (k.at t1) true ((frameToStep k.frame c).2 + 1)).2).2 + 1)
    (body := .edgeCurve (pointToStep (k.at t1) true ((frameToStep k.frame c).2 + 1)).2
      (pointToStep (k.at t2) true (pointToStep (k.at t1) true ((frameToStep k.frame c).2 + 1)).2).2 ((frameToStep k.frame c).2 + 1) true)
    (v := .edge (some (.fullArc k' (k.at t1))))
    (readAll_append _ r1 r2) (fun m hm => by rw [k2 m (by have := hc.1; simp only at this; omega), k1 m hm])
    (by have := hc.1; have := hs.1; have := hf.1; simp only at *; omega)
    (by
      have e1' := e1
      simp only at e1'
      simp only [readEnt, readEdge, k2 _ le_rfl, e1', getPoint, e2, e3, Except.bind, readEdgeCurve, trimCircle, if_true,
        if_pos (And.intro b1 b2), if_pos hclose, Except.map])
  exact ⟨D', s1, s2, _, s3, _, rfl, hkk⟩

/-- **C144, counterexample** to the full statement. -/
theorem C144_edge_counterexample : ¬ C144_edge_full_statement := by
  intro h
  have hd : V3.pointDistance (unitCircle3.at 0) (unitCircle3.at (1 / 10 ^ 8)) ≤ 1 / 10 ^ 7 := by
    unfold V3.pointDistance V3.norm
    rw [Real.sqrt_le_left (by norm_num)]
    simp only [unitCircle3, Circle3.at, V3.sub_x, V3.sub_y, V3.sub_z, V3.add_x, V3.add_y, V3.add_z, V3.smul_x, V3.smul_y, V3.smul_z,
      Real.cos_zero, Real.sin_zero]
    have h1 := Real.one_sub_sq_div_two_le_cos (x := 1 / 10 ^ 8)
    have h2 := Real.sin_sq_add_cos_sq (1 / 10 ^ 8 : ℝ)
    nlinarith
  have hne : unitCircle3.at 0 ≠ unitCircle3.at (1 / 10 ^ 8) := by
    intro h0
    have := congrArg V3.y h0
    simp only [unitCircle3, Circle3.at, V3.add_y, V3.smul_y, Real.sin_zero] at this
    have hp : 0 < Real.sin (1 / 10 ^ 8) := Real.sin_pos_of_pos_of_lt_pi (by norm_num) (by have := Real.pi_gt_three; linarith)
    simp at this
    simp at hp
    linarith
  obtain ⟨w, hw, -, H⟩ := h (fun _ _ => False) (.arc unitCircle3 (unitCircle3.at 0) (unitCircle3.at (1 / 10 ^ 8))) 0
    ⟨unitCircle3_good, ⟨_, rfl⟩, ⟨_, rfl⟩, hne⟩
  obtain ⟨w', hw', -, H'⟩ := C144_short_arc_counterexample (fun _ _ => False) unitCircle3 unitCircle3_good 0 (1 / 10 ^ 8) hd 0
  rw [hw] at hw'
  cases hw'
  obtain ⟨D1, r1, -, v1, e1, a, rfl, ha⟩ := H fun _ => none
  obtain ⟨D2, r2, -, v2, e2, b, rfl, hb⟩ := H' fun _ => none
  rw [r1] at r2
  cases r2
  rw [e1] at e2
  cases e2
  exact ha

/-! ## Contours -/

lemma SameEdge.ends {e e' : Edge} (h : SameEdge e e') : e'.start = e.start ∧ e'.fin = e.fin := by
  cases e <;> cases e' <;> simp only [SameEdge] at h
  · obtain ⟨rfl, rfl, -⟩ := h; exact ⟨rfl, rfl⟩
  · obtain ⟨-, rfl, rfl⟩ := h; exact ⟨rfl, rfl⟩
  · obtain ⟨-, rfl⟩ := h; exact ⟨rfl, rfl⟩
  · obtain ⟨-, h, -, -⟩ := h; simp [Edge.start, Edge.fin, h]
  · subst h; exact ⟨rfl, rfl⟩

lemma contourLoop_reads (twin : Edge → Edge → Prop) (l : List Edge) (hl : ∀ e ∈ l, e.Sound) (c : ℕ) :
    ∃ r, contourLoop l c = .ok r ∧ (c ≤ r.2.2 ∧ ∀ n ∈ r.2.1, n ≤ r.2.2) ∧
    ∀ D : Dict, ∃ D' l', readAll (exportReader twin) D r.1 = .ok D' ∧ (∀ n ≤ c, D' n = D n) ∧
      getAll (getEdge D') r.2.1 = .ok (l'.map some) ∧ List.Forall₂ SameEdge l l' := by
  induction l generalizing c with
  | nil => exact ⟨([], [], c), rfl, ⟨le_rfl, by simp⟩, fun D => ⟨D, [], rfl, fun _ _ => rfl, rfl, .nil⟩⟩
  | cons e es ih =>
    obtain ⟨w, hw, h1, H⟩ := C144_edge_partial twin e (hl e (by simp)) c
    obtain ⟨r, hr, ⟨i1, i2⟩, I⟩ := ih (fun x hx => hl x (by simp [hx])) (w.2 + 1)
    refine ⟨_, by simp only [contourLoop, hw, hr]; rfl, ⟨by simp only; omega, ?_⟩, fun D => ?_⟩
    · intro n hn
      simp only [List.mem_cons] at hn ⊢
      rcases hn with rfl | hn
      · exact i1
      · exact i2 n hn
    · obtain ⟨D1, r1, k1, v1, e1, e', rfl, hsame⟩ := H D
      obtain ⟨D2, r2, k2, e2, -⟩ := Reads.step (c := c) (n := w.2 + 1) (body := .orientedEdge w.2 true) (v := .edge (some e')) r1 k1
        (by omega) (by simp only [readEnt, if_true, getEdge, e1, Except.map])
      obtain ⟨D3, l', r3, k3, g3, f3⟩ := I D2
      refine ⟨D3, e' :: l', readAll_append _ r2 r3, fun n hn => by rw [k3 n (by omega), k2 n hn], ?_, .cons hsame f3⟩
      exact getAll_cons (by simp only [getEdge, k3 _ le_rfl, e2]) g3

lemma chained_same {l l' : List Edge} (h : List.Forall₂ SameEdge l l') (hc : chained l) : chained l' := by
  induction h with
  | nil => trivial
  | cons h1 h2 ih =>
    cases h2 with
    | nil => trivial
    | cons h3 h4 =>
      simp only [chained] at hc ⊢
      exact ⟨by rw [h1.ends.2, h3.ends.1]; exact hc.1, ih hc.2⟩

lemma getLast_same {l l' : List Edge} (h : List.Forall₂ SameEdge l l') {a a' : Edge} (ha : SameEdge a a') :
    SameEdge (l.getLastD a) (l'.getLastD a') := by
  induction h generalizing a a' with
  | nil => simpa using ha
  | cons h1 h2 ih => simpa only [List.getLastD_cons] using ih h1

/-- The condition of the reader on a contour that is the same as an ordered contour. -/
lemma ordered_read {twin : Edge → Edge → Prop} {l l' : List Edge} (hl : Ordered twin l) (h : List.Forall₂ SameEdge l l') :
    readLoop (exportReader twin) (l'.map some) = .ok l' := by
  obtain ⟨hne, -, hord⟩ := hl
  have hraw : (l'.map some).filterMap id = l' := by simp [List.filterMap_map]
  unfold readLoop
  dsimp only
  rw [hraw]
  cases h with
  | nil => exact absurd rfl hne
  | @cons a a' m m' h1 h2 =>
    cases h2 with
    | nil => simp
    | @cons b b' m m' h3 h4 =>
      obtain ⟨o1, o2, o3⟩ := hord a b m rfl
      rw [if_neg (by simp), if_pos]
      refine ⟨by simp, ?_, chained_same (.cons h1 (.cons h3 h4)) o1, ?_⟩
      · intro x y hxy
        simp only [List.cons.injEq] at hxy
        obtain ⟨rfl, rfl, rfl⟩ := hxy
        cases h4
        exact o3 rfl a' b' h1 h3
      · intro x y hx hy
        simp only [List.head?_cons, Option.some.injEq] at hx
        subst hx
        have hs := getLast_same (.cons h1 (.cons h3 h4)) h1
        have hy' : (a' :: b' :: m').getLastD a' = y := by rw [List.getLastD_eq_getLast?, hy]; rfl
        rw [hy'] at hs
        rw [hs.ends.2, h1.ends.1]
        exact o2

/-- **C144, contours.**  An ordered contour is read as the contour of the same edges in the same order. -/
theorem C144_contour_partial (twin : Edge → Edge → Prop) (l : List Edge) (hl : Ordered twin l) (c : ℕ) :
    ∃ w, contourToStep l c = .ok w ∧ Reads (exportReader twin) c w (fun v => ∃ l', v = .contour l' ∧ List.Forall₂ SameEdge l l') := by
  obtain ⟨r, hr, ⟨i1, i2⟩, I⟩ := contourLoop_reads twin l hl.2.1 c
  refine ⟨_, by simp only [contourToStep, hr]; rfl, by simp only; omega, fun D => ?_⟩
  obtain ⟨D1, l', r1, k1, g1, f1⟩ := I D
  obtain ⟨D', s1, s2, s3, -⟩ := Reads.step (c := c) (n := r.2.2 + 1) (body := .edgeLoop r.2.1) (v := .contour l') r1 k1 (by omega)
    (by simp only [readEnt, g1, Except.bind, ordered_read hl f1, Except.map])
  exact ⟨D', s1, s2, _, s3, _, rfl, f1⟩

/-- The half disc: a segment and an arc. -/
noncomputable def halfDisc : List Edge :=
  [.segment (unitCircle3.at Real.pi) (unitCircle3.at 0) (unitCircle3.at Real.pi) (unitCircle3.at 0),
   .arc unitCircle3 (unitCircle3.at 0) (unitCircle3.at Real.pi)]

lemma halfDisc_far : 1 / 10 ^ 7 < V3.pointDistance (unitCircle3.at 0) (unitCircle3.at Real.pi) := by
  unfold V3.pointDistance V3.norm
  apply Real.lt_sqrt_of_sq_lt
  simp only [unitCircle3, Circle3.at, V3.sub_x, V3.sub_y, V3.sub_z, V3.add_x, V3.add_y, V3.add_z, V3.smul_x, V3.smul_y, V3.smul_z,
    Real.cos_zero, Real.sin_zero, Real.cos_pi, Real.sin_pi]
  norm_num

lemma halfDisc_ordered : Ordered (fun _ _ => False) halfDisc := by
  have hne : unitCircle3.at Real.pi ≠ unitCircle3.at 0 := by
    intro h
    have := halfDisc_far
    rw [h] at this
    have h0 : V3.pointDistance (unitCircle3.at 0) (unitCircle3.at 0) = 0 := by unfold V3.pointDistance V3.norm; simp
    rw [h0] at this
    norm_num at this
  refine ⟨by simp [halfDisc], ?_, ?_⟩
  · intro e he
    simp only [halfDisc, List.mem_cons, List.not_mem_nil, or_false] at he
    rcases he with rfl | rfl
    · exact ⟨hne, hne⟩
    · exact ⟨unitCircle3_good, ⟨_, rfl⟩, ⟨_, rfl⟩, halfDisc_far⟩
  · intro a b m h
    simp only [halfDisc, List.cons.injEq] at h
    obtain ⟨rfl, rfl, rfl⟩ := h
    exact ⟨⟨isClose3_self _ (by norm_num), trivial⟩, isClose3_self _ (by norm_num), fun _ _ _ _ _ h => h⟩

example : ∃ w, contourToStep halfDisc 10 = .ok w ∧
    Reads (exportReader fun _ _ => False) 10 w (fun v => ∃ l', v = .contour l' ∧ List.Forall₂ SameEdge halfDisc l') :=
  C144_contour_partial _ _ halfDisc_ordered 10

/-- A cubic curve meets the conditions. -/
example : (Edge.bspline ⟨3, [⟨0, 0, 0⟩, ⟨1, 1, 0⟩, ⟨2, 1, 0⟩, ⟨3, 0, 0⟩], [4, 4], [0, 1], none⟩).Sound := by
  refine ⟨rfl, by simp, rfl, rfl, ?_⟩
  unfold bsplinePeriodic
  rw [isClose3_iff (by norm_num)]
  rintro (h | h)
  · simp [BCurve.knotvector, repeatKnots, kvFun, List.replicate] at h
  · simp only [Edge.start, Edge.fin, V3.pointDistance, V3.norm, List.headD, List.getLastD, V3.sub_x, V3.sub_y, V3.sub_z] at h
    rw [Real.sqrt_le_left (by norm_num)] at h
    norm_num at h

end Volmdlr.StepGeo
