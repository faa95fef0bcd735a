import Verif.Step.GeoProps

/-!
# The edges and contours of a STEP file are those that were written (C144)
-/

namespace Volmdlr.StepGeo

open Volmdlr.Arc Volmdlr.Shells Volmdlr.Angle

/-! ## Circles -/

lemma at_belongs {k k' : Circle3} (h : k.Good) (hs : SameCircle k k') (t tol : ℝ) (htol : 0 ≤ tol) : circleBelongs k' (k.at t) tol := by
  obtain ⟨ho, hw, hr, -⟩ := hs
  obtain ⟨⟨uu, vv, ww, uv, uw, vw, -⟩, hpos⟩ := h
  have hd : V3.pointDistance (k.at t) k'.frame.origin = k.radius := by
    rw [ho]
    unfold V3.pointDistance V3.norm
    conv_rhs => rw [← Real.sqrt_sq hpos.le]
    congr 1
    simp only [V3.dot] at uu vv uv
    simp only [Circle3.at, V3.sub_x, V3.sub_y, V3.sub_z, V3.add_x, V3.add_y, V3.add_z, V3.smul_x, V3.smul_y, V3.smul_z]
    have ht := Real.sin_sq_add_cos_sq t
    linear_combination (k.radius ^ 2 * Real.cos t ^ 2) * uu + (k.radius ^ 2 * Real.sin t ^ 2) * vv + (2 * k.radius ^ 2 * Real.cos t * Real.sin t) * uv + k.radius ^ 2 * ht
  have hn : V3.dot k'.frame.basis.w (k.at t - k'.frame.origin) = 0 := by
    rw [ho, hw]
    simp only [V3.dot] at uw vw
    simp only [V3.dot, Circle3.at, V3.sub_x, V3.sub_y, V3.sub_z, V3.add_x, V3.add_y, V3.add_z, V3.smul_x, V3.smul_y, V3.smul_z]
    linear_combination (k.radius * Real.cos t) * uw + (k.radius * Real.sin t) * vw
  refine ⟨?_, ?_⟩
  · rw [hd, hr]; unfold mathIsClose; simp [htol]
  · rw [hn]; unfold mathIsClose; simp [htol]

lemma isClose3_iff {p q : V3 ℝ} {tol : ℝ} (htol : 0 < tol) : isClose3 p q tol ↔ V3.pointDistance p q ≤ tol := by
  have h0 : 0 ≤ V3.pointDistance p q := Real.sqrt_nonneg _
  unfold isClose3 mathIsClose
  rw [sub_zero, abs_of_nonneg h0, abs_zero, max_eq_left h0, le_max_iff]
  constructor
  · rintro (h | h)
    · nlinarith
    · exact h
  · exact Or.inr

lemma isClose3_self (p : V3 ℝ) {tol : ℝ} (htol : 0 < tol) : isClose3 p p tol := by
  rw [isClose3_iff htol]
  have : V3.pointDistance p p = 0 := by unfold V3.pointDistance V3.norm; simp
  rw [this]; exact htol.le

lemma exportTol (twin : Edge → Edge → Prop) : (exportReader twin).tol = 1 / 10 ^ 7 := by
  unfold exportReader; norm_num

/-- Writing a circle and reading it again gives the same circle. -/
lemma circle_reads (twin : Edge → Edge → Prop) (k : Circle3) (h : k.Good) (c : ℕ) :
    Reads (exportReader twin) c ((frameToStep k.frame c).1 ++ [⟨(frameToStep k.frame c).2 + 1, .circle (frameToStep k.frame c).2 (k.radius * 1000)⟩],
      (frameToStep k.frame c).2 + 1) (fun v => ∃ k', v = .circle k' ∧ SameCircle k k') := by
  obtain ⟨hf, Hf⟩ := C143_frame_partial twin k.frame h.direct c
  refine ⟨by simp only; omega, fun D => ?_⟩
  obtain ⟨D1, r1, k1, v1, e1, rfl⟩ := Hf D
  have ww : V3.dot k.frame.basis.w k.frame.basis.w = 1 := h.direct.2.2.1
  obtain ⟨g, hg, go, gw, gd⟩ := C63_fromPointAndNormal k.frame.origin k.frame.basis.w ww
  have hc : readCircle k.frame (k.radius * 1000 * (1 / 1000)) = .ok ⟨g, k.radius⟩ := by
    unfold readCircle
    rw [unitVector_of_unit ww]
    simp only [hg]
    congr 2
    ring
  obtain ⟨D', s1, s2, s3, -⟩ := Reads.step (c := c) (n := (frameToStep k.frame c).2 + 1)
    (body := .circle (frameToStep k.frame c).2 (k.radius * 1000)) (v := .circle ⟨g, k.radius⟩) r1 k1 (by omega)
    (by simp only [readEnt, getFrame, e1, Except.bind, exportReader, hc, Except.map])
  exact ⟨D', s1, s2, _, s3, _, rfl, go, gw, rfl, gd, h.pos⟩

/-- Two texts one after the other, the second one with the object of the first one. -/
lemma Reads.seq {R : Reader} {c : ℕ} {w1 w2 : W} {P Q : Val → Prop} (h1 : Reads R c w1 P) (h2 : Reads R w1.2 w2 Q) (D : Dict) :
    ∃ D', readAll R D (w1.1 ++ w2.1) = .ok D' ∧ (∀ n ≤ c, D' n = D n) ∧ (∃ v, D' w1.2 = some v ∧ P v) ∧ ∃ v, D' w2.2 = some v ∧ Q v := by
  obtain ⟨hc, H1⟩ := h1
  obtain ⟨-, H2⟩ := h2
  obtain ⟨D1, r1, k1, v1, e1, p1⟩ := H1 D
  obtain ⟨D2, r2, k2, v2, e2, p2⟩ := H2 D1
  exact ⟨D2, readAll_append _ r1 r2, fun n hn => by rw [k2 n (by omega), k1 n hn], ⟨v1, by rw [k2 _ le_rfl, e1], p1⟩, v2, e2, p2⟩

/-! ## Control points -/

lemma pointsLoop_reads (twin : Edge → Edge → Prop) (ps : List (V3 ℝ)) (c : ℕ) :
    (c ≤ (pointsLoop ps c).2.2 ∧ (ps ≠ [] → c < (pointsLoop ps c).2.2) ∧ ∀ n ∈ (pointsLoop ps c).2.1, n < (pointsLoop ps c).2.2) ∧
    ∀ D : Dict, ∃ D', readAll (exportReader twin) D (pointsLoop ps c).1 = .ok D' ∧ (∀ n ≤ c, D' n = D n) ∧
      getAll (getPoint D') (pointsLoop ps c).2.1 = .ok ps := by
  induction ps generalizing c with
  | nil => exact ⟨⟨le_rfl, fun h => absurd rfl h, by simp [pointsLoop]⟩, fun D => ⟨D, rfl, fun _ _ => rfl, rfl⟩⟩
  | cons p ps ih =>
    obtain ⟨hp, Hp⟩ := C143_point twin p false c
    obtain ⟨⟨i1, i2, i3⟩, i4⟩ := ih ((pointToStep p false c).2 + 1)
    refine ⟨⟨?_, ?_, ?_⟩, fun D => ?_⟩
    · simp only [pointsLoop]; omega
    · intro _; simp only [pointsLoop]; omega
    · intro n hn
      simp only [pointsLoop, List.mem_cons] at hn ⊢
      rcases hn with rfl | hn
      · omega
      · exact i3 n hn
    · obtain ⟨D1, r1, k1, v1, e1, rfl⟩ := Hp D
      obtain ⟨D2, r2, k2, g2⟩ := i4 D1
      refine ⟨D2, readAll_append _ r1 r2, fun n hn => by rw [k2 n (by omega), k1 n hn], getAll_cons ?_ g2⟩
      simp only [getPoint, k2 _ (Nat.le_succ _), e1]

lemma standardize_id {l : List ℝ} (h0 : l.headD 0 = 0) (h1 : l.getLastD 0 = 1) : standardizeKnotVector l = l := by
  unfold standardizeKnotVector
  rw [h0, h1]
  simp

/-! ## Edges -/

/-- **C144, edges.**  Every sound edge is written, and read as the same edge. -/
theorem C144_edge_partial (twin : Edge → Edge → Prop) (e : Edge) (he : e.Sound) (c : ℕ) :
    ∃ w, e.toStep c = .ok w ∧ Reads (exportReader twin) c w (fun v => ∃ e', v = .edge (some e') ∧ SameEdge e e') := by
  cases e with
  | segment p q s f =>
    obtain ⟨hpq, hsf⟩ := he
    obtain ⟨line, hline, Hline⟩ := C143_line twin p q hpq c
    refine ⟨_, by simp only [Edge.toStep, hline]; rfl, ?_⟩
    have hs := C143_point twin s true line.2
    have hf := C143_point twin f true (pointToStep s true line.2).2
    refine ⟨by have := Hline.1; have := hs.1; have := hf.1; simp only; omega, fun D => ?_⟩
    obtain ⟨D1, r1, k1, v1, e1, a, b, rfl, hab⟩ := Hline.2 D
    obtain ⟨D2, r2, k2, ⟨v2, e2, rfl⟩, v3, e3, rfl⟩ := hs.seq hf D1
    obtain ⟨D', s1, s2, s3, -⟩ := Reads.step (c := c) (n := (pointToStep f true (pointToStep s true line.2).2).2 + 1)
      (body := .edgeCurve (pointToStep s true line.2).2 (pointToStep f true (pointToStep s true line.2).2).2 line.2 true)
      (v := .edge (some (.segment a b s f)))
      (readAll_append _ r1 r2) (fun m hm => by rw [k2 m (by have := Hline.1; omega), k1 m hm])
      (by have := Hline.1; have := hs.1; have := hf.1; omega)
      (by simp only [readEnt, readEdge, k2 _ le_rfl, e1, getPoint, e2, e3, Except.bind, readEdgeCurve, if_true, if_pos hsf])
    exact ⟨D', s1, s2, _, s3, _, rfl, rfl, rfl, hab⟩
  | arc k s f =>
    obtain ⟨hk, ⟨t1, rfl⟩, ⟨t2, rfl⟩, hfar⟩ := he
    refine ⟨_, rfl, ?_⟩
    have hc := circle_reads twin k hk c
    have hs := C143_point twin (k.at t1) true ((frameToStep k.frame c).2 + 1)
    have hf := C143_point twin (k.at t2) true (pointToStep (k.at t1) true ((frameToStep k.frame c).2 + 1)).2
    refine ⟨by have := hc.1; have := hs.1; have := hf.1; simp only at *; omega, fun D => ?_⟩
    obtain ⟨D1, r1, k1, v1, e1, k', rfl, hkk⟩ := hc.2 D
    obtain ⟨D2, r2, k2, ⟨v2, e2, rfl⟩, v3, e3, rfl⟩ := hs.seq hf D1
    have b1 := at_belongs hk hkk t1 (1 / 10 ^ 5) (by norm_num)
    have b2 := at_belongs hk hkk t2 (1 / 10 ^ 5) (by norm_num)
    have hnot : ¬ isClose3 (k.at t1) (k.at t2) (exportReader twin).tol := by
      rw [exportTol, isClose3_iff (by norm_num)]
      exact not_le.mpr hfar
    obtain ⟨D', s1, s2, s3, -⟩ := Reads.step (c := c) (n := (pointToStep (k.at t2) true (pointToStep (k.at t1) true ((frameToStep k.frame c).2 + 1)).2).2 + 1)
      (body := .edgeCurve (pointToStep (k.at t1) true ((frameToStep k.frame c).2 + 1)).2
        (pointToStep (k.at t2) true (pointToStep (k.at t1) true ((frameToStep k.frame c).2 + 1)).2).2 ((frameToStep k.frame c).2 + 1) true)
      (v := .edge (some (.arc k' (k.at t1) (k.at t2))))
      (readAll_append _ r1 r2) (fun m hm => by rw [k2 m (by have := hc.1; simp only at this; omega), k1 m hm])
      (by have := hc.1; have := hs.1; have := hf.1; simp only at *; omega)
      (by
        have e1' := e1
        simp only at e1'
        simp only [readEnt, readEdge, k2 _ le_rfl, e1', getPoint, e2, e3, Except.bind, readEdgeCurve, trimCircle, if_true,
          if_pos (And.intro b1 b2), if_neg hnot, Except.map])
    exact ⟨D', s1, s2, _, s3, _, rfl, hkk, rfl, rfl⟩
  | fullArc k s =>
    obtain ⟨hk, t, rfl⟩ := he
    have huv : V3.dot (V3.smul (Real.cos t) k.frame.basis.u + V3.smul (Real.sin t) k.frame.basis.v)
        (V3.smul (Real.cos t) k.frame.basis.u + V3.smul (Real.sin t) k.frame.basis.v) = 1 := by
      obtain ⟨uu, vv, ww, uv, uw, vw, -⟩ := hk.direct
      simp only [V3.dot] at uu vv uv
      simp only [V3.dot, V3.add_x, V3.add_y, V3.add_z, V3.smul_x, V3.smul_y, V3.smul_z]
      have ht := Real.sin_sq_add_cos_sq t
      linear_combination (Real.cos t ^ 2) * uu + (Real.sin t ^ 2) * vv + (2 * Real.cos t * Real.sin t) * uv + ht
    have hsub : k.at t - k.frame.origin = V3.smul k.radius (V3.smul (Real.cos t) k.frame.basis.u + V3.smul (Real.sin t) k.frame.basis.v) := by
      ext <;> simp only [Circle3.at, V3.sub_x, V3.sub_y, V3.sub_z, V3.add_x, V3.add_y, V3.add_z, V3.smul_x, V3.smul_y, V3.smul_z] <;> ring
    have hnz : k.at t - k.frame.origin ≠ ⟨0, 0, 0⟩ := by
      intro h0
      rw [hsub] at h0
      have hx := congrArg V3.x h0
      have hy := congrArg V3.y h0
      have hz := congrArg V3.z h0
      simp only [V3.smul_x, V3.smul_y, V3.smul_z] at hx hy hz
      have hp := hk.pos
      have hx' := (mul_eq_zero.mp hx).resolve_right hp.ne'
      have hy' := (mul_eq_zero.mp hy).resolve_right hp.ne'
      have hz' := (mul_eq_zero.mp hz).resolve_right hp.ne'
      simp only [V3.dot] at huv
      simp only [V3.add_x, V3.add_y, V3.add_z, V3.smul_x, V3.smul_y, V3.smul_z] at huv hx' hy' hz'
      rw [hx', hy', hz'] at huv
      norm_num at huv
    obtain ⟨u, hu⟩ := V3.unitVector_some hnz
    obtain ⟨npos, hue, huu⟩ := V3.unitVector_spec hu
    have hnorm : V3.norm (k.at t - k.frame.origin) = k.radius := by
      have h2 := V3.norm_sq (k.at t - k.frame.origin)
      have : V3.dot (k.at t - k.frame.origin) (k.at t - k.frame.origin) = k.radius * k.radius := by
        rw [hsub]
        simp only [V3.dot] at huv
        simp only [V3.dot, V3.smul_x, V3.smul_y, V3.smul_z] at huv ⊢
        linear_combination k.radius * k.radius * huv
      rw [this] at h2
      have hp := hk.pos
      nlinarith
    have hback : k.frame.origin + V3.smul k.radius u = k.at t := by
      rw [hnorm] at hue
      rw [← hue]
      ext <;> simp
    refine ⟨_, by simp only [Edge.toStep, hu, hback]; rfl, ?_⟩
    have hc := circle_reads twin k hk c
    have hs := C143_point twin (k.at t) true ((frameToStep k.frame c).2 + 1)
    refine ⟨by have := hc.1; have := hs.1; simp only at *; omega, fun D => ?_⟩
    obtain ⟨D1, r1, k1, v1, e1, k', rfl, hkk⟩ := hc.2 D
    obtain ⟨D2, r2, k2, v2, e2, rfl⟩ := hs.2 D1
    have b1 := at_belongs hk hkk t (1 / 10 ^ 5) (by norm_num)
    have hclose : isClose3 (k.at t) (k.at t) (exportReader twin).tol := by
      rw [exportTol]; exact isClose3_self _ (by norm_num)
    obtain ⟨D', s1, s2, s3, -⟩ := Reads.step (c := c) (n := (pointToStep (k.at t) true ((frameToStep k.frame c).2 + 1)).2 + 1)
      (body := .edgeCurve (pointToStep (k.at t) true ((frameToStep k.frame c).2 + 1)).2
        (pointToStep (k.at t) true ((frameToStep k.frame c).2 + 1)).2 ((frameToStep k.frame c).2 + 1) true)
      (v := .edge (some (.fullArc k' (k.at t))))
      (readAll_append _ r1 r2) (fun m hm => by rw [k2 m (by have := hc.1; simp only at this; omega), k1 m hm])
      (by have := hc.1; have := hs.1; simp only at *; omega)
      (by
        have e1' := e1
        simp only at e1'
        simp only [readEnt, readEdge, k2 _ le_rfl, e1', getPoint, e2, Except.bind, readEdgeCurve, trimCircle, if_true,
          if_pos (And.intro b1 b1), if_pos hclose, Except.map])
    exact ⟨D', s1, s2, _, s3, _, rfl, hkk, rfl⟩
  | bspline b =>
    obtain ⟨hw, hne, hk0, hk1, hper⟩ := he
    refine ⟨_, rfl, ?_⟩
    obtain ⟨⟨l1, l2, l3⟩, L⟩ := pointsLoop_reads twin b.ctrlpts c
    have l2 := l2 hne
    generalize hids : (pointsLoop b.ctrlpts c).2.1 = ids at *
    generalize hcur : (pointsLoop b.ctrlpts c).2.2 = cur at *
    have hs := C143_point twin (Edge.bspline b).start true (cur + 1)
    have hf := C143_point twin (Edge.bspline b).fin true ((pointToStep (Edge.bspline b).start true (cur + 1)).2 + 1 + 1)
    refine ⟨by have := hs.1; have := hf.1; simp only [hcur] at *; omega, fun D => ?_⟩
    obtain ⟨D0, r0, k0, g0⟩ := L D
    obtain ⟨D1, r1, k1, e1, -⟩ := Reads.step (c := c) (n := cur) (body := .bsplineCurve b.degree ids false false b.mults b.knots)
      (v := .edge (some (readBsplineCurve b.degree b.ctrlpts b.mults b.knots))) r0 k0 l2
      (by simp only [readEnt, g0, Except.map])
    obtain ⟨D2, r2, k2, v2, e2, rfl⟩ := hs.2 D1
    obtain ⟨D3, r3, k3, v3, e3, rfl⟩ := hf.2 D2
    have hstart : D3 (pointToStep (Edge.bspline b).start true (cur + 1)).2 = some (.point (Edge.bspline b).start) := by
      rw [k3 _ (by omega), e2]
    have hcurve : D3 cur = some (.edge (some (readBsplineCurve b.degree b.ctrlpts b.mults b.knots))) := by
      rw [k3 _ (by have := hs.1; omega), k2 _ (by omega), e1]
    have hdiff : ¬ isClose3 (Edge.bspline b).start (Edge.bspline b).fin (1 / 10 ^ 6) := fun h => hper (Or.inr h)
    have hout : ∃ e', readEdge (exportReader twin) D3 (pointToStep (Edge.bspline b).start true (cur + 1)).2
        (pointToStep (Edge.bspline b).fin true ((pointToStep (Edge.bspline b).start true (cur + 1)).2 + 1 + 1)).2 cur true = .ok (.edge (some e')) ∧
        SameEdge (.bspline b) e' := by
      by_cases h2 : b.ctrlpts.length = 2 ∧ b.degree = 1
      · obtain ⟨h2l, h2d⟩ := h2
        obtain ⟨x, y, hxy⟩ := List.length_eq_two.mp h2l
        have hst : (Edge.bspline b).start = x := by simp [Edge.start, hxy]
        have hfi : (Edge.bspline b).fin = y := by simp [Edge.fin, hxy]
        have hxne : x ≠ y := by
          rintro rfl
          rw [hst, hfi] at hdiff
          exact hdiff (isClose3_self _ (by norm_num))
        refine ⟨.segment x y x y, ?_, h2d, hxy, rfl, rfl⟩
        simp only [readEdge, hcurve, getPoint, hstart, e3, Except.bind, readBsplineCurve, if_pos (And.intro h2l h2d), readEdgeCurve]
        rw [hst, hfi, if_pos hxne]
      · refine ⟨.bspline b, ?_, rfl⟩
        have hb : BCurve.new b.degree b.ctrlpts b.mults b.knots none = b := by
          obtain ⟨d, cp, m, kn, w⟩ := b
          simp only at hw hk0 hk1
          subst hw
          simp only [BCurve.new, standardize_id hk0 hk1]
        simp only [readEdge, hcurve, getPoint, hstart, e3, Except.bind, readBsplineCurve, if_neg h2, readEdgeCurve, hb]
        unfold trimBspline
        rw [if_neg (by rintro (h | h); exacts [hper h, by cases h]), if_pos]
        · rfl
        · left
          rw [exportTol]
          exact ⟨isClose3_self _ (by norm_num), isClose3_self _ (by norm_num)⟩
    obtain ⟨e', he', hsame⟩ := hout
    obtain ⟨D', s1, s2, s3, -⟩ := Reads.step (c := c)
      (n := (pointToStep (Edge.bspline b).fin true ((pointToStep (Edge.bspline b).start true (cur + 1)).2 + 1 + 1)).2 + 1)
      (body := .edgeCurve (pointToStep (Edge.bspline b).start true (cur + 1)).2
        (pointToStep (Edge.bspline b).fin true ((pointToStep (Edge.bspline b).start true (cur + 1)).2 + 1 + 1)).2 cur true)
      (v := .edge (some e'))
      (readAll_append _ r1 (readAll_append _ r2 r3))
      (fun m hm => by rw [k3 m (by have := hs.1; omega), k2 m (by omega), k1 m hm])
      (by have := hs.1; have := hf.1; omega) (by simp only [readEnt]; exact he')
    exact ⟨D', s1, s2, _, s3, e', rfl, hsame⟩

end Volmdlr.StepGeo
