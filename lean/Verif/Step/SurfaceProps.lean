import Verif.Step.ContourProps

/-!
# The surfaces (C145), faces and shells (C146) of a STEP file are those that were written
-/

namespace Volmdlr.StepGeo

open Volmdlr.Arc Volmdlr.Shells Volmdlr.Angle

/-! ## Specification -/

/-- Two lengths are equal up to a rounding to `1e-7`. -/
def SameRadius (r r' : ℝ) : Prop := |r' - r| ≤ 5 / 10 ^ 8

/-- The second surface is the first one; radii of cylinders, tori and spheres are rounded to `1e-7`. -/
def SameSurf : Surf → Surf → Prop
  | .plane f, .plane f' => f' = f
  | .cylinder f r, .cylinder f' r' => f' = f ∧ SameRadius r r'
  | .torus f a b, .torus f' a' b' => f' = f ∧ SameRadius a a' ∧ SameRadius b b'
  | .cone f a, .cone f' a' => f' = f ∧ a' = a
  | .sphere f r, .sphere f' r' => f' = f ∧ SameRadius r r'
  | .extrusion e d, .extrusion e' d' => SameEdge e e' ∧ d' = d
  | .revolution e p a, .revolution e' p' a' => SameEdge e e' ∧ p' = p ∧ a' = a
  | .bspline s, .bspline s' => s' = s
  | _, _ => False

/-- The surfaces that can be in a file: direct orthonormal frames, radii that are not negative, a cone that is not flat, sound edges,
unit directions, a B-spline surface without weights, with its knots from 0 to 1 and as many points as `nb_u` rows of `nb_v`. -/
def Surf.Sound : Surf → Prop
  | .plane f => DirectOrthonormal f.basis
  | .cylinder f _ => DirectOrthonormal f.basis
  | .torus f a b => DirectOrthonormal f.basis ∧ 0 ≤ a ∧ 0 ≤ b
  | .cone f a => DirectOrthonormal f.basis ∧ Real.tan a ≠ 0
  | .sphere f _ => DirectOrthonormal f.basis
  | .extrusion e d => e.Sound ∧ V3.dot d d = 1
  | .revolution e _ a => e.Sound ∧ V3.dot a a = 1
  | .bspline s => s.weights = none ∧ s.ctrlpts.length = s.nbU * s.nbV ∧ 0 < s.nbU ∧ 0 < s.nbV ∧ s.knotsU.headD 0 = 0 ∧
      s.knotsU.getLastD 0 = 1 ∧ s.knotsV.headD 0 = 0 ∧ s.knotsV.getLastD 0 = 1

/-- The second face is on the same surface and has the same contours in the same order. -/
def SameFace (f f' : Face) : Prop :=
  SameSurf f.surface f'.surface ∧ List.Forall₂ SameEdge f.outer f'.outer ∧ List.Forall₂ (List.Forall₂ SameEdge) f.inner f'.inner

/-- A face whose surface and contours can be in a file. -/
def Face.Sound (twin : Edge → Edge → Prop) (f : Face) : Prop :=
  f.surface.Sound ∧ Ordered twin f.outer ∧ ∀ l ∈ f.inner, Ordered twin l

/-! ## Surfaces with a frame -/

lemma framed_reads (twin : Edge → Edge → Prop) {f : Frame3 ℝ} (hf : DirectOrthonormal f.basis) {body : ℕ → Body} {c : ℕ} {v : Val}
    (h : ∀ (D : Dict) (n : ℕ), D n = some (.frame f) → readEnt (exportReader twin) D (body n) = .ok v) :
    Reads (exportReader twin) c (framedToStep f body c) (· = v) := by
  obtain ⟨h1, H⟩ := C143_frame_partial twin f hf c
  refine ⟨by simp only [framedToStep]; omega, fun D => ?_⟩
  obtain ⟨D1, r1, k1, v1, e1, rfl⟩ := H D
  obtain ⟨D', s1, s2, s3, -⟩ := Reads.step (c := c) (n := (frameToStep f c).2 + 1) r1 k1 (by omega) (h D1 _ e1)
  exact ⟨D', s1, s2, _, s3, rfl⟩

lemma npRound_near (r : ℝ) : |npRound 4 (1000 * r) * (1 / 1000) - r| ≤ 5 / 10 ^ 8 := by
  unfold npRound
  have h := (pyRound_spec (1000 * r * 10 ^ 4)).1
  rw [abs_le] at *
  constructor <;> linarith [h.1, h.2]

lemma npRound_nonneg {r : ℝ} (h : 0 ≤ r) : 0 ≤ npRound 4 (1000 * r) := by
  unfold npRound
  have h1 := (pyRound_spec (1000 * r * 10 ^ 4)).1
  have h0 : 0 ≤ 1000 * r * 10 ^ 4 := by positivity
  generalize 1000 * r * 10 ^ 4 = x at *
  generalize pyRound x = z at *
  rw [abs_le] at h1
  have h2 : ((-1 : ℤ) : ℝ) < (z : ℝ) := by push_cast; linarith [h1.2]
  have h3 : (-1 : ℤ) < z := by exact_mod_cast h2
  have h4 : (0 : ℝ) ≤ (z : ℝ) := by
    have : (0 : ℤ) ≤ z := by omega
    exact_mod_cast this
  positivity

/-! ## B-spline surfaces -/

lemma tableRows_flatten (nbV : ℕ) (hv : 0 < nbV) (nbU : ℕ) (ps row : List (V3 ℝ)) (hrow : row.length < nbV)
    (hl : ps.length + row.length = nbU * nbV) :
    (tableRows nbV ps row).flatten = row ++ ps ∧ (tableRows nbV ps row).length = nbU ∧ ∀ r ∈ tableRows nbV ps row, r.length = nbV := by
  induction ps generalizing row nbU with
  | nil =>
    simp only [List.length_nil, zero_add] at hl
    have h0 : nbU = 0 := by
      rcases Nat.eq_zero_or_pos nbU with h | h
      · exact h
      · exfalso
        have : nbV ≤ nbU * nbV := Nat.le_mul_of_pos_left _ h
        omega
    subst h0
    have : row = [] := List.length_eq_zero_iff.mp (by omega)
    subst this
    simp [tableRows]
  | cons p ps ih =>
    simp only [List.length_cons] at hl
    simp only [tableRows]
    by_cases h : row.length + 1 = nbV
    · rw [if_pos h]
      obtain ⟨n, rfl⟩ : ∃ n, nbU = n + 1 := by
        rcases Nat.eq_zero_or_pos nbU with h0 | h0
        · subst h0; omega
        · exact ⟨nbU - 1, by omega⟩
      obtain ⟨i1, i2, i3⟩ := ih n [] (by simpa using hv) (by simp only [List.length_nil, Nat.add_zero]; rw [Nat.add_mul] at hl; omega)
      refine ⟨by simp [i1], by simp [i2], ?_⟩
      intro r hr
      rcases List.mem_cons.mp hr with rfl | hr
      · simp [h]
      · exact i3 r hr
    · rw [if_neg h]
      obtain ⟨i1, i2, i3⟩ := ih nbU (row ++ [p]) (by simp; omega) (by simp; omega)
      exact ⟨by rw [i1]; simp, i2, i3⟩

lemma rowsLoop_reads (twin : Edge → Edge → Prop) (rows : List (List (V3 ℝ))) (c : ℕ) :
    (c ≤ (rowsLoop rows c).2.2 ∧ ((∃ r ∈ rows, r ≠ []) → c < (rowsLoop rows c).2.2) ∧
      ∀ ids ∈ (rowsLoop rows c).2.1, ∀ n ∈ ids, n < (rowsLoop rows c).2.2) ∧
    ∀ D : Dict, ∃ D', readAll (exportReader twin) D (rowsLoop rows c).1 = .ok D' ∧ (∀ n ≤ c, D' n = D n) ∧
      getAll (fun row : List ℕ => getAll (getPoint D') row) (rowsLoop rows c).2.1 = .ok rows := by
  induction rows generalizing c with
  | nil => exact ⟨⟨le_rfl, by simp, by simp [rowsLoop]⟩, fun D => ⟨D, rfl, fun _ _ => rfl, rfl⟩⟩
  | cons row rows ih =>
    obtain ⟨⟨p1, p2, p3⟩, P⟩ := pointsLoop_reads twin row c
    obtain ⟨⟨i1, i2, i3⟩, I⟩ := ih (pointsLoop row c).2.2
    refine ⟨⟨?_, ?_, ?_⟩, fun D => ?_⟩
    · simp only [rowsLoop]; omega
    · rintro ⟨r, hr, hne⟩
      simp only [rowsLoop]
      rcases List.mem_cons.mp hr with rfl | hr
      · have := p2 hne; omega
      · have := i2 ⟨r, hr, hne⟩; omega
    · intro ids hids n hn
      simp only [rowsLoop, List.mem_cons] at hids ⊢
      rcases hids with rfl | hids
      · have := p3 n hn; omega
      · exact i3 ids hids n hn
    · obtain ⟨D1, r1, k1, g1⟩ := P D
      obtain ⟨D2, r2, k2, g2⟩ := I D1
      refine ⟨D2, readAll_append _ r1 r2, fun n hn => by rw [k2 n (by omega), k1 n hn], getAll_cons ?_ g2⟩
      rw [← g1]
      apply getAll_congr
      intro n hn
      simp only [getPoint, k2 n (p3 n hn).le]

/-! ## Surfaces -/

/-- **C145.**  Every sound surface is written, and read as the same surface; radii of cylinders, tori and spheres up to `5e-8`. -/
theorem C145_surface_partial (twin : Edge → Edge → Prop) (s : Surf) (hs : s.Sound) (c : ℕ) :
    ∃ w, s.toStep c = .ok w ∧ Reads (exportReader twin) c w (fun v => ∃ s', v = .surface s' ∧ SameSurf s s') := by
  cases s with
  | plane f =>
    refine ⟨_, rfl, ?_⟩
    obtain ⟨h1, H⟩ := framed_reads twin (body := .plane) (c := c) (v := .surface (.plane f)) hs (by
      intro D n hn
      have hnf : normalizeFrame f = .ok f := by
        obtain ⟨uu, vv, ww, -⟩ := hs
        simp only [normalizeFrame, unitVector_of_unit uu, unitVector_of_unit vv, unitVector_of_unit ww]
      simp only [readEnt, getFrame, hn, Except.bind, hnf, Except.map])
    refine ⟨h1, fun D => ?_⟩
    obtain ⟨D', r, k, v, e, rfl⟩ := H D
    exact ⟨D', r, k, _, e, _, rfl, rfl⟩
  | cylinder f r =>
    refine ⟨_, rfl, ?_⟩
    obtain ⟨h1, H⟩ := framed_reads twin (body := fun i : ℕ => .cylindricalSurface i (npRound 4 (1000 * r))) (c := c)
      (v := .surface (.cylinder f (npRound 4 (1000 * r) * (1 / 1000)))) hs
      (fun D n hn => by simp only [readEnt, getFrame, hn, exportReader, Except.map])
    refine ⟨h1, fun D => ?_⟩
    obtain ⟨D', r, k, v, e, rfl⟩ := H D
    exact ⟨D', r, k, _, e, _, rfl, rfl, npRound_near _⟩
  | torus f a b =>
    refine ⟨_, rfl, ?_⟩
    obtain ⟨hf, ha, hb⟩ := hs
    obtain ⟨h1, H⟩ := framed_reads twin (body := fun i : ℕ => .toroidalSurface i (npRound 4 (1000 * a)) (npRound 4 (1000 * b))) (c := c)
      (v := .surface (.torus f (npRound 4 (1000 * a) * (1 / 1000)) (npRound 4 (1000 * b) * (1 / 1000)))) hf
      (fun D n hn => by
        simp only [readEnt, getFrame, hn, exportReader, Except.map, abs_of_nonneg (npRound_nonneg ha), abs_of_nonneg (npRound_nonneg hb)])
    refine ⟨h1, fun D => ?_⟩
    obtain ⟨D', r, k, v, e, rfl⟩ := H D
    exact ⟨D', r, k, _, e, _, rfl, rfl, npRound_near _, npRound_near _⟩
  | cone f a =>
    refine ⟨_, rfl, ?_⟩
    obtain ⟨hf, ha⟩ := hs
    obtain ⟨h1, H⟩ := framed_reads twin (body := fun i : ℕ => .conicalSurface i 0 a) (c := c) (v := .surface (.cone f a)) hf (by
      intro D n hn
      have e1 : f.origin - V3.smul (0 * (1 / 1000) / Real.tan (a * 1)) f.basis.w = f.origin := by ext <;> simp
      have hc : readCone (exportReader twin) f 0 a = .ok (.surface (.cone f a)) := by
        unfold readCone
        have ha' : ¬ Real.tan (a * (exportReader twin).angle) = 0 := by
          rw [show a * (exportReader twin).angle = a from mul_one a]; exact ha
        rw [if_neg ha']
        have e2 : f.origin - V3.smul (0 * (exportReader twin).length / Real.tan (a * (exportReader twin).angle)) f.basis.w = f.origin := e1
        rw [e2, show a * (exportReader twin).angle = a from mul_one a]
      simp only [readEnt, getFrame, hn, Except.bind, hc])
    refine ⟨h1, fun D => ?_⟩
    obtain ⟨D', r, k, v, e, rfl⟩ := H D
    exact ⟨D', r, k, _, e, _, rfl, rfl, rfl⟩
  | sphere f r =>
    refine ⟨_, rfl, ?_⟩
    obtain ⟨h1, H⟩ := framed_reads twin (body := fun i : ℕ => .sphericalSurface i (npRound 4 (1000 * r))) (c := c)
      (v := .surface (.sphere f (npRound 4 (1000 * r) * (1 / 1000)))) hs
      (fun D n hn => by simp only [readEnt, getFrame, hn, exportReader, Except.map])
    refine ⟨h1, fun D => ?_⟩
    obtain ⟨D', r, k, v, e, rfl⟩ := H D
    exact ⟨D', r, k, _, e, _, rfl, rfl, npRound_near _⟩
  | extrusion e d =>
    obtain ⟨he, hd⟩ := hs
    obtain ⟨w, hw, h1, H⟩ := C144_edge_partial twin e he c
    obtain ⟨h2, H2⟩ := C143_direction twin d (w.2 + 1)
    refine ⟨_, by simp only [Surf.toStep, hw]; rfl, by simp only; omega, fun D => ?_⟩
    obtain ⟨D1, r1, k1, v1, e1, e', rfl, hsame⟩ := H D
    obtain ⟨D2, r2, k2, v2, e2, rfl⟩ := H2 D1
    have g1 : D2 w.2 = some (.edge (some e')) := by rw [k2 _ (by omega), e1]
    obtain ⟨D', s1, s2, s3, -⟩ := Reads.step (c := c) (n := (vectorToStep d false (w.2 + 1)).2 + 1)
      (body := .linearExtrusion w.2 (vectorToStep d false (w.2 + 1)).2) (v := .surface (.extrusion e' d))
      (readAll_append _ r1 r2) (fun m hm => by rw [k2 m (by omega), k1 m hm]) (by omega)
      (by simp only [readEnt, getEdge, getVec, g1, e2, Except.bind, readExtrusion, unitVector_of_unit hd])
    exact ⟨D', s1, s2, _, s3, _, rfl, hsame, rfl⟩
  | revolution e p a =>
    obtain ⟨he, ha⟩ := hs
    obtain ⟨w, hw, h1, H⟩ := C144_edge_partial twin e he c
    obtain ⟨h2, H2⟩ := C143_point twin p false (w.2 + 1)
    obtain ⟨h3, H3⟩ := C143_direction twin a ((pointToStep p false (w.2 + 1)).2 + 1)
    refine ⟨_, by simp only [Surf.toStep, hw]; rfl, by simp only; omega, fun D => ?_⟩
    obtain ⟨D1, r1, k1, v1, e1, e', rfl, hsame⟩ := H D
    obtain ⟨D2, r2, k2, v2, e2, rfl⟩ := H2 D1
    obtain ⟨D3, r3, k3, v3, e3, rfl⟩ := H3 D2
    have g1 : D3 w.2 = some (.edge (some e')) := by rw [k3 _ (by omega), k2 _ (by omega), e1]
    have g2 : D3 (pointToStep p false (w.2 + 1)).2 = some (.point p) := by rw [k3 _ (by omega), e2]
    obtain ⟨D4, s1, s2, s3, s4⟩ := Reads.step (c := c) (n := (vectorToStep a false ((pointToStep p false (w.2 + 1)).2 + 1)).2 + 1)
      (body := .axis1Placement (pointToStep p false (w.2 + 1)).2 (vectorToStep a false ((pointToStep p false (w.2 + 1)).2 + 1)).2)
      (v := .axis p a) (readAll_append _ (readAll_append _ r1 r2) r3)
      (fun m hm => by rw [k3 m (by omega), k2 m (by omega), k1 m hm]) (by omega)
      (by simp only [readEnt, getPoint, getVec, g2, e3, Except.bind, Except.map])
    obtain ⟨D', t1, t2, t3, -⟩ := Reads.step (c := c) (n := (vectorToStep a false ((pointToStep p false (w.2 + 1)).2 + 1)).2 + 1 + 1)
      (body := .surfaceOfRevolution w.2 ((vectorToStep a false ((pointToStep p false (w.2 + 1)).2 + 1)).2 + 1))
      (v := .surface (.revolution e' p a)) s1 s2 (by omega)
      (by
        have g3 : D4 w.2 = some (.edge (some e')) := by rw [s4 _ (by omega), g1]
        simp only [readEnt, getEdge, g3, s3, Except.bind, readRevolution, unitVector_of_unit ha])
    exact ⟨D', t1, t2, _, t3, _, rfl, hsame, rfl, rfl⟩
  | bspline s =>
    obtain ⟨hw, hlen, hU, hV, hu0, hu1, hv0, hv1⟩ := hs
    refine ⟨_, rfl, ?_⟩
    obtain ⟨t1, t2, t3⟩ := tableRows_flatten s.nbV hV s.nbU s.ctrlpts [] hV (by simpa using hlen)
    obtain ⟨⟨l1, l2, l3⟩, L⟩ := rowsLoop_reads twin (tableRows s.nbV s.ctrlpts []) c
    have hne : tableRows s.nbV s.ctrlpts [] ≠ [] := by
      intro h; rw [h] at t2; simp at t2; omega
    have l2 := l2 (by
      obtain ⟨r, hr⟩ := List.exists_mem_of_ne_nil _ hne
      refine ⟨r, hr, fun h => ?_⟩
      have := t3 r hr
      rw [h] at this; simp at this; omega)
    refine ⟨l2, fun D => ?_⟩
    obtain ⟨D1, r1, k1, g1⟩ := L D
    have hread : readBsplineSurface s.degreeU s.degreeV (tableRows s.nbV s.ctrlpts []) s.multsU s.multsV s.knotsU s.knotsV = .ok s := by
      unfold readBsplineSurface
      have hlast : (tableRows s.nbV s.ctrlpts []).getLast? = some ((tableRows s.nbV s.ctrlpts []).getLast hne) := List.getLast?_eq_some_getLast hne
      have hll := t3 _ (List.getLast_mem hne)
      simp only [hlast, hll]
      rw [if_neg (by omega), t1, standardize_id hu0 hu1, standardize_id hv0 hv1, List.nil_append, hlen, Nat.mul_div_cancel _ hV]
      obtain ⟨⟩ := s
      simp only at hw
      rw [hw]
    obtain ⟨D', s1, s2, s3, -⟩ := Reads.step (c := c) (n := (rowsLoop (tableRows s.nbV s.ctrlpts []) c).2.2)
      (body := .bsplineSurface s.degreeU s.degreeV (rowsLoop (tableRows s.nbV s.ctrlpts []) c).2.1 s.multsU s.multsV s.knotsU s.knotsV)
      (v := .surface (.bspline s)) r1 k1 l2
      (by simp only [readEnt, g1, Except.bind, hread, Except.map])
    exact ⟨D', s1, s2, _, s3, _, rfl, rfl⟩

/-- C145 as it should be: the same radius. -/
def C145_full_statement : Prop :=
  ∀ (twin : Edge → Edge → Prop) (f : Frame3 ℝ) (r : ℝ) (c : ℕ), DirectOrthonormal f.basis → 0 < r →
    ∃ w, (Surf.cylinder f r).toStep c = .ok w ∧ Reads (exportReader twin) c w (· = .surface (.cylinder f r))

/-- **C145, counterexample.**  A cylinder of radius `1e-8` is read with the radius 0. -/
theorem C145_radius_counterexample : ¬ C145_full_statement := by
  intro h
  obtain ⟨w, hw, -, H⟩ := h (fun _ _ => False) unitCircle3.frame (1 / 10 ^ 8) 0 unitCircle3_good.direct (by norm_num)
  have hr : npRound 4 (1000 * (1 / 10 ^ 8) : ℝ) = 0 := by
    unfold npRound
    have : pyRound (1000 * (1 / 10 ^ 8) * 10 ^ 4 : ℝ) = 0 := by
      apply pyRound_unique
      norm_num
    rw [this]; norm_num
  simp only [Surf.toStep, Except.ok.injEq] at hw
  subst hw
  obtain ⟨-, H'⟩ := framed_reads (fun _ _ => False) (f := unitCircle3.frame)
    (body := fun i : ℕ => .cylindricalSurface i (npRound 4 (1000 * (1 / 10 ^ 8)))) (c := 0)
    (v := .surface (.cylinder unitCircle3.frame 0)) unitCircle3_good.direct
    (fun D n hn => by simp only [readEnt, getFrame, hn, exportReader, Except.map, hr, zero_mul])
  obtain ⟨D1, r1, -, v1, e1, rfl⟩ := H fun _ => none
  obtain ⟨D2, r2, -, v2, e2, rfl⟩ := H' fun _ => none
  rw [r1] at r2
  cases r2
  rw [e1] at e2
  simp only [Option.some.injEq, Val.surface.injEq, Surf.cylinder.injEq] at e2
  norm_num at e2

example : (Surf.torus unitCircle3.frame 2 (1 / 3)).Sound := ⟨unitCircle3_good.direct, by norm_num, by norm_num⟩

example : (Surf.bspline ⟨1, 1, [⟨0, 0, 0⟩, ⟨0, 1, 0⟩, ⟨1, 0, 0⟩, ⟨1, 1, 5⟩, ⟨2, 0, 0⟩, ⟨2, 1, 0⟩], 3, 2, [2, 1, 2], [2, 2], [0, 1 / 2, 1],
    [0, 1], none⟩).Sound := by
  simp [Surf.Sound]

/-! ## Faces and shells -/

lemma innerLoop_reads (twin : Edge → Edge → Prop) (ls : List (List Edge)) (hl : ∀ l ∈ ls, Ordered twin l) (c : ℕ) :
    ∃ r, innerLoop ls c = .ok r ∧ (c ≤ r.2.2 ∧ ∀ n ∈ r.2.1, n < r.2.2) ∧
    ∀ D : Dict, ∃ D' ls', readAll (exportReader twin) D r.1 = .ok D' ∧ (∀ n ≤ c, D' n = D n) ∧
      getAll (getContour D') r.2.1 = .ok ls' ∧ List.Forall₂ (List.Forall₂ SameEdge) ls ls' := by
  induction ls generalizing c with
  | nil => exact ⟨([], [], c), rfl, ⟨le_rfl, by simp⟩, fun D => ⟨D, [], rfl, fun _ _ => rfl, rfl, .nil⟩⟩
  | cons l ls ih =>
    obtain ⟨w, hw, h1, H⟩ := C144_contour_partial twin l (hl l (by simp)) c
    obtain ⟨r, hr, ⟨i1, i2⟩, I⟩ := ih (fun x hx => hl x (by simp [hx])) (w.2 + 1 + 1)
    refine ⟨_, by simp only [innerLoop, hw, hr]; rfl, ⟨by simp only; omega, ?_⟩, fun D => ?_⟩
    · intro n hn
      simp only [List.mem_cons] at hn ⊢
      rcases hn with rfl | hn
      · omega
      · exact i2 n hn
    · obtain ⟨D1, r1, k1, v1, e1, l', rfl, hsame⟩ := H D
      obtain ⟨D2, r2, k2, e2, -⟩ := Reads.step (c := c) (n := w.2 + 1) (body := .faceBound w.2 true) (v := .contour l') r1 k1
        (by omega) (by simp only [readEnt, getContour, e1, Except.map])
      obtain ⟨D3, ls', r3, k3, g3, f3⟩ := I D2
      refine ⟨D3, l' :: ls', readAll_append _ r2 r3, fun n hn => by rw [k3 n (by omega), k2 n hn], ?_, .cons hsame f3⟩
      exact getAll_cons (by simp only [getContour, k3 _ (Nat.le_succ _), e2]) g3

/-- **C146, faces.**  A face is read as the face on the same surface with the same contours in the same order. -/
theorem C146_face (twin : Edge → Edge → Prop) (f : Face) (hf : f.Sound twin) (c : ℕ) :
    ∃ w, f.toStep c = .ok w ∧ Reads (exportReader twin) c w (fun v => ∃ f', v = .face f' ∧ SameFace f f') := by
  obtain ⟨hs, ho, hi⟩ := hf
  obtain ⟨s, hs', s1, S⟩ := C145_surface_partial twin f.surface hs c
  obtain ⟨o, ho', o1, O⟩ := C144_contour_partial twin f.outer ho s.2
  obtain ⟨r, hr, ⟨i1, i2⟩, I⟩ := innerLoop_reads twin f.inner hi (o.2 + 2)
  refine ⟨_, by simp only [Face.toStep, hs', ho', hr]; rfl, by simp only; omega, fun D => ?_⟩
  obtain ⟨D1, r1, k1, v1, e1, s', rfl, hsame⟩ := S D
  obtain ⟨D2, r2, k2, v2, e2, l', rfl, hout⟩ := O D1
  obtain ⟨D3, r3, k3, e3, m3⟩ := Reads.step (c := c) (n := o.2 + 1) (body := .faceOuterBound o.2 true) (v := .contour l')
    (readAll_append _ r1 r2) (fun m hm => by rw [k2 m (by omega), k1 m hm]) (by omega)
    (by simp only [readEnt, if_true, getContour, e2, Except.map])
  obtain ⟨D4, ls', r4, k4, g4, f4⟩ := I D3
  have gs : D4 s.2 = some (.surface s') := by rw [k4 _ (by omega), m3 _ (by omega), k2 _ le_rfl, e1]
  have gb : getAll (getContour D4) ((o.2 + 1) :: r.2.1) = .ok (l' :: ls') :=
    getAll_cons (by simp only [getContour, k4 _ (Nat.le_succ _), e3]) g4
  obtain ⟨D', t1, t2, t3, -⟩ := Reads.step (c := c) (n := r.2.2) (body := .advancedFace ((o.2 + 1) :: r.2.1) s.2 true)
    (v := .face ⟨s', l', ls'⟩) (readAll_append _ r3 r4) (fun m hm => by rw [k4 m (by omega), k3 m hm]) (by omega)
    (by simp only [readEnt, gb, Except.bind, getSurface, gs, readFace])
  exact ⟨D', t1, t2, _, t3, _, rfl, hsame, hout, f4⟩

lemma facesLoop_reads (twin : Edge → Edge → Prop) (fs : List Face) (hl : ∀ f ∈ fs, f.Sound twin) (c : ℕ) :
    ∃ r, facesLoop fs c = .ok r ∧ (c ≤ r.2.2 ∧ ∀ n ∈ r.2.1, n ≤ r.2.2) ∧
    ∀ D : Dict, ∃ D' fs', readAll (exportReader twin) D r.1 = .ok D' ∧ (∀ n ≤ c, D' n = D n) ∧
      getAll (getFace D') r.2.1 = .ok fs' ∧ List.Forall₂ SameFace fs fs' := by
  induction fs generalizing c with
  | nil => exact ⟨([], [], c), rfl, ⟨le_rfl, by simp⟩, fun D => ⟨D, [], rfl, fun _ _ => rfl, rfl, .nil⟩⟩
  | cons f fs ih =>
    obtain ⟨w, hw, h1, H⟩ := C146_face twin f (hl f (by simp)) c
    obtain ⟨r, hr, ⟨i1, i2⟩, I⟩ := ih (fun x hx => hl x (by simp [hx])) w.2
    refine ⟨_, by simp only [facesLoop, hw, hr]; rfl, ⟨by simp only; omega, ?_⟩, fun D => ?_⟩
    · intro n hn
      simp only [List.mem_cons] at hn ⊢
      rcases hn with rfl | hn
      · exact i1
      · exact i2 n hn
    · obtain ⟨D1, r1, k1, v1, e1, f', rfl, hsame⟩ := H D
      obtain ⟨D3, fs', r3, k3, g3, f3⟩ := I D1
      refine ⟨D3, f' :: fs', readAll_append _ r1 r3, fun n hn => by rw [k3 n (by omega), k1 n hn], ?_, .cons hsame f3⟩
      exact getAll_cons (by simp only [getFace, k3 _ le_rfl, e1]) g3

/-- **C146, shells.**  A shell, open or closed, is read as a shell with the same faces in the same order. -/
theorem C146_shell (twin : Edge → Edge → Prop) (closed : Bool) (fs : List Face) (hl : ∀ f ∈ fs, f.Sound twin) (c : ℕ) :
    ∃ w, shellToStep closed fs c = .ok w ∧ Reads (exportReader twin) c w (fun v => ∃ fs', v = .shell fs' ∧ List.Forall₂ SameFace fs fs') := by
  obtain ⟨r, hr, ⟨i1, i2⟩, I⟩ := facesLoop_reads twin fs hl c
  refine ⟨_, by simp only [shellToStep, hr]; rfl, by simp only; omega, fun D => ?_⟩
  obtain ⟨D1, fs', r1, k1, g1, f1⟩ := I D
  obtain ⟨D2, r2, k2, e2, -⟩ := Reads.step (c := c) (n := r.2.2 + 1) (body := .shell r.2.1) (v := .shell fs') r1 k1 (by omega)
    (by simp only [readEnt, g1, Except.map])
  cases closed with
  | true =>
    obtain ⟨D3, r3, k3, e3, -⟩ := Reads.step (c := c) (n := r.2.2 + 1 + 1) (body := .solidBrep (r.2.2 + 1)) (v := .shell fs') r2 k2 (by omega)
      (by simp only [readEnt, getShell, e2])
    exact ⟨D3, r3, k3, _, e3, _, rfl, f1⟩
  | false =>
    obtain ⟨D3, r3, k3, e3, -⟩ := Reads.step (c := c) (n := r.2.2 + 1 + 1) (body := .surfaceModel [r.2.2 + 1]) (v := .shell fs') r2 k2 (by omega)
      (by simp only [readEnt, getShell, e2])
    exact ⟨D3, r3, k3, _, e3, _, rfl, f1⟩

/-- A half disc in a plane meets the conditions. -/
example : (⟨.plane unitCircle3.frame, halfDisc, []⟩ : Face).Sound (fun _ _ => False) :=
  ⟨unitCircle3_good.direct, halfDisc_ordered, by simp⟩

end Volmdlr.StepGeo
