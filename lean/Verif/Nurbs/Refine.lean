import Verif.Nurbs.SurfInsert

/-!
# C155: `refine_knot_vector_surface`
-/

namespace Volmdlr
section
variable {K : Type*} [Field K] [LinearOrder K] [IsStrictOrderedRing K]
variable {V : Type*} [AddCommGroup V] [Module K V]

theorem refineU_spec (tol : K) (s : BSurf K V) (hv : s.Valid tol) (us : List K) (hu : ∀ x ∈ us, InnerKnot tol s.kvU x) :
    ∀ t₀ : BSurf K V, ∃ t, BSurf.refineU tol s us t₀ = some t ∧
      ((us = [] ∧ t = t₀) ∨ ∃ x num, us.getLast? = some x ∧ num + s.kvU.count x = s.degreeU ∧ t.Valid tol ∧
        t.degreeU = s.degreeU ∧ t.degreeV = s.degreeV ∧
        t.kvU.Perm (List.replicate num x ++ s.kvU) ∧ t.kvV = s.kvV ∧
        ∀ u v, 0 ≤ u → u ≤ 1 → t.eval u v = s.eval u v) := by
  induction us with
  | nil => intro t₀; exact ⟨t₀, rfl, Or.inl ⟨rfl, rfl⟩⟩
  | cons x l ih =>
    intro t₀
    have hx := hu x (by simp)
    have hd0 : kvFun s.kvU s.degreeU = 0 := hv.uOK.dom0
    have hd1 : kvFun s.kvU s.nbU = 1 := hv.uOK.dom1
    have hlen : s.kvU.length = s.nbU + s.degreeU + 1 := hv.uOK.length
    have hm : findMultiplicity tol x s.kvU = s.kvU.count x := ok_mult hv.uOK hx
    have hle : s.kvU.count x ≤ s.degreeU := (ok_facts hv.uOK hx _ rfl).2.2.2.2.2.2.2.2
    obtain ⟨t, t1, t2, t3, t4, t5, t6, t7⟩ := insertU_full tol s hv x hx (s.degreeU - s.kvU.count x) (by omega) false
    have hstep : BSurf.refineU tol s (x :: l) t₀ = BSurf.refineU tol s l t := by
      rw [BSurf.refineU, hlen, show s.nbU + s.degreeU + 1 - (s.degreeU + 1) = s.nbU by omega, hd0, hd1, if_neg (by
        rintro (h | h)
        · exact hx.1.ne' h
        · exact hx.2.1.ne h), hm, t1]
    rw [hstep]
    obtain ⟨r, r1, r2⟩ := ih (fun y hy => hu y (by simp [hy])) t
    refine ⟨r, r1, Or.inr ?_⟩
    rcases r2 with ⟨rfl, rfl⟩ | ⟨y, num, h, rest⟩
    · exact ⟨x, _, rfl, by omega, t2, t3, t4, t5, t6, t7⟩
    · refine ⟨y, num, ?_, rest⟩
      rw [List.getLast?_cons, h]; rfl

theorem refineV_spec (tol : K) (s : BSurf K V) (hv : s.Valid tol) (vs : List K) :
    ∀ t₀ : BSurf K V, t₀.Valid tol → (∀ y ∈ vs, InnerKnot tol t₀.kvV y) →
      (∀ a ∈ vs, ∀ b ∈ vs, a ≠ b → tol < |a - b|) →
      ∃ t, BSurf.refineV tol s vs t₀ = some t ∧ t.Valid tol ∧ t.degreeU = t₀.degreeU ∧ t.degreeV = t₀.degreeV ∧
        t.kvU = t₀.kvU ∧ (∀ y, t.kvV.count y = if y ∈ vs then t₀.degreeV else t₀.kvV.count y) ∧
        ∀ u v, 0 ≤ v → v ≤ 1 → t.eval u v = t₀.eval u v := by
  induction vs with
  | nil => intro t₀ h _ _; exact ⟨t₀, rfl, h, rfl, rfl, rfl, by simp, fun _ _ _ _ => rfl⟩
  | cons x l ih =>
    intro t₀ h0 hw hsep
    have hx := hw x (by simp)
    have hd0 : kvFun s.kvV s.degreeV = 0 := hv.vOK.dom0
    have hd1 : kvFun s.kvV s.nbV = 1 := hv.vOK.dom1
    have hlen : s.kvV.length = s.nbV + s.degreeV + 1 := hv.vOK.length
    have hm : findMultiplicity tol x t₀.kvV = t₀.kvV.count x := ok_mult h0.vOK hx
    have hle : t₀.kvV.count x ≤ t₀.degreeV := (ok_facts h0.vOK hx _ rfl).2.2.2.2.2.2.2.2
    obtain ⟨t, t1, t2, t3, t4, t5, t6, t7⟩ := insertV_full tol t₀ h0 x hx (t₀.degreeV - t₀.kvV.count x) (by omega) false
    have hstep : BSurf.refineV tol s (x :: l) t₀ = BSurf.refineV tol s l t := by
      rw [BSurf.refineV, hlen, show s.nbV + s.degreeV + 1 - (s.degreeV + 1) = s.nbV by omega, hd0, hd1, if_neg (by
        rintro (h | h)
        · exact hx.1.ne' h
        · exact hx.2.1.ne h), hm, t1]
    rw [hstep]
    have hcount : ∀ y, t.kvV.count y = if y = x then t₀.degreeV else t₀.kvV.count y := by
      intro y
      rw [t6.count_eq, List.count_append, List.count_replicate]
      by_cases hy : y = x
      · subst hy; simp; omega
      · simp [hy, Ne.symm hy]
    obtain ⟨r, r1, r2, r3, r4, r5, r6, r7⟩ := ih t t2 (fun y hy => by
      refine ⟨(hw y (by simp [hy])).1, (hw y (by simp [hy])).2.1, ?_⟩
      intro a ha hne
      have ha' := t6.subset ha
      rcases List.mem_append.1 ha' with h | h
      · rw [List.eq_of_mem_replicate h] at hne ⊢
        exact hsep y (by simp [hy]) x (by simp) (Ne.symm hne)
      · exact (hw y (by simp [hy])).2.2 a h hne)
      (fun a ha b hb => hsep a (by simp [ha]) b (by simp [hb]))
    refine ⟨r, r1, r2, r3.trans t3, r4.trans t4, r5.trans t5, ?_, fun u v h1 h2 => (r7 u v h1 h2).trans (t7 u v h1 h2)⟩
    intro y
    rw [r6, hcount, t4]
    by_cases h1 : y ∈ l
    · simp [h1]
    · by_cases h2 : y = x <;> simp [h1, h2]

/-- **C155** refining a valid surface at inner parameters (those of v separated by more than the tolerance) gives a
valid surface of the same degrees and the same shape; each v parameter is then a knot of the multiplicity of the
degree, and so is the **last** u parameter; the other multiplicities are unchanged.  (Missing: the other u
parameters, see `C155_counterexample`.) -/
theorem C155_refine_partial (tol : K) (s : BSurf K V) (hv : s.Valid tol) (us vs : List K)
    (hu : ∀ x ∈ us, InnerKnot tol s.kvU x) (hw : ∀ y ∈ vs, InnerKnot tol s.kvV y)
    (hsep : ∀ a ∈ vs, ∀ b ∈ vs, a ≠ b → tol < |a - b|) :
    ∃ t, s.refine tol us vs = some t ∧ t.Valid tol ∧ t.degreeU = s.degreeU ∧ t.degreeV = s.degreeV ∧
      (∀ u v, 0 ≤ u → u ≤ 1 → 0 ≤ v → v ≤ 1 → t.eval u v = s.eval u v) ∧
      (∀ y, t.kvV.count y = if y ∈ vs then s.degreeV else s.kvV.count y) ∧
      ∀ x, t.kvU.count x = if us.getLast? = some x then s.degreeU else s.kvU.count x := by
  obtain ⟨t, t1, t2⟩ := refineU_spec tol s hv us hu s
  have key : t.Valid tol ∧ t.degreeU = s.degreeU ∧ t.degreeV = s.degreeV ∧ t.kvV = s.kvV ∧
      (∀ u v, 0 ≤ u → u ≤ 1 → t.eval u v = s.eval u v) ∧
      ∀ x, t.kvU.count x = if us.getLast? = some x then s.degreeU else s.kvU.count x := by
    rcases t2 with ⟨rfl, rfl⟩ | ⟨x, num, h1, h2, h3, h4, h5, h6, h7, h8⟩
    · exact ⟨hv, rfl, rfl, rfl, fun _ _ _ _ => rfl, by simp⟩
    · refine ⟨h3, h4, h5, h7, h8, fun y => ?_⟩
      rw [h6.count_eq, List.count_append, List.count_replicate, h1]
      by_cases hy : x = y
      · subst hy; simp; omega
      · simp [hy]
  obtain ⟨k1, k2, k3, k4, k5, k6⟩ := key
  obtain ⟨r, r1, r2, r3, r4, r5, r6, r7⟩ := refineV_spec tol s hv vs t k1 (by rw [k4]; exact hw) hsep
  refine ⟨r, ?_, r2, r3.trans k2, r4.trans k3, ?_, ?_, ?_⟩
  · unfold BSurf.refine; rw [t1]; exact r1
  · intro u v h1 h2 h3 h4
    rw [r7 u v h3 h4, k5 u v h1 h2]
  · intro y; rw [r6, k3, k4]
  · intro x; rw [r5, k6]

omit [IsStrictOrderedRing K] in
theorem insertU_false (tol : K) (s : BSurf K V) (x : K) (num : ℕ) : ∃ t, s.insertU tol x num false = some t := by
  unfold BSurf.insertU
  split_ifs with h
  · exact ⟨_, rfl⟩
  · dsimp only
    rw [if_neg (by simp)]
    cases s.weights <;> exact ⟨_, rfl⟩

omit [IsStrictOrderedRing K] in
theorem insertV_false (tol : K) (s : BSurf K V) (x : K) (num : ℕ) : ∃ t, s.insertV tol x num false = some t := by
  unfold BSurf.insertV
  split_ifs with h
  · exact ⟨_, rfl⟩
  · dsimp only
    rw [if_neg (by simp)]
    cases s.weights <;> exact ⟨_, rfl⟩

/-- **C155** a refinement is refused exactly when one of the parameters is an end of the domain. -/
theorem C155_refused (tol : K) (s : BSurf K V) (hv : s.Valid tol) (us vs : List K) :
    s.refine tol us vs = none ↔ 0 ∈ us ∨ 1 ∈ us ∨ 0 ∈ vs ∨ 1 ∈ vs := by
  have hd0 : kvFun s.kvU s.degreeU = 0 := hv.uOK.dom0
  have hd1 : kvFun s.kvU s.nbU = 1 := hv.uOK.dom1
  have hlen : s.kvU.length = s.nbU + s.degreeU + 1 := hv.uOK.length
  have hd0' : kvFun s.kvV s.degreeV = 0 := hv.vOK.dom0
  have hd1' : kvFun s.kvV s.nbV = 1 := hv.vOK.dom1
  have hlen' : s.kvV.length = s.nbV + s.degreeV + 1 := hv.vOK.length
  have hU : ∀ t₀ : BSurf K V, BSurf.refineU tol s us t₀ = none ↔ 0 ∈ us ∨ 1 ∈ us := by
    induction us with
    | nil => intro t₀; simp [BSurf.refineU]
    | cons x l ih =>
      intro t₀
      unfold BSurf.refineU
      rw [hlen, show s.nbU + s.degreeU + 1 - (s.degreeU + 1) = s.nbU by omega, hd0, hd1]
      by_cases hx : x = 0 ∨ x = 1
      · rw [if_pos hx]
        rcases hx with rfl | rfl <;> simp
      · rw [if_neg hx]
        obtain ⟨t, ht⟩ := insertU_false tol s x (s.degreeU - findMultiplicity tol x s.kvU)
        rw [ht]
        dsimp only
        rw [ih t]
        push Not at hx
        simp [hx.1.symm, hx.2.symm]
  have hV : ∀ t₀ : BSurf K V, BSurf.refineV tol s vs t₀ = none ↔ 0 ∈ vs ∨ 1 ∈ vs := by
    induction vs with
    | nil => intro t₀; simp [BSurf.refineV]
    | cons x l ih =>
      intro t₀
      unfold BSurf.refineV
      rw [hlen', show s.nbV + s.degreeV + 1 - (s.degreeV + 1) = s.nbV by omega, hd0', hd1']
      by_cases hx : x = 0 ∨ x = 1
      · rw [if_pos hx]
        rcases hx with rfl | rfl <;> simp
      · rw [if_neg hx]
        obtain ⟨t, ht⟩ := insertV_false tol t₀ x (t₀.degreeV - findMultiplicity tol x t₀.kvV)
        rw [ht]
        dsimp only
        rw [ih t]
        push Not at hx
        simp [hx.1.symm, hx.2.symm]
  unfold BSurf.refine
  cases h : BSurf.refineU tol s us s with
  | none =>
    have := (hU s).1 h
    simp only [true_iff]
    tauto
  | some t =>
    have h2 : ¬ (0 ∈ us ∨ 1 ∈ us) := fun hc => by
      rw [(hU s).2 hc] at h; cases h
    dsimp only
    rw [hV t]
    tauto

example : (exampleSurf (some exampleWeights)).refine (1 / 10 ^ 15) [1 / 4, 1] [] = none :=
  (C155_refused _ _ exampleSurf_validw _ _).2 (Or.inr (Or.inl (by simp)))
example : ∃ t, (exampleSurf (some exampleWeights)).refine (1 / 10 ^ 15) [1 / 4] [1 / 2, 1 / 5] = some t ∧
    (∀ u v, 0 ≤ u → u ≤ 1 → 0 ≤ v → v ≤ 1 → t.eval u v = (exampleSurf (some exampleWeights)).eval u v) ∧
    t.kvV.count (1 / 5) = 1 := by
  obtain ⟨t, h1, -, -, -, h2, h3, -⟩ := C155_refine_partial (1 / 10 ^ 15) _ exampleSurf_validw [1 / 4] [1 / 2, 1 / 5]
    (by simpa using exampleSurf_innerU _)
    (by rw [exampleSurf_kvV]; unfold InnerKnot; decide +kernel) (by decide +kernel)
  refine ⟨t, h1, h2, ?_⟩
  rw [h3, if_pos (by simp)]; rfl

/-- The full property: every u parameter becomes a knot of the multiplicity of the degree. -/
def C155_full_statement : Prop :=
  ∀ (s : BSurf ℚ (ℚ × ℚ × ℚ)), s.Valid (1 / 10 ^ 15) → ∀ us : List ℚ,
    (∀ x ∈ us, InnerKnot (1 / 10 ^ 15) s.kvU x) → (∀ a ∈ us, ∀ b ∈ us, a ≠ b → 1 / 10 ^ 15 < |a - b|) →
    ∃ t, s.refine (1 / 10 ^ 15) us [] = some t ∧ ∀ x ∈ us, t.kvU.count x = s.degreeU

/-- **C155** it is false: each round of the u loop starts again from the given surface, so that only the last u
parameter is inserted. -/
theorem C155_counterexample : ¬ C155_full_statement := by
  intro h
  have hin : ∀ x ∈ [1 / 4, (3 / 4 : ℚ)], InnerKnot (1 / 10 ^ 15) (exampleSurf none).kvU x := by
    rw [exampleSurf_kvU]; unfold InnerKnot; decide +kernel
  have hval : (exampleSurf none).Valid (1 / 10 ^ 15) := exampleSurf_valid _ (by simp) (by simp)
  obtain ⟨t, h1, h2⟩ := h (exampleSurf none) hval [1 / 4, 3 / 4] hin (by decide +kernel)
  obtain ⟨r, r1, -, -, -, -, -, r2⟩ := C155_refine_partial (1 / 10 ^ 15) _ hval [1 / 4, 3 / 4] [] hin (by simp) (by simp)
  rw [h1] at r1
  cases r1
  have h3 := h2 (1 / 4) (by simp)
  rw [r2, if_neg (by simp; norm_num), exampleSurf_kvU] at h3
  revert h3
  decide +kernel

end
end Volmdlr
