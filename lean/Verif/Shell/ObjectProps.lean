import Verif.Shell.Model
import Verif.Tri.AttrProps
import Verif.Mesh.Props
import Mathlib.Data.List.Perm.Subperm

/-!
# Shell objects (C105), normals of closed triangle shells (C106), display shells (C107)
-/

namespace Volmdlr.Shells

/-! ## Equality and hash -/

section
variable {F : Type*} [DecidableEq F]

/-- Full statement: equality of shells is symmetric, and equal shells have the same hash (what is hashed is the tuple of the faces). -/
def C105_equality_full_statement (F : Type*) [DecidableEq F] : Prop :=
  ∀ s t : Shell F, s.eq t = true → t.eq s = true ∧ s.hashed = t.hashed

/-- C105: equality of shells without repeated faces: the same faces in any order, so that it is reflexive, symmetric and transitive; the tuples
hashed are the same up to order.  Missing: shells with repeated faces and the order of the tuples, see the counterexamples. -/
theorem C105_equality_partial (s t : Shell F) (hs : s.faces.Nodup) (ht : t.faces.Nodup) :
    (s.eq t = true ↔ s.faces.Perm t.faces) ∧ (s.eq t = true ↔ t.eq s = true) ∧ (s.eq t = true → s.hashed.Perm t.hashed) := by
  have key : ∀ s t : Shell F, s.faces.Nodup → t.faces.Nodup → (s.eq t = true ↔ s.faces.Perm t.faces) := by
    intro s t hs ht
    unfold Shell.eq
    by_cases hl : s.faces.length = t.faces.length
    · rw [if_neg (by simpa using hl)]
      by_cases ha : t.faces.all fun f => decide (f ∈ s.faces)
      · rw [if_pos ha]
        simp only [true_iff]
        have hsub : t.faces ⊆ s.faces := by
          intro f hf
          simpa using List.all_eq_true.1 ha f hf
        exact ((List.subperm_of_subset ht hsub).perm_of_length_le hl.le).symm
      · rw [if_neg ha]
        constructor
        · intro h; cases h
        · intro h
          exfalso
          refine ha ?_
          rw [List.all_eq_true]
          intro f hf
          simpa using h.mem_iff.2 hf
    · rw [if_pos (by simpa using hl)]
      constructor
      · intro h; cases h
      · intro h; exact absurd h.length_eq hl
  refine ⟨key s t hs ht, ?_, fun h => (key s t hs ht).1 h⟩
  rw [key s t hs ht, key t s ht hs]
  exact List.perm_comm

/-- C105: shells of the same faces, one of them repeated, are equal one way and not the other. -/
theorem C105_symmetry_counterexample (a b : F) (h : a ≠ b) :
    ∃ s t : Shell F, s.eq t = true ∧ t.eq s = false :=
  ⟨⟨[a, b], none, 1, ""⟩, ⟨[a, a], none, 1, ""⟩, by simp [Shell.eq], by simp [Shell.eq, Ne.symm h]⟩

/-- C105: two faces in another order: the shells are equal and the tuples hashed are different. -/
theorem C105_hash_counterexample (a b : F) (h : a ≠ b) :
    ∃ s t : Shell F, s.faces.Nodup ∧ t.faces.Nodup ∧ s.eq t = true ∧ t.eq s = true ∧ s.hashed ≠ t.hashed :=
  ⟨⟨[a, b], none, 1, ""⟩, ⟨[b, a], none, 1, ""⟩, by simp [h], by simp [Ne.symm h], by simp [Shell.eq], by simp [Shell.eq], by simp [Shell.hashed, h]⟩

theorem C105_equality_counterexample : ¬C105_equality_full_statement ℕ := by
  intro h
  obtain ⟨s, t, h1, h2⟩ := C105_symmetry_counterexample 0 1 (by decide)
  rw [(h s t h1).1] at h2
  cases h2

/-- Full statement: shells with equal data have as many faces, equal one to one, and the same data hash. -/
def C105_data_full_statement (F : Type*) : Prop :=
  ∀ (faceEq : F → F → Bool) (s t : Shell F), s.dataEq faceEq t = true → s.dataHash = t.dataHash

omit [DecidableEq F] in
/-- C105: data equality of shells of as many faces: the faces have equal data one to one; conversely, faces equal one to one give equal data and
equal data hash. -/
theorem C105_data_partial (faceEq : F → F → Bool) (s t : Shell F) (h : s.faces.length = t.faces.length) :
    (s.dataEq faceEq t = true ↔ List.Forall₂ (fun a b => faceEq a b = true) s.faces t.faces) ∧ s.dataHash = t.dataHash := by
  refine ⟨?_, h⟩
  unfold Shell.dataEq
  obtain ⟨l, _, _, _⟩ := s
  obtain ⟨m, _, _, _⟩ := t
  dsimp only at h ⊢
  induction l generalizing m with
  | nil =>
    cases m with
    | nil => simp
    | cons b m => simp at h
  | cons a l ih =>
    cases m with
    | nil => simp at h
    | cons b m =>
      rw [List.zip_cons_cons, List.all_cons, Bool.and_eq_true, List.forall₂_cons, ih m (by simpa using h)]

omit [DecidableEq F] in
/-- C105: a shell has the same data as any shell whose faces begin with its own: in particular the shell without faces as all others. -/
theorem C105_data_prefix (faceEq : F → F → Bool) (hr : ∀ f, faceEq f f = true) (s t : Shell F) (l : List F) (h : t.faces = s.faces ++ l) :
    s.dataEq faceEq t = true := by
  unfold Shell.dataEq
  rw [h]
  induction s.faces with
  | nil => simp
  | cons a m ih => rw [List.cons_append, List.zip_cons_cons, List.all_cons, ih, hr]; rfl

theorem C105_data_counterexample : ¬C105_data_full_statement ℕ := by
  intro h
  have := h (fun a b => a == b) ⟨[], none, 1, ""⟩ ⟨[0], none, 1, ""⟩ (C105_data_prefix _ (by simp) _ _ [0] rfl)
  simp [Shell.dataHash] at this

/-- Full statement: a shell built without a color has the default color. -/
def C105_color_full_statement (F : Type*) : Prop := ∀ faces : List F, (Shell.make faces).color = some defaultColor

omit [DecidableEq F] in
/-- C105: it has none. -/
theorem C105_color_counterexample : ¬C105_color_full_statement F := by
  intro h
  have := h []
  simp [Shell.make] at this

example : ∃ s t : Shell ℕ, s.faces.Nodup ∧ t.faces.Nodup ∧ s.faces.length = t.faces.length ∧ s.faces ≠ t.faces ∧ s.eq t = true :=
  ⟨⟨[0, 1, 2], none, 1, ""⟩, ⟨[2, 0, 1], none, 1, ""⟩, by decide, by decide, by decide, by decide, by decide⟩

end

/-! ## Normals -/

open Triangles

lemma above_of {t : Tri} {n : V3 ℝ} (h : normal t = some n) (d : ℝ) : above d t = some (middle t + V3.smul d n) := by
  unfold above; rw [h]; rfl

/-- The result of reversing some faces: each face of the result is the face of the shell, or this face reversed, and the test fails on it. -/
lemma turned_faces (keep : V3 ℝ → Bool) (inside : V3 ℝ → Bool) (faces : List Tri) (h : ∀ t ∈ faces, area t ≠ 0)
    (h1 : ∀ t ∈ faces, ∀ n, normal t = some n → keep (middle t + V3.smul (1 / 10 ^ 5) n) = false → keep (middle t + V3.smul (-(1 / 10 ^ 5)) n) = true)
    (hk : ∀ p, inside p = !keep p) :
    ∃ l, (faces.mapM fun t : Tri => (above (1 / 10 ^ 5) t).map fun p => if inside p then (t.2.2, t.2.1, t.1) else t) = some l ∧
      List.Forall₂ (fun t u => u = t ∨ u = (t.2.2, t.2.1, t.1)) faces l ∧
      ∀ u ∈ l, ∃ n, normal u = some n ∧ keep (middle u + V3.smul (1 / 10 ^ 5) n) = true := by
  induction faces with
  | nil => exact ⟨[], rfl, List.Forall₂.nil, by simp⟩
  | cons t faces ih =>
    obtain ⟨l, e, f, k⟩ := ih (fun u hu => h u (List.mem_cons_of_mem _ hu)) (fun u hu => h1 u (List.mem_cons_of_mem _ hu))
    obtain ⟨n, hn, -⟩ := (C99_normal t).2 (h t List.mem_cons_self)
    have hr := C99_reversed t.1 t.2.1 t.2.2 n hn
    rw [List.mapM_cons, above_of hn, e]
    simp only [Option.map_some, Option.pure_def, Option.bind_eq_bind, Option.bind_some]
    by_cases hi : inside (middle t + V3.smul (1 / 10 ^ 5) n) = true
    · rw [if_pos hi]
      refine ⟨_, rfl, List.Forall₂.cons (Or.inr rfl) f, ?_⟩
      intro u hu
      rcases List.mem_cons.1 hu with rfl | hu
      · refine ⟨_, hr.1, ?_⟩
        rw [hr.2]
        have e2 : V3.smul (1 / 10 ^ 5) (-n) = V3.smul (-(1 / 10 ^ 5)) n := by ext <;> simp
        rw [e2]
        refine h1 t List.mem_cons_self n hn ?_
        rw [hk] at hi
        simpa using hi
      · exact k u hu
    · rw [if_neg hi]
      refine ⟨_, rfl, List.Forall₂.cons (Or.inl rfl) f, ?_⟩
      intro u hu
      rcases List.mem_cons.1 hu with rfl | hu
      · refine ⟨n, hn, ?_⟩
        rw [hk] at hi
        simpa using hi
      · exact k u hu

/-- The two sides of a face, at `1e-5` from its middle: the points which are inside the shell (specification). -/
noncomputable def insideSides (inside : V3 ℝ → Bool) (t : Tri) (n : V3 ℝ) : Bool × Bool :=
  (inside (middle t + V3.smul (1 / 10 ^ 5) n), inside (middle t + V3.smul (-(1 / 10 ^ 5)) n))

/-- C106: `turn_normals_outwards` returns the faces, some of them reversed, in their order; when no face has the inside of the shell on both sides, at
`1e-5` of its middle, the points at `1e-5` along the new normals are all outside.  Missing: the test `are_normals_pointing_outwards` looks at `1e-4`. -/
theorem C106_outwards_partial (inside : V3 ℝ → Bool) (faces : List Tri) (h : ∀ t ∈ faces, area t ≠ 0)
    (h1 : ∀ t ∈ faces, ∀ n, normal t = some n → insideSides inside t n ≠ (true, true)) :
    ∃ l, turnOutwards inside faces = some l ∧ List.Forall₂ (fun t u => u = t ∨ u = (t.2.2, t.2.1, t.1)) faces l ∧
      ∀ u ∈ l, ∃ n, normal u = some n ∧ inside (middle u + V3.smul (1 / 10 ^ 5) n) = false := by
  obtain ⟨l, e, f, k⟩ := turned_faces (fun p => !inside p) inside faces h (by
    intro t ht n hn hi
    have := h1 t ht n hn
    unfold insideSides at this
    rw [((Bool.not_eq_false' _) ▸ hi : inside (middle t + V3.smul (1 / 10 ^ 5) n) = true)] at this
    change (!inside (middle t + V3.smul (-(1 / 10 ^ 5)) n)) = true
    generalize inside (middle t + V3.smul (-(1 / 10 ^ 5)) n) = b at this ⊢
    cases b
    · rfl
    · exact absurd rfl this) (by simp)
  refine ⟨l, e, f, ?_⟩
  intro u hu
  obtain ⟨n, hn, hk⟩ := k u hu
  exact ⟨n, hn, (Bool.not_eq_true' _ ▸ hk)⟩

/-- C106: the same for `turn_normals_inwards`, when no face has the outside on both sides. -/
theorem C106_inwards_partial (inside : V3 ℝ → Bool) (faces : List Tri) (h : ∀ t ∈ faces, area t ≠ 0)
    (h1 : ∀ t ∈ faces, ∀ n, normal t = some n → insideSides inside t n ≠ (false, false)) :
    ∃ l, turnInwards inside faces = some l ∧ List.Forall₂ (fun t u => u = t ∨ u = (t.2.2, t.2.1, t.1)) faces l ∧
      ∀ u ∈ l, ∃ n, normal u = some n ∧ inside (middle u + V3.smul (1 / 10 ^ 5) n) = true := by
  obtain ⟨l, e, f, k⟩ := turned_faces inside (fun p => !inside p) faces h (by
    intro t ht n hn hi
    have := h1 t ht n hn
    unfold insideSides at this
    rw [hi] at this
    generalize inside (middle t + V3.smul (-(1 / 10 ^ 5)) n) = b at this ⊢
    cases b
    · exact absurd rfl this
    · rfl) (by simp)
  exact ⟨l, e, f, k⟩

/-- C106: the tests say what they say: all the points at `1e-4` along the normals are outside (inside). -/
theorem C106_tests (inside : V3 ℝ → Bool) (faces : List Tri) (h : ∀ t ∈ faces, area t ≠ 0) :
    (∃ b, normalsOutwards inside faces = some b ∧ (b = true ↔ ∀ t ∈ faces, ∀ n, normal t = some n → inside (middle t + V3.smul (1 / 10 ^ 4) n) = false)) ∧
    (∃ b, normalsInwards inside faces = some b ∧ (b = true ↔ ∀ t ∈ faces, ∀ n, normal t = some n → inside (middle t + V3.smul (1 / 10 ^ 4) n) = true)) := by
  have key : ∃ l : List Bool, (faces.mapM fun t : Tri => (above (1 / 10 ^ 4) t).map inside) = some l ∧
      List.Forall₂ (fun t b => ∀ n, normal t = some n → inside (middle t + V3.smul (1 / 10 ^ 4) n) = b) faces l := by
    induction faces with
    | nil => exact ⟨[], rfl, List.Forall₂.nil⟩
    | cons t faces ih =>
      obtain ⟨l, e, f⟩ := ih (fun u hu => h u (List.mem_cons_of_mem _ hu))
      obtain ⟨n, hn, -⟩ := (C99_normal t).2 (h t List.mem_cons_self)
      rw [List.mapM_cons, above_of hn, e]
      refine ⟨_, rfl, List.Forall₂.cons ?_ f⟩
      intro n' hn'
      rw [hn] at hn'
      rw [Option.some.inj hn']
  obtain ⟨l, e, f⟩ := key
  unfold normalsOutwards normalsInwards
  rw [e]
  refine ⟨⟨_, rfl, ?_⟩, ⟨_, rfl, ?_⟩⟩
  all_goals
    clear e
    induction f with
    | nil => simp
    | @cons t b faces l hb f ih =>
      have ih := ih (fun u hu => h u (List.mem_cons_of_mem _ hu))
      obtain ⟨n, hn, -⟩ := (C99_normal t).2 (h t List.mem_cons_self)
      have hb' := hb n hn
      dsimp only at ih ⊢
      rw [List.any_cons, Bool.not_or, Bool.and_eq_true, ih, List.forall_mem_cons]
      refine and_congr ?_ Iff.rfl
      constructor
      · intro hx n' hn'
        rw [hb n' hn']
        simpa using hx
      · intro hx
        have := hx n hn
        rw [hb'] at this
        simpa using this

/-- Full statement: the normals of a shell turned inwards pass the test `are_normals_pointing_inwards`. -/
def C106_inwards_full_statement : Prop :=
  ∀ (inside : V3 ℝ → Bool) (faces l : List Tri), (∀ t ∈ faces, area t ≠ 0) →
    (∀ t ∈ faces, ∀ n, normal t = some n → insideSides inside t n = (true, false) ∨ insideSides inside t n = (false, true)) →
    turnInwards inside faces = some l → normalsInwards inside l = some true

lemma normal_of (t : Tri) (n : V3 ℝ) (k : ℝ) (hk : 0 < k) (hn : V3.dot n n = 1) (hc : V3.cross (t.2.1 - t.1) (t.2.2 - t.1) = V3.smul k n) :
    area t ≠ 0 ∧ normal t = some n := by
  have ha : 2 * area t = k := by
    have : V3.norm (V3.smul k n) = k := by
      refine (sq_eq_sq₀ (V3.norm_nonneg _) hk.le).1 ?_
      rw [V3.norm_pow_two]
      simp only [V3.dot, V3.smul_x, V3.smul_y, V3.smul_z] at *
      linear_combination k ^ 2 * hn
    rw [C99_area, hc, this]; ring
  have h0 : area t ≠ 0 := by
    intro h
    rw [h] at ha
    linarith
  obtain ⟨m, hm, -, -, -, e⟩ := (C99_normal t).2 h0
  refine ⟨h0, ?_⟩
  rw [hm]
  rw [hc, ha] at e
  congr 1
  have x := congrArg V3.x e
  have y := congrArg V3.y e
  have z := congrArg V3.z e
  simp only [V3.smul_x, V3.smul_y, V3.smul_z] at x y z
  ext
  · exact mul_right_cancel₀ hk.ne' x.symm
  · exact mul_right_cancel₀ hk.ne' y.symm
  · exact mul_right_cancel₀ hk.ne' z.symm

/-- The twelve triangles of the faces of the slab of sides 2, 2 and `5e-5`, each with its normal, outwards, and twice its area. -/
noncomputable def slab : List (Tri × V3 ℝ × ℝ) :=
  let h : ℝ := 5 / 10 ^ 5
  [((⟨1, -1, h⟩, ⟨1, 1, h⟩, ⟨-1, 1, h⟩), ⟨0, 0, 1⟩, 4), ((⟨1, -1, h⟩, ⟨-1, 1, h⟩, ⟨-1, -1, h⟩), ⟨0, 0, 1⟩, 4),
   ((⟨1, -1, 0⟩, ⟨-1, 1, 0⟩, ⟨1, 1, 0⟩), ⟨0, 0, -1⟩, 4), ((⟨1, -1, 0⟩, ⟨-1, -1, 0⟩, ⟨-1, 1, 0⟩), ⟨0, 0, -1⟩, 4),
   ((⟨1, -1, 0⟩, ⟨1, 1, 0⟩, ⟨1, 1, h⟩), ⟨1, 0, 0⟩, 2 * h), ((⟨1, -1, 0⟩, ⟨1, 1, h⟩, ⟨1, -1, h⟩), ⟨1, 0, 0⟩, 2 * h),
   ((⟨-1, -1, 0⟩, ⟨-1, 1, h⟩, ⟨-1, 1, 0⟩), ⟨-1, 0, 0⟩, 2 * h), ((⟨-1, -1, 0⟩, ⟨-1, -1, h⟩, ⟨-1, 1, h⟩), ⟨-1, 0, 0⟩, 2 * h),
   ((⟨-1, 1, 0⟩, ⟨1, 1, h⟩, ⟨1, 1, 0⟩), ⟨0, 1, 0⟩, 2 * h), ((⟨-1, 1, 0⟩, ⟨-1, 1, h⟩, ⟨1, 1, h⟩), ⟨0, 1, 0⟩, 2 * h),
   ((⟨-1, -1, 0⟩, ⟨1, -1, 0⟩, ⟨1, -1, h⟩), ⟨0, -1, 0⟩, 2 * h), ((⟨-1, -1, 0⟩, ⟨1, -1, h⟩, ⟨-1, -1, h⟩), ⟨0, -1, 0⟩, 2 * h)]

open Classical in
/-- The points of the slab. -/
noncomputable def inSlab (p : V3 ℝ) : Bool := decide (-1 ≤ p.x ∧ p.x ≤ 1 ∧ -1 ≤ p.y ∧ p.y ≤ 1 ∧ 0 ≤ p.z ∧ p.z ≤ 5 / 10 ^ 5)

lemma slab_normal : ∀ s ∈ slab, area s.1 ≠ 0 ∧ normal s.1 = some s.2.1 := by
  have : ∀ s ∈ slab, 0 < s.2.2 ∧ V3.dot s.2.1 s.2.1 = 1 ∧ V3.cross (s.1.2.1 - s.1.1) (s.1.2.2 - s.1.1) = V3.smul s.2.2 s.2.1 := by
    simp only [slab, List.forall_mem_cons, List.not_mem_nil, IsEmpty.forall_iff, implies_true, and_true]
    refine ⟨?_, ?_, ?_, ?_, ?_, ?_, ?_, ?_, ?_, ?_, ?_, ?_⟩ <;>
      refine ⟨by norm_num, by norm_num [V3.dot], ?_⟩ <;> ext <;>
      simp only [V3.cross, V3.sub_x, V3.sub_y, V3.sub_z, V3.smul_x, V3.smul_y, V3.smul_z] <;> norm_num
  intro s hs
  obtain ⟨a, b, c⟩ := this s hs
  exact normal_of _ _ _ a b c

lemma slab_sides : ∀ s ∈ slab, insideSides inSlab s.1 s.2.1 = (false, true) := by
  simp only [slab, List.forall_mem_cons, List.not_mem_nil, IsEmpty.forall_iff, implies_true, and_true]
  refine ⟨?_, ?_, ?_, ?_, ?_, ?_, ?_, ?_, ?_, ?_, ?_, ?_⟩ <;>
    simp only [insideSides, inSlab, middle, Prod.mk.injEq, decide_eq_true_eq, decide_eq_false_iff_not, V3.add_x, V3.add_y, V3.add_z, V3.smul_x, V3.smul_y, V3.smul_z] <;>
    norm_num

/-- C106: the slab of thickness `5e-5`: its normals are turned inwards, and the test says they are not: it looks at `1e-4`, beyond the slab. -/
theorem C106_inwards_counterexample : ¬C106_inwards_full_statement := by
  intro hall
  have harea : ∀ t ∈ slab.map Prod.fst, area t ≠ 0 := by
    intro t ht
    obtain ⟨s, hs, rfl⟩ := List.mem_map.1 ht
    exact (slab_normal s hs).1
  have hside : ∀ t ∈ slab.map Prod.fst, ∀ n, normal t = some n → insideSides inSlab t n = (false, true) := by
    intro t ht n hn
    obtain ⟨s, hs, rfl⟩ := List.mem_map.1 ht
    rw [(slab_normal s hs).2] at hn
    rw [← Option.some.inj hn]
    exact slab_sides s hs
  obtain ⟨l, hl, hf, hk⟩ := C106_inwards_partial inSlab (slab.map Prod.fst) harea (by
    intro t ht n hn e
    rw [hside t ht n hn] at e
    simp at e)
  have h1 := hall inSlab _ l harea (fun t ht n hn => Or.inr (hside t ht n hn)) hl
  -- the first face of the result is the upper one, turned
  have hfirst : slab.map Prod.fst = (⟨1, -1, 5 / 10 ^ 5⟩, ⟨1, 1, 5 / 10 ^ 5⟩, ⟨-1, 1, 5 / 10 ^ 5⟩) :: (slab.map Prod.fst).tail := rfl
  obtain ⟨t0, ht0⟩ : ∃ t0 : Tri, t0 = (⟨1, -1, 5 / 10 ^ 5⟩, ⟨1, 1, 5 / 10 ^ 5⟩, ⟨-1, 1, 5 / 10 ^ 5⟩) := ⟨_, rfl⟩
  rw [← ht0] at hfirst
  have hn0 : normal t0 = some ⟨0, 0, 1⟩ := by
    have := (slab_normal (t0, ⟨0, 0, 1⟩, 4) (by rw [ht0]; exact List.mem_cons_self)).2
    exact this
  have hm0 : middle t0 = ⟨1 / 3, 1 / 3, 5 / 10 ^ 5⟩ := by rw [ht0]; unfold middle; ext <;> norm_num
  rw [hfirst] at hf
  cases hf with
  | @cons _ u _ l' hu hf' =>
    obtain ⟨n, hn, hin⟩ := hk u List.mem_cons_self
    have harea' : ∀ v ∈ u :: l', area v ≠ 0 := by
      intro v hv e
      obtain ⟨m, hm, -⟩ := hk v hv
      rw [(C99_normal v).1 e] at hm
      cases hm
    obtain ⟨-, b, hb, hiff⟩ := C106_tests inSlab (u :: l') harea'
    rw [h1] at hb
    have hbt : b = true := (Option.some.inj hb).symm
    have hin4 := hiff.1 hbt u List.mem_cons_self n hn
    have hrev := C99_reversed t0.1 t0.2.1 t0.2.2 _ hn0
    rcases hu with rfl | rfl
    · -- not turned: the point at `1e-5` is above the slab
      rw [hn0] at hn
      rw [← Option.some.inj hn, hm0] at hin
      simp only [inSlab, decide_eq_true_eq, V3.add_x, V3.add_y, V3.add_z, V3.smul_x, V3.smul_y, V3.smul_z] at hin
      norm_num at hin
    · rw [hrev.1] at hn
      rw [← Option.some.inj hn, hrev.2] at hin4
      change inSlab (middle t0 + _) = true at hin4
      rw [hm0] at hin4
      simp only [inSlab, decide_eq_true_eq, V3.add_x, V3.add_y, V3.add_z, V3.smul_x, V3.smul_y, V3.smul_z, V3.neg_x, V3.neg_y, V3.neg_z] at hin4
      norm_num at hin4

/-- Non-vacuity of `C106_outwards_partial`, `C106_inwards_partial` and `C106_tests`: the slab. -/
example : ∀ t ∈ slab.map Prod.fst, area t ≠ 0 ∧ ∀ n, normal t = some n → insideSides inSlab t n = (false, true) := by
  intro t ht
  obtain ⟨s, hs, rfl⟩ := List.mem_map.1 ht
  refine ⟨(slab_normal s hs).1, fun n hn => ?_⟩
  rw [(slab_normal s hs).2] at hn
  rw [← Option.some.inj hn]
  exact slab_sides s hs

/-! ## Display shells -/

section
variable {K : Type*} [Field K] [LinearOrder K]

lemma concatenate_eq (a b : Mesh K) : concatenate a b = a.merge b true true := by
  unfold concatenate Mesh.merge
  by_cases h1 : a.vertices.length = 0 ∨ a.triangles.length = 0
  · rw [if_pos h1, if_pos h1]
  by_cases h2 : b.vertices.length = 0 ∨ b.triangles.length = 0
  · rw [if_neg h1, if_neg h1, if_pos h2, if_pos h2]
  rw [if_neg h1, if_neg h1, if_neg h2, if_neg h2]
  rfl

/-- C107: the concatenation of two display shells whose indices are in range: the indices stay in range, every triangle comes from one of the shells, and
every triangle of the shells is there, up to the order of its corners; when both shells have triangles, no position is repeated, the positions are those
of the two shells, and no triangle is repeated, in any order of its corners. -/
theorem C107_concatenate (a b : Mesh K) (ha : a.Valid) (hb : b.Valid) :
    (concatenate a b).Valid ∧ (∀ g ∈ (concatenate a b).geom, g ∈ a.geom ∨ g ∈ b.geom) ∧
    (∀ g, g ∈ a.geom ∨ g ∈ b.geom → ∃ g' ∈ (concatenate a b).geom, SameTri g' g) ∧
    (a.triangles ≠ [] → b.triangles ≠ [] → (concatenate a b).vertices.Nodup ∧
      (∀ v, v ∈ (concatenate a b).vertices ↔ v ∈ a.vertices ∨ v ∈ b.vertices) ∧
      (concatenate a b).triangles.Pairwise (fun s t => ¬ [s.1, s.2.1, s.2.2].Perm [t.1, t.2.1, t.2.2])) := by
  rw [concatenate_eq]
  obtain ⟨h1, h2, h3⟩ := C29_merge_triangles a b ha hb true
  refine ⟨h1, fun g hg => List.mem_append.1 (h2 g hg), fun g hg => h3 g (List.mem_append.2 hg), fun na nb => ?_⟩
  obtain ⟨k1, k2, k3, -⟩ := (C29_operators a b na nb ha hb).2
  exact ⟨k1, k2, k3⟩

end

/-- Non-vacuity. -/
example : exampleMesh.Valid ∧ exampleMesh.triangles ≠ [] ∧ (concatenate exampleMesh exampleMesh).triangles.length = 3 := by
  refine ⟨exampleMesh_valid, by decide +kernel, by decide +kernel⟩

end Volmdlr.Shells
