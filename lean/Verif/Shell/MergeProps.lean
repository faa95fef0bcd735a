import Verif.Shell.FaceProps
import Mathlib.Data.List.Sort
import Mathlib.Order.Defs.LinearOrder

/-!
# Merging of the faces of a shell (C181) and of coplanar faces (C182)
-/

namespace Volmdlr.SetOps

variable {F P K : Type*}

/-! ## Faces on coincident surfaces -/

theorem found_spec [DecidableEq F] (coincident : F → F → Bool) (f : F) (i : Nat) : ∀ (l : List (F × Nat)) (acc : List F),
    (acc = [] ∨ ∃ more : List F, acc = f :: more) →
    l.foldl (fun (acc : List F) (p : F × Nat) =>
        if p.2 != i && coincident f p.1 then (if acc.contains f then acc else acc ++ [f]) ++ [p.1] else acc) acc =
      if (l.filter fun p : F × Nat => p.2 != i && coincident f p.1).isEmpty then acc
      else (if acc = [] then [f] else acc) ++ (l.filter fun p : F × Nat => p.2 != i && coincident f p.1).map Prod.fst := by
  intro l
  induction l with
  | nil => intro acc _; simp
  | cons p rest ih =>
    intro acc hacc
    rw [List.foldl_cons]
    by_cases hp : (p.2 != i && coincident f p.1) = true
    · rw [if_pos hp, ih]
      · rcases hacc with rfl | ⟨more, rfl⟩
        · simp only [List.contains_nil, Bool.false_eq_true, if_false, List.nil_append, List.filter_cons, hp, if_true]
          by_cases hr : (rest.filter fun p : F × Nat => p.2 != i && coincident f p.1).isEmpty = true
          · have hr' := List.isEmpty_iff.1 hr
            simp [hr']
          · simp [hr]
        · simp only [List.contains_cons, beq_self_eq_true, Bool.true_or, if_true, List.filter_cons, hp]
          by_cases hr : (rest.filter fun p : F × Nat => p.2 != i && coincident f p.1).isEmpty = true
          · have hr' := List.isEmpty_iff.1 hr
            simp [hr']
          · simp [hr]
      · rcases hacc with rfl | ⟨more, rfl⟩
        · exact Or.inr ⟨[p.1], by simp⟩
        · exact Or.inr ⟨more ++ [p.1], by simp⟩
    · rw [if_neg hp, ih acc hacc]
      simp only [List.filter_cons, hp, Bool.false_eq_true, if_false]

/-- The faces of a list at other indices than `i`. -/
theorem others_map (g : F → Bool) : ∀ (l : List F) (k i : Nat), (∀ j : Nat, i ≠ k + j ∨ ¬j < l.length) →
    ((l.zipIdx k).filter fun p : F × Nat => p.2 != i && g p.1).map Prod.fst = l.filter g := by
  intro l
  induction l with
  | nil => intro k i _; simp
  | cons a l ih =>
    intro k i h
    have hk : (k != i) = true := by
      rcases h 0 with h | h
      · simpa using fun e : k = i => h (by omega)
      · simp at h
    rw [List.zipIdx_cons, List.filter_cons, List.filter_cons]
    have := ih (k + 1) i (fun j => by
      rcases h (j + 1) with h | h
      · exact Or.inl (by omega)
      · exact Or.inr (by simpa using h))
    by_cases hg : g a = true
    · simp [hk, hg, this]
    · simp [hg, this]

theorem others_at (g : F → Bool) (l₁ : List F) (f : F) (l₂ : List F) :
    (((l₁ ++ f :: l₂).zipIdx).filter fun p : F × Nat => p.2 != l₁.length && g p.1).map Prod.fst = (l₁ ++ l₂).filter g := by
  rw [List.zipIdx_append, List.filter_append, List.map_append, others_map g l₁ 0 l₁.length (fun j => by omega),
    List.zipIdx_cons, List.filter_cons]
  simp only [Nat.zero_add, bne_self_eq_false, Bool.false_and, Bool.false_eq_true, if_false]
  rw [others_map g l₂ (l₁.length + 1) l₁.length (fun j => by omega), List.filter_append]

/-- The faces found: none when no face has another on a coincident surface, else a face and all the others on surfaces coincident with its
own. -/
theorem facesToMerge_spec [DecidableEq F] (coincident : F → F → Bool) (faces : List F) :
    (facesToMerge coincident faces = [] ∧ ∀ (l₁ : List F) (f : F) (l₂ : List F), faces = l₁ ++ f :: l₂ → ∀ g ∈ l₁ ++ l₂, coincident f g = false)
    ∨ ∃ (l₁ : List F) (f : F) (l₂ : List F), faces = l₁ ++ f :: l₂ ∧ (l₁ ++ l₂).filter (coincident f) ≠ [] ∧
        facesToMerge coincident faces = f :: (l₁ ++ l₂).filter (coincident f) := by
  have key : ∀ (l₂ l₁ : List F), faces = l₁ ++ l₂ →
      (∀ (k₁ : List F) (f : F) (k₂ : List F), faces = k₁ ++ f :: k₂ → k₁.length < l₁.length → ∀ g ∈ k₁ ++ k₂, coincident f g = false) →
      (facesToMerge.go coincident faces l₁.length l₂ = [] ∧
        ∀ (k₁ : List F) (f : F) (k₂ : List F), faces = k₁ ++ f :: k₂ → ∀ g ∈ k₁ ++ k₂, coincident f g = false)
      ∨ ∃ (k₁ : List F) (f : F) (k₂ : List F), faces = k₁ ++ f :: k₂ ∧ (k₁ ++ k₂).filter (coincident f) ≠ [] ∧
        facesToMerge.go coincident faces l₁.length l₂ = f :: (k₁ ++ k₂).filter (coincident f) := by
    intro l₂
    induction l₂ with
    | nil =>
      intro l₁ h1 h2
      refine Or.inl ⟨rfl, ?_⟩
      intro k₁ f k₂ h3
      refine h2 k₁ f k₂ h3 ?_
      have := congrArg List.length h3
      have h4 := congrArg List.length h1
      simp only [List.length_append, List.length_cons, List.length_nil] at this h4
      omega
    | cons f rest ih =>
      intro l₁ h1 h2
      have hfound := found_spec coincident f l₁.length faces.zipIdx [] (Or.inl rfl)
      have hmap : ((faces.zipIdx).filter fun p : F × Nat => p.2 != l₁.length && coincident f p.1).map Prod.fst =
          (l₁ ++ rest).filter (coincident f) := by
        rw [h1]
        exact others_at (coincident f) l₁ f rest
      rw [facesToMerge.go]
      rw [hfound]
      by_cases he : (l₁ ++ rest).filter (coincident f) = []
      · have he' : ((faces.zipIdx).filter fun p : F × Nat => p.2 != l₁.length && coincident f p.1) = [] := by
          rw [he] at hmap
          simpa using hmap
        rw [he']
        simp only [List.isEmpty_nil, if_true]
        have hlen : (l₁ ++ [f]).length = l₁.length + 1 := by simp
        rw [← hlen]
        refine ih (l₁ ++ [f]) (by simpa using h1) ?_
        intro k₁ g k₂ h3 h4
        rcases Nat.lt_succ_iff_lt_or_eq.1 (by simpa using h4) with h5 | h5
        · exact h2 k₁ g k₂ h3 h5
        · have h6 : l₁ ++ f :: rest = k₁ ++ g :: k₂ := h1.symm.trans h3
          obtain ⟨e1, e2⟩ := List.append_inj h6 h5.symm
          simp only [List.cons.injEq] at e2
          rw [← e1, ← e2.1, ← e2.2]
          intro x hx
          by_contra hc
          have : x ∈ (l₁ ++ rest).filter (coincident f) := List.mem_filter.2 ⟨hx, by simpa using hc⟩
          rw [he] at this
          simp at this
      · have he' : ((faces.zipIdx).filter fun p : F × Nat => p.2 != l₁.length && coincident f p.1).isEmpty = false := by
          cases h3 : ((faces.zipIdx).filter fun p : F × Nat => p.2 != l₁.length && coincident f p.1) with
          | nil => rw [h3] at hmap; exact absurd hmap.symm he
          | cons _ _ => rfl
        rw [he', hmap]
        simp only [Bool.false_eq_true, if_false, if_true]
        refine Or.inr ⟨l₁, f, rest, h1, he, ?_⟩
        simp
  exact key faces [] (by simp) (by simp)

theorem removeAll_perm [DecidableEq F] : ∀ (gone l : List F), gone.Subperm l →
    ∃ left : List F, removeAll l gone = .ok left ∧ l.Perm (gone ++ left) := by
  intro gone
  induction gone with
  | nil => intro l _; exact ⟨l, rfl, by simp⟩
  | cons f rest ih =>
    intro l h
    have hf : f ∈ l := h.subset (by simp)
    have h1 : l.Perm (f :: l.erase f) := List.perm_cons_erase hf
    have h2 : rest.Subperm (l.erase f) := by
      have := h.trans h1.subperm
      exact List.subperm_cons f |>.1 this
    obtain ⟨left, e1, e2⟩ := ih _ h2
    refine ⟨left, ?_, ?_⟩
    · rw [removeAll]
      have : l.contains f = true := by simpa using hf
      rw [this]
      exact e1
    · exact h1.trans (e2.cons f)

/-! ## Merging the faces of a shell (C181) -/

/-- A group to be merged: a face and the others, at least one, on surfaces coincident with its own. -/
def IsCoplanar (coincident : F → F → Bool) (g : List F) : Prop :=
  ∃ (f : F) (others : List F), g = f :: others ∧ others ≠ [] ∧ ∀ x ∈ others, coincident f x = true

/-- No face has another one on a coincident surface. -/
def NoneCoincident (coincident : F → F → Bool) (l : List F) : Prop :=
  l.Pairwise fun a b : F => coincident a b = false ∧ coincident b a = false


theorem noneCoincident_of {coincident : F → F → Bool} {l : List F}
    (h : ∀ (l₁ : List F) (f : F) (l₂ : List F), l = l₁ ++ f :: l₂ → ∀ g ∈ l₁ ++ l₂, coincident f g = false) :
    NoneCoincident coincident l := by
  rw [NoneCoincident, List.pairwise_iff_forall_sublist]
  intro a b hab
  obtain ⟨r₁, r₂, e, ha, hb⟩ := List.cons_sublist_iff.1 hab
  have hb' : b ∈ r₂ := by simpa using hb
  obtain ⟨s, t, rfl⟩ := List.append_of_mem ha
  obtain ⟨u, v, rfl⟩ := List.append_of_mem hb'
  constructor
  · exact h s a (t ++ (u ++ b :: v)) (by simpa using e) b (by simp)
  · exact h (s ++ a :: t ++ u) b v (by simpa using e) a (by simp)

/-- The groups and the faces left are those of different surfaces. -/
def Separated (coincident : F → F → Bool) (groups : List (List F)) (left : List F) : Prop :=
  (groups.Pairwise fun g h : List F => ∀ x ∈ g, ∀ y ∈ h, coincident x y = false) ∧ ∀ g ∈ groups, ∀ x ∈ g, ∀ y ∈ left, coincident x y = false

theorem mergeLoop_spec [DecidableEq F] (coincident : F → F → Bool) (mergeGroup : List F → List F) : ∀ (fuel count : Nat) (faces new : List F),
    faces.length + (faces.length - count) < fuel →
    ∃ (groups : List (List F)) (left : List F), mergeLoop coincident mergeGroup fuel count faces new = some (.ok (left, new ++ groups.flatMap mergeGroup))
      ∧ (groups.flatten ++ left).Perm faces ∧ (∀ g ∈ groups, IsCoplanar coincident g) ∧ NoneCoincident coincident left
      ∧ ((∀ a b : F, coincident a b = true → coincident b a = true) →
          (∀ a b c : F, coincident a b = true → coincident b c = true → coincident a c = true) → Separated coincident groups left) := by
  intro fuel
  induction fuel with
  | zero => intro count faces new h; omega
  | succ fuel ih =>
    intro count faces new hf
    rw [mergeLoop]
    rcases facesToMerge_spec coincident faces with ⟨e1, e2⟩ | ⟨l₁, f, l₂, e1, e2, e3⟩
    · rw [e1]
      simp only [List.isEmpty_nil, if_true, removeAll, and_true]
      by_cases hend : faces.length ≤ count + 1
      · rw [if_pos hend]
        exact ⟨[], faces, by simp, by simp, by simp, noneCoincident_of e2, fun _ _ => ⟨List.Pairwise.nil, by simp⟩⟩
      · rw [if_neg hend]
        exact ih (count + 1) faces new (by omega)
    · rw [e3]
      have hsub : (f :: (l₁ ++ l₂).filter (coincident f)).Subperm faces := by
        have h1 : (f :: (l₁ ++ l₂)).Perm faces := by
          rw [e1]
          exact List.perm_middle.symm
        exact ((List.filter_sublist (p := coincident f) (l := l₁ ++ l₂)).cons_cons f).subperm.trans h1.subperm
      obtain ⟨left0, r1, r2⟩ := removeAll_perm _ faces hsub
      have hleft : left0.Perm ((l₁ ++ l₂).filter fun g : F => !coincident f g) := by
        have h1 : (f :: (l₁ ++ l₂)).Perm (f :: ((l₁ ++ l₂).filter (coincident f) ++ left0)) := by
          refine List.Perm.trans ?_ r2
          rw [e1]
          exact List.perm_middle.symm
        have h2 := h1.cons_inv
        have h3 : ((l₁ ++ l₂).filter (coincident f) ++ (l₁ ++ l₂).filter fun g : F => !coincident f g).Perm (l₁ ++ l₂) :=
          List.filter_append_perm _ _
        exact (List.perm_append_left_iff _).1 (h2.symm.trans h3.symm)
      have hlen : left0.length + 2 ≤ faces.length := by
        have h1 := r2.length_eq
        have h2 := List.length_pos_of_ne_nil e2
        simp only [List.length_append, List.length_cons] at h1
        omega
      simp only [List.isEmpty_cons, Bool.false_eq_true, if_false, r1, and_false]
      obtain ⟨groups, left, g1, g2, g3, g4, g5⟩ := ih (count + 1) left0 (new ++ mergeGroup (f :: (l₁ ++ l₂).filter (coincident f))) (by omega)
      refine ⟨(f :: (l₁ ++ l₂).filter (coincident f)) :: groups, left, ?_, ?_, ?_, g4, ?_⟩
      · rw [g1]
        simp
      · refine List.Perm.trans ?_ r2.symm
        rw [List.flatten_cons, List.append_assoc]
        exact g2.append_left _
      · intro g hg
        rcases List.mem_cons.1 hg with rfl | hg
        · exact ⟨f, _, rfl, e2, fun x hx => (List.mem_filter.1 hx).2⟩
        · exact g3 g hg
      · intro hsymm htrans
        obtain ⟨s1, s2⟩ := g5 hsymm htrans
        have hfar : ∀ x ∈ f :: (l₁ ++ l₂).filter (coincident f), ∀ y ∈ left0, coincident x y = false := by
          intro x hx y hy
          have hy' := (List.mem_filter.1 (hleft.subset hy)).2
          simp only [Bool.not_eq_true'] at hy'
          rcases List.mem_cons.1 hx with rfl | hx
          · exact hy'
          · by_contra hc
            have h1 := htrans f x y (List.mem_filter.1 hx).2 (by simpa using hc)
            rw [hy'] at h1
            exact absurd h1 (by simp)
        refine ⟨List.pairwise_cons.2 ⟨?_, s1⟩, ?_⟩
        · intro g hg x hx y hy
          exact hfar x hx y (g2.subset (List.mem_append_left _ (List.mem_flatten.2 ⟨g, hg, hy⟩)))
        · intro g hg x hx y hy
          rcases List.mem_cons.1 hg with rfl | hg
          · exact hfar x hx y (g2.subset (List.mem_append_right _ hy))
          · exact s2 g hg x hx y hy

/-- What the geometry of the faces gives: being on coincident surfaces goes both ways and from face to face, a face only lies in a face on a
coincident surface, and merging the faces of a surface gives faces of that surface. -/
structure FaceSpec (coincident inside : F → F → Bool) (mergeGroup : List F → List F) : Prop where
  symm : ∀ a b : F, coincident a b = true → coincident b a = true
  trans : ∀ a b c : F, coincident a b = true → coincident b c = true → coincident a c = true
  inside : ∀ a b : F, inside a b = true → coincident a b = true
  merged : ∀ g : List F, ∀ f ∈ mergeGroup g, ∃ x ∈ g, coincident f x = true

/-- C181: `merge_faces` ends without an error for every shell. The faces of the shell fall into the groups of two or more faces of a surface,
different groups being on different surfaces, and the faces alone on theirs; the shell then has the faces the groups are merged into
followed by the faces alone on their surfaces. -/
theorem C181_merge_faces [DecidableEq F] {coincident inside : F → F → Bool} {mergeGroup : List F → List F}
    (h : FaceSpec coincident inside mergeGroup) (faces : List F) (fuel : Nat) (hf : 2 * faces.length < fuel) :
    ∃ (groups : List (List F)) (alone : List F),
      mergeFaces coincident inside mergeGroup fuel faces = some (.ok (groups.flatMap mergeGroup ++ alone)) ∧
      (groups.flatten ++ alone).Perm faces ∧
      (∀ g ∈ groups, 2 ≤ g.length ∧ g.Pairwise fun a b : F => coincident a b = true) ∧
      (groups.Pairwise fun g k : List F => ∀ x ∈ g, ∀ y ∈ k, coincident x y = false) ∧
      (∀ g ∈ groups, ∀ x ∈ g, ∀ y ∈ alone, coincident x y = false) ∧
      alone.Pairwise (fun a b : F => coincident a b = false) := by
  obtain ⟨groups, left, g1, g2, g3, g4, g5⟩ := mergeLoop_spec coincident mergeGroup fuel 0 faces [] (by omega)
  obtain ⟨s1, s2⟩ := g5 h.symm h.trans
  refine ⟨groups, left, ?_, g2, ?_, s1, s2, g4.imp fun hab => hab.1⟩
  · rw [mergeFaces, g1]
    simp only [Option.map_some, Except.bind, List.nil_append, Option.some.injEq]
    rw [cleanFaces]
    have hnone : (left.flatMap fun f1 : F => (groups.flatMap mergeGroup).flatMap fun f2 : F =>
        if inside f1 f2 then [f2] else if inside f2 f1 then [f1] else []) = [] := by
      rw [List.flatMap_eq_nil_iff]
      intro a ha
      rw [List.flatMap_eq_nil_iff]
      intro b hb
      obtain ⟨g, hg, hb⟩ := List.mem_flatMap.1 hb
      obtain ⟨x, hx, hbx⟩ := h.merged g b hb
      have hne : coincident x a = false := s2 g hg x hx a ha
      have h1 : inside a b = false := by
        by_contra hc
        have h2 := h.symm _ _ (h.trans a b x (h.inside a b (by simpa using hc)) hbx)
        rw [hne] at h2
        exact absurd h2 (by simp)
      have h2 : inside b a = false := by
        by_contra hc
        have h2 := h.trans x b a (h.symm b x hbx) (h.inside b a (by simpa using hc))
        rw [hne] at h2
        exact absurd h2 (by simp)
      simp [h1, h2]
    rw [hnone]
    rfl
  · intro g hg
    obtain ⟨f, others, rfl, h1, h2⟩ := g3 g hg
    have h3 := List.length_pos_of_ne_nil h1
    refine ⟨by simp only [List.length_cons]; omega, List.pairwise_cons.2 ⟨h2, ?_⟩⟩
    exact List.pairwise_of_forall_mem_list fun a ha b hb => h.trans a f b (h.symm f a (h2 a ha)) (h2 b hb)

/-- C181: no point of a face is lost or gained when merging a group does not lose or gain any. -/
theorem C181_points [DecidableEq F] {coincident inside : F → F → Bool} {mergeGroup : List F → List F}
    (h : FaceSpec coincident inside mergeGroup) (content : F → Set P) (hm : ∀ g : List F, points content (mergeGroup g) = points content g)
    (faces : List F) (fuel : Nat) (hf : 2 * faces.length < fuel) :
    ∃ out : List F, mergeFaces coincident inside mergeGroup fuel faces = some (.ok out) ∧ points content out = points content faces := by
  obtain ⟨groups, alone, h1, h2, _⟩ := C181_merge_faces h faces fuel hf
  refine ⟨_, h1, ?_⟩
  ext p
  have hg : ∀ g : List F, (∃ s ∈ mergeGroup g, p ∈ content s) ↔ ∃ s ∈ g, p ∈ content s := fun g => by
    have := hm g
    rw [Set.ext_iff] at this
    exact this p
  constructor
  · rintro ⟨f, hf', hp⟩
    rcases List.mem_append.1 hf' with hf' | hf'
    · obtain ⟨g, hg1, hg2⟩ := List.mem_flatMap.1 hf'
      obtain ⟨x, hx, hpx⟩ := (hg g).1 ⟨f, hg2, hp⟩
      exact ⟨x, h2.subset (List.mem_append_left _ (List.mem_flatten.2 ⟨g, hg1, hx⟩)), hpx⟩
    · exact ⟨f, h2.subset (List.mem_append_right _ hf'), hp⟩
  · rintro ⟨f, hf', hp⟩
    rcases List.mem_append.1 (h2.symm.subset hf') with hf' | hf'
    · obtain ⟨g, hg1, hg2⟩ := List.mem_flatten.1 hf'
      obtain ⟨x, hx, hpx⟩ := (hg g).2 ⟨f, hg2, hp⟩
      exact ⟨x, List.mem_append_left _ (List.mem_flatMap.2 ⟨g, hg1, hx⟩), hpx⟩
    · exact ⟨f, List.mem_append_right _ hf', hp⟩

/-- C181: `clean_faces` on its own fails on a face that lies in two others: it is taken away twice. -/
theorem C181_clean_error : cleanFaces (fun a b : Nat => decide (b < a)) [2, 3] [1] = .error .valueError := by decide

/-- A run of C181: faces as pairs of a surface and a size, merged by adding the sizes. -/
example : (mergeFaces (fun a b : Nat × Nat => a.1 == b.1) (fun _ _ => false) (fun g : List (Nat × Nat) => (g.head?.map fun f : Nat × Nat => (f.1, (g.map Prod.snd).sum)).toList) 20
    [(1, 5), (2, 3), (1, 4), (3, 9), (2, 1)]).map (fun r => r.toOption) = some (some [(1, 9), (2, 4), (3, 9)]) := by decide +kernel

/-- The hypotheses of C181 are met. -/
example : FaceSpec (fun a b : Nat × Nat => a.1 == b.1) (fun _ _ => false)
    (fun g : List (Nat × Nat) => (g.head?.map fun f : Nat × Nat => (f.1, (g.map Prod.snd).sum)).toList) := by
  refine ⟨by simp, ?_, by simp, ?_⟩
  · intro a b c h1 h2
    simp only [beq_iff_eq] at h1 h2 ⊢
    exact h1.trans h2
  · intro g f hf
    cases g with
    | nil => simp at hf
    | cons x g =>
      simp only [List.head?_cons, Option.map_some, Option.toList_some, List.mem_singleton] at hf
      exact ⟨x, by simp, by simp [hf]⟩

/-! ## Coplanar faces (C182) -/

/-- What the geometry gives about coplanar faces: the joined face, or the one with a filled hole, has the points of both; a face in another has its points in
it; faces with no common point pass no test, and two with a common point pass one. -/
structure CoplanarSpec (content : F → Set P) (kit : MergeKit F K) : Prop where
  sharing : ∀ a b : F, kit.sharing a b = true → ∃ c : F, kit.joined a b = .ok c ∧ content c = content a ∪ content b
  inside : ∀ a b : F, kit.inside a b = true → content b ⊆ content a
  filled : ∀ a b : F, ∃ r : Option F, kit.filled a b = .ok r ∧ ∀ c : F, r = some c → content c = content a ∪ content b
  apart : ∀ a b : F, Disjoint (content a) (content b) → kit.sharing a b = false ∧ kit.inside a b = false ∧ kit.filled a b = .ok none
  met : ∀ a b : F, ¬Disjoint (content a) (content b) → kit.sharing a b = true ∨ kit.inside a b = true ∨ kit.filled a b ≠ .ok none

theorem CoplanarSpec.attach_apart {content : F → Set P} {kit : MergeKit F K} (h : CoplanarSpec content kit) (a b : F)
    (hd : Disjoint (content a) (content b)) : attach kit a b = .ok none := by
  obtain ⟨h1, h2, h3⟩ := h.apart a b hd
  simp [attach, h1, h2, h3]

theorem CoplanarSpec.attach_joined {content : F → Set P} {kit : MergeKit F K} (h : CoplanarSpec content kit) (a b : F)
    (hd : ¬Disjoint (content a) (content b)) : ∃ c : F, attach kit a b = .ok (some c) ∧ content c = content a ∪ content b := by
  by_cases h1 : kit.sharing a b = true
  · obtain ⟨c, k1, k2⟩ := h.sharing a b h1
    exact ⟨c, by simp [attach, h1, k1, Except.map], k2⟩
  by_cases h2 : kit.inside a b = true
  · exact ⟨a, by simp [attach, h1, h2], (Set.union_eq_self_of_subset_right (h.inside a b h2)).symm⟩
  obtain ⟨r, h3, h4⟩ := h.filled a b
  rcases h.met a b hd with k | k | k
  · exact absurd k h1
  · exact absurd k h2
  · cases r with
    | none => exact absurd h3 k
    | some c => exact ⟨c, by simp [attach, h1, h2, h3], h4 c rfl⟩

theorem attachFirst_spec {content : F → Set P} {kit : MergeKit F K} (h : CoplanarSpec content kit) (cur : F) : ∀ (l : List F) (k : Nat),
    (∃ (i : Nat) (hi : i < l.length) (c : F), attachFirst kit cur k l = .ok (some (k + i, c)) ∧ content c = content cur ∪ content l[i]
        ∧ ¬Disjoint (content cur) (content l[i]))
    ∨ (attachFirst kit cur k l = .ok none ∧ ∀ a ∈ l, Disjoint (content cur) (content a)) := by
  intro l
  induction l with
  | nil => intro k; exact Or.inr ⟨rfl, by simp⟩
  | cons a rest ih =>
    intro k
    by_cases hd : Disjoint (content cur) (content a)
    · have hs : attachFirst kit cur k (a :: rest) = attachFirst kit cur (k + 1) rest := by
        simp [attachFirst, h.attach_apart cur a hd]
      rcases ih (k + 1) with ⟨i, hi, c, h1, h2, h3⟩ | ⟨h1, h2⟩
      · refine Or.inl ⟨i + 1, by simpa using hi, c, ?_, by simpa using h2, by simpa using h3⟩
        rw [hs, h1]
        congr 3
        omega
      · refine Or.inr ⟨by rw [hs, h1], ?_⟩
        intro b hb
        rcases List.mem_cons.1 hb with rfl | hb
        · exact hd
        · exact h2 b hb
    · obtain ⟨c, hc1, hc2⟩ := h.attach_joined cur a hd
      refine Or.inl ⟨0, by simp, c, ?_, by simpa using hc2, by simpa using hd⟩
      simp [attachFirst, hc1]

theorem coplanarLoop_spec {content : F → Set P} {kit : MergeKit F K} (h : CoplanarSpec content kit) {inputs : List F} :
    ∀ (fuel : Nat) (cur : F) (list merged : List F), list.length < fuel → Grouped content inputs (merged ++ cur :: list) →
      (merged.Pairwise fun a b : F => Disjoint (content a) (content b)) → (∀ a ∈ merged, ∀ b ∈ cur :: list, Disjoint (content a) (content b)) →
      ∃ out : List F, coplanarLoop kit fuel cur list merged = some (.ok out) ∧ Grouped content inputs out
        ∧ out.Pairwise fun a b : F => Disjoint (content a) (content b) := by
  intro fuel
  induction fuel with
  | zero => intro cur list merged hf; omega
  | succ fuel ih =>
    intro cur list merged hf hg hp ha
    rw [coplanarLoop.eq_def]
    rcases attachFirst_spec h cur list 0 with ⟨i, hi, c, h1, h2, h3⟩ | ⟨h1, h2⟩
    · simp only [Nat.zero_add] at h1
      simp only [h1]
      have hlen : (list.eraseIdx i).length + 1 = list.length := by
        rw [List.length_eraseIdx_of_lt hi]; omega
      refine ih c (list.eraseIdx i) merged (by omega) ?_ hp ?_
      · have e1 : (merged ++ cur :: list).Perm (cur :: list[i] :: (merged ++ list.eraseIdx i)) := by
          refine List.perm_middle.trans (List.Perm.cons cur ?_)
          exact ((perm_eraseIdx list i hi).append_left merged).trans List.perm_middle
        exact ((hg.perm e1).join h3 h2).perm List.perm_middle.symm
      · intro a hm b hb
        rcases List.mem_cons.1 hb with rfl | hb
        · rw [h2]
          exact Set.disjoint_union_right.2 ⟨ha a hm cur (by simp), ha a hm _ (by simp)⟩
        · exact ha a hm b (by simp [List.mem_of_mem_eraseIdx hb])
    · simp only [h1]
      have hp' : (merged ++ [cur]).Pairwise fun a b : F => Disjoint (content a) (content b) := by
        rw [List.pairwise_append]
        exact ⟨hp, List.pairwise_singleton _ _, fun a hm b hb => ha a hm b (by rw [List.mem_singleton.1 hb]; simp)⟩
      cases list with
      | nil => exact ⟨merged ++ [cur], rfl, hg, hp'⟩
      | cons f rest =>
        refine ih f rest (merged ++ [cur]) (by simpa using hf) (by simpa using hg) hp' ?_
        intro a hm b hb
        rcases List.mem_append.1 hm with hm | hm
        · exact ha a hm b (List.mem_cons_of_mem _ hb)
        · rw [List.mem_singleton.1 hm]
          exact h2 b hb

/-- C182, the whole claim: with tests that are right about two faces, no face given back lies in another. -/
def C182_full_statement : Prop :=
  ∀ (kit : MergeKit (Nat × Nat) ℚ), (∀ a b : Nat × Nat, kit.inside a b = true ↔ a.1 ≤ b.1 ∧ b.2 ≤ a.2) →
    (∀ a b : Nat × Nat, kit.sharing a b = true ↔ (a.2 = b.1 ∨ b.2 = a.1)) →
    (∀ a b : Nat × Nat, kit.joined a b = .ok (min a.1 b.1, max a.2 b.2)) → (∀ a b : Nat × Nat, kit.filled a b = .ok none) →
    (∀ a : Nat × Nat, kit.area a = (a.2 : ℚ) - a.1) →
    ∀ faces : List (Nat × Nat), faces ≠ [] → ∃ (fuel : Nat) (out : List (Nat × Nat)), mergeCoplanar kit fuel faces = some (.ok out) ∧
      out.Pairwise fun a b : Nat × Nat => ¬(a.1 ≤ b.1 ∧ b.2 ≤ a.2) ∧ ¬(b.1 ≤ a.1 ∧ a.2 ≤ b.2)

/-- C182: when two faces are attached exactly when they share a point, the merging of coplanar faces ends, the faces given back share no
point, each is the union of faces of the list that hang together, and every face of the list is in exactly one of them. Missing for the
whole claim: a face is not attached to one it lies in. -/
theorem C182_merge_coplanar_partial [LinearOrder K] {content : F → Set P} {kit : MergeKit F K} (h : CoplanarSpec content kit) (faces : List F)
    (hne : faces ≠ []) (fuel : Nat) (hf : faces.length ≤ fuel) :
    ∃ out : List F, mergeCoplanar kit fuel faces = some (.ok out) ∧ out.Pairwise (fun a b : F => Disjoint (content a) (content b)) ∧
      ∃ groups : List (List F), List.Forall₂ (IsGroup content) groups out ∧ groups.flatten.Perm faces := by
  have hperm : (faces.insertionSort fun a b : F => kit.area a ≤ kit.area b).Perm faces := List.perm_insertionSort _ _
  rw [mergeCoplanar.eq_def]
  cases hs : faces.insertionSort fun a b : F => kit.area a ≤ kit.area b with
  | nil =>
    rw [hs] at hperm
    exact absurd hperm.symm.eq_nil hne
  | cons cur rest =>
    rw [hs] at hperm
    have hl := hperm.length_eq
    simp only [List.length_cons] at hl
    obtain ⟨out, o1, ⟨gs, o2, o3⟩, o4⟩ := coplanarLoop_spec h fuel cur rest [] (by omega) (grouped_self content (cur :: rest)) List.Pairwise.nil (by simp)
    exact ⟨out, o1, o4, gs, o2, o3.trans hperm⟩

/-- Intervals, attached when they share an end or the second lies in the first. -/
def intervalKit : MergeKit (Nat × Nat) ℚ where
  area a := (a.2 : ℚ) - a.1
  sharing a b := a.2 == b.1 || b.2 == a.1
  joined a b := .ok (min a.1 b.1, max a.2 b.2)
  inside a b := decide (a.1 ≤ b.1 ∧ b.2 ≤ a.2)
  filled _ _ := .ok none

/-- C182: the smaller face comes first, and a face is not looked for in those after it. -/
theorem C182_counterexample : ¬C182_full_statement := by
  intro h
  obtain ⟨fuel, out, h1, h2⟩ := h intervalKit (by simp [intervalKit]) (by simp [intervalKit]) (by simp [intervalKit]) (by simp [intervalKit])
    (by simp [intervalKit]) [(0, 9), (2, 3)] (by simp)
  have hs : ([(0, 9), (2, 3)] : List (Nat × Nat)).insertionSort (fun a b : Nat × Nat => intervalKit.area a ≤ intervalKit.area b) = [(2, 3), (0, 9)] := by
    decide +kernel
  rw [mergeCoplanar, hs] at h1
  change coplanarLoop intervalKit fuel (2, 3) [(0, 9)] [] = some (.ok out) at h1
  have hout : out = [(2, 3), (0, 9)] := by
    match fuel, h1 with
    | 1, h1 => exact absurd h1 (by simp [coplanarLoop, attachFirst, attach, intervalKit])
    | fuel + 2, h1 =>
      have : coplanarLoop intervalKit (fuel + 2) (2, 3) [(0, 9)] [] = some (.ok [(2, 3), (0, 9)]) := by
        simp [coplanarLoop, attachFirst, attach, intervalKit]
      rw [this] at h1
      simpa using h1.symm
  rw [hout] at h2
  simp at h2

open Classical in
/-- The hypotheses of C182 are met: sets of numbers. -/
example : CoplanarSpec (F := Set Nat) (P := Nat) (K := ℚ) id
    ⟨fun _ => 0, fun a b => decide (¬Disjoint a b ∧ ¬b ⊆ a), fun a b => .ok (a ∪ b), fun a b => decide (¬Disjoint a b ∧ b ⊆ a), fun _ _ => .ok none⟩ := by
  refine ⟨fun a b _ => ⟨a ∪ b, rfl, rfl⟩, fun a b h => (of_decide_eq_true h).2, fun a b => ⟨none, rfl, by simp⟩, fun a b h => ?_, fun a b h => ?_⟩
  · have h' : Disjoint a b := h
    simp [h']
  · have h' : ¬Disjoint a b := h
    by_cases hs : b ⊆ a
    · exact Or.inr (Or.inl (decide_eq_true ⟨h', hs⟩))
    · exact Or.inl (decide_eq_true ⟨h', hs⟩)

/-- A run of C182: three intervals end to end and one apart. -/
example : (mergeCoplanar intervalKit 10 [(4, 7), (0, 2), (2, 4), (9, 11)]).map (fun r => r.toOption) = some (some [(0, 7), (9, 11)]) := by
  decide +kernel

end Volmdlr.SetOps
