import Verif.Fillet.RadiiProps

/-!
# C85 with `adapt_radius`
-/

namespace Volmdlr.Fillet

open Real Volmdlr.Angle Volmdlr.Arc

/-! ## The groups -/

/-- Corners `i` and `j` are consecutive and do not fit in their common line. -/
def Overlap (points : List (V2 ℝ)) (dist : ℕ → ℝ) (i j : ℕ) : Prop := i + 1 = j ∧ edgeLength points i < dist i + dist j

theorem groupsGo_spec (points : List (V2 ℝ)) (dist : ℕ → ℝ) (keys : List ℕ) :
    ∀ (prev : ℕ) (group : List ℕ), (prev :: keys).IsChain (· < ·) → (∀ i ∈ keys, i < points.length) →
      group.getLast? = some prev → group.IsChain (Overlap points dist) →
      ∃ gs, groupsGo points dist prev group keys = .ok gs ∧ gs.flatten = group ++ keys ∧
        (∀ g ∈ gs, g ≠ [] ∧ g.IsChain (Overlap points dist)) ∧
        gs.IsChain (fun g g' => ∀ i ∈ g.getLast?, ∀ j ∈ g'.head?, ¬ Overlap points dist i j) ∧
        ∃ r, gs.head? = some (group ++ r) := by
  induction keys with
  | nil =>
    intro prev group _ _ hl hc
    refine ⟨[group], rfl, by simp, ?_, List.isChain_singleton _, [], by simp⟩
    intro g hg
    rw [List.mem_singleton] at hg
    subst hg
    exact ⟨fun h => by simp [h] at hl, hc⟩
  | cons i keys ih =>
    intro prev group hs hlen hl hc
    rw [List.isChain_cons_cons] at hs
    have hgne : group ≠ [] := fun h => by simp [h] at hl
    have hlen' : ∀ k ∈ keys, k < points.length := fun k hk => hlen k (List.mem_cons_of_mem _ hk)
    have new : ∀ (hno : ¬ Overlap points dist prev i), ∃ gs, (do
        let l ← groupsGo points dist i [i] keys
        return group :: l) = .ok gs ∧ gs.flatten = group ++ i :: keys ∧
        (∀ g ∈ gs, g ≠ [] ∧ g.IsChain (Overlap points dist)) ∧
        gs.IsChain (fun g g' => ∀ i ∈ g.getLast?, ∀ j ∈ g'.head?, ¬ Overlap points dist i j) ∧
        ∃ r, gs.head? = some (group ++ r) := by
      intro hno
      obtain ⟨gs, h1, h2, h3, h4, r, h5⟩ := ih i [i] hs.2 hlen' (by simp) (List.isChain_singleton _)
      refine ⟨group :: gs, by rw [h1]; rfl, by simp [h2], ?_, ?_, [], by simp⟩
      · intro g hg
        rcases List.mem_cons.mp hg with rfl | hg
        · exact ⟨hgne, hc⟩
        · exact h3 g hg
      · cases gs with
        | nil => simp at h5
        | cons g gs =>
          rw [List.isChain_cons_cons]
          refine ⟨?_, h4⟩
          simp only [List.head?_cons, Option.some.injEq] at h5
          intro a ha b hb
          rw [h5] at hb
          simp only [List.singleton_append, List.head?_cons, Option.mem_def, Option.some.injEq] at hb
          rw [Option.mem_def, hl, Option.some.injEq] at ha
          rw [← ha, ← hb]; exact hno
    unfold groupsGo
    by_cases hp : prev + 1 = i
    · rw [if_pos hp]
      have hi := hlen i (by simp)
      rw [lengthBefore_eq (by omega) hi]
      simp only [bind, Except.bind]
      have hel : V2.norm (points.getD i ⟨0, 0⟩ - points.getD (i - 1) ⟨0, 0⟩) = edgeLength points prev := by
        unfold edgeLength; rw [← hp, Nat.add_sub_cancel]
      rw [hel]
      by_cases hle : dist prev + dist i ≤ edgeLength points prev
      · rw [if_pos hle]
        exact new (fun h => not_lt.mpr hle h.2)
      · rw [if_neg hle]
        obtain ⟨gs, h1, h2, h3, h4, r, h5⟩ := ih i (group ++ [i]) hs.2 hlen' (by simp) (by
          refine List.IsChain.append hc (List.isChain_singleton _) ?_
          intro a ha b hb
          simp only [List.head?_cons, Option.mem_def, Option.some.injEq] at hb
          rw [Option.mem_def, hl, Option.some.injEq] at ha
          rw [← ha, ← hb]
          exact ⟨hp, not_le.mp hle⟩)
        exact ⟨gs, h1, by simp [h2], h3, h4, i :: r, by simp [h5]⟩
    · rw [if_neg hp]
      exact new (fun h => hp h.1)

/-- A list cut in nonempty pieces: a relation holding inside the pieces and between the end of a piece and the start of the
next one holds along the list. -/
theorem flatten_chain {α : Type*} {R : α → α → Prop} (gs : List (List α)) (h1 : ∀ g ∈ gs, g ≠ [] ∧ g.IsChain R)
    (h2 : gs.IsChain fun g g' => ∀ i ∈ g.getLast?, ∀ j ∈ g'.head?, R i j) : gs.flatten.IsChain R := by
  induction gs with
  | nil => simp
  | cons g gs ih =>
    rw [List.flatten_cons]
    cases gs with
    | nil => simpa using (h1 g (by simp)).2
    | cons g' gs =>
      rw [List.isChain_cons_cons] at h2
      refine List.IsChain.append (h1 g (by simp)).2 (ih (fun k hk => h1 k (List.mem_cons_of_mem _ hk)) h2.2) ?_
      intro i hi j hj
      refine h2.1 i hi j ?_
      have hne := (h1 g' (by simp)).1
      cases g' with
      | nil => exact absurd rfl hne
      | cons a t => simpa using hj

/-- The radii after the adaptation: those of the corners alone in their group, and those of the other groups given by a point
`x` of the linear program; `0` stands for a rounding that is removed. -/
def Adapted (points : List (V2 ℝ)) (closed : Bool) (dist alpha : ℕ → ℝ) (radius : ℕ → ℝ) (groups : List (List ℕ)) (x radius' : ℕ → ℝ) : Prop :=
  (∀ j, [j] ∈ groups → adaptSingle points closed dist alpha j (radius j) = .ok (radius' j)) ∧
  (∀ g ∈ groups, 2 ≤ g.length → ∀ j ∈ g, radius' j = (adaptGroup alpha x j).getD 0)

/-- What a user expects of `adapt_radius`: after the adaptation the roundings fit in the lines of the polyline. -/
def C85_adapt_full_statement : Prop :=
  ∀ (points : List (V2 ℝ)) (radius : List (ℕ × ℝ)) (F : ℕ → Feat (V2 ℝ)) (groups : List (List ℕ)) (x radius' : ℕ → ℝ),
    (radius.map Prod.fst).IsChain (· < ·) → (∀ e ∈ radius, 0 < e.2) →
    (∀ i ∈ radius.map Prod.fst, arcFeaturesAt points false radius i = .ok (F i)) →
    groupsOf points (fun i => (F i).dist) (radius.map Prod.fst) = .ok groups →
    Optimal (edgeLength points) (fun i => (F i).dist) (fun i => (F i).alpha) (groups.filter fun g => decide (2 ≤ g.length)) x →
    Adapted points false (fun i => (F i).dist) (fun i => (F i).alpha) (fun i => (lookup radius i).getD 0) groups x radius' →
    ∀ i ∈ radius.map Prod.fst,
      radius' i / tan (F i).alpha ≤ edgeLength points (i - 1) ∧ radius' i / tan (F i).alpha ≤ edgeLength points i ∧
      (i + 1 ∈ radius.map Prod.fst → radius' i / tan (F i).alpha + radius' (i + 1) / tan (F (i + 1)).alpha ≤ edgeLength points i)

/-- C85 with `adapt_radius`, for every feasible answer of `linprog`: the radii never increase and stay nonnegative, two
consecutive rounded corners fit in their common line, and a corner alone in its group fits in both its lines. Missing: the two
outer lines of a group of several corners (counterexample below), and the closing line of a closed polyline. -/
theorem C85_adapt_partial (points : List (V2 ℝ)) (closed : Bool) (radius : List (ℕ × ℝ)) (F : ℕ → Feat (V2 ℝ))
    (x radius' : ℕ → ℝ) (hs : (radius.map Prod.fst).IsChain (· < ·)) (hpos : ∀ i ∈ radius.map Prod.fst, 0 < (lookup radius i).getD 0)
    (hF : ∀ i ∈ radius.map Prod.fst, arcFeaturesAt points closed radius i = .ok (F i)) (hα : ∀ i ∈ radius.map Prod.fst, 0 < tan (F i).alpha) :
    ∃ groups, groupsOf points (fun i => (F i).dist) (radius.map Prod.fst) = .ok groups ∧ groups.flatten = radius.map Prod.fst ∧
      (Feasible (edgeLength points) (fun i => (F i).dist) (groups.filter fun g => decide (2 ≤ g.length)) x →
      Adapted points closed (fun i => (F i).dist) (fun i => (F i).alpha) (fun i => (lookup radius i).getD 0) groups x radius' →
      (∀ i ∈ radius.map Prod.fst, 0 ≤ radius' i ∧ radius' i ≤ (lookup radius i).getD 0) ∧
      (∀ i, i ∈ radius.map Prod.fst → i + 1 ∈ radius.map Prod.fst →
        radius' i / tan (F i).alpha + radius' (i + 1) / tan (F (i + 1)).alpha ≤ edgeLength points i) ∧
      (∀ i, [i] ∈ groups → 1 ≤ i → i + 1 < points.length →
        radius' i / tan (F i).alpha ≤ edgeLength points (i - 1) ∧ radius' i / tan (F i).alpha ≤ edgeLength points i)) := by
  have hlen : ∀ i ∈ radius.map Prod.fst, i < points.length := by
    intro i hi
    obtain ⟨_, _, _, _, h, _⟩ := arcFeaturesAt_spec (hF i hi)
    exact h
  obtain ⟨gs, h1, h2, h3, h4⟩ : ∃ gs, groupsOf points (fun i => (F i).dist) (radius.map Prod.fst) = .ok gs ∧
      gs.flatten = radius.map Prod.fst ∧ (∀ g ∈ gs, g ≠ [] ∧ g.IsChain (Overlap points fun i => (F i).dist)) ∧
        gs.IsChain (fun g g' => ∀ i ∈ g.getLast?, ∀ j ∈ g'.head?, ¬ Overlap points (fun i => (F i).dist) i j) := by
    generalize radius.map Prod.fst = keys at *
    cases keys with
    | nil => exact ⟨[], rfl, rfl, by simp, List.isChain_nil⟩
    | cons i keys =>
      obtain ⟨gs, h1, h2, h3, h4, -⟩ := groupsGo_spec points (fun i => (F i).dist) keys i [i] hs
        (fun k hk => hlen k (List.mem_cons_of_mem _ hk)) (by simp) (List.isChain_singleton _)
      exact ⟨gs, h1, by simpa using h2, h3, h4⟩
  refine ⟨gs, h1, h2, ?_⟩
  rintro hfea ⟨hsing, hmult⟩
  have hdist : ∀ i ∈ radius.map Prod.fst, (F i).dist = (lookup radius i).getD 0 / tan (F i).alpha := by
    intro i hi
    obtain ⟨r, _, _, hr, -, hf, -⟩ := arcFeaturesAt_spec (hF i hi)
    rw [hr]; exact (arcFeatures2_ends hf).2.2.2.2.1
  have mem_key : ∀ g ∈ gs, ∀ i ∈ g, i ∈ radius.map Prod.fst := by
    intro g hg i hi
    rw [← h2]; exact List.mem_flatten.mpr ⟨g, hg, hi⟩
  -- one corner of a group with several corners
  have hx : ∀ g ∈ gs, 2 ≤ g.length → ∀ j ∈ g, 0 ≤ radius' j ∧ radius' j / tan (F j).alpha ≤ x j ∧ x j ≤ (F j).dist := by
    intro g hg h2l j hj
    have hf := (hfea g (List.mem_filter.mpr ⟨hg, by simpa using h2l⟩)).1 j hj
    have ht := hα j (mem_key g hg j hj)
    rw [hmult g hg h2l j hj]
    unfold adaptGroup
    dsimp only
    split
    · rename_i hh
      refine ⟨by simp only [Option.getD_some]; exact mul_nonneg hf.1 ht.le, ?_, hf.2⟩
      simp only [Option.getD_some]
      rw [mul_div_assoc, div_self ht.ne', mul_one]
    · simpa using ⟨hf.1, hf.2⟩
  -- a corner alone
  have hsg : ∀ j, [j] ∈ gs → 0 ≤ radius' j ∧ radius' j / tan (F j).alpha ≤ (F j).dist ∧
      (1 ≤ j → j + 1 < points.length → radius' j / tan (F j).alpha ≤ edgeLength points (j - 1) ∧ radius' j / tan (F j).alpha ≤ edgeLength points j) := by
    intro j hj
    have hk := mem_key _ hj j (by simp)
    have ht := hα j hk
    have hr := hpos j hk
    have hd := hdist j hk
    obtain ⟨r, pt1, pt2, -, hl, hf, hp1, hp2, -, hgp⟩ := arcFeaturesAt_spec (hF j hk)
    have := hsing j hj
    unfold adaptSingle at this
    rw [hgp] at this
    simp only [bind, Except.bind, pure, Except.pure, Except.ok.injEq] at this
    have symm : ∀ p q : V2 ℝ, V2.pointDistance p q = V2.norm (q - p) := by
      intro p q; unfold V2.pointDistance V2.norm; congr 1; simp only [V2.sub_x, V2.sub_y]; ring
    have hm1 : 1 ≤ j → V2.pointDistance pt1 (points.getD j ⟨0, 0⟩) = edgeLength points (j - 1) := by
      intro h
      rw [hp1 h, symm]; unfold edgeLength; rw [Nat.sub_add_cancel h]
    have hm2 : j + 1 < points.length → V2.pointDistance (points.getD j ⟨0, 0⟩) pt2 = edgeLength points j := by
      intro h
      rw [hp2 h, symm]; rfl
    have n1 : 0 ≤ V2.pointDistance pt1 (points.getD j ⟨0, 0⟩) := sqrt_nonneg _
    have n2 : 0 ≤ V2.pointDistance (points.getD j ⟨0, 0⟩) pt2 := sqrt_nonneg _
    have hmin : 0 ≤ min (V2.pointDistance pt1 (points.getD j ⟨0, 0⟩)) (V2.pointDistance (points.getD j ⟨0, 0⟩) pt2) := le_min n1 n2
    have hml := min_le_left (V2.pointDistance pt1 (points.getD j ⟨0, 0⟩)) (V2.pointDistance (points.getD j ⟨0, 0⟩) pt2)
    have hmr := min_le_right (V2.pointDistance pt1 (points.getD j ⟨0, 0⟩)) (V2.pointDistance (points.getD j ⟨0, 0⟩) pt2)
    generalize min (V2.pointDistance pt1 (points.getD j ⟨0, 0⟩)) (V2.pointDistance (points.getD j ⟨0, 0⟩) pt2) = m at this hmin hml hmr
    have hle : 0 ≤ radius' j ∧ radius' j / tan (F j).alpha ≤ (F j).dist ∧ radius' j / tan (F j).alpha ≤ m := by
      rw [← this]
      split
      · rename_i hgt
        refine ⟨le_min hr.le (mul_nonneg hmin ht.le), ?_, ?_⟩
        · rw [hd, div_le_div_iff_of_pos_right ht]; exact min_le_left _ _
        · rw [div_le_iff₀ ht]; exact min_le_right _ _
      · rename_i hng
        refine ⟨hr.le, by rw [hd], ?_⟩
        rw [← hd]; exact not_lt.mp hng
    refine ⟨hle.1, hle.2.1, fun h h' => ⟨?_, ?_⟩⟩
    · rw [← hm1 h]; linarith [hle.2.2]
    · rw [← hm2 h']; linarith [hle.2.2]
  have hall : ∀ i ∈ radius.map Prod.fst, 0 ≤ radius' i ∧ radius' i / tan (F i).alpha ≤ (F i).dist := by
    intro i hi
    rw [← h2, List.mem_flatten] at hi
    obtain ⟨g, hg, hig⟩ := hi
    by_cases hl : 2 ≤ g.length
    · have := hx g hg hl i hig
      exact ⟨this.1, by linarith [this.2.1, this.2.2]⟩
    · have hgi : g = [i] := by
        cases g with
        | nil => simp at hig
        | cons a t =>
          cases t with
          | nil => simp at hig; rw [hig]
          | cons b t => simp at hl
      rw [hgi] at hg
      exact ⟨(hsg i hg).1, (hsg i hg).2.1⟩
  refine ⟨?_, ?_, fun i hi h1 h2 => (hsg i hi).2.2 h1 h2⟩
  · intro i hi
    have ht := hα i hi
    have := hall i hi
    rw [hdist i hi, div_le_div_iff_of_pos_right ht] at this
    exact this
  · rw [← sorted_chain hs (fun i => radius' i / tan (F i).alpha + radius' (i + 1) / tan (F (i + 1)).alpha ≤ edgeLength points i), ← h2]
    apply flatten_chain
    · intro g hg
      refine ⟨(h3 g hg).1, ?_⟩
      by_cases hl : 2 ≤ g.length
      · have hf := (hfea g (List.mem_filter.mpr ⟨hg, by simpa using hl⟩)).2
        have hmem := hx g hg hl
        have : ∀ l : List ℕ, (∀ j ∈ l, j ∈ g) → l.IsChain (fun i j => x i + x j ≤ edgeLength points i) →
            l.IsChain (fun i k => i + 1 = k → radius' i / tan (F i).alpha + radius' (i + 1) / tan (F (i + 1)).alpha ≤ edgeLength points i) := by
          intro l
          induction l with
          | nil => intro _ _; exact List.isChain_nil
          | cons a l ih =>
            intro hm hc
            cases l with
            | nil => exact List.isChain_singleton _
            | cons b l =>
              rw [List.isChain_cons_cons] at hc ⊢
              refine ⟨?_, ih (fun j hj => hm j (List.mem_cons_of_mem _ hj)) hc.2⟩
              intro e
              rw [e]
              have ha := hmem a (hm a (by simp))
              have hb := hmem b (hm b (by simp))
              linarith [hc.1, ha.2.1, hb.2.1]
        exact this g (fun j hj => hj) hf
      · cases g with
        | nil => exact List.isChain_nil
        | cons a t =>
          cases t with
          | nil => exact List.isChain_singleton _
          | cons b t => simp at hl
    · have : ∀ l : List (List ℕ), (∀ g ∈ l, g ∈ gs) → l.IsChain (fun g g' => ∀ i ∈ g.getLast?, ∀ j ∈ g'.head?, ¬ Overlap points (fun i => (F i).dist) i j) →
          l.IsChain (fun g g' => ∀ i ∈ g.getLast?, ∀ j ∈ g'.head?, i + 1 = j →
            radius' i / tan (F i).alpha + radius' (i + 1) / tan (F (i + 1)).alpha ≤ edgeLength points i) := by
        intro l
        induction l with
        | nil => intro _ _; exact List.isChain_nil
        | cons a l ih =>
          intro hm hc
          cases l with
          | nil => exact List.isChain_singleton _
          | cons b l =>
            rw [List.isChain_cons_cons] at hc ⊢
            refine ⟨?_, ih (fun j hj => hm j (List.mem_cons_of_mem _ hj)) hc.2⟩
            intro i hi j hj e
            have hno := hc.1 i hi j hj
            have hi' := hall i (mem_key a (hm a (by simp)) i (List.mem_of_getLast? hi))
            have hj' := hall j (mem_key b (hm b (by simp)) j (List.mem_of_head? hj))
            unfold Overlap at hno
            rw [e]
            have : ¬ edgeLength points i < (F i).dist + (F j).dist := fun h => hno ⟨e, h⟩
            linarith [hi'.2, hj'.2, not_lt.mp this]
      exact this gs (fun g hg => hg) h4

/-- C85 with `adapt_radius` is false: for `(0,0), (1,0), (1,10), (11,10)` with radii `5` and `6`, every optimal answer of `linprog`
keeps a radius of at least `4` at the point `(1,0)`, whose rounding starts before the first point of the polyline. -/
theorem C85_adapt_counterexample : ¬ C85_adapt_full_statement := by
  intro h
  obtain ⟨f1, hf1, hd1, ha1⟩ := right_corner ⟨0, 0⟩ ⟨1, 0⟩ ⟨1, 10⟩ 5 (by unfold V2.norm; norm_num) (by unfold V2.norm; norm_num)
    (by norm_num [V2.dot])
  obtain ⟨f2, hf2, hd2, ha2⟩ := right_corner ⟨1, 0⟩ ⟨1, 10⟩ ⟨11, 10⟩ 6 (by unfold V2.norm; norm_num) (by unfold V2.norm; norm_num)
    (by norm_num [V2.dot])
  obtain ⟨F, hFdef⟩ : ∃ F : ℕ → Feat (V2 ℝ), F = fun i => if i = 1 then f1 else f2 := ⟨_, rfl⟩
  have F1 : F 1 = f1 := by rw [hFdef]; rfl
  have F2 : F 2 = f2 := by rw [hFdef]; rfl
  have hF : ∀ i ∈ ([(1, 5), (2, 6)] : List (ℕ × ℝ)).map Prod.fst,
      arcFeaturesAt [⟨0, 0⟩, ⟨1, 0⟩, ⟨1, 10⟩, ⟨11, 10⟩] false [(1, 5), (2, 6)] i = .ok (F i) := by
    intro i hi
    have hi' : i = 1 ∨ i = 2 := by simpa using hi
    rcases hi' with rfl | rfl
    · rw [F1]; simp only [arcFeaturesAt, lookup, List.find?_cons, decide_true, Option.map_some]; exact hf1
    · rw [F2]; simp [arcFeaturesAt, lookup]; exact hf2
  have e0 : edgeLength [⟨0, 0⟩, ⟨1, 0⟩, ⟨1, 10⟩, ⟨11, 10⟩] 0 = 1 := by
    unfold edgeLength V2.norm; simp
  have e1 : edgeLength [⟨0, 0⟩, ⟨1, 0⟩, ⟨1, 10⟩, ⟨11, 10⟩] 1 = 10 := by
    unfold edgeLength V2.norm
    simp
  have hg : groupsOf [⟨0, 0⟩, ⟨1, 0⟩, ⟨1, 10⟩, ⟨11, 10⟩] (fun i => (F i).dist) [1, 2] = .ok [[1, 2]] := by
    unfold groupsOf groupsGo
    dsimp only
    rw [if_pos (by norm_num), lengthBefore_eq (by norm_num) (by simp)]
    have : V2.norm (([⟨0, 0⟩, ⟨1, 0⟩, ⟨1, 10⟩, ⟨11, 10⟩] : List (V2 ℝ)).getD 2 ⟨0, 0⟩ - ([⟨0, 0⟩, ⟨1, 0⟩, ⟨1, 10⟩, ⟨11, 10⟩] : List (V2 ℝ)).getD (2 - 1) ⟨0, 0⟩) = 10 := e1
    rw [this]
    simp only [bind, Except.bind, F1, F2, hd1, hd2]
    rw [if_neg (by norm_num)]
    rfl
  have hfl : ([[1, 2]] : List (List ℕ)).filter (fun g => decide (2 ≤ g.length)) = [[1, 2]] := by decide
  -- an optimal point of the linear program
  have fea : ∀ y : ℕ → ℝ, Feasible (edgeLength [⟨0, 0⟩, ⟨1, 0⟩, ⟨1, 10⟩, ⟨11, 10⟩]) (fun i => (F i).dist) [[1, 2]] y ↔
      (0 ≤ y 1 ∧ y 1 ≤ 5) ∧ (0 ≤ y 2 ∧ y 2 ≤ 6) ∧ y 1 + y 2 ≤ 10 := by
    intro y
    unfold Feasible
    simp [F1, F2, hd1, hd2, e1, and_assoc]
  have hopt : Optimal (edgeLength [⟨0, 0⟩, ⟨1, 0⟩, ⟨1, 10⟩, ⟨11, 10⟩]) (fun i => (F i).dist) (fun i => (F i).alpha)
      (([[1, 2]] : List (List ℕ)).filter fun g => decide (2 ≤ g.length)) (fun i => if i = 1 then 5 else 5) := by
    rw [hfl]
    refine ⟨(fea _).mpr (by norm_num), ?_⟩
    intro y hy
    have := (fea y).mp hy
    simp [F1, F2, ha1, ha2]
    linarith [this.2.2]
  have := h _ [(1, 5), (2, 6)] F [[1, 2]] (fun i => if i = 1 then 5 else 5) (fun i => 5) (by simp) (by simp) hF hg hopt ?_ 1 (by simp)
  · rw [F1, ha1, tan_pi_div_four, e0] at this
    norm_num at this
  · refine ⟨by simp, ?_⟩
    intro g hg' _ j hj
    rw [List.mem_singleton] at hg'
    subst hg'
    have : (F j).alpha = π / 4 := by
      have hj' : j = 1 ∨ j = 2 := by simpa using hj
      rcases hj' with rfl | rfl
      · rw [F1, ha1]
      · rw [F2, ha2]
    unfold adaptGroup
    simp only [this, tan_pi_div_four, ite_self, mul_one]
    norm_num

end Volmdlr.Fillet
