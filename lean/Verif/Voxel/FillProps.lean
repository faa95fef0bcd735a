import Verif.Voxel.GridProps
import Mathlib.Algebra.BigOperators.Group.Finset.Basic
import Mathlib.Algebra.Order.BigOperators.Group.Finset
import Mathlib.Data.Rat.Floor

/-!
# C40: filling the outer and the enclosed cells
-/

namespace Volmdlr
open Voxel
open scoped BigOperators

variable {d : ℕ} {K : Type} [Field K] [LinearOrder K] [IsStrictOrderedRing K] [FloorRing K]

/-- **Specification.** The cells connected with the outside: all the cells that are not in the matrix, and the empty
cells with a face in common with such a cell. -/
inductive Outer (m : Mat d) : Cell d → Prop
  | outside {c : Cell d} : ¬ Inside m.shape c → Outer m c
  | step {a b : Cell d} : Outer m a → FaceAdjacent a b → m.val b = false → Outer m b

/-- **Specification.** An enclosed cell: empty and not connected with the outside. -/
def Enclosed (m : Mat d) (c : Cell d) : Prop := m.val c = false ∧ ¬ Outer m c

namespace Voxel

theorem Enclosed.inside {m : Mat d} {c : Cell d} (h : Enclosed m c) : Inside m.shape c := by
  by_contra hc
  exact h.2 (.outside hc)

theorem expand_val (m : Mat d) (c : Cell d) : (expandMat m).val c = m.val fun i => c i - 1 := by
  rw [Bool.eq_iff_iff, expandMat, mkMat_val]
  refine ⟨fun h => h.2, fun h => ⟨fun i => ?_, h⟩⟩
  have := m.supp _ h i
  push_cast
  omega

theorem inside_expand (m : Mat d) (c : Cell d) : Inside (expandMat m).shape c ↔ ∀ i, 0 ≤ c i ∧ c i < m.shape i + 2 := by
  constructor
  · intro h i
    have := h i
    change 0 ≤ c i ∧ c i < ((m.shape i + 2 : ℕ) : ℤ) at this
    push_cast at this
    exact this
  · intro h i
    show 0 ≤ c i ∧ c i < ((m.shape i + 2 : ℕ) : ℤ)
    push_cast
    exact h i

theorem expand_val_border (m : Mat d) (c : Cell d) (i : Fin d) (h : c i ≤ 0 ∨ m.shape i + 1 ≤ c i) :
    (expandMat m).val c = false := by
  rw [expand_val, ← Bool.not_eq_true]
  intro hv
  have := m.supp _ hv i
  omega

theorem faceAdjacent_update (c : Cell d) (j : Fin d) : FaceAdjacent (Function.update c j (c j - 1)) c := by
  refine ⟨j, Or.inl ?_, fun k hk => ?_⟩
  · rw [Function.update_self]; omega
  · rw [Function.update_of_ne hk]

/-- The cells of the border with an index `0` are reached. -/
theorem border_low (m : Mat d) (c : Cell d) (hc : Inside (expandMat m).shape c) (i : Fin d) (hi : c i = 0) :
    Connected (expandMat m) (fun _ => 0) c := by
  induction hn : ∑ j, (c j).toNat using Nat.strong_induction_on generalizing c with
  | _ n ih =>
  by_cases hall : ∀ j, c j = 0
  · have : c = fun _ => 0 := funext hall
    rw [this] at hc ⊢
    exact .start hc
  · push Not at hall
    obtain ⟨j, hj⟩ := hall
    have hcj := (inside_expand m c).1 hc
    have hij : i ≠ j := by rintro rfl; exact hj hi
    have h1 : (Function.update c j (c j - 1)) i = 0 := by rw [Function.update_of_ne hij]; exact hi
    have h2 : Inside (expandMat m).shape (Function.update c j (c j - 1)) := by
      rw [inside_expand]
      intro k
      have := hcj k
      by_cases hk : k = j
      · subst hk; rw [Function.update_self]; omega
      · rw [Function.update_of_ne hk]; exact this
    have h3 : ∑ k, ((Function.update c j (c j - 1)) k).toNat < n := by
      rw [← hn]
      apply Finset.sum_lt_sum
      · intro k _
        by_cases hk : k = j
        · subst hk; rw [Function.update_self]; omega
        · rw [Function.update_of_ne hk]
      · refine ⟨j, Finset.mem_univ _, ?_⟩
        rw [Function.update_self]
        have := hcj j
        omega
    refine .step (ih _ h3 _ h2 h1 rfl) (faceAdjacent_update c j) hc ?_
    rw [expand_val_border m c i (by omega), expand_val_border m _ i (by simp)]

/-- All the cells of the border are reached (in dimension at least two). -/
theorem border_connected (hd : ∀ i : Fin d, ∃ j, j ≠ i) (m : Mat d) (c : Cell d) (hc : Inside (expandMat m).shape c)
    (i : Fin d) (hi : c i = 0 ∨ c i = m.shape i + 1) : Connected (expandMat m) (fun _ => 0) c := by
  rcases hi with hi | hi
  · exact border_low m c hc i hi
  · obtain ⟨j, hji⟩ := hd i
    induction hn : (c j).toNat using Nat.strong_induction_on generalizing c with
    | _ n ih =>
    have hcj := (inside_expand m c).1 hc
    by_cases hj : c j = 0
    · exact border_low m c hc j hj
    · have h2 : Inside (expandMat m).shape (Function.update c j (c j - 1)) := by
        rw [inside_expand]
        intro k
        have := hcj k
        by_cases hk : k = j
        · subst hk; rw [Function.update_self]; omega
        · rw [Function.update_of_ne hk]; exact this
      have h3 : ((Function.update c j (c j - 1)) j).toNat < n := by
        rw [Function.update_self]
        have := hcj j
        omega
      refine .step (ih _ h3 _ h2 (by rw [Function.update_of_ne hji.symm]; exact hi) rfl) (faceAdjacent_update c j) hc ?_
      rw [expand_val_border m c i (by omega), expand_val_border m _ i (by simp)]

theorem outer_iff (hd0 : 0 < d) (hd : ∀ i : Fin d, ∃ j, j ≠ i) (m : Mat d) (c : Cell d) (hc : Inside (expandMat m).shape c) :
    Connected (expandMat m) (fun _ => 0) c ↔ Outer m fun i => c i - 1 := by
  have hstart : (expandMat m).val (fun _ => 0) = false := expand_val_border m _ ⟨0, hd0⟩ (by simp)
  constructor
  · intro h
    clear hc
    induction h with
    | start _ =>
      refine .outside fun h => ?_
      have := (h ⟨0, hd0⟩).1
      simp at this
    | step _ hab hb hv ih =>
      refine .step ih ?_ ?_
      · obtain ⟨i, h1, h2⟩ := hab
        exact ⟨i, by dsimp only; omega, fun j hj => by dsimp only; rw [h2 j hj]⟩
      · rw [← expand_val, hv, hstart]
  · have key : ∀ b, Outer m b → ∀ c : Cell d, Inside (expandMat m).shape c → (b = fun i => c i - 1) → Connected (expandMat m) (fun _ => 0) c := by
      intro b hb
      have hborder : ∀ b c : Cell d, Inside (expandMat m).shape c → (b = fun i => c i - 1) → ¬ Inside m.shape b → Connected (expandMat m) (fun _ => 0) c := by
        intro b c hc hbc hin
        unfold Inside at hin
        push Not at hin
        obtain ⟨i, hi⟩ := hin
        rw [hbc] at hi
        have := (inside_expand m c).1 hc i
        refine border_connected hd m c hc i ?_
        dsimp only at hi
        by_contra hne
        have := hi (by omega)
        omega
      induction hb with
      | outside hb => exact fun c hc hbc => hborder _ c hc hbc hb
      | @step a b ha hab hb ih =>
        intro c hc hbc
        by_cases hin : Inside m.shape b
        · obtain ⟨i, h1, h2⟩ := hab
          have hac : Inside (expandMat m).shape fun j => a j + 1 := by
            rw [inside_expand]
            intro j
            have := hin j
            by_cases hj : j = i
            · subst hj; omega
            · have := h2 j hj; omega
          refine .step (ih _ hac (funext fun j => by omega)) ⟨i, ?_, fun j hj => ?_⟩ hc ?_
          · have : b i = c i - 1 := by rw [hbc]
            dsimp only
            omega
          · have h3 := h2 j hj
            have : b j = c j - 1 := by rw [hbc]
            dsimp only
            omega
          · rw [hstart, expand_val, ← hbc, hb]
        · exact hborder b c hc hbc hin
    exact fun h => key _ h c hc rfl

theorem fillOuter_spec (dirs : List (Cell d)) (hdirs : DirsOk dirs) (hd0 : 0 < d) (hd : ∀ i : Fin d, ∃ j, j ≠ i) (v : Vox d K) :
    ∃ fuel r, (∀ fuel', fuel ≤ fuel' → v.fillOuter dirs fuel' = some (.ok r)) ∧ r.size = v.size ∧ r.minC = v.minC ∧
      r.mat.shape = v.mat.shape ∧ ∀ c, Inside v.mat.shape c → (r.mat.val c = true ↔ v.mat.val c = true ∨ Outer v.mat c) := by
  have hin : Inside v.expand.mat.shape (fun _ => 0) := by
    show Inside (expandMat v.mat).shape _
    rw [inside_expand]
    intro i
    omega
  obtain ⟨fuel, m', h1, h2, h3⟩ := floodFill_spec dirs hdirs v.expand.mat (fun _ => 0) true hin
  refine ⟨fuel, Vox.reduce ⟨m', v.expand.minC, v.expand.size⟩, fun k hk => ?_, rfl, ?_, ?_, ?_⟩
  · unfold Vox.fillOuter Vox.floodFill
    rw [h1 k hk]
    rfl
  · funext i
    show v.minC i - v.size + v.size = v.minC i
    ring
  · funext i
    show m'.shape i - 2 = _
    rw [h2]
    show v.mat.shape i + 2 - 2 = _
    omega
  · intro c hc
    have hsh : (reduceMat m').shape = v.mat.shape := by
      funext i
      show m'.shape i - 2 = _
      rw [h2]
      show v.mat.shape i + 2 - 2 = _
      omega
    have hval : (reduceMat m').val c = true ↔ (m'.val fun i => c i + 1) = true := by
      rw [reduceMat, mkMat_val]
      refine ⟨fun h => h.2, fun h => ⟨?_, h⟩⟩
      have : (reduceMat m').shape = fun i => m'.shape i - 2 := rfl
      rw [← this, hsh]
      exact hc
    show (reduceMat m').val c = true ↔ _
    rw [hval]
    have hce : Inside (expandMat v.mat).shape (fun i => c i + 1) := by
      rw [inside_expand]
      intro i
      have := hc i
      omega
    have houter := outer_iff hd0 hd v.mat (fun i => c i + 1) hce
    have hsub : (fun i => c i + 1 - 1) = c := funext fun i => by omega
    rw [hsub] at houter
    have hev : (expandMat v.mat).val (fun i => c i + 1) = v.mat.val c := by rw [expand_val, hsub]
    by_cases ho : Outer v.mat c
    · rw [(h3 _).1 (houter.2 ho)]
      simp [ho]
    · rw [(h3 _).2 (fun h => ho (houter.1 h))]
      show (expandMat v.mat).val (fun i => c i + 1) = true ↔ _
      rw [hev]
      simp [ho]

theorem union_same (v w : Vox d K) (hs : w.size = v.size) (hm : w.minC = v.minC) (hsh : w.mat.shape = v.mat.shape) (h0 : 0 < v.size) (h1 : v.size ≤ 1) :
    ∃ sh : Fin d → ℕ, (∀ i, v.mat.shape i ≤ sh i) ∧
      v.union w = .ok (Vox.crop ⟨mkMat sh fun c => v.mat.val c || w.mat.val c, v.minC, v.size⟩) := by
  obtain ⟨sh, h2, h3⟩ := logical_eq (fun a b => a || b) rfl v w hs.symm h0 h1 (fun _ => 0) fun i => by rw [hm]; simp
  refine ⟨sh, fun i => ?_, ?_⟩
  · have := (h2 i).1
    simpa using this
  · unfold Vox.union
    rw [h3]
    simp

theorem fillEnclosed_spec (dirs : List (Cell d)) (hdirs : DirsOk dirs) (hd0 : 0 < d) (hd : ∀ i : Fin d, ∃ j, j ≠ i) (v : Vox d K)
    (h0 : 0 < v.size) (h1 : v.size ≤ 1) :
    ∃ fuel u, (∀ fuel', fuel ≤ fuel' → v.fillEnclosed dirs fuel' = some (.ok (Vox.crop u))) ∧ u.size = v.size ∧ u.minC = v.minC ∧
      ∀ c, u.mat.val c = true ↔ v.mat.val c = true ∨ Enclosed v.mat c := by
  obtain ⟨fuel, r, hr, hrs, hrm, hrsh, hrv⟩ := fillOuter_spec dirs hdirs hd0 hd v
  obtain ⟨sh, hsh, hu⟩ := union_same v r.inverse hrs hrm hrsh h0 h1
  refine ⟨fuel, ⟨mkMat sh fun c => v.mat.val c || r.inverse.mat.val c, v.minC, v.size⟩, fun k hk => ?_, rfl, rfl, fun c => ?_⟩
  · unfold Vox.fillEnclosed
    rw [hr k hk]
    simp only [Option.map_some]
    rw [hu]
  · dsimp only
    rw [mkMat_val, Bool.or_eq_true]
    have hinv : r.inverse.mat.val c = true ↔ Enclosed v.mat c := by
      show (inverseMat r.mat).val c = true ↔ _
      rw [inverseMat, mkMat_val, hrsh]
      constructor
      · rintro ⟨h2, h3⟩
        have h4 : ¬ (r.mat.val c = true) := by simpa using h3
        rw [hrv c h2] at h4
        push Not at h4
        exact ⟨by simpa using h4.1, h4.2⟩
      · intro h
        refine ⟨Enclosed.inside h, ?_⟩
        have := hrv c (Enclosed.inside h)
        rw [h.1] at this
        simp only [Bool.false_eq_true, false_or] at this
        rw [Bool.not_eq_true']
        rw [← Bool.not_eq_true]
        exact fun h' => h.2 (this.1 h')
    rw [hinv]
    refine ⟨fun h => h.2, fun h => ⟨fun i => ?_, h⟩⟩
    have h2 : Inside v.mat.shape c := h.elim (v.mat.supp c) Enclosed.inside
    have := h2 i
    have := hsh i
    omega

theorem two_axes : ∀ i : Fin 2, ∃ j, j ≠ i := by decide
theorem three_axes : ∀ i : Fin 3, ∃ j, j ≠ i := by decide

end Voxel

/-- **C40 (outer, voxels).** `fill_outer_voxels` ends, keeps the grid and the shape, and a cell of the result is true
exactly if it was true or is connected with the outside. -/
theorem C40_fill_outer_voxels (v : Vox 3 K) :
    ∃ fuel r, (∀ fuel', fuel ≤ fuel' → v.fillOuter dirs3 fuel' = some (.ok r)) ∧ r.size = v.size ∧ r.minC = v.minC ∧
      r.mat.shape = v.mat.shape ∧ ∀ c, Inside v.mat.shape c → (r.mat.val c = true ↔ v.mat.val c = true ∨ Outer v.mat c) :=
  fillOuter_spec dirs3 dirs3_ok (by norm_num) three_axes v

/-- **C40 (outer, pixels).** -/
theorem C40_fill_outer_pixels (v : Vox 2 K) :
    ∃ fuel r, (∀ fuel', fuel ≤ fuel' → v.fillOuter dirs2 fuel' = some (.ok r)) ∧ r.size = v.size ∧ r.minC = v.minC ∧
      r.mat.shape = v.mat.shape ∧ ∀ c, Inside v.mat.shape c → (r.mat.val c = true ↔ v.mat.val c = true ∨ Outer v.mat c) :=
  fillOuter_spec dirs2 dirs2_ok (by norm_num) two_axes v

/-- The centres after filling the enclosed cells. -/
def C40_filledCentres (v : Vox d K) : Set (Fin d → K) :=
  v.centres ∪ {p | ∃ c, Enclosed v.mat c ∧ p = fun i => v.minC i + c i * v.size}

/-- **C40 (enclosed, full statement).** -/
def C40_fill_enclosed_full_statement (dirs : List (Cell d)) (K : Type) [Field K] [LinearOrder K] [IsStrictOrderedRing K] [FloorRing K] : Prop :=
  ∀ v : Vox d K, 0 < v.size →
    ∃ fuel r, (∀ fuel', fuel ≤ fuel' → v.fillEnclosed dirs fuel' = some (.ok r)) ∧ r.size = v.size ∧ r.centres = C40_filledCentres v

theorem Voxel.fillEnclosed_centres (dirs : List (Cell d)) (hdirs : DirsOk dirs) (hd0 : 0 < d) (hd : ∀ i : Fin d, ∃ j, j ≠ i) (v : Vox d K)
    (h0 : 0 < v.size) (h1 : v.size ≤ 1) :
    ∃ fuel r, (∀ fuel', fuel ≤ fuel' → v.fillEnclosed dirs fuel' = some (.ok r)) ∧ r.size = v.size ∧ r.centres = C40_filledCentres v := by
  obtain ⟨fuel, u, h2, h3, h4, h5⟩ := fillEnclosed_spec dirs hdirs hd0 hd v h0 h1
  refine ⟨fuel, u.crop, h2, by rw [crop_size, h3], ?_⟩
  rw [crop_centres]
  ext p
  constructor
  · rintro ⟨c, h6, rfl⟩
    rw [h4, h3]
    rcases (h5 c).1 h6 with h7 | h7
    · exact Or.inl ⟨c, h7, rfl⟩
    · exact Or.inr ⟨c, h7, rfl⟩
  · rintro (⟨c, h6, rfl⟩ | ⟨c, h6, rfl⟩)
    · exact ⟨c, (h5 c).2 (Or.inl h6), by rw [h4, h3]⟩
    · exact ⟨c, (h5 c).2 (Or.inr h6), by rw [h4, h3]⟩

/-- **C40 (enclosed, voxels, part).** For voxels of size at most 1, `fill_enclosed_voxels` adds exactly the enclosed
cells.  (For larger voxels it fails, because it uses `union`, see `C40_fill_enclosed_large_voxels_counterexample`.) -/
theorem C40_fill_enclosed_voxels_partial (v : Vox 3 K) (h0 : 0 < v.size) (h1 : v.size ≤ 1) :
    ∃ fuel r, (∀ fuel', fuel ≤ fuel' → v.fillEnclosed dirs3 fuel' = some (.ok r)) ∧ r.size = v.size ∧ r.centres = C40_filledCentres v :=
  fillEnclosed_centres dirs3 dirs3_ok (by norm_num) three_axes v h0 h1

/-- **C40 (enclosed, pixels, part).** -/
theorem C40_fill_enclosed_pixels_partial (v : Vox 2 K) (h0 : 0 < v.size) (h1 : v.size ≤ 1) :
    ∃ fuel r, (∀ fuel', fuel ≤ fuel' → v.fillEnclosed dirs2 fuel' = some (.ok r)) ∧ r.size = v.size ∧ r.centres = C40_filledCentres v :=
  fillEnclosed_centres dirs2 dirs2_ok (by norm_num) two_axes v h0 h1

/-- **C40 is false for voxels larger than 1.** `fill_enclosed_voxels` raises a `ValueError` for every voxelization with
voxels larger than 1 and at least two layers along some axis. -/
theorem C40_fill_enclosed_large_voxels_counterexample (v : Vox 3 K) (h1 : 1 < v.size) (h : ∃ i, 2 ≤ v.mat.shape i) :
    ∃ fuel, ∀ fuel', fuel ≤ fuel' → v.fillEnclosed dirs3 fuel' = some (.error .valueError) := by
  obtain ⟨fuel, r, hr, hrs, hrm, hrsh, _⟩ := C40_fill_outer_voxels v
  refine ⟨fuel, fun k hk => ?_⟩
  unfold Vox.fillEnclosed
  rw [hr k hk]
  simp only [Option.map_some, Option.some.injEq]
  obtain ⟨i, hi⟩ := h
  have h0 : 0 < v.size := lt_trans one_pos h1
  have hmax : ∀ i, r.inverse.maxC i = v.maxC i := by
    intro i
    unfold Vox.maxC
    show r.minC i + ((r.mat.shape i : K) - 1) * r.size = _
    rw [hrm, hrsh, hrs]
  have hmin : ∀ i, r.inverse.minC i = v.minC i := fun i => by show r.minC i = _; rw [hrm]
  have hst : ∀ i, ⌊(v.minC i - min (v.minC i) (v.minC i)) / v.size⌋ = 0 := by intro i; simp
  have hfl : ∀ i, ⌊(max (v.maxC i + 1) (v.maxC i + 1) - min (v.minC i) (v.minC i)) / v.size⌋ = (v.mat.shape i : ℤ) - 1 := by
    intro i
    rw [max_self, min_self, Int.floor_eq_iff, le_div_iff₀ h0, div_lt_iff₀ h0]
    unfold Vox.maxC
    push_cast
    constructor <;> linarith
  have hp : paste (fun i => ⌊(max (v.maxC i + 1) (v.maxC i + 1) - min (v.minC i) (v.minC i)) / v.size⌋.toNat)
      (fun i => ⌊(v.minC i - min (v.minC i) (v.minC i)) / v.size⌋) v.mat = .error .valueError := by
    unfold paste
    rw [if_neg]
    intro h
    have h2 := h i
    dsimp only at h2
    rw [hst i, hfl i] at h2
    omega
  unfold Vox.union Vox.logical
  have hss : v.size = r.inverse.size := hrs.symm
  rw [if_neg (not_not.2 hss)]
  dsimp only
  simp only [hmax, hmin]
  rw [hp]

/-- **C40, is_hollow.** When `is_hollow` answers `True`, there is no enclosed cell: the answer is the negation of what
the name and the documentation say.  (`fill_enclosed_voxels` crops its result, so for a matrix that is not cropped the
answer is always `False`.) -/
theorem C40_is_hollow_means_not_hollow (v : Vox 3 K) (h0 : 0 < v.size) (h1 : v.size ≤ 1) :
    ∃ fuel P, (∀ fuel', fuel ≤ fuel' → v.isHollow dirs3 fuel' = some P) ∧ (P → ¬ ∃ c, Enclosed v.mat c) ∧
      (Cropped v.mat → (∃ c, v.mat.val c = true) → (P ↔ ¬ ∃ c, Enclosed v.mat c)) := by
  obtain ⟨fuel, u, h2, h3, h4, h5⟩ := fillEnclosed_spec dirs3 dirs3_ok (by norm_num) three_axes v h0 h1
  have himp : u.crop.Eq v → ¬ ∃ c, Enclosed v.mat c := by
    rintro ⟨h6, h7, h8, h9⟩ ⟨c, hc⟩
    have hcu : (fun i => v.minC i + c i * v.size) ∈ u.centres := ⟨c, (h5 c).2 (Or.inr hc), by rw [h4, h3]⟩
    rw [← crop_centres] at hcu
    rw [mem_centres u.crop (by rw [h6]; exact h0.ne') _ c (fun i => by rw [h6, h7]), h9, hc.1] at hcu
    cases hcu
  refine ⟨fuel, u.crop.Eq v, fun k hk => ?_, himp, fun hc hne => ⟨himp, fun hno => ?_⟩⟩
  · unfold Vox.isHollow
    rw [h2 k hk]
  · refine crop_eq_of_cropped v u h3 h4 hc hne fun c => ?_
    rw [Bool.eq_iff_iff, h5]
    exact ⟨fun h => h.resolve_right fun h' => hno ⟨c, h'⟩, Or.inl⟩

/-- **C40, is_hollow, counterexample.** One single voxel is not hollow, and `is_hollow` answers `True`. -/
theorem C40_is_hollow_counterexample :
    let v : Vox 3 ℚ := ⟨mkMat (fun _ => 1) fun _ => true, fun _ => 0, 1⟩
    (¬ ∃ c, Enclosed v.mat c) ∧ ∃ fuel P, (∀ fuel', fuel ≤ fuel' → v.isHollow dirs3 fuel' = some P) ∧ P := by
  intro v
  have hno : ¬ ∃ c, Enclosed v.mat c := by
    rintro ⟨c, hc⟩
    have h1 := hc.1
    have h2 : v.mat.val c = true := (mkMat_val _ _ _).2 ⟨Enclosed.inside hc, rfl⟩
    rw [h2] at h1
    cases h1
  have hv : v.mat.val (fun _ => 0) = true := (mkMat_val _ _ _).2 ⟨by decide, rfl⟩
  obtain ⟨fuel, P, h1, _, h3⟩ := C40_is_hollow_means_not_hollow v (by norm_num [v]) (by norm_num [v])
  refine ⟨hno, fuel, P, h1, (h3 (fun i => ⟨⟨_, hv, rfl⟩, ⟨_, hv, rfl⟩⟩) ⟨_, hv⟩).2 hno⟩

/-- An enclosed pixel exists: the centre of a `3 × 3` ring. -/
example : Enclosed (mkMat (d := 2) ![3, 3] fun c => !(c 0 == 1 && c 1 == 1)) ![1, 1] := by
  refine ⟨by decide, fun h => ?_⟩
  have : ∀ c, Outer (mkMat (d := 2) ![3, 3] fun c => !(c 0 == 1 && c 1 == 1)) c → c ≠ ![1, 1] := by
    intro c hc
    induction hc with
    | outside h => rintro rfl; exact h (by decide)
    | @step a b ha hab hb ih =>
      rintro rfl
      have ha' : (mkMat (d := 2) ![3, 3] fun c => !(c 0 == 1 && c 1 == 1)).val a = true := by
        obtain ⟨i, h1, h2⟩ := hab
        fin_cases i
        · have h3 := h2 1 (by decide)
          simp at h1 h3
          rcases h1 with h1 | h1
          · have : a = ![0, 1] := by ext j; fin_cases j <;> simp <;> omega
            rw [this]; decide
          · have : a = ![2, 1] := by ext j; fin_cases j <;> simp <;> omega
            rw [this]; decide
        · have h3 := h2 0 (by decide)
          simp at h1 h3
          rcases h1 with h1 | h1
          · have : a = ![1, 0] := by ext j; fin_cases j <;> simp <;> omega
            rw [this]; decide
          · have : a = ![1, 2] := by ext j; fin_cases j <;> simp <;> omega
            rw [this]; decide
      cases ha with
      | outside h => exact h (Mat.supp _ _ ha')
      | step _ _ h => rw [h] at ha'; cases ha'
  exact this _ h rfl

end Volmdlr
