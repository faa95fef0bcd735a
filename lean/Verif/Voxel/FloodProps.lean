import Verif.Voxel.Model
import Mathlib.Data.Fin.VecNotation
import Mathlib.Data.Finset.Card
import Mathlib.Data.Finset.Filter
import Mathlib.Tactic.FinCases
import Mathlib.Tactic.Abel
import Mathlib.Tactic.Tauto

/-!
# C39: flood fill fills exactly the connected component
-/

namespace Volmdlr
open Voxel

/-- **Specification.** Two cells with a common face (pixels with a common side): one index differs, by one. -/
def FaceAdjacent {d : ℕ} (a b : Cell d) : Prop := ∃ i, (b i = a i + 1 ∨ b i = a i - 1) ∧ ∀ j, j ≠ i → b j = a j

/-- **Specification.** The cells connected to `start` by face-adjacent cells of the matrix of the same value. -/
inductive Connected {d : ℕ} (m : Mat d) (start : Cell d) : Cell d → Prop
  | start : Inside m.shape start → Connected m start start
  | step {a b : Cell d} : Connected m start a → FaceAdjacent a b → Inside m.shape b → m.val b = m.val start →
      Connected m start b

namespace Voxel

variable {d : ℕ}

theorem Connected.inside {m : Mat d} {s c : Cell d} (h : Connected m s c) : Inside m.shape c := by
  cases h with
  | start h => exact h
  | step _ _ h _ => exact h

theorem Connected.val {m : Mat d} {s c : Cell d} (h : Connected m s c) : m.val c = m.val s := by
  cases h with
  | start h => rfl
  | step _ _ _ h => exact h

/-- The offsets are those of the face-adjacent cells. -/
def DirsOk (dirs : List (Cell d)) : Prop := ∀ a b : Cell d, FaceAdjacent a b ↔ ∃ v ∈ dirs, b = a + v

theorem dirs2_ok : DirsOk dirs2 := by
  intro a b
  constructor
  · rintro ⟨i, h1, h2⟩
    fin_cases i
    · have := h2 1 (by decide)
      rcases h1 with h | h
      · exact ⟨![1, 0], by simp [dirs2], by ext j; fin_cases j <;> simp_all⟩
      · exact ⟨![-1, 0], by simp [dirs2], by ext j; fin_cases j <;> simp_all <;> omega⟩
    · have := h2 0 (by decide)
      rcases h1 with h | h
      · exact ⟨![0, 1], by simp [dirs2], by ext j; fin_cases j <;> simp_all⟩
      · exact ⟨![0, -1], by simp [dirs2], by ext j; fin_cases j <;> simp_all <;> omega⟩
  · rintro ⟨v, hv, rfl⟩
    simp only [dirs2, List.mem_cons, List.not_mem_nil, or_false] at hv
    rcases hv with rfl | rfl | rfl | rfl
    · exact ⟨1, Or.inr (by simp; omega), fun j hj => by fin_cases j <;> simp_all⟩
    · exact ⟨1, Or.inl (by simp), fun j hj => by fin_cases j <;> simp_all⟩
    · exact ⟨0, Or.inr (by simp; omega), fun j hj => by fin_cases j <;> simp_all⟩
    · exact ⟨0, Or.inl (by simp), fun j hj => by fin_cases j <;> simp_all⟩

theorem dirs3_ok : DirsOk dirs3 := by
  intro a b
  constructor
  · rintro ⟨i, h1, h2⟩
    fin_cases i
    · have := h2 1 (by decide)
      have := h2 2 (by decide)
      rcases h1 with h | h
      · exact ⟨![1, 0, 0], by simp [dirs3], by ext j; fin_cases j <;> simp_all⟩
      · exact ⟨![-1, 0, 0], by simp [dirs3], by ext j; fin_cases j <;> simp_all <;> omega⟩
    · have := h2 0 (by decide)
      have := h2 2 (by decide)
      rcases h1 with h | h
      · exact ⟨![0, 1, 0], by simp [dirs3], by ext j; fin_cases j <;> simp_all⟩
      · exact ⟨![0, -1, 0], by simp [dirs3], by ext j; fin_cases j <;> simp_all <;> omega⟩
    · have := h2 0 (by decide)
      have := h2 1 (by decide)
      rcases h1 with h | h
      · exact ⟨![0, 0, 1], by simp [dirs3], by ext j; fin_cases j <;> simp_all⟩
      · exact ⟨![0, 0, -1], by simp [dirs3], by ext j; fin_cases j <;> simp_all <;> omega⟩
  · rintro ⟨v, hv, rfl⟩
    simp only [dirs3, List.mem_cons, List.not_mem_nil, or_false] at hv
    rcases hv with rfl | rfl | rfl | rfl | rfl | rfl
    · exact ⟨1, Or.inr (by simp; omega), fun j hj => by fin_cases j <;> simp_all⟩
    · exact ⟨1, Or.inl (by simp), fun j hj => by fin_cases j <;> simp_all⟩
    · exact ⟨0, Or.inr (by simp; omega), fun j hj => by fin_cases j <;> simp_all⟩
    · exact ⟨0, Or.inl (by simp), fun j hj => by fin_cases j <;> simp_all⟩
    · exact ⟨2, Or.inr (by simp; omega), fun j hj => by fin_cases j <;> simp_all⟩
    · exact ⟨2, Or.inl (by simp), fun j hj => by fin_cases j <;> simp_all⟩

theorem setCell_self (val : Cell d → Bool) (c : Cell d) (b : Bool) : setCell val c b c = b := if_pos rfl

theorem setCell_of_ne {c x : Cell d} (h : x ≠ c) (b : Bool) (val : Cell d → Bool) : setCell val c b x = val x := if_neg h

theorem setCell_eq_self (c : Cell d) (val : Cell d → Bool) : setCell val c (val c) = val := by
  funext x
  unfold setCell
  split_ifs with h
  · rw [h]
  · rfl

/-- The cells pushed by one step of the loop. -/
theorem pushes (dirs : List (Cell d)) (shape : Fin d → ℕ) (old : Bool) (val : Cell d → Bool) (c : Cell d) (stack : List (Cell d)) :
    ∃ new, dirs.foldl (fun st v => if Inside shape (c + v) ∧ val (c + v) = old then (c + v) :: st else st) stack = new ++ stack ∧
      ∀ y, y ∈ new ↔ ∃ v ∈ dirs, y = c + v ∧ Inside shape y ∧ val y = old := by
  induction dirs generalizing stack with
  | nil => exact ⟨[], rfl, by simp⟩
  | cons v dirs ih =>
    rw [List.foldl_cons]
    by_cases h : Inside shape (c + v) ∧ val (c + v) = old
    · rw [if_pos h]
      obtain ⟨new, h1, h2⟩ := ih ((c + v) :: stack)
      refine ⟨new ++ [c + v], by rw [h1]; simp, fun y => ?_⟩
      rw [List.mem_append, h2, List.mem_singleton]
      constructor
      · rintro (⟨w, hw, h3⟩ | rfl)
        · exact ⟨w, List.mem_cons_of_mem _ hw, h3⟩
        · exact ⟨v, List.mem_cons_self, rfl, h⟩
      · rintro ⟨w, hw, h3⟩
        rcases List.mem_cons.1 hw with rfl | hw
        · exact Or.inr h3.1
        · exact Or.inl ⟨w, hw, h3⟩
    · rw [if_neg h]
      obtain ⟨new, h1, h2⟩ := ih stack
      refine ⟨new, h1, fun y => ?_⟩
      rw [h2]
      constructor
      · rintro ⟨w, hw, h3⟩
        exact ⟨w, List.mem_cons_of_mem _ hw, h3⟩
      · rintro ⟨w, hw, h3⟩
        rcases List.mem_cons.1 hw with rfl | hw
        · exact absurd (h3.1 ▸ h3.2) h
        · exact ⟨w, hw, h3⟩

/-- The cells of the matrix that still have the old value. -/
def remaining (shape : Fin d → ℕ) (old : Bool) (val : Cell d → Bool) : ℕ :=
  ((Fintype.piFinset fun i => Finset.Ico (0 : ℤ) (shape i)).filter fun c => val c = old).card

theorem mem_cells (shape : Fin d → ℕ) (c : Cell d) : c ∈ (Fintype.piFinset fun i => Finset.Ico (0 : ℤ) (shape i)) ↔ Inside shape c := by
  simp [Inside, Fintype.mem_piFinset]

/-- The invariant of the loop. -/
structure FloodInv (m : Mat d) (start : Cell d) (fill : Bool) (stack : List (Cell d)) (val : Cell d → Bool) : Prop where
  changed : ∀ c, val c ≠ m.val c → Connected m start c ∧ val c = fill
  onStack : ∀ c ∈ stack, Connected m start c
  first : start ∈ stack ∨ val start = fill
  closed : ∀ c, Connected m start c → val c = fill → ∀ y, FaceAdjacent c y → Inside m.shape y → val y = m.val start → y ∈ stack
  above : ∀ a c b, stack = a ++ c :: b → val c = fill → ∀ y, FaceAdjacent c y → Inside m.shape y → val y = m.val start → y ∈ a

theorem flood_step (dirs : List (Cell d)) (hd : DirsOk dirs) (m : Mat d) (start : Cell d) (fill : Bool) (hf : m.val start ≠ fill)
    (c : Cell d) (stack : List (Cell d)) (val : Cell d → Bool) (h : FloodInv m start fill (c :: stack) val)
    (new : List (Cell d)) (hn : ∀ y, y ∈ new ↔ ∃ v ∈ dirs, y = c + v ∧ Inside m.shape y ∧ setCell val c fill y = m.val start) :
    FloodInv m start fill (new ++ stack) (setCell val c fill) := by
  have hc := h.onStack c List.mem_cons_self
  have hnew : ∀ y, y ∈ new ↔ FaceAdjacent c y ∧ Inside m.shape y ∧ setCell val c fill y = m.val start := by
    intro y
    rw [hn, hd c y]
    constructor
    · rintro ⟨v, hv, h1, h2⟩; exact ⟨⟨v, hv, h1⟩, h2⟩
    · rintro ⟨⟨v, hv, h1⟩, h2⟩; exact ⟨v, hv, h1, h2⟩
  have hupd : ∀ y, y ≠ c → setCell val c fill y = val y := fun y hy => setCell_of_ne hy _ _
  have hold : ∀ y, setCell val c fill y = m.val start → y ≠ c := by
    rintro y hy rfl
    rw [setCell_self] at hy
    exact hf hy.symm
  refine ⟨?_, ?_, ?_, ?_, ?_⟩
  · intro y hy
    by_cases hyc : y = c
    · subst hyc; exact ⟨hc, setCell_self _ _ _⟩
    · rw [hupd y hyc] at hy ⊢
      exact h.changed y hy
  · intro y hy
    rcases List.mem_append.1 hy with hy | hy
    · obtain ⟨h1, h2, h3⟩ := (hnew y).1 hy
      have hyc := hold y h3
      rw [hupd y hyc] at h3
      refine .step hc h1 h2 ?_
      by_contra hne
      have := (h.changed y (fun h => hne (h ▸ h3))).2
      rw [this] at h3
      exact hf h3.symm
    · exact h.onStack y (List.mem_cons_of_mem _ hy)
  · by_cases hsc : start = c
    · subst hsc; exact Or.inr (setCell_self _ _ _)
    · rw [hupd start hsc]
      rcases h.first with h1 | h1
      · rcases List.mem_cons.1 h1 with h2 | h2
        · exact absurd h2 hsc
        · exact Or.inl (List.mem_append_right _ h2)
      · exact Or.inr h1
  · intro x hx hxf y hxy hy hyo
    have hyc := hold y hyo
    by_cases hxc : x = c
    · subst hxc
      exact List.mem_append_left _ ((hnew y).2 ⟨hxy, hy, hyo⟩)
    · rw [hupd x hxc] at hxf
      have hyo' := hyo
      rw [hupd y hyc] at hyo'
      rcases List.mem_cons.1 (h.closed x hx hxf y hxy hy hyo') with h1 | h1
      · exact absurd h1 hyc
      · exact List.mem_append_right _ h1
  · intro a x b hab hxf y hxy hy hyo
    have hyc := hold y hyo
    have hyo' := hyo
    rw [hupd y hyc] at hyo'
    rw [List.append_eq_append_iff] at hab
    rcases hab with ⟨a', ha, hs⟩ | ⟨c', hcn, hb⟩
    · -- `x` is in the old stack
      by_cases hxc : x = c
      · subst hxc
        rw [ha]
        exact List.mem_append_left _ ((hnew y).2 ⟨hxy, hy, hyo⟩)
      · rw [hupd x hxc] at hxf
        have := h.above (c :: a') x b (by rw [hs]; rfl) hxf y hxy hy hyo'
        rcases List.mem_cons.1 this with h1 | h1
        · exact absurd h1 hyc
        · rw [ha]; exact List.mem_append_right _ h1
    · cases c' with
      | nil =>
        rw [List.nil_append] at hb
        by_cases hxc : x = c
        · subst hxc
          rw [List.append_nil] at hcn
          rw [← hcn]
          exact (hnew y).2 ⟨hxy, hy, hyo⟩
        · rw [hupd x hxc] at hxf
          have := h.above [c] x b (by rw [← hb]; rfl) hxf y hxy hy hyo'
          rw [List.mem_singleton] at this
          exact absurd this hyc
      | cons x' c' =>
        rw [List.cons_append, List.cons.injEq] at hb
        -- `x` was just pushed, it has the old value
        have hxn : x ∈ new := by rw [hcn, hb.1]; simp
        obtain ⟨_, _, h3⟩ := (hnew x).1 hxn
        rw [h3] at hxf
        exact absurd hxf hf

theorem flood_terminates (dirs : List (Cell d)) (hd : DirsOk dirs) (m : Mat d) (start : Cell d) (fill : Bool)
    (hf : m.val start ≠ fill) (stack : List (Cell d)) (val : Cell d → Bool) (h : FloodInv m start fill stack val) :
    ∃ k v, (∀ k', k ≤ k' → floodLoop dirs m.shape (m.val start) fill k' stack val = some v) ∧
      FloodInv m start fill [] v := by
  induction hr : remaining m.shape (m.val start) val using Nat.strong_induction_on generalizing stack val with
  | _ n ihn =>
  induction hl : stack.length generalizing stack val with
  | zero =>
    rw [List.length_eq_zero_iff] at hl
    subst hl
    refine ⟨1, val, fun k' hk => ?_, h⟩
    obtain ⟨k', rfl⟩ : ∃ j, k' = j + 1 := ⟨k' - 1, by omega⟩
    rw [floodLoop]
  | succ len ihl =>
    cases stack with
    | nil => simp at hl
    | cons c stack =>
      obtain ⟨new, hn1, hn2⟩ := pushes dirs m.shape (m.val start) (setCell val c fill) c stack
      have hinv := flood_step dirs hd m start fill hf c stack val h new hn2
      have hc := h.onStack c List.mem_cons_self
      have hrec : ∃ k v, (∀ k', k ≤ k' → floodLoop dirs m.shape (m.val start) fill k' (new ++ stack) (setCell val c fill) = some v) ∧
          FloodInv m start fill [] v := by
        by_cases hcf : val c = fill
        · -- nothing is pushed
          have hupd : setCell val c fill = val := by rw [← hcf]; exact setCell_eq_self _ _
          have hnil : new = [] := by
            rw [List.eq_nil_iff_forall_not_mem]
            intro y hy
            obtain ⟨v, hv, h1, h2, h3⟩ := (hn2 y).1 hy
            rw [hupd] at h3
            have := h.above [] c stack rfl hcf y ((hd c y).2 ⟨v, hv, h1⟩) h2 h3
            simp at this
          rw [hnil, hupd, List.nil_append] at hinv ⊢
          exact ihl stack val hinv hr (by simpa using hl)
        · have hlt : remaining m.shape (m.val start) (setCell val c fill) < remaining m.shape (m.val start) val := by
            apply Finset.card_lt_card
            rw [Finset.ssubset_iff_of_subset]
            · refine ⟨c, ?_, ?_⟩
              · rw [Finset.mem_filter, mem_cells]
                refine ⟨Connected.inside hc, ?_⟩
                revert hcf hf
                cases val c <;> cases fill <;> cases m.val start <;> simp
              · rw [Finset.mem_filter, setCell_self]
                exact fun h => hf h.2.symm
            · intro x hx
              rw [Finset.mem_filter] at hx ⊢
              refine ⟨hx.1, ?_⟩
              by_cases hxc : x = c
              · subst hxc
                rw [setCell_self] at hx
                exact absurd hx.2.symm hf
              · rw [setCell_of_ne hxc] at hx
                exact hx.2
          exact ihn _ (by rw [← hr]; exact hlt) (new ++ stack) _ hinv rfl
      obtain ⟨k, v, hk, hv⟩ := hrec
      refine ⟨k + 1, v, fun k' hk' => ?_, hv⟩
      obtain ⟨k', rfl⟩ : ∃ j, k' = j + 1 := ⟨k' - 1, by omega⟩
      rw [floodLoop]
      rw [hn1]
      exact hk k' (by omega)

theorem FloodInv.init (m : Mat d) (start : Cell d) (fill : Bool) (hs : Inside m.shape start) (hf : m.val start ≠ fill) :
    FloodInv m start fill [start] m.val := by
  refine ⟨fun c h => absurd rfl h, ?_, Or.inl (List.mem_singleton.2 rfl), ?_, ?_⟩
  · intro c hc; rw [List.mem_singleton.1 hc]; exact .start hs
  · intro c hc hcf
    rw [Connected.val hc] at hcf
    exact absurd hcf hf
  · intro a c b hab hcf
    have hc : c = start := by
      have : c ∈ [start] := by rw [hab]; simp
      exact List.mem_singleton.1 this
    rw [hc] at hcf
    exact absurd hcf hf

theorem FloodInv.final {m : Mat d} {start : Cell d} {fill : Bool} {v : Cell d → Bool} (hf : m.val start ≠ fill)
    (h : FloodInv m start fill [] v) (c : Cell d) :
    (Connected m start c → v c = fill) ∧ (¬ Connected m start c → v c = m.val c) := by
  constructor
  · intro hc
    induction hc with
    | start _ => exact h.first.resolve_left (by simp)
    | @step a b ha hab hb hv ih =>
      by_contra hne
      have hvb : v b = m.val start := by
        revert hne hf
        cases v b <;> cases fill <;> cases m.val start <;> simp
      have := h.closed a ha ih b hab hb hvb
      simp at this
  · intro hc
    by_contra hne
    exact hc (h.changed c hne).1

/-- Flood fill with any list of offsets that are those of the face-adjacent cells. -/
theorem floodFill_spec (dirs : List (Cell d)) (hd : DirsOk dirs) (m : Mat d) (start : Cell d) (fill : Bool)
    (hs : Inside m.shape start) :
    ∃ fuel m', (∀ fuel', fuel ≤ fuel' → floodFill dirs fuel' m start fill = some (.ok m')) ∧ m'.shape = m.shape ∧
      ∀ c, (Connected m start c → m'.val c = fill) ∧ (¬ Connected m start c → m'.val c = m.val c) := by
  by_cases hf : m.val start = fill
  · refine ⟨0, m, fun k _ => ?_, rfl, fun c => ⟨fun h => (Connected.val h).trans hf, fun _ => rfl⟩⟩
    unfold floodFill
    rw [if_neg (not_not.2 hs)]
    dsimp only
    rw [if_pos hf]
  · obtain ⟨k, v, hk, hv⟩ := flood_terminates dirs hd m start fill hf [start] m.val (FloodInv.init m start fill hs hf)
    have hfin := hv.final hf
    have hmk : ∀ c, (mkMat m.shape v).val c = v c := by
      intro c
      show (decide (Inside m.shape c) && v c) = v c
      by_cases hc : Inside m.shape c
      · simp [hc]
      · have hn : ¬ Connected m start c := fun h => hc (Connected.inside h)
        rw [(hfin c).2 hn]
        cases hval : m.val c with
        | false => simp
        | true => exact absurd (m.supp c hval) hc
    refine ⟨k, mkMat m.shape v, fun k' hk' => ?_, rfl, fun c => ?_⟩
    · unfold floodFill
      rw [if_neg (not_not.2 hs)]
      dsimp only
      rw [if_neg hf, hk k' hk']
      rfl
    · rw [hmk]; exact hfin c

end Voxel

/-- **C39 (voxels).** Flood fill of a three-dimensional matrix ends and gives a matrix of the same shape in which
exactly the cells connected to the start by face-adjacent cells of the same value have got the new value. -/
theorem C39_flood_fill_3d (m : Mat 3) (start : Cell 3) (fill : Bool) (hs : Inside m.shape start) :
    ∃ fuel m', (∀ fuel', fuel ≤ fuel' → floodFill dirs3 fuel' m start fill = some (.ok m')) ∧ m'.shape = m.shape ∧
      ∀ c, (Connected m start c → m'.val c = fill) ∧ (¬ Connected m start c → m'.val c = m.val c) :=
  floodFill_spec dirs3 dirs3_ok m start fill hs

/-- **C39 (pixels).** The same in two dimensions. -/
theorem C39_flood_fill_2d (m : Mat 2) (start : Cell 2) (fill : Bool) (hs : Inside m.shape start) :
    ∃ fuel m', (∀ fuel', fuel ≤ fuel' → floodFill dirs2 fuel' m start fill = some (.ok m')) ∧ m'.shape = m.shape ∧
      ∀ c, (Connected m start c → m'.val c = fill) ∧ (¬ Connected m start c → m'.val c = m.val c) :=
  floodFill_spec dirs2 dirs2_ok m start fill hs

/-- **C39 (errors).** It fails, with an `IndexError`, exactly when the start is not in the matrix. -/
theorem C39_index_error (m : Mat 3) (start : Cell 3) (fill : Bool) :
    (∃ fuel, floodFill dirs3 fuel m start fill = some (.error ())) ↔ ¬ Inside m.shape start := by
  constructor
  · rintro ⟨fuel, h⟩ hs
    unfold floodFill at h
    rw [if_neg (not_not.2 hs)] at h
    dsimp only at h
    split_ifs at h
    · cases h
    · rw [Option.map_eq_some_iff] at h
      obtain ⟨_, _, h⟩ := h
      cases h
  · intro hs
    refine ⟨0, ?_⟩
    unfold floodFill
    rw [if_pos hs]

/-- **C39 (errors, pixels).** -/
theorem C39_index_error_2d (m : Mat 2) (start : Cell 2) (fill : Bool) :
    (∃ fuel, floodFill dirs2 fuel m start fill = some (.error ())) ↔ ¬ Inside m.shape start := by
  constructor
  · rintro ⟨fuel, h⟩ hs
    unfold floodFill at h
    rw [if_neg (not_not.2 hs)] at h
    dsimp only at h
    split_ifs at h
    · cases h
    · rw [Option.map_eq_some_iff] at h
      obtain ⟨_, _, h⟩ := h
      cases h
  · intro hs
    refine ⟨0, ?_⟩
    unfold floodFill
    rw [if_pos hs]

/-- A `3 × 3` picture whose left and middle columns are empty except one pixel, and a wall. -/
def C39_exampleMat : Mat 2 := mkMat ![3, 3] fun c => c 0 == 1 && c 1 != 2

example : Inside C39_exampleMat.shape ![0, 0] := by decide
example : (floodFill dirs2 50 C39_exampleMat ![0, 0] true).map (fun r => match r with
    | .ok m => [m.val ![0, 1], m.val ![0, 2], m.val ![1, 2], m.val ![2, 0]]
    | .error _ => []) = some [true, true, true, true] := by decide +kernel
example : (floodFill dirs2 50 (mkMat ![3, 3] fun c => c 0 == 1) ![0, 0] true).map (fun r => match r with
    | .ok m => [m.val ![0, 1], m.val ![0, 2], m.val ![1, 2], m.val ![2, 0]]
    | .error _ => []) = some [true, true, true, false] := by decide +kernel

end Volmdlr
