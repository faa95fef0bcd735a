import Verif.Step.ExportModel
import Mathlib.Data.List.GetD
import Mathlib.Tactic.Tauto

/-!
# C34: STEP export — identifiers are unique, references resolve
-/

namespace Volmdlr
open StepExport

/-- The identifiers defined by a text. -/
def stepIds (es : List Ent) : List ℕ := es.map Ent.id

/-- **Specification.** Every identifier is defined once. -/
def IdsUnique (es : List Ent) : Prop := (stepIds es).Nodup
/-- **Specification.** Every reference is to a defined identifier. -/
def RefsResolve (es : List Ent) : Prop := ∀ e ∈ es, ∀ r ∈ e.refs, r ∈ stepIds es

namespace StepExport

/-- A piece of text that defines identifiers in `[lo, hi)`, each once, with references inside or in `ext`. -/
structure Blk (ext : ℕ → Prop) (lo hi : ℕ) (es : List Ent) : Prop where
  nodup : (stepIds es).Nodup
  rng : ∀ i ∈ stepIds es, lo ≤ i ∧ i < hi
  refs : ∀ e ∈ es, ∀ r ∈ e.refs, r ∈ stepIds es ∨ ext r

theorem stepIds_append (a b : List Ent) : stepIds (a ++ b) = stepIds a ++ stepIds b := List.map_append

theorem mem_stepIds {e : Ent} {es : List Ent} (h : e ∈ es) : e.id ∈ stepIds es := List.mem_map_of_mem h

theorem Blk.mono {ext ext' : ℕ → Prop} {lo hi lo' hi' : ℕ} {es : List Ent} (h : Blk ext lo hi es)
    (h1 : lo' ≤ lo) (h2 : hi ≤ hi') (h3 : ∀ r, ext r → ext' r) : Blk ext' lo' hi' es :=
  ⟨h.nodup, fun i hi => by have := h.rng i hi; omega, fun e he r hr => (h.refs e he r hr).imp id (h3 r)⟩

theorem Blk.perm {ext : ℕ → Prop} {lo hi : ℕ} {es es' : List Ent} (h : Blk ext lo hi es) (hp : es.Perm es') :
    Blk ext lo hi es' := by
  have hi : (stepIds es).Perm (stepIds es') := hp.map _
  refine ⟨hi.nodup_iff.1 h.nodup, fun i hi' => h.rng i (hi.mem_iff.2 hi'), fun e he r hr => ?_⟩
  exact (h.refs e (hp.mem_iff.2 he) r hr).imp hi.mem_iff.1 id

theorem Blk.nil (ext : ℕ → Prop) (lo hi : ℕ) : Blk ext lo hi [] :=
  ⟨List.nodup_nil, by simp [stepIds], by simp⟩

theorem Blk.single {ext : ℕ → Prop} (lo hi i : ℕ) (l : List ℕ) (h1 : lo ≤ i) (h2 : i < hi) (h3 : ∀ r ∈ l, ext r) :
    Blk ext lo hi [⟨i, l⟩] := by
  refine ⟨by simp [stepIds], by simp [stepIds, h1, h2], ?_⟩
  intro e he r hr
  rw [List.mem_singleton.1 he] at hr
  exact Or.inr (h3 r hr)

theorem Blk.append {ext : ℕ → Prop} {lo mid hi : ℕ} {a b : List Ent} (h1 : lo ≤ mid) (h2 : mid ≤ hi)
    (ha : Blk (fun r => ext r ∨ r ∈ stepIds b) lo mid a) (hb : Blk (fun r => ext r ∨ r ∈ stepIds a) mid hi b) :
    Blk ext lo hi (a ++ b) := by
  refine ⟨?_, ?_, ?_⟩
  · rw [stepIds_append, List.nodup_append]
    refine ⟨ha.nodup, hb.nodup, ?_⟩
    intro x hx y hy
    have := (ha.rng x hx).2
    have := (hb.rng y hy).1
    omega
  · intro i hi'
    rw [stepIds_append] at hi'
    rcases List.mem_append.1 hi' with h | h
    · have := ha.rng i h; omega
    · have := hb.rng i h; omega
  · intro e he r hr
    rw [stepIds_append]
    rcases List.mem_append.1 he with h | h
    · rcases ha.refs e h r hr with h | h | h
      · exact Or.inl (List.mem_append_left _ h)
      · exact Or.inr h
      · exact Or.inl (List.mem_append_right _ h)
    · rcases hb.refs e h r hr with h | h | h
      · exact Or.inl (List.mem_append_right _ h)
      · exact Or.inr h
      · exact Or.inl (List.mem_append_left _ h)

/-- Appending when only the second part refers to the first. -/
theorem Blk.append' {ext : ℕ → Prop} {lo mid hi : ℕ} {a b : List Ent} (h1 : lo ≤ mid) (h2 : mid ≤ hi)
    (ha : Blk ext lo mid a) (hb : Blk (fun r => ext r ∨ r ∈ stepIds a) mid hi b) : Blk ext lo hi (a ++ b) :=
  Blk.append h1 h2 (ha.mono (le_refl _) (le_refl _) fun _ => Or.inl) hb

/-- A writer called with the last used identifier `c`: it returns a larger identifier, which it defined. -/
structure Ok (c : ℕ) (w : W) : Prop where
  lt : c < w.2
  last : w.2 ∈ stepIds w.1
  blk : Blk (fun _ => False) (c + 1) (w.2 + 1) w.1

/-- The same for a loop that returns the list of the identifiers of its items and the next `current_id`. -/
structure LoopOk (lo : ℕ) (r : List Ent × List ℕ × ℕ) (hi : ℕ) : Prop where
  le : lo ≤ hi
  mem : ∀ i ∈ r.2.1, i ∈ stepIds r.1
  blk : Blk (fun _ => False) lo hi r.1

macro "lit" : tactic => `(tactic| (
  refine ⟨?_, ?_, ?_⟩
  · first | omega | (dsimp only; omega)
  · simp [stepIds]
  · refine ⟨by simp [stepIds], ?_, ?_⟩
    · intro i hi
      simp [stepIds] at hi
      omega
    · simp [stepIds]))

theorem pointW_ok (v : Bool) (c : ℕ) : Ok c (pointW v c) := by
  cases v <;> unfold pointW <;> dsimp only <;> simp only [if_true, if_false, Bool.false_eq_true] <;> lit
theorem vectorW_ok (v : Bool) (c : ℕ) : Ok c (vectorW v c) := by
  cases v <;> unfold vectorW <;> dsimp only <;> simp only [if_true, if_false, Bool.false_eq_true] <;> lit
theorem frameW_ok (c : ℕ) : Ok c (frameW c) := by
  simp only [frameW, pointW, vectorW, if_false, Bool.false_eq_true, List.singleton_append, List.cons_append,
    List.nil_append]
  lit

theorem ctrlPts_ok (n c : ℕ) :
    c + 1 < (ctrlPts (n + 1) c).2.2 ∧ LoopOk (c + 1) (ctrlPts (n + 1) c) (ctrlPts (n + 1) c).2.2 := by
  induction n generalizing c with
  | zero =>
    simp only [ctrlPts, pointW, if_false, Bool.false_eq_true]
    refine ⟨by omega, by omega, by simp [stepIds], ?_⟩
    simp only [List.append_nil]
    exact Blk.single _ _ _ _ (le_refl _) (by omega) (by simp)
  | succ n ih =>
    obtain ⟨h1, h2⟩ := ih (c + 2)
    rw [ctrlPts]
    simp only [pointW, if_false, Bool.false_eq_true]
    generalize ctrlPts (n + 1) (c + 1 + 1) = r at *
    refine ⟨by omega, by omega, ?_, ?_⟩
    · intro i hi
      rw [stepIds_append]
      rcases List.mem_cons.1 hi with rfl | h
      · exact List.mem_append_left _ (by simp [stepIds])
      · exact List.mem_append_right _ (h2.mem i h)
    · refine Blk.append' (mid := c + 2) (by omega) (by omega) ?_ ?_
      · exact Blk.single _ _ _ _ (le_refl _) (by omega) (by simp)
      · exact h2.blk.mono (by omega) (le_refl _) (fun _ h => h.elim)

theorem edgeW_ok (e : EdgeK) (c : ℕ) : Ok c (edgeW e c) := by
  cases e with
  | lineSegment =>
    simp only [edgeW, lineW, pointW, vectorW, if_true, if_false, Bool.false_eq_true, List.singleton_append,
      List.cons_append, List.nil_append]
    lit
  | arc =>
    simp only [edgeW, frameW, pointW, vectorW, if_true, if_false, Bool.false_eq_true, List.singleton_append,
      List.cons_append, List.nil_append]
    lit
  | fullArc =>
    simp only [edgeW, frameW, pointW, vectorW, if_true, if_false, Bool.false_eq_true, List.singleton_append,
      List.cons_append, List.nil_append]
    lit
  | bspline n =>
    obtain ⟨h1, h2⟩ := ctrlPts_ok n c
    simp only [edgeW, pointW, if_true, List.append_assoc, List.singleton_append,
      List.cons_append, List.nil_append]
    generalize ctrlPts (n + 1) c = r at *
    obtain ⟨es, ids, k⟩ := r
    dsimp only at *
    refine ⟨by first | omega | (dsimp only; omega), by simp [stepIds], ?_⟩
    refine Blk.append' (mid := k) (by omega) (by first | omega | (dsimp only; omega)) h2.blk ?_
    refine ⟨by simp [stepIds]; omega, ?_, ?_⟩
    · intro i hi
      simp [stepIds] at hi
      omega
    · intro e he r hr
      have hm := h2.mem
      simp only [List.mem_cons, List.not_mem_nil, or_false] at he
      rcases he with rfl | rfl | rfl | rfl | rfl | rfl
      · exact Or.inr (Or.inr (hm r hr))
      · simp at hr
      · left; simp [stepIds]; simp at hr; omega
      · simp at hr
      · left; simp [stepIds]; simp at hr; omega
      · left; simp [stepIds]; simp at hr; omega

theorem contourLoop_ok (es : List EdgeK) (c : ℕ) :
    LoopOk (c + 1) (contourLoop es c) ((contourLoop es c).2.2 + 1) := by
  induction es generalizing c with
  | nil => exact ⟨le_refl _, by simp [contourLoop], Blk.nil _ _ _⟩
  | cons e es ih =>
    have he := edgeW_ok e c
    have hr := ih ((edgeW e c).2 + 1)
    rw [contourLoop]
    dsimp only
    generalize edgeW e c = w at *
    generalize contourLoop es (w.2 + 1) = r at *
    have h1 := he.lt
    have h2 := hr.le
    refine ⟨by first | omega | (dsimp only; omega), ?_, ?_⟩
    · intro i hi
      dsimp only at hi ⊢
      rw [stepIds_append, stepIds_append]
      rcases List.mem_cons.1 hi with rfl | h
      · exact List.mem_append_left _ (List.mem_append_right _ (by simp [stepIds]))
      · exact List.mem_append_right _ (hr.mem i h)
    · refine Blk.append' (mid := w.2 + 2) (by omega) (by omega) ?_ ?_
      · refine Blk.append' (mid := w.2 + 1) (by omega) (by omega) he.blk ?_
        exact Blk.single _ _ _ _ (by omega) (by omega) (by simp [he.last])
      · exact hr.blk.mono (by omega) (le_refl _) (fun _ h => h.elim)

theorem contourW_ok (es : List EdgeK) (c : ℕ) : Ok c (contourW es c) := by
  have h := contourLoop_ok es c
  unfold contourW
  dsimp only
  generalize contourLoop es c = r at *
  have h1 := h.le
  refine ⟨by first | omega | (dsimp only; omega), by simp [stepIds], ?_⟩
  refine Blk.append' (mid := r.2.2 + 1) (by omega) (by first | omega | (dsimp only; omega)) h.blk ?_
  exact Blk.single _ _ _ _ (by omega) (by first | omega | (dsimp only; omega)) (fun i hi => Or.inr (h.mem i hi))

theorem surfaceW_ok (s : SurfaceK) (c : ℕ) : Ok c (surfaceW s c) := by
  cases s with
  | framed =>
    simp only [surfaceW, frameW, pointW, vectorW, if_true, if_false, Bool.false_eq_true, List.singleton_append,
      List.cons_append, List.nil_append]
    lit
  | extrusion e =>
    have he := edgeW_ok e c
    simp only [surfaceW, vectorW, if_false, Bool.false_eq_true, List.append_assoc, List.singleton_append]
    generalize edgeW e c = w at *
    have h1 := he.lt
    refine ⟨by first | omega | (dsimp only; omega), by simp [stepIds], ?_⟩
    refine Blk.append' (mid := w.2 + 1) (by omega) (by first | omega | (dsimp only; omega)) he.blk ?_
    refine ⟨by simp [stepIds], ?_, ?_⟩
    · intro i hi; simp [stepIds] at hi; omega
    · intro e' he' r hr
      have := he.last
      simp only [List.mem_cons, List.not_mem_nil, or_false] at he'
      rcases he' with rfl | rfl
      · simp at hr
      · simp only [List.mem_cons, List.not_mem_nil, or_false] at hr
        rcases hr with rfl | rfl
        · exact Or.inr (Or.inr this)
        · left; simp [stepIds]
  | revolution e =>
    have he := edgeW_ok e c
    simp only [surfaceW, pointW, vectorW, if_false, Bool.false_eq_true, List.append_assoc, List.singleton_append,
      List.cons_append, List.nil_append]
    generalize edgeW e c = w at *
    have h1 := he.lt
    refine ⟨by first | omega | (dsimp only; omega), by simp [stepIds], ?_⟩
    refine Blk.append' (mid := w.2 + 1) (by omega) (by first | omega | (dsimp only; omega)) he.blk ?_
    refine ⟨by simp [stepIds], ?_, ?_⟩
    · intro i hi; simp [stepIds] at hi; omega
    · intro e' he' r hr
      have := he.last
      simp only [List.mem_cons, List.not_mem_nil, or_false] at he'
      rcases he' with rfl | rfl | rfl | rfl
      · simp at hr
      · simp at hr
      · left; simp [stepIds]; simp at hr; omega
      · simp only [List.mem_cons, List.not_mem_nil, or_false] at hr
        rcases hr with rfl | rfl
        · exact Or.inr (Or.inr this)
        · left; simp [stepIds]
  | bspline n =>
    obtain ⟨h1, h2⟩ := ctrlPts_ok n c
    rw [surfaceW]
    generalize ctrlPts (n + 1) c = r at *
    obtain ⟨es, ids, k⟩ := r
    dsimp only at *
    refine ⟨by first | omega | (dsimp only; omega), by simp [stepIds], ?_⟩
    refine Blk.append' (mid := k) (by omega) (by first | omega | (dsimp only; omega)) h2.blk ?_
    exact Blk.single _ _ _ _ (le_refl _) (by first | omega | (dsimp only; omega)) (fun i hi => Or.inr (h2.mem i hi))

theorem innerLoop_ok (ks : List (List EdgeK)) (c : ℕ) : LoopOk c (innerLoop ks c) (innerLoop ks c).2.2 := by
  induction ks generalizing c with
  | nil => exact ⟨le_refl _, by simp [innerLoop], Blk.nil _ _ _⟩
  | cons k ks ih =>
    have he := contourW_ok k c
    have hr := ih ((contourW k c).2 + 2)
    rw [innerLoop]
    dsimp only
    rw [show (contourW k c).2 + 1 + 1 = (contourW k c).2 + 2 from rfl]
    generalize contourW k c = w at *
    generalize innerLoop ks (w.2 + 2) = r at *
    have h1 := he.lt
    have h2 := hr.le
    refine ⟨by first | omega | (dsimp only; omega), ?_, ?_⟩
    · intro i hi
      dsimp only at hi ⊢
      rw [stepIds_append, stepIds_append]
      rcases List.mem_cons.1 hi with rfl | h
      · exact List.mem_append_left _ (List.mem_append_right _ (by simp [stepIds]))
      · exact List.mem_append_right _ (hr.mem i h)
    · refine Blk.append' (mid := w.2 + 2) (by omega) (by omega) ?_ ?_
      · refine Blk.append' (mid := w.2 + 1) (by omega) (by omega) (he.blk.mono (by omega) (le_refl _) fun _ h => h) ?_
        exact Blk.single _ _ _ _ (by omega) (by omega) (by simp [he.last])
      · exact hr.blk.mono (by omega) (le_refl _) (fun _ h => h.elim)

theorem faceW_ok (f : FaceK) (c : ℕ) : Ok c (faceW f c) := by
  have hs := surfaceW_ok f.surface c
  have ho := contourW_ok f.outer (surfaceW f.surface c).2
  have hi := innerLoop_ok f.inner ((contourW f.outer (surfaceW f.surface c).2).2 + 2)
  unfold faceW
  dsimp only
  generalize surfaceW f.surface c = s at *
  generalize contourW f.outer s.2 = o at *
  generalize innerLoop f.inner (o.2 + 2) = r at *
  have h1 := hs.lt
  have h2 := ho.lt
  have h3 := hi.le
  refine ⟨by first | omega | (dsimp only; omega), by simp [stepIds], ?_⟩
  dsimp only
  refine Blk.append' (mid := r.2.2) (by omega) (by omega) ?_ ?_
  · refine Blk.append' (mid := o.2 + 2) (by omega) (by omega) ?_ (hi.blk.mono (le_refl _) (le_refl _) fun _ h => h.elim)
    refine Blk.append' (mid := o.2 + 1) (by omega) (by omega) ?_ ?_
    · exact Blk.append' (mid := s.2 + 1) (by omega) (by omega) hs.blk (ho.blk.mono (le_refl _) (le_refl _) fun _ h => h.elim)
    · refine Blk.single _ _ _ _ (le_refl _) (by omega) ?_
      intro i hi
      rw [List.mem_singleton.1 hi, stepIds_append]
      exact Or.inr (List.mem_append_right _ ho.last)
  · refine Blk.single _ _ _ _ (le_refl _) (by omega) ?_
    intro i hi'
    right
    simp only [stepIds_append, List.mem_append]
    rw [List.mem_append, List.mem_cons] at hi'
    rcases hi' with (rfl | h) | h
    · exact Or.inl (Or.inr (by simp [stepIds]))
    · exact Or.inr (hi.mem i h)
    · rw [List.mem_singleton.1 h]; exact Or.inl (Or.inl (Or.inl hs.last))

theorem facesLoop_ok (fs : List FaceK) (c : ℕ) : LoopOk (c + 1) (facesLoop fs c) ((facesLoop fs c).2.2 + 1) := by
  induction fs generalizing c with
  | nil => exact ⟨le_refl _, by simp [facesLoop], Blk.nil _ _ _⟩
  | cons f fs ih =>
    have he := faceW_ok f c
    have hr := ih (faceW f c).2
    rw [facesLoop]
    dsimp only
    generalize faceW f c = w at *
    generalize facesLoop fs w.2 = r at *
    have h1 := he.lt
    have h2 := hr.le
    refine ⟨by first | omega | (dsimp only; omega), ?_, ?_⟩
    · intro i hi
      dsimp only at hi ⊢
      rw [stepIds_append]
      rcases List.mem_cons.1 hi with rfl | h
      · exact List.mem_append_left _ he.last
      · exact List.mem_append_right _ (hr.mem i h)
    · exact Blk.append' (mid := w.2 + 1) (by omega) (by omega) he.blk
        (hr.blk.mono (le_refl _) (le_refl _) fun _ h => h.elim)

theorem shellW_ok (fs : List FaceK) (c : ℕ) : Ok c (shellW fs c) := by
  have h := facesLoop_ok fs c
  unfold shellW
  dsimp only
  generalize facesLoop fs c = r at *
  have h1 := h.le
  refine ⟨by first | omega | (dsimp only; omega), by simp [stepIds], ?_⟩
  dsimp only
  refine Blk.append' (mid := r.2.2 + 2) (by omega) (by omega) ?_ ?_
  · refine Blk.append' (mid := r.2.2 + 1) (by omega) (by omega) h.blk ?_
    exact Blk.single _ _ _ _ (le_refl _) (by omega) (fun i hi => Or.inr (h.mem i hi))
  · exact Blk.single _ _ _ _ (le_refl _) (by omega) (by simp [stepIds])

theorem compoundLoop_ok (ss : List (List FaceK)) (c : ℕ) :
    LoopOk (c + 1) (compoundLoop ss c) ((compoundLoop ss c).2.2 + 1) := by
  induction ss generalizing c with
  | nil => exact ⟨le_refl _, by simp [compoundLoop], Blk.nil _ _ _⟩
  | cons f fs ih =>
    have he := shellW_ok f c
    have hr := ih (shellW f c).2
    rw [compoundLoop]
    dsimp only
    generalize shellW f c = w at *
    generalize compoundLoop fs w.2 = r at *
    have h1 := he.lt
    have h2 := hr.le
    refine ⟨by first | omega | (dsimp only; omega), ?_, ?_⟩
    · intro i hi
      dsimp only at hi ⊢
      rw [stepIds_append]
      rcases List.mem_cons.1 hi with rfl | h
      · exact List.mem_append_left _ he.last
      · exact List.mem_append_right _ (hr.mem i h)
    · exact Blk.append' (mid := w.2 + 1) (by omega) (by omega) he.blk
        (hr.blk.mono (le_refl _) (le_refl _) fun _ h => h.elim)

theorem framesLoop_ok (n c : ℕ) : (framesLoop n c).2.1.length = n ∧
    LoopOk (c + 1) (framesLoop n c) ((framesLoop n c).2.2 + 1) := by
  induction n generalizing c with
  | zero => exact ⟨rfl, le_refl _, by simp [framesLoop], Blk.nil _ _ _⟩
  | succ n ih =>
    have he := frameW_ok (c + 1)
    obtain ⟨hl, hr⟩ := ih (frameW (c + 1)).2
    rw [framesLoop]
    dsimp only
    generalize frameW (c + 1) = w at *
    generalize framesLoop n w.2 = r at *
    have h1 := he.lt
    have h2 := hr.le
    refine ⟨by simp [hl], by first | omega | (dsimp only; omega), ?_, ?_⟩
    · intro i hi
      dsimp only at hi ⊢
      rw [stepIds_append]
      rcases List.mem_cons.1 hi with rfl | h
      · exact List.mem_append_left _ he.last
      · exact List.mem_append_right _ (hr.mem i h)
    · exact Blk.append' (mid := w.2 + 1) (by omega) (by omega) (he.blk.mono (by omega) (le_refl _) fun _ h => h)
        (hr.blk.mono (le_refl _) (le_refl _) fun _ h => h.elim)

/-- `product_writer` refers to the application context `#2` and to the shape representation that follows. -/
theorem productW_ok (c : ℕ) : (productW c).2 = c + 7 ∧ stepIds (productW c).1 = [c + 1, c + 2, c + 3, c + 4, c + 5, c + 6, c + 7] ∧
    Blk (fun r => r = 2 ∨ r = c + 8) (c + 1) (c + 8) (productW c).1 := by
  refine ⟨rfl, rfl, ?_⟩
  simp only [productW]
  refine ⟨by simp [stepIds], ?_, ?_⟩
  · intro i hi; simp [stepIds] at hi; omega
  · simp [stepIds]

theorem contextW_ok (c : ℕ) : Ok c (contextW c) ∧ (contextW c).2 = c + 5 := by
  refine ⟨?_, rfl⟩
  simp only [contextW]
  lit

theorem styledLoop_ok (ps : ℕ) (l : List ℕ) (c : ℕ) :
    Blk (fun r => r = ps ∨ r ∈ l) c (c + l.length) (styledLoop ps l c) ∧
    stepIds (styledLoop ps l c) = List.range' c l.length := by
  induction l generalizing c with
  | nil => exact ⟨Blk.nil _ _ _, rfl⟩
  | cons f fs ih =>
    obtain ⟨h1, h2⟩ := ih (c + 1)
    constructor
    · rw [styledLoop, List.length_cons]
      have := Blk.append' (ext := fun r => r = ps ∨ r ∈ f :: fs) (lo := c) (mid := c + 1) (hi := c + (fs.length + 1))
        (a := [⟨c, [ps, f]⟩]) (b := styledLoop ps fs (c + 1)) (by omega) (by omega)
        (Blk.single _ _ _ _ (le_refl _) (by omega) (by simp))
        (h1.mono (le_refl _) (by omega) (by
          intro r hr
          left
          rcases hr with h | h
          · exact Or.inl h
          · exact Or.inr (List.mem_cons_of_mem _ h)))
      exact this
    · rw [styledLoop, List.length_cons, List.range'_succ, ← h2]; rfl

/-- What is proved of the text of a whole primitive, started after identifier `c ≥ 2`: references may go to `#2`. -/
structure PrimOk (c : ℕ) (w : List Ent × ℕ × (ℕ × ℕ)) : Prop where
  lt : c < w.2.1
  rep : w.2.2.1 ∈ stepIds w.1
  pd : w.2.2.2 ∈ stepIds w.1
  blk : Blk (fun r => r = 2) (c + 1) (w.2.1 + 1) w.1

theorem shellProductW_ok (o : Bool) (fs : List FaceK) (c : ℕ) : PrimOk c (shellProductW o fs c) := by
  obtain ⟨p1, p2, p3⟩ := productW_ok c
  have hf := frameW_ok ((productW c).2 + 1)
  have hl := facesLoop_ok fs ((frameW ((productW c).2 + 1)).2 + 1 + 1)
  have hc := contextW_ok (facesLoop fs ((frameW ((productW c).2 + 1)).2 + 1 + 1)).2.2
  unfold shellProductW
  dsimp only
  generalize productW c = prod at *
  rw [p1] at *
  generalize frameW (c + 7 + 1) = fr at *
  generalize facesLoop fs (fr.2 + 1 + 1) = fl at *
  generalize contextW fl.2.2 = ctx at *
  obtain ⟨hc, hc5⟩ := hc
  have h1 := hf.lt
  have h2 := hl.le
  have h3 := hc.lt
  -- the styled items
  obtain ⟨sty, hsty⟩ : ∃ sty : W, sty = (if o = true then
      (styledLoop (ctx.2 + 1 + 1 + 1 + 1 + 1 + 1 + 1 + 1 + 1 + 1) fl.2.1 (ctx.2 + 1 + 1 + 1 + 1 + 1 + 1 + 1 + 1 + 1 + 1 + 1),
        ctx.2 + 1 + 1 + 1 + 1 + 1 + 1 + 1 + 1 + 1 + 1 + 1 + fl.2.1.length - 1)
      else ([⟨ctx.2 + 1 + 1 + 1 + 1 + 1 + 1 + 1 + 1 + 1 + 1 + 1,
        [ctx.2 + 1 + 1 + 1 + 1 + 1 + 1 + 1 + 1 + 1 + 1, fr.2 + 1]⟩],
        ctx.2 + 1 + 1 + 1 + 1 + 1 + 1 + 1 + 1 + 1 + 1 + 1)) := ⟨_, rfl⟩
  rw [← hsty]
  have hs : ctx.2 + 10 ≤ sty.2 ∧ Blk (fun r => r = ctx.2 + 10 ∨ r ∈ fl.2.1 ∨ r = fr.2 + 1) (ctx.2 + 11) (sty.2 + 1) sty.1 ∧
      (sty.2 = ctx.2 + 10 ∨ sty.2 ∈ stepIds sty.1) := by
    rw [hsty]
    cases o
    · simp only [Bool.false_eq_true, if_false]
      refine ⟨by omega, ?_, Or.inr (by simp [stepIds])⟩
      refine Blk.single _ _ _ _ (by omega) (by omega) ?_
      intro r hr
      simp only [List.mem_cons, List.not_mem_nil, or_false] at hr
      rcases hr with rfl | rfl
      · left; rfl
      · right; right; rfl
    · simp only [if_true]
      obtain ⟨s1, s2⟩ := styledLoop_ok (ctx.2 + 10) fl.2.1 (ctx.2 + 11)
      refine ⟨by omega, ?_, ?_⟩
      · refine s1.mono (le_refl _) (by omega) ?_
        intro r hr
        rcases hr with h | h
        · exact Or.inl h
        · exact Or.inr (Or.inl h)
      · rw [s2]
        rcases Nat.eq_zero_or_pos fl.2.1.length with h | h
        · left; omega
        · right; rw [List.mem_range'_1]; omega
  clear hsty
  obtain ⟨s1, s2, s3⟩ := hs
  -- rearranged text, in the order of the identifiers
  have hpd : c + 5 ∈ stepIds prod.1 := by rw [p2]; simp
  have hpid : c + 3 ∈ stepIds prod.1 := by rw [p2]; simp
  set B : List Ent := [⟨ctx.2 + 1, [c + 7 - 4]⟩, ⟨ctx.2 + 1 + 1, []⟩, ⟨ctx.2 + 1 + 1 + 1, []⟩,
    ⟨ctx.2 + 1 + 1 + 1 + 1, [ctx.2 + 1 + 1, ctx.2 + 1 + 1 + 1]⟩, ⟨ctx.2 + 1 + 1 + 1 + 1 + 1, [ctx.2 + 1 + 1 + 1]⟩,
    ⟨ctx.2 + 1 + 1 + 1 + 1 + 1 + 1, [ctx.2 + 1 + 1 + 1 + 1 + 1]⟩,
    ⟨ctx.2 + 1 + 1 + 1 + 1 + 1 + 1 + 1, [ctx.2 + 1 + 1 + 1 + 1 + 1 + 1]⟩,
    ⟨ctx.2 + 1 + 1 + 1 + 1 + 1 + 1 + 1 + 1, [ctx.2 + 1 + 1 + 1 + 1 + 1 + 1 + 1]⟩,
    ⟨ctx.2 + 1 + 1 + 1 + 1 + 1 + 1 + 1 + 1 + 1, [ctx.2 + 1 + 1 + 1 + 1 + 1 + 1 + 1 + 1]⟩,
    ⟨ctx.2 + 1 + 1 + 1 + 1 + 1 + 1 + 1 + 1 + 1 + 1, [ctx.2 + 1 + 1 + 1 + 1 + 1 + 1 + 1 + 1 + 1, ctx.2 + 1 + 1 + 1 + 1]⟩] with hB
  have hBids : ∀ i, i ∈ stepIds B ↔ ctx.2 + 1 ≤ i ∧ i < ctx.2 + 11 := by
    intro i; rw [hB]; simp [stepIds]; omega
  have hBb : Blk (fun r => r = c + 3) (ctx.2 + 1) (ctx.2 + 11) B := by
    refine ⟨by rw [hB]; simp [stepIds], fun i hi => (hBids i).1 hi, ?_⟩
    intro e he r hr
    rw [hBids]
    rw [hB] at he
    simp only [List.mem_cons, List.not_mem_nil, or_false] at he
    rcases he with rfl | rfl | rfl | rfl | rfl | rfl | rfl | rfl | rfl | rfl <;>
      simp only [List.mem_cons, List.not_mem_nil, or_false] at hr <;> omega
  refine ⟨by first | omega | (dsimp only; omega), ?_, ?_, ?_⟩
  · dsimp only; simp [stepIds]
  · dsimp only
    simp only [stepIds_append, List.mem_append]
    rw [show c + 7 - 2 = c + 5 by omega]
    simp [hpd]
  · dsimp only
    refine Blk.append' (mid := sty.2 + 1) (by omega) (by omega) ?_ ?_
    · refine Blk.append' (mid := ctx.2 + 11) (by omega) (by omega) ?_ ?_
      · refine Blk.append' (mid := ctx.2 + 1) (by omega) (by omega) ?_ ?_
        · refine Blk.append (mid := fl.2.2 + 1) (by omega) (by omega) ?_ (hc.blk.mono (le_refl _) (le_refl _) fun _ h => h.elim)
          refine Blk.append (mid := fr.2 + 3) (by omega) (by omega) ?_
            (hl.blk.mono (by omega) (le_refl _) fun _ h => h.elim)
          refine Blk.append (mid := fr.2 + 2) (by omega) (by omega) ?_ ?_
          · refine Blk.append (mid := fr.2 + 1) (by omega) (by omega) ?_ ?_
            · refine Blk.append (mid := c + 9) (by omega) (by omega) ?_ (hf.blk.mono (by omega) (le_refl _) fun _ h => h.elim)
              refine Blk.append (mid := c + 8) (by omega) (by omega) ?_ ?_
              · refine p3.mono (le_refl _) (le_refl _) ?_
                intro r hr
                rcases hr with rfl | rfl
                · tauto
                · right; simp [stepIds]
              · refine Blk.single _ _ _ _ (by omega) (by omega) ?_
                intro r hr
                simp only [List.mem_cons, List.not_mem_nil, or_false] at hr
                rcases hr with rfl | rfl | rfl
                · have := hf.last; tauto
                · left; simp [stepIds]
                · have := hc.last; tauto
            · refine Blk.single _ _ _ _ (by omega) (by omega) ?_
              intro r hr
              rw [List.mem_singleton.1 hr]
              left; simp [stepIds]
          · refine Blk.single _ _ _ _ (by omega) (by omega) ?_
            intro r hr
            have := hl.mem r hr
            tauto
        · refine hBb.mono (le_refl _) (le_refl _) ?_
          intro r hr
          right
          rw [hr]
          simp only [stepIds_append, List.mem_append]
          tauto
      · refine s2.mono (le_refl _) (le_refl _) ?_
        intro r hr
        right
        simp only [stepIds_append, List.mem_append]
        rcases hr with rfl | h | rfl
        · have := (hBids (ctx.2 + 10)).2 (by omega)
          tauto
        · have := hl.mem r h
          tauto
        · have : fr.2 + 1 ∈ stepIds [(⟨fr.2 + 1, [fr.2 + 1 + 1]⟩ : Ent)] := by simp [stepIds]
          tauto
    · refine Blk.single _ _ _ _ (by omega) (by omega) ?_
      intro r hr
      right
      simp only [stepIds_append, List.mem_append]
      simp only [List.mem_cons, List.not_mem_nil, or_false] at hr
      rcases hr with rfl | rfl
      · rcases s3 with h | h
        · have := (hBids sty.2).2 (by omega)
          tauto
        · tauto
      · have := hc.last
        tauto

theorem compoundW_ok (ss : List (List FaceK)) (c : ℕ) : PrimOk c (compoundW ss c) := by
  obtain ⟨p1, p2, p3⟩ := productW_ok c
  have hf := frameW_ok ((productW c).2 + 1)
  have hl := compoundLoop_ok ss (frameW ((productW c).2 + 1)).2
  have hc := contextW_ok (compoundLoop ss (frameW ((productW c).2 + 1)).2).2.2
  unfold compoundW
  dsimp only
  generalize productW c = prod at *
  rw [p1] at *
  generalize frameW (c + 7 + 1) = fr at *
  generalize compoundLoop ss fr.2 = fl at *
  generalize contextW fl.2.2 = ctx at *
  obtain ⟨hc, hc5⟩ := hc
  have h1 := hf.lt
  have h2 := hl.le
  have h3 := hc.lt
  have hpd : c + 5 ∈ stepIds prod.1 := by rw [p2]; simp
  refine ⟨by first | omega | (dsimp only; omega), ?_, ?_, ?_⟩
  · dsimp only; simp [stepIds]
  · dsimp only
    simp only [stepIds_append, List.mem_append]
    rw [show c + 7 - 2 = c + 5 by omega]
    simp [hpd]
  · dsimp only
    refine Blk.append (mid := fl.2.2 + 1) (by omega) (by omega) ?_ (hc.blk.mono (le_refl _) (le_refl _) fun _ h => h.elim)
    refine Blk.append (mid := fr.2 + 1) (by omega) (by omega) ?_ (hl.blk.mono (le_refl _) (le_refl _) fun _ h => h.elim)
    refine Blk.append (mid := c + 9) (by omega) (by omega) ?_ (hf.blk.mono (by omega) (le_refl _) fun _ h => h.elim)
    refine Blk.append (mid := c + 8) (by omega) (by omega) ?_ ?_
    · refine p3.mono (le_refl _) (le_refl _) ?_
      intro r hr
      rcases hr with rfl | rfl
      · tauto
      · right; simp [stepIds]
    · refine Blk.single _ _ _ _ (by omega) (by omega) ?_
      intro r hr
      rcases List.mem_append.1 hr with h | h
      · have := hl.mem r h; tauto
      · rw [List.mem_singleton.1 h]
        have := hc.last; tauto

theorem assemblyProductW_ok (n c : ℕ) : PrimOk c ((assemblyProductW n c).1, (assemblyProductW n c).2.1, (assemblyProductW n c).2.2.1) ∧
    (assemblyProductW n c).2.2.2.length = n + 1 ∧
    ∀ i ∈ (assemblyProductW n c).2.2.2, i ∈ stepIds (assemblyProductW n c).1 := by
  obtain ⟨p1, p2, p3⟩ := productW_ok c
  have hl := framesLoop_ok (n + 1) ((productW c).2 + 1)
  have hc := contextW_ok (framesLoop (n + 1) ((productW c).2 + 1)).2.2
  unfold assemblyProductW
  dsimp only
  generalize productW c = prod at *
  rw [p1] at *
  generalize framesLoop (n + 1) (c + 7 + 1) = fl at *
  generalize contextW fl.2.2 = ctx at *
  obtain ⟨hc, hc5⟩ := hc
  obtain ⟨hlen, hl⟩ := hl
  have h2 := hl.le
  have h3 := hc.lt
  have hpd : c + 5 ∈ stepIds prod.1 := by rw [p2]; simp
  refine ⟨⟨by first | omega | (dsimp only; omega), ?_, ?_, ?_⟩, hlen, ?_⟩
  · dsimp only; simp [stepIds]
  · dsimp only
    simp only [stepIds_append, List.mem_append]
    rw [show c + 7 - 2 = c + 5 by omega]
    simp [hpd]
  · dsimp only
    refine Blk.append (mid := fl.2.2 + 1) (by omega) (by omega) ?_ (hc.blk.mono (le_refl _) (le_refl _) fun _ h => h.elim)
    refine Blk.append (mid := c + 9) (by omega) (by omega) ?_ (hl.blk.mono (by omega) (le_refl _) fun _ h => h.elim)
    refine Blk.append (mid := c + 8) (by omega) (by omega) ?_ ?_
    · refine p3.mono (le_refl _) (le_refl _) ?_
      intro r hr
      rcases hr with rfl | rfl
      · tauto
      · right; simp [stepIds]
    · refine Blk.single _ _ _ _ (by omega) (by omega) ?_
      intro r hr
      rcases List.mem_append.1 hr with h | h
      · have := hl.mem r h; tauto
      · rw [List.mem_singleton.1 h]
        have := hc.last; tauto
  · intro i hi
    simp only [stepIds_append, List.mem_append]
    have := hl.mem i hi
    tauto

theorem assemblyDefW_ok (c : ℕ) (a k : ℕ × ℕ) (f g : ℕ) :
    (assemblyDefW c a k f g).2 = c + 5 ∧
    Blk (fun r => r = a.1 ∨ r = a.2 ∨ r = k.1 ∨ r = k.2 ∨ r = f ∨ r = g) (c + 1) (c + 6) (assemblyDefW c a k f g).1 := by
  refine ⟨rfl, ?_⟩
  simp only [assemblyDefW]
  refine ⟨by simp [stepIds], ?_, ?_⟩
  · intro i hi; simp [stepIds] at hi; omega
  · simp [stepIds]

/-- References resolved up to `ext`. -/
def RefsIn (ext : ℕ → Prop) (es : List Ent) : Prop := ∀ e ∈ es, ∀ r ∈ e.refs, r ∈ stepIds es ∨ ext r

theorem RefsIn.mono {ext ext' : ℕ → Prop} {es : List Ent} (h : RefsIn ext es) (h3 : ∀ r, ext r → ext' r) :
    RefsIn ext' es := fun e he r hr => (h e he r hr).imp id (h3 r)

theorem RefsIn.append {ext : ℕ → Prop} {a b : List Ent} (ha : RefsIn (fun r => ext r ∨ r ∈ stepIds b) a)
    (hb : RefsIn (fun r => ext r ∨ r ∈ stepIds a) b) : RefsIn ext (a ++ b) := by
  intro e he r hr
  rw [stepIds_append, List.mem_append]
  rcases List.mem_append.1 he with h | h
  · have := ha e h r hr; tauto
  · have := hb e h r hr; tauto

/-- What is proved of the references of a primitive. -/
structure PrimRefs (c : ℕ) (w : List Ent × ℕ × (ℕ × ℕ)) : Prop where
  rep : w.2.2.1 ∈ stepIds w.1
  pd : w.2.2.2 ∈ stepIds w.1
  refs : RefsIn (fun r => r = 2) w.1

mutual
theorem primW_refs (p : PrimK) (c : ℕ) : PrimRefs c (primW p c) := by
  match p with
  | .shell o fs =>
    rw [primW]
    exact ⟨(shellProductW_ok o fs c).rep, (shellProductW_ok o fs c).pd, (shellProductW_ok o fs c).blk.refs⟩
  | .compound ss =>
    rw [primW]
    exact ⟨(compoundW_ok ss c).rep, (compoundW_ok ss c).pd, (compoundW_ok ss c).blk.refs⟩
  | .assembly comps =>
    obtain ⟨h1, h2, h3⟩ := assemblyProductW_ok comps.length c
    rw [primW]
    have hr := componentsLoop_refs comps (assemblyProductW comps.length c).2.2.1
      (assemblyProductW comps.length c).2.2.2 0 (assemblyProductW comps.length c).2.1
      (by rw [h2]; omega)
    generalize assemblyProductW comps.length c = w at *
    generalize componentsLoop comps w.2.2.1 w.2.2.2 0 w.2.1 = r at *
    refine ⟨?_, ?_, ?_⟩
    · dsimp only; rw [stepIds_append]; exact List.mem_append_left _ h1.rep
    · dsimp only; rw [stepIds_append]; exact List.mem_append_left _ h1.pd
    · dsimp only
      refine RefsIn.append (RefsIn.mono h1.blk.refs fun _ h => Or.inl h) (hr.mono ?_)
      intro r hr
      have := h1.rep
      have := h1.pd
      have := h3 r
      rcases hr with h | h | h | h
      · exact Or.inl h
      · right; rw [h]; assumption
      · right; rw [h]; assumption
      · right; exact h3 r h

theorem componentsLoop_refs (ps : List PrimK) (data : ℕ × ℕ) (frames : List ℕ) (i c : ℕ)
    (h : i + ps.length < frames.length) :
    RefsIn (fun r => r = 2 ∨ r = data.1 ∨ r = data.2 ∨ r ∈ frames) (componentsLoop ps data frames i c).1 := by
  match ps with
  | [] => rw [componentsLoop]; intro e he; simp at he
  | p :: ps =>
    have h1 := primW_refs p c
    rw [componentsLoop]
    dsimp only
    rw [List.length_cons] at h
    have hr := componentsLoop_refs ps data frames (i + 1) (assemblyDefW (primW p c).2.1 data (primW p c).2.2
      (frames.getD 0 0) (frames.getD (i + 1) 0)).2 (by omega)
    generalize primW p c = w at *
    have h2 := assemblyDefW_ok w.2.1 data w.2.2 (frames.getD 0 0) (frames.getD (i + 1) 0)
    have hg : ∀ k, k < frames.length → frames.getD k 0 ∈ frames := by
      intro k hk
      rw [List.getD_eq_getElem _ _ hk]
      exact List.getElem_mem hk
    have hg0 := hg 0 (by omega)
    have hgi := hg (i + 1) (by omega)
    generalize frames.getD 0 0 = f0 at *
    generalize frames.getD (i + 1) 0 = fi at *
    generalize assemblyDefW w.2.1 data w.2.2 f0 fi = a at *
    generalize componentsLoop ps data frames (i + 1) a.2 = r at *
    obtain ⟨tw, htw, htw'⟩ : ∃ tw, tw = extraCopy p w.1 ∧ RefsIn (fun r => r = 2 ∨ r ∈ stepIds w.1) tw := by
      refine ⟨_, rfl, ?_⟩
      cases p with
      | shell o fs => intro e he; simp [extraCopy] at he
      | compound => exact h1.refs.mono fun _ h => Or.inl h
      | assembly => exact h1.refs.mono fun _ h => Or.inl h
    rw [← htw]
    refine RefsIn.append (RefsIn.append (RefsIn.append (htw'.mono ?_) (h1.refs.mono ?_)) (RefsIn.mono h2.2.refs ?_)) (hr.mono ?_)
    · intro r hr; tauto
    · intro r hr; tauto
    · intro r hr
      have := h1.rep
      have := h1.pd
      simp only [stepIds_append, List.mem_append]
      rcases hr with h | h | h | h | h | h
      · tauto
      · tauto
      · rw [h]; tauto
      · rw [h]; tauto
      · rw [h]; tauto
      · rw [h]; tauto
    · intro r hr; tauto
end

/-- **Specification.** Every component of the assemblies is a shell: no assembly or compound inside an assembly. -/
def Flat : PrimK → Prop
  | .shell _ _ => True
  | .compound _ => True
  | .assembly comps => ∀ p ∈ comps, ∃ o fs, p = .shell o fs

theorem componentsLoop_blk (ps : List PrimK) (hps : ∀ p ∈ ps, ∃ o fs, p = PrimK.shell o fs) (data : ℕ × ℕ)
    (frames : List ℕ) (i c : ℕ) :
    c ≤ (componentsLoop ps data frames i c).2 ∧
    Blk (fun _ => True) (c + 1) ((componentsLoop ps data frames i c).2 + 1) (componentsLoop ps data frames i c).1 := by
  induction ps generalizing i c with
  | nil => rw [componentsLoop]; exact ⟨le_refl _, Blk.nil _ _ _⟩
  | cons p ps ih =>
    obtain ⟨o, fs, rfl⟩ := hps p List.mem_cons_self
    have h1 := shellProductW_ok o fs c
    rw [componentsLoop, primW]
    dsimp only
    have hr := ih (fun q hq => hps q (List.mem_cons_of_mem _ hq)) (i + 1) (assemblyDefW (shellProductW o fs c).2.1 data
      (shellProductW o fs c).2.2 (frames.getD 0 0) (frames.getD (i + 1) 0)).2
    generalize shellProductW o fs c = w at *
    obtain ⟨h2, h3⟩ := assemblyDefW_ok w.2.1 data w.2.2 (frames.getD 0 0) (frames.getD (i + 1) 0)
    generalize assemblyDefW w.2.1 data w.2.2 (frames.getD 0 0) (frames.getD (i + 1) 0) = a at *
    generalize componentsLoop ps data frames (i + 1) a.2 = r at *
    have := h1.lt
    refine ⟨by omega, ?_⟩
    rw [extraCopy, List.nil_append]
    refine Blk.append' (mid := a.2 + 1) (by omega) (by omega) ?_ (hr.2.mono (le_refl _) (le_refl _) fun _ _ => Or.inl trivial)
    exact Blk.append' (mid := w.2.1 + 1) (by omega) (by omega) (h1.blk.mono (le_refl _) (le_refl _) fun _ _ => trivial)
      (h3.mono (le_refl _) (by omega) fun _ _ => Or.inl trivial)

theorem primW_blk (p : PrimK) (hp : Flat p) (c : ℕ) :
    c < (primW p c).2.1 ∧ Blk (fun _ => True) (c + 1) ((primW p c).2.1 + 1) (primW p c).1 := by
  cases p with
  | shell o fs => rw [primW]; exact ⟨(shellProductW_ok o fs c).lt, (shellProductW_ok o fs c).blk.mono (le_refl _) (le_refl _) fun _ _ => trivial⟩
  | compound ss => rw [primW]; exact ⟨(compoundW_ok ss c).lt, (compoundW_ok ss c).blk.mono (le_refl _) (le_refl _) fun _ _ => trivial⟩
  | assembly comps =>
    obtain ⟨h1, h2, h3⟩ := assemblyProductW_ok comps.length c
    obtain ⟨h4, h5⟩ := componentsLoop_blk comps hp (assemblyProductW comps.length c).2.2.1
      (assemblyProductW comps.length c).2.2.2 0 (assemblyProductW comps.length c).2.1
    have := h1.lt
    dsimp only at this
    rw [primW]
    dsimp only
    refine ⟨by omega, ?_⟩
    exact Blk.append' (mid := (assemblyProductW comps.length c).2.1 + 1) (by omega) (by omega)
      (h1.blk.mono (le_refl _) (le_refl _) fun _ _ => trivial) (h5.mono (le_refl _) (le_refl _) fun _ _ => Or.inl trivial)

theorem modelLoop_refs (ps : List PrimK) (c : ℕ) : RefsIn (fun r => r = 2) (modelLoop ps c) := by
  induction ps generalizing c with
  | nil => intro e he; simp [modelLoop] at he
  | cons p ps ih =>
    rw [modelLoop]
    exact RefsIn.append ((primW_refs p c).refs.mono fun _ h => Or.inl h) ((ih _).mono fun _ h => Or.inl h)

theorem modelLoop_blk (ps : List PrimK) (hps : ∀ p ∈ ps, Flat p) (c : ℕ) :
    ∃ hi, c ≤ hi ∧ Blk (fun _ => True) (c + 1) (hi + 1) (modelLoop ps c) := by
  induction ps generalizing c with
  | nil => exact ⟨c, le_refl _, Blk.nil _ _ _⟩
  | cons p ps ih =>
    obtain ⟨h1, h2⟩ := primW_blk p (hps p List.mem_cons_self) c
    obtain ⟨hi, h3, h4⟩ := ih (fun q hq => hps q (List.mem_cons_of_mem _ hq)) (primW p c).2.1
    rw [modelLoop]
    refine ⟨hi, by omega, ?_⟩
    exact Blk.append' (mid := (primW p c).2.1 + 1) (by omega) (by omega) h2
      (h4.mono (le_refl _) (le_refl _) fun _ _ => Or.inl trivial)

theorem componentsLoop_nodup (ps : List PrimK) (data : ℕ × ℕ) (frames : List ℕ) (i c : ℕ)
    (h : (stepIds (componentsLoop ps data frames i c).1).Nodup) : ∀ p ∈ ps, ∃ o fs, p = PrimK.shell o fs := by
  induction ps generalizing i c with
  | nil => simp
  | cons p ps ih =>
    rw [componentsLoop] at h
    dsimp only at h
    simp only [stepIds_append] at h
    have hr := ih _ _ (List.nodup_append.1 h).2.1
    have hd := (List.nodup_append.1 (List.nodup_append.1 h).1).1
    have h1 := (primW_refs p c).rep
    intro q hq
    rcases List.mem_cons.1 hq with rfl | hq
    · cases q with
      | shell o fs => exact ⟨o, fs, rfl⟩
      | compound ss =>
        rw [extraCopy] at hd
        exact absurd rfl ((List.nodup_append.1 hd).2.2 _ h1 _ h1)
      | assembly ss =>
        rw [extraCopy] at hd
        exact absurd rfl ((List.nodup_append.1 hd).2.2 _ h1 _ h1)
    · exact hr q hq

theorem modelLoop_nodup (ps : List PrimK) (c : ℕ) (h : (stepIds (modelLoop ps c)).Nodup) : ∀ p ∈ ps, Flat p := by
  induction ps generalizing c with
  | nil => simp
  | cons p ps ih =>
    rw [modelLoop] at h
    rw [stepIds_append, List.nodup_append] at h
    intro q hq
    rcases List.mem_cons.1 hq with rfl | hq
    · cases q with
      | shell o fs => trivial
      | compound ss => trivial
      | assembly comps =>
        have h1 := h.1
        rw [primW] at h1
        dsimp only at h1
        rw [stepIds_append, List.nodup_append] at h1
        exact componentsLoop_nodup _ _ _ _ _ h1.2.1
    · exact ih _ h.2.1 q hq

end StepExport

/-- **C34 (references).** Every reference written by `to_step` is to an entity of the same file, for every volume
model, with compounds and assemblies nested to any depth. -/
theorem C34_refs_resolve (primitives : List PrimK) : RefsResolve (toStep primitives) := by
  have h := modelLoop_refs primitives 2
  have : RefsIn (fun _ => False) (toStep primitives) := by
    refine RefsIn.append ?_ (h.mono ?_)
    · intro e he r hr
      simp only [List.mem_cons, List.not_mem_nil, or_false] at he
      rcases he with rfl | rfl
      · left; simp [stepIds]; simp at hr; omega
      · simp at hr
    · intro r hr; right; simp [stepIds, hr]
  exact fun e he r hr => (this e he r hr).resolve_right id

/-- **C34, full statement** (false, see `C34_ids_counterexample`): every model is written with unique identifiers. -/
def C34_ids_full_statement : Prop := ∀ primitives : List PrimK, IdsUnique (toStep primitives)

/-- **C34 (unique identifiers), exact domain.** The identifiers of the exported file are pairwise distinct if and only
if no assembly of the model directly contains a compound or another assembly.  Missing from the full property: the
models with nested assemblies, for which it is false. -/
theorem C34_ids_unique_partial (primitives : List PrimK) :
    IdsUnique (toStep primitives) ↔ ∀ p ∈ primitives, Flat p := by
  constructor
  · intro h
    rw [IdsUnique, toStep, stepIds_append, List.nodup_append] at h
    exact modelLoop_nodup _ _ h.2.1
  · intro h
    obtain ⟨hi, h1, h2⟩ := modelLoop_blk primitives h 2
    have : Blk (fun _ => True) 1 (hi + 1) (toStep primitives) := by
      refine Blk.append' (mid := 3) (by omega) (by omega) ?_ (h2.mono (le_refl _) (le_refl _) fun _ _ => Or.inl trivial)
      refine ⟨by simp [stepIds], by simp [stepIds], by simp⟩
    exact this.nodup

/-- The identifiers of a model without nested assemblies are also never `0` (the value that would mean "not set"). -/
theorem C34_ids_positive (primitives : List PrimK) (h : ∀ p ∈ primitives, Flat p) :
    ∀ i ∈ stepIds (toStep primitives), 1 ≤ i := by
  obtain ⟨hi, h1, h2⟩ := modelLoop_blk primitives h 2
  intro i hm
  rw [toStep, stepIds_append, List.mem_append] at hm
  rcases hm with h | h
  · simp [stepIds] at h; omega
  · have := h2.rng i h; omega

/-- **C34, counterexample.** An assembly that contains a compound with one closed shell: the text of the component is
written twice (core.py:1117 and 1123). -/
theorem C34_ids_counterexample : ¬ C34_ids_full_statement := by
  intro h
  have := (C34_ids_unique_partial [.assembly [.compound [[]]]]).1 (h _) _ (List.mem_singleton.2 rfl)
  simp only [Flat, List.mem_singleton, forall_eq] at this
  obtain ⟨_, _, h⟩ := this
  cases h

/-- A face with a hole on an extruded B-spline surface. -/
def C34_exampleFace : FaceK := ⟨.extrusion (.bspline 3), [.lineSegment, .arc, .bspline 2], [[.fullArc]]⟩

/-- A model with shells, a compound and an assembly satisfies the hypotheses, and defines many identifiers. -/
example : IdsUnique (toStep [.shell true [C34_exampleFace, C34_exampleFace], .compound [[C34_exampleFace]],
    .assembly [.shell false [C34_exampleFace], .shell true [C34_exampleFace]]]) :=
  (C34_ids_unique_partial _).2 (by simp [Flat])

example : (toStep [.shell true [C34_exampleFace, C34_exampleFace], .assembly [.shell false [C34_exampleFace]]]).length > 150 := by
  decide +kernel

end Volmdlr
