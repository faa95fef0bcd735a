import Verif.Search.GroupModel
import Verif.Lists.Props
import Mathlib.Data.List.Perm.Basic
import Mathlib.Logic.Relation

/-!
# C192, C193: groups of points, centre of mass

**C192** `separate_points_by_closeness` shares the points out among closed loops: two points are in the same loop exactly when a chain of points with steps of at most
`eps` joins them, `eps` between 0.02 and 0.35; each loop is ordered by nearest neighbours.
**C193** `get_center_of_mass`: the vectors from it to the points balance.
-/

namespace Volmdlr.Search

section
variable {α : Type*}

lemma addTo_spec (label : ℕ) (point : α) (done : List (ℕ × α)) (d : List (ℕ × List α))
    (h1 : (d.map Prod.fst).Nodup) (h2 : ∀ e ∈ d, e.2 = (done.filter fun x => decide (x.1 = e.1)).map Prod.snd ∧ e.2 ≠ [])
    (h3 : ∀ x ∈ done, x.1 ∈ d.map Prod.fst) :
    ((addTo label point d).map Prod.fst).Nodup ∧
    (∀ e ∈ addTo label point d, e.2 = ((done ++ [(label, point)]).filter fun x => decide (x.1 = e.1)).map Prod.snd ∧ e.2 ≠ []) ∧
    (∀ k, k ∈ (addTo label point d).map Prod.fst ↔ k ∈ d.map Prod.fst ∨ k = label) := by
  have hnew : label ∉ d.map Prod.fst → (done.filter fun x => decide (x.1 = label)).map Prod.snd = [] := by
    intro hn
    rw [List.map_eq_nil_iff, List.filter_eq_nil_iff]
    intro x hx hh
    exact hn (by rw [← of_decide_eq_true hh]; exact h3 x hx)
  clear h3
  induction d with
  | nil =>
    refine ⟨by simp [addTo], ?_, by simp [addTo]⟩
    intro e he
    rw [addTo, List.mem_singleton] at he
    subst he
    rw [List.filter_append, List.map_append]
    dsimp only
    rw [hnew (by simp)]
    simp
  | cons e rest ih =>
    obtain ⟨k, g⟩ := e
    rw [List.map_cons, List.nodup_cons] at h1
    rw [addTo]
    split_ifs with hk
    · refine ⟨?_, ?_, ?_⟩
      · rw [List.map_cons, List.nodup_cons]; exact h1
      · intro e he
        rcases List.mem_cons.mp he with rfl | he
        · have := h2 (k, g) List.mem_cons_self
          dsimp only at this ⊢
          rw [List.filter_append, List.map_append, ← this.1, hk]
          simp
        · have := h2 e (List.mem_cons_of_mem _ he)
          have hne : e.1 ≠ label := by
            rintro he'
            exact h1.1 (List.mem_map.mpr ⟨e, he, by rw [he', hk]⟩)
          rw [List.filter_append, List.map_append, ← this.1]
          simp [Ne.symm hne, this.2]
      · intro k'
        simp only [List.map_cons, List.mem_cons]
        constructor
        · exact Or.inl
        · rintro (h | h)
          · exact h
          · left; rw [h, hk]
    · have hne : (k, g).2 = (done.filter fun x => decide (x.1 = k)).map Prod.snd ∧ g ≠ [] := h2 (k, g) List.mem_cons_self
      obtain ⟨i1, i2, i3⟩ := ih h1.2 (fun e he => h2 e (List.mem_cons_of_mem _ he)) (fun hn => hnew (by
        rw [List.map_cons, List.mem_cons, not_or]; exact ⟨Ne.symm hk, hn⟩))
      refine ⟨?_, ?_, ?_⟩
      · rw [List.map_cons, List.nodup_cons]
        refine ⟨?_, i1⟩
        rw [i3, not_or]
        exact ⟨h1.1, hk⟩
      · intro e he
        rcases List.mem_cons.mp he with rfl | he
        · dsimp only at hne ⊢
          rw [List.filter_append, List.map_append, ← hne.1]
          simp [Ne.symm hk, hne.2]
        · exact i2 e he
      · intro k'
        simp only [List.map_cons, List.mem_cons]
        rw [i3]; tauto

lemma groups_spec (done : List (ℕ × α)) : ((groups done).map Prod.fst).Nodup ∧
    (∀ e ∈ groups done, e.2 = (done.filter fun x => decide (x.1 = e.1)).map Prod.snd ∧ e.2 ≠ []) ∧
    (∀ x ∈ done, x.1 ∈ (groups done).map Prod.fst) := by
  induction done using List.reverseRecOn with
  | nil => simp [groups]
  | append_singleton l x ih =>
    obtain ⟨h1, h2, h3⟩ := ih
    have e : groups (l ++ [x]) = addTo x.1 x.2 (groups l) := by simp [groups]
    rw [e]
    obtain ⟨k1, k2, k3⟩ := addTo_spec x.1 x.2 l (groups l) h1 h2 h3
    refine ⟨k1, k2, fun y hy => (k3 _).mpr ?_⟩
    rcases List.mem_append.mp hy with hy | hy
    · exact Or.inl (h3 y hy)
    · rw [List.mem_singleton.mp hy]; exact Or.inr rfl

lemma flatMap_filter_perm {β κ : Type*} [DecidableEq κ] (f : β → κ) (keys : List κ) : ∀ (l : List β), keys.Nodup → (∀ x ∈ l, f x ∈ keys) →
    (keys.flatMap fun k => l.filter fun x => decide (f x = k)).Perm l := by
  induction keys with
  | nil =>
    intro l _ h
    cases l with
    | nil => simp
    | cons a l => exact absurd (h a List.mem_cons_self) (by simp)
  | cons k ks ih =>
    intro l hn h
    rw [List.nodup_cons] at hn
    rw [List.flatMap_cons]
    have e : (ks.flatMap fun k' => l.filter fun x => decide (f x = k')) =
        ks.flatMap fun k' => (l.filter fun x => !decide (f x = k)).filter fun x => decide (f x = k') := by
      refine List.flatMap_congr fun k' hk' => ?_
      rw [List.filter_filter]
      refine List.filter_congr fun x _ => ?_
      by_cases hx : f x = k'
      · have : k' ≠ k := fun he => hn.1 (he ▸ hk')
        simp [hx, this]
      · simp [hx]
    rw [e]
    refine ((ih _ hn.2 ?_).append_left _).trans (List.filter_append_perm _ l)
    intro x hx
    obtain ⟨hx1, hx2⟩ := List.mem_filter.mp hx
    rcases List.mem_cons.mp (h x hx1) with hk | hk
    · simp [hk] at hx2
    · exact hk

/-- The labels of a clustering in which every point counts (specification of scikit-learn's `DBSCAN(eps, min_samples=1)`): two points have the same label
exactly when a chain of points with steps of at most `eps` joins them. -/
def Clusters (dist : α → α → ℝ) (eps : ℝ) (points : List α) (labels : List ℕ) : Prop :=
  labels.length = points.length ∧ ∀ i j : Fin points.length,
    labels[i.1]? = labels[j.1]? ↔ Relation.ReflTransGen (fun a b : Fin points.length => dist points[a.1] points[b.1] ≤ eps) i j

lemma closeLoop_spec (dist : α → α → ℝ) (nz : α → Bool) (p : α) (ps : List α) (hnz : ∀ q ∈ p :: ps, nz q = true) :
    ∃ r, closeLoop dist nz (p :: ps) = .ok (r ++ [p]) ∧ r.Perm (p :: ps) ∧ r.head? = some p ∧ GreedyPath dist r := by
  obtain ⟨r, -, h1, -, -, h4, h5, h6⟩ := C58_nearest_neighbor_partial dist nz p ps
  refine ⟨r, ?_, h6 hnz, h4, h5⟩
  unfold closeLoop
  rw [h1]
  cases r with
  | nil => cases h4
  | cons a r =>
    rw [List.head?_cons, Option.some_inj] at h4
    subst h4
    rfl

lemma mapM_ok {β γ : Type*} (f : β → Except PyErr γ) (P : β → γ → Prop) : ∀ l : List β, (∀ b ∈ l, ∃ c, f b = .ok c ∧ P b c) →
    ∃ r, l.mapM f = .ok r ∧ List.Forall₂ P l r := by
  intro l
  induction l with
  | nil => intro _; exact ⟨[], rfl, List.Forall₂.nil⟩
  | cons b l ih =>
    intro h
    obtain ⟨c, h1, h2⟩ := h b List.mem_cons_self
    obtain ⟨r, h3, h4⟩ := ih fun b' hb' => h b' (List.mem_cons_of_mem _ hb')
    exact ⟨c :: r, by rw [List.mapM_cons, h1, h3]; rfl, List.Forall₂.cons h2 h4⟩

/-- Its proof, for a list of at least two points. -/
private lemma separate_spec (dist : α → α → ℝ) (nz : α → Bool) (dbscan : ℝ → List α → List ℕ) (points : List α) (hne : points.isEmpty = false)
    (hnz : ∀ a ∈ points, nz a = true) (eps : ℝ) (heps : epsilon dist points = .ok eps) (hdb : Clusters dist eps points (dbscan eps points)) :
    ∃ loops, ∃ classes : List (List (Fin points.length)),
      separate dist nz dbscan points = .ok loops ∧
      classes.flatten.Perm (List.finRange points.length) ∧
      (∀ i j, (∃ c ∈ classes, i ∈ c ∧ j ∈ c) ↔
        Relation.ReflTransGen (fun a b : Fin points.length => dist points[a.1] points[b.1] ≤ eps) i j) ∧
      List.Forall₂ (fun (c : List (Fin points.length)) (loop : List α) =>
        c.Pairwise (· < ·) ∧ ∃ i0 r, c.head? = some i0 ∧ loop = r ++ [points[i0.1]] ∧ r.Perm (c.map fun i => points[i.1]) ∧
          r.head? = some points[i0.1] ∧ GreedyPath dist r) classes loops := by
  obtain ⟨hlen, hcl⟩ := hdb
  have hzip : (dbscan eps points).zip points =
      (List.finRange points.length).map fun i => ((dbscan eps points)[i.1]'(by rw [hlen]; exact i.2), points[i.1]) := by
    refine List.ext_getElem (by simp [hlen]) fun n h1 h2 => ?_
    simp
  have hgroups := groups_spec ((dbscan eps points).zip points)
  obtain ⟨g1, g2, g3⟩ := hgroups
  let label : Fin points.length → ℕ := fun i => (dbscan eps points)[i.1]'(by rw [hlen]; exact i.2)
  let cls : ℕ → List (Fin points.length) := fun k => (List.finRange points.length).filter fun i => decide (label i = k)
  have hg : ∀ e ∈ groups ((dbscan eps points).zip points), e.2 = (cls e.1).map fun i => points[i.1] := by
    intro e he
    rw [(g2 e he).1, hzip, List.filter_map, List.map_map]
    rfl
  have hall : ∀ i : Fin points.length, label i ∈ (groups ((dbscan eps points).zip points)).map Prod.fst := by
    intro i
    refine g3 (label i, points[i.1]) ?_
    rw [hzip]
    exact List.mem_map.mpr ⟨i, List.mem_finRange i, rfl⟩
  obtain ⟨loops, hloops, hF⟩ := mapM_ok (fun g : ℕ × List α => closeLoop dist nz g.2)
    (fun (g : ℕ × List α) (loop : List α) => (cls g.1).Pairwise (· < ·) ∧ ∃ i0 r, (cls g.1).head? = some i0 ∧ loop = r ++ [points[i0.1]] ∧ r.Perm ((cls g.1).map fun i : Fin points.length => points[i.1]) ∧
          r.head? = some points[i0.1] ∧ GreedyPath dist r) (groups ((dbscan eps points).zip points)) (by
    intro g hgm
    have h1 := hg g hgm
    have h2 := (g2 g hgm).2
    rw [h1]
    rw [h1] at h2
    have hsorted : (cls g.1).Pairwise (· < ·) := (List.pairwise_lt_finRange _).filter _
    cases hc : cls g.1 with
    | nil => rw [hc] at h2; exact absurd rfl h2
    | cons i0 is =>
      obtain ⟨r, k1, k2, k3, k4⟩ := closeLoop_spec dist nz points[i0.1] (is.map fun i : Fin points.length => points[i.1]) (by
        intro a ha
        refine hnz a ?_
        rcases List.mem_cons.mp ha with rfl | ha
        · exact List.getElem_mem _
        · obtain ⟨i, -, rfl⟩ := List.mem_map.mp ha
          exact List.getElem_mem _)
      rw [hc] at hsorted
      exact ⟨_, k1, hsorted, i0, r, rfl, rfl, k2, k3, k4⟩)
  refine ⟨loops, (groups ((dbscan eps points).zip points)).map fun g => cls g.1, ?_, ?_, ?_, ?_⟩
  · unfold separate
    rw [hne, heps]
    exact hloops
  · have := flatMap_filter_perm label ((groups ((dbscan eps points).zip points)).map Prod.fst) (List.finRange points.length) g1 (fun i _ => hall i)
    rw [List.flatMap_map] at this
    exact this
  · intro i j
    rw [← hcl i j, List.getElem?_eq_getElem (show i.1 < (dbscan eps points).length by rw [hlen]; exact i.2),
      List.getElem?_eq_getElem (show j.1 < (dbscan eps points).length by rw [hlen]; exact j.2), Option.some_inj]
    constructor
    · rintro ⟨c, hc, hi, hj⟩
      obtain ⟨g, -, rfl⟩ := List.mem_map.mp hc
      have h1 := of_decide_eq_true (List.mem_filter.mp hi).2
      have h2 := of_decide_eq_true (List.mem_filter.mp hj).2
      exact h1.trans h2.symm
    · intro h
      obtain ⟨g, hgm, hgl⟩ := List.mem_map.mp (hall i)
      refine ⟨cls g.1, List.mem_map.mpr ⟨g, hgm, rfl⟩, List.mem_filter.mpr ⟨List.mem_finRange i, decide_eq_true hgl.symm⟩,
        List.mem_filter.mpr ⟨List.mem_finRange j, decide_eq_true ?_⟩⟩
      exact h.symm.trans hgl.symm
  · rw [List.forall₂_map_left_iff]
    exact hF

/-- **C192** (partial: at least two points, none of them the origin) the positions of the points are shared out among classes, two in the same class exactly when joined by a chain of
steps of at most `eps`, where 0.02 ≤ `eps` ≤ 0.35; the loops answered are these classes, each in an order of nearest neighbours from its first point and closed. -/
theorem C192_partial (dist : α → α → ℝ) (nz : α → Bool) (dbscan : ℝ → List α → List ℕ) (p q : α) (ps : List α)
    (hnz : ∀ a ∈ p :: q :: ps, nz a = true) (hdb : ∀ eps, 0 < eps → Clusters dist eps (p :: q :: ps) (dbscan eps (p :: q :: ps))) :
    ∃ eps loops, ∃ classes : List (List (Fin (p :: q :: ps).length)),
      separate dist nz dbscan (p :: q :: ps) = .ok loops ∧ 2 / 100 ≤ eps ∧ eps ≤ 35 / 100 ∧
      classes.flatten.Perm (List.finRange (p :: q :: ps).length) ∧
      (∀ i j, (∃ c ∈ classes, i ∈ c ∧ j ∈ c) ↔
        Relation.ReflTransGen (fun a b : Fin (p :: q :: ps).length => dist (p :: q :: ps)[a.1] (p :: q :: ps)[b.1] ≤ eps) i j) ∧
      List.Forall₂ (fun (c : List (Fin (p :: q :: ps).length)) (loop : List α) =>
        c.Pairwise (· < ·) ∧ ∃ i0 r, c.head? = some i0 ∧ loop = r ++ [(p :: q :: ps)[i0.1]] ∧ r.Perm (c.map fun i => (p :: q :: ps)[i.1]) ∧
          r.head? = some (p :: q :: ps)[i0.1] ∧ GreedyPath dist r) classes loops := by
  obtain ⟨eps, heps, e1, e2⟩ : ∃ eps, epsilon dist (p :: q :: ps) = .ok eps ∧ 2 / 100 ≤ eps ∧ eps ≤ 35 / 100 :=
    ⟨_, rfl, le_max_right _ _, max_le (min_le_right _ _) (by norm_num)⟩
  obtain ⟨loops, classes, h1, h2, h3, h4⟩ := separate_spec dist nz dbscan (p :: q :: ps) rfl hnz eps heps (hdb eps (by linarith [(by norm_num : (0 : ℝ) < 2 / 100)]))
  exact ⟨eps, loops, classes, h1, e1, e2, h2, h3, h4⟩

/-- A clustering of the real line that meets the specification exists for every list. -/
lemma clusters_exist (dist : α → α → ℝ) (hsymm : ∀ a b, dist a b = dist b a) (eps : ℝ) (points : List α) :
    ∃ labels, Clusters dist eps points labels := by
  classical
  let R : Fin points.length → Fin points.length → Prop := Relation.ReflTransGen fun a b => dist points[a.1] points[b.1] ≤ eps
  have hR : ∀ i j, R i j → R j i := by
    intro i j h
    induction h with
    | refl => exact Relation.ReflTransGen.refl
    | tail _ hab ih => exact Relation.ReflTransGen.head (by rw [hsymm]; exact hab) ih
  let first : Fin points.length → ℕ := fun i => ((List.finRange points.length).findIdx fun j => decide (R j i))
  refine ⟨(List.finRange points.length).map first, by simp, fun i j => ?_⟩
  rw [List.getElem?_eq_getElem (by simp), List.getElem?_eq_getElem (by simp), Option.some_inj]
  simp only [List.getElem_map, List.getElem_finRange, Fin.cast_mk, Fin.eta]
  have hfirst : ∀ i, ∃ h : first i < (List.finRange points.length).length, R (List.finRange points.length)[first i] i := by
    intro i
    have h1 : first i < (List.finRange points.length).length := List.findIdx_lt_length_of_exists ⟨i, List.mem_finRange i, decide_eq_true Relation.ReflTransGen.refl⟩
    exact ⟨h1, of_decide_eq_true (List.findIdx_getElem (w := h1))⟩
  constructor
  · intro h
    obtain ⟨h1, h2⟩ := hfirst i
    obtain ⟨h3, h4⟩ := hfirst j
    have : (List.finRange points.length)[first i] = (List.finRange points.length)[first j] := by congr 1
    rw [this] at h2
    exact (hR _ _ h2).trans h4
  · intro h
    have : (fun k => decide (R k i)) = fun k => decide (R k j) := by
      funext k
      rw [decide_eq_decide]
      exact ⟨fun hk => hk.trans h, fun hk => hk.trans (hR _ _ h)⟩
    exact congrArg (fun f => (List.finRange points.length).findIdx f) this

/-- The hypotheses are met by three points of the line, the first two close. -/
example : ∃ dbscan : ℝ → List ℝ → List ℕ, (∀ a ∈ [(1 : ℝ), 1.01, 5], (decide (a ≠ 0)) = true) ∧
    ∀ eps, 0 < eps → Clusters (fun a b : ℝ => |a - b|) eps [1, 1.01, 5] (dbscan eps [1, 1.01, 5]) := by
  refine ⟨fun eps points => (clusters_exist (fun a b : ℝ => |a - b|) (fun a b => abs_sub_comm a b) eps points).choose, ?_, fun eps _ => ?_⟩
  · intro a ha
    simp only [List.mem_cons, List.not_mem_nil, or_false] at ha
    rcases ha with rfl | rfl | rfl <;> norm_num
  · exact (clusters_exist (fun a b : ℝ => |a - b|) (fun a b => abs_sub_comm a b) eps _).choose_spec

/-- **C192** no points, no loops; a point alone is an exception. -/
theorem C192_small (dist : α → α → ℝ) (nz : α → Bool) (dbscan : ℝ → List α → List ℕ) (p : α) :
    separate dist nz dbscan [] = .ok [] ∧ separate dist nz dbscan [p] = .error .valueError := ⟨rfl, rfl⟩

end

/-- C192 as expected by a user: every point is in a loop. -/
def C192_full_statement : Prop := ∀ (dbscan : ℝ → List (V3 ℝ) → List ℕ) (points : List (V3 ℝ)),
  (∀ eps points, 0 < eps → Clusters V3.pointDistance eps points (dbscan eps points)) →
  ∃ loops, separate V3.pointDistance (fun p => decide (p ≠ ⟨0, 0, 0⟩)) dbscan points = .ok loops ∧ ∀ p ∈ points, ∃ l ∈ loops, p ∈ l

/-- **C192** false: a point alone has no loop. -/
theorem C192_counterexample : ¬ C192_full_statement := by
  intro h
  have hs : ∀ p q : V3 ℝ, V3.pointDistance p q = V3.pointDistance q p := by
    intro p q; unfold V3.pointDistance V3.norm; congr 1; simp only [V3.sub_x, V3.sub_y, V3.sub_z]; ring
  obtain ⟨loops, h1, -⟩ := h (fun eps points => (clusters_exist V3.pointDistance hs eps points).choose) [⟨1, 0, 0⟩]
    (fun eps points _ => (clusters_exist V3.pointDistance hs eps points).choose_spec)
  rw [(C192_small _ _ _ _).2] at h1
  cases h1

/-! ## Centre of mass -/

section
variable {K : Type*} [Field K]

lemma sum_fold (points : List (V3 K)) : ∀ c : V3 K, points.foldl (fun (c p : V3 K) => c + p) c =
    ⟨c.x + (points.map V3.x).sum, c.y + (points.map V3.y).sum, c.z + (points.map V3.z).sum⟩ := by
  induction points with
  | nil => intro c; ext <;> simp
  | cons p ps ih => intro c; rw [List.foldl_cons, ih]; ext <;> simp [add_assoc]

lemma sum_sub (l : List K) (c : K) : (l.map fun a => a - c).sum = l.sum - l.length * c := by
  induction l with
  | nil => simp
  | cons a l ih => rw [List.map_cons, List.sum_cons, ih, List.sum_cons, List.length_cons]; push_cast; ring

/-- **C193** the centre of mass is the point from which the vectors to the points balance, and no other point is. -/
theorem C193_center_of_mass [CharZero K] (points : List (V3 K)) (h : points ≠ []) (c : V3 K) :
    centerOfMass points = .ok c ↔
      (points.map fun p => (p - c).x).sum = 0 ∧ (points.map fun p => (p - c).y).sum = 0 ∧ (points.map fun p => (p - c).z).sum = 0 := by
  have hn : (points.length : K) ≠ 0 := Nat.cast_ne_zero.mpr (by simpa using h)
  have e : ∀ f : V3 K → K, ∀ a : K, (points.map fun p => f p - a).sum = 0 ↔ (points.map f).sum / points.length = a := by
    intro f a
    have := sum_sub (points.map f) a
    rw [List.map_map, List.length_map] at this
    rw [show (fun p => f p - a) = (fun b => b - a) ∘ f from rfl, this, sub_eq_zero, div_eq_iff hn, mul_comm]
  simp only [V3.sub_x, V3.sub_y, V3.sub_z]
  rw [e, e, e]
  unfold centerOfMass
  rw [sum_fold]
  dsimp only
  rw [if_neg (by simpa using h), zero_add, zero_add, zero_add]
  constructor
  · intro hh; cases hh; exact ⟨rfl, rfl, rfl⟩
  · rintro ⟨h1, h2, h3⟩; rw [h1, h2, h3]

/-- **C193** it does not depend on the order of the points, and no points is an exception. -/
theorem C193_order (points points' : List (V3 K)) (h : points.Perm points') : centerOfMass points = centerOfMass points' := by
  unfold centerOfMass
  rw [sum_fold, sum_fold, h.length_eq, (h.map V3.x).sum_eq, (h.map V3.y).sum_eq, (h.map V3.z).sum_eq]

theorem C193_empty : centerOfMass ([] : List (V3 K)) = .error .zeroDivision := rfl

/-- **C193** on every side of a plane with all the points: whatever half space contains the points contains their centre of mass. -/
theorem C193_convex {K : Type*} [Field K] [LinearOrder K] [IsStrictOrderedRing K] (points : List (V3 K)) (c n : V3 K) (b : K) (h : centerOfMass points = .ok c)
    (hall : ∀ p ∈ points, V3.dot n p ≤ b) : V3.dot n c ≤ b := by
  have hne : points ≠ [] := by rintro rfl; cases h
  obtain ⟨h1, h2, h3⟩ := (C193_center_of_mass points hne c).mp h
  have key : (points.map fun p => V3.dot n p - V3.dot n c).sum = 0 := by
    have : (points.map fun p => V3.dot n p - V3.dot n c).sum =
        n.x * (points.map fun p => (p - c).x).sum + n.y * (points.map fun p => (p - c).y).sum + n.z * (points.map fun p => (p - c).z).sum := by
      clear h hall h1 h2 h3 hne
      induction points with
      | nil => simp
      | cons p ps ih =>
        rw [List.map_cons, List.map_cons, List.map_cons, List.map_cons, List.sum_cons, List.sum_cons, List.sum_cons, List.sum_cons, ih]
        generalize (ps.map fun p => (p - c).x).sum = s1
        generalize (ps.map fun p => (p - c).y).sum = s2
        generalize (ps.map fun p => (p - c).z).sum = s3
        simp only [V3.dot, V3.sub_x, V3.sub_y, V3.sub_z]; ring
    rw [this, h1, h2, h3]; ring
  by_contra hlt
  rw [not_le] at hlt
  have hneg : ∀ l : List (V3 K), l ≠ [] → (∀ p ∈ l, V3.dot n p ≤ b) → (l.map fun p => V3.dot n p - V3.dot n c).sum < 0 := by
    intro l
    induction l with
    | nil => intro hh; exact absurd rfl hh
    | cons p ps ih =>
      intro _ hh
      have h0 := hh p List.mem_cons_self
      rw [List.map_cons, List.sum_cons]
      by_cases hps : ps = []
      · subst hps; simp; linarith
      · have := ih hps fun q hq => hh q (List.mem_cons_of_mem _ hq)
        linarith
  exact absurd key (ne_of_lt (hneg points hne hall))

example : centerOfMass [(⟨0, 0, 0⟩ : V3 ℚ), ⟨3, 0, 0⟩, ⟨0, 3, 6⟩] = .ok ⟨1, 1, 2⟩ := by decide +kernel
end

end Volmdlr.Search
