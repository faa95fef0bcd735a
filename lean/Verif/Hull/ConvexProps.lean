import Verif.Hull.HullProps

/-!
# C87: the convex hull of a list of points, main theorems
-/

namespace Volmdlr.Hull

open Real Volmdlr.Angle Volmdlr.Arc

theorem mem_eraseIdx_nodup {α : Type*} {l : List α} (hn : l.Nodup) {i : ℕ} (hi : i < l.length) (d x : α) :
    x ∈ l.eraseIdx i ↔ x ∈ l ∧ x ≠ l.getD i d := by
  rw [List.getD_eq_getElem _ _ hi, List.mem_eraseIdx_iff_getElem]
  constructor
  · rintro ⟨j, hj, hne, rfl⟩
    exact ⟨List.getElem_mem hj, fun h => hne ((List.Nodup.getElem_inj_iff hn).1 h)⟩
  · rintro ⟨hx, hne⟩
    obtain ⟨j, hj, rfl⟩ := List.mem_iff_getElem.1 hx
    exact ⟨j, hj, fun h => hne (by subst h; rfl), rfl⟩

theorem GenPos.dist {pts : List (V2 ℝ)} (h : GenPos pts) {a b : V2 ℝ} (ha : a ∈ pts) (hb : b ∈ pts) (hne : a ≠ b) :
    1 / 10 ^ 6 < V2.pointDistance a b := by
  have hsym : ∀ p q : V2 ℝ, V2.pointDistance p q = V2.pointDistance q p := by
    intro p q
    unfold V2.pointDistance V2.norm
    congr 1
    show (p.x - q.x) * (p.x - q.x) + (p.y - q.y) * (p.y - q.y) = (q.x - p.x) * (q.x - p.x) + (q.y - p.y) * (q.y - p.y)
    ring
  obtain ⟨i, hi, rfl⟩ := List.mem_iff_getElem.1 ha
  obtain ⟨j, hj, rfl⟩ := List.mem_iff_getElem.1 hb
  have hp := List.pairwise_iff_getElem.1 h.1
  rcases lt_trichotomy i j with hij | hij | hij
  · exact hp i j hi hj hij
  · subst hij; exact absurd rfl hne
  · rw [hsym]; exact hp j i hj hi hij

theorem isClose2_dist' {p q : V2 ℝ} (h : isClose2 p q (1 / 10 ^ 6)) : V2.pointDistance p q ≤ 1 / 10 ^ 6 := by
  unfold isClose2 mathIsClose at h
  have h0 : 0 ≤ V2.pointDistance p q := sqrt_nonneg _
  rw [sub_zero, abs_zero, abs_of_nonneg h0, max_eq_left h0] at h
  rcases le_max_iff.mp h with h | h
  · nlinarith
  · exact h

theorem sum_map_neg' {α : Type*} (l : List α) (f : α → ℝ) : (l.map fun a => -f a).sum = -(l.map f).sum := by
  induction l with
  | nil => simp
  | cons a l ih => simp only [List.map_cons, List.sum_cons, ih]; ring

theorem isClose2_self (p : V2 ℝ) : isClose2 p p (1 / 10 ^ 6) := by
  have : V2.pointDistance p p = 0 := by
    unfold V2.pointDistance V2.norm
    show √((p.x - p.x) * (p.x - p.x) + (p.y - p.y) * (p.y - p.y)) = 0
    simp
  unfold isClose2 mathIsClose
  rw [this]
  simp

theorem loop_spec {pts : List (V2 ℝ)} (hg : GenPos pts) (h3 : 3 ≤ pts.length) {start h1 : V2 ℝ} (hfirst : Sup pts start h1) :
    ∀ (n : ℕ) (t : List (V2 ℝ)) (prev next : V2 ℝ) (remaining : List (V2 ℝ)) (vec : V2 ℝ) (total : ℝ),
    (∃ h, start :: h1 :: t = h ++ [prev, next]) → (start :: h1 :: t).IsChain (Sup pts) → (start :: h1 :: t).Nodup →
    remaining.Nodup → (∀ p, p ∈ remaining ↔ p ∈ pts ∧ p ∉ h1 :: t) → remaining.length < n →
    ((vec = start - barycenter pts ∧ total = 0) ∨
      (vec = next - barycenter pts ∧ total = cc (start - barycenter pts) (next - barycenter pts))) →
    ∃ L, hullLoop start (barycenter pts) n (start :: h1 :: t) prev next remaining vec total = .ok L ∧ L.Nodup ∧
      (L ++ [start]).IsChain (Sup pts) ∧ L.head? = some start := by
  intro n
  induction n with
  | zero => intro t prev next remaining vec total _ _ _ _ _ h; omega
  | succ n ih =>
    intro t prev next remaining vec total ⟨h, hh⟩ hchain hnd hrn hrem hlen hvt
    have hsp : Sup pts prev next := by
      rw [hh] at hchain
      have := List.isChain_append.1 hchain
      simpa using this.2.1
    have hnext_mem : next ∈ h1 :: t := by
      have : (start :: h1 :: t).getLast? = some next := by rw [hh]; simp
      rw [List.getLast?_cons_cons] at this
      exact List.mem_of_getLast? this
    have hns : next ≠ start := by
      rintro rfl
      exact (List.nodup_cons.1 hnd).1 hnext_mem
    have hncl : ¬ isClose2 next start (1 / 10 ^ 6) := by
      intro hcl
      have := isClose2_dist' hcl
      have := hg.dist hsp.2.1 hfirst.1 hns
      linarith
    have hstart_rem : start ∈ remaining := (hrem start).2 ⟨hfirst.1, (List.nodup_cons.1 hnd).1⟩
    have hrne : remaining ≠ [] := List.ne_nil_of_mem hstart_rem
    obtain ⟨v, i, e, hi, hmem, hv, hmin⟩ := choose_spec (next - prev) next remaining hrne
    set q := remaining.getD i ⟨0, 0⟩ with hqd
    obtain ⟨hqp, hqt⟩ := (hrem q).1 hmem
    have hqn : q ≠ next := by rintro h'; rw [h'] at hqt; exact hqt hnext_mem
    have hall := min_all hg h3 (q := q) hsp hchain hnd ⟨h ++ [prev], by rw [hh]; simp⟩
      (fun p hp hpt => hmin p ((hrem p).2 ⟨hp, hpt⟩))
    have hsq := sup_of_min hsp hqp hqn hall
    have htest := tests_fail hg hsp hsq
    rw [← hv] at htest
    have hqh : q ≠ h1 := by rintro h'; rw [h'] at hqt; exact hqt (by simp)
    have hw0 : start - barycenter pts ≠ ⟨0, 0⟩ := by
      have := hfirst.bary hg h3
      rw [← cross_bary] at this
      exact (ne_zero_of_cross this.ne').1
    have hwn : next - barycenter pts ≠ ⟨0, 0⟩ ∧ q - barycenter pts ≠ ⟨0, 0⟩ := by
      have := hsq.bary hg h3
      rw [← cross_bary] at this
      exact ne_zero_of_cross this.ne'
    have htot : total + cc vec (q - barycenter pts) ≤ 2 * π ∧
        (q ≠ start → total + cc vec (q - barycenter pts) = cc (start - barycenter pts) (q - barycenter pts)) := by
      rcases hvt with ⟨rfl, rfl⟩ | ⟨rfl, rfl⟩
      · rw [zero_add]
        exact ⟨(cc_spec hw0 hwn.2).2.1.le, fun _ => rfl⟩
      · exact total_step hg h3 hfirst hsq hqh hw0 hwn.1
    rw [hullLoop, if_neg hncl, e]
    dsimp only
    rw [← hqd, if_neg htest]
    have hng : ¬ total + (2 * π - clockwiseAngle vec (q - barycenter pts)) > 2 * π := not_lt.2 htot.1
    rw [if_neg hng]
    have hchain' : (start :: h1 :: (t ++ [q])).IsChain (Sup pts) := by
      have : start :: h1 :: (t ++ [q]) = (start :: h1 :: t) ++ [q] := by simp
      rw [this, List.isChain_append]
      refine ⟨hchain, by simp, ?_⟩
      intro x hx y hy
      rw [hh] at hx
      simp at hx hy
      rw [← hx, ← hy]
      exact hsq
    have hap : (start :: h1 :: t) ++ [q] = start :: h1 :: (t ++ [q]) := by simp
    by_cases hqs : q = start
    · have hn : ∃ m, n = m + 1 := ⟨n - 1, by
        have := List.length_pos_of_ne_nil hrne
        omega⟩
      obtain ⟨m, rfl⟩ := hn
      rw [hullLoop, if_pos (by rw [hqs]; exact isClose2_self start)]
      refine ⟨start :: h1 :: t, by rw [List.dropLast_concat], hnd, ?_, rfl⟩
      rw [hqs] at hchain'
      simpa using hchain'
    · rw [hap]
      apply ih (t ++ [q]) next q (remaining.eraseIdx i) (q - barycenter pts) _
      · exact ⟨h ++ [prev], by
          have : start :: h1 :: (t ++ [q]) = (start :: h1 :: t) ++ [q] := by simp
          rw [this, hh]; simp⟩
      · exact hchain'
      · rw [← hap, List.nodup_append]
        refine ⟨hnd, by simp, ?_⟩
        intro x hx y hy
        rw [List.mem_singleton] at hy
        subst hy
        rintro rfl
        rcases List.mem_cons.1 hx with h' | h'
        · exact hqs h'
        · exact hqt h'
      · exact hrn.eraseIdx i
      · intro p
        rw [mem_eraseIdx_nodup hrn hi ⟨0, 0⟩, hrem, ← hqd]
        simp only [List.mem_cons, List.mem_append, List.mem_singleton, List.not_mem_nil, or_false]
        tauto
      · rw [List.length_eraseIdx_of_lt hi]
        have := List.length_pos_of_ne_nil hrne
        omega
      · right
        exact ⟨rfl, htot.2 hqs⟩

/-- The first edge: from a highest point, the smallest angle from the direction opposite to the barycenter. -/
theorem first_edge {pts : List (V2 ℝ)} (hg : GenPos pts) (h3 : 3 ≤ pts.length) {start q : V2 ℝ} (hs : start ∈ pts)
    (hy : ∀ p ∈ pts, p.y ≤ start.y) (hq : q ∈ pts) (hqs : q ≠ start)
    (hmin : ∀ p ∈ pts, p ≠ start → cc (start - barycenter pts) (q - start) ≤ cc (start - barycenter pts) (p - start)) :
    Sup pts start q := by
  have hne : pts ≠ [] := by rintro rfl; simp at h3
  have hlen : (0 : ℝ) < pts.length := by rw [Nat.cast_pos]; omega
  obtain ⟨p1, hp1, hp1s, -⟩ := exists_third hg.nodup h3 start start
  obtain ⟨p2, hp2, hp2s, hp21⟩ := exists_third hg.nodup h3 start p1
  set g := barycenter pts with hgd
  have hgy : 0 < start.y - g.y := by
    have e := barycenter_affine pts hne 0 (-1) start.y
    rw [← hgd] at e
    have e' : start.y - g.y = (pts.map fun p => 0 * p.x + -1 * p.y + start.y).sum / pts.length := by rw [← e]; ring
    rw [e']
    apply div_pos _ hlen
    have hnn : ∀ x ∈ pts.map fun p : V2 ℝ => 0 * p.x + -1 * p.y + start.y, 0 ≤ x := by
      intro x hx
      obtain ⟨p, hp, rfl⟩ := List.mem_map.1 hx
      have := hy p hp
      linarith
    by_contra hc
    have a1 := List.single_le_sum hnn _ (List.mem_map.2 ⟨p1, hp1, rfl⟩)
    have a2 := List.single_le_sum hnn _ (List.mem_map.2 ⟨p2, hp2, rfl⟩)
    have b1 : p1.y = start.y := le_antisymm (hy p1 hp1) (by linarith)
    have b2 : p2.y = start.y := le_antisymm (hy p2 hp2) (by linarith)
    apply hg.cross_ne hs hp1 hp2 (Ne.symm hp1s) (Ne.symm hp21) (Ne.symm hp2s)
    show (p1.x - start.x) * (p2.y - start.y) - (p1.y - start.y) * (p2.x - start.x) = 0
    rw [b1, b2]; ring
  have hw : start - g ≠ ⟨0, 0⟩ := by
    intro e
    have : start.y - g.y = 0 := congrArg V2.y e
    linarith
  -- some point is on the left of the direction
  have hex : ∃ p ∈ pts, p ≠ start ∧ 0 ≤ V2.cross (start - g) (p - start) := by
    by_contra hc
    push Not at hc
    have e := barycenter_affine pts hne (-(start.y - g.y)) (start.x - g.x)
      ((start.y - g.y) * start.x - (start.x - g.x) * start.y)
    rw [← hgd] at e
    have e0 : -(start.y - g.y) * g.x + (start.x - g.x) * g.y + ((start.y - g.y) * start.x - (start.x - g.x) * start.y) = 0 := by ring
    rw [e0] at e
    have e1 : ∀ p : V2 ℝ, -(start.y - g.y) * p.x + (start.x - g.x) * p.y + ((start.y - g.y) * start.x - (start.x - g.x) * start.y) =
        V2.cross (start - g) (p - start) := by
      intro p
      show _ = (start.x - g.x) * (p.y - start.y) - (start.y - g.y) * (p.x - start.x)
      ring
    have hs0 : (pts.map fun p : V2 ℝ => -(-(start.y - g.y) * p.x + (start.x - g.x) * p.y +
        ((start.y - g.y) * start.x - (start.x - g.x) * start.y))).sum = 0 := by
      rw [sum_map_neg']
      rw [eq_comm, div_eq_zero_iff] at e
      rcases e with e | e
      · rw [e, neg_zero]
      · linarith
    have hnn : ∀ x ∈ pts.map fun p : V2 ℝ => -(-(start.y - g.y) * p.x + (start.x - g.x) * p.y +
        ((start.y - g.y) * start.x - (start.x - g.x) * start.y)), 0 ≤ x := by
      intro x hx
      obtain ⟨p, hp, rfl⟩ := List.mem_map.1 hx
      rw [e1]
      by_cases hps : p = start
      · subst hps
        show 0 ≤ -((p.x - g.x) * (p.y - p.y) - (p.y - g.y) * (p.x - p.x))
        simp
      · have := hc p hp hps
        linarith
    have := List.single_le_sum hnn _ (List.mem_map.2 ⟨p1, hp1, rfl⟩)
    rw [hs0, e1] at this
    have := hc p1 hp1 hp1s
    linarith
  obtain ⟨p0, hp0, hp0s, hp0c⟩ := hex
  have hqv := sub_ne (Ne.symm hqs)
  have hqc : 0 ≤ V2.cross (start - g) (q - start) := by
    rw [← cc_le_pi hw hqv]
    exact (hmin p0 hp0 hp0s).trans ((cc_le_pi hw (sub_ne (Ne.symm hp0s))).2 hp0c)
  refine ⟨hs, hq, Ne.symm hqs, fun p hp => ?_⟩
  by_cases hps : p = start
  · subst hps
    show 0 ≤ (q.x - p.x) * (p.y - p.y) - (q.y - p.y) * (p.x - p.x)
    simp
  by_cases hpc : 0 ≤ V2.cross (start - g) (p - start)
  · exact cross_nonneg_of_cc_le hw hqv (sub_ne (Ne.symm hps)) hpc (hmin p hp hps)
  · push Not at hpc
    by_contra hneg
    push Not at hneg
    have y1 := hy p hp
    have y2 := hy q hq
    change (start.x - g.x) * (p.y - start.y) - (start.y - g.y) * (p.x - start.x) < 0 at hpc
    change 0 ≤ (start.x - g.x) * (q.y - start.y) - (start.y - g.y) * (q.x - start.x) at hqc
    change (q.x - start.x) * (p.y - start.y) - (q.y - start.y) * (p.x - start.x) < 0 at hneg
    have key : -((q.x - start.x) * (p.y - start.y) - (q.y - start.y) * (p.x - start.x)) * (start.y - g.y) =
        ((start.x - g.x) * (q.y - start.y) - (start.y - g.y) * (q.x - start.x)) * (p.y - start.y) +
        -((start.x - g.x) * (p.y - start.y) - (start.y - g.y) * (p.x - start.x)) * (q.y - start.y) := by ring
    have k1 := mul_pos (neg_pos.2 hneg) hgy
    have k2 := mul_nonneg hqc (by linarith : 0 ≤ start.y - p.y)
    have k3 := mul_nonneg (neg_pos.2 hpc).le (by linarith : 0 ≤ start.y - q.y)
    nlinarith

/-- A closed chain of supporting edges has the convex hull of the points. -/
theorem hull_of_chain {pts : List (V2 ℝ)} (hg : GenPos pts) (h3 : 3 ≤ pts.length) {L : List (V2 ℝ)} {start : V2 ℝ} (hnd : L.Nodup)
    (hchain : (L ++ [start]).IsChain (Sup pts)) (hh : L.head? = some start) : IsHull pts L := by
  have hidx := List.isChain_iff_getElem.1 hchain
  have hLpos : 0 < L.length := by
    cases L with
    | nil => simp at hh
    | cons a l => simp
  have hL0 : L[0] = start := by
    cases L with
    | nil => simp at hh
    | cons a l => simpa using hh
  have hside : ∀ i (hi : i < L.length), Sup pts L[i] (L[(i + 1) % L.length]'(Nat.mod_lt _ hLpos)) := by
    intro i hi
    have := hidx i (by simp; omega)
    rw [List.getElem_append_left hi] at this
    by_cases hl : i + 1 < L.length
    · rw [List.getElem_append_left hl] at this
      have e : (i + 1) % L.length = i + 1 := Nat.mod_eq_of_lt hl
      simp only [e]
      exact this
    · have e : i + 1 = L.length := by omega
      have e2 : (i + 1) % L.length = 0 := by rw [e]; exact Nat.mod_self _
      simp only [e2]
      rw [List.getElem_append_right (by omega)] at this
      simp at this
      rw [hL0]
      exact this
  have hmem : ∀ p ∈ L, p ∈ pts := by
    intro p hp
    obtain ⟨i, hi, rfl⟩ := List.mem_iff_getElem.1 hp
    exact (hside i hi).1
  have hL3 : 3 ≤ L.length := by
    by_contra hc
    have : L.length = 1 ∨ L.length = 2 := by omega
    rcases this with hl | hl
    · have h := hside 0 hLpos
      simp only [hl] at h
      exact h.2.2.1 rfl
    · have h := hside 0 hLpos
      have h' := hside 1 (by omega)
      simp only [hl] at h h'
      obtain ⟨p, hp, hp1, hp2⟩ := exists_third hg.nodup h3 L[0] (L[1]'(by omega))
      have a := h.pos hg hp hp1 hp2
      have b := h'.pos hg hp hp2 hp1
      norm_num at a b
      have : ∀ s t : V2 ℝ, V2.cross (s - t) (p - t) = -V2.cross (t - s) (p - s) := by
        intro s t
        show (s.x - t.x) * (p.y - t.y) - (s.y - t.y) * (p.x - t.x) = -((t.x - s.x) * (p.y - s.y) - (t.y - s.y) * (p.x - s.x))
        ring
      rw [this] at b
      linarith
  refine ⟨hL3, hnd, hmem, fun i hi p hp h1 h2 => (hside i hi).pos hg hp h1 h2, ?_⟩
  apply Set.Subset.antisymm
  · apply convexHull_mono
    rintro q ⟨p, hp, rfl⟩
    exact ⟨p, hmem p hp, rfl⟩
  apply convexHull_min _ (convex_convexHull ℝ _)
  rintro _ ⟨p, hp, rfl⟩
  by_contra hout
  have hfin : Set.Finite {q | ∃ p ∈ L, q = pair p} := by
    have : {q | ∃ p ∈ L, q = pair p} = pair '' {p | p ∈ L} := by
      ext q; constructor
      · rintro ⟨p, hp, rfl⟩; exact ⟨p, hp, rfl⟩
      · rintro ⟨p, hp, rfl⟩; exact ⟨p, hp, rfl⟩
    rw [this]
    exact (List.finite_toSet L).image _
  have hclosed : IsClosed (convexHull ℝ {q | ∃ p ∈ L, q = pair p}) := hfin.isClosed_convexHull ℝ
  obtain ⟨f, u, hfu, hf⟩ := geometric_hahn_banach_point_closed (convex_convexHull ℝ _) hclosed hout
  -- `f p < u < f` on the hull
  have hlin : ∀ q : V2 ℝ, f (pair q) = f (1, 0) * q.x + f (0, 1) * q.y := by
    intro q
    have : pair q = q.x • ((1, 0) : ℝ × ℝ) + q.y • ((0, 1) : ℝ × ℝ) := by unfold pair; ext <;> simp
    rw [this, map_add, map_smul, map_smul, smul_eq_mul, smul_eq_mul]; ring
  generalize f (1, 0) = A at hlin
  generalize f (0, 1) = B at hlin
  have hex : ∃ i : Fin L.length, ∀ j : Fin L.length, f (pair L[i.1]) ≤ f (pair L[j.1]) := by
    haveI : Nonempty (Fin L.length) := ⟨⟨0, hLpos⟩⟩
    exact Finite.exists_min (fun i : Fin L.length => f (pair L[i.1]))
  obtain ⟨⟨j, hj⟩, hjmin⟩ := hex
  have hfj : u < f (pair L[j]) := hf _ (subset_convexHull ℝ _ ⟨L[j], List.getElem_mem hj, rfl⟩)
  -- the predecessor
  have hpre : ∃ k, ∃ hk : k < L.length, (k + 1) % L.length = j := by
    by_cases h0 : j = 0
    · exact ⟨L.length - 1, by omega, by rw [Nat.sub_add_cancel (by omega), Nat.mod_self, h0]⟩
    · exact ⟨j - 1, by omega, by rw [Nat.sub_add_cancel (by omega)]; exact Nat.mod_eq_of_lt hj⟩
  obtain ⟨k, hk, hkj⟩ := hpre
  have s1 := hside k hk
  have s2 := hside j hj
  simp only [hkj] at s1
  have hml : (j + 1) % L.length < L.length := Nat.mod_lt _ hLpos
  have hmk : L[k] ≠ L[(j + 1) % L.length] := by
    intro e
    have e' := (List.Nodup.getElem_inj_iff hnd).1 e
    rw [← hkj] at e'
    by_cases hl : k + 1 < L.length
    · rw [Nat.mod_eq_of_lt hl] at e'
      by_cases hl2 : k + 1 + 1 < L.length
      · rw [Nat.mod_eq_of_lt hl2] at e'; omega
      · have : k + 1 + 1 = L.length := by omega
        rw [this, Nat.mod_self] at e'; omega
    · have : k + 1 = L.length := by omega
      rw [this, Nat.mod_self, Nat.mod_eq_of_lt (by omega)] at e'
      omega
  have m1 := hjmin ⟨k, hk⟩
  have m2 := hjmin ⟨_, hml⟩
  dsimp only at m1 m2
  have hD := s1.pos hg s2.2.1 (Ne.symm hmk) (Ne.symm s2.2.2.1)
  have c1 := s1.2.2.2 p hp
  have c2 := s2.2.2.2 p hp
  rw [← cross_sub] at hD c1
  rw [hlin] at hfu hfj m1 m2
  rw [hlin] at m1 m2
  generalize L[k] = a at *
  generalize L[(j + 1) % L.length] = c at *
  generalize L[j] = b at *
  change 0 < (b.x - a.x) * (c.y - b.y) - (b.y - a.y) * (c.x - b.x) at hD
  change 0 ≤ (b.x - a.x) * (p.y - b.y) - (b.y - a.y) * (p.x - b.x) at c1
  change 0 ≤ (c.x - b.x) * (p.y - b.y) - (c.y - b.y) * (p.x - b.x) at c2
  have key : ((b.x - a.x) * (c.y - b.y) - (b.y - a.y) * (c.x - b.x)) * (A * p.x + B * p.y - (A * b.x + B * b.y)) =
      ((b.x - a.x) * (p.y - b.y) - (b.y - a.y) * (p.x - b.x)) * (A * c.x + B * c.y - (A * b.x + B * b.y)) +
      ((c.x - b.x) * (p.y - b.y) - (c.y - b.y) * (p.x - b.x)) * (A * a.x + B * a.y - (A * b.x + B * b.y)) := by ring
  have k1 := mul_nonneg c1 (sub_nonneg.2 m2)
  have k2 := mul_nonneg c2 (sub_nonneg.2 m1)
  have k3 := mul_neg_of_pos_of_neg hD (by linarith : A * p.x + B * p.y - (A * b.x + B * b.y) < 0)
  linarith

/-- **C87** `points_convex_hull` of at least three points in general position (more than `1e-6` apart, no three within `1e-6` of
a line) returns their convex hull: a convex polygon, counter-clockwise, with vertices among the points. -/
theorem C87_convex_hull_partial (pts : List (V2 ℝ)) (h3 : 3 ≤ pts.length) (hg : GenPos pts) :
    ∃ hull, pointsConvexHull pts = .ok (some hull) ∧ IsHull pts hull := by
  have hne : pts ≠ [] := by rintro rfl; simp at h3
  obtain ⟨v, i, e, hi, hv, hmax⟩ := argmax_spec (pts.map V2.y) (by simpa using hne)
  have hi' : i < pts.length := by simpa using hi
  set start := pts.getD i ⟨0, 0⟩ with hsd
  have hsm : start ∈ pts := by rw [hsd, List.getD_eq_getElem _ _ hi']; exact List.getElem_mem hi'
  have hy : ∀ p ∈ pts, p.y ≤ start.y := by
    intro p hp
    have := hmax p.y (List.mem_map.2 ⟨p, hp, rfl⟩)
    rw [← hv, List.getD_eq_getElem _ _ hi, List.getElem_map] at this
    rw [hsd, List.getD_eq_getElem _ _ hi']
    exact this
  have hrn := hg.nodup.eraseIdx i
  have hrm : ∀ p, p ∈ pts.eraseIdx i ↔ p ∈ pts ∧ p ≠ start := fun p => mem_eraseIdx_nodup hg.nodup hi' ⟨0, 0⟩ p
  have hrlen : (pts.eraseIdx i).length = pts.length - 1 := List.length_eraseIdx_of_lt hi'
  have hrne : pts.eraseIdx i ≠ [] := by
    intro h'
    rw [h'] at hrlen
    simp at hrlen
    omega
  obtain ⟨v2, j, e2, hj, hqm, -, hmin⟩ := choose_spec (start - barycenter pts) start (pts.eraseIdx i) hrne
  set q := (pts.eraseIdx i).getD j ⟨0, 0⟩ with hqd
  obtain ⟨hqp, hqs⟩ := (hrm q).1 hqm
  have hfirst := first_edge hg h3 hsm hy hqp hqs (fun p hp hps => hmin p ((hrm p).2 ⟨hp, hps⟩))
  have hmem2 : ∀ p, p ∈ (pts.eraseIdx i).eraseIdx j ↔ p ∈ pts ∧ p ≠ start ∧ p ≠ q := by
    intro p
    rw [mem_eraseIdx_nodup hrn hj ⟨0, 0⟩, hrm, and_assoc]
  obtain ⟨L, hL, hnd, hch, hhd⟩ := loop_spec hg h3 hfirst (pts.length + 1) [] start q
    ((pts.eraseIdx i).eraseIdx j ++ [start]) (start - barycenter pts) 0 ⟨[], rfl⟩ (by simpa using hfirst)
    (by simp [Ne.symm hqs])
    (by
      rw [List.nodup_append]
      refine ⟨hrn.eraseIdx j, by simp, ?_⟩
      intro x hx y hy'
      rw [List.mem_singleton] at hy'
      subst hy'
      exact ((hmem2 x).1 hx).2.1)
    (by
      intro p
      rw [List.mem_append, hmem2, List.mem_singleton, List.mem_singleton]
      constructor
      · rintro (h | rfl)
        · exact ⟨h.1, h.2.2⟩
        · exact ⟨hsm, Ne.symm hqs⟩
      · rintro ⟨h1, h2⟩
        by_cases h : p = start
        · exact Or.inr h
        · exact Or.inl ⟨h1, h, h2⟩)
    (by
      rw [List.length_append, List.length_eraseIdx_of_lt hj, hrlen]
      simp; omega)
    (Or.inl ⟨rfl, rfl⟩)
  refine ⟨L, ?_, hull_of_chain hg h3 hnd hch hhd⟩
  unfold pointsConvexHull
  rw [if_neg (by omega), e]
  dsimp only
  rw [← hsd, e2]
  dsimp only
  rw [← hqd, hL]

/-- **C87** fewer than three points give no polygon. -/
theorem C87_few (pts : List (V2 ℝ)) (h : pts.length < 3) : pointsConvexHull pts = .ok none := by
  unfold pointsConvexHull
  rw [if_pos h]

end Volmdlr.Hull
