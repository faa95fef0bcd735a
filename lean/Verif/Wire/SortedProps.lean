import Verif.Wire.SplitProps

/-!
# C165: splitting a wire at several points
-/

namespace Volmdlr.Wire

variable {E P K : Type} [Field K] [LinearOrder K] [IsStrictOrderedRing K] (k : EdgeKit E P K)

/-! ## Specification -/

/-- The points are on the wire, `σ` gives their abscissas, and these increase from a point to the next one; the edges can be cut there. -/
structure SortedAlong (split : E → P → Option E × Option E) (trim : E → P → P → E) (abscissa : P → Except WireError K)
    (σ : P → K) (prims : List E) (points : List P) : Prop where
  abscissas : ∀ p ∈ points, abscissa p = .ok (σ p) ∧ 0 ≤ σ p ∧ σ p ≤ wireLength k prims
  increasing : points.Pairwise fun p q => σ p < σ q ∧ GoodCuts k (1 / 10 ^ 6) split trim (σ p) (σ q) p q 0 prims

/-- The sections run from each point to the next one, and are as long as the wire between them. -/
def SectionsBetween (σ : P → K) (points : List P) (sections : List (List E)) : Prop :=
  List.Forall₂ (fun (pq : P × P) section_ => PathFrom k (1 / 10 ^ 6) pq.1 section_ pq.2 ∧ wireLength k section_ = σ pq.2 - σ pq.1)
    (points.zip points.tail) sections

variable {split : E → P → Option E × Option E} {trim : E → P → P → E} {abscissa : P → Except WireError K} {σ : P → K}

lemma insideSections_spec [DecidableEq E] (prims : List E) (hch : prims.IsChain (Follows k (1 / 10 ^ 6)))
    (hpos : ∀ e ∈ prims, 0 < k.length e) : ∀ points : List P, SortedAlong k split trim abscissa σ prims points →
    ∃ sections, insideSections k split trim abscissa prims points = .ok sections ∧ SectionsBetween k σ points sections := by
  intro points
  induction points with
  | nil => intro _; exact ⟨[], rfl, List.Forall₂.nil⟩
  | cons p l ih =>
    intro hs
    rcases l with _ | ⟨q, l⟩
    · exact ⟨[], rfl, List.Forall₂.nil⟩
    · have hs' : SortedAlong k split trim abscissa σ prims (q :: l) :=
        ⟨fun a ha => hs.abscissas a (List.mem_cons_of_mem _ ha), (List.pairwise_cons.1 hs.increasing).2⟩
      obtain ⟨sections, h1, h2⟩ := ih hs'
      obtain ⟨a1, a2, a3⟩ := hs.abscissas p (by simp)
      obtain ⟨b1, b2, b3⟩ := hs.abscissas q (by simp)
      obtain ⟨hlt, hg⟩ := (List.pairwise_cons.1 hs.increasing).1 q (by simp)
      obtain ⟨ins, outs, q1, -, q3, -, q5⟩ := C164_extract k _ split trim abscissa prims p q _ _ a1 b1 a2 hlt b3 hg hch hpos
      have ho : orderWire k (1 / 10 ^ 6) ins = .ok ins := by
        unfold orderWire
        rw [if_pos ((C51_is_ordered k ins).2 q5.chain)]
      refine ⟨ins :: sections, ?_, List.Forall₂.cons ⟨q5, q3⟩ h2⟩
      rw [insideSections, q1]
      dsimp only
      rw [ho]
      dsimp only
      rw [h1]

omit [IsStrictOrderedRing K] in
lemma sections_total (p : P) (points : List P) (sections : List (List E)) (h : SectionsBetween k σ (p :: points) sections) (q : P)
    (hq : q ∈ (p :: points).getLast?) : (sections.map (wireLength k)).sum = σ q - σ p := by
  induction points generalizing p sections with
  | nil =>
    unfold SectionsBetween at h
    simp at h hq
    subst hq
    simp [h]
  | cons a l ih =>
    unfold SectionsBetween at h
    rw [List.tail_cons, List.zip_cons_cons] at h
    rcases h with _ | ⟨h1, h2⟩
    rw [List.map_cons, List.sum_cons, h1.2, ih a _ h2 (by rwa [List.getLast?_cons_cons] at hq)]
    ring

omit [IsStrictOrderedRing K] in
lemma upToOrientation_length {l l' : List E} (h : UpToOrientation k l l') : (l.map k.length).sum = (l'.map k.length).sum := by
  unfold UpToOrientation at h
  induction h with
  | nil => rfl
  | cons hab _ ih =>
    rw [List.map_cons, List.sum_cons, List.map_cons, List.sum_cons, ih]
    rcases hab with rfl | rfl
    · rfl
    · rw [k.reverse_length]

/-- **C165.** `split_with_sorted_points` on an open wire without degenerate edges, at points sorted along it: the wire is cut into one
section per point and next point (the ends of the wire being added to the points), from the one to the other; the lengths of the
sections add up to that of the wire. -/
theorem C165_open_wire [DecidableEq E] (split : E → P → Option E × Option E) (trim : E → P → P → E)
    (abscissa : P → Except WireError K) (σ : P → K) (prims : List E) (first last : E) (hf : first ∈ prims.head?) (hl : last ∈ prims.getLast?)
    (hopen : 1 / 10 ^ 6 < k.dist (k.start first) (k.fin last)) (points : List P)
    (hs : SortedAlong k split trim abscissa σ prims (completedPoints k first last points))
    (hzero : ∀ p ∈ (completedPoints k first last points).head?, σ p = 0)
    (hlen : ∀ p ∈ (completedPoints k first last points).getLast?, σ p = wireLength k prims)
    (hch : prims.IsChain (Follows k (1 / 10 ^ 6))) (hpos : ∀ e ∈ prims, 0 < k.length e) :
    ∃ sections, splitWithSortedPoints k split trim abscissa prims points = .ok sections ∧
      SectionsBetween k σ (completedPoints k first last points) sections ∧
      (sections.map (wireLength k)).sum = wireLength k prims := by
  have h10 : (0 : K) ≤ 1 / 10 ^ 6 := by positivity
  have hnc : ¬ isClose k (k.start first) (k.fin last) (1 / 10 ^ 6) = true := by
    rw [isClose_iff k h10]; exact not_le.2 hopen
  have hne : completedPoints k first last points ≠ [] := by
    unfold completedPoints
    rw [if_neg hnc]
    dsimp only
    by_cases h1 : inList k (k.start first) points = true
    · rw [if_pos h1]
      split_ifs
      · rintro rfl
        simp [inList] at h1
      · simp
    · rw [if_neg h1]
      split_ifs <;> simp
  have hsec : ∃ sections, splitWithSortedPoints k split trim abscissa prims points = .ok sections ∧
      SectionsBetween k σ (completedPoints k first last points) sections := by
    unfold splitWithSortedPoints
    rw [Option.mem_def] at hf hl
    rw [hf, hl]
    dsimp only
    rw [if_neg hnc]
    by_cases hall : (completedPoints k first last points).length = 2 ∧
        (∃ p ∈ (completedPoints k first last points)[0]?, isClose k p (k.start first) (1 / 10 ^ 6) = true) ∧
        (∃ q ∈ (completedPoints k first last points)[1]?, isClose k q (k.fin last) (1 / 10 ^ 6) = true)
    · rw [if_pos hall]
      refine ⟨_, rfl, ?_⟩
      obtain ⟨h2, ⟨p, hp, hpc⟩, q, hq, hqc⟩ := hall
      obtain ⟨p', q', hpq⟩ := List.length_eq_two.1 h2
      rw [hpq] at hp hq hzero hlen ⊢
      simp at hp hq hzero hlen
      subst hp hq
      rw [isClose_iff k h10] at hpc hqc
      refine List.Forall₂.cons ⟨⟨hch, ?_, ?_⟩, ?_⟩ List.Forall₂.nil
      · intro f hf'
        rw [hf] at hf'
        obtain rfl := Option.some.inj hf'
        exact hpc
      · intro l hl'
        rw [hl] at hl'
        obtain rfl := Option.some.inj hl'
        rw [k.dist_comm]
        exact hqc
      · rw [hzero, hlen, sub_zero]
    · rw [if_neg hall]
      exact insideSections_spec k prims hch hpos _ hs
  obtain ⟨sections, h1, h2⟩ := hsec
  refine ⟨sections, h1, h2, ?_⟩
  obtain ⟨p, l, hpl⟩ := List.exists_cons_of_ne_nil hne
  rw [hpl] at h2 hzero hlen
  have := sections_total k p l sections h2 _ (List.getLast?_eq_some_getLast (by simp))
  rw [this, hlen _ (List.getLast?_eq_some_getLast (by simp)), hzero p (by simp), sub_zero]

/-- **C165.** `split_with_sorted_points` on a contour (its ends are at the same place), at two points at least, sorted along it: one section per
point and next point, and a last one from the last point to the first one through the start of the contour: a chain; when its edges are longer
than the tolerance, it has the length of this part of the contour, so that all the sections together have the length of the contour. -/
theorem C165_contour [DecidableEq E] (split : E → P → Option E × Option E) (trim : E → P → P → E)
    (abscissa : P → Except WireError K) (σ : P → K) (prims : List E) (first last : E) (hf : first ∈ prims.head?) (hl : last ∈ prims.getLast?)
    (hclosed : k.dist (k.start first) (k.fin last) ≤ 1 / 10 ^ 6) (points : List P) (p0 pn : P) (hp0 : p0 ∈ points.head?)
    (hpn : pn ∈ points.getLast?) (htwo : 2 ≤ points.length)
    (hs : SortedAlong k split trim abscissa σ prims points)
    (hch : prims.IsChain (Follows k (1 / 10 ^ 6))) (hpos : ∀ e ∈ prims, 0 < k.length e)
    (hcut : ∀ outside, extractWithPoints k split trim abscissa prims pn p0 false = .ok outside → ∀ e ∈ outside, 1 / 10 ^ 6 < k.length e)
    (result : List (List E)) (hok : splitWithSortedPoints k split trim abscissa prims points = .ok result) :
    ∃ sections lastSection, result = sections ++ [lastSection] ∧ SectionsBetween k σ points sections ∧
      lastSection.IsChain (Follows k (1 / 10 ^ 6)) ∧ wireLength k lastSection = wireLength k prims - (σ pn - σ p0) ∧
      (result.map (wireLength k)).sum = wireLength k prims := by
  have h10 : (0 : K) ≤ 1 / 10 ^ 6 := by positivity
  have hc : isClose k (k.start first) (k.fin last) (1 / 10 ^ 6) = true := (isClose_iff k h10 _ _).2 hclosed
  have hcp : completedPoints k first last points = points := by
    unfold completedPoints; rw [if_pos hc]
  obtain ⟨sections, h1, h2⟩ := insideSections_spec k prims hch hpos points hs
  rw [Option.mem_def] at hf hl hp0 hpn
  unfold splitWithSortedPoints at hok
  rw [hf, hl] at hok
  dsimp only at hok
  rw [if_pos hc, hcp, hp0, hpn, h1] at hok
  dsimp only at hok
  obtain ⟨l, hpl⟩ : ∃ l, points = p0 :: l := by
    rcases points with _ | ⟨a, l⟩
    · simp at hp0
    · simp at hp0; exact ⟨l, by rw [hp0]⟩
  have hmem : pn ∈ l := by
    rw [hpl] at hpn htwo
    rcases l with _ | ⟨b, l⟩
    · simp at htwo
    · rw [List.getLast?_cons_cons] at hpn
      exact List.mem_of_getLast? hpn
  have hpair := hs.increasing
  rw [hpl, List.pairwise_cons] at hpair
  obtain ⟨hlt, hg⟩ := hpair.1 pn hmem
  obtain ⟨a1, a2, a3⟩ := hs.abscissas p0 (by rw [hpl]; simp)
  obtain ⟨b1, b2, b3⟩ := hs.abscissas pn (by rw [hpl]; exact List.mem_cons_of_mem _ hmem)
  obtain ⟨ins, outs, q1, q2, q3, q4, q5⟩ := C164_extract k _ split trim abscissa prims p0 pn _ _ a1 b1 a2 hlt b3 hg hch hpos
  have hsym : extractWithPoints k split trim abscissa prims pn p0 false = .ok outs := by
    rw [← q2]
    unfold extractWithPoints
    rw [C164_symmetric k split trim abscissa prims pn p0 _ _ b1 a1 hlt.ne']
  have hcut' := hcut outs hsym
  rw [hsym] at hok
  dsimp only at hok
  rcases ho : orderWire k (1 / 10 ^ 6) outs with err | ordered
  · rw [ho] at hok; cases hok
  rw [ho] at hok
  dsimp only at hok
  obtain rfl := Except.ok.inj hok
  obtain ⟨o1, o2⟩ := C51_order_wire k h10 outs ordered ho
  have hordered : wireLength k ordered = wireLength k outs := by
    rcases o2 with rfl | ⟨l', hl', hu⟩
    · rfl
    · rw [List.filter_eq_self.2 (fun e he => by simpa using hcut' e he)] at hl'
      rw [C52_length, C52_length, ← (hl'.map k.length).sum_eq]
      exact (upToOrientation_length k hu).symm
  have hlast : wireLength k ordered = wireLength k prims - (σ pn - σ p0) := by
    rw [hordered]; linarith
  refine ⟨sections, ordered, rfl, h2, (C51_is_ordered k ordered).1 o1, hlast, ?_⟩
  have htot : (sections.map (wireLength k)).sum = σ pn - σ p0 := by
    subst hpl
    exact sections_total k p0 l sections h2 pn hpn
  rw [List.map_append, List.sum_append, htot]
  simp [hlast]

/-- The points given are unchanged. -/
def C165_points_kept_full_statement : Prop :=
  ∀ (first last : ℚ × ℚ) (points : List ℚ), callerPoints C51_segments first last points = points

/-- **C165 (counterexample).** The list of points of the caller is changed when it contains the start of an open wire and not its end:
the end is appended to it; and it is unchanged otherwise. -/
theorem C165_points_changed_counterexample (first last : E) (points : List P) :
    (callerPoints k first last points ≠ points ↔ 1 / 10 ^ 6 < k.dist (k.start first) (k.fin last) ∧
      (∃ p ∈ points, k.dist (k.start first) p ≤ 1 / 10 ^ 6) ∧ ∀ p ∈ points, 1 / 10 ^ 6 < k.dist (k.fin last) p) ∧
    ¬ C165_points_kept_full_statement := by
  have h10 : (0 : K) ≤ 1 / 10 ^ 6 := by positivity
  refine ⟨?_, ?_⟩
  · unfold callerPoints
    by_cases hc : isClose k (k.start first) (k.fin last) (1 / 10 ^ 6) = true
    · rw [if_pos hc]
      rw [isClose_iff k h10] at hc
      simp only [ne_eq, not_true_eq_false, false_iff, not_and]
      intro h
      exact absurd hc (not_le.2 h)
    · rw [if_neg hc]
      rw [isClose_iff k h10, not_le] at hc
      by_cases h1 : inList k (k.start first) points = true
      · rw [if_pos h1]
        have h1' : ∃ p ∈ points, k.dist (k.start first) p ≤ 1 / 10 ^ 6 := by
          simpa only [inList, List.any_eq_true, decide_eq_true_eq] using h1
        by_cases h2 : inList k (k.fin last) points = true
        · rw [if_pos h2]
          have h2' : ∃ p ∈ points, k.dist (k.fin last) p ≤ 1 / 10 ^ 6 := by
            simpa only [inList, List.any_eq_true, decide_eq_true_eq] using h2
          simp only [ne_eq, not_true_eq_false, false_iff, not_and]
          intro _ _ h
          obtain ⟨p, hp, hd⟩ := h2'
          exact absurd hd (not_le.2 (h p hp))
        · rw [if_neg h2]
          have h2' : ∀ p ∈ points, 1 / 10 ^ 6 < k.dist (k.fin last) p := by
            intro p hp
            by_contra h
            exact h2 (by simp only [inList, List.any_eq_true, decide_eq_true_eq]; exact ⟨p, hp, not_lt.1 h⟩)
          exact ⟨fun _ => ⟨hc, h1', h2'⟩, fun _ => by simp⟩
      · rw [if_neg h1]
        simp only [ne_eq, not_true_eq_false, false_iff, not_and]
        rintro _ ⟨p, hp, hd⟩
        exact absurd (by simp only [inList, List.any_eq_true, decide_eq_true_eq]; exact ⟨p, hp, hd⟩) h1
  · intro h
    have := h (0, 1) (1, 3) [0, 2]
    revert this
    decide +kernel

/-- A wire cut at one point, and one which is not cut. -/
example : splitWithSortedPoints C51_segments C164_split (fun _ p q => (p, q)) (fun p => .ok p) [(0, 1), (1, 3), (3, 6)] [2] =
      .ok [[(0, 1), (1, 2)], [(2, 3), (3, 6)]] ∧
    splitWithSortedPoints C51_segments C164_split (fun _ p q => (p, q)) (fun p => .ok p) [(0, 1), (1, 3), (3, 6)] [] =
      .ok [[(0, 1), (1, 3), (3, 6)]] := by
  decide +kernel

/-- A closed one: the way there and the way back between 0 and 3, cut at the abscissas 1 and 4. -/
example : splitWithSortedPoints C51_segments C164_split (fun _ p q => (p, q)) (fun p => .ok (if p = 2 then 4 else p))
    [(0, 3), (3, 0)] [1, 2] = .ok [[(1, 3), (3, 2)], [(2, 0), (0, 1)]] := by
  decide +kernel

lemma C165_split_good (a b p : ℚ) (hab : a < b) (h1 : a ≤ p) (h2 : p ≤ b) :
    SplitsAt C51_segments (1 / 10 ^ 6) (C164_split (a, b) p) (a, b) p (p - a) := by
  have hl : C51_segments.length (a, b) = b - a := by
    change |a - b| = b - a
    rw [abs_sub_comm, abs_of_pos (by linarith)]
  have hself : ∀ x : ℚ, C51_segments.dist x x ≤ 1 / 10 ^ 6 := by
    intro x
    change |x - x| ≤ _
    rw [sub_self, abs_zero]; norm_num
  by_cases hpa : p = a
  · subst hpa
    refine ⟨?_, ?_, ?_, ?_⟩
    · simp [C164_split]
    · rw [hl]; simp [C164_split]; intro h; linarith
    · simp [C164_split]
    · intro x hx
      simp [C164_split] at hx
      subst hx
      exact ⟨by rw [hl]; ring, rfl, hself _⟩
  · by_cases hpb : p = b
    · subst hpb
      refine ⟨?_, ?_, ?_, ?_⟩
      · simp [C164_split, hpa]; intro h; apply hpa; linarith
      · rw [hl]; simp [C164_split, hpa]
      · intro x hx
        simp [C164_split, hpa] at hx
        subst hx
        exact ⟨hl, rfl, hself _⟩
      · simp [C164_split, hpa]
    · refine ⟨?_, ?_, ?_, ?_⟩
      · simp [C164_split, hpa, hpb]; intro h; apply hpa; linarith
      · rw [hl]; simp [C164_split, hpa, hpb]
      · intro x hx
        simp [C164_split, hpa, hpb] at hx
        subst hx
        refine ⟨?_, rfl, hself _⟩
        change |a - p| = p - a
        rw [abs_sub_comm, abs_of_nonneg (by linarith)]
      · intro x hx
        simp [C164_split, hpa, hpb] at hx
        subst hx
        refine ⟨?_, rfl, hself _⟩
        rw [hl]
        change |p - b| = b - a - (p - a)
        rw [abs_sub_comm, abs_of_nonneg (by linarith)]; ring

lemma C165_cuts_good (s t : ℚ) (hst : s < t) :
    GoodCuts C51_segments (1 / 10 ^ 6) C164_split (fun _ p q => (p, q)) s t s t 0 [(0, 1), (1, 3), (3, 6)] := by
  have hself : ∀ x : ℚ, C51_segments.dist x x ≤ 1 / 10 ^ 6 := by
    intro x
    change |x - x| ≤ _
    rw [sub_self, abs_zero]; norm_num
  have l1 : C51_segments.length (0, 1) = 1 := by decide +kernel
  have l2 : C51_segments.length (1, 3) = 2 := by decide +kernel
  have l3 : C51_segments.length (3, 6) = 3 := by decide +kernel
  have key : ∀ (before : List (ℚ × ℚ)) (e : ℚ × ℚ) (after : List (ℚ × ℚ)), [(0, 1), (1, 3), (3, 6)] = before ++ e :: after →
      0 + (before.map C51_segments.length).sum = e.1 ∧ e.1 < e.2 ∧ C51_segments.length e = e.2 - e.1 := by
    intro before e after he
    rcases before with _ | ⟨a, _ | ⟨b, _ | ⟨c, _ | ⟨d, l⟩⟩⟩⟩
    all_goals simp at he
    · obtain ⟨rfl, -⟩ := he
      rw [l1]; norm_num
    · obtain ⟨rfl, rfl, -⟩ := he
      rw [l2]; norm_num [l1]
    · obtain ⟨rfl, rfl, rfl, -⟩ := he
      rw [l3]; norm_num [l1, l2]
  have cut : ∀ p : ℚ, ∀ (before : List (ℚ × ℚ)) (e : ℚ × ℚ) (after : List (ℚ × ℚ)), [(0, 1), (1, 3), (3, 6)] = before ++ e :: after →
      0 + (before.map C51_segments.length).sum ≤ p → p ≤ 0 + (before.map C51_segments.length).sum + C51_segments.length e →
      SplitsAt C51_segments (1 / 10 ^ 6) (C164_split e p) e p (p - (0 + (before.map C51_segments.length).sum)) := by
    intro p before e after he h1 h2
    obtain ⟨k1, k2, k3⟩ := key before e after he
    rw [k1] at h1 h2 ⊢
    exact C165_split_good e.1 e.2 p k2 h1 (by rw [k3] at h2; linarith)
  refine ⟨cut s, cut t, ?_⟩
  intro before e after he h1 h2
  refine ⟨?_, hself _, hself _⟩
  change |s - t| = t - s
  rw [abs_sub_comm, abs_of_pos (by linarith)]

/-- The hypotheses of `C165_open_wire` are met. -/
example : ∃ sections, splitWithSortedPoints C51_segments C164_split (fun _ p q => (p, q)) (fun p => .ok p) [(0, 1), (1, 3), (3, 6)] [1 / 2, 3] =
    .ok sections ∧ (sections.map (wireLength C51_segments)).sum = wireLength C51_segments [(0, 1), (1, 3), (3, 6)] := by
  have hc : completedPoints C51_segments (0, 1) (3, 6) [1 / 2, 3] = [0, 1 / 2, 3, 6] := by decide +kernel
  obtain ⟨sections, h1, -, h2⟩ := C165_open_wire C51_segments C164_split (fun _ p q => (p, q)) (fun p => .ok p) id
    [(0, 1), (1, 3), (3, 6)] (0, 1) (3, 6) rfl rfl (by decide +kernel) [1 / 2, 3]
    (by
      rw [hc]
      refine ⟨by decide +kernel, ?_⟩
      have : [(0 : ℚ), 1 / 2, 3, 6].Pairwise fun p q => p < q := by decide +kernel
      exact this.imp fun {p q} hpq => ⟨hpq, C165_cuts_good p q hpq⟩)
    (by rw [hc]; decide +kernel) (by rw [hc]; decide +kernel)
    (by simp only [List.isChain_cons_cons, List.isChain_singleton, and_true]; unfold Follows; decide +kernel)
    (by decide +kernel)
  exact ⟨sections, h1, h2⟩

end Volmdlr.Wire
