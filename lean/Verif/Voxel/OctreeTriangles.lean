import Verif.Voxel.VoxelizeProps
import Verif.Voxel.OctreeBool

/-!
# C138: octrees of triangles
-/

namespace Volmdlr
open Voxel

variable {K : Type} [Field K] [LinearOrder K] [IsStrictOrderedRing K] [FloorRing K]

namespace Voxel

/-- The triangle passes the test at every voxel on the path. -/
def PathHit (vs : K) (t : Tri3 K) : ℕ → (Fin 3 → K) → List (Fin 8) → Prop
  | 0, _, [] => True
  | 0, _, _ :: _ => False
  | _ + 1, _, [] => False
  | n + 1, c, i :: p => triangleIntersectsVoxelApi t (childCentre (vs * 2 ^ n) c i) (fun _ => vs * 2 ^ n / 2) = true ∧
      PathHit vs t n (childCentre (vs * 2 ^ n) c i) p

lemma subdivideTriangles_has (vs : K) (n : ℕ) (ts : List (ℕ × Tri3 K)) (c : Fin 3 → K) (p : List (Fin 8)) :
    Oct.has n (subdivideTriangles vs n ts c) p = true ↔ ∃ t ∈ ts, PathHit vs t.2 n c p := by
  induction n generalizing ts c p with
  | zero =>
    cases p with
    | nil =>
      show (subdivideTriangles vs 0 ts c).truthy = true ↔ _
      cases ts with
      | nil => simp [subdivideTriangles, Oct.truthy]
      | cons t ts =>
        simp only [subdivideTriangles, Oct.truthy, PathHit, and_true]
        refine ⟨fun _ => ⟨t, by simp⟩, fun _ => rfl⟩
    | cons i p => simp [Oct.has, PathHit]
  | succ n ih =>
    cases p with
    | nil => simp [Oct.has, PathHit]
    | cons i p =>
      have e : Oct.has (n + 1) (subdivideTriangles vs (n + 1) ts c) (i :: p) =
          Oct.has n (if (ts.filter fun t => triangleIntersectsVoxelApi t.2 (childCentre (vs * 2 ^ n) c i) fun _ => vs * 2 ^ n / 2).isEmpty then
            Oct.leaf [] else subdivideTriangles vs n (ts.filter fun t => triangleIntersectsVoxelApi t.2 (childCentre (vs * 2 ^ n) c i) fun _ => vs * 2 ^ n / 2)
              (childCentre (vs * 2 ^ n) c i)) p := by
        show Oct.has n ((subdivideTriangles vs (n + 1) ts c).child i) p = _
        rw [subdivideTriangles]
        dsimp only
        split_ifs with h1 h2 h2
        · rfl
        · have := h1 i
          rw [if_neg h2] at this
          rw [has_of_not_truthy n _ this, has_of_not_truthy n _ (by rfl)]
        · simp only [Oct.child, h2, if_true]
        · simp only [Oct.child, h2]
          rfl
      rw [e]
      by_cases hemp : (ts.filter fun t => triangleIntersectsVoxelApi t.2 (childCentre (vs * 2 ^ n) c i) fun _ => vs * 2 ^ n / 2).isEmpty
      · rw [if_pos hemp, has_empty]
        constructor
        · intro h; cases h
        rintro ⟨t, ht, h1, h2⟩
        rw [List.isEmpty_iff, List.filter_eq_nil_iff] at hemp
        exact absurd h1 (hemp t ht)
      · rw [if_neg hemp, ih]
        refine exists_congr fun t => ?_
        rw [List.mem_filter, and_assoc]
        rfl

lemma onGrid_path {vs : K} (hvs : 0 < vs) (n : ℕ) (c q : Fin 3 → K) (h : OnGrid vs n c q) :
    ∃ p : List (Fin 8), p.length = n ∧ pathCentre (vs * 2 ^ n) c p = q ∧
      ∀ t : Tri3 K, TriMeetsBox t q (fun _ => vs / 2) → PathHit vs t n c p := by
  induction n generalizing c with
  | zero =>
    refine ⟨[], rfl, ?_, fun t _ => trivial⟩
    funext a
    obtain ⟨k, hk, he⟩ := h a
    have : k = 0 := by simpa using hk
    rw [he, this]
    simp [pathCentre]
  | succ n ih =>
    have hch := h.child hvs
    obtain ⟨p, h1, h2, h3⟩ := ih _ hch
    have hsz : vs * 2 ^ (n + 1) / 2 = vs * 2 ^ n := by rw [pow_succ]; ring
    refine ⟨octantOf c q :: p, by simp [h1], by rw [pathCentre, hsz]; exact h2, fun t ht => ⟨C44_never_misses _ _ _ ?_, h3 t ht⟩⟩
    obtain ⟨r, hr, hb⟩ := ht
    refine ⟨r, hr, fun a => ?_⟩
    obtain ⟨k, hk, he⟩ := hch a
    have hk1 : (k : K) + 1 ≤ 2 ^ n := by exact_mod_cast hk
    have hk0 : (0 : K) ≤ k := Nat.cast_nonneg k
    have hba := hb a
    rw [he] at hba
    generalize childCentre (vs * 2 ^ n) c (octantOf c q) a = x at *
    generalize (2 : K) ^ n = w at *
    constructor
    · nlinarith [hba.1]
    · nlinarith [hba.2]

lemma path_onGrid (vs : K) (n : ℕ) (c : Fin 3 → K) (p : List (Fin 8)) (hp : p.length = n) : OnGrid vs n c (pathCentre (vs * 2 ^ n) c p) := by
  induction n generalizing c p with
  | zero =>
    rw [List.length_eq_zero_iff] at hp
    subst hp
    exact fun a => ⟨0, by norm_num, by simp [pathCentre]⟩
  | succ n ih =>
    cases p with
    | nil => cases hp
    | cons i p =>
      have hsz : vs * 2 ^ (n + 1) / 2 = vs * 2 ^ n := by rw [pow_succ]; ring
      rw [pathCentre, hsz]
      intro a
      obtain ⟨k, hk, he⟩ := ih (childCentre (vs * 2 ^ n) c i) p (by simpa using hp) a
      rw [he]
      refine ⟨k + octBit i a * 2 ^ n, ?_, ?_⟩
      · rcases octBit_cases i a with hb | hb <;> rw [hb, pow_succ] <;> omega
      · unfold childCentre
        push_cast
        rw [pow_succ]
        ring

/-- The last test on a path is that of the voxel. -/
lemma pathHit_last {vs : K} {t : Tri3 K} {n : ℕ} (hn : 0 < n) {c : Fin 3 → K} {p : List (Fin 8)} (h : PathHit vs t n c p) :
    triangleIntersectsVoxelApi t (pathCentre (vs * 2 ^ n) c p) (fun _ => vs / 2) = true := by
  induction n generalizing c p with
  | zero => omega
  | succ n ih =>
    cases p with
    | nil => cases h
    | cons i p =>
      have hsz : vs * 2 ^ (n + 1) / 2 = vs * 2 ^ n := by rw [pow_succ]; ring
      rw [pathCentre, hsz]
      rcases Nat.eq_zero_or_pos n with rfl | hn
      · cases p with
        | nil => have := h.1; simpa [pathCentre] using this
        | cons j p => exact h.2.elim
      · exact ih hn h.2

lemma pixel_near {t : (K × K) × (K × K) × (K × K)} {c e : K × K} (h : triangle2dIntersectsPixel t c e = true) :
    (c.1 - e.1 ≤ max (max t.1.1 t.2.1.1) t.2.2.1 ∧ min (min t.1.1 t.2.1.1) t.2.2.1 ≤ c.1 + e.1) ∧
    (c.2 - e.2 ≤ max (max t.1.2 t.2.1.2) t.2.2.2 ∧ min (min t.1.2 t.2.1.2) t.2.2.2 ≤ c.2 + e.2) := by
  by_contra hn
  have : boundingRectanglesOverlap (min (min t.1.1 t.2.1.1) t.2.2.1, min (min t.1.2 t.2.1.2) t.2.2.2)
      (max (max t.1.1 t.2.1.1) t.2.2.1, max (max t.1.2 t.2.1.2) t.2.2.2) (c.1 - e.1, c.2 - e.2) (c.1 + e.1, c.2 + e.2) = false := by
    unfold boundingRectanglesOverlap
    dsimp only
    generalize max (max t.1.1 t.2.1.1) t.2.2.1 = a at *
    generalize max (max t.1.2 t.2.1.2) t.2.2.2 = b at *
    generalize min (min t.1.1 t.2.1.1) t.2.2.1 = a' at *
    generalize min (min t.1.2 t.2.1.2) t.2.2.2 = b' at *
    split_ifs with h1 h2
    · rfl
    · rfl
    · push Not at h1 h2
      exact absurd ⟨⟨h1.1, h1.2⟩, h2.1, h2.2⟩ hn
  unfold triangle2dIntersectsPixel at h
  dsimp only at h
  rw [this] at h
  simp at h

/-- The public test finds only triangles whose bounding box meets the voxel. -/
lemma api_near {t : Tri3 K} {c : Fin 3 → K} {h : K} (hh : 0 ≤ h) (htest : triangleIntersectsVoxelApi t c (fun _ => h) = true) (i : Fin 3) :
    c i - h ≤ max (max (t.1 i) (t.2.1 i)) (t.2.2 i) ∧ min (min (t.1 i) (t.2.1 i)) (t.2.2 i) ≤ c i + h := by
  unfold triangleIntersectsVoxelApi at htest
  rw [Bool.or_eq_true] at htest
  rcases htest with htest | htest
  · exact intersects_near htest i
  have const : ∀ x y z w : K, x = y → y = z → (x = w - h ∨ x = w + h) → w - h ≤ max (max x y) z ∧ min (min x y) z ≤ w + h := by
    rintro x y z w rfl rfl hx
    simp only [max_self, min_self]
    rcases hx with rfl | rfl <;> constructor <;> linarith
  have hi : i = 0 ∨ i = 1 ∨ i = 2 := by fin_cases i <;> simp
  unfold triangleInterfacesVoxel at htest
  split_ifs at htest with h1 h2 h3
  · have := pixel_near h1.2.2
    rcases hi with rfl | rfl | rfl
    · exact const _ _ _ _ h1.1.1 h1.1.2 h1.2.1
    · exact this.1
    · exact this.2
  · have := pixel_near h2.2.2
    rcases hi with rfl | rfl | rfl
    · exact this.1
    · exact const _ _ _ _ h2.1.1 h2.1.2 h2.2.1
    · exact this.2
  · have := pixel_near h3.2.2
    rcases hi with rfl | rfl | rfl
    · exact this.1
    · exact this.2
    · exact const _ _ _ _ h3.1.1 h3.1.2 h3.2.1

lemma le_maxOf3 (f : Fin 3 → K) (i : Fin 3) : f i ≤ maxOf3 f := by
  unfold maxOf3
  have hi : i = 0 ∨ i = 1 ∨ i = 2 := by fin_cases i <;> simp
  rcases hi with rfl | rfl | rfl
  · exact (le_max_left _ _).trans (le_max_left _ _)
  · exact (le_max_right _ _).trans (le_max_left _ _)
  · exact le_max_right _ _

/-- The root voxel is large enough. -/
lemma depth_covers {vs : K} (hvs : 0 < vs) (lo hi : Fin 3 → K) (hle : ∀ i, lo i ≤ hi i) :
    ∃ E, octreeDepthTriangles vs lo hi = E + 1 ∧ ∀ i, 2 - ⌊lo i / vs⌋ ≤ ((2 ^ E : ℕ) : ℤ) ∧ ⌊hi i / vs⌋ + 2 ≤ ((2 ^ E : ℕ) : ℤ) := by
  set R : K := maxOf3 (fun i => max |((⌊lo i / vs⌋ : K) - 2) * vs| |((⌊hi i / vs⌋ : K) + 2) * vs|) * 2 with hR
  have hD : octreeDepthTriangles vs lo hi = Nat.clog 2 ⌊R / vs⌋.toNat := rfl
  have hclog := Nat.le_pow_clog (b := 2) (by norm_num) ⌊R / vs⌋.toNat
  rw [← hD] at hclog
  have key : ∀ i, 2 * (2 - ⌊lo i / vs⌋) ≤ ((2 ^ octreeDepthTriangles vs lo hi : ℕ) : ℤ) ∧
      2 * (⌊hi i / vs⌋ + 2) ≤ ((2 ^ octreeDepthTriangles vs lo hi : ℕ) : ℤ) := by
    intro i
    have hi' := le_maxOf3 (fun i => max |((⌊lo i / vs⌋ : K) - 2) * vs| |((⌊hi i / vs⌋ : K) + 2) * vs|) i
    have h1 := (neg_le_abs _).trans ((le_max_left |((⌊lo i / vs⌋ : K) - 2) * vs| |((⌊hi i / vs⌋ : K) + 2) * vs|).trans hi')
    have h2 := (le_abs_self _).trans ((le_max_right |((⌊lo i / vs⌋ : K) - 2) * vs| |((⌊hi i / vs⌋ : K) + 2) * vs|).trans hi')
    have h3 : 2 * (2 - ⌊lo i / vs⌋) ≤ ⌊R / vs⌋ := by
      rw [Int.le_floor, le_div_iff₀ hvs, hR]
      push_cast
      linarith
    have h4 : 2 * (⌊hi i / vs⌋ + 2) ≤ ⌊R / vs⌋ := by
      rw [Int.le_floor, le_div_iff₀ hvs, hR]
      push_cast
      linarith
    have h5 : (⌊R / vs⌋.toNat : ℤ) ≤ ((2 ^ octreeDepthTriangles vs lo hi : ℕ) : ℤ) := by exact_mod_cast hclog
    omega
  rcases Nat.eq_zero_or_pos (octreeDepthTriangles vs lo hi) with h0 | h0
  · exfalso
    have h1 := key 0
    rw [h0] at h1
    have h2 : ⌊lo 0 / vs⌋ ≤ ⌊hi 0 / vs⌋ := Int.floor_mono (by have := hle 0; gcongr)
    simp at h1
    omega
  · obtain ⟨E, hE⟩ : ∃ E, octreeDepthTriangles vs lo hi = E + 1 := ⟨_, (Nat.succ_pred_eq_of_pos h0).symm⟩
    refine ⟨E, hE, fun i => ?_⟩
    have := key i
    rw [hE, pow_succ] at this
    push_cast at this ⊢
    omega

lemma near_onGrid {vs : K} (hvs : 0 < vs) {lo hi : Fin 3 → K} {E : ℕ}
    (hE : ∀ i, 2 - ⌊lo i / vs⌋ ≤ ((2 ^ E : ℕ) : ℤ) ∧ ⌊hi i / vs⌋ + 2 ≤ ((2 ^ E : ℕ) : ℤ)) {k : Fin 3 → ℤ}
    (h : ∀ i, (k i : K) * vs ≤ hi i ∧ lo i ≤ ((k i : K) + 1) * vs) : OnGrid vs (E + 1) (fun _ => 0) (voxelCentre vs k) := by
  intro a
  have h1 : ⌊lo a / vs⌋ ≤ k a + 1 := by
    have : lo a / vs ≤ ((k a + 1 : ℤ) : K) := by
      rw [div_le_iff₀ hvs]; push_cast; exact (h a).2
    have h3 := (Int.floor_le (lo a / vs)).trans this
    exact_mod_cast h3
  have h2 : k a ≤ ⌊hi a / vs⌋ := by
    rw [Int.le_floor, le_div_iff₀ hvs]
    exact (h a).1
  have hEa := hE a
  refine ⟨(k a + ((2 ^ E : ℕ) : ℤ)).toNat, ?_, ?_⟩
  · rw [pow_succ]
    omega
  · have h3 : (((k a + ((2 ^ E : ℕ) : ℤ)).toNat : ℕ) : ℤ) = k a + ((2 ^ E : ℕ) : ℤ) := by omega
    have h4 : ((((k a + ((2 ^ E : ℕ) : ℤ)).toNat : ℕ) : ℤ) : K) = ((k a + ((2 ^ E : ℕ) : ℤ) : ℤ) : K) := by rw [h3]
    push_cast at h4
    have hk : (((k a + ((2 ^ E : ℕ) : ℤ)).toNat : ℕ) : K) = (k a : K) + 2 ^ E := by exact_mod_cast h4
    unfold voxelCentre
    rw [hk, pow_succ]
    ring

lemma onGrid_voxel {vs : K} {E : ℕ} {p : Fin 3 → K} (h : OnGrid vs (E + 1) (fun _ => 0) p) : ∃ k, p = voxelCentre vs k := by
  choose k hk he using h
  refine ⟨fun a => (k a : ℤ) - ((2 ^ E : ℕ) : ℤ), funext fun a => ?_⟩
  rw [he a]
  unfold voxelCentre
  push_cast
  rw [pow_succ]
  ring

lemma wf_subdivideTriangles (vs : K) (n : ℕ) (ts : List (ℕ × Tri3 K)) (c : Fin 3 → K) : WF n (subdivideTriangles vs n ts c) := by
  induction n generalizing ts c with
  | zero => exact ⟨_, rfl⟩
  | succ n ih =>
    rw [subdivideTriangles]
    dsimp only
    split_ifs
    · exact Or.inl rfl
    · refine Or.inr ⟨_, rfl, fun i => ?_⟩
      split_ifs
      · exact WF_empty n
      · exact ih _ _

lemma trianglesMin_le_max (t : Tri3 K) (ts : List (Tri3 K)) (i : Fin 3) : trianglesMin t ts i ≤ trianglesMax t ts i :=
  (trianglesMin_le t ts i t (by simp)).trans (((min_le_left _ _).trans (min_le_left _ _)).trans
    (((le_max_left _ _).trans (le_max_left _ _)).trans (le_trianglesMax t ts i t (by simp))))

/-- The voxels of the octree. -/
lemma octree_spec (l : List (Tri3 K)) (hl : l ≠ []) {vs : K} (hvs : 0 < vs) :
    ∃ v, OctVox.fromTriangles l vs = .ok v ∧ v.size = vs ∧ v.triangles = l.length ∧ GoodOctree v ∧
      ∀ q, q ∈ v.centres ↔ ∃ p, (∃ t ∈ l, PathHit vs t v.depth (fun _ => 0) p) ∧ q = pathCentre (vs * 2 ^ v.depth) (fun _ => 0) p := by
  rcases l with _ | ⟨t, ts⟩
  · exact absurd rfl hl
  obtain ⟨E, hE, _⟩ := depth_covers hvs (trianglesMin t ts) (trianglesMax t ts) (trianglesMin_le_max t ts)
  refine ⟨_, rfl, rfl, rfl, ⟨rfl, ?_, hvs, wf_subdivideTriangles _ _ _ _⟩, fun q => ?_⟩
  · show 0 < octreeDepthTriangles vs (trianglesMin t ts) (trianglesMax t ts)
    omega
  · unfold OctVox.centres
    dsimp only
    rw [leafCentres_has _ _ _ _ (Or.inl (by omega))]
    refine exists_congr fun p => and_congr_left fun _ => ?_
    rw [subdivideTriangles_has]
    constructor
    · rintro ⟨r, hr, h⟩
      exact ⟨r.2, (List.of_mem_zip hr).2, h⟩
    · rintro ⟨r, hr, h⟩
      obtain ⟨n, hn, rfl⟩ := List.mem_iff_getElem.1 hr
      refine ⟨(n, (t :: ts)[n]), ?_, h⟩
      rw [List.mem_iff_getElem]
      exact ⟨n, by simpa using hn, by simp⟩

end Voxel

/-- **C138 (never misses).** For any list of triangles and any voxel size the octree has every voxel of the grid that shares a
point with one of the triangles, also with a triangle that has equal vertices. -/
theorem C138_octree_never_misses (l : List (Tri3 K)) (hl : l ≠ []) {vs : K} (hvs : 0 < vs) :
    ∃ v, OctVox.fromTriangles l vs = .ok v ∧ v.size = vs ∧ ∀ t ∈ l, ∀ k, MeetsVoxel vs t k → voxelCentre vs k ∈ v.centres := by
  obtain ⟨v, h1, h2, _, _, h4⟩ := octree_spec l hl hvs
  refine ⟨v, h1, h2, fun t ht k hk => (h4 _).2 ?_⟩
  rcases l with _ | ⟨r, rs⟩
  · exact absurd rfl hl
  obtain ⟨E, hE, hcov⟩ := depth_covers hvs (trianglesMin r rs) (trianglesMax r rs) (trianglesMin_le_max r rs)
  have hd : v.depth = E + 1 := by
    rw [← hE]
    cases h1
    rfl
  have hgrid : OnGrid vs (E + 1) (fun _ => 0) (voxelCentre vs k) := by
    refine near_onGrid hvs hcov fun i => ?_
    have h5 := meets_near hk i
    exact ⟨h5.1.trans (le_trianglesMax r rs i t ht), (trianglesMin_le r rs i t ht).trans h5.2⟩
  obtain ⟨p, _, hp, hhit⟩ := onGrid_path hvs _ _ _ hgrid
  rw [hd]
  exact ⟨p, ⟨t, ht, hhit t hk⟩, hp.symm⟩

/-- **C138 (no far voxels).** Every voxel of the octree is a voxel of the grid that shares a point with the bounding box of one
of the triangles. -/
theorem C138_octree_no_far_voxels (l : List (Tri3 K)) (hl : l ≠ []) {vs : K} (hvs : 0 < vs) :
    ∃ v, OctVox.fromTriangles l vs = .ok v ∧ ∀ q ∈ v.centres, ∃ k, q = voxelCentre vs k ∧ ∃ t ∈ l, NearVoxel vs t k := by
  obtain ⟨v, h1, h2, _, h3, h4⟩ := octree_spec l hl hvs
  refine ⟨v, h1, fun q hq => ?_⟩
  obtain ⟨p, ⟨t, ht, hhit⟩, rfl⟩ := (h4 q).1 hq
  have hlen : p.length = v.depth := by
    have : ∀ (n : ℕ) (c : Fin 3 → K) (p : List (Fin 8)), PathHit vs t n c p → p.length = n := by
      intro n
      induction n with
      | zero => intro c p h; cases p with
        | nil => rfl
        | cons i p => cases h
      | succ n ih => intro c p h; cases p with
        | nil => cases h
        | cons i p => simp [ih _ _ h.2]
    exact this _ _ _ hhit
  have hg := path_onGrid vs v.depth (fun _ => 0) p hlen
  have htest := pathHit_last h3.depth hhit
  obtain ⟨E, hE⟩ : ∃ E, v.depth = E + 1 := ⟨_, (Nat.succ_pred_eq_of_pos h3.depth).symm⟩
  generalize pathCentre (vs * 2 ^ v.depth) (fun _ => 0) p = q at *
  rw [hE] at hg
  obtain ⟨k, rfl⟩ := onGrid_voxel hg
  refine ⟨k, rfl, t, ht, fun i => ?_⟩
  have := api_near (by linarith) htest i
  unfold voxelCentre at this
  rw [show ((k i : K) + 1 / 2) * vs - vs / 2 = k i * vs by ring, show ((k i : K) + 1 / 2) * vs + vs / 2 = (k i + 1) * vs by ring] at this
  exact this

/-- **C138 (good octrees).** The octree of a list of triangles can be used in the Boolean operations of C41: it is centred at the
origin, has at least one level and has its leaves at the maximal depth only; it knows all the triangles. -/
theorem C138_octree_good (l : List (Tri3 K)) (hl : l ≠ []) {vs : K} (hvs : 0 < vs) :
    ∃ v, OctVox.fromTriangles l vs = .ok v ∧ GoodOctree v ∧ v.triangles = l.length := by
  obtain ⟨v, h1, _, h2, h3, _⟩ := octree_spec l hl hvs
  exact ⟨v, h1, h3, h2⟩

/-- **C138 (order of the triangles).** Lists with the same triangles, in any order, have octrees with the same voxels. -/
theorem C138_octree_order_irrelevant (l l' : List (Tri3 K)) (hl : l.Perm l') (hne : l ≠ []) {vs : K} (hvs : 0 < vs) :
    ∃ v v', OctVox.fromTriangles l vs = .ok v ∧ OctVox.fromTriangles l' vs = .ok v' ∧ v.depth = v'.depth ∧ v.centres = v'.centres := by
  have hne' : l' ≠ [] := fun h => hne (by rw [h] at hl; exact hl.eq_nil)
  obtain ⟨v, h1, _, _, _, h4⟩ := octree_spec l hne hvs
  obtain ⟨v', h1', _, _, _, h4'⟩ := octree_spec l' hne' hvs
  have hd : v.depth = v'.depth := by
    rcases l with _ | ⟨t, ts⟩
    · exact absurd rfl hne
    rcases l' with _ | ⟨t', ts'⟩
    · exact absurd rfl hne'
    have hmin : trianglesMin t ts = trianglesMin t' ts' := by
      funext i
      have att : ∀ (t : Tri3 K) (ts : List (Tri3 K)), ∃ r ∈ t :: ts, trianglesMin t ts i = triMin r i := by
        intro t ts
        unfold trianglesMin
        rw [← List.foldl_map (f := fun r => triMin r i) (g := min)]
        have : ∀ (a : K) (xs : List K), xs.foldl min a = a ∨ xs.foldl min a ∈ xs := by
          intro a xs
          induction xs generalizing a with
          | nil => exact Or.inl rfl
          | cons x xs ih =>
            rcases ih (min a x) with h | h
            · rcases min_choice a x with h' | h'
              · left; rw [List.foldl_cons, h, h']
              · right; rw [List.foldl_cons, h, h']; exact List.mem_cons_self
            · right; exact List.mem_cons_of_mem _ h
        rcases this (triMin t i) (ts.map fun r => triMin r i) with h | h
        · exact ⟨t, by simp, h⟩
        · obtain ⟨r, hr, he⟩ := List.mem_map.1 h
          exact ⟨r, List.mem_cons_of_mem _ hr, he.symm⟩
      obtain ⟨r, hr, he⟩ := att t ts
      obtain ⟨r', hr', he'⟩ := att t' ts'
      apply le_antisymm
      · rw [he']; exact trianglesMin_le t ts i r' (hl.mem_iff.2 hr')
      · rw [he]; exact trianglesMin_le t' ts' i r (hl.mem_iff.1 hr)
    have hmax : trianglesMax t ts = trianglesMax t' ts' := by
      funext i
      have att : ∀ (t : Tri3 K) (ts : List (Tri3 K)), ∃ r ∈ t :: ts, trianglesMax t ts i = triMax r i := by
        intro t ts
        unfold trianglesMax
        rw [← List.foldl_map (f := fun r => triMax r i) (g := max)]
        have : ∀ (a : K) (xs : List K), xs.foldl max a = a ∨ xs.foldl max a ∈ xs := by
          intro a xs
          induction xs generalizing a with
          | nil => exact Or.inl rfl
          | cons x xs ih =>
            rcases ih (max a x) with h | h
            · rcases max_choice a x with h' | h'
              · left; rw [List.foldl_cons, h, h']
              · right; rw [List.foldl_cons, h, h']; exact List.mem_cons_self
            · right; exact List.mem_cons_of_mem _ h
        rcases this (triMax t i) (ts.map fun r => triMax r i) with h | h
        · exact ⟨t, by simp, h⟩
        · obtain ⟨r, hr, he⟩ := List.mem_map.1 h
          exact ⟨r, List.mem_cons_of_mem _ hr, he.symm⟩
      obtain ⟨r, hr, he⟩ := att t ts
      obtain ⟨r', hr', he'⟩ := att t' ts'
      apply le_antisymm
      · rw [he]; exact le_trianglesMax t' ts' i r (hl.mem_iff.1 hr)
      · rw [he']; exact le_trianglesMax t ts i r' (hl.mem_iff.2 hr')
    cases h1
    cases h1'
    show octreeDepthTriangles vs _ _ = octreeDepthTriangles vs _ _
    rw [hmin, hmax]
  refine ⟨v, v', h1, h1', hd, ?_⟩
  ext q
  rw [h4, h4', hd]
  refine exists_congr fun p => and_congr_left fun _ => exists_congr fun t => ?_
  rw [hl.mem_iff]

/-- Without triangles `from_triangles` fails. -/
example (vs : ℚ) : OctVox.fromTriangles ([] : List (Tri3 ℚ)) vs = .error .valueError := rfl

/-- A degenerate triangle that meets a voxel: the octree has this voxel, the matrix based voxelization does not (C134). -/
example : ¬ Proper ((![0, 0, 0], ![0, 0, 0], ![3, 1, 2]) : Tri3 ℚ) ∧ MeetsVoxel 1 ((![0, 0, 0], ![0, 0, 0], ![3, 1, 2]) : Tri3 ℚ) ![0, 0, 0] := by
  refine ⟨by decide +kernel, ![0, 0, 0], ⟨1, 0, 0, by norm_num, by norm_num, by norm_num, by norm_num, fun i => ?_⟩, fun i => ?_⟩
  · fin_cases i <;> simp
  · fin_cases i <;> simp [voxelCentre]

end Volmdlr
