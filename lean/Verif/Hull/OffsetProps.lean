import Verif.Hull.PolyProps
import Verif.Fillet.OffsetProps

/-!
# C89: `ClosedPolygon2D.offset`
-/

namespace Volmdlr.Hull

open Real Volmdlr.Angle Volmdlr.Arc

/-! ### Specification -/

/-- The signed distance from the point to the line through `a` and `b`, positive on the left. -/
noncomputable def lineDist (a b q : V2 ℝ) : ℝ := V2.cross (b - a) (q - a) / V2.norm (b - a)

/-- The corner at `p` between `a` and `b` is neither degenerate nor folded on itself. -/
def Corner (a p b : V2 ℝ) : Prop :=
  a ≠ p ∧ b ≠ p ∧ ¬ (V2.cross (a - p) (b - p) = 0 ∧ 0 < V2.dot (a - p) (b - p))

open Classical in
/-- The factor of the distance at a corner with interior angle `γ`: `1` when the sides are aligned, else `√(2 (1 + cos γ))`, that is
`2 cos (γ / 2)`. -/
noncomputable def cornerFactor (a p b : V2 ℝ) : ℝ :=
  if V2.cross (a - p) (b - p) = 0 then 1
  else √(2 * (1 + V2.dot (a - p) (b - p) / (V2.norm (a - p) * V2.norm (b - p))))

/-! ### One corner -/

theorem factor_alg {c k s : ℝ} (hk : 0 < k) (hk2 : k * k = (1 - c) / 2) (hs : 0 ≤ s) (hs2 : s * s = 1 - c * c) (hc : c < 1) :
    s / k = √(2 * (1 + c)) := by
  have e : 2 * (1 + c) = (s / k) * (s / k) := by
    rw [div_mul_div_comm, hk2, hs2, eq_div_iff (by linarith)]
    ring
  rw [e, Real.sqrt_mul_self (div_nonneg hs hk.le)]

theorem norm_neg_sub (a p : V2 ℝ) : V2.norm (p - a) = V2.norm (a - p) := by
  unfold V2.norm
  congr 1
  show (p.x - a.x) * (p.x - a.x) + (p.y - a.y) * (p.y - a.y) = (a.x - p.x) * (a.x - p.x) + (a.y - p.y) * (a.y - p.y)
  ring

/-- **C89** the offset point of a corner is at the distance `offset` times the corner factor from both sides, on the right of
them for a positive offset. -/
theorem C89_corner_partial (a p b : V2 ℝ) (off : ℝ) (h : Corner a p b) :
    ∃ q, offsetPoint a p b off = some q ∧ lineDist a p q = -(off * cornerFactor a p b) ∧
      lineDist p b q = -(off * cornerFactor a p b) := by
  obtain ⟨ha, hb, hs⟩ := h
  obtain ⟨v1, e1⟩ := V2.unitVector_some (sub_ne (Ne.symm ha))
  obtain ⟨v2, e2⟩ := V2.unitVector_some (sub_ne (Ne.symm hb))
  obtain ⟨n1, s1, u1⟩ := V2.unitVector_spec e1
  obtain ⟨n2, s2, u2⟩ := V2.unitVector_spec e2
  have un : ∀ v : V2 ℝ, V2.dot v v = 1 → V2.dot (V2.normalVector v) (V2.normalVector v) = 1 := by
    intro v hv
    unfold V2.dot V2.normalVector at *
    linarith
  unfold offsetPoint
  rw [e1, e2]
  dsimp only
  rw [Fillet.unitVector_unit u2, Fillet.unitVector_unit (un _ u1), Fillet.unitVector_unit (un _ u2)]
  dsimp only
  have hx1 : a.x - p.x = v1.x * V2.norm (a - p) := congrArg V2.x s1
  have hy1 : a.y - p.y = v1.y * V2.norm (a - p) := congrArg V2.y s1
  have hx2 : b.x - p.x = v2.x * V2.norm (b - p) := congrArg V2.x s2
  have hy2 : b.y - p.y = v2.y * V2.norm (b - p) := congrArg V2.y s2
  have hcross : V2.cross (a - p) (b - p) = V2.norm (a - p) * V2.norm (b - p) * (v1.x * v2.y - v1.y * v2.x) := by
    show (a.x - p.x) * (b.y - p.y) - (a.y - p.y) * (b.x - p.x) = _
    rw [hx1, hy1, hx2, hy2]; ring
  have hdot : V2.dot (a - p) (b - p) = V2.norm (a - p) * V2.norm (b - p) * (v1.x * v2.x + v1.y * v2.y) := by
    show (a.x - p.x) * (b.x - p.x) + (a.y - p.y) * (b.y - p.y) = _
    rw [hx1, hy1, hx2, hy2]; ring
  have hpn := mul_pos n1 n2
  have hl1 : ∀ q : V2 ℝ, lineDist a p q = -(v1.x * (q.y - p.y) - v1.y * (q.x - p.x)) := by
    intro q
    unfold lineDist
    rw [norm_neg_sub, div_eq_iff n1.ne']
    show (p.x - a.x) * (q.y - a.y) - (p.y - a.y) * (q.x - a.x) = _
    linear_combination (q.x - p.x) * hy1 - (q.y - p.y) * hx1
  have hl2 : ∀ q : V2 ℝ, lineDist p b q = v2.x * (q.y - p.y) - v2.y * (q.x - p.x) := by
    intro q
    unfold lineDist
    rw [div_eq_iff n2.ne']
    show (b.x - p.x) * (q.y - p.y) - (b.y - p.y) * (q.x - p.x) = _
    linear_combination (q.y - p.y) * hx2 - (q.x - p.x) * hy2
  unfold cornerFactor
  rw [hcross, hdot, mul_div_assoc, mul_comm (V2.norm (a - p) * V2.norm (b - p)) (_ / _), div_mul_cancel₀ _ hpn.ne']
  rw [hcross, hdot] at hs
  simp only [mul_eq_zero, hpn.ne', false_or, mul_pos_iff_of_pos_left hpn] at hs ⊢
  clear hcross hdot hx1 hy1 hx2 hy2 s1 s2 e1 e2
  set c := v1.x * v2.x + v1.y * v2.y with hc
  set s := v1.x * v2.y - v1.y * v2.x with hsd
  change v1.x * v1.x + v1.y * v1.y = 1 at u1
  change v2.x * v2.x + v2.y * v2.y = 1 at u2
  have hcs : s * s + c * c = 1 := by
    rw [hc, hsd]
    linear_combination (v1.x * v1.x + v1.y * v1.y) * u2 + u1
  have hc1 : c < 1 := by
    by_contra hcon
    have : c = 1 ∧ s = 0 := by
      constructor
      · nlinarith [mul_self_nonneg s]
      · have : s * s = 0 := by nlinarith [mul_self_nonneg s]
        exact mul_self_eq_zero.1 this
    exact hs ⟨this.2, by linarith⟩
  have hc2 : -1 ≤ c := by nlinarith [mul_self_nonneg s]
  have hdn : V2.dot (-(V2.normalVector v1)) (V2.normalVector v2) = -c := by
    show -(-v1.y) * -v2.y + -v1.x * v2.x = -c
    rw [hc]; ring
  rw [hdn]
  have hk0 : 0 < cos (arccos (-c) / 2) := by
    apply cos_pos_of_mem_Ioo
    constructor
    · linarith [arccos_nonneg (-c), pi_pos]
    · have : arccos (-c) < π := by
        rcases (arccos_le_pi (-c)).lt_or_eq with h | h
        · exact h
        · have := Real.arccos_eq_pi.1 h; linarith
      linarith
  have hk2 : cos (arccos (-c) / 2) * cos (arccos (-c) / 2) = (1 - c) / 2 := by
    have := cos_sq (arccos (-c) / 2)
    rw [mul_div_cancel₀ _ two_ne_zero, cos_arccos (by linarith) (by linarith)] at this
    linarith
  rw [if_neg hk0.ne']
  refine ⟨_, rfl, ?_⟩
  rw [hl1, hl2]
  generalize hkd : cos (arccos (-c) / 2) = k at *
  have hvi : (v1 + v2 = ⟨0, 0⟩) ↔ s = 0 := by
    constructor
    · intro h
      have h1 : v1.x + v2.x = 0 := congrArg V2.x h
      have h2 : v1.y + v2.y = 0 := congrArg V2.y h
      rw [hsd]
      linear_combination v1.x * h2 - v1.y * h1
    · intro h
      have hcm : c = -1 := by
        rw [h] at hcs
        have : (c - 1) * (c + 1) = 0 := by linarith
        rcases mul_eq_zero.1 this with h' | h' <;> linarith
      have hsq : (v1.x + v2.x) * (v1.x + v2.x) + (v1.y + v2.y) * (v1.y + v2.y) = 0 := by
        linear_combination u1 + u2 + 2 * (hcm - hc)
      have hx : v1.x + v2.x = 0 := by
        apply mul_self_eq_zero.1; nlinarith [mul_self_nonneg (v1.x + v2.x), mul_self_nonneg (v1.y + v2.y)]
      have hy : v1.y + v2.y = 0 := by
        apply mul_self_eq_zero.1; nlinarith [mul_self_nonneg (v1.x + v2.x), mul_self_nonneg (v1.y + v2.y)]
      exact V2.ext hx hy
  by_cases hs0 : s = 0
  · rw [if_pos (hvi.2 hs0), if_pos hs0]
    have h1 : v1.x + v2.x = 0 := congrArg V2.x (hvi.2 hs0)
    have h2 : v1.y + v2.y = 0 := congrArg V2.y (hvi.2 hs0)
    have hcm : c = -1 := by
      rw [hs0] at hcs
      have : (c - 1) * (c + 1) = 0 := by linarith
      rcases mul_eq_zero.1 this with h' | h' <;> linarith
    have hk1 : k = 1 := by
      have : (k - 1) * (k + 1) = 0 := by rw [hcm] at hk2; linarith
      rcases mul_eq_zero.1 this with h' | h' <;> linarith
    rw [hk1, div_one]
    constructor
    · show -(v1.x * (p.y + -v2.x * off - p.y) - v1.y * (p.x + - -v2.y * off - p.x)) = _
      linear_combination off * v2.x * h1 + off * v2.y * h2 - off * u2
    · show v2.x * (p.y + -v2.x * off - p.y) - v2.y * (p.x + - -v2.y * off - p.x) = _
      linear_combination -off * u2
  · rw [if_neg (fun h => hs0 (hvi.1 h)), if_neg hs0]
    have hfac : |s| / k = √(2 * (1 + c)) :=
      factor_alg hk0 hk2 (abs_nonneg _) (by rw [abs_mul_abs_self]; linarith) hc1
    have hdv : V2.dot (v1 + v2) (V2.normalVector v1) = s := by
      show (v1.x + v2.x) * -v1.y + (v1.y + v2.y) * v1.x = s
      rw [hsd]; ring
    rw [← hfac, hdv]
    rcases lt_or_gt_of_ne hs0 with hneg | hpos
    · rw [if_neg (not_lt.2 hneg.le), abs_of_neg hneg]
      constructor
      · show -(v1.x * (p.y + -(v1.y + v2.y) * (off / k) - p.y) - v1.y * (p.x + -(v1.x + v2.x) * (off / k) - p.x)) = _
        rw [hsd]; ring
      · show v2.x * (p.y + -(v1.y + v2.y) * (off / k) - p.y) - v2.y * (p.x + -(v1.x + v2.x) * (off / k) - p.x) = _
        rw [hsd]; ring
    · rw [if_pos hpos, abs_of_pos hpos]
      constructor
      · show -(v1.x * (p.y + - -(v1.y + v2.y) * (off / k) - p.y) - v1.y * (p.x + - -(v1.x + v2.x) * (off / k) - p.x)) = _
        rw [hsd]; ring
      · show v2.x * (p.y + - -(v1.y + v2.y) * (off / k) - p.y) - v2.y * (p.x + - -(v1.x + v2.x) * (off / k) - p.x) = _
        rw [hsd]; ring

/-! ### The polygon -/

theorem mapM_some_exists {α β : Type*} {f : α → Option β} {l : List α} (h : ∀ a ∈ l, ∃ b, f a = some b) :
    ∃ m, l.mapM f = some m := by
  induction l with
  | nil => exact ⟨[], rfl⟩
  | cons a l ih =>
    obtain ⟨b, hb⟩ := h a (by simp)
    obtain ⟨m, hm⟩ := ih (fun a' ha => h a' (List.mem_cons_of_mem _ ha))
    exact ⟨b :: m, by rw [List.mapM_cons, hb, hm]; rfl⟩

/-- **C89** `offset` of a polygon without degenerate corner and with an offset above minus half the smallest side of its bounding
rectangle: a polygon with as many vertices, each at the distance `offset` times the corner factor from the two sides it comes
from. -/
theorem C89_offset_partial (pts : List (V2 ℝ)) (bounds : ℝ × ℝ × ℝ × ℝ) (off : ℝ)
    (hb : -(min (bounds.2.1 - bounds.1) (bounds.2.2.2 - bounds.2.2.1) / 2) < off)
    (hc : ∀ i, Corner (vertex pts i) (vertex pts (i + 1)) (vertex pts (i + 2))) :
    ∃ l, offset pts bounds off = .ok l ∧ l.length = pts.length ∧ ∀ i,
      lineDist (vertex pts i) (vertex pts (i + 1)) (vertex l (i + 1)) =
        -(off * cornerFactor (vertex pts i) (vertex pts (i + 1)) (vertex pts (i + 2))) ∧
      lineDist (vertex pts (i + 1)) (vertex pts (i + 2)) (vertex l (i + 1)) =
        -(off * cornerFactor (vertex pts i) (vertex pts (i + 1)) (vertex pts (i + 2))) := by
  have hpos : 0 < pts.length := by
    by_contra h0
    have : pts = [] := List.length_eq_zero_iff.1 (by omega)
    subst this
    exact (hc 0).1 rfl
  set n := pts.length with hn
  have hidx : ∀ i < n, offsetPoint (pts.getD ((i + n - 1) % n) ⟨0, 0⟩) (pts.getD i ⟨0, 0⟩) (pts.getD ((i + 1) % n) ⟨0, 0⟩) off =
      offsetPoint (vertex pts (i + n - 1)) (vertex pts (i + n - 1 + 1)) (vertex pts (i + n - 1 + 2)) off := by
    intro i hi
    have e1 : (i + n - 1 + 1) % n = i := by
      rw [Nat.sub_add_cancel (by omega), Nat.add_mod_right, Nat.mod_eq_of_lt hi]
    have e2 : (i + n - 1 + 2) % n = (i + 1) % n := by
      have : i + n - 1 + 2 = i + 1 + n := by omega
      rw [this, Nat.add_mod_right]
    unfold vertex
    rw [← hn, e1, e2]
  obtain ⟨l, hl⟩ := mapM_some_exists (f := fun i : ℕ =>
      offsetPoint (pts.getD ((i + n - 1) % n) ⟨0, 0⟩) (pts.getD i ⟨0, 0⟩) (pts.getD ((i + 1) % n) ⟨0, 0⟩) off) (l := List.range n)
    (by
      intro i hi
      rw [List.mem_range] at hi
      rw [hidx i hi]
      obtain ⟨q, hq, -⟩ := C89_corner_partial _ _ _ off (hc (i + n - 1))
      exact ⟨q, hq⟩)
  obtain ⟨hlen, hget⟩ := Fillet.mapM_option _ _ l hl
  rw [List.length_range] at hlen
  refine ⟨l, ?_, hlen, ?_⟩
  · unfold offset
    rw [if_neg (not_le.2 hb)]
    dsimp only
    rw [← hn, hl]
  · intro i
    obtain ⟨q, hq, h1, h2⟩ := C89_corner_partial _ _ _ off (hc i)
    have hj : (i + 1) % n < n := Nat.mod_lt _ hpos
    have hg := hget ((i + 1) % n) (by rw [List.length_range]; exact hj) ⟨0, 0⟩
    rw [List.getElem_range, hidx _ hj] at hg
    have v0 : vertex pts ((i + 1) % n + n - 1) = vertex pts i := by
      unfold vertex
      rw [← hn]
      congr 1
      have : (i + 1) % n + n - 1 = (i + 1) % n + (n - 1) := by omega
      rw [this, Nat.mod_add_mod]
      have : i + 1 + (n - 1) = i + n := by omega
      rw [this, Nat.add_mod_right]
    have v1 : vertex pts ((i + 1) % n + n - 1 + 1) = vertex pts (i + 1) := by
      unfold vertex
      rw [← hn, Nat.sub_add_cancel (by omega), Nat.add_mod_right, Nat.mod_mod]
    have v2 : vertex pts ((i + 1) % n + n - 1 + 2) = vertex pts (i + 2) := by
      unfold vertex
      rw [← hn]
      congr 1
      have : (i + 1) % n + n - 1 + 2 = (i + 1) % n + (1 + n) := by omega
      rw [this, Nat.mod_add_mod]
      have : i + 1 + (1 + n) = i + 2 + n := by omega
      rw [this, Nat.add_mod_right]
    rw [v0, v1, v2, hq] at hg
    have hv : vertex l (i + 1) = q := by
      unfold vertex
      rw [hlen]
      exact (Option.some.inj hg).symm
    rw [hv]
    exact ⟨h1, h2⟩

/-- **C89** the full property: the sides are moved by the offset. -/
def C89_full_statement : Prop :=
  ∀ (pts : List (V2 ℝ)) (bounds : ℝ × ℝ × ℝ × ℝ) (off : ℝ),
    -(min (bounds.2.1 - bounds.1) (bounds.2.2.2 - bounds.2.2.1) / 2) < off →
    (∀ i, Corner (vertex pts i) (vertex pts (i + 1)) (vertex pts (i + 2))) →
    ∃ l, offset pts bounds off = .ok l ∧ ∀ i, lineDist (vertex pts i) (vertex pts (i + 1)) (vertex l (i + 1)) = -off

theorem square_corner : ∀ i, Corner (vertex [⟨0, 0⟩, ⟨1, 0⟩, ⟨1, 1⟩, ⟨0, 1⟩] i) (vertex [⟨0, 0⟩, ⟨1, 0⟩, ⟨1, 1⟩, ⟨0, 1⟩] (i + 1))
    (vertex [⟨0, 0⟩, ⟨1, 0⟩, ⟨1, 1⟩, ⟨0, 1⟩] (i + 2)) := by
  have key : ∀ i, i < 4 → Corner (vertex [⟨0, 0⟩, ⟨1, 0⟩, ⟨1, 1⟩, ⟨0, 1⟩] i) (vertex [⟨0, 0⟩, ⟨1, 0⟩, ⟨1, 1⟩, ⟨0, 1⟩] (i + 1))
      (vertex [⟨0, 0⟩, ⟨1, 0⟩, ⟨1, 1⟩, ⟨0, 1⟩] (i + 2)) := by
    intro i hi
    unfold Corner
    simp only [show ∀ p q : V2 ℝ, V2.cross (p) (q) = p.x * q.y - p.y * q.x from fun _ _ => rfl,
      show ∀ p q : V2 ℝ, V2.dot (p) (q) = p.x * q.x + p.y * q.y from fun _ _ => rfl,
      show ∀ p q : V2 ℝ, (p - q).x = p.x - q.x from fun _ _ => rfl, show ∀ p q : V2 ℝ, (p - q).y = p.y - q.y from fun _ _ => rfl]
    interval_cases i <;> norm_num [vertex]
  intro i
  have := key (i % 4) (Nat.mod_lt _ (by norm_num))
  have e := vertex_periodic [⟨0, 0⟩, ⟨1, 0⟩, ⟨1, 1⟩, ⟨0, 1⟩] i
  simp only [List.length_cons, List.length_nil] at e
  have e0 := e 0
  rw [add_zero, add_zero] at e0
  rwa [e0, e 1, e 2] at this

/-- **C89** the full property is false: an offset of `1` moves the sides of the unit square by `√2` (the vector of the bisector is
not normalised). -/
theorem C89_counterexample : ¬ C89_full_statement := by
  intro h
  obtain ⟨l, hl, hd⟩ := h [⟨0, 0⟩, ⟨1, 0⟩, ⟨1, 1⟩, ⟨0, 1⟩] (0, 1, 0, 1) 1 (by norm_num) square_corner
  obtain ⟨l', hl', -, hd'⟩ := C89_offset_partial [⟨0, 0⟩, ⟨1, 0⟩, ⟨1, 1⟩, ⟨0, 1⟩] (0, 1, 0, 1) 1 (by norm_num) square_corner
  rw [hl] at hl'
  cases hl'
  have h1 := (hd' 0).1
  rw [hd 0] at h1
  have hf : cornerFactor (vertex [⟨0, 0⟩, ⟨1, 0⟩, ⟨1, 1⟩, ⟨0, 1⟩] 0) (vertex [⟨0, 0⟩, ⟨1, 0⟩, ⟨1, 1⟩, ⟨0, 1⟩] (0 + 1))
      (vertex [⟨0, 0⟩, ⟨1, 0⟩, ⟨1, 1⟩, ⟨0, 1⟩] (0 + 2)) = √2 := by
    unfold cornerFactor
    simp only [show ∀ p q : V2 ℝ, V2.cross (p) (q) = p.x * q.y - p.y * q.x from fun _ _ => rfl,
      show ∀ p q : V2 ℝ, V2.dot (p) (q) = p.x * q.x + p.y * q.y from fun _ _ => rfl,
      show ∀ p q : V2 ℝ, (p - q).x = p.x - q.x from fun _ _ => rfl, show ∀ p q : V2 ℝ, (p - q).y = p.y - q.y from fun _ _ => rfl]
    norm_num [vertex]
  rw [hf] at h1
  have : (√2) ^ 2 = 1 := by
    have : √2 = 1 := by linarith
    rw [this]; norm_num
  rw [Real.sq_sqrt (by norm_num)] at this
  norm_num at this

end Volmdlr.Hull
