import Verif.Geo.FileProps
import Mathlib.Tactic.Positivity
import Mathlib.Data.List.Perm.Basic
import Mathlib.Data.List.Forall2
import Mathlib.Algebra.Order.Field.Basic

/-!
# C126: what a `.geo` file describes
-/

set_option linter.unusedSectionVars false
namespace Volmdlr.Geo
variable {K : Type*} [Field K] [LinearOrder K] [IsStrictOrderedRing K]

/-! ### Specification -/

/-- The points that define an edge. -/
def Edge.points : Edge K → List (V3 K)
  | .seg a b => [a, b]
  | .arc a c m b => [a, c, m, b]
  | .spline l => l

/-- The middle of the arc is on the side of its ends: the arc is less than half of its circle. -/
def Minor (a c m b : V3 K) : Prop := 0 < V3.dot (m - c) ((a - c) + (b - c))

/-- The edges that a `.geo` file can describe with the lines of `shellLines`: segments, and arcs less than a half circle. -/
def Edge.Plain : Edge K → Prop
  | .seg a b => a ≠ b
  | .arc a c m b => a ≠ b ∧ Minor a c m b
  | .spline _ => False

/-- A line draws an edge.  In gmsh, `Circle` is the arc less than a half circle with the given ends and centre.  For a B-spline, it is only asked that the line goes
from its start to its end. -/
def Draws (S : List (Stmt K)) : Stmt K → Edge K → Prop
  | .line _ a b, .seg p q => .point a p ∈ S ∧ .point b q ∈ S
  | .circle _ a c b, .arc p o m q => .point a p ∈ S ∧ .point c o ∈ S ∧ .point b q ∈ S ∧ Minor p o m q
  | .line _ a b, .spline l => ∃ p q, l.head? = some p ∧ l.getLast? = some q ∧ .point a p ∈ S ∧ .point b q ∈ S
  | _, _ => False

/-- The number `t` in a loop stands for the edge `e`: forwards if it is positive, backwards if it is negative. -/
def Reads (S : List (Stmt K)) (t : ℤ) (e : Edge K) : Prop :=
  ∃ s ∈ S, key s = (.curve, t.natAbs) ∧ (0 < t ∧ Draws S s e ∨ t < 0 ∧ Draws S s e.reverse)

/-- The loop `t` goes along the contour. -/
def ContourDrawn (S : List (Stmt K)) (t : ℕ) (c : List (Edge K)) : Prop := ∃ ts, .loop t ts ∈ S ∧ List.Forall₂ (Reads S) ts c

/-- The surface `t` is bounded by the contours of the face. -/
def FaceDrawn (S : List (Stmt K)) (t : ℕ) (f : Face K) : Prop := ∃ ls, .surface f.plane t ls ∈ S ∧ List.Forall₂ (ContourDrawn S) ls f.contours

/-- The surface loop `t` is made of the faces of the shell. -/
def ShellDrawn (S : List (Stmt K)) (t : ℕ) (faces : List (Face K)) : Prop := ∃ ss, .surfaceLoop t ss ∈ S ∧ List.Forall₂ (FaceDrawn S) ss faces

/-- The edges of a shell. -/
def edgesOf (faces : List (Face K)) : List (Edge K) := (faces.flatMap Face.contours).flatten

/-- Two different points among those that define the edges are farther than the tolerance. -/
def Separated (faces : List (Face K)) : Prop :=
  ∀ p ∈ (edgesOf faces).flatMap Edge.points, ∀ q ∈ (edgesOf faces).flatMap Edge.points, p ≠ q →
    (1 / 10 ^ 6) ^ 2 < (p.x - q.x) ^ 2 + (p.y - q.y) ^ 2 + (p.z - q.z) ^ 2

/-- The faces of a shell. -/
def Prim.faces? : Prim K → Option (List (Face K))
  | .closed f => some f
  | .opened f => some f
  | .other => none

/-- The faces of a closed shell. -/
def Prim.closed? : Prim K → Option (List (Face K))
  | .closed f => some f
  | _ => none

/-- The volumes of a file. -/
def Stmt.volume? : Stmt K → Option (ℕ × ℕ)
  | .volume t l => some (t, l)
  | _ => none

/-- The surfaces of a file. -/
def Stmt.isSurface : Stmt K → Bool
  | .surface _ _ _ => true
  | _ => false

/-- The surface loops of a file. -/
def Stmt.isSurfaceLoop : Stmt K → Bool
  | .surfaceLoop _ _ => true
  | _ => false

/-- The curves of a file. -/
def Stmt.isCurve : Stmt K → Bool
  | .line _ _ _ => true
  | .circle _ _ _ _ => true
  | _ => false

/-! ### More lines only add -/

theorem Draws.mono {S T : List (Stmt K)} (h : S ⊆ T) {s : Stmt K} {e : Edge K} (hd : Draws S s e) : Draws T s e := by
  match s, e, hd with
  | .line _ a b, .seg p q, hd => exact ⟨h hd.1, h hd.2⟩
  | .circle _ a c b, .arc p o m q, hd => exact ⟨h hd.1, h hd.2.1, h hd.2.2.1, hd.2.2.2⟩
  | .line _ a b, .spline l, hd =>
    obtain ⟨p, q, h1, h2, h3, h4⟩ := hd
    exact ⟨p, q, h1, h2, h h3, h h4⟩

theorem Reads.mono {S T : List (Stmt K)} (h : S ⊆ T) {t : ℤ} {e : Edge K} : Reads S t e → Reads T t e := by
  rintro ⟨s, hs, hk, hd⟩
  exact ⟨s, h hs, hk, hd.imp (fun x => ⟨x.1, x.2.mono h⟩) fun x => ⟨x.1, x.2.mono h⟩⟩

theorem ContourDrawn.mono {S T : List (Stmt K)} (h : S ⊆ T) {t : ℕ} {c : List (Edge K)} : ContourDrawn S t c → ContourDrawn T t c := by
  rintro ⟨ts, hs, hd⟩
  exact ⟨ts, h hs, hd.imp fun _ _ => Reads.mono h⟩

theorem FaceDrawn.mono {S T : List (Stmt K)} (h : S ⊆ T) {t : ℕ} {f : Face K} : FaceDrawn S t f → FaceDrawn T t f := by
  rintro ⟨ts, hs, hd⟩
  exact ⟨ts, h hs, hd.imp fun _ _ => ContourDrawn.mono h⟩

theorem ShellDrawn.mono {S T : List (Stmt K)} (h : S ⊆ T) {t : ℕ} {f : List (Face K)} : ShellDrawn S t f → ShellDrawn T t f := by
  rintro ⟨ts, hs, hd⟩
  exact ⟨ts, h hs, hd.imp fun _ _ => FaceDrawn.mono h⟩

/-! ### Closeness is equality on the points of a separated shell -/

theorem reverse_reverse : ∀ e : Edge K, e.reverse.reverse = e
  | .seg _ _ => rfl
  | .arc _ _ _ _ => rfl
  | .spline l => by simp [Edge.reverse]

theorem mem_points_reverse (e : Edge K) (p : V3 K) : p ∈ e.reverse.points ↔ p ∈ e.points := by
  cases e <;> simp [Edge.reverse, Edge.points] <;> tauto

theorem Edge.Plain.ne_reverse {e : Edge K} (h : e.Plain) : e ≠ e.reverse := by
  cases e with
  | seg a b => intro e; exact h (Edge.seg.inj e).1
  | arc a c m b => intro e; exact h.1 (Edge.arc.inj e).1
  | spline l => exact absurd h id

/-- Closeness of points is equality. -/
def Exact (Q : List (V3 K)) : Prop := ∀ p ∈ Q, ∀ q ∈ Q, near p q = true ↔ p = q

theorem Separated.exact {faces : List (Face K)} (h : Separated faces) : Exact ((edgesOf faces).flatMap Edge.points) := by
  intro p hp q hq
  unfold near
  rw [decide_eq_true_iff]
  constructor
  · intro hn
    by_contra hne
    exact absurd (h p hp q hq hne) (not_lt.2 hn)
  · rintro rfl
    simp only [sub_self]
    simp

theorem isClose_iff {Q : List (V3 K)} (hQ : Exact Q) {e f : Edge K} (he : e.points ⊆ Q) (hf : f.points ⊆ Q) (hp : e.Plain) : e.isClose f = true ↔ e = f := by
  cases e with
  | seg a b =>
    cases f with
    | seg a' b' =>
      have h1 := hQ a (he (by simp [Edge.points])) a' (hf (by simp [Edge.points]))
      have h2 := hQ b (he (by simp [Edge.points])) b' (hf (by simp [Edge.points]))
      simp only [Edge.isClose, Bool.and_eq_true, h1, h2, Edge.seg.injEq]
    | arc _ _ _ _ => simp [Edge.isClose]
    | spline _ => simp [Edge.isClose]
  | arc a c m b =>
    cases f with
    | seg _ _ => simp [Edge.isClose]
    | arc a' c' m' b' =>
      have h1 := hQ a (he (by simp [Edge.points])) a' (hf (by simp [Edge.points]))
      have h2 := hQ b (he (by simp [Edge.points])) b' (hf (by simp [Edge.points]))
      have h3 := hQ c (he (by simp [Edge.points])) c' (hf (by simp [Edge.points]))
      have h4 := hQ m (he (by simp [Edge.points])) m' (hf (by simp [Edge.points]))
      simp only [Edge.isClose, Bool.and_eq_true, h1, h2, h3, h4, Edge.arc.injEq]
      tauto
    | spline _ => simp [Edge.isClose]
  | spline l => exact absurd hp id

theorem Edge.Plain.reverse {e : Edge K} (h : e.Plain) : e.reverse.Plain := by
  cases e with
  | seg a b => exact fun e => h e.symm
  | arc a c m b =>
    refine ⟨fun e => h.1 e.symm, ?_⟩
    have := h.2
    unfold Minor at this ⊢
    have e : (b - c) + (a - c) = (a - c) + (b - c) := by
      ext <;> simp <;> ring
    rwa [e]
  | spline l => exact h

theorem points_reverse_sub {e : Edge K} {Q : List (V3 K)} (h : e.points ⊆ Q) : e.reverse.points ⊆ Q :=
  fun p hp => h ((mem_points_reverse e p).1 hp)

/-! ### The list of points -/

theorem addPoint_fold {Q : List (V3 K)} (hQ : Exact Q) : ∀ (l acc : List (V3 K)), l ⊆ Q → acc ⊆ Q →
    (∀ p, p ∈ l.foldl addPoint acc ↔ p ∈ l ∨ p ∈ acc) ∧ l.foldl addPoint acc ⊆ Q
  | [], acc, _, ha => ⟨fun p => by simp, ha⟩
  | p :: l, acc, hl, ha => by
    have hp : p ∈ Q := hl List.mem_cons_self
    have hany : acc.any (near p) = true ↔ p ∈ acc := by
      rw [List.any_eq_true]
      constructor
      · rintro ⟨q, hq, hn⟩
        rw [(hQ p hp q (ha hq)).1 hn]; exact hq
      · exact fun h => ⟨p, h, (hQ p hp p hp).2 rfl⟩
    have hmem : ∀ q, q ∈ addPoint acc p ↔ q = p ∨ q ∈ acc := by
      intro q
      unfold addPoint
      by_cases h : acc.any (near p) = true
      · rw [if_pos h]
        constructor
        · exact Or.inr
        · rintro (rfl | h')
          · exact hany.1 h
          · exact h'
      · rw [if_neg h, List.mem_append, List.mem_singleton]; tauto
    obtain ⟨h1, h2⟩ := addPoint_fold hQ l (addPoint acc p) (fun q hq => hl (List.mem_cons_of_mem _ hq)) (by
      intro q hq
      rcases (hmem q).1 hq with rfl | hq
      · exact hp
      · exact ha hq)
    refine ⟨fun q => ?_, h2⟩
    rw [List.foldl_cons, h1 q, hmem q, List.mem_cons]; tauto

theorem geoPoints_sub (e : Edge K) : e.geoPoints ⊆ e.points := by
  cases e <;> intro p <;> simp [Edge.geoPoints, Edge.points]
  tauto

theorem addPoints_fold {Q : List (V3 K)} (hQ : Exact Q) (order : List (V3 K) → List (V3 K)) (ho : ∀ l p, p ∈ order l ↔ p ∈ l) :
    ∀ (cs : List (List (Edge K))) (acc : List (V3 K)), (∀ c ∈ cs, ∀ e ∈ c, e.points ⊆ Q) → acc ⊆ Q →
    (∀ p, p ∈ cs.foldl (addPoints order) acc ↔ p ∈ cs.flatten.flatMap Edge.geoPoints ∨ p ∈ acc) ∧ cs.foldl (addPoints order) acc ⊆ Q
  | [], acc, _, ha => ⟨fun p => by simp, ha⟩
  | c :: cs, acc, hc, ha => by
    have hsub : order (c.flatMap Edge.geoPoints) ⊆ Q := by
      intro p hp
      obtain ⟨e, he, hpe⟩ := List.mem_flatMap.1 ((ho _ p).1 hp)
      exact hc c List.mem_cons_self e he (geoPoints_sub e hpe)
    obtain ⟨h1, h2⟩ := addPoint_fold hQ _ acc hsub ha
    obtain ⟨h3, h4⟩ := addPoints_fold hQ order ho cs (addPoints order acc c) (fun c' h => hc c' (List.mem_cons_of_mem _ h)) h2
    refine ⟨fun p => ?_, h4⟩
    have h1' : p ∈ addPoints order acc c ↔ p ∈ order (c.flatMap Edge.geoPoints) ∨ p ∈ acc := h1 p
    rw [List.foldl_cons, h3 p, h1', ho, List.flatten_cons, List.flatMap_append, List.mem_append]
    tauto

/-! ### The list of edges -/

open Classical in
/-- `addEdge` where closeness is equality. -/
noncomputable def addNew (edges : List (Edge K)) (e : Edge K) : List (Edge K) := if e ∈ edges ∨ e.reverse ∈ edges then edges else edges ++ [e]

theorem addEdge_eq {Q : List (V3 K)} (hQ : Exact Q) : ∀ (l acc : List (Edge K)), (∀ e ∈ l, e.points ⊆ Q ∧ e.Plain) → (∀ e ∈ acc, e.points ⊆ Q ∧ e.Plain) →
    l.foldl addEdge acc = l.foldl addNew acc
  | [], _, _, _ => rfl
  | e :: l, acc, hl, ha => by
    obtain ⟨hp, hpl⟩ := hl e List.mem_cons_self
    have key : ∀ f : Edge K, f.points ⊆ Q → f.Plain → (acc.any f.isClose = true ↔ f ∈ acc) := by
      intro f hf hfp
      rw [List.any_eq_true]
      constructor
      · rintro ⟨g, hg, hn⟩
        rw [(isClose_iff hQ hf (ha g hg).1 hfp).1 hn]; exact hg
      · exact fun h => ⟨f, h, (isClose_iff hQ hf hf hfp).2 rfl⟩
    have e1 : addEdge acc e = addNew acc e := by
      unfold addEdge addNew
      have : (acc.any e.isClose || acc.any e.reverse.isClose) = true ↔ (e ∈ acc ∨ e.reverse ∈ acc) := by
        rw [Bool.or_eq_true, key e hp hpl, key _ (points_reverse_sub hp) hpl.reverse]
      by_cases h : (acc.any e.isClose || acc.any e.reverse.isClose) = true
      · rw [if_pos h, if_pos (this.1 h)]
      · rw [if_neg h, if_neg (fun h' => h (this.2 h'))]
    rw [List.foldl_cons, List.foldl_cons, e1]
    refine addEdge_eq hQ l _ (fun f hf => hl f (List.mem_cons_of_mem _ hf)) ?_
    intro f hf
    unfold addNew at hf
    split at hf
    · exact ha f hf
    · rcases List.mem_append.1 hf with hf | hf
      · exact ha f hf
      · rw [List.mem_singleton.1 hf]; exact ⟨hp, hpl⟩

theorem addNew_prefix (l acc : List (Edge K)) : ∃ r, l.foldl addNew acc = acc ++ r := by
  induction l generalizing acc with
  | nil => exact ⟨[], by simp⟩
  | cons e l ih =>
    obtain ⟨r, hr⟩ := ih (addNew acc e)
    unfold addNew at hr
    rw [List.foldl_cons]
    split at hr
    · next h => exact ⟨r, by unfold addNew; rw [if_pos h]; exact hr⟩
    · next h => exact ⟨e :: r, by unfold addNew; rw [if_neg h]; rw [hr]; simp⟩

theorem addNew_sub (l : List (Edge K)) : ∀ acc, l.foldl addNew acc ⊆ acc ++ l := by
  induction l with
  | nil => intro acc; simp
  | cons e l ih =>
    intro acc f hf
    rw [List.foldl_cons] at hf
    have := ih _ hf
    unfold addNew at this
    split at this <;> simp at this ⊢ <;> tauto

theorem addNew_new (l : List (Edge K)) : ∀ acc, (acc.Pairwise fun x y => x ≠ y ∧ x ≠ y.reverse) → (l.foldl addNew acc).Pairwise fun x y => x ≠ y ∧ x ≠ y.reverse := by
  induction l with
  | nil => intro acc h; exact h
  | cons e l ih =>
    intro acc h
    rw [List.foldl_cons]
    refine ih _ ?_
    unfold addNew
    split
    · exact h
    · next hn =>
      rw [List.pairwise_append]
      refine ⟨h, by simp, ?_⟩
      intro x hx y hy
      rw [List.mem_singleton.1 hy]
      exact ⟨fun e' => hn (Or.inl (e' ▸ hx)), fun e' => hn (Or.inr (e' ▸ hx))⟩

/-- An edge of the shell is in the list, or else its reverse is and comes before it. -/
theorem addNew_before (D R : List (Edge K)) (e : Edge K) : e ∈ (D ++ e :: R).foldl addNew [] ∨ (e.reverse ∈ (D ++ e :: R).foldl addNew [] ∧ e.reverse ∈ D) := by
  rw [List.foldl_append, List.foldl_cons]
  obtain ⟨r, hr⟩ := addNew_prefix R (addNew (D.foldl addNew []) e)
  rw [hr]
  have hs : D.foldl addNew [] ⊆ D := by simpa using addNew_sub D []
  unfold addNew
  split
  · next h =>
    rcases h with h | h
    · exact Or.inl (List.mem_append_left _ h)
    · exact Or.inr ⟨List.mem_append_left _ h, hs h⟩
  · exact Or.inl (by simp)

/-! ### Turns -/

/-- What is known of a shell. -/
structure Ctx (E : List (Edge K)) (Q points : List (V3 K)) (edges : List (Edge K)) : Prop where
  exact : Exact Q
  plain : ∀ e ∈ E, e.points ⊆ Q ∧ e.Plain
  points_sub : points ⊆ Q
  points_mem : ∀ e ∈ E, e.geoPoints ⊆ points
  edges_eq : edges = E.foldl addNew []

theorem Ctx.edges_sub {E : List (Edge K)} {Q points : List (V3 K)} {edges : List (Edge K)} (h : Ctx E Q points edges) : edges ⊆ E := by
  rw [h.edges_eq]; simpa using addNew_sub E []

theorem findIdx?_unique {α : Type*} {l : List α} {f : α → Bool} {a : α} (ha : a ∈ l) (hf : ∀ b ∈ l, f b = true ↔ b = a) :
    ∃ i : ℕ, l.findIdx? f = some i ∧ l[i]? = some a := by
  cases h : l.findIdx? f with
  | none => rw [List.findIdx?_eq_none_iff] at h; exact absurd (h a ha) (by rw [(hf a ha).2 rfl]; simp)
  | some i =>
    obtain ⟨hi, hfi⟩ := List.findIdx?_eq_some_iff_findIdx_eq.1 h
    refine ⟨i, rfl, ?_⟩
    subst hfi
    have := List.findIdx_getElem (w := hi)
    rw [List.getElem?_eq_getElem hi, (hf _ (List.getElem_mem hi)).1 this]

theorem findIdx?_absent {α : Type*} {l : List α} {f : α → Bool} {a : α} (ha : a ∉ l) (hf : ∀ b ∈ l, f b = true ↔ b = a) : l.findIdx? f = none := by
  rw [List.findIdx?_eq_none_iff]
  intro b hb
  rw [← Bool.not_eq_true, hf b hb]
  rintro rfl
  exact ha hb

/-- The points of the shell are written. -/
def PointsAt (points : List (V3 K)) (account : ℕ) (S : List (Stmt K)) : Prop := ∀ (i : ℕ) (p : V3 K), points[i]? = some p → Stmt.point (i + 1 + account) p ∈ S

theorem PointsAt.append {points : List (V3 K)} {account : ℕ} {S : List (Stmt K)} (h : PointsAt points account S) (l : List (Stmt K)) :
    PointsAt points account (S ++ l) := fun i p hp => List.mem_append_left _ (h i p hp)

theorem pointTag_ok {Q points : List (V3 K)} (hQ : Exact Q) (hs : points ⊆ Q) {account : ℕ} {S : List (Stmt K)} (h : PointsAt points account S) {p : V3 K}
    (hp : p ∈ points) : ∃ t, pointTag points account p = .ok t ∧ Stmt.point t p ∈ S := by
  obtain ⟨i, hi, hpi⟩ := findIdx?_unique hp (fun q hq => hQ q (hs hq) p (hs hp))
  refine ⟨i + 1 + account, ?_, h i p hpi⟩
  unfold pointTag
  rw [hi]

theorem defineEdge_ok {E : List (Edge K)} {Q points : List (V3 K)} {edges : List (Edge K)} (hc : Ctx E Q points edges) {account : ℕ} {S : List (Stmt K)}
    (h : PointsAt points account S) {e : Edge K} (he : e ∈ E) (tag : ℕ) :
    ∃ s, defineEdge points account tag e = .ok s ∧ key s = (.curve, tag) ∧ s.isCurve = true ∧ Draws S s e := by
  have hm := hc.points_mem e he
  have hpl := (hc.plain e he).2
  cases e with
  | seg a b =>
    obtain ⟨i, hi, hi'⟩ := pointTag_ok hc.exact hc.points_sub h (hm (by simp [Edge.geoPoints] : a ∈ _))
    obtain ⟨j, hj, hj'⟩ := pointTag_ok hc.exact hc.points_sub h (hm (by simp [Edge.geoPoints] : b ∈ _))
    refine ⟨.line tag i j, ?_, rfl, rfl, hi', hj'⟩
    rw [defineEdge, hi, hj]; rfl
  | arc a c m b =>
    obtain ⟨i, hi, hi'⟩ := pointTag_ok hc.exact hc.points_sub h (hm (by simp [Edge.geoPoints] : a ∈ _))
    obtain ⟨k, hk, hk'⟩ := pointTag_ok hc.exact hc.points_sub h (hm (by simp [Edge.geoPoints] : c ∈ _))
    obtain ⟨j, hj, hj'⟩ := pointTag_ok hc.exact hc.points_sub h (hm (by simp [Edge.geoPoints] : b ∈ _))
    refine ⟨.circle tag i k j, ?_, rfl, rfl, hi', hk', hj', hpl.2⟩
    rw [defineEdge, hi, hj, hk]; rfl
  | spline l => exact absurd hpl id

/-- The variables after the edges `D`. -/
structure Seen (points : List (V3 K)) (edges : List (Edge K)) (account : ℕ) (D : List (Edge K)) (S : List (Stmt K)) (s : State) : Prop where
  points : PointsAt points account S
  length : s.check.length = edges.length
  account : 0 < s.lineAccount
  check : ∀ (i : ℕ) (f : Edge K), edges[i]? = some f → f ∈ D → ∃ t, s.check[i]? = some (some t) ∧ 0 < t ∧ ∃ l ∈ S, key l = (.curve, t) ∧ Draws S l f

open Classical in
theorem seen_edge {E : List (Edge K)} {Q points : List (V3 K)} {edges : List (Edge K)} (hc : Ctx E Q points edges) {account : ℕ} {D R : List (Edge K)} {e : Edge K}
    (hE : E = D ++ e :: R) {S : List (Stmt K)} {s : State} (h : Seen points edges account D S s) :
    ∃ o s', edgeTurn points edges account s e = .ok (o, s') ∧ Seen points edges account (D ++ [e]) (S ++ o.lines) s' ∧
      (∃ t, o.tags = [t] ∧ Reads (S ++ o.lines) t e) ∧ o.lines.length = (if e ∈ edges then 1 else 0) ∧ ∀ l ∈ o.lines, l.isCurve = true := by
  have heE : e ∈ E := by rw [hE]; simp
  obtain ⟨heQ, hpl⟩ := hc.plain e heE
  have hcl : ∀ f ∈ edges, f.isClose e = true ↔ f = e := fun f hf => isClose_iff hc.exact (hc.plain f (hc.edges_sub hf)).1 heQ (hc.plain f (hc.edges_sub hf)).2
  have hcl' : ∀ f ∈ edges, f.isClose e.reverse = true ↔ f = e.reverse :=
    fun f hf => isClose_iff hc.exact (hc.plain f (hc.edges_sub hf)).1 (points_reverse_sub heQ) (hc.plain f (hc.edges_sub hf)).2
  by_cases hmem : e ∈ edges
  · obtain ⟨i, hi, hie⟩ := findIdx?_unique hmem hcl
    obtain ⟨l, hl, hk, hcu, hd⟩ := defineEdge_ok hc h.points heE s.lineAccount
    have hturn : edgeTurn points edges account s e = .ok (⟨[l], [(s.lineAccount : ℤ)]⟩, ⟨s.check.set i (some s.lineAccount), s.lineAccount + 1⟩) := by
      have h1 : edgeIndex edges e = some i := by unfold edgeIndex; rw [hi]
      unfold edgeTurn
      rw [h1]
      dsimp only
      rw [hie]
      dsimp only
      unfold turnForward turnBackward
      rw [if_pos ((hcl e hmem).2 rfl), hl]
      exact if_neg (fun h' => hpl.ne_reverse ((hcl' e hmem).1 h'))
    have hilt : i < s.check.length := by rw [h.length]; exact (List.getElem?_eq_some_iff.1 hie).1
    have hlS : l ∈ S ++ [l] := by simp
    have hd' : Draws (S ++ [l]) l e := hd.mono (List.subset_append_left _ _)
    refine ⟨_, _, hturn, ⟨h.points.append _, ?_, Nat.succ_pos _, ?_⟩, ⟨_, rfl, ?_⟩, ?_, ?_⟩
    · simpa using h.length
    · intro j f hj hf
      by_cases hji : j = i
      · subst hji
        obtain rfl : e = f := Option.some.inj (hie.symm.trans hj)
        exact ⟨s.lineAccount, by simp [hilt], h.account, l, hlS, hk, hd'⟩
      · have hfD : f ∈ D := by
          rcases List.mem_append.1 hf with hf | hf
          · exact hf
          · exfalso
            have hfe : f = e := List.mem_singleton.1 hf
            subst hfe
            have hpw : edges.Pairwise fun x y => x ≠ y ∧ x ≠ y.reverse := by
              rw [hc.edges_eq]; exact addNew_new _ _ List.Pairwise.nil
            have hnd : edges.Nodup := hpw.imp fun h => h.1
            obtain ⟨hjl, hj'⟩ := List.getElem?_eq_some_iff.1 hj
            obtain ⟨hil, hi'⟩ := List.getElem?_eq_some_iff.1 hie
            exact hji ((List.Nodup.getElem_inj_iff hnd).1 (hj'.trans hi'.symm))
        obtain ⟨t, h1, h2, m, hm, h3, h4⟩ := h.check j f hj hfD
        refine ⟨t, ?_, h2, m, List.mem_append_left _ hm, h3, h4.mono (List.subset_append_left _ _)⟩
        rw [List.getElem?_set_ne (Ne.symm hji)]
        exact h1
    · exact ⟨l, hlS, by rw [hk]; simp, Or.inl ⟨by exact_mod_cast h.account, hd'⟩⟩
    · rw [if_pos hmem]; rfl
    · intro m hm; rw [List.mem_singleton.1 hm]; exact hcu
  · have hb := addNew_before D R e
    rw [← hE, ← hc.edges_eq] at hb
    obtain ⟨hr, hrD⟩ := hb.resolve_left hmem
    obtain ⟨i, hi, hie⟩ := findIdx?_unique hr hcl'
    obtain ⟨t, ht, ht0, l, hl, hk, hd⟩ := h.check i _ hie hrD
    have hturn : edgeTurn points edges account s e = .ok (⟨[], [-(t : ℤ)]⟩, s) := by
      have h1 : edgeIndex edges e = some i := by
        unfold edgeIndex
        rw [findIdx?_absent hmem hcl, hi]
      unfold edgeTurn
      rw [h1]
      dsimp only
      rw [hie]
      dsimp only
      unfold turnForward turnBackward
      rw [if_neg (fun h' => hmem ((hcl _ hr).1 h' ▸ hr))]
      refine (if_pos ((hcl' _ hr).2 rfl)).trans ?_
      dsimp only
      rw [ht]
      rfl
    refine ⟨_, _, hturn, ⟨by simpa using h.points, h.length, h.account, ?_⟩, ⟨_, rfl, ?_⟩, ?_, ?_⟩
    · intro j f hj hf
      have hfD : f ∈ D := by
        rcases List.mem_append.1 hf with hf | hf
        · exact hf
        · exact absurd (List.mem_of_getElem? hj) (by rw [List.mem_singleton.1 hf]; exact hmem)
      simpa using h.check j f hj hfD
    · refine ⟨l, by simpa using hl, by rw [hk]; simp, Or.inr ⟨by omega, by simpa using hd⟩⟩
    · rw [if_neg hmem]; rfl
    · simp

open Classical in
theorem seen_contour {E : List (Edge K)} {Q points : List (V3 K)} {edges : List (Edge K)} (hc : Ctx E Q points edges) {account : ℕ} :
    ∀ {c D R : List (Edge K)} {S : List (Stmt K)} {s : State}, E = D ++ (c ++ R) → Seen points edges account D S s →
    ∃ o s', contourTurns points edges account s c = .ok (o, s') ∧ Seen points edges account (D ++ c) (S ++ o.lines) s' ∧
      List.Forall₂ (Reads (S ++ o.lines)) o.tags c ∧ o.lines.length = c.countP (fun e : Edge K => decide (e ∈ edges)) ∧ ∀ l ∈ o.lines, l.isCurve = true
  | [], D, R, S, s, _, h => ⟨⟨[], []⟩, s, rfl, by simpa using h, List.Forall₂.nil, rfl, by simp⟩
  | e :: c, D, R, S, s, hE, h => by
    obtain ⟨o1, s1, h1, hs1, ⟨t, ht, hr⟩, hn1, hl1⟩ := seen_edge hc (by simpa using hE) h
    obtain ⟨o2, s2, h2, hs2, hr2, hn2, hl2⟩ := seen_contour (c := c) (D := D ++ [e]) (R := R) hc (by simpa using hE) hs1
    refine ⟨⟨o1.lines ++ o2.lines, o1.tags ++ o2.tags⟩, s2, ?_, ?_, ?_, ?_, ?_⟩
    · rw [contourTurns, h1]
      change (contourTurns points edges account s1 c).bind _ = _
      rw [h2]; rfl
    · simpa using hs2
    · rw [ht, List.singleton_append, ← List.append_assoc]
      exact List.Forall₂.cons (hr.mono (List.subset_append_left _ _)) hr2
    · rw [List.length_append, hn1, hn2, List.countP_cons]
      by_cases hm : e ∈ edges <;> simp [hm]
      omega
    · intro l hl
      rcases List.mem_append.1 hl with hl | hl
      · exact hl1 l hl
      · exact hl2 l hl

open Classical in
/-- The number of curves among lines. -/
theorem countP_all {l : List (Stmt K)} (h : ∀ s ∈ l, s.isCurve = true) : l.countP Stmt.isCurve = l.length := List.countP_eq_length.2 h

theorem curve_other {s : Stmt K} (h : s.isCurve = true) : s.isSurface = false ∧ s.isSurfaceLoop = false ∧ s.volume? = none := by
  cases s <;> simp_all [Stmt.isCurve, Stmt.isSurface, Stmt.isSurfaceLoop, Stmt.volume?]

/-- The lines of a part of a file: numbers of curves, surfaces, and no surface loop nor volume. -/
structure Counts (l : List (Stmt K)) (curves surfaces : ℕ) : Prop where
  curves : l.countP Stmt.isCurve = curves
  surfaces : l.countP Stmt.isSurface = surfaces
  loops : l.countP Stmt.isSurfaceLoop = 0
  volumes : l.filterMap Stmt.volume? = []

theorem Counts.append {l m : List (Stmt K)} {a b c d : ℕ} (h : Counts l a b) (h' : Counts m c d) : Counts (l ++ m) (a + c) (b + d) :=
  ⟨by rw [List.countP_append, h.curves, h'.curves], by rw [List.countP_append, h.surfaces, h'.surfaces], by rw [List.countP_append, h.loops, h'.loops],
    by rw [List.filterMap_append, h.volumes, h'.volumes]; rfl⟩

theorem counts_curves {l : List (Stmt K)} (h : ∀ s ∈ l, s.isCurve = true) : Counts l l.length 0 := by
  refine ⟨countP_all h, ?_, ?_, ?_⟩
  · exact List.countP_eq_zero.2 fun s hs => by rw [(curve_other (h s hs)).1]; simp
  · exact List.countP_eq_zero.2 fun s hs => by rw [(curve_other (h s hs)).2.1]; simp
  · exact List.filterMap_eq_nil_iff.2 fun s hs => (curve_other (h s hs)).2.2

open Classical in
theorem seen_face {E : List (Edge K)} {Q points : List (V3 K)} {edges : List (Edge K)} (hc : Ctx E Q points edges) {account : ℕ} :
    ∀ {cs : List (List (Edge K))} {D R : List (Edge K)} {loops : ℕ} {S : List (Stmt K)} {s : State}, E = D ++ (cs.flatten ++ R) → Seen points edges account D S s →
    ∃ l ts s', faceTurns points edges account loops s cs = .ok (l, ts, s') ∧ Seen points edges account (D ++ cs.flatten) (S ++ l) s' ∧
      List.Forall₂ (ContourDrawn (S ++ l)) ts cs ∧ Counts l (cs.flatten.countP (fun e : Edge K => decide (e ∈ edges))) 0
  | [], D, R, loops, S, s, _, h => ⟨[], [], s, rfl, by simpa using h, List.Forall₂.nil, ⟨rfl, rfl, rfl, rfl⟩⟩
  | c :: cs, D, R, loops, S, s, hE, h => by
    obtain ⟨o, s1, h1, hs1, hr, hn, hl⟩ := seen_contour (c := c) (D := D) (R := cs.flatten ++ R) hc (by simpa using hE) h
    have hs1' : Seen points edges account (D ++ c) ((S ++ o.lines) ++ [.loop (loops + 1) o.tags]) s1 := by
      refine ⟨hs1.points.append _, hs1.length, hs1.account, fun i f hi hf => ?_⟩
      obtain ⟨t, a1, a2, m, a3, a4, a5⟩ := hs1.check i f hi hf
      exact ⟨t, a1, a2, m, List.mem_append_left _ a3, a4, a5.mono (List.subset_append_left _ _)⟩
    obtain ⟨l2, ts2, s2, h2, hs2, hr2, hn2⟩ := seen_face (cs := cs) (D := D ++ c) (R := R) (loops := loops + 1) hc (by simpa using hE) hs1'
    have e : S ++ (o.lines ++ .loop (loops + 1) o.tags :: l2) = ((S ++ o.lines) ++ [.loop (loops + 1) o.tags]) ++ l2 := by simp
    refine ⟨o.lines ++ .loop (loops + 1) o.tags :: l2, (loops + 1) :: ts2, s2, ?_, ?_, ?_, ?_⟩
    · rw [faceTurns, h1]
      change (faceTurns points edges account (loops + 1) s1 cs).bind _ = _
      rw [h2]; rfl
    · rw [e]; simpa using hs2
    · rw [e]
      refine List.Forall₂.cons ⟨o.tags, by simp, ?_⟩ hr2
      refine hr.imp fun t f => Reads.mono ?_
      rw [List.append_assoc]
      exact List.subset_append_left _ _
    · have h3 := (counts_curves hl).append (Counts.append ⟨rfl, rfl, rfl, rfl⟩ hn2 : Counts ([.loop (loops + 1) o.tags] ++ l2) (0 + _) (0 + 0))
      rw [List.singleton_append] at h3
      rw [hn] at h3
      rw [List.flatten_cons, List.countP_append]
      simpa using h3

open Classical in
theorem seen_shell {E : List (Edge K)} {Q points : List (V3 K)} {edges : List (Edge K)} (hc : Ctx E Q points edges) {account : ℕ} :
    ∀ {fs : List (Face K)} {D R : List (Edge K)} {loops surfaces : ℕ} {S : List (Stmt K)} {s : State}, E = D ++ (edgesOf fs ++ R) → Seen points edges account D S s →
    ∃ l loops' s', shellTurns points edges account loops surfaces s fs = .ok (l, loops', s') ∧ Seen points edges account (D ++ edgesOf fs) (S ++ l) s' ∧
      List.Forall₂ (FaceDrawn (S ++ l)) ((List.range fs.length).map fun k : ℕ => surfaces + 1 + k) fs ∧
      Counts l ((edgesOf fs).countP (fun e : Edge K => decide (e ∈ edges))) fs.length
  | [], D, R, loops, surfaces, S, s, _, h => ⟨[], loops, s, rfl, by simpa [edgesOf] using h, List.Forall₂.nil, ⟨rfl, rfl, rfl, rfl⟩⟩
  | f :: fs, D, R, loops, surfaces, S, s, hE, h => by
    have hcons : edgesOf (f :: fs) = f.contours.flatten ++ edgesOf fs := by simp [edgesOf]
    rw [hcons] at hE
    obtain ⟨l1, ts, s1, h1, hs1, hr, hn⟩ := seen_face (cs := f.contours) (D := D) (R := edgesOf fs ++ R) (loops := loops) hc (by simpa using hE) h
    have hs1' : Seen points edges account (D ++ f.contours.flatten) ((S ++ l1) ++ [.surface f.plane (surfaces + 1) ts]) s1 := by
      refine ⟨hs1.points.append _, hs1.length, hs1.account, fun i f hi hf => ?_⟩
      obtain ⟨t, a1, a2, m, a3, a4, a5⟩ := hs1.check i f hi hf
      exact ⟨t, a1, a2, m, List.mem_append_left _ a3, a4, a5.mono (List.subset_append_left _ _)⟩
    obtain ⟨l2, loops2, s2, h2, hs2, hr2, hn2⟩ := seen_shell (fs := fs) (D := D ++ f.contours.flatten) (R := R) (loops := loops + ts.length) (surfaces := surfaces + 1)
      hc (by simpa using hE) hs1'
    have e : S ++ (l1 ++ .surface f.plane (surfaces + 1) ts :: l2) = ((S ++ l1) ++ [.surface f.plane (surfaces + 1) ts]) ++ l2 := by simp
    refine ⟨l1 ++ .surface f.plane (surfaces + 1) ts :: l2, loops2, s2, ?_, ?_, ?_, ?_⟩
    · rw [shellTurns, h1]
      change (shellTurns points edges account (loops + ts.length) (surfaces + 1) s1 fs).bind _ = _
      rw [h2]; rfl
    · rw [e, hcons]; simpa using hs2
    · rw [e, List.length_cons, List.range_succ_eq_map, List.map_cons, List.map_map]
      refine List.Forall₂.cons ⟨ts, by simp, hr.imp fun t f => ContourDrawn.mono ?_⟩ ?_
      · rw [List.append_assoc]
        exact List.subset_append_left _ _
      · have : ((fun k : ℕ => surfaces + 1 + k) ∘ Nat.succ) = fun k : ℕ => surfaces + 1 + 1 + k := by funext k; simp only [Function.comp, Nat.succ_eq_add_one]; omega
        rw [this]
        exact hr2
    · have h3 := hn.append (Counts.append ⟨rfl, rfl, rfl, rfl⟩ hn2 : Counts ([.surface f.plane (surfaces + 1) ts] ++ l2) (0 + _) (1 + _))
      rw [List.singleton_append] at h3
      rw [hcons, List.countP_append, List.length_cons]
      have e2 : (0 : ℕ) + (1 + fs.length) = fs.length + 1 := by omega
      rw [e2] at h3
      simpa using h3

/-! ### Shells and models -/

open Classical in
theorem drawn_shell {order : List (V3 K) → List (V3 K)} (ho : ∀ l p, p ∈ order l ↔ p ∈ l) (d : Accounts) {faces : List (Face K)} (hs : Separated faces)
    (hp : ∀ e ∈ edgesOf faces, e.Plain) (S : List (Stmt K)) :
    ∃ l d', shellLines order d faces = .ok (l, d') ∧ ShellDrawn (S ++ l) (1 + d.surfaceLoop) faces ∧
      l.countP Stmt.isCurve = (edgesOf faces).countP (fun e : Edge K => decide (e ∈ shellEdges faces)) ∧ l.countP Stmt.isSurface = faces.length ∧
      l.countP Stmt.isSurfaceLoop = 1 ∧ l.filterMap Stmt.volume? = [] ∧ shellEdges faces = (edgesOf faces).foldl addNew [] := by
  have hQ := hs.exact
  have hin : ∀ e ∈ edgesOf faces, e.points ⊆ (edgesOf faces).flatMap Edge.points := fun e he p hpe => List.mem_flatMap.2 ⟨e, he, hpe⟩
  obtain ⟨hm, hsub⟩ := addPoints_fold hQ order ho (allContours faces) [] (fun c hc e he => hin e (List.mem_flatten.2 ⟨c, hc, he⟩)) (by simp)
  have hedges : shellEdges faces = (edgesOf faces).foldl addNew [] := addEdge_eq hQ (edgesOf faces) [] (fun e he => ⟨hin e he, hp e he⟩) (by simp)
  have ctx : Ctx (edgesOf faces) ((edgesOf faces).flatMap Edge.points) (shellPoints order faces) (shellEdges faces) :=
    ⟨hQ, fun e he => ⟨hin e he, hp e he⟩, hsub, fun e he p hpe => (hm p).2 (Or.inl (List.mem_flatMap.2 ⟨e, he, hpe⟩)), hedges⟩
  have h0 : Seen (shellPoints order faces) (shellEdges faces) d.point []
      (S ++ (shellPoints order faces).zipIdx.map (fun pi : V3 K × ℕ => Stmt.point (pi.2 + d.point + 1) pi.1))
      ⟨List.replicate (shellEdges faces).length none, d.line + 1⟩ := by
    refine ⟨?_, by simp, Nat.succ_pos _, fun i f _ hf => absurd hf (by simp)⟩
    intro i p hpi
    have := points_defined d.point (shellPoints order faces) S i p hpi
    rwa [show i + 1 + d.point = i + d.point + 1 by omega]
  obtain ⟨l, loops', s', h1, hs1, hr, hn⟩ := seen_shell (fs := faces) (D := []) (R := []) (loops := d.lineLoop) (surfaces := d.surface) ctx (by simp) h0
  have hpts : Counts ((shellPoints order faces).zipIdx.map (fun pi : V3 K × ℕ => Stmt.point (pi.2 + d.point + 1) pi.1)) 0 0 := by
    refine ⟨?_, ?_, ?_, ?_⟩
    · exact List.countP_eq_zero.2 fun s hs => by obtain ⟨x, -, rfl⟩ := List.mem_map.1 hs; simp [Stmt.isCurve]
    · exact List.countP_eq_zero.2 fun s hs => by obtain ⟨x, -, rfl⟩ := List.mem_map.1 hs; simp [Stmt.isSurface]
    · exact List.countP_eq_zero.2 fun s hs => by obtain ⟨x, -, rfl⟩ := List.mem_map.1 hs; simp [Stmt.isSurfaceLoop]
    · exact List.filterMap_eq_nil_iff.2 fun s hs => by obtain ⟨x, -, rfl⟩ := List.mem_map.1 hs; rfl
  have hall := hpts.append hn
  have hok : shellLines order d faces = .ok ((shellPoints order faces).zipIdx.map (fun pi : V3 K × ℕ => Stmt.point (pi.2 + d.point + 1) pi.1) ++ l ++
      [.surfaceLoop (1 + d.surfaceLoop) ((List.range faces.length).map fun k : ℕ => d.surface + 1 + k)],
      ⟨d.point + (shellPoints order faces).length, d.line + (s'.lineAccount - 1), d.lineLoop + loops', d.surface + faces.length, d.surfaceLoop + 1⟩) := by
    unfold shellLines
    dsimp only
    rw [h1]; rfl
  refine ⟨_, _, hok, ?_, ?_, ?_, ?_, ?_, hedges⟩
  · refine ⟨(List.range faces.length).map fun k : ℕ => d.surface + 1 + k, by simp, hr.imp fun t f => FaceDrawn.mono ?_⟩
    rw [← List.append_assoc, ← List.append_assoc]
    exact List.subset_append_left _ _
  · rw [List.countP_append, hall.curves]; simp [Stmt.isCurve]
  · rw [List.countP_append, hall.surfaces]; simp [Stmt.isSurface]
  · rw [List.countP_append, hall.loops]; simp [Stmt.isSurfaceLoop]
  · rw [List.filterMap_append, hall.volumes]; simp [Stmt.volume?]

open Classical in
theorem drawn_model {order : List (V3 K) → List (V3 K)} (ho : ∀ l p, p ∈ order l ↔ p ∈ l) :
    ∀ (prims : List (Prim K)) (volume : ℕ) (d : Accounts) (lines : List (Stmt K)),
    (∀ faces ∈ prims.filterMap Prim.faces?, Separated faces ∧ ∀ e ∈ edgesOf faces, e.Plain) →
    ∃ more, modelTurns order volume d lines prims = .ok (lines ++ more) ∧
      (∃ tags, List.Forall₂ (ShellDrawn (lines ++ more)) tags (prims.filterMap Prim.faces?)) ∧
      List.Forall₂ (fun kt faces => ShellDrawn (lines ++ more) kt.2 faces) (more.filterMap Stmt.volume?) (prims.filterMap Prim.closed?) ∧
      (more.filterMap Stmt.volume?).map Prod.fst = List.range' (volume + 1) (prims.filterMap Prim.closed?).length ∧
      more.countP Stmt.isSurface = ((prims.filterMap Prim.faces?).map List.length).sum ∧
      more.countP Stmt.isSurfaceLoop = (prims.filterMap Prim.faces?).length ∧
      more.countP Stmt.isCurve = ((prims.filterMap Prim.faces?).map fun faces : List (Face K) =>
        (edgesOf faces).countP (fun e : Edge K => decide (e ∈ (edgesOf faces).foldl addNew []))).sum
  | [], volume, d, lines, _ => ⟨[], by simp [modelTurns], ⟨[], List.Forall₂.nil⟩, List.Forall₂.nil, rfl, rfl, rfl, rfl⟩
  | .other :: prims, volume, d, lines, h => drawn_model ho prims volume d lines h
  | .opened faces :: prims, volume, d, lines, h => by
    obtain ⟨hs, hp⟩ := h faces List.mem_cons_self
    obtain ⟨l, d', h1, h2, h3, h4, h5, h6, h7⟩ := drawn_shell ho d hs hp lines
    obtain ⟨more, g1, ⟨tags, g2⟩, g3, g4, g5, g6, g7⟩ := drawn_model ho prims volume d' (lines ++ l) fun f hf => h f (List.mem_cons_of_mem _ hf)
    have e : lines ++ (l ++ more) = lines ++ l ++ more := by rw [List.append_assoc]
    have ef : (Prim.opened faces :: prims).filterMap Prim.faces? = faces :: prims.filterMap Prim.faces? := rfl
    have ec : (Prim.opened faces :: prims).filterMap Prim.closed? = prims.filterMap Prim.closed? := rfl
    rw [ef, ec]
    refine ⟨l ++ more, ?_, ⟨(1 + d.surfaceLoop) :: tags, ?_⟩, ?_, ?_, ?_, ?_, ?_⟩
    · rw [modelTurns, h1, e]; exact g1
    · rw [e]; exact List.Forall₂.cons (h2.mono (List.subset_append_left _ _)) g2
    · rw [e, List.filterMap_append, h6]; exact g3
    · rw [List.filterMap_append, h6]; exact g4
    · rw [List.countP_append, h4, g5, List.map_cons, List.sum_cons]
    · rw [List.countP_append, h5, g6, List.length_cons]; omega
    · rw [List.countP_append, h3, g7, List.map_cons, List.sum_cons, h7]
  | .closed faces :: prims, volume, d, lines, h => by
    obtain ⟨hs, hp⟩ := h faces List.mem_cons_self
    obtain ⟨l, d', h1, h2, h3, h4, h5, h6, h7⟩ := drawn_shell ho d hs hp lines
    obtain ⟨more, g1, ⟨tags, g2⟩, g3, g4, g5, g6, g7⟩ := drawn_model ho prims (volume + 1) d' (lines ++ l ++ [.volume (volume + 1) (1 + d.surfaceLoop)])
      fun f hf => h f (List.mem_cons_of_mem _ hf)
    have e : lines ++ (l ++ [.volume (volume + 1) (1 + d.surfaceLoop)] ++ more) = lines ++ l ++ [.volume (volume + 1) (1 + d.surfaceLoop)] ++ more := by simp
    have ef : (Prim.closed faces :: prims).filterMap Prim.faces? = faces :: prims.filterMap Prim.faces? := rfl
    have ec : (Prim.closed faces :: prims).filterMap Prim.closed? = faces :: prims.filterMap Prim.closed? := rfl
    have hd : ShellDrawn (lines ++ l ++ [.volume (volume + 1) (1 + d.surfaceLoop)] ++ more) (1 + d.surfaceLoop) faces := by
      refine h2.mono ?_
      rw [List.append_assoc (lines ++ l)]
      exact List.subset_append_left _ _
    rw [ef, ec]
    refine ⟨l ++ [.volume (volume + 1) (1 + d.surfaceLoop)] ++ more, ?_, ⟨(1 + d.surfaceLoop) :: tags, ?_⟩, ?_, ?_, ?_, ?_, ?_⟩
    · rw [modelTurns, h1, e]
      have hl := last_shell h1
      have hlast : (lines ++ l).getLast? = some (.surfaceLoop (1 + d.surfaceLoop) ((List.range faces.length).map fun k : ℕ => d.surface + 1 + k)) := by
        rw [List.getLast?_append, hl]; rfl
      change (match (lines ++ l).getLast? with
        | none => Except.error PyErr.indexError
        | some last => modelTurns order (volume + 1) d' (lines ++ l ++ [Stmt.volume (volume + 1) last.tag]) prims) = _
      rw [hlast]
      exact g1
    · rw [e]; exact List.Forall₂.cons hd g2
    · rw [e, List.filterMap_append, List.filterMap_append, h6]; exact List.Forall₂.cons hd g3
    · rw [List.filterMap_append, List.filterMap_append, h6, List.length_cons, List.range'_succ, ← g4]; rfl
    · rw [List.countP_append, List.countP_append, h4, g5, List.map_cons, List.sum_cons]; simp [Stmt.isSurface]
    · rw [List.countP_append, List.countP_append, h5, g6, List.length_cons]; simp [Stmt.isSurfaceLoop]; omega
    · rw [List.countP_append, List.countP_append, h3, g7, List.map_cons, List.sum_cons, h7]; simp [Stmt.isCurve]

/-- Every shell of the model is a surface loop of the file, and the volumes of the file are those bounded by the closed shells, numbered from one in their order;
there are no other surfaces nor surface loops. -/
def Describes (S : List (Stmt K)) (prims : List (Prim K)) : Prop :=
  (∃ tags, List.Forall₂ (ShellDrawn S) tags (prims.filterMap Prim.faces?)) ∧
  List.Forall₂ (fun kt faces => ShellDrawn S kt.2 faces) (S.filterMap Stmt.volume?) (prims.filterMap Prim.closed?) ∧
  (S.filterMap Stmt.volume?).map Prod.fst = List.range' 1 (prims.filterMap Prim.closed?).length ∧
  S.countP Stmt.isSurface = ((prims.filterMap Prim.faces?).map List.length).sum ∧
  S.countP Stmt.isSurfaceLoop = (prims.filterMap Prim.faces?).length

/-- **C126** the file describes the volume model, when the edges of the shells are segments and arcs less than a half circle, and different points are farther than
the tolerance. -/
theorem C126_describes_partial (order : List (V3 K) → List (V3 K)) (ho : ∀ l p, p ∈ order l ↔ p ∈ l) (prims : List (Prim K))
    (h : ∀ faces ∈ prims.filterMap Prim.faces?, Separated faces ∧ ∀ e ∈ edgesOf faces, e.Plain) :
    ∃ S, modelLines order prims = .ok S ∧ WellFormed S ∧ Describes S prims := by
  classical
  obtain ⟨S, h1, h2, h3, h4, h5, h6, -⟩ := drawn_model ho prims 0 ⟨0, 0, 0, 0, 0⟩ [] h
  exact ⟨S, h1, C126_well_formed order prims S h1, h2, h3, h4, h5, h6⟩

/-- **C126** when each edge of each shell is met once in each direction, as in a closed oriented shell, it is written once: there are half as many curves in the file as
edges in the contours. -/
theorem C126_edges_once (order : List (V3 K) → List (V3 K)) (ho : ∀ l p, p ∈ order l ↔ p ∈ l) (prims : List (Prim K))
    (h : ∀ faces ∈ prims.filterMap Prim.faces?, Separated faces ∧ ∀ e ∈ edgesOf faces, e.Plain)
    (hor : ∀ faces ∈ prims.filterMap Prim.faces?, (edgesOf faces).Nodup ∧ ∀ e ∈ edgesOf faces, e.reverse ∈ edgesOf faces) (S : List (Stmt K))
    (hS : modelLines order prims = .ok S) : 2 * S.countP Stmt.isCurve = ((prims.filterMap Prim.faces?).map fun faces : List (Face K) => (edgesOf faces).length).sum := by
  classical
  obtain ⟨S', h1, -, -, -, -, -, h7⟩ := drawn_model ho prims 0 ⟨0, 0, 0, 0, 0⟩ [] h
  obtain rfl : S' = S := by
    have := h1.symm.trans hS
    simpa using this
  rw [h7, ← List.sum_map_mul_left]
  congr 1
  refine List.map_congr_left fun faces hf => ?_
  obtain ⟨hnd, hrev⟩ := hor faces hf
  have hp := (h faces hf).2
  generalize hE : edgesOf faces = E at hnd hrev hp
  have hpw := addNew_new E [] List.Pairwise.nil
  have hndr : (E.foldl addNew []).Nodup := hpw.imp fun h => h.1
  have hsub : E.foldl addNew [] ⊆ E := by simpa using addNew_sub E []
  have hinj : Function.Injective (Edge.reverse : Edge K → Edge K) := fun a b h => by rw [← reverse_reverse a, h, reverse_reverse]
  have hcount : E.countP (fun e : Edge K => decide (e ∈ E.foldl addNew [])) = (E.foldl addNew []).length := by
    rw [List.countP_eq_length_filter]
    refine List.Perm.length_eq ((List.perm_ext_iff_of_nodup (hnd.filter _) hndr).2 fun e => ?_)
    rw [List.mem_filter, decide_eq_true_iff]
    exact ⟨fun h => h.2, fun h => ⟨hsub h, h⟩⟩
  have hdis : ∀ e ∈ E.foldl addNew [], e.reverse ∉ E.foldl addNew [] := by
    intro e he hr
    have hsym : (E.foldl addNew []).Pairwise fun x y => x ≠ y.reverse := hpw.imp fun h => h.2
    have hne : e ≠ e.reverse := (hp e (hsub he)).ne_reverse
    have : Std.Symm fun x y : Edge K => x ≠ y.reverse := ⟨fun x y hxy e' => hxy (by rw [e', reverse_reverse])⟩
    have := List.Pairwise.forall_of_forall (fun x hx => (hp x (hsub hx)).ne_reverse) hsym he hr
    exact this (reverse_reverse e).symm
  have hperm : E.Perm (E.foldl addNew [] ++ (E.foldl addNew []).map Edge.reverse) := by
    refine (List.perm_ext_iff_of_nodup hnd ?_).2 fun e => ?_
    · rw [List.nodup_append]
      refine ⟨hndr, hndr.map hinj, ?_⟩
      intro a ha b hb hab
      obtain ⟨c, hc, rfl⟩ := List.mem_map.1 hb
      subst hab
      exact hdis c hc ha
    · rw [List.mem_append]
      constructor
      · intro he
        obtain ⟨D, R, hDR⟩ := List.append_of_mem he
        rcases addNew_before D R e with hb | hb
        · left; rw [hDR]; exact hb
        · right
          rw [hDR]
          exact List.mem_map.2 ⟨e.reverse, hb.1, reverse_reverse e⟩
      · rintro (he | he)
        · exact hsub he
        · obtain ⟨f, hf, rfl⟩ := List.mem_map.1 he
          exact hrev f (hsub hf)
  rw [hcount]
  have := hperm.length_eq
  rw [List.length_append, List.length_map] at this
  omega

/-! ### Examples -/

instance (a c m b : V3 K) : Decidable (Minor a c m b) := by unfold Minor; infer_instance
instance (e : Edge K) : Decidable e.Plain := by cases e <;> unfold Edge.Plain <;> infer_instance
instance (f : List (Face K)) : Decidable (Separated f) := by unfold Separated; infer_instance

/-- A circular segment and its back, as a closed shell, with an open shell and another object before it. -/
def plainModel : List (Prim ℚ) :=
  let o : V3 ℚ := ⟨0, 0, 0⟩
  let a : V3 ℚ := ⟨4, -3, 0⟩
  let m : V3 ℚ := ⟨5, 0, 0⟩
  let b : V3 ℚ := ⟨4, 3, 0⟩
  let c : V3 ℚ := ⟨4, 0, 0⟩
  [.opened [⟨true, [[.seg a b, .seg b o, .seg o a]]⟩, ⟨true, [[.seg b a, .seg a c, .seg c b]]⟩], .other,
   .closed [⟨true, [[.seg b a, .arc a o m b]]⟩, ⟨false, [[.seg a b, .arc b o m a]]⟩]]

theorem plainModel_fine : ∀ faces ∈ plainModel.filterMap Prim.faces?, Separated faces ∧ ∀ e ∈ edgesOf faces, e.Plain := by decide +kernel

example : ∃ S, modelLines List.reverse plainModel = .ok S ∧ WellFormed S ∧ Describes S plainModel :=
  C126_describes_partial List.reverse (fun _ _ => List.mem_reverse) plainModel plainModel_fine

example : ∃ S : List (Stmt ℚ), modelLines id (plainModel.drop 1) = .ok S ∧ 2 * S.countP Stmt.isCurve = 4 := by
  have h : ∀ faces ∈ (plainModel.drop 1).filterMap Prim.faces?, Separated faces ∧ ∀ e ∈ edgesOf faces, e.Plain := by decide +kernel
  obtain ⟨S, hS, -⟩ := C126_describes_partial id (fun _ _ => Iff.rfl) (plainModel.drop 1) h
  exact ⟨S, hS, C126_edges_once id (fun _ _ => Iff.rfl) (plainModel.drop 1) h (by decide +kernel) S hS⟩

/-! ### The other edges -/

/-- The edges that contours may have. -/
def Edge.Valid : Edge K → Prop
  | .seg a b => a ≠ b
  | .arc a c m b => a ≠ m ∧ b ≠ m ∧ a ≠ c
  | .spline l => 2 ≤ l.length

/-- The full statement of C126: the same for all edges. -/
def C126_full_statement (K : Type*) [Field K] [LinearOrder K] [IsStrictOrderedRing K] : Prop :=
  ∀ (order : List (V3 K) → List (V3 K)), (∀ l p, p ∈ order l ↔ p ∈ l) → ∀ prims : List (Prim K),
    (∀ faces ∈ prims.filterMap Prim.faces?, Separated faces ∧ ∀ e ∈ edgesOf faces, e.Valid) →
    ∃ S, modelLines order prims = .ok S ∧ WellFormed S ∧ Describes S prims

instance (e : Edge K) : Decidable e.Valid := by cases e <;> unfold Edge.Valid <;> infer_instance

/-- What a description says of a model with one face of one contour. -/
theorem one_contour {S : List (Stmt K)} {c : List (Edge K)} (h : Describes S [.closed [⟨true, [c]⟩]]) : ∃ t ts, .loop t ts ∈ S ∧ List.Forall₂ (Reads S) ts c := by
  obtain ⟨⟨tags, ht⟩, -⟩ := h
  cases ht with
  | cons h1 _ =>
    obtain ⟨ss, -, hf⟩ := h1
    cases hf with
    | cons h2 _ =>
      obtain ⟨ls, -, hl⟩ := h2
      cases hl with
      | cons h3 _ =>
        obtain ⟨ts, h4, h5⟩ := h3
        exact ⟨_, ts, h4, h5⟩

/-- The lines of a model with one face of one contour. -/
def oneContour (c : List (Edge ℚ)) : List (Prim ℚ) := [.closed [⟨true, [c]⟩]]

/-- The end of a refutation: the file is computed, and none of its loops goes along the contour. -/
theorem refute {c : List (Edge ℚ)} (S : List (Stmt ℚ)) (hS : (match modelLines id (oneContour c) with
    | .ok T => decide (T = S)
    | .error _ => false) = true) (hfine : ∀ faces ∈ (oneContour c).filterMap Prim.faces?, Separated faces ∧ ∀ e ∈ edgesOf faces, e.Valid)
    (hno : ∀ t ts, Stmt.loop t ts ∈ S → ¬ List.Forall₂ (Reads S) ts c) : ¬ C126_full_statement ℚ := by
  intro h
  obtain ⟨T, hT, -, hd⟩ := h id (fun _ _ => Iff.rfl) (oneContour c) hfine
  rw [hT] at hS
  obtain rfl : T = S := of_decide_eq_true hS
  obtain ⟨t, ts, h1, h2⟩ := one_contour hd
  exact hno t ts h1 h2

/-- **C126** the full statement is false for full circles: the loop takes the circle forwards and then backwards. -/
theorem C126_circle_counterexample : ¬ C126_full_statement ℚ := by
  refine refute (c := [.arc ⟨1, 0, 0⟩ ⟨0, 0, 0⟩ ⟨-1, 0, 0⟩ ⟨1, 0, 0⟩])
    [.point 1 ⟨1, 0, 0⟩, .point 2 ⟨0, 0, 0⟩, .circle 1 1 2 1, .loop 1 [1, -1], .surface true 1 [1], .surfaceLoop 1 [1], .volume 1 1] (by decide +kernel)
    (by decide +kernel) ?_
  intro t ts hm hf
  simp at hm
  rw [hm.2] at hf
  have := hf.length_eq
  simp at this

/-- **C126** the full statement is false for arcs of more than a half circle: the line written is that of the rest of the circle. -/
theorem C126_arc_counterexample : ¬ C126_full_statement ℚ := by
  refine refute (c := [.arc ⟨4, 3, 0⟩ ⟨0, 0, 0⟩ ⟨-5, 0, 0⟩ ⟨4, -3, 0⟩, .seg ⟨4, -3, 0⟩ ⟨4, 3, 0⟩])
    [.point 1 ⟨4, 3, 0⟩, .point 2 ⟨0, 0, 0⟩, .point 3 ⟨4, -3, 0⟩, .circle 1 1 2 3, .line 2 3 1, .loop 1 [1, 2], .surface true 1 [1], .surfaceLoop 1 [1],
      .volume 1 1] (by decide +kernel) (by decide +kernel) ?_
  intro t ts hm hf
  simp at hm
  rw [hm.2] at hf
  cases hf with
  | cons h _ =>
    obtain ⟨s, hs, hk, hd⟩ := h
    rcases hd with ⟨-, hd⟩ | ⟨h', -⟩
    · cases s <;> simp [Draws] at hd
      exact absurd hd.2.2.2 (by decide +kernel)
    · exact absurd h' (by decide)

/-- **C126** the same arc and the arc of less than a half circle with the same ends give the same file. -/
theorem C126_same_file_counterexample (m : V3 ℚ) (hm : m = ⟨5, 0, 0⟩ ∨ m = ⟨-5, 0, 0⟩) :
    (match modelLines id (oneContour [.arc ⟨4, 3, 0⟩ ⟨0, 0, 0⟩ m ⟨4, -3, 0⟩, .seg ⟨4, -3, 0⟩ ⟨4, 3, 0⟩]) with
      | .ok T => decide (T = [.point 1 ⟨4, 3, 0⟩, .point 2 ⟨0, 0, 0⟩, .point 3 ⟨4, -3, 0⟩, .circle 1 1 2 3, .line 2 3 1, .loop 1 [1, 2], .surface true 1 [1],
        .surfaceLoop 1 [1], .volume 1 1])
      | .error _ => false) = true := by
  rcases hm with rfl | rfl <;> decide +kernel

/-- **C126** the full statement is false for B-splines: only the segment between the first two discretization points is written, and the loop is not closed. -/
theorem C126_spline_counterexample : ¬ C126_full_statement ℚ := by
  refine refute (c := [.spline [⟨0, 0, 0⟩, ⟨1, 1, 0⟩, ⟨2, 0, 0⟩], .seg ⟨2, 0, 0⟩ ⟨0, 0, 0⟩])
    [.point 1 ⟨0, 0, 0⟩, .point 2 ⟨1, 1, 0⟩, .point 3 ⟨2, 0, 0⟩, .line 1 1 2, .line 2 3 1, .loop 1 [1, 2], .surface true 1 [1], .surfaceLoop 1 [1],
      .volume 1 1] (by decide +kernel) (by decide +kernel) ?_
  intro t ts hm hf
  simp at hm
  rw [hm.2] at hf
  cases hf with
  | cons h _ =>
    obtain ⟨s, hs, hk, hd⟩ := h
    rcases hd with ⟨-, hd⟩ | ⟨h', -⟩
    · simp at hs
      rcases hs with rfl | rfl | rfl | rfl | rfl | rfl | rfl | rfl | rfl <;> simp [key, Draws] at hk hd
    · exact absurd h' (by decide)

end Volmdlr.Geo
