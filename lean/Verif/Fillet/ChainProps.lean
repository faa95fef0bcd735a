import Verif.Fillet.Model

/-!
# C84: the chain of lines and arcs of a rounded polyline
-/

namespace Volmdlr.Fillet

section
variable {α : Type*} (close : α → α → Bool) (point : ℕ → α) (arcs : ℕ → Option (α × α × α))

/-! ## Specification -/

/-- Where the rounded polyline arrives at the corner `i`: the start of its arc, or the point itself. -/
def arrive (i : ℕ) : α :=
  match arcs i with
  | some (s, _, _) => s
  | none => point i

/-- Where it leaves the corner `i`. -/
def leave (i : ℕ) : α :=
  match arcs i with
  | some (_, _, e) => e
  | none => point i

/-- Equal or within the tolerance. -/
def Near (p q : α) : Prop := p = q ∨ close p q = true

/-- Equal up to at most two tolerances. -/
def Near2 (p q : α) : Prop := ∃ m, Near close p m ∧ Near close m q

/-- Each primitive starts where the previous one ends (up to the tolerance, twice). -/
def Connected (l : List (Prim α)) : Prop := l.IsChain fun p q => Near2 close p.fin q.start

/-- The three points of a primitive that is an arc. -/
def arcOf : Prim α → Option (α × α × α)
  | .line _ _ => none
  | .arc s m e => some (s, m, e)

/-! ## Proof -/

variable {close point arcs}

theorem Near.refl (p : α) : Near close p p := Or.inl rfl
theorem Near.two {p q : α} (h : Near close p q) : Near2 close p q := ⟨q, h, Or.inl rfl⟩

/-- The state of the list after the first `m` lines. -/
structure Inv (close : α → α → Bool) (point : ℕ → α) (arcs : ℕ → Option (α × α × α)) (m : ℕ) (l : List (Prim α)) : Prop where
  conn : Connected close l
  head : ∀ p ∈ l.head?, Near close (arrive point arcs 0) p.start
  headArc : ∀ p ∈ l.head?, arcs 0 ≠ none → p.start = arrive point arcs 0
  last : ∀ p ∈ l.getLast?, Near2 close p.fin (arrive point arcs m)
  lastNone : arcs m = none → ∀ p ∈ l.getLast?, Near close p.fin (arrive point arcs m)
  empty : l = [] → m = 0 ∨ (m = 1 ∧ arcs 0 = none ∧ arcs 1 ≠ none ∧ close (arrive point arcs 0) (arrive point arcs 1) = true)

theorem connected_append {l r : List (Prim α)} (hl : Connected close l) (hr : Connected close r)
    (h : ∀ p ∈ l.getLast?, ∀ q ∈ r.head?, Near2 close p.fin q.start) : Connected close (l ++ r) :=
  List.IsChain.append hl hr h

theorem linePrims_some {m : ℕ} {s1 m1 e1 : α} (ha : arcs m = some (s1, m1, e1)) :
    ∃ r, linePrims close point arcs m = Prim.arc s1 m1 e1 :: r ∧
      ((r = [] ∧ close e1 (arrive point arcs (m + 1)) = true) ∨ r = [Prim.line e1 (arrive point arcs (m + 1))]) := by
  unfold linePrims arrive
  rw [ha]
  cases arcs (m + 1) with
  | some t => obtain ⟨s2, _, _⟩ := t; dsimp only; split <;> simp_all
  | none => dsimp only; split <;> simp_all

theorem linePrims_none {m : ℕ} (ha : arcs m = none) :
    (linePrims close point arcs m = [] ∧ arcs (m + 1) ≠ none ∧ close (point m) (arrive point arcs (m + 1)) = true) ∨
      linePrims close point arcs m = [Prim.line (point m) (arrive point arcs (m + 1))] := by
  unfold linePrims arrive
  rw [ha]
  cases arcs (m + 1) with
  | some t => obtain ⟨s2, _, _⟩ := t; dsimp only; split <;> simp_all
  | none => simp

theorem closingPrims_some {n : ℕ} {s1 m1 e1 : α} (ha : arcs (n - 1) = some (s1, m1, e1)) :
    ∃ r, closingPrims close point arcs n = Prim.arc s1 m1 e1 :: r ∧
      ((r = [] ∧ arcs 0 ≠ none ∧ close e1 (arrive point arcs 0) = true) ∨ r = [Prim.line e1 (arrive point arcs 0)]) := by
  unfold closingPrims arrive
  rw [ha]
  cases arcs 0 with
  | some t => obtain ⟨s2, _, _⟩ := t; dsimp only; split <;> simp_all
  | none => simp

theorem closingPrims_none {n : ℕ} (ha : arcs (n - 1) = none) :
    (closingPrims close point arcs n = [] ∧ arcs 0 ≠ none ∧ close (point (n - 1)) (arrive point arcs 0) = true) ∨
      closingPrims close point arcs n = [Prim.line (point (n - 1)) (arrive point arcs 0)] := by
  unfold closingPrims arrive
  rw [ha]
  cases arcs 0 with
  | some t => obtain ⟨s2, _, _⟩ := t; dsimp only; split <;> simp_all
  | none => simp

theorem Inv.step {m : ℕ} {l : List (Prim α)} (h : Inv close point arcs m l) :
    Inv close point arcs (m + 1) (l ++ linePrims close point arcs m) := by
  obtain ⟨hc, hh, hha, hl, hln, he⟩ := h
  have heads : ∀ q : Prim α, ∀ r : List (Prim α), l ≠ [] → ∀ p ∈ (l ++ q :: r).head?, p ∈ l.head? := by
    intro q r hne p hp
    cases l with
    | nil => exact absurd rfl hne
    | cons a t => simpa using hp
  cases ha : arcs m with
  | some t =>
    obtain ⟨s1, m1, e1⟩ := t
    have harr : arrive point arcs m = s1 := by unfold arrive; rw [ha]
    obtain ⟨r, hr, hrc⟩ := linePrims_some (close := close) (point := point) ha
    rw [hr]
    have hconn : Connected close (Prim.arc s1 m1 e1 :: r) := by
      rcases hrc with ⟨rfl, -⟩ | rfl
      · exact List.isChain_singleton _
      · exact List.isChain_cons_cons.mpr ⟨⟨e1, Near.refl _, Near.refl _⟩, List.isChain_singleton _⟩
    refine ⟨connected_append hc hconn ?_, ?_, ?_, ?_, ?_, ?_⟩
    · intro p hp q hq
      simp only [List.head?_cons, Option.mem_def, Option.some.injEq] at hq
      subst hq
      have := hl p hp
      rwa [harr] at this
    · intro p hp
      by_cases hne : l = []
      · subst hne
        simp only [List.nil_append, List.head?_cons, Option.mem_def, Option.some.injEq] at hp
        subst hp
        rcases he rfl with rfl | ⟨rfl, h0, h1, h2⟩
        · rw [harr]; exact Near.refl _
        · rw [harr] at h2; exact Or.inr h2
      · exact hh p (heads _ _ hne p hp)
    · intro p hp h0
      by_cases hne : l = []
      · subst hne
        simp only [List.nil_append, List.head?_cons, Option.mem_def, Option.some.injEq] at hp
        subst hp
        rcases he rfl with rfl | ⟨rfl, h0', h1, h2⟩
        · rw [harr]; rfl
        · exact absurd h0' h0
      · exact hha p (heads _ _ hne p hp) h0
    · intro p hp
      rcases hrc with ⟨rfl, h⟩ | rfl
      · simp at hp; subst hp; exact Near.two (Or.inr h)
      · simp at hp; subst hp; exact Near.two (Near.refl _)
    · intro _ p hp
      rcases hrc with ⟨rfl, h⟩ | rfl
      · simp at hp; subst hp; exact Or.inr h
      · simp at hp; subst hp; exact Near.refl _
    · intro h; simp at h
  | none =>
    have harr : arrive point arcs m = point m := by unfold arrive; rw [ha]
    have hnear := hln ha
    rw [harr] at hnear
    have hrc := linePrims_none (close := close) (point := point) ha
    generalize linePrims close point arcs m = r at hrc
    rcases hrc with ⟨rfl, h1, h2⟩ | rfl
    · rw [List.append_nil]
      refine ⟨hc, hh, hha, ?_, fun h => absurd h h1, ?_⟩
      · intro p hp; exact ⟨point m, hnear p hp, Or.inr h2⟩
      · intro hnil
        rcases he hnil with rfl | ⟨rfl, h0, h1', h2'⟩
        · exact Or.inr ⟨rfl, ha, h1, by rw [harr]; exact h2⟩
        · exact absurd ha h1'
    · refine ⟨connected_append hc (List.isChain_singleton _) ?_, ?_, ?_, ?_, ?_, ?_⟩
      · intro p hp q hq
        simp only [List.head?_cons, Option.mem_def, Option.some.injEq] at hq
        subst hq
        exact Near.two (hnear p hp)
      · intro p hp
        by_cases hne : l = []
        · subst hne
          simp only [List.nil_append, List.head?_cons, Option.mem_def, Option.some.injEq] at hp
          subst hp
          rcases he rfl with rfl | ⟨rfl, h0, h1, h2⟩
          · rw [harr]; exact Near.refl _
          · exact absurd ha h1
        · exact hh p (heads _ _ hne p hp)
      · intro p hp h0
        by_cases hne : l = []
        · subst hne
          simp only [List.nil_append, List.head?_cons, Option.mem_def, Option.some.injEq] at hp
          subst hp
          rcases he rfl with rfl | ⟨rfl, h0', h1, h2⟩
          · rw [harr]; rfl
          · exact absurd h0' h0
        · exact hha p (heads _ _ hne p hp) h0
      · intro p hp; simp at hp; subst hp; exact Near.two (Near.refl _)
      · intro _ p hp; simp at hp; subst hp; exact Near.refl _
      · intro h; simp at h

theorem inv_all (close : α → α → Bool) (point : ℕ → α) (arcs : ℕ → Option (α × α × α)) (m : ℕ) :
    Inv close point arcs m ((List.range m).flatMap fun i : ℕ => linePrims close point arcs i) := by
  induction m with
  | zero => exact ⟨List.isChain_nil, by simp, by simp, by simp, by simp, by simp⟩
  | succ m ih =>
    rw [List.range_succ, List.flatMap_append]
    simpa using ih.step

variable (close point arcs)

/-- C84, open polylines: the primitives form a chain (each starts where the previous one ends, up to the tolerance), the chain
is not empty, it starts at the first point and ends at the last point, up to the tolerance. -/
theorem C84_open (n : ℕ) (hn : 2 ≤ n) (h0 : arcs 0 = none) (hlast : arcs (n - 1) = none) :
    let l := primitivesFromArcs close point arcs n false
    Connected close l ∧ (∃ p, l.head? = some p ∧ Near close (point 0) p.start) ∧
      ∃ p, l.getLast? = some p ∧ Near close p.fin (point (n - 1)) := by
  have inv := inv_all close point arcs (n - 1)
  have e : primitivesFromArcs close point arcs n false = (List.range (n - 1)).flatMap fun i : ℕ => linePrims close point arcs i := by
    unfold primitivesFromArcs; simp
  dsimp only
  rw [e]
  generalize (List.range (n - 1)).flatMap (fun i : ℕ => linePrims close point arcs i) = l at inv
  have a0 : arrive point arcs 0 = point 0 := by unfold arrive; rw [h0]
  have a1 : arrive point arcs (n - 1) = point (n - 1) := by unfold arrive; rw [hlast]
  have hne : l ≠ [] := by
    intro h
    rcases inv.empty h with h | ⟨h, -, h1, -⟩
    · omega
    · rw [h] at hlast; exact h1 hlast
  refine ⟨inv.conn, ?_, ?_⟩
  · obtain ⟨p, hp⟩ := Option.isSome_iff_exists.mp (List.isSome_head?.mpr hne)
    exact ⟨p, hp, a0 ▸ inv.head p hp⟩
  · obtain ⟨p, hp⟩ := (⟨l.getLast hne, List.getLast?_eq_some_getLast hne⟩ : ∃ p, l.getLast? = some p)
    exact ⟨p, hp, a1 ▸ inv.lastNone hlast p hp⟩

/-- C84, closed polylines: the primitives form a cycle. -/
theorem C84_closed (n : ℕ) (hn : 2 ≤ n) :
    let l := primitivesFromArcs close point arcs n true
    Connected close l ∧ l ≠ [] ∧ ∀ p ∈ l.getLast?, ∀ q ∈ l.head?, Near2 close p.fin q.start := by
  have inv := inv_all close point arcs (n - 1)
  have e : primitivesFromArcs close point arcs n true = ((List.range (n - 1)).flatMap fun i : ℕ => linePrims close point arcs i) ++
      closingPrims close point arcs n := by
    unfold primitivesFromArcs; simp
  dsimp only
  rw [e]
  generalize (List.range (n - 1)).flatMap (fun i : ℕ => linePrims close point arcs i) = l at inv
  obtain ⟨hc, hh, hha, hl, hln, he⟩ := inv
  -- the closing primitives
  have heads : ∀ q : Prim α, ∀ r : List (Prim α), l ≠ [] → ∀ p ∈ (l ++ q :: r).head?, p ∈ l.head? := by
    intro q r hne p hp
    cases l with
    | nil => exact absurd rfl hne
    | cons a t => simpa using hp
  cases ha : arcs (n - 1) with
  | some t =>
    obtain ⟨s1, m1, e1⟩ := t
    have harr : arrive point arcs (n - 1) = s1 := by unfold arrive; rw [ha]
    obtain ⟨r, hr, hrc⟩ := closingPrims_some (close := close) (point := point) ha
    rw [hr]
    have hconn : Connected close (Prim.arc s1 m1 e1 :: r) := by
      rcases hrc with ⟨rfl, -⟩ | rfl
      · exact List.isChain_singleton _
      · exact List.isChain_cons_cons.mpr ⟨⟨e1, Near.refl _, Near.refl _⟩, List.isChain_singleton _⟩
    refine ⟨connected_append hc hconn ?_, by simp, ?_⟩
    · intro p hp q hq
      simp only [List.head?_cons, Option.mem_def, Option.some.injEq] at hq
      subst hq
      have := hl p hp
      rwa [harr] at this
    · intro p hp q hq
      have hq' : Near close (arrive point arcs 0) q.start ∧ (arcs 0 ≠ none → q.start = arrive point arcs 0) := by
        by_cases hne : l = []
        · subst hne
          simp only [List.nil_append, List.head?_cons, Option.mem_def, Option.some.injEq] at hq
          subst hq
          rcases he rfl with h | ⟨h, h0', h1, h2⟩
          · omega
          · rw [h] at harr; rw [harr] at h2
            exact ⟨Or.inr h2, fun hh => absurd h0' hh⟩
        · exact ⟨hh q (heads _ _ hne q hq), hha q (heads _ _ hne q hq)⟩
      rcases hrc with ⟨rfl, h0, h⟩ | rfl
      · simp at hp; subst hp
        rw [hq'.2 h0]; exact Near.two (Or.inr h)
      · simp at hp; subst hp
        exact ⟨arrive point arcs 0, Near.refl _, hq'.1⟩
  | none =>
    have harr : arrive point arcs (n - 1) = point (n - 1) := by unfold arrive; rw [ha]
    have hnear := hln ha
    rw [harr] at hnear
    have hne : l ≠ [] := by
      intro h
      rcases he h with h | ⟨h, -, h1, -⟩
      · omega
      · rw [h] at ha; exact h1 ha
    have hrc := closingPrims_none (close := close) (point := point) ha
    generalize closingPrims close point arcs n = r at hrc
    rcases hrc with ⟨rfl, h1, h2⟩ | rfl
    · rw [List.append_nil]
      refine ⟨hc, hne, ?_⟩
      intro p hp q hq
      rw [hha q hq h1]
      exact ⟨point (n - 1), hnear p hp, Or.inr h2⟩
    · refine ⟨connected_append hc (List.isChain_singleton _) ?_, by simp, ?_⟩
      · intro p hp q hq
        simp only [List.head?_cons, Option.mem_def, Option.some.injEq] at hq
        subst hq
        exact Near.two (hnear p hp)
      · intro p hp q hq
        have := hh q (heads _ _ hne q hq)
        simp at hp; subst hp
        exact ⟨arrive point arcs 0, Near.refl _, this⟩

/-- C84: the arcs are the arcs of the rounded corners, each once, in order (all of them for a closed polyline, all but that of
the last point, where no rounding is possible, for an open one). -/
theorem C84_arcs (n : ℕ) (hn : 1 ≤ n) (closed : Bool) :
    (primitivesFromArcs close point arcs n closed).filterMap arcOf =
      (List.range (if closed then n else n - 1)).filterMap arcs := by
  have h1 : ∀ i, (linePrims close point arcs i).filterMap arcOf = (arcs i).toList := by
    intro i
    unfold linePrims
    cases arcs i with
    | some t =>
      obtain ⟨s, m, e⟩ := t
      dsimp only
      rw [List.filterMap_cons]
      simp only [arcOf, Option.toList_some, List.cons.injEq, true_and]
      cases arcs (i + 1) with
      | some t => obtain ⟨s, m, e⟩ := t; dsimp only; split <;> simp [arcOf]
      | none => dsimp only; split <;> simp [arcOf]
    | none =>
      dsimp only
      cases arcs (i + 1) with
      | some t => obtain ⟨s, m, e⟩ := t; dsimp only; split <;> simp [arcOf]
      | none => simp [arcOf]
  have h2 : (closingPrims close point arcs n).filterMap arcOf = (arcs (n - 1)).toList := by
    unfold closingPrims
    cases arcs (n - 1) with
    | some t =>
      obtain ⟨s, m, e⟩ := t
      dsimp only
      rw [List.filterMap_cons]
      simp only [arcOf, Option.toList_some, List.cons.injEq, true_and]
      cases arcs 0 with
      | some t => obtain ⟨s, m, e⟩ := t; dsimp only; split <;> simp [arcOf]
      | none => simp [arcOf]
    | none =>
      dsimp only
      cases arcs 0 with
      | some t => obtain ⟨s, m, e⟩ := t; dsimp only; split <;> simp [arcOf]
      | none => simp [arcOf]
  have h3 : ∀ m, ((List.range m).flatMap fun i : ℕ => linePrims close point arcs i).filterMap arcOf = (List.range m).filterMap arcs := by
    intro m
    induction m with
    | zero => simp
    | succ m ih =>
      rw [List.range_succ, List.flatMap_append, List.filterMap_append, List.filterMap_append, ih]
      simp only [List.flatMap_cons, List.flatMap_nil, List.append_nil, h1]
      cases h : arcs m <;> simp [h]
  unfold primitivesFromArcs
  rw [List.filterMap_append, h3]
  cases closed with
  | false => simp
  | true =>
    simp only [if_true, h2]
    obtain ⟨k, rfl⟩ : ∃ k, n = k + 1 := ⟨n - 1, by omega⟩
    simp only [Nat.add_sub_cancel, List.range_succ, List.filterMap_append]
    cases h : arcs k <;> simp [h]

/-- C84: each straight part, from the end of a corner to the start of the next one, is there or is shorter than the tolerance. -/
theorem C84_lines (n : ℕ) (closed : Bool) :
    (∀ i, i + 1 < n → Prim.line (leave point arcs i) (arrive point arcs (i + 1)) ∈ primitivesFromArcs close point arcs n closed ∨
      close (leave point arcs i) (arrive point arcs (i + 1)) = true) ∧
    (closed = true → Prim.line (leave point arcs (n - 1)) (arrive point arcs 0) ∈ primitivesFromArcs close point arcs n closed ∨
      close (leave point arcs (n - 1)) (arrive point arcs 0) = true) := by
  constructor
  · intro i hi
    have key : Prim.line (leave point arcs i) (arrive point arcs (i + 1)) ∈ linePrims close point arcs i ∨
        close (leave point arcs i) (arrive point arcs (i + 1)) = true := by
      unfold linePrims leave arrive
      cases arcs i with
      | some t =>
        obtain ⟨s, m, e⟩ := t
        cases arcs (i + 1) with
        | some t => obtain ⟨s', m, e'⟩ := t; dsimp only; split <;> simp_all
        | none => dsimp only; split <;> simp_all
      | none =>
        cases arcs (i + 1) with
        | some t => obtain ⟨s', m, e'⟩ := t; dsimp only; split <;> simp_all
        | none => simp
    refine key.imp (fun h => ?_) id
    unfold primitivesFromArcs
    rw [List.mem_append, List.mem_flatMap]
    exact Or.inl ⟨i, List.mem_range.mpr (by omega), h⟩
  · intro hc
    have key : Prim.line (leave point arcs (n - 1)) (arrive point arcs 0) ∈ closingPrims close point arcs n ∨
        close (leave point arcs (n - 1)) (arrive point arcs 0) = true := by
      unfold closingPrims leave arrive
      cases arcs (n - 1) with
      | some t =>
        obtain ⟨s, m, e⟩ := t
        cases arcs 0 with
        | some t => obtain ⟨s', m, e'⟩ := t; dsimp only; split <;> simp_all
        | none => simp
      | none =>
        cases arcs 0 with
        | some t => obtain ⟨s', m, e'⟩ := t; dsimp only; split <;> simp_all
        | none => simp
    refine key.imp (fun h => ?_) id
    unfold primitivesFromArcs
    rw [List.mem_append, if_pos hc]
    exact Or.inr h

/-- C84: every line of the result is one of these straight parts. -/
theorem C84_only_lines (n : ℕ) (closed : Bool) (a b : α) (h : Prim.line a b ∈ primitivesFromArcs close point arcs n closed) :
    (∃ i, i + 1 < n ∧ a = leave point arcs i ∧ b = arrive point arcs (i + 1)) ∨
      (closed = true ∧ a = leave point arcs (n - 1) ∧ b = arrive point arcs 0) := by
  unfold primitivesFromArcs at h
  rw [List.mem_append, List.mem_flatMap] at h
  rcases h with ⟨i, hi, h⟩ | h
  · refine Or.inl ⟨i, by rw [List.mem_range] at hi; omega, ?_⟩
    cases ha : arcs i with
    | some t =>
      obtain ⟨s1, m1, e1⟩ := t
      obtain ⟨r, hr, hrc⟩ := linePrims_some (close := close) (point := point) ha
      rw [hr] at h
      rcases hrc with ⟨rfl, -⟩ | rfl
      · simp at h
      · simp at h; simp [leave, ha, h]
    | none =>
      rcases linePrims_none (close := close) (point := point) ha with ⟨hr, -⟩ | hr
      · rw [hr] at h; simp at h
      · rw [hr] at h; simp at h; simp [leave, ha, h]
  · cases closed with
    | false => simp at h
    | true =>
      refine Or.inr ⟨rfl, ?_⟩
      rw [if_pos rfl] at h
      cases ha : arcs (n - 1) with
      | some t =>
        obtain ⟨s1, m1, e1⟩ := t
        obtain ⟨r, hr, hrc⟩ := closingPrims_some (close := close) (point := point) ha
        rw [hr] at h
        rcases hrc with ⟨rfl, -⟩ | rfl
        · simp at h
        · simp at h; simp [leave, ha, h]
      | none =>
        rcases closingPrims_none (close := close) (point := point) ha with ⟨hr, -⟩ | hr
        · rw [hr] at h; simp at h
        · rw [hr] at h; simp at h; simp [leave, ha, h]

/-- A square with one rounded corner: five primitives. -/
example : (primitivesFromArcs (fun p q : ℕ => p == q) (fun i => 10 * i) (fun i => if i = 1 then some (9, 10, 11) else none) 4 true).length
    = 5 := by decide

end

end Volmdlr.Fillet
