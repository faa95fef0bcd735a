import Verif.Gmsh.ReadProps
import Mathlib.Tactic.IntervalCases

/-!
# Physical names and entities of a gmsh file (C124, C125)
-/

namespace Volmdlr.Gmsh
set_option linter.unusedSectionVars false
variable {K : Type*} [Field K] [LinearOrder K]

/-! ## C124: physical names -/

/-- A physical name of a file. -/
structure PhysicalName where
  dim : ℕ
  tag : ℕ
  name : List Char

/-- Its line: `dim tag "name"`. -/
def PhysicalName.render (r : PhysicalName) : List Char :=
  Nat.toDigits 10 r.dim ++ ' ' :: (Nat.toDigits 10 r.tag ++ ' ' :: '"' :: (r.name ++ ['"']))

/-- The lines of the section. -/
def namesSection (rs : List PhysicalName) : List (List Char) := Nat.toDigits 10 rs.length :: rs.map PhysicalName.render

/-- The full claim: for each dimension, the tags and the names, in order. -/
def C124_full_statement : Prop :=
  ∀ rs : List PhysicalName, ∃ d, physicalNames rs.length (namesSection rs) = .ok d ∧
    ∀ dim : ℕ, (d (Nat.toDigits 10 dim)).getD [] = (rs.filter fun r : PhysicalName => decide (r.dim = dim)).map fun r : PhysicalName => (r.tag, r.name)

theorem toDigits_small {n : ℕ} (h : n < 10) : Nat.toDigits 10 n = [Nat.digitChar n] := by
  interval_cases n <;> decide

theorem digit_small {n : ℕ} (h : n < 10) : digit (Nat.digitChar n) = .ok n ∧ Nat.digitChar n ≠ ' ' := by
  interval_cases n <;> decide

theorem digitChar_inj {m n : ℕ} (hm : m < 10) (hn : n < 10) (h : Nat.digitChar m = Nat.digitChar n) : m = n := by
  have h1 := (digit_small hm).1
  rw [h, (digit_small hn).1] at h1
  exact (Except.ok.inj h1).symm

theorem render_small {r : PhysicalName} (hd : r.dim < 10) (ht : r.tag < 10) :
    r.render = Nat.digitChar r.dim :: ' ' :: Nat.digitChar r.tag :: ' ' :: '"' :: (r.name ++ ['"']) := by
  unfold PhysicalName.render
  rw [toDigits_small hd, toDigits_small ht]
  rfl

/-- What a line does. -/
theorem physicalTurn_spec (r0 : PhysicalName) (pre post : List (List Char)) (r : PhysicalName) (hd : r.dim < 10) (ht : r.tag < 10) (h0 : r0.dim < 10)
    (ht0 : r0.tag < 10) (hfirst : (pre ++ r.render :: post)[1]? = some r0.render) (d : List Char → Option (List (ℕ × List Char))) :
    physicalTurn (pre ++ r.render :: post) d pre.length = .ok (addTo d [Nat.digitChar r.dim] (r0.dim, r.name)) := by
  unfold physicalTurn
  rw [field_append, bind_ok]
  have h1 : firstWord r.render = .ok [Nat.digitChar r.dim] := by
    rw [render_small hd ht]
    unfold firstWord
    rw [List.takeWhile_cons_of_pos (by simp)]
    rfl
  have h2 : field (pre ++ r.render :: post) 1 = .ok r0.render := by unfold field; rw [hfirst]
  have h3 : field r0.render 0 = .ok (Nat.digitChar r0.dim) := by rw [render_small h0 ht0]; rfl
  have h4 : r.render.dropLast.drop 5 = r.name := by
    rw [render_small hd ht]
    have : Nat.digitChar r.dim :: ' ' :: Nat.digitChar r.tag :: ' ' :: '"' :: (r.name ++ ['"']) =
        (Nat.digitChar r.dim :: ' ' :: Nat.digitChar r.tag :: ' ' :: '"' :: r.name) ++ ['"'] := rfl
    rw [this, List.dropLast_concat]
    rfl
  rw [h1, bind_ok, h2, bind_ok, h3, bind_ok, (digit_small h0).1, bind_ok, h4]

/-- **C124** what is returned, when dimensions and tags have one digit: the names are right and in order, but every tag is the dimension of the first name. -/
theorem C124_names_partial (r0 : PhysicalName) (rs : List PhysicalName) (h : ∀ r ∈ r0 :: rs, r.dim < 10 ∧ r.tag < 10) :
    ∃ d, physicalNames (r0 :: rs).length (namesSection (r0 :: rs)) = .ok d ∧ ∀ dim : ℕ, dim < 10 →
      (d (Nat.toDigits 10 dim)).getD [] = ((r0 :: rs).filter fun r : PhysicalName => decide (r.dim = dim)).map fun r : PhysicalName => (r0.dim, r.name) := by
  obtain ⟨lines, hlines⟩ : ∃ lines, lines = namesSection (r0 :: rs) := ⟨_, rfl⟩
  have hfirst : lines[1]? = some r0.render := by rw [hlines]; rfl
  obtain ⟨h0, ht0⟩ := h r0 (.head _)
  suffices key : ∀ (l : List PhysicalName) (pre : List (List Char)), pre ++ l.map PhysicalName.render = lines → (∀ r ∈ l, r.dim < 10 ∧ r.tag < 10) →
      ∀ d : List Char → Option (List (ℕ × List Char)), ∃ d', (List.range l.length).foldlM (fun d i => physicalTurn lines d (i + pre.length)) d = .ok d' ∧
        ∀ dim : ℕ, dim < 10 → (d' (Nat.toDigits 10 dim)).getD [] =
          (d (Nat.toDigits 10 dim)).getD [] ++ (l.filter fun r : PhysicalName => decide (r.dim = dim)).map fun r : PhysicalName => (r0.dim, r.name) by
    obtain ⟨d', k1, k2⟩ := key (r0 :: rs) [Nat.toDigits 10 (r0 :: rs).length] (by rw [hlines]; rfl) h fun _ => none
    refine ⟨d', by rw [← hlines]; exact k1, fun dim hd => ?_⟩
    rw [k2 dim hd]
    rfl
  intro l
  induction l with
  | nil => intro pre _ _ d; exact ⟨d, rfl, fun _ _ => by simp⟩
  | cons r l ih =>
    intro pre hpre hl d
    obtain ⟨hd, ht⟩ := hl r (.head _)
    rw [List.map_cons] at hpre
    have hturn := physicalTurn_spec r0 pre (l.map PhysicalName.render) r hd ht h0 ht0 (by rw [hpre]; exact hfirst) d
    rw [hpre] at hturn
    obtain ⟨d', k1, k2⟩ := ih (pre ++ [r.render]) (by rw [← hpre]; simp) (fun r hr => hl r (.tail _ hr)) (addTo d [Nat.digitChar r.dim] (r0.dim, r.name))
    refine ⟨d', ?_, fun dim hdim => ?_⟩
    · rw [List.length_cons, List.range_succ_eq_map, List.foldlM_cons, Nat.zero_add, hturn]
      change List.foldlM _ _ _ = _
      rw [List.foldlM_map, ← k1]
      congr 1
      funext d i
      rw [List.length_append, List.length_singleton, show Nat.succ i + pre.length = i + (pre.length + 1) by omega]
    · rw [k2 dim hdim, toDigits_small hdim]
      by_cases he : r.dim = dim
      · rw [List.filter_cons_of_pos (by simp [he])]
        simp [addTo, he]
      · rw [List.filter_cons_of_neg (by simp [he])]
        have : addTo d [Nat.digitChar r.dim] (r0.dim, r.name) [Nat.digitChar dim] = d [Nat.digitChar dim] :=
          if_neg (by
            intro h
            exact he (digitChar_inj hdim hd (by simpa using h)).symm)
        rw [this]

/-- **C124** so the tags are wrong as soon as one of them is not the dimension of the first name. -/
theorem C124_counterexample : ¬ C124_full_statement := by
  intro h
  obtain ⟨d, h1, h2⟩ := h [⟨2, 7, ['a']⟩]
  obtain ⟨d', k1, k2⟩ := C124_names_partial ⟨2, 7, ['a']⟩ [] (by simp)
  rw [h1] at k1
  have := Except.ok.inj k1
  subst this
  have e1 := h2 2
  have e2 := k2 2 (by norm_num)
  rw [e1] at e2
  simp at e2

/-- **C124** with a tag of two digits the name begins with a quotation mark. -/
theorem C124_name_counterexample : ∃ d, physicalNames 1 (namesSection [⟨2, 12, ['a']⟩]) = .ok d ∧ d ['2'] = some [(2, ['"', 'a'])] := ⟨_, rfl, by decide +kernel⟩

example : ∃ d, physicalNames 2 (namesSection [⟨1, 1, ['i', 'n']⟩, ⟨2, 5, ['w', 'a', 'l', 'l']⟩]) = .ok d ∧ (d (Nat.toDigits 10 2)).getD [] = [(1, ['w', 'a', 'l', 'l'])] := by
  obtain ⟨d, h1, h2⟩ := C124_names_partial ⟨1, 1, ['i', 'n']⟩ [⟨2, 5, ['w', 'a', 'l', 'l']⟩] (by simp)
  exact ⟨d, h1, by rw [h2 2 (by norm_num)]; simp⟩

/-! ## C125: entities -/

/-- An entity of a file: its tag, its box, the tags of its physical groups, the tags of the entities that bound it. -/
structure EntityRecord (K : Type*) where
  tag : ℤ
  lo : V3 K
  hi : V3 K
  physical : List ℤ
  bounding : List ℤ

/-- Its line. -/
def EntityRecord.render (r : EntityRecord K) : Line K :=
  [.int r.tag, .real r.lo.x, .real r.lo.y, .real r.lo.z, .real r.hi.x, .real r.hi.y, .real r.hi.z, .int r.physical.length] ++
    (r.physical.map .int ++ .int r.bounding.length :: r.bounding.map .int)

/-- A point of a file. -/
structure PointRecord (K : Type*) where
  tag : ℤ
  point : V3 K
  physical : List ℤ

/-- Its line. -/
def PointRecord.render (r : PointRecord K) : Line K :=
  [.int r.tag, .real r.point.x, .real r.point.y, .real r.point.z, .int r.physical.length] ++ r.physical.map .int

/-- The lines of the section. -/
def entitiesSection (ps : List (PointRecord K)) (cs ss vs : List (EntityRecord K)) : List (Line K) :=
  [.int ps.length, .int cs.length, .int ss.length, .int vs.length] ::
    (ps.map PointRecord.render ++ (cs.map EntityRecord.render ++ (ss.map EntityRecord.render ++ vs.map EntityRecord.render)))

/-- What is read of a point is what the file says. -/
def PointRead (r : PointRecord K) (p : PointEntity K) : Prop :=
  p.tag = r.tag ∧ p.point = r.point ∧ p.numPhysical = r.physical.length ∧ p.physical = r.physical.head?

/-- What is read of an entity is what the file says. -/
def EntityRead (r : EntityRecord K) (e : Entity K) : Prop :=
  e.tag = r.tag ∧ e.lo = r.lo ∧ e.hi = r.hi ∧ e.numPhysical = r.physical.length ∧ e.physical = r.physical.head? ∧ e.numBounding = r.bounding.length ∧
    e.bounding = r.bounding.map (fun t : ℤ => (t : K))

/-- The full claim. -/
def C125_full_statement (K : Type) [Field K] [LinearOrder K] : Prop :=
  ∀ (ps : List (PointRecord K)) (cs ss vs : List (EntityRecord K)), ∃ e, fromFileEntities (entitiesSection ps cs ss vs) = .ok e ∧
    List.Forall₂ PointRead ps e.points ∧ List.Forall₂ EntityRead cs e.curves ∧ List.Forall₂ EntityRead ss e.surfaces ∧ List.Forall₂ EntityRead vs e.volumes

/-- What `readPointEntity` returns for a line of the file. -/
def PointRecord.expected (r : PointRecord K) : PointEntity K := ⟨r.tag, r.point, r.physical.length, r.physical.head?⟩
/-- What `readEntity` returns for a line of the file with at most one physical group. -/
def EntityRecord.expected (r : EntityRecord K) : Entity K :=
  ⟨r.tag, r.lo, r.hi, r.physical.length, r.physical.head?, r.bounding.length, r.bounding.map fun t : ℤ => (t : K)⟩

theorem readPoint_entity (r : PointRecord K) : readPointEntity r.render = .ok r.expected := by
  obtain ⟨tag, ⟨x, y, z⟩, ph⟩ := r
  cases ph with
  | nil => rfl
  | cons a l =>
    have h : ((a :: l).length : ℤ) ≠ 0 := by simp only [List.length_cons]; push_cast; omega
    change (if ((a :: l).length : ℤ) ≠ 0 then (Except.ok (⟨tag, ⟨x, y, z⟩, ((a :: l).length : ℤ), some a⟩ : PointEntity K) : Except PyErr (PointEntity K))
      else .ok ⟨tag, ⟨x, y, z⟩, ((a :: l).length : ℤ), none⟩) = _
    rw [if_pos h]
    rfl

theorem mapM_int (l : List ℤ) : (l.map (Word.int : ℤ → Word K)).mapM Word.toFloat = .ok (l.map fun t : ℤ => (t : K)) := by
  induction l with
  | nil => rfl
  | cons a l ih => rw [List.map_cons, List.mapM_cons, ih]; rfl

theorem read_entity (r : EntityRecord K) (h : r.physical.length ≤ 1) : readEntity r.render = .ok r.expected := by
  obtain ⟨tag, ⟨x, y, z⟩, ⟨x', y', z'⟩, ph, bd⟩ := r
  cases ph with
  | nil =>
    change ((((bd.map (Word.int : ℤ → Word K)).mapM Word.toFloat).bind fun b => Except.ok
      (⟨tag, ⟨x, y, z⟩, ⟨x', y', z'⟩, 0, none, ((bd.length : ℤ) : K), b⟩ : Entity K))) = _
    rw [mapM_int, bind_ok]
    simp [EntityRecord.expected]
  | cons a l =>
    cases l with
    | nil =>
      change ((((bd.map (Word.int : ℤ → Word K)).mapM Word.toFloat).bind fun b => Except.ok
        (⟨tag, ⟨x, y, z⟩, ⟨x', y', z'⟩, 1, some a, ((bd.length : ℤ) : K), b⟩ : Entity K))) = _
      rw [mapM_int, bind_ok]
      simp [EntityRecord.expected]
    | cons b l => simp at h

/-- **C125** reading the section `Entities`: right for points with any number of physical groups and for the others with at most one. -/
theorem C125_entities_partial (ps : List (PointRecord K)) (cs ss vs : List (EntityRecord K)) (hc : ∀ r ∈ cs, r.physical.length ≤ 1)
    (hs : ∀ r ∈ ss, r.physical.length ≤ 1) (hv : ∀ r ∈ vs, r.physical.length ≤ 1) :
    ∃ e, fromFileEntities (entitiesSection ps cs ss vs) = .ok e ∧
      List.Forall₂ PointRead ps e.points ∧ List.Forall₂ EntityRead cs e.curves ∧ List.Forall₂ EntityRead ss e.surfaces ∧
      List.Forall₂ EntityRead vs e.volumes := by
  obtain ⟨hdr, hh⟩ : ∃ hdr : Line K, hdr = [.int ps.length, .int cs.length, .int ss.length, .int vs.length] := ⟨_, rfl⟩
  have hcount : ∀ n : ℕ, Word.toCount (.int n : Word K) = .ok n := by intro n; simp [Word.toCount]
  have c0 : countAt hdr 0 = .ok ps.length := by rw [hh]; exact hcount _
  have c1 : countAt hdr 1 = .ok cs.length := by rw [hh]; exact hcount _
  have c2 : countAt hdr 2 = .ok ss.length := by rw [hh]; exact hcount _
  have c3 : countAt hdr 3 = .ok vs.length := by rw [hh]; exact hcount _
  have hsec : entitiesSection ps cs ss vs = hdr ::
      (ps.map PointRecord.render ++ (cs.map EntityRecord.render ++ (ss.map EntityRecord.render ++ vs.map EntityRecord.render))) := by
    rw [hh]; rfl
  have r1 : readRange readPointEntity (entitiesSection ps cs ss vs) 1 ps.length = .ok (ps.map PointRecord.expected) := by
    rw [hsec]
    exact mapM_block readPointEntity PointRecord.render PointRecord.expected _ ps [hdr] fun r _ => readPoint_entity r
  have r2 : readRange readEntity (entitiesSection ps cs ss vs) (ps.length + 1) cs.length = .ok (cs.map EntityRecord.expected) := by
    rw [hsec]
    have := mapM_block readEntity EntityRecord.render EntityRecord.expected (ss.map EntityRecord.render ++ vs.map EntityRecord.render) cs
      (hdr :: ps.map PointRecord.render) fun r hr => read_entity r (hc r hr)
    rw [List.length_cons, List.length_map, List.cons_append] at this
    exact this
  have r3 : readRange readEntity (entitiesSection ps cs ss vs) (ps.length + cs.length + 1) ss.length = .ok (ss.map EntityRecord.expected) := by
    rw [hsec]
    have := mapM_block readEntity EntityRecord.render EntityRecord.expected (vs.map EntityRecord.render) ss
      (hdr :: (ps.map PointRecord.render ++ cs.map EntityRecord.render)) fun r hr => read_entity r (hs r hr)
    rw [List.length_cons, List.length_append, List.length_map, List.length_map, List.cons_append, List.append_assoc] at this
    exact this
  have r4 : readRange readEntity (entitiesSection ps cs ss vs) (ps.length + cs.length + ss.length + 1)
      ((entitiesSection ps cs ss vs).length - (ps.length + cs.length + ss.length + 1)) = .ok (vs.map EntityRecord.expected) := by
    have hl : (entitiesSection ps cs ss vs).length - (ps.length + cs.length + ss.length + 1) = vs.length := by rw [hsec]; simp; omega
    rw [hl, hsec]
    have := mapM_block readEntity EntityRecord.render EntityRecord.expected [] vs
      (hdr :: (ps.map PointRecord.render ++ (cs.map EntityRecord.render ++ ss.map EntityRecord.render))) fun r hr => read_entity r (hv r hr)
    rw [List.length_cons, List.length_append, List.length_append, List.length_map, List.length_map, List.length_map, List.cons_append, List.append_assoc,
      List.append_assoc, List.append_nil, ← Nat.add_assoc] at this
    exact this
  refine ⟨⟨ps.map PointRecord.expected, cs.map EntityRecord.expected, ss.map EntityRecord.expected, vs.map EntityRecord.expected⟩, ?_, ?_, ?_, ?_, ?_⟩
  · unfold fromFileEntities
    rw [show field (entitiesSection ps cs ss vs) 0 = .ok hdr by rw [hsec]; rfl, bind_ok, c0, bind_ok, c1, bind_ok, c2, bind_ok, c3, bind_ok, r1, bind_ok,
      r2, bind_ok, r3, bind_ok, r4, bind_ok]
  · exact List.forall₂_map_right_iff.2 (List.forall₂_same.2 fun r _ => ⟨rfl, rfl, rfl, rfl⟩)
  · exact List.forall₂_map_right_iff.2 (List.forall₂_same.2 fun r _ => ⟨rfl, rfl, rfl, rfl, rfl, rfl, rfl⟩)
  · exact List.forall₂_map_right_iff.2 (List.forall₂_same.2 fun r _ => ⟨rfl, rfl, rfl, rfl, rfl, rfl, rfl⟩)
  · exact List.forall₂_map_right_iff.2 (List.forall₂_same.2 fun r _ => ⟨rfl, rfl, rfl, rfl, rfl, rfl, rfl⟩)

/-- **C125** an entity in two physical groups is never read right: the tag of the second group is taken for the number of bounding entities, and that number for
the tag of a bounding entity. -/
theorem C125_two_groups (r : EntityRecord K) (a b : ℤ) (l : List ℤ) (h : r.physical = a :: b :: l) :
    ∃ e, readEntity r.render = .ok e ∧ e.numBounding = b ∧ e.bounding.length = l.length + 1 + r.bounding.length ∧ ¬ EntityRead r e := by
  obtain ⟨tag, ⟨x, y, z⟩, ⟨x', y', z'⟩, ph, bd⟩ := r
  simp only at h
  subst h
  have hr : readEntity (EntityRecord.render ⟨tag, ⟨x, y, z⟩, ⟨x', y', z'⟩, a :: b :: l, bd⟩) =
      .ok (⟨tag, ⟨x, y, z⟩, ⟨x', y', z'⟩, ((a :: b :: l).length : ℤ), some a, (b : K), (l ++ (bd.length : ℤ) :: bd).map fun t : ℤ => (t : K)⟩ : Entity K) := by
    have := mapM_int (K := K) (l ++ (bd.length : ℤ) :: bd)
    have h : ((a :: b :: l).length : ℤ) ≠ 0 := by simp only [List.length_cons]; push_cast; omega
    change (if ((a :: b :: l).length : ℤ) ≠ 0 then ((l.map (Word.int : ℤ → Word K) ++ Word.int bd.length :: bd.map Word.int).mapM Word.toFloat).bind fun c => Except.ok
      (⟨tag, ⟨x, y, z⟩, ⟨x', y', z'⟩, ((a :: b :: l).length : ℤ), some a, (b : K), c⟩ : Entity K)
      else ((Word.int a : Word K).toFloat).bind fun k => ((Word.int b :: (l.map (Word.int : ℤ → Word K) ++ Word.int bd.length :: bd.map Word.int)).mapM Word.toFloat).bind
        fun c => Except.ok (⟨tag, ⟨x, y, z⟩, ⟨x', y', z'⟩, ((a :: b :: l).length : ℤ), none, k, c⟩ : Entity K)) = _
    rw [if_pos h]
    rw [List.map_append, List.map_cons] at this
    rw [this, bind_ok]
  refine ⟨_, hr, rfl, ?_, ?_⟩
  · simp; omega
  · rintro ⟨-, -, -, -, -, -, h⟩
    have := congrArg List.length h
    simp at this
    omega

/-- **C125** so the claim fails. -/
theorem C125_counterexample : ¬ C125_full_statement ℚ := by
  intro h
  obtain ⟨e, h1, -, -, -, h2⟩ := h [] [] [] [⟨1, ⟨0, 0, 0⟩, ⟨1, 1, 1⟩, [4, 5], [1]⟩]
  have he : fromFileEntities (entitiesSection [] [] [] [(⟨1, ⟨0, 0, 0⟩, ⟨1, 1, 1⟩, [4, 5], [1]⟩ : EntityRecord ℚ)]) =
    .ok ⟨[], [], [], [⟨1, ⟨0, 0, 0⟩, ⟨1, 1, 1⟩, 2, some 4, ((5 : ℤ) : ℚ), [((1 : ℤ) : ℚ), ((1 : ℤ) : ℚ)]⟩]⟩ := rfl
  rw [he] at h1
  have h1 := Except.ok.inj h1
  subst h1
  rw [List.forall₂_cons] at h2
  obtain ⟨⟨-, -, -, -, -, h, -⟩, -⟩ := h2
  simp at h

example : ∃ e, fromFileEntities (entitiesSection [⟨1, ⟨0, 0, 0⟩, [3]⟩, ⟨2, ⟨1, 0, 0⟩, [1, 2]⟩] [(⟨1, ⟨0, 0, 0⟩, ⟨1, 0, 0⟩, [], [1, -2]⟩ : EntityRecord ℚ)]
    [⟨1, ⟨0, 0, 0⟩, ⟨1, 1, 0⟩, [7], [1]⟩] []) = .ok e := by
  obtain ⟨e, h, -⟩ := C125_entities_partial [⟨1, ⟨0, 0, 0⟩, [3]⟩, ⟨2, ⟨1, 0, 0⟩, [1, 2]⟩] [(⟨1, ⟨0, 0, 0⟩, ⟨1, 0, 0⟩, [], [1, -2]⟩ : EntityRecord ℚ)]
    [⟨1, ⟨0, 0, 0⟩, ⟨1, 1, 0⟩, [7], [1]⟩] [] (by simp) (by simp) (by simp)
  exact ⟨e, h⟩
example : ∃ e, readEntity (EntityRecord.render (⟨1, ⟨0, 0, 0⟩, ⟨1, 1, 1⟩, [4, 5], [1]⟩ : EntityRecord ℚ)) = .ok e ∧ e.numBounding = ((5 : ℤ) : ℚ) := by
  obtain ⟨e, h1, h2, -⟩ := C125_two_groups (⟨1, ⟨0, 0, 0⟩, ⟨1, 1, 1⟩, [4, 5], [1]⟩ : EntityRecord ℚ) 4 5 [] rfl
  exact ⟨e, h1, h2⟩

end Volmdlr.Gmsh
