import Verif.Props.Bnd

/-!
A .bnd file of two tetrahedra with a common face and a contact, for the hypotheses of C83, C84 and C85; and files for
which these claims fail.
-/

namespace VG

/-! ### Deciding the hypotheses -/

/-- The ends of the edges. -/
def bndEnds (edges : List (Int × Int)) (is : List Int) : List Int :=
  is.flatMap fun i => match edges[bndIndex i]? with
    | some e => [e.1, e.2]
    | none => []

theorem isEnd_iff {edges : List (Int × Int)} {is : List Int} {v : Int} : IsEnd edges is v ↔ v ∈ bndEnds edges is := by
  unfold IsEnd bndEnds
  rw [List.mem_flatMap]
  refine exists_congr fun i => and_congr_right fun _ => ?_
  constructor
  · rintro ⟨k, e, h1, h2, h3⟩
    rw [bndIndex_of_refersTo h1, h2]
    simpa using h3
  · intro h
    cases he : edges[bndIndex i]? with
    | none => rw [he] at h; simp at h
    | some e =>
      rw [he] at h
      exact ⟨bndIndex i, e, refersTo_bndIndex i, he, by simpa using h⟩

/-- The faces of a polyhedron. -/
def facesOf (faces : List (List Int)) (s : List Int) : List (List Int) := s.filterMap fun i => faces[bndIndex i]?

theorem faceOf_iff {C : Type} {f : BndFile C} {g : Nat} {face : List Int} : f.FaceOf g face ↔
    ∃ s, f.segs[g]? = some s ∧ face ∈ facesOf f.faces s := by
  unfold BndFile.FaceOf facesOf
  constructor
  · rintro ⟨s, i, k, h1, h2, h3, h4⟩
    exact ⟨s, h1, List.mem_filterMap.2 ⟨i, h2, by rw [bndIndex_of_refersTo h3, h4]⟩⟩
  · rintro ⟨s, h1, h2⟩
    obtain ⟨i, h3, h4⟩ := List.mem_filterMap.1 h2
    exact ⟨s, i, bndIndex i, h1, h3, refersTo_bndIndex i, h4⟩

/-- A triangle of which the corners are known. -/
theorem hasCorners_of {edges : List (Int × Int)} {is : List Int} {a b c : Nat}
    (h : a ≠ b ∧ a ≠ c ∧ b ≠ c ∧ (∀ v ∈ bndEnds edges is, v = a ∨ v = b ∨ v = c) ∧ (a : Int) ∈ bndEnds edges is ∧
      (b : Int) ∈ bndEnds edges is ∧ (c : Int) ∈ bndEnds edges is) : HasCorners edges is a b c := by
  obtain ⟨h1, h2, h3, h4, h5, h6, h7⟩ := h
  refine ⟨h1, h2, h3, fun v => ?_⟩
  rw [isEnd_iff]
  constructor
  · exact h4 v
  · rintro (rfl | rfl | rfl) <;> assumption

/-- The conditions on the faces and regions of a file, as a test. -/
def BndFile.check {C : Type} (f : BndFile C) : Bool :=
  (f.segs.all fun s => s.all fun i =>
    match f.faces[bndIndex i]? with
    | none => false
    | some face => face.all (fun j => bndIndex j < f.edges.length) &&
        (bndEnds f.edges face).all fun v => decide (0 ≤ v) && decide (v.toNat < f.points.length)) &&
  f.regions.all fun r => if r.material = "Contact" then
      r.elems.all fun e => decide (f.segs.length ≤ e) && match f.contacts[e - f.segs.length]? with
        | none => false
        | some c => c.all fun j => bndIndex j < f.edges.length
    else r.elems.all fun e => e < f.segs.length

theorem edgesExist_of {edges : List (Int × Int)} {is : List Int}
    (h : is.all (fun j => bndIndex j < edges.length) = true) : EdgesExist edges is := by
  intro i hi
  rw [List.all_eq_true] at h
  exact ⟨bndIndex i, refersTo_bndIndex i, by simpa using h i hi⟩

theorem BndFile.ok_of_check {C : Type} {f : BndFile C} (h : f.check = true) (h1 : ∀ p ∈ f.points, p.length = 3)
    (h2 : ∀ c ∈ f.contacts, c.length = 3) (h3 : f.regions ≠ [])
    (h4 : f.segs.length + (f.regions.filter fun r => r.material = "Contact").length ≤ f.regions.length) : f.OK := by
  unfold BndFile.check at h
  rw [Bool.and_eq_true, List.all_eq_true, List.all_eq_true] at h
  obtain ⟨h5, h6⟩ := h
  refine ⟨h1, fun s hs i hi => ?_, h2, fun r hr => ?_, h3, Or.inr h4⟩
  · have := List.all_eq_true.1 (h5 s hs) i hi
    cases hf : f.faces[bndIndex i]? with
    | none => rw [hf] at this; simp at this
    | some face =>
      rw [hf] at this
      simp only [Bool.and_eq_true] at this
      refine ⟨bndIndex i, face, refersTo_bndIndex i, hf, edgesExist_of this.1, fun v hv => ?_⟩
      rw [isEnd_iff] at hv
      have hv' := List.all_eq_true.1 this.2 v hv
      simp only [Bool.and_eq_true, decide_eq_true_eq] at hv'
      exact ⟨v.toNat, by omega, hv'.2⟩
  · have := h6 r hr
    split at this
    · rename_i hc
      rw [if_pos hc]
      intro e he
      have he' := List.all_eq_true.1 this e he
      rw [Bool.and_eq_true] at he'
      refine ⟨by simpa using he'.1, ?_⟩
      cases hf : f.contacts[e - f.segs.length]? with
      | none => rw [hf] at he'; simp at he'
      | some c =>
        rw [hf] at he'
        exact ⟨c, rfl, edgesExist_of he'.2⟩
    · rename_i hc
      rw [if_neg hc]
      intro e he
      simpa using List.all_eq_true.1 this e he

/-! ### Two tetrahedra -/

/-- Two tetrahedra with a common face, and a contact. -/
def bndTets : BndFile Rat where
  points := [[.inl 0, .inl 0, .inl 0], [.inl 1, .inl 0, .inl 0], [.inl 0, .inl 1, .inl 0], [.inl 0, .inl 0, .inr (1/2)],
    [.inl 1, .inl 1, .inl 1], [.inl 7, .inl 7, .inl 7]]
  edges := [(0, 1), (0, 2), (0, 3), (1, 2), (1, 3), (2, 3), (1, 4), (2, 4), (3, 4)]
  faces := [[0, 3, -2], [0, 4, -3], [1, 5, -3], [3, 5, -5], [3, 7, -7], [4, 8, -7], [5, 8, -8]]
  segs := [[0, 1, 2, 3], [-4, 4, 5, 6]]
  contacts := [[0, 3, -2]]
  regions := [⟨"Left", "Silicon", [0]⟩, ⟨"Bottom", "Contact", [2]⟩, ⟨"Right", "Oxide", [1]⟩]

/-- The words of one part of a section on a line. -/
def bndLine (is : List Int) : List (BWord Rat) := is.map .int

/-- The head of a section. -/
def bndHead (title : String) (n : Nat) : List (BWord Rat) := [.word title, .count n, .word "{"]

/-- A region. -/
def bndRegionLines (name material : String) (es : List Int) : BLines Rat :=
  [[.word "Region", .name name, .word "{"], [.word "material", .word "=", .word material],
    bndHead "Elements" es.length, bndLine es, [.word "}"], [.word "}"]]

/-- The lines of the file. -/
def bndTetsLines : BLines Rat :=
  [[.word "DF-ISE", .word "text"], [.word "Info", .word "{"], [.word "version", .word "=", .int 1],
    [.word "dimension", .word "=", .int 3], [.word "nb_vertices", .word "=", .int 6],
    [.word "nb_regions", .word "=", .int 3], [.word "}"], [.word "Data", .word "{"], bndHead "Vertices" 6,
    bndLine [0, 0, 0], bndLine [1, 0, 0], bndLine [0, 1, 0], [.int 0, .int 0, .real (1/2)], bndLine [1, 1, 1],
    bndLine [7, 7, 7], [.word "}"], bndHead "Edges" 9, bndLine [0, 1, 0, 2, 0, 3], bndLine [1, 2, 1, 3, 2, 3],
    bndLine [1, 4, 2, 4, 3, 4], [.word "}"], bndHead "Faces" 7, bndLine [3, 0, 3, -2], bndLine [3, 0, 4, -3],
    bndLine [3, 1, 5, -3], bndLine [3, 3, 5, -5], bndLine [3, 3, 7, -7], bndLine [3, 4, 8, -7], bndLine [3, 5, 8, -8],
    [.word "}"], bndHead "Elements" 3, bndLine [10, 4, 0, 1, 2, 3], bndLine [10, 4, -4, 4, 5, 6], bndLine [2, 0, 3, -2],
    [.word "}"]] ++
  bndRegionLines "Left" "Silicon" [0] ++ bndRegionLines " Bottom " "Contact" [2] ++ bndRegionLines "Right" "Oxide" [1]

theorem bndTets_ok : bndTets.OK :=
  BndFile.ok_of_check (by decide) (by decide) (by decide) (by decide) (by decide)

theorem bndTets_triangulated : bndTets.Triangulated := by
  intro g face h
  obtain ⟨s, h1, h2⟩ := faceOf_iff.1 h
  have hs := List.mem_of_getElem? h1
  have key : ∀ s ∈ bndTets.segs, ∀ face ∈ facesOf bndTets.faces s, face ∈ bndTets.faces := by decide
  have hface := key s hs face h2
  simp only [bndTets, List.mem_cons, List.not_mem_nil, or_false] at hface
  rcases hface with rfl | rfl | rfl | rfl | rfl | rfl | rfl
  · exact ⟨0, 1, 2, hasCorners_of (by decide)⟩
  · exact ⟨0, 1, 3, hasCorners_of (by decide)⟩
  · exact ⟨0, 2, 3, hasCorners_of (by decide)⟩
  · exact ⟨1, 2, 3, hasCorners_of (by decide)⟩
  · exact ⟨1, 2, 4, hasCorners_of (by decide)⟩
  · exact ⟨1, 3, 4, hasCorners_of (by decide)⟩
  · exact ⟨2, 3, 4, hasCorners_of (by decide)⟩

theorem lacks {title : String} {ls : BLines Rat} (h : (ls.any fun l => l.any (·.has title)) = false) :
    ∀ l ∈ ls, ∀ w ∈ l, ¬ w.Contains title := by
  intro l hl w hw hc
  have : (ls.any fun l => l.any (·.has title)) = true :=
    List.any_eq_true.2 ⟨l, hl, List.any_eq_true.2 ⟨w, hw, (has_iff title w).2 hc⟩⟩
  rw [h] at this
  cases this

theorem contains_self (t : String) : (BWord.word t : BWord Rat).Contains t := ⟨t, [], [], Or.inl rfl, by simp⟩

theorem bndHead_title (title : String) (n : Nat) : ∃ w ∈ bndHead title n, w.Contains title :=
  ⟨.word title, by simp [bndHead], contains_self title⟩

theorem bndHead_count (title : String) (n : Nat) : HasCount (bndHead title n) n :=
  ⟨[.word title], [.word "{"], rfl, by simp⟩

theorem bndRegion_shows {r : BndRegion} {raw : String} {gap : BLines Rat} (hraw : Padded raw r.name)
    (hgap : (gap.any fun l => l.any (·.has "Region")) = false) (rest : BLines Rat) :
    ShowsRegion r (gap ++ bndRegionLines raw r.material (r.elems.map fun (e : Nat) => (e : Int)) ++ rest)
      ([[.word "}"], [.word "}"]] ++ rest) := by
  refine ⟨gap, [.word "Region", .name raw, .word "{"], raw, [], [.word "material"], _, ?_, lacks hgap,
    ⟨_, List.mem_cons_self, contains_self _⟩, ⟨[.word "Region"], [.word "{"], rfl, by simp⟩, hraw, by simp,
    ⟨_, List.mem_cons_self, contains_self _⟩, by simp,
    [], bndHead "Elements" r.elems.length, [bndLine (r.elems.map fun (e : Nat) => (e : Int))], rfl, by simp,
    bndHead_title _ _, bndHead_count _ _, ?_⟩
  · simp [bndRegionLines, List.append_assoc]
  · simp [bndLine, Function.comp_def]

theorem padded_self {s : String} (h : (s.toList.head?.all fun c => !decide (c = ' ') && !decide (c = '\n') &&
    !decide (c = '\t')) = true) (h' : (s.toList.getLast?.all fun c => !decide (c = ' ') && !decide (c = '\n') &&
    !decide (c = '\t')) = true) : Padded s s := by
  refine ⟨[], [], by simp, by simp, fun c hc => ?_, fun c hc => ?_⟩
  · rw [hc] at h
    simpa [IsBlank, and_assoc] using h
  · rw [hc] at h'
    simpa [IsBlank, and_assoc] using h'

theorem bndTets_shown : bndTets.ShownBy bndTetsLines := by
  have hb : Padded " Bottom " "Bottom" := by
    refine ⟨[' '], [' '], by decide, by simp [IsBlank], fun c hc => ?_, fun c hc => ?_⟩
    · have : "Bottom".toList.head? = some 'B' := by decide
      rw [this] at hc
      obtain rfl := Option.some.inj hc
      unfold IsBlank
      decide
    · have : "Bottom".toList.getLast? = some 'm' := by decide
      rw [this] at hc
      obtain rfl := Option.some.inj hc
      unfold IsBlank
      decide
  refine ⟨[] :: bndTetsLines.drop 4, [] :: bndTetsLines.drop 6, bndTetsLines.drop 15, bndTetsLines.drop 20,
    bndTetsLines.drop 29, bndTetsLines.drop 34, ?_, ?_, ?_, ?_, ?_, ?_, ?_⟩
  · exact ⟨bndTetsLines.take 3, [], .word "=", [], bndTetsLines.drop 4, rfl, rfl, by decide +kernel, by simp⟩
  · exact ⟨[] :: (bndTetsLines.drop 4).take 1, [], .word "=", [], bndTetsLines.drop 6, rfl, rfl, by decide +kernel,
      by simp⟩
  · exact ⟨[] :: (bndTetsLines.drop 6).take 2, bndHead "Vertices" 6, (bndTetsLines.drop 9).take 6, rfl,
      lacks (by decide +kernel), bndHead_title _ _, bndHead_count _ _, by decide +kernel⟩
  · exact ⟨(bndTetsLines.drop 15).take 1, bndHead "Edges" 9, (bndTetsLines.drop 17).take 3, rfl,
      lacks (by decide +kernel), bndHead_title _ _, bndHead_count _ _, by decide +kernel⟩
  · exact ⟨(bndTetsLines.drop 20).take 1, bndHead "Faces" 7, (bndTetsLines.drop 22).take 7, rfl,
      lacks (by decide +kernel), bndHead_title _ _, bndHead_count _ _, by decide +kernel⟩
  · exact ⟨(bndTetsLines.drop 29).take 1, bndHead "Elements" 3, (bndTetsLines.drop 31).take 3, rfl,
      lacks (by decide +kernel), bndHead_title _ _, bndHead_count _ _, by decide +kernel⟩
  · refine ⟨_, bndRegion_shows (raw := "Left") (gap := [[.word "}"]]) (padded_self (by decide) (by decide))
      (by decide +kernel) (bndRegionLines " Bottom " "Contact" [2] ++ bndRegionLines "Right" "Oxide" [1]), ?_⟩
    refine ⟨_, bndRegion_shows (raw := " Bottom ") (gap := [[.word "}"], [.word "}"]]) hb
      (by decide +kernel) (bndRegionLines "Right" "Oxide" [1]), ?_⟩
    exact ⟨_, bndRegion_shows (raw := "Right") (gap := [[.word "}"], [.word "}"]]) (padded_self (by decide) (by decide))
      (by decide +kernel) [], trivial⟩

/-- The hypotheses of `C83_mesh_partial` hold for the two tetrahedra; the common face is in both segments, the others in
one of them. -/
example : ∃ st idx, readBnd (fun i => (i : Rat)) 3 bndTetsLines = .ok st ∧
    (∃ t, IsTriangle st idx t 1 2 3 ∧ t ∈ st.view 0 2 ∧ t ∈ st.view 1 2) ∧
    ∃ t, IsTriangle st idx t 2 3 4 ∧ t ∉ st.view 0 2 ∧ t ∈ st.view 1 2 := by
  obtain ⟨st, idx, h1, -, -, -, -, -, h2, h3, -⟩ := C83_mesh_partial (fun i => (i : Rat)) bndTets_ok
    bndTets_triangulated bndTets_shown
  have t0 : bndTets.Triangle 0 1 2 3 := ⟨[3, 5, -5], faceOf_iff.2 ⟨[0, 1, 2, 3], rfl, by decide⟩,
    hasCorners_of (by decide)⟩
  have t1 : bndTets.Triangle 1 1 2 3 := ⟨[3, 5, -5], faceOf_iff.2 ⟨[-4, 4, 5, 6], rfl, by decide⟩,
    hasCorners_of (by decide)⟩
  have t2 : bndTets.Triangle 1 2 3 4 := ⟨[5, 8, -8], faceOf_iff.2 ⟨[-4, 4, 5, 6], rfl, by decide⟩,
    hasCorners_of (by decide)⟩
  have t3 : ¬ bndTets.Triangle 0 2 3 4 := by
    rintro ⟨face, h4, -, -, -, h5⟩
    obtain ⟨s, h6, h7⟩ := faceOf_iff.1 h4
    have : s = [0, 1, 2, 3] := (Option.some.inj h6).symm
    subst this
    have h8 := isEnd_iff.1 ((h5 4).2 (by simp))
    have key : ∀ face ∈ facesOf bndTets.faces [0, 1, 2, 3], (4 : Int) ∉ bndEnds bndTets.edges face := by decide
    exact key face h7 h8
  obtain ⟨t, h4, -⟩ := h2 _ _ _ _ t0
  obtain ⟨t', h5, -⟩ := h2 _ _ _ _ t2
  exact ⟨st, idx, h1, ⟨t, h4, (h3 _ _ _ _ _ h4).2 t0, (h3 _ _ _ _ _ h4).2 t1⟩, t', h5,
    fun h => t3 ((h3 _ _ _ _ _ h5).1 h), (h3 _ _ _ _ _ h5).2 t2⟩

/-- The hypotheses of `C84_helper_partial` hold for the two tetrahedra. -/
example : ∃ d, readBndData (fun i => (i : Rat)) bndTetsLines = .ok d ∧
    d.regions.segments[1]? = some ("Right", "Oxide") ∧ d.regions.names = ["Bottom"] ∧
    ∃ faces, d.regions.groups[0]? = some faces ∧ faces.length = 1 := by
  obtain ⟨d, h1, -, -, -, -, h2, -, h3, h4⟩ := C84_helper_partial (fun i => (i : Rat)) bndTets_ok (by decide)
    bndTets_shown
  obtain ⟨faces, h5, h6⟩ := h4 0 ⟨"Bottom", "Contact", [2]⟩ (by simp [bndTets])
  refine ⟨d, h1, h2 1 [_, _] ⟨"Right", "Oxide", [1]⟩ [] rfl (by decide) (by decide) (by simp), ?_, faces, h5,
    h6.length_eq.symm⟩
  rw [h3]
  decide

/-- The hypotheses of `C85_rejected_partial` hold for the two tetrahedra and points with two coordinates. -/
example : readBnd (fun i => (i : Rat)) 2 bndTetsLines = .error .throws :=
  C85_rejected_partial _ bndTets_ok bndTets_shown (Or.inl (by decide))

/-- A file with one polyhedron, the prism with two triangles and three quadrilaterals. -/
def bndPrism : BndFile Rat where
  points := [[.inl 0, .inl 0, .inl 0], [.inl 1, .inl 0, .inl 0], [.inl 0, .inl 1, .inl 0], [.inl 0, .inl 0, .inl 1],
    [.inl 1, .inl 0, .inl 1], [.inl 0, .inl 1, .inl 1]]
  edges := [(0, 1), (1, 2), (2, 0), (3, 4), (4, 5), (5, 3), (0, 3), (1, 4), (2, 5)]
  faces := [[0, 1, 2], [3, 4, 5], [0, 7, -4, -7], [1, 8, -5, -8], [2, 6, -6, -9]]
  segs := [[0, 1, 2, 3, 4]]
  contacts := []
  regions := [⟨"Prism", "Silicon", [0]⟩]

/-- The other hypothesis of `C85_rejected_partial` holds for the prism. -/
example : bndPrism.OK ∧ ¬ bndPrism.Triangulated := by
  refine ⟨BndFile.ok_of_check (by decide) (by decide) (by decide) (by decide) (by decide), fun h => ?_⟩
  obtain ⟨a, b, c, -, -, -, h1⟩ := h 0 [0, 7, -4, -7] (faceOf_iff.2 ⟨_, rfl, by decide⟩)
  have h0 := (h1 0).1 (isEnd_iff.2 (by decide))
  have h1' := (h1 1).1 (isEnd_iff.2 (by decide))
  have h3 := (h1 3).1 (isEnd_iff.2 (by decide))
  have h4 := (h1 4).1 (isEnd_iff.2 (by decide))
  omega

/-! ### Files for which the claims fail -/

/-- How reading failed, for inspection. -/
def bndFailure (r : Except BndFail (SegState (List Rat))) : Option BndFail :=
  match r with
  | .ok _ => none
  | .error e => some e

/-- The corners of the triangles which are read, and of those in each of the first segments, for inspection. -/
def bndTriangles (r : Except BndFail (SegState (List Rat))) (n : Nat) : Option (List (List Nat) × List (List Nat)) :=
  match r with
  | .ok st => some ((st.mesh.elems 2).map (·.verts), (List.range n).map fun g => st.view g 2)
  | .error _ => none

/-- Head of a file. -/
def bndInfo (dim regions : Nat) : BLines Rat :=
  [[.word "dimension", .word "=", .int dim], [.word "nb_regions", .word "=", .int regions]]

/-- A file of dimension 2: one triangle. -/
def bndFlat : BLines Rat :=
  bndInfo 2 1 ++ [bndHead "Vertices" 3, bndLine [0, 0, 1, 0, 0, 1], bndHead "Edges" 3, bndLine [0, 1, 1, 2, 2, 0],
    bndHead "Elements" 1, bndLine [4, 3, 0, 1, 2]] ++ bndRegionLines "Area" "Silicon" [0]

/-- **C83** fails: a file of dimension 2 is rejected by the reader for meshes of dimension 2, which takes the sides of
its polygons for cells. -/
theorem C83_violated_2d : bndFailure (readBnd (fun i => (i : Rat)) 2 bndFlat) = some .throws := by decide +kernel

/-- Points, edges and faces of a tetrahedron. -/
def bndTetLines : BLines Rat :=
  [bndHead "Vertices" 4, bndLine [0, 0, 0, 1, 0, 0, 0, 1, 0, 0, 0, 1], bndHead "Edges" 6,
    bndLine [0, 1, 0, 2, 0, 3, 1, 2, 1, 3, 2, 3], bndHead "Faces" 4,
    bndLine [3, 0, 3, -2, 3, 0, 4, -3, 3, 1, 5, -3, 3, 3, 5, -5]]

/-- A tetrahedron; the contact comes first. -/
def bndOrder : BLines Rat :=
  bndInfo 3 2 ++ bndTetLines ++ [bndHead "Elements" 2, bndLine [2, 0, 3, -2], bndLine [10, 4, 0, 1, 2, 3]] ++
    bndRegionLines "Bottom" "Contact" [0] ++ bndRegionLines "Volume" "Silicon" [1]

/-- **C83** fails: if a contact is listed before a polyhedron, the reader writes beyond the end of a list. -/
theorem C83_violated_order : bndFailure (readBnd (fun i => (i : Rat)) 3 bndOrder) = some .undefined := by decide +kernel

/-- Two polyhedra in one region, and a contact. -/
def bndRegions : BLines Rat :=
  bndInfo 3 2 ++ bndTetLines ++ [bndHead "Elements" 3, bndLine [10, 1, 0], bndLine [10, 1, 1], bndLine [2, 0, 3, -2]] ++
    bndRegionLines "Volume" "Silicon" [0, 1] ++ bndRegionLines "Bottom" "Contact" [2]

/-- **C83** fails: if there are more contacts than regions beyond the number of polyhedra, the reader uses a list beyond
its end. -/
theorem C83_violated_regions : bndFailure (readBnd (fun i => (i : Rat)) 3 bndRegions) = some .undefined := by
  decide +kernel

/-- Two polyhedra in one region. -/
def bndOneRegion : BLines Rat :=
  bndInfo 3 1 ++ bndTetLines ++ [bndHead "Elements" 2, bndLine [10, 2, 0, 1], bndLine [10, 2, 2, 3]] ++
    bndRegionLines "Volume" "Silicon" [0, 1]

/-- Names and materials which are read, for inspection. -/
def bndNames (r : Except BndFail (BndData Rat)) : Option (List (String × String)) :=
  match r with
  | .ok d => some d.regions.segments
  | .error _ => none

/-- **C84** fails: if there are fewer regions than polyhedra, names and materials of the segments are empty; the mesh is
read without an exception. -/
theorem C84_violated : bndNames (readBndData (fun i => (i : Rat)) bndOneRegion) = some [("", ""), ("", "")] ∧
    bndTriangles (readBnd (fun i => (i : Rat)) 3 bndOneRegion) 2 =
      some ([[0, 1, 2], [0, 1, 3], [0, 2, 3], [1, 2, 3]], [[0, 1], [2, 3]]) := by decide +kernel

/-- A tetrahedron as an element of an unknown type after one of a known type. -/
def bndType : BLines Rat :=
  bndInfo 3 2 ++ bndTetLines ++ [bndHead "Elements" 2, bndLine [10, 2, 0, 1], bndLine [5, 4, 0, 1, 2, 3]] ++
    bndRegionLines "A" "Silicon" [0] ++ bndRegionLines "B" "Oxide" [1]

/-- **C85** fails: a file with an element of a type which is not supported is read without an exception; the element
becomes an empty segment. -/
theorem C85_violated_type : bndTriangles (readBnd (fun i => (i : Rat)) 3 bndType) 2 =
    some ([[0, 1, 2], [0, 1, 3]], [[0, 1], []]) := by decide +kernel

/-- A tetrahedron with a face which does not exist. -/
def bndNoFace : BLines Rat :=
  bndInfo 3 1 ++ bndTetLines ++ [bndHead "Elements" 1, bndLine [10, 4, 0, 1, 2, 4]] ++ bndRegionLines "A" "Silicon" [0]

/-- **C85** fails: an index of a face which does not exist is used as it is. -/
theorem C85_violated_index : bndFailure (readBnd (fun i => (i : Rat)) 3 bndNoFace) = some .undefined := by decide +kernel

end VG
