import Verif.Model.Neper
import Verif.Lemmas.Serialization
import Verif.Props.TetgenPoly

/-!
C87: reading a Neper file (.tess) gives the vertices, piecewise linear complexes and seed points described in the file.

The specification is the contents of a file, `NepFile`, the lines which show them, `NepFile.ShownBy`, and what the result
has to be like, `NepFile.Describes`.
-/

namespace VG

variable {C : Type}

/-! ### The contents of a file -/

/-- The contents: vertices with ids and points, faces given by the ids of their corners, polyhedra with ids and points. -/
structure NepFile (C : Type) where
  nodes : List (Int × List (Coord C))
  faces : List (List Int)
  cells : List (Int × List (Coord C))

/-- The file makes sense: ids of vertices are different, points have `dim` coordinates, faces have at least two corners,
which are vertices, and sides have different ends. -/
structure NepFile.OK (dim : Nat) (F : NepFile C) : Prop where
  ids : (F.nodes.map (·.1)).Nodup
  points : ∀ x ∈ F.nodes, x.2.length = dim
  faces : ∀ f ∈ F.faces, 2 ≤ f.length ∧ (∀ i ∈ f, i ∈ F.nodes.map (·.1)) ∧ ∀ a b, Side f a b → a ≠ b
  cells : ∀ x ∈ F.cells, x.2.length = dim

/-- A line without the title of a section. -/
def PlainLine (l : List Char) : Prop :=
  ¬ "**vertex".toList <:+: l ∧ ¬ "**face".toList <:+: l ∧ ¬ "**polyhedron".toList <:+: l

/-- The title of the vertices, of the faces, and of the polyhedra. -/
def VertexHead (l : List Char) : Prop := "**vertex".toList <:+: l

def FaceHead (l : List Char) : Prop := "**face".toList <:+: l ∧ ¬ "**vertex".toList <:+: l

def CellHead (l : List Char) : Prop :=
  "**polyhedron".toList <:+: l ∧ ¬ "**vertex".toList <:+: l ∧ ¬ "**face".toList <:+: l

/-- Three lines for a vertex: the id, something else, the point. -/
def ShowsNode (lex : List Char → List (Tok C)) (x : Int × List (Coord C)) (ls : List (List Char)) : Prop :=
  ∃ a b c, ls = [a, b, c] ∧ [.int x.1] <+: lex a ∧ x.2.map coordTok <+: lex c

/-- Seven lines for a face; the fourth has the number of corners and their ids. -/
def ShowsFace (lex : List Char → List (Tok C)) (f : List Int) (ls : List (List Char)) : Prop :=
  ∃ a b c l d e g, ls = [a, b, c, l, d, e, g] ∧ (.int f.length :: f.map .int) <+: lex l

/-- Three lines for a polyhedron; the first has the id and the point. -/
def ShowsCell (lex : List Char → List (Tok C)) (x : Int × List (Coord C)) (ls : List (List Char)) : Prop :=
  ∃ a b c, ls = [a, b, c] ∧ (.int x.1 :: x.2.map coordTok) <+: lex a

/-- The lines after the title of a section: the number of entries, and the lines of the entries, none of which is the
title of a section. -/
def ShowsPart {A : Type} (lex : List Char → List (Tok C)) (entry : A → List (List Char) → Prop) (as : List A)
    (ls : List (List Char)) : Prop :=
  ∃ c es, ls = c :: es.flatten ∧ [.int as.length] <+: lex c ∧ List.Forall₂ entry as es ∧ ∀ l ∈ ls, PlainLine l

/-- The lines of a file: vertices, faces and polyhedra, with other lines before, between and after. -/
def NepFile.ShownBy (lex : List Char → List (Tok C)) (F : NepFile C) (ls : List (List Char)) : Prop :=
  ∃ pre v vs mid f fs mid' c cs post,
    ls = pre ++ v :: (vs ++ (mid ++ f :: (fs ++ (mid' ++ c :: (cs ++ post))))) ∧
    (∀ l ∈ pre ++ mid ++ mid' ++ post, PlainLine l) ∧ VertexHead v ∧ FaceHead f ∧ CellHead c ∧
    ShowsPart lex (ShowsNode lex) F.nodes vs ∧ ShowsPart lex (ShowsFace lex) F.faces fs ∧
    ShowsPart lex (ShowsCell lex) F.cells cs

/-! ### What the result has to be like -/

/-- The complex belongs to the face: its lines are the sides, its vertices the corners, each once; the corner with the
id `i` is the vertex made for the vertex with that id in the file. -/
def NepFile.FaceIs (ofInt : Int → C) (F : NepFile C) (m : Mesh (List C)) (f : List Int) (p : Plc C) : Prop :=
  ∃ ks : List Nat, List.Forall₂ (fun i (k : Nat) => (F.nodes.map (·.1))[k]? = some i) f ks ∧
    PolyFacet.Describes ofInt m ⟨[ks.map fun k : Nat => (k : Int)], []⟩ p

structure NepFile.Describes (ofInt : Int → C) (F : NepFile C) (m : Mesh (List C)) (plcs : List (Plc C))
    (seeds : List (List C × Int)) : Prop where
  points : m.verts.map (·.pt) = F.nodes.map fun x => x.2.map (coordVal ofInt)
  ids : ∀ v < m.verts.length, m.vid v = v
  faces : List.Forall₂ (F.FaceIs ofInt m) F.faces plcs
  once : ∀ s t a b, LineBetween m s a b → LineBetween m t a b → s = t
  only : ∀ s, s < (m.elems 1).length → ∃ p ∈ plcs, s ∈ p.lines
  none : ∀ j, 1 < j → m.elems j = []
  seeds : seeds = F.cells.map fun x => (x.2.map (coordVal ofInt), x.1)

/-! ### Reading -/

section
variable {lex : List Char → List (Tok C)} {ofInt : Int → C} {dim : Nat}

theorem titles_eq : vertexTitle = "**vertex".toList ∧ faceTitle = "**face".toList ∧
    polyhedronTitle = "**polyhedron".toList := by decide

theorem nepStep_plain {s : NepIn} (h : PlainLine s.tmp) (o : NepOut C) : nepStep lex ofInt dim s o = .ok (s, o) := by
  obtain ⟨h1, h2, h3⟩ := titles_eq
  obtain ⟨h4, h5, h6⟩ := h
  simp only [nepStep, nepSection, hasTitle, h1, h2, h3, h4, h5, h6, decide_false, Bool.false_eq_true, if_false]

/-- Lines without titles. -/
theorem nepLoop_plain (trail : Bool) (rest : List (List Char)) (o : NepOut C) : ∀ (pre : List (List Char)),
    (∀ l ∈ pre, PlainLine l) → ∀ (n : Nat) (tmp : List Char), (pre ++ rest).length ≤ n →
    ∃ n' tmp', rest.length ≤ n' ∧
      nepLoop lex ofInt dim n ⟨pre ++ rest, trail, tmp⟩ o = nepLoop lex ofInt dim n' ⟨rest, trail, tmp'⟩ o
  | [], _, n, tmp, h => ⟨n, tmp, h, rfl⟩
  | l :: pre, hp, n, tmp, h => by
    obtain ⟨n, rfl⟩ : ∃ k, n = k + 1 := ⟨n - 1, by simp at h; omega⟩
    obtain ⟨n', tmp', h1, h2⟩ := nepLoop_plain trail rest o pre (fun x hx => hp x (by simp [hx])) n l (by simpa using h)
    refine ⟨n', tmp', h1, ?_⟩
    rw [← h2]
    simp only [List.cons_append, nepLoop, NepIn.getline]
    rw [nepStep_plain (hp l (by simp))]

theorem nepCount_ok {n : Nat} {l : List (Tok C)} (h : [.int n] <+: l) : nepCount l = .ok n := by
  obtain ⟨t, rfl⟩ := h
  simp only [nepCount, List.cons_append, getInt_cons, Int.toNat_natCast]

/-- A part of the reader reads the lines of its entries; the last line read is one of them or the one before. -/
def PartReads (body : NepIn → NepOut C → Except ReadFail (NepIn × NepOut C)) (es : List (List Char)) (o o' : NepOut C) :
    Prop :=
  ∀ rest trail tmp, ∃ tmp', (tmp' = tmp ∨ tmp' ∈ es) ∧ body ⟨es ++ rest, trail, tmp⟩ o = .ok (⟨rest, trail, tmp'⟩, o')

theorem PartReads.nil (o : NepOut C) : PartReads (fun s o => .ok (s, o)) [] o o :=
  fun _ _ tmp => ⟨tmp, Or.inl rfl, rfl⟩

/-- A section without the title. -/
theorem nepSection_other {title : List Char} {body : Nat → NepIn → NepOut C → Except ReadFail (NepIn × NepOut C)}
    {s : NepIn} (h : ¬ title <:+: s.tmp) (o : NepOut C) : nepSection lex title body s o = .ok (s, o) := by
  simp [nepSection, hasTitle, h]

theorem nepSection_reads {title : List Char} {body : Nat → NepIn → NepOut C → Except ReadFail (NepIn × NepOut C)}
    {n : Nat} {c h : List Char} {es : List (List Char)} {o o' : NepOut C} (ht : title <:+: h)
    (hc : [.int n] <+: lex c) (hp : ∀ l ∈ c :: es, PlainLine l) (hb : PartReads (body n) es o o')
    (rest : List (List Char)) (trail : Bool) :
    ∃ tmp', PlainLine tmp' ∧
      nepSection lex title body ⟨(c :: es) ++ rest, trail, h⟩ o = .ok (⟨rest, trail, tmp'⟩, o') := by
  obtain ⟨tmp', h4, h5⟩ := hb rest trail c
  refine ⟨tmp', ?_, ?_⟩
  · rcases h4 with rfl | h4
    · exact hp _ (by simp)
    · exact hp _ (by simp [h4])
  · simp only [nepSection, hasTitle, ht, decide_true, if_true, List.cons_append, NepIn.getline, nepCount_ok hc]
    exact h5

/-- A whole section in the outer loop. -/
theorem loop_section {ls rest : List (List Char)} {h : List Char} {o o' : NepOut C} {trail : Bool}
    (hs : ∃ tmp', nepStep lex ofInt dim ⟨ls ++ rest, trail, h⟩ o = .ok (⟨rest, trail, tmp'⟩, o')) (n : Nat)
    (tmp : List Char) (hn : (h :: (ls ++ rest)).length ≤ n) :
    ∃ n' tmp', rest.length ≤ n' ∧
      nepLoop lex ofInt dim n ⟨h :: (ls ++ rest), trail, tmp⟩ o = nepLoop lex ofInt dim n' ⟨rest, trail, tmp'⟩ o' := by
  obtain ⟨tmp', hs⟩ := hs
  obtain ⟨n, rfl⟩ : ∃ k, n = k + 1 := ⟨n - 1, by simp at hn; omega⟩
  refine ⟨n, tmp', by simp at hn; omega, ?_⟩
  simp only [nepLoop, NepIn.getline]
  rw [hs]

/-! ### Vertices -/

/-- What is made for the vertices. -/
def nodesOut (ofInt : Int → C) : NepOut C → List (Int × List (Coord C)) → NepOut C
  | o, [] => o
  | o, x :: xs => nodesOut ofInt { o with
      mesh := o.mesh.makeVertex none (x.2.map (coordVal ofInt))
      vertices := (x.1, o.mesh.verts.length) :: o.vertices } xs

theorem nepVertices_reads : ∀ (nodes : List (Int × List (Coord C))) (es : List (List (List Char))) (o : NepOut C),
    (∀ x ∈ nodes, x.2.length = dim) → List.Forall₂ (ShowsNode lex) nodes es →
    PartReads (nepVertices lex ofInt dim nodes.length) es.flatten o (nodesOut ofInt o nodes)
  | [], _, o, _, h => by
    cases h
    exact PartReads.nil o
  | x :: nodes, _, o, hd, h => by
    cases h with
    | @cons _ e _ es h1 h2 =>
      obtain ⟨a, b, c, rfl, ⟨t, ht⟩, ⟨u, hu⟩⟩ := h1
      have hx := hd x (by simp)
      intro rest trail tmp
      obtain ⟨t2, h3, h4⟩ := nepVertices_reads nodes es _ (fun y hy => hd y (by simp [hy])) h2 rest trail c
      refine ⟨t2, Or.inr ?_, ?_⟩
      · rcases h3 with rfl | h3
        · simp
        · rw [List.flatten_cons]
          exact List.mem_append_right _ h3
      · simp only [List.length_cons, List.flatten_cons, List.cons_append, List.nil_append, nepVertices, NepIn.getline]
        rw [← ht]
        simp only [List.cons_append, getInt_cons]
        rw [← hu, ← hx, readPoint_line, hx]
        exact h4

theorem nodesOut_spec : ∀ (nodes : List (Int × List (Coord C))) (o : NepOut C),
    (nodesOut ofInt o nodes).mesh = vertsMesh o.mesh (nodes.map fun x => x.2.map (coordVal ofInt)) ∧
    (nodesOut ofInt o nodes).lines = o.lines ∧ (nodesOut ofInt o nodes).plcs = o.plcs ∧
    (nodesOut ofInt o nodes).seeds = o.seeds
  | [], _ => ⟨rfl, rfl, rfl, rfl⟩
  | x :: nodes, o => nodesOut_spec nodes { o with
      mesh := o.mesh.makeVertex none (x.2.map (coordVal ofInt))
      vertices := (x.1, o.mesh.verts.length) :: o.vertices }

theorem vertsMesh_inv {T : Topo} {P : Type} : ∀ (ps : List P) {m : Mesh P}, Inv T m → Inv T (vertsMesh m ps)
  | [], _, h => h
  | p :: ps, _, h => vertsMesh_inv ps (h.makeVertex none p)

theorem nodesOut_known : ∀ (nodes : List (Int × List (Coord C))) (o : NepOut C), (nodes.map (·.1)).Nodup →
    (∀ i, i ∉ nodes.map (·.1) → (nodesOut ofInt o nodes).vertices.find? (fun x => x.1 == i) =
      o.vertices.find? (fun x => x.1 == i)) ∧
    ∀ i ∈ nodes.map (·.1), (nodesOut ofInt o nodes).vertices.find? (fun x => x.1 == i) =
      some (i, o.mesh.verts.length + (nodes.map (·.1)).idxOf i)
  | [], o, _ => ⟨fun _ _ => rfl, fun i hi => by simp at hi⟩
  | x :: nodes, o, hn => by
    rw [List.map_cons, List.nodup_cons] at hn
    obtain ⟨h1, h2⟩ := nodesOut_known nodes { o with
      mesh := o.mesh.makeVertex none (x.2.map (coordVal ofInt))
      vertices := (x.1, o.mesh.verts.length) :: o.vertices } hn.2
    refine ⟨fun i hi => ?_, fun i hi => ?_⟩
    · rw [List.map_cons, List.mem_cons, not_or] at hi
      rw [nodesOut, h1 i hi.2, List.find?_cons_of_neg]
      simpa using fun h => hi.1 h.symm
    · rw [nodesOut]
      by_cases hx : i = x.1
      · subst hx
        rw [h1 _ hn.1, List.find?_cons_of_pos (by simp)]
        simp
      · have hi' : i ∈ nodes.map (·.1) := by
          rw [List.map_cons, List.mem_cons] at hi
          exact hi.resolve_left hx
        rw [h2 i hi', List.map_cons, List.idxOf_cons_ne _ (fun h => hx h.symm)]
        simp only [Mesh.makeVertex, List.length_append, List.length_singleton, Option.some.injEq, Prod.mk.injEq, true_and]
        omega

/-! ### Faces -/

/-- What is known while faces are read; `ids` are the ids of the vertices in the file. -/
structure FaceInv (ids : List Int) (o : NepOut C) : Prop where
  inv : Inv (simplexTopo 2) o.mesh
  pos : IdsArePositions o.mesh
  len : o.mesh.verts.length = ids.length
  known : ∀ i ∈ ids, o.vertices.find? (fun x => x.1 == i) = some (i, ids.idxOf i)
  unknown : ∀ i ∉ ids, o.vertices.find? (fun x => x.1 == i) = none
  lines : ∀ x ∈ o.lines, IsLine o.mesh x.2 (ids.idxOf x.1.1) (ids.idxOf x.1.2)

theorem IdsArePositions.unique {P : Type} {m : Mesh P} (h : IdsArePositions m) : UniqueVids m := by
  unfold UniqueVids
  rw [List.nodup_iff_injective_getElem]
  rintro ⟨a, ha⟩ ⟨b, hb⟩ hab
  have ha' : a < m.verts.length := by simpa using ha
  have hb' : b < m.verts.length := by simpa using hb
  have e1 := h a ha'
  have e2 := h b hb'
  simp only [Mesh.vid] at e1 e2
  rw [List.getD_eq_getElem _ _ ha] at e1
  rw [List.getD_eq_getElem _ _ hb] at e2
  have : (a : Int) = b := by rw [← e1, ← e2]; exact hab
  simpa using this

theorem LinesMade.one_cons {m m₁ m₂ : Mesh (List C)} {p : Nat × Nat} {ps : List (Nat × Nat)} {s : Nat} {ss : List Nat}
    (h : LinesMade m m₁ [p] [s]) (h' : LinesMade m₁ m₂ ps ss) : LinesMade m m₂ (p :: ps) (s :: ss) := by
  refine ⟨h'.inv, h.ext.trans h'.ext, fun j hj => (h'.higher j hj).trans (h.higher j hj), .cons ?_ h'.lines, ?_⟩
  · have := h.lines
    cases this with
    | cons h1 _ => exact h1.ext h'.ext
  · intro i h1 h2
    by_cases hi : i < (m₁.elems 1).length
    · have := h.new i h1 hi
      rw [List.mem_singleton] at this
      simp [this]
    · exact List.mem_cons_of_mem _ (h'.new i (by omega) h2)

theorem LinesMade.swap {m m' : Mesh (List C)} {a b s : Nat} (h : LinesMade m m' [(a, b)] [s]) :
    LinesMade m m' [(b, a)] [s] := by
  refine ⟨h.inv, h.ext, h.higher, ?_, h.new⟩
  have := h.lines
  cases this with
  | cons h1 _ => exact .cons h1.symm .nil

/-- A pair of ids in the order of the map. -/
theorem nepLine_ordered {ids : List Int} {o : NepOut C} (h : FaceInv ids o) {i j : Int} (hi : i ∈ ids) (hj : j ∈ ids)
    (hij : i < j) :
    ∃ o' s, nepLine o (i, j) = .ok (o', s) ∧ nepLine o (j, i) = .ok (o', s) ∧ FaceInv ids o' ∧
      LinesMade o.mesh o'.mesh [(ids.idxOf i, ids.idxOf j)] [s] ∧ o'.plcs = o.plcs ∧ o'.seeds = o.seeds := by
  simp only [nepLine, min_eq_left hij.le, max_eq_right hij.le, min_eq_right hij.le, max_eq_left hij.le]
  cases hf : o.lines.find? (fun x => x.1 == (i, j)) with
  | some x =>
    have h1 := List.find?_some hf
    have h2 := h.lines x (List.mem_of_find?_eq_some hf)
    rw [beq_iff_eq] at h1
    rw [h1] at h2
    exact ⟨o, x.2, rfl, rfl, h, ⟨h.inv, .refl _, fun _ _ => rfl, .cons h2 .nil, fun k h3 h4 => absurd h4 (by omega)⟩,
      rfl, rfl⟩
  | none =>
    rw [h.known i hi, h.known j hj]
    simp only
    have hli := List.idxOf_lt_length_iff.2 hi
    have hlj := List.idxOf_lt_length_iff.2 hj
    have hne : ids.idxOf i ≠ ids.idxOf j := by
      intro he
      have e1 := List.getElem_idxOf hli
      have e2 := List.getElem_idxOf hlj
      simp only [he] at e1
      rw [e1] at e2
      omega
    have hm := makeLines_spec [(ids.idxOf i, ids.idxOf j)] o.mesh h.inv h.pos.unique (by
      intro p hp
      rw [List.mem_singleton] at hp
      subst hp
      exact ⟨hne, by rw [h.len]; exact hli, by rw [h.len]; exact hlj⟩)
    simp only [makeLines] at hm
    refine ⟨_, _, rfl, rfl, ⟨hm.inv, ?_, ?_, h.known, h.unknown, ?_⟩, hm, rfl, rfl⟩
    · intro v hv
      have hv' : v < o.mesh.verts.length := by rw [← hm.ext.verts]; exact hv
      rw [← h.pos v hv']
      simp only [Mesh.vid, hm.ext.verts]
    · show (o.mesh.makeElem (simplexTopo 2) 1 _).mesh.verts.length = _
      rw [hm.ext.verts]
      exact h.len
    · intro x hx
      rcases List.mem_cons.1 hx with rfl | hx
      · have := hm.lines
        cases this with
        | cons h1 _ => exact h1
      · exact (h.lines x hx).ext hm.ext

theorem nepLine_spec {ids : List Int} {o : NepOut C} (h : FaceInv ids o) {p : Int × Int} (h1 : p.1 ∈ ids) (h2 : p.2 ∈ ids)
    (hne : p.1 ≠ p.2) :
    ∃ o' s, nepLine o p = .ok (o', s) ∧ FaceInv ids o' ∧
      LinesMade o.mesh o'.mesh [(ids.idxOf p.1, ids.idxOf p.2)] [s] ∧ o'.plcs = o.plcs ∧ o'.seeds = o.seeds := by
  rcases lt_or_gt_of_ne hne with hlt | hlt
  · obtain ⟨o', s, h3, _, h4, h5, h6⟩ := nepLine_ordered h h1 h2 hlt
    exact ⟨o', s, h3, h4, h5, h6⟩
  · obtain ⟨o', s, _, h3, h4, h5, h6⟩ := nepLine_ordered h h2 h1 hlt
    exact ⟨o', s, h3, h4, h5.swap, h6⟩

theorem nepLines_spec {ids : List Int} : ∀ (ps : List (Int × Int)) (o : NepOut C), FaceInv ids o →
    (∀ p ∈ ps, p.1 ∈ ids ∧ p.2 ∈ ids ∧ p.1 ≠ p.2) →
    ∃ o' ss, nepLines ps o = .ok (o', ss) ∧ FaceInv ids o' ∧
      LinesMade o.mesh o'.mesh (ps.map fun p => (ids.idxOf p.1, ids.idxOf p.2)) ss ∧ o'.plcs = o.plcs ∧ o'.seeds = o.seeds
  | [], o, h, _ => ⟨o, [], rfl, h, ⟨h.inv, .refl _, fun _ _ => rfl, .nil, fun k h3 h4 => absurd h4 (by omega)⟩, rfl, rfl⟩
  | p :: ps, o, h, hp => by
    obtain ⟨h1, h2, h3⟩ := hp p (by simp)
    obtain ⟨o₁, s, h4, h5, h6, h7, h8⟩ := nepLine_spec h h1 h2 h3
    obtain ⟨o₂, ss, h9, h10, h11, h12, h13⟩ := nepLines_spec ps o₁ h5 fun q hq => hp q (by simp [hq])
    refine ⟨o₂, s :: ss, ?_, h10, h6.one_cons h11, h12.trans h7, h13.trans h8⟩
    simp only [nepLines, h4, h9]

theorem nepIds_ok (t : List (Tok C)) : ∀ (ids : List Int), nepIds ids.length (lineIn (ids.map .int ++ t)) = .ok ids
  | [] => rfl
  | i :: ids => by
    simp only [List.map_cons, List.cons_append, List.length_cons, nepIds, getInt_cons, nepIds_ok t ids]

theorem nepFaceLine_ok {ids : List Int} {l : List (Tok C)} (h : (.int ids.length :: ids.map .int) <+: l) :
    nepFaceLine l = .ok ids := by
  obtain ⟨t, rfl⟩ := h
  simp only [nepFaceLine, List.cons_append, getInt_cons]
  rw [if_neg (by omega), Int.toNat_natCast, nepIds_ok]

/-- The pairs are the sides, up to the order of the ends. -/
theorem nepSides_spec {f : List Int} (hf : 2 ≤ f.length) : ∃ ps, nepSides f = .ok ps ∧
    (∀ p ∈ ps, Side f p.1 p.2 ∨ Side f p.2 p.1) ∧ ∀ a b, Side f a b → (a, b) ∈ ps ∨ (b, a) ∈ ps := by
  cases f with
  | nil => simp at hf
  | cons x l =>
    refine ⟨_, rfl, ?_, ?_⟩
    · rintro ⟨a, b⟩ hp
      rcases List.mem_append.1 hp with hp | hp
      · left
        obtain ⟨i, h1, h2⟩ := (mem_zip_tail (l := x :: l)).1 hp
        have hi := (List.getElem?_eq_some_iff.1 h2).1
        exact ⟨hf, i, by omega, h1, by rw [Nat.mod_eq_of_lt hi]; exact h2⟩
      · right
        simp only [List.mem_singleton, Prod.mk.injEq] at hp
        obtain ⟨rfl, rfl⟩ := hp
        refine ⟨hf, l.length, by simp, ?_, by simp⟩
        rw [List.getLast_eq_getElem]
        simp
    · rintro a b ⟨_, i, h1, h2, h3⟩
      simp only [List.length_cons] at h1 h3
      by_cases h : i + 1 < l.length + 1
      · rw [Nat.mod_eq_of_lt h] at h3
        exact Or.inl (List.mem_append_left _ ((mem_zip_tail (l := x :: l)).2 ⟨i, h2, h3⟩))
      · have : i = l.length := by omega
        subst this
        rw [Nat.mod_self] at h3
        right
        refine List.mem_append_right _ ?_
        simp only [List.mem_singleton, Prod.mk.injEq]
        constructor
        · simpa using h3.symm
        · rw [List.getLast_eq_getElem]
          have := (List.getElem?_eq_some_iff.1 h2).2
          simpa using this.symm

/-- The lines of a face. -/
theorem face_made {ids : List Int} {m m' : Mesh (List C)} {f : List Int} (hf : 2 ≤ f.length) {ps : List (Int × Int)}
    (h1 : ∀ p ∈ ps, Side f p.1 p.2 ∨ Side f p.2 p.1) (h2 : ∀ a b, Side f a b → (a, b) ∈ ps ∨ (b, a) ∈ ps) {ss : List Nat}
    (h : LinesMade m m' (ps.map fun p => (ids.idxOf p.1, ids.idxOf p.2)) ss) :
    FacetMade m m' [f.map fun i => ids.idxOf i] ss [] := by
  refine ⟨h.inv, h.ext, h.higher, ?_, ?_, ?_, h.new⟩
  · intro s hs
    obtain ⟨q, h3, h4⟩ := forall₂_right h.lines hs
    obtain ⟨p, hp, rfl⟩ := List.mem_map.1 h3
    refine ⟨_, List.mem_singleton_self _, ?_⟩
    rcases h1 p hp with h5 | h5
    · exact ⟨_, _, h5.map _, h4⟩
    · exact ⟨_, _, h5.map _, h4.symm⟩
  · intro vs hvs a b hab
    rw [List.mem_singleton] at hvs
    subst hvs
    obtain ⟨x, y, h3, rfl, rfl⟩ := hab.of_map
    rcases h2 x y h3 with h4 | h4
    · exact forall₂_to h.lines (List.mem_map.2 ⟨_, h4, rfl⟩)
    · obtain ⟨s, h5, h6⟩ := forall₂_to h.lines (List.mem_map.2 ⟨_, h4, rfl⟩)
      exact ⟨s, h5, h6.symm⟩
  · intro v
    simp only [List.not_mem_nil, List.mem_singleton, false_iff]
    intro he
    have := congrArg List.length he
    simp at this
    omega

theorem FaceInv.plcs {ids : List Int} {o : NepOut C} (h : FaceInv ids o) (l : List (Plc C)) :
    FaceInv ids { o with plcs := l } := ⟨h.inv, h.pos, h.len, h.known, h.unknown, h.lines⟩

theorem NepFile.FaceIs.ext {F : NepFile C} {m m' : Mesh (List C)} {f : List Int} {p : Plc C} (h : F.FaceIs ofInt m f p)
    (he : Ext m m') : F.FaceIs ofInt m' f p := by
  obtain ⟨ks, h1, h2⟩ := h
  exact ⟨ks, h1, h2.ext he⟩

theorem nepFaces_reads {F : NepFile C} : ∀ (faces : List (List Int)) (es : List (List (List Char))) (o : NepOut C),
    FaceInv (F.nodes.map (·.1)) o →
    (∀ f ∈ faces, 2 ≤ f.length ∧ (∀ i ∈ f, i ∈ F.nodes.map (·.1)) ∧ ∀ a b, Side f a b → a ≠ b) →
    List.Forall₂ (ShowsFace lex) faces es →
    ∃ o' plcs, PartReads (nepFaces lex faces.length) es.flatten o o' ∧ FaceInv (F.nodes.map (·.1)) o' ∧
      Ext o.mesh o'.mesh ∧ (∀ j, 1 < j → o'.mesh.elems j = o.mesh.elems j) ∧ o'.plcs = o.plcs ++ plcs ∧
      o'.seeds = o.seeds ∧ List.Forall₂ (F.FaceIs ofInt o'.mesh) faces plcs ∧
      ∀ i, (o.mesh.elems 1).length ≤ i → i < (o'.mesh.elems 1).length → ∃ p ∈ plcs, i ∈ p.lines
  | [], _, o, hI, _, h => by
    cases h
    exact ⟨o, [], PartReads.nil o, hI, .refl _, fun _ _ => rfl, by simp, rfl, .nil, fun i h1 h2 => absurd h2 (by omega)⟩
  | f :: faces, _, o, hI, hf, h => by
    cases h with
    | @cons _ e _ es h1 h2 =>
      obtain ⟨a, b, c, l, d, e, g, rfl, hl⟩ := h1
      obtain ⟨hf1, hf2, hf3⟩ := hf f (by simp)
      obtain ⟨ps, h3, h4, h5⟩ := nepSides_spec hf1
      have hps : ∀ p ∈ ps, p.1 ∈ F.nodes.map (·.1) ∧ p.2 ∈ F.nodes.map (·.1) ∧ p.1 ≠ p.2 := by
        intro p hp
        rcases h4 p hp with hs | hs
        · exact ⟨hf2 _ hs.mem.1, hf2 _ hs.mem.2, hf3 _ _ hs⟩
        · exact ⟨hf2 _ hs.mem.2, hf2 _ hs.mem.1, (hf3 _ _ hs).symm⟩
      obtain ⟨o₁, ss, h6, h7, h8, h9, h10⟩ := nepLines_spec ps o hI hps
      have hmade := face_made hf1 h4 h5 h8
      have hd := makePlc_describes (ofInt := ofInt)
        (f := ⟨[(f.map fun i => (F.nodes.map (·.1)).idxOf i).map o.mesh.vid], []⟩) hmade rfl hI.pos.unique (by
          intro q hq v hv
          rw [List.mem_singleton] at hq
          subst hq
          obtain ⟨i, hi, rfl⟩ := List.mem_map.1 hv
          rw [hI.len]
          exact List.idxOf_lt_length_iff.2 (hf2 i hi))
      have hface : F.FaceIs ofInt o₁.mesh f (makePlc o₁.mesh ss [] []) := by
        refine ⟨f.map fun i => (F.nodes.map (·.1)).idxOf i, ?_, ?_⟩
        · rw [List.forall₂_map_right_iff, List.forall₂_same]
          intro i hi
          have hlt := List.idxOf_lt_length_iff.2 (hf2 i hi)
          rw [List.getElem?_eq_getElem hlt, List.getElem_idxOf]
        · have hm : (f.map fun i => (F.nodes.map (·.1)).idxOf i).map o.mesh.vid =
              (f.map fun i => (F.nodes.map (·.1)).idxOf i).map fun k : Nat => (k : Int) := by
            refine List.map_congr_left fun v hv => ?_
            obtain ⟨i, hi, rfl⟩ := List.mem_map.1 hv
            refine hI.pos _ ?_
            rw [hI.len]
            exact List.idxOf_lt_length_iff.2 (hf2 i hi)
          rw [hm] at hd
          exact hd
      obtain ⟨o₂, plcs, h11, h12, h13, h14, h15, h16, h17, h18⟩ := nepFaces_reads faces es
        { o₁ with plcs := o₁.plcs ++ [makePlc o₁.mesh ss [] []] } (h7.plcs _) (fun x hx => hf x (by simp [hx])) h2
      refine ⟨o₂, makePlc o₁.mesh ss [] [] :: plcs, ?_, h12, hmade.ext.trans h13,
        fun j hj => (h14 j hj).trans (hmade.higher j hj), ?_, h16.trans h10, .cons (hface.ext h13) h17, ?_⟩
      · intro rest trail tmp
        obtain ⟨t2, h19, h20⟩ := h11 rest trail g
        refine ⟨t2, Or.inr ?_, ?_⟩
        · rcases h19 with rfl | h19
          · simp
          · rw [List.flatten_cons]
            exact List.mem_append_right _ h19
        · simp only [List.length_cons, List.flatten_cons, List.cons_append, List.nil_append, nepFaces, NepIn.getline]
          rw [nepFaceLine_ok hl]
          simp only [h3, h6]
          exact h20
      · rw [h15, h9]
        simp
      · intro i hi hi'
        by_cases hm : i < (o₁.mesh.elems 1).length
        · refine ⟨_, List.mem_cons_self, ?_⟩
          simpa [makePlc, mem_insUnique] using hmade.new i hi hm
        · obtain ⟨p, h19, h20⟩ := h18 i (by simpa using hm) hi'
          exact ⟨p, by simp [h19], h20⟩

/-! ### Polyhedra -/

theorem nepSeeds_reads : ∀ (cells : List (Int × List (Coord C))) (es : List (List (List Char))) (o : NepOut C),
    (∀ x ∈ cells, x.2.length = dim) → List.Forall₂ (ShowsCell lex) cells es →
    PartReads (nepSeeds lex ofInt dim cells.length) es.flatten o
      { o with seeds := o.seeds ++ cells.map fun x => (x.2.map (coordVal ofInt), x.1) }
  | [], _, o, _, h => by
    cases h
    intro rest trail tmp
    exact ⟨tmp, Or.inl rfl, by simp [nepSeeds]⟩
  | x :: cells, _, o, hd, h => by
    cases h with
    | @cons _ e _ es h1 h2 =>
      obtain ⟨a, b, c, rfl, ⟨t, ht⟩⟩ := h1
      have hx := hd x (by simp)
      intro rest trail tmp
      obtain ⟨t2, h3, h4⟩ := nepSeeds_reads cells es { o with seeds := o.seeds ++ [(x.2.map (coordVal ofInt), x.1)] }
        (fun y hy => hd y (by simp [hy])) h2 rest trail c
      refine ⟨t2, Or.inr ?_, ?_⟩
      · rcases h3 with rfl | h3
        · simp
        · rw [List.flatten_cons]
          exact List.mem_append_right _ h3
      · simp only [List.length_cons, List.flatten_cons, List.cons_append, List.nil_append, nepSeeds, NepIn.getline]
        rw [← ht]
        simp only [List.cons_append, getInt_cons]
        rw [← hx, readPoint_line, hx]
        simp only
        rw [h4]
        simp

end

/-- The lines up to the end of the vertices. -/
theorem nodes_read {lex : List Char → List (Tok C)} {ofInt : Int → C} {dim : Nat} {nodes : List (Int × List (Coord C))}
    (hids : (nodes.map (·.1)).Nodup) (hd : ∀ x ∈ nodes, x.2.length = dim) {pre : List (List Char)}
    (hpre : ∀ l ∈ pre, PlainLine l) {v : List Char} (hv : VertexHead v) {vs : List (List Char)}
    (hvs : ShowsPart lex (ShowsNode lex) nodes vs) (rest : List (List Char)) (trail : Bool) :
    ∃ o n tmp, readNeper lex ofInt dim (pre ++ v :: (vs ++ rest)) trail = nepLoop lex ofInt dim n ⟨rest, trail, tmp⟩ o ∧
      rest.length ≤ n ∧ FaceInv (nodes.map (·.1)) o ∧
      o.mesh.verts.map (·.pt) = nodes.map (fun x => x.2.map (coordVal ofInt)) ∧ (∀ j, o.mesh.elems j = []) ∧
      o.plcs = [] ∧ o.seeds = [] := by
  obtain ⟨t1, t2, t3⟩ := titles_eq
  obtain ⟨vc, ves, rfl, hvc, hve, hvp⟩ := hvs
  obtain ⟨hm1, hl1, hp1, hs1⟩ := nodesOut_spec (ofInt := ofInt) nodes (⟨Mesh.empty, [], [], [], []⟩ : NepOut C)
  obtain ⟨hk0, hk1⟩ := nodesOut_known (ofInt := ofInt) nodes (⟨Mesh.empty, [], [], [], []⟩ : NepOut C) hids
  have hr1 := nepVertices_reads (lex := lex) (ofInt := ofInt) nodes ves ⟨Mesh.empty, [], [], [], []⟩ hd hve
  obtain ⟨he, _, hid, hpt, _⟩ := vertsMesh_spec (nodes.map fun x => x.2.map (coordVal ofInt))
    (Mesh.empty : Mesh (List C)) empty_positions rfl
  have hb := vertsMesh_inv (nodes.map fun x => x.2.map (coordVal ofInt)) (Inv.empty (P := List C) (simplexTopo 2))
  generalize nodesOut ofInt (⟨Mesh.empty, [], [], [], []⟩ : NepOut C) nodes = o₁ at hm1 hl1 hp1 hs1 hk0 hk1 hr1
  simp only at hm1 hl1 hp1 hs1 hk0 hk1
  rw [← hm1] at he hid hpt hb
  have hpt' : o₁.mesh.verts.map (·.pt) = nodes.map fun x => x.2.map (coordVal ofInt) := by
    simpa [Mesh.empty] using hpt
  have hI1 : FaceInv (nodes.map (·.1)) o₁ := by
    refine ⟨hb, hid, ?_, fun i hi => ?_, fun i hi => by rw [hk0 i hi]; rfl, fun x hx => ?_⟩
    · have := congrArg List.length hpt'
      simpa using this
    · rw [hk1 i hi]
      simp [Mesh.empty]
    · rw [hl1] at hx
      simp at hx
  have step1 : ∃ tmp', nepStep lex ofInt dim ⟨(vc :: ves.flatten) ++ rest, trail, v⟩ ⟨Mesh.empty, [], [], [], []⟩ =
      .ok (⟨rest, trail, tmp'⟩, o₁) := by
    obtain ⟨tmp', hq, hr⟩ := nepSection_reads (title := vertexTitle) (by rw [t1]; exact hv) hvc hvp hr1 rest trail
    refine ⟨tmp', ?_⟩
    simp only [nepStep, hr]
    rw [nepSection_other (s := ⟨rest, trail, tmp'⟩) (by rw [t2]; exact hq.2.1)]
    simp only
    rw [nepSection_other (s := ⟨rest, trail, tmp'⟩) (by rw [t3]; exact hq.2.2)]
  obtain ⟨n1, u1, hn1, e1⟩ := nepLoop_plain (lex := lex) (ofInt := ofInt) (dim := dim) trail _ ⟨Mesh.empty, [], [], [], []⟩
    pre hpre _ [] le_rfl
  obtain ⟨n2, u2, hn2, e2⟩ := loop_section step1 n1 u1 hn1
  exact ⟨o₁, n2, u2, e1.trans e2, hn2, hI1, hpt', fun j => by rw [he]; rfl, hp1, hs1⟩

/-! ### C87 -/

/-- C87: reading a file gives the mesh and the seed points it describes: vertices in order, with the points of the file,
for each face a piecewise linear complex with the sides as lines, lines shared between faces, and for each polyhedron a
seed point with its id.  The ids of the file are not kept.  Full statement: files that are malformed are rejected
(`C87_violated_cut`, `C87_violated_short`, `C87_violated_unknown`). -/
theorem C87_read_partial {lex : List Char → List (Tok C)} {ofInt : Int → C} {dim : Nat} {F : NepFile C} (hF : F.OK dim)
    {file : List (List Char)} (h : F.ShownBy lex file) (trail : Bool) :
    ∃ o, readNeper lex ofInt dim file trail = .ok o ∧ F.Describes ofInt o.mesh o.plcs o.seeds := by
  obtain ⟨pre, v, vs, mid, f, fs, mid', c, cs, post, rfl, hp, hv, hf, hc, h1, h2, h3⟩ := h
  have hpl : ∀ l, l ∈ pre ∨ l ∈ mid ∨ l ∈ mid' ∨ l ∈ post → PlainLine l := by
    intro l hl
    refine hp l ?_
    simp only [List.mem_append]
    tauto
  obtain ⟨t1, t2, t3⟩ := titles_eq
  obtain ⟨fc, fes, rfl, hfc, hfe, hfp⟩ := h2
  obtain ⟨cc, ces, rfl, hcc, hce, hcp⟩ := h3
  obtain ⟨o₁, n2, u2, e2, hn2, hI1, hpt', he, hp1, hs1⟩ := nodes_read (lex := lex) (ofInt := ofInt) (pre := pre) hF.ids
    hF.points (fun l hl => hpl l (by simp [hl])) hv h1
    (mid ++ f :: ((fc :: fes.flatten) ++ (mid' ++ c :: ((cc :: ces.flatten) ++ post)))) trail
  -- faces
  obtain ⟨o₂, plcs, hr2, hI2, hx, hj, hp2, hs2, hfs, honly⟩ := nepFaces_reads (lex := lex) (ofInt := ofInt) F.faces fes o₁
    hI1 hF.faces hfe
  -- polyhedra
  have hr3 := nepSeeds_reads (lex := lex) (ofInt := ofInt) F.cells ces o₂ hF.cells hce
  -- the loop
  have step2 : ∀ rest, ∃ tmp', nepStep lex ofInt dim ⟨(fc :: fes.flatten) ++ rest, trail, f⟩ o₁ =
      .ok (⟨rest, trail, tmp'⟩, o₂) := by
    intro rest
    obtain ⟨tmp', hq, hr⟩ := nepSection_reads (title := faceTitle) (by rw [t2]; exact hf.1) hfc hfp hr2 rest trail
    refine ⟨tmp', ?_⟩
    rw [nepStep, nepSection_other (s := ⟨(fc :: fes.flatten) ++ rest, trail, f⟩) (by rw [t1]; exact hf.2)]
    simp only [hr]
    rw [nepSection_other (s := ⟨rest, trail, tmp'⟩) (by rw [t3]; exact hq.2.2)]
  have step3 : ∀ rest, ∃ tmp', nepStep lex ofInt dim ⟨(cc :: ces.flatten) ++ rest, trail, c⟩ o₂ =
      .ok (⟨rest, trail, tmp'⟩, { o₂ with seeds := o₂.seeds ++ F.cells.map fun x => (x.2.map (coordVal ofInt), x.1) }) := by
    intro rest
    obtain ⟨tmp', -, hr⟩ := nepSection_reads (title := polyhedronTitle) (by rw [t3]; exact hc.1) hcc hcp hr3 rest trail
    refine ⟨tmp', ?_⟩
    rw [nepStep, nepSection_other (s := ⟨(cc :: ces.flatten) ++ rest, trail, c⟩) (by rw [t1]; exact hc.2.1)]
    simp only
    rw [nepSection_other (s := ⟨(cc :: ces.flatten) ++ rest, trail, c⟩) (by rw [t2]; exact hc.2.2)]
    exact hr
  refine ⟨{ o₂ with seeds := o₂.seeds ++ F.cells.map fun x => (x.2.map (coordVal ofInt), x.1) }, ?_, ?_, hI2.pos, ?_, ?_,
    ?_, ?_, ?_⟩
  · rw [e2]
    obtain ⟨n3, u3, hn3, e3⟩ := nepLoop_plain (lex := lex) (ofInt := ofInt) (dim := dim) trail _ o₁
      mid (fun l hl => hpl l (by simp [hl])) n2 u2 hn2
    obtain ⟨n4, u4, hn4, e4⟩ := loop_section (step2 _) n3 u3 hn3
    obtain ⟨n5, u5, hn5, e5⟩ := nepLoop_plain (lex := lex) (ofInt := ofInt) (dim := dim) trail _ o₂
      mid' (fun l hl => hpl l (by simp [hl])) n4 u4 hn4
    obtain ⟨n6, u6, hn6, e6⟩ := loop_section (step3 _) n5 u5 hn5
    obtain ⟨n7, u7, -, e7⟩ := nepLoop_plain (lex := lex) (ofInt := ofInt) (dim := dim) trail [] _
      post (fun l hl => hpl l (by simp [hl])) n6 u6 (by simpa using hn6)
    rw [e3, e4, e5, e6]
    rw [List.append_nil] at e7
    rw [e7]
    cases n7 <;> rfl
  · exact (congrArg (List.map (·.pt)) hx.verts).trans hpt'
  · rw [show o₂.plcs = plcs by rw [hp2, hp1]; rfl]
    exact hfs
  · exact fun s t a b hs ht => lineBetween_unique hI2.inv hI2.pos.unique hs ht
  · intro s hs
    rw [show o₂.plcs = plcs by rw [hp2, hp1]; rfl]
    exact honly s (by simp [he 1]) hs
  · intro j h1
    exact (hj j h1).trans (he j)
  · simp only [hs2, hs1, List.nil_append]

/-! ### Example -/

/-- The words of a line, for digits and blanks. -/
def nepWords : List Char → List Char → List (List Char)
  | w, [] => [w]
  | w, c :: l => if c = ' ' then w :: nepWords [] l else nepWords (w ++ [c]) l

def nepLex (l : List Char) : List (Tok Int) :=
  ((nepWords [] l).filter (· ≠ [])).map fun w =>
    if w.all Char.isDigit then .int (w.foldl (fun n c => 10 * n + ((c.toNat : Int) - 48)) 0) else .word

/-- Two triangles with a common side, with ids that are not in order, and a polyhedron. -/
def nepPair : NepFile Int where
  nodes := [(4, [.inl 0, .inl 0, .inl 0]), (2, [.inl 1, .inl 0, .inl 0]), (7, [.inl 0, .inl 1, .inl 0]),
    (3, [.inl 0, .inl 0, .inl 1])]
  faces := [[4, 2, 7], [7, 2, 3]]
  cells := [(1, [.inl 5, .inl 6, .inl 7])]

def nepNodeLines : List (List Char) := ["4 1 1", "1 1", "0 0 0 0", "2 1 1", "1 1", "1 0 0 0", "7 1 1", "1 1", "0 1 0 0",
  "3 1 1", "1 1", "0 0 1 0"].map String.toList

def nepFaceLines : List (List Char) := ["1 1 1", "", "3 1 2 3", "3 4 2 7", "x", "y", "z",
  "2 1 1", "", "3 1 2 3", "3 7 2 3", "x", "y", "z"].map String.toList

def nepCellLines : List (List Char) := ["1 5 6 7", "x", "y"].map String.toList

def nepPairText : List (List Char) :=
  ["***tess".toList] ++ " **vertex".toList :: (("4".toList :: nepNodeLines) ++ (["**edge".toList, "0".toList] ++
    " **face".toList :: (("2".toList :: nepFaceLines) ++ ([] ++
    " **polyhedron".toList :: (("1".toList :: nepCellLines) ++ ["***end".toList])))))

deriving instance DecidableEq for Tok

instance (l : List Char) : Decidable (PlainLine l) := inferInstanceAs (Decidable (_ ∧ _ ∧ _))
instance (l : List Char) : Decidable (VertexHead l) := inferInstanceAs (Decidable (_ <:+: _))
instance (l : List Char) : Decidable (FaceHead l) := inferInstanceAs (Decidable (_ ∧ _))
instance (l : List Char) : Decidable (CellHead l) := inferInstanceAs (Decidable (_ ∧ _ ∧ _))

theorem nepPair_ok : nepPair.OK 3 where
  ids := by decide
  points := by decide
  faces := by
    intro f hf
    have h : ∀ f ∈ nepPair.faces, 2 ≤ f.length ∧ (∀ i ∈ f, i ∈ nepPair.nodes.map (·.1)) ∧
        ∀ i, i < f.length → f[i]? ≠ f[(i + 1) % f.length]? ∨ f.length < 2 := by decide
    obtain ⟨h1, h2, h3⟩ := h f hf
    exact ⟨h1, h2, fun a b => side_ne h3⟩
  cells := by decide

theorem nepPair_nodes : ShowsPart nepLex (ShowsNode nepLex) nepPair.nodes ("4".toList :: nepNodeLines) := by
  refine ⟨"4".toList, [nepNodeLines.take 3, (nepNodeLines.drop 3).take 3, (nepNodeLines.drop 6).take 3,
    nepNodeLines.drop 9], by decide +kernel, ⟨[], by decide +kernel⟩, ?_, by decide +kernel⟩
  refine .cons ⟨_, _, _, rfl, ⟨[.int 1, .int 1], by decide +kernel⟩, ⟨[.int 0], by decide +kernel⟩⟩ ?_
  refine .cons ⟨_, _, _, rfl, ⟨[.int 1, .int 1], by decide +kernel⟩, ⟨[.int 0], by decide +kernel⟩⟩ ?_
  refine .cons ⟨_, _, _, rfl, ⟨[.int 1, .int 1], by decide +kernel⟩, ⟨[.int 0], by decide +kernel⟩⟩ ?_
  exact .cons ⟨_, _, _, rfl, ⟨[.int 1, .int 1], by decide +kernel⟩, ⟨[.int 0], by decide +kernel⟩⟩ .nil

theorem nepPair_shown : nepPair.ShownBy nepLex nepPairText := by
  refine ⟨["***tess".toList], " **vertex".toList, "4".toList :: nepNodeLines, ["**edge".toList, "0".toList],
    " **face".toList, "2".toList :: nepFaceLines, [], " **polyhedron".toList, "1".toList :: nepCellLines,
    ["***end".toList], rfl, by decide +kernel, by decide +kernel, by decide +kernel, by decide +kernel, ?_, ?_, ?_⟩
  · exact nepPair_nodes
  · refine ⟨"2".toList, [nepFaceLines.take 7, nepFaceLines.drop 7], by decide +kernel, ⟨[], by decide +kernel⟩, ?_, by decide +kernel⟩
    refine .cons ⟨_, _, _, _, _, _, _, rfl, ⟨[], by decide +kernel⟩⟩ ?_
    exact .cons ⟨_, _, _, _, _, _, _, rfl, ⟨[], by decide +kernel⟩⟩ .nil
  · refine ⟨"1".toList, [nepCellLines], by decide +kernel, ⟨[], by decide +kernel⟩, ?_, by decide +kernel⟩
    exact .cons ⟨_, _, _, rfl, ⟨[], by decide +kernel⟩⟩ .nil

example : ∃ o, readNeper nepLex id 3 nepPairText true = .ok o ∧ nepPair.Describes id o.mesh o.plcs o.seeds :=
  C87_read_partial nepPair_ok nepPair_shown true

/-- The points, lines and complexes of a result. -/
def nepShow (r : Except ReadFail (NepOut Int)) : Option (List (List Int) × List (List Nat) × List (List Nat)) :=
  match r with
  | .ok o => some (o.mesh.verts.map (·.pt), (o.mesh.elems 1).map (·.verts), o.plcs.map (·.lines))
  | .error _ => none

/-- Undefined behaviour. -/
def nepUndefined (r : Except ReadFail (NepOut Int)) : Bool :=
  match r with
  | .error .undefined => true
  | _ => false

/-- The result: five lines, one of them in both complexes. -/
example : nepShow (readNeper nepLex id 3 nepPairText true) =
    some ([[0, 0, 0], [1, 0, 0], [0, 1, 0], [0, 0, 1]], [[1, 0], [1, 2], [0, 2], [1, 3], [3, 2]], [[0, 1, 2], [1, 3, 4]]) := by
  decide +kernel

/-! ### Violations -/

/-- C87 violated: a file cut off in the middle of the vertices is read without any error; the last line is taken for the
vertices that are missing.  With a newline at the end an uninitialised variable is used. -/
theorem C87_violated_cut :
    nepShow (readNeper nepLex id 3 (nepPairText.take 6) false) =
      some ([[0, 0, 0], [0, 0, 0], [0, 0, 0], [0, 0, 0]], [], []) ∧
    nepUndefined (readNeper nepLex id 3 (nepPairText.take 6) true) := by
  decide +kernel

/-- A line with an unknown end. -/
theorem nepLine_unknown {ids : List Int} {o : NepOut C} (h : FaceInv ids o) {p : Int × Int}
    (hp : p.1 ∉ ids ∨ p.2 ∉ ids) : nepLine o p = .error .undefined := by
  have hk : min p.1 p.2 ∉ ids ∨ max p.1 p.2 ∉ ids := by
    rcases le_total p.1 p.2 with hle | hle
    · rw [min_eq_left hle, max_eq_right hle]
      exact hp
    · rw [min_eq_right hle, max_eq_left hle]
      exact hp.symm
  simp only [nepLine]
  cases hf : o.lines.find? (fun x => x.1 == (min p.1 p.2, max p.1 p.2)) with
  | some x =>
    have h1 := List.find?_some hf
    obtain ⟨e, h2, h3⟩ := h.lines x (List.mem_of_find?_eq_some hf)
    rw [beq_iff_eq] at h1
    rw [h1] at h3
    have h4 := (h.inv.verts 1 e (List.mem_of_getElem? h2)).2.2
    have h5 : ∀ i, ids.idxOf i ∈ e.verts → i ∈ ids := by
      intro i hi
      have := h4 _ hi
      rw [h.len] at this
      exact List.idxOf_lt_length_iff.1 this
    rcases hk with hk | hk
    · exact absurd (h5 _ (h3.mem_iff.2 (by simp))) hk
    · exact absurd (h5 _ (h3.mem_iff.2 (by simp))) hk
  | none =>
    simp only
    rcases hk with hk | hk
    · rw [h.unknown _ hk]
    · rw [h.unknown _ hk]
      cases o.vertices.find? (fun x => x.1 == min p.1 p.2) <;> rfl

theorem nepLines_unknown {ids : List Int} : ∀ (ps : List (Int × Int)) (o : NepOut C), FaceInv ids o →
    (∀ p ∈ ps, p.1 ≠ p.2) → (∃ p ∈ ps, p.1 ∉ ids ∨ p.2 ∉ ids) → nepLines ps o = .error .undefined
  | [], _, _, _, h => by simp at h
  | p :: ps, o, hI, hne, h => by
    rw [nepLines]
    by_cases hp : p.1 ∉ ids ∨ p.2 ∉ ids
    · rw [nepLine_unknown hI hp]
    · rw [not_or, not_not, not_not] at hp
      obtain ⟨o₁, s, h4, h5, _⟩ := nepLine_spec hI hp.1 hp.2 (hne p (by simp))
      have h6 : ∃ p ∈ ps, p.1 ∉ ids ∨ p.2 ∉ ids := by
        obtain ⟨q, hq, h7⟩ := h
        rcases List.mem_cons.1 hq with rfl | hq
        · rcases h7 with h7 | h7
          · exact absurd hp.1 h7
          · exact absurd hp.2 h7
        · exact ⟨q, hq, h7⟩
      simp only [h4, nepLines_unknown ps o₁ h5 (fun q hq => hne q (by simp [hq])) h6]

/-- C87 violated: a file in which a face has a corner that is not a vertex is not rejected: for every such file a null
pointer is used. -/
theorem C87_violated_unknown {lex : List Char → List (Tok C)} {ofInt : Int → C} {dim : Nat}
    {nodes : List (Int × List (Coord C))} (hids : (nodes.map (·.1)).Nodup) (hd : ∀ x ∈ nodes, x.2.length = dim)
    {pre mid : List (List Char)} (hpre : ∀ l ∈ pre ++ mid, PlainLine l) {v : List Char} (hv : VertexHead v)
    {vs : List (List Char)} (hvs : ShowsPart lex (ShowsNode lex) nodes vs) {h c : List Char} (hh : FaceHead h) {n : Nat}
    (hn : 0 < n) (hc : [.int n] <+: lex c) {f : List Int} {fs : List (List Char)} (hf : ShowsFace lex f fs)
    (h2 : 2 ≤ f.length) (hs : ∀ a b, Side f a b → a ≠ b) {i : Int} (hi : i ∈ f) (hu : i ∉ nodes.map (·.1))
    (rest : List (List Char)) (trail : Bool) :
    readNeper lex ofInt dim (pre ++ v :: (vs ++ (mid ++ h :: c :: (fs ++ rest)))) trail = .error .undefined := by
  obtain ⟨t1, t2, -⟩ := titles_eq
  obtain ⟨o, k, tmp, e1, hk, hI, -⟩ := nodes_read (lex := lex) (ofInt := ofInt) (pre := pre) hids hd
    (fun l hl => hpre l (by simp [hl])) hv hvs (mid ++ h :: c :: (fs ++ rest)) trail
  obtain ⟨k, tmp', hk, e2⟩ := nepLoop_plain (lex := lex) (ofInt := ofInt) (dim := dim) trail _ o mid
    (fun l hl => hpre l (by simp [hl])) k tmp hk
  obtain ⟨k, rfl⟩ : ∃ j, k = j + 1 := ⟨k - 1, by simp at hk; omega⟩
  obtain ⟨n, rfl⟩ : ∃ j, n = j + 1 := ⟨n - 1, by omega⟩
  obtain ⟨x1, x2, x3, l, x4, x5, x6, rfl, hl⟩ := hf
  obtain ⟨ps, h3, h4, h5⟩ := nepSides_spec h2
  have hside : ∃ b, Side f i b := by
    obtain ⟨j, hj, rfl⟩ := List.mem_iff_getElem.1 hi
    refine ⟨f[(j + 1) % f.length]'(Nat.mod_lt _ (by omega)), h2, j, hj, List.getElem?_eq_getElem hj, ?_⟩
    exact List.getElem?_eq_getElem _
  have h6 := nepLines_unknown ps o hI (fun p hp => by
      rcases h4 p hp with h | h
      · exact hs _ _ h
      · exact (hs _ _ h).symm) (by
      obtain ⟨b, hb⟩ := hside
      rcases h5 i b hb with h | h
      · exact ⟨_, h, Or.inl hu⟩
      · exact ⟨_, h, Or.inr hu⟩)
  rw [e1, e2]
  simp only [nepLoop, NepIn.getline, nepStep]
  rw [nepSection_other (s := ⟨c :: ([x1, x2, x3, l, x4, x5, x6] ++ rest), trail, h⟩) (by rw [t1]; exact hh.2)]
  simp only [nepSection, hasTitle, t2, hh.1, decide_true, if_true, NepIn.getline, nepCount_ok hc, nepFaces,
    List.cons_append, nepFaceLine_ok hl, h3, h6]

/-- A triangle with the ids 4, 2 and 9. -/
example : readNeper nepLex id 3 ([] ++ " **vertex".toList :: (("4".toList :: nepNodeLines) ++ ([] ++ " **face".toList ::
    "1".toList :: ((["1 1 1", "", "3 1 2 3", "3 4 2 9", "x", "y", "z"].map String.toList) ++ [])))) true =
    .error .undefined :=
  C87_violated_unknown nepPair_ok.ids nepPair_ok.points (by simp) (by decide +kernel) nepPair_nodes (by decide +kernel)
    Nat.one_pos ⟨[], by decide +kernel⟩ (f := [4, 2, 9])
    ⟨_, _, _, _, _, _, _, rfl, ⟨[], by decide +kernel⟩⟩ (by decide) (fun a b => side_ne (by decide)) (i := 9) (by decide)
    (by decide) _ _

/-- C87 violated: ids that are missing in the line of a face are taken to be zero, and the face is made with the vertex
with this id. -/
theorem C87_violated_short :
    nepShow (readNeper nepLex id 3 (["**vertex", "3", "0 1", "1", "0 0 0", "1 1", "1", "1 0 0", "2 1", "1", "0 1 0",
      "**face", "1", "1", "", "", "3 1 2", "", "", ""].map String.toList) true) =
      some ([[0, 0, 0], [1, 0, 0], [0, 1, 0]], [[1, 2], [0, 2], [0, 1]], [[0, 1, 2]]) := by
  decide +kernel

end VG
