import Verif.Lemmas.Serialization
import Verif.Props.Iterators
import Verif.Props.OpenDx
import Verif.Props.Incidence
import Mathlib.Data.Fin.VecNotation

/-! C86: saving a mesh with the serializer and loading it again. -/

namespace VG

variable {C : Type} {g : Nat}

theorem vertices_eq {P : Type} {m m' : Mesh P} (h : IdsArePositions m) (h' : IdsArePositions m')
    (hp : m'.verts.map (·.pt) = m.verts.map (·.pt)) : m'.verts = m.verts := by
  have hl : m'.verts.length = m.verts.length := by simpa using congrArg List.length hp
  refine List.ext_getElem hl fun i h1 h2 => ?_
  have e1 := h i h2
  have e2 := h' i h1
  simp only [Mesh.vid] at e1 e2
  rw [List.getD_eq_getElem _ _ (by simpa using h2), List.getElem_map] at e1
  rw [List.getD_eq_getElem _ _ (by simpa using h1), List.getElem_map] at e2
  have e3 : (m'.verts.map (·.pt))[i]'(by simpa using h1) = (m.verts.map (·.pt))[i]'(by simpa using h2) := by simp only [hp]
  simp only [List.getElem_map] at e3
  cases hv : m'.verts[i]
  cases hw : m.verts[i]
  simp_all

theorem VidsCont.positions {P : Type} {m : Mesh P} (h : VidsCont m) : IdsArePositions m := by
  intro v hv
  simp only [Mesh.vid, h.1]
  rw [List.getD_eq_getElem _ _ (by simpa using hv)]
  simp

theorem LibTopo.nv_pos {T : Topo} (h : LibTopo T) : 0 < T.nv T.cellDim := by
  rcases h with ⟨n, rfl⟩ | ⟨n, rfl⟩ | ⟨n, rfl⟩ | ⟨n, rfl⟩ | rfl | rfl
  · exact Nat.succ_pos n
  · exact Nat.two_pow_pos n
  · exact Nat.succ_pos n
  · exact Nat.two_pow_pos n
  · exact Nat.succ_pos 2
  · exact Nat.succ_pos 2

theorem find_position {P : Type} {m : Mesh P} (h : IdsArePositions m) {v : Nat} (hv : v < m.verts.length) :
    m.findById 0 v = some v := by
  have hid : ∀ k < m.verts.length, m.eid 0 k = k := fun k hk => by simpa [Mesh.eid] using h k hk
  unfold Mesh.findById
  rw [List.findIdx?_eq_some_iff_getElem]
  refine ⟨by simpa [Mesh.idsOf, Mesh.count] using hv, ?_, ?_⟩
  · simp [Mesh.idsOf, hid v hv]
  · intro j hj
    simp only [Mesh.idsOf, List.getElem_map, List.getElem_range, beq_iff_eq]
    rw [hid j (by omega)]
    omega

/-- The archive, with the parts that the loops read. -/
theorem archive_eq {T : Topo} {m : Mesh (Fin g → C)} (hid : IdsArePositions m)
    (hc : ∀ e ∈ m.elems T.cellDim, ∀ v ∈ e.verts, v < m.verts.length) :
    archiveOf T m = .size (m.verts.map (·.pt)).length ::
      ((m.verts.map (·.pt)).flatMap (fun p => (List.ofFn p).map .coord) ++
      .size ((m.elems T.cellDim).map (·.verts)).length ::
      ((m.elems T.cellDim).map (·.verts)).flatMap (fun vs => vs.map fun (v : Nat) => .id (v : Int))) := by
  unfold archiveOf
  simp only [List.length_map, List.flatMap_map, List.cons_append]
  congr 3
  refine List.flatMap_congr fun e he => List.map_congr_left fun v hv => ?_
  rw [hid v (hc e he v hv)]

theorem load_archive {T : Topo} {m : Mesh (Fin g → C)} (hid : IdsArePositions m)
    (hc : ∀ e ∈ m.elems T.cellDim, e.verts.length = T.nv T.cellDim ∧ ∀ v ∈ e.verts, v < m.verts.length) :
    serLoad T (archiveOf T m) (some Mesh.empty) =
      .ok (cellsMesh T (vertsMesh Mesh.empty (m.verts.map (·.pt))) ((m.elems T.cellDim).map (·.verts))) := by
  obtain ⟨_, _, h3, h4, _⟩ := vertsMesh_spec (m.verts.map (·.pt)) (Mesh.empty : Mesh (Fin g → C)) empty_positions rfl
  have hl : (vertsMesh Mesh.empty (m.verts.map (·.pt))).verts.length = m.verts.length := by
    simpa [Mesh.empty] using congrArg List.length h4
  rw [archive_eq hid fun e he => (hc e he).2]
  simp only [serLoad, arSize, arVertices_reads]
  refine arCells_reads _ _ fun vs hvs => ?_
  obtain ⟨e, he, rfl⟩ := List.mem_map.1 hvs
  exact ⟨(hc e he).1, fun v hv => find_position h3 (by rw [hl]; exact (hc e he).2 v hv)⟩

/-- C86: a mesh made of vertices and cells, none of the vertices with an id given by the user, is saved and loaded
into an empty mesh.  The loaded mesh has the same vertices with the same ids and points, and in each dimension the same
elements with the same ids, vertices, boundary elements and orientations; the next element made in both gets the same
id.  Full statement: for every mesh. -/
theorem C86_same_mesh_partial {T : Topo} (hT : LibTopo T) (hp : T.poly = false) (hn : 1 ≤ T.cellDim) {m : Mesh (Fin g → C)}
    (hb : BuiltCells T m) :
    ∃ a m', serSave T (some m) = .ok a ∧ serLoad T a (some Mesh.empty) = .ok m' ∧
      m'.verts = m.verts ∧ (∀ d, m'.elems d = m.elems d) ∧ (∀ d, m'.nextId d = m.nextId d) ∧ m'.vgen = m.vgen := by
  have hI := hb.built.inv hT.wf
  obtain ⟨ops, hops, hrun⟩ := hb
  have hgen := run_vidsCont VidsCont.empty (fun o ho => (hops o ho).2.1) hrun
  have hid : IdsArePositions m := hgen.positions
  refine ⟨_, _, rfl, load_archive hid fun e he => ⟨(hI.verts _ e he).2.1.fixed hp, (hI.verts _ e he).2.2⟩, ?_⟩
  obtain ⟨h1, h2, h3, h4, h5⟩ := vertsMesh_spec (m.verts.map (·.pt)) (Mesh.empty : Mesh (Fin g → C)) empty_positions rfl
  have hv := vertices_eq hid h3 (by simpa [Mesh.empty] using h4)
  have hs := cells_last hT.wf hn hT.nv_pos (base := vertsMesh Mesh.empty (m.verts.map (·.pt)))
    (fun d => by rw [h1]; rfl) (fun d => by rw [h2]; rfl) ops hops hrun
    (fun v _ => by simp only [Mesh.vid, hv])
  obtain ⟨h6, h7⟩ := cellsMesh_verts T ((m.elems T.cellDim).map (·.verts)) (vertsMesh Mesh.empty (m.verts.map (·.pt)))
  refine ⟨h6.trans hv, fun d => by rw [hs.elems], fun d => by rw [hs.next], ?_⟩
  rw [h7, h5, hv, hgen.2]

/-- C86: a mesh whose vertices have the ids 0, 1, ... in order, with elements of any dimension.  The loaded mesh has the
same vertices with the same ids and points, and the same cells, and nothing else was made in it.  Elements of the saved
mesh that belong to no cell are lost (`C86_violated_lower`).  Full statement: for every mesh, and all elements. -/
theorem C86_cells_partial {T : Topo} (hT : LibTopo T) (hp : T.poly = false) (hn : 1 ≤ T.cellDim) {m : Mesh (Fin g → C)} (hb : Built T m)
    (hid : ∀ v < m.verts.length, m.vid v = v) :
    ∃ a m', serSave T (some m) = .ok a ∧ serLoad T a (some Mesh.empty) = .ok m' ∧ BuiltCells T m' ∧
      m'.verts = m.verts ∧ (m'.elems T.cellDim).map (·.verts) = (m.elems T.cellDim).map (·.verts) := by
  have hI := hb.inv hT.wf
  refine ⟨_, _, rfl, load_archive hid fun e he => ⟨(hI.verts _ e he).2.1.fixed hp, (hI.verts _ e he).2.2⟩, ?_⟩
  obtain ⟨h1, _, h3, h4, _⟩ := vertsMesh_spec (m.verts.map (·.pt)) (Mesh.empty : Mesh (Fin g → C)) empty_positions rfl
  have hv := vertices_eq hid h3 (by simpa [Mesh.empty] using h4)
  have hb0 := vertsMesh_built (T := T) (m.verts.map (·.pt)) (BuiltCells.empty T)
  obtain ⟨h5, h6⟩ := cellsMesh_built hT.wf hn ((m.elems T.cellDim).map (·.verts)) hb0 fun vs hvs => by
    obtain ⟨e, he, rfl⟩ := List.mem_map.1 hvs
    have := hI.verts _ e he
    exact ⟨this.1, this.2.1, by rw [hv]; exact this.2.2⟩
  refine ⟨h5, (cellsMesh_verts T _ _).1.trans hv, ?_⟩
  rw [h6, h1]
  simp [Mesh.empty]

/-- C86: an archive that ends before all was read is rejected by an exception. -/
theorem C86_truncated {T : Topo} (hT : LibTopo T) (hfix : T.poly = false) {m : Mesh (Fin g → C)} (hb : Built T m)
    (hid : ∀ v < m.verts.length, m.vid v = v) {a b : List (ArItem C)} (ha : serSave T (some m) = .ok (a ++ b)) (hne : b ≠ []) :
    serLoad T a (some (Mesh.empty : Mesh (Fin g → C))) = .error .throws := by
  have hI := hb.inv hT.wf
  simp only [serSave, Except.ok.injEq] at ha
  rw [archive_eq hid fun e he => (hI.verts _ e he).2.2] at ha
  cases a with
  | nil => rfl
  | cons x a =>
    simp only [List.cons_append, List.cons.injEq] at ha
    obtain ⟨rfl, ha⟩ := ha
    simp only [serLoad, arSize]
    have hp : a <+: _ := ⟨b, ha.symm⟩
    rcases prefix_split hp with ⟨h1, h2⟩ | ⟨r, h1, rfl⟩
    · rw [arVertices_cut _ _ _ h1 h2]
    · rw [arVertices_reads]
      simp only [List.append_assoc, List.append_cancel_left_eq] at ha
      cases r with
      | nil => rfl
      | cons x r =>
        simp only [List.cons_append, List.cons.injEq] at ha
        obtain ⟨rfl, ha⟩ := ha
        obtain ⟨_, _, h3, h4, _⟩ := vertsMesh_spec (m.verts.map (·.pt)) (Mesh.empty : Mesh (Fin g → C)) empty_positions rfl
        have hl : (vertsMesh Mesh.empty (m.verts.map (·.pt))).verts.length = m.verts.length := by
          simpa [Mesh.empty] using congrArg List.length h4
        simp only
        refine arCells_cut (f := fun v => (v : Int)) _ _ r (fun vs hvs => ?_) ⟨b, ha.symm⟩ ?_
        · obtain ⟨e, he, rfl⟩ := List.mem_map.1 hvs
          have := hI.verts _ e he
          exact ⟨this.2.1.fixed hfix, fun v hv => find_position h3 (by rw [hl]; exact this.2.2 v hv)⟩
        · rw [ha, List.length_append]
          have : 0 < b.length := List.length_pos_iff.2 hne
          omega

/-- C86: a serializer without a mesh throws. -/
theorem C86_no_mesh (T : Topo) (a : List (ArItem C)) :
    serSave T (none : Option (Mesh (Fin g → C))) = .error .throws ∧
    serLoad T a (none : Option (Mesh (Fin g → C))) = .error .throws := ⟨rfl, rfl⟩

/-! ### Examples and counterexamples -/

/-- Two triangles; the second one is made before the last vertex. -/
def serOps : List (MOp (Fin 2 → Int)) :=
  [.vertex none ![0, 0], .vertex none ![1, 0], .vertex none ![0, 1], .elem 2 [0, 1, 2], .vertex none ![1, 1],
    .elem 2 [3, 2, 1], .vertex none ![7, 7]]

def serMesh : Mesh (Fin 2 → Int) := (Mesh.empty.run (simplexTopo 2) serOps).getD Mesh.empty

theorem serMesh_built : BuiltCells (simplexTopo 2) serMesh :=
  ⟨serOps, by simp [serOps, MOp.Distinct, MOp.Generated, MOp.CellsOnly, simplexTopo], rfl⟩

example : (serMesh.elems 1).length = 5 ∧ (serMesh.elems 2).length = 2 ∧
    (archiveOf (simplexTopo 2) serMesh).length = 18 := by decide

example : ∃ a m', serSave (simplexTopo 2) (some serMesh) = .ok a ∧
    serLoad (simplexTopo 2) a (some Mesh.empty) = .ok m' ∧ m'.verts = serMesh.verts ∧
    (∀ d, m'.elems d = serMesh.elems d) := by
  obtain ⟨a, m', h1, h2, h3, h4, _⟩ := C86_same_mesh_partial (Or.inl ⟨2, rfl⟩) rfl (by decide) serMesh_built
  exact ⟨a, m', h1, h2, h3, h4⟩

example : serLoad (simplexTopo 2) ((archiveOf (simplexTopo 2) serMesh).take 15) (some (Mesh.empty : Mesh (Fin 2 → Int))) =
    .error .throws :=
  C86_truncated (Or.inl ⟨2, rfl⟩) rfl serMesh_built.built
    (VidsCont.positions (run_vidsCont (T := simplexTopo 2) VidsCont.empty (ops := serOps) (by simp [serOps, MOp.Generated]) rfl))
    (b := (archiveOf (simplexTopo 2) serMesh).drop 15) (by rw [List.take_append_drop]; rfl) (by decide)

/-- What a mesh looks like: the points of the vertices and the vertices of the lines and triangles. -/
def serLook (r : Except ReadFail (Mesh (Fin 2 → Int))) :
    Option (List (List Int) × List (List Nat) × List (List Nat)) :=
  match r with
  | .error _ => none
  | .ok m => some (m.verts.map (fun v => List.ofFn v.pt), (m.elems 1).map (·.verts), (m.elems 2).map (·.verts))

/-- One triangle whose vertices have the given ids. -/
def serIdsOps (i j k : Int) : List (MOp (Fin 2 → Int)) :=
  [.vertex (some i) ![0, 0], .vertex (some j) ![1, 0], .vertex (some k) ![0, 1], .elem 2 [0, 1, 2]]

def serIds (i j k : Int) : Mesh (Fin 2 → Int) := (Mesh.empty.run (simplexTopo 2) (serIdsOps i j k)).getD Mesh.empty

/-- C86: the ids written for the corners are looked up in a mesh whose vertices have other ids.  If the ids are not
those of the order of the vertices, the triangle with corners (0,0), (1,0), (0,1) comes back with other corners; if an
id does not occur in the new mesh, the behaviour is undefined. -/
theorem C86_violated_ids :
    Built (simplexTopo 2) (serIds 1 2 0) ∧
    serLook (.ok (serIds 1 2 0)) = some ([[0, 0], [1, 0], [0, 1]], [[0, 1], [0, 2], [1, 2]], [[0, 1, 2]]) ∧
    serLook (serLoad (simplexTopo 2) (archiveOf (simplexTopo 2) (serIds 1 2 0)) (some Mesh.empty)) =
      some ([[0, 0], [1, 0], [0, 1]], [[1, 2], [1, 0], [2, 0]], [[1, 2, 0]]) ∧
    Built (simplexTopo 2) (serIds 10 11 12) ∧
    serLoad (simplexTopo 2) (archiveOf (simplexTopo 2) (serIds 10 11 12)) (some (Mesh.empty : Mesh (Fin 2 → Int))) =
      .error .undefined := by
  refine ⟨⟨serIdsOps 1 2 0, ?_, rfl, ?_⟩, by decide, by decide, ⟨serIdsOps 10 11 12, ?_, rfl, ?_⟩, rfl⟩
  · simp [serIdsOps, MOp.Distinct]
  · unfold UniqueVids; decide
  · simp [serIdsOps, MOp.Distinct]
  · unfold UniqueVids; decide

/-- A triangle, and a line from it to a further vertex. -/
def serLineOps : List (MOp (Fin 2 → Int)) :=
  [.vertex none ![0, 0], .vertex none ![1, 0], .vertex none ![0, 1], .vertex none ![5, 5], .elem 2 [0, 1, 2], .elem 1 [0, 3]]

def serLine : Mesh (Fin 2 → Int) := (Mesh.empty.run (simplexTopo 2) serLineOps).getD Mesh.empty

/-- C86: an element that belongs to no cell is not saved. -/
theorem C86_violated_lower :
    Built (simplexTopo 2) serLine ∧ (serLine.elems 1).map (·.verts) = [[0, 1], [0, 2], [1, 2], [0, 3]] ∧
    serLook (serLoad (simplexTopo 2) (archiveOf (simplexTopo 2) serLine) (some Mesh.empty)) =
      some ([[0, 0], [1, 0], [0, 1], [5, 5]], [[0, 1], [0, 2], [1, 2]], [[0, 1, 2]]) := by
  refine ⟨⟨serLineOps, ?_, rfl, ?_⟩, by decide, by decide⟩
  · simp [serLineOps, MOp.Distinct]
  · unfold UniqueVids; decide

/-- C86: a mesh loaded into a mesh that already has vertices: the new triangle is made of the old vertices. -/
theorem C86_violated_not_empty :
    serLook (serLoad (simplexTopo 2) (archiveOf (simplexTopo 2)
        (((Mesh.empty : Mesh (Fin 2 → Int)).run (simplexTopo 2) [.vertex none ![8, 8], .vertex none ![9, 8],
          .vertex none ![8, 9], .elem 2 [0, 1, 2]]).getD Mesh.empty)) (some (serIds 0 1 2))) =
      some ([[0, 0], [1, 0], [0, 1], [8, 8], [9, 8], [8, 9]], [[0, 1], [0, 2], [1, 2]], [[0, 1, 2], [0, 1, 2]]) := by
  decide

end VG
