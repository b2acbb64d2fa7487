import Verif.Lemmas.Vtk
import Verif.Props.Segments

/-! Properties C49, C50: writing a mesh with `vtk_writer` and reading it with `vtk_reader`. -/

namespace VG

variable {C : Type}

/-! ### C49 -/

/-- The mesh `r` with its segmentation is the mesh that was written: `P g c` says that the cell `c` of `m` was written
for segment `g`, `V` and `Cc` list which vertices and cells of `m` became the vertices and cells 0, 1, 2, ... of `r`,
`txt x` is the number which is read after `x` was written. -/
structure VtkSame (n : Nat) (txt : C → C) (m : Mesh (List C)) (P : Nat → Nat → Prop) (V Cc : List Nat)
    (r : SegState (List C)) : Prop where
  /-- exactly the vertices of written cells, each once -/
  vertsOnce : V.Nodup ∧ ∀ v, v ∈ V ↔ ∃ g c e, P g c ∧ (m.elems n)[c]? = some e ∧ v ∈ e.verts
  /-- exactly the written cells, each once -/
  cellsOnce : Cc.Nodup ∧ ∀ c, c ∈ Cc ↔ ∃ g, P g c
  /-- the points -/
  points : r.mesh.verts.length = V.length ∧ ∀ (i : Nat) v, V[i]? = some v →
    ∃ x : Vtx (List C), m.verts[v]? = some x ∧ r.mesh.verts[i]? = some ⟨(i : Int), x.pt.map txt⟩
  /-- the vertices of the cells, in the same order -/
  cells : (r.mesh.elems n).length = Cc.length ∧ ∀ (i : Nat) c, Cc[i]? = some c →
    ∃ e e', (m.elems n)[c]? = some e ∧ (r.mesh.elems n)[i]? = some e' ∧ e'.id = i ∧
      e'.verts.map (fun j => V[j]?) = e.verts.map some
  /-- the cells of the segments -/
  segCells : ∀ g (i : Nat) c, Cc[i]? = some c → (i ∈ r.view g n ↔ P g c) ∧ (r.isIn g n i = true ↔ P g c)
  /-- the vertices of the segments -/
  segVerts : ∀ g (i : Nat) v, V[i]? = some v →
    ((i ∈ r.view g 0 ↔ ∃ c e, P g c ∧ (m.elems n)[c]? = some e ∧ v ∈ e.verts) ∧
     (r.isIn g 0 i = true ↔ ∃ c e, P g c ∧ (m.elems n)[c]? = some e ∧ v ∈ e.verts))

/-- From the state of the reader. -/
theorem VtkSame.of_inv {tag : VtkTag} {txt : C → C} {dim : Nat} {m : Mesh (List C)} {P : Nat → Nat → Prop}
    {V Cc : List Nat} {done : List (Nat × Nat)} {s : VtkState C} (hw : Writable tag txt dim m (fun c => ∃ g, P g c))
    (hV : V.Nodup ∧ ∀ v, v ∈ V ↔ ∃ g c, P g c ∧ v ∈ m.vertsOf tag.topo.cellDim c)
    (hdone : ∀ g c, (g, c) ∈ done ↔ P g c)
    (h : VtkInv tag.topo (V.map (readPt txt m)) (fun c => (m.vertsOf tag.topo.cellDim c).map fun v => V.idxOf v) done Cc s) :
    VtkSame tag.topo.cellDim txt m P V Cc s.st := by
  have hcell : ∀ {g c}, P g c → ∃ e, (m.elems tag.topo.cellDim)[c]? = some e ∧
      m.vertsOf tag.topo.cellDim c = e.verts ∧ VertsOK tag.topo m tag.topo.cellDim e.verts :=
    fun hc => hw.elem ⟨_, hc⟩
  have hCmem : ∀ c, c ∈ Cc ↔ ∃ g, P g c := by
    intro c
    rw [h.mem]
    exact exists_congr fun g => hdone g c
  have hvof : ∀ {v}, (∃ g c, P g c ∧ v ∈ m.vertsOf tag.topo.cellDim c) ↔
      ∃ g c e, P g c ∧ (m.elems tag.topo.cellDim)[c]? = some e ∧ v ∈ e.verts := by
    intro v
    refine exists_congr fun g => exists_congr fun c => ⟨fun ⟨h1, h2⟩ => ?_, fun ⟨e, h1, h2, h3⟩ => ?_⟩
    · obtain ⟨e, h3, h4, -⟩ := hcell h1
      exact ⟨e, h1, h3, by rw [← h4]; exact h2⟩
    · exact ⟨h1, by rw [vertsOf_of h2]; exact h3⟩
  have hn : 1 ≤ tag.topo.cellDim := tag.cellDim_pos
  have hInv := h.reached.invOn tag.wf tag.wf.closedOn
  have hu : UniqueVids s.st.mesh := by obtain ⟨_, _, _, hu⟩ := h.reached; exact hu
  have hlen : (s.st.mesh.elems tag.topo.cellDim).length = Cc.length := by
    have := congrArg List.length h.cells
    simpa using this
  have hvl : s.st.mesh.verts.length = V.length := by rw [h.verts]; simp
  have hel : ∀ {i : Nat} {c : Nat}, Cc[i]? = some c → ∃ e', (s.st.mesh.elems tag.topo.cellDim)[i]? = some e' ∧
      e'.verts = (m.vertsOf tag.topo.cellDim c).map fun v => V.idxOf v := by
    intro i c hi
    have hi' : i < (s.st.mesh.elems tag.topo.cellDim).length := by
      rw [hlen]; exact (List.getElem?_eq_some_iff.1 hi).1
    refine ⟨_, List.getElem?_eq_getElem hi', ?_⟩
    have h1 : ((s.st.mesh.elems tag.topo.cellDim).map (·.verts))[i]? = (Cc.map
        (fun c => (m.vertsOf tag.topo.cellDim c).map fun v => V.idxOf v))[i]? := by rw [h.cells]
    rw [List.getElem?_map, List.getElem?_map, hi, List.getElem?_eq_getElem hi'] at h1
    simpa using h1
  have hVin : ∀ {g c}, P g c → ∀ v ∈ m.vertsOf tag.topo.cellDim c, v ∈ V :=
    fun hc v hv => (hV.2 v).2 ⟨_, _, hc, hv⟩
  have hpos : ∀ {i : Nat} {c : Nat}, Cc[i]? = some c → Cc.idxOf c = i := by
    intro i c hi
    obtain ⟨h1, h2⟩ := List.getElem?_eq_some_iff.1 hi
    subst h2
    exact h.nodup.idxOf_getElem i h1
  have hposV : ∀ {i : Nat} {v : Nat}, V[i]? = some v → V.idxOf v = i := by
    intro i v hi
    obtain ⟨h1, h2⟩ := List.getElem?_eq_some_iff.1 hi
    subst h2
    exact hV.1.idxOf_getElem i h1
  have hview : ∀ g (i : Nat) c, Cc[i]? = some c → (i ∈ s.st.view g tag.topo.cellDim ↔ P g c) := by
    intro g i c hi
    rw [hInv.view g _ i (Or.inr rfl)]
    constructor
    · rintro ⟨x, hx, hcl⟩
      obtain ⟨c', hc', hx' | ⟨v, -, hx'⟩⟩ := (h.added g x).1 hx
      · rw [hx'] at hcl
        rcases hcl with ⟨-, hcl⟩ | hcl
        · simp only at hcl
          have hc'C : c' ∈ Cc := (h.mem c').2 ⟨g, hc'⟩
          have := getElem?_idxOf hc'C
          rw [← hcl, hi] at this
          simp only [Option.some.injEq] at this
          rw [this]
          exact (hdone g c').1 hc'
        · simp only at hcl
          rw [mem_bndOf_iff tag.wf hInv.mesh (Nat.le_refl _)] at hcl
          unfold OnBoundary at hcl
          rw [if_neg (by omega)] at hcl
          obtain ⟨e, f, idxs, ix, -, -, hl, -⟩ := hcl
          have := (tag.wf.dim _ _ _ _ hl).2
          omega
      · rw [hx'] at hcl
        rcases hcl with ⟨hcl, -⟩ | hcl
        · simp only at hcl; omega
        · simp only [Mesh.bndOf, hInv.noZero] at hcl
          simp at hcl
    · intro hc
      refine ⟨(tag.topo.cellDim, Cc.idxOf c), (h.added g _).2 ⟨c, (hdone g c).2 hc, Or.inl rfl⟩, Or.inl ⟨rfl, ?_⟩⟩
      exact (hpos hi).symm
  have hviewV : ∀ g (i : Nat) v, V[i]? = some v →
      (i ∈ s.st.view g 0 ↔ ∃ c e, P g c ∧ (m.elems tag.topo.cellDim)[c]? = some e ∧ v ∈ e.verts) := by
    intro g i v hi
    rw [hInv.view g _ i (Or.inl rfl)]
    constructor
    · rintro ⟨x, hx, hcl⟩
      obtain ⟨c', hc', hx'⟩ := (h.added g x).1 hx
      obtain ⟨e, h1, h2, -⟩ := hcell ((hdone g c').1 hc')
      have hv : ∀ j ∈ (m.vertsOf tag.topo.cellDim c').map (fun v => V.idxOf v), j = i → v ∈ e.verts := by
        intro j hj hji
        obtain ⟨u, hu', rfl⟩ := List.mem_map.1 hj
        have := getElem?_idxOf (hVin ((hdone g c').1 hc') u hu')
        rw [hji, hi] at this
        simp only [Option.some.injEq] at this
        rw [this, ← h2]; exact hu'
      refine ⟨c', e, (hdone g c').1 hc', h1, ?_⟩
      rcases hx' with hx' | ⟨w, hw', hx'⟩
      · rw [hx'] at hcl
        rcases hcl with ⟨hcl, -⟩ | hcl
        · simp only at hcl; omega
        · simp only at hcl
          rw [mem_bndOf_iff tag.wf hInv.mesh (Nat.le_refl _)] at hcl
          unfold OnBoundary at hcl
          rw [if_pos rfl] at hcl
          obtain ⟨e', h3, h4⟩ := hcl
          obtain ⟨e'', h5, h6⟩ := hel (getElem?_idxOf ((h.mem c').2 ⟨g, hc'⟩))
          rw [h3] at h5
          simp only [Option.some.injEq] at h5
          rw [h5, h6] at h4
          exact hv i h4 rfl
      · rw [hx'] at hcl
        rcases hcl with ⟨-, hcl⟩ | hcl
        · exact hv w hw' hcl.symm
        · simp only [Mesh.bndOf, hInv.noZero] at hcl
          simp at hcl
    · rintro ⟨c, e, hc, h1, h2⟩
      refine ⟨(0, i), (h.added g _).2 ⟨c, (hdone g c).2 hc, Or.inr ⟨i, ?_, rfl⟩⟩, Or.inl ⟨rfl, rfl⟩⟩
      rw [List.mem_map]
      exact ⟨v, by rw [vertsOf_of h1]; exact h2, hposV hi⟩
  refine ⟨⟨hV.1, fun v => by rw [hV.2, hvof]⟩, ⟨h.nodup, hCmem⟩, ⟨hvl, fun i v hi => ?_⟩, ⟨hlen, fun i c hi => ?_⟩,
    fun g i c hi => ⟨hview g i c hi, ?_⟩, fun g i v hi => ⟨hviewV g i v hi, ?_⟩⟩
  · obtain ⟨g, c, hc, hv⟩ := (hV.2 v).1 (List.mem_of_getElem? hi)
    obtain ⟨e, h1, h2, h3⟩ := hcell hc
    have hlt : v < m.verts.length := h3.2.2 v (by rw [← h2]; exact hv)
    refine ⟨_, List.getElem?_eq_getElem hlt, ?_⟩
    rw [h.verts, List.getElem?_mapIdx, List.getElem?_map, hi]
    simp [vtkVertex, readPt, Mesh.ptOf, List.getElem?_eq_getElem hlt]
  · obtain ⟨g, hc⟩ := (hCmem c).1 (List.mem_of_getElem? hi)
    obtain ⟨e, h1, h2, h3⟩ := hcell hc
    obtain ⟨e', h4, h5⟩ := hel hi
    refine ⟨e, e', h1, h4, ?_, ?_⟩
    · have h6 := congrArg (fun l => l[i]?) (h.ids tag.topo.cellDim).1
      simp only [List.getElem?_map, h4, Option.map_some] at h6
      have hi' := (List.getElem?_eq_some_iff.1 h4).1
      rw [List.getElem?_range hi'] at h6
      simpa using h6
    · rw [h5, List.map_map, ← h2]
      refine List.map_congr_left fun v hv => ?_
      exact getElem?_idxOf (hVin hc v hv)
  · rw [hInv.isIn hu (Or.inr rfl) (by
      unfold Mesh.count; rw [if_neg (by omega), hlen]; exact (List.getElem?_eq_some_iff.1 hi).1)]
    exact hview g i c hi
  · rw [hInv.isIn hu (Or.inl rfl) (by
      unfold Mesh.count; rw [if_pos rfl, hvl]; exact (List.getElem?_eq_some_iff.1 hi).1)]
    exact hviewV g i v hi

/-- Points and cells occur only once, points have `dim` coordinates. -/
structure NoDuplicates (n : Nat) (txt : C → C) (dim : Nat) (m : Mesh (List C)) : Prop where
  dim : ∀ x ∈ m.verts, x.pt.length = dim
  points : ∀ (u v : Nat) x y, m.verts[u]? = some x → m.verts[v]? = some y → x.pt.map txt = y.pt.map txt → u = v
  cells : ∀ (c c' : Nat) e e', (m.elems n)[c]? = some e → (m.elems n)[c']? = some e' → e.verts = e'.verts → c = c'

theorem NoDuplicates.writable {tag : VtkTag} {txt : C → C} {dim : Nat} {m : Mesh (List C)}
    (h : NoDuplicates tag.topo.cellDim txt dim m) (hI : Inv tag.topo m) (hu : UniqueVids m) {S : Nat → Prop}
    (hS : ∀ c, S c → c < m.count tag.topo.cellDim) : Writable tag txt dim m S := by
  have hel : ∀ c, S c → ∃ e, (m.elems tag.topo.cellDim)[c]? = some e ∧ m.vertsOf tag.topo.cellDim c = e.verts ∧
      VertsOK tag.topo m tag.topo.cellDim e.verts := by
    intro c hc
    have h1 := hS c hc
    unfold Mesh.count at h1
    rw [if_neg (by have := tag.cellDim_pos; omega)] at h1
    exact ⟨_, List.getElem?_eq_getElem h1, vertsOf_of (List.getElem?_eq_getElem h1), hI.verts _ _ (List.getElem_mem h1)⟩
  have hvx : ∀ c, S c → ∀ v ∈ m.vertsOf tag.topo.cellDim c, ∃ x, m.verts[v]? = some x ∧ (m.ptOf v).getD [] = x.pt := by
    intro c hc v hv
    obtain ⟨e, h1, h2, h3⟩ := hel c hc
    have hlt := h3.2.2 v (by rw [← h2]; exact hv)
    exact ⟨_, List.getElem?_eq_getElem hlt, by simp [Mesh.ptOf, List.getElem?_eq_getElem hlt]⟩
  refine ⟨hI, hu, hS, ?_, ?_, ?_⟩
  · intro c hc v hv
    obtain ⟨x, h1, h2⟩ := hvx c hc v hv
    rw [h2]
    exact h.dim x (List.mem_of_getElem? h1)
  · intro c hc v hv c' hc' v' hv' he
    obtain ⟨x, h1, h2⟩ := hvx c hc v hv
    obtain ⟨x', h1', h2'⟩ := hvx c' hc' v' hv'
    unfold readPt at he
    rw [h2, h2'] at he
    exact h.points v v' x x' h1 h1' he
  · intro c c' hc hc' he
    obtain ⟨e, h1, h2, -⟩ := hel c hc
    obtain ⟨e', h1', h2', -⟩ := hel c' hc'
    exact h.cells c c' e e' h1 h1' (by rw [← h2, ← h2', he])

/-- Reading the files of some parts: the mesh, and for every file which elements its data belongs to. -/
theorem vtk_read [DecidableEq C] {tag : VtkTag} {txt : C → C} (zero : C) {dim : Nat} {m : Mesh (List C)} (parts : List Nat)
    (cellsOf : Nat → List Nat) (pd cd : Nat → List (String × Quantity C))
    (hw : Writable tag txt dim m (fun c => ∃ g ∈ parts, c ∈ cellsOf g)) (hnd : ∀ g ∈ parts, (cellsOf g).Nodup) :
    ∃ (r : VtkResult C) (V Cc parts' : List Nat), parts'.Pairwise (· < ·) ∧ (∀ g, g ∈ parts' ↔ g ∈ parts) ∧
      readVtk tag zero dim (parts.map fun g => (g, writeVtu tag txt zero m (cellsOf g) (pd g) (cd g))) = some r ∧
      VtkSame tag.topo.cellDim txt m (fun g c => g ∈ parts ∧ c ∈ cellsOf g) V Cc r.st ∧
      V = joinAll (parts'.map fun g => fileVerts tag m (cellsOf g)) [] ∧
      Cc = joinAll (parts'.map fun g => fileCells tag m (cellsOf g)) [] ∧
      r.files = parts'.map (fun g : Nat => ((g : Int), writeVtu tag txt zero m (cellsOf g) (pd g) (cd g))) ∧
      r.points = parts'.map (fun g => (fileVerts tag m (cellsOf g)).map fun v => V.idxOf v) ∧
      r.cells = parts'.map (fun g => (fileCells tag m (cellsOf g)).map fun c => Cc.idxOf c) := by
  obtain ⟨parts', h1, h2, h3⟩ := sortFiles_spec parts (fun g => writeVtu tag txt zero m (cellsOf g) (pd g) (cd g))
  have hS : (fun c => ∃ g ∈ parts, c ∈ cellsOf g) = (fun c => ∃ g ∈ parts', c ∈ cellsOf g) := by
    funext c
    simp only [h2]
  rw [hS] at hw
  have hpart : ∀ {g}, g ∈ parts' → ∀ c ∈ cellsOf g, ∃ g ∈ parts', c ∈ cellsOf g := fun hg c hc => ⟨_, hg, hc⟩
  obtain ⟨hp, s, hs1, hs2⟩ := vtk_core tag txt zero dim m parts' cellsOf pd cd hw (fun g hg => hnd g ((h2 g).1 hg))
  refine ⟨⟨s.st, _, _, _⟩, _, _, parts', h1, h2, ?_, ?_, rfl, rfl, rfl, rfl, rfl⟩
  · unfold readVtk
    simp only [h3]
    rw [hs1, hp]
    rfl
  · refine VtkSame.of_inv (tag := tag) (dim := dim) ?_ ⟨?_, ?_⟩ ?_ hs2
    · have : (fun c => ∃ g, g ∈ parts ∧ c ∈ cellsOf g) = (fun c => ∃ g ∈ parts', c ∈ cellsOf g) := by
        funext c; simp only [h2]
      rw [this]; exact hw
    · exact (joinAll_spec _ _).2.2 List.nodup_nil
    · intro v
      rw [(joinAll_spec _ _).2.1]
      simp only [List.not_mem_nil, false_or, List.mem_map, exists_exists_and_eq_and]
      constructor
      · rintro ⟨g, hg, hv⟩
        obtain ⟨c, hc, hvc⟩ := ((fileVerts_spec hw (hpart hg)).2.2 v).1 hv
        exact ⟨g, c, ⟨(h2 g).1 hg, hc⟩, hvc⟩
      · rintro ⟨g, c, ⟨hg, hc⟩, hvc⟩
        have hg' := (h2 g).2 hg
        exact ⟨g, hg', ((fileVerts_spec hw (hpart hg')).2.2 v).2 ⟨c, hc, hvc⟩⟩
    · intro g c
      simp only [List.mem_flatMap, List.mem_map, Prod.mk.injEq]
      constructor
      · rintro ⟨g', hg, c', hc, rfl, rfl⟩
        exact ⟨(h2 _).1 hg, ((fileCells_spec hw (hpart hg)).2.2 _).1 hc⟩
      · rintro ⟨hg, hc⟩
        have hg' := (h2 g).2 hg
        exact ⟨g, hg', c, ((fileCells_spec hw (hpart hg')).2.2 _).2 hc, rfl, rfl⟩

theorem SegReached.writable {tag : VtkTag} {txt : C → C} {dim : Nat} {st : SegState (List C)} (h : SegReached tag.topo st)
    (hd : NoDuplicates tag.topo.cellDim txt dim st.mesh) (gs : List Nat) :
    Writable tag txt dim st.mesh (fun c => ∃ g ∈ gs, c ∈ st.view g tag.topo.cellDim) := by
  have hI := h.invOn tag.wf tag.wf.closedOn
  have hu : UniqueVids st.mesh := by obtain ⟨_, _, _, hu⟩ := h; exact hu
  refine hd.writable hI.mesh hu ?_
  rintro c ⟨g, -, hc⟩
  exact hI.view_lt (Or.inr rfl) hc

theorem SegReached.writableMesh {tag : VtkTag} {txt : C → C} {dim : Nat} {st : SegState (List C)} (h : SegReached tag.topo st)
    (hd : NoDuplicates tag.topo.cellDim txt dim st.mesh) :
    Writable tag txt dim st.mesh (fun c => ∃ g ∈ [0], c ∈ (fun _ => List.range (st.mesh.count tag.topo.cellDim)) g) := by
  have hI := h.invOn tag.wf tag.wf.closedOn
  have hu : UniqueVids st.mesh := by obtain ⟨_, _, _, hu⟩ := h; exact hu
  refine hd.writable hI.mesh hu ?_
  rintro c ⟨g, -, hc⟩
  exact List.mem_range.1 hc

/-- C49: a mesh with at least two segments, written and read into an empty mesh: the same points, the same cells with the
same vertices in the same order, in the same segments.  Missing from the full statement: the numbers must remain
different when they are written with 15 digits, and the ids of vertices must be different. -/
theorem C49_segments_partial [DecidableEq C] {tag : VtkTag} {txt : C → C} (zero : C) {dim : Nat} {st : SegState (List C)}
    (h : SegReached tag.topo st) (hd : NoDuplicates tag.topo.cellDim txt dim st.mesh) (gs : List Nat) (hgs : 2 ≤ gs.length)
    (pd cd : Nat → List (String × Quantity C)) :
    ∃ r V Cc, readVtk tag zero dim (writeVtk tag txt zero st gs pd cd) = some r ∧
      VtkSame tag.topo.cellDim txt st.mesh (fun g c => g ∈ gs ∧ c ∈ st.view g tag.topo.cellDim) V Cc r.st := by
  have hI := h.invOn tag.wf tag.wf.closedOn
  obtain ⟨r, V, Cc, _, _, _, h1, h2, _⟩ := vtk_read zero gs (fun g => st.view g tag.topo.cellDim) pd cd
    (h.writable hd gs) (fun g _ => hI.nodup g _)
  refine ⟨r, V, Cc, ?_, h2⟩
  unfold writeVtk
  rw [if_neg (by omega)]
  exact h1

/-- Cell types of the VTK file format: VTK_LINE, VTK_TRIANGLE, VTK_TETRA, VTK_QUAD, VTK_HEXAHEDRON. -/
def vtkCode : VtkTag → Nat
  | .line => 3
  | .triangle => 5
  | .quadrilateral => 9
  | .tetrahedron => 10
  | .hexahedron => 12

/-- Where the points of a VTK quadrilateral or hexahedron are in the unit square or cube: once around the lower face, then
once around the upper face. -/
def vtkUnit : List (Nat × Nat × Nat) :=
  [(0, 0, 0), (1, 0, 0), (1, 1, 0), (0, 1, 0), (0, 0, 1), (1, 0, 1), (1, 1, 1), (0, 1, 1)]

/-- The corner of the element which is the point `j` of a VTK cell.  Corners of quadrilaterals and hexahedra are numbered
lexicographically: (x, y, z) has the number x + 2 y + 4 z. -/
def vtkCorner : VtkTag → Nat → Nat
  | .quadrilateral, j | .hexahedron, j => (vtkUnit[j]?.map fun u => u.1 + 2 * u.2.1 + 4 * u.2.2).getD 0
  | _, j => j

theorem toVtk_corner (tag : VtkTag) {j : Nat} (h : j < tag.topo.nv tag.topo.cellDim) : tag.toVtk j = vtkCorner tag j := by
  cases tag <;> simp only [VtkTag.topo, simplexTopo, cubeTopo] at h ⊢ <;> interval_cases j <;> rfl

/-- A file is a VTK file with the given cells of the mesh, each once: `K` lists them in the order of the file. -/
structure VtkFileOf (tag : VtkTag) (txt : C → C) (zero : C) (m : Mesh (List C)) (K : List Nat) (f : VtuFile C) : Prop where
  numPoints : f.numPoints = f.points.length
  numCells : f.numCells = K.length
  types : f.types.length = K.length ∧ ∀ x ∈ f.types, x = vtkCode tag
  /-- Offsets are the ends of the cells in the connectivity. -/
  offsets : f.offsets.length = K.length ∧ f.conn.length = K.length * tag.topo.nv tag.topo.cellDim ∧
    ∀ i < K.length, f.offsets[i]? = some ((i + 1) * tag.topo.nv tag.topo.cellDim)
  /-- Every point of every cell, as the standard numbers them. -/
  conn : ∀ (i : Nat) c, K[i]? = some c → ∃ e, (m.elems tag.topo.cellDim)[c]? = some e ∧
    ∀ j < tag.topo.nv tag.topo.cellDim, ∃ (v p : Nat) (x : Vtx (List C)), e.verts[vtkCorner tag j]? = some v ∧
      m.verts[v]? = some x ∧ f.conn[j + i * tag.topo.nv tag.topo.cellDim]? = some (p : Int) ∧
      f.points[p]? = some (x.pt.map txt ++ List.replicate (3 - x.pt.length) zero)

theorem writeVtu_file {tag : VtkTag} (txt : C → C) (zero : C) {m : Mesh (List C)} (hI : Inv tag.topo m) (hu : UniqueVids m)
    (cells : List Nat) (hnd : cells.Nodup) (hlt : ∀ c ∈ cells, c < m.count tag.topo.cellDim)
    (pd cd : List (String × Quantity C)) :
    ∃ K, K.Perm cells ∧ VtkFileOf tag txt zero m K (writeVtu tag txt zero m cells pd cd) := by
  have hpos := tag.cellDim_pos
  have hel : ∀ c ∈ cells, ∃ e, (m.elems tag.topo.cellDim)[c]? = some e ∧ m.vertsOf tag.topo.cellDim c = e.verts ∧
      VertsOK tag.topo m tag.topo.cellDim e.verts := by
    intro c hc
    have h1 := hlt c hc
    unfold Mesh.count at h1
    rw [if_neg (by omega)] at h1
    exact ⟨_, List.getElem?_eq_getElem h1, vertsOf_of (List.getElem?_eq_getElem h1), hI.verts _ _ (List.getElem_mem h1)⟩
  obtain ⟨u1, u2⟩ := usedVertices_spec (T := tag.topo) hu cells fun c hc v hv => by
    obtain ⟨e, -, h2, h3⟩ := hel c hc
    exact h3.2.2 v (h2 ▸ hv)
  obtain ⟨k1, k2⟩ := usedCells_spec hI hu cells hlt
  have kn := k1.nodup_snd (m.eid tag.topo.cellDim) fun x hx => ((k2 x).1 hx).1
  have kmem : ∀ c, c ∈ (usedCells tag.topo m cells).map (·.2) ↔ c ∈ cells := by
    intro c
    rw [List.mem_map]
    exact ⟨fun ⟨x, hx, he⟩ => he ▸ ((k2 x).1 hx).2, fun hc => ⟨(m.eid tag.topo.cellDim c, c), (k2 _).2 ⟨rfl, hc⟩, rfl⟩⟩
  have hperm : ((usedCells tag.topo m cells).map (·.2)).Perm cells := (List.perm_ext_iff_of_nodup kn hnd).2 kmem
  have klen : (usedCells tag.topo m cells).length = cells.length := by simpa using hperm.length_eq
  have hcl : ∀ x ∈ usedCells tag.topo m cells,
      (vtkConn tag (usedVertices tag.topo m cells) (m.vertsOf tag.topo.cellDim x.2)).length = tag.topo.nv tag.topo.cellDim := by
    intro x hx
    obtain ⟨e, -, h2, h3⟩ := hel x.2 ((k2 x).1 hx).2
    simp [vtkConn, h2, h3.2.1.fixed tag.poly]
  refine ⟨_, hperm, ?_, ?_, ?_, ?_, ?_⟩
  · simp [writeVtu]
  · simp [writeVtu, klen]
  · refine ⟨by simp [writeVtu, klen], fun x hx => ?_⟩
    rw [List.eq_of_mem_replicate hx]
    cases tag <;> rfl
  · refine ⟨by simp [writeVtu, klen], ?_, fun i hi => ?_⟩
    · simp only [writeVtu, List.length_flatMap, List.length_map]
      rw [List.map_congr_left (g := fun _ => tag.topo.nv tag.topo.cellDim) hcl]
      simp
    · rw [List.length_map, klen] at hi
      simp [writeVtu, hi]
  · intro i c hi
    have hc := (kmem c).1 (List.mem_of_getElem? hi)
    obtain ⟨e, h1, h2, h3⟩ := hel c hc
    refine ⟨e, h1, fun j hj => ?_⟩
    have hj' : vtkCorner tag j < e.verts.length := by
      rw [h3.2.1.fixed tag.poly, ← toVtk_corner tag hj]
      exact toVienna_lt tag hj
    have hv : e.verts[vtkCorner tag j] ∈ (usedVertices tag.topo m cells).map (·.2) :=
      List.mem_map.2 ⟨(m.vid e.verts[vtkCorner tag j], _), (u2 _).2 ⟨rfl, c, hc, by rw [h2]; exact List.getElem_mem hj'⟩, rfl⟩
    have hvl := h3.2.2 _ (List.getElem_mem hj')
    refine ⟨_, ((usedVertices tag.topo m cells).map (·.2)).idxOf e.verts[vtkCorner tag j], _, List.getElem?_eq_getElem hj',
      List.getElem?_eq_getElem hvl, ?_, ?_⟩
    · rw [List.getElem?_map] at hi
      obtain ⟨x, hx, rfl⟩ := Option.map_eq_some_iff.1 hi
      simp only [writeVtu]
      rw [flatMap_getElem? _ _ _ hcl i j x hx hj]
      unfold vtkConn
      rw [List.getElem?_map, List.getElem?_range (by rw [h2, h3.2.1.fixed tag.poly]; exact hj)]
      simp only [Option.map_some, Option.some.injEq]
      rw [toVtk_corner tag hj, h2, List.getD_eq_getElem _ _ (by simpa using hj'), List.getElem_map, vtkIndex_eq hv]
    · simp only [writeVtu]
      have hp := getElem?_idxOf hv
      rw [List.getElem?_map] at hp ⊢
      obtain ⟨x, hx, he⟩ := Option.map_eq_some_iff.1 hp
      rw [hx]
      simp only [Option.map_some, Option.some.injEq]
      have : (m.ptOf x.2).getD [] = (m.verts[e.verts[vtkCorner tag j]]).pt := by
        rw [he]; simp [Mesh.ptOf, List.getElem?_eq_getElem hvl]
      rw [this]

/-- C49: the written files follow the VTK format, so that other programs see the same cells: one file for each segment, or
one for the mesh, with the right cell types, and with the points of each cell in the order of the VTK standard. -/
theorem C49_standard {tag : VtkTag} (txt : C → C) (zero : C) {st : SegState (List C)} (h : SegReached tag.topo st)
    (gs : List Nat) (pd cd : Nat → List (String × Quantity C)) :
    List.Forall₂ (fun (p : Nat × List Nat) f => f.1 = p.1 ∧ ∃ K, K.Perm p.2 ∧ VtkFileOf tag txt zero st.mesh K f.2)
      (if gs.length ≤ 1 then [(0, List.range (st.mesh.count tag.topo.cellDim))]
        else gs.map fun g => (g, st.view g tag.topo.cellDim))
      (writeVtk tag txt zero st gs pd cd) := by
  have hI := h.invOn tag.wf tag.wf.closedOn
  have hu : UniqueVids st.mesh := by obtain ⟨_, _, _, hu⟩ := h; exact hu
  unfold writeVtk
  split
  · refine .cons ⟨rfl, ?_⟩ .nil
    exact writeVtu_file txt zero hI.mesh hu _ List.nodup_range (fun c hc => List.mem_range.1 hc) _ _
  · rw [List.forall₂_map_left_iff, List.forall₂_map_right_iff]
    refine List.forall₂_same.2 fun g _ => ⟨rfl, ?_⟩
    exact writeVtu_file txt zero hI.mesh hu _ (hI.nodup g _) (fun c hc => hI.view_lt (Or.inr rfl) hc) _ _

theorem joinAll_single {U : List Nat} (hU : U.Nodup) : joinAll [U] [] = U := by
  have : ∀ (U V : List Nat), (V ++ U).Nodup → U.foldl insertUnique V = V ++ U := by
    intro U
    induction U with
    | nil => simp
    | cons u U ih =>
      intro V hV
      have hu : u ∉ V := fun hu => by
        rw [List.nodup_append] at hV
        exact hV.2.2 u hu u (by simp) rfl
      rw [List.foldl_cons, insertUnique, if_neg hu, ih _ (by simpa using hV)]
      simp
  exact this U [] (by simpa using hU)

/-- C49: a mesh without segmentation or with only one segment: all cells are read into segment 0, whatever the segment
was.  Vertices and cells are then numbered in the order of their ids. -/
theorem C49_mesh_partial [DecidableEq C] {tag : VtkTag} {txt : C → C} (zero : C) {dim : Nat} {st : SegState (List C)}
    (h : SegReached tag.topo st) (hd : NoDuplicates tag.topo.cellDim txt dim st.mesh) (gs : List Nat) (hgs : gs.length ≤ 1)
    (pd cd : Nat → List (String × Quantity C)) :
    ∃ r V Cc, readVtk tag zero dim (writeVtk tag txt zero st gs pd cd) = some r ∧
      VtkSame tag.topo.cellDim txt st.mesh (fun g c => g = 0 ∧ c < st.mesh.count tag.topo.cellDim) V Cc r.st ∧
      V.Pairwise (fun u v => st.mesh.vid u < st.mesh.vid v) ∧
      Cc.Pairwise (fun c c' => st.mesh.eid tag.topo.cellDim c < st.mesh.eid tag.topo.cellDim c') := by
  have hw := h.writableMesh hd
  obtain ⟨r, V, Cc, parts', hp1, hp2, h1, h2, hV, hC, _⟩ := vtk_read zero [0]
    (fun _ => List.range (st.mesh.count tag.topo.cellDim)) pd cd hw (fun g _ => List.nodup_range)
  have hparts : parts' = [0] := by
    have hnd : parts'.Nodup := hp1.imp (fun h => Nat.ne_of_lt h)
    have := (List.perm_ext_iff_of_nodup hnd (List.nodup_singleton 0)).2 hp2
    exact List.perm_singleton.1 this
  rw [hparts, List.map_singleton] at hV hC
  have hcl : ∀ c ∈ List.range (st.mesh.count tag.topo.cellDim),
      ∃ g ∈ [0], c ∈ (fun _ => List.range (st.mesh.count tag.topo.cellDim)) g := fun c hc => ⟨0, by simp, hc⟩
  obtain ⟨hv1, hv2, -⟩ := fileVerts_spec hw hcl
  obtain ⟨hc1, hc2, -⟩ := fileCells_spec hw hcl
  rw [joinAll_single hv1] at hV
  rw [joinAll_single hc1] at hC
  refine ⟨r, V, Cc, ?_, ?_, by rw [hV]; exact hv2, by rw [hC]; exact hc2⟩
  · unfold writeVtk
    rw [if_pos hgs]
    exact h1
  · simp only [List.mem_singleton, List.mem_range] at h2
    exact h2

/-- A square of two triangles, in two segments, and a vertex used by no cell; ids not in order. -/
def vtkSquare : List (SOp (List Rat)) :=
  [.mesh (.vertex (some 7) [0, 0]), .mesh (.vertex (some 3) [1, 0]), .mesh (.vertex none [9, 9]), .mesh (.vertex none [0, 1]),
   .mesh (.vertex none [1, 1]), .make 4 (.elem 2 [0, 1, 3]), .make 2 (.elem 2 [1, 4, 3])]

/-- The state after it. -/
def vtkSquareState : SegState (List Rat) := (SegState.empty.run (simplexTopo 2) vtkSquare).getD SegState.empty

theorem vtkSquareState_reached : SegReached VtkTag.triangle.topo vtkSquareState := by
  refine ⟨vtkSquare, ?_, rfl, ?_⟩
  · intro op hop o ho
    simp [vtkSquare] at hop
    rcases hop with rfl | rfl | rfl | rfl | rfl | rfl | rfl <;> simp [SOp.creation] at ho <;> subst ho <;>
      simp [MOp.Distinct]
  · unfold UniqueVids; decide +kernel

theorem vtkSquareState_noDuplicates : NoDuplicates VtkTag.triangle.topo.cellDim id 2 vtkSquareState.mesh := by
  have hv : vtkSquareState.mesh.verts = [⟨7, [0, 0]⟩, ⟨3, [1, 0]⟩, ⟨8, [9, 9]⟩, ⟨9, [0, 1]⟩, ⟨10, [1, 1]⟩] := by rfl
  have hc : (vtkSquareState.mesh.elems 2).map (·.verts) = [[0, 1, 3], [1, 4, 3]] := by rfl
  refine ⟨?_, ?_, ?_⟩
  · rw [hv]; simp
  · intro u v x y hu hv' he
    have hx := congrArg (fun l => l[u]?) (congrArg (List.map (·.pt)) hv)
    have hy := congrArg (fun l => l[v]?) (congrArg (List.map (·.pt)) hv)
    simp only [List.getElem?_map, hu, hv', Option.map_some] at hx hy
    have hlu : u < 5 := by have := (List.getElem?_eq_some_iff.1 hu).1; rw [hv] at this; exact this
    have hlv : v < 5 := by have := (List.getElem?_eq_some_iff.1 hv').1; rw [hv] at this; exact this
    simp only [List.map_id_fun, id_eq] at he
    rw [he] at hx
    have h1 := hx.symm.trans hy
    have key : ∀ u < 5, ∀ v < 5, ([[0, 0], [1, 0], [9, 9], [0, 1], [1, 1]] : List (List Rat))[u]? =
        ([[0, 0], [1, 0], [9, 9], [0, 1], [1, 1]] : List (List Rat))[v]? → u = v := by decide +kernel
    refine key u hlu v hlv ?_
    rw [← List.getElem?_map, ← List.getElem?_map] at h1
    exact h1
  · intro c c' e e' h1 h2 he
    have hx := congrArg (fun l => l[c]?) hc
    have hy := congrArg (fun l => l[c']?) hc
    have h1' : (vtkSquareState.mesh.elems 2)[c]? = some e := h1
    have h2' : (vtkSquareState.mesh.elems 2)[c']? = some e' := h2
    simp only [List.getElem?_map, h1', h2', Option.map_some] at hx hy
    rw [he] at hx
    have h3 := hx.symm.trans hy
    have hl : (vtkSquareState.mesh.elems 2).length = 2 := rfl
    have hlc : c < 2 := by have := (List.getElem?_eq_some_iff.1 h1').1; rw [hl] at this; exact this
    have hlc' : c' < 2 := by have := (List.getElem?_eq_some_iff.1 h2').1; rw [hl] at this; exact this
    have key : ∀ u < 2, ∀ v < 2, ([[0, 1, 3], [1, 4, 3]] : List (List Nat))[u]? =
        ([[0, 1, 3], [1, 4, 3]] : List (List Nat))[v]? → u = v := by decide
    exact key c hlc c' hlc' h3

example : ∃ r V Cc, readVtk .triangle 0 2 (writeVtk .triangle id 0 vtkSquareState [4, 2] (fun _ => []) (fun _ => [])) = some r ∧
    VtkSame 2 id vtkSquareState.mesh (fun g c => g ∈ [4, 2] ∧ c ∈ vtkSquareState.view g 2) V Cc r.st :=
  C49_segments_partial 0 vtkSquareState_reached vtkSquareState_noDuplicates [4, 2] (by simp) _ _

example : ∃ r, readVtk .triangle 0 2 (writeVtk .triangle id 0 vtkSquareState [4, 2] (fun _ => []) (fun _ => [])) = some r ∧
    r.st.mesh.verts.map (·.pt) = [[1, 0], [0, 1], [1, 1], [0, 0]] ∧
    (r.st.mesh.elems 2).map (·.verts) = [[0, 2, 1], [3, 0, 1]] ∧ r.st.view 4 2 = [1] ∧ r.st.view 2 2 = [0] :=
  ⟨_, rfl, by decide +kernel, by decide +kernel, by decide +kernel, by decide +kernel⟩

/-- With one segment the whole mesh is read into segment 0. -/
example : ∃ r, readVtk .triangle 0 2 (writeVtk .triangle id 0 vtkSquareState [4] (fun _ => []) (fun _ => [])) = some r ∧
    r.st.view 0 2 = [0, 1] ∧ r.st.view 4 2 = [] :=
  ⟨_, rfl, by decide +kernel, by decide +kernel⟩

/-- A hexahedron is read with its vertices in the same order. -/
def vtkHex : List (SOp (List Rat)) :=
  [.mesh (.vertex none [0, 0, 0]), .mesh (.vertex none [1, 0, 0]), .mesh (.vertex none [0, 1, 0]), .mesh (.vertex none [1, 1, 0]),
   .mesh (.vertex none [0, 0, 1]), .mesh (.vertex none [1, 0, 1]), .mesh (.vertex none [0, 1, 1]), .mesh (.vertex none [1, 1, 1]),
   .make 0 (.elem 3 [0, 1, 2, 3, 4, 5, 6, 7])]

example : ∃ st r, SegState.empty.run (cubeTopo 3) vtkHex = some st ∧
    readVtk .hexahedron 0 3 (writeVtk .hexahedron id 0 st [0] (fun _ => []) (fun _ => [])) = some r ∧
    (r.st.mesh.elems 3).map (·.verts) = [[0, 1, 2, 3, 4, 5, 6, 7]] :=
  ⟨_, _, rfl, rfl, by decide +kernel⟩

/-- Its file, with the points once around the lower and once around the upper face. -/
example : ∃ st, SegState.empty.run (cubeTopo 3) vtkHex = some st ∧
    (writeVtk .hexahedron id 0 st [0] (fun _ => []) (fun _ => [])).map (fun f => (f.2.conn, f.2.types))
      = [([0, 1, 3, 2, 4, 5, 7, 6], [12])] :=
  ⟨_, rfl, by decide +kernel⟩

/-- Rounding to 14 digits after the point, which is what is written for numbers between 1 and 10. -/
def digits14 (x : Rat) : Rat := ((x * 100000000000000 + 1 / 2).floor : Rat) / 100000000000000

/-- C49, violated: two vertices of a line whose coordinates differ in the last bit only become one vertex, and the line
gets the same vertex twice. -/
theorem C49_violated_digits :
    ∃ st, SegReached VtkTag.line.topo st ∧
      st.mesh.verts.map (·.pt) = [[(1 : Rat)], [1 + 1 / 4503599627370496]] ∧
      (st.mesh.elems 1).map (·.verts) = [[0, 1]] ∧
      (readVtk .line 0 1 (writeVtk .line digits14 0 st [] (fun _ => []) (fun _ => []))).map
        (fun r => (r.st.mesh.verts.length, (r.st.mesh.elems 1).map (·.verts))) = some (1, [[0, 0]]) := by
  refine ⟨_, ⟨[.mesh (.vertex none [1]), .mesh (.vertex none [1 + 1 / 4503599627370496]), .mesh (.elem 1 [0, 1])], ?_, rfl, ?_⟩,
    by decide +kernel, by decide +kernel, by decide +kernel⟩
  · intro op hop o ho
    simp at hop
    rcases hop with rfl | rfl | rfl <;> simp [SOp.creation] at ho <;> subst ho <;> simp [MOp.Distinct]
  · unfold UniqueVids; decide +kernel

/-- C49, violated: an id given explicitly can be given again to the next vertex (C01); the writer then drops one of the
two vertices, writes -1 as its index, and the file cannot be read. -/
theorem C49_violated_ids :
    ∃ st : SegState (List Rat), SegState.empty.run (simplexTopo 1)
        [.mesh (.vertex (some 0) [0]), .mesh (.vertex none [1]), .mesh (.elem 1 [0, 1])] = some st ∧
      (writeVtk .line id 0 st [] (fun _ => []) (fun _ => [])).map (fun f => (f.2.numPoints, f.2.conn)) = [(1, [0, -1])] ∧
      (readVtk .line 0 1 (writeVtk .line id 0 st [] (fun _ => []) (fun _ => []))).isNone = true :=
  ⟨_, rfl, by decide +kernel, by decide +kernel⟩

/-! ### C50 -/

/-- The number of components of an array of a file; it is 1 if the attribute is missing. -/
def DataArray.declared (a : DataArray C) : Nat := a.comps.getD 1

/-- C50: arrays with one or three components are read as such, if no array without the attribute follows an array with
three components. -/
theorem C50_components_partial (as : List (DataArray C)) (h1 : ∀ a ∈ as, a.declared = 1 ∨ a.declared = 3)
    (h2 : ∀ pre a b post, as = pre ++ a :: b :: post → b.comps = none → a.declared = 1) :
    readArrays 1 as = .ok ((as.filter (·.declared = 1)).map fun a => (a.name, a.values),
      (as.filter (·.declared = 3)).map fun a => (a.name, a.values)) := by
  have key : ∀ (as : List (DataArray C)) (k : Nat), (∀ a ∈ as, a.declared = 1 ∨ a.declared = 3) →
      (∀ pre a b post, as = pre ++ a :: b :: post → b.comps = none → a.declared = 1) →
      (∀ a post, as = a :: post → a.comps = none → k = 1) →
      readArrays k as = .ok ((as.filter (·.declared = 1)).map fun a => (a.name, a.values),
        (as.filter (·.declared = 3)).map fun a => (a.name, a.values)) := by
    intro as
    induction as with
    | nil => intros; rfl
    | cons a as ih =>
      intro k h1 h2 h3
      have hk : a.comps.getD k = a.declared := by
        unfold DataArray.declared
        cases hc : a.comps with
        | none => simp [h3 a as rfl hc]
        | some n => rfl
      have hrec := ih a.declared (fun b hb => h1 b (by simp [hb]))
        (fun pre b c post he => h2 (a :: pre) b c post (by rw [he]; rfl))
        (fun b post he hb => h2 [] a b post (by rw [he]; rfl) hb)
      simp only [readArrays, hk]
      rcases h1 a (by simp) with h | h
      · rw [h] at hrec
        simp [h, hrec, Except.map]
      · rw [h] at hrec
        simp [h, hrec, Except.map]
  exact key as 1 h1 h2 (fun _ _ _ _ => rfl)

example : readArrays 1 [⟨"a", none, [1, 2]⟩, ⟨"v", some 3, [1, 2, 3]⟩, ⟨"b", some 1, [5]⟩] =
    .ok ([("a", [1, 2]), ("b", [5])], [("v", [1, 2, 3])]) := rfl

/-- C50, violated: a scalar array that does not say that it has one component is read as a vector array after a vector
array. -/
theorem C50_violated_components (n n' : String) (vs ws : List C) :
    readArrays 1 [⟨n, some 3, vs⟩, ⟨n', none, ws⟩] = .ok ([], [(n, vs), (n', ws)]) := rfl

/-- `g` is `f` with the values of the list entered for the elements `hs`; a later value replaces an earlier one. -/
def Entered {α : Type} (hs : List Nat) (vals : List α) (f g : FieldOf α) : Prop :=
  (∀ (i : Nat) x h, vals[i]? = some x → hs[i]? = some h → (∀ j, i < j → j < vals.length → hs[j]? ≠ some h) → g h = some x) ∧
  ∀ h, (∀ i, i < vals.length → hs[i]? ≠ some h) → g h = f h

/-- C50: of a scalar array each element gets the value at its position, other elements keep theirs. -/
theorem C50_scalar_values (hs : List Nat) (vals : List C) (hlen : vals.length ≤ hs.length) (f : FieldOf C) :
    ∃ g, attachScalar hs 0 vals f = some g ∧ Entered hs vals f g := by
  have key : ∀ (vals : List C) (i : Nat) (f : FieldOf C), i + vals.length ≤ hs.length → ∃ g, attachScalar hs i vals f = some g ∧
      (∀ (k : Nat) x h, vals[k]? = some x → hs[i + k]? = some h →
        (∀ j, k < j → j < vals.length → hs[i + j]? ≠ some h) → g h = some x) ∧
      ∀ h, (∀ k, k < vals.length → hs[i + k]? ≠ some h) → g h = f h := by
    intro vals
    induction vals with
    | nil => intro i f _; exact ⟨f, rfl, by simp, by simp⟩
    | cons x vals ih =>
      intro i f hl
      rw [List.length_cons] at hl
      have hi : i < hs.length := by omega
      obtain ⟨g, h1, h2, h3⟩ := ih (i + 1) (fun k => if k = hs[i] then some x else f k) (by omega)
      refine ⟨g, by simp only [attachScalar, List.getElem?_eq_getElem hi, Option.bind_some, h1], ?_, ?_⟩
      · intro k y h hk hh hlast
        cases k with
        | zero =>
          simp only [List.getElem?_cons_zero, Option.some.injEq] at hk
          subst hk
          rw [h3 h (fun k hk' => by
            have := hlast (k + 1) (by omega) (by simpa using hk')
            rwa [show i + (k + 1) = i + 1 + k by omega] at this)]
          rw [Nat.add_zero, List.getElem?_eq_getElem hi] at hh
          simp only [Option.some.injEq] at hh
          rw [if_pos hh.symm]
        | succ k =>
          rw [List.getElem?_cons_succ] at hk
          refine h2 k y h hk (by rw [show i + 1 + k = i + (k + 1) by omega]; exact hh) fun j hj hj' => ?_
          rw [show i + 1 + j = i + (j + 1) by omega]
          exact hlast (j + 1) (by omega) (by simpa using hj')
      · intro h hnot
        rw [h3 h (fun k hk' => by
          have := hnot (k + 1) (by simpa using hk')
          rwa [show i + (k + 1) = i + 1 + k by omega] at this)]
        have := hnot 0 (by simp)
        rw [Nat.add_zero, List.getElem?_eq_getElem hi] at this
        rw [if_neg (fun e => this (by rw [e]))]
  obtain ⟨g, h1, h2, h3⟩ := key vals 0 f (by omega)
  exact ⟨g, h1, fun i x h hx hh hl => h2 i x h hx (by rw [Nat.zero_add]; exact hh) (fun j hj hj' => by
    rw [Nat.zero_add]; exact hl j hj hj'), fun h hn => h3 h (fun k hk => by rw [Nat.zero_add]; exact hn k hk)⟩

/-- The numbers of vectors. -/
def flatten3 (vals : List (C × C × C)) : List C := vals.flatMap fun x => [x.1, x.2.1, x.2.2]

theorem flatten3_length (vals : List (C × C × C)) : (flatten3 vals).length = 3 * vals.length := by
  induction vals with
  | nil => rfl
  | cons x vals ih =>
    have : flatten3 (x :: vals) = [x.1, x.2.1, x.2.2] ++ flatten3 vals := by simp [flatten3]
    rw [this, List.length_append, ih]
    simp
    omega

theorem flatten3_get (vals : List (C × C × C)) {i : Nat} {x : C × C × C} (h : vals[i]? = some x) :
    (flatten3 vals)[3 * i]? = some x.1 ∧ (flatten3 vals)[3 * i + 1]? = some x.2.1 ∧ (flatten3 vals)[3 * i + 2]? = some x.2.2 := by
  have h0 := flatMap_getElem? (fun x : C × C × C => [x.1, x.2.1, x.2.2]) 3 vals (by simp) i 0 x h (by omega)
  have h1 := flatMap_getElem? (fun x : C × C × C => [x.1, x.2.1, x.2.2]) 3 vals (by simp) i 1 x h (by omega)
  have h2 := flatMap_getElem? (fun x : C × C × C => [x.1, x.2.1, x.2.2]) 3 vals (by simp) i 2 x h (by omega)
  refine ⟨?_, ?_, ?_⟩
  · rw [show 3 * i = 0 + i * 3 by omega]; exact h0
  · rw [show 3 * i + 1 = 1 + i * 3 by omega]; exact h1
  · rw [show 3 * i + 2 = 2 + i * 3 by omega]; exact h2

theorem attachVectorLoop_eq (hs : List Nat) (vals : List (C × C × C)) : ∀ (n i : Nat) (f : FieldOf (C × C × C)),
    i + n ≤ vals.length → attachVectorLoop hs (flatten3 vals) n i f = attachScalar hs i ((vals.drop i).take n) f
  | 0, i, f, _ => by simp [attachVectorLoop, attachScalar]
  | n + 1, i, f, h => by
    have hi : i < vals.length := by omega
    obtain ⟨h1, h2, h3⟩ := flatten3_get vals (List.getElem?_eq_getElem hi)
    rw [List.drop_eq_getElem_cons hi, List.take_succ_cons]
    simp only [attachVectorLoop, attachScalar, h1, h2, h3]
    cases hs[i]? with
    | none => rfl
    | some x =>
      simp only [Option.bind_some]
      exact attachVectorLoop_eq hs vals n (i + 1) _ (by omega)

/-- C50: of a vector array each element gets the vector at its position, if the quantity was registered for all segments
or not registered. -/
theorem C50_vector_values_partial {reg : Registered} (hreg : reg ≠ .segment) (hs : List Nat) (vals : List (C × C × C))
    (hlen : vals.length ≤ hs.length) (f : FieldOf (C × C × C)) :
    ∃ g, attachVector reg hs (flatten3 vals) f = some g ∧ Entered hs vals f g := by
  obtain ⟨g, h1, h2⟩ := C50_scalar_values hs vals hlen f
  refine ⟨g, ?_, h2⟩
  unfold attachVector
  rw [if_neg hreg, flatten3_length, Nat.mul_div_cancel_left _ (by omega), attachVectorLoop_eq _ _ _ _ _ (by omega)]
  simpa using h1

/-- C50, violated: a vector quantity registered for a segment is always read beyond the end of the array. -/
theorem C50_violated_segment_vector (hs : List Nat) (vals : List C) (hne : vals ≠ []) (f : FieldOf (C × C × C)) :
    attachVector .segment hs vals f = none := by
  have key : ∀ (n i : Nat) (f : FieldOf (C × C × C)), 1 ≤ n → vals.length ≤ 3 * (i + n - 1) + 2 →
      attachVectorLoop hs vals n i f = none := by
    intro n
    induction n with
    | zero => intro i f hn; omega
    | succ n ih =>
      intro i f _ hl
      unfold attachVectorLoop
      split
      · rename_i h x y z h1 h2 h3 h4
        by_cases hn : n = 0
        · subst hn
          have := (List.getElem?_eq_some_iff.1 h4).1
          omega
        · exact ih (i + 1) _ (by omega) (by rw [show i + 1 + n - 1 = i + (n + 1) - 1 by omega]; exact hl)
      · rfl
  unfold attachVector
  rw [if_pos rfl]
  have : 0 < vals.length := List.length_pos_iff.2 hne
  exact key _ _ _ (by omega) (by omega)

example : attachVector .segment [0, 1] [1, 2, 3, 4, 5, 6] (fun _ => none) = none := rfl
example : ((attachVector .all [1, 0] [1, 2, 3, 4, 5, 6] (fun _ => none)).map fun g => (g 0, g 1)) =
    some (some (4, 5, 6), some (1, 2, 3)) := rfl

/-- The elements listed in `V` for which `W` holds have got the values `q`, the other ones are unchanged. -/
def GotValues {α : Type} (V : List Nat) (W : Nat → Prop) (q : Nat → α) (old new : FieldOf α) : Prop :=
  (∀ (i : Nat) v, V[i]? = some v → W v → new i = some (q v)) ∧
  ∀ i : Nat, (∀ v, V[i]? = some v → ¬ W v) → new i = old i

/-- The arrays of a file carry the quantities: they are read as scalar and vector arrays, and their values reach the
elements they were written for. -/
structure DataRight (txt : C → C) (V : List Nat) (W : Nat → Prop) (hs : List Nat) (qs : List (String × Quantity C))
    (arrays : List (DataArray C)) : Prop where
  split : ∃ sc ve, readArrays 1 arrays = .ok (sc, ve) ∧
    (∀ a ∈ arrays, a.comps = some 1 → (a.name, a.values) ∈ sc) ∧ (∀ a ∈ arrays, a.comps = some 3 → (a.name, a.values) ∈ ve)
  count : arrays.length = qs.length
  scalar : ∀ (k : Nat) name f, qs[k]? = some (name, .scalar f) → ∃ a, arrays[k]? = some a ∧ a.name = name ∧ a.comps = some 1 ∧
    ∀ old, ∃ new, attachScalar hs 0 a.values old = some new ∧ GotValues V W (fun v => txt (f v)) old new
  vector : ∀ (k : Nat) name f, qs[k]? = some (name, .vector f) → ∃ a, arrays[k]? = some a ∧ a.name = name ∧ a.comps = some 3 ∧
    ∀ reg old, reg ≠ Registered.segment → ∃ new, attachVector reg hs a.values old = some new ∧
      GotValues V W (fun v => (txt (f v).1, txt (f v).2.1, txt (f v).2.2)) old new

theorem Entered.gotValues {α : Type} {V U : List Nat} (hV : V.Nodup) (hU : U.Nodup) (hUV : ∀ v ∈ U, v ∈ V) (q : Nat → α)
    {old new : FieldOf α} (h : Entered (U.map fun v => V.idxOf v) (U.map q) old new) : GotValues V (· ∈ U) q old new := by
  have hidx : ∀ {u v}, u ∈ V → v ∈ V → V.idxOf u = V.idxOf v → u = v := by
    intro u v hu hv he
    have h1 := getElem?_idxOf hu
    rw [he, getElem?_idxOf hv] at h1
    simpa using h1.symm
  have hposV : ∀ {i : Nat} {v : Nat}, V[i]? = some v → V.idxOf v = i := by
    intro i v hi
    obtain ⟨h1, h2⟩ := List.getElem?_eq_some_iff.1 hi
    subst h2
    exact hV.idxOf_getElem i h1
  constructor
  · intro i v hi hv
    obtain ⟨k, hk, rfl⟩ := List.getElem_of_mem hv
    refine h.1 k _ i ?_ ?_ ?_
    · rw [List.getElem?_map, List.getElem?_eq_getElem hk]; rfl
    · rw [List.getElem?_map, List.getElem?_eq_getElem hk, Option.map_some, hposV hi]
    · intro j hj hjl he
      rw [List.length_map] at hjl
      rw [List.getElem?_map, List.getElem?_eq_getElem hjl, Option.map_some, Option.some.injEq, ← hposV hi] at he
      have := hidx (hUV _ (List.getElem_mem hjl)) (hUV _ (List.getElem_mem hk)) he
      have := (List.Nodup.getElem_inj_iff hU).1 this
      omega
  · intro i hi
    refine h.2 i fun k hk he => ?_
    rw [List.length_map] at hk
    rw [List.getElem?_map, List.getElem?_eq_getElem hk, Option.map_some, Option.some.injEq] at he
    have hm := List.getElem_mem hk
    exact hi U[k] (by rw [← he]; exact getElem?_idxOf (hUV _ hm)) hm

theorem DataRight.intro {txt : C → C} {V U : List Nat} (hV : V.Nodup) (hU : U.Nodup) (hUV : ∀ v ∈ U, v ∈ V)
    (qs : List (String × Quantity C)) :
    DataRight txt V (· ∈ U) (U.map fun v => V.idxOf v) qs (qs.map fun q => ⟨q.1, some q.2.comps, q.2.write txt U⟩) := by
  refine ⟨?_, by simp, ?_, ?_⟩
  · have hd : ∀ a ∈ qs.map (fun q => (⟨q.1, some q.2.comps, q.2.write txt U⟩ : DataArray C)),
        (a.comps = some 1 ∧ a.declared = 1) ∨ (a.comps = some 3 ∧ a.declared = 3) := by
      intro a ha
      obtain ⟨⟨n, q⟩, -, rfl⟩ := List.mem_map.1 ha
      cases q <;> simp [Quantity.comps, DataArray.declared]
    refine ⟨_, _, C50_components_partial _ (fun a ha => ?_) (fun pre a b post he hb => ?_), fun a ha h1 => ?_, fun a ha h1 => ?_⟩
    · rcases hd a ha with h | h
      · exact Or.inl h.2
      · exact Or.inr h.2
    · have := hd b (by rw [he]; simp)
      rw [hb] at this
      simp at this
    · refine List.mem_map.2 ⟨a, List.mem_filter.2 ⟨ha, ?_⟩, rfl⟩
      simp [DataArray.declared, h1]
    · refine List.mem_map.2 ⟨a, List.mem_filter.2 ⟨ha, ?_⟩, rfl⟩
      simp [DataArray.declared, h1]
  · intro k name f hk
    refine ⟨_, by rw [List.getElem?_map, hk]; rfl, rfl, rfl, fun old => ?_⟩
    obtain ⟨new, h1, h2⟩ := C50_scalar_values (U.map fun v => V.idxOf v) (U.map fun v => txt (f v)) (by simp) old
    exact ⟨new, h1, h2.gotValues hV hU hUV _⟩
  · intro k name f hk
    refine ⟨_, by rw [List.getElem?_map, hk]; rfl, rfl, rfl, fun reg old hreg => ?_⟩
    obtain ⟨new, h1, h2⟩ := C50_vector_values_partial hreg (U.map fun v => V.idxOf v)
      (U.map fun v => (txt (f v).1, txt (f v).2.1, txt (f v).2.2)) (by simp) old
    refine ⟨new, ?_, h2.gotValues hV hU hUV _⟩
    rw [← h1]
    congr 1
    simp [flatten3, Quantity.write, List.flatMap_map]

/-- C50: quantities on vertices and cells written with the segments of a mesh reach the same elements of the mesh that is
read.  Missing from the full statement: vector quantities registered for one segment. -/
theorem C50_written_partial [DecidableEq C] {tag : VtkTag} {txt : C → C} (zero : C) {dim : Nat} {st : SegState (List C)}
    (h : SegReached tag.topo st) (hd : NoDuplicates tag.topo.cellDim txt dim st.mesh) (gs : List Nat) (hgs : 2 ≤ gs.length)
    (pd cd : Nat → List (String × Quantity C)) :
    ∃ r V Cc, readVtk tag zero dim (writeVtk tag txt zero st gs pd cd) = some r ∧
      VtkSame tag.topo.cellDim txt st.mesh (fun g c => g ∈ gs ∧ c ∈ st.view g tag.topo.cellDim) V Cc r.st ∧
      (∀ g ∈ gs, ∃ (k : Nat) (f : VtuFile C), r.files[k]? = some ((g : Int), f)) ∧
      ∀ (k : Nat) (x : Int × VtuFile C), r.files[k]? = some x → ∃ g ∈ gs, ∃ hs cs, x.1 = (g : Int) ∧
        r.points[k]? = some hs ∧ r.cells[k]? = some cs ∧
        DataRight txt V (fun v => ∃ c e, c ∈ st.view g tag.topo.cellDim ∧
          (st.mesh.elems tag.topo.cellDim)[c]? = some e ∧ v ∈ e.verts) hs (pd g) x.2.pointData ∧
        DataRight txt Cc (fun c => c ∈ st.view g tag.topo.cellDim) cs (cd g) x.2.cellData := by
  have hI := h.invOn tag.wf tag.wf.closedOn
  have hw := h.writable hd gs
  obtain ⟨r, V, Cc, parts', hp1, hp2, h1, h2, hV, hC, hf, hp, hc⟩ := vtk_read zero gs (fun g => st.view g tag.topo.cellDim) pd cd
    hw (fun g _ => hI.nodup g _)
  refine ⟨r, V, Cc, ?_, h2, ?_, ?_⟩
  · unfold writeVtk
    rw [if_neg (by omega)]
    exact h1
  · intro g hg
    obtain ⟨k, hk, hk'⟩ := List.getElem_of_mem ((hp2 g).2 hg)
    exact ⟨k, _, by rw [hf, List.getElem?_map, List.getElem?_eq_getElem hk, hk']; rfl⟩
  · intro k x hx
    rw [hf, List.getElem?_map] at hx
    obtain ⟨g, hg, rfl⟩ := Option.map_eq_some_iff.1 hx
    have hgm := List.mem_of_getElem? hg
    have hcl : ∀ c ∈ st.view g tag.topo.cellDim, ∃ g ∈ gs, c ∈ st.view g tag.topo.cellDim :=
      fun c hc => ⟨g, (hp2 g).1 hgm, hc⟩
    obtain ⟨hv1, -, hv3⟩ := fileVerts_spec hw hcl
    obtain ⟨hc1, -, hc3⟩ := fileCells_spec hw hcl
    refine ⟨g, (hp2 g).1 hgm, _, _, rfl, by rw [hp, List.getElem?_map, hg]; rfl, by rw [hc, List.getElem?_map, hg]; rfl, ?_, ?_⟩
    · have hW : (fun v => ∃ c e, c ∈ st.view g tag.topo.cellDim ∧ (st.mesh.elems tag.topo.cellDim)[c]? = some e ∧ v ∈ e.verts) =
          (· ∈ fileVerts tag st.mesh (st.view g tag.topo.cellDim)) := by
        funext v
        apply propext
        rw [hv3]
        constructor
        · rintro ⟨c, e, hc, he, hv⟩
          exact ⟨c, hc, by rw [vertsOf_of he]; exact hv⟩
        · rintro ⟨c, hc, hv⟩
          obtain ⟨e, he1, he2, -⟩ := hw.elem (hcl c hc)
          exact ⟨c, e, hc, he1, by rw [← he2]; exact hv⟩
      rw [hW]
      exact DataRight.intro h2.vertsOnce.1 hv1 (fun v hv => by
        rw [hV, (joinAll_spec _ _).2.1]
        exact Or.inr ⟨_, List.mem_map.2 ⟨g, hgm, rfl⟩, hv⟩) (pd g)
    · have hW : (fun c => c ∈ st.view g tag.topo.cellDim) = (· ∈ fileCells tag st.mesh (st.view g tag.topo.cellDim)) := by
        funext c
        exact propext (hc3 c).symm
      rw [hW]
      exact DataRight.intro h2.cellsOnce.1 hc1 (fun v hv => by
        rw [hC, (joinAll_spec _ _).2.1]
        exact Or.inr ⟨_, List.mem_map.2 ⟨g, hgm, rfl⟩, hv⟩) (cd g)

example : ∃ r, readVtk .triangle 0 2 (writeVtk .triangle id 0 vtkSquareState [4, 2]
      (fun _ => [("x", .scalar fun v => v), ("y", .vector fun v => (v, 0, 1))]) (fun _ => [])) = some r ∧
    r.files.map (fun f => f.2.pointData.map (·.values)) =
      [[[1, 3, 4], [1, 0, 1, 3, 0, 1, 4, 0, 1]], [[1, 0, 3], [1, 0, 1, 0, 0, 1, 3, 0, 1]]] ∧
    r.points = [[0, 1, 2], [0, 3, 1]] :=
  ⟨_, rfl, by decide +kernel, by decide +kernel⟩

/-- C50: the same for a mesh written as one file. -/
theorem C50_mesh_partial [DecidableEq C] {tag : VtkTag} {txt : C → C} (zero : C) {dim : Nat} {st : SegState (List C)}
    (h : SegReached tag.topo st) (hd : NoDuplicates tag.topo.cellDim txt dim st.mesh) (gs : List Nat) (hgs : gs.length ≤ 1)
    (pd cd : Nat → List (String × Quantity C)) :
    ∃ r V Cc f hs cs, readVtk tag zero dim (writeVtk tag txt zero st gs pd cd) = some r ∧
      VtkSame tag.topo.cellDim txt st.mesh (fun g c => g = 0 ∧ c < st.mesh.count tag.topo.cellDim) V Cc r.st ∧
      V.Pairwise (fun u v => st.mesh.vid u < st.mesh.vid v) ∧
      Cc.Pairwise (fun c c' => st.mesh.eid tag.topo.cellDim c < st.mesh.eid tag.topo.cellDim c') ∧
      r.files = [(0, f)] ∧ r.points = [hs] ∧ r.cells = [cs] ∧
      DataRight txt V (fun v => ∃ (c : Nat) (e : Elem), (st.mesh.elems tag.topo.cellDim)[c]? = some e ∧ v ∈ e.verts) hs (pd 0)
        f.pointData ∧
      DataRight txt Cc (fun c => c < st.mesh.count tag.topo.cellDim) cs (cd 0) f.cellData := by
  have hw := h.writableMesh hd
  obtain ⟨r, V, Cc, parts', hp1, hp2, h1, h2, hV, hC, hf, hp, hc⟩ := vtk_read zero [0]
    (fun _ => List.range (st.mesh.count tag.topo.cellDim)) pd cd hw (fun g _ => List.nodup_range)
  have hparts : parts' = [0] := by
    have hnd : parts'.Nodup := hp1.imp (fun h => Nat.ne_of_lt h)
    have := (List.perm_ext_iff_of_nodup hnd (List.nodup_singleton 0)).2 hp2
    exact List.perm_singleton.1 this
  rw [hparts, List.map_singleton] at hV hC hf hp hc
  have hcl : ∀ c ∈ List.range (st.mesh.count tag.topo.cellDim),
      ∃ g ∈ [0], c ∈ (fun _ => List.range (st.mesh.count tag.topo.cellDim)) g := fun c hc => ⟨0, by simp, hc⟩
  obtain ⟨hv1, hv2, hv3⟩ := fileVerts_spec hw hcl
  obtain ⟨hc1, hc2, hc3⟩ := fileCells_spec hw hcl
  rw [joinAll_single hv1] at hV
  rw [joinAll_single hc1] at hC
  refine ⟨r, V, Cc, _, _, _, ?_, ?_, by rw [hV]; exact hv2, by rw [hC]; exact hc2, hf, hp, hc, ?_, ?_⟩
  · unfold writeVtk
    rw [if_pos hgs]
    exact h1
  · simp only [List.mem_singleton, List.mem_range] at h2
    exact h2
  · have hW : (fun v => ∃ (c : Nat) (e : Elem), (st.mesh.elems tag.topo.cellDim)[c]? = some e ∧ v ∈ e.verts) =
        (· ∈ fileVerts tag st.mesh (List.range (st.mesh.count tag.topo.cellDim))) := by
      funext v
      apply propext
      rw [hv3]
      constructor
      · rintro ⟨c, e, he, hv⟩
        have hlt := (List.getElem?_eq_some_iff.1 he).1
        have hcount : st.mesh.count tag.topo.cellDim = (st.mesh.elems tag.topo.cellDim).length := by
          unfold Mesh.count
          rw [if_neg (by cases tag <;> decide)]
        exact ⟨c, List.mem_range.2 (by omega), by rw [vertsOf_of he]; exact hv⟩
      · rintro ⟨c, hc, hv⟩
        obtain ⟨e, he1, he2, -⟩ := hw.elem (hcl c hc)
        exact ⟨c, e, he1, by rw [← he2]; exact hv⟩
    rw [hW]
    exact DataRight.intro h2.vertsOnce.1 hv1 (fun v hv => by rw [hV]; exact hv) (pd 0)
  · have hW : (fun c => c < st.mesh.count tag.topo.cellDim) =
        (· ∈ fileCells tag st.mesh (List.range (st.mesh.count tag.topo.cellDim))) := by
      funext c
      apply propext
      rw [hc3, List.mem_range]
    rw [hW]
    exact DataRight.intro h2.cellsOnce.1 hc1 (fun v hv => by rw [hC]; exact hv) (cd 0)

example : ∃ r, readVtk .triangle 0 2 (writeVtk .triangle id 0 vtkSquareState []
      (fun _ => [("x", .scalar fun v => v), ("y", .vector fun v => (v, 0, 1))]) (fun _ => [])) = some r ∧
    r.files.map (fun f => f.2.pointData.map (·.values)) = [[[1, 0, 3, 4], [1, 0, 1, 0, 0, 1, 3, 0, 1, 4, 0, 1]]] ∧
    r.points = [[0, 1, 2, 3]] :=
  ⟨_, rfl, by decide +kernel, by decide +kernel⟩

end VG
