import Verif.Lemmas.Netgen
import Verif.Props.Segments

/-!
C59: reading a Netgen file builds the mesh described in the file; a truncated file is rejected.

The specification is the file itself, `NetFile.words`.
-/

namespace VG

variable {C : Type}

/-- The contents of a file: points, and for each cell the segment and the vertices, counted from 0. -/
structure NetFile (C : Type) where
  points : List (List (Coord C))
  cells : List (Int × List Nat)

/-- The words of the file: number of points, coordinates, number of cells, segment and vertices (counted from 1) of
each cell. -/
def NetFile.words (f : NetFile C) : List (Tok C) :=
  .int f.points.length :: ((f.points.flatMap fun p => p.map coordTok) ++ .int f.cells.length ::
    f.cells.flatMap fun c => .int c.1 :: c.2.map fun v => .int ((v : Int) + 1))

/-- A file which can be read into a mesh with the topology and points with `dim` coordinates: at least one point, cells
with as many vertices as they need, all different and existing. -/
structure NetFile.OK (T : Topo) (dim : Nat) (f : NetFile C) : Prop where
  points : f.points ≠ []
  coords : ∀ p ∈ f.points, p.length = dim
  cells : ∀ c ∈ f.cells, c.2.Nodup ∧ c.2.length = T.nv T.cellDim ∧ ∀ v ∈ c.2, v < f.points.length

theorem words_eq (f : NetFile C) : f.words = .int f.points.length :: ((f.points.flatMap fun p => p.map coordTok) ++
    .int f.cells.length :: f.cells.flatMap netCell) := rfl

theorem points_length {dim : Nat} : ∀ (ps : List (List (Coord C))), (∀ p ∈ ps, p.length = dim) →
    (ps.flatMap fun p => p.map (coordTok (C := C))).length = ps.length * dim
  | [], _ => by simp
  | p :: ps, h => by
    have := points_length ps fun q hq => h q (by simp [hq])
    simp only [List.flatMap_cons, List.length_append, List.length_map, h p (by simp), this, List.length_cons]
    rw [Nat.add_mul]
    omega

/-- The reader on a complete file. -/
theorem readNetgen_all {T : Topo} (hT : ClosedTopo T) (hn : 1 ≤ T.cellDim) (ofInt : Int → C) {dim : Nat}
    (hdim : 0 < dim) {f : NetFile C} (hf : f.OK T dim) (trail : Bool) :
    ∃ st, readNetgen ofInt T dim f.words trail = .ok st ∧ NetInv T (f.points.mapIdx (netVertex ofInt)) f.cells st := by
  have hpl := points_length f.points hf.coords
  have hpos : 0 < f.points.length := List.length_pos_iff.2 hf.points
  have hstart : (⟨f.words, trail, true⟩ : TokIn C) = cutAt trail f.words.length f.words := by
    unfold cutAt
    rw [List.take_length]
    simp [words_eq]
  have hlen : f.words.length = (f.points.length * dim + (1 + (f.cells.flatMap (netCell (C := C))).length)) + 1 := by
    rw [words_eq]
    simp only [List.length_cons, List.length_append, hpl]
    omega
  unfold readNetgen
  rw [hstart, hlen, words_eq, readInt_cut]
  simp only [Option.getD_some]
  rw [if_pos (by omega), Int.toNat_natCast, readVertices_all ofInt trail dim hdim _ f.points hf.coords _ _ _ (by omega)]
  simp only
  rw [Nat.add_sub_cancel_left, Nat.add_comm 1, good_cut, if_pos rfl, readInt_cut]
  simp only [Option.getD_some, Int.toNat_natCast]
  have h0 := addPoints_spec T ofInt f.points [] Mesh.empty (netInv_empty T)
  rw [List.nil_append] at h0
  obtain ⟨st, h1, h2⟩ := readCells_all hT.lib.wf hT.closed hn trail [] f.cells [] _ _
    (fun c hc => by
      have := hf.cells c hc
      simpa using this) h0 (Nat.le_refl _)
  rw [List.append_nil] at h1
  rw [List.nil_append] at h2
  exact ⟨st, h1, h2⟩

/-- **C59** (well-formed files): the mesh has exactly the listed vertices with ids 0, 1, ..., the listed cells with the
listed vertices in the listed order and ids 0, 1, ...; whether blanks follow the last word does not matter. -/
theorem C59_mesh {T : Topo} (hT : ClosedTopo T) (hn : 1 ≤ T.cellDim) (ofInt : Int → C) {dim : Nat} (hdim : 0 < dim)
    {f : NetFile C} (hf : f.OK T dim) (trail : Bool) :
    ∃ st, readNetgen ofInt T dim f.words trail = .ok st ∧ st.mesh.verts.length = f.points.length ∧
      (∀ (i : Nat) (p : List (Coord C)), f.points[i]? = some p → st.mesh.verts[i]? = some ⟨i, p.map (coordVal ofInt)⟩) ∧
      (st.mesh.elems T.cellDim).length = f.cells.length ∧
      (∀ (i : Nat) (c : Int × List Nat), f.cells[i]? = some c → ∃ e, (st.mesh.elems T.cellDim)[i]? = some e ∧ e.id = i ∧ e.verts = c.2) := by
  obtain ⟨st, h1, h2⟩ := readNetgen_all hT hn ofInt hdim hf trail
  have hlen : (st.mesh.elems T.cellDim).length = f.cells.length := by
    have := congrArg List.length h2.cells
    simpa using this
  refine ⟨st, h1, by simp [h2.verts], fun i p hp => ?_, hlen, fun i c hc => ?_⟩
  · rw [h2.verts]
    simp [hp, netVertex]
  · have hi : i < (st.mesh.elems T.cellDim).length := by
      rw [hlen]; exact (List.getElem?_eq_some_iff.1 hc).1
    refine ⟨(st.mesh.elems T.cellDim)[i], List.getElem?_eq_getElem hi, ?_, ?_⟩
    · have h3 := congrArg (fun l => l[i]?) (h2.ids T.cellDim).1
      simp only [List.getElem?_map, List.getElem?_eq_getElem hi, Option.map_some, List.getElem?_range hi] at h3
      exact Option.some.inj h3
    · have h3 := congrArg (fun l => l[i]?) h2.cells
      simp only [List.getElem?_map, List.getElem?_eq_getElem hi, hc, Option.map_some] at h3
      exact Option.some.inj h3

/-- **C59** (segments): a segment consists of the cells listed with its index and of the elements on their boundary;
`is_in_segment` says so for the cells. -/
theorem C59_segments {T : Topo} (hT : ClosedTopo T) (hn : 1 ≤ T.cellDim) (ofInt : Int → C) {dim : Nat} (hdim : 0 < dim)
    {f : NetFile C} (hf : f.OK T dim) (trail : Bool) :
    ∃ st, readNetgen ofInt T dim f.words trail = .ok st ∧
      (∀ (i : Nat) (c : Int × List Nat), f.cells[i]? = some c → ∀ g, st.isIn (segNumber g) T.cellDim i = true ↔ c.1 = g) ∧
      ∀ g k s, s ∈ st.view (segNumber g) k ↔ ∃ (i : Nat) (vs : List Nat), f.cells[i]? = some (g, vs) ∧
        ((k = T.cellDim ∧ s = i) ∨ OnBoundary T st.mesh k s T.cellDim i) := by
  obtain ⟨st, h1, h2⟩ := readNetgen_all hT hn ofInt hdim hf trail
  have hview : ∀ g k s, s ∈ st.view (segNumber g) k ↔ ∃ (i : Nat) (vs : List Nat), f.cells[i]? = some (g, vs) ∧
        ((k = T.cellDim ∧ s = i) ∨ OnBoundary T st.mesh k s T.cellDim i) := by
    intro g k s
    rw [(C26_content_partial hT h2.reached (segNumber g) k).2 s]
    unfold Belongs
    constructor
    · rintro ⟨d, t, h3, h4⟩
      obtain ⟨i, g', vs, h5, h6, h7⟩ := (h2.added _ _).1 h3
      obtain ⟨rfl, rfl⟩ := Prod.mk.inj h7
      rw [segNumber_inj h6]
      exact ⟨t, vs, h5, h4⟩
    · rintro ⟨i, vs, h3, h4⟩
      exact ⟨T.cellDim, i, (h2.added _ _).2 ⟨i, g, vs, h3, rfl, rfl⟩, h4⟩
  refine ⟨st, h1, fun i c hc g => ?_, hview⟩
  have hlen : (st.mesh.elems T.cellDim).length = f.cells.length := by
    have := congrArg List.length h2.cells
    simpa using this
  have hi : i < st.mesh.count T.cellDim := by
    rw [Mesh.count, if_neg (by omega), hlen]
    exact (List.getElem?_eq_some_iff.1 hc).1
  rw [C26_is_in_segment_partial hT h2.reached hi, hview]
  constructor
  · rintro ⟨j, vs, h3, ⟨-, rfl⟩ | h4⟩
    · rw [h3] at hc
      rw [← Option.some.inj hc]
    · unfold OnBoundary at h4
      rw [if_neg (by omega)] at h4
      obtain ⟨e, e', idxs, ix, -, -, h5, -⟩ := h4
      have := (hT.lib.wf.dim _ _ _ _ h5).2
      omega
  · intro h
    exact ⟨i, c.2, by rw [hc, ← h], Or.inl ⟨rfl, rfl⟩⟩

/-- A square of two triangles in two segments. -/
def netSquare : NetFile Rat where
  points := [[.inl 0, .inl 0], [.inl 1, .inl 0], [.inl 0, .inl 1], [.inl 1, .inr (3/2)]]
  cells := [(1, [0, 1, 2]), (7, [1, 3, 2])]

theorem netSquare_ok : netSquare.OK (simplexTopo 2) 2 :=
  ⟨by decide, by decide, by decide⟩

/-- The hypotheses of `C59_mesh` and `C59_segments` hold for the square. -/
example : ∃ st, readNetgen (fun i => (i : Rat)) (simplexTopo 2) 2 netSquare.words true = .ok st ∧
    st.mesh.verts.length = 4 ∧ (st.mesh.elems 2).map (·.verts) = [[0, 1, 2], [1, 3, 2]] ∧
    st.isIn (segNumber 7) 2 1 = true ∧ st.isIn (segNumber 1) 2 1 = false := by
  obtain ⟨st, h1, h2, -, h3, h4⟩ := C59_mesh (T := simplexTopo 2) (Or.inl ⟨2, rfl⟩) (by decide) (fun i => (i : Rat))
    (by decide) netSquare_ok true
  obtain ⟨st', h1', h5, -⟩ := C59_segments (T := simplexTopo 2) (Or.inl ⟨2, rfl⟩) (by decide) (fun i => (i : Rat))
    (by decide) netSquare_ok true
  rw [h1] at h1'
  obtain rfl := Except.ok.inj h1'
  refine ⟨st, h1, h2, ?_, (h5 1 (7, [1, 3, 2]) rfl 7).2 rfl, ?_⟩
  · obtain ⟨e, h6, -, h7⟩ := h4 0 (1, [0, 1, 2]) rfl
    obtain ⟨e', h8, -, h9⟩ := h4 1 (7, [1, 3, 2]) rfl
    apply List.ext_getElem?
    intro i
    rcases i with _ | _ | i
    · have : (st.mesh.elems 2)[0]? = some e := h6
      simp [this, h7]
    · have : (st.mesh.elems 2)[1]? = some e' := h8
      simp [this, h9]
    · have : (st.mesh.elems 2).length = 2 := h3
      simp [List.getElem?_eq_none (l := st.mesh.elems 2) (i := i + 2) (by omega)]
  · by_contra h
    have h' : st.isIn (segNumber 1) 2 1 = true := by simpa using h
    have := (h5 1 (7, [1, 3, 2]) rfl 1).1 h'
    simp at this

/-- **C59** (truncated files), partial: a file which ends right after any of its words but the last is rejected with an
exception.  The full claim is that every file of which only the first words are there is rejected with an exception;
missing are files where blanks (a line break) follow the last word that is there, and empty files; the claim fails for
these, see `C59_violated_cell`, `C59_violated_no_cells`, `C59_violated_undefined` and `C59_violated_empty`. -/
theorem C59_truncated_partial {T : Topo} (hT : ClosedTopo T) (hn : 1 ≤ T.cellDim) (ofInt : Int → C) {dim : Nat}
    (hdim : 0 < dim) {f : NetFile C} (hf : f.OK T dim) {k : Nat} (hk : 1 ≤ k) (hk' : k < f.words.length) :
    readNetgen ofInt T dim (f.words.take k) false = .error .throws := by
  have hpl := points_length f.points hf.coords
  have hpos : 0 < f.points.length := List.length_pos_iff.2 hf.points
  obtain ⟨k, rfl⟩ : ∃ j, k = j + 1 := ⟨k - 1, by omega⟩
  have hstart : (⟨f.words.take (k + 1), false, true⟩ : TokIn C) = cutAt false (k + 1) f.words := by
    simp [cutAt, words_eq]
  have hlen : f.words.length = (f.points.length * dim + (1 + (f.cells.flatMap (netCell (C := C))).length)) + 1 := by
    rw [words_eq]
    simp only [List.length_cons, List.length_append, hpl]
    omega
  rw [hlen] at hk'
  unfold readNetgen
  rw [hstart, words_eq, readInt_cut]
  simp only [Option.getD_some]
  rw [if_pos (by omega), Int.toNat_natCast]
  by_cases hkp : f.points.length * dim < k
  · rw [readVertices_all ofInt false dim hdim _ f.points hf.coords _ _ _ (by omega)]
    simp only
    obtain ⟨j, hj⟩ : ∃ j, k - f.points.length * dim = j + 1 := ⟨k - f.points.length * dim - 1, by omega⟩
    rw [hj, good_cut, if_pos rfl, readInt_cut]
    simp only [Option.getD_some, Int.toNat_natCast]
    have h0 := addPoints_spec T ofInt f.points [] Mesh.empty (netInv_empty T)
    rw [List.nil_append] at h0
    exact readCells_cut hT.lib.wf hT.closed hn f.cells [] _ _
      (fun c hc => by
        have := hf.cells c hc
        simpa using this) h0 (by omega)
  · rcases readVertices_cut ofInt dim (.int f.cells.length :: f.cells.flatMap netCell) f.points hf.coords k 0
      Mesh.empty with h | ⟨m', h⟩
    · rw [h]
    · rw [h]
      have : k - f.points.length * dim = 0 := by omega
      simp [this, good_end]

example : readNetgen (fun i => (i : Rat)) (simplexTopo 2) 2 (netSquare.words.take 13) false = .error .throws :=
  C59_truncated_partial (Or.inl ⟨2, rfl⟩) (by decide) _ (by decide) netSquare_ok (by decide) (by decide)

/-- The vertices of the cells which are read, for inspection. -/
def cellsRead (r : Except ReadFail (SegState (List Rat))) (n : Nat) : Option (List (List Nat)) :=
  match r with
  | .ok st => some ((st.mesh.elems n).map (·.verts))
  | .error _ => none

/-- How reading failed, for inspection. -/
def failure (r : Except ReadFail (SegState (List Rat))) : Option ReadFail :=
  match r with
  | .ok _ => none
  | .error e => some e

/-- **C59** fails: without the last word, but with a line break at its end, the file is read without an exception; the last
triangle gets the same vertex twice. -/
theorem C59_violated_cell :
    cellsRead (readNetgen (fun i => (i : Rat)) (simplexTopo 2) 2 netSquare.words.dropLast true) 2 =
      some [[0, 1, 2], [1, 3, 3]] := by decide +kernel

/-- **C59** fails: if the file ends with a line break after the points, it is read without an exception as a file without
cells. -/
theorem C59_violated_no_cells :
    cellsRead (readNetgen (fun i => (i : Rat)) (simplexTopo 2) 2 (netSquare.words.take 9) true) 2 = some [] := by
  decide +kernel

/-- **C59** fails: if the file ends with a line break after the segment of a cell, an uninitialised variable is used as
index of a vertex. -/
theorem C59_violated_undefined :
    failure (readNetgen (fun i => (i : Rat)) (simplexTopo 2) 2 (netSquare.words.take 11) true) = some .undefined := by
  decide +kernel

/-- **C59** fails: an empty file is not rejected with an exception, but runs into an assertion. -/
theorem C59_violated_empty (ofInt : Int → C) (T : Topo) (dim : Nat) (trail : Bool) :
    readNetgen ofInt T dim [] trail = .error .assertion := by
  simp [readNetgen, TokIn.readInt]

end VG
