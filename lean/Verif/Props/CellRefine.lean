import Verif.Lemmas.CellRefine
import Verif.Props.Uniform
import Verif.Props.RefineEdges

/-!
C109: `cell_refine`, refinement of marked cells.

Specification.  `flag` tells which cells are marked.  The new cells that come from cell `t` are those with the numbers
`first t, ..., first (t + 1) - 1`.  Points are given by their coordinates, `halfway` as in C102.
-/

namespace VG

/-- The edge belongs to a marked cell. -/
def onMarked {P : Type} (n : Nat) (m : Mesh P) (flag : Nat → Bool) (e : Nat) : Bool :=
  (List.range (m.count n)).any fun t => flag t && decide (e ∈ m.bndOf n t 1)

/-- What `cell_refine` does to all cells: the new cells come from the cells one after the other, at least one from each, and are in its
segments.  Their corners are corners of the cell, or in the middle of an edge of the cell that belongs to a marked cell.  If there is no such
edge the cell is copied.  The vertices are those of the cells and one for each edge of a marked cell. -/
structure CellsRefined {K : Type} [Field K] (n : Nat) (src out : SegState (Nat → K)) (flag : Nat → Bool) (first : Nat → Nat) : Prop where
  reached : SegReached (simplexTopo n) out
  start : first 0 = 0
  count : out.mesh.count n = first (src.mesh.count n)
  some_child : ∀ t < src.mesh.count n, first t < first (t + 1)
  segments : ∀ t < src.mesh.count n, ∀ i, first t ≤ i → i < first (t + 1) → ∀ g, g ∈ out.segmentIds n i ↔ g ∈ src.segmentIds n t
  corners : ∀ t < src.mesh.count n, ∀ i, first t ≤ i → i < first (t + 1) → (cellPoints out.mesh n i).length = n + 1 ∧
    ∀ q ∈ cellPoints out.mesh n i, q ∈ cellPoints src.mesh n t ∨
      ∃ e ∈ src.mesh.bndOf n t 1, onMarked n src.mesh flag e = true ∧ ∃ a b, cellPoints src.mesh 1 e = [a, b] ∧ q = halfway a b
  copied : ∀ t < src.mesh.count n, (∀ e ∈ src.mesh.bndOf n t 1, onMarked n src.mesh flag e = false) →
    first (t + 1) = first t + 1 ∧ cellPoints out.mesh n (first t) = cellPoints src.mesh n t
  vertices : ∃ used edges : List Nat, used.Nodup ∧ (∀ v, v ∈ used ↔ ∃ t < src.mesh.count n, v ∈ src.mesh.vertsOf n t) ∧
    edges.Nodup ∧ (∀ e, e ∈ edges ↔ onMarked n src.mesh flag e = true) ∧ out.mesh.verts.length = used.length + edges.length

section
variable {P : Type}

theorem onMarked_iff {n : Nat} {m : Mesh P} {flag : Nat → Bool} {e : Nat} :
    onMarked n m flag e = true ↔ ∃ t < m.count n, flag t = true ∧ e ∈ m.bndOf n t 1 := by
  simp [onMarked]

theorem edgeFlags_eq (n : Nat) (m : Mesh P) (flag : Nat → Bool) : edgeFlags (simplexTopo n) m flag = onMarked n m flag := by
  funext e
  rw [Bool.eq_iff_iff, onMarked_iff]
  unfold edgeFlags
  rw [C36_cell_marks]
  have hcd : (simplexTopo n).cellDim = n := rfl
  rw [hcd]
  constructor
  · rintro (h | ⟨c, hc, h1, h2⟩)
    · cases h
    · obtain ⟨t, ht, rfl⟩ := List.mem_map.1 hc
      exact ⟨t, List.mem_range.1 ht, h1, h2⟩
  · rintro ⟨t, ht, h1, h2⟩
    exact Or.inr ⟨_, List.mem_map.2 ⟨t, List.mem_range.2 ht, rfl⟩, h1, h2⟩

variable {K : Type} [Field K]

theorem cells_refined {n : Nat} (hn : 2 ≤ n) {src : SegState (Nat → K)} (hsrc : SegReached (simplexTopo n) src) (flag : Nat → Bool)
    {kids : List (Option (Vtx (Nat → K))) → (Nat → Bool) → Option (List (List Nat))} {Q : (Nat → Bool) → List (List Nat) → Prop}
    (hk : KidsOK (fun _ m cells => Q m cells ∧ cells ≠ [] ∧ ((∀ q < (edgeIdx (n + 1)).length, m q = false) → cells = [List.range (n + 1)]) ∧
      ∀ c ∈ cells, ∀ l ∈ c, l < n + 1 ∨ (n + 1 ≤ l ∧ l < n + 1 + (edgeIdx (n + 1)).length ∧ m (l - (n + 1)) = true))
      (n + 1) (edgeIdx (n + 1)).length kids) (hlen : ∀ m cells, Q m cells → ∀ c ∈ cells, c.length = n + 1) :
    ∃ (r : RefSt (Nat → K)) (C : Nat → List (List Nat)) (first : Nat → Nat),
      cellRefine (simplexTopo n) src kids flag = some r ∧ CellsRefined n src r.out flag first ∧
      (∀ t, first (t + 1) = first t + (C t).length) ∧
      (∀ t < src.mesh.count n, Q (fun i => onMarked n src.mesh flag ((src.mesh.bndOf n t 1).getD i 0)) (C t)) ∧
      ∀ t < src.mesh.count n, ∀ (j : Nat) (ls : List Nat), (C t)[j]? = some ls →
        cellPoints r.out.mesh n (first t + j) = ls.map (midLabel n (src.mesh.corner n t)) := by
  have hI := hsrc.inv (simplexTopo_wf n) (simplexTopo_closed n)
  obtain ⟨o1, o2, _, _⟩ := C99_each_once (simplexTopo n) src.mesh 1
  have hvalid : ∀ e, onMarked n src.mesh flag e = true → e < src.mesh.count 1 := by
    intro e he
    obtain ⟨t, _, _, h⟩ := onMarked_iff.1 he
    exact bndOf_valid hI.mesh h
  obtain ⟨r, C, R, e1, hreach, _, hcount, hkids, hparts, hQ⟩ := refine_parts hn hsrc hk
    (onMarked n src.mesh flag) o1 (fun e he => (o2 e).2 he)
  obtain ⟨used, u1, u2, u3⟩ := refine_vertices hn hsrc hk (onMarked n src.mesh flag) o1 (fun e he => (o2 e).2 he) e1
  have hat : ∀ t < src.mesh.count n, ∀ (j : Nat) (ls : List Nat), (C t)[j]? = some ls →
      r.kids[blockStart (fun t => (C t).map (fun ls => (t, ls))) t + j]? = some (t, ls) := by
    intro t ht j ls hj
    rw [hkids, flatMap_blocks _ _ t ht j (by rw [List.length_map]; exact (List.getElem?_eq_some_iff.1 hj).1), List.getElem?_map, hj]
    rfl
  have hstep : ∀ t, blockStart (fun t => (C t).map (fun ls => (t, ls))) (t + 1) =
      blockStart (fun t => (C t).map (fun ls => (t, ls))) t + (C t).length := by
    intro t; rw [blockStart_succ, List.length_map]
  have hchild : ∀ t < src.mesh.count n, ∀ i, blockStart (fun t => (C t).map (fun ls => (t, ls))) t ≤ i →
      i < blockStart (fun t => (C t).map (fun ls => (t, ls))) (t + 1) → ∃ ls ∈ C t, r.kids[i]? = some (t, ls) := by
    intro t ht i h1 h2
    rw [hstep] at h2
    obtain ⟨j, rfl⟩ := Nat.exists_eq_add_of_le h1
    have hj : j < (C t).length := by omega
    exact ⟨(C t)[j], List.getElem_mem hj, hat t ht j _ (List.getElem?_eq_getElem hj)⟩
  have hpts : ∀ t < src.mesh.count n, ∀ (j : Nat) (ls : List Nat), (C t)[j]? = some ls →
      cellPoints r.out.mesh n (blockStart (fun t => (C t).map (fun ls => (t, ls))) t + j) = ls.map (midLabel n (src.mesh.corner n t)) :=
    fun t ht j ls hj => cellPoints_eq (hparts _ _ _ (hat t ht j ls hj)).2.1
  refine ⟨r, C, blockStart (fun t => (C t).map (fun ls => (t, ls))), by unfold cellRefine; rw [edgeFlags_eq]; exact e1,
    ⟨hreach, rfl, by rw [hcount, hkids]; rfl, fun t ht => ?_, fun t ht i h1 h2 => ?_, fun t ht i h1 h2 => ?_, fun t ht hno => ?_, ?_⟩,
    hstep, fun t ht => (hQ t ht).1, hpts⟩
  · have := List.length_pos_iff.2 (hQ t ht).2.1
    rw [hstep]; omega
  · obtain ⟨ls, _, h⟩ := hchild t ht i h1 h2
    exact (hparts _ _ _ h).2.2
  · obtain ⟨ls, hls, h⟩ := hchild t ht i h1 h2
    rw [cellPoints_eq (hparts _ _ _ h).2.1]
    refine ⟨by rw [List.length_map]; exact hlen _ _ (hQ t ht).1 ls hls, fun q hq => ?_⟩
    obtain ⟨l, hl, rfl⟩ := List.mem_map.1 hq
    rcases (hQ t ht).2.2.2 ls hls l hl with h3 | ⟨h3, h4, h5⟩
    · left
      rw [cellPoints_src hn hI.mesh ht]
      refine List.mem_map.2 ⟨l, List.mem_range.2 h3, ?_⟩
      unfold midLabel
      rw [if_pos h3]
    · right
      obtain ⟨p, rfl⟩ := Nat.exists_eq_add_of_le h3
      rw [Nat.add_sub_cancel_left] at h5
      have hp : p < (src.mesh.bndOf n t 1).length := by rw [(simplex_edge hn hI.mesh ht).1]; omega
      beta_reduce at h5
      rw [List.getD_eq_getElem _ _ hp] at h5
      obtain ⟨a, b, h6, h7⟩ := edge_ends hn hI.mesh ht (List.getElem?_eq_getElem hp)
      refine ⟨_, List.getElem_mem hp, h5, a, b, h6, ?_⟩
      rw [← edgeMid_spec hn hI.mesh ht (List.getElem?_eq_getElem hp), h7]
      rfl
  · have hC : C t = [List.range (n + 1)] := (hQ t ht).2.2.1 (fun q hq => by
      have hp : q < (src.mesh.bndOf n t 1).length := by rw [(simplex_edge hn hI.mesh ht).1]; exact hq
      beta_reduce
      rw [List.getD_eq_getElem _ _ hp]
      exact hno _ (List.getElem_mem hp))
    refine ⟨by rw [hstep, hC]; rfl, ?_⟩
    have := hpts t ht 0 (List.range (n + 1)) (by rw [hC]; rfl)
    rw [Nat.add_zero] at this
    rw [this, cellPoints_src hn hI.mesh ht]
    refine List.map_congr_left fun l hl => ?_
    unfold midLabel
    rw [if_pos (List.mem_range.1 hl)]
  · refine ⟨used, _, u1, u2, o1.filter _, fun e => ?_, u3⟩
    rw [List.mem_filter]
    exact ⟨fun h => h.2, fun h => ⟨(o2 e).2 (hvalid e h), h⟩⟩

omit [Field K] in
theorem marked_edges {n : Nat} (hn : 2 ≤ n) {m : Mesh (Nat → K)} (hI : Inv (simplexTopo n) m) {flag : Nat → Bool} {t : Nat}
    (ht : t < m.count n) (hf : flag t = true) : ∀ q < (edgeIdx (n + 1)).length, onMarked n m flag ((m.bndOf n t 1).getD q 0) = true := by
  intro q hq
  have hp : q < (m.bndOf n t 1).length := by rw [(simplex_edge hn hI ht).1]; exact hq
  rw [List.getD_eq_getElem _ _ hp]
  exact onMarked_iff.2 ⟨t, ht, hf, List.getElem_mem hp⟩

/-- Sum over the children of a cell. -/
theorem sum_children {α : Type} (l : List α) (F : Nat → K) (f : α → K) (h : ∀ (j : Nat) a, l[j]? = some a → F j = f a) :
    ((List.range l.length).map F).sum = (l.map f).sum := by
  congr 1
  refine List.ext_getElem? fun i => ?_
  simp only [List.getElem?_map]
  by_cases hi : i < l.length
  · rw [List.getElem?_eq_getElem hi, List.getElem?_eq_getElem (by simpa using hi)]
    simp [h i _ (List.getElem?_eq_getElem hi)]
  · rw [List.getElem?_eq_none (l := l) (by omega), List.getElem?_eq_none (by simp; omega)]; rfl

end

section
variable {K : Type} [Field K] [LinearOrder K] [IsStrictOrderedRing K]

/-- C109, triangles: for every mesh of triangles after any history of creations and additions, and all flags, `cell_refine` into an empty mesh
succeeds.  A marked triangle is replaced by the one at each corner, half as large, and the one in the middle.  From any triangle come one more
triangles than it has edges that belong to marked triangles, and they have together its area. -/
theorem C109_triangles {src : SegState (Nat → K)} (hsrc : SegReached (simplexTopo 2) src) (dist : (Nat → K) → (Nat → K) → K)
    (flag : Nat → Bool) :
    ∃ (r : RefSt (Nat → K)) (first : Nat → Nat), cellRefine (simplexTopo 2) src (triKids dist) flag = some r ∧
      CellsRefined 2 src r.out flag first ∧
      (∀ t < src.mesh.count 2,
        first (t + 1) = first t + 1 + ((src.mesh.bndOf 2 t 1).filter (onMarked 2 src.mesh flag)).length) ∧
      (∀ t < src.mesh.count 2, flag t = true → first (t + 1) = first t + 4 ∧ ∃ a b c, cellPoints src.mesh 2 t = [a, b, c] ∧
        cellPoints r.out.mesh 2 (first t) = [a, b, c].map (halfway a) ∧
        cellPoints r.out.mesh 2 (first t + 1) = [a, b, c].map (halfway b) ∧
        cellPoints r.out.mesh 2 (first t + 2) = [a, b, c].map (halfway c) ∧
        (cellPoints r.out.mesh 2 (first t + 3)).Perm (turned [a, b, c])) ∧
      ∀ mu : (Nat → Nat → K) → K, (∀ s M, 0 < s → mu (fun k l => s * M k l) = s * mu M) → ∀ t < src.mesh.count 2,
        ((List.range (first (t + 1) - first t)).map fun j => triMeasure mu (cellPoints r.out.mesh 2 (first t + j))).sum =
          triMeasure mu (cellPoints src.mesh 2 t) := by
  have hI := hsrc.inv (simplexTopo_wf 2) (simplexTopo_closed 2)
  have he : (edgeIdx (2 + 1)).length = 3 := by decide
  have hkids : KidsOK (fun _ m cells => (TriParts (K := K) cells ∧ ((∀ q < 3, m q = true) → cells = [[0, 3, 4], [3, 1, 5], [4, 5, 2], [4, 3, 5]]) ∧
      cells.length = 1 + ((List.range 3).filter m).length) ∧ cells ≠ [] ∧
      ((∀ q < (edgeIdx (2 + 1)).length, m q = false) → cells = [List.range (2 + 1)]) ∧
      ∀ c ∈ cells, ∀ l ∈ c, l < 2 + 1 ∨ (2 + 1 ≤ l ∧ l < 2 + 1 + (edgeIdx (2 + 1)).length ∧ m (l - (2 + 1)) = true))
      (2 + 1) (edgeIdx (2 + 1)).length (triKids dist) := by
    rw [he]
    intro ls m hx hinj
    obtain ⟨cells, h1, ⟨h2, h3, h4, h5, h6⟩, h7⟩ := triKids_all dist ls m hx hinj
    exact ⟨cells, h1, ⟨⟨h2, h3, h4⟩, by rintro rfl; simp at h4; omega, h5, h6⟩, h7⟩
  obtain ⟨r, C, first, e1, h1, h2, h3, h4⟩ := cells_refined (n := 2) (by omega) hsrc flag hkids (fun m cells h c hc => (h.1.1 c hc).1)
  have hsrcPts : ∀ t < src.mesh.count 2, cellPoints src.mesh 2 t =
      [src.mesh.corner 2 t 0, src.mesh.corner 2 t 1, src.mesh.corner 2 t 2] := by
    intro t ht; rw [cellPoints_src (by omega) hI.mesh ht]; rfl
  refine ⟨r, first, e1, h1, fun t ht => ?_, fun t ht hf => ?_, fun mu hmu t ht => ?_⟩
  · rw [h2, (h3 t ht).2.2, Nat.add_assoc]
    congr 2
    have hl : (src.mesh.bndOf 2 t 1).length = 3 := by rw [(simplex_edge (by omega) hI.mesh ht).1, he]
    generalize src.mesh.bndOf 2 t 1 = es at hl
    match es, hl with
    | [a, b, c], _ =>
      have hr : List.range 3 = [0, 1, 2] := rfl
      rw [hr]
      cases ha : onMarked 2 src.mesh flag a <;> cases hb : onMarked 2 src.mesh flag b <;> cases hc : onMarked 2 src.mesh flag c <;>
        simp [ha, hb, hc]
  · have hU := (h3 t ht).2.1 (fun q hq => marked_edges (by omega) hI.mesh ht hf q (by rw [he]; exact hq))
    refine ⟨by rw [h2, hU]; rfl, src.mesh.corner 2 t 0, src.mesh.corner 2 t 1, src.mesh.corner 2 t 2, hsrcPts t ht, ?_, ?_, ?_, ?_⟩
    · rw [← Nat.add_zero (first t), h4 t ht 0 _ (by rw [hU]; rfl)]
      simp only [List.map_cons, List.map_nil, midLabel_tri _ (show 0 < 6 by omega), midLabel_tri _ (show 3 < 6 by omega), midLabel_tri _ (show 4 < 6 by omega)]
      congr 1
      · funext k; simp only [triPoint, halfway]; ring
      · congr 1
        · funext k; simp only [triPoint, halfway]; ring
        · congr 1; funext k; simp only [triPoint, halfway]; ring
    · rw [h4 t ht 1 _ (by rw [hU]; rfl)]
      simp only [List.map_cons, List.map_nil, midLabel_tri _ (show 3 < 6 by omega), midLabel_tri _ (show 1 < 6 by omega), midLabel_tri _ (show 5 < 6 by omega)]
      congr 1
      · funext k; simp only [triPoint, halfway]; ring
      · congr 1
        · funext k; simp only [triPoint, halfway]; ring
        · congr 1; funext k; simp only [triPoint, halfway]; ring
    · rw [h4 t ht 2 _ (by rw [hU]; rfl)]
      simp only [List.map_cons, List.map_nil, midLabel_tri _ (show 4 < 6 by omega), midLabel_tri _ (show 5 < 6 by omega), midLabel_tri _ (show 2 < 6 by omega)]
      congr 1
      · funext k; simp only [triPoint, halfway]; ring
      · congr 1
        · funext k; simp only [triPoint, halfway]; ring
        · congr 1; funext k; simp only [triPoint, halfway]; ring
    · rw [h4 t ht 3 _ (by rw [hU]; rfl)]
      have : turned [src.mesh.corner 2 t 0, src.mesh.corner 2 t 1, src.mesh.corner 2 t 2] =
          [midLabel 2 (src.mesh.corner 2 t) 5, midLabel 2 (src.mesh.corner 2 t) 4, midLabel 2 (src.mesh.corner 2 t) 3] := by
        simp only [turned, List.map_cons, List.map_nil, List.sum_cons, List.sum_nil, midLabel_tri _ (show 3 < 6 by omega),
          midLabel_tri _ (show 4 < 6 by omega), midLabel_tri _ (show 5 < 6 by omega)]
        congr 1
        · funext k; simp only [triPoint]; ring
        · congr 1
          · funext k; simp only [triPoint]; ring
          · congr 1; funext k; simp only [triPoint]; ring
      rw [this]
      simp only [List.map_cons, List.map_nil]
      exact ((List.Perm.swap _ _ _).trans ((List.Perm.cons _ (List.Perm.swap _ _ _)).trans ((List.Perm.swap _ _ _).trans (List.Perm.cons _ (List.Perm.swap _ _ _))))).trans
        (List.Perm.refl _)
  · obtain ⟨⟨p1, share, s1, s2, s3⟩, _⟩ := h3 t ht
    rw [h2, Nat.add_sub_cancel_left, sum_children (C t) _ (fun ls => share ls * triMeasure mu (cellPoints src.mesh 2 t)) (fun j ls hj => ?_)]
    · have := sum_map_mul ((C t).map share) (triMeasure mu (cellPoints src.mesh 2 t))
      rw [s2, one_mul, List.map_map] at this
      exact this
    · have hm := List.mem_of_getElem? hj
      obtain ⟨l1, l2⟩ := p1 ls hm
      have h5 := s3 (src.mesh.corner 2 t) ls hm
      rw [h4 t ht j ls hj, hsrcPts t ht]
      match ls, l1, h5, hm with
      | [a, b, c], _, h5, hm =>
        simp only [List.map_cons, List.map_nil, triMeasure]
        rw [midLabel_tri _ (l2 a (by simp)), midLabel_tri _ (l2 b (by simp)), midLabel_tri _ (l2 c (by simp)), ← hmu _ _ (s1 _ hm)]
        congr 1
        funext k l
        exact h5 k l

/-- C109, tetrahedra: a marked tetrahedron is replaced by eight, each with an eighth of the volume, among them the half as large one at each
corner.  The tetrahedra that come from any tetrahedron have together its volume, and no one has volume zero if it has not. -/
theorem C109_tetrahedra {src : SegState (Nat → K)} (hsrc : SegReached (simplexTopo 3) src) {dist : (Nat → K) → (Nat → K) → K}
    (hd : ∀ a b, dist a b = dist b a) (flag : Nat → Bool) :
    ∃ (r : RefSt (Nat → K)) (first : Nat → Nat), cellRefine (simplexTopo 3) src (tetKids dist) flag = some r ∧
      CellsRefined 3 src r.out flag first ∧
      (∀ t < src.mesh.count 3, flag t = true → first (t + 1) = first t + 8 ∧
        (∀ j < 8, tetVol (cellPoints r.out.mesh 3 (first t + j)) = tetVol (cellPoints src.mesh 3 t) / 8) ∧
        ∀ a ∈ cellPoints src.mesh 3 t, ∃ j < 8,
          (cellPoints r.out.mesh 3 (first t + j)).Perm ((cellPoints src.mesh 3 t).map (halfway a))) ∧
      ∀ t < src.mesh.count 3,
        ((List.range (first (t + 1) - first t)).map fun j => tetVol (cellPoints r.out.mesh 3 (first t + j))).sum =
          tetVol (cellPoints src.mesh 3 t) ∧
        (0 < tetVol (cellPoints src.mesh 3 t) → ∀ i, first t ≤ i → i < first (t + 1) → 0 < tetVol (cellPoints r.out.mesh 3 i)) := by
  have hI := hsrc.inv (simplexTopo_wf 3) (simplexTopo_closed 3)
  have he : (edgeIdx (3 + 1)).length = 6 := by decide
  have hkids : KidsOK (fun _ m cells => (TetParts (K := K) cells ∧ ((∀ q < 6, m q = true) → UniTet (K := K) cells)) ∧ cells ≠ [] ∧
      ((∀ q < (edgeIdx (3 + 1)).length, m q = false) → cells = [List.range (3 + 1)]) ∧
      ∀ c ∈ cells, ∀ l ∈ c, l < 3 + 1 ∨ (3 + 1 ≤ l ∧ l < 3 + 1 + (edgeIdx (3 + 1)).length ∧ m (l - (3 + 1)) = true))
      (3 + 1) (edgeIdx (3 + 1)).length (tetKids dist) := by
    rw [he]
    intro ls m hx hinj
    obtain ⟨cells, h1, ⟨h2, h3, h4, h5, h6⟩, h7⟩ := tetKids_all hd ls m hx hinj
    exact ⟨cells, h1, ⟨⟨h2, h3⟩, h4, h5, h6⟩, h7⟩
  obtain ⟨r, C, first, e1, h1, h2, h3, h4⟩ := cells_refined (n := 3) (by omega) hsrc flag hkids (fun m cells h c hc => (h.1.1 c hc).1)
  have hpts : ∀ t < src.mesh.count 3, cellPoints src.mesh 3 t =
      [src.mesh.corner 3 t 0, src.mesh.corner 3 t 1, src.mesh.corner 3 t 2, src.mesh.corner 3 t 3] := by
    intro t ht; rw [cellPoints_src (by omega) hI.mesh ht]; rfl
  have hvol : ∀ t < src.mesh.count 3, ∀ (j : Nat) (ls : List Nat), (C t)[j]? = some ls →
      tetVol (cellPoints r.out.mesh 3 (first t + j)) = |childVolume6 (src.mesh.corner 3 t) (fun _ => 1 / 2) ls| / 6 := by
    intro t ht j ls hj
    obtain ⟨l1, l2⟩ := (h3 t ht).1.1 ls (List.mem_of_getElem? hj)
    rw [h4 t ht j ls hj]
    match ls, l1 with
    | [a, b, c, d], _ =>
      simp only [List.map_cons, List.map_nil, tetVol, childVolume6]
      rw [midLabel_tet _ (l2 a (by simp)), midLabel_tet _ (l2 b (by simp)), midLabel_tet _ (l2 c (by simp)), midLabel_tet _ (l2 d (by simp))]
  refine ⟨r, first, e1, h1, fun t ht hf => ?_, fun t ht => ⟨?_, fun hpos i h5 h6 => ?_⟩⟩
  · obtain ⟨u1, u2, u3, u4⟩ := (h3 t ht).2 (fun q hq => marked_edges (by omega) hI.mesh ht hf q (by rw [he]; exact hq))
    refine ⟨by rw [h2, u1], fun j hj => ?_, fun a ha => ?_⟩
    · have hjl : j < (C t).length := by omega
      rw [hvol t ht j _ (List.getElem?_eq_getElem hjl), hpts t ht, u4 (src.mesh.corner 3 t) _ (List.getElem_mem hjl)]
      simp only [tetVol]
      ring
    · have key : ∀ q ∈ tetCornerCells, q.map (midLabel 3 (src.mesh.corner 3 t)) = (cellPoints src.mesh 3 t).map (halfway a) →
          ∃ j < 8, (cellPoints r.out.mesh 3 (first t + j)).Perm ((cellPoints src.mesh 3 t).map (halfway a)) := by
        intro q hq h
        obtain ⟨c, hc, hp⟩ := u3 q hq
        obtain ⟨j, hj, rfl⟩ := List.getElem_of_mem hc
        refine ⟨j, by omega, ?_⟩
        rw [h4 t ht j _ (List.getElem?_eq_getElem hj), ← h]
        exact hp.map _
      have hm : ∀ l < 10, midLabel 3 (src.mesh.corner 3 t) l = labelPoint (src.mesh.corner 3 t) (fun _ => 1 / 2) l := fun l hl => midLabel_tet _ hl
      have h4l : ∀ (a b c d a' b' c' d' : Nat → K), (∀ k, a k = a' k ∧ b k = b' k ∧ c k = c' k ∧ d k = d' k) → [a, b, c, d] = [a', b', c', d'] := by
        intro a b c d a' b' c' d' h
        rw [funext (fun k => (h k).1), funext (fun k => (h k).2.1), funext (fun k => (h k).2.2.1), funext (fun k => (h k).2.2.2)]
      rw [hpts t ht] at ha key ⊢
      simp only [List.mem_cons, List.not_mem_nil, or_false] at ha
      rcases ha with rfl | rfl | rfl | rfl
      · refine key [0, 4, 5, 6] (by decide) ?_
        simp only [List.map_cons, List.map_nil, hm 0 (by omega), hm 4 (by omega), hm 5 (by omega), hm 6 (by omega)]
        exact h4l _ _ _ _ _ _ _ _ (fun k => by simp only [labelPoint, halfway]; refine ⟨?_, ?_, ?_, ?_⟩ <;> ring)
      · refine key [4, 1, 7, 8] (by decide) ?_
        simp only [List.map_cons, List.map_nil, hm 4 (by omega), hm 1 (by omega), hm 7 (by omega), hm 8 (by omega)]
        exact h4l _ _ _ _ _ _ _ _ (fun k => by simp only [labelPoint, halfway]; refine ⟨?_, ?_, ?_, ?_⟩ <;> ring)
      · refine key [5, 7, 2, 9] (by decide) ?_
        simp only [List.map_cons, List.map_nil, hm 5 (by omega), hm 7 (by omega), hm 2 (by omega), hm 9 (by omega)]
        exact h4l _ _ _ _ _ _ _ _ (fun k => by simp only [labelPoint, halfway]; refine ⟨?_, ?_, ?_, ?_⟩ <;> ring)
      · refine key [6, 8, 9, 3] (by decide) ?_
        simp only [List.map_cons, List.map_nil, hm 6 (by omega), hm 8 (by omega), hm 9 (by omega), hm 3 (by omega)]
        exact h4l _ _ _ _ _ _ _ _ (fun k => by simp only [labelPoint, halfway]; refine ⟨?_, ?_, ?_, ?_⟩ <;> ring)
  · rw [h2, Nat.add_sub_cancel_left, sum_children (C t) _ (fun ls => |childVolume6 (src.mesh.corner 3 t) (fun _ => 1 / 2) ls| / 6) (hvol t ht),
      hpts t ht]
    simp only [tetVol]
    rw [← ((h3 t ht).1.2 (src.mesh.corner 3 t)).1]
    have := sum_map_mul ((C t).map (fun c => |childVolume6 (src.mesh.corner 3 t) (fun _ => 1 / 2) c|)) (6 : K)⁻¹
    rw [List.map_map] at this
    rw [div_eq_mul_inv (b := (6 : K)), ← this]
    refine congrArg List.sum (List.map_congr_left (fun c _ => ?_))
    simp only [Function.comp, div_eq_mul_inv (b := (6 : K))]
  · obtain ⟨j, rfl⟩ := Nat.exists_eq_add_of_le h5
    have hj : j < (C t).length := by rw [h2] at h6; omega
    rw [hvol t ht j _ (List.getElem?_eq_getElem hj)]
    rw [hpts t ht] at hpos
    simp only [tetVol] at hpos
    have h7 : tetVolume6 (src.mesh.corner 3 t 0) (src.mesh.corner 3 t 1) (src.mesh.corner 3 t 2) (src.mesh.corner 3 t 3) ≠ 0 := by
      intro h
      rw [h] at hpos
      simp at hpos
    exact div_pos (abs_pos.2 (((h3 t ht).1.2 (src.mesh.corner 3 t)).2 h7 _ (List.getElem_mem hj))) (by norm_num)

/-- C109: the new triangles fit together as in C73, whatever is marked: no hanging nodes. -/
theorem C109_fit_triangles {src : SegState (Nat → K)} (hsrc : SegReached (simplexTopo 2) src)
    (hone : ∀ t < src.mesh.count 2, ∀ t' < src.mesh.count 2, (src.mesh.vertsOf 2 t).Perm (src.mesh.vertsOf 2 t') → t = t')
    (dist : (Nat → K) → (Nat → K) → K) (flag : Nat → Bool) :
    ∃ (r : RefSt (Nat → K)) (origin : Nat → Option Nat), cellRefine (simplexTopo 2) src (triKids dist) flag = some r ∧
      EdgeMap src.mesh r.out.mesh origin :=
  have ⟨o1, o2, _⟩ := C99_each_once (simplexTopo 2) src.mesh 1
  C73_edges hsrc hone dist _ o1 (fun e he => (o2 e).2 he)

/-- C109: the new tetrahedra fit together as in C73. -/
theorem C109_fit_tetrahedra {src : SegState (Nat → K)} (hsrc : SegReached (simplexTopo 3) src)
    (hone : ∀ t < src.mesh.count 3, ∀ t' < src.mesh.count 3, (src.mesh.vertsOf 3 t).Perm (src.mesh.vertsOf 3 t') → t = t')
    {dist : (Nat → K) → (Nat → K) → K} (hd : ∀ a b, dist a b = dist b a) (flag : Nat → Bool) :
    ∃ (r : RefSt (Nat → K)) (origin : Nat → Option Nat), cellRefine (simplexTopo 3) src (tetKids dist) flag = some r ∧
      FacetMap src.mesh r.out.mesh origin :=
  have ⟨o1, o2, _⟩ := C99_each_once (simplexTopo 3) src.mesh 1
  C73_facets hsrc hone hd _ o1 (fun e he => (o2 e).2 he)

omit [LinearOrder K] [IsStrictOrderedRing K] in
/-- C109, with segmentations: if every cell has a record, the result is the same; if a cell has none, the call is undefined. -/
theorem C109_segmentation {n : Nat} {src : SegState (Nat → K)} (hsrc : SegReached (simplexTopo n) src)
    (kids : List (Option (Vtx (Nat → K))) → (Nat → Bool) → Option (List (List Nat))) (flag : Nat → Bool) :
    ((∀ t < src.mesh.count n, HasRecord src n t) → cellRefineSeg (simplexTopo n) src kids flag = cellRefine (simplexTopo n) src kids flag) ∧
    ((∃ t < src.mesh.count n, ¬ HasRecord src n t) → cellRefineSeg (simplexTopo n) src kids flag = none) :=
  ⟨fun h => refineSegMesh_eq hsrc h _ _ _ _, fun ⟨_, ht, hr⟩ => C37_violated (Or.inl ⟨n, rfl⟩) hsrc ht hr _ _ _ _⟩

end

/-- The first of the two triangles of `refinedOps` marked: four new triangles from it and two from the other, seven vertices. -/
example : ∃ src : SegState (Nat → Rat), SegReached (simplexTopo 2) src ∧ src.mesh.count 2 = 2 ∧
    ((cellRefine (simplexTopo 2) src (triKids (fun a b => (a 0 - b 0) ^ 2 + (a 1 - b 1) ^ 2)) (fun t => t == 0)).map
      (fun r => (r.out.mesh.count 2, r.out.mesh.verts.length))) = some (6, 7) := by
  refine ⟨((SegState.empty : SegState (Nat → Rat)).run (simplexTopo 2) refinedOps).getD SegState.empty,
    ⟨refinedOps, ?_, rfl, ?_⟩, by decide +kernel, by decide +kernel⟩
  · intro op hop o ho
    simp only [refinedOps, List.mem_cons, List.not_mem_nil, or_false] at hop
    rcases hop with rfl | rfl | rfl | rfl | rfl | rfl | rfl | rfl | rfl <;>
      (simp [SOp.creation] at ho; try (subst ho; first | trivial | (simp [MOp.Distinct])))
  · unfold UniqueVids; decide +kernel

/-- The second of the two tetrahedra of `uniformOps` marked: eight from it and four from the other; 5 vertices of cells and 6 new ones. -/
example : ∃ src : SegState (Nat → Rat), SegReached (simplexTopo 3) src ∧ src.mesh.count 3 = 2 ∧
    ((cellRefine (simplexTopo 3) src (tetKids (fun a b => (a 0 - b 0) ^ 2 + (a 1 - b 1) ^ 2 + (a 2 - b 2) ^ 2)) (fun t => t == 1)).map
      (fun r => (r.out.mesh.count 3, r.out.mesh.verts.length))) = some (12, 11) := by
  refine ⟨((SegState.empty : SegState (Nat → Rat)).run (simplexTopo 3) uniformOps).getD SegState.empty,
    ⟨uniformOps, ?_, rfl, ?_⟩, by decide +kernel, by decide +kernel⟩
  · intro op hop o ho
    simp only [uniformOps, List.mem_cons, List.not_mem_nil, or_false] at hop
    rcases hop with rfl | rfl | rfl | rfl | rfl | rfl | rfl | rfl <;>
      (simp [SOp.creation] at ho; try (subst ho; first | trivial | (simp [MOp.Distinct])))
  · unfold UniqueVids; decide +kernel

end VG
