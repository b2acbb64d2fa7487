import Verif.Lemmas.UniformKids

/-!
C102: `cell_refine_uniformly`.

Specification.  Points are given by their coordinates.  `halfway a q` is the point in the middle of `a` and `q`; the cell at
the corner `a` of a cell with points `ps` has the points `halfway a q` for `q` in `ps`.
-/

namespace VG

section
variable {K : Type} [Field K]

/-- The point in the middle of two points. -/
def halfway (a q : Nat → K) : Nat → K := fun k => (a k + q k) / 2

/-- The points `(s - q) / 2` for `q` in the list, where `s` is the sum of the list: the midpoints opposite to each corner of a triangle. -/
def turned (ps : List (Nat → K)) : List (Nat → K) := ps.map (fun q k => ((ps.map (fun p => p k)).sum - q k) / 2)

variable [LinearOrder K] [IsStrictOrderedRing K]

/-- C102, triangles: for every mesh of triangles after any history of creations and additions, uniform refinement into an
empty mesh succeeds.  In place of cell `t` there are the four cells `4 t, ..., 4 t + 3`, and no others: one at each corner of the
cell, half as large, and the one in the middle, half as large and turned.  They are in the segments of `t`.  The vertices are those of
the cells and one for each edge. -/
theorem C102_triangles {src : SegState (Nat → K)} (hsrc : SegReached (simplexTopo 2) src) (dist : (Nat → K) → (Nat → K) → K) :
    ∃ r : RefSt (Nat → K), uniformRefine (simplexTopo 2) src (triKids dist) = some r ∧ SegReached (simplexTopo 2) r.out ∧
      r.out.mesh.count 2 = 4 * src.mesh.count 2 ∧
      (∀ t < src.mesh.count 2, ∃ a b c, cellPoints src.mesh 2 t = [a, b, c] ∧
        cellPoints r.out.mesh 2 (4 * t) = [a, b, c].map (halfway a) ∧
        cellPoints r.out.mesh 2 (4 * t + 1) = [a, b, c].map (halfway b) ∧
        cellPoints r.out.mesh 2 (4 * t + 2) = [a, b, c].map (halfway c) ∧
        (cellPoints r.out.mesh 2 (4 * t + 3)).Perm (turned [a, b, c]) ∧
        ∀ j < 4, ∀ g, g ∈ r.out.segmentIds 2 (4 * t + j) ↔ g ∈ src.segmentIds 2 t) ∧
      ∃ used : List Nat, used.Nodup ∧ (∀ v, v ∈ used ↔ ∃ t < src.mesh.count 2, v ∈ src.mesh.vertsOf 2 t) ∧
        r.out.mesh.verts.length = used.length + src.mesh.count 1 := by
  have hI := hsrc.inv (simplexTopo_wf 2) (simplexTopo_closed 2)
  have he : (edgeIdx (2 + 1)).length = 3 := by decide
  obtain ⟨r, C, e1, h1, h2, hU, h3, h4⟩ := uniform_parts (n := 2) (c := 4) (by omega) hsrc
    (U := fun cells => cells = [[0, 3, 4], [3, 1, 5], [4, 5, 2], [4, 3, 5]]) (fun cells h => by rw [h]; rfl) (he ▸ triKids_uni dist)
  refine ⟨r, e1, h1, h2, fun t ht => ⟨src.mesh.corner 2 t 0, src.mesh.corner 2 t 1, src.mesh.corner 2 t 2, ?_, ?_, ?_, ?_, ?_, ?_⟩, h4⟩
  · rw [cellPoints_src (by omega) hI.mesh ht]; rfl
  · rw [← Nat.add_zero (4 * t), (h3 t ht 0 _ (by rw [hU t ht]; rfl)).1]
    simp only [List.map_cons, List.map_nil, midLabel_tri _ (show 0 < 6 by omega), midLabel_tri _ (show 3 < 6 by omega), midLabel_tri _ (show 4 < 6 by omega)]
    congr 1
    · funext k; simp only [triPoint, halfway]; ring
    · congr 1
      · funext k; simp only [triPoint, halfway]; ring
      · congr 1; funext k; simp only [triPoint, halfway]; ring
  · rw [(h3 t ht 1 _ (by rw [hU t ht]; rfl)).1]
    simp only [List.map_cons, List.map_nil, midLabel_tri _ (show 3 < 6 by omega), midLabel_tri _ (show 1 < 6 by omega), midLabel_tri _ (show 5 < 6 by omega)]
    congr 1
    · funext k; simp only [triPoint, halfway]; ring
    · congr 1
      · funext k; simp only [triPoint, halfway]; ring
      · congr 1; funext k; simp only [triPoint, halfway]; ring
  · rw [(h3 t ht 2 _ (by rw [hU t ht]; rfl)).1]
    simp only [List.map_cons, List.map_nil, midLabel_tri _ (show 4 < 6 by omega), midLabel_tri _ (show 5 < 6 by omega), midLabel_tri _ (show 2 < 6 by omega)]
    congr 1
    · funext k; simp only [triPoint, halfway]; ring
    · congr 1
      · funext k; simp only [triPoint, halfway]; ring
      · congr 1; funext k; simp only [triPoint, halfway]; ring
  · rw [(h3 t ht 3 _ (by rw [hU t ht]; rfl)).1]
    have : turned [src.mesh.corner 2 t 0, src.mesh.corner 2 t 1, src.mesh.corner 2 t 2] =
        [midLabel 2 (src.mesh.corner 2 t) 5, midLabel 2 (src.mesh.corner 2 t) 4, midLabel 2 (src.mesh.corner 2 t) 3] := by
      simp only [turned, List.map_cons, List.map_nil, List.sum_cons, List.sum_nil, midLabel_tri _ (show 3 < 6 by omega),
        midLabel_tri _ (show 4 < 6 by omega), midLabel_tri _ (show 5 < 6 by omega)]
      congr 1
      · funext k; simp only [triPoint]; ring
      · congr 1
        · funext k; simp only [triPoint]; ring
        · congr 1; funext k; simp only [triPoint]; ring
    rw [this]
    simp only [List.map_cons, List.map_nil]
    exact ((List.Perm.swap _ _ _).trans ((List.Perm.cons _ (List.Perm.swap _ _ _)).trans ((List.Perm.swap _ _ _).trans (List.Perm.cons _ (List.Perm.swap _ _ _))))).trans
      (List.Perm.refl _)
  · intro j hj g
    obtain ⟨ls, hls⟩ : ∃ ls, (C t)[j]? = some ls :=
      ⟨_, List.getElem?_eq_getElem (by rw [hU t ht]; exact hj)⟩
    exact (h3 t ht j ls hls).2 g

/-- C102, tetrahedra: in place of cell `t` there are the eight cells `8 t, ..., 8 t + 7`, and no others, each with an eighth of the
volume; for each corner the half as large cell at that corner is one of them.  They are in the segments of `t`.  The vertices are those
of the cells and one for each edge. -/
theorem C102_tetrahedra {src : SegState (Nat → K)} (hsrc : SegReached (simplexTopo 3) src) {dist : (Nat → K) → (Nat → K) → K}
    (hd : ∀ a b, dist a b = dist b a) :
    ∃ r : RefSt (Nat → K), uniformRefine (simplexTopo 3) src (tetKids dist) = some r ∧ SegReached (simplexTopo 3) r.out ∧
      r.out.mesh.count 3 = 8 * src.mesh.count 3 ∧
      (∀ t < src.mesh.count 3, (cellPoints src.mesh 3 t).length = 4 ∧
        (∀ j < 8, tetVol (cellPoints r.out.mesh 3 (8 * t + j)) = tetVol (cellPoints src.mesh 3 t) / 8 ∧
          (∀ q ∈ cellPoints r.out.mesh 3 (8 * t + j), CornerOrMid (cellPoints src.mesh 3 t) q) ∧
          ∀ g, g ∈ r.out.segmentIds 3 (8 * t + j) ↔ g ∈ src.segmentIds 3 t) ∧
        ∀ a ∈ cellPoints src.mesh 3 t, ∃ j < 8,
          (cellPoints r.out.mesh 3 (8 * t + j)).Perm ((cellPoints src.mesh 3 t).map (halfway a))) ∧
      ∃ used : List Nat, used.Nodup ∧ (∀ v, v ∈ used ↔ ∃ t < src.mesh.count 3, v ∈ src.mesh.vertsOf 3 t) ∧
        r.out.mesh.verts.length = used.length + src.mesh.count 1 := by
  have hI := hsrc.inv (simplexTopo_wf 3) (simplexTopo_closed 3)
  have he : (edgeIdx (3 + 1)).length = 6 := by decide
  obtain ⟨r, C, e1, h1, h2, hU, h3, h4⟩ := uniform_parts (n := 3) (c := 8) (by omega) hsrc
    (U := fun cells => UniTet (K := K) cells) (fun cells h => h.1) (he ▸ tetKids_uni hd)
  have hpts : ∀ t < src.mesh.count 3, cellPoints src.mesh 3 t =
      [src.mesh.corner 3 t 0, src.mesh.corner 3 t 1, src.mesh.corner 3 t 2, src.mesh.corner 3 t 3] := by
    intro t ht; rw [cellPoints_src (by omega) hI.mesh ht]; rfl
  refine ⟨r, e1, h1, h2, fun t ht => ⟨by rw [hpts t ht]; rfl, fun j hj => ?_, fun a ha => ?_⟩, h4⟩
  · obtain ⟨u1, u2, _, u4⟩ := hU t ht
    have hjl : j < (C t).length := by omega
    have hls := List.getElem?_eq_getElem hjl
    have hmem := List.getElem_mem hjl
    generalize (C t)[j] = ls at hls hmem
    obtain ⟨h5, h6⟩ := h3 t ht j ls hls
    obtain ⟨l1, l2⟩ := u2 ls hmem
    refine ⟨?_, fun q hq => ?_, h6⟩
    · have h7 := u4 (src.mesh.corner 3 t) ls hmem
      rw [h5, hpts t ht]
      match ls, l1 with
      | [a, b, c, d], _ =>
        simp only [List.map_cons, List.map_nil, tetVol, childVolume6] at h7 ⊢
        rw [midLabel_tet _ (l2 a (by simp)), midLabel_tet _ (l2 b (by simp)), midLabel_tet _ (l2 c (by simp)),
          midLabel_tet _ (l2 d (by simp)), h7]
        ring
    · rw [h5] at hq
      obtain ⟨l, hl, rfl⟩ := List.mem_map.1 hq
      rw [cellPoints_src (by omega) hI.mesh ht]
      exact midLabel_mem (by rw [he]; have := l2 l hl; omega)
  · obtain ⟨u1, _, u3, _⟩ := hU t ht
    have key : ∀ q ∈ tetCornerCells, q.map (midLabel 3 (src.mesh.corner 3 t)) = (cellPoints src.mesh 3 t).map (halfway a) →
        ∃ j < 8, (cellPoints r.out.mesh 3 (8 * t + j)).Perm ((cellPoints src.mesh 3 t).map (halfway a)) := by
      intro q hq h
      obtain ⟨c, hc, hp⟩ := u3 q hq
      obtain ⟨j, hj, rfl⟩ := List.getElem_of_mem hc
      refine ⟨j, by omega, ?_⟩
      rw [(h3 t ht j _ (List.getElem?_eq_getElem hj)).1, ← h]
      exact hp.map _
    have hm : ∀ l < 10, midLabel 3 (src.mesh.corner 3 t) l = labelPoint (src.mesh.corner 3 t) (fun _ => 1 / 2) l := fun l hl => midLabel_tet _ hl
    have h4l : ∀ (a b c d a' b' c' d' : Nat → K), (∀ k, a k = a' k ∧ b k = b' k ∧ c k = c' k ∧ d k = d' k) → [a, b, c, d] = [a', b', c', d'] := by
      intro a b c d a' b' c' d' h
      rw [funext (fun k => (h k).1), funext (fun k => (h k).2.1), funext (fun k => (h k).2.2.1), funext (fun k => (h k).2.2.2)]
    rw [hpts t ht] at ha key ⊢
    simp only [List.mem_cons, List.not_mem_nil, or_false] at ha
    rcases ha with rfl | rfl | rfl | rfl
    · refine key [0, 4, 5, 6] (by decide) ?_
      simp only [List.map_cons, List.map_nil, hm 0 (by omega), hm 4 (by omega), hm 5 (by omega), hm 6 (by omega)]
      exact h4l _ _ _ _ _ _ _ _ (fun k => by simp only [labelPoint, halfway]; refine ⟨?_, ?_, ?_, ?_⟩ <;> ring)
    · refine key [4, 1, 7, 8] (by decide) ?_
      simp only [List.map_cons, List.map_nil, hm 4 (by omega), hm 1 (by omega), hm 7 (by omega), hm 8 (by omega)]
      exact h4l _ _ _ _ _ _ _ _ (fun k => by simp only [labelPoint, halfway]; refine ⟨?_, ?_, ?_, ?_⟩ <;> ring)
    · refine key [5, 7, 2, 9] (by decide) ?_
      simp only [List.map_cons, List.map_nil, hm 5 (by omega), hm 7 (by omega), hm 2 (by omega), hm 9 (by omega)]
      exact h4l _ _ _ _ _ _ _ _ (fun k => by simp only [labelPoint, halfway]; refine ⟨?_, ?_, ?_, ?_⟩ <;> ring)
    · refine key [6, 8, 9, 3] (by decide) ?_
      simp only [List.map_cons, List.map_nil, hm 6 (by omega), hm 8 (by omega), hm 9 (by omega), hm 3 (by omega)]
      exact h4l _ _ _ _ _ _ _ _ (fun k => by simp only [labelPoint, halfway]; refine ⟨?_, ?_, ?_, ?_⟩ <;> ring)

/-- C102, several times: after `k` uniform refinements there are `4 ^ k` triangles for each triangle. -/
theorem C102_times_triangles (dist : (Nat → K) → (Nat → K) → K) : ∀ (k : Nat) {src : SegState (Nat → K)}, SegReached (simplexTopo 2) src →
    ∃ out, uniformTimes (simplexTopo 2) (triKids dist) k src = some out ∧ SegReached (simplexTopo 2) out ∧
      out.mesh.count 2 = 4 ^ k * src.mesh.count 2
  | 0, src, h => ⟨src, rfl, h, by simp⟩
  | k + 1, src, h => by
    obtain ⟨r, e1, h1, h2, _⟩ := C102_triangles h dist
    obtain ⟨out, e2, h3, h4⟩ := C102_times_triangles dist k h1
    exact ⟨out, by rw [uniformTimes, e1]; exact e2, h3, by rw [h4, h2, pow_succ, Nat.mul_assoc]⟩

/-- C102, several times: after `k` uniform refinements there are `8 ^ k` tetrahedra for each tetrahedron. -/
theorem C102_times_tetrahedra {dist : (Nat → K) → (Nat → K) → K} (hd : ∀ a b, dist a b = dist b a) : ∀ (k : Nat) {src : SegState (Nat → K)},
    SegReached (simplexTopo 3) src → ∃ out, uniformTimes (simplexTopo 3) (tetKids dist) k src = some out ∧
      SegReached (simplexTopo 3) out ∧ out.mesh.count 3 = 8 ^ k * src.mesh.count 3
  | 0, src, h => ⟨src, rfl, h, by simp⟩
  | k + 1, src, h => by
    obtain ⟨r, e1, h1, h2, _⟩ := C102_tetrahedra h hd
    obtain ⟨out, e2, h3, h4⟩ := C102_times_tetrahedra hd k h1
    exact ⟨out, by rw [uniformTimes, e1]; exact e2, h3, by rw [h4, h2, pow_succ, Nat.mul_assoc]⟩

omit [LinearOrder K] [IsStrictOrderedRing K] in
/-- C102, with segmentations: if every cell has a record, the result is the same (so the cells are in the segments of their
parents); if a cell has none, the call is undefined. -/
theorem C102_segmentation {n : Nat} {src : SegState (Nat → K)} (hsrc : SegReached (simplexTopo n) src)
    (kids : List (Option (Vtx (Nat → K))) → (Nat → Bool) → Option (List (List Nat))) :
    ((∀ t < src.mesh.count n, HasRecord src n t) → uniformRefineSeg (simplexTopo n) src kids = uniformRefine (simplexTopo n) src kids) ∧
    ((∃ t < src.mesh.count n, ¬ HasRecord src n t) → uniformRefineSeg (simplexTopo n) src kids = none) :=
  ⟨fun h => refineSegMesh_eq hsrc h _ _ _ _, fun ⟨_, ht, hr⟩ => C37_violated (Or.inl ⟨n, rfl⟩) hsrc ht hr _ _ _ _⟩

end

/-- Two tetrahedra with a common side, and a vertex in no cell. -/
def uniformOps : List (SOp (Nat → Rat)) :=
  [.mesh (.vertex none (fun _ => 0)), .mesh (.vertex none (fun k => if k = 0 then 2 else 0)),
   .mesh (.vertex none (fun k => if k = 1 then 2 else 0)), .mesh (.vertex none (fun k => if k = 2 then 2 else 0)),
   .mesh (.vertex none (fun _ => 2)), .mesh (.vertex none (fun _ => 9)), .mesh (.elem 3 [0, 1, 2, 3]), .mesh (.elem 3 [1, 2, 3, 4])]

/-- The hypotheses are met: 16 cells; 5 vertices of cells and 9 edges make 14 vertices, the sixth vertex is not there. -/
example : ∃ src : SegState (Nat → Rat), SegReached (simplexTopo 3) src ∧ src.mesh.count 1 = 9 ∧ src.mesh.verts.length = 6 ∧
    ((uniformRefine (simplexTopo 3) src (tetKids (fun a b => (a 0 - b 0) ^ 2 + (a 1 - b 1) ^ 2 + (a 2 - b 2) ^ 2))).map
      (fun r => (r.out.mesh.count 3, r.out.mesh.verts.length))) = some (16, 14) := by
  refine ⟨((SegState.empty : SegState (Nat → Rat)).run (simplexTopo 3) uniformOps).getD SegState.empty,
    ⟨uniformOps, ?_, rfl, ?_⟩, by decide +kernel, by decide +kernel, by decide +kernel⟩
  · intro op hop o ho
    simp only [uniformOps, List.mem_cons, List.not_mem_nil, or_false] at hop
    rcases hop with rfl | rfl | rfl | rfl | rfl | rfl | rfl | rfl <;>
      (simp [SOp.creation] at ho; try (subst ho; first | trivial | (simp [MOp.Distinct])))
  · unfold UniqueVids; decide +kernel

/-- The distance of this example is symmetric. -/
example : ∀ a b : Nat → Rat, (a 0 - b 0) ^ 2 + (a 1 - b 1) ^ 2 + (a 2 - b 2) ^ 2 = (b 0 - a 0) ^ 2 + (b 1 - a 1) ^ 2 + (b 2 - a 2) ^ 2 := by
  intro a b; ring

/-- Triangles: the two of `refinedOps`, refined once and twice. -/
example : ∃ src : SegState (Nat → Rat), SegReached (simplexTopo 2) src ∧ src.mesh.count 2 = 2 ∧
    ((uniformTimes (simplexTopo 2) (triKids (fun a b => (a 0 - b 0) ^ 2 + (a 1 - b 1) ^ 2)) 2 src).map
      (fun o => (o.mesh.count 2, o.mesh.verts.length))) = some (32, 25) := by
  refine ⟨((SegState.empty : SegState (Nat → Rat)).run (simplexTopo 2) refinedOps).getD SegState.empty,
    ⟨refinedOps, ?_, rfl, ?_⟩, by decide +kernel, by decide +kernel⟩
  · intro op hop o ho
    simp only [refinedOps, List.mem_cons, List.not_mem_nil, or_false] at hop
    rcases hop with rfl | rfl | rfl | rfl | rfl | rfl | rfl | rfl | rfl <;>
      (simp [SOp.creation] at ho; try (subst ho; first | trivial | (simp [MOp.Distinct])))
  · unfold UniqueVids; decide +kernel

end VG
