import Verif.Lemmas.RefineEdges
import Verif.Props.RefineFacets

/-!
C73 for meshes of triangles: the edges of the refined mesh.

Specification.  `EdgeMap src out origin` says of the edges of triangles what `FacetMap` says of the facets of tetrahedra:
each edge of a cell of `out` is either inside of a cell of `src`, with a cell on each side of it, or on one edge of `src`.
In the second case its ends are ends of the edge of `src` or its midpoint, and it has as many cells as that has.  The edges of
`out` on one edge of `src` have together the length of that.
-/

namespace VG

section
variable {K : Type} [Field K] [LinearOrder K] [IsStrictOrderedRing K]

open Classical in
/-- How the edges of the cells of `out` are related to those of `src`. -/
structure EdgeMap (src out : Mesh (Nat → K)) (origin : Nat → Option Nat) : Prop where
  inside : ∀ f < out.count 1, 0 < numCells (simplexTopo 2) out f → origin f = none → numCells (simplexTopo 2) out f = 2
  on : ∀ f E, origin f = some E → E < src.count 1 ∧ f < out.count 1 ∧ 0 < numCells (simplexTopo 2) src E ∧
    numCells (simplexTopo 2) out f = numCells (simplexTopo 2) src E ∧
    ∀ x ∈ cellPoints out 1 f, CornerOrMid (cellPoints src 1 E) x
  length : ∀ mu : (Nat → K) → K, (∀ s v, mu (fun k => s * v k) = |s| * mu v) →
    ∀ E < src.count 1, 0 < numCells (simplexTopo 2) src E →
      sumOver (out.count 1) (fun f => origin f = some E) (fun f => lineMeasure mu (cellPoints out 1 f)) =
        lineMeasure mu (cellPoints src 1 E)

/-- C73: for every mesh of triangles in which no two cells have the same vertices, all marks, distances, and
orders of the edges: the edges of the refined mesh fit together as those of the mesh do. -/
theorem C73_edges {src : SegState (Nat → K)} (hsrc : SegReached (simplexTopo 2) src)
    (hone : ∀ t < src.mesh.count 2, ∀ t' < src.mesh.count 2, (src.mesh.vertsOf 2 t).Perm (src.mesh.vertsOf 2 t') → t = t')
    (dist : (Nat → K) → (Nat → K) → K) (mark : Nat → Bool) {order : List Nat} (hord : order.Nodup)
    (hall : ∀ e < src.mesh.count 1, e ∈ order) :
    ∃ (r : RefSt (Nat → K)) (origin : Nat → Option Nat),
      refineMesh (simplexTopo 2) src (triKids dist) mark (edgeMid src.mesh) order = some r ∧ EdgeMap src.mesh r.out.mesh origin := by
  classical
  have hI := (hsrc.inv (simplexTopo_wf 2) (simplexTopo_closed 2)).mesh
  have he : (edgeIdx (2 + 1)).length = 3 := by decide
  obtain ⟨r, C, R, w, ev, e1, h, hp⟩ := refine_names (n := 2) (by omega) hsrc (he ▸ triKids_ok dist) mark (edgeMid src.mesh) hord hall
  let good : Nat → Prop := fun f => f < r.out.mesh.count 1 ∧ ∃ E, EdgeOn src r mark w ev f E
  let origin : Nat → Option Nat := fun f => if hf : good f then some hf.2.choose else none
  have horigin : ∀ f E, origin f = some E ↔ f < r.out.mesh.count 1 ∧ EdgeOn src r mark w ev f E := by
    intro f E
    by_cases hf : good f
    · have : origin f = some hf.2.choose := dif_pos hf
      rw [this, Option.some.injEq]
      constructor
      · rintro rfl; exact ⟨hf.1, hf.2.choose_spec⟩
      · intro hE; exact h.edgeOn_unique hI hf.2.choose_spec hE.2
    · have : origin f = none := dif_neg hf
      rw [this]
      refine iff_of_false (by simp) fun hE => hf ⟨hE.1, E, hE.2⟩
  have hcell : ∀ {m : Mesh (Nat → K)} {f : Nat}, 0 < numCells (simplexTopo 2) m f → ∃ i < m.count 2, f ∈ m.bndOf 2 i 1 := by
    intro m f hpos
    obtain ⟨i, hi⟩ := List.exists_mem_of_length_pos hpos
    rw [List.mem_filter, List.mem_range, decide_eq_true_iff] at hi
    exact ⟨i, hi⟩
  refine ⟨r, origin, e1, ⟨?_, ?_, ?_⟩⟩
  · intro f hf hpos hno
    obtain ⟨i, hi, hfi⟩ := hcell hpos
    refine (h.edge_cases hI (fun t ht t' ht' hs => ?_) hf hi hfi).resolve_left ?_
    · obtain ⟨n1, l1, _⟩ := simplex_verts (by omega) hI ht
      obtain ⟨_, l2, _⟩ := simplex_verts (by omega) hI ht'
      exact (hone t ht t' ht' (perm_of_subset n1 hs (by omega))).symm
    · rintro ⟨E, hE⟩
      have := (horigin f E).2 ⟨hf, hE⟩
      rw [hno] at this; exact absurd this (by simp)
  · intro f E hfE
    obtain ⟨hf, hE⟩ := (horigin f E).1 hfE
    refine ⟨hE.1, hf, ?_, h.edge_uses hI hf hE, fun x hx => ?_⟩
    · obtain ⟨_, ⟨t, ht, hEt⟩, _⟩ := hE
      exact List.length_pos_of_mem (List.mem_filter.2 ⟨List.mem_range.2 ht, decide_eq_true hEt⟩)
    · obtain ⟨a, b, q1, ⟨_, q2⟩ | ⟨_, q2⟩⟩ := edgeOn_points hp hI hE
      · have hx := q2.mem_iff.1 hx
        simp only [List.mem_cons, List.not_mem_nil, or_false] at hx
        rcases hx with rfl | rfl
        · exact Or.inl (q1.mem_iff.2 (by simp))
        · exact Or.inr ⟨a, q1.mem_iff.2 (by simp), b, q1.mem_iff.2 (by simp), rfl⟩
      · exact Or.inl (q1.mem_iff.2 (q2.mem_iff.1 hx))
  · intro mu hmu E hE hpos
    obtain ⟨t, ht, hEt⟩ := hcell hpos
    rw [sumOver_filter, ← h.edge_length hp hI ht hEt hmu]
    congr 2
    refine List.filter_congr fun f hf => decide_eq_decide.2 ?_
    rw [horigin]
    exact and_iff_right (List.mem_range.1 hf)

omit [IsStrictOrderedRing K] in
/-- If no edge of the mesh has more than two triangles then no edge of the refined mesh has. -/
theorem C73_two_triangles {src out : Mesh (Nat → K)} {origin : Nat → Option Nat} (h : EdgeMap src out origin)
    (hman : ∀ E < src.count 1, numCells (simplexTopo 2) src E ≤ 2) : ∀ f < out.count 1, numCells (simplexTopo 2) out f ≤ 2 := by
  intro f hf
  by_cases hpos : 0 < numCells (simplexTopo 2) out f
  · cases ho : origin f with
    | none => exact Nat.le_of_eq (h.inside f hf hpos ho)
    | some E =>
      obtain ⟨hE, _, _, e, _⟩ := h.on f E ho
      rw [e]; exact hman E hE
  · omega

omit [IsStrictOrderedRing K] in
/-- `is_boundary` of edges: the boundary of the refined mesh is on the boundary of the mesh, and covers it. -/
theorem C73_edge_boundary {src out : MState (Nat → K)} (hs : Reached (simplexTopo 2) src) (ho : Reached (simplexTopo 2) out)
    {origin : Nat → Option Nat} (h : EdgeMap src.mesh out.mesh origin) {f : Nat} (hf : f < out.mesh.count 1) :
    (out.isBoundary (simplexTopo 2) 1 f).2 = true ↔ ∃ E, origin f = some E ∧ (src.isBoundary (simplexTopo 2) 1 E).2 = true := by
  have hT : LibTopo (simplexTopo 2) := Or.inl ⟨2, rfl⟩
  have key : ∀ {st : MState (Nat → K)}, Reached (simplexTopo 2) st → ∀ {s}, s < st.mesh.count 1 →
      ((st.isBoundary (simplexTopo 2) 1 s).2 = true ↔ numCells (simplexTopo 2) st.mesh s % 2 = 1) := by
    intro st hst s hs
    rw [isBoundary_iff hT hst (show 1 ≤ 2 - 1 by omega) hs]
    exact Iff.of_eq (if_pos rfl)
  rw [key ho hf]
  constructor
  · intro hodd
    cases hor : origin f with
    | none =>
      have := h.inside f hf (by omega) hor
      omega
    | some E =>
      obtain ⟨hE, _, _, e, _⟩ := h.on f E hor
      exact ⟨E, rfl, (key hs hE).2 (by rw [← e]; exact hodd)⟩
  · rintro ⟨E, hor, hb⟩
    obtain ⟨hE, _, _, e, _⟩ := h.on f E hor
    rw [e]; exact (key hs hE).1 hb

omit [IsStrictOrderedRing K] in
/-- `surface(mesh)` of a mesh of triangles, the length of its boundary, is not changed by `refine`, for each measure of lines
as in `EdgeMap`. -/
theorem C73_perimeter {src out : MState (Nat → K)} (hs : Reached (simplexTopo 2) src) (ho : Reached (simplexTopo 2) out)
    {origin : Nat → Option Nat} (h : EdgeMap src.mesh out.mesh origin) (mu : (Nat → K) → K)
    (hmu : ∀ s v, mu (fun k => s * v k) = |s| * mu v) :
    (out.surface (simplexTopo 2) (lineMeasure mu)).2 = (src.surface (simplexTopo 2) (lineMeasure mu)).2 := by
  classical
  have hT : LibTopo (simplexTopo 2) := Or.inl ⟨2, rfl⟩
  have e : ∀ st : MState (Nat → K), Reached (simplexTopo 2) st → (st.surface (simplexTopo 2) (lineMeasure mu)).2 =
      ∑ s ∈ Finset.range (st.mesh.count 1), if numCells (simplexTopo 2) st.mesh s % 2 = 1 then lineMeasure mu (cellPoints st.mesh 1 s) else 0 := by
    intro st hst
    rw [surface_eq hT _ hst, ← sumOver_finset (p := fun s => numCells (simplexTopo 2) st.mesh s % 2 = 1), sumOver_filter]
    rfl
  rw [e out ho, e src hs]
  have h1 : ∀ E ∈ Finset.range (src.mesh.count 1),
      (if numCells (simplexTopo 2) src.mesh E % 2 = 1 then lineMeasure mu (cellPoints src.mesh 1 E) else 0) =
      ∑ f ∈ Finset.range (out.mesh.count 1), if origin f = some E then
        (if numCells (simplexTopo 2) out.mesh f % 2 = 1 then lineMeasure mu (cellPoints out.mesh 1 f) else 0) else 0 := by
    intro E hE
    have hE := Finset.mem_range.1 hE
    by_cases hodd : numCells (simplexTopo 2) src.mesh E % 2 = 1
    · rw [if_pos hodd, ← h.length mu hmu E hE (by omega), sumOver_finset]
      refine Finset.sum_congr rfl fun f _ => ?_
      by_cases hor : origin f = some E
      · rw [if_pos hor, if_pos hor, if_pos (by rw [(h.on f E hor).2.2.2.1]; exact hodd)]
      · rw [if_neg hor, if_neg hor]
    · rw [if_neg hodd]
      refine (Finset.sum_eq_zero fun f _ => ?_).symm
      by_cases hor : origin f = some E
      · rw [if_pos hor, if_neg (by rw [(h.on f E hor).2.2.2.1]; exact hodd)]
      · rw [if_neg hor]
  rw [Finset.sum_congr rfl h1, Finset.sum_comm]
  refine Finset.sum_congr rfl fun f hf => ?_
  have hf := Finset.mem_range.1 hf
  cases hor : origin f with
  | none =>
    rw [Finset.sum_eq_zero fun E _ => if_neg (by simp)]
    refine if_neg fun hodd => ?_
    have := h.inside f hf (by omega) hor
    omega
  | some E =>
    simp only [Option.some.injEq]
    rw [Finset.sum_ite_eq, if_pos (Finset.mem_range.2 (h.on f E hor).1)]

end

/-- Two triangles on the two sides of an edge. -/
def fitTriOps : List (SOp (Nat → Rat)) :=
  [.mesh (.vertex none (fun _ => 0)), .mesh (.vertex none (fun k => if k = 0 then 4 else 0)),
   .mesh (.vertex none (fun k => if k = 1 then 3 else 0)), .mesh (.vertex none (fun k => if k = 1 then -5 else 0)),
   .mesh (.elem 2 [0, 1, 2]), .mesh (.elem 2 [1, 0, 3])]

/-- The hypotheses are met.  With the shared edge and one other edge marked, the cells have three and two children. -/
example : ∃ src : SegState (Nat → Rat), SegReached (simplexTopo 2) src ∧ src.mesh.count 1 = 5 ∧
    (∀ t < src.mesh.count 2, ∀ t' < src.mesh.count 2, (src.mesh.vertsOf 2 t).Perm (src.mesh.vertsOf 2 t') → t = t') ∧
    ((refineMesh (simplexTopo 2) src (triKids (fun a b => (a 0 - b 0) ^ 2 + (a 1 - b 1) ^ 2)) (fun e => decide (e < 2))
      (edgeMid src.mesh) (List.range 5)).map (fun r => (r.out.mesh.count 2, (List.range (r.out.mesh.count 1)).map (numCells (simplexTopo 2) r.out.mesh)))) =
      some (5, [1, 2, 2, 1, 2, 1, 2, 1, 2, 1]) := by
  refine ⟨((SegState.empty : SegState (Nat → Rat)).run (simplexTopo 2) fitTriOps).getD SegState.empty,
    ⟨fitTriOps, ?_, rfl, ?_⟩, by decide +kernel, by decide +kernel, by decide +kernel⟩
  · intro op hop o ho
    simp only [fitTriOps, List.mem_cons, List.not_mem_nil, or_false] at hop
    rcases hop with rfl | rfl | rfl | rfl | rfl | rfl <;>
      (simp [SOp.creation] at ho; try (subst ho; first | trivial | (simp [MOp.Distinct])))
  · unfold UniqueVids; decide +kernel

end VG
