import Verif.Lemmas.UniformEdges
import Verif.Props.Uniform

/-!
C102: the numbers of vertices, edges and cells of a uniformly refined mesh of triangles.

Specification.  `Tidy m`: no two triangles of `m` have the same vertices, and every edge and every vertex is in a triangle.
`euler m` is the number of vertices minus the number of edges plus the number of triangles.
-/

namespace VG

/-- A mesh of triangles, each with its own vertices, and with nothing in it that is not in a triangle. -/
structure Tidy {P : Type} (m : Mesh P) : Prop where
  one : ∀ t < m.count 2, ∀ t' < m.count 2, (m.vertsOf 2 t).Perm (m.vertsOf 2 t') → t = t'
  edges : ∀ e < m.count 1, ∃ t < m.count 2, e ∈ m.bndOf 2 t 1
  verts : ∀ v < m.verts.length, ∃ t < m.count 2, v ∈ m.vertsOf 2 t

/-- Vertices minus edges plus triangles. -/
def euler {P : Type} (m : Mesh P) : Int := (m.verts.length : Int) - m.count 1 + m.count 2

section
variable {K : Type} [Field K] [LinearOrder K] [IsStrictOrderedRing K]

/-- C102: if no two triangles have the same vertices and each edge is in a triangle, then in place of each edge there are two,
and there are three more in each triangle.  There are two edges of only one triangle for each edge of only one triangle. -/
theorem C102_edges {src : SegState (Nat → K)} (hsrc : SegReached (simplexTopo 2) src)
    (hone : ∀ t < src.mesh.count 2, ∀ t' < src.mesh.count 2, (src.mesh.vertsOf 2 t).Perm (src.mesh.vertsOf 2 t') → t = t')
    (hedge : ∀ e < src.mesh.count 1, ∃ t < src.mesh.count 2, e ∈ src.mesh.bndOf 2 t 1)
    (dist : (Nat → K) → (Nat → K) → K) :
    ∃ r : RefSt (Nat → K), uniformRefine (simplexTopo 2) src (triKids dist) = some r ∧ SegReached (simplexTopo 2) r.out ∧
      r.out.mesh.count 1 = 2 * src.mesh.count 1 + 3 * src.mesh.count 2 ∧ Tidy r.out.mesh ∧
      ((List.range (r.out.mesh.count 1)).filter (fun f => numCells (simplexTopo 2) r.out.mesh f = 1)).length =
        2 * ((List.range (src.mesh.count 1)).filter (fun f => numCells (simplexTopo 2) src.mesh f = 1)).length := by
  classical
  have hI := (hsrc.inv (simplexTopo_wf 2) (simplexTopo_closed 2)).mesh
  have he : (edgeIdx (2 + 1)).length = 3 := by decide
  obtain ⟨o1, o2, _⟩ := C99_each_once (simplexTopo 2) src.mesh 1
  obtain ⟨r', u1, u2, u3, _, used, n1, n2, n3⟩ := C102_triangles hsrc dist
  obtain ⟨r, C, R, w, ev, e1, h, _⟩ := refine_names (n := 2) (by omega) hsrc (he ▸ triKids_ok dist)
    (markEdges (fun _ => false) (src.mesh.range (simplexTopo 2) 1)) (edgeMid src.mesh) o1 (fun e he => (o2 e).2 he)
  have : r' = r := Option.some.inj (u1.symm.trans e1)
  subst this
  have hm : ∀ e < src.mesh.count 1, markEdges (fun _ => false) (src.mesh.range (simplexTopo 2) 1) e = true := by
    intro e he
    rw [markEdges_iff]; exact Or.inl ((o2 e).2 he)
  have hI' := (h.reached.inv (simplexTopo_wf 2) (simplexTopo_closed 2)).mesh
  have hpos : ∀ f < r'.out.mesh.count 1, ∃ i < r'.out.mesh.count 2, f ∈ r'.out.mesh.bndOf 2 i 1 := by
    intro f hf
    obtain ⟨i, hi⟩ := List.exists_mem_of_length_pos (fromCells_edge hI' (refineMesh_fromCells e1) hf)
    rw [List.mem_filter, List.mem_range, decide_eq_true_iff] at hi
    exact ⟨i, hi⟩
  have hone' : ∀ t < src.mesh.count 2, ∀ t' < src.mesh.count 2, src.mesh.vertsOf 2 t ⊆ src.mesh.vertsOf 2 t' → t' = t := by
    intro t ht t' ht' hs
    obtain ⟨n1, l1, _⟩ := simplex_verts (by omega) hI ht
    obtain ⟨_, l2, _⟩ := simplex_verts (by omega) hI ht'
    exact (hone t ht t' ht' (perm_of_subset n1 hs (by omega))).symm
  refine ⟨r', u1, u2, ?_, ⟨fun i hi j hj hv => h.uni_one hI hm hone' hi hj hv, hpos,
    fun v hv => h.uni_verts hI hm hedge n1 (fun v hv => (n2 v).1 hv) n3 hv⟩, h.boundary_edges hI hm hone' hedge hpos⟩
  let on : Nat → Nat → Prop := EdgeOn src r' (markEdges (fun _ => false) (src.mesh.range (simplexTopo 2) 1)) w ev
  let origin : Nat → Option Nat := fun f => if hf : ∃ E, on f E then some hf.choose else none
  have horigin : ∀ f E, origin f = some E ↔ on f E := by
    intro f E
    by_cases hf : ∃ E, on f E
    · have : origin f = some hf.choose := dif_pos hf
      rw [this, Option.some.injEq]
      constructor
      · rintro rfl; exact hf.choose_spec
      · intro hE; exact h.edgeOn_unique hI hf.choose_spec hE
    · have : origin f = none := dif_neg hf
      rw [this]
      exact iff_of_false (by simp) fun hE => hf ⟨E, hE⟩
  refine count_edges (numCells (simplexTopo 2) r'.out.mesh) (numCells (simplexTopo 2) src.mesh) origin ?_ ?_ ?_ ?_ (sum_numCells hI)
  · intro f hf hno
    obtain ⟨i, hi, hfi⟩ := hpos f hf
    refine (h.edge_cases hI hone' hf hi hfi).resolve_left ?_
    rintro ⟨E, hE⟩
    have := (horigin f E).2 hE
    rw [hno] at this; cases this
  · intro f hf E hE
    have hE := (horigin f E).1 hE
    exact ⟨hE.1, h.edge_uses hI hf hE⟩
  · intro E hE
    obtain ⟨t, ht, hEt⟩ := hedge E hE
    rw [← h.edge_two hI ht hEt (hm E hE)]
    congr 1
    refine Finset.filter_congr fun f _ => ?_
    exact horigin f E
  · rw [sum_numCells hI', u3]; omega

/-- C102: the refined mesh of a tidy mesh is tidy, with a vertex for each vertex and each edge, two edges for each edge and three for each
triangle, and four triangles for each triangle; so vertices minus edges plus triangles are as before. -/
theorem C102_euler {src : SegState (Nat → K)} (hsrc : SegReached (simplexTopo 2) src) (ht : Tidy src.mesh)
    (dist : (Nat → K) → (Nat → K) → K) :
    ∃ r : RefSt (Nat → K), uniformRefine (simplexTopo 2) src (triKids dist) = some r ∧ SegReached (simplexTopo 2) r.out ∧
      Tidy r.out.mesh ∧ r.out.mesh.verts.length = src.mesh.verts.length + src.mesh.count 1 ∧
      r.out.mesh.count 1 = 2 * src.mesh.count 1 + 3 * src.mesh.count 2 ∧ r.out.mesh.count 2 = 4 * src.mesh.count 2 ∧
      euler r.out.mesh = euler src.mesh := by
  have hI := (hsrc.inv (simplexTopo_wf 2) (simplexTopo_closed 2)).mesh
  obtain ⟨r, u1, u2, u3, u4, _⟩ := C102_edges hsrc ht.one ht.edges dist
  obtain ⟨r', v1, _, v3, _, used, n1, n2, n3⟩ := C102_triangles hsrc dist
  have : r' = r := Option.some.inj (v1.symm.trans u1)
  subst this
  have hp : used.Perm (List.range src.mesh.verts.length) := by
    refine (List.perm_ext_iff_of_nodup n1 List.nodup_range).2 fun v => ?_
    rw [n2, List.mem_range]
    refine ⟨?_, fun hv => ht.verts v hv⟩
    rintro ⟨t, htl, hv⟩
    exact (simplex_verts (by omega) hI htl).2.2 v hv
  have hl := hp.length_eq
  rw [List.length_range] at hl
  rw [hl] at n3
  refine ⟨r', u1, u2, u4, n3, u3, v3, ?_⟩
  unfold euler
  omega

/-- C102: vertices minus edges plus triangles do not change however often a tidy mesh is refined. -/
theorem C102_euler_times (dist : (Nat → K) → (Nat → K) → K) : ∀ (k : Nat) {src : SegState (Nat → K)}, SegReached (simplexTopo 2) src →
    Tidy src.mesh → ∃ out, uniformTimes (simplexTopo 2) (triKids dist) k src = some out ∧ Tidy out.mesh ∧ euler out.mesh = euler src.mesh
  | 0, src, _, ht => ⟨src, rfl, ht, rfl⟩
  | k + 1, src, h, ht => by
    obtain ⟨r, e1, h1, h2, _, _, _, h3⟩ := C102_euler h ht dist
    obtain ⟨out, e2, h4, h5⟩ := C102_euler_times dist k h1 h2
    exact ⟨out, by rw [uniformTimes, e1]; exact e2, h4, h5.trans h3⟩

end

/-- The hypotheses are met: the two triangles of `refinedOps` are a tidy mesh with 4 - 5 + 2 = 1; refined twice there are 25 vertices,
56 edges and 32 triangles. -/
example : ∃ src : SegState (Nat → Rat), SegReached (simplexTopo 2) src ∧ Tidy src.mesh ∧ euler src.mesh = 1 ∧
    ((uniformTimes (simplexTopo 2) (triKids (fun a b => (a 0 - b 0) ^ 2 + (a 1 - b 1) ^ 2)) 2 src).map
      (fun o => (o.mesh.verts.length, o.mesh.count 1, o.mesh.count 2))) = some (25, 56, 32) := by
  refine ⟨((SegState.empty : SegState (Nat → Rat)).run (simplexTopo 2) refinedOps).getD SegState.empty,
    ⟨refinedOps, ?_, rfl, ?_⟩, ⟨by decide +kernel, by decide +kernel, by decide +kernel⟩, by decide +kernel, by decide +kernel⟩
  · intro op hop o ho
    simp only [refinedOps, List.mem_cons, List.not_mem_nil, or_false] at hop
    rcases hop with rfl | rfl | rfl | rfl | rfl | rfl | rfl | rfl | rfl <;>
      (simp [SOp.creation] at ho; try (subst ho; first | trivial | (simp [MOp.Distinct])))
  · unfold UniqueVids; decide +kernel

end VG
