import Verif.Lemmas.UniformTets
import Verif.Props.Uniform

/-!
C102: the numbers of vertices, edges, facets and cells of a uniformly refined mesh of tetrahedra.

Specification.  `TidyTets m`: no two tetrahedra of `m` have the same vertices, and every facet, every edge and every vertex is in a
tetrahedron.  `euler3 m` is the number of vertices minus that of edges plus that of facets minus that of tetrahedra.
-/

namespace VG

/-- A mesh of tetrahedra, each with its own vertices, and with nothing in it that is not in a tetrahedron. -/
structure TidyTets {P : Type} (m : Mesh P) : Prop where
  one : ∀ t < m.count 3, ∀ t' < m.count 3, (m.vertsOf 3 t).Perm (m.vertsOf 3 t') → t = t'
  facets : ∀ f < m.count 2, ∃ t < m.count 3, f ∈ m.bndOf 3 t 2
  edges : ∀ e < m.count 1, ∃ t < m.count 3, e ∈ m.bndOf 3 t 1
  verts : ∀ v < m.verts.length, ∃ t < m.count 3, v ∈ m.vertsOf 3 t

/-- Vertices minus edges plus facets minus tetrahedra. -/
def euler3 {P : Type} (m : Mesh P) : Int := (m.verts.length : Int) - m.count 1 + m.count 2 - m.count 3

section
variable {K : Type} [Field K] [LinearOrder K] [IsStrictOrderedRing K]

/-- C102: the refined mesh of a tidy mesh of tetrahedra is tidy.  It has a vertex for each vertex and each edge; two edges for each edge,
three for each facet and one for each cell; four facets for each facet and eight for each cell; and eight cells for each cell.
There are four facets of only one cell for each facet of only one cell.  Vertices minus edges plus facets minus cells are as before. -/
theorem C102_euler_tetrahedra {src : SegState (Nat → K)} (hsrc : SegReached (simplexTopo 3) src) (ht : TidyTets src.mesh)
    {dist : (Nat → K) → (Nat → K) → K} (hd : ∀ a b, dist a b = dist b a) :
    ∃ r : RefSt (Nat → K), uniformRefine (simplexTopo 3) src (tetKids dist) = some r ∧ SegReached (simplexTopo 3) r.out ∧
      TidyTets r.out.mesh ∧ r.out.mesh.verts.length = src.mesh.verts.length + src.mesh.count 1 ∧
      r.out.mesh.count 1 = 2 * src.mesh.count 1 + 3 * src.mesh.count 2 + src.mesh.count 3 ∧
      r.out.mesh.count 2 = 4 * src.mesh.count 2 + 8 * src.mesh.count 3 ∧ r.out.mesh.count 3 = 8 * src.mesh.count 3 ∧
      ((List.range (r.out.mesh.count 2)).filter (fun f => numCells (simplexTopo 3) r.out.mesh f = 1)).length =
        4 * ((List.range (src.mesh.count 2)).filter (fun f => numCells (simplexTopo 3) src.mesh f = 1)).length ∧
      euler3 r.out.mesh = euler3 src.mesh := by
  have hI := (hsrc.inv (simplexTopo_wf 3) (simplexTopo_closed 3)).mesh
  have he : (edgeIdx (3 + 1)).length = 6 := by decide
  obtain ⟨o1, o2, _⟩ := C99_each_once (simplexTopo 3) src.mesh 1
  obtain ⟨r', u1, u2, u3, _, used, n1, n2, n3⟩ := C102_tetrahedra hsrc hd
  obtain ⟨r, C, R, w, ev, e1, h, _⟩ := refine_names (n := 3) (by omega) hsrc (he ▸ tetKids_ok hd)
    (markEdges (fun _ => false) (src.mesh.range (simplexTopo 3) 1)) (edgeMid src.mesh) o1 (fun e he => (o2 e).2 he)
  have : r' = r := Option.some.inj (u1.symm.trans e1)
  subst this
  have hm : ∀ e < src.mesh.count 1, markEdges (fun _ => false) (src.mesh.range (simplexTopo 3) 1) e = true := by
    intro e he
    rw [markEdges_iff]; exact Or.inl ((o2 e).2 he)
  have hI' := (h.reached.inv (simplexTopo_wf 3) (simplexTopo_closed 3)).mesh
  have hF := refineMesh_fromCells e1
  have hone : ∀ t < src.mesh.count 3, ∀ t' < src.mesh.count 3, src.mesh.vertsOf 3 t ⊆ src.mesh.vertsOf 3 t' → t' = t := by
    intro t htl t' htl' hs
    obtain ⟨n1, l1, _⟩ := simplex_verts (by omega) hI htl
    obtain ⟨_, l2, _⟩ := simplex_verts (by omega) hI htl'
    exact (ht.one t htl t' htl' (perm_of_subset n1 hs (by omega))).symm
  have hpart : ∀ j, j = 1 ∨ j = 2 → ∀ B < src.mesh.count j, ∃ t < src.mesh.count 3, src.mesh.vertsOf j B ⊆ src.mesh.vertsOf 3 t := by
    rintro j (rfl | rfl) B hB
    · obtain ⟨t, htl, hBt⟩ := ht.edges B hB
      refine ⟨t, htl, ?_⟩
      obtain ⟨p, hp⟩ := List.getElem?_of_mem hBt
      obtain ⟨a, b, f, e2, e3, e4, e5, e6⟩ := (simplex_edge (by omega) hI htl).2 p B hp
      obtain ⟨_, hvl, _⟩ := simplex_verts (by omega) hI htl
      rw [vertsOf_elem e5]
      intro x hx
      have := e6.mem_iff.1 hx
      simp only [List.mem_cons, List.not_mem_nil, or_false] at this
      rcases this with rfl | rfl <;> exact getD_mem (by omega)
    · obtain ⟨t, htl, hBt⟩ := ht.facets B hB
      exact ⟨t, htl, facet_subset hI htl hBt⟩
  have hpart' : ∀ j, j = 1 ∨ j = 2 → ∀ f < r'.out.mesh.count j, ∃ t < r'.out.mesh.count 3, f ∈ r'.out.mesh.bndOf 3 t j := by
    intro j hj f hf
    obtain ⟨i, hi, hs⟩ := fromCells_part hI' hF hj hf
    obtain ⟨hn, hl⟩ := part_verts hI' (show 1 ≤ j by omega) hf
    obtain ⟨f', hf', hp⟩ := part_exists hI' hj hi hn hl hs
    rw [part_same hI' hj (bndOf_valid hI' hf') hf hp] at hf'
    exact ⟨i, hi, hf'⟩
  have hedges := h.count_parts hd hI hm hF hone hpart (Or.inl rfl)
  have hfacets := h.count_parts hd hI hm hF hone hpart (Or.inr rfl)
  simp only [insideCount] at hedges hfacets
  have hp : used.Perm (List.range src.mesh.verts.length) := by
    refine (List.perm_ext_iff_of_nodup n1 List.nodup_range).2 fun v => ?_
    rw [n2, List.mem_range]
    refine ⟨?_, fun hv => ht.verts v hv⟩
    rintro ⟨t, htl, hv⟩
    exact (simplex_verts (by omega) hI htl).2.2 v hv
  have hl := hp.length_eq
  rw [List.length_range] at hl
  have n4 := n3
  rw [hl] at n4
  have hedges : r'.out.mesh.count 1 = 2 * src.mesh.count 1 + 3 * src.mesh.count 2 + src.mesh.count 3 := by
    simp at hedges; omega
  have hfacets : r'.out.mesh.count 2 = 4 * src.mesh.count 2 + 8 * src.mesh.count 3 := by
    simp at hfacets; omega
  refine ⟨r', u1, u2, ⟨fun i hi j hj hv => h.tet_one hd hI hm hone hi hj hv, hpart' 2 (Or.inr rfl), hpart' 1 (Or.inl rfl),
    fun v hv => h.tet_verts hd hI hm ht.edges n1 (fun v hv => (n2 v).1 hv) n3 hv⟩, n4, hedges, hfacets, u3,
    h.boundary_count hd hI hm hF hone hpart, ?_⟩
  unfold euler3
  omega

/-- C102: vertices minus edges plus facets minus tetrahedra do not change however often a tidy mesh is refined. -/
theorem C102_euler_tetrahedra_times {dist : (Nat → K) → (Nat → K) → K} (hd : ∀ a b, dist a b = dist b a) : ∀ (k : Nat) {src : SegState (Nat → K)},
    SegReached (simplexTopo 3) src → TidyTets src.mesh →
    ∃ out, uniformTimes (simplexTopo 3) (tetKids dist) k src = some out ∧ TidyTets out.mesh ∧ euler3 out.mesh = euler3 src.mesh
  | 0, src, _, ht => ⟨src, rfl, ht, rfl⟩
  | k + 1, src, h, ht => by
    obtain ⟨r, e1, h1, h2, _, _, _, _, _, h3⟩ := C102_euler_tetrahedra h ht hd
    obtain ⟨out, e2, h4, h5⟩ := C102_euler_tetrahedra_times hd k h1 h2
    exact ⟨out, by rw [uniformTimes, e1]; exact e2, h4, h5.trans h3⟩

end

/-- Two tetrahedra with a common side. -/
def twoTetsOps : List (SOp (Nat → Rat)) :=
  [.mesh (.vertex none (fun _ => 0)), .mesh (.vertex none (fun k => if k = 0 then 2 else 0)),
   .mesh (.vertex none (fun k => if k = 1 then 2 else 0)), .mesh (.vertex none (fun k => if k = 2 then 2 else 0)),
   .mesh (.vertex none (fun _ => 2)), .mesh (.elem 3 [0, 1, 2, 3]), .mesh (.elem 3 [1, 2, 3, 4])]

/-- The hypotheses are met: two tetrahedra with a common side, 5 - 9 + 7 - 2 = 1; refined, 14 vertices, 41 edges, 44 facets and
16 cells, and 14 - 41 + 44 - 16 = 1; 24 facets of only one cell, for 6. -/
example : ∃ src : SegState (Nat → Rat), SegReached (simplexTopo 3) src ∧ TidyTets src.mesh ∧ euler3 src.mesh = 1 ∧
    ((List.range (src.mesh.count 2)).filter (fun f => numCells (simplexTopo 3) src.mesh f = 1)).length = 6 ∧
    ((uniformRefine (simplexTopo 3) src (tetKids (fun a b => (a 0 - b 0) ^ 2 + (a 1 - b 1) ^ 2 + (a 2 - b 2) ^ 2))).map
      (fun r => (r.out.mesh.verts.length, r.out.mesh.count 1, r.out.mesh.count 2, r.out.mesh.count 3))) = some (14, 41, 44, 16) := by
  refine ⟨((SegState.empty : SegState (Nat → Rat)).run (simplexTopo 3) twoTetsOps).getD SegState.empty,
    ⟨twoTetsOps, ?_, rfl, ?_⟩, ⟨by decide +kernel, by decide +kernel, by decide +kernel, by decide +kernel⟩, by decide +kernel, by decide +kernel,
    by decide +kernel⟩
  · intro op hop o ho
    simp only [twoTetsOps, List.mem_cons, List.not_mem_nil, or_false] at hop
    rcases hop with rfl | rfl | rfl | rfl | rfl | rfl | rfl <;>
      (simp [SOp.creation] at ho; try (subst ho; first | trivial | (simp [MOp.Distinct])))
  · unfold UniqueVids; decide +kernel

end VG
