import Verif.Model.Topology
import Mathlib.Data.Nat.Choose.Basic
import Mathlib.Data.List.Basic
import Mathlib.Data.List.Sublists
import Mathlib.Data.List.NodupEquivFin

/-!
C06 boundary of simplices, C07 boundary of quadrilaterals and hexahedra, C55 boundary of polygons.
-/

namespace VG

theorem nOverK_eq_choose (n k : Nat) : nOverK n k = Nat.choose n k := by
  induction n generalizing k with
  | zero => cases k <;> simp [nOverK]
  | succ n ih => cases k <;> simp [nOverK, ih, Nat.choose_succ_succ]

/-- C06a: the number of `k`-dimensional boundary elements of an `n`-simplex. -/
theorem C06_simplex_count (n k : Nat) : simplexNum n k = Nat.choose (n + 1) (k + 1) :=
  nOverK_eq_choose _ _

theorem mem_edgeIdx {m : Nat} {e : List Nat} :
    e ∈ edgeIdx m ↔ ∃ i j, i < j ∧ j < m ∧ e = [i, j] := by
  simp only [edgeIdx, List.mem_flatMap, List.mem_range, List.mem_map, List.mem_range'_1]
  constructor
  · rintro ⟨i, hi, j, hj, rfl⟩; exact ⟨i, j, by omega, by omega, rfl⟩
  · rintro ⟨i, j, h1, h2, rfl⟩; exact ⟨i, by omega, j, by omega, rfl⟩

theorem mem_triIdx {m : Nat} {e : List Nat} :
    e ∈ triIdx m ↔ ∃ i j k, i < j ∧ j < k ∧ k < m ∧ e = [i, j, k] := by
  simp only [triIdx, List.mem_flatMap, List.mem_range, List.mem_map, List.mem_range'_1]
  constructor
  · rintro ⟨i, hi, j, hj, k, hk, rfl⟩; exact ⟨i, j, k, by omega, by omega, by omega, rfl⟩
  · rintro ⟨i, j, k, h1, h2, h3, rfl⟩; exact ⟨i, by omega, j, by omega, k, by omega, rfl⟩

/-- Specification: the strictly increasing lists of `c` indices below `m`; these are the `c`-element
subsets of the vertices. -/
def IsSubsetOfSize (m c : Nat) (e : List Nat) : Prop :=
  e.length = c ∧ e.Pairwise (· < ·) ∧ ∀ x ∈ e, x < m

/-- C06b: the enumerated edges are exactly the 2-subsets. -/
theorem C06_edges_are_pairs (m : Nat) (e : List Nat) : e ∈ edgeIdx m ↔ IsSubsetOfSize m 2 e := by
  rw [mem_edgeIdx]
  constructor
  · rintro ⟨i, j, h1, h2, rfl⟩
    refine ⟨rfl, by simpa using h1, ?_⟩
    simp; omega
  · rintro ⟨hl, hp, hm⟩
    match e, hl with
    | [i, j], _ => exact ⟨i, j, by simpa using hp, hm j (by simp), rfl⟩

/-- C06c: the enumerated triangles are exactly the 3-subsets. -/
theorem C06_triangles_are_triples (m : Nat) (e : List Nat) :
    e ∈ triIdx m ↔ IsSubsetOfSize m 3 e := by
  rw [mem_triIdx]
  constructor
  · rintro ⟨i, j, k, h1, h2, h3, rfl⟩
    refine ⟨rfl, by simp; omega, ?_⟩
    simp; omega
  · rintro ⟨hl, hp, hm⟩
    match e, hl with
    | [i, j, k], _ =>
      simp at hp
      exact ⟨i, j, k, by omega, by omega, hm k (by simp), rfl⟩

/-- C06d: no edge is listed twice. -/
theorem C06_edges_nodup (m : Nat) : (edgeIdx m).Nodup := by
  unfold edgeIdx
  rw [List.nodup_flatMap]
  refine ⟨fun i _ => List.Nodup.map (fun a b h => by simpa using h) List.nodup_range', ?_⟩
  refine List.nodup_range.imp ?_
  intro a b hab
  simp only [Function.onFun, List.disjoint_left, List.mem_map]
  rintro _ ⟨x, _, rfl⟩ ⟨y, _, h⟩
  simp at h; omega

/-- C06e: no triangle is listed twice. -/
theorem C06_triangles_nodup (m : Nat) : (triIdx m).Nodup := by
  unfold triIdx
  rw [List.nodup_flatMap]
  constructor
  · intro i _
    rw [List.nodup_flatMap]
    refine ⟨fun i _ => List.Nodup.map (fun a b h => by simpa using h) List.nodup_range', ?_⟩
    refine (List.nodup_range' (s := i + 1) (n := m - (i + 1))).imp ?_
    intro a b hab
    simp only [Function.onFun, List.disjoint_left, List.mem_map]
    rintro _ ⟨x, _, rfl⟩ ⟨y, _, h⟩
    simp at h; omega
  · refine List.nodup_range.imp ?_
    intro a b hab
    simp only [Function.onFun, List.disjoint_left, List.mem_map, List.mem_flatMap]
    rintro _ ⟨x, _, z, _, rfl⟩ ⟨y, _, w, _, h⟩
    simp at h; omega

/-- All `c`-subsets of a list, as sublists; used to count. -/
private theorem nodup_subset_perm {α} {l₁ l₂ : List α} (h1 : l₁.Nodup) (h2 : l₂.Nodup)
    (h : ∀ x, x ∈ l₁ ↔ x ∈ l₂) : l₁.length = l₂.length :=
  ((List.perm_ext_iff_of_nodup h1 h2).2 h).length_eq

private theorem mem_sublistsLen_range (m c : Nat) (e : List Nat) :
    e ∈ List.sublistsLen c (List.range m) ↔ IsSubsetOfSize m c e := by
  rw [List.mem_sublistsLen]
  constructor
  · rintro ⟨h, hl⟩
    exact ⟨hl, List.pairwise_lt_range.sublist h, fun x hx => List.mem_range.1 (h.subset hx)⟩
  · rintro ⟨hl, hp, hm⟩
    refine ⟨?_, hl⟩
    exact List.sublist_of_subperm_of_pairwise
      (List.subperm_of_subset (hp.imp (fun h => Nat.ne_of_lt h))
      (fun x hx => List.mem_range.2 (hm x hx))) (hp.imp (fun h => Nat.le_of_lt h))
      (List.pairwise_lt_range.imp (fun h => Nat.le_of_lt h))

/-- C06f: the edge loop of an `n`-simplex runs as often as the declared number of edges, so the
statically sized storage is filled exactly. -/
theorem C06_edges_count (n : Nat) : (edgeIdx (simplexNum n 0)).length = simplexNum n 1 := by
  have hv : simplexNum n 0 = n + 1 := by rw [C06_simplex_count]; simp
  rw [hv, C06_simplex_count]
  have := nodup_subset_perm (C06_edges_nodup (n+1))
    (List.Nodup.of_map id (by simpa using List.nodup_sublistsLen 2 (List.nodup_range (n := n + 1))))
    (fun e => (C06_edges_are_pairs _ e).trans (mem_sublistsLen_range (n+1) 2 e).symm)
  rw [this, List.length_sublistsLen, List.length_range]

/-- C06g: likewise for triangles. -/
theorem C06_triangles_count (n : Nat) : (triIdx (simplexNum n 0)).length = simplexNum n 2 := by
  have hv : simplexNum n 0 = n + 1 := by rw [C06_simplex_count]; simp
  rw [hv, C06_simplex_count]
  have := nodup_subset_perm (C06_triangles_nodup (n+1))
    (List.nodup_sublistsLen 3 (List.nodup_range (n := n + 1)))
    (fun e => (C06_triangles_are_triples _ e).trans (mem_sublistsLen_range (n+1) 3 e).symm)
  rw [this, List.length_sublistsLen, List.length_range]

example : simplexNum 3 1 = 6 ∧ simplexNum 3 2 = 4 := by decide
example : edgeIdx 4 = [[0, 1], [0, 2], [0, 3], [1, 2], [1, 3], [2, 3]] := by decide
example : IsSubsetOfSize 4 3 [0, 2, 3] := by unfold IsSubsetOfSize; decide

/-! ### C07 -/

/-- Reference coordinates of local vertex `v` of the `d`-dimensional cube, lexicographic numbering:
coordinate `i` is bit `i` of `v`. -/
def cubeCoords (d v : Nat) : List Bool := (List.range d).map (fun i => v.testBit i)

/-- Number of reference coordinates in which two vertices differ. -/
def hamming (a b : List Bool) : Nat := ((a.zip b).filter (fun p => p.1 != p.2)).length

/-- Specification of an edge of the reference cube: two vertices which differ in one coordinate. -/
def IsCubeEdge (d a b : Nat) : Prop :=
  a < 2 ^ d ∧ b < 2 ^ d ∧ hamming (cubeCoords d a) (cubeCoords d b) = 1

instance (d a b : Nat) : Decidable (IsCubeEdge d a b) := by unfold IsCubeEdge; infer_instance

/-- Specification of a facet of the reference cube: the vertices with a given value of one
coordinate. -/
def IsCubeFacet (d : Nat) (f : List Nat) : Prop :=
  ∃ i < d, ∃ s : Bool, ∀ v < 2 ^ d, v ∈ f ↔ v.testBit i = s

/-- C07a: the edges of a quadrilateral are exactly the edges of the reference square, each once. -/
theorem C07_quad_edges :
    (∀ a b, a < b → ([a, b] ∈ quadEdges ↔ IsCubeEdge 2 a b)) ∧ quadEdges.Nodup ∧
    quadEdges.length = 4 := by
  refine ⟨?_, by decide, by decide⟩
  intro a b hab
  by_cases hb : b < 4
  · have : ∀ b < 4, ∀ a < b, ([a, b] ∈ quadEdges ↔ IsCubeEdge 2 a b) := by decide
    exact this b hb a hab
  · constructor
    · intro h; simp [quadEdges] at h; omega
    · intro h; exact absurd h.2.1 (by simpa using hb)

/-- C07b: the facets of a hexahedron are exactly the six facets of the reference cube. -/
theorem C07_hex_facets :
    (∀ f ∈ hexFaces, IsCubeFacet 3 f ∧ f.Nodup ∧ ∀ v ∈ f, v < 8) ∧
    (∀ i < 3, ∀ s : Bool, ∃ f ∈ hexFaces, ∀ v < 8, v ∈ f ↔ v.testBit i = s) ∧
    hexFaces.length = 6 ∧ hexFaces.Nodup := by
  refine ⟨?_, by decide, by decide, by decide⟩
  unfold IsCubeFacet
  decide

/-- C07c: the facets of a hexahedron list their four vertices in the lexicographic order of a
quadrilateral: the facet's own edges (by the quadrilateral table) are edges of the cube. -/
theorem C07_hex_facet_edges_are_cube_edges :
    ∀ f ∈ hexFaces, ∀ e ∈ quadEdges, ∀ a b, e = [a, b] →
      IsCubeEdge 3 (f.getD a 0) (f.getD b 0) := by
  have : ∀ f ∈ hexFaces, ∀ e ∈ quadEdges,
      IsCubeEdge 3 (f.getD (e.getD 0 0) 0) (f.getD (e.getD 1 0) 0) := by decide
  intro f hf e he a b hab
  have := this f hf e he
  simpa [hab] using this

/-- C07, violated: one of the listed edges of a hexahedron is a diagonal of the cube, and an edge of
the cube is not listed. -/
theorem C07_hex_edges_violated :
    [2, 5] ∈ hexEdges ∧ ¬ IsCubeEdge 3 2 5 ∧ hamming (cubeCoords 3 2) (cubeCoords 3 5) = 3 ∧
    IsCubeEdge 3 2 6 ∧ [2, 6] ∉ hexEdges := by decide

/-- C07 for the edges of hexahedra as far as it holds: all edges but one are right.  Missing from
the full claim: the edge (2,6), listed as (2,5). -/
theorem C07_hex_edges_partial :
    (∀ a b, a < b → (a, b) ≠ (2, 5) → (a, b) ≠ (2, 6) → ([a, b] ∈ hexEdges ↔ IsCubeEdge 3 a b)) ∧
    hexEdges.Nodup ∧ hexEdges.length = 12 := by
  refine ⟨?_, by decide, by decide⟩
  intro a b hab
  by_cases hb : b < 8
  · have : ∀ b < 8, ∀ a < b, ((a, b) = (2, 5) ∨ (a, b) = (2, 6) ∨
        ([a, b] ∈ hexEdges ↔ IsCubeEdge 3 a b)) := by decide
    intro h1 h2
    exact ((this b hb a hab).resolve_left h1).resolve_left h2
  · intro _ _
    constructor
    · intro h; simp [hexEdges] at h; omega
    · intro h; exact absurd h.2.1 (by simpa using hb)

/-- All edges which exist after a hexahedron was created: its own twelve and those of its facets. -/
def hexAllEdges : List (List Nat) :=
  (hexEdges ++ hexFaces.flatMap (fun f => quadEdges.map (fun e => e.map (fun i => f.getD i 0)))).dedup

/-- C07, consequence of the violation: the facets of a hexahedron need an edge that the hexahedron
does not list, so that one hexahedron yields 13 different lines, and the listed line (2,5) belongs
to none of its facets. -/
theorem C07_hex_thirteen_lines :
    hexAllEdges.length = 13 ∧ [2, 6] ∈ hexAllEdges ∧
    ∀ f ∈ hexFaces, ¬ (2 ∈ f ∧ 5 ∈ f) := by decide

/-! ### C55 -/

/-- C55, violated for the polygon without vertices. -/
theorem C55_empty_polygon_undefined : polygonEdges 0 = none := rfl

/-- C55: the edges of a polygon with `m ≥ 1` vertices are, in order, `(i, i+1 mod m)` for each
vertex `i`: one closed cycle through all vertices. -/
theorem C55_polygon_cycle (m : Nat) (hm : 1 ≤ m) :
    ∃ es, polygonEdges m = some es ∧ es.length = m ∧
      ∀ i < m, es[i]? = some [i, (i + 1) % m] := by
  refine ⟨_, by rw [polygonEdges, if_neg (by omega)], by simp; omega, ?_⟩
  intro i hi
  by_cases h : i < m - 1
  · rw [List.getElem?_append_left (by simpa using h)]
    have h2 : (i + 1) % m = i + 1 := Nat.mod_eq_of_lt (by omega)
    simp [h, h2]
  · have h1 : i = m - 1 := by omega
    subst h1
    have h2 : m - 1 + 1 = m := by omega
    rw [List.getElem?_append_right (by simp)]
    simp [h2]

/-- C55: each vertex is the end point of exactly one edge and the start point of exactly one, and for
at least three vertices no two edges have the same end points. -/
theorem C55_polygon_edges_distinct (m : Nat) (hm : 3 ≤ m) :
    ∃ es, polygonEdges m = some es ∧ es.Pairwise (fun e f => ¬ e.Perm f) := by
  obtain ⟨es, h1, h2, h3⟩ := C55_polygon_cycle m (by omega)
  refine ⟨es, h1, ?_⟩
  rw [List.pairwise_iff_getElem]
  intro i j hi hj hij hp
  have e1 := h3 i (by omega)
  have e2 := h3 j (by omega)
  rw [List.getElem?_eq_getElem hi] at e1
  rw [List.getElem?_eq_getElem hj] at e2
  simp only [Option.some.injEq] at e1 e2
  rw [e1, e2] at hp
  have hi' : i ∈ [j, (j + 1) % m] := hp.subset (by simp)
  have hj' : j ∈ [i, (i + 1) % m] := hp.symm.subset (by simp)
  simp at hi' hj'
  have a1 : i = (j + 1) % m := by omega
  have a2 : j = (i + 1) % m := by omega
  have b2 : (i + 1) % m = i + 1 := Nat.mod_eq_of_lt (by omega)
  by_cases hjm : j + 1 = m
  · rw [hjm, Nat.mod_self] at a1; omega
  · rw [Nat.mod_eq_of_lt (by omega)] at a1; omega

example : polygonEdges 4 = some [[0, 1], [1, 2], [2, 3], [3, 0]] := by decide

end VG
