import Verif.Props.Incidence
import Verif.Props.Topology
import Verif.Props.Queries

/-!
# Meshes of polygons

The theorems about `LibTopo` hold for meshes of polygons as well.  Here are the statements which are special for
polygons, and examples on a mesh of a pentagon and a quadrilateral which share an edge.
-/

namespace VG

variable {P : Type}

/-- The layer of the edges of a polygon with `n` vertices. -/
theorem polyTopo_layer {n : Nat} {es : List (List Nat)} (h : polygonEdges n = some es) :
    (1, es) ∈ polyTopo.layers 2 n := by
  simp [polyTopo, h]

/-- C55 in a mesh: each stored polygon has as many edges as vertices, the `i`-th edge is the one stored line between the
`i`-th vertex and the next one (the first one after the last), and `local_vertex` names these two vertices in that
order, however the shared line was created first. -/
theorem C55_mesh_cycle {m : Mesh P} (hb : Built polyTopo m) {e : Elem} (he : e ∈ m.elems 2) :
    3 ≤ e.verts.length ∧ e.verts.Nodup ∧ (e.bndSlots 1).length = e.verts.length ∧
    ∀ i < e.verts.length, ∃ s f, (e.bndSlots 1)[i]? = some s ∧ (m.elems 1)[s]? = some f ∧
      SameVerts f.verts [e.verts.getD i 0, e.verts.getD ((i + 1) % e.verts.length) 0] ∧
      m.localVertex e 1 s 0 = e.verts[i]? ∧ m.localVertex e 1 s 1 = e.verts[(i + 1) % e.verts.length]? ∧
      ∀ s' f', (m.elems 1)[s']? = some f' →
        SameVerts f'.verts [e.verts.getD i 0, e.verts.getD ((i + 1) % e.verts.length) 0] → s' = s := by
  have hT : LibTopo polyTopo := Or.inr (Or.inr (Or.inr (Or.inr (Or.inl rfl))))
  obtain ⟨hn, hl, -⟩ := (hb.inv hT.wf).verts 2 e he
  have h3 : 3 ≤ e.verts.length := by
    rcases hl with h | h
    · have : polyTopo.nv 2 = 3 := rfl
      omega
    · exact h.2.2
  obtain ⟨es, h1, h2, h4⟩ := C55_polygon_cycle e.verts.length (by omega)
  have hlay := polyTopo_layer h1
  have hd : (2 : Nat) ≤ polyTopo.cellDim := Nat.le_refl 2
  refine ⟨h3, hn, ?_, fun i hi => ?_⟩
  · obtain ⟨hlen, -⟩ := C04_refers_to_the_shared_element hT hb hd he hlay (h4 0 (by omega))
    rw [hlen, h2]
  · obtain ⟨-, s, f, h5, h6, h7, h8⟩ := C04_refers_to_the_shared_element hT hb hd he hlay (h4 i hi)
    exact ⟨s, f, h5, h6, h7, C08_local_vertex hT hb hd he hlay (h4 i hi) h5 rfl,
      C08_local_vertex hT hb hd he hlay (h4 i hi) h5 rfl, h8⟩

/-- C05 for polygons: when only vertices and polygons are created, every stored line is an edge of a polygon, and no other
elements are stored. -/
theorem C05_polygon_no_junk {ops : List (MOp P)} {m : Mesh P} (hd : ∀ op ∈ ops, op.Distinct)
    (hc : ∀ op ∈ ops, op.CellsOnly polyTopo) (hr : Mesh.empty.run polyTopo ops = some m) (hu : UniqueVids m) :
    ∀ {s : Nat} {f : Elem}, (m.elems 1)[s]? = some f → ∃ c ∈ m.elems 2, ∃ i < c.verts.length,
      SameVerts f.verts [c.verts.getD i 0, c.verts.getD ((i + 1) % c.verts.length) 0] := by
  have hT : LibTopo polyTopo := Or.inr (Or.inr (Or.inr (Or.inr (Or.inl rfl))))
  intro s f hs
  obtain ⟨d, e, h1, h2, h3, h4⟩ := C05_no_unreferenced_element hT hd hc hr hu (by decide) hs
  obtain rfl : d = 2 := Nat.le_antisymm h2 h1
  obtain ⟨-, -, h5, h6⟩ := C55_mesh_cycle ⟨ops, hd, hr, hu⟩ h3
  obtain ⟨i, hi⟩ := List.mem_iff_getElem?.1 h4
  have hlt : i < e.verts.length := by
    rw [← h5]; exact (List.getElem?_eq_some_iff.1 hi).1
  obtain ⟨s', f', h7, h8, h9, -⟩ := h6 i hlt
  obtain rfl : s = s' := by simpa [hi] using h7
  obtain rfl : f = f' := by simpa [hs] using h8
  exact ⟨e, h3, i, hlt, h9⟩

/-- A pentagon and a quadrilateral which share the edge between vertices 1 and 2. -/
def polyOps : List (MOp Unit) :=
  [.vertex none (), .vertex none (), .vertex none (), .vertex none (), .vertex none (), .vertex none (), .vertex none (),
   .elem 2 [0, 1, 2, 3, 4], .elem 2 [2, 1, 5, 6]]

/-- The mesh of `polyOps`. -/
def polyMesh : Mesh Unit := (Mesh.empty.run polyTopo polyOps).getD Mesh.empty

theorem polyMesh_run : Mesh.empty.run polyTopo polyOps = some polyMesh := rfl

theorem polyMesh_distinct : ∀ op ∈ polyOps, op.Distinct := by simp [polyOps, MOp.Distinct]

theorem polyMesh_unique : UniqueVids polyMesh := by unfold UniqueVids; decide

theorem polyMesh_built : Built polyTopo polyMesh := ⟨polyOps, polyMesh_distinct, polyMesh_run, polyMesh_unique⟩

/-- Eight lines instead of nine; the shared one is the second edge of the pentagon and the first one of the
quadrilateral, which goes through it in the other direction. -/
example : (polyMesh.elems 1).length = 8 ∧ (polyMesh.elems 2).map (·.bndSlots 1) = [[0, 1, 2, 3, 4], [1, 5, 6, 7]] := by
  decide

example : 3 ≤ ((polyMesh.elems 2)[1]'(by decide)).verts.length :=
  (C55_mesh_cycle polyMesh_built (List.getElem_mem _)).1

example : ∃ c ∈ polyMesh.elems 2, ∃ i < c.verts.length,
    SameVerts [2, 3] [c.verts.getD i 0, c.verts.getD ((i + 1) % c.verts.length) 0] :=
  C05_polygon_no_junk polyMesh_distinct (by simp [polyOps, MOp.CellsOnly, polyTopo]) polyMesh_run polyMesh_unique
    (s := 2) (f := (polyMesh.elems 1)[2]'(by decide)) (List.getElem?_eq_getElem _)

/-- Specification: `a` and `b` are consecutive vertices of the polygon, in one of the two directions. -/
def Consecutive (vs : List Nat) (a b : Nat) : Prop :=
  ∃ i < vs.length, SameVerts [a, b] [vs.getD i 0, vs.getD ((i + 1) % vs.length) 0]

/-- A line is on the boundary of a polygon when its end points are consecutive vertices. -/
theorem onBoundary_polygon {m : Mesh P} (hI : Inv polyTopo m) {s t : Nat} :
    OnBoundary polyTopo m 1 s 2 t ↔ ∃ e f a b, (m.elems 2)[t]? = some e ∧ (m.elems 1)[s]? = some f ∧ f.verts = [a, b] ∧
      Consecutive e.verts a b := by
  unfold OnBoundary
  rw [if_neg (by omega)]
  have hlen : ∀ f ∈ m.elems 1, ∃ a b, f.verts = [a, b] := by
    intro f hf
    have : f.verts.length = 2 := (hI.verts 1 f hf).2.1.lower (by decide)
    match f.verts, this with
    | [a, b], _ => exact ⟨a, b, rfl⟩
  have hpos : ∀ e ∈ m.elems 2, 1 ≤ e.verts.length := by
    intro e he
    rcases (hI.verts 2 e he).2.1 with h | h
    · rw [h]; decide
    · omega
  constructor
  · rintro ⟨e, f, idxs, ix, he, hf, hl, hix, hsv⟩
    obtain ⟨a, b, hab⟩ := hlen f (List.mem_of_getElem? hf)
    obtain ⟨es, h1, h2, h3⟩ := C55_polygon_cycle e.verts.length (hpos e (List.mem_of_getElem? he))
    obtain rfl : idxs = es := by simpa [polyTopo, h1] using hl
    obtain ⟨i, hi⟩ := List.mem_iff_getElem?.1 hix
    have hlt : i < e.verts.length := by rw [← h2]; exact (List.getElem?_eq_some_iff.1 hi).1
    rw [h3 i hlt] at hi
    cases hi
    rw [hab] at hsv
    exact ⟨e, f, a, b, he, hf, hab, i, hlt, hsv⟩
  · rintro ⟨e, f, a, b, he, hf, hab, i, hlt, hsv⟩
    obtain ⟨es, h1, h2, h3⟩ := C55_polygon_cycle e.verts.length (hpos e (List.mem_of_getElem? he))
    refine ⟨e, f, es, _, he, hf, polyTopo_layer h1, List.mem_of_getElem? (h3 i hlt), ?_⟩
    rw [hab]
    exact hsv

/-- C13 for polygons: the polygons at a line are those in which its two end points are consecutive vertices. -/
theorem C13_coboundary_polygon {st : MState P} (h : Reached polyTopo st) {s : Nat} {f : Elem} {a b : Nat}
    (hs : (st.mesh.elems 1)[s]? = some f) (hab : f.verts = [a, b]) (t : Nat) :
    t ∈ (st.coboundary 1 2 s).2 ↔ ∃ e, (st.mesh.elems 2)[t]? = some e ∧ Consecutive e.verts a b := by
  have hT : LibTopo polyTopo := Or.inr (Or.inr (Or.inr (Or.inr (Or.inl rfl))))
  have hlt : s < st.mesh.count 1 := (List.getElem?_eq_some_iff.1 hs).1
  rw [(C13_coboundary_exact hT h (by omega) (by decide) hlt).2 t, onBoundary_polygon (h.inv hT.wf).inv]
  constructor
  · rintro ⟨e, f', a', b', he, hf, hab', hc⟩
    obtain rfl : f = f' := by simpa [hs] using hf
    obtain ⟨rfl, rfl⟩ : a = a' ∧ b = b' := by simpa [hab] using hab'
    exact ⟨e, he, hc⟩
  · rintro ⟨e, he, hc⟩
    exact ⟨e, f, a, b, he, hs, hab, hc⟩

/-- C14 for polygons: two polygons are neighbors along lines when there are two vertices which are consecutive in both. -/
theorem C14_neighbors_polygon {st : MState P} (h : Reached polyTopo st) {t u : Nat} {e g : Elem}
    (ht : (st.mesh.elems 2)[t]? = some e) (hu : (st.mesh.elems 2)[u]? = some g) :
    u ∈ (st.neighbors 2 1 t).2 ↔ u ≠ t ∧ ∃ a b, a ≠ b ∧ Consecutive e.verts a b ∧ Consecutive g.verts a b := by
  have hT : LibTopo polyTopo := Or.inr (Or.inr (Or.inr (Or.inr (Or.inl rfl))))
  have hlt : t < st.mesh.count 2 := (List.getElem?_eq_some_iff.1 ht).1
  have hI := (h.inv hT.wf).inv
  rw [(C14_neighbors_exact hT h (by omega) (by decide) hlt).2 u]
  refine and_congr_right fun _ => ?_
  simp only [onBoundary_polygon hI]
  constructor
  · rintro ⟨s, ⟨e', f, a, b, h1, h2, h3, h4⟩, g', f', a', b', h5, h6, h7, h8⟩
    obtain rfl : e = e' := by simpa [ht] using h1
    obtain rfl : g = g' := by simpa [hu] using h5
    obtain rfl : f = f' := by simpa [h2] using h6
    obtain ⟨rfl, rfl⟩ : a = a' ∧ b = b' := by simpa [h3] using h7
    refine ⟨a, b, ?_, h4, h8⟩
    have := (hI.verts 1 f (List.mem_of_getElem? h2)).1
    rw [h3] at this
    simpa using this
  · rintro ⟨a, b, -, h1, h2⟩
    obtain ⟨i, hi, hsv⟩ := h1
    obtain ⟨es, h3, -, h6⟩ := C55_polygon_cycle e.verts.length (by omega)
    obtain ⟨refs, -, h8⟩ := (hI.bnd 2 e (List.mem_of_getElem? ht)).lookup (hT.wf.once 2 _) (polyTopo_layer h3)
    obtain ⟨⟨s, o⟩, -, f, h4, h9, -, -⟩ := forall₂_getElem? h8 (h6 i hi)
    have h5 : SameVerts f.verts [e.verts.getD i 0, e.verts.getD ((i + 1) % e.verts.length) 0] := sameVerts_of_perm h9
    have h7 : f.verts.length = 2 := (hI.verts 1 f (List.mem_of_getElem? h4)).2.1.lower (by decide)
    obtain ⟨c, d, hcd⟩ : ∃ c d, f.verts = [c, d] := by
      match f.verts, h7 with
      | [c, d], _ => exact ⟨c, d, rfl⟩
    rw [hcd] at h5
    obtain ⟨j, hj, hsv'⟩ := h2
    exact ⟨s, ⟨e, f, c, d, ht, h4, hcd, i, hi, h5⟩, g, f, c, d, hu, h4, hcd, j, hj,
      fun v => (h5 v).trans ((hsv v).symm.trans (hsv' v))⟩

/-- The same mesh with queries in between. -/
def polyState : MState Unit := (MState.empty.run polyTopo (polyOps.map .mesh)).getD MState.empty

theorem polyState_reached : Reached polyTopo polyState :=
  ⟨polyOps.map .mesh, by simp [polyOps, QOp.meshOps, MOp.Distinct], rfl, by unfold UniqueVids; decide⟩

example : (polyState.coboundary 1 2 1).2 = [0, 1] ∧ (polyState.coboundary 1 2 0).2 = [0] := by decide

example : (0 ∈ (polyState.coboundary 1 2 1).2) ↔ ∃ e, (polyState.mesh.elems 2)[0]? = some e ∧ Consecutive e.verts 1 2 :=
  C13_coboundary_polygon polyState_reached (f := (polyState.mesh.elems 1)[1]'(by decide)) (List.getElem?_eq_getElem _)
    (by decide) 0

example : ∃ e g, (polyState.mesh.elems 2)[0]? = some e ∧ (polyState.mesh.elems 2)[1]? = some g ∧
    (1 ∈ (polyState.neighbors 2 1 0).2 ↔ 1 ≠ 0 ∧ ∃ a b, a ≠ b ∧ Consecutive e.verts a b ∧ Consecutive g.verts a b) := by
  have h0 : ((polyState.mesh.elems 2)[0]?).isSome := by decide +kernel
  have h1 : ((polyState.mesh.elems 2)[1]?).isSome := by decide +kernel
  obtain ⟨e, he⟩ := Option.isSome_iff_exists.1 h0
  obtain ⟨g, hg⟩ := Option.isSome_iff_exists.1 h1
  exact ⟨e, g, he, hg, C14_neighbors_polygon polyState_reached he hg⟩

example : (polyState.neighbors 2 1 0).2 = [1] := by decide +kernel

/-- The outer edges are on the boundary, the shared one is not. -/
example : (List.range 8).map (fun s => (polyState.isBoundary polyTopo 1 s).2) =
    [true, false, true, true, true, true, true, true] := by decide +kernel

end VG
