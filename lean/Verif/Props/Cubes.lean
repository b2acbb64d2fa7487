import Verif.Props.Incidence
import Verif.Props.Topology
import Verif.Props.Queries
import Verif.Lemmas.Descend

/-!
# Meshes of quadrilaterals and hexahedra

Incidences of quadrilaterals, of hexahedra and their facets, and what the wrong edge of hexahedra (C07) means for a mesh.
-/

namespace VG

variable {P : Type}

/-! ### Specification -/

/-- The line `f` is between two corners of `e` which differ in one coordinate of the reference cube of dimension `d`. -/
def EdgeOfCube (d : Nat) (f e : List Nat) : Prop :=
  ∃ a b, IsCubeEdge d a b ∧ SameVerts f [e.getD a 0, e.getD b 0]

/-- The corners of a hexahedron with the value `s` of the reference coordinate `i`. -/
def facetCorners (e : List Nat) (i : Nat) (s : Bool) : List Nat :=
  ((List.range 8).filter (fun v => v.testBit i == s)).map (fun v => e.getD v 0)

/-- The quadrilateral `f` is at one of the six sides of the hexahedron `e`. -/
def FacetOfCube (f e : List Nat) : Prop := ∃ i < 3, ∃ s : Bool, SameVerts f (facetCorners e i s)

/-! ### Incidence -/

theorem sameVerts_swap {f : List Nat} {a b : Nat} (h : SameVerts f [a, b]) : SameVerts f [b, a] := by
  intro v
  rw [h v]
  simp only [List.mem_cons, List.not_mem_nil, or_false]
  exact or_comm

theorem quadEdges_iff (f e : List Nat) :
    (∃ ix ∈ quadEdges, SameVerts f (ix.map (fun i => e.getD i 0))) ↔ EdgeOfCube 2 f e := by
  constructor
  · rintro ⟨ix, hix, h⟩
    have : ∀ ix ∈ quadEdges, ix = [ix.getD 0 0, ix.getD 1 0] ∧ IsCubeEdge 2 (ix.getD 0 0) (ix.getD 1 0) := by decide
    obtain ⟨h1, h2⟩ := this ix hix
    refine ⟨_, _, h2, ?_⟩
    rw [h1] at h
    exact h
  · rintro ⟨a, b, hab, h⟩
    rcases lt_trichotomy a b with hlt | rfl | hlt
    · exact ⟨[a, b], (C07_quad_edges.1 a b hlt).2 hab, h⟩
    · have : ∀ a < 4, ¬ IsCubeEdge 2 a a := by decide
      exact absurd hab (this a hab.1)
    · have : ∀ a < 4, ∀ b < 4, IsCubeEdge 2 a b → IsCubeEdge 2 b a := by decide
      exact ⟨[b, a], (C07_quad_edges.1 b a hlt).2 (this a hab.1 b hab.2.1 hab), sameVerts_swap h⟩

/-- A line is on the boundary of a quadrilateral when its ends are corners next to each other. -/
theorem onBoundary_quad {n : Nat} {m : Mesh P} {s t : Nat} {e f : Elem} (he : (m.elems 2)[t]? = some e)
    (hf : (m.elems 1)[s]? = some f) : OnBoundary (cubeTopo n) m 1 s 2 t ↔ EdgeOfCube 2 f.verts e.verts := by
  unfold OnBoundary
  rw [if_neg (by omega), ← quadEdges_iff]
  constructor
  · rintro ⟨e', f', idxs, ix, he', hf', hl, hix, hsv⟩
    obtain rfl : e = e' := by simpa [he] using he'
    obtain rfl : f = f' := by simpa [hf] using hf'
    obtain rfl : idxs = quadEdges := by simpa [cubeTopo] using hl
    exact ⟨ix, hix, hsv⟩
  · rintro ⟨ix, hix, hsv⟩
    exact ⟨e, f, quadEdges, ix, he, hf, by simp [cubeTopo], hix, hsv⟩

theorem hexFaces_iff (f e : List Nat) :
    (∃ ix ∈ hexFaces, SameVerts f (ix.map (fun i => e.getD i 0))) ↔ FacetOfCube f e := by
  have h1 : ∀ ix ∈ hexFaces, ∃ i < 3, ∃ s : Bool, ix = (List.range 8).filter (fun v => v.testBit i == s) := by decide
  have h2 : ∀ i < 3, ∀ s : Bool, (List.range 8).filter (fun v => v.testBit i == s) ∈ hexFaces := by decide
  constructor
  · rintro ⟨ix, hix, h⟩
    obtain ⟨i, hi, s, rfl⟩ := h1 ix hix
    exact ⟨i, hi, s, h⟩
  · rintro ⟨i, hi, s, h⟩
    exact ⟨_, h2 i hi s, h⟩

/-- A quadrilateral is on the boundary of a hexahedron when it is at one of its sides. -/
theorem onBoundary_hex_facet {m : Mesh P} {s t : Nat} {e f : Elem} (he : (m.elems 3)[t]? = some e)
    (hf : (m.elems 2)[s]? = some f) : OnBoundary (cubeTopo 3) m 2 s 3 t ↔ FacetOfCube f.verts e.verts := by
  unfold OnBoundary
  rw [if_neg (by omega), ← hexFaces_iff]
  constructor
  · rintro ⟨e', f', idxs, ix, he', hf', hl, hix, hsv⟩
    obtain rfl : e = e' := by simpa [he] using he'
    obtain rfl : f = f' := by simpa [hf] using hf'
    obtain rfl : idxs = hexFaces := by simpa [cubeTopo] using hl
    exact ⟨ix, hix, hsv⟩
  · rintro ⟨ix, hix, hsv⟩
    exact ⟨e, f, hexFaces, ix, he, hf, by simp [cubeTopo], hix, hsv⟩

theorem onBoundary_hex_line {m : Mesh P} {s t : Nat} {e f : Elem} (he : (m.elems 3)[t]? = some e)
    (hf : (m.elems 1)[s]? = some f) : OnBoundary (cubeTopo 3) m 1 s 3 t ↔
      ∃ ix ∈ hexEdges, SameVerts f.verts (ix.map (fun i => e.verts.getD i 0)) := by
  unfold OnBoundary
  rw [if_neg (by omega)]
  constructor
  · rintro ⟨e', f', idxs, ix, he', hf', hl, hix, hsv⟩
    obtain rfl : e = e' := by simpa [he] using he'
    obtain rfl : f = f' := by simpa [hf] using hf'
    obtain rfl : idxs = hexEdges := by simpa [cubeTopo] using hl
    exact ⟨ix, hix, hsv⟩
  · rintro ⟨ix, hix, hsv⟩
    exact ⟨e, f, hexEdges, ix, he, hf, by simp [cubeTopo], hix, hsv⟩

theorem hexEdges_iff {f e : List Nat} (h25 : ¬ SameVerts f [e.getD 2 0, e.getD 5 0])
    (h26 : ¬ SameVerts f [e.getD 2 0, e.getD 6 0]) :
    (∃ ix ∈ hexEdges, SameVerts f (ix.map (fun i => e.getD i 0))) ↔ EdgeOfCube 3 f e := by
  constructor
  · rintro ⟨ix, hix, h⟩
    have : ∀ ix ∈ hexEdges, ix = [ix.getD 0 0, ix.getD 1 0] ∧
        (ix = [2, 5] ∨ IsCubeEdge 3 (ix.getD 0 0) (ix.getD 1 0)) := by decide
    obtain ⟨h1, h2⟩ := this ix hix
    rcases h2 with rfl | h2
    · exact absurd h h25
    · refine ⟨_, _, h2, ?_⟩
      rw [h1] at h
      exact h
  · rintro ⟨a, b, hab, h⟩
    have key : ∀ a b, a < b → IsCubeEdge 3 a b → SameVerts f [e.getD a 0, e.getD b 0] → [a, b] ∈ hexEdges := by
      intro a b hlt hab h
      refine (C07_hex_edges_partial.1 a b hlt ?_ ?_).2 hab
      · intro hp; cases hp; exact h25 h
      · intro hp; cases hp; exact h26 h
    rcases lt_trichotomy a b with hlt | rfl | hlt
    · exact ⟨[a, b], key a b hlt hab h, h⟩
    · have : ∀ a < 8, ¬ IsCubeEdge 3 a a := by decide
      exact absurd hab (this a hab.1)
    · have : ∀ a < 8, ∀ b < 8, IsCubeEdge 3 a b → IsCubeEdge 3 b a := by decide
      exact ⟨[b, a], key b a hlt (this a hab.1 b hab.2.1 hab) (sameVerts_swap h), sameVerts_swap h⟩

theorem cube_lib (n : Nat) : LibTopo (cubeTopo n) := Or.inr (Or.inl ⟨n, rfl⟩)

/-! ### Coboundaries -/

/-- C13 for quadrilaterals (cells of a mesh of quadrilaterals, or facets of hexahedra): the quadrilaterals at a line are
those in which its ends are corners next to each other. -/
theorem C13_coboundary_quad {n : Nat} (hn : n = 2 ∨ n = 3) {st : MState P} (h : Reached (cubeTopo n) st) {s : Nat} {f : Elem}
    (hs : (st.mesh.elems 1)[s]? = some f) (t : Nat) :
    t ∈ (st.coboundary 1 2 s).2 ↔ ∃ e, (st.mesh.elems 2)[t]? = some e ∧ EdgeOfCube 2 f.verts e.verts := by
  have hlt : s < st.mesh.count 1 := (List.getElem?_eq_some_iff.1 hs).1
  rw [(C13_coboundary_exact (cube_lib n) h (by omega) (by rcases hn with rfl | rfl <;> decide) hlt).2 t]
  constructor
  · intro hb
    have : ∃ e, (st.mesh.elems 2)[t]? = some e := by
      unfold OnBoundary at hb
      rw [if_neg (by omega)] at hb
      obtain ⟨e, _, _, _, he, _⟩ := hb
      exact ⟨e, he⟩
    obtain ⟨e, he⟩ := this
    exact ⟨e, he, (onBoundary_quad he hs).1 hb⟩
  · rintro ⟨e, he, hc⟩
    exact (onBoundary_quad he hs).2 hc

/-- C13 for hexahedra and their facets: the hexahedra at a quadrilateral are those which have it at one of their sides. -/
theorem C13_coboundary_hex_facet {st : MState P} (h : Reached (cubeTopo 3) st) {s : Nat} {f : Elem}
    (hs : (st.mesh.elems 2)[s]? = some f) (t : Nat) :
    t ∈ (st.coboundary 2 3 s).2 ↔ ∃ e, (st.mesh.elems 3)[t]? = some e ∧ FacetOfCube f.verts e.verts := by
  have hlt : s < st.mesh.count 2 := (List.getElem?_eq_some_iff.1 hs).1
  rw [(C13_coboundary_exact (cube_lib 3) h (by omega) (by decide) hlt).2 t]
  constructor
  · intro hb
    have : ∃ e, (st.mesh.elems 3)[t]? = some e := by
      unfold OnBoundary at hb
      rw [if_neg (by omega)] at hb
      obtain ⟨e, _, _, _, he, _⟩ := hb
      exact ⟨e, he⟩
    obtain ⟨e, he⟩ := this
    exact ⟨e, he, (onBoundary_hex_facet he hs).1 hb⟩
  · rintro ⟨e, he, hc⟩
    exact (onBoundary_hex_facet he hs).2 hc

/-- C07 in a mesh, lines at hexahedra.  Full statement: the hexahedra at a line are those in which it is one of the twelve
edges.  That is false, see `C07_violated_in_mesh`.  Proved: it holds for a line and a hexahedron unless the line is
between the third and the sixth, or between the third and the seventh corner of the hexahedron. -/
theorem C07_hex_coboundary_partial {st : MState P} (h : Reached (cubeTopo 3) st) {s t : Nat} {f e : Elem}
    (hs : (st.mesh.elems 1)[s]? = some f) (ht : (st.mesh.elems 3)[t]? = some e)
    (h25 : ¬ SameVerts f.verts [e.verts.getD 2 0, e.verts.getD 5 0])
    (h26 : ¬ SameVerts f.verts [e.verts.getD 2 0, e.verts.getD 6 0]) :
    t ∈ (st.coboundary 1 3 s).2 ↔ EdgeOfCube 3 f.verts e.verts := by
  have hlt : s < st.mesh.count 1 := (List.getElem?_eq_some_iff.1 hs).1
  rw [(C13_coboundary_exact (cube_lib 3) h (by omega) (by decide) hlt).2 t, onBoundary_hex_line ht hs,
    hexEdges_iff h25 h26]

/-! ### No junk -/

theorem cube_descends {n d j : Nat} {vs ws : List Nat} (h : Descends (cubeTopo n) d vs j ws) :
    (d = j ∧ vs = ws) ∨ (d = 2 ∧ j = 1 ∧ ∃ ix ∈ quadEdges, ws = pick vs ix) ∨
    (d = 3 ∧ j = 1 ∧ ∃ ix ∈ hexEdges, ws = pick vs ix) ∨ (d = 3 ∧ j = 2 ∧ ∃ ix ∈ hexFaces, ws = pick vs ix) ∨
    (d = 3 ∧ j = 1 ∧ ∃ ix ∈ hexFaces, ∃ jx ∈ quadEdges, ws = pick (pick vs ix) jx) := by
  induction h with
  | refl d vs => exact Or.inl ⟨rfl, rfl⟩
  | @step d vs k idxs ix j ws hl hix h ih =>
    have hno : ∀ {k' : Nat} {us : List Nat}, k' = 1 → Descends (cubeTopo n) k' us j ws → j = 1 ∧ us = ws := by
      intro k' us hk h
      cases h with
      | refl => exact ⟨hk, rfl⟩
      | step hl' => subst hk; simp [cubeTopo] at hl'
    rcases d with _ | _ | _ | _ | d
    · simp [cubeTopo] at hl
    · simp [cubeTopo] at hl
    · obtain ⟨rfl, rfl⟩ : k = 1 ∧ idxs = quadEdges := by simpa [cubeTopo] using hl
      obtain ⟨rfl, h2⟩ := hno rfl h
      exact Or.inr (Or.inl ⟨rfl, rfl, ix, hix, h2.symm⟩)
    · have hl' : (k = 1 ∧ idxs = hexEdges) ∨ (k = 2 ∧ idxs = hexFaces) := by simpa [cubeTopo] using hl
      rcases hl' with ⟨rfl, rfl⟩ | ⟨rfl, rfl⟩
      · obtain ⟨rfl, h2⟩ := hno rfl h
        exact Or.inr (Or.inr (Or.inl ⟨rfl, rfl, ix, hix, h2.symm⟩))
      · rcases ih with ⟨h1, h2⟩ | ⟨_, h1, jx, h2, h3⟩ | ⟨h1, _⟩ | ⟨h1, _⟩ | ⟨h1, _⟩
        · exact Or.inr (Or.inr (Or.inr (Or.inl ⟨rfl, h1.symm, ix, hix, h2.symm⟩)))
        · exact Or.inr (Or.inr (Or.inr (Or.inr ⟨rfl, h1, ix, hix, jx, h2, h3⟩)))
        · cases h1
        · cases h1
        · cases h1
    · simp [cubeTopo] at hl

/-- C05 for quadrilaterals: when only vertices and quadrilaterals are created, every stored line is an edge of one of
them. -/
theorem C05_quad_no_junk {ops : List (MOp P)} {m : Mesh P} (hc : ∀ op ∈ ops, op.CellsOnly (cubeTopo 2))
    (hr : Mesh.empty.run (cubeTopo 2) ops = some m) {f : Elem} (hf : f ∈ m.elems 1) :
    ∃ c ∈ m.elems 2, EdgeOfCube 2 f.verts c.verts := by
  obtain ⟨c, h1, h2⟩ := run_fromCells (T := cubeTopo 2) (m := Mesh.empty) (fun j f hf => by cases hf) hc hr 1 f hf
  refine ⟨c, h1, (quadEdges_iff _ _).1 ?_⟩
  rcases cube_descends h2 with ⟨h, _⟩ | ⟨_, _, ix, h3, h4⟩ | ⟨h, _⟩ | ⟨h, _⟩ | ⟨h, _⟩
  · cases h
  · exact ⟨ix, h3, by rw [h4]; exact fun v => Iff.rfl⟩
  · cases h
  · cases h
  · cases h

/-- C07 in a mesh, as far as it holds.  When only vertices and hexahedra are created, every stored quadrilateral is a facet of a hexahedron, and every stored line
is an edge of a hexahedron or the diagonal between its third and sixth corner.  Without the diagonal this is false, see
`C07_violated_in_mesh`. -/
theorem C07_hex_no_junk_partial {ops : List (MOp P)} {m : Mesh P} (hc : ∀ op ∈ ops, op.CellsOnly (cubeTopo 3))
    (hr : Mesh.empty.run (cubeTopo 3) ops = some m) :
    (∀ f ∈ m.elems 2, ∃ c ∈ m.elems 3, FacetOfCube f.verts c.verts) ∧
    (∀ f ∈ m.elems 1, ∃ c ∈ m.elems 3,
      EdgeOfCube 3 f.verts c.verts ∨ SameVerts f.verts [c.verts.getD 2 0, c.verts.getD 5 0]) := by
  have key := run_fromCells (T := cubeTopo 3) (m := Mesh.empty) (fun j f hf => by cases hf) hc hr
  constructor
  · intro f hf
    obtain ⟨c, h1, h2⟩ := key 2 f hf
    refine ⟨c, h1, (hexFaces_iff _ _).1 ?_⟩
    rcases cube_descends h2 with ⟨h, _⟩ | ⟨h, _⟩ | ⟨_, h, _⟩ | ⟨_, _, ix, h3, h4⟩ | ⟨_, h, _⟩
    · cases h
    · cases h
    · cases h
    · exact ⟨ix, h3, by rw [h4]; exact fun v => Iff.rfl⟩
    · cases h
  · intro f hf
    obtain ⟨c, h1, h2⟩ := key 1 f hf
    refine ⟨c, h1, ?_⟩
    rcases cube_descends h2 with ⟨h, _⟩ | ⟨h, _⟩ | ⟨_, _, ix, h3, h4⟩ | ⟨_, h, _⟩ | ⟨_, _, ix, h3, jx, h4, h5⟩
    · cases h
    · cases h
    · have : ∀ ix ∈ hexEdges, ix = [ix.getD 0 0, ix.getD 1 0] ∧
        (ix = [2, 5] ∨ IsCubeEdge 3 (ix.getD 0 0) (ix.getD 1 0)) := by decide
      obtain ⟨h5, h6⟩ := this ix h3
      rcases h6 with rfl | h6
      · exact Or.inr (by rw [h4]; exact fun v => Iff.rfl)
      · refine Or.inl ⟨_, _, h6, ?_⟩
        rw [h4]
        conv_lhs => rw [h5]
        exact fun v => Iff.rfl
    · cases h
    · left
      have : ∀ ix ∈ hexFaces, ∀ jx ∈ quadEdges, ∃ a < 8, ∃ b < 8, IsCubeEdge 3 a b ∧ ix.length = 4 ∧
          pick ix jx = [a, b] ∧ jx.length = 2 ∧ ∀ x ∈ jx, x < 4 := by decide
      obtain ⟨a, _, b, _, h6, h7, h8, _, h9⟩ := this ix h3 jx h4
      refine ⟨a, b, h6, ?_⟩
      have h10 : pick (pick c.verts ix) jx = pick c.verts (pick ix jx) := by
        unfold pick
        rw [List.map_map]
        refine List.map_congr_left (fun x hx => ?_)
        have := h9 x hx
        rw [Function.comp, List.getD_eq_getElem _ _ (by simp only [List.length_map]; omega), List.getElem_map,
          List.getD_eq_getElem ix _ (by omega)]
      rw [h5, h10, h8]
      exact fun v => Iff.rfl

/-! ### Examples -/

/-- A mesh of one hexahedron. -/
def hexOps : List (QOp Nat) := [.mesh (.vertex none 0), .mesh (.vertex none 1), .mesh (.vertex none 2),
  .mesh (.vertex none 3), .mesh (.vertex none 4), .mesh (.vertex none 5), .mesh (.vertex none 6), .mesh (.vertex none 7),
  .mesh (.elem 3 [0, 1, 2, 3, 4, 5, 6, 7])]

/-- The mesh of one hexahedron. -/
def hexState : MState Nat := (MState.empty.run (cubeTopo 3) hexOps).getD MState.empty

theorem hexState_reached : Reached (cubeTopo 3) hexState := by
  refine ⟨hexOps, by simp [hexOps, QOp.meshOps, MOp.Distinct], ?_, by unfold UniqueVids; decide +kernel⟩
  have h : (MState.empty.run (cubeTopo 3) hexOps).isSome = true := by decide +kernel
  unfold hexState
  cases h' : MState.empty.run (cubeTopo 3) hexOps with
  | none => rw [h'] at h; cases h
  | some st => rfl

/-- Two quadrilaterals sharing a line. -/
def quadOps : List (QOp Nat) := [.mesh (.vertex none 0), .mesh (.vertex none 1), .mesh (.vertex none 2),
  .mesh (.vertex none 3), .mesh (.vertex none 4), .mesh (.vertex none 5), .mesh (.elem 2 [0, 1, 3, 4]),
  .mesh (.elem 2 [1, 2, 4, 5])]

/-- The mesh of two quadrilaterals. -/
def quadState : MState Nat := (MState.empty.run (cubeTopo 2) quadOps).getD MState.empty

theorem quadState_reached : Reached (cubeTopo 2) quadState := by
  refine ⟨quadOps, by simp [quadOps, QOp.meshOps, MOp.Distinct], ?_, by unfold UniqueVids; decide +kernel⟩
  have h : (MState.empty.run (cubeTopo 2) quadOps).isSome = true := by decide +kernel
  unfold quadState
  cases h' : MState.empty.run (cubeTopo 2) quadOps with
  | none => rw [h'] at h; cases h
  | some st => rfl

/-- C07 in a mesh is violated: in the mesh of one hexahedron 13 lines are stored.  The line of the vertices 2 and 6 is an
edge of the hexahedron and of two of its facets, but the hexahedron is not in its coboundary; the line of the vertices 2
and 5 is not an edge, the hexahedron is in its coboundary, no facet is, and it is not a boundary element. -/
theorem C07_violated_in_mesh : Reached (cubeTopo 3) hexState ∧
    (hexState.mesh.elems 3).map (·.verts) = [[0, 1, 2, 3, 4, 5, 6, 7]] ∧
    (hexState.mesh.elems 1).map (·.verts) = [[0, 1], [0, 2], [0, 4], [1, 3], [1, 5], [2, 3], [2, 5], [3, 7], [4, 5],
      [4, 6], [5, 7], [6, 7], [2, 6]] ∧
    EdgeOfCube 3 [2, 6] [0, 1, 2, 3, 4, 5, 6, 7] ∧ (hexState.coboundary 1 3 12).2 = [] ∧
    (hexState.coboundary 1 2 12).2.length = 2 ∧
    (¬ EdgeOfCube 3 [2, 5] [0, 1, 2, 3, 4, 5, 6, 7]) ∧ (hexState.coboundary 1 3 6).2 = [0] ∧
    (hexState.coboundary 1 2 6).2 = [] ∧ (hexState.isBoundary (cubeTopo 3) 1 6).2 = false ∧
    (∀ i < 13, i ≠ 6 → (hexState.isBoundary (cubeTopo 3) 1 i).2 = true) := by
  refine ⟨hexState_reached, by decide +kernel, by decide +kernel, ⟨2, 6, by decide, fun v => Iff.rfl⟩, by decide +kernel,
    by decide +kernel, ?_, by decide +kernel, by decide +kernel, by decide +kernel, by decide +kernel⟩
  rintro ⟨a, b, hab, h⟩
  have h1 : ∀ a < 8, ∀ b < 8, IsCubeEdge 3 a b → (([0, 1, 2, 3, 4, 5, 6, 7] : List Nat).getD a 0,
      ([0, 1, 2, 3, 4, 5, 6, 7] : List Nat).getD b 0) = (a, b) := by decide
  have h2 : ∀ a < 8, ∀ b < 8, ¬ (IsCubeEdge 3 a b ∧ (a = 2 ∨ b = 2) ∧ (a = 5 ∨ b = 5)) := by decide
  have h3 := h1 a hab.1 b hab.2.1 hab
  simp only [Prod.mk.injEq] at h3
  rw [h3.1, h3.2] at h
  have h4 := (h 2).1 (by simp)
  have h5 := (h 5).1 (by simp)
  simp only [List.mem_cons, List.not_mem_nil, or_false] at h4 h5
  exact h2 a hab.1 b hab.2.1 ⟨hab, h4.imp Eq.symm Eq.symm, h5.imp Eq.symm Eq.symm⟩

example : (quadState.coboundary 1 2 2).2 = [0, 1] ∧ (quadState.mesh.elems 1).map (·.verts) =
    [[0, 1], [0, 3], [1, 4], [3, 4], [1, 2], [2, 5], [4, 5]] := by decide +kernel

example : Reached (cubeTopo 2) quadState ∧ EdgeOfCube 2 [1, 4] [0, 1, 3, 4] ∧ FacetOfCube [4, 5, 6, 7] [0, 1, 2, 3, 4, 5, 6, 7] :=
  ⟨quadState_reached, ⟨1, 3, by decide, fun v => Iff.rfl⟩, ⟨2, by omega, true, fun v => Iff.rfl⟩⟩

example : (hexState.coboundary 2 3 5).2 = [0] ∧ ((hexState.mesh.elems 2)[5]?.map (·.verts)) = some [4, 5, 6, 7] := by
  decide +kernel

/-- The operations creating two quadrilaterals. -/
def quadMeshOps : List (MOp Nat) := [.vertex none 0, .vertex none 1, .vertex none 2, .vertex none 3, .vertex none 4,
  .vertex none 5, .elem 2 [0, 1, 3, 4], .elem 2 [1, 2, 4, 5]]

/-- The operations creating one hexahedron. -/
def hexMeshOps : List (MOp Nat) := [.vertex none 0, .vertex none 1, .vertex none 2, .vertex none 3, .vertex none 4,
  .vertex none 5, .vertex none 6, .vertex none 7, .elem 3 [0, 1, 2, 3, 4, 5, 6, 7]]

example : (∀ op ∈ quadMeshOps, op.CellsOnly (cubeTopo 2)) ∧ (Mesh.empty.run (cubeTopo 2) quadMeshOps).isSome = true ∧
    (∀ op ∈ hexMeshOps, op.CellsOnly (cubeTopo 3)) ∧ (Mesh.empty.run (cubeTopo 3) hexMeshOps).isSome = true := by
  refine ⟨?_, by decide +kernel, ?_, by decide +kernel⟩
  · simp [quadMeshOps, MOp.CellsOnly, cubeTopo]
  · simp [hexMeshOps, MOp.CellsOnly, cubeTopo]

end VG
