import Verif.Props.Erase

/-!
Thin meshes, which store vertices and cells only (C05, C13, C14).  The general theorems about creation, queries, segments
and erasure hold for them as well (`LibTopo`, `ClosedTopo`, `EraseTopo`); here is what they say in terms of vertices.
-/

namespace VG

variable {P : Type}

/-- A thin configuration of the library. -/
def ThinTopo (T : Topo) : Prop := (∃ n, T = thinTopo (simplexTopo n)) ∨ (∃ n, T = thinTopo (cubeTopo n)) ∨
  T = thinTopo polyTopo

theorem ThinTopo.lib {T : Topo} (h : ThinTopo T) : LibTopo T := by
  rcases h with h | h | h
  · exact Or.inr (Or.inr (Or.inl h))
  · exact Or.inr (Or.inr (Or.inr (Or.inl h)))
  · exact Or.inr (Or.inr (Or.inr (Or.inr (Or.inr h))))

theorem ThinTopo.layers {T : Topo} (h : ThinTopo T) (d n : Nat) : T.layers d n = [] := by
  rcases h with ⟨n, rfl⟩ | ⟨n, rfl⟩ | rfl <;> rfl

/-- C05: a thin mesh stores nothing but vertices and cells. -/
theorem C05_thin {T : Topo} (hT : ThinTopo T) {ops : List (MOp P)} {m : Mesh P} (hd : ∀ op ∈ ops, op.Distinct)
    (hc : ∀ op ∈ ops, op.CellsOnly T) (hr : Mesh.empty.run T ops = some m) (hu : UniqueVids m) {k : Nat}
    (hk : k < T.cellDim) : m.elems k = [] := by
  by_contra hne
  obtain ⟨f, hf⟩ := List.exists_mem_of_ne_nil _ hne
  obtain ⟨s, hs⟩ := List.mem_iff_getElem?.1 hf
  obtain ⟨d, e, hkd, -, he, hb⟩ := C05_no_unreferenced_element hT.lib hd hc hr hu hk hs
  have hI := run_inv hT.lib.wf (Inv.empty T) hd hr hu
  have hbnd := hI.bnd d e he
  rw [hT.layers, BndOK, List.forall₂_nil_left_iff] at hbnd
  simp [Elem.bndSlots, hbnd] at hb

/-- C13: in a thin mesh, the coboundary of a vertex are the cells with that vertex, each once. -/
theorem C13_thin {T : Topo} (hT : ThinTopo T) (hn : 1 ≤ T.cellDim) {st : MState P} (h : Reached T st) {v : Nat}
    (hv : v < st.mesh.verts.length) : (st.coboundary 0 T.cellDim v).2.Nodup ∧
      ∀ t, t ∈ (st.coboundary 0 T.cellDim v).2 ↔ ∃ e, (st.mesh.elems T.cellDim)[t]? = some e ∧ v ∈ e.verts := by
  have h1 := C13_coboundary_exact hT.lib h (k := 0) hn (Nat.le_refl _) (s := v) (by simpa [Mesh.count] using hv)
  refine ⟨h1.1, fun t => ?_⟩
  rw [h1.2, OnBoundary, if_pos rfl]

/-- C14: in a thin mesh, the neighbors of a cell through vertices are the other cells which share a vertex with it. -/
theorem C14_thin {T : Topo} (hT : ThinTopo T) (hn : 1 ≤ T.cellDim) {st : MState P} (h : Reached T st) {t : Nat} {e : Elem}
    (ht : (st.mesh.elems T.cellDim)[t]? = some e) : (st.neighbors T.cellDim 0 t).2.Nodup ∧
      ∀ u, u ∈ (st.neighbors T.cellDim 0 t).2 ↔
        u ≠ t ∧ ∃ f, (st.mesh.elems T.cellDim)[u]? = some f ∧ ∃ v ∈ e.verts, v ∈ f.verts := by
  have hlt : t < st.mesh.count T.cellDim := by
    unfold Mesh.count
    rw [if_neg (by omega)]
    exact (List.getElem?_eq_some_iff.1 ht).1
  have h1 := C14_neighbors_exact hT.lib h (c := 0) hn (Nat.le_refl _) hlt
  refine ⟨h1.1, fun u => ?_⟩
  rw [h1.2]
  simp only [OnBoundary, if_pos, ht, Option.some.injEq]
  refine and_congr_right fun _ => ?_
  constructor
  · rintro ⟨s, ⟨_, rfl, h2⟩, f, h3, h4⟩
    exact ⟨f, h3, s, h2, h4⟩
  · rintro ⟨f, h3, s, h2, h4⟩
    exact ⟨s, ⟨e, rfl, h2⟩, f, h3, h4⟩

/-- Two tetrahedra with a common face and one with a common vertex. -/
def thinTets : List (QOp Unit) :=
  (List.replicate 8 (.mesh (.vertex none ()))) ++
  [.mesh (.elem 3 [0, 1, 2, 3]), .mesh (.elem 3 [1, 2, 3, 4]), .mesh (.elem 3 [4, 5, 6, 7])]

def thinTetsState : MState Unit := (MState.empty.run (thinTopo (simplexTopo 3)) thinTets).getD MState.empty

theorem thinTets_reached : Reached (thinTopo (simplexTopo 3)) thinTetsState :=
  ⟨thinTets, by simp [thinTets, QOp.meshOps, MOp.Distinct], rfl, by unfold UniqueVids; decide⟩

example : (thinTetsState.coboundary 0 3 4).2 = [1, 2] ∧ (thinTetsState.neighbors 3 0 1).2 = [0, 2] ∧
    thinTetsState.mesh.elems 1 = [] ∧ thinTetsState.mesh.elems 2 = [] ∧ (thinTetsState.mesh.elems 3).length = 3 := by
  decide +kernel

/-- Erasing vertex 4 of the thin mesh erases the cells at it. -/
example : ∃ M', thinTetsState.mesh.store.eraseElement 3 0 (thinTetsState.mesh.store.get 0 4) = some M' ∧
    (M'.nodes 3).map (·.id) = [0] ∧ ((M'.nodes 0).map (·.id)).length = 7 :=
  ⟨_, rfl, by decide +kernel, by decide +kernel⟩

end VG
