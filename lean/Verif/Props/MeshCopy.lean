import Verif.Lemmas.MeshCopy
import Verif.Props.Queries

/-!
C21: copy construction and assignment of a mesh.
-/

namespace VG

variable {P : Type}

theorem Reached.dims {T : Topo} (hT : T.WF) {st : MState P} (h : Reached T st) : DimsOK T st.mesh :=
  (h.inv hT).dims

theorem mrun_append {T : Topo} : ∀ {a b : List (QOp P)} {st st1 : MState P}, st.run T a = some st1 →
    st.run T (a ++ b) = st1.run T b
  | [], b, st, st1, h => by simp [MState.run] at h; subst h; rfl
  | op :: a, b, st, st1, h => by
    simp only [MState.run, List.cons_append] at h ⊢
    obtain ⟨s, h1, h2⟩ := Option.bind_eq_some_iff.1 h
    rw [h1, Option.bind_some, mrun_append h2]

theorem Reached.copied {T : Topo} {st : MState P} (h : Reached T st) : Reached T st.copied := by
  obtain ⟨ops, h1, h2, h3⟩ := h
  refine ⟨ops ++ [QOp.copy], ?_, ?_, h3⟩
  · intro o ho
    refine h1 o ?_
    have : ∀ l : List (QOp P), QOp.meshOps (l ++ [QOp.copy]) = QOp.meshOps l := by
      intro l
      induction l with
      | nil => rfl
      | cons a l ih => cases a <;> simp [QOp.meshOps, ih]
    rwa [this] at ho
  · rw [mrun_append h2]; rfl

/-- Specification of the object `c`, stored as mesh object `o`, being an equal copy of the mesh `m`:
same vertices, and element by element the same id, the same number of references with the same
orientations, each reference into `c` itself and to the element with the same id as in `m`. -/
structure SameIn (m : Mesh P) (o : Nat) (c : HMesh P) : Prop where
  verts : c.verts = m.verts
  elems : ∀ d, List.Forall₂ (fun (e : Elem) (e' : HElem) =>
    e'.id = e.id ∧
    List.Forall₂ (fun (s : Nat) (r : HRef) => r.1 = o ∧ c.idAt 0 r = some (m.eid 0 s)) e.verts e'.verts ∧
    List.Forall₂ (fun (b : Nat × List BndRef) (b' : Nat × List (HRef × List Nat)) => b'.1 = b.1 ∧
      List.Forall₂ (fun (q : BndRef) (q' : HRef × List Nat) =>
        q'.1.1 = o ∧ q'.2 = q.2 ∧ c.idAt b.1 q'.1 = some (m.eid b.1 q.1)) b.2 b'.2) e.bnd e'.bnd)
    (m.elems d) (c.elems d)

theorem forall₂_map_right {α β : Type} {R : α → β → Prop} {f : α → β} : ∀ {l : List α},
    (∀ a ∈ l, R a (f a)) → List.Forall₂ R l (l.map f)
  | [], _ => .nil
  | a :: l, h => .cons (h a (by simp)) (forall₂_map_right (fun b hb => h b (by simp [hb])))

theorem idAt_tag {m : Mesh P} {o k s c : Nat} (hs : s < m.count k) :
    (Mesh.tag o { m with counter := c }).idAt k (o, s) = some (m.eid k s) := by
  unfold HMesh.idAt Mesh.eid Mesh.tag Mesh.vid
  unfold Mesh.count at hs
  by_cases hk : k = 0
  · simp only [if_pos hk] at hs ⊢
    rw [List.getD_eq_getElem _ _ (by simpa using hs), List.getElem?_eq_getElem hs]
    simp
  · simp only [if_neg hk] at hs ⊢
    rw [List.getD_eq_getElem _ _ (by simpa using hs), List.getElem?_map, List.getElem?_eq_getElem hs]
    simp [Elem.tag]

/-- C21: copying the mesh object `o` into the object `o'` gives the same elements at the same
positions with all handles into `o'`, the same id generators, and a larger change counter. -/
theorem C21_copy {T : Topo} (hT : LibTopo T) {st : MState P} (h : Reached T st) (o o' : Nat) :
    (st.mesh.tag o).copy (List.range' 1 T.cellDim) o' = some (st.copied.mesh.tag o') :=
  copy_eq hT.wf (h.inv hT.wf).inv h.choose_spec.2.2 (h.dims hT.wf) o o'

/-- C21: no reference of the copy leads out of the copy, each leads to the element with the id of
the original reference. -/
theorem C21_references {T : Topo} (hT : LibTopo T) {st : MState P} (h : Reached T st) (o o' : Nat) :
    ∃ c, (st.mesh.tag o).copy (List.range' 1 T.cellDim) o' = some c ∧ SameIn st.mesh o' c ∧
      c.vgen = st.mesh.vgen ∧ (∀ d, c.nextId d = st.mesh.nextId d) := by
  refine ⟨_, C21_copy hT h o o', ⟨rfl, fun d => ?_⟩, rfl, fun _ => rfl⟩
  have hI := (h.inv hT.wf).inv
  refine forall₂_map_right fun e he => ⟨rfl, ?_, ?_⟩
  · refine forall₂_map_right fun s hs => ⟨rfl, ?_⟩
    exact idAt_tag (m := st.mesh) (by unfold Mesh.count; rw [if_pos rfl]; exact (hI.verts d e he).2.2 s hs)
  · refine forall₂_map_right fun b hb => ⟨rfl, ?_⟩
    refine forall₂_map_right fun q hq => ⟨rfl, rfl, ?_⟩
    refine idAt_tag (m := st.mesh) ?_
    unfold Mesh.count
    rw [if_neg (hI.bnd_ne_zero hT.wf he b hb)]
    obtain ⟨i, hi⟩ := List.getElem?_of_mem hb
    obtain ⟨l, hl, hl1, hl2⟩ := forall₂_getElem?' (hI.bnd d e he) hi
    obtain ⟨j, hj⟩ := List.getElem?_of_mem hq
    obtain ⟨ix, _, f, hf, _⟩ := forall₂_getElem?' hl2 hj
    rw [← hl1]
    exact (List.getElem?_eq_some_iff.1 hf).1

/-- C21: queries on the copy have the answers of the original, whatever was cached in the original
when it was copied.  (After the copy, creations and queries may follow: `QOp.copy` is one of the
operations in `Reached`, so C13, C14, C16 and C17 hold for histories with copies.) -/
theorem C21_queries {T : Topo} (hT : LibTopo T) {st : MState P} (h : Reached T st) :
    (∀ k d s, 1 ≤ d → d ≤ T.cellDim → s < st.mesh.count k → ∀ t,
      t ∈ (st.copied.coboundary k d s).2 ↔ t ∈ (st.coboundary k d s).2) ∧
    (∀ d c t, 1 ≤ d → d ≤ T.cellDim → t < st.mesh.count d → ∀ u,
      u ∈ (st.copied.neighbors d c t).2 ↔ u ∈ (st.neighbors d c t).2) ∧
    (∀ k s, k ≤ T.cellDim - 1 → s < st.mesh.count k →
      (st.copied.isBoundary T k s).2 = (st.isBoundary T k s).2) := by
  refine ⟨fun k d s h1 h2 h3 t => ?_, fun d c t h1 h2 h3 u => ?_, fun k s h1 h2 => ?_⟩
  · rw [(C13_coboundary_exact hT h h1 h2 h3).2, (C13_coboundary_exact hT h.copied h1 h2 h3).2]
    rfl
  · rw [(C14_neighbors_exact hT h h1 h2 h3).2, (C14_neighbors_exact hT h.copied h1 h2 h3).2]
    rfl
  · rw [Bool.eq_iff_iff, isBoundary_iff hT h h1 h2, isBoundary_iff hT h.copied h1 h2]
    rfl

/-- The states of C21 are the ones of the other claims; a copy made in the middle of a history
after the caches were filled. -/
def copyBetween : List (QOp Unit) :=
  [.mesh (.vertex none ()), .mesh (.vertex none ()), .mesh (.vertex none ()), .mesh (.vertex none ()),
   .mesh (.elem 2 [0, 1, 2]), .coboundary 1 2 0, .isBoundary 1 0, .copy, .coboundary 1 2 0,
   .mesh (.elem 2 [3, 1, 0])]

def copyBetweenState : MState Unit := (MState.empty.run (simplexTopo 2) copyBetween).getD MState.empty

theorem copyBetween_reached : Reached (simplexTopo 2) copyBetweenState :=
  ⟨copyBetween, by simp [copyBetween, QOp.meshOps, MOp.Distinct], rfl, by unfold UniqueVids; decide⟩

example : (copyBetweenState.coboundary 1 2 0).2 = [0, 1] := by decide

example : (copyBetweenState.mesh.tag 0).copy [1, 2] 1 = some (copyBetweenState.copied.mesh.tag 1) :=
  C21_copy (Or.inl ⟨2, rfl⟩) copyBetween_reached 0 1

/-- A mesh with two vertices of the same id (see C01) and a line between a third vertex and the
second of them. -/
def dupCopyMesh : Mesh Unit :=
  ((Mesh.empty : Mesh Unit).run (simplexTopo 1)
    [.vertex (some 0) (), .vertex none (), .vertex none (), .elem 1 [1, 2]]).getD Mesh.empty

/-- C21, distinct ids are needed: with two vertices of the same id, both of which the library hands
out by itself after an explicit id (C01), a reference to the second leads to the first in the copy. -/
theorem C21_needs_distinct_ids :
    dupCopyMesh.verts.map (·.id) = [0, 0, 1] ∧
    (((dupCopyMesh.tag 0).copy [1] 1).map (fun c => (c.elems 1).map (·.verts))) = some [[(1, 0), (1, 2)]] ∧
    (dupCopyMesh.elems 1).map (·.verts) = [[1, 2]] := by decide

end VG
