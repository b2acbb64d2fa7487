import Verif.Lemmas.RefineFacetArea
import Verif.Props.MeshMeasure

/-!
C73: the tetrahedra of a refined mesh fit together.

Specification.  `FacetMap src out origin`: each facet of a cell of `out` is either inside of a cell of `src`, or on one
facet of `src`.  In the first case there is a cell on each side of it.  In the second case its corners are corners of
the facet of `src` or midpoints of its edges, and it has as many cells as that has.  The facets of `out` on one facet of
`src` have together the area of that.
-/

namespace VG

section
variable {K : Type} [Field K] [LinearOrder K] [IsStrictOrderedRing K]

open Classical in
/-- How the facets of the cells of `out` are related to those of `src`; `numCells` is the number of cells which have a
facet (`numCells_spec`). -/
structure FacetMap (src out : Mesh (Nat → K)) (origin : Nat → Option Nat) : Prop where
  inside : ∀ f < out.count 2, 0 < numCells (simplexTopo 3) out f → origin f = none → numCells (simplexTopo 3) out f = 2
  on : ∀ f F, origin f = some F → F < src.count 2 ∧ f < out.count 2 ∧ 0 < numCells (simplexTopo 3) src F ∧
    numCells (simplexTopo 3) out f = numCells (simplexTopo 3) src F ∧
    ∀ x ∈ cellPoints out 2 f, CornerOrMid (cellPoints src 2 F) x
  area : ∀ mu : (Nat → Nat → K) → K, (∀ s M, mu (fun k l => s * M k l) = |s| * mu M) →
    ∀ F < src.count 2, 0 < numCells (simplexTopo 3) src F →
      sumOver (out.count 2) (fun f => origin f = some F) (fun f => triMeasure mu (cellPoints out 2 f)) =
        triMeasure mu (cellPoints src 2 F)

omit [LinearOrder K] [IsStrictOrderedRing K] in
theorem sumOver_filter (N : Nat) (p : Nat → Prop) [DecidablePred p] (f : Nat → K) :
    sumOver N p f = (((List.range N).filter (fun i => decide (p i))).map f).sum := by
  unfold sumOver
  induction List.range N with
  | nil => rfl
  | cons a l ih =>
    rw [List.map_cons, List.sum_cons, List.filter_cons, ih]
    by_cases h : p a <;> simp [h]

/-- C73: for every mesh of tetrahedra in which no two cells have the same vertices, all marks, symmetric
distances, and orders of the edges: the facets of the refined mesh fit together as those of the mesh do. -/
theorem C73_facets {src : SegState (Nat → K)} (hsrc : SegReached (simplexTopo 3) src)
    (hone : ∀ t < src.mesh.count 3, ∀ t' < src.mesh.count 3, (src.mesh.vertsOf 3 t).Perm (src.mesh.vertsOf 3 t') → t = t')
    {dist : (Nat → K) → (Nat → K) → K} (hd : ∀ a b, dist a b = dist b a) (mark : Nat → Bool) {order : List Nat} (hord : order.Nodup)
    (hall : ∀ e < src.mesh.count 1, e ∈ order) :
    ∃ (r : RefSt (Nat → K)) (origin : Nat → Option Nat),
      refineMesh (simplexTopo 3) src (tetKids dist) mark (edgeMid src.mesh) order = some r ∧ FacetMap src.mesh r.out.mesh origin := by
  classical
  have hI := (hsrc.inv (simplexTopo_wf 3) (simplexTopo_closed 3)).mesh
  have he : (edgeIdx (3 + 1)).length = 6 := by decide
  obtain ⟨r, C, R, w, ev, e1, h, hp⟩ := refine_names (n := 3) (by omega) hsrc (he ▸ tetKids_ok hd) mark (edgeMid src.mesh) hord hall
  have hI' := (h.reached.inv (simplexTopo_wf 3) (simplexTopo_closed 3)).mesh
  let good : Nat → Prop := fun f => f < r.out.mesh.count 2 ∧ ∃ F, Facing src r C w ev f F
  let origin : Nat → Option Nat := fun f => if hf : good f then some hf.2.choose else none
  have horigin : ∀ f F, origin f = some F ↔ f < r.out.mesh.count 2 ∧ Facing src r C w ev f F := by
    intro f F
    by_cases hf : good f
    · have : origin f = some hf.2.choose := dif_pos hf
      rw [this, Option.some.injEq]
      constructor
      · rintro rfl; exact ⟨hf.1, hf.2.choose_spec⟩
      · intro hF; exact h.facing_unique hd hI hf.2.choose_spec hF.2
    · have : origin f = none := dif_neg hf
      rw [this]
      refine iff_of_false (by simp) fun hF => hf ⟨hF.1, F, hF.2⟩
  have hcell : ∀ {m : Mesh (Nat → K)} {f : Nat}, 0 < numCells (simplexTopo 3) m f → ∃ i < m.count 3, f ∈ m.bndOf 3 i 2 := by
    intro m f hpos
    obtain ⟨i, hi⟩ := List.exists_mem_of_length_pos hpos
    rw [List.mem_filter, List.mem_range, decide_eq_true_iff] at hi
    exact ⟨i, hi⟩
  refine ⟨r, origin, e1, ⟨?_, ?_, ?_⟩⟩
  · intro f hf hpos hno
    obtain ⟨i, hi, hfi⟩ := hcell hpos
    obtain ⟨t, c, g, _, hL⟩ := h.facet_labels hi hfi
    refine h.inner_uses hd hI (fun t ht t' ht' hs => ?_) hf hL ?_
    · refine (hone t ht t' ht' (perm_of_subset (tet_nodup hI ht).1 hs ?_)).symm
      rw [(tet_nodup hI ht).2, (tet_nodup hI ht').2]
    · rintro ⟨F, hF⟩
      have := (horigin f F).2 ⟨hf, hF⟩
      rw [hno] at this; exact absurd this (by simp)
  · intro f F hfF
    obtain ⟨hf, hF⟩ := (horigin f F).1 hfF
    have huses := h.facing_uses hd hI hf hF
    refine ⟨?_, hf, ?_, huses, h.facing_points hp hI hF⟩
    · obtain ⟨_, _, _, _, _, hF, _⟩ := hF
      exact hF.lt
    · obtain ⟨t, c, g, q, hL, hF', _⟩ := hF
      rw [numCells_with hI hF'.lt, cellsWith, List.length_pos_iff_exists_mem]
      refine ⟨t, List.mem_filter.2 ⟨List.mem_range.2 hF'.cell, decide_eq_true fun x hx => ?_⟩⟩
      have hx := hF'.verts.mem_iff.1 hx
      obtain ⟨qa, qb, qc, _⟩ := tetFaces_lt q hF'.face
      obtain ⟨_, hl⟩ := tet_nodup hI hF'.cell
      simp only [List.mem_cons, List.not_mem_nil, or_false] at hx
      rcases hx with rfl | rfl | rfl <;> exact getD_mem (by omega)
  · intro mu hmu F hF hpos
    obtain ⟨t, ht, hFt⟩ := hcell hpos
    obtain ⟨q, hq⟩ := faceOf_used hI ht hFt
    rw [sumOver_filter, ← h.facing_area hd hp hI hq hmu]
    congr 2
    refine List.filter_congr fun f hf => decide_eq_decide.2 ?_
    rw [horigin]
    exact and_iff_right (List.mem_range.1 hf)

omit [IsStrictOrderedRing K] in
/-- If no facet of the mesh has more than two cells then no facet of the refined mesh has. -/
theorem C73_two_cells {src out : Mesh (Nat → K)} {origin : Nat → Option Nat} (h : FacetMap src out origin)
    (hman : ∀ F < src.count 2, numCells (simplexTopo 3) src F ≤ 2) : ∀ f < out.count 2, numCells (simplexTopo 3) out f ≤ 2 := by
  intro f hf
  by_cases hpos : 0 < numCells (simplexTopo 3) out f
  · cases ho : origin f with
    | none => exact Nat.le_of_eq (h.inside f hf hpos ho)
    | some F =>
      obtain ⟨hF, _, _, e, _⟩ := h.on f F ho
      rw [e]; exact hman F hF
  · omega

omit [IsStrictOrderedRing K] in
/-- `is_boundary` of facets: the boundary of the refined mesh is on the boundary of the mesh, and covers it. -/
theorem C73_boundary {src out : MState (Nat → K)} (hs : Reached (simplexTopo 3) src) (ho : Reached (simplexTopo 3) out)
    {origin : Nat → Option Nat} (h : FacetMap src.mesh out.mesh origin) {f : Nat} (hf : f < out.mesh.count 2) :
    (out.isBoundary (simplexTopo 3) 2 f).2 = true ↔ ∃ F, origin f = some F ∧ (src.isBoundary (simplexTopo 3) 2 F).2 = true := by
  have hT : LibTopo (simplexTopo 3) := Or.inl ⟨3, rfl⟩
  have key : ∀ {st : MState (Nat → K)}, Reached (simplexTopo 3) st → ∀ {s}, s < st.mesh.count 2 →
      ((st.isBoundary (simplexTopo 3) 2 s).2 = true ↔ numCells (simplexTopo 3) st.mesh s % 2 = 1) := by
    intro st hst s hs
    rw [isBoundary_iff hT hst (show 2 ≤ 3 - 1 by omega) hs]
    exact Iff.of_eq (if_pos rfl)
  rw [key ho hf]
  constructor
  · intro hodd
    cases hor : origin f with
    | none =>
      have := h.inside f hf (by omega) hor
      omega
    | some F =>
      obtain ⟨hF, _, _, e, _⟩ := h.on f F hor
      exact ⟨F, rfl, (key hs hF).2 (by rw [← e]; exact hodd)⟩
  · rintro ⟨F, hor, hb⟩
    obtain ⟨hF, _, _, e, _⟩ := h.on f F hor
    rw [e]; exact (key hs hF).1 hb

omit [IsStrictOrderedRing K] in
/-- `surface(mesh)` is not changed by `refine`, for each measure of triangles as in `FacetMap`. -/
theorem C73_surface {src out : MState (Nat → K)} (hs : Reached (simplexTopo 3) src) (ho : Reached (simplexTopo 3) out)
    {origin : Nat → Option Nat} (h : FacetMap src.mesh out.mesh origin) (mu : (Nat → Nat → K) → K)
    (hmu : ∀ s M, mu (fun k l => s * M k l) = |s| * mu M) :
    (out.surface (simplexTopo 3) (triMeasure mu)).2 = (src.surface (simplexTopo 3) (triMeasure mu)).2 := by
  classical
  have hT : LibTopo (simplexTopo 3) := Or.inl ⟨3, rfl⟩
  have e : ∀ st : MState (Nat → K), Reached (simplexTopo 3) st → (st.surface (simplexTopo 3) (triMeasure mu)).2 =
      ∑ s ∈ Finset.range (st.mesh.count 2), if numCells (simplexTopo 3) st.mesh s % 2 = 1 then triMeasure mu (cellPoints st.mesh 2 s) else 0 := by
    intro st hst
    rw [surface_eq hT _ hst, ← sumOver_finset (p := fun s => numCells (simplexTopo 3) st.mesh s % 2 = 1), sumOver_filter]
    rfl
  rw [e out ho, e src hs]
  have h1 : ∀ F ∈ Finset.range (src.mesh.count 2),
      (if numCells (simplexTopo 3) src.mesh F % 2 = 1 then triMeasure mu (cellPoints src.mesh 2 F) else 0) =
      ∑ f ∈ Finset.range (out.mesh.count 2), if origin f = some F then
        (if numCells (simplexTopo 3) out.mesh f % 2 = 1 then triMeasure mu (cellPoints out.mesh 2 f) else 0) else 0 := by
    intro F hF
    have hF := Finset.mem_range.1 hF
    by_cases hodd : numCells (simplexTopo 3) src.mesh F % 2 = 1
    · rw [if_pos hodd, ← h.area mu hmu F hF (by omega), sumOver_finset]
      refine Finset.sum_congr rfl fun f _ => ?_
      by_cases hor : origin f = some F
      · rw [if_pos hor, if_pos hor, if_pos (by rw [(h.on f F hor).2.2.2.1]; exact hodd)]
      · rw [if_neg hor, if_neg hor]
    · rw [if_neg hodd]
      refine (Finset.sum_eq_zero fun f _ => ?_).symm
      by_cases hor : origin f = some F
      · rw [if_pos hor, if_neg (by rw [(h.on f F hor).2.2.2.1]; exact hodd)]
      · rw [if_neg hor]
  rw [Finset.sum_congr rfl h1, Finset.sum_comm]
  refine Finset.sum_congr rfl fun f hf => ?_
  have hf := Finset.mem_range.1 hf
  cases hor : origin f with
  | none =>
    rw [Finset.sum_eq_zero fun F _ => if_neg (by simp)]
    refine if_neg fun hodd => ?_
    have := h.inside f hf (by omega) hor
    omega
  | some F =>
    simp only [Option.some.injEq]
    rw [Finset.sum_ite_eq, if_pos (Finset.mem_range.2 (h.on f F hor).1)]

/-- For the mesh of each state reached with segments there is a state with queries. -/
theorem SegReached.reached {P : Type} {T : Topo} {st : SegState P} (h : SegReached T st) :
    ∃ ms : MState P, Reached T ms ∧ ms.mesh = st.mesh := by
  obtain ⟨ops, h1, h2, h3⟩ := h
  have key : ∀ (ops : List (SOp P)) (st st' : SegState P) (ms : MState P), (∀ op ∈ ops, ∀ o, op.creation = some o → o.Distinct) →
      ms.mesh = st.mesh → st.run T ops = some st' →
      ∃ (q : List (QOp P)) (ms' : MState P), (∀ op ∈ QOp.meshOps q, op.Distinct) ∧ ms.run T q = some ms' ∧ ms'.mesh = st'.mesh := by
    intro ops
    induction ops with
    | nil =>
      intro st st' ms _ hm hr
      simp only [SegState.run, Option.some.injEq] at hr
      subst hr
      exact ⟨[], ms, by simp [QOp.meshOps], rfl, hm⟩
    | cons op ops ih =>
      intro st st' ms hd hm hr
      simp only [SegState.run] at hr
      obtain ⟨s1, e1, e2⟩ := Option.bind_eq_some_iff.1 hr
      have hd' := fun o ho => hd o (List.mem_cons_of_mem _ ho)
      have create : ∀ o m, op.creation = some o → st.mesh.step T o = some m → s1.mesh = m →
          ∃ (q : List (QOp P)) (ms' : MState P), (∀ op ∈ QOp.meshOps q, op.Distinct) ∧ ms.run T q = some ms' ∧ ms'.mesh = st'.mesh := by
        intro o m ho hs e
        obtain ⟨q, ms', q1, q2, q3⟩ := ih s1 st' { ms with mesh := m } hd' e.symm e2
        refine ⟨.mesh o :: q, ms', ?_, ?_, q3⟩
        · intro x hx
          simp only [QOp.meshOps, List.mem_cons] at hx
          rcases hx with rfl | hx
          · exact hd op (List.mem_cons_self) _ ho
          · exact q1 x hx
        · simp only [MState.run, MState.step, hm, hs, Option.map_some, Option.bind_some, q2]
      cases op with
      | mesh o =>
        obtain ⟨m, f1, f2⟩ := Option.map_eq_some_iff.1 e1
        exact create o m rfl f1 (by rw [← f2])
      | make g o =>
        obtain ⟨m, f1, f2⟩ := Option.map_eq_some_iff.1 e1
        exact create o m rfl f1 (by rw [← f2]; exact (addAll_mesh _ _ _).1)
      | add g d t =>
        simp only [SegState.step] at e1
        split at e1
        · simp only [Option.some.injEq] at e1
          exact ih s1 st' ms hd' (by rw [← e1, hm]; exact (addAll_mesh _ _ _).1.symm) e2
        · exact absurd e1 (by simp)
  obtain ⟨q, ms, q1, q2, q3⟩ := key ops _ _ MState.empty h1 rfl h2
  exact ⟨ms, ⟨q, q1, q2, by rw [q3]; exact h3⟩, q3⟩

end

/-- Two tetrahedra on the two sides of a facet. -/
def fitOps : List (SOp (Nat → Rat)) :=
  [.mesh (.vertex none (fun _ => 0)), .mesh (.vertex none (fun k => if k = 0 then 4 else 0)),
   .mesh (.vertex none (fun k => if k = 1 then 3 else 0)), .mesh (.vertex none (fun k => if k = 2 then 5 else 0)),
   .mesh (.vertex none (fun k => if k = 2 then -2 else 0)),
   .mesh (.elem 3 [0, 1, 2, 3]), .mesh (.elem 3 [0, 2, 1, 4])]

/-- The hypotheses of C73 are met.  With the edges 0 and 1 of the shared facet marked, each of the two cells has
three children; three facets are on the shared one. -/
example : ∃ src : SegState (Nat → Rat), SegReached (simplexTopo 3) src ∧ src.mesh.count 1 = 9 ∧ src.mesh.count 2 = 7 ∧
    (∀ t < src.mesh.count 3, ∀ t' < src.mesh.count 3, (src.mesh.vertsOf 3 t).Perm (src.mesh.vertsOf 3 t') → t = t') ∧
    ((refineMesh (simplexTopo 3) src (tetKids (fun a b => (a 0 - b 0) ^ 2 + (a 1 - b 1) ^ 2 + (a 2 - b 2) ^ 2)) (fun e => decide (e < 2))
      (edgeMid src.mesh) (List.range 9)).map (fun r => (r.out.mesh.count 3, (List.range (r.out.mesh.count 2)).map (numCells (simplexTopo 3) r.out.mesh)))) =
      some (6, [2, 1, 2, 1, 2, 1, 2, 2, 1, 1, 1, 2, 1, 1, 1, 2, 1]) := by
  refine ⟨((SegState.empty : SegState (Nat → Rat)).run (simplexTopo 3) fitOps).getD SegState.empty,
    ⟨fitOps, ?_, rfl, ?_⟩, by decide +kernel, by decide +kernel, by decide +kernel, by decide +kernel⟩
  · intro op hop o ho
    simp only [fitOps, List.mem_cons, List.not_mem_nil, or_false] at hop
    rcases hop with rfl | rfl | rfl | rfl | rfl | rfl | rfl <;>
      (simp [SOp.creation] at ho; try (subst ho; first | trivial | (simp [MOp.Distinct])))
  · unfold UniqueVids; decide +kernel

end VG
