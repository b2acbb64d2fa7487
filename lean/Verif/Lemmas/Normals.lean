import Verif.Lemmas.MphtxtGeo
import Verif.Lemmas.TetFlags
import Verif.Lemmas.VoronoiLoop
import Verif.Props.NormalsSpec

/-!
Normal vectors of the facets of a mesh: from cells to the boundary.
-/

namespace VG

/-! ### From cells to the boundary -/

section Boundary
variable {P : Type}

theorem used_mem {T : Topo} (hT : LibTopo T) {m : Mesh P} (hI : Inv T m) (s c : Nat) :
    UsedBy T m s c ↔ s ∈ m.bndOf T.cellDim c (T.cellDim - 1) := (mem_bndOf_iff hT.wf hI (le_refl _)).symm

open Classical in
/-- A quantity of a facet in a cell that cancels between the two cells of a facet: its sum over the cells is its sum over
the boundary. -/
theorem boundary_sum {T : Topo} (hT : LibTopo T) (hn : 1 ≤ T.cellDim) {st : MState P} (h : Reached T st)
    (hman : ∀ s a b c, UsedBy T st.mesh s a → UsedBy T st.mesh s b → UsedBy T st.mesh s c → a = b ∨ a = c ∨ b = c)
    (φ : Nat → Nat → ℝ)
    (hφ : ∀ s c c', UsedBy T st.mesh s c → UsedBy T st.mesh s c' → c ≠ c' → φ s c + φ s c' = 0) :
    ∑ s ∈ Finset.range (st.mesh.count (T.cellDim - 1)), (if (st.isBoundary T (T.cellDim - 1) s).2 = true then
        ∑ c ∈ Finset.range (st.mesh.count T.cellDim), (if UsedBy T st.mesh s c then φ s c else 0) else 0)
      = ∑ c ∈ Finset.range (st.mesh.count T.cellDim),
        ((st.mesh.bndOf T.cellDim c (T.cellDim - 1)).map fun s => φ s c).sum := by
  have hI := (h.inv hT.wf).inv
  have e1 : ∀ c, ((st.mesh.bndOf T.cellDim c (T.cellDim - 1)).map fun s => φ s c).sum
      = ∑ s ∈ Finset.range (st.mesh.count (T.cellDim - 1)), if UsedBy T st.mesh s c then φ s c else 0 := by
    intro c
    have hnd := bndOf_nodup hT.wf hI T.cellDim c (T.cellDim - 1)
    rw [← List.sum_toFinset _ hnd, ← Finset.sum_filter]
    refine Finset.sum_congr ?_ fun _ _ => rfl
    ext s
    rw [List.mem_toFinset, Finset.mem_filter, Finset.mem_range, used_mem hT hI]
    exact ⟨fun hs => ⟨bndOf_valid hI hs, hs⟩, fun hs => hs.2⟩
  rw [Finset.sum_congr rfl fun c _ => e1 c, Finset.sum_comm]
  refine Finset.sum_congr rfl fun s hs => ?_
  have hs := Finset.mem_range.1 hs
  by_cases hb : (st.isBoundary T (T.cellDim - 1) s).2 = true
  · rw [if_pos hb]
  · rw [if_neg hb]
    symm
    rw [C16_boundary_iff_one_cell_partial hT hn h hs (hman s)] at hb
    by_cases hu : ∃ c, UsedBy T st.mesh s c
    · obtain ⟨c, hc⟩ := hu
      have : ∃ c', UsedBy T st.mesh s c' ∧ c' ≠ c := by
        by_contra hcon
        push Not at hcon
        exact hb ⟨c, hc, hcon⟩
      obtain ⟨c', hc', hne⟩ := this
      have hlt : ∀ {c}, UsedBy T st.mesh s c → c < st.mesh.count T.cellDim := fun h => onBoundary_lt (by omega) h
      rw [← Finset.sum_filter]
      have : (Finset.range (st.mesh.count T.cellDim)).filter (fun c => UsedBy T st.mesh s c) = {c, c'} := by
        ext x
        rw [Finset.mem_filter, Finset.mem_range, Finset.mem_insert, Finset.mem_singleton]
        constructor
        · rintro ⟨_, hx⟩
          rcases hman s x c c' hx hc hc' with h | h | h
          · exact Or.inl h
          · exact Or.inr h
          · exact (hne h.symm).elim
        · rintro (rfl | rfl)
          · exact ⟨hlt hc, hc⟩
          · exact ⟨hlt hc', hc'⟩
      rw [this, Finset.sum_pair hne.symm]
      exact hφ s c c' hc hc' hne.symm
    · push Not at hu
      exact Finset.sum_eq_zero fun c _ => if_neg (hu c)

end Boundary

/-! ### Tetrahedra -/

section Tets
variable {m : Mesh (Fin 3 → ℝ)}

/-- The normal vector of `x y z` turned away from `p`. -/
noncomputable def outAmt (m : Mesh (Fin 3 → ℝ)) (x y z p : Nat) (i : Fin 3) : ℝ :=
  -(sg (offPlane m x y z (m.at0 p)) * crossProd (m.at0 y - m.at0 x) (m.at0 z - m.at0 x) i)

theorem fin3_cases {q : Fin 3 → Prop} (h0 : q 0) (h1 : q 1) (h2 : q 2) (i : Fin 3) : q i := by
  fin_cases i
  · exact h0
  · exact h1
  · exact h2

theorem outAmt_swap {x y z p : Nat} (h : offPlane m x y z (m.at0 p) ≠ 0) (i : Fin 3) :
    outAmt m y x z p i = outAmt m x y z p i := by
  have e : offPlane m y x z (m.at0 p) = -offPlane m x y z (m.at0 p) := by
    unfold offPlane determinant3
    simp only [Pi.sub_apply]
    ring
  unfold outAmt
  rw [e, sg_neg h]
  induction i using fin3_cases <;> simp only [crossProd_zero, crossProd_one, crossProd_two, Pi.sub_apply] <;> ring

theorem outAmt_rot {x y z p : Nat} (i : Fin 3) : outAmt m y z x p i = outAmt m x y z p i := by
  have e : offPlane m y z x (m.at0 p) = offPlane m x y z (m.at0 p) := by
    unfold offPlane determinant3
    simp only [Pi.sub_apply]
    ring
  unfold outAmt
  rw [e]
  induction i using fin3_cases <;> simp only [crossProd_zero, crossProd_one, crossProd_two, Pi.sub_apply] <;> ring

/-- All corners of a triangle have the same component along the normal. -/
theorem outAmt_at {x y z p : Nat} :
    ∑ i, outAmt m x y z p i * m.at0 y i = ∑ i, outAmt m x y z p i * m.at0 x i
    ∧ ∑ i, outAmt m x y z p i * m.at0 z i = ∑ i, outAmt m x y z p i * m.at0 x i := by
  unfold outAmt
  constructor <;> simp only [Fin.sum_univ_three, crossProd_zero, crossProd_one, crossProd_two, Pi.sub_apply] <;> ring

theorem outAmt_perm {x y z a b c p : Nat} (h : [x, y, z].Perm [a, b, c]) (hne : offPlane m a b c (m.at0 p) ≠ 0) :
    (∀ i, outAmt m x y z p i = outAmt m a b c p i)
    ∧ ∑ i, outAmt m x y z p i * m.at0 x i = ∑ i, outAmt m a b c p i * m.at0 a i := by
  have hbac : ∀ i, outAmt m b a c p i = outAmt m a b c p i := outAmt_swap hne
  have hacb : ∀ i, outAmt m a c b p i = outAmt m a b c p i := fun i => (outAmt_rot i).trans (hbac i)
  have hbca : ∀ i, outAmt m b c a p i = outAmt m a b c p i := fun i => outAmt_rot i
  have hcab : ∀ i, outAmt m c a b p i = outAmt m a b c p i := fun i => (outAmt_rot i).trans (hbca i)
  have hcba : ∀ i, outAmt m c b a p i = outAmt m a b c p i := fun i => (outAmt_rot i).trans (hacb i)
  obtain ⟨e1, e2⟩ := outAmt_at (m := m) (x := a) (y := b) (z := c) (p := p)
  rcases perm3 h with e | e | e | e | e | e <;> cases e
  · exact ⟨fun _ => rfl, rfl⟩
  · exact ⟨hacb, by simp only [hacb]⟩
  · exact ⟨hbac, by simp only [hbac]; exact e1⟩
  · exact ⟨hbca, by simp only [hbca]; exact e1⟩
  · exact ⟨hcab, by simp only [hcab]; exact e2⟩
  · exact ⟨hcba, by simp only [hcba]; exact e2⟩

theorem outward_eq (hI : Inv (simplexTopo 3) m) {t c a b w p : Nat} (ht : t < m.count 2) (hc : c < m.count 3)
    (hv : m.vertsOf 2 t = [a, b, w]) (hp : (m.vertsOf 3 c).Perm [a, b, w, p]) (i : Fin 3) :
    outward m t c i = outAmt m a b w p i := by
  have h1 : ∀ i, m.centroidOf 2 t i = (m.at0 a i + m.at0 b i + m.at0 w i) / 3 := by
    intro i
    unfold Mesh.centroidOf
    rw [C47_centroid_mean, points_eq hI (by omega) ht, hv]
    simp
    ring
  have h2 : ∀ i, m.centroidOf 3 c i = (m.at0 a i + m.at0 b i + m.at0 w i + m.at0 p i) / 4 := by
    intro i
    unfold Mesh.centroidOf
    rw [C47_centroid_mean, points_eq hI (by omega) hc, List.map_map, (hp.map _).sum_eq, List.length_map, hp.length_eq]
    simp
    ring
  have key : ∑ i, m.triNormal t i * (m.centroidOf 3 c i - m.centroidOf 2 t i) = offPlane m a b w (m.at0 p) / 4 := by
    rw [triNormal_eq hv, Fin.sum_univ_three]
    unfold offPlane determinant3
    simp only [Pi.sub_apply, h1, h2, crossProd_zero, crossProd_one, crossProd_two]
    ring
  unfold outward outAmt sg
  rw [key]
  by_cases hx : 0 < offPlane m a b w (m.at0 p)
  · rw [if_pos (by linarith), if_pos hx, Pi.neg_apply, triNormal_eq hv]; ring
  · rw [if_neg (by linarith), if_neg hx, triNormal_eq hv]; ring

/-- What the facet of a tetrahedron with corners `x`, `y`, `z` contributes. -/
theorem outward_facet (hI : Inv (simplexTopo 3) m) {t c x y z p : Nat} (hu : UsedBy (simplexTopo 3) m t c)
    (hv : (m.vertsOf 2 t).Perm [x, y, z]) (hp : (m.vertsOf 3 c).Perm [x, y, z, p])
    (hne : offPlane m x y z (m.at0 p) ≠ 0) :
    (∀ i, outward m t c i = outAmt m x y z p i)
    ∧ ∑ i, outward m t c i * m.at0 ((m.vertsOf 2 t).getD 0 0) i = ∑ i, outAmt m x y z p i * m.at0 x i := by
  obtain ⟨h1, h2, _⟩ := used_lt hI hu
  obtain ⟨a, b, w, _, _, _, hT⟩ := facetAt_of hI h1
  rw [hT.verts] at hv
  have hp' : (m.vertsOf 3 c).Perm [a, b, w, p] := hp.trans (hv.symm.append_right [p])
  obtain ⟨g1, g2⟩ := outAmt_perm hv hne
  have e := outward_eq hI h1 h2 hT.verts hp'
  refine ⟨fun i => (e i).trans (g1 i), ?_⟩
  rw [hT.verts]
  simp only [e]
  exact g2

/-- The facets of a tetrahedron. -/
theorem outward_cell (hI : Inv (simplexTopo 3) m) {c : Nat} (hc : c < m.count 3)
    (hne : cornersVolume (m.pointsOf 3 c) ≠ 0) :
    (∀ i, ((m.bndOf 3 c 2).map fun s => outward m s c i).sum = 0)
    ∧ ((m.bndOf 3 c 2).map fun s => ∑ i, outward m s c i * m.at0 ((m.vertsOf 2 s).getD 0 0) i).sum
      = 6 * cornersVolume (m.pointsOf 3 c) := by
  obtain ⟨v0, v1, v2, v3, f0, f1, f2, f3, h⟩ := tetAt_of hI hc
  rw [points_eq hI (by omega) hc, h.verts] at hne ⊢
  simp only [List.map_cons, List.map_nil, cornersVolume] at hne ⊢
  have hD : 6 * spannedTetrahedron (m.at0 v0) (m.at0 v1) (m.at0 v2) (m.at0 v3) = |offPlane m v0 v1 v2 (m.at0 v3)| := by
    unfold spannedTetrahedron signedTetrahedron
    rw [abs_div, abs_of_pos (show (0 : ℝ) < 6 by norm_num), mul_div_cancel₀ _ (by norm_num)]
    congr 1
    unfold offPlane determinant3
    rw [innerProd3]
    simp only [crossProd_zero, crossProd_one, crossProd_two, Pi.sub_apply]
    ring
  have hD0 : offPlane m v0 v1 v2 (m.at0 v3) ≠ 0 := by
    intro h0; rw [h0, abs_zero] at hD; exact hne (by linarith)
  have used : ∀ s ∈ m.bndOf 3 c 2, UsedBy (simplexTopo 3) m s c := fun s hs =>
    (mem_bndOf_iff (simplexTopo_wf 3) hI (le_refl _)).1 hs
  have q1 : offPlane m v0 v1 v3 (m.at0 v2) = -offPlane m v0 v1 v2 (m.at0 v3) := by
    unfold offPlane determinant3; simp only [Pi.sub_apply]; ring
  have q2 : offPlane m v0 v2 v3 (m.at0 v1) = offPlane m v0 v1 v2 (m.at0 v3) := by
    unfold offPlane determinant3; simp only [Pi.sub_apply]; ring
  have q3 : offPlane m v1 v2 v3 (m.at0 v0) = -offPlane m v0 v1 v2 (m.at0 v3) := by
    unfold offPlane determinant3; simp only [Pi.sub_apply]; ring
  obtain ⟨a0, b0⟩ := outward_facet hI (used f0 (by rw [h.facets]; simp)) h.at0 (by rw [h.verts]) hD0
  obtain ⟨a1, b1⟩ := outward_facet hI (used f1 (by rw [h.facets]; simp)) h.at1 (p := v2)
    (by rw [h.verts]; exact ((List.Perm.swap _ _ _).cons _).cons _) (by rw [q1]; exact neg_ne_zero.2 hD0)
  obtain ⟨a2, b2⟩ := outward_facet hI (used f2 (by rw [h.facets]; simp)) h.at2 (p := v1)
    (by rw [h.verts]; exact (List.perm_append_comm (l₁ := [v1]) (l₂ := [v2, v3])).cons _) (by rw [q2]; exact hD0)
  obtain ⟨a3, b3⟩ := outward_facet hI (used f3 (by rw [h.facets]; simp)) h.at3 (p := v0)
    (by rw [h.verts]; exact (List.perm_append_comm (l₁ := [v0]) (l₂ := [v1, v2, v3]))) (by rw [q3]; exact neg_ne_zero.2 hD0)
  rw [h.facets]
  simp only [List.map_cons, List.map_nil, List.sum_cons, List.sum_nil, add_zero]
  rw [b0, b1, b2, b3, hD, ← sg_self hD0]
  simp only [a0, a1, a2, a3]
  unfold outAmt
  rw [q1, q2, q3, sg_neg hD0]
  constructor
  · intro i
    induction i using fin3_cases <;> simp only [crossProd_zero, crossProd_one, crossProd_two, Pi.sub_apply] <;> ring
  · generalize sg (offPlane m v0 v1 v2 (m.at0 v3)) = σ
    unfold offPlane determinant3
    simp only [Fin.sum_univ_three, crossProd_zero, crossProd_one, crossProd_two, Pi.sub_apply]
    ring

/-- The two cells of a triangle. -/
theorem outward_cancel (hI : Inv (simplexTopo 3) m) (hm : NoOverlap m) {s c c' : Nat}
    (h : UsedBy (simplexTopo 3) m s c) (h' : UsedBy (simplexTopo 3) m s c') (hne : c ≠ c') (i : Fin 3) :
    outward m s c i + outward m s c' i = 0 := by
  have key : ∀ {c c'}, UsedBy (simplexTopo 3) m s c → UsedBy (simplexTopo 3) m s c' → Behind m s c → InFront m s c' →
      outward m s c i + outward m s c' i = 0 := by
    rintro c c' h h' ⟨a, b, w, p, hv, hp, hlt⟩ ⟨a', b', w', p', hv', hp', hlt'⟩
    obtain ⟨h1, h2, _⟩ := used_lt hI h
    obtain ⟨_, h3, _⟩ := used_lt hI h'
    rw [hv] at hv'
    cases hv'
    rw [outward_eq hI h1 h2 hv hp, outward_eq hI h1 h3 hv hp']
    unfold outAmt sg
    rw [if_neg (by linarith), if_pos hlt']
    ring
  rcases hm.solid s c h with hb | hf
  · exact key h h' hb ((hm.sides s c c' h h' hne).1 hb)
  · rw [add_comm]
    exact key h' h ((hm.sides s c' c h' h hne.symm).2 hf) hf

theorem solid_volume (hI : Inv (simplexTopo 3) m) (hm : NoOverlap m) {c : Nat} (hc : c < m.count 3) :
    cornersVolume (m.pointsOf 3 c) ≠ 0 := by
  obtain ⟨v0, v1, v2, v3, f0, f1, f2, f3, h⟩ := tetAt_of hI hc
  have hu : UsedBy (simplexTopo 3) m f0 c := (mem_bndOf_iff (simplexTopo_wf 3) hI (le_refl _)).1 (by
    show f0 ∈ m.bndOf 3 c 2
    rw [h.facets]; simp)
  have hoff : offPlane m v0 v1 v2 (m.at0 v3) ≠ 0 := by
    have hs : ∃ a b w p, m.vertsOf 2 f0 = [a, b, w] ∧ (m.vertsOf 3 c).Perm [a, b, w, p]
        ∧ offPlane m a b w (m.at0 p) ≠ 0 := by
      rcases hm.solid f0 c hu with ⟨a, b, w, p, hv, hp, hlt⟩ | ⟨a, b, w, p, hv, hp, hlt⟩
      · exact ⟨a, b, w, p, hv, hp, hlt.ne⟩
      · exact ⟨a, b, w, p, hv, hp, hlt.ne'⟩
    obtain ⟨a, b, w, p, hv, hp, hn⟩ := hs
    have h0 := h.at0
    rw [hv] at h0
    rw [h.verts] at hp
    have hp3 : p = v3 := by
      have e1 : [v0, v1, v2, v3].Perm [v0, v1, v2, p] := hp.trans (h0.append_right [p])
      have e2 := (List.perm_append_left_iff [v0, v1, v2]).1 (show ([v0, v1, v2] ++ [v3]).Perm ([v0, v1, v2] ++ [p]) from e1)
      have := List.perm_singleton.1 e2
      simpa using this.symm
    subst hp3
    intro hz
    refine hn ?_
    rcases perm3 h0 with e | e | e | e | e | e <;> cases e <;>
      (unfold offPlane determinant3 at hz ⊢; simp only [Pi.sub_apply] at hz ⊢; first | linear_combination hz | linear_combination -hz)
  rw [points_eq hI (by omega) hc, h.verts]
  simp only [List.map_cons, List.map_nil, cornersVolume]
  intro h0
  apply hoff
  rw [spannedTetrahedron, abs_eq_zero] at h0
  unfold signedTetrahedron at h0
  rw [innerProd3] at h0
  unfold offPlane determinant3
  simp only [crossProd_zero, crossProd_one, crossProd_two, Pi.sub_apply] at h0 ⊢
  linarith

end Tets

/-! ### Triangles in the plane -/

section Tris
variable {m : Mesh (Fin 2 → ℝ)}

theorem points_eq2 (hI : Inv (simplexTopo 2) m) {k t : Nat} (hk : k ≠ 0) (ht : t < m.count k) :
    m.pointsOf k t = (m.vertsOf k t).map m.at0 := by
  obtain ⟨e, he⟩ := elem_of_lt hk ht
  have hv := (hI.verts k e (List.mem_of_getElem? he)).2.2
  unfold Mesh.pointsOf
  rw [vertsOf_elem he]
  have : ∀ l : List Nat, (∀ v ∈ l, v < m.verts.length) → l.filterMap m.ptOf = l.map m.at0 := by
    intro l hl
    induction l with
    | nil => rfl
    | cons a l ih =>
      have ha := hl a (by simp)
      rw [List.filterMap_cons, List.map_cons, ih fun v hv => hl v (by simp [hv])]
      unfold Mesh.at0 Mesh.ptOf
      rw [List.getElem?_eq_getElem ha]
      rfl
  exact this _ hv

theorem lineNormal_eq {s a b : Nat} (h : m.ends s = (a, b)) :
    m.lineNormal s 0 = -(m.at0 b 1 - m.at0 a 1) ∧ m.lineNormal s 1 = m.at0 b 0 - m.at0 a 0 := by
  unfold Mesh.lineNormal normalLine
  rw [h]
  simp

/-- The normal vector of the edge from `x` to `y`, turned away from `p`. -/
noncomputable def outLine (m : Mesh (Fin 2 → ℝ)) (x y p : Nat) : Fin 2 → ℝ :=
  ![sg (leftOf (m.at0 x) (m.at0 y) (m.at0 p)) * (m.at0 y 1 - m.at0 x 1),
    -(sg (leftOf (m.at0 x) (m.at0 y) (m.at0 p)) * (m.at0 y 0 - m.at0 x 0))]

theorem outLine_swap {x y p : Nat} (h : leftOf (m.at0 x) (m.at0 y) (m.at0 p) ≠ 0) : outLine m y x p = outLine m x y p := by
  have : leftOf (m.at0 y) (m.at0 x) (m.at0 p) = -leftOf (m.at0 x) (m.at0 y) (m.at0 p) := by unfold leftOf; ring
  unfold outLine
  rw [this, sg_neg h]
  refine fin2_ext ?_ ?_ <;> simp <;> ring

theorem outLine_at {x y p : Nat} : ∑ i, outLine m x y p i * m.at0 y i = ∑ i, outLine m x y p i * m.at0 x i := by
  rw [Fin.sum_univ_two, Fin.sum_univ_two]
  unfold outLine
  simp
  ring

theorem outwardLine_eq (hI : Inv (simplexTopo 2) m) {t c a b p : Nat} (ht : t < m.count 1) (hc : c < m.count 2)
    (hv : m.ends t = (a, b)) (hv2 : m.vertsOf 1 t = [a, b]) (hp : (m.vertsOf 2 c).Perm [a, b, p]) :
    outwardLine m t c = outLine m a b p := by
  have h1 : ∀ i, m.centroidOf 1 t i = (m.at0 a i + m.at0 b i) / 2 := by
    intro i
    unfold Mesh.centroidOf
    rw [C47_centroid_mean, points_eq2 hI (by omega) ht, hv2]
    simp
  have h2 : ∀ i, m.centroidOf 2 c i = (m.at0 a i + m.at0 b i + m.at0 p i) / 3 := by
    intro i
    unfold Mesh.centroidOf
    rw [C47_centroid_mean, points_eq2 hI (by omega) hc, List.map_map, (hp.map _).sum_eq, List.length_map, hp.length_eq]
    simp
    ring
  obtain ⟨n0, n1⟩ := lineNormal_eq hv
  have key : ∑ i, m.lineNormal t i * (m.centroidOf 2 c i - m.centroidOf 1 t i)
      = leftOf (m.at0 a) (m.at0 b) (m.at0 p) / 3 := by
    rw [Fin.sum_univ_two, n0, n1, h1, h1, h2, h2]
    unfold leftOf
    ring
  unfold outwardLine outLine sg
  rw [key]
  by_cases hx : 0 < leftOf (m.at0 a) (m.at0 b) (m.at0 p)
  · rw [if_pos (by linarith), if_pos hx]
    refine fin2_ext ?_ ?_ <;> simp [n0, n1]
  · rw [if_neg (by linarith), if_neg hx]
    refine fin2_ext ?_ ?_ <;> simp [n0, n1]

theorem edge_verts (hI : Inv (simplexTopo 2) m) {t : Nat} (ht : t < m.count 1) :
    m.vertsOf 1 t = [(m.ends t).1, (m.ends t).2] := by
  obtain ⟨el, hel⟩ := elem_of_lt (by omega) ht
  obtain ⟨_, hl, _⟩ := hI.verts 1 el (List.mem_of_getElem? hel)
  have hnv : (simplexTopo 2).nv 1 = 2 := by decide
  replace hl := hl.fixed
  rw [hnv] at hl
  unfold Mesh.ends
  rw [vertsOf_elem hel]
  match hv : el.verts, hl with
  | [a, b], _ => simp

/-- What the edge of a triangle with ends `x`, `y` contributes. -/
theorem outwardLine_facet (hI : Inv (simplexTopo 2) m) {t c x y p : Nat} (ht : t < m.count 1) (hc : c < m.count 2)
    (hv : EndsAre m t x y) (hp : (m.vertsOf 2 c).Perm [x, y, p]) (hne : leftOf (m.at0 x) (m.at0 y) (m.at0 p) ≠ 0) :
    outwardLine m t c = outLine m x y p
    ∧ ∑ i, outwardLine m t c i * m.at0 (m.ends t).1 i = ∑ i, outLine m x y p i * m.at0 x i := by
  have h2 := edge_verts hI ht
  rcases hv with hv | hv
  · rw [hv] at h2
    rw [outwardLine_eq hI ht hc hv h2 hp, hv]
    exact ⟨rfl, rfl⟩
  · rw [hv] at h2
    rw [outwardLine_eq hI ht hc hv h2 (hp.trans (List.Perm.swap _ _ _)), hv, outLine_swap hne]
    exact ⟨rfl, outLine_at⟩

/-- The edges of a triangle. -/
theorem outwardLine_cell (hI : Inv (simplexTopo 2) m) {c : Nat} (hc : c < m.count 2)
    (hne : cornersArea (m.pointsOf 2 c) ≠ 0) :
    (∀ i, ((m.bndOf 2 c 1).map fun s => outwardLine m s c i).sum = 0)
    ∧ ((m.bndOf 2 c 1).map fun s => ∑ i, outwardLine m s c i * m.at0 (m.ends s).1 i).sum
      = 2 * cornersArea (m.pointsOf 2 c) := by
  obtain ⟨el, hel⟩ := elem_of_lt (by omega) hc
  obtain ⟨v0, v1, v2, e0, e1, e2, _, h⟩ := triAt_of hI hel
  rw [points_eq2 hI (by omega) hc, h.verts] at hne ⊢
  simp only [List.map_cons, List.map_nil, cornersArea] at hne ⊢
  have hD : 2 * spannedTriangle (m.at0 v0) (m.at0 v1) (m.at0 v2) = |leftOf (m.at0 v0) (m.at0 v1) (m.at0 v2)| := by
    unfold spannedTriangle signedTriangle
    rw [abs_div, abs_of_pos (show (0 : ℝ) < 2 by norm_num), mul_div_cancel₀ _ (by norm_num)]
    congr 1
    unfold leftOf
    ring
  have hD0 : leftOf (m.at0 v0) (m.at0 v1) (m.at0 v2) ≠ 0 := by
    intro h0; rw [h0, abs_zero] at hD; exact hne (by linarith)
  have hlt : ∀ s ∈ m.bndOf 2 c 1, s < m.count 1 := fun s hs => bndOf_valid hI hs
  have q1 : leftOf (m.at0 v0) (m.at0 v2) (m.at0 v1) = -leftOf (m.at0 v0) (m.at0 v1) (m.at0 v2) := by unfold leftOf; ring
  have q2 : leftOf (m.at0 v1) (m.at0 v2) (m.at0 v0) = leftOf (m.at0 v0) (m.at0 v1) (m.at0 v2) := by unfold leftOf; ring
  obtain ⟨a0, b0⟩ := outwardLine_facet hI (hlt e0 (by rw [h.edges]; simp)) hc h.at0 (p := v2) (by rw [h.verts]) hD0
  obtain ⟨a1, b1⟩ := outwardLine_facet hI (hlt e1 (by rw [h.edges]; simp)) hc h.at1 (p := v1)
    (by rw [h.verts]; exact (List.Perm.swap _ _ _).cons _) (by rw [q1]; exact neg_ne_zero.2 hD0)
  obtain ⟨a2, b2⟩ := outwardLine_facet hI (hlt e2 (by rw [h.edges]; simp)) hc h.at2 (p := v0)
    (by rw [h.verts]; exact List.perm_append_comm (l₁ := [v0]) (l₂ := [v1, v2])) (by rw [q2]; exact hD0)
  rw [h.edges]
  simp only [List.map_cons, List.map_nil, List.sum_cons, List.sum_nil, add_zero]
  rw [b0, b1, b2, a0, a1, a2, hD, ← sg_self hD0]
  unfold outLine
  rw [q1, q2, sg_neg hD0]
  generalize hσ : sg (leftOf (m.at0 v0) (m.at0 v1) (m.at0 v2)) = σ
  constructor
  · intro i
    fin_cases i <;> simp <;> ring
  · unfold leftOf
    simp only [Fin.sum_univ_two, Matrix.cons_val_zero, Matrix.cons_val_one]
    ring

theorem apex_of (hI : Inv (simplexTopo 2) m) {s c : Nat} (h : UsedBy (simplexTopo 2) m s c) :
    s < m.count 1 ∧ c < m.count 2 ∧ ∃ p, (m.vertsOf 2 c).Perm [(m.ends s).1, (m.ends s).2, p] := by
  have hs : s ∈ m.bndOf 2 c 1 := (mem_bndOf_iff (simplexTopo_wf 2) hI (le_refl _)).2 h
  have hc : c < m.count 2 := onBoundary_lt (by decide) h
  refine ⟨bndOf_valid hI hs, hc, ?_⟩
  obtain ⟨el, hel⟩ := elem_of_lt (by omega) hc
  obtain ⟨v0, v1, v2, e0, e1, e2, _, h⟩ := triAt_of hI hel
  rw [h.edges] at hs
  simp only [List.mem_cons, List.not_mem_nil, or_false] at hs
  have key : ∀ {x y p}, EndsAre m s x y → (m.vertsOf 2 c).Perm [x, y, p] →
      ∃ p, (m.vertsOf 2 c).Perm [(m.ends s).1, (m.ends s).2, p] := by
    intro x y p he hp
    rcases he with he | he <;> rw [he]
    · exact ⟨p, hp⟩
    · exact ⟨p, hp.trans (List.Perm.swap _ _ _)⟩
  rcases hs with rfl | rfl | rfl
  · exact key h.at0 (p := v2) (by rw [h.verts])
  · exact key h.at1 (p := v1) (by rw [h.verts]; exact (List.Perm.swap _ _ _).cons _)
  · exact key h.at2 (p := v0) (by rw [h.verts]; exact List.perm_append_comm (l₁ := [v0]) (l₂ := [v1, v2]))

theorem outwardLine_cancel (hI : Inv (simplexTopo 2) m) (hm : NoFold m) {s c c' : Nat}
    (h : UsedBy (simplexTopo 2) m s c) (h' : UsedBy (simplexTopo 2) m s c') (hne : c ≠ c') (i : Fin 2) :
    outwardLine m s c i + outwardLine m s c' i = 0 := by
  obtain ⟨h1, h2, p, hp⟩ := apex_of hI h
  obtain ⟨_, h3, p', hp'⟩ := apex_of hI h'
  have hs := hm.sides s c c' _ _ p p' h h' hne rfl hp hp'
  rw [outwardLine_eq hI h1 h2 rfl (edge_verts hI h1) hp, outwardLine_eq hI h1 h3 rfl (edge_verts hI h1) hp']
  unfold outLine
  rw [sg_opposite hs]
  fin_cases i <;> simp

theorem solid_area (hI : Inv (simplexTopo 2) m) (hm : NoFold m) {c : Nat} (hc : c < m.count 2) :
    cornersArea (m.pointsOf 2 c) ≠ 0 := by
  obtain ⟨el, hel⟩ := elem_of_lt (by omega) hc
  obtain ⟨v0, v1, v2, e0, e1, e2, _, h⟩ := triAt_of hI hel
  have hs := hm.solid c v0 v1 v2 hc h.verts
  rw [points_eq2 hI (by omega) hc, h.verts]
  simp only [List.map_cons, List.map_nil, cornersArea]
  intro h0
  apply hs
  rw [spannedTriangle, abs_eq_zero] at h0
  unfold signedTriangle at h0
  unfold leftOf
  linarith

end Tris

end VG
