import Verif.Lemmas.TetFlags

/-!
Circumcenters of cells and facets and where the inner point of an interface is, for C72.
-/

namespace VG

local notation "det" => determinant3 (K := ℝ)

variable {m : Mesh (Fin 3 → ℝ)}

theorem notInAPlane_of_det {a b c e : Fin 3 → ℝ} (h : det (b - a) (c - a) (e - a) ≠ 0) : NotInAPlane a b c e := by
  intro r s t hk
  have h0 := hk 0
  have h1 := hk 1
  have h2 := hk 2
  unfold determinant3 at h
  simp only [Pi.sub_apply] at h
  refine ⟨?_, ?_, ?_⟩
  · apply (mul_eq_zero.1 (?_ : r * _ = 0)).resolve_right h
    linear_combination ((c 1 - a 1) * (e 2 - a 2) - (c 2 - a 2) * (e 1 - a 1)) * h0
      + ((c 2 - a 2) * (e 0 - a 0) - (c 0 - a 0) * (e 2 - a 2)) * h1
      + ((c 0 - a 0) * (e 1 - a 1) - (c 1 - a 1) * (e 0 - a 0)) * h2
  · apply (mul_eq_zero.1 (?_ : s * _ = 0)).resolve_right h
    linear_combination ((e 1 - a 1) * (b 2 - a 2) - (e 2 - a 2) * (b 1 - a 1)) * h0
      + ((e 2 - a 2) * (b 0 - a 0) - (e 0 - a 0) * (b 2 - a 2)) * h1
      + ((e 0 - a 0) * (b 1 - a 1) - (e 1 - a 1) * (b 0 - a 0)) * h2
  · apply (mul_eq_zero.1 (?_ : t * _ = 0)).resolve_right h
    linear_combination ((b 1 - a 1) * (c 2 - a 2) - (b 2 - a 2) * (c 1 - a 1)) * h0
      + ((b 2 - a 2) * (c 0 - a 0) - (b 0 - a 0) * (c 2 - a 2)) * h1
      + ((b 0 - a 0) * (c 1 - a 1) - (b 1 - a 1) * (c 0 - a 0)) * h2

/-- The circumcenters exist. -/
def Centered (m : Mesh (Fin 3 → ℝ)) : Prop := ∀ c < m.count 3, m.tetCenter c = .ok (m.ctr c)

theorem ctr_center (hI : Inv (simplexTopo 3) m) (hS : Solid m) (hC : Centered m) {c : Nat} (hc : c < m.count 3) :
    CenterOf m c (m.ctr c) := by
  obtain ⟨v0, v1, v2, v3, f0, f1, f2, f3, h⟩ := tetAt_of hI hc
  have hs := hS c hc v0 v1 v2 v3 (by rw [h.verts])
  have ho := hC c hc
  have hq : circumTetrahedron (m.at0 v0) (m.at0 v1) (m.at0 v2) (m.at0 v3) = some (m.ctr c) := by
    unfold Mesh.tetCenter at ho
    rw [h.verts] at ho
    simp only at ho
    match hx : circumTetrahedron (m.at0 v0) (m.at0 v1) (m.at0 v2) (m.at0 v3) with
    | none => rw [hx] at ho; simp at ho
    | some o => rw [hx] at ho; simp only [Except.ok.injEq] at ho; rw [ho]
  obtain ⟨h1, h2, h3⟩ := C43_tetrahedron_partial _ _ _ _ _ (notInAPlane_of_det hs) hq
  have key : ∀ v ∈ m.vertsOf 3 c, sqDist (m.ctr c) (m.at0 v) = sqDist (m.ctr c) (m.at0 v0) := by
    intro v hv
    rw [h.verts] at hv
    simp only [List.mem_cons, List.not_mem_nil, or_false] at hv
    rcases hv with rfl | rfl | rfl | rfl
    · rfl
    · exact h1.symm
    · exact h2.symm
    · exact h3.symm
  intro v hv v' hv'
  rw [key v hv, key v' hv']

/-- The facet's circumcenter, in terms of its vertices. -/
theorem tri_center (hI : Inv (simplexTopo 3) m) (hS : Solid m) {c f x y z : Nat} (hc : c < m.count 3)
    (hf : f ∈ m.bndOf 3 c 2) (hp : (m.vertsOf 2 f).Perm [x, y, z]) :
    sqDist (m.triCenter f) (m.at0 x) = sqDist (m.triCenter f) (m.at0 y)
    ∧ sqDist (m.triCenter f) (m.at0 x) = sqDist (m.triCenter f) (m.at0 z) ∧ offPlane m x y z (m.triCenter f) = 0 := by
  obtain ⟨w0, w1, w2, e0, e1, e2, h⟩ := facetAt_of hI (facet_lt hI hf)
  obtain ⟨p, hq⟩ := facet_apex hI hc hf (by rw [h.verts] : (m.vertsOf 2 f).Perm [w0, w1, w2])
  have hs := notInAPlane_of_det (hS c hc w0 w1 w2 p hq)
  have hn : NotOnALine (m.at0 w0) (m.at0 w1) (m.at0 w2) := by
    intro s t hk
    obtain ⟨a, b, _⟩ := hs s t 0 fun k => by rw [hk k]; ring
    exact ⟨a, b⟩
  have hz : m.triCenter f = circumTriangle3 (m.at0 w0) (m.at0 w1) (m.at0 w2) := by
    unfold Mesh.triCenter
    rw [h.verts]
  obtain ⟨h1, h2, s, t, h3⟩ := C43_triangle3 _ _ _ hn
  rw [← hz] at h1 h2 h3
  have k0 := h3 0
  have k1 := h3 1
  have k2 := h3 2
  rw [h.verts] at hp
  rcases perm3 hp.symm with e | e | e | e | e | e <;> cases e <;>
    refine ⟨by linarith, by linarith, ?_⟩ <;>
    (unfold offPlane determinant3; simp only [Pi.sub_apply]; rw [k0, k1, k2]; ring)

/-- The segments of the interface of an edge. -/
noncomputable def Mesh.edgeSegs (m : Mesh (Fin 3 → ℝ)) (e : Nat) : List IfSeg :=
  (List.range (m.count 2)).flatMap fun f => if e ∈ m.bndOf 2 f 1 then m.segs (List.range (m.count 3)) f e else []

theorem mem_cellsAt {f c : Nat} : c ∈ m.cellsAt (List.range (m.count 3)) f ↔ c < m.count 3 ∧ f ∈ m.bndOf 3 c 2 := by
  unfold Mesh.cellsAt
  simp

theorem around_of (hI : Inv (simplexTopo 3) m) {c f e : Nat} (hc : c < m.count 3) (hf : f ∈ m.bndOf 3 c 2)
    (he : e ∈ m.bndOf 2 f 1) : Around m (m.ends e).1 (m.ends e).2 c := by
  obtain ⟨w, hw⟩ := edge_third hI (facet_lt hI hf) he
  have hs := facet_subset hI hc hf
  exact ⟨hc, hs (hw.mem_iff.2 (by simp)), hs (hw.mem_iff.2 (by simp)), ends_ne3 hI (edge_lt hI he)⟩

theorem outer_of (hI : Inv (simplexTopo 3) m) {c f a b w p : Nat} (h1 : m.cellsAt (List.range (m.count 3)) f = [c])
    (hf : f < m.count 2) (hp : (m.vertsOf 2 f).Perm [a, b, w]) (hq : (m.vertsOf 3 c).Perm [a, b, w, p]) : Outer m c a b w p := by
  have hc := (mem_cellsAt.1 (h1 ▸ List.mem_singleton_self c)).1
  refine ⟨hc, hq, fun c' hc' hne ⟨ha, hb, hw⟩ => hne ?_⟩
  have : c' ∈ m.cellsAt (List.range (m.count 3)) f := by
    refine mem_cellsAt.2 ⟨hc', (facet_mem hI hc' hf).2 fun x hx => ?_⟩
    have := hp.mem_iff.1 hx
    simp only [List.mem_cons, List.not_mem_nil, or_false] at this
    rcases this with rfl | rfl | rfl <;> assumption
  rw [h1] at this
  simpa using this

/-- What holds for all points of the boundary of the interface holds for the inner point. -/
theorem q_nonneg (hI : Inv (simplexTopo 3) m) {φ : (Fin 3 → ℝ) → ℝ} (hφ : Affine φ) {e : Nat} (hne : m.edgeSegs e ≠ [])
    (h1 : ∀ c, Around m (m.ends e).1 (m.ends e).2 c → 0 ≤ φ (m.ctr c))
    (h2 : ∀ f c, f < m.count 2 → e ∈ m.bndOf 2 f 1 → m.cellsAt (List.range (m.count 3)) f = [c] →
      0 ≤ φ (m.triCenter f) ∧ 0 ≤ φ (m.midOf e)) :
    0 ≤ φ (innerPoint (m.edgeSegs e)) := by
  refine inner_affine hφ hne fun s hs => ?_
  unfold Mesh.edgeSegs at hs
  obtain ⟨f, hf, hs⟩ := List.mem_flatMap.1 hs
  rw [List.mem_range] at hf
  split at hs
  · next he =>
    have hA : ∀ c ∈ m.cellsAt (List.range (m.count 3)) f, 0 ≤ φ (m.ctr c) := fun c hc =>
      h1 c (around_of hI (mem_cellsAt.1 hc).1 (mem_cellsAt.1 hc).2 he)
    unfold Mesh.segs at hs
    split at hs
    · next c hc =>
      obtain ⟨ht, hm⟩ := h2 f c hf he hc
      have ho := hA c (by rw [hc]; simp)
      simp only [List.mem_cons, List.not_mem_nil, or_false] at hs
      rcases hs with rfl | rfl
      · exact ⟨ho, ht⟩
      · exact ⟨hm, ht⟩
    · next c c' hc =>
      have ho := hA c (by rw [hc]; simp)
      have ho' := hA c' (by rw [hc]; simp)
      have hm := affine_mid hφ (m.ctr c) (m.ctr c')
      simp only [List.mem_cons, List.not_mem_nil, or_false] at hs
      rcases hs with rfl | rfl
      · exact ⟨ho, by rw [hm]; linarith⟩
      · exact ⟨by rw [hm]; linarith, ho'⟩
    · simp at hs
  · simp at hs

section
variable (hI : Inv (simplexTopo 3) m) (hD : Delaunay m) (hC : Centered m)
include hI hD hC

theorem ctr_ends {c a b : Nat} (h : Around m a b c) : sqDist (m.ctr c) (m.at0 a) = sqDist (m.ctr c) (m.at0 b) :=
  ctr_center hI hD.solid hC h.1 _ h.2.1 _ h.2.2.1

omit hC in
/-- The circumcenter of a facet with one cell. -/
theorem tri_at {c f e : Nat} (h1 : m.cellsAt (List.range (m.count 3)) f = [c]) (he : e ∈ m.bndOf 2 f 1) :
    ∃ w p, (m.vertsOf 2 f).Perm [(m.ends e).1, (m.ends e).2, w] ∧ Outer m c (m.ends e).1 (m.ends e).2 w p
      ∧ sqDist (m.triCenter f) (m.at0 (m.ends e).1) = sqDist (m.triCenter f) (m.at0 (m.ends e).2)
      ∧ sqDist (m.triCenter f) (m.at0 (m.ends e).1) = sqDist (m.triCenter f) (m.at0 w)
      ∧ offPlane m (m.ends e).1 (m.ends e).2 w (m.triCenter f) = 0 := by
  obtain ⟨hc, hf⟩ := mem_cellsAt.1 (h1 ▸ List.mem_singleton_self c)
  obtain ⟨w, hw⟩ := edge_third hI (facet_lt hI hf) he
  obtain ⟨p, hp⟩ := facet_apex hI hc hf hw
  exact ⟨w, p, hw, outer_of hI h1 (facet_lt hI hf) hw hp, tri_center hI hD.solid hc hf hw⟩

theorem q_equal {e : Nat} (hne : m.edgeSegs e ≠ []) :
    sqDist (innerPoint (m.edgeSegs e)) (m.at0 (m.ends e).1) = sqDist (innerPoint (m.edgeSegs e)) (m.at0 (m.ends e).2) := by
  have hm := mid_equal (m.at0 (m.ends e).1) (m.at0 (m.ends e).2)
  have k1 := q_nonneg hI (affine_near (m.at0 (m.ends e).1) (m.at0 (m.ends e).2)) hne
    (fun c hc => by show 0 ≤ sqDist _ _ - sqDist _ _; rw [ctr_ends hI hD hC hc, sub_self])
    (fun f c hf he hc => by
      obtain ⟨w, p, _, _, h, _⟩ := tri_at hI hD hc he
      constructor
      · show 0 ≤ sqDist _ _ - sqDist _ _
        rw [h, sub_self]
      · show 0 ≤ sqDist (circumLine _ _) _ - sqDist (circumLine _ _) _
        rw [hm, sub_self])
  have k2 := q_nonneg hI (affine_near (m.at0 (m.ends e).2) (m.at0 (m.ends e).1)) hne
    (fun c hc => by show 0 ≤ sqDist _ _ - sqDist _ _; rw [ctr_ends hI hD hC hc, sub_self])
    (fun f c hf he hc => by
      obtain ⟨w, p, _, _, h, _⟩ := tri_at hI hD hc he
      constructor
      · show 0 ≤ sqDist _ _ - sqDist _ _
        rw [h, sub_self]
      · show 0 ≤ sqDist (circumLine _ _) _ - sqDist (circumLine _ _) _
        rw [hm, sub_self])
  linarith

/-- The circumcenter of a facet on the boundary is at least as near to the edge as to any vertex there. -/
theorem tri_near {e f c c' s : Nat} (h1 : m.cellsAt (List.range (m.count 3)) f = [c]) (he : e ∈ m.bndOf 2 f 1)
    (hc' : Around m (m.ends e).1 (m.ends e).2 c') (hs : s ∈ m.vertsOf 3 c') :
    sqDist (m.triCenter f) (m.at0 (m.ends e).1) ≤ sqDist (m.triCenter f) (m.at0 s) := by
  obtain ⟨w, p, hw, ho, z1, z2, z3⟩ := tri_at hI hD h1 he
  have hp := ho.2.1
  have hc := ho.1
  have hA : Around m (m.ends e).1 (m.ends e).2 c :=
    ⟨hc, hp.mem_iff.2 (by simp), hp.mem_iff.2 (by simp), ends_ne3 hI (edge_lt hI he)⟩
  have hO := ctr_center hI hD.solid hC hc
  exact facet_empty (hO _ hA.2.1 _ hA.2.2.1) (hO _ hA.2.1 _ (hp.mem_iff.2 (by simp))) z1 z2 z3 (hD.solid c hc _ _ _ _ hp)
    (hD.inside _ _ _ _ _ ho c hA _ hO) (hD.hull _ _ _ _ _ ho c' hc' s hs) (hD.empty _ _ c c' hA hc' _ hO s hs)

theorem q_near {e c' s : Nat} (hne : m.edgeSegs e ≠ []) (hc' : Around m (m.ends e).1 (m.ends e).2 c') (hs : s ∈ m.vertsOf 3 c') :
    sqDist (innerPoint (m.edgeSegs e)) (m.at0 (m.ends e).1) ≤ sqDist (innerPoint (m.edgeSegs e)) (m.at0 s) := by
  have k := q_nonneg hI (affine_near (m.at0 (m.ends e).1) (m.at0 s)) hne
    (fun c hc => sub_nonneg.2 (hD.empty _ _ c c' hc hc' _ (ctr_center hI hD.solid hC hc.1) s hs))
    (fun f c hf he hc => by
      obtain ⟨w, p, _, ho, _⟩ := tri_at hI hD hc he
      exact ⟨sub_nonneg.2 (tri_near hI hD hC hc he hc' hs), sub_nonneg.2 (hD.edges _ _ _ _ _ ho c' hc' s hs)⟩)
  exact sub_nonneg.1 k

theorem q_side {e c w p : Nat} (hne : m.edgeSegs e ≠ []) (ho : Outer m c (m.ends e).1 (m.ends e).2 w p) :
    0 ≤ offPlane m (m.ends e).1 (m.ends e).2 w (m.at0 p)
      * offPlane m (m.ends e).1 (m.ends e).2 w (innerPoint (m.edgeSegs e)) := by
  refine q_nonneg hI (affine_side _ _ _ _) hne (fun c' hc' => hD.inside _ _ _ _ _ ho c' hc' _ (ctr_center hI hD.solid hC hc'.1))
    (fun f c' hf he hc => ?_)
  obtain ⟨w', p', hw', ho', z1, z2, z3⟩ := tri_at hI hD hc he
  have hp' := ho'.2.1
  have hA : Around m (m.ends e).1 (m.ends e).2 c' :=
    ⟨ho'.1, hp'.mem_iff.2 (by simp), hp'.mem_iff.2 (by simp), ends_ne3 hI (edge_lt hI he)⟩
  have hm : w' ∈ m.vertsOf 3 c' := hp'.mem_iff.2 (by simp)
  obtain ⟨n1, n2⟩ := normal_pos (hD.solid c' ho'.1 _ _ _ _ hp')
  refine ⟨rim_inside z1 z2 z3 (hD.edges _ _ _ _ _ ho c' hA w' hm) n1 n2 (hD.hull _ _ _ _ _ ho c' hA w' hm), le_of_eq ?_⟩
  simp only [Mesh.midOf, circumLine, determinant3, Pi.sub_apply]
  ring

end

end VG
