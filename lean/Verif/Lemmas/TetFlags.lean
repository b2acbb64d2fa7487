import Verif.Lemmas.TetGeo
import Verif.Lemmas.TetSlots
import Verif.Props.VoronoiTetsSpec

/-!
Sums over the facets and cells at an edge, for C72.
-/

namespace VG

local notation "det" => determinant3 (K := ℝ)

section
variable (m : Mesh (Fin 3 → ℝ))

/-- The vertex of the facet `f` other than `a` and `b`. -/
def Mesh.third (f a b : Nat) : Nat := ((m.vertsOf 2 f).filter fun v => decide (v ≠ a ∧ v ≠ b)).headD 0

/-- The vertex of the cell `c` not in the facet `f`. -/
def Mesh.apex (c f : Nat) : Nat := ((m.vertsOf 3 c).filter fun v => decide (v ∉ m.vertsOf 2 f)).headD 0

/-- The orientation of the cell, seen from the facet and the edge. -/
noncomputable def Mesh.turn (c f e : Nat) : ℝ :=
  sg (offPlane m (m.ends e).1 (m.ends e).2 (m.third f (m.ends e).1 (m.ends e).2) (m.at0 (m.apex c f)))

/-- What cell, facet and edge contribute. -/
noncomputable def Mesh.flag (c f e : Nat) : ℝ :=
  m.turn c f e * det (m.at0 (m.ends e).2 - m.at0 (m.ends e).1) (m.triCenter f - m.midOf e) (m.ctr c - m.midOf e)

variable {m}

theorem third_eq {f a b w : Nat} (hp : (m.vertsOf 2 f).Perm [a, b, w]) (hn : [a, b, w].Nodup) : m.third f a b = w := by
  have h := hp.filter fun v => decide (v ≠ a ∧ v ≠ b)
  simp only [List.nodup_cons, List.mem_cons, List.not_mem_nil, or_false, not_or, not_false_eq_true, List.nodup_nil,
    and_true] at hn
  have e : [a, b, w].filter (fun v => decide (v ≠ a ∧ v ≠ b)) = [w] := by
    simp [Ne.symm hn.1.2, Ne.symm hn.2]
  rw [e, List.perm_singleton] at h
  rw [Mesh.third, h]
  rfl

theorem apex_eq {c f a b w p : Nat} (hp : (m.vertsOf 2 f).Perm [a, b, w]) (hq : (m.vertsOf 3 c).Perm [a, b, w, p])
    (hn : [a, b, w, p].Nodup) : m.apex c f = p := by
  have h := hq.filter fun v => decide (v ∉ m.vertsOf 2 f)
  simp only [List.nodup_cons, List.mem_cons, List.not_mem_nil, or_false, not_or, not_false_eq_true, List.nodup_nil,
    and_true] at hn
  have e : [a, b, w, p].filter (fun v => decide (v ∉ m.vertsOf 2 f)) = [p] := by
    simp only [hp.mem_iff]
    simp [Ne.symm hn.1.2.2, Ne.symm hn.2.1.2, Ne.symm hn.2.2]
  rw [e, List.perm_singleton] at h
  rw [Mesh.apex, h]
  rfl

theorem turn_eq (hI : Inv (simplexTopo 3) m) {c f e w p : Nat} (hc : c < m.count 3)
    (hp : (m.vertsOf 2 f).Perm [(m.ends e).1, (m.ends e).2, w])
    (hq : (m.vertsOf 3 c).Perm [(m.ends e).1, (m.ends e).2, w, p]) :
    m.turn c f e = sg (offPlane m (m.ends e).1 (m.ends e).2 w (m.at0 p)) := by
  have hn := hq.nodup_iff.1 (tet_nodup hI hc).1
  unfold Mesh.turn
  rw [third_eq hp (hn.sublist (by simp)), apex_eq hp hq hn]

theorem side_swap (a b w p : Nat) : offPlane m a b p (m.at0 w) = -offPlane m a b w (m.at0 p) := by
  unfold offPlane determinant3
  simp only [Pi.sub_apply]
  ring

/-- At an edge the two facets of a cell have opposite orientations. -/
theorem turn_sum (hI : Inv (simplexTopo 3) m) (hD : Delaunay m) {c e : Nat} (hc : c < m.count 3) (he : e < m.count 1) :
    ((m.bndOf 3 c 2).map fun f => if e ∈ m.bndOf 2 f 1 then m.turn c f e else 0).sum = 0 := by
  by_cases hex : ∃ f ∈ m.bndOf 3 c 2, e ∈ m.bndOf 2 f 1
  · obtain ⟨f, hf, hfe⟩ := hex
    obtain ⟨x, hx⟩ := edge_third hI (facet_lt hI hf) hfe
    obtain ⟨y, hy⟩ := facet_apex hI hc hf hx
    obtain ⟨g, g', hgp, hg, hg'⟩ := facets_at_edge hI hc he hy
    have hy' : (m.vertsOf 3 c).Perm [(m.ends e).1, (m.ends e).2, y, x] :=
      hy.trans (((List.Perm.swap _ _ _).cons _).cons _)
    have hsum : ∀ l : List Nat, (l.map fun f => if e ∈ m.bndOf 2 f 1 then m.turn c f e else 0).sum
        = ((l.filter fun f => decide (e ∈ m.bndOf 2 f 1)).map fun f => m.turn c f e).sum := by
      intro l
      induction l with
      | nil => rfl
      | cons a l ih =>
        rw [List.map_cons, List.sum_cons, List.filter_cons, ih]
        by_cases h : e ∈ m.bndOf 2 a 1 <;> simp [h]
    rw [hsum, (hgp.map _).sum_eq]
    simp only [List.map_cons, List.map_nil, List.sum_cons, List.sum_nil]
    rw [turn_eq hI hc hg hy, turn_eq hI hc hg' hy', side_swap, sg_neg (hD.solid c hc _ _ _ _ hy')]
    ring
  · push Not at hex
    refine List.sum_eq_zero fun x hx => ?_
    obtain ⟨f, hf, rfl⟩ := List.mem_map.1 hx
    rw [if_neg (hex f hf)]

/-! ### The flags of a cell -/

/-- What a facet with vertices `x`, `y`, `z` contributes to a cell with fourth vertex `p`. -/
noncomputable def faceAmt (m : Mesh (Fin 3 → ℝ)) (o : Fin 3 → ℝ) (x y z p : Nat) : ℝ :=
  sg (offPlane m x y z (m.at0 p)) * offPlane m x y z o

theorem faceAmt_swap {o : Fin 3 → ℝ} {x y z p : Nat} (h : offPlane m x y z (m.at0 p) ≠ 0) :
    faceAmt m o y x z p = faceAmt m o x y z p := by
  have e : ∀ q, offPlane m y x z q = -offPlane m x y z q := by
    intro q
    unfold offPlane determinant3
    simp only [Pi.sub_apply]
    ring
  unfold faceAmt
  rw [e, e, sg_neg h]
  ring

theorem faceAmt_rot {o : Fin 3 → ℝ} {x y z p : Nat} : faceAmt m o y z x p = faceAmt m o x y z p := by
  have e : ∀ q, offPlane m y z x q = offPlane m x y z q := by
    intro q
    unfold offPlane determinant3
    simp only [Pi.sub_apply]
    ring
  unfold faceAmt
  rw [e, e]

theorem perm3 {x y z a b c : Nat} (h : [x, y, z].Perm [a, b, c]) :
    (x, y, z) = (a, b, c) ∨ (x, y, z) = (a, c, b) ∨ (x, y, z) = (b, a, c) ∨ (x, y, z) = (b, c, a) ∨ (x, y, z) = (c, a, b)
      ∨ (x, y, z) = (c, b, a) := by
  have pair : ∀ {a b c e : Nat}, [a, b].Perm [c, e] → (a = c ∧ b = e) ∨ (a = e ∧ b = c) := by
    intro a b c e hp
    have ha : a ∈ [c, e] := hp.subset (by simp)
    simp only [List.mem_cons, List.not_mem_nil, or_false] at ha
    rcases ha with rfl | rfl
    · have := (List.perm_cons a).1 hp; left; simpa using this
    · have := (List.perm_cons a).1 (hp.trans (List.Perm.swap _ _ _)); right; simpa using this
  have hx : x ∈ [a, b, c] := h.subset (by simp)
  simp only [List.mem_cons, List.not_mem_nil, or_false] at hx
  rcases hx with rfl | rfl | rfl
  · rcases pair ((List.perm_cons _).1 h) with ⟨rfl, rfl⟩ | ⟨rfl, rfl⟩ <;> simp
  · rcases pair ((List.perm_cons _).1 (h.trans (List.Perm.swap _ _ _))) with ⟨rfl, rfl⟩ | ⟨rfl, rfl⟩ <;> simp
  · rcases pair ((List.perm_cons _).1 (h.trans (List.perm_append_comm (l₁ := [a, b]) (l₂ := [x])))) with ⟨rfl, rfl⟩ | ⟨rfl, rfl⟩ <;> simp

theorem faceAmt_perm {o : Fin 3 → ℝ} {x y z a b c p : Nat} (h : [x, y, z].Perm [a, b, c]) (hs : offPlane m a b c (m.at0 p) ≠ 0) :
    faceAmt m o x y z p = faceAmt m o a b c p := by
  rcases perm3 h with e | e | e | e | e | e <;> cases e
  · rfl
  · rw [← faceAmt_rot, ← faceAmt_swap hs]
    rw [← faceAmt_rot]
  · exact faceAmt_swap hs
  · exact faceAmt_rot
  · rw [← faceAmt_rot, ← faceAmt_rot]
  · rw [← faceAmt_swap hs, ← faceAmt_rot, ← faceAmt_rot]

theorem flag_eq (hI : Inv (simplexTopo 3) m) (hD : Delaunay m) {c f e a b w p : Nat} (hc : c < m.count 3) (he : EndsAre m e a b)
    (hp : (m.vertsOf 2 f).Perm [a, b, w]) (hq : (m.vertsOf 3 c).Perm [a, b, w, p]) :
    m.flag c f e = sg (offPlane m a b w (m.at0 p)) * det (m.at0 b - m.at0 a) (m.triCenter f - m.at0 a) (m.ctr c - m.at0 a) := by
  have hs := hD.solid c hc _ _ _ _ hq
  rcases he with he | he
  · have h1 : (m.ends e).1 = a := by rw [he]
    have h2 : (m.ends e).2 = b := by rw [he]
    rw [← h1, ← h2] at hp hq
    unfold Mesh.flag Mesh.midOf
    rw [turn_eq hI hc hp hq, h1, h2]
    congr 1
    simp only [determinant3, Pi.sub_apply, circumLine]
    ring
  · have h1 : (m.ends e).1 = b := by rw [he]
    have h2 : (m.ends e).2 = a := by rw [he]
    have hp' := hp.trans (List.Perm.swap b a [w])
    have hq' := hq.trans (List.Perm.swap b a [w, p])
    rw [← h1, ← h2] at hp' hq'
    unfold Mesh.flag Mesh.midOf
    rw [turn_eq hI hc hp' hq', h1, h2]
    have e1 : offPlane m b a w (m.at0 p) = -offPlane m a b w (m.at0 p) := by
      unfold offPlane determinant3
      simp only [Pi.sub_apply]
      ring
    have e2 : det (m.at0 a - m.at0 b) (m.triCenter f - circumLine (m.at0 b) (m.at0 a)) (m.ctr c - circumLine (m.at0 b) (m.at0 a))
        = -det (m.at0 b - m.at0 a) (m.triCenter f - m.at0 a) (m.ctr c - m.at0 a) := by
      simp only [determinant3, Pi.sub_apply, circumLine]
      ring
    rw [e1, e2, sg_neg hs]
    ring

/-- The three edges of a facet together. -/
theorem facet_flags (hI : Inv (simplexTopo 3) m) (hD : Delaunay m) {c f x y z p : Nat} (hc : c < m.count 3)
    (hf : f ∈ m.bndOf 3 c 2) (hp : (m.vertsOf 2 f).Perm [x, y, z]) (hq : (m.vertsOf 3 c).Perm [x, y, z, p])
    (hz : ∀ x y z, (m.vertsOf 2 f).Perm [x, y, z] → offPlane m x y z (m.triCenter f) = 0) :
    ((m.bndOf 2 f 1).map (m.flag c f)).sum = faceAmt m (m.ctr c) x y z p := by
  obtain ⟨w0, w1, w2, e0, e1, e2, h⟩ := facetAt_of hI (facet_lt hI hf)
  have hv := hp
  rw [h.verts] at hv
  have hw : (m.vertsOf 2 f).Perm [w0, w1, w2] := by rw [h.verts]
  have hq3 : (m.vertsOf 3 c).Perm [w0, w1, w2, p] := hq.trans (hv.symm.append_right [p])
  have s1 : (m.vertsOf 2 f).Perm [w0, w2, w1] := hw.trans ((List.Perm.swap _ _ _).cons _)
  have s2 : (m.vertsOf 2 f).Perm [w1, w2, w0] := hw.trans (List.perm_append_comm (l₁ := [w0]) (l₂ := [w1, w2]))
  rw [← faceAmt_perm hv (hD.solid c hc _ _ _ _ hq), h.edges]
  simp only [List.map_cons, List.map_nil, List.sum_cons, List.sum_nil]
  rw [flag_eq hI hD hc h.at0 hw hq3, flag_eq hI hD hc h.at1 s1 (hq3.trans ((hw.symm.trans s1).append_right [p])),
    flag_eq hI hD hc h.at2 s2 (hq3.trans ((hw.symm.trans s2).append_right [p]))]
  have d1 : offPlane m w0 w2 w1 (m.at0 p) = -offPlane m w0 w1 w2 (m.at0 p) := by
    unfold offPlane determinant3
    simp only [Pi.sub_apply]
    ring
  have d2 : offPlane m w1 w2 w0 (m.at0 p) = offPlane m w0 w1 w2 (m.at0 p) := by
    unfold offPlane determinant3
    simp only [Pi.sub_apply]
    ring
  rw [d1, d2, sg_neg (hD.solid c hc _ _ _ _ hq3)]
  unfold faceAmt
  have hz' := hz _ _ _ hw
  have : det (m.at0 w1 - m.at0 w0) (m.triCenter f - m.at0 w0) (m.ctr c - m.at0 w0)
      - det (m.at0 w2 - m.at0 w0) (m.triCenter f - m.at0 w0) (m.ctr c - m.at0 w0)
      + det (m.at0 w2 - m.at0 w1) (m.triCenter f - m.at0 w1) (m.ctr c - m.at0 w1)
      = offPlane m w0 w1 w2 (m.ctr c) - offPlane m w0 w1 w2 (m.triCenter f) := by
    unfold offPlane determinant3
    simp only [Pi.sub_apply]
    ring
  rw [hz', sub_zero] at this
  rw [← this]
  ring

/-- The edges of all facets of a cell together. -/
theorem cell_flags (hI : Inv (simplexTopo 3) m) (hD : Delaunay m) {c a b w p : Nat} (hc : c < m.count 3)
    (hv : m.vertsOf 3 c = [a, b, w, p])
    (hz : ∀ f ∈ m.bndOf 3 c 2, ∀ x y z, (m.vertsOf 2 f).Perm [x, y, z] → offPlane m x y z (m.triCenter f) = 0) :
    ((m.bndOf 3 c 2).map fun f => ((m.bndOf 2 f 1).map (m.flag c f)).sum).sum = |offPlane m a b w (m.at0 p)| := by
  obtain ⟨v0, v1, v2, v3, f0, f1, f2, f3, h⟩ := tetAt_of hI hc
  rw [h.verts] at hv
  simp only [List.cons.injEq, and_true] at hv
  obtain ⟨rfl, rfl, rfl, rfl⟩ := hv
  have hm : ∀ f ∈ [f0, f1, f2, f3], f ∈ m.bndOf 3 c 2 := by rw [h.facets]; exact fun f hf => hf
  have q0 : (m.vertsOf 3 c).Perm [v0, v1, v2, v3] := by rw [h.verts]
  have q1 : (m.vertsOf 3 c).Perm [v0, v1, v3, v2] := q0.trans (((List.Perm.swap _ _ _).cons _).cons _)
  have q2 : (m.vertsOf 3 c).Perm [v0, v2, v3, v1] :=
    q0.trans ((List.perm_append_comm (l₁ := [v1]) (l₂ := [v2, v3])).cons _)
  have q3 : (m.vertsOf 3 c).Perm [v1, v2, v3, v0] := q0.trans (List.perm_append_comm (l₁ := [v0]) (l₂ := [v1, v2, v3]))
  have i0 := hm f0 (by simp)
  have i1 := hm f1 (by simp)
  have i2 := hm f2 (by simp)
  have i3 := hm f3 (by simp)
  rw [h.facets]
  simp only [List.map_cons, List.map_nil, List.sum_cons, List.sum_nil]
  rw [facet_flags hI hD hc i0 h.at0 q0 (hz _ i0), facet_flags hI hD hc i1 h.at1 q1 (hz _ i1),
    facet_flags hI hD hc i2 h.at2 q2 (hz _ i2), facet_flags hI hD hc i3 h.at3 q3 (hz _ i3)]
  have hs := hD.solid c hc _ _ _ _ q0
  have d1 : offPlane m v0 v1 v3 (m.at0 v2) = -offPlane m v0 v1 v2 (m.at0 v3) := side_swap _ _ _ _
  have d2 : offPlane m v0 v2 v3 (m.at0 v1) = offPlane m v0 v1 v2 (m.at0 v3) := by
    unfold offPlane determinant3
    simp only [Pi.sub_apply]
    ring
  have d3 : offPlane m v1 v2 v3 (m.at0 v0) = -offPlane m v0 v1 v2 (m.at0 v3) := by
    unfold offPlane determinant3
    simp only [Pi.sub_apply]
    ring
  unfold faceAmt
  rw [d1, d2, d3, sg_neg hs, ← sg_self hs]
  have : offPlane m v0 v1 v2 (m.at0 v3) = offPlane m v0 v1 v2 (m.ctr c) - offPlane m v0 v1 v3 (m.ctr c) + offPlane m v0 v2 v3 (m.ctr c)
      - offPlane m v1 v2 v3 (m.ctr c) := by
    unfold offPlane determinant3
    simp only [Pi.sub_apply]
    ring
  rw [show sg (offPlane m v0 v1 v2 (m.at0 v3)) * offPlane m v0 v1 v2 (m.at0 v3) = sg (offPlane m v0 v1 v2 (m.at0 v3))
    * (offPlane m v0 v1 v2 (m.ctr c) - offPlane m v0 v1 v3 (m.ctr c) + offPlane m v0 v2 v3 (m.ctr c)
      - offPlane m v1 v2 v3 (m.ctr c)) from congrArg _ this]
  ring

end

end VG
