import Verif.Props.Normals
import Verif.Props.VoronoiQuads

/-!
C106 for quadrilaterals in the plane: the normal vectors of the boundary edges, turned away from their cells.
-/

namespace VG

variable {m : Mesh (Fin 2 → ℝ)}

/-- All quadrilaterals are convex, and two quadrilaterals at an edge are on different sides of it. -/
structure NoFoldQuads (m : Mesh (Fin 2 → ℝ)) : Prop where
  convex : ConvexQuads m
  sides : ∀ t c c' a b p p', UsedBy (cubeTopo 2) m t c → UsedBy (cubeTopo 2) m t c' → c ≠ c' →
    m.ends t = (a, b) → p ∈ m.vertsOf 2 c → p ≠ a → p ≠ b → p' ∈ m.vertsOf 2 c' → p' ≠ a → p' ≠ b →
    leftOf (m.at0 a) (m.at0 b) (m.at0 p) * leftOf (m.at0 a) (m.at0 b) (m.at0 p') < 0

/-- Area of a quadrilateral given by its corners in the numbering of the library. -/
noncomputable def cornersQuad : List (Fin 2 → ℝ) → ℝ
  | [a, b, c, d] => |shoelace [a, b, d, c]|
  | _ => 0

namespace NormalsQuad

theorem points_eq (hI : Inv (cubeTopo 2) m) {k t : Nat} (hk : k ≠ 0) (ht : t < m.count k) :
    m.pointsOf k t = (m.vertsOf k t).map m.at0 := by
  obtain ⟨e, he⟩ := elem_of_lt hk ht
  have hv := (hI.verts k e (List.mem_of_getElem? he)).2.2
  unfold Mesh.pointsOf
  rw [vertsOf_elem he]
  have : ∀ l : List Nat, (∀ v ∈ l, v < m.verts.length) → l.filterMap m.ptOf = l.map m.at0 := by
    intro l hl
    induction l with
    | nil => rfl
    | cons a l ih =>
      have ha := hl a (by simp)
      rw [List.filterMap_cons, List.map_cons, ih fun v hv => hl v (by simp [hv])]
      unfold Mesh.at0 Mesh.ptOf
      rw [List.getElem?_eq_getElem ha]
      rfl
  exact this _ hv

theorem edge_verts (hI : Inv (cubeTopo 2) m) {t : Nat} (ht : t < m.count 1) :
    m.vertsOf 1 t = [(m.ends t).1, (m.ends t).2] := by
  obtain ⟨el, hel⟩ := elem_of_lt (by omega) ht
  obtain ⟨_, hl, _⟩ := hI.verts 1 el (List.mem_of_getElem? hel)
  have hnv : (cubeTopo 2).nv 1 = 2 := by decide
  replace hl := hl.fixed
  rw [hnv] at hl
  unfold Mesh.ends
  rw [vertsOf_elem hel]
  match hv : el.verts, hl with
  | [a, b], _ => simp

theorem side_eq (hI : Inv (cubeTopo 2) m) {t c a b p q : Nat} (ht : t < m.count 1) (hc : c < m.count 2)
    (hv : m.ends t = (a, b)) (hp : (m.vertsOf 2 c).Perm [a, b, p, q])
    (hpq : 0 < leftOf (m.at0 a) (m.at0 b) (m.at0 p) * leftOf (m.at0 a) (m.at0 b) (m.at0 q)) :
    outwardLine m t c = outLine m a b p := by
  have hv2 := edge_verts hI ht
  rw [hv] at hv2
  have h1 : ∀ i, m.centroidOf 1 t i = (m.at0 a i + m.at0 b i) / 2 := by
    intro i
    unfold Mesh.centroidOf
    rw [C47_centroid_mean, points_eq hI (by omega) ht, hv2]
    simp
  have h2 : ∀ i, m.centroidOf 2 c i = (m.at0 a i + m.at0 b i + m.at0 p i + m.at0 q i) / 4 := by
    intro i
    unfold Mesh.centroidOf
    rw [C47_centroid_mean, points_eq hI (by omega) hc, List.map_map, (hp.map _).sum_eq, List.length_map, hp.length_eq]
    simp
    ring
  obtain ⟨n0, n1⟩ := lineNormal_eq hv
  have key : ∑ i, m.lineNormal t i * (m.centroidOf 2 c i - m.centroidOf 1 t i)
      = (leftOf (m.at0 a) (m.at0 b) (m.at0 p) + leftOf (m.at0 a) (m.at0 b) (m.at0 q)) / 4 := by
    rw [Fin.sum_univ_two, n0, n1, h1, h1, h2, h2]
    unfold leftOf
    ring
  unfold outwardLine outLine sg
  rw [key]
  rcases pos_and_pos_or_neg_and_neg_of_mul_pos hpq with ⟨x, y⟩ | ⟨x, y⟩
  · rw [if_pos (by linarith), if_pos x]
    refine fin2_ext ?_ ?_ <;> simp [n0, n1]
  · rw [if_neg (by linarith), if_neg (by linarith)]
    refine fin2_ext ?_ ?_ <;> simp [n0, n1]

/-- What the edge of a quadrilateral with ends `x`, `y` contributes. -/
theorem side_facet (hI : Inv (cubeTopo 2) m) {t c x y p q : Nat} (ht : t < m.count 1) (hc : c < m.count 2)
    (hv : EndsAre m t x y) (hp : (m.vertsOf 2 c).Perm [x, y, p, q])
    (hpq : 0 < leftOf (m.at0 x) (m.at0 y) (m.at0 p) * leftOf (m.at0 x) (m.at0 y) (m.at0 q)) :
    outwardLine m t c = outLine m x y p
    ∧ ∑ i, outwardLine m t c i * m.at0 (m.ends t).1 i = ∑ i, outLine m x y p i * m.at0 x i := by
  have hne : leftOf (m.at0 x) (m.at0 y) (m.at0 p) ≠ 0 := by intro h; rw [h, zero_mul] at hpq; exact lt_irrefl _ hpq
  rcases hv with hv | hv
  · rw [side_eq hI ht hc hv hp hpq, hv]
    exact ⟨rfl, rfl⟩
  · have sw : ∀ P, leftOf (m.at0 y) (m.at0 x) P = -leftOf (m.at0 x) (m.at0 y) P := by intro P; unfold leftOf; ring
    rw [side_eq hI ht hc hv (hp.trans (List.Perm.swap _ _ _)) (by rw [sw, sw, neg_mul_neg]; exact hpq), hv,
      outLine_swap hne]
    exact ⟨rfl, outLine_at⟩

/-- The corners of a convex quadrilateral seen from its sides. -/
structure Sides (A B C D : Fin 2 → ℝ) (σ : ℝ) : Prop where
  ab : 0 < leftOf A B C * leftOf A B D
  ac : 0 < leftOf A C B * leftOf A C D
  bd : 0 < leftOf B D A * leftOf B D C
  cd : 0 < leftOf C D A * leftOf C D B
  s1 : sg (leftOf A B C) = σ
  s2 : sg (leftOf A C B) = -σ
  s3 : sg (leftOf B D A) = σ
  s4 : sg (leftOf C D A) = -σ
  s5 : σ * (2 * shoelace [A, B, D, C]) = 2 * |shoelace [A, B, D, C]|

theorem shoelace4 (A B C D : Fin 2 → ℝ) : 2 * shoelace [A, B, D, C] = leftOf A B D + leftOf A D C := by
  unfold shoelace leftOf
  simp [List.rotate_cons_succ]
  ring

theorem sides_of {p : Nat → Fin 2 → ℝ} (h : ConvexQuad p) : ∃ σ, Sides (p 0) (p 1) (p 2) (p 3) σ := by
  have e : ∀ A B C : Fin 2 → ℝ, signedTriangle A B C = leftOf A B C / 2 := by
    intro A B C; unfold signedTriangle leftOf; ring
  have r1 : ∀ A B C : Fin 2 → ℝ, leftOf A C B = -leftOf A B C := by intro A B C; unfold leftOf; ring
  have r2 : ∀ A B C : Fin 2 → ℝ, leftOf B C A = leftOf A B C := by intro A B C; unfold leftOf; ring
  rcases h with h | h
  · obtain ⟨h1, h2, h3, h4⟩ := h
    rw [e] at h1 h2 h3 h4
    have a1 := r2 (p 0) (p 1) (p 3)
    have a2 := r1 (p 0) (p 1) (p 2)
    have a3 := r1 (p 0) (p 3) (p 2)
    have a4 := r2 (p 0) (p 2) (p 3)
    have a5 := r2 (p 1) (p 2) (p 3)
    have a6 := r1 (p 1) (p 3) (p 2)
    refine ⟨1, by apply mul_pos <;> linarith, by apply mul_pos_of_neg_of_neg <;> linarith, by apply mul_pos <;> linarith,
      by apply mul_pos_of_neg_of_neg <;> linarith, ?_, ?_, ?_, ?_, ?_⟩
    · exact if_pos (by linarith)
    · exact if_neg (by linarith)
    · exact if_pos (by linarith)
    · exact if_neg (by linarith)
    · have := shoelace4 (p 0) (p 1) (p 2) (p 3)
      rw [abs_of_pos (by linarith)]; ring
  · obtain ⟨h1, h2, h3, h4⟩ := h
    rw [e] at h1 h2 h3 h4
    change 0 < leftOf (p 0) (p 2) (p 3) / 2 at h1
    change 0 < leftOf (p 0) (p 3) (p 1) / 2 at h2
    change 0 < leftOf (p 0) (p 2) (p 1) / 2 at h3
    change 0 < leftOf (p 2) (p 3) (p 1) / 2 at h4
    have a1 := r2 (p 0) (p 1) (p 3)
    have a2 := r1 (p 0) (p 2) (p 1)
    have a3 := r1 (p 0) (p 3) (p 1)
    have a4 := r2 (p 0) (p 2) (p 3)
    have a5 := r2 (p 1) (p 2) (p 3)
    have a6 := r1 (p 1) (p 3) (p 2)
    have a7 := r1 (p 0) (p 2) (p 3)
    refine ⟨-1, by apply mul_pos_of_neg_of_neg <;> linarith, by apply mul_pos <;> linarith,
      by apply mul_pos_of_neg_of_neg <;> linarith, by apply mul_pos <;> linarith, ?_, ?_, ?_, ?_, ?_⟩
    · exact if_neg (by linarith)
    · rw [neg_neg]; exact if_pos (by linarith)
    · exact if_neg (by linarith)
    · rw [neg_neg]; exact if_pos (by linarith)
    · have := shoelace4 (p 0) (p 1) (p 2) (p 3)
      rw [abs_of_neg (by linarith)]; ring

theorem quad_sides (hI : Inv (cubeTopo 2) m) (hq : ConvexQuads m) {c : Nat} (hc : c < m.count 2) :
    ∃ v0 v1 v2 v3 e0 e1 e2 e3 σ, QuadAt m c v0 v1 v2 v3 e0 e1 e2 e3
      ∧ Sides (m.at0 v0) (m.at0 v1) (m.at0 v2) (m.at0 v3) σ := by
  obtain ⟨e, he⟩ := lt_elems hc
  obtain ⟨v0, v1, v2, v3, e0, e1, e2, e3, hv, h⟩ := quadAt_of (cubeTopo_wf 2) hI (by decide) (by decide) he
  have := hq e (List.mem_of_getElem? he)
  rw [hv] at this
  obtain ⟨σ, hs⟩ := sides_of this
  exact ⟨v0, v1, v2, v3, e0, e1, e2, e3, σ, h, hs⟩

theorem perm02 (a b c d : Nat) : [a, b, c, d].Perm [a, c, b, d] := (List.Perm.swap _ _ _).cons _

theorem perm13 (a b c d : Nat) : [a, b, c, d].Perm [b, d, a, c] :=
  (List.Perm.swap b a _).trans ((((List.Perm.swap d c []).cons a).trans (List.Perm.swap d a _)).cons b)

theorem perm23 (a b c d : Nat) : [a, b, c, d].Perm [c, d, a, b] := List.perm_append_comm (l₁ := [a, b]) (l₂ := [c, d])

/-- The edges of a quadrilateral. -/
theorem quad_cell (hI : Inv (cubeTopo 2) m) (hq : ConvexQuads m) {c : Nat} (hc : c < m.count 2) :
    (∀ i, ((m.bndOf 2 c 1).map fun s => outwardLine m s c i).sum = 0)
    ∧ ((m.bndOf 2 c 1).map fun s => ∑ i, outwardLine m s c i * m.at0 (m.ends s).1 i).sum
      = 2 * cornersQuad (m.pointsOf 2 c) := by
  obtain ⟨v0, v1, v2, v3, e0, e1, e2, e3, σ, h, hs⟩ := quad_sides hI hq hc
  obtain ⟨a0, b0⟩ := side_facet hI (h.elt e0 (by simp)) hc h.at0 (by rw [h.verts]) hs.ab
  obtain ⟨a1, b1⟩ := side_facet hI (h.elt e1 (by simp)) hc h.at1 (by rw [h.verts]; exact perm02 _ _ _ _) hs.ac
  obtain ⟨a2, b2⟩ := side_facet hI (h.elt e2 (by simp)) hc h.at2 (by rw [h.verts]; exact perm13 _ _ _ _) hs.bd
  obtain ⟨a3, b3⟩ := side_facet hI (h.elt e3 (by simp)) hc h.at3 (by rw [h.verts]; exact perm23 _ _ _ _) hs.cd
  rw [points_eq hI (by omega) hc, h.verts, h.edges]
  simp only [List.map_cons, List.map_nil, List.sum_cons, List.sum_nil, add_zero, cornersQuad]
  rw [b0, b1, b2, b3, a0, a1, a2, a3, ← hs.s5, shoelace4]
  unfold outLine
  rw [hs.s1, hs.s2, hs.s3, hs.s4]
  constructor
  · intro i
    fin_cases i <;> simp <;> ring
  · unfold leftOf
    simp only [Fin.sum_univ_two, Matrix.cons_val_zero, Matrix.cons_val_one]
    ring

/-- The other two corners of a quadrilateral at an edge are on one side of it. -/
theorem others (hI : Inv (cubeTopo 2) m) (hq : ConvexQuads m) {s c : Nat} (h : UsedBy (cubeTopo 2) m s c) :
    s < m.count 1 ∧ c < m.count 2 ∧ ∃ p q, (m.vertsOf 2 c).Perm [(m.ends s).1, (m.ends s).2, p, q]
      ∧ (m.vertsOf 2 c).Nodup
      ∧ 0 < leftOf (m.at0 (m.ends s).1) (m.at0 (m.ends s).2) (m.at0 p)
          * leftOf (m.at0 (m.ends s).1) (m.at0 (m.ends s).2) (m.at0 q) := by
  have hs : s ∈ m.bndOf 2 c 1 := (mem_bndOf_iff (cubeTopo_wf 2) hI (le_refl _)).2 h
  have hc : c < m.count 2 := onBoundary_lt (by decide) h
  refine ⟨bndOf_valid hI hs, hc, ?_⟩
  obtain ⟨v0, v1, v2, v3, e0, e1, e2, e3, σ, h, hd⟩ := quad_sides hI hq hc
  have hnd : (m.vertsOf 2 c).Nodup := by rw [h.verts]; exact h.nodup
  rw [h.edges] at hs
  simp only [List.mem_cons, List.not_mem_nil, or_false] at hs
  have key : ∀ {x y p q}, EndsAre m s x y → (m.vertsOf 2 c).Perm [x, y, p, q] →
      0 < leftOf (m.at0 x) (m.at0 y) (m.at0 p) * leftOf (m.at0 x) (m.at0 y) (m.at0 q) →
      ∃ p q, (m.vertsOf 2 c).Perm [(m.ends s).1, (m.ends s).2, p, q] ∧ (m.vertsOf 2 c).Nodup
      ∧ 0 < leftOf (m.at0 (m.ends s).1) (m.at0 (m.ends s).2) (m.at0 p)
          * leftOf (m.at0 (m.ends s).1) (m.at0 (m.ends s).2) (m.at0 q) := by
    intro x y p q he hp hpq
    rcases he with he | he <;> rw [he]
    · exact ⟨p, q, hp, hnd, hpq⟩
    · have sw : ∀ P, leftOf (m.at0 y) (m.at0 x) P = -leftOf (m.at0 x) (m.at0 y) P := by intro P; unfold leftOf; ring
      exact ⟨p, q, hp.trans (List.Perm.swap _ _ _), hnd, by rw [sw, sw, neg_mul_neg]; exact hpq⟩
  rcases hs with rfl | rfl | rfl | rfl
  · exact key h.at0 (by rw [h.verts]) hd.ab
  · exact key h.at1 (by rw [h.verts]; exact perm02 _ _ _ _) hd.ac
  · exact key h.at2 (by rw [h.verts]; exact perm13 _ _ _ _) hd.bd
  · exact key h.at3 (by rw [h.verts]; exact perm23 _ _ _ _) hd.cd

theorem apart {a b p q : Nat} {l : List Nat} (hl : l.Perm [a, b, p, q]) (hn : l.Nodup) : p ∈ l ∧ p ≠ a ∧ p ≠ b := by
  have := (hl.nodup_iff).1 hn
  simp only [List.nodup_cons, List.mem_cons, List.not_mem_nil, or_false] at this
  refine ⟨hl.mem_iff.2 (by simp), ?_, ?_⟩ <;> rintro rfl <;> simp at this

theorem opposite (hI : Inv (cubeTopo 2) m) (hm : NoFoldQuads m) {s c c' p p' q q' : Nat}
    (h : UsedBy (cubeTopo 2) m s c) (h' : UsedBy (cubeTopo 2) m s c') (hne : c ≠ c')
    (hp : (m.vertsOf 2 c).Perm [(m.ends s).1, (m.ends s).2, p, q])
    (hp' : (m.vertsOf 2 c').Perm [(m.ends s).1, (m.ends s).2, p', q']) :
    leftOf (m.at0 (m.ends s).1) (m.at0 (m.ends s).2) (m.at0 p)
      * leftOf (m.at0 (m.ends s).1) (m.at0 (m.ends s).2) (m.at0 p') < 0 := by
  obtain ⟨_, _, _, _, _, n1, _⟩ := others hI hm.convex h
  obtain ⟨_, _, _, _, _, n2, _⟩ := others hI hm.convex h'
  obtain ⟨x1, x2, x3⟩ := apart hp n1
  obtain ⟨y1, y2, y3⟩ := apart hp' n2
  exact hm.sides s c c' _ _ p p' h h' hne rfl x1 x2 x3 y1 y2 y3

theorem cancel (hI : Inv (cubeTopo 2) m) (hm : NoFoldQuads m) {s c c' : Nat}
    (h : UsedBy (cubeTopo 2) m s c) (h' : UsedBy (cubeTopo 2) m s c') (hne : c ≠ c') (i : Fin 2) :
    outwardLine m s c i + outwardLine m s c' i = 0 := by
  obtain ⟨h1, h2, p, q, hp, _, hpq⟩ := others hI hm.convex h
  obtain ⟨_, h3, p', q', hp', _, hpq'⟩ := others hI hm.convex h'
  have hs := opposite hI hm h h' hne hp hp'
  obtain ⟨a, b, hab⟩ : ∃ a b, m.ends s = (a, b) := ⟨_, _, rfl⟩
  rw [hab] at hs hp hp' hpq hpq'
  rw [side_eq hI h1 h2 hab hp hpq, side_eq hI h1 h3 hab hp' hpq']
  unfold outLine
  rw [sg_opposite hs]
  fin_cases i <;> simp

end NormalsQuad

open NormalsQuad

/-- If quadrilaterals at an edge are on different sides of it, there are at most two. -/
theorem NoFoldQuads.two (hI : Inv (cubeTopo 2) m) (hn : NoFoldQuads m) {t a b c : Nat}
    (ha : UsedBy (cubeTopo 2) m t a) (hb : UsedBy (cubeTopo 2) m t b) (hc : UsedBy (cubeTopo 2) m t c) :
    a = b ∨ a = c ∨ b = c := by
  by_contra hne
  push Not at hne
  obtain ⟨h1, h2, h3⟩ := hne
  obtain ⟨_, _, p, _, hp, _⟩ := others hI hn.convex ha
  obtain ⟨_, _, q, _, hq, _⟩ := others hI hn.convex hb
  obtain ⟨_, _, r, _, hr, _⟩ := others hI hn.convex hc
  have k1 := opposite hI hn ha hb h1 hp hq
  have k2 := opposite hI hn ha hc h2 hp hr
  have k3 := opposite hI hn hb hc h3 hq hr
  have no : ∀ x y z : ℝ, x * y < 0 → x * z < 0 → y * z < 0 → False := by
    intro x y z k1 k2 k3
    have k4 := mul_pos_of_neg_of_neg k1 k2
    have k5 := mul_nonneg (mul_self_nonneg x) (neg_nonneg.2 k3.le)
    have k6 : x * y * (x * z) = -(x * x * -(y * z)) := by ring
    linarith
  exact no _ _ _ k1 k2 k3

/-- The normal vector of an edge of a convex quadrilateral is orthogonal to the edge, points away from the other
corners, and is as long as the edge. -/
theorem C106_outward_quad (hI : Inv (cubeTopo 2) m) (hq : ConvexQuads m) {s c a b p : Nat}
    (hu : UsedBy (cubeTopo 2) m s c) (hs : m.vertsOf 1 s = [a, b]) (hp : p ∈ m.vertsOf 2 c) (ha : p ≠ a) (hb : p ≠ b) :
    ∑ i, outwardLine m s c i * (m.at0 b i - m.at0 a i) = 0
    ∧ ∑ i, outwardLine m s c i * (m.at0 p i - m.at0 a i) < 0
    ∧ ∑ i, outwardLine m s c i ^ 2 = ∑ i, (m.at0 b i - m.at0 a i) ^ 2 := by
  have hs' : m.ends s = (a, b) := by unfold Mesh.ends; rw [hs]; rfl
  obtain ⟨h1, h2, x, y, hx, _, hxy⟩ := others hI hq hu
  rw [hs'] at hx hxy
  obtain ⟨z, hz, hpz⟩ : ∃ z, (m.vertsOf 2 c).Perm [a, b, p, z]
      ∧ 0 < leftOf (m.at0 a) (m.at0 b) (m.at0 p) * leftOf (m.at0 a) (m.at0 b) (m.at0 z) := by
    have := hx.mem_iff.1 hp
    simp only [List.mem_cons, List.not_mem_nil, or_false, ha, hb, false_or] at this
    rcases this with rfl | rfl
    · exact ⟨y, hx, hxy⟩
    · exact ⟨x, hx.trans (((List.Perm.swap _ _ _).cons _).cons _), by rw [mul_comm]; exact hxy⟩
  rw [side_eq hI h1 h2 hs' hz hpz]
  have hne : leftOf (m.at0 a) (m.at0 b) (m.at0 p) ≠ 0 := by intro h; rw [h, zero_mul] at hpz; exact lt_irrefl _ hpz
  unfold outLine
  have e2 := sg_self hne
  have e3 := abs_pos.2 hne
  rw [← e2] at e3
  have e4 : sg (leftOf (m.at0 a) (m.at0 b) (m.at0 p)) ^ 2 = 1 := by unfold sg; split <;> norm_num
  generalize sg (leftOf (m.at0 a) (m.at0 b) (m.at0 p)) = σ at e3 e4 ⊢
  unfold leftOf at e3
  simp only [Fin.sum_univ_two, Matrix.cons_val_zero, Matrix.cons_val_one]
  refine ⟨by ring, by linarith, ?_⟩
  linear_combination ((m.at0 b 1 - m.at0 a 1) ^ 2 + (m.at0 b 0 - m.at0 a 0) ^ 2) * e4

/-- In a mesh of convex quadrilaterals in the plane that do not overlap, the normal vectors of the boundary edges, turned
away from their cells, have the sum zero, and their inner products with points of the edges sum up to twice the area of
the mesh.  The area is the one of the corners, not the library's (`C45_violated`). -/
theorem C106_mesh_quad {st : MState (Fin 2 → ℝ)} (h : Reached (cubeTopo 2) st)
    (hno : NoFoldQuads st.mesh) (cell : Nat → Nat)
    (hcell : ∀ s < st.mesh.count 1, (st.isBoundary (cubeTopo 2) 1 s).2 = true →
      UsedBy (cubeTopo 2) st.mesh s (cell s)) :
    (∀ i, ∑ s ∈ Finset.range (st.mesh.count 1), (if (st.isBoundary (cubeTopo 2) 1 s).2 = true then
        outwardLine st.mesh s (cell s) i else 0) = 0)
    ∧ ∑ s ∈ Finset.range (st.mesh.count 1), (if (st.isBoundary (cubeTopo 2) 1 s).2 = true then
        ∑ i, outwardLine st.mesh s (cell s) i * st.mesh.at0 ((st.mesh.vertsOf 1 s).getD 0 0) i else 0)
      = 2 * ∑ c ∈ Finset.range (st.mesh.count 2), cornersQuad (st.mesh.pointsOf 2 c) := by
  have hT : LibTopo (cubeTopo 2) := Or.inr (Or.inl ⟨2, rfl⟩)
  have hI := (h.inv hT.wf).inv
  have hman : ∀ s a b c, UsedBy (cubeTopo 2) st.mesh s a → UsedBy (cubeTopo 2) st.mesh s b →
      UsedBy (cubeTopo 2) st.mesh s c → a = b ∨ a = c ∨ b = c := fun _ _ _ _ ha hb hc => hno.two hI ha hb hc
  constructor
  · intro i
    have key := boundary_cells hT (by decide) h hman (fun s c => outwardLine st.mesh s c i)
      (fun s c c' h1 h2 h3 => cancel hI hno h1 h2 h3 i) cell hcell
    refine key.trans (Finset.sum_eq_zero fun c hc => ?_)
    exact (quad_cell hI hno.convex (Finset.mem_range.1 hc)).1 i
  · have key := boundary_cells hT (by decide) h hman
      (fun s c => ∑ i, outwardLine st.mesh s c i * st.mesh.at0 ((st.mesh.vertsOf 1 s).getD 0 0) i)
      (fun s c c' h1 h2 h3 => by
        rw [← Finset.sum_add_distrib]
        refine Finset.sum_eq_zero fun i _ => ?_
        rw [← add_mul, cancel hI hno h1 h2 h3 i, zero_mul]) cell hcell
    refine key.trans ?_
    have e : ∀ c ∈ Finset.range (st.mesh.count 2), ((st.mesh.bndOf 2 c 1).map fun s =>
        ∑ i, outwardLine st.mesh s c i * st.mesh.at0 ((st.mesh.vertsOf 1 s).getD 0 0) i).sum
        = 2 * cornersQuad (st.mesh.pointsOf 2 c) := fun c hc =>
      (quad_cell hI hno.convex (Finset.mem_range.1 hc)).2
    refine (Finset.sum_congr rfl e).trans ?_
    rw [← Finset.mul_sum]

/-- A case for `C106_mesh_quad`: two rectangles with seven edges, one of them inside. -/
example : Reached (cubeTopo 2) boxes ∧ NoFoldQuads boxes.mesh ∧ boxes.mesh.count 2 = 2 ∧ boxes.mesh.count 1 = 7 ∧
    (boxes.isBoundary (cubeTopo 2) 1 3).2 = false ∧
    ∃ cell : Nat → Nat, ∀ s < boxes.mesh.count 1, (boxes.isBoundary (cubeTopo 2) 1 s).2 = true →
      UsedBy (cubeTopo 2) boxes.mesh s (cell s) := by
  have hI := (boxes_reached.inv (cubeTopo_wf 2)).inv
  have mem : ∀ {s c}, UsedBy (cubeTopo 2) boxes.mesh s c → s ∈ boxes.mesh.bndOf 2 c 1 := fun h =>
    (mem_bndOf_iff (cubeTopo_wf 2) hI (le_refl _)).2 h
  refine ⟨boxes_reached, ⟨boxes_convex, fun t c c' a b p p' h h' hne he hp pa pb hp' pa' pb' => ?_⟩, rfl, rfl,
    by decide +kernel, fun s => if s < 4 then 0 else 1, fun s hs _ => (mem_bndOf_iff (cubeTopo_wf 2) hI (le_refl _)).1 ?_⟩
  · have hc : c < 2 := onBoundary_lt (by decide) h
    have hc' : c' < 2 := onBoundary_lt (by decide) h'
    have h0 : ∀ c < boxes.mesh.count 2, ∀ t ∈ boxes.mesh.bndOf 2 c 1, ∀ c' < boxes.mesh.count 2,
        t ∈ boxes.mesh.bndOf 2 c' 1 → c ≠ c' → t = 3 := by
      decide +kernel
    obtain rfl := h0 c hc t (mem h) c' hc' (mem h') hne
    have he0 : ((2, 3) : Nat × Nat) = (a, b) := he
    cases he0
    have p0 : boxes.mesh.at0 0 = ![0, 0] := rfl
    have p1 : boxes.mesh.at0 1 = ![2, 0] := rfl
    have p2 : boxes.mesh.at0 2 = ![0, 1] := rfl
    have p3 : boxes.mesh.at0 3 = ![2, 1] := rfl
    have p4 : boxes.mesh.at0 4 = ![0, 4] := rfl
    have p5 : boxes.mesh.at0 5 = ![2, 4] := rfl
    have w0 : ∀ {p}, p ∈ boxes.mesh.vertsOf 2 0 → p ≠ 2 → p ≠ 3 → p = 0 ∨ p = 1 := by
      intro p h a b
      have : p ∈ [0, 1, 2, 3] := h
      simp only [List.mem_cons, List.not_mem_nil, or_false] at this
      omega
    have w1 : ∀ {p}, p ∈ boxes.mesh.vertsOf 2 1 → p ≠ 2 → p ≠ 3 → p = 4 ∨ p = 5 := by
      intro p h a b
      have : p ∈ [2, 3, 4, 5] := h
      simp only [List.mem_cons, List.not_mem_nil, or_false] at this
      omega
    obtain ⟨rfl, rfl⟩ | ⟨rfl, rfl⟩ : (c = 0 ∧ c' = 1) ∨ (c = 1 ∧ c' = 0) := by omega
    · rcases w0 hp pa pb with rfl | rfl <;> rcases w1 hp' pa' pb' with rfl | rfl <;>
        simp only [p0, p1, p2, p3, p4, p5] <;> unfold leftOf <;> norm_num
    · rcases w1 hp pa pb with rfl | rfl <;> rcases w0 hp' pa' pb' with rfl | rfl <;>
        simp only [p0, p1, p2, p3, p4, p5] <;> unfold leftOf <;> norm_num
  · have : ∀ s < boxes.mesh.count 1, s ∈ boxes.mesh.bndOf 2 (if s < 4 then 0 else 1) 1 := by decide +kernel
    exact this s hs

end VG
