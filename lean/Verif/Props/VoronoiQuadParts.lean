import Verif.Props.VoronoiQuads

/-!
C70: `apply_voronoi` for quadrilaterals which need not be parallelograms.

Specification.  `cornerPart p k` is the area of the part of a quadrilateral next to corner `k`, `IsSide vs a b`: `a` and `b` are the ends of
a side.
-/

namespace VG

/-- The area of the part of a quadrilateral next to corner `k`: its corners are that corner, the middles of the two sides meeting
there, and the mean of the four corners. -/
noncomputable def cornerPart (p : Nat → Fin 2 → ℝ) (k : Nat) : ℝ :=
  let n := if k = 0 ∨ k = 3 then (1, 2) else (0, 3)
  |shoelace [p k, fun i => (p k i + p n.1 i) / 2, fun i => (p 0 i + p 1 i + p 2 i + p 3 i) / 4, fun i => (p k i + p n.2 i) / 2]|

/-- `a` and `b` are the ends of a side of the quadrilateral with vertices `vs`. -/
def IsSide (vs : List Nat) (a b : Nat) : Prop :=
  ∃ x ∈ [(0, 1), (0, 2), (1, 3), (2, 3)], (vs.getD x.1 0 = a ∧ vs.getD x.2 0 = b) ∨ (vs.getD x.1 0 = b ∧ vs.getD x.2 0 = a)

instance (vs : List Nat) (a b : Nat) : Decidable (IsSide vs a b) := by unfold IsSide; infer_instance

theorem part_area {p q r o : Fin 2 → ℝ} (h : 0 < tw o p q ∧ 0 < tw o r p ∨ tw o p q < 0 ∧ tw o r p < 0) :
    |shoelace [p, fun i => (p i + q i) / 2, o, fun i => (p i + r i) / 2]| = |tw o p q| / 4 + |tw o p r| / 4 := by
  have hs : shoelace [p, fun i => (p i + q i) / 2, o, fun i => (p i + r i) / 2] = (tw o p q + tw o r p) / 4 := by
    simp only [shoelace, List.rotate, tw]
    simp
    ring
  rw [hs, tw_swap o p r, abs_neg, abs_div, abs_of_pos (show (0 : ℝ) < 4 by norm_num)]
  rcases h with ⟨h1, h2⟩ | ⟨h1, h2⟩
  · rw [abs_of_pos h1, abs_of_pos h2, abs_of_pos (by linarith)]; ring
  · rw [abs_of_neg h1, abs_of_neg h2, abs_of_neg (by linarith)]; ring

/-- The four triangles at the mean of the corners of a convex quadrilateral have the same orientation. -/
theorem convex_signs {p : Nat → Fin 2 → ℝ} (h : ConvexQuad p) {o : Fin 2 → ℝ}
    (ho : ∀ i, o i = (p 0 i + p 1 i + p 2 i + p 3 i) / 4) :
    (0 < tw o (p 0) (p 1) ∧ 0 < tw o (p 1) (p 3) ∧ 0 < tw o (p 3) (p 2) ∧ 0 < tw o (p 2) (p 0))
    ∨ (tw o (p 0) (p 1) < 0 ∧ tw o (p 1) (p 3) < 0 ∧ tw o (p 3) (p 2) < 0 ∧ tw o (p 2) (p 0) < 0) := by
  rcases h with ⟨h1, h2, h3, h4⟩ | ⟨h1, h2, h3, h4⟩
  · rw [signedTriangle_tw] at h1 h2 h3 h4
    obtain ⟨a, b, c, e⟩ := mean_tw ho
    left
    rw [a, b, c, e]
    refine ⟨?_, ?_, ?_, ?_⟩ <;> linarith
  · rw [signedTriangle_tw] at h1 h2 h3 h4
    simp only [List.getD_cons_zero, List.getD_cons_succ] at h1 h2 h3 h4
    obtain ⟨a, b, c, e⟩ := mean_tw (p0 := p 0) (p1 := p 2) (p2 := p 1) (p3 := p 3) (o := o) (by intro i; rw [ho]; ring)
    right
    rw [tw_swap o (p 0) (p 1), tw_swap o (p 1) (p 3), tw_swap o (p 3) (p 2), tw_swap o (p 2) (p 0), a, b, c, e]
    refine ⟨?_, ?_, ?_, ?_⟩ <;> linarith

theorem convex_parts {p : Nat → Fin 2 → ℝ} (h : ConvexQuad p) {o : Fin 2 → ℝ}
    (ho : ∀ i, o i = (p 0 i + p 1 i + p 2 i + p 3 i) / 4) :
    cornerPart p 0 = |tw o (p 0) (p 1)| / 4 + |tw o (p 0) (p 2)| / 4
    ∧ cornerPart p 1 = |tw o (p 0) (p 1)| / 4 + |tw o (p 1) (p 3)| / 4
    ∧ cornerPart p 2 = |tw o (p 0) (p 2)| / 4 + |tw o (p 2) (p 3)| / 4
    ∧ cornerPart p 3 = |tw o (p 1) (p 3)| / 4 + |tw o (p 2) (p 3)| / 4 := by
  have hs := convex_signs h ho
  have ho' : (fun i => (p 0 i + p 1 i + p 2 i + p 3 i) / 4) = o := funext fun i => (ho i).symm
  have s1 := tw_swap o (p 0) (p 1)
  have s2 := tw_swap o (p 1) (p 3)
  have s3 := tw_swap o (p 3) (p 2)
  have s4 := tw_swap o (p 2) (p 0)
  refine ⟨?_, ?_, ?_, ?_⟩
  · simp only [cornerPart, ho', true_or, if_true]
    rw [part_area]
    rcases hs with ⟨h1, h2, h3, h4⟩ | ⟨h1, h2, h3, h4⟩
    · left; exact ⟨h1, h4⟩
    · right; exact ⟨h1, h4⟩
  · simp only [cornerPart, ho', OfNat.one_ne_ofNat, one_ne_zero, or_self, if_false]
    rw [part_area, s1, abs_neg]
    rcases hs with ⟨h1, h2, h3, h4⟩ | ⟨h1, h2, h3, h4⟩
    · right; constructor <;> linarith
    · left; constructor <;> linarith
  · simp only [cornerPart, ho', Nat.reduceEqDiff, OfNat.ofNat_ne_zero, or_self, if_false]
    rw [part_area, s4, abs_neg]
    rcases hs with ⟨h1, h2, h3, h4⟩ | ⟨h1, h2, h3, h4⟩
    · left; constructor <;> linarith
    · right; constructor <;> linarith
  · simp only [cornerPart, ho', OfNat.ofNat_ne_zero, or_true, if_true]
    rw [part_area, s2, s3, abs_neg, abs_neg]
    rcases hs with ⟨h1, h2, h3, h4⟩ | ⟨h1, h2, h3, h4⟩
    · right; constructor <;> linarith
    · left; constructor <;> linarith

section Mesh
variable {st : MState (Fin 2 → ℝ)}

/-- C70: in a mesh of convex quadrilaterals a vertex has of each of its cells the part between the vertex, the middles of the two sides
meeting there and the mean of the corners. -/
theorem C70_boxes (h : Reached (cubeTopo 2) st) (hq : ConvexQuads st.mesh) (v : VoroSt) (s : Nat) :
    (st.mesh.voronoiQuads spannedTriangle v).total .vbox s
      = v.total .vbox s + ∑ t ∈ Finset.range (st.mesh.count 2), ((List.range 4).map fun k =>
          if s = (st.mesh.vertsOf 2 t).getD k 0 then cornerPart (cornerAt st.mesh (st.mesh.vertsOf 2 t)) k else 0).sum := by
  unfold Mesh.voronoiQuads
  rw [(cells_grow _ _ _ (voroQuad_grows spannedTriangle st.mesh) _ _).1]
  congr 1
  refine Finset.sum_congr rfl fun t ht => ?_
  obtain ⟨e, he, hem, v0, v1, v2, v3, e0, e1, e2, e3, hv, hQ, hm⟩ := quad_at h (Finset.mem_range.1 ht)
  obtain ⟨q0, q1, q2, q3⟩ := convex_parts (hq e hem) hm
  rw [hv] at q0 q1 q2 q3
  rw [voroQuad_amt hQ, hQ.verts]
  simp only [show List.range 4 = [0, 1, 2, 3] from rfl, List.map_cons, List.map_nil, List.sum_cons, List.sum_nil, q0, q1, q2, q3]
  simp only [sideAmt, cornerAt, List.getD_cons_zero, List.getD_cons_succ]
  have hn := hQ.nodup
  simp only [List.nodup_cons, List.mem_cons, List.not_mem_nil, or_false, not_or, not_false_eq_true, List.nodup_nil,
    and_true] at hn
  obtain ⟨⟨n1, n2, n3⟩, ⟨n4, n5⟩, n6⟩ := hn
  by_cases h0 : s = v0
  · subst h0; simp [n1, n2, n3]
  by_cases h1 : s = v1
  · subst h1; simp [n4, n5, h0]
  by_cases h2 : s = v2
  · subst h2; simp [n6, h0, h1]
  by_cases h3 : s = v3
  · subst h3; simp [h0, h1, h2]
  simp [h0, h1, h2, h3]

theorem four_ends {v0 v1 v2 v3 a b : Nat} (n3 : ¬v0 = v3) (n4 : ¬v1 = v2) (n5 : ¬v1 = v3) (n6 : ¬v2 = v3) (hab : a ≠ b) {x : ℝ} :
    (if (v0 = a ∧ v1 = b) ∨ (v0 = b ∧ v1 = a) then x else 0) + (if (v0 = a ∧ v2 = b) ∨ (v0 = b ∧ v2 = a) then x else 0)
      + (if (v1 = a ∧ v3 = b) ∨ (v1 = b ∧ v3 = a) then x else 0)
      + (if (v2 = a ∧ v3 = b) ∨ (v2 = b ∧ v3 = a) then x else 0)
      = if IsSide [v0, v1, v2, v3] a b then x else 0 := by
  have hi : IsSide [v0, v1, v2, v3] a b ↔ ((v0 = a ∧ v1 = b) ∨ (v0 = b ∧ v1 = a)) ∨ ((v0 = a ∧ v2 = b) ∨ (v0 = b ∧ v2 = a))
      ∨ ((v1 = a ∧ v3 = b) ∨ (v1 = b ∧ v3 = a)) ∨ ((v2 = a ∧ v3 = b) ∨ (v2 = b ∧ v3 = a)) := by
    simp [IsSide]
  by_cases c0 : (v0 = a ∧ v1 = b) ∨ (v0 = b ∧ v1 = a)
  · have c1 : ¬ ((v0 = a ∧ v2 = b) ∨ (v0 = b ∧ v2 = a)) := by omega
    have c2 : ¬ ((v1 = a ∧ v3 = b) ∨ (v1 = b ∧ v3 = a)) := by omega
    have c3 : ¬ ((v2 = a ∧ v3 = b) ∨ (v2 = b ∧ v3 = a)) := by omega
    rw [if_pos (hi.2 (Or.inl c0))]
    simp only [if_pos c0, if_neg c1, if_neg c2, if_neg c3, add_zero]
  by_cases c1 : (v0 = a ∧ v2 = b) ∨ (v0 = b ∧ v2 = a)
  · have c2 : ¬ ((v1 = a ∧ v3 = b) ∨ (v1 = b ∧ v3 = a)) := by omega
    have c3 : ¬ ((v2 = a ∧ v3 = b) ∨ (v2 = b ∧ v3 = a)) := by omega
    rw [if_pos (hi.2 (Or.inr (Or.inl c1)))]
    simp only [if_neg c0, if_pos c1, if_neg c2, if_neg c3, add_zero, zero_add]
  by_cases c2 : (v1 = a ∧ v3 = b) ∨ (v1 = b ∧ v3 = a)
  · have c3 : ¬ ((v2 = a ∧ v3 = b) ∨ (v2 = b ∧ v3 = a)) := by omega
    rw [if_pos (hi.2 (Or.inr (Or.inr (Or.inl c2))))]
    simp only [if_neg c0, if_neg c1, if_pos c2, if_neg c3, add_zero, zero_add]
  by_cases c3 : (v2 = a ∧ v3 = b) ∨ (v2 = b ∧ v3 = a)
  · rw [if_pos (hi.2 (Or.inr (Or.inr (Or.inr c3))))]
    simp only [if_neg c0, if_neg c1, if_neg c2, if_pos c3, zero_add]
  rw [if_neg (c := IsSide _ a b) fun hh => by rcases hi.1 hh with hh | hh | hh | hh <;> contradiction]
  simp only [if_neg c0, if_neg c1, if_neg c2, if_neg c3, add_zero]

/-- C70: for any mesh of quadrilaterals the interface of an edge consists of the line from its middle to the mean of the corners of
each cell it is a side of, and the box of the edge of the triangles spanned by the edge and these means. -/
theorem C70_interface (h : Reached (cubeTopo 2) st) (v : VoroSt) {s a b : Nat} {f : Elem}
    (hs : (st.mesh.elems 1)[s]? = some f) (hf : f.verts = [a, b]) (mean : Nat → Fin 2 → ℝ)
    (hmean : ∀ t < st.mesh.count 2, ∀ i, mean t i = ((st.mesh.vertsOf 2 t).map fun w => st.mesh.at0 w i).sum / 4) :
    (st.mesh.voronoiQuads spannedTriangle v).total .area s
      = v.total .area s + ∑ t ∈ Finset.range (st.mesh.count 2), (if IsSide (st.mesh.vertsOf 2 t) a b then
          eucl (mean t) (fun i => (st.mesh.at0 a i + st.mesh.at0 b i) / 2) else 0)
    ∧ (st.mesh.voronoiQuads spannedTriangle v).total .ebox s
      = v.total .ebox s + ∑ t ∈ Finset.range (st.mesh.count 2), (if IsSide (st.mesh.vertsOf 2 t) a b then
          |shoelace [st.mesh.at0 a, st.mesh.at0 b, mean t]| else 0) := by
  have hI := (h.inv (cubeTopo_wf 2)).inv
  have hE : EndsAre st.mesh s a b := ends_of hs (by rw [hf])
  have hlt : s < st.mesh.count 1 := by
    unfold Mesh.count; rw [if_neg (by omega)]; exact (List.getElem?_eq_some_iff.1 hs).1
  have hab : a ≠ b := by
    have := (hI.verts 1 f (List.mem_of_getElem? hs)).1
    rw [hf] at this
    simpa using this
  unfold Mesh.voronoiQuads
  rw [(cells_grow _ _ _ (voroQuad_grows spannedTriangle st.mesh) _ _).1, (cells_grow _ _ _ (voroQuad_grows spannedTriangle st.mesh) _ _).1]
  have key : ∀ t ∈ Finset.range (st.mesh.count 2),
      ((voroQuad spannedTriangle st.mesh t).map (VoroWrite.addAmt .area s)).sum
        = (if IsSide (st.mesh.vertsOf 2 t) a b then eucl (mean t) (fun i => (st.mesh.at0 a i + st.mesh.at0 b i) / 2) else 0)
      ∧ ((voroQuad spannedTriangle st.mesh t).map (VoroWrite.addAmt .ebox s)).sum
        = (if IsSide (st.mesh.vertsOf 2 t) a b then |shoelace [st.mesh.at0 a, st.mesh.at0 b, mean t]| else 0) := by
    intro t ht
    obtain ⟨e, he, hem, v0, v1, v2, v3, e0, e1, e2, e3, hv, hQ, hm⟩ := quad_at h (Finset.mem_range.1 ht)
    have ho : st.mesh.meanOf 2 t = mean t := by
      funext i
      rw [hm, hmean t (Finset.mem_range.1 ht), hQ.verts, hv]
      simp only [cornerAt, List.getD_cons_zero, List.getD_cons_succ, List.map_cons, List.map_nil, List.sum_cons, List.sum_nil]
      ring
    have side : ∀ {e x y}, EndsAre st.mesh e x y → e < st.mesh.count 1 → (s = e ↔ (x = a ∧ y = b) ∨ (x = b ∧ y = a)) := by
      intro e x y he hl
      constructor
      · rintro rfl
        unfold EndsAre at he hE
        rcases hE with hE | hE <;> rw [hE] at he <;> simp only [Prod.mk.injEq] at he <;>
          rcases he with ⟨rfl, rfl⟩ | ⟨rfl, rfl⟩ <;> simp
      · rintro (⟨rfl, rfl⟩ | ⟨rfl, rfl⟩)
        · exact edge_unique_of hI (by decide) (by decide) hlt hl hE he
        · exact edge_unique_of hI (by decide) (by decide) hlt hl hE he.symm
    have amt : ∀ {e x y}, EndsAre st.mesh e x y → e < st.mesh.count 1 →
        sideAmt st.mesh (mean t) e x y .area s = (if (x = a ∧ y = b) ∨ (x = b ∧ y = a) then
          eucl (mean t) (fun i => (st.mesh.at0 a i + st.mesh.at0 b i) / 2) else 0)
        ∧ sideAmt st.mesh (mean t) e x y .ebox s = (if (x = a ∧ y = b) ∨ (x = b ∧ y = a) then
          |shoelace [st.mesh.at0 a, st.mesh.at0 b, mean t]| else 0) := by
      intro e x y he hl
      have hsh : |shoelace [st.mesh.at0 a, st.mesh.at0 b, mean t]| = |tw (mean t) (st.mesh.at0 a) (st.mesh.at0 b)| / 2 := by
        have : shoelace [st.mesh.at0 a, st.mesh.at0 b, mean t] = tw (mean t) (st.mesh.at0 a) (st.mesh.at0 b) / 2 := by
          simp only [shoelace, List.rotate, tw]
          simp
          ring
        rw [this, abs_div, abs_two]
      have hmid : ∀ x y : Nat, circumLine (st.mesh.at0 x) (st.mesh.at0 y) = fun i => (st.mesh.at0 x i + st.mesh.at0 y i) / 2 :=
        fun x y => funext fun i => circumLine_i _ _ i
      simp only [sideAmt, side he hl]
      constructor
      · split
        · rename_i hc
          rw [eucl_len, ← hmid]
          rcases hc with ⟨rfl, rfl⟩ | ⟨rfl, rfl⟩
          · rfl
          · rw [circumLine_swap]
        · rfl
      · split
        · rename_i hc
          rw [hsh]
          rcases hc with ⟨rfl, rfl⟩ | ⟨rfl, rfl⟩
          · rfl
          · rw [tw_swap, abs_neg]
        · rfl
    have hn := hQ.nodup
    simp only [List.nodup_cons, List.mem_cons, List.not_mem_nil, or_false, not_or, not_false_eq_true, List.nodup_nil,
      and_true] at hn
    obtain ⟨⟨n1, n2, n3⟩, ⟨n4, n5⟩, n6⟩ := hn
    have s0 := amt hQ.at0 (hQ.elt e0 (by simp))
    have s1 := amt hQ.at1 (hQ.elt e1 (by simp))
    have s2 := amt hQ.at2 (hQ.elt e2 (by simp))
    have s3 := amt hQ.at3 (hQ.elt e3 (by simp))
    rw [voroQuad_amt hQ, voroQuad_amt hQ, hQ.verts, ho, s0.1, s1.1, s2.1, s3.1, s0.2, s1.2, s2.2, s3.2]
    exact ⟨four_ends n3 n4 n5 n6 hab, four_ends n3 n4 n5 n6 hab⟩
  exact ⟨by rw [Finset.sum_congr rfl fun t ht => (key t ht).1], by rw [Finset.sum_congr rfl fun t ht => (key t ht).2]⟩

end Mesh


/-- A trapezium with parallel sides of lengths 4 and 2 and height 2. -/
noncomputable def trapezeOps : List (QOp (Fin 2 → ℝ)) :=
  [.mesh (.vertex none ![0, 0]), .mesh (.vertex none ![4, 0]), .mesh (.vertex none ![0, 2]), .mesh (.vertex none ![2, 2]),
   .mesh (.elem 2 [0, 1, 2, 3])]

/-- The state reached. -/
noncomputable def trapeze : MState (Fin 2 → ℝ) := (MState.empty.run (cubeTopo 2) trapezeOps).getD MState.empty

theorem trapeze_reached : Reached (cubeTopo 2) trapeze :=
  ⟨trapezeOps, by simp [trapezeOps, QOp.meshOps, MOp.Distinct], rfl, by unfold UniqueVids; decide⟩

theorem trapeze_convex : ConvexQuads trapeze.mesh := by
  intro e he
  have : e.verts ∈ (trapeze.mesh.elems 2).map (·.verts) := List.mem_map_of_mem he
  rw [show (trapeze.mesh.elems 2).map (·.verts) = [[0, 1, 2, 3]] from rfl] at this
  simp only [List.mem_cons, List.not_mem_nil, or_false] at this
  rw [this]
  left
  unfold ConvexLexQuad
  rw [show cornerAt trapeze.mesh [0, 1, 2, 3] 0 = ![0, 0] from rfl, show cornerAt trapeze.mesh [0, 1, 2, 3] 1 = ![4, 0] from rfl,
    show cornerAt trapeze.mesh [0, 1, 2, 3] 2 = ![0, 2] from rfl, show cornerAt trapeze.mesh [0, 1, 2, 3] 3 = ![2, 2] from rfl]
  unfold signedTriangle
  norm_num

/-- The hypotheses are met by a quadrilateral which is no parallelogram: its corner at the origin has 7/4 of the area 6, the corner
opposite to it 5/4. -/
example : (trapeze.mesh.voronoiQuads spannedTriangle .fresh).total .vbox 0 = 7 / 4
    ∧ (trapeze.mesh.voronoiQuads spannedTriangle .fresh).total .vbox 3 = 5 / 4
    ∧ (trapeze.mesh.voronoiQuads spannedTriangle .fresh).total .ebox 0 = 2 := by
  have p0 : trapeze.mesh.at0 0 = ![0, 0] := rfl
  have p1 : trapeze.mesh.at0 1 = ![4, 0] := rfl
  have p2 : trapeze.mesh.at0 2 = ![0, 2] := rfl
  have p3 : trapeze.mesh.at0 3 = ![2, 2] := rfl
  refine ⟨?_, ?_, ?_⟩
  · rw [C70_boxes trapeze_reached trapeze_convex, show trapeze.mesh.count 2 = 1 from rfl, Finset.sum_range_one,
      show trapeze.mesh.vertsOf 2 0 = [0, 1, 2, 3] from rfl]
    simp [show List.range 4 = [0, 1, 2, 3] from rfl, cornerPart, shoelace4, cornerAt, p0, p1, p2, p3, VoroSt.fresh]
    norm_num
  · rw [C70_boxes trapeze_reached trapeze_convex, show trapeze.mesh.count 2 = 1 from rfl, Finset.sum_range_one,
      show trapeze.mesh.vertsOf 2 0 = [0, 1, 2, 3] from rfl]
    simp [show List.range 4 = [0, 1, 2, 3] from rfl, cornerPart, shoelace4, cornerAt, p0, p1, p2, p3, VoroSt.fresh]
    norm_num
  · rw [(C70_interface trapeze_reached .fresh (s := 0) (a := 0) (b := 1) rfl rfl (fun _ => ![3 / 2, 1]) (by
      intro t ht i
      have : t = 0 := by have : trapeze.mesh.count 2 = 1 := rfl; omega
      subst this
      rw [show trapeze.mesh.vertsOf 2 0 = [0, 1, 2, 3] from rfl]
      simp only [List.map_cons, List.map_nil, p0, p1, p2, p3]
      fin_cases i <;> norm_num)).2, show trapeze.mesh.count 2 = 1 from rfl, Finset.sum_range_one,
      show trapeze.mesh.vertsOf 2 0 = [0, 1, 2, 3] from rfl, if_pos (by decide), p0, p1]
    simp [shoelace, VoroSt.fresh]
    norm_num

end VG
