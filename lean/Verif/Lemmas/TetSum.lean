import Verif.Lemmas.TetCenters

/-!
The size of the interface of an edge and the sum over all edges, for C72.
-/

namespace VG

local notation "det" => determinant3 (K := ℝ)

variable {m : Mesh (Fin 3 → ℝ)}

theorem sum_ite_filter (l : List Nat) (p : Nat → Prop) [DecidablePred p] (g : Nat → ℝ) :
    (l.map fun f => if p f then g f else 0).sum = ((l.filter fun f => decide (p f)).map g).sum := by
  induction l with
  | nil => rfl
  | cons a l ih =>
    rw [List.map_cons, List.sum_cons, List.filter_cons, ih]
    by_cases h : p a <;> simp [h]

theorem sum_range_mem {l : List Nat} (hl : l.Nodup) {n : Nat} (hn : ∀ x ∈ l, x < n) (g : Nat → ℝ) :
    ((List.range n).map fun f => if f ∈ l then g f else 0).sum = (l.map g).sum := by
  rw [sum_ite_filter]
  refine ((perm_of_nodup_mem (List.nodup_range.filter _) hl fun x => ?_).map g).sum_eq
  simp only [List.mem_filter, List.mem_range, decide_eq_true_eq]
  exact ⟨fun h => h.2, fun h => ⟨hn x h, h⟩⟩

theorem sum_add_map {α : Type} (l : List α) (f g : α → ℝ) :
    (l.map fun x => f x + g x).sum = (l.map f).sum + (l.map g).sum := by
  induction l with
  | nil => simp
  | cons a l ih => simp only [List.map_cons, List.sum_cons, ih]; ring

/-- Sum over the facets and their cells, and over the cells and their facets. -/
theorem swap_cells (hI : Inv (simplexTopo 3) m) (cs : List Nat) (G : Nat → Nat → ℝ) :
    ((List.range (m.count 2)).map fun f => ((m.cellsAt cs f).map fun c => G c f).sum).sum
      = (cs.map fun c => ((m.bndOf 3 c 2).map fun f => G c f).sum).sum := by
  induction cs with
  | nil =>
    refine List.sum_eq_zero fun x hx => ?_
    obtain ⟨f, _, rfl⟩ := List.mem_map.1 hx
    rfl
  | cons c cs ih =>
    rw [List.map_cons, List.sum_cons, ← ih,
      ← sum_range_mem (bndOf_nodup (simplexTopo_wf 3) hI 3 c 2) (fun f hf => facet_lt hI hf) (fun f => G c f), ← sum_add_map]
    congr 1
    refine List.map_congr_left fun f _ => ?_
    unfold Mesh.cellsAt
    rw [List.filter_cons]
    by_cases h : f ∈ m.bndOf 3 c 2 <;> simp [h]

section
variable (hI : Inv (simplexTopo 3) m) (hD : Delaunay m) (hC : Centered m)
include hI hD hC

/-- The triangles over the segments of one facet. -/
theorem facet_identity {f e : Nat} (hne : m.edgeSegs e ≠ []) (hf : f < m.count 2) (he : e ∈ m.bndOf 2 f 1)
    (h1 : OneOrTwo (m.cellsAt (List.range (m.count 3)) f)) :
    2 * (((m.segs (List.range (m.count 3)) f e).map fun s =>
        spannedTriangle3 s.1.1 s.1.2 (innerPoint (m.edgeSegs e))).sum * m.lenOf e)
      = ((m.cellsAt (List.range (m.count 3)) f).map fun c => m.flag c f e
          + m.turn c f e * det (m.at0 (m.ends e).2 - m.at0 (m.ends e).1) (m.midOf e - innerPoint (m.edgeSegs e))
              (m.ctr c - m.midOf e)).sum := by
  have hqe := q_equal hI hD hC hne
  have hqn : ∀ {c s : Nat}, Around m (m.ends e).1 (m.ends e).2 c → s ∈ m.vertsOf 3 c →
      sqDist (innerPoint (m.edgeSegs e)) (m.at0 (m.ends e).1) ≤ sqDist (innerPoint (m.edgeSegs e)) (m.at0 s) :=
    fun hc hs => q_near hI hD hC hne hc hs
  have hqs : ∀ {c w p : Nat}, Outer m c (m.ends e).1 (m.ends e).2 w p → 0 ≤ offPlane m (m.ends e).1 (m.ends e).2 w (m.at0 p)
      * offPlane m (m.ends e).1 (m.ends e).2 w (innerPoint (m.edgeSegs e)) := fun ho => q_side hI hD hC hne ho
  generalize innerPoint (m.edgeSegs e) = q at hqe hqn hqs ⊢
  have hmid : sqDist (m.midOf e) (m.at0 (m.ends e).1) = sqDist (m.midOf e) (m.at0 (m.ends e).2) := mid_equal _ _
  obtain ⟨w, hw⟩ := edge_third hI hf he
  unfold Mesh.segs
  match hcs : m.cellsAt (List.range (m.count 3)) f with
  | [] => rw [hcs] at h1; simp [OneOrTwo] at h1
  | [c] =>
    obtain ⟨hc, hfc⟩ := mem_cellsAt.1 (hcs ▸ List.mem_singleton_self c)
    obtain ⟨p, hp⟩ := facet_apex hI hc hfc hw
    have ho := outer_of hI hcs hf hw hp
    have hA := around_of hI hc hfc he
    have hO := ctr_center hI hD.solid hC hc
    have hoB := hO _ hA.2.1 _ hA.2.2.1
    have hwm : w ∈ m.vertsOf 3 c := hp.mem_iff.2 (by simp)
    have hpm : p ∈ m.vertsOf 3 c := hp.mem_iff.2 (by simp)
    obtain ⟨z1, z2, z3⟩ := tri_center hI hD.solid hc hfc hw
    have k := outer_sum hoB (hO _ hA.2.1 _ hwm) (hO _ hA.2.1 _ hpm) z1 z2 z3 (tri_near hI hD hC hcs he hA hpm)
      (hD.edges _ _ _ _ _ ho c hA w hwm) hqe (hqn hA hwm) (hqs ho) (hD.solid c hc _ _ _ _ hp)
    simp only [List.map_cons, List.map_nil, List.sum_cons, List.sum_nil, add_zero]
    unfold Mesh.flag
    rw [turn_eq hI hc hw hp]
    unfold Mesh.lenOf
    rw [add_mul, plane_area hoB z1 hqe, plane_area hmid z1 hqe]
    unfold Mesh.midOf offPlane
    linear_combination k
  | [c, c'] =>
    obtain ⟨hc, hfc⟩ := mem_cellsAt.1 (show c ∈ m.cellsAt (List.range (m.count 3)) f by rw [hcs]; simp)
    obtain ⟨hc', hfc'⟩ := mem_cellsAt.1 (show c' ∈ m.cellsAt (List.range (m.count 3)) f by rw [hcs]; simp)
    have hcc : c ≠ c' := by
      have : (m.cellsAt (List.range (m.count 3)) f).Nodup := List.nodup_range.filter _
      rw [hcs] at this
      simpa using this
    obtain ⟨p, hp⟩ := facet_apex hI hc hfc hw
    obtain ⟨p', hp'⟩ := facet_apex hI hc' hfc' hw
    have hA := around_of hI hc hfc he
    have hA' := around_of hI hc' hfc' he
    have hO := ctr_center hI hD.solid hC hc
    have hO' := ctr_center hI hD.solid hC hc'
    have hoB := hO _ hA.2.1 _ hA.2.2.1
    have hoB' := hO' _ hA'.2.1 _ hA'.2.2.1
    have hwm : w ∈ m.vertsOf 3 c := hp.mem_iff.2 (by simp)
    have hwm' : w ∈ m.vertsOf 3 c' := hp'.mem_iff.2 (by simp)
    have hpm : p ∈ m.vertsOf 3 c := hp.mem_iff.2 (by simp)
    obtain ⟨z1, z2, z3⟩ := tri_center hI hD.solid hc hfc hw
    have k := inner_sum hoB (hO _ hA.2.1 _ hwm) (hO _ hA.2.1 _ hpm) hoB' (hO' _ hA'.2.1 _ hwm')
      (hD.empty _ _ c' c hA' hA _ hO' p hpm) z1 z2 hqe (hqn hA hwm) (hD.apart c c' _ _ _ _ _ hc hc' hcc hp hp')
    have hmm : sqDist (fun i => (m.ctr c i + m.ctr c' i) / 2) (m.at0 (m.ends e).1)
        = sqDist (fun i => (m.ctr c i + m.ctr c' i) / 2) (m.at0 (m.ends e).2) := by
      have := affine_mid (affine_near (m.at0 (m.ends e).1) (m.at0 (m.ends e).2)) (m.ctr c) (m.ctr c')
      linarith
    simp only [List.map_cons, List.map_nil, List.sum_cons, List.sum_nil, add_zero]
    unfold Mesh.flag
    rw [turn_eq hI hc hw hp, turn_eq hI hc' hw hp']
    unfold Mesh.lenOf
    rw [add_mul, plane_area hoB hmm hqe, plane_area hmm hoB' hqe]
    unfold Mesh.midOf offPlane
    linear_combination k
  | _ :: _ :: _ :: _ => rw [hcs] at h1; simp [OneOrTwo] at h1

/-- The interface of an edge. -/
theorem edge_identity {e : Nat} (hne : m.edgeSegs e ≠ []) (he : e < m.count 1)
    (h1 : ∀ f < m.count 2, OneOrTwo (m.cellsAt (List.range (m.count 3)) f)) :
    2 * (segArea (m.edgeSegs e) * m.lenOf e)
      = ((List.range (m.count 3)).map fun c =>
          ((m.bndOf 3 c 2).map fun f => if e ∈ m.bndOf 2 f 1 then m.flag c f e else 0).sum).sum := by
  have s1 : 2 * (segArea (m.edgeSegs e) * m.lenOf e)
      = ((List.range (m.count 2)).map fun f => ((m.cellsAt (List.range (m.count 3)) f).map fun c =>
          (if e ∈ m.bndOf 2 f 1 then m.flag c f e else 0)
            + (if e ∈ m.bndOf 2 f 1 then m.turn c f e else 0) * det (m.at0 (m.ends e).2 - m.at0 (m.ends e).1)
                (m.midOf e - innerPoint (m.edgeSegs e)) (m.ctr c - m.midOf e)).sum).sum := by
    have key := fun f (hf : f < m.count 2) (hfe : e ∈ m.bndOf 2 f 1) => facet_identity hI hD hC hne hf hfe (h1 f hf)
    unfold segArea
    generalize innerPoint (m.edgeSegs e) = q at key ⊢
    unfold Mesh.edgeSegs
    rw [sum_flatMap_map, ← List.sum_map_mul_right, ← List.sum_map_mul_left]
    congr 1
    refine List.map_congr_left fun f hf => ?_
    by_cases hfe : e ∈ m.bndOf 2 f 1
    · simp only [if_pos hfe]
      exact key f (List.mem_range.1 hf) hfe
    · simp [if_neg hfe]
  rw [s1, swap_cells hI]
  congr 1
  refine List.map_congr_left fun c hc => ?_
  rw [sum_add_map, List.sum_map_mul_right, turn_sum hI hD (List.mem_range.1 hc) he]
  ring

/-- All interfaces together. -/
theorem all_edges (hne : ∀ e < m.count 1, m.edgeSegs e ≠ [])
    (h1 : ∀ f < m.count 2, OneOrTwo (m.cellsAt (List.range (m.count 3)) f)) :
    ((List.range (m.count 1)).map fun e => 2 * (segArea (m.edgeSegs e) * m.lenOf e)).sum
      = ((List.range (m.count 3)).map fun c => match m.vertsOf 3 c with
          | [a, b, w, p] => |offPlane m a b w (m.at0 p)|
          | _ => 0).sum := by
  have swap : ∀ {α β : Type} (l : List α) (l' : List β) (G : α → β → ℝ),
      (l.map fun x => (l'.map fun y => G x y).sum).sum = (l'.map fun y => (l.map fun x => G x y).sum).sum := by
    intro α β l l' G
    induction l with
    | nil => simp
    | cons a l ih => simp only [List.map_cons, List.sum_cons]; rw [ih, sum_add_map]
  rw [List.map_congr_left fun e he => edge_identity hI hD hC (hne e (List.mem_range.1 he)) (List.mem_range.1 he) h1, swap]
  congr 1
  refine List.map_congr_left fun c hc => ?_
  rw [List.mem_range] at hc
  rw [swap]
  obtain ⟨v0, v1, v2, v3, f0, f1, f2, f3, h⟩ := tetAt_of hI hc
  rw [h.verts]
  show _ = |offPlane m v0 v1 v2 (m.at0 v3)|
  rw [← cell_flags hI hD hc h.verts fun f hf x y z hp => (tri_center hI hD.solid hc hf hp).2.2]
  congr 1
  refine List.map_congr_left fun f _ => ?_
  exact sum_range_mem (bndOf_nodup (simplexTopo_wf 3) hI 2 f 1) (fun e he => edge_lt hI he) _

end

end VG
