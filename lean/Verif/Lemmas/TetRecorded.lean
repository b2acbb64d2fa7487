import Verif.Lemmas.TetSum

/-!
What is recorded for a single cell, for C72.
-/

namespace VG

/-- What a statement adds to the contribution of the cell `c`. -/
noncomputable def VoroWrite.recAmt (q : VoroQ) (s c : Nat) : VoroWrite → ℝ
  | .upd q' s' c' x => if q = q' ∧ s = s' ∧ c' = c then x else 0
  | .push q' s' c' x => if q = q' ∧ s = s' ∧ c' = c then x else 0
  | _ => 0

theorem recorded_append (l l' : List (Nat × ℝ)) (c : Nat) : recorded (l ++ l') c = recorded l c + recorded l' c := by
  unfold recorded
  rw [List.filter_append, List.map_append, List.sum_append]

theorem recorded_update (c' : Nat) (x : ℝ) (l : List (Nat × ℝ)) (c : Nat) :
    recorded (uniqueUpdate c' x l) c = recorded l c + if c' = c then x else 0 := by
  induction l with
  | nil => by_cases h : c' = c <;> simp [uniqueUpdate, recorded, h]
  | cons a l ih =>
    obtain ⟨k, y⟩ := a
    unfold uniqueUpdate
    have cons : ∀ (k : Nat) (y : ℝ) (l : List (Nat × ℝ)), recorded ((k, y) :: l) c = (if k = c then y else 0) + recorded l c := by
      intro k y l
      by_cases h : k = c <;> simp [recorded, h]
    by_cases h : k = c'
    · rw [if_pos h, cons, cons, h]
      by_cases hc : c' = c
      · simp only [if_pos hc]; ring
      · simp only [if_neg hc]; ring
    · rw [if_neg h, cons, cons, ih]
      ring

theorem recorded_writes (ws : List VoroWrite) (v : VoroSt) (q : VoroQ) (s c : Nat) :
    recorded ((ws.foldl VoroSt.write v).parts q s) c = recorded (v.parts q s) c + (ws.map (VoroWrite.recAmt q s c)).sum := by
  induction ws generalizing v with
  | nil => simp
  | cons w ws ih =>
    rw [List.foldl_cons, ih, List.map_cons, List.sum_cons, ← add_assoc]
    congr 1
    cases w with
    | add q' s' x => simp [VoroSt.write, VoroWrite.recAmt]
    | set q' s' x => simp [VoroSt.write, VoroWrite.recAmt]
    | push q' s' c' x =>
      simp only [VoroSt.write, VoroWrite.recAmt]
      by_cases h : q = q' ∧ s = s'
      · rw [if_pos h, recorded_append, h.1, h.2]
        by_cases hc : c' = c <;> simp [recorded, hc]
      · rw [if_neg h, if_neg (fun hx => h ⟨hx.1, hx.2.1⟩), add_zero]
    | upd q' s' c' x =>
      simp only [VoroSt.write, VoroWrite.recAmt]
      by_cases h : q = q' ∧ s = s'
      · rw [if_pos h, recorded_update, h.1, h.2]
        simp
      · rw [if_neg h, if_neg (fun hx => h ⟨hx.1, hx.2.1⟩), add_zero]

/-- The triangles over the segments of one cell. -/
noncomputable def recIn (l : List IfSeg) (c : Nat) : ℝ :=
  (l.map fun x => if x.2 = c then spannedTriangle3 x.1.1 x.1.2 (innerPoint l) else 0).sum

theorem voroTetEdge_recorded (m : Mesh (Fin 3 → ℝ)) (e : Nat) (l : List IfSeg) (v : VoroSt) (s c : Nat) :
    recorded (((voroTetEdge m e l).foldl VoroSt.write v).parts .area s) c
      = recorded (v.parts .area s) c + (if s = e then recIn l c else 0)
    ∧ recorded (((voroTetEdge m e l).foldl VoroSt.write v).parts .ebox s) c
      = recorded (v.parts .ebox s) c + (if s = e then recIn l c * m.lenOf e / 3 else 0)
    ∧ recorded (((voroTetEdge m e l).foldl VoroSt.write v).parts .vbox s) c
      = recorded (v.parts .vbox s) c + vertexAmt m e (recIn l c) s := by
  have hsum : ∀ (l' : List IfSeg) (p : Fin 3 → ℝ) (k : ℝ),
      ((l'.filter fun x => decide (0 < spannedTriangle3 x.1.1 x.1.2 p)).map fun x =>
          if x.2 = c then spannedTriangle3 x.1.1 x.1.2 p * k else 0).sum
        = (l'.map fun x => if x.2 = c then spannedTriangle3 x.1.1 x.1.2 p else 0).sum * k := by
    intro l' p k
    induction l' with
    | nil => simp
    | cons x l' ih =>
      rw [List.filter_cons, List.map_cons, List.sum_cons, add_mul, ← ih]
      by_cases h : 0 < spannedTriangle3 x.1.1 x.1.2 p
      · rw [if_pos (by simpa using h), List.map_cons, List.sum_cons]
        by_cases hc : x.2 = c <;> simp [hc]
      · have h0 : spannedTriangle3 x.1.1 x.1.2 p = 0 := le_antisymm (not_lt.1 h) (abs_nonneg _)
        rw [if_neg (by simpa using h), h0]
        simp
  have amt : ∀ q, ((voroTetEdge m e l).map (VoroWrite.recAmt q s c)).sum = match q with
      | .area => if s = e then recIn l c else 0
      | .ebox => if s = e then recIn l c * m.lenOf e / 3 else 0
      | .vbox => vertexAmt m e (recIn l c) s := by
    intro q
    unfold voroTetEdge
    simp only [List.map_append, List.sum_append]
    rw [sum_flatMap_map]
    have tail : ∀ x y z t : ℝ, (List.map (VoroWrite.recAmt q s c) [VoroWrite.set .area e x, .set .ebox e y, .add .vbox (m.ends e).1 z,
        .add .vbox (m.ends e).2 t]).sum = 0 := by
      intro x y z t
      simp [VoroWrite.recAmt]
    rw [tail, add_zero]
    have pull : ∀ (p : Prop) [Decidable p] (k : ℝ),
        ((l.filter fun x => decide (0 < spannedTriangle3 x.1.1 x.1.2 (innerPoint l))).map fun x =>
          if p then (if x.2 = c then spannedTriangle3 x.1.1 x.1.2 (innerPoint l) * k else 0) else 0).sum
          = if p then recIn l c * k else 0 := by
      intro p _ k
      by_cases hp : p
      · simp only [if_pos hp]
        exact hsum l _ k
      · simp [if_neg hp]
    cases q with
    | area =>
      have := pull (s = e) 1
      simp only [mul_one] at this
      rw [← this]
      congr 1
      refine List.map_congr_left fun x _ => ?_
      by_cases h1 : s = e <;> by_cases h2 : x.2 = c <;> simp [VoroWrite.recAmt, h1, h2]
    | ebox =>
      have := pull (s = e) (m.lenOf e / 3)
      simp only
      rw [mul_div_assoc, ← this]
      congr 1
      refine List.map_congr_left fun x _ => ?_
      by_cases h1 : s = e <;> by_cases h2 : x.2 = c <;> simp [VoroWrite.recAmt, h1, h2]
      unfold Mesh.lenOf
      ring
    | vbox =>
      have t1 := pull (s = (m.ends e).1) (m.lenOf e / 6)
      have t2 := pull (s = (m.ends e).2) (m.lenOf e / 6)
      simp only [vertexAmt]
      rw [mul_div_assoc (recIn l c) _ (6 : ℝ), ← t1, ← t2, ← List.sum_map_add]
      congr 1
      refine List.map_congr_left fun x _ => ?_
      by_cases h1 : s = (m.ends e).1 <;> by_cases h2 : x.2 = c <;> by_cases h3 : s = (m.ends e).2 <;>
        simp [VoroWrite.recAmt, h1, h2, h3, mul_div_assoc, Mesh.lenOf]
  refine ⟨?_, ?_, ?_⟩ <;> rw [recorded_writes, amt]

/-- The state after the edges. -/
theorem tet_recorded (m : Mesh (Fin 3 → ℝ)) (h : Nat → List IfSeg) (v : VoroSt) (n s c : Nat) :
    let r := (List.range n).foldl (fun v e => (voroTetEdge m e (h e)).foldl VoroSt.write v) v
    recorded (r.parts .area s) c = recorded (v.parts .area s) c + (if s < n then recIn (h s) c else 0)
    ∧ recorded (r.parts .ebox s) c = recorded (v.parts .ebox s) c + (if s < n then recIn (h s) c * m.lenOf s / 3 else 0)
    ∧ recorded (r.parts .vbox s) c = recorded (v.parts .vbox s) c + ∑ e ∈ Finset.range n, vertexAmt m e (recIn (h e) c) s := by
  induction n with
  | zero => intro r; simp [r]
  | succ n ih =>
    intro r
    obtain ⟨i1, i2, i3⟩ := ih
    obtain ⟨k1, k2, k3⟩ := voroTetEdge_recorded m n (h n)
      ((List.range n).foldl (fun v e => (voroTetEdge m e (h e)).foldl VoroSt.write v) v) s c
    simp only [r, List.range_succ, List.foldl_append, List.foldl_cons, List.foldl_nil]
    rw [k1, k2, k3, i1, i2, i3, Finset.sum_range_succ]
    refine ⟨?_, ?_, by ring⟩
    · by_cases h1 : s = n
      · subst h1; simp
      · by_cases h2 : s < n
        · simp [h1, h2, show s < n + 1 by omega]
        · simp [h1, h2, show ¬ s < n + 1 by omega]
    · by_cases h1 : s = n
      · subst h1; simp
      · by_cases h2 : s < n
        · simp [h1, h2, show s < n + 1 by omega]
        · simp [h1, h2, show ¬ s < n + 1 by omega]

variable {m : Mesh (Fin 3 → ℝ)}

/-- The triangles of one cell at one of its facets. -/
noncomputable def Mesh.shareAt (m : Mesh (Fin 3 → ℝ)) (q : Fin 3 → ℝ) (e c f : Nat) : ℝ :=
  ((m.segs (List.range (m.count 3)) f e).map fun x => if x.2 = c then spannedTriangle3 x.1.1 x.1.2 q else 0).sum

theorem segs_cells {cs : List Nat} {f e : Nat} {x : IfSeg} (hx : x ∈ m.segs cs f e) : x.2 ∈ m.cellsAt cs f := by
  unfold Mesh.segs at hx
  split at hx
  · next c hc =>
    rw [hc]
    simp only [List.mem_cons, List.not_mem_nil, or_false] at hx
    rcases hx with rfl | rfl <;> simp
  · next c c' hc =>
    rw [hc]
    simp only [List.mem_cons, List.not_mem_nil, or_false] at hx
    rcases hx with rfl | rfl <;> simp
  · simp at hx

theorem recIn_facets (hI : Inv (simplexTopo 3) m) {c e : Nat} (hc : c < m.count 3) :
    recIn (m.edgeSegs e) c
      = ((m.bndOf 3 c 2).map fun f => if e ∈ m.bndOf 2 f 1 then m.shareAt (innerPoint (m.edgeSegs e)) e c f else 0).sum := by
  unfold recIn
  generalize innerPoint (m.edgeSegs e) = q
  unfold Mesh.edgeSegs
  rw [sum_flatMap_map, ← sum_range_mem (bndOf_nodup (simplexTopo_wf 3) hI 3 c 2) (fun f hf => facet_lt hI hf)]
  congr 1
  refine List.map_congr_left fun f hf => ?_
  by_cases he : e ∈ m.bndOf 2 f 1
  · simp only [if_pos he]
    by_cases hfc : f ∈ m.bndOf 3 c 2
    · rw [if_pos hfc]; rfl
    · rw [if_neg hfc]
      refine List.sum_eq_zero fun x hx => ?_
      obtain ⟨y, hy, rfl⟩ := List.mem_map.1 hx
      rw [if_neg]
      rintro rfl
      exact hfc (mem_cellsAt.1 (segs_cells hy)).2
  · simp [if_neg he]

theorem spanned3_rot (x y q : Fin 3 → ℝ) : spannedTriangle3 x y q = spannedTriangle3 q x y := by
  unfold spannedTriangle3 signedTriangle3
  congr 3
  funext i
  fin_cases i
  · show crossProd _ _ 0 = crossProd _ _ 0
    simp only [crossProd_zero, Pi.sub_apply]; ring
  · show crossProd _ _ 1 = crossProd _ _ 1
    simp only [crossProd_one, Pi.sub_apply]; ring
  · show crossProd _ _ 2 = crossProd _ _ 2
    simp only [crossProd_two, Pi.sub_apply]; ring

theorem spanned3_swap (x y q : Fin 3 → ℝ) : spannedTriangle3 q x y = spannedTriangle3 q y x := by
  unfold spannedTriangle3 signedTriangle3 euclNorm
  rw [sumSquares_eq, sumSquares_eq, innerProd3, innerProd3]
  simp only [crossProd_zero, crossProd_one, crossProd_two, Pi.sub_apply]
  congr 3
  ring

theorem share_is (hI : Inv (simplexTopo 3) m) (hS : Solid m)
    (hF : ∀ f < m.count 2, OneOrTwo (m.cellsAt (List.range (m.count 3)) f)) {c f e w : Nat} (hc : c < m.count 3)
    (hf : f ∈ m.bndOf 3 c 2) (hw : (m.vertsOf 2 f).Perm [(m.ends e).1, (m.ends e).2, w]) (q : Fin 3 → ℝ) :
    FacetShare m m.ctr q c (m.ends e).1 (m.ends e).2 w (m.shareAt q e c f) := by
  have hlt := facet_lt hI hf
  have hcm : c ∈ m.cellsAt (List.range (m.count 3)) f := mem_cellsAt.2 ⟨hc, hf⟩
  have other : ∀ c' ∈ m.cellsAt (List.range (m.count 3)) f, c' < m.count 3 ∧ (m.ends e).1 ∈ m.vertsOf 3 c'
      ∧ (m.ends e).2 ∈ m.vertsOf 3 c' ∧ w ∈ m.vertsOf 3 c' := by
    intro c' h
    obtain ⟨h1, h2⟩ := mem_cellsAt.1 h
    have hs := facet_subset hI h1 h2
    exact ⟨h1, hs (hw.mem_iff.2 (by simp)), hs (hw.mem_iff.2 (by simp)), hs (hw.mem_iff.2 (by simp))⟩
  have hnd : (m.cellsAt (List.range (m.count 3)) f).Nodup := List.nodup_range.filter _
  have h12 := hF f hlt
  unfold Mesh.shareAt Mesh.segs
  match hcs : m.cellsAt (List.range (m.count 3)) f with
  | [] => rw [hcs] at hcm; simp at hcm
  | [d] =>
    rw [hcs] at hcm
    obtain rfl : c = d := by simpa using hcm
    obtain ⟨p, hp⟩ := facet_apex hI hc hf hw
    right
    refine ⟨(outer_of hI hcs hlt hw hp).2.2, m.triCenter f, tri_center hI hS hc hf hw, ?_⟩
    simp only [List.map_cons, List.map_nil, List.sum_cons, List.sum_nil, if_true, add_zero]
    rw [spanned3_rot, spanned3_rot (m.midOf e)]
    rfl
  | [d, d'] =>
    rw [hcs] at hcm other hnd
    have hdd : d ≠ d' := by simpa using hnd
    left
    simp only [List.mem_cons, List.not_mem_nil, or_false] at hcm
    rcases hcm with rfl | rfl
    · obtain ⟨o1, o2, o3, o4⟩ := other d' (by simp)
      refine ⟨d', o1, hdd.symm, o2, o3, o4, ?_⟩
      simp only [List.map_cons, List.map_nil, List.sum_cons, List.sum_nil, if_true, if_neg hdd.symm, add_zero]
      rw [spanned3_rot]
    · obtain ⟨o1, o2, o3, o4⟩ := other d (by simp)
      refine ⟨d, o1, hdd, o2, o3, o4, ?_⟩
      simp only [List.map_cons, List.map_nil, List.sum_cons, List.sum_nil, if_true, if_neg hdd, add_zero, zero_add]
      rw [spanned3_rot, spanned3_swap]
      congr 1
      funext i
      ring
  | _ :: _ :: _ :: _ => rw [hcs] at h12; simp [OneOrTwo] at h12

end VG
