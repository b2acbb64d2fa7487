import Verif.Lemmas.TetRecorded
import Verif.Props.VoronoiHexes

/-!
C72 `apply_voronoi` for tetrahedra.
-/

namespace VG

local notation "det" => determinant3 (K := ℝ)

variable {st : MState (Fin 3 → ℝ)} {m : Mesh (Fin 3 → ℝ)}

/-! ### When the function returns -/

theorem count_eq {P : Type} (m : Mesh P) {k : Nat} (hk : k ≠ 0) : m.count k = (m.elems k).length := by
  unfold Mesh.count; rw [if_neg hk]

theorem filter_range_length {α : Type} (l : List α) (p : Nat → Prop) [DecidablePred p] (q : α → Prop) [DecidablePred q]
    (h : ∀ i x, l[i]? = some x → (p i ↔ q x)) :
    ((List.range l.length).filter fun i => decide (p i)).length = (l.filter fun x => decide (q x)).length := by
  induction l using List.reverseRecOn with
  | nil => rfl
  | append_singleton l a ih =>
    rw [List.length_append, List.length_singleton, List.range_succ, List.filter_append, List.filter_append, List.length_append,
      List.length_append, ih fun i x hx => h i x (by
        rw [List.getElem?_append_left (List.getElem?_eq_some_iff.1 hx).1]; exact hx)]
    have := h l.length a (by simp)
    by_cases hq : q a
    · simp [hq, this.2 hq]
    · simp [hq, this]

theorem tall_iff (hI : Inv (simplexTopo 3) m) : Tall m ↔ Centered m := by
  have key : ∀ a b w p : Nat, (1 / 10000000000) ^ 2 * (∑ i, crossProd (m.at0 w - m.at0 a) (m.at0 p - m.at0 a) i ^ 2)
        ≤ offPlane m a b w (m.at0 p) ^ 2
      ↔ ∃ o, circumTetrahedron (m.at0 a) (m.at0 b) (m.at0 w) (m.at0 p) = some o := by
    intro a b w p
    constructor
    · exact fun h => C43_no_exception _ _ _ _ h
    · rintro ⟨o, h⟩
      simp only [circumTetrahedron] at h
      split at h
      · simp at h
      · next hx =>
        rw [not_lt] at hx
        have e1 : innerProd (m.at0 b - m.at0 a) (crossProd (m.at0 w - m.at0 a) (m.at0 p - m.at0 a))
            = offPlane m a b w (m.at0 p) := (det_eq _ _ _).symm
        have e2 : innerProd (crossProd (m.at0 w - m.at0 a) (m.at0 p - m.at0 a)) (crossProd (m.at0 w - m.at0 a) (m.at0 p - m.at0 a))
            = ∑ i, crossProd (m.at0 w - m.at0 a) (m.at0 p - m.at0 a) i ^ 2 := by
          simp only [innerProd, pow_two]
        rw [e1, e2, ← pow_two, ← pow_two] at hx
        exact hx
  constructor
  · intro hT c hc
    obtain ⟨v0, v1, v2, v3, _, _, _, _, h⟩ := tetAt_of hI hc
    obtain ⟨e, he⟩ := elem_of_lt (by omega) hc
    have hv := h.verts
    rw [vertsOf_elem he] at hv
    obtain ⟨o, ho⟩ := (key _ _ _ _).1 (hT e (List.mem_of_getElem? he) _ _ _ _ hv)
    have : m.tetCenter c = .ok o := by unfold Mesh.tetCenter; rw [h.verts]; simp only; rw [ho]
    unfold Mesh.ctr
    rw [this]
  · intro hC e he a b w p hv
    obtain ⟨c, hc⟩ := List.mem_iff_getElem?.1 he
    have hlt : c < m.count 3 := by rw [count_eq m (by omega)]; exact (List.getElem?_eq_some_iff.1 hc).1
    refine (key _ _ _ _).2 ⟨m.ctr c, ?_⟩
    have := hC c hlt
    unfold Mesh.tetCenter at this
    rw [vertsOf_elem hc, hv] at this
    simp only at this
    match hx : circumTetrahedron (m.at0 a) (m.at0 b) (m.at0 w) (m.at0 p) with
    | none => rw [hx] at this; simp at this
    | some o => rw [hx] at this; simp only [Except.ok.injEq] at this; rw [this]

theorem tetCenter_cases (hI : Inv (simplexTopo 3) m) {c : Nat} (hc : c < m.count 3) :
    m.tetCenter c = .ok (m.ctr c) ∨ m.tetCenter c = .error .thrown := by
  obtain ⟨v0, v1, v2, v3, _, _, _, _, h⟩ := tetAt_of hI hc
  unfold Mesh.ctr
  have : (∃ o, m.tetCenter c = .ok o) ∨ m.tetCenter c = .error .thrown := by
    unfold Mesh.tetCenter
    rw [h.verts]
    simp only
    match circumTetrahedron (m.at0 v0) (m.at0 v1) (m.at0 v2) (m.at0 v3) with
    | none => exact Or.inr rfl
    | some o => exact Or.inl ⟨o, rfl⟩
  rcases this with ⟨o, h⟩ | h
  · left; rw [h]
  · right; exact h

theorem cellsAt_length (hI : Inv (simplexTopo 3) m) {f : Nat} {el : Elem} (hf : (m.elems 2)[f]? = some el) :
    (m.cellsAt (List.range (m.count 3)) f).length = ((m.elems 3).filter fun c => decide (el.verts ⊆ c.verts)).length := by
  have hlt : f < m.count 2 := by rw [count_eq m (by omega)]; exact (List.getElem?_eq_some_iff.1 hf).1
  unfold Mesh.cellsAt
  rw [count_eq m (by omega)]
  refine filter_range_length _ _ _ fun i x hx => ?_
  have hi : i < m.count 3 := by rw [count_eq m (by omega)]; exact (List.getElem?_eq_some_iff.1 hx).1
  rw [facet_mem hI hi hlt, vertsOf_elem hf, vertsOf_elem hx]

theorem facetsUsed_iff (hI : Inv (simplexTopo 3) m) :
    FacetsUsed m ↔ ∀ f < m.count 2, OneOrTwo (m.cellsAt (List.range (m.count 3)) f) := by
  constructor
  · intro h f hf
    obtain ⟨el, hel⟩ := elem_of_lt (by omega) hf
    unfold OneOrTwo
    rw [cellsAt_length hI hel]
    exact h el (List.mem_of_getElem? hel)
  · intro h el hel
    obtain ⟨f, hf⟩ := List.mem_iff_getElem?.1 hel
    have hlt : f < m.count 2 := by rw [count_eq m (by omega)]; exact (List.getElem?_eq_some_iff.1 hf).1
    have := h f hlt
    unfold OneOrTwo at this
    rw [cellsAt_length hI hf] at this
    exact this

theorem verts_ends (hI : Inv (simplexTopo 3) m) {e : Nat} {el : Elem} (he : (m.elems 1)[e]? = some el) :
    el.verts = [(m.ends e).1, (m.ends e).2] := by
  obtain ⟨hn, hl, _⟩ := hI.verts 1 el (List.mem_of_getElem? he)
  have hnv : (simplexTopo 3).nv 1 = 2 := by decide
  replace hl := hl.fixed
  rw [hnv] at hl
  unfold Mesh.ends
  rw [vertsOf_elem he]
  match el.verts, hl with
  | [a, b], _ => rfl

theorem edgesUsed_iff (hI : Inv (simplexTopo 3) m) (hF : ∀ f < m.count 2, OneOrTwo (m.cellsAt (List.range (m.count 3)) f)) :
    EdgesUsed m ↔ ∀ e < m.count 1, m.edgeSegs e ≠ [] := by
  constructor
  · intro h e he
    obtain ⟨el, hel⟩ := elem_of_lt (by omega) he
    obtain ⟨fl, hfl, hs⟩ := h el (List.mem_of_getElem? hel)
    obtain ⟨f, hf⟩ := List.mem_iff_getElem?.1 hfl
    have hlt : f < m.count 2 := by rw [count_eq m (by omega)]; exact (List.getElem?_eq_some_iff.1 hf).1
    rw [verts_ends hI hel, ← vertsOf_elem hf] at hs
    have hm := edge_mem hI hlt he (hs (by simp)) (hs (by simp))
    intro h0
    unfold Mesh.edgeSegs at h0
    rw [List.flatMap_eq_nil_iff] at h0
    have := h0 f (List.mem_range.2 hlt)
    rw [if_pos hm] at this
    exact segs_ne (hF f hlt) e this
  · intro h el hel
    obtain ⟨e, he⟩ := List.mem_iff_getElem?.1 hel
    have hlt : e < m.count 1 := by rw [count_eq m (by omega)]; exact (List.getElem?_eq_some_iff.1 he).1
    have h0 := h e hlt
    unfold Mesh.edgeSegs at h0
    rw [Ne, List.flatMap_eq_nil_iff] at h0
    push Not at h0
    obtain ⟨f, hf, h1⟩ := h0
    rw [List.mem_range] at hf
    obtain ⟨fl, hfl⟩ := elem_of_lt (by omega) hf
    refine ⟨fl, List.mem_of_getElem? hfl, ?_⟩
    split at h1
    · next hm =>
      obtain ⟨w, hw⟩ := edge_third hI hf hm
      rw [vertsOf_elem hfl] at hw
      rw [verts_ends hI he]
      intro x hx
      simp only [List.mem_cons, List.not_mem_nil, or_false] at hx
      rcases hx with rfl | rfl <;> exact hw.mem_iff.2 (by simp)
    · exact absurd rfl h1

theorem run_tets (hI : Inv (simplexTopo 3) m) (v : VoroSt) :
    (¬ (Centered m ∧ ∀ f < m.count 2, OneOrTwo (m.cellsAt (List.range (m.count 3)) f)) → m.voronoiTets v = .error .thrown)
    ∧ (Centered m → (∀ f < m.count 2, OneOrTwo (m.cellsAt (List.range (m.count 3)) f)) →
      (¬ (∀ e < m.count 1, m.edgeSegs e ≠ []) → m.voronoiTets v = .error .undefined)
      ∧ ((∀ e < m.count 1, m.edgeSegs e ≠ []) → m.voronoiTets v
          = .ok ((List.range (m.count 1)).foldl (fun v e => (voroTetEdge m e (m.edgeSegs e)).foldl VoroSt.write v) v))) := by
  have hn3 : ∀ c ∈ List.range (m.count 3), (m.bndOf 3 c 2).Nodup := fun c _ => bndOf_nodup (simplexTopo_wf 3) hI 3 c 2
  have hn2 : ∀ f ∈ List.range (m.count 2), (m.bndOf 2 f 1).Nodup := fun f _ => bndOf_nodup (simplexTopo_wf 3) hI 2 f 1
  have step1 : Centered m → ∃ g, tetStep1 m (List.range (m.count 3)) (fun _ => []) = .ok g
      ∧ ∀ f, g f = (m.cellsAt (List.range (m.count 3)) f).map fun c => (m.ctr c, c) := by
    intro hC
    obtain ⟨g, h1, h2⟩ := tetStep1_ok m (List.range (m.count 3)) hn3 (fun c hc => hC c (List.mem_range.1 hc)) (fun _ => [])
    exact ⟨g, h1, fun f => by rw [h2, List.nil_append]⟩
  constructor
  · intro hx
    unfold Mesh.voronoiTets
    by_cases hC : Centered m
    · obtain ⟨g, h1, h2⟩ := step1 hC
      have hF : ¬ ∀ f < m.count 2, OneOrTwo (m.cellsAt (List.range (m.count 3)) f) := fun h => hx ⟨hC, h⟩
      push Not at hF
      obtain ⟨f, hf, hf'⟩ := hF
      rw [h1]
      simp only
      rw [tetStep2_thrown h2 (List.range (m.count 2)) hn2 (fun f hf => by
        obtain ⟨_, _, _, _, _, _, h⟩ := facetAt_of hI (List.mem_range.1 hf)
        rw [h.edges]; simp) (List.mem_range.2 hf) hf']
    · unfold Centered at hC
      push Not at hC
      obtain ⟨c, hc, hc'⟩ := hC
      rw [tetStep1_thrown m (List.range (m.count 3)) (fun c hc => by
        rcases tetCenter_cases hI (List.mem_range.1 hc) with h | h <;> rw [h] <;> simp) (List.mem_range.2 hc)
        ((tetCenter_cases hI hc).resolve_left hc')]
  · intro hC hF
    obtain ⟨g, h1, h2⟩ := step1 hC
    obtain ⟨h, h3, h4⟩ := tetStep2_ok h2 (List.range (m.count 2)) hn2 (fun f hf => hF f (List.mem_range.1 hf)) (fun _ => [])
    have h5 : h = m.edgeSegs := by
      funext e
      rw [h4, List.nil_append]
      rfl
    subst h5
    constructor
    · intro hx
      push Not at hx
      obtain ⟨e, he, h0⟩ := hx
      unfold Mesh.voronoiTets
      rw [h1]; simp only; rw [h3]; simp only
      exact tetStep3_undefined _ (List.mem_range.2 he) h0 v
    · intro hx
      unfold Mesh.voronoiTets
      rw [h1]; simp only; rw [h3]; simp only
      exact tetStep3_ok _ (fun e he => hx e (List.mem_range.1 he)) v

/-- The function throws an exception exactly if a cell is too flat or a triangle belongs to no cell or to more than two; it reads
an element of an empty vector exactly if none of that is so and an edge belongs to no triangle; otherwise it returns. -/
theorem C72_returns (h : Reached (simplexTopo 3) st) (v : VoroSt) :
    (st.mesh.voronoiTets v = .error .thrown ↔ ¬ (Tall st.mesh ∧ FacetsUsed st.mesh))
    ∧ (st.mesh.voronoiTets v = .error .undefined ↔ Tall st.mesh ∧ FacetsUsed st.mesh ∧ ¬ EdgesUsed st.mesh)
    ∧ ((∃ r, st.mesh.voronoiTets v = .ok r) ↔ Tall st.mesh ∧ FacetsUsed st.mesh ∧ EdgesUsed st.mesh) := by
  have hI := (h.inv (simplexTopo_wf 3)).inv
  obtain ⟨r1, r2⟩ := run_tets hI v
  by_cases hx : Tall st.mesh ∧ FacetsUsed st.mesh
  · have hF := (facetsUsed_iff hI).1 hx.2
    obtain ⟨r3, r4⟩ := r2 ((tall_iff hI).1 hx.1) hF
    by_cases hE : EdgesUsed st.mesh
    · rw [r4 ((edgesUsed_iff hI hF).1 hE)]
      simp [hx.1, hx.2, hE]
    · rw [r3 fun h => hE ((edgesUsed_iff hI hF).2 h)]
      simp [hx.1, hx.2, hE]
  · rw [r1 fun h => hx ⟨(tall_iff hI).2 h.1, (facetsUsed_iff hI).2 h.2⟩]
    have h1 : ¬ (Tall st.mesh ∧ FacetsUsed st.mesh ∧ ¬ EdgesUsed st.mesh) := fun h => hx ⟨h.1, h.2.1⟩
    have h2 : ¬ (Tall st.mesh ∧ FacetsUsed st.mesh ∧ EdgesUsed st.mesh) := fun h => hx ⟨h.1, h.2.1⟩
    simp [hx, h1, h2]

/-- What is there when the function has returned. -/
theorem ok_tets (hI : Inv (simplexTopo 3) m) {v r : VoroSt} (hr : m.voronoiTets v = .ok r) :
    Centered m ∧ (∀ f < m.count 2, OneOrTwo (m.cellsAt (List.range (m.count 3)) f)) ∧ (∀ e < m.count 1, m.edgeSegs e ≠ [])
    ∧ r = (List.range (m.count 1)).foldl (fun v e => (voroTetEdge m e (m.edgeSegs e)).foldl VoroSt.write v) v := by
  obtain ⟨r1, r2⟩ := run_tets hI v
  by_cases hx : Centered m ∧ ∀ f < m.count 2, OneOrTwo (m.cellsAt (List.range (m.count 3)) f)
  · obtain ⟨r3, r4⟩ := r2 hx.1 hx.2
    by_cases hE : ∀ e < m.count 1, m.edgeSegs e ≠ []
    · rw [r4 hE] at hr
      exact ⟨hx.1, hx.2, hE, (Except.ok.inj hr).symm⟩
    · rw [r3 hE] at hr; simp at hr
  · rw [r1 hx] at hr; simp at hr

/-! ### Boxes from interfaces -/

theorem lenOf_eq (m : Mesh (Fin 3 → ℝ)) (e : Nat) : m.lenOf e = √(sqDist (m.at0 (m.ends e).1) (m.at0 (m.ends e).2)) := by
  unfold Mesh.lenOf signedLine sqDist
  rw [abs_of_nonneg (Real.sqrt_nonneg _)]
  congr 1
  exact Finset.sum_congr rfl fun i _ => by ring

theorem segArea_nonneg (l : List IfSeg) : 0 ≤ segArea l := by
  unfold segArea
  refine List.sum_nonneg fun x hx => ?_
  obtain ⟨s, _, rfl⟩ := List.mem_map.1 hx
  exact abs_nonneg _

/-- Interfaces are not negative, the box of an edge is the double pyramid over the interface, and half of it is added to the box
of either end. -/
theorem C72_boxes (h : Reached (simplexTopo 3) st) {v r : VoroSt} (hr : st.mesh.voronoiTets v = .ok r) :
    (∀ s a b f, (st.mesh.elems 1)[s]? = some f → f.verts = [a, b] →
      0 ≤ r.total .area s ∧ r.total .ebox s = r.total .area s * √(sqDist (st.mesh.at0 a) (st.mesh.at0 b)) / 3)
    ∧ ∀ s, r.total .vbox s = v.total .vbox s + ∑ e ∈ Finset.range (st.mesh.elems 1).length,
        if s ∈ st.mesh.vertsOf 1 e then r.total .ebox e / 2 else 0 := by
  have hI := (h.inv (simplexTopo_wf 3)).inv
  obtain ⟨_, _, _, rfl⟩ := ok_tets hI hr
  constructor
  · intro s a b f hs hf
    have hlt : s < st.mesh.count 1 := by rw [count_eq _ (by omega)]; exact (List.getElem?_eq_some_iff.1 hs).1
    obtain ⟨t1, t2, _⟩ := tet_state st.mesh st.mesh.edgeSegs v (st.mesh.count 1) s
    rw [t1, t2, if_pos hlt, if_pos hlt, lenOf_eq]
    have := verts_ends hI hs
    rw [hf] at this
    simp only [List.cons.injEq, and_true] at this
    rw [← this.1, ← this.2]
    exact ⟨segArea_nonneg _, rfl⟩
  · intro s
    obtain ⟨_, _, t3, _⟩ := tet_state st.mesh st.mesh.edgeSegs v (st.mesh.count 1) s
    rw [t3, ← count_eq st.mesh (k := 1) (by omega)]
    congr 1
    refine Finset.sum_congr rfl fun e he => ?_
    have hlt := Finset.mem_range.1 he
    obtain ⟨_, t2, _⟩ := tet_state st.mesh st.mesh.edgeSegs v (st.mesh.count 1) e
    rw [t2, if_pos hlt]
    obtain ⟨el, hel⟩ := elem_of_lt (by omega) hlt
    have hne := ends_ne3 hI hlt
    rw [vertsOf_elem hel, verts_ends hI hel]
    unfold vertexAmt
    by_cases h1 : s = (st.mesh.ends e).1
    · subst h1
      rw [if_pos rfl, if_neg hne, if_pos (by simp)]
      ring
    · by_cases h2 : s = (st.mesh.ends e).2
      · subst h2
        rw [if_neg h1, if_pos rfl, if_pos (by simp)]
        ring
      · rw [if_neg h1, if_neg h2, if_neg (by simp [h1, h2])]
        ring

/-- With accessors nothing was written to, the totals are the sums of the contributions, and no cell is recorded twice. -/
theorem C72_contributions (h : Reached (simplexTopo 3) st) {r : VoroSt} (hr : st.mesh.voronoiTets .fresh = .ok r) (q : VoroQ)
    (s : Nat) :
    r.total q s = ((r.parts q s).map (·.2)).sum ∧ ((r.parts q s).map (·.1)).Nodup := by
  have hI := (h.inv (simplexTopo_wf 3)).inv
  obtain ⟨_, _, _, rfl⟩ := ok_tets hI hr
  obtain ⟨t1, t2, t3, t4, t5, t6, t7⟩ := tet_state st.mesh st.mesh.edgeSegs .fresh (st.mesh.count 1) s
  refine ⟨?_, t7 q (by simp [VoroSt.fresh])⟩
  show _ = partSum _
  cases q with
  | area => rw [t1, t4]; simp [VoroSt.fresh, partSum]
  | ebox => rw [t2, t5]; simp [VoroSt.fresh, partSum]
  | vbox => rw [t3, t6]; simp [VoroSt.fresh, partSum]

/-- What is recorded for the single cells: at an edge of the cell the triangles of its two facets there (`FacetShare`), the box
of the edge is the double pyramid over that, and a vertex has half of the boxes of its edges. -/
theorem C72_cells (h : Reached (simplexTopo 3) st) (hS : Solid st.mesh) {r : VoroSt} (hr : st.mesh.voronoiTets .fresh = .ok r)
    {O : Nat → Fin 3 → ℝ} (hO : ∀ c < st.mesh.count 3, CenterOf st.mesh c (O c)) :
    (∀ s a b f, (st.mesh.elems 1)[s]? = some f → f.verts = [a, b] →
      ∃ q, ∀ c, (∀ w p, c < st.mesh.count 3 → (st.mesh.vertsOf 3 c).Perm [a, b, w, p] →
          ∃ x y, FacetShare st.mesh O q c a b w x ∧ FacetShare st.mesh O q c a b p y ∧ recorded (r.parts .area s) c = x + y)
        ∧ (¬ Around st.mesh a b c → recorded (r.parts .area s) c = 0)
        ∧ recorded (r.parts .ebox s) c = recorded (r.parts .area s) c * √(sqDist (st.mesh.at0 a) (st.mesh.at0 b)) / 3)
    ∧ ∀ s c, recorded (r.parts .vbox s) c = ∑ e ∈ Finset.range (st.mesh.elems 1).length,
        if s ∈ st.mesh.vertsOf 1 e then recorded (r.parts .ebox e) c / 2 else 0 := by
  have hI := (h.inv (simplexTopo_wf 3)).inv
  obtain ⟨hC, hF, hE, rfl⟩ := ok_tets hI hr
  generalize st.mesh = m at *
  have hfresh : ∀ q s c, recorded (VoroSt.fresh.parts q s) c = 0 := fun _ _ _ => rfl
  have hOc : ∀ c < m.count 3, O c = m.ctr c := by
    intro c hc
    obtain ⟨v0, v1, v2, v3, _, _, _, _, ht⟩ := tetAt_of hI hc
    have hp : (m.vertsOf 3 c).Perm [v0, v1, v2, v3] := by rw [ht.verts]
    have m0 : v0 ∈ m.vertsOf 3 c := hp.mem_iff.2 (by simp)
    have m1 : v1 ∈ m.vertsOf 3 c := hp.mem_iff.2 (by simp)
    have m2 : v2 ∈ m.vertsOf 3 c := hp.mem_iff.2 (by simp)
    have m3 : v3 ∈ m.vertsOf 3 c := hp.mem_iff.2 (by simp)
    have h1 := hO c hc
    have h2 := ctr_center hI hS hC hc
    exact center_unique (hS c hc _ _ _ _ hp) (h1 _ m0 _ m1) (h1 _ m0 _ m2) (h1 _ m0 _ m3) (h2 _ m0 _ m1) (h2 _ m0 _ m2)
      (h2 _ m0 _ m3)
  have share : ∀ {q : Fin 3 → ℝ} {c a b w : Nat} {x : ℝ}, c < m.count 3 → FacetShare m m.ctr q c a b w x →
      FacetShare m O q c a b w x := by
    rintro q c a b w x hc (⟨c', h1, h2, h3, h4, h5, h6⟩ | ⟨h1, z, h2, h3⟩)
    · exact Or.inl ⟨c', h1, h2, h3, h4, h5, by rw [hOc c hc, hOc c' h1]; exact h6⟩
    · exact Or.inr ⟨h1, z, h2, by rw [hOc c hc]; exact h3⟩
  constructor
  · intro s a b f hs hf
    have hlt : s < m.count 1 := by rw [count_eq _ (by omega)]; exact (List.getElem?_eq_some_iff.1 hs).1
    have he := verts_ends hI hs
    rw [hf] at he
    simp only [List.cons.injEq, and_true] at he
    obtain ⟨rfl, rfl⟩ := he
    refine ⟨innerPoint (m.edgeSegs s), fun c => ?_⟩
    obtain ⟨t1, t2, _⟩ := tet_recorded m m.edgeSegs .fresh (m.count 1) s c
    rw [t1, t2, hfresh, hfresh, if_pos hlt, if_pos hlt, zero_add, zero_add, lenOf_eq]
    refine ⟨fun w p hc hp => ?_, fun hn => ?_, rfl⟩
    · obtain ⟨g, g', hg, hgw, hgp⟩ := facets_at_edge hI hc hlt hp
      have hm : ∀ f ∈ [g, g'], f ∈ m.bndOf 3 c 2 := fun f hf => (List.mem_filter.1 (hg.mem_iff.2 hf)).1
      refine ⟨_, _, share hc (share_is hI hS hF hc (hm g (by simp)) hgw (innerPoint (m.edgeSegs s))),
        share hc (share_is hI hS hF hc (hm g' (by simp)) hgp (innerPoint (m.edgeSegs s))), ?_⟩
      rw [recIn_facets hI hc, sum_ite_filter, (hg.map _).sum_eq]
      simp
    · unfold recIn
      refine List.sum_eq_zero fun x hx => ?_
      obtain ⟨y, hy, rfl⟩ := List.mem_map.1 hx
      rw [if_neg]
      rintro rfl
      unfold Mesh.edgeSegs at hy
      obtain ⟨g, _, hy⟩ := List.mem_flatMap.1 hy
      split at hy
      · next hgs =>
        obtain ⟨k1, k2⟩ := mem_cellsAt.1 (segs_cells hy)
        exact hn (around_of hI k1 k2 hgs)
      · simp at hy
  · intro s c
    obtain ⟨_, _, t3⟩ := tet_recorded m m.edgeSegs .fresh (m.count 1) s c
    rw [t3, hfresh, zero_add, ← count_eq m (k := 1) (by omega)]
    refine Finset.sum_congr rfl fun e he => ?_
    have hlt := Finset.mem_range.1 he
    obtain ⟨_, t2, _⟩ := tet_recorded m m.edgeSegs .fresh (m.count 1) e c
    rw [t2, hfresh, zero_add, if_pos hlt]
    obtain ⟨el, hel⟩ := elem_of_lt (by omega) hlt
    have hne := ends_ne3 hI hlt
    rw [vertsOf_elem hel, verts_ends hI hel]
    unfold vertexAmt
    by_cases h1 : s = (m.ends e).1
    · subst h1
      rw [if_pos rfl, if_neg hne, if_pos (by simp)]
      ring
    · by_cases h2 : s = (m.ends e).2
      · subst h2
        rw [if_neg h1, if_pos rfl, if_pos (by simp)]
        ring
      · rw [if_neg h1, if_neg h2, if_neg (by simp [h1, h2])]
        ring

/-! ### Delaunay meshes -/

/-- The interface of an edge consists of its parts in the cells at the edge. -/
theorem C72_interface_partial (h : Reached (simplexTopo 3) st) (hD : Delaunay st.mesh) {v r : VoroSt}
    (hr : st.mesh.voronoiTets v = .ok r) {s a b : Nat} {f : Elem} (hs : (st.mesh.elems 1)[s]? = some f) (hf : f.verts = [a, b]) :
    (∀ c, Around st.mesh a b c → ∃ x, Piece st.mesh c a b x)
    ∧ ∀ S : Nat → ℝ, (∀ c, Around st.mesh a b c → Piece st.mesh c a b (S c)) →
      2 * (r.total .area s * √(sqDist (st.mesh.at0 a) (st.mesh.at0 b)))
        = ∑ c ∈ Finset.range (st.mesh.elems 3).length,
          if a ∈ st.mesh.vertsOf 3 c ∧ b ∈ st.mesh.vertsOf 3 c then S c else 0 := by
  have hI := (h.inv (simplexTopo_wf 3)).inv
  obtain ⟨hC, hF, hE, rfl⟩ := ok_tets hI hr
  generalize st.mesh = m at *
  have hlt : s < m.count 1 := by rw [count_eq _ (by omega)]; exact (List.getElem?_eq_some_iff.1 hs).1
  have he := verts_ends hI hs
  rw [hf] at he
  simp only [List.cons.injEq, and_true] at he
  obtain ⟨ha, hb⟩ := he
  have hne : a ≠ b := by rw [ha, hb]; exact ends_ne3 hI hlt
  -- the two facets of a cell
  have two : ∀ c, c < m.count 3 → a ∈ m.vertsOf 3 c → b ∈ m.vertsOf 3 c → ∃ w p, (m.vertsOf 3 c).Perm [a, b, w, p] := by
    intro c hc h1 h2
    obtain ⟨hn, hl⟩ := tet_nodup hI hc
    have p1 := List.perm_cons_erase h1
    have h2' : b ∈ (m.vertsOf 3 c).erase a := (List.mem_erase_of_ne (Ne.symm hne)).2 h2
    have p2 := List.perm_cons_erase h2'
    have l2 : (((m.vertsOf 3 c).erase a).erase b).length = 2 := by
      rw [List.length_erase_of_mem h2', List.length_erase_of_mem h1, hl]
    match hx : ((m.vertsOf 3 c).erase a).erase b, l2 with
    | [w, p], _ =>
      rw [hx] at p2
      exact ⟨w, p, p1.trans (p2.cons a)⟩
  have amount : ∀ c, c < m.count 3 → ∀ w p, (m.vertsOf 3 c).Perm [a, b, w, p] →
      ∃ z z', TriCenterOf m a b w z ∧ TriCenterOf m a b p z' ∧
        ((m.bndOf 3 c 2).map fun f => if s ∈ m.bndOf 2 f 1 then m.flag c f s else 0).sum
          = sg (offPlane m a b w (m.at0 p)) * (det (m.at0 b - m.at0 a) (z - circumLine (m.at0 a) (m.at0 b))
              (m.ctr c - circumLine (m.at0 a) (m.at0 b))
            + det (m.at0 b - m.at0 a) (m.ctr c - circumLine (m.at0 a) (m.at0 b)) (z' - circumLine (m.at0 a) (m.at0 b))) := by
    intro c hc w p hp
    rw [ha, hb] at hp ⊢
    obtain ⟨g, g', hg, hgw, hgp⟩ := facets_at_edge hI hc hlt hp
    have hm : ∀ f ∈ [g, g'], f ∈ m.bndOf 3 c 2 := fun f hf => (List.mem_filter.1 (hg.mem_iff.2 hf)).1
    have hp' : (m.vertsOf 3 c).Perm [(m.ends s).1, (m.ends s).2, p, w] := hp.trans (((List.Perm.swap _ _ _).cons _).cons _)
    refine ⟨m.triCenter g, m.triCenter g', tri_center hI hD.solid hc (hm g (by simp)) hgw, tri_center hI hD.solid hc (hm g' (by simp)) hgp, ?_⟩
    rw [sum_ite_filter, (hg.map _).sum_eq]
    simp only [List.map_cons, List.map_nil, List.sum_cons, List.sum_nil, Mesh.flag]
    rw [turn_eq hI hc hgw hp, turn_eq hI hc hgp hp', side_swap (m.ends s).1 (m.ends s).2 w p,
      sg_neg (hD.solid c hc _ _ _ _ hp)]
    simp only [Mesh.midOf, determinant3, Pi.sub_apply]
    ring
  have signed : ∀ {x y : ℝ}, x ≠ 0 → sg x * y * |x| = x * y := by
    intro x y hx
    unfold sg
    split
    · next h => rw [abs_of_pos h]; ring
    · next h => rw [abs_of_nonpos (not_lt.1 h)]; ring
  refine ⟨fun c hc => ?_, fun S hS => ?_⟩
  · obtain ⟨w, p, hp⟩ := two c hc.1 hc.2.1 hc.2.2.1
    obtain ⟨z, z', hz, hz', _⟩ := amount c hc.1 w p hp
    exact ⟨_, w, p, m.ctr c, z, z', hp, ctr_center hI hD.solid hC hc.1, hz, hz', signed (hD.solid c hc.1 _ _ _ _ hp)⟩
  · obtain ⟨t1, _⟩ := tet_state m m.edgeSegs v (m.count 1) s
    have k := edge_identity hI hD hC (hE s hlt) hlt hF
    rw [lenOf_eq, ← ha, ← hb] at k
    rw [t1, if_pos hlt, k, sum_range_list, count_eq m (by omega)]
    refine Finset.sum_congr rfl fun c hc => ?_
    have hc' : c < m.count 3 := by rw [count_eq m (by omega)]; exact Finset.mem_range.1 hc
    by_cases hab : a ∈ m.vertsOf 3 c ∧ b ∈ m.vertsOf 3 c
    · rw [if_pos hab]
      obtain ⟨w, p, o, z, z', hp, ho, hz, hz', hx⟩ := hS c ⟨hc', hab.1, hab.2, hne⟩
      obtain ⟨y, y', hy, hy', hsum⟩ := amount c hc' w p hp
      have ht := hD.solid c hc' _ _ _ _ hp
      have hp' : (m.vertsOf 3 c).Perm [a, b, p, w] := hp.trans (((List.Perm.swap _ _ _).cons _).cons _)
      have ht' := hD.solid c hc' _ _ _ _ hp'
      have hw : w ∈ m.vertsOf 3 c := hp.mem_iff.2 (by simp)
      have hpm : p ∈ m.vertsOf 3 c := hp.mem_iff.2 (by simp)
      have hO := ctr_center hI hD.solid hC hc'
      have e1 : o = m.ctr c := center_unique ht (ho _ hab.1 _ hab.2) (ho _ hab.1 _ hw) (ho _ hab.1 _ hpm) (hO _ hab.1 _ hab.2)
        (hO _ hab.1 _ hw) (hO _ hab.1 _ hpm)
      have e2 : z = y := plane_center_unique ht hz.1 hz.2.1 hz.2.2 hy.1 hy.2.1 hy.2.2
      have e3 : z' = y' := plane_center_unique ht' hz'.1 hz'.2.1 hz'.2.2 hy'.1 hy'.2.1 hy'.2.2
      subst e1 e2 e3
      rw [hsum]
      apply mul_right_cancel₀ (abs_ne_zero.2 ht)
      rw [hx, signed ht]
    · rw [if_neg hab]
      refine List.sum_eq_zero fun x hx => ?_
      obtain ⟨g, hg, rfl⟩ := List.mem_map.1 hx
      rw [if_neg]
      intro hgs
      obtain ⟨_, h1, h2, _⟩ := around_of hI hc' hg hgs
      rw [← ha] at h1
      rw [← hb] at h2
      exact hab ⟨h1, h2⟩

/-- The boxes have the volume of the mesh. -/
theorem C72_total_volume_partial (h : Reached (simplexTopo 3) st) (hD : Delaunay st.mesh) {v r : VoroSt}
    (hr : st.mesh.voronoiTets v = .ok r) :
    ∑ s ∈ Finset.range st.mesh.verts.length, r.total .vbox s
      = ∑ s ∈ Finset.range st.mesh.verts.length, v.total .vbox s
        + ((st.mesh.elems 3).map fun e => |signedTetrahedron (cornerAt st.mesh e.verts 0) (cornerAt st.mesh e.verts 1)
            (cornerAt st.mesh e.verts 2) (cornerAt st.mesh e.verts 3)|).sum := by
  have hI := (h.inv (simplexTopo_wf 3)).inv
  obtain ⟨hC, hF, hE, rfl⟩ := ok_tets hI hr
  generalize st.mesh = m at *
  rw [Finset.sum_congr rfl fun s _ => (tet_state m m.edgeSegs v (m.count 1) s).2.2.1, Finset.sum_add_distrib, Finset.sum_comm]
  congr 1
  have half : ∀ e ∈ Finset.range (m.count 1), ∑ s ∈ Finset.range m.verts.length, vertexAmt m e (segArea (m.edgeSegs e)) s
      = 2 * (segArea (m.edgeSegs e) * m.lenOf e) / 6 := by
    intro e he
    obtain ⟨el, hel⟩ := elem_of_lt (by omega) (Finset.mem_range.1 he)
    have hv := verts_ends hI hel
    have hlt := (hI.verts 1 el (List.mem_of_getElem? hel)).2.2
    rw [hv] at hlt
    unfold vertexAmt
    rw [Finset.sum_add_distrib, Finset.sum_ite_eq', Finset.sum_ite_eq', if_pos (Finset.mem_range.2 (hlt _ (by simp))),
      if_pos (Finset.mem_range.2 (hlt _ (by simp)))]
    ring
  rw [Finset.sum_congr rfl half, ← sum_range_list]
  have k := all_edges hI hD hC hE hF
  have div : ∀ (l : List Nat) (g : Nat → ℝ), (l.map fun e => g e / 6).sum = (l.map g).sum / 6 := by
    intro l g
    induction l with
    | nil => simp
    | cons a l ih => simp only [List.map_cons, List.sum_cons, ih]; ring
  rw [div, k, ← div, count_eq m (by omega)]
  congr 1
  refine List.ext_getElem (by simp) fun i h1 h2 => ?_
  have hi : i < m.count 3 := by rw [count_eq m (by omega)]; simpa using h2
  obtain ⟨e, he⟩ := elem_of_lt (by omega) hi
  obtain ⟨v0, v1, v2, v3, _, _, _, _, ht⟩ := tetAt_of hI hi
  have hv := ht.verts
  rw [List.getElem_map, List.getElem_map, List.getElem_range, (List.getElem?_eq_some_iff.1 he).2, hv]
  rw [vertsOf_elem he] at hv
  show |offPlane m v0 v1 v2 (m.at0 v3)| / 6 = _
  rw [hv]
  show _ = |signedTetrahedron (m.at0 v0) (m.at0 v1) (m.at0 v2) (m.at0 v3)|
  unfold signedTetrahedron
  rw [abs_div, abs_of_pos (show (0 : ℝ) < 6 by norm_num), ← det_eq]
  rfl

end VG
