import Verif.Lemmas.UniformKids
import Verif.Lemmas.RefineEdges
import Verif.Lemmas.Descend
import Mathlib.Algebra.BigOperators.Group.Finset.Basic
import Mathlib.Algebra.BigOperators.Group.Finset.Sigma
import Mathlib.Algebra.BigOperators.Group.Finset.Piecewise

/-!
The number of edges of a uniformly refined mesh of triangles.
-/

namespace VG

section
variable {P : Type}

/-! ### Every element of the refined mesh belongs to a cell -/

theorem refEdges_elems (mark : Nat → Bool) (mid : Nat → P) : ∀ (order : List Nat) (s : Mesh P × (Nat → Option Nat)),
    (refEdges mark mid s order).1.elems = s.1.elems
  | [], s => rfl
  | e :: order, s => by
    simp only [refEdges]
    rw [refEdges_elems mark mid order]
    split <;> rfl

theorem refVerts_elems {src : Mesh P} : ∀ {vs : List Nat} {c : RefSt P} {q : RefSt P × List Nat}, refVerts src c vs = some q →
    q.1.out.mesh.elems = c.out.mesh.elems
  | [], c, q, h => by
    simp only [refVerts, Option.some.injEq] at h
    subst h; rfl
  | v :: vs, c, q, h => by
    simp only [refVerts] at h
    obtain ⟨q1, h1, h2⟩ := Option.bind_eq_some_iff.1 h
    obtain ⟨q2, h3, rfl⟩ := Option.map_eq_some_iff.1 h2
    have h4 := refVerts_elems h3
    refine Eq.trans h4 ?_
    unfold refVertex at h1
    split at h1
    · simp only [Option.some.injEq] at h1
      subst h1; rfl
    · obtain ⟨p, _, rfl⟩ := Option.map_eq_some_iff.1 h1
      rfl

theorem FromCells.congr {T : Topo} {m m' : Mesh P} (h : FromCells T m) (e : m'.elems = m.elems) : FromCells T m' := by
  unfold FromCells at h ⊢
  rw [e]; exact h

theorem refChildren_fromCells {T : Topo} {gs : List Nat} {t : Nat} {vs : List Nat} {es : List (Option Nat)} :
    ∀ {cells : List (List Nat)} {c c' : RefSt P}, FromCells T c.out.mesh → refChildren T gs t vs es c cells = some c' → FromCells T c'.out.mesh
  | [], c, c', h, hc => by
    simp only [refChildren, Option.some.injEq] at hc
    subst hc; exact h
  | ls :: cells, c, c', h, hc => by
    simp only [refChildren] at hc
    obtain ⟨c1, h1, h2⟩ := Option.bind_eq_some_iff.1 hc
    refine refChildren_fromCells ?_ h2
    unfold refChild at h1
    obtain ⟨hs, _, h3⟩ := Option.bind_eq_some_iff.1 h1
    obtain ⟨o, h4, rfl⟩ := Option.map_eq_some_iff.1 h3
    obtain ⟨o1, h5, h6⟩ := Option.bind_eq_some_iff.1 h4
    simp only [SegState.step] at h5
    obtain ⟨m', h7, rfl⟩ := Option.map_eq_some_iff.1 h5
    have := adds_mesh gs h6
    simp only [this]
    refine run_fromCells (ops := [.elem T.cellDim hs]) h ?_ (by simp only [Mesh.run, h7]; rfl)
    intro op hop
    simp only [List.mem_cons, List.not_mem_nil, or_false] at hop
    subst hop; rfl

theorem simpleRefine_fromCells {T : Topo} {src : SegState P} {kids : List (Option (Vtx P)) → (Nat → Bool) → Option (List (List Nat))}
    {mark : Nat → Bool} {ev : Nat → Option Nat} : ∀ {ts : List Nat} {c c' : RefSt P}, FromCells T c.out.mesh →
    simpleRefine T src kids mark ev c ts = some c' → FromCells T c'.out.mesh
  | [], c, c', h, hc => by
    simp only [simpleRefine, Option.some.injEq] at hc
    subst hc; exact h
  | t :: ts, c, c', h, hc => by
    simp only [simpleRefine] at hc
    obtain ⟨c1, h1, h2⟩ := Option.bind_eq_some_iff.1 hc
    refine simpleRefine_fromCells ?_ h2
    unfold refCell at h1
    obtain ⟨q, h3, h4⟩ := Option.bind_eq_some_iff.1 h1
    obtain ⟨cells, _, h5⟩ := Option.bind_eq_some_iff.1 h4
    exact refChildren_fromCells (h.congr (refVerts_elems h3)) h5

theorem refineMesh_fromCells {T : Topo} {src : SegState P} {kids : List (Option (Vtx P)) → (Nat → Bool) → Option (List (List Nat))}
    {mark : Nat → Bool} {mid : Nat → P} {order : List Nat} {r : RefSt P} (h : refineMesh T src kids mark mid order = some r) :
    FromCells T r.out.mesh := by
  unfold refineMesh at h
  refine simpleRefine_fromCells ?_ h
  intro j f hf
  simp only [refEdges_elems] at hf
  simp [Mesh.empty] at hf

theorem pick_mem {vs ix : List Nat} {x : Nat} (h : x ∈ pick vs ix) (hix : ∀ i ∈ ix, i < vs.length) : x ∈ vs := by
  unfold pick at h
  obtain ⟨i, hi, rfl⟩ := List.mem_map.1 h
  rw [List.getD_eq_getElem _ _ (hix i hi)]
  exact List.getElem_mem _

/-- An edge that goes back to a triangle is an edge of it. -/
theorem fromCells_edge {m : Mesh P} (hI : Inv (simplexTopo 2) m) (h : FromCells (simplexTopo 2) m) {f : Nat} (hf : f < m.count 1) :
    0 < numCells (simplexTopo 2) m f := by
  obtain ⟨e, he⟩ := elem_of_lt (by omega) hf
  obtain ⟨c, hc, hd⟩ := h 1 e (List.mem_of_getElem? he)
  have hcl : c.verts.length = 3 := (hI.verts 2 c hc).2.1.fixed
  obtain ⟨t, ht⟩ := List.getElem?_of_mem hc
  have htl : t < m.count 2 := by simpa [Mesh.count, simplexTopo] using (List.getElem?_eq_some_iff.1 ht).1
  have hsub : e.verts ⊆ c.verts := by
    generalize hv : e.verts = ws at hd
    have key : ∀ d vs j ws, Descends (simplexTopo 2) d vs j ws → d = 2 → j = 1 → vs.length = 3 → ws ⊆ vs := by
      intro d vs j ws hd h1 h2 h3
      cases hd with
      | refl => omega
      | step hl hix h' =>
        subst h1; subst h2
        rename_i k idxs ix
        have hl2 : k = 1 ∧ idxs = edgeIdx 3 := by
          simp [simplexTopo] at hl; exact hl
        obtain ⟨rfl, rfl⟩ := hl2
        have hp : ∀ i ∈ ix, i < vs.length := by
          rw [h3]
          have : ∀ ix ∈ edgeIdx 3, ∀ i ∈ ix, i < 3 := by decide
          exact this ix hix
        cases h' with
        | refl => exact fun x hx => pick_mem hx hp
        | step hl' hix' _ =>
          exfalso
          simp [simplexTopo] at hl'
    exact key _ _ _ _ hd rfl rfl hcl
  refine List.length_pos_of_mem (List.mem_filter.2 ⟨List.mem_range.2 htl, decide_eq_true ?_⟩)
  refine (line_mem hI htl hf).2 ?_
  rw [vertsOf_elem he, show m.vertsOf 2 t = c.verts from vertsOf_elem ht]
  exact hsub

/-! ### Sums -/

/-- The edges of all triangles. -/
theorem sum_numCells {m : Mesh P} (hI : Inv (simplexTopo 2) m) :
    ∑ f ∈ Finset.range (m.count 1), numCells (simplexTopo 2) m f = 3 * m.count 2 := by
  have h1 : ∀ f, numCells (simplexTopo 2) m f = ∑ t ∈ Finset.range (m.count 2), if f ∈ m.bndOf 2 t 1 then 1 else 0 := by
    intro f
    rw [← Finset.card_filter]
    rfl
  simp only [h1]
  rw [Finset.sum_comm]
  have h2 : ∀ t ∈ Finset.range (m.count 2), (∑ f ∈ Finset.range (m.count 1), if f ∈ m.bndOf 2 t 1 then 1 else 0) = 3 := by
    intro t ht
    have hT := triCell_of hI (Finset.mem_range.1 ht)
    rw [← Finset.card_filter]
    have : (Finset.range (m.count 1)).filter (fun f => f ∈ m.bndOf 2 t 1) = {triEdg m t 0, triEdg m t 1, triEdg m t 2} := by
      ext f
      rw [Finset.mem_filter, Finset.mem_range, hT.edges]
      simp only [List.mem_cons, List.not_mem_nil, or_false, Finset.mem_insert, Finset.mem_singleton]
      refine ⟨fun h => h.2, fun h => ⟨?_, h⟩⟩
      rcases h with rfl | rfl | rfl
      · exact hT.lt 0 (by omega)
      · exact hT.lt 1 (by omega)
      · exact hT.lt 2 (by omega)
    rw [this, Finset.card_eq_three]
    refine ⟨_, _, _, ?_, ?_, ?_, rfl⟩
    · exact fun e => absurd (hT.edge_inj (by omega) (by omega) e) (by omega)
    · exact fun e => absurd (hT.edge_inj (by omega) (by omega) e) (by omega)
    · exact fun e => absurd (hT.edge_inj (by omega) (by omega) e) (by omega)
  rw [Finset.sum_congr rfl h2]
  simp [Nat.mul_comm]

/-- A sum by origins. -/
theorem sum_origin {N E : Nat} (origin : Nat → Option Nat) (hE : ∀ f < N, ∀ e, origin f = some e → e < E) (g : Nat → Nat) :
    ∑ f ∈ Finset.range N, g f = ∑ f ∈ (Finset.range N).filter (fun f => origin f = none), g f +
      ∑ e ∈ Finset.range E, ∑ f ∈ (Finset.range N).filter (fun f => origin f = some e), g f := by
  rw [← Finset.sum_filter_add_sum_filter_not (Finset.range N) (fun f => origin f = none)]
  congr 1
  simp only [Finset.sum_filter]
  rw [Finset.sum_comm]
  refine Finset.sum_congr rfl (fun f hf => ?_)
  have hf := Finset.mem_range.1 hf
  cases ho : origin f with
  | none => simp
  | some e =>
    simp only [reduceCtorEq, not_false_eq_true, if_true, Option.some.injEq]
    rw [Finset.sum_ite_eq, if_pos (Finset.mem_range.2 (hE f hf e ho))]

open Classical in
theorem card_by_relation {α : Type} {S : Finset Nat} {I : Finset α} (on : Nat → α → Prop) (hex : ∀ f ∈ S, ∃ x ∈ I, on f x)
    (huniq : ∀ f ∈ S, ∀ x ∈ I, ∀ y ∈ I, on f x → on f y → x = y) :
    S.card = ∑ x ∈ I, (S.filter (fun f => on f x)).card := by
  have h1 : S.card = ∑ f ∈ S, ∑ x ∈ I, if on f x then 1 else 0 := by
    rw [Finset.card_eq_sum_ones]
    refine Finset.sum_congr rfl fun f hf => ?_
    obtain ⟨x, hx, hon⟩ := hex f hf
    rw [Finset.sum_eq_single x]
    · rw [if_pos hon]
    · intro y hy hne
      exact if_neg fun h => hne (huniq f hf y hy x hx h hon)
    · intro h; exact absurd hx h
  rw [Finset.sum_comm] at h1
  refine h1.trans (Finset.sum_congr rfl fun x _ => ?_)
  rw [Finset.card_filter]

theorem count_edges {N E T : Nat} (n' n : Nat → Nat) (origin : Nat → Option Nat) (hin : ∀ f < N, origin f = none → n' f = 2)
    (hon : ∀ f < N, ∀ e, origin f = some e → e < E ∧ n' f = n e)
    (htwo : ∀ e < E, ((Finset.range N).filter (fun f => origin f = some e)).card = 2)
    (hs' : ∑ f ∈ Finset.range N, n' f = 12 * T) (hs : ∑ e ∈ Finset.range E, n e = 3 * T) : N = 2 * E + 3 * T := by
  have h1 := sum_origin origin (fun f hf e he => (hon f hf e he).1) n'
  have h2 := sum_origin (N := N) (E := E) origin (fun f hf e he => (hon f hf e he).1) (fun _ => 1)
  have a1 : ∑ f ∈ (Finset.range N).filter (fun f => origin f = none), n' f = 2 * ((Finset.range N).filter (fun f => origin f = none)).card := by
    rw [Finset.sum_congr rfl (fun f hf => hin f (Finset.mem_range.1 (Finset.mem_filter.1 hf).1) (Finset.mem_filter.1 hf).2)]
    simp [Nat.mul_comm]
  have a2 : ∑ e ∈ Finset.range E, ∑ f ∈ (Finset.range N).filter (fun f => origin f = some e), n' f = 2 * ∑ e ∈ Finset.range E, n e := by
    rw [Finset.mul_sum]
    refine Finset.sum_congr rfl (fun e he => ?_)
    rw [Finset.sum_congr rfl (fun f hf => (hon f (Finset.mem_range.1 (Finset.mem_filter.1 hf).1) e (Finset.mem_filter.1 hf).2).2)]
    simp [htwo e (Finset.mem_range.1 he)]
  have a3 : ∑ e ∈ Finset.range E, ∑ f ∈ (Finset.range N).filter (fun f => origin f = some e), 1 = 2 * E := by
    rw [Finset.sum_congr rfl (fun e he => show _ = 2 by simp [htwo e (Finset.mem_range.1 he)])]
    simp [Nat.mul_comm]
  simp only [Finset.sum_const, Finset.card_range, smul_eq_mul, Nat.mul_one] at h2
  simp only [Finset.sum_const, smul_eq_mul, Nat.mul_one] at a3
  omega

end

section
variable {K : Type} [Field K] [LinearOrder K] {src : SegState (Nat → K)} {dist : (Nat → K) → (Nat → K) → K}
  {mark : Nat → Bool} {r : RefSt (Nat → K)} {C : Nat → List (List Nat)} {R : Nat → List (Option (Vtx (Nat → K)))} {w ev : Nat → Nat}

open Classical in
/-- On a marked edge of a cell there are two edges. -/
theorem Refined.edge_two (h : Refined 2 src (triKids dist) mark r C R w ev) (hI : Inv (simplexTopo 2) src.mesh) {E t : Nat}
    (ht : t < src.mesh.count 2) (hEt : E ∈ src.mesh.bndOf 2 t 1) (hm : mark E = true) :
    ((Finset.range (r.out.mesh.count 1)).filter (fun f => EdgeOn src r mark w ev f E)).card = 2 := by
  have hI' := (h.reached.inv (simplexTopo_wf 2) (simplexTopo_closed 2)).mesh
  have hT := triCell_of hI ht
  obtain ⟨p, hp3, rfl⟩ := hT.mem_edges.1 hEt
  obtain ⟨a1, a2, a3⟩ := triEnds_lt p hp3
  obtain ⟨c1, _⟩ := (h.tri_children ht).1 p hp3
  have hlt := hT.lt p hp3
  have hends := hT.ends p hp3
  have hne : w (triVtx src.mesh t (triEnds p).1) ≠ w (triVtx src.mesh t (triEnds p).2) := by
    intro e
    exact a3 (hT.inj _ a1 _ a2 (h.winj t ht _ (hT.mem_verts.2 ⟨_, a1, rfl⟩) t ht _ (hT.mem_verts.2 ⟨_, a2, rfl⟩) e))
  obtain ⟨s1, s2, _⟩ := c1 hm
  obtain ⟨f1, hf1, v1⟩ := h.edge_exists hI ht (by omega) s1
  obtain ⟨f2, hf2, v2⟩ := h.edge_exists hI ht (by omega) s2
  rw [labelVertex_lt a1, labelVertex_ge] at v1
  rw [labelVertex_lt a2, labelVertex_ge] at v2
  have hff : f1 ≠ f2 := by
    rintro rfl
    rcases perm_pair_iff.1 (v1.symm.trans v2) with ⟨e, _⟩ | ⟨e, _⟩
    · exact hne e
    · exact h.sep t ht _ (hT.mem_verts.2 ⟨_, a1, rfl⟩) _ hlt hm e
  rw [Finset.card_eq_two]
  refine ⟨f1, f2, hff, ?_⟩
  ext f
  rw [Finset.mem_filter, Finset.mem_range, Finset.mem_insert, Finset.mem_singleton]
  constructor
  · rintro ⟨hf, _, _, a, b, hab, ⟨_, hv⟩ | ⟨hm', _⟩⟩
    · rcases hT.end_of hp3 hab with ⟨rfl, _⟩ | ⟨rfl, _⟩
      · exact Or.inl (line_same hI' hf hf1 (hv.trans v1.symm))
      · exact Or.inr (line_same hI' hf hf2 (hv.trans v2.symm))
    · rw [hm] at hm'; cases hm'
  · rintro (rfl | rfl)
    · exact ⟨hf1, hlt, ⟨t, ht, hEt⟩, _, _, hends, Or.inl ⟨hm, v1⟩⟩
    · exact ⟨hf2, hlt, ⟨t, ht, hEt⟩, _, _, hends.trans (List.Perm.swap _ _ _), Or.inl ⟨hm, v2⟩⟩

/-- With all edges marked, the cells are always these. -/
theorem Refined.uni_cells (h : Refined 2 src (triKids dist) mark r C R w ev) (hI : Inv (simplexTopo 2) src.mesh)
    (hm : ∀ e < src.mesh.count 1, mark e = true) {t : Nat} (ht : t < src.mesh.count 2) :
    C t = [[0, 3, 4], [3, 1, 5], [4, 5, 2], [4, 3, 5]] := by
  have hT := triCell_of hI ht
  have h1 := h.made t ht
  have hq : ∀ q < 3, (fun i => mark ((src.mesh.bndOf 2 t 1).getD i 0)) q = true := fun q hq => hm _ (hT.lt q hq)
  unfold triKids refineTri at h1
  rw [hq 0 (by omega), hq 1 (by omega), hq 2 (by omega)] at h1
  simp only [List.filter_cons, if_true, List.filter_nil, List.length_cons, List.length_nil] at h1
  exact (Option.some.inj h1).symm

omit [Field K] [LinearOrder K] in
/-- The cell made for a list of labels. -/
theorem Refined.kid_at {n : Nat} {kids : List (Option (Vtx (Nat → K))) → (Nat → Bool) → Option (List (List Nat))}
    (h : Refined n src kids mark r C R w ev) {t : Nat} (ht : t < src.mesh.count n)
    {c : List Nat} (hc : c ∈ C t) : ∃ i < r.out.mesh.count n, r.out.mesh.vertsOf n i = c.map (labelVertex n src.mesh w ev t) := by
  have hmem : (t, c) ∈ r.kids := by
    rw [h.kids_eq, List.mem_flatMap]
    exact ⟨t, List.mem_range.2 ht, List.mem_map.2 ⟨c, hc, rfl⟩⟩
  obtain ⟨i, hi⟩ := List.getElem?_of_mem hmem
  exact ⟨i, by rw [h.count]; exact (List.getElem?_eq_some_iff.1 hi).1, h.verts i t c hi⟩

omit [Field K] [LinearOrder K] in
/-- The labels of a cell of the refined mesh. -/
theorem Refined.kid_of {n : Nat} {kids : List (Option (Vtx (Nat → K))) → (Nat → Bool) → Option (List (List Nat))}
    (h : Refined n src kids mark r C R w ev) {i : Nat} (hi : i < r.out.mesh.count n) :
    ∃ t c, r.kids[i]? = some (t, c) ∧ t < src.mesh.count n ∧ c ∈ C t ∧ r.out.mesh.vertsOf n i = c.map (labelVertex n src.mesh w ev t) := by
  have hki : i < r.kids.length := by rw [← h.count]; exact hi
  obtain ⟨t, c, hk⟩ : ∃ t c, r.kids[i]? = some (t, c) := ⟨_, _, List.getElem?_eq_getElem hki⟩
  have hmem := List.mem_of_getElem? hk
  rw [h.kids_eq] at hmem
  obtain ⟨t', ht', hm⟩ := List.mem_flatMap.1 hmem
  obtain ⟨c', hc, e⟩ := List.mem_map.1 hm
  simp only [Prod.mk.injEq] at e
  obtain ⟨rfl, rfl⟩ := e
  exact ⟨_, _, hk, List.mem_range.1 ht', hc, h.verts i _ _ hk⟩

theorem flatMap_nodup {C : Nat → List (List Nat)} : ∀ {ts : List Nat}, ts.Nodup → (∀ t ∈ ts, (C t).Nodup) →
    (ts.flatMap (fun t => (C t).map (fun ls => (t, ls)))).Nodup
  | [], _, _ => by simp
  | t :: ts, h, hC => by
    rw [List.flatMap_cons, List.nodup_append]
    rw [List.nodup_cons] at h
    refine ⟨(hC t (by simp)).map fun a b e => (Prod.mk.inj e).2, flatMap_nodup h.2 (fun t' ht' => hC t' (by simp [ht'])), ?_⟩
    rintro ⟨a, x⟩ ha ⟨b, y⟩ hb e
    obtain ⟨x', _, e1⟩ := List.mem_map.1 ha
    obtain ⟨t', ht', hb'⟩ := List.mem_flatMap.1 hb
    obtain ⟨y', _, e2⟩ := List.mem_map.1 hb'
    have e1 := (Prod.mk.inj e1).1
    have e2 := (Prod.mk.inj e2).1
    have e := (Prod.mk.inj e).1
    exact h.1 (by rw [e1, e, ← e2]; exact ht')

/-- No two cells of the refined mesh have the same vertices, if no two of the mesh do. -/
theorem Refined.uni_one (h : Refined 2 src (triKids dist) mark r C R w ev) (hI : Inv (simplexTopo 2) src.mesh)
    (hm : ∀ e < src.mesh.count 1, mark e = true)
    (hone : ∀ t < src.mesh.count 2, ∀ t' < src.mesh.count 2, src.mesh.vertsOf 2 t ⊆ src.mesh.vertsOf 2 t' → t' = t)
    {i j : Nat} (hi : i < r.out.mesh.count 2) (hj : j < r.out.mesh.count 2)
    (hv : (r.out.mesh.vertsOf 2 i).Perm (r.out.mesh.vertsOf 2 j)) : i = j := by
  obtain ⟨t, c, ki, ht, hc, vi⟩ := h.kid_of hi
  obtain ⟨t', c', kj, ht', hc', vj⟩ := h.kid_of hj
  rw [vi, vj] at hv
  have hT := triCell_of hI ht
  have hsh : ∀ l ∈ c, ∃ l' ∈ c', labelVertex 2 src.mesh w ev t' l' = labelVertex 2 src.mesh w ev t l := fun l hl =>
    List.mem_map.1 (hv.mem_iff.1 (List.mem_map.2 ⟨l, hl, rfl⟩))
  have hall : ∀ a < 3, ∃ l ∈ c, a = (triLabelEnds l).1 ∨ a = (triLabelEnds l).2 := by
    rw [h.uni_cells hI hm ht] at hc
    have : ∀ c ∈ [[0, 3, 4], [3, 1, 5], [4, 5, 2], [4, 3, 5]], ∀ a < 3, ∃ l ∈ c, a = (triLabelEnds l).1 ∨ a = (triLabelEnds l).2 := by decide
    exact this c hc
  have hsub : src.mesh.vertsOf 2 t ⊆ src.mesh.vertsOf 2 t' := by
    intro v hv
    obtain ⟨a, ha, rfl⟩ := hT.mem_verts.1 hv
    obtain ⟨l, hl, hal⟩ := hall a ha
    obtain ⟨l', hl', e⟩ := hsh l hl
    have := h.shared_label hI ht ht' hc hc' hl hl' e
    rcases hal with rfl | rfl
    · exact this.1
    · exact this.2
  have := hone t ht t' ht' hsub
  subst this
  have hcc : c ⊆ c' := by
    intro l hl
    obtain ⟨l', hl', e⟩ := hsh l hl
    rw [← h.tri_label_inj hI ht hc hc' hl hl' e]; exact hl'
  have hC := h.uni_cells hI hm ht
  have : c = c' := by
    rw [hC] at hc hc'
    have : ∀ c ∈ [[0, 3, 4], [3, 1, 5], [4, 5, 2], [4, 3, 5]], ∀ c' ∈ [[0, 3, 4], [3, 1, 5], [4, 5, 2], [4, 3, 5]], c ⊆ c' → c = c' := by decide
    exact this c hc c' hc' hcc
  subst this
  have hn : r.kids.Nodup := by
    rw [h.kids_eq]
    refine flatMap_nodup List.nodup_range fun t ht => ?_
    rw [h.uni_cells hI hm (List.mem_range.1 ht)]
    decide
  obtain ⟨hi', ei⟩ := List.getElem?_eq_some_iff.1 ki
  obtain ⟨hj', ej⟩ := List.getElem?_eq_some_iff.1 kj
  exact (List.Nodup.getElem_inj_iff hn).1 (ei.trans ej.symm)

/-- Every vertex of the refined mesh is in a cell. -/
theorem Refined.uni_verts (h : Refined 2 src (triKids dist) mark r C R w ev) (hI : Inv (simplexTopo 2) src.mesh)
    (hm : ∀ e < src.mesh.count 1, mark e = true) (hedge : ∀ e < src.mesh.count 1, ∃ t < src.mesh.count 2, e ∈ src.mesh.bndOf 2 t 1)
    {used : List Nat} (hn : used.Nodup) (hused : ∀ v ∈ used, ∃ t < src.mesh.count 2, v ∈ src.mesh.vertsOf 2 t)
    (hlen : r.out.mesh.verts.length = used.length + src.mesh.count 1) {v : Nat} (hv : v < r.out.mesh.verts.length) :
    ∃ i < r.out.mesh.count 2, v ∈ r.out.mesh.vertsOf 2 i := by
  have hI' := (h.reached.inv (simplexTopo_wf 2) (simplexTopo_closed 2)).mesh
  have hlab : ∀ t < src.mesh.count 2, ∀ l < 6, ∃ i < r.out.mesh.count 2, labelVertex 2 src.mesh w ev t l ∈ r.out.mesh.vertsOf 2 i := by
    intro t ht l hl
    have : ∀ l < 6, ∃ c ∈ [[0, 3, 4], [3, 1, 5], [4, 5, 2], [4, 3, 5]], l ∈ c := by decide
    obtain ⟨c, hc, hlc⟩ := this l hl
    rw [← h.uni_cells hI hm ht] at hc
    obtain ⟨i, hi, hvi⟩ := h.kid_at ht hc
    exact ⟨i, hi, by rw [hvi]; exact List.mem_map.2 ⟨l, hlc, rfl⟩⟩
  have hw : ∀ v ∈ used, ∃ i < r.out.mesh.count 2, w v ∈ r.out.mesh.vertsOf 2 i := by
    intro v hv
    obtain ⟨t, ht, hvt⟩ := hused v hv
    obtain ⟨a, ha, rfl⟩ := (triCell_of hI ht).mem_verts.1 hvt
    obtain ⟨i, hi, h1⟩ := hlab t ht a (by omega)
    rw [labelVertex_lt ha] at h1
    exact ⟨i, hi, h1⟩
  have he : ∀ e < src.mesh.count 1, ∃ i < r.out.mesh.count 2, ev e ∈ r.out.mesh.vertsOf 2 i := by
    intro e he
    obtain ⟨t, ht, het⟩ := hedge e he
    obtain ⟨p, hp, rfl⟩ := (triCell_of hI ht).mem_edges.1 het
    obtain ⟨i, hi, h1⟩ := hlab t ht (3 + p) (by omega)
    rw [labelVertex_ge] at h1
    exact ⟨i, hi, h1⟩
  have hnod : (used.map w ++ (List.range (src.mesh.count 1)).map ev).Nodup := by
    rw [List.nodup_append]
    refine ⟨?_, ?_, ?_⟩
    · refine hn.map_on fun a ha b hb e => ?_
      obtain ⟨t, ht, hat⟩ := hused a ha
      obtain ⟨t', ht', hbt⟩ := hused b hb
      exact h.winj t ht a hat t' ht' b hbt e
    · refine List.nodup_range.map_on fun a ha b hb e => ?_
      have ha := List.mem_range.1 ha
      have hb := List.mem_range.1 hb
      exact h.einj a ha b hb (hm a ha) (hm b hb) e
    · intro x hx y hy e
      obtain ⟨a, ha, rfl⟩ := List.mem_map.1 hx
      obtain ⟨b, hb, rfl⟩ := List.mem_map.1 hy
      have hb := List.mem_range.1 hb
      obtain ⟨t, ht, hat⟩ := hused a ha
      exact h.sep t ht a hat b hb (hm b hb) e
  have hin : ∀ x ∈ used.map w ++ (List.range (src.mesh.count 1)).map ev, ∃ i < r.out.mesh.count 2, x ∈ r.out.mesh.vertsOf 2 i := by
    intro x hx
    rcases List.mem_append.1 hx with hx | hx
    · obtain ⟨a, ha, rfl⟩ := List.mem_map.1 hx
      exact hw a ha
    · obtain ⟨b, hb, rfl⟩ := List.mem_map.1 hx
      exact he b (List.mem_range.1 hb)
  have hsub : used.map w ++ (List.range (src.mesh.count 1)).map ev ⊆ List.range r.out.mesh.verts.length := by
    intro x hx
    obtain ⟨i, hi, hxi⟩ := hin x hx
    exact List.mem_range.2 ((simplex_verts (by omega) hI' hi).2.2 x hxi)
  have hp := perm_of_subset hnod hsub (by simp [hlen])
  exact hin v (hp.mem_iff.2 (List.mem_range.2 hv))

/-- In place of each edge of only one cell there are two. -/
theorem Refined.boundary_edges (h : Refined 2 src (triKids dist) mark r C R w ev) (hI : Inv (simplexTopo 2) src.mesh)
    (hm : ∀ e < src.mesh.count 1, mark e = true)
    (hone : ∀ t < src.mesh.count 2, ∀ t' < src.mesh.count 2, src.mesh.vertsOf 2 t ⊆ src.mesh.vertsOf 2 t' → t' = t)
    (hedge : ∀ e < src.mesh.count 1, ∃ t < src.mesh.count 2, e ∈ src.mesh.bndOf 2 t 1)
    (hpos : ∀ f < r.out.mesh.count 1, ∃ i < r.out.mesh.count 2, f ∈ r.out.mesh.bndOf 2 i 1) :
    ((Finset.range (r.out.mesh.count 1)).filter (fun f => numCells (simplexTopo 2) r.out.mesh f = 1)).card =
      2 * ((Finset.range (src.mesh.count 1)).filter (fun f => numCells (simplexTopo 2) src.mesh f = 1)).card := by
  classical
  rw [card_by_relation (I := (Finset.range (src.mesh.count 1)).filter (fun F => numCells (simplexTopo 2) src.mesh F = 1))
    (EdgeOn src r mark w ev) ?_ ?_]
  · have : ∀ E ∈ (Finset.range (src.mesh.count 1)).filter (fun F => numCells (simplexTopo 2) src.mesh F = 1),
        (((Finset.range (r.out.mesh.count 1)).filter (fun f => numCells (simplexTopo 2) r.out.mesh f = 1)).filter
          (fun f => EdgeOn src r mark w ev f E)).card = 2 := by
      intro E hE
      rw [Finset.mem_filter, Finset.mem_range] at hE
      obtain ⟨t, ht, hEt⟩ := hedge E hE.1
      rw [Finset.filter_filter]
      refine Eq.trans (congrArg Finset.card (Finset.filter_congr fun f hf => ?_)) (h.edge_two hI ht hEt (hm E hE.1))
      exact ⟨fun h => h.2, fun hin => ⟨by rw [h.edge_uses hI (Finset.mem_range.1 hf) hin, hE.2], hin⟩⟩
    rw [Finset.sum_congr rfl this]
    simp [Nat.mul_comm]
  · intro f hf
    rw [Finset.mem_filter, Finset.mem_range] at hf
    obtain ⟨i, hi, hfi⟩ := hpos f hf.1
    rcases h.edge_cases hI hone hf.1 hi hfi with ⟨E, hE⟩ | h2
    · refine ⟨E, Finset.mem_filter.2 ⟨Finset.mem_range.2 hE.1, ?_⟩, hE⟩
      rw [← h.edge_uses hI hf.1 hE]; exact hf.2
    · rw [hf.2] at h2; cases h2
  · intro f _ F hF F' hF' h1 h2
    exact h.edgeOn_unique hI h1 h2

end

end VG
