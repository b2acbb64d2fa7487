import Verif.Lemmas.VoronoiMesh

/-!
The triangles of a mesh, one after the other.
-/

namespace VG

/-- Every obtuse angle faces another triangle. -/
def Covered (st : MState (Fin 2 → ℝ)) (c v0 v1 v2 e0 e1 e2 : Nat) : Prop :=
  (dp (st.mesh.at0 v2) (st.mesh.at0 v0) (st.mesh.at0 v1) < 0 → Neighbour st c e0)
  ∧ (dp (st.mesh.at0 v1) (st.mesh.at0 v0) (st.mesh.at0 v2) < 0 → Neighbour st c e1)
  ∧ (dp (st.mesh.at0 v0) (st.mesh.at0 v1) (st.mesh.at0 v2) < 0 → Neighbour st c e2)

theorem abs_perm_all (A B C : Fin 2 → ℝ) : |tw C A B| = |tw A B C| ∧ |tw B A C| = |tw A B C| := by
  refine ⟨by rw [tw_rot], by rw [tw_swap, abs_neg, ← tw_rot]⟩

theorem cell_spec {st : MState (Fin 2 → ℝ)} {c v0 v1 v2 e0 e1 e2 : Nat} (h : TriAt st.mesh c v0 v1 v2 e0 e1 e2)
    (hD : tw (st.mesh.at0 v0) (st.mesh.at0 v1) (st.mesh.at0 v2) ≠ 0) :
    ∃ st' ws, voroTriangle geo2 st c = some (st', ws) ∧ (st' = st ∨ ∃ e, st' = (st.coboundary 1 2 e).1)
      ∧ CellWrites st.mesh ws (Covered st c v0 v1 v2 e0 e1 e2) (cellAmt st.mesh.at0 v0 v1 v2 e0 e1 e2)
        (|tw (st.mesh.at0 v0) (st.mesh.at0 v1) (st.mesh.at0 v2)| / 2) := by
  unfold voroTriangle
  simp only [h.verts, h.edges]
  set A := st.mesh.at0 v0 with hA
  set B := st.mesh.at0 v1 with hB
  set C := st.mesh.at0 v2 with hC
  have hsum := cellAmt_sum h hD
  rw [← hA, ← hB, ← hC] at hsum
  rcases crossedEdge_spec A B C hD with ⟨hx, d0, d1, d2⟩ | ⟨hx, dn⟩ | ⟨hx, dn⟩ | ⟨hx, dn⟩
  · refine ⟨st, [e0, e1, e2].flatMap (voroInside geo2 st.mesh (circumTriangle2 A B C) c), ?_, Or.inl rfl, ?_⟩
    · have : geo2.circ A B C = circumTriangle2 A B C := rfl
      rw [this, hx]
    · have key : ∀ q s,
          (([e0, e1, e2].flatMap (voroInside geo2 st.mesh (circumTriangle2 A B C) c)).map (VoroWrite.addAmt q s)).sum
            = cellAmt st.mesh.at0 v0 v1 v2 e0 e1 e2 q s
          ∧ (([e0, e1, e2].flatMap (voroInside geo2 st.mesh (circumTriangle2 A B C) c)).map (VoroWrite.partAmt q s)).sum
            = cellAmt st.mesh.at0 v0 v1 v2 e0 e1 e2 q s := by
        intro q s
        have i0 := inside_amt (t := c) h.at0 hD d2 q s
        have i1 := inside_amt (t := c) (c := v1) h.at1 (by rw [tw_swap]; simpa using hD) d1 q s
        have i2 := inside_amt (t := c) (c := v0) h.at2 (by rw [← tw_rot]; exact hD) d0 q s
        rw [← hA, ← hC, ← hB, ← circ_swap] at i1
        rw [← hA, ← hC, ← hB, ← circ_perm1] at i2
        rw [three_edges, three_edges, cellAmt, i0.1, i1.1, i2.1, i0.2, i1.2, i2.2]
        exact ⟨rfl, rfl⟩
      refine ⟨?_, fun _ => key, fun q s _ => (key q s).1.trans (key q s).2.symm, ?_⟩
      · intro w hw
        obtain ⟨e, _, hw⟩ := List.mem_flatMap.1 hw
        exact inside_plain w hw
      · rw [← hsum]
        exact Finset.sum_congr rfl fun s _ => (key _ s).1
  · -- the angle at `v2` is obtuse
    have hg : geo2.circ A B C = circumTriangle2 A B C := rfl
    rw [hg, hx]
    refine ⟨_, _, rfl, Or.inr ⟨e0, rfl⟩, ?_⟩
    have hp : [e0, e1, e2].Perm [e1, e2, e0] := by
      exact (List.perm_append_comm (l₁ := [e0]) (l₂ := [e1, e2]))
    have hD' : tw C A B ≠ 0 := by rw [tw_rot]; exact hD
    obtain ⟨o1, o2, o3, o4⟩ := obtuse_cell (t := c) h.at1.symm h.at2.symm h.at0 h.n02.symm h.n12.symm hD' dn h.m01 h.m02
      h.l2 h.l0 h.l1 (circumTriangle2 A B C) (by rw [circ_perm1 C]) [e0, e1, e2] hp
      ((st.coboundary 1 2 e0).2.find? (fun t => decide (st.mesh.eid 2 t ≠ st.mesh.eid 2 c)))
    rw [← hA, ← hB, ← hC, (abs_perm_all A B C).1] at o4
    have hfull : Neighbour st c e0 → _ := fun hn => o2 (by
      obtain ⟨t, ht⟩ := neighbour_find.1 hn
      rw [ht]; simp)
    have hamt : ∀ q s, edgeAmt st.mesh.at0 e1 v2 v0 v1 q s + edgeAmt st.mesh.at0 e2 v2 v1 v0 q s
        + edgeAmt st.mesh.at0 e0 v0 v1 v2 q s = cellAmt st.mesh.at0 v0 v1 v2 e0 e1 e2 q s := by
      intro q s
      rw [cellAmt, edgeAmt_swap _ e1 v2, edgeAmt_swap _ e2 v2]; ring
    refine ⟨o1, fun hc q s => ?_, o3, ?_⟩
    · have := hfull (hc.1 dn) q s
      rw [hamt] at this; exact this
    · by_cases hn : Neighbour st c e0
      · rw [← hsum]
        refine Finset.sum_congr rfl fun s _ => ?_
        have := (hfull hn .vbox s).1
        rw [hamt] at this; exact this
      · exact o4 (neighbour_find.2 hn)
  · -- the angle at `v1`
    have hg : geo2.circ A B C = circumTriangle2 A B C := rfl
    rw [hg, hx]
    refine ⟨_, _, rfl, Or.inr ⟨e1, rfl⟩, ?_⟩
    have hp : [e0, e1, e2].Perm [e0, e2, e1] := (List.Perm.swap e2 e1 []).cons e0
    obtain ⟨o1, o2, o3, o4⟩ := obtuse_cell (t := c) h.at0.symm h.at2 h.at1 h.n01.symm h.n12 (tw_ne_swap hD) dn h.m01.symm h.m12
      h.l1 h.l0 h.l2 (circumTriangle2 A B C) (circ_swap12 A B C).symm [e0, e1, e2] hp
      ((st.coboundary 1 2 e1).2.find? (fun t => decide (st.mesh.eid 2 t ≠ st.mesh.eid 2 c)))
    rw [← hA, ← hB, ← hC, (abs_perm_all A B C).2] at o4
    have hfull : Neighbour st c e1 → _ := fun hn => o2 (by
      obtain ⟨t, ht⟩ := neighbour_find.1 hn
      rw [ht]; simp)
    have hamt : ∀ q s, edgeAmt st.mesh.at0 e0 v1 v0 v2 q s + edgeAmt st.mesh.at0 e2 v1 v2 v0 q s
        + edgeAmt st.mesh.at0 e1 v0 v2 v1 q s = cellAmt st.mesh.at0 v0 v1 v2 e0 e1 e2 q s := by
      intro q s
      rw [cellAmt, edgeAmt_swap _ e0 v1]; ring
    refine ⟨o1, fun hc q s => ?_, o3, ?_⟩
    · have := hfull (hc.2.1 dn) q s
      rw [hamt] at this; exact this
    · by_cases hn : Neighbour st c e1
      · rw [← hsum]
        refine Finset.sum_congr rfl fun s _ => ?_
        have := (hfull hn .vbox s).1
        rw [hamt] at this; exact this
      · exact o4 (neighbour_find.2 hn)
  · -- the angle at `v0`
    have hg : geo2.circ A B C = circumTriangle2 A B C := rfl
    rw [hg, hx]
    refine ⟨_, _, rfl, Or.inr ⟨e2, rfl⟩, ?_⟩
    obtain ⟨o1, o2, o3, o4⟩ := obtuse_cell (t := c) h.at0 h.at1 h.at2 h.n01 h.n02 hD dn h.m02.symm h.m12.symm
      h.l0 h.l1 h.l2 (circumTriangle2 A B C) rfl [e0, e1, e2] (List.Perm.refl _)
      ((st.coboundary 1 2 e2).2.find? (fun t => decide (st.mesh.eid 2 t ≠ st.mesh.eid 2 c)))
    have hfull : Neighbour st c e2 → _ := fun hn => o2 (by
      obtain ⟨t, ht⟩ := neighbour_find.1 hn
      rw [ht]; simp)
    refine ⟨o1, fun hc q s => ?_, o3, ?_⟩
    · exact hfull (hc.2.2 dn) q s
    · by_cases hn : Neighbour st c e2
      · rw [← hsum]
        refine Finset.sum_congr rfl fun s _ => ?_
        exact (hfull hn .vbox s).1
      · exact o4 (neighbour_find.2 hn)

/-! ### Triangles of a mesh -/

theorem ends_of {P : Type} {m : Mesh P} {s a b : Nat} {f : Elem} (hf : (m.elems 1)[s]? = some f) (hp : f.verts.Perm [a, b]) :
    EndsAre m s a b := by
  have hv : m.vertsOf 1 s = f.verts := by simp [Mesh.vertsOf, hf]
  unfold EndsAre Mesh.ends
  rw [hv]
  have hlen : f.verts.length = 2 := hp.length_eq
  match hfv : f.verts, hlen with
  | [x, y], _ =>
    rw [hfv] at hp
    have hx : x ∈ [a, b] := hp.subset (by simp)
    simp only [List.mem_cons, List.not_mem_nil, or_false] at hx
    rcases hx with rfl | rfl
    · have := (List.perm_cons x).1 hp
      left; simpa using this
    · have := (List.perm_cons x).1 (hp.trans (List.Perm.swap _ _ _))
      right; simpa using this

theorem triAt_of {P : Type} {m : Mesh P} (hI : Inv (simplexTopo 2) m) {c : Nat} {e : Elem} (he : (m.elems 2)[c]? = some e) :
    ∃ v0 v1 v2 e0 e1 e2, e.verts = [v0, v1, v2] ∧ TriAt m c v0 v1 v2 e0 e1 e2 := by
  have hem := List.mem_of_getElem? he
  obtain ⟨hn, hl, hlt⟩ := hI.verts 2 e hem
  have hnv : (simplexTopo 2).nv 2 = 3 := by decide
  rw [Topo.Arity, hnv] at hl
  replace hl := hl.resolve_right (fun h => by cases h.1)
  match hv : e.verts, hl with
  | [v0, v1, v2], _ =>
    rw [hv] at hn hlt
    have hlay : (1, [[0, 1], [0, 2], [1, 2]]) ∈ (simplexTopo 2).layers 2 e.verts.length := by rw [hv]; simp only [List.length_cons, List.length_nil]; decide
    obtain ⟨refs, h1, h2⟩ := (hI.bnd 2 e hem).lookup ((simplexTopo_wf 2).once 2 _) hlay
    have hbs : m.bndOf 2 c 1 = refs.map (·.1) := by
      unfold Mesh.bndOf; rw [he]; simp only [Nat.one_ne_zero, if_false]; unfold Elem.bndSlots; rw [h1]
    have hnd := bndOf_nodup (simplexTopo_wf 2) hI 2 c 1
    rw [hbs] at hnd
    rw [hv] at h2
    cases h2 with | cons a0 h2 =>
    cases h2 with | cons a1 h2 =>
    cases h2 with | cons a2 h2 =>
    cases h2
    obtain ⟨f0, g0, p0, _⟩ := a0
    obtain ⟨f1, g1, p1, _⟩ := a1
    obtain ⟨f2, g2, p2, _⟩ := a2
    simp only [List.map_cons, List.map_nil, List.nodup_cons, List.mem_cons, List.not_mem_nil, or_false, not_or,
      not_false_eq_true, List.nodup_nil, and_true] at hnd hn hlt
    refine ⟨v0, v1, v2, _, _, _, rfl, ⟨?_, hbs, hn.1.1, hn.1.2, hn.2, hnd.1.1, hnd.1.2, hnd.2, ends_of g0 p0, ends_of g1 p1,
      ends_of g2 p2, hlt v0 (Or.inl rfl), hlt v1 (Or.inr (Or.inl rfl)), hlt v2 (Or.inr (Or.inr rfl))⟩⟩
    simp [Mesh.vertsOf, he, hv]

/-- What is known while the loop runs. -/
structure LoopInv (m : Mesh (Fin 2 → ℝ)) (st : MState (Fin 2 → ℝ)) : Prop where
  same : st.mesh = m
  cache : CacheInv (simplexTopo 2) st

theorem neighbour_iff {m : Mesh (Fin 2 → ℝ)} {st : MState (Fin 2 → ℝ)} (hI : Inv (simplexTopo 2) m) (hu : UniqueVids m)
    (h : LoopInv m st) {c e : Nat} (hc : c < m.count 2) (he : e < m.count 1) :
    Neighbour st c e ↔ ∃ t, t ≠ c ∧ e ∈ m.bndOf 2 t 1 := by
  obtain ⟨rfl, hcache⟩ := h
  have hf := (refreshCob_spec (simplexTopo_wf 2) hI hu hcache 1 2).2 e he
  have e1 : (st.coboundary 1 2 e).2 = (List.range (st.mesh.count 2)).filter (fun t => e ∈ st.mesh.bndOf 2 t 1) := by
    unfold MState.coboundary
    simp only
    rw [refreshCob_mesh, hf]
  unfold Neighbour
  rw [e1]
  constructor
  · rintro ⟨t, ht, hne⟩
    rw [List.mem_filter] at ht
    exact ⟨t, fun h => hne (by rw [h]), by simpa using ht.2⟩
  · rintro ⟨t, hne, ht⟩
    have hlt : t < st.mesh.count 2 :=
      onBoundary_lt (by omega) ((mem_bndOf_iff (simplexTopo_wf 2) hI (by show 2 ≤ 2; omega)).1 ht)
    refine ⟨t, List.mem_filter.2 ⟨List.mem_range.2 hlt, by simpa using ht⟩, fun h => hne ?_⟩
    exact eid_inj hI hu hlt hc h

end VG
