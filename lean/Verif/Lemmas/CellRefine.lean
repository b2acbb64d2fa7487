import Verif.Lemmas.UniformKids
import Verif.Model.CellRefine
import Verif.Props.RefineMarks

/-!
Refinement of marked cells: blocks of children, number of vertices.
-/

namespace VG

/-- Where the block of `t` starts. -/
def blockStart {β : Type} (f : Nat → List β) (t : Nat) : Nat := ((List.range t).flatMap f).length

theorem blockStart_succ {β : Type} (f : Nat → List β) (t : Nat) : blockStart f (t + 1) = blockStart f t + (f t).length := by
  unfold blockStart
  rw [List.range_succ, List.flatMap_append, List.length_append]
  simp

theorem flatMap_blocks {β : Type} (f : Nat → List β) : ∀ (N t : Nat), t < N → ∀ j < (f t).length,
    ((List.range N).flatMap f)[blockStart f t + j]? = (f t)[j]?
  | 0, t, ht, _, _ => absurd ht (by omega)
  | N + 1, t, ht, j, hj => by
    rw [List.range_succ, List.flatMap_append]
    by_cases h : t < N
    · have ih := flatMap_blocks f N t h j hj
      have hlt : blockStart f t + j < ((List.range N).flatMap f).length := by
        by_contra hn
        rw [List.getElem?_eq_none (by omega), List.getElem?_eq_getElem hj] at ih
        cases ih
      rw [List.getElem?_append_left hlt, ih]
    · obtain rfl : t = N := by omega
      unfold blockStart
      rw [List.getElem?_append_right (by omega), Nat.add_sub_cancel_left]
      simp

section
variable {K : Type} [Field K]

/-- The number of vertices of a refined mesh: those of the cells and one for each marked edge. -/
theorem refine_vertices {n : Nat} (hn : 2 ≤ n) {src : SegState (Nat → K)} (hsrc : SegReached (simplexTopo n) src)
    {kids : List (Option (Vtx (Nat → K))) → (Nat → Bool) → Option (List (List Nat))}
    {Q : List (Option (Vtx (Nat → K))) → (Nat → Bool) → List (List Nat) → Prop}
    (hk : KidsOK Q (n + 1) (edgeIdx (n + 1)).length kids)
    (mark : Nat → Bool) {order : List Nat} (hord : order.Nodup) (hall : ∀ e < src.mesh.count 1, e ∈ order) {r : RefSt (Nat → K)}
    (e1 : refineMesh (simplexTopo n) src kids mark (edgeMid src.mesh) order = some r) :
    ∃ used : List Nat, used.Nodup ∧ (∀ v, v ∈ used ↔ ∃ t < src.mesh.count n, v ∈ src.mesh.vertsOf n t) ∧
      r.out.mesh.verts.length = used.length + (order.filter mark).length := by
  have hI := hsrc.inv (simplexTopo_wf n) (simplexTopo_closed n)
  have hu : UniqueVids src.mesh := hsrc.choose_spec.2.2
  obtain ⟨r', _, _, e2, _, _, _, _, f1, _⟩ := refineMesh_spec (simplexTopo_wf n) (simplexTopo_closed n) (show 1 ≤ n by omega) hsrc
    ⟨rfl, rfl⟩ (fun t ht => (simplex_edge hn hI.mesh ht).1) hk mark (edgeMid src.mesh) hord hall
  rw [e1] at e2
  have := Option.some.inj e2
  subst this
  have hlen : (refEdges mark (edgeMid src.mesh) (Mesh.empty, fun _ => none) order).1.verts.length = (order.filter mark).length := by
    rw [refEdges_length]
    simp [Mesh.empty]
  have hcnt := simpleRefine_cnt (S := fun v => ∃ t < src.mesh.count n, v ∈ src.mesh.vertsOf n t) (B := (order.filter mark).length)
    (fun m m' d hs h => by
      simp only [Mesh.step] at h
      split at h
      · simp only [Option.some.injEq] at h
        subst h
        rw [Mesh.makeElem, (insertN_verts _ d d m hs).1]
      · cases h) (c := ⟨_, [], []⟩) ⟨by simpa using hlen, by simp, by simp⟩
    (fun t ht v hv => ⟨t, List.mem_range.1 ht, hv⟩) e1
  classical
  refine ⟨(List.range src.mesh.verts.length).filter (fun v => decide (∃ t < src.mesh.count n, v ∈ src.mesh.vertsOf n t)),
    List.nodup_range.filter _, ?_, ?_⟩
  · intro v
    rw [List.mem_filter, decide_eq_true_eq, List.mem_range]
    exact ⟨fun h => h.2, fun ⟨t, ht, hv⟩ => ⟨((f1 t ht).1 v hv).1, t, ht, hv⟩⟩
  · rw [hcnt.len, Nat.add_comm]
    congr 1
    have hp : (r.map.map (·.1)).Perm (((List.range src.mesh.verts.length).filter
        (fun v => decide (∃ t < src.mesh.count n, v ∈ src.mesh.vertsOf n t))).map src.mesh.vid) := by
      rw [List.perm_ext_iff_of_nodup hcnt.nodup]
      · intro k
        constructor
        · intro hk
          obtain ⟨e, he, rfl⟩ := List.mem_map.1 hk
          obtain ⟨v, ⟨t, ht, hv⟩, hev⟩ := hcnt.keys e he
          refine List.mem_map.2 ⟨v, List.mem_filter.2 ⟨List.mem_range.2 ((f1 t ht).1 v hv).1, ?_⟩, hev.symm⟩
          exact decide_eq_true ⟨t, ht, hv⟩
        · intro hk
          obtain ⟨v, hv, rfl⟩ := List.mem_map.1 hk
          obtain ⟨t, ht, hvt⟩ := of_decide_eq_true (List.mem_filter.1 hv).2
          obtain ⟨s, hs⟩ := ((f1 t ht).1 v hvt).2
          unfold RefSt.look at hs
          obtain ⟨e, he, _⟩ := Option.map_eq_some_iff.1 hs
          refine List.mem_map.2 ⟨e, List.mem_of_find?_eq_some he, ?_⟩
          simpa using List.find?_some he
      · refine List.Nodup.map_on (fun a ha b hb h => ?_) (List.nodup_range.filter _)
        exact vid_inj hu (List.mem_range.1 (List.mem_filter.1 ha).1) (List.mem_range.1 (List.mem_filter.1 hb).1) h
    have := hp.length_eq
    simpa using this

/-- The middle of an edge of a cell. -/
theorem edge_ends {n : Nat} (hn : 2 ≤ n) {m : Mesh (Nat → K)} (hI : Inv (simplexTopo n) m) {t : Nat} (ht : t < m.count n)
    {p e : Nat} (he : (m.bndOf n t 1)[p]? = some e) :
    ∃ a b, cellPoints m 1 e = [a, b] ∧ edgeMid m e = fun k => (a k + b k) / 2 := by
  obtain ⟨i, j, f, _, hij, hj, h2, h3⟩ := (simplex_edge hn hI ht).2 p e he
  have hvo : m.vertsOf 1 e = f.verts := by simp [Mesh.vertsOf, h2]
  obtain ⟨_, _, hval⟩ := hI.verts 1 f (List.mem_of_getElem? h2)
  have hl : f.verts.length = 2 := by rw [h3.length_eq]; rfl
  match hf : f.verts, hl with
  | [x, y], _ =>
    rw [hf] at hval hvo
    have hx := hval x (by simp)
    have hy := hval y (by simp)
    have px : m.ptOf x = some m.verts[x].pt := by simp [Mesh.ptOf, hx]
    have py : m.ptOf y = some m.verts[y].pt := by simp [Mesh.ptOf, hy]
    refine ⟨m.verts[x].pt, m.verts[y].pt, ?_, ?_⟩
    · simp [cellPoints, hvo, px, py]
    · unfold edgeMid
      rw [hvo]
      simp only [List.map_cons, List.map_nil, px, py]

end

theorem TriCase.number {m : Nat → Bool} {cells : List (List Nat)} (h : TriCase m cells) :
    cells.length = 1 + ((List.range 3).filter m).length := by
  have hr : List.range 3 = [0, 1, 2] := rfl
  rw [hr]
  cases h <;> (rename_i hm; simp only [List.cons.injEq, and_true] at hm; obtain ⟨h0, h1, h2⟩ := hm) <;> simp [h0, h1, h2]

theorem TriCase.unmarked {m : Nat → Bool} {cells : List (List Nat)} (h : TriCase m cells) (h0 : m 0 = false) (h1 : m 1 = false)
    (h2 : m 2 = false) : cells = [[0, 1, 2]] := by
  cases h <;> first
    | rfl
    | (rename_i hm; simp [h0, h1, h2] at hm)

section
variable {K : Type} [Field K] [LinearOrder K] [IsStrictOrderedRing K]

/-- All that is known of the children of a triangle. -/
theorem triKids_all {P : Type} (dist : P → P → K) :
    KidsOK (fun _ m cells => TriParts (K := K) cells ∧ ((∀ q < 3, m q = true) → cells = [[0, 3, 4], [3, 1, 5], [4, 5, 2], [4, 3, 5]]) ∧
      cells.length = 1 + ((List.range 3).filter m).length ∧ ((∀ q < 3, m q = false) → cells = [[0, 1, 2]]) ∧
      ∀ c ∈ cells, ∀ l ∈ c, l < 3 ∨ (3 ≤ l ∧ l < 3 + 3 ∧ m (l - 3) = true)) 3 3 (triKids dist) := by
  intro ls m hx hinj
  obtain ⟨cells, h1, h2, h3⟩ := triKids_ok dist ls m hx hinj
  obtain ⟨cells', e1, h4, _⟩ := triKids_uni dist ls m hx hinj
  obtain ⟨cells'', e2, h5⟩ := refineTri_case (vtxDist dist ls) m
  have e3 : triKids dist ls m = some cells'' := e2
  rw [h1] at e1 e3
  have := Option.some.inj e1
  subst this
  have := Option.some.inj e3
  subst this
  refine ⟨cells, h1, ⟨h2, h4, ?_, fun hm => ?_, fun c hc => (h3 c hc).2.2⟩, h3⟩
  · exact h5.number
  · exact h5.unmarked (hm 0 (by omega)) (hm 1 (by omega)) (hm 2 (by omega))

set_option maxRecDepth 10000 in
theorem tetTree_none : (tetTree (cornerFn [false, false, false, false, false, false])).check
    (fun _ cells => decide (cells = [[0, 1, 2, 3]])) [] [] = true := by
  decide +kernel

/-- All that is known of the children of a tetrahedron. -/
theorem tetKids_all {P : Type} {dist : P → P → K} (hd : ∀ a b, dist a b = dist b a) :
    KidsOK (fun _ m cells => TetParts (K := K) cells ∧ ((∀ q < 6, m q = true) → UniTet (K := K) cells) ∧
      cells ≠ [] ∧ ((∀ q < 6, m q = false) → cells = [[0, 1, 2, 3]]) ∧
      ∀ c ∈ cells, ∀ l ∈ c, l < 4 ∨ (4 ≤ l ∧ l < 4 + 6 ∧ m (l - 4) = true)) 4 6 (tetKids dist) := by
  intro ls m hx hinj
  obtain ⟨cells, h1, h2, h3⟩ := tetKids_ok hd ls m hx hinj
  obtain ⟨cells', e1, h4, _⟩ := tetKids_uni hd ls m hx hinj
  rw [h1] at e1
  have := Option.some.inj e1
  subst this
  refine ⟨cells, h1, ⟨h2, h4, ?_, fun hm => ?_, fun c hc => (h3 c hc).2.2⟩, h3⟩
  · rintro rfl
    have := (h2.2 (fun a k => if a = k + 1 then 1 else 0)).1
    simp [tetVolume6] at this
  · have hid : ∀ a < 4, ∀ b < 4, (ls[a]?.join.map (·.id)).getD 0 = (ls[b]?.join.map (·.id)).getD 0 → a = b := by
      intro a ha b hb h
      obtain ⟨x, hx1⟩ := hx a ha
      obtain ⟨y, hy1⟩ := hx b hb
      refine hinj a ha b hb x y hx1 hy1 ?_
      simpa [hx1, hy1] using h
    obtain ⟨cells', path, e1, _, h4⟩ := RTree.check_sound
      (edgeOrder (vtxDist dist ls) (vtxDist_symm hd ls) (fun a => (ls[a]?.join.map (·.id)).getD 0) hid) (vtxDist dist ls) (tetTree m) [] [] (by simp)
      (P := fun _ cells => decide (cells = [[0, 1, 2, 3]])) (by
        rw [tetTree_list, hm 0 (by omega), hm 1 (by omega), hm 2 (by omega), hm 3 (by omega), hm 4 (by omega), hm 5 (by omega)]
        exact tetTree_none)
    have e2 : tetKids dist ls m = some cells' := e1
    rw [h1] at e2
    have := Option.some.inj e2
    subst this
    simpa using h4

end

end VG
