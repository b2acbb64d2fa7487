import Verif.Lemmas.Uniform
import Verif.Lemmas.HyperRefine

/-!
Uniform refinement: the children of one cell, and what follows for the mesh.
-/

namespace VG

/-! ### Tetrahedra -/

/-- Twice the barycentric coordinates of a label, for midpoints. -/
def row2 (l i : Nat) : Int :=
  if l < 4 then 2 * unitRow l i else unitRow (tetEnds (l - 4)).1 i + unitRow (tetEnds (l - 4)).2 i

def intDet : List Nat → Int
  | [a, b, c, d] => det4 (row2 a) (row2 b) (row2 c) (row2 d)
  | _ => 0

/-- The cells at the four corners, by labels. -/
def tetCornerCells : List (List Nat) := [[0, 4, 5, 6], [4, 1, 7, 8], [5, 7, 2, 9], [6, 8, 9, 3]]

/-- Eight cells of the same volume, among them those at the corners. -/
def uniTetOK (cells : List (List Nat)) : Bool :=
  decide (cells.length = 8) && cells.all (fun c => CellOK c && decide ((intDet c).natAbs = 2)) &&
    tetCornerCells.all (fun q => cells.any (fun c => c.isPerm q))

set_option maxRecDepth 10000 in
theorem tetTree_uni : (tetTree (cornerFn [true, true, true, true, true, true])).check (fun _ => uniTetOK) [] [] = true := by
  decide +kernel

section
variable {K : Type} [Field K] [LinearOrder K] [IsStrictOrderedRing K]

omit [LinearOrder K] [IsStrictOrderedRing K] in
theorem cellDet_half [CharZero K] (c : List Nat) : cellDet (fun _ => (1 / 2 : K)) c = ((intDet c : Int) : K) / 16 := by
  have hu : ∀ v i, ((unitRow v i : Int) : K) = unitRow v i := by
    intro v i; unfold unitRow; split <;> simp
  have hr : ∀ l i, tetRow (fun _ => (1 / 2 : K)) l i = ((row2 l i : Int) : K) / 2 := by
    intro l i
    unfold tetRow row2
    split
    · push_cast; rw [hu]; ring
    · push_cast; rw [hu, hu]; ring
  unfold cellDet intDet
  split
  · unfold det4
    simp only [hr]
    push_cast
    ring
  · simp

/-- The children of a tetrahedron with all edges marked. -/
def UniTet (cells : List (List Nat)) : Prop :=
  cells.length = 8 ∧ (∀ c ∈ cells, c.length = 4 ∧ (∀ l ∈ c, l < 10)) ∧ (∀ q ∈ tetCornerCells, ∃ c ∈ cells, c.Perm q) ∧
  ∀ p : Nat → Nat → K, ∀ c ∈ cells, |childVolume6 p (fun _ => 1 / 2) c| = |tetVolume6 (p 0) (p 1) (p 2) (p 3)| / 8

theorem tetKids_uni {P : Type} {dist : P → P → K} (hd : ∀ a b, dist a b = dist b a) :
    KidsOK (fun _ m cells => (∀ q < 6, m q = true) → UniTet (K := K) cells) 4 6 (tetKids dist) := by
  intro ls m hx hinj
  obtain ⟨cells, h1, h2, h3⟩ := tetKids_ok hd ls m hx hinj
  refine ⟨cells, h1, fun hm => ?_, h3⟩
  have hid : ∀ a < 4, ∀ b < 4, (ls[a]?.join.map (·.id)).getD 0 = (ls[b]?.join.map (·.id)).getD 0 → a = b := by
    intro a ha b hb h
    obtain ⟨x, hx1⟩ := hx a ha
    obtain ⟨y, hy1⟩ := hx b hb
    refine hinj a ha b hb x y hx1 hy1 ?_
    simpa [hx1, hy1] using h
  obtain ⟨cells', path, e1, _, h4⟩ := RTree.check_sound
    (edgeOrder (vtxDist dist ls) (vtxDist_symm hd ls) (fun a => (ls[a]?.join.map (·.id)).getD 0) hid) (vtxDist dist ls) (tetTree m) [] [] (by simp)
    (P := fun _ => uniTetOK) (by
      rw [tetTree_list, hm 0 (by omega), hm 1 (by omega), hm 2 (by omega), hm 3 (by omega), hm 4 (by omega), hm 5 (by omega)]
      exact tetTree_uni)
  have e2 : tetKids dist ls m = some cells' := e1
  rw [h1] at e2
  have := Option.some.inj e2
  subst this
  simp only [List.nil_append, uniTetOK, Bool.and_eq_true, decide_eq_true_eq, List.all_eq_true, List.any_eq_true,
    List.isPerm_iff] at h4
  obtain ⟨⟨h5, h6⟩, h7⟩ := h4
  refine ⟨h5, h2.1, h7, fun p c hc => ?_⟩
  rw [childVolume6_eq p _ (h6 c hc).1, cellDet_half, abs_mul]
  have h8 : |((intDet c : Int) : K)| = 2 := by
    have h9 : |intDet c| = 2 := by rw [Int.abs_eq_natAbs, (h6 c hc).2]; rfl
    rw [← Int.cast_abs, h9]; norm_num
  rw [abs_div, h8, abs_of_pos (by norm_num : (0 : K) < 16)]
  ring

/-! ### Triangles -/

theorem triKids_uni {P : Type} (dist : P → P → K) :
    KidsOK (fun _ m cells => (∀ q < 3, m q = true) → cells = [[0, 3, 4], [3, 1, 5], [4, 5, 2], [4, 3, 5]]) 3 3 (triKids dist) := by
  intro ls m hx hinj
  obtain ⟨cells, h1, _, h3⟩ := triKids_ok dist ls m hx hinj
  refine ⟨cells, h1, fun hm => ?_, h3⟩
  unfold triKids refineTri at h1
  rw [hm 0 (by omega), hm 1 (by omega), hm 2 (by omega)] at h1
  simp only [List.filter_cons, if_true, List.filter_nil, List.length_cons, List.length_nil] at h1
  exact (Option.some.inj h1).symm

end

/-! ### The mesh -/

/-- Blocks of the same length. -/
theorem flatMap_block {α β : Type} (f : α → List β) {c : Nat} : ∀ (l : List α), (∀ a ∈ l, (f a).length = c) →
    (l.flatMap f).length = c * l.length ∧
    ∀ (i : Nat) (a : α), l[i]? = some a → ∀ j < c, (l.flatMap f)[c * i + j]? = (f a)[j]?
  | [], _ => ⟨by simp, fun i a h => by simp at h⟩
  | x :: l, h => by
    obtain ⟨h1, h2⟩ := flatMap_block f l (fun a ha => h a (by simp [ha]))
    have hx := h x (by simp)
    refine ⟨by simp [h1, hx, Nat.mul_add]; omega, fun i a hi j hj => ?_⟩
    rw [List.flatMap_cons]
    cases i with
    | zero =>
      simp only [List.getElem?_cons_zero, Option.some.injEq] at hi
      subst hi
      rw [List.getElem?_append_left (by omega)]
      simp
    | succ i =>
      rw [List.getElem?_append_right (by rw [hx, Nat.mul_add]; omega), hx]
      rw [show c * (i + 1) + j - c = c * i + j by rw [Nat.mul_add]; omega]
      exact h2 i a (by simpa using hi) j hj

section
variable {K : Type} [Field K] [LinearOrder K] [IsStrictOrderedRing K]

omit [LinearOrder K] [IsStrictOrderedRing K] in
/-- Uniform refinement, if the children of one cell are known. -/
theorem uniform_parts {n c : Nat} (hn : 2 ≤ n) {src : SegState (Nat → K)} (hsrc : SegReached (simplexTopo n) src)
    {kids : List (Option (Vtx (Nat → K))) → (Nat → Bool) → Option (List (List Nat))} {U : List (List Nat) → Prop}
    (hU : ∀ cells, U cells → cells.length = c)
    (hk : KidsOK (fun _ m cells => (∀ q < (edgeIdx (n + 1)).length, m q = true) → U cells) (n + 1) (edgeIdx (n + 1)).length kids) :
    ∃ (r : RefSt (Nat → K)) (C : Nat → List (List Nat)), uniformRefine (simplexTopo n) src kids = some r ∧
      SegReached (simplexTopo n) r.out ∧ r.out.mesh.count n = c * src.mesh.count n ∧
      (∀ t < src.mesh.count n, U (C t)) ∧
      (∀ t < src.mesh.count n, ∀ (j : Nat) (ls : List Nat), (C t)[j]? = some ls →
        cellPoints r.out.mesh n (c * t + j) = ls.map (midLabel n (src.mesh.corner n t)) ∧
        ∀ g, g ∈ r.out.segmentIds n (c * t + j) ↔ g ∈ src.segmentIds n t) ∧
      ∃ used : List Nat, used.Nodup ∧ (∀ v, v ∈ used ↔ ∃ t < src.mesh.count n, v ∈ src.mesh.vertsOf n t) ∧
        r.out.mesh.verts.length = used.length + src.mesh.count 1 := by
  have hI := hsrc.inv (simplexTopo_wf n) (simplexTopo_closed n)
  have hu : UniqueVids src.mesh := hsrc.choose_spec.2.2
  obtain ⟨o1, o2, o3, _⟩ := C99_each_once (simplexTopo n) src.mesh 1
  have hmark : ∀ e, markEdges (fun _ => false) (src.mesh.range (simplexTopo n) 1) e = true ↔ e < src.mesh.count 1 := by
    intro e; rw [markEdges_iff, o2]; simp
  obtain ⟨r, C, R, e1, hreach, _, hcount, hkids, hparts, hQ⟩ := refine_parts hn hsrc hk
    (markEdges (fun _ => false) (src.mesh.range (simplexTopo n) 1)) o1 (fun e he => (o2 e).2 he)
  obtain ⟨r', _, _, e2, _, _, _, _, f1, _⟩ := refineMesh_spec (simplexTopo_wf n) (simplexTopo_closed n) (show 1 ≤ n by omega) hsrc
    ⟨rfl, rfl⟩ (fun t ht => (simplex_edge hn hI.mesh ht).1) hk (markEdges (fun _ => false) (src.mesh.range (simplexTopo n) 1))
    (edgeMid src.mesh) o1 (fun e he => (o2 e).2 he)
  rw [e1] at e2
  have := Option.some.inj e2
  subst this
  have hUC : ∀ t < src.mesh.count n, U (C t) := by
    intro t ht
    refine hQ t ht (fun q hq => ?_)
    rw [hmark]
    have hl := (simplex_edge hn hI.mesh ht).1
    rw [List.getD_eq_getElem _ _ (by omega)]
    exact bndOf_valid hI.mesh (List.getElem_mem _)
  obtain ⟨b1, b2⟩ := flatMap_block (fun t => (C t).map (fun ls => (t, ls))) (c := c) (List.range (src.mesh.count n))
    (fun t ht => by rw [List.length_map]; exact hU _ (hUC t (List.mem_range.1 ht)))
  refine ⟨r, C, e1, hreach, ?_, hUC, ?_, ?_⟩
  · rw [hcount, hkids, b1, List.length_range]
  · intro t ht j ls hj
    have hjc : j < c := by rw [← hU _ (hUC t ht)]; exact (List.getElem?_eq_some_iff.1 hj).1
    have h1 := b2 t t (by rw [List.getElem?_eq_getElem (by simpa using ht), List.getElem_range]) j hjc
    rw [← hkids, List.getElem?_map, hj] at h1
    obtain ⟨_, h2, h3⟩ := hparts _ _ _ h1
    exact ⟨cellPoints_eq h2, h3⟩
  · have hlen : (refEdges (markEdges (fun _ => false) (src.mesh.range (simplexTopo n) 1)) (edgeMid src.mesh) (Mesh.empty, fun _ => none)
        (src.mesh.range (simplexTopo n) 1)).1.verts.length = src.mesh.count 1 := by
      rw [refEdges_length, List.filter_eq_self.2 (fun e he => (hmark e).2 ((o2 e).1 he)), o3]
      simp [Mesh.empty, Mesh.rangeSize]
    have hcnt := simpleRefine_cnt (S := fun v => ∃ t < src.mesh.count n, v ∈ src.mesh.vertsOf n t) (B := src.mesh.count 1)
      (fun m m' d hs h => by
        simp only [Mesh.step] at h
        split at h
        · simp only [Option.some.injEq] at h
          subst h
          rw [Mesh.makeElem, (insertN_verts _ d d m hs).1]
        · cases h) (c := ⟨_, [], []⟩) ⟨by simpa using hlen, by simp, by simp⟩
      (fun t ht v hv => ⟨t, List.mem_range.1 ht, hv⟩) e1
    classical
    refine ⟨(List.range src.mesh.verts.length).filter (fun v => decide (∃ t < src.mesh.count n, v ∈ src.mesh.vertsOf n t)),
      List.nodup_range.filter _, ?_, ?_⟩
    · intro v
      rw [List.mem_filter, decide_eq_true_eq, List.mem_range]
      exact ⟨fun h => h.2, fun ⟨t, ht, hv⟩ => ⟨((f1 t ht).1 v hv).1, t, ht, hv⟩⟩
    · rw [hcnt.len, Nat.add_comm]
      congr 1
      have hp : (r.map.map (·.1)).Perm (((List.range src.mesh.verts.length).filter
          (fun v => decide (∃ t < src.mesh.count n, v ∈ src.mesh.vertsOf n t))).map src.mesh.vid) := by
        rw [List.perm_ext_iff_of_nodup hcnt.nodup]
        · intro k
          constructor
          · intro hk
            obtain ⟨e, he, rfl⟩ := List.mem_map.1 hk
            obtain ⟨v, ⟨t, ht, hv⟩, hev⟩ := hcnt.keys e he
            refine List.mem_map.2 ⟨v, List.mem_filter.2 ⟨List.mem_range.2 ((f1 t ht).1 v hv).1, ?_⟩, hev.symm⟩
            exact decide_eq_true ⟨t, ht, hv⟩
          · intro hk
            obtain ⟨v, hv, rfl⟩ := List.mem_map.1 hk
            obtain ⟨t, ht, hvt⟩ := of_decide_eq_true (List.mem_filter.1 hv).2
            obtain ⟨s, hs⟩ := ((f1 t ht).1 v hvt).2
            unfold RefSt.look at hs
            obtain ⟨e, he, _⟩ := Option.map_eq_some_iff.1 hs
            refine List.mem_map.2 ⟨e, List.mem_of_find?_eq_some he, ?_⟩
            simpa using List.find?_some he
        · refine List.Nodup.map_on (fun a ha b hb h => ?_) (List.nodup_range.filter _)
          exact vid_inj hu (List.mem_range.1 (List.mem_filter.1 ha).1) (List.mem_range.1 (List.mem_filter.1 hb).1) h
      have := hp.length_eq
      simpa using this

end

end VG
