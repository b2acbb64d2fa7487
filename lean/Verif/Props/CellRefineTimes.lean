import Verif.Props.CellRefine
import Verif.Props.RefineFacets
import Verif.Lemmas.CellRefineOnce

/-!
C109, several times: adaptive refinement, each time with other cells marked.

Specification.  `refineTimes` is what a program does that calls `cell_refine` again and again on the last result.  As the flags are arbitrary,
they may depend on the meshes in between.
-/

namespace VG

/-- `cell_refine` once for each of the flags. -/
def refineTimes {K : Type} [Add K] [Div K] [OfNat K 2] [Zero K] (n : Nat)
    (kids : List (Option (Vtx (Nat → K))) → (Nat → Bool) → Option (List (List Nat))) :
    List (Nat → Bool) → SegState (Nat → K) → Option (SegState (Nat → K))
  | [], s => some s
  | flag :: flags, s => match cellRefine (simplexTopo n) s kids flag with
    | none => none
    | some r => refineTimes n kids flags r.out

/-- No two cells have the same vertices. -/
def SingleCells {P : Type} (n : Nat) (m : Mesh P) : Prop :=
  ∀ t < m.count n, ∀ t' < m.count n, (m.vertsOf n t).Perm (m.vertsOf n t') → t = t'

/-- Sum of a measure of all cells. -/
def totalMeasure {K : Type} [Field K] (n : Nat) (m : Mesh (Nat → K)) (f : List (Nat → K) → K) : K :=
  ((List.range (m.count n)).map fun t => f (cellPoints m n t)).sum

/-- Every cell of `out` comes from the cell `parent` tells, and is in the segments of that; something comes from every cell. -/
structure ComeFrom {K : Type} (n : Nat) (src out : SegState (Nat → K)) (parent : Nat → Nat) : Prop where
  lt : ∀ i < out.mesh.count n, parent i < src.mesh.count n
  onto : ∀ t < src.mesh.count n, ∃ i < out.mesh.count n, parent i = t
  segments : ∀ i < out.mesh.count n, ∀ g, g ∈ out.segmentIds n i ↔ g ∈ src.segmentIds n (parent i)

/-- The cells that come from a cell have together its measure. -/
def SameInParts {K : Type} [Field K] (n : Nat) (src out : Mesh (Nat → K)) (parent : Nat → Nat) (f : List (Nat → K) → K) : Prop :=
  ∀ t < src.count n, (((List.range (out.count n)).filter fun i => parent i == t).map fun i => f (cellPoints out n i)).sum = f (cellPoints src n t)

section
variable {K : Type} [Field K] [LinearOrder K] [IsStrictOrderedRing K]

theorem ComeFrom.refl {K : Type} (n : Nat) (src : SegState (Nat → K)) : ComeFrom n src src id :=
  ⟨fun _ h => h, fun t h => ⟨t, h, rfl⟩, fun _ _ _ => Iff.rfl⟩

theorem ComeFrom.trans {K : Type} {n : Nat} {a b c : SegState (Nat → K)} {p q : Nat → Nat} (h : ComeFrom n a b p) (h' : ComeFrom n b c q) :
    ComeFrom n a c (p ∘ q) :=
  ⟨fun i hi => h.lt _ (h'.lt i hi), fun t ht => by
    obtain ⟨j, hj, rfl⟩ := h.onto t ht
    obtain ⟨i, hi, rfl⟩ := h'.onto j hj
    exact ⟨i, hi, rfl⟩, fun i hi g => (h'.segments i hi g).trans (h.segments _ (h'.lt i hi) g)⟩

omit [LinearOrder K] [IsStrictOrderedRing K] in
theorem list_filter_sum (N : Nat) (p : Nat → Bool) (F : Nat → K) :
    (((List.range N).filter p).map F).sum = ∑ i ∈ (Finset.range N).filter (fun i => p i = true), F i := by
  rw [Finset.sum_filter]
  induction N with
  | zero => rfl
  | succ N ih =>
    rw [List.range_succ, List.filter_append, List.map_append, List.sum_append, ih, Finset.sum_range_succ]
    cases h : p N <;> simp [h]

omit [LinearOrder K] [IsStrictOrderedRing K] in
theorem SameInParts.refl (n : Nat) (m : Mesh (Nat → K)) (f : List (Nat → K) → K) : SameInParts n m m id f := by
  intro t ht
  rw [list_filter_sum]
  have : (Finset.range (m.count n)).filter (fun i => (id i == t) = true) = {t} := by
    ext i
    simp only [Finset.mem_filter, Finset.mem_range, id, beq_iff_eq, Finset.mem_singleton]
    exact ⟨fun h => h.2, fun h => ⟨h ▸ ht, h⟩⟩
  rw [this, Finset.sum_singleton]

omit [LinearOrder K] [IsStrictOrderedRing K] in
theorem SameInParts.trans {n : Nat} {a b c : Mesh (Nat → K)} {p q : Nat → Nat} {f : List (Nat → K) → K} (h : SameInParts n a b p f)
    (h' : SameInParts n b c q f) (hq : ∀ i < c.count n, q i < b.count n) : SameInParts n a c (p ∘ q) f := by
  intro t ht
  rw [← h t ht, list_filter_sum, list_filter_sum]
  rw [← Finset.sum_fiberwise_of_maps_to (s := (Finset.range (c.count n)).filter (fun i => ((p ∘ q) i == t) = true))
    (t := (Finset.range (b.count n)).filter (fun i => (p i == t) = true)) (g := q) (fun i hi => by
      rw [Finset.mem_filter, Finset.mem_range] at hi ⊢
      exact ⟨hq i hi.1, hi.2⟩)]
  refine Finset.sum_congr rfl fun j hj => ?_
  rw [Finset.mem_filter, Finset.mem_range, beq_iff_eq] at hj
  rw [← h' j hj.1, list_filter_sum]
  refine Finset.sum_congr ?_ fun _ _ => rfl
  ext i
  simp only [Finset.mem_filter, Finset.mem_range, Function.comp, beq_iff_eq]
  constructor
  · rintro ⟨⟨h1, _⟩, h2⟩; exact ⟨h1, h2⟩
  · rintro ⟨h1, h2⟩; exact ⟨⟨h1, by rw [h2]; exact hj.2⟩, h2⟩

omit [LinearOrder K] [IsStrictOrderedRing K] in
theorem CellsRefined.parent {n : Nat} {src out : SegState (Nat → K)} {flag : Nat → Bool} {first : Nat → Nat}
    (h : CellsRefined n src out flag first) : ∃ parent : Nat → Nat, ComeFrom n src out parent ∧
      (∀ i < out.mesh.count n, first (parent i) ≤ i ∧ i < first (parent i + 1)) ∧
      ∀ f : List (Nat → K) → K, (∀ t < src.mesh.count n,
        ((List.range (first (t + 1) - first t)).map fun j => f (cellPoints out.mesh n (first t + j))).sum = f (cellPoints src.mesh n t)) →
        SameInParts n src.mesh out.mesh parent f := by
  have hex : ∀ i, ∃ t, i < out.mesh.count n → t < src.mesh.count n ∧ first t ≤ i ∧ i < first (t + 1) := by
    intro i
    by_cases hi : i < out.mesh.count n
    · rw [h.count] at hi
      have : ∀ N, i < first N → ∃ t < N, first t ≤ i ∧ i < first (t + 1) := by
        intro N
        induction N with
        | zero => intro h'; rw [h.start] at h'; omega
        | succ N ih =>
          intro h1
          by_cases h' : i < first N
          · obtain ⟨t, ht, h''⟩ := ih h'
            exact ⟨t, by omega, h''⟩
          · exact ⟨N, by omega, by omega, h1⟩
      obtain ⟨t, h1⟩ := this _ hi
      exact ⟨t, fun _ => h1⟩
    · exact ⟨0, fun h => absurd h hi⟩
  choose parent hp using hex
  have mono : ∀ a b, a ≤ b → b ≤ src.mesh.count n → first a ≤ first b := by
    intro a b hab hb
    induction b with
    | zero => rw [Nat.le_zero.1 hab]
    | succ b ih =>
      rcases Nat.lt_or_ge a (b + 1) with h1 | h1
      · exact Nat.le_trans (ih (by omega) (by omega)) (Nat.le_of_lt (h.some_child b (by omega)))
      · rw [show a = b + 1 by omega]
  have huniq : ∀ t < src.mesh.count n, ∀ i, (i < out.mesh.count n ∧ parent i = t) ↔ first t ≤ i ∧ i < first (t + 1) := by
    intro t ht i
    constructor
    · rintro ⟨hi, rfl⟩; exact (hp i hi).2
    · rintro ⟨h1, h2⟩
      have hi : i < out.mesh.count n := by
        rw [h.count]; exact Nat.lt_of_lt_of_le h2 (mono _ _ (by omega) (Nat.le_refl _))
      refine ⟨hi, ?_⟩
      obtain ⟨q1, q2, q3⟩ := hp i hi
      rcases Nat.lt_trichotomy (parent i) t with h3 | h3 | h3
      · have := mono (parent i + 1) t (by omega) (by omega); omega
      · exact h3
      · have := mono (t + 1) (parent i) (by omega) (by omega); omega
  refine ⟨parent, ⟨fun i hi => (hp i hi).1, fun t ht => ?_, fun i hi => ?_⟩, fun i hi => (hp i hi).2, fun f hf t ht => ?_⟩
  · obtain ⟨h1, h2⟩ := (huniq t ht (first t)).2 ⟨Nat.le_refl _, h.some_child t ht⟩
    exact ⟨_, h1, h2⟩
  · obtain ⟨q1, q2, q3⟩ := hp i hi
    exact h.segments _ q1 i q2 q3
  · rw [← hf t ht, list_filter_sum]
    have : (Finset.range (out.mesh.count n)).filter (fun i => (parent i == t) = true) = Finset.Ico (first t) (first (t + 1)) := by
      ext i
      rw [Finset.mem_filter, Finset.mem_range, beq_iff_eq, Finset.mem_Ico]
      exact huniq t ht i
    rw [this, Finset.sum_Ico_eq_sum_range, Finset.sum_range]
    rw [← List.sum_ofFn, List.ofFn_eq_map, ← List.map_coe_finRange_eq_range, List.map_map]
    rfl

omit [LinearOrder K] [IsStrictOrderedRing K] in
theorem CellsRefined.total {n : Nat} {src out : SegState (Nat → K)} {flag : Nat → Bool} {first : Nat → Nat}
    (h : CellsRefined n src out flag first) {f : List (Nat → K) → K}
    (hf : ∀ t < src.mesh.count n, ((List.range (first (t + 1) - first t)).map fun j => f (cellPoints out.mesh n (first t + j))).sum =
      f (cellPoints src.mesh n t)) : totalMeasure n out.mesh f = totalMeasure n src.mesh f := by
  unfold totalMeasure
  rw [h.count, sum_intervals _ first h.start _ (fun t ht => Nat.le_of_lt (h.some_child t ht))]
  exact congrArg List.sum (List.map_congr_left fun t ht => hf t (List.mem_range.1 ht))

omit [LinearOrder K] [IsStrictOrderedRing K] in
theorem CellsRefined.more {n : Nat} {src out : SegState (Nat → K)} {flag : Nat → Bool} {first : Nat → Nat}
    (h : CellsRefined n src out flag first) : src.mesh.count n ≤ out.mesh.count n := by
  rw [h.count]
  have : ∀ t, t ≤ src.mesh.count n → t ≤ first t := by
    intro t
    induction t with
    | zero => intro _; omega
    | succ t ih => intro ht; have := ih (by omega); have := h.some_child t (by omega); omega
  exact this _ (Nat.le_refl _)

omit [Field K] [LinearOrder K] [IsStrictOrderedRing K] in
theorem SingleCells.sub {n : Nat} (hn : 2 ≤ n) {m : Mesh (Nat → K)} (h : SingleCells n m) (hI : Inv (simplexTopo n) m) :
    ∀ t < m.count n, ∀ t' < m.count n, m.vertsOf n t ⊆ m.vertsOf n t' → t' = t := by
  intro t ht t' ht' hs
  obtain ⟨n1, l1, _⟩ := simplex_verts (by omega) hI ht
  obtain ⟨_, l2, _⟩ := simplex_verts (by omega) hI ht'
  exact (h t ht t' ht' (perm_of_subset n1 hs (by omega))).symm

/-- C109: after `cell_refine` no two triangles have the same vertices, so that C109_fit_triangles holds for the next refinement. -/
theorem C109_single_triangles {src : SegState (Nat → K)} (hsrc : SegReached (simplexTopo 2) src)
    (hone : SingleCells 2 src.mesh) (dist : (Nat → K) → (Nat → K) → K) (flag : Nat → Bool) {r : RefSt (Nat → K)}
    (hr : cellRefine (simplexTopo 2) src (triKids dist) flag = some r) : SingleCells 2 r.out.mesh := by
  have hI := (hsrc.inv (simplexTopo_wf 2) (simplexTopo_closed 2)).mesh
  have he : (edgeIdx (2 + 1)).length = 3 := by decide
  obtain ⟨o1, o2, _⟩ := C99_each_once (simplexTopo 2) src.mesh 1
  obtain ⟨r', C, R, w, ev, e1, h, _⟩ := refine_names (n := 2) (by omega) hsrc (he ▸ triKids_ok dist)
    (edgeFlags (simplexTopo 2) src.mesh flag) (edgeMid src.mesh) o1 (fun e he => (o2 e).2 he)
  have : r = r' := Option.some.inj (hr.symm.trans e1)
  subst this
  exact fun i hi j hj hv => h.tri_single hI (hone.sub (by omega) hI) hi hj hv

/-- C109: after `cell_refine` no two tetrahedra have the same vertices. -/
theorem C109_single_tetrahedra {src : SegState (Nat → K)} (hsrc : SegReached (simplexTopo 3) src)
    (hone : SingleCells 3 src.mesh) {dist : (Nat → K) → (Nat → K) → K} (hd : ∀ a b, dist a b = dist b a) (flag : Nat → Bool)
    {r : RefSt (Nat → K)} (hr : cellRefine (simplexTopo 3) src (tetKids dist) flag = some r) : SingleCells 3 r.out.mesh := by
  have hI := (hsrc.inv (simplexTopo_wf 3) (simplexTopo_closed 3)).mesh
  have he : (edgeIdx (3 + 1)).length = 6 := by decide
  obtain ⟨o1, o2, _⟩ := C99_each_once (simplexTopo 3) src.mesh 1
  obtain ⟨r', C, R, w, ev, e1, h, _⟩ := refine_names (n := 3) (by omega) hsrc (he ▸ tetKids_ok hd)
    (edgeFlags (simplexTopo 3) src.mesh flag) (edgeMid src.mesh) o1 (fun e he => (o2 e).2 he)
  have : r = r' := Option.some.inj (hr.symm.trans e1)
  subst this
  exact fun i hi j hj hv => h.tet_single hd hI (hone.sub (by omega) hI) hi hj hv

/-- C109, adaptive refinement of triangles: however often `cell_refine` is called and whatever is marked each time, it succeeds, the new
triangles that come from a triangle have together its area and are in its segments, the area of the mesh does not change, no two triangles get the same vertices, and no edge belongs to more than two triangles if none did at first. -/
theorem C109_times_triangles (dist : (Nat → K) → (Nat → K) → K) : ∀ (flags : List (Nat → Bool)) {src : SegState (Nat → K)},
    SegReached (simplexTopo 2) src → SingleCells 2 src.mesh →
    ∃ (out : SegState (Nat → K)) (parent : Nat → Nat), refineTimes 2 (triKids dist) flags src = some out ∧
      SegReached (simplexTopo 2) out ∧ SingleCells 2 out.mesh ∧ ComeFrom 2 src out parent ∧ src.mesh.count 2 ≤ out.mesh.count 2 ∧
      (∀ mu : (Nat → Nat → K) → K, (∀ s M, 0 < s → mu (fun k l => s * M k l) = s * mu M) →
        SameInParts 2 src.mesh out.mesh parent (triMeasure mu) ∧
        totalMeasure 2 out.mesh (triMeasure mu) = totalMeasure 2 src.mesh (triMeasure mu)) ∧
      ((∀ e < src.mesh.count 1, numCells (simplexTopo 2) src.mesh e ≤ 2) → ∀ e < out.mesh.count 1, numCells (simplexTopo 2) out.mesh e ≤ 2)
  | [], src, hs, ho => ⟨src, id, rfl, hs, ho, .refl _ _, Nat.le_refl _, fun _ _ => ⟨.refl _ _ _, rfl⟩, fun h => h⟩
  | flag :: flags, src, hs, ho => by
    obtain ⟨r, first, e1, h1, _, _, h2⟩ := C109_triangles hs dist flag
    obtain ⟨r', origin, e2, h3⟩ := C109_fit_triangles hs ho dist flag
    have : r' = r := Option.some.inj (e2.symm.trans e1)
    subst this
    obtain ⟨out, q, e3, k1, k2, kq, k3, k4, k5⟩ := C109_times_triangles dist flags h1.reached (C109_single_triangles hs ho dist flag e1)
    obtain ⟨p, p1, _, p2⟩ := h1.parent
    refine ⟨out, p ∘ q, by rw [refineTimes, e1]; exact e3, k1, k2, p1.trans kq, Nat.le_trans h1.more k3,
      fun mu hmu => ⟨(p2 _ (h2 mu hmu)).trans (k4 mu hmu).1 kq.lt, ?_⟩, fun h => k5 (C73_two_triangles h3 h)⟩
    rw [(k4 mu hmu).2]
    exact h1.total (h2 mu hmu)

/-- C109, adaptive refinement of tetrahedra. -/
theorem C109_times_tetrahedra {dist : (Nat → K) → (Nat → K) → K} (hd : ∀ a b, dist a b = dist b a) : ∀ (flags : List (Nat → Bool))
    {src : SegState (Nat → K)}, SegReached (simplexTopo 3) src → SingleCells 3 src.mesh →
    ∃ (out : SegState (Nat → K)) (parent : Nat → Nat), refineTimes 3 (tetKids dist) flags src = some out ∧
      SegReached (simplexTopo 3) out ∧ SingleCells 3 out.mesh ∧ ComeFrom 3 src out parent ∧ src.mesh.count 3 ≤ out.mesh.count 3 ∧
      SameInParts 3 src.mesh out.mesh parent tetVol ∧ totalMeasure 3 out.mesh tetVol = totalMeasure 3 src.mesh tetVol ∧
      ((∀ t < src.mesh.count 3, 0 < tetVol (cellPoints src.mesh 3 t)) → ∀ t < out.mesh.count 3, 0 < tetVol (cellPoints out.mesh 3 t)) ∧
      ((∀ f < src.mesh.count 2, numCells (simplexTopo 3) src.mesh f ≤ 2) → ∀ f < out.mesh.count 2, numCells (simplexTopo 3) out.mesh f ≤ 2)
  | [], src, hs, ho => ⟨src, id, rfl, hs, ho, .refl _ _, Nat.le_refl _, .refl _ _ _, rfl, fun h => h, fun h => h⟩
  | flag :: flags, src, hs, ho => by
    obtain ⟨r, first, e1, h1, _, h2⟩ := C109_tetrahedra hs hd flag
    obtain ⟨r', origin, e2, h3⟩ := C109_fit_tetrahedra hs ho hd flag
    have : r' = r := Option.some.inj (e2.symm.trans e1)
    subst this
    obtain ⟨out, q, e3, k1, k2, kq, k3, ks, k4, k5, k6⟩ := C109_times_tetrahedra hd flags h1.reached (C109_single_tetrahedra hs ho hd flag e1)
    obtain ⟨p, p1, p3, p2⟩ := h1.parent
    refine ⟨out, p ∘ q, by rw [refineTimes, e1]; exact e3, k1, k2, p1.trans kq, Nat.le_trans h1.more k3,
      (p2 _ (fun t ht => (h2 t ht).1)).trans ks kq.lt, ?_, fun hpos => k5 fun i hi => ?_, fun h => k6 (C73_two_cells h3 h)⟩
    · rw [k4]
      exact h1.total (fun t ht => (h2 t ht).1)
    · exact (h2 _ (p1.lt i hi)).2 (hpos _ (p1.lt i hi)) i (p3 i hi).1 (p3 i hi).2

end

/-- Two triangles: different vertices, and no edge in more than two. -/
example : ∃ src : SegState (Nat → Rat), SegReached (simplexTopo 2) src ∧ src.mesh.count 2 = 2 ∧ SingleCells 2 src.mesh ∧
    (∀ e < src.mesh.count 1, numCells (simplexTopo 2) src.mesh e ≤ 2) := by
  refine ⟨((SegState.empty : SegState (Nat → Rat)).run (simplexTopo 2) refinedOps).getD SegState.empty,
    ⟨refinedOps, ?_, rfl, ?_⟩, by decide +kernel, by unfold SingleCells; decide +kernel, by decide +kernel⟩
  · intro op hop o ho
    simp only [refinedOps, List.mem_cons, List.not_mem_nil, or_false] at hop
    rcases hop with rfl | rfl | rfl | rfl | rfl | rfl | rfl | rfl | rfl <;>
      (simp [SOp.creation] at ho; try (subst ho; first | trivial | (simp [MOp.Distinct])))
  · unfold UniqueVids; decide +kernel

/-- Two tetrahedra: different vertices, and no facet in more than two. -/
example : ∃ src : SegState (Nat → Rat), SegReached (simplexTopo 3) src ∧ src.mesh.count 3 = 2 ∧ SingleCells 3 src.mesh ∧
    (∀ f < src.mesh.count 2, numCells (simplexTopo 3) src.mesh f ≤ 2) := by
  refine ⟨((SegState.empty : SegState (Nat → Rat)).run (simplexTopo 3) uniformOps).getD SegState.empty,
    ⟨uniformOps, ?_, rfl, ?_⟩, by decide +kernel, by unfold SingleCells; decide +kernel, by decide +kernel⟩
  · intro op hop o ho
    simp only [uniformOps, List.mem_cons, List.not_mem_nil, or_false] at hop
    rcases hop with rfl | rfl | rfl | rfl | rfl | rfl | rfl | rfl <;>
      (simp [SOp.creation] at ho; try (subst ho; first | trivial | (simp [MOp.Distinct])))
  · unfold UniqueVids; decide +kernel

end VG
