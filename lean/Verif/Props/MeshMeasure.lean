import Verif.Props.Queries
import Verif.Props.Transform

/-!
C44 bounding box, C48 volume and surface of a mesh.
-/

namespace VG

/-! ### C44 -/

section Box
variable {K : Type} [Field K] [LinearOrder K] [IsStrictOrderedRing K] {d : Nat}

omit [Field K] [IsStrictOrderedRing K] in
theorem boundingBox_fold (pts : List (Fin d → K)) (bb : (Fin d → K) × (Fin d → K)) (i : Fin d) :
    let r := pts.foldl (fun (bb : (Fin d → K) × (Fin d → K)) p =>
      ((fun i => min (bb.1 i) (p i), fun i => max (bb.2 i) (p i)) : (Fin d → K) × (Fin d → K))) bb
    r.1 i ≤ bb.1 i ∧ bb.2 i ≤ r.2 i ∧ (∀ p ∈ pts, r.1 i ≤ p i ∧ p i ≤ r.2 i)
    ∧ (r.1 i = bb.1 i ∨ ∃ p ∈ pts, r.1 i = p i) ∧ (r.2 i = bb.2 i ∨ ∃ p ∈ pts, r.2 i = p i) := by
  induction pts generalizing bb with
  | nil => simp
  | cons q pts ih =>
    rw [List.foldl_cons]
    obtain ⟨h1, h2, h3, h4, h5⟩ := ih (fun i => min (bb.1 i) (q i), fun i => max (bb.2 i) (q i))
    dsimp only at h1 h2 h4 h5 ⊢
    refine ⟨h1.trans (min_le_left _ _), (le_max_left _ _).trans h2, ?_, ?_, ?_⟩
    · intro p hp
      rcases List.mem_cons.1 hp with rfl | hp
      · exact ⟨h1.trans (min_le_right _ _), (le_max_right _ _).trans h2⟩
      · exact h3 p hp
    · rcases h4 with h4 | ⟨p, hp, h4⟩
      · rcases min_choice (bb.1 i) (q i) with h | h
        · left; rw [h4, h]
        · right; exact ⟨q, by simp, by rw [h4, h]⟩
      · right; exact ⟨p, by simp [hp], h4⟩
    · rcases h5 with h5 | ⟨p, hp, h5⟩
      · rcases max_choice (bb.2 i) (q i) with h | h
        · left; rw [h5, h]
        · right; exact ⟨q, by simp, by rw [h5, h]⟩
      · right; exact ⟨p, by simp [hp], h5⟩

omit [IsStrictOrderedRing K] in
/-- The box contains all points and each of its sides is attained by a point; `top` is the greatest representable
number, which bounds the coordinates. -/
theorem C44_bounding_box (top : K) (pts : List (Fin d → K)) (hne : pts ≠ [])
    (hb : ∀ p ∈ pts, ∀ i, -top ≤ p i ∧ p i ≤ top) (i : Fin d) :
    (∀ p ∈ pts, (boundingBox top pts).1 i ≤ p i ∧ p i ≤ (boundingBox top pts).2 i)
    ∧ (∃ p ∈ pts, (boundingBox top pts).1 i = p i) ∧ ∃ p ∈ pts, (boundingBox top pts).2 i = p i := by
  obtain ⟨_, _, h3, h4, h5⟩ := boundingBox_fold pts (fun _ => top, fun _ => -top) i
  obtain ⟨q, hq⟩ := List.exists_mem_of_ne_nil pts hne
  refine ⟨h3, ?_, ?_⟩
  · rcases h4 with h4 | h4
    · have hle := (h3 q hq).1
      refine ⟨q, hq, le_antisymm hle ?_⟩
      rw [boundingBox, h4]; exact (hb q hq i).2
    · exact h4
  · rcases h5 with h5 | h5
    · have hle := (h3 q hq).2
      refine ⟨q, hq, le_antisymm ?_ hle⟩
      rw [boundingBox, h5]; exact (hb q hq i).1
    · exact h5

omit [Field K] [IsStrictOrderedRing K] in
/-- The box determines no more than the set of points: any two such boxes are equal. -/
theorem C44_unique (pts : List (Fin d → K)) (bb bb' : (Fin d → K) × (Fin d → K)) (i : Fin d)
    (h : ∀ b ∈ [bb, bb'], (∀ p ∈ pts, b.1 i ≤ p i ∧ p i ≤ b.2 i) ∧ (∃ p ∈ pts, b.1 i = p i) ∧ ∃ p ∈ pts, b.2 i = p i) :
    bb.1 i = bb'.1 i ∧ bb.2 i = bb'.2 i := by
  obtain ⟨h1, ⟨p, hp, h2⟩, q, hq, h3⟩ := h bb (by simp)
  obtain ⟨h1', ⟨p', hp', h2'⟩, q', hq', h3'⟩ := h bb' (by simp)
  refine ⟨le_antisymm ?_ ?_, le_antisymm ?_ ?_⟩
  · rw [h2']; exact (h1 p' hp').1
  · rw [h2]; exact (h1' p hp).1
  · rw [h3]; exact (h1' q hq).2
  · rw [h3']; exact (h1 q' hq').2

/-- All points on the negative side, where starting with zero would be wrong. -/
example : boundingBox (1000 : Rat) [![-3, -7], ![-5, -2]] = (![-5, -7], ![-3, -2]) := by
  unfold boundingBox
  simp only [Prod.ext_iff]
  constructor <;> funext i <;> fin_cases i <;> decide +kernel

end Box

/-! ### C48: volume -/

section Measure
variable {P K : Type} [Field K]

theorem foldl_add_map {α : Type} (f : α → K) (l : List α) (a : K) :
    l.foldl (fun acc t => acc + f t) a = a + (l.map f).sum := by
  induction l generalizing a with
  | nil => simp
  | cons t l ih => rw [List.foldl_cons, ih, List.map_cons, List.sum_cons]; ring

/-- The points of an element record. -/
def elemPoints (m : Mesh P) (e : Elem) : List P := e.verts.filterMap m.ptOf

omit [Field K] in
theorem map_pointsOf (vol : List P → K) (m : Mesh P) (n : Nat) (hn : n ≠ 0) :
    (List.range (m.count n)).map (fun t => vol (m.pointsOf n t)) = (m.elems n).map fun e => vol (elemPoints m e) := by
  refine List.ext_getElem? fun i => ?_
  simp only [List.getElem?_map, Mesh.count, if_neg hn]
  by_cases hi : i < (m.elems n).length
  · rw [List.getElem?_range hi, List.getElem?_eq_getElem hi]
    simp [Mesh.pointsOf, Mesh.vertsOf, elemPoints, hi]
  · rw [List.getElem?_eq_none (by simpa using hi), List.getElem?_eq_none (by omega)]
    rfl

/-- The volume of a mesh is the sum of the volumes of its cells. -/
theorem C48_volume (vol : List P → K) (m : Mesh P) (n : Nat) (hn : n ≠ 0) :
    m.volumeOf vol n = ((m.elems n).map fun e => vol (elemPoints m e)).sum := by
  rw [Mesh.volumeOf, foldl_add_map, map_pointsOf vol m n hn, zero_add]

/-- Two meshes with the same cells, given by their points, in any order and with any vertex numbers, have the same
volume. -/
theorem C48_volume_order (vol : List P → K) (m m' : Mesh P) (n : Nat) (hn : n ≠ 0)
    (h : ((m.elems n).map (elemPoints m)).Perm ((m'.elems n).map (elemPoints m'))) :
    m.volumeOf vol n = m'.volumeOf vol n := by
  rw [C48_volume _ _ _ hn, C48_volume _ _ _ hn]
  have := (h.map vol).sum_eq
  simpa [List.map_map, Function.comp_def] using this

/-- The volume is additive: if the cells of a mesh are those of two others, volumes add up. -/
theorem C48_volume_additive (vol : List P → K) (m m1 m2 : Mesh P) (n : Nat) (hn : n ≠ 0)
    (h : ((m.elems n).map (elemPoints m)).Perm
      ((m1.elems n).map (elemPoints m1) ++ (m2.elems n).map (elemPoints m2))) :
    m.volumeOf vol n = m1.volumeOf vol n + m2.volumeOf vol n := by
  rw [C48_volume _ _ _ hn, C48_volume _ _ _ hn, C48_volume _ _ _ hn]
  have := (h.map vol).sum_eq
  simpa [List.map_map, Function.comp_def, List.sum_append] using this

/-! ### C48: surface -/

theorem surface_fold {T : Topo} (hT : T.WF) (vol : List P → K) {m : Mesh P} (hI : Inv T m) (hu : UniqueVids m)
    (l : List Nat) (hl : ∀ s ∈ l, s < m.count (T.cellDim - 1)) :
    ∀ (st : MState P) (a : K), st.mesh = m → CacheInv T st →
      (l.foldl (fun acc s =>
        let q := acc.1.isBoundary T (T.cellDim - 1) s
        (q.1, if q.2 then acc.2 + vol (q.1.mesh.pointsOf (T.cellDim - 1) s) else acc.2)) (st, a)).2
      = a + ((l.filter fun s => numCells T m s % 2 = 1).map fun s => vol (m.pointsOf (T.cellDim - 1) s)).sum := by
  induction l with
  | nil => intro st a _ _; simp
  | cons s l ih =>
    intro st a hm hc
    obtain ⟨h1, h2, h3⟩ := isBoundary_spec hT (hm ▸ hI) (hm ▸ hu) hc (T.cellDim - 1) s
    have hs := hl s (by simp)
    have hb : (st.isBoundary T (T.cellDim - 1) s).2 = true ↔ numCells T m s % 2 = 1 := by
      have := h3 (Nat.le_refl _) s (hm ▸ hs)
      rw [if_pos rfl] at this
      subst hm
      rw [← this]
      have e : (st.isBoundary T (T.cellDim - 1) s).2
          = ((st.isBoundary T (T.cellDim - 1) s).1.bd (T.cellDim - 1)).data (st.mesh.eid (T.cellDim - 1) s) := by
        rw [← h1]; rfl
      rw [e]
    rw [List.foldl_cons]
    dsimp only
    rw [ih (fun s' hs' => hl s' (List.mem_cons_of_mem _ hs')) _ _ (h1.trans hm) h2, h1, hm, List.filter_cons]
    by_cases ho : numCells T m s % 2 = 1
    · rw [if_pos (hb.2 ho), if_pos (by simpa using ho), List.map_cons, List.sum_cons]; ring
    · rw [if_neg (fun h => ho (hb.1 h)), if_neg (by simpa using ho)]

theorem surface_eq {T : Topo} (hT : LibTopo T) (vol : List P → K) {st : MState P} (h : Reached T st) :
    (st.surface T vol).2 = (((List.range (st.mesh.count (T.cellDim - 1))).filter
      fun s => numCells T st.mesh s % 2 = 1).map fun s => vol (st.mesh.pointsOf (T.cellDim - 1) s)).sum := by
  have hI := h.inv hT.wf
  obtain ⟨_, _, _, hu⟩ := h
  rw [MState.surface, surface_fold hT.wf vol hI.inv hu _ (fun s hs => List.mem_range.1 hs) st 0 rfl hI.cache, zero_add]

/-- After any history of creations, erasures of cells, copies and queries the surface of a mesh is the sum over the
facets for which `is_boundary` holds, each counted once. -/
theorem C48_surface {T : Topo} (hT : LibTopo T) (vol : List P → K) {st : MState P} (h : Reached T st) :
    ∃ l : List Nat, l.Nodup
    ∧ (∀ s, s ∈ l ↔ s < st.mesh.count (T.cellDim - 1) ∧ (st.isBoundary T (T.cellDim - 1) s).2 = true)
    ∧ (st.surface T vol).2 = (l.map fun s => vol (st.mesh.pointsOf (T.cellDim - 1) s)).sum := by
  refine ⟨_, List.Nodup.filter _ List.nodup_range, fun s => ?_, surface_eq hT vol h⟩
  rw [List.mem_filter, List.mem_range]
  refine and_congr_right fun hs => ?_
  rw [isBoundary_iff hT h (Nat.le_refl _) hs, if_pos rfl]
  simp

/-- These are the facets used by exactly one cell if no facet is used by more than two cells (without this hypothesis
the statement fails, `C16_violated`). -/
theorem C48_surface_one_cell_partial {T : Topo} (hT : LibTopo T) (hn : 1 ≤ T.cellDim) (vol : List P → K) {st : MState P}
    (h : Reached T st)
    (hman : ∀ s a b c, UsedBy T st.mesh s a → UsedBy T st.mesh s b → UsedBy T st.mesh s c → a = b ∨ a = c ∨ b = c) :
    ∃ l : List Nat, l.Nodup ∧ (∀ s, s ∈ l ↔ s < st.mesh.count (T.cellDim - 1) ∧ ∃! c, UsedBy T st.mesh s c)
    ∧ (st.surface T vol).2 = (l.map fun s => vol (st.mesh.pointsOf (T.cellDim - 1) s)).sum := by
  refine ⟨_, List.Nodup.filter _ List.nodup_range, fun s => ?_, surface_eq hT vol h⟩
  rw [List.mem_filter, List.mem_range]
  refine and_congr_right fun hs => ?_
  rw [← C16_boundary_iff_one_cell_partial hT hn h hs (hman s), isBoundary_iff hT h (Nat.le_refl _) hs, if_pos rfl]
  simp

/-! ### The surface does not depend on the order -/

theorem countP_range {α : Type} (l : List α) (p : α → Prop) [DecidablePred p] (q : Nat → Bool)
    (hq : ∀ t, q t = true ↔ ∃ e, l[t]? = some e ∧ p e) :
    ((List.range l.length).filter q).length = l.countP p := by
  induction l using List.reverseRecOn generalizing q with
  | nil => simp
  | append_singleton l a ih =>
    have hlast : q l.length = true ↔ p a := by rw [hq]; simp
    have h2 : ((List.range l.length).filter q).length = l.countP p := by
      have := ih (fun t => decide (t < l.length) && q t) (fun t => by
        rw [Bool.and_eq_true, decide_eq_true_eq, hq]
        constructor
        · rintro ⟨h1, e, h2, h3⟩; rw [List.getElem?_append_left h1] at h2; exact ⟨e, h2, h3⟩
        · rintro ⟨e, h2, h3⟩
          have h1 := (List.getElem?_eq_some_iff.1 h2).1
          exact ⟨h1, e, by rw [List.getElem?_append_left h1]; exact h2, h3⟩)
      rw [← this]
      congr 1
      refine List.filter_congr fun t ht => ?_
      simp [List.mem_range.1 ht]
    rw [List.length_append, List.length_singleton, List.range_succ, List.filter_append, List.length_append, h2,
      List.countP_append]
    congr 1
    by_cases ha : p a
    · simp [ha, hlast.2 ha]
    · have : q l.length = false := by rw [Bool.eq_false_iff]; exact fun h => ha (hlast.1 h)
      simp [ha, this]

/-- The vertices `fv` are those of a facet of a cell with the vertices `vs`. -/
def FacetOf (T : Topo) (fv vs : List Nat) : Prop :=
  ∃ idxs ix, (T.cellDim - 1, idxs) ∈ T.layers T.cellDim vs.length ∧ ix ∈ idxs ∧ SameVerts fv (pick vs ix)

open Classical in
omit [Field K] in
theorem numCells_eq {T : Topo} (hT : LibTopo T) (hn : 2 ≤ T.cellDim) {m : Mesh P} (hI : Inv T m) {s : Nat} {f : Elem}
    (hf : (m.elems (T.cellDim - 1))[s]? = some f) :
    numCells T m s = (m.elems T.cellDim).countP fun e => FacetOf T f.verts e.verts := by
  rw [numCells, show m.count T.cellDim = (m.elems T.cellDim).length by rw [Mesh.count, if_neg (by omega)]]
  refine countP_range _ (fun e : Elem => FacetOf T f.verts e.verts) _ fun t => ?_
  rw [decide_eq_true_eq, mem_bndOf_iff hT.wf hI (Nat.le_refl _), OnBoundary, if_neg (by omega)]
  constructor
  · rintro ⟨e, f', idxs, ix, h1, h2, h3, h4, h5⟩
    rw [hf] at h2; cases h2
    exact ⟨e, h1, idxs, ix, h3, h4, h5⟩
  · rintro ⟨e, h1, idxs, ix, h3, h4, h5⟩
    exact ⟨e, f, idxs, ix, h1, hf, h3, h4, h5⟩

omit [Field K] in
theorem facetOf_map {T : Topo} (hT : T.WF) {σ : Nat → Nat} (hσ : ∀ a b, σ a = σ b → a = b) {fv vs : List Nat}
    (hv : T.Arity T.cellDim vs.length) :
    FacetOf T (fv.map σ) (vs.map σ) ↔ FacetOf T fv vs := by
  have key : ∀ idxs ix, (T.cellDim - 1, idxs) ∈ T.layers T.cellDim vs.length → ix ∈ idxs →
      (SameVerts (fv.map σ) (pick (vs.map σ) ix) ↔ SameVerts fv (pick vs ix)) := by
    intro idxs ix h1 h2
    have h3 := (hT.idx _ _ _ _ hv h1 ix h2).2.2
    have e : pick (vs.map σ) ix = (pick vs ix).map σ := by
      rw [pick, pick, List.map_map]
      refine List.map_congr_left fun i hi => ?_
      have hi' : i < vs.length := h3 i hi
      simp [hi']
    rw [e]
    constructor
    · intro h v
      have := h (σ v)
      simp only [List.mem_map] at this
      constructor
      · intro hv
        obtain ⟨w, hw, e⟩ := this.1 ⟨v, hv, rfl⟩
        rw [← hσ _ _ e]; exact hw
      · intro hv
        obtain ⟨w, hw, e⟩ := this.2 ⟨v, hv, rfl⟩
        rw [← hσ _ _ e]; exact hw
    · intro h v
      simp only [List.mem_map]
      exact exists_congr fun w => and_congr_left fun _ => h w
  constructor
  · rintro ⟨idxs, ix, h1, h2, h3⟩; rw [List.length_map] at h1; exact ⟨idxs, ix, h1, h2, (key idxs ix h1 h2).1 h3⟩
  · rintro ⟨idxs, ix, h1, h2, h3⟩; exact ⟨idxs, ix, by rwa [List.length_map], h2, (key idxs ix h1 h2).2 h3⟩

/-- The facets of odd use, as sorted lists of vertices. -/
noncomputable def oddFacets (T : Topo) (m : Mesh P) (σ : Nat → Nat) : List (List Nat) :=
  ((List.range (m.count (T.cellDim - 1))).filter fun s => numCells T m s % 2 = 1).map
    fun s => ((m.vertsOf (T.cellDim - 1) s).map σ).insertionSort (· ≤ ·)

omit [Field K] in
theorem oddFacets_nodup {T : Topo} (hn : 2 ≤ T.cellDim) {m : Mesh P} (hI : Inv T m) {σ : Nat → Nat}
    (hσ : ∀ a b, σ a = σ b → a = b) : (oddFacets T m σ).Nodup := by
  refine List.Nodup.map_on ?_ (List.Nodup.filter _ List.nodup_range)
  intro s hs s' hs' h
  have lt : ∀ x, x ∈ (List.range (m.count (T.cellDim - 1))).filter (fun s => numCells T m s % 2 = 1) →
      x < (m.elems (T.cellDim - 1)).length := by
    intro x hx
    have := List.mem_range.1 (List.mem_filter.1 hx).1
    rwa [Mesh.count, if_neg (by omega)] at this
  have h1 := lt s hs
  have h2 := lt s' hs'
  have hp : ((m.vertsOf (T.cellDim - 1) s).map σ).Perm ((m.vertsOf (T.cellDim - 1) s').map σ) := by
    refine (List.perm_insertionSort (· ≤ ·) _).symm.trans ?_
    rw [h]; exact List.perm_insertionSort _ _
  refine hI.slot_unique (by omega) (List.getElem?_eq_getElem h1) (List.getElem?_eq_getElem h2) ?_
  have inj : Function.Injective σ := fun a b => hσ a b
  have := (List.map_perm_map_iff inj).1 hp
  simpa [Mesh.vertsOf, h1, h2] using this

/-- The surface of two meshes with the same cells up to a renumbering `σ`, if facets of odd use with the same vertices
have the same volume. -/
theorem surface_order {T : Topo} (hT : LibTopo T) (hn : 2 ≤ T.cellDim) (vol : List P → K) {st st' : MState P}
    (h : Reached T st) (h' : Reached T st') (σ : Nat → Nat) (hσ : ∀ a b, σ a = σ b → a = b)
    (hvol : ∀ (s s' : Nat) (f f' : Elem), (st.mesh.elems (T.cellDim - 1))[s]? = some f →
      (st'.mesh.elems (T.cellDim - 1))[s']? = some f' → numCells T st.mesh s % 2 = 1 → numCells T st'.mesh s' % 2 = 1 →
      (f.verts.map σ).Perm f'.verts → vol (f.verts.filterMap st.mesh.ptOf) = vol (f'.verts.filterMap st'.mesh.ptOf))
    (hc : ((st'.mesh.elems T.cellDim).map (·.verts)).Perm ((st.mesh.elems T.cellDim).map fun e => e.verts.map σ)) :
    (st'.surface T vol).2 = (st.surface T vol).2 := by
  classical
  have hI := (h.inv hT.wf).inv
  have hI' := (h'.inv hT.wf).inv
  have cnt : ∀ m : Mesh P, m.count (T.cellDim - 1) = (m.elems (T.cellDim - 1)).length := by
    intro m; rw [Mesh.count, if_neg (by omega)]
  -- how often a facet is used
  have use : ∀ (s s' : Nat) (f f' : Elem), (st.mesh.elems (T.cellDim - 1))[s]? = some f →
      (st'.mesh.elems (T.cellDim - 1))[s']? = some f' → (f.verts.map σ).Perm f'.verts →
      numCells T st'.mesh s' = numCells T st.mesh s := by
    intro s s' f f' hf hf' hp
    rw [numCells_eq hT hn hI hf, numCells_eq hT hn hI' hf']
    have h1 : (st'.mesh.elems T.cellDim).countP (fun e => decide (FacetOf T f'.verts e.verts))
        = ((st'.mesh.elems T.cellDim).map (·.verts)).countP (fun vs => decide (FacetOf T f'.verts vs)) := by
      rw [List.countP_map]; rfl
    rw [h1, hc.countP_eq, List.countP_map]
    refine List.countP_congr fun e he => ?_
    simp only [Function.comp, decide_eq_true_eq]
    have hv := (hI.verts _ e he).2.1
    rw [← facetOf_map hT.wf hσ hv]
    have hsv := sameVerts_of_perm hp
    constructor
    · rintro ⟨idxs, ix, h1, h2, h3⟩; exact ⟨idxs, ix, h1, h2, fun v => (hsv v).trans (h3 v)⟩
    · rintro ⟨idxs, ix, h1, h2, h3⟩; exact ⟨idxs, ix, h1, h2, fun v => (hsv v).symm.trans (h3 v)⟩
  -- a used facet is found in a mesh having the cell
  have found : ∀ (m : Mesh P), Inv T m → ∀ (fv vs : List Nat), fv.Nodup → vs ∈ (m.elems T.cellDim).map (·.verts) →
      FacetOf T fv vs → ∃ (s : Nat) (f : Elem), (m.elems (T.cellDim - 1))[s]? = some f ∧ fv.Perm f.verts := by
    intro m hm fv vs hnd hvs hf
    obtain ⟨e, he, rfl⟩ := List.mem_map.1 hvs
    obtain ⟨idxs, ix, h1, h2, h3⟩ := hf
    obtain ⟨refs, hfind, hrefs⟩ := (hm.bnd T.cellDim e he).lookup (hT.wf.once T.cellDim _) h1
    obtain ⟨q, hq⟩ := List.mem_iff_getElem?.1 h2
    obtain ⟨r, hr, g, hg, hperm, _, _⟩ := forall₂_getElem? hrefs hq
    refine ⟨r.1, g, hg, ?_⟩
    refine sameVerts_perm hnd (hm.verts _ g (List.mem_of_getElem? hg)).1 fun v => (h3 v).trans ?_
    exact (sameVerts_of_perm hperm v).symm
  have odd_used : ∀ (m : Mesh P), Inv T m → ∀ (s : Nat) (f : Elem), (m.elems (T.cellDim - 1))[s]? = some f → numCells T m s % 2 = 1 →
      ∃ e ∈ m.elems T.cellDim, FacetOf T f.verts e.verts := by
    intro m hm s f hf ho
    rw [numCells_eq hT hn hm hf] at ho
    have : 0 < (m.elems T.cellDim).countP fun e => decide (FacetOf T f.verts e.verts) := by omega
    obtain ⟨e, he, h2⟩ := List.countP_pos_iff.1 this
    exact ⟨e, he, by simpa using h2⟩
  have vsOf : ∀ (m : Mesh P) (s : Nat) (f : Elem), (m.elems (T.cellDim - 1))[s]? = some f → m.vertsOf (T.cellDim - 1) s = f.verts := by
    intro m s f hf
    obtain ⟨h1, h2⟩ := List.getElem?_eq_some_iff.1 hf
    simp [Mesh.vertsOf, h1, h2]
  have sortPerm : ∀ a b : List Nat, a.Perm b → a.insertionSort (· ≤ ·) = b.insertionSort (· ≤ ·) := by
    intro a b hp
    refine List.Perm.eq_of_pairwise (le := (· ≤ ·)) (fun x y _ _ h1 h2 => Nat.le_antisymm h1 h2)
      (List.pairwise_insertionSort _ _) (List.pairwise_insertionSort _ _) ?_
    exact (List.perm_insertionSort _ _).trans (hp.trans (List.perm_insertionSort _ _).symm)
  -- the same odd facets
  have hperm : (oddFacets T st'.mesh id).Perm (oddFacets T st.mesh σ) := by
    refine (List.perm_ext_iff_of_nodup (oddFacets_nodup hn hI' fun a b h => h) (oddFacets_nodup hn hI hσ)).2
      fun w => ?_
    simp only [oddFacets, List.mem_map, List.mem_filter, List.mem_range, decide_eq_true_eq, cnt, List.map_id']
    constructor
    · rintro ⟨s', ⟨hs', ho⟩, rfl⟩
      have hf' := List.getElem?_eq_getElem hs'
      obtain ⟨e', he', hfac⟩ := odd_used _ hI' s' _ hf' ho
      have hmem : e'.verts ∈ (st.mesh.elems T.cellDim).map fun e => e.verts.map σ :=
        hc.mem_iff.1 (List.mem_map.2 ⟨e', he', rfl⟩)
      obtain ⟨e, he, hee⟩ := List.mem_map.1 hmem
      -- the facet has vertices in the image of σ
      obtain ⟨idxs, ix, h1, h2, h3⟩ := hfac
      have hlen := (hI.verts _ e he).2.1
      have h1' : (T.cellDim - 1, idxs) ∈ T.layers T.cellDim e.verts.length := by
        rwa [← hee, List.length_map] at h1
      have hpick : pick e'.verts ix = (pick e.verts ix).map σ := by
        rw [← hee, pick, pick, List.map_map]
        refine List.map_congr_left fun i hi => ?_
        have hi' : i < e.verts.length := (hT.wf.idx _ _ _ _ hlen h1' ix h2).2.2 i hi
        simp [hi']
      have hok := (pick_ok hT.wf h2 h1' (hI.verts _ e he)).1
      obtain ⟨s, f, hf, hp⟩ := found st.mesh hI (pick e.verts ix) e.verts hok.1 (List.mem_map.2 ⟨e, he, rfl⟩)
        ⟨idxs, ix, h1', h2, fun _ => Iff.rfl⟩
      have hp2 : (f.verts.map σ).Perm ((st'.mesh.elems (T.cellDim - 1))[s'].verts) := by
        refine (hp.symm.map σ).trans ?_
        rw [← hpick]
        refine (sameVerts_perm (hI'.verts _ _ (List.getElem_mem hs')).1 ?_ h3).symm
        exact (pick_ok hT.wf h2 h1 (hI'.verts _ e' he')).1.1
      refine ⟨s, ⟨(List.getElem?_eq_some_iff.1 hf).1, ?_⟩, ?_⟩
      · rw [← use s s' f _ hf hf' hp2]; exact ho
      · rw [vsOf _ _ _ hf, vsOf _ _ _ hf']
        exact sortPerm _ _ hp2
    · rintro ⟨s, ⟨hs, ho⟩, rfl⟩
      have hf := List.getElem?_eq_getElem hs
      obtain ⟨e, he, hfac⟩ := odd_used _ hI s _ hf ho
      have hmem : e.verts.map σ ∈ (st'.mesh.elems T.cellDim).map (·.verts) :=
        hc.mem_iff.2 (List.mem_map.2 ⟨e, he, rfl⟩)
      have hnd := (hI.verts _ _ (List.getElem_mem hs)).1
      have inj : Function.Injective σ := fun a b => hσ a b
      obtain ⟨s', f', hf', hp⟩ := found st'.mesh hI' _ _ (hnd.map inj) hmem
        ((facetOf_map hT.wf hσ (hI.verts _ e he).2.1).2 hfac)
      refine ⟨s', ⟨(List.getElem?_eq_some_iff.1 hf').1, ?_⟩, ?_⟩
      · rw [use s s' _ f' hf hf' hp]; exact ho
      · rw [vsOf _ _ _ hf, vsOf _ _ _ hf']
        exact sortPerm _ _ hp.symm
  -- the volumes
  let odd' := (List.range (st'.mesh.count (T.cellDim - 1))).filter fun s => numCells T st'.mesh s % 2 = 1
  let key' : Nat → List Nat := fun s => ((st'.mesh.vertsOf (T.cellDim - 1) s).map id).insertionSort (· ≤ ·)
  let V : List Nat → K := fun w =>
    ((odd'.find? fun s => key' s = w).map fun s => vol (st'.mesh.pointsOf (T.cellDim - 1) s)).getD 0
  have lt : ∀ (m : Mesh P) s, s ∈ (List.range (m.count (T.cellDim - 1))).filter (fun s => numCells T m s % 2 = 1) →
      s < (m.elems (T.cellDim - 1)).length ∧ numCells T m s % 2 = 1 := by
    intro m s hs
    obtain ⟨h1, h2⟩ := List.mem_filter.1 hs
    rw [List.mem_range, cnt] at h1
    exact ⟨h1, by simpa using h2⟩
  have fnd : ∀ w ∈ oddFacets T st'.mesh id, ∃ s' ∈ odd', key' s' = w ∧ V w = vol (st'.mesh.pointsOf (T.cellDim - 1) s') := by
    intro w hw
    cases hfd : odd'.find? fun s => key' s = w with
    | none =>
      obtain ⟨s, hs, he⟩ := List.mem_map.1 hw
      exact absurd (decide_eq_true (show key' s = w from he)) (List.find?_eq_none.1 hfd s hs)
    | some s' =>
      refine ⟨s', List.mem_of_find?_eq_some hfd, by simpa using List.find?_some hfd, ?_⟩
      simp [V, hfd]
  have permOf : ∀ a b : List Nat, a.insertionSort (· ≤ ·) = b.insertionSort (· ≤ ·) → a.Perm b := by
    intro a b he
    refine (List.perm_insertionSort (· ≤ ·) a).symm.trans ?_
    rw [he]; exact List.perm_insertionSort _ _
  have e' : (st'.surface T vol).2 = ((oddFacets T st'.mesh id).map V).sum := by
    rw [surface_eq hT vol h', oddFacets, List.map_map]
    congr 1
    refine List.map_congr_left fun s hs => ?_
    obtain ⟨s', h1, h2, h3⟩ := fnd (key' s) (List.mem_map.2 ⟨s, hs, rfl⟩)
    have hss : s' = s := by
      obtain ⟨a1, _⟩ := lt _ _ hs
      obtain ⟨a2, _⟩ := lt _ _ h1
      have hf := List.getElem?_eq_getElem a1
      have hf2 := List.getElem?_eq_getElem a2
      refine hI'.slot_unique (by omega) hf2 hf ?_
      have := permOf _ _ h2
      rwa [List.map_id, List.map_id, vsOf _ _ _ hf, vsOf _ _ _ hf2] at this
    show _ = V (key' s)
    rw [h3, hss]
  have e : (st.surface T vol).2 = ((oddFacets T st.mesh σ).map V).sum := by
    rw [surface_eq hT vol h]
    conv_rhs => rw [oddFacets, List.map_map]
    congr 1
    refine List.map_congr_left fun s hs => ?_
    obtain ⟨s', h1, h2, h3⟩ := fnd (((st.mesh.vertsOf (T.cellDim - 1) s).map σ).insertionSort (· ≤ ·))
      (hperm.mem_iff.2 (List.mem_map.2 ⟨s, hs, rfl⟩))
    obtain ⟨a1, b1⟩ := lt _ _ hs
    obtain ⟨a2, b2⟩ := lt _ _ h1
    have hf := List.getElem?_eq_getElem a1
    have hf2 := List.getElem?_eq_getElem a2
    show _ = V _
    rw [h3, Mesh.pointsOf, Mesh.pointsOf, vsOf _ _ _ hf, vsOf _ _ _ hf2]
    refine hvol s s' _ _ hf hf2 b1 b2 ?_
    have := permOf _ _ h2
    rw [List.map_id, vsOf _ _ _ hf, vsOf _ _ _ hf2] at this
    exact this.symm
  rw [e', e]
  exact (hperm.map _).sum_eq

omit [Field K] in
theorem points_map {T : Topo} {m m' : Mesh P} (hI : Inv T m) {σ : Nat → Nat}
    (hpt : ∀ v < m.verts.length, m'.ptOf (σ v) = m.ptOf v) {d : Nat} {f : Elem} (hf : f ∈ m.elems d) :
    f.verts.filterMap m.ptOf = (f.verts.map σ).filterMap m'.ptOf := by
  rw [List.filterMap_map]
  exact List.filterMap_congr fun v hv => (hpt v ((hI.verts _ f hf).2.2 v hv)).symm

/-- Two meshes built by any histories such that the cells of the second are those of the first in any order, after a
renumbering of the vertices which keeps the points, have the same surface.  The full statement is without `hvol`: here
the volume of facets must not depend on the order of their vertices, which holds for lines and triangles
(`C45_triangle`, `C45_triangle_space`) but not for quadrilaterals (`C45_violated`), the facets of hexahedra; without
`hvol` the statement fails (`C48_violated`). -/
theorem C48_surface_order_partial {T : Topo} (hT : LibTopo T) (hn : 2 ≤ T.cellDim) (vol : List P → K)
    (hvol : ∀ l l' : List P, l.Perm l' → vol l = vol l') {st st' : MState P} (h : Reached T st) (h' : Reached T st')
    (σ : Nat → Nat) (hσ : ∀ a b, σ a = σ b → a = b)
    (hpt : ∀ v < st.mesh.verts.length, st'.mesh.ptOf (σ v) = st.mesh.ptOf v)
    (hc : ((st'.mesh.elems T.cellDim).map (·.verts)).Perm ((st.mesh.elems T.cellDim).map fun e => e.verts.map σ)) :
    (st'.surface T vol).2 = (st.surface T vol).2 := by
  refine surface_order hT hn vol h h' σ hσ (fun s s' f f' hf _ _ _ hp => hvol _ _ ?_) hc
  rw [points_map (h.inv hT.wf).inv hpt (List.mem_of_getElem? hf)]
  exact hp.filterMap _

end Measure

/-! ### Cases -/

/-- Length of an edge in the maximum norm, from its points. -/
def edgeLen : List (Fin 2 → Rat) → Rat
  | [p, q] => max |p 0 - q 0| |p 1 - q 1|
  | _ => 0

/-- Two triangles forming a square, with a query in between. -/
def squareOps : List (QOp (Fin 2 → Rat)) :=
  [.mesh (.vertex none ![0, 0]), .mesh (.vertex none ![1, 0]), .mesh (.vertex none ![0, 1]), .mesh (.vertex none ![1, 1]),
   .mesh (.elem 2 [0, 1, 2]), .isBoundary 1 0, .mesh (.elem 2 [1, 3, 2])]

/-- The same in another order of vertices and triangles. -/
def squareOps' : List (QOp (Fin 2 → Rat)) :=
  [.mesh (.vertex none ![1, 1]), .mesh (.vertex none ![0, 1]), .mesh (.vertex none ![1, 0]), .mesh (.vertex none ![0, 0]),
   .mesh (.elem 2 [2, 0, 1]), .mesh (.elem 2 [3, 2, 1])]

/-- The states reached. -/
def squareState : MState (Fin 2 → Rat) := (MState.empty.run (simplexTopo 2) squareOps).getD MState.empty

/-- See `squareState`. -/
def squareState' : MState (Fin 2 → Rat) := (MState.empty.run (simplexTopo 2) squareOps').getD MState.empty

theorem squareState_reached : Reached (simplexTopo 2) squareState :=
  ⟨squareOps, by simp [squareOps, QOp.meshOps, MOp.Distinct], rfl, by unfold UniqueVids; decide +kernel⟩

theorem squareState'_reached : Reached (simplexTopo 2) squareState' :=
  ⟨squareOps', by simp [squareOps', QOp.meshOps, MOp.Distinct], rfl, by unfold UniqueVids; decide +kernel⟩

/-- The renumbering of the vertices. -/
def squareSigma (v : Nat) : Nat := if v < 4 then 3 - v else v

/-- The hypotheses of `C48_surface_order_partial` hold for the two, and the surface is the length 4 of the boundary. -/
example : (∀ l l' : List (Fin 2 → Rat), l.Perm l' → edgeLen l = edgeLen l')
    ∧ (∀ a b, squareSigma a = squareSigma b → a = b)
    ∧ (∀ v < squareState.mesh.verts.length, squareState'.mesh.ptOf (squareSigma v) = squareState.mesh.ptOf v)
    ∧ ((squareState'.mesh.elems 2).map (·.verts)).Perm ((squareState.mesh.elems 2).map fun e => e.verts.map squareSigma)
    ∧ (squareState.surface (simplexTopo 2) edgeLen).2 = 4 := by
  refine ⟨?_, ?_, ?_, ?_, ?_⟩
  · intro l l' h
    match l, l', h.length_eq with
    | [], [], _ => rfl
    | [_], [_], _ => rfl
    | [a, b], [c, e], _ =>
      have hm : a = c ∧ b = e ∨ a = e ∧ b = c := by
        have h1 : a = c ∨ a = e := by simpa using h.mem_iff.1 (by simp : a ∈ [a, b])
        rcases h1 with rfl | rfl
        · left; exact ⟨rfl, by simpa using h⟩
        · right; refine ⟨rfl, ?_⟩
          have h2 := h.trans (List.Perm.swap a c [])
          simpa using h2
      rcases hm with ⟨rfl, rfl⟩ | ⟨rfl, rfl⟩
      · rfl
      · simp [edgeLen, abs_sub_comm]
    | _ :: _ :: _ :: _, _ :: _ :: _ :: _, _ => rfl
  · intro a b h; unfold squareSigma at h; split at h <;> split at h <;> omega
  · decide +kernel
  · decide +kernel
  · decide +kernel

end VG
