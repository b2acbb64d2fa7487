import Verif.Props.CellSurface
import Verif.Props.ViewQueries

/-!
C48: volume and surface of segments.
-/

namespace VG

variable {P K : Type} [Field K]

theorem viewSurface_fold {T : Topo} (hT : T.WF) (vol : List P → K) {m : Mesh P} (hI : Inv T m) (hu : UniqueVids m) (c : View)
    (l : List Nat) (hl : ∀ s ∈ l, s ∈ c (T.cellDim - 1)) :
    ∀ (v : VC) (a : K), v.content = c → VCInv T m v →
      (l.foldl (fun acc s =>
        let q := acc.1.isBoundary T m (T.cellDim - 1) s
        (q.1, if q.2 then acc.2 + vol (m.pointsOf (T.cellDim - 1) s) else acc.2)) (v, a)).2
      = a + ((l.filter fun s => numCellsV T m c s % 2 = 1).map fun s => vol (m.pointsOf (T.cellDim - 1) s)).sum := by
  induction l with
  | nil => intro v a _ _; simp
  | cons s l ih =>
    intro v a hc hv
    obtain ⟨h1, h2, -, h4⟩ := VC.isBoundary_spec hT hI hu hv (T.cellDim - 1) s
    have hb := h4 (le_refl _) (hc ▸ hl s (by simp))
    rw [if_pos rfl, hc] at hb
    rw [List.foldl_cons]
    dsimp only
    rw [ih (fun s' hs' => hl s' (List.mem_cons_of_mem _ hs')) _ _ (h2.trans hc) h1, List.filter_cons]
    by_cases ho : numCellsV T m c s % 2 = 1
    · rw [if_pos (hb.2 ho), if_pos (by simpa using ho), List.map_cons, List.sum_cons, add_assoc]
    · rw [if_neg (fun h => ho (hb.1 h)), if_neg (by simpa using ho)]

/-- The volume of a segment is the sum of the volumes of its cells, each counted once. -/
theorem C48_segment_volume {T : Topo} (hT : LibTopo T) (vol : List P → K) {st : MV P} (h : MVReached T false st) :
    (st.view.content T.cellDim).Nodup ∧
      st.view.volume T vol st.mesh = ((st.view.content T.cellDim).map fun t => vol (st.mesh.pointsOf T.cellDim t)).sum := by
  refine ⟨(h.inv hT.wf).view.nodup _, ?_⟩
  unfold VC.volume
  rw [surfaceOf_foldl (fun t => vol (st.mesh.pointsOf T.cellDim t)), zero_add]

/-- The surface of a segment is the sum over its facets that belong to exactly one of its cells, each counted once, if no facet belongs to more
than two cells of the segment.  The full statement, also with `handle_mesh` as a way of filling the view, is false, see `C48_violated_segment`. -/
theorem C48_segment_surface_partial {T : Topo} (hT : LibTopo T) (vol : List P → K) {st : MV P} (h : MVReached T false st)
    (hman : ∀ s a b c, a ∈ st.view.content T.cellDim → b ∈ st.view.content T.cellDim → c ∈ st.view.content T.cellDim →
      UsedBy T st.mesh s a → UsedBy T st.mesh s b → UsedBy T st.mesh s c → a = b ∨ a = c ∨ b = c) :
    ∃ l : List Nat, l.Nodup ∧
      (∀ s, s ∈ l ↔ s ∈ st.view.content (T.cellDim - 1) ∧ ∃! c, c ∈ st.view.content T.cellDim ∧ UsedBy T st.mesh s c) ∧
      (st.view.surface T vol st.mesh).2 = (l.map fun s => vol (st.mesh.pointsOf (T.cellDim - 1) s)).sum := by
  have hI := h.inv hT.wf
  have h' := h
  obtain ⟨_, _, _, _, hu⟩ := h'
  refine ⟨(st.view.content (T.cellDim - 1)).filter fun s => numCellsV T st.mesh st.view.content s % 2 = 1,
    (hI.view.nodup _).filter _, fun s => ?_, ?_⟩
  · rw [List.mem_filter, decide_eq_true_eq]
    refine and_congr_right fun hs => ?_
    have hm : ∀ c, c ∈ (st.view.content T.cellDim).filter (fun t => s ∈ st.mesh.bndOf T.cellDim t (T.cellDim - 1)) ↔
        c ∈ st.view.content T.cellDim ∧ UsedBy T st.mesh s c := fun c => by
      rw [List.mem_filter, decide_eq_true_eq, mem_bndOf_iff hT.wf hI.inv (le_refl _)]
      rfl
    have hnd := (hI.view.nodup T.cellDim).filter (fun t => decide (s ∈ st.mesh.bndOf T.cellDim t (T.cellDim - 1)))
    unfold numCellsV
    generalize (st.view.content T.cellDim).filter (fun t => decide (s ∈ st.mesh.bndOf T.cellDim t (T.cellDim - 1))) = l at hm hnd
    match l, hm, hnd with
    | [], hm, _ =>
      simp only [List.length_nil, Nat.zero_mod, zero_ne_one, false_iff]
      rintro ⟨c, hc, -⟩
      simpa using (hm c).2 hc
    | [a], hm, _ =>
      simp only [List.length_singleton, true_iff]
      exact ⟨a, (hm a).1 (by simp), fun c hc => by simpa using (hm c).2 hc⟩
    | [a, b], hm, hnd =>
      simp only [List.length_cons, List.length_nil, Nat.zero_add, Nat.reduceAdd, Nat.mod_self, zero_ne_one, false_iff]
      rintro ⟨c, -, hc⟩
      have h1 := hc a ((hm a).1 (by simp))
      have h2 := hc b ((hm b).1 (by simp))
      simp [h1, h2] at hnd
    | a :: b :: c :: l, hm, hnd =>
      exfalso
      obtain ⟨a1, a2⟩ := (hm a).1 (by simp)
      obtain ⟨b1, b2⟩ := (hm b).1 (by simp)
      obtain ⟨c1, c2⟩ := (hm c).1 (by simp)
      have := hman s a b c a1 b1 c1 a2 b2 c2
      simp only [List.nodup_cons, List.mem_cons, not_or] at hnd
      tauto
  · rw [VC.surface, viewSurface_fold hT.wf vol hI.inv hu st.view.content _ (fun _ hs => hs) _ _ rfl hI.view, zero_add]

/-- C48 is violated for views filled by `handle_mesh`: two triangles, and the surface is empty; the volume is right. -/
theorem C48_violated_segment :
    MVReached (simplexTopo 2) true filledViewState ∧ filledViewState.view.content 2 = [0, 1] ∧
    (filledViewState.view.surface (simplexTopo 2) (fun _ => (1 : Rat)) filledViewState.mesh).2 = 0 ∧
    filledViewState.view.volume (simplexTopo 2) (fun _ => (1 : Rat)) filledViewState.mesh = 2 :=
  ⟨filledView_reached, by decide, by decide +kernel, by decide +kernel⟩

/-- The view with both triangles, filled one by one with queries between: four edges of length one. -/
example : (viewHistoryState.view.surface (simplexTopo 2) (fun _ => (1 : Rat)) viewHistoryState.mesh).2 = 4 := by decide +kernel

/-- The hypotheses hold for it. -/
example : ∃ l : List Nat, l.Nodup ∧ (viewHistoryState.view.surface (simplexTopo 2) (fun _ => (1 : Rat)) viewHistoryState.mesh).2 = (l.map fun _ => (1 : Rat)).sum := by
  have hc : viewHistoryState.view.content (simplexTopo 2).cellDim = [0, 1] := by decide
  obtain ⟨l, h1, -, h3⟩ := C48_segment_surface_partial (T := simplexTopo 2) (Or.inl ⟨2, rfl⟩) (fun _ => (1 : Rat))
    (st := viewHistoryState) ⟨viewHistory, by simp [viewHistory, VQOp.creation, MOp.Distinct], by simp [viewHistory], rfl,
      by unfold UniqueVids; decide⟩
    (fun s a b c ha hb hc' _ _ _ => by
      rw [hc] at ha hb hc'
      simp only [List.mem_cons, List.not_mem_nil, or_false] at ha hb hc'
      omega)
  exact ⟨l, h1, h3⟩

end VG
