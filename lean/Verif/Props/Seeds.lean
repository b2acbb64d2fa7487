import Verif.Lemmas.Seeds
import Verif.Props.ViewQueries

/-!
C20: extract_seed_points.
-/

namespace VG

variable {P : Type}

/-- Specification: two different cells of the collection `S` with a common facet. -/
def FacetAdj (T : Topo) (m : Mesh P) (S : Nat → Prop) (a b : Nat) : Prop :=
  S a ∧ S b ∧ a ≠ b ∧ ∃ f, UsedBy T m f a ∧ UsedBy T m f b

/-- Specification: connected through common facets inside `S`. -/
def FacetConnected (T : Topo) (m : Mesh P) (S : Nat → Prop) : Nat → Nat → Prop :=
  Relation.ReflTransGen (FacetAdj T m S)

/-- Specification: a list of cells of `S` containing exactly one from each class of connected cells of `S`. -/
def OnePerPart (T : Topo) (m : Mesh P) (S : Nat → Prop) (l : List Nat) : Prop :=
  l.Nodup ∧ (∀ s ∈ l, S s) ∧ ∀ c, S c → ∃! s, s ∈ l ∧ FacetConnected T m S s c

theorem onePerPart_of {T : Topo} {m : Mesh P} {nb : Nat → List Nat} {cells : List Nat} (hnd : cells.Nodup)
    (h : ∀ t ∈ cells, ∀ u, u ∈ nb t ↔ u ∈ cells ∧ u ≠ t ∧ ∃ f, UsedBy T m f t ∧ UsedBy T m f u) :
    OnePerPart T m (· ∈ cells) (seedCells nb cells) := by
  have hin : ∀ c ∈ cells, ∀ n ∈ nb c, n ∈ cells := fun c hc n hn => ((h c hc n).1 hn).1
  have hsym : ∀ a ∈ cells, ∀ b ∈ nb a, a ∈ nb b := by
    intro a ha b hb
    obtain ⟨h1, h2, f, h3, h4⟩ := (h a ha b).1 hb
    exact (h b h1 a).2 ⟨ha, h2.symm, f, h4, h3⟩
  obtain ⟨h1, h2, h3⟩ := seedCells_spec hnd hin hsym
  have hconn : ∀ a ∈ cells, ∀ b, Conn nb a b ↔ FacetConnected T m (· ∈ cells) a b := by
    intro a ha b
    constructor
    · intro hc
      have : b ∈ cells ∧ FacetConnected T m (· ∈ cells) a b := by
        induction hc with
        | refl => exact ⟨ha, Relation.ReflTransGen.refl⟩
        | tail _ hbc ih =>
          obtain ⟨q1, q2, q3⟩ := (h _ ih.1 _).1 hbc
          exact ⟨q1, ih.2.tail ⟨ih.1, q1, q2.symm, q3⟩⟩
      exact this.2
    · intro hc
      have : Conn nb a b := by
        induction hc with
        | refl => exact Relation.ReflTransGen.refl
        | tail _ hbc ih =>
          obtain ⟨q1, q2, q3, q4⟩ := hbc
          exact ih.tail ((h _ q1 _).2 ⟨q2, q3.symm, q4⟩)
      exact this
  have hnd' : (seedCells nb cells).Nodup :=
    h3.imp (fun {a b} (hab : ¬ Conn nb a b) (e : a = b) => hab (by rw [e]))
  refine ⟨hnd', h1, fun c hc => ?_⟩
  obtain ⟨s, hs, hsc⟩ := h2 c hc
  refine ⟨s, ⟨hs, (hconn s (h1 hs) c).1 hsc⟩, ?_⟩
  rintro t ⟨ht, htc⟩
  have htc' := (hconn t (h1 ht) c).2 htc
  by_contra hne
  have hst : Conn nb s t := hsc.trans (Conn.symm' hin hsym (h1 ht) htc')
  have hts : Conn nb t s := htc'.trans (Conn.symm' hin hsym (h1 hs) hsc)
  obtain ⟨i, hi, rfl⟩ := List.mem_iff_getElem.1 hs
  obtain ⟨j, hj, rfl⟩ := List.mem_iff_getElem.1 ht
  rcases Nat.lt_trichotomy i j with hij | rfl | hij
  · exact List.pairwise_iff_getElem.1 h3 i j hi hj hij hst
  · exact hne rfl
  · exact List.pairwise_iff_getElem.1 h3 j i hj hi hij hts

/-- C20 for a mesh: the points are the centroids of cells, one from each part connected through facets. -/
theorem C20_seed_points {T : Topo} (hT : LibTopo T) (hn : 1 ≤ T.cellDim) {st : MState P} (h : Reached T st)
    (centroid : Nat → P) :
    ∃ l, st.seedPoints T centroid = l.map centroid ∧
      OnePerPart T st.mesh (fun c => c < (st.mesh.elems T.cellDim).length) l := by
  have hc : st.mesh.count T.cellDim = (st.mesh.elems T.cellDim).length := by
    unfold Mesh.count; rw [if_neg (by omega)]
  refine ⟨_, rfl, ?_⟩
  have := onePerPart_of (T := T) (m := st.mesh) (nb := fun t => (st.neighbors T.cellDim (T.cellDim - 1) t).2)
    (cells := List.range (st.mesh.count T.cellDim)) List.nodup_range (by
      intro t ht u
      rw [(C14_neighbors_exact hT h hn (le_refl _) (List.mem_range.1 ht)).2 u]
      constructor
      · rintro ⟨h1, s, h2, h3⟩
        exact ⟨List.mem_range.2 (onBoundary_lt hn h3), h1, s, h2, h3⟩
      · rintro ⟨_, h1, s, h2, h3⟩
        exact ⟨h1, s, h2, h3⟩)
  have e : (fun c => c ∈ List.range (st.mesh.count T.cellDim)) = (fun c => c < (st.mesh.elems T.cellDim).length) := by
    funext c; rw [List.mem_range, hc]
  rw [e] at this
  exact this

/-- C20 for a segment (a view containing the facets of its cells): the parts are taken inside the segment. -/
theorem C20_seed_points_of_segment {T : Topo} (hT : LibTopo T) {st : MV P} (h : MVReached T false st)
    (hc : ContainsFaces T st (T.cellDim - 1) T.cellDim)
    (hn : ∀ s ∈ st.view.content (T.cellDim - 1), 0 ≤ st.mesh.eid (T.cellDim - 1) s) (centroid : Nat → P) :
    ∃ l, VC.seedPoints T st.mesh st.view centroid = some (l.map centroid) ∧
      OnePerPart T st.mesh (· ∈ st.view.content T.cellDim) l := by
  have hnb : ∀ t ∈ st.view.content T.cellDim, _ := fun t ht =>
    C15_neighbors_partial hT h (le_refl _) ht hc hn
  refine ⟨seedCells (fun t => ((st.view.neighbors st.mesh T.cellDim (T.cellDim - 1) t).2).getD [])
      (st.view.content T.cellDim), ?_, ?_⟩
  · unfold VC.seedPoints
    rw [if_pos]
    rw [List.all_eq_true]
    intro t ht
    obtain ⟨l, hl, _⟩ := hnb t ht
    rw [hl]; rfl
  · refine onePerPart_of ((h.inv hT.wf).view.nodup _) (fun t ht u => ?_)
    obtain ⟨l, hl, _, h3⟩ := hnb t ht
    rw [hl]
    exact h3 u

/-- C20 with a segmentation: the result consists of the seed points of each segment paired with its id, and
if there is no segment of those of the mesh paired with 0. -/
theorem C20_seed_points_of_segmentation {T : Topo} (hT : LibTopo T) (m : Mesh P) (segs : List (Nat × VC))
    (h : ∀ s ∈ segs, MVReached T false ⟨m, s.2⟩ ∧ ContainsFaces T ⟨m, s.2⟩ (T.cellDim - 1) T.cellDim ∧
      ∀ f ∈ s.2.content (T.cellDim - 1), 0 ≤ m.eid (T.cellDim - 1) f) (centroid : Nat → P) :
    ∃ ls : List (List Nat), ls.length = segs.length ∧
      seedsOfSegments T m centroid segs = some ((List.zipWith
        (fun l (s : Nat × VC) => l.map (fun c => (centroid c, s.1))) ls segs).flatten) ∧
      ∀ (i : Nat) l s, ls[i]? = some l → segs[i]? = some s → OnePerPart T m (· ∈ s.2.content T.cellDim) l := by
  induction segs with
  | nil => exact ⟨[], rfl, rfl, by simp⟩
  | cons s segs ih =>
    obtain ⟨ls, h1, h2, h3⟩ := ih (fun s' hs' => h s' (by simp [hs']))
    obtain ⟨q1, q2, q3⟩ := h s (by simp)
    obtain ⟨l, h4, h5⟩ := C20_seed_points_of_segment hT q1 q2 q3 centroid
    simp only at h4 h5
    refine ⟨l :: ls, by simp [h1], ?_, ?_⟩
    · obtain ⟨id, v⟩ := s
      simp only [seedsOfSegments, h4, h2, Option.bind_some, Option.map_some, List.zipWith_cons_cons,
        List.flatten_cons, List.map_map, Function.comp_def]
    · intro i l' s' hl hs
      cases i with
      | zero => simp only [List.getElem?_cons_zero, Option.some.injEq] at hl hs; subst hl; subst hs; exact h5
      | succ i => simp only [List.getElem?_cons_succ] at hl hs; exact h3 i l' s' hl hs

/-- C20 without segments. -/
theorem C20_no_segments {T : Topo} (st : MState P) (centroid : Nat → P) :
    seedPointsWithSegments T st [] centroid = some ((st.seedPoints T centroid).map (fun p => (p, 0))) := rfl

/-! ### A concrete mesh: two triangles at an edge, and one touching them in a vertex only -/

def threeParts : List (QOp Nat) :=
  [.mesh (.vertex none 0), .mesh (.vertex none 0), .mesh (.vertex none 0), .mesh (.vertex none 0),
   .mesh (.vertex none 0), .mesh (.vertex none 0),
   .mesh (.elem 2 [0, 1, 2]), .mesh (.elem 2 [3, 4, 5]), .mesh (.elem 2 [1, 2, 3])]

def threePartsState : MState Nat := (MState.empty.run (simplexTopo 2) threeParts).getD MState.empty

example : Reached (simplexTopo 2) threePartsState :=
  ⟨threeParts, by simp [threeParts, QOp.meshOps, MOp.Distinct], rfl, by unfold UniqueVids; decide⟩

example : threePartsState.seedPoints (simplexTopo 2) (fun c => 100 + c) = [100, 101] := by decide +kernel

/-- The hypotheses for segments hold in the view of `viewHistory`. -/
example : ContainsFaces (simplexTopo 2) viewHistoryState 1 2 ∧
    (∀ s ∈ viewHistoryState.view.content 1, 0 ≤ viewHistoryState.mesh.eid 1 s) ∧
    VC.seedPoints (simplexTopo 2) viewHistoryState.mesh viewHistoryState.view (fun _ => ()) = some [()] := by
  have hr : MVReached (simplexTopo 2) false viewHistoryState :=
    ⟨viewHistory, by simp [viewHistory, VQOp.creation, MOp.Distinct], by simp [viewHistory], rfl,
      by unfold UniqueVids; decide⟩
  refine ⟨?_, by decide, by decide⟩
  have hI := (hr.inv (simplexTopo_wf 2)).inv
  intro t ht s hs
  have := (mem_bndOf_iff (simplexTopo_wf 2) hI (by decide)).2 hs
  have hall : ∀ t ∈ viewHistoryState.view.content 2, ∀ s ∈ viewHistoryState.mesh.bndOf 2 t 1,
      s ∈ viewHistoryState.view.content 1 := by decide
  exact hall t ht s this

end VG
