import Verif.Props.Mphtxt
import Verif.Lemmas.MphtxtReady
import Verif.Props.VoronoiTetsExample

/-!
Meshes for which the hypotheses of C74, C75 and C76 hold, and the violations.
-/

namespace VG

/-- Real coordinates. -/
noncomputable def toReal (x : Fin 3 → ℤ) : Fin 3 → ℝ := fun i => (x i : ℝ)

/-- On which side of a triangle the fourth vertex of a tetrahedron is; both given by vertices. -/
def sideInt (pt : Nat → Fin 3 → ℤ) (vt vc : List Nat) : ℤ :=
  iDet (pt (vt.getD 0 0)) (pt (vt.getD 1 0)) (pt (vt.getD 2 0)) (pt ((vc.filter (fun v => v ∉ vt)).headD 0))

theorem off_int {m : Mesh (Fin 3 → ℝ)} {pt : Nat → Fin 3 → ℤ} (hp : ∀ v < m.verts.length, m.at0 v = toReal (pt v))
    {a b w p : Nat} (ha : a < m.verts.length) (hb : b < m.verts.length) (hw : w < m.verts.length) (hq : p < m.verts.length) :
    offPlane m a b w (m.at0 p) = (iDet (pt a) (pt b) (pt w) (pt p) : ℝ) := by
  unfold offPlane determinant3 iDet
  rw [hp a ha, hp b hb, hp w hw, hp p hq]
  simp only [Pi.sub_apply, toReal]
  push_cast
  ring

theorem side_spec {m : Mesh (Fin 3 → ℝ)} (hI : Inv (simplexTopo 3) m) {pt : Nat → Fin 3 → ℤ}
    (hp : ∀ v < m.verts.length, m.at0 v = toReal (pt v)) {t c : Nat} (h : UsedBy (simplexTopo 3) m t c) :
    (Behind m t c ↔ sideInt pt (m.vertsOf 2 t) (m.vertsOf 3 c) < 0) ∧
    (InFront m t c ↔ 0 < sideInt pt (m.vertsOf 2 t) (m.vertsOf 3 c)) := by
  have key : ∀ a b w p, m.vertsOf 2 t = [a, b, w] → (m.vertsOf 3 c).Perm [a, b, w, p] →
      offPlane m a b w (m.at0 p) = (sideInt pt (m.vertsOf 2 t) (m.vertsOf 3 c) : ℝ) := by
    intro a b w p hv hq
    have hc := (used_lt hI h).2.1
    obtain ⟨e, he⟩ := elem_of_lt (k := 3) (by omega) hc
    have hlt : ∀ v ∈ [a, b, w, p], v < m.verts.length := by
      intro v hv
      have := (hI.verts 3 e (List.mem_of_getElem? he)).2.2 v
      rw [vertsOf_elem he] at hq
      exact this (hq.mem_iff.2 hv)
    have hnd : [a, b, w, p].Nodup := hq.nodup_iff.1 (tet_nodup hI hc).1
    have hf : (m.vertsOf 3 c).filter (fun v => v ∉ [a, b, w]) = [p] := by
      refine List.perm_singleton.1 ((hq.filter _).trans ?_)
      simp only [List.nodup_cons, List.mem_cons, List.not_mem_nil, or_false, not_or] at hnd
      rw [List.filter_cons_of_neg (by simp), List.filter_cons_of_neg (by simp), List.filter_cons_of_neg (by simp),
        List.filter_cons_of_pos (by simp; exact ⟨Ne.symm hnd.1.2.2, Ne.symm hnd.2.1.2, Ne.symm hnd.2.2.1⟩), List.filter_nil]
    unfold sideInt
    rw [hv, hf]
    exact off_int hp (hlt a (by simp)) (hlt b (by simp)) (hlt w (by simp)) (hlt p (by simp))
  obtain ⟨a, b, w, p, hv, hq⟩ := used_verts hI h
  constructor
  · constructor
    · rintro ⟨a, b, w, p, hv, hq, hn⟩
      rw [key a b w p hv hq] at hn
      exact_mod_cast hn
    · intro hn
      refine ⟨a, b, w, p, hv, hq, ?_⟩
      rw [key a b w p hv hq]
      exact_mod_cast hn
  · constructor
    · rintro ⟨a, b, w, p, hv, hq, hn⟩
      rw [key a b w p hv hq] at hn
      exact_mod_cast hn
    · intro hn
      refine ⟨a, b, w, p, hv, hq, ?_⟩
      rw [key a b w p hv hq]
      exact_mod_cast hn

theorem noOverlap_of {m : Mesh (Fin 3 → ℝ)} (hI : Inv (simplexTopo 3) m) {pt : Nat → Fin 3 → ℤ}
    (hp : ∀ v < m.verts.length, m.at0 v = toReal (pt v))
    (h1 : ∀ c < m.count 3, ∀ t ∈ m.bndOf 3 c 2, sideInt pt (m.vertsOf 2 t) (m.vertsOf 3 c) ≠ 0)
    (h2 : ∀ c < m.count 3, ∀ t ∈ m.bndOf 3 c 2, ∀ c' < m.count 3, t ∈ m.bndOf 3 c' 2 → c ≠ c' →
      (sideInt pt (m.vertsOf 2 t) (m.vertsOf 3 c) < 0 ↔ 0 < sideInt pt (m.vertsOf 2 t) (m.vertsOf 3 c'))) :
    NoOverlap m := by
  refine ⟨fun t c h => ?_, fun t c c' h h' hn => ?_⟩
  · obtain ⟨_, hc, hb⟩ := used_lt hI h
    rw [(side_spec hI hp h).1, (side_spec hI hp h).2]
    exact lt_or_gt_of_ne (h1 c hc t hb)
  · obtain ⟨_, hc, hb⟩ := used_lt hI h
    obtain ⟨_, hc', hb'⟩ := used_lt hI h'
    rw [(side_spec hI hp h).1, (side_spec hI hp h').2]
    exact h2 c hc t hb c' hc' hb' hn

theorem segParts_of {P : Type} {st : SegState P} (h : SegReached (simplexTopo 3) st) {gs : List Nat}
    (hg : ∀ g k, st.view g k ≠ [] → g ∈ gs) (h1 : ∀ g ∈ gs, ∀ g' ∈ gs, ∀ c ∈ st.view g 3, c ∈ st.view g' 3 → g = g')
    (h2 : ∀ g ∈ gs, ∀ t ∈ st.view g 2, ∃ c ∈ st.view g 3, t ∈ st.mesh.bndOf 3 c 2)
    (h3 : ∀ t < st.mesh.count 2, ((List.range (st.mesh.count 3)).filter (fun c => t ∈ st.mesh.bndOf 3 c 2)).length ≤ 2) :
    SegParts st := by
  have hI := h.inv (simplexTopo_wf 3) (simplexTopo_closed 3)
  have hgs : ∀ g k t, t ∈ st.view g k → g ∈ gs := fun g k t ht => hg g k (List.ne_nil_of_mem ht)
  refine ⟨fun g g' c k1 k2 => h1 g (hgs g 3 c k1) g' (hgs g' 3 c k2) c k1 k2, fun g t ht => ?_, fun t a b c k1 k2 k3 => ?_⟩
  · obtain ⟨c, c1, c2⟩ := h2 g (hgs g 2 t ht) t ht
    exact ⟨c, c1, (mem_bndOf_iff (simplexTopo_wf 3) hI.mesh (le_refl _)).1 c2⟩
  · obtain ⟨ht, a1, a2⟩ := used_lt hI.mesh k1
    obtain ⟨_, b1, b2⟩ := used_lt hI.mesh k2
    obtain ⟨_, c1, c2⟩ := used_lt hI.mesh k3
    by_contra hn
    simp only [not_or] at hn
    have hs : [a, b, c].Subperm ((List.range (st.mesh.count 3)).filter (fun c => t ∈ st.mesh.bndOf 3 c 2)) := by
      refine List.subperm_of_subset (by simp [hn.1, hn.2.1, hn.2.2]) (fun x hx => ?_)
      simp only [List.mem_cons, List.not_mem_nil, or_false] at hx
      rw [List.mem_filter, List.mem_range, decide_eq_true_eq]
      rcases hx with rfl | rfl | rfl
      · exact ⟨a1, a2⟩
      · exact ⟨b1, b2⟩
      · exact ⟨c1, c2⟩
    have h4 := hs.length_le
    have h5 := h3 t ht
    simp only [List.length_cons, List.length_nil] at h4
    omega

/-- An odd number of cells of the segment counted. -/
theorem hullTri_iff {P : Type} {st : SegState P} (h : SegReached (simplexTopo 3) st) {g t : Nat} :
    HullTri st g t ↔ t ∈ st.view g 2 ∧ ((st.view g 3).filter (fun c => t ∈ st.mesh.bndOf 3 c 2)).length % 2 = 1 := by
  have hI := h.inv (simplexTopo_wf 3) (simplexTopo_closed 3)
  have hm : ∀ c, c ∈ (st.view g 3).filter (fun c => t ∈ st.mesh.bndOf 3 c 2) ↔ CellAt st g t c := by
    intro c
    rw [List.mem_filter, decide_eq_true_eq]
    exact and_congr_right (fun _ => mem_bndOf_iff (simplexTopo_wf 3) hI.mesh (le_refl _))
  refine and_congr_right (fun _ => ⟨?_, fun ho => ⟨_, (hI.nodup g 3).filter _, hm, ho⟩⟩)
  rintro ⟨l, l1, l2, l3⟩
  rw [← l3]
  refine congrArg (· % 2) (List.Perm.length_eq ?_)
  exact (List.perm_ext_iff_of_nodup ((hI.nodup g 3).filter _) l1).2 (fun c => (hm c).trans (l2 c).symm)

/-! ### Three tetrahedra in two segments -/

/-- Coordinates of the vertices. -/
def dominoPt : Nat → Fin 3 → ℤ
  | 1 => ![1, 0, 0]
  | 2 => ![0, 1, 0]
  | 3 => ![0, 0, 1]
  | 4 => ![0, 0, -1]
  | 5 => ![1, 1, 1]
  | _ => ![0, 0, 0]

/-- Two tetrahedra in segment 0, one in segment 1. -/
noncomputable def dominoOps : List (SOp (Fin 3 → ℝ)) :=
  [.mesh (.vertex none (toReal (dominoPt 0))), .mesh (.vertex none (toReal (dominoPt 1))),
   .mesh (.vertex none (toReal (dominoPt 2))), .mesh (.vertex none (toReal (dominoPt 3))),
   .mesh (.vertex none (toReal (dominoPt 4))), .mesh (.vertex none (toReal (dominoPt 5))),
   .mesh (.elem 3 [0, 1, 2, 3]), .mesh (.elem 3 [0, 1, 2, 4]), .mesh (.elem 3 [1, 2, 3, 5]),
   .add 0 3 0, .add 0 3 1, .add 1 3 2]

/-- The state reached. -/
noncomputable def domino : SegState (Fin 3 → ℝ) := (SegState.empty.run (simplexTopo 3) dominoOps).getD SegState.empty

theorem domino_reached : SegReached (simplexTopo 3) domino :=
  ⟨dominoOps, by simp [dominoOps, SOp.creation, MOp.Distinct], rfl, by unfold UniqueVids; decide +kernel⟩

theorem domino_at : ∀ v < domino.mesh.verts.length, domino.mesh.at0 v = toReal (dominoPt v) := by
  intro v hv
  have : v < 6 := hv
  obtain rfl | rfl | rfl | rfl | rfl | rfl : v = 0 ∨ v = 1 ∨ v = 2 ∨ v = 3 ∨ v = 4 ∨ v = 5 := by omega
  all_goals rfl

theorem domino_ready : (MphSrc.ofPoints domino (freshView domino) [0, 1]).Ready :=
  fresh_ready domino_reached (by decide +kernel) _ _ _

theorem domino_parts : SegParts domino := by
  refine segParts_of domino_reached (gs := [0, 1]) ?_ (by decide +kernel) (by decide +kernel) (by decide +kernel)
  intro g k h
  match g with
  | 0 => simp
  | 1 => simp
  | g + 2 => exact absurd rfl h

theorem domino_overlap : NoOverlap domino.mesh :=
  noOverlap_of (domino_reached.inv (simplexTopo_wf 3) (simplexTopo_closed 3)).mesh domino_at (by decide +kernel) (by decide +kernel)

theorem listed_of {P : Type} {S : MphSrc P} (h : S.Ready) {ts : List Nat}
    (h1 : ts.Pairwise (fun t u => S.st.mesh.eid 2 t < S.st.mesh.eid 2 u))
    (h2 : ∀ t ∈ ts, ∃ g ∈ S.gs, t ∈ S.st.view g 2 ∧
      ((S.st.view g 3).filter (fun c => t ∈ S.st.mesh.bndOf 3 c 2)).length % 2 = 1)
    (h3 : ∀ g ∈ S.gs, ∀ t ∈ S.st.view g 2,
      ((S.st.view g 3).filter (fun c => t ∈ S.st.mesh.bndOf 3 c 2)).length % 2 = 1 → t ∈ ts) : Listed S ts := by
  refine ⟨h1, fun t => ⟨fun ht => ?_, ?_⟩⟩
  · obtain ⟨g, hg, hh⟩ := h2 t ht
    exact ⟨g, hg, (hullTri_iff h.reached).2 hh⟩
  · rintro ⟨g, hg, hh⟩
    obtain ⟨k1, k2⟩ := (hullTri_iff h.reached).1 hh
    exact h3 g hg t k1 k2

theorem domino_listed : Listed (MphSrc.ofPoints domino (freshView domino) [0, 1]) [1, 2, 3, 4, 5, 6, 7, 8, 9] := by
  refine listed_of domino_ready ?_ ?_ ?_
  · show ([1, 2, 3, 4, 5, 6, 7, 8, 9] : List Nat).Pairwise (fun t u => domino.mesh.eid 2 t < domino.mesh.eid 2 u)
    decide +kernel
  · show ∀ t ∈ ([1, 2, 3, 4, 5, 6, 7, 8, 9] : List Nat), ∃ g ∈ [0, 1], t ∈ domino.view g 2 ∧
      ((domino.view g 3).filter (fun c => t ∈ domino.mesh.bndOf 3 c 2)).length % 2 = 1
    decide +kernel
  · show ∀ g ∈ [0, 1], ∀ t ∈ domino.view g 2,
      ((domino.view g 3).filter (fun c => t ∈ domino.mesh.bndOf 3 c 2)).length % 2 = 1 → t ∈ ([1, 2, 3, 4, 5, 6, 7, 8, 9] : List Nat)
    decide +kernel

/-- A case for C74, C75, C76: a file is written; the triangle inside segment 0 is not in it, the one between the
segments is in it once; the segments on its sides are the first and the second. -/
example : ∃ F, (MphSrc.ofPoints domino (freshView domino) [0, 1]).write = .ok F ∧
    SegParts domino ∧ NoOverlap domino.mesh ∧
    F.tris = [[0, 1, 3], [0, 2, 3], [1, 2, 3], [0, 1, 4], [0, 2, 4], [1, 2, 4], [1, 2, 5], [1, 3, 5], [2, 3, 5]] ∧
    F.sides[2]? = some (1, 2) := by
  have hr := domino_ready
  have hI := domino_reached.inv (simplexTopo_wf 3) (simplexTopo_closed 3)
  obtain ⟨F, hF⟩ := C74_written_partial hr (fun t u => normalsParallel_symm t u)
    (show ∀ c < domino.mesh.count 3, ∃ g, c ∈ domino.view g 3 from fun c hc => by
      have : c < 3 := hc
      obtain rfl | rfl | rfl : c = 0 ∨ c = 1 ∨ c = 2 := by omega
      · exact ⟨0, by decide +kernel⟩
      · exact ⟨0, by decide +kernel⟩
      · exact ⟨1, by decide +kernel⟩)
  refine ⟨F, hF, domino_parts, domino_overlap, ?_, ?_⟩
  · obtain ⟨_, _, _, ts, h1, h2, _⟩ := C74_geometry hr (fun t u => normalsParallel_symm t u) hF
    rw [h2, h1.unique hr domino_listed]
    rfl
  · obtain ⟨up, down, h1, h2⟩ := C76_sides hr hF domino_listed domino_parts.one domino_overlap
    obtain ⟨h3, _, _⟩ := h2 3 (by simp)
    have hu : ∀ c, 3 ∈ domino.mesh.bndOf 3 c 2 → UsedBy (simplexTopo 3) domino.mesh 3 c := fun c hc =>
      (mem_bndOf_iff (simplexTopo_wf 3) hI.mesh (le_refl _)).1 hc
    have u0 := hu 0 (by decide +kernel)
    have u2 := hu 2 (by decide +kernel)
    have e1 := (h3 0 (by simp) 0 ⟨by decide +kernel, u0⟩).1 ((side_spec hI.mesh domino_at u0).1.2 (by decide +kernel))
    have e2 := (h3 1 (by simp) 2 ⟨by decide +kernel, u2⟩).2 ((side_spec hI.mesh domino_at u2).2.2 (by decide +kernel))
    rw [h1]
    show some (up 3, down 3) = some (1, 2)
    rw [e1, e2]
    rfl

/-- Two triangles of the boundary for which `C75_flat_partial` has its hypotheses. -/
example : HullTri domino 0 1 ∧ HullTri domino 0 4 ∧ (∀ g, 1 ∈ domino.view g 2 ↔ 4 ∈ domino.view g 2) ∧
    domino.mesh.vertsOf 2 1 = [0, 1, 3] ∧ domino.mesh.vertsOf 2 4 = [0, 1, 4] ∧
    ∀ x ∈ [0, 1, 4], offPlane domino.mesh 0 1 3 (domino.mesh.at0 x) = 0 := by
  refine ⟨(hullTri_iff domino_reached).2 (by decide +kernel), (hullTri_iff domino_reached).2 (by decide +kernel), fun g => ?_,
    rfl, rfl, fun x hx => ?_⟩
  · match g with
    | 0 => decide +kernel
    | 1 => decide +kernel
    | g + 2 => exact ⟨fun h => absurd h (List.not_mem_nil), fun h => absurd h (List.not_mem_nil)⟩
  · have hl : domino.mesh.verts.length = 6 := rfl
    have hx' : x < 6 := by
      simp only [List.mem_cons, List.not_mem_nil, or_false] at hx
      omega
    rw [off_int domino_at (by omega) (by omega) (by omega) (by omega)]
    simp only [List.mem_cons, List.not_mem_nil, or_false] at hx
    rcases hx with rfl | rfl | rfl
    · exact_mod_cast (by decide : iDet (dominoPt 0) (dominoPt 1) (dominoPt 3) (dominoPt 0) = 0)
    · exact_mod_cast (by decide : iDet (dominoPt 0) (dominoPt 1) (dominoPt 3) (dominoPt 1) = 0)
    · exact_mod_cast (by decide : iDet (dominoPt 0) (dominoPt 1) (dominoPt 3) (dominoPt 4) = 0)

/-! ### The violations -/

/-- Two tetrahedra, one of them in a segment. -/
def looseOps : List (SOp Unit) :=
  [.mesh (.vertex none ()), .mesh (.vertex none ()), .mesh (.vertex none ()), .mesh (.vertex none ()), .mesh (.vertex none ()),
   .mesh (.elem 3 [0, 1, 2, 3]), .mesh (.elem 3 [0, 1, 2, 4]), .add 0 3 0]

/-- The state reached. -/
def loose : SegState Unit := (SegState.empty.run (simplexTopo 3) looseOps).getD SegState.empty

/-- C74 is violated: a mesh with a cell in no segment, for which writing is undefined behaviour. -/
theorem C74_violated : ∃ S : MphSrc Unit, S.Ready ∧ SegParts S.st ∧ S.st.mesh.count 3 = 2 ∧ S.write = .error .undefined := by
  have hr : SegReached (simplexTopo 3) loose :=
    ⟨looseOps, by simp [looseOps, SOp.creation, MOp.Distinct], rfl, by unfold UniqueVids; decide⟩
  have hS := fresh_ready hr (by decide) [0] (fun _ _ => false) (fun _ _ => false)
  refine ⟨_, hS, ?_, rfl, C74_undefined hS (fun _ _ => rfl) (c := 1) (by decide : 1 < loose.mesh.count 3) ?_⟩
  · refine segParts_of hr (gs := [0]) ?_ (by decide +kernel) (by decide +kernel) (by decide +kernel)
    intro g k h
    match g with
    | 0 => simp
    | g + 1 => exact absurd rfl h
  · intro g
    show 1 ∉ loose.view g 3
    match g with
    | 0 => decide +kernel
    | g + 1 => exact List.not_mem_nil

/-- Coordinates of a flat tetrahedron. -/
def tilePt : Nat → Fin 3 → ℤ
  | 1 => ![30000, 0, 0]
  | 2 => ![0, 30000, 0]
  | 3 => ![10000, 10000, 3]
  | _ => ![0, 0, 0]

/-- One flat tetrahedron. -/
noncomputable def tileOps : List (SOp (Fin 3 → ℝ)) :=
  [.mesh (.vertex none (toReal (tilePt 0))), .mesh (.vertex none (toReal (tilePt 1))),
   .mesh (.vertex none (toReal (tilePt 2))), .mesh (.vertex none (toReal (tilePt 3))),
   .make 0 (.elem 3 [0, 1, 2, 3])]

/-- The state reached. -/
noncomputable def tile : SegState (Fin 3 → ℝ) := (SegState.empty.run (simplexTopo 3) tileOps).getD SegState.empty

theorem tile_at : ∀ v < tile.mesh.verts.length, tile.mesh.at0 v = toReal (tilePt v) := by
  intro v hv
  have : v < 4 := hv
  obtain rfl | rfl | rfl | rfl : v = 0 ∨ v = 1 ∨ v = 2 ∨ v = 3 := by omega
  all_goals rfl

/-- Normal of a triangle with integer corners. -/
def iNormal (a b w : Fin 3 → ℤ) : Fin 3 → ℤ :=
  ![(b 1 - a 1) * (w 2 - a 2) - (b 2 - a 2) * (w 1 - a 1), (b 2 - a 2) * (w 0 - a 0) - (b 0 - a 0) * (w 2 - a 2),
    (b 0 - a 0) * (w 1 - a 1) - (b 1 - a 1) * (w 0 - a 0)]

/-- Inner product of integer vectors. -/
def iInner (x y : Fin 3 → ℤ) : ℤ := x 0 * y 0 + x 1 * y 1 + x 2 * y 2

theorem near_int {m : Mesh (Fin 3 → ℝ)} {pt : Nat → Fin 3 → ℤ} (hp : ∀ v < m.verts.length, m.at0 v = toReal (pt v))
    {t u a b w a' b' w' : Nat} (ht : m.vertsOf 2 t = [a, b, w]) (hu : m.vertsOf 2 u = [a', b', w'])
    (ha : ∀ v ∈ [a, b, w, a', b', w'], v < m.verts.length)
    (h : let n := iNormal (pt a) (pt b) (pt w); let n' := iNormal (pt a') (pt b') (pt w')
      (10 ^ 6 - 1) ^ 2 * (iInner n n * iInner n' n') < 10 ^ 12 * iInner n n' ^ 2) : NearlyParallel m t u := by
  refine ⟨a, b, w, a', b', w', ht, hu, ?_⟩
  have c : ∀ x y z : Nat, x < m.verts.length → y < m.verts.length → z < m.verts.length → ∀ i,
      crossProd (m.at0 y - m.at0 x) (m.at0 z - m.at0 x) i = (iNormal (pt x) (pt y) (pt z) i : ℝ) := by
    intro x y z hx hy hz i
    rw [hp x hx, hp y hy, hp z hz]
    fin_cases i
    · simp [iNormal, toReal]
    · simp [iNormal, toReal]
    · simp [iNormal, toReal]
  simp only [c a b w (ha a (by simp)) (ha b (by simp)) (ha w (by simp)), c a' b' w' (ha a' (by simp)) (ha b' (by simp)) (ha w' (by simp)),
    Fin.sum_univ_three]
  simp only [iInner] at h
  generalize iNormal (pt a) (pt b) (pt w) = n at *
  generalize iNormal (pt a') (pt b') (pt w') = n' at *
  have h' : ((10 : ℝ) ^ 6 - 1) ^ 2 * (((n 0 : ℝ) * n 0 + n 1 * n 1 + n 2 * n 2) * (n' 0 * n' 0 + n' 1 * n' 1 + n' 2 * n' 2)) <
      10 ^ 12 * ((n 0 : ℝ) * n' 0 + n 1 * n' 1 + n 2 * n' 2) ^ 2 := by exact_mod_cast h
  have e : (1 - 1 / (10 : ℝ) ^ 6) ^ 2 = ((10 : ℝ) ^ 6 - 1) ^ 2 / 10 ^ 12 := by norm_num
  rw [e, div_mul_eq_mul_div, div_lt_iff₀ (by norm_num)]
  have e' : ∀ x y z : ℝ, x ^ 2 + y ^ 2 + z ^ 2 = x * x + y * y + z * z := fun x y z => by ring
  rw [e', e']
  linarith

/-- C75 is violated for triangles in one plane: the four triangles of a flat tetrahedron, which are not in one plane,
are written with the same contact index. -/
theorem C75_violated_plane : ∃ (st : SegState (Fin 3 → ℝ)) (seg : Nat → VC) (F : MphFile (Fin 3 → ℝ)),
    (MphSrc.ofPoints st seg [0]).Ready ∧ SegParts st ∧ NoOverlap st.mesh ∧ (MphSrc.ofPoints st seg [0]).write = .ok F ∧
    F.tris = [[0, 1, 2], [0, 1, 3], [0, 2, 3], [1, 2, 3]] ∧ F.contacts = [0, 0, 0, 0] ∧
    offPlane st.mesh 0 1 2 (st.mesh.at0 3) ≠ 0 := by
  have hre : SegReached (simplexTopo 3) tile :=
    ⟨tileOps, by simp [tileOps, SOp.creation, MOp.Distinct], rfl, by unfold UniqueVids; decide +kernel⟩
  have hI := hre.inv (simplexTopo_wf 3) (simplexTopo_closed 3)
  have hr : (MphSrc.ofPoints tile (freshView tile) [0]).Ready := fresh_ready hre (by decide +kernel) _ _ _
  have hp : SegParts tile := by
    refine segParts_of hre (gs := [0]) ?_ (by decide +kernel) (by decide +kernel) (by decide +kernel)
    intro g k h
    match g with
    | 0 => simp
    | g + 1 => exact absurd rfl h
  have ho : NoOverlap tile.mesh := noOverlap_of hI.mesh tile_at (by decide +kernel) (by decide +kernel)
  have hl : Listed (MphSrc.ofPoints tile (freshView tile) [0]) [0, 1, 2, 3] := by
    refine listed_of hr ?_ ?_ ?_
    · show ([0, 1, 2, 3] : List Nat).Pairwise (fun t u => tile.mesh.eid 2 t < tile.mesh.eid 2 u)
      decide +kernel
    · show ∀ t ∈ ([0, 1, 2, 3] : List Nat), ∃ g ∈ [0], t ∈ tile.view g 2 ∧
        ((tile.view g 3).filter (fun c => t ∈ tile.mesh.bndOf 3 c 2)).length % 2 = 1
      decide +kernel
    · show ∀ g ∈ [0], ∀ t ∈ tile.view g 2,
        ((tile.view g 3).filter (fun c => t ∈ tile.mesh.bndOf 3 c 2)).length % 2 = 1 → t ∈ ([0, 1, 2, 3] : List Nat)
      decide +kernel
  obtain ⟨F, hF⟩ := C74_written_partial hr (fun t u => normalsParallel_symm t u)
    (show ∀ c < tile.mesh.count 3, ∃ g, c ∈ tile.view g 3 from fun c hc => by
      have : c < 1 := hc
      obtain rfl : c = 0 := by omega
      exact ⟨0, by decide +kernel⟩)
  have hlen : tile.mesh.verts.length = 4 := rfl
  refine ⟨tile, freshView tile, F, hr, hp, ho, hF, ?_, ?_, ?_⟩
  · obtain ⟨_, _, _, ts, h1, h2, _⟩ := C74_geometry hr (fun t u => normalsParallel_symm t u) hF
    rw [h2, h1.unique hr hl]
    rfl
  · obtain ⟨ix, n, h1, h2, _, h4⟩ := C75_contacts_partial hr hF hl
    have hh : ∀ t < 4, HullTri tile 0 t := fun t ht => (hullTri_iff hre).2 ((by decide +kernel :
      ∀ t < 4, t ∈ tile.view 0 2 ∧ ((tile.view 0 3).filter (fun c => t ∈ tile.mesh.bndOf 3 c 2)).length % 2 = 1) t ht)
    have link : ∀ t < 4, NearlyParallel tile.mesh 0 t → ix t = ix 0 := by
      intro t ht hn
      refine ((h4 (hp.sameHulls hr) 0 (by simp) t (by simp; omega)).2 (Relation.ReflTransGen.single ?_)).symm
      refine ⟨0, by simp, hh 0 (by omega), hh t ht, ?_, fun g => ?_, hn⟩
      · obtain rfl | rfl | rfl | rfl : t = 0 ∨ t = 1 ∨ t = 2 ∨ t = 3 := by omega
        · exact ⟨0, by decide +kernel, by decide +kernel⟩
        · exact ⟨0, by decide +kernel, by decide +kernel⟩
        · exact ⟨0, by decide +kernel, by decide +kernel⟩
        · exact ⟨1, by decide +kernel, by decide +kernel⟩
      · match g with
        | 0 => exact ⟨fun _ => (hh t ht).1, fun _ => (hh 0 (by omega)).1⟩
        | g + 1 => exact ⟨fun h => absurd h (List.not_mem_nil), fun h => absurd h (List.not_mem_nil)⟩
    have l1 : ix 1 = ix 0 := link 1 (by omega) (near_int (a := 0) (b := 1) (w := 2) (a' := 0) (b' := 1) (w' := 3) tile_at rfl rfl
      (by decide +kernel) (by decide +kernel))
    have l2 : ix 2 = ix 0 := link 2 (by omega) (near_int (a := 0) (b := 1) (w := 2) (a' := 0) (b' := 2) (w' := 3) tile_at rfl rfl
      (by decide +kernel) (by decide +kernel))
    have l3 : ix 3 = ix 0 := link 3 (by omega) (near_int (a := 0) (b := 1) (w := 2) (a' := 1) (b' := 2) (w' := 3) tile_at rfl rfl
      (by decide +kernel) (by decide +kernel))
    obtain ⟨k1, k2⟩ := (h2 (ix 0)).2 ⟨0, by simp, rfl⟩
    obtain ⟨t, ht, k3⟩ := (h2 0).1 ⟨by omega, by omega⟩
    have h0 : ix 0 = 0 := by
      simp only [List.mem_cons, List.not_mem_nil, or_false] at ht
      rcases ht with rfl | rfl | rfl | rfl
      · exact k3
      · rw [← l1]; exact k3
      · rw [← l2]; exact k3
      · rw [← l3]; exact k3
    rw [h1]
    simp only [List.map_cons, List.map_nil, l1, l2, l3, h0]
  · rw [off_int tile_at (by omega) (by omega) (by omega) (by omega)]
    exact_mod_cast (by decide : iDet (tilePt 0) (tilePt 1) (tilePt 2) (tilePt 3) ≠ 0)

/-! ### Cells in several segments -/

/-- The decision of the writer for integer coordinates. -/
def parInt (m : Mesh (Fin 3 → ℝ)) (pt : Nat → Fin 3 → ℤ) (t u : Nat) : Bool :=
  let n := iNormal (pt ((m.vertsOf 2 t).getD 0 0)) (pt ((m.vertsOf 2 t).getD 1 0)) (pt ((m.vertsOf 2 t).getD 2 0))
  let n' := iNormal (pt ((m.vertsOf 2 u).getD 0 0)) (pt ((m.vertsOf 2 u).getD 1 0)) (pt ((m.vertsOf 2 u).getD 2 0))
  decide ((10 ^ 6 - 1) ^ 2 * (iInner n n * iInner n' n') < 10 ^ 12 * iInner n n' ^ 2)

theorem parallel_int {m : Mesh (Fin 3 → ℝ)} {pt : Nat → Fin 3 → ℤ} (hp : ∀ v, m.at0 v = toReal (pt v)) :
    normalsParallel m = parInt m pt := by
  have c : ∀ t i, m.triNormal t i = (iNormal (pt ((m.vertsOf 2 t).getD 0 0)) (pt ((m.vertsOf 2 t).getD 1 0))
      (pt ((m.vertsOf 2 t).getD 2 0)) i : ℝ) := by
    intro t i
    unfold Mesh.triNormal normalTriangle
    rw [hp, hp, hp]
    fin_cases i
    · simp [iNormal, toReal, crossProd]
    · simp [iNormal, toReal, crossProd]
    · simp [iNormal, toReal, crossProd]
  funext t u
  rw [Bool.eq_iff_iff]
  unfold normalsParallel parInt
  rw [decide_eq_true_eq, abs_lt_iff_sq (by norm_num) (euclNorm_nonneg _) (euclNorm_nonneg _), euclNorm_sq, euclNorm_sq,
    decide_eq_true_eq]
  unfold innerProd
  simp only [Fin.sum_univ_three, c, iInner]
  generalize iNormal _ _ _ = n
  generalize iNormal _ _ _ = n'
  have e : (1 - 1 / (1000000 : ℝ)) ^ 2 = ((10 : ℝ) ^ 6 - 1) ^ 2 / 10 ^ 12 := by norm_num
  rw [e, div_mul_eq_mul_div, div_lt_iff₀ (by norm_num), mul_comm ((_ : ℝ) ^ 2) (10 ^ 12)]
  have e' : ∀ x y z : ℝ, x ^ 2 + y ^ 2 + z ^ 2 = x * x + y * y + z * z := fun x y z => by ring
  try simp only [e']
  exact_mod_cast Iff.rfl

/-- Coordinates of a pyramid with a square base, and of a point below. -/
def roofPt : Nat → Fin 3 → ℤ
  | 1 => ![2, 0, 0]
  | 2 => ![0, 2, 0]
  | 3 => ![2, 2, 0]
  | 4 => ![1, 1, 2]
  | 5 => ![0, 0, -2]
  | _ => ![0, 0, 0]

/-- Two tetrahedra above the square, in segments 0 and 1; one tetrahedron below one half of the square, in segment
0. -/
noncomputable def roofOps : List (SOp (Fin 3 → ℝ)) :=
  [.mesh (.vertex none (toReal (roofPt 0))), .mesh (.vertex none (toReal (roofPt 1))),
   .mesh (.vertex none (toReal (roofPt 2))), .mesh (.vertex none (toReal (roofPt 3))),
   .mesh (.vertex none (toReal (roofPt 4))), .mesh (.vertex none (toReal (roofPt 5))),
   .mesh (.elem 3 [0, 1, 2, 4]), .mesh (.elem 3 [1, 2, 3, 4]), .mesh (.elem 3 [0, 1, 2, 5]),
   .add 0 3 0, .add 0 3 1, .add 0 3 2, .add 1 3 0, .add 1 3 1]

/-- The state reached. -/
noncomputable def roof : SegState (Fin 3 → ℝ) := (SegState.empty.run (simplexTopo 3) roofOps).getD SegState.empty

theorem roof_at : ∀ v, roof.mesh.at0 v = toReal (roofPt v) := by
  intro v
  match v with
  | 0 | 1 | 2 | 3 | 4 | 5 => rfl
  | v + 6 =>
    have : roof.mesh.at0 (v + 6) = 0 := rfl
    rw [this]
    funext i
    fin_cases i <;> simp [toReal, roofPt]

/-- C75 is violated for cells in several segments: two triangles with two common vertices, in one plane, in the same two
segments and both on the boundary of segment 1, have different contact indices; one of them is on the boundary of
segment 0, too, and was given its index there. -/
theorem C75_violated_several : ∃ (st : SegState (Fin 3 → ℝ)) (seg : Nat → VC) (F : MphFile (Fin 3 → ℝ)),
    (MphSrc.ofPoints st seg [0, 1]).Ready ∧ NoOverlap st.mesh ∧ (MphSrc.ofPoints st seg [0, 1]).write = .ok F ∧
    Listed (MphSrc.ofPoints st seg [0, 1]) [0, 1, 2, 4, 5, 6, 7, 8, 9] ∧
    F.tris[0]? = some [0, 1, 2] ∧ F.tris[3]? = some [1, 2, 3] ∧ SideBySide st [0, 1] 0 4 ∧
    offPlane st.mesh 0 1 2 (st.mesh.at0 3) = 0 ∧ F.contacts[0]? ≠ F.contacts[3]? := by
  have hre : SegReached (simplexTopo 3) roof :=
    ⟨roofOps, by simp [roofOps, SOp.creation, MOp.Distinct], rfl, by unfold UniqueVids; decide +kernel⟩
  have hI := hre.inv (simplexTopo_wf 3) (simplexTopo_closed 3)
  have hr : (MphSrc.ofPoints roof (freshView roof) [0, 1]).Ready := fresh_ready hre (by decide +kernel) _ _ _
  have hat : ∀ v < roof.mesh.verts.length, roof.mesh.at0 v = toReal (roofPt v) := fun v _ => roof_at v
  have ho : NoOverlap roof.mesh := noOverlap_of hI.mesh hat (by decide +kernel) (by decide +kernel)
  have hl : Listed (MphSrc.ofPoints roof (freshView roof) [0, 1]) [0, 1, 2, 4, 5, 6, 7, 8, 9] := by
    refine listed_of hr ?_ ?_ ?_
    · show ([0, 1, 2, 4, 5, 6, 7, 8, 9] : List Nat).Pairwise (fun t u => roof.mesh.eid 2 t < roof.mesh.eid 2 u)
      decide +kernel
    · show ∀ t ∈ ([0, 1, 2, 4, 5, 6, 7, 8, 9] : List Nat), ∃ g ∈ [0, 1], t ∈ roof.view g 2 ∧
        ((roof.view g 3).filter (fun c => t ∈ roof.mesh.bndOf 3 c 2)).length % 2 = 1
      decide +kernel
    · show ∀ g ∈ [0, 1], ∀ t ∈ roof.view g 2,
        ((roof.view g 3).filter (fun c => t ∈ roof.mesh.bndOf 3 c 2)).length % 2 = 1 →
          t ∈ ([0, 1, 2, 4, 5, 6, 7, 8, 9] : List Nat)
      decide +kernel
  obtain ⟨F, hF⟩ := C74_written_partial hr (fun t u => normalsParallel_symm t u)
    (show ∀ c < roof.mesh.count 3, ∃ g, c ∈ roof.view g 3 from fun c hc => by
      have : c < 3 := hc
      obtain rfl | rfl | rfl : c = 0 ∨ c = 1 ∨ c = 2 := by omega
      · exact ⟨0, by decide +kernel⟩
      · exact ⟨0, by decide +kernel⟩
      · exact ⟨0, by decide +kernel⟩)
  have hlen : roof.mesh.verts.length = 6 := rfl
  obtain ⟨l, a, _, hca, _, _, _, _, h7, h8⟩ := write_spec hr (fun t u => normalsParallel_symm t u)
  obtain ⟨_, e2, e3, _⟩ := h8 F hF
  rw [h7.unique hr hl] at e2 e3
  refine ⟨roof, freshView roof, F, hr, ho, hF, hl, ?_, ?_, ?_, ?_, ?_⟩
  · rw [e2]; rfl
  · rw [e2]; rfl
  · refine ⟨1, by simp, (hullTri_iff hre).2 (by decide +kernel), (hullTri_iff hre).2 (by decide +kernel),
      ⟨1, by decide +kernel, by decide +kernel⟩, fun g => ?_, ?_⟩
    · match g with
      | 0 => decide +kernel
      | 1 => decide +kernel
      | g + 2 => exact ⟨fun h => absurd h (List.not_mem_nil), fun h => absurd h (List.not_mem_nil)⟩
    · exact near_int (a := 0) (b := 1) (w := 2) (a' := 1) (b' := 2) (w' := 3) hat rfl rfl (by decide +kernel) (by decide +kernel)
  · rw [off_int hat (by omega) (by omega) (by omega) (by omega)]
    exact_mod_cast (by decide : iDet (roofPt 0) (roofPt 1) (roofPt 2) (roofPt 3) = 0)
  · have hS : (MphSrc.ofPoints roof (freshView roof) [0, 1]).contacts =
        (⟨roof, freshView roof, [0, 1], parInt roof.mesh roofPt, fun _ _ => true⟩ : MphSrc (Fin 3 → ℝ)).contacts := by
      rw [← parallel_int roof_at]
      rfl
    have hv : (match (⟨roof, freshView roof, [0, 1], parInt roof.mesh roofPt, fun _ _ => true⟩ : MphSrc (Fin 3 → ℝ)).contacts with
        | .ok a => decide (a.1 (roof.mesh.eid 2 0) ≠ a.1 (roof.mesh.eid 2 4))
        | .error _ => false) = true := by decide +kernel
    rw [← hS, hca] at hv
    have hv' := of_decide_eq_true hv
    rw [e3]
    exact fun h => hv' (Option.some.inj h)

end VG
