import Verif.Props.VoronoiTets

/-!
A mesh for which the hypotheses of C72 hold.
-/

namespace VG

/-- Coordinates of the vertices: the corner of a cube, and a point far away behind its diagonal. -/
def hutPt : Nat → Fin 3 → ℤ
  | 1 => ![10, 0, 0]
  | 2 => ![0, 10, 0]
  | 3 => ![0, 0, 10]
  | 4 => ![20, 20, 20]
  | _ => ![0, 0, 0]

/-- Their real coordinates. -/
noncomputable def hutReal (v : Nat) : Fin 3 → ℝ := fun i => (hutPt v i : ℝ)

/-- Two tetrahedra with a common facet. -/
noncomputable def hutOps : List (QOp (Fin 3 → ℝ)) :=
  [.mesh (.vertex none (hutReal 0)), .mesh (.vertex none (hutReal 1)), .mesh (.vertex none (hutReal 2)),
   .mesh (.vertex none (hutReal 3)), .mesh (.vertex none (hutReal 4)), .mesh (.elem 3 [0, 1, 2, 3]), .mesh (.elem 3 [1, 2, 3, 4])]

/-- The state reached. -/
noncomputable def hut : MState (Fin 3 → ℝ) := (MState.empty.run (simplexTopo 3) hutOps).getD MState.empty

theorem hut_reached : Reached (simplexTopo 3) hut :=
  ⟨hutOps, by simp [hutOps, QOp.meshOps, MOp.Distinct], rfl, by unfold UniqueVids; decide +kernel⟩

theorem hut_cells : (hut.mesh.elems 3).map (·.verts) = [[0, 1, 2, 3], [1, 2, 3, 4]] := rfl

/-- The vertices of the cells. -/
def hutVerts : Nat → List Nat
  | 0 => [0, 1, 2, 3]
  | _ => [1, 2, 3, 4]

/-- The circumcenters. -/
def hutCtr : Nat → Fin 3 → ℤ
  | 0 => ![5, 5, 5]
  | _ => ![11, 11, 11]

theorem hut_verts {c : Nat} (hc : c < hut.mesh.count 3) : hut.mesh.vertsOf 3 c = hutVerts c := by
  have : c < 2 := hc
  obtain rfl | rfl : c = 0 ∨ c = 1 := by omega
  · rfl
  · rfl

theorem hut_at {v : Nat} (hv : v < 5) : hut.mesh.at0 v = hutReal v := by
  obtain rfl | rfl | rfl | rfl | rfl : v = 0 ∨ v = 1 ∨ v = 2 ∨ v = 3 ∨ v = 4 := by omega
  all_goals rfl

theorem hut_lt {c v : Nat} (hv : v ∈ hutVerts c) : v < 5 := by
  unfold hutVerts at hv
  split at hv <;> simp at hv <;> omega

/-- The determinant of integer points. -/
def iDet (a b w x : Fin 3 → ℤ) : ℤ :=
  (b 0 - a 0) * ((w 1 - a 1) * (x 2 - a 2) - (x 1 - a 1) * (w 2 - a 2))
    + (b 1 - a 1) * ((w 2 - a 2) * (x 0 - a 0) - (x 2 - a 2) * (w 0 - a 0))
    + (b 2 - a 2) * ((w 0 - a 0) * (x 1 - a 1) - (x 0 - a 0) * (w 1 - a 1))

/-- The square of the distance of integer points. -/
def iSq (a b : Fin 3 → ℤ) : ℤ := (a 0 - b 0) ^ 2 + (a 1 - b 1) ^ 2 + (a 2 - b 2) ^ 2

theorem hut_det {a b w : Nat} (ha : a < 5) (hb : b < 5) (hw : w < 5) {x : Fin 3 → ℝ} {y : Fin 3 → ℤ} (hx : ∀ i, x i = y i) :
    offPlane hut.mesh a b w x = (iDet (hutPt a) (hutPt b) (hutPt w) y : ℝ) := by
  unfold offPlane determinant3 iDet
  rw [hut_at ha, hut_at hb, hut_at hw]
  simp only [Pi.sub_apply, hutReal, hx]
  push_cast
  ring

theorem sq_cast {x z : Fin 3 → ℝ} {y t : Fin 3 → ℤ} (hx : ∀ i, x i = y i) (hz : ∀ i, z i = t i) : sqDist x z = (iSq y t : ℝ) := by
  unfold sqDist iSq
  rw [Fin.sum_univ_three, hx, hx, hx, hz, hz, hz]
  push_cast
  ring

/-- All arrangements of four vertices of a cell. -/
theorem hut_perm {P : Nat → Nat → Nat → Nat → Nat → Prop}
    (h : ∀ c < 2, ∀ a ∈ hutVerts c, ∀ b ∈ hutVerts c, ∀ w ∈ hutVerts c, ∀ p ∈ hutVerts c, [a, b, w, p].Nodup → P c a b w p)
    {c a b w p : Nat} (hc : c < hut.mesh.count 3) (hp : (hut.mesh.vertsOf 3 c).Perm [a, b, w, p]) : P c a b w p := by
  rw [hut_verts hc] at hp
  refine h c hc a (hp.mem_iff.2 (by simp)) b (hp.mem_iff.2 (by simp)) w (hp.mem_iff.2 (by simp)) p (hp.mem_iff.2 (by simp))
    (hp.nodup_iff.1 ?_)
  unfold hutVerts
  split <;> decide

theorem hut_solid {c a b w p : Nat} (hc : c < hut.mesh.count 3) (hp : (hut.mesh.vertsOf 3 c).Perm [a, b, w, p]) :
    iDet (hutPt a) (hutPt b) (hutPt w) (hutPt p) ≠ 0 :=
  hut_perm (P := fun _ a b w p => iDet (hutPt a) (hutPt b) (hutPt w) (hutPt p) ≠ 0) (by decide +kernel) hc hp

theorem hut_mem {c a b w p : Nat} (hc : c < hut.mesh.count 3) (hp : (hut.mesh.vertsOf 3 c).Perm [a, b, w, p]) :
    a < 5 ∧ b < 5 ∧ w < 5 ∧ p < 5 := by
  rw [hut_verts hc] at hp
  exact ⟨hut_lt (hp.mem_iff.2 (by simp)), hut_lt (hp.mem_iff.2 (by simp)), hut_lt (hp.mem_iff.2 (by simp)),
    hut_lt (hp.mem_iff.2 (by simp))⟩

theorem hut_around {a b c : Nat} (h : Around hut.mesh a b c) : c < 2 ∧ a ∈ hutVerts c ∧ b ∈ hutVerts c ∧ a ≠ b := by
  obtain ⟨hc, ha, hb, hn⟩ := h
  rw [hut_verts hc] at ha hb
  exact ⟨hc, ha, hb, hn⟩

theorem hut_center {c : Nat} (hc : c < hut.mesh.count 3) {o : Fin 3 → ℝ} (ho : CenterOf hut.mesh c o) :
    ∀ i, o i = (hutCtr c i : ℝ) := by
  have hc' : c < 2 := hc
  unfold CenterOf at ho
  rw [hut_verts hc] at ho
  have e2 : ∀ x y z : ℤ, ![x, y, z] 2 = z := fun _ _ _ => rfl
  obtain rfl | rfl : c = 0 ∨ c = 1 := by omega
  · have h1 := ho 0 (by decide) 1 (by decide)
    have h2 := ho 0 (by decide) 2 (by decide)
    have h3 := ho 0 (by decide) 3 (by decide)
    rw [hut_at (by omega), hut_at (by omega)] at h1 h2 h3
    simp only [sqDist, Fin.sum_univ_three, hutReal, hutPt, Matrix.cons_val_zero, Matrix.cons_val_one, e2] at h1 h2 h3
    push_cast at h1 h2 h3
    intro i
    fin_cases i
    · show o 0 = ((5 : ℤ) : ℝ); push_cast; linarith
    · show o 1 = ((5 : ℤ) : ℝ); push_cast; linarith
    · show o 2 = ((5 : ℤ) : ℝ); push_cast; linarith
  · have h1 := ho 1 (by decide) 2 (by decide)
    have h2 := ho 1 (by decide) 3 (by decide)
    have h3 := ho 1 (by decide) 4 (by decide)
    rw [hut_at (by omega), hut_at (by omega)] at h1 h2 h3
    simp only [sqDist, Fin.sum_univ_three, hutReal, hutPt, Matrix.cons_val_zero, Matrix.cons_val_one, e2] at h1 h2 h3
    push_cast at h1 h2 h3
    intro i
    fin_cases i
    · show o 0 = ((11 : ℤ) : ℝ); push_cast; linarith
    · show o 1 = ((11 : ℤ) : ℝ); push_cast; linarith
    · show o 2 = ((11 : ℤ) : ℝ); push_cast; linarith

/-- The sphere with diameter `a b`. -/
theorem mid_sphere (A B s : Fin 3 → ℝ) :
    sqDist (circumLine A B) A ≤ sqDist (circumLine A B) s ↔ 0 ≤ (s 0 - A 0) * (s 0 - B 0) + (s 1 - A 1) * (s 1 - B 1)
      + (s 2 - A 2) * (s 2 - B 2) := by
  have : sqDist (circumLine A B) s - sqDist (circumLine A B) A = (s 0 - A 0) * (s 0 - B 0) + (s 1 - A 1) * (s 1 - B 1)
      + (s 2 - A 2) * (s 2 - B 2) := by
    simp only [sqDist, circumLine, Fin.sum_univ_three]
    ring
  rw [← this, sub_nonneg]

/-- Triangles on the boundary, with the vertex of the cell opposite. -/
theorem hut_outer {c a b w p : Nat} (h : Outer hut.mesh c a b w p) :
    c < 2 ∧ a ∈ hutVerts c ∧ b ∈ hutVerts c ∧ w ∈ hutVerts c ∧ p ∈ hutVerts c ∧ [a, b, w, p].Nodup
      ∧ ∀ c' < 2, c' ≠ c → ¬ (a ∈ hutVerts c' ∧ b ∈ hutVerts c' ∧ w ∈ hutVerts c') := by
  obtain ⟨hc, hp, ho⟩ := h
  refine hut_perm (P := fun c a b w p => (∀ c' < hut.mesh.count 3, c' ≠ c → ¬ (a ∈ hut.mesh.vertsOf 3 c' ∧ b ∈ hut.mesh.vertsOf 3 c'
    ∧ w ∈ hut.mesh.vertsOf 3 c')) → c < 2 ∧ a ∈ hutVerts c ∧ b ∈ hutVerts c ∧ w ∈ hutVerts c ∧ p ∈ hutVerts c ∧ [a, b, w, p].Nodup
      ∧ ∀ c' < 2, c' ≠ c → ¬ (a ∈ hutVerts c' ∧ b ∈ hutVerts c' ∧ w ∈ hutVerts c')) ?_ hc hp ho
  intro c hc a ha b hb w hw p hp hn ho
  refine ⟨hc, ha, hb, hw, hp, hn, fun c' hc' hne hx => ho c' hc' hne ?_⟩
  rw [hut_verts (show c' < hut.mesh.count 3 from hc')]
  exact hx

/-- The two cells are on different sides. -/
def HutApart (c a b w p : Nat) : Prop :=
  ∀ c' < 2, (c ≠ c' ∧ a ∈ hutVerts c' ∧ b ∈ hutVerts c' ∧ w ∈ hutVerts c') → ∀ p' ∈ hutVerts c', [a, b, w, p'].Nodup →
    iDet (hutPt a) (hutPt b) (hutPt w) (hutPt p) * iDet (hutPt a) (hutPt b) (hutPt w) (hutPt p') < 0

instance (c a b w p : Nat) : Decidable (HutApart c a b w p) := by unfold HutApart; infer_instance

/-- Vertices and circumcenters are before the boundary. -/
def HutHull (c a b w p : Nat) : Prop :=
  (∀ c' < 2, c' ≠ c → ¬ (a ∈ hutVerts c' ∧ b ∈ hutVerts c' ∧ w ∈ hutVerts c')) → ∀ c' < 2,
    (∀ s ∈ hutVerts c', 0 ≤ iDet (hutPt a) (hutPt b) (hutPt w) (hutPt p) * iDet (hutPt a) (hutPt b) (hutPt w) (hutPt s))
    ∧ (a ∈ hutVerts c' ∧ b ∈ hutVerts c' →
        0 ≤ iDet (hutPt a) (hutPt b) (hutPt w) (hutPt p) * iDet (hutPt a) (hutPt b) (hutPt w) (hutCtr c'))

instance (c a b w p : Nat) : Decidable (HutHull c a b w p) := by unfold HutHull; infer_instance

theorem hut_apart : ∀ c < 2, ∀ a ∈ hutVerts c, ∀ b ∈ hutVerts c, ∀ w ∈ hutVerts c, ∀ p ∈ hutVerts c, [a, b, w, p].Nodup →
    HutApart c a b w p := by decide +kernel

theorem hut_hull : ∀ c < 2, ∀ a ∈ hutVerts c, ∀ b ∈ hutVerts c, ∀ w ∈ hutVerts c, ∀ p ∈ hutVerts c, [a, b, w, p].Nodup →
    HutHull c a b w p := by decide +kernel

theorem hut_delaunay : Delaunay hut.mesh where
  solid := fun c hc a b w p hp => by
    obtain ⟨h1, h2, h3, h4⟩ := hut_mem hc hp
    rw [hut_det h1 h2 h3 (fun i => by rw [hut_at h4]; rfl)]
    exact_mod_cast hut_solid hc hp
  apart := fun c c' a b w p p' hc hc' hne hp hp' => by
    obtain ⟨h1, h2, h3, h4⟩ := hut_mem hc hp
    obtain ⟨_, _, _, h5⟩ := hut_mem hc' hp'
    rw [hut_det h1 h2 h3 (fun i => by rw [hut_at h4]; rfl), hut_det h1 h2 h3 (fun i => by rw [hut_at h5]; rfl)]
    have k1 := hut_perm hut_apart hc hp
    have k2 := hut_perm (P := fun c' a b w p' => a ∈ hutVerts c' ∧ b ∈ hutVerts c' ∧ w ∈ hutVerts c' ∧ p' ∈ hutVerts c'
      ∧ [a, b, w, p'].Nodup) (fun c _ a ha b hb w hw p hp hn => ⟨ha, hb, hw, hp, hn⟩) hc' hp'
    exact_mod_cast k1 c' hc' ⟨hne, k2.1, k2.2.1, k2.2.2.1⟩ _ k2.2.2.2.1 k2.2.2.2.2
  empty := fun a b c c' h h' o ho s hs => by
    have hO := hut_center h.1 ho
    rw [hut_verts h'.1] at hs
    obtain ⟨hc, ha, hb, hn⟩ := hut_around h
    obtain ⟨hc', _, _, _⟩ := hut_around h'
    rw [sq_cast hO (fun i => by rw [hut_at (hut_lt ha)]; rfl), sq_cast hO (fun i => by rw [hut_at (hut_lt hs)]; rfl)]
    have key : ∀ c < 2, ∀ a ∈ hutVerts c, ∀ c' < 2, ∀ s ∈ hutVerts c', iSq (hutCtr c) (hutPt a) ≤ iSq (hutCtr c) (hutPt s) := by
      decide +kernel
    exact_mod_cast key c hc a ha c' hc' s hs
  edges := fun c a b w p ho c' h' s hs => by
    obtain ⟨hc, ha, hb, hw, hp, hn, hx⟩ := hut_outer ho
    rw [hut_verts h'.1] at hs
    obtain ⟨hc', ha', hb', _⟩ := hut_around h'
    rw [mid_sphere, hut_at (hut_lt ha), hut_at (hut_lt hb), hut_at (hut_lt hs)]
    have key : ∀ c < 2, ∀ a ∈ hutVerts c, ∀ b ∈ hutVerts c, ∀ c' < 2, ∀ s ∈ hutVerts c', a ≠ b →
        0 ≤ (hutPt s 0 - hutPt a 0) * (hutPt s 0 - hutPt b 0) + (hutPt s 1 - hutPt a 1) * (hutPt s 1 - hutPt b 1)
          + (hutPt s 2 - hutPt a 2) * (hutPt s 2 - hutPt b 2) := by decide +kernel
    have := key c hc a ha b hb c' hc' s hs (by rintro rfl; simp at hn)
    unfold hutReal
    exact_mod_cast this
  hull := fun c a b w p ho c' h' s hs => by
    obtain ⟨hc, ha, hb, hw, hp, hn, hx⟩ := hut_outer ho
    rw [hut_verts h'.1] at hs
    obtain ⟨hc', ha', hb', _⟩ := hut_around h'
    rw [hut_det (hut_lt ha) (hut_lt hb) (hut_lt hw) (fun i => by rw [hut_at (hut_lt hp)]; rfl),
      hut_det (hut_lt ha) (hut_lt hb) (hut_lt hw) (fun i => by rw [hut_at (hut_lt hs)]; rfl)]
    exact_mod_cast (hut_hull c hc a ha b hb w hw p hp hn hx c' hc').1 s hs
  inside := fun c a b w p ho c' h' o hO => by
    obtain ⟨hc, ha, hb, hw, hp, hn, hx⟩ := hut_outer ho
    obtain ⟨hc', ha', hb', _⟩ := hut_around h'
    rw [hut_det (hut_lt ha) (hut_lt hb) (hut_lt hw) (fun i => by rw [hut_at (hut_lt hp)]; rfl),
      hut_det (hut_lt ha) (hut_lt hb) (hut_lt hw) (hut_center h'.1 hO)]
    exact_mod_cast (hut_hull c hc a ha b hb w hw p hp hn hx c' hc').2 ⟨ha', hb'⟩

theorem hut_returns (v : VoroSt) : ∃ r, hut.mesh.voronoiTets v = .ok r := by
  refine (C72_returns hut_reached v).2.2.2 ⟨?_, ?_, ?_⟩
  · intro e he a b w p hv
    have : e.verts ∈ (hut.mesh.elems 3).map (·.verts) := List.mem_map_of_mem he
    rw [hut_cells] at this
    have e2 : ∀ x y z : ℤ, ![x, y, z] 2 = z := fun _ _ _ => rfl
    simp only [List.mem_cons, List.not_mem_nil, or_false] at this
    rcases this with h | h <;> rw [h] at hv <;> simp only [List.cons.injEq, and_true] at hv <;> obtain ⟨rfl, rfl, rfl, rfl⟩ := hv
    · rw [hut_det (y := hutPt 3) (by omega) (by omega) (by omega) (fun i => by rw [hut_at (by omega)]; rfl),
        show iDet (hutPt 0) (hutPt 1) (hutPt 2) (hutPt 3) = 1000 by decide +kernel, hut_at (by omega), hut_at (by omega),
        hut_at (by omega), Fin.sum_univ_three, crossProd_zero, crossProd_one, crossProd_two]
      simp only [hutReal, hutPt, Pi.sub_apply, Matrix.cons_val_zero, Matrix.cons_val_one, e2]
      norm_num
    · rw [hut_det (y := hutPt 4) (by omega) (by omega) (by omega) (fun i => by rw [hut_at (by omega)]; rfl),
        show iDet (hutPt 1) (hutPt 2) (hutPt 3) (hutPt 4) = 5000 by decide +kernel, hut_at (by omega), hut_at (by omega),
        hut_at (by omega), Fin.sum_univ_three, crossProd_zero, crossProd_one, crossProd_two]
      simp only [hutReal, hutPt, Pi.sub_apply, Matrix.cons_val_zero, Matrix.cons_val_one, e2]
      norm_num
  · unfold FacetsUsed
    decide +kernel
  · unfold EdgesUsed
    decide +kernel

/-- All hypotheses hold for this mesh.  The boxes together have the volume 1000, the interface of the edge between the first two
vertices is a square of length 5. -/
example : ∃ r, hut.mesh.voronoiTets .fresh = .ok r ∧ ∑ s ∈ Finset.range 5, r.total .vbox s = 1000
    ∧ ∃ s, (hut.mesh.elems 1)[s]?.map (·.verts) = some [0, 1] ∧ r.total .area s = 25 := by
  obtain ⟨r, hr⟩ := hut_returns .fresh
  have e2 : ∀ x y z : ℤ, ![x, y, z] 2 = z := fun _ _ _ => rfl
  have e2' : ∀ x y z : ℝ, ![x, y, z] 2 = z := fun _ _ _ => rfl
  refine ⟨r, hr, ?_, ?_⟩
  · have h := C72_total_volume_partial hut_reached hut_delaunay hr
    rw [show hut.mesh.verts.length = 5 from rfl] at h
    rw [h, show (hut.mesh.elems 3).map (fun e => |signedTetrahedron (cornerAt hut.mesh e.verts 0) (cornerAt hut.mesh e.verts 1)
        (cornerAt hut.mesh e.verts 2) (cornerAt hut.mesh e.verts 3)|)
      = [|signedTetrahedron (hutReal 0) (hutReal 1) (hutReal 2) (hutReal 3)|,
        |signedTetrahedron (hutReal 1) (hutReal 2) (hutReal 3) (hutReal 4)|] from rfl]
    simp only [signedTetrahedron, innerProd3, crossProd_zero, crossProd_one, crossProd_two, Pi.sub_apply, hutReal, hutPt,
      Matrix.cons_val_zero, Matrix.cons_val_one, e2]
    norm_num [VoroSt.fresh]
  · refine ⟨0, rfl, ?_⟩
    have h := (C72_interface_partial hut_reached hut_delaunay hr (s := 0) (a := 0) (b := 1) rfl rfl).2
      (fun c => 500) fun c hc => by
        have hc0 : c = 0 := by
          have h1 := hut_around hc
          have h2 : c < 2 := h1.1
          obtain rfl | rfl : c = 0 ∨ c = 1 := by omega
          · rfl
          · exact absurd h1.2.1 (by decide)
        subst hc0
        refine ⟨2, 3, ![5, 5, 5], ![5, 5, 0], ![5, 0, 5], List.Perm.refl _, ?_, ?_, ?_, ?_⟩
        · have key : ∀ v ∈ [0, 1, 2, 3], sqDist (![5, 5, 5] : Fin 3 → ℝ) (hut.mesh.at0 v) = 75 := by
            intro v hv
            have hv5 : v < 5 := by simp at hv; omega
            rw [hut_at hv5]
            simp only [List.mem_cons, List.not_mem_nil, or_false] at hv
            rcases hv with rfl | rfl | rfl | rfl <;>
              (simp only [sqDist, Fin.sum_univ_three, hutReal, hutPt, Matrix.cons_val_zero, Matrix.cons_val_one, e2, e2']; norm_num)
          intro v hv v' hv'
          rw [key v hv, key v' hv']
        all_goals
          simp only [TriCenterOf, offPlane, determinant3]
          rw [hut_at (by omega), hut_at (by omega), hut_at (by omega)]
          try rw [hut_at (by omega)]
          simp only [Pi.sub_apply, circumLine, sqDist, Fin.sum_univ_three, hutReal, hutPt, Matrix.cons_val_zero,
            Matrix.cons_val_one, e2, e2']
          norm_num
    rw [show (hut.mesh.elems 3).length = 2 from rfl, Finset.sum_range_succ, Finset.sum_range_one, if_pos (by decide),
      if_neg (by decide), hut_at (by omega), hut_at (by omega)] at h
    simp only [sqDist, Fin.sum_univ_three, hutReal, hutPt, Matrix.cons_val_zero, Matrix.cons_val_one, e2] at h
    rw [show ((((0 : ℤ) : ℝ) - ((10 : ℤ) : ℝ)) ^ 2 + (((0 : ℤ) : ℝ) - ((0 : ℤ) : ℝ)) ^ 2 + (((0 : ℤ) : ℝ) - ((0 : ℤ) : ℝ)) ^ 2) = 10 ^ 2 by
      norm_num, Real.sqrt_sq (by norm_num)] at h
    linarith

end VG
