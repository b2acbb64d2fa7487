import Verif.Lemmas.HyperRefine
import Mathlib.Data.Fin.VecNotation

/-!
C101: `hyperplane_refine` cuts the cells along the plane.

Specification: the plane is given by `planeSide` (zero on the plane), an edge is cut if its ends are on different sides,
further away than the tolerance (`CutBy`).  Cells are told apart by the points of their vertices.
-/

namespace VG

variable {K : Type} [Field K] [LinearOrder K] [IsStrictOrderedRing K] {d : Nat}

/-- The plane cuts the line from `a` to `b` (with the tolerance for lines of this length) in `q`. -/
def OnCut (norm : (Fin d → K) → K) (eps : K) (h nr a b q : Fin d → K) : Prop :=
  CutBy h nr (relTol eps (norm (fun i => b i - a i))) a b ∧ planeSide h nr q = 0 ∧ StrictlyBetween a b q

/-- The plane cuts the edge `e` of the mesh in `q`. -/
def CutPoint (norm : (Fin d → K) → K) (eps : K) (h nr : Fin d → K) (m : Mesh (Fin d → K)) (e : Nat) (q : Fin d → K) : Prop :=
  ∃ a b, cellPoints m 1 e = [a, b] ∧ OnCut norm eps h nr a b q

/-- What cutting along the plane means for the cells. -/
structure CutAlong (n : Nat) (norm : (Fin d → K) → K) (eps : K) (h nr : Fin d → K) (src out : SegState (Fin d → K))
    (parent : Nat → Nat) : Prop where
  /-- Each cell has a parent, and as many vertices. -/
  parents : ∀ i < out.mesh.count n, parent i < src.mesh.count n ∧ (cellPoints out.mesh n i).length = n + 1
  /-- Its vertices are vertices of the parent, and points of the plane inside cut edges of the parent. -/
  points : ∀ i < out.mesh.count n, ∀ q ∈ cellPoints out.mesh n i, q ∈ cellPoints src.mesh n (parent i) ∨
    ∃ a ∈ cellPoints src.mesh n (parent i), ∃ b ∈ cellPoints src.mesh n (parent i), OnCut norm eps h nr a b q
  /-- It is not cut. -/
  sides : ∀ i < out.mesh.count n, ∀ p ∈ cellPoints out.mesh n i, ∀ q ∈ cellPoints out.mesh n i,
    ¬ CutBy h nr (relTol eps (norm (fun k => q k - p k))) p q
  /-- It is in the segments of the parent. -/
  segments : ∀ i < out.mesh.count n, ∀ g, g ∈ out.segmentIds n i ↔ g ∈ src.segmentIds n (parent i)
  /-- Cells which are not cut are kept. -/
  kept : ∀ t < src.mesh.count n, (∀ p ∈ cellPoints src.mesh n t, ∀ q ∈ cellPoints src.mesh n t,
      ¬ CutBy h nr (relTol eps (norm (fun k => q k - p k))) p q) →
    ∃ i < out.mesh.count n, parent i = t ∧ cellPoints out.mesh n i = cellPoints src.mesh n t ∧
      ∀ j < out.mesh.count n, parent j = t → j = i

/-- Volume of a tetrahedron. -/
def solidVolume : List (Fin 3 → K) → K
  | [a, b, c, d] =>
    |(b 0 - a 0) * ((c 1 - a 1) * (d 2 - a 2) - (c 2 - a 2) * (d 1 - a 1))
      - (b 1 - a 1) * ((c 0 - a 0) * (d 2 - a 2) - (c 2 - a 2) * (d 0 - a 0))
      + (b 2 - a 2) * ((c 0 - a 0) * (d 1 - a 1) - (c 1 - a 1) * (d 0 - a 0))| / 6
  | _ => 0

/-- A measure of triangles: function of the areas of the projections to the coordinate planes (times two). -/
def flatMeasure (mu : (Fin d → Fin d → K) → K) : List (Fin d → K) → K
  | [a, b, c] => mu (fun k l => (b k - a k) * (c l - a l) - (b l - a l) * (c k - a k))
  | _ => 0

/-! ### Sides -/

theorem edgeOf {n a b : Nat} (hab : a ≠ b) (ha : a < n + 1) (hb : b < n + 1) :
    ∃ q < (edgeIdx (n + 1)).length, (edgeIdx (n + 1))[q]? = some [a, b] ∨ (edgeIdx (n + 1))[q]? = some [b, a] := by
  rcases Nat.lt_or_gt_of_ne hab with h | h
  · obtain ⟨q, hq, he⟩ := List.getElem_of_mem (mem_edgeIdx.2 ⟨a, b, h, hb, rfl⟩)
    exact ⟨q, hq, Or.inl (by rw [List.getElem?_eq_getElem hq, he])⟩
  · obtain ⟨q, hq, he⟩ := List.getElem_of_mem (mem_edgeIdx.2 ⟨b, a, h, ha, rfl⟩)
    exact ⟨q, hq, Or.inr (by rw [List.getElem?_eq_getElem hq, he])⟩

theorem kid_mem {N : Nat} {kids : List (Nat × List Nat)} {C : Nat → List (List Nat)}
    (hk : kids = (List.range N).flatMap (fun t => (C t).map (fun ls => (t, ls)))) {i t : Nat} {ls : List Nat}
    (hi : kids[i]? = some (t, ls)) : ls ∈ C t := by
  have := List.mem_of_getElem? hi
  rw [hk] at this
  obtain ⟨u, _, hm⟩ := List.mem_flatMap.1 this
  obtain ⟨ls', h1, he⟩ := List.mem_map.1 hm
  simp only [Prod.mk.injEq] at he
  rw [← he.1, ← he.2]; exact h1

/-- The cell with a single child. -/
theorem kid_unique {C : Nat → List (List Nat)} {t : Nat} {ls : List Nat} (hC : C t = [ls]) : ∀ {l : List Nat}, l.Nodup → t ∈ l →
    ∃ i : Nat, (l.flatMap (fun t => (C t).map (fun ls => (t, ls))))[i]? = some (t, ls) ∧
      ∀ (j : Nat) u ls', (l.flatMap (fun t => (C t).map (fun ls => (t, ls))))[j]? = some (u, ls') → u = t → j = i := by
  intro l hn ht
  obtain ⟨pre, post, rfl⟩ := List.append_of_mem ht
  have h1 : t ∉ pre := fun h => (List.nodup_append.1 hn).2.2 t h t (by simp) rfl
  have h2 : t ∉ post := (List.nodup_cons.1 (List.nodup_append.1 hn).2.1).1
  have hnot : ∀ (l : List Nat), t ∉ l → ∀ x ∈ l.flatMap (fun t => (C t).map (fun ls => (t, ls))), x.1 ≠ t := by
    intro l hl x hx
    obtain ⟨u, hu, hm⟩ := List.mem_flatMap.1 hx
    obtain ⟨_, _, rfl⟩ := List.mem_map.1 hm
    exact fun h => hl (h ▸ hu)
  have n1 := hnot pre h1
  have n2 := hnot post h2
  simp only [List.flatMap_append, List.flatMap_cons, hC, List.map_cons, List.map_nil]
  generalize pre.flatMap (fun t => (C t).map (fun ls => (t, ls))) = A at n1
  generalize post.flatMap (fun t => (C t).map (fun ls => (t, ls))) = B at n2
  refine ⟨A.length, by simp, fun j u ls' hj hu => ?_⟩
  subst hu
  rcases Nat.lt_trichotomy j A.length with hlt | h | hgt
  · rw [List.getElem?_append_left hlt] at hj
    exact absurd rfl (n1 _ (List.mem_of_getElem? hj))
  · exact h
  · rw [List.getElem?_append_right (by omega)] at hj
    obtain ⟨q, hq⟩ : ∃ q, j - A.length = q + 1 := ⟨j - A.length - 1, by omega⟩
    rw [hq] at hj
    simp only [List.singleton_append, List.getElem?_cons_succ] at hj
    exact absurd rfl (n2 _ (List.mem_of_getElem? hj))

section
variable {n : Nat} {src : SegState (Fin d → K)} {norm : (Fin d → K) → K} {scale : K → K} {eps : K} {h nr : Fin d → K} {order : List Nat}

theorem tag_iff (m : Mesh (Fin d → K)) (e : Nat) : hyperTag norm eps h nr (edgeEnds m) e = true ↔
    CutBy h nr (relTol eps (norm (fun i => (edgeEnds m e).2 i - (edgeEnds m e).1 i))) (edgeEnds m e).1 (edgeEnds m e).2 :=
  C38_marks h nr (relTol_nonneg _ _) _ _

omit [IsStrictOrderedRing K] in
theorem cutBy_swap (hnorm : ∀ v, norm (fun i => - v i) = norm v) {a b : Fin d → K}
    (hc : CutBy h nr (relTol eps (norm (fun i => b i - a i))) a b) : CutBy h nr (relTol eps (norm (fun i => a i - b i))) b a := by
  have : norm (fun i => a i - b i) = norm (fun i => b i - a i) := by
    rw [← hnorm (fun i => b i - a i)]
    congr 1; funext i; ring
  rw [this]; exact hc.symm

/-- The marks of the edges of a cell. -/
theorem tag_corners (hn : 2 ≤ n) (hnorm : ∀ v, norm (fun i => - v i) = norm v) (hI : Inv (simplexTopo n) src.mesh) {t : Nat}
    (ht : t < src.mesh.count n) {q a b : Nat} (hq : (edgeIdx (n + 1))[q]? = some [a, b]) :
    hyperTag norm eps h nr (edgeEnds src.mesh) ((src.mesh.bndOf n t 1).getD q 0) = true ↔
      CutBy h nr (relTol eps (norm (fun i => src.mesh.cornerF n t b i - src.mesh.cornerF n t a i))) (src.mesh.cornerF n t a) (src.mesh.cornerF n t b) := by
  have hql := (List.getElem?_eq_some_iff.1 hq).1
  have hlen := (simplex_edge hn hI ht).1
  have he : (src.mesh.bndOf n t 1)[q]? = some ((src.mesh.bndOf n t 1).getD q 0) := by
    rw [List.getD_eq_getElem _ _ (by omega)]; exact List.getElem?_eq_getElem (by omega)
  obtain ⟨a', b', h1, _, _, h2, _⟩ := edgeEnds_spec hn hI ht he
  rw [hq] at h1
  simp only [Option.some.injEq, List.cons.injEq, and_true] at h1
  obtain ⟨rfl, rfl⟩ := h1
  rw [tag_iff]
  rcases h2 with h2 | h2
  · rw [h2]
  · rw [h2]; exact ⟨cutBy_swap hnorm, cutBy_swap hnorm⟩

/-- The cells, for simplices. -/
theorem hyper_cells (hn : 2 ≤ n) (hnorm : ∀ v, norm (fun i => - v i) = norm v)
    (hI : Inv (simplexTopo n) src.mesh) {r : RefSt (Fin d → K)} {C : Nat → List (List Nat)} {mark : Nat → Bool}
    (hcount : r.out.mesh.count n = r.kids.length)
    (hk : r.kids = (List.range (src.mesh.count n)).flatMap (fun t => (C t).map (fun ls => (t, ls))))
    (hparts : ∀ i t ls, r.kids[i]? = some (t, ls) → t < src.mesh.count n ∧
        (r.out.mesh.vertsOf n i).map r.out.mesh.ptOf = ls.map (fun l => some (hyperLabel n h nr (src.mesh.cornerF n t) l)) ∧
        ∀ g, g ∈ r.out.segmentIds n i ↔ g ∈ src.segmentIds n t)
    (hQ : ∀ t < src.mesh.count n, CutKids n (fun i => mark ((src.mesh.bndOf n t 1).getD i 0)) (C t))
    (hmark : ∀ e < src.mesh.count 1, mark e = hyperTag norm eps h nr (edgeEnds src.mesh) e) :
    CutAlong n norm eps h nr src r.out (fun i => (r.kids.getD i (0, [])).1) := by
  have hget : ∀ i < r.out.mesh.count n, ∃ t ls, r.kids[i]? = some (t, ls) ∧ (r.kids.getD i (0, [])).1 = t := by
    intro i hi
    rw [hcount] at hi
    refine ⟨_, _, List.getElem?_eq_getElem hi, ?_⟩
    rw [List.getD_eq_getElem _ _ hi]; rfl
  have hm : ∀ t < src.mesh.count n, ∀ q a b, (edgeIdx (n + 1))[q]? = some [a, b] →
      (mark ((src.mesh.bndOf n t 1).getD q 0) = true ↔
        CutBy h nr (relTol eps (norm (fun i => src.mesh.cornerF n t b i - src.mesh.cornerF n t a i))) (src.mesh.cornerF n t a) (src.mesh.cornerF n t b)) := by
    intro t ht q a b hq
    have hql := (List.getElem?_eq_some_iff.1 hq).1
    have hlen := (simplex_edge hn hI ht).1
    rw [hmark _ (by
      rw [List.getD_eq_getElem _ _ (by omega)]
      exact bndOf_valid hI (List.getElem_mem _)), tag_corners hn hnorm hI ht hq]
  have hcut : ∀ t < src.mesh.count n, ∀ c ∈ C t, ∀ l ∈ c, ¬ l < n + 1 → ∃ a b, a < n + 1 ∧ b < n + 1 ∧
      OnCut norm eps h nr (src.mesh.cornerF n t a) (src.mesh.cornerF n t b) (hyperLabel n h nr (src.mesh.cornerF n t) l) := by
    intro t ht c hc l hl hlt
    obtain ⟨h1, h2, h3⟩ := (((hQ t ht).1 c hc).2 l hl).resolve_left hlt
    have hq : l - (n + 1) < (edgeIdx (n + 1)).length := by omega
    obtain ⟨a, b, hab, hb, he⟩ := mem_edgeIdx.1 (List.getElem_mem hq)
    have hq' : (edgeIdx (n + 1))[l - (n + 1)]? = some [a, b] := by rw [List.getElem?_eq_getElem hq, he]
    have hc' := (hm t ht _ a b hq').1 h3
    refine ⟨a, b, by omega, hb, ?_⟩
    unfold hyperLabel
    rw [if_neg hlt, hq']
    exact ⟨hc', C38_point (relTol_nonneg _ _) hc'⟩
  have hcorner : ∀ t < src.mesh.count n, ∀ a < n + 1, src.mesh.cornerF n t a ∈ cellPoints src.mesh n t := by
    intro t ht a ha
    rw [cellPoints_cornerF (by omega) hI ht]
    exact List.mem_map.2 ⟨a, List.mem_range.2 ha, rfl⟩
  refine ⟨?_, ?_, ?_, ?_, ?_⟩
  · intro i hi
    obtain ⟨t, ls, h1, h2⟩ := hget i hi
    obtain ⟨ht, hp, _⟩ := hparts i t ls h1
    rw [h2, cellPoints_labels hp, List.length_map]
    exact ⟨ht, ((hQ t ht).1 ls (kid_mem hk h1)).1⟩
  · intro i hi q hq
    obtain ⟨t, ls, h1, h2⟩ := hget i hi
    obtain ⟨ht, hp, _⟩ := hparts i t ls h1
    rw [h2]
    rw [cellPoints_labels hp] at hq
    obtain ⟨l, hl, rfl⟩ := List.mem_map.1 hq
    by_cases hlt : l < n + 1
    · left
      unfold hyperLabel; rw [if_pos hlt]; exact hcorner t ht l hlt
    · right
      obtain ⟨a, b, ha, hb, hc⟩ := hcut t ht ls (kid_mem hk h1) l hl hlt
      exact ⟨_, hcorner t ht a ha, _, hcorner t ht b hb, hc⟩
  · intro i hi p hp' q hq hcb
    obtain ⟨t, ls, h1, h2⟩ := hget i hi
    obtain ⟨ht, hp, _⟩ := hparts i t ls h1
    rw [cellPoints_labels hp] at hp' hq
    obtain ⟨l, hl, rfl⟩ := List.mem_map.1 hp'
    obtain ⟨l', hl', rfl⟩ := List.mem_map.1 hq
    have hC := kid_mem hk h1
    have htol := relTol_nonneg eps (norm (fun k => hyperLabel n h nr (src.mesh.cornerF n t) l' k - hyperLabel n h nr (src.mesh.cornerF n t) l k))
    by_cases hlt : l < n + 1
    · by_cases hlt' : l' < n + 1
      · by_cases hll : l = l'
        · subst hll
          rcases hcb with ⟨c1, c2⟩ | ⟨c1, c2⟩ <;> linarith
        · obtain ⟨e, he, hee⟩ := edgeOf hll hlt hlt'
          have lab : ∀ a < n + 1, hyperLabel n h nr (src.mesh.cornerF n t) a = src.mesh.cornerF n t a := by
            intro a ha; unfold hyperLabel; rw [if_pos ha]
          rw [lab l hlt, lab l' hlt'] at hcb
          rcases hee with hee | hee
          · exact (hQ t ht).2.1 e l l' hee ((hm t ht e l l' hee).2 hcb) ls hC ⟨hl, hl'⟩
          · exact (hQ t ht).2.1 e l' l hee ((hm t ht e l' l hee).2 (cutBy_swap hnorm hcb)) ls hC ⟨hl', hl⟩
      · obtain ⟨_, _, _, _, _, hz, _⟩ := hcut t ht ls hC l' hl' hlt'
        rcases hcb with ⟨c1, c2⟩ | ⟨c1, c2⟩ <;> rw [hz] at * <;> linarith
    · obtain ⟨_, _, _, _, _, hz, _⟩ := hcut t ht ls hC l hl hlt
      rcases hcb with ⟨c1, c2⟩ | ⟨c1, c2⟩ <;> rw [hz] at * <;> linarith
  · intro i hi
    obtain ⟨t, ls, h1, h2⟩ := hget i hi
    rw [h2]; exact (hparts i t ls h1).2.2
  · intro t ht hno
    have hz : C t = [List.range (n + 1)] := by
      refine (hQ t ht).2.2 (fun q hq => ?_)
      obtain ⟨a, b, hab, hb, he⟩ := mem_edgeIdx.1 (List.getElem_mem hq)
      have hq' : (edgeIdx (n + 1))[q]? = some [a, b] := by rw [List.getElem?_eq_getElem hq, he]
      rw [Bool.eq_false_iff]
      intro hmm
      exact hno _ (hcorner t ht a (by omega)) _ (hcorner t ht b hb) ((hm t ht q a b hq').1 hmm)
    obtain ⟨i, h1, h2⟩ := kid_unique hz (List.nodup_range (n := src.mesh.count n)) (List.mem_range.2 ht)
    rw [← hk] at h1 h2
    have hi := (List.getElem?_eq_some_iff.1 h1).1
    obtain ⟨_, hp, _⟩ := hparts i t _ h1
    refine ⟨i, by omega, ?_, ?_, ?_⟩
    · rw [List.getD_eq_getElem?_getD, h1]; rfl
    · rw [cellPoints_labels hp, cellPoints_cornerF (by omega) hI ht]
      refine List.map_congr_left (fun a ha => ?_)
      unfold hyperLabel; rw [if_pos (List.mem_range.1 ha)]
    · intro j hj hjt
      obtain ⟨u, ls, g1, g2⟩ := hget j hj
      exact h2 j u ls g1 (g2.symm.trans hjt)

omit [LinearOrder K] [IsStrictOrderedRing K] in
/-- The ends of any edge. -/
theorem edgeEnds_points {m : Mesh (Fin d → K)} (hI : Inv (simplexTopo n) m) {e : Nat} (he : e < m.count 1) :
    cellPoints m 1 e = [(edgeEnds m e).1, (edgeEnds m e).2] := by
  have he' : e < (m.elems 1).length := by simpa [Mesh.count] using he
  have hvo : m.vertsOf 1 e = (m.elems 1)[e].verts := by
    unfold Mesh.vertsOf
    rw [List.getD_eq_getElem _ _ (by simpa using he')]; simp
  obtain ⟨_, hvl, hvv⟩ := hI.verts 1 _ (List.getElem_mem he')
  rw [← hvo] at hvl hvv
  have hvl : (m.vertsOf 1 e).length = 2 := hvl.fixed
  unfold cellPoints edgeEnds
  match hv : m.vertsOf 1 e, hvl with
  | [a, b], _ =>
    rw [hv] at hvv
    have ha := hvv a (by simp)
    have hb := hvv b (by simp)
    have e1 : m.ptOf a = some m.verts[a].pt := by unfold Mesh.ptOf; rw [List.getElem?_eq_getElem ha]; rfl
    have e2 : m.ptOf b = some m.verts[b].pt := by unfold Mesh.ptOf; rw [List.getElem?_eq_getElem hb]; rfl
    simp only [List.map_cons, List.map_nil, List.filterMap_cons, List.filterMap_nil, e1, e2]

/-- Points of the plane on different edges are apart: for the points computed. -/
theorem sep_mid (hI : Inv (simplexTopo n) src.mesh)
    (hsep : ∀ e < src.mesh.count 1, ∀ f < src.mesh.count 1, e ≠ f → ∀ p q, CutPoint norm eps h nr src.mesh e p →
      CutPoint norm eps h nr src.mesh f q → scale (norm p) ≤ norm (fun i => p i - q i)) :
    ∀ e < src.mesh.count 1, ∀ f < src.mesh.count 1, e ≠ f → hyperTag norm eps h nr (edgeEnds src.mesh) e = true →
      hyperTag norm eps h nr (edgeEnds src.mesh) f = true → scale (norm (hyperMid h nr (edgeEnds src.mesh) e)) ≤
        norm (fun i => hyperMid h nr (edgeEnds src.mesh) e i - hyperMid h nr (edgeEnds src.mesh) f i) := by
  intro e he f hf hef he1 hf1
  rw [tag_iff] at he1 hf1
  exact hsep e he f hf hef _ _ ⟨_, _, edgeEnds_points hI he, he1, C38_point (relTol_nonneg _ _) he1⟩
    ⟨_, _, edgeEnds_points hI hf, hf1, C38_point (relTol_nonneg _ _) hf1⟩

end

/-! ### Volumes -/

/-- Coordinates beyond the dimension are zero. -/
def extend (p : Fin d → K) (k : Nat) : K := if hk : k < d then p ⟨k, hk⟩ else 0

omit [LinearOrder K] [IsStrictOrderedRing K] in
theorem extend_affine {p a b : Fin d → K} {t : K} (hp : ∀ i, p i = (1 - t) * a i + t * b i) (k : Nat) :
    extend p k = (1 - t) * extend a k + t * extend b k := by
  unfold extend
  split
  · exact hp _
  · ring

/-- The places of the new points on their edges. -/
theorem places {n : Nat} {norm : (Fin d → K) → K} {eps : K} {h nr : Fin d → K} (p : Nat → Fin d → K) (m : Nat → Bool)
    (hm : ∀ q a b, (edgeIdx (n + 1))[q]? = some [a, b] → (m q = true → CutBy h nr (relTol eps (norm (fun i => p b i - p a i))) (p a) (p b))) :
    ∃ t : Nat → K, (∀ e, 0 < t e ∧ t e < 1) ∧ ∀ q a b, (edgeIdx (n + 1))[q]? = some [a, b] → m q = true →
      ∀ k, extend (hyperLabel n h nr p (n + 1 + q)) k = (1 - t q) * extend (p a) k + t q * extend (p b) k := by
  have key : ∀ q, ∃ t : K, (0 < t ∧ t < 1) ∧ ∀ a b, (edgeIdx (n + 1))[q]? = some [a, b] → m q = true →
      ∀ k, extend (hyperLabel n h nr p (n + 1 + q)) k = (1 - t) * extend (p a) k + t * extend (p b) k := by
    intro q
    by_cases hq : m q = true ∧ ∃ a b, (edgeIdx (n + 1))[q]? = some [a, b]
    · obtain ⟨hmq, a, b, hab⟩ := hq
      obtain ⟨_, t, h1, h2, h3⟩ := C38_point (relTol_nonneg _ _) (hm q a b hab hmq)
      refine ⟨t, ⟨h1, h2⟩, fun a' b' hab' _ k => ?_⟩
      rw [hab] at hab'
      simp only [Option.some.injEq, List.cons.injEq, and_true] at hab'
      obtain ⟨rfl, rfl⟩ := hab'
      unfold hyperLabel
      rw [if_neg (by omega), show n + 1 + q - (n + 1) = q by omega, hab]
      exact extend_affine h3 k
    · exact ⟨1 / 2, half_between, fun a b hab hmq => absurd ⟨hmq, a, b, hab⟩ hq⟩
  choose t h1 h2 using key
  exact ⟨t, h1, h2⟩

/-- C101 for tetrahedra, without segmentation or with all cells recorded.  Full statement: for every mesh after any
history of creations and additions, every plane and every tolerance, `hyperplane_refine` cuts the cells along the plane:
the new cells are spanned by vertices of their parents and points of the plane on the cut edges, no new cell is cut (with
the same tolerance), cells which are not cut are kept, segments are kept, and the volumes of the children of a cell add up
to its volume.  False if two points of the plane on different edges are merged, see `C101_violated`.  Proved: true if such points are
apart from each other by at least the tolerance of `make_unique_vertex`. -/
theorem C101_tetrahedra_partial {src : SegState (Fin 3 → K)} (hsrc : SegReached (simplexTopo 3) src)
    {dist : (Fin 3 → K) → (Fin 3 → K) → K} (hd : ∀ a b, dist a b = dist b a)
    {norm : (Fin 3 → K) → K} (hnorm : ∀ v, norm (fun i => - v i) = norm v) {scale : K → K} {eps : K} {h nr : Fin 3 → K}
    {order : List Nat} (hord : order.Nodup) (hall : ∀ e, e ∈ order ↔ e < src.mesh.count 1)
    (hsep : ∀ e < src.mesh.count 1, ∀ f < src.mesh.count 1, e ≠ f → ∀ p q, CutPoint norm eps h nr src.mesh e p →
      CutPoint norm eps h nr src.mesh f q → scale (norm p) ≤ norm (fun i => p i - q i)) :
    ∃ (r : RefSt (Fin 3 → K)) (parent : Nat → Nat),
      hyperRefine (simplexTopo 3) src (tetKids dist) norm scale eps h nr order = some r ∧
      CutAlong 3 norm eps h nr src r.out parent ∧
      (∀ i < r.out.mesh.count 3, 0 < solidVolume (cellPoints src.mesh 3 (parent i)) → 0 < solidVolume (cellPoints r.out.mesh 3 i)) ∧
      ∀ t < src.mesh.count 3, sumOver (r.out.mesh.count 3) (fun i => parent i = t) (fun i => solidVolume (cellPoints r.out.mesh 3 i)) =
        solidVolume (cellPoints src.mesh 3 t) := by
  have hI := (hsrc.inv (simplexTopo_wf 3) (simplexTopo_closed 3)).mesh
  have he : (edgeIdx (3 + 1)).length = 6 := by decide
  have he' : edgeIdx (3 + 1) = [[0, 1], [0, 2], [0, 3], [1, 2], [1, 3], [2, 3]] := by decide
  obtain ⟨r, C, R, mark, e1, _, _, hcount, hk, hparts, hQ, hmark⟩ := hyper_parts (n := 3) (by omega) hsrc (he ▸ tetKids_cut hd) hord hall
    (sep_mid hI hsep)
  have hA := hyper_cells (by omega) hnorm hI hcount hk hparts (fun t ht => (hQ t ht).1) hmark
  -- places of the new points
  have hpl : ∀ t < src.mesh.count 3, ∃ tt : Nat → K, (∀ e, 0 < tt e ∧ tt e < 1) ∧ ∀ q a b, (edgeIdx (3 + 1))[q]? = some [a, b] →
      mark ((src.mesh.bndOf 3 t 1).getD q 0) = true → ∀ k, extend (hyperLabel 3 h nr (src.mesh.cornerF 3 t) (3 + 1 + q)) k =
        (1 - tt q) * extend (src.mesh.cornerF 3 t a) k + tt q * extend (src.mesh.cornerF 3 t b) k := by
    intro t ht
    refine places (norm := norm) (eps := eps) (src.mesh.cornerF 3 t) (fun q => mark ((src.mesh.bndOf 3 t 1).getD q 0)) (fun q a b hq hmq => ?_)
    have hql := (List.getElem?_eq_some_iff.1 hq).1
    have hlen := (simplex_edge (by omega) hI ht).1
    rw [hmark _ (by rw [List.getD_eq_getElem _ _ (by omega)]; exact bndOf_valid hI (List.getElem_mem _))] at hmq
    exact (tag_corners (by omega) hnorm hI ht hq).1 hmq
  choose! tt htt hlab using hpl
  have hlabel : ∀ t < src.mesh.count 3, ∀ c ∈ C t, ∀ l ∈ c, extend (hyperLabel 3 h nr (src.mesh.cornerF 3 t) l) =
      labelPoint (fun a => extend (src.mesh.cornerF 3 t a)) (tt t) l := by
    intro t ht c hc l hl
    funext k
    rcases ((hQ t ht).1.1 c hc).2 l hl with hlt | ⟨hge, hlt, hm⟩
    · unfold hyperLabel; rw [if_pos hlt]
      interval_cases l <;> rfl
    · rw [he] at hlt
      have key := fun a b hq => hlab t ht (l - 4) a b hq hm k
      rw [he', show 3 + 1 + (l - 4) = l by omega] at key
      interval_cases l
      · exact key 0 1 rfl
      · exact key 0 2 rfl
      · exact key 0 3 rfl
      · exact key 1 2 rfl
      · exact key 1 3 rfl
      · exact key 2 3 rfl
  have hsolid : ∀ a b c d : Fin 3 → K, solidVolume [a, b, c, d] = |tetVolume6 (extend a) (extend b) (extend c) (extend d)| / 6 := by
    intro a b c d; rfl
  have hsrcPts : ∀ t < src.mesh.count 3, cellPoints src.mesh 3 t =
      [src.mesh.cornerF 3 t 0, src.mesh.cornerF 3 t 1, src.mesh.cornerF 3 t 2, src.mesh.cornerF 3 t 3] := by
    intro t ht; rw [cellPoints_cornerF (by omega) hI ht]; rfl
  have hvol : ∀ (i t : Nat) (ls : List Nat), r.kids[i]? = some (t, ls) →
      solidVolume (cellPoints r.out.mesh 3 i) = |childVolume6 (fun a => extend (src.mesh.cornerF 3 t a)) (tt t) ls| / 6 := by
    intro i t ls hi
    obtain ⟨ht, hp, _⟩ := hparts i t ls hi
    have hC := kid_mem hk hi
    have hl1 := ((hQ t ht).1.1 ls hC).1
    have hl2 := hlabel t ht ls hC
    rw [cellPoints_labels hp]
    match ls, hl1 with
    | [a, b, c, d], _ =>
      simp only [List.map_cons, List.map_nil, hsolid, childVolume6]
      rw [hl2 a (by simp), hl2 b (by simp), hl2 c (by simp), hl2 d (by simp)]
  refine ⟨r, _, e1, hA, ?_, ?_⟩
  · intro i hi
    rw [hcount] at hi
    have hi' : r.kids[i]? = some (r.kids.getD i (0, [])) := by
      rw [List.getD_eq_getElem _ _ hi]; exact List.getElem?_eq_getElem hi
    generalize r.kids.getD i (0, []) = k at hi' ⊢
    obtain ⟨t, ls⟩ := k
    obtain ⟨ht, _⟩ := hparts i t ls hi'
    rw [hvol i t ls hi', hsrcPts t ht, hsolid]
    intro h0
    have h1 : 0 < |tetVolume6 (extend (src.mesh.cornerF 3 t 0)) (extend (src.mesh.cornerF 3 t 1)) (extend (src.mesh.cornerF 3 t 2)) (extend (src.mesh.cornerF 3 t 3))| := by
      by_contra hn
      have := div_nonpos_of_nonpos_of_nonneg (not_lt.1 hn) (by norm_num : (0 : K) ≤ 6)
      linarith
    have := ((hQ t ht).2 (fun a => extend (src.mesh.cornerF 3 t a)) (tt t) (fun e _ => htt t ht e)).2 (abs_pos.1 h1) ls (kid_mem hk hi')
    exact div_pos (abs_pos.2 this) (by norm_num)
  · intro t ht
    rw [hcount, sumOver_parent hk ht _ (fun k => |childVolume6 (fun a => extend (src.mesh.cornerF 3 k.1 a)) (tt k.1) k.2| / 6)
      (fun i k hi => hvol i k.1 k.2 hi), hsrcPts t ht, hsolid]
    rw [← ((hQ t ht).2 (fun a => extend (src.mesh.cornerF 3 t a)) (tt t) (fun e _ => htt t ht e)).1]
    have := sum_map_mul ((C t).map (fun c => |childVolume6 (fun a => extend (src.mesh.cornerF 3 t a)) (tt t) c|)) (6 : K)⁻¹
    rw [List.map_map] at this
    rw [div_eq_mul_inv (b := (6 : K)), ← this]
    refine congrArg List.sum (List.map_congr_left (fun c _ => ?_))
    simp only [Function.comp, div_eq_mul_inv (b := (6 : K))]

/-- C101 for triangles in any number of dimensions; instead of the volume any measure which is a homogeneous function of
the areas of the projections to the coordinate planes.  Full statement and what is missing: see `C101_tetrahedra_partial`. -/
theorem C101_triangles_partial {src : SegState (Fin d → K)} (hsrc : SegReached (simplexTopo 2) src)
    (dist : (Fin d → K) → (Fin d → K) → K)
    {norm : (Fin d → K) → K} (hnorm : ∀ v, norm (fun i => - v i) = norm v) {scale : K → K} {eps : K} {h nr : Fin d → K}
    {order : List Nat} (hord : order.Nodup) (hall : ∀ e, e ∈ order ↔ e < src.mesh.count 1)
    (hsep : ∀ e < src.mesh.count 1, ∀ f < src.mesh.count 1, e ≠ f → ∀ p q, CutPoint norm eps h nr src.mesh e p →
      CutPoint norm eps h nr src.mesh f q → scale (norm p) ≤ norm (fun i => p i - q i)) :
    ∃ (r : RefSt (Fin d → K)) (parent : Nat → Nat),
      hyperRefine (simplexTopo 2) src (triKids dist) norm scale eps h nr order = some r ∧
      CutAlong 2 norm eps h nr src r.out parent ∧
      (∀ i < r.out.mesh.count 2, ∀ k l, 0 < flatMeasure (fun M => |M k l|) (cellPoints src.mesh 2 (parent i)) →
        0 < flatMeasure (fun M => M k l) (cellPoints r.out.mesh 2 i) * flatMeasure (fun M => M k l) (cellPoints src.mesh 2 (parent i))) ∧
      ∀ mu : (Fin d → Fin d → K) → K, (∀ s M, 0 < s → mu (fun k l => s * M k l) = s * mu M) →
        ∀ t < src.mesh.count 2, sumOver (r.out.mesh.count 2) (fun i => parent i = t) (fun i => flatMeasure mu (cellPoints r.out.mesh 2 i)) =
          flatMeasure mu (cellPoints src.mesh 2 t) := by
  have hI := (hsrc.inv (simplexTopo_wf 2) (simplexTopo_closed 2)).mesh
  have he : (edgeIdx (2 + 1)).length = 3 := by decide
  have he' : edgeIdx (2 + 1) = [[0, 1], [0, 2], [1, 2]] := by decide
  obtain ⟨r, C, R, mark, e1, _, _, hcount, hk, hparts, hQ, hmark⟩ := hyper_parts (n := 2) (by omega) hsrc (he ▸ triKids_cut dist) hord hall
    (sep_mid hI hsep)
  have hA := hyper_cells (by omega) hnorm hI hcount hk hparts (fun t ht => (hQ t ht).1) hmark
  have hpl : ∀ t < src.mesh.count 2, ∃ tt : Nat → K, (∀ e, 0 < tt e ∧ tt e < 1) ∧ ∀ q a b, (edgeIdx (2 + 1))[q]? = some [a, b] →
      mark ((src.mesh.bndOf 2 t 1).getD q 0) = true → ∀ k, extend (hyperLabel 2 h nr (src.mesh.cornerF 2 t) (2 + 1 + q)) k =
        (1 - tt q) * extend (src.mesh.cornerF 2 t a) k + tt q * extend (src.mesh.cornerF 2 t b) k := by
    intro t ht
    refine places (norm := norm) (eps := eps) (src.mesh.cornerF 2 t) (fun q => mark ((src.mesh.bndOf 2 t 1).getD q 0)) (fun q a b hq hmq => ?_)
    have hql := (List.getElem?_eq_some_iff.1 hq).1
    have hlen := (simplex_edge (by omega) hI ht).1
    rw [hmark _ (by rw [List.getD_eq_getElem _ _ (by omega)]; exact bndOf_valid hI (List.getElem_mem _))] at hmq
    exact (tag_corners (by omega) hnorm hI ht hq).1 hmq
  choose! tt htt hlab using hpl
  have hlabel : ∀ t < src.mesh.count 2, ∀ c ∈ C t, ∀ l ∈ c, extend (hyperLabel 2 h nr (src.mesh.cornerF 2 t) l) =
      triPoint (fun a => extend (src.mesh.cornerF 2 t a)) (tt t) l := by
    intro t ht c hc l hl
    funext k
    rcases ((hQ t ht).1.1 c hc).2 l hl with hlt | ⟨hge, hlt, hm⟩
    · unfold hyperLabel; rw [if_pos hlt]
      interval_cases l <;> rfl
    · rw [he] at hlt
      have key := fun a b hq => hlab t ht (l - 3) a b hq hm k
      rw [he', show 2 + 1 + (l - 3) = l by omega] at key
      interval_cases l
      · exact key 0 1 rfl
      · exact key 0 2 rfl
      · exact key 1 2 rfl
  have hsh := fun t (ht : t < src.mesh.count 2) => (hQ t ht).2 (tt t) (fun e _ => htt t ht e)
  choose! share hs1 hs2 hs3 using hsh
  have hflat : ∀ (mu : (Fin d → Fin d → K) → K) (a b c : Fin d → K), flatMeasure mu [a, b, c] =
      mu (fun k l => area2 (extend a) (extend b) (extend c) k l) := by
    intro mu a b c
    show mu _ = mu _
    congr 1
    funext k l
    simp [area2, extend]
  have hsrcPts : ∀ t < src.mesh.count 2, cellPoints src.mesh 2 t =
      [src.mesh.cornerF 2 t 0, src.mesh.cornerF 2 t 1, src.mesh.cornerF 2 t 2] := by
    intro t ht; rw [cellPoints_cornerF (by omega) hI ht]; rfl
  have hvol : ∀ (mu : (Fin d → Fin d → K) → K) (i t : Nat) (ls : List Nat), r.kids[i]? = some (t, ls) →
      flatMeasure mu (cellPoints r.out.mesh 2 i) = mu (fun k l => share t ls *
        area2 (extend (src.mesh.cornerF 2 t 0)) (extend (src.mesh.cornerF 2 t 1)) (extend (src.mesh.cornerF 2 t 2)) k l) := by
    intro mu i t ls hi
    obtain ⟨ht, hp, _⟩ := hparts i t ls hi
    have hC := kid_mem hk hi
    have hl1 := ((hQ t ht).1.1 ls hC).1
    have hl2 := hlabel t ht ls hC
    have h3 := hs3 t ht (fun a => extend (src.mesh.cornerF 2 t a)) ls hC
    rw [cellPoints_labels hp]
    match ls, hl1, h3 with
    | [a, b, c], _, h3 =>
      simp only [List.map_cons, List.map_nil, hflat]
      rw [hl2 a (by simp), hl2 b (by simp), hl2 c (by simp)]
      congr 1
      funext k l
      exact h3 k l
  refine ⟨r, _, e1, hA, ?_, ?_⟩
  · intro i hi k l
    rw [hcount] at hi
    have hi' : r.kids[i]? = some (r.kids.getD i (0, [])) := by
      rw [List.getD_eq_getElem _ _ hi]; exact List.getElem?_eq_getElem hi
    generalize r.kids.getD i (0, []) = kk at hi' ⊢
    obtain ⟨t, ls⟩ := kk
    obtain ⟨ht, _⟩ := hparts i t ls hi'
    rw [hvol _ i t ls hi', hsrcPts t ht, hflat, hflat]
    intro h0
    have := hs1 t ht ls (kid_mem hk hi')
    rw [mul_assoc]
    exact mul_pos this (mul_self_pos.2 (abs_pos.1 h0))
  · intro mu hmu t ht
    rw [hcount, sumOver_parent hk ht _ (fun kk => share kk.1 kk.2 *
        mu (fun k l => area2 (extend (src.mesh.cornerF 2 kk.1 0)) (extend (src.mesh.cornerF 2 kk.1 1)) (extend (src.mesh.cornerF 2 kk.1 2)) k l))
        (fun i k hi => ?_), hsrcPts t ht, hflat]
    · have := sum_map_mul ((C t).map (share t)) (mu (fun k l => area2 (extend (src.mesh.cornerF 2 t 0)) (extend (src.mesh.cornerF 2 t 1)) (extend (src.mesh.cornerF 2 t 2)) k l))
      rw [hs2 t ht, one_mul, List.map_map] at this
      exact this
    · obtain ⟨t, ls⟩ := k
      rw [hvol mu i t ls hi]
      exact hmu _ _ (hs1 t (hparts i t ls hi).1 ls (kid_mem hk hi))

/-- C101: with tolerance zero each cell of the result is on one side of the plane. -/
theorem C101_one_side {n : Nat} {norm : (Fin d → K) → K} {h nr : Fin d → K} {src out : SegState (Fin d → K)} {parent : Nat → Nat}
    (hc : CutAlong n norm 0 h nr src out parent) {i : Nat} (hi : i < out.mesh.count n) :
    (∀ p ∈ cellPoints out.mesh n i, planeSide h nr p ≤ 0) ∨ ∀ p ∈ cellPoints out.mesh n i, 0 ≤ planeSide h nr p := by
  by_contra hcon
  rw [not_or] at hcon
  obtain ⟨h1, h2⟩ := hcon
  push Not at h1 h2
  obtain ⟨p, hp, hp0⟩ := h1
  obtain ⟨q, hq, hq0⟩ := h2
  refine hc.sides i hi p hp q hq (Or.inr ?_)
  have : relTol (0 : K) (norm (fun k => q k - p k)) = 0 := by simp [relTol]
  rw [this]
  exact ⟨by linarith, by linarith⟩

omit [IsStrictOrderedRing K] in
/-- C101: `hyperplane_refine` of a mesh with a segmentation: the same if every cell has a record in the segmentation. -/
theorem C101_segmentation {n : Nat} {src : SegState (Fin d → K)} (hsrc : SegReached (simplexTopo n) src)
    (hrec : ∀ t < src.mesh.count n, HasRecord src n t)
    (kids : List (Option (Vtx (Fin d → K))) → (Nat → Bool) → Option (List (List Nat)))
    (norm : (Fin d → K) → K) (scale : K → K) (eps : K) (h nr : Fin d → K) (order : List Nat) :
    hyperRefineSeg (simplexTopo n) src kids norm scale eps h nr order = hyperRefine (simplexTopo n) src kids norm scale eps h nr order := by
  unfold hyperRefineSeg
  rw [if_pos]
  exact List.all_eq_true.2 (fun t ht => (hasRecord_iff (Or.inl ⟨n, rfl⟩) hsrc).2 (hrec t (List.mem_range.1 ht)))

/-! ### Violation -/

/-- A triangle far away from the origin. -/
noncomputable def farOps : List (SOp (Fin 2 → ℝ)) :=
  [.mesh (.vertex none ![10000000, -1]), .mesh (.vertex none ![10000002, -1]), .mesh (.vertex none ![10000000, 1]), .mesh (.elem 2 [0, 1, 2])]

noncomputable def farMesh : SegState (Fin 2 → ℝ) := ((SegState.empty : SegState (Fin 2 → ℝ)).run (simplexTopo 2) farOps).getD SegState.empty

theorem farMesh_reached : SegReached (simplexTopo 2) farMesh :=
  ⟨farOps, by simp [farOps, SOp.creation, MOp.Distinct], rfl, by unfold UniqueVids; decide⟩

theorem farMesh_ends : edgeEnds farMesh.mesh 0 = (![10000000, -1], ![10000002, -1]) ∧ edgeEnds farMesh.mesh 1 = farEnds 0 ∧
    edgeEnds farMesh.mesh 2 = farEnds 1 := ⟨rfl, rfl, rfl⟩

theorem far_mark : hyperMark norm2 (fun x => x / 1000000) 0 ![0, 0] ![0, 1] (edgeEnds farMesh.mesh) ⟨Mesh.empty, fun _ => false, fun _ => none⟩ [0, 1, 2] =
      ⟨Mesh.empty.makeVertex none ![10000000, 0], setMark (setMark (fun _ => false) 1) 2,
        fun x => if x = 2 then some 0 else if x = 1 then some 0 else none⟩ := by
  have e0 : hyperPoint ![0, 0] ![0, 1] (farEnds 0).1 (farEnds 0).2 = ![(10000000 : ℝ), 0] := by
    funext i; fin_cases i <;> norm_num [hyperPoint, hyperDist, farEnds, Fin.sum_univ_two]
  have e1 : hyperPoint ![0, 0] ![0, 1] (farEnds 1).1 (farEnds 1).2 = ![(10000001 : ℝ), 0] := by
    funext i; fin_cases i <;> norm_num [hyperPoint, hyperDist, farEnds, Fin.sum_univ_two]
  have c0 : ∀ t, t = 0 → hyperCuts ![0, 0] ![0, 1] t (farEnds 0).1 (farEnds 0).2 = true := by
    rintro t rfl
    norm_num [hyperCuts, hyperDist, farEnds, Fin.sum_univ_two]
  have c1 : ∀ t, t = 0 → hyperCuts ![0, 0] ![0, 1] t (farEnds 1).1 (farEnds 1).2 = true := by
    rintro t rfl
    norm_num [hyperCuts, hyperDist, farEnds, Fin.sum_univ_two]
  have c2 : ∀ t, t = 0 → hyperCuts ![0, 0] ![0, 1] t (![10000000, -1] : Fin 2 → ℝ) ![10000002, -1] = false := by
    rintro t rfl
    norm_num [hyperCuts, hyperDist, Fin.sum_univ_two]
  have ht : ∀ b : ℝ, relTol 0 b = 0 := fun b => by simp [relTol]
  have n0 : norm2 ![(10000000 : ℝ), 0] = 10000000 := by
    simp only [norm2, Matrix.cons_val_zero, Matrix.cons_val_one]
    rw [show ((10000000 : ℝ) ^ 2 + 0 ^ 2) = 10000000 ^ 2 by ring]
    exact Real.sqrt_sq (by norm_num)
  have n1 : norm2 ![(10000001 : ℝ), 0] = 10000001 := by
    simp only [norm2, Matrix.cons_val_zero, Matrix.cons_val_one]
    rw [show ((10000001 : ℝ) ^ 2 + 0 ^ 2) = 10000001 ^ 2 by ring]
    exact Real.sqrt_sq (by norm_num)
  have nd : norm2 (fun i => (![10000001, 0] : Fin 2 → ℝ) i - (![10000000, 0] : Fin 2 → ℝ) i) = 1 := by
    simp only [norm2, Matrix.cons_val_zero, Matrix.cons_val_one]
    rw [show (((10000001 : ℝ) - 10000000) ^ 2 + (0 - 0) ^ 2) = 1 by norm_num]
    exact Real.sqrt_one
  obtain ⟨f0, f1, f2⟩ := farMesh_ends
  simp only [hyperMark, List.foldl_cons, List.foldl_nil, hyperEdge, f0, f1, f2, c0 _ (ht _), c1 _ (ht _), c2 _ (ht _), if_true, e0, e1]
  simp only [Mesh.makeUniqueVertexDefault, Mesh.makeUniqueVertex, n0, n1]
  norm_num [Mesh.empty, Mesh.makeVertex, List.findIdx?_cons, nd]

/-- The two ways of cutting the rest of the triangle. -/
theorem far_kids (dist : (Fin 2 → ℝ) → (Fin 2 → ℝ) → ℝ) (vs : List (Option (Vtx (Fin 2 → ℝ)))) (m : Nat → Bool)
    (h0 : m 0 = false) (h1 : m 1 = true) (h2 : m 2 = true) :
    triKids dist vs m = some [[5, 2, 4], [1, 5, 0], [0, 5, 4]] ∨ triKids dist vs m = some [[5, 2, 4], [1, 5, 4], [1, 4, 0]] := by
  unfold triKids refineTri
  simp only [h0, h1, h2, List.filter_cons, List.filter_nil, if_true, Bool.false_eq_true, if_false, List.length_cons, List.length_nil, tri2,
    Bool.and_self, Bool.false_and, tri2cells]
  split
  · left; rfl
  · right; rfl

/-- C101 violated: far away from the origin the points of two edges of a triangle of area 2 are merged.  The refined mesh has
a triangle with the same vertex twice, and its cells have area 1 in total.  For every function used for the lengths. -/
theorem C101_violated (dist : (Fin 2 → ℝ) → (Fin 2 → ℝ) → ℝ) : ∃ r,
    hyperRefine (simplexTopo 2) farMesh (triKids dist) norm2 (fun x => x / 1000000) 0 ![0, 0] ![0, 1] [0, 1, 2] = some r ∧
    ¬ (r.out.mesh.vertsOf 2 0).Nodup ∧
    sumOver (farMesh.mesh.count 2) (fun _ => True) (fun i => flatMeasure (fun M => |M 0 1| / 2) (cellPoints farMesh.mesh 2 i)) = 2 ∧
    sumOver (r.out.mesh.count 2) (fun _ => True) (fun i => flatMeasure (fun M => |M 0 1| / 2) (cellPoints r.out.mesh 2 i)) = 1 := by
  unfold hyperRefine
  simp only [far_mark]
  have hk := far_kids dist
  generalize triKids dist = kids at hk ⊢
  show ∃ r, (refCell (simplexTopo 2) farMesh kids _ _ _ 0).bind some = some r ∧ _
  simp only [refCell]
  show ∃ r, ((kids _ _).bind _).bind some = some r ∧ _
  have area : sumOver (farMesh.mesh.count 2) (fun _ => True) (fun i => flatMeasure (fun M => |M 0 1| / 2) (cellPoints farMesh.mesh 2 i)) = 2 := by
    show ([flatMeasure (fun M => |M 0 1| / 2) [(![10000000, -1] : Fin 2 → ℝ), ![10000002, -1], ![10000000, 1]]] : List ℝ).sum = 2
    norm_num [flatMeasure]
  generalize hx : kids _ _ = x
  have hx' : x = some [[5, 2, 4], [1, 5, 0], [0, 5, 4]] ∨ x = some [[5, 2, 4], [1, 5, 4], [1, 4, 0]] := by
    rw [← hx]
    exact hk _ _ rfl rfl rfl
  clear hx
  rcases hx' with rfl | rfl
  · refine ⟨_, rfl, ?_, area, ?_⟩
    · decide
    · show ([flatMeasure (fun M => |M 0 1| / 2) [(![10000000, 0] : Fin 2 → ℝ), ![10000000, 1], ![10000000, 0]],
        flatMeasure (fun M => |M 0 1| / 2) [(![10000002, -1] : Fin 2 → ℝ), ![10000000, 0], ![10000000, -1]],
        flatMeasure (fun M => |M 0 1| / 2) [(![10000000, -1] : Fin 2 → ℝ), ![10000000, 0], ![10000000, 0]]] : List ℝ).sum = 1
      norm_num [flatMeasure]
  · refine ⟨_, rfl, ?_, area, ?_⟩
    · decide
    · show ([flatMeasure (fun M => |M 0 1| / 2) [(![10000000, 0] : Fin 2 → ℝ), ![10000000, 1], ![10000000, 0]],
        flatMeasure (fun M => |M 0 1| / 2) [(![10000002, -1] : Fin 2 → ℝ), ![10000000, 0], ![10000000, 0]],
        flatMeasure (fun M => |M 0 1| / 2) [(![10000002, -1] : Fin 2 → ℝ), ![10000000, 0], ![10000000, -1]]] : List ℝ).sum = 1
      norm_num [flatMeasure]

omit [IsStrictOrderedRing K] in
/-- C101 violated: with a segmentation `hyperplane_refine` is undefined if a cell of the mesh has no record in the
segmentation, even if nothing is cut. -/
theorem C101_violated_unrecorded {n : Nat} {src : SegState (Fin d → K)} (hsrc : SegReached (simplexTopo n) src) {t : Nat}
    (ht : t < src.mesh.count n) (hrec : ¬ HasRecord src n t)
    (kids : List (Option (Vtx (Fin d → K))) → (Nat → Bool) → Option (List (List Nat)))
    (norm : (Fin d → K) → K) (scale : K → K) (eps : K) (h nr : Fin d → K) (order : List Nat) :
    hyperRefineSeg (simplexTopo n) src kids norm scale eps h nr order = none := by
  unfold hyperRefineSeg
  rw [if_neg]
  rw [List.all_eq_true]
  intro h
  exact hrec ((hasRecord_iff (Or.inl ⟨n, rfl⟩) hsrc).1 (h t (List.mem_range.2 ht)))

/-! ### Cases meeting the hypotheses -/

/-- A tetrahedron with three vertices below the plane of the first two directions and one above, in segment 3. -/
def cutTetOps : List (SOp (Fin 3 → ℚ)) :=
  [.mesh (.vertex none ![0, 0, -1]), .mesh (.vertex none ![2, 0, -1]), .mesh (.vertex none ![0, 2, -1]), .mesh (.vertex none ![0, 0, 1]),
   .mesh (.elem 3 [0, 1, 2, 3]), .add 3 3 0]

def cutTet : SegState (Fin 3 → ℚ) := ((SegState.empty : SegState (Fin 3 → ℚ)).run (simplexTopo 3) cutTetOps).getD SegState.empty

theorem cutTet_reached : SegReached (simplexTopo 3) cutTet :=
  ⟨cutTetOps, by simp [cutTetOps, SOp.creation, MOp.Distinct], rfl, by unfold UniqueVids; decide⟩

/-- Sum of the absolute values of the coordinates. -/
def sumNorm (v : Fin d → K) : K := ∑ i, |v i|

theorem vec_two (x y z : ℚ) : (![x, y, z] : Fin 3 → ℚ) 2 = z := rfl

/-- The cut edges and their points. -/
theorem cutTet_points {e : Nat} {p : Fin 3 → ℚ} (hp : CutPoint sumNorm 0 ![0, 0, 0] ![0, 0, 1] cutTet.mesh e p) (he : e < 6) :
    (e = 2 ∧ p = ![0, 0, 0]) ∨ (e = 4 ∧ p = ![1, 0, 0]) ∨ (e = 5 ∧ p = ![0, 1, 0]) := by
  obtain ⟨a, b, hab, hc, hpl, t, ht0, ht1, hpt⟩ := hp
  have hvec : ∀ x y z : ℚ, p 0 = x → p 1 = y → p 2 = z → p = ![x, y, z] := by
    intro x y z hx hy hz
    funext k
    fin_cases k <;> simp [hx, hy, hz]
  have r0 : relTol (0 : ℚ) (sumNorm (fun i => b i - a i)) = 0 := by simp [relTol]
  rw [r0] at hc
  have h0 := hpt 0
  have h1 := hpt 1
  have h2 := hpt 2
  have hz : p 2 = 0 := by
    simpa [planeSide, Fin.sum_univ_three, vec_two] using hpl
  interval_cases e
  · obtain ⟨rfl, rfl⟩ : ![0, 0, -1] = a ∧ ![2, 0, -1] = b := by simpa using (show [_, _] = [a, b] from hab)
    norm_num [CutBy, planeSide, Fin.sum_univ_three, vec_two] at hc
  · obtain ⟨rfl, rfl⟩ : ![0, 0, -1] = a ∧ ![0, 2, -1] = b := by simpa using (show [_, _] = [a, b] from hab)
    norm_num [CutBy, planeSide, Fin.sum_univ_three, vec_two] at hc
  · obtain ⟨rfl, rfl⟩ : ![0, 0, -1] = a ∧ ![0, 0, 1] = b := by simpa using (show [_, _] = [a, b] from hab)
    simp [vec_two] at h0 h1 h2
    exact Or.inl ⟨rfl, hvec _ _ _ h0 h1 hz⟩
  · obtain ⟨rfl, rfl⟩ : ![2, 0, -1] = a ∧ ![0, 2, -1] = b := by simpa using (show [_, _] = [a, b] from hab)
    norm_num [CutBy, planeSide, Fin.sum_univ_three, vec_two] at hc
  · obtain ⟨rfl, rfl⟩ : ![2, 0, -1] = a ∧ ![0, 0, 1] = b := by simpa using (show [_, _] = [a, b] from hab)
    simp [vec_two] at h0 h1 h2
    exact Or.inr (Or.inl ⟨rfl, hvec _ _ _ (by linarith) h1 hz⟩)
  · obtain ⟨rfl, rfl⟩ : ![0, 2, -1] = a ∧ ![0, 0, 1] = b := by simpa using (show [_, _] = [a, b] from hab)
    simp [vec_two] at h0 h1 h2
    exact Or.inr (Or.inr ⟨rfl, hvec _ _ _ h0 (by linarith) hz⟩)

/-- The hypotheses of `C101_tetrahedra_partial` are met; three of the edges are cut. -/
example : SegReached (simplexTopo 3) cutTet ∧ (∀ a b : Fin 3 → ℚ, sumNorm (fun i => a i - b i) = sumNorm (fun i => b i - a i)) ∧
    (∀ v : Fin 3 → ℚ, sumNorm (fun i => - v i) = sumNorm v) ∧ (List.range 6).Nodup ∧ (∀ e, e ∈ List.range 6 ↔ e < cutTet.mesh.count 1) ∧
    (∀ e < cutTet.mesh.count 1, ∀ f < cutTet.mesh.count 1, e ≠ f → ∀ p q, CutPoint sumNorm 0 ![0, 0, 0] ![0, 0, 1] cutTet.mesh e p →
      CutPoint sumNorm 0 ![0, 0, 0] ![0, 0, 1] cutTet.mesh f q → sumNorm p / 1000000 ≤ sumNorm (fun i => p i - q i)) ∧
    (∃ p, CutPoint sumNorm 0 ![0, 0, 0] ![0, 0, 1] cutTet.mesh 4 p) ∧ 0 < solidVolume (cellPoints cutTet.mesh 3 0) ∧ HasRecord cutTet 3 0 := by
  refine ⟨cutTet_reached, ?_, ?_, List.nodup_range, fun e => List.mem_range, ?_, ⟨![1, 0, 0], ![2, 0, -1], ![0, 0, 1], rfl, ?_, ?_, ?_⟩, ?_, ?_⟩
  · intro a b
    simp only [sumNorm, abs_sub_comm]
  · intro v
    simp only [sumNorm, abs_neg]
  · intro e he f hf hef p q hp hq
    rcases cutTet_points hp he with ⟨rfl, rfl⟩ | ⟨rfl, rfl⟩ | ⟨rfl, rfl⟩ <;> rcases cutTet_points hq hf with ⟨rfl, rfl⟩ | ⟨rfl, rfl⟩ | ⟨rfl, rfl⟩ <;>
      first
      | exact absurd rfl hef
      | norm_num [sumNorm, Fin.sum_univ_three, vec_two]
  · norm_num [CutBy, planeSide, Fin.sum_univ_three, vec_two, relTol]
  · norm_num [planeSide, Fin.sum_univ_three, vec_two]
  · refine ⟨1 / 2, by norm_num, by norm_num, fun i => ?_⟩
    fin_cases i <;> norm_num [vec_two]
  · show 0 < solidVolume [(![0, 0, -1] : Fin 3 → ℚ), ![2, 0, -1], ![0, 2, -1], ![0, 0, 1]]
    norm_num [solidVolume, vec_two]
  · rw [← hasRecord_iff (Or.inl ⟨3, rfl⟩) cutTet_reached]
    decide

/-- The hypotheses of `C101_violated_unrecorded` are met. -/
example : SegReached (simplexTopo 2) farMesh ∧ 0 < farMesh.mesh.count 2 ∧ ¬ HasRecord farMesh 2 0 := by
  refine ⟨farMesh_reached, by decide, ?_⟩
  rw [← hasRecord_iff (Or.inl ⟨2, rfl⟩) farMesh_reached]
  decide

/-- A triangle with two vertices below the line and one above. -/
def cutTriOps : List (SOp (Fin 2 → ℚ)) :=
  [.mesh (.vertex none ![0, -1]), .mesh (.vertex none ![2, -1]), .mesh (.vertex none ![0, 1]), .mesh (.elem 2 [0, 1, 2]), .add 3 2 0]

def cutTri : SegState (Fin 2 → ℚ) := ((SegState.empty : SegState (Fin 2 → ℚ)).run (simplexTopo 2) cutTriOps).getD SegState.empty

theorem cutTri_reached : SegReached (simplexTopo 2) cutTri :=
  ⟨cutTriOps, by simp [cutTriOps, SOp.creation, MOp.Distinct], rfl, by unfold UniqueVids; decide⟩

theorem cutTri_points {e : Nat} {p : Fin 2 → ℚ} (hp : CutPoint sumNorm 0 ![0, 0] ![0, 1] cutTri.mesh e p) (he : e < 3) :
    (e = 1 ∧ p = ![0, 0]) ∨ (e = 2 ∧ p = ![1, 0]) := by
  obtain ⟨a, b, hab, hc, hpl, t, ht0, ht1, hpt⟩ := hp
  have hvec : ∀ x y : ℚ, p 0 = x → p 1 = y → p = ![x, y] := by
    intro x y hx hy
    funext k
    fin_cases k <;> simp [hx, hy]
  have r0 : relTol (0 : ℚ) (sumNorm (fun i => b i - a i)) = 0 := by simp [relTol]
  rw [r0] at hc
  have h0 := hpt 0
  have h1 := hpt 1
  have hz : p 1 = 0 := by
    simpa [planeSide, Fin.sum_univ_two] using hpl
  interval_cases e
  · obtain ⟨rfl, rfl⟩ : ![0, -1] = a ∧ ![2, -1] = b := by simpa using (show [_, _] = [a, b] from hab)
    norm_num [CutBy, planeSide, Fin.sum_univ_two] at hc
  · obtain ⟨rfl, rfl⟩ : ![0, -1] = a ∧ ![0, 1] = b := by simpa using (show [_, _] = [a, b] from hab)
    simp at h0 h1
    exact Or.inl ⟨rfl, hvec _ _ h0 hz⟩
  · obtain ⟨rfl, rfl⟩ : ![2, -1] = a ∧ ![0, 1] = b := by simpa using (show [_, _] = [a, b] from hab)
    simp at h0 h1
    exact Or.inr ⟨rfl, hvec _ _ (by linarith) hz⟩

/-- The hypotheses of `C101_triangles_partial` are met; two of the edges are cut. -/
example : SegReached (simplexTopo 2) cutTri ∧ (∀ v : Fin 2 → ℚ, sumNorm (fun i => - v i) = sumNorm v) ∧ (List.range 3).Nodup ∧
    (∀ e, e ∈ List.range 3 ↔ e < cutTri.mesh.count 1) ∧
    (∀ e < cutTri.mesh.count 1, ∀ f < cutTri.mesh.count 1, e ≠ f → ∀ p q, CutPoint sumNorm 0 ![0, 0] ![0, 1] cutTri.mesh e p →
      CutPoint sumNorm 0 ![0, 0] ![0, 1] cutTri.mesh f q → sumNorm p / 1000000 ≤ sumNorm (fun i => p i - q i)) ∧
    ∃ p, CutPoint sumNorm 0 ![0, 0] ![0, 1] cutTri.mesh 2 p := by
  refine ⟨cutTri_reached, ?_, List.nodup_range, fun e => List.mem_range, ?_, ![1, 0], ![2, -1], ![0, 1], rfl, ?_, ?_, ?_⟩
  · intro v
    simp only [sumNorm, abs_neg]
  · intro e he f hf hef p q hp hq
    rcases cutTri_points hp he with ⟨rfl, rfl⟩ | ⟨rfl, rfl⟩ <;> rcases cutTri_points hq hf with ⟨rfl, rfl⟩ | ⟨rfl, rfl⟩ <;>
      first
      | exact absurd rfl hef
      | norm_num [sumNorm, Fin.sum_univ_two]
  · norm_num [CutBy, planeSide, Fin.sum_univ_two, relTol]
  · norm_num [planeSide, Fin.sum_univ_two]
  · refine ⟨1 / 2, by norm_num, by norm_num, fun i => ?_⟩
    fin_cases i <;> norm_num

end VG
