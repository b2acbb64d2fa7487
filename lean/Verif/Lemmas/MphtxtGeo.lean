import Verif.Lemmas.Mphtxt
import Verif.Lemmas.TetSlots
import Verif.Lemmas.Angles
import Verif.Props.Transform

/-!
The decisions of the writer of Comsol files in terms of points.
-/

namespace VG

variable {m : Mesh (Fin 3 → ℝ)}

theorem abs_lt_iff_sq {x y z w : ℝ} (hx : 0 ≤ x) (hy : 0 ≤ y) (hz : 0 ≤ z) :
    x * y * z < |w| ↔ x ^ 2 * (y ^ 2 * z ^ 2) < w ^ 2 := by
  rw [show x ^ 2 * (y ^ 2 * z ^ 2) = (x * y * z) ^ 2 by ring, sq_lt_sq, abs_of_nonneg (mul_nonneg (mul_nonneg hx hy) hz)]

theorem triNormal_eq {t a b w : Nat} (h : m.vertsOf 2 t = [a, b, w]) :
    m.triNormal t = crossProd (m.at0 b - m.at0 a) (m.at0 w - m.at0 a) := by
  unfold Mesh.triNormal normalTriangle
  rw [h]
  rfl

theorem normalsParallel_iff {t u a b w a' b' w' : Nat} (ht : m.vertsOf 2 t = [a, b, w]) (hu : m.vertsOf 2 u = [a', b', w']) :
    normalsParallel m t u = true ↔ NearlyParallel m t u := by
  have key : normalsParallel m t u = true ↔
      (1 - 1 / 10 ^ 6) ^ 2 * ((∑ i, m.triNormal t i ^ 2) * ∑ i, m.triNormal u i ^ 2) < (∑ i, m.triNormal t i * m.triNormal u i) ^ 2 := by
    unfold normalsParallel
    rw [decide_eq_true_eq, abs_lt_iff_sq (by norm_num) (euclNorm_nonneg _) (euclNorm_nonneg _), euclNorm_sq, euclNorm_sq]
    unfold innerProd
    simp only [← sq]
    norm_num
  rw [key, triNormal_eq ht, triNormal_eq hu]
  constructor
  · intro h
    exact ⟨a, b, w, a', b', w', ht, hu, h⟩
  · rintro ⟨x, y, z, x', y', z', h1, h2, h3⟩
    rw [ht] at h1
    rw [hu] at h2
    cases h1
    cases h2
    exact h3

theorem normalsParallel_symm (t u : Nat) : normalsParallel m t u = normalsParallel m u t := by
  unfold normalsParallel
  congr 1
  rw [mul_assoc, mul_comm (euclNorm _), ← mul_assoc]
  have : innerProd (m.triNormal t) (m.triNormal u) = innerProd (m.triNormal u) (m.triNormal t) := by
    unfold innerProd
    exact Finset.sum_congr rfl (fun _ _ => mul_comm _ _)
  rw [this]

theorem points_eq (hI : Inv (simplexTopo 3) m) {k t : Nat} (hk : k ≠ 0) (ht : t < m.count k) :
    m.pointsOf k t = (m.vertsOf k t).map m.at0 := by
  obtain ⟨e, he⟩ := elem_of_lt hk ht
  have hv := (hI.verts k e (List.mem_of_getElem? he)).2.2
  unfold Mesh.pointsOf
  rw [vertsOf_elem he]
  have : ∀ l : List Nat, (∀ v ∈ l, v < m.verts.length) → l.filterMap m.ptOf = l.map m.at0 := by
    intro l
    induction l with
    | nil => intro _; rfl
    | cons v l ih =>
      intro h
      have hv : m.ptOf v = some (m.at0 v) := by
        unfold Mesh.at0 Mesh.ptOf
        rw [List.getElem?_eq_getElem (h v (by simp))]
        rfl
      rw [List.filterMap_cons_some hv, ih (fun w hw => h w (by simp [hw])), List.map_cons]
  exact this _ hv

theorem pointsAway_iff (hI : Inv (simplexTopo 3) m) {t c a b w p : Nat} (ht : t < m.count 2) (hc : c < m.count 3)
    (hv : m.vertsOf 2 t = [a, b, w]) (hp : (m.vertsOf 3 c).Perm [a, b, w, p]) :
    pointsAway m t c = true ↔ offPlane m a b w (m.at0 p) < 0 := by
  have h1 : ∀ i, m.centroidOf 2 t i = (m.at0 a i + m.at0 b i + m.at0 w i) / 3 := by
    intro i
    unfold Mesh.centroidOf
    rw [C47_centroid_mean, points_eq hI (by omega) ht, hv]
    simp
    ring
  have h2 : ∀ i, m.centroidOf 3 c i = (m.at0 a i + m.at0 b i + m.at0 w i + m.at0 p i) / 4 := by
    intro i
    unfold Mesh.centroidOf
    rw [C47_centroid_mean, points_eq hI (by omega) hc, List.map_map, (hp.map _).sum_eq, List.length_map, hp.length_eq]
    simp
    ring
  have key : innerProd (m.centroidOf 2 t - m.centroidOf 3 c) (m.triNormal t) = - offPlane m a b w (m.at0 p) / 4 := by
    rw [triNormal_eq hv, innerProd3]
    unfold offPlane determinant3
    simp only [Pi.sub_apply, h1, h2, crossProd_zero, crossProd_one, crossProd_two]
    ring
  unfold pointsAway
  rw [decide_eq_true_eq, key]
  constructor <;> intro h <;> linarith

theorem used_lt {P : Type} {m : Mesh P} (hI : Inv (simplexTopo 3) m) {t c : Nat} (h : UsedBy (simplexTopo 3) m t c) :
    t < m.count 2 ∧ c < m.count 3 ∧ t ∈ m.bndOf 3 c 2 := by
  have h1 : t ∈ m.bndOf 3 c 2 := (mem_bndOf_iff (simplexTopo_wf 3) hI (le_refl _)).2 h
  refine ⟨bndOf_valid hI h1, ?_, h1⟩
  unfold UsedBy OnBoundary at h
  rw [if_neg (by decide)] at h
  obtain ⟨e, _, _, _, he, _⟩ := h
  obtain ⟨hlt, _⟩ := List.getElem?_eq_some_iff.1 he
  exact hlt

theorem used_verts {P : Type} {m : Mesh P} (hI : Inv (simplexTopo 3) m) {t c : Nat} (h : UsedBy (simplexTopo 3) m t c) :
    ∃ a b w p, m.vertsOf 2 t = [a, b, w] ∧ (m.vertsOf 3 c).Perm [a, b, w, p] := by
  obtain ⟨h1, h2, h3⟩ := used_lt hI h
  obtain ⟨a, b, w, _, _, _, hv⟩ := facetAt_of hI h1
  obtain ⟨p, hp⟩ := facet_apex hI h2 h3 (by rw [hv.verts])
  exact ⟨a, b, w, p, hv.verts, hp⟩

theorem away_behind (hI : Inv (simplexTopo 3) m) {t c : Nat} (h : UsedBy (simplexTopo 3) m t c) :
    pointsAway m t c = true ↔ Behind m t c := by
  obtain ⟨h1, h2, _⟩ := used_lt hI h
  constructor
  · intro ha
    obtain ⟨a, b, w, p, hv, hp⟩ := used_verts hI h
    exact ⟨a, b, w, p, hv, hp, (pointsAway_iff hI h1 h2 hv hp).1 ha⟩
  · rintro ⟨a, b, w, p, hv, hp, hn⟩
    exact (pointsAway_iff hI h1 h2 hv hp).2 hn

theorem not_both (hI : Inv (simplexTopo 3) m) {t c : Nat} (h : UsedBy (simplexTopo 3) m t c) :
    ¬ (Behind m t c ∧ InFront m t c) := by
  obtain ⟨h1, h2, _⟩ := used_lt hI h
  rintro ⟨hb, a, b, w, p, hv, hp, hn⟩
  have := (pointsAway_iff hI h1 h2 hv hp).1 ((away_behind hI h).2 hb)
  linarith

end VG
