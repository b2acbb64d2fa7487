import Verif.Props.Circumcenter
import Verif.Model.GeometryReal
import Verif.Lemmas.VoronoiTets

/-!
Geometry of the interfaces between circumcenters of tetrahedra.
-/

namespace VG

local notation "det" => (determinant3 : (Fin 3 → ℝ) → (Fin 3 → ℝ) → (Fin 3 → ℝ) → ℝ)
local notation "dot" => (innerProd : (Fin 3 → ℝ) → (Fin 3 → ℝ) → ℝ)
local notation "cross" => (crossProd : (Fin 3 → ℝ) → (Fin 3 → ℝ) → Fin 3 → ℝ)

/-! ### Vectors -/

theorem det_eq (a b c : Fin 3 → ℝ) : det a b c = dot a (cross b c) := by
  rw [innerProd3, crossProd_zero, crossProd_one, crossProd_two]
  unfold determinant3
  ring

theorem dot_nonneg (a : Fin 3 → ℝ) : 0 ≤ dot a a := by
  rw [innerProd3]
  nlinarith [mul_self_nonneg (a 0), mul_self_nonneg (a 1), mul_self_nonneg (a 2)]

theorem eq_zero_of_dot {a : Fin 3 → ℝ} (h : dot a a = 0) (i : Fin 3) : a i = 0 := by
  rw [innerProd3] at h
  have h0 := mul_self_nonneg (a 0)
  have h1 := mul_self_nonneg (a 1)
  have h2 := mul_self_nonneg (a 2)
  have e0 : a 0 = 0 := mul_self_eq_zero.1 (by linarith)
  have e1 : a 1 = 0 := mul_self_eq_zero.1 (by linarith)
  have e2 : a 2 = 0 := mul_self_eq_zero.1 (by linarith)
  fin_cases i
  · exact e0
  · exact e1
  · exact e2

theorem normal_pos {u w p : Fin 3 → ℝ} (h : det u w p ≠ 0) : 0 < dot (cross u w) (cross u w) ∧ 0 < dot u u := by
  constructor
  · refine lt_of_le_of_ne (dot_nonneg _) fun h0 => h ?_
    have e := eq_zero_of_dot h0.symm
    have e0 := e 0
    have e1 := e 1
    have e2 := e 2
    simp only [crossProd_zero, crossProd_one, crossProd_two] at e0 e1 e2
    unfold determinant3
    linear_combination p 0 * e0 + p 1 * e1 + p 2 * e2
  · refine lt_of_le_of_ne (dot_nonneg _) fun h0 => h ?_
    have e := eq_zero_of_dot h0.symm
    unfold determinant3
    rw [e 0, e 1, e 2]
    ring

/-- A vector perpendicular to two vectors is along their cross product. -/
theorem perp_cross {u w y : Fin 3 → ℝ} (hu : dot y u = 0) (hw : dot y w = 0) (x : Fin 3 → ℝ) :
    dot (cross u w) (cross u w) * dot x y = dot (cross u w) y * dot x (cross u w) := by
  rw [innerProd3] at *
  simp only [innerProd3, crossProd_zero, crossProd_one, crossProd_two]
  linear_combination ((x 0 * (u 2 * (w 0 * u 2 - w 2 * u 0) - u 1 * (w 1 * u 0 - w 0 * u 1))
      + x 1 * (u 0 * (w 1 * u 0 - w 0 * u 1) - u 2 * (w 2 * u 1 - w 1 * u 2))
      + x 2 * (u 1 * (w 2 * u 1 - w 1 * u 2) - u 0 * (w 0 * u 2 - w 2 * u 0)))) * hw
    + ((x 0 * (w 2 * (u 0 * w 2 - u 2 * w 0) - w 1 * (u 1 * w 0 - u 0 * w 1))
      + x 1 * (w 0 * (u 1 * w 0 - u 0 * w 1) - w 2 * (u 2 * w 1 - u 1 * w 2))
      + x 2 * (w 1 * (u 2 * w 1 - u 1 * w 2) - w 0 * (u 0 * w 2 - u 2 * w 0)))) * hu

theorem sq_diff (x a w : Fin 3 → ℝ) : sqDist x w - sqDist x a = dot w w - dot a a - 2 * dot x (w - a) := by
  simp only [sqDist, Fin.sum_univ_three, innerProd3, Pi.sub_apply]
  ring

theorem sq_perp {x y a w : Fin 3 → ℝ} (hx : sqDist x a = sqDist x w) (hy : sqDist y a = sqDist y w) : dot (x - y) (w - a) = 0 := by
  have h1 := sq_diff x a w
  have h2 := sq_diff y a w
  rw [hx, sub_self] at h1
  rw [hy, sub_self] at h2
  simp only [innerProd3, Pi.sub_apply] at *
  linarith

theorem sq_near {x y a w : Fin 3 → ℝ} (hx : sqDist x a = sqDist x w) (hy : sqDist y a ≤ sqDist y w) :
    0 ≤ dot (x - y) (w - a) := by
  have h1 := sq_diff x a w
  have h2 := sq_diff y a w
  rw [hx, sub_self] at h1
  have h3 : 0 ≤ sqDist y w - sqDist y a := sub_nonneg.2 hy
  rw [h2] at h3
  simp only [innerProd3, Pi.sub_apply] at *
  linarith

theorem dot_comm3 (a b : Fin 3 → ℝ) : dot a b = dot b a := by
  simp only [innerProd3]; ring

/-! ### Signs -/

/-- The segment from a circumcenter `o'` at a facet to that of the cell goes around the edge in the right direction, seen from
a point that is nearer to the edge. -/
theorem axis_sign {A B w p o o' P q : Fin 3 → ℝ} (hoB : sqDist o A = sqDist o B) (how : sqDist o A = sqDist o w)
    (hop : sqDist o A = sqDist o p) (hoB' : sqDist o' A = sqDist o' B) (how' : sqDist o' A = sqDist o' w)
    (hop' : sqDist o' A ≤ sqDist o' p) (hPB : sqDist P A = sqDist P B) (hPw : sqDist P A = sqDist P w)
    (hqB : sqDist q A = sqDist q B) (hqw : sqDist q A ≤ sqDist q w) (ht : det (B - A) (w - A) (p - A) ≠ 0) :
    0 ≤ det (B - A) (w - A) (p - A) * det (B - A) (P - q) (o - o') := by
  obtain ⟨hn, hu⟩ := normal_pos ht
  have yu := sq_perp hoB hoB'
  have yw := sq_perp how how'
  have yp := sq_near hop hop'
  have xu := sq_perp hPB hqB
  have xw := sq_near hPw hqw
  generalize B - A = u at *
  generalize w - A = W at *
  generalize p - A = p' at *
  generalize o - o' = y at *
  generalize P - q = x at *
  have k1 := perp_cross yu yw (cross u x)
  have k2 := perp_cross yu yw p'
  have e1 : dot (cross u x) y = det u x y := by
    simp only [innerProd3, crossProd_zero, crossProd_one, crossProd_two, determinant3]; ring
  have e2 : dot p' (cross u W) = det u W p' := by
    simp only [innerProd3, crossProd_zero, crossProd_one, crossProd_two, determinant3]; ring
  have e3 : dot (cross u x) (cross u W) = dot u u * dot x W := by
    have : dot (cross u x) (cross u W) = dot u u * dot x W - dot x u * dot u W := by
      simp only [innerProd3, crossProd_zero, crossProd_one, crossProd_two]; ring
    rw [this, xu]; ring
  rw [e1, e3] at k1
  rw [e2, dot_comm3 p' y] at k2
  have k3 : 0 ≤ dot (cross u W) y * det u W p' := by rw [← k2]; exact mul_nonneg hn.le yp
  have k4 : 0 ≤ dot (cross u W) (cross u W) * (det u W p' * det u x y) := by
    have : dot (cross u W) (cross u W) * (det u W p' * det u x y)
        = (dot (cross u W) y * det u W p') * (dot u u * dot x W) := by
      linear_combination det u W p' * k1
    rw [this]
    exact mul_nonneg k3 (mul_nonneg hu.le xw)
  exact nonneg_of_mul_nonneg_right k4 hn

/-- The middle of an edge. -/
theorem mid_equal (A B : Fin 3 → ℝ) : sqDist (circumLine A B) A = sqDist (circumLine A B) B := (C43_line A B).1

/-- A vector perpendicular to the edge and in the plane of the facet is along the height of the facet. -/
theorem perp_height {u w y : Fin 3 → ℝ} (hu : dot y u = 0) (hn : dot y (cross u w) = 0) (hpos : 0 < dot u u) (x : Fin 3 → ℝ) :
    dot (cross u w) (cross u w) * dot x y = dot y w * (dot u u * dot x w - dot u w * dot x u) := by
  apply mul_left_cancel₀ hpos.ne'
  have k := perp_cross hu hn x
  have e1 : dot (cross u (cross u w)) (cross u (cross u w)) = dot u u * dot (cross u w) (cross u w) := by
    simp only [innerProd3, crossProd_zero, crossProd_one, crossProd_two]; ring
  have e2 : ∀ z : Fin 3 → ℝ, dot z (cross u (cross u w)) = dot u w * dot z u - dot u u * dot z w := by
    intro z
    simp only [innerProd3, crossProd_zero, crossProd_one, crossProd_two]; ring
  rw [e1, dot_comm3 (cross u (cross u w)) y, e2, e2, hu] at k
  linear_combination k

/-- The segment from the middle of an edge on the boundary to the circumcenter of a facet there. -/
theorem rim_sign {A B w p z q : Fin 3 → ℝ} (hzB : sqDist z A = sqDist z B) (hzw : sqDist z A = sqDist z w)
    (hz : det (B - A) (w - A) (z - A) = 0) (hg : sqDist (circumLine A B) A ≤ sqDist (circumLine A B) w)
    (hq : 0 ≤ det (B - A) (w - A) (p - A) * det (B - A) (w - A) (q - A))
    (ht : det (B - A) (w - A) (p - A) ≠ 0) :
    0 ≤ det (B - A) (w - A) (p - A) * det (B - A) (circumLine A B - q) (z - q) := by
  obtain ⟨hn, hu⟩ := normal_pos ht
  have yu := sq_perp hzB (mid_equal A B)
  have yw := sq_near hzw hg
  have yn : dot (z - circumLine A B) (cross (B - A) (w - A)) = 0 := by
    simp only [innerProd3, crossProd_zero, crossProd_one, crossProd_two, determinant3, circumLine, Pi.sub_apply] at *
    linear_combination hz
  have eq : det (B - A) (w - A) (q - A) = dot (q - circumLine A B) (cross (B - A) (w - A)) := by
    simp only [innerProd3, crossProd_zero, crossProd_one, crossProd_two, determinant3, circumLine, Pi.sub_apply]
    ring
  have ed : det (B - A) (circumLine A B - q) (z - q) = dot (cross (B - A) (circumLine A B - q)) (z - circumLine A B) := by
    simp only [innerProd3, crossProd_zero, crossProd_one, crossProd_two, determinant3, Pi.sub_apply]
    ring
  rw [eq] at hq
  rw [ed]
  have k := perp_height yu yn hu (cross (B - A) (circumLine A B - q))
  have e1 : dot (cross (B - A) (circumLine A B - q)) (w - A) = dot (q - circumLine A B) (cross (B - A) (w - A)) := by
    simp only [innerProd3, crossProd_zero, crossProd_one, crossProd_two, Pi.sub_apply]; ring
  have e2 : dot (cross (B - A) (circumLine A B - q)) (B - A) = 0 := by
    simp only [innerProd3, crossProd_zero, crossProd_one, crossProd_two, Pi.sub_apply]; ring
  rw [e1, e2, mul_zero, sub_zero] at k
  have k4 : 0 ≤ dot (cross (B - A) (w - A)) (cross (B - A) (w - A))
      * (det (B - A) (w - A) (p - A) * dot (cross (B - A) (circumLine A B - q)) (z - circumLine A B)) := by
    have : dot (cross (B - A) (w - A)) (cross (B - A) (w - A))
        * (det (B - A) (w - A) (p - A) * dot (cross (B - A) (circumLine A B - q)) (z - circumLine A B))
        = (det (B - A) (w - A) (p - A) * dot (q - circumLine A B) (cross (B - A) (w - A)))
          * (dot (z - circumLine A B) (w - A) * dot (B - A) (B - A)) := by
      linear_combination det (B - A) (w - A) (p - A) * k
    rw [this]
    exact mul_nonneg hq (mul_nonneg yw hu.le)
  exact nonneg_of_mul_nonneg_right k4 hn

/-- The circumcenter of another facet at the edge is on the inner side if the corner of that facet is. -/
theorem rim_inside {A B w p w' z' : Fin 3 → ℝ} (hzB : sqDist z' A = sqDist z' B) (hzw : sqDist z' A = sqDist z' w')
    (hz : det (B - A) (w' - A) (z' - A) = 0) (hg : sqDist (circumLine A B) A ≤ sqDist (circumLine A B) w')
    (hn' : 0 < dot (cross (B - A) (w' - A)) (cross (B - A) (w' - A))) (hu : 0 < dot (B - A) (B - A))
    (hw' : 0 ≤ det (B - A) (w - A) (p - A) * det (B - A) (w - A) (w' - A)) :
    0 ≤ det (B - A) (w - A) (p - A) * det (B - A) (w - A) (z' - A) := by
  have yu := sq_perp hzB (mid_equal A B)
  have yw := sq_near hzw hg
  have yn : dot (z' - circumLine A B) (cross (B - A) (w' - A)) = 0 := by
    simp only [innerProd3, crossProd_zero, crossProd_one, crossProd_two, determinant3, circumLine, Pi.sub_apply] at *
    linear_combination hz
  have k := perp_height yu yn hu (cross (B - A) (w - A))
  have e1 : dot (cross (B - A) (w - A)) (w' - A) = det (B - A) (w - A) (w' - A) := by
    simp only [innerProd3, crossProd_zero, crossProd_one, crossProd_two, determinant3, Pi.sub_apply]; ring
  have e2 : dot (cross (B - A) (w - A)) (B - A) = 0 := by
    simp only [innerProd3, crossProd_zero, crossProd_one, crossProd_two, Pi.sub_apply]; ring
  have e3 : dot (cross (B - A) (w - A)) (z' - circumLine A B) = det (B - A) (w - A) (z' - A) := by
    simp only [innerProd3, crossProd_zero, crossProd_one, crossProd_two, determinant3, circumLine, Pi.sub_apply]; ring
  rw [e1, e2, e3, mul_zero, sub_zero] at k
  have k4 : 0 ≤ dot (cross (B - A) (w' - A)) (cross (B - A) (w' - A))
      * (det (B - A) (w - A) (p - A) * det (B - A) (w - A) (z' - A)) := by
    have : dot (cross (B - A) (w' - A)) (cross (B - A) (w' - A)) * (det (B - A) (w - A) (p - A) * det (B - A) (w - A) (z' - A))
        = (det (B - A) (w - A) (p - A) * det (B - A) (w - A) (w' - A)) * (dot (z' - circumLine A B) (w' - A) * dot (B - A) (B - A)) := by
      linear_combination det (B - A) (w - A) (p - A) * k
    rw [this]
    exact mul_nonneg hw' (mul_nonneg yw hu.le)
  exact nonneg_of_mul_nonneg_right k4 hn'

/-- The sphere of a facet of the boundary contains no point, if that of the cell contains none and the circumcenter is on the
inner side. -/
theorem facet_empty {A B w p o z s : Fin 3 → ℝ} (hoB : sqDist o A = sqDist o B) (how : sqDist o A = sqDist o w)
    (hzB : sqDist z A = sqDist z B) (hzw : sqDist z A = sqDist z w) (hz : det (B - A) (w - A) (z - A) = 0)
    (ht : det (B - A) (w - A) (p - A) ≠ 0) (ho : 0 ≤ det (B - A) (w - A) (p - A) * det (B - A) (w - A) (o - A))
    (hs : 0 ≤ det (B - A) (w - A) (p - A) * det (B - A) (w - A) (s - A)) (hos : sqDist o A ≤ sqDist o s) :
    sqDist z A ≤ sqDist z s := by
  obtain ⟨hn, hu⟩ := normal_pos ht
  have yu := sq_perp hoB hzB
  have yw := sq_perp how hzw
  have k := perp_cross yu yw (s - A)
  have d1 := sq_diff o A s
  have d2 := sq_diff z A s
  have e1 : dot (cross (B - A) (w - A)) (o - z) = det (B - A) (w - A) (o - A) := by
    simp only [innerProd3, crossProd_zero, crossProd_one, crossProd_two, determinant3, Pi.sub_apply] at *
    linear_combination -hz
  have e2 : dot (s - A) (cross (B - A) (w - A)) = det (B - A) (w - A) (s - A) := by
    simp only [innerProd3, crossProd_zero, crossProd_one, crossProd_two, determinant3, Pi.sub_apply]; ring
  rw [e1, e2] at k
  have same : 0 ≤ det (B - A) (w - A) (o - A) * det (B - A) (w - A) (s - A) := by
    have := mul_nonneg ho hs
    have h2 : 0 < det (B - A) (w - A) (p - A) * det (B - A) (w - A) (p - A) := mul_self_pos.2 ht
    refine nonneg_of_mul_nonneg_right (a := det (B - A) (w - A) (p - A) * det (B - A) (w - A) (p - A)) ?_ h2
    linarith
  rw [← k] at same
  have h1 := nonneg_of_mul_nonneg_right same hn
  have e3 : dot (s - A) (o - z) = dot o (s - A) - dot z (s - A) := by
    simp only [innerProd3, Pi.sub_apply]; ring
  rw [e3] at h1
  linarith

/-! ### Areas -/

/-- The area of a triangle in the plane halfway between `A` and `B`. -/
theorem plane_area {A B x y q : Fin 3 → ℝ} (hx : sqDist x A = sqDist x B) (hy : sqDist y A = sqDist y B)
    (hq : sqDist q A = sqDist q B) :
    spannedTriangle3 x y q * |signedLine A B| = |det (B - A) (x - q) (y - q)| / 2 := by
  have xu := sq_perp hx hq
  have yu := sq_perp hy hq
  rw [spannedTriangle3, signedTriangle3, ← abs_mul, ← abs_two (α := ℝ), ← abs_div, abs_two]
  have hl : signedLine A B = √(dot (B - A) (B - A)) := by
    unfold signedLine
    rw [innerProd3, Fin.sum_univ_three]
    rfl
  rw [hl, euclNorm, sumSquares_eq, div_mul_eq_mul_div, ← Real.sqrt_mul (dot_nonneg _), abs_div, abs_div,
    abs_of_nonneg (Real.sqrt_nonneg _), ← Real.sqrt_sq_eq_abs]
  congr 2
  have e : cross (y - x) (q - x) = cross (x - q) (y - q) := by
    funext i
    fin_cases i <;> simp [crossProd] <;> ring
  rw [e]
  generalize B - A = u at *
  generalize x - q = a at *
  generalize y - q = b at *
  have key : dot (cross a b) (cross a b) * dot u u
      = det u a b ^ 2 + dot (dot b u • a - dot a u • b) (dot b u • a - dot a u • b) := by
    simp only [innerProd3, crossProd_zero, crossProd_one, crossProd_two, determinant3, Pi.sub_apply, Pi.smul_apply, smul_eq_mul]
    ring
  rw [key, xu, yu]
  simp [innerProd3, Real.sqrt_sq_eq_abs]

/-! ### Sums of areas -/

/-- On which side: the sign of a number other than zero. -/
noncomputable def sg (x : ℝ) : ℝ := if 0 < x then 1 else -1

theorem sg_abs {x y : ℝ} (hx : x ≠ 0) (h : 0 ≤ x * y) : |y| = sg x * y := by
  unfold sg
  split
  · next hp => rw [abs_of_nonneg (nonneg_of_mul_nonneg_right h hp)]; ring
  · next hp =>
    have hn : x < 0 := lt_of_le_of_ne (not_lt.1 hp) hx
    rw [abs_of_nonpos (by nlinarith)]; ring

theorem sg_self {x : ℝ} (hx : x ≠ 0) : sg x * x = |x| := (sg_abs hx (mul_self_nonneg x)).symm

theorem sg_neg {x : ℝ} (hx : x ≠ 0) : sg (-x) = -sg x := by
  unfold sg
  rcases lt_or_gt_of_ne hx with h | h
  · rw [if_pos (by linarith), if_neg (by linarith)]; ring
  · rw [if_neg (by linarith), if_pos h]

theorem sg_opposite {x y : ℝ} (h : x * y < 0) : sg y = -sg x := by
  have hx : x ≠ 0 := by rintro rfl; simp at h
  unfold sg
  rcases lt_or_gt_of_ne hx with h1 | h1
  · rw [if_pos (by nlinarith), if_neg (by linarith)]; ring
  · rw [if_neg (by nlinarith), if_pos h1]

/-- Vectors perpendicular to the same two directions are parallel. -/
theorem axis_parallel {u w p x y : Fin 3 → ℝ} (ht : det u w p ≠ 0) (xu : dot x u = 0) (xw : dot x w = 0) (yu : dot y u = 0)
    (yw : dot y w = 0) : det u x y = 0 := by
  obtain ⟨hn, _⟩ := normal_pos ht
  have k1 := perp_cross yu yw (cross u x)
  have e1 : dot (cross u x) y = det u x y := by
    simp only [innerProd3, crossProd_zero, crossProd_one, crossProd_two, determinant3]; ring
  have e3 : dot (cross u x) (cross u w) = dot u u * dot x w - dot x u * dot u w := by
    simp only [innerProd3, crossProd_zero, crossProd_one, crossProd_two]; ring
  rw [e1, e3, xu, xw] at k1
  have k2 : dot (cross u w) (cross u w) * det u x y = 0 := by rw [k1]; ring
  exact (mul_eq_zero.1 k2).resolve_left hn.ne'

/-- A facet between two cells. -/
theorem inner_sum {A B w p p' o o' z q : Fin 3 → ℝ} (hoB : sqDist o A = sqDist o B) (how : sqDist o A = sqDist o w)
    (hop : sqDist o A = sqDist o p) (hoB' : sqDist o' A = sqDist o' B) (how' : sqDist o' A = sqDist o' w)
    (hop' : sqDist o' A ≤ sqDist o' p) (hzB : sqDist z A = sqDist z B) (hzw : sqDist z A = sqDist z w)
    (hqB : sqDist q A = sqDist q B) (hqw : sqDist q A ≤ sqDist q w)
    (ht : det (B - A) (w - A) (p - A) * det (B - A) (w - A) (p' - A) < 0) :
    |det (B - A) (o - q) ((fun i => (o i + o' i) / 2) - q)| + |det (B - A) ((fun i => (o i + o' i) / 2) - q) (o' - q)|
      = sg (det (B - A) (w - A) (p - A))
          * (det (B - A) (z - circumLine A B) (o - circumLine A B) + det (B - A) (circumLine A B - q) (o - circumLine A B))
        + sg (det (B - A) (w - A) (p' - A))
          * (det (B - A) (z - circumLine A B) (o' - circumLine A B) + det (B - A) (circumLine A B - q) (o' - circumLine A B)) := by
  have h0 : det (B - A) (w - A) (p - A) ≠ 0 := by intro h; rw [h] at ht; simp at ht
  have s1 := axis_sign hoB how hop hoB' how' hop' hoB how hqB hqw h0
  have s2 := axis_sign hoB how hop hoB' how' hop' hoB' how' hqB hqw h0
  have par := axis_parallel h0 (sq_perp hoB hzB) (sq_perp how hzw) (sq_perp hoB hoB') (sq_perp how how')
  have e1 : det (B - A) (o - q) ((fun i => (o i + o' i) / 2) - q) = -(det (B - A) (o - q) (o - o') / 2) := by
    simp only [determinant3, Pi.sub_apply]; ring
  have e2 : det (B - A) ((fun i => (o i + o' i) / 2) - q) (o' - q) = -(det (B - A) (o' - q) (o - o') / 2) := by
    simp only [determinant3, Pi.sub_apply]; ring
  have e3 : det (B - A) (o' - q) (o - o') = det (B - A) (o - q) (o - o') := by
    simp only [determinant3, Pi.sub_apply]; ring
  rw [sg_opposite ht, e1, e2, abs_neg, abs_neg, abs_div, abs_div, sg_abs h0 s1, sg_abs h0 s2, abs_two, e3]
  have : det (B - A) (o - q) (o - o') = det (B - A) (z - circumLine A B) (o - circumLine A B)
      + det (B - A) (circumLine A B - q) (o - circumLine A B)
      - (det (B - A) (z - circumLine A B) (o' - circumLine A B) + det (B - A) (circumLine A B - q) (o' - circumLine A B))
      + det (B - A) (o - z) (o - o') := by
    simp only [determinant3, Pi.sub_apply, circumLine]; ring
  rw [this, par]
  ring

/-- A facet on the boundary. -/
theorem outer_sum {A B w p o z q : Fin 3 → ℝ} (hoB : sqDist o A = sqDist o B) (how : sqDist o A = sqDist o w)
    (hop : sqDist o A = sqDist o p) (hzB : sqDist z A = sqDist z B) (hzw : sqDist z A = sqDist z w)
    (hz : det (B - A) (w - A) (z - A) = 0) (hzp : sqDist z A ≤ sqDist z p)
    (hg : sqDist (circumLine A B) A ≤ sqDist (circumLine A B) w)
    (hqB : sqDist q A = sqDist q B) (hqw : sqDist q A ≤ sqDist q w)
    (hq : 0 ≤ det (B - A) (w - A) (p - A) * det (B - A) (w - A) (q - A))
    (ht : det (B - A) (w - A) (p - A) ≠ 0) :
    |det (B - A) (o - q) (z - q)| + |det (B - A) (circumLine A B - q) (z - q)|
      = sg (det (B - A) (w - A) (p - A))
          * (det (B - A) (z - circumLine A B) (o - circumLine A B)
            + det (B - A) (circumLine A B - q) (o - circumLine A B)) := by
  have s1 := axis_sign hoB how hop hzB hzw hzp hzB hzw hqB hqw ht
  have s2 := rim_sign hzB hzw hz hg hq ht
  have e1 : det (B - A) (o - q) (z - q) = -det (B - A) (z - q) (o - z) := by
    simp only [determinant3, Pi.sub_apply]; ring
  rw [e1, abs_neg, sg_abs ht s1, sg_abs ht s2]
  have : det (B - A) (z - q) (o - z) + det (B - A) (circumLine A B - q) (z - q)
      = det (B - A) (z - circumLine A B) (o - circumLine A B) + det (B - A) (circumLine A B - q) (o - circumLine A B) := by
    simp only [determinant3, Pi.sub_apply, circumLine]; ring
  rw [← this]; ring

/-! ### The inner point -/

/-- A function of a point of degree one. -/
def Affine (φ : (Fin 3 → ℝ) → ℝ) : Prop := ∃ (k : ℝ) (v : Fin 3 → ℝ), ∀ x, φ x = k + dot x v

theorem affine_near (a w : Fin 3 → ℝ) : Affine fun x => sqDist x w - sqDist x a := by
  refine ⟨dot w w - dot a a, fun i => -2 * (w i - a i), fun x => ?_⟩
  show sqDist x w - sqDist x a = _
  rw [sq_diff]
  simp only [innerProd3, Pi.sub_apply]
  ring

theorem affine_side (k : ℝ) (u w a : Fin 3 → ℝ) : Affine fun x => k * det u w (x - a) := by
  refine ⟨-(k * det u w a), fun i => k * cross u w i, fun x => ?_⟩
  simp only [innerProd3, Pi.sub_apply, determinant3, crossProd_zero, crossProd_one, crossProd_two]
  ring

theorem affine_mid {φ : (Fin 3 → ℝ) → ℝ} (hφ : Affine φ) (o o' : Fin 3 → ℝ) :
    φ (fun i => (o i + o' i) / 2) = (φ o + φ o') / 2 := by
  obtain ⟨k, v, h⟩ := hφ
  rw [h, h, h]
  simp only [innerProd3]
  ring

theorem inner_affine {φ : (Fin 3 → ℝ) → ℝ} (hφ : Affine φ) {l : List IfSeg} (hl : l ≠ [])
    (h : ∀ s ∈ l, 0 ≤ φ s.1.1 ∧ 0 ≤ φ s.1.2) : 0 ≤ φ (innerPoint l) := by
  have hpos : (0 : ℝ) < l.length := by
    have := List.length_pos_of_ne_nil hl
    exact_mod_cast this
  obtain ⟨k, v, hk⟩ := hφ
  have e : ∀ l : List IfSeg, ((l.map fun s => (φ s.1.1 + φ s.1.2) / 2).sum)
      = (l.length : ℝ) * k + dot (fun i => (l.map fun s => (s.1.1 i + s.1.2 i) / 2).sum) v := by
    intro l
    induction l with
    | nil => simp [innerProd3]
    | cons s l ih =>
      simp only [List.map_cons, List.sum_cons, List.length_cons, Nat.cast_add, Nat.cast_one] at *
      rw [ih, hk, hk]
      simp only [innerProd3]
      ring
  have e2 : φ (innerPoint l) = (l.map fun s => (φ s.1.1 + φ s.1.2) / 2).sum / l.length := by
    rw [e l, hk, add_div, mul_comm (l.length : ℝ) k, mul_div_assoc, div_self hpos.ne', mul_one]
    simp only [innerProd3, innerPoint]
    ring
  rw [e2]
  refine div_nonneg (List.sum_nonneg fun x hx => ?_) hpos.le
  obtain ⟨s, hs, rfl⟩ := List.mem_map.1 hx
  obtain ⟨h1, h2⟩ := h s hs
  linarith

/-! ### Circumcenters -/

/-- Only zero is perpendicular to three directions. -/
theorem perp_zero {u w p y : Fin 3 → ℝ} (ht : det u w p ≠ 0) (yu : dot y u = 0) (yw : dot y w = 0) (yp : dot (cross u w) y = 0) :
    y = 0 := by
  obtain ⟨hn, _⟩ := normal_pos ht
  have k := perp_cross yu yw y
  rw [yp, zero_mul] at k
  have := eq_zero_of_dot ((mul_eq_zero.1 k).resolve_left hn.ne')
  exact funext this

theorem center_unique {A B w p o o' : Fin 3 → ℝ} (ht : det (B - A) (w - A) (p - A) ≠ 0)
    (h1 : sqDist o A = sqDist o B) (h2 : sqDist o A = sqDist o w) (h3 : sqDist o A = sqDist o p)
    (h1' : sqDist o' A = sqDist o' B) (h2' : sqDist o' A = sqDist o' w) (h3' : sqDist o' A = sqDist o' p) : o = o' := by
  have yu := sq_perp h1 h1'
  have yw := sq_perp h2 h2'
  have yp := sq_perp h3 h3'
  have k := perp_cross yu yw (p - A)
  rw [dot_comm3 (p - A) (o - o'), yp, mul_zero] at k
  have e2 : dot (p - A) (cross (B - A) (w - A)) = det (B - A) (w - A) (p - A) := by
    simp only [innerProd3, crossProd_zero, crossProd_one, crossProd_two, determinant3, Pi.sub_apply]; ring
  rw [e2] at k
  have := perp_zero ht yu yw ((mul_eq_zero.1 k.symm).resolve_right ht)
  exact sub_eq_zero.1 this

theorem plane_center_unique {A B w p z z' : Fin 3 → ℝ} (ht : det (B - A) (w - A) (p - A) ≠ 0)
    (h1 : sqDist z A = sqDist z B) (h2 : sqDist z A = sqDist z w) (h3 : det (B - A) (w - A) (z - A) = 0)
    (h1' : sqDist z' A = sqDist z' B) (h2' : sqDist z' A = sqDist z' w) (h3' : det (B - A) (w - A) (z' - A) = 0) : z = z' := by
  have yu := sq_perp h1 h1'
  have yw := sq_perp h2 h2'
  have e : dot (cross (B - A) (w - A)) (z - z') = 0 := by
    simp only [innerProd3, crossProd_zero, crossProd_one, crossProd_two, determinant3, Pi.sub_apply] at *
    linear_combination h3 - h3'
  exact sub_eq_zero.1 (perp_zero ht yu yw e)

end VG
