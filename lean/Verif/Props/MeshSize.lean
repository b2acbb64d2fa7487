import Verif.Model.MeshSize
import Verif.Props.MeshMeasure
import Verif.Props.Distance

/-!
C105 `mesh_size`.
-/

namespace VG

variable {d : Nat}

/-- The mesh has the vertex point `p`. -/
def HasPoint (m : Mesh (Fin d → ℝ)) (p : Fin d → ℝ) : Prop := ∃ v ∈ m.verts, v.pt = p

/-- Coordinates are at most the greatest representable number. -/
def Representable (top : ℝ) (m : Mesh (Fin d → ℝ)) : Prop := ∀ p, HasPoint m p → ∀ i, |p i| ≤ top

theorem hasPoint_iff (m : Mesh (Fin d → ℝ)) (p : Fin d → ℝ) : HasPoint m p ↔ p ∈ m.verts.map (·.pt) := by
  simp [HasPoint]

theorem meshSize_eq (top : ℝ) (m : Mesh (Fin d → ℝ)) :
    m.meshSize top = eucl (boundingBox top (m.verts.map (·.pt))).2 (boundingBox top (m.verts.map (·.pt))).1 := by
  unfold Mesh.meshSize euclNorm eucl
  dsimp only
  rw [sumSquares_eq]
  unfold innerProd
  congr 1
  refine Finset.sum_congr rfl fun i _ => ?_
  rw [Pi.sub_apply]; ring

/-- The size is the length of the diagonal of the box of the vertices: `lo` and `hi` are the least and greatest values of
the coordinates. -/
theorem C105_diagonal_partial {top : ℝ} {m : Mesh (Fin d → ℝ)} (hne : m.verts ≠ []) (hr : Representable top m)
    (lo hi : Fin d → ℝ) (hlo : ∀ i, IsLeast {x | ∃ p, HasPoint m p ∧ p i = x} (lo i))
    (hhi : ∀ i, IsGreatest {x | ∃ p, HasPoint m p ∧ p i = x} (hi i)) :
    m.meshSize top = √(∑ i, (hi i - lo i) ^ 2) := by
  have hb : ∀ p ∈ m.verts.map (·.pt), ∀ i, -top ≤ p i ∧ p i ≤ top := fun p hp i =>
    abs_le.1 (hr p ((hasPoint_iff m p).2 hp) i)
  have hn : m.verts.map (·.pt) ≠ [] := by simpa using hne
  rw [meshSize_eq]
  unfold eucl
  congr 1
  refine Finset.sum_congr rfl fun i _ => ?_
  obtain ⟨h1, ⟨p, hp, h2⟩, q, hq, h3⟩ := C44_bounding_box top _ hn hb i
  obtain ⟨⟨p', hp', e1⟩, l1⟩ := hlo i
  obtain ⟨⟨q', hq', e2⟩, l2⟩ := hhi i
  have a1 : (boundingBox top (m.verts.map (·.pt))).1 i = lo i := by
    refine le_antisymm ?_ ?_
    · rw [← e1]; exact (h1 p' ((hasPoint_iff m p').1 hp')).1
    · rw [h2]; exact l1 ⟨p, (hasPoint_iff m p).2 hp, rfl⟩
  have a2 : (boundingBox top (m.verts.map (·.pt))).2 i = hi i := by
    refine le_antisymm ?_ ?_
    · rw [h3]; exact l2 ⟨q, (hasPoint_iff m q).2 hq, rfl⟩
    · rw [← e2]; exact (h1 q' ((hasPoint_iff m q').1 hq')).2
  rw [a1, a2]

/-- Least and greatest coordinates exist. -/
theorem extremes {top : ℝ} {m : Mesh (Fin d → ℝ)} (hne : m.verts ≠ []) (hr : Representable top m) :
    ∃ lo hi : Fin d → ℝ, (∀ i, IsLeast {x | ∃ p, HasPoint m p ∧ p i = x} (lo i))
      ∧ ∀ i, IsGreatest {x | ∃ p, HasPoint m p ∧ p i = x} (hi i) := by
  have hb : ∀ p ∈ m.verts.map (·.pt), ∀ i, -top ≤ p i ∧ p i ≤ top := fun p hp i =>
    abs_le.1 (hr p ((hasPoint_iff m p).2 hp) i)
  have hn : m.verts.map (·.pt) ≠ [] := by simpa using hne
  refine ⟨(boundingBox top (m.verts.map (·.pt))).1, (boundingBox top (m.verts.map (·.pt))).2, fun i => ?_, fun i => ?_⟩
  · obtain ⟨h1, ⟨p, hp, h2⟩, _⟩ := C44_bounding_box top _ hn hb i
    exact ⟨⟨p, (hasPoint_iff m p).2 hp, h2.symm⟩, by
      rintro x ⟨q, hq, rfl⟩; exact (h1 q ((hasPoint_iff m q).1 hq)).1⟩
  · obtain ⟨h1, _, p, hp, h2⟩ := C44_bounding_box top _ hn hb i
    exact ⟨⟨p, (hasPoint_iff m p).2 hp, h2.symm⟩, by
      rintro x ⟨q, hq, rfl⟩; exact (h1 q ((hasPoint_iff m q).1 hq)).2⟩

/-- Bounds: no two vertices are farther apart than the size, and the size is at most the root of the dimension times the
distance of some two vertices. -/
theorem C105_diameter_partial {top : ℝ} {m : Mesh (Fin d → ℝ)} (hne : m.verts ≠ []) (hr : Representable top m) :
    (∀ p q, HasPoint m p → HasPoint m q → eucl p q ≤ m.meshSize top)
    ∧ ∃ p q, HasPoint m p ∧ HasPoint m q ∧ m.meshSize top ≤ √d * eucl p q := by
  obtain ⟨lo, hi, hlo, hhi⟩ := extremes hne hr
  rw [C105_diagonal_partial hne hr lo hi hlo hhi]
  constructor
  · intro p q hp hq
    unfold eucl
    refine Real.sqrt_le_sqrt (Finset.sum_le_sum fun i _ => ?_)
    have p1 := (hlo i).2 ⟨p, hp, rfl⟩
    have p2 := (hhi i).2 ⟨p, hp, rfl⟩
    have q1 := (hlo i).2 ⟨q, hq, rfl⟩
    have q2 := (hhi i).2 ⟨q, hq, rfl⟩
    rw [sq_le_sq]
    exact (abs_le.2 ⟨by linarith, by linarith⟩).trans (le_abs_self _)
  · rcases Nat.eq_zero_or_pos d with rfl | hd
    · obtain ⟨v, hv⟩ := List.exists_mem_of_ne_nil _ hne
      exact ⟨v.pt, v.pt, ⟨v, hv, rfl⟩, ⟨v, hv, rfl⟩, by simp⟩
    · have : Nonempty (Fin d) := ⟨⟨0, hd⟩⟩
      obtain ⟨j, hj⟩ := Finite.exists_max fun i : Fin d => hi i - lo i
      obtain ⟨⟨p, hp, e1⟩, _⟩ := hlo j
      obtain ⟨⟨q, hq, e2⟩, _⟩ := hhi j
      refine ⟨p, q, hp, hq, ?_⟩
      have h0 : ∀ i, 0 ≤ hi i - lo i := by
        intro i
        obtain ⟨⟨p, hp, e⟩, _⟩ := hlo i
        have := (hhi i).2 ⟨p, hp, rfl⟩
        linarith
      unfold eucl
      rw [← Real.sqrt_mul (Nat.cast_nonneg d)]
      refine Real.sqrt_le_sqrt ?_
      have g1 : ∑ i, (hi i - lo i) ^ 2 ≤ ∑ _i : Fin d, (hi j - lo j) ^ 2 :=
        Finset.sum_le_sum fun i _ => pow_le_pow_left₀ (h0 i) (hj i) 2
      rw [Finset.sum_const, Finset.card_univ, Fintype.card_fin, nsmul_eq_mul] at g1
      refine g1.trans (mul_le_mul_of_nonneg_left ?_ (Nat.cast_nonneg d))
      have g2 : (p j - q j) ^ 2 ≤ ∑ i, (p i - q i) ^ 2 :=
        Finset.single_le_sum (f := fun i => (p i - q i) ^ 2) (fun i _ => sq_nonneg _) (Finset.mem_univ j)
      rw [e1, e2] at g2
      linarith [g2, show (hi j - lo j) ^ 2 = (lo j - hi j) ^ 2 by ring]

/-- The size is zero only if all vertices are at the same point. -/
theorem C105_zero_partial {top : ℝ} {m : Mesh (Fin d → ℝ)} (hne : m.verts ≠ []) (hr : Representable top m) :
    m.meshSize top = 0 ↔ ∀ p q, HasPoint m p → HasPoint m q → p = q := by
  obtain ⟨h1, p, q, hp, hq, h2⟩ := C105_diameter_partial hne hr
  constructor
  · intro h p q hp hq
    have h0 := h1 p q hp hq
    rw [h] at h0
    have h3 : ∑ i, (p i - q i) ^ 2 = 0 := by
      have := le_antisymm h0 (Real.sqrt_nonneg _)
      unfold eucl at this
      rwa [Real.sqrt_eq_zero (Finset.sum_nonneg fun i _ => sq_nonneg _)] at this
    funext i
    have := (Finset.sum_eq_zero_iff_of_nonneg fun i _ => sq_nonneg _).1 h3 i (Finset.mem_univ i)
    have := pow_eq_zero_iff (two_ne_zero) |>.1 this
    linarith
  · intro h
    refine le_antisymm ?_ ?_
    · rw [h p q hp hq] at h2
      have : eucl q q = 0 := by unfold eucl; simp
      rw [this, mul_zero] at h2; exact h2
    · rw [meshSize_eq]; exact Real.sqrt_nonneg _

/-- Translated meshes, with vertices in any order and any number of times, have the same size. -/
theorem C105_translate_partial {top : ℝ} {m m' : Mesh (Fin d → ℝ)} (hne : m.verts ≠ []) (hr : Representable top m)
    (hr' : Representable top m') (t : Fin d → ℝ) (h : ∀ p, HasPoint m p ↔ HasPoint m' (p + t)) :
    m'.meshSize top = m.meshSize top := by
  obtain ⟨lo, hi, hlo, hhi⟩ := extremes hne hr
  have hne' : m'.verts ≠ [] := by
    obtain ⟨v, hv⟩ := List.exists_mem_of_ne_nil _ hne
    obtain ⟨w, hw, _⟩ := (h v.pt).1 ⟨v, hv, rfl⟩
    exact List.ne_nil_of_mem hw
  have h' : ∀ p, HasPoint m' p → HasPoint m (p - t) := by
    intro p hp; rw [h, sub_add_cancel]; exact hp
  rw [C105_diagonal_partial hne hr lo hi hlo hhi, C105_diagonal_partial hne' hr' (lo + t) (hi + t)]
  · congr 1
    refine Finset.sum_congr rfl fun i _ => ?_
    rw [Pi.add_apply, Pi.add_apply]; ring
  · intro i
    obtain ⟨⟨p, hp, e⟩, l⟩ := hlo i
    refine ⟨⟨p + t, (h p).1 hp, by rw [Pi.add_apply, Pi.add_apply, e]⟩, ?_⟩
    rintro x ⟨q, hq, rfl⟩
    have := l ⟨q - t, h' q hq, rfl⟩
    rw [Pi.sub_apply] at this
    rw [Pi.add_apply]; linarith
  · intro i
    obtain ⟨⟨p, hp, e⟩, l⟩ := hhi i
    refine ⟨⟨p + t, (h p).1 hp, by rw [Pi.add_apply, Pi.add_apply, e]⟩, ?_⟩
    rintro x ⟨q, hq, rfl⟩
    have := l ⟨q - t, h' q hq, rfl⟩
    rw [Pi.sub_apply] at this
    rw [Pi.add_apply]; linarith

/-- Scaling all points by `f`, also a negative one. -/
theorem C105_scale_partial {top : ℝ} {m m' : Mesh (Fin d → ℝ)} (hne : m.verts ≠ []) (hr : Representable top m)
    (hr' : Representable top m') (f : ℝ) (h : ∀ p, HasPoint m' p ↔ ∃ q, HasPoint m q ∧ ∀ i, p i = f * q i) :
    m'.meshSize top = |f| * m.meshSize top := by
  obtain ⟨lo, hi, hlo, hhi⟩ := extremes hne hr
  have hup : ∀ q, HasPoint m q → HasPoint m' fun i => f * q i := fun q hq => (h _).2 ⟨q, hq, fun _ => rfl⟩
  have hne' : m'.verts ≠ [] := by
    obtain ⟨v, hv⟩ := List.exists_mem_of_ne_nil _ hne
    obtain ⟨w, hw, _⟩ := hup v.pt ⟨v, hv, rfl⟩
    exact List.ne_nil_of_mem hw
  have fin : √(∑ i, (f * hi i - f * lo i) ^ 2) = |f| * √(∑ i, (hi i - lo i) ^ 2) := by
    rw [← Real.sqrt_sq_eq_abs, ← Real.sqrt_mul (sq_nonneg f), Finset.mul_sum]
    congr 1
    refine Finset.sum_congr rfl fun i _ => ?_
    ring
  rw [C105_diagonal_partial hne hr lo hi hlo hhi, ← fin]
  rcases le_total 0 f with hf | hf
  · rw [C105_diagonal_partial hne' hr' (fun i => f * lo i) (fun i => f * hi i)]
    · intro i
      obtain ⟨⟨p, hp, e⟩, l⟩ := hlo i
      refine ⟨⟨_, hup p hp, by rw [e]⟩, ?_⟩
      rintro x ⟨q, hq, rfl⟩
      obtain ⟨q', hq', e'⟩ := (h q).1 hq
      rw [e']; exact mul_le_mul_of_nonneg_left (l ⟨q', hq', rfl⟩) hf
    · intro i
      obtain ⟨⟨p, hp, e⟩, l⟩ := hhi i
      refine ⟨⟨_, hup p hp, by rw [e]⟩, ?_⟩
      rintro x ⟨q, hq, rfl⟩
      obtain ⟨q', hq', e'⟩ := (h q).1 hq
      rw [e']; exact mul_le_mul_of_nonneg_left (l ⟨q', hq', rfl⟩) hf
  · rw [C105_diagonal_partial hne' hr' (fun i => f * hi i) (fun i => f * lo i)]
    · congr 1
      refine Finset.sum_congr rfl fun i _ => ?_
      ring
    · intro i
      obtain ⟨⟨p, hp, e⟩, l⟩ := hhi i
      refine ⟨⟨_, hup p hp, by rw [e]⟩, ?_⟩
      rintro x ⟨q, hq, rfl⟩
      obtain ⟨q', hq', e'⟩ := (h q).1 hq
      rw [e']; exact mul_le_mul_of_nonpos_left (l ⟨q', hq', rfl⟩) hf
    · intro i
      obtain ⟨⟨p, hp, e⟩, l⟩ := hlo i
      refine ⟨⟨_, hup p hp, by rw [e]⟩, ?_⟩
      rintro x ⟨q, hq, rfl⟩
      obtain ⟨q', hq', e'⟩ := (h q).1 hq
      rw [e']; exact mul_le_mul_of_nonpos_left (l ⟨q', hq', rfl⟩) hf

/-- A mesh without vertices has a size, and a greater one than any mesh with vertices: its box is turned inside out. -/
theorem C105_violated (top : ℝ) (ht : 0 < top) :
    Reached (simplexTopo 2) (MState.empty : MState (Fin 2 → ℝ)) ∧ (MState.empty : MState (Fin 2 → ℝ)).mesh.verts = []
    ∧ 2 * top < (MState.empty : MState (Fin 2 → ℝ)).mesh.meshSize top := by
  refine ⟨⟨[], by simp [QOp.meshOps], rfl, by unfold UniqueVids; decide⟩, rfl, ?_⟩
  have e : (MState.empty : MState (Fin 2 → ℝ)).mesh.verts.map (·.pt) = [] := rfl
  rw [meshSize_eq, e]
  unfold eucl boundingBox
  rw [List.foldl_nil, Fin.sum_univ_two]
  apply Real.lt_sqrt_of_sq_lt
  nlinarith

/-! ### Example -/

/-- Three vertices. -/
noncomputable def sizeMesh : Mesh (Fin 2 → ℝ) :=
  { (Mesh.empty : Mesh (Fin 2 → ℝ)) with verts := [⟨0, ![1, 5]⟩, ⟨1, ![4, 1]⟩, ⟨2, ![2, 2]⟩] }

theorem sizeMesh_point (p : Fin 2 → ℝ) : HasPoint sizeMesh p ↔ p = ![1, 5] ∨ p = ![4, 1] ∨ p = ![2, 2] := by
  simp only [HasPoint, sizeMesh, List.mem_cons, List.not_mem_nil, or_false]
  constructor
  · rintro ⟨v, rfl | rfl | rfl, rfl⟩ <;> simp
  · rintro (rfl | rfl | rfl)
    · exact ⟨_, Or.inl rfl, rfl⟩
    · exact ⟨_, Or.inr (Or.inl rfl), rfl⟩
    · exact ⟨_, Or.inr (Or.inr rfl), rfl⟩

theorem sizeMesh_rep : Representable 100 sizeMesh := by
  intro p hp i
  rcases (sizeMesh_point p).1 hp with rfl | rfl | rfl <;> fin_cases i <;> norm_num

/-- The box has sides 3 and 4. -/
example : sizeMesh.meshSize 100 = 5 := by
  rw [C105_diagonal_partial (by simp [sizeMesh]) sizeMesh_rep ![1, 1] ![4, 5]]
  · rw [Fin.sum_univ_two, Real.sqrt_eq_iff_mul_self_eq_of_pos (by norm_num)]
    norm_num
  · intro i
    fin_cases i
    · refine ⟨⟨![1, 5], (sizeMesh_point _).2 (by simp), rfl⟩, ?_⟩
      rintro x ⟨p, hp, rfl⟩
      rcases (sizeMesh_point p).1 hp with rfl | rfl | rfl <;> norm_num
    · refine ⟨⟨![4, 1], (sizeMesh_point _).2 (by simp), rfl⟩, ?_⟩
      rintro x ⟨p, hp, rfl⟩
      rcases (sizeMesh_point p).1 hp with rfl | rfl | rfl <;> norm_num
  · intro i
    fin_cases i
    · refine ⟨⟨![4, 1], (sizeMesh_point _).2 (by simp), rfl⟩, ?_⟩
      rintro x ⟨p, hp, rfl⟩
      rcases (sizeMesh_point p).1 hp with rfl | rfl | rfl <;> norm_num
    · refine ⟨⟨![1, 5], (sizeMesh_point _).2 (by simp), rfl⟩, ?_⟩
      rintro x ⟨p, hp, rfl⟩
      rcases (sizeMesh_point p).1 hp with rfl | rfl | rfl <;> norm_num

/-- The hypotheses of the other theorems. -/
example : sizeMesh.meshSize 100 ≠ 0 := by
  rw [Ne, C105_zero_partial (by simp [sizeMesh]) sizeMesh_rep]
  intro h
  have := congrFun (h ![1, 5] ![4, 1] ((sizeMesh_point _).2 (by simp)) ((sizeMesh_point _).2 (by simp))) 0
  norm_num at this

end VG
