import Verif.Lemmas.ClosestPoints
import Verif.Props.MeshMeasure

/-!
C40: the closest point of a line segment, a triangle, a quadrilateral, a tetrahedron and a hexahedron.
C41: the closest points of two line segments.
C62: the closest point on the boundary of a mesh.

`IsNearest S p q` says that `q` is a point of `S` and no point of `S` is closer to `p`.
-/

namespace VG

variable {K : Type} [Field K] [LinearOrder K] [IsStrictOrderedRing K] {d : Nat}

/-! ### C40 -/

/-- `closest_points` of a point and a line segment which is no point. -/
theorem C40_line (p a b : Fin d → K) (hab : a ≠ b) :
    ∃ q, closestPointLine p a b = some (p, q) ∧ IsNearest (ConvexComb [a, b]) p q :=
  closestPointLine_spec p a b hab

/-- `closest_points` of a point and a triangle, in any dimension. -/
theorem C40_triangle (p a b c : Fin d → K) (hn : NotOnALine a b c) :
    ∃ q, closestPointTriangle p a b c = some (p, q) ∧ IsNearest (ConvexComb [a, b, c]) p q :=
  closestPointTriangle_spec p a b c hn

/-- `closest_points` of a point and a tetrahedron, in any dimension. -/
theorem C40_tetrahedron (p a b c e : Fin d → K) (hn : NotInAPlane a b c e) :
    ∃ q, closestPointTetrahedron p a b c e = some (p, q) ∧ IsNearest (ConvexComb [a, b, c, e]) p q :=
  closestPointTetrahedron_spec p a b c e hn

omit [IsStrictOrderedRing K] in
theorem isNearest_union {S : (Fin d → K) → Prop} {p : Fin d → K} {T : (Fin d → K) → Prop}
    {l : List ((Fin d → K) × (Fin d → K))} {q : (Fin d → K) × (Fin d → K)} (hq : q ∈ l)
    (hmin : ∀ x ∈ l, pairDist q ≤ pairDist x) (hl : ∀ x ∈ l, x.1 = p ∧ T x.2) (hS : ∀ x, T x → S x)
    (hcov : ∀ x, S x → ∃ y ∈ l, sqDist p y.2 ≤ sqDist p x) : IsNearest S p q.2 := by
  refine ⟨hS _ (hl q hq).2, fun x hx => ?_⟩
  obtain ⟨y, hy, hle⟩ := hcov x hx
  have h1 := hmin y hy
  have e : ∀ z ∈ l, pairDist z = sqDist p z.2 := by
    intro z hz; rw [← (hl z hz).1, ← pairDist_eq]
  rw [e q hq, e y hy] at h1
  exact h1.trans hle

/-- `closest_points` of a point and a quadrilateral returns the nearest point of the two triangles 0, 1, 2 and
1, 3, 2. -/
theorem C40_quadrilateral (p a b c e : Fin d → K) (h1 : NotOnALine a b c) (h2 : NotOnALine b e c) :
    ∃ q, closestPointQuad p a b c e = some (p, q)
      ∧ IsNearest (fun x => ConvexComb [a, b, c] x ∨ ConvexComb [b, e, c] x) p q := by
  obtain ⟨q1, r1, n1⟩ := closestPointTriangle_spec p a b c h1
  obtain ⟨q2, r2, n2⟩ := closestPointTriangle_spec p b e c h2
  simp only [closestPointQuad, r1, r2, Option.bind_some]
  obtain ⟨hc, g1, g2⟩ := shortest2_spec (p, q1) (p, q2)
  have hq : ∃ q, shortest2 (p, q1) (p, q2) = (p, q)
      ∧ (ConvexComb [a, b, c] q ∨ ConvexComb [b, e, c] q) := by
    rcases hc with h | h
    · exact ⟨q1, h, Or.inl n1.1⟩
    · exact ⟨q2, h, Or.inr n2.1⟩
  obtain ⟨q, hq, hm⟩ := hq
  rw [hq] at g1 g2 ⊢
  simp only [pairDist_eq] at g1 g2
  refine ⟨q, rfl, hm, fun x hx => ?_⟩
  rcases hx with hx | hx
  · exact g1.trans (n1.2 x hx)
  · exact g2.trans (n2.2 x hx)

omit [IsStrictOrderedRing K] in
theorem convexComb_list4 (a b c e p : Fin d → K) :
    ConvexComb [a, b, c, e] p ↔ ∃ w x y z : K, 0 ≤ w ∧ 0 ≤ x ∧ 0 ≤ y ∧ 0 ≤ z ∧ w + x + y + z = 1
      ∧ p = w • a + x • b + y • c + z • e := by
  rw [convexComb4]
  constructor
  · rintro ⟨r, s, t, h1, h2, h3, h4, rfl⟩
    refine ⟨1 - r - s - t, r, s, t, h4, h1, h2, h3, by ring, ?_⟩
    funext k; simp; ring
  · rintro ⟨w, x, y, z, h1, h2, h3, h4, h5, rfl⟩
    refine ⟨x, y, z, h2, h3, h4, by rw [← h5]; simpa [add_assoc, sub_sub] using h1, ?_⟩
    funext k
    simp only [Pi.add_apply, Pi.smul_apply, Pi.sub_apply, smul_eq_mul]
    linear_combination (a k) * h5

omit [IsStrictOrderedRing K] in
theorem convexComb_list3 (a b c p : Fin d → K) :
    ConvexComb [a, b, c] p ↔ ∃ w x y : K, 0 ≤ w ∧ 0 ≤ x ∧ 0 ≤ y ∧ w + x + y = 1 ∧ p = w • a + x • b + y • c := by
  rw [convexComb3]
  constructor
  · rintro ⟨s, t, h1, h2, h3, rfl⟩
    refine ⟨1 - s - t, s, t, h3, h1, h2, by ring, ?_⟩
    funext k; simp; ring
  · rintro ⟨w, x, y, h1, h2, h3, h4, rfl⟩
    refine ⟨x, y, h2, h3, by rw [← h4]; simpa [add_assoc, sub_sub] using h1, ?_⟩
    funext k
    simp only [Pi.add_apply, Pi.smul_apply, Pi.sub_apply, smul_eq_mul]
    linear_combination (a k) * h4

/-- If the diagonals from vertex 0 to 3 and from 1 to 2 meet, that is for all convex plane quadrilaterals in the
numbering of the library, the result is the nearest point of the convex hull of the four vertices. -/
theorem C40_quadrilateral_convex (p a b c e : Fin d → K) (h1 : NotOnALine a b c) (h2 : NotOnALine b e c)
    (hd : ∃ m, ConvexComb [a, e] m ∧ ConvexComb [b, c] m) :
    ∃ q, closestPointQuad p a b c e = some (p, q) ∧ IsNearest (ConvexComb [a, b, c, e]) p q := by
  obtain ⟨q, hq, hm, hmin⟩ := C40_quadrilateral p a b c e h1 h2
  have hsub : ∀ x, ConvexComb [a, b, c] x ∨ ConvexComb [b, e, c] x → ConvexComb [a, b, c, e] x := by
    intro x hx
    rw [convexComb_list4]
    rcases hx with hx | hx <;> obtain ⟨w, x, y, h1, h2, h3, h4, rfl⟩ := (convexComb_list3 _ _ _ _).1 hx
    · exact ⟨w, x, y, 0, h1, h2, h3, le_rfl, by linarith, by funext k; simp⟩
    · refine ⟨0, w, y, x, le_rfl, h1, h3, h2, by linarith, ?_⟩
      funext k; simp; ring
  refine ⟨q, hq, hsub q hm, fun x hx => hmin x ?_⟩
  obtain ⟨m, hm1, hm2⟩ := hd
  obtain ⟨α, a0, a1, rfl⟩ := (convexComb2 _ _ _).1 hm1
  obtain ⟨β, b0, b1, hb⟩ := (convexComb2 _ _ _).1 hm2
  obtain ⟨w, x, y, z, w0, x0, y0, z0, hs, rfl⟩ := (convexComb_list4 _ _ _ _ _).1 hx
  have rel : ∀ k, a k + α * (e k - a k) = b k + β * (c k - b k) := fun k => by
    have := congrFun hb k; simpa using this
  -- move towards the other diagonal until one of the two weights is used up
  rcases le_total (w * α) (z * (1 - α)) with h | h
  · -- the weight of `a` is used up first
    rcases eq_or_lt_of_le a1 with ha | ha
    · -- `e` is on the other diagonal, which is excluded
      exfalso
      have hα : α = 1 := by linarith
      subst hα
      have := (h2 (-1) β (fun k => by have := rel k; linear_combination (-1 : K) * this)).1
      norm_num at this
    · right
      rw [convexComb_list3]
      have h3 := div_mul_cancel₀ w ha.ne'
      have h4 : 0 ≤ w / (1 - α) := div_nonneg w0 ha.le
      have h5 : w / (1 - α) * α ≤ z := by
        rw [div_mul_eq_mul_div, div_le_iff₀ ha]; exact h
      generalize w / (1 - α) = t at h3 h4 h5
      refine ⟨x + t * (1 - β), z - t * α, y + t * β, by nlinarith, by linarith, by nlinarith, by linarith, ?_⟩
      funext k
      simp only [Pi.add_apply, Pi.smul_apply, smul_eq_mul]
      linear_combination t * rel k - a k * h3
  · rcases eq_or_lt_of_le a0 with ha | ha
    · exfalso
      subst ha
      have := rel
      have := (h1 (β - 1) (-β) (fun k => by have := rel k; linear_combination this))
      linarith [this.1, this.2]
    · left
      rw [convexComb_list3]
      have h3 := div_mul_cancel₀ z ha.ne'
      have h4 : 0 ≤ z / α := div_nonneg z0 ha.le
      have h5 : z / α * (1 - α) ≤ w := by
        rw [div_mul_eq_mul_div, div_le_iff₀ ha]; exact h
      generalize z / α = t at h3 h4 h5
      refine ⟨w - t * (1 - α), x + t * (1 - β), y + t * β, by linarith, by nlinarith, by nlinarith, by linarith, ?_⟩
      funext k
      simp only [Pi.add_apply, Pi.smul_apply, smul_eq_mul]
      linear_combination t * rel k - e k * h3

/-- The six tetrahedra of the decomposition of a hexahedron. -/
def InHex (v : Fin 8 → Fin d → K) (x : Fin d → K) : Prop :=
  ConvexComb [v 0, v 1, v 3, v 7] x ∨ ConvexComb [v 0, v 1, v 7, v 5] x ∨ ConvexComb [v 0, v 2, v 6, v 7] x
    ∨ ConvexComb [v 0, v 3, v 2, v 7] x ∨ ConvexComb [v 0, v 5, v 7, v 4] x ∨ ConvexComb [v 0, v 6, v 4, v 7] x

/-- `closest_points` of a point and a hexahedron returns the nearest point of its six tetrahedra. -/
theorem C40_hexahedron (p : Fin d → K) (v : Fin 8 → Fin d → K)
    (h1 : NotInAPlane (v 0) (v 1) (v 3) (v 7)) (h2 : NotInAPlane (v 0) (v 1) (v 7) (v 5))
    (h3 : NotInAPlane (v 0) (v 2) (v 6) (v 7)) (h4 : NotInAPlane (v 0) (v 3) (v 2) (v 7))
    (h5 : NotInAPlane (v 0) (v 5) (v 7) (v 4)) (h6 : NotInAPlane (v 0) (v 6) (v 4) (v 7)) :
    ∃ q, closestPointHex p (v 0) (v 1) (v 2) (v 3) (v 4) (v 5) (v 6) (v 7) = some (p, q)
      ∧ IsNearest (InHex v) p q := by
  obtain ⟨q1, r1, n1⟩ := closestPointTetrahedron_spec p _ _ _ _ h1
  obtain ⟨q2, r2, n2⟩ := closestPointTetrahedron_spec p _ _ _ _ h2
  obtain ⟨q3, r3, n3⟩ := closestPointTetrahedron_spec p _ _ _ _ h3
  obtain ⟨q4, r4, n4⟩ := closestPointTetrahedron_spec p _ _ _ _ h4
  obtain ⟨q5, r5, n5⟩ := closestPointTetrahedron_spec p _ _ _ _ h5
  obtain ⟨q6, r6, n6⟩ := closestPointTetrahedron_spec p _ _ _ _ h6
  simp only [closestPointHex, r1, r2, r3, r4, r5, r6, Option.bind_some]
  obtain ⟨hmem, hmin⟩ := shortest6_spec (p, q1) (p, q2) (p, q3) (p, q4) (p, q5) (p, q6)
  generalize shortest6 (p, q1) (p, q2) (p, q3) (p, q4) (p, q5) (p, q6) = r at hmem hmin
  have hr : r.1 = p := by
    simp only [List.mem_cons, List.not_mem_nil, or_false] at hmem
    rcases hmem with h | h | h | h | h | h <;> rw [h]
  refine ⟨r.2, by rw [← hr], isNearest_union (T := InHex v) hmem hmin ?_ (fun _ h => h) ?_⟩
  · intro x hx
    simp only [List.mem_cons, List.not_mem_nil, or_false] at hx
    rcases hx with h | h | h | h | h | h <;> rw [h]
    · exact ⟨rfl, Or.inl n1.1⟩
    · exact ⟨rfl, Or.inr (Or.inl n2.1)⟩
    · exact ⟨rfl, Or.inr (Or.inr (Or.inl n3.1))⟩
    · exact ⟨rfl, Or.inr (Or.inr (Or.inr (Or.inl n4.1)))⟩
    · exact ⟨rfl, Or.inr (Or.inr (Or.inr (Or.inr (Or.inl n5.1))))⟩
    · exact ⟨rfl, Or.inr (Or.inr (Or.inr (Or.inr (Or.inr n6.1))))⟩
  · intro x hx
    rcases hx with h | h | h | h | h | h
    · exact ⟨(p, q1), by simp, n1.2 x h⟩
    · exact ⟨(p, q2), by simp, n2.2 x h⟩
    · exact ⟨(p, q3), by simp, n3.2 x h⟩
    · exact ⟨(p, q4), by simp, n4.2 x h⟩
    · exact ⟨(p, q5), by simp, n5.2 x h⟩
    · exact ⟨(p, q6), by simp, n6.2 x h⟩

/-- The corners of a box in the numbering of the library: bit 0, 1, 2 of the number for the edges `a`, `b`, `c`. -/
def boxCorner (o a b c : Fin d → K) (i : Fin 8) : Fin d → K :=
  o + (if i.val % 2 = 1 then a else 0) + (if i.val / 2 % 2 = 1 then b else 0) + (if i.val / 4 = 1 then c else 0)

/-- The points of a box with a corner `o` and edges `a`, `b`, `c`. -/
def InBox (o a b c x : Fin d → K) : Prop :=
  ∃ α β γ : K, 0 ≤ α ∧ α ≤ 1 ∧ 0 ≤ β ∧ β ≤ 1 ∧ 0 ≤ γ ∧ γ ≤ 1 ∧ ∀ k, x k = o k + α * a k + β * b k + γ * c k

theorem inHex_box (o a b c x : Fin d → K) : InHex (boxCorner o a b c) x ↔ InBox o a b c x := by
  constructor
  · intro h
    rcases h with h | h | h | h | h | h <;>
    obtain ⟨w, x, y, z, h1, h2, h3, h4, h5, rfl⟩ := (convexComb_list4 _ _ _ _ _).1 h
    · refine ⟨x + y + z, y + z, z, by linarith, by linarith, by linarith, by linarith, by linarith, by linarith, ?_⟩
      intro k; simp [boxCorner]; linear_combination o k * h5
    · refine ⟨x + y + z, y, y + z, by linarith, by linarith, by linarith, by linarith, by linarith, by linarith, ?_⟩
      intro k; simp [boxCorner]; linear_combination o k * h5
    · refine ⟨z, x + y + z, y + z, by linarith, by linarith, by linarith, by linarith, by linarith, by linarith, ?_⟩
      intro k; simp [boxCorner]; linear_combination o k * h5
    · refine ⟨x + z, x + y + z, z, by linarith, by linarith, by linarith, by linarith, by linarith, by linarith, ?_⟩
      intro k; simp [boxCorner]; linear_combination o k * h5
    · refine ⟨x + y, y, x + y + z, by linarith, by linarith, by linarith, by linarith, by linarith, by linarith, ?_⟩
      intro k; simp [boxCorner]; linear_combination o k * h5
    · refine ⟨z, x + z, x + y + z, by linarith, by linarith, by linarith, by linarith, by linarith, by linarith, ?_⟩
      intro k; simp [boxCorner]; linear_combination o k * h5
  · rintro ⟨α, β, γ, a0, a1, b0, b1, c0, c1, hx⟩
    unfold InHex
    simp only [convexComb_list4]
    rcases le_total α β with h1 | h1 <;> rcases le_total β γ with h2 | h2 <;> rcases le_total α γ with h3 | h3
    -- α ≤ β ≤ γ
    · refine Or.inr (Or.inr (Or.inr (Or.inr (Or.inr ⟨1 - γ, β - α, γ - β, α, by linarith, by linarith, by linarith,
        by linarith, by ring, ?_⟩))))
      funext k; simp [boxCorner, hx]; ring
    · refine Or.inr (Or.inr (Or.inr (Or.inr (Or.inr ⟨1 - γ, β - α, γ - β, α, by linarith, by linarith, by linarith,
        by linarith, by ring, ?_⟩))))
      funext k; simp [boxCorner, hx]; ring
    -- α ≤ γ ≤ β
    · refine Or.inr (Or.inr (Or.inl ⟨1 - β, β - γ, γ - α, α, by linarith, by linarith, by linarith,
        by linarith, by ring, ?_⟩))
      funext k; simp [boxCorner, hx]; ring
    -- γ ≤ α ≤ β
    · refine Or.inr (Or.inr (Or.inr (Or.inl ⟨1 - β, α - γ, β - α, γ, by linarith, by linarith, by linarith,
        by linarith, by ring, ?_⟩)))
      funext k; simp [boxCorner, hx]; ring
    -- β ≤ α ≤ γ
    · refine Or.inr (Or.inr (Or.inr (Or.inr (Or.inl ⟨1 - γ, α - β, β, γ - α, by linarith, by linarith, by linarith,
        by linarith, by ring, ?_⟩))))
      funext k; simp [boxCorner, hx]; ring
    -- β ≤ γ ≤ α
    · refine Or.inr (Or.inl ⟨1 - α, α - γ, β, γ - β, by linarith, by linarith, by linarith,
        by linarith, by ring, ?_⟩)
      funext k; simp [boxCorner, hx]; ring
    · refine Or.inl ⟨1 - α, α - β, β - γ, γ, by linarith, by linarith, by linarith,
        by linarith, by ring, ?_⟩
      funext k; simp [boxCorner, hx]; ring
    · refine Or.inl ⟨1 - α, α - β, β - γ, γ, by linarith, by linarith, by linarith,
        by linarith, by ring, ?_⟩
      funext k; simp [boxCorner, hx]; ring

/-- For a hexahedron with parallel faces the result is the nearest point of the whole box. -/
theorem C40_box (p o a b c : Fin d → K)
    (hn : ∀ r s t : K, (∀ k, r * a k + s * b k + t * c k = 0) → r = 0 ∧ s = 0 ∧ t = 0) :
    ∃ q, closestPointHex p o (o + a) (o + b) (o + a + b) (o + c) (o + a + c) (o + b + c) (o + a + b + c) = some (p, q)
      ∧ IsNearest (InBox o a b c) p q := by
  obtain ⟨q, hq, hm⟩ := C40_hexahedron p (boxCorner o a b c)
    (fun r s t h => by
      have := hn (r + s + t) (s + t) t (fun k => by have := h k; simp [boxCorner] at this; linear_combination this)
      exact ⟨by linarith [this.1, this.2.1], by linarith [this.2.1, this.2.2], this.2.2⟩)
    (fun r s t h => by
      have := hn (r + s + t) s (s + t) (fun k => by have := h k; simp [boxCorner] at this; linear_combination this)
      exact ⟨by linarith [this.1, this.2.2], this.2.1, by linarith [this.2.1, this.2.2]⟩)
    (fun r s t h => by
      have := hn t (r + s + t) (s + t) (fun k => by have := h k; simp [boxCorner] at this; linear_combination this)
      exact ⟨by linarith [this.2.1, this.2.2], by linarith [this.1, this.2.2], this.1⟩)
    (fun r s t h => by
      have := hn (r + t) (r + s + t) t (fun k => by have := h k; simp [boxCorner] at this; linear_combination this)
      exact ⟨by linarith [this.1, this.2.2], by linarith [this.1, this.2.1], this.2.2⟩)
    (fun r s t h => by
      have := hn (r + s) s (r + s + t) (fun k => by have := h k; simp [boxCorner] at this; linear_combination this)
      exact ⟨by linarith [this.1, this.2.1], this.2.1, by linarith [this.1, this.2.2]⟩)
    (fun r s t h => by
      have := hn t (r + t) (r + s + t) (fun k => by have := h k; simp [boxCorner] at this; linear_combination this)
      exact ⟨by linarith [this.1, this.2.1], by linarith [this.2.1, this.2.2], this.1⟩)
  refine ⟨q, ?_, ?_⟩
  · rw [← hq]; congr 1 <;> (funext k; simp [boxCorner])
  · refine ⟨(inHex_box _ _ _ _ _).1 hm.1, fun x hx => hm.2 x ((inHex_box _ _ _ _ _).2 hx)⟩

example : NotOnALine (![0, 0, 0] : Fin 3 → Rat) ![2, 0, 0] ![0, 2, 0]
    ∧ closestPointTriangle (![2, 2, 3] : Fin 3 → Rat) ![0, 0, 0] ![2, 0, 0] ![0, 2, 0] = some (![2, 2, 3], ![1, 1, 0])
    ∧ closestPointLine (![5, 1, 0] : Fin 3 → Rat) ![0, 0, 0] ![2, 0, 0] = some (![5, 1, 0], ![2, 0, 0])
    ∧ closestPointTetrahedron (![0, 0, 3] : Fin 3 → Rat) ![0, 0, 0] ![2, 0, 0] ![0, 2, 0] ![0, 0, 2]
        = some (![0, 0, 3], ![0, 0, 2])
    ∧ closestPointQuad (![3, 1/2, 0] : Fin 3 → Rat) ![0, 0, 0] ![2, 0, 0] ![0, 2, 0] ![2, 2, 0]
        = some (![3, 1/2, 0], ![2, 1/2, 0])
    ∧ closestPointHex (![3, 1/2, -1] : Fin 3 → Rat) ![0, 0, 0] ![1, 0, 0] ![0, 1, 0] ![1, 1, 0] ![0, 0, 1] ![1, 0, 1]
        ![0, 1, 1] ![1, 1, 1] = some (![3, 1/2, -1], ![1, 1/2, 0]) := by
  refine ⟨?_, by decide +kernel, by decide +kernel, by decide +kernel, by decide +kernel, by decide +kernel⟩
  intro s t h
  have h0 := h 0; have h1 := h 1
  simp at h0 h1
  exact ⟨h0, h1⟩

/-! ### C41 -/

/-- The pair consists of a point of each segment, in any order, and no two points of the segments are closer. -/
def LineOptimal (v0 v1 w0 w1 : Fin d → K) (pr : (Fin d → K) × (Fin d → K)) : Prop :=
  ((ConvexComb [v0, v1] pr.1 ∧ ConvexComb [w0, w1] pr.2) ∨ (ConvexComb [w0, w1] pr.1 ∧ ConvexComb [v0, v1] pr.2))
  ∧ ∀ x y, ConvexComb [v0, v1] x → ConvexComb [w0, w1] y → sqDist pr.1 pr.2 ≤ sqDist x y

omit [IsStrictOrderedRing K] in
theorem convexComb2_ends (a b : Fin d → K) [ZeroLEOneClass K] : ConvexComb [a, b] a ∧ ConvexComb [a, b] b := by
  constructor <;> rw [convexComb2]
  · exact ⟨0, le_rfl, by simp, by funext k; simp⟩
  · exact ⟨1, zero_le_one, by simp, by funext k; simp⟩

/-- The pairs of an end point and the other segment: points of the two segments, and not farther than any pair of
which one is an end point. -/
theorem closestLineEnds_spec (v0 v1 w0 w1 : Fin d → K) (hv : v0 ≠ v1) (hw : w0 ≠ w1) :
    ∃ pr, closestLineEnds v0 v1 w0 w1 = some pr
      ∧ ((ConvexComb [v0, v1] pr.1 ∧ ConvexComb [w0, w1] pr.2) ∨ (ConvexComb [w0, w1] pr.1 ∧ ConvexComb [v0, v1] pr.2))
      ∧ (∀ x, ConvexComb [v0, v1] x → sqDist pr.1 pr.2 ≤ sqDist x w0 ∧ sqDist pr.1 pr.2 ≤ sqDist x w1)
      ∧ (∀ y, ConvexComb [w0, w1] y → sqDist pr.1 pr.2 ≤ sqDist v0 y ∧ sqDist pr.1 pr.2 ≤ sqDist v1 y) := by
  obtain ⟨q1, r1, n1⟩ := closestPointLine_spec w0 v0 v1 hv
  obtain ⟨q2, r2, n2⟩ := closestPointLine_spec w1 v0 v1 hv
  obtain ⟨q3, r3, n3⟩ := closestPointLine_spec v0 w0 w1 hw
  obtain ⟨q4, r4, n4⟩ := closestPointLine_spec v1 w0 w1 hw
  simp only [closestLineEnds, r1, r2, r3, r4, Option.bind_some]
  obtain ⟨hc, h1, h2, h3, h4⟩ := shortest4_spec (w0, q1) (w1, q2) (v0, q3) (v1, q4)
  refine ⟨_, rfl, ?_, ?_, ?_⟩
  · rcases hc with h | h | h | h <;> rw [h]
    · exact Or.inr ⟨(convexComb2_ends _ _).1, n1.1⟩
    · exact Or.inr ⟨(convexComb2_ends _ _).2, n2.1⟩
    · exact Or.inl ⟨(convexComb2_ends _ _).1, n3.1⟩
    · exact Or.inl ⟨(convexComb2_ends _ _).2, n4.1⟩
  · generalize shortest4 (w0, q1) (w1, q2) (v0, q3) (v1, q4) = pr at *
    intro x hx
    simp only [pairDist_eq] at h1 h2
    have e : pairDist pr = sqDist pr.1 pr.2 := pairDist_eq pr.1 pr.2
    rw [e] at h1 h2
    rw [sqDist_comm x w0, sqDist_comm x w1]
    exact ⟨h1.trans (n1.2 x hx), h2.trans (n2.2 x hx)⟩
  · generalize shortest4 (w0, q1) (w1, q2) (v0, q3) (v1, q4) = pr at *
    intro y hy
    simp only [pairDist_eq] at h3 h4
    have e : pairDist pr = sqDist pr.1 pr.2 := pairDist_eq pr.1 pr.2
    rw [e] at h3 h4
    exact ⟨h3.trans (n3.2 y hy), h4.trans (n4.2 y hy)⟩

/-- If from the parameters `s`, `t` of two points the distance does not grow on the way to parameters outside, then the
pairs with an end point are not farther. -/
theorem ends_le (v0 v1 w0 w1 : Fin d → K) (D : K) (s t m n : K) (hs0 : 0 ≤ s) (hs1 : 0 ≤ 1 - s) (ht0 : 0 ≤ t)
    (ht1 : 0 ≤ 1 - t) (hout : m < 0 ∨ 1 - m < 0 ∨ n < 0 ∨ 1 - n < 0)
    (hw : ∀ x, ConvexComb [v0, v1] x → D ≤ sqDist x w0 ∧ D ≤ sqDist x w1)
    (hv : ∀ y, ConvexComb [w0, w1] y → D ≤ sqDist v0 y ∧ D ≤ sqDist v1 y)
    (hdec : ∀ τ : K, 0 ≤ τ → τ ≤ 1 → sqDist (v0 + (s + τ * (m - s)) • (v1 - v0)) (w0 + (t + τ * (n - t)) • (w1 - w0))
      ≤ sqDist (v0 + s • (v1 - v0)) (w0 + t • (w1 - w0))) :
    D ≤ sqDist (v0 + s • (v1 - v0)) (w0 + t • (w1 - w0)) := by
  obtain ⟨τ, h0, hle, hnn, i, _, hz⟩ := exit_point (n := 4) ![s, 1 - s, t, 1 - t] ![m, 1 - m, n, 1 - n]
    (fun i => by fin_cases i; exacts [hs0, hs1, ht0, ht1])
    (by rcases hout with h | h | h | h
        · exact ⟨0, h⟩
        · exact ⟨1, h⟩
        · exact ⟨2, h⟩
        · exact ⟨3, h⟩)
  refine le_trans ?_ (hdec τ h0 hle)
  have n0 := hnn 0; have n1 := hnn 1; have n2 := hnn 2; have n3 := hnn 3
  simp only [Matrix.cons_val_zero, Matrix.cons_val_one, Matrix.cons_val] at n0 n1 n2 n3
  have hx : ConvexComb [v0, v1] (v0 + (s + τ * (m - s)) • (v1 - v0)) :=
    (convexComb2 _ _ _).2 ⟨_, n0, by linarith, rfl⟩
  have hy : ConvexComb [w0, w1] (w0 + (t + τ * (n - t)) • (w1 - w0)) :=
    (convexComb2 _ _ _).2 ⟨_, n2, by linarith, rfl⟩
  fin_cases i <;> simp only [Fin.zero_eta, Fin.mk_one, Fin.reduceFinMk, Matrix.cons_val_zero, Matrix.cons_val_one,
    Matrix.cons_val] at hz
  · have e : v0 + (s + τ * (m - s)) • (v1 - v0) = v0 := by rw [hz]; funext k; simp
    rw [e]; exact (hv _ hy).1
  · have e : v0 + (s + τ * (m - s)) • (v1 - v0) = v1 := by
      rw [show s + τ * (m - s) = 1 by linarith]; funext k; simp
    rw [e]; exact (hv _ hy).2
  · have e : w0 + (t + τ * (n - t)) • (w1 - w0) = w0 := by rw [hz]; funext k; simp
    rw [e]; exact (hw _ hx).1
  · have e : w0 + (t + τ * (n - t)) • (w1 - w0) = w1 := by
      rw [show t + τ * (n - t) = 1 by linarith]; funext k; simp
    rw [e]; exact (hw _ hx).2

/-- The feet of the common perpendicular of two lines. -/
def CommonPerp (v0 v1 w0 w1 : Fin d → K) (s t : K) : Prop :=
  (∑ k, (v1 k - v0 k) * ((v0 k + s * (v1 k - v0 k)) - (w0 k + t * (w1 k - w0 k)))) = 0
  ∧ (∑ k, (w1 k - w0 k) * ((v0 k + s * (v1 k - v0 k)) - (w0 k + t * (w1 k - w0 k)))) = 0

omit [LinearOrder K] [IsStrictOrderedRing K] in
theorem commonPerp_iff (v0 v1 w0 w1 : Fin d → K) (s t : K) : CommonPerp v0 v1 w0 w1 s t ↔
    innerProd (v1 - v0) (v0 - w0) + s * innerProd (v1 - v0) (v1 - v0) - t * innerProd (v1 - v0) (w1 - w0) = 0
    ∧ innerProd (w1 - w0) (v0 - w0) + s * innerProd (v1 - v0) (w1 - w0) - t * innerProd (w1 - w0) (w1 - w0) = 0 := by
  have e : ∀ u : Fin d → K, (∑ k, u k * ((v0 k + s * (v1 k - v0 k)) - (w0 k + t * (w1 k - w0 k))))
      = innerProd u (v0 - w0) + s * innerProd u (v1 - v0) - t * innerProd u (w1 - w0) := by
    intro u
    rw [← innerProd_smul_right, ← innerProd_smul_right, ← innerProd_add_right, ← innerProd_sub_right]
    exact Finset.sum_congr rfl fun k _ => by simp only [Pi.sub_apply, Pi.add_apply, Pi.smul_apply, smul_eq_mul]; ring
  unfold CommonPerp
  rw [show (∑ k, (v1 k - v0 k) * ((v0 k + s * (v1 k - v0 k)) - (w0 k + t * (w1 k - w0 k)))) = _ from e (v1 - v0),
    show (∑ k, (w1 k - w0 k) * ((v0 k + s * (v1 k - v0 k)) - (w0 k + t * (w1 k - w0 k)))) = _ from e (w1 - w0),
    innerProd_comm (w1 - w0) (v1 - v0)]

/-- From the common perpendicular on the distance grows. -/
theorem perp_dist (v0 v1 w0 w1 : Fin d → K) (m n : K) (h : CommonPerp v0 v1 w0 w1 m n) (s t : K) :
    sqDist (v0 + s • (v1 - v0)) (w0 + t • (w1 - w0))
      = sqDist (v0 + m • (v1 - v0)) (w0 + n • (w1 - w0))
        + innerProd ((s - m) • (v1 - v0) - (t - n) • (w1 - w0)) ((s - m) • (v1 - v0) - (t - n) • (w1 - w0)) := by
  obtain ⟨h1, h2⟩ := (commonPerp_iff _ _ _ _ _ _).1 h
  have e : ∀ s t : K, v0 + s • (v1 - v0) - (w0 + t • (w1 - w0)) = (v0 - w0) + s • (v1 - v0) - t • (w1 - w0) := by
    intro s t; funext k; simp; ring
  rw [sqDist_eq, sqDist_eq, e, e]
  simp only [innerProd_add_left, innerProd_add_right, innerProd_sub_left (_ • _) (_ • _), innerProd_sub_right _ (_ • _) (_ • _),
    innerProd_sub_left (_ + _) (_ • _), innerProd_sub_right _ (_ + _) (_ • _),
    innerProd_smul_left, innerProd_smul_right, innerProd_comm (v0 - w0) (v1 - v0), innerProd_comm (v0 - w0) (w1 - w0),
    innerProd_comm (w1 - w0) (v1 - v0)]
  linear_combination (2 * (s - m)) * h1 - (2 * (t - n)) * h2

/-- The square of the sine of the angle between the lines, times the squares of the lengths. -/
def sinSq (v0 v1 w0 w1 : Fin d → K) : K :=
  innerProd (v1 - v0) (v1 - v0) * innerProd (w1 - w0) (w1 - w0)
    - innerProd (v1 - v0) (w1 - w0) * innerProd (v1 - v0) (w1 - w0)

/-- `closest_points` of two line segments which are no points: two points of the segments with the minimal distance, if
the lines are parallel, or not nearly parallel (the square of the sine of the angle is at least `1e-6`), or the feet of
the common perpendicular are not both in the segments.  The full statement is without this hypothesis, and with the
point of the first segment first. -/
theorem C41_optimal_partial (v0 v1 w0 w1 : Fin d → K) (hv : v0 ≠ v1) (hw : w0 ≠ w1)
    (h : (∃ r : K, ∀ k, v1 k - v0 k = r * (w1 k - w0 k))
      ∨ 1 / 1000000 * (∑ k, (v1 k - v0 k) ^ 2) * (∑ k, (w1 k - w0 k) ^ 2) ≤ sinSq v0 v1 w0 w1
      ∨ ∀ s t, CommonPerp v0 v1 w0 w1 s t → ¬ (0 ≤ s ∧ s ≤ 1 ∧ 0 ≤ t ∧ t ≤ 1)) :
    ∃ pr, closestLineLine v0 v1 w0 w1 = some pr ∧ LineOptimal v0 v1 w0 w1 pr := by
  have vpos : 0 < innerProd (v1 - v0) (v1 - v0) := innerProd_self_pos _ (sub_ne_zero.2 (Ne.symm hv))
  have wpos : 0 < innerProd (w1 - w0) (w1 - w0) := innerProd_self_pos _ (sub_ne_zero.2 (Ne.symm hw))
  have sq : ∀ a b : Fin d → K, (∑ k, (b k - a k) ^ 2) = innerProd (b - a) (b - a) := by
    intro a b; exact Finset.sum_congr rfl fun k _ => by simp [pow_two]
  rw [sq, sq] at h
  obtain ⟨pe, re, me, e1, e2⟩ := closestLineEnds_spec v0 v1 w0 w1 hv hw
  -- the common perpendicular
  have perp : sinSq v0 v1 w0 w1 ≠ 0 → ∀ s t,
      s = (innerProd (v1 - v0) (w1 - w0) * innerProd (w1 - w0) (v0 - w0)
        - innerProd (w1 - w0) (w1 - w0) * innerProd (v1 - v0) (v0 - w0)) / sinSq v0 v1 w0 w1 →
      t = (innerProd (v1 - v0) (v1 - v0) * innerProd (w1 - w0) (v0 - w0)
        - innerProd (v1 - v0) (w1 - w0) * innerProd (v1 - v0) (v0 - w0)) / sinSq v0 v1 w0 w1 →
      CommonPerp v0 v1 w0 w1 s t := by
    intro hd s t hs ht
    rw [eq_div_iff hd] at hs ht
    rw [commonPerp_iff]
    constructor
    · apply mul_right_cancel₀ hd
      simp only [sinSq] at hs ht ⊢
      linear_combination innerProd (v1 - v0) (v1 - v0) * hs - innerProd (v1 - v0) (w1 - w0) * ht
    · apply mul_right_cancel₀ hd
      simp only [sinSq] at hs ht ⊢
      linear_combination innerProd (v1 - v0) (w1 - w0) * hs - innerProd (w1 - w0) (w1 - w0) * ht
  -- the end points are good if the perpendicular is outside
  have outside : ∀ m n, CommonPerp v0 v1 w0 w1 m n → (m < 0 ∨ 1 - m < 0 ∨ n < 0 ∨ 1 - n < 0) →
      LineOptimal v0 v1 w0 w1 pe := by
    intro m n hmn hout
    refine ⟨me, fun x y hx hy => ?_⟩
    obtain ⟨s, s0, s1, rfl⟩ := (convexComb2 _ _ _).1 hx
    obtain ⟨t, t0, t1, rfl⟩ := (convexComb2 _ _ _).1 hy
    refine ends_le v0 v1 w0 w1 _ s t m n s0 s1 t0 t1 hout e1 e2 ?_
    intro τ h0 h1
    rw [perp_dist _ _ _ _ m n hmn, perp_dist _ _ _ _ m n hmn s t]
    have e : (s + τ * (m - s) - m) • (v1 - v0) - (t + τ * (n - t) - n) • (w1 - w0)
        = (1 - τ) • ((s - m) • (v1 - v0) - (t - n) • (w1 - w0)) := by funext k; simp; ring
    rw [e, innerProd_smul_left, innerProd_smul_right]
    have hnn := innerProd_self_nonneg ((s - m) • (v1 - v0) - (t - n) • (w1 - w0))
    generalize innerProd ((s - m) • (v1 - v0) - (t - n) • (w1 - w0)) ((s - m) • (v1 - v0) - (t - n) • (w1 - w0)) = g at *
    have h2 : (1 - τ) * (1 - τ) ≤ 1 := by nlinarith
    have := mul_le_mul_of_nonneg_right h2 hnn
    linarith
  -- and if the lines are parallel
  have parallel : sinSq v0 v1 w0 w1 = 0 → LineOptimal v0 v1 w0 w1 pe := by
    intro hz
    have dep : innerProd (w1 - w0) (w1 - w0) • (v1 - v0) - innerProd (v1 - v0) (w1 - w0) • (w1 - w0) = 0 := by
      apply (innerProd_self_eq_zero _).1
      simp only [innerProd_sub_left (_ • _) (_ • _), innerProd_sub_right _ (_ • _) (_ • _), innerProd_smul_left,
        innerProd_smul_right, innerProd_comm (w1 - w0) (v1 - v0)]
      simp only [sinSq] at hz
      linear_combination innerProd (w1 - w0) (w1 - w0) * hz
    refine ⟨me, fun x y hx hy => ?_⟩
    obtain ⟨s, s0, s1, rfl⟩ := (convexComb2 _ _ _).1 hx
    obtain ⟨t, t0, t1, rfl⟩ := (convexComb2 _ _ _).1 hy
    refine ends_le v0 v1 w0 w1 _ s t (s + 2)
      (t + 2 / innerProd (w1 - w0) (w1 - w0) * innerProd (v1 - v0) (w1 - w0)) s0 s1 t0 t1
      (Or.inr (Or.inl (by linarith))) e1 e2 ?_
    intro τ h0 h1
    refine le_of_eq ?_
    rw [sqDist_eq, sqDist_eq]
    have h2 := div_mul_cancel₀ (2 : K) wpos.ne'
    have e : v0 + (s + τ * (s + 2 - s)) • (v1 - v0)
        - (w0 + (t + τ * (t + 2 / innerProd (w1 - w0) (w1 - w0) * innerProd (v1 - v0) (w1 - w0) - t)) • (w1 - w0))
        = v0 + s • (v1 - v0) - (w0 + t • (w1 - w0)) := by
      generalize innerProd (w1 - w0) (w1 - w0) = W at *
      generalize innerProd (v1 - v0) (w1 - w0) = U at *
      funext k
      have hk := congrFun dep k
      simp only [Pi.sub_apply, Pi.add_apply, Pi.smul_apply, smul_eq_mul, Pi.zero_apply] at hk ⊢
      linear_combination (τ * (2 / W)) * hk - τ * (v1 k - v0 k) * h2
    rw [e]
  simp only [closestLineLine]
  change ∃ pr, (if sinSq v0 v1 w0 w1 < 1 / 1000000 * innerProd (v1 - v0) (v1 - v0) * innerProd (w1 - w0) (w1 - w0) then _
    else if sinSq v0 v1 w0 w1 = 0 then none else _) = some pr ∧ _
  split
  · rename_i hlt
    refine ⟨pe, re, ?_⟩
    by_cases hz : sinSq v0 v1 w0 w1 = 0
    · exact parallel hz
    · rcases h with ⟨r, hr⟩ | h | h
      · exfalso; apply hz
        have : v1 - v0 = r • (w1 - w0) := by funext k; simpa using hr k
        simp only [sinSq, this, innerProd_smul_left, innerProd_smul_right]; ring
      · exact absurd hlt (not_lt.2 h)
      · have hp := perp hz _ _ rfl rfl
        refine outside _ _ hp ?_
        by_contra hc
        simp only [not_or, not_lt] at hc
        exact h _ _ hp ⟨hc.1, by linarith [hc.2.1], hc.2.2.1, by linarith [hc.2.2.2]⟩
  · rename_i hlt
    have hpos : 0 < sinSq v0 v1 w0 w1 := by
      have h2 : 0 < 1 / 1000000 * innerProd (v1 - v0) (v1 - v0) * innerProd (w1 - w0) (w1 - w0) := by positivity
      exact lt_of_lt_of_le h2 (not_lt.1 hlt)
    rw [if_neg hpos.ne']
    have hp := perp hpos.ne' _ _ rfl rfl
    change ∃ pr, (if (innerProd (v1 - v0) (w1 - w0) * innerProd (w1 - w0) (v0 - w0)
        - innerProd (w1 - w0) (w1 - w0) * innerProd (v1 - v0) (v0 - w0)) / sinSq v0 v1 w0 w1 < 0 ∨ _ then _ else _) = some pr ∧ _
    split
    · rename_i hout
      refine ⟨pe, re, outside _ _ hp ?_⟩
      rcases hout with h | h | h | h
      · exact Or.inl h
      · exact Or.inr (Or.inl (sub_neg.2 h))
      · exact Or.inr (Or.inr (Or.inl h))
      · exact Or.inr (Or.inr (Or.inr (sub_neg.2 h)))
    · rename_i hin
      simp only [not_or, not_lt] at hin
      obtain ⟨i1, i2, i3, i4⟩ := hin
      refine ⟨_, rfl, Or.inl ⟨?_, ?_⟩, ?_⟩
      · exact (convexComb2 _ _ _).2 ⟨_, i1, sub_nonneg.2 i2, rfl⟩
      · exact (convexComb2 _ _ _).2 ⟨_, i3, sub_nonneg.2 i4, rfl⟩
      · intro x y hx hy
        obtain ⟨s, s0, s1, rfl⟩ := (convexComb2 _ _ _).1 hx
        obtain ⟨t, t0, t1, rfl⟩ := (convexComb2 _ _ _).1 hy
        rw [perp_dist _ _ _ _ _ _ hp s t]
        exact le_add_of_nonneg_right (innerProd_self_nonneg _)

/-- For all line segments the result is a pair of points of the two segments, in any order. -/
theorem C41_members_partial (v0 v1 w0 w1 : Fin d → K) (hv : v0 ≠ v1) (hw : w0 ≠ w1) :
    ∃ pr, closestLineLine v0 v1 w0 w1 = some pr
      ∧ ((ConvexComb [v0, v1] pr.1 ∧ ConvexComb [w0, w1] pr.2) ∨ (ConvexComb [w0, w1] pr.1 ∧ ConvexComb [v0, v1] pr.2)) := by
  by_cases h : sinSq v0 v1 w0 w1 < 1 / 1000000 * innerProd (v1 - v0) (v1 - v0) * innerProd (w1 - w0) (w1 - w0)
  · obtain ⟨pe, re, me, _⟩ := closestLineEnds_spec v0 v1 w0 w1 hv hw
    refine ⟨pe, ?_, me⟩
    simp only [closestLineLine]
    rw [if_pos (by simpa only [sinSq] using h)]; exact re
  · have sq : ∀ a b : Fin d → K, (∑ k, (b k - a k) ^ 2) = innerProd (b - a) (b - a) := by
      intro a b; exact Finset.sum_congr rfl fun k _ => by simp [pow_two]
    obtain ⟨pr, h1, h2, _⟩ := C41_optimal_partial v0 v1 w0 w1 hv hw (Or.inr (Or.inl (by rw [sq, sq]; exact not_lt.1 h)))
    exact ⟨pr, h1, h2⟩

/-- The returned pair does not follow the order of the arguments: for the parallel segments from (0,0) to (1,0) and from
(0,1) to (1,1) the first returned point is on the second segment and not on the first one. -/
theorem C41_violated_order :
    let v0 : Fin 2 → Rat := ![0, 0]
    let v1 : Fin 2 → Rat := ![1, 0]
    let w0 : Fin 2 → Rat := ![0, 1]
    let w1 : Fin 2 → Rat := ![1, 1]
    ∃ pr, closestLineLine v0 v1 w0 w1 = some pr ∧ ¬ ConvexComb [v0, v1] pr.1 ∧ ¬ ConvexComb [w0, w1] pr.2 := by
  refine ⟨(![0, 1], ![0, 0]), by decide +kernel, ?_, ?_⟩ <;>
  · rw [convexComb2]
    rintro ⟨t, _, _, h⟩
    have := congrFun h 1
    simp at this

/-- The returned pair is not the closest one for nearly parallel segments which cross: the segments from (-1,0) to (1,0)
and from (-1,-1/2000) to (1,1/2000) have the point (0,0) in common, but the returned points have a distance of
at least 1/2001. -/
theorem C41_violated_distance :
    let v0 : Fin 2 → Rat := ![-1, 0]
    let v1 : Fin 2 → Rat := ![1, 0]
    let w0 : Fin 2 → Rat := ![-1, -1/2000]
    let w1 : Fin 2 → Rat := ![1, 1/2000]
    ConvexComb [v0, v1] ![0, 0] ∧ ConvexComb [w0, w1] ![0, 0]
    ∧ ∃ pr, closestLineLine v0 v1 w0 w1 = some pr ∧ (1 / 2001) ^ 2 ≤ sqDist pr.1 pr.2 := by
  refine ⟨(convexComb2 _ _ _).2 ⟨1/2, by norm_num, by norm_num, ?_⟩, (convexComb2 _ _ _).2 ⟨1/2, by norm_num, by norm_num, ?_⟩,
    (closestLineLine (![-1, 0] : Fin 2 → Rat) ![1, 0] ![-1, -1/2000] ![1, 1/2000]).getD 0, ?_, ?_⟩ <;> decide +kernel

example : closestLineLine (![0, 0, 0] : Fin 3 → Rat) ![2, 0, 0] ![1, -1, 1] ![1, 1, 1] = some (![1, 0, 0], ![1, 0, 1])
    ∧ closestLineLine (![0, 0, 0] : Fin 3 → Rat) ![2, 0, 0] ![3, 1, 0] ![3, 5, 0] = some (![3, 1, 0], ![2, 0, 0])
    ∧ 1 / 1000000 * (∑ k, ((![2, 0, 0] : Fin 3 → Rat) k - (![0, 0, 0] : Fin 3 → Rat) k) ^ 2)
        * (∑ k, ((![1, 1, 1] : Fin 3 → Rat) k - (![1, -1, 1] : Fin 3 → Rat) k) ^ 2)
        ≤ sinSq (![0, 0, 0] : Fin 3 → Rat) ![2, 0, 0] ![1, -1, 1] ![1, 1, 1] := by
  refine ⟨by decide +kernel, by decide +kernel, by decide +kernel⟩

/-! ### C62 -/

omit [IsStrictOrderedRing K] in
/-- The loop over pairs: the pair held at the end is the one held before or one of the list, and none is shorter. -/
theorem closer_fold (l : List (Option ((Fin d → K) × (Fin d → K)))) :
    ∀ b, (∀ pr, l.foldl (fun acc o => (o.map (closerPair acc)).getD acc) b = some pr →
        (b = some pr ∨ some pr ∈ l) ∧ (∀ c, b = some c → pairDist pr ≤ pairDist c)
          ∧ ∀ c, some c ∈ l → pairDist pr ≤ pairDist c)
      ∧ (l.foldl (fun acc o => (o.map (closerPair acc)).getD acc) b = none ↔ b = none ∧ ∀ o ∈ l, o = none) := by
  induction l with
  | nil =>
    intro b
    refine ⟨fun pr h => ⟨Or.inl h, fun c hc => ?_, by simp⟩, by simp⟩
    rw [List.foldl_nil] at h; rw [h] at hc; cases hc; exact le_rfl
  | cons o l ih =>
    intro b
    rw [List.foldl_cons]
    obtain ⟨h1, h2⟩ := ih ((o.map (closerPair b)).getD b)
    cases o with
    | none =>
      refine ⟨fun pr h => ?_, ?_⟩
      · obtain ⟨g1, g2, g3⟩ := h1 pr h
        refine ⟨g1.imp id (List.mem_cons_of_mem _), g2, fun c hc => ?_⟩
        rw [List.mem_cons] at hc
        rcases hc with hc | hc
        · cases hc
        · exact g3 c hc
      · rw [h2]; simp
    | some q =>
      cases b with
      | none =>
        refine ⟨fun pr h => ?_, ?_⟩
        · obtain ⟨g1, g2, g3⟩ := h1 pr h
          refine ⟨Or.inr ?_, by simp, fun c hc => ?_⟩
          · rcases g1 with g1 | g1
            · have g1 : some q = some pr := g1
              rw [g1]; exact List.mem_cons_self
            · exact List.mem_cons_of_mem _ g1
          · rw [List.mem_cons] at hc
            rcases hc with hc | hc
            · exact g2 c (by rw [hc]; rfl)
            · exact g3 c hc
        · rw [h2]; simp [closerPair]
      | some r =>
        have e : ((some q).map (closerPair (some r))).getD (some r) = if pairDist q < pairDist r then some q else some r :=
          rfl
        rw [e] at h1 h2 ⊢
        by_cases hlt : pairDist q < pairDist r
        · rw [if_pos hlt] at h1 h2 ⊢
          refine ⟨fun pr h => ?_, ?_⟩
          · obtain ⟨g1, g2, g3⟩ := h1 pr h
            refine ⟨Or.inr ?_, fun c hc => ?_, fun c hc => ?_⟩
            · rcases g1 with g1 | g1
              · rw [g1]; exact List.mem_cons_self
              · exact List.mem_cons_of_mem _ g1
            · cases hc; exact (g2 q rfl).trans hlt.le
            · rw [List.mem_cons] at hc
              rcases hc with hc | hc
              · cases hc; exact g2 _ rfl
              · exact g3 c hc
          · rw [h2]; simp
        · rw [if_neg hlt] at h1 h2 ⊢
          refine ⟨fun pr h => ?_, ?_⟩
          · obtain ⟨g1, g2, g3⟩ := h1 pr h
            refine ⟨g1.imp id (List.mem_cons_of_mem _), g2, fun c hc => ?_⟩
            rw [List.mem_cons] at hc
            rcases hc with hc | hc
            · cases hc; exact (g2 r rfl).trans (not_lt.1 hlt)
            · exact g3 c hc
          · rw [h2]; simp

omit [IsStrictOrderedRing K] in
theorem closestOnBoundary_fold {T : Topo} (hT : T.WF) (near : List (Fin d → K) → Option ((Fin d → K) × (Fin d → K)))
    {m : Mesh (Fin d → K)} (hI : Inv T m) (hu : UniqueVids m) (l : List Nat) (hl : ∀ s ∈ l, s < m.count (T.cellDim - 1)) :
    ∀ (st : MState (Fin d → K)) (a : Option ((Fin d → K) × (Fin d → K))), st.mesh = m → CacheInv T st →
      (l.foldl (fun acc s =>
        let q := acc.1.isBoundary T (T.cellDim - 1) s
        (q.1, if q.2 then ((near (q.1.mesh.pointsOf (T.cellDim - 1) s)).map (closerPair acc.2)).getD acc.2 else acc.2))
        (st, a)).2
      = ((l.filter fun s => numCells T m s % 2 = 1).map fun s => near (m.pointsOf (T.cellDim - 1) s)).foldl
          (fun acc o => (o.map (closerPair acc)).getD acc) a := by
  induction l with
  | nil => intro st a _ _; simp
  | cons s l ih =>
    intro st a hm hc
    obtain ⟨h1, h2, h3⟩ := isBoundary_spec hT (hm ▸ hI) (hm ▸ hu) hc (T.cellDim - 1) s
    have hs := hl s (by simp)
    have hb : (st.isBoundary T (T.cellDim - 1) s).2 = true ↔ numCells T m s % 2 = 1 := by
      have := h3 (Nat.le_refl _) s (hm ▸ hs)
      rw [if_pos rfl] at this
      subst hm
      rw [← this]
      have e : (st.isBoundary T (T.cellDim - 1) s).2
          = ((st.isBoundary T (T.cellDim - 1) s).1.bd (T.cellDim - 1)).data (st.mesh.eid (T.cellDim - 1) s) := by
        rw [← h1]; rfl
      rw [e]
    rw [List.foldl_cons]
    dsimp only
    rw [ih (fun s' hs' => hl s' (List.mem_cons_of_mem _ hs')) _ _ (h1.trans hm) h2, h1, hm, List.filter_cons]
    by_cases ho : numCells T m s % 2 = 1
    · rw [if_pos (hb.2 ho), if_pos (by simpa using ho), List.map_cons, List.foldl_cons]
    · rw [if_neg (fun h => ho (hb.1 h)), if_neg (by simpa using ho)]

/-- The points of the facets for which `is_boundary` holds; `hull` gives the points of a facet with given corners. -/
def OnSurface (T : Topo) (hull : List (Fin d → K) → (Fin d → K) → Prop) (st : MState (Fin d → K)) (x : Fin d → K) : Prop :=
  ∃ s < st.mesh.count (T.cellDim - 1), (st.isBoundary T (T.cellDim - 1) s).2 = true
    ∧ hull (st.mesh.pointsOf (T.cellDim - 1) s) x

omit [IsStrictOrderedRing K] in
/-- `closest_points_on_boundary` of a point and a mesh, after any history of creations, erasures of cells, copies and
queries: the nearest point of all the facets on the boundary, if `closest_points` of the point and each of them is
correct (C40) and there is a facet on the boundary. -/
theorem C62_closest_on_boundary {T : Topo} (hT : LibTopo T) (hull : List (Fin d → K) → (Fin d → K) → Prop)
    (near : List (Fin d → K) → Option ((Fin d → K) × (Fin d → K))) (p : Fin d → K) {st : MState (Fin d → K)}
    (h : Reached T st)
    (hnear : ∀ s < st.mesh.count (T.cellDim - 1), (st.isBoundary T (T.cellDim - 1) s).2 = true →
      ∃ q, near (st.mesh.pointsOf (T.cellDim - 1) s) = some (p, q)
        ∧ IsNearest (hull (st.mesh.pointsOf (T.cellDim - 1) s)) p q)
    (hne : ∃ s < st.mesh.count (T.cellDim - 1), (st.isBoundary T (T.cellDim - 1) s).2 = true) :
    ∃ q, (st.closestOnBoundary T near).2 = some (p, q) ∧ IsNearest (OnSurface T hull st) p q := by
  have hI := h.inv hT.wf
  have hR := h
  obtain ⟨_, _, _, hu⟩ := h
  have hb : ∀ s < st.mesh.count (T.cellDim - 1),
      (st.isBoundary T (T.cellDim - 1) s).2 = true ↔ numCells T st.mesh s % 2 = 1 := by
    intro s hs; rw [isBoundary_iff hT hR (Nat.le_refl _) hs, if_pos rfl]
  rw [MState.closestOnBoundary, closestOnBoundary_fold hT.wf near hI.inv hu _ (fun s hs => List.mem_range.1 hs) st none
    rfl hI.cache]
  generalize hl : (((List.range (st.mesh.count (T.cellDim - 1))).filter fun s => numCells T st.mesh s % 2 = 1).map
    fun s => near (st.mesh.pointsOf (T.cellDim - 1) s)) = l
  have mem : ∀ o, o ∈ l ↔ ∃ s < st.mesh.count (T.cellDim - 1), (st.isBoundary T (T.cellDim - 1) s).2 = true
      ∧ near (st.mesh.pointsOf (T.cellDim - 1) s) = o := by
    intro o
    rw [← hl, List.mem_map]
    constructor
    · rintro ⟨s, hs, rfl⟩
      rw [List.mem_filter, List.mem_range] at hs
      exact ⟨s, hs.1, (hb s hs.1).2 (by simpa using hs.2), rfl⟩
    · rintro ⟨s, hs, h1, rfl⟩
      exact ⟨s, by rw [List.mem_filter, List.mem_range]; exact ⟨hs, by simpa using (hb s hs).1 h1⟩, rfl⟩
  obtain ⟨f1, f2⟩ := closer_fold l none
  cases hr : l.foldl (fun acc o => (o.map (closerPair acc)).getD acc) none with
  | none =>
    exfalso
    obtain ⟨s, hs, h1⟩ := hne
    obtain ⟨q, h2, _⟩ := hnear s hs h1
    have := (f2.1 hr).2 _ ((mem _).2 ⟨s, hs, h1, h2⟩)
    cases this
  | some pr =>
    obtain ⟨g1, _, g3⟩ := f1 pr hr
    rcases g1 with g1 | g1
    · cases g1
    obtain ⟨s, hs, h1, h2⟩ := (mem _).1 g1
    obtain ⟨q, h3, h4⟩ := hnear s hs h1
    have e : pr = (p, q) := by rw [h2] at h3; exact Option.some.inj h3
    subst e
    refine ⟨q, rfl, ⟨s, hs, h1, h4.1⟩, ?_⟩
    rintro x ⟨s', hs', h1', hx⟩
    obtain ⟨q', h3', h4'⟩ := hnear s' hs' h1'
    have := g3 (p, q') ((mem _).2 ⟨s', hs', h1', h3'⟩)
    rw [pairDist_eq, pairDist_eq] at this
    exact this.trans (h4'.2 x hx)

/-- `closest_points_impl` of a point and a line given by the list of its end points. -/
def nearLine (p : Fin d → K) : List (Fin d → K) → Option ((Fin d → K) × (Fin d → K))
  | [a, b] => closestPointLine p a b
  | _ => none

example : (squareState.closestOnBoundary (simplexTopo 2) (nearLine ![3, 1/2])).2 = some (![3, 1/2], ![1, 1/2]) := by
  decide +kernel

/-- The hypotheses hold for the boundary of the square and any point. -/
example (p : Fin 2 → Rat) : ∃ q, (squareState.closestOnBoundary (simplexTopo 2) (nearLine p)).2 = some (p, q)
    ∧ IsNearest (OnSurface (simplexTopo 2) ConvexComb squareState) p q := by
  refine C62_closest_on_boundary (Or.inl ⟨2, rfl⟩) ConvexComb (nearLine p) p squareState_reached ?_ ⟨0, by decide +kernel⟩
  have hp : ∀ s < squareState.mesh.count 1, squareState.mesh.pointsOf 1 s
      = [(squareState.mesh.pointsOf 1 s).getD 0 0, (squareState.mesh.pointsOf 1 s).getD 1 0]
      ∧ (squareState.mesh.pointsOf 1 s).getD 0 0 ≠ (squareState.mesh.pointsOf 1 s).getD 1 0 := by decide +kernel
  intro s hs _
  obtain ⟨h1, h2⟩ := hp s hs
  change ∃ q, nearLine p (squareState.mesh.pointsOf 1 s) = _ ∧ IsNearest (ConvexComb (squareState.mesh.pointsOf 1 s)) p q
  rw [h1]
  exact C40_line p _ _ h2

end VG
