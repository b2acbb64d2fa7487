import Verif.Model.UniqueVertex
import Mathlib.Algebra.Order.Ring.Rat
import Mathlib.Tactic.NormNum

/-!
C25: `make_unique_vertex`.
-/

namespace VG

variable {P K : Type} [LinearOrder K] [Zero K]

/-- What a call did: it returned an existing vertex and changed nothing, or it appended one vertex
at the location asked for and returned it. -/
inductive UniqueCall (m : Mesh P) (p : P) : Mesh P × Nat → Prop
  | existing (s : Nat) (h : s < m.verts.length) : UniqueCall m p (m, s)
  | created (m' : Mesh P) (i : Int) (h : m'.verts = m.verts ++ [⟨i, p⟩]) (he : m'.elems = m.elems) :
      UniqueCall m p (m', m.verts.length)

/-- C25 with a tolerance: either an existing vertex is returned, which is closer than the tolerance
to `p` and the first such, or all existing vertices are at least the tolerance away and a new vertex
at `p` is appended.  In both cases the vertex returned is closer than the tolerance. -/
theorem C25_tolerance (dist : P → P → K) (hself : ∀ p, dist p p = 0) (m : Mesh P) (p : P) {tol : K}
    (htol : 0 < tol) :
    UniqueCall m p (m.makeUniqueVertex dist p tol) ∧
    ((m.makeUniqueVertex dist p tol).1.verts ≠ m.verts ↔ ∀ v ∈ m.verts, tol ≤ dist p v.pt) ∧
    ∃ v, (m.makeUniqueVertex dist p tol).1.verts[(m.makeUniqueVertex dist p tol).2]? = some v ∧
      dist p v.pt < tol ∧
      ∀ (j : Nat) (w : Vtx P), j < (m.makeUniqueVertex dist p tol).2 → m.verts[j]? = some w →
        tol ≤ dist p w.pt := by
  unfold Mesh.makeUniqueVertex
  rw [if_pos htol]
  cases hf : m.verts.findIdx? (fun v => decide (dist p v.pt < tol)) with
  | some s =>
    obtain ⟨h1, h2, h3⟩ := List.findIdx?_eq_some_iff_getElem.1 hf
    refine ⟨.existing s h1, ?_, m.verts[s], List.getElem?_eq_getElem h1, by simpa using h2, ?_⟩
    · simp only [ne_eq, not_true_eq_false, false_iff]
      intro hall
      have := hall _ (List.getElem_mem h1)
      simp only [decide_eq_true_eq] at h2
      exact absurd h2 (not_lt.2 this)
    · intro j w hj hw
      obtain ⟨h4, h5⟩ := List.getElem?_eq_some_iff.1 hw
      have := h3 j hj
      rw [h5] at this
      simpa using this
  | none =>
    rw [List.findIdx?_eq_none_iff] at hf
    have hall : ∀ v ∈ m.verts, tol ≤ dist p v.pt := by
      intro v hv
      simpa using hf v hv
    refine ⟨.created _ m.vgen rfl rfl, ?_, ⟨m.vgen, p⟩, ?_, ?_, ?_⟩
    · refine ⟨fun _ => hall, fun _ => ?_⟩
      simp [Mesh.makeVertex]
    · simp [Mesh.makeVertex]
    · rw [hself]; exact htol
    · intro j w _ hw
      exact hall w (List.mem_of_getElem? hw)

/-- C25, vertices further apart than the tolerance stay distinct vertices: if all stored vertices are
pairwise at least the tolerance apart then so they are after the call (the meaning of "unique"). -/
theorem C25_separated (dist : P → P → K) (hsymm : ∀ p q, dist p q = dist q p) (m : Mesh P) (p : P)
    {tol : K} (htol : 0 < tol)
    (h : m.verts.Pairwise (fun v w => tol ≤ dist v.pt w.pt)) :
    (m.makeUniqueVertex dist p tol).1.verts.Pairwise (fun v w => tol ≤ dist v.pt w.pt) := by
  unfold Mesh.makeUniqueVertex
  rw [if_pos htol]
  cases hf : m.verts.findIdx? (fun v => decide (dist p v.pt < tol)) with
  | some s => exact h
  | none =>
    rw [List.findIdx?_eq_none_iff] at hf
    simp only [Mesh.makeVertex]
    rw [List.pairwise_append]
    refine ⟨h, by simp, fun v hv w hw => ?_⟩
    simp only [List.mem_singleton] at hw
    subst hw
    rw [hsymm]
    simpa using hf v hv

/-- C25, no tolerance: with a tolerance that is not positive a new vertex is always created. -/
theorem C25_no_tolerance (dist : P → P → K) (m : Mesh P) (p : P) {tol : K} (htol : tol ≤ 0) :
    m.makeUniqueVertex dist p tol = (m.makeVertex none p, m.verts.length) := by
  unfold Mesh.makeUniqueVertex
  rw [if_neg (not_lt.2 htol)]

/-- C25 without a tolerance argument.  Full statement: if a vertex at the location `p` exists, one at
the location `p` is returned and none is created; otherwise one is created.  That is false, see
`C25_violated_at_origin` and `C25_violated_nearby`.  Proved: for points away from the origin no
vertex is created if one at `p` exists, the vertex returned is within a millionth of the norm of
`p`, and a vertex is created if none is that close. -/
theorem C25_default_partial (dist : P → P → K) (norm : P → K) (scale : K → K)
    (hscale : ∀ x, 0 < x → 0 < scale x) (hself : ∀ p, dist p p = 0) (m : Mesh P) (p : P)
    (hp : 0 < norm p) :
    ((∃ v ∈ m.verts, v.pt = p) → (m.makeUniqueVertexDefault dist norm scale p).1 = m) ∧
    ((∀ v ∈ m.verts, scale (norm p) ≤ dist p v.pt) →
      (m.makeUniqueVertexDefault dist norm scale p) = (m.makeVertex none p, m.verts.length)) ∧
    ∃ v, (m.makeUniqueVertexDefault dist norm scale p).1.verts[
        (m.makeUniqueVertexDefault dist norm scale p).2]? = some v ∧ dist p v.pt < scale (norm p) := by
  have hs := hscale _ hp
  obtain ⟨h1, h2, v, h3, h4, _⟩ := C25_tolerance dist hself m p hs
  refine ⟨?_, ?_, v, h3, h4⟩
  · rintro ⟨w, hw, rfl⟩
    unfold Mesh.makeUniqueVertexDefault Mesh.makeUniqueVertex
    rw [if_pos hs]
    cases hf : m.verts.findIdx? (fun v => decide (dist w.pt v.pt < scale (norm w.pt))) with
    | some s => rfl
    | none =>
      rw [List.findIdx?_eq_none_iff] at hf
      have := hf w hw
      rw [hself] at this
      simp only [decide_eq_false_iff_not] at this
      exact absurd hs this
  · intro hall
    unfold Mesh.makeUniqueVertexDefault Mesh.makeUniqueVertex
    rw [if_pos hs]
    have : m.verts.findIdx? (fun v => decide (dist p v.pt < scale (norm p))) = none := by
      rw [List.findIdx?_eq_none_iff]
      intro v hv
      simpa using hall v hv
    rw [this]

/-- The distance and the norm of one-dimensional points. -/
def dist1 (p q : Rat) : Rat := max (p - q) (q - p)

/-- Division by a million. -/
def perMillion (x : Rat) : Rat := x / 1000000

/-- The hypotheses of the theorems hold for one-dimensional points. -/
example : (∀ p, dist1 p p = 0) ∧ (∀ p q, dist1 p q = dist1 q p) ∧ (∀ x : Rat, 0 < x → 0 < perMillion x) ∧
    0 < dist1 3 0 := by
  refine ⟨fun p => by simp [dist1], fun p q => by simp [dist1, max_comm], fun x hx => ?_, by decide +kernel⟩
  unfold perMillion; exact div_pos hx (by norm_num)

/-- A mesh with the given points. -/
def pointsMesh (ps : List Rat) : Mesh Rat := ps.foldl (fun m p => m.makeVertex none p) Mesh.empty

/-- C25 violated: at the origin the default tolerance is zero, so a second vertex is created although
one exists at exactly that location. -/
theorem C25_violated_at_origin :
    ((pointsMesh [0]).makeUniqueVertexDefault dist1 (dist1 0) perMillion 0).1.verts.map (·.pt) = [0, 0] := by
  decide +kernel

/-- C25 violated: the first vertex within the tolerance is returned even if another vertex is exactly
at the location asked for. -/
theorem C25_violated_nearby :
    (pointsMesh [10000001 / 10000000, 1]).verts.map (·.pt) = [10000001 / 10000000, 1] ∧
    ((pointsMesh [10000001 / 10000000, 1]).makeUniqueVertexDefault dist1 (dist1 0) perMillion 1).2 = 0 := by
  decide +kernel

/-- Both outcomes of `C25_tolerance` occur. -/
example : ((pointsMesh [1, 5]).makeUniqueVertex dist1 6 2).2 = 1 ∧
    ((pointsMesh [1, 5]).makeUniqueVertex dist1 3 2).2 = 2 := by decide +kernel

end VG
