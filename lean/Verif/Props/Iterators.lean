import Verif.Model.Iterators
import Verif.Lemmas.Queries
import Mathlib.Order.Basic
import Mathlib.Order.Lattice
import Mathlib.Order.Defs.LinearOrder

/-!
C09 post-increment, C10 distance from a line to a segment, C11 lookup of elements.
-/

namespace VG

variable {P : Type}

/-! ### C09 -/

/-- The contract of post-increment: the old iterator is returned, the iterator has advanced by one. -/
def PostIncContract (inc : It → It × It) : Prop := ∀ it, inc it = (it, it + 1)

/-- C09: post-increment of container and view iterators violates the contract. -/
theorem C09_violated : ¬ PostIncContract postInc := by
  intro h; have := h 0; simp [postInc] at this

/-- C09: it does so at every position; the returned iterator is that of the next element, and at the
last element it is the end iterator, whose dereference is undefined. -/
theorem C09_every_position_wrong {α : Type} (l : List α) (it : It) :
    (postInc it).1 ≠ it ∧ deref l (postInc it).1 = deref l (it + 1) ∧
    (it + 1 = l.length → deref l (postInc it).1 = none) := by
  refine ⟨by simp [postInc], rfl, fun h => ?_⟩
  simp [postInc, deref, h]

/-- C09: post-decrement as well, at every position but the first. -/
theorem C09_decrement_violated (it : It) (h : 0 < it) : (postDec it).1 ≠ it := by
  simp only [postDec, It] at *; omega

/-- C09 holds for the iterators of `static_array`; for the others it does not. -/
theorem C09_static_array_partial : PostIncContract postIncStatic := fun _ => rfl

example : deref [10, 20, 30] (postInc 0).1 = some 20 ∧ deref [10, 20, 30] (postIncStatic 0).1 = some 10 := by
  decide

/-! ### C10 -/

/-- Specification: `v` is the minimum of the list. -/
def IsMin {D : Type} [LE D] (v : D) (ds : List D) : Prop := v ∈ ds ∧ ∀ d ∈ ds, v ≤ d

theorem minLoop_isMin {D : Type} [LinearOrder D] : ∀ (ds : List D) (m : D), IsMin (minLoop m ds) (m :: ds)
  | [], m => ⟨by simp [minLoop], by simp [minLoop]⟩
  | d :: ds, m => by
    obtain ⟨h1, h2⟩ := minLoop_isMin ds (if d < m then d else m)
    simp only [minLoop]
    constructor
    · rcases List.mem_cons.1 h1 with h | h
      · rw [h]; split <;> simp
      · simp [h]
    · intro x hx
      have h3 := h2 _ (List.mem_cons_self (a := if d < m then d else m) (l := ds))
      rcases List.mem_cons.1 hx with rfl | hx
      · refine le_trans h3 ?_
        split
        · rename_i h; exact le_of_lt h
        · exact le_refl _
      · rcases List.mem_cons.1 hx with rfl | hx
        · refine le_trans h3 ?_
          split
          · exact le_refl _
          · rename_i h; exact not_lt.1 h
        · exact h2 x (List.mem_cons_of_mem _ hx)

/-- C10, what the code computes: the minimum over all lines but the first. -/
theorem C10_distance_skips_first_line {D : Type} [LinearOrder D] (d0 d1 : D) (ds : List D) :
    ∃ v, lineSegmentDistance postInc (d0 :: d1 :: ds) = .value (some v) ∧ IsMin v (d1 :: ds) := by
  refine ⟨minLoop d1 (d1 :: ds), by simp [lineSegmentDistance, postInc, deref], ?_⟩
  obtain ⟨h1, h2⟩ := minLoop_isMin (d1 :: ds) d1
  refine ⟨by simpa using h1, fun d hd => h2 d (by simp at hd ⊢; tauto)⟩

/-- C10: for a segment with exactly one line the end iterator is dereferenced. -/
theorem C10_one_line_undefined {D : Type} [LinearOrder D] (d : D) :
    lineSegmentDistance postInc [d] = .undefined := by
  simp [lineSegmentDistance, postInc, deref]

/-- C10 is violated: the distance to a segment with lines at distance 1 and 2 is 2. -/
theorem C10_violated :
    ∃ (ds : List Nat) (v : Nat), lineSegmentDistance postInc ds = .value (some v) ∧ ¬ IsMin v ds :=
  ⟨[1, 2], 2, by decide, fun h => absurd (h.2 1 (by simp)) (by decide)⟩

/-- C10.  The full statement: for all `ds`, the value is -1 for the empty list and the minimum
otherwise.  Proved for the empty list and whenever some later line is at most as far as the first. -/
theorem C10_distance_partial {D : Type} [LinearOrder D] :
    lineSegmentDistance postInc ([] : List D) = .value none ∧
    ∀ (d0 : D) (ds : List D), (∃ d ∈ ds, d ≤ d0) →
      ∃ v, lineSegmentDistance postInc (d0 :: ds) = .value (some v) ∧ IsMin v (d0 :: ds) := by
  refine ⟨rfl, ?_⟩
  rintro d0 ds ⟨d, hd, hle⟩
  match ds, hd with
  | d1 :: ds, hd =>
    obtain ⟨v, h1, h2, h3⟩ := C10_distance_skips_first_line d0 d1 ds
    refine ⟨v, h1, List.mem_cons_of_mem _ h2, fun x hx => ?_⟩
    rcases List.mem_cons.1 hx with rfl | hx
    · exact le_trans (h3 d hd) hle
    · exact h3 x hx

/-- C10: with a post-increment that keeps its contract the loop is right. -/
theorem C10_right_with_contract_partial {D : Type} [LinearOrder D] {inc : It → It × It}
    (h : PostIncContract inc) (d0 : D) (ds : List D) :
    ∃ v, lineSegmentDistance inc (d0 :: ds) = .value (some v) ∧ IsMin v (d0 :: ds) :=
  ⟨minLoop d0 ds, by simp [lineSegmentDistance, h 0, deref], minLoop_isMin ds d0⟩

example : (∃ d ∈ [5, 3, 4], d ≤ 7) ∧ lineSegmentDistance postInc [7, 5, 3, 4] = .value (some 3) := by decide

/-! ### C11 -/

/-- C11: after any history of creations, lookup by id finds exactly the element with that id.  The ids
must be unique, which C01 grants only partly. -/
theorem C11_find_by_id {T : Topo} (hT : T.WF) {m : Mesh P} (hb : Built T m) (k : Nat) (id : Int) (s : Nat) :
    m.findById k id = some s ↔ s < m.count k ∧ m.eid k s = id := by
  have hI := hb.inv hT
  obtain ⟨_, _, _, hu⟩ := hb
  unfold Mesh.findById
  rw [List.findIdx?_eq_some_iff_getElem]
  constructor
  · rintro ⟨h, h1, _⟩
    simp only [Mesh.idsOf, List.length_map, List.length_range, List.getElem_map, List.getElem_range,
      beq_iff_eq] at h h1
    exact ⟨h, h1⟩
  · rintro ⟨h, h1⟩
    refine ⟨by simpa [Mesh.idsOf] using h, by simpa [Mesh.idsOf] using h1, ?_⟩
    intro j hj
    simp only [Mesh.idsOf, List.getElem_map, List.getElem_range, beq_iff_eq]
    intro h2
    have := eid_inj hI hu (k := k) (a := j) (b := s) (by omega) h (h2.trans h1.symm)
    omega

/-- C11: `end()` is returned iff no element has that id. -/
theorem C11_find_by_id_end (m : Mesh P) (k : Nat) (id : Int) :
    m.findById k id = none ↔ ∀ s < m.count k, m.eid k s ≠ id := by
  unfold Mesh.findById
  rw [List.findIdx?_eq_none_iff]
  constructor
  · intro h s hs
    have := h (m.eid k s) (List.mem_map.2 ⟨s, by simpa using hs, rfl⟩)
    simpa using this
  · intro h x hx
    obtain ⟨s, hs, rfl⟩ := List.mem_map.1 hx
    simpa using h s (by simpa using hs)

/-- C11: lookup by handle. -/
theorem C11_find_by_handle (m : Mesh P) (k h s : Nat) :
    m.findByHandle k h = some s ↔ s < m.count k ∧ s = h := by
  unfold Mesh.findByHandle
  rw [List.findIdx?_eq_some_iff_getElem]
  constructor
  · rintro ⟨h1, h2, _⟩
    simp at h1 h2
    exact ⟨h1, h2⟩
  · rintro ⟨h1, rfl⟩
    refine ⟨by simpa using h1, by simp, ?_⟩
    intro j hj
    simp only [List.getElem_range, beq_iff_eq]
    omega

/-- C11: an element keeps its handle, its id and its vertices however many elements are created
afterwards. -/
theorem C11_handles_are_stable {T : Topo} (hT : T.WF) {ops : List (MOp P)} {m m' : Mesh P}
    (hb : Built T m) (hd : ∀ op ∈ ops, op.Distinct) (hr : m.run T ops = some m') (hu : UniqueVids m')
    {k s : Nat} {e : Elem} (hs : (m.elems k)[s]? = some e) : (m'.elems k)[s]? = some e := by
  have : ∀ (ops : List (MOp P)) (m : Mesh P), Inv T m → (∀ op ∈ ops, op.Distinct) →
      m.run T ops = some m' → m.elems k <+: m'.elems k := by
    intro ops
    induction ops with
    | nil => intro m _ _ h; simp [Mesh.run] at h; subst h; exact List.prefix_refl _
    | cons op ops ih =>
      intro m hI hd h
      simp only [Mesh.run] at h
      obtain ⟨m1, h1, h2⟩ := Option.bind_eq_some_iff.1 h
      have hu0 : UniqueVids m := (hu.of_prefix (run_verts h2)).of_prefix (step_verts h1)
      refine List.IsPrefix.trans ?_ (ih m1 (step_inv hT hI hu0 (hd op (by simp)) h1)
        (fun o ho => hd o (by simp [ho])) h2)
      cases op with
      | vertex id p => simp [Mesh.step] at h1; subst h1; exact List.prefix_refl _
      | elem d vs =>
        simp only [Mesh.step] at h1
        split at h1
        · rename_i hc
          simp only [Option.some.injEq] at h1
          subst h1
          exact (makeElem_spec hT hI hu0 hc.1 ⟨hd (.elem d vs) (by simp), hc.2.2.1, hc.2.2.2⟩).ext.elems k
        · cases h1
  exact prefix_getElem? (this ops m (hb.inv hT) hd hr) hs

/-- A mesh with explicit ids. -/
def explicitIds : List (MOp Unit) :=
  [.vertex (some 7) (), .vertex none (), .vertex (some 2) (), .elem 2 [0, 1, 2]]

def explicitIdsMesh : Mesh Unit := (Mesh.empty.run (simplexTopo 2) explicitIds).getD Mesh.empty

example : Built (simplexTopo 2) explicitIdsMesh ∧
    explicitIdsMesh.findById 0 8 = some 1 ∧ explicitIdsMesh.findById 0 3 = none ∧
    explicitIdsMesh.findById 1 2 = some 2 :=
  ⟨⟨explicitIds, by simp [explicitIds, MOp.Distinct], rfl, by unfold UniqueVids; decide⟩,
    by decide, by decide, by decide⟩

end VG
