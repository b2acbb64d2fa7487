import Verif.Model.IdGen
import Mathlib.Tactic.Linarith
import Mathlib.Data.List.Nodup
import Mathlib.Data.List.Range

/-!
C01 ids are unique, C02 `id_upper_bound` is an exclusive bound.
-/

namespace VG

/-- Specification: the caller only passes explicit ids which no element carries yet. -/
def FreshIds : IdMesh → List IdOp → Prop
  | _, [] => True
  | m, none :: h => FreshIds (m.create none) h
  | m, some i :: h => i ∉ m.ids ∧ FreshIds (m.create (some i)) h

/-- C01 is violated: on a fresh mesh, creating an element with explicit id 0 and then one
without an id gives two elements with id 0. -/
theorem C01_ids_unique_violated :
    ¬ ∀ h : List IdOp, FreshIds IdMesh.empty h → (IdMesh.empty.run h).ids.Nodup := by
  intro hall
  have := hall [some 0, none] (by simp [FreshIds, IdMesh.empty])
  revert this
  decide

/-- C02 is violated: on a fresh mesh with one element of explicit id 0 the bound is 0. -/
theorem C02_upper_bound_violated :
    ¬ ∀ h : List IdOp, FreshIds IdMesh.empty h →
      ∀ i ∈ (IdMesh.empty.run h).ids, i < (IdMesh.empty.run h).idUpperBound := by
  intro hall
  have := hall [some 0] (by simp [FreshIds, IdMesh.empty]) 0 (by decide)
  revert this
  decide

/-- The defect is not limited to a fresh mesh: whenever an explicit id equals the current
`id_upper_bound`, the next creation without an id repeats it. -/
theorem C01_collision_from_any_state (m : IdMesh) (h : List IdOp) :
    ¬ (m.run (h ++ [some (m.run h).idUpperBound, none])).ids.Nodup := by
  simp only [IdMesh.run, List.foldl_append, List.foldl_cons, List.foldl_nil, IdMesh.create,
    IdMesh.idUpperBound, setMaxId, lt_irrefl, if_false]
  intro hn
  rw [List.nodup_append] at hn
  exact hn.2.2 _ (List.mem_append_right _ (List.mem_singleton.2 rfl)) _
    (List.mem_singleton.2 rfl) rfl

/-- Histories in which every explicit id is fresh and different from the value
`id_upper_bound` has at that moment. -/
def AvoidsBound : IdMesh → List IdOp → Prop
  | _, [] => True
  | m, none :: h => AvoidsBound (m.create none) h
  | m, some i :: h => i ∉ m.ids ∧ i ≠ m.idUpperBound ∧ AvoidsBound (m.create (some i)) h

private def Inv (m : IdMesh) : Prop := m.ids.Nodup ∧ ∀ i ∈ m.ids, i < m.lastId

private theorem inv_create_none {m : IdMesh} (h : Inv m) : Inv (m.create none) := by
  obtain ⟨h1, h2⟩ := h
  constructor
  · simp only [IdMesh.create]
    rw [List.nodup_append]
    refine ⟨h1, by simp, ?_⟩
    intro a ha b hb
    simp only [List.mem_singleton] at hb
    subst hb
    exact ne_of_lt (h2 a ha)
  · intro i hi
    simp only [IdMesh.create, List.mem_append, List.mem_singleton] at hi ⊢
    rcases hi with hi | hi
    · have := h2 i hi; omega
    · omega

private theorem inv_create_some {m : IdMesh} {i : Int} (h : Inv m) (hf : i ∉ m.ids)
    (hb : i ≠ m.lastId) : Inv (m.create (some i)) := by
  obtain ⟨h1, h2⟩ := h
  constructor
  · simp only [IdMesh.create]
    rw [List.nodup_append]
    refine ⟨h1, by simp, ?_⟩
    intro a ha b hb
    simp only [List.mem_singleton] at hb
    subst hb
    rintro rfl
    exact hf ha
  · intro j hj
    simp only [IdMesh.create, List.mem_append, List.mem_singleton, setMaxId] at hj ⊢
    rcases hj with hj | hj
    · have := h2 j hj; split <;> omega
    · subst hj; split <;> omega

private theorem inv_run (h : List IdOp) : ∀ m, Inv m → AvoidsBound m h → Inv (m.run h) := by
  induction h with
  | nil => intro m hm _; exact hm
  | cons op h ih =>
    intro m hm ha
    cases op with
    | none => exact ih _ (inv_create_none hm) ha
    | some i => exact ih _ (inv_create_some hm ha.1 ha.2.1) ha.2.2

/-- C01, partial: ids are unique for all histories in which every explicit id is fresh and
never equal to the current `id_upper_bound`.  Missing: explicit ids equal to the bound, for
which the claim is false (`C01_collision_from_any_state`). -/
theorem C01_ids_unique_partial (h : List IdOp) (ha : AvoidsBound IdMesh.empty h) :
    (IdMesh.empty.run h).ids.Nodup :=
  (inv_run h IdMesh.empty ⟨by simp [IdMesh.empty], by simp [IdMesh.empty]⟩ ha).1

/-- C02, partial: same histories. -/
theorem C02_upper_bound_partial (h : List IdOp) (ha : AvoidsBound IdMesh.empty h) :
    ∀ i ∈ (IdMesh.empty.run h).ids, i < (IdMesh.empty.run h).idUpperBound :=
  (inv_run h IdMesh.empty ⟨by simp [IdMesh.empty], by simp [IdMesh.empty]⟩ ha).2

/-- The hypothesis is met by a history mixing both kinds of creation, with gaps. -/
example : AvoidsBound IdMesh.empty [none, none, some 7, none, some 5, some (-3), none] := by
  simp [AvoidsBound, IdMesh.empty, IdMesh.create, setMaxId, IdMesh.idUpperBound]

example : (IdMesh.empty.run [none, none, some 7, none, some 5, some (-3), none]).ids
    = [0, 1, 7, 8, 5, -3, 9] := by decide

/-- C01/C02 without explicit ids: the ids are exactly 0, 1, ..., n-1 in creation order and
the bound is n. -/
theorem C01_generated_ids (n : Nat) :
    (IdMesh.empty.run (List.replicate n none)).ids = (List.range n).map (fun k : Nat => (k : Int)) ∧
    (IdMesh.empty.run (List.replicate n none)).idUpperBound = n := by
  induction n with
  | zero => simp [IdMesh.run, IdMesh.empty, IdMesh.idUpperBound]
  | succ n ih =>
    obtain ⟨ih1, ih2⟩ := ih
    have hstep : IdMesh.empty.run (List.replicate (n+1) none)
        = (IdMesh.empty.run (List.replicate n none)).create none := by
      rw [List.replicate_succ']
      simp [IdMesh.run, List.foldl_append]
    rw [hstep]
    simp only [IdMesh.create, IdMesh.idUpperBound] at ih2 ⊢
    rw [ih1, ih2, List.range_succ]
    simp

/-- What the file readers do (io/netgen_reader.hpp:93, io/vtk_reader.hpp `setupVertices`):
explicit ids 0, 1, ..., n-1 on a fresh mesh.  The bound afterwards is n for even n but n-1
for odd n. -/
theorem C02_reader_bound (n : Nat) :
    IdMesh.empty.run ((List.range n).map (fun k : Nat => some (k : Int)))
      = ⟨if n % 2 = 0 then n else n - 1, (List.range n).map (fun k : Nat => (k : Int))⟩ := by
  induction n with
  | zero => rfl
  | succ k ih =>
    rw [List.range_succ, List.map_append]
    simp only [IdMesh.run] at ih ⊢
    rw [List.foldl_append, ih]
    simp only [List.map_cons, List.map_nil, List.foldl_cons, List.foldl_nil, IdMesh.create,
      setMaxId, List.map_append, IdMesh.mk.injEq, and_true]
    push_cast
    split_ifs <;> omega

/-- C01: after reading a file with n vertices, creating one more vertex gives a fresh id if n
is even, and repeats the id of the last vertex read if n is odd. -/
theorem C01_create_after_reading (n : Nat) :
    ((IdMesh.empty.run ((List.range n).map (fun k : Nat => some (k : Int)))).create none).ids.Nodup
      ↔ n % 2 = 0 := by
  rw [C02_reader_bound]
  simp only [IdMesh.create]
  constructor
  · intro hn
    by_contra hodd
    rw [List.nodup_append] at hn
    refine hn.2.2 ((n : Int) - 1) ?_ ((n : Int) - 1) (by simp [hodd]) rfl
    simp only [List.mem_map, List.mem_range]
    exact ⟨n - 1, by omega, by omega⟩
  · intro he
    have : (List.range n).map (fun k : Nat => (k : Int)) ++ [if n % 2 = 0 then (n : Int) else n - 1]
        = (List.range (n+1)).map (fun k : Nat => (k : Int)) := by
      rw [List.range_succ]; simp [he]
    rw [this]
    exact List.Nodup.map (fun a b h => by simpa using h) List.nodup_range

end VG
