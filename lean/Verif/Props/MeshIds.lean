import Verif.Lemmas.Reach
import Verif.Props.Ids

/-! Properties C01, C02 for the vertices of whole meshes, where elements are created in between. -/

namespace VG

variable {P : Type}

/-- The ids with which the vertices of a history were created. -/
def vertexIds : List (MOp P) → List IdOp
  | [] => []
  | .vertex id _ :: ops => id :: vertexIds ops
  | .elem _ _ :: ops => vertexIds ops

theorem run_vertexIds {T : Topo} : ∀ (ops : List (MOp P)) (m m' : Mesh P) (s : IdMesh),
    m.verts.map (·.id) = s.ids → m.vgen = s.lastId → m.run T ops = some m' →
    m'.verts.map (·.id) = (s.run (vertexIds ops)).ids ∧ m'.vgen = (s.run (vertexIds ops)).lastId
  | [], m, m', s, h1, h2, h => by
    simp only [Mesh.run, Option.some.injEq] at h
    subst h
    exact ⟨h1, h2⟩
  | .vertex id p :: ops, m, m', s, h1, h2, h => by
    simp only [Mesh.run, Mesh.step, Option.bind_some] at h
    refine run_vertexIds ops _ m' (s.create id) ?_ ?_ h
    · cases id <;> simp [Mesh.makeVertex, IdMesh.create, h1, h2]
    · cases id <;> simp [Mesh.makeVertex, IdMesh.create, h2]
  | .elem d vs :: ops, m, m', s, h1, h2, h => by
    simp only [Mesh.run] at h
    obtain ⟨m1, h3, h4⟩ := Option.bind_eq_some_iff.1 h
    simp only [Mesh.step] at h3
    split at h3
    · simp only [Option.some.injEq] at h3
      subst h3
      obtain ⟨e1, e2⟩ := insertN_verts T d d m vs
      refine run_vertexIds ops _ m' s ?_ ?_ h4
      · rw [Mesh.makeElem, e1, h1]
      · rw [Mesh.makeElem, e2, h2]
    · cases h3

/-- C01, C02, partial, for meshes: the ids of the vertices are different and below the bound, whatever elements are
created in between.  Missing: explicit ids equal to the current `id_upper_bound`. -/
theorem C01_mesh_partial {T : Topo} {ops : List (MOp P)} {m : Mesh P} (h : Mesh.empty.run T ops = some m)
    (ha : AvoidsBound IdMesh.empty (vertexIds ops)) :
    (m.verts.map (·.id)).Nodup ∧ ∀ x ∈ m.verts, x.id < m.vgen := by
  obtain ⟨h1, h2⟩ := run_vertexIds ops Mesh.empty m IdMesh.empty rfl rfl h
  refine ⟨by rw [h1]; exact C01_ids_unique_partial _ ha, fun x hx => ?_⟩
  rw [h2]
  exact C02_upper_bound_partial _ ha _ (by rw [← h1]; exact List.mem_map_of_mem hx)

example : ∃ m : Mesh Unit, Mesh.empty.run (simplexTopo 1)
      [.vertex (some 7) (), .vertex none (), .elem 1 [0, 1], .vertex (some 3) (), .vertex none ()] = some m ∧
    AvoidsBound IdMesh.empty (vertexIds (P := Unit)
      [.vertex (some 7) (), .vertex none (), .elem 1 [0, 1], .vertex (some 3) (), .vertex none ()]) ∧
    m.verts.map (·.id) = [7, 8, 3, 9] := by
  refine ⟨_, rfl, ?_, rfl⟩
  simp [AvoidsBound, vertexIds, IdMesh.empty, IdMesh.create, setMaxId, IdMesh.idUpperBound]

/-- C01, violated, for meshes: whatever was created before, a vertex with the id `id_upper_bound` and then a vertex
without id have the same id. -/
theorem C01_mesh_violated {T : Topo} {ops : List (MOp P)} {m : Mesh P} (h : Mesh.empty.run T ops = some m) (p q : P) :
    ∃ m', m.run T [.vertex (some m.vgen) p, .vertex none q] = some m' ∧ ¬ (m'.verts.map (·.id)).Nodup := by
  refine ⟨_, rfl, ?_⟩
  obtain ⟨h1, h2⟩ := run_vertexIds ops Mesh.empty m IdMesh.empty rfl rfl h
  have h3 := C01_collision_from_any_state IdMesh.empty (vertexIds ops)
  obtain ⟨h4, -⟩ := run_vertexIds (T := T) [.vertex (some m.vgen) p, .vertex none q] m _ _ h1 h2 rfl
  rw [h4]
  have h5 : (IdMesh.empty.run (vertexIds ops ++ [some (IdMesh.empty.run (vertexIds ops)).idUpperBound, none])) =
      (IdMesh.empty.run (vertexIds ops)).run (vertexIds [MOp.vertex (some m.vgen) p, MOp.vertex none q]) := by
    rw [IdMesh.run, List.foldl_append, h2]
    rfl
  rw [← h5]
  exact h3

end VG
