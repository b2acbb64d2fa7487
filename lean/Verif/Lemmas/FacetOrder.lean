import Verif.Lemmas.OpenDx

/-!
The order in which the vertices of facets are stored when only cells are created.
-/

namespace VG

variable {P : Type}

theorem genFaces_new {ins : Nat → Mesh P → List Nat → InsRes P} {k j : Nat}
    (h : ∀ m vs, ∀ f ∈ (ins k m vs).mesh.elems j, f ∈ m.elems j ∨ (k = j ∧ f.verts = vs)) (vs : List Nat) :
    ∀ idxs m, ∀ f ∈ (genFaces ins vs k idxs m).1.elems j,
      f ∈ m.elems j ∨ ∃ ix ∈ idxs, k = j ∧ f.verts = pick vs ix
  | [], _, f, hf => Or.inl hf
  | ix :: rest, m, f, hf => by
    rcases genFaces_new h vs rest _ f hf with h1 | ⟨iy, hy, h2⟩
    · rcases h m (pick vs ix) f h1 with h3 | h3
      · exact Or.inl h3
      · exact Or.inr ⟨ix, by simp, h3⟩
    · exact Or.inr ⟨iy, by simp [hy], h2⟩

theorem genLayers_new {ins : Nat → Mesh P → List Nat → InsRes P} {j : Nat} (vs : List Nat) :
    ∀ (ls : List (Nat × List (List Nat))) (_ : ∀ l ∈ ls, ∀ m vs, ∀ f ∈ (ins l.1 m vs).mesh.elems j,
        f ∈ m.elems j ∨ (l.1 = j ∧ f.verts = vs)) (m : Mesh P),
      ∀ f ∈ (genLayers ins vs ls m).1.elems j,
        f ∈ m.elems j ∨ ∃ l ∈ ls, ∃ ix ∈ l.2, l.1 = j ∧ f.verts = pick vs ix
  | [], _, _, f, hf => Or.inl hf
  | (k, idxs) :: rest, h, m, f, hf => by
    rcases genLayers_new vs rest (fun l hl => h l (by simp [hl])) _ f hf with h1 | ⟨l, hl, h2⟩
    · rcases genFaces_new (h (k, idxs) (by simp)) vs idxs m f h1 with h3 | ⟨ix, hx, h3⟩
      · exact Or.inl h3
      · exact Or.inr ⟨(k, idxs), by simp, ix, hx, h3⟩
    · exact Or.inr ⟨l, by simp [hl], h2⟩

/-- An insertion in dimension `d` adds to dimensions from `d` on at most the element itself. -/
theorem insertN_new {T : Topo} (hT : T.WF) {j : Nat} : ∀ fuel d, d ≤ j → ∀ (m : Mesh P) vs,
    ∀ f ∈ (insertN T fuel d m vs).mesh.elems j, f ∈ m.elems j ∨ (d = j ∧ f.verts = vs) := by
  have hp : ∀ (m : Mesh P) d vs b, ∀ f ∈ (m.push d vs b).elems j, f ∈ m.elems j ∨ (d = j ∧ f.verts = vs) := by
    intro m d vs b f hf
    simp only [Mesh.push] at hf
    split at hf
    · rename_i hj
      subst hj
      rcases List.mem_append.1 hf with hf | hf
      · exact Or.inl hf
      · simp only [List.mem_singleton] at hf
        exact Or.inr ⟨rfl, by rw [hf]⟩
    · exact Or.inl hf
  intro fuel
  induction fuel with
  | zero =>
    intro d _ m vs f hf; unfold insertN at hf; split at hf
    · exact Or.inl hf
    · exact hp _ _ _ _ f hf
  | succ n ih =>
    intro d hd m vs f hf; unfold insertN at hf; split at hf
    · exact Or.inl hf
    · rcases hp _ _ _ _ f hf with h1 | h1
      · rcases genLayers_new vs (T.layers d vs.length) (fun l hl m vs => ih l.1 (by have := hT.dim d _ l.1 l.2 hl; omega) m vs) m f h1
          with h2 | ⟨l, hl, _, _, h3, _⟩
        · exact Or.inl h2
        · have := hT.dim d _ l.1 l.2 hl
          omega
      · exact Or.inr h1

theorem insertN_cell {T : Topo} (m : Mesh P) (vs : List Nat) (hn : 1 ≤ T.cellDim) :
    insertN T T.cellDim T.cellDim m vs
      = ⟨(genLayers (insertN T (T.cellDim - 1)) vs (T.layers T.cellDim vs.length) m).1.push T.cellDim vs
          (genLayers (insertN T (T.cellDim - 1)) vs (T.layers T.cellDim vs.length) m).2, (m.elems T.cellDim).length, true⟩ := by
  conv_lhs => unfold insertN
  rw [if_pos rfl]
  split
  · contradiction
  · split
    · omega
    · rename_i g hg
      have : g = T.cellDim - 1 := by omega
      subst this
      rfl

/-- The facets a cell creates have its corners in the order of the table. -/
theorem makeElem_new_facet {T : Topo} (hT : T.WF) (m : Mesh P) (vs : List Nat) {f : Elem}
    (hf : f ∈ (m.makeElem T T.cellDim vs).mesh.elems (T.cellDim - 1)) (hn : 1 ≤ T.cellDim) :
    f ∈ m.elems (T.cellDim - 1)
    ∨ ∃ idxs ix, (T.cellDim - 1, idxs) ∈ T.layers T.cellDim vs.length ∧ ix ∈ idxs ∧ f.verts = pick vs ix := by
  unfold Mesh.makeElem at hf
  rw [insertN_cell m vs hn] at hf
  simp only [Mesh.push, if_neg (show ¬ T.cellDim - 1 = T.cellDim by omega)] at hf
  rcases genLayers_new vs (T.layers T.cellDim vs.length)
      (fun l hl m vs => insertN_new hT _ l.1 (by have := hT.dim _ _ l.1 l.2 hl; omega) m vs) m f hf
    with h2 | ⟨l, hl, ix, hx, h3, h4⟩
  · exact Or.inl h2
  · exact Or.inr ⟨l.2, ix, by rw [← h3]; exact hl, hx, h4⟩

/-- Every facet has the corners of one of the cells in the order of the table. -/
def FacetsAsCells (T : Topo) (m : Mesh P) : Prop :=
  ∀ f ∈ m.elems (T.cellDim - 1), ∃ e ∈ m.elems T.cellDim, ∃ idxs ix,
    (T.cellDim - 1, idxs) ∈ T.layers T.cellDim e.verts.length ∧ ix ∈ idxs ∧ f.verts = pick e.verts ix

theorem step_facetsAsCells {T : Topo} (hT : T.WF) (hn : 1 ≤ T.cellDim) {m m' : Mesh P} {op : MOp P}
    (hm : FacetsAsCells T m) (hc : op.CellsOnly T) (h : m.step T op = some m') : FacetsAsCells T m' := by
  cases op with
  | vertex id p =>
    simp only [Mesh.step, Option.some.injEq] at h
    subst h
    exact hm
  | elem d vs =>
    have hd : d = T.cellDim := hc
    subst hd
    simp only [Mesh.step] at h
    split at h
    · simp only [Option.some.injEq] at h
      subst h
      have hcells : (m.makeElem T T.cellDim vs).mesh.elems T.cellDim
          = m.elems T.cellDim ++ [⟨(genLayers (insertN T (T.cellDim - 1)) vs (T.layers T.cellDim vs.length) m).1.nextId T.cellDim, vs,
            (genLayers (insertN T (T.cellDim - 1)) vs (T.layers T.cellDim vs.length) m).2⟩] := by
        unfold Mesh.makeElem
        rw [insertN_cell m vs hn]
        have := genLayers_other (S := fun k => k < T.cellDim) (j := T.cellDim)
          (fun k m vs hk => insertN_other (S := fun k => k < T.cellDim)
            (fun d _ hd l hl => lt_trans (hT.dim d _ l.1 l.2 hl).2 hd) (lt_irrefl _) (T.cellDim - 1) k m vs hk)
          vs (T.layers T.cellDim vs.length) m (fun l hl => (hT.dim _ _ l.1 l.2 hl).2)
        simp only [Mesh.push, if_pos, this]
      intro f hf
      rcases makeElem_new_facet hT m vs hf hn with h1 | ⟨idxs, ix, h1, h2, h3⟩
      · obtain ⟨e, he, h2⟩ := hm f h1
        exact ⟨e, by rw [hcells]; simp [he], h2⟩
      · exact ⟨_, by rw [hcells]; exact List.mem_append_right _ (List.mem_singleton.2 rfl), idxs, ix, h1, h2, h3⟩
    · cases h

/-- Operations which erase nothing. -/
def QOp.Keeps : QOp P → Prop
  | .eraseCell _ => False
  | _ => True

theorem qrun_facetsAsCells {T : Topo} (hT : T.WF) (hn : 1 ≤ T.cellDim) : ∀ {ops : List (QOp P)} {st st' : MState P},
    FacetsAsCells T st.mesh → (∀ op ∈ QOp.meshOps ops, op.CellsOnly T) → (∀ op ∈ ops, op.Keeps) →
    st.run T ops = some st' → FacetsAsCells T st'.mesh
  | [], st, st', hm, _, _, h => by simp [MState.run] at h; subst h; exact hm
  | op :: ops, st, st', hm, hc, hk, h => by
    simp only [MState.run] at h
    obtain ⟨s1, h1, h2⟩ := Option.bind_eq_some_iff.1 h
    have hk' : ∀ o ∈ ops, o.Keeps := fun o ho => hk o (by simp [ho])
    have hk0 := hk op (by simp)
    cases op with
    | eraseCell t => exact hk0.elim
    | mesh op =>
      refine qrun_facetsAsCells hT hn ?_ (fun o ho => hc o (by simp [QOp.meshOps, ho])) hk' h2
      simp only [MState.step] at h1
      obtain ⟨m, h3, rfl⟩ := Option.map_eq_some_iff.1 h1
      exact step_facetsAsCells hT hn hm (hc op (by simp [QOp.meshOps])) h3
    | copy =>
      refine qrun_facetsAsCells hT hn ?_ (fun o ho => hc o (by simpa [QOp.meshOps] using ho)) hk' h2
      simp only [MState.step, Option.some.injEq] at h1
      subst h1
      exact hm
    | coboundary k d s =>
      refine qrun_facetsAsCells hT hn ?_ (fun o ho => hc o (by simpa [QOp.meshOps] using ho)) hk' h2
      simp only [MState.step, Option.some.injEq] at h1
      rw [← h1, show (st.coboundary k d s).1.mesh = st.mesh from ?_]
      · exact hm
      · unfold MState.coboundary
        simp only
        rw [refreshCob_mesh]
    | neighbors d c t =>
      refine qrun_facetsAsCells hT hn ?_ (fun o ho => hc o (by simpa [QOp.meshOps] using ho)) hk' h2
      simp only [MState.step, Option.some.injEq] at h1
      rw [← h1, show (st.neighbors d c t).1.mesh = st.mesh from ?_]
      · exact hm
      · exact neighbors_mesh st d c t
    | isBoundary k s =>
      refine qrun_facetsAsCells hT hn ?_ (fun o ho => hc o (by simpa [QOp.meshOps] using ho)) hk' h2
      simp only [MState.step, Option.some.injEq] at h1
      rw [← h1, show (st.isBoundary T k s).1.mesh = st.mesh from ?_]
      · exact hm
      · exact isBoundary_mesh T st k s

end VG
