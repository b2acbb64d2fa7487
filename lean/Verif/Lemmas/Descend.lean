import Verif.Lemmas.Reach

/-!
Every element of a mesh goes back to a cell by the boundary tables, with the vertices in the order of the tables.
-/

namespace VG

variable {P : Type}

/-- From the element of dimension `d` with vertices `vs` the boundary tables lead to the element of dimension `j` with
vertices `ws`. -/
inductive Descends (T : Topo) : Nat → List Nat → Nat → List Nat → Prop
  | refl (d : Nat) (vs : List Nat) : Descends T d vs d vs
  | step {d : Nat} {vs : List Nat} {k : Nat} {idxs : List (List Nat)} {ix : List Nat} {j : Nat} {ws : List Nat}
      (hl : (k, idxs) ∈ T.layers d vs.length) (hix : ix ∈ idxs) (h : Descends T k (pick vs ix) j ws) :
      Descends T d vs j ws

/-- What an insertion may add. -/
def OnlyNew (T : Topo) (ins : Nat → Mesh P → List Nat → InsRes P) : Prop :=
  ∀ k m vs j, (∀ f ∈ m.elems j, f ∈ (ins k m vs).mesh.elems j) ∧
    ∀ f ∈ (ins k m vs).mesh.elems j, f ∈ m.elems j ∨ Descends T k vs j f.verts

theorem genFaces_desc {T : Topo} {ins : Nat → Mesh P → List Nat → InsRes P} (hins : OnlyNew T ins) (vs : List Nat)
    (k j : Nat) : ∀ (idxs : List (List Nat)) (m : Mesh P),
    (∀ f ∈ m.elems j, f ∈ (genFaces ins vs k idxs m).1.elems j) ∧
    ∀ f ∈ (genFaces ins vs k idxs m).1.elems j, f ∈ m.elems j ∨ ∃ ix ∈ idxs, Descends T k (pick vs ix) j f.verts
  | [], m => ⟨fun f h => h, fun f h => Or.inl h⟩
  | ix :: rest, m => by
    obtain ⟨h1, h2⟩ := hins k m (pick vs ix) j
    obtain ⟨h3, h4⟩ := genFaces_desc hins vs k j rest (ins k m (pick vs ix)).mesh
    refine ⟨fun f hf => h3 f (h1 f hf), fun f hf => ?_⟩
    rcases h4 f hf with h | ⟨ix', h', h''⟩
    · rcases h2 f h with h | h
      · exact Or.inl h
      · exact Or.inr ⟨ix, by simp, h⟩
    · exact Or.inr ⟨ix', by simp [h'], h''⟩

theorem genLayers_desc {T : Topo} {ins : Nat → Mesh P → List Nat → InsRes P} (hins : OnlyNew T ins) (vs : List Nat)
    (j : Nat) : ∀ (ls : List (Nat × List (List Nat))) (m : Mesh P),
    (∀ f ∈ m.elems j, f ∈ (genLayers ins vs ls m).1.elems j) ∧
    ∀ f ∈ (genLayers ins vs ls m).1.elems j, f ∈ m.elems j ∨
      ∃ l ∈ ls, ∃ ix ∈ l.2, Descends T l.1 (pick vs ix) j f.verts
  | [], m => ⟨fun f h => h, fun f h => Or.inl h⟩
  | (k, idxs) :: rest, m => by
    obtain ⟨h1, h2⟩ := genFaces_desc hins vs k j idxs m
    obtain ⟨h3, h4⟩ := genLayers_desc hins vs j rest (genFaces ins vs k idxs m).1
    refine ⟨fun f hf => h3 f (h1 f hf), fun f hf => ?_⟩
    rcases h4 f hf with h | ⟨l, h', h''⟩
    · rcases h2 f h with h | h
      · exact Or.inl h
      · exact Or.inr ⟨(k, idxs), by simp, h⟩
    · exact Or.inr ⟨l, by simp [h'], h''⟩

theorem mem_push {m : Mesh P} {d j : Nat} {vs : List Nat} {bnd : List (Nat × List BndRef)} {f : Elem} :
    f ∈ (m.push d vs bnd).elems j ↔ f ∈ m.elems j ∨ j = d ∧ f = ⟨m.nextId d, vs, bnd⟩ := by
  unfold Mesh.push
  by_cases h : j = d
  · subst h; simp
  · simp [h]

theorem insertN_desc (T : Topo) : ∀ fuel : Nat, OnlyNew (P := P) T (insertN T fuel) := by
  intro fuel
  induction fuel with
  | zero =>
    intro d m vs j
    unfold insertN
    split
    · exact ⟨fun f h => h, fun f h => Or.inl h⟩
    · simp only [mem_push]
      refine ⟨fun f h => Or.inl h, ?_⟩
      rintro f (h | ⟨rfl, rfl⟩)
      · exact Or.inl h
      · exact Or.inr (.refl _ _)
  | succ fuel ih =>
    intro d m vs j
    unfold insertN
    split
    · exact ⟨fun f h => h, fun f h => Or.inl h⟩
    · obtain ⟨h1, h2⟩ := genLayers_desc ih vs j (T.layers d vs.length) m
      simp only [mem_push]
      refine ⟨fun f h => Or.inl (h1 f h), ?_⟩
      rintro f (h | ⟨rfl, rfl⟩)
      · rcases h2 f h with h | ⟨l, hl, ix, hix, h⟩
        · exact Or.inl h
        · exact Or.inr (.step hl hix h)
      · exact Or.inr (.refl _ _)

theorem makeElem_cell_mem (T : Topo) (m : Mesh P) (vs : List Nat) :
    ∃ e ∈ (m.makeElem T T.cellDim vs).mesh.elems T.cellDim, e.verts = vs := by
  unfold Mesh.makeElem
  have key : ∀ fuel, ∃ e ∈ (insertN T fuel T.cellDim m vs).mesh.elems T.cellDim, e.verts = vs := by
    intro fuel
    unfold insertN
    rw [if_pos rfl]
    cases fuel with
    | zero => exact ⟨_, mem_push.2 (Or.inr ⟨rfl, rfl⟩), rfl⟩
    | succ n => exact ⟨_, mem_push.2 (Or.inr ⟨rfl, rfl⟩), rfl⟩
  exact key _

/-- Every element goes back to a cell. -/
def FromCells (T : Topo) (m : Mesh P) : Prop :=
  ∀ j, ∀ f ∈ m.elems j, ∃ c ∈ m.elems T.cellDim, Descends T T.cellDim c.verts j f.verts

theorem run_fromCells {T : Topo} : ∀ {ops : List (MOp P)} {m m' : Mesh P}, FromCells T m →
    (∀ op ∈ ops, op.CellsOnly T) → m.run T ops = some m' → FromCells T m'
  | [], m, m', h, _, hr => by simp only [Mesh.run, Option.some.injEq] at hr; subst hr; exact h
  | op :: ops, m, m', h, hc, hr => by
    simp only [Mesh.run] at hr
    cases hs : m.step T op with
    | none => rw [hs] at hr; cases hr
    | some m1 =>
      rw [hs, Option.bind_some] at hr
      refine run_fromCells (m := m1) ?_ (fun o ho => hc o (by simp [ho])) hr
      cases op with
      | vertex id p =>
        simp only [Mesh.step, Option.some.injEq] at hs
        subst hs
        exact h
      | elem d vs =>
        have hd : d = T.cellDim := hc (.elem d vs) (by simp)
        subst hd
        simp only [Mesh.step] at hs
        split at hs
        · simp only [Option.some.injEq] at hs
          subst hs
          intro j f hf
          obtain ⟨h1, h2⟩ := insertN_desc T T.cellDim T.cellDim m vs j
          rcases h2 f hf with h' | h'
          · obtain ⟨c, hc1, hc2⟩ := h j f h'
            exact ⟨c, (insertN_desc T T.cellDim T.cellDim m vs T.cellDim).1 c hc1, hc2⟩
          · obtain ⟨e, he1, he2⟩ := makeElem_cell_mem T m vs
            exact ⟨e, he1, by rw [he2]; exact h'⟩
        · cases hs

end VG
