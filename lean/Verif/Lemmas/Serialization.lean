import Verif.Model.Serialization
import Verif.Lemmas.Copy
import Verif.Lemmas.OpenDx

/-! Cells made in meshes that differ in later vertices only, and reading an archive. -/

namespace VG

variable {P : Type}

/-- The same elements, and the same ids of the first `N` vertices, to which all elements belong. -/
structure Sim (N : Nat) (m m' : Mesh P) : Prop where
  elems : m'.elems = m.elems
  next : m'.nextId = m.nextId
  vid : ∀ v < N, m'.vid v = m.vid v
  bound : ∀ d, ∀ e ∈ m.elems d, ∀ v ∈ e.verts, v < N

theorem Sim.key {N : Nat} {m m' : Mesh P} (h : Sim N m m') {vs : List Nat} (hv : ∀ v ∈ vs, v < N) :
    m'.key vs = m.key vs := by
  unfold Mesh.key
  congr 1
  exact List.map_congr_left fun v hv' => h.vid v (hv v hv')

theorem findIdx?_congr' {α : Type} {p q : α → Bool} : ∀ {l : List α}, (∀ a ∈ l, p a = q a) → l.findIdx? p = l.findIdx? q
  | [], _ => rfl
  | a :: l, h => by
    simp only [List.findIdx?_cons, h a List.mem_cons_self]
    rw [findIdx?_congr' fun b hb => h b (List.mem_cons_of_mem _ hb)]

theorem Sim.findSlot {N : Nat} {m m' : Mesh P} (h : Sim N m m') (d : Nat) {vs : List Nat} (hv : ∀ v ∈ vs, v < N) :
    m'.findSlot d vs = m.findSlot d vs := by
  unfold Mesh.findSlot
  rw [h.elems]
  refine findIdx?_congr' fun e he => ?_
  rw [h.key hv, h.key (h.bound d e he)]

theorem Sim.push {N : Nat} {m m' : Mesh P} (h : Sim N m m') (d : Nat) {vs : List Nat} (hv : ∀ v ∈ vs, v < N)
    (b : List (Nat × List BndRef)) : Sim N (m.push d vs b) (m'.push d vs b) := by
  refine ⟨?_, ?_, h.vid, ?_⟩
  · simp only [Mesh.push, h.elems, h.next]
  · simp only [Mesh.push, h.next]
  · intro k e he
    simp only [Mesh.push] at he
    split at he
    · rcases List.mem_append.1 he with he | he
      · exact h.bound d e he
      · simp only [List.mem_singleton] at he
        subst he
        exact hv
    · exact h.bound k e he

/-- The insertion does the same in both meshes. -/
def SimIns (N : Nat) (ins : Nat → Mesh P → List Nat → InsRes P) : Prop :=
  ∀ k m m' vs, Sim N m m' → (∀ v ∈ vs, v < N) →
    Sim N (ins k m vs).mesh (ins k m' vs).mesh ∧ (ins k m' vs).slot = (ins k m vs).slot ∧
      (ins k m' vs).new = (ins k m vs).new

theorem pick_lt {N : Nat} (hN : 0 < N) {vs : List Nat} (hv : ∀ v ∈ vs, v < N) (ix : List Nat) : ∀ v ∈ pick vs ix, v < N := by
  intro v hv'
  simp only [pick, List.mem_map] at hv'
  obtain ⟨i, _, rfl⟩ := hv'
  by_cases hi : i < vs.length
  · rw [List.getD_eq_getElem _ _ hi]
    exact hv _ (List.getElem_mem hi)
  · rw [List.getD_eq_default _ _ (by omega)]
    exact hN

theorem genFaces_sim {N : Nat} (hN : 0 < N) {ins : Nat → Mesh P → List Nat → InsRes P} (hi : SimIns N ins) {vs : List Nat}
    (hv : ∀ v ∈ vs, v < N) (k : Nat) : ∀ (idxs : List (List Nat)) {m m' : Mesh P}, Sim N m m' →
    Sim N (genFaces ins vs k idxs m).1 (genFaces ins vs k idxs m').1 ∧
      (genFaces ins vs k idxs m').2 = (genFaces ins vs k idxs m).2
  | [], _, _, h => ⟨h, rfl⟩
  | ix :: idxs, m, m', h => by
    obtain ⟨h1, h2, h3⟩ := hi k m m' (pick vs ix) h (pick_lt hN hv ix)
    obtain ⟨h4, h5⟩ := genFaces_sim hN hi hv k idxs h1
    refine ⟨h4, ?_⟩
    simp only [genFaces, h2, h3, h5, Mesh.vertsOf, h1.elems]

theorem genLayers_sim {N : Nat} (hN : 0 < N) {ins : Nat → Mesh P → List Nat → InsRes P} (hi : SimIns N ins) {vs : List Nat}
    (hv : ∀ v ∈ vs, v < N) : ∀ (ls : List (Nat × List (List Nat))) {m m' : Mesh P}, Sim N m m' →
    Sim N (genLayers ins vs ls m).1 (genLayers ins vs ls m').1 ∧ (genLayers ins vs ls m').2 = (genLayers ins vs ls m).2
  | [], _, _, h => ⟨h, rfl⟩
  | (k, idxs) :: ls, m, m', h => by
    obtain ⟨h1, h2⟩ := genFaces_sim hN hi hv k idxs h
    obtain ⟨h3, h4⟩ := genLayers_sim hN hi hv ls h1
    refine ⟨h3, ?_⟩
    simp only [genLayers, h2, h4]

theorem insertN_sim {N : Nat} (hN : 0 < N) (T : Topo) : ∀ f, SimIns (P := P) N (insertN T f) := by
  intro f
  induction f with
  | zero =>
    intro k m m' vs h hv
    unfold insertN
    rw [h.findSlot k hv]
    split
    · exact ⟨⟨h.elems, h.next, h.vid, h.bound⟩, rfl, rfl⟩
    · exact ⟨h.push k hv [], by simp only [h.elems], rfl⟩
  | succ f ih =>
    intro k m m' vs h hv
    unfold insertN
    rw [h.findSlot k hv]
    split
    · exact ⟨⟨h.elems, h.next, h.vid, h.bound⟩, rfl, rfl⟩
    · obtain ⟨h1, h2⟩ := genLayers_sim hN ih hv (T.layers k vs.length) h
      refine ⟨?_, by simp only [h.elems], rfl⟩
      simp only [h2]
      exact h1.push k hv _

/-- Cells made one after the other. -/
def cellsMesh (T : Topo) (m : Mesh P) (L : List (List Nat)) : Mesh P :=
  L.foldl (fun m vs => (m.makeElem T T.cellDim vs).mesh) m

theorem cellsMesh_verts (T : Topo) : ∀ (L : List (List Nat)) (m : Mesh P),
    (cellsMesh T m L).verts = m.verts ∧ (cellsMesh T m L).vgen = m.vgen
  | [], m => ⟨rfl, rfl⟩
  | vs :: L, m => by
    obtain ⟨h1, h2⟩ := cellsMesh_verts T L (m.makeElem T T.cellDim vs).mesh
    obtain ⟨h3, h4⟩ := insertN_verts T T.cellDim T.cellDim m vs
    exact ⟨h1.trans h3, h2.trans h4⟩

/-- A history of vertices and cells gives the elements that the cells give when all vertices exist before. -/
theorem cells_last {T : Topo} (hT : T.WF) (hn : 1 ≤ T.cellDim) (hpos : 0 < T.nv T.cellDim) {base : Mesh P} (hb1 : ∀ d, base.elems d = [])
    (hb2 : ∀ d, base.nextId d = 0) : ∀ (ops : List (MOp P)) {m : Mesh P},
    (∀ op ∈ ops, op.Distinct ∧ op.Generated ∧ op.CellsOnly T) → Mesh.empty.run T ops = some m →
    (∀ v < m.verts.length, base.vid v = m.vid v) →
    Sim m.verts.length m (cellsMesh T base ((m.elems T.cellDim).map (·.verts))) := by
  intro ops
  induction ops using List.reverseRecOn with
  | nil =>
    intro m _ h _
    simp only [Mesh.run, Option.some.injEq] at h
    subst h
    refine ⟨?_, ?_, ?_, ?_⟩
    · simp only [cellsMesh, Mesh.empty, List.map_nil, List.foldl_nil]
      funext d
      exact hb1 d
    · simp only [cellsMesh, Mesh.empty, List.map_nil, List.foldl_nil]
      funext d
      exact hb2 d
    · intro v hv
      simp [Mesh.empty] at hv
    · intro d e he
      simp [Mesh.empty] at he
  | append_singleton ops op ih =>
    intro m hops h hvid
    rw [run_append] at h
    obtain ⟨m1, h1, h2⟩ := Option.bind_eq_some_iff.1 h
    simp only [Mesh.run] at h2
    obtain ⟨m2, h3, h4⟩ := Option.bind_eq_some_iff.1 h2
    simp only [Option.some.injEq] at h4
    subst h4
    have hops1 : ∀ o ∈ ops, o.Distinct ∧ o.Generated ∧ o.CellsOnly T := fun o ho => hops o (List.mem_append_left _ ho)
    have hbuilt : Built T m1 := BuiltCells.built ⟨ops, hops1, h1⟩
    have hop := hops op (by simp)
    cases op with
    | vertex id p =>
      simp only [Mesh.step, Option.some.injEq] at h3
      subst h3
      have hv1 : ∀ v < m1.verts.length, (m1.makeVertex id p).vid v = m1.vid v := by
        intro v hv
        simp only [Mesh.vid, Mesh.makeVertex, List.map_append]
        rw [List.getD_append _ _ _ _ (by simpa using hv)]
      have hih := ih hops1 h1 (fun v hv => by
        rw [← hv1 v hv]
        exact hvid v (by simp only [Mesh.makeVertex, List.length_append, List.length_singleton]; omega))
      refine ⟨hih.elems, hih.next, ?_, ?_⟩
      · intro v hv
        rw [← hvid v hv]
        simp only [Mesh.vid]
        rw [(cellsMesh_verts T _ _).1]
      · intro d e he v hv
        have := hih.bound d e he v hv
        simp only [Mesh.makeVertex, List.length_append, List.length_singleton]
        omega
    | elem d vs =>
      simp only [MOp.CellsOnly] at hop
      obtain ⟨hnd, _, rfl⟩ := hop
      simp only [Mesh.step] at h3
      split at h3
      · rename_i hc
        simp only [Option.some.injEq] at h3
        subst h3
        have hI := hbuilt.inv hT
        obtain ⟨_, _, _, hu⟩ := hbuilt
        have hs := makeElem_spec hT hI hu hn ⟨hnd, hc.2.2.1, hc.2.2.2⟩
        have hvm : (m1.makeElem T T.cellDim vs).mesh.verts = m1.verts := hs.ext.verts
        have hih := ih hops1 h1 (fun v hv => by
          rw [hvid v (by rw [hvm]; exact hv)]
          simp only [Mesh.vid, hvm])
        obtain ⟨_, e, he1, he2⟩ := hs.appended (hs.isnew.2 (Or.inl rfl))
        rw [hvm, he2, List.map_append]
        have hfold : cellsMesh T base ((m1.elems T.cellDim).map (·.verts) ++ [e].map (·.verts)) =
            ((cellsMesh T base ((m1.elems T.cellDim).map (·.verts))).makeElem T T.cellDim vs).mesh := by
          simp [cellsMesh, List.foldl_append, he1]
        rw [hfold]
        have hlen : 0 < vs.length := by
          rcases hc.2.2.1 with h | h
          · rw [h]; exact hpos
          · omega
        have hN : 0 < m1.verts.length := by
          obtain ⟨v, hv⟩ := List.exists_mem_of_length_pos hlen
          have := hc.2.2.2 v hv
          omega
        exact (insertN_sim hN T T.cellDim T.cellDim _ _ vs hih hc.2.2.2).1
      · exact absurd h3 (by simp)

/-! ### Reading -/

variable {C : Type} {g : Nat}

theorem arPoint_reads : ∀ {g : Nat} (p : Fin g → C) (a : List (ArItem C)),
    arPoint g ((List.ofFn p).map .coord ++ a) = .ok (p, a)
  | 0, p, a => by
    simp only [List.ofFn_zero, List.map_nil, List.nil_append, arPoint]
    congr 2
    funext i
    exact i.elim0
  | g + 1, p, a => by
    rw [List.ofFn_succ]
    simp only [List.map_cons, List.cons_append, arPoint, arPoint_reads (fun i => p i.succ) a]
    congr 2
    exact Fin.cons_self_tail p

/-- Vertices made one after the other, with generated ids. -/
def vertsMesh {P : Type} (m : Mesh P) (ps : List P) : Mesh P := ps.foldl (fun m p => m.makeVertex none p) m

theorem arVertices_reads (a : List (ArItem C)) : ∀ (ps : List (Fin g → C)) (m : Mesh (Fin g → C)),
    arVertices ps.length m (ps.flatMap (fun p => (List.ofFn p).map .coord) ++ a) = .ok (vertsMesh m ps, a)
  | [], m => rfl
  | p :: ps, m => by
    simp only [List.length_cons, List.flatMap_cons, List.append_assoc, arVertices, arPoint_reads,
      arVertices_reads a ps (m.makeVertex none p)]
    rfl

theorem arCorners_reads {m : Mesh (Fin g → C)} {f : Nat → Int} (a : List (ArItem C)) : ∀ (vs : List Nat),
    (∀ v ∈ vs, m.findById 0 (f v) = some v) →
    arCorners m vs.length ((vs.map fun v => .id (f v)) ++ a) = .ok (vs, a)
  | [], _ => rfl
  | v :: vs, h => by
    simp only [List.length_cons, List.map_cons, List.cons_append, arCorners, h v List.mem_cons_self,
      arCorners_reads a vs fun w hw => h w (List.mem_cons_of_mem _ hw)]

theorem findById_cell {P : Type} (T : Topo) (m : Mesh P) (vs : List Nat) (i : Int) :
    (m.makeElem T T.cellDim vs).mesh.findById 0 i = m.findById 0 i := by
  have he : (m.makeElem T T.cellDim vs).mesh.eid 0 = m.eid 0 := by
    funext s
    simp only [Mesh.eid, Mesh.vid, if_true, (insertN_verts T _ _ m vs).1, Mesh.makeElem]
  have hl : (m.makeElem T T.cellDim vs).mesh.verts.length = m.verts.length := by
    rw [Mesh.makeElem, (insertN_verts T _ _ m vs).1]
  simp only [Mesh.findById, Mesh.idsOf, Mesh.count, he, if_true, hl]

theorem arCells_reads {T : Topo} {f : Nat → Int} : ∀ (L : List (List Nat)) (m : Mesh (Fin g → C)),
    (∀ vs ∈ L, vs.length = T.nv T.cellDim ∧ ∀ v ∈ vs, m.findById 0 (f v) = some v) →
    arCells T L.length m (L.flatMap fun vs => vs.map fun v => .id (f v)) = .ok (cellsMesh T m L)
  | [], m, _ => rfl
  | vs :: L, m, h => by
    obtain ⟨h1, h2⟩ := h vs List.mem_cons_self
    simp only [List.length_cons, List.flatMap_cons, arCells]
    rw [← h1, arCorners_reads _ vs h2]
    refine arCells_reads L _ fun ws hws => ?_
    obtain ⟨h3, h4⟩ := h ws (List.mem_cons_of_mem _ hws)
    refine ⟨h3, fun v hv => ?_⟩
    rw [← h4 v hv]
    exact findById_cell T m vs _

theorem empty_positions {P : Type} : IdsArePositions (Mesh.empty : Mesh P) := fun v hv => by simp [Mesh.empty] at hv

theorem vertsMesh_spec {P : Type} : ∀ (ps : List P) (m : Mesh P), IdsArePositions m → m.vgen = m.verts.length →
    (vertsMesh m ps).elems = m.elems ∧ (vertsMesh m ps).nextId = m.nextId ∧ IdsArePositions (vertsMesh m ps) ∧
    (vertsMesh m ps).verts.map (·.pt) = m.verts.map (·.pt) ++ ps ∧ (vertsMesh m ps).vgen = (vertsMesh m ps).verts.length
  | [], m, h, h' => ⟨rfl, rfl, h, by simp [vertsMesh], h'⟩
  | p :: ps, m, h, h' => by
    have hm : IdsArePositions (m.makeVertex none p) := by
      intro v hv
      simp only [Mesh.makeVertex, List.length_append, List.length_singleton] at hv
      simp only [Mesh.vid, Mesh.makeVertex, List.map_append, List.map_cons, List.map_nil]
      by_cases hlt : v < m.verts.length
      · rw [List.getD_append _ _ _ _ (by simpa using hlt)]
        exact h v hlt
      · have : v = m.verts.length := by omega
        subst this
        rw [List.getD_append_right _ _ _ _ (by simp)]
        simp [h']
    have hm' : (m.makeVertex none p).vgen = (m.makeVertex none p).verts.length := by
      simp [Mesh.makeVertex, h']
    obtain ⟨h1, h2, h3, h4, h5⟩ := vertsMesh_spec ps _ hm hm'
    refine ⟨h1, h2, h3, ?_, h5⟩
    show (vertsMesh (m.makeVertex none p) ps).verts.map (·.pt) = _
    rw [h4]
    simp [Mesh.makeVertex]

theorem BuiltCells.empty {P : Type} (T : Topo) : BuiltCells T (Mesh.empty : Mesh P) := ⟨[], by simp, rfl⟩

theorem vertsMesh_built {T : Topo} {P : Type} : ∀ (ps : List P) {m : Mesh P}, BuiltCells T m → BuiltCells T (vertsMesh m ps)
  | [], _, h => h
  | p :: ps, m, h => vertsMesh_built ps
      (h.step (op := .vertex none p) (by simp [MOp.Distinct, MOp.Generated, MOp.CellsOnly]) rfl)

theorem cellsMesh_built {T : Topo} (hT : T.WF) (hn : 1 ≤ T.cellDim) {P : Type} : ∀ (L : List (List Nat)) {m : Mesh P},
    BuiltCells T m → (∀ vs ∈ L, vs.Nodup ∧ T.Arity T.cellDim vs.length ∧ ∀ v ∈ vs, v < m.verts.length) →
    BuiltCells T (cellsMesh T m L) ∧
      ((cellsMesh T m L).elems T.cellDim).map (·.verts) = (m.elems T.cellDim).map (·.verts) ++ L
  | [], m, h, _ => ⟨h, by simp [cellsMesh]⟩
  | vs :: L, m, h, hL => by
    obtain ⟨h1, h2, h3⟩ := hL vs List.mem_cons_self
    have hs : m.step T (.elem T.cellDim vs) = some (m.makeElem T T.cellDim vs).mesh := by
      simp only [Mesh.step]
      rw [if_pos ⟨hn, Nat.le_refl _, h2, h3⟩]
    have hb := h.step (op := .elem T.cellDim vs) (by simp [MOp.Distinct, MOp.Generated, MOp.CellsOnly, h1]) hs
    have hu : UniqueVids m := by obtain ⟨_, _, _, hu⟩ := h.built; exact hu
    have hsp := makeElem_spec hT (h.built.inv hT) hu hn ⟨h1, h2, h3⟩
    obtain ⟨_, e, he1, he2⟩ := hsp.appended (hsp.isnew.2 (Or.inl rfl))
    obtain ⟨h4, h5⟩ := cellsMesh_built hT hn L hb fun ws hws => by
      have := hL ws (List.mem_cons_of_mem _ hws)
      refine ⟨this.1, this.2.1, ?_⟩
      rw [hsp.ext.verts]
      exact this.2.2
    refine ⟨h4, ?_⟩
    show ((cellsMesh T (m.makeElem T T.cellDim vs).mesh L).elems T.cellDim).map (·.verts) = _
    rw [h5, he2]
    simp [he1]

/-! ### An archive that ends too early -/

theorem prefix_split {A : Type} {l x y : List A} (h : l <+: x ++ y) : (l <+: x ∧ l.length < x.length) ∨ ∃ r, r <+: y ∧ l = x ++ r := by
  by_cases hl : l.length < x.length
  · exact Or.inl ⟨List.prefix_of_prefix_length_le h (List.prefix_append _ _) (by omega), hl⟩
  · obtain ⟨r, rfl⟩ := List.prefix_of_prefix_length_le (List.prefix_append x y) h (by omega)
    exact Or.inr ⟨r, (List.prefix_append_right_inj x).1 h, rfl⟩

theorem arPoint_cut : ∀ {g : Nat} (p : Fin g → C) (a : List (ArItem C)), a <+: (List.ofFn p).map .coord → a.length < g →
    arPoint g a = .error .throws
  | 0, _, _, _, h => absurd h (by omega)
  | g + 1, _, [], _, _ => rfl
  | g + 1, p, x :: a, h, hl => by
    rw [List.ofFn_succ, List.map_cons, List.cons_prefix_cons] at h
    obtain ⟨rfl, h⟩ := h
    simp only [arPoint, arPoint_cut (fun i => p i.succ) a h (by simpa using hl)]

theorem arVertices_cut : ∀ (ps : List (Fin g → C)) (m : Mesh (Fin g → C)) (a : List (ArItem C)),
    a <+: ps.flatMap (fun p => (List.ofFn p).map .coord) →
    a.length < (ps.flatMap (fun p => (List.ofFn p).map (ArItem.coord))).length →
    arVertices ps.length m a = .error .throws
  | [], _, _, _, h => by simp at h
  | p :: ps, m, a, h, hl => by
    rw [List.flatMap_cons] at h hl
    simp only [List.length_cons, arVertices]
    rcases prefix_split h with ⟨h1, h2⟩ | ⟨r, h1, rfl⟩
    · rw [arPoint_cut p a h1 (by simpa using h2)]
    · rw [arPoint_reads]
      exact arVertices_cut ps _ r h1 (by simpa using hl)

theorem arCorners_cut {m : Mesh (Fin g → C)} {f : Nat → Int} : ∀ (vs : List Nat) (a : List (ArItem C)),
    (∀ v ∈ vs, m.findById 0 (f v) = some v) → a <+: (vs.map fun v => .id (f v)) → a.length < vs.length →
    arCorners m vs.length a = .error .throws
  | [], _, _, _, h => by simp at h
  | v :: vs, [], _, _, _ => rfl
  | v :: vs, x :: a, hv, h, hl => by
    rw [List.map_cons, List.cons_prefix_cons] at h
    obtain ⟨rfl, h⟩ := h
    simp only [List.length_cons, arCorners, hv v List.mem_cons_self,
      arCorners_cut vs a (fun w hw => hv w (List.mem_cons_of_mem _ hw)) h (by simpa using hl)]

theorem arCells_cut {T : Topo} {f : Nat → Int} : ∀ (L : List (List Nat)) (m : Mesh (Fin g → C)) (a : List (ArItem C)),
    (∀ vs ∈ L, vs.length = T.nv T.cellDim ∧ ∀ v ∈ vs, m.findById 0 (f v) = some v) →
    a <+: (L.flatMap fun vs => vs.map fun v => .id (f v)) →
    a.length < (L.flatMap fun vs => vs.map fun v => (ArItem.id (f v) : ArItem C)).length →
    arCells T L.length m a = .error .throws
  | [], _, _, _, _, h => by simp at h
  | vs :: L, m, a, hL, h, hl => by
    obtain ⟨h1, h2⟩ := hL vs List.mem_cons_self
    rw [List.flatMap_cons] at h hl
    simp only [List.length_cons, arCells]
    rw [← h1]
    rcases prefix_split h with ⟨h3, h4⟩ | ⟨r, h3, rfl⟩
    · rw [arCorners_cut vs a h2 h3 (by simpa using h4)]
    · rw [arCorners_reads r vs h2]
      refine arCells_cut L _ r (fun ws hws => ?_) h3 (by simpa using hl)
      obtain ⟨h5, h6⟩ := hL ws (List.mem_cons_of_mem _ hws)
      refine ⟨h5, fun v hv => ?_⟩
      rw [← h6 v hv]
      exact findById_cell T m vs _

end VG
