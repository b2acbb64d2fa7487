import Verif.Model.Copy
import Verif.Lemmas.Reach

/-!
The vertex copy map: after copying a list of elements the destination is the source restricted to them.
-/

namespace VG

variable {P : Type}

/-- A mesh built with generated vertex ids and cells only. -/
def BuiltCells (T : Topo) (m : Mesh P) : Prop :=
  ∃ ops : List (MOp P), (∀ op ∈ ops, op.Distinct ∧ op.Generated ∧ op.CellsOnly T) ∧
    Mesh.empty.run T ops = some m

theorem BuiltCells.built {T : Topo} {m : Mesh P} (h : BuiltCells T m) : Built T m := by
  obtain ⟨ops, h1, h2⟩ := h
  exact Built.of_generated (fun o ho => (h1 o ho).1) (fun o ho => (h1 o ho).2.1) h2

theorem run_append {T : Topo} : ∀ (l l' : List (MOp P)) (m : Mesh P),
    m.run T (l ++ l') = (m.run T l).bind (fun m' => m'.run T l')
  | [], l', m => by simp [Mesh.run]
  | o :: l, l', m => by
    simp only [List.cons_append, Mesh.run, Option.bind_assoc]
    cases m.step T o with
    | none => rfl
    | some m' => simp [run_append l l' m']

theorem BuiltCells.step {T : Topo} {m m' : Mesh P} (h : BuiltCells T m) {op : MOp P}
    (ho : op.Distinct ∧ op.Generated ∧ op.CellsOnly T) (hs : m.step T op = some m') : BuiltCells T m' := by
  obtain ⟨ops, h1, h2⟩ := h
  refine ⟨ops ++ [op], fun o ho' => ?_, ?_⟩
  · rcases List.mem_append.1 ho' with h | h
    · exact h1 o h
    · simp only [List.mem_singleton] at h; subst h; exact ho
  · rw [run_append, h2]; simp [Mesh.run, hs]

structure CInv (T : Topo) (src : Mesh P) (used : List Nat) (done : List (List Nat)) (c : CopySt P) : Prop where
  nodup : used.Nodup
  valid : ∀ v ∈ used, v < src.verts.length
  fresh : ∀ v < src.verts.length, v ∉ used → c.map.find? (fun e => e.1 == src.vid v) = none
  known : ∀ (i v : Nat), used[i]? = some v → c.map.find? (fun e => e.1 == src.vid v) = some (src.vid v, i)
  len : c.dst.verts.length = used.length
  pts : ∀ (i v : Nat), used[i]? = some v → c.dst.ptOf i = src.ptOf v
  built : BuiltCells T c.dst
  cells : (c.dst.elems T.cellDim).map (·.verts) = done.map (fun vs => vs.map (fun v => used.idxOf v))

theorem idxOf_prefix {l l' : List Nat} (h : l <+: l') {v : Nat} (hv : v ∈ l) : l'.idxOf v = l.idxOf v := by
  obtain ⟨r, rfl⟩ := h
  exact List.idxOf_append_of_mem hv

theorem copyVertex_spec {T : Topo} {src : Mesh P} (hu : UniqueVids src) {used : List Nat} {done} {c : CopySt P}
    (h : CInv T src used done c) (hdone : ∀ vs ∈ done, vs ⊆ used) {v : Nat} (hv : v < src.verts.length) :
    ∃ c' used', copyVertex src c v = some (c', used'.idxOf v) ∧ used <+: used' ∧ CInv T src used' done c' ∧
      v ∈ used' ∧ ∀ w, w ∈ used' → w ∈ used ∨ w = v := by
  by_cases hvu : v ∈ used
  · obtain ⟨i, hi⟩ := List.mem_iff_getElem?.1 hvu
    refine ⟨c, used, ?_, List.prefix_refl _, h, hvu, fun w hw => Or.inl hw⟩
    unfold copyVertex
    rw [h.known i v hi]
    have : used.idxOf v = i := by
      obtain ⟨hlt, he⟩ := List.getElem?_eq_some_iff.1 hi
      rw [← he]; exact h.nodup.idxOf_getElem i hlt
    simp [this]
  · have hf := h.fresh v hv hvu
    have hp : ∃ p, src.ptOf v = some p := by
      unfold Mesh.ptOf
      rw [List.getElem?_eq_getElem hv]; exact ⟨_, rfl⟩
    obtain ⟨p, hp⟩ := hp
    have hidx : (used ++ [v]).idxOf v = used.length := by
      rw [List.idxOf_append_of_notMem hvu]; simp
    have hstep : c.dst.step T (.vertex none p) = some (c.dst.makeVertex none p) := rfl
    refine ⟨⟨c.dst.makeVertex none p, (src.vid v, c.dst.verts.length) :: c.map⟩, used ++ [v], ?_,
      List.prefix_append _ _, ?_, by simp, fun w hw => by simpa using hw⟩
    · unfold copyVertex
      rw [hf, hp, hidx]; simp [h.len]
    · constructor
      · rw [List.nodup_append]
        exact ⟨h.nodup, by simp, fun a ha b hb => by simp only [List.mem_singleton] at hb; subst hb; exact fun e => hvu (e ▸ ha)⟩
      · intro w hw
        rcases List.mem_append.1 hw with hw | hw
        · exact h.valid w hw
        · simp only [List.mem_singleton] at hw; subst hw; exact hv
      · intro w hw hwu
        simp only [List.mem_append, List.mem_singleton, not_or] at hwu
        have : (src.vid v == src.vid w) = false := by
          refine beq_false_of_ne (fun e => hwu.2 (vid_inj hu hw hv e.symm))
        simp only [List.find?_cons, this]
        exact h.fresh w hw hwu.1
      · intro i w hiw
        by_cases hlt : i < used.length
        · rw [List.getElem?_append_left hlt] at hiw
          have hne : v ≠ w := by rintro rfl; exact hvu (List.mem_of_getElem? hiw)
          have : (src.vid v == src.vid w) = false := by
            refine beq_false_of_ne (fun e => hne (vid_inj hu hv (h.valid w (List.mem_of_getElem? hiw)) e))
          simp only [List.find?_cons, this]
          exact h.known i w hiw
        · rw [List.getElem?_append_right (by omega)] at hiw
          obtain ⟨h1, h2⟩ := List.getElem?_eq_some_iff.1 hiw
          simp only [List.length_singleton] at h1
          have : i = used.length := by omega
          subst this
          simp only [Nat.sub_self, List.getElem_cons_zero] at h2
          subst h2
          simp [h.len]
      · simp [Mesh.makeVertex, h.len]
      · intro i w hiw
        by_cases hlt : i < used.length
        · rw [List.getElem?_append_left hlt] at hiw
          rw [← h.pts i w hiw]
          unfold Mesh.ptOf Mesh.makeVertex
          simp only
          rw [List.getElem?_append_left (by rw [h.len]; exact hlt)]
        · rw [List.getElem?_append_right (by omega)] at hiw
          obtain ⟨h1, h2⟩ := List.getElem?_eq_some_iff.1 hiw
          simp only [List.length_singleton] at h1
          have : i = used.length := by omega
          subst this
          simp only [Nat.sub_self, List.getElem_cons_zero] at h2
          subst h2
          rw [hp]
          unfold Mesh.ptOf Mesh.makeVertex
          simp [← h.len]
      · exact h.built.step (op := .vertex none p) ⟨trivial, rfl, trivial⟩ hstep
      · have he : (c.dst.makeVertex none p).elems = c.dst.elems := rfl
        simp only [he, h.cells]
        refine List.map_congr_left (fun vs hvs => List.map_congr_left (fun w hw => ?_))
        rw [List.idxOf_append_of_mem (hdone vs hvs hw)]

theorem copyVerts_spec {T : Topo} {src : Mesh P} (hu : UniqueVids src) : ∀ {vs : List Nat} {used : List Nat} {done}
    {c : CopySt P}, CInv T src used done c → (∀ ws ∈ done, ws ⊆ used) → (∀ v ∈ vs, v < src.verts.length) →
    ∃ c' used', copyVerts src c vs = some (c', vs.map (fun v => used'.idxOf v)) ∧ used <+: used' ∧
      CInv T src used' done c' ∧ vs ⊆ used' ∧ ∀ w, w ∈ used' → w ∈ used ∨ w ∈ vs
  | [], used, done, c, h, _, _ => ⟨c, used, rfl, List.prefix_refl _, h, by simp, fun w hw => Or.inl hw⟩
  | v :: vs, used, done, c, h, hd, hv => by
    obtain ⟨c1, u1, e1, p1, i1, m1, s1⟩ := copyVertex_spec hu h hd (hv v (by simp))
    have hd1 : ∀ ws ∈ done, ws ⊆ u1 := fun ws hws => List.Subset.trans (hd ws hws) p1.subset
    obtain ⟨c2, u2, e2, p2, i2, m2, s2⟩ := copyVerts_spec hu (vs := vs) i1 hd1 (fun w hw => hv w (by simp [hw]))
    refine ⟨c2, u2, ?_, p1.trans p2, i2, ?_, ?_⟩
    · simp only [copyVerts, e1, Option.bind_some, e2, Option.map_some, List.map_cons]
      rw [idxOf_prefix p2 m1]
    · intro w hw
      rcases List.mem_cons.1 hw with rfl | hw
      · exact p2.subset m1
      · exact m2 hw
    · intro w hw
      rcases s2 w hw with h' | h'
      · rcases s1 w h' with h'' | rfl
        · exact Or.inl h''
        · exact Or.inr (by simp)
      · exact Or.inr (by simp [h'])

theorem copyElement_spec {T : Topo} (hT : T.WF) (hn : 1 ≤ T.cellDim) {src : Mesh P} (hu : UniqueVids src)
    {vs : List Nat} {used : List Nat} {done} {c : CopySt P} (h : CInv T src used done c)
    (hd : ∀ ws ∈ done, ws ⊆ used) (hv : vs.Nodup ∧ T.Arity T.cellDim vs.length ∧ ∀ v ∈ vs, v < src.verts.length) :
    ∃ c' used', copyElement T src c vs = some c' ∧ used <+: used' ∧ CInv T src used' (done ++ [vs]) c' ∧
      (∀ ws ∈ done ++ [vs], ws ⊆ used') ∧ ∀ w, w ∈ used' → w ∈ used ∨ w ∈ vs := by
  obtain ⟨c1, u1, e1, p1, i1, m1, s1⟩ := copyVerts_spec hu h hd hv.2.2
  have hd1 : ∀ ws ∈ done, ws ⊆ u1 := fun ws hws => List.Subset.trans (hd ws hws) p1.subset
  have hnd : (vs.map (fun v => u1.idxOf v)).Nodup := by
    refine (List.nodup_map_iff_inj_on hv.1).2 (fun a ha b hb hab => ?_)
    have h1 := List.getElem_idxOf (List.idxOf_lt_length_iff.2 (m1 ha))
    have h2 := List.getElem_idxOf (List.idxOf_lt_length_iff.2 (m1 hb))
    rw [← h1, ← h2]; simp only [hab]
  have hlt : ∀ w ∈ vs.map (fun v => u1.idxOf v), w < c1.dst.verts.length := by
    intro w hw
    obtain ⟨v, hv', rfl⟩ := List.mem_map.1 hw
    rw [i1.len]
    exact List.idxOf_lt_length_iff.2 (m1 hv')
  have hstep : c1.dst.step T (.elem T.cellDim (vs.map (fun v => u1.idxOf v))) =
      some (c1.dst.makeElem T T.cellDim (vs.map (fun v => u1.idxOf v))).mesh := by
    simp only [Mesh.step]
    rw [if_pos ⟨hn, le_refl _, by rw [List.length_map]; exact hv.2.1, hlt⟩]
  have hb := i1.built
  have hbb := hb.built
  have hvu : UniqueVids c1.dst := hbb.choose_spec.2.2
  have hs := makeElem_spec hT (hbb.inv hT) hvu hn ⟨hnd, by rw [List.length_map]; exact hv.2.1, hlt⟩
  refine ⟨⟨(c1.dst.makeElem T T.cellDim (vs.map (fun v => u1.idxOf v))).mesh, c1.map⟩, u1, ?_, p1, ⟨i1.nodup, i1.valid, i1.fresh, i1.known, ?_, ?_, ?_, ?_⟩, ?_, s1⟩
  · simp only [copyElement, e1, Option.bind_some, hstep, Option.map_some]
  · exact (congrArg List.length hs.ext.verts).trans i1.len
  · intro i v hiv
    rw [← i1.pts i v hiv]
    unfold Mesh.ptOf
    exact congrArg (fun l => Option.map Vtx.pt (l[i]?)) hs.ext.verts
  · exact hb.step (op := .elem T.cellDim (vs.map (fun v => u1.idxOf v))) ⟨hnd, trivial, rfl⟩ hstep
  · have hnew : (c1.dst.makeElem T T.cellDim (vs.map (fun v => u1.idxOf v))).new = true := hs.isnew.2 (Or.inl rfl)
    obtain ⟨_, e, he1, he2⟩ := hs.appended hnew
    rw [he2]
    simp [i1.cells, he1]
  · intro ws hws
    rcases List.mem_append.1 hws with h' | h'
    · exact hd1 ws h'
    · simp only [List.mem_singleton] at h'; subst h'; exact m1

theorem copyElements_spec {T : Topo} (hT : T.WF) (hn : 1 ≤ T.cellDim) {src : Mesh P} (hu : UniqueVids src) :
    ∀ {L : List (List Nat)} {used : List Nat} {done} {c : CopySt P}, CInv T src used done c →
    (∀ ws ∈ done, ws ⊆ used) → (∀ w ∈ used, ∃ ws ∈ done, w ∈ ws) →
    (∀ vs ∈ L, vs.Nodup ∧ T.Arity T.cellDim vs.length ∧ ∀ v ∈ vs, v < src.verts.length) →
    ∃ c' used', copyElements T src c L = some c' ∧ CInv T src used' (done ++ L) c' ∧
      (∀ ws ∈ done ++ L, ws ⊆ used') ∧ (∀ w ∈ used', ∃ ws ∈ done ++ L, w ∈ ws)
  | [], used, done, c, h, hd, hw, _ => ⟨c, used, rfl, by simpa using h, by simpa using hd, by simpa using hw⟩
  | vs :: L, used, done, c, h, hd, hw, hv => by
    obtain ⟨c1, u1, e1, p1, i1, d1, s1⟩ := copyElement_spec hT hn hu h hd (hv vs (by simp))
    obtain ⟨c2, u2, e2, i2, d2, s2⟩ := copyElements_spec hT hn hu (L := L) i1 d1 (fun w hw' => by
      rcases s1 w hw' with h' | h'
      · obtain ⟨ws, h1, h2⟩ := hw w h'
        exact ⟨ws, by simp [h1], h2⟩
      · exact ⟨vs, by simp, h'⟩) (fun ws hws => hv ws (by simp [hws]))
    refine ⟨c2, u2, ?_, ?_, ?_, ?_⟩
    · simp only [copyElements, e1, Option.bind_some, e2]
    · simpa using i2
    · simpa using d2
    · simpa using s2

theorem CInv.empty (T : Topo) (src : Mesh P) : CInv T src [] [] ⟨Mesh.empty, []⟩ := by
  refine ⟨by simp, by simp, by simp, by simp, rfl, by simp, ⟨[], by simp, rfl⟩, rfl⟩

end VG
