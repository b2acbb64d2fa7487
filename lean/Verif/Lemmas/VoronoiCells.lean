import Verif.Model.VoronoiCells
import Verif.Lemmas.VoronoiSum
import Verif.Props.Volumes

/-!
`apply_voronoi` for lines, quadrilaterals and hexahedra.
-/

namespace VG

/-! ### Statements that only add -/

/-- Neither an assignment nor an update of an entry. -/
def VoroWrite.Grows : VoroWrite → Prop
  | .add _ _ _ => True
  | .push _ _ _ _ => True
  | _ => False

/-- What a statement appends. -/
def VoroWrite.pushed (q : VoroQ) (s : Nat) : VoroWrite → List (Nat × ℝ)
  | .push q' s' c x => if q = q' ∧ s = s' then [(c, x)] else []
  | _ => []

theorem write_grows (v : VoroSt) (w : VoroWrite) (hw : w.Grows) (q : VoroQ) (s : Nat) :
    (v.write w).total q s = v.total q s + w.addAmt q s ∧ (v.write w).parts q s = v.parts q s ++ w.pushed q s := by
  cases w with
  | add q' s' x =>
    refine ⟨?_, by simp [VoroSt.write, VoroWrite.pushed]⟩
    simp only [VoroSt.write, VoroWrite.addAmt]
    split
    · next h => rw [h.1, h.2]
    · simp
  | push q' s' c x =>
    refine ⟨by simp [VoroSt.write, VoroWrite.addAmt], ?_⟩
    simp only [VoroSt.write, VoroWrite.pushed]
    split
    · next h => rw [h.1, h.2]
    · simp
  | set => exact hw.elim
  | upd => exact hw.elim

theorem writes_grow (ws : List VoroWrite) : ∀ (v : VoroSt), (∀ w ∈ ws, w.Grows) → ∀ (q : VoroQ) (s : Nat),
    (ws.foldl VoroSt.write v).total q s = v.total q s + (ws.map (VoroWrite.addAmt q s)).sum
    ∧ (ws.foldl VoroSt.write v).parts q s = v.parts q s ++ ws.flatMap (VoroWrite.pushed q s) := by
  induction ws with
  | nil => intro v _ q s; simp
  | cons w ws ih =>
    intro v hp q s
    obtain ⟨h1, h2⟩ := ih (v.write w) (fun w' hw' => hp w' (List.mem_cons_of_mem _ hw')) q s
    obtain ⟨g1, g2⟩ := write_grows v w (hp w (by simp)) q s
    rw [List.foldl_cons, List.map_cons, List.sum_cons, List.flatMap_cons, h1, h2, g1, g2]
    exact ⟨by ring, by rw [List.append_assoc]⟩

/-- The loop over cells whose statements only add. -/
theorem cells_grow (f : Nat → List VoroWrite) (n : Nat) (v : VoroSt) (h : ∀ c, ∀ w ∈ f c, w.Grows) (q : VoroQ) (s : Nat) :
    ((List.range n).foldl (fun v c => (f c).foldl VoroSt.write v) v).total q s
        = v.total q s + ∑ c ∈ Finset.range n, ((f c).map (VoroWrite.addAmt q s)).sum
    ∧ ((List.range n).foldl (fun v c => (f c).foldl VoroSt.write v) v).parts q s
        = v.parts q s ++ (List.range n).flatMap fun c => (f c).flatMap (VoroWrite.pushed q s) := by
  induction n with
  | zero => simp
  | succ n ih =>
    rw [List.range_succ, List.foldl_append, List.foldl_cons, List.foldl_nil, Finset.sum_range_succ, List.flatMap_append,
      List.flatMap_cons, List.flatMap_nil, List.append_nil]
    obtain ⟨h1, h2⟩ := writes_grow (f n) ((List.range n).foldl (fun v c => (f c).foldl VoroSt.write v) v) (h n) q s
    rw [h1, h2, ih.1, ih.2]
    exact ⟨by ring, by rw [List.append_assoc]⟩

theorem partSum_append (l l' : List (Nat × ℝ)) : partSum (l ++ l') = partSum l + partSum l' := by
  simp [partSum]

theorem partSum_flatMap {α : Type} (l : List α) (f : α → List (Nat × ℝ)) : partSum (l.flatMap f) = (l.map fun a => partSum (f a)).sum := by
  induction l with
  | nil => simp [partSum]
  | cons a l ih => rw [List.flatMap_cons, partSum_append, ih, List.map_cons, List.sum_cons]

theorem sum_flatMap_map {α β : Type} (l : List α) (f : α → List β) (g : β → ℝ) :
    ((l.flatMap f).map g).sum = (l.map fun a => ((f a).map g).sum).sum := by
  induction l with
  | nil => simp
  | cons a l ih => rw [List.flatMap_cons, List.map_append, List.sum_append, ih, List.map_cons, List.sum_cons]

/-! ### One edge of a quadrilateral or hexahedron -/

section Push
variable {d : Nat} (m : Mesh (Fin d → ℝ)) (c e : Nat) (x : ℝ) (box : Nat → ℝ)

theorem voroPush_grows : ∀ w ∈ voroPush m c e x box, w.Grows := by
  intro w hw
  simp only [voroPush, List.flatMap_cons, List.flatMap_nil, List.append_nil, List.mem_append, List.mem_cons,
    List.not_mem_nil, or_false] at hw
  rcases hw with ((rfl | rfl) | ((rfl | rfl) | (rfl | rfl))) | (rfl | rfl) <;> trivial

/-- What the statements of one edge amount to. -/
noncomputable def pushAmt (q : VoroQ) (s : Nat) : ℝ :=
  match q with
  | .area => if s = e then x else 0
  | .vbox => (if s = (m.ends e).1 then box (m.ends e).1 else 0) + (if s = (m.ends e).2 then box (m.ends e).2 else 0)
  | .ebox => if s = e then box (m.ends e).1 + box (m.ends e).2 else 0

theorem voroPush_amt (q : VoroQ) (s : Nat) :
    ((voroPush m c e x box).map (VoroWrite.addAmt q s)).sum = pushAmt m e x box q s := by
  cases q <;> simp [voroPush, VoroWrite.addAmt, pushAmt]

theorem voroPush_pushed (q : VoroQ) (s : Nat) :
    (voroPush m c e x box).flatMap (VoroWrite.pushed q s)
      = match q with
        | .area => if s = e then [(c, x)] else []
        | .vbox => (if s = (m.ends e).1 then [(c, box (m.ends e).1)] else [])
          ++ (if s = (m.ends e).2 then [(c, box (m.ends e).2)] else [])
        | .ebox => if s = e then [(c, box (m.ends e).1 + box (m.ends e).2)] else [] := by
  cases q <;> simp [voroPush, VoroWrite.pushed]

theorem voroPush_parts (q : VoroQ) (s : Nat) :
    partSum ((voroPush m c e x box).flatMap (VoroWrite.pushed q s)) = pushAmt m e x box q s := by
  rw [voroPush_pushed]
  cases q
  · simp only [pushAmt]; split <;> simp [partSum]
  · simp only [pushAmt, partSum_append]
    congr 1 <;> split <;> simp [partSum]
  · simp only [pushAmt]; split <;> simp [partSum]

theorem pushAmt_sum (n : Nat) (ha : (m.ends e).1 < n) (hb : (m.ends e).2 < n) :
    ∑ s ∈ Finset.range n, pushAmt m e x box .vbox s = box (m.ends e).1 + box (m.ends e).2 := by
  simp only [pushAmt]
  rw [Finset.sum_add_distrib, Finset.sum_ite_eq' (Finset.range n), Finset.sum_ite_eq' (Finset.range n),
    if_pos (Finset.mem_range.2 ha), if_pos (Finset.mem_range.2 hb)]

end Push

/-! ### Meshes of quadrilaterals and hexahedra: totals and contributions -/

theorem voroQuad_grows {d : Nat} (span : (Fin d → ℝ) → (Fin d → ℝ) → (Fin d → ℝ) → ℝ) (m : Mesh (Fin d → ℝ)) (c : Nat) :
    ∀ w ∈ voroQuad span m c, w.Grows := by
  intro w hw
  simp only [voroQuad, List.mem_flatMap] at hw
  obtain ⟨e, _, hw⟩ := hw
  exact voroPush_grows _ _ _ _ _ w hw

theorem voroHex_grows (m : Mesh (Fin 3 → ℝ)) (c : Nat) : ∀ w ∈ voroHex m c, w.Grows := by
  intro w hw
  simp only [voroHex, List.mem_flatMap] at hw
  obtain ⟨f, _, e, _, hw⟩ := hw
  exact voroPush_grows _ _ _ _ _ w hw

theorem voroQuad_same {d : Nat} (span : (Fin d → ℝ) → (Fin d → ℝ) → (Fin d → ℝ) → ℝ) (m : Mesh (Fin d → ℝ)) (c : Nat)
    (q : VoroQ) (s : Nat) :
    partSum ((voroQuad span m c).flatMap (VoroWrite.pushed q s)) = ((voroQuad span m c).map (VoroWrite.addAmt q s)).sum := by
  unfold voroQuad
  rw [List.flatMap_assoc, partSum_flatMap, sum_flatMap_map]
  simp only [voroPush_parts, voroPush_amt]

theorem voroHex_same (m : Mesh (Fin 3 → ℝ)) (c : Nat) (q : VoroQ) (s : Nat) :
    partSum ((voroHex m c).flatMap (VoroWrite.pushed q s)) = ((voroHex m c).map (VoroWrite.addAmt q s)).sum := by
  unfold voroHex
  rw [List.flatMap_assoc, partSum_flatMap, sum_flatMap_map]
  congr 1
  refine List.map_congr_left fun f _ => ?_
  rw [List.flatMap_assoc, partSum_flatMap, sum_flatMap_map]
  simp only [voroPush_parts, voroPush_amt]

/-! ### Quadrilaterals of a mesh -/

theorem edge_unique_of {P : Type} {T : Topo} {m : Mesh P} (hI : Inv T m) (hn2 : T.nv 1 = 2) (hT : 1 ≠ T.cellDim)
    {s t a b : Nat} (hs : s < m.count 1)
    (ht : t < m.count 1) (h1 : EndsAre m s a b) (h2 : EndsAre m t a b) : s = t := by
  have hc : m.count 1 = (m.elems 1).length := by unfold Mesh.count; rw [if_neg (by omega)]
  rw [hc] at hs ht
  have key : ∀ {s : Nat} (hs : s < (m.elems 1).length), EndsAre m s a b → ((m.elems 1)[s]).verts.Perm [a, b] := by
    intro s hs h
    have hv : m.vertsOf 1 s = ((m.elems 1)[s]).verts := by simp [Mesh.vertsOf, hs]
    obtain ⟨_, hl, _⟩ := hI.verts 1 _ (List.getElem_mem hs)
    replace hl := hl.resolve_right fun h => hT h.2.1
    rw [hn2] at hl
    unfold EndsAre Mesh.ends at h
    rw [hv] at h
    match hf : ((m.elems 1)[s]).verts, hl with
    | [x, y], _ =>
      rw [hf] at h
      simp only [List.getD_cons_zero, List.getD_cons_succ, Prod.mk.injEq] at h
      rcases h with ⟨rfl, rfl⟩ | ⟨rfl, rfl⟩
      · exact List.Perm.refl _
      · exact List.Perm.swap _ _ _
  exact hI.slot_unique (d := 1) hT (List.getElem?_eq_getElem hs) (List.getElem?_eq_getElem ht)
    ((key hs h1).trans (key ht h2).symm)

/-- The vertices and edges of a quadrilateral of the mesh. -/
structure QuadAt {P : Type} (m : Mesh P) (c v0 v1 v2 v3 e0 e1 e2 e3 : Nat) : Prop where
  verts : m.vertsOf 2 c = [v0, v1, v2, v3]
  edges : m.bndOf 2 c 1 = [e0, e1, e2, e3]
  nodup : [v0, v1, v2, v3].Nodup
  at0 : EndsAre m e0 v0 v1
  at1 : EndsAre m e1 v0 v2
  at2 : EndsAre m e2 v1 v3
  at3 : EndsAre m e3 v2 v3
  lt : ∀ v ∈ [v0, v1, v2, v3], v < m.verts.length
  elt : ∀ e ∈ [e0, e1, e2, e3], e < m.count 1

theorem quadAt_of {P : Type} {T : Topo} {m : Mesh P} (hT : T.WF) (hI : Inv T m)
    (hn4 : T.poly = false ∧ T.nv 2 = 4) (hlay : (1, quadEdges) ∈ T.layers 2 4) {c : Nat} {e : Elem}
    (he : (m.elems 2)[c]? = some e) :
    ∃ v0 v1 v2 v3 e0 e1 e2 e3, e.verts = [v0, v1, v2, v3] ∧ QuadAt m c v0 v1 v2 v3 e0 e1 e2 e3 := by
  have hem := List.mem_of_getElem? he
  obtain ⟨hn, hl, hlt⟩ := hI.verts 2 e hem
  replace hl := hl.fixed hn4.1
  rw [hn4.2] at hl
  match hv : e.verts, hl with
  | [v0, v1, v2, v3], _ =>
    rw [hv] at hn hlt
    obtain ⟨refs, h1, h2⟩ := (hI.bnd 2 e hem).lookup (hT.once 2 _) (by rw [hv]; exact hlay)
    have hbs : m.bndOf 2 c 1 = refs.map (·.1) := by
      unfold Mesh.bndOf; rw [he]; simp only [Nat.one_ne_zero, if_false]; unfold Elem.bndSlots; rw [h1]
    rw [hv] at h2
    unfold quadEdges at h2
    cases h2 with | cons a0 h2 =>
    cases h2 with | cons a1 h2 =>
    cases h2 with | cons a2 h2 =>
    cases h2 with | cons a3 h2 =>
    cases h2
    obtain ⟨f0, g0, p0, _⟩ := a0
    obtain ⟨f1, g1, p1, _⟩ := a1
    obtain ⟨f2, g2, p2, _⟩ := a2
    obtain ⟨f3, g3, p3, _⟩ := a3
    have lt : ∀ {s : Nat} {f : Elem}, (m.elems 1)[s]? = some f → s < m.count 1 := by
      intro s f h
      unfold Mesh.count; rw [if_neg (by omega)]; exact (List.getElem?_eq_some_iff.1 h).1
    refine ⟨v0, v1, v2, v3, _, _, _, _, rfl, ⟨?_, hbs, hn, ends_of g0 p0, ends_of g1 p1, ends_of g2 p2, ends_of g3 p3, hlt, ?_⟩⟩
    · simp [Mesh.vertsOf, he, hv]
    · intro s hs
      simp only [List.mem_cons, List.not_mem_nil, or_false] at hs
      rcases hs with rfl | rfl | rfl | rfl
      · exact lt g0
      · exact lt g1
      · exact lt g2
      · exact lt g3

end VG
