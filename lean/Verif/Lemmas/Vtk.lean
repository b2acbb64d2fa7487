import Verif.Model.Vtk
import Verif.Lemmas.Netgen
import Verif.Lemmas.SegmentsOn
import Mathlib.Data.List.Nodup
import Mathlib.Tactic.IntervalCases

/-! How the VTK writer and the VTK reader fit together. -/

namespace VG

variable {C : Type}

/-! ### Maps -/

/-- The keys increase. -/
def KeysInc {β : Type} (l : List (Int × β)) : Prop := l.Pairwise fun a b => a.1 < b.1

theorem mapPut_spec {β : Type} (key : β → Int) (v : β) : ∀ (l : List (Int × β)), KeysInc l → (∀ x ∈ l, x.1 = key x.2) →
    (∀ x ∈ l, key x.2 = key v → x.2 = v) →
    KeysInc (mapPut (key v) v l) ∧ (∀ x, x ∈ mapPut (key v) v l ↔ x ∈ l ∨ x = (key v, v))
  | [], _, _, _ => by simp [mapPut, KeysInc]
  | y :: l, hs, hk, hinj => by
    have hs' : KeysInc l := (List.pairwise_cons.1 hs).2
    have hlt := (List.pairwise_cons.1 hs).1
    unfold mapPut
    split
    · rename_i h
      refine ⟨List.pairwise_cons.2 ⟨fun z hz => ?_, hs⟩, fun x => ?_⟩
      · rcases List.mem_cons.1 hz with rfl | hz
        · exact h
        · exact Int.lt_trans h (hlt z hz)
      · simp only [List.mem_cons]; tauto
    · split
      · rename_i h
        have hy : y = (key v, v) := by
          have h1 := hk y (by simp)
          have h2 := hinj y (by simp) (by rw [← h1, h])
          exact Prod.ext h.symm h2
        refine ⟨hs, fun x => ?_⟩
        rw [hy]
        simp only [List.mem_cons]; tauto
      · rename_i h1 h2
        obtain ⟨h3, h4⟩ := mapPut_spec key v l hs' (fun x hx => hk x (by simp [hx])) (fun x hx => hinj x (by simp [hx]))
        refine ⟨List.pairwise_cons.2 ⟨fun z hz => ?_, h3⟩, fun x => ?_⟩
        · rcases (h4 z).1 hz with hz | rfl
          · exact hlt z hz
          · show y.1 < key v; omega
        · simp only [List.mem_cons, h4]; tauto

theorem mapSet_spec {β : Type} (key : β → Int) (v : β) : ∀ (l : List (Int × β)), KeysInc l → (∀ x ∈ l, x.1 = key x.2) →
    (∀ x ∈ l, key x.2 = key v → x.2 = v) →
    KeysInc (mapSet (key v) v l) ∧ (∀ x, x ∈ mapSet (key v) v l ↔ x ∈ l ∨ x = (key v, v))
  | [], _, _, _ => by simp [mapSet, KeysInc]
  | y :: l, hs, hk, hinj => by
    have hs' : KeysInc l := (List.pairwise_cons.1 hs).2
    have hlt := (List.pairwise_cons.1 hs).1
    unfold mapSet
    split
    · rename_i h
      refine ⟨List.pairwise_cons.2 ⟨fun z hz => ?_, hs⟩, fun x => ?_⟩
      · rcases List.mem_cons.1 hz with rfl | hz
        · exact h
        · exact Int.lt_trans h (hlt z hz)
      · simp only [List.mem_cons]; tauto
    · split
      · rename_i h
        have hy : y = (key v, v) := by
          have h1 := hk y (by simp)
          have h2 := hinj y (by simp) (by rw [← h1, h])
          exact Prod.ext h.symm h2
        rw [← hy]
        refine ⟨hs, fun x => ?_⟩
        simp only [List.mem_cons]; tauto
      · rename_i h1 h2
        obtain ⟨h3, h4⟩ := mapSet_spec key v l hs' (fun x hx => hk x (by simp [hx])) (fun x hx => hinj x (by simp [hx]))
        refine ⟨List.pairwise_cons.2 ⟨fun z hz => ?_, h3⟩, fun x => ?_⟩
        · rcases (h4 z).1 hz with hz | rfl
          · exact hlt z hz
          · show y.1 < key v; omega
        · simp only [List.mem_cons, h4]; tauto

/-- Entering a list of values. -/
theorem mapPut_all {β : Type} (key : β → Int) (S : β → Prop) (hinj : ∀ a b, S a → S b → key a = key b → a = b) :
    ∀ (vs : List β) (l : List (Int × β)), (∀ v ∈ vs, S v) → (∀ x ∈ l, S x.2) → KeysInc l → (∀ x ∈ l, x.1 = key x.2) →
    KeysInc (vs.foldl (fun acc v => mapPut (key v) v acc) l) ∧
    (∀ x, x ∈ vs.foldl (fun acc v => mapPut (key v) v acc) l ↔ x ∈ l ∨ (x.2 ∈ vs ∧ x.1 = key x.2))
  | [], l, _, _, h, _ => by simp [h]
  | v :: vs, l, hv, hl, h, hk => by
    obtain ⟨h1, h2⟩ := mapPut_spec key v l h hk (fun x hx he => hinj _ _ (hl x hx) (hv v (by simp)) he)
    obtain ⟨h3, h4⟩ := mapPut_all key S hinj vs _ (fun w hw => hv w (by simp [hw]))
      (fun x hx => by
        rcases (h2 x).1 hx with hx | rfl
        · exact hl x hx
        · exact hv v (by simp)) h1
      (fun x hx => by
        rcases (h2 x).1 hx with hx | rfl
        · exact hk x hx
        · rfl)
    refine ⟨h3, fun x => ?_⟩
    rw [List.foldl_cons, h4, h2]
    simp only [List.mem_cons]
    constructor
    · rintro ((hx | rfl) | ⟨hx, hx'⟩)
      · exact Or.inl hx
      · exact Or.inr ⟨Or.inl rfl, rfl⟩
      · exact Or.inr ⟨Or.inr hx, hx'⟩
    · rintro (hx | ⟨hx | hx, hx'⟩)
      · exact Or.inl (Or.inl hx)
      · exact Or.inl (Or.inr (Prod.ext (by rw [hx', hx]) hx))
      · exact Or.inr ⟨hx, hx'⟩

theorem mapSet_all {β : Type} (key : β → Int) (S : β → Prop) (hinj : ∀ a b, S a → S b → key a = key b → a = b) :
    ∀ (vs : List β) (l : List (Int × β)), (∀ v ∈ vs, S v) → (∀ x ∈ l, S x.2) → KeysInc l → (∀ x ∈ l, x.1 = key x.2) →
    KeysInc (vs.foldl (fun acc v => mapSet (key v) v acc) l) ∧
    (∀ x, x ∈ vs.foldl (fun acc v => mapSet (key v) v acc) l ↔ x ∈ l ∨ (x.2 ∈ vs ∧ x.1 = key x.2))
  | [], l, _, _, h, _ => by simp [h]
  | v :: vs, l, hv, hl, h, hk => by
    obtain ⟨h1, h2⟩ := mapSet_spec key v l h hk (fun x hx he => hinj _ _ (hl x hx) (hv v (by simp)) he)
    obtain ⟨h3, h4⟩ := mapSet_all key S hinj vs _ (fun w hw => hv w (by simp [hw]))
      (fun x hx => by
        rcases (h2 x).1 hx with hx | rfl
        · exact hl x hx
        · exact hv v (by simp)) h1
      (fun x hx => by
        rcases (h2 x).1 hx with hx | rfl
        · exact hk x hx
        · rfl)
    refine ⟨h3, fun x => ?_⟩
    rw [List.foldl_cons, h4, h2]
    simp only [List.mem_cons]
    constructor
    · rintro ((hx | rfl) | ⟨hx, hx'⟩)
      · exact Or.inl hx
      · exact Or.inr ⟨Or.inl rfl, rfl⟩
      · exact Or.inr ⟨Or.inr hx, hx'⟩
    · rintro (hx | ⟨hx | hx, hx'⟩)
      · exact Or.inl (Or.inl hx)
      · exact Or.inl (Or.inr (Prod.ext (by rw [hx', hx]) hx))
      · exact Or.inr ⟨hx, hx'⟩

theorem KeysInc.nodup_snd {β : Type} {l : List (Int × β)} (h : KeysInc l) (key : β → Int) (hk : ∀ x ∈ l, x.1 = key x.2) :
    (l.map (·.2)).Nodup := by
  rw [List.nodup_iff_pairwise_ne, List.pairwise_map]
  refine List.Pairwise.imp_of_mem ?_ h
  intro a b ha hb hlt he
  rw [hk a ha, hk b hb, he] at hlt
  omega

/-- Vertices used by the cells. -/
theorem usedVertices_spec {T : Topo} {m : Mesh (List C)} (hu : UniqueVids m) (cells : List Nat)
    (hv : ∀ c ∈ cells, ∀ v ∈ m.vertsOf T.cellDim c, v < m.verts.length) :
    KeysInc (usedVertices T m cells) ∧
    (∀ x, x ∈ usedVertices T m cells ↔ x.1 = m.vid x.2 ∧ ∃ c ∈ cells, x.2 ∈ m.vertsOf T.cellDim c) := by
  have hinj : ∀ a b, a < m.verts.length → b < m.verts.length → m.vid a = m.vid b → a = b := by
    intro a b ha hb h
    unfold Mesh.vid at h
    rw [List.getD_eq_getElem _ _ (by simpa using ha), List.getD_eq_getElem _ _ (by simpa using hb)] at h
    exact (List.Nodup.getElem_inj_iff hu).1 h
  have hfold : ∀ (cs : List Nat) (l : List (Int × Nat)),
      cs.foldl (fun acc c => (m.vertsOf T.cellDim c).foldl (fun acc v => mapPut (m.vid v) v acc) acc) l =
      (cs.flatMap (m.vertsOf T.cellDim)).foldl (fun acc v => mapPut (m.vid v) v acc) l := by
    intro cs
    induction cs with
    | nil => intro l; rfl
    | cons c cs ih => intro l; rw [List.foldl_cons, ih, List.flatMap_cons, List.foldl_append]
  unfold usedVertices
  rw [hfold]
  obtain ⟨h1, h2⟩ := mapPut_all m.vid (fun v => v < m.verts.length) hinj (cells.flatMap (m.vertsOf T.cellDim)) []
    (by
      intro v hv'
      obtain ⟨c, hc, hvc⟩ := List.mem_flatMap.1 hv'
      exact hv c hc v hvc) (by simp) List.Pairwise.nil (by simp)
  refine ⟨h1, fun x => ?_⟩
  rw [h2, List.mem_flatMap]
  simp only [List.not_mem_nil, false_or]
  tauto

theorem usedCells_spec {T : Topo} {m : Mesh (List C)} (hI : Inv T m) (hu : UniqueVids m) (cells : List Nat)
    (hc : ∀ c ∈ cells, c < m.count T.cellDim) :
    KeysInc (usedCells T m cells) ∧
    (∀ x, x ∈ usedCells T m cells ↔ x.1 = m.eid T.cellDim x.2 ∧ x.2 ∈ cells) := by
  unfold usedCells
  obtain ⟨h1, h2⟩ := mapSet_all (m.eid T.cellDim) (fun c => c < m.count T.cellDim)
    (fun a b ha hb h => eid_inj hI hu ha hb h) cells [] hc (by simp) List.Pairwise.nil (by simp)
  refine ⟨h1, fun x => ?_⟩
  rw [h2]
  simp only [List.not_mem_nil, false_or]
  tauto

/-! ### Positions -/

theorem idxOf_map {α β : Type} [BEq α] [LawfulBEq α] [BEq β] [LawfulBEq β] (F : α → β) (v : α) : ∀ (V : List α),
    (∀ u ∈ V, F u = F v → u = v) → (V.map F).idxOf (F v) = V.idxOf v
  | [], _ => rfl
  | u :: V, h => by
    rw [List.map_cons, List.idxOf_cons, List.idxOf_cons]
    by_cases he : u = v
    · subst he; simp
    · have hne : F u ≠ F v := fun e => he (h u (by simp) e)
      rw [beq_eq_false_iff_ne.2 hne, beq_eq_false_iff_ne.2 he]
      simp [idxOf_map F v V (fun w hw => h w (by simp [hw]))]

theorem idxOf_prefix {V W : List Nat} (h : V <+: W) {v : Nat} (hv : v ∈ V) : W.idxOf v = V.idxOf v := by
  obtain ⟨t, rfl⟩ := h
  rw [List.idxOf_append_of_mem hv]

theorem getElem?_idxOf {V : List Nat} {v : Nat} (hv : v ∈ V) : V[V.idxOf v]? = some v := by
  rw [List.getElem?_eq_getElem (List.idxOf_lt_length_iff.2 hv), List.getElem_idxOf]

/-- Entering a list of handles. -/
theorem foldl_insertUnique (U : List Nat) : ∀ (V : List Nat), V <+: U.foldl insertUnique V ∧
    (∀ v, v ∈ U.foldl insertUnique V ↔ v ∈ V ∨ v ∈ U) ∧ (V.Nodup → (U.foldl insertUnique V).Nodup) := by
  induction U with
  | nil => intro V; simp
  | cons u U ih =>
    intro V
    obtain ⟨h1, h2, h3⟩ := ih (insertUnique V u)
    have hp : V <+: insertUnique V u := by
      unfold insertUnique; split
      · exact List.prefix_refl _
      · exact List.prefix_append _ _
    refine ⟨hp.trans h1, fun v => ?_, fun h => h3 (insertUnique_nodup h u)⟩
    rw [List.foldl_cons, h2, mem_insertUnique, List.mem_cons]
    tauto

/-! ### Points -/

theorem readPoints_spec [DecidableEq C] (zero : C) (dim : Nat) (F : Nat → List C) (W : Nat → List C)
    (S : Nat → Prop) (hinj : ∀ u v, S u → S v → F u = F v → u = v) : ∀ (U V : List Nat), (∀ v ∈ U, S v) → (∀ v ∈ V, S v) →
    (∀ v ∈ U, ((List.range dim).map fun j => (W v).getD j zero) = F v) →
    readPoints zero dim (V.map F) (U.map W) =
      ((U.foldl insertUnique V).map F, U.map fun v => (U.foldl insertUnique V).idxOf v)
  | [], V, _, _, _ => rfl
  | u :: U, V, hU, hV, hW => by
    have hq := hW u (by simp)
    have hm : F u ∈ V.map F ↔ u ∈ V := by
      constructor
      · intro h
        obtain ⟨w, hw, he⟩ := List.mem_map.1 h
        rw [← hinj w u (hV w hw) (hU u (by simp)) he]; exact hw
      · exact fun h => List.mem_map_of_mem h
    have hu' : u ∈ insertUnique V u := by rw [mem_insertUnique]; exact Or.inr rfl
    have hpre := (foldl_insertUnique U (insertUnique V u)).1
    have hpos := idxOf_prefix hpre hu'
    simp only [List.map_cons, readPoints, hq, List.foldl_cons]
    by_cases h : u ∈ V
    · have hins : insertUnique V u = V := if_pos h
      rw [hins] at hpos hpre ⊢
      rw [if_pos (hm.2 h), readPoints_spec zero dim F W S hinj U V (fun v hv => hU v (by simp [hv])) hV
        (fun v hv => hW v (by simp [hv]))]
      simp only
      rw [hpos, idxOf_map F u V (fun w hw he => hinj w u (hV w hw) (hU u (by simp)) he)]
    · have hins : insertUnique V u = V ++ [u] := if_neg h
      rw [hins] at hpos hpre ⊢
      rw [if_neg (fun h' => h (hm.1 h'))]
      have hrec := readPoints_spec zero dim F W S hinj U (V ++ [u]) (fun v hv => hU v (by simp [hv]))
        (by
          intro v hv
          rcases List.mem_append.1 hv with hv | hv
          · exact hV v hv
          · rw [List.mem_singleton.1 hv]; exact hU u (by simp)) (fun v hv => hW v (by simp [hv]))
      rw [List.map_append, List.map_singleton] at hrec
      rw [hrec, hpos]
      simp only
      rw [List.idxOf_append_of_notMem h]
      simp

/-- The vertices of all files, each once. -/
def joinAll (Us : List (List Nat)) (V : List Nat) : List Nat := Us.foldl (fun V U => U.foldl insertUnique V) V

theorem joinAll_spec : ∀ (Us : List (List Nat)) (V : List Nat), V <+: joinAll Us V ∧
    (∀ v, v ∈ joinAll Us V ↔ v ∈ V ∨ ∃ U ∈ Us, v ∈ U) ∧ (V.Nodup → (joinAll Us V).Nodup)
  | [], V => by simp [joinAll]
  | U :: Us, V => by
    obtain ⟨h1, h2, h3⟩ := foldl_insertUnique U V
    obtain ⟨h4, h5, h6⟩ := joinAll_spec Us (U.foldl insertUnique V)
    refine ⟨h1.trans h4, fun v => ?_, fun h => h6 (h3 h)⟩
    have : v ∈ joinAll (U :: Us) V ↔ v ∈ joinAll Us (U.foldl insertUnique V) := Iff.rfl
    rw [this, h5, h2]
    simp only [List.mem_cons, exists_eq_or_imp]
    tauto

theorem readAllPoints_spec [DecidableEq C] (zero : C) (dim : Nat) (F : Nat → List C) (W : Nat → List C)
    (S : Nat → Prop) (hinj : ∀ u v, S u → S v → F u = F v → u = v) : ∀ (Us : List (List Nat)) (fs : List (Int × VtuFile C))
    (V : List Nat), List.Forall₂ (fun U f => f.2.points.take f.2.numPoints = U.map W) Us fs → (∀ U ∈ Us, ∀ v ∈ U, S v) →
    (∀ v ∈ V, S v) → (∀ U ∈ Us, ∀ v ∈ U, ((List.range dim).map fun j => (W v).getD j zero) = F v) →
    readAllPoints zero dim (V.map F) fs =
      ((joinAll Us V).map F, Us.map fun U => U.map fun v => (joinAll Us V).idxOf v)
  | [], _, V, .nil, _, _, _ => rfl
  | U :: Us, f :: fs, V, .cons hf hfs, hU, hV, hW => by
    have h1 := readPoints_spec zero dim F W S hinj U V (hU U (by simp)) hV (hW U (by simp))
    obtain ⟨h2, h3, -⟩ := foldl_insertUnique U V
    have hV' : ∀ v ∈ U.foldl insertUnique V, S v := by
      intro v hv
      rcases (h3 v).1 hv with hv | hv
      · exact hV v hv
      · exact hU U (by simp) v hv
    have h4 := readAllPoints_spec zero dim F W S hinj Us fs (U.foldl insertUnique V) hfs
      (fun U' hU' => hU U' (by simp [hU'])) hV' (fun U' hU' => hW U' (by simp [hU']))
    have hj : joinAll (U :: Us) V = joinAll Us (U.foldl insertUnique V) := rfl
    simp only [readAllPoints, hf, h1, h4, hj, List.map_cons]
    congr 2
    refine List.map_congr_left fun v hv => ?_
    exact (idxOf_prefix (joinAll_spec Us _).1 ((h3 v).2 (Or.inr hv))).symm

/-! ### Connectivity -/

theorem toVienna_lt (tag : VtkTag) {j : Nat} (h : j < tag.topo.nv tag.topo.cellDim) :
    tag.toVienna j < tag.topo.nv tag.topo.cellDim := by
  cases tag <;> simp only [VtkTag.topo, simplexTopo, cubeTopo] at h ⊢ <;> interval_cases j <;> simp [VtkTag.toVienna]

/-- The two reorderings undo each other. -/
theorem toVtk_toVienna (tag : VtkTag) {j : Nat} (h : j < tag.topo.nv tag.topo.cellDim) :
    tag.toVtk (tag.toVienna j) = j := by
  cases tag <;> simp only [VtkTag.topo, simplexTopo, cubeTopo] at h ⊢ <;> interval_cases j <;>
    simp [VtkTag.toVienna, VtkTag.toVtk]

theorem flatMap_getElem? {α β : Type} (f : α → List β) (n : Nat) : ∀ (l : List α) (_ : ∀ a ∈ l, (f a).length = n) (i j : Nat)
    (a : α), l[i]? = some a → j < n → (l.flatMap f)[j + i * n]? = (f a)[j]?
  | [], _, i, j, a, h, _ => by simp at h
  | b :: l, hl, 0, j, a, h, hj => by
    simp only [List.getElem?_cons_zero, Option.some.injEq] at h
    subst h
    rw [List.flatMap_cons, Nat.zero_mul, Nat.add_zero, List.getElem?_append_left (by rw [hl b (by simp)]; exact hj)]
  | b :: l, hl, i + 1, j, a, h, hj => by
    rw [List.flatMap_cons, List.getElem?_append_right (by rw [hl b (by simp), Nat.add_mul]; omega), hl b (by simp)]
    have : j + (i + 1) * n - n = j + i * n := by rw [Nat.add_mul]; omega
    rw [this]
    exact flatMap_getElem? f n l (fun a ha => hl a (by simp [ha])) i j a (by simpa using h) hj

theorem vtkIndex_eq {used : List (Int × Nat)} {v : Nat} (hv : v ∈ used.map (·.2)) :
    vtkIndex used v = ((used.map (·.2)).idxOf v : Nat) := by
  have h : used.findIdx? (fun x => x.2 == v) = some ((used.map (·.2)).idxOf v) := by
    induction used with
    | nil => simp at hv
    | cons x l ih =>
      rw [List.findIdx?_cons, List.map_cons, List.idxOf_cons]
      by_cases hx : x.2 = v
      · simp [hx]
      · have h' : v ∈ l.map (·.2) := by
          rw [List.map_cons, List.mem_cons] at hv
          rcases hv with h | h
          · exact absurd h.symm hx
          · exact h
        rw [beq_eq_false_iff_ne.2 hx]
        simp [ih h']
  unfold vtkIndex
  rw [h]

theorem mapM_range_some {α : Type} {n : Nat} {g : Nat → Option α} {l : List α} (hl : l.length = n)
    (h : ∀ j < n, g j = l[j]?) : (List.range n).mapM g = some l := by
  have key : ∀ (k : Nat) (l : List α) (s : Nat), l.length = k → (∀ j < k, g (s + j) = l[j]?) →
      (List.range' s k).mapM g = some l := by
    intro k
    induction k with
    | zero =>
      intro l s hl _
      obtain rfl := List.length_eq_zero_iff.1 hl
      rfl
    | succ k ih =>
      intro l s hl h
      obtain ⟨a, l, rfl⟩ := List.exists_cons_of_length_eq_add_one hl
      have h0 := h 0 (by omega)
      simp only [Nat.add_zero, List.getElem?_cons_zero] at h0
      have hrec := ih l (s + 1) (by simpa using hl) (fun j hj => by
        have := h (j + 1) (by omega)
        rw [List.getElem?_cons_succ] at this
        rw [← this]; congr 1; omega)
      rw [List.range'_succ, List.mapM_cons, h0, hrec]
      rfl
  rw [List.range_eq_range']
  exact key n l 0 hl (fun j hj => by rw [Nat.zero_add]; exact h j hj)

/-- A cell is read with its vertices in the order it was written from. -/
theorem vtkCell_spec (tag : VtkTag) {used : List (Int × Nat)} (vertsOf : Nat → List Nat) (K : List Nat)
    (hlen : ∀ c ∈ K, (vertsOf c).length = tag.topo.nv tag.topo.cellDim)
    (hused : ∀ c ∈ K, ∀ v ∈ vertsOf c, v ∈ used.map (·.2)) (φ : Nat → Nat) {i c : Nat} (hi : K[i]? = some c) :
    vtkCell tag (K.flatMap fun c => vtkConn tag used (vertsOf c)) ((used.map (·.2)).map φ)
      (i * tag.topo.nv tag.topo.cellDim) (tag.topo.nv tag.topo.cellDim) = some ((vertsOf c).map φ) := by
  have hc := List.mem_of_getElem? hi
  unfold vtkCell
  rw [if_pos rfl]
  refine mapM_range_some (by simp [hlen c hc]) fun j hj => ?_
  have hj' := toVienna_lt tag hj
  rw [flatMap_getElem? _ _ K (fun a ha => by simp [vtkConn, hlen a ha]) i _ c hi hj']
  have hjl : j < (vertsOf c).length := by rw [hlen c hc]; exact hj
  have hv := hused c hc _ (List.getElem_mem hjl)
  have hconn : (vtkConn tag used (vertsOf c))[tag.toVienna j]? =
      some (((used.map (·.2)).idxOf (vertsOf c)[j] : Nat) : Int) := by
    unfold vtkConn
    rw [List.getElem?_map, List.getElem?_range (by rw [hlen c hc]; exact hj')]
    simp only [Option.map_some, Option.some.injEq]
    rw [toVtk_toVienna tag hj, List.getD_eq_getElem _ _ (by simpa using hjl), List.getElem_map, vtkIndex_eq hv]
  rw [hconn]
  simp only [Option.bind_some]
  rw [if_pos (by omega), Int.toNat_natCast, List.getElem?_map, getElem?_idxOf hv, List.getElem?_map,
    List.getElem?_eq_getElem hjl]

/-! ### The mesh that is made -/

/-- A vertex with its id. -/
def vtkVertex (i : Nat) (p : List C) : Vtx (List C) := ⟨i, p⟩

theorem vtkVertices_unique (m : Mesh (List C)) (pts : List (List C)) (h : m.verts = pts.mapIdx vtkVertex) :
    UniqueVids m := by
  unfold UniqueVids
  rw [h]
  have : (pts.mapIdx vtkVertex).map (·.id) = (List.range pts.length).map (fun k : Nat => (k : Int)) := by
    apply List.ext_getElem
    · simp
    · intro i h1 h2
      rw [List.getElem_map, List.getElem_mapIdx, List.getElem_map, List.getElem_range]
      rfl
  rw [this]
  exact List.nodup_range.map fun a b h => by simpa using h

theorem vtkVertices_vid {m : Mesh (List C)} {pts : List (List C)} (h : m.verts = pts.mapIdx vtkVertex) {v : Nat}
    (hv : v < pts.length) : m.vid v = v := by
  unfold Mesh.vid
  rw [List.getD_eq_getElem _ _ (by simp [h, hv]), List.getElem_map]
  simp [h, vtkVertex]

/-- What has been made: all vertices; the cells `Cc` with the vertices `val`; `done` lists segment and cell of all cells
read so far. -/
structure VtkInv (T : Topo) (pts : List (List C)) (val : Nat → List Nat) (done : List (Nat × Nat)) (Cc : List Nat)
    (s : VtkState C) : Prop where
  reached : SegReached T s.st
  verts : s.st.mesh.verts = pts.mapIdx vtkVertex
  cells : (s.st.mesh.elems T.cellDim).map (·.verts) = Cc.map val
  ids : IdsCont s.st.mesh
  keys : s.cells = Cc.mapIdx fun i c => ((val c).map Int.ofNat, i)
  added : ∀ g x, x ∈ s.st.added g ↔ ∃ c, (g, c) ∈ done ∧ (x = (T.cellDim, Cc.idxOf c) ∨ ∃ v ∈ val c, x = (0, v))
  mem : ∀ c, c ∈ Cc ↔ ∃ g, (g, c) ∈ done
  nodup : Cc.Nodup

theorem VtkInv.empty (T : Topo) (val : Nat → List Nat) :
    VtkInv T [] val [] [] ⟨(SegState.empty : SegState (List C)), [], []⟩ :=
  ⟨⟨[], by simp, rfl, by simp [UniqueVids, SegState.empty, Mesh.empty]⟩, rfl, rfl, fun d => by simp [SegState.empty, Mesh.empty],
    rfl, fun n x => by simp [SegState.empty], by simp, List.nodup_nil⟩

theorem setupVertices_spec (T : Topo) (val : Nat → List Nat) : ∀ (ps done : List (List C)) (m : Mesh (List C)),
    VtkInv T done val [] [] ⟨{ (SegState.empty : SegState (List C)) with mesh := m }, [], []⟩ →
    VtkInv T (done ++ ps) val [] []
      ⟨{ (SegState.empty : SegState (List C)) with mesh := setupVertices m done.length ps }, [], []⟩
  | [], done, m, h => by simpa [setupVertices] using h
  | p :: ps, done, m, h => by
    have hv : (m.makeVertex (some (done.length : Int)) p).verts = (done ++ [p]).mapIdx vtkVertex := by
      have := h.verts
      simp only at this
      simp [Mesh.makeVertex, this, vtkVertex]
    have hnext : VtkInv T (done ++ [p]) val [] []
        ⟨{ (SegState.empty : SegState (List C)) with mesh := m.makeVertex (some (done.length : Int)) p }, [], []⟩ := by
      refine ⟨?_, hv, h.cells, h.ids, h.keys, h.added, h.mem, h.nodup⟩
      refine h.reached.step (op := .mesh (.vertex (some (done.length : Int)) p)) (fun o ho => ?_) rfl
        (vtkVertices_unique _ _ hv)
      simp only [SOp.creation, Option.some.injEq] at ho; subst ho; trivial
    have := setupVertices_spec T val ps (done ++ [p]) _ hnext
    simpa [setupVertices] using this

theorem addElem_mesh (T : Topo) (st : SegState (List C)) (g d t : Nat) : (st.addElem T g d t).mesh = st.mesh := by
  unfold SegState.addElem
  simp only
  exact (addAll_mesh _ _ _).1

theorem addElem_added (T : Topo) (st : SegState (List C)) (g d t g' : Nat) :
    (st.addElem T g d t).added g' = if g' = g then st.added g' ++ [(d, t)] else st.added g' := by
  unfold SegState.addElem
  simp only [(addAll_mesh _ _ _).2]
  by_cases h : g' = g
  · subst h; simp
  · simp [h]

theorem addVertices_spec (T : Topo) (g : Nat) : ∀ (vs : List Nat) (st : SegState (List C)), SegReached T st →
    (∀ v ∈ vs, v < st.mesh.verts.length) → ∃ st', addVertices T g st vs = some st' ∧ SegReached T st' ∧
      st'.mesh = st.mesh ∧ ∀ g' x, x ∈ st'.added g' ↔ x ∈ st.added g' ∨ (g' = g ∧ ∃ v ∈ vs, x = (0, v))
  | [], st, h, _ => ⟨st, rfl, h, rfl, by simp⟩
  | v :: vs, st, h, hlt => by
    have hs : st.step T (.add g 0 v) = some (st.addElem T g 0 v) := by
      simp only [SegState.step]
      rw [if_pos ⟨Nat.zero_le _, by simpa [Mesh.count] using hlt v (by simp)⟩]
    have hu : UniqueVids st.mesh := by obtain ⟨_, _, _, hu⟩ := h; exact hu
    have hr := h.step (op := .add g 0 v) (fun o ho => by simp [SOp.creation] at ho) hs (by rw [addElem_mesh]; exact hu)
    obtain ⟨st', h1, h2, h3, h4⟩ := addVertices_spec T g vs (st.addElem T g 0 v) hr
      (fun w hw => by rw [addElem_mesh]; exact hlt w (by simp [hw]))
    refine ⟨st', by simp only [addVertices, hs, Option.bind_some, h1], h2, by rw [h3, addElem_mesh], fun g' x => ?_⟩
    rw [h4, addElem_added]
    by_cases hg : g' = g
    · subst hg
      simp only [if_true, List.mem_append, List.mem_cons, List.not_mem_nil, or_false, true_and, exists_eq_or_imp]
      tauto
    · simp [hg]

/-- The search for a cell with the same vertices. -/
theorem find_key (key : Nat → List Int) (c : Nat) : ∀ (Cc : List Nat) (s : Nat), (∀ c' ∈ Cc, key c' = key c → c' = c) →
    (Cc.mapIdx fun i c => (key c, s + i)).find? (fun x => x.1 == key c) =
      if c ∈ Cc then some (key c, s + Cc.idxOf c) else none
  | [], _, _ => rfl
  | d :: Cc, s, h => by
    rw [List.mapIdx_cons, List.find?_cons]
    by_cases hd : d = c
    · subst hd; simp
    · have hne : key d ≠ key c := fun e => hd (h d (by simp) e)
      have hrec := find_key key c Cc (s + 1) (fun c' hc' => h c' (by simp [hc']))
      have hfun : (fun i c => (key c, s + (i + 1))) = (fun i c => (key c, s + 1 + i)) := by
        funext i c; rw [Nat.add_assoc, Nat.add_comm 1]
      simp only [beq_eq_false_iff_ne.2 hne, hfun, hrec, List.mem_cons]
      have : (c = d ∨ c ∈ Cc) ↔ c ∈ Cc := ⟨fun h => h.resolve_left (fun e => hd e.symm), Or.inr⟩
      simp only [this, List.idxOf_cons, beq_eq_false_iff_ne.2 hd]
      split
      · simp; omega
      · rfl

theorem makeCell_spec {T : Topo} (hT : T.WF) (hn : 1 ≤ T.cellDim) {pts : List (List C)} {val : Nat → List Nat}
    {done : List (Nat × Nat)} {Cc : List Nat} {s : VtkState C} (h : VtkInv T pts val done Cc s) (g c : Nat)
    (hnd : (val c).Nodup) (hlen : (val c).length = T.nv T.cellDim) (hlt : ∀ v ∈ val c, v < pts.length)
    (hinj : ∀ c' ∈ Cc, val c' = val c → c' = c) :
    ∃ s', s.makeCell T g (val c) = some s' ∧ VtkInv T pts val (done ++ [(g, c)]) (insertUnique Cc c) s' ∧
      s'.handles = s.handles ++ [(insertUnique Cc c).idxOf c] := by
  obtain ⟨st1, h1, h2, h3, h4⟩ := addVertices_spec T g (val c) s.st h.reached (by rw [h.verts]; simpa using hlt)
  have hu : UniqueVids st1.mesh := by obtain ⟨_, _, _, hu⟩ := h2; exact hu
  have hkey : (val c).map st1.mesh.vid = (val c).map Int.ofNat := by
    refine List.map_congr_left fun v hv => ?_
    rw [h3]
    exact vtkVertices_vid h.verts (hlt v hv)
  have hcount : (s.st.mesh.elems T.cellDim).length = Cc.length := by
    have := congrArg List.length h.cells
    simpa using this
  have hfind := find_key (fun c => (val c).map Int.ofNat) c Cc 0 (fun c' hc' he => hinj c' hc'
    (List.map_injective_iff.2 Int.ofNat_injective he))
  simp only [Nat.zero_add] at hfind
  have hdone : ∀ {x : Nat × Nat}, x ∈ done → x.2 ∈ Cc := fun {x} hx => (h.mem x.2).2 ⟨x.1, hx⟩
  unfold VtkState.makeCell
  rw [h1]
  simp only [Option.bind_some, hkey, h.keys, hfind]
  by_cases hc : c ∈ Cc
  · have hins : insertUnique Cc c = Cc := if_pos hc
    simp only [if_pos hc, hins]
    have hs : st1.step T (.add g T.cellDim (Cc.idxOf c)) = some (st1.addElem T g T.cellDim (Cc.idxOf c)) := by
      have hlt' : Cc.idxOf c < st1.mesh.count T.cellDim := by
        unfold Mesh.count
        rw [if_neg (by omega), h3, hcount]
        exact List.idxOf_lt_length_iff.2 hc
      simp only [SegState.step]
      rw [if_pos ⟨Nat.le_refl _, hlt'⟩]
    rw [hs]
    refine ⟨_, rfl, ⟨?_, ?_, ?_, ?_, ?_, ?_, ?_, h.nodup⟩, rfl⟩
    · exact h2.step (op := .add g T.cellDim (Cc.idxOf c)) (fun o ho => by simp [SOp.creation] at ho) hs
        (by rw [addElem_mesh]; exact hu)
    · simp only [addElem_mesh, h3]; exact h.verts
    · simp only [addElem_mesh, h3]; exact h.cells
    · simp only [addElem_mesh, h3]; exact h.ids
    · exact rfl
    · intro g' x
      simp only [addElem_added]
      by_cases hg : g' = g
      · subst hg
        simp only [if_true, List.mem_append, List.mem_singleton, h4, h.added, true_and]
        constructor
        · rintro ((⟨c', hc', hx⟩ | hx) | hx)
          · exact ⟨c', Or.inl hc', hx⟩
          · exact ⟨c, Or.inr rfl, Or.inr hx⟩
          · exact ⟨c, Or.inr rfl, Or.inl hx⟩
        · rintro ⟨c', hc' | hc', hx⟩
          · exact Or.inl (Or.inl ⟨c', hc', hx⟩)
          · simp only [Prod.mk.injEq, true_and] at hc'
            subst hc'
            rcases hx with hx | hx
            · exact Or.inr hx
            · exact Or.inl (Or.inr hx)
      · rw [if_neg hg, h4, h.added]
        simp only [List.mem_append, List.mem_singleton, Prod.mk.injEq, hg, false_and, or_false]
    · intro c'
      rw [h.mem]
      constructor
      · rintro ⟨g', hg'⟩; exact ⟨g', by simp [hg']⟩
      · rintro ⟨g', hg'⟩
        rw [List.mem_append, List.mem_singleton] at hg'
        rcases hg' with hg' | hg'
        · exact ⟨g', hg'⟩
        · simp only [Prod.mk.injEq] at hg'
          rw [← h.mem, hg'.2]; exact hc
  · have hins : insertUnique Cc c = Cc ++ [c] := if_neg hc
    have hpos : (Cc ++ [c]).idxOf c = Cc.length := by rw [List.idxOf_append_of_notMem hc]; simp
    have hidx : ∀ c' ∈ Cc, (Cc ++ [c]).idxOf c' = Cc.idxOf c' := fun c' hc' => List.idxOf_append_of_mem hc'
    simp only [if_neg hc, hins, hpos]
    have hI := h2.invOn hT hT.closedOn
    have hlt' : ∀ v ∈ val c, v < st1.mesh.verts.length := by rw [h3, h.verts]; simpa using hlt
    have hs' := makeElem_spec hT hI.mesh hu hn ⟨hnd, Or.inl hlen, hlt'⟩
    have hms : st1.mesh.step T (.elem T.cellDim (val c)) = some (st1.mesh.makeElem T T.cellDim (val c)).mesh := by
      simp only [Mesh.step]
      rw [if_pos ⟨hn, Nat.le_refl _, Or.inl hlen, hlt'⟩]
    have hnew : (st1.mesh.makeElem T T.cellDim (val c)).new = true := hs'.isnew.2 (Or.inl rfl)
    obtain ⟨hslot, e, he1, he2⟩ := hs'.appended hnew
    have hcnt : st1.mesh.count T.cellDim = Cc.length := by
      unfold Mesh.count; rw [if_neg (by omega), h3, hcount]
    obtain ⟨st2, hst2, hm2, ha2⟩ : ∃ st2, st1.step T (.make g (.elem T.cellDim (val c))) = some st2 ∧
        st2.mesh = (st1.mesh.makeElem T T.cellDim (val c)).mesh ∧
        ∀ g', st2.added g' = if g' = g then st1.added g' ++ [(T.cellDim, Cc.length)] else st1.added g' := by
      simp only [SegState.step, SegState.makeIn, hms, Option.map_some]
      refine ⟨_, rfl, addElem_mesh T _ _ _ _, fun g' => ?_⟩
      rw [addElem_added]
      rw [← hcount, ← h3, ← hslot]
      rfl
    rw [hst2, hcnt]
    refine ⟨_, rfl, ⟨?_, ?_, ?_, ?_, ?_, ?_, ?_, ?_⟩, rfl⟩
    · refine h2.step (op := .make g (.elem T.cellDim (val c))) (fun o ho => ?_) hst2 ?_
      · simp only [SOp.creation, Option.some.injEq] at ho; subst ho; exact hnd
      · unfold UniqueVids
        rw [hm2, hs'.ext.verts]
        exact hu
    · show st2.mesh.verts = _
      rw [hm2, hs'.ext.verts, h3, h.verts]
    · show (st2.mesh.elems T.cellDim).map _ = _
      rw [hm2, he2, h3]
      simp [h.cells, he1]
    · simp only [hm2]
      exact insertN_idsCont T _ _ _ _ (by rw [h3]; exact h.ids)
    · simp
    · intro g' x
      simp only [ha2]
      by_cases hg : g' = g
      · subst hg
        simp only [if_true, List.mem_append, List.mem_singleton, h4, h.added, true_and]
        constructor
        · rintro ((⟨c', hc', hx⟩ | hx) | hx)
          · exact ⟨c', Or.inl hc', by rw [hidx c' (hdone hc')]; exact hx⟩
          · exact ⟨c, Or.inr rfl, Or.inr hx⟩
          · exact ⟨c, Or.inr rfl, Or.inl (by rw [hpos]; exact hx)⟩
        · rintro ⟨c', hc' | hc', hx⟩
          · exact Or.inl (Or.inl ⟨c', hc', by rw [hidx c' (hdone hc')] at hx; exact hx⟩)
          · simp only [Prod.mk.injEq, true_and] at hc'
            subst hc'
            rw [hpos] at hx
            rcases hx with hx | hx
            · exact Or.inr hx
            · exact Or.inl (Or.inr hx)
      · rw [if_neg hg, h4, h.added]
        simp only [List.mem_append, List.mem_singleton, Prod.mk.injEq, hg, false_and, or_false]
        refine exists_congr fun c' => and_congr_right fun hc' => ?_
        rw [hidx c' (hdone hc')]
    · intro c'
      simp only [List.mem_append, List.mem_singleton, h.mem, Prod.mk.injEq]
      constructor
      · rintro (⟨g', hg'⟩ | rfl)
        · exact ⟨g', Or.inl hg'⟩
        · exact ⟨g, Or.inr ⟨rfl, rfl⟩⟩
      · rintro ⟨g', hg' | ⟨-, hg'⟩⟩
        · exact Or.inl ⟨g', hg'⟩
        · exact Or.inr hg'
    · rw [← hins]; exact insertUnique_nodup h.nodup c

/-- What a cell must satisfy. -/
structure VtkCellOK (T : Topo) (n : Nat) (val : Nat → List Nat) (S : Nat → Prop) : Prop where
  nodup : ∀ c, S c → (val c).Nodup
  length : ∀ c, S c → (val c).length = T.nv T.cellDim
  lt : ∀ c, S c → ∀ v ∈ val c, v < n
  inj : ∀ c c', S c → S c' → val c = val c' → c = c'

/-- The cells of one file; `pre` are those read before. -/
theorem setupCells_spec (tag : VtkTag) (hT : tag.topo.WF) (hn : 1 ≤ tag.topo.cellDim) (g : Nat) (conn : List Int) (l2g : List Nat)
    {pts : List (List C)} {val : Nat → List Nat} {S : Nat → Prop} (hok : VtkCellOK tag.topo pts.length val S)
    (K : List Nat) (hK : ∀ c ∈ K, S c)
    (hcell : ∀ i c, K[i]? = some c → vtkCell tag conn l2g (i * tag.topo.nv tag.topo.cellDim)
      (tag.topo.nv tag.topo.cellDim) = some (val c)) :
    ∀ (rest pre : List Nat) (done : List (Nat × Nat)) (Cc : List Nat) (s : VtkState C), K = pre ++ rest →
    VtkInv tag.topo pts val done Cc s → (∀ c ∈ Cc, S c) →
    ∃ s', setupCells tag g conn l2g rest.length (pre.length * tag.topo.nv tag.topo.cellDim)
        ((List.range' pre.length rest.length).map fun k => (k + 1) * tag.topo.nv tag.topo.cellDim) s = some s' ∧
      VtkInv tag.topo pts val (done ++ rest.map fun c => (g, c)) (rest.foldl insertUnique Cc) s' ∧
      s'.handles = s.handles ++ rest.map fun c => (rest.foldl insertUnique Cc).idxOf c
  | [], pre, done, Cc, s, _, h, _ => ⟨s, rfl, by simpa using h, by simp⟩
  | c :: rest, pre, done, Cc, s, hsplit, h, hS => by
    have hcK : K[pre.length]? = some c := by rw [hsplit]; simp
    have hSc := hK c (List.mem_of_getElem? hcK)
    obtain ⟨s1, h1, h2, h3⟩ := makeCell_spec hT hn h g c (hok.nodup c hSc) (hok.length c hSc) (hok.lt c hSc)
      (fun c' hc' he => hok.inj c' c (hS c' hc') hSc he)
    have hS' : ∀ c' ∈ insertUnique Cc c, S c' := by
      intro c' hc'
      rcases (mem_insertUnique _ _ _).1 hc' with h | h
      · exact hS c' h
      · rw [h]; exact hSc
    obtain ⟨s2, h4, h5, h6⟩ := setupCells_spec tag hT hn g conn l2g hok K hK hcell rest (pre ++ [c]) _ _ s1
      (by rw [hsplit]; simp) h2 hS'
    refine ⟨s2, ?_, by simpa using h5, ?_⟩
    · simp only [List.length_cons, List.range'_succ, List.map_cons, setupCells]
      have hd : (pre.length + 1) * tag.topo.nv tag.topo.cellDim - pre.length * tag.topo.nv tag.topo.cellDim =
          tag.topo.nv tag.topo.cellDim := by rw [Nat.add_mul]; omega
      rw [hd, hcell _ _ hcK]
      simp only [Option.bind_some, h1]
      simpa using h4
    · rw [h6, h3]
      have hc : c ∈ insertUnique Cc c := by rw [mem_insertUnique]; exact Or.inr rfl
      rw [List.foldl_cons, List.map_cons, idxOf_prefix (foldl_insertUnique rest _).1 hc]
      simp

/-- The cells of all files. -/
theorem setupAllCells_spec (tag : VtkTag) (hT : tag.topo.WF) (hn : 1 ≤ tag.topo.cellDim)
    {pts : List (List C)} {val : Nat → List Nat} {S : Nat → Prop} (hok : VtkCellOK tag.topo pts.length val S) :
    ∀ (Ks : List (Nat × List Nat)) (fs : List (Int × VtuFile C)) (ls : List (List Nat)) (done : List (Nat × Nat))
    (Cc : List Nat) (s : VtkState C), (∀ K ∈ Ks, ∀ c ∈ K.2, S c) → (∀ c ∈ Cc, S c) →
    List.Forall₂ (fun K f => f.1.toNat = K.1 ∧ f.2.numCells = K.2.length ∧
      f.2.offsets = (List.range K.2.length).map fun k => (k + 1) * tag.topo.nv tag.topo.cellDim) Ks fs →
    List.Forall₂ (fun (x : (Nat × List Nat) × (Int × VtuFile C)) l => ∀ i c, x.1.2[i]? = some c →
      vtkCell tag x.2.2.conn l (i * tag.topo.nv tag.topo.cellDim) (tag.topo.nv tag.topo.cellDim) = some (val c))
      (Ks.zip fs) ls →
    VtkInv tag.topo pts val done Cc s →
    ∃ s', setupAllCells tag fs ls s = some (s', Ks.map fun K => K.2.map fun c => (joinAll (Ks.map Prod.snd) Cc).idxOf c) ∧
      VtkInv tag.topo pts val (done ++ Ks.flatMap fun K => K.2.map fun c => (K.1, c)) (joinAll (Ks.map Prod.snd) Cc) s'
  | [], _, _, done, Cc, s, _, _, .nil, .nil, h => ⟨s, rfl, by simpa [joinAll] using h⟩
  | K :: Ks, f :: fs, l :: ls, done, Cc, s, hK, hS, .cons hf hfs, .cons hl hls, h => by
    obtain ⟨hf1, hf2, hf3⟩ := hf
    have h0 : VtkInv tag.topo pts val done Cc { s with handles := [] } :=
      ⟨h.reached, h.verts, h.cells, h.ids, h.keys, h.added, h.mem, h.nodup⟩
    obtain ⟨s1, h1, h2, h3⟩ := setupCells_spec tag hT hn K.1 f.2.conn l hok K.2 (hK K (by simp)) hl K.2 [] done Cc
      { s with handles := [] } rfl h0 hS
    have hmem := (foldl_insertUnique K.2 Cc).2.1
    have hS' : ∀ c ∈ K.2.foldl insertUnique Cc, S c := by
      intro c hc
      rcases (hmem c).1 hc with hc | hc
      · exact hS c hc
      · exact hK K (by simp) c hc
    obtain ⟨s2, h4, h5⟩ := setupAllCells_spec tag hT hn hok Ks fs ls _ _ s1 (fun K' hK' => hK K' (by simp [hK'])) hS' hfs hls h2
    have hj : joinAll ((K :: Ks).map Prod.snd) Cc = joinAll (Ks.map Prod.snd) (K.2.foldl insertUnique Cc) := rfl
    refine ⟨s2, ?_, by rw [hj]; simpa using h5⟩
    rw [hj]
    simp only [setupAllCells, hf1, hf2, hf3, List.map_cons]
    simp only [List.length_nil, Nat.zero_mul, ← List.range_eq_range'] at h1
    rw [h1]
    simp only [Option.bind_some, h4, Option.map_some, Option.some.injEq, Prod.mk.injEq, true_and, h3, List.nil_append]
    congr 1
    refine List.map_congr_left fun c hc => ?_
    exact (idxOf_prefix (joinAll_spec _ _).1 ((hmem c).2 (Or.inr hc))).symm

/-! ### Files -/

theorem sortFiles_spec (gs : List Nat) (F : Nat → VtuFile C) : ∃ gs' : List Nat, gs'.Pairwise (· < ·) ∧
    (∀ g, g ∈ gs' ↔ g ∈ gs) ∧ sortFiles (gs.map fun g => (g, F g)) = gs'.map fun g : Nat => ((g : Int), F g) := by
  have hrel : ∀ (l : List (Int × Nat)) (g : Nat),
      (mapSet (g : Int) g l).map (fun x => (x.1, F x.2)) = mapSet (g : Int) (F g) (l.map fun x => (x.1, F x.2)) := by
    intro l g
    induction l with
    | nil => rfl
    | cons x l ih =>
      simp only [mapSet, List.map_cons]
      split
      · rfl
      · split
        · rfl
        · simp [ih]
  have hfold : ∀ (gs : List Nat) (l : List (Int × Nat)),
      (gs.map fun g => (g, F g)).foldl (fun acc f => mapSet (f.1 : Int) f.2 acc) (l.map fun x => (x.1, F x.2)) =
      (gs.foldl (fun acc (g : Nat) => mapSet (g : Int) g acc) l).map fun x => (x.1, F x.2) := by
    intro gs
    induction gs with
    | nil => intro l; rfl
    | cons g gs ih => intro l; rw [List.map_cons, List.foldl_cons, List.foldl_cons, ← ih, hrel]
  obtain ⟨h1, h2⟩ := mapSet_all (fun g : Nat => (g : Int)) (fun _ => True) (fun a b _ _ h => by simpa using h) gs []
    (by simp) (by simp) List.Pairwise.nil (by simp)
  simp only [List.not_mem_nil, false_or] at h2
  generalize hL : gs.foldl (fun acc (g : Nat) => mapSet (g : Int) g acc) ([] : List (Int × Nat)) = L at h1 h2
  refine ⟨L.map (·.2), ?_, ?_, ?_⟩
  · rw [List.pairwise_map]
    refine List.Pairwise.imp_of_mem ?_ h1
    intro a b ha hb hlt
    have ha' := ((h2 a).1 ha).2
    have hb' := ((h2 b).1 hb).2
    omega
  · intro g
    rw [List.mem_map]
    constructor
    · rintro ⟨x, hx, rfl⟩; exact ((h2 x).1 hx).1
    · intro hg; exact ⟨((g : Int), g), (h2 _).2 ⟨hg, rfl⟩, rfl⟩
  · unfold sortFiles
    have := hfold gs []
    rw [List.map_nil] at this
    rw [this, hL, List.map_map]
    refine List.map_congr_left fun x hx => ?_
    have := ((h2 x).1 hx).2
    simp only [Function.comp]
    rw [this]

theorem VtkTag.wf (tag : VtkTag) : tag.topo.WF := by
  cases tag <;> simp only [VtkTag.topo]
  · exact simplexTopo_wf 1
  · exact simplexTopo_wf 2
  · exact simplexTopo_wf 3
  · exact cubeTopo_wf 2
  · exact cubeTopo_wf 3

theorem VtkTag.poly (tag : VtkTag) : tag.topo.poly = false := by cases tag <;> rfl

theorem VtkTag.cellDim_pos (tag : VtkTag) : 1 ≤ tag.topo.cellDim := by
  cases tag <;> simp [VtkTag.topo, simplexTopo, cubeTopo]

/-! ### Writing and reading -/

/-- The vertices in a file. -/
def fileVerts (tag : VtkTag) (m : Mesh (List C)) (cells : List Nat) : List Nat := (usedVertices tag.topo m cells).map (·.2)

/-- The cells in a file. -/
def fileCells (tag : VtkTag) (m : Mesh (List C)) (cells : List Nat) : List Nat := (usedCells tag.topo m cells).map (·.2)

/-- The point of a vertex as it is read. -/
def readPt (txt : C → C) (m : Mesh (List C)) (v : Nat) : List C := ((m.ptOf v).getD []).map txt

theorem vertsOf_of {m : Mesh (List C)} {d c : Nat} {e : Elem} (h : (m.elems d)[c]? = some e) : m.vertsOf d c = e.verts := by
  unfold Mesh.vertsOf
  simp [List.getD, h]

/-- What is asked of the cells that are written: they exist, have different vertices and points. -/
structure Writable (tag : VtkTag) (txt : C → C) (dim : Nat) (m : Mesh (List C)) (S : Nat → Prop) : Prop where
  inv : Inv tag.topo m
  vids : UniqueVids m
  lt : ∀ c, S c → c < m.count tag.topo.cellDim
  dim : ∀ c, S c → ∀ v ∈ m.vertsOf tag.topo.cellDim c, ((m.ptOf v).getD []).length = dim
  pts : ∀ c, S c → ∀ v ∈ m.vertsOf tag.topo.cellDim c, ∀ c', S c' → ∀ v' ∈ m.vertsOf tag.topo.cellDim c',
    readPt txt m v = readPt txt m v' → v = v'
  cells : ∀ c c', S c → S c' → m.vertsOf tag.topo.cellDim c = m.vertsOf tag.topo.cellDim c' → c = c'

theorem Writable.elem {tag : VtkTag} {txt : C → C} {dim : Nat} {m : Mesh (List C)} {S : Nat → Prop}
    (h : Writable tag txt dim m S) {c : Nat} (hc : S c) :
    ∃ e, (m.elems tag.topo.cellDim)[c]? = some e ∧ m.vertsOf tag.topo.cellDim c = e.verts ∧
      VertsOK tag.topo m tag.topo.cellDim e.verts := by
  have h1 := h.lt c hc
  unfold Mesh.count at h1
  rw [if_neg (by have := tag.cellDim_pos; omega)] at h1
  exact ⟨_, List.getElem?_eq_getElem h1, vertsOf_of (List.getElem?_eq_getElem h1), h.inv.verts _ _ (List.getElem_mem h1)⟩

theorem fileVerts_spec {tag : VtkTag} {txt : C → C} {dim : Nat} {m : Mesh (List C)} {S : Nat → Prop}
    (h : Writable tag txt dim m S) {cells : List Nat} (hc : ∀ c ∈ cells, S c) :
    (fileVerts tag m cells).Nodup ∧ (fileVerts tag m cells).Pairwise (fun a b => m.vid a < m.vid b) ∧
    ∀ v, v ∈ fileVerts tag m cells ↔ ∃ c ∈ cells, v ∈ m.vertsOf tag.topo.cellDim c := by
  have hlt : ∀ c ∈ cells, ∀ v ∈ m.vertsOf tag.topo.cellDim c, v < m.verts.length := by
    intro c hc' v hv
    obtain ⟨e, -, h2, h3⟩ := h.elem (hc c hc')
    rw [h2] at hv
    exact h3.2.2 v hv
  obtain ⟨h1, h2⟩ := usedVertices_spec (T := tag.topo) h.vids cells hlt
  refine ⟨h1.nodup_snd m.vid (fun x hx => ((h2 x).1 hx).1), ?_, fun v => ?_⟩
  · unfold fileVerts
    rw [List.pairwise_map]
    refine List.Pairwise.imp_of_mem ?_ h1
    intro a b ha hb hlt
    rw [← ((h2 a).1 ha).1, ← ((h2 b).1 hb).1]
    exact hlt
  · unfold fileVerts
    rw [List.mem_map]
    constructor
    · rintro ⟨x, hx, rfl⟩; exact ((h2 x).1 hx).2
    · intro hv; exact ⟨(m.vid v, v), (h2 _).2 ⟨rfl, hv⟩, rfl⟩

theorem fileCells_spec {tag : VtkTag} {txt : C → C} {dim : Nat} {m : Mesh (List C)} {S : Nat → Prop}
    (h : Writable tag txt dim m S) {cells : List Nat} (hc : ∀ c ∈ cells, S c) :
    (fileCells tag m cells).Nodup ∧
    (fileCells tag m cells).Pairwise (fun a b => m.eid tag.topo.cellDim a < m.eid tag.topo.cellDim b) ∧
    ∀ c, c ∈ fileCells tag m cells ↔ c ∈ cells := by
  obtain ⟨h1, h2⟩ := usedCells_spec h.inv h.vids cells (fun c hc' => h.lt c (hc c hc'))
  refine ⟨h1.nodup_snd (m.eid tag.topo.cellDim) (fun x hx => ((h2 x).1 hx).1), ?_, fun v => ?_⟩
  · unfold fileCells
    rw [List.pairwise_map]
    refine List.Pairwise.imp_of_mem ?_ h1
    intro a b ha hb hlt
    rw [← ((h2 a).1 ha).1, ← ((h2 b).1 hb).1]
    exact hlt
  · unfold fileCells
    rw [List.mem_map]
    constructor
    · rintro ⟨x, hx, rfl⟩; exact ((h2 x).1 hx).2
    · intro hv; exact ⟨(m.eid tag.topo.cellDim v, v), (h2 _).2 ⟨rfl, hv⟩, rfl⟩

theorem range_getD (p : List C) (q : List C) (zero : C) :
    ((List.range p.length).map fun j => (p ++ q).getD j zero) = p := by
  apply List.ext_getElem
  · simp
  · intro i h1 h2
    rw [List.getElem_map, List.getElem_range]
    simp [List.getD, List.getElem?_append_left h2, List.getElem?_eq_getElem h2]

theorem forall₂_map_self {α β γ : Type} (R : β → γ → Prop) (f : α → β) (g : α → γ) :
    ∀ (l : List α), (∀ a ∈ l, R (f a) (g a)) → List.Forall₂ R (l.map f) (l.map g)
  | [], _ => .nil
  | a :: l, h => .cons (h a (by simp)) (forall₂_map_self R f g l (fun b hb => h b (by simp [hb])))

theorem zip_map_self {α β γ : Type} (f : α → β) (g : α → γ) : ∀ (l : List α), (l.map f).zip (l.map g) = l.map fun a => (f a, g a)
  | [] => rfl
  | a :: l => by simp [zip_map_self f g l]

/-- The files of some parts of a mesh are read; `V` and `Cc` list the vertices and cells of the new mesh. -/
theorem vtk_core [DecidableEq C] (tag : VtkTag) (txt : C → C) (zero : C) (dim : Nat) (m : Mesh (List C)) (parts : List Nat)
    (cellsOf : Nat → List Nat) (pd cd : Nat → List (String × Quantity C))
    (hw : Writable tag txt dim m (fun c => ∃ g ∈ parts, c ∈ cellsOf g)) (hnd : ∀ g ∈ parts, (cellsOf g).Nodup) :
    let V := joinAll (parts.map fun g => fileVerts tag m (cellsOf g)) []
    let Cc := joinAll (parts.map fun g => fileCells tag m (cellsOf g)) []
    let fs := parts.map fun g : Nat => ((g : Int), writeVtu tag txt zero m (cellsOf g) (pd g) (cd g))
    let p := readAllPoints zero dim [] fs
    p = (V.map (readPt txt m), parts.map fun g => (fileVerts tag m (cellsOf g)).map fun v => V.idxOf v) ∧
    ∃ s, setupAllCells tag fs p.2
        ⟨{ (SegState.empty : SegState (List C)) with mesh := setupVertices Mesh.empty 0 p.1 }, [], []⟩ =
        some (s, parts.map fun g => (fileCells tag m (cellsOf g)).map fun c => Cc.idxOf c) ∧
      VtkInv tag.topo (V.map (readPt txt m)) (fun c => (m.vertsOf tag.topo.cellDim c).map fun v => V.idxOf v)
        (parts.flatMap fun g => (fileCells tag m (cellsOf g)).map fun c => (g, c)) Cc s := by
  intro V Cc fs p
  have hpart : ∀ {g}, g ∈ parts → ∀ c ∈ cellsOf g, ∃ g ∈ parts, c ∈ cellsOf g := fun hg c hc => ⟨_, hg, hc⟩
  have hp : p = (V.map (readPt txt m), parts.map fun g => (fileVerts tag m (cellsOf g)).map fun v => V.idxOf v) := by
    have := readAllPoints_spec zero dim (readPt txt m)
      (fun v => ((m.ptOf v).getD []).map txt ++ List.replicate (3 - ((m.ptOf v).getD []).length) zero)
      (fun v => ∃ c, (∃ g ∈ parts, c ∈ cellsOf g) ∧ v ∈ m.vertsOf tag.topo.cellDim c)
      (fun u v ⟨c, hc, hu⟩ ⟨c', hc', hv⟩ he => hw.pts c hc u hu c' hc' v hv he)
      (parts.map fun g => fileVerts tag m (cellsOf g)) fs []
      (by
        refine forall₂_map_self _ _ _ parts fun g hg => ?_
        simp only [writeVtu, fileVerts, List.map_map, Function.comp_def]
        exact List.take_of_length_le (by simp))
      (by
        intro U hU v hv
        obtain ⟨g, hg, rfl⟩ := List.mem_map.1 hU
        obtain ⟨c, hc, hvc⟩ := ((fileVerts_spec hw (hpart hg)).2.2 v).1 hv
        exact ⟨c, ⟨g, hg, hc⟩, hvc⟩)
      (by simp)
      (by
        intro U hU v hv
        obtain ⟨g, hg, rfl⟩ := List.mem_map.1 hU
        obtain ⟨c, hc, hvc⟩ := ((fileVerts_spec hw (hpart hg)).2.2 v).1 hv
        have hd := hw.dim c ⟨g, hg, hc⟩ v hvc
        have := range_getD (((m.ptOf v).getD []).map txt) (List.replicate (3 - ((m.ptOf v).getD []).length) zero) zero
        rw [List.length_map, hd] at this
        rw [hd]
        exact this)
    rw [List.map_nil] at this
    rw [show p = _ from this, List.map_map]
    rfl
  refine ⟨hp, ?_⟩
  have hVmem : ∀ v, v ∈ V ↔ ∃ g ∈ parts, ∃ c ∈ cellsOf g, v ∈ m.vertsOf tag.topo.cellDim c := by
    intro v
    rw [(joinAll_spec _ _).2.1]
    simp only [List.not_mem_nil, false_or, List.mem_map, exists_exists_and_eq_and]
    refine exists_congr fun g => and_congr_right fun hg => ?_
    rw [(fileVerts_spec hw (hpart hg)).2.2]
  have hVin : ∀ {c}, (∃ g ∈ parts, c ∈ cellsOf g) → ∀ v ∈ m.vertsOf tag.topo.cellDim c, v ∈ V := by
    rintro c ⟨g, hg, hc⟩ v hv
    exact (hVmem v).2 ⟨g, hg, c, hc, hv⟩
  have hidx : ∀ {u v}, u ∈ V → v ∈ V → V.idxOf u = V.idxOf v → u = v := by
    intro u v hu hv he
    have h1 := getElem?_idxOf hu
    rw [he, getElem?_idxOf hv] at h1
    simpa using h1.symm
  have hok : VtkCellOK tag.topo (V.map (readPt txt m)).length
      (fun c => (m.vertsOf tag.topo.cellDim c).map fun v => V.idxOf v) (fun c => ∃ g ∈ parts, c ∈ cellsOf g) := by
    refine ⟨fun c hc => ?_, fun c hc => ?_, fun c hc v hv => ?_, fun c c' hc hc' he => ?_⟩
    · obtain ⟨e, -, h2, h3⟩ := hw.elem hc
      refine List.Nodup.map_on ?_ (by rw [h2]; exact h3.1)
      intro u hu v hv he
      exact hidx (hVin hc u hu) (hVin hc v hv) he
    · obtain ⟨e, -, h2, h3⟩ := hw.elem hc
      rw [List.length_map, h2, h3.2.1.fixed tag.poly]
    · obtain ⟨u, hu, rfl⟩ := List.mem_map.1 hv
      rw [List.length_map]
      exact List.idxOf_lt_length_iff.2 (hVin hc u hu)
    · refine hw.cells c c' hc hc' ?_
      obtain ⟨e, -, h2, h3⟩ := hw.elem hc
      obtain ⟨e', -, h2', h3'⟩ := hw.elem hc'
      apply List.ext_getElem
      · rw [h2, h2', h3.2.1.fixed tag.poly, h3'.2.1.fixed tag.poly]
      · intro i hi hi'
        have h4 : ((m.vertsOf tag.topo.cellDim c).map fun v => V.idxOf v)[i]? =
            ((m.vertsOf tag.topo.cellDim c').map fun v => V.idxOf v)[i]? := by rw [he]
        rw [List.getElem?_map, List.getElem?_map, List.getElem?_eq_getElem hi, List.getElem?_eq_getElem hi'] at h4
        simp only [Option.map_some, Option.some.injEq] at h4
        exact hidx (hVin hc _ (List.getElem_mem hi)) (hVin hc' _ (List.getElem_mem hi')) h4
  have hinit := setupVertices_spec tag.topo (fun c => (m.vertsOf tag.topo.cellDim c).map fun v => V.idxOf v)
    (V.map (readPt txt m)) [] (Mesh.empty : Mesh (List C)) (VtkInv.empty tag.topo _)
  rw [List.nil_append, List.length_nil] at hinit
  have hklen : ∀ g ∈ parts, (fileCells tag m (cellsOf g)).length = (cellsOf g).length := by
    intro g hg
    obtain ⟨h1, -, h2⟩ := fileCells_spec hw (hpart hg)
    exact ((List.perm_ext_iff_of_nodup h1 (hnd g hg)).2 h2).length_eq
  obtain ⟨s, hs1, hs2⟩ := setupAllCells_spec tag tag.wf tag.cellDim_pos hok
    (parts.map fun g => (g, fileCells tag m (cellsOf g))) fs
    (parts.map fun g => (fileVerts tag m (cellsOf g)).map fun v => V.idxOf v) [] [] _
    (by
      intro K hK c hc
      obtain ⟨g, hg, rfl⟩ := List.mem_map.1 hK
      exact ⟨g, hg, ((fileCells_spec hw (hpart hg)).2.2 c).1 hc⟩)
    (by simp)
    (by
      refine forall₂_map_self _ _ _ parts fun g hg => ?_
      simp only [writeVtu, Int.toNat_natCast, hklen g hg, true_and])
    (by
      rw [zip_map_self]
      refine forall₂_map_self _ _ _ parts fun g hg => ?_
      intro i c hi
      have hcc : ∀ c ∈ fileCells tag m (cellsOf g), c ∈ cellsOf g := fun c hc => ((fileCells_spec hw (hpart hg)).2.2 c).1 hc
      have := vtkCell_spec tag (used := usedVertices tag.topo m (cellsOf g)) (m.vertsOf tag.topo.cellDim)
        (fileCells tag m (cellsOf g))
        (by
          intro c hc
          obtain ⟨e, -, h2, h3⟩ := hw.elem (hpart hg c (hcc c hc))
          rw [h2, h3.2.1.fixed tag.poly])
        (by
          intro c hc v hv
          exact ((fileVerts_spec hw (hpart hg)).2.2 v).2 ⟨c, hcc c hc, hv⟩) (fun v => V.idxOf v) hi
      rw [← this]
      congr 1
      simp only [writeVtu, fileCells, List.flatMap_map])
    hinit
  refine ⟨s, ?_, ?_⟩
  · rw [hp]
    simp only [List.map_map, Function.comp_def] at hs1
    exact hs1
  · simp only [List.map_map, Function.comp_def, List.nil_append, List.flatMap_map] at hs2
    exact hs2

end VG
