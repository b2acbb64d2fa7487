import Verif.Model.MeshConfig
import Verif.Props.Typemap
import Mathlib.Data.List.Range

/-!
C96: the configurations of meshes give the types of elements they are said to give: a full mesh stores its cells and
elements of all types of faces down to the vertices, a thin mesh cells and vertices only; an element stores all its
faces of the types which the mesh stores.

The specification is the list `faceTags` of the types of the proper faces.
-/

namespace VG

/-- The types of the proper faces of an element, from the vertices upwards. -/
def faceTags : ElemTag → List ElemTag
  | .simplex n => (List.range n).map .simplex
  | .quadrilateral => [.simplex 0, .simplex 1]
  | .hexahedron => [.simplex 0, .simplex 1, .quadrilateral]
  | .polygon => [.simplex 0, .simplex 1]
  | .plc => [.simplex 0, .simplex 1]

/-! ### Auxiliary lemmas -/

theorem faceTags_facet {t f : ElemTag} (h : t.facet = some f) : faceTags t = faceTags f ++ [f] := by
  unfold ElemTag.facet at h
  split at h <;> cases h
  · simp [faceTags, List.range_succ]
  all_goals decide

theorem facet_none {t : ElemTag} (h : t.facet = none) : t = vertexTag := by
  unfold ElemTag.facet at h
  split at h <;> first | rfl | cases h

theorem faceTags_dim {t u : ElemTag} (h : u ∈ faceTags t) : u.dim < t.dim := by
  unfold faceTags at h
  cases t <;> simp only [List.mem_map, List.mem_range, List.mem_cons, List.not_mem_nil, or_false] at h
  case simplex n => obtain ⟨k, hk, rfl⟩ := h; exact hk
  case hexahedron => rcases h with rfl | rfl | rfl <;> decide
  all_goals rcases h with rfl | rfl <;> decide

theorem faceTags_self (t : ElemTag) : t ∉ faceTags t := fun h => absurd (faceTags_dim h) (Nat.lt_irrefl _)

theorem faceTags_nodup (t : ElemTag) : (faceTags t).Nodup := by
  cases t
  case simplex n =>
    exact List.Nodup.map (fun a b h => by cases h; rfl) List.nodup_range
  all_goals decide

/-- Induction from the facet. -/
theorem facet_induction {p : ElemTag → Prop} (h0 : p vertexTag) (h1 : ∀ t f, t.facet = some f → p f → p t) (t : ElemTag) :
    p t := by
  have : ∀ n t, t.dim ≤ n → p t := by
    intro n
    induction n with
    | zero =>
      intro t ht
      cases hf : t.facet with
      | none => rw [facet_none hf]; exact h0
      | some f => exact absurd (ElemTag.facet_dim hf) (by omega)
    | succ n ih =>
      intro t ht
      cases hf : t.facet with
      | none => rw [facet_none hf]; exact h0
      | some f => exact h1 t f hf (ih f (by have := ElemTag.facet_dim hf; omega))
  exact this _ t (Nat.le_refl _)

theorem vertex_facet : vertexTag.facet = none := rfl

theorem tmInsert_map {g : ElemTag → Cfg CfgType} {l : List ElemTag} {t : ElemTag} (h : t ∉ l) :
    tmInsert (l.map fun u => (CfgType.elem u, g u)) (.elem t, g t) =
      some ((l ++ [t]).map fun u => (CfgType.elem u, g u)) := by
  have hn : (CfgType.elem t) ∉ (l.map fun u => (CfgType.elem u, g u)).map (·.1) := by
    simp only [List.map_map, List.mem_map, Function.comp]
    rintro ⟨u, hu, e⟩
    cases e
    exact h hu
  cases l with
  | nil => rfl
  | cons a l =>
    simp only [List.map_cons] at hn ⊢
    rw [tmInsert, if_pos (tmFind_none.2 (by simpa using hn)), tmPushBack_eq]
    simp

theorem lookup_map (g : ElemTag → Cfg CfgType) (l : List ElemTag) (t : ElemTag) :
    tmLookup (l.map fun u => (CfgType.elem u, g u)) (.elem t) = if t ∈ l then some (g t) else none := by
  unfold tmLookup
  induction l with
  | nil => rfl
  | cons a l ih =>
    rw [List.map_cons, tmFind]
    by_cases h : a = t
    · subst h
      simp
    · rw [if_neg (by simpa using h), ih]
      simp [Ne.symm h]

/-- The layout of one type of boundary elements. -/
def handling (u : ElemTag) : Cfg CfgType := .type (if u = vertexTag then .noOrientationHandling else .fullHandling)

theorem storageLayout_eq (t : ElemTag) :
    storageLayout t = some ((faceTags t ++ [t]).map fun u => (CfgType.elem u, handling u)) := by
  induction t using facet_induction with
  | h0 => rw [storageLayout]; rfl
  | h1 t f hf ih =>
    rw [storageLayout]
    split
    · rename_i h; rw [hf] at h; cases h
    · rename_i f' h
      rw [hf] at h
      cases h
      have ht : t ≠ vertexTag := fun e => by rw [e, vertex_facet] at hf; cases hf
      rw [ih, Option.bind_some, ← faceTags_facet hf, ← tmInsert_map (faceTags_self t)]
      simp [handling, ht]

/-- The configuration of one type of elements in a full mesh. -/
def fullCfg (cell u : ElemTag) : Cfg CfgType :=
  elementCfg (defaultContainer cell u) ((faceTags u).map fun w => (CfgType.elem w, handling w))

theorem fullElementCfg_eq (cell t : ElemTag) : fullElementCfg cell t = some (fullCfg cell t) := by
  unfold fullElementCfg
  cases hf : t.facet with
  | none => rw [facet_none hf]; rfl
  | some f =>
    simp only
    rw [storageLayout_eq, Option.map_some, ← faceTags_facet hf]
    rfl

theorem fullTopologyHelper_eq (cell t : ElemTag) :
    fullTopologyHelper cell t = some ((faceTags t ++ [t]).map fun u => (CfgType.elem u, fullCfg cell u)) := by
  induction t using facet_induction with
  | h0 => rw [fullTopologyHelper]; rfl
  | h1 t f hf ih =>
    rw [fullTopologyHelper]
    split
    · rename_i h; rw [hf] at h; cases h
    · rename_i f' h
      rw [hf] at h
      cases h
      rw [ih, Option.bind_some, fullElementCfg_eq, Option.bind_some, ← faceTags_facet hf,
        tmInsert_map (faceTags_self t)]

theorem thinTopology_eq {cell : ElemTag} (h : cell ≠ vertexTag) :
    thinTopology cell = some [(.elem cell, elementCfg .cells [(.elem vertexTag, handling vertexTag)]),
      (.elem vertexTag, elementCfg .vertices [])] := by
  unfold thinTopology
  rw [storageLayout_eq, Option.bind_some]
  refine (C95_consistency _).1 ?_
  unfold KeysDistinct
  simpa using h

theorem elementTags_map {g : ElemTag → Cfg CfgType} (l : List ElemTag) :
    elementTags (l.map fun u => (CfgType.elem u, g u)) = l := by
  unfold elementTags
  rw [C95_keys]
  induction l with
  | nil => rfl
  | cons a l ih =>
    rw [List.map_cons, List.map_cons, List.filterMap_cons]
    simp only
    rw [ih]

theorem cfgQuery_one {α : Type} [DecidableEq α] (d : Cfg α) {m : List (α × Cfg α)} (h : m ≠ []) (x : α) :
    cfgQuery d (.map m) [x] = some ((tmLookup m x).getD d) := by
  cases m with
  | nil => exact absurd rfl h
  | cons p m => rw [cfgQuery]

theorem cfgQuery_more {α : Type} [DecidableEq α] (d : Cfg α) {m : List (α × Cfg α)} (h : m ≠ []) (x y : α) (l : List α) :
    cfgQuery d (.map m) (x :: y :: l) =
      match tmLookup m x with
      | none => some d
      | some c => cfgQuery d c (y :: l) := by
  cases m with
  | nil => exact absurd rfl h
  | cons p m => rw [cfgQuery]; rfl

theorem queryLayout_elementCfg (d : Cfg CfgType) (c : ContainerTag) (l : CfgMap) (x : CfgType) :
    cfgQuery d (elementCfg c l) [.layoutTag, x] = cfgQuery d (.map l) [x] := by
  unfold elementCfg
  rw [cfgQuery_more _ (by simp)]
  rfl

theorem map_ne_nil {α β : Type} {f : α → β} {l : List α} {t : α} : (l ++ [t]).map f ≠ [] := by simp

theorem queryLayout_full {c host : ElemTag} (b : ElemTag) (hh : host ∈ faceTags c ++ [c]) (hv : host ≠ vertexTag) :
    queryLayout ((faceTags c ++ [c]).map fun u => (CfgType.elem u, fullCfg c u)) host b =
      some (if b ∈ faceTags host then handling b else .type .noHandling) := by
  unfold queryLayout
  have hne : ∃ f, host.facet = some f := by
    cases hf : host.facet with
    | none => exact absurd (facet_none hf) hv
    | some f => exact ⟨f, rfl⟩
  obtain ⟨f, hf⟩ := hne
  rw [cfgQuery_more _ map_ne_nil, lookup_map, if_pos hh]
  simp only [fullCfg]
  rw [queryLayout_elementCfg, cfgQuery_one _ (by rw [faceTags_facet hf]; exact map_ne_nil), lookup_map]
  split <;> rfl

theorem present_full {m : CfgMap} (hm : m ≠ []) (hok : ∀ t c, tmLookup m (.elem t) = some c → c ≠ .type .notFound)
    (b : ElemTag) : isElementPresent m b = some true := by
  unfold isElementPresent
  rw [cfgQuery_one _ hm]
  simp only [Option.map_some, Option.some.injEq]
  cases h : tmLookup m (.elem b) with
  | none => rfl
  | some c =>
    have := hok b c h
    cases c with
    | type t => simpa [cfgEqual] using this
    | map m => rfl

theorem present_map {cell : ElemTag} {l : List ElemTag} {t : ElemTag} (b : ElemTag) :
    isElementPresent ((l ++ [t]).map fun u => (CfgType.elem u, fullCfg cell u)) b = some true := by
  refine present_full map_ne_nil (fun t c h => ?_) b
  rw [lookup_map] at h
  split at h
  · cases h
    unfold fullCfg elementCfg
    exact fun e => by cases e
  · cases h

theorem handling_noHandling (b : ElemTag) :
    (!cfgEqual (handling b) .noHandling) = true := by
  unfold handling
  by_cases h : b = vertexTag
  · rw [if_pos h]; rfl
  · rw [if_neg h]; rfl

theorem handling_full (b : ElemTag) :
    cfgEqual (handling b) .fullHandling = decide (b ≠ vertexTag) := by
  unfold handling
  by_cases h : b = vertexTag
  · rw [if_pos h]; simp [cfgEqual, h]
  · rw [if_neg h]; simp [cfgEqual, h]

/-! ### Which elements a mesh stores -/

/-- C96: a full mesh stores its cells and all types of faces of cells, and no others. -/
theorem C96_full (cell : ElemTag) :
    ∃ m, fullTopology cell = some m ∧ elementTags m = faceTags cell ++ [cell] :=
  ⟨_, fullTopologyHelper_eq cell cell, elementTags_map _⟩

/-- C96: a thin mesh stores cells and vertices. -/
theorem C96_thin (cell : ElemTag) (h : cell ≠ vertexTag) :
    ∃ m, thinTopology cell = some m ∧ elementTags m = [cell, vertexTag] :=
  ⟨_, thinTopology_eq h, rfl⟩

/-- C96: in a full mesh, an element stores its faces of all types, and their orientations except for vertices. -/
theorem C96_full_boundary (cell host b : ElemTag) (m : CfgMap) (hm : fullTopology cell = some m)
    (hh : host ∈ faceTags cell ++ [cell]) (hv : host ≠ vertexTag) :
    hasBoundary m host b = some (decide (b ∈ faceTags host)) ∧
      hasOrientation m host b = some (decide (b ∈ faceTags host ∧ b ≠ vertexTag)) := by
  rw [fullTopology, fullTopologyHelper_eq] at hm
  cases hm
  unfold hasBoundary hasOrientation
  rw [present_map, Option.bind_some, Option.bind_some, if_pos rfl, if_pos rfl, queryLayout_full b hh hv]
  simp only [Option.map_some]
  by_cases hb : b ∈ faceTags host
  · rw [if_pos hb, handling_noHandling, handling_full]
    simp [hb]
  · rw [if_neg hb]
    simp [hb, cfgEqual]

/-- C96: in a thin mesh, a cell stores its vertices, without orientation, and no other faces. -/
theorem C96_thin_boundary (cell b : ElemTag) (h : cell ≠ vertexTag) (m : CfgMap) (hm : thinTopology cell = some m) :
    hasBoundary m cell b = some (decide (b = vertexTag)) ∧ hasOrientation m cell b = some false := by
  rw [thinTopology_eq h] at hm
  cases hm
  have hp : isElementPresent [(.elem cell, elementCfg .cells [(.elem vertexTag, handling vertexTag)]),
      (.elem vertexTag, elementCfg .vertices [])] b = some true := by
    refine present_full (by simp) (fun t c hc => ?_) b
    unfold tmLookup at hc
    obtain ⟨p, hp, rfl⟩ := Option.map_eq_some_iff.1 hc
    have := (tmFind_some hp).1
    simp only [List.mem_cons, List.not_mem_nil, or_false] at this
    rcases this with rfl | rfl <;> exact fun e => by cases e
  have hq : queryLayout [(.elem cell, elementCfg .cells [(.elem vertexTag, handling vertexTag)]),
      (.elem vertexTag, elementCfg .vertices [])] cell b =
        some (if b = vertexTag then .type .noOrientationHandling else .type .noHandling) := by
    unfold queryLayout
    rw [cfgQuery_more _ (by simp)]
    have : tmLookup [(CfgType.elem cell, elementCfg .cells [(.elem vertexTag, handling vertexTag)]),
      (.elem vertexTag, elementCfg .vertices [])] (.elem cell) =
        some (elementCfg .cells [(.elem vertexTag, handling vertexTag)]) := by
      simp [tmLookup, tmFind]
    rw [this]
    simp only
    rw [queryLayout_elementCfg, cfgQuery_one _ (by simp)]
    by_cases hb : b = vertexTag
    · rw [if_pos hb]
      subst hb
      rfl
    · have hne : ¬(CfgType.elem vertexTag = CfgType.elem b) := fun e => hb (by cases e; rfl)
      simp [tmLookup, tmFind, hne, hb]
  unfold hasBoundary hasOrientation
  rw [hp, Option.bind_some, Option.bind_some, if_pos rfl, if_pos rfl, hq]
  by_cases hb : b = vertexTag
  · simp [hb, cfgEqual]
  · simp [hb, cfgEqual]

/-- C96: the boundary containers of an element of a full mesh are those of its faces of all types, from the vertices
upwards, with orientations except for vertices. -/
theorem C96_full_containers (cell host : ElemTag) (m : CfgMap) (hm : fullTopology cell = some m)
    (hh : host ∈ faceTags cell ++ [cell]) :
    boundaryContainers m host host = some ((faceTags host).map fun b => (b, decide (b ≠ vertexTag))) := by
  by_cases hv : host = vertexTag
  · subst hv
    rw [boundaryContainers]
    rfl
  have key : ∀ t, (∀ b ∈ faceTags t, b ∈ faceTags host) →
      boundaryContainers m host t = some ((faceTags t).map fun b => (b, decide (b ≠ vertexTag))) := by
    intro t
    induction t using facet_induction with
    | h0 => intro _; rw [boundaryContainers]; rfl
    | h1 t f hf ih =>
      intro hs
      rw [faceTags_facet hf] at hs
      have hff : f ∈ faceTags host := hs f (by simp)
      have ih' := ih (fun b hb => hs b (List.mem_append_left _ hb))
      obtain ⟨h1, h2⟩ := C96_full_boundary cell host f m hm hh hv
      rw [boundaryContainers]
      split
      · rename_i h; rw [hf] at h; cases h
      · rename_i f' h
        rw [hf] at h
        cases h
        rw [ih', h1, h2]
        simp only [Option.bind_eq_bind, Option.bind_some, decide_eq_true_eq, if_pos hff]
        rw [faceTags_facet hf, List.map_append]
        by_cases hfv : f = vertexTag
        · rw [if_pos hfv]
          simp [C94_push_back, hfv]
        · rw [if_neg hfv]
          simp [C94_push_back, hfv, hff]
  exact key host (fun b hb => hb)

/-- C96: the cell of a thin mesh has one boundary container, for vertices. -/
theorem C96_thin_containers (cell : ElemTag) (h : cell ≠ vertexTag) (m : CfgMap) (hm : thinTopology cell = some m) :
    boundaryContainers m cell cell = some [(vertexTag, false)] := by
  have key : ∀ t, boundaryContainers m cell t = some (if t = vertexTag then [] else [(vertexTag, false)]) := by
    intro t
    induction t using facet_induction with
    | h0 => rw [boundaryContainers]; rfl
    | h1 t f hf ih =>
      have ht : t ≠ vertexTag := fun e => by rw [e, vertex_facet] at hf; cases hf
      obtain ⟨h1, h2⟩ := C96_thin_boundary cell f h m hm
      rw [boundaryContainers]
      split
      · rename_i h; rw [hf] at h; cases h
      · rename_i f' hf'
        rw [hf] at hf'
        cases hf'
        rw [ih, h1, if_neg ht]
        simp only [Option.bind_eq_bind, Option.bind_some, decide_eq_true_eq]
        by_cases hfv : f = vertexTag
        · rw [if_pos hfv, if_pos hfv, if_pos hfv]
          simp [C94_push_back, hfv]
        · rw [if_neg hfv, if_neg hfv]
  rw [key, if_neg h]

/-- C96: in a full mesh, vertices and cells are in the given containers, and all elements between them in maps by key
(which store each once, C04). -/
theorem C96_full_storage (cell t : ElemTag) (m : CfgMap) (hm : fullTopology cell = some m)
    (ht : t ∈ faceTags cell ++ [cell]) :
    queryContainer m t = some (.type (.container
      (if t = vertexTag then .vertices else if t = cell then .cells else .keyMap))) := by
  rw [fullTopology, fullTopologyHelper_eq] at hm
  cases hm
  unfold queryContainer
  rw [cfgQuery_more _ map_ne_nil, lookup_map, if_pos ht]
  simp only [fullCfg, elementCfg]
  rw [cfgQuery_one _ (by simp)]
  rfl

/-- C96, violated: `is_element_present` is true for every type, for instance for the edges of a thin mesh. -/
theorem C96_violated_is_element_present :
    ∃ m, thinTopology (.simplex 3) = some m ∧ ElemTag.simplex 1 ∉ elementTags m ∧
      isElementPresent m (.simplex 1) = some true := by
  refine ⟨_, thinTopology_eq (by decide), by decide, ?_⟩
  unfold isElementPresent
  rw [cfgQuery_one _ (by simp)]
  rfl

/-! ### The cell type of a list of types -/

theorem cellDimension_max (l : List ElemTag) : (∀ t ∈ l, (t.dim : Int) ≤ cellDimension l) ∧
    (l ≠ [] → ∃ t ∈ l, (t.dim : Int) = cellDimension l) ∧ -1 ≤ cellDimension l := by
  induction l with
  | nil => exact ⟨fun t h => absurd h (by simp), fun h => absurd rfl h, by decide⟩
  | cons a l ih =>
    obtain ⟨h1, h2, h3⟩ := ih
    rw [cellDimension]
    split
    · rename_i h
      refine ⟨fun t ht => ?_, fun _ => ?_, h3⟩
      · rcases List.mem_cons.1 ht with rfl | ht
        · omega
        · exact h1 t ht
      · obtain ⟨t, ht, e⟩ := h2 (fun e => by rw [e] at h; simp only [cellDimension] at h; omega)
        exact ⟨t, List.mem_cons_of_mem _ ht, e⟩
    · rename_i h
      refine ⟨fun t ht => ?_, fun _ => ⟨a, by simp, rfl⟩, by omega⟩
      rcases List.mem_cons.1 ht with rfl | ht
      · omega
      · have := h1 t ht
        omega

theorem elementsOfDim_eq (l : List ElemTag) (d : Int) :
    elementsOfDim l d = (l.filter fun t => decide ((t.dim : Int) = d)).reverse := by
  induction l with
  | nil => rfl
  | cons a l ih =>
    rw [elementsOfDim, ih, C94_push_back]
    by_cases h : (a.dim : Int) = d <;> simp [h]

/-- C96: `elements_of_topologic_dim` are the types of the dimension, each as often as in the list. -/
theorem C96_elements_of_dim (l : List ElemTag) (d : Int) (t : ElemTag) :
    (elementsOfDim l d).count t = if (t.dim : Int) = d then l.count t else 0 := by
  rw [elementsOfDim_eq, List.count_reverse]
  by_cases h : (t.dim : Int) = d
  · rw [if_pos h, List.count_filter (by simpa using h)]
  · rw [if_neg h, List.count_eq_zero]
    simp [h]

/-- C96: the cell type is the last type of the highest dimension; in particular the only one, if there is only one. -/
theorem C96_cell_tag_partial (a b : List ElemTag) (c : ElemTag) (ha : ∀ t ∈ a, t.dim ≤ c.dim)
    (hb : ∀ t ∈ b, t.dim < c.dim) : cellTagOf (a ++ c :: b) = some c := by
  have hd : cellDimension (a ++ c :: b) = c.dim := by
    obtain ⟨h1, h2, _⟩ := cellDimension_max (a ++ c :: b)
    obtain ⟨t, ht, e⟩ := h2 (by simp)
    have hc := h1 c (by simp)
    have : t.dim ≤ c.dim := by
      rcases List.mem_append.1 ht with ht | ht
      · exact ha t ht
      · rcases List.mem_cons.1 ht with rfl | ht
        · exact Nat.le_refl _
        · exact Nat.le_of_lt (hb t ht)
    omega
  have hf : b.filter (fun t => decide ((t.dim : Int) = c.dim)) = [] :=
    List.filter_eq_nil_iff.2 fun t ht => by
      have := hb t ht
      simp only [decide_eq_true_eq]
      omega
  unfold cellTagOf
  rw [hd, elementsOfDim_eq, List.filter_append, List.filter_cons_of_pos (by simp), hf]
  rw [List.reverse_append, List.reverse_cons, List.reverse_nil, List.nil_append, List.cons_append]
  rfl

/-- C96, violated: with two types of cells, the last is taken although the documentation says the first. -/
theorem C96_violated_first_cell_tag :
    ∃ (c : ElemTag) (l : List ElemTag), (∀ t ∈ l, t.dim ≤ c.dim) ∧ cellTagOf (c :: l) ≠ some c :=
  ⟨.simplex 2, [.quadrilateral, .simplex 1, .simplex 0], by decide, by decide⟩

/-- C96: boundary information is available for all types of elements a full mesh stores, except its cells. -/
theorem C96_full_boundary_information (cell : ElemTag) (m : CfgMap) (hm : fullTopology cell = some m) :
    boundaryInfoTags m = some (faceTags cell) := by
  obtain ⟨m', h1, h2⟩ := C96_full cell
  rw [hm] at h1
  cases h1
  unfold boundaryInfoTags
  rw [h2, C96_cell_tag_partial _ [] cell (fun t ht => Nat.le_of_lt (faceTags_dim ht)) (by simp), Option.map_some,
    C94_erase _ _ _ (faceTags_self cell), List.append_nil]

/-- C96: boundary information is available for the vertices of a thin mesh. -/
theorem C96_thin_boundary_information (cell : ElemTag) (h : cell ≠ vertexTag) (m : CfgMap)
    (hm : thinTopology cell = some m) : boundaryInfoTags m = some [vertexTag] := by
  obtain ⟨m', h1, h2⟩ := C96_thin cell h
  rw [hm] at h1
  cases h1
  have hd : 0 < cell.dim := by
    cases cell with
    | simplex n => exact Nat.pos_of_ne_zero fun e => h (by rw [show n = 0 from e])
    | _ => decide
  unfold boundaryInfoTags
  rw [h2, show [cell, vertexTag] = [] ++ cell :: [vertexTag] from rfl,
    C96_cell_tag_partial [] [vertexTag] cell (by simp) (fun t ht => by rw [List.mem_singleton.1 ht]; exact hd), Option.map_some,
    C94_erase _ _ _ (by simp)]
  rfl

example : faceTags .hexahedron ++ [.hexahedron] = [.simplex 0, .simplex 1, .quadrilateral, .hexahedron] ∧
    faceTags (.simplex 3) = [.simplex 0, .simplex 1, .simplex 2] ∧ ElemTag.quadrilateral ∈ faceTags .hexahedron := by
  decide

end VG
