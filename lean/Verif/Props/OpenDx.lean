import Verif.Lemmas.OpenDx
import Mathlib.Tactic.Linarith
import Mathlib.Tactic.NormNum

/-!
C78 the mesh in an OpenDX file, C79 which quantity is written, C80 the numbers of a quantity.
-/

namespace VG

variable {C : Type}

/-! ### C78 -/

/-- Specification: names of element types of OpenDX by the number of corners. -/
def dxName (s : String) : Option Nat :=
  if s = "line" then some 2 else if s = "triangles" then some 3 else if s = "tetrahedra" then some 4 else none

/-- Specification: an array with `items` entries of `shape` numbers. -/
structure DxArray {A : Type} (shape items : Nat) (rows : List (List A)) : Prop where
  count : rows.length = items
  width : ∀ r ∈ rows, r.length = shape

/-- Specification: the file describes the mesh.  Corners of cells are positions in the array of points. -/
structure DxDescribes {g : Nat} (F : DxFile C) (T : Topo) (m : Mesh (Fin g → C)) : Prop where
  points : DxArray F.pointShape F.pointItems F.points
  cells : DxArray F.cellShape F.cellItems F.cells
  vertex : ∀ (v : Nat) (x : Vtx (Fin g → C)), m.verts[v]? = some x → F.points[v]? = some (List.ofFn x.pt)
  vertices : F.pointItems = m.verts.length
  corners : ∀ (t : Nat) (e : Elem), (m.elems T.cellDim)[t]? = some e → ∃ row, F.cells[t]? = some row ∧
    List.Forall₂ (fun (i : ℤ) (v : Nat) => ∃ x, m.verts[v]? = some x ∧ 0 ≤ i ∧ F.points[i.toNat]? = some (List.ofFn x.pt))
      row e.verts
  count : F.cellItems = (m.elems T.cellDim).length
  type : dxName F.elementType = some F.cellShape
  data : F.data.isSome = true

/-- C78.  Full statement: every file written describes the mesh (`DxDescribes`).  False: see `C78_violated_ids`,
`C78_violated_shape` and `C78_violated_no_data`.  Proved: it does for meshes of simplices in space of the same
dimension, if ids of vertices are positions and a quantity was registered. -/
theorem C78_mesh_partial {g : Nat} (hg : 1 ≤ g ∧ g ≤ 3) {st : MState (Fin g → C)} (h : Reached (simplexTopo g) st)
    (hid : IdsArePositions st.mesh) {w : DxWriter} (hw : w.onVertices ≠ [] ∨ w.onCells ≠ []) {F : DxFile C}
    (hF : w.write (simplexTopo g) st.mesh = some F) : DxDescribes F (simplexTopo g) st.mesh := by
  have hI := (h.inv (simplexTopo_wf g)).inv
  obtain ⟨h1, h2, h3, h4, h5, h6, h7⟩ := write_fields hF
  have hpt : ∀ (v : Nat) (x : Vtx (Fin g → C)), st.mesh.verts[v]? = some x → F.points[v]? = some (List.ofFn x.pt) := by
    intro v x hx
    rw [h3, List.getElem?_map, hx]
    rfl
  refine ⟨⟨by rw [h3, h2, List.length_map], ?_⟩, ⟨by rw [h6, h5, List.length_map], ?_⟩, hpt, h2, ?_, h5, ?_, ?_⟩
  · rw [h3, h1]
    intro r hr
    obtain ⟨v, _, rfl⟩ := List.mem_map.1 hr
    exact List.length_ofFn
  · rw [h6, h4]
    intro r hr
    obtain ⟨e, he, rfl⟩ := List.mem_map.1 hr
    rw [List.length_map]
    exact (hI.verts _ e he).2.1.fixed
  · intro t e he
    refine ⟨e.verts.map st.mesh.vid, by rw [h6, List.getElem?_map, he]; rfl, ?_⟩
    rw [List.forall₂_map_left_iff]
    refine List.forall₂_same.2 (fun v hv => ?_)
    have hlt := (hI.verts _ e (List.mem_of_getElem? he)).2.2 v hv
    refine ⟨st.mesh.verts[v], List.getElem?_eq_getElem hlt, ?_⟩
    rw [hid v hlt]
    exact ⟨Int.natCast_nonneg v, hpt v _ (List.getElem?_eq_getElem hlt)⟩
  · rw [h7, h4]
    obtain ⟨ha, hb⟩ := hg
    have : g = 1 ∨ g = 2 ∨ g = 3 := by omega
    rcases this with rfl | rfl | rfl <;> rfl
  · have := write_data hF
    split at this
    · obtain ⟨l, _, hd⟩ := this
      rw [hd]
      rfl
    · obtain ⟨l, _, hd⟩ := this
      rw [hd]
      rfl
    · rename_i ha hb
      rcases hw with hw | hw
      · exact absurd ha hw
      · exact absurd hb hw

/-- The condition on ids is needed: if a file describes a mesh whose vertices have different points, then the ids of
all vertices of cells are positions. -/
theorem C78_ids_needed {g : Nat} {T : Topo} {m : Mesh (Fin g → C)} (hdiff : (m.verts.map (·.pt)).Nodup) {w : DxWriter} {F : DxFile C}
    (hF : w.write T m = some F) (hd : DxDescribes F T m) {e : Elem} (he : e ∈ m.elems T.cellDim) {v : Nat}
    (hv : v ∈ e.verts) : m.vid v = v := by
  obtain ⟨h1, h2, h3, h4, h5, h6, h7⟩ := write_fields hF
  obtain ⟨t, ht⟩ := List.mem_iff_getElem?.1 he
  obtain ⟨row, hrow, hall⟩ := hd.corners t e ht
  rw [h6, List.getElem?_map, ht] at hrow
  simp only [Option.map_some, Option.some.injEq] at hrow
  subst hrow
  rw [List.forall₂_map_left_iff, List.forall₂_same] at hall
  obtain ⟨x, hx, h0, hp⟩ := hall v hv
  rw [h3, List.getElem?_map] at hp
  obtain ⟨y, hy, hxy⟩ := Option.map_eq_some_iff.1 hp
  have hxy' : y.pt = x.pt := List.ofFn_injective hxy
  obtain ⟨ha, hb⟩ := List.getElem?_eq_some_iff.1 hx
  obtain ⟨hc, hd'⟩ := List.getElem?_eq_some_iff.1 hy
  have : (m.vid v).toNat = v := by
    refine (List.Nodup.getElem_inj_iff hdiff (hi := by simpa using hc) (hj := by simpa using ha)).1 ?_
    rw [List.getElem_map, List.getElem_map, hb, hd', hxy']
  omega

/-- C78: meshes whose vertices were all created without giving ids satisfy the condition on ids. -/
theorem C78_generated_ids {P : Type} {T : Topo} {ops : List (QOp P)} (hg : ∀ op ∈ ops, op.Generated) {st : MState P}
    (h : MState.empty.run T ops = some st) : IdsArePositions st.mesh :=
  (generated_run hg h ⟨fun v hv => by simp [MState.empty, Mesh.empty] at hv, rfl⟩).1

/-- Three vertices, with ids given or not, and the triangle. -/
def dxHistory {g : Nat} (id : Nat → Option ℤ) (p : Nat → Fin g → ℚ) : List (QOp (Fin g → ℚ)) :=
  [.mesh (.vertex (id 0) (p 0)), .mesh (.vertex (id 1) (p 1)), .mesh (.vertex (id 2) (p 2)), .mesh (.elem 2 [0, 1, 2])]

def dxState {g : Nat} (id : Nat → Option ℤ) (p : Nat → Fin g → ℚ) : MState (Fin g → ℚ) :=
  (MState.empty.run (simplexTopo 2) (dxHistory id p)).getD MState.empty

theorem dxState_run {g : Nat} (id : Nat → Option ℤ) (p : Nat → Fin g → ℚ) :
    MState.empty.run (simplexTopo 2) (dxHistory id p) = some (dxState id p) := rfl

theorem dxState_reached {g : Nat} (id : Nat → Option ℤ) (p : Nat → Fin g → ℚ)
    (h : UniqueVids (dxState id p).mesh) : Reached (simplexTopo 2) (dxState id p) :=
  ⟨dxHistory id p, by simp [dxHistory, QOp.meshOps, MOp.Distinct], rfl, h⟩

/-- Corners of a right triangle. -/
def dxPoint (g : Nat) (v : Nat) : Fin g → ℚ := fun i => if i.val + 1 = v then 1 else 0

theorem dxPoint_nodup : ((dxState (fun v => some (10 + v)) (dxPoint 2)).mesh.verts.map (·.pt)).Nodup := by
  have h : (((dxState (fun v => some (10 + v)) (dxPoint 2)).mesh.verts.map (·.pt)).map (fun p => (p 0, p 1))).Nodup := by
    decide +kernel
  exact List.Nodup.of_map _ h

/-- A writer with one quantity on vertices. -/
def dxOne : DxWriter := DxWriter.new.addOnVertices "u" (fun v => v)

/-- C78 violated: with ids 10, 11, 12 the corners of the cell are written as 10, 11, 12, but there are three points. -/
theorem C78_violated_ids :
    Reached (simplexTopo 2) (dxState (fun v => some (10 + v)) (dxPoint 2)) ∧
    ∃ F, dxOne.write (simplexTopo 2) (dxState (fun v => some (10 + v)) (dxPoint 2)).mesh = some F ∧
      F.pointItems = 3 ∧ F.cells = [[10, 11, 12]] ∧
      ¬ DxDescribes F (simplexTopo 2) (dxState (fun v => some (10 + v)) (dxPoint 2)).mesh := by
  refine ⟨dxState_reached _ _ (by unfold UniqueVids; decide +kernel), ?_⟩
  cases hF : dxOne.write (simplexTopo 2) (dxState (fun v => some (10 + v)) (dxPoint 2)).mesh with
  | none => exact absurd hF (by decide +kernel)
  | some F =>
    obtain ⟨h1, h2, h3, h4, h5, h6, h7⟩ := write_fields hF
    refine ⟨F, rfl, h2, h6, fun hd => ?_⟩
    have := C78_ids_needed dxPoint_nodup hF hd (e := (((dxState (fun v => some (10 + v)) (dxPoint 2)).mesh.elems 2).head?).getD ⟨0, [], []⟩)
      (by decide +kernel) (v := 0) (by decide +kernel)
    revert this
    decide +kernel

/-- C78 violated: for a triangle in space the header announces four corners per cell and tetrahedra; three are written. -/
theorem C78_violated_shape :
    Reached (simplexTopo 2) (dxState (fun _ => none) (dxPoint 3)) ∧
    ∃ F, dxOne.write (simplexTopo 2) (dxState (fun _ => none) (dxPoint 3)).mesh = some F ∧
      F.cellShape = 4 ∧ F.elementType = "tetrahedra" ∧ F.cells = [[0, 1, 2]] ∧
      ¬ DxDescribes F (simplexTopo 2) (dxState (fun _ => none) (dxPoint 3)).mesh := by
  refine ⟨dxState_reached _ _ (by unfold UniqueVids; decide +kernel), ?_⟩
  cases hF : dxOne.write (simplexTopo 2) (dxState (fun _ => none) (dxPoint 3)).mesh with
  | none => exact absurd hF (by decide +kernel)
  | some F =>
    obtain ⟨h1, h2, h3, h4, h5, h6, h7⟩ := write_fields hF
    refine ⟨F, rfl, h4, h7, h6, fun hd => ?_⟩
    have := hd.cells.width [0, 1, 2] (by rw [h6]; decide +kernel)
    rw [h4] at this
    cases this

/-- C78 violated: without a quantity the file refers to data which it does not contain. -/
theorem C78_violated_no_data {g : Nat} (T : Topo) (m : Mesh (Fin g → C)) :
    ∃ F, DxWriter.new.write T m = some F ∧ F.data = none ∧ ¬ DxDescribes F T m :=
  ⟨⟨g, m.verts.length, _, g + 1, (m.elems T.cellDim).length, _, dxType g, none⟩, rfl, rfl, fun h => by cases h.data⟩

/-- Non-trivial case of `C78_mesh_partial`. -/
example : ∃ F, dxOne.write (simplexTopo 2) (dxState (fun _ => none) (dxPoint 2)).mesh = some F ∧
    DxDescribes F (simplexTopo 2) (dxState (fun _ => none) (dxPoint 2)).mesh := by
  cases hF : dxOne.write (simplexTopo 2) (dxState (fun _ => none) (dxPoint 2)).mesh with
  | none => exact absurd hF (by decide +kernel)
  | some F =>
    have hu : UniqueVids (dxState (g := 2) (fun _ => none) (dxPoint 2)).mesh := by unfold UniqueVids; decide +kernel
    have hrun := dxState_run (g := 2) (fun _ => none) (dxPoint 2)
    refine ⟨F, rfl, C78_mesh_partial (by omega) (dxState_reached _ _ hu) (C78_generated_ids ?_ hrun) (Or.inl ?_) hF⟩
    · intro op hop
      simp only [dxHistory, List.mem_cons, List.not_mem_nil, or_false] at hop
      rcases hop with rfl | rfl | rfl | rfl <;> simp [QOp.Generated]
    · simp [dxOne, DxWriter.addOnVertices, DxWriter.new, namePut]

/-! ### C79 -/

/-- A registration: on vertices or on cells, name and values. -/
inductive DxReg where
  | onVertices (name : String) (f : Nat → ℚ)
  | onCells (name : String) (f : Nat → ℚ)

/-- Registering one after another. -/
def DxWriter.register (w : DxWriter) : List DxReg → DxWriter
  | [] => w
  | .onVertices n f :: rs => (w.addOnVertices n f).register rs
  | .onCells n f :: rs => (w.addOnCells n f).register rs

/-- Specification: the registrations on vertices. -/
def DxReg.vertexPart (rs : List DxReg) : List (String × (Nat → ℚ)) :=
  rs.filterMap (fun r => match r with | .onVertices n f => some (n, f) | .onCells _ _ => none)

/-- Specification: the registrations on cells. -/
def DxReg.cellPart (rs : List DxReg) : List (String × (Nat → ℚ)) :=
  rs.filterMap (fun r => match r with | .onVertices _ _ => none | .onCells n f => some (n, f))

/-- Specification: among registrations, the last one with the alphabetically first name. -/
structure DxChosen (l : List (String × (Nat → ℚ))) (f : Nat → ℚ) : Prop where
  chosen : ∃ pre name post, l = pre ++ (name, f) :: post ∧ (∀ x ∈ l, name ≤ x.1) ∧ ∀ x ∈ post, x.1 ≠ name

/-- Entries of the map: sorted by name, each the last registration with its name. -/
structure NameMap (l map : List (String × (Nat → ℚ))) : Prop where
  sorted : map.Pairwise (fun x y => x.1 < y.1)
  entry : ∀ x ∈ map, ∃ pre post, l = pre ++ x :: post ∧ ∀ y ∈ post, y.1 ≠ x.1
  all : ∀ x ∈ l, ∃ y ∈ map, y.1 = x.1

theorem NameMap.put {l map : List (String × (Nat → ℚ))} (h : NameMap l map) (k : String) (f : Nat → ℚ) :
    NameMap (l ++ [(k, f)]) (namePut k f map) := by
  obtain ⟨h1, h2⟩ := namePut_spec k f h.sorted
  refine ⟨h1, fun x hx => ?_, fun x hx => ?_⟩
  · rcases (h2 x).1 hx with rfl | ⟨hx, hne⟩
    · exact ⟨l, [], rfl, by simp⟩
    · obtain ⟨pre, post, rfl, hp⟩ := h.entry x hx
      refine ⟨pre, post ++ [(k, f)], by simp, fun y hy => ?_⟩
      rcases List.mem_append.1 hy with hy | hy
      · exact hp y hy
      · simp only [List.mem_singleton] at hy
        subst hy
        exact fun h => hne h.symm
  · by_cases hk : x.1 = k
    · exact ⟨(k, f), (h2 _).2 (Or.inl rfl), hk.symm⟩
    · rcases List.mem_append.1 hx with hx | hx
      · obtain ⟨y, hy, he⟩ := h.all x hx
        exact ⟨y, (h2 y).2 (Or.inr ⟨hy, by rw [he]; exact hk⟩), he⟩
      · simp only [List.mem_singleton] at hx
        subst hx
        exact absurd rfl hk

theorem register_maps : ∀ {rs : List DxReg} {w : DxWriter} {lv lc : List (String × (Nat → ℚ))},
    NameMap lv w.onVertices → NameMap lc w.onCells →
    NameMap (lv ++ DxReg.vertexPart rs) (w.register rs).onVertices ∧
      NameMap (lc ++ DxReg.cellPart rs) (w.register rs).onCells
  | [], w, lv, lc, h1, h2 => by
    simpa [DxWriter.register, DxReg.vertexPart, DxReg.cellPart] using And.intro h1 h2
  | .onVertices n f :: rs, w, lv, lc, h1, h2 => by
    have := register_maps (rs := rs) (w := w.addOnVertices n f) (h1.put n f) h2
    simpa [DxWriter.register, DxReg.vertexPart, DxReg.cellPart] using this
  | .onCells n f :: rs, w, lv, lc, h1, h2 => by
    have := register_maps (rs := rs) (w := w.addOnCells n f) h1 (h2.put n f)
    simpa [DxWriter.register, DxReg.vertexPart, DxReg.cellPart] using this

theorem NameMap.chosen {l map : List (String × (Nat → ℚ))} (h : NameMap l map) {n : String} {f : Nat → ℚ}
    {rest : List (String × (Nat → ℚ))} (he : map = (n, f) :: rest) : DxChosen l f := by
  obtain ⟨pre, post, hl, hp⟩ := h.entry (n, f) (by rw [he]; exact List.mem_cons_self)
  refine ⟨pre, n, post, hl, fun x hx => ?_, hp⟩
  obtain ⟨y, hy, hyx⟩ := h.all x hx
  rw [he] at hy
  have hs := h.sorted
  rw [he, List.pairwise_cons] at hs
  rcases List.mem_cons.1 hy with rfl | hy
  · exact hyx.le
  · rw [← hyx]
    exact (hs.1 y hy).le

theorem NameMap.nil_iff {l map : List (String × (Nat → ℚ))} (h : NameMap l map) : map = [] ↔ l = [] := by
  constructor
  · rintro rfl
    rw [List.eq_nil_iff_forall_not_mem]
    intro x hx
    obtain ⟨y, hy, _⟩ := h.all x hx
    cases hy
  · rintro rfl
    rw [List.eq_nil_iff_forall_not_mem]
    intro x hx
    obtain ⟨pre, post, he, _⟩ := h.entry x hx
    cases pre <;> cases he

theorem register_new (rs : List DxReg) :
    NameMap (DxReg.vertexPart rs) (DxWriter.new.register rs).onVertices ∧
      NameMap (DxReg.cellPart rs) (DxWriter.new.register rs).onCells := by
  have h0 : NameMap [] [] := ⟨List.Pairwise.nil, by simp, by simp⟩
  simpa using register_maps (rs := rs) (w := DxWriter.new) (lv := []) (lc := []) h0 h0

/-- C79: what is written after any registrations.  If there is a quantity on vertices it has precedence; among several the
one with the alphabetically first name is written, and of several with this name the last. -/
theorem C79_written {g : Nat} {T : Topo} {m : Mesh (Fin g → C)} {rs : List DxReg} {F : DxFile C}
    (hF : (DxWriter.new.register rs).write T m = some F) :
    (DxReg.vertexPart rs ≠ [] → ∃ f l, DxChosen (DxReg.vertexPart rs) f ∧
      dxValues m.verts.length f = some l ∧ F.data = some (true, m.verts.length, l)) ∧
    (DxReg.vertexPart rs = [] → DxReg.cellPart rs ≠ [] → ∃ f l, DxChosen (DxReg.cellPart rs) f ∧
      dxValues (m.elems T.cellDim).length f = some l ∧ F.data = some (false, (m.elems T.cellDim).length, l)) := by
  obtain ⟨h1, h2⟩ := register_new rs
  have hd := write_data hF
  split at hd
  · rename_i n f rest hv
    obtain ⟨l, hl, hd⟩ := hd
    refine ⟨fun _ => ⟨f, l, h1.chosen hv, hl, hd⟩, fun hc => ?_⟩
    have := h1.nil_iff.2 hc
    rw [hv] at this
    cases this
  · rename_i n f rest hv hc
    obtain ⟨l, hl, hd⟩ := hd
    refine ⟨fun h => absurd (h1.nil_iff.1 hv) h, fun _ _ => ⟨f, l, h2.chosen hc, hl, hd⟩⟩
  · rename_i hv hc
    exact ⟨fun h => absurd (h1.nil_iff.1 hv) h, fun _ h => absurd (h2.nil_iff.1 hc) h⟩

/-- C79.  Full statement: the quantity registered first on vertices, or else on cells, is written, and the others are ignored,
as is announced when they are registered.  False: see `C79_violated`.  Proved: it is so if the first one has the
alphabetically first name and no other quantity has the same name. -/
theorem C79_first_partial {g : Nat} {T : Topo} {m : Mesh (Fin g → C)} {rs : List DxReg} {F : DxFile C}
    (hF : (DxWriter.new.register rs).write T m = some F) {n : String} {f : Nat → ℚ} {rest : List (String × (Nat → ℚ))}
    (hv : DxReg.vertexPart rs = (n, f) :: rest) (hr : ∀ x ∈ rest, n < x.1) :
    ∃ l, dxValues m.verts.length f = some l ∧ F.data = some (true, m.verts.length, l) := by
  obtain ⟨f', l, ⟨pre, name, post, h1, h2, _⟩, hl, hd⟩ := (C79_written hF).1 (by rw [hv]; simp)
  have : f' = f := by
    rw [hv] at h1 h2
    cases pre with
    | nil =>
      simp only [List.nil_append, List.cons.injEq, Prod.mk.injEq] at h1
      exact h1.1.2.symm
    | cons x pre =>
      simp only [List.cons_append, List.cons.injEq] at h1
      have hm : (name, f') ∈ rest := by rw [h1.2]; simp
      have ha := hr _ hm
      have hb := h2 (n, f) List.mem_cons_self
      exact absurd ha (not_lt.2 hb)
  subst this
  exact ⟨l, hl, hd⟩

theorem register_announced : ∀ (l : List (String × (Nat → ℚ))) (w : DxWriter), w.onVertices ≠ [] →
    (w.register (l.map (fun x => .onVertices x.1 x.2))).ignored = w.ignored ++ l.map (·.1)
  | [], w, _ => by simp [DxWriter.register]
  | x :: l, w, hw => by
    have hne : (w.addOnVertices x.1 x.2).onVertices ≠ [] := by
      simp only [DxWriter.addOnVertices]
      cases h : w.onVertices with
      | nil => exact absurd h hw
      | cons y ys => unfold namePut; split <;> [skip; split] <;> simp
    simp only [List.map_cons, DxWriter.register]
    rw [register_announced l _ hne]
    simp only [DxWriter.addOnVertices]
    rw [if_pos (List.length_pos_iff.2 hw), List.append_assoc]
    rfl

/-- C79: the names announced as ignored are those of all quantities but the first. -/
theorem C79_announced (n : String) (f : Nat → ℚ) (l : List (String × (Nat → ℚ))) :
    (DxWriter.new.register (.onVertices n f :: l.map (fun x => .onVertices x.1 x.2))).ignored = l.map (·.1) := by
  simp only [DxWriter.register]
  rw [register_announced l _ (by simp [DxWriter.addOnVertices, DxWriter.new, namePut])]
  simp [DxWriter.addOnVertices, DxWriter.new]

/-- Registering the potential and then the density. -/
def dxTwo : List DxReg := [.onVertices "potential" (fun _ => 1), .onVertices "density" (fun _ => 2)]

/-- C79 violated: it is announced that the density will be ignored, but the density is written. -/
theorem C79_violated :
    (DxWriter.new.register dxTwo).ignored = ["density"] ∧
    ∃ F, (DxWriter.new.register dxTwo).write (simplexTopo 2) (dxState (fun _ => none) (dxPoint 2)).mesh = some F ∧
      F.data = some (true, 3, [2 + 1 / 100000, 2 + 1 / 100000, 2 + 1 / 100000]) := by
  refine ⟨by decide +kernel, ?_⟩
  cases hF : (DxWriter.new.register dxTwo).write (simplexTopo 2) (dxState (fun _ => none) (dxPoint 2)).mesh with
  | none => exact absurd hF (by decide +kernel)
  | some F =>
    refine ⟨F, rfl, ?_⟩
    have : F.data = (((DxWriter.new.register dxTwo).write (simplexTopo 2)
      (dxState (fun _ => none) (dxPoint 2)).mesh).map (·.data)).getD none := by rw [hF]; rfl
    rw [this]
    decide +kernel

/-! ### C80 -/

/-- Specification: with five digits after the point, `v` is printed as `t` hundred-thousandths. -/
def PrintedAs (v : ℚ) (t : ℤ) : Prop := |v * 100000 - t| ≤ 1 / 2

/-- C80: whatever the value, 1/100000 is added: the condition of the code is always true. -/
theorem C80_always_changed {n : Nat} {f : Nat → ℚ} {l : List ℚ} (h : dxValues n f = some l) :
    l.length = n ∧ ∀ s < n, l[s]? = some (f s + 1 / 100000) := by
  unfold dxValues at h
  replace h := mapM_some h
  have hlen := h.length_eq
  rw [List.length_range] at hlen
  refine ⟨hlen.symm, fun s hs => ?_⟩
  rw [List.forall₂_iff_get] at h
  have := h.2 s (by simpa using hs) (by omega)
  simp only [List.get_eq_getElem, List.getElem_range] at this
  rw [List.getElem?_eq_getElem (by omega), dxFix_eq this]

/-- C80: a number in the file, printed with five digits, differs from the value by at most 1.5/100000. -/
theorem C80_near {n : Nat} {f : Nat → ℚ} {l : List ℚ} (h : dxValues n f = some l) {s : Nat} {r : ℚ}
    (hr : l[s]? = some r) {t : ℤ} (ht : PrintedAs r t) : s < n ∧ |(t : ℚ) / 100000 - f s| ≤ 3 / 200000 := by
  obtain ⟨h1, h2⟩ := C80_always_changed h
  have hs : s < n := by
    rw [← h1]
    exact (List.getElem?_eq_some_iff.1 hr).1
  rw [h2 s hs, Option.some.injEq] at hr
  subst hr
  unfold PrintedAs at ht
  rw [abs_le] at ht ⊢
  refine ⟨hs, ?_, ?_⟩ <;> linarith

/-- C80: which values are printed as the integer `k`, with only zeros after the point: those around `k - 1/100000`. -/
theorem C80_printed_integer {v r : ℚ} (h : dxFix v = some r) (k : ℤ) :
    PrintedAs r (k * 100000) ↔ |v - (k - 1 / 100000)| ≤ 1 / 200000 := by
  rw [dxFix_eq h]
  unfold PrintedAs
  rw [abs_le, abs_le]
  push_cast
  constructor <;> rintro ⟨h1, h2⟩ <;> constructor <;> linarith

/-- C80.  Full statement: a number in the file is never printed with only zeros after the point, which is the purpose of
`DXfixer`.  False: see `C80_violated`.  Proved: it holds for values with at most four digits after the point. -/
theorem C80_not_integer_partial {v r : ℚ} (h : dxFix v = some r) {z : ℤ} (hz : v * 10000 = z) (k : ℤ) :
    ¬ PrintedAs r (k * 100000) := by
  rw [C80_printed_integer h, abs_le]
  rintro ⟨h1, h2⟩
  have hv : v = z / 10000 := by linarith
  rw [hv] at h1 h2
  have h3 : -(3 : ℚ) / 20 ≤ z - k * 10000 := by linarith
  have h4 : (z : ℚ) - k * 10000 ≤ -1 / 20 := by linarith
  have h5 : (-1 : ℚ) < ((z - k * 10000 : ℤ) : ℚ) := by push_cast; linarith
  have h6 : ((z - k * 10000 : ℤ) : ℚ) < 0 := by push_cast; linarith
  have h7 : -1 < z - k * 10000 := by exact_mod_cast h5
  have h8 : z - k * 10000 < 0 := by exact_mod_cast h6
  omega

/-- C80 violated: the value 0.99999, which is no integer and would be printed with five nines, becomes 1 and is printed as
1.00000. -/
theorem C80_violated : dxFix (99999 / 100000) = some 1 ∧ PrintedAs 1 (1 * 100000) ∧
    ∀ k : ℤ, ¬ PrintedAs (99999 / 100000) (k * 100000) := by
  refine ⟨by decide +kernel, by unfold PrintedAs; norm_num, fun k h => ?_⟩
  unfold PrintedAs at h
  rw [abs_le] at h
  push_cast at h
  have h1 : (k : ℚ) < 1 := by linarith [h.1]
  have h2 : (0 : ℚ) < k := by linarith [h.2]
  have h3 : k < 1 := by exact_mod_cast h1
  have h4 : 0 < k := by exact_mod_cast h2
  omega

/-- C80: exactly the values are written whose ten-thousandfold fits into `long`; otherwise the cast is undefined. -/
theorem C80_defined (v : ℚ) : (dxFix v).isSome = true ↔ -2 ^ 63 - 1 < v * 10000 ∧ v * 10000 < 2 ^ 63 := by
  unfold dxFix castLong
  rw [Option.isSome_map]
  split
  · rename_i h0
    have : ⌊v * 10000⌋ < 2 ^ 63 ↔ v * 10000 < 2 ^ 63 := by
      rw [Int.floor_lt]
      norm_num
    split
    · rename_i h
      simp only [Option.isSome_some, true_iff]
      exact ⟨by linarith, this.1 h⟩
    · rename_i h
      simp only [Option.isSome_none, Bool.false_eq_true, false_iff, not_and]
      exact fun _ hc => h (this.2 hc)
  · rename_i h0
    have : -2 ^ 63 ≤ ⌈v * 10000⌉ ↔ -2 ^ 63 - 1 < v * 10000 := by
      rw [show (-2 ^ 63 : ℤ) ≤ ⌈v * 10000⌉ ↔ -2 ^ 63 - 1 < ⌈v * 10000⌉ by omega, Int.lt_ceil]
      norm_num
    split
    · rename_i h
      simp only [Option.isSome_some, true_iff]
      exact ⟨this.1 h, by linarith⟩
    · rename_i h
      simp only [Option.isSome_none, Bool.false_eq_true, false_iff, not_and]
      exact fun hc => absurd (this.2 hc) h

/-- C80: a doping concentration of 10^16 cannot be written. -/
theorem C80_undefined {n : Nat} {f : Nat → ℚ} {s : Nat} (hs : s < n) (hf : f s = 10 ^ 16) : dxValues n f = none := by
  cases h : dxValues n f with
  | none => rfl
  | some l =>
    unfold dxValues at h
    obtain ⟨b, _, hb⟩ := forall₂_left (mapM_some h) (List.mem_range.2 hs)
    have := (C80_defined (f s)).1 (by rw [hb]; rfl)
    rw [hf] at this
    norm_num at this

/-- Non-trivial case: values 0, 1/2 and 1. -/
example : dxValues 3 (fun s => s / 2) = some [1 / 100000, 1 / 2 + 1 / 100000, 1 + 1 / 100000] := by decide +kernel

end VG
