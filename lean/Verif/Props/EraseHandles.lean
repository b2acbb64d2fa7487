import Verif.Props.Erase
import Verif.Lemmas.EraseHandles

/-!
C77: what handles refer to after elements were erased from the mesh.
-/

namespace VG

variable {P : Type}

/-! ### C77 -/

/-- Specification: the ids of the elements of dimension `d` which erasing the elements `es` erases. -/
def EMesh.Erased (M : EMesh) (es : List (Nat × ENode)) (d : Nat) (i : Int) : Prop :=
  ∃ e ∈ es, M.Above (d, i) (e.1, e.2.id)

theorem eraseElements_cells {cd : Nat} {M : EMesh} (hg : EGood cd M) {es : List (Nat × ENode)}
    (he : ∀ e ∈ es, e.2 ∈ M.nodes e.1) {M' : EMesh}
    (h : M.eraseElements cd (M.markAll es (fun _ => [])) = some M') (d : Nat) :
    ∃ is : List Int, is.Nodup ∧ (∀ i, i ∈ is ↔ M.Erased es d i) ∧
      CellsLeft cd d is.length (M.cells d) (M'.cells d) ∧
      ∀ a i, M.At d a i → ¬ M.Erased es d i → a ∈ (M'.cells d).map (·.1) → M'.At d a i := by
  obtain ⟨hn, hm⟩ := markAll_spec hg.wf he (marked := fun _ => []) (by simp)
  have hm' : ∀ d i, i ∈ M.markAll es (fun _ => []) d ↔ M.Erased es d i := by
    intro d i
    rw [hm]
    unfold EMesh.Erased
    simp only [List.not_mem_nil, false_or, above_iff hg]
  have hdim : ∀ d i c, M.Content d i c → d ≤ cd := by
    rintro d i c ⟨x, hx, _⟩
    by_contra hc
    rw [hg.dims d (by omega)] at hx
    simp at hx
  have hex : ∀ d i, M.Erased es d i → ∃ x ∈ M.nodes d, x.id = i := by
    rintro d i ⟨e, hes, ha⟩
    rcases (above_iff hg _ _).1 ha with ha | ⟨c, ⟨x, hx, h1, _⟩, _⟩
    · injection ha with h1 h2
      subst h1 h2
      exact ⟨e.2, he e hes, rfl⟩
    · exact ⟨x, hx, h1⟩
  have hs := eraseLayers_cells (cd := cd) hn (D := cd) hg.wf
    (fun k _ i hi => hex k i ((hm' k i).1 hi))
    (by
      intro k i c hc k' _ j hj hjm
      refine ⟨hdim k i c hc, ?_⟩
      rw [hm'] at hjm ⊢
      obtain ⟨e, hes, ha⟩ := hjm
      exact ⟨e, hes, Relation.ReflTransGen.head ⟨c, hc, hj⟩ ha⟩) h
  refine ⟨M.markAll es (fun _ => []) d, hn d, hm' d, ?_⟩
  by_cases hd : d ≤ cd
  · obtain ⟨h1, h2⟩ := hs.1 d hd
    exact ⟨h1, fun a i ha hi hl => h2 a i ha (fun hc => hi ((hm' d i).1 hc)) hl⟩
  · obtain ⟨h1, h2⟩ := triples_cells (hs.2 d (by omega))
    have h3 : M.markAll es (fun _ => []) d = [] := by
      rw [List.eq_nil_iff_forall_not_mem]
      intro i hi
      obtain ⟨x, hx, _⟩ := hex d i ((hm' d i).1 hi)
      rw [hg.dims d (by omega)] at hx
      simp at hx
    rw [h1, h3]
    exact ⟨CellsLeft.none .., fun a i ha _ _ => (h2 a i).2 ha⟩

/-- C77: which storage cells are left does not depend on which elements are erased, but only on how many: of vertices
and of cells the first ones are left, of the elements between them those with the smallest keys. -/
theorem C77_cells_left {T : Topo} (hT : EraseTopo T) {M : EMesh} (h : EReached P T M)
    {es : List (Nat × ENode)} (he : ∀ e ∈ es, e.2 ∈ M.nodes e.1) {M' : EMesh}
    (h' : M.eraseElements T.cellDim (M.markAll es (fun _ => [])) = some M') (d : Nat) :
    ∃ is : List Int, is.Nodup ∧ (∀ i, i ∈ is ↔ M.Erased es d i) ∧
      CellsLeft T.cellDim d is.length (M.cells d) (M'.cells d) := by
  obtain ⟨is, h1, h2, h3, _⟩ := eraseElements_cells (h.good hT) he h' d
  exact ⟨is, h1, h2, h3⟩

theorem at_id_unique {M : EMesh} (hw : EWF M) {d a : Nat} {i j : Int} (h : M.At d a i) (h' : M.At d a j) : i = j := by
  obtain ⟨x, hx, h1, h2⟩ := h
  obtain ⟨y, hy, h3, h4⟩ := h'
  rw [← h2, ← h4, hw.addr_inj hx hy (by rw [h1, h3])]

theorem at_addr_unique {M : EMesh} (hw : EWF M) {d a b : Nat} {i : Int} (h : M.At d a i) (h' : M.At d b i) : a = b := by
  obtain ⟨x, hx, h1, h2⟩ := h
  obtain ⟨y, hy, h3, h4⟩ := h'
  rw [← h1, ← h3, hw.id_inj hx hy (by rw [h2, h4])]

theorem at_content {M : EMesh} (hw : EWF M) {d : Nat} {i : Int} : (∃ a, M.At d a i) ↔ ∃ c, M.Content d i c := by
  constructor
  · rintro ⟨a, x, hx, _, rfl⟩
    obtain ⟨c, hc, _⟩ := hw.content hx
    exact ⟨c, hc⟩
  · rintro ⟨c, x, hx, rfl, _⟩
    exact ⟨x.addr, x, hx, rfl, rfl⟩

/-- C77: every handle `a` of the mesh, which refers to the element with id `i` before the erasure, afterwards
refers to the same element if and only if this is not erased and the storage cell is one of those left.  If the cell
is left and its element is erased, the handle refers to another element, which was in a cell that is gone. -/
theorem C77_handle {T : Topo} (hT : EraseTopo T) {M : EMesh} (h : EReached P T M)
    {es : List (Nat × ENode)} (he : ∀ e ∈ es, e.2 ∈ M.nodes e.1) {M' : EMesh}
    (h' : M.eraseElements T.cellDim (M.markAll es (fun _ => [])) = some M') {d a : Nat} {i : Int} (ha : M.At d a i) :
    (M'.At d a i ↔ ¬ M.Erased es d i ∧ a ∈ (M'.cells d).map (·.1)) ∧
    (M.Erased es d i → a ∈ (M'.cells d).map (·.1) →
      ∃ b j, M'.At d a j ∧ M.At d b j ∧ ¬ M.Erased es d j ∧ b ∉ (M'.cells d).map (·.1)) ∧
    (a ∉ (M'.cells d).map (·.1) → ∀ j, ¬ M'.At d a j) := by
  have hg := h.good hT
  obtain ⟨M'', h1, h2, _⟩ := C23_erase_elements hT h he
  rw [h'] at h1
  cases h1
  have hg' := (EReached.erase M M' es h he h').good hT
  obtain ⟨is, _, _, _, h4⟩ := eraseElements_cells hg he h' d
  have hleft : ∀ a j, M'.At d a j → ¬ M.Erased es d j ∧ ∃ b, M.At d b j := by
    intro a j hj
    obtain ⟨c, hc⟩ := (at_content hg'.wf).1 ⟨a, hj⟩
    obtain ⟨h5, h6⟩ := (h2 d j c).1 hc
    exact ⟨fun ⟨e, hes, hx⟩ => h6 e hes hx, (at_content hg.wf).2 ⟨c, h5⟩⟩
  refine ⟨⟨fun hx => ⟨(hleft a i hx).1, cells_of_at hx⟩, fun ⟨hx, hy⟩ => h4 a i ha hx hy⟩, fun hx hy => ?_,
    fun hx j hj => hx (cells_of_at hj)⟩
  obtain ⟨j, hj⟩ := at_cells hy
  obtain ⟨h5, b, hb⟩ := hleft a j hj
  refine ⟨b, j, hj, hb, h5, fun hc => ?_⟩
  have h6 := h4 b j hb h5 hc
  have : a = b := at_addr_unique hg'.wf hj h6
  subst this
  rw [at_id_unique hg.wf ha hb] at hx
  exact h5 hx

theorem readView_iff {M : EMesh} (hw : EWF M) {d : Nat} : ∀ {view : List Nat} {l : List Int},
    M.readView d view = some l ↔ List.Forall₂ (M.At d) view l
  | [], l => by
    unfold EMesh.readView
    cases l <;> simp
  | a :: view, l => by
    have ih := @readView_iff M hw d view
    have hat : ∀ i, ((M.nodes d).find? (fun n => n.addr == a)).map (·.id) = some i ↔ M.At d a i := by
      intro i
      constructor
      · intro h
        obtain ⟨n, hn, rfl⟩ := Option.map_eq_some_iff.1 h
        have := List.find?_some hn
        exact ⟨n, List.mem_of_find?_eq_some hn, by simpa using this, rfl⟩
      · rintro ⟨n, hn, rfl, rfl⟩
        have : (M.nodes d).find? (fun x => x.addr == n.addr) = some n := by
          cases hf : (M.nodes d).find? (fun x => x.addr == n.addr) with
          | none =>
            rw [List.find?_eq_none] at hf
            exact absurd (by simp) (hf n hn)
          | some x =>
            rw [hw.addr_inj (List.mem_of_find?_eq_some hf) hn (by simpa using List.find?_some hf)]
        rw [this, Option.map_some]
    unfold EMesh.readView at ih ⊢
    simp only [List.mapM_cons, Option.pure_def, Option.bind_eq_bind, Option.bind_eq_some_iff, hat, ih,
      Option.some.injEq]
    constructor
    · rintro ⟨i, hi, l', hl, rfl⟩
      exact .cons hi hl
    · intro h
      cases h with
      | cons h1 h2 => exact ⟨_, h1, _, h2, rfl⟩

/-- C77.  Full statement: after erasing elements of the mesh, a view or a segment lists the elements it listed before
without those erased.  False: see `C77_violated`.  Proved: erasing elements of the mesh does not touch views, and a view
which listed the elements with ids `l` lists the same afterwards exactly if none of its elements is erased and none
of its handles belongs to a storage cell which is gone. -/
theorem C77_view_partial {T : Topo} (hT : EraseTopo T) {M : EMesh} (h : EReached P T M)
    {es : List (Nat × ENode)} (he : ∀ e ∈ es, e.2 ∈ M.nodes e.1) {M' : EMesh}
    (h' : M.eraseElements T.cellDim (M.markAll es (fun _ => [])) = some M') {d : Nat} {view : List Nat} {l : List Int}
    (hv : M.readView d view = some l) :
    (M'.readView d view = some l ↔ (∀ i ∈ l, ¬ M.Erased es d i) ∧ ∀ a ∈ view, a ∈ (M'.cells d).map (·.1)) ∧
    (M'.readView d view = none ↔ ∃ a ∈ view, a ∉ (M'.cells d).map (·.1)) := by
  have hg := h.good hT
  have hg' := (EReached.erase M M' es h he h').good hT
  rw [readView_iff hg.wf] at hv
  rw [readView_iff hg'.wf]
  constructor
  · induction hv with
    | nil => simp
    | @cons a i view l ha _ ih =>
      rw [List.forall₂_cons, ih, (C77_handle hT h he h' ha).1]
      simp only [List.mem_cons, forall_eq_or_imp]
      tauto
  · rw [← not_iff_not]
    push Not
    constructor
    · intro hx a hav
      obtain ⟨l', hl⟩ := Option.ne_none_iff_exists'.1 hx
      rw [readView_iff hg'.wf] at hl
      obtain ⟨i, _, hi⟩ := forall₂_mem hl hav
      exact cells_of_at hi
    · intro hx
      have : ∃ l', List.Forall₂ (M'.At d) view l' := by
        clear hv
        induction view with
        | nil => exact ⟨[], .nil⟩
        | cons a view ih =>
          obtain ⟨l', hl⟩ := ih (fun b hb => hx b (List.mem_cons_of_mem _ hb))
          obtain ⟨i, hi⟩ := at_cells (hx a List.mem_cons_self)
          exact ⟨i :: l', .cons hi hl⟩
      obtain ⟨l', hl⟩ := this
      rw [(readView_iff hg'.wf).2 hl]
      simp

/-- C77 for views of vertices and of cells: with `n` elements of the dimension erased, a handle to one of the last `n` cells of
the container dangles, whether or not its element was erased. -/
theorem C77_last_dangle_partial {T : Topo} (hT : EraseTopo T) {M : EMesh} (h : EReached P T M)
    {es : List (Nat × ENode)} (he : ∀ e ∈ es, e.2 ∈ M.nodes e.1) {M' : EMesh}
    (h' : M.eraseElements T.cellDim (M.markAll es (fun _ => [])) = some M') {d : Nat} (hd : d = 0 ∨ d = T.cellDim)
    {p : Nat} {x : ENode} (hx : (M.nodes d)[p]? = some x) :
    x.addr ∈ (M'.cells d).map (·.1) ↔ p < (M'.nodes d).length := by
  obtain ⟨is, _, _, h3, _⟩ := eraseElements_cells (h.good hT) he h' d
  have hw := (h.good hT).wf
  have hlen : (M'.cells d).length = (M'.nodes d).length := by simp [EMesh.cells]
  have hnd : ((M.cells d).map (·.1)).Nodup := by
    have := hw.addrs d
    unfold EMesh.cells
    rwa [List.map_map]
  have hpx : ((M.cells d).map (·.1))[p]? = some x.addr := by
    unfold EMesh.cells
    rw [List.map_map, List.getElem?_map, hx]
    rfl
  rw [h3.deque hd, List.map_take, hlen]
  constructor
  · intro hm
    obtain ⟨q, hq⟩ := List.mem_iff_getElem?.1 hm
    have hq2 := hq
    rw [List.getElem?_take] at hq
    split at hq
    · rename_i hlt
      obtain ⟨hp1, hp2⟩ := List.getElem?_eq_some_iff.1 hpx
      obtain ⟨hq1, hq2⟩ := List.getElem?_eq_some_iff.1 hq
      have := (List.Nodup.getElem_inj_iff hnd).1 (hq2.trans hp2.symm)
      omega
    · cases hq
  · intro hlt
    refine List.mem_of_getElem? (i := p) ?_
    rw [List.getElem?_take, if_pos hlt, hpx]

/-- The mesh of two triangles with the first triangle erased. -/
def erasedFirst : EMesh :=
  (eraseTrianglesState.mesh.store.eraseElements 2
    (eraseTrianglesState.mesh.store.markAll [(2, eraseTrianglesState.mesh.store.get 2 0)] (fun _ => []))).getD
      ⟨fun _ => []⟩

theorem erasedFirst_step : eraseTrianglesState.mesh.store.eraseElements (simplexTopo 2).cellDim
    (eraseTrianglesState.mesh.store.markAll [(2, eraseTrianglesState.mesh.store.get 2 0)] (fun _ => [])) =
      some erasedFirst := rfl

theorem erasedFirst_mem : ∀ e ∈ [((2 : Nat), eraseTrianglesState.mesh.store.get 2 0)],
    e.2 ∈ eraseTrianglesState.mesh.store.nodes e.1 := by
  intro e he
  simp only [List.mem_singleton] at he
  subst he
  have h : (eraseTrianglesState.mesh.store.nodes 2).find? (fun n => n.id == 0) =
    some (eraseTrianglesState.mesh.store.get 2 0) := rfl
  exact List.mem_of_find?_eq_some h

/-- C77 violated: two triangles, the view `[0]` has the first, the view `[1]` the second.  Erasing the first triangle
leaves the second with id 1, but the view of the first now lists it, and reading the view of the second, no
element of which was erased, is undefined. -/
theorem C77_violated :
    EReached Unit (simplexTopo 2) eraseTrianglesState.mesh.store ∧
    eraseTrianglesState.mesh.store.eraseElements (simplexTopo 2).cellDim
      (eraseTrianglesState.mesh.store.markAll [(2, eraseTrianglesState.mesh.store.get 2 0)] (fun _ => [])) =
        some erasedFirst ∧
    (erasedFirst.nodes 2).map (·.id) = [1] ∧
    eraseTrianglesState.mesh.store.readView 2 [0] = some [0] ∧
    eraseTrianglesState.mesh.store.readView 2 [1] = some [1] ∧
    erasedFirst.readView 2 [0] = some [1] ∧ erasedFirst.readView 2 [1] = none :=
  ⟨.built _ eraseTriangles_reached, rfl, by decide +kernel, by decide +kernel, by decide +kernel, by decide +kernel,
    by decide +kernel⟩

/-- Non-trivial case: vertices and edges keep their handles when the first triangle is erased. -/
example : erasedFirst.readView 1 [0, 3] = some [0, 3] ∧ erasedFirst.readView 0 [0, 1, 2, 3] = some [0, 1, 2, 3] :=
  ⟨by decide +kernel, by decide +kernel⟩

example : (erasedFirst.readView 2 [0, 1] = none ↔ ∃ a ∈ [0, 1], a ∉ (erasedFirst.cells 2).map (·.1)) :=
  (C77_view_partial (Or.inl ⟨2, rfl⟩) (.built _ eraseTriangles_reached) erasedFirst_mem erasedFirst_step
    (l := [0, 1]) (by decide +kernel)).2

end VG
