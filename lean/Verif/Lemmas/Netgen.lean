import Verif.Model.Netgen
import Verif.Lemmas.RefineMesh

/-! How the Netgen reader runs over the words of a file. -/

namespace VG

variable {C : Type}

/-- The stream with the first `k` of the given words. -/
def cutAt (trail : Bool) (k : Nat) (l : List (Tok C)) : TokIn C := ⟨l.take k, trail, trail || !(l.take k).isEmpty⟩

theorem cutAt_zero (l l' : List (Tok C)) : cutAt false 0 l = cutAt false 0 l' := by simp [cutAt]

theorem readInt_cut (trail : Bool) (k : Nat) (i : Int) (l : List (Tok C)) (old : Option Int) :
    (cutAt trail (k + 1) (.int i :: l)).readInt old = .ok (some i, cutAt trail k l) := by
  simp [cutAt, TokIn.readInt, TokIn.next]

theorem readInt_end (l : List (Tok C)) (old : Option Int) : (cutAt false 0 l).readInt old = .ok (old, cutAt false 0 l) := by
  simp [cutAt, TokIn.readInt]

theorem good_cut (trail : Bool) (k : Nat) (x : Tok C) (l : List (Tok C)) : (cutAt trail (k + 1) (x :: l)).good = true := by
  simp [cutAt]

theorem good_end (l : List (Tok C)) : (cutAt false 0 l).good = false := by simp [cutAt]

theorem readPoint_end (ofInt : Int → C) : ∀ (dim : Nat) (l : List (Tok C)),
    ((cutAt false 0 l).readPoint ofInt dim).2 = cutAt false 0 l
  | 0, l => rfl
  | d + 1, l => by
    have : (cutAt false 0 l).readCoord ofInt = (ofInt 0, cutAt false 0 l) := by simp [TokIn.readCoord, cutAt]
    simp only [TokIn.readPoint, this]
    exact readPoint_end ofInt d l

/-- A coordinate in a file: a whole number or another number. -/
abbrev Coord (C : Type) := Int ⊕ C

/-- Its word. -/
def coordTok : Coord C → Tok C
  | .inl i => .int i
  | .inr c => .real c

/-- Its value. -/
def coordVal (ofInt : Int → C) : Coord C → C
  | .inl i => ofInt i
  | .inr c => c

theorem readCoord_cut (ofInt : Int → C) (trail : Bool) (k : Nat) (c : Coord C) (l : List (Tok C)) :
    (cutAt trail (k + 1) (coordTok c :: l)).readCoord ofInt = (coordVal ofInt c, cutAt trail k l) := by
  cases c <;> simp [cutAt, TokIn.readCoord, TokIn.next, coordTok, coordVal]

/-- All coordinates are there. -/
theorem readPoint_all (ofInt : Int → C) (trail : Bool) (rest : List (Tok C)) : ∀ (p : List (Coord C)) (k : Nat), p.length ≤ k →
    (cutAt trail k (p.map coordTok ++ rest)).readPoint ofInt p.length =
      (p.map (coordVal ofInt), cutAt trail (k - p.length) rest)
  | [], k, _ => by simp [TokIn.readPoint]
  | c :: p, 0, h => by simp at h
  | c :: p, k + 1, h => by
    simp only [List.map_cons, List.cons_append, List.length_cons, TokIn.readPoint, readCoord_cut]
    rw [readPoint_all ofInt trail rest p k (by simpa using h)]
    simp

/-- The file ends within the coordinates, or after them. -/
theorem readPoint_cut (ofInt : Int → C) (rest : List (Tok C)) : ∀ (p : List (Coord C)) (k : Nat),
    ((cutAt false k (p.map coordTok ++ rest)).readPoint ofInt p.length).2 = cutAt false (k - p.length) rest
  | [], k => by simp [TokIn.readPoint]
  | c :: p, 0 => by
    rw [readPoint_end, Nat.zero_sub]
    exact cutAt_zero _ _
  | c :: p, k + 1 => by
    simp only [List.map_cons, List.cons_append, List.length_cons, TokIn.readPoint, readCoord_cut]
    rw [readPoint_cut ofInt rest p k]
    simp

/-- The vertices the reader makes. -/
def addPoints (ofInt : Int → C) (m : Mesh (List C)) (i : Nat) : List (List (Coord C)) → Mesh (List C)
  | [] => m
  | p :: ps => addPoints ofInt (m.makeVertex (some (i : Int)) (p.map (coordVal ofInt))) (i + 1) ps

theorem readVertices_all (ofInt : Int → C) (trail : Bool) (dim : Nat) (hdim : 0 < dim) (rest : List (Tok C)) :
    ∀ (ps : List (List (Coord C))) (_ : ∀ p ∈ ps, p.length = dim) (k i : Nat) (m : Mesh (List C)), ps.length * dim ≤ k →
    readVertices ofInt dim ps.length i (cutAt trail k ((ps.flatMap fun p => p.map coordTok) ++ rest)) m =
      .ok (cutAt trail (k - ps.length * dim) rest, addPoints ofInt m i ps)
  | [], _, k, i, m, _ => by simp [readVertices, addPoints]
  | p :: ps, hp, k, i, m, hk => by
    have hpl : p.length = dim := hp p (by simp)
    have h1 : ps.length * dim + dim ≤ k := by
      rw [List.length_cons, Nat.add_mul, Nat.one_mul] at hk; exact hk
    have hgood : (cutAt trail k (((p :: ps).flatMap fun p => p.map coordTok) ++ rest)).good = true := by
      cases p with
      | nil => simp at hpl; omega
      | cons c p =>
        obtain ⟨k', rfl⟩ : ∃ k', k = k' + 1 := ⟨k - 1, by omega⟩
        exact good_cut _ _ _ _
    simp only [List.length_cons, readVertices, hgood, if_true]
    have hsplit : ((p :: ps).flatMap fun p => p.map coordTok) ++ rest =
        p.map coordTok ++ ((ps.flatMap fun p => p.map coordTok) ++ rest) := by simp
    have hr := readPoint_all ofInt trail ((ps.flatMap fun p => p.map coordTok) ++ rest) p k (by omega)
    rw [hpl] at hr
    rw [hsplit, hr]
    simp only [addPoints]
    rw [readVertices_all ofInt trail dim hdim rest ps (fun q hq => hp q (by simp [hq])) (k - dim) (i + 1) _ (by omega)]
    congr 3
    rw [Nat.add_mul]
    omega

/-- A file that ends within the vertices: an exception, or the stream stands at the end. -/
theorem readVertices_cut (ofInt : Int → C) (dim : Nat) (rest : List (Tok C)) :
    ∀ (ps : List (List (Coord C))) (_ : ∀ p ∈ ps, p.length = dim) (k i : Nat) (m : Mesh (List C)),
    readVertices ofInt dim ps.length i (cutAt false k ((ps.flatMap fun p => p.map coordTok) ++ rest)) m = .error .throws ∨
    ∃ m', readVertices ofInt dim ps.length i (cutAt false k ((ps.flatMap fun p => p.map coordTok) ++ rest)) m =
      .ok (cutAt false (k - ps.length * dim) rest, m')
  | [], _, k, i, m => by right; exact ⟨m, by simp [readVertices]⟩
  | p :: ps, hp, k, i, m => by
    have hpl : p.length = dim := hp p (by simp)
    simp only [List.length_cons, readVertices]
    split
    · have hsplit : ((p :: ps).flatMap fun p => p.map coordTok) ++ rest =
        p.map coordTok ++ ((ps.flatMap fun p => p.map coordTok) ++ rest) := by simp
      have hr := readPoint_cut ofInt ((ps.flatMap fun p => p.map coordTok) ++ rest) p k
      rw [hpl] at hr
      rw [hsplit, hr]
      have he : k - (ps.length + 1) * dim = k - dim - ps.length * dim := by rw [Nat.add_mul]; omega
      rw [he]
      exact readVertices_cut ofInt dim rest ps (fun q hq => hp q (by simp [hq])) (k - dim) (i + 1) _
    · exact Or.inl rfl

/-- The words for the vertices of a cell. -/
def cellToks (vs : List Nat) : List (Tok C) := vs.map fun (v : Nat) => Tok.int ((v : Int) + 1)

theorem readCell_all (trail : Bool) (n : Nat) (rest : List (Tok C)) : ∀ (vs : List Nat) (_ : ∀ v ∈ vs, v < n) (k : Nat)
    (old : Option Int), vs.length ≤ k →
    readCell n vs.length (cutAt trail k (cellToks vs ++ rest)) old = .ok (vs, cutAt trail (k - vs.length) rest)
  | [], _, k, old, _ => by simp [readCell, cellToks]
  | v :: vs, h, 0, old, hk => by simp at hk
  | v :: vs, h, k + 1, old, hk => by
    have hv := h v (by simp)
    have hsplit : (cellToks (v :: vs) ++ rest : List (Tok C)) = .int (v + 1) :: (cellToks vs ++ rest) := by simp [cellToks]
    rw [hsplit]
    simp only [List.length_cons, readCell, good_cut, if_true, readInt_cut]
    rw [if_pos (by omega), readCell_all trail n rest vs (fun w hw => h w (by simp [hw])) k _ (by simpa using hk)]
    simp

/-- A file that ends within the vertices of a cell. -/
theorem readCell_cut (n : Nat) (rest : List (Tok C)) : ∀ (vs : List Nat) (_ : ∀ v ∈ vs, v < n) (k : Nat)
    (old : Option Int), k < vs.length → readCell n vs.length (cutAt false k (cellToks vs ++ rest)) old = .error .throws
  | [], _, k, old, hk => by simp at hk
  | v :: vs, h, 0, old, hk => by simp [readCell, good_end]
  | v :: vs, h, k + 1, old, hk => by
    have hv := h v (by simp)
    have hsplit : (cellToks (v :: vs) ++ rest : List (Tok C)) = .int (v + 1) :: (cellToks vs ++ rest) := by simp [cellToks]
    rw [hsplit]
    simp only [List.length_cons, readCell, good_cut, if_true, readInt_cut]
    rw [if_pos (by omega), readCell_cut n rest vs (fun w hw => h w (by simp [hw])) k _ (by simpa using hk)]


/-! ### The mesh -/

/-- What has been made when all vertices and the first cells are read. -/
structure NetInv (T : Topo) (vts : List (Vtx (List C))) (done : List (Int × List Nat)) (st : SegState (List C)) : Prop where
  reached : SegReached T st
  verts : st.mesh.verts = vts
  cells : (st.mesh.elems T.cellDim).map (·.verts) = done.map Prod.snd
  ids : IdsCont st.mesh
  added : ∀ n x, x ∈ st.added n ↔ ∃ i g vs, done[i]? = some (g, vs) ∧ n = segNumber g ∧ x = (T.cellDim, i)

theorem makeIn_spec {T : Topo} (hT : T.WF) (hC : T.Closed) (hn : 1 ≤ T.cellDim) {vts : List (Vtx (List C))}
    {done : List (Int × List Nat)} {st : SegState (List C)} (h : NetInv T vts done st) {g : Int} {vs : List Nat}
    (hnd : vs.Nodup) (hlen : vs.length = T.nv T.cellDim) (hlt : ∀ v ∈ vs, v < vts.length) :
    ∃ st', st.makeIn T (segNumber g) (.elem T.cellDim vs) = some st' ∧ NetInv T vts (done ++ [(g, vs)]) st' := by
  have hI := h.reached.inv hT hC
  have hlt' : ∀ v ∈ vs, v < st.mesh.verts.length := by rw [h.verts]; exact hlt
  have hu : UniqueVids st.mesh := by obtain ⟨_, _, _, hu⟩ := h.reached; exact hu
  have hs' := makeElem_spec hT hI.mesh hu hn ⟨hnd, Or.inl hlen, hlt'⟩
  have hms : st.mesh.step T (.elem T.cellDim vs) = some (st.mesh.makeElem T T.cellDim vs).mesh := by
    simp only [Mesh.step]
    rw [if_pos ⟨hn, Nat.le_refl _, Or.inl hlen, hlt'⟩]
  have hnew : (st.mesh.makeElem T T.cellDim vs).new = true := hs'.isnew.2 (Or.inl rfl)
  obtain ⟨hslot, e, he1, he2⟩ := hs'.appended hnew
  have hcount : (st.mesh.elems T.cellDim).length = done.length := by
    have := congrArg List.length h.cells
    simpa using this
  unfold SegState.makeIn
  rw [hms]
  simp only [Option.map_some, Option.some.injEq, exists_eq_left']
  have hmesh : ∀ (s : SegState (List C)), (s.addElem T (segNumber g) (st.mesh.created T (.elem T.cellDim vs)).1
      (st.mesh.created T (.elem T.cellDim vs)).2).mesh = s.mesh := fun s => by
    unfold SegState.addElem
    simp only
    exact (addAll_mesh _ _ _).1
  generalize heq : SegState.addElem T _ _ _ _ = st'
  have hst' : st.step T (.make (segNumber g) (.elem T.cellDim vs)) = some st' := by
    simp only [SegState.step, SegState.makeIn, hms, Option.map_some, heq]
  have hm' : st'.mesh = (st.mesh.makeElem T T.cellDim vs).mesh := by rw [← heq, hmesh]
  refine ⟨?_, ?_, ?_, ?_, ?_⟩
  · refine h.reached.step (op := .make (segNumber g) (.elem T.cellDim vs)) (fun o ho => ?_) hst' ?_
    · simp only [SOp.creation, Option.some.injEq] at ho; subst ho; exact hnd
    · unfold UniqueVids
      rw [hm', hs'.ext.verts]
      exact hu
  · rw [hm', hs'.ext.verts, h.verts]
  · rw [hm', he2]
    simp [h.cells, he1]
  · rw [hm']
    exact insertN_idsCont T _ _ _ _ h.ids
  · intro n x
    have hadd : st'.added n = if n = segNumber g then st.added n ++ [(T.cellDim, done.length)] else st.added n := by
      rw [← heq]
      unfold SegState.addElem
      simp only [Mesh.created, (addAll_mesh _ _ _).2, hslot, hcount]
      by_cases hn' : n = segNumber g
      · subst hn'; simp
      · simp [hn']
    rw [hadd]
    constructor
    · intro hx
      by_cases hn' : n = segNumber g
      · rw [if_pos hn', List.mem_append, List.mem_singleton] at hx
        rcases hx with hx | hx
        · obtain ⟨i, g', vs', h1, h2, h3⟩ := (h.added n x).1 hx
          exact ⟨i, g', vs', by rw [List.getElem?_append_left (List.getElem?_eq_some_iff.1 h1).1]; exact h1, h2, h3⟩
        · exact ⟨done.length, g, vs, by simp, hn', hx⟩
      · rw [if_neg hn'] at hx
        obtain ⟨i, g', vs', h1, h2, h3⟩ := (h.added n x).1 hx
        exact ⟨i, g', vs', by rw [List.getElem?_append_left (List.getElem?_eq_some_iff.1 h1).1]; exact h1, h2, h3⟩
    · rintro ⟨i, g', vs', h1, h2, h3⟩
      by_cases hi : i < done.length
      · rw [List.getElem?_append_left hi] at h1
        have hx := (h.added n x).2 ⟨i, g', vs', h1, h2, h3⟩
        split
        · exact List.mem_append_left _ hx
        · exact hx
      · rw [List.getElem?_append_right (by omega)] at h1
        obtain ⟨h4, h5⟩ := List.getElem?_eq_some_iff.1 h1
        simp only [List.length_singleton] at h4
        have hi' : i = done.length := by omega
        subst hi'
        simp only [Nat.sub_self, List.getElem_cons_zero, Prod.mk.injEq] at h5
        rw [h5.1, if_pos h2]
        simp [h3]

/-- The words for a cell. -/
def netCell (c : Int × List Nat) : List (Tok C) := .int c.1 :: cellToks c.2

theorem readCells_all {T : Topo} (hT : T.WF) (hC : T.Closed) (hn : 1 ≤ T.cellDim) (trail : Bool)
    {vts : List (Vtx (List C))} (rest : List (Tok C)) : ∀ (cells done : List (Int × List Nat)) (k : Nat)
    (st : SegState (List C)), (∀ c ∈ cells, c.2.Nodup ∧ c.2.length = T.nv T.cellDim ∧ ∀ v ∈ c.2, v < vts.length) →
    NetInv T vts done st → (cells.flatMap (netCell (C := C))).length ≤ k →
    ∃ st', readCells T cells.length (cutAt trail k (cells.flatMap netCell ++ rest)) st = .ok st' ∧
      NetInv T vts (done ++ cells) st'
  | [], done, k, st, _, hinv, _ => ⟨st, rfl, by simpa using hinv⟩
  | c :: cells, done, 0, st, _, _, hk => by simp [netCell] at hk
  | c :: cells, done, k + 1, st, hc, hinv, hk => by
    obtain ⟨hnd, hlen, hlt⟩ := hc c (by simp)
    have hsplit : (c :: cells).flatMap netCell ++ rest =
        (.int c.1 :: (cellToks c.2 ++ (cells.flatMap netCell ++ rest)) : List (Tok C)) := by simp [netCell]
    have hk' : c.2.length + (cells.flatMap (netCell (C := C))).length ≤ k := by
      rw [List.flatMap_cons, List.length_append] at hk
      simp only [netCell, List.length_cons, cellToks, List.length_map] at hk ⊢
      omega
    rw [hsplit]
    simp only [List.length_cons, readCells, good_cut, if_true, readInt_cut]
    have hcell := readCell_all trail st.mesh.verts.length (cells.flatMap netCell ++ rest) c.2
      (fun v hv => by rw [hinv.verts]; exact hlt v hv) k none (by omega)
    rw [hlen] at hcell
    rw [hcell]
    obtain ⟨st', h1, h2⟩ := makeIn_spec hT hC hn hinv (g := c.1) hnd hlen hlt
    simp only [h1]
    obtain ⟨st'', h3, h4⟩ := readCells_all hT hC hn trail rest cells (done ++ [(c.1, c.2)]) (k - T.nv T.cellDim) st'
      (fun d hd => hc d (by simp [hd])) h2 (by omega)
    exact ⟨st'', h3, by simpa using h4⟩

/-- A file that ends within the cells. -/
theorem readCells_cut {T : Topo} (hT : T.WF) (hC : T.Closed) (hn : 1 ≤ T.cellDim)
    {vts : List (Vtx (List C))} : ∀ (cells done : List (Int × List Nat)) (k : Nat)
    (st : SegState (List C)), (∀ c ∈ cells, c.2.Nodup ∧ c.2.length = T.nv T.cellDim ∧ ∀ v ∈ c.2, v < vts.length) →
    NetInv T vts done st → k < (cells.flatMap (netCell (C := C))).length →
    readCells T cells.length (cutAt false k (cells.flatMap netCell)) st = .error .throws
  | [], done, k, st, _, _, hk => by simp at hk
  | c :: cells, done, 0, st, _, _, _ => by simp [readCells, good_end]
  | c :: cells, done, k + 1, st, hc, hinv, hk => by
    obtain ⟨hnd, hlen, hlt⟩ := hc c (by simp)
    have hsplit : (c :: cells).flatMap netCell =
        (.int c.1 :: (cellToks c.2 ++ cells.flatMap netCell) : List (Tok C)) := by simp [netCell]
    rw [hsplit] at hk ⊢
    simp only [List.length_cons, readCells, good_cut, if_true, readInt_cut]
    by_cases hkc : k < c.2.length
    · have hcell := readCell_cut (C := C) st.mesh.verts.length (cells.flatMap netCell) c.2
        (fun v hv => by rw [hinv.verts]; exact hlt v hv) k none hkc
      rw [hlen] at hcell
      rw [hcell]
    · have hcell := readCell_all (C := C) false st.mesh.verts.length (cells.flatMap netCell) c.2
        (fun v hv => by rw [hinv.verts]; exact hlt v hv) k none (by omega)
      rw [hlen] at hcell
      rw [hcell]
      obtain ⟨st', h1, h2⟩ := makeIn_spec hT hC hn hinv (g := c.1) hnd hlen hlt
      simp only [h1]
      refine readCells_cut hT hC hn cells (done ++ [(c.1, c.2)]) (k - T.nv T.cellDim) st'
        (fun d hd => hc d (by simp [hd])) h2 ?_
      simp only [List.length_cons, List.length_append, cellToks, List.length_map] at hk
      omega

/-- A vertex with its id. -/
def netVertex (ofInt : Int → C) (i : Nat) (p : List (Coord C)) : Vtx (List C) := ⟨i, p.map (coordVal ofInt)⟩

theorem addPoints_spec (T : Topo) (ofInt : Int → C) : ∀ (ps done : List (List (Coord C))) (m : Mesh (List C)),
    NetInv T (done.mapIdx (netVertex ofInt)) [] { (SegState.empty : SegState (List C)) with mesh := m } →
    NetInv T ((done ++ ps).mapIdx (netVertex ofInt)) []
      { (SegState.empty : SegState (List C)) with mesh := addPoints ofInt m done.length ps }
  | [], done, m, h => by simpa [addPoints] using h
  | p :: ps, done, m, h => by
    have hv : (m.makeVertex (some (done.length : Int)) (p.map (coordVal ofInt))).verts =
        (done ++ [p]).mapIdx (netVertex ofInt) := by
      have := h.verts
      simp only at this
      simp [Mesh.makeVertex, this, netVertex]
    have hnext : NetInv T ((done ++ [p]).mapIdx (netVertex ofInt)) []
        { (SegState.empty : SegState (List C)) with
          mesh := m.makeVertex (some (done.length : Int)) (p.map (coordVal ofInt)) } := by
      refine ⟨?_, hv, h.cells, h.ids, h.added⟩
      refine h.reached.step (op := .mesh (.vertex (some (done.length : Int)) (p.map (coordVal ofInt)))) (fun o ho => ?_)
        rfl ?_
      · simp only [SOp.creation, Option.some.injEq] at ho; subst ho; trivial
      · unfold UniqueVids
        simp only [hv]
        have : ((done ++ [p]).mapIdx (netVertex ofInt)).map (·.id) =
            (List.range (done ++ [p]).length).map (fun k : Nat => (k : Int)) := by
          apply List.ext_getElem
          · simp
          · intro i h1 h2
            rw [List.getElem_map, List.getElem_mapIdx, List.getElem_map, List.getElem_range]
            rfl
        rw [this]
        exact List.nodup_range.map fun a b h => by simpa using h
    have := addPoints_spec T ofInt ps (done ++ [p]) _ hnext
    simpa [addPoints] using this

theorem netInv_empty (T : Topo) : NetInv T [] [] (SegState.empty : SegState (List C)) :=
  ⟨⟨[], by simp, rfl, by simp [UniqueVids, SegState.empty, Mesh.empty]⟩, rfl, rfl, fun d => by simp [SegState.empty, Mesh.empty],
    fun n x => by simp [SegState.empty]⟩

theorem segNumber_inj {g g' : Int} (h : segNumber g = segNumber g') : g = g' := by
  unfold segNumber at h
  split at h <;> split at h <;> omega

end VG
