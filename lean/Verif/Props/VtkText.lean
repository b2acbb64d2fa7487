import Verif.Lemmas.VtkTextFiles
import Verif.Props.Vtk

/-! Properties C90, C91, C92: the text of VTK files, the names of the files, and files which cannot be read. -/

namespace VG

variable {C : Type}

/-! ### C90 -/

/-- The files with the given names and texts are there; other files may be there as well. -/
def Stored (files : List Char → Option (List Char)) (written : List (List Char × List Char)) : Prop :=
  ∀ f ∈ written, files f.1 = some f.2

/-- The names of all quantities which are written can be read back: not empty, without quotes and closing brackets. -/
def NamesOk (gs : List Nat) (qs : Nat → List (String × Quantity C)) : Prop :=
  ∀ g, (g = 0 ∨ g ∈ gs) → ∀ q ∈ qs g, NameOk q.1

/-- C90, for one file: the numbers of points and cells, the points, indices, offsets, types and arrays which the writer
puts into a file are read from its text.  Missing from the full statement: names of arrays which are empty or contain
quotes or closing brackets. -/
theorem C90_file_partial {print : C → List Char} {num : List Char → Option C} {txt : C → C} (h : Prints print num txt)
    (zero : C) {tag : VtkTag} {f : VtuFile C} (hf : f.Readable tag) :
    ∃ f', parseVtu tag num zero (vtuText tag print f) = .ok f' ∧ f'.numPoints = f.numPoints ∧ f'.numCells = f.numCells ∧
      f'.points = f.points.map (·.map txt) ∧ f'.conn = f.conn ∧ f'.offsets = f.offsets ∧ f'.types = f.types ∧
      f'.pointData = f.pointData.map (fun a => ⟨a.name, a.comps, a.values.map txt⟩) ∧
      f'.cellData = f.cellData.map (fun a => ⟨a.name, a.comps, a.values.map txt⟩) :=
  ⟨_, parseVtu_text h zero hf, rfl, rfl, rfl, rfl, rfl, rfl, rfl, rfl⟩

/-- Reading the written files gives the contents which were written. -/
theorem readFiles_written {tag : VtkTag} {print : C → List Char} {num : List Char → Option C} {txt : C → C}
    (hp : Prints print num txt) {zero : C} (hz : txt zero = zero) {st : SegState (List C)} (h : SegReached tag.topo st)
    (h3 : ∀ x ∈ st.mesh.verts, x.pt.length ≤ 3) (gs : List Nat) {pd cd : Nat → List (String × Quantity C)}
    (hpd : NamesOk gs pd) (hcd : NamesOk gs cd) {base : List Char}
    (hbase : 2 ≤ gs.length → '"' ∉ base.drop (pathLength base) ∧ '>' ∉ base.drop (pathLength base))
    {files : List Char → Option (List Char)}
    (hfiles : Stored files (vtkFiles tag print base gs.length (writeVtk tag id zero st gs pd cd))) :
    ∃ L, readFiles tag num zero files (if gs.length ≤ 1 then meshFile base else mainFile base) = .ok L ∧
      sortFiles L = sortFiles (writeVtk tag txt zero st gs pd cd) := by
  have hI := h.invOn tag.wf tag.wf.closedOn
  have hu : UniqueVids st.mesh := by obtain ⟨_, _, _, hu⟩ := h; exact hu
  by_cases hgs : gs.length ≤ 1
  · simp only [hgs, if_true]
    have hw : ∀ txt : C → C, writeVtk tag txt zero st gs pd cd =
        [(0, writeVtu tag txt zero st.mesh (List.range (st.mesh.count tag.topo.cellDim)) (pd 0) (cd 0))] := by
      intro txt; unfold writeVtk; rw [if_pos hgs]
    rw [hw] at hfiles
    rw [hw, writeVtu_mapValues tag txt hz]
    have hfile := hfiles (meshFile base, _) (by
      unfold vtkFiles
      rw [if_pos hgs]
      simp only [List.map_cons, List.map_nil, List.mem_singleton]
      rfl)
    have hr := parseVtu_text hp zero (writeVtu_readable (zero := zero) hI.mesh hu h3 (fun c hc => List.mem_range.1 hc)
      (hpd 0 (Or.inl rfl)) (hcd 0 (Or.inl rfl)))
    refine ⟨_, ?_, rfl⟩
    unfold readFiles
    rw [if_pos (extension_meshFile base)]
    exact readSegments_ok (name := fun _ => meshFile base) (F := fun _ => _) [0] (by
      intro g hg
      exact ⟨_, hfile, hr⟩)
  · simp only [hgs, if_false]
    have hgs' : 2 ≤ gs.length := by omega
    have hw : ∀ txt : C → C, writeVtk tag txt zero st gs pd cd =
        gs.map fun g => (g, writeVtu tag txt zero st.mesh (st.view g tag.topo.cellDim) (pd g) (cd g)) := by
      intro txt; unfold writeVtk; rw [if_neg hgs]
    rw [hw] at hfiles
    rw [hw]
    unfold vtkFiles at hfiles
    rw [if_neg hgs] at hfiles
    have hmain := hfiles _ List.mem_cons_self
    simp only [List.map_map, Function.comp_def, List.map_id'] at hmain
    have hseg : ∀ g ∈ gs, files (segmentFile base g) = some (vtuText tag print
        (writeVtu tag id zero st.mesh (st.view g tag.topo.cellDim) (pd g) (cd g))) := by
      intro g hg
      refine hfiles (segmentFile base g, _) (List.mem_cons_of_mem _ ?_)
      rw [List.map_map]
      exact List.mem_map.2 ⟨g, hg, rfl⟩
    have hpvd := readPvd_text (hbase hgs') gs
    obtain ⟨gs', h1, h2, h4⟩ := foldl_mapSet
      (fun g => base.drop (pathLength base) ++ ("_".toList ++ (natText g ++ ".vtu".toList))) gs
    rw [h4] at hpvd
    refine ⟨gs'.map fun g => (g, writeVtu tag txt zero st.mesh (st.view g tag.topo.cellDim) (pd g) (cd g)), ?_,
      sortFiles_congr _ h2⟩
    unfold readFiles
    rw [if_neg (by rw [extension_mainFile]; decide), if_pos (extension_mainFile base), hmain]
    simp only [hpvd]
    have hne : gs' ≠ [] := by
      intro he
      obtain ⟨g, hg⟩ := List.exists_mem_of_length_pos (show 0 < gs.length by omega)
      rw [← h2, he] at hg
      simp at hg
    obtain ⟨g0, gs0, rfl⟩ := List.exists_cons_of_ne_nil hne
    rw [List.map_cons]
    simp only
    rw [← List.map_cons (f := fun g : Nat => ((g : Int), base.drop (pathLength base) ++ ("_".toList ++ (natText g ++ ".vtu".toList)))),
      List.map_map]
    simp only [Function.comp_def, partFile]
    refine readSegments_ok (g0 :: gs0) (fun g hg => ?_)
    have hg' := (h2 g).1 hg
    refine ⟨_, hseg g hg', ?_⟩
    rw [writeVtu_mapValues tag txt hz]
    exact parseVtu_text hp zero (writeVtu_readable hI.mesh hu h3 (fun c hc => hI.view_lt (Or.inr rfl) hc)
      (hpd g (Or.inr hg')) (hcd g (Or.inr hg')))

theorem readVtk_congr [DecidableEq C] (tag : VtkTag) (zero : C) (dim : Nat) {L L' : List (Nat × VtuFile C)}
    (h : sortFiles L = sortFiles L') : readVtk tag zero dim L = readVtk tag zero dim L' := by
  unfold readVtk
  rw [h]

/-- C90, C91 for meshes with segments: the written files, found under the written names, are read into the same mesh with
the same segments, and the values of the quantities reach the same elements.  Missing from the full statement: the
conditions on the names, and what is missing in C49 and C50. -/
theorem C90_segments_partial [DecidableEq C] {tag : VtkTag} {print : C → List Char} {num : List Char → Option C}
    {txt : C → C} (hp : Prints print num txt) {zero : C} (hz : txt zero = zero) {dim : Nat} (hdim : dim ≤ 3)
    {st : SegState (List C)} (h : SegReached tag.topo st) (hd : NoDuplicates tag.topo.cellDim txt dim st.mesh)
    (gs : List Nat) (hgs : 2 ≤ gs.length) {pd cd : Nat → List (String × Quantity C)} (hpd : NamesOk gs pd)
    (hcd : NamesOk gs cd) {base : List Char}
    (hbase : '"' ∉ base.drop (pathLength base) ∧ '>' ∉ base.drop (pathLength base))
    {files : List Char → Option (List Char)}
    (hfiles : Stored files (vtkFiles tag print base gs.length (writeVtk tag id zero st gs pd cd))) :
    ∃ L r V Cc, readFiles tag num zero files (base ++ "_main.pvd".toList) = .ok L ∧ readVtk tag zero dim L = some r ∧
      VtkSame tag.topo.cellDim txt st.mesh (fun g c => g ∈ gs ∧ c ∈ st.view g tag.topo.cellDim) V Cc r.st ∧
      (∀ g ∈ gs, ∃ (k : Nat) (f : VtuFile C), r.files[k]? = some ((g : Int), f)) ∧
      ∀ (k : Nat) (x : Int × VtuFile C), r.files[k]? = some x → ∃ g ∈ gs, ∃ hs cs, x.1 = (g : Int) ∧
        r.points[k]? = some hs ∧ r.cells[k]? = some cs ∧
        DataRight txt V (fun v => ∃ c e, c ∈ st.view g tag.topo.cellDim ∧
          (st.mesh.elems tag.topo.cellDim)[c]? = some e ∧ v ∈ e.verts) hs (pd g) x.2.pointData ∧
        DataRight txt Cc (fun c => c ∈ st.view g tag.topo.cellDim) cs (cd g) x.2.cellData := by
  obtain ⟨L, h1, h2⟩ := readFiles_written hp hz h (fun x hx => by rw [hd.dim x hx]; exact hdim) gs hpd hcd
    (fun _ => hbase) hfiles
  rw [if_neg (by omega)] at h1
  obtain ⟨r, V, Cc, h3, h4⟩ := C50_written_partial zero h hd gs hgs pd cd
  exact ⟨L, r, V, Cc, h1, by rw [readVtk_congr tag zero dim h2, h3], h4⟩

/-- C90, C91 for a mesh without segmentation or with one segment. -/
theorem C90_mesh_partial [DecidableEq C] {tag : VtkTag} {print : C → List Char} {num : List Char → Option C}
    {txt : C → C} (hp : Prints print num txt) {zero : C} (hz : txt zero = zero) {dim : Nat} (hdim : dim ≤ 3)
    {st : SegState (List C)} (h : SegReached tag.topo st) (hd : NoDuplicates tag.topo.cellDim txt dim st.mesh)
    (gs : List Nat) (hgs : gs.length ≤ 1) {pd cd : Nat → List (String × Quantity C)} (hpd : NamesOk gs pd)
    (hcd : NamesOk gs cd) (base : List Char) {files : List Char → Option (List Char)}
    (hfiles : Stored files (vtkFiles tag print base gs.length (writeVtk tag id zero st gs pd cd))) :
    ∃ L r V Cc f hs cs, readFiles tag num zero files (base ++ ".vtu".toList) = .ok L ∧ readVtk tag zero dim L = some r ∧
      VtkSame tag.topo.cellDim txt st.mesh (fun g c => g = 0 ∧ c < st.mesh.count tag.topo.cellDim) V Cc r.st ∧
      V.Pairwise (fun u v => st.mesh.vid u < st.mesh.vid v) ∧
      Cc.Pairwise (fun c c' => st.mesh.eid tag.topo.cellDim c < st.mesh.eid tag.topo.cellDim c') ∧
      r.files = [(0, f)] ∧ r.points = [hs] ∧ r.cells = [cs] ∧
      DataRight txt V (fun v => ∃ (c : Nat) (e : Elem), (st.mesh.elems tag.topo.cellDim)[c]? = some e ∧ v ∈ e.verts) hs (pd 0)
        f.pointData ∧
      DataRight txt Cc (fun c => c < st.mesh.count tag.topo.cellDim) cs (cd 0) f.cellData := by
  obtain ⟨L, h1, h2⟩ := readFiles_written hp hz h (fun x hx => by rw [hd.dim x hx]; exact hdim) gs hpd hcd
    (fun h => by omega) hfiles
  rw [if_pos hgs] at h1
  obtain ⟨r, V, Cc, f, hs, cs, h3, h4⟩ := C50_mesh_partial zero h hd gs hgs pd cd
  exact ⟨L, r, V, Cc, f, hs, cs, h1, by rw [readVtk_congr tag zero dim h2, h3], h4⟩

/-- Numbers for the examples: whole numbers, read by `atoi`. -/
def intNum (t : List Char) : Option Int := some (atoi t)

theorem prints_int : Prints intText intNum id := by
  refine ⟨fun x => ?_, fun x => ?_⟩
  · unfold intText
    split
    · exact ⟨natText_ne _, fun c hc => ⟨natText_blank hc, fun he => natText_not (n := x.toNat) (c := '<') (by decide) (he ▸ hc)⟩⟩
    · refine ⟨by simp, fun c hc => ?_⟩
      rcases List.mem_cons.1 hc with rfl | hc
      · decide
      · exact ⟨natText_blank hc, fun he => natText_not (n := (-x).toNat) (c := '<') (by decide) (he ▸ hc)⟩
  · unfold intNum intText
    split
    · rename_i hx
      rw [atoi_natText]
      simp [Int.toNat_of_nonneg hx]
    · rename_i hx
      have h1 : atoi ('-' :: natText (-x).toNat) = - (((-x).toNat : Nat) : Int) := by
        have h2 : ('-' :: natText (-x).toNat).dropWhile isBlank = '-' :: natText (-x).toNat := by
          rw [List.dropWhile_cons_of_neg (by decide)]
        unfold atoi
        rw [h2]
        simp only
        rw [List.takeWhile_eq_self_iff.2 (fun c hc => natText_digit hc)]
        unfold natText
        rw [Nat.ofDigitChars_ten_toDigits]
      rw [h1, Int.toNat_of_nonneg (by omega)]
      simp

/-- Two triangles in two segments, and a quantity on the vertices. -/
def textSquare : List (SOp (List Int)) :=
  [.mesh (.vertex none [0, 0]), .mesh (.vertex none [-1, 0]), .mesh (.vertex none [0, 12]),
   .mesh (.vertex none [1, 1]), .make 4 (.elem 2 [0, 1, 2]), .make 2 (.elem 2 [1, 3, 2])]

/-- The state after it. -/
def textState : SegState (List Int) := (SegState.empty.run (simplexTopo 2) textSquare).getD SegState.empty

theorem textState_reached : SegReached VtkTag.triangle.topo textState := by
  refine ⟨textSquare, ?_, rfl, ?_⟩
  · intro op hop o ho
    simp [textSquare] at hop
    rcases hop with rfl | rfl | rfl | rfl | rfl | rfl <;> simp [SOp.creation] at ho <;> subst ho <;>
      simp [MOp.Distinct]
  · unfold UniqueVids; decide +kernel

theorem textState_noDuplicates : NoDuplicates VtkTag.triangle.topo.cellDim id 2 textState.mesh := by
  have hv : textState.mesh.verts = [⟨0, [0, 0]⟩, ⟨1, [-1, 0]⟩, ⟨2, [0, 12]⟩, ⟨3, [1, 1]⟩] := by rfl
  have hc : (textState.mesh.elems 2).map (·.verts) = [[0, 1, 2], [1, 3, 2]] := by rfl
  refine ⟨?_, ?_, ?_⟩
  · rw [hv]; simp
  · intro u v x y hu hv' he
    have hx := congrArg (fun l => l[u]?) (congrArg (List.map (·.pt)) hv)
    have hy := congrArg (fun l => l[v]?) (congrArg (List.map (·.pt)) hv)
    simp only [List.getElem?_map, hu, hv', Option.map_some] at hx hy
    have hlu : u < 4 := by have := (List.getElem?_eq_some_iff.1 hu).1; rw [hv] at this; exact this
    have hlv : v < 4 := by have := (List.getElem?_eq_some_iff.1 hv').1; rw [hv] at this; exact this
    simp only [List.map_id_fun, id_eq] at he
    rw [he] at hx
    have h1 := hx.symm.trans hy
    have key : ∀ u < 4, ∀ v < 4, ([[0, 0], [-1, 0], [0, 12], [1, 1]] : List (List Int))[u]? =
        ([[0, 0], [-1, 0], [0, 12], [1, 1]] : List (List Int))[v]? → u = v := by decide +kernel
    refine key u hlu v hlv ?_
    rw [← List.getElem?_map, ← List.getElem?_map] at h1
    exact h1
  · intro c c' e e' h1 h2 he
    have hx := congrArg (fun l => l[c]?) hc
    have hy := congrArg (fun l => l[c']?) hc
    have h1' : (textState.mesh.elems 2)[c]? = some e := h1
    have h2' : (textState.mesh.elems 2)[c']? = some e' := h2
    simp only [List.getElem?_map, h1', h2', Option.map_some] at hx hy
    rw [he] at hx
    have h3 := hx.symm.trans hy
    have hl : (textState.mesh.elems 2).length = 2 := rfl
    have hlc : c < 2 := by have := (List.getElem?_eq_some_iff.1 h1').1; rw [hl] at this; exact this
    have hlc' : c' < 2 := by have := (List.getElem?_eq_some_iff.1 h2').1; rw [hl] at this; exact this
    have key : ∀ u < 2, ∀ v < 2, ([[0, 1, 2], [1, 3, 2]] : List (List Nat))[u]? =
        ([[0, 1, 2], [1, 3, 2]] : List (List Nat))[v]? → u = v := by decide
    exact key c hlc c' hlc' h3

/-- The files written for it with a quantity of the given name. -/
def textFiles (base name : String) (gs : List Nat) : List (List Char × List Char) :=
  vtkFiles .triangle intText base.toList gs.length
    (writeVtk .triangle id 0 textState gs (fun _ => [(name, .scalar fun v => (v : Int))]) fun _ => [])

theorem textFiles_stored : Stored (lookupFile (textFiles "out/a" "phi" [4, 2])) (textFiles "out/a" "phi" [4, 2]) := by
  unfold Stored
  decide +kernel

/-- The conditions of `C90_segments_partial` can be met. -/
example : ∃ L r V Cc, readFiles .triangle intNum 0 (lookupFile (textFiles "out/a" "phi" [4, 2])) "out/a_main.pvd".toList = .ok L ∧
    readVtk .triangle 0 2 L = some r ∧
    VtkSame 2 id textState.mesh (fun g c => g ∈ [4, 2] ∧ c ∈ textState.view g 2) V Cc r.st := by
  have hn : NamesOk [4, 2] fun _ => [("phi", Quantity.scalar fun v => (v : Int))] := by
    intro g _ q hq
    rw [List.mem_singleton.1 hq]
    unfold NameOk
    decide
  obtain ⟨L, r, V, Cc, h1, h2, h3, -⟩ := C90_segments_partial prints_int (zero := 0) rfl (by omega) textState_reached
    textState_noDuplicates [4, 2] (by simp) (pd := fun _ => [("phi", .scalar fun v => (v : Int))]) (cd := fun _ => []) hn
    (by intro g _ q hq; simp at hq) (base := "out/a".toList) (by decide) textFiles_stored
  exact ⟨L, r, V, Cc, h1, h2, h3⟩

/-- What is in the files of the two segments. -/
def summary (r : Except VtkFail (List (Nat × VtuFile Int))) : Except VtkFail (List (Nat × Nat × List Int)) :=
  r.map fun L => L.map fun f => (f.1, f.2.numCells, f.2.conn)

example : summary (readFiles .triangle intNum 0 (lookupFile (textFiles "out/a" "phi" [4, 2])) "out/a_main.pvd".toList) =
    .ok [(2, 1, [0, 2, 1]), (4, 1, [0, 1, 2])] := by decide +kernel

/-- C90, violated: a quantity with an empty name, with a quote, or with a closing bracket in its name.  The exception is
caught, the cells of the first segment are announced but missing, the second segment is not read, and then the missing
cells are accessed. -/
theorem C90_violated_names : ∀ name ∈ ["", "T\"", "T>0"], ∃ L,
    readFiles .triangle intNum 0 (lookupFile (textFiles "out/a" name [4, 2])) "out/a_main.pvd".toList = .ok L ∧
    L.map (fun f => (f.1, f.2.numCells, f.2.conn)) = [(2, 1, [])] ∧ (readVtk .triangle 0 2 L).isNone = true := by
  intro name hname
  have key : ∀ name ∈ ["", "T\"", "T>0"],
      summary (readFiles .triangle intNum 0 (lookupFile (textFiles "out/a" name [4, 2])) "out/a_main.pvd".toList) =
        .ok [(2, 1, [])] ∧
      ((readFiles .triangle intNum 0 (lookupFile (textFiles "out/a" name [4, 2])) "out/a_main.pvd".toList).toOption.map
        fun L => (readVtk .triangle 0 2 L).isNone) = some true := by decide +kernel
  obtain ⟨h1, h2⟩ := key name hname
  unfold summary at h1
  cases hr : readFiles .triangle intNum 0 (lookupFile (textFiles "out/a" name [4, 2])) "out/a_main.pvd".toList with
  | error e => rw [hr] at h1; simp [Except.map] at h1
  | ok L =>
    rw [hr] at h1 h2
    simp only [Except.map, Except.ok.injEq] at h1
    simp only [Except.toOption, Option.map_some, Option.some.injEq] at h2
    exact ⟨L, rfl, h1, h2⟩

/-! ### C91 -/

/-- C91: the names of the files of different segments are different, none is the name of the .pvd file, and the .pvd
file names exactly the files of the segments, each by its part: the path of the .pvd file and the name in it together
are the file which was written.  Missing from the full statement: names with quotes and closing brackets. -/
theorem C91_names_partial {base : List Char} (hbase : '"' ∉ base.drop (pathLength base) ∧ '>' ∉ base.drop (pathLength base))
    (gs : List Nat) : (∀ g g', segmentFile base g = segmentFile base g' → g = g') ∧
    (∀ g, segmentFile base g ≠ mainFile base) ∧
    ∃ parts, readPvd (pvdText base gs) = some parts ∧ (parts.map (·.1)).Pairwise (· < ·) ∧
      ∀ part name, (part, (mainFile base).take (pathLength (mainFile base)) ++ name) ∈
          parts.map (fun p => (p.1, (mainFile base).take (pathLength (mainFile base)) ++ p.2)) ↔
        ∃ g ∈ gs, part = (g : Int) ∧ (mainFile base).take (pathLength (mainFile base)) ++ name = segmentFile base g := by
  refine ⟨fun g g' h => segmentFile_inj h, fun g he => ?_, ?_⟩
  · have := congrArg extension he
    rw [extension_segmentFile, extension_mainFile] at this
    revert this
    decide
  · obtain ⟨gs', h1, h2, h3⟩ := foldl_mapSet
      (fun g => base.drop (pathLength base) ++ ("_".toList ++ (natText g ++ ".vtu".toList))) gs
    refine ⟨_, (readPvd_text hbase gs).trans (by rw [h3]), ?_, fun part name => ?_⟩
    · rw [List.map_map, List.pairwise_map]
      exact h1.imp fun h => by simpa using h
    · rw [List.map_map, List.mem_map]
      simp only [Function.comp_def, partFile, Prod.mk.injEq]
      constructor
      · rintro ⟨g, hg, rfl, he⟩
        exact ⟨g, (h2 g).1 hg, rfl, he.symm⟩
      · rintro ⟨g, hg, rfl, he⟩
        exact ⟨g, (h2 g).2 hg, rfl, he.symm⟩

example : readPvd (pvdText "out/a".toList [4, 2]) = some [(2, "a_2.vtu".toList), (4, "a_4.vtu".toList)] ∧
    "out/a_main.pvd".toList.take (pathLength "out/a_main.pvd".toList) = "out/".toList := by decide +kernel

/-- The name of a file in another directory. -/
def moved (base dir name : List Char) : List Char := dir ++ name.drop (pathLength base)

/-- C91: the written files can be moved to another directory and read there.  Missing from the full statement: file names
with backslashes in a directory given without slash, and the conditions of `C90_segments_partial`. -/
theorem C91_moved_partial [DecidableEq C] {tag : VtkTag} {print : C → List Char} {num : List Char → Option C}
    {txt : C → C} (hp : Prints print num txt) {zero : C} (hz : txt zero = zero) (dim : Nat) {st : SegState (List C)}
    (h : SegReached tag.topo st) (h3 : ∀ x ∈ st.mesh.verts, x.pt.length ≤ 3) (gs : List Nat) (hgs : 2 ≤ gs.length)
    {pd cd : Nat → List (String × Quantity C)} (hpd : NamesOk gs pd) (hcd : NamesOk gs cd) {base : List Char}
    (hbase : '"' ∉ base.drop (pathLength base) ∧ '>' ∉ base.drop (pathLength base)) {dir : List Char}
    (hdir : (∃ d, dir = d ++ ['/']) ∨ dir = [] ∧ '\\' ∉ base) {files : List Char → Option (List Char)}
    (hfiles : Stored files ((vtkFiles tag print base gs.length (writeVtk tag id zero st gs pd cd)).map
      fun f => (moved base dir f.1, f.2))) :
    ∃ L, readFiles tag num zero files (moved base dir (base ++ "_main.pvd".toList)) = .ok L ∧
      readVtk tag zero dim L = readVtk tag zero dim (writeVtk tag txt zero st gs pd cd) := by
  have hnot : '/' ∉ base.drop (pathLength base) := by
    unfold pathLength
    by_cases hs : '/' ∈ base
    · rw [if_pos hs]
      intro hm
      rw [List.mem_drop_iff_getElem] at hm
      obtain ⟨i, hi, he⟩ := hm
      have hlt : base.reverse.idxOf '/' < base.reverse.length := List.idxOf_lt_length_iff.2 (by simpa using hs)
      rw [List.length_reverse] at hlt
      have hj : base.length - 1 - (i + (base.length - base.reverse.idxOf '/')) < base.reverse.idxOf '/' := by omega
      have := List.not_of_lt_findIdx (p := (· == '/')) (xs := base.reverse) hj
      rw [List.getElem_reverse, beq_eq_false_iff_ne] at this
      refine this (Eq.trans ?_ he)
      congr 1
      omega
    · rw [if_neg hs]
      exact fun hm => hs (List.mem_of_mem_drop hm)
  have hpath : pathLength (dir ++ base.drop (pathLength base)) = dir.length := by
    rcases hdir with ⟨d, rfl⟩ | ⟨rfl, hb⟩
    · generalize base.drop (pathLength base) = short at hnot
      unfold pathLength
      rw [if_pos (by simp), idxOf_reverse_append _ hnot]
      simp
      omega
    · have h2 : '\\' ∉ base.drop (pathLength base) := fun hm => hb (List.mem_of_mem_drop hm)
      generalize base.drop (pathLength base) = short at hnot h2
      unfold pathLength
      rw [List.nil_append, if_neg hnot, if_neg h2]
      rfl
  have hmv : ∀ e, moved base dir (base ++ e) = (dir ++ base.drop (pathLength base)) ++ e := by
    intro e
    unfold moved
    rw [List.drop_append_of_le_length (pathLength_le base), List.append_assoc]
  have hshort : (dir ++ base.drop (pathLength base)).drop (pathLength (dir ++ base.drop (pathLength base))) =
      base.drop (pathLength base) := by
    rw [hpath, List.drop_left]
  have hsame : (vtkFiles tag print base gs.length (writeVtk tag id zero st gs pd cd)).map
      (fun f => (moved base dir f.1, f.2)) =
      vtkFiles tag print (dir ++ base.drop (pathLength base)) gs.length (writeVtk tag id zero st gs pd cd) := by
    unfold vtkFiles
    rw [if_neg (by omega), if_neg (by omega), List.map_cons, List.map_map]
    congr 1
    · unfold mainFile pvdText
      rw [hmv, hshort]
    · refine List.map_congr_left fun f _ => ?_
      simp only [Function.comp_def, segmentFile, List.append_assoc]
      rw [hmv, List.append_assoc]
  rw [hsame] at hfiles
  obtain ⟨L, h1, h2⟩ := readFiles_written hp hz h h3 gs hpd hcd (fun _ => by rw [hshort]; exact hbase) hfiles
  rw [if_neg (by omega)] at h1
  refine ⟨L, ?_, readVtk_congr tag zero dim h2⟩
  rw [hmv]
  exact h1

example : Stored (lookupFile ((textFiles "out/a" "phi" [4, 2]).map fun f => (moved "out/a".toList "x/y/".toList f.1, f.2)))
    ((textFiles "out/a" "phi" [4, 2]).map fun f => (moved "out/a".toList "x/y/".toList f.1, f.2)) ∧
    summary (readFiles .triangle intNum 0 (lookupFile ((textFiles "out/a" "phi" [4, 2]).map
      fun f => (moved "out/a".toList "x/y/".toList f.1, f.2))) "x/y/a_main.pvd".toList) =
      .ok [(2, 1, [0, 2, 1]), (4, 1, [0, 1, 2])] := by
  unfold Stored
  decide +kernel

/-- C91, violated: a file name with a quote or a closing bracket; the .pvd file cannot be read. -/
theorem C91_violated_names : ∀ base ∈ ["a>b", "a\"b"],
    summary (readFiles .triangle intNum 0 (lookupFile (textFiles base "phi" [4, 2])) (base.toList ++ "_main.pvd".toList)) =
      .error .throws := by decide +kernel

/-- C91, violated: the files written as `./a\b` are read as `a\b_main.pvd`, which is the same file: the segments are
looked for in the directory `a\`, not found, and nothing is read. -/
theorem C91_violated_backslash :
    summary (readFiles .triangle intNum 0 (lookupFile (textFiles "./a\\b" "phi" [4, 2])) "./a\\b_main.pvd".toList) =
      .ok [(2, 1, [0, 2, 1]), (4, 1, [0, 1, 2])] ∧
    summary (readFiles .triangle intNum 0 (lookupFile ((textFiles "./a\\b" "phi" [4, 2]).map
      fun f => (moved "./a\\b".toList [] f.1, f.2))) "a\\b_main.pvd".toList) = .ok [] := by decide +kernel

/-! ### C92 -/

/-- The tags of a text, one after the other, and what follows. -/
inductive TagsOf : List Char → List XmlTag → List Char → Prop
  | nil (input : List Char) : TagsOf input [] input
  | cons {input : List Char} {r : XmlResult} {ts : List XmlTag} {rest : List Char} (h : xmlParse input = .ok r)
      (hs : TagsOf r.rest ts rest) : TagsOf input (r.tag :: ts) rest

theorem readParts_tags : ∀ (fuel : Nat) (parts : List (Int × List Char)) (input : List Char)
    (parts' : List (Int × List Char)) (rest : List Char), readParts fuel parts input = some (parts', rest) →
    ∃ (ds : List XmlTag) (e : XmlTag), (∀ d ∈ ds, d.name = "dataset".toList ∧ d.hasAttribute "file".toList = true) ∧
      e.name = "/collection".toList ∧
      parts' = ds.foldl (fun acc d => mapSet (atoi (d.getValue "part".toList)) (d.getValue "file".toList) acc) parts ∧
      ∀ ts rest', TagsOf rest ts rest' → TagsOf input (ds ++ e :: ts) rest'
  | 0, _, _, _, _, h => by simp [readParts] at h
  | fuel + 1, parts, input, parts', rest, h => by
    unfold readParts at h
    split at h
    · simp at h
    · rename_i r hr
      split at h
      · rename_i hn
        simp only [Option.some.injEq, Prod.mk.injEq] at h
        obtain ⟨rfl, rfl⟩ := h
        exact ⟨[], r.tag, by simp, hn, rfl, fun ts rest' ht => .cons hr ht⟩
      · split at h
        · rename_i hn
          split at h
          · rename_i hf
            obtain ⟨ds, e, h1, h2, h3, h4⟩ := readParts_tags fuel _ _ _ _ h
            refine ⟨r.tag :: ds, e, ?_, h2, h3, fun ts rest' ht => .cons hr (h4 ts rest' ht)⟩
            intro d hd
            rcases List.mem_cons.1 hd with rfl | hd
            · exact ⟨hn, hf⟩
            · exact h1 d hd
          · simp at h
        · simp at h

/-- C92, for the .pvd file: reading succeeds only if the name ends in .vtu, or if it ends in .pvd, the file is there, and
consists of the tags of a collection with at least one file.  In all other cases an exception is thrown or an assertion
fails. -/
theorem C92_pvd_partial {tag : VtkTag} {num : List Char → Option C} {zero : C} {files : List Char → Option (List Char)}
    {name : List Char} {L : List (Nat × VtuFile C)} (h : readFiles tag num zero files name = .ok L) :
    extension name = "vtu".toList ∨
    extension name = "pvd".toList ∧ ∃ input x v c ds e f rest, files name = some input ∧
      TagsOf input (x :: v :: c :: (ds ++ [e, f])) rest ∧ (x.name = "?xml".toList ∨ x.name = "?xml?".toList) ∧
      v.name = "vtkfile".toList ∧ (v.getValue "type".toList).map lowerChar = "collection".toList ∧
      c.name = "collection".toList ∧ ds ≠ [] ∧
      (∀ d ∈ ds, d.name = "dataset".toList ∧ d.hasAttribute "file".toList = true) ∧
      e.name = "/collection".toList ∧ f.name = "/vtkfile".toList := by
  unfold readFiles at h
  split at h
  · rename_i he
    exact Or.inl he
  · split at h
    · rename_i he
      refine Or.inr ⟨he, ?_⟩
      split at h
      · simp at h
      · rename_i input hin
        split at h
        · simp at h
        · simp at h
        · rename_i parts hne hpvd
          clear h
          unfold readPvd at hpvd
          split at hpvd
          · simp at hpvd
          · rename_i r1 hr1
            split at hpvd
            · rename_i hx
              split at hpvd
              · simp at hpvd
              · rename_i r2 hr2
                split at hpvd
                · rename_i hv
                  split at hpvd
                  · simp at hpvd
                  · rename_i r3 hr3
                    split at hpvd
                    · rename_i hc
                      obtain ⟨p, hp, hpvd⟩ := Option.bind_eq_some_iff.1 hpvd
                      split at hpvd
                      · simp at hpvd
                      · rename_i r4 hr4
                        split at hpvd
                        · rename_i hf
                          simp only [Option.some.injEq] at hpvd
                          obtain ⟨ds, e, h1, h2, h3, h4⟩ := readParts_tags _ _ _ p.1 p.2 hp
                          refine ⟨input, r1.tag, r2.tag, r3.tag, ds, e, r4.tag, r4.rest, hin,
                            .cons hr1 (.cons hr2 (.cons hr3 (h4 _ _ (.cons hr4 (.nil _))))), hx, hv.1, hv.2.2, hc, ?_,
                            h1, h2, hf⟩
                          rintro rfl
                          exact hne (by rw [← hpvd, h3]; rfl)
                        · simp at hpvd
                    · simp at hpvd
                · simp at hpvd
            · simp at hpvd
    · simp at h

example : ∃ L, readFiles .triangle intNum 0 (lookupFile (textFiles "out/a" "phi" [4, 2])) "out/a_main.pvd".toList = .ok L := by
  have : (readFiles .triangle intNum 0 (lookupFile (textFiles "out/a" "phi" [4, 2])) "out/a_main.pvd".toList).toOption.isSome = true := by
    decide +kernel
  cases hr : readFiles .triangle intNum 0 (lookupFile (textFiles "out/a" "phi" [4, 2])) "out/a_main.pvd".toList with
  | error e => rw [hr] at this; simp [Except.toOption] at this
  | ok L => exact ⟨L, rfl⟩

/-- C92, violated: a .vtu file which is not there is read as an empty mesh without any exception. -/
theorem C92_violated_missing [DecidableEq C] (tag : VtkTag) (num : List Char → Option C) (zero : C) (dim : Nat)
    (files : List Char → Option (List Char)) {name : List Char} (hv : extension name = "vtu".toList)
    (hn : files name = none) :
    readFiles tag num zero files name = .ok [] ∧
      ∃ r, readVtk tag zero dim ([] : List (Nat × VtuFile C)) = some r ∧ r.st.mesh.verts = [] ∧
        ∀ d, r.st.mesh.elems d = [] := by
  refine ⟨?_, _, rfl, rfl, fun d => rfl⟩
  unfold readFiles
  rw [if_pos hv]
  simp only [readSegments, hn]

/-- C92, violated: after a file without the tags at the beginning no further file is opened, because the stream is still
open; all segments after it are missing, without any exception. -/
theorem C92_violated_stuck {tag : VtkTag} {num : List Char → Option C} {zero : C} {files : List Char → Option (List Char)}
    {p : Int × List Char} {input : List Char} (hp : files p.2 = some input) (hno : '<' ∉ input)
    (ps : List (Int × List Char)) : readSegments tag num zero files false (p :: ps) = .ok [] := by
  have h1 : parseVtu tag num zero input = .error (.throws, none) := by
    simp only [parseVtu, readHead, nextTag, C51_no_tag input hno, bind, Except.bind]
  have h2 : ∀ ps : List (Int × List Char), readSegments tag num zero files true ps = .ok [] := by
    intro ps
    induction ps with
    | nil => rfl
    | cons q ps ih => simp only [readSegments, ih]
  simp only [readSegments, hp, h1, h2]

/-- The same for two segments: the file of segment 2 is empty, that of segment 4 is all right; nothing is read. -/
example : (readFiles .triangle intNum 0 (fun n => if n = "out/a_2.vtu".toList then some [] else
      lookupFile (textFiles "out/a" "phi" [4, 2]) n) "out/a_main.pvd".toList).toOption.map List.length = some 0 ∧
    (readFiles .triangle intNum 0 (fun n => if n = "out/a_4.vtu".toList then some [] else
      lookupFile (textFiles "out/a" "phi" [4, 2]) n) "out/a_main.pvd".toList).toOption.map List.length = some 1 := by
  decide +kernel

/-- C92, violated: the file of a mesh of two cells ends after its points.  The exception is caught, and then the two cells
which were announced are accessed. -/
theorem C92_violated_cut : ∃ (text : List Char) (L : List (Nat × VtuFile Int)),
    text <+: vtuText .triangle intText (writeVtu .triangle id 0 textState.mesh [0, 1] [] []) ∧
    readFiles .triangle intNum 0 (fun _ => some text) "a.vtu".toList = .ok L ∧
    L.map (fun f => (f.2.numCells, f.2.conn, f.2.offsets)) = [(2, [], [])] ∧ (readVtk .triangle 0 2 L).isNone = true := by
  generalize htext : (vtuText .triangle intText (writeVtu .triangle id 0 textState.mesh [0, 1] [] [])).take 330 = text
  have h1 : ((readFiles .triangle intNum 0 (fun _ => some text) "a.vtu".toList).toOption.map fun L =>
      (L.map (fun f => (f.2.numCells, f.2.conn, f.2.offsets)), (readVtk .triangle 0 2 L).isNone)) =
      some ([(2, [], [])], true) := by
    rw [← htext]
    decide +kernel
  cases hr : readFiles .triangle intNum 0 (fun _ => some text) "a.vtu".toList with
  | error e => rw [hr] at h1; simp [Except.toOption] at h1
  | ok L =>
    rw [hr] at h1
    simp only [Except.toOption, Option.map_some, Option.some.injEq, Prod.mk.injEq] at h1
    exact ⟨text, L, by rw [← htext]; exact List.take_prefix _ _, hr, h1.1, h1.2⟩

end VG
