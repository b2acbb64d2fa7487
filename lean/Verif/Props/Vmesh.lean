import Verif.Model.Vmesh
import Verif.Lemmas.VtkTextFiles
import Verif.Props.Segments

/-!
C93: the .vmesh file tells what the mesh and its segments contain.

The specification is a small reader: the text is cut into tags and texts, and the contents are read off by the names of
the tags.
-/

namespace VG

variable {P N : Type}

/-! ### Specification -/

/-- What is between the angle brackets, or a text which is not blank. -/
inductive XmlPart where
  | tag (name : List Char)
  | text (t : List Char)
deriving DecidableEq

/-- The parts of a text; the flag says whether an angle bracket is open, `acc` is what was read since the last
bracket. -/
def xmlParts : Bool → List Char → List Char → List XmlPart
  | _, _, [] => []
  | false, acc, c :: s =>
    if c = '<' then (if acc.all isBlank then [] else [.text acc]) ++ xmlParts true [] s else xmlParts false (acc ++ [c]) s
  | true, acc, c :: s => if c = '>' then .tag acc :: xmlParts false [] s else xmlParts true (acc ++ [c]) s

/-- `<name>value</name>` at the front: the value and what follows. -/
def readLeaf (name : String) : List XmlPart → Option (List Char × List XmlPart)
  | .tag a :: .tag b :: rest => if a = name.toList ∧ b = '/' :: name.toList then some ([], rest) else none
  | .tag a :: .text v :: .tag b :: rest => if a = name.toList ∧ b = '/' :: name.toList then some (v, rest) else none
  | _ => none

/-- What a file says of a segment. -/
structure SegmentInfo where
  id : Int
  name : List Char
  vertices : Nat
  cells : Nat
deriving DecidableEq

/-- What a file says. -/
structure VmeshInfo where
  file : List Char
  dim : Nat
  cellType : List Char
  vertices : Nat
  cells : Nat
  segments : Nat
  list : List SegmentInfo
deriving DecidableEq

/-- The segments up to `</segmentation></mesh>`. -/
def readSegmentInfos : Nat → List XmlPart → Option (List SegmentInfo)
  | 0, _ => none
  | n + 1, parts =>
    if parts = [.tag "/segmentation".toList, .tag "/mesh".toList] then some []
    else if parts.head? = some (.tag "segment".toList) then do
      let (id, rest) ← readLeaf "id" parts.tail
      let (name, rest) ← readLeaf "name" rest
      let (vertices, rest) ← readLeaf "vertices" rest
      let (cells, rest) ← readLeaf "cells" rest
      if rest.head? = some (.tag "/segment".toList) then do
        let l ← readSegmentInfos n rest.tail
        return ⟨atoi id, name, (atoi vertices).toNat, (atoi cells).toNat⟩ :: l
      else none
    else none

/-- The contents of a file. -/
def readInfo (text : List Char) : Option VmeshInfo :=
  let parts := xmlParts false [] text
  if parts.head? = some (.tag "mesh".toList) then do
    let (file, rest) ← readLeaf "file" parts.tail
    let (dim, rest) ← readLeaf "geomdim" rest
    let (cellType, rest) ← readLeaf "celltype" rest
    let (vertices, rest) ← readLeaf "vertices" rest
    let (cells, rest) ← readLeaf "cells" rest
    let (segments, rest) ← readLeaf "segments" rest
    if rest.head? = some (.tag "segmentation".toList) then do
      let l ← readSegmentInfos (text.length + 1) rest.tail
      return ⟨file, (atoi dim).toNat, cellType, (atoi vertices).toNat, (atoi cells).toNat, (atoi segments).toNat, l⟩
    else none
  else none

/-- `n` things satisfy `p`. -/
def Count (p : Nat → Prop) (n : Nat) : Prop := ∃ l : List Nat, l.Nodup ∧ (∀ v, v ∈ l ↔ p v) ∧ l.length = n

/-- `name` is the name of the type: for simplices the dimension and `-simplex`, for hypercubes a word. -/
def IsTypeName (tag : VtkTag) (name : List Char) : Prop :=
  (tag = .line ∨ tag = .triangle ∨ tag = .tetrahedron → ∃ d, d.isDigit ∧ d.toNat = 48 + tag.topo.cellDim ∧
    name = d :: "-simplex".toList) ∧
  (tag = .quadrilateral → name = "quadrilateral".toList) ∧ (tag = .hexahedron → name = "hexahedron".toList)

/-! ### Lemmas -/

theorem xmlParts_text {t : List Char} (h : '<' ∉ t) (acc s : List Char) :
    xmlParts false acc (t ++ s) = xmlParts false (acc ++ t) s := by
  induction t generalizing acc with
  | nil => simp
  | cons c t ih =>
    rw [List.mem_cons, not_or] at h
    rw [List.cons_append, xmlParts, if_neg (Ne.symm h.1), ih h.2, List.append_assoc]
    rfl

theorem xmlParts_tag {t : List Char} (h : '>' ∉ t) (acc s : List Char) :
    xmlParts true acc (t ++ s) = xmlParts true (acc ++ t) s := by
  induction t generalizing acc with
  | nil => simp
  | cons c t ih =>
    rw [List.mem_cons, not_or] at h
    rw [List.cons_append, xmlParts, if_neg (Ne.symm h.1), ih h.2, List.append_assoc]
    rfl

theorem xmlParts_lt (acc s : List Char) : xmlParts false acc ('<' :: s) =
    (if acc.all isBlank then [] else [.text acc]) ++ xmlParts true [] s := by rw [xmlParts, if_pos rfl]

theorem xmlParts_gt (acc s : List Char) : xmlParts true acc ('>' :: s) = .tag acc :: xmlParts false [] s := by
  rw [xmlParts, if_pos rfl]

/-- Blanks and a tag. -/
theorem xmlParts_open {pre name : List Char} (hp : Blanks pre) (hn : '>' ∉ name) (s : List Char) :
    xmlParts false [] (pre ++ '<' :: (name ++ '>' :: s)) = .tag name :: xmlParts false [] s := by
  rw [xmlParts_text hp.no_bracket, xmlParts_lt, xmlParts_tag hn, xmlParts_gt]
  simp only [List.nil_append]
  rw [if_pos (List.all_eq_true.2 hp)]
  rfl

/-- The value of a leaf as parts. -/
def valueParts (v : List Char) : List XmlPart := if v.all isBlank then [] else [.text v]

theorem xmlParts_field {name : String} (hn : '>' ∉ name.toList) {v : List Char} (hv : '<' ∉ v) (n : Nat) {pre : List Char}
    (hp : Blanks pre) (s : List Char) : xmlParts false [] (pre ++ (vmeshField n name v ++ s)) =
      .tag name.toList :: (valueParts v ++ .tag ('/' :: name.toList) :: xmlParts false [] ('\n' :: s)) := by
  have e : pre ++ (vmeshField n name v ++ s) = (pre ++ List.replicate (2 * n) ' ') ++
      '<' :: (name.toList ++ '>' :: (v ++ '<' :: (('/' :: name.toList) ++ '>' :: ('\n' :: s)))) := by
    have h1 : "<".toList = ['<'] := rfl
    have h2 : ">".toList = ['>'] := rfl
    have h3 : "</".toList = ['<', '/'] := rfl
    have h4 : ">\n".toList = ['>', '\n'] := rfl
    simp [vmeshField, h1, h2, h3, h4]
  have hb : Blanks (pre ++ List.replicate (2 * n) ' ') := by
    intro c hc
    rcases List.mem_append.1 hc with hc | hc
    · exact hp c hc
    · rw [(List.mem_replicate.1 hc).2]
      rfl
  rw [e, xmlParts_open hb hn, xmlParts_text hv, xmlParts_lt, xmlParts_tag (by simpa using hn), xmlParts_gt]
  rfl

theorem readLeaf_value {name : String} {v : List Char} (hv : v.all isBlank = false) (rest : List XmlPart) :
    readLeaf name (.tag name.toList :: (valueParts v ++ .tag ('/' :: name.toList) :: rest)) = some (v, rest) := by
  simp [valueParts, hv, readLeaf]

theorem readLeaf_empty (name : String) (rest : List XmlPart) :
    readLeaf name (.tag name.toList :: (valueParts [] ++ .tag ('/' :: name.toList) :: rest)) = some ([], rest) := by
  simp [valueParts, readLeaf]

theorem xmlParts_line {pre name : List Char} {line : String} (hl : line.toList = pre ++ '<' :: (name ++ ['>', '\n']))
    (hp : Blanks pre) (hn : '>' ∉ name) {pre' : List Char} (hp' : Blanks pre') (s : List Char) :
    xmlParts false [] (pre' ++ (line.toList ++ s)) = .tag name :: xmlParts false [] ('\n' :: s) := by
  have e : pre' ++ (line.toList ++ s) = (pre' ++ pre) ++ '<' :: (name ++ '>' :: ('\n' :: s)) := by
    rw [hl]
    simp
  rw [e, xmlParts_open (fun c hc => (List.mem_append.1 hc).elim (hp' c) (hp c)) hn]

theorem blanks_break : Blanks ['\n'] := by
  intro c hc
  rw [List.mem_singleton.1 hc]
  rfl

theorem natText_value (n : Nat) : (natText n).all isBlank = false := by
  obtain ⟨c, hc⟩ := List.exists_mem_of_ne_nil _ (natText_ne n)
  rw [← Bool.not_eq_true, List.all_eq_true]
  exact fun h => by exact absurd (h c hc) (by simp [natText_blank hc])

theorem natText_bracket (n : Nat) : '<' ∉ natText n := natText_not (by decide)

/-- One segment. -/
theorem readSegmentInfos_cons (s : SegMesh P N) (T : Topo) {id : Int} (h : 0 ≤ id) (n : Nat) (rest : List Char) :
    readSegmentInfos (n + 1) (xmlParts false [] ('\n' :: (vmeshSegment s T id ++ rest))) =
      (readSegmentInfos n (xmlParts false [] ('\n' :: rest))).map
        (⟨id, [], (s.st.view id.toNat 0).length, (s.st.view id.toNat T.cellDim).length⟩ :: ·) := by
  have e : xmlParts false [] ('\n' :: (vmeshSegment s T id ++ rest)) = .tag "segment".toList ::
      .tag "id".toList :: (valueParts (natText id.toNat) ++ .tag ('/' :: "id".toList) ::
      .tag "name".toList :: (valueParts [] ++ .tag ('/' :: "name".toList) ::
      .tag "vertices".toList :: (valueParts (natText (s.st.view id.toNat 0).length) ++ .tag ('/' :: "vertices".toList) ::
      .tag "cells".toList :: (valueParts (natText (s.st.view id.toNat T.cellDim).length) ++
        .tag ('/' :: "cells".toList) ::
      .tag "/segment".toList :: xmlParts false [] ('\n' :: rest))))) := by
    unfold vmeshSegment
    rw [intText_of_nonneg h]
    simp only [List.append_assoc]
    rw [show ∀ l : List Char, '\n' :: l = ['\n'] ++ l from fun _ => rfl,
      xmlParts_line (pre := "    ".toList) (name := "segment".toList) (by decide) (by unfold Blanks; decide) (by decide)
        blanks_break]
    rw [show ∀ l : List Char, '\n' :: l = ['\n'] ++ l from fun _ => rfl,
      xmlParts_field (by decide) (natText_bracket _) _ blanks_break]
    rw [show ∀ l : List Char, '\n' :: l = ['\n'] ++ l from fun _ => rfl,
      xmlParts_field (by decide) (by simp) _ blanks_break]
    rw [show ∀ l : List Char, '\n' :: l = ['\n'] ++ l from fun _ => rfl,
      xmlParts_field (by decide) (natText_bracket _) _ blanks_break]
    rw [show ∀ l : List Char, '\n' :: l = ['\n'] ++ l from fun _ => rfl,
      xmlParts_field (by decide) (natText_bracket _) _ blanks_break]
    rw [show ∀ l : List Char, '\n' :: l = ['\n'] ++ l from fun _ => rfl,
      xmlParts_line (pre := "    ".toList) (name := "/segment".toList) (by decide) (by unfold Blanks; decide) (by decide)
        blanks_break]
  rw [e, readSegmentInfos, if_neg (by simp), if_pos (List.head?_cons ..), List.tail_cons, readLeaf_value (natText_value _)]
  simp only [Option.bind_eq_bind, Option.bind_some, readLeaf_empty, readLeaf_value (natText_value _)]
  rw [if_pos (List.head?_cons ..)]
  simp only [atoi_natText, List.tail_cons, Int.toNat_natCast, Int.toNat_of_nonneg h]
  cases readSegmentInfos n (xmlParts false [] ('\n' :: rest)) <;> rfl

theorem readSegmentInfos_all (s : SegMesh P N) (T : Topo) : ∀ (ids : List Int) (n : Nat), (∀ id ∈ ids, 0 ≤ id) →
    ids.length < n → readSegmentInfos n (xmlParts false [] ('\n' :: (ids.flatMap (fun g => vmeshSegment s T g) ++
      ("  </segmentation>\n".toList ++ "</mesh>\n".toList)))) =
      some (ids.map fun id => ⟨id, [], (s.st.view id.toNat 0).length, (s.st.view id.toNat T.cellDim).length⟩)
  | [], n + 1, _, _ => by
    rw [List.flatMap_nil, List.nil_append, readSegmentInfos, if_pos]
    · rfl
    · decide
  | id :: ids, n + 1, h, hn => by
    rw [List.flatMap_cons, List.append_assoc, readSegmentInfos_cons s T (h id (by simp)),
      readSegmentInfos_all s T ids n (fun x hx => h x (by simp [hx])) (by simpa using hn)]
    rfl

theorem vmeshSegment_pos (s : SegMesh P N) (T : Topo) (id : Int) : 1 ≤ (vmeshSegment s T id).length := by
  unfold vmeshSegment
  rw [List.length_append]
  exact Nat.le_add_left_of_le (by simp)

theorem flatMap_segments_length (s : SegMesh P N) (T : Topo) (ids : List Int) :
    ids.length ≤ (ids.flatMap (fun g => vmeshSegment s T g)).length := by
  induction ids with
  | nil => simp
  | cons id ids ih =>
    rw [List.flatMap_cons, List.length_append, List.length_cons]
    have := vmeshSegment_pos s T id
    omega

theorem readInfo_text (tag : VtkTag) (dim : Nat) (s : SegMesh P N) (h : ∀ x ∈ s.reg.segs, 0 ≤ x.1) {file : List Char}
    (hf : '<' ∉ file) (hf' : file.all isBlank = false) :
    readInfo (vmeshText tag dim s file) = some ⟨file, dim, cellTagName tag, s.st.mesh.verts.length,
      (s.st.mesh.elems tag.topo.cellDim).length, s.reg.segs.length,
      ((s.reg.segs.map (·.1)).insertionSort (· ≤ ·)).map fun id =>
        ⟨id, [], (s.st.view id.toNat 0).length, (s.st.view id.toNat tag.topo.cellDim).length⟩⟩ := by
  have hlen : ((s.reg.segs.map (·.1)).insertionSort (· ≤ ·)).length < (vmeshText tag dim s file).length + 1 := by
    have := flatMap_segments_length s tag.topo ((s.reg.segs.map (·.1)).insertionSort (· ≤ ·))
    unfold vmeshText
    simp only [List.length_append]
    omega
  have hpos : ∀ id ∈ (s.reg.segs.map (·.1)).insertionSort (· ≤ ·), 0 ≤ id := fun id hid => by
    rw [List.mem_insertionSort] at hid
    obtain ⟨x, hx, rfl⟩ := List.mem_map.1 hid
    exact h x hx
  have htag : '<' ∉ cellTagName tag ∧ (cellTagName tag).all isBlank = false := by cases tag <;> decide
  have hinf := readSegmentInfos_all s tag.topo _ _ hpos hlen
  have e : xmlParts false [] (vmeshText tag dim s file) = .tag "mesh".toList ::
      .tag "file".toList :: (valueParts file ++ .tag ('/' :: "file".toList) ::
      .tag "geomdim".toList :: (valueParts (natText dim) ++ .tag ('/' :: "geomdim".toList) ::
      .tag "celltype".toList :: (valueParts (cellTagName tag) ++ .tag ('/' :: "celltype".toList) ::
      .tag "vertices".toList :: (valueParts (natText s.st.mesh.verts.length) ++ .tag ('/' :: "vertices".toList) ::
      .tag "cells".toList :: (valueParts (natText (s.st.mesh.elems tag.topo.cellDim).length) ++
        .tag ('/' :: "cells".toList) ::
      .tag "segments".toList :: (valueParts (natText s.reg.segs.length) ++ .tag ('/' :: "segments".toList) ::
      .tag "segmentation".toList :: xmlParts false [] ('\n' ::
        (((s.reg.segs.map (·.1)).insertionSort (· ≤ ·)).flatMap (fun g => vmeshSegment s tag.topo g) ++
      ("  </segmentation>\n".toList ++ "</mesh>\n".toList))))))))) := by
    unfold vmeshText
    simp only [List.append_assoc]
    rw [show ∀ l : List Char, "<mesh>\n".toList ++ l = [] ++ ("<mesh>\n".toList ++ l) from fun _ => rfl,
      xmlParts_line (pre := []) (name := "mesh".toList) (by decide) (by simp [Blanks]) (by decide) (by simp [Blanks])]
    rw [show ∀ l : List Char, '\n' :: l = ['\n'] ++ l from fun _ => rfl, xmlParts_field (by decide) hf _ blanks_break]
    rw [show ∀ l : List Char, '\n' :: l = ['\n'] ++ l from fun _ => rfl,
      xmlParts_field (by decide) (natText_bracket _) _ blanks_break]
    rw [show ∀ l : List Char, '\n' :: l = ['\n'] ++ l from fun _ => rfl,
      xmlParts_field (by decide) htag.1 _ blanks_break]
    rw [show ∀ l : List Char, '\n' :: l = ['\n'] ++ l from fun _ => rfl,
      xmlParts_field (by decide) (natText_bracket _) _ blanks_break]
    rw [show ∀ l : List Char, '\n' :: l = ['\n'] ++ l from fun _ => rfl,
      xmlParts_field (by decide) (natText_bracket _) _ blanks_break]
    rw [show ∀ l : List Char, '\n' :: l = ['\n'] ++ l from fun _ => rfl,
      xmlParts_field (by decide) (natText_bracket _) _ blanks_break]
    rw [show ∀ l : List Char, '\n' :: l = ['\n'] ++ l from fun _ => rfl,
      xmlParts_line (pre := "  ".toList) (name := "segmentation".toList) (by decide) (by unfold Blanks; decide)
        (by decide) blanks_break]
  unfold readInfo
  rw [e]
  simp only
  rw [if_pos (List.head?_cons ..), List.tail_cons, readLeaf_value hf']
  simp only [Option.bind_eq_bind, Option.bind_some, readLeaf_value (natText_value _), readLeaf_value htag.2]
  rw [if_pos (List.head?_cons ..), List.tail_cons, hinf]
  simp only [Option.bind_some, atoi_natText, Int.toNat_natCast]
  rfl

theorem isTypeName (tag : VtkTag) : IsTypeName tag (cellTagName tag) := by
  cases tag
  · exact ⟨fun _ => ⟨'1', rfl, rfl, rfl⟩, nofun, nofun⟩
  · exact ⟨fun _ => ⟨'2', rfl, rfl, rfl⟩, nofun, nofun⟩
  · exact ⟨fun _ => ⟨'3', rfl, rfl, rfl⟩, nofun, nofun⟩
  · exact ⟨by simp, fun _ => rfl, nofun⟩
  · exact ⟨by simp, nofun, fun _ => rfl⟩

/-! ### Theorems -/

/-- C93, partial: reading the file gives the name of the file with the mesh, the dimension, the type of the cells, the
numbers of vertices and cells of the mesh, and for each segment once its id and the numbers of vertices and cells which
belong to it.  Missing: the name is empty (`C93_violated_names`). -/
theorem C93_info_partial (tag : VtkTag) (dim : Nat) (s : SegMesh P N) (hs : SegReached tag.topo s.st)
    (h : ∀ x ∈ s.reg.segs, 0 ≤ x.1) (hd : (s.reg.segs.map (·.1)).Nodup) {file : List Char} (hf : '<' ∉ file)
    (hf' : file.all isBlank = false) :
    ∃ info, readInfo (vmeshText tag dim s file) = some info ∧ info.file = file ∧ info.dim = dim ∧
      IsTypeName tag info.cellType ∧ info.vertices = s.st.mesh.verts.length ∧
      info.cells = (s.st.mesh.elems tag.topo.cellDim).length ∧ info.segments = s.reg.segs.length ∧
      (info.list.map (·.id)).Nodup ∧ (∀ id, id ∈ info.list.map (·.id) ↔ id ∈ s.reg.segs.map (·.1)) ∧
      ∀ x ∈ info.list, Count (Belongs tag.topo s.st x.id.toNat 0) x.vertices ∧
        Count (Belongs tag.topo s.st x.id.toNat tag.topo.cellDim) x.cells := by
  have hI := hs.invOn tag.wf tag.wf.closedOn
  have hb : ∀ g k, (k = 0 ∨ k = tag.topo.cellDim) → Count (Belongs tag.topo s.st g k) (s.st.view g k).length := by
    intro g k hk
    refine ⟨s.st.view g k, hI.nodup g k, fun v => ?_, rfl⟩
    rw [hI.view g k v hk]
    unfold Belongs Closure
    constructor
    · rintro ⟨⟨d, t⟩, h1, h2⟩
      refine ⟨d, t, h1, h2.imp_right fun h2 => ?_⟩
      exact (mem_bndOf_iff tag.wf hI.mesh (hI.valid g _ h1).1).1 h2
    · rintro ⟨d, t, h1, h2⟩
      refine ⟨(d, t), h1, h2.imp_right fun h2 => ?_⟩
      exact (mem_bndOf_iff tag.wf hI.mesh (hI.valid g _ h1).1).2 h2
  refine ⟨_, readInfo_text tag dim s h hf hf', rfl, rfl, isTypeName tag, rfl, rfl, rfl, ?_, ?_, ?_⟩
  · simp only [List.map_map, Function.comp_def, List.map_id']
    exact (List.perm_insertionSort _ _).nodup_iff.2 hd
  · intro id
    simp only [List.map_map, Function.comp_def, List.map_id', List.mem_insertionSort]
  · intro x hx
    obtain ⟨id, -, rfl⟩ := List.mem_map.1 hx
    exact ⟨hb _ _ (Or.inl rfl), hb _ _ (Or.inr rfl)⟩

/-- Two triangles in two segments, with names. -/
def vmeshExample : SegMesh Unit String where
  st := (SegState.empty.run (simplexTopo 2) twoSegs).getD SegState.empty
  reg := ⟨[(1, "oxide"), (0, "silicon")], fun _ => none, 1⟩

example : SegReached VtkTag.triangle.topo vmeshExample.st ∧ (∀ x ∈ vmeshExample.reg.segs, 0 ≤ x.1) ∧
    (vmeshExample.reg.segs.map (·.1)).Nodup ∧ '<' ∉ "mos.mesh".toList ∧ "mos.mesh".toList.all isBlank = false ∧
    readInfo (vmeshText .triangle 2 vmeshExample "mos.mesh".toList) =
      some ⟨"mos.mesh".toList, 2, "2-simplex".toList, 4, 2, 2, [⟨0, [], 3, 1⟩, ⟨1, [], 3, 1⟩]⟩ := by
  refine ⟨⟨twoSegs, by simp [twoSegs, SOp.creation, MOp.Distinct], rfl, by unfold UniqueVids; decide⟩, by decide, by decide, by decide, by decide, ?_⟩
  rw [readInfo_text _ _ _ (by decide) (by decide) (by decide)]
  decide

/-- C93, violated: the names of the segments are not written; whatever they are, the file is the same. -/
theorem C93_violated_names (tag : VtkTag) (dim : Nat) (s s' : SegMesh P N) (hst : s.st = s'.st)
    (hids : s.reg.segs.map (·.1) = s'.reg.segs.map (·.1)) (file : List Char) :
    vmeshText tag dim s file = vmeshText tag dim s' file := by
  have hl : s.reg.segs.length = s'.reg.segs.length := by simpa using congrArg List.length hids
  unfold vmeshText vmeshSegment
  rw [hst, hids, hl]

example : ∃ s s' : SegMesh Unit String, s.st = s'.st ∧ s.reg.segs.map (·.1) = s'.reg.segs.map (·.1) ∧
    s.reg.segs.map (·.2) ≠ s'.reg.segs.map (·.2) :=
  ⟨vmeshExample, { vmeshExample with reg := ⟨[(1, "1"), (0, "0")], fun _ => none, 1⟩ }, rfl, by decide, by decide⟩

/-- C93, partial: the name of the written file is the given name, or this with the extension appended, and ends with
the extension.  Missing: the name `vmesh` (`C93_violated_file_name`). -/
theorem C93_file_name_partial {name : List Char} (h : name ≠ "vmesh".toList) :
    (vmeshFile name = name ∨ vmeshFile name = name ++ ".vmesh".toList) ∧ ".vmesh".toList <:+ vmeshFile name ∧
      (".vmesh".toList <:+ name → vmeshFile name = name) := by
  have hs : ".vmesh".toList = '.' :: "vmesh".toList := by decide
  have hv : '.' ∉ "vmesh".toList := by decide
  by_cases hd : '.' ∈ name
  · obtain ⟨b, a, h1, h2⟩ := List.eq_append_cons_of_mem (List.mem_reverse.2 hd)
    have hn : name = a.reverse ++ '.' :: b.reverse := by
      rw [← List.reverse_reverse name, h1]
      simp
    have hb : '.' ∉ b.reverse := by simpa using h2
    have he : extension name = b.reverse := by rw [hn, extension_append _ hb]
    unfold vmeshFile
    rw [he]
    by_cases hx : b.reverse = "vmesh".toList
    · rw [if_pos hx]
      exact ⟨Or.inl rfl, ⟨a.reverse, by rw [hn, hx, hs]⟩, fun _ => rfl⟩
    · rw [if_neg hx]
      refine ⟨Or.inr rfl, List.suffix_append _ _, fun ⟨c, hc⟩ => absurd ?_ hx⟩
      rw [← he, ← hc, hs, extension_append _ hv]
  · have he : extension name = name := by
      unfold extension
      rw [List.idxOf_eq_length (by simpa using hd)]
      simp
    unfold vmeshFile
    rw [he, if_neg h]
    refine ⟨Or.inr rfl, List.suffix_append _ _, fun ⟨c, hc⟩ => absurd ?_ hd⟩
    rw [← hc, hs]
    simp

/-- C93, violated: without a dot, the whole name is taken for the extension. -/
theorem C93_violated_file_name : vmeshFile "vmesh".toList = "vmesh".toList := by decide

example : vmeshFile "out".toList = "out.vmesh".toList ∧ vmeshFile "out.vmesh".toList = "out.vmesh".toList ∧
    vmeshFile "out.xml".toList = "out.xml.vmesh".toList := by decide

end VG
