import Mathlib.Data.List.TakeWhile
import Verif.Lemmas.Vtk
import Verif.Lemmas.VtkTextRead

/-! Lemmas on the names and the list of the files which `vtk_writer` writes. -/

namespace VG

variable {C : Type}

/-! ### Contents -/

theorem Quantity.write_map (txt : C → C) (q : Quantity C) (hs : List Nat) : q.write txt hs = (q.write id hs).map txt := by
  cases q with
  | scalar f => simp [Quantity.write]
  | vector f =>
    simp only [Quantity.write, List.map_flatMap]
    rfl

/-- Writing the rounded numbers is rounding what is written. -/
theorem writeVtu_mapValues (tag : VtkTag) (txt : C → C) {zero : C} (hz : txt zero = zero) (m : Mesh (List C))
    (cells : List Nat) (pd cd : List (String × Quantity C)) :
    writeVtu tag txt zero m cells pd cd = (writeVtu tag id zero m cells pd cd).mapValues txt := by
  unfold writeVtu VtuFile.mapValues
  simp only [VtuFile.mk.injEq, true_and, List.map_map]
  refine ⟨?_, ?_, ?_⟩
  · refine List.map_congr_left fun x _ => ?_
    simp [hz]
  · refine List.map_congr_left fun q _ => ?_
    simp only [Function.comp, DataArray.mapValues, DataArray.mk.injEq, true_and]
    exact Quantity.write_map _ _ _
  · refine List.map_congr_left fun q _ => ?_
    simp only [Function.comp, DataArray.mapValues, DataArray.mk.injEq, true_and]
    exact Quantity.write_map _ _ _

/-- A name which can be read back. -/
def NameOk (name : String) : Prop := name ≠ "" ∧ '"' ∉ name.toList ∧ '>' ∉ name.toList

theorem writeVtu_readable {tag : VtkTag} {zero : C} {m : Mesh (List C)} (hI : Inv tag.topo m) (hu : UniqueVids m)
    (h3 : ∀ x ∈ m.verts, x.pt.length ≤ 3) {cells : List Nat} (hlt : ∀ c ∈ cells, c < m.count tag.topo.cellDim)
    {pd cd : List (String × Quantity C)} (hpd : ∀ q ∈ pd, NameOk q.1) (hcd : ∀ q ∈ cd, NameOk q.1) :
    (writeVtu tag id zero m cells pd cd).Readable tag := by
  have hpos := tag.cellDim_pos
  have hel : ∀ c ∈ cells, ∃ e : Elem, m.vertsOf tag.topo.cellDim c = e.verts ∧ VertsOK tag.topo m tag.topo.cellDim e.verts := by
    intro c hc
    have h1 := hlt c hc
    unfold Mesh.count at h1
    rw [if_neg (by omega)] at h1
    exact ⟨_, vertsOf_of (List.getElem?_eq_getElem h1), hI.verts _ _ (List.getElem_mem h1)⟩
  obtain ⟨u1, u2⟩ := usedVertices_spec (T := tag.topo) hu cells fun c hc v hv => by
    obtain ⟨e, h2, h3⟩ := hel c hc
    exact h3.2.2 v (h2 ▸ hv)
  obtain ⟨k1, k2⟩ := usedCells_spec hI hu cells hlt
  have hq : ∀ (qs : List (String × Quantity C)) (hs : List Nat), (∀ q ∈ qs, NameOk q.1) →
      ∀ a ∈ qs.map (fun q => (⟨q.1, some q.2.comps, q.2.write id hs⟩ : DataArray C)), a.Readable := by
    intro qs hs hok a ha
    obtain ⟨q, hq, rfl⟩ := List.mem_map.1 ha
    obtain ⟨h1, h2⟩ := hok q hq
    refine ⟨?_, h1, h2⟩
    cases q.2 with
    | scalar f => exact Or.inl rfl
    | vector f => exact Or.inr rfl
  refine ⟨by simp [writeVtu], ?_, ?_, ?_, hq pd _ hpd, hq cd _ hcd⟩
  · intro p hp
    obtain ⟨x, hx, rfl⟩ := List.mem_map.1 hp
    have hl : ((m.ptOf x.2).getD []).length ≤ 3 := by
      cases hpt : m.ptOf x.2 with
      | none => simp
      | some pt =>
        simp only [Mesh.ptOf] at hpt
        obtain ⟨y, hy, rfl⟩ := Option.map_eq_some_iff.1 hpt
        exact h3 y (List.mem_of_getElem? hy)
    simp only [List.length_append, List.length_map, List.length_replicate]
    omega
  · intro x hx
    simp only [writeVtu, List.mem_flatMap] at hx
    obtain ⟨c, hc, hx⟩ := hx
    obtain ⟨e, h2, h4⟩ := hel c.2 ((k2 c).1 hc).2
    unfold vtkConn at hx
    obtain ⟨j, hj, rfl⟩ := List.mem_map.1 hx
    have hj' : tag.toVtk j < (m.vertsOf tag.topo.cellDim c.2).length := by
      rw [List.mem_range] at hj
      rw [h2, h4.2.1.fixed tag.poly] at *
      exact toVienna_lt tag hj
    rw [List.getD_eq_getElem _ _ (by simpa using hj'), List.getElem_map, vtkIndex_eq]
    · exact Int.natCast_nonneg _
    · refine List.mem_map.2 ⟨(m.vid _, _), (u2 _).2 ⟨rfl, c.2, ((k2 c).1 hc).2, ?_⟩, rfl⟩
      exact List.getElem_mem hj'
  · intro n hn
    exact List.eq_of_mem_replicate hn

/-! ### Maps from parts -/

theorem mapSet_map {α β : Type} (f : α → β) (k : Int) (a : α) (l : List (Int × α)) :
    (mapSet k a l).map (fun x => (x.1, f x.2)) = mapSet k (f a) (l.map fun x => (x.1, f x.2)) := by
  induction l with
  | nil => rfl
  | cons x l ih =>
    simp only [mapSet, List.map_cons]
    split
    · rfl
    · split
      · rfl
      · simp [ih]

theorem foldl_mapSet {α : Type} (F : Nat → α) (gs : List Nat) : ∃ gs' : List Nat, gs'.Pairwise (· < ·) ∧
    (∀ g, g ∈ gs' ↔ g ∈ gs) ∧
    gs.foldl (fun acc (g : Nat) => mapSet (g : Int) (F g) acc) [] = gs'.map fun g : Nat => ((g : Int), F g) := by
  have hfold : ∀ (gs : List Nat) (l : List (Int × Nat)),
      gs.foldl (fun acc (g : Nat) => mapSet (g : Int) (F g) acc) (l.map fun x => (x.1, F x.2)) =
      (gs.foldl (fun acc (g : Nat) => mapSet (g : Int) g acc) l).map fun x => (x.1, F x.2) := by
    intro gs
    induction gs with
    | nil => intro l; rfl
    | cons g gs ih => intro l; rw [List.foldl_cons, List.foldl_cons, ← ih, mapSet_map]
  obtain ⟨h1, h2⟩ := mapSet_all (fun g : Nat => (g : Int)) (fun _ => True) (fun a b _ _ h => by simpa using h) gs []
    (by simp) (by simp) List.Pairwise.nil (by simp)
  simp only [List.not_mem_nil, false_or] at h2
  generalize hL : gs.foldl (fun acc (g : Nat) => mapSet (g : Int) g acc) ([] : List (Int × Nat)) = L at h1 h2
  refine ⟨L.map (·.2), ?_, ?_, ?_⟩
  · rw [List.pairwise_map]
    refine List.Pairwise.imp_of_mem ?_ h1
    intro a b ha hb hlt
    have ha' := ((h2 a).1 ha).2
    have hb' := ((h2 b).1 hb).2
    omega
  · intro g
    rw [List.mem_map]
    constructor
    · rintro ⟨x, hx, rfl⟩; exact ((h2 x).1 hx).1
    · intro hg; exact ⟨((g : Int), g), (h2 _).2 ⟨hg, rfl⟩, rfl⟩
  · have := hfold gs []
    rw [List.map_nil] at this
    rw [this, hL, List.map_map]
    refine List.map_congr_left fun x hx => ?_
    have := ((h2 x).1 hx).2
    simp only [Function.comp]
    rw [this]

theorem increasing_ext {l₁ l₂ : List Nat} (h₁ : l₁.Pairwise (· < ·)) (h₂ : l₂.Pairwise (· < ·))
    (h : ∀ g, g ∈ l₁ ↔ g ∈ l₂) : l₁ = l₂ := by
  refine List.Perm.eq_of_pairwise (le := (· < ·)) (fun a b _ _ h h' => by omega) h₁ h₂ ?_
  exact (List.perm_ext_iff_of_nodup (h₁.imp Nat.ne_of_lt) (h₂.imp Nat.ne_of_lt)).2 h

/-- The files in the order of their parts are sorted like the files in the order of writing. -/
theorem sortFiles_congr {gs gs' : List Nat} (F : Nat → VtuFile C) (h : ∀ g, g ∈ gs' ↔ g ∈ gs) :
    sortFiles (gs'.map fun g => (g, F g)) = sortFiles (gs.map fun g => (g, F g)) := by
  obtain ⟨l, h1, h2, h3⟩ := sortFiles_spec gs F
  obtain ⟨l', h1', h2', h3'⟩ := sortFiles_spec gs' F
  rw [h3, h3', increasing_ext h1 h1' fun g => by rw [h2, h2', h]]

/-! ### Names -/

theorem natText_inj {n m : Nat} (h : natText n = natText m) : n = m := by
  have := congrArg atoi h
  rw [atoi_natText, atoi_natText] at this
  exact_mod_cast this

theorem segmentFile_inj {base : List Char} {g g' : Nat} (h : segmentFile base g = segmentFile base g') : g = g' := by
  unfold segmentFile at h
  exact natText_inj (by simpa using h)

theorem idxOf_reverse_append {c : Char} (a : List Char) {e : List Char} (h : c ∉ e) :
    (a ++ e).reverse.idxOf c = e.length + a.reverse.idxOf c := by
  rw [List.reverse_append, List.idxOf_append_of_notMem (by simpa using h), List.length_reverse]

theorem extension_append (a : List Char) {e : List Char} (h : '.' ∉ e) : extension (a ++ '.' :: e) = e := by
  unfold extension
  have : a ++ '.' :: e = (a ++ ['.']) ++ e := by simp
  rw [this, idxOf_reverse_append _ h]
  have h0 : (a ++ ['.']).reverse.idxOf '.' = 0 := by simp
  rw [h0, Nat.add_zero, List.length_append, Nat.add_sub_cancel, List.drop_left]

theorem pathLength_append (a : List Char) {e : List Char} (h : '/' ∉ e) (h' : '\\' ∉ e) :
    pathLength (a ++ e) = pathLength a := by
  unfold pathLength
  simp only [List.mem_append, h, h', or_false]
  have key : ∀ c : Char, c ∉ e → (a ++ e).length - (a ++ e).reverse.idxOf c = a.length - a.reverse.idxOf c := by
    intro c hc
    rw [idxOf_reverse_append _ hc, List.length_append]
    omega
  rw [key _ h, key _ h']

theorem pathLength_le (a : List Char) : pathLength a ≤ a.length := by
  unfold pathLength
  split
  · omega
  · split <;> omega

/-- The directory of the .pvd file with the name of a segment in it is the file of the segment. -/
theorem partFile (base : List Char) (g : Nat) : (mainFile base).take (pathLength (mainFile base)) ++
    (base.drop (pathLength base) ++ ("_".toList ++ (natText g ++ ".vtu".toList))) = segmentFile base g := by
  unfold mainFile segmentFile
  rw [pathLength_append base (by decide) (by decide), List.take_append_of_le_length (pathLength_le base),
    ← List.append_assoc, List.take_append_drop]
  simp only [List.append_assoc]

theorem extension_mainFile (base : List Char) : extension (mainFile base) = "pvd".toList := by
  have : mainFile base = (base ++ "_main".toList) ++ '.' :: "pvd".toList := by
    unfold mainFile
    rw [List.append_assoc]
    rfl
  rw [this, extension_append _ (by decide)]

theorem extension_meshFile (base : List Char) : extension (meshFile base) = "vtu".toList := by
  have : meshFile base = base ++ '.' :: "vtu".toList := rfl
  rw [this, extension_append _ (by decide)]

theorem extension_segmentFile (base : List Char) (g : Nat) : extension (segmentFile base g) = "vtu".toList := by
  have : segmentFile base g = (base ++ "_".toList ++ natText g) ++ '.' :: "vtu".toList := rfl
  rw [this, extension_append _ (by decide)]

/-! ### The .pvd file -/

/-- The entry of a segment. -/
def datasetAttrs (short : List Char) (g : Nat) : List AttrText :=
  [⟨0, "part", String.ofList (natText g)⟩,
   ⟨0, "file", String.ofList (short ++ ("_".toList ++ (natText g ++ ".vtu".toList)))⟩,
   ⟨0, "name", String.ofList ("Segment_".toList ++ natText g)⟩]

theorem datasetText_eq (short : List Char) (g : Nat) : datasetText short g = "    ".toList ++
    (xmlText "DataSet" (datasetAttrs short g) "/" ++ "\n".toList) := by
  have h1 : "    <DataSet part=\"".toList = "    ".toList ++ ('<' :: "DataSet".toList ++ (' ' :: "part".toList ++ ['=', '"'])) := by decide
  have h2 : "\" file=\"".toList = '"' :: ' ' :: "file".toList ++ ['=', '"'] := by decide
  have h3 : ".vtu\" name=\"Segment_".toList = ".vtu".toList ++ ('"' :: ' ' :: "name".toList ++ ('=' :: '"' :: "Segment_".toList)) := by
    decide
  have h4 : "\"/>\n".toList = '"' :: "/".toList ++ ('>' :: "\n".toList) := by decide
  unfold datasetText xmlText datasetAttrs AttrText.text
  simp only [h1, h2, h3, h4, List.append_assoc, List.cons_append, List.nil_append, List.flatMap_cons, List.flatMap_nil,
    String.toList_ofList, Nat.zero_add, List.replicate_one, List.append_nil]

theorem datasetAttrs_ok {short : List Char} (h : '"' ∉ short ∧ '>' ∉ short) (g : Nat) :
    TagOk "DataSet" (datasetAttrs short g) "/" := by
  have hq : '"' ∉ natText g := natText_not (by decide)
  have hg : '>' ∉ natText g := natText_not (by decide)
  have v1 : (⟨0, "file", ""⟩ : AttrText).Valid := by decide
  have v2 : (⟨0, "name", ""⟩ : AttrText).Valid := by decide
  refine ⟨by decide, ?_, by decide, by simp [datasetAttrs]⟩
  intro a ha
  simp only [datasetAttrs, List.mem_cons, List.not_mem_nil, or_false] at ha
  rcases ha with rfl | rfl | rfl
  · exact natValue_ok 0 _ g (by decide)
  · refine ⟨⟨v1.name_ne, v1.name_chars, ?_⟩, ?_, ?_⟩
    · simp [h.1, hq]
    · simp
    · simp [h.2, hg]
  · refine ⟨⟨v2.name_ne, v2.name_chars, ?_⟩, ?_, ?_⟩
    · simp [hq]
    · simp
    · simp [hg]

theorem readParts_text {short : List Char} (h : '"' ∉ short ∧ '>' ∉ short) (post : List Char) :
    ∀ (gs : List Nat) (fuel : Nat) (parts : List (Int × List Char)) (lead : List Char), '<' ∉ lead → gs.length < fuel →
    readParts fuel parts (lead ++ (gs.flatMap (datasetText short) ++ ("  ".toList ++ (xmlText "/Collection" [] "" ++ post)))) =
      some (gs.foldl (fun acc (g : Nat) => mapSet (g : Int) (short ++ ("_".toList ++ (natText g ++ ".vtu".toList))) acc) parts,
        post)
  | [], 0, _, _, _, hf => by simp at hf
  | [], fuel + 1, parts, lead, hl, _ => by
    obtain ⟨r, h1, h2, h3⟩ := (tagOk_of (name := "/Collection") (attrs := []) (tail := "") (by decide)).parse
      (pre := lead ++ "  ".toList) (by
        rw [List.mem_append, not_or]
        exact ⟨hl, by decide⟩) post
    rw [List.append_assoc] at h1
    rw [List.flatMap_nil, List.nil_append, readParts, h1]
    simp only [h2, h3]
    rw [if_pos (by decide)]
    rfl
  | g :: gs, 0, _, _, _, hf => by simp at hf
  | g :: gs, fuel + 1, parts, lead, hl, hf => by
    have hin : lead ++ ((g :: gs).flatMap (datasetText short) ++ ("  ".toList ++ (xmlText "/Collection" [] "" ++ post))) =
        (lead ++ "    ".toList) ++ (xmlText "DataSet" (datasetAttrs short g) "/" ++ ("\n".toList ++
          (gs.flatMap (datasetText short) ++ ("  ".toList ++ (xmlText "/Collection" [] "" ++ post))))) := by
      rw [List.flatMap_cons, datasetText_eq]
      simp only [List.append_assoc]
    obtain ⟨r, h1, h2, h3⟩ := (datasetAttrs_ok h g).parse (pre := lead ++ "    ".toList) (by
        rw [List.mem_append, not_or]
        exact ⟨hl, by decide⟩) ("\n".toList ++
          (gs.flatMap (datasetText short) ++ ("  ".toList ++ (xmlText "/Collection" [] "" ++ post))))
    rw [hin, readParts, h1]
    have hn : (readAs "DataSet" (datasetAttrs short g)).name = "dataset".toList := by
      show "DataSet".toList.map Char.toLower = _
      decide
    have hne : ¬ "dataset".toList = "/collection".toList := by decide
    obtain ⟨a1, a2⟩ := readAs_attr (name := "DataSet") (before := []) (after := (datasetAttrs short g).tail) (g := 0)
      (attr := "part") (v := String.ofList (natText g)) (low := "part") (by decide) (by simp)
    obtain ⟨b1, b2⟩ := readAs_attr (name := "DataSet") (before := [⟨0, "part", String.ofList (natText g)⟩])
      (after := [⟨0, "name", String.ofList ("Segment_".toList ++ natText g)⟩]) (g := 0)
      (attr := "file") (v := String.ofList (short ++ ("_".toList ++ (natText g ++ ".vtu".toList)))) (low := "file")
      (by decide) (by simp)
    have ha2 : (readAs "DataSet" (datasetAttrs short g)).getValue "part".toList = natText g := by
      exact a2.trans String.toList_ofList
    have hb1 : (readAs "DataSet" (datasetAttrs short g)).hasAttribute "file".toList = true := b1
    have hb2 : (readAs "DataSet" (datasetAttrs short g)).getValue "file".toList =
        short ++ ("_".toList ++ (natText g ++ ".vtu".toList)) := by
      exact b2.trans String.toList_ofList
    simp only [h2, h3, hn]
    rw [if_neg hne, if_pos trivial, if_pos hb1, ha2, hb2, atoi_natText]
    exact readParts_text h post gs fuel _ _ (by decide) (by simpa using hf)

theorem datasetText_length (short : List Char) (g : Nat) : 1 ≤ (datasetText short g).length := by
  rw [datasetText_eq]
  simp

theorem readPvd_text {base : List Char} (h : '"' ∉ base.drop (pathLength base) ∧ '>' ∉ base.drop (pathLength base))
    (gs : List Nat) : readPvd (pvdText base gs) = some (gs.foldl (fun acc (g : Nat) => mapSet (g : Int)
      (base.drop (pathLength base) ++ ("_".toList ++ (natText g ++ ".vtu".toList))) acc) []) := by
  generalize hs : base.drop (pathLength base) = short at h
  have e1 : "<?xml version=\"1.0\"?>\n".toList = xmlText "?xml" [⟨0, "version", "1.0"⟩] "?" ++ "\n".toList := by decide
  have e2 : "<VTKFile type=\"Collection\" version=\"0.1\" byte_order=\"LittleEndian\" compressor=\"vtkZLibDataCompressor\">\n".toList =
      xmlText "VTKFile" [⟨0, "type", "Collection"⟩, ⟨0, "version", "0.1"⟩, ⟨0, "byte_order", "LittleEndian"⟩,
        ⟨0, "compressor", "vtkZLibDataCompressor"⟩] "" ++ "\n".toList := by decide
  have e3 : "<Collection>\n".toList = xmlText "Collection" [] "" ++ "\n".toList := by decide
  have e4 : "  </Collection>\n".toList = "  ".toList ++ (xmlText "/Collection" [] "" ++ "\n".toList) := by decide
  have e5 : "</VTKFile>\n".toList = xmlText "/VTKFile" [] "" ++ "\n".toList := by decide
  have htext : pvdText base gs = [] ++ (xmlText "?xml" [⟨0, "version", "1.0"⟩] "?" ++ ("\n".toList ++
      (xmlText "VTKFile" [⟨0, "type", "Collection"⟩, ⟨0, "version", "0.1"⟩, ⟨0, "byte_order", "LittleEndian"⟩,
        ⟨0, "compressor", "vtkZLibDataCompressor"⟩] "" ++ ("\n".toList ++ (xmlText "Collection" [] "" ++ ("\n".toList ++
        (gs.flatMap (datasetText short) ++ ("  ".toList ++ (xmlText "/Collection" [] "" ++ ("\n".toList ++
        (xmlText "/VTKFile" [] "" ++ "\n".toList))))))))))) := by
    unfold pvdText
    rw [e1, e2, e3, e4, e5, hs]
    simp only [List.append_assoc, List.nil_append]
  obtain ⟨r1, a1, b1, c1⟩ := (tagOk_of (name := "?xml") (attrs := [⟨0, "version", "1.0"⟩]) (tail := "?") (by decide)).parse
    (pre := []) (by simp) ("\n".toList ++
      (xmlText "VTKFile" [⟨0, "type", "Collection"⟩, ⟨0, "version", "0.1"⟩, ⟨0, "byte_order", "LittleEndian"⟩,
        ⟨0, "compressor", "vtkZLibDataCompressor"⟩] "" ++ ("\n".toList ++ (xmlText "Collection" [] "" ++ ("\n".toList ++
        (gs.flatMap (datasetText short) ++ ("  ".toList ++ (xmlText "/Collection" [] "" ++ ("\n".toList ++
        (xmlText "/VTKFile" [] "" ++ "\n".toList))))))))))
  obtain ⟨r2, a2, b2, c2⟩ := (tagOk_of (name := "VTKFile") (attrs := [⟨0, "type", "Collection"⟩, ⟨0, "version", "0.1"⟩,
    ⟨0, "byte_order", "LittleEndian"⟩, ⟨0, "compressor", "vtkZLibDataCompressor"⟩]) (tail := "") (by decide)).parse
    (pre := "\n".toList) (by decide) ("\n".toList ++ (xmlText "Collection" [] "" ++ ("\n".toList ++
        (gs.flatMap (datasetText short) ++ ("  ".toList ++ (xmlText "/Collection" [] "" ++ ("\n".toList ++
        (xmlText "/VTKFile" [] "" ++ "\n".toList))))))))
  obtain ⟨r3, a3, b3, c3⟩ := (tagOk_of (name := "Collection") (attrs := []) (tail := "") (by decide)).parse
    (pre := "\n".toList) (by decide) ("\n".toList ++
        (gs.flatMap (datasetText short) ++ ("  ".toList ++ (xmlText "/Collection" [] "" ++ ("\n".toList ++
        (xmlText "/VTKFile" [] "" ++ "\n".toList))))))
  obtain ⟨r4, a4, b4, c4⟩ := (tagOk_of (name := "/VTKFile") (attrs := []) (tail := "") (by decide)).parse
    (pre := "\n".toList) (by decide) "\n".toList
  have hp := readParts_text h ("\n".toList ++ (xmlText "/VTKFile" [] "" ++ "\n".toList)) gs
    (("\n".toList ++ (gs.flatMap (datasetText short) ++ ("  ".toList ++ (xmlText "/Collection" [] "" ++ ("\n".toList ++
        (xmlText "/VTKFile" [] "" ++ "\n".toList)))))).length + 1) [] "\n".toList (by decide) (by
      have : gs.length ≤ (gs.flatMap (datasetText short)).length := by
        rw [List.length_flatMap]
        clear * -
        induction gs with
        | nil => simp
        | cons g gs ih =>
          have := datasetText_length short g
          simp only [List.length_cons, List.map_cons, List.sum_cons]
          omega
      simp only [List.length_append]
      omega)
  unfold readPvd
  rw [htext, a1]
  simp only [b1, c1]
  rw [if_pos (by decide), a2]
  simp only [b2, c2]
  rw [if_pos (by decide), a3]
  simp only [b3, c3]
  rw [if_pos (by decide), hp, Option.bind_some]
  simp only [a4, b4]
  rw [if_pos (by decide)]

/-! ### Reading the files -/

/-- The files of a directory: the text with the name. -/
def lookupFile (files : List (List Char × List Char)) (name : List Char) : Option (List Char) :=
  (files.find? fun f => f.1 == name).map (·.2)

theorem readSegments_ok {tag : VtkTag} {num : List Char → Option C} {zero : C} {files : List Char → Option (List Char)}
    {F : Nat → VtuFile C} {name : Nat → List Char} : ∀ (gs : List Nat),
    (∀ g ∈ gs, ∃ input, files (name g) = some input ∧ parseVtu tag num zero input = .ok (F g)) →
    readSegments tag num zero files false (gs.map fun g : Nat => ((g : Int), name g)) = .ok (gs.map fun g => (g, F g))
  | [], _ => rfl
  | g :: gs, h => by
    obtain ⟨input, h1, h2⟩ := h g (by simp)
    rw [List.map_cons]
    simp only [readSegments, h1, h2]
    rw [readSegments_ok gs fun g' hg => h g' (by simp [hg])]
    rfl

end VG
