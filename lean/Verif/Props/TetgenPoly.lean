import Verif.Lemmas.TetgenPoly
import Mathlib.Data.List.TakeWhile

/-!
C81: reading a TetGen file (.poly) gives the vertices, piecewise linear complexes, hole points and seed points described
in the file.
C82: files which are cut off or malformed are rejected.

The specification is the contents of a file, `PolyFile`, the lines which show them, `PolyFile.ShownBy`, and what the
mesh has to be like, `PolyFile.Describes`.
-/

namespace VG

variable {C : Type}

/-! ### The contents of a file -/

/-- A facet: polygons, given by the ids of their corners, and holes, given by a number and a point. -/
structure PolyFacet (C : Type) where
  polygons : List (List Int)
  holes : List (Int × List (Coord C))

/-- The contents of a file: vertices with ids and points, facets, and, if they are there, holes and regions; a region has
a number, a point and the id of its segment. -/
structure PolyFile (C : Type) where
  nodes : List (Int × List (Coord C))
  facets : List (PolyFacet C)
  holes : Option (List (Int × List (Coord C)))
  regions : Option (List (Int × List (Coord C) × Int))

/-- The file makes sense for points with `dim` coordinates: ids of vertices are different, corners are vertices, polygons
have a corner, sides have different ends; regions need a list of holes before them. -/
structure PolyFile.OK (dim : Nat) (F : PolyFile C) : Prop where
  ids : (F.nodes.map (·.1)).Nodup
  points : ∀ x ∈ F.nodes, x.2.length = dim
  polygons : ∀ f ∈ F.facets, ∀ p ∈ f.polygons, p ≠ [] ∧ (∀ i ∈ p, i ∈ F.nodes.map (·.1)) ∧ ∀ a b, Side p a b → a ≠ b
  facet_holes : ∀ f ∈ F.facets, ∀ x ∈ f.holes, x.2.length = dim
  holes : ∀ hs ∈ F.holes, ∀ x ∈ hs, x.2.length = dim
  regions : ∀ rs ∈ F.regions, F.holes.isSome ∧ ∀ x ∈ rs, x.2.1.length = dim

/-- The first line: number of vertices, number of coordinates, and optionally the numbers of attributes and of boundary
markers. -/
def ShowsHead (n dim : Nat) (l : List (Tok C)) : Prop :=
  l = [.int n, .int dim] ∨ (∃ a, 0 ≤ a ∧ l = [.int n, .int dim, .int a]) ∨
    ∃ a b, 0 ≤ a ∧ (b = 0 ∨ b = 1) ∧ [.int n, .int dim, .int a, .int b] <+: l

/-- The line before the facets: their number and optionally the number of boundary markers. -/
def ShowsFacetCount (n : Nat) (l : List (Tok C)) : Prop :=
  l = [.int n] ∨ ∃ b, (b = 0 ∨ b = 1) ∧ [.int n, .int b] <+: l

/-- The lines of a facet: numbers of polygons and holes, then one line for each.  More words may follow on each line
(boundary markers). -/
def PolyFacet.ShownBy (f : PolyFacet C) (ls : List (List (Tok C))) : Prop :=
  ∃ l ps hs, ls = l :: (ps ++ hs) ∧ [.int f.polygons.length, .int f.holes.length] <+: l ∧
    List.Forall₂ (fun (p : List Int) l => (.int p.length :: p.map .int) <+: l) f.polygons ps ∧
    List.Forall₂ (fun x l => (.int x.1 :: x.2.map coordTok) <+: l) f.holes hs

/-- The lines of vertices and facets. -/
def PolyFile.MainShownBy (dim : Nat) (F : PolyFile C) (ls : List (List (Tok C))) : Prop :=
  ∃ h ns k fss, ls = h :: (ns ++ k :: fss.flatten) ∧ ShowsHead F.nodes.length dim h ∧
    List.Forall₂ (fun x l => (.int x.1 :: x.2.map coordTok) <+: l) F.nodes ns ∧
    ShowsFacetCount F.facets.length k ∧ List.Forall₂ PolyFacet.ShownBy F.facets fss

/-- The lines of the list of holes, none if there is no such list. -/
def PolyFile.HolesShownBy (F : PolyFile C) (ls : List (List (Tok C))) : Prop :=
  match F.holes with
  | none => ls = []
  | some hs => ∃ l ns, ls = l :: ns ∧ [.int hs.length] <+: l ∧
      List.Forall₂ (fun x l => (.int x.1 :: x.2.map coordTok) <+: l) hs ns

/-- The lines of the list of regions, none if there is no such list. -/
def PolyFile.RegionsShownBy (F : PolyFile C) (ls : List (List (Tok C))) : Prop :=
  match F.regions with
  | none => ls = []
  | some rs => ∃ l ns, ls = l :: ns ∧ [.int rs.length] <+: l ∧
      List.Forall₂ (fun x l => (.int x.1 :: (x.2.1.map coordTok ++ [.int x.2.2])) <+: l) rs ns

/-- From the text of the file to the words of its lines: what follows `#` is a comment, lines without anything else are
skipped, blanks at the begin of a line have no meaning. -/
inductive FileLines (lex : List Char → List (Tok C)) : List (List Char) → List (List (Tok C)) → Prop
  | nil : FileLines lex [] []
  | blank {n file ls} : FileLines lex file ls → FileLines lex (List.replicate n ' ' :: file) ls
  | comment {n t file ls} : FileLines lex file ls → FileLines lex ((List.replicate n ' ' ++ '#' :: t) :: file) ls
  | text {n c r file ls} : c ≠ ' ' → '#' ∉ c :: r → FileLines lex file ls →
      FileLines lex ((List.replicate n ' ' ++ c :: r) :: file) (lex (c :: r) :: ls)
  | commented {n c r t file ls} : c ≠ ' ' → '#' ∉ c :: r → FileLines lex file ls →
      FileLines lex ((List.replicate n ' ' ++ (c :: r ++ '#' :: t)) :: file) (lex (c :: r) :: ls)

/-! ### What the mesh has to be like -/

/-- The line `s` connects the vertices with ids `a` and `b`. -/
def LineBetween {P : Type} (m : Mesh P) (s : Nat) (a b : Int) : Prop :=
  ∃ e, (m.elems 1)[s]? = some e ∧ (e.verts.map m.vid).Perm [a, b]

/-- The complex belongs to the facet: its lines are the sides of the polygons, its vertices their corners, each once. -/
structure PolyFacet.Describes (ofInt : Int → C) (m : Mesh (List C)) (f : PolyFacet C) (p : Plc C) : Prop where
  lines_once : p.lines.Nodup
  lines : ∀ s ∈ p.lines, ∃ q ∈ f.polygons, ∃ a b, Side q a b ∧ LineBetween m s a b
  sides : ∀ q ∈ f.polygons, ∀ a b, Side q a b → ∃ s ∈ p.lines, LineBetween m s a b
  corners_once : p.verts.Nodup
  corners : ∀ v, v ∈ p.verts ↔ v < m.verts.length ∧ ∃ q ∈ f.polygons, m.vid v ∈ q
  holes : p.holes = f.holes.map fun x => x.2.map (coordVal ofInt)

/-- The result belongs to the file. -/
structure PolyFile.Describes (ofInt : Int → C) (F : PolyFile C) (r : PolyMesh C) : Prop where
  verts : r.mesh.verts = F.nodes.map fun x => ⟨x.1, x.2.map (coordVal ofInt)⟩
  facets : List.Forall₂ (PolyFacet.Describes ofInt r.mesh) F.facets r.plcs
  once : ∀ s t a b, LineBetween r.mesh s a b → LineBetween r.mesh t a b → s = t
  only : ∀ s, s < (r.mesh.elems 1).length → ∃ p ∈ r.plcs, s ∈ p.lines
  none : ∀ j, 1 < j → r.mesh.elems j = []
  holes : r.holes = (F.holes.getD []).map fun x => x.2.map (coordVal ofInt)
  seeds : r.seeds = (F.regions.getD []).map fun x => (x.2.1.map (coordVal ofInt), x.2.2)

/-! ### Proofs -/

theorem lineContent_blank (n : Nat) : lineContent (List.replicate n ' ') = none := by
  have h1 : (List.replicate n ' ').takeWhile (· != '#') = List.replicate n ' ' := by
    rw [List.takeWhile_eq_self_iff]
    intro c hc
    rw [(List.mem_replicate.1 hc).2]
    decide
  have h2 : (List.replicate n ' ').dropWhile (· == ' ') = [] := by
    rw [List.dropWhile_eq_nil_iff]
    intro c hc
    rw [(List.mem_replicate.1 hc).2]
    decide
  unfold lineContent
  rw [h1, h2]

theorem takeWhile_comment {l : List Char} (h : '#' ∉ l) (t : List Char) :
    (l ++ '#' :: t).takeWhile (· != '#') = l := by
  rw [List.takeWhile_append_of_pos]
  · simp
  · intro c hc
    simp only [bne_iff_ne, ne_eq]
    rintro rfl
    exact h hc

theorem blanks_no_comment (n : Nat) : '#' ∉ List.replicate n ' ' := by
  intro h
  exact absurd (List.mem_replicate.1 h).2 (by decide)

theorem lineContent_comment (l t : List Char) (h : '#' ∉ l) : lineContent (l ++ '#' :: t) = lineContent l := by
  have : l.takeWhile (· != '#') = l := by
    rw [List.takeWhile_eq_self_iff]
    intro c hc
    simp only [bne_iff_ne, ne_eq]
    rintro rfl
    exact h hc
  unfold lineContent
  rw [takeWhile_comment h t, this]

theorem lineContent_text {n : Nat} {c : Char} {r : List Char} (hc : c ≠ ' ') (h : '#' ∉ c :: r) :
    lineContent (List.replicate n ' ' ++ c :: r) = some (c :: r) := by
  have h1 : (List.replicate n ' ' ++ c :: r).takeWhile (· != '#') = List.replicate n ' ' ++ c :: r := by
    rw [List.takeWhile_eq_self_iff]
    intro x hx
    simp only [bne_iff_ne, ne_eq]
    rintro rfl
    rcases List.mem_append.1 hx with hx | hx
    · exact blanks_no_comment n hx
    · exact h hx
  have h2 : (List.replicate n ' ' ++ c :: r).dropWhile (· == ' ') = c :: r := by
    rw [List.dropWhile_append_of_pos]
    · rw [List.dropWhile_cons_of_neg]
      simpa using hc
    · intro x hx
      rw [(List.mem_replicate.1 hx).2]
      decide
  unfold lineContent
  rw [h1, h2]

/-- The reader finds the lines. -/
theorem fileLines_content {lex : List Char → List (Tok C)} {file : List (List Char)} {ls : List (List (Tok C))}
    (h : FileLines lex file ls) : (file.filterMap lineContent).map lex = ls := by
  induction h with
  | nil => rfl
  | blank _ ih => rw [List.filterMap_cons, lineContent_blank]; exact ih
  | comment _ ih =>
    rw [List.filterMap_cons, lineContent_comment _ _ (blanks_no_comment _), lineContent_blank]
    exact ih
  | text hc h _ ih =>
    rw [List.filterMap_cons, lineContent_text hc h]
    simp [ih]
  | @commented n c r t file ls hc h _ ih =>
    rw [List.filterMap_cons, ← List.append_assoc, lineContent_comment, lineContent_text hc h]
    · simp [ih]
    · intro hm
      rcases List.mem_append.1 hm with hm | hm
      · exact blanks_no_comment n hm
      · exact h hm

theorem headLine_ok {n dim : Nat} {l : List (Tok C)} (h : ShowsHead n dim l) : ∃ b, headLine dim l = .ok (n, b) ∧ (b = 0 ∨ b = 1) := by
  rcases h with rfl | ⟨a, ha, rfl⟩ | ⟨a, b, ha, hb, t, rfl⟩
  · obtain ⟨s, h1, h2⟩ := getInt_nil (C := C) 0
    refine ⟨0, ?_, Or.inl rfl⟩
    simp only [headLine, getInt_cons, h1, h2]
    rw [if_neg (by omega), Int.toNat_natCast]
  · obtain ⟨s, h1, h2⟩ := getInt_nil (C := C) 0
    refine ⟨0, ?_, Or.inl rfl⟩
    simp only [headLine, getInt_cons, h1]
    rw [if_neg (by omega), Int.toNat_natCast]
  · refine ⟨b, ?_, hb⟩
    simp only [headLine, List.cons_append, getInt_cons]
    rw [if_neg (by omega), Int.toNat_natCast]

theorem facetsLine_ok {n : Nat} {b : Int} (hb : b = 0 ∨ b = 1) {l : List (Tok C)} (h : ShowsFacetCount n l) :
    facetsLine b l = .ok n := by
  rcases h with rfl | ⟨b', hb', t, rfl⟩
  · obtain ⟨s, h1, -⟩ := getInt_nil (C := C) b
    simp only [facetsLine, getInt_cons, h1]
    rw [if_neg (by omega), Int.toNat_natCast]
  · simp only [facetsLine, List.cons_append, getInt_cons]
    rw [if_neg (by omega), Int.toNat_natCast]

theorem vid_of_verts {P : Type} {m m' : Mesh P} (h : m'.verts = m.verts) : m'.vid = m.vid := by
  funext s
  simp only [Mesh.vid, h]

theorem LineBetween.ext {P : Type} {m m' : Mesh P} (h : Ext m m') {s : Nat} {a b : Int} (hl : LineBetween m s a b) :
    LineBetween m' s a b := by
  obtain ⟨e, h1, h2⟩ := hl
  exact ⟨e, prefix_getElem? (h.elems 1) h1, by rw [vid_of_verts h.verts]; exact h2⟩

theorem PolyFacet.Describes.ext {ofInt : Int → C} {m m' : Mesh (List C)} {f : PolyFacet C} {p : Plc C}
    (h : f.Describes ofInt m p) (he : Ext m m') : f.Describes ofInt m' p := by
  refine ⟨h.lines_once, fun s hs => ?_, fun q hq a b hab => ?_, h.corners_once, fun v => ?_, h.holes⟩
  · obtain ⟨q, h1, a, b, h2, h3⟩ := h.lines s hs
    exact ⟨q, h1, a, b, h2, h3.ext he⟩
  · obtain ⟨s, h1, h2⟩ := h.sides q hq a b hab
    exact ⟨s, h1, h2.ext he⟩
  · rw [he.verts, vid_of_verts he.verts]
    exact h.corners v

/-- `make_plc` after the polygons. -/
theorem makePlc_describes {ofInt : Int → C} {m m' : Mesh (List C)} {f : PolyFacet C}
    {polys : List (List Nat)} {lines loose : List Nat} (h : FacetMade m m' polys lines loose)
    (hp : polys.map (·.map m.vid) = f.polygons) (hu : UniqueVids m) (hlt : ∀ p ∈ polys, ∀ v ∈ p, v < m.verts.length) :
    f.Describes ofInt m' (makePlc m' lines loose (f.holes.map fun x => x.2.map (coordVal ofInt))) := by
  have hvid := vid_of_verts h.ext.verts
  have hlb : ∀ {s a b}, IsLine m' s a b → LineBetween m' s (m.vid a) (m.vid b) := by
    rintro s a b ⟨e, h1, h2⟩
    refine ⟨e, h1, ?_⟩
    rw [hvid]
    exact h2.map m.vid
  have hmem : ∀ q, q ∈ f.polygons ↔ ∃ p ∈ polys, p.map m.vid = q := by
    intro q
    rw [← hp, List.mem_map]
  have hverts : ∀ s ∈ lines, ∀ v, v ∈ m'.vertsOf 1 s ↔ ∃ a b, IsLine m' s a b ∧ (v = a ∨ v = b) := by
    intro s hs v
    obtain ⟨-, -, a, b, -, e, h1, h2⟩ := h.side s hs
    have h3 : m'.vertsOf 1 s = e.verts := by
      unfold Mesh.vertsOf
      simp [h1]
    rw [h3]
    constructor
    · intro hv
      exact ⟨a, b, ⟨e, h1, h2⟩, by simpa using h2.mem_iff.1 hv⟩
    · rintro ⟨a', b', ⟨e', h4, h5⟩, h6⟩
      rw [h1] at h4
      obtain rfl := Option.some.inj h4
      exact h5.mem_iff.2 (by simpa using h6)
  refine ⟨nodup_insUnique _ _ List.nodup_nil, fun s hs => ?_, fun q hq a b hab => ?_,
    nodup_insUnique _ _ (nodup_insUnique _ _ List.nodup_nil), fun v => ?_, rfl⟩
  · obtain ⟨p, h1, a, b, h2, h3⟩ := h.side s (by simpa [makePlc, mem_insUnique] using hs)
    exact ⟨_, (hmem _).2 ⟨p, h1, rfl⟩, _, _, h2.map m.vid, hlb h3⟩
  · obtain ⟨p, h1, rfl⟩ := (hmem q).1 hq
    obtain ⟨x, y, h2, rfl, rfl⟩ := hab.of_map
    obtain ⟨s, h3, h4⟩ := h.line p h1 x y h2
    exact ⟨s, by simpa [makePlc, mem_insUnique] using h3, hlb h4⟩
  · have h0 : v ∈ (makePlc m' lines loose (f.holes.map fun x => x.2.map (coordVal ofInt))).verts ↔
        v ∈ loose ∨ ∃ s ∈ lines, v ∈ m'.vertsOf 1 s := by
      simp only [makePlc, mem_insUnique, List.mem_flatMap, List.not_mem_nil, false_or]
    rw [h0, h.ext.verts, hvid]
    constructor
    · rintro (hv | ⟨s, hs, hv⟩)
      · have := (h.loose v).1 hv
        exact ⟨hlt _ this v (by simp), _, (hmem _).2 ⟨_, this, rfl⟩, by simp⟩
      · obtain ⟨p, h1, a, b, h2, e, h3, h4⟩ := h.side s hs
        obtain ⟨a', b', ⟨e', h5, h6⟩, h7⟩ := (hverts s hs v).1 hv
        rw [h3] at h5
        obtain rfl := Option.some.inj h5
        have hv' : v ∈ p := by
          have : v ∈ e.verts := h6.mem_iff.2 (by simpa using h7)
          rcases (by simpa using h4.mem_iff.1 this : v = a ∨ v = b) with rfl | rfl
          · exact h2.mem.1
          · exact h2.mem.2
        exact ⟨hlt p h1 v hv', _, (hmem _).2 ⟨p, h1, rfl⟩, List.mem_map_of_mem hv'⟩
    · rintro ⟨hv, q, hq, hvq⟩
      obtain ⟨p, h1, rfl⟩ := (hmem q).1 hq
      obtain ⟨w, hw, hwv⟩ := List.mem_map.1 hvq
      obtain rfl := vid_inj hu (hlt p h1 w hw) hv hwv
      match p, h1, hw with
      | [x], h1, hw =>
        rw [List.mem_singleton] at hw
        subst hw
        exact Or.inl ((h.loose _).2 h1)
      | x :: y :: l, h1, hw =>
        obtain ⟨b, hb⟩ := Side.of_mem hw (by simp)
        obtain ⟨s, hs, hs'⟩ := h.line _ h1 w b hb
        exact Or.inr ⟨s, hs, (hverts s hs w).2 ⟨w, b, hs', Or.inl rfl⟩⟩

theorem readFacets_reads (ofInt : Int → C) {dim : Nat} : ∀ (facets : List (PolyFacet C)) (fss : List (List (List (Tok C))))
    (m : Mesh (List C)), Inv (simplexTopo 2) m → UniqueVids m →
    (∀ f ∈ facets, PolygonsOK (m.verts.map (·.id)) f.polygons) → (∀ f ∈ facets, ∀ x ∈ f.holes, x.2.length = dim) →
    List.Forall₂ PolyFacet.ShownBy facets fss →
    ∃ m' plcs, (readFacets ofInt dim facets.length m).Reads fss.flatten (m', plcs) ∧ Inv (simplexTopo 2) m' ∧ Ext m m' ∧
      (∀ j, 1 < j → m'.elems j = m.elems j) ∧ List.Forall₂ (PolyFacet.Describes ofInt m') facets plcs ∧
      ∀ i, (m.elems 1).length ≤ i → i < (m'.elems 1).length → ∃ p ∈ plcs, i ∈ p.lines
  | [], _, m, hI, _, _, _, h => by
    cases h
    exact ⟨m, [], .done _, hI, .refl m, fun _ _ => rfl, .nil, fun i h1 h2 => absurd h2 (by omega)⟩
  | f :: facets, _, m, hI, hu, hp, hh, h => by
    cases h with
    | cons hf hfs =>
      obtain ⟨l, ps, hs, rfl, h1, h2, h3⟩ := hf
      obtain ⟨m₁, lines, loose, polys, h4, h5, h6, h7⟩ := readPolygons_reads f.polygons ps ⟨m, [], []⟩ hI hu (hp f (by simp)) h2
      have h8 := readHoles_reads ofInt f.holes hs (hh f (by simp)) h3
      have hv := h7.ext.verts
      obtain ⟨m₂, plcs, h9, h10, h11, h12, h13, h14⟩ := readFacets_reads ofInt facets _ m₁ h7.inv (hu.of_verts hv)
        (fun g hg => by
          rw [hv]
          exact hp g (by simp [hg])) (fun g hg => hh g (by simp [hg])) hfs
      have hd := makePlc_describes (ofInt := ofInt) h7 h5 hu h6
      refine ⟨m₂, makePlc m₁ lines loose (f.holes.map fun x => x.2.map (coordVal ofInt)) :: plcs, ?_, h10,
        h7.ext.trans h11, fun j hj => (h12 j hj).trans (h7.higher j hj), .cons (hd.ext h11) h13, fun i hi hi' => ?_⟩
      · rw [List.flatten_cons, List.cons_append, List.append_assoc]
        refine .lineThen (.liftThen (facetLine_ok h1) (h4.andThen (h8.andThen ?_)))
        exact h9.thenDone fun r => (r.1, makePlc m₁ lines loose (f.holes.map fun x => x.2.map (coordVal ofInt)) :: r.2)
      · by_cases hm : i < (m₁.elems 1).length
        · refine ⟨_, List.mem_cons_self, ?_⟩
          simpa [makePlc, mem_insUnique] using h7.new i hi hm
        · obtain ⟨p, h15, h16⟩ := h14 i (by omega) hi'
          exact ⟨p, by simp [h15], h16⟩

/-- The reader up to the facets. -/
def readMain (ofInt : Int → C) (dim : Nat) : PolyR C (Mesh (List C) × List (Plc C)) :=
  PolyR.line.andThen fun l => (PolyR.lift (headLine dim l)).andThen fun h =>
    (readNodes ofInt dim h.1 Mesh.empty).andThen fun m =>
      PolyR.line.andThen fun l => (PolyR.lift (facetsLine h.2 l)).andThen fun k => readFacets ofInt dim k m

theorem andThen_assoc {A B D : Type} (r : PolyR C A) (f : A → PolyR C B) (g : B → PolyR C D) :
    (r.andThen f).andThen g = r.andThen fun a => (f a).andThen g := by
  funext ls
  unfold PolyR.andThen
  cases r ls with
  | error e => rfl
  | ok x => rfl

theorem readPoly_main (ofInt : Int → C) (dim : Nat) : readPoly ofInt dim =
    (readMain ofInt dim).andThen fun r => (readRest ofInt dim).andThen fun x => .done ⟨r.1, r.2, x.1, x.2⟩ := by
  simp only [readPoly, readMain, andThen_assoc]

/-- What is known of the mesh after the facets. -/
structure PolyFile.MainRead (ofInt : Int → C) (F : PolyFile C) (m : Mesh (List C)) (plcs : List (Plc C)) : Prop where
  verts : m.verts = F.nodes.map fun x => ⟨x.1, x.2.map (coordVal ofInt)⟩
  facets : List.Forall₂ (PolyFacet.Describes ofInt m) F.facets plcs
  once : ∀ s t a b, LineBetween m s a b → LineBetween m t a b → s = t
  only : ∀ s, s < (m.elems 1).length → ∃ p ∈ plcs, s ∈ p.lines
  none : ∀ j, 1 < j → m.elems j = []

theorem lineBetween_unique {m : Mesh (List C)} (hI : Inv (simplexTopo 2) m) (hu : UniqueVids m) {s t : Nat} {a b : Int}
    (hs : LineBetween m s a b) (ht : LineBetween m t a b) : s = t := by
  obtain ⟨e, h1, h2⟩ := hs
  obtain ⟨f, h3, h4⟩ := ht
  have he := hI.verts 1 e (List.mem_of_getElem? h1)
  have hf := hI.verts 1 f (List.mem_of_getElem? h3)
  have hp : e.verts.Perm f.verts :=
    perm_of_map_perm (S := fun v => v < m.verts.length) (fun _ _ ha hb => vid_inj hu ha hb) he.2.2 hf.2.2 (h2.trans h4.symm)
  obtain ⟨hs, rfl⟩ := List.getElem?_eq_some_iff.1 h1
  obtain ⟨ht, rfl⟩ := List.getElem?_eq_some_iff.1 h3
  have hpw := List.pairwise_iff_getElem.1 (hI.unique 1 (by simp [simplexTopo]))
  rcases Nat.lt_trichotomy s t with h | h | h
  · exact absurd hp (hpw s t hs ht h)
  · exact h
  · exact absurd hp.symm (hpw t s ht hs h)

theorem readMain_reads (ofInt : Int → C) {dim : Nat} {F : PolyFile C} (hF : F.OK dim) {ls : List (List (Tok C))}
    (h : F.MainShownBy dim ls) :
    ∃ m plcs, (readMain ofInt dim).Reads ls (m, plcs) ∧ F.MainRead ofInt m plcs := by
  obtain ⟨l, ns, k, fss, rfl, h1, h2, h3, h4⟩ := h
  obtain ⟨b, h5, hb⟩ := headLine_ok h1
  have h6 := readNodes_reads ofInt F.nodes ns Mesh.empty hF.points h2
  obtain ⟨hI, hv, he⟩ := addNodes_spec (simplexTopo 2) ofInt F.nodes Mesh.empty (Inv.empty _)
  set m := addNodes ofInt Mesh.empty F.nodes with hm
  have hv' : m.verts = F.nodes.map fun x => ⟨x.1, x.2.map (coordVal ofInt)⟩ := by simpa [Mesh.empty] using hv
  have hid : m.verts.map (·.id) = F.nodes.map (·.1) := by
    rw [hv', List.map_map]
    rfl
  have hu : UniqueVids m := by
    unfold UniqueVids
    rw [hid]
    exact hF.ids
  obtain ⟨m', plcs, h7, h8, h9, h10, h11, h12⟩ := readFacets_reads ofInt F.facets fss m hI hu
    (fun f hf => by rw [hid]; exact hF.polygons f hf) hF.facet_holes h4
  have h0 : ∀ j, m.elems j = [] := fun j => by rw [he]; rfl
  refine ⟨m', plcs, .lineThen (.liftThen h5 (h6.andThen (.lineThen (.liftThen (facetsLine_ok hb h3) h7)))),
    h9.verts.trans hv', h11, fun s t a b hs ht => lineBetween_unique h8 (hu.of_verts h9.verts) hs ht,
    fun s hs => h12 s (by simp [h0 1]) hs, fun j hj => (h10 j hj).trans (h0 j)⟩

/-- The list of holes. -/
theorem readRest_holes (ofInt : Int → C) {dim : Nat} {hs : List (Int × List (Coord C))} (hd : ∀ x ∈ hs, x.2.length = dim)
    {l : List (Tok C)} {ns : List (List (Tok C))} (hl : [.int hs.length] <+: l)
    (hns : List.Forall₂ (fun x l => (.int x.1 :: x.2.map coordTok) <+: l) hs ns) :
    (∀ rest, readRest ofInt dim (l :: (ns ++ rest)) =
      PolyR.optional (hs.map fun x => x.2.map (coordVal ofInt), []) (fun l => (PolyR.lift (countLine l)).andThen fun n =>
        (readSeeds ofInt dim n).andThen fun ss => .done (hs.map fun x => x.2.map (coordVal ofInt), ss)) rest) ∧
    ∀ k, k < ns.length → readRest ofInt dim (l :: ns.take k) = .error .throws := by
  have h1 := readHoles_reads ofInt hs ns hd hns
  have h2 : ∀ (f : Nat → PolyR C (List (List C) × List (List C × Int))) r,
      ((PolyR.lift (countLine l)).andThen f) r = f hs.length r := by
    intro f r
    simp [PolyR.andThen, PolyR.lift, countLine_ok hl]
  refine ⟨fun rest => ?_, fun k hk => ?_⟩
  · rw [readRest, PolyR.optional, h2, PolyR.andThen, h1.all]
  · rw [readRest, PolyR.optional, h2, PolyR.andThen, h1.cut k hk]

theorem readSeeds_part (ofInt : Int → C) {dim : Nat} (hs : List (List C)) {rs : List (Int × List (Coord C) × Int)}
    (hd : ∀ x ∈ rs, x.2.1.length = dim) {l : List (Tok C)} {ns : List (List (Tok C))} (hl : [.int rs.length] <+: l)
    (hns : List.Forall₂ (fun x l => (.int x.1 :: (x.2.1.map coordTok ++ [.int x.2.2])) <+: l) rs ns) :
    ((PolyR.lift (countLine l)).andThen fun n => (readSeeds ofInt dim n).andThen fun ss => PolyR.done (hs, ss)).Reads ns
      (hs, rs.map fun x => (x.2.1.map (coordVal ofInt), x.2.2)) :=
  .liftThen (countLine_ok hl) ((readSeeds_reads ofInt rs ns hd hns).thenDone fun ss => (hs, ss))

theorem readRest_all (ofInt : Int → C) {dim : Nat} {F : PolyFile C} (hF : F.OK dim) {hl rl : List (List (Tok C))}
    (h₁ : F.HolesShownBy hl) (h₂ : F.RegionsShownBy rl) : ∃ rest, readRest ofInt dim (hl ++ rl) =
      .ok (rest, (F.holes.getD []).map (fun x => x.2.map (coordVal ofInt)),
        (F.regions.getD []).map fun x => (x.2.1.map (coordVal ofInt), x.2.2)) := by
  unfold PolyFile.HolesShownBy at h₁
  unfold PolyFile.RegionsShownBy at h₂
  cases hh : F.holes with
  | none =>
    rw [hh] at h₁
    cases hr : F.regions with
    | none =>
      rw [hr] at h₂
      simp only at h₁ h₂
      subst h₁ h₂
      exact ⟨[], rfl⟩
    | some rs => exact absurd (hF.regions rs hr).1 (by simp [hh])
  | some hs =>
    rw [hh] at h₁
    obtain ⟨l, ns, rfl, h3, h4⟩ := h₁
    have h5 := (readRest_holes ofInt (hF.holes hs hh) h3 h4).1 rl
    rw [List.cons_append, h5]
    cases hr : F.regions with
    | none =>
      rw [hr] at h₂
      simp only at h₂
      subst h₂
      exact ⟨[], rfl⟩
    | some rs =>
      rw [hr] at h₂
      obtain ⟨l', ns', rfl, h6, h7⟩ := h₂
      have h8 := (readSeeds_part ofInt (hs.map fun x => x.2.map (coordVal ofInt)) (hF.regions rs hr).2 h6 h7).all []
      rw [List.append_nil] at h8
      exact ⟨[], h8⟩

/-- The reader on the lines. -/
theorem readPoly_all (ofInt : Int → C) {dim : Nat} {F : PolyFile C} (hF : F.OK dim) {ls hl rl : List (List (Tok C))}
    (h : F.MainShownBy dim ls) (h₁ : F.HolesShownBy hl) (h₂ : F.RegionsShownBy rl) :
    ∃ rest r, readPoly ofInt dim (ls ++ (hl ++ rl)) = .ok (rest, r) ∧ F.Describes ofInt r := by
  obtain ⟨m, plcs, h3, h4⟩ := readMain_reads ofInt hF h
  obtain ⟨rest, h5⟩ := readRest_all ofInt hF h₁ h₂
  refine ⟨rest, ⟨m, plcs, (F.holes.getD []).map (fun x => x.2.map (coordVal ofInt)),
    (F.regions.getD []).map fun x => (x.2.1.map (coordVal ofInt), x.2.2)⟩, ?_,
    ⟨h4.verts, h4.facets, h4.once, h4.only, h4.none, rfl, rfl⟩⟩
  rw [readPoly_main, PolyR.andThen, h3.all]
  simp only [PolyR.andThen, h5]
  rfl

/-- **C81**: for a file which makes sense the reader gives exactly the vertices with their ids and points in the given
order, for each facet one complex whose lines are the sides of its polygons and whose vertices are their corners, each
once and shared with other facets, and the hole points and seed points in the given order; comments and lines of blanks
have no influence.

Missing for the full claim: the number of holes of a facet may not be left out (`C81_violated_holes`), and lines of
other white space are not skipped (`C81_violated_blank`). -/
theorem C81_read_partial (ofInt : Int → C) {dim : Nat} {lex : List Char → List (Tok C)} {file : List (List Char)}
    {F : PolyFile C} (hF : F.OK dim) {ls hl rl : List (List (Tok C))} (h : F.MainShownBy dim ls) (h₁ : F.HolesShownBy hl)
    (h₂ : F.RegionsShownBy rl) (hf : FileLines lex file (ls ++ (hl ++ rl))) :
    ∃ r, readPolyFile ofInt dim lex file = .ok r ∧ F.Describes ofInt r := by
  obtain ⟨rest, r, h3, h4⟩ := readPoly_all ofInt hF h h₁ h₂
  refine ⟨r, ?_, h4⟩
  unfold readPolyFile
  rw [fileLines_content hf, h3]

/-- Cutting a file after any of its lines cuts its contents. -/
theorem FileLines.take {lex : List Char → List (Tok C)} {file : List (List Char)} {ls : List (List (Tok C))}
    (h : FileLines lex file ls) (n : Nat) : ∃ k, FileLines lex (file.take n) (ls.take k) := by
  induction h generalizing n with
  | nil => exact ⟨0, by simpa using FileLines.nil⟩
  | blank _ ih =>
    cases n with
    | zero => exact ⟨0, by simpa using FileLines.nil⟩
    | succ n =>
      obtain ⟨k, hk⟩ := ih n
      exact ⟨k, .blank hk⟩
  | comment _ ih =>
    cases n with
    | zero => exact ⟨0, by simpa using FileLines.nil⟩
    | succ n =>
      obtain ⟨k, hk⟩ := ih n
      exact ⟨k, .comment hk⟩
  | text hc hr _ ih =>
    cases n with
    | zero => exact ⟨0, by simpa using FileLines.nil⟩
    | succ n =>
      obtain ⟨k, hk⟩ := ih n
      exact ⟨k + 1, .text hc hr hk⟩
  | commented hc hr _ ih =>
    cases n with
    | zero => exact ⟨0, by simpa using FileLines.nil⟩
    | succ n =>
      obtain ⟨k, hk⟩ := ih n
      exact ⟨k + 1, .commented hc hr hk⟩

/-- **C82** (files cut off after a line): an exception, unless the file ends after the facets or after the list of
holes; there the rest of a file may be missing, see `C82_optional`.

Missing for the full claim: a file which ends within a line may be accepted (`C82_violated_accepted`). -/
theorem C82_cut_partial (ofInt : Int → C) {dim : Nat} {lex : List Char → List (Tok C)} {file : List (List Char)}
    {F : PolyFile C} (hF : F.OK dim) {ls hl rl : List (List (Tok C))} (h : F.MainShownBy dim ls) (h₁ : F.HolesShownBy hl)
    (h₂ : F.RegionsShownBy rl) {k : Nat} (hf : FileLines lex file ((ls ++ (hl ++ rl)).take k))
    (hk : k < (ls ++ (hl ++ rl)).length) (hm : k ≠ ls.length) (hh : k ≠ ls.length + hl.length) :
    readPolyFile ofInt dim lex file = .error .throws := by
  obtain ⟨m, plcs, h3, -⟩ := readMain_reads ofInt hF h
  unfold readPolyFile
  rw [fileLines_content hf, readPoly_main, PolyR.andThen]
  by_cases hkm : k < ls.length
  · rw [List.take_append_of_le_length hkm.le, h3.cut k hkm]
  · obtain ⟨j, rfl⟩ : ∃ j, k = ls.length + (j + 1) := ⟨k - ls.length - 1, by omega⟩
    rw [List.take_length_add_append, h3.all]
    have hj : readRest ofInt dim ((hl ++ rl).take (j + 1)) = .error .throws := by
      rw [List.length_append] at hk
      unfold PolyFile.HolesShownBy at h₁
      unfold PolyFile.RegionsShownBy at h₂
      cases hs' : F.holes with
      | none =>
        rw [hs'] at h₁
        cases hr : F.regions with
        | none =>
          rw [hr] at h₂
          simp only at h₁ h₂
          subst h₁ h₂
          simp at hk
        | some rs => exact absurd (hF.regions rs hr).1 (by simp [hs'])
      | some hs =>
        rw [hs'] at h₁
        obtain ⟨l, ns, rfl, h4, h5⟩ := h₁
        obtain ⟨h6, h7⟩ := readRest_holes ofInt (hF.holes hs hs') h4 h5
        rw [List.cons_append, List.take_succ_cons]
        by_cases hjn : j < ns.length
        · rw [List.take_append_of_le_length hjn.le]
          exact h7 j hjn
        · simp only [List.length_cons] at hh
          obtain ⟨i, rfl⟩ : ∃ i, j = ns.length + (i + 1) := ⟨j - ns.length - 1, by omega⟩
          rw [List.take_length_add_append, h6]
          cases hr : F.regions with
          | none =>
            rw [hr] at h₂
            simp only at h₂
            subst h₂
            simp only [List.length_append, List.length_cons, List.length_nil] at hk
            omega
          | some rs =>
            rw [hr] at h₂
            obtain ⟨l', ns', rfl, h8, h9⟩ := h₂
            rw [List.take_succ_cons, PolyR.optional]
            refine (readSeeds_part ofInt _ (hF.regions rs hr).2 h8 h9).cut i ?_
            simp only [List.length_append, List.length_cons] at hk
            omega
    simp only [PolyR.andThen, hj]

/-- **C82** (optional parts): a file which ends after the facets has no hole points and no seed points, one which ends
after the list of holes has no seed points; otherwise they are read like the whole file. -/
theorem C82_optional (ofInt : Int → C) {dim : Nat} {lex : List Char → List (Tok C)} {file : List (List Char)}
    {F : PolyFile C} (hF : F.OK dim) {ls hl : List (List (Tok C))} (h : F.MainShownBy dim ls) (h₁ : F.HolesShownBy hl) :
    (FileLines lex file ls → ∃ r, readPolyFile ofInt dim lex file = .ok r ∧
      ({ F with holes := none, regions := none } : PolyFile C).Describes ofInt r ∧ r.holes = [] ∧ r.seeds = []) ∧
    (FileLines lex file (ls ++ hl) → ∃ r, readPolyFile ofInt dim lex file = .ok r ∧
      ({ F with regions := none } : PolyFile C).Describes ofInt r ∧ r.seeds = []) := by
  constructor
  · intro hf
    obtain ⟨r, h3, h4⟩ := C81_read_partial ofInt (F := { F with holes := none, regions := none }) (hl := []) (rl := [])
      ⟨hF.ids, hF.points, hF.polygons, hF.facet_holes, by simp, by simp⟩ h rfl rfl
      (by simpa only [List.append_nil] using hf)
    exact ⟨r, h3, h4, h4.holes, h4.seeds⟩
  · intro hf
    obtain ⟨r, h3, h4⟩ := C81_read_partial ofInt (F := { F with regions := none }) (hl := hl) (rl := [])
      ⟨hF.ids, hF.points, hF.polygons, hF.facet_holes, hF.holes, by simp⟩ h h₁ rfl
      (by simpa only [List.append_nil] using hf)
    exact ⟨r, h3, h4, h4.seeds⟩

/-! ### Examples -/

theorem side_ne {p : List Int} (h : ∀ i, i < p.length → p[i]? ≠ p[(i + 1) % p.length]? ∨ p.length < 2) {a b : Int}
    (hs : Side p a b) : a ≠ b := by
  rintro rfl
  obtain ⟨h1, i, h2, h3, h4⟩ := hs
  rcases h i h2 with h5 | h5
  · exact h5 (h3.trans h4.symm)
  · omega

/-- A square with ids 1, 2, 3, 5, a second facet with a diagonal, a side of the square and a single vertex; a facet has a
hole, and the file has a hole and a region. -/
def polySquare : PolyFile Int where
  nodes := [(1, [.inl 0, .inl 0, .inl 0]), (2, [.inl 4, .inl 0, .inl 0]), (3, [.inl 4, .inl 4, .inl 0]),
    (5, [.inl 0, .inl 4, .inl 0])]
  facets := [⟨[[1, 2, 3, 5]], [(1, [.inl 1, .inl 1, .inl 0])]⟩, ⟨[[1, 3], [3, 2], [5]], []⟩]
  holes := some [(1, [.inl 9, .inl 9, .inl 9])]
  regions := some [(1, [.inl 2, .inl 2, .inl 2], 7)]

theorem polySquare_ok : polySquare.OK 3 where
  ids := by decide
  points := by decide
  polygons := by
    intro f hf p hp
    have h : ∀ f ∈ polySquare.facets, ∀ p ∈ f.polygons, p ≠ [] ∧ (∀ i ∈ p, i ∈ polySquare.nodes.map (·.1)) ∧
      ∀ i, i < p.length → p[i]? ≠ p[(i + 1) % p.length]? ∨ p.length < 2 := by decide
    obtain ⟨h1, h2, h3⟩ := h f hf p hp
    exact ⟨h1, h2, fun a b => side_ne h3⟩
  facet_holes := by decide
  holes := by
    intro hs h
    cases h
    decide
  regions := by
    intro hs h
    cases h
    decide

/-- Its lines up to the facets; the facets have boundary markers. -/
def polySquareLines : List (List (Tok Int)) :=
  [[.int 4, .int 3],
   [.int 1, .int 0, .int 0, .int 0], [.int 2, .int 4, .int 0, .int 0], [.int 3, .int 4, .int 4, .int 0],
   [.int 5, .int 0, .int 4, .int 0],
   [.int 2, .int 1],
   [.int 1, .int 1, .int 8], [.int 4, .int 1, .int 2, .int 3, .int 5], [.int 1, .int 1, .int 1, .int 0],
   [.int 3, .int 0], [.int 2, .int 1, .int 3], [.int 2, .int 3, .int 2], [.int 1, .int 5]]

theorem polySquare_shown : polySquare.MainShownBy 3 polySquareLines := by
  refine ⟨_, [_, _, _, _], _, [[_, _, _], [_, _, _, _]], rfl, Or.inl rfl, ?_, Or.inr ⟨1, Or.inr rfl, List.prefix_refl _⟩, ?_⟩
  · exact .cons ⟨[], rfl⟩ (.cons ⟨[], rfl⟩ (.cons ⟨[], rfl⟩ (.cons ⟨[], rfl⟩ .nil)))
  · refine .cons ⟨_, [_], [_], rfl, ⟨[.int 8], rfl⟩, .cons ⟨[], rfl⟩ .nil, .cons ⟨[], rfl⟩ .nil⟩ (.cons ?_ .nil)
    exact ⟨_, [_, _, _], [], rfl, ⟨[], rfl⟩, .cons ⟨[], rfl⟩ (.cons ⟨[], rfl⟩ (.cons ⟨[], rfl⟩ .nil)), .nil⟩

theorem polySquare_holes : polySquare.HolesShownBy [[.int 1], [.int 1, .int 9, .int 9, .int 9]] :=
  ⟨_, [_], rfl, ⟨[], rfl⟩, .cons ⟨[], rfl⟩ .nil⟩

theorem polySquare_regions : polySquare.RegionsShownBy [[.int 1], [.int 1, .int 2, .int 2, .int 2, .int 7]] :=
  ⟨_, [_], rfl, ⟨[], rfl⟩, .cons ⟨[], rfl⟩ .nil⟩

/-- Some text for lines of words, and back: one character for each word. -/
def polyText (ls : List (List (Tok Int))) : List (List Char) :=
  ls.map fun l => l.map fun
    | .int i => Char.ofNat (i.toNat + 48)
    | _ => 'x'

def polyLex (l : List Char) : List (Tok Int) := l.map fun c => .int (c.toNat - 48)

/-- The hypotheses of `C81_read_partial` hold for a text of the square with a comment, a line of blanks and an indented
line. -/
theorem polySquare_file : FileLines polyLex
    (['#', 'a'] :: [' ', ' '] :: [' ', '4', '3', '#', 'b'] :: polyText polySquareLines.tail ++
      polyText ([[.int 1], [.int 1, .int 9, .int 9, .int 9]] ++ [[.int 1], [.int 1, .int 2, .int 2, .int 2, .int 7]]))
    (polySquareLines ++ ([[.int 1], [.int 1, .int 9, .int 9, .int 9]] ++
      [[.int 1], [.int 1, .int 2, .int 2, .int 2, .int 7]])) := by
  refine .comment (n := 0) (.blank (n := 2) (.commented (n := 1) (c := '4') (r := ['3']) (by decide) (by decide) ?_))
  repeat' first
    | exact FileLines.nil
    | refine FileLines.text (n := 0) (by decide) (by decide) ?_

example : ∃ r, readPolyFile id 3 polyLex
    (['#', 'a'] :: [' ', ' '] :: [' ', '4', '3', '#', 'b'] :: polyText polySquareLines.tail ++
      polyText ([[.int 1], [.int 1, .int 9, .int 9, .int 9]] ++ [[.int 1], [.int 1, .int 2, .int 2, .int 2, .int 7]]))
    = .ok r ∧ polySquare.Describes id r :=
  C81_read_partial id polySquare_ok polySquare_shown polySquare_holes polySquare_regions polySquare_file

/-- The result for the square: five lines, of which the second facet shares one with the first. -/
example : (match readPoly id 3 polySquareLines with
    | .ok (_, r) => some ((r.mesh.elems 1).map (·.verts), r.plcs.map (·.lines), r.plcs.map (·.verts))
    | .error _ => none) =
    some ([[0, 1], [1, 2], [2, 3], [3, 0], [0, 2]], [[0, 1, 2, 3], [4, 1]], [[0, 1, 2, 3], [3, 0, 2, 1]]) := by
  decide +kernel

/-! ### Violations -/

/-- A facet line without the number of holes, which the format allows. -/
theorem facetLine_short (n : Int) : facetLine ([.int n] : List (Tok C)) = .error .undefined := by
  have h : (lineIn ([] : List (Tok C))).getInt none = .error .undefined := by
    simp [TokIn.getInt, TokIn.readInt, lineIn, useInt]
  simp only [facetLine, getInt_cons, h]

/-- C81 violated: the description of the format says that the number of holes of a facet may be left out; the reader then
uses an uninitialised variable, for every mesh and every number of polygons. -/
theorem C81_violated_holes (ofInt : Int → C) (dim : Nat) {F : PolyFile C} (hF : F.OK dim) {h k : List (Tok C)}
    {ns : List (List (Tok C))} (hh : ShowsHead F.nodes.length dim h)
    (hn : List.Forall₂ (fun x l => (.int x.1 :: x.2.map coordTok) <+: l) F.nodes ns) {n : Nat} (hn0 : 0 < n)
    (hk : ShowsFacetCount n k) (p : Int) (rest : List (List (Tok C))) :
    readPoly ofInt dim (h :: (ns ++ k :: [.int p] :: rest)) = .error .undefined := by
  obtain ⟨b, h5, hb⟩ := headLine_ok hh
  have h6 := (readNodes_reads ofInt F.nodes ns Mesh.empty hF.points hn).all (k :: [.int p] :: rest)
  obtain ⟨n, rfl⟩ : ∃ j, n = j + 1 := ⟨n - 1, by omega⟩
  simp only [readPoly, PolyR.andThen, PolyR.line, PolyR.lift, h5, h6, facetsLine_ok hb hk, readFacets, facetLine_short]

/-- C81 violated: a line which has only a tab, or only the carriage return of a file from Windows, is not skipped: at the
begin of a file it is taken for the first line, whose number of coordinates is then zero. -/
theorem C81_violated_blank (ofInt : Int → C) {dim : Nat} (hd : dim ≠ 0) {lex : List Char → List (Tok C)} {c : Char}
    (hc : c ≠ ' ') (hc' : c ≠ '#') (hl : lex [c] = []) (file : List (List Char)) :
    readPolyFile ofInt dim lex ([c] :: file) = .error .throws := by
  have h1 : lineContent [c] = some [c] := lineContent_text (n := 0) hc (by simpa using hc'.symm)
  obtain ⟨s, h2, h3⟩ := getInt_nil (C := C) 0
  have h4 : headLine dim ([] : List (Tok C)) = .error .throws := by
    simp only [headLine, h2, h3]
    rw [if_pos]
    right
    left
    intro h
    exact hd (by exact_mod_cast h.symm)
  unfold readPolyFile
  rw [List.filterMap_cons, h1]
  simp only [List.map_cons, hl, readPoly, PolyR.andThen, PolyR.line, PolyR.lift, h4]

/-- C82 violated: a vertex of which only the id is there, followed by an empty list of facets, is accepted and gets the
coordinates zero. -/
theorem C82_violated_accepted : (match readPoly id 3 [[.int 1, .int 3], [.int 7], [.int 0]] with
    | .ok (_, r) => some (r.mesh.verts.map fun v => (v.id, v.pt))
    | .error _ => none) = some [(7, [(0 : Int), 0, 0])] := by
  decide +kernel

/-- C82 violated: a polygon with a corner which is no vertex, a polygon without corners, and a polygon with less corners than
announced are undefined behaviour. -/
theorem C82_violated_undefined :
    ([[[.int 2, .int 1, .int 8]], [[.int 0]], [[.int 2, .int 1]]] : List (List (List (Tok Int)))).map (fun l =>
      match readPoly id 3 ([[.int 1, .int 3], [.int 1, .int 0, .int 0, .int 0], [.int 1], [.int 1, .int 0]] ++ l) with
      | .ok _ => none
      | .error e => some e) = [some .undefined, some .undefined, some .undefined] := by
  decide +kernel

end VG
