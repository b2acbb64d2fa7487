import Verif.Lemmas.NumberRead
import Verif.Props.VtkText

/-!
C108: what becomes of coordinates and values which are written to a file and read again.

Specification: `Digits b p` (Verif/Lemmas/NumberText.lean): numbers with at most `p` digits in base `b`; `Closest`.
-/

namespace VG

/-! ### Specification -/

/-- `y` has at most `p` digits in base `b`, and no such number is closer to `x`. -/
def Closest (b p : Nat) (x y : ℚ) : Prop := Digits b p y ∧ ∀ z, Digits b p z → |y - x| ≤ |z - x|

/-- The `double` for a number which was given with at most 15 decimal digits. -/
def Short (x : ℚ) : Prop := ∃ d, Digits 10 15 d ∧ x = asDouble d

/-- The points of different vertices differ in some coordinate by more than 6e-15 of its size. -/
def FarApart (m : Mesh (List ℚ)) : Prop :=
  ∀ (u v : Nat) x y, u ≠ v → m.verts[u]? = some x → m.verts[v]? = some y →
    ∃ (i : Nat) (a b : ℚ), x.pt[i]? = some a ∧ y.pt[i]? = some b ∧ (|a| + |b|) * (6 / 10 ^ 15) < |a - b|

/-- Each coordinate of `q` is up to a relative error of 6e-15 that of `p`. -/
def NearPoint (p q : List ℚ) : Prop := List.Forall₂ (fun a b => |b - a| ≤ |a| * (6 / 10 ^ 15)) p q

/-! ### Numbers -/

/-- C108: the text of a number denotes the closest number with 15 decimal digits, what is read from it is the `double`
closest to that number, and the relative error is at most 6e-15. -/
theorem C108_error (x : ℚ) : ∃ d y, readNumber (coordText x) = some y ∧ Closest 10 15 x d ∧ Closest 2 53 d y ∧
    |y - x| ≤ |x| * (6 / 10 ^ 15) :=
  ⟨written x, saved x, readNumber_text 15 x,
    ⟨written_decimal x, fun _ hz => roundTo_closest (by norm_num) (by norm_num) x hz⟩,
    ⟨roundTo_digits (by norm_num) (by norm_num) _, fun _ hz => roundTo_closest (by norm_num) (by norm_num) _ hz⟩,
    saved_err x⟩

/-- C108: the `double` of a number is a closest one. -/
theorem C108_double (x : ℚ) : Closest 2 53 x (asDouble x) :=
  ⟨roundTo_digits (by norm_num) (by norm_num) _, fun _ hz => roundTo_closest (by norm_num) (by norm_num) _ hz⟩

/-- C108: numbers given with at most 15 digits are read as they were. -/
theorem C108_exact {x : ℚ} (h : Short x) : readNumber (coordText x) = some x := by
  obtain ⟨d, hd, rfl⟩ := h
  exact (readNumber_text 15 _).trans (congrArg some (saved_asDouble hd))

/-- C108: a number that was read from a file is read again after it was written again. -/
theorem C108_again {x y : ℚ} (h : readNumber (coordText x) = some y) : readNumber (coordText y) = some y := by
  rw [coordText, readNumber_text, Option.some.injEq] at h
  exact C108_exact ⟨written x, written_decimal x, h.symm⟩

/-- C108: numbers which are not too close are different after reading. -/
theorem C108_different {x y : ℚ} (h : (|x| + |y|) * (6 / 10 ^ 15) < |x - y|) :
    readNumber (coordText x) ≠ readNumber (coordText y) := by
  rw [coordText, coordText, readNumber_text, readNumber_text]
  exact fun he => saved_ne h (Option.some.inj he)

/-- Texts, and what is read. -/
example : coordText (1 / 3) = "0.333333333333333".toList ∧ coordText (-5 / 2) = "-2.5".toList ∧
    coordText (1 / 2 ^ 20) = "9.5367431640625e-07".toList ∧ coordText (10 ^ 17) = "1e+17".toList ∧
    coordText 1200 = "1200".toList ∧ coordText 0 = "0".toList ∧
    coordText (1 - 1 / 2 ^ 53) = "1".toList := by decide +kernel

/-- One tenth is `Short`; one third, and the number next to one, are not read as they were. -/
example : Short (asDouble (1 / 10)) ∧ readNumber (coordText (asDouble (1 / 3))) ≠ some (asDouble (1 / 3)) ∧
    readNumber (coordText (1 - 1 / 2 ^ 53)) = some 1 :=
  ⟨⟨_, ⟨1, -1, by norm_num, by norm_num⟩, rfl⟩, by decide +kernel, by decide +kernel⟩

example : ∃ x y : ℚ, (|x| + |y|) * (6 / 10 ^ 15) < |x - y| ∧ coordText x = "1".toList ∧
    coordText y = "1.00000000000002".toList := ⟨1, 1 + 2 / 10 ^ 14, by norm_num [abs_of_pos], by decide +kernel, by decide +kernel⟩

/-! ### Meshes -/

theorem FarApart.noDuplicates {n dim : Nat} {m : Mesh (List ℚ)} (h : FarApart m) (hdim : ∀ x ∈ m.verts, x.pt.length = dim)
    (hcells : ∀ (c c' : Nat) e e', (m.elems n)[c]? = some e → (m.elems n)[c']? = some e' → e.verts = e'.verts → c = c') :
    NoDuplicates n saved dim m := by
  refine ⟨hdim, fun u v x y hx hy he => ?_, hcells⟩
  by_contra huv
  obtain ⟨i, a, b, ha, hb, hab⟩ := h u v x y huv hx hy
  have := congrArg (·[i]?) he
  simp only [List.getElem?_map, ha, hb, Option.map_some] at this
  exact saved_ne hab (Option.some.inj this)

theorem nearPoint_saved (p : List ℚ) : NearPoint p (p.map saved) := by
  unfold NearPoint
  rw [List.forall₂_map_right_iff, List.forall₂_same]
  exact fun a _ => saved_err a

theorem short_saved {p : List ℚ} (h : ∀ a ∈ p, Short a) : p.map saved = p := by
  conv_rhs => rw [← List.map_id p]
  refine List.map_congr_left fun a ha => ?_
  obtain ⟨d, hd, rfl⟩ := h a ha
  exact saved_asDouble hd

theorem VtkSame.short {n : Nat} {m : Mesh (List ℚ)} {P : Nat → Nat → Prop} {V Cc : List Nat} {r : SegState (List ℚ)}
    (h : VtkSame n saved m P V Cc r) (hs : ∀ x ∈ m.verts, ∀ a ∈ x.pt, Short a) : VtkSame n id m P V Cc r := by
  refine ⟨h.vertsOnce, h.cellsOnce, ⟨h.points.1, fun i v hi => ?_⟩, h.cells, h.segCells, h.segVerts⟩
  obtain ⟨x, h1, h2⟩ := h.points.2 i v hi
  refine ⟨x, h1, ?_⟩
  rw [h2, short_saved (hs x (List.mem_of_getElem? h1)), List.map_id]

theorem short_noDuplicates {n dim : Nat} {m : Mesh (List ℚ)} (h : NoDuplicates n id dim m)
    (hs : ∀ x ∈ m.verts, ∀ a ∈ x.pt, Short a) : NoDuplicates n saved dim m := by
  refine ⟨h.dim, fun u v x y hx hy he => h.points u v x y hx hy ?_, h.cells⟩
  rw [short_saved (hs x (List.mem_of_getElem? hx)), short_saved (hs y (List.mem_of_getElem? hy))] at he
  rw [he]

variable {tag : VtkTag} {dim : Nat} {st : SegState (List ℚ)} {gs : List Nat} {pd cd : Nat → List (String × Quantity ℚ)}
  {base : List Char} {files : List Char → Option (List Char)}

/-- C108, C90: a mesh whose coordinates have at most 15 digits, written with its segments and read: exactly the same points,
cells and segments. -/
theorem C108_segments_exact (hdim : dim ≤ 3) (h : SegReached tag.topo st)
    (hd : NoDuplicates tag.topo.cellDim id dim st.mesh) (hs : ∀ x ∈ st.mesh.verts, ∀ a ∈ x.pt, Short a)
    (hgs : 2 ≤ gs.length) (hpd : NamesOk gs pd) (hcd : NamesOk gs cd)
    (hbase : '"' ∉ base.drop (pathLength base) ∧ '>' ∉ base.drop (pathLength base))
    (hfiles : Stored files (vtkFiles tag coordText base gs.length (writeVtk tag id 0 st gs pd cd))) :
    ∃ L r V Cc, readFiles tag readNumber 0 files (base ++ "_main.pvd".toList) = .ok L ∧ readVtk tag 0 dim L = some r ∧
      VtkSame tag.topo.cellDim id st.mesh (fun g c => g ∈ gs ∧ c ∈ st.view g tag.topo.cellDim) V Cc r.st := by
  obtain ⟨L, r, V, Cc, h1, h2, h3, -⟩ := C90_segments_partial prints_double saved_zero hdim h (short_noDuplicates hd hs) gs
    hgs hpd hcd hbase hfiles
  exact ⟨L, r, V, Cc, h1, h2, h3.short hs⟩

/-- C108, C90: the same for a mesh without segmentation or with one segment. -/
theorem C108_mesh_exact (hdim : dim ≤ 3) (h : SegReached tag.topo st)
    (hd : NoDuplicates tag.topo.cellDim id dim st.mesh) (hs : ∀ x ∈ st.mesh.verts, ∀ a ∈ x.pt, Short a)
    (hgs : gs.length ≤ 1) (hpd : NamesOk gs pd) (hcd : NamesOk gs cd)
    (hfiles : Stored files (vtkFiles tag coordText base gs.length (writeVtk tag id 0 st gs pd cd))) :
    ∃ L r V Cc, readFiles tag readNumber 0 files (base ++ ".vtu".toList) = .ok L ∧ readVtk tag 0 dim L = some r ∧
      VtkSame tag.topo.cellDim id st.mesh (fun g c => g = 0 ∧ c < st.mesh.count tag.topo.cellDim) V Cc r.st := by
  obtain ⟨L, r, V, Cc, -, -, -, h1, h2, h3, -⟩ := C90_mesh_partial prints_double saved_zero hdim h (short_noDuplicates hd hs) gs
    hgs hpd hcd base hfiles
  exact ⟨L, r, V, Cc, h1, h2, h3.short hs⟩

/-- C108, C90: a mesh with any coordinates, whose points are not too close: the same cells and segments, and the points up
to a relative error of 6e-15 in each coordinate; the values of quantities are saved as coordinates are. -/
theorem C108_segments_near (hdim : dim ≤ 3) (h : SegReached tag.topo st) (ha : FarApart st.mesh)
    (hlen : ∀ x ∈ st.mesh.verts, x.pt.length = dim)
    (hcells : ∀ (c c' : Nat) e e', (st.mesh.elems tag.topo.cellDim)[c]? = some e →
      (st.mesh.elems tag.topo.cellDim)[c']? = some e' → e.verts = e'.verts → c = c')
    (hgs : 2 ≤ gs.length) (hpd : NamesOk gs pd) (hcd : NamesOk gs cd)
    (hbase : '"' ∉ base.drop (pathLength base) ∧ '>' ∉ base.drop (pathLength base))
    (hfiles : Stored files (vtkFiles tag coordText base gs.length (writeVtk tag id 0 st gs pd cd))) :
    ∃ L r V Cc, readFiles tag readNumber 0 files (base ++ "_main.pvd".toList) = .ok L ∧ readVtk tag 0 dim L = some r ∧
      VtkSame tag.topo.cellDim saved st.mesh (fun g c => g ∈ gs ∧ c ∈ st.view g tag.topo.cellDim) V Cc r.st ∧
      (∀ (i : Nat) v, V[i]? = some v → ∃ x y, st.mesh.verts[v]? = some x ∧ r.st.mesh.verts[i]? = some y ∧
        NearPoint x.pt y.pt) ∧
      (∀ g ∈ gs, ∃ (k : Nat) (f : VtuFile ℚ), r.files[k]? = some ((g : Int), f)) ∧
      ∀ (k : Nat) (x : Int × VtuFile ℚ), r.files[k]? = some x → ∃ g ∈ gs, ∃ hs cs, x.1 = (g : Int) ∧
        r.points[k]? = some hs ∧ r.cells[k]? = some cs ∧
        DataRight saved V (fun v => ∃ c e, c ∈ st.view g tag.topo.cellDim ∧
          (st.mesh.elems tag.topo.cellDim)[c]? = some e ∧ v ∈ e.verts) hs (pd g) x.2.pointData ∧
        DataRight saved Cc (fun c => c ∈ st.view g tag.topo.cellDim) cs (cd g) x.2.cellData := by
  obtain ⟨L, r, V, Cc, h1, h2, h3, h6⟩ := C90_segments_partial prints_double saved_zero hdim h (ha.noDuplicates hlen hcells) gs
    hgs hpd hcd hbase hfiles
  refine ⟨L, r, V, Cc, h1, h2, h3, fun i v hi => ?_, h6⟩
  obtain ⟨x, h4, h5⟩ := h3.points.2 i v hi
  exact ⟨x, _, h4, h5, nearPoint_saved x.pt⟩

/-- C108, C90: the same for a mesh without segmentation or with one segment. -/
theorem C108_mesh_near (hdim : dim ≤ 3) (h : SegReached tag.topo st) (ha : FarApart st.mesh)
    (hlen : ∀ x ∈ st.mesh.verts, x.pt.length = dim)
    (hcells : ∀ (c c' : Nat) e e', (st.mesh.elems tag.topo.cellDim)[c]? = some e →
      (st.mesh.elems tag.topo.cellDim)[c']? = some e' → e.verts = e'.verts → c = c')
    (hgs : gs.length ≤ 1) (hpd : NamesOk gs pd) (hcd : NamesOk gs cd)
    (hfiles : Stored files (vtkFiles tag coordText base gs.length (writeVtk tag id 0 st gs pd cd))) :
    ∃ L r V Cc f hs cs, readFiles tag readNumber 0 files (base ++ ".vtu".toList) = .ok L ∧ readVtk tag 0 dim L = some r ∧
      VtkSame tag.topo.cellDim saved st.mesh (fun g c => g = 0 ∧ c < st.mesh.count tag.topo.cellDim) V Cc r.st ∧
      (∀ (i : Nat) v, V[i]? = some v → ∃ x y, st.mesh.verts[v]? = some x ∧ r.st.mesh.verts[i]? = some y ∧
        NearPoint x.pt y.pt) ∧
      r.files = [(0, f)] ∧ r.points = [hs] ∧ r.cells = [cs] ∧
      DataRight saved V (fun v => ∃ (c : Nat) (e : Elem), (st.mesh.elems tag.topo.cellDim)[c]? = some e ∧ v ∈ e.verts) hs
        (pd 0) f.pointData ∧
      DataRight saved Cc (fun c => c < st.mesh.count tag.topo.cellDim) cs (cd 0) f.cellData := by
  obtain ⟨L, r, V, Cc, f, hs, cs, h1, h2, h3, -, -, h6⟩ := C90_mesh_partial prints_double saved_zero hdim h (ha.noDuplicates hlen hcells) gs
    hgs hpd hcd base hfiles
  refine ⟨L, r, V, Cc, f, hs, cs, h1, h2, h3, fun i v hi => ?_, h6⟩
  obtain ⟨x, h4, h5⟩ := h3.points.2 i v hi
  exact ⟨x, _, h4, h5, nearPoint_saved x.pt⟩

/-! ### Examples -/

/-- The files of the square, with a quantity whose values are thirds. -/
def numberFiles (gs : List Nat) : List (List Char × List Char) :=
  vtkFiles .triangle coordText "a".toList gs.length
    (writeVtk .triangle id 0 vtkSquareState gs (fun _ => [("phi", .scalar fun v => (v : ℚ) / 3)]) fun _ => [])

theorem numberFiles_stored : Stored (lookupFile (numberFiles [4, 2])) (numberFiles [4, 2]) ∧
    Stored (lookupFile (numberFiles [])) (numberFiles []) := by
  unfold Stored
  decide +kernel

/-- The points of the square. -/
def squarePoints : List (List ℚ) := [[0, 0], [1, 0], [9, 9], [0, 1], [1, 1]]

theorem vtkSquare_verts : vtkSquareState.mesh.verts.map (·.pt) = squarePoints := by decide +kernel

theorem short_square : ∀ x ∈ vtkSquareState.mesh.verts, ∀ a ∈ x.pt, Short a := by
  intro x hx a ha
  have h1 : x.pt ∈ vtkSquareState.mesh.verts.map (·.pt) := List.mem_map_of_mem hx
  rw [vtkSquare_verts] at h1
  have h2 : ∀ p ∈ squarePoints, ∀ a ∈ p, a = 0 ∨ a = 1 ∨ a = 9 := by decide +kernel
  rcases h2 _ h1 a ha with rfl | rfl | rfl
  · exact ⟨0, ⟨0, 0, by norm_num, by norm_num⟩, by decide +kernel⟩
  · exact ⟨1, ⟨1, 0, by norm_num, by norm_num⟩, by decide +kernel⟩
  · exact ⟨9, ⟨9, 0, by norm_num, by norm_num⟩, by decide +kernel⟩

theorem numberNames (gs : List Nat) : NamesOk gs (fun _ => [("phi", Quantity.scalar fun v => (v : ℚ) / 3)]) := by
  intro g _ q hq
  rw [List.mem_singleton.1 hq]
  unfold NameOk
  decide

/-- The conditions can be met, with two segments and without. -/
example : (∃ L r V Cc, readFiles .triangle readNumber 0 (lookupFile (numberFiles [4, 2])) "a_main.pvd".toList = .ok L ∧
      readVtk .triangle 0 2 L = some r ∧
      VtkSame 2 id vtkSquareState.mesh (fun g c => g ∈ [4, 2] ∧ c ∈ vtkSquareState.view g 2) V Cc r.st) ∧
    ∃ L r V Cc, readFiles .triangle readNumber 0 (lookupFile (numberFiles [])) "a.vtu".toList = .ok L ∧
      readVtk .triangle 0 2 L = some r ∧
      VtkSame 2 id vtkSquareState.mesh (fun g c => g = 0 ∧ c < vtkSquareState.mesh.count 2) V Cc r.st :=
  ⟨C108_segments_exact (cd := fun _ => []) (by omega) vtkSquareState_reached vtkSquareState_noDuplicates short_square (by simp)
      (numberNames _) (by intro g _ q hq; simp at hq) (base := "a".toList) (by decide) numberFiles_stored.1,
    C108_mesh_exact (cd := fun _ => []) (by omega) vtkSquareState_reached vtkSquareState_noDuplicates short_square (by simp)
      (numberNames _) (by intro g _ q hq; simp at hq) (base := "a".toList) numberFiles_stored.2⟩

/-- The points of the square are apart. -/
example : FarApart vtkSquareState.mesh := by
  intro u v x y huv hx hy
  have h1 := congrArg (·[u]?) vtkSquare_verts
  have h2 := congrArg (·[v]?) vtkSquare_verts
  simp only [List.getElem?_map, hx, hy, Option.map_some] at h1 h2
  have hu : u < 5 := (List.getElem?_eq_some_iff.1 h1.symm).1
  have hv : v < 5 := (List.getElem?_eq_some_iff.1 h2.symm).1
  have key : ∀ u < 5, ∀ v < 5, u ≠ v → ∃ i < 2, (squarePoints[u]?.bind (·[i]?)).any (fun a =>
      (squarePoints[v]?.bind (·[i]?)).any fun b => decide ((|a| + |b|) * (6 / 10 ^ 15) < |a - b|)) = true := by
    decide +kernel
  obtain ⟨i, -, hi⟩ := key u hu v hv huv
  rw [← h1, ← h2, Option.any_eq_true] at hi
  obtain ⟨a, ha, hi⟩ := hi
  obtain ⟨b, hb, hi⟩ := (Option.any_eq_true _ _).1 hi
  exact ⟨i, a, b, ha, hb, of_decide_eq_true hi⟩

/-- The text of the file with all numbers. -/
example : (numberFiles []).map (·.1) = ["a.vtu".toList] ∧
    "0.333333333333333 0 1 1.33333333333333 ".toList <:+: ((numberFiles []).map (·.2)).flatten := by
  refine ⟨by decide +kernel, ?_⟩
  decide +kernel

end VG
