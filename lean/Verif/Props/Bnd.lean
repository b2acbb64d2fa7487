import Verif.Lemmas.BndRead
import Verif.Props.Segments

/-!
C83: reading a .bnd file of triangulated polyhedra builds the mesh of their faces, with a segment for each polyhedron.
C84: names and materials of segments, names and faces of contacts.
C85: a file which cannot be read is rejected with an exception.

The specification is in `Props/BndFile.lean`.
-/

namespace VG

variable {C : Type}

/-- Triangle `t` of the mesh has the vertices which were made for points `a`, `b` and `c`; `idx` lists the points the
vertices were made for. -/
def IsTriangle (st : SegState (List C)) (idx : List Nat) (t a b c : Nat) : Prop :=
  ∃ e, (st.mesh.elems 2)[t]? = some e ∧ (e.verts.map fun v => idx[v]?).Perm [some a, some b, some c]

theorem natList {l : List Int} (h : ∀ i ∈ l, 0 ≤ i) : ∃ m : List Nat, l = m.map fun (n : Nat) => (n : Int) :=
  ⟨l.map Int.toNat, by
    rw [List.map_map]
    conv_lhs => rw [← List.map_id l]
    exact List.map_congr_left fun i hi => by simp [h i hi]⟩

/-- The mesh the reader builds. -/
theorem readBnd_mesh [DecidableEq C] (ofInt : Int → C) {f : BndFile C} (hf : f.OK) (ht : f.Triangulated) {ls : BLines C}
    (h : f.ShownBy ls) : ∃ polys S idxs keys,
      List.Forall₂ (fun s ps => List.Forall₂ (FacePolygon f.edges f.faces) s ps) f.segs polys ∧
      readBnd ofInt 3 ls = .ok S.st ∧
      BInv (f.points.map (·.map (coordVal ofInt))) (allPolygons 0 polys) idxs keys S := by
  obtain ⟨polys, h1, h2⟩ := data_reads ofInt hf h
  obtain ⟨S, idxs, keys, h3, h4⟩ := bndSegments_spec (g := 0)
    (good_polygons hf ht h1 (points := f.points.map (·.map (coordVal ofInt))) (by simp)) (bInv_empty _)
  refine ⟨polys, S, idxs, keys, h1, ?_, by simpa using h4⟩
  unfold readBnd
  rw [h2]
  simp only [ne_eq, not_true_eq_false, if_false]
  rw [h3]
  rfl

/-- **C83**, partial: for a file of triangulated polyhedra, the mesh has a vertex for each point which is a corner of a
face (`idx` lists these points), and for each three points which are the corners of a face of some polyhedron exactly one
triangle; segment `g` has exactly the triangles which are faces of polyhedron `g` and their edges and vertices.
The full claim is for all .bnd files; missing are files of dimension 2, contacts listed before polyhedra, and regions
of several polyhedra together with contacts, for which it fails, see `C83_violated_2d`, `C83_violated_order` and
`C83_violated_regions`. -/
theorem C83_mesh_partial [DecidableEq C] (ofInt : Int → C) {f : BndFile C} (hf : f.OK) (ht : f.Triangulated)
    {ls : BLines C} (h : f.ShownBy ls) :
    ∃ st idx, readBnd ofInt 3 ls = .ok st ∧ idx.Nodup ∧
      (∀ i, i ∈ idx ↔ ∃ g a b c, f.Triangle g a b c ∧ (i = a ∨ i = b ∨ i = c)) ∧
      st.mesh.verts.length = idx.length ∧
      (∀ (k i : Nat), idx[k]? = some i → ∃ p, f.points[i]? = some p ∧
        st.mesh.verts[k]? = some ⟨k, p.map (coordVal ofInt)⟩) ∧
      (∀ t < (st.mesh.elems 2).length, ∃ g a b c, f.Triangle g a b c ∧ IsTriangle st idx t a b c) ∧
      (∀ g a b c, f.Triangle g a b c → ∃! t, IsTriangle st idx t a b c) ∧
      (∀ g t a b c, IsTriangle st idx t a b c → (t ∈ st.view g 2 ↔ f.Triangle g a b c)) ∧
      (∀ g t, t ∈ st.view g 2 → t < (st.mesh.elems 2).length) ∧
      ∀ g k s, k < 2 → (s ∈ st.view g k ↔ ∃ t ∈ st.view g 2, OnBoundary (simplexTopo 2) st.mesh k s 2 t) := by
  obtain ⟨polys, S, idxs, keys, h1, h2, h3⟩ := readBnd_mesh ofInt hf ht h
  have hpos : ∀ i ∈ idxs, 0 ≤ i := by
    intro i hi
    obtain ⟨k, hk⟩ := List.mem_iff_getElem?.1 hi
    obtain ⟨p, h4, -⟩ := h3.verts.verts k i hk
    exact h4
  obtain ⟨idx, hidx⟩ := natList hpos
  have hkey : ∀ q, q ∈ keys ↔ ∃ g a b c, f.Triangle g a b c ∧ q = triKey a b c := by
    intro q
    rw [h3.made]
    exact exists_congr fun g => mem_polygons hf ht h1
  have hget : ∀ v : Nat, idxs[v]? = (idx[v]?).map fun (n : Nat) => (n : Int) := by
    intro v
    rw [hidx, List.getElem?_map]
  have hcast : ∀ x : Option Nat, ∀ y : Option Nat, x.map (fun (n : Nat) => (n : Int)) = y.map (fun (n : Nat) => (n : Int)) →
      x = y := fun x y hxy => Option.map_injective (fun a b hab => by simpa using hab) hxy
  have htri : ∀ t a b c, IsTriangle S.st idx t a b c ↔ keys[t]? = some (triKey a b c) := by
    intro t a b c
    constructor
    · rintro ⟨e, h4, h5⟩
      have htl : t < keys.length := by
        rw [← h3.count]
        exact (List.getElem?_eq_some_iff.1 h4).1
      obtain ⟨e', h6, h7⟩ := h3.cells t _ (List.getElem?_eq_getElem htl)
      rw [h4] at h6
      obtain rfl := Option.some.inj h6
      have h8 := h5.map (Option.map fun (n : Nat) => (n : Int))
      rw [List.map_map] at h8
      have h9 : (e.verts.map (Option.map (fun (n : Nat) => (n : Int)) ∘ fun v => idx[v]?)) =
          e.verts.map fun v => idxs[v]? := List.map_congr_left fun v _ => by simp [hget]
      rw [h9, h7] at h8
      have h10 : ([some a, some b, some c].map (Option.map fun (n : Nat) => (n : Int))) =
          [(a : Int), b, c].map some := rfl
      rw [h10] at h8
      have h11 : keys[t].Perm [(a : Int), b, c] := (List.map_perm_map_iff (Option.some_injective _)).1 h8
      obtain ⟨g', a', b', c', -, h12⟩ := (hkey keys[t]).1 (List.getElem_mem htl)
      rw [List.getElem?_eq_getElem htl]
      congr 1
      rw [h12] at h11 ⊢
      exact sort_eq_of_perm ((triKey_perm a' b' c').symm.trans h11)
    · intro h4
      obtain ⟨e, h5, h6⟩ := h3.cells t _ h4
      refine ⟨e, h5, ?_⟩
      have h7 : ((e.verts.map fun v => idx[v]?).map (Option.map fun (n : Nat) => (n : Int))).Perm
          ([some a, some b, some c].map (Option.map fun (n : Nat) => (n : Int))) := by
        rw [List.map_map]
        have h9 : (e.verts.map (Option.map (fun (n : Nat) => (n : Int)) ∘ fun v => idx[v]?)) =
            e.verts.map fun v => idxs[v]? := List.map_congr_left fun v _ => by simp [hget]
        rw [h9, h6]
        exact (triKey_perm a b c).map some
      exact (List.map_perm_map_iff fun x y hxy => hcast x y hxy).1 h7
  have hsame : ∀ {a b c a' b' c' g : Nat}, f.Triangle g a b c → triKey a b c = triKey a' b' c' →
      f.Triangle g a' b' c' := by
    rintro a b c a' b' c' g ⟨face, h4, h5, h6, h7, h8⟩ hk
    have hp : [(a : Int), b, c].Perm [(a' : Int), b', c'] := by
      refine (triKey_perm a b c).symm.trans ?_
      rw [hk]
      exact triKey_perm a' b' c'
    have hn : [(a' : Int), b', c'].Nodup := hp.nodup_iff.1 (by simp; omega)
    simp only [List.nodup_cons, List.mem_cons, List.not_mem_nil, or_false, not_or, Int.ofNat_inj] at hn
    refine ⟨face, h4, hn.1.1, hn.1.2, hn.2.1, fun v => ?_⟩
    rw [h8]
    have := hp.mem_iff (a := v)
    simpa using this
  have hview : ∀ g k s, s ∈ S.st.view g k ↔ ∃ t a b c, f.Triangle g a b c ∧ IsTriangle S.st idx t a b c ∧
      ((k = 2 ∧ s = t) ∨ OnBoundary (simplexTopo 2) S.st.mesh k s 2 t) := by
    intro g k s
    rw [(C26_content_partial (Or.inl ⟨2, rfl⟩) h3.verts.reached g k).2 s]
    unfold Belongs
    constructor
    · rintro ⟨d, t, h4, h5⟩
      obtain ⟨t', q, h6, h7, h8⟩ := (h3.added _ _).1 h4
      obtain ⟨rfl, rfl⟩ := Prod.mk.inj h8
      obtain ⟨a, b, c, h9, rfl⟩ := (mem_polygons hf ht h1).1 h7
      exact ⟨t, a, b, c, h9, (htri t a b c).2 h6, h5⟩
    · rintro ⟨t, a, b, c, h4, h5, h6⟩
      exact ⟨2, t, (h3.added _ _).2 ⟨t, _, (htri t a b c).1 h5, (mem_polygons hf ht h1).2 ⟨a, b, c, h4, rfl⟩, rfl⟩, h6⟩
  have hno : ∀ s t, ¬ OnBoundary (simplexTopo 2) S.st.mesh 2 s 2 t := by
    intro s t h4
    unfold OnBoundary at h4
    rw [if_neg (by omega)] at h4
    obtain ⟨e, e', is, ix, -, -, h5, -⟩ := h4
    have := ((simplexTopo_wf 2).dim _ _ _ _ h5).2
    omega
  have hview2 : ∀ g t, t ∈ S.st.view g 2 ↔ ∃ a b c, f.Triangle g a b c ∧ IsTriangle S.st idx t a b c := by
    intro g t
    rw [hview]
    constructor
    · rintro ⟨t', a, b, c, h4, h5, ⟨-, rfl⟩ | h6⟩
      · exact ⟨a, b, c, h4, h5⟩
      · exact absurd h6 (hno t t')
    · rintro ⟨a, b, c, h4, h5⟩
      exact ⟨t, a, b, c, h4, h5, Or.inl ⟨rfl, rfl⟩⟩
  refine ⟨S.st, idx, h2, ?_, fun i => ?_, ?_, fun k i hk => ?_, fun t ht' => ?_, fun g a b c hT => ?_,
    fun g t a b c hT => ?_, fun g t hT => ?_, fun g k s hk => ?_⟩
  · have := h3.verts.nodup
    rw [hidx] at this
    exact this.of_map
  · have h4 : i ∈ idx ↔ (i : Int) ∈ idxs := by
      rw [hidx]
      simp
    rw [h4, h3.used]
    constructor
    · rintro ⟨q, h5, h6⟩
      obtain ⟨g, a, b, c, h7, rfl⟩ := (hkey q).1 h5
      refine ⟨g, a, b, c, h7, ?_⟩
      have := (triKey_perm a b c).mem_iff.1 h6
      simpa using this
    · rintro ⟨g, a, b, c, h5, h6⟩
      refine ⟨triKey a b c, (hkey _).2 ⟨g, a, b, c, h5, rfl⟩, (triKey_perm a b c).mem_iff.2 ?_⟩
      simpa using h6
  · rw [h3.verts.length, hidx, List.length_map]
  · obtain ⟨p, h4, h5, h6⟩ := h3.verts.verts k (i : Int) (by rw [hget, hk]; rfl)
    rw [Int.toNat_natCast, List.getElem?_map] at h5
    obtain ⟨p', h7, rfl⟩ := Option.map_eq_some_iff.1 h5
    exact ⟨p', h7, h6⟩
  · rw [h3.count] at ht'
    obtain ⟨g, a, b, c, h4, h5⟩ := (hkey keys[t]).1 (List.getElem_mem ht')
    exact ⟨g, a, b, c, h4, (htri t a b c).2 (by rw [List.getElem?_eq_getElem ht', h5])⟩
  · obtain ⟨t, h4⟩ := List.mem_iff_getElem?.1 ((hkey _).2 ⟨g, a, b, c, hT, rfl⟩)
    refine ⟨t, (htri t a b c).2 h4, fun t' h5 => ?_⟩
    have h6 := (htri t' a b c).1 h5
    have h7 := (List.getElem?_eq_some_iff.1 h6).1
    exact (List.getElem?_inj h7 h3.nodup).1 (h6.trans h4.symm)
  · rw [hview2]
    constructor
    · rintro ⟨a', b', c', h4, h5⟩
      rw [htri] at h5 hT
      rw [h5] at hT
      exact hsame h4 (Option.some.inj hT)
    · intro h4
      exact ⟨a, b, c, h4, hT⟩
  · obtain ⟨a, b, c, h4, e, h5, -⟩ := (hview2 g t).1 hT
    exact (List.getElem?_eq_some_iff.1 h5).1
  · rw [hview]
    constructor
    · rintro ⟨t, a, b, c, h4, h5, ⟨h6, -⟩ | h6⟩
      · omega
      · exact ⟨t, (hview2 g t).2 ⟨a, b, c, h4, h5⟩, h6⟩
    · rintro ⟨t, h4, h5⟩
      obtain ⟨a, b, c, h6, h7⟩ := (hview2 g t).1 h4
      exact ⟨t, a, b, c, h6, h7, Or.inr h5⟩

/-- **C84**, partial: what `bnd_helper` has after reading a file.  Points and polyhedra are those of the file; the name
and the material of a polyhedron are those of the last region with it, or empty if there is none; contacts are those of
the regions of material `Contact`, in their order, with their names and triangles.
The full claim is for all .bnd files; missing is what is missing in `C83_mesh_partial`, and files with fewer regions than
polyhedra, for which it fails, see `C84_violated`. -/
theorem C84_helper_partial [DecidableEq C] (ofInt : Int → C) {f : BndFile C} (hf : f.OK)
    (hreg : f.segs.length ≤ f.regions.length) {ls : BLines C} (h : f.ShownBy ls) :
    ∃ d, readBndData ofInt ls = .ok d ∧ d.dim = 3 ∧ d.points = f.points.map (·.map (coordVal ofInt)) ∧
      List.Forall₂ (fun s ps => List.Forall₂ (fun i (p : List Int) => ∃ k face, RefersTo i k ∧ f.faces[k]? = some face ∧
        p.Nodup ∧ ∀ v, v ∈ p ↔ IsEnd f.edges face v) s ps) f.segs d.elems.domain ∧
      d.regions.segments.length = f.segs.length ∧
      (∀ e before r after, f.regions = before ++ r :: after → r.material ≠ "Contact" → e ∈ r.elems →
        (∀ r' ∈ after, r'.material ≠ "Contact" → e ∉ r'.elems) →
        d.regions.segments[e]? = some (r.name, r.material)) ∧
      (∀ e < f.segs.length, (∀ r ∈ f.regions, r.material ≠ "Contact" → e ∉ r.elems) →
        d.regions.segments[e]? = some ("", "")) ∧
      d.regions.names = (f.regions.filter fun r => r.material = "Contact").map (·.name) ∧
      ∀ (j : Nat) r, (f.regions.filter fun r => r.material = "Contact")[j]? = some r →
        ∃ faces, d.regions.groups[j]? = some faces ∧ List.Forall₂ f.ContactIs r.elems faces := by
  obtain ⟨polys, h1, h2⟩ := data_reads ofInt hf h
  have hlen : f.segs.length = polys.length := h1.length_eq
  rw [if_neg (by omega)] at h2
  refine ⟨_, h2, rfl, rfl, ?_, ?_, ?_, ?_, ?_, ?_⟩
  · have hall : ∀ {l : List (List Int)} {m : List (List (List Int))}, (∀ s ∈ l, s ∈ f.segs) →
        List.Forall₂ (fun s ps => List.Forall₂ (FacePolygon f.edges f.faces) s ps) l m →
        List.Forall₂ (fun s ps => List.Forall₂ (fun i (p : List Int) => ∃ k face, RefersTo i k ∧
          f.faces[k]? = some face ∧ p.Nodup ∧ ∀ v, v ∈ p ↔ IsEnd f.edges face v) s ps) l m := by
      intro l m hl hm
      induction hm with
      | nil => exact .nil
      | @cons s ps l m hs _ ih =>
        refine .cons ?_ (ih fun s' h' => hl s' (by simp [h']))
        have hin : ∀ {l' : List Int} {m' : List (List Int)}, (∀ i ∈ l', i ∈ s) →
            List.Forall₂ (FacePolygon f.edges f.faces) l' m' →
            List.Forall₂ (fun i (p : List Int) => ∃ k face, RefersTo i k ∧
              f.faces[k]? = some face ∧ p.Nodup ∧ ∀ v, v ∈ p ↔ IsEnd f.edges face v) l' m' := by
          intro l' m' hl' hm'
          induction hm' with
          | nil => exact .nil
          | cons hi _ ih' =>
            obtain ⟨k, face, h3, h4, h5, h6, -⟩ := facePolygon_face hf (hl s (by simp)) (hl' _ (by simp)) hi
            exact .cons ⟨k, face, h3, h4, h5, h6⟩ (ih' fun i' h' => hl' i' (by simp [h']))
        exact hin (fun _ h' => h') hs
    exact hall (fun _ h' => h') h1
  · show (f.regions.foldl (regStep f.edges ⟨polys, f.contacts⟩) _).segments.length = _
    rw [regSteps_segments_length]
    simp [hlen]
  · intro e before r after h3 h4 h5 h6
    show (f.regions.foldl (regStep f.edges ⟨polys, f.contacts⟩) _).segments[e]? = _
    rw [h3, List.foldl_append, List.foldl_cons, regSteps_other _ h6]
    refine regStep_mem h4 h5 ?_
    rw [regSteps_segments_length]
    have := hf.regions r (by simp [h3])
    rw [if_neg h4] at this
    have := this e h5
    simp only [List.length_replicate]
    omega
  · intro e he h3
    show (f.regions.foldl (regStep f.edges ⟨polys, f.contacts⟩) _).segments[e]? = _
    rw [regSteps_other _ h3]
    rw [List.getElem?_replicate, if_pos (by omega)]
  · show (f.regions.foldl (regStep f.edges ⟨polys, f.contacts⟩) _).names = _
    rw [regSteps_names]
    rfl
  · intro j r hr
    have hmem := List.mem_of_getElem? hr
    rw [List.mem_filter] at hmem
    have hreg := hf.regions r hmem.1
    rw [if_pos (by simpa using hmem.2)] at hreg
    have henough := hf.enough.resolve_left (by omega)
    have := (regSteps_groups (edges := f.edges) (E := ⟨polys, f.contacts⟩) (rs := f.regions)
      (R := ⟨List.replicate polys.length ("", ""), [], List.replicate (f.regions.length - polys.length) []⟩)
      (by simp only [contactCount, List.length_nil, List.length_replicate]; omega)
      (fun j x _ hx => by
        rw [List.getElem?_replicate] at hx
        split at hx
        · exact (Option.some.inj hx).symm
        · cases hx)).2 j r hr
    simp only [List.length_nil, Nat.zero_add] at this
    refine ⟨_, this, ?_⟩
    rw [List.forall₂_map_right_iff, List.forall₂_same]
    intro e he
    obtain ⟨h3, c, h4, h5⟩ := hreg e he
    obtain ⟨p, h6, h7, h8⟩ := bndCorners_spec h5 List.nodup_nil
    refine ⟨c, h4, ?_⟩
    have : contactOf f.edges ⟨polys, f.contacts⟩ e = p := by
      unfold contactOf
      simp only
      rw [← hlen, h4, Option.bind_some, h6]
      rfl
    rw [this]
    exact ⟨h7, fun v => by rw [h8]; simp⟩

/-- **C85**, partial: a file of dimension 3 is rejected with an exception if the points of the mesh have another
dimension, or if some face of a polyhedron is no triangle.  The full claim is that every malformed file is rejected with
an exception; this fails, see `C85_violated_hangs`, `C85_violated_type` and `C85_violated_index`. -/
theorem C85_rejected_partial [DecidableEq C] (ofInt : Int → C) {f : BndFile C} (hf : f.OK) {ls : BLines C}
    (h : f.ShownBy ls) {dim : Nat} (hbad : dim ≠ 3 ∨ ¬ f.Triangulated) : readBnd ofInt dim ls = .error .throws := by
  obtain ⟨polys, h1, h2⟩ := data_reads ofInt hf h
  unfold readBnd
  rw [h2]
  simp only
  by_cases hd : dim = 3
  · rw [if_neg (by simp [hd])]
    have ht : ¬ f.Triangulated := hbad.resolve_left (by simp [hd])
    rw [bndSegments_throws (points := f.points.map (·.map (coordVal ofInt))) ?_ ?_ (bInv_empty _)]
    · rfl
    · intro d hd' p hp
      obtain ⟨g, hg⟩ := List.mem_iff_getElem?.1 hd'
      obtain ⟨face, h4, h5, h6, h8⟩ := polygon_face hf h1 hg hp
      exact ⟨h5, by simpa using h8⟩
    · by_contra hno
      apply ht
      intro g face hg
      obtain ⟨d, p, h3, h4, h5, h6⟩ := face_polygon hf h1 hg
      have h7 : p.length = 3 := by
        by_contra h'
        exact hno ⟨d, List.mem_of_getElem? h3, p, h4, h'⟩
      obtain ⟨face', h8, h9, h10, h11⟩ := polygon_face hf h1 h3 h4
      match p, h7 with
      | [x, y, z], _ =>
        have hx := h11 x (by simp)
        have hy := h11 y (by simp)
        have hz := h11 z (by simp)
        simp only [List.nodup_cons, List.mem_cons, List.not_mem_nil, or_false, not_or] at h5
        refine ⟨x.toNat, y.toNat, z.toNat, by omega, by omega, by omega, fun v => ?_⟩
        rw [← h6]
        simp only [List.mem_cons, List.not_mem_nil, or_false]
        omega
  · rw [if_pos (fun h3 => hd h3.symm)]

/-- **C85** fails: a file without the word `dimension`, for example an empty one, makes the reader hang. -/
theorem C85_violated_hangs [DecidableEq C] (ofInt : Int → C) (dim : Nat) {ls : BLines C}
    (h : ∀ l ∈ ls, .word "dimension" ∉ l) : readBnd ofInt dim ls = .error .hangs := by
  have hs : ∀ {ls : BLines C}, (∀ l ∈ ls, BWord.word "dimension" ∉ l) →
      seekWord "dimension" ls = .error .hangs := by
    intro ls
    induction ls with
    | nil => exact fun _ => rfl
    | cons l ls ih =>
      intro h
      have : l.dropWhile (fun w => decide (w ≠ .word "dimension")) = [] := by
        rw [List.dropWhile_eq_nil_iff]
        intro w hw
        exact decide_eq_true fun h' => h l (by simp) (h' ▸ hw)
      rw [seekWord, this]
      exact ih fun l' h' => h l' (by simp [h'])
  unfold readBnd readBndData BndR.andThen
  rw [hs h]
  rfl

end VG
