import Verif.Lemmas.CopyElements
import Verif.Props.UniqueVertex
import Mathlib.Algebra.Order.Monoid.Defs
import Mathlib.Tactic.Linarith

/-!
C97 copying elements into a mesh, C98 copying piecewise linear complexes.
-/

namespace VG

variable {P K : Type} [LinearOrder K]

/-! ### Specification -/

/-- `dst'` is `dst` with the elements `L` of dimension `d` of `src` (each given by its vertices) added, the vertices
renamed by `φ`: nothing that was there is changed, a new vertex is at the point of a vertex used and stands for it,
each element is there with its vertices renamed, and there is no other new element of the dimension, none of a
higher dimension, and of a lower dimension only such whose vertices belong to one of the elements. -/
structure AddedTo (d : Nat) (src : Mesh P) (L : List (List Nat)) (dst dst' : Mesh P) (φ : Nat → Nat) : Prop where
  verts : dst.verts <+: dst'.verts
  elems : ∀ k, dst.elems k <+: dst'.elems k
  vertex : ∀ vs ∈ L, ∀ v ∈ vs, φ v < dst'.verts.length
  newVertex : ∀ i a, dst.verts.length ≤ i → dst'.verts[i]? = some a →
    ∃ vs ∈ L, ∃ v ∈ vs, ∃ b, src.verts[v]? = some b ∧ φ v = i ∧ a.pt = b.pt
  proper : ∀ vs ∈ L, (vs.map φ).Nodup
  present : ∀ vs ∈ L, ∃ e ∈ dst'.elems d, e.verts.Perm (vs.map φ)
  newElem : ∀ i e, (dst.elems d).length ≤ i → (dst'.elems d)[i]? = some e → ∃ vs ∈ L, e.verts = vs.map φ
  higher : ∀ k, d < k → dst'.elems k = dst.elems k
  lower : ∀ k i e, (dst.elems k).length ≤ i → (dst'.elems k)[i]? = some e → ∃ vs ∈ L, e.verts ⊆ vs.map φ

/-- The vertices of the elements are at least twice the tolerance apart, as far as they belong to one element. -/
def Apart [Add K] (dist : P → P → K) (tol : K) (src : Mesh P) (L : List (List Nat)) : Prop :=
  ∀ vs ∈ L, ∀ v ∈ vs, ∀ w ∈ vs, v ≠ w → ∀ a b, src.verts[v]? = some a → src.verts[w]? = some b →
    tol + tol ≤ dist a.pt b.pt

section
variable [AddCommGroup K] [IsOrderedAddMonoid K]

theorem Apart.keeps {dist : P → P → K} (hsymm : ∀ p q, dist p q = dist q p)
    (htri : ∀ p q r, dist p r ≤ dist p q + dist q r) {tol : K} {src : Mesh P} {L : List (List Nat)}
    (h : 0 < tol → Apart dist tol src L) {vs : List Nat} (hvs : vs ∈ L) : KeepsApart dist tol src vs := by
  intro ht m v w b b' i n0 hv hw hb hb' hp hp'
  by_contra hne
  obtain ⟨h1, h2, _⟩ := List.findIdx?_eq_some_iff_getElem.1 (hp.1 ht)
  obtain ⟨h3, h4, _⟩ := List.findIdx?_eq_some_iff_getElem.1 (hp'.1 ht)
  simp only [decide_eq_true_eq] at h2 h4
  have h5 := h ht vs hvs v hv w hw hne b b' hb hb'
  have h6 := htri b.pt (m.verts[i]).pt b'.pt
  rw [hsymm (m.verts[i]).pt b'.pt] at h6
  exact absurd (lt_of_le_of_lt (h5.trans h6) (add_lt_add h2 h4)) (lt_irrefl _)

/-- The elements copied, each given by its vertices. -/
def elemsOf (src : Mesh P) (d : Nat) (els : List Nat) : List (List Nat) := els.map (src.vertsOf d)

theorem elemsOf_ok {T T' : Topo} (hT' : LibTopo T') {d : Nat} {src : Mesh P} (hs : Built T' src) {els : List Nat}
    (hels : ∀ s ∈ els, s < (src.elems d).length ∧ T.Arity d (src.vertsOf d s).length) :
    ∀ vs ∈ elemsOf src d els, vs.Nodup ∧ T.Arity d vs.length ∧ ∀ v ∈ vs, v < src.verts.length := by
  intro vs hvs
  obtain ⟨s, hs', rfl⟩ := List.mem_map.1 hvs
  obtain ⟨h1, h2⟩ := hels s hs'
  have h3 := vertsOf_elem (List.getElem?_eq_getElem h1)
  have h4 := (hs.inv hT'.wf).verts d _ (List.getElem_mem h1)
  exact ⟨by rw [h3]; exact h4.1, h2, by rw [h3]; exact h4.2.2⟩

/-- C97: `copy_elements` adds the elements to the destination.  Each vertex used goes to the first vertex of the
result closer than the tolerance, so that the new vertices are those with no vertex that close before them; without
a positive tolerance each vertex goes to a new vertex of its own at the same point.  Cells are appended in order. -/
theorem C97_copy_elements {T T' : Topo} (hT : LibTopo T) (hT' : LibTopo T') {d : Nat} (hd1 : 1 ≤ d)
    (hd : d ≤ T.cellDim) {dist : P → P → K} (hself : ∀ p, dist p p = 0) (hsymm : ∀ p q, dist p q = dist q p)
    (htri : ∀ p q r, dist p r ≤ dist p q + dist q r) {tol : K} {src dst : Mesh P} (hs : Built T' src)
    (hb : BuiltGen T dst) {els : List Nat}
    (hels : ∀ s ∈ els, s < (src.elems d).length ∧ T.Arity d (src.vertsOf d s).length)
    (hap : 0 < tol → Apart dist tol src (elemsOf src d els)) :
    ∃ dst' φ, src.copyElementsTo T d dist tol els dst = some dst' ∧
      AddedTo d src (elemsOf src d els) dst dst' φ ∧ BuiltGen T dst' ∧
      (d = T.cellDim → (dst'.elems d).map (·.verts) =
        (dst.elems d).map (·.verts) ++ (elemsOf src d els).map (fun vs => vs.map φ)) ∧
      (0 < tol → ∀ vs ∈ elemsOf src d els, ∀ v ∈ vs, ∀ b, src.verts[v]? = some b →
        (∃ a, dst'.verts[φ v]? = some a ∧ dist b.pt a.pt < tol) ∧
        ∀ j a, j < φ v → dst'.verts[j]? = some a → tol ≤ dist b.pt a.pt) ∧
      (tol ≤ 0 → ∀ vs ∈ elemsOf src d els, ∀ v ∈ vs,
        dst.verts.length ≤ φ v ∧ (dst'.verts[φ v]?).map (·.pt) = (src.verts[v]?).map (·.pt) ∧
        ∀ ws ∈ elemsOf src d els, ∀ w ∈ ws, φ v = φ w → v = w) := by
  have hu : UniqueVids src := hs.choose_spec.2.2
  have hok := elemsOf_ok (T := T) hT' hs hels
  obtain ⟨c, h1, hg, he, _, _⟩ := glueElements_spec hT.wf hd1 hd hself (tol := tol) hu (GInv.init hb)
    (GElems.init (T := T) (d := d)) (L := elemsOf src d els)
    (fun vs hvs => ⟨hok vs hvs, Apart.keeps hsymm htri hap hvs⟩)
  rw [List.nil_append] at hg he
  have himg : ∀ vs ∈ elemsOf src d els, ∀ v ∈ vs, ∀ b, src.verts[v]? = some b →
      imgOf src c v = some (imgD src c v) ∧ Placed dist tol dst.verts.length c.dst b.pt (imgD src c v) := by
    intro vs hvs v hv b hb'
    obtain ⟨i, hi⟩ := he.img vs hvs v hv
    rw [imgD_of hi]
    exact ⟨hi, (hg.known v b i hb' hi).2⟩
  have hget : ∀ vs ∈ elemsOf src d els, ∀ v ∈ vs, ∃ b, src.verts[v]? = some b :=
    fun vs hvs v hv => ⟨_, List.getElem?_eq_getElem ((hok vs hvs).2.2 v hv)⟩
  have hinj : tol ≤ 0 → ∀ vs ∈ elemsOf src d els, ∀ v ∈ vs, ∀ ws ∈ elemsOf src d els, ∀ w ∈ ws,
      imgD src c v = imgD src c w → v = w := by
    intro ht vs hvs v hv ws hws w hw hvw
    obtain ⟨b, hb1⟩ := hget vs hvs v hv
    obtain ⟨b', hb2⟩ := hget ws hws w hw
    have h2 := (himg vs hvs v hv b hb1).1
    have h3 := (himg ws hws w hw b' hb2).1
    rw [← hvw] at h3
    exact hg.inj ht v w _ ((hok vs hvs).2.2 v hv) ((hok ws hws).2.2 w hw) h2 h3
  refine ⟨c.dst, imgD src c, ?_, ⟨hg.pre, he.pre, ?_, ?_, ?_, he.present, he.new, he.higher, he.sub⟩, hg.built, he.cells,
    ?_, ?_⟩
  · unfold Mesh.copyElementsTo
    rw [show els.map (src.vertsOf d) = elemsOf src d els from rfl, h1]; rfl
  · intro vs hvs v hv
    obtain ⟨b, hb'⟩ := hget vs hvs v hv
    exact (himg vs hvs v hv b hb').2.lt
  · intro i a hi ha
    obtain ⟨v, hv, b, h2, h3, h4⟩ := hg.new i a hi ha
    obtain ⟨vs, hvs, hv'⟩ := List.mem_flatten.1 hv
    exact ⟨vs, hvs, v, hv', b, h2, imgD_of h3, h4⟩
  · intro vs hvs
    refine (List.nodup_map_iff_inj_on (hok vs hvs).1).2 (fun v hv w hw hvw => ?_)
    rcases lt_or_ge 0 tol with ht | ht
    · obtain ⟨b, hb1⟩ := hget vs hvs v hv
      obtain ⟨b', hb2⟩ := hget vs hvs w hw
      have h2 := (himg vs hvs v hv b hb1).2
      have h3 := (himg vs hvs w hw b' hb2).2
      rw [← hvw] at h3
      exact Apart.keeps hsymm htri hap hvs ht c.dst v w b b' _ _ hv hw hb1 hb2 h2 h3
    · exact hinj ht vs hvs v hv vs hvs w hw hvw
  · intro ht vs hvs v hv b hb'
    obtain ⟨h2, h3, h4⟩ := List.findIdx?_eq_some_iff_getElem.1 ((himg vs hvs v hv b hb').2.1 ht)
    refine ⟨⟨_, List.getElem?_eq_getElem h2, by simpa using h3⟩, fun j a hj ha => ?_⟩
    obtain ⟨h5, h6⟩ := List.getElem?_eq_some_iff.1 ha
    have := h4 j hj
    rw [h6] at this
    simpa using this
  · intro ht vs hvs v hv
    obtain ⟨b, hb'⟩ := hget vs hvs v hv
    obtain ⟨h2, a, h3, h4⟩ := (himg vs hvs v hv b hb').2.2 ht
    refine ⟨h2, by rw [h3, hb']; simp [h4], hinj ht vs hvs v hv⟩

omit [IsOrderedAddMonoid K] in
/-- C97: with a positive tolerance it makes no difference whether elements are copied in one call or in several:
what a later call adds is joined to what an earlier call added. -/
theorem C97_in_several_calls {T T' : Topo} (hT' : LibTopo T') {d : Nat} {dist : P → P → K}
    (hself : ∀ p, dist p p = 0) {tol : K} (ht : 0 < tol) {src : Mesh P} (hs : Built T' src) (dst : Mesh P)
    {els els' : List Nat} (hels : ∀ s ∈ els ++ els', s < (src.elems d).length) :
    src.copyElementsTo T d dist tol (els ++ els') dst =
      (src.copyElementsTo T d dist tol els dst).bind (src.copyElementsTo T d dist tol els') := by
  have hu : UniqueVids src := hs.choose_spec.2.2
  have hlt : ∀ L : List Nat, (∀ s ∈ L, s < (src.elems d).length) →
      ∀ vs ∈ L.map (src.vertsOf d), ∀ v ∈ vs, v < src.verts.length := by
    intro L hL vs hvs
    obtain ⟨s, hs', rfl⟩ := List.mem_map.1 hvs
    rw [vertsOf_elem (List.getElem?_eq_getElem (hL s hs'))]
    exact ((hs.inv hT'.wf).verts d _ (List.getElem_mem (hL s hs'))).2.2
  have hplain : ∀ L : List Nat, (∀ s ∈ L, s < (src.elems d).length) → ∀ m : Mesh P,
      src.copyElementsTo T d dist tol L m = plainElements T d dist tol src m (L.map (src.vertsOf d)) := by
    intro L hL m
    exact glueElements_plain (c := ⟨m, []⟩) hself ht hu (by intro v b i _ hi; simp [imgOf] at hi) (hlt L hL)
  rw [hplain _ hels, List.map_append, plainElements_append,
    hplain els (fun s h => hels s (List.mem_append_left _ h))]
  congr 1
  funext m
  exact (hplain els' (fun s h => hels s (List.mem_append_right _ h)) m).symm

end

/-! ### Concrete cases of C97 -/

theorem dist1_triangle (p q r : Rat) : dist1 p r ≤ dist1 p q + dist1 q r := by
  unfold dist1
  rcases le_total (p - q) (q - p) with h1 | h1 <;> rcases le_total (q - r) (r - q) with h2 | h2 <;>
    rcases le_total (p - r) (r - p) with h3 | h3 <;> simp only [max_eq_left, max_eq_right, h1, h2, h3] <;> linarith

/-- Three lines in a row. -/
def rowOps : List (MOp Rat) :=
  [.vertex none 0, .vertex none 10, .vertex none 20, .vertex none 30, .elem 1 [0, 1], .elem 1 [1, 2], .elem 1 [2, 3]]

def rowMesh : Mesh Rat := (Mesh.empty.run (simplexTopo 1) rowOps).getD Mesh.empty

/-- A destination with a vertex close to one of them. -/
def rowDst : Mesh Rat := (Mesh.empty.run (simplexTopo 1) [.vertex none 50, .vertex none 21, .elem 1 [0, 1]]).getD Mesh.empty

/-- The second and the third line are copied with a tolerance of 2: vertex 1 of the destination is used for the common
vertex. -/
example : ((rowMesh.copyElementsTo (simplexTopo 1) 1 dist1 2 [1, 2] rowDst).map
    (fun m => (m.verts.map (·.pt), (m.elems 1).map (·.verts)))) =
    some ([50, 21, 10, 30], [[0, 1], [2, 1], [1, 3]]) := by decide +kernel

/-- Without a tolerance it is not. -/
example : ((rowMesh.copyElementsToDefault (simplexTopo 1) 1 dist1 [1, 2] rowDst).map
    (fun m => (m.verts.map (·.pt), (m.elems 1).map (·.verts)))) =
    some ([50, 21, 10, 20, 30], [[0, 1], [2, 3], [3, 4]]) := by decide +kernel

theorem rowMesh_built : Built (simplexTopo 1) rowMesh :=
  ⟨rowOps, by simp [rowOps, MOp.Distinct], rfl, by unfold UniqueVids; decide⟩

theorem rowDst_built : BuiltGen (simplexTopo 1) rowDst :=
  ⟨[.vertex none 50, .vertex none 21, .elem 1 [0, 1]], by simp [MOp.Distinct, MOp.Generated], rfl⟩

theorem row_apart : Apart dist1 2 rowMesh (elemsOf rowMesh 1 [1, 2]) := by
  have h1 : elemsOf rowMesh 1 [1, 2] = [[1, 2], [2, 3]] := by decide
  have h2 : rowMesh.verts = [⟨0, 0⟩, ⟨1, 10⟩, ⟨2, 20⟩, ⟨3, 30⟩] := rfl
  rw [h1]
  unfold Apart
  rw [h2]
  intro vs hvs v hv w hw hne a b ha hb
  simp only [List.mem_cons, List.not_mem_nil, or_false] at hvs
  rcases hvs with rfl | rfl <;> simp only [List.mem_cons, List.not_mem_nil, or_false] at hv hw <;>
    rcases hv with rfl | rfl <;> rcases hw with rfl | rfl <;> simp_all <;> subst ha hb <;> decide +kernel

/-- The hypotheses of `C97_copy_elements` are met. -/
example := C97_copy_elements (T := simplexTopo 1) (T' := simplexTopo 1) (Or.inl ⟨1, rfl⟩) (Or.inl ⟨1, rfl⟩) (d := 1)
  (le_refl _) (by decide) (dist := dist1) (fun p => by simp [dist1]) (fun p q => by simp [dist1, max_comm])
  dist1_triangle (tol := 2) rowMesh_built rowDst_built (els := [1, 2]) (by decide) (fun _ => row_apart)

/-- C97, twice the tolerance is needed: the ends of the line are further apart than the tolerance, but both are close to
one vertex of the destination; the copy has that vertex twice. -/
theorem C97_needs_apart :
    (dist1 0 10 > 6) ∧
    ((rowMesh.copyElementsTo (simplexTopo 1) 1 dist1 6 [0] (pointsMesh [5])).map
      (fun m => (m.verts.map (·.pt), (m.elems 1).map (·.verts)))) = some ([5], [[0, 0]]) := by
  constructor <;> decide +kernel

/-- C97, several calls without a positive tolerance: lines that share a vertex do not share it when copied in two calls. -/
theorem C97_several_calls_no_tolerance :
    ((rowMesh.copyElementsToDefault (simplexTopo 1) 1 dist1 [0] Mesh.empty).bind
      (rowMesh.copyElementsToDefault (simplexTopo 1) 1 dist1 [1])).map (fun m => (m.elems 1).map (·.verts)) =
      some [[0, 1], [2, 3]] ∧
    (rowMesh.copyElementsToDefault (simplexTopo 1) 1 dist1 [0, 1] Mesh.empty).map
      (fun m => (m.elems 1).map (·.verts)) = some [[0, 1], [1, 2]] := by
  constructor <;> decide +kernel

/-! ### C98 -/

section
variable [AddCommGroup K] [IsOrderedAddMonoid K] {C : Type}

/-- The lines of the complexes, each given by its ends. -/
def linesOf (src : Mesh (List C)) (ps : List (Plc C)) : List (List Nat) :=
  ps.flatMap (fun p => p.lines.map (src.vertsOf 1))

/-- The copy `q` of a complex `p`: lines and the vertices of lines are renamed, each is there once. -/
structure PlcCopied (src : Mesh (List C)) (p q : Plc C) (φ ψ : Nat → Nat) : Prop where
  lines : ∀ x, x ∈ q.lines ↔ ∃ l ∈ p.lines, ψ l = x
  verts : ∀ x, x ∈ q.verts ↔ ∃ l ∈ p.lines, ∃ e, (src.elems 1)[l]? = some e ∧ ∃ v ∈ e.verts, φ v = x
  linesOnce : q.lines.Nodup
  vertsOnce : q.verts.Nodup

theorem insUnique_of_nodup : ∀ (hs l : List Nat), (l ++ hs).Nodup → insUnique l hs = l ++ hs
  | [], l, _ => by simp [insUnique]
  | x :: hs, l, h => by
    have hx : x ∉ l := by
      intro hx
      exact (List.nodup_append.1 h).2.2 x hx x (by simp) rfl
    rw [insUnique, if_neg hx, insUnique_of_nodup hs (l ++ [x]) (by simpa using h)]
    simp

/-- C98.  Full statement: copying piecewise linear complexes gives complexes with the same lines, the same vertices and
the same hole points, vertices and lines renamed.  That is false, see `C98_violated`.  Proved: lines and their ends
are copied, each line and each vertex once for all complexes (and vertices within the tolerance are joined); loose
vertices and hole points are lost, so a complex whose vertices all belong to its lines and which has no hole points is
copied completely. -/
theorem C98_copy_plcs_partial {dist : List C → List C → K} (hself : ∀ p, dist p p = 0)
    (hsymm : ∀ p q, dist p q = dist q p) (htri : ∀ p q r, dist p r ≤ dist p q + dist q r) {tol : K}
    {src dst : Mesh (List C)} (hs : Built (simplexTopo 2) src) (hb : BuiltGen (simplexTopo 2) dst)
    {ps : List (Plc C)} (hps : ∀ p ∈ ps, ∀ l ∈ p.lines, l < (src.elems 1).length)
    (hap : 0 < tol → Apart dist tol src (linesOf src ps)) :
    ∃ dst' qs φ ψ, copyPlcs dist tol src ps dst = some (dst', qs) ∧ BuiltGen (simplexTopo 2) dst' ∧
      dst.verts <+: dst'.verts ∧ (∀ k, dst.elems k <+: dst'.elems k) ∧
      (∀ i a, dst.verts.length ≤ i → dst'.verts[i]? = some a →
        ∃ vs ∈ linesOf src ps, ∃ v ∈ vs, ∃ b, src.verts[v]? = some b ∧ φ v = i ∧ a.pt = b.pt) ∧
      (∀ i f, (dst.elems 1).length ≤ i → (dst'.elems 1)[i]? = some f → ∃ p ∈ ps, ∃ l ∈ p.lines, ψ l = i) ∧
      (∀ p ∈ ps, ∀ l ∈ p.lines, ∃ e f, (src.elems 1)[l]? = some e ∧ (dst'.elems 1)[ψ l]? = some f ∧
        f.verts.Perm (e.verts.map φ)) ∧
      (0 < tol → ∀ vs ∈ linesOf src ps, ∀ v ∈ vs, ∀ b, src.verts[v]? = some b →
        ∃ a, dst'.verts[φ v]? = some a ∧ dist b.pt a.pt < tol) ∧
      (tol ≤ 0 → ∀ vs ∈ linesOf src ps, ∀ v ∈ vs,
        dst.verts.length ≤ φ v ∧ (dst'.verts[φ v]?).map (·.pt) = (src.verts[v]?).map (·.pt) ∧
        ∀ ws ∈ linesOf src ps, ∀ w ∈ ws, φ v = φ w → v = w) ∧
      List.Forall₂ (fun p q => PlcCopied src p q φ ψ ∧ q.holes = [] ∧
        (tol ≤ 0 → p.lines.Nodup → q.lines = p.lines.map ψ)) ps qs := by
  have hu : UniqueVids src := hs.choose_spec.2.2
  have hI := hs.inv (simplexTopo_wf 2)
  have hmem : ∀ p ∈ ps, ∀ l ∈ p.lines, ∀ e, (src.elems 1)[l]? = some e → e.verts ∈ linesOf src ps := by
    intro p hp l hl e he
    refine List.mem_flatMap.2 ⟨p, hp, List.mem_map.2 ⟨l, hl, vertsOf_elem he⟩⟩
  obtain ⟨c, used, qs, h1, hi, hk, hq, _⟩ := plcAll_spec hself (tol := tol) hu hI (PInv.init hb) (ps := ps)
    (fun p hp l hl => ⟨_, List.getElem?_eq_getElem (hps p hp l hl),
      Apart.keeps hsymm htri hap (hmem p hp l hl _ (List.getElem?_eq_getElem (hps p hp l hl)))⟩)
  rw [List.nil_append] at hi
  set φ := imgD src ⟨c.dst, c.vmap⟩ with hφ
  set ψ := limgD src c with hψ
  have hline : ∀ p ∈ ps, ∀ l ∈ p.lines, ∃ e f, (src.elems 1)[l]? = some e ∧ (c.dst.elems 1)[ψ l]? = some f ∧
      f.verts.Perm (e.verts.map φ) := by
    intro p hp l hl
    obtain ⟨e, i, h2, h3⟩ := hk p hp l hl
    obtain ⟨_, _, f, h4, h5⟩ := hi.line l e i h2 h3
    exact ⟨e, f, h2, by rw [hψ, limgD_of h2 h3]; exact h4, h5⟩
  have himg : ∀ vs ∈ linesOf src ps, ∀ v ∈ vs, v < src.verts.length ∧ ∀ b, src.verts[v]? = some b →
      imgOf src ⟨c.dst, c.vmap⟩ v = some (φ v) ∧ Placed dist tol dst.verts.length c.dst b.pt (φ v) := by
    intro vs hvs v hv
    obtain ⟨p, hp, hvs⟩ := List.mem_flatMap.1 hvs
    obtain ⟨l, hl, rfl⟩ := List.mem_map.1 hvs
    obtain ⟨e, i, h2, h3⟩ := hk p hp l hl
    rw [vertsOf_elem h2] at hv
    obtain ⟨j, hj⟩ := (hi.line l e i h2 h3).2.1 v hv
    refine ⟨(hI.verts 1 e (List.mem_of_getElem? h2)).2.2 v hv, fun b hb' => ?_⟩
    rw [hφ, imgD_of hj]
    exact ⟨hj, (hi.vert.known v b j hb' hj).2⟩
  have hinj : tol ≤ 0 → ∀ vs ∈ linesOf src ps, ∀ v ∈ vs, ∀ ws ∈ linesOf src ps, ∀ w ∈ ws, φ v = φ w → v = w := by
    intro ht vs hvs v hv ws hws w hw hvw
    obtain ⟨h2, h3⟩ := himg vs hvs v hv
    obtain ⟨h4, h5⟩ := himg ws hws w hw
    have h6 := (h3 _ (List.getElem?_eq_getElem h2)).1
    have h7 := (h5 _ (List.getElem?_eq_getElem h4)).1
    rw [← hvw] at h7
    exact hi.vert.inj ht v w _ h2 h4 h6 h7
  refine ⟨c.dst, qs, φ, ψ, by unfold copyPlcs; rw [h1]; rfl, hi.vert.built, hi.vert.pre, hi.pre, ?_, ?_, hline, ?_, ?_, ?_⟩
  · intro i a hia ha
    obtain ⟨v, hv, b, h2, h3, h4⟩ := hi.vert.new i a hia ha
    obtain ⟨l, hl, e, h5, h6⟩ := hi.vfrom v hv
    obtain ⟨p, hp, hl'⟩ := List.mem_flatMap.1 hl
    exact ⟨e.verts, hmem p hp l hl' e h5, v, h6, b, h2, imgD_of h3, h4⟩
  · intro i f hif hf
    obtain ⟨l, hl, e, h5, h6⟩ := hi.new i f hif hf
    obtain ⟨p, hp, hl'⟩ := List.mem_flatMap.1 hl
    exact ⟨p, hp, l, hl', limgD_of h5 h6⟩
  · intro ht vs hvs v hv b hb'
    obtain ⟨h2, h3, _⟩ := List.findIdx?_eq_some_iff_getElem.1 ((((himg vs hvs v hv).2 b hb').2).1 ht)
    exact ⟨_, List.getElem?_eq_getElem h2, by simpa using h3⟩
  · intro ht vs hvs v hv
    obtain ⟨h2, h3⟩ := himg vs hvs v hv
    have hb' := List.getElem?_eq_getElem h2
    obtain ⟨h4, a, h5, h6⟩ := (h3 _ hb').2.2 ht
    exact ⟨h4, by rw [h5, hb']; simp [h6], hinj ht vs hvs v hv⟩
  · rw [hq, List.forall₂_map_right_iff]
    refine List.forall₂_same.2 (fun p hp => ?_)
    have hlm : ∀ x, x ∈ insUnique [] (p.lines.map ψ) ↔ ∃ l ∈ p.lines, ψ l = x := by
      intro x
      rw [mem_insUnique]
      simp
    refine ⟨⟨hlm, ?_, nodup_insUnique _ _ List.nodup_nil, nodup_insUnique _ _ (nodup_insUnique _ _ List.nodup_nil)⟩, rfl, ?_⟩
    · intro x
      show x ∈ insUnique (insUnique [] []) ((insUnique [] (p.lines.map ψ)).flatMap (c.dst.vertsOf 1)) ↔ _
      rw [mem_insUnique, mem_insUnique, List.mem_flatMap]
      simp only [List.not_mem_nil, or_self, false_or]
      constructor
      · rintro ⟨y, hy, hx⟩
        obtain ⟨l, hl, rfl⟩ := (hlm y).1 hy
        obtain ⟨e, f, h2, h3, h4⟩ := hline p hp l hl
        rw [vertsOf_elem h3] at hx
        obtain ⟨v, hv, hvx⟩ := List.mem_map.1 (h4.mem_iff.1 hx)
        exact ⟨l, hl, e, h2, v, hv, hvx⟩
      · rintro ⟨l, hl, e, h2, v, hv, rfl⟩
        obtain ⟨e', f, h2', h3, h4⟩ := hline p hp l hl
        rw [h2] at h2'
        cases h2'
        refine ⟨ψ l, (hlm _).2 ⟨l, hl, rfl⟩, ?_⟩
        rw [vertsOf_elem h3]
        exact h4.mem_iff.2 (List.mem_map.2 ⟨v, hv, rfl⟩)
    · intro ht hnd
      show insUnique [] (p.lines.map ψ) = p.lines.map ψ
      rw [insUnique_of_nodup _ [] ?_, List.nil_append]
      rw [List.nil_append]
      refine (List.nodup_map_iff_inj_on hnd).2 (fun l hl l' hl' hll => ?_)
      obtain ⟨e, f, h2, h3, h4⟩ := hline p hp l hl
      obtain ⟨e', f', h2', h3', h4'⟩ := hline p hp l' hl'
      rw [hll, h3'] at h3
      cases h3
      have hperm : e.verts.Perm e'.verts := by
        refine (List.perm_ext_iff_of_nodup (hI.verts 1 e (List.mem_of_getElem? h2)).1
          (hI.verts 1 e' (List.mem_of_getElem? h2')).1).2 (fun v => ?_)
        have h5 := h4.symm.trans h4'
        constructor
        · intro hv
          obtain ⟨w, hw, hwv⟩ := List.mem_map.1 (h5.mem_iff.1 (List.mem_map.2 ⟨v, hv, rfl⟩))
          rwa [hinj ht _ (hmem p hp l hl e h2) v hv _ (hmem p hp l' hl' e' h2') w hw hwv.symm]
        · intro hv
          obtain ⟨w, hw, hwv⟩ := List.mem_map.1 (h5.mem_iff.2 (List.mem_map.2 ⟨v, hv, rfl⟩))
          rwa [hinj ht _ (hmem p hp l' hl' e' h2') v hv _ (hmem p hp l hl e h2) w hw hwv.symm]
      by_contra hne
      obtain ⟨hlt, he⟩ := List.getElem?_eq_some_iff.1 h2
      obtain ⟨hlt', he'⟩ := List.getElem?_eq_some_iff.1 h2'
      have hpw := List.pairwise_iff_getElem.1 (hI.unique 1 (by decide))
      rcases lt_or_gt_of_ne hne with hlt1 | hlt1
      · exact hpw l l' hlt hlt' hlt1 (by rw [he, he']; exact hperm)
      · exact hpw l' l hlt' hlt hlt1 (by rw [he, he']; exact hperm.symm)

end

/-- A triangle of lines with a further vertex that belongs to no line. -/
def plcOps : List (MOp (List Rat)) :=
  [.vertex none [0, 0], .vertex none [8, 0], .vertex none [0, 8], .vertex none [2, 2],
   .elem 1 [0, 1], .elem 1 [1, 2], .elem 1 [2, 0]]

def plcMesh : Mesh (List Rat) := (Mesh.empty.run (simplexTopo 2) plcOps).getD Mesh.empty

/-- The distance of the first coordinates plus that of the second. -/
def distSum (p q : List Rat) : Rat := dist1 (p.getD 0 0) (q.getD 0 0) + dist1 (p.getD 1 0) (q.getD 1 0)

/-- The complex with the three lines, the loose vertex and a hole. -/
def plcFull : Plc Rat := makePlc plcMesh [0, 1, 2] [3] [[1, 1]]

/-- The complex with two of the lines only. -/
def plcPart : Plc Rat := makePlc plcMesh [1, 2] [] []

theorem plcMesh_built : Built (simplexTopo 2) plcMesh :=
  ⟨plcOps, by simp [plcOps, MOp.Distinct], rfl, by unfold UniqueVids; decide⟩

/-- C98 violated: the complex has four vertices and a hole point, its copy three and none; the mesh copied to has no vertex
at the point of the fourth. -/
theorem C98_violated :
    plcFull.verts.map (fun v => (plcMesh.ptOf v).getD []) = [[2, 2], [0, 0], [8, 0], [0, 8]] ∧
    plcFull.holes = [[1, 1]] ∧
    (copyPlcs distSum (-1) plcMesh [plcFull] Mesh.empty).map (fun r => r.1.verts.map (·.pt)) =
      some [[0, 0], [8, 0], [0, 8]] ∧
    (copyPlcs distSum (-1) plcMesh [plcFull] Mesh.empty).map (fun r => r.2.map (fun q => (q.verts, q.holes))) =
      some [([0, 1, 2], [])] := by
  refine ⟨by decide +kernel, rfl, by decide +kernel, by decide +kernel⟩

/-- Two complexes with common lines: their copies have common lines. -/
example : (copyPlcs distSum (-1) plcMesh [plcFull, plcPart] Mesh.empty).map (fun r => ((r.1.elems 1).map (·.verts), r.2.map
      (fun q => (q.lines, q.verts)))) =
    some ([[0, 1], [1, 2], [2, 0]], [([0, 1, 2], [0, 1, 2]), ([1, 2], [1, 2, 0])]) := by decide +kernel

/-- The hypotheses of `C98_copy_plcs_partial` are met. -/
example := C98_copy_plcs_partial (dist := distSum) (fun p => by simp [distSum, dist1])
  (fun p q => by simp [distSum, dist1, max_comm]) (fun p q r => by
    have h1 := dist1_triangle (p.getD 0 0) (q.getD 0 0) (r.getD 0 0)
    have h2 := dist1_triangle (p.getD 1 0) (q.getD 1 0) (r.getD 1 0)
    unfold distSum; linarith) (tol := -1) plcMesh_built (dst := Mesh.empty) ⟨[], by simp, rfl⟩
  (ps := [plcFull, plcPart]) (by decide +kernel) (fun h => absurd h (by decide +kernel))

end VG
