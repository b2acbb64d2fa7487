import Verif.Model.Mphtxt
import Verif.Props.Segments
import Verif.Props.ViewQueries
import Verif.Props.VoronoiTetsSpec

/-!
Notions for the statements about the writer of Comsol files.
-/

namespace VG

variable {P : Type}

/-- A mesh of tetrahedra with segments after any history; each view of a segment with its caches is in a state reached
by some history of changes and queries (without `handle_mesh`, see C15), and lists the elements of the segment. -/
structure MphSrc.Ready (S : MphSrc P) : Prop where
  reached : SegReached (simplexTopo 3) S.st
  seg : ∀ g ∈ S.gs, MVReached (simplexTopo 3) false ⟨S.st.mesh, S.seg g⟩
  same : ∀ g ∈ S.gs, ∀ k ≤ 3, (S.seg g).content k = S.st.view g k
  ids : ∀ v < S.st.mesh.count 0, 0 ≤ S.st.mesh.vid v

/-- The tetrahedron `c` is in segment `g` and has the triangle `t`. -/
def CellAt (st : SegState P) (g t c : Nat) : Prop := c ∈ st.view g 3 ∧ UsedBy (simplexTopo 3) st.mesh t c

/-- The triangle `t` is on the boundary of segment `g`: an odd number of tetrahedra of the segment have it. -/
def HullTri (st : SegState P) (g t : Nat) : Prop :=
  t ∈ st.view g 2 ∧ ∃ l : List Nat, l.Nodup ∧ (∀ c, c ∈ l ↔ CellAt st g t c) ∧ l.length % 2 = 1

/-- The triangles are on the boundary of a common segment, have a common vertex, are in the same segments, and their
normals count as parallel. -/
def FlatLink (S : MphSrc P) (t u : Nat) : Prop :=
  ∃ g ∈ S.gs, HullTri S.st g t ∧ HullTri S.st g u ∧ (∃ v, v ∈ S.st.mesh.vertsOf 2 t ∧ v ∈ S.st.mesh.vertsOf 2 u) ∧
    (∀ g', t ∈ S.st.view g' 2 ↔ u ∈ S.st.view g' 2) ∧ S.par t u = true

/-- No tetrahedron is in two segments, triangles of a segment belong to tetrahedra of it, and no triangle has more than
two tetrahedra. -/
structure SegParts (st : SegState P) : Prop where
  one : ∀ g g' c, c ∈ st.view g 3 → c ∈ st.view g' 3 → g = g'
  face : ∀ g t, t ∈ st.view g 2 → ∃ c, CellAt st g t c
  two : ∀ t a b c, UsedBy (simplexTopo 3) st.mesh t a → UsedBy (simplexTopo 3) st.mesh t b →
    UsedBy (simplexTopo 3) st.mesh t c → a = b ∨ a = c ∨ b = c

/-- The triangles on the boundary of a segment, in ascending order of their ids. -/
def Listed (S : MphSrc P) (ts : List Nat) : Prop :=
  ts.Pairwise (fun t u => S.st.mesh.eid 2 t < S.st.mesh.eid 2 u) ∧ ∀ t, t ∈ ts ↔ ∃ g ∈ S.gs, HullTri S.st g t

/-- The writer with the decisions computed from the points of the mesh. -/
noncomputable def MphSrc.ofPoints (st : SegState (Fin 3 → ℝ)) (seg : Nat → VC) (gs : List Nat) : MphSrc (Fin 3 → ℝ) :=
  ⟨st, seg, gs, normalsParallel st.mesh, pointsAway st.mesh⟩

/-- The normals of the triangles include an angle whose cosine is above `1 - 1e-6` up to sign. -/
def NearlyParallel (m : Mesh (Fin 3 → ℝ)) (t u : Nat) : Prop :=
  ∃ a b w a' b' w', m.vertsOf 2 t = [a, b, w] ∧ m.vertsOf 2 u = [a', b', w'] ∧
    let n := crossProd (m.at0 b - m.at0 a) (m.at0 w - m.at0 a)
    let n' := crossProd (m.at0 b' - m.at0 a') (m.at0 w' - m.at0 a')
    (1 - 1 / 10 ^ 6) ^ 2 * ((∑ i, n i ^ 2) * ∑ i, n' i ^ 2) < (∑ i, n i * n' i) ^ 2

/-- The triangles are on the boundary of a common segment, have a common vertex, are in the same segments, and are
nearly parallel. -/
def SideBySide (st : SegState (Fin 3 → ℝ)) (gs : List Nat) (t u : Nat) : Prop :=
  ∃ g ∈ gs, HullTri st g t ∧ HullTri st g u ∧ (∃ v, v ∈ st.mesh.vertsOf 2 t ∧ v ∈ st.mesh.vertsOf 2 u) ∧
    (∀ g', t ∈ st.view g' 2 ↔ u ∈ st.view g' 2) ∧ NearlyParallel st.mesh t u

/-- Triangles side by side are on the boundary of the same segments. -/
def SameHulls (st : SegState (Fin 3 → ℝ)) (gs : List Nat) : Prop :=
  ∀ t u, SideBySide st gs t u → ∀ g ∈ gs, HullTri st g t → HullTri st g u

/-- The fourth vertex of the tetrahedron `c` is on the side of the triangle `t` from which the normal points away. -/
def Behind (m : Mesh (Fin 3 → ℝ)) (t c : Nat) : Prop :=
  ∃ a b w p, m.vertsOf 2 t = [a, b, w] ∧ (m.vertsOf 3 c).Perm [a, b, w, p] ∧ offPlane m a b w (m.at0 p) < 0

/-- The fourth vertex of the tetrahedron `c` is on the side of the triangle `t` to which the normal points. -/
def InFront (m : Mesh (Fin 3 → ℝ)) (t c : Nat) : Prop :=
  ∃ a b w p, m.vertsOf 2 t = [a, b, w] ∧ (m.vertsOf 3 c).Perm [a, b, w, p] ∧ 0 < offPlane m a b w (m.at0 p)

/-- No tetrahedron is flat, and two tetrahedra at a triangle are on different sides of it. -/
structure NoOverlap (m : Mesh (Fin 3 → ℝ)) : Prop where
  solid : ∀ t c, UsedBy (simplexTopo 3) m t c → Behind m t c ∨ InFront m t c
  sides : ∀ t c c', UsedBy (simplexTopo 3) m t c → UsedBy (simplexTopo 3) m t c' → c ≠ c' →
    (Behind m t c ↔ InFront m t c')

end VG
