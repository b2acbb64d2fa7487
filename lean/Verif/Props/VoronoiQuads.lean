import Verif.Lemmas.VoronoiCells

/-!
C69 `apply_voronoi` for lines, C70 for quadrilaterals in the plane.
-/

namespace VG

/-! ### Lines -/

section Lines
variable {d : Nat}

/-- Half the length of the line for each of its end points. -/
noncomputable def lineShare (m : Mesh (Fin d → ℝ)) (s c : Nat) : ℝ :=
  ((m.vertsOf 1 c).map fun v => if v = s then eucl (m.at0 ((m.vertsOf 1 c).getD 0 0)) (m.at0 ((m.vertsOf 1 c).getD 1 0)) / 2 else 0).sum

theorem volumeLine_eucl (p q : Fin d → ℝ) : volumeLine p q = eucl p q := by
  unfold volumeLine euclNorm eucl
  rw [sumSquares_eq]
  unfold innerProd
  congr 1
  refine Finset.sum_congr rfl fun i _ => ?_
  rw [Pi.sub_apply]; ring

/-- The state after the first `n` lines. -/
theorem lines_spec (m : Mesh (Fin d → ℝ)) (h2 : ∀ c < m.count 1, (m.vertsOf 1 c).length = 2) (v : VoroSt) (n : Nat)
    (hn : n ≤ m.count 1) :
    let r := (List.range n).foldl (fun v c => (voroLine m c).foldl VoroSt.write v) v
    ∀ s,
      r.total .area s = (if s < n then 1 else v.total .area s)
      ∧ r.parts .area s = v.parts .area s ++ (if s < n then [(s, 1)] else [])
      ∧ r.total .ebox s = (if s < n then eucl (m.at0 ((m.vertsOf 1 s).getD 0 0)) (m.at0 ((m.vertsOf 1 s).getD 1 0))
          else v.total .ebox s)
      ∧ r.parts .ebox s = v.parts .ebox s
          ++ (if s < n then [(s, eucl (m.at0 ((m.vertsOf 1 s).getD 0 0)) (m.at0 ((m.vertsOf 1 s).getD 1 0)))] else [])
      ∧ r.total .vbox s = v.total .vbox s + ∑ c ∈ Finset.range n, lineShare m s c
      ∧ r.parts .vbox s = v.parts .vbox s ++ (List.range n).flatMap fun c =>
          (m.vertsOf 1 c).filterMap fun w => if w = s then
            some (c, eucl (m.at0 ((m.vertsOf 1 c).getD 0 0)) (m.at0 ((m.vertsOf 1 c).getD 1 0)) / 2) else none := by
  induction n with
  | zero => intro r s; simp [r]
  | succ n ih =>
    intro r s
    obtain ⟨i1, i2, i3, i4, i5, i6⟩ := ih (by omega) s
    have hl := h2 n (by omega)
    simp only [r, List.range_succ, List.foldl_append, List.foldl_cons, List.foldl_nil]
    generalize (List.range n).foldl (fun v c => (voroLine m c).foldl VoroSt.write v) v = r0 at *
    match hv : m.vertsOf 1 n, hl with
    | [a, b], _ =>
      have hE : m.ends n = (a, b) := by unfold Mesh.ends; rw [hv]; rfl
      have hx : ∀ x : ℝ, 0 + x / 2 + x / 2 = x := fun x => by ring
      simp only [voroLine, hE, volumeLine_eucl, List.flatMap_cons, List.flatMap_nil, List.append_nil, List.cons_append,
        List.nil_append, List.foldl_cons, List.foldl_nil, VoroSt.write, reduceCtorEq, false_and, if_false, true_and, hx]
      have lts : (s < n + 1) ↔ s = n ∨ s < n := by omega
      refine ⟨?_, ?_, ?_, ?_, ?_, ?_⟩
      · rw [i1]; simp only [lts]; by_cases h : s = n
        · simp [h]
        · simp [h]
      · simp only [lts]; by_cases h : s = n
        · subst h; simp [i2]
        · simp [h, i2]
      · rw [i3]; simp only [lts]; by_cases h : s = n
        · subst h; simp [hv]
        · simp [h]
      · simp only [lts]; by_cases h : s = n
        · subst h; simp [i4, hv]
        · simp [h, i4]
      · rw [Finset.sum_range_succ, ← add_assoc, ← i5]
        unfold lineShare
        rw [hv]
        simp only [List.map_cons, List.map_nil, List.sum_cons, List.sum_nil, List.getD_cons_zero, List.getD_cons_succ]
        by_cases h1 : s = a
        · subst h1
          by_cases h2 : s = b
          · subst h2; simp; ring
          · simp [h2, Ne.symm h2]
        · by_cases h2 : s = b
          · subst h2; simp [h1, Ne.symm h1]
          · simp [h1, h2, Ne.symm h1, Ne.symm h2]
      · rw [List.flatMap_append, List.flatMap_cons, List.flatMap_nil, List.append_nil, ← List.append_assoc, ← i6, hv]
        by_cases h1 : s = a
        · subst h1
          by_cases h2 : s = b
          · subst h2; simp
          · simp [h2, Ne.symm h2]
        · by_cases h2 : s = b
          · subst h2; simp [h1, Ne.symm h1]
          · simp [h1, h2, Ne.symm h1, Ne.symm h2]

variable {st : MState (Fin d → ℝ)}

theorem line_verts (h : Reached (simplexTopo 1) st) {c : Nat} (hc : c < st.mesh.count 1) :
    ∃ a b, st.mesh.vertsOf 1 c = [a, b] ∧ a ≠ b ∧ a < st.mesh.verts.length ∧ b < st.mesh.verts.length := by
  have hI := (h.inv (simplexTopo_wf 1)).inv
  have hc' : c < (st.mesh.elems 1).length := by
    unfold Mesh.count at hc; rwa [if_neg (by omega)] at hc
  obtain ⟨hn, hl, hlt⟩ := hI.verts 1 _ (List.getElem_mem hc')
  have hv : st.mesh.vertsOf 1 c = ((st.mesh.elems 1)[c]).verts := by simp [Mesh.vertsOf, hc']
  rw [← hv] at hn hl hlt
  match hw : st.mesh.vertsOf 1 c, hl with
  | [a, b], _ =>
    rw [hw] at hn hlt
    exact ⟨a, b, rfl, by simpa using hn, hlt a (by simp), hlt b (by simp)⟩

/-- Lines: the interface of each line is 1 (a point), its box the line itself, and a vertex has half of each of its
lines; each is what the contributions add up to, and each line contributes once. -/
theorem C69_boxes (h : Reached (simplexTopo 1) st) (v : VoroSt) :
    (∀ s < st.mesh.count 1, (st.mesh.voronoiLines v).total .area s = 1
      ∧ ∀ a b, st.mesh.vertsOf 1 s = [a, b] →
        (st.mesh.voronoiLines v).total .ebox s = eucl (st.mesh.at0 a) (st.mesh.at0 b))
    ∧ ∀ s, (st.mesh.voronoiLines v).total .vbox s
        = v.total .vbox s + ∑ c ∈ Finset.range (st.mesh.count 1), lineShare st.mesh s c := by
  have hs := lines_spec st.mesh (fun c hc => by obtain ⟨a, b, e, _⟩ := line_verts h hc; rw [e]; rfl) v _ (Nat.le_refl _)
  refine ⟨fun s hlt => ⟨?_, fun a b hv => ?_⟩, fun s => (hs s).2.2.2.2.1⟩
  · have := (hs s).1; rw [if_pos hlt] at this; exact this
  · have := (hs s).2.2.1
    rw [if_pos hlt, hv] at this
    exact this

/-- The totals are the sums of the contributions, and each line contributes once to what it belongs to. -/
theorem C69_contributions (h : Reached (simplexTopo 1) st) (s : Nat) :
    (∀ q, (q = .vbox ∨ s < st.mesh.count 1) →
      (st.mesh.voronoiLines .fresh).total q s = (((st.mesh.voronoiLines .fresh).parts q s).map (·.2)).sum)
    ∧ (s < st.mesh.count 1 → ((st.mesh.voronoiLines .fresh).parts .area s).map (·.1) = [s]
      ∧ ((st.mesh.voronoiLines .fresh).parts .ebox s).map (·.1) = [s])
    ∧ ((st.mesh.voronoiLines .fresh).parts .vbox s).map (·.1)
      = (List.range (st.mesh.count 1)).filter fun c => decide (s ∈ st.mesh.vertsOf 1 c) := by
  obtain ⟨h1, h2, h3, h4, h5, h6⟩ := lines_spec st.mesh (fun c hc => by obtain ⟨a, b, e, _⟩ := line_verts h hc; rw [e]; rfl)
    .fresh _ (Nat.le_refl _) s
  unfold Mesh.voronoiLines
  rw [h6]
  refine ⟨?_, ?_, ?_⟩
  · rintro q hq
    cases q with
    | area =>
      have hlt : s < st.mesh.count 1 := by simpa using hq
      rw [h1, h2, if_pos hlt, if_pos hlt]; simp [VoroSt.fresh]
    | ebox =>
      have hlt : s < st.mesh.count 1 := by simpa using hq
      rw [h3, h4, if_pos hlt, if_pos hlt]; simp [VoroSt.fresh]
    | vbox =>
      rw [h5, h6, ← sum_range_list]
      simp only [VoroSt.fresh, List.nil_append, zero_add]
      rw [sum_flatMap_map]
      congr 1
      refine List.map_congr_left fun c _ => ?_
      unfold lineShare
      generalize eucl (st.mesh.at0 ((st.mesh.vertsOf 1 c).getD 0 0)) (st.mesh.at0 ((st.mesh.vertsOf 1 c).getD 1 0)) / 2 = x
      induction st.mesh.vertsOf 1 c with
      | nil => simp
      | cons a l ih =>
        rw [List.map_cons, List.sum_cons, ih]
        by_cases ha : a = s
        · simp [ha]
        · simp [ha]
  · intro hlt
    rw [h2, h4, if_pos hlt, if_pos hlt]
    simp [VoroSt.fresh]
  · simp only [VoroSt.fresh, List.nil_append]
    have key : ∀ l : List Nat, (∀ c ∈ l, c < st.mesh.count 1) →
        (l.flatMap fun c => (st.mesh.vertsOf 1 c).filterMap fun w => if w = s then
            some (c, eucl (st.mesh.at0 ((st.mesh.vertsOf 1 c).getD 0 0)) (st.mesh.at0 ((st.mesh.vertsOf 1 c).getD 1 0)) / 2)
            else none).map (·.1) = l.filter fun c => decide (s ∈ st.mesh.vertsOf 1 c) := by
      intro l hl
      induction l with
      | nil => rfl
      | cons c l ih =>
        obtain ⟨a, b, hv, hab, _⟩ := line_verts h (hl c (by simp))
        rw [List.flatMap_cons, List.map_append, ih fun c hc => hl c (by simp [hc]), List.filter_cons, hv]
        by_cases h1 : a = s
        · subst h1; simp [Ne.symm hab]
        · by_cases h2 : b = s
          · subst h2; simp [h1]
          · simp [h1, h2, Ne.symm h1, Ne.symm h2]
    exact key _ fun c hc => List.mem_range.1 hc

/-- The boxes of the vertices have the length of the mesh. -/
theorem C69_total_volume (h : Reached (simplexTopo 1) st) (v : VoroSt) :
    ∑ s ∈ Finset.range st.mesh.verts.length, (st.mesh.voronoiLines v).total .vbox s
      = ∑ s ∈ Finset.range st.mesh.verts.length, v.total .vbox s
        + ((st.mesh.elems 1).map fun e => eucl (st.mesh.at0 (e.verts.getD 0 0)) (st.mesh.at0 (e.verts.getD 1 0))).sum := by
  simp only [(C69_boxes h v).2]
  rw [Finset.sum_add_distrib, Finset.sum_comm]
  congr 1
  have hc : st.mesh.count 1 = (st.mesh.elems 1).length := by unfold Mesh.count; rw [if_neg (by omega)]
  rw [← sum_range_list, hc]
  congr 1
  refine List.ext_getElem (by simp) fun i h1 h2 => ?_
  have hi : i < st.mesh.count 1 := by rw [hc]; simpa using h2
  obtain ⟨a, b, hv, hab, ha, hb⟩ := line_verts h hi
  rw [List.getElem_map, List.getElem_map, List.getElem_range]
  have hv' : ((st.mesh.elems 1)[i]'(by simpa using h2)).verts = [a, b] := by
    rw [← hv]
    have : i < (st.mesh.elems 1).length := by simpa using h2
    simp [Mesh.vertsOf, this]
  rw [hv']
  simp only [lineShare, hv, List.map_cons, List.map_nil, List.sum_cons, List.sum_nil, List.getD_cons_zero, List.getD_cons_succ,
    add_zero]
  rw [Finset.sum_add_distrib, Finset.sum_ite_eq (Finset.range _), Finset.sum_ite_eq (Finset.range _),
    if_pos (Finset.mem_range.2 ha), if_pos (Finset.mem_range.2 hb)]
  ring

/-- Two lines of lengths 2 and 5 in the plane. -/
noncomputable def chainOps : List (QOp (Fin 2 → ℝ)) :=
  [.mesh (.vertex none ![0, 0]), .mesh (.vertex none ![2, 0]), .mesh (.vertex none ![5, 4]),
   .mesh (.elem 1 [0, 1]), .mesh (.elem 1 [1, 2])]

/-- The state reached. -/
noncomputable def lineChain : MState (Fin 2 → ℝ) := (MState.empty.run (simplexTopo 1) chainOps).getD MState.empty

theorem lineChain_reached : Reached (simplexTopo 1) lineChain :=
  ⟨chainOps, by simp [chainOps, QOp.meshOps, MOp.Distinct], rfl, by unfold UniqueVids; decide⟩

/-- The middle vertex has 2/2 + 5/2. -/
example : (lineChain.mesh.voronoiLines .fresh).total .vbox 1 = 7 / 2
    ∧ ((lineChain.mesh.voronoiLines .fresh).parts .vbox 1).map (·.1) = [0, 1] := by
  constructor
  · rw [(C69_boxes lineChain_reached .fresh).2, show lineChain.mesh.count 1 = 2 from rfl, Finset.sum_range_succ,
      Finset.sum_range_one]
    unfold lineShare
    rw [show lineChain.mesh.vertsOf 1 0 = [0, 1] from rfl, show lineChain.mesh.vertsOf 1 1 = [1, 2] from rfl]
    have p0 : lineChain.mesh.at0 0 = ![0, 0] := rfl
    have p1 : lineChain.mesh.at0 1 = ![2, 0] := rfl
    have p2 : lineChain.mesh.at0 2 = ![5, 4] := rfl
    have s25 : √(25 : ℝ) = 5 := by rw [show (25 : ℝ) = 5 ^ 2 by norm_num, Real.sqrt_sq (by norm_num)]
    have s4 : √(4 : ℝ) = 2 := by rw [show (4 : ℝ) = 2 ^ 2 by norm_num, Real.sqrt_sq (by norm_num)]
    simp [p0, p1, p2, eucl, VoroSt.fresh]
    norm_num [s25, s4]
  · rw [(C69_contributions lineChain_reached 1).2.2]; rfl

end Lines

/-! ### Quadrilaterals: specification -/

/-- Corner `i` of the cell with vertices `vs`. -/
noncomputable def cornerAt {d : Nat} (m : Mesh (Fin d → ℝ)) (vs : List Nat) (i : Nat) : Fin d → ℝ := m.at0 (vs.getD i 0)

/-- Area of a quadrilateral in the numbering of the library: the cyclic order of the corners is 0, 1, 3, 2. -/
noncomputable def quadArea (p : Nat → Fin 2 → ℝ) : ℝ := |shoelace [p 0, p 1, p 3, p 2]|

/-- Convex, in one of the two orientations. -/
def ConvexQuad (p : Nat → Fin 2 → ℝ) : Prop :=
  ConvexLexQuad p ∨ ConvexLexQuad fun i => p ([0, 2, 1, 3].getD i 0)

/-- All quadrilaterals are convex. -/
def ConvexQuads (m : Mesh (Fin 2 → ℝ)) : Prop := ∀ e ∈ m.elems 2, ConvexQuad (cornerAt m e.verts)

/-- All quadrilaterals are parallelograms. -/
def Parallelograms (m : Mesh (Fin 2 → ℝ)) : Prop :=
  ∀ e ∈ m.elems 2, ∀ i, cornerAt m e.verts 0 i + cornerAt m e.verts 3 i = cornerAt m e.verts 1 i + cornerAt m e.verts 2 i

/-- The sides of a quadrilateral as pairs of vertices, with the length of the sides meeting them if it is a
parallelogram. -/
noncomputable def quadSides (m : Mesh (Fin 2 → ℝ)) (vs : List Nat) : List (Nat × Nat × ℝ) :=
  let v := fun i => vs.getD i 0
  [(v 0, v 1, eucl (m.at0 (v 0)) (m.at0 (v 2))), (v 0, v 2, eucl (m.at0 (v 0)) (m.at0 (v 1))),
    (v 1, v 3, eucl (m.at0 (v 0)) (m.at0 (v 1))), (v 2, v 3, eucl (m.at0 (v 0)) (m.at0 (v 2)))]

/-- The side of the quadrilateral with end points `a`, `b`, if there is one. -/
noncomputable def sideOf (m : Mesh (Fin 2 → ℝ)) (vs : List Nat) (a b : Nat) : Option (Nat × Nat × ℝ) :=
  (quadSides m vs).find? fun s => decide ((s.1 = a ∧ s.2.1 = b) ∨ (s.1 = b ∧ s.2.1 = a))

/-! ### One quadrilateral -/

section Cell

theorem meanPoint4 (p0 p1 p2 p3 : Fin 2 → ℝ) (i : Fin 2) : meanPoint [p0, p1, p2, p3] i = (p0 i + p1 i + p2 i + p3 i) / 4 := by
  simp [meanPoint]

theorem mid_box (o a b : Fin 2 → ℝ) :
    spannedTriangle o (circumLine a b) a = |tw o a b| / 4 ∧ spannedTriangle o (circumLine a b) b = |tw o a b| / 4 := by
  have h1 : tw o (circumLine a b) a = -(tw o a b) / 2 := by
    unfold tw; rw [circumLine_i, circumLine_i]; ring
  have h2 : tw o (circumLine a b) b = tw o a b / 2 := by
    unfold tw; rw [circumLine_i, circumLine_i]; ring
  rw [spanned_tw, spanned_tw, h1, h2, abs_div, abs_div, abs_neg, abs_two]
  constructor <;> ring

/-- What a side of a quadrilateral with middle `o` adds. -/
noncomputable def sideAmt (m : Mesh (Fin 2 → ℝ)) (o : Fin 2 → ℝ) (e a b : Nat) (q : VoroQ) (s : Nat) : ℝ :=
  match q with
  | .area => if s = e then len o (circumLine (m.at0 a) (m.at0 b)) else 0
  | .vbox => (if s = a then |tw o (m.at0 a) (m.at0 b)| / 4 else 0) + (if s = b then |tw o (m.at0 a) (m.at0 b)| / 4 else 0)
  | .ebox => if s = e then |tw o (m.at0 a) (m.at0 b)| / 2 else 0

theorem push_side {m : Mesh (Fin 2 → ℝ)} {e a b : Nat} (h : EndsAre m e a b) (o : Fin 2 → ℝ) (q : VoroQ) (s : Nat) :
    pushAmt m e |signedLine o (m.midOf e)| (fun v => spannedTriangle o (m.midOf e) (m.at0 v)) q s = sideAmt m o e a b q s := by
  have hm : m.midOf e = circumLine (m.at0 a) (m.at0 b) := by
    unfold Mesh.midOf
    rcases h with h | h <;> rw [h]
    exact circumLine_swap _ _
  obtain ⟨b1, b2⟩ := mid_box o (m.at0 a) (m.at0 b)
  rcases h with h | h <;> cases q <;> simp only [pushAmt, sideAmt, h, hm, signedLine2, b1, b2] <;> split <;>
    ring1

theorem voroQuad_amt {m : Mesh (Fin 2 → ℝ)} {c v0 v1 v2 v3 e0 e1 e2 e3 : Nat} (h : QuadAt m c v0 v1 v2 v3 e0 e1 e2 e3)
    (q : VoroQ) (s : Nat) :
    ((voroQuad spannedTriangle m c).map (VoroWrite.addAmt q s)).sum
      = sideAmt m (m.meanOf 2 c) e0 v0 v1 q s + sideAmt m (m.meanOf 2 c) e1 v0 v2 q s
        + sideAmt m (m.meanOf 2 c) e2 v1 v3 q s + sideAmt m (m.meanOf 2 c) e3 v2 v3 q s := by
  unfold voroQuad
  rw [sum_flatMap_map, h.edges]
  simp only [voroPush_amt, List.map_cons, List.map_nil, List.sum_cons, List.sum_nil]
  rw [push_side h.at0, push_side h.at1, push_side h.at2, push_side h.at3]
  ring

theorem sideAmt_sum (m : Mesh (Fin 2 → ℝ)) (o : Fin 2 → ℝ) (e a b n : Nat) (ha : a < n) (hb : b < n) :
    ∑ s ∈ Finset.range n, sideAmt m o e a b .vbox s = |tw o (m.at0 a) (m.at0 b)| / 2 := by
  simp only [sideAmt]
  rw [Finset.sum_add_distrib, Finset.sum_ite_eq' (Finset.range n), Finset.sum_ite_eq' (Finset.range n),
    if_pos (Finset.mem_range.2 ha), if_pos (Finset.mem_range.2 hb)]
  ring

/-- The sums over the four triangles at the mean of the corners. -/
theorem mean_tw {p0 p1 p2 p3 o : Fin 2 → ℝ} (ho : ∀ i, o i = (p0 i + p1 i + p2 i + p3 i) / 4) :
    tw o p0 p1 = (tw p0 p1 p2 + tw p0 p1 p3) / 4 ∧ tw o p1 p3 = (tw p0 p1 p3 + tw p1 p3 p2) / 4
    ∧ tw o p3 p2 = (tw p0 p3 p2 + tw p1 p3 p2) / 4 ∧ tw o p2 p0 = (tw p0 p1 p2 + tw p0 p3 p2) / 4 := by
  unfold tw
  rw [ho, ho]
  refine ⟨?_, ?_, ?_, ?_⟩ <;> ring

theorem lex_convex_area {p0 p1 p2 p3 o : Fin 2 → ℝ} (ho : ∀ i, o i = (p0 i + p1 i + p2 i + p3 i) / 4)
    (h1 : 0 < tw p0 p1 p3) (h2 : 0 < tw p0 p3 p2) (h3 : 0 < tw p0 p1 p2) (h4 : 0 < tw p1 p3 p2) :
    |tw o p0 p1| / 2 + |tw o p0 p2| / 2 + |tw o p1 p3| / 2 + |tw o p2 p3| / 2 = |shoelace [p0, p1, p3, p2]| := by
  obtain ⟨a, b, c, e⟩ := mean_tw ho
  have hs : shoelace [p0, p1, p3, p2] = (tw p0 p1 p3 + tw p0 p3 p2) / 2 := by
    simp only [shoelace, List.rotate, tw]
    simp
    ring
  have hq : tw p0 p1 p2 + tw p1 p3 p2 = tw p0 p1 p3 + tw p0 p3 p2 := by unfold tw; ring
  rw [tw_swap o p0 p2, tw_swap o p2 p3, abs_neg, abs_neg, a, b, c, e, hs, abs_of_pos (by linarith),
    abs_of_pos (by linarith), abs_of_pos (by linarith), abs_of_pos (by linarith), abs_of_pos (by linarith)]
  linarith

theorem convex_area {p : Nat → Fin 2 → ℝ} (h : ConvexQuad p) {o : Fin 2 → ℝ}
    (ho : ∀ i, o i = (p 0 i + p 1 i + p 2 i + p 3 i) / 4) :
    |tw o (p 0) (p 1)| / 2 + |tw o (p 0) (p 2)| / 2 + |tw o (p 1) (p 3)| / 2 + |tw o (p 2) (p 3)| / 2 = quadArea p := by
  have half : ∀ {x : ℝ}, 0 < x / 2 → 0 < x := by intro x h; linarith
  rcases h with ⟨h1, h2, h3, h4⟩ | ⟨h1, h2, h3, h4⟩
  · rw [signedTriangle_tw] at h1 h2 h3 h4
    exact lex_convex_area ho (half h1) (half h2) (half h3) (half h4)
  · rw [signedTriangle_tw] at h1 h2 h3 h4
    have e := lex_convex_area (p0 := p 0) (p1 := p 2) (p2 := p 1) (p3 := p 3) (o := o)
      (by intro i; rw [ho]; ring) (half h1) (half h2) (half h3) (half h4)
    have hs : shoelace [p 0, p 2, p 3, p 1] = -shoelace [p 0, p 1, p 3, p 2] := by
      simp only [shoelace, List.rotate]
      simp
      ring
    rw [quadArea, ← abs_neg (shoelace _), ← hs, ← e]
    ring

theorem shoelace4 (a b c e : Fin 2 → ℝ) :
    shoelace [a, b, c, e] = ((a 0 * b 1 - b 0 * a 1) + (b 0 * c 1 - c 0 * b 1) + (c 0 * e 1 - e 0 * c 1)
      + (e 0 * a 1 - a 0 * e 1)) / 2 := by
  simp only [shoelace, List.rotate]
  simp
  ring

theorem para_area {p0 p1 p2 p3 o : Fin 2 → ℝ} (hp : ∀ i, p0 i + p3 i = p1 i + p2 i)
    (ho : ∀ i, o i = (p0 i + p1 i + p2 i + p3 i) / 4) {q : Fin 2 → ℝ} {r : Fin 2 → ℝ}
    (hs : (q = p0 ∧ r = p1) ∨ (q = p0 ∧ r = p2) ∨ (q = p1 ∧ r = p3) ∨ (q = p2 ∧ r = p3)) :
    |tw o q r| = |shoelace [p0, p1, p3, p2]| / 2 := by
  have h3 : p3 0 = p1 0 + p2 0 - p0 0 ∧ p3 1 = p1 1 + p2 1 - p0 1 := ⟨by linarith [hp 0], by linarith [hp 1]⟩
  have ho' : o 0 = (p1 0 + p2 0) / 2 ∧ o 1 = (p1 1 + p2 1) / 2 := by
    constructor
    · rw [ho, h3.1]; ring
    · rw [ho, h3.2]; ring
  have es : shoelace [p0, p1, p3, p2] = tw p0 p1 p2 := by
    rw [shoelace4]
    unfold tw
    rw [h3.1, h3.2]
    ring
  have key : tw o q r = tw p0 p1 p2 / 2 ∨ tw o q r = -(tw p0 p1 p2 / 2) := by
    rcases hs with ⟨rfl, rfl⟩ | ⟨rfl, rfl⟩ | ⟨rfl, rfl⟩ | ⟨rfl, rfl⟩
    · left; unfold tw; rw [ho'.1, ho'.2]; ring
    · right; unfold tw; rw [ho'.1, ho'.2]; ring
    · left; unfold tw; rw [ho'.1, ho'.2, h3.1, h3.2]; ring
    · right; unfold tw; rw [ho'.1, ho'.2, h3.1, h3.2]; ring
  rw [es]
  rcases key with h | h <;> rw [h]
  · rw [abs_div, abs_two]
  · rw [abs_neg, abs_div, abs_two]

theorem para_len {p0 p1 p2 p3 o : Fin 2 → ℝ} (hp : ∀ i, p0 i + p3 i = p1 i + p2 i)
    (ho : ∀ i, o i = (p0 i + p1 i + p2 i + p3 i) / 4) :
    len o (circumLine p0 p1) = eucl p0 p2 / 2 ∧ len o (circumLine p0 p2) = eucl p0 p1 / 2
    ∧ len o (circumLine p1 p3) = eucl p0 p1 / 2 ∧ len o (circumLine p2 p3) = eucl p0 p2 / 2 := by
  have key : ∀ x y z w : Fin 2 → ℝ, (∀ i, (2 * (z i - w i)) ^ 2 = (y i - x i) ^ 2) → len w z = eucl x y / 2 := by
    intro x y z w h
    rw [eucl_len, eq_div_iff two_ne_zero]
    unfold len
    rw [← h 0, ← h 1]
    have : (2 * (z 0 - w 0)) ^ 2 + (2 * (z 1 - w 1)) ^ 2 = ((z 0 - w 0) ^ 2 + (z 1 - w 1) ^ 2) * 2 ^ 2 := by ring
    rw [this, Real.sqrt_mul (by positivity), Real.sqrt_sq (by norm_num)]
  refine ⟨key _ _ _ _ ?_, key _ _ _ _ ?_, key _ _ _ _ ?_, key _ _ _ _ ?_⟩ <;> intro i <;>
    rw [circumLine_i, ho, show p3 i = p1 i + p2 i - p0 i by linarith [hp i]] <;> ring

end Cell

/-! ### Meshes of quadrilaterals -/

section Mesh
variable {st : MState (Fin 2 → ℝ)}

theorem quad_at (h : Reached (cubeTopo 2) st) {c : Nat} (hc : c < st.mesh.count 2) :
    ∃ e, (st.mesh.elems 2)[c]? = some e ∧ e ∈ st.mesh.elems 2 ∧
    ∃ v0 v1 v2 v3 e0 e1 e2 e3, e.verts = [v0, v1, v2, v3] ∧ QuadAt st.mesh c v0 v1 v2 v3 e0 e1 e2 e3
      ∧ ∀ i, st.mesh.meanOf 2 c i = (cornerAt st.mesh e.verts 0 i + cornerAt st.mesh e.verts 1 i
        + cornerAt st.mesh e.verts 2 i + cornerAt st.mesh e.verts 3 i) / 4 := by
  have hI := (h.inv (cubeTopo_wf 2)).inv
  obtain ⟨e, he⟩ := lt_elems hc
  obtain ⟨v0, v1, v2, v3, e0, e1, e2, e3, hv, hq⟩ := quadAt_of (cubeTopo_wf 2) hI (by decide) (by decide) he
  refine ⟨e, he, List.mem_of_getElem? he, v0, v1, v2, v3, e0, e1, e2, e3, hv, hq, fun i => ?_⟩
  unfold Mesh.meanOf
  rw [hq.verts, hv]
  exact meanPoint4 _ _ _ _ i

/-- The boxes of the vertices have the volume of the mesh, if all quadrilaterals are convex. -/
theorem C70_total_volume (h : Reached (cubeTopo 2) st) (hq : ConvexQuads st.mesh) (v : VoroSt) :
    ∑ s ∈ Finset.range st.mesh.verts.length, (st.mesh.voronoiQuads spannedTriangle v).total .vbox s
      = ∑ s ∈ Finset.range st.mesh.verts.length, v.total .vbox s
        + ((st.mesh.elems 2).map fun e => quadArea (cornerAt st.mesh e.verts)).sum := by
  unfold Mesh.voronoiQuads
  simp only [(cells_grow _ _ _ (voroQuad_grows spannedTriangle st.mesh) _ _).1]
  rw [Finset.sum_add_distrib, Finset.sum_comm]
  congr 1
  have hc : st.mesh.count 2 = (st.mesh.elems 2).length := by unfold Mesh.count; rw [if_neg (by omega)]
  rw [← sum_range_list, hc]
  congr 1
  refine List.ext_getElem (by simp) fun i h1 h2 => ?_
  have hi : i < st.mesh.count 2 := by rw [hc]; simpa using h2
  obtain ⟨e, he, hem, v0, v1, v2, v3, e0, e1, e2, e3, hv, hQ, hm⟩ := quad_at h hi
  rw [List.getElem_map, List.getElem_map, List.getElem_range]
  rw [(List.getElem?_eq_some_iff.1 he).2]
  simp only [voroQuad_amt hQ, Finset.sum_add_distrib]
  rw [sideAmt_sum _ _ _ _ _ _ (hQ.lt v0 (by simp)) (hQ.lt v1 (by simp)),
    sideAmt_sum _ _ _ _ _ _ (hQ.lt v0 (by simp)) (hQ.lt v2 (by simp)),
    sideAmt_sum _ _ _ _ _ _ (hQ.lt v1 (by simp)) (hQ.lt v3 (by simp)),
    sideAmt_sum _ _ _ _ _ _ (hQ.lt v2 (by simp)) (hQ.lt v3 (by simp))]
  rw [← convex_area (hq e hem) hm, hv]
  rfl

/-- In a mesh of parallelograms a vertex has a quarter of each cell it is a corner of. -/
theorem C70_boxes_partial (h : Reached (cubeTopo 2) st) (hp : Parallelograms st.mesh) (v : VoroSt) (s : Nat) :
    (st.mesh.voronoiQuads spannedTriangle v).total .vbox s
      = v.total .vbox s + ∑ t ∈ Finset.range (st.mesh.count 2),
          if s ∈ st.mesh.vertsOf 2 t then quadArea (cornerAt st.mesh (st.mesh.vertsOf 2 t)) / 4 else 0 := by
  unfold Mesh.voronoiQuads
  rw [(cells_grow _ _ _ (voroQuad_grows spannedTriangle st.mesh) _ _).1]
  congr 1
  refine Finset.sum_congr rfl fun t ht => ?_
  obtain ⟨e, he, hem, v0, v1, v2, v3, e0, e1, e2, e3, hv, hQ, hm⟩ := quad_at h (Finset.mem_range.1 ht)
  have hp' := hp e hem
  rw [hv] at hm hp'
  rw [voroQuad_amt hQ, hQ.verts]
  have par := fun q r => para_area (q := q) (r := r) hp' hm
  simp only [sideAmt]
  rw [show |tw (st.mesh.meanOf 2 t) (st.mesh.at0 v0) (st.mesh.at0 v1)| = _ from par _ _ (Or.inl ⟨rfl, rfl⟩),
    show |tw (st.mesh.meanOf 2 t) (st.mesh.at0 v0) (st.mesh.at0 v2)| = _ from par _ _ (Or.inr (Or.inl ⟨rfl, rfl⟩)),
    show |tw (st.mesh.meanOf 2 t) (st.mesh.at0 v1) (st.mesh.at0 v3)| = _ from par _ _ (Or.inr (Or.inr (Or.inl ⟨rfl, rfl⟩))),
    show |tw (st.mesh.meanOf 2 t) (st.mesh.at0 v2) (st.mesh.at0 v3)| = _ from par _ _ (Or.inr (Or.inr (Or.inr ⟨rfl, rfl⟩)))]
  have hn := hQ.nodup
  unfold quadArea
  generalize |shoelace [cornerAt st.mesh [v0, v1, v2, v3] 0, cornerAt st.mesh [v0, v1, v2, v3] 1,
    cornerAt st.mesh [v0, v1, v2, v3] 3, cornerAt st.mesh [v0, v1, v2, v3] 2]| = A
  simp only [List.nodup_cons, List.mem_cons, List.not_mem_nil, or_false, not_or, not_false_eq_true, List.nodup_nil,
    and_true] at hn
  obtain ⟨⟨n1, n2, n3⟩, ⟨n4, n5⟩, n6⟩ := hn
  simp only [List.mem_cons, List.not_mem_nil, or_false]
  by_cases h0 : s = v0
  · subst h0; simp [n1, n2, n3]; ring
  by_cases h1 : s = v1
  · subst h1; simp [n4, n5, h0]; ring
  by_cases h2 : s = v2
  · subst h2; simp [n6, h0, h1]; ring
  by_cases h3 : s = v3
  · subst h3; simp [h0, h1, h2]; ring
  simp [h0, h1, h2, h3]

theorem four_sides {v0 v1 v2 v3 a b : Nat} (n3 : ¬v0 = v3) (n4 : ¬v1 = v2)
    (n5 : ¬v1 = v3) (n6 : ¬v2 = v3) (hab : a ≠ b) {x y A : ℝ} :
    (if (v0 = a ∧ v1 = b) ∨ (v0 = b ∧ v1 = a) then y / 2 else 0) + (if (v0 = a ∧ v2 = b) ∨ (v0 = b ∧ v2 = a) then x / 2 else 0)
      + (if (v1 = a ∧ v3 = b) ∨ (v1 = b ∧ v3 = a) then x / 2 else 0)
      + (if (v2 = a ∧ v3 = b) ∨ (v2 = b ∧ v3 = a) then y / 2 else 0)
      = ((([(v0, v1, y), (v0, v2, x), (v1, v3, x), (v2, v3, y)] : List (Nat × Nat × ℝ)).find? fun s =>
          decide ((s.1 = a ∧ s.2.1 = b) ∨ (s.1 = b ∧ s.2.1 = a))).map fun z => z.2.2 / 2).getD 0
    ∧ (if (v0 = a ∧ v1 = b) ∨ (v0 = b ∧ v1 = a) then A / 2 / 2 else 0)
      + (if (v0 = a ∧ v2 = b) ∨ (v0 = b ∧ v2 = a) then A / 2 / 2 else 0)
      + (if (v1 = a ∧ v3 = b) ∨ (v1 = b ∧ v3 = a) then A / 2 / 2 else 0)
      + (if (v2 = a ∧ v3 = b) ∨ (v2 = b ∧ v3 = a) then A / 2 / 2 else 0)
      = ((([(v0, v1, y), (v0, v2, x), (v1, v3, x), (v2, v3, y)] : List (Nat × Nat × ℝ)).find? fun s =>
          decide ((s.1 = a ∧ s.2.1 = b) ∨ (s.1 = b ∧ s.2.1 = a))).map fun _ => A / 4).getD 0 := by
  by_cases c0 : (v0 = a ∧ v1 = b) ∨ (v0 = b ∧ v1 = a)
  · have c1 : ¬ ((v0 = a ∧ v2 = b) ∨ (v0 = b ∧ v2 = a)) := by omega
    have c2 : ¬ ((v1 = a ∧ v3 = b) ∨ (v1 = b ∧ v3 = a)) := by omega
    have c3 : ¬ ((v2 = a ∧ v3 = b) ∨ (v2 = b ∧ v3 = a)) := by omega
    rw [List.find?_cons_of_pos (by simpa using c0)]
    simp only [if_pos c0, if_neg c1, if_neg c2, if_neg c3, Option.map_some, Option.getD_some]
    constructor <;> ring
  rw [List.find?_cons_of_neg (by simpa using c0)]
  by_cases c1 : (v0 = a ∧ v2 = b) ∨ (v0 = b ∧ v2 = a)
  · have c2 : ¬ ((v1 = a ∧ v3 = b) ∨ (v1 = b ∧ v3 = a)) := by omega
    have c3 : ¬ ((v2 = a ∧ v3 = b) ∨ (v2 = b ∧ v3 = a)) := by omega
    rw [List.find?_cons_of_pos (by simpa using c1)]
    simp only [if_neg c0, if_pos c1, if_neg c2, if_neg c3, Option.map_some, Option.getD_some]
    constructor <;> ring
  rw [List.find?_cons_of_neg (by simpa using c1)]
  by_cases c2 : (v1 = a ∧ v3 = b) ∨ (v1 = b ∧ v3 = a)
  · have c3 : ¬ ((v2 = a ∧ v3 = b) ∨ (v2 = b ∧ v3 = a)) := by omega
    rw [List.find?_cons_of_pos (by simpa using c2)]
    simp only [if_neg c0, if_neg c1, if_pos c2, if_neg c3, Option.map_some, Option.getD_some]
    constructor <;> ring
  rw [List.find?_cons_of_neg (by simpa using c2)]
  by_cases c3 : (v2 = a ∧ v3 = b) ∨ (v2 = b ∧ v3 = a)
  · rw [List.find?_cons_of_pos (by simpa using c3)]
    simp only [if_neg c0, if_neg c1, if_neg c2, if_pos c3, Option.map_some, Option.getD_some]
    constructor <;> ring
  rw [List.find?_cons_of_neg (by simpa using c3)]
  simp [if_neg c0, if_neg c1, if_neg c2, if_neg c3]

/-- Interfaces in a mesh of parallelograms: half the length of the sides meeting the edge, for each cell at the edge. -/
theorem C70_interface_partial (h : Reached (cubeTopo 2) st) (hp : Parallelograms st.mesh) (v : VoroSt) {s a b : Nat} {f : Elem}
    (hs : (st.mesh.elems 1)[s]? = some f) (hf : f.verts = [a, b]) :
    (st.mesh.voronoiQuads spannedTriangle v).total .area s
      = v.total .area s + ∑ t ∈ Finset.range (st.mesh.count 2),
          ((sideOf st.mesh (st.mesh.vertsOf 2 t) a b).map fun x => x.2.2 / 2).getD 0
    ∧ (st.mesh.voronoiQuads spannedTriangle v).total .ebox s
      = v.total .ebox s + ∑ t ∈ Finset.range (st.mesh.count 2),
          ((sideOf st.mesh (st.mesh.vertsOf 2 t) a b).map fun _ => quadArea (cornerAt st.mesh (st.mesh.vertsOf 2 t)) / 4).getD 0 := by
  have hI := (h.inv (cubeTopo_wf 2)).inv
  have hE : EndsAre st.mesh s a b := ends_of hs (by rw [hf])
  have hlt : s < st.mesh.count 1 := by
    unfold Mesh.count; rw [if_neg (by omega)]; exact (List.getElem?_eq_some_iff.1 hs).1
  have hab : a ≠ b := by
    have := (hI.verts 1 f (List.mem_of_getElem? hs)).1
    rw [hf] at this
    simpa using this
  unfold Mesh.voronoiQuads
  rw [(cells_grow _ _ _ (voroQuad_grows spannedTriangle st.mesh) _ _).1, (cells_grow _ _ _ (voroQuad_grows spannedTriangle st.mesh) _ _).1]
  have key : ∀ t ∈ Finset.range (st.mesh.count 2),
      ((voroQuad spannedTriangle st.mesh t).map (VoroWrite.addAmt .area s)).sum
        = ((sideOf st.mesh (st.mesh.vertsOf 2 t) a b).map fun x => x.2.2 / 2).getD 0
      ∧ ((voroQuad spannedTriangle st.mesh t).map (VoroWrite.addAmt .ebox s)).sum
        = ((sideOf st.mesh (st.mesh.vertsOf 2 t) a b).map fun _ =>
            quadArea (cornerAt st.mesh (st.mesh.vertsOf 2 t)) / 4).getD 0 := by
    intro t ht
    obtain ⟨e, he, hem, v0, v1, v2, v3, e0, e1, e2, e3, hv, hQ, hm⟩ := quad_at h (Finset.mem_range.1 ht)
    have hp' := hp e hem
    rw [hv] at hm hp'
    have side : ∀ {e x y}, EndsAre st.mesh e x y → e < st.mesh.count 1 → (s = e ↔ (x = a ∧ y = b) ∨ (x = b ∧ y = a)) := by
      intro e x y he hl
      constructor
      · rintro rfl
        unfold EndsAre at he hE
        rcases hE with hE | hE <;> rw [hE] at he <;> simp only [Prod.mk.injEq] at he <;>
          rcases he with ⟨rfl, rfl⟩ | ⟨rfl, rfl⟩ <;> simp
      · rintro (⟨rfl, rfl⟩ | ⟨rfl, rfl⟩)
        · exact edge_unique_of hI (by decide) (by decide) hlt hl hE he
        · exact edge_unique_of hI (by decide) (by decide) hlt hl hE he.symm
    rw [voroQuad_amt hQ, voroQuad_amt hQ, hQ.verts]
    simp only [sideAmt]
    have par := fun q r => para_area (q := q) (r := r) hp' hm
    obtain ⟨l1, l2, l3, l4⟩ := para_len hp' hm
    rw [show |tw (st.mesh.meanOf 2 t) (st.mesh.at0 v0) (st.mesh.at0 v1)| = _ from par _ _ (Or.inl ⟨rfl, rfl⟩),
      show |tw (st.mesh.meanOf 2 t) (st.mesh.at0 v0) (st.mesh.at0 v2)| = _ from par _ _ (Or.inr (Or.inl ⟨rfl, rfl⟩)),
      show |tw (st.mesh.meanOf 2 t) (st.mesh.at0 v1) (st.mesh.at0 v3)| = _ from par _ _ (Or.inr (Or.inr (Or.inl ⟨rfl, rfl⟩))),
      show |tw (st.mesh.meanOf 2 t) (st.mesh.at0 v2) (st.mesh.at0 v3)| = _ from par _ _ (Or.inr (Or.inr (Or.inr ⟨rfl, rfl⟩)))]
    rw [show len (st.mesh.meanOf 2 t) (circumLine (st.mesh.at0 v0) (st.mesh.at0 v1)) = _ from l1,
      show len (st.mesh.meanOf 2 t) (circumLine (st.mesh.at0 v0) (st.mesh.at0 v2)) = _ from l2,
      show len (st.mesh.meanOf 2 t) (circumLine (st.mesh.at0 v1) (st.mesh.at0 v3)) = _ from l3,
      show len (st.mesh.meanOf 2 t) (circumLine (st.mesh.at0 v2) (st.mesh.at0 v3)) = _ from l4]
    unfold quadArea
    generalize |shoelace [cornerAt st.mesh [v0, v1, v2, v3] 0, cornerAt st.mesh [v0, v1, v2, v3] 1,
      cornerAt st.mesh [v0, v1, v2, v3] 3, cornerAt st.mesh [v0, v1, v2, v3] 2]| = A
    have hn := hQ.nodup
    simp only [List.nodup_cons, List.mem_cons, List.not_mem_nil, or_false, not_or, not_false_eq_true, List.nodup_nil,
      and_true] at hn
    obtain ⟨⟨n1, n2, n3⟩, ⟨n4, n5⟩, n6⟩ := hn
    have s0 := side hQ.at0 (hQ.elt e0 (by simp))
    have s1 := side hQ.at1 (hQ.elt e1 (by simp))
    have s2 := side hQ.at2 (hQ.elt e2 (by simp))
    have s3 := side hQ.at3 (hQ.elt e3 (by simp))
    simp only [s0, s1, s2, s3, sideOf, quadSides, cornerAt, List.getD_cons_zero, List.getD_cons_succ]
    exact four_sides n3 n4 n5 n6 hab
  exact ⟨by rw [Finset.sum_congr rfl fun t ht => (key t ht).1], by rw [Finset.sum_congr rfl fun t ht => (key t ht).2]⟩

/-- The totals are the sums of the contributions; for any mesh. -/
theorem C70_contributions {d : Nat} (span : (Fin d → ℝ) → (Fin d → ℝ) → (Fin d → ℝ) → ℝ) (m : Mesh (Fin d → ℝ)) (q : VoroQ)
    (s : Nat) :
    (m.voronoiQuads span .fresh).total q s = (((m.voronoiQuads span .fresh).parts q s).map (·.2)).sum := by
  unfold Mesh.voronoiQuads
  obtain ⟨h1, h2⟩ := cells_grow _ (m.count 2) .fresh (voroQuad_grows span m) q s
  rw [h1, h2]
  show _ = partSum _
  rw [partSum_append, partSum_flatMap]
  simp only [voroQuad_same]
  rw [sum_range_list]
  simp [VoroSt.fresh, partSum]

/-- Keys of the entries appended for a cell. -/
theorem count_cells (f : Nat → List (Nat × ℝ)) (hf : ∀ c, ∀ x ∈ f c, x.1 = c) (n t : Nat) :
    (((List.range n).flatMap f).map (·.1)).count t = if t < n then (f t).length else 0 := by
  induction n with
  | zero => simp
  | succ n ih =>
    rw [List.range_succ, List.flatMap_append, List.map_append, List.count_append, ih, List.flatMap_cons, List.flatMap_nil,
      List.append_nil]
    have hr : (f n).map (·.1) = List.replicate (f n).length n := by
      rw [List.eq_replicate_iff]
      refine ⟨by simp, fun b hb => ?_⟩
      obtain ⟨x, hx, rfl⟩ := List.mem_map.1 hb
      exact hf n x hx
    rw [hr, List.count_replicate]
    by_cases h2 : t = n
    · subst h2; simp
    · have h3 : ¬ n = t := fun h => h2 h.symm
      have h4 : (t < n + 1) = (t < n) := by apply propext; omega
      simp [h3, h4]

theorem voroQuad_keys {d : Nat} (span : (Fin d → ℝ) → (Fin d → ℝ) → (Fin d → ℝ) → ℝ) (m : Mesh (Fin d → ℝ)) (q : VoroQ)
    (s c : Nat) : ∀ x ∈ (voroQuad span m c).flatMap (VoroWrite.pushed q s), x.1 = c := by
  intro x hx
  unfold voroQuad at hx
  rw [List.flatMap_assoc] at hx
  obtain ⟨e, _, hx⟩ := List.mem_flatMap.1 hx
  rw [voroPush_pushed] at hx
  cases q
  · dsimp only at hx; split at hx <;> simp_all
  · dsimp only at hx
    rw [List.mem_append] at hx
    rcases hx with hx | hx <;> split at hx <;> simp_all
  · dsimp only at hx; split at hx <;> simp_all

/-- A cell contributes once to its edges. -/
theorem C70_once_at_edges {d : Nat} {st : MState (Fin d → ℝ)} (h : Reached (cubeTopo 2) st)
    (span : (Fin d → ℝ) → (Fin d → ℝ) → (Fin d → ℝ) → ℝ) {t s : Nat} (ht : t < st.mesh.count 2) (q : VoroQ) (hq : q ≠ .vbox) :
    (((st.mesh.voronoiQuads span .fresh).parts q s).map (·.1)).count t = if s ∈ st.mesh.bndOf 2 t 1 then 1 else 0 := by
  have hI := (h.inv (cubeTopo_wf 2)).inv
  unfold Mesh.voronoiQuads
  rw [(cells_grow _ _ _ (voroQuad_grows span st.mesh) _ _).2, show VoroSt.fresh.parts q s = [] from rfl, List.nil_append,
    count_cells _ (voroQuad_keys span st.mesh q s), if_pos ht]
  unfold voroQuad
  rw [List.flatMap_assoc]
  have hnd := bndOf_nodup (cubeTopo_wf 2) hI 2 t 1
  generalize st.mesh.bndOf 2 t 1 = es at hnd
  induction es with
  | nil => simp
  | cons e es ih =>
    rw [List.nodup_cons] at hnd
    rw [List.flatMap_cons, List.length_append, ih hnd.2, voroPush_pushed]
    cases q
    · dsimp only
      by_cases hs : s = e
      · subst hs; simp [hnd.1]
      · simp [hs]
    · exact absurd rfl hq
    · dsimp only
      by_cases hs : s = e
      · subst hs; simp [hnd.1]
      · simp [hs]

/-- A cell is listed twice among the contributions to the box of each of its corners, with a part of its contribution
each time: `push_back` is called for both edges meeting at the corner. -/
theorem C70_violated_twice {d : Nat} {st : MState (Fin d → ℝ)} (h : Reached (cubeTopo 2) st)
    (span : (Fin d → ℝ) → (Fin d → ℝ) → (Fin d → ℝ) → ℝ) {t s : Nat} (ht : t < st.mesh.count 2) (hs : s ∈ st.mesh.vertsOf 2 t) :
    (((st.mesh.voronoiQuads span .fresh).parts .vbox s).map (·.1)).count t = 2 := by
  have hI := (h.inv (cubeTopo_wf 2)).inv
  unfold Mesh.voronoiQuads
  rw [(cells_grow _ _ _ (voroQuad_grows span st.mesh) _ _).2, show VoroSt.fresh.parts .vbox s = [] from rfl, List.nil_append,
    count_cells _ (voroQuad_keys span st.mesh .vbox s), if_pos ht]
  obtain ⟨e, he⟩ := lt_elems ht
  obtain ⟨v0, v1, v2, v3, e0, e1, e2, e3, hv, hQ⟩ := quadAt_of (cubeTopo_wf 2) hI (by decide) (by decide) he
  unfold voroQuad
  rw [List.flatMap_assoc, hQ.edges]
  simp only [List.flatMap_cons, List.flatMap_nil, List.append_nil, List.length_append, voroPush_pushed]
  rw [hQ.verts] at hs
  have hn := hQ.nodup
  simp only [List.nodup_cons, List.mem_cons, List.not_mem_nil, or_false, not_or, not_false_eq_true, List.nodup_nil,
    and_true] at hn hs
  obtain ⟨⟨n1, n2, n3⟩, ⟨n4, n5⟩, n6⟩ := hn
  have side : ∀ {e a b}, EndsAre st.mesh e a b → ∀ (x : Nat → ℝ),
      (if s = (st.mesh.ends e).1 then [(t, x (st.mesh.ends e).1)] else []).length
      + (if s = (st.mesh.ends e).2 then [(t, x (st.mesh.ends e).2)] else []).length
      = (if s = a then 1 else 0) + (if s = b then 1 else 0) := by
    intro e a b h x
    rcases h with h | h <;> rw [h] <;> dsimp only <;> split <;> split <;> simp
  rw [side hQ.at0 (fun v => span (st.mesh.meanOf 2 t) (st.mesh.midOf e0) (st.mesh.at0 v)),
    side hQ.at1 (fun v => span (st.mesh.meanOf 2 t) (st.mesh.midOf e1) (st.mesh.at0 v)),
    side hQ.at2 (fun v => span (st.mesh.meanOf 2 t) (st.mesh.midOf e2) (st.mesh.at0 v)),
    side hQ.at3 (fun v => span (st.mesh.meanOf 2 t) (st.mesh.midOf e3) (st.mesh.at0 v))]
  rcases hs with rfl | rfl | rfl | rfl
  · simp [n1, n2, n3]
  · simp [n4, n5, Ne.symm n1]
  · simp [n6, Ne.symm n2, Ne.symm n4]
  · simp [Ne.symm n3, Ne.symm n5, Ne.symm n6]

end Mesh

/-! ### Two rectangles and a kite -/

/-- Rectangles of sizes 2 by 1 and 2 by 3 with a common edge. -/
noncomputable def boxesOps : List (QOp (Fin 2 → ℝ)) :=
  [.mesh (.vertex none ![0, 0]), .mesh (.vertex none ![2, 0]), .mesh (.vertex none ![0, 1]), .mesh (.vertex none ![2, 1]),
   .mesh (.vertex none ![0, 4]), .mesh (.vertex none ![2, 4]), .mesh (.elem 2 [0, 1, 2, 3]), .mesh (.elem 2 [2, 3, 4, 5])]

/-- The state reached. -/
noncomputable def boxes : MState (Fin 2 → ℝ) := (MState.empty.run (cubeTopo 2) boxesOps).getD MState.empty

theorem boxes_reached : Reached (cubeTopo 2) boxes :=
  ⟨boxesOps, by simp [boxesOps, QOp.meshOps, MOp.Distinct], rfl, by unfold UniqueVids; decide⟩

theorem boxes_cells : (boxes.mesh.elems 2).map (·.verts) = [[0, 1, 2, 3], [2, 3, 4, 5]] := rfl

theorem boxes_corners (e : Elem) (he : e ∈ boxes.mesh.elems 2) :
    (cornerAt boxes.mesh e.verts 0 = ![0, 0] ∧ cornerAt boxes.mesh e.verts 1 = ![2, 0] ∧ cornerAt boxes.mesh e.verts 2 = ![0, 1]
      ∧ cornerAt boxes.mesh e.verts 3 = ![2, 1])
    ∨ (cornerAt boxes.mesh e.verts 0 = ![0, 1] ∧ cornerAt boxes.mesh e.verts 1 = ![2, 1] ∧ cornerAt boxes.mesh e.verts 2 = ![0, 4]
      ∧ cornerAt boxes.mesh e.verts 3 = ![2, 4]) := by
  have : e.verts ∈ (boxes.mesh.elems 2).map (·.verts) := List.mem_map_of_mem he
  rw [boxes_cells] at this
  simp only [List.mem_cons, List.not_mem_nil, or_false] at this
  rcases this with h | h <;> rw [h]
  · exact Or.inl ⟨rfl, rfl, rfl, rfl⟩
  · exact Or.inr ⟨rfl, rfl, rfl, rfl⟩

theorem boxes_convex : ConvexQuads boxes.mesh := by
  intro e he
  left
  unfold ConvexLexQuad
  rcases boxes_corners e he with ⟨h0, h1, h2, h3⟩ | ⟨h0, h1, h2, h3⟩ <;> rw [h0, h1, h2, h3] <;> unfold signedTriangle <;>
    norm_num

theorem boxes_para : Parallelograms boxes.mesh := by
  intro e he i
  rcases boxes_corners e he with ⟨h0, h1, h2, h3⟩ | ⟨h0, h1, h2, h3⟩ <;> rw [h0, h1, h2, h3] <;> fin_cases i <;> norm_num

/-- All hypotheses hold for this mesh.  The boxes together have area 8, a common corner has 2/4 + 6/4, the common edge
has the interface 1/2 + 3/2, the distance of the centers. -/
example : ∑ s ∈ Finset.range 6, (boxes.mesh.voronoiQuads spannedTriangle .fresh).total .vbox s = 8
    ∧ (boxes.mesh.voronoiQuads spannedTriangle .fresh).total .vbox 2 = 2
    ∧ (boxes.mesh.voronoiQuads spannedTriangle .fresh).total .area 3 = 2
    ∧ (((boxes.mesh.voronoiQuads spannedTriangle .fresh).parts .vbox 2).map (·.1)).count 1 = 2 := by
  have a1 : quadArea (cornerAt boxes.mesh [0, 1, 2, 3]) = 2 := by
    show |shoelace [![0, 0], ![2, 0], ![2, 1], ![0, 1]]| = 2
    rw [shoelace4]; norm_num
  have a2 : quadArea (cornerAt boxes.mesh [2, 3, 4, 5]) = 6 := by
    show |shoelace [![0, 1], ![2, 1], ![2, 4], ![0, 4]]| = 6
    rw [shoelace4]; norm_num
  refine ⟨?_, ?_, ?_, ?_⟩
  · have h := C70_total_volume boxes_reached boxes_convex .fresh
    rw [show boxes.mesh.verts.length = 6 from rfl] at h
    rw [h, show (boxes.mesh.elems 2).map (fun e => quadArea (cornerAt boxes.mesh e.verts))
      = [quadArea (cornerAt boxes.mesh [0, 1, 2, 3]), quadArea (cornerAt boxes.mesh [2, 3, 4, 5])] from rfl, a1, a2]
    norm_num [VoroSt.fresh]
  · rw [C70_boxes_partial boxes_reached boxes_para, show boxes.mesh.count 2 = 2 from rfl, Finset.sum_range_succ,
      Finset.sum_range_one, show boxes.mesh.vertsOf 2 0 = [0, 1, 2, 3] from rfl,
      show boxes.mesh.vertsOf 2 1 = [2, 3, 4, 5] from rfl, a1, a2]
    norm_num [VoroSt.fresh]
  · rw [(C70_interface_partial boxes_reached boxes_para .fresh (s := 3) (a := 2) (b := 3) rfl rfl).1,
      show boxes.mesh.count 2 = 2 from rfl, Finset.sum_range_succ,
      Finset.sum_range_one, show boxes.mesh.vertsOf 2 0 = [0, 1, 2, 3] from rfl,
      show boxes.mesh.vertsOf 2 1 = [2, 3, 4, 5] from rfl]
    have p0 : boxes.mesh.at0 0 = ![0, 0] := rfl
    have p2 : boxes.mesh.at0 2 = ![0, 1] := rfl
    have p4 : boxes.mesh.at0 4 = ![0, 4] := rfl
    have s9 : √(9 : ℝ) = 3 := by rw [show (9 : ℝ) = 3 ^ 2 by norm_num, Real.sqrt_sq (by norm_num)]
    simp [sideOf, quadSides, p0, p2, p4, eucl, VoroSt.fresh]
    norm_num [s9]
  · exact C70_violated_twice boxes_reached spannedTriangle (by decide) (by decide)

end VG
