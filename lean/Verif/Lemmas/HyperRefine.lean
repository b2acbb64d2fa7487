import Verif.Model.HyperRefine
import Verif.Lemmas.RefineParts
import Verif.Props.Hyperplane
import Verif.Props.RefineTet
import Verif.Props.RefineTri
import Verif.Props.RefineMesh

/-!
`hyperplane_refine`: without merging of points it is `refine_impl` with other new points; children do not keep
both ends of a marked edge.
-/

namespace VG

/-! ### No child has both ends of a marked edge -/

/-- No cell has both ends of a marked edge. -/
def cutOK (m : Nat → Bool) (cells : List (List Nat)) : Bool :=
  [(0, 1, 0), (0, 2, 1), (0, 3, 2), (1, 2, 3), (1, 3, 4), (2, 3, 5)].all fun q =>
    !(m q.2.2) || cells.all fun c => !(c.contains q.1 && c.contains q.2.1)

set_option maxRecDepth 10000 in
theorem tetTree_cut : ∀ b0 b1 b2 b3 b4 b5 : Bool,
    (tetTree (cornerFn [b0, b1, b2, b3, b4, b5])).check (fun _ => cutOK (cornerFn [b0, b1, b2, b3, b4, b5])) [] [] = true := by
  decide +kernel

section
variable {K : Type} [Field K] [LinearOrder K] [IsStrictOrderedRing K]

omit [Field K] [IsStrictOrderedRing K] in
theorem refineTet_cut (len : Nat → Nat → K) (hl : ∀ a b, len a b = len b a) (dist : Nat → Nat → K) (id : Nat → Int)
    (hid : ∀ a < 4, ∀ b < 4, id a = id b → a = b) (m : Nat → Bool) :
    ∃ cells, refineTet len dist id m = some cells ∧ cutOK (cornerFn [m 0, m 1, m 2, m 3, m 4, m 5]) cells = true := by
  obtain ⟨cells, path, h1, _, h3⟩ := RTree.check_sound (edgeOrder len hl id hid) dist (tetTree m) [] [] (by simp)
    (P := fun _ => cutOK (cornerFn [m 0, m 1, m 2, m 3, m 4, m 5])) (by rw [tetTree_list]; exact tetTree_cut _ _ _ _ _ _)
  exact ⟨cells, h1, h3⟩

/-- What is needed of the children for the sides of the plane. -/
def CutKids (n : Nat) (m : Nat → Bool) (cells : List (List Nat)) : Prop :=
  (∀ c ∈ cells, c.length = n + 1 ∧
    ∀ l ∈ c, l < n + 1 ∨ (n + 1 ≤ l ∧ l < n + 1 + (edgeIdx (n + 1)).length ∧ m (l - (n + 1)) = true)) ∧
  (∀ q a b, (edgeIdx (n + 1))[q]? = some [a, b] → m q = true → ∀ c ∈ cells, ¬ (a ∈ c ∧ b ∈ c)) ∧
  ((∀ q < (edgeIdx (n + 1)).length, m q = false) → cells = [List.range (n + 1)])

theorem tetKids_cut {P : Type} {dist : P → P → K} (hd : ∀ a b, dist a b = dist b a) :
    KidsOK (fun _ m cells => CutKids 3 m cells ∧ ∀ (p : Nat → Nat → K) (t : Nat → K), (∀ e < 6, 0 < t e ∧ t e < 1) →
      (cells.map (fun c => |childVolume6 p t c|)).sum = |tetVolume6 (p 0) (p 1) (p 2) (p 3)| ∧
      (tetVolume6 (p 0) (p 1) (p 2) (p 3) ≠ 0 → ∀ c ∈ cells, childVolume6 p t c ≠ 0)) 4 6 (tetKids dist) := by
  intro ls m hx hinj
  obtain ⟨cells, h1, _, h3⟩ := tetKids_ok hd ls m hx hinj
  have he : edgeIdx (3 + 1) = [[0, 1], [0, 2], [0, 3], [1, 2], [1, 3], [2, 3]] := by decide
  have hid : ∀ a < 4, ∀ b < 4, (ls[a]?.join.map (·.id)).getD 0 = (ls[b]?.join.map (·.id)).getD 0 → a = b := by
    intro a ha b hb h
    obtain ⟨x, hx1⟩ := hx a ha
    obtain ⟨y, hy1⟩ := hx b hb
    refine hinj a ha b hb x y hx1 hy1 ?_
    simpa [hx1, hy1] using h
  refine ⟨cells, h1, ⟨⟨fun c hc => ⟨(h3 c hc).2.1, fun l hl => ?_⟩, fun q a b hq hm c hc => ?_, fun hq => ?_⟩, fun p t ht => ?_⟩, h3⟩
  · have := (h3 c hc).2.2 l hl
    rw [he]; exact this
  · obtain ⟨cells', e1, h4⟩ := refineTet_cut (vtxDist dist ls) (vtxDist_symm hd ls) (vtxDist dist ls)
      (fun a => (ls[a]?.join.map (·.id)).getD 0) hid m
    have e2 : tetKids dist ls m = some cells' := e1
    rw [h1] at e2
    have := Option.some.inj e2
    subst this
    have h5 := List.all_eq_true.1 h4
    rw [he] at hq
    have hq6 : q < 6 := (List.getElem?_eq_some_iff.1 hq).1
    interval_cases q <;> simp at hq <;> obtain ⟨rfl, rfl⟩ := hq
    · have := h5 (0, 1, 0) (by simp)
      simp [cornerFn, hm] at this; exact fun h => (this c hc).elim (absurd h.1) (absurd h.2)
    · have := h5 (0, 2, 1) (by simp)
      simp [cornerFn, hm] at this; exact fun h => (this c hc).elim (absurd h.1) (absurd h.2)
    · have := h5 (0, 3, 2) (by simp)
      simp [cornerFn, hm] at this; exact fun h => (this c hc).elim (absurd h.1) (absurd h.2)
    · have := h5 (1, 2, 3) (by simp)
      simp [cornerFn, hm] at this; exact fun h => (this c hc).elim (absurd h.1) (absurd h.2)
    · have := h5 (1, 3, 4) (by simp)
      simp [cornerFn, hm] at this; exact fun h => (this c hc).elim (absurd h.1) (absurd h.2)
    · have := h5 (2, 3, 5) (by simp)
      simp [cornerFn, hm] at this; exact fun h => (this c hc).elim (absurd h.1) (absurd h.2)
  · rw [he] at hq
    have e2 : tetKids dist ls m = some [[0, 1, 2, 3]] := by
      have hc : markCount m = 0 := by
        simp [markCount, hq 0 (by decide), hq 1 (by decide), hq 2 (by decide), hq 3 (by decide), hq 4 (by decide), hq 5 (by decide)]
      unfold tetKids refineTet tetTree
      rw [hc]
      rfl
    rw [h1] at e2
    exact Option.some.inj e2
  · obtain ⟨cells', e1, h4⟩ := C33_volume (vtxDist dist ls) (vtxDist_symm hd ls) (vtxDist dist ls)
      (fun a => (ls[a]?.join.map (·.id)).getD 0) hid m p t ht
    have e2 : tetKids dist ls m = some cells' := e1
    rw [h1] at e2
    have := Option.some.inj e2
    subst this
    exact h4

theorem triKids_cut {P : Type} (dist : P → P → K) :
    KidsOK (fun _ m cells => CutKids 2 m cells ∧ ∀ (t : Nat → K), (∀ e < 3, 0 < t e ∧ t e < 1) →
      ∃ share : List Nat → K, (∀ c ∈ cells, 0 < share c) ∧ (cells.map share).sum = 1 ∧
        ∀ (p : Nat → Nat → K), ∀ c ∈ cells, ∀ k l, childArea2 p t k l c = share c * area2 (p 0) (p 1) (p 2) k l) 3 3 (triKids dist) := by
  intro ls m hx hinj
  obtain ⟨cells, h1, _, h3⟩ := triKids_ok dist ls m hx hinj
  have he : edgeIdx (2 + 1) = [[0, 1], [0, 2], [1, 2]] := by decide
  refine ⟨cells, h1, ⟨⟨fun c hc => ⟨(h3 c hc).2.1, fun l hl => ?_⟩, fun q a b hq hm c hc => ?_, fun hq => ?_⟩, fun t ht => ?_⟩, h3⟩
  · have := (h3 c hc).2.2 l hl
    rw [he]; exact this
  · obtain ⟨cells', e1, h4, _⟩ := C32_edges (vtxDist dist ls) m
    have e2 : triKids dist ls m = some cells' := e1
    rw [h1] at e2
    have := Option.some.inj e2
    subst this
    rw [he] at hq
    have hq6 : q < 3 := (List.getElem?_eq_some_iff.1 hq).1
    have key : ∀ x y, sharing cells x y = 0 → ¬ (x ∈ c ∧ y ∈ c) := by
      intro x y h hxy
      unfold sharing at h
      rw [List.length_eq_zero_iff, List.filter_eq_nil_iff] at h
      exact h c hc (by simpa using hxy)
    interval_cases q <;> simp at hq <;> obtain ⟨rfl, rfl⟩ := hq
    · exact key _ _ ((h4 (0, 1, 0) (by simp)).1 hm).2.2
    · exact key _ _ ((h4 (0, 2, 1) (by simp)).1 hm).2.2
    · exact key _ _ ((h4 (1, 2, 2) (by simp)).1 hm).2.2
  · rw [he] at hq
    have e2 : triKids dist ls m = some [[0, 1, 2]] := by
      simp [triKids, refineTri, hq 0 (by decide), hq 1 (by decide), hq 2 (by decide)]; rfl
    rw [h1] at e2
    exact Option.some.inj e2
  · obtain ⟨cells', e1, h4⟩ := C32_area (vtxDist dist ls) m t ht
    have e2 : triKids dist ls m = some cells' := e1
    rw [h1] at e2
    have := Option.some.inj e2
    subst this
    exact h4

end

/-! ### The vertices on the edges -/

theorem refEdges_congr {P : Type} {mark mark' : Nat → Bool} {mid : Nat → P} : ∀ {order : List Nat} {s : Mesh P × (Nat → Option Nat)},
    (∀ e ∈ order, mark e = mark' e) → refEdges mark mid s order = refEdges mark' mid s order
  | [], _, _ => rfl
  | x :: order, s, h => by
    simp only [refEdges]
    rw [h x (by simp)]
    exact refEdges_congr (fun e he => h e (by simp [he]))

section
variable {K : Type} [Field K] [LinearOrder K] {d : Nat}
variable {norm : (Fin d → K) → K} {scale : K → K} {eps : K} {h n : Fin d → K}
  {ends : Nat → (Fin d → K) × (Fin d → K)}

/-- Whether an edge is marked. -/
def hyperTag (norm : (Fin d → K) → K) (eps : K) (h n : Fin d → K) (ends : Nat → (Fin d → K) × (Fin d → K)) (e : Nat) : Bool :=
  hyperCuts h n (relTol eps (norm (fun i => (ends e).2 i - (ends e).1 i))) (ends e).1 (ends e).2

/-- The point of a marked edge. -/
def hyperMid (h n : Fin d → K) (ends : Nat → (Fin d → K) × (Fin d → K)) (e : Nat) : Fin d → K := hyperPoint h n (ends e).1 (ends e).2

theorem unique_new {P : Type} {dist : P → P → K} {m : Mesh P} {p : P} {tol : K}
    (hs : ∀ w ∈ m.verts, tol ≤ dist p w.pt) : m.makeUniqueVertex dist p tol = (m.makeVertex none p, m.verts.length) := by
  unfold Mesh.makeUniqueVertex
  have : m.verts.findIdx? (fun v => decide (dist p v.pt < tol)) = none := by
    rw [List.findIdx?_eq_none_iff]
    intro w hw
    simpa using hs w hw
  rw [this]
  simp

/-- Without points close together no vertices are merged. -/
theorem hyperMark_eq : ∀ {order visited : List Nat} {st : HyperSt K d}, order.Nodup → (∀ e ∈ order, e ∉ visited) →
    (∀ e ∈ order, ∀ f, f ∈ visited ∨ f ∈ order → e ≠ f → hyperTag norm eps h n ends e = true → hyperTag norm eps h n ends f = true →
      scale (norm (hyperMid h n ends e)) ≤ norm (fun i => hyperMid h n ends e i - hyperMid h n ends f i)) →
    (∀ w ∈ st.dst.verts, ∃ f ∈ visited, hyperTag norm eps h n ends f = true ∧ w.pt = hyperMid h n ends f) →
    ((hyperMark norm scale eps h n ends st order).dst, (hyperMark norm scale eps h n ends st order).vtx) =
      refEdges (hyperTag norm eps h n ends) (hyperMid h n ends) (st.dst, st.vtx) order ∧
    ∀ e ∈ order, (hyperMark norm scale eps h n ends st order).mark e = hyperTag norm eps h n ends e
  | [], _, _, _, _, _, _ => ⟨rfl, by simp⟩
  | x :: order, visited, st, hn, hv, hsep, hw => by
    obtain ⟨hx, hn⟩ := List.nodup_cons.1 hn
    have hs : hyperMark norm scale eps h n ends st (x :: order) =
        hyperMark norm scale eps h n ends (hyperEdge norm scale eps h n ends st x) order := by simp [hyperMark]
    have hE : hyperEdge norm scale eps h n ends st x = if hyperTag norm eps h n ends x then
        ⟨st.dst.makeVertex none (hyperMid h n ends x), setMark st.mark x, fun y => if y = x then some st.dst.verts.length else st.vtx y⟩
      else { st with mark := fun y => if y = x then false else st.mark y } := by
      unfold hyperEdge
      simp only
      by_cases ht : hyperTag norm eps h n ends x = true
      · rw [if_pos ht, if_pos (show hyperCuts h n (relTol eps (norm fun i => (ends x).2 i - (ends x).1 i)) (ends x).1 (ends x).2 = true from ht)]
        have := unique_new (dist := fun a b : Fin d → K => norm (fun i => a i - b i)) (m := st.dst) (p := hyperMid h n ends x)
          (tol := scale (norm (hyperMid h n ends x))) (by
            intro w hw'
            obtain ⟨f, hf, hft, hfe⟩ := hw w hw'
            rw [hfe]
            exact hsep x (by simp) f (Or.inl hf) (fun h' => hv x (by simp) (h' ▸ hf)) ht hft)
        unfold Mesh.makeUniqueVertexDefault
        show HyperSt.mk (Mesh.makeUniqueVertex (fun a b => norm fun i => a i - b i) st.dst (hyperMid h n ends x) _).1 _ _ = _
        have e2 : hyperPoint h n (ends x).1 (ends x).2 = hyperMid h n ends x := rfl
        rw [e2, this]
      · rw [if_neg ht, if_neg (show ¬ hyperCuts h n (relTol eps (norm fun i => (ends x).2 i - (ends x).1 i)) (ends x).1 (ends x).2 = true from ht)]
    rw [hs]
    have hv' : ∀ e ∈ order, e ∉ x :: visited := by
      intro e he
      simp only [List.mem_cons, not_or]
      exact ⟨fun h' => hx (h' ▸ he), hv e (by simp [he])⟩
    have hsep' : ∀ e ∈ order, ∀ f, f ∈ x :: visited ∨ f ∈ order → e ≠ f → hyperTag norm eps h n ends e = true →
        hyperTag norm eps h n ends f = true →
        scale (norm (hyperMid h n ends e)) ≤ norm (fun i => hyperMid h n ends e i - hyperMid h n ends f i) := by
      intro e he f hf
      refine hsep e (by simp [he]) f ?_
      rcases hf with hf | hf
      · rcases List.mem_cons.1 hf with rfl | hf
        · right; simp
        · left; exact hf
      · right; simp [hf]
    have hmark : (hyperEdge norm scale eps h n ends st x).mark x = hyperTag norm eps h n ends x := by
      rw [hE]; split
      · rename_i ht; rw [ht]; simp [setMark]
      · rename_i ht; simp [ht]
    have key := hyperMark_eq (visited := x :: visited) (st := hyperEdge norm scale eps h n ends st x) hn hv' hsep' (by
      intro w hw'
      rw [hE] at hw'
      split at hw'
      · rename_i ht
        simp only [Mesh.makeVertex, List.mem_append, List.mem_singleton] at hw'
        rcases hw' with hw' | rfl
        · obtain ⟨f, h1, h2⟩ := hw w hw'
          exact ⟨f, by simp [h1], h2⟩
        · exact ⟨x, by simp, ht, rfl⟩
      · obtain ⟨f, h1, h2⟩ := hw w hw'
        exact ⟨f, by simp [h1], h2⟩)
    refine ⟨?_, ?_⟩
    · rw [key.1, refEdges]
      congr 1
      rw [hE]; split <;> rfl
    · intro e he
      rcases List.mem_cons.1 he with rfl | he
      · rw [(hyperMark_keep order _ e hx).1, hmark]
      · exact key.2 e he

end

/-! ### The cells -/

section
variable {K : Type} [Field K] [LinearOrder K] [IsStrictOrderedRing K] {d : Nat}

/-- The point of the vertex `a` of a cell. -/
def Mesh.cornerF (m : Mesh (Fin d → K)) (n t a : Nat) : Fin d → K := (m.ptOf ((m.vertsOf n t).getD a 0)).getD (fun _ => 0)

/-- The point of a label: a vertex, or the point of an edge on the plane. -/
def hyperLabel (n : Nat) (h nr : Fin d → K) (p : Nat → Fin d → K) (l : Nat) : Fin d → K :=
  if l < n + 1 then p l
  else match (edgeIdx (n + 1))[l - (n + 1)]? with
    | some [a, b] => hyperPoint h nr (p a) (p b)
    | _ => fun _ => 0

omit [LinearOrder K] [IsStrictOrderedRing K] in
theorem cornerF_spec {n : Nat} (hn : 1 ≤ n) {m : Mesh (Fin d → K)} (hI : Inv (simplexTopo n) m) {t a : Nat} (ht : t < m.count n)
    (ha : a < n + 1) : m.ptOf ((m.vertsOf n t).getD a 0) = some (m.cornerF n t a) := by
  have ht' : t < (m.elems n).length := by simpa [Mesh.count, show n ≠ 0 by omega] using ht
  have hvo : m.vertsOf n t = (m.elems n)[t].verts := by
    unfold Mesh.vertsOf
    rw [List.getD_eq_getElem _ _ (by simpa using ht')]; simp
  obtain ⟨_, hvl, hvv⟩ := hI.verts n _ (List.getElem_mem ht')
  rw [← hvo] at hvl hvv
  have hvl : (m.vertsOf n t).length = n + 1 := hvl.fixed
  have h1 : (m.vertsOf n t).getD a 0 < m.verts.length := by
    rw [List.getD_eq_getElem _ _ (by omega)]; exact hvv _ (List.getElem_mem _)
  unfold Mesh.cornerF Mesh.ptOf
  rw [List.getElem?_eq_getElem h1]; rfl

omit [LinearOrder K] [IsStrictOrderedRing K] in
theorem edgeEnds_spec {n : Nat} (hn : 2 ≤ n) {m : Mesh (Fin d → K)} (hI : Inv (simplexTopo n) m) {t : Nat} (ht : t < m.count n)
    {p e : Nat} (he : (m.bndOf n t 1)[p]? = some e) : ∃ a b, (edgeIdx (n + 1))[p]? = some [a, b] ∧ a < n + 1 ∧ b < n + 1 ∧
      (edgeEnds m e = (m.cornerF n t a, m.cornerF n t b) ∨ edgeEnds m e = (m.cornerF n t b, m.cornerF n t a)) ∧
      cellPoints m 1 e = [(edgeEnds m e).1, (edgeEnds m e).2] := by
  obtain ⟨a, b, f, h1, hab, hb, h2, h3⟩ := (simplex_edge hn hI ht).2 p e he
  have e1 : m.vertsOf 1 e = f.verts := by
    obtain ⟨q, rfl⟩ := List.getElem?_eq_some_iff.1 h2
    unfold Mesh.vertsOf
    rw [List.getD_eq_getElem _ _ (by simpa using q)]; simp
  have pa := cornerF_spec (by omega) hI ht (a := a) (by omega)
  have pb := cornerF_spec (by omega) hI ht (a := b) (by omega)
  refine ⟨a, b, h1, by omega, hb, ?_⟩
  have hf : f.verts = [(m.vertsOf n t).getD a 0, (m.vertsOf n t).getD b 0] ∨
      f.verts = [(m.vertsOf n t).getD b 0, (m.vertsOf n t).getD a 0] := by
    have := h3.length_eq
    match hfv : f.verts, this with
    | [x, y], _ =>
      rw [hfv] at h3
      have hx : x ∈ [(m.vertsOf n t).getD a 0, (m.vertsOf n t).getD b 0] := h3.mem_iff.1 (by simp)
      simp only [List.mem_cons, List.not_mem_nil, or_false] at hx
      rcases hx with rfl | rfl
      · have := (List.perm_cons _).1 h3
        simp only [List.perm_singleton, List.cons.injEq, and_true] at this
        left; rw [this]
      · have h4 := h3.trans (List.Perm.swap _ _ _)
        have := (List.perm_cons _).1 h4
        simp only [List.perm_singleton, List.cons.injEq, and_true] at this
        right; rw [this]
  unfold edgeEnds cellPoints
  rcases hf with hf | hf
  · rw [e1, hf]
    simp only [List.map_cons, List.map_nil, List.filterMap_cons, List.filterMap_nil, pa, pb]
    simp
  · rw [e1, hf]
    simp only [List.map_cons, List.map_nil, List.filterMap_cons, List.filterMap_nil, pa, pb]
    simp

omit [IsStrictOrderedRing K] in
theorem CutBy.symm {h nr : Fin d → K} {tol : K} {a b : Fin d → K} (hc : CutBy h nr tol a b) : CutBy h nr tol b a := Or.symm hc

omit [LinearOrder K] [IsStrictOrderedRing K] in
theorem hyperPoint_symm {h nr a b : Fin d → K} (hne : hyperDist h nr a ≠ hyperDist h nr b) :
    hyperPoint h nr a b = hyperPoint h nr b a := by
  funext i
  simp only [hyperPoint]
  have h1 : hyperDist h nr b - hyperDist h nr a ≠ 0 := sub_ne_zero.2 (Ne.symm hne)
  have h2 : hyperDist h nr a - hyperDist h nr b ≠ 0 := sub_ne_zero.2 hne
  field_simp
  ring

theorem cutBy_ne {h nr : Fin d → K} {tol : K} (htol : 0 ≤ tol) {a b : Fin d → K} (hc : CutBy h nr tol a b) :
    hyperDist h nr a ≠ hyperDist h nr b := by
  rw [hyperDist_eq, hyperDist_eq]
  rcases hc with ⟨h1, h2⟩ | ⟨h1, h2⟩ <;> intro h' <;> linarith

theorem cellPoints_labels {P : Type} {n : Nat} {m : Mesh P} {i : Nat} {ls : List Nat} {f : Nat → P}
    (h : (m.vertsOf n i).map m.ptOf = ls.map (fun l => some (f l))) : cellPoints m n i = ls.map f := by
  unfold cellPoints
  have h1 : (m.vertsOf n i).filterMap m.ptOf = ((m.vertsOf n i).map m.ptOf).filterMap id := by
    rw [List.filterMap_map]; rfl
  rw [h1, h, List.filterMap_map]
  exact congrFun (List.filterMap_eq_map (f := f)) ls

omit [LinearOrder K] [IsStrictOrderedRing K] in
theorem cellPoints_cornerF {n : Nat} (hn : 1 ≤ n) {m : Mesh (Fin d → K)} (hI : Inv (simplexTopo n) m) {t : Nat} (ht : t < m.count n) :
    cellPoints m n t = (List.range (n + 1)).map (m.cornerF n t) := by
  have ht' : t < (m.elems n).length := by simpa [Mesh.count, show n ≠ 0 by omega] using ht
  have hvo : m.vertsOf n t = (m.elems n)[t].verts := by
    unfold Mesh.vertsOf
    rw [List.getD_eq_getElem _ _ (by simpa using ht')]; simp
  obtain ⟨_, hvl, hvv⟩ := hI.verts n _ (List.getElem_mem ht')
  rw [← hvo] at hvl hvv
  have hvl : (m.vertsOf n t).length = n + 1 := hvl.fixed
  refine cellPoints_labels ?_
  refine List.ext_getElem? (fun a => ?_)
  simp only [List.getElem?_map]
  by_cases ha : a < n + 1
  · rw [List.getElem?_eq_getElem (l := m.vertsOf n t) (by omega), List.getElem?_eq_getElem (by simpa using ha)]
    have := cornerF_spec hn hI ht ha
    rw [List.getD_eq_getElem _ _ (by omega)] at this
    simp [this]
  · rw [List.getElem?_eq_none (l := m.vertsOf n t) (by omega), List.getElem?_eq_none (by simp; omega)]; rfl

/-- All of `hyperplane_refine` if no vertices are merged. -/
theorem hyper_parts {n : Nat} (hn : 2 ≤ n) {src : SegState (Fin d → K)} (hsrc : SegReached (simplexTopo n) src)
    {kids : List (Option (Vtx (Fin d → K))) → (Nat → Bool) → Option (List (List Nat))}
    {Q : List (Option (Vtx (Fin d → K))) → (Nat → Bool) → List (List Nat) → Prop}
    (hk : KidsOK Q (n + 1) (edgeIdx (n + 1)).length kids)
    {norm : (Fin d → K) → K} {scale : K → K} {eps : K} {h nr : Fin d → K} {order : List Nat}
    (hord : order.Nodup) (hall : ∀ e, e ∈ order ↔ e < src.mesh.count 1)
    (hsep : ∀ e < src.mesh.count 1, ∀ f < src.mesh.count 1, e ≠ f → hyperTag norm eps h nr (edgeEnds src.mesh) e = true →
      hyperTag norm eps h nr (edgeEnds src.mesh) f = true → scale (norm (hyperMid h nr (edgeEnds src.mesh) e)) ≤
        norm (fun i => hyperMid h nr (edgeEnds src.mesh) e i - hyperMid h nr (edgeEnds src.mesh) f i)) :
    ∃ (r : RefSt (Fin d → K)) (C : Nat → List (List Nat)) (R : Nat → List (Option (Vtx (Fin d → K)))) (mark : Nat → Bool),
      hyperRefine (simplexTopo n) src kids norm scale eps h nr order = some r ∧
      SegReached (simplexTopo n) r.out ∧ VidsCont r.out.mesh ∧
      r.out.mesh.count n = r.kids.length ∧
      r.kids = (List.range (src.mesh.count n)).flatMap (fun t => (C t).map (fun ls => (t, ls))) ∧
      (∀ i t ls, r.kids[i]? = some (t, ls) → t < src.mesh.count n ∧
        (r.out.mesh.vertsOf n i).map r.out.mesh.ptOf = ls.map (fun l => some (hyperLabel n h nr (src.mesh.cornerF n t) l)) ∧
        ∀ g, g ∈ r.out.segmentIds n i ↔ g ∈ src.segmentIds n t) ∧
      (∀ t < src.mesh.count n, Q (R t) (fun i => mark ((src.mesh.bndOf n t 1).getD i 0)) (C t)) ∧
      ∀ e < src.mesh.count 1, mark e = hyperTag norm eps h nr (edgeEnds src.mesh) e := by
  have hI := (hsrc.inv (simplexTopo_wf n) (simplexTopo_closed n)).mesh
  obtain ⟨h1, h2⟩ := hyperMark_eq (norm := norm) (scale := scale) (eps := eps) (h := h) (n := nr) (ends := edgeEnds src.mesh)
    (order := order) (visited := []) (st := ⟨Mesh.empty, fun _ => false, fun _ => none⟩) hord (by simp)
    (fun e he f hf hef => hsep e ((hall e).1 he) f ((hall f).1 (by simpa using hf)) hef) (by simp [Mesh.empty])
  generalize hs : hyperMark norm scale eps h nr (edgeEnds src.mesh) ⟨Mesh.empty, fun _ => false, fun _ => none⟩ order = s at h1 h2
  have h3 : (s.dst, s.vtx) = refEdges s.mark (hyperMid h nr (edgeEnds src.mesh)) (Mesh.empty, fun _ => none) order := by
    rw [h1]; exact refEdges_congr (fun e he => (h2 e he).symm)
  have h4 : hyperRefine (simplexTopo n) src kids norm scale eps h nr order =
      refineMesh (simplexTopo n) src kids s.mark (hyperMid h nr (edgeEnds src.mesh)) order := by
    unfold hyperRefine refineMesh
    simp only [hs, ← h3]
  have htag : ∀ e < src.mesh.count 1, s.mark e = hyperTag norm eps h nr (edgeEnds src.mesh) e := fun e he => h2 e ((hall e).2 he)
  obtain ⟨r, C, R, e1, g1, g2, g3, g4, g5, g6⟩ := refine_parts_gen hn hsrc hk s.mark (hyperMid h nr (edgeEnds src.mesh)) hord
    (fun e he => (hall e).2 he) (lab := fun t => hyperLabel n h nr (src.mesh.cornerF n t)) (by
      intro t ht a ha
      rw [cornerF_spec (by omega) hI ht ha]
      unfold hyperLabel; rw [if_pos ha]) (by
      intro t ht p e he hm
      have hecount : e < src.mesh.count 1 := bndOf_valid hI (List.mem_of_getElem? he)
      obtain ⟨a, b, k1, k2, k3, k4, _⟩ := edgeEnds_spec hn hI ht he
      rw [htag e hecount] at hm
      unfold hyperLabel hyperMid
      rw [if_neg (by omega), show n + 1 + p - (n + 1) = p by omega, k1]
      simp only
      have hc := cutBy_ne (relTol_nonneg _ _) ((C38_marks h nr (relTol_nonneg _ _) _ _).1 hm)
      rcases k4 with k4 | k4
      · rw [k4]
      · rw [k4] at hc ⊢
        exact hyperPoint_symm hc)
  exact ⟨r, C, R, s.mark, h4.trans e1, g1, g2, g3, g4, g5, g6, htag⟩

end

end VG
