import Verif.Lemmas.VoronoiTets

/-!
The facets and edges of the tetrahedra of a mesh, in terms of the vertices.
-/

namespace VG

/-- A tetrahedron of the mesh. -/
structure TetAt {P : Type} (m : Mesh P) (c v0 v1 v2 v3 f0 f1 f2 f3 : Nat) : Prop where
  verts : m.vertsOf 3 c = [v0, v1, v2, v3]
  facets : m.bndOf 3 c 2 = [f0, f1, f2, f3]
  nodup : [v0, v1, v2, v3].Nodup
  at0 : (m.vertsOf 2 f0).Perm [v0, v1, v2]
  at1 : (m.vertsOf 2 f1).Perm [v0, v1, v3]
  at2 : (m.vertsOf 2 f2).Perm [v0, v2, v3]
  at3 : (m.vertsOf 2 f3).Perm [v1, v2, v3]

section
variable {P : Type} {m : Mesh P}

theorem elem_of_lt {k c : Nat} (hk : k ≠ 0) (hc : c < m.count k) : ∃ e, (m.elems k)[c]? = some e := by
  have : m.count k = (m.elems k).length := by unfold Mesh.count; rw [if_neg hk]
  rw [this] at hc
  exact ⟨_, List.getElem?_eq_getElem hc⟩

theorem vertsOf_elem {k c : Nat} {e : Elem} (he : (m.elems k)[c]? = some e) : m.vertsOf k c = e.verts := by
  simp [Mesh.vertsOf, he]

theorem tetAt_of (hI : Inv (simplexTopo 3) m) {c : Nat} (hc : c < m.count 3) :
    ∃ v0 v1 v2 v3 f0 f1 f2 f3, TetAt m c v0 v1 v2 v3 f0 f1 f2 f3 := by
  obtain ⟨e, he⟩ := elem_of_lt (by omega) hc
  have hem := List.mem_of_getElem? he
  obtain ⟨hn, hl, hlt⟩ := hI.verts 3 e hem
  have hnv : (simplexTopo 3).nv 3 = 4 := by decide
  replace hl := hl.fixed
  rw [hnv] at hl
  match hv : e.verts, hl with
  | [v0, v1, v2, v3], _ =>
    rw [hv] at hn
    have hlay : (2, [[0, 1, 2], [0, 1, 3], [0, 2, 3], [1, 2, 3]]) ∈ (simplexTopo 3).layers 3 e.verts.length := by rw [hv]; simp only [List.length_cons, List.length_nil]; decide
    obtain ⟨refs, h1, h2⟩ := (hI.bnd 3 e hem).lookup ((simplexTopo_wf 3).once 3 _) hlay
    have hbs : m.bndOf 3 c 2 = refs.map (·.1) := by
      unfold Mesh.bndOf; rw [he]; simp only [show (2 : Nat) ≠ 0 by decide, if_false]; unfold Elem.bndSlots; rw [h1]
    rw [hv] at h2
    cases h2 with | cons a0 h2 =>
    cases h2 with | cons a1 h2 =>
    cases h2 with | cons a2 h2 =>
    cases h2 with | cons a3 h2 =>
    cases h2
    obtain ⟨g0, k0, p0, _⟩ := a0
    obtain ⟨g1, k1, p1, _⟩ := a1
    obtain ⟨g2, k2, p2, _⟩ := a2
    obtain ⟨g3, k3, p3, _⟩ := a3
    refine ⟨v0, v1, v2, v3, _, _, _, _, ⟨by rw [vertsOf_elem he, hv], hbs, hn, ?_, ?_, ?_, ?_⟩⟩
    · rw [vertsOf_elem k0]; exact p0
    · rw [vertsOf_elem k1]; exact p1
    · rw [vertsOf_elem k2]; exact p2
    · rw [vertsOf_elem k3]; exact p3

theorem facetAt_of (hI : Inv (simplexTopo 3) m) {f : Nat} (hf : f < m.count 2) :
    ∃ w0 w1 w2 e0 e1 e2, TriAt m f w0 w1 w2 e0 e1 e2 := by
  obtain ⟨e, he⟩ := elem_of_lt (by omega) hf
  have hem := List.mem_of_getElem? he
  obtain ⟨hn, hl, hlt⟩ := hI.verts 2 e hem
  have hnv : (simplexTopo 3).nv 2 = 3 := by decide
  replace hl := hl.fixed
  rw [hnv] at hl
  match hv : e.verts, hl with
  | [v0, v1, v2], _ =>
    rw [hv] at hn hlt
    have hlay : (1, [[0, 1], [0, 2], [1, 2]]) ∈ (simplexTopo 3).layers 2 e.verts.length := by rw [hv]; simp only [List.length_cons, List.length_nil]; decide
    obtain ⟨refs, h1, h2⟩ := (hI.bnd 2 e hem).lookup ((simplexTopo_wf 3).once 2 _) hlay
    have hbs : m.bndOf 2 f 1 = refs.map (·.1) := by
      unfold Mesh.bndOf; rw [he]; simp only [Nat.one_ne_zero, if_false]; unfold Elem.bndSlots; rw [h1]
    have hnd := bndOf_nodup (simplexTopo_wf 3) hI 2 f 1
    rw [hbs] at hnd
    rw [hv] at h2
    cases h2 with | cons a0 h2 =>
    cases h2 with | cons a1 h2 =>
    cases h2 with | cons a2 h2 =>
    cases h2
    obtain ⟨f0, g0, p0, _⟩ := a0
    obtain ⟨f1, g1, p1, _⟩ := a1
    obtain ⟨f2, g2, p2, _⟩ := a2
    simp only [List.map_cons, List.map_nil, List.nodup_cons, List.mem_cons, List.not_mem_nil, or_false, not_or,
      not_false_eq_true, List.nodup_nil, and_true] at hnd hn hlt
    refine ⟨v0, v1, v2, _, _, _, ⟨?_, hbs, hn.1.1, hn.1.2, hn.2, hnd.1.1, hnd.1.2, hnd.2, ends_of g0 p0, ends_of g1 p1,
      ends_of g2 p2, hlt v0 (Or.inl rfl), hlt v1 (Or.inr (Or.inl rfl)), hlt v2 (Or.inr (Or.inr rfl))⟩⟩
    simp [Mesh.vertsOf, he, hv]

theorem facet_lt (hI : Inv (simplexTopo 3) m) {c f : Nat} (hf : f ∈ m.bndOf 3 c 2) : f < m.count 2 := bndOf_valid hI hf

theorem edge_lt (hI : Inv (simplexTopo 3) m) {f e : Nat} (he : e ∈ m.bndOf 2 f 1) : e < m.count 1 := bndOf_valid hI he

theorem facet_nodup (hI : Inv (simplexTopo 3) m) {f : Nat} (hf : f < m.count 2) :
    (m.vertsOf 2 f).Nodup ∧ (m.vertsOf 2 f).length = 3 := by
  obtain ⟨w0, w1, w2, _, _, _, h⟩ := facetAt_of hI hf
  rw [h.verts]
  exact ⟨by simp [h.n01, h.n02, h.n12], rfl⟩

theorem tet_nodup (hI : Inv (simplexTopo 3) m) {c : Nat} (hc : c < m.count 3) :
    (m.vertsOf 3 c).Nodup ∧ (m.vertsOf 3 c).length = 4 := by
  obtain ⟨v0, v1, v2, v3, _, _, _, _, h⟩ := tetAt_of hI hc
  rw [h.verts]
  exact ⟨h.nodup, rfl⟩

/-- A list without repetitions inside another that is not longer. -/
theorem perm_of_subset {l l' : List Nat} (hn : l.Nodup) (hs : l ⊆ l') (hl : l'.length ≤ l.length) : l.Perm l' :=
  (hn.subperm hs).perm_of_length_le hl

theorem perm_of_nodup_mem {l l' : List Nat} (h : l.Nodup) (h' : l'.Nodup) (hm : ∀ x, x ∈ l ↔ x ∈ l') : l.Perm l' :=
  (List.perm_ext_iff_of_nodup h h').2 hm

/-- Each three vertices of a cell are a facet of it. -/
theorem facet_exists (hI : Inv (simplexTopo 3) m) {c : Nat} (hc : c < m.count 3) {l : List Nat} (hn : l.Nodup)
    (hl : l.length = 3) (hs : l ⊆ m.vertsOf 3 c) : ∃ f ∈ m.bndOf 3 c 2, (m.vertsOf 2 f).Perm l := by
  obtain ⟨v0, v1, v2, v3, f0, f1, f2, f3, h⟩ := tetAt_of hI hc
  rw [h.verts] at hs
  rw [h.facets]
  have key : ∀ {x : Nat} {t : List Nat}, t.length = 3 → x ∉ l → (∀ y ∈ [v0, v1, v2, v3], y = x ∨ y ∈ t) → l.Perm t := by
    intro x t ht hx hy
    refine perm_of_subset hn (fun y hyl => ?_) (by omega)
    rcases hy y (hs hyl) with rfl | h
    · exact absurd hyl hx
    · exact h
  by_cases h3 : v3 ∈ l
  · by_cases h2 : v2 ∈ l
    · by_cases h1 : v1 ∈ l
      · by_cases h0 : v0 ∈ l
        · have := (h.nodup.subperm (l₂ := l) (by
            intro y hy
            simp only [List.mem_cons, List.not_mem_nil, or_false] at hy
            rcases hy with rfl | rfl | rfl | rfl <;> assumption)).length_le
          rw [hl] at this
          simp at this
        · exact ⟨f3, by simp, h.at3.trans (key rfl h0 (by simp)).symm⟩
      · exact ⟨f2, by simp, h.at2.trans (key rfl h1 (by simp)).symm⟩
    · exact ⟨f1, by simp, h.at1.trans (key rfl h2 (by simp)).symm⟩
  · exact ⟨f0, by simp, h.at0.trans (key rfl h3 (by simp)).symm⟩

/-- A facet is given by its vertices. -/
theorem facet_same (hI : Inv (simplexTopo 3) m) {f g : Nat} (hf : f < m.count 2) (hg : g < m.count 2)
    (h : (m.vertsOf 2 f).Perm (m.vertsOf 2 g)) : f = g := by
  obtain ⟨e, he⟩ := elem_of_lt (by omega) hf
  obtain ⟨e', he'⟩ := elem_of_lt (by omega) hg
  rw [vertsOf_elem he, vertsOf_elem he'] at h
  exact hI.slot_unique (by decide) he he' h

theorem facet_subset (hI : Inv (simplexTopo 3) m) {c f : Nat} (hc : c < m.count 3) (hf : f ∈ m.bndOf 3 c 2) :
    m.vertsOf 2 f ⊆ m.vertsOf 3 c := by
  obtain ⟨v0, v1, v2, v3, f0, f1, f2, f3, h⟩ := tetAt_of hI hc
  rw [h.facets] at hf
  rw [h.verts]
  simp only [List.mem_cons, List.not_mem_nil, or_false] at hf
  intro x hx
  rcases hf with rfl | rfl | rfl | rfl
  · have := h.at0.subset hx; simp at this ⊢; omega
  · have := h.at1.subset hx; simp at this ⊢; omega
  · have := h.at2.subset hx; simp at this ⊢; omega
  · have := h.at3.subset hx; simp at this ⊢; omega

/-- The facets of a cell are those whose vertices it has. -/
theorem facet_mem (hI : Inv (simplexTopo 3) m) {c f : Nat} (hc : c < m.count 3) (hf : f < m.count 2) :
    f ∈ m.bndOf 3 c 2 ↔ m.vertsOf 2 f ⊆ m.vertsOf 3 c := by
  constructor
  · exact facet_subset hI hc
  · intro hs
    obtain ⟨hn, hl⟩ := facet_nodup hI hf
    obtain ⟨g, hg, hp⟩ := facet_exists hI hc hn hl hs
    rw [← facet_same hI (facet_lt hI hg) hf hp]
    exact hg

theorem ends_ne3 (hI : Inv (simplexTopo 3) m) {e : Nat} (he : e < m.count 1) : (m.ends e).1 ≠ (m.ends e).2 := by
  obtain ⟨el, hel⟩ := elem_of_lt (by omega) he
  obtain ⟨hn, hl, _⟩ := hI.verts 1 el (List.mem_of_getElem? hel)
  have hnv : (simplexTopo 3).nv 1 = 2 := by decide
  replace hl := hl.fixed
  rw [hnv] at hl
  unfold Mesh.ends
  rw [vertsOf_elem hel]
  match hv : el.verts, hl with
  | [a, b], _ =>
    rw [hv] at hn
    simpa using hn

/-- The edges of a facet are those whose ends it has; the remaining vertex. -/
theorem edge_third (hI : Inv (simplexTopo 3) m) {f e : Nat} (hf : f < m.count 2) (he : e ∈ m.bndOf 2 f 1) :
    ∃ w, (m.vertsOf 2 f).Perm [(m.ends e).1, (m.ends e).2, w] := by
  obtain ⟨w0, w1, w2, e0, e1, e2, h⟩ := facetAt_of hI hf
  rw [h.edges] at he
  rw [h.verts]
  simp only [List.mem_cons, List.not_mem_nil, or_false] at he
  have sw : ∀ a b c : Nat, [a, b, c].Perm [b, a, c] := fun a b c => List.Perm.swap _ _ _
  have rot : ∀ a b c : Nat, [a, b, c].Perm [b, c, a] := fun a b c => List.perm_append_comm (l₁ := [a]) (l₂ := [b, c])
  rcases he with rfl | rfl | rfl
  · rcases h.at0 with k | k <;> rw [k]
    · exact ⟨w2, List.Perm.refl _⟩
    · exact ⟨w2, sw _ _ _⟩
  · rcases h.at1 with k | k <;> rw [k]
    · exact ⟨w1, (List.Perm.swap _ _ _).cons _⟩
    · exact ⟨w1, (rot _ _ _).trans (rot _ _ _)⟩
  · rcases h.at2 with k | k <;> rw [k]
    · exact ⟨w0, rot _ _ _⟩
    · exact ⟨w0, (rot _ _ _).trans (sw _ _ _)⟩

theorem edge_mem (hI : Inv (simplexTopo 3) m) {f e : Nat} (hf : f < m.count 2) (he : e < m.count 1)
    (h1 : (m.ends e).1 ∈ m.vertsOf 2 f) (h2 : (m.ends e).2 ∈ m.vertsOf 2 f) : e ∈ m.bndOf 2 f 1 := by
  obtain ⟨w0, w1, w2, e0, e1, e2, h⟩ := facetAt_of hI hf
  have hne := ends_ne3 hI he
  have lt : ∀ x ∈ m.bndOf 2 f 1, x < m.count 1 := fun x hx => edge_lt hI hx
  rw [h.edges] at lt
  rw [h.edges]
  rw [h.verts] at h1 h2
  have key : ∀ {x a b : Nat}, x ∈ [e0, e1, e2] → EndsAre m x a b → EndsAre m e a b → e ∈ [e0, e1, e2] := by
    intro x a b hx hxe hee
    rw [edge_unique_of hI (by decide) (by decide) he (lt x hx) hee hxe]
    exact hx
  have pr : m.ends e = ((m.ends e).1, (m.ends e).2) := rfl
  generalize (m.ends e).1 = a at *
  generalize (m.ends e).2 = b at *
  simp only [List.mem_cons, List.not_mem_nil, or_false] at h1 h2
  rcases h1 with rfl | rfl | rfl <;> rcases h2 with rfl | rfl | rfl
  · exact absurd rfl hne
  · exact key (x := e0) (by simp) h.at0 (Or.inl pr)
  · exact key (x := e1) (by simp) h.at1 (Or.inl pr)
  · exact key (x := e0) (by simp) h.at0 (Or.inr pr)
  · exact absurd rfl hne
  · exact key (x := e2) (by simp) h.at2 (Or.inl pr)
  · exact key (x := e1) (by simp) h.at1 (Or.inr pr)
  · exact key (x := e2) (by simp) h.at2 (Or.inr pr)
  · exact absurd rfl hne

/-- The remaining vertex of a cell. -/
theorem facet_apex (hI : Inv (simplexTopo 3) m) {c f a b w : Nat} (hc : c < m.count 3) (hf : f ∈ m.bndOf 3 c 2)
    (hp : (m.vertsOf 2 f).Perm [a, b, w]) : ∃ p, (m.vertsOf 3 c).Perm [a, b, w, p] := by
  have hs := facet_subset hI hc hf
  obtain ⟨hn, hl⟩ := tet_nodup hI hc
  obtain ⟨hn', _⟩ := facet_nodup hI (facet_lt hI hf)
  have hn'' := hp.nodup_iff.1 hn'
  have ex : ∃ p ∈ m.vertsOf 3 c, p ∉ [a, b, w] := by
    by_contra h
    push Not at h
    have := (hn.subperm h).length_le
    rw [hl] at this
    simp at this
  obtain ⟨p, hp1, hp2⟩ := ex
  refine ⟨p, (perm_of_subset ?_ ?_ (by rw [hl]; simp)).symm⟩
  · simp only [List.nodup_cons, List.mem_cons, List.not_mem_nil, or_false, not_or, not_false_eq_true, List.nodup_nil,
      and_true] at *
    exact ⟨⟨hn''.1.1, hn''.1.2, Ne.symm hp2.1⟩, ⟨hn''.2, Ne.symm hp2.2.1⟩, Ne.symm hp2.2.2⟩
  · intro x hx
    simp only [List.mem_cons, List.not_mem_nil, or_false] at hx
    have hs' : ∀ y ∈ [a, b, w], y ∈ m.vertsOf 3 c := fun y hy => hs (hp.symm.subset hy)
    rcases hx with rfl | rfl | rfl | rfl
    · exact hs' _ (by simp)
    · exact hs' _ (by simp)
    · exact hs' _ (by simp)
    · exact hp1

/-- The two facets of a cell at an edge. -/
theorem facets_at_edge (hI : Inv (simplexTopo 3) m) {c e x y : Nat} (hc : c < m.count 3) (he : e < m.count 1)
    (hp : (m.vertsOf 3 c).Perm [(m.ends e).1, (m.ends e).2, x, y]) :
    ∃ f g, ((m.bndOf 3 c 2).filter fun f => decide (e ∈ m.bndOf 2 f 1)).Perm [f, g]
      ∧ (m.vertsOf 2 f).Perm [(m.ends e).1, (m.ends e).2, x] ∧ (m.vertsOf 2 g).Perm [(m.ends e).1, (m.ends e).2, y] := by
  obtain ⟨hn, hl⟩ := tet_nodup hI hc
  have hn4 := hp.nodup_iff.1 hn
  have hne := ends_ne3 hI he
  generalize ha : (m.ends e).1 = a at *
  generalize hb : (m.ends e).2 = b at *
  have hn4' := hn4
  simp only [List.nodup_cons, List.mem_cons, List.not_mem_nil, or_false, not_or, not_false_eq_true, List.nodup_nil,
    and_true] at hn4'
  have three : ∀ z, z = x ∨ z = y → ∃ f ∈ m.bndOf 3 c 2, (m.vertsOf 2 f).Perm [a, b, z] := by
    intro z hz
    refine facet_exists hI hc ?_ rfl ?_
    · simp only [List.nodup_cons, List.mem_cons, List.not_mem_nil, or_false, not_or, not_false_eq_true, List.nodup_nil,
        and_true]
      rcases hz with rfl | rfl
      · exact ⟨⟨hne, hn4'.1.2.1⟩, hn4'.2.1.1⟩
      · exact ⟨⟨hne, hn4'.1.2.2⟩, hn4'.2.1.2⟩
    · intro v hv
      refine hp.symm.subset ?_
      simp only [List.mem_cons, List.not_mem_nil, or_false] at hv ⊢
      rcases hv with h | h | h
      · exact Or.inl h
      · exact Or.inr (Or.inl h)
      · rcases hz with rfl | rfl
        · exact Or.inr (Or.inr (Or.inl h))
        · exact Or.inr (Or.inr (Or.inr h))
  obtain ⟨f, hf, hfp⟩ := three x (Or.inl rfl)
  obtain ⟨g, hg, hgp⟩ := three y (Or.inr rfl)
  refine ⟨f, g, ?_, hfp, hgp⟩
  have at_edge : ∀ {k z : Nat}, k ∈ m.bndOf 3 c 2 → (m.vertsOf 2 k).Perm [a, b, z] → e ∈ m.bndOf 2 k 1 := by
    intro k z hk hkp
    refine edge_mem hI (facet_lt hI hk) he ?_ ?_
    · rw [ha]; exact hkp.symm.subset (by simp)
    · rw [hb]; exact hkp.symm.subset (by simp)
  have hfg : f ≠ g := by
    rintro rfl
    have : x ∈ [a, b, y] := hgp.subset (hfp.symm.subset (by simp))
    simp only [List.mem_cons, List.not_mem_nil, or_false] at this
    rcases this with h | h | h
    · exact hn4'.1.2.1 h.symm
    · exact hn4'.2.1.1 h.symm
    · exact hn4'.2.2 h
  refine (perm_of_nodup_mem ?_ ?_ ?_)
  · exact (bndOf_nodup (simplexTopo_wf 3) hI 3 c 2).filter _
  · simpa using hfg
  · intro k
    simp only [List.mem_filter, decide_eq_true_eq, List.mem_cons, List.not_mem_nil, or_false]
    constructor
    · rintro ⟨hk, hke⟩
      obtain ⟨w, hw⟩ := edge_third hI (facet_lt hI hk) hke
      rw [ha, hb] at hw
      have hwV : w ∈ [a, b, x, y] := hp.subset (facet_subset hI hc hk (hw.symm.subset (by simp)))
      have hnk := hw.nodup_iff.1 (facet_nodup hI (facet_lt hI hk)).1
      simp only [List.nodup_cons, List.mem_cons, List.not_mem_nil, or_false, not_or, not_false_eq_true, List.nodup_nil,
        and_true] at hnk hwV
      rcases hwV with h | h | h | h
      · exact absurd h.symm hnk.1.2
      · exact absurd h.symm hnk.2
      · subst h; left; exact facet_same hI (facet_lt hI hk) (facet_lt hI hf) (hw.trans hfp.symm)
      · subst h; right; exact facet_same hI (facet_lt hI hk) (facet_lt hI hg) (hw.trans hgp.symm)
    · rintro (rfl | rfl)
      · exact ⟨hf, at_edge hf hfp⟩
      · exact ⟨hg, at_edge hg hgp⟩

end

end VG
