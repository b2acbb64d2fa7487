import Verif.Props.CopySeg
import Verif.Props.Iterators
import Verif.Lemmas.MphtxtReady
import Mathlib.Tactic.IntervalCases

/-!
C88: `copy_segmentation` gives elements the segments of the elements with the same ids.
-/

namespace VG

variable {P Q N : Type} [DecidableEq N]

/-! ### Specification -/

/-- Each element of `m` has the id of an element of `src`, whose boundary elements have the ids of its own boundary
elements.  This holds for a copy of a mesh, and for a mesh to which only more elements were added. -/
def SameById (T : Topo) (m : Mesh Q) (src : Mesh P) : Prop :=
  ∀ d ≤ T.cellDim, ∀ t < m.count d, ∃ u < src.count d, src.eid d u = m.eid d t ∧
    ∀ k s, OnBoundary T m k s d t → ∃ s', OnBoundary T src k s' d u ∧ src.eid k s' = m.eid k s

/-- The segment `g` has an element of `src` whose id is the id of an element of `m`. -/
def Needed (T : Topo) (m : Mesh Q) (src : SegState P) (g : Nat) : Prop :=
  ∃ d ≤ T.cellDim, ∃ t < m.count d, ∃ u < src.mesh.count d, src.mesh.eid d u = m.eid d t ∧ src.isIn g d u = true

/-- The segment with the id exists, or its name is not taken. -/
def Available (nm : Int → N) (r : Reg N) (g : Nat) : Prop :=
  (g : Int) ∈ r.segs.map (·.1) ∨ r.names (nm g) = none

/-! ### Lemmas -/

theorem Available.getMake {nm : Int → N} (hnm : Function.Injective nm) {r : Reg N} {g : Nat} (h : Available nm r g) :
    ∃ r', r.getMakeId nm g = (r', .ok g) ∧ (∀ g', Available nm r g' → Available nm r' g') ∧ r.segs <+: r'.segs ∧
      (g : Int) ∈ r'.segs.map (·.1) ∧ ∀ x ∈ r'.segs, x ∈ r.segs ∨ x = ((g : Int), nm g) := by
  unfold Reg.getMakeId
  by_cases hm : (g : Int) ∈ r.segs.map (·.1)
  · rw [if_pos hm]
    exact ⟨r, rfl, fun _ => id, List.prefix_refl _, hm, fun _ => Or.inl⟩
  · rw [if_neg hm]
    have hn : r.names (nm g) = none := h.resolve_left hm
    simp only [hn]
    refine ⟨_, rfl, ?_, List.prefix_append _ _, by simp, fun x hx => by simpa using hx⟩
    intro g' hg'
    by_cases he : g' = g
    · subst he
      exact Or.inl (by simp)
    · rcases hg' with hg' | hg'
      · left
        simp only [List.map_append]
        exact List.mem_append_left _ hg'
      · right
        simp only
        rw [if_neg, hg']
        exact fun h => he (by exact_mod_cast hnm h)

theorem addToSegs_available {nm : Int → N} (hnm : Function.Injective nm) {T : Topo} {d t : Nat} (hd : d ≤ T.cellDim) :
    ∀ (gs : List Nat) (s : SegMesh Q N), t < s.st.mesh.count d → SegReached T s.st →
    (∀ g ∈ gs, Available nm s.reg g) →
    ∃ o, addToSegs nm T d t s gs = .ok o ∧ o.st.mesh = s.st.mesh ∧ SegReached T o.st ∧
      (∀ g x, x ∈ o.st.added g ↔ x ∈ s.st.added g ∨ (g ∈ gs ∧ x = (d, t))) ∧
      (∀ g, Available nm s.reg g → Available nm o.reg g) ∧ s.reg.segs <+: o.reg.segs ∧
      (∀ g ∈ gs, (g : Int) ∈ o.reg.segs.map (·.1)) ∧
      ∀ x ∈ o.reg.segs, x ∈ s.reg.segs ∨ ∃ g ∈ gs, x = ((g : Int), nm g)
  | [], s, _, hr, _ => ⟨s, rfl, rfl, hr, by simp, fun _ => id, List.prefix_refl _, by simp, fun _ => Or.inl⟩
  | g :: gs, s, ht, hr, hf => by
    obtain ⟨r, e1, f1, p1, i1, m1⟩ := (hf g (by simp)).getMake hnm
    have hstep : s.st.step T (.add g d t) = some (s.st.addElem T g d t) := by
      simp only [SegState.step]; rw [if_pos ⟨hd, ht⟩]
    have hm : (s.st.addElem T g d t).mesh = s.st.mesh := by
      unfold SegState.addElem; simp only; rw [(addAll_mesh g _ s.st).1]
    have ha : ∀ g', (s.st.addElem T g d t).added g' = if g' = g then s.st.added g ++ [(d, t)] else s.st.added g' := by
      intro g'; unfold SegState.addElem; simp only; rw [(addAll_mesh g _ s.st).2]
    have hr1 : SegReached T (s.st.addElem T g d t) :=
      hr.step (op := .add g d t) (fun o ho => by simp [SOp.creation] at ho) hstep (by rw [hm]; exact hr.choose_spec.2.2)
    obtain ⟨o, e2, m2, r2, a2, f2, p2, i2, s2⟩ := addToSegs_available hnm hd gs ⟨s.st.addElem T g d t, r⟩
      (by simp only [hm]; exact ht) hr1 (fun g' hg' => f1 g' (hf g' (by simp [hg'])))
    refine ⟨o, ?_, m2.trans hm, r2, ?_, fun g' hg' => f2 g' (f1 g' hg'), p1.trans p2, ?_, ?_⟩
    · simp only [addToSegs, e1]; exact e2
    · intro g' x
      rw [a2]
      simp only [ha]
      by_cases hg : g' = g
      · subst hg
        simp only [if_true, List.mem_append, List.mem_cons, true_or, true_and, List.not_mem_nil, or_false]
        constructor
        · rintro ((h | h) | h)
          · exact Or.inl h
          · exact Or.inr h
          · exact Or.inr h.2
        · rintro (h | h)
          · exact Or.inl (Or.inl h)
          · exact Or.inl (Or.inr h)
      · simp [hg]
    · intro g' hg'
      rcases List.mem_cons.1 hg' with rfl | hg'
      · obtain ⟨x, hx, he⟩ := List.mem_map.1 i1
        exact List.mem_map.2 ⟨x, p2.subset hx, he⟩
      · exact i2 g' hg'
    · intro x hx
      rcases s2 x hx with h | ⟨g', hg', rfl⟩
      · rcases m1 x h with h | rfl
        · exact Or.inl h
        · exact Or.inr ⟨g, by simp, rfl⟩
      · exact Or.inr ⟨g', by simp [hg'], rfl⟩

omit [DecidableEq N] in
theorem findById_iff {T : Topo} {m : Mesh P} (hI : Inv T m) (hu : UniqueVids m) {k s : Nat} {i : Int}
    (hs : s < m.count k) (he : m.eid k s = i) : m.findById k i = some s := by
  cases hf : m.findById k i with
  | none => exact absurd he ((C11_find_by_id_end m k i).1 hf s hs)
  | some u =>
    unfold Mesh.findById at hf
    obtain ⟨h1, h2, _⟩ := List.findIdx?_eq_some_iff_getElem.1 hf
    simp only [Mesh.idsOf, List.length_map, List.length_range, List.getElem_map, List.getElem_range, beq_iff_eq] at h1 h2
    rw [eid_inj hI hu h1 hs (h2.trans he.symm)]

/-- The element with the id of `t` is in segment `g` of the source. -/
def Gets (m : Mesh Q) (src : SegState P) (d t g : Nat) : Prop :=
  ∃ u < src.mesh.count d, src.mesh.eid d u = m.eid d t ∧ src.isIn g d u = true

/-- What one part of the copy does: `W d t` are the elements visited. -/
structure CopiedFor (nm : Int → N) (T : Topo) (src : SegState P) (W : Nat → Nat → Prop) (s o : SegMesh Q N) : Prop where
  mesh : o.st.mesh = s.st.mesh
  reached : SegReached T o.st
  added : ∀ g x, x ∈ o.st.added g ↔ x ∈ s.st.added g ∨ (W x.1 x.2 ∧ Gets s.st.mesh src x.1 x.2 g)
  avail : ∀ g, Available nm s.reg g → Available nm o.reg g
  pre : s.reg.segs <+: o.reg.segs
  needed : ∀ d t g, W d t → Gets s.st.mesh src d t g → (g : Int) ∈ o.reg.segs.map (·.1)
  new : ∀ x ∈ o.reg.segs, x ∈ s.reg.segs ∨ ∃ d t g, W d t ∧ Gets s.st.mesh src d t g ∧ x = ((g : Int), nm g)

omit [DecidableEq N] in
theorem CopiedFor.refl {nm : Int → N} {T : Topo} {src : SegState P} {W : Nat → Nat → Prop} (hW : ∀ d t, ¬ W d t)
    {s : SegMesh Q N} (h : SegReached T s.st) : CopiedFor nm T src W s s :=
  ⟨rfl, h, by simp [hW], fun _ => id, List.prefix_refl _, fun _ _ _ h => absurd h (hW _ _), fun _ => Or.inl⟩

omit [DecidableEq N] in
theorem CopiedFor.trans {nm : Int → N} {T : Topo} {src : SegState P} {W W' V : Nat → Nat → Prop}
    (hV : ∀ d t, V d t ↔ W d t ∨ W' d t) {s o o' : SegMesh Q N} (h : CopiedFor nm T src W s o)
    (h' : CopiedFor nm T src W' o o') : CopiedFor nm T src V s o' where
  mesh := h'.mesh.trans h.mesh
  reached := h'.reached
  added := by
    intro g x
    rw [h'.added, h.added, h.mesh, hV]
    constructor
    · rintro ((h | h) | h)
      · exact Or.inl h
      · exact Or.inr ⟨Or.inl h.1, h.2⟩
      · exact Or.inr ⟨Or.inr h.1, h.2⟩
    · rintro (h | ⟨h | h, h2⟩)
      · exact Or.inl (Or.inl h)
      · exact Or.inl (Or.inr ⟨h, h2⟩)
      · exact Or.inr ⟨h, h2⟩
  avail := fun g hg => h'.avail g (h.avail g hg)
  pre := h.pre.trans h'.pre
  needed := by
    intro d t g hw hg
    rcases (hV d t).1 hw with hw | hw
    · obtain ⟨x, hx, he⟩ := List.mem_map.1 (h.needed d t g hw hg)
      exact List.mem_map.2 ⟨x, h'.pre.subset hx, he⟩
    · exact h'.needed d t g hw (by rw [h.mesh]; exact hg)
  new := by
    intro x hx
    rcases h'.new x hx with hx | ⟨d, t, g, h1, h2, h3⟩
    · rcases h.new x hx with hx | ⟨d, t, g, h1, h2, h3⟩
      · exact Or.inl hx
      · exact Or.inr ⟨d, t, g, (hV d t).2 (Or.inl h1), h2, h3⟩
    · exact Or.inr ⟨d, t, g, (hV d t).2 (Or.inr h1), by rw [← h.mesh]; exact h2, h3⟩

theorem copySegsOf_spec {nm : Int → N} (hnm : Function.Injective nm) {T : Topo} {src : SegState P}
    (hI : Inv T src.mesh) (hu : UniqueVids src.mesh) {d : Nat} (hd : d ≤ T.cellDim) :
    ∀ (ts : List Nat) (s : SegMesh Q N), SegReached T s.st → (∀ t ∈ ts, t < s.st.mesh.count d) →
    (∀ t ∈ ts, ∃ u < src.mesh.count d, src.mesh.eid d u = s.st.mesh.eid d t) →
    (∀ u < src.mesh.count d, (∃ t ∈ ts, src.mesh.eid d u = s.st.mesh.eid d t) → src.recorded d u = true) →
    (∀ t ∈ ts, ∀ g, Gets s.st.mesh src d t g → Available nm s.reg g) →
    ∃ o, copySegsOf nm T src d s ts = .ok o ∧ CopiedFor nm T src (fun k t => k = d ∧ t ∈ ts) s o
  | [], s, hr, _, _, _, _ => ⟨s, rfl, .refl (by simp) hr⟩
  | t :: ts, s, hr, ht, hid, hrec, hav => by
    obtain ⟨u, hul, hue⟩ := hid t (by simp)
    have hf := findById_iff hI hu hul hue
    have hg : ∀ g, Gets s.st.mesh src d t g ↔ g ∈ src.segmentIds d u := by
      intro g
      constructor
      · rintro ⟨u', h1, h2, h3⟩
        have := eid_inj hI hu h1 hul (h2.trans hue.symm)
        subst this
        simpa [SegState.isIn, SegState.segmentIds] using h3
      · intro h
        exact ⟨u, hul, hue, by simpa [SegState.isIn, SegState.segmentIds] using h⟩
    obtain ⟨o, e1, m1, r1, a1, v1, p1, n1, w1⟩ := addToSegs_available hnm hd (src.segmentIds d u) s (ht t (by simp)) hr
      (fun g h => hav t (by simp) g ((hg g).2 h))
    have c1 : CopiedFor nm T src (fun k t' => k = d ∧ t' = t) s o := by
      refine ⟨m1, r1, ?_, v1, p1, ?_, ?_⟩
      · rintro g ⟨k, t'⟩
        rw [a1]
        refine or_congr_right ?_
        constructor
        · rintro ⟨h1, h2⟩
          obtain ⟨rfl, rfl⟩ := Prod.mk.inj h2
          exact ⟨⟨rfl, rfl⟩, (hg g).2 h1⟩
        · rintro ⟨⟨h1, h2⟩, h3⟩
          simp only at h1 h2 h3
          subst h1 h2
          exact ⟨(hg g).1 h3, rfl⟩
      · rintro k t' g ⟨rfl, rfl⟩ h
        exact n1 g ((hg g).1 h)
      · intro x hx
        rcases w1 x hx with h | ⟨g, h1, h2⟩
        · exact Or.inl h
        · exact Or.inr ⟨d, t, g, ⟨rfl, rfl⟩, (hg g).2 h1, h2⟩
    obtain ⟨o', e2, c2⟩ := copySegsOf_spec hnm hI hu hd ts o r1 (fun t' h => by rw [m1]; exact ht t' (by simp [h]))
      (fun t' h => by rw [m1]; exact hid t' (by simp [h]))
      (fun u' h1 ⟨t', h2, h3⟩ => hrec u' h1 ⟨t', by simp [h2], by rw [← m1]; exact h3⟩)
      (fun t' h g h' => v1 g (hav t' (by simp [h]) g (by rw [← m1]; exact h')))
    refine ⟨o', ?_, c1.trans (fun k t' => ?_) c2⟩
    · simp only [copySegsOf, hf, SegState.queryIds, hrec u hul ⟨t, by simp, hue⟩, if_true, e1]; exact e2
    · simp only [List.mem_cons, and_or_left]

theorem copySegmentation_spec {nm : Int → N} (hnm : Function.Injective nm) {T : Topo} {src : SegState P}
    (hI : Inv T src.mesh) (hu : UniqueVids src.mesh) :
    ∀ (ds : List Nat) (s : SegMesh Q N), SegReached T s.st → (∀ d ∈ ds, d ≤ T.cellDim) →
    (∀ d ∈ ds, ∀ t < s.st.mesh.count d, ∃ u < src.mesh.count d, src.mesh.eid d u = s.st.mesh.eid d t) →
    (∀ d ∈ ds, ∀ u < src.mesh.count d, (∃ t < s.st.mesh.count d, src.mesh.eid d u = s.st.mesh.eid d t) →
      src.recorded d u = true) →
    (∀ d ∈ ds, ∀ t < s.st.mesh.count d, ∀ g, Gets s.st.mesh src d t g → Available nm s.reg g) →
    ∃ o, copySegmentation nm T src ds s = .ok o ∧
      CopiedFor nm T src (fun k t => k ∈ ds ∧ t < s.st.mesh.count k) s o
  | [], s, hr, _, _, _, _ => ⟨s, rfl, .refl (by simp) hr⟩
  | d :: ds, s, hr, hd, hid, hrec, hav => by
    obtain ⟨o, e1, c1⟩ := copySegsOf_spec hnm hI hu (hd d (by simp)) (List.range (s.st.mesh.count d)) s hr
      (fun t h => List.mem_range.1 h) (fun t h => hid d (by simp) t (List.mem_range.1 h))
      (fun u h1 ⟨t, h2, h3⟩ => hrec d (by simp) u h1 ⟨t, List.mem_range.1 h2, h3⟩)
      (fun t h => hav d (by simp) t (List.mem_range.1 h))
    obtain ⟨o', e2, c2⟩ := copySegmentation_spec hnm hI hu ds o c1.reached (fun k h => hd k (by simp [h]))
      (fun k h => by rw [c1.mesh]; exact hid k (by simp [h]))
      (fun k h => by rw [c1.mesh]; exact hrec k (by simp [h]))
      (fun k h t h1 g h2 => c1.avail g (hav k (by simp [h]) t (by rw [← c1.mesh]; exact h1) g (by rw [← c1.mesh]; exact h2)))
    refine ⟨o', ?_, c1.trans (fun k t => ?_) c2⟩
    · simp only [copySegmentation, e1]; exact e2
    · simp only [List.mem_cons, List.mem_range, c1.mesh]
      constructor
      · rintro ⟨rfl | h, h2⟩
        · exact Or.inl ⟨rfl, h2⟩
        · exact Or.inr ⟨h, h2⟩
      · rintro (⟨rfl, h2⟩ | ⟨h, h2⟩)
        · exact ⟨Or.inl rfl, h2⟩
        · exact ⟨Or.inr h, h2⟩

/-! ### C88 -/

/-- C88.  The full statement, that the destination gets the segments of the source (ids, names, elements), is false (see
below).  Proved, for simplices and quadrilaterals, any source and any destination reached by creations and additions, and
any order of the element types: if the elements of the destination have the ids of elements of the source with the same
boundary, these have a record (`HasRecord`), and the names of the ids needed are not taken by other segments, then the call succeeds, the mesh stays as it
is, an element is afterwards in a segment iff it was in it or the element of the source with its id is in the segment of
the source with the same id, the segments present before stay with their ids and names, and the new ones are those needed,
with numbers as names. -/
theorem C88_copy_partial {nm : Int → N} (hnm : Function.Injective nm) {T : Topo} (hT : ClosedTopo T) {dims : List Nat}
    (hdims : ∀ d, d ∈ dims ↔ d ≤ T.cellDim) {src : SegState P} {dst : SegMesh Q N} (hs : SegReached T src)
    (hd : SegReached T dst.st) (hsame : SameById T dst.st.mesh src.mesh)
    (hrec : ∀ d ≤ T.cellDim, ∀ u < src.mesh.count d, ∀ t < dst.st.mesh.count d, src.mesh.eid d u = dst.st.mesh.eid d t →
      HasRecord src d u)
    (hav : ∀ g, Needed T dst.st.mesh src g → Available nm dst.reg g) :
    ∃ o, copySegmentation nm T src dims dst = .ok o ∧ o.st.mesh = dst.st.mesh ∧
      (∀ k ≤ T.cellDim, ∀ t < dst.st.mesh.count k, ∀ u < src.mesh.count k, src.mesh.eid k u = dst.st.mesh.eid k t →
        ∀ g, o.st.isIn g k t = true ↔ dst.st.isIn g k t = true ∨ src.isIn g k u = true) ∧
      (∀ g k, (o.st.view g k).Nodup ∧ ∀ t, t ∈ o.st.view g k ↔ t < dst.st.mesh.count k ∧ o.st.isIn g k t = true) ∧
      dst.reg.segs <+: o.reg.segs ∧
      (∀ g, Needed T dst.st.mesh src g → (g : Int) ∈ o.reg.segs.map (·.1)) ∧
      ∀ x ∈ o.reg.segs, x ∈ dst.reg.segs ∨ ∃ g : Nat, Needed T dst.st.mesh src g ∧ x = ((g : Int), nm g) := by
  have hIs := hs.inv hT.lib.wf hT.closed
  have hId := hd.inv hT.lib.wf hT.closed
  have hu : UniqueVids src.mesh := hs.choose_spec.2.2
  obtain ⟨o, e, c⟩ := copySegmentation_spec hnm hIs.mesh hu dims dst hd (fun d h => (hdims d).1 h)
    (fun d h t ht => by obtain ⟨u, h1, h2, _⟩ := hsame d ((hdims d).1 h) t ht; exact ⟨u, h1, h2⟩)
    (fun d h u h1 ⟨t, h2, h3⟩ => (hasRecord_iff hT hs).2 (hrec d ((hdims d).1 h) u h1 t h2 h3))
    (fun d h t ht g ⟨u, h1, h2, h3⟩ => hav g ⟨d, (hdims d).1 h, t, ht, u, h1, h2, h3⟩)
  have hIo := c.reached.inv hT.lib.wf hT.closed
  refine ⟨o, e, c.mesh, ?_, ?_, c.pre, ?_, ?_⟩
  · intro k hk t ht u hul hue g
    rw [C26_is_in_segment_partial hT c.reached (by rw [c.mesh]; exact ht), C26_is_in_segment_partial hT hd ht,
      (C26_content_partial hT c.reached g k).2, (C26_content_partial hT hd g k).2]
    unfold Belongs
    rw [c.mesh]
    constructor
    · rintro ⟨D, r, h1, h2⟩
      rcases (c.added g _).1 h1 with h1 | ⟨⟨hw1, hw2⟩, v, hv1, hv2, hv3⟩
      · exact Or.inl ⟨D, r, h1, h2⟩
      · right
        simp only at hw1 hw2 hv1 hv2 hv3
        have hD := (hdims D).1 hw1
        obtain ⟨v', hv1', hv2', hb⟩ := hsame D hD r hw2
        have hvv := eid_inj hIs.mesh hu hv1 hv1' (hv2.trans hv2'.symm)
        subst hvv
        rcases h2 with ⟨rfl, rfl⟩ | h2
        · have := eid_inj hIs.mesh hu hv1 hul (hv2.trans hue.symm)
          subst this
          exact hv3
        · obtain ⟨u', hb1, hb2⟩ := hb k t h2
          have hb1' := (mem_bndOf_iff hT.lib.wf hIs.mesh hD).2 hb1
          have hu' : u' < src.mesh.count k := bndOf_valid hIs.mesh hb1'
          have := eid_inj hIs.mesh hu hu' hul (hb2.trans hue.symm)
          subst this
          have hD1 : 1 ≤ D := by
            rcases Nat.eq_zero_or_pos D with rfl | h
            · unfold OnBoundary at hb1
              rw [hIs.noZero] at hb1
              split at hb1 <;> simp at hb1
            · exact h
          rw [C26_is_in_segment_partial hT hs hu']
          exact C26_closed_partial hT hs hD1 hD ((C26_is_in_segment_partial hT hs hv1).1 hv3) hb1'
    · rintro (⟨D, r, h1, h2⟩ | h)
      · exact ⟨D, r, (c.added g _).2 (Or.inl h1), h2⟩
      · exact ⟨k, t, (c.added g _).2 (Or.inr ⟨⟨(hdims k).2 hk, ht⟩, u, hul, hue, h⟩), Or.inl ⟨rfl, rfl⟩⟩
  · intro g k
    refine ⟨(C26_content_partial hT c.reached g k).1, fun t => ?_⟩
    constructor
    · intro h
      have hl := hIo.view_lt h
      refine ⟨by rw [← c.mesh]; exact hl, (C26_is_in_segment_partial hT c.reached hl).2 h⟩
    · rintro ⟨h1, h2⟩
      exact (C26_is_in_segment_partial hT c.reached (by rw [c.mesh]; exact h1)).1 h2
  · rintro g ⟨d, hd', t, ht, u, h1, h2, h3⟩
    exact c.needed d t g ⟨(hdims d).2 hd', ht⟩ ⟨u, h1, h2, h3⟩
  · intro x hx
    rcases c.new x hx with hx | ⟨d, t, g, ⟨h1, h2⟩, ⟨u, h3, h4, h5⟩, h6⟩
    · exact Or.inl hx
    · exact Or.inr ⟨g, ⟨d, (hdims d).1 h1, t, h2, u, h3, h4, h5⟩, h6⟩

omit [DecidableEq N] in
theorem SameById.refl (T : Topo) (m : Mesh P) : SameById T m m :=
  fun _ _ t ht => ⟨t, ht, rfl, fun _ s h => ⟨s, h, rfl⟩⟩

omit [DecidableEq N] in
theorem run_meshOps {T : Topo} : ∀ {l : List (MOp P)} {st : SegState P} {m' : Mesh P}, st.mesh.run T l = some m' →
    st.run T (l.map .mesh) = some { st with mesh := m' }
  | [], st, m', h => by simp only [Mesh.run, Option.some.injEq] at h; subst h; rfl
  | o :: l, st, m', h => by
    simp only [Mesh.run] at h
    obtain ⟨m1, h1, h2⟩ := Option.bind_eq_some_iff.1 h
    simp only [List.map_cons, SegState.run, SegState.step, h1, Option.map_some, Option.bind_some]
    exact run_meshOps (st := { st with mesh := m1 }) h2

omit [DecidableEq N] in
/-- A mesh reached with segments is also reached without them. -/
theorem SegReached.bare {T : Topo} {st : SegState P} (h : SegReached T st) :
    SegReached T { (SegState.empty : SegState P) with mesh := st.mesh } := by
  obtain ⟨ops, h1, h2, h3⟩ := h
  obtain ⟨l, h4, h5⟩ := SegReached.meshHistory h1 h2
  refine ⟨l.map .mesh, ?_, run_meshOps h5, h3⟩
  intro op hop o ho
  obtain ⟨o', h6, rfl⟩ := List.mem_map.1 hop
  simp only [SOp.creation, Option.some.injEq] at ho
  subst ho
  exact h4 o' h6

/-- C88: with a copy of the mesh (`dst_mesh = src_mesh`, which keeps the ids, see C21) and a new segmentation, if
all elements have a record, the segments list exactly the same elements. -/
theorem C88_same_mesh_partial {nm : Int → N} (hnm : Function.Injective nm) {T : Topo} (hT : ClosedTopo T) {dims : List Nat}
    (hdims : ∀ d, d ∈ dims ↔ d ≤ T.cellDim) {src : SegState P} (hs : SegReached T src)
    (hrec : ∀ d ≤ T.cellDim, ∀ u < src.mesh.count d, HasRecord src d u) :
    ∃ o, copySegmentation nm T src dims ⟨{ (SegState.empty : SegState P) with mesh := src.mesh }, Reg.empty⟩ = .ok o ∧
      o.st.mesh = src.mesh ∧
      (∀ g, ∀ k ≤ T.cellDim, (o.st.view g k).Perm (src.view g k)) ∧
      (∀ x, x ∈ o.reg.segs ↔ ∃ g : Nat, (∃ k ≤ T.cellDim, src.view g k ≠ []) ∧ x = ((g : Int), nm g)) := by
  have hIs := hs.inv hT.lib.wf hT.closed
  obtain ⟨o, e, hm, hin, hview, _, hneed, hnew⟩ := C88_copy_partial hnm hT hdims
    (dst := ⟨{ (SegState.empty : SegState P) with mesh := src.mesh }, Reg.empty⟩) hs hs.bare (.refl T src.mesh)
    (fun d hd u hu _ _ _ => hrec d hd u hu) (fun g _ => Or.inr rfl)
  have hiff : ∀ g : Nat, Needed T src.mesh src g ↔ ∃ k ≤ T.cellDim, src.view g k ≠ [] := by
    intro g
    constructor
    · rintro ⟨k, hk, _, _, u, hu, _, h⟩
      exact ⟨k, hk, List.ne_nil_of_mem ((C26_is_in_segment_partial hT hs hu).1 h)⟩
    · rintro ⟨k, hk, h⟩
      obtain ⟨u, hu⟩ := List.exists_mem_of_ne_nil _ h
      have hl := hIs.view_lt hu
      exact ⟨k, hk, u, hl, u, hl, rfl, (C26_is_in_segment_partial hT hs hl).2 hu⟩
  refine ⟨o, e, hm, ?_, ?_⟩
  · intro g k hk
    refine (List.perm_ext_iff_of_nodup (hview g k).1 (hIs.nodup g k)).2 fun t => ?_
    rw [(hview g k).2]
    constructor
    · rintro ⟨h1, h2⟩
      rcases (hin k hk t h1 t h1 rfl g).1 h2 with h | h
      · simp [SegState.isIn, SegState.empty] at h
      · exact (C26_is_in_segment_partial hT hs h1).1 h
    · intro h
      have hl := hIs.view_lt h
      exact ⟨hl, (hin k hk t hl t hl rfl g).2 (Or.inr ((C26_is_in_segment_partial hT hs hl).2 h))⟩
  · intro x
    constructor
    · intro hx
      rcases hnew x hx with h | ⟨g, h1, h2⟩
      · cases h
      · exact ⟨g, (hiff g).1 h1, h2⟩
    · rintro ⟨g, h1, rfl⟩
      obtain ⟨x, hx, he⟩ := List.mem_map.1 (hneed g ((hiff g).2 h1))
      rcases hnew x hx with h | ⟨g', _, rfl⟩
      · cases h
      · simp only at he
        rw [← he]
        exact hx

theorem addToSegs_mesh {nm : Int → N} {T : Topo} {d t : Nat} : ∀ {gs : List Nat} {s o : SegMesh Q N},
    addToSegs nm T d t s gs = .ok o → o.st.mesh = s.st.mesh
  | [], s, o, h => by cases h; rfl
  | g :: gs, s, o, h => by
    simp only [addToSegs] at h
    split at h
    · rw [addToSegs_mesh h]
      unfold SegState.addElem; simp only; rw [(addAll_mesh g _ s.st).1]
    · cases h
    · cases h

theorem copySegsOf_found {nm : Int → N} {T : Topo} {src : SegState P} {d : Nat} : ∀ {ts : List Nat} {s o : SegMesh Q N},
    copySegsOf nm T src d s ts = .ok o → o.st.mesh = s.st.mesh ∧
      ∀ t ∈ ts, ∃ u < src.mesh.count d, src.mesh.eid d u = s.st.mesh.eid d t
  | [], s, o, h => by cases h; simp
  | t :: ts, s, o, h => by
    simp only [copySegsOf] at h
    split at h
    · cases h
    · rename_i u hf
      split at h
      · cases h
      split at h
      · cases h
      · rename_i s' h1
        have hm := addToSegs_mesh h1
        obtain ⟨h2, h3⟩ := copySegsOf_found h
        refine ⟨h2.trans hm, ?_⟩
        intro t' ht'
        rcases List.mem_cons.1 ht' with rfl | ht'
        · unfold Mesh.findById at hf
          obtain ⟨h1, h2, _⟩ := List.findIdx?_eq_some_iff_getElem.1 hf
          simp only [Mesh.idsOf, List.length_map, List.length_range, List.getElem_map, List.getElem_range, beq_iff_eq] at h1 h2
          exact ⟨u, h1, h2⟩
        · rw [← hm]; exact h3 t' ht'

theorem copySegmentation_found {nm : Int → N} {T : Topo} {src : SegState P} : ∀ {ds : List Nat} {s o : SegMesh Q N},
    copySegmentation nm T src ds s = .ok o →
      ∀ d ∈ ds, ∀ t < s.st.mesh.count d, ∃ u < src.mesh.count d, src.mesh.eid d u = s.st.mesh.eid d t
  | [], s, o, h => by simp
  | d :: ds, s, o, h => by
    simp only [copySegmentation] at h
    split at h
    · cases h
    · rename_i s' h1
      obtain ⟨hm, h2⟩ := copySegsOf_found h1
      intro d' hd' t ht
      rcases List.mem_cons.1 hd' with rfl | hd'
      · exact h2 t (List.mem_range.2 ht)
      · rw [← hm]; exact copySegmentation_found h d' hd' t (by rw [hm]; exact ht)

/-- C88 does not hold if the destination has an element whose id no element of the source has: whatever the segments are,
the call does not succeed (the iterator past the end is dereferenced).  A mesh with one more vertex is enough. -/
theorem C88_violated_missing {nm : Int → N} {T : Topo} {src : SegState P} {dst : SegMesh Q N} {dims : List Nat} {d t : Nat}
    (hd : d ∈ dims) (ht : t < dst.st.mesh.count d) (hm : ∀ u < src.mesh.count d, src.mesh.eid d u ≠ dst.st.mesh.eid d t) :
    ∀ o, copySegmentation nm T src dims dst ≠ .ok o := by
  intro o h
  obtain ⟨u, h1, h2⟩ := copySegmentation_found h d hd t ht
  exact hm u h1 h2

/-! #### Cases and violations -/

/-- Two triangles in two segments; the second segment also has an edge of the first triangle. -/
def segTwo : SegState Unit :=
  (SegState.empty.run (simplexTopo 2) (twoSegs ++ [.add 1 1 0])).getD SegState.empty

theorem segTwo_reached : SegReached (simplexTopo 2) segTwo :=
  ⟨twoSegs ++ [.add 1 1 0], by simp [twoSegs, SOp.creation, MOp.Distinct], rfl, by unfold UniqueVids; decide⟩

theorem segTwo_records : ∀ d ≤ (simplexTopo 2).cellDim, ∀ u < segTwo.mesh.count d, HasRecord segTwo d u := by
  intro d hd u hu
  refine (hasRecord_iff (Or.inl ⟨2, rfl⟩) segTwo_reached).1 ?_
  revert u
  change d ≤ 2 at hd
  interval_cases d <;> decide

/-- The hypotheses of `C88_same_mesh_partial` hold for a mesh with two segments which overlap. -/
example : ∃ o, copySegmentation segNm (simplexTopo 2) segTwo [0, 1, 2]
      ⟨{ (SegState.empty : SegState Unit) with mesh := segTwo.mesh }, Reg.empty⟩ = .ok o ∧
    segTwo.view 1 1 = [2, 3, 4, 0] ∧ o.st.view 1 1 = [0, 2, 3, 4] ∧ o.st.view 0 2 = [0] ∧ o.st.view 1 2 = [1] ∧
    o.reg.segs = [(0, Sum.inl 0), (1, Sum.inl 1)] :=
  ⟨_, rfl, by decide, by decide, by decide, by decide, by decide⟩

example : ∃ o, copySegmentation segNm (simplexTopo 2) segTwo [0, 1, 2]
      ⟨{ (SegState.empty : SegState Unit) with mesh := segTwo.mesh }, Reg.empty⟩ = .ok o ∧
    ∀ g, ∀ k ≤ 2, (o.st.view g k).Perm (segTwo.view g k) := by
  obtain ⟨o, h, _, h2, _⟩ := C88_same_mesh_partial (nm := segNm) (fun _ _ h => Sum.inl.inj h) (Or.inl ⟨2, rfl⟩)
    (dims := [0, 1, 2]) (fun d => by simp [simplexTopo]; omega) segTwo_reached segTwo_records
  exact ⟨o, h, h2⟩

/-- C88 is violated: `segmentation["b"]` with a triangle and `segmentation[1]` without elements are copied as one segment
with the name of a number. -/
theorem C88_violated_names :
    ∃ src : SegMesh Unit (Sum Int Char), SegReached (simplexTopo 2) src.st ∧
      src.reg.segs = [(0, Sum.inr 'b'), (1, Sum.inl 1)] ∧
      ∃ o, copySegmentation segNm (simplexTopo 2) src.st [0, 1, 2]
          ⟨{ (SegState.empty : SegState Unit) with mesh := src.st.mesh }, Reg.empty⟩ = .ok o ∧
        o.reg.segs = [(0, Sum.inl 0)] :=
  ⟨⟨(SegState.empty.run (simplexTopo 2) [.mesh (.vertex none ()), .mesh (.vertex none ()), .mesh (.vertex none ()),
      .make 0 (.elem 2 [0, 1, 2])]).getD SegState.empty, (Reg.empty.run segNm [.getName (Sum.inr 'b'), .make]).1⟩,
    ⟨[.mesh (.vertex none ()), .mesh (.vertex none ()), .mesh (.vertex none ()), .make 0 (.elem 2 [0, 1, 2])],
      by simp [SOp.creation, MOp.Distinct], rfl, by unfold UniqueVids; decide⟩, by decide, _, rfl, by decide⟩

/-- C88 is violated: if the destination has a segment whose name is the number of a segment of the source, the call throws,
after some elements were added. -/
theorem C88_violated_clash :
    copySegmentation segNm (simplexTopo 2) segTwo [0, 1, 2]
      ⟨{ (SegState.empty : SegState Unit) with mesh := segTwo.mesh },
        (Reg.empty.run segNm [.getName (Sum.inl 1)]).1⟩ = .error .thrown := rfl

/-- C88 is violated for a mesh copied by `copy` of selected cells: the copy of the second triangle has the id of the first
one, and gets its segment. -/
theorem C88_violated_renumbered :
    segTwo.segmentIds 2 0 = [0] ∧ segTwo.segmentIds 2 1 = [1] ∧
    ∃ m, copySelected (simplexTopo 2) segTwo.mesh (fun t => t == 1) = some m ∧ m.count 2 = 1 ∧
      ∃ o, copySegmentation segNm (simplexTopo 2) segTwo [0, 1, 2]
          ⟨{ (SegState.empty : SegState Unit) with mesh := m }, Reg.empty⟩ = .ok o ∧
        o.st.segmentIds 2 0 = [0] := by
  refine ⟨by decide, by decide, _, rfl, by decide, _, rfl, by decide⟩

/-- A triangle in a segment, and a vertex made later. -/
def lateVertex : List (SOp Unit) :=
  [.mesh (.vertex none ()), .mesh (.vertex none ()), .mesh (.vertex none ()), .make 0 (.elem 2 [0, 1, 2]),
   .mesh (.vertex none ())]

/-- C88 is violated: an element in no segment with the largest id makes the call undefined, also with a copy of the mesh:
a vertex made after the elements in segments. -/
theorem C88_violated_no_segment :
    ∃ st : SegState Unit, SegReached (simplexTopo 2) st ∧ st.mesh.count 0 = 4 ∧ st.view 0 2 = [0] ∧
      copySegmentation segNm (simplexTopo 2) st [0, 1, 2]
        ⟨{ (SegState.empty : SegState Unit) with mesh := st.mesh }, Reg.empty⟩ = .error .undefined :=
  ⟨(SegState.empty.run (simplexTopo 2) lateVertex).getD SegState.empty,
    ⟨lateVertex, by simp [lateVertex, SOp.creation, MOp.Distinct], rfl, by unfold UniqueVids; decide⟩, by decide, by decide, rfl⟩

/-- The hypotheses of `C88_violated_missing` hold: a mesh with one vertex more. -/
example : ∀ o, copySegmentation segNm (simplexTopo 2) segTwo [0, 1, 2]
    (⟨{ (SegState.empty : SegState Unit) with mesh := segTwo.mesh.makeVertex none () }, Reg.empty⟩ : SegMesh Unit _) ≠ .ok o :=
  C88_violated_missing (d := 0) (t := 4) (by decide) (by decide) (by decide)

/-- The mesh of `segTwo` with a segment 5 of its own. -/
def segFive : SegMesh Unit (Sum Int Char) :=
  ⟨(SegState.empty.run (simplexTopo 2) [.mesh (.vertex none ()), .mesh (.vertex none ()), .mesh (.vertex none ()),
      .mesh (.vertex none ()), .mesh (.elem 2 [0, 1, 2]), .make 5 (.elem 2 [1, 2, 3])]).getD SegState.empty,
    (Reg.empty.run segNm [.getId 5]).1⟩

/-- The hypotheses of `C88_copy_partial` hold for a destination with a segment of its own. -/
example : ∃ o, copySegmentation segNm (simplexTopo 2) segTwo [0, 1, 2] segFive = .ok o ∧
    o.reg.segs = [(5, Sum.inl 5), (0, Sum.inl 0), (1, Sum.inl 1)] ∧
    (∀ g, o.st.isIn g 2 1 = true ↔ segFive.st.isIn g 2 1 = true ∨ segTwo.isIn g 2 1 = true) := by
  have hm : segFive.st.mesh = segTwo.mesh := rfl
  have hr : SegReached (simplexTopo 2) segFive.st :=
    ⟨[.mesh (.vertex none ()), .mesh (.vertex none ()), .mesh (.vertex none ()),
      .mesh (.vertex none ()), .mesh (.elem 2 [0, 1, 2]), .make 5 (.elem 2 [1, 2, 3])],
      by simp [SOp.creation, MOp.Distinct], rfl, by unfold UniqueVids; decide⟩
  obtain ⟨o, h, _, h2, _⟩ := C88_copy_partial (nm := segNm) (fun _ _ h => Sum.inl.inj h) (Or.inl ⟨2, rfl⟩)
    (dims := [0, 1, 2]) (fun d => by simp [simplexTopo]; omega) segTwo_reached hr (hm ▸ SameById.refl _ _) (fun d hd u hu _ _ _ => segTwo_records d hd u hu) (by
      intro g _
      by_cases h5 : g = 5
      · subst h5; exact Or.inl (by decide)
      · right
        show (if segNm (g : Int) = Sum.inl 5 then _ else _) = none
        rw [if_neg]
        · rfl
        · simpa using fun h : (g : Int) = 5 => h5 (by exact_mod_cast h))
  refine ⟨o, h, ?_, h2 2 (by decide) 1 (by decide) 1 (by decide) (by decide)⟩
  have : copySegmentation segNm (simplexTopo 2) segTwo [0, 1, 2] segFive = .ok _ := rfl
  rw [this] at h
  cases h
  decide

end VG
