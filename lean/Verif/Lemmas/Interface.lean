import Verif.Lemmas.ViewQueries

/-!
Interface flags in histories in which cells are added to segments and nothing is removed.
-/

namespace VG

variable {P : Type}

theorem insertAll_content : ∀ (xs : List (Nat × Nat)) (v : VC),
    (xs.foldl VC.insert v).content = xs.foldl View.ins v.content ∧
    (xs.foldl VC.insert v).counter = v.counter + xs.length
  | [], v => by simp
  | x :: xs, v => by
    obtain ⟨h1, h2⟩ := insertAll_content xs (v.insert x)
    simp only [List.foldl_cons, List.length_cons]
    refine ⟨h1, ?_⟩
    rw [h2]; simp only [VC.insert]; omega

theorem insertAll_inv {T : Topo} {m : Mesh P} : ∀ (xs : List (Nat × Nat)) {v : VC}, VCInv T m v →
    (∀ x ∈ xs, x.2 < m.count x.1) → VCInv T m (xs.foldl VC.insert v)
  | [], _, h, _ => h
  | x :: xs, _, h, hx => insertAll_inv xs (h.insert (hx x (by simp))) (fun y hy => hx y (by simp [hy]))

theorem collectFacets_spec {T : Topo} (hT : T.WF) {m : Mesh P} (hI : Inv T m) (hu : UniqueVids m) :
    ∀ (fs : List Nat) {v : VC}, VCInv T m v → (∀ f ∈ fs, f ∈ v.content (T.cellDim - 1)) →
    VCInv T m (collectFacets T m v fs).1 ∧ (collectFacets T m v fs).1.content = v.content ∧
    (collectFacets T m v fs).1.counter = v.counter ∧
    ∀ f, f ∈ (collectFacets T m v fs).2 ↔ f ∈ fs ∧ numCellsV T m v.content f % 2 = 1
  | [], v, h, _ => ⟨h, rfl, rfl, by simp [collectFacets]⟩
  | f :: fs, v, h, hf => by
    obtain ⟨h1, h2, h3, h4⟩ := VC.isBoundary_spec hT hI hu h (T.cellDim - 1) f
    obtain ⟨i1, i2, i3, i4⟩ := collectFacets_spec hT hI hu fs h1
      (fun g hg => by rw [h2]; exact hf g (by simp [hg]))
    have h5 := h4 (le_refl _) (hf f (by simp))
    rw [if_pos rfl] at h5
    simp only [collectFacets]
    refine ⟨i1, i2.trans h2, i3.trans h3, fun g => ?_⟩
    rw [h2] at i4
    by_cases hb : (v.isBoundary T m (T.cellDim - 1) f).2 = true
    · rw [if_pos hb, List.mem_cons, i4 g, List.mem_cons]
      have := h5.1 hb
      constructor
      · rintro (rfl | ⟨h6, h7⟩)
        · exact ⟨Or.inl rfl, this⟩
        · exact ⟨Or.inr h6, h7⟩
      · rintro ⟨rfl | h6, h7⟩
        · exact Or.inl rfl
        · exact Or.inr ⟨h6, h7⟩
    · rw [if_neg hb, i4 g, List.mem_cons]
      constructor
      · rintro ⟨h6, h7⟩; exact ⟨Or.inr h6, h7⟩
      · rintro ⟨rfl | h6, h7⟩
        · exact absurd (h5.2 h7) hb
        · exact ⟨h6, h7⟩

theorem flagFold (g : Nat → Int) (S : List Nat) (x : Int) : ∀ (bs : List Nat) (acc : Int → Bool),
    ((bs.foldl (fun acc f => if f ∈ S then upd acc (g f) true else acc) acc) x = true) ↔
      (acc x = true ∨ ∃ f ∈ bs, f ∈ S ∧ x = g f)
  | [], acc => by simp
  | f :: bs, acc => by
    rw [List.foldl_cons, flagFold g S x bs]
    by_cases hf : f ∈ S
    · simp only [if_pos hf, List.mem_cons]
      by_cases hx : x = g f
      · simp only [upd, if_pos hx, true_or, true_iff]
        exact Or.inr ⟨f, Or.inl rfl, hf, hx⟩
      · simp only [upd, if_neg hx]
        constructor
        · rintro (h | ⟨e, he, h⟩)
          · exact Or.inl h
          · exact Or.inr ⟨e, Or.inr he, h⟩
        · rintro (h | ⟨e, rfl | he, h⟩)
          · exact Or.inl h
          · exact absurd h.2 hx
          · exact Or.inr ⟨e, he, h⟩
    · simp only [if_neg hf, List.mem_cons]
      constructor
      · rintro (h | ⟨e, he, h⟩)
        · exact Or.inl h
        · exact Or.inr ⟨e, Or.inr he, h⟩
      · rintro (h | ⟨e, rfl | he, h⟩)
        · exact Or.inl h
        · exact absurd h.1 hf
        · exact Or.inr ⟨e, he, h⟩

theorem pairKey_comm (a b : Nat) : pairKey a b = pairKey b a := by
  unfold pairKey; rw [Nat.min_comm, Nat.max_comm]

theorem pairKey_inj {a b c d : Nat} (h : pairKey a b = pairKey c d) :
    (a = c ∧ b = d) ∨ (a = d ∧ b = c) := by
  simp only [pairKey, Prod.mk.injEq] at h
  omega

/-- The cells `x`, `y` of the two contents use the facet. -/
def Shared (T : Topo) (m : Mesh P) (ca cb : View) (f : Nat) : Prop :=
  (∃ x ∈ ca T.cellDim, f ∈ m.bndOf T.cellDim x (T.cellDim - 1)) ∧
  (∃ y ∈ cb T.cellDim, f ∈ m.bndOf T.cellDim y (T.cellDim - 1))

/-- The flags of a pair as computed in the order `x`, `y`. -/
def IfFresh (T : Topo) (m : Mesh P) (seg : Nat → VC) (fl : Nat → IFlags) (x y : Nat) : Prop :=
  (∀ k ≤ T.cellDim - 1, (fl k).c0 ≤ (seg x).counter ∧ (fl k).c1 ≤ (seg y).counter) ∧
  (∀ k ≤ T.cellDim - 1, (fl k).c0 = (seg x).counter → (fl k).c1 = (seg y).counter →
    (∀ f, f ∈ (seg x).content (T.cellDim - 1) → f ∈ (seg y).content (T.cellDim - 1) →
      numCellsV T m (seg x).content f % 2 = 1 → (fl (T.cellDim - 1)).data (m.eid (T.cellDim - 1) f) = true) ∧
    (k < T.cellDim - 1 → ∀ s, (s ∈ (seg x).content k ∨ s ∈ (seg y).content k) →
      ((fl k).data (m.eid k s) = true ↔ ∃ f, f ∈ (seg x).content (T.cellDim - 1) ∧
        f ∈ (seg y).content (T.cellDim - 1) ∧ (fl (T.cellDim - 1)).data (m.eid (T.cellDim - 1) f) = true ∧
        s ∈ m.bndOf (T.cellDim - 1) f k)))

structure IInv (T : Topo) (st : IState P) : Prop where
  inv : Inv T st.mesh
  noZero : st.mesh.elems 0 = []
  seg : ∀ g, VCInv T st.mesh (st.seg g)
  closed : ∀ g, ∀ t ∈ (st.seg g).content T.cellDim, ∀ k, ∀ s ∈ st.mesh.bndOf T.cellDim t k,
    s ∈ (st.seg g).content k
  covered : ∀ g, ∀ f ∈ (st.seg g).content (T.cellDim - 1),
    ∃ t ∈ (st.seg g).content T.cellDim, f ∈ st.mesh.bndOf T.cellDim t (T.cellDim - 1)
  sound : ∀ a b, a ≠ b → ∀ f < st.mesh.count (T.cellDim - 1),
    (st.flags (pairKey a b) (T.cellDim - 1)).data (st.mesh.eid (T.cellDim - 1) f) = true →
    Shared T st.mesh (st.seg a).content (st.seg b).content f
  fresh : ∀ a b, a ≠ b → IfFresh T st.mesh st.seg (st.flags (pairKey a b)) a b ∨
    IfFresh T st.mesh st.seg (st.flags (pairKey a b)) b a
  outside : ∀ a b, a ≠ b → ∀ x, (∀ f < st.mesh.count (T.cellDim - 1), x ≠ st.mesh.eid (T.cellDim - 1) f) →
    (st.flags (pairKey a b) (T.cellDim - 1)).data x = false

theorem IInv.empty (T : Topo) : IInv T (IState.empty : IState P) := by
  refine ⟨Inv.empty T, rfl, fun g => VCInv.empty T _, ?_, ?_, ?_, ?_, ?_⟩
  · intro g t ht; simp [IState.empty, VC.empty] at ht
  · intro g t ht; simp [IState.empty, VC.empty] at ht
  · intro a b _ f hf
    have : (Mesh.empty : Mesh P).count (T.cellDim - 1) = 0 := by unfold Mesh.count; split <;> rfl
    simp only [IState.empty] at hf; omega
  · intro a b _
    refine Or.inl ⟨fun k _ => ⟨le_refl _, le_refl _⟩, fun k _ _ _ => ⟨?_, ?_⟩⟩
    · intro f hf; simp [IState.empty, VC.empty] at hf
    · intro _ s hs; simp [IState.empty, VC.empty] at hs
  · intro a b _ x _; rfl

/-- Freshness only depends on contents and counters. -/
theorem IfFresh.congr {T : Topo} {m : Mesh P} {seg seg' : Nat → VC} {fl : Nat → IFlags} {x y : Nat}
    (h : IfFresh T m seg fl x y) (hx : (seg' x).content = (seg x).content)
    (hx' : (seg' x).counter = (seg x).counter) (hy : (seg' y).content = (seg y).content)
    (hy' : (seg' y).counter = (seg y).counter) : IfFresh T m seg' fl x y := by
  unfold IfFresh at *
  rw [hx, hx', hy, hy']
  exact h

/-- A segment with a new counter makes the flags obsolete. -/
theorem IfFresh.obsolete {T : Topo} {m : Mesh P} {seg seg' : Nat → VC} {fl : Nat → IFlags} {x y : Nat}
    (h : IfFresh T m seg fl x y) (hx : (seg x).counter ≤ (seg' x).counter)
    (hy : (seg y).counter ≤ (seg' y).counter)
    (hlt : (seg x).counter < (seg' x).counter ∨ (seg y).counter < (seg' y).counter) :
    IfFresh T m seg' fl x y := by
  refine ⟨fun k hk => ?_, fun k hk e0 e1 => ?_⟩
  · have := h.1 k hk; omega
  · have := h.1 k hk; omega

theorem IfFresh.grow {T : Topo} {m m' : Mesh P} {seg : Nat → VC} {fl : Nat → IFlags} {x y : Nat}
    (h : IfFresh T m seg fl x y) (hs : ∀ g, VCInv T m (seg g)) (hg : Grown m m')
    (h0 : m.elems 0 = []) (h0' : m'.elems 0 = []) : IfFresh T m' seg fl x y := by
  have hb : ∀ g d t k, t ∈ (seg g).content d → m'.bndOf d t k = m.bndOf d t k := fun g d t k ht =>
    hg.bndOf ((hs g).valid d t ht) h0 h0' k
  have he : ∀ g k s, s ∈ (seg g).content k → m'.eid k s = m.eid k s := fun g k s hs' =>
    hg.eid ((hs g).valid k s hs')
  refine ⟨h.1, fun k hk e0 e1 => ?_⟩
  obtain ⟨h1, h2⟩ := h.2 k hk e0 e1
  refine ⟨fun f hfx hfy hodd => ?_, fun hlt s hs' => ?_⟩
  · rw [he x _ f hfx]
    refine h1 f hfx hfy ?_
    have : numCellsV T m' (seg x).content f = numCellsV T m (seg x).content f := by
      unfold numCellsV
      congr 1
      exact List.filter_congr (fun t ht => by rw [hb x _ t _ ht])
    rw [← this]; exact hodd
  · have hes : m'.eid k s = m.eid k s := by
      rcases hs' with h' | h'
      · exact he x k s h'
      · exact he y k s h'
    rw [hes, h2 hlt s hs']
    refine exists_congr (fun f => and_congr_right (fun hf => and_congr_right (fun hf' => ?_)))
    rw [he x _ f hf, hb x _ f _ hf]

theorem IInv.grow {T : Topo} {st : IState P} (h : IInv T st) {m' : Mesh P} (hI : Inv T m')
    (hu : UniqueVids m') (h0 : m'.elems 0 = []) (hg : Grown st.mesh m') :
    IInv T { st with mesh := m' } := by
  have hb : ∀ g d t k, t ∈ (st.seg g).content d → m'.bndOf d t k = st.mesh.bndOf d t k :=
    fun g d t k ht => hg.bndOf ((h.seg g).valid d t ht) h.noZero h0 k
  refine ⟨hI, h0, fun g => (h.seg g).grow hg h.noZero h0, ?_, ?_, ?_, ?_, ?_⟩
  · intro g t ht k s hs
    simp only at *
    rw [hb g _ t k ht] at hs
    exact h.closed g t ht k s hs
  · intro g f hf
    obtain ⟨t, ht, hft⟩ := h.covered g f hf
    exact ⟨t, ht, by simp only; rw [hb g _ t _ ht]; exact hft⟩
  · intro a b hab f hf hfl
    simp only at *
    have hold : f < st.mesh.count (T.cellDim - 1) := by
      by_contra hn
      have := h.outside a b hab (m'.eid (T.cellDim - 1) f) (fun f' hf' he => ?_)
      · rw [this] at hfl; simp at hfl
      · rw [← hg.eid hf'] at he
        have := eid_inj hI hu hf (lt_of_lt_of_le hf' (hg.count _)) he
        omega
    rw [hg.eid hold] at hfl
    obtain ⟨⟨x, hx, hx'⟩, ⟨y, hy, hy'⟩⟩ := h.sound a b hab f hold hfl
    exact ⟨⟨x, hx, by rw [hb a _ x _ hx]; exact hx'⟩, ⟨y, hy, by rw [hb b _ y _ hy]; exact hy'⟩⟩
  · intro a b hab
    exact (h.fresh a b hab).imp (fun h' => h'.grow h.seg hg h.noZero h0)
      (fun h' => h'.grow h.seg hg h.noZero h0)
  · intro a b hab x hx
    refine h.outside a b hab x (fun f hf => ?_)
    have := hx f (lt_of_lt_of_le hf (hg.count _))
    simp only at this
    rwa [hg.eid hf] at this

theorem IInv.add {T : Topo} (hT : T.WF) {st : IState P} (h : IInv T st) (g t : Nat)
    (hn : 1 ≤ T.cellDim) (ht : t < st.mesh.count T.cellDim) :
    IInv T { st with seg := fun g' => if g' = g then (st.mesh.closureOf T T.cellDim t).foldl VC.insert (st.seg g) else st.seg g' } := by
  have hcont : ∀ g' k s, s ∈ (if g' = g then (st.mesh.closureOf T T.cellDim t).foldl VC.insert (st.seg g) else st.seg g').content k ↔
      s ∈ (st.seg g').content k ∨ (g' = g ∧ ((k = T.cellDim ∧ s = t) ∨ s ∈ st.mesh.bndOf T.cellDim t k)) := by
    intro g' k s
    by_cases hg : g' = g
    · subst hg
      rw [if_pos rfl, (insertAll_content _ _).1, View.mem_foldl_ins, mem_closureOf hT h.inv]
      simp
    · rw [if_neg hg]; simp [hg]
  have hcell : ∀ s, s ∉ st.mesh.bndOf T.cellDim t T.cellDim := by
    intro s hs
    unfold Mesh.bndOf at hs
    split at hs
    · simp at hs
    · rename_i e he
      rw [if_neg (by omega)] at hs
      have hem := List.mem_of_getElem? he
      unfold Elem.bndSlots at hs
      split at hs
      · simp at hs
      · rename_i l hl
        obtain ⟨k', refs⟩ := l
        have h1 := List.mem_of_find?_eq_some hl
        have h2 := List.find?_some hl
        simp only [beq_iff_eq] at h2
        subst h2
        obtain ⟨q, hq⟩ := List.mem_iff_getElem?.1 h1
        obtain ⟨⟨k'', idxs⟩, hlq, hk', _⟩ := forall₂_getElem?' (h.inv.bnd _ e hem) hq
        have := (hT.dim _ _ _ _ (List.mem_of_getElem? hlq)).2
        simp only at hk'
        omega
  have hctr : ∀ g', (st.seg g').counter ≤ (if g' = g then (st.mesh.closureOf T T.cellDim t).foldl VC.insert (st.seg g) else st.seg g').counter ∧
      (g' = g → (st.seg g').counter < (if g' = g then (st.mesh.closureOf T T.cellDim t).foldl VC.insert (st.seg g) else st.seg g').counter) := by
    intro g'
    by_cases hg : g' = g
    · subst hg
      rw [if_pos rfl, (insertAll_content _ _).2]
      have : 0 < (st.mesh.closureOf T T.cellDim t).length := by unfold Mesh.closureOf; simp
      exact ⟨by omega, fun _ => by omega⟩
    · rw [if_neg hg]; exact ⟨le_refl _, fun h => absurd h hg⟩
  refine ⟨h.inv, h.noZero, ?_, ?_, ?_, ?_, ?_, h.outside⟩
  · intro g'
    simp only
    by_cases hg : g' = g
    · rw [if_pos hg]
      refine insertAll_inv _ (h.seg g) ?_
      rintro ⟨k, s⟩ hx
      rcases (mem_closureOf hT h.inv).1 hx with ⟨rfl, rfl⟩ | hx
      · exact ht
      · exact bndOf_valid h.inv hx
    · rw [if_neg hg]; exact h.seg g'
  · intro g' u hu k s hs
    simp only at *
    rw [hcont] at hu ⊢
    rcases hu with hu | ⟨hg, ⟨_, rfl⟩ | hu⟩
    · exact Or.inl (h.closed g' u hu k s hs)
    · exact Or.inr ⟨hg, Or.inr hs⟩
    · exact absurd hu (hcell u)
  · intro g' f hf
    simp only at *
    rw [hcont] at hf
    rcases hf with hf | ⟨hg, ⟨h1, _⟩ | hf⟩
    · obtain ⟨u, hu, hfu⟩ := h.covered g' f hf
      exact ⟨u, by rw [hcont]; exact Or.inl hu, hfu⟩
    · omega
    · exact ⟨t, by rw [hcont]; exact Or.inr ⟨hg, Or.inl ⟨rfl, rfl⟩⟩, hf⟩
  · intro a b hab f hf hfl
    obtain ⟨⟨x, hx, hx'⟩, ⟨y, hy, hy'⟩⟩ := h.sound a b hab f hf hfl
    exact ⟨⟨x, by simp only; rw [hcont]; exact Or.inl hx, hx'⟩, ⟨y, by simp only; rw [hcont]; exact Or.inl hy, hy'⟩⟩
  · intro a b hab
    have key : ∀ x y, IfFresh T st.mesh st.seg (st.flags (pairKey a b)) x y →
        IfFresh T st.mesh (fun g' => if g' = g then (st.mesh.closureOf T T.cellDim t).foldl VC.insert (st.seg g) else st.seg g')
          (st.flags (pairKey a b)) x y := by
      intro x y hf
      by_cases hx : x = g
      · exact hf.obsolete (hctr x).1 (hctr y).1 (Or.inl ((hctr x).2 hx))
      · by_cases hy : y = g
        · exact hf.obsolete (hctr x).1 (hctr y).1 (Or.inr ((hctr y).2 hy))
        · exact hf.congr (by simp [hx]) (by simp [hx]) (by simp [hy]) (by simp [hy])
    exact (h.fresh a b hab).imp (key a b) (key b a)

/-- A change of the caches of the segments only. -/
theorem IInv.segs {T : Topo} {st : IState P} (h : IInv T st) {seg' : Nat → VC}
    (hi : ∀ g, VCInv T st.mesh (seg' g)) (hc : ∀ g, (seg' g).content = (st.seg g).content)
    (hn : ∀ g, (seg' g).counter = (st.seg g).counter) : IInv T { st with seg := seg' } := by
  refine ⟨h.inv, h.noZero, hi, ?_, ?_, ?_, ?_, h.outside⟩
  · intro g; simp only [hc]; exact h.closed g
  · intro g; simp only [hc]; exact h.covered g
  · intro a b; simp only [hc]; exact h.sound a b
  · intro a b hab
    exact (h.fresh a b hab).imp (fun h' => h'.congr (hc _) (hn _) (hc _) (hn _))
      (fun h' => h'.congr (hc _) (hn _) (hc _) (hn _))

theorem detect_spec {T : Topo} (hT : T.WF) {st : IState P} (h : IInv T st) (hu : UniqueVids st.mesh)
    {a b : Nat} (hab : a ≠ b) :
    IInv T (st.detect T a b) ∧ (st.detect T a b).mesh = st.mesh ∧
    (∀ g, ((st.detect T a b).seg g).content = (st.seg g).content) ∧
    (∀ g, ((st.detect T a b).seg g).counter = (st.seg g).counter) ∧
    (∀ k ≤ T.cellDim - 1, ((st.detect T a b).flags (pairKey a b) k).c0 = (st.seg a).counter ∧
      ((st.detect T a b).flags (pairKey a b) k).c1 = (st.seg b).counter) ∧
    IfFresh T st.mesh st.seg ((st.detect T a b).flags (pairKey a b)) a b := by
  obtain ⟨q1, q2, q3, q4⟩ := collectFacets_spec hT h.inv hu ((st.seg a).content (T.cellDim - 1)) (h.seg a)
    (fun f hf => hf)
  -- contents and counters
  have hc : ∀ g, ((st.detect T a b).seg g).content = (st.seg g).content := by
    intro g; unfold IState.detect; simp only
    by_cases hg : g = a
    · rw [if_pos hg, q2, hg]
    · rw [if_neg hg]
  have hn : ∀ g, ((st.detect T a b).seg g).counter = (st.seg g).counter := by
    intro g; unfold IState.detect; simp only
    by_cases hg : g = a
    · rw [if_pos hg, q3, hg]
    · rw [if_neg hg]
  have hi : ∀ g, VCInv T st.mesh ((st.detect T a b).seg g) := by
    intro g; unfold IState.detect; simp only
    by_cases hg : g = a
    · rw [if_pos hg]; exact q1
    · rw [if_neg hg]; exact h.seg g
  have hother : ∀ p, p ≠ pairKey a b → (st.detect T a b).flags p = st.flags p := by
    intro p hp; funext k; unfold IState.detect; simp only; rw [if_neg hp]
  have hcnt : ∀ k ≤ T.cellDim - 1, ((st.detect T a b).flags (pairKey a b) k).c0 = (st.seg a).counter ∧
      ((st.detect T a b).flags (pairKey a b) k).c1 = (st.seg b).counter := by
    intro k hk; unfold IState.detect; simp only [if_true]
    by_cases hkF : k = T.cellDim - 1
    · rw [if_pos hkF]; exact ⟨rfl, rfl⟩
    · rw [if_neg hkF, if_pos (by omega)]; exact ⟨rfl, rfl⟩
  -- facet flags
  have hfl : ∀ x, ((st.detect T a b).flags (pairKey a b) (T.cellDim - 1)).data x = true ↔
      ((st.flags (pairKey a b) (T.cellDim - 1)).data x = true ∨
        ∃ f ∈ (st.seg b).content (T.cellDim - 1), (f ∈ (st.seg a).content (T.cellDim - 1) ∧
          numCellsV T st.mesh (st.seg a).content f % 2 = 1) ∧ x = st.mesh.eid (T.cellDim - 1) f) := by
    intro x
    unfold IState.detect
    simp only [if_true]
    rw [flagFold]
    refine or_congr Iff.rfl (exists_congr (fun f => and_congr_right (fun _ => and_congr_left (fun _ => ?_))))
    exact q4 f
  -- soundness
  have hsound : ∀ f < st.mesh.count (T.cellDim - 1),
      ((st.detect T a b).flags (pairKey a b) (T.cellDim - 1)).data (st.mesh.eid (T.cellDim - 1) f) = true →
      Shared T st.mesh (st.seg a).content (st.seg b).content f := by
    intro f hf hd
    rcases (hfl _).1 hd with hd | ⟨f', hf', ⟨hfa, _⟩, he⟩
    · exact h.sound a b hab f hf hd
    · have := eid_inj h.inv hu hf ((h.seg b).valid _ f' hf') he
      subst this
      exact ⟨h.covered a f hfa, h.covered b f hf'⟩
  have hcl : ∀ f, Shared T st.mesh (st.seg a).content (st.seg b).content f →
      f ∈ (st.seg a).content (T.cellDim - 1) ∧ f ∈ (st.seg b).content (T.cellDim - 1) := by
    rintro f ⟨⟨x, hx, hx'⟩, ⟨y, hy, hy'⟩⟩
    exact ⟨h.closed a x hx _ f hx', h.closed b y hy _ f hy'⟩
  -- freshness
  have hfresh : IfFresh T st.mesh st.seg ((st.detect T a b).flags (pairKey a b)) a b := by
    refine ⟨fun k hk => ?_, fun k hk _ _ => ⟨fun f hfa hfb ho => ?_, fun hlt s hs => ?_⟩⟩
    · rw [(hcnt k hk).1, (hcnt k hk).2]; exact ⟨le_refl _, le_refl _⟩
    · exact (hfl _).2 (Or.inr ⟨f, hfb, ⟨hfa, ho⟩, rfl⟩)
    · have hdata : ((st.detect T a b).flags (pairKey a b) k).data =
          transferFlagsV T st.mesh (st.seg b).content ((st.detect T a b).flags (pairKey a b) (T.cellDim - 1)).data k
            (transferFlagsV T st.mesh (st.seg a).content
              ((st.detect T a b).flags (pairKey a b) (T.cellDim - 1)).data k (st.flags (pairKey a b) k).data) := by
        unfold IState.detect
        simp only [if_true]
        rw [if_neg (by omega), if_pos hlt]
      have hsv : s < st.mesh.count k := by
        rcases hs with hs | hs
        · exact (h.seg a).valid k s hs
        · exact (h.seg b).valid k s hs
      rw [hdata, transferFlagsV_spec h.inv hu _ hsv, transferFlagsV_spec h.inv hu _ hsv]
      have hmem : ∀ g, st.mesh.eid k s ∈ ((st.seg g).content k).map (st.mesh.eid k) ↔ s ∈ (st.seg g).content k := by
        intro g
        rw [List.mem_map]
        constructor
        · rintro ⟨s', hs', he⟩
          have := eid_inj h.inv hu ((h.seg g).valid k s' hs') hsv he
          subst this; exact hs'
        · intro hs'; exact ⟨s, hs', rfl⟩
      rw [hmem a, hmem b]
      constructor
      · rintro (⟨hb', (⟨ha', _⟩ | ⟨f, hf, hff, hfs⟩)⟩ | ⟨f, hf, hff, hfs⟩)
        · rcases hs with hs | hs
          · exact absurd hs ha'
          · exact absurd hs hb'
        · have := hcl f (hsound f ((h.seg a).valid _ f hf) hff)
          exact ⟨f, this.1, this.2, hff, hfs⟩
        · have := hcl f (hsound f ((h.seg b).valid _ f hf) hff)
          exact ⟨f, this.1, this.2, hff, hfs⟩
      · rintro ⟨f, _, hfb, hff, hfs⟩
        exact Or.inr ⟨f, hfb, hff, hfs⟩
  have hfresh' : IfFresh T (st.detect T a b).mesh (st.detect T a b).seg
      ((st.detect T a b).flags (pairKey a b)) a b := hfresh.congr (hc _) (hn _) (hc _) (hn _)
  have hmesh : (st.detect T a b).mesh = st.mesh := rfl
  refine ⟨⟨h.inv, h.noZero, hi, ?_, ?_, ?_, ?_, ?_⟩, rfl, hc, hn, hcnt, hfresh⟩
  · intro g; rw [hc, hmesh]; exact h.closed g
  · intro g; rw [hc, hmesh]; exact h.covered g
  · intro c d hcd f hf hd
    rw [hc, hc, hmesh] at *
    by_cases hp : pairKey c d = pairKey a b
    · rw [hp] at hd
      have := hsound f hf hd
      rcases pairKey_inj hp with ⟨rfl, rfl⟩ | ⟨rfl, rfl⟩
      · exact this
      · exact ⟨this.2, this.1⟩
    · rw [hother _ hp] at hd
      exact h.sound c d hcd f hf hd
  · intro c d hcd
    by_cases hp : pairKey c d = pairKey a b
    · rw [hp]
      rcases pairKey_inj hp with ⟨rfl, rfl⟩ | ⟨rfl, rfl⟩
      · exact Or.inl hfresh'
      · exact Or.inr hfresh'
    · rw [hother _ hp]
      exact (h.fresh c d hcd).imp (fun h' => h'.congr (hc _) (hn _) (hc _) (hn _))
        (fun h' => h'.congr (hc _) (hn _) (hc _) (hn _))
  · intro c d hcd x hx
    rw [hmesh] at hx
    by_cases hp : pairKey c d = pairKey a b
    · rw [hp]
      have : ¬ ((st.detect T a b).flags (pairKey a b) (T.cellDim - 1)).data x = true := by
        rw [hfl]
        rintro (h1 | ⟨f, hf, _, he⟩)
        · rw [h.outside a b hab x hx] at h1; simp at h1
        · exact hx f ((h.seg b).valid _ f hf) he
      simpa using this
    · rw [hother _ hp]; exact h.outside c d hcd x hx

theorem isInterface_spec {T : Topo} (hT : T.WF) {st : IState P} (h : IInv T st) (hu : UniqueVids st.mesh)
    {a b : Nat} (hab : a ≠ b) (k s : Nat) :
    let st' := (st.isInterface T a b k s).1
    IInv T st' ∧ st'.mesh = st.mesh ∧
    (∀ g, (st'.seg g).content = (st.seg g).content) ∧ (∀ g, (st'.seg g).counter = (st.seg g).counter) ∧
    (st.isInterface T a b k s).2 = (st'.flags (pairKey a b) k).data (st.mesh.eid k s) ∧
    (k ≤ T.cellDim - 1 → ∃ x y, ((x = a ∧ y = b) ∨ (x = b ∧ y = a)) ∧
      IfFresh T st.mesh st.seg (st'.flags (pairKey a b)) x y ∧
      (st'.flags (pairKey a b) k).c0 = (st.seg x).counter ∧
      (st'.flags (pairKey a b) k).c1 = (st.seg y).counter) := by
  unfold IState.isInterface
  simp only
  by_cases hob : (st.seg a).counter ≠ (st.flags (pairKey a b) k).c0 ∨ (st.seg b).counter ≠ (st.flags (pairKey a b) k).c1
  · rw [if_pos hob]
    obtain ⟨h1, h2, h3, h4, h5, h6⟩ := detect_spec hT h hu hab
    exact ⟨h1, h2, h3, h4, trivial, fun hk => ⟨a, b, Or.inl ⟨rfl, rfl⟩, h6, h5 k hk⟩⟩
  · rw [if_neg hob]
    simp only [ne_eq, not_or, not_not] at hob
    refine ⟨h, rfl, fun _ => rfl, fun _ => rfl, trivial, fun hk => ?_⟩
    rcases h.fresh a b hab with hf | hf
    · exact ⟨a, b, Or.inl ⟨rfl, rfl⟩, hf, hob.1.symm, hob.2.symm⟩
    · refine ⟨b, a, Or.inr ⟨rfl, rfl⟩, hf, ?_⟩
      have := hf.1 k hk
      omega

/-! Histories -/

/-- Cells are added, nothing is removed. -/
def IOp.Grows (T : Topo) : IOp P → Prop
  | .add _ d _ => d = T.cellDim
  | .remove _ _ _ => False
  | _ => True

theorem istep_verts {T : Topo} {st st' : IState P} {op : IOp P} (h : st.step T op = some st') :
    st.mesh.verts <+: st'.mesh.verts := by
  cases op with
  | mesh op =>
    simp only [IState.step] at h
    obtain ⟨m, h1, rfl⟩ := Option.map_eq_some_iff.1 h
    exact step_verts h1
  | add g d t =>
    simp only [IState.step] at h
    split at h
    · cases h; exact List.prefix_refl _
    · simp at h
  | remove g d t => simp only [IState.step, Option.some.injEq] at h; subst h; exact List.prefix_refl _
  | isBoundary g k s => simp only [IState.step, Option.some.injEq] at h; subst h; exact List.prefix_refl _
  | isInterface a b k s =>
    simp only [IState.step] at h
    split at h
    · simp at h
    · cases h
      unfold IState.isInterface
      simp only
      split <;> exact List.prefix_refl _

theorem irun_verts {T : Topo} : ∀ {ops : List (IOp P)} {st st' : IState P}, st.run T ops = some st' →
    st.mesh.verts <+: st'.mesh.verts
  | [], st, st', h => by simp [IState.run] at h; subst h; exact List.prefix_refl _
  | op :: ops, st, st', h => by
    simp only [IState.run] at h
    obtain ⟨s1, h1, h2⟩ := Option.bind_eq_some_iff.1 h
    exact (istep_verts h1).trans (irun_verts h2)

theorem istep_inv {T : Topo} (hT : T.WF) (hn : 1 ≤ T.cellDim) {st st' : IState P} {op : IOp P}
    (hI : IInv T st) (hu : UniqueVids st.mesh) (hu' : UniqueVids st'.mesh)
    (hd : ∀ o, op.creation = some o → o.Distinct) (hg : op.Grows T)
    (h : st.step T op = some st') : IInv T st' := by
  cases op with
  | mesh op =>
    simp only [IState.step] at h
    obtain ⟨m, h1, rfl⟩ := Option.map_eq_some_iff.1 h
    have hd' := hd op rfl
    exact hI.grow (step_inv hT hI.inv hu hd' h1) hu' (step_noZero hT hI.inv hu hd' hI.noZero h1)
      (step_grown hT hI.inv hu hd' h1)
  | add g d t =>
    simp only [IOp.Grows] at hg
    subst hg
    simp only [IState.step] at h
    split at h
    · rename_i hlt
      cases h
      exact hI.add hT g t hn hlt.2
    · simp at h
  | remove g d t => exact absurd hg (by simp [IOp.Grows])
  | isBoundary g k s =>
    simp only [IState.step, Option.some.injEq] at h; subst h
    have := VC.isBoundary_spec hT hI.inv hu (hI.seg g) k s
    refine hI.segs (fun g' => ?_) (fun g' => ?_) (fun g' => ?_)
    · by_cases hg' : g' = g
      · rw [if_pos hg']; exact this.1
      · rw [if_neg hg']; exact hI.seg g'
    · by_cases hg' : g' = g
      · rw [if_pos hg', this.2.1, hg']
      · rw [if_neg hg']
    · by_cases hg' : g' = g
      · rw [if_pos hg', this.2.2.1, hg']
      · rw [if_neg hg']
  | isInterface a b k s =>
    simp only [IState.step] at h
    split at h
    · simp at h
    · rename_i hab
      cases h
      exact (isInterface_spec hT hI hu hab k s).1

theorem irun_inv {T : Topo} (hT : T.WF) (hn : 1 ≤ T.cellDim) : ∀ {ops : List (IOp P)} {st st' : IState P},
    IInv T st → (∀ op ∈ ops, ∀ o, op.creation = some o → o.Distinct) → (∀ op ∈ ops, op.Grows T) →
    st.run T ops = some st' → UniqueVids st'.mesh → IInv T st'
  | [], st, st', hI, _, _, h, _ => by simp [IState.run] at h; subst h; exact hI
  | op :: ops, st, st', hI, hd, hg, h, hu => by
    simp only [IState.run] at h
    obtain ⟨s1, h1, h2⟩ := Option.bind_eq_some_iff.1 h
    have hu1 : UniqueVids s1.mesh := hu.of_prefix (irun_verts h2)
    have hu0 : UniqueVids st.mesh := hu1.of_prefix (istep_verts h1)
    exact irun_inv hT hn (istep_inv hT hn hI hu0 hu1 (hd op (by simp)) (hg op (by simp)) h1)
      (fun o ho => hd o (by simp [ho])) (fun o ho => hg o (by simp [ho])) h2 hu

/-- A mesh with segments reached by any history of creations, additions, removals and queries;
`all` says whether anything else than adding cells may be done to segments. -/
def IReached (T : Topo) (all : Bool) (st : IState P) : Prop :=
  ∃ ops : List (IOp P), (∀ op ∈ ops, ∀ o, op.creation = some o → o.Distinct) ∧
    (all = false → ∀ op ∈ ops, op.Grows T) ∧ IState.empty.run T ops = some st ∧ UniqueVids st.mesh

theorem IReached.inv {T : Topo} (hT : T.WF) (hn : 1 ≤ T.cellDim) {st : IState P}
    (h : IReached T false st) : IInv T st := by
  obtain ⟨ops, h1, h2, h3, h4⟩ := h
  exact irun_inv hT hn (IInv.empty T) h1 (h2 rfl) h3 h4

end VG
