import Verif.Props.Segments
import Verif.Props.Erase

/-!
C26 and C27 for histories in which elements are also erased from segments.

Specification.  `Consistent T st`: each list has no element twice; the record of each element, the lists of the segments
and the list of all elements say the same; the boundary elements of a listed element are listed.
-/

namespace VG

variable {P : Type}

/-- What a user does with a mesh and its segments, with `erase(segment, element)`. -/
inductive SEOp (P : Type) where
  | op (o : SOp P)
  | erase (g k s : Nat)

/-- One operation; `none` for undefined behaviour.  mesh/segmentation.hpp:2156-2165 for `erase`. -/
def SegState.estep (T : Topo) (st : SegState P) : SEOp P → Option (SegState P)
  | .op o => st.step T o
  | .erase g k s => if k ≤ T.cellDim ∧ s < st.mesh.count k then some (st.eraseElem T g k s) else none

/-- A history. -/
def SegState.erun (T : Topo) : SegState P → List (SEOp P) → Option (SegState P)
  | st, [] => some st
  | st, op :: ops => (st.estep T op).bind (fun st' => SegState.erun T st' ops)

/-- The creation in an operation. -/
def SEOp.creation : SEOp P → Option (MOp P)
  | .op o => o.creation
  | .erase _ _ _ => none

/-- States reached by histories with erasing. -/
def SegErased (T : Topo) (st : SegState P) : Prop :=
  ∃ ops : List (SEOp P), (∀ op ∈ ops, ∀ o, op.creation = some o → o.Distinct) ∧
    SegState.empty.erun T ops = some st ∧ UniqueVids st.mesh

/-- The lists of the segments, the list of all elements and the records of the elements agree. -/
structure Consistent (T : Topo) (st : SegState P) : Prop where
  nodup : ∀ g k, (st.view g k).Nodup
  allNodup : ∀ k, (st.all k).Nodup
  valid : ∀ g k, ∀ s ∈ st.view g k, k ≤ T.cellDim ∧ s < st.mesh.count k
  isIn : ∀ g k s, s < st.mesh.count k → (st.isIn g k s = true ↔ s ∈ st.view g k)
  ids : ∀ k s, s < st.mesh.count k → (st.segmentIds k s).Nodup ∧ ∀ g, g ∈ st.segmentIds k s ↔ s ∈ st.view g k
  all : ∀ k s, s ∈ st.all k ↔ ∃ g, s ∈ st.view g k
  closed : ∀ g d t, t ∈ st.view g d → ∀ k s, OnBoundary T st.mesh k s d t → s ∈ st.view g k

/-- The invariant, for a suitable record of what was added. -/
def SEInv (T : Topo) (st : SegState P) : Prop := ∃ a, SegInv T { st with added := a }

theorem addAll_ghost (g : Nat) (a : Nat → List (Nat × Nat)) : ∀ (xs : List (Nat × Nat)) (st : SegState P),
    xs.foldl (SegState.simpleAdd g) { st with added := a } = { xs.foldl (SegState.simpleAdd g) st with added := a }
  | [], _ => rfl
  | x :: xs, st => by
    rw [List.foldl_cons, List.foldl_cons]
    exact addAll_ghost g a xs (st.simpleAdd g x)

theorem addElem_ghost (T : Topo) (st : SegState P) (a : Nat → List (Nat × Nat)) (g d t : Nat) :
    ∃ a', SegState.addElem T { st with added := a } g d t = { SegState.addElem T st g d t with added := a' } := by
  refine ⟨fun g' => if g' = g then a g ++ [(d, t)] else a g', ?_⟩
  unfold SegState.addElem
  simp only
  rw [addAll_ghost]

theorem step_ghost {T : Topo} {st st' : SegState P} {op : SOp P} (h : st.step T op = some st') (a : Nat → List (Nat × Nat)) :
    ∃ a', SegState.step T { st with added := a } op = some { st' with added := a' } := by
  cases op with
  | mesh op =>
    obtain ⟨m, h1, rfl⟩ := Option.map_eq_some_iff.1 h
    exact ⟨a, by simp only [SegState.step]; rw [h1]; rfl⟩
  | make g op =>
    obtain ⟨m, h1, rfl⟩ := Option.map_eq_some_iff.1 h
    obtain ⟨a', e⟩ := addElem_ghost T { st with
      mesh := m,
      view := fun g' => if g' = g then (m.log.drop st.mesh.log.length).foldl View.ins (st.view g) else st.view g' } a g
        (st.mesh.created T op).1 (st.mesh.created T op).2
    refine ⟨a', ?_⟩
    simp only [SegState.step, SegState.makeIn]
    rw [h1]
    exact congrArg some e
  | add g d t =>
    simp only [SegState.step] at h ⊢
    split at h
    · rename_i hc
      simp only [Option.some.injEq] at h
      subst h
      obtain ⟨a', e⟩ := addElem_ghost T st a g d t
      exact ⟨a', by rw [if_pos hc, e]⟩
    · cases h

theorem eraseAll_all (g : Nat) : ∀ (xs : List (Nat × Nat)) (st : SegState P), UniqueVids st.mesh → (∃ T, Inv T st.mesh) →
    (∀ k, (st.all k).Nodup) → (∀ g' k, (st.view g' k).Nodup) → (∀ d i, (st.segs d i).Nodup) →
    (∀ x ∈ xs, x.2 < st.mesh.count x.1) → (∀ g' k, ∀ s ∈ st.view g' k, s < st.mesh.count k) →
    (∀ k s, s < st.mesh.count k → ∀ g', g' ∈ st.segs k (st.mesh.eid k s) ↔ s ∈ st.view g' k) →
    (∀ k s, s ∈ st.all k ↔ ∃ g', s ∈ st.view g' k) →
    (∀ k, ((xs.foldl (SegState.eraseOne g) st).all k).Nodup) ∧
    ∀ k s, s ∈ (xs.foldl (SegState.eraseOne g) st).all k ↔ ∃ g', s ∈ (xs.foldl (SegState.eraseOne g) st).view g' k
  | [], st, _, _, h, _, _, _, _, _, ha => ⟨h, ha⟩
  | x :: xs, st, hu, hT, h1, h2, h3, h4, h5, h6, h7 => by
    obtain ⟨T, hI⟩ := hT
    have hv := eraseAll_view g [x] st (h2 g)
    have hs := eraseAll_segs g [x] st h3
    simp only [List.foldl_cons, List.foldl_nil, List.mem_singleton, forall_eq] at hv hs
    have hx := h4 x (by simp)
    have hrec : ∀ k s, s < st.mesh.count k → ∀ g', g' ∈ (st.eraseOne g x).segs k (st.mesh.eid k s) ↔ s ∈ (st.eraseOne g x).view g' k := by
      intro k s hk g'
      rw [hs, hv, h6 k s hk]
      refine and_congr_right fun _ => imp_congr_right fun _ => not_congr ?_
      constructor
      · rintro ⟨rfl, e⟩
        rw [eid_inj hI hu hk hx e]
      · rintro rfl; exact ⟨rfl, rfl⟩
    rw [List.foldl_cons]
    refine eraseAll_all g xs (st.eraseOne g x) hu ⟨T, hI⟩ ?_ ?_ ?_ (fun y hy => h4 y (by simp [hy])) ?_ hrec ?_
    · intro k
      show ((if _ then st.all.del x else st.all) k).Nodup
      split
      · exact View.del_nodup h1 x k
      · exact h1 k
    · intro g' k
      show ((if g' = g then (st.view g).del x else st.view g') k).Nodup
      split
      · exact View.del_nodup (h2 g) x k
      · exact h2 g' k
    · intro d i
      show (if d = x.1 ∧ i = st.mesh.eid x.1 x.2 then (st.segs d i).erase g else st.segs d i).Nodup
      split
      · exact (h3 d i).erase _
      · exact h3 d i
    · intro g' k s hm
      exact h5 g' k s ((hv g' k s).1 hm).1
    · intro k s
      have hempty : (st.eraseOne g x).segs x.1 (st.mesh.eid x.1 x.2) = [] ↔ ∀ g', x.2 ∉ (st.eraseOne g x).view g' x.1 := by
        rw [List.eq_nil_iff_forall_not_mem]
        exact forall_congr' fun g' => not_congr (hrec x.1 x.2 hx g')
      have hall : (st.eraseOne g x).all = if (st.eraseOne g x).segs x.1 (st.mesh.eid x.1 x.2) = [] then st.all.del x else st.all := rfl
      rw [hall]
      by_cases hks : (k, s) = x
      · subst hks
        split
        · rename_i he
          rw [View.mem_del h1]
          refine iff_of_false (fun h => h.2 rfl) ?_
          rintro ⟨g', hg'⟩
          exact hempty.1 he g' hg'
        · rename_i he
          rw [h7]
          constructor
          · rintro _
            by_contra hno
            exact he (hempty.2 fun g' hg' => hno ⟨g', hg'⟩)
          · rintro ⟨g', hg'⟩
            exact ⟨g', ((hv g' k s).1 hg').1⟩
      · have : s ∈ (if (st.eraseOne g x).segs x.1 (st.mesh.eid x.1 x.2) = [] then st.all.del x else st.all) k ↔ s ∈ st.all k := by
          split
          · rw [View.mem_del h1]
            exact and_iff_left hks
          · rfl
        rw [this, h7]
        refine exists_congr fun g' => ?_
        rw [hv]
        exact (and_iff_left fun _ => hks).symm

theorem eraseAll_segs_nodup (g : Nat) : ∀ (xs : List (Nat × Nat)) (st : SegState P), (∀ d i, (st.segs d i).Nodup) →
    ∀ d i, ((xs.foldl (SegState.eraseOne g) st).segs d i).Nodup
  | [], _, h => h
  | x :: xs, st, h => by
    refine eraseAll_segs_nodup g xs (st.eraseOne g x) fun d i => ?_
    show (if d = x.1 ∧ i = st.mesh.eid x.1 x.2 then (st.segs d i).erase g else st.segs d i).Nodup
    split
    · exact (h d i).erase _
    · exact h d i

theorem eraseAll_view_nodup (g : Nat) : ∀ (xs : List (Nat × Nat)) (st : SegState P), (∀ g' k, (st.view g' k).Nodup) →
    ∀ g' k, ((xs.foldl (SegState.eraseOne g) st).view g' k).Nodup
  | [], _, h => h
  | x :: xs, st, h => by
    refine eraseAll_view_nodup g xs (st.eraseOne g x) fun g' k => ?_
    show ((if g' = g then (st.view g).del x else st.view g') k).Nodup
    split
    · exact View.del_nodup (h g) x k
    · exact h g' k

/-- The dimensions of listed elements. -/
theorem SegInv.view_dim {T : Topo} (hT : T.WF) {st : SegState P} (h : SegInv T st) {g k s : Nat} (hs : s ∈ st.view g k) :
    k ≤ T.cellDim := by
  obtain ⟨x, hx, hc⟩ := (h.view g k s).1 hs
  have hv := h.valid g x hx
  rcases hc with ⟨rfl, _⟩ | hc
  · exact hv.1
  · rcases Nat.eq_zero_or_pos x.1 with h0 | h0
    · rw [h0] at hc
      unfold Mesh.bndOf at hc
      rw [h.noZero] at hc
      simp at hc
    · have := bndOf_dim hT h.mesh h0 hv.1 hc
      omega

/-- The boundary elements of listed elements are listed. -/
theorem SegInv.down {T : Topo} (hT : ClosedTopo T) {st : SegState P} (h : SegInv T st) {g d t k s : Nat} (ht : t ∈ st.view g d)
    (hs : s ∈ st.mesh.bndOf d t k) : s ∈ st.view g k := by
  have hd := h.view_dim hT.lib.wf ht
  obtain ⟨x, hx, hc⟩ := (h.view g d t).1 ht
  have hv := h.valid g x hx
  refine (h.view g k s).2 ⟨x, hx, ?_⟩
  rcases hc with ⟨rfl, rfl⟩ | hc
  · exact Or.inr hs
  · have h0 : 1 ≤ d := by
      rcases Nat.eq_zero_or_pos d with h0 | h0
      · rw [h0] at hs
        unfold Mesh.bndOf at hs
        rw [h.noZero] at hs
        simp at hs
      · exact h0
    have hx0 : 1 ≤ x.1 := by
      rcases Nat.eq_zero_or_pos x.1 with h0 | h0
      · rw [h0] at hc
        unfold Mesh.bndOf at hc
        rw [h.noZero] at hc
        simp at hc
      · exact h0
    exact Or.inr (bndOf_trans hT h.mesh hv.1 h0 hc hs (bndOf_dim hT.lib.wf h.mesh hx0 hv.1 hc) (bndOf_dim hT.lib.wf h.mesh h0 hd hs))

/-- `erase` keeps the invariant. -/
theorem SegInv.erase {T : Topo} (hT : ClosedTopo T) {st : SegState P} (h : SegInv T st) (hu : UniqueVids st.mesh) (g k s : Nat) :
    SEInv T (st.eraseElem T g k s) := by
  have hW := hT.lib.wf
  have hmesh : (st.eraseElem T g k s).mesh = st.mesh := eraseAll_mesh g _ st
  have hview : ∀ g' d t, t ∈ (st.eraseElem T g k s).view g' d ↔ t ∈ st.view g' d ∧ (g' = g → (d, t) ∉ st.marked T g k s) :=
    fun g' d t => eraseAll_view g _ st (h.nodup g) g' d t
  have hmark : ∀ x ∈ st.marked T g k s, x.2 < st.mesh.count x.1 := by
    rintro ⟨d, t⟩ hx
    exact h.view_lt (mem_marked.1 hx).2.2.1
  have hrec : ∀ k s, s < st.mesh.count k → ∀ g', g' ∈ st.segs k (st.mesh.eid k s) ↔ s ∈ st.view g' k := by
    intro k s hk g'
    rw [h.segs]
    constructor
    · rintro ⟨t, ht, e⟩
      rw [eid_inj h.mesh hu hk (h.view_lt ht) e]; exact ht
    · intro hm; exact ⟨s, hm, rfl⟩
  obtain ⟨a1, a2⟩ := eraseAll_all g (st.marked T g k s) st hu ⟨T, h.mesh⟩ h.allNodup h.nodup h.segsNodup hmark
    (fun g' k s hs => h.view_lt hs) hrec h.all
  refine ⟨fun g' => (List.range (T.cellDim + 1)).flatMap fun d => ((st.eraseElem T g k s).view g' d).map fun t => (d, t), ?_⟩
  have hadd : ∀ g' d t, (d, t) ∈ (List.range (T.cellDim + 1)).flatMap (fun d => ((st.eraseElem T g k s).view g' d).map fun t => (d, t)) ↔
      d ≤ T.cellDim ∧ t ∈ (st.eraseElem T g k s).view g' d := by
    intro g' d t
    simp only [List.mem_flatMap, List.mem_range, List.mem_map, Prod.mk.injEq]
    constructor
    · rintro ⟨d', h1, t', h2, rfl, rfl⟩; exact ⟨by omega, h2⟩
    · rintro ⟨h1, h2⟩; exact ⟨d, by omega, t, h2, rfl, rfl⟩
  refine ⟨?_, ?_, eraseAll_view_nodup g _ st h.nodup, a1, eraseAll_segs_nodup g _ st h.segsNodup, ?_, ?_, ?_, a2⟩
  · show Inv T (st.eraseElem T g k s).mesh
    rw [hmesh]; exact h.mesh
  · show (st.eraseElem T g k s).mesh.elems 0 = []
    rw [hmesh]; exact h.noZero
  · rintro g' ⟨d, t⟩ hx
    obtain ⟨h1, h2⟩ := (hadd g' d t).1 hx
    refine ⟨h1, ?_⟩
    show t < (st.eraseElem T g k s).mesh.count d
    rw [hmesh]; exact h.view_lt ((hview g' d t).1 h2).1
  · intro g' d t
    show t ∈ (st.eraseElem T g k s).view g' d ↔ ∃ x ∈ (List.range (T.cellDim + 1)).flatMap (fun d => ((st.eraseElem T g k s).view g' d).map fun t => (d, t)),
      Closure (st.eraseElem T g k s).mesh x.1 x.2 d t
    constructor
    · intro ht
      refine ⟨(d, t), (hadd g' d t).2 ⟨?_, ht⟩, Or.inl ⟨rfl, rfl⟩⟩
      exact h.view_dim hW ((hview g' d t).1 ht).1
    · rintro ⟨⟨D, u⟩, hx, ⟨h1, h2⟩ | hc⟩
      · simp only at h1 h2
        subst h1; subst h2
        exact ((hadd _ _ _).1 hx).2
      · obtain ⟨hD, hu'⟩ := (hadd _ _ _).1 hx
        rw [hmesh] at hc
        simp only at hc
        rw [hview] at hu' ⊢
        refine ⟨h.down hT hu'.1 hc, fun hg hm => hu'.2 hg ?_⟩
        have hm := mem_marked.1 hm
        subst hg
        have hD0 : 1 ≤ D := by
          rcases Nat.eq_zero_or_pos D with h0 | h0
          · rw [h0] at hc
            unfold Mesh.bndOf at hc
            rw [h.noZero] at hc
            simp at hc
          · exact h0
        have hdD := bndOf_dim hW h.mesh hD0 hD hc
        exact mem_marked.2 ⟨hD, by omega, hu'.1, bndOf_trans hT h.mesh hD (by omega) hc hm.2.2.2 hdD hm.2.1⟩
  · intro d i g'
    show g' ∈ (st.eraseElem T g k s).segs d i ↔ ∃ t ∈ (st.eraseElem T g k s).view g' d, i = (st.eraseElem T g k s).mesh.eid d t
    rw [hmesh]
    refine (eraseAll_segs g (st.marked T g k s) st h.segsNodup d i g').trans ?_
    rw [h.segs]
    constructor
    · rintro ⟨⟨t, ht, rfl⟩, h2⟩
      exact ⟨t, (hview g' d t).2 ⟨ht, fun hg hm => h2 hg _ hm ⟨rfl, rfl⟩⟩, rfl⟩
    · rintro ⟨t, ht, rfl⟩
      obtain ⟨h1, h2⟩ := (hview g' d t).1 ht
      refine ⟨⟨t, h1, rfl⟩, ?_⟩
      rintro hg ⟨d', u⟩ hx ⟨rfl, he⟩
      have e := eid_inj h.mesh hu (h.view_lt h1) (hmark _ hx) he
      subst e
      exact h2 hg hx

theorem estep_verts {T : Topo} {st st' : SegState P} {op : SEOp P} (h : st.estep T op = some st') : st.mesh.verts <+: st'.mesh.verts := by
  cases op with
  | op o => exact sstep_verts h
  | erase g k s =>
    simp only [SegState.estep] at h
    split at h
    · simp only [Option.some.injEq] at h
      subst h
      have : (st.eraseElem T g k s).mesh = st.mesh := eraseAll_mesh g _ st
      rw [this]; exact List.prefix_refl _
    · cases h

theorem erun_verts {T : Topo} : ∀ {ops : List (SEOp P)} {st st' : SegState P}, st.erun T ops = some st' → st.mesh.verts <+: st'.mesh.verts
  | [], st, st', h => by simp [SegState.erun] at h; subst h; exact List.prefix_refl _
  | op :: ops, st, st', h => by
    simp only [SegState.erun] at h
    obtain ⟨s1, h1, h2⟩ := Option.bind_eq_some_iff.1 h
    exact (estep_verts h1).trans (erun_verts h2)

theorem eraseAll_ghost (g : Nat) (a : Nat → List (Nat × Nat)) : ∀ (xs : List (Nat × Nat)) (st : SegState P),
    xs.foldl (SegState.eraseOne g) { st with added := a } = { xs.foldl (SegState.eraseOne g) st with added := a }
  | [], _ => rfl
  | x :: xs, st => by
    rw [List.foldl_cons, List.foldl_cons]
    exact eraseAll_ghost g a xs (st.eraseOne g x)

theorem estep_inv {T : Topo} (hT : ClosedTopo T) {st st' : SegState P} {op : SEOp P} (h : SEInv T st) (hu : UniqueVids st.mesh)
    (hd : ∀ o, op.creation = some o → o.Distinct) (hs : st.estep T op = some st') : SEInv T st' := by
  obtain ⟨a, ha⟩ := h
  cases op with
  | op o =>
    obtain ⟨a', h'⟩ := step_ghost (show st.step T o = some st' from hs) a
    exact ⟨a', sstep_inv hT.lib.wf hT.closed ha hu hd h'⟩
  | erase g k s =>
    simp only [SegState.estep] at hs
    split at hs
    · simp only [Option.some.injEq] at hs
      subst hs
      obtain ⟨b, hb⟩ := ha.erase hT hu g k s
      refine ⟨b, ?_⟩
      have : SegState.eraseElem T { st with added := a } g k s = { st.eraseElem T g k s with added := a } := eraseAll_ghost g a _ st
      rw [this] at hb
      exact hb
    · cases hs

theorem erun_inv {T : Topo} (hT : ClosedTopo T) : ∀ {ops : List (SEOp P)} {st st' : SegState P}, SEInv T st →
    (∀ op ∈ ops, ∀ o, op.creation = some o → o.Distinct) → st.erun T ops = some st' → UniqueVids st'.mesh → SEInv T st'
  | [], st, st', hI, _, h, _ => by simp [SegState.erun] at h; subst h; exact hI
  | op :: ops, st, st', hI, hd, h, hu => by
    simp only [SegState.erun] at h
    obtain ⟨s1, h1, h2⟩ := Option.bind_eq_some_iff.1 h
    have hu1 := hu.of_prefix (erun_verts h2)
    exact erun_inv hT (estep_inv hT hI (hu1.of_prefix (estep_verts h1)) (hd op (by simp)) h1) (fun o ho => hd o (by simp [ho])) h2 hu

theorem SegErased.inv {T : Topo} (hT : ClosedTopo T) {st : SegState P} (h : SegErased T st) : SEInv T st := by
  obtain ⟨ops, h1, h2, h3⟩ := h
  exact erun_inv hT ⟨_, SegInv.empty T⟩ h1 h2 h3

/-- C26 for histories of creations, additions and erasures, for simplices and quadrilaterals: at each time the lists of the
segments, the list of all elements and the records of the elements agree, and the lists are closed under taking boundary
elements. -/
theorem C26_after_erase_partial {T : Topo} (hT : ClosedTopo T) {st : SegState P} (h : SegErased T st) : Consistent T st := by
  obtain ⟨a, hI⟩ := h.inv hT
  obtain ⟨_, _, _, hu⟩ := h
  have hids : ∀ k s, s < st.mesh.count k → ∀ g, g ∈ st.segmentIds k s ↔ s ∈ st.view g k := by
    intro k s hk g
    unfold SegState.segmentIds
    refine (hI.segs k _ g).trans ?_
    constructor
    · rintro ⟨t, ht, e⟩
      have := eid_inj hI.mesh hu hk (hI.view_lt ht) e
      rw [this]; exact ht
    · intro hm; exact ⟨s, hm, rfl⟩
  refine ⟨hI.nodup, hI.allNodup, fun g k s hs => ⟨hI.view_dim hT.lib.wf hs, hI.view_lt hs⟩, fun g k s hs => ?_,
    fun k s hs => ⟨hI.segsNodup _ _, hids k s hs⟩, hI.all, fun g d t ht k s hs => ?_⟩
  · rw [← hids k s hs g]
    unfold SegState.isIn SegState.segmentIds
    exact decide_eq_true_iff
  · exact hI.down hT ht ((mem_bndOf_iff hT.lib.wf hI.mesh (hI.view_dim hT.lib.wf ht)).2 hs)

/-- C27, partial, from any state reached by additions and erasures: after `erase(segment, e)` the segment lists what it
listed before except for the elements which have `e` on their boundary.  The element `e` itself stays.  Other segments are
not changed, and the list of all elements only loses elements which are in no segment any more. -/
theorem C27_after_erase_partial {T : Topo} (hT : ClosedTopo T) {st : SegState P} (h : SegErased T st) {g k s : Nat}
    (hk : k ≤ T.cellDim) (hs : s < st.mesh.count k) :
    ∃ st', st.estep T (.erase g k s) = some st' ∧ st'.mesh = st.mesh ∧ SegErased T st' ∧
    (∀ d t, t ∈ st'.view g d ↔ t ∈ st.view g d ∧ ¬ (k < d ∧ OnBoundary T st.mesh k s d t)) ∧
    (∀ g' d t, g' ≠ g → (t ∈ st'.view g' d ↔ t ∈ st.view g' d)) ∧
    ∀ d t, t ∈ st'.all d ↔ t ∈ st.all d ∧ ∃ g', t ∈ st'.view g' d := by
  obtain ⟨a, hI⟩ := h.inv hT
  obtain ⟨ops, h1, h2, hu⟩ := h
  have hmesh : (st.eraseElem T g k s).mesh = st.mesh := eraseAll_mesh g _ st
  have hview : ∀ g' d t, t ∈ (st.eraseElem T g k s).view g' d ↔ t ∈ st.view g' d ∧ (g' = g → (d, t) ∉ st.marked T g k s) :=
    fun g' d t => eraseAll_view g _ st (hI.nodup g) g' d t
  have hstep : st.estep T (.erase g k s) = some (st.eraseElem T g k s) := if_pos ⟨hk, hs⟩
  have hr : SegErased T (st.eraseElem T g k s) := by
    refine ⟨ops ++ [.erase g k s], ?_, ?_, by rw [hmesh]; exact hu⟩
    · intro op hop o ho
      rcases List.mem_append.1 hop with hop | hop
      · exact h1 op hop o ho
      · rw [List.mem_singleton.1 hop] at ho; simp [SEOp.creation] at ho
    · have : ∀ (ops : List (SEOp P)) (s0 s1 : SegState P), s0.erun T ops = some s1 →
          s0.erun T (ops ++ [.erase g k s]) = s1.estep T (.erase g k s) := by
        intro ops
        induction ops with
        | nil =>
          intro s0 s1 e
          simp only [SegState.erun, Option.some.injEq] at e
          subst e
          simp only [List.nil_append, SegState.erun]
          cases s0.estep T (.erase g k s) <;> rfl
        | cons o ops ih =>
          intro s0 s1 e
          simp only [SegState.erun] at e
          obtain ⟨s2, e1, e2⟩ := Option.bind_eq_some_iff.1 e
          simp only [List.cons_append, SegState.erun]
          rw [e1, Option.bind_some]
          exact ih s2 s1 e2
      rw [this ops _ _ h2, hstep]
  refine ⟨_, hstep, hmesh, hr, ?_, ?_, ?_⟩
  · intro d t
    rw [hview]
    refine and_congr_right fun ht => ?_
    have hd := hI.view_dim hT.lib.wf ht
    rw [mem_marked, ← mem_bndOf_iff hT.lib.wf hI.mesh hd]
    constructor
    · exact fun h3 h4 => h3 rfl ⟨hd, h4.1, ht, h4.2⟩
    · exact fun h3 _ h4 => h3 ⟨h4.2.1, h4.2.2.2⟩
  · intro g' d t hg
    rw [hview]
    exact and_iff_left fun e => absurd e hg
  · intro d t
    rw [(C26_after_erase_partial hT hr).all]
    constructor
    · rintro ⟨g', hg'⟩
      exact ⟨(hI.all d t).2 ⟨g', ((hview g' d t).1 hg').1⟩, g', hg'⟩
    · exact fun h => h.2

/-- The two triangles of `twoSegs`; then the edge between them is erased from the segment of the first one, and the second one is
added to it. -/
def eraseSegs : List (SEOp Unit) := twoSegs.map .op ++ [.erase 0 1 2, .op (.add 0 2 1)]

/-- The first triangle is not in the segment any more, its edges are; it was in no other segment and is not among all elements
either. -/
example : ∃ st, SegErased (simplexTopo 2) st ∧ (SegState.empty : SegState Unit).erun (simplexTopo 2) eraseSegs = some st ∧
    st.view 0 2 = [1] ∧ st.view 0 1 = [0, 1, 2, 3, 4] ∧ st.all 2 = [1] ∧ st.segmentIds 2 1 = [1, 0] := by
  have e : ∃ st, (SegState.empty : SegState Unit).erun (simplexTopo 2) eraseSegs = some st ∧ UniqueVids st.mesh ∧
      st.view 0 2 = [1] ∧ st.view 0 1 = [0, 1, 2, 3, 4] ∧ st.all 2 = [1] ∧ st.segmentIds 2 1 = [1, 0] :=
    ⟨_, rfl, by unfold UniqueVids; decide +kernel, by decide +kernel, by decide +kernel, by decide +kernel, by decide +kernel⟩
  obtain ⟨st, e1, e2, e3⟩ := e
  refine ⟨st, ⟨eraseSegs, ?_, e1, e2⟩, e1, e3⟩
  intro op hop o ho
  simp [eraseSegs, twoSegs] at hop
  rcases hop with rfl | rfl | rfl | rfl | rfl | rfl <;> simp [SEOp.creation, SOp.creation] at ho <;> subst ho <;>
    simp [MOp.Distinct]

end VG
