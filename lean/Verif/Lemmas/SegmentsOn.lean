import Verif.Lemmas.Segments

/-!
The membership record of segments for chosen dimensions: the boundary tables need to be closed for these only.
-/

namespace VG

variable {P : Type}

/-- The boundary tables are closed in the dimensions `K`, compare `Topo.Closed`. -/
def Topo.ClosedOn (T : Topo) (K : Nat → Prop) : Prop :=
  ∀ d n k idxs j jdxs, d ≤ T.cellDim → T.Arity d n → (k, idxs) ∈ T.layers d n → (j, jdxs) ∈ T.layers k (T.nv k) → K j → ∀ ix ∈ idxs, ∀ jx ∈ jdxs,
    ∃ idxs', (j, idxs') ∈ T.layers d n ∧ ∃ ix' ∈ idxs', ix'.Perm (pick ix jx)

/-- The tables of hexahedra are closed except for the edges. -/
theorem cubeTopo_closedOn (n : Nat) : (cubeTopo n).ClosedOn (fun k => k ≠ 1) := by
  intro d N k idxs j jdxs hd _ h1 h2 hj
  simp only [cubeTopo] at h1 h2 hd
  have hk : k = 1 ∨ k = 2 := by
    split at h1
    · simp at h1; exact Or.inl h1.1
    · split at h1
      · simp at h1; omega
      · simp at h1
  rcases hk with rfl | rfl
  · simp at h2
  · simp at h2
    exact absurd h2.1 hj

/-- The tables are closed for vertices and cells in any case. -/
theorem Topo.WF.closedOn {T : Topo} (hT : T.WF) : T.ClosedOn (fun k => k = 0 ∨ k = T.cellDim) := by
  intro d N k idxs j jdxs hd _ h1 h2 hj
  have := hT.dim d _ k idxs h1
  have := hT.dim k _ j jdxs h2
  omega

/-- Compare `LogIns`. -/
def LogInsOn (T : Topo) (K : Nat → Prop) (D : Nat) (ins : Nat → Mesh P → List Nat → InsRes P) : Prop :=
  ∀ k m vs, 1 ≤ k → k < D → k ≤ T.cellDim → Inv T m → UniqueVids m → VertsOK T m k vs →
    ∀ x ∈ (ins k m vs).mesh.log.drop m.log.length, K x.1 →
      x = (k, (ins k m vs).slot) ∨ TableBnd T (ins k m vs).mesh k vs x

theorem genFaces_logOn {T : Topo} (hT : T.WF) {K : Nat → Prop} (hC : T.ClosedOn K) {D : Nat}
    {ins : Nat → Mesh P → List Nat → InsRes P} (hg : GoodIns T D ins) (hL : LogInsOn T K D ins)
    {k d : Nat} (hk : 1 ≤ k) (hkD : k < D) (hdc : d ≤ T.cellDim) {vs : List Nat} {all : List (List Nat)}
    (har : T.Arity d vs.length) (hl : (k, all) ∈ T.layers d vs.length) :
    ∀ (idxs : List (List Nat)) (m : Mesh P), idxs ⊆ all → Inv T m → UniqueVids m →
      (∀ ix ∈ idxs, VertsOK T m k (pick vs ix) ∧ pick vs ix ⊆ vs) →
      ∀ x ∈ (genFaces ins vs k idxs m).1.log.drop m.log.length, K x.1 →
        TableBnd T (genFaces ins vs k idxs m).1 d vs x
  | [], m, _, _, _, _, x, hx => by simp [genFaces] at hx
  | ix :: rest, m, hsub, hI, hu, hix, x, hx => by
    intro hK
    have hs := hg k m (pick vs ix) hk hkD hI hu (hix ix (by simp)).1
    have hu' := hu.congr hs.ext.verts
    have hix' : ∀ jx ∈ rest, VertsOK T (ins k m (pick vs ix)).mesh k (pick vs jx) ∧ pick vs jx ⊆ vs :=
      fun jx hjx => ⟨((hix jx (by simp [hjx])).1).congr hs.ext.verts, (hix jx (by simp [hjx])).2⟩
    obtain ⟨ig, _⟩ := genFaces_spec hT hg hk hkD rest (ins k m (pick vs ix)).mesh hs.inv hu' hix'
    simp only [genFaces] at hx ⊢
    rcases drop_prefix_split hs.ext.log ig.ext.log hx with h | h
    · refine TableBnd.mono ig.ext.elems ?_
      rcases hL k m (pick vs ix) hk hkD (by have := (hT.dim d _ k all hl).2; omega) hI hu (hix ix (by simp)).1 x h hK with rfl | h'
      · obtain ⟨f, h1, h2, _⟩ := hs.found
        exact ⟨all, ix, f, hl, hsub (by simp), h1, h2⟩
      · obtain ⟨jdxs, jx, f, h1, h2, h3, h4⟩ := h'
        have hlen : ix.length = T.nv k := (hT.idx d _ k all har hl ix (hsub (by simp))).2.1
        rw [show (pick vs ix).length = T.nv k by simp [pick, hlen]] at h1
        obtain ⟨idxs', h5, ix', h6, h7⟩ := hC d _ k all x.1 jdxs hdc har hl h1 hK ix (hsub (by simp)) jx h2
        refine ⟨idxs', ix', f, h5, h6, h3, h4.trans ?_⟩
        rw [pick_pick]
        · exact (h7.map _).symm
        · rw [hlen]
          exact (hT.idx k _ x.1 jdxs (Or.inl rfl) h1 jx h2).2.2
    · exact genFaces_logOn hT hC hg hL hk hkD hdc har hl rest _ (fun a ha => hsub (by simp [ha])) hs.inv hu' hix' x h hK

theorem genLayers_logOn {T : Topo} (hT : T.WF) {K : Nat → Prop} (hC : T.ClosedOn K) {D : Nat}
    {ins : Nat → Mesh P → List Nat → InsRes P} (hg : GoodIns T D ins) (hL : LogInsOn T K D ins)
    {d : Nat} (hdc : d ≤ T.cellDim) {vs : List Nat} (har : T.Arity d vs.length) :
    ∀ (ls : List (Nat × List (List Nat))) (m : Mesh P), ls ⊆ T.layers d vs.length → Inv T m → UniqueVids m →
      (∀ k idxs, (k, idxs) ∈ ls → 1 ≤ k ∧ k < D ∧
        ∀ ix ∈ idxs, VertsOK T m k (pick vs ix) ∧ pick vs ix ⊆ vs) →
      ∀ x ∈ (genLayers ins vs ls m).1.log.drop m.log.length, K x.1 →
        TableBnd T (genLayers ins vs ls m).1 d vs x
  | [], m, _, _, _, _, x, hx => by simp [genLayers] at hx
  | (k, idxs) :: rest, m, hsub, hI, hu, hl, x, hx => by
    intro hK
    obtain ⟨hk, hkD, hix⟩ := hl k idxs (by simp)
    obtain ⟨hs, _⟩ := genFaces_spec hT hg hk hkD idxs m hI hu hix
    have hu' := hu.congr hs.ext.verts
    have hl' : ∀ k' idxs', (k', idxs') ∈ rest → 1 ≤ k' ∧ k' < D ∧
        ∀ ix ∈ idxs', VertsOK T (genFaces ins vs k idxs m).1 k' (pick vs ix) ∧ pick vs ix ⊆ vs :=
      fun k' idxs' h => ⟨(hl k' idxs' (by simp [h])).1, (hl k' idxs' (by simp [h])).2.1,
        fun ix hix' => ⟨((hl k' idxs' (by simp [h])).2.2 ix hix').1.congr hs.ext.verts,
          ((hl k' idxs' (by simp [h])).2.2 ix hix').2⟩⟩
    obtain ⟨ig, _⟩ := genLayers_spec hT hg rest (genFaces ins vs k idxs m).1 hs.inv hu' hl'
    simp only [genLayers] at hx ⊢
    rcases drop_prefix_split hs.ext.log ig.ext.log hx with h | h
    · exact (genFaces_logOn hT hC hg hL hk hkD hdc har (hsub (by simp)) idxs m (List.Subset.refl _) hI hu hix x h hK).mono
        ig.ext.elems
    · exact genLayers_logOn hT hC hg hL hdc har rest _ (fun a ha => hsub (by simp [ha])) hs.inv hu' hl' x h hK

theorem insertN_logOn {T : Topo} (hT : T.WF) {K : Nat → Prop} (hC : T.ClosedOn K) :
    ∀ f, LogInsOn (P := P) T K (f + 1) (insertN T f) := by
  intro f
  induction f with
  | zero => intro k m vs h1 h2; omega
  | succ f ih =>
    intro d m vs hd hdf hdc hI hu hv x hx hK
    unfold insertN at hx ⊢
    split
    · rename_i s hs
      rw [hs] at hx
      simp [Mesh.touch] at hx
      exact Or.inl hx
    · rename_i hs
      rw [hs] at hx
      have ihd : GoodIns (P := P) T d (insertN T f) :=
        fun k m vs h1 h2 => insertN_good hT f k m vs h1 (by omega)
      have ihl : LogInsOn (P := P) T K d (insertN T f) := fun k m vs h1 h2 h3 => ih k m vs h1 (by omega) h3
      have hl : ∀ k idxs, (k, idxs) ∈ T.layers d vs.length → 1 ≤ k ∧ k < d ∧
          ∀ ix ∈ idxs, VertsOK T m k (pick vs ix) ∧ pick vs ix ⊆ vs :=
        fun k idxs h => ⟨(hT.dim d _ k idxs h).1, (hT.dim d _ k idxs h).2, fun ix hix => pick_ok hT hix h hv⟩
      obtain ⟨hg, hb⟩ := genLayers_spec hT ihd (vs := vs) (T.layers d vs.length) m hI hu hl
      have hlog := genLayers_logOn hT hC ihd ihl (d := d) hdc (vs := vs) hv.2.1 (T.layers d vs.length) m (List.Subset.refl _) hI hu hl
      simp only at hx ⊢
      generalize genLayers (insertN T f) vs (T.layers d vs.length) m = q at hg hb hlog hx ⊢
      have hpe := push_ext q.1 d vs q.2
      rcases drop_prefix_split hg.ext.log hpe.log hx with h | h
      · exact Or.inr ((hlog x h hK).mono hpe.elems)
      · left
        have hsame : q.1.elems d = m.elems d := hg.higher d (le_refl _)
        simp [Mesh.push, hsame] at h
        exact h

/-- Compare `SegInv`: what holds for the elements of the dimensions `K`. -/
structure SegInvOn (T : Topo) (K : Nat → Prop) (st : SegState P) : Prop where
  mesh : Inv T st.mesh
  noZero : st.mesh.elems 0 = []
  nodup : ∀ g k, (st.view g k).Nodup
  allNodup : ∀ k, (st.all k).Nodup
  segsNodup : ∀ d i, (st.segs d i).Nodup
  valid : ∀ g, ∀ x ∈ st.added g, x.1 ≤ T.cellDim ∧ x.2 < st.mesh.count x.1
  view : ∀ g k s, K k → (s ∈ st.view g k ↔ ∃ x ∈ st.added g, Closure st.mesh x.1 x.2 k s)
  segs : ∀ d i g, K d → (g ∈ st.segs d i ↔ ∃ t ∈ st.view g d, i = st.mesh.eid d t)
  all : ∀ k s, K k → (s ∈ st.all k ↔ ∃ g, s ∈ st.view g k)

theorem SegInvOn.view_lt {T : Topo} {K : Nat → Prop} {st : SegState P} (h : SegInvOn T K st) {g k s : Nat} (hK : K k)
    (hs : s ∈ st.view g k) : s < st.mesh.count k := by
  obtain ⟨x, hx, hc⟩ := (h.view g k s hK).1 hs
  exact hc.lt h.mesh (h.valid g x hx).2

theorem SegInvOn.grow {T : Topo} {K : Nat → Prop} {st : SegState P} (h : SegInvOn T K st) {m' : Mesh P}
    (hI : Inv T m') (h0 : m'.elems 0 = []) (hg : Grown st.mesh m') :
    SegInvOn T K { st with mesh := m' } := by
  refine ⟨hI, h0, h.nodup, h.allNodup, h.segsNodup, ?_, ?_, ?_, h.all⟩
  · intro g x hx
    exact ⟨(h.valid g x hx).1, Nat.lt_of_lt_of_le (h.valid g x hx).2 (hg.count _)⟩
  · intro g k s hK
    rw [h.view g k s hK]
    refine exists_congr (fun x => and_congr_right (fun hx => ?_))
    unfold Closure
    rw [hg.bndOf (h.valid g x hx).2 h.noZero h0]
  · intro d i g hK
    rw [h.segs d i g hK]
    refine exists_congr (fun t => and_congr_right (fun ht => ?_))
    rw [hg.eid (h.view_lt hK ht)]

/-- Adding an element, when the view may already contain part of its closure (`calls`). -/
theorem SegInvOn.add {T : Topo} (hT : T.WF) {K : Nat → Prop} {st : SegState P} (h : SegInvOn T K st) {g d t : Nat}
    (hd : d ≤ T.cellDim) (ht : t < st.mesh.count d) (calls : List (Nat × Nat))
    (hcalls : ∀ x ∈ calls, K x.1 → Closure st.mesh d t x.1 x.2) :
    SegInvOn T K (SegState.addElem T
      { st with view := fun g' => if g' = g then calls.foldl View.ins (st.view g) else st.view g' } g d t) := by
  generalize hst' : ({ st with
      view := fun g' => if g' = g then calls.foldl View.ins (st.view g) else st.view g' } : SegState P) = st'
  have hm : st'.mesh = st.mesh := by rw [← hst']
  have ha : st'.added = st.added := by rw [← hst']
  have hall : st'.all = st.all := by rw [← hst']
  have hsegs : st'.segs = st.segs := by rw [← hst']
  have hv : st'.view = fun g' => if g' = g then calls.foldl View.ins (st.view g) else st.view g' := by
    rw [← hst']
  clear hst'
  have hmem : ∀ k s, (k, s) ∈ st'.mesh.closureOf T d t ↔ Closure st.mesh d t k s := by
    intro k s
    rw [mem_closureOf hT (by rw [hm]; exact h.mesh), hm]; rfl
  have hview : ∀ g' k s, K k → (s ∈ (st'.addElem T g d t).view g' k ↔
      s ∈ st.view g' k ∨ (g' = g ∧ Closure st.mesh d t k s)) := by
    intro g' k s hK
    unfold SegState.addElem
    simp only
    rw [addAll_view]
    by_cases hgg : g' = g
    · subst hgg
      simp only [if_true, true_and]
      rw [View.mem_foldl_ins, hmem, hv]
      simp only [if_true]
      rw [View.mem_foldl_ins]
      constructor
      · rintro ((h1 | h1) | h1)
        · exact Or.inl h1
        · exact Or.inr (hcalls _ h1 hK)
        · exact Or.inr h1
      · rintro (h1 | h1)
        · exact Or.inl (Or.inl h1)
        · exact Or.inr h1
    · simp [hgg, hv]
  have hmesh : (st'.addElem T g d t).mesh = st.mesh := by
    unfold SegState.addElem; simp only; rw [(addAll_mesh g _ st').1, hm]
  have hadded : ∀ g', (st'.addElem T g d t).added g' =
      if g' = g then st.added g ++ [(d, t)] else st.added g' := by
    intro g'
    unfold SegState.addElem; simp only; rw [(addAll_mesh g _ st').2, ha]
  refine ⟨by rw [hmesh]; exact h.mesh, by rw [hmesh]; exact h.noZero, ?_, ?_, ?_, ?_, ?_, ?_, ?_⟩
  · intro g' k
    unfold SegState.addElem
    simp only
    rw [addAll_view]
    by_cases hgg : g' = g
    · simp only [hgg, if_true, hv]
      exact View.foldl_ins_nodup _ (View.foldl_ins_nodup _ (h.nodup g)) k
    · simp only [if_neg hgg, hv]; exact h.nodup g' k
  · intro k
    unfold SegState.addElem
    simp only
    rw [addAll_all, hall]
    exact View.foldl_ins_nodup _ h.allNodup k
  · intro d' i
    unfold SegState.addElem
    exact addAll_segs_nodup g _ st' (by rw [hsegs]; exact h.segsNodup) d' i
  · intro g' x hx
    rw [hadded] at hx
    rw [hmesh]
    split at hx
    · rw [List.mem_append, List.mem_singleton] at hx
      rcases hx with hx | rfl
      · exact h.valid g x hx
      · exact ⟨hd, ht⟩
    · exact h.valid g' x hx
  · intro g' k s hK
    rw [hview g' k s hK, hadded, hmesh, h.view g' k s hK]
    split
    · rename_i hgg
      subst hgg
      simp only [List.mem_append, List.mem_singleton, true_and]
      constructor
      · rintro (⟨x, hx, hc⟩ | hc)
        · exact ⟨x, Or.inl hx, hc⟩
        · exact ⟨(d, t), Or.inr rfl, hc⟩
      · rintro ⟨x, hx | rfl, hc⟩
        · exact Or.inl ⟨x, hx, hc⟩
        · exact Or.inr hc
    · rename_i hgg
      simp [hgg]
  · intro d' i g' hK
    rw [hmesh]
    have h1 : g' ∈ (st'.addElem T g d t).segs d' i ↔
        g' ∈ st.segs d' i ∨ (g' = g ∧ ∃ x ∈ st'.mesh.closureOf T d t, d' = x.1 ∧ i = st.mesh.eid x.1 x.2) := by
      unfold SegState.addElem
      simp only
      rw [addAll_segs, hsegs, hm]
    rw [h1, h.segs d' i g' hK]
    constructor
    · rintro (⟨u, hu, rfl⟩ | ⟨rfl, ⟨k, s⟩, hx, rfl, rfl⟩)
      · exact ⟨u, (hview _ _ _ hK).2 (Or.inl hu), rfl⟩
      · exact ⟨s, (hview _ _ _ hK).2 (Or.inr ⟨rfl, (hmem _ _).1 hx⟩), rfl⟩
    · rintro ⟨u, hu, rfl⟩
      rcases (hview _ _ _ hK).1 hu with hu | ⟨rfl, hc⟩
      · exact Or.inl ⟨u, hu, rfl⟩
      · exact Or.inr ⟨rfl, (d', u), (hmem _ _).2 hc, rfl, rfl⟩
  · intro k s hK
    have h1 : s ∈ (st'.addElem T g d t).all k ↔ s ∈ st.all k ∨ Closure st.mesh d t k s := by
      unfold SegState.addElem
      simp only
      rw [addAll_all, View.mem_foldl_ins, hmem, hall]
    rw [h1, h.all k s hK]
    constructor
    · rintro (⟨g', hg'⟩ | hc)
      · exact ⟨g', (hview _ _ _ hK).2 (Or.inl hg')⟩
      · exact ⟨g, (hview _ _ _ hK).2 (Or.inr ⟨rfl, hc⟩)⟩
    · rintro ⟨g', hg'⟩
      rcases (hview _ _ _ hK).1 hg' with h2 | ⟨_, hc⟩
      · exact Or.inl ⟨g', h2⟩
      · exact Or.inr hc

theorem SegInvOn.empty (T : Topo) (K : Nat → Prop) : SegInvOn T K (SegState.empty : SegState P) := by
  refine ⟨Inv.empty T, rfl, ?_, ?_, ?_, ?_, ?_, ?_, ?_⟩ <;> simp [SegState.empty]

/-- The handles entered in the course of a creation are the new element and its boundary. -/
theorem calls_closureOn {T : Topo} (hT : T.WF) {K : Nat → Prop} (hC : T.ClosedOn K) {m m' : Mesh P} {op : MOp P}
    (hI : Inv T m) (hu : UniqueVids m) (hd : op.Distinct) (h : m.step T op = some m') :
    (m.created T op).1 ≤ T.cellDim ∧ (m.created T op).2 < m'.count (m.created T op).1 ∧
    ∀ x ∈ m'.log.drop m.log.length, K x.1 → Closure m' (m.created T op).1 (m.created T op).2 x.1 x.2 := by
  cases op with
  | vertex id p =>
    simp [Mesh.step] at h; subst h
    refine ⟨Nat.zero_le _, by simp [Mesh.created, Mesh.count, Mesh.makeVertex], ?_⟩
    intro x hx _
    simp [Mesh.makeVertex] at hx
    subst hx
    exact Or.inl ⟨rfl, rfl⟩
  | elem d vs =>
    simp only [Mesh.step] at h
    split at h
    · rename_i hc
      simp only [Option.some.injEq] at h
      subst h
      have hv : VertsOK T m d vs := ⟨hd, hc.2.2.1, hc.2.2.2⟩
      have hs := makeElem_spec hT hI hu hc.1 hv
      have hlog := insertN_logOn (P := P) hT hC d d m vs hc.1 (by omega) hc.2.1 hI hu hv
      obtain ⟨f, hf1, hf2, hf3⟩ := hs.found
      refine ⟨hc.2.1, ?_, ?_⟩
      · show (m.makeElem T d vs).slot < (m.makeElem T d vs).mesh.count d
        unfold Mesh.count
        rw [if_neg (by omega)]
        exact (List.getElem?_eq_some_iff.1 hf1).1
      · intro x hx hK
        simp only [Mesh.created]
        rcases hlog x hx hK with rfl | ⟨idxs, ix, f', h1, h2, h3, h4⟩
        · exact Or.inl ⟨rfl, rfl⟩
        · right
          by_cases hnew : (m.makeElem T d vs).new = true
          · rw [mem_bndOf_iff hT hs.inv hc.2.1]
            unfold OnBoundary
            rw [if_neg (by have := (hT.dim d _ x.1 idxs h1).1; omega)]
            exact ⟨f, f', idxs, ix, hf1, h3, by rw [hf3 hnew]; exact h1, h2, by rw [hf3 hnew]; exact sameVerts_of_perm h4⟩
          · have hold := hs.old (by simpa using hnew)
            have hxx : x = (d, (m.makeElem T d vs).slot) := by
              rw [hold] at hx
              simpa [Mesh.touch] using hx
            rw [hxx] at h1
            have := (hT.dim d _ _ idxs h1).2
            simp at this
    · cases h

theorem sstep_invOn {T : Topo} (hT : T.WF) {K : Nat → Prop} (hC : T.ClosedOn K) {st st' : SegState P} {op : SOp P}
    (hs : SegInvOn T K st) (hu : UniqueVids st.mesh) (hd : ∀ o, op.creation = some o → o.Distinct)
    (h : st.step T op = some st') : SegInvOn T K st' := by
  cases op with
  | mesh op =>
    simp only [SegState.step, Option.map_eq_some_iff] at h
    obtain ⟨m', h1, rfl⟩ := h
    have hd' := hd op rfl
    exact hs.grow (step_inv hT hs.mesh hu hd' h1) (step_noZero hT hs.mesh hu hd' hs.noZero h1)
      (step_grown hT hs.mesh hu hd' h1)
  | make g op =>
    simp only [SegState.step, SegState.makeIn, Option.map_eq_some_iff] at h
    obtain ⟨m', h1, rfl⟩ := h
    have hd' := hd op rfl
    have hg := hs.grow (step_inv hT hs.mesh hu hd' h1) (step_noZero hT hs.mesh hu hd' hs.noZero h1)
      (step_grown hT hs.mesh hu hd' h1)
    obtain ⟨h2, h3, h4⟩ := calls_closureOn hT hC hs.mesh hu hd' h1
    exact hg.add hT h2 h3 _ h4
  | add g d t =>
    simp only [SegState.step] at h
    split at h
    · rename_i hc
      simp only [Option.some.injEq] at h
      subst h
      have := hs.add hT (g := g) hc.1 hc.2 [] (by simp)
      have e : ({ st with
          view := fun g' => if g' = g then ([] : List (Nat × Nat)).foldl View.ins (st.view g) else st.view g' } :
            SegState P) = st := by
        cases st
        congr 1
        funext g'
        simp
        rintro rfl; rfl
      rwa [e] at this
    · cases h

theorem srun_invOn {T : Topo} (hT : T.WF) {K : Nat → Prop} (hC : T.ClosedOn K) :
    ∀ {ops : List (SOp P)} {st st' : SegState P},
    SegInvOn T K st → (∀ op ∈ ops, ∀ o, op.creation = some o → o.Distinct) → st.run T ops = some st' →
    UniqueVids st'.mesh → SegInvOn T K st'
  | [], st, st', hI, _, h, _ => by simp [SegState.run] at h; subst h; exact hI
  | op :: ops, st, st', hI, hd, h, hu => by
    simp only [SegState.run] at h
    obtain ⟨s1, h1, h2⟩ := Option.bind_eq_some_iff.1 h
    have hu1 := hu.of_prefix (srun_verts h2)
    exact srun_invOn hT hC (sstep_invOn hT hC hI (hu1.of_prefix (sstep_verts h1)) (hd op (by simp)) h1)
      (fun o ho => hd o (by simp [ho])) h2 hu

theorem SegReached.invOn {T : Topo} (hT : T.WF) {K : Nat → Prop} (hC : T.ClosedOn K) {st : SegState P}
    (h : SegReached T st) : SegInvOn T K st := by
  obtain ⟨ops, h1, h2, h3⟩ := h
  exact srun_invOn hT hC (SegInvOn.empty T K) h1 h2 h3

/-- `is_in_segment` in these dimensions. -/
theorem SegInvOn.isIn {T : Topo} {K : Nat → Prop} {st : SegState P} (h : SegInvOn T K st) (hu : UniqueVids st.mesh)
    {g k s : Nat} (hK : K k) (hs : s < st.mesh.count k) : st.isIn g k s = true ↔ s ∈ st.view g k := by
  unfold SegState.isIn
  rw [decide_eq_true_eq, h.segs _ _ _ hK]
  constructor
  · rintro ⟨t, ht, he⟩
    have := eid_inj h.mesh hu hs (h.view_lt hK ht) he
    rw [this]; exact ht
  · intro h1
    exact ⟨s, h1, rfl⟩

end VG
