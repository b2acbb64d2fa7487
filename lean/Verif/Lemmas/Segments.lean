import Verif.Model.Segments
import Verif.Lemmas.Queries
import Verif.Props.Queries

/-!
Lemmas on the handles passed to `handle_insert` and on the membership record of segments.
-/

namespace VG

variable {P : Type}

/-- The boundary elements of the boundary elements of an element are among its own boundary elements,
according to the tables. -/
def Topo.Closed (T : Topo) : Prop :=
  ∀ d n k idxs j jdxs, d ≤ T.cellDim → T.Arity d n → (k, idxs) ∈ T.layers d n → (j, jdxs) ∈ T.layers k (T.nv k) → ∀ ix ∈ idxs, ∀ jx ∈ jdxs,
    ∃ idxs', (j, idxs') ∈ T.layers d n ∧ ∃ ix' ∈ idxs', ix'.Perm (pick ix jx)

theorem drop_prefix_split {α} {a b c : List α} (h1 : a <+: b) (h2 : b <+: c) {x : α}
    (hx : x ∈ c.drop a.length) : x ∈ b.drop a.length ∨ x ∈ c.drop b.length := by
  obtain ⟨t, rfl⟩ := h1
  obtain ⟨u, rfl⟩ := h2
  simp at hx
  simpa using hx

theorem pick_pick (vs ix jx : List Nat) (h : ∀ i ∈ jx, i < ix.length) :
    pick (pick vs ix) jx = pick vs (pick ix jx) := by
  simp only [pick, List.map_map]
  refine List.map_congr_left (fun i hi => ?_)
  simp only [Function.comp]
  have := h i hi
  rw [List.getD_eq_getElem _ _ (by simpa using this), List.getElem_map, List.getD_eq_getElem _ _ this]

/-- The logged element is a boundary element, according to the tables, of an element of dimension `d`
with vertices `vs`. -/
def TableBnd (T : Topo) (m : Mesh P) (d : Nat) (vs : List Nat) (x : Nat × Nat) : Prop :=
  ∃ idxs ix f, (x.1, idxs) ∈ T.layers d vs.length ∧ ix ∈ idxs ∧ (m.elems x.1)[x.2]? = some f ∧
    f.verts.Perm (pick vs ix)

theorem TableBnd.mono {T : Topo} {m m' : Mesh P} (h : ∀ d, m.elems d <+: m'.elems d) {d vs x}
    (hb : TableBnd T m d vs x) : TableBnd T m' d vs x := by
  obtain ⟨idxs, ix, f, h1, h2, h3, h4⟩ := hb
  exact ⟨idxs, ix, f, h1, h2, prefix_getElem? (h _) h3, h4⟩

/-- All elements logged by an insertion are the element itself or its boundary elements. -/
def LogIns (T : Topo) (D : Nat) (ins : Nat → Mesh P → List Nat → InsRes P) : Prop :=
  ∀ k m vs, 1 ≤ k → k < D → k ≤ T.cellDim → Inv T m → UniqueVids m → VertsOK T m k vs →
    ∀ x ∈ (ins k m vs).mesh.log.drop m.log.length,
      x = (k, (ins k m vs).slot) ∨ TableBnd T (ins k m vs).mesh k vs x

theorem genFaces_log {T : Topo} (hT : T.WF) (hC : T.Closed) {D : Nat}
    {ins : Nat → Mesh P → List Nat → InsRes P} (hg : GoodIns T D ins) (hL : LogIns T D ins)
    {k d : Nat} (hk : 1 ≤ k) (hkD : k < D) (hdc : d ≤ T.cellDim) {vs : List Nat} {all : List (List Nat)}
    (har : T.Arity d vs.length) (hl : (k, all) ∈ T.layers d vs.length) :
    ∀ (idxs : List (List Nat)) (m : Mesh P), idxs ⊆ all → Inv T m → UniqueVids m →
      (∀ ix ∈ idxs, VertsOK T m k (pick vs ix) ∧ pick vs ix ⊆ vs) →
      ∀ x ∈ (genFaces ins vs k idxs m).1.log.drop m.log.length,
        TableBnd T (genFaces ins vs k idxs m).1 d vs x
  | [], m, _, _, _, _, x, hx => by simp [genFaces] at hx
  | ix :: rest, m, hsub, hI, hu, hix, x, hx => by
    have hs := hg k m (pick vs ix) hk hkD hI hu (hix ix (by simp)).1
    have hu' := hu.congr hs.ext.verts
    have hix' : ∀ jx ∈ rest, VertsOK T (ins k m (pick vs ix)).mesh k (pick vs jx) ∧ pick vs jx ⊆ vs :=
      fun jx hjx => ⟨((hix jx (by simp [hjx])).1).congr hs.ext.verts, (hix jx (by simp [hjx])).2⟩
    obtain ⟨ig, _⟩ := genFaces_spec hT hg hk hkD rest (ins k m (pick vs ix)).mesh hs.inv hu' hix'
    simp only [genFaces] at hx ⊢
    rcases drop_prefix_split hs.ext.log ig.ext.log hx with h | h
    · refine TableBnd.mono ig.ext.elems ?_
      rcases hL k m (pick vs ix) hk hkD (by have := (hT.dim d _ k all hl).2; omega) hI hu (hix ix (by simp)).1 x h with rfl | h'
      · obtain ⟨f, h1, h2, _⟩ := hs.found
        exact ⟨all, ix, f, hl, hsub (by simp), h1, h2⟩
      · obtain ⟨jdxs, jx, f, h1, h2, h3, h4⟩ := h'
        have hlen : ix.length = T.nv k := (hT.idx d _ k all har hl ix (hsub (by simp))).2.1
        rw [show (pick vs ix).length = T.nv k by simp [pick, hlen]] at h1
        obtain ⟨idxs', h5, ix', h6, h7⟩ := hC d _ k all x.1 jdxs hdc har hl h1 ix (hsub (by simp)) jx h2
        refine ⟨idxs', ix', f, h5, h6, h3, h4.trans ?_⟩
        rw [pick_pick]
        · exact (h7.map _).symm
        · rw [hlen]
          exact (hT.idx k _ x.1 jdxs (Or.inl rfl) h1 jx h2).2.2
    · exact genFaces_log hT hC hg hL hk hkD hdc har hl rest _ (fun a ha => hsub (by simp [ha])) hs.inv hu' hix' x h

theorem genLayers_log {T : Topo} (hT : T.WF) (hC : T.Closed) {D : Nat}
    {ins : Nat → Mesh P → List Nat → InsRes P} (hg : GoodIns T D ins) (hL : LogIns T D ins)
    {d : Nat} (hdc : d ≤ T.cellDim) {vs : List Nat} (har : T.Arity d vs.length) :
    ∀ (ls : List (Nat × List (List Nat))) (m : Mesh P), ls ⊆ T.layers d vs.length → Inv T m → UniqueVids m →
      (∀ k idxs, (k, idxs) ∈ ls → 1 ≤ k ∧ k < D ∧
        ∀ ix ∈ idxs, VertsOK T m k (pick vs ix) ∧ pick vs ix ⊆ vs) →
      ∀ x ∈ (genLayers ins vs ls m).1.log.drop m.log.length,
        TableBnd T (genLayers ins vs ls m).1 d vs x
  | [], m, _, _, _, _, x, hx => by simp [genLayers] at hx
  | (k, idxs) :: rest, m, hsub, hI, hu, hl, x, hx => by
    obtain ⟨hk, hkD, hix⟩ := hl k idxs (by simp)
    obtain ⟨hs, _⟩ := genFaces_spec hT hg hk hkD idxs m hI hu hix
    have hu' := hu.congr hs.ext.verts
    have hl' : ∀ k' idxs', (k', idxs') ∈ rest → 1 ≤ k' ∧ k' < D ∧
        ∀ ix ∈ idxs', VertsOK T (genFaces ins vs k idxs m).1 k' (pick vs ix) ∧ pick vs ix ⊆ vs :=
      fun k' idxs' h => ⟨(hl k' idxs' (by simp [h])).1, (hl k' idxs' (by simp [h])).2.1,
        fun ix hix' => ⟨((hl k' idxs' (by simp [h])).2.2 ix hix').1.congr hs.ext.verts,
          ((hl k' idxs' (by simp [h])).2.2 ix hix').2⟩⟩
    obtain ⟨ig, _⟩ := genLayers_spec hT hg rest (genFaces ins vs k idxs m).1 hs.inv hu' hl'
    simp only [genLayers] at hx ⊢
    rcases drop_prefix_split hs.ext.log ig.ext.log hx with h | h
    · exact (genFaces_log hT hC hg hL hk hkD hdc har (hsub (by simp)) idxs m (List.Subset.refl _) hI hu hix x h).mono
        ig.ext.elems
    · exact genLayers_log hT hC hg hL hdc har rest _ (fun a ha => hsub (by simp [ha])) hs.inv hu' hl' x h

theorem insertN_log {T : Topo} (hT : T.WF) (hC : T.Closed) :
    ∀ f, LogIns (P := P) T (f + 1) (insertN T f) := by
  intro f
  induction f with
  | zero => intro k m vs h1 h2; omega
  | succ f ih =>
    intro d m vs hd hdf hdc hI hu hv x hx
    unfold insertN at hx ⊢
    split
    · rename_i s hs
      rw [hs] at hx
      simp [Mesh.touch] at hx
      exact Or.inl hx
    · rename_i hs
      rw [hs] at hx
      have ihd : GoodIns (P := P) T d (insertN T f) :=
        fun k m vs h1 h2 => insertN_good hT f k m vs h1 (by omega)
      have ihl : LogIns (P := P) T d (insertN T f) := fun k m vs h1 h2 h3 => ih k m vs h1 (by omega) h3
      have hl : ∀ k idxs, (k, idxs) ∈ T.layers d vs.length → 1 ≤ k ∧ k < d ∧
          ∀ ix ∈ idxs, VertsOK T m k (pick vs ix) ∧ pick vs ix ⊆ vs :=
        fun k idxs h => ⟨(hT.dim d _ k idxs h).1, (hT.dim d _ k idxs h).2, fun ix hix => pick_ok hT hix h hv⟩
      obtain ⟨hg, hb⟩ := genLayers_spec hT ihd (vs := vs) (T.layers d vs.length) m hI hu hl
      have hlog := genLayers_log hT hC ihd ihl (d := d) hdc (vs := vs) hv.2.1 (T.layers d vs.length) m (List.Subset.refl _) hI hu hl
      simp only at hx ⊢
      generalize genLayers (insertN T f) vs (T.layers d vs.length) m = q at hg hb hlog hx ⊢
      have hpe := push_ext q.1 d vs q.2
      rcases drop_prefix_split hg.ext.log hpe.log hx with h | h
      · exact Or.inr ((hlog x h).mono hpe.elems)
      · left
        have hsame : q.1.elems d = m.elems d := hg.higher d (le_refl _)
        simp [Mesh.push, hsame] at h
        exact h

/-! Views -/

theorem mem_insertUnique (l : List Nat) (h a : Nat) : a ∈ insertUnique l h ↔ a ∈ l ∨ a = h := by
  unfold insertUnique
  split
  · constructor
    · exact Or.inl
    · rintro (h' | rfl) <;> assumption
  · simp

theorem insertUnique_nodup {l : List Nat} (hl : l.Nodup) (h : Nat) : (insertUnique l h).Nodup := by
  unfold insertUnique
  split
  · exact hl
  · rename_i hn
    rw [List.nodup_append]
    refine ⟨hl, by simp, ?_⟩
    intro a ha b hb
    simp at hb
    subst hb
    rintro rfl
    exact hn ha

theorem View.mem_ins (v : View) (x : Nat × Nat) (k s : Nat) :
    s ∈ v.ins x k ↔ s ∈ v k ∨ (k, s) = x := by
  unfold View.ins
  obtain ⟨a, b⟩ := x
  by_cases h : k = a
  · subst h
    simp [mem_insertUnique]
  · simp [h]

theorem View.ins_nodup {v : View} (h : ∀ k, (v k).Nodup) (x : Nat × Nat) (k : Nat) :
    (v.ins x k).Nodup := by
  unfold View.ins
  split
  · exact insertUnique_nodup (h k) _
  · exact h k

theorem View.mem_foldl_ins (k s : Nat) : ∀ (xs : List (Nat × Nat)) (v : View),
    s ∈ (xs.foldl View.ins v) k ↔ s ∈ v k ∨ (k, s) ∈ xs
  | [], v => by simp
  | x :: xs, v => by
    rw [List.foldl_cons, View.mem_foldl_ins k s xs, View.mem_ins, List.mem_cons]
    tauto

theorem View.foldl_ins_nodup : ∀ (xs : List (Nat × Nat)) {v : View}, (∀ k, (v k).Nodup) →
    ∀ k, ((xs.foldl View.ins v) k).Nodup
  | [], _, h, k => h k
  | x :: xs, _, h, k => View.foldl_ins_nodup xs (View.ins_nodup h x) k

theorem View.mem_del {v : View} (h : ∀ k, (v k).Nodup) (x : Nat × Nat) (k s : Nat) :
    s ∈ v.del x k ↔ s ∈ v k ∧ (k, s) ≠ x := by
  unfold View.del eraseHandle
  obtain ⟨a, b⟩ := x
  by_cases hk : k = a
  · subst hk
    simp only [if_true, (h k).mem_erase_iff]
    constructor
    · rintro ⟨h1, h2⟩; exact ⟨h2, by simp [h1]⟩
    · rintro ⟨h1, h2⟩; exact ⟨by simpa using h2, h1⟩
  · simp [hk]

theorem View.del_nodup {v : View} (h : ∀ k, (v k).Nodup) (x : Nat × Nat) (k : Nat) :
    (v.del x k).Nodup := by
  unfold View.del eraseHandle
  split
  · exact (h k).erase _
  · exact h k

/-! Adding -/

theorem addAll_mesh (g : Nat) : ∀ (xs : List (Nat × Nat)) (st : SegState P),
    (xs.foldl (SegState.simpleAdd g) st).mesh = st.mesh ∧
    (xs.foldl (SegState.simpleAdd g) st).added = st.added
  | [], _ => ⟨rfl, rfl⟩
  | x :: xs, st => by
    have := addAll_mesh g xs (st.simpleAdd g x)
    exact ⟨this.1.trans rfl, this.2.trans rfl⟩

theorem addAll_view (g : Nat) : ∀ (xs : List (Nat × Nat)) (st : SegState P),
    (xs.foldl (SegState.simpleAdd g) st).view =
      (fun g' => if g' = g then xs.foldl View.ins (st.view g) else st.view g')
  | [], st => by funext g'; simp; rintro rfl; rfl
  | x :: xs, st => by
    rw [List.foldl_cons, addAll_view g xs]
    funext g'
    by_cases h : g' = g <;> simp [SegState.simpleAdd, h]

theorem addAll_all (g : Nat) : ∀ (xs : List (Nat × Nat)) (st : SegState P),
    (xs.foldl (SegState.simpleAdd g) st).all = xs.foldl View.ins st.all
  | [], _ => rfl
  | x :: xs, st => by
    rw [List.foldl_cons, addAll_all g xs]
    rfl

theorem addAll_segs (g : Nat) : ∀ (xs : List (Nat × Nat)) (st : SegState P) (d : Nat) (i : Int) (g' : Nat),
    g' ∈ (xs.foldl (SegState.simpleAdd g) st).segs d i ↔
      g' ∈ st.segs d i ∨ (g' = g ∧ ∃ x ∈ xs, d = x.1 ∧ i = st.mesh.eid x.1 x.2)
  | [], st, d, i, g' => by simp
  | x :: xs, st, d, i, g' => by
    rw [List.foldl_cons, addAll_segs g xs]
    have hm : (st.simpleAdd g x).mesh = st.mesh := rfl
    rw [hm]
    have hs : g' ∈ (st.simpleAdd g x).segs d i ↔
        g' ∈ st.segs d i ∨ (g' = g ∧ d = x.1 ∧ i = st.mesh.eid x.1 x.2) := by
      simp only [SegState.simpleAdd]
      split
      · rename_i h
        split
        · rename_i hg
          constructor
          · exact Or.inl
          · rintro (h' | ⟨rfl, _⟩)
            · exact h'
            · exact hg
        · simp [h.1, h.2]
      · rename_i h
        constructor
        · exact Or.inl
        · rintro (h' | ⟨_, h'⟩)
          · exact h'
          · exact absurd h' h
    rw [hs]
    simp only [List.mem_cons, exists_eq_or_imp]
    tauto

theorem addAll_segs_nodup (g : Nat) : ∀ (xs : List (Nat × Nat)) (st : SegState P),
    (∀ d i, (st.segs d i).Nodup) → ∀ d i, ((xs.foldl (SegState.simpleAdd g) st).segs d i).Nodup
  | [], _, h, d, i => h d i
  | x :: xs, st, h, d, i => by
    rw [List.foldl_cons]
    refine addAll_segs_nodup g xs _ ?_ d i
    intro d i
    simp only [SegState.simpleAdd]
    split
    · split
      · exact h d i
      · rename_i hg
        rw [List.nodup_append]
        refine ⟨h d i, by simp, ?_⟩
        intro a ha b hb
        simp at hb
        subst hb
        rintro rfl
        exact hg ha
    · exact h d i

theorem mem_closureOf {T : Topo} (hT : T.WF) {m : Mesh P} (hI : Inv T m) {d t k s : Nat} :
    (k, s) ∈ m.closureOf T d t ↔ (k = d ∧ s = t) ∨ s ∈ m.bndOf d t k := by
  unfold Mesh.closureOf
  simp only [List.mem_cons, Prod.mk.injEq, List.mem_flatMap, List.mem_map]
  constructor
  · rintro (h | ⟨k', _, s', hs', rfl, rfl⟩)
    · exact Or.inl h
    · exact Or.inr hs'
  · rintro (h | h)
    · exact Or.inl h
    · right
      refine ⟨k, ?_, s, h, rfl, rfl⟩
      by_cases hk : k = 0
      · exact Or.inl hk
      · right
        unfold Mesh.bndOf at h
        split at h
        · simp at h
        · rename_i e he
          rw [if_neg hk] at h
          have hem := List.mem_of_getElem? he
          obtain ⟨refs, perm, h1, h2⟩ := (Refers.iff_bndSlots hT hI hem).2 h
          obtain ⟨i, hi⟩ := List.mem_iff_getElem?.1 h1
          obtain ⟨l, hl, hl2⟩ := forall₂_getElem?' (hI.bnd d e hem) hi
          obtain ⟨l', h3, h4⟩ := List.mem_map.1 (hT.dims d _ ▸ List.mem_map_of_mem (List.mem_of_getElem? hl))
          exact ⟨l', h3, h4.trans hl2.1⟩

/-! Elements stay what they are when the mesh grows -/

/-- The mesh grew. -/
structure Grown (m m' : Mesh P) : Prop where
  verts : m.verts <+: m'.verts
  elems : ∀ d, m.elems d <+: m'.elems d
  log : m.log <+: m'.log

theorem step_grown {T : Topo} (hT : T.WF) {m m' : Mesh P} {op : MOp P} (hI : Inv T m)
    (hu : UniqueVids m) (hd : op.Distinct) (h : m.step T op = some m') : Grown m m' := by
  cases op with
  | vertex id p =>
    simp [Mesh.step] at h; subst h
    exact ⟨⟨_, rfl⟩, fun _ => List.prefix_refl _, ⟨_, rfl⟩⟩
  | elem d vs =>
    have hv := step_verts h
    simp only [Mesh.step] at h
    split at h
    · rename_i hc
      simp only [Option.some.injEq] at h
      subst h
      have := (makeElem_spec hT hI hu hc.1 ⟨hd, hc.2.2.1, hc.2.2.2⟩).ext
      exact ⟨hv, this.elems, this.log⟩
    · cases h

theorem Grown.count {m m' : Mesh P} (h : Grown m m') (k : Nat) : m.count k ≤ m'.count k := by
  unfold Mesh.count
  split
  · exact h.verts.length_le
  · exact (h.elems k).length_le

theorem Grown.eid {m m' : Mesh P} (h : Grown m m') {k s : Nat} (hs : s < m.count k) :
    m'.eid k s = m.eid k s := by
  unfold Mesh.eid
  unfold Mesh.count at hs
  by_cases hk : k = 0
  · simp only [hk, if_true, Mesh.vid] at hs ⊢
    have : (m.verts.map (·.id)) <+: (m'.verts.map (·.id)) := h.verts.map _
    have hl := this.length_le
    rw [List.length_map] at hl
    rw [List.getD_eq_getElem _ _ (by omega), List.getD_eq_getElem _ _ (by simpa using hs)]
    exact (this.getElem (by simpa using hs)).symm
  · simp only [if_neg hk] at hs ⊢
    have : ((m.elems k).map (fun e => (e.id : Int))) <+: ((m'.elems k).map (fun e => (e.id : Int))) :=
      (h.elems k).map _
    have hl := this.length_le
    rw [List.length_map] at hl
    rw [List.getD_eq_getElem _ _ (by omega), List.getD_eq_getElem _ _ (by simpa using hs)]
    exact (this.getElem (by simpa using hs)).symm

theorem Grown.bndOf {m m' : Mesh P} (h : Grown m m') {d t : Nat} (ht : t < m.count d)
    (hd : m.elems 0 = []) (hd' : m'.elems 0 = []) (k : Nat) : m'.bndOf d t k = m.bndOf d t k := by
  unfold Mesh.bndOf
  unfold Mesh.count at ht
  by_cases h0 : d = 0
  · subst h0; simp [hd, hd']
  · rw [if_neg h0] at ht
    have h1 := List.getElem?_eq_getElem ht
    rw [h1, prefix_getElem? (h.elems d) h1]

/-! The invariant of segments -/

/-- What an element added to a segment brings with it. -/
def Closure (m : Mesh P) (d t k s : Nat) : Prop := (k = d ∧ s = t) ∨ s ∈ m.bndOf d t k

structure SegInv (T : Topo) (st : SegState P) : Prop where
  mesh : Inv T st.mesh
  noZero : st.mesh.elems 0 = []
  nodup : ∀ g k, (st.view g k).Nodup
  allNodup : ∀ k, (st.all k).Nodup
  segsNodup : ∀ d i, (st.segs d i).Nodup
  valid : ∀ g, ∀ x ∈ st.added g, x.1 ≤ T.cellDim ∧ x.2 < st.mesh.count x.1
  view : ∀ g k s, s ∈ st.view g k ↔ ∃ x ∈ st.added g, Closure st.mesh x.1 x.2 k s
  segs : ∀ d i g, g ∈ st.segs d i ↔ ∃ t ∈ st.view g d, i = st.mesh.eid d t
  all : ∀ k s, s ∈ st.all k ↔ ∃ g, s ∈ st.view g k

theorem Closure.lt {T : Topo} {m : Mesh P} (hI : Inv T m) {d t k s : Nat} (ht : t < m.count d)
    (h : Closure m d t k s) : s < m.count k := by
  rcases h with ⟨rfl, rfl⟩ | h
  · exact ht
  · exact bndOf_valid hI h

theorem SegInv.view_lt {T : Topo} {st : SegState P} (h : SegInv T st) {g k s : Nat}
    (hs : s ∈ st.view g k) : s < st.mesh.count k := by
  obtain ⟨x, hx, hc⟩ := (h.view g k s).1 hs
  exact hc.lt h.mesh (h.valid g x hx).2

theorem SegInv.grow {T : Topo} {st : SegState P} (h : SegInv T st) {m' : Mesh P}
    (hI : Inv T m') (h0 : m'.elems 0 = []) (hg : Grown st.mesh m') :
    SegInv T { st with mesh := m' } := by
  refine ⟨hI, h0, h.nodup, h.allNodup, h.segsNodup, ?_, ?_, ?_, h.all⟩
  · intro g x hx
    exact ⟨(h.valid g x hx).1, Nat.lt_of_lt_of_le (h.valid g x hx).2 (hg.count _)⟩
  · intro g k s
    rw [h.view g k s]
    refine exists_congr (fun x => and_congr_right (fun hx => ?_))
    unfold Closure
    rw [hg.bndOf (h.valid g x hx).2 h.noZero h0]
  · intro d i g
    rw [h.segs d i g]
    refine exists_congr (fun t => and_congr_right (fun ht => ?_))
    rw [hg.eid (h.view_lt ht)]

/-- Adding an element, when the view may already contain part of its closure (`calls`). -/
theorem SegInv.add {T : Topo} (hT : T.WF) {st : SegState P} (h : SegInv T st) {g d t : Nat}
    (hd : d ≤ T.cellDim) (ht : t < st.mesh.count d) (calls : List (Nat × Nat))
    (hcalls : ∀ x ∈ calls, Closure st.mesh d t x.1 x.2) :
    SegInv T (SegState.addElem T
      { st with view := fun g' => if g' = g then calls.foldl View.ins (st.view g) else st.view g' } g d t) := by
  generalize hst' : ({ st with
      view := fun g' => if g' = g then calls.foldl View.ins (st.view g) else st.view g' } : SegState P) = st'
  have hm : st'.mesh = st.mesh := by rw [← hst']
  have ha : st'.added = st.added := by rw [← hst']
  have hall : st'.all = st.all := by rw [← hst']
  have hsegs : st'.segs = st.segs := by rw [← hst']
  have hv : st'.view = fun g' => if g' = g then calls.foldl View.ins (st.view g) else st.view g' := by
    rw [← hst']
  clear hst'
  have hmem : ∀ k s, (k, s) ∈ st'.mesh.closureOf T d t ↔ Closure st.mesh d t k s := by
    intro k s
    rw [mem_closureOf hT (by rw [hm]; exact h.mesh), hm]; rfl
  have hview : ∀ g' k s, s ∈ (st'.addElem T g d t).view g' k ↔
      s ∈ st.view g' k ∨ (g' = g ∧ Closure st.mesh d t k s) := by
    intro g' k s
    unfold SegState.addElem
    simp only
    rw [addAll_view]
    by_cases hgg : g' = g
    · subst hgg
      simp only [if_true, true_and]
      rw [View.mem_foldl_ins, hmem, hv]
      simp only [if_true]
      rw [View.mem_foldl_ins]
      constructor
      · rintro ((h1 | h1) | h1)
        · exact Or.inl h1
        · exact Or.inr (hcalls _ h1)
        · exact Or.inr h1
      · rintro (h1 | h1)
        · exact Or.inl (Or.inl h1)
        · exact Or.inr h1
    · simp [hgg, hv]
  have hmesh : (st'.addElem T g d t).mesh = st.mesh := by
    unfold SegState.addElem; simp only; rw [(addAll_mesh g _ st').1, hm]
  have hadded : ∀ g', (st'.addElem T g d t).added g' =
      if g' = g then st.added g ++ [(d, t)] else st.added g' := by
    intro g'
    unfold SegState.addElem; simp only; rw [(addAll_mesh g _ st').2, ha]
  refine ⟨by rw [hmesh]; exact h.mesh, by rw [hmesh]; exact h.noZero, ?_, ?_, ?_, ?_, ?_, ?_, ?_⟩
  · intro g' k
    unfold SegState.addElem
    simp only
    rw [addAll_view]
    by_cases hgg : g' = g
    · simp only [hgg, if_true, hv]
      exact View.foldl_ins_nodup _ (View.foldl_ins_nodup _ (h.nodup g)) k
    · simp only [if_neg hgg, hv]; exact h.nodup g' k
  · intro k
    unfold SegState.addElem
    simp only
    rw [addAll_all, hall]
    exact View.foldl_ins_nodup _ h.allNodup k
  · intro d' i
    unfold SegState.addElem
    exact addAll_segs_nodup g _ st' (by rw [hsegs]; exact h.segsNodup) d' i
  · intro g' x hx
    rw [hadded] at hx
    rw [hmesh]
    split at hx
    · rw [List.mem_append, List.mem_singleton] at hx
      rcases hx with hx | rfl
      · exact h.valid g x hx
      · exact ⟨hd, ht⟩
    · exact h.valid g' x hx
  · intro g' k s
    rw [hview, hadded, hmesh, h.view]
    split
    · rename_i hgg
      subst hgg
      simp only [List.mem_append, List.mem_singleton, true_and]
      constructor
      · rintro (⟨x, hx, hc⟩ | hc)
        · exact ⟨x, Or.inl hx, hc⟩
        · exact ⟨(d, t), Or.inr rfl, hc⟩
      · rintro ⟨x, hx | rfl, hc⟩
        · exact Or.inl ⟨x, hx, hc⟩
        · exact Or.inr hc
    · rename_i hgg
      simp [hgg]
  · intro d' i g'
    rw [hmesh]
    have h1 : g' ∈ (st'.addElem T g d t).segs d' i ↔
        g' ∈ st.segs d' i ∨ (g' = g ∧ ∃ x ∈ st'.mesh.closureOf T d t, d' = x.1 ∧ i = st.mesh.eid x.1 x.2) := by
      unfold SegState.addElem
      simp only
      rw [addAll_segs, hsegs, hm]
    rw [h1, h.segs]
    constructor
    · rintro (⟨u, hu, rfl⟩ | ⟨rfl, ⟨k, s⟩, hx, rfl, rfl⟩)
      · exact ⟨u, (hview ..).2 (Or.inl hu), rfl⟩
      · exact ⟨s, (hview ..).2 (Or.inr ⟨rfl, (hmem _ _).1 hx⟩), rfl⟩
    · rintro ⟨u, hu, rfl⟩
      rcases (hview ..).1 hu with hu | ⟨rfl, hc⟩
      · exact Or.inl ⟨u, hu, rfl⟩
      · exact Or.inr ⟨rfl, (d', u), (hmem _ _).2 hc, rfl, rfl⟩
  · intro k s
    have h1 : s ∈ (st'.addElem T g d t).all k ↔ s ∈ st.all k ∨ Closure st.mesh d t k s := by
      unfold SegState.addElem
      simp only
      rw [addAll_all, View.mem_foldl_ins, hmem, hall]
    rw [h1, h.all]
    constructor
    · rintro (⟨g', hg'⟩ | hc)
      · exact ⟨g', (hview ..).2 (Or.inl hg')⟩
      · exact ⟨g, (hview ..).2 (Or.inr ⟨rfl, hc⟩)⟩
    · rintro ⟨g', hg'⟩
      rcases (hview ..).1 hg' with h2 | ⟨_, hc⟩
      · exact Or.inl ⟨g', h2⟩
      · exact Or.inr hc

theorem SegInv.empty (T : Topo) : SegInv T (SegState.empty : SegState P) := by
  refine ⟨Inv.empty T, rfl, ?_, ?_, ?_, ?_, ?_, ?_, ?_⟩ <;> simp [SegState.empty]

/-- No elements are stored in dimension 0. -/
theorem step_noZero {T : Topo} (hT : T.WF) {m m' : Mesh P} {op : MOp P} (hI : Inv T m)
    (hu : UniqueVids m) (hd : op.Distinct) (h0 : m.elems 0 = []) (h : m.step T op = some m') :
    m'.elems 0 = [] := by
  cases op with
  | vertex id p => simp [Mesh.step] at h; subst h; exact h0
  | elem d vs =>
    simp only [Mesh.step] at h
    split at h
    · rename_i hc
      simp only [Option.some.injEq] at h
      subst h
      have hs := makeElem_spec hT hI hu hc.1 ⟨hd, hc.2.2.1, hc.2.2.2⟩
      by_contra hne
      have hlen : 0 < ((m.makeElem T d vs).mesh.elems 0).length := List.length_pos_iff.2 hne
      have := hs.refd 0 0 _ (List.getElem?_eq_getElem hlen) (by simp [h0])
      rcases this with ⟨h1, _⟩ | ⟨d', e, he, refs, perm, h1, _⟩
      · omega
      · obtain ⟨i, hi⟩ := List.mem_iff_getElem?.1 h1
        obtain ⟨⟨k, idxs⟩, hl, hl2, _⟩ := forall₂_getElem?' (hs.inv.bnd d' e he) hi
        simp only at hl2
        subst hl2
        have := (hT.dim d' _ 0 idxs (List.mem_of_getElem? hl)).1
        omega
    · cases h

/-- The handles entered in the course of a creation are the new element and its boundary. -/
theorem calls_closure {T : Topo} (hT : T.WF) (hC : T.Closed) {m m' : Mesh P} {op : MOp P}
    (hI : Inv T m) (hu : UniqueVids m) (hd : op.Distinct) (h : m.step T op = some m') :
    (m.created T op).1 ≤ T.cellDim ∧ (m.created T op).2 < m'.count (m.created T op).1 ∧
    ∀ x ∈ m'.log.drop m.log.length, Closure m' (m.created T op).1 (m.created T op).2 x.1 x.2 := by
  cases op with
  | vertex id p =>
    simp [Mesh.step] at h; subst h
    refine ⟨Nat.zero_le _, by simp [Mesh.created, Mesh.count, Mesh.makeVertex], ?_⟩
    intro x hx
    simp [Mesh.makeVertex] at hx
    subst hx
    exact Or.inl ⟨rfl, rfl⟩
  | elem d vs =>
    simp only [Mesh.step] at h
    split at h
    · rename_i hc
      simp only [Option.some.injEq] at h
      subst h
      have hv : VertsOK T m d vs := ⟨hd, hc.2.2.1, hc.2.2.2⟩
      have hs := makeElem_spec hT hI hu hc.1 hv
      have hlog := insertN_log (P := P) hT hC d d m vs hc.1 (by omega) hc.2.1 hI hu hv
      obtain ⟨f, hf1, hf2, hf3⟩ := hs.found
      refine ⟨hc.2.1, ?_, ?_⟩
      · show (m.makeElem T d vs).slot < (m.makeElem T d vs).mesh.count d
        unfold Mesh.count
        rw [if_neg (by omega)]
        exact (List.getElem?_eq_some_iff.1 hf1).1
      · intro x hx
        simp only [Mesh.created]
        rcases hlog x hx with rfl | ⟨idxs, ix, f', h1, h2, h3, h4⟩
        · exact Or.inl ⟨rfl, rfl⟩
        · right
          by_cases hnew : (m.makeElem T d vs).new = true
          · rw [mem_bndOf_iff hT hs.inv hc.2.1]
            unfold OnBoundary
            rw [if_neg (by have := (hT.dim d _ x.1 idxs h1).1; omega)]
            exact ⟨f, f', idxs, ix, hf1, h3, by rw [hf3 hnew]; exact h1, h2, by rw [hf3 hnew]; exact sameVerts_of_perm h4⟩
          · -- found elements only log themselves
            have hold := hs.old (by simpa using hnew)
            have hxx : x = (d, (m.makeElem T d vs).slot) := by
              rw [hold] at hx
              simpa [Mesh.touch] using hx
            rw [hxx] at h1
            have := (hT.dim d _ _ idxs h1).2
            simp at this
    · cases h

theorem sstep_inv {T : Topo} (hT : T.WF) (hC : T.Closed) {st st' : SegState P} {op : SOp P}
    (hs : SegInv T st) (hu : UniqueVids st.mesh) (hd : ∀ o, op.creation = some o → o.Distinct)
    (h : st.step T op = some st') : SegInv T st' := by
  cases op with
  | mesh op =>
    simp only [SegState.step, Option.map_eq_some_iff] at h
    obtain ⟨m', h1, rfl⟩ := h
    have hd' := hd op rfl
    exact hs.grow (step_inv hT hs.mesh hu hd' h1) (step_noZero hT hs.mesh hu hd' hs.noZero h1)
      (step_grown hT hs.mesh hu hd' h1)
  | make g op =>
    simp only [SegState.step, SegState.makeIn, Option.map_eq_some_iff] at h
    obtain ⟨m', h1, rfl⟩ := h
    have hd' := hd op rfl
    have hg := hs.grow (step_inv hT hs.mesh hu hd' h1) (step_noZero hT hs.mesh hu hd' hs.noZero h1)
      (step_grown hT hs.mesh hu hd' h1)
    obtain ⟨h2, h3, h4⟩ := calls_closure hT hC hs.mesh hu hd' h1
    exact hg.add hT h2 h3 _ h4
  | add g d t =>
    simp only [SegState.step] at h
    split at h
    · rename_i hc
      simp only [Option.some.injEq] at h
      subst h
      have := hs.add hT (g := g) hc.1 hc.2 [] (by simp)
      have e : ({ st with
          view := fun g' => if g' = g then ([] : List (Nat × Nat)).foldl View.ins (st.view g) else st.view g' } :
            SegState P) = st := by
        cases st
        congr 1
        funext g'
        simp
        rintro rfl; rfl
      rwa [e] at this
    · cases h

theorem sstep_verts {T : Topo} {st st' : SegState P} {op : SOp P} (h : st.step T op = some st') :
    st.mesh.verts <+: st'.mesh.verts := by
  cases op with
  | mesh op =>
    simp only [SegState.step, Option.map_eq_some_iff] at h
    obtain ⟨m', h1, rfl⟩ := h
    exact step_verts h1
  | make g op =>
    simp only [SegState.step, SegState.makeIn, Option.map_eq_some_iff] at h
    obtain ⟨m', h1, rfl⟩ := h
    unfold SegState.addElem
    simp only
    rw [(addAll_mesh g _ _).1]
    exact step_verts h1
  | add g d t =>
    simp only [SegState.step] at h
    split at h
    · simp only [Option.some.injEq] at h
      subst h
      unfold SegState.addElem
      simp only
      rw [(addAll_mesh g _ _).1]
      exact List.prefix_refl _
    · cases h

theorem srun_verts {T : Topo} : ∀ {ops : List (SOp P)} {st st' : SegState P}, st.run T ops = some st' →
    st.mesh.verts <+: st'.mesh.verts
  | [], st, st', h => by simp [SegState.run] at h; subst h; exact List.prefix_refl _
  | op :: ops, st, st', h => by
    simp only [SegState.run] at h
    obtain ⟨s1, h1, h2⟩ := Option.bind_eq_some_iff.1 h
    exact (sstep_verts h1).trans (srun_verts h2)

theorem srun_inv {T : Topo} (hT : T.WF) (hC : T.Closed) : ∀ {ops : List (SOp P)} {st st' : SegState P},
    SegInv T st → (∀ op ∈ ops, ∀ o, op.creation = some o → o.Distinct) → st.run T ops = some st' →
    UniqueVids st'.mesh → SegInv T st'
  | [], st, st', hI, _, h, _ => by simp [SegState.run] at h; subst h; exact hI
  | op :: ops, st, st', hI, hd, h, hu => by
    simp only [SegState.run] at h
    obtain ⟨s1, h1, h2⟩ := Option.bind_eq_some_iff.1 h
    have hu1 := hu.of_prefix (srun_verts h2)
    exact srun_inv hT hC (sstep_inv hT hC hI (hu1.of_prefix (sstep_verts h1)) (hd op (by simp)) h1)
      (fun o ho => hd o (by simp [ho])) h2 hu

/-- States of a mesh with segments reached by a history from the empty one. -/
def SegReached (T : Topo) (st : SegState P) : Prop :=
  ∃ ops : List (SOp P), (∀ op ∈ ops, ∀ o, op.creation = some o → o.Distinct) ∧
    SegState.empty.run T ops = some st ∧ UniqueVids st.mesh

theorem SegReached.inv {T : Topo} (hT : T.WF) (hC : T.Closed) {st : SegState P} (h : SegReached T st) :
    SegInv T st := by
  obtain ⟨ops, h1, h2, h3⟩ := h
  exact srun_inv hT hC (SegInv.empty T) h1 h2 h3

/-! The tables -/

theorem simplexTopo_closed (n : Nat) : (simplexTopo n).Closed := by
  have hmem : ∀ d N k idxs, (k, idxs) ∈ (simplexTopo n).layers d N →
      (k = 1 ∧ 2 ≤ d ∧ idxs = edgeIdx (d + 1)) ∨ (k = 2 ∧ 3 ≤ d ∧ idxs = triIdx (d + 1)) := by
    intro d N k idxs h
    simp only [simplexTopo, List.mem_append] at h
    rcases h with h | h
    · split at h
      · simp at h; exact Or.inl ⟨h.1, by assumption, h.2⟩
      · simp at h
    · split at h
      · simp at h; exact Or.inr ⟨h.1, by assumption, h.2⟩
      · simp at h
  intro d N k idxs j jdxs _ _ h1 h2 ix hix jx hjx
  rcases hmem d _ k idxs h1 with ⟨rfl, h3, rfl⟩ | ⟨rfl, h3, rfl⟩
  · rcases hmem 1 _ j jdxs h2 with ⟨_, h, _⟩ | ⟨_, h, _⟩ <;> omega
  · rcases hmem 2 _ j jdxs h2 with ⟨rfl, _, rfl⟩ | ⟨_, h, _⟩
    · refine ⟨edgeIdx (d + 1), by simp [simplexTopo]; omega, pick ix jx, ?_, List.Perm.refl _⟩
      obtain ⟨h4, h5, h6⟩ := (C06_triangles_are_triples _ _).1 hix
      obtain ⟨a, b, c, rfl⟩ : ∃ a b c, ix = [a, b, c] := by
        match ix, h4 with
        | [a, b, c], _ => exact ⟨a, b, c, rfl⟩
      simp at h5 h6
      rw [C06_edges_are_pairs]
      have : jx ∈ [[0, 1], [0, 2], [1, 2]] := by
        have e : edgeIdx (2 + 1) = [[0, 1], [0, 2], [1, 2]] := by decide
        rwa [e] at hjx
      simp only [List.mem_cons, List.not_mem_nil, or_false] at this
      rcases this with rfl | rfl | rfl <;> simp [pick, IsSubsetOfSize] <;> omega
    · omega

theorem cubeTopo_closed {n : Nat} (hn : n ≤ 2) : (cubeTopo n).Closed := by
  intro d N k idxs j jdxs hd _ h1 h2
  have hd' : d ≤ 2 := Nat.le_trans hd hn
  simp only [cubeTopo] at h1 h2
  split at h1
  · simp only [List.mem_singleton, Prod.mk.injEq] at h1
    obtain ⟨rfl, rfl⟩ := h1
    simp at h2
  · rw [if_neg (by omega)] at h1
    simp at h1

/-! Removing -/

theorem eraseAll_mesh (g : Nat) : ∀ (xs : List (Nat × Nat)) (st : SegState P),
    (xs.foldl (SegState.eraseOne g) st).mesh = st.mesh
  | [], _ => rfl
  | x :: xs, st => by
    have := eraseAll_mesh g xs (st.eraseOne g x)
    exact this.trans rfl

theorem eraseAll_view (g : Nat) : ∀ (xs : List (Nat × Nat)) (st : SegState P),
    (∀ k, (st.view g k).Nodup) → ∀ g' k s,
    (s ∈ (xs.foldl (SegState.eraseOne g) st).view g' k ↔ s ∈ st.view g' k ∧ (g' = g → (k, s) ∉ xs))
  | [], st, _, g', k, s => by simp
  | x :: xs, st, hn, g', k, s => by
    have hn' : ∀ k, ((st.eraseOne g x).view g k).Nodup := by
      intro k
      simp only [SegState.eraseOne, if_true]
      exact View.del_nodup hn x k
    rw [List.foldl_cons, eraseAll_view g xs _ hn']
    by_cases hg : g' = g
    · subst hg
      simp only [SegState.eraseOne, if_true, View.mem_del hn, List.mem_cons, true_implies, not_or]
      tauto
    · simp [SegState.eraseOne, hg]

theorem eraseAll_segs (g : Nat) : ∀ (xs : List (Nat × Nat)) (st : SegState P),
    (∀ d i, (st.segs d i).Nodup) → ∀ d i g',
    (g' ∈ (xs.foldl (SegState.eraseOne g) st).segs d i ↔
      g' ∈ st.segs d i ∧ (g' = g → ∀ x ∈ xs, ¬ (d = x.1 ∧ i = st.mesh.eid x.1 x.2)))
  | [], st, _, d, i, g' => by simp
  | x :: xs, st, hn, d, i, g' => by
    have hn' : ∀ d i, ((st.eraseOne g x).segs d i).Nodup := by
      intro d i
      simp only [SegState.eraseOne]
      split
      · exact (hn d i).erase _
      · exact hn d i
    rw [List.foldl_cons, eraseAll_segs g xs _ hn']
    have hm : (st.eraseOne g x).mesh = st.mesh := rfl
    rw [hm]
    have hs : g' ∈ (st.eraseOne g x).segs d i ↔
        g' ∈ st.segs d i ∧ (g' = g → ¬ (d = x.1 ∧ i = st.mesh.eid x.1 x.2)) := by
      simp only [SegState.eraseOne]
      split
      · rename_i h
        rw [(hn d i).mem_erase_iff]
        constructor
        · rintro ⟨h1, h2⟩; exact ⟨h2, fun h3 => absurd h3 h1⟩
        · rintro ⟨h1, h2⟩; exact ⟨fun h3 => h2 h3 h, h1⟩
      · rename_i h
        constructor
        · intro h1; exact ⟨h1, fun _ => h⟩
        · exact fun h1 => h1.1
    rw [hs]
    simp only [List.mem_cons, forall_eq_or_imp]
    tauto

theorem mem_marked {T : Topo} {st : SegState P} {g k s d t : Nat} :
    (d, t) ∈ st.marked T g k s ↔ d ≤ T.cellDim ∧ k < d ∧ t ∈ st.view g d ∧ s ∈ st.mesh.bndOf d t k := by
  unfold SegState.marked
  simp only [List.mem_flatMap, List.mem_filter, List.mem_range, decide_eq_true_eq, List.mem_map,
    Prod.mk.injEq]
  constructor
  · rintro ⟨a, ⟨h1, h2⟩, b, ⟨h3, h4⟩, rfl, rfl⟩
    exact ⟨by omega, h2, h3, h4⟩
  · rintro ⟨h1, h2, h3, h4⟩
    exact ⟨d, ⟨by omega, h2⟩, t, ⟨h3, h4⟩, rfl, rfl⟩

end VG
