import Verif.Lemmas.Orient
import Verif.Props.ElementKey
import Mathlib.Data.List.GetD

/-!
Invariant of meshes under creation of elements.
-/

namespace VG

variable {P : Type}

theorem Topo.Arity.fixed {T : Topo} {d n : Nat} (h : T.Arity d n) (hp : T.poly = false := by rfl) :
    n = T.nv d := h.resolve_right (fun h => by rw [hp] at h; cases h.1)

theorem Topo.Arity.lower {T : Topo} {d n : Nat} (h : T.Arity d n) (hd : d < T.cellDim) :
    n = T.nv d := h.resolve_right (fun h => by omega)

/-- Well-formed configuration: layers have smaller dimension, the index tables are in range, have
the right length, no repeated index and no two boundary elements with the same vertices, and there
is at most one layer per dimension. -/
structure Topo.WF (T : Topo) : Prop where
  dim : ∀ d n k idxs, (k, idxs) ∈ T.layers d n → 1 ≤ k ∧ k < d
  idx : ∀ d n k idxs, T.Arity d n → (k, idxs) ∈ T.layers d n → ∀ ix ∈ idxs,
    ix.Nodup ∧ ix.length = T.nv k ∧ ∀ i ∈ ix, i < n
  distinct : ∀ d n k idxs, T.Arity d n → (k, idxs) ∈ T.layers d n → idxs.Pairwise (fun a b => ¬ a.Perm b)
  once : ∀ d n, ((T.layers d n).map (·.1)).Nodup
  dims : ∀ d n, (T.layers d n).map (·.1) = (T.layers d (T.nv d)).map (·.1)

/-- A reference is right: the element exists, has the vertices `vs` in some order, and the
permutation translates. -/
def RefOK (m : Mesh P) (k : Nat) (vs : List Nat) (r : BndRef) : Prop :=
  ∃ f, (m.elems k)[r.1]? = some f ∧ f.verts.Perm vs ∧ r.2.length = vs.length ∧
    ∀ (j v : Nat), vs[j]? = some v → ∃ p : Nat, r.2[j]? = some p ∧ f.verts[p]? = some v

/-- All references of an element are right. -/
def BndOK (m : Mesh P) (vs : List Nat) (ls : List (Nat × List (List Nat)))
    (bnd : List (Nat × List BndRef)) : Prop :=
  List.Forall₂ (fun l b => l.1 = b.1 ∧
    List.Forall₂ (fun ix r => RefOK m l.1 (pick vs ix) r) l.2 b.2) ls bnd

/-- Vertex list usable for an element of dimension `d`. -/
def VertsOK (T : Topo) (m : Mesh P) (d : Nat) (vs : List Nat) : Prop :=
  vs.Nodup ∧ T.Arity d vs.length ∧ ∀ v ∈ vs, v < m.verts.length

structure Inv (T : Topo) (m : Mesh P) : Prop where
  unique : ∀ d, d ≠ T.cellDim → (m.elems d).Pairwise (fun e f => ¬ e.verts.Perm f.verts)
  verts : ∀ d, ∀ e ∈ m.elems d, VertsOK T m d e.verts
  bnd : ∀ d, ∀ e ∈ m.elems d, BndOK m e.verts (T.layers d e.verts.length) e.bnd
  ids : ∀ d, ((m.elems d).map (·.id)).Nodup
  next : ∀ d, ∀ e ∈ m.elems d, e.id < m.nextId d

/-- `m'` extends `m`. -/
structure Ext (m m' : Mesh P) : Prop where
  verts : m'.verts = m.verts
  vgen : m'.vgen = m.vgen
  elems : ∀ d, m.elems d <+: m'.elems d
  log : m.log <+: m'.log
  counter : m.counter ≤ m'.counter

theorem Ext.refl (m : Mesh P) : Ext m m :=
  ⟨rfl, rfl, fun _ => List.prefix_refl _, List.prefix_refl _, le_refl _⟩

theorem Ext.trans {a b c : Mesh P} (h1 : Ext a b) (h2 : Ext b c) : Ext a c :=
  ⟨h2.verts.trans h1.verts, h2.vgen.trans h1.vgen, fun d => (h1.elems d).trans (h2.elems d),
    h1.log.trans h2.log, h1.counter.trans h2.counter⟩

theorem prefix_getElem? {α} {l l' : List α} (h : l <+: l') {i : Nat} {a : α} (hi : l[i]? = some a) :
    l'[i]? = some a := by
  obtain ⟨t, rfl⟩ := h
  rw [List.getElem?_append_left (List.getElem?_eq_some_iff.1 hi).1, hi]

theorem RefOK.mono {m m' : Mesh P} (h : ∀ d, m.elems d <+: m'.elems d) {k vs r}
    (hr : RefOK m k vs r) : RefOK m' k vs r := by
  obtain ⟨f, h1, h2⟩ := hr
  exact ⟨f, prefix_getElem? (h k) h1, h2⟩

theorem BndOK.mono {m m' : Mesh P} (h : ∀ d, m.elems d <+: m'.elems d) {vs ls b}
    (hb : BndOK m vs ls b) : BndOK m' vs ls b := by
  unfold BndOK at *
  refine hb.imp ?_
  rintro ⟨k, idxs⟩ ⟨k', refs⟩ ⟨rfl, h2⟩
  exact ⟨rfl, h2.imp (fun _ _ hr => hr.mono h)⟩

/-- Vertex ids are unique. -/
def UniqueVids (m : Mesh P) : Prop := (m.verts.map (·.id)).Nodup

theorem vid_inj {m : Mesh P} (h : UniqueVids m) {a b : Nat} (ha : a < m.verts.length)
    (hb : b < m.verts.length) (hab : m.vid a = m.vid b) : a = b := by
  unfold Mesh.vid at hab
  rw [List.getD_eq_getElem _ _ (by simpa using ha), List.getD_eq_getElem _ _ (by simpa using hb)] at hab
  exact (List.Nodup.getElem_inj_iff h).1 hab

theorem perm_of_map_perm {α β} [DecidableEq α] [DecidableEq β] {f : α → β} {S : α → Prop}
    (hf : ∀ a b, S a → S b → f a = f b → a = b) {l₁ l₂ : List α}
    (h1 : ∀ a ∈ l₁, S a) (h2 : ∀ a ∈ l₂, S a) (h : (l₁.map f).Perm (l₂.map f)) : l₁.Perm l₂ := by
  rw [List.perm_iff_count]
  intro a
  by_cases ha : S a
  · have e : ∀ l : List α, (∀ a ∈ l, S a) → (l.map f).count (f a) = l.count a := by
      intro l hl
      induction l with
      | nil => rfl
      | cons b l ih =>
        simp only [List.map_cons, List.count_cons]
        rw [ih (fun a ha => hl a (List.mem_cons_of_mem _ ha))]
        congr 1
        by_cases hb : b = a
        · simp [hb]
        · have : f b ≠ f a := fun h => hb (hf b a (hl b (by simp)) ha h)
          simp [hb, this]
    rw [← e l₁ h1, ← e l₂ h2]
    exact List.perm_iff_count.1 h _
  · rw [List.count_eq_zero_of_not_mem (fun hm => ha (h1 a hm)),
      List.count_eq_zero_of_not_mem (fun hm => ha (h2 a hm))]

theorem key_eq_iff {m : Mesh P} (h : UniqueVids m) {vs ws : List Nat}
    (hv : ∀ v ∈ vs, v < m.verts.length) (hw : ∀ v ∈ ws, v < m.verts.length) :
    m.key vs = m.key ws ↔ vs.Perm ws := by
  unfold Mesh.key
  rw [C03_key_eq_iff_perm]
  constructor
  · exact perm_of_map_perm (S := fun v => v < m.verts.length) (fun a b ha hb => vid_inj h ha hb) hv hw
  · exact fun h => h.map _

/-- What a lookup by key finds. -/
theorem findSlot_some {T : Topo} {m : Mesh P} (hI : Inv T m) (hu : UniqueVids m) {d : Nat}
    {vs : List Nat} (hv : VertsOK T m d vs) {s : Nat} (h : m.findSlot d vs = some s) :
    ∃ f, (m.elems d)[s]? = some f ∧ f.verts.Perm vs := by
  unfold Mesh.findSlot at h
  obtain ⟨h1, h2, _⟩ := List.findIdx?_eq_some_iff_getElem.1 h
  refine ⟨(m.elems d)[s], List.getElem?_eq_getElem h1, ?_⟩
  simp only [beq_iff_eq] at h2
  exact (key_eq_iff hu (hI.verts d _ (List.getElem_mem h1)).2.2 hv.2.2).1 h2

theorem findSlot_none {T : Topo} {m : Mesh P} (hI : Inv T m) (hu : UniqueVids m) {d : Nat}
    {vs : List Nat} (hv : VertsOK T m d vs) (h : m.findSlot d vs = none) :
    ∀ f ∈ m.elems d, ¬ f.verts.Perm vs := by
  unfold Mesh.findSlot at h
  rw [List.findIdx?_eq_none_iff] at h
  intro f hf hp
  have := h f hf
  rw [(key_eq_iff hu (hI.verts d f hf).2.2 hv.2.2).2 hp] at this
  simp at this

/-- An element refers to the element with handle `s` in dimension `k`. -/
def Refers (e : Elem) (k s : Nat) : Prop := ∃ refs perm, (k, refs) ∈ e.bnd ∧ (s, perm) ∈ refs

/-- Some element refers to it. -/
def Referenced (m : Mesh P) (k s : Nat) : Prop := ∃ d, ∃ e ∈ m.elems d, Refers e k s

theorem Referenced.mono {m m' : Mesh P} (h : ∀ d, m.elems d <+: m'.elems d) {k s}
    (hr : Referenced m k s) : Referenced m' k s := by
  obtain ⟨d, e, he, hr⟩ := hr
  exact ⟨d, e, (h d).subset he, hr⟩

/-- What an insertion in dimension `k` does. -/
structure InsSpec (T : Topo) (k : Nat) (m : Mesh P) (vs : List Nat) (r : InsRes P) : Prop where
  inv : Inv T r.mesh
  ext : Ext m r.mesh
  higher : ∀ j, k < j → r.mesh.elems j = m.elems j
  found : ∃ f, (r.mesh.elems k)[r.slot]? = some f ∧ f.verts.Perm vs ∧ (r.new = true → f.verts = vs)
  isnew : r.new = true ↔ (k = T.cellDim ∨ ∀ f ∈ m.elems k, ¬ f.verts.Perm vs)
  same : r.mesh.elems k = m.elems k ∨
    (r.slot = (m.elems k).length ∧ ∃ e, e.verts = vs ∧ r.mesh.elems k = m.elems k ++ [e])
  old : r.new = false → r.mesh = m.touch k r.slot
  sub : ∀ j i f, (r.mesh.elems j)[i]? = some f → (m.elems j).length ≤ i → f.verts ⊆ vs
  refd : ∀ j i f, (r.mesh.elems j)[i]? = some f → (m.elems j).length ≤ i →
    (j = k ∧ i = r.slot) ∨ Referenced r.mesh j i
  logged : (k, r.slot) ∈ r.mesh.log.drop m.log.length
  appended : r.new = true → r.slot = (m.elems k).length ∧
    ∃ e, e.verts = vs ∧ r.mesh.elems k = m.elems k ++ [e]

/-- A correct insertion for all dimensions below `D`. -/
def GoodIns (T : Topo) (D : Nat) (ins : Nat → Mesh P → List Nat → InsRes P) : Prop :=
  ∀ k m vs, 1 ≤ k → k < D → Inv T m → UniqueVids m → VertsOK T m k vs → InsSpec T k m vs (ins k m vs)

theorem pick_ok {T : Topo} (hT : T.WF) {m : Mesh P} {d k : Nat} {idxs : List (List Nat)}
    {ix : List Nat} (hix : ix ∈ idxs) {vs : List Nat} (hl : (k, idxs) ∈ T.layers d vs.length)
    (hv : VertsOK T m d vs) : VertsOK T m k (pick vs ix) ∧ pick vs ix ⊆ vs := by
  obtain ⟨h1, h2, h3⟩ := hT.idx d vs.length k idxs hv.2.1 hl ix hix
  have hsub : pick vs ix ⊆ vs := by
    intro v hv'
    simp only [pick, List.mem_map] at hv'
    obtain ⟨i, hi, rfl⟩ := hv'
    have : i < vs.length := h3 i hi
    rw [List.getD_eq_getElem _ _ this]
    exact List.getElem_mem this
  refine ⟨⟨?_, Or.inl (by simp [pick, h2]), fun v hv' => hv.2.2 v (hsub hv')⟩, hsub⟩
  unfold pick
  refine List.Nodup.map_on ?_ h1
  intro a ha b hb hab
  have ha' : a < vs.length := h3 a ha
  have hb' : b < vs.length := h3 b hb
  rw [List.getD_eq_getElem _ _ ha', List.getD_eq_getElem _ _ hb'] at hab
  exact (List.Nodup.getElem_inj_iff hv.1).1 hab

theorem VertsOK.congr {T : Topo} {m m' : Mesh P} (h : m'.verts = m.verts) {d vs}
    (hv : VertsOK T m d vs) : VertsOK T m' d vs := by
  unfold VertsOK at *; rw [h]; exact hv

theorem UniqueVids.congr {m m' : Mesh P} (h : m'.verts = m.verts) (hu : UniqueVids m) :
    UniqueVids m' := by
  unfold UniqueVids at *; rw [h]; exact hu

theorem RefOK.of_ins {T : Topo} {k : Nat} {m : Mesh P} {face : List Nat} {r : InsRes P}
    (hs : InsSpec T k m face r) (hnd : face.Nodup) :
    RefOK r.mesh k face
      (r.slot, if r.new then List.range face.length else orient (r.mesh.vertsOf k r.slot) face) := by
  obtain ⟨f, h1, h2, h3⟩ := hs.found
  refine ⟨f, h1, h2, ?_⟩
  have hvo : r.mesh.vertsOf k r.slot = f.verts := by
    unfold Mesh.vertsOf
    rw [List.getD_eq_getElem?_getD, List.getElem?_map, h1]; rfl
  by_cases hn : r.new = true
  · simp only [hn, if_true]
    refine ⟨by simp, ?_⟩
    intro j v hj
    have hjl : j < face.length := (List.getElem?_eq_some_iff.1 hj).1
    exact ⟨j, by simp [hjl], by rw [h3 hn]; exact hj⟩
  · simp only [hn, hvo]
    exact orient_spec h2 hnd

/-- What the creation of boundary elements does: used for one layer and for all layers. -/
structure GenSpec (T : Topo) (D : Nat) (m : Mesh P) (vs : List Nat) (m' : Mesh P)
    (R : Nat → Nat → Prop) : Prop where
  inv : Inv T m'
  ext : Ext m m'
  higher : ∀ j, D ≤ j → m'.elems j = m.elems j
  sub : ∀ j i f, (m'.elems j)[i]? = some f → (m.elems j).length ≤ i → f.verts ⊆ vs
  refd : ∀ j i f, (m'.elems j)[i]? = some f → (m.elems j).length ≤ i →
    R j i ∨ Referenced m' j i
  logged : ∀ j i, R j i → (j, i) ∈ m'.log.drop m.log.length

theorem drop_prefix_mem {α} {a b c : List α} (h1 : a <+: b) (h2 : b <+: c) {x : α}
    (hx : x ∈ b.drop a.length) : x ∈ c.drop a.length := by
  obtain ⟨t, rfl⟩ := h1
  obtain ⟨u, rfl⟩ := h2
  simp at hx
  simp [hx]

theorem drop_prefix_mem' {α} {a b c : List α} (h1 : a <+: b) (h2 : b <+: c) {x : α}
    (hx : x ∈ c.drop b.length) : x ∈ c.drop a.length := by
  obtain ⟨t, rfl⟩ := h1
  obtain ⟨u, rfl⟩ := h2
  simp at hx
  simp [hx]

theorem genFaces_spec {T : Topo} (hT : T.WF) {D : Nat} {ins : Nat → Mesh P → List Nat → InsRes P}
    (hg : GoodIns T D ins) {k : Nat} (hk : 1 ≤ k) (hkD : k < D) {vs : List Nat} :
    ∀ (idxs : List (List Nat)) (m : Mesh P), Inv T m → UniqueVids m →
      (∀ ix ∈ idxs, VertsOK T m k (pick vs ix) ∧ pick vs ix ⊆ vs) →
      GenSpec T D m vs (genFaces ins vs k idxs m).1
        (fun j i => j = k ∧ ∃ perm, (i, perm) ∈ (genFaces ins vs k idxs m).2) ∧
      List.Forall₂ (fun ix r => RefOK (genFaces ins vs k idxs m).1 k (pick vs ix) r) idxs
        (genFaces ins vs k idxs m).2
  | [], m, hI, _, _ => by
    refine ⟨⟨hI, Ext.refl m, fun _ _ => rfl, ?_, ?_, ?_⟩, List.Forall₂.nil⟩
    · intro j i f h1 h2
      have := (List.getElem?_eq_some_iff.1 h1).1
      simp only [genFaces] at this; omega
    · intro j i f h1 h2
      have := (List.getElem?_eq_some_iff.1 h1).1
      simp only [genFaces] at this; omega
    · rintro j i ⟨rfl, perm, h⟩; simp [genFaces] at h
  | ix :: rest, m, hI, hu, hix => by
    have hs := hg k m (pick vs ix) hk hkD hI hu (hix ix (by simp)).1
    have hu' := hu.congr hs.ext.verts
    have ih := genFaces_spec hT hg hk hkD rest (ins k m (pick vs ix)).mesh hs.inv hu'
      (fun jx hjx => ⟨((hix jx (by simp [hjx])).1).congr hs.ext.verts, (hix jx (by simp [hjx])).2⟩)
    obtain ⟨ig, if2⟩ := ih
    simp only [genFaces]
    refine ⟨⟨ig.inv, hs.ext.trans ig.ext, ?_, ?_, ?_, ?_⟩, ?_⟩
    · intro j hj
      rw [ig.higher j hj, hs.higher j (by omega)]
    · intro j i f h1 h2
      by_cases hi : ((ins k m (pick vs ix)).mesh.elems j).length ≤ i
      · exact ig.sub j i f h1 hi
      · have h3 : ((ins k m (pick vs ix)).mesh.elems j)[i]? = some f := by
          have hlt : i < ((ins k m (pick vs ix)).mesh.elems j).length := by omega
          have := prefix_getElem? (ig.ext.elems j) (List.getElem?_eq_getElem hlt)
          rw [h1] at this
          rw [List.getElem?_eq_getElem hlt, ← this]
        exact List.Subset.trans (hs.sub j i f h3 h2) (hix ix (by simp)).2
    · intro j i f h1 h2
      by_cases hi : ((ins k m (pick vs ix)).mesh.elems j).length ≤ i
      · rcases ig.refd j i f h1 hi with ⟨rfl, perm, h⟩ | h
        · exact Or.inl ⟨rfl, perm, by simp [h]⟩
        · exact Or.inr h
      · have h3 : ((ins k m (pick vs ix)).mesh.elems j)[i]? = some f := by
          have hlt : i < ((ins k m (pick vs ix)).mesh.elems j).length := by omega
          have := prefix_getElem? (ig.ext.elems j) (List.getElem?_eq_getElem hlt)
          rw [h1] at this
          rw [List.getElem?_eq_getElem hlt, ← this]
        rcases hs.refd j i f h3 h2 with ⟨rfl, rfl⟩ | h
        · exact Or.inl ⟨rfl, _, List.mem_cons_self⟩
        · exact Or.inr (h.mono ig.ext.elems)
    · rintro j i ⟨rfl, perm, h⟩
      simp only [List.mem_cons, Prod.mk.injEq] at h
      rcases h with ⟨rfl, _⟩ | h
      · exact drop_prefix_mem hs.ext.log ig.ext.log hs.logged
      · exact drop_prefix_mem' hs.ext.log ig.ext.log (ig.logged j i ⟨rfl, perm, h⟩)
    · exact List.Forall₂.cons ((RefOK.of_ins hs (hix ix (by simp)).1.1).mono ig.ext.elems) if2

theorem genLayers_spec {T : Topo} (hT : T.WF) {D : Nat} {ins : Nat → Mesh P → List Nat → InsRes P}
    (hg : GoodIns T D ins) {vs : List Nat} :
    ∀ (ls : List (Nat × List (List Nat))) (m : Mesh P), Inv T m → UniqueVids m →
      (∀ k idxs, (k, idxs) ∈ ls → 1 ≤ k ∧ k < D ∧
        ∀ ix ∈ idxs, VertsOK T m k (pick vs ix) ∧ pick vs ix ⊆ vs) →
      GenSpec T D m vs (genLayers ins vs ls m).1
        (fun j i => ∃ refs perm, (j, refs) ∈ (genLayers ins vs ls m).2 ∧ (i, perm) ∈ refs) ∧
      BndOK (genLayers ins vs ls m).1 vs ls (genLayers ins vs ls m).2
  | [], m, hI, _, _ => by
    refine ⟨⟨hI, Ext.refl m, fun _ _ => rfl, ?_, ?_, ?_⟩, List.Forall₂.nil⟩
    · intro j i f h1 h2
      have := (List.getElem?_eq_some_iff.1 h1).1
      simp only [genLayers] at this; omega
    · intro j i f h1 h2
      have := (List.getElem?_eq_some_iff.1 h1).1
      simp only [genLayers] at this; omega
    · rintro j i ⟨refs, perm, h, _⟩; simp [genLayers] at h
  | (k, idxs) :: rest, m, hI, hu, hl => by
    obtain ⟨hk, hkD, hix⟩ := hl k idxs (by simp)
    obtain ⟨hs, hf⟩ := genFaces_spec hT hg hk hkD idxs m hI hu hix
    have hu' := hu.congr hs.ext.verts
    obtain ⟨ig, ib⟩ := genLayers_spec hT hg rest (genFaces ins vs k idxs m).1 hs.inv hu'
      (fun k' idxs' h => ⟨(hl k' idxs' (by simp [h])).1, (hl k' idxs' (by simp [h])).2.1,
        fun ix hix' => ⟨((hl k' idxs' (by simp [h])).2.2 ix hix').1.congr hs.ext.verts,
          ((hl k' idxs' (by simp [h])).2.2 ix hix').2⟩⟩)
    simp only [genLayers]
    refine ⟨⟨ig.inv, hs.ext.trans ig.ext, ?_, ?_, ?_, ?_⟩, ?_⟩
    · intro j hj
      rw [ig.higher j hj, hs.higher j hj]
    · intro j i f h1 h2
      by_cases hi : ((genFaces ins vs k idxs m).1.elems j).length ≤ i
      · exact ig.sub j i f h1 hi
      · have h3 : ((genFaces ins vs k idxs m).1.elems j)[i]? = some f := by
          have hlt : i < ((genFaces ins vs k idxs m).1.elems j).length := by omega
          have := prefix_getElem? (ig.ext.elems j) (List.getElem?_eq_getElem hlt)
          rw [h1] at this
          rw [List.getElem?_eq_getElem hlt, ← this]
        exact hs.sub j i f h3 h2
    · intro j i f h1 h2
      by_cases hi : ((genFaces ins vs k idxs m).1.elems j).length ≤ i
      · rcases ig.refd j i f h1 hi with ⟨refs, perm, ha, hb⟩ | h
        · exact Or.inl ⟨refs, perm, by simp [ha], hb⟩
        · exact Or.inr h
      · have h3 : ((genFaces ins vs k idxs m).1.elems j)[i]? = some f := by
          have hlt : i < ((genFaces ins vs k idxs m).1.elems j).length := by omega
          have := prefix_getElem? (ig.ext.elems j) (List.getElem?_eq_getElem hlt)
          rw [h1] at this
          rw [List.getElem?_eq_getElem hlt, ← this]
        rcases hs.refd j i f h3 h2 with ⟨rfl, perm, h⟩ | h
        · exact Or.inl ⟨_, perm, List.mem_cons_self, h⟩
        · exact Or.inr (h.mono ig.ext.elems)
    · rintro j i ⟨refs, perm, h, hm⟩
      simp only [List.mem_cons, Prod.mk.injEq] at h
      rcases h with ⟨rfl, rfl⟩ | h
      · exact drop_prefix_mem hs.ext.log ig.ext.log (hs.logged j i ⟨rfl, perm, hm⟩)
      · exact drop_prefix_mem' hs.ext.log ig.ext.log (ig.logged j i ⟨refs, perm, h, hm⟩)
    · refine List.Forall₂.cons ⟨rfl, hf.imp (fun _ _ h => h.mono ig.ext.elems)⟩ ib

theorem push_ext (m : Mesh P) (d : Nat) (vs : List Nat) (b) : Ext m (m.push d vs b) := by
  refine ⟨rfl, rfl, ?_, ⟨_, rfl⟩, Nat.le_succ _⟩
  intro k
  simp only [Mesh.push]
  split
  · rename_i h; subst h; exact ⟨_, rfl⟩
  · exact List.prefix_refl _

theorem push_elems_self (m : Mesh P) (d : Nat) (vs : List Nat) (b) :
    (m.push d vs b).elems d = m.elems d ++ [⟨m.nextId d, vs, b⟩] := by simp [Mesh.push]

theorem push_elems_ne (m : Mesh P) (d : Nat) (vs : List Nat) (b) {k} (h : k ≠ d) :
    (m.push d vs b).elems k = m.elems k := by simp [Mesh.push, h]

theorem Inv.push {T : Topo} {m : Mesh P} (hI : Inv T m) {d : Nat} {vs b}
    (hv : VertsOK T m d vs) (hb : BndOK m vs (T.layers d vs.length) b)
    (hn : d = T.cellDim ∨ ∀ f ∈ m.elems d, ¬ f.verts.Perm vs) : Inv T (m.push d vs b) := by
  have he := (push_ext m d vs b).elems
  constructor
  · intro k hk
    by_cases hkd : k = d
    · subst hkd
      rw [push_elems_self, List.pairwise_append]
      refine ⟨hI.unique k hk, by simp, ?_⟩
      intro f hf g hg
      simp only [List.mem_singleton] at hg
      subst hg
      exact (hn.resolve_left hk) f hf
    · rw [push_elems_ne _ _ _ _ hkd]; exact hI.unique k hk
  · intro k e hek
    by_cases hkd : k = d
    · subst hkd
      rw [push_elems_self, List.mem_append, List.mem_singleton] at hek
      rcases hek with h | rfl
      · exact (hI.verts k e h).congr rfl
      · exact hv.congr rfl
    · rw [push_elems_ne _ _ _ _ hkd] at hek; exact (hI.verts k e hek).congr rfl
  · intro k e hek
    by_cases hkd : k = d
    · subst hkd
      rw [push_elems_self, List.mem_append, List.mem_singleton] at hek
      rcases hek with h | rfl
      · exact (hI.bnd k e h).mono he
      · exact hb.mono he
    · rw [push_elems_ne _ _ _ _ hkd] at hek; exact (hI.bnd k e hek).mono he
  · intro k
    by_cases hkd : k = d
    · subst hkd
      rw [push_elems_self, List.map_append, List.nodup_append]
      refine ⟨hI.ids k, by simp, fun i hi j hj => ?_⟩
      obtain ⟨e, hek, rfl⟩ := List.mem_map.1 hi
      simp only [List.map_cons, List.map_nil, List.mem_singleton] at hj
      subst hj
      exact Nat.ne_of_lt (hI.next k e hek)
    · rw [push_elems_ne _ _ _ _ hkd]; exact hI.ids k
  · intro k e hek
    by_cases hkd : k = d
    · subst hkd
      rw [push_elems_self, List.mem_append, List.mem_singleton] at hek
      simp only [Mesh.push, if_true]
      rcases hek with h | rfl
      · exact Nat.lt_succ_of_lt (hI.next k e h)
      · exact Nat.lt_succ_self _
    · rw [push_elems_ne _ _ _ _ hkd] at hek
      simp only [Mesh.push, if_neg hkd]; exact hI.next k e hek

theorem Inv.touch {T : Topo} {m : Mesh P} (hI : Inv T m) (d s : Nat) : Inv T (m.touch d s) :=
  ⟨hI.unique, hI.verts, hI.bnd, hI.ids, hI.next⟩

theorem touch_ext (m : Mesh P) (d s : Nat) : Ext m (m.touch d s) :=
  ⟨rfl, rfl, fun _ => List.prefix_refl _, ⟨_, rfl⟩, Nat.le_succ _⟩

/-- The insertion satisfies its specification whenever the recursion bound is large enough. -/
theorem insertN_good {T : Topo} (hT : T.WF) : ∀ f, GoodIns (P := P) T (f + 1) (insertN T f) := by
  intro f
  induction f with
  | zero => intro k m vs h1 h2; omega
  | succ f ih =>
    intro d m vs hd hdf hI hu hv
    unfold insertN
    split
    · rename_i s hs
      have hdc : d ≠ T.cellDim := by
        intro h; simp [h] at hs
      rw [if_neg hdc] at hs
      obtain ⟨e, h1, h2⟩ := findSlot_some hI hu hv hs
      refine ⟨hI.touch d s, touch_ext m d s, fun _ _ => rfl, ⟨e, h1, h2, by simp⟩, ?_, Or.inl rfl,
        fun _ => rfl, ?_, ?_, by simp [Mesh.touch], by simp⟩
      · constructor
        · intro h; cases h
        · rintro (h | h)
          · exact absurd h hdc
          · exact absurd h2 (h e (List.mem_of_getElem? h1))
      · intro j i g hg hi
        have := (List.getElem?_eq_some_iff.1 hg).1
        simp only [Mesh.touch] at this; omega
      · intro j i g hg hi
        have := (List.getElem?_eq_some_iff.1 hg).1
        simp only [Mesh.touch] at this; omega
    · rename_i hs
      have hnew : d = T.cellDim ∨ ∀ f ∈ m.elems d, ¬ f.verts.Perm vs := by
        by_cases hdc : d = T.cellDim
        · exact Or.inl hdc
        · rw [if_neg hdc] at hs
          exact Or.inr (findSlot_none hI hu hv hs)
      have ihd : GoodIns (P := P) T d (insertN T f) := fun k m vs h1 h2 => ih k m vs h1 (by omega)
      obtain ⟨hg, hb⟩ := genLayers_spec hT ihd (vs := vs) (T.layers d vs.length) m hI hu
        (fun k idxs h => ⟨(hT.dim d _ k idxs h).1, (hT.dim d _ k idxs h).2, fun ix hix => pick_ok hT hix h hv⟩)
      simp only
      generalize genLayers (insertN T f) vs (T.layers d vs.length) m = q at hg hb ⊢
      have hsame : q.1.elems d = m.elems d := hg.higher d (le_refl _)
      have hpe := push_ext q.1 d vs q.2
      refine ⟨hg.inv.push (hv.congr hg.ext.verts) hb (by rw [hsame]; exact hnew), hg.ext.trans hpe, ?_,
        ?_, by simp [hnew], ?_, by simp, ?_, ?_, ?_, ?_⟩
      · intro j hj
        rw [push_elems_ne _ _ _ _ (by omega), hg.higher j (by omega)]
      · refine ⟨⟨q.1.nextId d, vs, q.2⟩, ?_, List.Perm.refl _, fun _ => rfl⟩
        rw [push_elems_self, hsame]; simp
      · right
        exact ⟨rfl, _, rfl, by rw [push_elems_self, hsame]⟩
      · intro j i g hg' hi
        by_cases hjd : j = d
        · subst hjd
          rw [push_elems_self, hsame] at hg'
          rw [List.getElem?_append_right hi] at hg'
          have := List.mem_of_getElem? hg'
          simp only [List.mem_singleton] at this
          subst this
          exact List.Subset.refl _
        · rw [push_elems_ne _ _ _ _ hjd] at hg'
          exact hg.sub j i g hg' hi
      · intro j i g hg' hi
        by_cases hjd : j = d
        · subst hjd
          left
          refine ⟨rfl, ?_⟩
          rw [push_elems_self, hsame] at hg'
          have := (List.getElem?_eq_some_iff.1 hg').1
          simp at this; simp; omega
        · right
          rw [push_elems_ne _ _ _ _ hjd] at hg'
          rcases hg.refd j i g hg' hi with ⟨refs, perm, h1, h2⟩ | h
          · refine ⟨d, ⟨q.1.nextId d, vs, q.2⟩, ?_, refs, perm, h1, h2⟩
            rw [push_elems_self]; simp
          · exact h.mono hpe.elems
      · have : (d, (q.1.elems d).length) ∈ (q.1.push d vs q.2).log.drop q.1.log.length := by
          simp [Mesh.push]
        rw [hsame] at this
        exact drop_prefix_mem' hg.ext.log hpe.log this
      · intro _
        exact ⟨rfl, _, rfl, by rw [push_elems_self, hsame]⟩

theorem makeElem_spec {T : Topo} (hT : T.WF) {m : Mesh P} (hI : Inv T m) (hu : UniqueVids m)
    {d : Nat} (hd : 1 ≤ d) {vs : List Nat} (hv : VertsOK T m d vs) :
    InsSpec T d m vs (m.makeElem T d vs) :=
  insertN_good hT d d m vs hd (Nat.lt_succ_self d) hI hu hv

theorem Inv.empty (T : Topo) : Inv T (Mesh.empty : Mesh P) := by
  constructor <;> simp [Mesh.empty]

theorem Inv.makeVertex {T : Topo} {m : Mesh P} (hI : Inv T m) (id : Option Int) (p : P) :
    Inv T (m.makeVertex id p) := by
  refine ⟨hI.unique, ?_, hI.bnd, hI.ids, hI.next⟩
  intro d e he
  obtain ⟨h1, h2, h3⟩ := hI.verts d e he
  refine ⟨h1, h2, fun v hv => ?_⟩
  have := h3 v hv
  simp only [Mesh.makeVertex, List.length_append]; omega

/-- Vertices of the elements created are pairwise different. -/
def MOp.Distinct : MOp P → Prop
  | .vertex _ _ => True
  | .elem _ vs => vs.Nodup

/-- Vertices only grow. -/
theorem makeElem_verts {T : Topo} (hT : T.WF) {m : Mesh P} (hI : Inv T m) (hu : UniqueVids m)
    {d : Nat} (hd : 1 ≤ d) {vs : List Nat} (hv : VertsOK T m d vs) :
    (m.makeElem T d vs).mesh.verts = m.verts := (makeElem_spec hT hI hu hd hv).ext.verts

end VG
