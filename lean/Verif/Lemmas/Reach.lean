import Verif.Lemmas.Mesh
import Verif.Model.Queries
import Verif.Props.Topology

/-!
The invariant holds for every mesh obtained by a history of creations.
-/

namespace VG

variable {P : Type}

theorem sorted_perm_eq {a b : List Nat} (ha : a.Pairwise (· < ·)) (hb : b.Pairwise (· < ·))
    (h : a.Perm b) : a = b :=
  h.eq_of_pairwise (fun _ _ _ _ h1 h2 => absurd h1 (by omega)) ha hb

theorem simplexTopo_wf (n : Nat) : (simplexTopo n).WF := by
  have hmem : ∀ d N k idxs, (k, idxs) ∈ (simplexTopo n).layers d N →
      (k = 1 ∧ 2 ≤ d ∧ idxs = edgeIdx (d + 1)) ∨ (k = 2 ∧ 3 ≤ d ∧ idxs = triIdx (d + 1)) := by
    intro d N k idxs h
    simp only [simplexTopo, List.mem_append] at h
    rcases h with h | h
    · split at h
      · simp at h; exact Or.inl ⟨h.1, by assumption, h.2⟩
      · simp at h
    · split at h
      · simp at h; exact Or.inr ⟨h.1, by assumption, h.2⟩
      · simp at h
  constructor
  · intro d N k idxs h
    rcases hmem d N k idxs h with ⟨rfl, h2, _⟩ | ⟨rfl, h2, _⟩ <;> omega
  · intro d N k idxs hN h ix hix
    have hN : N = d + 1 := hN.resolve_right (fun h => by cases h.1)
    subst hN
    rcases hmem d _ k idxs h with ⟨rfl, h2, rfl⟩ | ⟨rfl, h2, rfl⟩
    · obtain ⟨h3, h4, h5⟩ := (C06_edges_are_pairs _ _).1 hix
      exact ⟨h4.imp (fun h => Nat.ne_of_lt h), h3, h5⟩
    · obtain ⟨h3, h4, h5⟩ := (C06_triangles_are_triples _ _).1 hix
      exact ⟨h4.imp (fun h => Nat.ne_of_lt h), h3, h5⟩
  · intro d N k idxs hN h
    rcases hmem d N k idxs h with ⟨rfl, h2, rfl⟩ | ⟨rfl, h2, rfl⟩
    · refine (C06_edges_nodup (d + 1)).imp_of_mem ?_
      intro a b ha hb hne hp
      exact hne (sorted_perm_eq ((C06_edges_are_pairs _ _).1 ha).2.1
        ((C06_edges_are_pairs _ _).1 hb).2.1 hp)
    · refine (C06_triangles_nodup (d + 1)).imp_of_mem ?_
      intro a b ha hb hne hp
      exact hne (sorted_perm_eq ((C06_triangles_are_triples _ _).1 ha).2.1
        ((C06_triangles_are_triples _ _).1 hb).2.1 hp)
  · intro d _
    simp only [simplexTopo]
    split <;> split <;> simp
  · exact fun _ _ => rfl

theorem cubeTopo_wf (n : Nat) : (cubeTopo n).WF := by
  have hmem : ∀ d N k idxs, (k, idxs) ∈ (cubeTopo n).layers d N →
      (d = 2 ∧ k = 1 ∧ idxs = quadEdges) ∨ (d = 3 ∧ k = 1 ∧ idxs = hexEdges) ∨
      (d = 3 ∧ k = 2 ∧ idxs = hexFaces) := by
    intro d N k idxs h
    simp only [cubeTopo] at h
    split at h
    · simp at h; exact Or.inl ⟨by assumption, h.1, h.2⟩
    · split at h
      · simp at h; rcases h with h | h
        · exact Or.inr (Or.inl ⟨by assumption, h.1, h.2⟩)
        · exact Or.inr (Or.inr ⟨by assumption, h.1, h.2⟩)
      · simp at h
  constructor
  · intro d N k idxs h
    rcases hmem d N k idxs h with ⟨rfl, rfl, _⟩ | ⟨rfl, rfl, _⟩ | ⟨rfl, rfl, _⟩ <;> omega
  · intro d N k idxs hN h
    have hN : N = (cubeTopo n).nv d := hN.resolve_right (fun h => by cases h.1)
    subst hN
    rcases hmem d _ k idxs h with ⟨rfl, rfl, rfl⟩ | ⟨rfl, rfl, rfl⟩ | ⟨rfl, rfl, rfl⟩ <;>
      simp only [cubeTopo] <;> decide
  · intro d N k idxs hN h
    rcases hmem d N k idxs h with ⟨rfl, rfl, rfl⟩ | ⟨rfl, rfl, rfl⟩ | ⟨rfl, rfl, rfl⟩ <;> decide
  · intro d _
    simp only [cubeTopo]
    split
    · simp
    · split <;> simp
  · exact fun _ _ => rfl

theorem polyTopo_wf : polyTopo.WF := by
  have hmem : ∀ d N k idxs, (k, idxs) ∈ polyTopo.layers d N →
      d = 2 ∧ k = 1 ∧ idxs = (polygonEdges N).getD [] := by
    intro d N k idxs h
    simp only [polyTopo] at h
    split at h
    · simp at h; exact ⟨by assumption, h.1, h.2⟩
    · simp at h
  have har : ∀ N, polyTopo.Arity 2 N → 3 ≤ N := by
    rintro N (h | h)
    · exact le_of_eq h.symm
    · exact h.2.2
  constructor
  · intro d N k idxs h
    obtain ⟨rfl, rfl, -⟩ := hmem d N k idxs h
    omega
  · intro d N k idxs hN h ix hix
    obtain ⟨rfl, rfl, rfl⟩ := hmem d N k idxs h
    have h3 := har N hN
    rw [polygonEdges, if_neg (by omega), Option.getD_some, List.mem_append, List.mem_map,
      List.mem_singleton] at hix
    rcases hix with ⟨i, hi, rfl⟩ | rfl
    · rw [List.mem_range] at hi
      exact ⟨by simp, rfl, by simp; omega⟩
    · exact ⟨by simp; omega, rfl, by simp; omega⟩
  · intro d N k idxs hN h
    obtain ⟨rfl, rfl, rfl⟩ := hmem d N k idxs h
    obtain ⟨es, h1, h2⟩ := C55_polygon_edges_distinct N (har N hN)
    rw [h1]; exact h2
  · intro d N
    simp only [polyTopo]
    split <;> simp
  · intro d N
    simp only [polyTopo]
    split <;> simp

theorem genFaces_verts {ins : Nat → Mesh P → List Nat → InsRes P}
    (h : ∀ k m vs, (ins k m vs).mesh.verts = m.verts ∧ (ins k m vs).mesh.vgen = m.vgen) (vs k) :
    ∀ idxs m, (genFaces ins vs k idxs m).1.verts = m.verts ∧ (genFaces ins vs k idxs m).1.vgen = m.vgen
  | [], _ => ⟨rfl, rfl⟩
  | ix :: rest, m => by
    have := genFaces_verts h vs k rest (ins k m (pick vs ix)).mesh
    exact ⟨this.1.trans (h ..).1, this.2.trans (h ..).2⟩

theorem genLayers_verts {ins : Nat → Mesh P → List Nat → InsRes P}
    (h : ∀ k m vs, (ins k m vs).mesh.verts = m.verts ∧ (ins k m vs).mesh.vgen = m.vgen) (vs) :
    ∀ ls m, (genLayers ins vs ls m).1.verts = m.verts ∧ (genLayers ins vs ls m).1.vgen = m.vgen
  | [], _ => ⟨rfl, rfl⟩
  | (k, idxs) :: rest, m => by
    have h1 := genLayers_verts h vs rest (genFaces ins vs k idxs m).1
    have h2 := genFaces_verts h vs k idxs m
    exact ⟨h1.1.trans h2.1, h1.2.trans h2.2⟩

theorem insertN_verts (T : Topo) : ∀ f d (m : Mesh P) vs,
    (insertN T f d m vs).mesh.verts = m.verts ∧ (insertN T f d m vs).mesh.vgen = m.vgen := by
  intro f
  induction f with
  | zero => intro d m vs; unfold insertN; split <;> exact ⟨rfl, rfl⟩
  | succ f ih =>
    intro d m vs; unfold insertN; split
    · exact ⟨rfl, rfl⟩
    · exact genLayers_verts ih vs (T.layers d vs.length) m

theorem step_verts {T : Topo} {m m' : Mesh P} {op : MOp P} (h : m.step T op = some m') :
    m.verts <+: m'.verts := by
  cases op with
  | vertex id p => simp [Mesh.step] at h; subst h; exact ⟨_, rfl⟩
  | elem d vs =>
    simp only [Mesh.step] at h
    split at h
    · simp only [Option.some.injEq] at h
      subst h
      rw [Mesh.makeElem, (insertN_verts T d d m vs).1]
      exact List.prefix_refl _
    · cases h

theorem run_verts {T : Topo} : ∀ {ops : List (MOp P)} {m m' : Mesh P}, m.run T ops = some m' →
    m.verts <+: m'.verts
  | [], m, m', h => by simp [Mesh.run] at h; subst h; exact List.prefix_refl _
  | op :: ops, m, m', h => by
    simp only [Mesh.run] at h
    obtain ⟨m1, h1, h2⟩ := Option.bind_eq_some_iff.1 h
    exact (step_verts h1).trans (run_verts h2)

theorem UniqueVids.of_prefix {m m' : Mesh P} (h : m.verts <+: m'.verts) (hu : UniqueVids m') :
    UniqueVids m := by
  unfold UniqueVids at *
  exact List.Nodup.sublist (h.sublist.map _) hu

theorem step_inv {T : Topo} (hT : T.WF) {m m' : Mesh P} {op : MOp P} (hI : Inv T m)
    (hu : UniqueVids m) (hd : op.Distinct) (h : m.step T op = some m') : Inv T m' := by
  cases op with
  | vertex id p => simp [Mesh.step] at h; subst h; exact hI.makeVertex id p
  | elem d vs =>
    simp only [Mesh.step] at h
    split at h
    · rename_i hc
      simp only [Option.some.injEq] at h
      subst h
      exact (makeElem_spec hT hI hu hc.1 ⟨hd, hc.2.2.1, hc.2.2.2⟩).inv
    · cases h

theorem run_inv {T : Topo} (hT : T.WF) : ∀ {ops : List (MOp P)} {m m' : Mesh P}, Inv T m →
    (∀ op ∈ ops, op.Distinct) → m.run T ops = some m' → UniqueVids m' → Inv T m'
  | [], m, m', hI, _, h, _ => by simp [Mesh.run] at h; subst h; exact hI
  | op :: ops, m, m', hI, hd, h, hu => by
    simp only [Mesh.run] at h
    obtain ⟨m1, h1, h2⟩ := Option.bind_eq_some_iff.1 h
    have hu1 : UniqueVids m1 := hu.of_prefix (run_verts h2)
    exact run_inv hT (step_inv hT hI (hu1.of_prefix (step_verts h1)) (hd op (by simp)) h1)
      (fun o ho => hd o (by simp [ho])) h2 hu

/-- No vertex got an explicit id. -/
def MOp.Generated : MOp P → Prop
  | .vertex id _ => id = none
  | .elem _ _ => True

/-- Vertex ids are the positions. -/
def VidsCont (m : Mesh P) : Prop :=
  m.verts.map (·.id) = (List.range m.verts.length).map (fun k : Nat => (k : Int)) ∧
    m.vgen = m.verts.length

theorem VidsCont.unique {m : Mesh P} (h : VidsCont m) : UniqueVids m := by
  unfold UniqueVids
  rw [h.1]
  exact List.Nodup.map (fun a b h => by simpa using h) List.nodup_range

theorem step_vidsCont {T : Topo} {m m' : Mesh P} {op : MOp P} (hv : VidsCont m)
    (hg : op.Generated) (h : m.step T op = some m') : VidsCont m' := by
  cases op with
  | vertex id p =>
    simp [Mesh.step] at h; subst h
    simp only [MOp.Generated] at hg
    subst hg
    refine ⟨?_, by simp [Mesh.makeVertex, hv.2]⟩
    simp [Mesh.makeVertex, hv.1, hv.2, List.range_succ]
  | elem d vs =>
    simp only [Mesh.step] at h
    split at h
    · simp only [Option.some.injEq] at h
      subst h
      have := insertN_verts T d d m vs
      unfold VidsCont
      rw [Mesh.makeElem, this.1, this.2]; exact hv
    · cases h

theorem run_vidsCont {T : Topo} : ∀ {ops : List (MOp P)} {m m' : Mesh P}, VidsCont m →
    (∀ op ∈ ops, op.Generated) → m.run T ops = some m' → VidsCont m'
  | [], m, m', hI, _, h => by simp [Mesh.run] at h; subst h; exact hI
  | op :: ops, m, m', hI, hd, h => by
    simp only [Mesh.run] at h
    obtain ⟨m1, h1, h2⟩ := Option.bind_eq_some_iff.1 h
    exact run_vidsCont (step_vidsCont hI (hd op (by simp)) h1) (fun o ho => hd o (by simp [ho])) h2

theorem VidsCont.empty : VidsCont (Mesh.empty : Mesh P) := by simp [VidsCont, Mesh.empty]

/-- A mesh built from the empty mesh by creating vertices and elements with distinct vertices, and
whose vertices have different ids. -/
def Built (T : Topo) (m : Mesh P) : Prop :=
  ∃ ops : List (MOp P), (∀ op ∈ ops, op.Distinct) ∧ Mesh.empty.run T ops = some m ∧ UniqueVids m

theorem Built.inv {T : Topo} (hT : T.WF) {m : Mesh P} (h : Built T m) : Inv T m := by
  obtain ⟨ops, h1, h2, h3⟩ := h
  exact run_inv hT (Inv.empty T) h1 h2 h3

theorem Built.of_generated {T : Topo} {ops : List (MOp P)} {m : Mesh P}
    (hd : ∀ op ∈ ops, op.Distinct) (hg : ∀ op ∈ ops, op.Generated)
    (h : Mesh.empty.run T ops = some m) : Built T m :=
  ⟨ops, hd, h, (run_vidsCont VidsCont.empty hg h).unique⟩

/-! No junk. -/

/-- Only vertices and cells are created. -/
def MOp.CellsOnly (T : Topo) : MOp P → Prop
  | .vertex _ _ => True
  | .elem d _ => d = T.cellDim

/-- Every element which is not a cell is referred to by another one. -/
def NoJunk (T : Topo) (m : Mesh P) : Prop :=
  ∀ d s f, d ≠ T.cellDim → (m.elems d)[s]? = some f → Referenced m d s

theorem run_noJunk {T : Topo} (hT : T.WF) : ∀ {ops : List (MOp P)} {m m' : Mesh P}, Inv T m →
    NoJunk T m → (∀ op ∈ ops, op.Distinct) → (∀ op ∈ ops, op.CellsOnly T) →
    m.run T ops = some m' → UniqueVids m' → NoJunk T m'
  | [], m, m', _, hJ, _, _, h, _ => by simp [Mesh.run] at h; subst h; exact hJ
  | op :: ops, m, m', hI, hJ, hd, hc, h, hu => by
    simp only [Mesh.run] at h
    obtain ⟨m1, h1, h2⟩ := Option.bind_eq_some_iff.1 h
    have hu1 : UniqueVids m1 := hu.of_prefix (run_verts h2)
    have hu0 := hu1.of_prefix (step_verts h1)
    refine run_noJunk hT (step_inv hT hI hu0 (hd op (by simp)) h1) ?_
      (fun o ho => hd o (by simp [ho])) (fun o ho => hc o (by simp [ho])) h2 hu
    cases op with
    | vertex id p => simp [Mesh.step] at h1; subst h1; exact hJ
    | elem d vs =>
      simp only [Mesh.step] at h1
      split at h1
      · rename_i hcond
        simp only [Option.some.injEq] at h1
        subst h1
        have hs := makeElem_spec hT hI hu0 hcond.1 ⟨hd (.elem d vs) (by simp), hcond.2.2.1, hcond.2.2.2⟩
        have hdc : d = T.cellDim := hc (.elem d vs) (by simp)
        intro j i f hj hf
        by_cases hi : (m.elems j).length ≤ i
        · rcases hs.refd j i f hf hi with ⟨rfl, _⟩ | h
          · exact absurd hdc hj
          · exact h
        · have hlt : i < (m.elems j).length := by omega
          exact (hJ j i _ hj (List.getElem?_eq_getElem hlt)).mono hs.ext.elems
      · cases h1

/-! Looking up the references of an element. -/

theorem BndOK.lookup {m : Mesh P} {vs : List Nat} : ∀ {ls : List (Nat × List (List Nat))}
    {b : List (Nat × List BndRef)}, BndOK m vs ls b → (ls.map (·.1)).Nodup →
    ∀ {k idxs}, (k, idxs) ∈ ls → ∃ refs, b.find? (fun l => l.1 == k) = some (k, refs) ∧
      List.Forall₂ (fun ix r => RefOK m k (pick vs ix) r) idxs refs
  | [], _, _, _, k, idxs, h => by simp at h
  | (k', idxs') :: ls, _, hb, hn, k, idxs, h => by
    unfold BndOK at hb
    cases hb with
    | @cons _ b0 _ bs h1 h2 =>
      obtain ⟨k0, refs0⟩ := b0
      obtain ⟨rfl, h3⟩ := h1
      simp only [List.map_cons, List.nodup_cons] at hn
      simp only [List.mem_cons, Prod.mk.injEq] at h
      rcases h with ⟨rfl, rfl⟩ | h
      · exact ⟨refs0, by simp, h3⟩
      · have hne : k' ≠ k := by
          rintro rfl
          exact hn.1 (List.mem_map.2 ⟨_, h, rfl⟩)
        obtain ⟨refs, h4, h5⟩ := BndOK.lookup (ls := ls) (b := bs) h2 hn.2 h
        refine ⟨refs, ?_, h5⟩
        rw [List.find?_cons_of_neg (by simpa using hne)]
        exact h4

theorem forall₂_getElem? {α β} {R : α → β → Prop} {l : List α} {l' : List β}
    (h : List.Forall₂ R l l') {i : Nat} {a : α} (hi : l[i]? = some a) : ∃ b, l'[i]? = some b ∧ R a b := by
  induction h generalizing i with
  | nil => simp at hi
  | cons hab _ ih =>
    cases i with
    | zero => simp at hi; subst hi; exact ⟨_, rfl, hab⟩
    | succ i => simpa using ih (by simpa using hi)

theorem forall₂_getElem?' {α β} {R : α → β → Prop} {l : List α} {l' : List β}
    (h : List.Forall₂ R l l') {i : Nat} {b : β} (hi : l'[i]? = some b) : ∃ a, l[i]? = some a ∧ R a b := by
  induction h generalizing i with
  | nil => simp at hi
  | cons hab _ ih =>
    cases i with
    | zero => simp at hi; subst hi; exact ⟨_, rfl, hab⟩
    | succ i => simpa using ih (by simpa using hi)

theorem Refers.iff_bndSlots {T : Topo} (hT : T.WF) {m : Mesh P} (hI : Inv T m) {d : Nat} {e : Elem}
    (he : e ∈ m.elems d) {k s : Nat} : Refers e k s ↔ s ∈ e.bndSlots k := by
  constructor
  · rintro ⟨refs, perm, h1, h2⟩
    have hb := hI.bnd d e he
    have : ∃ idxs, (k, idxs) ∈ T.layers d e.verts.length := by
      obtain ⟨i, hi⟩ := List.mem_iff_getElem?.1 h1
      obtain ⟨l, hl, hl2⟩ := forall₂_getElem?' hb hi
      obtain ⟨kk, idxs⟩ := l
      obtain ⟨rfl, _⟩ := hl2
      exact ⟨idxs, List.mem_of_getElem? hl⟩
    obtain ⟨idxs, hl⟩ := this
    obtain ⟨refs', h3, _⟩ := hb.lookup (hT.once d _) hl
    have hkeys : e.bnd.map (·.1) = (T.layers d e.verts.length).map (·.1) := by
      clear h1 h3 hl
      unfold BndOK at hb
      generalize T.layers d e.verts.length = ls at hb
      generalize e.bnd = bs at hb
      induction hb with
      | nil => rfl
      | cons h _ ih => simp only [List.map_cons, ih, h.1]
    have hnd : (e.bnd.map (·.1)).Nodup := hkeys ▸ hT.once d _
    have h4 : (k, refs') ∈ e.bnd := List.mem_of_find?_eq_some h3
    have : refs = refs' := by
      have := List.inj_on_of_nodup_map hnd h1 h4 rfl
      simpa using this
    subst this
    unfold Elem.bndSlots
    rw [h3]
    exact List.mem_map.2 ⟨_, h2, rfl⟩
  · intro h
    unfold Elem.bndSlots at h
    split at h
    · simp at h
    · rename_i l hl
      have h1 := List.mem_of_find?_eq_some hl
      have h2 := List.find?_some hl
      simp only [beq_iff_eq] at h2
      obtain ⟨r, hr, rfl⟩ := List.mem_map.1 h
      obtain ⟨k', refs⟩ := l
      simp only at h2
      subst h2
      exact ⟨refs, r.2, h1, hr⟩

/-- Elements of an intermediate dimension with the same vertices are the same. -/
theorem Inv.slot_unique {T : Topo} {m : Mesh P} (hI : Inv T m) {d : Nat} (hd : d ≠ T.cellDim)
    {i j : Nat} {e f : Elem} (hi : (m.elems d)[i]? = some e) (hj : (m.elems d)[j]? = some f)
    (hp : e.verts.Perm f.verts) : i = j := by
  obtain ⟨h1, rfl⟩ := List.getElem?_eq_some_iff.1 hi
  obtain ⟨h2, rfl⟩ := List.getElem?_eq_some_iff.1 hj
  have := List.pairwise_iff_getElem.1 (hI.unique d hd)
  rcases Nat.lt_trichotomy i j with h | h | h
  · exact absurd hp (this i j h1 h2 h)
  · exact h
  · exact absurd hp.symm (this j i h2 h1 h)

/-- Ids are the positions. -/
def IdsCont (m : Mesh P) : Prop :=
  ∀ d, (m.elems d).map (·.id) = List.range (m.elems d).length ∧ m.nextId d = (m.elems d).length

theorem IdsCont.push {m : Mesh P} (h : IdsCont m) (d : Nat) (vs b) : IdsCont (m.push d vs b) := by
  intro k
  by_cases hkd : k = d
  · subst hkd
    rw [push_elems_self, List.map_append, (h k).1]
    simp [List.range_succ, Mesh.push, (h k).2]
  · rw [push_elems_ne _ _ _ _ hkd]
    exact ⟨(h k).1, by simp [Mesh.push, hkd, (h k).2]⟩

theorem genFaces_idsCont {ins : Nat → Mesh P → List Nat → InsRes P}
    (h : ∀ k m vs, IdsCont m → IdsCont (ins k m vs).mesh) (vs k) :
    ∀ idxs m, IdsCont m → IdsCont (genFaces ins vs k idxs m).1
  | [], _, hm => hm
  | ix :: rest, m, hm => genFaces_idsCont h vs k rest (ins k m (pick vs ix)).mesh (h k m _ hm)

theorem genLayers_idsCont {ins : Nat → Mesh P → List Nat → InsRes P}
    (h : ∀ k m vs, IdsCont m → IdsCont (ins k m vs).mesh) (vs) :
    ∀ ls m, IdsCont m → IdsCont (genLayers ins vs ls m).1
  | [], _, hm => hm
  | (k, idxs) :: rest, m, hm => genLayers_idsCont h vs rest (genFaces ins vs k idxs m).1
      (genFaces_idsCont h vs k idxs m hm)

theorem insertN_idsCont (T : Topo) : ∀ f d (m : Mesh P) vs, IdsCont m → IdsCont (insertN T f d m vs).mesh := by
  intro f
  induction f with
  | zero => intro d m vs hm; unfold insertN; split; exact hm; exact hm.push _ _ _
  | succ f ih =>
    intro d m vs hm; unfold insertN; split
    · exact hm
    · exact (genLayers_idsCont ih vs (T.layers d vs.length) m hm).push _ _ _

theorem run_idsCont {T : Topo} : ∀ {ops : List (MOp P)} {m m' : Mesh P}, IdsCont m →
    m.run T ops = some m' → IdsCont m'
  | [], m, m', hm, h => by simp [Mesh.run] at h; subst h; exact hm
  | op :: ops, m, m', hm, h => by
    simp only [Mesh.run] at h
    obtain ⟨m1, h1, h2⟩ := Option.bind_eq_some_iff.1 h
    refine run_idsCont ?_ h2
    cases op with
    | vertex id p => simp [Mesh.step] at h1; subst h1; exact hm
    | elem d vs =>
      simp only [Mesh.step] at h1
      split at h1
      · simp only [Option.some.injEq] at h1
        subst h1
        exact insertN_idsCont T d d m vs hm
      · cases h1

theorem genFaces_other {ins : Nat → Mesh P → List Nat → InsRes P} {S : Nat → Prop} {j : Nat}
    (h : ∀ k m vs, S k → (ins k m vs).mesh.elems j = m.elems j) (vs : List Nat) {k : Nat} (hk : S k) :
    ∀ idxs m, (genFaces ins vs k idxs m).1.elems j = m.elems j
  | [], _ => rfl
  | ix :: rest, m =>
    (genFaces_other h vs hk rest (ins k m (pick vs ix)).mesh).trans (h k m (pick vs ix) hk)

theorem genLayers_other {ins : Nat → Mesh P → List Nat → InsRes P} {S : Nat → Prop} {j : Nat}
    (h : ∀ k m vs, S k → (ins k m vs).mesh.elems j = m.elems j) (vs : List Nat) :
    ∀ (ls : List (Nat × List (List Nat))) m, (∀ l ∈ ls, S l.1) →
      (genLayers ins vs ls m).1.elems j = m.elems j
  | [], _, _ => rfl
  | (k, idxs) :: rest, m, hl =>
    (genLayers_other h vs rest (genFaces ins vs k idxs m).1 (fun l hm => hl l (by simp [hm]))).trans
      (genFaces_other h vs (hl (k, idxs) (by simp)) idxs m)

/-- Dimensions outside a set closed under taking boundaries are untouched. -/
theorem insertN_other {T : Topo} {S : Nat → Prop} (hS : ∀ d n, S d → ∀ l ∈ T.layers d n, S l.1)
    {j : Nat} (hj : ¬ S j) : ∀ f d (m : Mesh P) vs, S d → (insertN T f d m vs).mesh.elems j = m.elems j := by
  have hp : ∀ (m : Mesh P) d vs b, S d → (m.push d vs b).elems j = m.elems j := by
    intro m d vs b hd
    exact push_elems_ne m d vs b (fun h => hj (h ▸ hd))
  intro f
  induction f with
  | zero => intro d m vs hd; unfold insertN; split; rfl; exact hp _ _ _ _ hd
  | succ f ih =>
    intro d m vs hd; unfold insertN; split
    · rfl
    · exact (hp _ _ _ _ hd).trans (genLayers_other (fun k m vs hk => ih k m vs hk) vs (T.layers d vs.length) m
        (hS d _ hd))

/-- A mesh has elements of the dimensions one to the dimension of its cells only. -/
def DimsOK (T : Topo) (m : Mesh P) : Prop := ∀ d, d ∉ List.range' 1 T.cellDim → m.elems d = []

theorem step_dims {T : Topo} (hT : T.WF) {m m' : Mesh P} {op : MOp P} (hm : DimsOK T m)
    (h : m.step T op = some m') : DimsOK T m' := by
  cases op with
  | vertex id p => simp [Mesh.step] at h; subst h; exact hm
  | elem d vs =>
    simp only [Mesh.step] at h
    split at h
    · rename_i hc
      simp only [Option.some.injEq] at h
      subst h
      intro j hj
      refine (insertN_other (S := fun k => k ∈ List.range' 1 T.cellDim) ?_ hj d d m vs ?_).trans (hm j hj)
      · intro k n hk l hl
        have := hT.dim k n l.1 l.2 hl
        simp only [List.mem_range'_1] at hk ⊢
        omega
      · simp only [List.mem_range'_1]; omega
    · cases h

theorem run_dims {T : Topo} (hT : T.WF) : ∀ {ops : List (MOp P)} {m m' : Mesh P}, DimsOK T m →
    m.run T ops = some m' → DimsOK T m'
  | [], m, m', hm, h => by simp [Mesh.run] at h; subst h; exact hm
  | op :: ops, m, m', hm, h => by
    simp only [Mesh.run] at h
    obtain ⟨m1, h1, h2⟩ := Option.bind_eq_some_iff.1 h
    exact run_dims hT (step_dims hT hm h1) h2

theorem Built.dims {T : Topo} (hT : T.WF) {m : Mesh P} (h : Built T m) : DimsOK T m := by
  obtain ⟨ops, _, h2, _⟩ := h
  exact run_dims hT (fun _ _ => rfl) h2

/-! Erasing a cell -/

theorem swapPop_append {α : Type} (l : List α) (b : α) (t : Nat) : swapPop (l ++ [b]) t = l.set t b := by
  unfold swapPop
  simp only [List.getLast?_append, List.getLast?_singleton, Option.some_or]
  rcases Nat.lt_trichotomy t l.length with h | h | h
  · rw [List.set_append_left _ _ h, List.dropLast_concat]
  · subst h; simp [List.set_eq_of_length_le]
  · rw [List.set_eq_of_length_le (by simp; omega), List.dropLast_concat,
      List.set_eq_of_length_le (by omega)]

theorem swapPop_cases {α : Type} (l : List α) (t : Nat) :
    (l = [] ∧ swapPop l t = []) ∨ ∃ l0 b, l = l0 ++ [b] ∧ swapPop l t = l0.set t b := by
  rcases List.eq_nil_or_concat l with rfl | ⟨l0, b, rfl⟩
  · exact Or.inl ⟨rfl, rfl⟩
  · rw [List.concat_eq_append]; exact Or.inr ⟨l0, b, rfl, swapPop_append l0 b t⟩

theorem mem_of_mem_swapPop {α : Type} {l : List α} {t : Nat} {a : α} (h : a ∈ swapPop l t) : a ∈ l := by
  rcases swapPop_cases l t with ⟨rfl, h1⟩ | ⟨l0, b, rfl, h1⟩
  · rw [h1] at h; exact h
  · rw [h1] at h
    rcases List.mem_or_eq_of_mem_set h with h | rfl <;> simp [*]

theorem swapPop_nodup {l : List Nat} (t : Nat) (h : l.Nodup) : (swapPop l t).Nodup := by
  rcases swapPop_cases l t with ⟨rfl, h1⟩ | ⟨l0, b, rfl, h1⟩
  · rw [h1]; exact h
  · rw [h1]
    rw [List.nodup_append] at h
    exact h.1.set (fun hb => h.2.2 b hb b (by simp) rfl)

theorem map_swapPop {α β : Type} (f : α → β) (l : List α) (t : Nat) :
    (swapPop l t).map f = swapPop (l.map f) t := by
  rcases swapPop_cases l t with ⟨rfl, h1⟩ | ⟨l0, b, rfl, h1⟩
  · rw [h1]; rfl
  · rw [h1, List.map_set, List.map_append, List.map_cons, List.map_nil, swapPop_append]

theorem eraseCell_some {T : Topo} {m m' : Mesh P} {t : Nat} (h : m.eraseCell T t = some m') :
    t < (m.elems T.cellDim).length ∧ m'.verts = m.verts ∧ m'.counter = m.counter + 1 ∧
    m'.nextId = m.nextId ∧ m'.elems T.cellDim = swapPop (m.elems T.cellDim) t ∧
    ∀ k, k ≠ T.cellDim → m'.elems k = m.elems k := by
  unfold Mesh.eraseCell at h
  split at h
  · rename_i ht
    simp only [Option.some.injEq] at h
    subst h
    exact ⟨ht, rfl, rfl, rfl, by simp, fun k hk => by simp [hk]⟩
  · cases h

theorem eraseCell_mem {T : Topo} {m m' : Mesh P} {t : Nat} (h : m.eraseCell T t = some m') {d : Nat}
    {e : Elem} (he : e ∈ m'.elems d) : e ∈ m.elems d := by
  obtain ⟨_, _, _, _, h1, h2⟩ := eraseCell_some h
  by_cases hd : d = T.cellDim
  · subst hd; rw [h1] at he; exact mem_of_mem_swapPop he
  · rwa [h2 d hd] at he

theorem eraseCell_dims {T : Topo} {m m' : Mesh P} {t : Nat} (h : m.eraseCell T t = some m')
    (hd : DimsOK T m) : DimsOK T m' := by
  intro d hnot
  cases hl : m'.elems d with
  | nil => rfl
  | cons e l =>
    have := eraseCell_mem h (d := d) (e := e) (by simp [hl])
    rw [hd d hnot] at this
    simp at this

theorem eraseCell_inv {T : Topo} (hT : T.WF) {m m' : Mesh P} {t : Nat} (h : m.eraseCell T t = some m')
    (hd : DimsOK T m) (hI : Inv T m) : Inv T m' := by
  obtain ⟨_, hv, _, hn, h1, h2⟩ := eraseCell_some h
  refine ⟨fun d hne => ?_, fun d e he => ?_, fun d e he => ?_, fun d => ?_, fun d e he => ?_⟩
  · rw [h2 d hne]; exact hI.unique d hne
  · exact (hI.verts d e (eraseCell_mem h he)).congr hv
  · have hem := eraseCell_mem h he
    have hb := hI.bnd d e hem
    have hdc : d ≤ T.cellDim := by
      by_contra hcon
      rw [hd d (by simp only [List.mem_range'_1]; omega)] at hem
      simp at hem
    have hlay : ∀ l ∈ T.layers d e.verts.length, l.1 ≠ T.cellDim := fun l hl => by
      have := hT.dim d _ l.1 l.2 hl; omega
    unfold BndOK at hb ⊢
    revert hb hlay
    generalize T.layers d e.verts.length = ls
    generalize e.bnd = bs
    intro hb hlay
    induction hb with
    | nil => exact .nil
    | @cons l b ls bs hab _ ih =>
      refine .cons ⟨hab.1, ?_⟩ (ih fun x hx => hlay x (by simp [hx]))
      refine hab.2.imp fun ix r hr => ?_
      unfold RefOK at hr ⊢
      rw [h2 l.1 (hlay l (by simp))]
      exact hr
  · by_cases hd : d = T.cellDim
    · subst hd; rw [h1, map_swapPop]; exact swapPop_nodup t (hI.ids _)
    · rw [h2 d hd]; exact hI.ids d
  · rw [hn]; exact hI.next d e (eraseCell_mem h he)

end VG
