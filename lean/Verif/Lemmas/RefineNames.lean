import Verif.Lemmas.RefineParts
import Verif.Props.RefineConform

/-!
The vertices of a refined mesh of simplices, by their names in the source.
-/

namespace VG

variable {P : Type}

/-- The vertex of the refined mesh for a label of a cell: `w` for vertices, `ev` for edges. -/
def labelVertex (n : Nat) (m : Mesh P) (w ev : Nat → Nat) (t l : Nat) : Nat :=
  if l < n + 1 then w ((m.vertsOf n t).getD l 0) else ev ((m.bndOf n t 1).getD (l - (n + 1)) 0)

/-- What is known of a refined mesh. -/
structure Refined (n : Nat) (src : SegState P) (kids : List (Option (Vtx P)) → (Nat → Bool) → Option (List (List Nat)))
    (mark : Nat → Bool) (r : RefSt P) (C : Nat → List (List Nat)) (R : Nat → List (Option (Vtx P))) (w ev : Nat → Nat) : Prop where
  reached : SegReached (simplexTopo n) r.out
  gen : VidsCont r.out.mesh
  count : r.out.mesh.count n = r.kids.length
  kids_eq : r.kids = (List.range (src.mesh.count n)).flatMap (fun t => (C t).map (fun ls => (t, ls)))
  verts : ∀ i t ls, r.kids[i]? = some (t, ls) → r.out.mesh.vertsOf n i = ls.map (labelVertex n src.mesh w ev t)
  winj : ∀ t < src.mesh.count n, ∀ v ∈ src.mesh.vertsOf n t, ∀ t' < src.mesh.count n, ∀ v' ∈ src.mesh.vertsOf n t', w v = w v' → v = v'
  einj : ∀ e < src.mesh.count 1, ∀ f < src.mesh.count 1, mark e = true → mark f = true → ev e = ev f → e = f
  sep : ∀ t < src.mesh.count n, ∀ v ∈ src.mesh.vertsOf n t, ∀ e < src.mesh.count 1, mark e = true → w v ≠ ev e
  made : ∀ t < src.mesh.count n, kids (R t) (fun i => mark ((src.mesh.bndOf n t 1).getD i 0)) = some (C t)
  recs : ∀ t < src.mesh.count n, ∀ a < n + 1, ∃ x, (R t)[a]? = some (some x) ∧
    r.out.mesh.verts[w ((src.mesh.vertsOf n t).getD a 0)]? = some x
  labels : ∀ t < src.mesh.count n, ∀ c ∈ C t, c.Nodup ∧ c.length = n + 1 ∧
    ∀ l ∈ c, l < n + 1 ∨ (n + 1 ≤ l ∧ l < n + 1 + (edgeIdx (n + 1)).length ∧ mark ((src.mesh.bndOf n t 1).getD (l - (n + 1)) 0) = true)

/-- The points of the vertices of a refined mesh. -/
structure RefinedPts (n : Nat) (src : SegState P) (mark : Nat → Bool) (mid : Nat → P) (r : RefSt P) (w ev : Nat → Nat) : Prop where
  old : ∀ t < src.mesh.count n, ∀ v ∈ src.mesh.vertsOf n t, r.out.mesh.ptOf (w v) = src.mesh.ptOf v
  mids : ∀ e < src.mesh.count 1, mark e = true → r.out.mesh.ptOf (ev e) = some (mid e)

theorem KidsOK.labels {Q : List (Option (Vtx P)) → (Nat → Bool) → List (List Nat) → Prop} {nv ne : Nat}
    {kids : List (Option (Vtx P)) → (Nat → Bool) → Option (List (List Nat))} (h : KidsOK Q nv ne kids) :
    KidsOK (fun _ m cells => ∀ c ∈ cells, c.Nodup ∧ c.length = nv ∧
      ∀ l ∈ c, l < nv ∨ (nv ≤ l ∧ l < nv + ne ∧ m (l - nv) = true)) nv ne kids := by
  intro ls m h1 h2
  obtain ⟨cells, h3, _, h4⟩ := h ls m h1 h2
  exact ⟨cells, h3, h4, h4⟩

theorem simplex_verts {n : Nat} (hn : 1 ≤ n) {m : Mesh P} (hI : Inv (simplexTopo n) m) {t : Nat} (ht : t < m.count n) :
    (m.vertsOf n t).Nodup ∧ (m.vertsOf n t).length = n + 1 ∧ ∀ v ∈ m.vertsOf n t, v < m.verts.length := by
  have ht' : t < (m.elems n).length := by simpa [Mesh.count, show n ≠ 0 by omega] using ht
  have hvo : m.vertsOf n t = (m.elems n)[t].verts := by
    unfold Mesh.vertsOf
    rw [List.getD_eq_getElem _ _ (by simpa using ht')]; simp
  rw [hvo]
  obtain ⟨h1, h2, h3⟩ := hI.verts n _ (List.getElem_mem ht')
  exact ⟨h1, h2.fixed, h3⟩

/-- `refine`, with the handles of the vertices. -/
theorem refine_names {n : Nat} (hn : 2 ≤ n) {src : SegState P} (hsrc : SegReached (simplexTopo n) src)
    {kids : List (Option (Vtx P)) → (Nat → Bool) → Option (List (List Nat))}
    {Q : List (Option (Vtx P)) → (Nat → Bool) → List (List Nat) → Prop}
    (hk : KidsOK Q (n + 1) (edgeIdx (n + 1)).length kids)
    (mark : Nat → Bool) (mid : Nat → P) {order : List Nat} (hord : order.Nodup) (hall : ∀ e < src.mesh.count 1, e ∈ order) :
    ∃ (r : RefSt P) (C : Nat → List (List Nat)) (R : Nat → List (Option (Vtx P))) (w ev : Nat → Nat),
      refineMesh (simplexTopo n) src kids mark mid order = some r ∧ Refined n src kids mark r C R w ev ∧
        RefinedPts n src mark mid r w ev := by
  have hI := hsrc.inv (simplexTopo_wf n) (simplexTopo_closed n)
  have hu : UniqueVids src.mesh := hsrc.choose_spec.2.2
  obtain ⟨r, C, ev, e1, i1, k1, ev1, ev2, f1, z1, ev3, ev4⟩ := refineMesh_spec (simplexTopo_wf n) (simplexTopo_closed n)
    (show 1 ≤ n by omega) hsrc ⟨rfl, rfl⟩ (fun t ht => (simplex_edge hn hI.mesh ht).1) hk.labels mark
    mid hord hall
  have hcd : (simplexTopo n).cellDim = n := rfl
  rw [hcd] at k1 f1 z1
  obtain ⟨hs, hc1, hc2⟩ := i1.cells
  rw [hcd] at hc1
  simp only [z1, List.map_nil, List.nil_append] at hc1
  have hcount : r.out.mesh.count n = r.kids.length := by
    simp only [Mesh.count, if_neg (show n ≠ 0 by omega)]
    rw [hc2.length_eq, ← hc1, List.length_map]
  have hlook : ∀ t < src.mesh.count n, ∀ v ∈ src.mesh.vertsOf n t, r.look src.mesh v = some ((r.look src.mesh v).getD 0) := by
    intro t ht v hv
    obtain ⟨s, hs⟩ := ((f1 t ht).1 v hv).2
    rw [hs]; rfl
  have hev : ∀ e < src.mesh.count 1, mark e = true → ev e = some ((ev e).getD 0) := by
    intro e he hm
    obtain ⟨s, hs⟩ := ev2 e he hm
    rw [hs]; rfl
  refine ⟨r, C, fun t => r.recs (simplexTopo n) src.mesh ev t, fun v => (r.look src.mesh v).getD 0, fun e => (ev e).getD 0, e1,
    ⟨i1.reached, i1.gen, hcount, k1, ?_, ?_, ?_, ?_, fun t ht => (f1 t ht).2.1, ?_, fun t ht => (f1 t ht).2.2⟩, ?_, ?_⟩
  · intro i t ls hi
    have ht : t < src.mesh.count n := by
      have := List.mem_of_getElem? hi
      rw [k1] at this
      obtain ⟨u, hu, hm⟩ := List.mem_flatMap.1 this
      obtain ⟨_, _, he⟩ := List.mem_map.1 hm
      simp only [Prod.mk.injEq] at he
      rw [← he.1]; exact List.mem_range.1 hu
    obtain ⟨h, hh1, hh2⟩ := forall₂_getElem? hc2 hi
    have hov : r.out.mesh.vertsOf n i = h := by
      unfold Mesh.vertsOf
      rw [hc1, List.getD_eq_getElem?_getD, hh1]; rfl
    obtain ⟨_, hvl, _⟩ := simplex_verts (by omega) hI.mesh ht
    rw [hov]
    have key : ∀ l s, r.nameOf (simplexTopo n) src.mesh ev t l = some s →
        s = labelVertex n src.mesh (fun v => (r.look src.mesh v).getD 0) (fun e => (ev e).getD 0) t l := by
      intro l s hls
      unfold RefSt.nameOf at hls
      rw [hcd, hvl] at hls
      unfold labelVertex
      split at hls
      · rename_i hl
        rw [if_pos hl, List.getD_eq_getElem?_getD]
        obtain ⟨v, h1, h2⟩ := Option.bind_eq_some_iff.1 hls
        rw [h1, Option.getD_some]; beta_reduce; rw [h2]; rfl
      · rename_i hl
        rw [if_neg hl, List.getD_eq_getElem?_getD]
        obtain ⟨v, h1, h2⟩ := Option.bind_eq_some_iff.1 hls
        rw [h1, Option.getD_some]; beta_reduce; rw [h2]; rfl
    have all : ∀ (ls h : List Nat), ls.map (r.nameOf (simplexTopo n) src.mesh ev t) = h.map some →
        h = ls.map (labelVertex n src.mesh (fun v => (r.look src.mesh v).getD 0) (fun e => (ev e).getD 0) t) := by
      intro ls
      induction ls with
      | nil => intro h hh; cases h with
        | nil => rfl
        | cons a h => simp at hh
      | cons l ls ih => intro h hh; cases h with
        | nil => simp at hh
        | cons a h =>
          simp only [List.map_cons, List.cons.injEq] at hh ⊢
          exact ⟨key l a hh.1, ih h hh.2⟩
    exact all ls h hh2
  · intro t ht v hv t' ht' v' hv' h
    beta_reduce at h
    have h1 := hlook t ht v hv
    have h2 := hlook t' ht' v' hv'
    rw [h] at h1
    exact i1.look_inj hu ((f1 t ht).1 v hv).1 ((f1 t' ht').1 v' hv').1 h1 h2
  · intro e he f hf hme hmf h
    beta_reduce at h
    have h1 := hev e he hme
    have h2 := hev f hf hmf
    rw [h] at h1
    exact ev4 e f _ h1 h2
  · intro t ht v hv e he hm h
    have h1 := i1.look_spec hu ((f1 t ht).1 v hv).1 (hlook t ht v hv)
    have h2 := ev3 e _ (hev e he hm)
    rw [h] at h1
    exact absurd h2 (Nat.not_lt.2 h1.1)
  · intro t ht a ha
    obtain ⟨_, hvl, _⟩ := simplex_verts (by omega) hI.mesh ht
    have hal : a < (src.mesh.vertsOf n t).length := by omega
    have h1 := hlook t ht _ (List.getElem_mem hal)
    have h2 := i1.look_spec hu ((f1 t ht).1 _ (List.getElem_mem hal)).1 h1
    rw [List.getD_eq_getElem _ _ hal]
    generalize (r.look src.mesh (src.mesh.vertsOf n t)[a]).getD 0 = s at h1 h2
    refine ⟨r.out.mesh.verts[s]'h2.2.1, ?_, List.getElem?_eq_getElem h2.2.1⟩
    · unfold RefSt.recs
      rw [hcd, List.getElem?_append_left (by simpa using hal), List.getElem?_map, List.getElem?_eq_getElem hal, Option.map_some]
      rw [h1, Option.bind_some, List.getElem?_eq_getElem h2.2.1]
  · intro t ht v hv
    exact (i1.look_spec hu ((f1 t ht).1 v hv).1 (hlook t ht v hv)).2.2
  · intro e he hm
    exact (ev1 e _ (hev e he hm)).2.2

/-- The name of a label of a simplex whose vertices have the names `id`. -/
def simplexName (n : Nat) (id : Nat → Int) (l : Nat) : Int × Int :=
  if l < n + 1 then ptName (id l) (id l)
  else match (edgeIdx (n + 1))[l - (n + 1)]? with
    | some [a, b] => ptName (id a) (id b)
    | _ => (0, 0)

theorem simplexName_tet (id : Nat → Int) {l : Nat} (hl : l < 10) : simplexName 3 id l = labelName id l := by
  have he : edgeIdx (3 + 1) = [[0, 1], [0, 2], [0, 3], [1, 2], [1, 3], [2, 3]] := by decide
  unfold simplexName
  rw [he]
  interval_cases l <;> rfl

theorem ptName_eq_iff {a b c d : Int} : ptName a b = ptName c d ↔ (a = c ∧ b = d) ∨ (a = d ∧ b = c) := by
  unfold ptName
  rw [Prod.mk.injEq]
  omega

theorem perm_pair_iff {a b c d : Nat} : [a, b].Perm [c, d] ↔ (a = c ∧ b = d) ∨ (a = d ∧ b = c) := by
  constructor
  · intro h
    have h1 : a ∈ [c, d] := h.mem_iff.1 (by simp)
    simp only [List.mem_cons, List.not_mem_nil, or_false] at h1
    rcases h1 with rfl | rfl
    · have := (List.perm_cons _).1 h
      simp only [List.perm_singleton, List.cons.injEq, and_true] at this
      exact Or.inl ⟨rfl, this⟩
    · have := (List.perm_cons _).1 (h.trans (List.Perm.swap _ _ _))
      simp only [List.perm_singleton, List.cons.injEq, and_true] at this
      exact Or.inr ⟨rfl, this⟩
  · rintro (⟨rfl, rfl⟩ | ⟨rfl, rfl⟩)
    · exact List.Perm.refl _
    · exact List.Perm.swap _ _ _

section
variable {n : Nat} {src : SegState P} {kids : List (Option (Vtx P)) → (Nat → Bool) → Option (List (List Nat))}
  {mark : Nat → Bool} {r : RefSt P} {C : Nat → List (List Nat)} {R : Nat → List (Option (Vtx P))} {w ev : Nat → Nat}

/-- A label which may be used in a child of the cell `t`. -/
def UsedLabel (n : Nat) (m : Mesh P) (mark : Nat → Bool) (t l : Nat) : Prop :=
  l < n + 1 ∨ (n + 1 ≤ l ∧ l < n + 1 + (edgeIdx (n + 1)).length ∧ mark ((m.bndOf n t 1).getD (l - (n + 1)) 0) = true)

/-- The handles of the vertices of a cell in the refined mesh. -/
def outId (n : Nat) (m : Mesh P) (w : Nat → Nat) (t a : Nat) : Int := ((w ((m.vertsOf n t).getD a 0) : Nat) : Int)

theorem getD_mem {l : List Nat} {a : Nat} (ha : a < l.length) : l.getD a 0 ∈ l := by
  rw [List.getD_eq_getElem _ _ ha]; exact List.getElem_mem ha

theorem Refined.outId_inj (h : Refined n src kids mark r C R w ev) (hI : Inv (simplexTopo n) src.mesh) (hn : 2 ≤ n)
    {t t' a a' : Nat} (ht : t < src.mesh.count n) (ht' : t' < src.mesh.count n) (ha : a < n + 1) (ha' : a' < n + 1) :
    outId n src.mesh w t a = outId n src.mesh w t' a' ↔ (src.mesh.vertsOf n t).getD a 0 = (src.mesh.vertsOf n t').getD a' 0 := by
  obtain ⟨_, hl, _⟩ := simplex_verts (by omega) hI ht
  obtain ⟨_, hl', _⟩ := simplex_verts (by omega) hI ht'
  constructor
  · intro e
    unfold outId at e
    exact h.winj t ht _ (getD_mem (by omega)) t' ht' _ (getD_mem (by omega)) (by exact_mod_cast e)
  · intro e; unfold outId; rw [e]

/-- Two labels, of one cell or of two, give the same vertex iff they have the same name. -/
theorem Refined.label_iff (h : Refined n src kids mark r C R w ev) (hI : Inv (simplexTopo n) src.mesh) (hn : 2 ≤ n)
    {t t' l l' : Nat} (ht : t < src.mesh.count n) (ht' : t' < src.mesh.count n) (hl : UsedLabel n src.mesh mark t l)
    (hl' : UsedLabel n src.mesh mark t' l') :
    labelVertex n src.mesh w ev t l = labelVertex n src.mesh w ev t' l' ↔
      simplexName n (outId n src.mesh w t) l = simplexName n (outId n src.mesh w t') l' := by
  have edge : ∀ {t l : Nat}, t < src.mesh.count n → n + 1 ≤ l → l < n + 1 + (edgeIdx (n + 1)).length → ∃ a b f,
      a < b ∧ b < n + 1 ∧ (edgeIdx (n + 1))[l - (n + 1)]? = some [a, b] ∧
      (src.mesh.elems 1)[(src.mesh.bndOf n t 1).getD (l - (n + 1)) 0]? = some f ∧
      f.verts.Perm [(src.mesh.vertsOf n t).getD a 0, (src.mesh.vertsOf n t).getD b 0] ∧
      (src.mesh.bndOf n t 1).getD (l - (n + 1)) 0 < src.mesh.count 1 := by
    intro t l ht h1 h2
    have hlen := (simplex_edge hn hI ht).1
    have hp : l - (n + 1) < (src.mesh.bndOf n t 1).length := by omega
    obtain ⟨a, b, f, e1, e2, e3, e4, e5⟩ := (simplex_edge hn hI ht).2 (l - (n + 1)) _ (List.getElem?_eq_getElem hp)
    rw [List.getD_eq_getElem _ _ hp]
    refine ⟨a, b, f, e2, e3, e1, e4, e5, ?_⟩
    simpa [Mesh.count] using (List.getElem?_eq_some_iff.1 e4).1
  have hv := simplex_verts (by omega) hI ht
  have hv' := simplex_verts (by omega) hI ht'
  rcases hl with hl | ⟨h1, h2, hm⟩ <;> rcases hl' with hl' | ⟨h1', h2', hm'⟩
  · unfold labelVertex simplexName
    rw [if_pos hl, if_pos hl', if_pos hl, if_pos hl', ptName_eq_iff]
    have := h.outId_inj hI hn ht ht' hl hl'
    simp only [and_self, or_self]
    rw [this]
    constructor
    · exact h.winj t ht _ (getD_mem (by omega)) t' ht' _ (getD_mem (by omega))
    · intro e; rw [e]
  · obtain ⟨a, b, f, hab, hb, e1, e2, e3, e4⟩ := edge ht' h1' h2'
    unfold labelVertex simplexName
    rw [if_pos hl, if_neg (by omega), if_pos hl, if_neg (by omega), e1]
    refine iff_of_false (h.sep t ht _ (getD_mem (by omega)) _ e4 hm') ?_
    simp only [ptName_eq_iff]
    intro hc
    have : outId n src.mesh w t' a = outId n src.mesh w t' b := by omega
    rw [h.outId_inj hI hn ht' ht' (by omega) hb, List.getD_eq_getElem _ _ (by omega), List.getD_eq_getElem _ _ (by omega)] at this
    have := (hv'.1.getElem_inj_iff).1 this
    omega
  · obtain ⟨a, b, f, hab, hb, e1, e2, e3, e4⟩ := edge ht h1 h2
    unfold labelVertex simplexName
    rw [if_neg (by omega), if_pos hl', if_neg (by omega), if_pos hl', e1]
    refine iff_of_false (fun e => h.sep t' ht' _ (getD_mem (by omega)) _ e4 hm e.symm) ?_
    simp only [ptName_eq_iff]
    intro hc
    have : outId n src.mesh w t a = outId n src.mesh w t b := by omega
    rw [h.outId_inj hI hn ht ht (by omega) hb, List.getD_eq_getElem _ _ (by omega), List.getD_eq_getElem _ _ (by omega)] at this
    have := (hv.1.getElem_inj_iff).1 this
    omega
  · obtain ⟨a, b, f, hab, hb, e1, e2, e3, e4⟩ := edge ht h1 h2
    obtain ⟨a', b', f', hab', hb', e1', e2', e3', e4'⟩ := edge ht' h1' h2'
    unfold labelVertex simplexName
    rw [if_neg (by omega), if_neg (by omega), if_neg (by omega), if_neg (by omega), e1, e1']
    simp only [ptName_eq_iff]
    rw [h.outId_inj hI hn ht ht' (by omega) (by omega), h.outId_inj hI hn ht ht' (by omega) (by omega),
      h.outId_inj hI hn ht ht' (by omega) (by omega), h.outId_inj hI hn ht ht' (by omega) (by omega), ← perm_pair_iff]
    constructor
    · intro e
      have := h.einj _ e4 _ e4' hm hm' e
      rw [this, e2'] at e2
      rw [Option.some.inj e2] at e3'
      exact e3.symm.trans e3'
    · intro hp
      rw [hI.slot_unique (d := 1) (by show (1 : Nat) ≠ n; omega) e2 e2' (e3.trans (hp.trans e3'.symm))]

theorem Refined.vid (h : Refined n src kids mark r C R w ev) {s : Nat} {x : Vtx P} (hs : r.out.mesh.verts[s]? = some x) : x.id = s := by
  have h1 := congrArg (fun l => l[s]?) h.gen.1
  simp only [List.getElem?_map, hs, Option.map_some] at h1
  have hlt := (List.getElem?_eq_some_iff.1 hs).1
  rw [List.getElem?_range hlt, Option.map_some] at h1
  exact Option.some.inj h1

theorem filter_flatMap_length {α β : Type} (l : List α) (g : α → List β) (p : β → Bool) :
    ((l.flatMap g).filter p).length = (l.map (fun a => ((g a).filter p).length)).sum := by
  induction l with
  | nil => rfl
  | cons a l ih => simp [ih]

theorem filter_range_getElem {α : Type} (l : List α) (q : Nat → Bool) (p : α → Bool) (h : ∀ i x, l[i]? = some x → q i = p x) :
    ((List.range l.length).filter q).length = (l.filter p).length := by
  induction l using List.reverseRecOn with
  | nil => rfl
  | append_singleton l x ih =>
    rw [List.length_append, List.length_singleton, List.range_succ, List.filter_append, List.filter_append, List.length_append,
      List.length_append, ih (fun i y hi => h i y (by rw [List.getElem?_append_left (List.getElem?_eq_some_iff.1 hi).1]; exact hi))]
    congr 1
    rw [List.filter_cons, List.filter_cons, h l.length x (by simp)]
    cases p x <;> rfl

/-- The number of cells of a mesh with all of the vertices. -/
def cellsWith (m : Mesh P) (n : Nat) (g : List Nat) : Nat :=
  ((List.range (m.count n)).filter (fun i => decide (g ⊆ m.vertsOf n i))).length

theorem Refined.count_with (h : Refined n src kids mark r C R w ev) (g : List Nat) :
    cellsWith r.out.mesh n g = ((List.range (src.mesh.count n)).map (fun t =>
      ((C t).filter (fun c => decide (g ⊆ c.map (labelVertex n src.mesh w ev t)))).length)).sum := by
  unfold cellsWith
  rw [h.count, filter_range_getElem r.kids _ (fun k => decide (g ⊆ k.2.map (labelVertex n src.mesh w ev k.1)))
    (fun i k hi => by rw [h.verts i k.1 k.2 hi]), h.kids_eq, filter_flatMap_length]
  congr 1
  refine List.map_congr_left (fun t _ => ?_)
  rw [List.filter_map, List.length_map]
  rfl

end

end VG
