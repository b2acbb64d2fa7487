import Verif.Lemmas.RefineMesh
import Verif.Props.Topology
import Verif.Props.Queries
import Mathlib.Algebra.Order.Field.Basic
import Mathlib.Tactic.Ring

/-!
What the cells of a refined mesh of simplices are.
-/

namespace VG

variable {P : Type}

/-- The edges of a stored simplex. -/
theorem simplex_edge {n : Nat} (hn : 2 ≤ n) {m : Mesh P} (hI : Inv (simplexTopo n) m) {t : Nat} (ht : t < m.count n) :
    (m.bndOf n t 1).length = (edgeIdx (n + 1)).length ∧
    ∀ (p e : Nat), (m.bndOf n t 1)[p]? = some e → ∃ (a b : Nat) (f : Elem), (edgeIdx (n + 1))[p]? = some [a, b] ∧ a < b ∧ b < n + 1 ∧
      (m.elems 1)[e]? = some f ∧
      f.verts.Perm [(m.vertsOf n t).getD a 0, (m.vertsOf n t).getD b 0] := by
  have ht' : t < (m.elems n).length := by simpa [Mesh.count, show n ≠ 0 by omega] using ht
  have hl : (1, edgeIdx (n + 1)) ∈ (simplexTopo n).layers n (m.elems n)[t].verts.length := by simp [simplexTopo, hn]
  obtain ⟨refs, h1, h2⟩ := (hI.bnd n _ (List.getElem_mem ht')).lookup ((simplexTopo_wf n).once n _) hl
  have hb : m.bndOf n t 1 = refs.map (·.1) := by
    unfold Mesh.bndOf
    rw [List.getElem?_eq_getElem ht']
    simp only [one_ne_zero, if_false]
    unfold Elem.bndSlots; rw [h1]
  have hv : m.vertsOf n t = (m.elems n)[t].verts := by
    unfold Mesh.vertsOf
    rw [List.getD_eq_getElem _ _ (by simpa using ht')]; simp
  refine ⟨by rw [hb, List.length_map, h2.length_eq], fun p e he => ?_⟩
  have hp : p < (edgeIdx (n + 1)).length := by
    rw [hb] at he
    have := (List.getElem?_eq_some_iff.1 he).1
    rw [List.length_map] at this
    rw [h2.length_eq]; exact this
  obtain ⟨r, hr, f, h3, h4, _⟩ := forall₂_getElem? h2 (List.getElem?_eq_getElem hp)
  obtain ⟨i, j, hij, hj, hix⟩ := mem_edgeIdx.1 (List.getElem_mem hp)
  rw [hb, List.getElem?_map, hr] at he
  simp only [Option.map_some, Option.some.injEq] at he
  subst he
  refine ⟨i, j, f, by rw [List.getElem?_eq_getElem hp, hix], hij, hj, h3, ?_⟩
  rw [hix] at h4
  rw [hv]
  exact h4

/-- All of `refine` for simplices, with any new points for the edges: the children in the order of the parents, each with the points given by
its labels (`lab`) and in the segments of its parent. -/
theorem refine_parts_gen {n : Nat} (hn : 2 ≤ n) {src : SegState P} (hsrc : SegReached (simplexTopo n) src)
    {kids : List (Option (Vtx P)) → (Nat → Bool) → Option (List (List Nat))}
    {Q : List (Option (Vtx P)) → (Nat → Bool) → List (List Nat) → Prop}
    (hk : KidsOK Q (n + 1) (edgeIdx (n + 1)).length kids)
    (mark : Nat → Bool) (mid : Nat → P) {order : List Nat} (hord : order.Nodup) (hall : ∀ e < src.mesh.count 1, e ∈ order)
    {lab : Nat → Nat → P}
    (hlab : ∀ t < src.mesh.count n, ∀ a < n + 1, src.mesh.ptOf ((src.mesh.vertsOf n t).getD a 0) = some (lab t a))
    (hmid : ∀ t < src.mesh.count n, ∀ p e, (src.mesh.bndOf n t 1)[p]? = some e → mark e = true → mid e = lab t (n + 1 + p)) :
    ∃ (r : RefSt P) (C : Nat → List (List Nat)) (R : Nat → List (Option (Vtx P))),
      refineMesh (simplexTopo n) src kids mark mid order = some r ∧
      SegReached (simplexTopo n) r.out ∧ VidsCont r.out.mesh ∧
      r.out.mesh.count n = r.kids.length ∧
      r.kids = (List.range (src.mesh.count n)).flatMap (fun t => (C t).map (fun ls => (t, ls))) ∧
      (∀ i t ls, r.kids[i]? = some (t, ls) → t < src.mesh.count n ∧
        (r.out.mesh.vertsOf n i).map r.out.mesh.ptOf = ls.map (fun l => some (lab t l)) ∧
        ∀ g, g ∈ r.out.segmentIds n i ↔ g ∈ src.segmentIds n t) ∧
      ∀ t < src.mesh.count n, Q (R t) (fun i => mark ((src.mesh.bndOf n t 1).getD i 0)) (C t) := by
  have hI := hsrc.inv (simplexTopo_wf n) (simplexTopo_closed n)
  have hu : UniqueVids src.mesh := hsrc.choose_spec.2.2
  obtain ⟨r, C, ev, e1, i1, k1, ev1, _, f1, z1, _⟩ := refineMesh_spec (simplexTopo_wf n) (simplexTopo_closed n) (show 1 ≤ n by omega) hsrc
    ⟨rfl, rfl⟩ (fun t ht => (simplex_edge hn hI.mesh ht).1) hk mark mid hord hall
  have hcd : (simplexTopo n).cellDim = n := rfl
  rw [hcd] at k1 f1 z1
  obtain ⟨hs, hc1, hc2⟩ := i1.cells
  rw [hcd] at hc1
  simp only [z1, List.map_nil, List.nil_append] at hc1
  have hI' := i1.reached.inv (simplexTopo_wf n) (simplexTopo_closed n)
  have hcount : r.out.mesh.count n = r.kids.length := by
    simp only [Mesh.count, if_neg (show n ≠ 0 by omega)]
    rw [hc2.length_eq, ← hc1, List.length_map]
  refine ⟨r, C, fun t => r.recs (simplexTopo n) src.mesh ev t, e1, i1.reached, i1.gen, hcount, k1, ?_, fun t ht => (f1 t ht).2.2⟩
  intro i t ls hi
  have ht : t < src.mesh.count n := by
    have := List.mem_of_getElem? hi
    rw [k1] at this
    obtain ⟨u, hu, hm⟩ := List.mem_flatMap.1 this
    obtain ⟨_, _, he⟩ := List.mem_map.1 hm
    simp only [Prod.mk.injEq] at he
    rw [← he.1]; exact List.mem_range.1 hu
  have hilt := (List.getElem?_eq_some_iff.1 hi).1
  obtain ⟨h, hh1, hh2⟩ := forall₂_getElem? hc2 hi
  have ht' : t < (src.mesh.elems n).length := by simpa [Mesh.count, show n ≠ 0 by omega] using ht
  have hvo : src.mesh.vertsOf n t = (src.mesh.elems n)[t].verts := by
    unfold Mesh.vertsOf
    rw [List.getD_eq_getElem _ _ (by simpa using ht')]; simp
  obtain ⟨_, hvl, hvv⟩ := hI.mesh.verts n _ (List.getElem_mem ht')
  rw [← hvo] at hvl hvv
  have hvl : (src.mesh.vertsOf n t).length = n + 1 := hvl.fixed
  refine ⟨ht, ?_, fun g => ?_⟩
  · have hov : r.out.mesh.vertsOf n i = h := by
      unfold Mesh.vertsOf
      rw [hc1, List.getD_eq_getElem?_getD, hh1]; rfl
    rw [hov]
    have key : ∀ l s, r.nameOf (simplexTopo n) src.mesh ev t l = some s →
        r.out.mesh.ptOf s = some (lab t l) := by
      intro l s hls
      unfold RefSt.nameOf at hls
      rw [hcd] at hls
      split at hls
      · rename_i hl
        rw [List.getElem?_eq_getElem hl] at hls
        simp only [Option.bind_some] at hls
        have hv := hvv _ (List.getElem_mem hl)
        rw [(i1.look_spec hu hv hls).2.2]
        have := hlab t ht l (by omega)
        rw [List.getD_eq_getElem _ _ hl] at this
        rw [this]
      · rename_i hl
        obtain ⟨e, h1, h2⟩ := Option.bind_eq_some_iff.1 hls
        rw [(ev1 e s h2).2.2, hmid t ht _ e h1 (ev1 e s h2).1]
        rw [show n + 1 + (l - (src.mesh.vertsOf n t).length) = l by omega]
    have all : ∀ (ls h : List Nat), ls.map (r.nameOf (simplexTopo n) src.mesh ev t) = h.map some →
        h.map r.out.mesh.ptOf = ls.map (fun l => some (lab t l)) := by
      intro ls
      induction ls with
      | nil => intro h hh; cases h with
        | nil => rfl
        | cons a h => simp at hh
      | cons l ls ih => intro h hh; cases h with
        | nil => simp at hh
        | cons a h =>
          simp only [List.map_cons, List.cons.injEq] at hh ⊢
          exact ⟨key l a hh.1, ih h hh.2⟩
    exact all ls h hh2
  · have hicount : i < r.out.mesh.count n := by rw [hcount]; exact hilt
    have hcl : ∀ x ∈ r.out.added g, Closure r.out.mesh x.1 x.2 n i ↔ x = (n, i) := by
      intro x hx
      rcases (i1.added g x).1 hx with hx' | ⟨j, k, _, _, rfl⟩
      · simp at hx'
      · simp only [hcd, z1, List.length_nil, Nat.zero_add]
        unfold Closure
        constructor
        · rintro (h | h)
          · rw [Prod.mk.injEq]; exact ⟨rfl, h.2.symm⟩
          · exfalso
            rw [mem_bndOf_iff (simplexTopo_wf n) hI'.mesh (Nat.le_refl n)] at h
            unfold OnBoundary at h
            rw [if_neg (by omega)] at h
            obtain ⟨_, _, idxs, _, _, _, hl, _⟩ := h
            have := (simplexTopo_wf n).dim n _ n idxs hl
            omega
        · intro h
          rw [Prod.mk.injEq] at h
          exact Or.inl ⟨rfl, h.2.symm⟩
    have hseg : g ∈ r.out.segmentIds n i ↔ (n, i) ∈ r.out.added g := by
      unfold SegState.segmentIds
      rw [hI'.segs]
      constructor
      · rintro ⟨t', ht', he⟩
        have := eid_inj hI'.mesh i1.gen.unique hicount (hI'.view_lt ht') he
        subst this
        obtain ⟨x, hx, hc⟩ := (hI'.view g n i).1 ht'
        rw [(hcl x hx).1 hc] at hx; exact hx
      · intro hx
        exact ⟨i, (hI'.view g n i).2 ⟨_, hx, Or.inl ⟨rfl, rfl⟩⟩, rfl⟩
    rw [hseg, i1.added]
    simp only [List.not_mem_nil, false_or, hcd, z1, List.length_nil, Nat.zero_add, Prod.mk.injEq, true_and]
    constructor
    · rintro ⟨j, k, hj, hg, rfl⟩
      rw [hi] at hj
      simp only [Option.some.injEq] at hj
      subst hj; exact hg
    · intro hg
      exact ⟨i, (t, ls), hi, hg, rfl⟩

section
variable {K : Type} [Field K]

/-- The point of the vertex `a` of a cell. -/
def Mesh.corner (m : Mesh (Nat → K)) (n t a : Nat) : Nat → K := (m.ptOf ((m.vertsOf n t).getD a 0)).getD (fun _ => 0)

/-- The point of a label: a vertex, or the midpoint of an edge. -/
def midLabel (n : Nat) (p : Nat → Nat → K) (l : Nat) : Nat → K :=
  if l < n + 1 then p l
  else match (edgeIdx (n + 1))[l - (n + 1)]? with
    | some [a, b] => fun k => (p a k + p b k) / 2
    | _ => fun _ => 0

theorem corner_spec {n : Nat} {m : Mesh (Nat → K)} {t a : Nat} (hv : ∀ v ∈ m.vertsOf n t, v < m.verts.length)
    (ha : a < (m.vertsOf n t).length) : m.ptOf ((m.vertsOf n t).getD a 0) = some (m.corner n t a) := by
  have h1 : (m.vertsOf n t).getD a 0 < m.verts.length := by
    rw [List.getD_eq_getElem _ _ ha]; exact hv _ (List.getElem_mem ha)
  unfold Mesh.corner Mesh.ptOf
  rw [List.getElem?_eq_getElem h1]; rfl

theorem edgeMid_spec {n : Nat} (hn : 2 ≤ n) {m : Mesh (Nat → K)} (hI : Inv (simplexTopo n) m) {t : Nat} (ht : t < m.count n)
    {p e : Nat} (he : (m.bndOf n t 1)[p]? = some e) : edgeMid m e = midLabel n (m.corner n t) (n + 1 + p) := by
  obtain ⟨a, b, f, h1, hab, hb, h2, h3⟩ := (simplex_edge hn hI ht).2 p e he
  have ht' : t < (m.elems n).length := by simpa [Mesh.count, show n ≠ 0 by omega] using ht
  have hvo : m.vertsOf n t = (m.elems n)[t].verts := by
    unfold Mesh.vertsOf
    rw [List.getD_eq_getElem _ _ (by simpa using ht')]; simp
  obtain ⟨_, hvl, hvv⟩ := hI.verts n _ (List.getElem_mem ht')
  rw [← hvo] at hvl hvv
  have hvl : (m.vertsOf n t).length = n + 1 := hvl.fixed
  have e1 : m.vertsOf 1 e = f.verts := by
    obtain ⟨q, rfl⟩ := List.getElem?_eq_some_iff.1 h2
    unfold Mesh.vertsOf
    rw [List.getD_eq_getElem _ _ (by simpa using q)]; simp
  have pa := corner_spec hvv (a := a) (by omega)
  have pb := corner_spec hvv (a := b) (by omega)
  have hm : midLabel n (m.corner n t) (n + 1 + p) = fun k => (m.corner n t a k + m.corner n t b k) / 2 := by
    unfold midLabel
    rw [if_neg (by omega), show n + 1 + p - (n + 1) = p by omega, h1]
  rw [hm]
  unfold edgeMid
  rw [e1]
  have hf : f.verts = [(m.vertsOf n t).getD a 0, (m.vertsOf n t).getD b 0] ∨
      f.verts = [(m.vertsOf n t).getD b 0, (m.vertsOf n t).getD a 0] := by
    have := h3.length_eq
    match hfv : f.verts, this with
    | [x, y], _ =>
      rw [hfv] at h3
      have hx : x ∈ [(m.vertsOf n t).getD a 0, (m.vertsOf n t).getD b 0] := h3.mem_iff.1 (by simp)
      simp only [List.mem_cons, List.not_mem_nil, or_false] at hx
      rcases hx with rfl | rfl
      · have := (List.perm_cons _).1 h3
        simp only [List.perm_singleton, List.cons.injEq, and_true] at this
        left; rw [this]
      · have h4 := h3.trans (List.Perm.swap _ _ _)
        have := (List.perm_cons _).1 h4
        simp only [List.perm_singleton, List.cons.injEq, and_true] at this
        right; rw [this]
  rcases hf with hf | hf
  · rw [hf]; simp only [List.map_cons, List.map_nil, pa, pb]
  · rw [hf]; simp only [List.map_cons, List.map_nil, pa, pb]
    funext k; rw [add_comm]

/-- All of `refine` for simplices: the children in the order of the parents, each with the points given by
its labels and in the segments of its parent. -/
theorem refine_parts {n : Nat} (hn : 2 ≤ n) {src : SegState (Nat → K)} (hsrc : SegReached (simplexTopo n) src)
    {kids : List (Option (Vtx (Nat → K))) → (Nat → Bool) → Option (List (List Nat))}
    {Q : List (Option (Vtx (Nat → K))) → (Nat → Bool) → List (List Nat) → Prop}
    (hk : KidsOK Q (n + 1) (edgeIdx (n + 1)).length kids)
    (mark : Nat → Bool) {order : List Nat} (hord : order.Nodup) (hall : ∀ e < src.mesh.count 1, e ∈ order) :
    ∃ (r : RefSt (Nat → K)) (C : Nat → List (List Nat)) (R : Nat → List (Option (Vtx (Nat → K)))),
      refineMesh (simplexTopo n) src kids mark (edgeMid src.mesh) order = some r ∧
      SegReached (simplexTopo n) r.out ∧ VidsCont r.out.mesh ∧
      r.out.mesh.count n = r.kids.length ∧
      r.kids = (List.range (src.mesh.count n)).flatMap (fun t => (C t).map (fun ls => (t, ls))) ∧
      (∀ i t ls, r.kids[i]? = some (t, ls) → t < src.mesh.count n ∧
        (r.out.mesh.vertsOf n i).map r.out.mesh.ptOf = ls.map (fun l => some (midLabel n (src.mesh.corner n t) l)) ∧
        ∀ g, g ∈ r.out.segmentIds n i ↔ g ∈ src.segmentIds n t) ∧
      ∀ t < src.mesh.count n, Q (R t) (fun i => mark ((src.mesh.bndOf n t 1).getD i 0)) (C t) := by
  have hI := hsrc.inv (simplexTopo_wf n) (simplexTopo_closed n)
  refine refine_parts_gen hn hsrc hk mark (edgeMid src.mesh) hord hall (lab := fun t => midLabel n (src.mesh.corner n t)) ?_
    (fun t ht p e he _ => edgeMid_spec hn hI.mesh ht he)
  intro t ht a ha
  have ht' : t < (src.mesh.elems n).length := by simpa [Mesh.count, show n ≠ 0 by omega] using ht
  have hvo : src.mesh.vertsOf n t = (src.mesh.elems n)[t].verts := by
    unfold Mesh.vertsOf
    rw [List.getD_eq_getElem _ _ (by simpa using ht')]; simp
  obtain ⟨_, hvl, hvv⟩ := hI.mesh.verts n _ (List.getElem_mem ht')
  rw [← hvo] at hvl hvv
  have hvl : (src.mesh.vertsOf n t).length = n + 1 := hvl.fixed
  rw [corner_spec hvv (by omega)]
  unfold midLabel; rw [if_pos ha]

end

end VG
