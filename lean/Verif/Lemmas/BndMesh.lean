import Verif.Lemmas.Bnd

/-! The mesh made from the polygons of a .bnd file. -/

namespace VG

variable {C : Type}

theorem find_zipIdx {α : Type} [BEq α] [LawfulBEq α] {l : List α} (a : α) :
    (∀ x, l.zipIdx.find? (fun x => x.1 == a) = some x → x.1 = a ∧ l[x.2]? = some a) ∧
    (l.zipIdx.find? (fun x => x.1 == a) = none ↔ a ∉ l) := by
  constructor
  · intro x hx
    have h1 := List.find?_some hx
    have h2 := List.mem_of_find?_eq_some hx
    have h3 : x.1 = a := by simpa using h1
    obtain ⟨b, k⟩ := x
    rw [List.mem_zipIdx_iff_getElem?] at h2
    exact ⟨h3, by rw [h2]; exact congrArg some h3⟩
  · rw [List.find?_eq_none]
    constructor
    · intro h ha
      obtain ⟨k, hk⟩ := List.mem_iff_getElem?.1 ha
      exact h (a, k) (List.mem_zipIdx_iff_getElem?.2 hk) (by simp)
    · rintro h ⟨b, k⟩ hx hb
      rw [List.mem_zipIdx_iff_getElem?] at hx
      have : b = a := by simpa using hb
      exact h (this ▸ List.mem_of_getElem? hx)

theorem zipIdx_snoc {α : Type} (l : List α) (a : α) : (l ++ [a]).zipIdx = l.zipIdx ++ [(a, l.length)] := by
  rw [List.zipIdx_append]
  simp

/-- The vertices made for the points with the given indices. -/
structure BVerts (points : List (List C)) (idxs : List Int) (S : BndSt C) : Prop where
  reached : SegReached (simplexTopo 2) S.st
  gen : S.st.mesh.vgen = idxs.length
  nodup : idxs.Nodup
  known : S.verts = idxs.zipIdx
  length : S.st.mesh.verts.length = idxs.length
  verts : ∀ (k : Nat) (i : Int), idxs[k]? = some i → ∃ p, 0 ≤ i ∧ points[i.toNat]? = some p ∧ S.st.mesh.verts[k]? = some ⟨k, p⟩

theorem BVerts.ids {points : List (List C)} {idxs : List Int} {S : BndSt C} (h : BVerts points idxs S) :
    S.st.mesh.verts.map (·.id) = (List.range idxs.length).map (fun k : Nat => (k : Int)) := by
  apply List.ext_getElem?
  intro k
  rw [List.getElem?_map, List.getElem?_map]
  by_cases hk : k < idxs.length
  · obtain ⟨p, -, -, h1⟩ := h.verts k _ (List.getElem?_eq_getElem hk)
    rw [h1, List.getElem?_range hk]
    rfl
  · rw [List.getElem?_eq_none (by rw [h.length]; omega), List.getElem?_eq_none (by simpa using hk)]
    rfl

theorem unique_of_ids {m : Mesh (List C)} {n : Nat}
    (h : m.verts.map (·.id) = (List.range n).map (fun k : Nat => (k : Int))) : UniqueVids m := by
  unfold UniqueVids
  rw [h]
  exact List.nodup_range.map fun a b h => by simpa using h

theorem bndVertices_spec {points : List (List C)} : ∀ {is : List Int}, (∀ i ∈ is, 0 ≤ i ∧ i.toNat < points.length) →
    ∀ {idxs : List Int} {S : BndSt C}, BVerts points idxs S →
    ∃ S' vs new, bndVertices points is S = some (S', vs) ∧ BVerts points (idxs ++ new) S' ∧
      vs.map (fun v => (idxs ++ new)[v]?) = is.map some ∧ (∀ v ∈ vs, v < (idxs ++ new).length) ∧
      (∀ i, i ∈ idxs ++ new ↔ i ∈ idxs ∨ i ∈ is) ∧ S'.cells = S.cells ∧ S'.st.added = S.st.added ∧
      S'.st.mesh.elems = S.st.mesh.elems
  | [], _, idxs, S, h => ⟨S, [], [], rfl, by simpa using h, by simp, by simp, by simp, rfl, rfl, rfl⟩
  | i :: is, hi, idxs, S, h => by
    have hf := find_zipIdx (l := idxs) i
    obtain ⟨hi0, hip⟩ := hi i (by simp)
    cases hx : S.verts.find? (fun x => x.1 == i) with
    | some x =>
      rw [h.known] at hx
      obtain ⟨h1, h2⟩ := hf.1 x hx
      obtain ⟨S', vs, new, h3, h4, h5, h6, h7, h8⟩ := bndVertices_spec (is := is) (fun j hj => hi j (by simp [hj])) h
      have hlt := (List.getElem?_eq_some_iff.1 h2).1
      refine ⟨S', x.2 :: vs, new, ?_, h4, ?_, ?_, ?_, h8⟩
      · rw [bndVertices, h.known, hx]
        simp only
        rw [h3]
        rfl
      · rw [List.map_cons, List.map_cons, h5, List.getElem?_append_left hlt, h2]
      · intro v hv
        rcases List.mem_cons.1 hv with rfl | hv
        · rw [List.length_append]; omega
        · exact h6 v hv
      · intro j
        rw [h7]
        constructor
        · rintro (h | h)
          · exact Or.inl h
          · exact Or.inr (by simp [h])
        · rintro (h | h)
          · exact Or.inl h
          · rcases List.mem_cons.1 h with rfl | h
            · exact Or.inl (List.mem_of_getElem? h2)
            · exact Or.inr h
    | none =>
      have hnot : i ∉ idxs := by
        rw [h.known] at hx
        exact hf.2.1 hx
      have hp : points[i.toNat]? = some points[i.toNat] := List.getElem?_eq_getElem hip
      let S1 : BndSt C := ⟨{ S.st with mesh := S.st.mesh.makeVertex none points[i.toNat] },
        S.verts ++ [(i, S.st.mesh.verts.length)], S.cells⟩
      have hverts : ∀ (k : Nat) (j : Int), (idxs ++ [i])[k]? = some j → ∃ p, 0 ≤ j ∧ points[j.toNat]? = some p ∧
          S1.st.mesh.verts[k]? = some ⟨k, p⟩ := by
        intro k j hk
        show ∃ p, 0 ≤ j ∧ points[j.toNat]? = some p ∧
          (S.st.mesh.verts ++ [⟨S.st.mesh.vgen, points[i.toNat]⟩])[k]? = some ⟨k, p⟩
        by_cases hlt : k < idxs.length
        · rw [List.getElem?_append_left hlt] at hk
          obtain ⟨p, h1, h2, h3⟩ := h.verts k j hk
          exact ⟨p, h1, h2, by rw [List.getElem?_append_left (by rw [h.length]; exact hlt)]; exact h3⟩
        · have hk' := (List.getElem?_eq_some_iff.1 hk).1
          rw [List.length_append, List.length_singleton] at hk'
          obtain rfl : k = idxs.length := by omega
          rw [List.getElem?_concat_length] at hk
          obtain rfl := Option.some.inj hk
          refine ⟨_, hi0, hp, ?_⟩
          rw [← h.length, List.getElem?_concat_length, h.gen, h.length]
      have hlen : S1.st.mesh.verts.length = (idxs ++ [i]).length := by
        show (S.st.mesh.verts ++ [_]).length = _
        simp [h.length]
      have h1 : BVerts points (idxs ++ [i]) S1 := by
        have hids : S1.st.mesh.verts.map (·.id) = (List.range (idxs ++ [i]).length).map (fun k : Nat => (k : Int)) := by
          apply List.ext_getElem?
          intro k
          rw [List.getElem?_map, List.getElem?_map]
          by_cases hk : k < (idxs ++ [i]).length
          · obtain ⟨p, -, -, h1⟩ := hverts k _ (List.getElem?_eq_getElem hk)
            rw [h1, List.getElem?_range hk]
            rfl
          · rw [List.getElem?_eq_none (by rw [hlen]; omega), List.getElem?_eq_none (by simpa using hk)]
            rfl
        refine ⟨?_, ?_, ?_, ?_, hlen, hverts⟩
        · refine h.reached.step (op := .mesh (.vertex none points[i.toNat])) (fun o ho => ?_) rfl (unique_of_ids hids)
          simp only [SOp.creation, Option.some.injEq] at ho; subst ho; trivial
        · show S.st.mesh.vgen + 1 = _
          rw [h.gen]; simp
        · rw [List.nodup_append]
          exact ⟨h.nodup, by simp, fun a ha b hb => by
            rw [List.mem_singleton] at hb; subst hb; exact fun he => hnot (he ▸ ha)⟩
        · show S.verts ++ [_] = _
          rw [zipIdx_snoc, h.known, h.length]
      obtain ⟨S', vs, new, h3, h4, h5, h6, h7, h8, h9, h10⟩ := bndVertices_spec (is := is) (fun j hj => hi j (by simp [hj])) h1
      rw [List.append_assoc] at h4 h5 h6 h7
      refine ⟨S', S.st.mesh.verts.length :: vs, [i] ++ new, ?_, h4, ?_, ?_, ?_, h8, h9, h10⟩
      · rw [bndVertices, hx]
        simp only
        rw [if_pos hi0, hp]
        simp only
        show (bndVertices points is S1).map _ = _
        rw [h3]
        rfl
      · rw [List.map_cons, List.map_cons, h5, h.length]
        congr 1
        rw [List.getElem?_append_right (Nat.le_refl _), Nat.sub_self]
        rfl
      · intro v hv
        rcases List.mem_cons.1 hv with rfl | hv
        · rw [h.length]; simp
        · exact h6 v hv
      · intro j
        rw [h7, List.mem_append, List.mem_singleton, List.mem_cons, or_assoc]

/-- What has been made after some polygons. -/
structure BInv (points : List (List C)) (done : List (Nat × List Int)) (idxs : List Int) (polys : List (List Int))
    (S : BndSt C) : Prop where
  verts : BVerts points idxs S
  nodup : polys.Nodup
  known : S.cells = polys.zipIdx
  count : (S.st.mesh.elems 2).length = polys.length
  cells : ∀ (t : Nat) p, polys[t]? = some p → ∃ e, (S.st.mesh.elems 2)[t]? = some e ∧
    e.verts.map (fun v => idxs[v]?) = p.map some
  made : ∀ p, p ∈ polys ↔ ∃ g, (g, p) ∈ done
  used : ∀ i, i ∈ idxs ↔ ∃ p ∈ polys, i ∈ p
  added : ∀ g x, x ∈ S.st.added g ↔ ∃ t p, polys[t]? = some p ∧ (g, p) ∈ done ∧ x = (2, t)

theorem sort_perm (l : List Int) : (l.insertionSort (· ≤ ·)).Perm l := List.perm_insertionSort _ _

theorem nodup_of_indices {idxs : List Int} {vs : List Nat} {is : List Int} (hn : is.Nodup)
    (h : vs.map (fun v => idxs[v]?) = is.map some) : vs.Nodup := by
  have : (vs.map (fun v => idxs[v]?)).Nodup := by
    rw [h]
    exact hn.map (Option.some_injective _)
  exact this.of_map

theorem addElem_fields (T : Topo) (st : SegState (List C)) (g d t : Nat) : (st.addElem T g d t).mesh = st.mesh ∧
    ∀ g', (st.addElem T g d t).added g' = if g' = g then st.added g ++ [(d, t)] else st.added g' := by
  unfold SegState.addElem
  refine ⟨(addAll_mesh _ _ _).1, fun g' => ?_⟩
  simp only [(addAll_mesh _ _ _).2]

theorem bndPolygon_spec {points : List (List C)} {done : List (Nat × List Int)} {idxs : List Int}
    {polys : List (List Int)} {S : BndSt C} (h : BInv points done idxs polys S) {g : Nat} {p : List Int}
    (hp : p.Nodup) (hlen : p.length = 3) (hpt : ∀ i ∈ p, 0 ≤ i ∧ i.toNat < points.length) :
    ∃ S' idxs' polys', bndPolygon points g p S = .ok S' ∧
      BInv points (done ++ [(g, p.insertionSort (· ≤ ·))]) idxs' polys' S' := by
  generalize hq : p.insertionSort (· ≤ ·) = q
  have hperm : q.Perm p := hq ▸ sort_perm p
  have hqn : q.Nodup := hperm.nodup_iff.2 hp
  have hql : q.length = 3 := hperm.length_eq.trans hlen
  have hqp : ∀ i ∈ q, 0 ≤ i ∧ i.toNat < points.length := fun i hi => hpt i (hperm.mem_iff.1 hi)
  have hf := find_zipIdx (l := polys) q
  have hdone : ∀ r, (∃ g', (g', r) ∈ done ++ [(g, q)]) ↔ (∃ g', (g', r) ∈ done) ∨ r = q := by
    intro r
    constructor
    · rintro ⟨g', hg⟩
      rcases List.mem_append.1 hg with hg | hg
      · exact Or.inl ⟨g', hg⟩
      · rw [List.mem_singleton] at hg
        exact Or.inr (congrArg Prod.snd hg)
    · rintro (⟨g', hg⟩ | rfl)
      · exact ⟨g', List.mem_append_left _ hg⟩
      · exact ⟨g, by simp⟩
  unfold bndPolygon
  simp only [hq]
  rw [if_neg (by omega), h.known]
  cases hx : polys.zipIdx.find? (fun x => x.1 == q) with
  | some x =>
    obtain ⟨h1, h2⟩ := hf.1 x hx
    simp only
    obtain ⟨hm, hadd⟩ := addElem_fields (simplexTopo 2) S.st g 2 x.2
    refine ⟨_, idxs, polys, rfl, ⟨⟨?_, ?_, h.verts.nodup, h.verts.known, ?_, ?_⟩, h.nodup, rfl, ?_, ?_, ?_,
      h.used, ?_⟩⟩
    · refine h.verts.reached.step (op := .add g 2 x.2) (fun o ho => by simp [SOp.creation] at ho) ?_ ?_
      · have hlt : x.2 < (S.st.mesh.elems 2).length := by
          rw [h.count]
          exact (List.getElem?_eq_some_iff.1 h2).1
        simp [SegState.step, Mesh.count, hlt, simplexTopo]
      · unfold UniqueVids
        simp only [hm]
        exact unique_of_ids h.verts.ids
    · simp only [hm]; exact h.verts.gen
    · simp only [hm]; exact h.verts.length
    · simp only [hm]; exact h.verts.verts
    · simp only [hm]; exact h.count
    · simp only [hm]; exact h.cells
    · intro r
      rw [hdone, h.made]
      constructor
      · exact Or.inl
      · rintro (h | rfl)
        · exact h
        · exact (h.made _).1 (List.mem_of_getElem? h2)
    · intro g' y
      simp only [hadd]
      constructor
      · intro hy
        split at hy
        · rename_i hg
          subst hg
          rcases List.mem_append.1 hy with hy | hy
          · obtain ⟨t, r, h3, h4, h5⟩ := (h.added _ y).1 hy
            exact ⟨t, r, h3, List.mem_append_left _ h4, h5⟩
          · rw [List.mem_singleton] at hy
            exact ⟨x.2, q, h2, by simp, hy⟩
        · obtain ⟨t, r, h3, h4, h5⟩ := (h.added _ y).1 hy
          exact ⟨t, r, h3, List.mem_append_left _ h4, h5⟩
      · rintro ⟨t, r, h3, h4, h5⟩
        rcases List.mem_append.1 h4 with h4 | h4
        · have := (h.added g' y).2 ⟨t, r, h3, h4, h5⟩
          split
          · rename_i hg
            subst hg
            exact List.mem_append_left _ this
          · exact this
        · rw [List.mem_singleton, Prod.mk.injEq] at h4
          obtain ⟨rfl, rfl⟩ := h4
          rw [if_pos rfl, h5]
          have ht : t = x.2 := by
            have h6 := (List.getElem?_eq_some_iff.1 h3)
            have h7 := (List.getElem?_eq_some_iff.1 h2)
            exact (List.Nodup.getElem_inj_iff h.nodup).1 (h6.2.trans h7.2.symm)
          simp [ht]
  | none =>
    have hnot : q ∉ polys := hf.2.1 hx
    simp only
    obtain ⟨S1, vs, new, h1, h2, h3, h4, h5, h6, h7, h8⟩ := bndVertices_spec hqp h.verts
    rw [h1]
    simp only
    have hT := simplexTopo_wf 2
    have hC := simplexTopo_closed 2
    have hI := h2.reached.inv hT hC
    have hu : UniqueVids S1.st.mesh := unique_of_ids h2.ids
    have hvn : vs.Nodup := nodup_of_indices hqn h3
    have hvl : vs.length = (simplexTopo 2).nv 2 := by
      have := congrArg List.length h3
      rw [List.length_map, List.length_map, hql] at this
      exact this
    have hlt' : ∀ v ∈ vs, v < S1.st.mesh.verts.length := by rw [h2.length]; exact h4
    have hs' := makeElem_spec hT hI.mesh hu (by decide) (d := 2) ⟨hvn, Or.inl hvl, hlt'⟩
    have hms : S1.st.mesh.step (simplexTopo 2) (.elem 2 vs) = some (S1.st.mesh.makeElem (simplexTopo 2) 2 vs).mesh := by
      simp only [Mesh.step]
      rw [if_pos ⟨by decide, by decide, Or.inl hvl, hlt'⟩]
    have hnew : (S1.st.mesh.makeElem (simplexTopo 2) 2 vs).new = true := hs'.isnew.2 (Or.inl rfl)
    obtain ⟨hslot, e, he1, he2⟩ := hs'.appended hnew
    have hcount : (S1.st.mesh.elems 2).length = polys.length := by rw [h8]; exact h.count
    unfold SegState.makeIn
    rw [hms]
    simp only [Option.map_some, Mesh.created, hslot, hcount]
    generalize hst : ({ S1.st with
        mesh := (S1.st.mesh.makeElem (simplexTopo 2) 2 vs).mesh
        view := fun g' => if g' = g then List.foldl View.ins (S1.st.view g)
            (List.drop S1.st.mesh.log.length (S1.st.mesh.makeElem (simplexTopo 2) 2 vs).mesh.log)
          else S1.st.view g' } : SegState (List C)) = st1
    have hst1 : st1.mesh = (S1.st.mesh.makeElem (simplexTopo 2) 2 vs).mesh := by rw [← hst]
    have hst2 : st1.added = S1.st.added := by rw [← hst]
    obtain ⟨hm, hadd⟩ := addElem_fields (simplexTopo 2) st1 g 2 polys.length
    have hmv : (st1.addElem (simplexTopo 2) g 2 polys.length).mesh.verts = S1.st.mesh.verts := by
      rw [hm, hst1, hs'.ext.verts]
    have hme : (st1.addElem (simplexTopo 2) g 2 polys.length).mesh.elems 2 = S1.st.mesh.elems 2 ++ [e] := by
      rw [hm, hst1, he2]
    refine ⟨_, idxs ++ new, polys ++ [q], rfl, ⟨⟨?_, ?_, h2.nodup, h2.known, ?_, ?_⟩, ?_, ?_, ?_, ?_, ?_, ?_, ?_⟩⟩
    · refine h2.reached.step (op := .make g (.elem 2 vs)) (fun o ho => ?_) ?_ ?_
      · simp only [SOp.creation, Option.some.injEq] at ho; subst ho; exact hvn
      · simp only [SegState.step, SegState.makeIn, hms, Option.map_some, Mesh.created, hslot, hcount, hst]
      · unfold UniqueVids
        simp only [hmv]
        exact hu
    · simp only [hm, hst1]
      rw [hs'.ext.vgen]
      exact h2.gen
    · simp only [hmv]; exact h2.length
    · simp only [hmv]; exact h2.verts
    · rw [List.nodup_append]
      exact ⟨h.nodup, by simp, fun a ha b hb => by
        rw [List.mem_singleton] at hb; subst hb; exact fun he => hnot (he ▸ ha)⟩
    · simp only [h6, h.known]
      rw [zipIdx_snoc]
    · simp only [hme, List.length_append, hcount, List.length_singleton]
    · intro t r hr
      simp only [hme]
      by_cases ht : t < polys.length
      · rw [List.getElem?_append_left ht] at hr
        obtain ⟨e', h9, h10⟩ := h.cells t r hr
        refine ⟨e', ?_, ?_⟩
        · rw [List.getElem?_append_left (by rw [hcount]; exact ht), h8]
          exact h9
        · rw [← h10]
          apply List.map_congr_left
          intro v hv
          have hv' : idxs[v]? ∈ e'.verts.map (fun v => idxs[v]?) := List.mem_map_of_mem hv
          rw [h10] at hv'
          obtain ⟨i, -, hi⟩ := List.mem_map.1 hv'
          rw [List.getElem?_append_left (List.getElem?_eq_some_iff.1 hi.symm).1]
      · have ht' := (List.getElem?_eq_some_iff.1 hr).1
        rw [List.length_append, List.length_singleton] at ht'
        obtain rfl : t = polys.length := by omega
        rw [List.getElem?_concat_length] at hr
        obtain rfl := Option.some.inj hr
        refine ⟨e, ?_, ?_⟩
        · rw [← hcount, List.getElem?_concat_length]
        · rw [he1]; exact h3
    · intro r
      rw [hdone, List.mem_append, List.mem_singleton, h.made]
    · intro i
      rw [h5, h.used]
      constructor
      · rintro (⟨r, hr, hi⟩ | hi)
        · exact ⟨r, List.mem_append_left _ hr, hi⟩
        · exact ⟨q, by simp, hi⟩
      · rintro ⟨r, hr, hi⟩
        rcases List.mem_append.1 hr with hr | hr
        · exact Or.inl ⟨r, hr, hi⟩
        · rw [List.mem_singleton] at hr
          exact Or.inr (hr ▸ hi)
    · intro g' y
      simp only [hadd, hst2, h7]
      constructor
      · intro hy
        have hold : y ∈ S.st.added g' → ∃ t r, (polys ++ [q])[t]? = some r ∧ (g', r) ∈ done ++ [(g, q)] ∧ y = (2, t) := by
          intro hy
          obtain ⟨t, r, h9, h10, h11⟩ := (h.added _ y).1 hy
          exact ⟨t, r, by rw [List.getElem?_append_left (List.getElem?_eq_some_iff.1 h9).1]; exact h9,
            List.mem_append_left _ h10, h11⟩
        split at hy
        · rename_i hg
          subst hg
          rcases List.mem_append.1 hy with hy | hy
          · exact hold hy
          · rw [List.mem_singleton] at hy
            exact ⟨polys.length, q, List.getElem?_concat_length, by simp, hy⟩
        · exact hold hy
      · rintro ⟨t, r, h9, h10, h11⟩
        by_cases ht : t < polys.length
        · rw [List.getElem?_append_left ht] at h9
          have hrq : r ≠ q := fun hrq => hnot (hrq ▸ List.mem_of_getElem? h9)
          have h10' : (g', r) ∈ done := by
            rcases List.mem_append.1 h10 with h10 | h10
            · exact h10
            · rw [List.mem_singleton] at h10
              exact absurd (congrArg Prod.snd h10) hrq
          have := (h.added g' y).2 ⟨t, r, h9, h10', h11⟩
          split
          · rename_i hg
            subst hg
            exact List.mem_append_left _ this
          · exact this
        · have ht' := (List.getElem?_eq_some_iff.1 h9).1
          rw [List.length_append, List.length_singleton] at ht'
          obtain rfl : t = polys.length := by omega
          rw [List.getElem?_concat_length] at h9
          obtain rfl := Option.some.inj h9
          have hgg : g' = g := by
            rcases List.mem_append.1 h10 with h10 | h10
            · exact absurd ((h.made _).2 ⟨g', h10⟩) hnot
            · rw [List.mem_singleton] at h10
              exact congrArg Prod.fst h10
          rw [if_pos hgg, h11]
          simp

/-- A polygon which becomes a triangle. -/
def GoodPolygon (points : List (List C)) (p : List Int) : Prop :=
  p.Nodup ∧ p.length = 3 ∧ ∀ i ∈ p, 0 ≤ i ∧ i.toNat < points.length

theorem bndSegment_spec {points : List (List C)} {g : Nat} : ∀ {ps : List (List Int)}, (∀ p ∈ ps, GoodPolygon points p) →
    ∀ {done : List (Nat × List Int)} {idxs : List Int} {polys : List (List Int)} {S : BndSt C},
    BInv points done idxs polys S → ∃ S' idxs' polys', bndSegment points g ps S = .ok S' ∧
      BInv points (done ++ ps.map fun p => (g, p.insertionSort (· ≤ ·))) idxs' polys' S'
  | [], _, done, idxs, polys, S, h => ⟨S, idxs, polys, rfl, by simpa using h⟩
  | p :: ps, hp, done, idxs, polys, S, h => by
    obtain ⟨h1, h2, h3⟩ := hp p (by simp)
    obtain ⟨S1, i1, p1, h4, h5⟩ := bndPolygon_spec h (g := g) h1 h2 h3
    obtain ⟨S', idxs', polys', h6, h7⟩ := bndSegment_spec (ps := ps) (fun q hq => hp q (by simp [hq])) h5
    refine ⟨S', idxs', polys', ?_, by simpa using h7⟩
    rw [bndSegment, h4]
    exact h6

/-- The polygons of all segments with the number of the segment. -/
def allPolygons (g : Nat) : List (List (List Int)) → List (Nat × List Int)
  | [] => []
  | d :: ds => (d.map fun p => (g, p.insertionSort (· ≤ ·))) ++ allPolygons (g + 1) ds

theorem bndSegments_spec {points : List (List C)} : ∀ {ds : List (List (List Int))},
    (∀ d ∈ ds, ∀ p ∈ d, GoodPolygon points p) → ∀ {g : Nat} {done : List (Nat × List Int)} {idxs : List Int}
    {polys : List (List Int)} {S : BndSt C},
    BInv points done idxs polys S → ∃ S' idxs' polys', bndSegments points g ds S = .ok S' ∧
      BInv points (done ++ allPolygons g ds) idxs' polys' S'
  | [], _, g, done, idxs, polys, S, h => ⟨S, idxs, polys, rfl, by simpa [allPolygons] using h⟩
  | d :: ds, hp, g, done, idxs, polys, S, h => by
    obtain ⟨S1, i1, p1, h4, h5⟩ := bndSegment_spec (g := g) (hp d (by simp)) h
    obtain ⟨S', idxs', polys', h6, h7⟩ := bndSegments_spec (ds := ds) (fun q hq => hp q (by simp [hq])) (g := g + 1) h5
    refine ⟨S', idxs', polys', ?_, by simpa [allPolygons] using h7⟩
    rw [bndSegments, h4]
    exact h6

theorem mem_allPolygons : ∀ {ds : List (List (List Int))} {g k : Nat} {q : List Int}, (k, q) ∈ allPolygons g ds ↔
    ∃ i d p, k = g + i ∧ ds[i]? = some d ∧ p ∈ d ∧ q = p.insertionSort (· ≤ ·)
  | [], g, k, q => by simp [allPolygons]
  | d :: ds, g, k, q => by
    rw [allPolygons, List.mem_append, mem_allPolygons]
    constructor
    · rintro (h | ⟨i, d', p, rfl, h1, h2, h3⟩)
      · obtain ⟨p, hp, hpq⟩ := List.mem_map.1 h
        rw [Prod.mk.injEq] at hpq
        exact ⟨0, d, p, by rw [← hpq.1]; rfl, rfl, hp, hpq.2.symm⟩
      · exact ⟨i + 1, d', p, by omega, by simpa using h1, h2, h3⟩
    · rintro ⟨i, d', p, rfl, h1, h2, h3⟩
      rcases i with _ | i
      · obtain rfl : d = d' := by simpa using h1
        exact Or.inl (List.mem_map.2 ⟨p, h2, by rw [h3]; rfl⟩)
      · exact Or.inr ⟨i, d', p, by omega, by simpa using h1, h2, h3⟩

theorem bInv_empty (points : List (List C)) : BInv points [] [] [] (⟨SegState.empty, [], []⟩ : BndSt C) := by
  refine ⟨⟨⟨[], by simp, rfl, by simp [UniqueVids, SegState.empty, Mesh.empty]⟩, rfl, by simp, rfl, rfl, by simp⟩,
    by simp, rfl, rfl, by simp, by simp, by simp, fun g x => by simp [SegState.empty]⟩

end VG
