import Verif.Model.MeshCopy
import Verif.Lemmas.Queries

/-! Helper lemmas for copies of a mesh. -/

namespace VG

variable {P : Type}

theorem mapO_some {α β : Type} {f : α → Option β} {g : α → β} : ∀ {l : List α},
    (∀ a ∈ l, f a = some (g a)) → mapO f l = some (l.map g)
  | [], _ => rfl
  | a :: l, h => by
    simp only [mapO, h a (by simp), Option.bind_some,
      mapO_some (l := l) (g := g) (fun b hb => h b (by simp [hb])), Option.map_some, List.map_cons]

theorem findIdx?_of_inj {α : Type} {l : List α} {f : α → Int} {s : Nat} {a : α}
    (hs : l[s]? = some a)
    (hinj : ∀ (i : Nat) (b : α), l[i]? = some b → f b = f a → i = s) :
    l.findIdx? (fun b => f b == f a) = some s := by
  rw [List.findIdx?_eq_some_iff_getElem]
  obtain ⟨h1, h2⟩ := List.getElem?_eq_some_iff.1 hs
  refine ⟨h1, by simp [h2], fun j hj => ?_⟩
  have hjl : j < l.length := by omega
  have := hinj j l[j] (List.getElem?_eq_getElem hjl)
  intro hc
  have := this (by simpa using hc)
  omega

/-- In a mesh with distinct ids, fixing a valid reference gives the same position in the copy. -/
theorem fixRef_eq {T : Topo} {m : Mesh P} (hI : Inv T m) (hu : UniqueVids m) {o o' c k s : Nat}
    (hs : s < m.count k) :
    fixRef (m.tag o) { m.tag o with counter := c } o' k (o, s) = some (o', s) := by
  unfold fixRef HMesh.idAt HMesh.find
  by_cases hk : k = 0
  · subst hk
    simp only [if_true, Mesh.tag]
    unfold Mesh.count at hs
    rw [if_pos rfl] at hs
    rw [List.getElem?_eq_getElem hs]
    simp only [Option.map_some, Option.bind_some]
    rw [findIdx?_of_inj (f := fun v : Vtx P => v.id) (List.getElem?_eq_getElem hs)]
    · rfl
    · intro i b hb he
      obtain ⟨h1, h2⟩ := List.getElem?_eq_some_iff.1 hb
      refine vid_inj hu h1 hs ?_
      unfold Mesh.vid
      rw [List.getD_eq_getElem _ _ (by simpa using h1), List.getD_eq_getElem _ _ (by simpa using hs)]
      simp [h2, he]
  · simp only [if_neg hk, Mesh.tag]
    unfold Mesh.count at hs
    rw [if_neg hk] at hs
    rw [List.getElem?_map, List.getElem?_eq_getElem hs]
    simp only [Option.map_some, Option.bind_some]
    rw [findIdx?_of_inj (f := fun e : HElem => (e.id : Int)) (s := s)
      (a := ((m.elems k)[s]).tag o) (by rw [List.getElem?_map, List.getElem?_eq_getElem hs]; rfl)]
    · rfl
    · intro i b hb he
      rw [List.getElem?_map] at hb
      cases hi : (m.elems k)[i]? with
      | none => rw [hi] at hb; cases hb
      | some e =>
        rw [hi] at hb
        cases hb
        obtain ⟨h1, h2⟩ := List.getElem?_eq_some_iff.1 hi
        simp only [Elem.tag, Int.natCast_inj] at he
        refine (List.Nodup.getElem_inj_iff (hI.ids k) (hi := by simpa using h1) (hj := by simpa using hs)).1 ?_
        simp [h2, he]

theorem fixElem_eq {T : Topo} {m : Mesh P} (hI : Inv T m) (hu : UniqueVids m) {o o' c d : Nat}
    {e : Elem} (he : e ∈ m.elems d) (hz : ∀ b ∈ e.bnd, b.1 ≠ 0) :
    fixElem (m.tag o) { m.tag o with counter := c } o' (e.tag o) = some (e.tag o') := by
  unfold fixElem
  have h1 : mapO (fixRef (m.tag o) { m.tag o with counter := c } o' 0) (e.tag o).verts =
      some ((e.tag o).verts.map (fun r => (o', r.2))) := by
    refine mapO_some fun r hr => ?_
    obtain ⟨s, hs, rfl⟩ := List.mem_map.1 hr
    refine fixRef_eq hI hu ?_
    unfold Mesh.count; rw [if_pos rfl]
    exact (hI.verts d e he).2.2 s hs
  rw [h1, Option.bind_some]
  rw [mapO_some (g := fun b => (b.1, b.2.map (fun r => ((o', r.1.2), r.2))))]
  · simp [Elem.tag, Function.comp_def]
  · intro b hb
    obtain ⟨b0, hb0, rfl⟩ := List.mem_map.1 hb
    rw [mapO_some (g := fun r : HRef × List Nat => (((o', r.1.2) : HRef), r.2))]
    · rfl
    · intro r hr
      obtain ⟨r0, hr0, rfl⟩ := List.mem_map.1 hr
      simp only
      rw [fixRef_eq hI hu]
      · rfl
      · unfold Mesh.count
        rw [if_neg (hz b0 hb0)]
        have hbnd := hI.bnd d e he
        obtain ⟨i, hi⟩ := List.getElem?_of_mem hb0
        obtain ⟨l, hl, hl1, hl2⟩ := forall₂_getElem?' hbnd hi
        obtain ⟨j, hj⟩ := List.getElem?_of_mem hr0
        obtain ⟨ix, _, f, hf, _⟩ := forall₂_getElem?' hl2 hj
        rw [← hl1]
        exact (List.getElem?_eq_some_iff.1 hf).1

/-- Layers start at dimension one. -/
theorem Inv.bnd_ne_zero {T : Topo} (hT : T.WF) {m : Mesh P} (hI : Inv T m) {d : Nat} {e : Elem}
    (he : e ∈ m.elems d) : ∀ b ∈ e.bnd, b.1 ≠ 0 := by
  intro b hb
  obtain ⟨i, hi⟩ := List.getElem?_of_mem hb
  obtain ⟨l, hl, hl1, _⟩ := forall₂_getElem?' (hI.bnd d e he) hi
  have := hT.dim d _ l.1 l.2 (List.mem_of_getElem? hl)
  omega

theorem copy_eq {T : Topo} (hT : T.WF) {m : Mesh P} (hI : Inv T m) (hu : UniqueVids m)
    {dims : List Nat} (hd : ∀ d, d ∉ dims → m.elems d = []) (o o' : Nat) :
    (m.tag o).copy dims o' = some (Mesh.tag o' { m with counter := m.counter + 1 }) := by
  have key : ∀ d, mapO (fixElem (m.tag o) { m.tag o with counter := m.counter + 1 } o')
      ((m.elems d).map (Elem.tag o)) = some ((m.elems d).map (Elem.tag o')) := by
    intro d
    rw [mapO_some (g := fun e => ⟨e.id, e.verts.map (fun r => (o', r.2)),
      e.bnd.map (fun b => (b.1, b.2.map (fun r => ((o', r.1.2), r.2))))⟩)]
    · simp only [List.map_map]
      congr 1
      refine List.map_congr_left fun e _ => ?_
      simp [Elem.tag, Function.comp_def]
    · intro x hx
      obtain ⟨e, he, rfl⟩ := List.mem_map.1 hx
      rw [fixElem_eq hI hu he (hI.bnd_ne_zero hT he)]
      simp [Elem.tag, Function.comp_def]
  unfold HMesh.copy fixHandles
  rw [if_pos]
  · congr 1
    simp only [Mesh.tag, HMesh.mk.injEq, true_and, and_true]
    funext d
    split
    · have := key d
      simp only [Mesh.tag] at this
      rw [this]; rfl
    · rename_i h
      rw [hd d h]; rfl
  · rw [List.all_eq_true]
    intro d _
    have := key d
    simp only [Mesh.tag] at this ⊢
    rw [this]; rfl

end VG
