import Verif.Model.Uniform
import Verif.Lemmas.RefineMesh
import Verif.Props.Ranges

/-!
Numbers of vertices of refined meshes.
-/

namespace VG

variable {P : Type}

theorem markEdges_iff : ∀ (order : List Nat) (m : Nat → Bool) (e : Nat), markEdges m order e = true ↔ e ∈ order ∨ m e = true
  | [], m, e => by simp [markEdges]
  | x :: order, m, e => by
    have := markEdges_iff order (setMark m x) e
    unfold markEdges at this ⊢
    rw [List.foldl_cons, this]
    unfold setMark
    by_cases h : e = x
    · simp [h]
    · simp [h]

theorem refEdges_length (mark : Nat → Bool) (mid : Nat → P) : ∀ (order : List Nat) (s : Mesh P × (Nat → Option Nat)),
    (refEdges mark mid s order).1.verts.length = s.1.verts.length + (order.filter mark).length
  | [], s => rfl
  | e :: order, s => by
    simp only [refEdges]
    rw [refEdges_length mark mid order]
    by_cases h : mark e = true
    · simp [h, Mesh.makeVertex]; omega
    · simp [h]

/-- Each vertex made belongs to one vertex among `S` of the source. -/
structure VCnt (src : Mesh P) (S : Nat → Prop) (B : Nat) (c : RefSt P) : Prop where
  len : c.out.mesh.verts.length = B + c.map.length
  keys : ∀ e ∈ c.map, ∃ v, S v ∧ e.1 = src.vid v
  nodup : (c.map.map (·.1)).Nodup

theorem refVertex_cnt {src : Mesh P} {S : Nat → Prop} {B : Nat} {c : RefSt P} (h : VCnt src S B c) {v : Nat} (hv : S v) {q : RefSt P × Nat}
    (hq : refVertex src c v = some q) : VCnt src S B q.1 := by
  unfold refVertex at hq
  cases hf : c.map.find? (fun e => e.1 == src.vid v) with
  | some e =>
    rw [hf] at hq
    simp only [Option.some.injEq] at hq
    subst hq; exact h
  | none =>
    rw [hf] at hq
    obtain ⟨p, _, rfl⟩ := Option.map_eq_some_iff.1 hq
    refine ⟨?_, ?_, ?_⟩
    · simp only [Mesh.makeVertex, List.length_append, List.length_cons, List.length_nil, h.len]
      omega
    · intro e he
      rcases List.mem_cons.1 he with rfl | he
      · exact ⟨v, hv, rfl⟩
      · exact h.keys e he
    · simp only [List.map_cons]
      refine List.nodup_cons.2 ⟨fun hm => ?_, h.nodup⟩
      obtain ⟨e, he, e1⟩ := List.mem_map.1 hm
      have := List.find?_eq_none.1 hf e he
      rw [e1] at this; simp at this

theorem refVerts_cnt {src : Mesh P} {S : Nat → Prop} {B : Nat} : ∀ {vs : List Nat} {c : RefSt P} {q : RefSt P × List Nat}, VCnt src S B c →
    (∀ v ∈ vs, S v) → refVerts src c vs = some q → VCnt src S B q.1
  | [], c, q, h, _, hq => by
    simp only [refVerts, Option.some.injEq] at hq
    subst hq; exact h
  | v :: vs, c, q, h, hv, hq => by
    simp only [refVerts] at hq
    obtain ⟨q1, h1, h2⟩ := Option.bind_eq_some_iff.1 hq
    obtain ⟨q2, h3, rfl⟩ := Option.map_eq_some_iff.1 h2
    have h4 := refVerts_cnt (refVertex_cnt h (hv v (by simp)) h1) (fun w hw => hv w (List.mem_cons_of_mem _ hw)) h3
    exact h4

theorem adds_mesh {T : Topo} : ∀ (gs : List Nat) {d s : Nat} {st st' : SegState P}, st.run T (gs.map (fun g => .add g d s)) = some st' → st'.mesh = st.mesh
  | [], d, s, st, st', h => by
    simp only [List.map_nil, SegState.run, Option.some.injEq] at h
    rw [h]
  | g :: gs, d, s, st, st', h => by
    simp only [List.map_cons, SegState.run] at h
    obtain ⟨st1, h1, h2⟩ := Option.bind_eq_some_iff.1 h
    rw [adds_mesh gs h2]
    simp only [SegState.step] at h1
    split at h1
    · simp only [Option.some.injEq] at h1
      rw [← h1]
      unfold SegState.addElem
      simp only
      rw [(addAll_mesh g _ st).1]
    · cases h1

theorem refChild_cnt {T : Topo} {src : Mesh P} {S : Nat → Prop} {B : Nat} {gs : List Nat} {t : Nat} {vs : List Nat} {es : List (Option Nat)}
    {c c' : RefSt P} {ls : List Nat} (h : VCnt src S B c) (hc : refChild T gs t vs es c ls = some c')
    (hv : ∀ (m m' : Mesh P) d hs, m.step T (.elem d hs) = some m' → m'.verts = m.verts) : VCnt src S B c' := by
  unfold refChild at hc
  obtain ⟨hs, _, h2⟩ := Option.bind_eq_some_iff.1 hc
  obtain ⟨o, h3, rfl⟩ := Option.map_eq_some_iff.1 h2
  obtain ⟨o1, h4, h5⟩ := Option.bind_eq_some_iff.1 h3
  simp only [SegState.step] at h4
  obtain ⟨m', h6, rfl⟩ := Option.map_eq_some_iff.1 h4
  have := adds_mesh gs h5
  refine ⟨?_, h.keys, h.nodup⟩
  simp only [this]
  rw [hv _ _ _ _ h6]
  exact h.len

theorem refChildren_cnt {T : Topo} {src : Mesh P} {S : Nat → Prop} {B : Nat} {gs : List Nat} {t : Nat} {vs : List Nat} {es : List (Option Nat)}
    (hv : ∀ (m m' : Mesh P) d hs, m.step T (.elem d hs) = some m' → m'.verts = m.verts) : ∀ {cells : List (List Nat)} {c c' : RefSt P},
    VCnt src S B c → refChildren T gs t vs es c cells = some c' → VCnt src S B c'
  | [], c, c', h, hc => by
    simp only [refChildren, Option.some.injEq] at hc
    subst hc; exact h
  | ls :: cells, c, c', h, hc => by
    simp only [refChildren] at hc
    obtain ⟨c1, h1, h2⟩ := Option.bind_eq_some_iff.1 hc
    exact refChildren_cnt hv (refChild_cnt h h1 hv) h2

theorem simpleRefine_cnt {T : Topo} {src : SegState P} {S : Nat → Prop} {B : Nat}
    {kids : List (Option (Vtx P)) → (Nat → Bool) → Option (List (List Nat))} {mark : Nat → Bool} {ev : Nat → Option Nat}
    (hv : ∀ (m m' : Mesh P) d hs, m.step T (.elem d hs) = some m' → m'.verts = m.verts) : ∀ {ts : List Nat} {c c' : RefSt P},
    VCnt src.mesh S B c → (∀ t ∈ ts, ∀ v ∈ src.mesh.vertsOf T.cellDim t, S v) →
    simpleRefine T src kids mark ev c ts = some c' → VCnt src.mesh S B c'
  | [], c, c', h, _, hc => by
    simp only [simpleRefine, Option.some.injEq] at hc
    subst hc; exact h
  | t :: ts, c, c', h, hS, hc => by
    simp only [simpleRefine] at hc
    obtain ⟨c1, h1, h2⟩ := Option.bind_eq_some_iff.1 hc
    refine simpleRefine_cnt hv ?_ (fun u hu => hS u (by simp [hu])) h2
    unfold refCell at h1
    obtain ⟨q, h3, h4⟩ := Option.bind_eq_some_iff.1 h1
    obtain ⟨cells, _, h5⟩ := Option.bind_eq_some_iff.1 h4
    exact refChildren_cnt hv (refVerts_cnt h (hS t (by simp)) h3) h5

end VG
