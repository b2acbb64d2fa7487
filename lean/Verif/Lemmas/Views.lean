import Verif.Lemmas.Segments

/-!
Lemmas on chains of views.
-/

namespace VG

variable {P : Type}

/-! Every logged handle is valid -/

/-- All logged handles exist. -/
def LogValid (m : Mesh P) : Prop := ∀ x ∈ m.log, x.2 < m.count x.1

/-- The insertion keeps the log valid and only adds elements. -/
def LogKeep (m m' : Mesh P) : Prop := (LogValid m → LogValid m') ∧ m.verts = m'.verts ∧ ∀ d, m.elems d <+: m'.elems d

theorem LogKeep.refl (m : Mesh P) : LogKeep m m := ⟨id, rfl, fun _ => List.prefix_refl _⟩

theorem LogKeep.trans {a b c : Mesh P} (h1 : LogKeep a b) (h2 : LogKeep b c) : LogKeep a c :=
  ⟨fun h => h2.1 (h1.1 h), h1.2.1.trans h2.2.1, fun d => (h1.2.2 d).trans (h2.2.2 d)⟩

theorem count_le {m m' : Mesh P} (hv : m.verts = m'.verts) (he : ∀ d, m.elems d <+: m'.elems d) (k : Nat) :
    m.count k ≤ m'.count k := by
  unfold Mesh.count
  split
  · rw [hv]
  · exact (he k).length_le

theorem push_logKeep (m : Mesh P) (d : Nat) (hd : 1 ≤ d) (vs b) : LogKeep m (m.push d vs b) := by
  have he := push_ext m d vs b
  refine ⟨?_, he.verts.symm, he.elems⟩
  intro h x hx
  simp only [Mesh.push, List.mem_append, List.mem_singleton] at hx
  rcases hx with hx | rfl
  · exact Nat.lt_of_lt_of_le (h x hx) (count_le he.verts.symm he.elems _)
  · simp only [Mesh.count]
    rw [if_neg (by omega), push_elems_self]
    simp

theorem touch_logKeep (m : Mesh P) (d s : Nat) (hs : s < m.count d) : LogKeep m (m.touch d s) := by
  refine ⟨?_, rfl, fun _ => List.prefix_refl _⟩
  intro h x hx
  simp only [Mesh.touch, List.mem_append, List.mem_singleton] at hx
  rcases hx with hx | rfl
  · exact h x hx
  · exact hs

theorem genFaces_logKeep {ins : Nat → Mesh P → List Nat → InsRes P} {vs k}
    (h : ∀ m vs, LogKeep m (ins k m vs).mesh) :
    ∀ idxs m, LogKeep m (genFaces ins vs k idxs m).1
  | [], m => LogKeep.refl m
  | ix :: rest, m => (h m (pick vs ix)).trans (genFaces_logKeep h rest _)

theorem genLayers_logKeep {ins : Nat → Mesh P → List Nat → InsRes P} {vs} :
    ∀ (ls : List (Nat × List (List Nat))) (m : Mesh P),
    (∀ k idxs, (k, idxs) ∈ ls → ∀ m vs, LogKeep m (ins k m vs).mesh) → LogKeep m (genLayers ins vs ls m).1
  | [], m, _ => LogKeep.refl m
  | (k, idxs) :: rest, m, h =>
    (genFaces_logKeep (h k idxs (by simp)) idxs m).trans
      (genLayers_logKeep rest _ (fun k' i' hk => h k' i' (by simp [hk])))

theorem insertN_logKeep {T : Topo} (hT : T.WF) : ∀ f d (m : Mesh P) vs, 1 ≤ d →
    LogKeep m (insertN T f d m vs).mesh := by
  intro f
  have hfound : ∀ d (m : Mesh P) vs s, 1 ≤ d →
      (if d = T.cellDim then none else m.findSlot d vs) = some s → LogKeep m (m.touch d s) := by
    intro d m vs s hd hs
    refine touch_logKeep m d s ?_
    split at hs
    · cases hs
    · unfold Mesh.findSlot at hs
      obtain ⟨h1, _⟩ := List.findIdx?_eq_some_iff_getElem.1 hs
      unfold Mesh.count
      rw [if_neg (by omega)]
      exact h1
  induction f with
  | zero =>
    intro d m vs hd; unfold insertN; split
    · rename_i s hs; exact hfound d m vs s hd hs
    · exact push_logKeep m d hd vs _
  | succ f ih =>
    intro d m vs hd; unfold insertN; split
    · rename_i s hs; exact hfound d m vs s hd hs
    · simp only
      refine (genLayers_logKeep (ins := insertN T f) (vs := vs) (T.layers d vs.length) m ?_).trans (push_logKeep _ d hd vs _)
      intro k idxs hk m vs
      exact ih k m vs (hT.dim d _ k idxs hk).1

theorem step_logValid {T : Topo} (hT : T.WF) {m m' : Mesh P} {op : MOp P} (h : LogValid m)
    (hs : m.step T op = some m') : LogValid m' ∧ ∀ k, m.count k ≤ m'.count k := by
  cases op with
  | vertex id p =>
    simp [Mesh.step] at hs; subst hs
    have hc : ∀ k, m.count k ≤ (m.makeVertex id p).count k := by
      intro k; unfold Mesh.count Mesh.makeVertex; split <;> simp
    refine ⟨?_, hc⟩
    intro x hx
    simp only [Mesh.makeVertex, List.mem_append, List.mem_singleton] at hx
    rcases hx with hx | rfl
    · exact Nat.lt_of_lt_of_le (h x hx) (hc _)
    · simp [Mesh.count, Mesh.makeVertex]
  | elem d vs =>
    simp only [Mesh.step] at hs
    split at hs
    · rename_i hc
      simp only [Option.some.injEq] at hs
      subst hs
      have := insertN_logKeep hT d d m vs hc.1
      exact ⟨this.1 h, count_le this.2.1 this.2.2⟩
    · cases hs

/-! Chains -/

/-- `w` encloses `v`: it is `v` or encloses the view that `v` was made from. -/
inductive Encl (parent : List (Option Nat)) : Nat → Nat → Prop
  | self (v : Nat) : Encl parent v v
  | up {v p w : Nat} : parent[v]? = some (some p) → Encl parent p w → Encl parent v w

/-- Views are made from earlier views. -/
def ParentsOK (parent : List (Option Nat)) : Prop :=
  ∀ v p : Nat, parent[v]? = some (some p) → p < v

theorem mem_chain {st : VState P} (hp : ParentsOK st.parent) (w : Nat) : ∀ (f v : Nat), v ≤ f →
    (w ∈ st.chain f v ↔ Encl st.parent v w)
  | 0, v, hv => by
    have : v = 0 := by omega
    subst this
    simp only [VState.chain, List.mem_singleton]
    constructor
    · rintro rfl; exact .self _
    · intro h
      cases h with
      | self => rfl
      | up h1 _ => exact absurd (hp _ _ h1) (by omega)
  | f + 1, v, hv => by
    unfold VState.chain
    split
    · rename_i hn
      simp only [List.mem_singleton]
      constructor
      · rintro rfl; exact .self _
      · intro h
        cases h with
        | self => rfl
        | up h1 _ =>
          rw [List.getD_eq_getElem?_getD, h1] at hn
          cases hn
    · rename_i p hpar
      have hpv : st.parent[v]? = some (some p) := by
        rw [List.getD_eq_getElem?_getD] at hpar
        cases hx : st.parent[v]? with
        | none => rw [hx] at hpar; cases hpar
        | some y => rw [hx] at hpar; simpa using hpar
      have := hp _ _ hpv
      rw [List.mem_cons, mem_chain hp w f p (by omega)]
      constructor
      · rintro (rfl | h)
        · exact .self _
        · exact .up hpv h
      · intro h
        cases h with
        | self => exact Or.inl rfl
        | up h1 h2 =>
          rw [hpv] at h1
          simp only [Option.some.injEq] at h1
          subst h1
          exact Or.inr h2

theorem Encl.append {parent : List (Option Nat)} (hp : ParentsOK parent) (q : Option Nat) {v w : Nat}
    (hv : v < parent.length) : Encl (parent ++ [q]) v w ↔ Encl parent v w := by
  constructor
  · intro h
    induction h with
    | self v => exact .self v
    | up h1 _ ih =>
      rw [List.getElem?_append_left hv] at h1
      exact .up h1 (ih (by have := hp _ _ h1; omega))
  · intro h
    induction h with
    | self v => exact .self v
    | up h1 _ ih =>
      have := hp _ _ h1
      exact .up (by rw [List.getElem?_append_left hv]; exact h1) (ih (by omega))

theorem handleInsert_fold (x : Nat × Nat) (u k s : Nat) : ∀ (ws : List Nat) (c : Nat → View),
    (s ∈ (ws.foldl (fun c w => fun u => if u = w then (c w).ins x else c u) c) u k ↔
      s ∈ c u k ∨ (u ∈ ws ∧ (k, s) = x))
  | [], c => by simp
  | w :: ws, c => by
    rw [List.foldl_cons, handleInsert_fold x u k s ws]
    by_cases h : u = w
    · subst h
      simp only [if_true, View.mem_ins, List.mem_cons, true_or, true_and]
      tauto
    · simp [h]

theorem handleInsert_fold_nodup (x : Nat × Nat) : ∀ (ws : List Nat) (c : Nat → View),
    (∀ u k, (c u k).Nodup) →
    ∀ u k, ((ws.foldl (fun c w => fun u => if u = w then (c w).ins x else c u) c) u k).Nodup
  | [], c, h, u, k => h u k
  | w :: ws, c, h, u, k => by
    rw [List.foldl_cons]
    refine handleInsert_fold_nodup x ws _ ?_ u k
    intro u k
    split
    · exact View.ins_nodup (h w) x k
    · exact h u k

theorem mem_handleInserts {st : VState P} (hp : ParentsOK st.parent) {v : Nat} (hv : v < st.parent.length)
    (u k s : Nat) : ∀ (xs : List (Nat × Nat)) (c : Nat → View),
    (s ∈ (xs.foldl (fun c x => st.handleInsert c v x) c) u k ↔
      s ∈ c u k ∨ (Encl st.parent v u ∧ (k, s) ∈ xs))
  | [], c => by simp
  | x :: xs, c => by
    rw [List.foldl_cons, mem_handleInserts hp hv u k s xs]
    unfold VState.handleInsert
    rw [handleInsert_fold, mem_chain hp u _ v (by omega), List.mem_cons]
    tauto

theorem handleInserts_nodup {st : VState P} {v : Nat} : ∀ (xs : List (Nat × Nat)) (c : Nat → View),
    (∀ u k, (c u k).Nodup) → ∀ u k, ((xs.foldl (fun c x => st.handleInsert c v x) c) u k).Nodup
  | [], c, h, u, k => h u k
  | x :: xs, c, h, u, k => by
    rw [List.foldl_cons]
    exact handleInserts_nodup xs _ (handleInsert_fold_nodup x _ c h) u k

structure VInv (st : VState P) : Prop where
  parents : ParentsOK st.parent
  range : ∀ v p : Nat, st.parent[v]? = some (some p) → p < st.parent.length
  none_through : ∀ v, st.parent.length ≤ v → st.through v = []
  nodup : ∀ w k, (st.content w k).Nodup
  content : ∀ w k s, s ∈ st.content w k ↔ ∃ v, Encl st.parent v w ∧ (k, s) ∈ st.through v
  valid : LogValid st.mesh
  through : ∀ v, ∀ x ∈ st.through v, x.2 < st.mesh.count x.1

theorem VInv.empty : VInv (VState.empty : VState P) := by
  constructor <;> simp [VState.empty, ParentsOK, LogValid, Mesh.empty]

theorem VInv.step {T : Topo} (hT : T.WF) {st st' : VState P} {op : VOp P} (h : VInv st)
    (hs : st.step T op = some st') : VInv st' := by
  cases op with
  | view p =>
    simp only [VState.step] at hs
    split at hs
    · rename_i hp
      simp only [Option.some.injEq] at hs
      subst hs
      have hpar : ∀ v q : Nat, (st.parent ++ [p])[v]? = some (some q) →
          st.parent[v]? = some (some q) ∨ (v = st.parent.length ∧ p = some q ∧ q < st.parent.length) := by
        intro v q hvq
        by_cases hv : v < st.parent.length
        · rw [List.getElem?_append_left hv] at hvq; exact Or.inl hvq
        · rw [List.getElem?_append_right (by omega)] at hvq
          have hv' : v = st.parent.length := by
            by_contra hne
            have : v - st.parent.length ≠ 0 := by omega
            rw [List.getElem?_eq_none (by simp; omega)] at hvq
            cases hvq
          subst hv'
          simp at hvq
          subst hvq
          exact Or.inr ⟨rfl, rfl, by simpa using hp⟩
      refine ⟨?_, ?_, ?_, h.nodup, ?_, h.valid, h.through⟩
      · intro v q hvq
        rcases hpar v q hvq with h1 | ⟨h1, _, h3⟩
        · exact h.parents v q h1
        · omega
      · intro v q hvq
        simp only [List.length_append, List.length_singleton]
        rcases hpar v q hvq with h1 | ⟨h1, _, h3⟩
        · have := h.range v q h1; omega
        · omega
      · intro v hv
        simp only [List.length_append, List.length_singleton] at hv
        exact h.none_through v (by omega)
      · intro w k s
        rw [h.content w k s]
        refine exists_congr (fun v => ?_)
        by_cases hv : v < st.parent.length
        · rw [Encl.append h.parents p hv]
        · rw [h.none_through v (by omega)]; simp
    · cases hs
  | mesh op =>
    simp only [VState.step, Option.map_eq_some_iff] at hs
    obtain ⟨m', h1, rfl⟩ := hs
    obtain ⟨h2, h3⟩ := step_logValid hT h.valid h1
    exact ⟨h.parents, h.range, h.none_through, h.nodup, h.content, h2,
      fun v x hx => Nat.lt_of_lt_of_le (h.through v x hx) (h3 _)⟩
  | via v op =>
    simp only [VState.step] at hs
    split at hs
    · rename_i hv
      simp only [Option.map_eq_some_iff] at hs
      obtain ⟨m', h1, rfl⟩ := hs
      obtain ⟨h2, h3⟩ := step_logValid hT h.valid h1
      refine ⟨h.parents, h.range, ?_, ?_, ?_, h2, ?_⟩
      · intro u hu
        simp only at hu ⊢
        rw [if_neg (by omega)]
        exact h.none_through u hu
      · exact handleInserts_nodup _ _ h.nodup
      · intro w k s
        simp only
        rw [mem_handleInserts h.parents hv, h.content]
        constructor
        · rintro (⟨u, h4, h5⟩ | ⟨h4, h5⟩)
          · refine ⟨u, h4, ?_⟩
            split
            · rename_i huv; subst huv; simp [h5]
            · exact h5
          · exact ⟨v, h4, by simp [h5]⟩
        · rintro ⟨u, h4, h5⟩
          split at h5
          · rename_i huv
            subst huv
            rw [List.mem_append] at h5
            rcases h5 with h5 | h5
            · exact Or.inl ⟨u, h4, h5⟩
            · exact Or.inr ⟨h4, h5⟩
          · exact Or.inl ⟨u, h4, h5⟩
      · intro u x hx
        simp only at hx
        split at hx
        · rw [List.mem_append] at hx
          rcases hx with hx | hx
          · exact Nat.lt_of_lt_of_le (h.through v x hx) (h3 _)
          · exact h2 x (List.mem_of_mem_drop hx)
        · exact Nat.lt_of_lt_of_le (h.through u x hx) (h3 _)
    · cases hs

theorem VInv.run {T : Topo} (hT : T.WF) : ∀ {ops : List (VOp P)} {st st' : VState P}, VInv st →
    st.run T ops = some st' → VInv st'
  | [], st, st', hI, h => by simp [VState.run] at h; subst h; exact hI
  | op :: ops, st, st', hI, h => by
    simp only [VState.run] at h
    obtain ⟨s1, h1, h2⟩ := Option.bind_eq_some_iff.1 h
    exact VInv.run hT (hI.step hT h1) h2

/-- The mesh does not depend on the views. -/
theorem vrun_mesh {T : Topo} : ∀ {ops : List (VOp P)} {st st' : VState P}, st.run T ops = some st' →
    st.mesh.run T (ops.filterMap VOp.creation) = some st'.mesh
  | [], st, st', h => by simp [VState.run] at h; subst h; rfl
  | op :: ops, st, st', h => by
    simp only [VState.run] at h
    obtain ⟨s1, h1, h2⟩ := Option.bind_eq_some_iff.1 h
    have ih := vrun_mesh h2
    cases op with
    | view p =>
      simp only [VState.step] at h1
      split at h1
      · simp only [Option.some.injEq] at h1
        subst h1
        have e : (VOp.view p :: ops).filterMap VOp.creation = ops.filterMap VOp.creation := rfl
        rw [e]; exact ih
      · cases h1
    | mesh op =>
      simp only [VState.step, Option.map_eq_some_iff] at h1
      obtain ⟨m', h3, rfl⟩ := h1
      simp only [List.filterMap_cons, VOp.creation, Mesh.run, h3, Option.bind_some]
      exact ih
    | via v op =>
      simp only [VState.step] at h1
      split at h1
      · simp only [Option.map_eq_some_iff] at h1
        obtain ⟨m', h3, rfl⟩ := h1
        simp only [List.filterMap_cons, VOp.creation, Mesh.run, h3, Option.bind_some]
        exact ih
      · cases h1

/-- A creation enters the created handle. -/
theorem created_logged {T : Topo} (hT : T.WF) {m m' : Mesh P} {op : MOp P} (hI : Inv T m)
    (hu : UniqueVids m) (hd : op.Distinct) (h : m.step T op = some m') :
    m.created T op ∈ m'.log.drop m.log.length := by
  cases op with
  | vertex id p =>
    simp [Mesh.step] at h; subst h
    simp [Mesh.makeVertex, Mesh.created]
  | elem d vs =>
    simp only [Mesh.step] at h
    split at h
    · rename_i hc
      simp only [Option.some.injEq] at h
      subst h
      exact (makeElem_spec hT hI hu hc.1 ⟨hd, hc.2.2.1, hc.2.2.2⟩).logged
    · cases h

end VG
