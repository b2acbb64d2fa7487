import Verif.Props.MphtxtSpec

/-!
Segments with caches that were never used, for any mesh with segments.
-/

namespace VG

variable {P : Type}

theorem SegReached.meshHistory {T : Topo} : ∀ {ops : List (SOp P)} {st st' : SegState P},
    (∀ op ∈ ops, ∀ o, op.creation = some o → o.Distinct) → st.run T ops = some st' →
    ∃ l : List (MOp P), (∀ o ∈ l, o.Distinct) ∧ st.mesh.run T l = some st'.mesh
  | [], st, st', _, h => by
    simp only [SegState.run, Option.some.injEq] at h
    subst h
    exact ⟨[], by simp, rfl⟩
  | op :: ops, st, st', hd, h => by
    simp only [SegState.run] at h
    obtain ⟨s1, h1, h2⟩ := Option.bind_eq_some_iff.1 h
    obtain ⟨l, l1, l2⟩ := SegReached.meshHistory (ops := ops) (fun o ho => hd o (by simp [ho])) h2
    have create : ∀ o m, op.creation = some o → st.mesh.step T o = some m → s1.mesh = m →
        ∃ l : List (MOp P), (∀ o ∈ l, o.Distinct) ∧ st.mesh.run T l = some st'.mesh := by
      intro o m ho hs e
      refine ⟨o :: l, ?_, ?_⟩
      · intro x hx
        rcases List.mem_cons.1 hx with rfl | hx
        · exact hd op (by simp) _ ho
        · exact l1 x hx
      · simp only [Mesh.run, hs, Option.bind_some]
        rw [← e]
        exact l2
    cases op with
    | mesh o =>
      simp only [SegState.step, Option.map_eq_some_iff] at h1
      obtain ⟨m, e1, e2⟩ := h1
      exact create o m rfl e1 (by rw [← e2])
    | make g o =>
      simp only [SegState.step, SegState.makeIn, Option.map_eq_some_iff] at h1
      obtain ⟨m, e1, e2⟩ := h1
      refine create o m rfl e1 ?_
      rw [← e2]
      unfold SegState.addElem
      simp only
      rw [(addAll_mesh g _ _).1]
    | add g d t =>
      simp only [SegState.step] at h1
      split at h1
      · cases h1
        refine ⟨l, l1, ?_⟩
        have e : (st.addElem T g d t).mesh = st.mesh := by
          unfold SegState.addElem
          simp only
          rw [(addAll_mesh g _ _).1]
        rw [e] at l2
        exact l2
      · cases h1

theorem mv_mesh {T : Topo} : ∀ (l : List (MOp P)) (l' : List (VQOp P)) (s : MV P) {m : Mesh P},
    s.mesh.run T l = some m → s.run T (l.map .mesh ++ l') = MV.run T { s with mesh := m } l'
  | [], l', s, m, h => by
    simp only [Mesh.run, Option.some.injEq] at h
    subst h
    rfl
  | o :: l, l', s, m, h => by
    simp only [Mesh.run] at h
    obtain ⟨m1, h1, h2⟩ := Option.bind_eq_some_iff.1 h
    simp only [List.map_cons, List.cons_append, MV.run, MV.step, h1, Option.map_some, Option.bind_some]
    exact mv_mesh l l' { s with mesh := m1 } h2

theorem mv_insert {T : Topo} : ∀ (l : List (Nat × Nat)) (s : MV P), (∀ x ∈ l, x.2 < s.mesh.count x.1) →
    s.run T (l.map (fun x => .insert x.1 x.2)) = some { s with view := l.foldl VC.insert s.view }
  | [], s, _ => rfl
  | x :: l, s, h => by
    simp only [List.map_cons, MV.run, MV.step, if_pos (h x (by simp)), Option.bind_some]
    exact mv_insert l { s with view := s.view.insert x } (fun y hy => h y (by simp [hy]))

theorem insert_content : ∀ (l : List (Nat × Nat)) (v : VC), l.Nodup → (∀ x ∈ l, x.2 ∉ v.content x.1) → ∀ k,
    (l.foldl VC.insert v).content k = v.content k ++ (l.filter (fun x => x.1 == k)).map (·.2)
  | [], v, _, _, k => by simp
  | x :: l, v, hn, hv, k => by
    have hx := hv x (by simp)
    have hc : ∀ k, (v.insert x).content k = if k = x.1 then v.content k ++ [x.2] else v.content k := by
      intro k
      simp only [VC.insert, View.ins]
      split
      · rename_i e
        subst e
        simp [insertUnique, hx]
      · rfl
    rw [List.foldl_cons, insert_content l _ (List.nodup_cons.1 hn).2 ?_ k, hc]
    · by_cases e : k = x.1
      · subst e
        simp
      · rw [if_neg e, List.filter_cons_of_neg (by simpa using Ne.symm e)]
    · intro y hy hm
      rw [hc] at hm
      split at hm
      · rename_i e
        rcases List.mem_append.1 hm with h | h
        · exact hv y (by simp [hy]) h
        · rw [List.mem_singleton] at h
          exact (List.nodup_cons.1 hn).1 (by rw [← Prod.ext e h]; exact hy)
      · exact hv y (by simp [hy]) hm

/-- The elements of a segment. -/
def viewList (st : SegState P) (g : Nat) : List (Nat × Nat) :=
  (List.range 4).flatMap (fun k => (st.view g k).map (fun t => (k, t)))

/-- The view of a segment whose caches were never used. -/
def freshView (st : SegState P) (g : Nat) : VC := (viewList st g).foldl VC.insert VC.empty

theorem fresh_ready {st : SegState P} (h : SegReached (simplexTopo 3) st) (hid : ∀ v < st.mesh.count 0, 0 ≤ st.mesh.vid v)
    (gs : List Nat) (par away : Nat → Nat → Bool) : MphSrc.Ready ⟨st, freshView st, gs, par, away⟩ := by
  have hI := h.inv (simplexTopo_wf 3) (simplexTopo_closed 3)
  have hnd : ∀ g, (viewList st g).Nodup := by
    intro g
    unfold viewList
    rw [List.nodup_flatMap]
    refine ⟨fun k _ => (hI.nodup g k).map (fun a b e => by simpa using e), ?_⟩
    refine List.nodup_range.imp (fun {a b} hab => ?_)
    intro x hx hy
    obtain ⟨_, _, rfl⟩ := List.mem_map.1 hx
    obtain ⟨_, _, e⟩ := List.mem_map.1 hy
    exact hab (by simpa using (congrArg Prod.fst e).symm)
  have hmem : ∀ g, ∀ x ∈ viewList st g, x.2 ∈ st.view g x.1 := by
    intro g x hx
    obtain ⟨k, _, hk⟩ := List.mem_flatMap.1 hx
    obtain ⟨t, ht, rfl⟩ := List.mem_map.1 hk
    exact ht
  refine ⟨h, fun g _ => ?_, fun g _ k hk => ?_, hid⟩
  · obtain ⟨ops, h1, h2, h3⟩ := h
    obtain ⟨l, l1, l2⟩ := SegReached.meshHistory h1 h2
    refine ⟨l.map .mesh ++ (viewList st g).map (fun x => .insert x.1 x.2), ?_, ?_, ?_, h3⟩
    · intro op hop o ho
      rcases List.mem_append.1 hop with hop | hop
      · obtain ⟨o', ho', rfl⟩ := List.mem_map.1 hop
        cases ho
        exact l1 _ ho'
      · obtain ⟨x, _, rfl⟩ := List.mem_map.1 hop
        cases ho
    · intro _ hm
      rcases List.mem_append.1 hm with hm | hm
      · obtain ⟨_, _, e⟩ := List.mem_map.1 hm
        cases e
      · obtain ⟨_, _, e⟩ := List.mem_map.1 hm
        cases e
    · rw [mv_mesh l _ MV.empty (m := st.mesh) l2, mv_insert]
      · rfl
      · intro x hx
        exact hI.view_lt (hmem g x hx)
  · show (freshView st g).content k = st.view g k
    unfold freshView
    rw [insert_content _ _ (hnd g) (by simp [VC.empty])]
    show [] ++ _ = _
    rw [List.nil_append]
    unfold viewList
    have key : ∀ j, ((((st.view g j).map (fun t => (j, t))).filter (fun x => x.1 == k)).map (·.2) : List Nat) =
        if j = k then st.view g k else [] := by
      intro j
      split
      · rename_i e
        subst e
        rw [List.filter_eq_self.2 (by simp), List.map_map]
        exact List.map_id _
      · rename_i e
        rw [List.filter_eq_nil_iff.2 ?_]
        · rfl
        · intro x hx
          obtain ⟨_, _, rfl⟩ := List.mem_map.1 hx
          simpa using e
    obtain rfl | rfl | rfl | rfl : k = 0 ∨ k = 1 ∨ k = 2 ∨ k = 3 := by omega
    all_goals
      simp only [show List.range 4 = [0, 1, 2, 3] from rfl, List.flatMap_cons, List.flatMap_nil, List.filter_append,
        List.map_append, key]
      simp

end VG
