import Verif.Lemmas.SegInfo

/-!
C100: the value stored for a pair of segment and element.
-/

namespace VG

variable {P V : Type}

/-- States reached by creations, additions to segments, erasures from segments and assignments of values. -/
def InfoReached (T : Topo) (s : InfoState P V) : Prop :=
  ∃ ops : List (InfoOp P V), (∀ op ∈ ops, ∀ o, op.creation = some o → o.Distinct) ∧
    InfoState.empty.run T ops = some s ∧ UniqueVids s.st.mesh

theorem InfoReached.inv {T : Topo} (hT : ClosedTopo T) {s : InfoState P V} (h : InfoReached T s) : InfoInv T s := by
  obtain ⟨ops, h1, h2, h3⟩ := h
  exact infoRun_inv hT (InfoInv.empty T) h1 h2 h3

/-- Specification: the operation assigns a value for this pair. -/
def AssignsTo (g d t : Nat) (op : InfoOp P V) : Prop := ∃ v, op = .write g d t v

/-- C100.  The full statement, that there is a value for exactly the pairs of a segment and an element in it, is false: the
call for a constant segment is undefined for some elements, and the values are not initialised (see below).  Proved, for
simplices and quadrilaterals and all histories of creations, additions, erasures and assignments: the pointer is not null
for the elements in the segment, and null for elements not in the segment if some element with an id at least as large is in
a segment. -/
theorem C100_pointer_partial {T : Topo} (hT : ClosedTopo T) {s : InfoState P V} (h : InfoReached T s) {g d t : Nat}
    (ht : t < s.st.mesh.count d) :
    (t ∈ s.st.view g d → ∃ o, s.query g d t = some (some o)) ∧
    (t ∉ s.st.view g d → HasRecord s.st d t → s.query g d t = some none) := by
  have hI := h.inv hT
  obtain ⟨_, _, _, hu⟩ := h
  unfold InfoState.query
  constructor
  · intro hm
    rw [if_pos (hI.recorded hm (le_refl _))]
    obtain ⟨o, ho⟩ := Option.ne_none_iff_exists'.1 ((hI.find_ne hu ht).2 hm)
    exact ⟨o, by rw [ho]⟩
  · rintro hm ⟨g', t', h1, h2⟩
    rw [if_pos (hI.recorded h1 h2)]
    congr 1
    by_contra hne
    exact hm ((hI.find_ne hu ht).1 hne)

/-- C100: assigning a value to an element of the segment succeeds and changes this value only; for other elements the pointer
is null, and the assignment undefined. -/
theorem C100_write {T : Topo} (hT : ClosedTopo T) {s : InfoState P V} (h : InfoReached T s) {g d t : Nat}
    (hd : d ≤ T.cellDim) (ht : t < s.st.mesh.count d) (v : V) :
    (t ∈ s.st.view g d → ∃ s', s.step T (.write g d t v) = some s' ∧ s'.st = s.st ∧
      s'.query g d t = some (some (some v)) ∧
      ∀ g' d' t', t' < s.st.mesh.count d' → (g', d', t') ≠ (g, d, t) → s'.query g' d' t' = s.query g' d' t') ∧
    (t ∉ s.st.view g d → s.step T (.write g d t v) = none) := by
  have hI := h.inv hT
  obtain ⟨_, _, _, hu⟩ := h
  have hst : s.step T (.write g d t v) = s.write g d t v := if_pos ⟨hd, ht⟩
  rw [hst]
  unfold InfoState.write
  constructor
  · intro hm
    have hne := (hI.find_ne hu ht).2 hm
    rw [Ne, infoFind_none, not_not] at hne
    obtain ⟨l, hl⟩ := infoSet_some v hne
    refine ⟨⟨s.st, s.upd (d, t) (fun _ => l)⟩, by rw [hl]; rfl, rfl, ?_, ?_⟩
    · unfold InfoState.query
      rw [if_pos (hI.recorded hm (le_refl _))]
      simp only
      rw [upd_pos s (d, t) _ ⟨rfl, rfl⟩, (infoSet_spec hl).2, if_pos rfl]
    · intro g' d' t' ht' hne'
      unfold InfoState.query
      simp only
      by_cases hc : d' = d ∧ s.st.mesh.eid d' t' = s.st.mesh.eid d t
      · obtain ⟨rfl, he⟩ := hc
        obtain ⟨a, ha⟩ := hI.se
        have := eid_inj ha.mesh hu ht' ht he
        subst this
        have hgg : g' ≠ g := by rintro rfl; exact hne' rfl
        rw [upd_pos s (d', t') _ ⟨rfl, rfl⟩, (infoSet_spec hl).2, if_neg hgg]
      · rw [upd_neg s (d, t) _ hc]
  · intro hm
    have hn : infoFind g (s.info d (s.st.mesh.eid d t)) = none := by
      by_contra hne
      exact hm ((hI.find_ne hu ht).1 hne)
    rw [infoFind_none] at hn
    cases hl : infoSet g v (s.info d (s.st.mesh.eid d t)) with
    | none => rfl
    | some l =>
      have := (infoSet_spec hl).2 g
      rw [if_pos rfl] at this
      have h2 : infoFind g l ≠ none := by rw [this]; simp
      rw [Ne, infoFind_none, not_not, (infoSet_spec hl).1] at h2
      exact absurd h2 hn

theorem infoRun_kept {T : Topo} (hT : ClosedTopo T) {g d t : Nat} : ∀ {ops : List (InfoOp P V)} {s s' : InfoState P V},
    InfoInv T s → (∀ op ∈ ops, ∀ o, op.creation = some o → o.Distinct) → (∀ op ∈ ops, ¬ AssignsTo g d t op) →
    s.run T ops = some s' → UniqueVids s'.st.mesh → t < s.st.mesh.count d →
    (∀ pre post sm, ops = pre ++ post → s.run T pre = some sm → t ∈ sm.st.view g d) →
    infoFind g (s'.info d (s'.st.mesh.eid d t)) = infoFind g (s.info d (s.st.mesh.eid d t)) ∧ InfoInv T s' ∧ t ∈ s'.st.view g d
  | [], s, s', hI, _, _, h, _, _, hin => by
    simp only [InfoState.run, Option.some.injEq] at h
    subst h
    exact ⟨rfl, hI, hin [] [] s rfl rfl⟩
  | op :: ops, s, s', hI, hd, ha, h, hu, ht, hin => by
    simp only [InfoState.run] at h
    obtain ⟨s1, h1, h2⟩ := Option.bind_eq_some_iff.1 h
    have hu1 := hu.of_prefix (infoRun_verts h2)
    have hu0 := hu1.of_prefix (infoStep_verts h1)
    have hd0 := hd op (by simp)
    have hI1 := infoStep_inv hT hI hu0 hd0 h1
    obtain ⟨he, ht1⟩ := infoStep_eid hT.lib.wf hI hu0 hd0 h1 ht
    have hin1 : ∀ pre post sm, ops = pre ++ post → s1.run T pre = some sm → t ∈ sm.st.view g d := by
      intro pre post sm e hr
      refine hin (op :: pre) post sm (by rw [e]; rfl) ?_
      simp only [InfoState.run, h1, Option.bind_some, hr]
    obtain ⟨k1, k2, k3⟩ := infoRun_kept hT hI1 (fun o ho => hd o (by simp [ho])) (fun o ho => ha o (by simp [ho])) h2 hu ht1 hin1
    refine ⟨k1.trans ?_, k2, k3⟩
    have m0 := (hI.find_ne hu0 ht).2 (hin [] (op :: ops) s rfl rfl)
    have m1 := (hI1.find_ne hu1 ht1).2 (hin1 [] ops s1 rfl rfl)
    have hs := infoStep hI h1
    by_cases hp : op.plain = none
    · -- an assignment to another pair
      cases op with
      | write g' d' t' v =>
        simp only [InfoState.step] at h1
        split at h1
        · rename_i hdt
          simp only [InfoState.write, Option.map_eq_some_iff] at h1
          obtain ⟨l, hl, rfl⟩ := h1
          simp only
          by_cases hc : d = d' ∧ s.st.mesh.eid d t = s.st.mesh.eid d' t'
          · obtain ⟨rfl, hee⟩ := hc
            obtain ⟨a, hsa⟩ := hI.se
            have := eid_inj hsa.mesh hu0 ht hdt.2 hee
            subst this
            rw [upd_pos s (d, t) _ ⟨rfl, rfl⟩, (infoSet_spec hl).2, if_neg]
            rintro rfl
            exact ha _ (by simp) ⟨v, rfl⟩
          · rw [upd_neg s (d', t') _ hc]
        · cases h1
      | mesh op => cases hp
      | make g op => cases hp
      | add g d t => cases hp
      | erase g k s => cases hp
    · rw [he]
      rw [he] at m1
      exact hs.kept hp g d _ m0 m1

/-- C100: a value is kept by all operations other than assignments to the same pair, as long as the element stays in the
segment: creations, additions to this and other segments, erasures, assignments to other pairs. -/
theorem C100_kept {T : Topo} (hT : ClosedTopo T) {s s' : InfoState P V} (h : InfoReached T s) {g d t : Nat}
    {ops : List (InfoOp P V)} (hd : ∀ op ∈ ops, ∀ o, op.creation = some o → o.Distinct)
    (ha : ∀ op ∈ ops, ¬ AssignsTo g d t op) (hr : s.run T ops = some s') (hu : UniqueVids s'.st.mesh)
    (hin : ∀ pre post sm, ops = pre ++ post → s.run T pre = some sm → t ∈ sm.st.view g d) :
    s'.query g d t = s.query g d t := by
  have hI := h.inv hT
  have hm := hin [] ops s rfl rfl
  obtain ⟨h1, h2, h3⟩ := infoRun_kept hT hI hd ha hr hu (hI.view_lt hm) hin
  unfold InfoState.query
  rw [if_pos (hI.recorded hm (le_refl _)), if_pos (h2.recorded h3 (le_refl _)), h1]

/-- C100: what is read is the value assigned last. -/
theorem C100_last_written {T : Topo} (hT : ClosedTopo T) {s s1 s' : InfoState P V} (h : InfoReached T s) {g d t : Nat} {v : V}
    (hw : s.step T (.write g d t v) = some s1) {ops : List (InfoOp P V)}
    (hd : ∀ op ∈ ops, ∀ o, op.creation = some o → o.Distinct)
    (ha : ∀ op ∈ ops, ¬ AssignsTo g d t op) (hr : s1.run T ops = some s') (hu : UniqueVids s'.st.mesh)
    (hin : ∀ pre post sm, ops = pre ++ post → s1.run T pre = some sm → t ∈ sm.st.view g d) :
    s'.query g d t = some (some (some v)) := by
  have hdt : d ≤ T.cellDim ∧ t < s.st.mesh.count d := by
    simp only [InfoState.step] at hw
    split at hw
    · assumption
    · cases hw
  have hm : t ∈ s.st.view g d := by
    by_contra hn
    rw [(C100_write hT h hdt.1 hdt.2 v).2 hn] at hw
    cases hw
  obtain ⟨s2, e1, e2, e3, _⟩ := (C100_write hT h hdt.1 hdt.2 v).1 hm
  rw [hw] at e1
  cases e1
  have hr1 : InfoReached T s1 := by
    obtain ⟨l, l1, l2, l3⟩ := h
    refine ⟨l ++ [.write g d t v], ?_, ?_, by rw [e2]; exact l3⟩
    · intro op hop o ho
      rcases List.mem_append.1 hop with hop | hop
      · exact l1 op hop o ho
      · simp only [List.mem_singleton] at hop; subst hop; cases ho
    · rw [infoRun_append, l2]
      simp only [Option.bind_some, InfoState.run, hw]
  rw [C100_kept hT hr1 hd ha hr hu hin, e3]

/-- C100 is violated: after any operation by which an element gets into a segment the value has not been initialised, so
reading it is undefined; also if the element was in the segment before, with a value, and had been erased from it. -/
theorem C100_violated_fresh {T : Topo} (hT : ClosedTopo T) {s s' : InfoState P V} (h : InfoReached T s) {op : InfoOp P V}
    (hd : ∀ o, op.creation = some o → o.Distinct) (hs : s.step T op = some s') (hu' : UniqueVids s'.st.mesh) {g d t : Nat}
    (hn : t ∉ s.st.view g d) (hm : t ∈ s'.st.view g d) : s'.query g d t = some (some none) := by
  have hI := h.inv hT
  have hu : UniqueVids s.st.mesh := hu'.of_prefix (infoStep_verts hs)
  have hI' := infoStep_inv hT hI hu hd hs
  have ht' := hI'.view_lt hm
  have hst := infoStep hI hs
  have hold : infoFind g (s.info d (s'.st.mesh.eid d t)) = none := by
    rw [infoFind_none, hI.keys]
    intro hg
    obtain ⟨a, ha⟩ := hI.se
    obtain ⟨a', ha'⟩ := hI'.se
    obtain ⟨u, hu1, hu2⟩ := (ha.segs d _ g).1 hg
    have hul := ha.view_lt hu1
    obtain ⟨e1, e2⟩ := infoStep_eid hT.lib.wf hI hu hd hs hul
    have : t = u := eid_inj ha'.mesh hu' ht' e2 (hu2.trans e1.symm)
    exact hn (this ▸ hu1)
  obtain ⟨o, ho⟩ := Option.ne_none_iff_exists'.1 ((hI'.find_ne hu' ht').2 hm)
  unfold InfoState.query
  rw [if_pos (hI'.recorded hm (le_refl _)), ho]
  by_cases hp : op.plain = none
  · have := hst.same hp
    rw [this] at hm
    exact absurd hm hn
  · rw [hst.fresh hp g d _ hold o ho]

/-! #### Cases -/

/-- Two triangles, the first in segments 0 and 1, with values. -/
def hullOps : List (InfoOp Unit Bool) :=
  [.mesh (.vertex none ()), .mesh (.vertex none ()), .mesh (.vertex none ()), .mesh (.vertex none ()),
   .make 0 (.elem 2 [0, 1, 2]), .write 0 2 0 true, .add 1 2 0, .write 1 2 0 false, .mesh (.elem 2 [1, 2, 3])]

/-- The state after these operations. -/
def hullState : InfoState Unit Bool := (InfoState.empty.run (simplexTopo 2) hullOps).getD InfoState.empty

theorem hullState_reached : InfoReached (simplexTopo 2) hullState :=
  ⟨hullOps, by simp [hullOps, InfoOp.creation, MOp.Distinct], rfl, by unfold UniqueVids; decide⟩

/-- The hypotheses of `C100_pointer_partial`, `C100_write` and `C100_kept` hold: each segment has its own value. -/
example : hullState.query 0 2 0 = some (some (some true)) ∧ hullState.query 1 2 0 = some (some (some false)) ∧
    0 ∈ hullState.st.view 0 2 ∧ hullState.query 5 2 0 = some none ∧ HasRecord hullState.st 2 0 :=
  ⟨by decide, by decide, by decide, by decide, 0, 0, by decide, by decide⟩

/-- C100 is violated: for a constant segment the call is undefined for an element made after the elements in segments. -/
theorem C100_violated_const : ∃ s : InfoState Unit Bool, InfoReached (simplexTopo 2) s ∧ s.st.mesh.count 2 = 2 ∧
    s.query 0 2 1 = none :=
  ⟨hullState, hullState_reached, by decide, by decide⟩

/-- The hypotheses of `C100_last_written` hold: the value is kept when the other triangle is added to the segment. -/
example : ∃ s1 s', hullState.step (simplexTopo 2) (.write 0 2 0 false) = some s1 ∧
    s1.run (simplexTopo 2) [.add 0 2 1] = some s' ∧ s'.query 0 2 0 = some (some (some false)) := by
  have h1 : hullState.step (simplexTopo 2) (.write 0 2 0 false) = some _ := rfl
  refine ⟨_, _, h1, rfl, ?_⟩
  refine C100_last_written (Or.inl ⟨2, rfl⟩) hullState_reached h1 (ops := [.add 0 2 1]) ?_ ?_ rfl ?_ ?_
  · intro op hop o ho
    simp only [List.mem_singleton] at hop
    subst hop
    cases ho
  · intro op hop
    simp only [List.mem_singleton] at hop
    subst hop
    rintro ⟨v, hv⟩
    cases hv
  · unfold UniqueVids; decide
  · intro pre post sm he hr
    match pre, he with
    | [], _ => cases hr; decide
    | [o], he =>
      simp only [List.singleton_append, List.cons.injEq] at he
      obtain ⟨rfl, _⟩ := he
      cases hr
      decide
    | _ :: _ :: _, he => simp at he

/-- The hypotheses of `C100_violated_fresh` hold for a triangle which is erased from the segment (with a vertex) and added
again. -/
example : ∃ s s' : InfoState Unit Bool, InfoReached (simplexTopo 2) s ∧ s.step (simplexTopo 2) (.add 0 2 0) = some s' ∧
    0 ∉ s.st.view 0 2 ∧ 0 ∈ s'.st.view 0 2 ∧ s'.query 0 2 0 = some (some none) ∧ hullState.query 0 2 0 = some (some (some true)) :=
  ⟨((InfoState.empty.run (simplexTopo 2) (hullOps ++ [.erase 0 0 0])).getD InfoState.empty : InfoState Unit Bool), _,
    ⟨hullOps ++ [.erase 0 0 0], by simp [hullOps, InfoOp.creation, MOp.Distinct], rfl, by unfold UniqueVids; decide⟩, rfl,
    by decide, by decide, by decide, by decide⟩

end VG
