import Verif.Model.SegInfo
import Verif.Lemmas.SegRecords
import Verif.Props.SegmentHistory

/-!
Lemmas on the information stored for a pair of segment and element.
-/

namespace VG

variable {P V : Type}

/-! Entries of one record -/

theorem infoAdd_keys (g : Nat) (l : List (Nat × Option V)) :
    (infoAdd g l).map (·.1) = if g ∈ l.map (·.1) then l.map (·.1) else l.map (·.1) ++ [g] := by
  unfold infoAdd
  split <;> simp

theorem infoErase_keys (g : Nat) : ∀ l : List (Nat × Option V), (infoErase g l).map (·.1) = (l.map (·.1)).erase g
  | [] => rfl
  | e :: l => by
    simp only [infoErase, List.map_cons, List.erase_cons, beq_iff_eq]
    split
    · rfl
    · rw [List.map_cons, infoErase_keys g l]

theorem infoFind_none {g : Nat} : ∀ {l : List (Nat × Option V)}, infoFind g l = none ↔ g ∉ l.map (·.1)
  | [] => by simp [infoFind]
  | e :: l => by
    simp only [infoFind, List.map_cons, List.mem_cons, not_or]
    split
    · rename_i h; simp [h]
    · rename_i h
      rw [infoFind_none (l := l)]
      simp [Ne.symm h]

theorem infoFind_append {g : Nat} : ∀ (l k : List (Nat × Option V)),
    infoFind g (l ++ k) = if g ∈ l.map (·.1) then infoFind g l else infoFind g k
  | [], k => by simp
  | e :: l, k => by
    simp only [List.cons_append, infoFind, List.map_cons, List.mem_cons]
    by_cases h : e.1 = g
    · rw [if_pos h, if_pos h, if_pos (Or.inl h.symm)]
    · have h2 : (g = e.1 ∨ g ∈ l.map (·.1)) ↔ g ∈ l.map (·.1) := or_iff_right (Ne.symm h)
      rw [if_neg h, if_neg h, infoFind_append l k]
      by_cases h3 : g ∈ l.map (·.1)
      · rw [if_pos h3, if_pos (h2.2 h3)]
      · rw [if_neg h3, if_neg (fun h4 => h3 (h2.1 h4))]

theorem infoFind_add (g g' : Nat) (l : List (Nat × Option V)) :
    infoFind g' (infoAdd g l) = if g' = g ∧ g ∉ l.map (·.1) then some none else infoFind g' l := by
  unfold infoAdd
  by_cases h : g ∈ l.map (·.1)
  · rw [if_pos h, if_neg (fun h' => h'.2 h)]
  · rw [if_neg h, infoFind_append]
    by_cases hg : g' = g
    · subst hg
      rw [if_neg h, if_pos ⟨rfl, h⟩]
      simp [infoFind]
    · rw [if_neg (c := g' = g ∧ _) (fun h' => hg h'.1)]
      by_cases h' : g' ∈ l.map (·.1)
      · rw [if_pos h']
      · rw [if_neg h', infoFind_none.2 h']
        simp [infoFind, Ne.symm hg]

theorem infoFind_erase {g g' : Nat} (hne : g' ≠ g) : ∀ (l : List (Nat × Option V)), infoFind g' (infoErase g l) = infoFind g' l
  | [] => rfl
  | e :: l => by
    simp only [infoErase]
    split
    · rename_i h
      simp only [infoFind]
      rw [if_neg (by rw [h]; exact Ne.symm hne)]
    · simp only [infoFind]
      rw [infoFind_erase hne l]

theorem infoSet_spec {g : Nat} {v : V} : ∀ {l l' : List (Nat × Option V)}, infoSet g v l = some l' →
    l'.map (·.1) = l.map (·.1) ∧ ∀ g', infoFind g' l' = if g' = g then some (some v) else infoFind g' l
  | [], l', h => by cases h
  | e :: l, l', h => by
    simp only [infoSet] at h
    split at h
    · rename_i he
      cases h
      refine ⟨by simp [he], fun g' => ?_⟩
      by_cases hg : g' = g
      · subst hg; simp [infoFind]
      · simp only [infoFind]
        rw [if_neg (Ne.symm hg), if_neg hg, if_neg (by rw [he]; exact Ne.symm hg)]
    · rename_i he
      obtain ⟨k, h1, rfl⟩ := Option.map_eq_some_iff.1 h
      obtain ⟨h2, h3⟩ := infoSet_spec h1
      refine ⟨by simp [h2], fun g' => ?_⟩
      simp only [infoFind]
      rw [h3]
      by_cases hg : g' = g
      · subst hg; simp [he]
      · simp [hg]

theorem infoSet_some {g : Nat} (v : V) : ∀ {l : List (Nat × Option V)}, g ∈ l.map (·.1) → ∃ l', infoSet g v l = some l'
  | e :: l, h => by
    simp only [infoSet]
    split
    · exact ⟨_, rfl⟩
    · rename_i he
      rw [List.map_cons, List.mem_cons] at h
      obtain ⟨l', h'⟩ := infoSet_some v (h.resolve_left (Ne.symm he))
      exact ⟨_, by rw [h']; rfl⟩

/-! States -/

/-- The entries of the records are for the segments of the elements. -/
def InfoKeys (s : InfoState P V) : Prop := ∀ d i, (s.info d i).map (·.1) = s.st.segs d i

theorem upd_pos (s : InfoState P V) (x : Nat × Nat) (f : List (Nat × Option V) → List (Nat × Option V)) {d : Nat} {i : Int}
    (h : d = x.1 ∧ i = s.st.mesh.eid x.1 x.2) : s.upd x f d i = f (s.info d i) := if_pos h

theorem upd_neg (s : InfoState P V) (x : Nat × Nat) (f : List (Nat × Option V) → List (Nat × Option V)) {d : Nat} {i : Int}
    (h : ¬ (d = x.1 ∧ i = s.st.mesh.eid x.1 x.2)) : s.upd x f d i = s.info d i := if_neg h

theorem InfoKeys.simpleAdd {s : InfoState P V} (h : InfoKeys s) (g : Nat) (x : Nat × Nat) : InfoKeys (s.simpleAdd g x) := by
  intro d i
  show (s.upd x (infoAdd g) d i).map (·.1) = (if _ then _ else _)
  split
  · rename_i hc
    rw [upd_pos s x _ hc, infoAdd_keys, h d i]
  · rename_i hc
    rw [upd_neg s x _ hc, h d i]

theorem InfoKeys.eraseOne {s : InfoState P V} (h : InfoKeys s) (g : Nat) (x : Nat × Nat) : InfoKeys (s.eraseOne g x) := by
  intro d i
  show (s.upd x (infoErase g) d i).map (·.1) = (if _ then _ else _)
  split
  · rename_i hc
    rw [upd_pos s x _ hc, infoErase_keys, h d i]
  · rename_i hc
    rw [upd_neg s x _ hc, h d i]

/-- Additions do not change entries, and make entries without value. -/
theorem infoAddAll (g : Nat) : ∀ (xs : List (Nat × Nat)) (s : InfoState P V), InfoKeys s →
    (xs.foldl (InfoState.simpleAdd g) s).st = xs.foldl (SegState.simpleAdd g) s.st ∧
    InfoKeys (xs.foldl (InfoState.simpleAdd g) s) ∧
    ∀ g' d i, (infoFind g' (s.info d i) ≠ none → infoFind g' ((xs.foldl (InfoState.simpleAdd g) s).info d i) = infoFind g' (s.info d i)) ∧
      (infoFind g' (s.info d i) = none → ∀ o, infoFind g' ((xs.foldl (InfoState.simpleAdd g) s).info d i) = some o → o = none)
  | [], s, h => ⟨rfl, h, fun _ _ _ => ⟨fun _ => rfl, fun h1 o h2 => by rw [List.foldl_nil, h1] at h2; cases h2⟩⟩
  | x :: xs, s, h => by
    obtain ⟨h1, h2, h3⟩ := infoAddAll g xs (s.simpleAdd g x) (h.simpleAdd g x)
    rw [List.foldl_cons, List.foldl_cons]
    refine ⟨h1, h2, fun g' d i => ?_⟩
    obtain ⟨h4, h5⟩ := h3 g' d i
    have hstep : infoFind g' ((s.simpleAdd g x).info d i) = infoFind g' (s.info d i) ∨
        (infoFind g' (s.info d i) = none ∧ infoFind g' ((s.simpleAdd g x).info d i) = some none) := by
      show infoFind g' (s.upd x (infoAdd g) d i) = _ ∨ (_ ∧ infoFind g' (s.upd x (infoAdd g) d i) = _)
      by_cases hc : d = x.1 ∧ i = s.st.mesh.eid x.1 x.2
      · rw [upd_pos s x _ hc, infoFind_add]
        split
        · rename_i hg
          exact Or.inr ⟨infoFind_none.2 (hg.1 ▸ hg.2), rfl⟩
        · exact Or.inl rfl
      · rw [upd_neg s x _ hc]; exact Or.inl rfl
    rcases hstep with e | ⟨e1, e2⟩
    · rw [e] at h4 h5
      exact ⟨h4, h5⟩
    · refine ⟨fun hn => absurd e1 hn, fun _ o ho => ?_⟩
      rw [e2] at h4
      rw [h4 (by simp)] at ho
      exact (Option.some.inj ho).symm

/-- Erasures do not change entries which stay. -/
theorem infoEraseAll (g : Nat) : ∀ (xs : List (Nat × Nat)) (s : InfoState P V), InfoKeys s → (∀ d i, (s.st.segs d i).Nodup) →
    (xs.foldl (InfoState.eraseOne g) s).st = xs.foldl (SegState.eraseOne g) s.st ∧
    InfoKeys (xs.foldl (InfoState.eraseOne g) s) ∧
    ∀ g' d i, infoFind g' ((xs.foldl (InfoState.eraseOne g) s).info d i) ≠ none →
      infoFind g' ((xs.foldl (InfoState.eraseOne g) s).info d i) = infoFind g' (s.info d i)
  | [], s, h, _ => ⟨rfl, h, fun _ _ _ _ => rfl⟩
  | x :: xs, s, h, hn => by
    have hn' : ∀ d i, ((s.eraseOne g x).st.segs d i).Nodup := by
      intro d i
      show (if _ then (s.st.segs d i).erase g else s.st.segs d i).Nodup
      split
      · exact (hn d i).erase _
      · exact hn d i
    obtain ⟨h1, h2, h3⟩ := infoEraseAll g xs (s.eraseOne g x) (h.eraseOne g x) hn'
    rw [List.foldl_cons, List.foldl_cons]
    refine ⟨h1, h2, fun g' d i hne => ?_⟩
    have h4 := h3 g' d i hne
    rw [h4]
    rw [h4] at hne
    change infoFind g' (s.upd x (infoErase g) d i) ≠ none at hne
    show infoFind g' (s.upd x (infoErase g) d i) = _
    by_cases hc : d = x.1 ∧ i = s.st.mesh.eid x.1 x.2
    · rw [upd_pos s x _ hc] at hne ⊢
      by_cases hg : g' = g
      · subst hg
        refine absurd (infoFind_none.2 ?_) hne
        rw [infoErase_keys, h d i]
        exact (hn d i).not_mem_erase
      · exact infoFind_erase hg _
    · rw [upd_neg s x _ hc]

/-- The operation without the values. -/
def InfoOp.plain : InfoOp P V → Option (SEOp P)
  | .mesh op => some (.op (.mesh op))
  | .make g op => some (.op (.make g op))
  | .add g d t => some (.op (.add g d t))
  | .erase g k s => some (.erase g k s)
  | .write _ _ _ _ => none

/-- The creation in an operation. -/
def InfoOp.creation : InfoOp P V → Option (MOp P)
  | .mesh op => some op
  | .make _ op => some op
  | _ => none

/-- The invariant. -/
structure InfoInv (T : Topo) (s : InfoState P V) : Prop where
  se : SEInv T s.st
  keys : InfoKeys s
  has : RecHas s.st

theorem InfoInv.empty (T : Topo) : InfoInv T (InfoState.empty : InfoState P V) :=
  ⟨⟨_, SegInv.empty T⟩, fun _ _ => rfl, fun _ _ h => absurd rfl h⟩

/-- What one operation does to the entries. -/
structure InfoStep (T : Topo) (s : InfoState P V) (op : InfoOp P V) (s' : InfoState P V) : Prop where
  plain : ∀ o, op.plain = some o → s.st.estep T o = some s'.st
  same : op.plain = none → s'.st = s.st
  keys : InfoKeys s'
  has : RecHas s'.st
  kept : op.plain ≠ none → ∀ g d i, infoFind g (s.info d i) ≠ none → infoFind g (s'.info d i) ≠ none →
    infoFind g (s'.info d i) = infoFind g (s.info d i)
  fresh : op.plain ≠ none → ∀ g d i, infoFind g (s.info d i) = none → ∀ o, infoFind g (s'.info d i) = some o → o = none

theorem infoAddElem {T : Topo} {s : InfoState P V} (hk : InfoKeys s) (hh : RecHas s.st) (g d t : Nat) :
    (s.addElem T g d t).st = s.st.addElem T g d t ∧ InfoKeys (s.addElem T g d t) ∧ RecHas (s.addElem T g d t).st ∧
    ∀ g' d' i, (infoFind g' (s.info d' i) ≠ none → infoFind g' ((s.addElem T g d t).info d' i) = infoFind g' (s.info d' i)) ∧
      (infoFind g' (s.info d' i) = none → ∀ o, infoFind g' ((s.addElem T g d t).info d' i) = some o → o = none) := by
  obtain ⟨h1, h2, h3⟩ := infoAddAll g (s.st.mesh.closureOf T d t) s hk
  refine ⟨?_, h2, ?_, h3⟩
  · unfold InfoState.addElem SegState.addElem
    simp only [h1]
  · unfold InfoState.addElem
    simp only
    have := RecHas.addAll (g := g) (s.st.mesh.closureOf T d t) hh
    rw [← h1] at this
    exact this

theorem infoStep {T : Topo} {s s' : InfoState P V} {op : InfoOp P V} (h : InfoInv T s) (hs : s.step T op = some s') :
    InfoStep T s op s' := by
  cases op with
  | mesh op =>
    simp only [InfoState.step, Option.map_eq_some_iff] at hs
    obtain ⟨m, h1, rfl⟩ := hs
    refine ⟨?_, by simp [InfoOp.plain], h.keys, h.has, fun _ _ _ _ _ _ => rfl, fun _ g d i h1 o h2 => ?_⟩
    · rintro o ⟨⟩
      simp only [SegState.estep, SegState.step, h1, Option.map_some]
    · rw [h1] at h2; cases h2
  | make g op =>
    simp only [InfoState.step, InfoState.makeIn, Option.map_eq_some_iff] at hs
    obtain ⟨m, h1, rfl⟩ := hs
    obtain ⟨e, k, hh, f⟩ := infoAddElem (T := T) (s := ⟨{ s.st with
      mesh := m,
      view := fun g' => if g' = g then (m.log.drop s.st.mesh.log.length).foldl View.ins (s.st.view g) else s.st.view g' }, s.info⟩)
      h.keys h.has g (s.st.mesh.created T op).1 (s.st.mesh.created T op).2
    refine ⟨?_, by simp [InfoOp.plain], k, hh, fun _ g' d i h2 _ => (f g' d i).1 h2, fun _ g' d i => (f g' d i).2⟩
    rintro o ⟨⟩
    simp only [SegState.estep, SegState.step, SegState.makeIn, h1, Option.map_some]
    exact congrArg some e.symm
  | add g d t =>
    simp only [InfoState.step] at hs
    split at hs
    · rename_i hdt
      cases hs
      obtain ⟨e, k, hh, f⟩ := infoAddElem (T := T) h.keys h.has g d t
      refine ⟨?_, by simp [InfoOp.plain], k, hh, fun _ g' d i h2 _ => (f g' d i).1 h2, fun _ g' d i => (f g' d i).2⟩
      rintro o ⟨⟩
      simp only [SegState.estep, SegState.step, if_pos hdt, e]
    · cases hs
  | erase g k t =>
    simp only [InfoState.step] at hs
    split at hs
    · rename_i hdt
      cases hs
      obtain ⟨a, ha⟩ := h.se
      obtain ⟨e, ky, f⟩ := infoEraseAll g (s.st.marked T g k t) s h.keys ha.segsNodup
      refine ⟨?_, by simp [InfoOp.plain], ky, ?_, fun _ g' d i _ h2 => f g' d i h2, fun _ g' d i h2 o ho => ?_⟩
      · rintro o ⟨⟩
        simp only [SegState.estep, if_pos hdt]
        exact congrArg some e.symm
      · have := RecHas.eraseAll (g := g) (s.st.marked T g k t) h.has
        rw [← e] at this
        exact this
      · have hne : infoFind g' ((s.eraseElem T g k t).info d i) ≠ none := by rw [ho]; simp
        have := f g' d i hne
        unfold InfoState.eraseElem at ho
        rw [this, h2] at ho
        cases ho
    · cases hs
  | write g d t v =>
    simp only [InfoState.step] at hs
    split at hs
    · simp only [InfoState.write, Option.map_eq_some_iff] at hs
      obtain ⟨l, h1, rfl⟩ := hs
      refine ⟨by simp [InfoOp.plain], fun _ => rfl, fun d' i => ?_, h.has, fun h' => absurd rfl h', fun h' => absurd rfl h'⟩
      show (s.upd (d, t) (fun _ => l) d' i).map (·.1) = s.st.segs d' i
      by_cases hc : d' = d ∧ i = s.st.mesh.eid d t
      · rw [upd_pos s (d, t) _ hc, (infoSet_spec h1).1, hc.1, hc.2]
        exact h.keys _ _
      · rw [upd_neg s (d, t) _ hc]
        exact h.keys _ _
    · cases hs

theorem infoStep_inv {T : Topo} (hT : ClosedTopo T) {s s' : InfoState P V} {op : InfoOp P V} (h : InfoInv T s)
    (hu : UniqueVids s.st.mesh) (hd : ∀ o, op.creation = some o → o.Distinct) (hs : s.step T op = some s') : InfoInv T s' := by
  have hi := infoStep h hs
  refine ⟨?_, hi.keys, hi.has⟩
  cases hp : op.plain with
  | none => rw [hi.same hp]; exact h.se
  | some o =>
    refine estep_inv hT h.se hu (fun c hc => hd c ?_) (hi.plain o hp)
    cases op <;> cases hp <;> exact hc

theorem infoAddAll_st (g : Nat) : ∀ (xs : List (Nat × Nat)) (s : InfoState P V),
    (xs.foldl (InfoState.simpleAdd g) s).st = xs.foldl (SegState.simpleAdd g) s.st
  | [], _ => rfl
  | x :: xs, s => infoAddAll_st g xs (s.simpleAdd g x)

theorem infoEraseAll_st (g : Nat) : ∀ (xs : List (Nat × Nat)) (s : InfoState P V),
    (xs.foldl (InfoState.eraseOne g) s).st = xs.foldl (SegState.eraseOne g) s.st
  | [], _ => rfl
  | x :: xs, s => infoEraseAll_st g xs (s.eraseOne g x)

theorem infoAddElem_mesh (T : Topo) (s : InfoState P V) (g d t : Nat) : (s.addElem T g d t).st.mesh = s.st.mesh := by
  unfold InfoState.addElem
  simp only [infoAddAll_st]
  exact (addAll_mesh g _ _).1

theorem infoStep_mesh {T : Topo} {s s' : InfoState P V} {op : InfoOp P V} (hs : s.step T op = some s') :
    s'.st.mesh = s.st.mesh ∨ ∃ o, op.creation = some o ∧ s.st.mesh.step T o = some s'.st.mesh := by
  cases op with
  | mesh op =>
    simp only [InfoState.step, Option.map_eq_some_iff] at hs
    obtain ⟨m, h1, rfl⟩ := hs
    exact Or.inr ⟨op, rfl, h1⟩
  | make g op =>
    simp only [InfoState.step, InfoState.makeIn, Option.map_eq_some_iff] at hs
    obtain ⟨m, h1, rfl⟩ := hs
    refine Or.inr ⟨op, rfl, ?_⟩
    rw [infoAddElem_mesh]
    exact h1
  | add g d t =>
    simp only [InfoState.step] at hs
    split at hs
    · cases hs
      exact Or.inl (infoAddElem_mesh T s g d t)
    · cases hs
  | erase g k t =>
    simp only [InfoState.step] at hs
    split at hs
    · cases hs
      left
      unfold InfoState.eraseElem
      rw [infoEraseAll_st]
      exact eraseAll_mesh g _ _
    · cases hs
  | write g d t v =>
    simp only [InfoState.step] at hs
    split at hs
    · simp only [InfoState.write, Option.map_eq_some_iff] at hs
      obtain ⟨l, _, rfl⟩ := hs
      exact Or.inl rfl
    · cases hs

theorem infoStep_verts {T : Topo} {s s' : InfoState P V} {op : InfoOp P V} (hs : s.step T op = some s') :
    s.st.mesh.verts <+: s'.st.mesh.verts := by
  rcases infoStep_mesh hs with h | ⟨o, _, h⟩
  · rw [h]; exact List.prefix_refl _
  · exact step_verts h

theorem infoRun_verts {T : Topo} : ∀ {ops : List (InfoOp P V)} {s s' : InfoState P V}, s.run T ops = some s' →
    s.st.mesh.verts <+: s'.st.mesh.verts
  | [], s, s', h => by simp only [InfoState.run, Option.some.injEq] at h; subst h; exact List.prefix_refl _
  | op :: ops, s, s', h => by
    simp only [InfoState.run] at h
    obtain ⟨s1, h1, h2⟩ := Option.bind_eq_some_iff.1 h
    exact (infoStep_verts h1).trans (infoRun_verts h2)

theorem infoStep_eid {T : Topo} (hT : T.WF) {s s' : InfoState P V} {op : InfoOp P V} (h : InfoInv T s)
    (hu : UniqueVids s.st.mesh) (hd : ∀ o, op.creation = some o → o.Distinct) (hs : s.step T op = some s') {d t : Nat}
    (ht : t < s.st.mesh.count d) : s'.st.mesh.eid d t = s.st.mesh.eid d t ∧ t < s'.st.mesh.count d := by
  obtain ⟨a, ha⟩ := h.se
  rcases infoStep_mesh hs with he | ⟨o, ho, he⟩
  · rw [he]; exact ⟨rfl, ht⟩
  · have hg := step_grown hT ha.mesh hu (hd o ho) he
    exact ⟨hg.eid ht, lt_of_lt_of_le ht (hg.count d)⟩

theorem infoRun_inv {T : Topo} (hT : ClosedTopo T) : ∀ {ops : List (InfoOp P V)} {s s' : InfoState P V}, InfoInv T s →
    (∀ op ∈ ops, ∀ o, op.creation = some o → o.Distinct) → s.run T ops = some s' → UniqueVids s'.st.mesh → InfoInv T s'
  | [], s, s', hI, _, h, _ => by simp only [InfoState.run, Option.some.injEq] at h; subst h; exact hI
  | op :: ops, s, s', hI, hd, h, hu => by
    simp only [InfoState.run] at h
    obtain ⟨s1, h1, h2⟩ := Option.bind_eq_some_iff.1 h
    have hu0 := (hu.of_prefix (infoRun_verts h2)).of_prefix (infoStep_verts h1)
    exact infoRun_inv hT (infoStep_inv hT hI hu0 (hd op (by simp)) h1) (fun o ho => hd o (by simp [ho])) h2 hu

theorem infoRun_append {T : Topo} : ∀ {a b : List (InfoOp P V)} {s : InfoState P V},
    s.run T (a ++ b) = (s.run T a).bind (fun s' => s'.run T b)
  | [], b, s => rfl
  | o :: a, b, s => by
    simp only [List.cons_append, InfoState.run, Option.bind_assoc]
    congr 1
    funext s'
    exact infoRun_append

/-- Entries are for the segments listing the element. -/
theorem InfoInv.find_ne {T : Topo} {s : InfoState P V} (h : InfoInv T s) (hu : UniqueVids s.st.mesh) {g d t : Nat}
    (ht : t < s.st.mesh.count d) : infoFind g (s.info d (s.st.mesh.eid d t)) ≠ none ↔ t ∈ s.st.view g d := by
  obtain ⟨a, ha⟩ := h.se
  rw [Ne, infoFind_none, not_not, h.keys]
  refine (ha.segs d _ g).trans ?_
  constructor
  · rintro ⟨t', ht', e⟩
    have := eid_inj ha.mesh hu ht (ha.view_lt ht') e
    rw [this]; exact ht'
  · intro hm; exact ⟨t, hm, rfl⟩

theorem InfoInv.view_lt {T : Topo} {s : InfoState P V} (h : InfoInv T s) {g d t : Nat} (ht : t ∈ s.st.view g d) :
    t < s.st.mesh.count d := by
  obtain ⟨a, ha⟩ := h.se
  exact ha.view_lt ht

theorem InfoInv.view_dim {T : Topo} (hT : T.WF) {s : InfoState P V} (h : InfoInv T s) {g d t : Nat} (ht : t ∈ s.st.view g d) :
    d ≤ T.cellDim := by
  obtain ⟨a, ha⟩ := h.se
  exact ha.view_dim hT ht

theorem InfoInv.recorded {T : Topo} {s : InfoState P V} (h : InfoInv T s) {g d t u : Nat} (ht : t ∈ s.st.view g d)
    (hle : (s.st.mesh.eid d u).toNat ≤ (s.st.mesh.eid d t).toNat) : s.st.recorded d u = true := by
  obtain ⟨a, ha⟩ := h.se
  unfold SegState.recorded
  rw [decide_eq_true_iff]
  exact lt_of_le_of_lt hle (h.has d _ (List.ne_nil_of_mem ((ha.segs d _ g).2 ⟨t, ht, rfl⟩)))

end VG
