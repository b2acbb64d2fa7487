import Verif.Lemmas.Segments

/-!
Which elements have a record of their segments.
-/

namespace VG

variable {P : Type}

/-- Records: elements in segments have one, and each record up to the last comes from an element in a segment. -/
structure RecInv (st : SegState P) : Prop where
  has : ∀ d i, st.segs d i ≠ [] → i.toNat < st.recs d
  from_ : ∀ d j, j < st.recs d → ∃ t < st.mesh.count d, st.segs d (st.mesh.eid d t) ≠ [] ∧ j ≤ (st.mesh.eid d t).toNat

theorem RecInv.empty : RecInv (SegState.empty : SegState P) :=
  ⟨fun _ _ h => absurd rfl h, fun _ _ h => absurd h (Nat.not_lt_zero _)⟩

theorem RecInv.grow {st : SegState P} (h : RecInv st) {m' : Mesh P} (hg : Grown st.mesh m') (v : Nat → View) :
    RecInv { st with mesh := m', view := v } := by
  refine ⟨h.has, fun d j hj => ?_⟩
  obtain ⟨t, ht, h1, h2⟩ := h.from_ d j hj
  refine ⟨t, lt_of_lt_of_le ht (hg.count d), ?_, ?_⟩
  · simpa only [hg.eid ht] using h1
  · simpa only [hg.eid ht] using h2

theorem simpleAdd_segs_ne {g : Nat} {st : SegState P} {x : Nat × Nat} {d : Nat} {i : Int}
    (h : st.segs d i ≠ [] ∨ (d = x.1 ∧ i = st.mesh.eid x.1 x.2)) : (st.simpleAdd g x).segs d i ≠ [] := by
  unfold SegState.simpleAdd
  simp only
  split
  · split
    · rename_i hg
      exact List.ne_nil_of_mem hg
    · simp
  · rename_i hn
    rcases h with h | h
    · exact h
    · exact absurd h hn

/-- Elements in segments have a record. -/
def RecHas (st : SegState P) : Prop := ∀ d i, st.segs d i ≠ [] → i.toNat < st.recs d

theorem touch_le (st : SegState P) (x : Nat × Nat) (d : Nat) : st.recs d ≤ st.touch x d := by
  unfold SegState.touch
  split
  · exact le_max_left _ _
  · exact le_refl _

theorem RecHas.simpleAdd {st : SegState P} (h : RecHas st) (g : Nat) (x : Nat × Nat) : RecHas (st.simpleAdd g x) := by
  intro d i hne
  by_cases hd : d = x.1 ∧ i = st.mesh.eid x.1 x.2
  · obtain ⟨rfl, rfl⟩ := hd
    show _ < st.touch x x.1
    unfold SegState.touch
    rw [if_pos rfl]
    omega
  · have h1 : st.segs d i ≠ [] := by
      unfold SegState.simpleAdd at hne
      simp only [if_neg hd] at hne
      exact hne
    exact lt_of_lt_of_le (h d i h1) (touch_le st x d)

theorem RecHas.addAll {g : Nat} : ∀ (xs : List (Nat × Nat)) {st : SegState P}, RecHas st →
    RecHas (xs.foldl (SegState.simpleAdd g) st)
  | [], _, h => h
  | x :: xs, _, h => RecHas.addAll xs (h.simpleAdd g x)

theorem RecHas.eraseAll {g : Nat} : ∀ (xs : List (Nat × Nat)) {st : SegState P}, RecHas st →
    RecHas (xs.foldl (SegState.eraseOne g) st)
  | [], _, h => h
  | x :: xs, st, h => by
    refine RecHas.eraseAll xs (st := st.eraseOne g x) (fun d i hne => ?_)
    refine lt_of_lt_of_le (h d i (fun h0 => hne ?_)) (touch_le st x d)
    show (if _ then _ else _) = []
    rw [h0]
    split <;> rfl

theorem RecInv.simpleAdd {st : SegState P} (h : RecInv st) {g : Nat} {x : Nat × Nat} (hx : x.2 < st.mesh.count x.1) :
    RecInv (st.simpleAdd g x) := by
  constructor
  · exact RecHas.simpleAdd h.has g x
  · intro d j hj
    change j < st.touch x d at hj
    have hold : j < st.recs d → ∃ t < st.mesh.count d, (st.simpleAdd g x).segs d (st.mesh.eid d t) ≠ [] ∧
        j ≤ (st.mesh.eid d t).toNat := fun hj => by
      obtain ⟨t, ht, h1, h2⟩ := h.from_ d j hj
      exact ⟨t, ht, simpleAdd_segs_ne (Or.inl h1), h2⟩
    unfold SegState.touch at hj
    split at hj
    · rename_i hd
      rcases lt_max_iff.1 hj with h1 | h1
      · exact hold h1
      · subst hd
        exact ⟨x.2, hx, simpleAdd_segs_ne (Or.inr ⟨rfl, rfl⟩), Nat.lt_succ_iff.1 h1⟩
    · exact hold hj

theorem RecInv.addAll {g : Nat} : ∀ {xs : List (Nat × Nat)} {st : SegState P}, RecInv st →
    (∀ x ∈ xs, x.2 < st.mesh.count x.1) → RecInv (xs.foldl (SegState.simpleAdd g) st)
  | [], _, h, _ => h
  | x :: xs, st, h, hx => by
    rw [List.foldl_cons]
    exact RecInv.addAll (h.simpleAdd (hx x (by simp))) (fun y hy => hx y (by simp [hy]))

theorem RecInv.addElem {T : Topo} (hT : T.WF) {st : SegState P} (h : RecInv st) (hI : Inv T st.mesh) {g d t : Nat}
    (ht : t < st.mesh.count d) : RecInv (st.addElem T g d t) := by
  have h1 := h.addAll (g := g) (xs := st.mesh.closureOf T d t) (fun x hx =>
    Closure.lt hI ht ((mem_closureOf (k := x.1) (s := x.2) hT hI).1 hx))
  exact ⟨h1.has, h1.from_⟩

theorem sstep_rec {T : Topo} (hT : T.WF) (hC : T.Closed) {st st' : SegState P} {op : SOp P}
    (hs : SegInv T st) (hR : RecInv st) (hu : UniqueVids st.mesh) (hu' : UniqueVids st'.mesh)
    (hd : ∀ o, op.creation = some o → o.Distinct)
    (h : st.step T op = some st') : RecInv st' := by
  cases op with
  | mesh op =>
    simp only [SegState.step, Option.map_eq_some_iff] at h
    obtain ⟨m', h1, rfl⟩ := h
    exact hR.grow (step_grown hT hs.mesh hu (hd op rfl) h1) st.view
  | make g op =>
    simp only [SegState.step, SegState.makeIn, Option.map_eq_some_iff] at h
    obtain ⟨m', h1, rfl⟩ := h
    have hd' := hd op rfl
    have hg := step_grown hT hs.mesh hu hd' h1
    have hc := calls_closure hT hC hs.mesh hu hd' h1
    have hI' : Inv T m' := step_inv hT hs.mesh hu hd' h1
    exact (hR.grow hg _).addElem hT hI' hc.2.1
  | add g d t =>
    simp only [SegState.step] at h
    split at h
    · rename_i hdt
      cases h
      exact hR.addElem hT hs.mesh hdt.2
    · cases h

theorem srun_rec {T : Topo} (hT : T.WF) (hC : T.Closed) : ∀ {ops : List (SOp P)} {st st' : SegState P},
    SegInv T st → RecInv st → (∀ op ∈ ops, ∀ o, op.creation = some o → o.Distinct) → st.run T ops = some st' →
    UniqueVids st'.mesh → RecInv st'
  | [], st, st', _, hR, _, h, _ => by simp [SegState.run] at h; subst h; exact hR
  | op :: ops, st, st', hI, hR, hd, h, hu => by
    simp only [SegState.run] at h
    obtain ⟨s1, h1, h2⟩ := Option.bind_eq_some_iff.1 h
    have hu1 := hu.of_prefix (srun_verts h2)
    have hu0 := hu1.of_prefix (sstep_verts h1)
    have hI1 := sstep_inv hT hC hI hu0 (hd op (by simp)) h1
    have hR1 := sstep_rec hT hC hI hR hu0 hu1 (hd op (by simp)) h1
    exact srun_rec hT hC hI1 hR1 (fun o ho => hd o (by simp [ho])) h2 hu

theorem SegReached.rec {T : Topo} (hT : T.WF) (hC : T.Closed) {st : SegState P} (h : SegReached T st) : RecInv st := by
  obtain ⟨ops, h1, h2, h3⟩ := h
  exact srun_rec hT hC (SegInv.empty T) RecInv.empty h1 h2 h3

/-- The elements with a record are those with an id up to the largest of the elements in segments. -/
theorem recorded_iff {T : Topo} (hT : T.WF) (hC : T.Closed) {st : SegState P} (h : SegReached T st) {k s : Nat} :
    st.recorded k s = true ↔ ∃ g, ∃ t ∈ st.view g k, (st.mesh.eid k s).toNat ≤ (st.mesh.eid k t).toNat := by
  have hI := h.inv hT hC
  have hR := h.rec hT hC
  unfold SegState.recorded
  rw [decide_eq_true_iff]
  constructor
  · intro hlt
    obtain ⟨t, ht, hne, hle⟩ := hR.from_ k _ hlt
    obtain ⟨g, hg⟩ := List.exists_mem_of_ne_nil _ hne
    obtain ⟨t', ht', he⟩ := (hI.segs k _ g).1 hg
    exact ⟨g, t', ht', he ▸ hle⟩
  · rintro ⟨g, t, ht, hle⟩
    have h1 := hR.has k (st.mesh.eid k t) (List.ne_nil_of_mem ((hI.segs k _ g).2 ⟨t, ht, rfl⟩))
    omega

end VG
