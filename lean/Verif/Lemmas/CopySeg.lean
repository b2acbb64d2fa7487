import Verif.Model.CopySeg
import Verif.Lemmas.Copy
import Verif.Lemmas.RefineMesh
import Verif.Lemmas.Interface

/-!
Copying cells together with their segments.
-/

namespace VG

variable {P N : Type}

/-! The registry of the destination -/

/-- Segments named by their ids; `old` are the names taken before. -/
structure Numbered [DecidableEq N] (nm : Int → N) (old : N → Prop) (r : Reg N) : Prop where
  nodup : (r.segs.map (·.1)).Nodup
  named : ∀ s ∈ r.segs, s.2 = nm s.1
  names : ∀ n, r.names n ≠ none → old n ∨ ∃ s ∈ r.segs, n = s.2
  look : ∀ s ∈ r.segs, r.names s.2 = some (some s.1)

variable [DecidableEq N]

theorem Numbered.clear (nm : Int → N) (r : Reg N) : Numbered nm (fun n => r.names n ≠ none) r.clear := by
  refine ⟨by simp [Reg.clear], by simp [Reg.clear], ?_, by simp [Reg.clear]⟩
  intro n hn
  left
  simpa [Reg.clear] using hn

theorem Numbered.getMakeId {nm : Int → N} (hnm : Function.Injective nm) {old : N → Prop} {r : Reg N}
    (h : Numbered nm old r) {id : Int} (hf : ¬ old (nm id)) :
    ∃ r', r.getMakeId nm id = (r', .ok id) ∧ Numbered nm old r' ∧
      ∀ s, s ∈ r'.segs ↔ s ∈ r.segs ∨ s = (id, nm id) := by
  unfold Reg.getMakeId
  by_cases hm : id ∈ r.segs.map (·.1)
  · rw [if_pos hm]
    refine ⟨r, rfl, h, fun s => ⟨Or.inl, ?_⟩⟩
    rintro (hs | rfl)
    · exact hs
    · obtain ⟨s, hs, rfl⟩ := List.mem_map.1 hm
      rw [← h.named s hs]; exact hs
  · rw [if_neg hm]
    have hnone : r.names (nm id) = none := by
      by_contra hc
      rcases h.names _ hc with h' | ⟨s, hs, he⟩
      · exact hf h'
      · rw [h.named s hs] at he
        exact hm (List.mem_map.2 ⟨s, hs, (hnm he).symm⟩)
    simp only [hnone]
    refine ⟨_, rfl, ⟨?_, ?_, ?_, ?_⟩, by simp⟩
    · simp only [List.map_append, List.map_cons, List.map_nil]
      rw [List.nodup_append]
      exact ⟨h.nodup, by simp, fun a ha b hb => by simp only [List.mem_singleton] at hb; subst hb; exact fun e => hm (e ▸ ha)⟩
    · intro s hs
      rcases List.mem_append.1 hs with hs | hs
      · exact h.named s hs
      · simp only [List.mem_singleton] at hs; subst hs; rfl
    · intro n hn
      simp only at hn
      by_cases he : n = nm id
      · exact Or.inr ⟨(id, nm id), by simp, he⟩
      · rw [if_neg he] at hn
        rcases h.names n hn with h' | ⟨s, hs, he'⟩
        · exact Or.inl h'
        · exact Or.inr ⟨s, by simp [hs], he'⟩
    · intro s hs
      rcases List.mem_append.1 hs with hs' | hs'
      · have hne : s.2 ≠ nm id := by
          rw [h.named s hs']
          exact fun e => hm (List.mem_map.2 ⟨s, hs', hnm e⟩)
        simp only [if_neg hne]
        exact h.look s hs'
      · simp only [List.mem_singleton] at hs'; subst hs'; simp

/-! `add` to several segments -/

theorem addToSegs_spec {nm : Int → N} (hnm : Function.Injective nm) {old : N → Prop} {T : Topo} {d t : Nat}
    (hd : d ≤ T.cellDim) : ∀ (gs : List Nat) (s : SegMesh P N), t < s.st.mesh.count d → SegReached T s.st →
    Numbered nm old s.reg → (∀ g ∈ gs, ¬ old (nm (g : Int))) →
    ∃ o, addToSegs nm T d t s gs = .ok o ∧ o.st.mesh = s.st.mesh ∧ SegReached T o.st ∧ Numbered nm old o.reg ∧
      (∀ g x, x ∈ o.st.added g ↔ x ∈ s.st.added g ∨ (g ∈ gs ∧ x = (d, t))) ∧
      ∀ x, x ∈ o.reg.segs ↔ x ∈ s.reg.segs ∨ ∃ g ∈ gs, x = ((g : Int), nm (g : Int))
  | [], s, _, hr, hn, _ => ⟨s, rfl, rfl, hr, hn, by simp, by simp⟩
  | g :: gs, s, ht, hr, hn, hf => by
    obtain ⟨r, e1, n1, m1⟩ := hn.getMakeId hnm (hf g (by simp))
    have hstep : s.st.step T (.add g d t) = some (s.st.addElem T g d t) := by
      simp only [SegState.step]; rw [if_pos ⟨hd, ht⟩]
    have hm : (s.st.addElem T g d t).mesh = s.st.mesh := by
      unfold SegState.addElem; simp only; rw [(addAll_mesh g _ s.st).1]
    have ha : ∀ g', (s.st.addElem T g d t).added g' = if g' = g then s.st.added g ++ [(d, t)] else s.st.added g' := by
      intro g'; unfold SegState.addElem; simp only; rw [(addAll_mesh g _ s.st).2]
    have hr1 : SegReached T (s.st.addElem T g d t) :=
      hr.step (op := .add g d t) (fun o ho => by simp [SOp.creation] at ho) hstep (by rw [hm]; exact hr.choose_spec.2.2)
    obtain ⟨o, e2, m2, r2, n2, a2, s2⟩ := addToSegs_spec hnm hd gs ⟨s.st.addElem T g d t, r⟩ (by simp only [hm]; exact ht) hr1 n1
      (fun g' hg' => hf g' (by simp [hg']))
    refine ⟨o, ?_, m2.trans hm, r2, n2, ?_, ?_⟩
    · simp only [addToSegs, e1]; exact e2
    · intro g' x
      rw [a2]
      simp only [ha]
      by_cases hg : g' = g
      · subst hg
        simp only [if_true, List.mem_append, List.mem_cons, true_or, true_and, List.not_mem_nil, or_false]
        constructor
        · rintro ((h | h) | h)
          · exact Or.inl h
          · exact Or.inr h
          · exact Or.inr h.2
        · rintro (h | h)
          · exact Or.inl (Or.inl h)
          · exact Or.inl (Or.inr h)
      · simp [hg]
    · intro x
      rw [s2, m1]
      simp only [List.mem_cons, exists_eq_or_imp, or_assoc]

/-! Vertices and the cell -/

omit [DecidableEq N] in
theorem copyVertex_reached {T : Topo} {src : Mesh P} {st : SegState P} {c c' : CopySt P} {v s : Nat}
    (hg : VidsCont c.dst) (hr : SegReached T { st with mesh := c.dst }) (h : copyVertex src c v = some (c', s)) :
    VidsCont c'.dst ∧ SegReached T { st with mesh := c'.dst } := by
  unfold copyVertex at h
  split at h
  · simp only [Option.some.injEq, Prod.mk.injEq] at h
    rw [← h.1]; exact ⟨hg, hr⟩
  · simp only [Option.map_eq_some_iff] at h
    obtain ⟨p, _, h⟩ := h
    simp only [Prod.mk.injEq] at h
    rw [← h.1]
    have hstep : (({ st with mesh := c.dst } : SegState P)).step T (.mesh (.vertex none p)) =
        some { st with mesh := c.dst.makeVertex none p } := rfl
    have hgen : VidsCont (c.dst.makeVertex none p) := step_vidsCont (T := T) (op := .vertex none p) hg rfl rfl
    exact ⟨hgen, hr.step (op := .mesh (.vertex none p))
      (fun o ho => by simp [SOp.creation] at ho; subst ho; trivial) hstep hgen.unique⟩

theorem copyVerts_reached {T : Topo} {src : Mesh P} {st : SegState P} : ∀ {vs : List Nat} {c c' : CopySt P} {ss : List Nat},
    VidsCont c.dst → SegReached T { st with mesh := c.dst } → copyVerts src c vs = some (c', ss) →
    VidsCont c'.dst ∧ SegReached T { st with mesh := c'.dst }
  | [], c, c', ss, hg, hr, h => by
    simp only [copyVerts, Option.some.injEq, Prod.mk.injEq] at h
    rw [← h.1]; exact ⟨hg, hr⟩
  | v :: vs, c, c', ss, hg, hr, h => by
    simp only [copyVerts, Option.bind_eq_some_iff, Option.map_eq_some_iff] at h
    obtain ⟨q, h1, r, h2, h3⟩ := h
    simp only [Prod.mk.injEq] at h3
    obtain ⟨g1, r1⟩ := copyVertex_reached hg hr h1
    have := copyVerts_reached (vs := vs) g1 r1 h2
    rw [← h3.1]; exact this

/-- Everything about the copy of one element. -/
theorem copyElement_full {T : Topo} (hT : T.WF) (hn : 1 ≤ T.cellDim) {src : Mesh P} (hu : UniqueVids src)
    {vs : List Nat} {used : List Nat} {done} {c : CopySt P} (h : CInv T src used done c)
    (hd : ∀ ws ∈ done, ws ⊆ used) (hv : vs.Nodup ∧ T.Arity T.cellDim vs.length ∧ ∀ v ∈ vs, v < src.verts.length) :
    ∃ c1 used' hs, copyVerts src c vs = some (c1, hs) ∧ hs.Nodup ∧
      c1.dst.step T (.elem T.cellDim hs) = some (c1.dst.makeElem T T.cellDim hs).mesh ∧
      (c1.dst.makeElem T T.cellDim hs).slot = done.length ∧
      (c1.dst.makeElem T T.cellDim hs).mesh.verts = c1.dst.verts ∧
      used <+: used' ∧ CInv T src used' (done ++ [vs]) ⟨(c1.dst.makeElem T T.cellDim hs).mesh, c1.map⟩ ∧
      (∀ ws ∈ done ++ [vs], ws ⊆ used') ∧ ∀ w, w ∈ used' → w ∈ used ∨ w ∈ vs := by
  obtain ⟨c1, u1, e1, p1, i1, m1, s1⟩ := copyVerts_spec hu h hd hv.2.2
  have hnd : (vs.map (fun v => u1.idxOf v)).Nodup := by
    refine (List.nodup_map_iff_inj_on hv.1).2 (fun a ha b hb hab => ?_)
    have h1 := List.getElem_idxOf (List.idxOf_lt_length_iff.2 (m1 ha))
    have h2 := List.getElem_idxOf (List.idxOf_lt_length_iff.2 (m1 hb))
    rw [← h1, ← h2]; simp only [hab]
  have hlt : ∀ w ∈ vs.map (fun v => u1.idxOf v), w < c1.dst.verts.length := by
    intro w hw
    obtain ⟨v, hv', rfl⟩ := List.mem_map.1 hw
    rw [i1.len]
    exact List.idxOf_lt_length_iff.2 (m1 hv')
  have hstep : c1.dst.step T (.elem T.cellDim (vs.map (fun v => u1.idxOf v))) =
      some (c1.dst.makeElem T T.cellDim (vs.map (fun v => u1.idxOf v))).mesh := by
    simp only [Mesh.step]
    rw [if_pos ⟨hn, le_refl _, by rw [List.length_map]; exact hv.2.1, hlt⟩]
  have hbb := i1.built.built
  have hs := makeElem_spec hT (hbb.inv hT) hbb.choose_spec.2.2 hn ⟨hnd, by rw [List.length_map]; exact hv.2.1, hlt⟩
  obtain ⟨hslot, _⟩ := hs.appended (hs.isnew.2 (Or.inl rfl))
  obtain ⟨c', u', e', p', i', d', s'⟩ := copyElement_spec hT hn hu h hd hv
  simp only [copyElement, e1, Option.bind_some, hstep, Option.map_some, Option.some.injEq] at e'
  refine ⟨c1, u', _, e1, hnd, hstep, ?_, hs.ext.verts, p', ?_, d', s'⟩
  · rw [hslot]
    have := congrArg List.length i1.cells
    simpa using this
  · rw [e']; exact i'

/-! Cells with their segments -/

/-- After the cells `ts` have been copied. -/
structure SCInv (nm : Int → N) (old : N → Prop) (T : Topo) (src : SegState P) (used ts : List Nat)
    (c : CopySegSt P N) : Prop where
  cp : CInv T src.mesh used (ts.map (src.mesh.vertsOf T.cellDim)) ⟨c.out.st.mesh, c.map⟩
  sub : ∀ t ∈ ts, src.mesh.vertsOf T.cellDim t ⊆ used
  back : ∀ w ∈ used, ∃ t ∈ ts, w ∈ src.mesh.vertsOf T.cellDim t
  gen : VidsCont c.out.st.mesh
  reached : SegReached T c.out.st
  reg : Numbered nm old c.out.reg
  added : ∀ g x, x ∈ c.out.st.added g ↔ ∃ i t, ts[i]? = some t ∧ g ∈ src.segmentIds T.cellDim t ∧ x = (T.cellDim, i)
  segs : ∀ x, x ∈ c.out.reg.segs ↔ ∃ t ∈ ts, ∃ g ∈ src.segmentIds T.cellDim t, x = ((g : Int), nm (g : Int))

theorem copySegCell_spec {nm : Int → N} (hnm : Function.Injective nm) {old : N → Prop} {T : Topo} (hT : T.WF)
    (hn : 1 ≤ T.cellDim) {src : SegMesh P N} (hu : UniqueVids src.st.mesh) {used ts : List Nat} {c : CopySegSt P N}
    (h : SCInv nm old T src.st used ts c) {t : Nat}
    (hv : (src.st.mesh.vertsOf T.cellDim t).Nodup ∧ T.Arity T.cellDim (src.st.mesh.vertsOf T.cellDim t).length ∧
      ∀ v ∈ src.st.mesh.vertsOf T.cellDim t, v < src.st.mesh.verts.length)
    (hq : src.st.recorded T.cellDim t = true) (hf : ∀ g ∈ src.st.segmentIds T.cellDim t, ¬ old (nm (g : Int))) :
    ∃ c' used', copySegCell nm T src c t = .ok c' ∧ SCInv nm old T src.st used' (ts ++ [t]) c' := by
  obtain ⟨c1, u1, hs, e1, hnd, hstep, hslot, hverts, p1, i1, d1, s1⟩ := copyElement_full hT hn hu h.cp
    (fun ws hws => by obtain ⟨t', ht', rfl⟩ := List.mem_map.1 hws; exact h.sub t' ht') hv
  obtain ⟨g1, r1⟩ := copyVerts_reached (T := T) (st := c.out.st) h.gen h.reached e1
  have g2 : VidsCont (c1.dst.makeElem T T.cellDim hs).mesh :=
    step_vidsCont (T := T) (op := .elem T.cellDim hs) g1 trivial hstep
  have hst : (({ c.out.st with mesh := c1.dst } : SegState P)).step T (.mesh (.elem T.cellDim hs)) =
      some { c.out.st with mesh := (c1.dst.makeElem T T.cellDim hs).mesh } := by
    simp only [SegState.step, hstep, Option.map_some]
  have r2 : SegReached T ({ c.out.st with mesh := (c1.dst.makeElem T T.cellDim hs).mesh } : SegState P) :=
    r1.step (op := .mesh (.elem T.cellDim hs))
      (fun o ho => by simp only [SOp.creation, Option.some.injEq] at ho; subst ho; exact hnd) hst g2.unique
  have hcount : (c1.dst.makeElem T T.cellDim hs).slot <
      ({ c.out.st with mesh := (c1.dst.makeElem T T.cellDim hs).mesh } : SegState P).mesh.count T.cellDim := by
    rw [hslot]
    unfold Mesh.count
    rw [if_neg (by omega)]
    have := congrArg List.length i1.cells
    simp only [List.length_map, List.length_append, List.length_singleton] at this
    simp only [List.length_map]; omega
  obtain ⟨o, e2, m2, r3, n3, a3, s3⟩ := addToSegs_spec hnm (Nat.le_refl T.cellDim) (src.st.segmentIds T.cellDim t)
    ⟨{ c.out.st with mesh := (c1.dst.makeElem T T.cellDim hs).mesh }, c.out.reg⟩ hcount r2 h.reg hf
  refine ⟨⟨o, c1.map⟩, u1, ?_, ⟨?_, ?_, ?_, ?_, r3, n3, ?_, ?_⟩⟩
  · simp only [copySegCell, e1, hstep, SegState.queryIds, hq, if_true, e2]
  · simp only [m2, List.map_append, List.map_cons, List.map_nil]; exact i1
  · intro t' ht'
    refine d1 _ ?_
    rcases List.mem_append.1 ht' with h' | h'
    · exact List.mem_append_left _ (List.mem_map.2 ⟨t', h', rfl⟩)
    · simp only [List.mem_singleton] at h'; subst h'; simp
  · intro w hw
    rcases s1 w hw with h' | h'
    · obtain ⟨t', ht', hw'⟩ := h.back w h'
      exact ⟨t', by simp [ht'], hw'⟩
    · exact ⟨t, by simp, h'⟩
  · simp only [m2]; exact g2
  · intro g x
    simp only [a3, h.added, hslot, List.length_map]
    constructor
    · rintro (⟨i, t', h1, h2, h3⟩ | ⟨h1, h2⟩)
      · exact ⟨i, t', by rw [List.getElem?_append_left (List.getElem?_eq_some_iff.1 h1).1]; exact h1, h2, h3⟩
      · exact ⟨ts.length, t, by simp, h1, h2⟩
    · rintro ⟨i, t', h1, h2, h3⟩
      by_cases hi : i < ts.length
      · rw [List.getElem?_append_left hi] at h1
        exact Or.inl ⟨i, t', h1, h2, h3⟩
      · rw [List.getElem?_append_right (by omega)] at h1
        obtain ⟨h4, h5⟩ := List.getElem?_eq_some_iff.1 h1
        simp only [List.length_singleton] at h4
        have : i = ts.length := by omega
        subst this
        simp only [Nat.sub_self, List.getElem_cons_zero] at h5
        subst h5
        exact Or.inr ⟨h2, h3⟩
  · intro x
    simp only [s3, h.segs, List.mem_append, List.mem_singleton]
    constructor
    · rintro (⟨t', h1, h2⟩ | ⟨g, h1, h2⟩)
      · exact ⟨t', Or.inl h1, h2⟩
      · exact ⟨t, Or.inr rfl, g, h1, h2⟩
    · rintro ⟨t', h1 | rfl, h2⟩
      · exact Or.inl ⟨t', h1, h2⟩
      · exact Or.inr h2

theorem copySegCells_spec {nm : Int → N} (hnm : Function.Injective nm) {old : N → Prop} {T : Topo} (hT : T.WF)
    (hn : 1 ≤ T.cellDim) {src : SegMesh P N} (hu : UniqueVids src.st.mesh) :
    ∀ {L used ts : List Nat} {c : CopySegSt P N}, SCInv nm old T src.st used ts c →
    (∀ t ∈ L, (src.st.mesh.vertsOf T.cellDim t).Nodup ∧ T.Arity T.cellDim (src.st.mesh.vertsOf T.cellDim t).length ∧
      ∀ v ∈ src.st.mesh.vertsOf T.cellDim t, v < src.st.mesh.verts.length) →
    (∀ t ∈ L, src.st.recorded T.cellDim t = true) →
    (∀ t ∈ L, ∀ g ∈ src.st.segmentIds T.cellDim t, ¬ old (nm (g : Int))) →
    ∃ c' used', copySegCells nm T src c L = .ok c' ∧ SCInv nm old T src.st used' (ts ++ L) c'
  | [], used, ts, c, h, _, _, _ => ⟨c, used, rfl, by simpa using h⟩
  | t :: L, used, ts, c, h, hv, hq, hf => by
    obtain ⟨c1, u1, e1, i1⟩ := copySegCell_spec hnm hT hn hu h (hv t (by simp)) (hq t (by simp)) (hf t (by simp))
    obtain ⟨c2, u2, e2, i2⟩ := copySegCells_spec hnm hT hn hu (L := L) i1 (fun t' ht' => hv t' (by simp [ht']))
      (fun t' ht' => hq t' (by simp [ht'])) (fun t' ht' => hf t' (by simp [ht']))
    refine ⟨c2, u2, ?_, by simpa using i2⟩
    simp only [copySegCells, e1, e2]

/-- The start of a copy into a segmentation which never listed an element. -/
theorem SCInv.start (nm : Int → N) (T : Topo) (src : SegState P) (dst : SegMesh P N) (ha : dst.st.all = fun _ => []) :
    SCInv nm (fun n => dst.reg.names n ≠ none) T src [] [] ⟨dst.cleared, []⟩ := by
  have he : dst.cleared.st = SegState.empty := by
    unfold SegMesh.cleared SegState.clearAll SegState.empty; simp only [ha]
  have hm : dst.cleared.st.mesh = Mesh.empty := by rw [he]; rfl
  refine ⟨?_, by simp, by simp, ?_, ?_, Numbered.clear nm dst.reg, ?_, ?_⟩
  · simp only [hm]; exact CInv.empty T src.mesh
  · simp only [hm]; exact VidsCont.empty
  · simp only [he]
    exact ⟨[], by simp, rfl, VidsCont.empty.unique⟩
  · intro g x; simp [he, SegState.empty]
  · intro x; simp [SegMesh.cleared, Reg.clear]

/-! Hull cells with their segments -/

/-- After the pairs (segment, facet on its boundary) have been visited; `fs` are the facets in the order
in which they appeared first. -/
structure HInv (nm : Int → N) (old : N → Prop) (T T' : Topo) (src : Mesh P) (used fs : List Nat)
    (pairs : List (Nat × Nat)) (c : HullSt P N) : Prop where
  cp : CInv T' src used (fs.map (src.vertsOf (T.cellDim - 1))) ⟨c.out.st.mesh, c.map⟩
  sub : ∀ f ∈ fs, src.vertsOf (T.cellDim - 1) f ⊆ used
  back : ∀ w ∈ used, ∃ f ∈ fs, w ∈ src.vertsOf (T.cellDim - 1) f
  gen : VidsCont c.out.st.mesh
  reached : SegReached T' c.out.st
  reg : Numbered nm old c.out.reg
  nodup : fs.Nodup
  seen : ∀ f, f ∈ fs ↔ ∃ g, (g, f) ∈ pairs
  known : ∀ (i f : Nat), fs[i]? = some f →
    c.cells.find? (fun e => e.1 == src.eid (T.cellDim - 1) f) = some (src.eid (T.cellDim - 1) f, i)
  fresh : ∀ f < src.count (T.cellDim - 1), f ∉ fs →
    c.cells.find? (fun e => e.1 == src.eid (T.cellDim - 1) f) = none
  added : ∀ g x, x ∈ c.out.st.added g ↔ ∃ (i f : Nat), fs[i]? = some f ∧ (g, f) ∈ pairs ∧ x = (T'.cellDim, i)

/-- What a facet of the source is good for. -/
def FacetOK (T T' : Topo) (src : Mesh P) (f : Nat) : Prop :=
  f < src.count (T.cellDim - 1) ∧ (src.vertsOf (T.cellDim - 1) f).Nodup ∧
    T'.Arity T'.cellDim (src.vertsOf (T.cellDim - 1) f).length ∧
    ∀ v ∈ src.vertsOf (T.cellDim - 1) f, v < src.verts.length

theorem hullFacet_spec {nm : Int → N} {old : N → Prop} {T T' : Topo} (hT' : T'.WF)
    (hn : 1 ≤ T'.cellDim) {src : Mesh P} (hI : Inv T src) (hu : UniqueVids src) {used fs : List Nat}
    {pairs : List (Nat × Nat)} {c : HullSt P N} (h : HInv nm old T T' src used fs pairs c)
    (hfs : ∀ f ∈ fs, FacetOK T T' src f) {g f : Nat} (hf : FacetOK T T' src f) :
    ∃ c' used' fs', hullFacet T T' src g c f = some c' ∧ HInv nm old T T' src used' fs' (pairs ++ [(g, f)]) c' ∧
      (∀ f' ∈ fs', FacetOK T T' src f') ∧ c'.out.reg = c.out.reg := by
  by_cases hm : f ∈ fs
  · obtain ⟨i, hi⟩ := List.mem_iff_getElem?.1 hm
    have hcount : i < c.out.st.mesh.count T'.cellDim := by
      unfold Mesh.count
      rw [if_neg (by omega)]
      have := congrArg List.length h.cp.cells
      simp only [List.length_map] at this
      have h2 := (List.getElem?_eq_some_iff.1 hi).1
      omega
    have hstep : c.out.st.step T' (.add g T'.cellDim i) = some (c.out.st.addElem T' g T'.cellDim i) := by
      simp only [SegState.step]; rw [if_pos ⟨Nat.le_refl _, hcount⟩]
    have hmesh : (c.out.st.addElem T' g T'.cellDim i).mesh = c.out.st.mesh := by
      unfold SegState.addElem; simp only; rw [(addAll_mesh g _ c.out.st).1]
    have ha : ∀ g', (c.out.st.addElem T' g T'.cellDim i).added g' =
        if g' = g then c.out.st.added g ++ [(T'.cellDim, i)] else c.out.st.added g' := by
      intro g'; unfold SegState.addElem; simp only; rw [(addAll_mesh g _ c.out.st).2]
    have hr1 : SegReached T' (c.out.st.addElem T' g T'.cellDim i) :=
      h.reached.step (op := .add g T'.cellDim i) (fun o ho => by simp [SOp.creation] at ho) hstep
        (by rw [hmesh]; exact h.gen.unique)
    refine ⟨{ c with out := { c.out with st := c.out.st.addElem T' g T'.cellDim i } }, used, fs, ?_,
      ⟨?_, h.sub, h.back, ?_, hr1, h.reg, h.nodup, ?_, h.known, h.fresh, ?_⟩, hfs, rfl⟩
    · unfold hullFacet; rw [h.known i f hi]
    · simp only [hmesh]; exact h.cp
    · simp only [hmesh]; exact h.gen
    · intro f'
      rw [h.seen f']
      simp only [List.mem_append, List.mem_singleton, Prod.mk.injEq]
      constructor
      · rintro ⟨g', h'⟩; exact ⟨g', Or.inl h'⟩
      · rintro ⟨g', h' | ⟨rfl, rfl⟩⟩
        · exact ⟨g', h'⟩
        · exact (h.seen f').1 hm
    · intro g' x
      simp only [ha, List.mem_append, List.mem_singleton, Prod.mk.injEq]
      constructor
      · intro hx
        by_cases hg : g' = g
        · rw [if_pos hg, List.mem_append, List.mem_singleton] at hx
          rcases hx with hx | hx
          · rw [← hg] at hx
            obtain ⟨j, f', h1, h2, h3⟩ := (h.added g' x).1 hx
            exact ⟨j, f', h1, Or.inl h2, h3⟩
          · exact ⟨i, f, hi, Or.inr ⟨hg, rfl⟩, hx⟩
        · rw [if_neg hg] at hx
          obtain ⟨j, f', h1, h2, h3⟩ := (h.added g' x).1 hx
          exact ⟨j, f', h1, Or.inl h2, h3⟩
      · rintro ⟨j, f', h1, h2 | ⟨h2, h4⟩, h3⟩
        · have := (h.added g' x).2 ⟨j, f', h1, h2, h3⟩
          split
          · rename_i hg; rw [← hg]; exact List.mem_append_left _ this
          · exact this
        · subst h4
          have : j = i := by
            obtain ⟨l1, e1⟩ := List.getElem?_eq_some_iff.1 h1
            obtain ⟨l2, e2⟩ := List.getElem?_eq_some_iff.1 hi
            exact (h.nodup.getElem_inj_iff).1 (e1.trans e2.symm)
          subst this
          rw [if_pos h2, h3]; simp
  · obtain ⟨c1, u1, hs, e1, hnd, hstep, hslot, hverts, p1, i1, d1, s1⟩ := copyElement_full hT' hn hu h.cp
      (fun ws hws => by obtain ⟨t', ht', rfl⟩ := List.mem_map.1 hws; exact h.sub t' ht') hf.2
    obtain ⟨g1, r1⟩ := copyVerts_reached (T := T') (st := c.out.st) h.gen h.reached e1
    have g2 : VidsCont (c1.dst.makeElem T' T'.cellDim hs).mesh :=
      step_vidsCont (T := T') (op := .elem T'.cellDim hs) g1 trivial hstep
    obtain ⟨st', hst', hmesh, hadd⟩ : ∃ st' : SegState P,
        (({ c.out.st with mesh := c1.dst } : SegState P)).makeIn T' g (.elem T'.cellDim hs) = some st' ∧
        st'.mesh = (c1.dst.makeElem T' T'.cellDim hs).mesh ∧
        ∀ g', st'.added g' = if g' = g then c.out.st.added g ++ [(T'.cellDim, fs.length)] else c.out.st.added g' := by
      unfold SegState.makeIn
      simp only [hstep, Option.map_some, Option.some.injEq, exists_eq_left']
      refine ⟨?_, fun g' => ?_⟩
      · unfold SegState.addElem; simp only; exact (addAll_mesh _ _ _).1
      · unfold SegState.addElem
        simp only [Mesh.created, (addAll_mesh _ _ _).2, hslot, List.length_map]
    have r2 : SegReached T' st' := by
      refine r1.step (op := .make g (.elem T'.cellDim hs)) (fun o ho => ?_) hst' ?_
      · simp only [SOp.creation, Option.some.injEq] at ho; subst ho; exact hnd
      · rw [hmesh]; exact g2.unique
    have hlook : ∀ f' < src.count (T.cellDim - 1), f' ≠ f →
        (src.eid (T.cellDim - 1) f == src.eid (T.cellDim - 1) f') = false := by
      intro f' hf' hne
      refine beq_false_of_ne (fun e => hne ?_)
      exact (eid_inj hI hu hf.1 hf' e).symm
    refine ⟨⟨{ c.out with st := st' }, c1.map, (src.eid (T.cellDim - 1) f, fs.length) :: c.cells⟩, u1, fs ++ [f], ?_,
      ⟨?_, ?_, ?_, ?_, r2, h.reg, ?_, ?_, ?_, ?_, ?_⟩, ?_, rfl⟩
    · unfold hullFacet
      rw [h.fresh f hf.1 hm]
      simp only [e1, Option.bind_some, hst', Option.map_some, hslot, List.length_map]
    · simp only [hmesh, List.map_append, List.map_cons, List.map_nil]; exact i1
    · intro t' ht'
      refine d1 _ ?_
      rcases List.mem_append.1 ht' with h' | h'
      · exact List.mem_append_left _ (List.mem_map.2 ⟨t', h', rfl⟩)
      · simp only [List.mem_singleton] at h'; subst h'; simp
    · intro w hw
      rcases s1 w hw with h' | h'
      · obtain ⟨t', ht', hw'⟩ := h.back w h'
        exact ⟨t', by simp [ht'], hw'⟩
      · exact ⟨f, by simp, h'⟩
    · simp only [hmesh]; exact g2
    · rw [List.nodup_append]
      exact ⟨h.nodup, by simp, fun a ha b hb => by simp only [List.mem_singleton] at hb; subst hb; exact fun e => hm (e ▸ ha)⟩
    · intro f'
      simp only [List.mem_append, List.mem_singleton, Prod.mk.injEq, h.seen f']
      constructor
      · rintro (⟨g', h'⟩ | rfl)
        · exact ⟨g', Or.inl h'⟩
        · exact ⟨g, Or.inr ⟨rfl, rfl⟩⟩
      · rintro ⟨g', h' | ⟨rfl, rfl⟩⟩
        · exact Or.inl ⟨g', h'⟩
        · exact Or.inr rfl
    · intro i f' hi
      by_cases hlt : i < fs.length
      · rw [List.getElem?_append_left hlt] at hi
        have hne : f' ≠ f := by rintro rfl; exact hm (List.mem_of_getElem? hi)
        simp only [List.find?_cons, hlook f' (hfs f' (List.mem_of_getElem? hi)).1 hne]
        exact h.known i f' hi
      · rw [List.getElem?_append_right (by omega)] at hi
        obtain ⟨h1, h2⟩ := List.getElem?_eq_some_iff.1 hi
        simp only [List.length_singleton] at h1
        have : i = fs.length := by omega
        subst this
        simp only [Nat.sub_self, List.getElem_cons_zero] at h2
        subst h2
        simp
    · intro f' hf' hnm
      simp only [List.mem_append, List.mem_singleton, not_or] at hnm
      simp only [List.find?_cons, hlook f' hf' hnm.2]
      exact h.fresh f' hf' hnm.1
    · intro g' x
      simp only [hadd, List.mem_append, List.mem_singleton, Prod.mk.injEq]
      constructor
      · intro hx
        have key : x ∈ c.out.st.added g' → ∃ i f', (fs ++ [f])[i]? = some f' ∧
            ((g', f') ∈ pairs ∨ g' = g ∧ f' = f) ∧ x = (T'.cellDim, i) := by
          intro hx
          obtain ⟨j, f', h1, h2, h3⟩ := (h.added g' x).1 hx
          exact ⟨j, f', by rw [List.getElem?_append_left (List.getElem?_eq_some_iff.1 h1).1]; exact h1, Or.inl h2, h3⟩
        by_cases hg : g' = g
        · rw [if_pos hg, List.mem_append, List.mem_singleton] at hx
          rcases hx with hx | hx
          · exact key (by rw [hg]; exact hx)
          · exact ⟨fs.length, f, by simp, Or.inr ⟨hg, rfl⟩, hx⟩
        · rw [if_neg hg] at hx
          exact key hx
      · rintro ⟨j, f', h1, h2, h3⟩
        by_cases hlt : j < fs.length
        · rw [List.getElem?_append_left hlt] at h1
          have h2' : (g', f') ∈ pairs := by
            refine h2.resolve_right (fun h' => hm ?_)
            rw [← h'.2]; exact List.mem_of_getElem? h1
          have := (h.added g' x).2 ⟨j, f', h1, h2', h3⟩
          split
          · rename_i hg; rw [← hg]; exact List.mem_append_left _ this
          · exact this
        · rw [List.getElem?_append_right (by omega)] at h1
          obtain ⟨h4, h5⟩ := List.getElem?_eq_some_iff.1 h1
          simp only [List.length_singleton] at h4
          have : j = fs.length := by omega
          subst this
          simp only [Nat.sub_self, List.getElem_cons_zero] at h5
          subst h5
          have hg : g' = g := by
            rcases h2 with h2 | h2
            · exact absurd ((h.seen f).2 ⟨g', h2⟩) hm
            · exact h2.1
          rw [if_pos hg, h3]; simp
    · intro f' hf'
      rcases List.mem_append.1 hf' with h' | h'
      · exact hfs f' h'
      · simp only [List.mem_singleton] at h'; subst h'; exact hf

theorem hullFacets_spec {nm : Int → N} {old : N → Prop} {T T' : Topo} (hT' : T'.WF)
    (hn : 1 ≤ T'.cellDim) {src : Mesh P} (hI : Inv T src) (hu : UniqueVids src) {g : Nat} :
    ∀ {L used fs : List Nat} {pairs : List (Nat × Nat)} {c : HullSt P N}, HInv nm old T T' src used fs pairs c →
    (∀ f ∈ fs, FacetOK T T' src f) → (∀ f ∈ L, FacetOK T T' src f) →
    ∃ c' used' fs', hullFacets T T' src g c L = some c' ∧
      HInv nm old T T' src used' fs' (pairs ++ L.map (fun f => (g, f))) c' ∧
      (∀ f' ∈ fs', FacetOK T T' src f') ∧ c'.out.reg = c.out.reg
  | [], used, fs, pairs, c, h, hfs, _ => ⟨c, used, fs, rfl, by simpa using h, hfs, rfl⟩
  | f :: L, used, fs, pairs, c, h, hfs, hL => by
    obtain ⟨c1, u1, f1, e1, i1, k1, q1⟩ := hullFacet_spec hT' hn hI hu h hfs (g := g) (hL f (by simp))
    obtain ⟨c2, u2, f2, e2, i2, k2, q2⟩ := hullFacets_spec hT' hn hI hu (g := g) (L := L) i1 k1
      (fun f' hf' => hL f' (by simp [hf']))
    refine ⟨c2, u2, f2, ?_, by simpa using i2, k2, q2.trans q1⟩
    simp only [hullFacets, e1, Option.bind_some, e2]

/-- The pairs visited. -/
def hullPairs (T : Topo) (src : IState P) (gs : List Nat) : List (Nat × Nat) :=
  gs.flatMap (fun g => (collectFacets T src.mesh (src.seg g) ((src.seg g).content (T.cellDim - 1))).2.map (fun f => (g, f)))

theorem hullSegs_spec {nm : Int → N} (hnm : Function.Injective nm) {old : N → Prop} {T T' : Topo} (hT' : T'.WF)
    (hn : 1 ≤ T'.cellDim) {src : IState P} (hI : Inv T src.mesh) (hu : UniqueVids src.mesh) :
    ∀ {gs used fs : List Nat} {pairs : List (Nat × Nat)} {c : HullSt P N}, HInv nm old T T' src.mesh used fs pairs c →
    (∀ f ∈ fs, FacetOK T T' src.mesh f) → (∀ x ∈ hullPairs T src gs, FacetOK T T' src.mesh x.2) →
    (∀ g ∈ gs, ¬ old (nm (g : Int))) →
    ∃ c' used' fs', hullSegs nm T T' src c gs = .ok c' ∧
      HInv nm old T T' src.mesh used' fs' (pairs ++ hullPairs T src gs) c' ∧
      ∀ x, x ∈ c'.out.reg.segs ↔ x ∈ c.out.reg.segs ∨ ∃ g ∈ gs, x = ((g : Int), nm (g : Int))
  | [], used, fs, pairs, c, h, _, _, _ => ⟨c, used, fs, rfl, by simpa [hullPairs] using h, by simp⟩
  | g :: gs, used, fs, pairs, c, h, hfs, hp, hf => by
    obtain ⟨r, e0, n0, m0⟩ := h.reg.getMakeId hnm (hf g (by simp))
    have h0 : HInv nm old T T' src.mesh used fs pairs { c with out := { c.out with reg := r } } :=
      ⟨h.cp, h.sub, h.back, h.gen, h.reached, n0, h.nodup, h.seen, h.known, h.fresh, h.added⟩
    obtain ⟨c1, u1, f1, e1, i1, k1, q1⟩ := hullFacets_spec hT' hn hI hu (g := g)
      (L := (collectFacets T src.mesh (src.seg g) ((src.seg g).content (T.cellDim - 1))).2) h0 hfs
      (fun f hf' => hp (g, f) (by
        simp only [hullPairs, List.flatMap_cons, List.mem_append]
        exact Or.inl (List.mem_map.2 ⟨f, hf', rfl⟩)))
    obtain ⟨c2, u2, f2, e2, i2, s2⟩ := hullSegs_spec hnm hT' hn hI hu (gs := gs) i1 k1
      (fun x hx => hp x (by
        simp only [hullPairs, List.flatMap_cons, List.mem_append]
        exact Or.inr hx)) (fun g' hg' => hf g' (by simp [hg']))
    refine ⟨c2, u2, f2, ?_, ?_, ?_⟩
    · simp only [hullSegs, e0, e1, e2]
    · rw [List.append_assoc] at i2
      simpa only [hullPairs, List.flatMap_cons] using i2
    · intro x
      rw [s2, q1, m0]
      simp only [List.mem_cons, exists_eq_or_imp, or_assoc]

theorem HInv.start (nm : Int → N) (T T' : Topo) (src : Mesh P) (dst : SegMesh P N) (ha : dst.st.all = fun _ => []) :
    HInv nm (fun n => dst.reg.names n ≠ none) T T' src [] [] [] ⟨dst.cleared, [], []⟩ := by
  have he : dst.cleared.st = SegState.empty := by
    unfold SegMesh.cleared SegState.clearAll SegState.empty; simp only [ha]
  have hm : dst.cleared.st.mesh = Mesh.empty := by rw [he]; rfl
  refine ⟨?_, by simp, by simp, ?_, ?_, Numbered.clear nm dst.reg, by simp, by simp, by simp, by simp, ?_⟩
  · simp only [hm]; exact CInv.empty T' src
  · simp only [hm]; exact VidsCont.empty
  · simp only [he]
    exact ⟨[], by simp, rfl, VidsCont.empty.unique⟩
  · intro g x; simp [he, SegState.empty]

end VG
