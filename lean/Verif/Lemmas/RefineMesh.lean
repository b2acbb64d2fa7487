import Verif.Model.RefineMesh
import Verif.Lemmas.Segments
import Verif.Lemmas.Reach

/-!
Refinement of a whole mesh: what the loop over the cells keeps.
-/

namespace VG

variable {P : Type}

/-- The handle recorded for a vertex of the source. -/
def RefSt.look (src : Mesh P) (c : RefSt P) (v : Nat) : Option Nat :=
  (c.map.find? (fun e => e.1 == src.vid v)).map (·.2)

/-- The handle for a label of the cell `t`. -/
def RefSt.nameOf (T : Topo) (src : Mesh P) (ev : Nat → Option Nat) (c : RefSt P) (t l : Nat) : Option Nat :=
  if l < (src.vertsOf T.cellDim t).length then (src.vertsOf T.cellDim t)[l]?.bind (c.look src)
  else (src.bndOf T.cellDim t 1)[l - (src.vertsOf T.cellDim t).length]?.bind ev

/-- The vertices by labels as given to `apply`. -/
def RefSt.recs (T : Topo) (src : Mesh P) (ev : Nat → Option Nat) (c : RefSt P) (t : Nat) : List (Option (Vtx P)) :=
  (src.vertsOf T.cellDim t).map (fun v => (c.look src v).bind (fun s => c.out.mesh.verts[s]?)) ++
    (src.bndOf T.cellDim t 1).map (fun e => (ev e).bind (fun s => c.out.mesh.verts[s]?))

structure RInv (T : Topo) (src : SegState P) (ev : Nat → Option Nat) (out0 : SegState P) (c : RefSt P) : Prop where
  reached : SegReached T c.out
  gen : VidsCont c.out.mesh
  verts : out0.mesh.verts <+: c.out.mesh.verts
  map : ∀ e ∈ c.map, ∃ v < src.mesh.verts.length, e.1 = src.mesh.vid v ∧ out0.mesh.verts.length ≤ e.2 ∧
    e.2 < c.out.mesh.verts.length ∧ c.out.mesh.ptOf e.2 = src.mesh.ptOf v
  inj : c.map.Pairwise (fun a b => a.1 ≠ b.1 ∧ a.2 ≠ b.2)
  cells : ∃ hs, (c.out.mesh.elems T.cellDim).map (·.verts) = (out0.mesh.elems T.cellDim).map (·.verts) ++ hs ∧
    List.Forall₂ (fun (k : Nat × List Nat) h => k.2.map (c.nameOf T src.mesh ev k.1) = h.map some) c.kids hs
  added : ∀ g x, x ∈ c.out.added g ↔ x ∈ out0.added g ∨ ∃ (i : Nat) (k : Nat × List Nat), c.kids[i]? = some k ∧
    g ∈ src.segmentIds T.cellDim k.1 ∧ x = (T.cellDim, (out0.mesh.elems T.cellDim).length + i)

/-- Growth of the state. -/
structure RExt (src : Mesh P) (c c' : RefSt P) : Prop where
  verts : c.out.mesh.verts <+: c'.out.mesh.verts
  look : ∀ v s, c.look src v = some s → c'.look src v = some s

theorem RExt.refl (src : Mesh P) (c : RefSt P) : RExt src c c := ⟨List.prefix_refl _, fun _ _ h => h⟩

theorem RExt.trans {src : Mesh P} {a b c : RefSt P} (h : RExt src a b) (h' : RExt src b c) : RExt src a c :=
  ⟨h.verts.trans h'.verts, fun v s hs => h'.look v s (h.look v s hs)⟩

theorem RExt.nameOf {T : Topo} {src : Mesh P} {ev : Nat → Option Nat} {c c' : RefSt P} (h : RExt src c c') {t l s : Nat}
    (hs : c.nameOf T src ev t l = some s) : c'.nameOf T src ev t l = some s := by
  unfold RefSt.nameOf at hs ⊢
  split
  · rename_i hl
    rw [if_pos hl] at hs
    obtain ⟨v, h1, h2⟩ := Option.bind_eq_some_iff.1 hs
    exact Option.bind_eq_some_iff.2 ⟨v, h1, h.look v s h2⟩
  · rename_i hl
    rw [if_neg hl] at hs
    exact hs

theorem RExt.names {T : Topo} {src : Mesh P} {ev : Nat → Option Nat} {c c' : RefSt P} (h : RExt src c c') {t : Nat} :
    ∀ {ls hs : List Nat}, ls.map (c.nameOf T src ev t) = hs.map some → ls.map (c'.nameOf T src ev t) = hs.map some
  | [], [], _ => rfl
  | [], _ :: _, h => by simp at h
  | _ :: _, [], h => by simp at h
  | l :: ls, s :: hs, h1 => by
    simp only [List.map_cons, List.cons.injEq] at h1 ⊢
    exact ⟨h.nameOf h1.1, RExt.names h h1.2⟩

theorem forall₂_imp {α β : Type} {R S : α → β → Prop} : ∀ {l : List α} {l' : List β},
    (∀ a b, R a b → S a b) → List.Forall₂ R l l' → List.Forall₂ S l l'
  | _, _, _, .nil => .nil
  | _, _, h, .cons h1 h2 => .cons (h _ _ h1) (forall₂_imp h h2)

theorem forall₂_snoc {α β : Type} {R : α → β → Prop} : ∀ {l : List α} {l' : List β} {a : α} {b : β},
    List.Forall₂ R l l' → R a b → List.Forall₂ R (l ++ [a]) (l' ++ [b])
  | _, _, _, _, .nil, h => .cons h .nil
  | _, _, _, _, .cons h1 h2, h => .cons h1 (forall₂_snoc h2 h)

theorem SegReached.step {T : Topo} {st st' : SegState P} (h : SegReached T st) {op : SOp P}
    (hd : ∀ o, op.creation = some o → o.Distinct) (hs : st.step T op = some st') (hu : UniqueVids st'.mesh) :
    SegReached T st' := by
  obtain ⟨ops, h1, h2, _⟩ := h
  refine ⟨ops ++ [op], ?_, ?_, hu⟩
  · intro o ho
    rcases List.mem_append.1 ho with ho | ho
    · exact h1 o ho
    · simp only [List.mem_singleton] at ho; subst ho; exact hd
  · have : ∀ (l : List (SOp P)) (s : SegState P), s.run T (l ++ [op]) = (s.run T l).bind (fun s' => s'.step T op) := by
      intro l
      induction l with
      | nil => intro s; simp [SegState.run]
      | cons a l ih =>
        intro s
        simp only [List.cons_append, SegState.run, Option.bind_assoc]
        cases s.step T a with
        | none => rfl
        | some s' => simp [ih s']
    rw [this, h2]; exact hs

/-! One vertex -/

theorem refVertex_spec {T : Topo} {src : SegState P} {ev : Nat → Option Nat} {out0 : SegState P}
    {c : RefSt P} (h : RInv T src ev out0 c) {v : Nat} (hv : v < src.mesh.verts.length) :
    ∃ c' s, refVertex src.mesh c v = some (c', s) ∧ RInv T src ev out0 c' ∧ RExt src.mesh c c' ∧ c'.kids = c.kids ∧
      c'.look src.mesh v = some s := by
  unfold refVertex
  cases hf : c.map.find? (fun e => e.1 == src.mesh.vid v) with
  | some e =>
    exact ⟨c, e.2, rfl, h, RExt.refl _ _, rfl, by simp [RefSt.look, hf]⟩
  | none =>
    obtain ⟨p, hp⟩ : ∃ p, src.mesh.ptOf v = some p := by
      unfold Mesh.ptOf; rw [List.getElem?_eq_getElem hv]; exact ⟨_, rfl⟩
    rw [hp]
    have hstep : c.out.step T (.mesh (.vertex none p)) = some { c.out with mesh := c.out.mesh.makeVertex none p } := rfl
    have hgen : VidsCont (c.out.mesh.makeVertex none p) :=
      step_vidsCont (T := T) (op := .vertex none p) h.gen rfl rfl
    have hext : RExt src.mesh c ⟨{ c.out with mesh := c.out.mesh.makeVertex none p },
        (src.mesh.vid v, c.out.mesh.verts.length) :: c.map, c.kids⟩ := by
      refine ⟨⟨_, rfl⟩, fun w s hs => ?_⟩
      unfold RefSt.look at hs ⊢
      simp only [List.find?_cons]
      split
      · rename_i he
        have : src.mesh.vid v = src.mesh.vid w := by simpa using he
        rw [← this, hf] at hs; cases hs
      · exact hs
    refine ⟨_, c.out.mesh.verts.length, rfl, ⟨?_, hgen, ?_, ?_, ?_, ?_, h.added⟩, hext, rfl, by simp [RefSt.look]⟩
    · exact h.reached.step (op := .mesh (.vertex none p)) (fun o ho => by simp [SOp.creation] at ho; subst ho; trivial) hstep hgen.unique
    · exact h.verts.trans ⟨_, rfl⟩
    · intro e he
      rcases List.mem_cons.1 he with rfl | he
      · refine ⟨v, hv, rfl, h.verts.length_le, by simp [Mesh.makeVertex], ?_⟩
        rw [hp]; simp [Mesh.ptOf, Mesh.makeVertex]
      · obtain ⟨w, h1, h2, h3, h4, h5⟩ := h.map e he
        refine ⟨w, h1, h2, h3, by simp [Mesh.makeVertex]; omega, ?_⟩
        rw [← h5]
        simp only [Mesh.ptOf, Mesh.makeVertex]
        rw [List.getElem?_append_left h4]
    · refine List.pairwise_cons.2 ⟨fun e he => ⟨fun e1 => ?_, ?_⟩, h.inj⟩
      · have := List.find?_eq_none.1 hf e he
        simp only at e1
        rw [e1] at this; simp at this
      · obtain ⟨w, _, _, _, h4, _⟩ := h.map e he
        simp only; omega
    · obtain ⟨hs, h1, h2⟩ := h.cells
      exact ⟨hs, h1, forall₂_imp (fun k hh hk => hext.names hk) h2⟩

theorem refVerts_spec {T : Topo} {src : SegState P} {ev : Nat → Option Nat} {out0 : SegState P} :
    ∀ {vs : List Nat} {c : RefSt P}, RInv T src ev out0 c → (∀ v ∈ vs, v < src.mesh.verts.length) →
    ∃ c' ss, refVerts src.mesh c vs = some (c', ss) ∧ RInv T src ev out0 c' ∧ RExt src.mesh c c' ∧ c'.kids = c.kids ∧
      vs.map (c'.look src.mesh) = ss.map some
  | [], c, h, _ => ⟨c, [], rfl, h, RExt.refl _ _, rfl, rfl⟩
  | v :: vs, c, h, hv => by
    obtain ⟨c1, s, e1, i1, x1, k1, l1⟩ := refVertex_spec h (hv v (by simp))
    obtain ⟨c2, ss, e2, i2, x2, k2, l2⟩ := refVerts_spec (vs := vs) i1 (fun w hw => hv w (by simp [hw]))
    refine ⟨c2, s :: ss, by simp [refVerts, e1, e2], i2, x1.trans x2, k2.trans k1, ?_⟩
    simp only [List.map_cons, l2, x2.look v s l1]

/-! One child -/

theorem addAll_run {T : Topo} {d s : Nat} (hd : d ≤ T.cellDim) : ∀ (gs : List Nat) (st : SegState P), s < st.mesh.count d →
    SegReached T st → ∃ st', st.run T (gs.map (fun g => .add g d s)) = some st' ∧ st'.mesh = st.mesh ∧ SegReached T st' ∧
      ∀ g x, x ∈ st'.added g ↔ x ∈ st.added g ∨ (g ∈ gs ∧ x = (d, s))
  | [], st, _, hr => ⟨st, rfl, rfl, hr, by simp⟩
  | g :: gs, st, hs, hr => by
    have hstep : st.step T (.add g d s) = some (st.addElem T g d s) := by
      simp only [SegState.step]; rw [if_pos ⟨hd, hs⟩]
    have hm : (st.addElem T g d s).mesh = st.mesh := by
      unfold SegState.addElem; simp only; rw [(addAll_mesh g _ st).1]
    have ha : ∀ g', (st.addElem T g d s).added g' = if g' = g then st.added g ++ [(d, s)] else st.added g' := by
      intro g'; unfold SegState.addElem; simp only; rw [(addAll_mesh g _ st).2]
    have hr1 : SegReached T (st.addElem T g d s) :=
      hr.step (op := .add g d s) (fun o ho => by simp [SOp.creation] at ho) hstep (by rw [hm]; exact hr.choose_spec.2.2)
    obtain ⟨st', e1, m1, r1, a1⟩ := addAll_run hd gs (st.addElem T g d s) (by rw [hm]; exact hs) hr1
    refine ⟨st', by simp only [List.map_cons, SegState.run, hstep, Option.bind_some, e1], m1.trans hm, r1, ?_⟩
    intro g' x
    rw [a1, ha]
    by_cases hg : g' = g
    · subst hg
      simp only [if_true, List.mem_append, List.mem_cons, true_or, true_and]
      constructor
      · rintro ((h | h) | h)
        · exact Or.inl h
        · exact Or.inr (by simpa using h)
        · exact Or.inr h.2
      · rintro (h | h)
        · exact Or.inl (Or.inl h)
        · exact Or.inl (Or.inr (by simpa using h))
    · simp [hg]

theorem mapM_label {vs : List Nat} {es : List (Option Nat)} : ∀ {ls hs : List Nat},
    ls.map (refLabel vs es) = hs.map some → ls.mapM (refLabel vs es) = some hs
  | [], [], _ => rfl
  | [], _ :: _, h => by simp at h
  | _ :: _, [], h => by simp at h
  | l :: ls, s :: hs, h => by
    simp only [List.map_cons, List.cons.injEq] at h
    simp [List.mapM_cons, h.1, mapM_label h.2]

theorem refChild_spec {T : Topo} (hT : T.WF) (hC : T.Closed) (hn : 1 ≤ T.cellDim) {src : SegState P} {ev : Nat → Option Nat}
    {out0 : SegState P} {c : RefSt P} (h : RInv T src ev out0 c) {t : Nat} {vs : List Nat} {ls hs : List Nat}
    (hl : ls.map (refLabel vs ((src.mesh.bndOf T.cellDim t 1).map ev)) = hs.map some)
    (hname : ls.map (c.nameOf T src.mesh ev t) = hs.map some)
    (hnd : hs.Nodup) (hlen : hs.length = T.nv T.cellDim) (hlt : ∀ s ∈ hs, s < c.out.mesh.verts.length) :
    ∃ c', refChild T (src.segmentIds T.cellDim t) t vs ((src.mesh.bndOf T.cellDim t 1).map ev) c ls = some c' ∧
      RInv T src ev out0 c' ∧ RExt src.mesh c c' ∧ RExt src.mesh c' c ∧ c'.kids = c.kids ++ [(t, ls)] := by
  have hI := h.reached.inv hT hC
  have hs' := makeElem_spec hT hI.mesh h.gen.unique hn ⟨hnd, Or.inl hlen, hlt⟩
  have hstep : c.out.step T (.mesh (.elem T.cellDim hs)) =
      some { c.out with mesh := (c.out.mesh.makeElem T T.cellDim hs).mesh } := by
    simp only [SegState.step, Mesh.step]
    rw [if_pos ⟨hn, le_refl _, Or.inl hlen, hlt⟩]; rfl
  have hnew : (c.out.mesh.makeElem T T.cellDim hs).new = true := hs'.isnew.2 (Or.inl rfl)
  obtain ⟨hslot, e, he1, he2⟩ := hs'.appended hnew
  have hr1 : SegReached T { c.out with mesh := (c.out.mesh.makeElem T T.cellDim hs).mesh } := by
    refine h.reached.step (op := .mesh (.elem T.cellDim hs)) (fun o ho => ?_) hstep ?_
    · simp [SOp.creation] at ho; subst ho; exact hnd
    · unfold UniqueVids; rw [hs'.ext.verts]; exact h.gen.unique
  have hcnt : (c.out.mesh.makeElem T T.cellDim hs).slot <
      ({ c.out with mesh := (c.out.mesh.makeElem T T.cellDim hs).mesh } : SegState P).mesh.count T.cellDim := by
    simp only [Mesh.count, if_neg (show T.cellDim ≠ 0 by omega), he2, hslot, List.length_append, List.length_singleton]
    omega
  obtain ⟨o, e1, m1, r1, a1⟩ := addAll_run (le_refl _) (src.segmentIds T.cellDim t) _ hcnt hr1
  have hov : o.mesh.verts = c.out.mesh.verts := by rw [m1]; exact hs'.ext.verts
  have hbase : (c.out.mesh.elems T.cellDim).length = (out0.mesh.elems T.cellDim).length + c.kids.length := by
    obtain ⟨hh, h1, h2⟩ := h.cells
    have := congrArg List.length h1
    simp only [List.length_map, List.length_append] at this
    rw [h2.length_eq]; exact this
  have hx1 : RExt src.mesh c { c with out := o, kids := c.kids ++ [(t, ls)] } :=
    ⟨by simp only; rw [hov]; exact List.prefix_refl _, fun _ _ h => h⟩
  have hx2 : RExt src.mesh { c with out := o, kids := c.kids ++ [(t, ls)] } c :=
    ⟨by simp only; rw [hov]; exact List.prefix_refl _, fun _ _ h => h⟩
  refine ⟨{ c with out := o, kids := c.kids ++ [(t, ls)] }, ?_, ⟨r1, ?_, ?_, ?_, h.inj, ?_, ?_⟩, hx1, hx2, rfl⟩
  · simp only [refChild, mapM_label hl, Option.bind_some, hstep, e1, Option.map_some]
  · have := step_vidsCont (T := T) (op := .elem T.cellDim hs) h.gen trivial (by
      simp only [Mesh.step]; rw [if_pos ⟨hn, le_refl _, Or.inl hlen, hlt⟩])
    simp only [m1]; exact this
  · simp only [hov]; exact h.verts
  · intro x hx
    obtain ⟨w, h1, h2, h3, h4, h5⟩ := h.map x hx
    refine ⟨w, h1, h2, h3, by simp only [hov]; exact h4, ?_⟩
    rw [← h5]; simp only [Mesh.ptOf, hov]
  · obtain ⟨hh, h1, h2⟩ := h.cells
    refine ⟨hh ++ [hs], ?_, ?_⟩
    · simp only [m1, he2, List.map_append, h1, List.map_cons, List.map_nil, he1, List.append_assoc]
    · exact forall₂_snoc (forall₂_imp (fun k hh hk => hx1.names hk) h2) (hx1.names hname)
  · intro g x
    simp only
    rw [a1, h.added]
    simp only [hslot, hbase]
    constructor
    · rintro ((h1 | ⟨i, k, h1, h2, h3⟩) | ⟨h1, h2⟩)
      · exact Or.inl h1
      · refine Or.inr ⟨i, k, ?_, h2, h3⟩
        rw [List.getElem?_append_left (List.getElem?_eq_some_iff.1 h1).1]; exact h1
      · exact Or.inr ⟨c.kids.length, (t, ls), by simp, h1, h2⟩
    · rintro (h1 | ⟨i, k, h1, h2, h3⟩)
      · exact Or.inl (Or.inl h1)
      · by_cases hi : i < c.kids.length
        · rw [List.getElem?_append_left hi] at h1
          exact Or.inl (Or.inr ⟨i, k, h1, h2, h3⟩)
        · rw [List.getElem?_append_right (by omega)] at h1
          obtain ⟨h4, h5⟩ := List.getElem?_eq_some_iff.1 h1
          simp only [List.length_singleton] at h4
          have hi' : i = c.kids.length := by omega
          subst hi'
          simp only [Nat.sub_self, List.getElem_cons_zero] at h5
          subst h5
          exact Or.inr ⟨h2, h3⟩

theorem refChildren_spec {T : Topo} (hT : T.WF) (hC : T.Closed) (hn : 1 ≤ T.cellDim) {src : SegState P} {ev : Nat → Option Nat}
    {out0 : SegState P} {t : Nat} {vs : List Nat} : ∀ {cells : List (List Nat)} {c : RefSt P}, RInv T src ev out0 c →
    (∀ ls ∈ cells, ∃ hs : List Nat, ls.map (refLabel vs ((src.mesh.bndOf T.cellDim t 1).map ev)) = hs.map some ∧
      ls.map (c.nameOf T src.mesh ev t) = hs.map some ∧ hs.Nodup ∧ hs.length = T.nv T.cellDim ∧
      ∀ s ∈ hs, s < c.out.mesh.verts.length) →
    ∃ c', refChildren T (src.segmentIds T.cellDim t) t vs ((src.mesh.bndOf T.cellDim t 1).map ev) c cells = some c' ∧
      RInv T src ev out0 c' ∧ RExt src.mesh c c' ∧ RExt src.mesh c' c ∧ c'.kids = c.kids ++ cells.map (fun ls => (t, ls))
  | [], c, h, _ => ⟨c, rfl, h, RExt.refl _ _, RExt.refl _ _, by simp⟩
  | ls :: cells, c, h, hc => by
    obtain ⟨hs, h1, h2, h3, h4, h5⟩ := hc ls (by simp)
    obtain ⟨c1, e1, i1, x1, y1, k1⟩ := refChild_spec hT hC hn h h1 h2 h3 h4 h5
    obtain ⟨c2, e2, i2, x2, y2, k2⟩ := refChildren_spec hT hC hn (cells := cells) i1 (fun l hl => by
      obtain ⟨hs, h1, h2, h3, h4, h5⟩ := hc l (by simp [hl])
      exact ⟨hs, h1, x1.names h2, h3, h4, fun s hs' => Nat.lt_of_lt_of_le (h5 s hs') x1.verts.length_le⟩)
    exact ⟨c2, by simp only [refChildren, e1, Option.bind_some, e2], i2, x1.trans x2, y2.trans y1, by rw [k2, k1]; simp⟩

/-! One cell -/

theorem RInv.look_spec {T : Topo} {src : SegState P} {ev : Nat → Option Nat} {out0 : SegState P} {c : RefSt P}
    (h : RInv T src ev out0 c) (hu : UniqueVids src.mesh) {v s : Nat} (hv : v < src.mesh.verts.length)
    (hs : c.look src.mesh v = some s) :
    out0.mesh.verts.length ≤ s ∧ s < c.out.mesh.verts.length ∧ c.out.mesh.ptOf s = src.mesh.ptOf v := by
  unfold RefSt.look at hs
  obtain ⟨e, he, rfl⟩ := Option.map_eq_some_iff.1 hs
  have h1 := List.find?_some he
  obtain ⟨w, hw, e1, h2, h3, h4⟩ := h.map e (List.mem_of_find?_eq_some he)
  have : w = v := vid_inj hu hw hv (by rw [← e1]; simpa using h1)
  subst this
  exact ⟨h2, h3, h4⟩

theorem RInv.look_inj {T : Topo} {src : SegState P} {ev : Nat → Option Nat} {out0 : SegState P} {c : RefSt P}
    (h : RInv T src ev out0 c) (hu : UniqueVids src.mesh) {v w s : Nat} (hv : v < src.mesh.verts.length)
    (hw : w < src.mesh.verts.length) (h1 : c.look src.mesh v = some s) (h2 : c.look src.mesh w = some s) : v = w := by
  unfold RefSt.look at h1 h2
  obtain ⟨e, he, rfl⟩ := Option.map_eq_some_iff.1 h1
  obtain ⟨f, hf, hef⟩ := Option.map_eq_some_iff.1 h2
  have e1 := List.find?_some he
  have f1 := List.find?_some hf
  have hn : (c.map.map (·.2)).Nodup := List.pairwise_map.2 (h.inj.imp (fun h => h.2))
  have : f = e := List.inj_on_of_nodup_map hn (List.mem_of_find?_eq_some hf) (List.mem_of_find?_eq_some he) hef
  subst this
  refine vid_inj hu hv hw ?_
  have e1 : f.1 = src.mesh.vid v := by simpa using e1
  have f1 : f.1 = src.mesh.vid w := by simpa using f1
  rw [← e1, f1]

/-- What is needed of `apply`: with distinct ids of the vertices it returns lists of different labels, of
vertices of the cell and of marked edges, which satisfy `Q`. -/
def KidsOK (Q : List (Option (Vtx P)) → (Nat → Bool) → List (List Nat) → Prop) (nv ne : Nat)
    (kids : List (Option (Vtx P)) → (Nat → Bool) → Option (List (List Nat))) : Prop :=
  ∀ (ls : List (Option (Vtx P))) (m : Nat → Bool), (∀ a < nv, ∃ x, ls[a]? = some (some x)) →
    (∀ a < nv, ∀ b < nv, ∀ x y, ls[a]? = some (some x) → ls[b]? = some (some y) → x.id = y.id → a = b) →
    ∃ cells, kids ls m = some cells ∧ Q ls m cells ∧ ∀ c ∈ cells, c.Nodup ∧ c.length = nv ∧
      ∀ l ∈ c, l < nv ∨ (nv ≤ l ∧ l < nv + ne ∧ m (l - nv) = true)

/-- What is needed of the vertices assigned to the marked edges. -/
structure EvOK (src : Mesh P) (mark : Nat → Bool) (ev : Nat → Option Nat) (out0 : Mesh P) : Prop where
  given : ∀ e < src.count 1, mark e = true → ∃ s, ev e = some s ∧ s < out0.verts.length
  inj : ∀ e f s, mark e = true → mark f = true → ev e = some s → ev f = some s → e = f

theorem map_look_len {α β : Type} {f : α → Option β} {l : List α} {l' : List β} (h : l.map f = l'.map Option.some) :
    l.length = l'.length := by simpa using congrArg List.length h

theorem map_look_get {α β : Type} {f : α → Option β} {l : List α} {l' : List β} (h : l.map f = l'.map Option.some) (i : Nat) :
    l[i]?.map f = l'[i]?.map Option.some := by
  simpa using congrArg (fun x => x[i]?) h

theorem RExt.recs {T : Topo} {src : SegState P} {ev : Nat → Option Nat} {out0 : SegState P} {c c' : RefSt P}
    (hev : ∀ e s, ev e = some s → s < c.out.mesh.verts.length) (h : RInv T src ev out0 c) (hu : UniqueVids src.mesh)
    (hx : RExt src.mesh c c') {t : Nat}
    (hv : ∀ v ∈ src.mesh.vertsOf T.cellDim t, v < src.mesh.verts.length ∧ ∃ s, c.look src.mesh v = some s) :
    c'.recs T src.mesh ev t = c.recs T src.mesh ev t := by
  have hget : ∀ s, s < c.out.mesh.verts.length → c'.out.mesh.verts[s]? = c.out.mesh.verts[s]? := by
    intro s hs
    rw [List.getElem?_eq_getElem hs]
    exact prefix_getElem? hx.verts (List.getElem?_eq_getElem hs)
  unfold RefSt.recs
  congr 1
  · refine List.map_congr_left (fun v hv' => ?_)
    obtain ⟨h1, s, hs⟩ := hv v hv'
    rw [hs, hx.look v s hs]
    exact hget s (h.look_spec hu h1 hs).2.1
  · refine List.map_congr_left (fun e _ => ?_)
    cases he : ev e with
    | none => rfl
    | some s => exact hget s (hev e s he)

theorem refCell_spec {T : Topo} (hT : T.WF) (hC : T.Closed) (hn : 1 ≤ T.cellDim) {src : SegState P} (hsrc : SegReached T src)
    {nv ne : Nat} (hnv : T.poly = false ∧ T.nv T.cellDim = nv) (hne : ∀ t < src.mesh.count T.cellDim, (src.mesh.bndOf T.cellDim t 1).length = ne)
    {kids : List (Option (Vtx P)) → (Nat → Bool) → Option (List (List Nat))} {Q : List (Option (Vtx P)) → (Nat → Bool) → List (List Nat) → Prop} (hk : KidsOK Q nv ne kids)
    {mark : Nat → Bool} {ev : Nat → Option Nat} {out0 : SegState P} (hev : EvOK src.mesh mark ev out0.mesh)
    (hev' : ∀ e s, ev e = some s → s < out0.mesh.verts.length) {c : RefSt P} (h : RInv T src ev out0 c) {t : Nat}
    (ht : t < src.mesh.count T.cellDim) :
    ∃ c' cells, refCell T src kids mark ev c t = some c' ∧ RInv T src ev out0 c' ∧ RExt src.mesh c c' ∧
      c'.kids = c.kids ++ cells.map (fun ls => (t, ls)) ∧
      (∀ v ∈ src.mesh.vertsOf T.cellDim t, v < src.mesh.verts.length ∧ ∃ s, c'.look src.mesh v = some s) ∧
      kids (c'.recs T src.mesh ev t) (fun i => mark ((src.mesh.bndOf T.cellDim t 1).getD i 0)) = some cells ∧
      Q (c'.recs T src.mesh ev t) (fun i => mark ((src.mesh.bndOf T.cellDim t 1).getD i 0)) cells := by
  have hI := hsrc.inv hT hC
  have hu : UniqueVids src.mesh := hsrc.choose_spec.2.2
  have ht' : t < (src.mesh.elems T.cellDim).length := by
    simpa [Mesh.count, show T.cellDim ≠ 0 by omega] using ht
  obtain ⟨hvn, hvl, hvv⟩ := hI.mesh.verts T.cellDim _ (List.getElem_mem ht')
  have hvo : src.mesh.vertsOf T.cellDim t = (src.mesh.elems T.cellDim)[t].verts := by
    unfold Mesh.vertsOf
    rw [List.getD_eq_getElem _ _ (by simpa using ht')]; simp
  rw [← hvo] at hvn hvl hvv
  replace hvl := hvl.fixed hnv.1
  obtain ⟨c1, ss, e1, i1, x1, k1, l1⟩ := refVerts_spec h hvv
  have hlen : ss.length = nv := by rw [← map_look_len l1, hvl, hnv.2]
  have hB : out0.mesh.verts.length ≤ c1.out.mesh.verts.length := i1.verts.length_le
  have hvs : ∀ v ∈ src.mesh.vertsOf T.cellDim t, ∃ s, c1.look src.mesh v = some s := by
    intro v hv
    have : c1.look src.mesh v ∈ ss.map some := by rw [← l1]; exact List.mem_map.2 ⟨v, hv, rfl⟩
    obtain ⟨s, _, hs⟩ := List.mem_map.1 this
    exact ⟨s, hs.symm⟩
  have hrecs : ss.map (fun s => c1.out.mesh.verts[s]?) ++ (src.mesh.bndOf T.cellDim t 1).map (fun e => (ev e).bind (fun s => c1.out.mesh.verts[s]?)) =
      c1.recs T src.mesh ev t := by
    unfold RefSt.recs
    congr 1
    have : (src.mesh.vertsOf T.cellDim t).map (fun v => (c1.look src.mesh v).bind (fun s => c1.out.mesh.verts[s]?)) =
        ((src.mesh.vertsOf T.cellDim t).map (c1.look src.mesh)).map (fun o => o.bind (fun s => c1.out.mesh.verts[s]?)) := by
      rw [List.map_map]; rfl
    rw [this, l1, List.map_map]; rfl
  -- the label `a < nv`
  have hlab : ∀ a < nv, ∃ v s, (src.mesh.vertsOf T.cellDim t)[a]? = some v ∧ ss[a]? = some s ∧ c1.look src.mesh v = some s ∧
      v < src.mesh.verts.length := by
    intro a ha
    have h2 : a < (src.mesh.vertsOf T.cellDim t).length := by rw [hvl, hnv.2]; exact ha
    have h3 : a < ss.length := by omega
    have h4 := map_look_get l1 a
    rw [List.getElem?_eq_getElem h2, List.getElem?_eq_getElem h3] at h4
    simp only [Option.map_some, Option.some.injEq] at h4
    exact ⟨_, _, List.getElem?_eq_getElem h2, List.getElem?_eq_getElem h3, h4, hvv _ (List.getElem_mem h2)⟩
  have hrec : ∀ a < nv, ∃ s x, ss[a]? = some s ∧ c1.out.mesh.verts[s]? = some x ∧ (c1.recs T src.mesh ev t)[a]? = some (some x) := by
    intro a ha
    obtain ⟨v, s, _, h3, h4, h5⟩ := hlab a ha
    have h6 := (i1.look_spec hu h5 h4).2.1
    refine ⟨s, _, h3, List.getElem?_eq_getElem h6, ?_⟩
    rw [← hrecs, List.getElem?_append_left (by simp; omega), List.getElem?_map, h3]
    simp [List.getElem?_eq_getElem h6]
  obtain ⟨cells, hc1, hcQ, hc2⟩ := hk (c1.recs T src.mesh ev t) (fun i => mark ((src.mesh.bndOf T.cellDim t 1).getD i 0))
    (fun a ha => by obtain ⟨_, x, _, _, h⟩ := hrec a ha; exact ⟨x, h⟩) (by
      intro a ha b hb x y hx hy hxy
      obtain ⟨s, x', h2, h3, h4⟩ := hrec a ha
      obtain ⟨s', y', h2', h3', h4'⟩ := hrec b hb
      rw [h4] at hx; rw [h4'] at hy
      simp only [Option.some.injEq] at hx hy
      subst hx; subst hy
      have hvid : s = s' := by
        obtain ⟨q1, q2⟩ := List.getElem?_eq_some_iff.1 h3
        obtain ⟨q1', q2'⟩ := List.getElem?_eq_some_iff.1 h3'
        refine vid_inj i1.gen.unique q1 q1' ?_
        unfold Mesh.vid
        rw [List.getD_eq_getElem _ _ (by simpa using q1), List.getD_eq_getElem _ _ (by simpa using q1')]
        simp [q2, q2', hxy]
      subst hvid
      obtain ⟨v, u, g1, g2, g3, g4⟩ := hlab a ha
      obtain ⟨v', u', g1', g2', g3', g4'⟩ := hlab b hb
      rw [h2] at g2; rw [h2'] at g2'
      simp only [Option.some.injEq] at g2 g2'
      subst g2; subst g2'
      have := i1.look_inj hu g4 g4' g3 g3'
      subst this
      obtain ⟨q1, q2⟩ := List.getElem?_eq_some_iff.1 g1
      obtain ⟨q1', q2'⟩ := List.getElem?_eq_some_iff.1 g1'
      exact (List.Nodup.getElem_inj_iff hvn).1 (q2.trans q2'.symm))
  have hbn := bndOf_nodup hT hI.mesh T.cellDim t 1
  have hchild : ∀ ls ∈ cells, ∃ hs : List Nat, ls.map (refLabel ss ((src.mesh.bndOf T.cellDim t 1).map ev)) = hs.map some ∧
      ls.map (c1.nameOf T src.mesh ev t) = hs.map some ∧ hs.Nodup ∧ hs.length = T.nv T.cellDim ∧
      ∀ s ∈ hs, s < c1.out.mesh.verts.length := by
    intro ls hls
    obtain ⟨d1, d2, d3⟩ := hc2 ls hls
    -- handles of labels
    have hl : ∀ l ∈ ls, ∃ s, refLabel ss ((src.mesh.bndOf T.cellDim t 1).map ev) l = some s ∧
        c1.nameOf T src.mesh ev t l = some s ∧ s < c1.out.mesh.verts.length ∧
        ((l < nv ∧ out0.mesh.verts.length ≤ s ∧ ∃ v, (src.mesh.vertsOf T.cellDim t)[l]? = some v ∧ c1.look src.mesh v = some s ∧
            v < src.mesh.verts.length) ∨
          (nv ≤ l ∧ s < out0.mesh.verts.length ∧ ∃ e, (src.mesh.bndOf T.cellDim t 1)[l - nv]? = some e ∧ mark e = true ∧ ev e = some s)) := by
      intro l hl
      rcases d3 l hl with hlt | ⟨hge, hlt, hm⟩
      · obtain ⟨v, s, g1, g2, g3, g4⟩ := hlab l hlt
        have g5 := i1.look_spec hu g4 g3
        refine ⟨s, ?_, ?_, g5.2.1, Or.inl ⟨hlt, g5.1, v, g1, g3, g4⟩⟩
        · unfold refLabel; rw [if_pos (by omega)]; exact g2
        · unfold RefSt.nameOf; rw [if_pos (by omega), g1]; exact g3
      · have hlb : l - nv < (src.mesh.bndOf T.cellDim t 1).length := by rw [hne t ht]; omega
        rw [List.getD_eq_getElem _ _ hlb] at hm
        have hem : (src.mesh.bndOf T.cellDim t 1)[l - nv] ∈ src.mesh.bndOf T.cellDim t 1 := List.getElem_mem hlb
        have hecount := bndOf_valid hI.mesh hem
        obtain ⟨s, g1, g2⟩ := hev.given _ hecount hm
        refine ⟨s, ?_, ?_, by omega, Or.inr ⟨hge, g2, _, List.getElem?_eq_getElem hlb, hm, g1⟩⟩
        · unfold refLabel; rw [if_neg (by omega), List.getElem?_map, hlen, List.getElem?_eq_getElem hlb]
          simpa using g1
        · unfold RefSt.nameOf; rw [if_neg (by omega), hvl, hnv.2, List.getElem?_eq_getElem hlb]; exact g1
    choose! f hf1 hf2 hf3 hf4 using hl
    refine ⟨ls.map f, ?_, ?_, ?_, by rw [List.length_map, d2, hnv.2], ?_⟩
    · rw [List.map_map]; exact List.map_congr_left (fun l hl => hf1 l hl)
    · rw [List.map_map]; exact List.map_congr_left (fun l hl => hf2 l hl)
    · refine (List.nodup_map_iff_inj_on d1).2 (fun a ha b hb hab => ?_)
      rcases hf4 a ha with ⟨a1, a2, v, a3, a4, a5⟩ | ⟨a1, a2, e, a3, a4, a5⟩ <;>
      rcases hf4 b hb with ⟨b1, b2, w, b3, b4, b5⟩ | ⟨b1, b2, e', b3, b4, b5⟩
      · rw [hab] at a4
        have := i1.look_inj hu a5 b5 a4 b4
        subst this
        obtain ⟨q1, q2⟩ := List.getElem?_eq_some_iff.1 a3
        obtain ⟨q1', q2'⟩ := List.getElem?_eq_some_iff.1 b3
        exact (List.Nodup.getElem_inj_iff hvn).1 (q2.trans q2'.symm)
      · omega
      · omega
      · rw [hab] at a5
        have := hev.inj e e' _ a4 b4 a5 b5
        subst this
        obtain ⟨q1, q2⟩ := List.getElem?_eq_some_iff.1 a3
        obtain ⟨q1', q2'⟩ := List.getElem?_eq_some_iff.1 b3
        have := (List.Nodup.getElem_inj_iff hbn).1 (q2.trans q2'.symm)
        omega
    · intro s hs
      obtain ⟨l, hl, rfl⟩ := List.mem_map.1 hs
      exact hf3 l hl
  obtain ⟨c2, e2, i2, x2, _, k2⟩ := refChildren_spec hT hC hn (vs := ss) i1 hchild
  refine ⟨c2, cells, ?_, i2, x1.trans x2, by rw [k2, k1], fun v hv => ⟨hvv v hv, ?_⟩, ?_⟩
  · simp only [refCell, e1, Option.bind_some, hrecs, hc1, e2]
  · obtain ⟨s, hs⟩ := hvs v hv
    exact ⟨s, x2.look v s hs⟩
  · rw [RExt.recs (fun e s he => Nat.lt_of_lt_of_le (hev' e s he) hB) i1 hu x2 (fun v hv => ⟨hvv v hv, hvs v hv⟩)]
    exact ⟨hc1, hcQ⟩

/-- The whole loop. -/
theorem simpleRefine_spec {T : Topo} (hT : T.WF) (hC : T.Closed) (hn : 1 ≤ T.cellDim) {src : SegState P} (hsrc : SegReached T src)
    {nv ne : Nat} (hnv : T.poly = false ∧ T.nv T.cellDim = nv) (hne : ∀ t < src.mesh.count T.cellDim, (src.mesh.bndOf T.cellDim t 1).length = ne)
    {kids : List (Option (Vtx P)) → (Nat → Bool) → Option (List (List Nat))} {Q : List (Option (Vtx P)) → (Nat → Bool) → List (List Nat) → Prop} (hk : KidsOK Q nv ne kids)
    {mark : Nat → Bool} {ev : Nat → Option Nat} {out0 : SegState P} (hev : EvOK src.mesh mark ev out0.mesh)
    (hev' : ∀ e s, ev e = some s → s < out0.mesh.verts.length) :
    ∀ {ts : List Nat} {c : RefSt P}, RInv T src ev out0 c → (∀ t ∈ ts, t < src.mesh.count T.cellDim) →
    ∃ (c' : RefSt P) (K : Nat → List (List Nat)), simpleRefine T src kids mark ev c ts = some c' ∧ RInv T src ev out0 c' ∧ RExt src.mesh c c' ∧
      c'.kids = c.kids ++ ts.flatMap (fun t => (K t).map (fun ls => (t, ls))) ∧
      (∀ t ∈ ts, (∀ v ∈ src.mesh.vertsOf T.cellDim t, v < src.mesh.verts.length ∧ ∃ s, c'.look src.mesh v = some s) ∧
        kids (c'.recs T src.mesh ev t) (fun i => mark ((src.mesh.bndOf T.cellDim t 1).getD i 0)) = some (K t) ∧
        Q (c'.recs T src.mesh ev t) (fun i => mark ((src.mesh.bndOf T.cellDim t 1).getD i 0)) (K t))
  | [], c, h, _ => ⟨c, fun _ => [], rfl, h, RExt.refl _ _, by simp, by simp⟩
  | t :: ts, c, h, ht => by
    have hu : UniqueVids src.mesh := hsrc.choose_spec.2.2
    obtain ⟨c1, cells, e1, i1, x1, k1, v1, f1⟩ := refCell_spec hT hC hn hsrc hnv hne hk hev hev' h (ht t (by simp))
    obtain ⟨c2, K, e2, i2, x2, k2, f2⟩ := simpleRefine_spec hT hC hn hsrc hnv hne hk hev hev' (ts := ts) i1
      (fun u hu => ht u (by simp [hu]))
    have hlast : ∀ v ∈ src.mesh.vertsOf T.cellDim t, v < src.mesh.verts.length ∧ ∃ s, c2.look src.mesh v = some s :=
      fun v hv => by obtain ⟨hv1, s, hs⟩ := v1 v hv; exact ⟨hv1, s, x2.look v s hs⟩
    have hrec2 : kids (c2.recs T src.mesh ev t) (fun i => mark ((src.mesh.bndOf T.cellDim t 1).getD i 0)) = some cells ∧
        Q (c2.recs T src.mesh ev t) (fun i => mark ((src.mesh.bndOf T.cellDim t 1).getD i 0)) cells := by
      rw [RExt.recs (fun e s he => Nat.lt_of_lt_of_le (hev' e s he) i1.verts.length_le) i1 hu x2 v1]; exact f1
    have hK : ∀ u ∈ ts, u = t → K u = cells := by
      rintro u hu' rfl
      have := (f2 u hu').2.1
      rw [hrec2.1] at this
      exact (Option.some.inj this).symm
    refine ⟨c2, fun u => if u = t then cells else K u, by simp only [simpleRefine, e1, Option.bind_some, e2], i2,
      x1.trans x2, ?_, ?_⟩
    · rw [k2, k1, List.flatMap_cons, List.append_assoc]
      simp only [if_true]
      congr 2
      refine List.flatMap_congr (fun u hu' => ?_)
      split
      · rename_i h'; rw [hK u hu' h']
      · rfl
    · intro u hu'
      by_cases hut : u = t
      · subst hut; simp only [if_true]; exact ⟨hlast, hrec2⟩
      · rcases List.mem_cons.1 hu' with rfl | hu'
        · exact absurd rfl hut
        · simp only [if_neg hut]; exact f2 u hu'

/-! The vertices on the edges -/

structure EInv (mark : Nat → Bool) (mid : Nat → P) (s : Mesh P × (Nat → Option Nat)) : Prop where
  gen : VidsCont s.1
  elems : s.1.elems = (Mesh.empty : Mesh P).elems
  reached : ∀ T : Topo, SegReached T { (SegState.empty : SegState P) with mesh := s.1 }
  ev : ∀ e v, s.2 e = some v → mark e = true ∧ v < s.1.verts.length ∧ s.1.ptOf v = some (mid e)
  inj : ∀ e f v, s.2 e = some v → s.2 f = some v → e = f

theorem refEdges_keep {mark : Nat → Bool} {mid : Nat → P} : ∀ {order : List Nat} {s : Mesh P × (Nat → Option Nat)} {e v : Nat},
    e ∉ order → s.2 e = some v → (refEdges mark mid s order).2 e = some v
  | [], _, _, _, _, h => h
  | x :: order, s, e, v, he, h => by
    simp only [List.mem_cons, not_or] at he
    simp only [refEdges]
    refine refEdges_keep he.2 ?_
    split
    · simp [he.1, h]
    · exact h

theorem refEdges_spec {mark : Nat → Bool} {mid : Nat → P} : ∀ {order : List Nat} {s : Mesh P × (Nat → Option Nat)},
    EInv mark mid s → order.Nodup → (∀ e ∈ order, s.2 e = none) →
    EInv mark mid (refEdges mark mid s order) ∧
      ∀ e ∈ order, mark e = true → ∃ v, (refEdges mark mid s order).2 e = some v
  | [], s, h, _, _ => ⟨h, by simp⟩
  | x :: order, s, h, hn, hnone => by
    obtain ⟨hx, hn⟩ := List.nodup_cons.1 hn
    simp only [refEdges]
    by_cases hm : mark x = true
    · rw [if_pos hm]
      have hinv : EInv mark mid (s.1.makeVertex none (mid x), fun y => if y = x then some s.1.verts.length else s.2 y) := by
        refine ⟨step_vidsCont (T := simplexTopo 0) (op := .vertex none (mid x)) h.gen rfl rfl, h.elems, fun T => ?_, ?_, ?_⟩
        · refine (h.reached T).step (op := .mesh (.vertex none (mid x))) (fun o ho => by simp [SOp.creation] at ho; subst ho; trivial) rfl ?_
          exact (step_vidsCont (T := T) (op := .vertex none (mid x)) h.gen rfl rfl).unique
        · intro e v hv
          simp only at hv
          split at hv
          · rename_i he; subst he
            simp only [Option.some.injEq] at hv; subst hv
            exact ⟨hm, by simp [Mesh.makeVertex], by simp [Mesh.ptOf, Mesh.makeVertex]⟩
          · obtain ⟨h1, h2, h3⟩ := h.ev e v hv
            refine ⟨h1, by simp [Mesh.makeVertex]; omega, ?_⟩
            rw [← h3]; simp only [Mesh.ptOf, Mesh.makeVertex]; rw [List.getElem?_append_left h2]
        · intro e f v he hf
          simp only at he hf
          split at he <;> split at hf
          · simp_all
          · simp only [Option.some.injEq] at he
            have := (h.ev f v hf).2.1; omega
          · simp only [Option.some.injEq] at hf
            have := (h.ev e v he).2.1; omega
          · exact h.inj e f v he hf
      obtain ⟨h1, h2⟩ := refEdges_spec hinv hn (fun e he => by
        have : e ≠ x := fun h => hx (h ▸ he)
        simp [this, hnone e (by simp [he])])
      refine ⟨h1, fun e he hme => ?_⟩
      rcases List.mem_cons.1 he with rfl | he
      · exact ⟨s.1.verts.length, refEdges_keep hx (by simp)⟩
      · exact h2 e he hme
    · rw [if_neg hm]
      obtain ⟨h1, h2⟩ := refEdges_spec h hn (fun e he => hnone e (by simp [he]))
      refine ⟨h1, fun e he hme => ?_⟩
      rcases List.mem_cons.1 he with rfl | he
      · exact absurd hme hm
      · exact h2 e he hme

theorem EInv.empty (mark : Nat → Bool) (mid : Nat → P) : EInv mark mid (Mesh.empty, fun _ => none) :=
  ⟨VidsCont.empty, rfl, fun T => ⟨[], by simp, rfl, VidsCont.empty.unique⟩, by simp, by simp⟩

/-- All of `refine_impl`. -/
theorem refineMesh_spec {T : Topo} (hT : T.WF) (hC : T.Closed) (hn : 1 ≤ T.cellDim) {src : SegState P} (hsrc : SegReached T src)
    {nv ne : Nat} (hnv : T.poly = false ∧ T.nv T.cellDim = nv) (hne : ∀ t < src.mesh.count T.cellDim, (src.mesh.bndOf T.cellDim t 1).length = ne)
    {kids : List (Option (Vtx P)) → (Nat → Bool) → Option (List (List Nat))} {Q : List (Option (Vtx P)) → (Nat → Bool) → List (List Nat) → Prop} (hk : KidsOK Q nv ne kids)
    (mark : Nat → Bool) (mid : Nat → P) {order : List Nat} (hord : order.Nodup) (hall : ∀ e < src.mesh.count 1, e ∈ order) :
    ∃ (r : RefSt P) (K : Nat → List (List Nat)) (ev : Nat → Option Nat),
      refineMesh T src kids mark mid order = some r ∧ RInv T src ev ⟨(refEdges mark mid (Mesh.empty, fun _ => none) order).1, fun _ _ => [], fun _ => [], fun _ _ => [], fun _ => 0, fun _ => []⟩ r ∧
      r.kids = (List.range (src.mesh.count T.cellDim)).flatMap (fun t => (K t).map (fun ls => (t, ls))) ∧
      (∀ e v, ev e = some v → mark e = true ∧ v < r.out.mesh.verts.length ∧ r.out.mesh.ptOf v = some (mid e)) ∧
      (∀ e < src.mesh.count 1, mark e = true → ∃ v, ev e = some v) ∧
      (∀ t < src.mesh.count T.cellDim, (∀ v ∈ src.mesh.vertsOf T.cellDim t, v < src.mesh.verts.length ∧ ∃ s, r.look src.mesh v = some s) ∧
        kids (r.recs T src.mesh ev t) (fun i => mark ((src.mesh.bndOf T.cellDim t 1).getD i 0)) = some (K t) ∧
        Q (r.recs T src.mesh ev t) (fun i => mark ((src.mesh.bndOf T.cellDim t 1).getD i 0)) (K t)) ∧
      (refEdges mark mid (Mesh.empty, fun _ => none) order).1.elems T.cellDim = [] ∧
      (∀ e v, ev e = some v → v < (refEdges mark mid (Mesh.empty, fun _ => none) order).1.verts.length) ∧
      ∀ e f v, ev e = some v → ev f = some v → e = f := by
  obtain ⟨hE, hgiven⟩ := refEdges_spec (EInv.empty mark mid) hord (by simp)
  have hev : EvOK src.mesh mark (refEdges mark mid (Mesh.empty, fun _ => none) order).2 (refEdges mark mid (Mesh.empty, fun _ => none) order).1 :=
    ⟨fun e he hm => by
      obtain ⟨v, hv⟩ := hgiven e (hall e he) hm
      exact ⟨v, hv, (hE.ev e v hv).2.1⟩,
     fun e f s _ _ he hf => hE.inj e f s he hf⟩
  have hinit : RInv T src (refEdges mark mid (Mesh.empty, fun _ => none) order).2
      { (SegState.empty : SegState P) with mesh := (refEdges mark mid (Mesh.empty, fun _ => none) order).1 }
      ⟨{ (SegState.empty : SegState P) with mesh := (refEdges mark mid (Mesh.empty, fun _ => none) order).1 }, [], []⟩ :=
    ⟨hE.reached T, hE.gen, List.prefix_refl _, by simp, List.Pairwise.nil, ⟨[], by simp, .nil⟩, by simp [SegState.empty]⟩
  obtain ⟨r, K, e1, i1, x1, k1, f1⟩ := simpleRefine_spec hT hC hn hsrc hnv hne hk (out0 := { (SegState.empty : SegState P) with mesh := (refEdges mark mid (Mesh.empty, fun _ => none) order).1 }) hev
    (fun e s he => (hE.ev e s he).2.1) (ts := List.range (src.mesh.count T.cellDim)) hinit (fun t ht => List.mem_range.1 ht)
  refine ⟨r, K, (refEdges mark mid (Mesh.empty, fun _ => none) order).2, e1, i1, by simpa using k1, ?_, fun e he hm => hgiven e (hall e he) hm,
    fun t ht => f1 t (List.mem_range.2 ht), ?_, fun e v hv => (hE.ev e v hv).2.1, fun e f v he hf => hE.inj e f v he hf⟩
  · intro e v hv
    obtain ⟨h1, h2, h3⟩ := hE.ev e v hv
    refine ⟨h1, Nat.lt_of_lt_of_le h2 x1.verts.length_le, ?_⟩
    rw [← h3]
    unfold Mesh.ptOf
    rw [List.getElem?_eq_getElem h2]
    rw [prefix_getElem? x1.verts (List.getElem?_eq_getElem h2)]
  · rw [hE.elems]; rfl

end VG
