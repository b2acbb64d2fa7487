import Verif.Props.MphtxtSpec
import Verif.Lemmas.Flood

/-!
Proofs about the writer of Comsol files.
-/

namespace VG

variable {P : Type} {S : MphSrc P}

/-- A loop which keeps an invariant, goes up in an order, and achieves something for each entry that stays. -/
theorem loopE_inv {A B : Type} {f : A → B → Except Fail A} {I : A → Prop} {le : A → A → Prop} {Q : B → A → Prop}
    (hr : ∀ a, le a a) (ht : ∀ a b c, le a b → le b c → le a c) (hQ : ∀ x a b, Q x a → le a b → Q x b) :
    ∀ {l : List B} {a : A}, (∀ x ∈ l, ∀ a, I a → ∃ a', f a x = .ok a' ∧ I a' ∧ le a a' ∧ Q x a') → I a →
      ∃ a', loopE f a l = .ok a' ∧ I a' ∧ le a a' ∧ ∀ x ∈ l, Q x a'
  | [], a, _, hI => ⟨a, rfl, hI, hr a, by simp⟩
  | x :: l, a, hs, hI => by
    obtain ⟨a1, h1, h2, h3, h4⟩ := hs x (by simp) a hI
    obtain ⟨a2, h5, h6, h7, h8⟩ := loopE_inv (l := l) hr ht hQ (fun y hy => hs y (List.mem_cons_of_mem _ hy)) h2
    refine ⟨a2, by rw [loopE, h1]; exact h5, h6, ht _ _ _ h3 h7, fun y hy => ?_⟩
    rcases List.mem_cons.1 hy with rfl | hy
    · exact hQ _ _ _ h4 h7
    · exact h8 y hy

theorem hullTri_lt (h : SegReached (simplexTopo 3) S.st) {g t : Nat} (ht : t ∈ S.st.view g 2) : t < S.st.mesh.count 2 :=
  (h.inv (simplexTopo_wf 3) (simplexTopo_closed 3)).view_lt ht

theorem isBd_iff (h : S.Ready) {g t : Nat} (hg : g ∈ S.gs) (ht : t ∈ S.st.view g 2) :
    S.isBd g t = true ↔ HullTri S.st g t := by
  have h1 := C15_boundary_partial (Or.inl ⟨3, rfl⟩) (h.seg g hg) (s := t)
    (by show t ∈ (S.seg g).content 2; rw [h.same g hg 2 (by omega)]; exact ht)
  refine h1.trans ?_
  show (∃ l : List Nat, l.Nodup ∧ (∀ c, c ∈ l ↔ c ∈ (S.seg g).content 3 ∧ _) ∧ _) ↔ _
  rw [h.same g hg 3 (by omega)]
  exact ⟨fun h => ⟨ht, h⟩, fun h => h.2⟩

theorem onBoundary_vert {m : Mesh P} {t v : Nat} : OnBoundary (simplexTopo 3) m 0 v 2 t ↔ v ∈ m.vertsOf 2 t := by
  unfold OnBoundary Mesh.vertsOf
  rw [if_pos rfl]
  cases h : (m.elems 2)[t]? <;> simp [List.getD, h]

theorem nbs_spec (h : S.Ready) {g t : Nat} (hg : g ∈ S.gs) (ht : t ∈ S.st.view g 2) :
    ∃ l, S.nbs g t = .ok l ∧ ∀ u, u ∈ l ↔ u ∈ S.st.view g 2 ∧ u ≠ t ∧
      ∃ v, v ∈ S.st.mesh.vertsOf 2 t ∧ v ∈ S.st.mesh.vertsOf 2 u := by
  have hI := h.reached.inv (simplexTopo_wf 3) (simplexTopo_closed 3)
  have hc : ContainsFaces (simplexTopo 3) ⟨S.st.mesh, S.seg g⟩ 0 2 := by
    intro u hu s hs
    show s ∈ (S.seg g).content 0
    rw [h.same g hg 0 (by omega)]
    have hu' : u ∈ S.st.view g 2 := by rw [← h.same g hg 2 (by omega)]; exact hu
    exact C26_closed_partial (Or.inl ⟨3, rfl⟩) h.reached (by omega) (by decide) hu'
      ((mem_bndOf_iff (simplexTopo_wf 3) hI.mesh (by show (2 : Nat) ≤ 3; omega)).2 hs)
  have hn : ∀ s ∈ (S.seg g).content 0, 0 ≤ S.st.mesh.eid 0 s := by
    intro s hs
    rw [h.same g hg 0 (by omega)] at hs
    exact h.ids s (hI.view_lt hs)
  obtain ⟨l, h1, _, h3⟩ := C15_neighbors_partial (Or.inl ⟨3, rfl⟩) (h.seg g hg) (d := 2) (c := 0) (t := t)
    (by show (2 : Nat) ≤ 3; omega) (by show t ∈ (S.seg g).content 2; rw [h.same g hg 2 (by omega)]; exact ht) hc hn
  refine ⟨l, ?_, fun u => ?_⟩
  · unfold MphSrc.nbs
    rw [show ((S.seg g).neighbors S.st.mesh 2 0 t).2 = some l from h1]
  · rw [h3 u]
    show u ∈ (S.seg g).content 2 ∧ _ ↔ _
    rw [h.same g hg 2 (by omega)]
    simp only [onBoundary_vert]

theorem cells_spec (h : S.Ready) {g t : Nat} (hg : g ∈ S.gs) (ht : t ∈ S.st.view g 2) :
    ∃ l, S.cells g t = .ok l ∧ l.Nodup ∧ ∀ c, c ∈ l ↔ CellAt S.st g t c := by
  have hI := h.reached.inv (simplexTopo_wf 3) (simplexTopo_closed 3)
  have hc : ContainsFaces (simplexTopo 3) ⟨S.st.mesh, S.seg g⟩ 2 3 := by
    intro u hu s hs
    show s ∈ (S.seg g).content 2
    rw [h.same g hg 2 (by omega)]
    have hu' : u ∈ S.st.view g 3 := by rw [← h.same g hg 3 (by omega)]; exact hu
    exact C26_closed_partial (Or.inl ⟨3, rfl⟩) h.reached (by omega) (by decide) hu'
      ((mem_bndOf_iff (simplexTopo_wf 3) hI.mesh (by show (3 : Nat) ≤ 3; omega)).2 hs)
  have hn : ∀ s ∈ (S.seg g).content 2, 0 ≤ S.st.mesh.eid 2 s := by
    intro s hs
    rw [h.same g hg 2 (by omega)] at hs
    have hlt : s < (S.st.mesh.elems 2).length := hI.view_lt hs
    unfold Mesh.eid
    rw [if_neg (by omega), List.getD_eq_getElem _ _ (by simpa using hlt)]
    simp
  obtain ⟨l, h1⟩ := C15_coboundary_answers_partial (Or.inl ⟨3, rfl⟩) (h.seg g hg) (k := 2) (d := 3) t
    (by show (3 : Nat) ≤ 3; omega) hc hn
  obtain ⟨h2, h3⟩ := C15_coboundary_partial (Or.inl ⟨3, rfl⟩) (h.seg g hg) (k := 2) (d := 3) (s := t)
    (by show (3 : Nat) ≤ 3; omega) (by show t ∈ (S.seg g).content 2; rw [h.same g hg 2 (by omega)]; exact ht) h1
  refine ⟨l, ?_, h2, fun c => ?_⟩
  · unfold MphSrc.cells
    rw [show ((S.seg g).coboundary S.st.mesh 2 3 t).2 = some l from h1]
  · rw [h3 c]
    show c ∈ (S.seg g).content 3 ∧ _ ↔ _
    rw [h.same g hg 3 (by omega)]
    rfl

theorem sameSegs_iff (h : S.Ready) {t u : Nat} (ht : t < S.st.mesh.count 2) (hu : u < S.st.mesh.count 2) :
    segIdsEqual (S.st.segmentIds 2 t) (S.st.segmentIds 2 u) = true ↔ ∀ g, t ∈ S.st.view g 2 ↔ u ∈ S.st.view g 2 :=
  C30_same_segments (Or.inl ⟨3, rfl⟩) h.reached ht hu

theorem FlatLink.symm (hp : ∀ t u, S.par t u = S.par u t) {t u : Nat} (h : FlatLink S t u) : FlatLink S u t := by
  obtain ⟨g, hg, h1, h2, ⟨v, h3, h4⟩, h5, h6⟩ := h
  exact ⟨g, hg, h2, h1, ⟨v, h4, h3⟩, fun g' => (h5 g').symm, by rw [hp]; exact h6⟩

theorem chain_symm (hp : ∀ t u, S.par t u = S.par u t) {t u : Nat} (h : Relation.ReflTransGen (FlatLink S) t u) :
    Relation.ReflTransGen (FlatLink S) u t := by
  induction h with
  | refl => exact Relation.ReflTransGen.refl
  | tail _ h2 ih => exact Relation.ReflTransGen.head (h2.symm hp) ih

/-- A triangle of two segments is on the boundary of both. -/
theorem hull_of_shared (hs : SegParts S.st) {g g' t : Nat} (hne : g ≠ g') (h : t ∈ S.st.view g 2) (h' : t ∈ S.st.view g' 2) :
    HullTri S.st g t := by
  obtain ⟨c, hc⟩ := hs.face g t h
  obtain ⟨c', hc'⟩ := hs.face g' t h'
  refine ⟨h, [c], by simp, fun b => ?_, rfl⟩
  rw [List.mem_singleton]
  constructor
  · rintro rfl; exact hc
  · intro hb
    rcases hs.two t b c c' hb.2 hc.2 hc'.2 with e | e | e
    · exact e
    · subst e; exact absurd (hs.one _ _ _ hb.1 hc'.1) hne
    · subst e; exact absurd (hs.one _ _ _ hc.1 hc'.1) hne

/-- Links can be followed in each segment of the boundary of which the triangle is. -/
theorem FlatLink.inSegment (hs : SegParts S.st) {g t u : Nat} (hl : FlatLink S t u) (ht : HullTri S.st g t) :
    HullTri S.st g u := by
  obtain ⟨g', _, h1, h2, _, h5, _⟩ := hl
  by_cases he : g = g'
  · subst he; exact h2
  · exact hull_of_shared hs he ((h5 g).1 ht.1) h2.1

/-- Linked triangles are on the boundary of the same segments. -/
def LinkedHulls (S : MphSrc P) : Prop := ∀ t u, FlatLink S t u → ∀ g ∈ S.gs, HullTri S.st g t → HullTri S.st g u

/-- What holds between the steps of `mark_segment_hull_contacts`. -/
structure ContactInv (S : MphSrc P) (a : (Int → Int) × Int) : Prop where
  nonneg : 0 ≤ a.2
  range : ∀ t ∈ S.st.all 2, a.1 (S.st.mesh.eid 2 t) ≠ -1 →
    0 ≤ a.1 (S.st.mesh.eid 2 t) ∧ a.1 (S.st.mesh.eid 2 t) < a.2 ∧ ∃ g ∈ S.gs, HullTri S.st g t
  used : ∀ i, 0 ≤ i → i < a.2 → ∃ g ∈ S.gs, ∃ t, HullTri S.st g t ∧ a.1 (S.st.mesh.eid 2 t) = i
  conn : ∀ t ∈ S.st.all 2, ∀ u ∈ S.st.all 2, a.1 (S.st.mesh.eid 2 t) ≠ -1 →
    a.1 (S.st.mesh.eid 2 t) = a.1 (S.st.mesh.eid 2 u) → Relation.ReflTransGen (FlatLink S) t u
  max : LinkedHulls S → ∀ t u, FlatLink S t u → a.1 (S.st.mesh.eid 2 t) ≠ -1 →
    a.1 (S.st.mesh.eid 2 u) = a.1 (S.st.mesh.eid 2 t)

/-- Indices once given stay. -/
def Keeps (a b : (Int → Int) × Int) : Prop := ∀ x, a.1 x ≠ -1 → b.1 x = a.1 x

theorem contactStep_spec (h : S.Ready) (hp : ∀ t u, S.par t u = S.par u t) {g : Nat} (hg : g ∈ S.gs) {t : Nat}
    (ht : t ∈ S.st.view g 2) {a : (Int → Int) × Int} (hI : ContactInv S a) :
    ∃ a', S.contactStep g a t = .ok a' ∧ ContactInv S a' ∧ Keeps a a' ∧
      (HullTri S.st g t → a'.1 (S.st.mesh.eid 2 t) ≠ -1) := by
  have hinv := h.reached.inv (simplexTopo_wf 3) (simplexTopo_closed 3)
  have hu : UniqueVids S.st.mesh := by obtain ⟨_, _, _, hu⟩ := h.reached; exact hu
  have hinj : ∀ {x y : Nat}, x < S.st.mesh.count 2 → y < S.st.mesh.count 2 →
      S.st.mesh.eid 2 x = S.st.mesh.eid 2 y → x = y := fun hx hy e => eid_inj hinv.mesh hu hx hy e
  have hallt : ∀ {x : Nat}, x ∈ S.st.all 2 → x < S.st.mesh.count 2 := fun hx => by
    obtain ⟨_, hx⟩ := (hinv.all 2 _).1 hx; exact hinv.view_lt hx
  unfold MphSrc.contactStep
  by_cases hcond : S.isBd g t = true ∧ a.1 (S.st.mesh.eid 2 t) = -1
  · rw [if_pos hcond]
    obtain ⟨hbd, hw⟩ := hcond
    have hht : HullTri S.st g t := (isBd_iff h hg ht).1 hbd
    have hc : a.2 ≠ -1 := by have := hI.nonneg; omega
    have htl := hinv.view_lt ht
    have hwhite : white (S.st.mesh.eid 2) (S.st.mesh.count 2) (upd a.1 (S.st.mesh.eid 2 t) a.2) < S.st.mesh.count 2 := by
      refine lt_of_lt_of_le (white_upd htl hw hc) ?_
      unfold white
      refine le_trans List.countP_le_length ?_
      rw [List.length_range]
    obtain ⟨mk, h1, h2, h3⟩ := markFrom_spec (nbs := S.nbs g) (key := S.st.mesh.eid 2)
      (ok := S.joins g (S.st.segmentIds 2 t)) (c := a.2) (V := fun u => u ∈ S.st.view g 2) (N := S.st.mesh.count 2) hc
      (fun u w hu' hw' e => hinj (hinv.view_lt hu') (hinv.view_lt hw') e) (fun u hu' => hinv.view_lt hu')
      (fun u hu' => by
        obtain ⟨l, hl, hm⟩ := nbs_spec h hg hu'
        exact ⟨l, hl, fun w hw' => ((hm w).1 hw').1⟩)
      (S.st.mesh.count 2) (upd a.1 (S.st.mesh.eid 2 t) a.2) t ht hwhite
    rw [h1]
    -- the step relation
    have hP : ∀ x y, Step (S.nbs g) (S.joins g (S.st.segmentIds 2 t)) x y → HullTri S.st g x →
        (∀ g', t ∈ S.st.view g' 2 ↔ x ∈ S.st.view g' 2) →
        HullTri S.st g y ∧ (∀ g', t ∈ S.st.view g' 2 ↔ y ∈ S.st.view g' 2) ∧ FlatLink S x y := by
      rintro x y ⟨l, hl, hy, hok⟩ hx hsame
      obtain ⟨l', hl', hm⟩ := nbs_spec h hg hx.1
      rw [hl] at hl'
      cases hl'
      obtain ⟨hyv, _, v, hv1, hv2⟩ := (hm y).1 hy
      unfold MphSrc.joins at hok
      rw [Bool.and_eq_true, Bool.and_eq_true] at hok
      obtain ⟨⟨hok1, hok2⟩, hok3⟩ := hok
      have hyh := (isBd_iff h hg hyv).1 hok1
      have hys := (sameSegs_iff h htl (hinv.view_lt hyv)).1 hok2
      exact ⟨hyh, hys, g, hg, hx, hyh, ⟨v, hv1, hv2⟩, fun g' => (hsame g').symm.trans (hys g'), hok3⟩
    have hR : ∀ x y, FlatLink S x y → x ≠ y → HullTri S.st g x → HullTri S.st g y →
        (∀ g', t ∈ S.st.view g' 2 ↔ x ∈ S.st.view g' 2) → Step (S.nbs g) (S.joins g (S.st.segmentIds 2 t)) x y := by
      rintro x y ⟨g', _, _, _, hv, hsame', hpar⟩ hne hx hy hsame
      obtain ⟨l, hl, hm⟩ := nbs_spec h hg hx.1
      refine ⟨l, hl, (hm y).2 ⟨hy.1, fun e => hne e.symm, hv⟩, ?_⟩
      unfold MphSrc.joins
      rw [Bool.and_eq_true, Bool.and_eq_true]
      exact ⟨⟨(isBd_iff h hg hy.1).2 hy, (sameSegs_iff h htl (hinv.view_lt hy.1)).2
        (fun g' => (hsame g').trans (hsame' g'))⟩, hpar⟩
    have hreach : ∀ u, Relation.TransGen (Step (S.nbs g) (S.joins g (S.st.segmentIds 2 t))) t u →
        HullTri S.st g u ∧ (∀ g', t ∈ S.st.view g' 2 ↔ u ∈ S.st.view g' 2) ∧ Relation.ReflTransGen (FlatLink S) t u := by
      intro u hu'
      induction hu' with
      | single hst =>
        obtain ⟨k1, k2, k3⟩ := hP _ _ hst hht (fun _ => Iff.rfl)
        exact ⟨k1, k2, Relation.ReflTransGen.single k3⟩
      | tail _ hst ih =>
        obtain ⟨k1, k2, k3⟩ := hP _ _ hst ih.1 ih.2.1
        exact ⟨k1, k2, ih.2.2.tail k3⟩
    -- what is new
    have hold : ∀ x, a.1 x ≠ -1 → mk x = a.1 x := by
      intro x hx
      have hne : x ≠ S.st.mesh.eid 2 t := fun e => hx (by rw [e]; exact hw)
      have : upd a.1 (S.st.mesh.eid 2 t) a.2 x = a.1 x := by simp [upd, hne]
      rw [h2.keep x (by rw [this]; exact hx), this]
    have htm : mk (S.st.mesh.eid 2 t) = a.2 := by
      have : upd a.1 (S.st.mesh.eid 2 t) a.2 (S.st.mesh.eid 2 t) = a.2 := by simp [upd]
      rw [h2.keep _ (by rw [this]; exact hc), this]
    have hnew : ∀ u, u < S.st.mesh.count 2 → a.1 (S.st.mesh.eid 2 u) = -1 → mk (S.st.mesh.eid 2 u) ≠ -1 →
        mk (S.st.mesh.eid 2 u) = a.2 ∧ HullTri S.st g u ∧ (∀ g', t ∈ S.st.view g' 2 ↔ u ∈ S.st.view g' 2) ∧
          Relation.ReflTransGen (FlatLink S) t u := by
      intro u hul hx hx'
      by_cases he : u = t
      · subst he; exact ⟨htm, hht, fun _ => Iff.rfl, Relation.ReflTransGen.refl⟩
      · have hne : S.st.mesh.eid 2 u ≠ S.st.mesh.eid 2 t := fun e => he (hinj hul htl e)
        obtain ⟨k1, u', k2, k3, k4⟩ := h2.new (S.st.mesh.eid 2 u) (by simp [upd, hne, hx]) hx'
        have := hinj hul (hinv.view_lt k2) k3
        subst this
        exact ⟨k1, hreach u k4⟩
    refine ⟨(mk, a.2 + 1), rfl, ⟨?_, ?_, ?_, ?_, ?_⟩, hold, fun _ => by show mk _ ≠ -1; rw [htm]; exact hc⟩
    · have := hI.nonneg; simp only; omega
    · intro u hu' hx'
      simp only at hx' ⊢
      by_cases hx : a.1 (S.st.mesh.eid 2 u) = -1
      · obtain ⟨k1, k2, _⟩ := hnew u (hallt hu') hx hx'
        have := hI.nonneg
        exact ⟨by omega, by omega, g, hg, k2⟩
      · obtain ⟨k1, k2, k3⟩ := hI.range u hu' hx
        rw [hold _ hx]
        exact ⟨k1, by omega, k3⟩
    · intro i hi hi'
      simp only at hi' ⊢
      by_cases he : i = a.2
      · exact ⟨g, hg, t, hht, by rw [htm, he]⟩
      · obtain ⟨g', hg', u, k1, k2⟩ := hI.used i hi (by omega)
        exact ⟨g', hg', u, k1, by rw [hold _ (by rw [k2]; omega), k2]⟩
    · intro u hu' w hw' hx' he
      simp only at hx' he
      by_cases hxu : a.1 (S.st.mesh.eid 2 u) = -1
      · obtain ⟨k1, _, _, k3⟩ := hnew u (hallt hu') hxu hx'
        by_cases hxw : a.1 (S.st.mesh.eid 2 w) = -1
        · obtain ⟨_, _, _, k6⟩ := hnew w (hallt hw') hxw (by rw [← he]; exact hx')
          exact (chain_symm hp k3).trans k6
        · have := hI.range w hw' hxw
          rw [← hold _ hxw] at this
          omega
      · by_cases hxw : a.1 (S.st.mesh.eid 2 w) = -1
        · obtain ⟨k1, _, _, _⟩ := hnew w (hallt hw') hxw (by rw [← he]; exact hx')
          have := hI.range u hu' hxu
          rw [← hold _ hxu] at this
          omega
        · exact hI.conn u hu' w hw' hxu (by rw [← hold _ hxu, ← hold _ hxw]; exact he)
    · intro hs u w hl hx'
      simp only at hx' ⊢
      have hul : u < S.st.mesh.count 2 := by obtain ⟨g', _, k, _⟩ := hl; exact hinv.view_lt k.1
      have hwl : w < S.st.mesh.count 2 := by obtain ⟨g', _, _, k, _⟩ := hl; exact hinv.view_lt k.1
      by_cases hxu : a.1 (S.st.mesh.eid 2 u) = -1
      · obtain ⟨k1, k2, k3, _⟩ := hnew u hul hxu hx'
        by_cases hne : u = w
        · subst hne; rfl
        have hwh := hs u w hl g hg k2
        have hst := hR u w hl hne k2 hwh k3
        have hwm : mk (S.st.mesh.eid 2 w) ≠ -1 := by
          by_cases he : u = t
          · subst he; exact h3 w hst
          · have hne' : S.st.mesh.eid 2 u ≠ S.st.mesh.eid 2 t := fun e => he (hinj hul htl e)
            exact h2.closed u k2.1 (by simp [upd, hne', hxu]) hx' w hst
        have hxw : a.1 (S.st.mesh.eid 2 w) = -1 := by
          by_contra hxw
          have := hI.max hs w u (hl.symm hp) hxw
          rw [hxu] at this
          exact hxw this.symm
        rw [k1, (hnew w hwl hxw hwm).1]
      · have := hI.max hs u w hl hxu
        rw [hold _ hxu, hold _ (by rw [this]; exact hxu), this]
  · rw [if_neg hcond]
    refine ⟨a, rfl, hI, fun _ _ => rfl, fun hh hx => hcond ⟨(isBd_iff h hg ht).2 hh, hx⟩⟩

theorem contacts_spec (h : S.Ready) (hp : ∀ t u, S.par t u = S.par u t) :
    ∃ a, S.contacts = .ok a ∧ ContactInv S a ∧ ∀ g ∈ S.gs, ∀ t, HullTri S.st g t → a.1 (S.st.mesh.eid 2 t) ≠ -1 := by
  have hinv := h.reached.inv (simplexTopo_wf 3) (simplexTopo_closed 3)
  have hstart : ∀ t ∈ S.st.all 2,
      (fun x => if x ∈ (S.st.all 2).map (S.st.mesh.eid 2) then -1 else (0 : Int)) (S.st.mesh.eid 2 t) = -1 := by
    intro t ht
    exact if_pos (List.mem_map.2 ⟨t, ht, rfl⟩)
  obtain ⟨a, h1, h2, _, h4⟩ := loopE_inv (I := ContactInv S) (le := Keeps)
    (Q := fun g a => ∀ t, HullTri S.st g t → a.1 (S.st.mesh.eid 2 t) ≠ -1)
    (f := fun acc g => loopE (S.contactStep g) acc ((S.seg g).content 2)) (l := S.gs)
    (a := (fun x => if x ∈ (S.st.all 2).map (S.st.mesh.eid 2) then -1 else 0, 0))
    (fun _ _ _ => rfl) (fun a b c h1 h2 x hx => by rw [h2 x (by rw [h1 x hx]; exact hx), h1 x hx])
    (fun g a b hq hk t ht => by rw [hk _ (hq t ht)]; exact hq t ht)
    (fun g hg a hI => by
      rw [h.same g hg 2 (by omega)]
      obtain ⟨a', k1, k2, k3, k4⟩ := loopE_inv (I := ContactInv S) (le := Keeps)
        (Q := fun t a => HullTri S.st g t → a.1 (S.st.mesh.eid 2 t) ≠ -1)
        (f := S.contactStep g) (l := S.st.view g 2) (a := a)
        (fun _ _ _ => rfl) (fun a b c h1 h2 x hx => by rw [h2 x (by rw [h1 x hx]; exact hx), h1 x hx])
        (fun t a b hq hk ht => by rw [hk _ (hq ht)]; exact hq ht)
        (fun t ht a hI => contactStep_spec h hp hg ht hI) hI
      exact ⟨a', k1, k2, k3, fun t ht => k4 t ht.1 ht⟩)
    (by
      refine ⟨le_refl _, fun t ht hx => absurd (hstart t ht) hx, fun i hi hi' => ?_, fun t ht u _ hx => absurd (hstart t ht) hx,
        fun _ t u hl hx => ?_⟩
      · simp only at hi'; omega
      · obtain ⟨g, _, k, _⟩ := hl
        exact absurd (hstart t ((hinv.all 2 t).2 ⟨g, k.1⟩)) hx)
  exact ⟨a, h1, h2, h4⟩

/-! The list of triangles -/

/-- In ascending order of ids. -/
def InOrder (l : List (Int × TriInfo)) : Prop := (l.map (·.1)).Pairwise (· < ·)

theorem touch_mem {x : Int} {t : Nat} {f : TriInfo → TriInfo} : ∀ {l : List (Int × TriInfo)}, InOrder l →
    ∀ {z : Int} {j : TriInfo}, (z, j) ∈ touchInfo x t f l ↔
      (z ≠ x ∧ (z, j) ∈ l) ∨ (z = x ∧ ((∃ i, (x, i) ∈ l ∧ j = f i) ∨ ((∀ i, (x, i) ∉ l) ∧ j = f ⟨t, 0, 0⟩)))
  | [], _, z, j => by simp [touchInfo]
  | (y, k) :: l, h, z, j => by
    unfold InOrder at h
    rw [List.map_cons, List.pairwise_cons] at h
    obtain ⟨hy, hl⟩ := h
    have hy' : ∀ w i, (w, i) ∈ l → y < w := fun w i hw => hy w (List.mem_map.2 ⟨_, hw, rfl⟩)
    unfold touchInfo
    by_cases h1 : x < y
    · rw [if_pos h1]
      have hno : ∀ i, (x, i) ∉ ((y, k) :: l) := by
        intro i hi
        rcases List.mem_cons.1 hi with e | hi
        · cases e; omega
        · have := hy' _ _ hi; omega
      rw [List.mem_cons]
      constructor
      · rintro (e | hm)
        · cases e; exact Or.inr ⟨rfl, Or.inr ⟨hno, rfl⟩⟩
        · refine Or.inl ⟨fun e => ?_, hm⟩
          subst e; exact hno _ hm
      · rintro (⟨_, hm⟩ | ⟨rfl, ⟨i, hi, _⟩ | ⟨_, rfl⟩⟩)
        · exact Or.inr hm
        · exact absurd hi (hno i)
        · exact Or.inl rfl
    · rw [if_neg h1]
      by_cases h2 : x = y
      · rw [if_pos h2]
        subst h2
        rw [List.mem_cons]
        constructor
        · rintro (e | hm)
          · cases e; exact Or.inr ⟨rfl, Or.inl ⟨k, by simp, rfl⟩⟩
          · have := hy' _ _ hm
            exact Or.inl ⟨by omega, by simp [hm]⟩
        · rintro (⟨hne, hm⟩ | ⟨rfl, ⟨i, hi, rfl⟩ | ⟨hno, _⟩⟩)
          · rcases List.mem_cons.1 hm with e | hm
            · cases e; exact absurd rfl hne
            · exact Or.inr hm
          · rcases List.mem_cons.1 hi with e | hi
            · cases e; exact Or.inl rfl
            · exact absurd (hy' _ _ hi) (by omega)
          · exact absurd (by simp) (hno k)
      · rw [if_neg h2, List.mem_cons, touch_mem hl]
        constructor
        · rintro (e | ⟨hne, hm⟩ | ⟨rfl, ⟨i, hi, rfl⟩ | ⟨hno, rfl⟩⟩)
          · cases e; exact Or.inl ⟨fun e => h2 e.symm, by simp⟩
          · exact Or.inl ⟨hne, by simp [hm]⟩
          · exact Or.inr ⟨rfl, Or.inl ⟨i, by simp [hi], rfl⟩⟩
          · refine Or.inr ⟨rfl, Or.inr ⟨fun i hi => ?_, rfl⟩⟩
            rcases List.mem_cons.1 hi with e | hi
            · cases e; exact h2 rfl
            · exact hno i hi
        · rintro (⟨hne, hm⟩ | ⟨rfl, ⟨i, hi, rfl⟩ | ⟨hno, rfl⟩⟩)
          · rcases List.mem_cons.1 hm with e | hm
            · exact Or.inl e
            · exact Or.inr (Or.inl ⟨hne, hm⟩)
          · rcases List.mem_cons.1 hi with e | hi
            · cases e; exact absurd rfl h2
            · exact Or.inr (Or.inr ⟨rfl, Or.inl ⟨i, hi, rfl⟩⟩)
          · exact Or.inr (Or.inr ⟨rfl, Or.inr ⟨fun i hi => hno i (by simp [hi]), rfl⟩⟩)

theorem touch_inOrder {x : Int} {t : Nat} {f : TriInfo → TriInfo} : ∀ {l : List (Int × TriInfo)}, InOrder l →
    InOrder (touchInfo x t f l)
  | [], _ => by simp [InOrder, touchInfo]
  | (y, k) :: l, h => by
    have h0 := h
    unfold InOrder at h ⊢
    rw [List.map_cons, List.pairwise_cons] at h
    obtain ⟨hy, hl⟩ := h
    unfold touchInfo
    by_cases h1 : x < y
    · rw [if_pos h1, List.map_cons, List.pairwise_cons]
      refine ⟨fun w hw => ?_, h0⟩
      rw [List.map_cons, List.mem_cons] at hw
      rcases hw with rfl | hw
      · exact h1
      · have := hy w hw; simp only at this ⊢; omega
    · rw [if_neg h1]
      by_cases h2 : x = y
      · rw [if_pos h2, List.map_cons, List.pairwise_cons]
        exact ⟨hy, hl⟩
      · rw [if_neg h2, List.map_cons, List.pairwise_cons]
        refine ⟨fun w hw => ?_, touch_inOrder hl⟩
        obtain ⟨⟨w', i⟩, hm, rfl⟩ := List.mem_map.1 hw
        rcases (touch_mem hl).1 hm with ⟨_, hm⟩ | ⟨rfl, _⟩
        · exact hy _ (List.mem_map.2 ⟨_, hm, rfl⟩)
        · simp only; omega

/-- What holds between the steps of the loop over the triangles of the segments. -/
structure UInv (S : MphSrc P) (l : List (Int × TriInfo)) : Prop where
  order : InOrder l
  entry : ∀ x i, (x, i) ∈ l → x = S.st.mesh.eid 2 i.tri ∧ ∃ g ∈ S.gs, HullTri S.st g i.tri
  up : ∀ x i, (x, i) ∈ l → i.up ≠ 0 →
    ∃ g ∈ S.gs, i.up = (g : Int) + 1 ∧ HullTri S.st g i.tri ∧ ∃ c, CellAt S.st g i.tri c ∧ S.away i.tri c = true
  down : ∀ x i, (x, i) ∈ l → i.down ≠ 0 →
    ∃ g ∈ S.gs, i.down = (g : Int) + 1 ∧ HullTri S.st g i.tri ∧ ∃ c, CellAt S.st g i.tri c ∧ S.away i.tri c = false

/-- Entries and the sides which have a segment stay. -/
def Grows (l l' : List (Int × TriInfo)) : Prop :=
  ∀ x i, (x, i) ∈ l → ∃ i', (x, i') ∈ l' ∧ i'.tri = i.tri ∧ (i.up ≠ 0 → i'.up ≠ 0) ∧ (i.down ≠ 0 → i'.down ≠ 0)

theorem Grows.refl (l : List (Int × TriInfo)) : Grows l l := fun _ i h => ⟨i, h, rfl, id, id⟩

theorem Grows.trans {a b c : List (Int × TriInfo)} (h1 : Grows a b) (h2 : Grows b c) : Grows a c := by
  intro x i hi
  obtain ⟨j, k1, k2, k3, k4⟩ := h1 x i hi
  obtain ⟨j', l1, l2, l3, l4⟩ := h2 x j k1
  exact ⟨j', l1, l2.trans k2, fun h => l3 (k3 h), fun h => l4 (k4 h)⟩

/-- The triangle has an entry with a segment on the side of one of the tetrahedra of `g`. -/
def TriEntered (S : MphSrc P) (g t : Nat) (l : List (Int × TriInfo)) : Prop :=
  HullTri S.st g t → ∃ i, (S.st.mesh.eid 2 t, i) ∈ l ∧ i.tri = t ∧
    ∃ c, CellAt S.st g t c ∧ (S.away t c = true → i.up ≠ 0) ∧ (S.away t c = false → i.down ≠ 0)

theorem TriEntered.mono {g t : Nat} {l l' : List (Int × TriInfo)} (h : TriEntered S g t l) (hg : Grows l l') : TriEntered S g t l' := by
  intro hh
  obtain ⟨i, h1, h2, c, h3, h4, h5⟩ := h hh
  obtain ⟨j, k1, k2, k3, k4⟩ := hg _ _ h1
  exact ⟨j, k1, k2.trans h2, c, h3, fun h => k3 (h4 h), fun h => k4 (h5 h)⟩

theorem sideStep_spec (h : S.Ready) {g : Nat} (hg : g ∈ S.gs) {t : Nat} (ht : t ∈ S.st.view g 2)
    {l : List (Int × TriInfo)} (hI : UInv S l) :
    ∃ l', S.sideStep g l t = .ok l' ∧ UInv S l' ∧ Grows l l' ∧ TriEntered S g t l' := by
  have hinv := h.reached.inv (simplexTopo_wf 3) (simplexTopo_closed 3)
  have hu : UniqueVids S.st.mesh := by obtain ⟨_, _, _, hu⟩ := h.reached; exact hu
  unfold MphSrc.sideStep
  by_cases hbd : S.isBd g t = true
  · rw [if_pos hbd]
    have hht := (isBd_iff h hg ht).1 hbd
    obtain ⟨cs, hcs, _, hcm⟩ := cells_spec h hg ht
    rw [hcs]
    cases cs with
    | nil =>
      obtain ⟨_, l', _, h2, h3⟩ := hht
      have : l' = [] := by
        rw [List.eq_nil_iff_forall_not_mem]
        intro c hc
        simpa using (hcm c).2 ((h2 c).1 hc)
      rw [this] at h3
      simp at h3
    | cons c cs =>
      have hc : CellAt S.st g t c := (hcm c).1 (by simp)
      simp only
      have htri : ∀ i, (S.st.mesh.eid 2 t, i) ∈ l → i.tri = t := by
        intro i hi
        obtain ⟨h1, g', _, h2⟩ := hI.entry _ _ hi
        exact (eid_inj hinv.mesh hu (hinv.view_lt ht) (hinv.view_lt h2.1) h1).symm
      have hf : ∀ j : TriInfo, (if S.away t c = true then { j with up := (g : Int) + 1 } else { j with down := (g : Int) + 1 }).tri = j.tri := by
        intro j; split <;> rfl
      -- an entry of the new list
      have hent : ∀ z j, (z, j) ∈ touchInfo (S.st.mesh.eid 2 t) t
          (fun i => if S.away t c = true then { i with up := (g : Int) + 1 } else { i with down := (g : Int) + 1 }) l →
          (z ≠ S.st.mesh.eid 2 t ∧ (z, j) ∈ l) ∨ (z = S.st.mesh.eid 2 t ∧ ∃ i : TriInfo, i.tri = t ∧
            ((S.st.mesh.eid 2 t, i) ∈ l ∨ (i.up = 0 ∧ i.down = 0)) ∧
            j = if S.away t c = true then { i with up := (g : Int) + 1 } else { i with down := (g : Int) + 1 }) := by
        intro z j hz
        rcases (touch_mem hI.order).1 hz with h1 | ⟨h1, ⟨i, hi, hj⟩ | ⟨_, hj⟩⟩
        · exact Or.inl h1
        · exact Or.inr ⟨h1, i, htri i hi, Or.inl hi, hj⟩
        · exact Or.inr ⟨h1, ⟨t, 0, 0⟩, rfl, Or.inr ⟨rfl, rfl⟩, hj⟩
      refine ⟨_, rfl, ⟨touch_inOrder hI.order, ?_, ?_, ?_⟩, ?_, ?_⟩
      · intro z j hz
        rcases hent z j hz with ⟨_, h1⟩ | ⟨rfl, i, h1, _, rfl⟩
        · exact hI.entry z j h1
        · rw [hf, h1]
          exact ⟨rfl, g, hg, hht⟩
      · intro z j hz hne
        rcases hent z j hz with ⟨_, h1⟩ | ⟨rfl, i, h1, h2, rfl⟩
        · exact hI.up z j h1 hne
        · rw [hf, h1]
          by_cases ha : S.away t c = true
          · rw [if_pos ha]
            exact ⟨g, hg, rfl, hht, c, hc, ha⟩
          · rw [if_neg ha] at hne ⊢
            rcases h2 with h2 | h2
            · have := hI.up _ _ h2 hne
              rw [h1] at this
              exact this
            · exact absurd h2.1 hne
      · intro z j hz hne
        rcases hent z j hz with ⟨_, h1⟩ | ⟨rfl, i, h1, h2, rfl⟩
        · exact hI.down z j h1 hne
        · rw [hf, h1]
          by_cases ha : S.away t c = true
          · rw [if_pos ha] at hne ⊢
            rcases h2 with h2 | h2
            · have := hI.down _ _ h2 hne
              rw [h1] at this
              exact this
            · exact absurd h2.2 hne
          · rw [if_neg ha]
            exact ⟨g, hg, rfl, hht, c, hc, by simpa using ha⟩
      · intro z i hi
        by_cases hz : z = S.st.mesh.eid 2 t
        · subst hz
          refine ⟨_, (touch_mem hI.order).2 (Or.inr ⟨rfl, Or.inl ⟨i, hi, rfl⟩⟩), hf i, fun hne => ?_, fun hne => ?_⟩
          · split
            · simp only; omega
            · exact hne
          · split
            · exact hne
            · simp only; omega
        · exact ⟨i, (touch_mem hI.order).2 (Or.inl ⟨hz, hi⟩), rfl, id, id⟩
      · intro _
        have hup : ∀ j : TriInfo, S.away t c = true →
            (if S.away t c = true then { j with up := (g : Int) + 1 } else { j with down := (g : Int) + 1 }).up ≠ 0 := by
          intro j ha; rw [if_pos ha]; simp only; omega
        have hdn : ∀ j : TriInfo, S.away t c = false →
            (if S.away t c = true then { j with up := (g : Int) + 1 } else { j with down := (g : Int) + 1 }).down ≠ 0 := by
          intro j ha; rw [if_neg (by rw [ha]; simp)]; simp only; omega
        by_cases hex : ∃ i, (S.st.mesh.eid 2 t, i) ∈ l
        · obtain ⟨i, hi⟩ := hex
          exact ⟨_, (touch_mem hI.order).2 (Or.inr ⟨rfl, Or.inl ⟨i, hi, rfl⟩⟩), (hf i).trans (htri i hi), c, hc, hup i, hdn i⟩
        · rw [not_exists] at hex
          exact ⟨_, (touch_mem hI.order).2 (Or.inr ⟨rfl, Or.inr ⟨hex, rfl⟩⟩), hf _, c, hc, hup _, hdn _⟩
  · rw [if_neg hbd]
    exact ⟨l, rfl, hI, Grows.refl l, fun hh => absurd ((isBd_iff h hg ht).2 hh) hbd⟩

theorem used_spec (h : S.Ready) :
    ∃ l, S.used = .ok l ∧ UInv S l ∧ ∀ g ∈ S.gs, ∀ t, HullTri S.st g t → TriEntered S g t l := by
  obtain ⟨l, h1, h2, _, h4⟩ := loopE_inv (I := UInv S) (le := Grows)
    (Q := fun g l => ∀ t, HullTri S.st g t → TriEntered S g t l)
    (f := fun used g => loopE (S.sideStep g) used ((S.seg g).content 2)) (l := S.gs) (a := [])
    Grows.refl (fun _ _ _ => Grows.trans) (fun g a b hq hk t ht => (hq t ht).mono hk)
    (fun g hg a hI => by
      rw [h.same g hg 2 (by omega)]
      obtain ⟨l', k1, k2, k3, k4⟩ := loopE_inv (I := UInv S) (le := Grows) (Q := fun t l => TriEntered S g t l)
        (f := S.sideStep g) (l := S.st.view g 2) (a := a)
        Grows.refl (fun _ _ _ => Grows.trans) (fun t a b hq hk => hq.mono hk)
        (fun t ht a hI => sideStep_spec h hg ht hI) hI
      exact ⟨l', k1, k2, k3, fun t ht => k4 t ht.1⟩)
    ⟨by simp [InOrder], by simp, by simp, by simp⟩
  exact ⟨l, h1, h2, h4⟩

end VG
