import Verif.Model.ViewQueries
import Verif.Lemmas.Segments

/-!
The caches of a view are exact for its content whenever their counter is the counter of the view.
-/

namespace VG

variable {P : Type}

/-! Storage with `at` -/

theorem cobPut_fold (t : Nat) : ∀ (xs : List Int) (acc : Dense (List Nat) × Bool),
    ((xs.foldl (cobPut t) acc).2 = true → acc.2 = true ∧
      (xs.foldl (cobPut t) acc).1.data = xs.foldl (fun a x => upd a x (a x ++ [t])) acc.1.data) ∧
    (xs.foldl (cobPut t) acc).1.size = acc.1.size ∧
    (acc.2 = true → (∀ x ∈ xs, 0 ≤ x ∧ x < acc.1.size) → (xs.foldl (cobPut t) acc).2 = true)
  | [], acc => by simp
  | x :: xs, acc => by
    obtain ⟨h1, h2, h3⟩ := cobPut_fold t xs (cobPut t acc x)
    simp only [List.foldl_cons]
    refine ⟨fun h => ?_, ?_, fun ha hx => ?_⟩
    · obtain ⟨h4, h5⟩ := h1 h
      by_cases hc : acc.2 = true ∧ 0 ≤ x ∧ x < acc.1.size
      · have e : cobPut t acc x = (⟨acc.1.size, upd acc.1.data x (acc.1.data x ++ [t])⟩, true) := by
          unfold cobPut; rw [if_pos hc]
        refine ⟨hc.1, ?_⟩
        rw [h5, e]
      · have e : (cobPut t acc x).2 = false := by unfold cobPut; rw [if_neg hc]
        rw [e] at h4
        simp at h4
    · rw [h2]; unfold cobPut; split <;> rfl
    · have hx0 := hx x (by simp)
      have e : cobPut t acc x = (⟨acc.1.size, upd acc.1.data x (acc.1.data x ++ [t])⟩, true) := by
        unfold cobPut; rw [if_pos ⟨ha, hx0⟩]
      exact h3 (by rw [e]) (fun y hy => by rw [e]; exact hx y (by simp [hy]))

theorem cobPut_outer (f : Nat → List Int) : ∀ (ts : List Nat) (acc : Dense (List Nat) × Bool),
    let r := ts.foldl (fun acc t => (f t).foldl (cobPut t) acc) acc
    (r.2 = true → acc.2 = true ∧
      r.1.data = ts.foldl (fun a t => (f t).foldl (fun a x => upd a x (a x ++ [t])) a) acc.1.data) ∧
    r.1.size = acc.1.size ∧
    (acc.2 = true → (∀ t ∈ ts, ∀ x ∈ f t, 0 ≤ x ∧ x < acc.1.size) → r.2 = true)
  | [], acc => by simp
  | t :: ts, acc => by
    have ih := cobPut_outer f ts ((f t).foldl (cobPut t) acc)
    obtain ⟨g1, g2, g3⟩ := cobPut_fold t (f t) acc
    simp only [List.foldl_cons] at *
    obtain ⟨h1, h2, h3⟩ := ih
    refine ⟨fun h => ?_, h2.trans g2, fun ha hx => ?_⟩
    · obtain ⟨h4, h5⟩ := h1 h
      obtain ⟨h6, h7⟩ := g1 h4
      exact ⟨h6, by rw [h5, h7]⟩
    · refine h3 (g3 ha (fun x hx' => hx t (by simp) x hx')) (fun u hu x hx' => ?_)
      rw [g2]; exact hx u (by simp [hu]) x hx'

theorem foldl_max_le (n : Int) : ∀ (xs : List Int) (a : Int), (n ≤ a ∨ ∃ x ∈ xs, n ≤ x + 1) →
    n ≤ xs.foldl (fun n x => max n (x + 1)) a
  | [], a, h => by simpa using h
  | x :: xs, a, h => by
    rw [List.foldl_cons]
    refine foldl_max_le n xs _ ?_
    rcases h with h | ⟨y, hy, h⟩
    · exact Or.inl (by omega)
    · rcases List.mem_cons.1 hy with rfl | hy
      · exact Or.inl (by omega)
      · exact Or.inr ⟨y, hy, h⟩

/-! What the caches should contain -/

def CobFreshV (m : Mesh P) (c : View) (k d : Nat) (data : Int → List Nat) : Prop :=
  ∀ s ∈ c k, data (m.eid k s) = (c d).filter (fun t => s ∈ m.bndOf d t k)

def NbFreshV (m : Mesh P) (cont : View) (d c : Nat) (data : Int → List Nat) : Prop :=
  NbRel m d (· ∈ cont d) data (fun a b => a ∈ cont d ∧ b ∈ cont d ∧ a ≠ b ∧
    ∃ s ∈ cont c, s ∈ m.bndOf d a c ∧ s ∈ m.bndOf d b c)

/-- Number of cells of the view which have the facet `s`. -/
def numCellsV (T : Topo) (m : Mesh P) (c : View) (s : Nat) : Nat :=
  ((c T.cellDim).filter (fun t => s ∈ m.bndOf T.cellDim t (T.cellDim - 1))).length

def BdFreshV (T : Topo) (m : Mesh P) (c : View) (k : Nat) (data : Int → Bool) : Prop :=
  ∀ s ∈ c k, (data (m.eid k s) = true ↔
    if k = T.cellDim - 1 then numCellsV T m c s % 2 = 1
    else ∃ f ∈ c (T.cellDim - 1), numCellsV T m c f % 2 = 1 ∧ s ∈ m.bndOf (T.cellDim - 1) f k)

/-- All handles of the view are valid. -/
def ValidV (m : Mesh P) (c : View) : Prop := ∀ k, ∀ s ∈ c k, s < m.count k

theorem createCobV_fresh {T : Topo} (hT : T.WF) {m : Mesh P} (hI : Inv T m) (hu : UniqueVids m)
    {c : View} (hv : ValidV m c) (k d : Nat) (old : Dense (List Nat))
    (hok : (createCobV m c k d old).2 = true) : CobFreshV m c k d (createCobV m c k d old).1.data := by
  intro s hs
  have h := ((cobPut_outer (fun t => (m.bndOf d t k).map (m.eid k)) (c d)
    (old.clearFor ((c k).map (m.eid k)), true)).1 hok).2
  have h' : (createCobV m c k d old).1.data = _ := h
  rw [h']
  simp only [List.foldl_map]
  rw [cobOuter]
  have hmem : m.eid k s ∈ (c k).map (m.eid k) := List.mem_map.2 ⟨s, hs, rfl⟩
  simp only [Dense.clearFor, if_pos hmem, List.nil_append]
  have : ∀ ts : List Nat, ts.flatMap (fun t => List.replicate (((m.bndOf d t k).map (m.eid k)).count (m.eid k s)) t)
      = ts.filter (fun t => s ∈ m.bndOf d t k) := by
    intro ts
    induction ts with
    | nil => rfl
    | cons t ts ih =>
      rw [List.flatMap_cons, ih, List.filter_cons,
        count_map_inj (fun a ha h => eid_inj hI hu (bndOf_valid hI ha) (hv k s hs) h)]
      by_cases hm : s ∈ m.bndOf d t k
      · rw [List.count_eq_one_of_mem (bndOf_nodup hT hI d t k) hm]
        simp [hm]
      · rw [List.count_eq_zero_of_not_mem hm]
        simp [hm]
  exact this _

/-- The view contains the boundary elements of dimension `k` of its elements of dimension `d`. -/
def ClosedV (m : Mesh P) (c : View) (k d : Nat) : Prop := ∀ t ∈ c d, ∀ s ∈ m.bndOf d t k, s ∈ c k

theorem createCobV_ok {m : Mesh P} {c : View} {k d : Nat} (old : Dense (List Nat))
    (hc : ClosedV m c k d) (hnn : ∀ s ∈ c k, 0 ≤ m.eid k s) : (createCobV m c k d old).2 = true := by
  refine (cobPut_outer (fun t => (m.bndOf d t k).map (m.eid k)) (c d)
    (old.clearFor ((c k).map (m.eid k)), true)).2.2 rfl ?_
  intro t ht x hx
  obtain ⟨s, hs, rfl⟩ := List.mem_map.1 hx
  have hsk := hc t ht s hs
  refine ⟨hnn s hsk, ?_⟩
  have := foldl_max_le (m.eid k s + 1) ((c k).map (m.eid k)) old.size
    (Or.inr ⟨_, List.mem_map.2 ⟨s, hsk, rfl⟩, by omega⟩)
  simp only [Dense.clearFor]
  omega

theorem detectFacetsV_spec {T : Topo} (hT : T.WF) {m : Mesh P} (hI : Inv T m) (hu : UniqueVids m)
    {c : View} (hv : ValidV m c) (old : Int → Bool) {s : Nat} (hs : s ∈ c (T.cellDim - 1)) :
    detectFacetsV T m c old (m.eid (T.cellDim - 1) s) = true ↔ numCellsV T m c s % 2 = 1 := by
  unfold detectFacetsV
  rw [toggleOuter]
  have hmem : m.eid (T.cellDim - 1) s ∈ (c (T.cellDim - 1)).map (m.eid (T.cellDim - 1)) :=
    List.mem_map.2 ⟨s, hs, rfl⟩
  rw [if_pos hmem]
  have : ∀ ts : List Nat, (ts.map (fun t => ((m.bndOf T.cellDim t (T.cellDim - 1)).map
        (m.eid (T.cellDim - 1))).count (m.eid (T.cellDim - 1) s))).sum =
      (ts.filter (fun t => s ∈ m.bndOf T.cellDim t (T.cellDim - 1))).length := by
    intro ts
    induction ts with
    | nil => rfl
    | cons t ts ih =>
      rw [List.map_cons, List.sum_cons, ih, List.filter_cons,
        count_map_inj (fun a ha h => eid_inj hI hu (bndOf_valid hI ha) (hv _ s hs) h)]
      by_cases hm : s ∈ m.bndOf T.cellDim t (T.cellDim - 1)
      · rw [List.count_eq_one_of_mem (bndOf_nodup hT hI _ t _) hm]
        simp [hm, Nat.add_comm]
      · rw [List.count_eq_zero_of_not_mem hm]
        simp [hm]
  rw [this]
  simp [numCellsV]

/-- The flags of lower dimensions after a transfer. -/
theorem transferFlagsV_spec {T : Topo} {m : Mesh P} (hI : Inv T m) (hu : UniqueVids m)
    {c : View} {facet : Int → Bool} {k : Nat} (old : Int → Bool) {s : Nat} (hs : s < m.count k) :
    transferFlagsV T m c facet k old (m.eid k s) = true ↔
      ((m.eid k s ∉ (c k).map (m.eid k) ∧ old (m.eid k s) = true) ∨
        ∃ f ∈ c (T.cellDim - 1), facet (m.eid (T.cellDim - 1) f) = true ∧
          s ∈ m.bndOf (T.cellDim - 1) f k) := by
  unfold transferFlagsV
  rw [setOuter _ _ (fun t => facet (m.eid (T.cellDim - 1) t))]
  refine or_congr ?_ ?_
  · split <;> simp_all
  · constructor
    · rintro ⟨f, hf, h1, h2⟩
      obtain ⟨s', hs', he⟩ := List.mem_map.1 h2
      have := eid_inj hI hu (bndOf_valid hI hs') hs he
      subst this
      exact ⟨f, hf, h1, hs'⟩
    · rintro ⟨f, hf, h1, h2⟩
      exact ⟨f, hf, h1, List.mem_map.2 ⟨s, h2, rfl⟩⟩

theorem VC.detectBoundary_fresh {T : Topo} (hT : T.WF) {m : Mesh P} (hI : Inv T m)
    (hu : UniqueVids m) {v : VC} (hv : ValidV m v.content) {k : Nat} (hk : k ≤ T.cellDim - 1) :
    ((v.detectBoundary T m).bd k).counter = v.counter ∧
    BdFreshV T m v.content k ((v.detectBoundary T m).bd k).data := by
  unfold VC.detectBoundary
  simp only
  by_cases hkn : k = T.cellDim - 1
  · simp only [if_pos hkn]
    refine ⟨trivial, fun s hs => ?_⟩
    rw [if_pos hkn]
    subst hkn
    exact detectFacetsV_spec hT hI hu hv _ hs
  · have hlt : k < T.cellDim - 1 := by omega
    simp only [if_neg hkn, if_pos hlt]
    refine ⟨trivial, fun s hs => ?_⟩
    rw [if_neg hkn, transferFlagsV_spec hI hu _ (hv k s hs)]
    have hmem : m.eid k s ∈ (v.content k).map (m.eid k) := List.mem_map.2 ⟨s, hs, rfl⟩
    simp only [hmem, not_true, false_and, false_or]
    constructor
    · rintro ⟨f, hf, h1, h2⟩
      exact ⟨f, hf, (detectFacetsV_spec hT hI hu hv _ hf).1 h1, h2⟩
    · rintro ⟨f, hf, h1, h2⟩
      exact ⟨f, hf, (detectFacetsV_spec hT hI hu hv _ hf).2 h1, h2⟩

/-! The invariant -/

structure VCInv (T : Topo) (m : Mesh P) (v : VC) : Prop where
  nodup : ∀ k, (v.content k).Nodup
  valid : ValidV m v.content
  cobLe : ∀ k d, (v.cob k d).counter ≤ v.counter
  nbLe : ∀ d c, (v.nb d c).counter ≤ v.counter
  bdLe : ∀ k, (v.bd k).counter ≤ v.counter
  cob : ∀ k d, (v.cob k d).counter = v.counter → CobFreshV m v.content k d (v.cob k d).store.data
  nb : ∀ d c, (v.nb d c).counter = v.counter → NbFreshV m v.content d c (v.nb d c).store.data
  bd : ∀ k, k ≤ T.cellDim - 1 → (v.bd k).counter = v.counter → BdFreshV T m v.content k (v.bd k).data

theorem VCInv.empty (T : Topo) (m : Mesh P) : VCInv T m VC.empty := by
  constructor
  · intro k; simp [VC.empty]
  · intro k s hs; simp [VC.empty] at hs
  · intro k d; exact le_refl _
  · intro k d; exact le_refl _
  · intro k; exact le_refl _
  · intro k d _ s hs; simp [VC.empty] at hs
  · intro k d _ s hs; simp [VC.empty] at hs
  · intro k _ _ s hs; simp [VC.empty] at hs

/-- A change of content with a step of the counter. -/
theorem VCInv.change {T : Topo} {m : Mesh P} {v : VC} (h : VCInv T m v) {c : View}
    (hn : ∀ k, (c k).Nodup) (hc : ValidV m c) {n : Nat} (hlt : v.counter < n) :
    VCInv T m { v with content := c, counter := n } := by
  refine ⟨hn, hc, ?_, ?_, ?_, ?_, ?_, ?_⟩
  · intro k d; have := h.cobLe k d; simp only; omega
  · intro k d; have := h.nbLe k d; simp only; omega
  · intro k; have := h.bdLe k; simp only; omega
  · intro k d e; have := h.cobLe k d; simp only at e; omega
  · intro k d e; have := h.nbLe k d; simp only at e; omega
  · intro k _ e; have := h.bdLe k; simp only at e; omega

theorem VCInv.insert {T : Topo} {m : Mesh P} {v : VC} (h : VCInv T m v) {x : Nat × Nat}
    (hx : x.2 < m.count x.1) : VCInv T m (v.insert x) := by
  refine h.change (View.ins_nodup h.nodup x) ?_ (Nat.lt_succ_self _)
  intro k s hs
  rcases (View.mem_ins _ _ _ _).1 hs with hs | rfl
  · exact h.valid k s hs
  · exact hx

theorem VCInv.remove {T : Topo} {m : Mesh P} {v : VC} (h : VCInv T m v) (x : Nat × Nat) :
    VCInv T m (v.remove x) := by
  refine h.change (View.del_nodup h.nodup x) ?_ (Nat.lt_succ_self _)
  intro k s hs
  exact h.valid k s ((View.mem_del h.nodup _ _ _).1 hs).1

theorem VCInv.grow {T : Topo} {m m' : Mesh P} {v : VC} (h : VCInv T m v) (hg : Grown m m')
    (h0 : m.elems 0 = []) (h0' : m'.elems 0 = []) : VCInv T m' v := by
  have hb : ∀ d t k, t ∈ v.content d → m'.bndOf d t k = m.bndOf d t k := fun d t k ht =>
    hg.bndOf (h.valid d t ht) h0 h0' k
  have he : ∀ k s, s ∈ v.content k → m'.eid k s = m.eid k s := fun k s hs => hg.eid (h.valid k s hs)
  have hnc : ∀ s, numCellsV T m' v.content s = numCellsV T m v.content s := by
    intro s
    unfold numCellsV
    congr 1
    refine List.filter_congr (fun t ht => ?_)
    rw [hb _ t _ ht]
  refine ⟨h.nodup, fun k s hs => lt_of_lt_of_le (h.valid k s hs) (hg.count k), h.cobLe, h.nbLe, h.bdLe, ?_, ?_, ?_⟩
  · intro k d e s hs
    rw [he k s hs, h.cob k d e s hs]
    refine List.filter_congr (fun t ht => ?_)
    rw [hb d t k ht]
  · intro d c e a ha
    have := h.nb d c e a ha
    rw [he d a ha]
    refine ⟨this.1, fun b => (this.2 b).trans ?_⟩
    constructor
    · rintro ⟨h1, h2, h3, s, h4, h5, h6⟩
      exact ⟨h1, h2, h3, s, h4, by rw [hb d a c h1]; exact h5, by rw [hb d b c h2]; exact h6⟩
    · rintro ⟨h1, h2, h3, s, h4, h5, h6⟩
      exact ⟨h1, h2, h3, s, h4, by rw [← hb d a c h1]; exact h5, by rw [← hb d b c h2]; exact h6⟩
  · intro k hk e s hs
    rw [he k s hs, h.bd k hk e s hs]
    split
    · rw [hnc]
    · constructor
      · rintro ⟨f, hf, h1, h2⟩
        exact ⟨f, hf, by rw [hnc]; exact h1, by rw [hb _ f _ hf]; exact h2⟩
      · rintro ⟨f, hf, h1, h2⟩
        exact ⟨f, hf, by rw [← hnc]; exact h1, by rw [← hb _ f _ hf]; exact h2⟩

theorem VC.coboundary_spec {T : Topo} (hT : T.WF) {m : Mesh P} (hI : Inv T m) (hu : UniqueVids m)
    {v : VC} (h : VCInv T m v) (k d s : Nat) :
    VCInv T m (v.coboundary m k d s).1 ∧ (v.coboundary m k d s).1.content = v.content ∧
    (v.coboundary m k d s).1.counter = v.counter ∧ (v.coboundary m k d s).1.nb = v.nb ∧
    (∀ l, (v.coboundary m k d s).2 = some l → s ∈ v.content k →
      l = (v.content d).filter (fun t => s ∈ m.bndOf d t k)) ∧
    (ClosedV m v.content k d → (∀ s ∈ v.content k, 0 ≤ m.eid k s) →
      (v.coboundary m k d s).2 ≠ none) := by
  unfold VC.coboundary
  split
  · rename_i hne
    simp only
    refine ⟨⟨h.nodup, h.valid, ?_, h.nbLe, h.bdLe, ?_, h.nb, h.bd⟩, trivial, trivial, trivial, ?_, ?_⟩
    · intro k' d'
      simp only
      split
      · split
        · exact le_refl _
        · exact h.cobLe k d
      · exact h.cobLe k' d'
    · intro k' d'
      simp only
      split
      · rename_i h'
        obtain ⟨rfl, rfl⟩ := h'
        intro e
        simp only at e ⊢
        split at e
        · rename_i hok
          exact createCobV_fresh hT hI hu h.valid _ _ _ hok
        · exact absurd e hne
      · exact h.cob k' d'
    · intro l hl hs
      split at hl
      · rename_i hok
        cases hl
        exact createCobV_fresh hT hI hu h.valid _ _ _ hok s hs
      · simp at hl
    · intro hc hnn
      rw [createCobV_ok _ hc hnn]
      simp
  · rename_i he
    rw [ne_eq, not_not] at he
    refine ⟨h, rfl, rfl, rfl, ?_, by simp⟩
    intro l hl hs
    cases hl
    exact h.cob k d he s hs

theorem createNbV_spec {T : Topo} (hT : T.WF) {m : Mesh P} (hI : Inv T m) (hu : UniqueVids m)
    {v : VC} (h : VCInv T m v) (d c : Nat) (old : Int → List Nat) :
    let r := createNbV m v d c old
    VCInv T m r.1 ∧ r.1.content = v.content ∧ r.1.counter = v.counter ∧ r.1.nb = v.nb ∧
    (r.2.2 = true → NbFreshV m v.content d c r.2.1) ∧
    (ClosedV m v.content c d → (∀ s ∈ v.content c, 0 ≤ m.eid c s) → r.2.2 = true) := by
  unfold createNbV
  simp only
  have main : ∀ (ss done : List Nat) (v' : VC) (acc : Int → List Nat) (ok : Bool),
      VCInv T m v' → v'.content = v.content → v'.counter = v.counter → v'.nb = v.nb →
      (∀ s ∈ ss, s ∈ v.content c) →
      (ok = true → NbRel m d (· ∈ v.content d) acc (fun a b => a ∈ v.content d ∧ b ∈ v.content d ∧ a ≠ b ∧
        ∃ s ∈ done, s ∈ m.bndOf d a c ∧ s ∈ m.bndOf d b c)) →
      let r := ss.foldl (fun acc s =>
        if acc.2.2 then
          let q := acc.1.coboundary m c d s
          match q.2 with
          | some l => (q.1, (nbPairs l).foldl (nbStep m d) acc.2.1, true)
          | none => (q.1, acc.2.1, false)
        else acc) (v', acc, ok)
      VCInv T m r.1 ∧ r.1.content = v.content ∧ r.1.counter = v.counter ∧ r.1.nb = v.nb ∧
      (r.2.2 = true → NbRel m d (· ∈ v.content d) r.2.1 (fun a b => a ∈ v.content d ∧ b ∈ v.content d ∧
        a ≠ b ∧ ∃ s ∈ done ++ ss, s ∈ m.bndOf d a c ∧ s ∈ m.bndOf d b c)) ∧
      (ok = true → ClosedV m v.content c d → (∀ s ∈ v.content c, 0 ≤ m.eid c s) → r.2.2 = true) := by
    intro ss
    induction ss with
    | nil =>
      intro done v' acc ok h1 h2 h3 h4 _ h5
      simp only [List.foldl_nil, List.append_nil]
      exact ⟨h1, h2, h3, h4, h5, fun ho _ _ => ho⟩
    | cons s ss ih =>
      intro done v' acc ok h1 h2 h3 h4 hss h5
      simp only [List.foldl_cons]
      obtain ⟨g1, g2, g3, g4, g5, g6⟩ := VC.coboundary_spec hT hI hu h1 c d s
      rw [h2] at g2 g5 g6
      rw [h3] at g3
      rw [h4] at g4
      cases ok with
      | false =>
        simp only [Bool.false_eq_true, if_false]
        obtain ⟨i1, i2, i3, i4, i5, i6⟩ := ih (done ++ [s]) v' acc false h1 h2 h3 h4
          (fun t ht => hss t (by simp [ht])) (fun h => absurd h (by simp))
        refine ⟨i1, i2, i3, i4, ?_, fun h => absurd h (by simp)⟩
        simpa [List.append_assoc] using i5
      | true =>
        simp only [if_true]
        cases hq : (v'.coboundary m c d s).2 with
        | none =>
          simp only
          obtain ⟨i1, i2, i3, i4, i5, i6⟩ := ih (done ++ [s]) (v'.coboundary m c d s).1 acc false g1 g2 g3 g4
            (fun t ht => hss t (by simp [ht])) (fun h => absurd h (by simp))
          refine ⟨i1, i2, i3, i4, ?_, fun _ hc hn => absurd hq (g6 hc hn)⟩
          simpa [List.append_assoc] using i5
        | some l =>
          simp only
          have hl := g5 l hq (hss s (by simp))
          have hnodup : l.Nodup := by rw [hl]; exact List.Nodup.filter _ (h.nodup d)
          have hrel : NbRel m d (· ∈ v.content d) ((nbPairs l).foldl (nbStep m d) acc)
              (fun a b => a ∈ v.content d ∧ b ∈ v.content d ∧ a ≠ b ∧
                ∃ s' ∈ done ++ [s], s' ∈ m.bndOf d a c ∧ s' ∈ m.bndOf d b c) := by
            have hf := nbPairsFold_rel hI hu (h.valid d) (nbPairs l) acc _ ?_ ?_ (h5 rfl) ?_
            · intro x hx
              refine ⟨(hf x hx).1, fun y => ?_⟩
              rw [(hf x hx).2 y]
              beta_reduce
              rw [nbPairs_both hnodup x y, hl]
              simp only [List.mem_filter, decide_eq_true_eq, List.mem_append, List.mem_singleton]
              constructor
              · rintro (⟨h1, h2, h3, s', h4, h5⟩ | ⟨⟨h1, h2⟩, ⟨h3, h4⟩, h5⟩)
                · exact ⟨h1, h2, h3, s', Or.inl h4, h5⟩
                · exact ⟨h1, h3, h5, s, Or.inr rfl, h2, h4⟩
              · rintro ⟨h1, h2, h3, s', h4 | rfl, h5⟩
                · exact Or.inl ⟨h1, h2, h3, s', h4, h5⟩
                · exact Or.inr ⟨⟨h1, h5.1⟩, ⟨h2, h5.2⟩, h3⟩
            · rintro a b ⟨h1, h2, h3, s', h4, h5, h6⟩
              exact ⟨h2, h1, h3.symm, s', h4, h6, h5⟩
            · rintro a b ⟨h1, h2, _⟩; exact ⟨h1, h2⟩
            · intro a b hab
              obtain ⟨h4, h5, h6⟩ := (nbPairs_both hnodup a b).1 (Or.inl hab)
              rw [hl] at h4 h5
              simp only [List.mem_filter] at h4 h5
              exact ⟨h4.1, h5.1, h6⟩
          obtain ⟨i1, i2, i3, i4, i5, i6⟩ := ih (done ++ [s]) (v'.coboundary m c d s).1
            ((nbPairs l).foldl (nbStep m d) acc) true g1 g2 g3 g4
            (fun t ht => hss t (by simp [ht])) (fun _ => hrel)
          refine ⟨i1, i2, i3, i4, ?_, fun _ => i6 rfl⟩
          simpa [List.append_assoc] using i5
  obtain ⟨h1, h2, h3, h4, h5, h6⟩ := main (v.content c) [] v
    (fun x => if x ∈ (v.content d).map (m.eid d) then [] else old x) true h rfl rfl rfl (fun s hs => hs) (by
      intro _ a ha
      have : m.eid d a ∈ (v.content d).map (m.eid d) := List.mem_map.2 ⟨a, ha, rfl⟩
      simp [this])
  refine ⟨h1, h2, h3, h4, fun ho => ?_, h6 rfl⟩
  have := h5 ho
  rw [List.nil_append] at this
  exact this

theorem VC.neighbors_spec {T : Topo} (hT : T.WF) {m : Mesh P} (hI : Inv T m) (hu : UniqueVids m)
    {v : VC} (h : VCInv T m v) (d c t : Nat) :
    VCInv T m (v.neighbors m d c t).1 ∧ (v.neighbors m d c t).1.content = v.content ∧
    (v.neighbors m d c t).1.counter = v.counter ∧
    (∀ l, (v.neighbors m d c t).2 = some l → t ∈ v.content d → l.Nodup ∧
      ∀ b, b ∈ l ↔ b ∈ v.content d ∧ t ≠ b ∧ ∃ s ∈ v.content c, s ∈ m.bndOf d t c ∧ s ∈ m.bndOf d b c) ∧
    (ClosedV m v.content c d → (∀ s ∈ v.content c, 0 ≤ m.eid c s) →
      (v.neighbors m d c t).2 ≠ none) := by
  unfold VC.neighbors
  split
  · rename_i hne
    obtain ⟨h1, h2, h3, h4, h5, h6⟩ := createNbV_spec hT hI hu h d c (v.nb d c).store.data
    simp only
    refine ⟨⟨h1.nodup, h1.valid, h1.cobLe, ?_, h1.bdLe, h1.cob, ?_, h1.bd⟩, h2, h3, ?_, ?_⟩
    · intro d' c'
      simp only
      split
      · split
        · rw [h3]
        · rw [h3]; exact h.nbLe d c
      · exact h1.nbLe d' c'
    · intro d' c'
      simp only
      split
      · rename_i h'
        obtain ⟨rfl, rfl⟩ := h'
        intro e
        simp only at e ⊢
        split at e
        · rename_i hok
          rw [h2]
          exact h5 hok
        · rw [h3] at e; exact absurd e hne
      · exact h1.nb d' c'
    · intro l hl ht
      split at hl
      · rename_i hok
        cases hl
        refine ⟨(h5 hok t ht).1, fun b => ((h5 hok t ht).2 b).trans ?_⟩
        exact and_iff_right ht
      · simp at hl
    · intro hc hn
      rw [h6 hc hn]
      simp
  · rename_i he
    rw [ne_eq, not_not] at he
    refine ⟨h, rfl, rfl, ?_, by simp⟩
    intro l hl ht
    cases hl
    refine ⟨(h.nb d c he t ht).1, fun b => ((h.nb d c he t ht).2 b).trans ?_⟩
    exact and_iff_right ht

theorem VC.isBoundary_spec {T : Topo} (hT : T.WF) {m : Mesh P} (hI : Inv T m) (hu : UniqueVids m)
    {v : VC} (h : VCInv T m v) (k s : Nat) :
    VCInv T m (v.isBoundary T m k s).1 ∧ (v.isBoundary T m k s).1.content = v.content ∧
    (v.isBoundary T m k s).1.counter = v.counter ∧
    (k ≤ T.cellDim - 1 → s ∈ v.content k → ((v.isBoundary T m k s).2 = true ↔
      if k = T.cellDim - 1 then numCellsV T m v.content s % 2 = 1
      else ∃ f ∈ v.content (T.cellDim - 1), numCellsV T m v.content f % 2 = 1 ∧
        s ∈ m.bndOf (T.cellDim - 1) f k)) := by
  unfold VC.isBoundary
  simp only
  split
  · refine ⟨⟨h.nodup, h.valid, h.cobLe, h.nbLe, ?_, h.cob, h.nb, ?_⟩, rfl, rfl, fun hk hs => ?_⟩
    · intro k
      unfold VC.detectBoundary
      simp only
      split
      · exact le_refl _
      · split
        · exact le_refl _
        · exact h.bdLe k
    · intro k hk _
      exact (VC.detectBoundary_fresh hT hI hu h.valid hk).2
    · exact (VC.detectBoundary_fresh hT hI hu h.valid hk).2 s hs
  · rename_i he
    rw [ne_eq, not_not] at he
    exact ⟨h, rfl, rfl, fun hk hs => h.bd k hk he s hs⟩

/-! Histories of one view -/

structure MVInv (T : Topo) (st : MV P) : Prop where
  inv : Inv T st.mesh
  noZero : st.mesh.elems 0 = []
  view : VCInv T st.mesh st.view

theorem mvstep_verts {T : Topo} {st st' : MV P} {op : VQOp P} (h : st.step T op = some st') :
    st.mesh.verts <+: st'.mesh.verts := by
  cases op with
  | mesh op =>
    simp only [MV.step] at h
    obtain ⟨m, h1, rfl⟩ := Option.map_eq_some_iff.1 h
    exact step_verts h1
  | insert d t =>
    simp only [MV.step] at h
    split at h
    · cases h; exact List.prefix_refl _
    · simp at h
  | remove d t => simp only [MV.step, Option.some.injEq] at h; subst h; exact List.prefix_refl _
  | handleMesh => simp only [MV.step, Option.some.injEq] at h; subst h; exact List.prefix_refl _
  | coboundary k d s => simp only [MV.step, Option.some.injEq] at h; subst h; exact List.prefix_refl _
  | neighbors d c t => simp only [MV.step, Option.some.injEq] at h; subst h; exact List.prefix_refl _
  | isBoundary k s => simp only [MV.step, Option.some.injEq] at h; subst h; exact List.prefix_refl _

theorem mvrun_verts {T : Topo} : ∀ {ops : List (VQOp P)} {st st' : MV P}, st.run T ops = some st' →
    st.mesh.verts <+: st'.mesh.verts
  | [], st, st', h => by simp [MV.run] at h; subst h; exact List.prefix_refl _
  | op :: ops, st, st', h => by
    simp only [MV.run] at h
    obtain ⟨s1, h1, h2⟩ := Option.bind_eq_some_iff.1 h
    exact (mvstep_verts h1).trans (mvrun_verts h2)

theorem mvstep_inv {T : Topo} (hT : T.WF) {st st' : MV P} {op : VQOp P} (hI : MVInv T st)
    (hu : UniqueVids st.mesh) (hd : ∀ o, op.creation = some o → o.Distinct)
    (hh : op ≠ .handleMesh) (h : st.step T op = some st') : MVInv T st' := by
  cases op with
  | mesh op =>
    simp only [MV.step] at h
    obtain ⟨m, h1, rfl⟩ := Option.map_eq_some_iff.1 h
    have hd' := hd op rfl
    have hg := step_grown hT hI.inv hu hd' h1
    have h0 := step_noZero hT hI.inv hu hd' hI.noZero h1
    exact ⟨step_inv hT hI.inv hu hd' h1, h0, hI.view.grow hg hI.noZero h0⟩
  | insert d t =>
    simp only [MV.step] at h
    split at h
    · rename_i hlt
      cases h
      exact ⟨hI.inv, hI.noZero, hI.view.insert hlt⟩
    · simp at h
  | remove d t =>
    simp only [MV.step, Option.some.injEq] at h; subst h
    exact ⟨hI.inv, hI.noZero, hI.view.remove _⟩
  | handleMesh => exact absurd rfl hh
  | coboundary k d s =>
    simp only [MV.step, Option.some.injEq] at h; subst h
    exact ⟨hI.inv, hI.noZero, (VC.coboundary_spec hT hI.inv hu hI.view k d s).1⟩
  | neighbors d c t =>
    simp only [MV.step, Option.some.injEq] at h; subst h
    exact ⟨hI.inv, hI.noZero, (VC.neighbors_spec hT hI.inv hu hI.view d c t).1⟩
  | isBoundary k s =>
    simp only [MV.step, Option.some.injEq] at h; subst h
    exact ⟨hI.inv, hI.noZero, (VC.isBoundary_spec hT hI.inv hu hI.view k s).1⟩

theorem mvrun_inv {T : Topo} (hT : T.WF) : ∀ {ops : List (VQOp P)} {st st' : MV P}, MVInv T st →
    (∀ op ∈ ops, ∀ o, op.creation = some o → o.Distinct) → .handleMesh ∉ ops →
    st.run T ops = some st' → UniqueVids st'.mesh → MVInv T st'
  | [], st, st', hI, _, _, h, _ => by simp [MV.run] at h; subst h; exact hI
  | op :: ops, st, st', hI, hd, hh, h, hu => by
    simp only [MV.run] at h
    obtain ⟨s1, h1, h2⟩ := Option.bind_eq_some_iff.1 h
    have hu1 : UniqueVids s1.mesh := hu.of_prefix (mvrun_verts h2)
    have hu0 : UniqueVids st.mesh := hu1.of_prefix (mvstep_verts h1)
    simp only [List.mem_cons, not_or] at hh
    exact mvrun_inv hT (mvstep_inv hT hI hu0 (hd op (by simp)) (Ne.symm hh.1) h1)
      (fun o ho => hd o (by simp [ho])) hh.2 h2 hu

/-- A mesh and a view reached by any history of creations, changes of the view and queries;
`all` says whether `handle_mesh` may occur. -/
def MVReached (T : Topo) (all : Bool) (st : MV P) : Prop :=
  ∃ ops : List (VQOp P), (∀ op ∈ ops, ∀ o, op.creation = some o → o.Distinct) ∧
    (all = false → .handleMesh ∉ ops) ∧ MV.empty.run T ops = some st ∧ UniqueVids st.mesh

theorem MVReached.inv {T : Topo} (hT : T.WF) {st : MV P} (h : MVReached T false st) : MVInv T st := by
  obtain ⟨ops, h1, h2, h3, h4⟩ := h
  exact mvrun_inv hT ⟨Inv.empty T, rfl, VCInv.empty T _⟩ h1 (h2 rfl) h3 h4

end VG
