import Verif.Model.QuantityTransfer
import Verif.Props.MeshMeasure

/-!
C52: `quantity_transfer` sets exactly the accepted destination elements with accepted adjacent source elements, each to
the average of the values on exactly those source elements.

Adjacency is `OnBoundary`, i.e. in terms of vertices and the tables of the topology.
-/

namespace VG

variable {P V : Type}

/-! ### Specification -/

/-- What the transfer should do: `adj s t` says that source `s` and destination `t` are adjacent; the range is the list
of the sources or of the destinations in the mesh or segment. -/
structure Transferred (source dest : Nat → Prop) (adj : Nat → Nat → Prop) (value : Nat → V) (avg : List V → V)
    (fs fd : Nat → Bool) (before after : Nat → V) : Prop where
  /-- accepted elements with an accepted adjacent source element -/
  set : ∀ t, dest t → fd t = true → (∃ s, source s ∧ fs s = true ∧ adj s t) →
    ∃ l : List Nat, l.Nodup ∧ (∀ s, s ∈ l ↔ source s ∧ fs s = true ∧ adj s t) ∧ after t = avg (l.map value)
  /-- all others -/
  keep : ∀ t, ¬ (dest t ∧ fd t = true ∧ ∃ s, source s ∧ fs s = true ∧ adj s t) → after t = before t

/-! ### Lemmas -/

/-- The values stored for an element. -/
def valuesOf (values : List (Nat × List V)) (t : Nat) : List V :=
  ((values.find? fun e => e.1 == t).map Prod.snd).getD []

theorem pushValue_values (values : List (Nat × List V)) (t : Nat) (v : V) (x : Nat) :
    valuesOf (pushValue values t v) x = if x = t then valuesOf values t ++ [v] else valuesOf values x := by
  induction values with
  | nil =>
    by_cases h : x = t
    · subst h; simp [pushValue, valuesOf]
    · simp [pushValue, valuesOf, h, Ne.symm h]
  | cons e es ih =>
    unfold pushValue
    split
    · rename_i h
      by_cases hx : x = t
      · subst hx; simp [valuesOf, h]
      · simp [valuesOf, h, hx, Ne.symm hx]
    · rename_i h
      unfold valuesOf at ih ⊢
      by_cases he : e.1 = x
      · have hx : x ≠ t := fun hx => h (he.trans hx)
        simp [he, hx]
      · have h1 : (e.1 == x) = false := by simpa using he
        have h2 : (e.1 == t) = false := by simpa using h
        simp only [List.find?_cons, h1, h2]
        exact ih

theorem pushValue_keys (values : List (Nat × List V)) (t : Nat) (v : V) :
    (values.map Prod.fst).Nodup → ((pushValue values t v).map Prod.fst).Nodup ∧
      ∀ x, x ∈ (pushValue values t v).map Prod.fst ↔ x = t ∨ x ∈ values.map Prod.fst := by
  induction values with
  | nil => intro _; simp [pushValue]
  | cons e es ih =>
    intro h
    rw [List.map_cons, List.nodup_cons] at h
    obtain ⟨i1, i2⟩ := ih h.2
    unfold pushValue
    split
    · rename_i he
      refine ⟨?_, fun x => ?_⟩
      · simp only [List.map_cons, List.nodup_cons]
        exact ⟨he ▸ h.1, h.2⟩
      · simp only [List.map_cons, List.mem_cons, he]
        tauto
    · rename_i he
      refine ⟨?_, fun x => ?_⟩
      · simp only [List.map_cons, List.nodup_cons]
        refine ⟨fun hm => ?_, i1⟩
        rcases (i2 _).1 hm with h1 | h1
        · exact he h1
        · exact h.1 h1
      · simp only [List.map_cons, List.mem_cons, i2]
        tauto

/-- The map after one source element. -/
theorem push_fold (fd : Nat → Bool) (v : V) (ts : List Nat) (hts : ts.Nodup) : ∀ values : List (Nat × List V),
    (values.map Prod.fst).Nodup →
    let r := ts.foldl (fun values t => if fd t then pushValue values t v else values) values
    (r.map Prod.fst).Nodup ∧ (∀ x, x ∈ r.map Prod.fst ↔ x ∈ values.map Prod.fst ∨ (x ∈ ts ∧ fd x = true)) ∧
      ∀ x, valuesOf r x = valuesOf values x ++ if x ∈ ts ∧ fd x = true then [v] else [] := by
  induction ts with
  | nil => intro values h; simp [h]
  | cons t ts ih =>
    intro values h
    rw [List.nodup_cons] at hts
    simp only [List.foldl_cons]
    by_cases hf : fd t = true
    · simp only [hf, if_true]
      obtain ⟨p1, p2⟩ := pushValue_keys values t v h
      obtain ⟨i1, i2, i3⟩ := ih hts.2 _ p1
      refine ⟨i1, fun x => ?_, fun x => ?_⟩
      · rw [i2, p2]
        simp only [List.mem_cons]
        constructor
        · rintro ((rfl | h) | h)
          · exact Or.inr ⟨Or.inl rfl, hf⟩
          · exact Or.inl h
          · exact Or.inr ⟨Or.inr h.1, h.2⟩
        · rintro (h | ⟨rfl | h, h'⟩)
          · exact Or.inl (Or.inr h)
          · exact Or.inl (Or.inl rfl)
          · exact Or.inr ⟨h, h'⟩
      · rw [i3, pushValue_values]
        by_cases hx : x = t
        · subst hx; simp [hts.1, hf]
        · simp [hx]
    · simp only [hf, if_false, Bool.false_eq_true]
      obtain ⟨i1, i2, i3⟩ := ih hts.2 _ h
      refine ⟨i1, fun x => ?_, fun x => ?_⟩
      · rw [i2]
        by_cases hx : x = t
        · subst hx; simp [hts.1, hf]
        · simp [hx]
      · rw [i3]
        by_cases hx : x = t
        · subst hx; simp [hts.1, hf]
        · simp [hx]

/-- The map after all source elements. -/
theorem push_all (bnd : Nat → List Nat) (hb : ∀ s, (bnd s).Nodup) (val : Nat → V) (fs fd : Nat → Bool)
    (range : List Nat) : ∀ values : List (Nat × List V), (values.map Prod.fst).Nodup →
    let r := range.foldl (fun values s => if fs s then
      (bnd s).foldl (fun values t => if fd t then pushValue values t (val s) else values) values else values) values
    (r.map Prod.fst).Nodup ∧
      (∀ x, x ∈ r.map Prod.fst ↔ x ∈ values.map Prod.fst ∨ (fd x = true ∧ ∃ s ∈ range, fs s = true ∧ x ∈ bnd s)) ∧
      ∀ x, fd x = true → valuesOf r x = valuesOf values x ++ (range.filter fun s => fs s && decide (x ∈ bnd s)).map val := by
  induction range with
  | nil => intro values h; simp [h]
  | cons s ss ih =>
    intro values h
    simp only [List.foldl_cons]
    by_cases hf : fs s = true
    · simp only [hf, if_true]
      obtain ⟨p1, p2, p3⟩ := push_fold fd (val s) (bnd s) (hb s) values h
      obtain ⟨i1, i2, i3⟩ := ih _ p1
      refine ⟨i1, fun x => ?_, fun x hx => ?_⟩
      · rw [i2, p2]
        simp only [List.mem_cons]
        constructor
        · rintro ((h | h) | ⟨h, u, h1, h2⟩)
          · exact Or.inl h
          · exact Or.inr ⟨h.2, s, Or.inl rfl, hf, h.1⟩
          · exact Or.inr ⟨h, u, Or.inr h1, h2⟩
        · rintro (h | ⟨h, u, rfl | h1, h2⟩)
          · exact Or.inl (Or.inl h)
          · exact Or.inl (Or.inr ⟨h2.2, h⟩)
          · exact Or.inr ⟨h, u, h1, h2⟩
      · rw [i3 x hx, p3]
        by_cases hm : x ∈ bnd s <;> simp [hm, hx, hf]
    · simp only [hf, if_false, Bool.false_eq_true]
      obtain ⟨i1, i2, i3⟩ := ih _ h
      refine ⟨i1, fun x => ?_, fun x hx => ?_⟩
      · rw [i2]
        simp [hf]
      · rw [i3 x hx]
        simp [hf]

/-- The field after all entries were stored. -/
theorem set_all (avg : List V → V) (values : List (Nat × List V)) : ∀ field : Nat → V,
    (values.map Prod.fst).Nodup → ∀ x,
    values.foldl (fun field e => setValue field e.1 (avg e.2)) field x =
      if x ∈ values.map Prod.fst then avg (valuesOf values x) else field x := by
  induction values with
  | nil => intro field _ x; simp
  | cons e es ih =>
    intro field h x
    rw [List.map_cons, List.nodup_cons] at h
    rw [List.foldl_cons, ih _ h.2 x]
    by_cases hx : x = e.1
    · subst hx
      rw [if_neg h.1]
      simp [setValue, valuesOf]
    · have h1 : (e.1 == x) = false := by simpa using Ne.symm hx
      simp only [List.map_cons, List.mem_cons, hx, false_or, valuesOf, List.find?_cons, h1, setValue, if_false]

/-! ### The property -/

/-- **C52** (from higher to lower dimension): for every mesh, every range of source elements, in any order of iteration,
and all values, averages and filters. -/
theorem C52_boundary {T : Topo} (hT : T.WF) {st : MState P} (hr : Reached T st) {k j : Nat} (hk : k ≤ T.cellDim)
    (range : List Nat) (hrange : range.Nodup) (acc : Nat → Nat → V) (avg : List V → V) (fs fd : Nat → Bool)
    (field : Nat → V) :
    Transferred (· ∈ range) (fun _ => True) (fun s t => OnBoundary T st.mesh j t k s) (acc k) avg fs fd field
      (transferDown st.mesh k j range acc avg fs fd field) := by
  have hI := (hr.inv hT).inv
  obtain ⟨p1, p2, p3⟩ := push_all (fun s => st.mesh.bndOf k s j) (fun s => bndOf_nodup hT hI k s j) (acc k) fs fd range
    [] (by simp)
  have hval : ∀ x, transferDown st.mesh k j range acc avg fs fd field x = _ := fun x => set_all avg _ field p1 x
  refine ⟨fun t _ hd hex => ?_, fun t hno => ?_⟩
  · refine ⟨range.filter fun s => fs s && decide (t ∈ st.mesh.bndOf k s j), hrange.filter _, fun s => ?_, ?_⟩
    · simp [mem_bndOf_iff hT hI hk]
    · rw [hval, if_pos]
      · rw [p3 t hd]
        simp [valuesOf]
      · rw [p2]
        obtain ⟨s, h1, h2, h3⟩ := hex
        exact Or.inr ⟨hd, s, h1, h2, (mem_bndOf_iff hT hI hk).2 h3⟩
  · rw [hval, if_neg]
    rw [p2]
    rintro (h | ⟨hd, s, h1, h2, h3⟩)
    · simp at h
    · exact hno ⟨trivial, hd, s, h1, h2, (mem_bndOf_iff hT hI hk).1 h3⟩

/-- The averages of a list of rational numbers. -/
def mean (l : List Rat) : Rat := l.sum / l.length

/-- The hypotheses of `C52_boundary` hold for the transfer from the triangles of a square to its vertices; the vertex 1,
which belongs to both triangles, gets the mean of their values, the vertex 0 the value of the first one, the vertex 3
is not accepted. -/
example : [0, 1, 2, 3].map (transferDown squareState.mesh 2 0 [0, 1] (fun _ s => if s = 0 then 10 else 20) mean
    (fun _ => true) (fun t => t ≠ 3) (fun _ => 7)) = [10, 15, 15, 7] := by decide +kernel

example : Transferred (· ∈ [0, 1]) (fun _ => True) (fun s t => OnBoundary (simplexTopo 2) squareState.mesh 0 t 2 s)
    (fun s => if s = 0 then (10 : Rat) else 20) mean (fun _ => true) (fun t => t ≠ 3) (fun _ => 7)
    (transferDown squareState.mesh 2 0 [0, 1] (fun _ s => if s = 0 then 10 else 20) mean (fun _ => true)
      (fun t => t ≠ 3) (fun _ => 7)) :=
  C52_boundary (simplexTopo_wf 2) squareState_reached (Nat.le_refl 2) _ (by decide) (fun _ s => if s = 0 then 10 else 20)
    _ _ _ _

/-- The values collected for a destination element. -/
theorem up_values (fs : Nat → Bool) (v : V) (l : List Nat) : ∀ acc : List V,
    l.foldl (fun values s => if fs s then values ++ [v] else values) acc = acc ++ (l.filter fs).map fun _ => v := by
  induction l with
  | nil => intro acc; simp
  | cons s ss ih =>
    intro acc
    rw [List.foldl_cons, ih]
    by_cases h : fs s = true <;> simp [h]

/-- The field after all destination elements. -/
theorem up_all (g : Nat → V) (fd : Nat → Bool) (range : List Nat) : ∀ (field : Nat → V) (x : Nat),
    range.foldl (fun field t => if fd t then setValue field t (g t) else field) field x =
      if x ∈ range ∧ fd x = true then g x else field x := by
  induction range with
  | nil => intro field x; simp
  | cons t ts ih =>
    intro field x
    rw [List.foldl_cons, ih]
    by_cases hx : x = t
    · subst hx
      by_cases hf : fd x = true <;> by_cases hm : x ∈ ts <;> simp [hf, hm, setValue]
    · by_cases hf : fd t = true <;> simp [hf, hx, setValue]

/-- **C52** (from lower to higher dimension), partial: the transfer is right if every accepted destination element has an
accepted adjacent source element, and the accessor has the same value for it and for all these.  The full claim is
`Transferred` without these two conditions; `C52_violated` and `C52_violated_empty` show that each is needed. -/
theorem C52_coboundary_partial {T : Topo} (hT : T.WF) {st : MState P} (hr : Reached T st) {k j : Nat}
    (hk : k ≤ T.cellDim) (range : List Nat) (acc : Nat → Nat → V) (avg : List V → V) (fs fd : Nat → Bool)
    (field : Nat → V)
    (hsome : ∀ t ∈ range, fd t = true → ∃ s, fs s = true ∧ OnBoundary T st.mesh j s k t)
    (hsame : ∀ t ∈ range, fd t = true → ∀ s, fs s = true → OnBoundary T st.mesh j s k t → acc j s = acc k t) :
    Transferred (fun _ => True) (· ∈ range) (fun s t => OnBoundary T st.mesh j s k t) (acc j) avg fs fd field
      (transferUp st.mesh j k range acc avg fs fd field) := by
  have hI := (hr.inv hT).inv
  have hval : ∀ x, transferUp st.mesh j k range acc avg fs fd field x = _ := fun x => up_all _ fd range field x
  refine ⟨fun t ht hd hex => ?_, fun t hno => ?_⟩
  · refine ⟨(st.mesh.bndOf k t j).filter fs, (bndOf_nodup hT hI k t j).filter _, fun s => ?_, ?_⟩
    · simp only [List.mem_filter, mem_bndOf_iff hT hI hk]
      tauto
    · rw [hval, if_pos ⟨ht, hd⟩, up_values, List.nil_append]
      congr 1
      refine List.map_congr_left fun s hs => ?_
      rw [List.mem_filter, mem_bndOf_iff hT hI hk] at hs
      exact (hsame t ht hd s hs.2 hs.1).symm
  · rw [hval, if_neg]
    rintro ⟨ht, hd⟩
    obtain ⟨s, h1, h2⟩ := hsome t ht hd
    exact hno ⟨ht, hd, s, trivial, h1, h2⟩

theorem square_adj (s t : Nat) : OnBoundary (simplexTopo 2) squareState.mesh 0 s 2 t ↔ s ∈ squareState.mesh.bndOf 2 t 0 :=
  (mem_bndOf_iff (simplexTopo_wf 2) (squareState_reached.inv (simplexTopo_wf 2)).inv (Nat.le_refl 2)).symm

/-- The hypotheses of `C52_coboundary_partial` hold for a value that does not depend on the element. -/
example : Transferred (fun _ => True) (· ∈ [0, 1]) (fun s t => OnBoundary (simplexTopo 2) squareState.mesh 0 s 2 t)
    (fun _ => (5 : Rat)) mean (fun s => s = 1) (fun _ => true) (fun _ => 7)
    (transferUp squareState.mesh 0 2 [0, 1] (fun _ _ => 5) mean (fun s => s = 1) (fun _ => true) (fun _ => 7)) := by
  refine C52_coboundary_partial (simplexTopo_wf 2) squareState_reached (Nat.le_refl 2) _ (fun _ _ => 5) _ _ _ _ ?_
    (fun _ _ _ _ _ _ => rfl)
  intro t ht _
  refine ⟨1, by decide, (square_adj 1 t).2 ?_⟩
  revert t
  decide +kernel

/-- **C52** (from lower to higher dimension), what happens in general: the accepted destination elements and no others
are set, each to the average of as many copies of the accessor's value for *the destination element itself* as it has
accepted adjacent source elements. -/
theorem C52_coboundary_actual {T : Topo} (hT : T.WF) {st : MState P} (hr : Reached T st) {k j : Nat}
    (hk : k ≤ T.cellDim) (range : List Nat) (acc : Nat → Nat → V) (avg : List V → V) (fs fd : Nat → Bool)
    (field : Nat → V) (t : Nat) :
    (t ∈ range ∧ fd t = true → ∃ l : List Nat, l.Nodup ∧ (∀ s, s ∈ l ↔ fs s = true ∧ OnBoundary T st.mesh j s k t) ∧
      transferUp st.mesh j k range acc avg fs fd field t = avg (List.replicate l.length (acc k t))) ∧
    (¬ (t ∈ range ∧ fd t = true) → transferUp st.mesh j k range acc avg fs fd field t = field t) := by
  have hI := (hr.inv hT).inv
  have hval : ∀ x, transferUp st.mesh j k range acc avg fs fd field x = _ := fun x => up_all _ fd range field x
  refine ⟨fun h => ⟨(st.mesh.bndOf k t j).filter fs, (bndOf_nodup hT hI k t j).filter _, fun s => ?_, ?_⟩, fun h => ?_⟩
  · rw [List.mem_filter, mem_bndOf_iff hT hI hk]
    tauto
  · rw [hval, if_pos h, up_values, List.nil_append]
    simp
  · rw [hval, if_neg h]

example : transferUp squareState.mesh 0 2 [0, 1] (fun d s => if d = 2 then (100 : Rat) else s) mean (fun _ => true)
    (fun t => t = 0) (fun _ => 7) 0 = 100 := by decide +kernel

/-- **C52** fails from lower to higher dimension: with the values 0, 1, 2, 3 on the vertices of a square, all elements
accepted, the first triangle does not get the mean of the values of its vertices, but what the accessor gives for the
triangle itself. -/
theorem C52_violated : ∃ (st : MState (Fin 2 → Rat)) (acc : Nat → Nat → Rat), Reached (simplexTopo 2) st ∧
    (∀ s, acc 0 s = s) ∧
    (∀ t ∈ [0, 1], ∃ s, OnBoundary (simplexTopo 2) st.mesh 0 s 2 t) ∧
    ¬ Transferred (fun _ => True) (· ∈ [0, 1]) (fun s t => OnBoundary (simplexTopo 2) st.mesh 0 s 2 t)
      (acc 0) mean (fun _ => true) (fun _ => true) (fun _ => 7)
      (transferUp st.mesh 0 2 [0, 1] acc mean (fun _ => true) (fun _ => true) (fun _ => 7)) := by
  refine ⟨squareState, fun d s => if d = 2 then (100 : Rat) else s, squareState_reached, fun s => by simp, ?_, ?_⟩
  · intro t ht
    refine ⟨1, (square_adj 1 t).2 ?_⟩
    revert t
    decide +kernel
  · intro h
    obtain ⟨l, hl, hmem, hval⟩ := h.set 0 (by simp) rfl ⟨0, trivial, rfl, (square_adj 0 0).2 (by decide +kernel)⟩
    have hperm : l.Perm [0, 1, 2] := by
      rw [List.perm_ext_iff_of_nodup hl (by decide)]
      intro s
      rw [hmem, square_adj]
      have : squareState.mesh.bndOf 2 0 0 = [0, 1, 2] := by decide +kernel
      rw [this]
      simp
    have hmean : mean (l.map fun s : Nat => (s : Rat)) = 1 := by
      unfold mean
      rw [(hperm.map _).sum_eq, List.length_map, hperm.length_eq]
      norm_num
    have hgot : transferUp squareState.mesh 0 2 [0, 1] (fun d s => if d = 2 then (100 : Rat) else s) mean (fun _ => true)
        (fun _ => true) (fun _ => 7) 0 = 100 := by decide +kernel
    rw [hgot] at hval
    simp only [show ¬ (0 : Nat) = 2 by decide, if_false] at hval
    rw [hmean] at hval
    norm_num at hval

/-- **C52** fails from lower to higher dimension also for accepted elements without accepted adjacent source elements:
they are set to the average of no values. -/
theorem C52_violated_empty : ∃ (st : MState (Fin 2 → Rat)), Reached (simplexTopo 2) st ∧
    ¬ Transferred (fun _ => True) (· ∈ [0, 1]) (fun s t => OnBoundary (simplexTopo 2) st.mesh 0 s 2 t)
      (fun _ => (5 : Rat)) mean (fun _ => false) (fun _ => true) (fun _ => 7)
      (transferUp st.mesh 0 2 [0, 1] (fun _ _ => 5) mean (fun _ => false) (fun _ => true) (fun _ => 7)) := by
  refine ⟨squareState, squareState_reached, fun h => ?_⟩
  have h0 := h.keep 0 (by simp)
  have hgot : transferUp squareState.mesh 0 2 [0, 1] (fun _ _ => (5 : Rat)) mean (fun _ => false)
      (fun _ => true) (fun _ => 7) 0 = 0 := by decide +kernel
  rw [hgot] at h0
  norm_num at h0

end VG
