import Verif.Lemmas.RefineCheck

/-!
C33, C34, C35: refinement of a tetrahedron.

Specification.  A child is a list of four labels: 0-3 are the vertices of the tetrahedron, 4-9 the
new vertices on its edges 01, 02, 03, 12, 13, 23.  The new vertex of edge `e` is anywhere on the edge,
at the parameter `t e` strictly between 0 and 1 (1/2 for `refine`, other values with
`mark_edges_for_hyperplane_refine`).
-/

namespace VG

variable {K : Type} [Field K] [LinearOrder K] [IsStrictOrderedRing K]

/-- The position of a label; points are given by their coordinates 0, 1, 2. -/
def labelPoint (p : Nat → Nat → K) (t : Nat → K) (l k : Nat) : K :=
  match l with
  | 0 => p 0 k
  | 1 => p 1 k
  | 2 => p 2 k
  | 3 => p 3 k
  | 4 => (1 - t 0) * p 0 k + t 0 * p 1 k
  | 5 => (1 - t 1) * p 0 k + t 1 * p 2 k
  | 6 => (1 - t 2) * p 0 k + t 2 * p 3 k
  | 7 => (1 - t 3) * p 1 k + t 3 * p 2 k
  | 8 => (1 - t 4) * p 1 k + t 4 * p 3 k
  | 9 => (1 - t 5) * p 2 k + t 5 * p 3 k
  | _ => 0

/-- Six times the signed volume of the tetrahedron with four corners. -/
def tetVolume6 (a b c d : Nat → K) : K :=
  (b 0 - a 0) * ((c 1 - a 1) * (d 2 - a 2) - (c 2 - a 2) * (d 1 - a 1))
  - (b 1 - a 1) * ((c 0 - a 0) * (d 2 - a 2) - (c 2 - a 2) * (d 0 - a 0))
  + (b 2 - a 2) * ((c 0 - a 0) * (d 1 - a 1) - (c 1 - a 1) * (d 0 - a 0))

/-- Six times the signed volume of a child. -/
def childVolume6 (p : Nat → Nat → K) (t : Nat → K) : List Nat → K
  | [a, b, c, d] => tetVolume6 (labelPoint p t a) (labelPoint p t b) (labelPoint p t c) (labelPoint p t d)
  | _ => 0

/-! ### The comparison of edges is a strict total order -/

omit [Field K] [IsStrictOrderedRing K] in
theorem stableLonger_iff (len : Nat → Nat → K) (id : Nat → Int) (a b c d : Nat) :
    stableLonger len id a b c d = true ↔
      len c d < len a b ∨ len a b = len c d ∧
        (min (id c) (id d) < min (id a) (id b) ∨ min (id a) (id b) = min (id c) (id d) ∧
          max (id c) (id d) < max (id a) (id b)) := by
  unfold stableLonger
  dsimp only
  by_cases h1 : len a b > len c d
  · simp [h1]
  · rw [if_neg h1]
    by_cases h2 : len a b ≥ len c d
    · have he : len a b = len c d := le_antisymm (not_lt.1 h1) h2
      rw [if_pos h2]
      simp only [he, lt_irrefl, false_or, true_and]
      have e1 : id (if id a < id b then a else b) = min (id a) (id b) := by split <;> omega
      have e2 : id (if id a < id b then b else a) = max (id a) (id b) := by split <;> omega
      have e3 : id (if id c < id d then c else d) = min (id c) (id d) := by split <;> omega
      have e4 : id (if id c < id d then d else c) = max (id c) (id d) := by split <;> omega
      rw [e1, e2, e3, e4]
      split
      · simp_all
      · split
        · split
          · simp_all
          · simp_all
        · simp_all
    · rw [if_neg h2]
      have h3 : ¬ len c d < len a b := h1
      have h4 : len a b ≠ len c d := fun h => h2 (le_of_eq h.symm)
      simp [h3, h4]

theorem tetEnds_tetEdge : ∀ a < 4, ∀ b < 4, a ≠ b →
    tetEnds (tetEdge a b) = (a, b) ∨ tetEnds (tetEdge a b) = (b, a) := by decide

omit [Field K] [IsStrictOrderedRing K] in
theorem edgeOrder (len : Nat → Nat → K) (hl : ∀ a b, len a b = len b a) (id : Nat → Int)
    (hid : ∀ a < 4, ∀ b < 4, id a = id b → a = b) :
    EdgeOrder (stableLonger len id) (fun e f =>
      stableLonger len id (tetEnds e).1 (tetEnds e).2 (tetEnds f).1 (tetEnds f).2 = true) := by
  refine ⟨fun e f g => ?_, fun e => ?_, fun e f he hf hne => ?_, fun a b c d ha hb hc hd hab hcd => ?_⟩
  · simp only [stableLonger_iff]
    rintro (h1 | ⟨h1, h2⟩) (h3 | ⟨h3, h4⟩)
    · exact Or.inl (lt_trans h3 h1)
    · exact Or.inl (h3 ▸ h1)
    · exact Or.inl (h1.symm ▸ h3)
    · refine Or.inr ⟨h1.trans h3, ?_⟩
      rcases h2 with h2 | ⟨h2, h2'⟩ <;> rcases h4 with h4 | ⟨h4, h4'⟩
      · exact Or.inl (lt_trans h4 h2)
      · exact Or.inl (h4 ▸ h2)
      · exact Or.inl (h2.symm ▸ h4)
      · exact Or.inr ⟨h2.trans h4, lt_trans h4' h2'⟩
  · rw [stableLonger_iff]; simp
  · simp only [stableLonger_iff]
    rcases lt_trichotomy (len (tetEnds e).1 (tetEnds e).2) (len (tetEnds f).1 (tetEnds f).2) with h | h | h
    · exact Or.inr (Or.inl h)
    · have h01 : id 0 ≠ id 1 := fun h => by have := hid 0 (by omega) 1 (by omega) h; omega
      have h02 : id 0 ≠ id 2 := fun h => by have := hid 0 (by omega) 2 (by omega) h; omega
      have h03 : id 0 ≠ id 3 := fun h => by have := hid 0 (by omega) 3 (by omega) h; omega
      have h12 : id 1 ≠ id 2 := fun h => by have := hid 1 (by omega) 2 (by omega) h; omega
      have h13 : id 1 ≠ id 3 := fun h => by have := hid 1 (by omega) 3 (by omega) h; omega
      have h23 : id 2 ≠ id 3 := fun h => by have := hid 2 (by omega) 3 (by omega) h; omega
      have key : (min (id (tetEnds f).1) (id (tetEnds f).2) < min (id (tetEnds e).1) (id (tetEnds e).2) ∨
            min (id (tetEnds e).1) (id (tetEnds e).2) = min (id (tetEnds f).1) (id (tetEnds f).2) ∧
            max (id (tetEnds f).1) (id (tetEnds f).2) < max (id (tetEnds e).1) (id (tetEnds e).2)) ∨
          (min (id (tetEnds e).1) (id (tetEnds e).2) < min (id (tetEnds f).1) (id (tetEnds f).2) ∨
            min (id (tetEnds f).1) (id (tetEnds f).2) = min (id (tetEnds e).1) (id (tetEnds e).2) ∧
            max (id (tetEnds e).1) (id (tetEnds e).2) < max (id (tetEnds f).1) (id (tetEnds f).2)) := by
        clear h
        interval_cases e <;> interval_cases f <;> simp only [tetEnds, List.getD_cons_zero, List.getD_cons_succ] <;> omega
      rcases key with k | k
      · exact Or.inl (Or.inr ⟨h, k⟩)
      · exact Or.inr (Or.inr ⟨h.symm, k⟩)
    · exact Or.inl (Or.inl h)
  · have e1 := tetEnds_tetEdge a ha b hb hab
    have e2 := tetEnds_tetEdge c hc d hd hcd
    rcases e1 with e1 | e1 <;> rcases e2 with e2 | e2 <;> simp only [e1, e2, stableLonger_iff]
    · rw [hl c d, min_comm (id c), max_comm (id c)]
    · rw [hl a b, min_comm (id a), max_comm (id a)]
    · rw [hl a b, min_comm (id a), max_comm (id a), hl c d, min_comm (id c), max_comm (id c)]

/-! ### From the check to volumes -/

theorem tetTree_list (m : Nat → Bool) : tetTree m = tetTree (cornerFn [m 0, m 1, m 2, m 3, m 4, m 5]) := rfl

theorem tetTree_ok (m : Nat → Bool) : (tetTree m).check (leafOK (cornerFn [m 0, m 1, m 2, m 3, m 4, m 5])) [] [] = true := by
  rw [tetTree_list]
  exact tetTree_checked _ _ _ _ _ _

omit [Field K] [IsStrictOrderedRing K] in
theorem refineTet_leaf (len : Nat → Nat → K) (hl : ∀ a b, len a b = len b a) (dist : Nat → Nat → K) (id : Nat → Int)
    (hid : ∀ a < 4, ∀ b < 4, id a = id b → a = b) (m : Nat → Bool) :
    ∃ cells path, refineTet len dist id m = some cells ∧
      (∀ q ∈ path, stableLonger len id (tetEnds q.1).1 (tetEnds q.1).2 (tetEnds q.2).1 (tetEnds q.2).2 = true) ∧
      leafOK (cornerFn [m 0, m 1, m 2, m 3, m 4, m 5]) path cells = true := by
  obtain ⟨cells, path, h1, h2, h3⟩ := RTree.check_sound (edgeOrder len hl id hid) dist (tetTree m) [] [] (by simp)
    (tetTree_ok m)
  exact ⟨cells, path, h1, h2, h3⟩

theorem cellSgn_marks {m : Nat → Bool} {cell : List Nat} (h : CellOK cell = true) (hm : marksOK m cell = true)
    (c : Nat → Bool) :
    cellSgn c cell = cellSgn (cornerFn [c 0 && m 0, c 1 && m 1, c 2 && m 2, c 3 && m 3, c 4 && m 4, c 5 && m 5]) cell := by
  obtain ⟨i, j, k, l, rfl, hi, hj, hk, hl, _⟩ := cellOK_elim h
  have hm' : ∀ x ∈ [i, j, k, l], x < 4 ∨ m (x - 4) = true := by
    intro x hx
    have := List.all_eq_true.1 hm x hx
    simpa using this
  have hx : ∀ x, x < 10 → (x < 4 ∨ m (x - 4) = true) → tetCollapse c x =
      tetCollapse (cornerFn [c 0 && m 0, c 1 && m 1, c 2 && m 2, c 3 && m 3, c 4 && m 4, c 5 && m 5]) x := by
    intro x hx hmx
    unfold tetCollapse
    by_cases h4 : x < 4
    · rw [if_pos h4, if_pos h4]
    · rw [if_neg h4, if_neg h4]
      have hmx := hmx.resolve_left h4
      have : cornerFn [c 0 && m 0, c 1 && m 1, c 2 && m 2, c 3 && m 3, c 4 && m 4, c 5 && m 5] (x - 4) = (c (x - 4) && m (x - 4)) := by
        have : x - 4 < 6 := by omega
        generalize x - 4 = e at *
        interval_cases e <;> rfl
      rw [this, hmx, Bool.and_true]
  simp only [cellSgn]
  rw [hx i hi (hm' i (by simp)), hx j hj (hm' j (by simp)), hx k hk (hm' k (by simp)), hx l hl (hm' l (by simp))]

theorem cell_pos {m : Nat → Bool} {cell : List Nat} (h : CellOK cell = true) (hm : marksOK m cell = true)
    (hs : signOK m cell = true) {t : Nat → K} (ht : ∀ e < 6, 0 < t e ∧ t e < 1) :
    0 < ((cellSign m cell : Int) : K) * cellDet t cell := by
  unfold signOK at hs
  rw [Bool.and_eq_true] at hs
  obtain ⟨hs1, hs2⟩ := hs
  obtain ⟨bs, hbs, hpos⟩ := List.any_eq_true.1 hs2
  refine MultiAff.pos ((cellDet_multiAff h).smul _) (c0 := cornerFn bs) (fun c => ?_) ?_ ht
  · rw [cellDet_corner c h, ← Int.cast_mul]
    have := List.all_eq_true.1 hs1 _ (mem_tetCorners m c)
    rw [cellSgn_marks h hm c]
    exact_mod_cast (of_decide_eq_true this)
  · rw [cellDet_corner _ h, ← Int.cast_mul]
    exact_mod_cast (of_decide_eq_true hpos)

theorem cells_sum {m : Nat → Bool} {cells : List (List Nat)} (h : ∀ c ∈ cells, CellOK c = true)
    (hm : ∀ c ∈ cells, marksOK m c = true) (hs : sumOK m cells = true) (t : Nat → K) :
    (cells.map (fun c => ((cellSign m c : Int) : K) * cellDet t c)).sum = 1 := by
  refine MultiAff.eq_one (F := fun t => (cells.map (fun c => ((cellSign m c : Int) : K) * cellDet t c)).sum)
    (MultiAff.sum (F := fun c t => ((cellSign m c : Int) : K) * cellDet t c)
      (fun c hc => (cellDet_multiAff (h c hc)).smul _)) (fun c => ?_) t
  have hmap : cells.map (fun cell => ((cellSign m cell : Int) : K) * cellDet (cornerPt c) cell) =
      (cells.map (fun cell => cellSign m cell *
        cellSgn (cornerFn [c 0 && m 0, c 1 && m 1, c 2 && m 2, c 3 && m 3, c 4 && m 4, c 5 && m 5]) cell)).map
        (fun z : Int => (z : K)) := by
    rw [List.map_map]
    refine List.map_congr_left fun cell hc => ?_
    rw [cellDet_corner c (h cell hc), ← Int.cast_mul, cellSgn_marks (h cell hc) (hm cell hc) c]
    rfl
  have := List.all_eq_true.1 hs _ (mem_tetCorners m c)
  have := of_decide_eq_true this
  rw [List.map_map] at this
  show (cells.map (fun cell => ((cellSign m cell : Int) : K) * cellDet (cornerPt c) cell)).sum = 1
  rw [hmap]
  have hcast : ∀ l : List Int, (l.map (fun z : Int => (z : K))).sum = ((l.sum : Int) : K) := by
    intro l
    induction l with
    | nil => simp
    | cons a l ih => simp [ih]
  rw [hcast]
  exact_mod_cast this

omit [LinearOrder K] [IsStrictOrderedRing K] in
theorem labelPoint_eq (p : Nat → Nat → K) (t : Nat → K) {l : Nat} (hl : l < 10) (k : Nat) :
    labelPoint p t l k = tetRow t l 0 * p 0 k + tetRow t l 1 * p 1 k + tetRow t l 2 * p 2 k + tetRow t l 3 * p 3 k ∧
    tetRow t l 0 + tetRow t l 1 + tetRow t l 2 + tetRow t l 3 = 1 := by
  interval_cases l <;> simp [labelPoint, tetRow, unitRow, tetEnds]

omit [LinearOrder K] [IsStrictOrderedRing K] in
theorem volume_combination (a b c d : Nat → K) (P : Nat → Nat → K)
    (A B C D : Nat → K) (ha : ∀ k, a k = A 0 * P 0 k + A 1 * P 1 k + A 2 * P 2 k + A 3 * P 3 k)
    (hb : ∀ k, b k = B 0 * P 0 k + B 1 * P 1 k + B 2 * P 2 k + B 3 * P 3 k)
    (hc : ∀ k, c k = C 0 * P 0 k + C 1 * P 1 k + C 2 * P 2 k + C 3 * P 3 k)
    (hd : ∀ k, d k = D 0 * P 0 k + D 1 * P 1 k + D 2 * P 2 k + D 3 * P 3 k)
    (sA : A 0 + A 1 + A 2 + A 3 = 1) (sB : B 0 + B 1 + B 2 + B 3 = 1) (sC : C 0 + C 1 + C 2 + C 3 = 1)
    (sD : D 0 + D 1 + D 2 + D 3 = 1) :
    tetVolume6 a b c d = det4 A B C D * tetVolume6 (P 0) (P 1) (P 2) (P 3) := by
  have eA : A 0 = 1 - A 1 - A 2 - A 3 := by rw [← sA]; ring
  have eB : B 0 = 1 - B 1 - B 2 - B 3 := by rw [← sB]; ring
  have eC : C 0 = 1 - C 1 - C 2 - C 3 := by rw [← sC]; ring
  have eD : D 0 = 1 - D 1 - D 2 - D 3 := by rw [← sD]; ring
  have hdiff : ∀ (x X : Nat → K), (∀ k, x k = X 0 * P 0 k + X 1 * P 1 k + X 2 * P 2 k + X 3 * P 3 k) →
      X 0 = 1 - X 1 - X 2 - X 3 → ∀ k, x k - a k =
        (X 1 - A 1) * (P 1 k - P 0 k) + (X 2 - A 2) * (P 2 k - P 0 k) + (X 3 - A 3) * (P 3 k - P 0 k) := by
    intro x X hx eX k
    rw [hx, ha, eX, eA]; ring
  unfold tetVolume6
  rw [hdiff b B hb eB 0, hdiff b B hb eB 1, hdiff b B hb eB 2, hdiff c C hc eC 0, hdiff c C hc eC 1, hdiff c C hc eC 2,
    hdiff d D hd eD 0, hdiff d D hd eD 1, hdiff d D hd eD 2]
  have hdet : det4 A B C D =
      (B 1 - A 1) * ((C 2 - A 2) * (D 3 - A 3) - (C 3 - A 3) * (D 2 - A 2))
      - (B 2 - A 2) * ((C 1 - A 1) * (D 3 - A 3) - (C 3 - A 3) * (D 1 - A 1))
      + (B 3 - A 3) * ((C 1 - A 1) * (D 2 - A 2) - (C 2 - A 2) * (D 1 - A 1)) := by
    unfold det4
    rw [eA, eB, eC, eD]; ring
  rw [hdet]
  generalize P 1 0 - P 0 0 = x1
  generalize P 1 1 - P 0 1 = x2
  generalize P 1 2 - P 0 2 = x3
  generalize P 2 0 - P 0 0 = y1
  generalize P 2 1 - P 0 1 = y2
  generalize P 2 2 - P 0 2 = y3
  generalize P 3 0 - P 0 0 = z1
  generalize P 3 1 - P 0 1 = z2
  generalize P 3 2 - P 0 2 = z3
  generalize B 1 - A 1 = b1
  generalize B 2 - A 2 = b2
  generalize B 3 - A 3 = b3
  generalize C 1 - A 1 = c1
  generalize C 2 - A 2 = c2
  generalize C 3 - A 3 = c3
  generalize D 1 - A 1 = d1
  generalize D 2 - A 2 = d2
  generalize D 3 - A 3 = d3
  ring

omit [LinearOrder K] [IsStrictOrderedRing K] in
theorem childVolume6_eq (p : Nat → Nat → K) (t : Nat → K) {cell : List Nat} (h : CellOK cell = true) :
    childVolume6 p t cell = cellDet t cell * tetVolume6 (p 0) (p 1) (p 2) (p 3) := by
  obtain ⟨i, j, k, l, rfl, hi, hj, hk, hl, _⟩ := cellOK_elim h
  exact volume_combination _ _ _ _ p _ _ _ _ (fun x => (labelPoint_eq p t hi x).1)
    (fun x => (labelPoint_eq p t hj x).1) (fun x => (labelPoint_eq p t hk x).1) (fun x => (labelPoint_eq p t hl x).1)
    (labelPoint_eq p t hi 0).2 (labelPoint_eq p t hj 0).2 (labelPoint_eq p t hk 0).2 (labelPoint_eq p t hl 0).2

theorem leafOK_elim {m : Nat → Bool} {path : List (Nat × Nat)} {cells : List (List Nat)} (h : leafOK m path cells = true) :
    (∀ c ∈ cells, CellOK c = true) ∧ (∀ c ∈ cells, marksOK m c = true) ∧ (∀ c ∈ cells, signOK m c = true) ∧
    sumOK m cells = true ∧ orientOK m cells = true ∧ (∀ q ∈ tetFaces, faceOK m path cells q.1 q.2.1 q.2.2 = true) ∧
    facetsOK cells = true := by
  unfold leafOK at h
  simp only [Bool.and_eq_true] at h
  obtain ⟨⟨⟨⟨⟨⟨h1, h2⟩, h3⟩, h4⟩, h5⟩, h6⟩, h7⟩ := h
  exact ⟨List.all_eq_true.1 h1, List.all_eq_true.1 h2, List.all_eq_true.1 h3, h4, h5, List.all_eq_true.1 h6, h7⟩

theorem cellSign_cases (m : Nat → Bool) (c : List Nat) : cellSign m c = 1 ∨ cellSign m c = -1 := by
  unfold cellSign; split
  · exact Or.inr rfl
  · exact Or.inl rfl

omit [LinearOrder K] [IsStrictOrderedRing K] in
theorem sum_map_mul (l : List K) (v : K) : (l.map (fun x => x * v)).sum = l.sum * v := by
  induction l with
  | nil => simp
  | cons a l ih => simp [ih, add_mul]

/-- C33: for all tetrahedra, all marks, all lengths of edges and all distinct ids of vertices (which
decide between edges of equal length), and all positions of the new vertices inside their edges, the
refinement of a tetrahedron does not fail an assertion, the volumes of the children add up to the
volume of the tetrahedron, and no child is degenerate unless the tetrahedron is. -/
theorem C33_volume (len : Nat → Nat → K) (hlen : ∀ a b, len a b = len b a) (dist : Nat → Nat → K) (id : Nat → Int)
    (hid : ∀ a < 4, ∀ b < 4, id a = id b → a = b) (m : Nat → Bool) (p : Nat → Nat → K) (t : Nat → K)
    (ht : ∀ e < 6, 0 < t e ∧ t e < 1) :
    ∃ cells, refineTet len dist id m = some cells ∧
      (cells.map (fun c => |childVolume6 p t c|)).sum = |tetVolume6 (p 0) (p 1) (p 2) (p 3)| ∧
      (tetVolume6 (p 0) (p 1) (p 2) (p 3) ≠ 0 → ∀ c ∈ cells, childVolume6 p t c ≠ 0) := by
  obtain ⟨cells, path, h1, _, h3⟩ := refineTet_leaf len hlen dist id hid m
  obtain ⟨hok, hm, hs, hsum, _⟩ := leafOK_elim h3
  refine ⟨cells, h1, ?_, fun hv c hc => ?_⟩
  · have hmap : cells.map (fun c => |childVolume6 p t c|) =
        (cells.map (fun c => ((cellSign (cornerFn [m 0, m 1, m 2, m 3, m 4, m 5]) c : Int) : K) * cellDet t c)).map
          (fun x => x * |tetVolume6 (p 0) (p 1) (p 2) (p 3)|) := by
      rw [List.map_map]
      refine List.map_congr_left fun c hc => ?_
      rw [childVolume6_eq p t (hok c hc), abs_mul]
      show _ = _ * _
      congr 1
      show |cellDet t c| = ((cellSign (cornerFn [m 0, m 1, m 2, m 3, m 4, m 5]) c : Int) : K) * cellDet t c
      have hp := cell_pos (hok c hc) (hm c hc) (hs c hc) ht
      rcases cellSign_cases (cornerFn [m 0, m 1, m 2, m 3, m 4, m 5]) c with hc1 | hc1
      · rw [hc1] at hp ⊢; simp only [Int.cast_one, one_mul] at hp ⊢; exact abs_of_pos hp
      · rw [hc1] at hp ⊢; simp only [Int.cast_neg, Int.cast_one, neg_mul, one_mul] at hp ⊢
        exact abs_of_neg (by linarith)
    rw [hmap, sum_map_mul, cells_sum hok hm hsum t, one_mul]
  · rw [childVolume6_eq p t (hok c hc)]
    have hp := cell_pos (hok c hc) (hm c hc) (hs c hc) ht
    exact mul_ne_zero (fun h0 => by rw [h0, mul_zero] at hp; exact lt_irrefl _ hp) hv

/-! ### C35 -/

theorem cell_same_sign {m : Nat → Bool} {cell : List Nat} (h : CellOK cell = true) (hm : marksOK m cell = true)
    (hs : signOK m cell = true) {t : Nat → K} (ht : ∀ e < 6, 0 < t e ∧ t e < 1) (hc : ¬ cellSign m cell < 0)
    {p : Nat → Nat → K} (hv : tetVolume6 (p 0) (p 1) (p 2) (p 3) ≠ 0) :
    0 < childVolume6 p t cell * tetVolume6 (p 0) (p 1) (p 2) (p 3) := by
  have h1 : cellSign m cell = 1 := by
    rcases cellSign_cases m cell with h1 | h1
    · exact h1
    · rw [h1] at hc; exact absurd (by decide) hc
  have hp := cell_pos h hm hs ht
  rw [h1] at hp
  simp only [Int.cast_one, one_mul] at hp
  rw [childVolume6_eq p t h, mul_assoc]
  exact mul_pos hp (mul_self_pos.2 hv)

/-- C35.  Full statement: every child has the orientation of the tetrahedron.  False: see
`C35_violated`.  Proved: it holds for all marks but the six in which the marked edges are a path of
three edges of one handedness, namely 01 03 12, 02 03 13, 02 12 13, 01 02 23, 03 12 23 and
01 13 23. -/
theorem C35_orientation_partial (len : Nat → Nat → K) (hlen : ∀ a b, len a b = len b a) (dist : Nat → Nat → K)
    (id : Nat → Int) (hid : ∀ a < 4, ∀ b < 4, id a = id b → a = b) (m : Nat → Bool)
    (hm : [m 0, m 1, m 2, m 3, m 4, m 5] ∉
      [[true, false, true, true, false, false], [false, true, true, false, true, false],
       [false, true, false, true, true, false], [true, true, false, false, false, true],
       [false, false, true, true, false, true], [true, false, false, false, true, true]])
    (p : Nat → Nat → K) (hv : tetVolume6 (p 0) (p 1) (p 2) (p 3) ≠ 0) (t : Nat → K)
    (ht : ∀ e < 6, 0 < t e ∧ t e < 1) :
    ∃ cells, refineTet len dist id m = some cells ∧
      ∀ c ∈ cells, 0 < childVolume6 p t c * tetVolume6 (p 0) (p 1) (p 2) (p 3) := by
  obtain ⟨cells, path, h1, _, h3⟩ := refineTet_leaf len hlen dist id hid m
  obtain ⟨hok, hmk, hs, _, ho, _⟩ := leafOK_elim h3
  refine ⟨cells, h1, fun c hc => cell_same_sign (hok c hc) (hmk c hc) (hs c hc) ht (fun hneg => ?_) hv⟩
  have hmir : mirrored (cornerFn [m 0, m 1, m 2, m 3, m 4, m 5]) = false := by
    rw [Bool.eq_false_iff]
    intro h
    exact hm (by simpa [mirrored, cornerFn] using h)
  unfold orientOK at ho
  rw [hmir] at ho
  have ho := of_decide_eq_true ho
  simp only [Bool.false_eq_true, if_false, Nat.le_zero, List.length_eq_zero_iff] at ho
  have : c ∈ cells.filter (fun c => decide (cellSign (cornerFn [m 0, m 1, m 2, m 3, m 4, m 5]) c < 0)) :=
    List.mem_filter.2 ⟨hc, by simpa using hneg⟩
  rw [ho] at this
  simp at this

theorem filter_length_le {l : List (List Nat)} {f g : List Nat → Bool} (h : ∀ c ∈ l, f c = true → g c = true) :
    (l.filter f).length ≤ (l.filter g).length := by
  induction l with
  | nil => simp
  | cons a l ih =>
    have ih := ih (fun c hc => h c (List.mem_cons_of_mem _ hc))
    have ha := h a List.mem_cons_self
    simp only [List.filter_cons]
    split
    · rename_i hf
      rw [if_pos (ha hf)]
      simpa using ih
    · split
      · simp only [List.length_cons]; omega
      · exact ih

/-- C35: for all marks, at most one child is inverted. -/
theorem C35_at_most_one_partial (len : Nat → Nat → K) (hlen : ∀ a b, len a b = len b a) (dist : Nat → Nat → K)
    (id : Nat → Int) (hid : ∀ a < 4, ∀ b < 4, id a = id b → a = b) (m : Nat → Bool)
    (p : Nat → Nat → K) (hv : tetVolume6 (p 0) (p 1) (p 2) (p 3) ≠ 0) (t : Nat → K)
    (ht : ∀ e < 6, 0 < t e ∧ t e < 1) :
    ∃ cells, refineTet len dist id m = some cells ∧
      (cells.filter (fun c => decide (childVolume6 p t c * tetVolume6 (p 0) (p 1) (p 2) (p 3) < 0))).length ≤ 1 := by
  obtain ⟨cells, path, h1, _, h3⟩ := refineTet_leaf len hlen dist id hid m
  obtain ⟨hok, hmk, hs, _, ho, _⟩ := leafOK_elim h3
  refine ⟨cells, h1, ?_⟩
  have ho := of_decide_eq_true ho
  refine le_trans (filter_length_le ?_) (le_trans ho (by split <;> omega))
  intro c hc h
  have h := of_decide_eq_true h
  apply decide_eq_true
  by_contra hneg
  exact absurd (cell_same_sign (hok c hc) (hmk c hc) (hs c hc) ht hneg hv) (not_lt.2 (le_of_lt h))

/-- A tetrahedron whose edges 01, 03, 12 have lengths 2, 1, 3. -/
def mirrorTet : Nat → Nat → Rat
  | 1, 0 => 2
  | 2, 0 => 2
  | 2, 1 => 3
  | 3, 2 => 1
  | _, _ => 0

/-- Squared distance of the vertices of `mirrorTet`. -/
def mirrorLen (a b : Nat) : Rat :=
  (mirrorTet a 0 - mirrorTet b 0) ^ 2 + (mirrorTet a 1 - mirrorTet b 1) ^ 2 + (mirrorTet a 2 - mirrorTet b 2) ^ 2

/-- C35 violated: with the edges 01, 03 and 12 marked and lengths decreasing in the order 12, 01, 03,
the last child has the opposite orientation. -/
theorem C35_violated :
    refineTet mirrorLen (fun _ _ => (0 : Rat)) (fun a => (a : Int)) (fun e => [true, false, true, true].getD e false) =
      some [[4, 0, 6, 7], [7, 0, 6, 2], [7, 6, 3, 2], [1, 4, 3, 7], [7, 4, 6, 3]] ∧
    0 < tetVolume6 (mirrorTet 0) (mirrorTet 1) (mirrorTet 2) (mirrorTet 3) ∧
    childVolume6 mirrorTet (fun _ => 1 / 2) [7, 4, 6, 3] < 0 := by decide +kernel

/-- The hypotheses of C33 and of the partial theorem of C35 are met by this tetrahedron, with the
edges 01, 12 and 23 marked and new vertices at the midpoints. -/
example : (∀ a b, mirrorLen a b = mirrorLen b a) ∧ tetVolume6 (mirrorTet 0) (mirrorTet 1) (mirrorTet 2) (mirrorTet 3) = 6 ∧
    (∀ e < 6, (0 : Rat) < (fun _ => 1 / 2 : Nat → Rat) e ∧ (fun _ => 1 / 2 : Nat → Rat) e < 1) ∧
    refineTet mirrorLen (fun _ _ => (0 : Rat)) (fun a => (a : Int))
      (fun e => [true, false, false, true, false, true].getD e false) =
      some [[0, 4, 7, 9], [0, 4, 9, 3], [0, 7, 2, 9], [4, 1, 7, 9], [4, 1, 9, 3]] ∧
    childVolume6 mirrorTet (fun _ => 1 / 2) [4, 1, 7, 9] = 3 / 4 := by
  refine ⟨fun a b => ?_, by decide +kernel, by decide +kernel, by decide +kernel, by decide +kernel⟩
  unfold mirrorLen; ring

end VG
