import Verif.Lemmas.RefineTet

/-!
The finite check of the refinement of a tetrahedron and its soundness.
-/

namespace VG

/-- One step of transitive closure. -/
def chainOnce (p : List (Nat × Nat)) : List (Nat × Nat) :=
  (p ++ p.flatMap fun q => (p.filter (fun r => r.1 == q.2)).map fun r => (q.1, r.2)).dedup

def chain (p : List (Nat × Nat)) : List (Nat × Nat) := chainOnce (chainOnce p)

theorem chainOnce_sound {R : Nat → Nat → Prop} (htr : ∀ e f g, R e f → R f g → R e g) {p : List (Nat × Nat)}
    (h : ∀ q ∈ p, R q.1 q.2) : ∀ q ∈ chainOnce p, R q.1 q.2 := by
  intro q hq
  unfold chainOnce at hq
  rw [List.mem_dedup, List.mem_append, List.mem_flatMap] at hq
  rcases hq with hq | ⟨q1, h1, hq⟩
  · exact h q hq
  · obtain ⟨r, hr, rfl⟩ := List.mem_map.1 hq
    obtain ⟨hr1, hr2⟩ := List.mem_filter.1 hr
    have : r.1 = q1.2 := by simpa using hr2
    exact htr _ _ _ (h q1 h1) (by rw [← this]; exact h r hr1)

theorem chain_sound {R : Nat → Nat → Prop} (htr : ∀ e f g, R e f → R f g → R e g) {p : List (Nat × Nat)}
    (h : ∀ q ∈ p, R q.1 q.2) : ∀ q ∈ chain p, R q.1 q.2 :=
  chainOnce_sound htr (chainOnce_sound htr h)

/-- The comparisons contradict each other. -/
def absurdPath (p : List (Nat × Nat)) : Bool := (chain p).any fun q => q.1 == q.2

/-- Checks `P` at the end of each way through the statements, with the comparisons on the way and the
children written; ways with contradicting comparisons are left out. -/
def RTree.check (P : List (Nat × Nat) → List (List Nat) → Bool) (path : List (Nat × Nat)) (acc : List (List Nat)) :
    RTree → Bool
  | .done => absurdPath path || P path acc
  | .fail => absurdPath path
  | .add a b c d r => r.check P path (acc ++ [[a, b, c, d]])
  | .longer a b c d y n =>
      decide (a < 4) && decide (b < 4) && decide (c < 4) && decide (d < 4) && decide (a ≠ b) && decide (c ≠ d) &&
      decide (tetEdge a b ≠ tetEdge c d) &&
      y.check P ((tetEdge a b, tetEdge c d) :: path) acc && n.check P ((tetEdge c d, tetEdge a b) :: path) acc
  | .nearest _ _ _ _ _ _ y n => y.check P path acc && n.check P path acc

/-- A strict total order of the edges which the comparisons of a refinement follow. -/
structure EdgeOrder (lg : Nat → Nat → Nat → Nat → Bool) (R : Nat → Nat → Prop) : Prop where
  trans : ∀ e f g, R e f → R f g → R e g
  irrefl : ∀ e, ¬ R e e
  total : ∀ e f, e < 6 → f < 6 → e ≠ f → R e f ∨ R f e
  lg : ∀ a b c d, a < 4 → b < 4 → c < 4 → d < 4 → a ≠ b → c ≠ d → (lg a b c d = true ↔ R (tetEdge a b) (tetEdge c d))

theorem EdgeOrder.not_absurd {lg : Nat → Nat → Nat → Nat → Bool} {R : Nat → Nat → Prop} (h : EdgeOrder lg R)
    {p : List (Nat × Nat)} (hp : ∀ q ∈ p, R q.1 q.2) : absurdPath p = false := by
  rw [Bool.eq_false_iff]
  intro ha
  obtain ⟨q, hq, he⟩ := List.any_eq_true.1 ha
  have h1 := chain_sound h.trans hp q hq
  have : q.1 = q.2 := by simpa using he
  rw [this] at h1
  exact h.irrefl _ h1

theorem tetEdge_lt (a b : Nat) : tetEdge a b < 6 := by
  unfold tetEdge
  split
  · omega
  · split
    · omega
    · split
      · omega
      · split
        · omega
        · split <;> omega

theorem RTree.check_sound {K : Type} [LE K] [DecidableLE K] {lg : Nat → Nat → Nat → Nat → Bool} {R : Nat → Nat → Prop}
    (h : EdgeOrder lg R) (dist : Nat → Nat → K) {P : List (Nat × Nat) → List (List Nat) → Bool} :
    ∀ (tree : RTree) (path : List (Nat × Nat)) (acc : List (List Nat)), (∀ q ∈ path, R q.1 q.2) →
      tree.check P path acc = true →
      ∃ cells path', tree.eval lg dist = some cells ∧ (∀ q ∈ path', R q.1 q.2) ∧ P path' (acc ++ cells) = true
  | .done, path, acc, hp, hc => by
    simp only [RTree.check, h.not_absurd hp, Bool.false_or] at hc
    exact ⟨[], path, rfl, hp, by simpa using hc⟩
  | .fail, path, acc, hp, hc => by
    simp [RTree.check, h.not_absurd hp] at hc
  | .add a b c d r, path, acc, hp, hc => by
    obtain ⟨cells, path', h1, h2, h3⟩ := RTree.check_sound h dist r path (acc ++ [[a, b, c, d]]) hp hc
    exact ⟨[a, b, c, d] :: cells, path', by simp [RTree.eval, h1], h2, by simpa using h3⟩
  | .longer a b c d y n, path, acc, hp, hc => by
    simp only [RTree.check, Bool.and_eq_true, decide_eq_true_eq] at hc
    obtain ⟨⟨⟨⟨⟨⟨⟨⟨ha, hb⟩, hc'⟩, hd⟩, hab⟩, hcd⟩, hne⟩, hy⟩, hn⟩ := hc
    have hlg := h.lg a b c d ha hb hc' hd hab hcd
    by_cases hl : lg a b c d = true
    · obtain ⟨cells, path', h1, h2, h3⟩ := RTree.check_sound h dist y _ acc (by
        intro q hq
        rcases List.mem_cons.1 hq with rfl | hq
        · exact hlg.1 hl
        · exact hp q hq) hy
      exact ⟨cells, path', by simp [RTree.eval, hl, h1], h2, h3⟩
    · obtain ⟨cells, path', h1, h2, h3⟩ := RTree.check_sound h dist n _ acc (by
        intro q hq
        rcases List.mem_cons.1 hq with rfl | hq
        · rcases h.total _ _ (tetEdge_lt a b) (tetEdge_lt c d) hne with h5 | h5
          · exact absurd (hlg.2 h5) hl
          · exact h5
        · exact hp q hq) hn
      exact ⟨cells, path', by simp [RTree.eval, hl, h1], h2, h3⟩
  | .nearest a b c d e f y n, path, acc, hp, hc => by
    simp only [RTree.check, Bool.and_eq_true] at hc
    by_cases hl : dist a b ≤ dist c d ∧ dist a b ≤ dist e f
    · obtain ⟨cells, path', h1, h2, h3⟩ := RTree.check_sound h dist y path acc hp hc.1
      exact ⟨cells, path', by simp only [RTree.eval, if_pos hl]; exact h1, h2, h3⟩
    · obtain ⟨cells, path', h1, h2, h3⟩ := RTree.check_sound h dist n path acc hp hc.2
      exact ⟨cells, path', by simp only [RTree.eval, if_neg hl]; exact h1, h2, h3⟩

/-! ### What is checked -/

/-- The cell has no new vertices but those on marked edges. -/
def marksOK (m : Nat → Bool) (cell : List Nat) : Bool := cell.all fun l => decide (l < 4) || m (l - 4)

/-- The sign of the volume of a child relative to the tetrahedron. -/
def cellSign (m : Nat → Bool) (cell : List Nat) : Int :=
  if (tetCorners m).any (fun bs => decide (cellSgn (cornerFn bs) cell < 0)) then -1 else 1

def signOK (m : Nat → Bool) (cell : List Nat) : Bool :=
  (tetCorners m).all (fun bs => decide (0 ≤ cellSign m cell * cellSgn (cornerFn bs) cell)) &&
  (tetCorners m).any (fun bs => decide (0 < cellSign m cell * cellSgn (cornerFn bs) cell))

def sumOK (m : Nat → Bool) (cells : List (List Nat)) : Bool :=
  let l := cells.map fun cell => (cellSign m cell, cell)
  (tetCorners m).all fun bs => decide ((l.map (fun q => q.1 * cellSgn (cornerFn bs) q.2)).sum = 1)

def tetFaces : List (Nat × Nat × Nat) := [(0, 1, 2), (0, 1, 3), (0, 2, 3), (1, 2, 3)]

/-- Labels on a face. -/
def onTetFace (a b c l : Nat) : Bool :=
  l == a || l == b || l == c || l == 4 + tetEdge a b || l == 4 + tetEdge a c || l == 4 + tetEdge b c

/-- The facets of a cell, labels sorted. -/
def cellFacets : List Nat → List (List Nat)
  | [a, b, c, d] => [[b, c, d], [a, c, d], [a, b, d], [a, b, c]].map (List.insertionSort (· ≤ ·))
  | _ => []

/-- The triangles of a face in terms of an order of its vertices. -/
def faceRule1 (m : Nat → Bool) (gt : Nat → Nat → Bool) (x y z : Nat) : List (List Nat) :=
  let exy := tetEdge x y
  let exz := tetEdge x z
  let eyz := tetEdge y z
  if m exy then
    if m exz then
      if m eyz then [[x, 4 + exy, 4 + exz], [4 + exy, 4 + exz, 4 + eyz]]
      else [x, 4 + exy, 4 + exz] :: (if gt exy exz then [[4 + exy, y, z], [4 + exy, 4 + exz, z]] else [])
    else if m eyz then [] else [[x, 4 + exy, z]]
  else if m exz then [] else if m eyz then [] else [[x, y, z]]

def perms3 (a b c : Nat) : List (Nat × Nat × Nat) :=
  [(a, b, c), (a, c, b), (b, a, c), (b, c, a), (c, a, b), (c, b, a)]

def faceRule (m : Nat → Bool) (gt : Nat → Nat → Bool) (a b c : Nat) : List (List Nat) :=
  ((perms3 a b c).flatMap fun q => faceRule1 m gt q.1 q.2.1 q.2.2).map (List.insertionSort (· ≤ ·))

def faceOK (m : Nat → Bool) (path : List (Nat × Nat)) (cells : List (List Nat)) (a b c : Nat) : Bool :=
  let ch := chain path
  let gt := fun e f => ch.contains (e, f)
  let got := (cells.flatMap cellFacets).filter fun f => f.all (onTetFace a b c)
  let want := faceRule m gt a b c
  got.all (fun f => want.contains f) && want.all (fun f => got.contains f) &&
  (perms3 a b c).all fun q =>
    !(m (tetEdge q.1 q.2.1) && m (tetEdge q.1 q.2.2) && !(m (tetEdge q.2.1 q.2.2))) ||
    gt (tetEdge q.1 q.2.1) (tetEdge q.1 q.2.2) || gt (tetEdge q.1 q.2.2) (tetEdge q.1 q.2.1)

def facetsOK (cells : List (List Nat)) : Bool :=
  let fs := cells.flatMap cellFacets
  fs.all fun f => fs.count f ==
    if tetFaces.any (fun q => f.all (onTetFace q.1 q.2.1 q.2.2)) then 1 else 2

/-- The marks of the cases with a wrongly oriented child. -/
def mirrored (m : Nat → Bool) : Bool :=
  [[true, false, true, true, false, false], [false, true, true, false, true, false],
   [false, true, false, true, true, false], [true, true, false, false, false, true],
   [false, false, true, true, false, true], [true, false, false, false, true, true]].contains
    [m 0, m 1, m 2, m 3, m 4, m 5]

def orientOK (m : Nat → Bool) (cells : List (List Nat)) : Bool :=
  decide ((cells.filter (fun c => decide (cellSign m c < 0))).length ≤ (if mirrored m then 1 else 0))

def leafOK (m : Nat → Bool) (path : List (Nat × Nat)) (cells : List (List Nat)) : Bool :=
  cells.all CellOK && cells.all (marksOK m) && cells.all (signOK m) && sumOK m cells && orientOK m cells &&
  tetFaces.all (fun q => faceOK m path cells q.1 q.2.1 q.2.2) && facetsOK cells

set_option maxRecDepth 10000 in
theorem tetTree_checked : ∀ b0 b1 b2 b3 b4 b5 : Bool,
    (tetTree (cornerFn [b0, b1, b2, b3, b4, b5])).check (leafOK (cornerFn [b0, b1, b2, b3, b4, b5])) [] [] = true := by
  decide +kernel

end VG
