import Verif.Lemmas.VoronoiCells
import Verif.Props.Circumcenter

/-!
The three steps of `apply_voronoi` for tetrahedra.
-/

namespace VG

/-! ### Lists in maps -/

theorem pushAt_fold {α : Type} (l : List α) (key : Nat) (g : Nat → List α) (s : Nat) :
    (l.foldl (fun g b => pushAt g key b) g) s = g s ++ if s = key then l else [] := by
  induction l generalizing g with
  | nil => simp
  | cons b l ih =>
    rw [List.foldl_cons, ih]
    unfold pushAt
    split
    · next h => subst h; simp
    · simp

theorem pushAt_keys {α : Type} (l : List Nat) (hl : l.Nodup) (x : α) (g : Nat → List α) (s : Nat) :
    (l.foldl (fun g b => pushAt g b x) g) s = g s ++ if s ∈ l then [x] else [] := by
  induction l generalizing g with
  | nil => simp
  | cons b l ih =>
    rw [List.foldl_cons, ih (List.nodup_cons.1 hl).2]
    have hb := (List.nodup_cons.1 hl).1
    unfold pushAt
    by_cases h : s = b
    · subst h; simp [hb]
    · simp [h]

/-! ### Step one -/

section Steps
variable (m : Mesh (Fin 3 → ℝ))

/-- The circumcenter of a cell, if there is one. -/
noncomputable def Mesh.ctr (c : Nat) : Fin 3 → ℝ :=
  match m.tetCenter c with
  | .ok o => o
  | .error _ => 0

/-- The cells with the facet `f`. -/
def Mesh.cellsAt (cs : List Nat) (f : Nat) : List Nat := cs.filter fun c => decide (f ∈ m.bndOf 3 c 2)

theorem tetStep1_ok (cs : List Nat) (hn : ∀ c ∈ cs, (m.bndOf 3 c 2).Nodup) (hc : ∀ c ∈ cs, m.tetCenter c = .ok (m.ctr c))
    (g : CircMap) :
    ∃ g', tetStep1 m cs g = .ok g' ∧ ∀ f, g' f = g f ++ (m.cellsAt cs f).map fun c => (m.ctr c, c) := by
  induction cs generalizing g with
  | nil => exact ⟨g, rfl, fun f => by simp [Mesh.cellsAt]⟩
  | cons c cs ih =>
    obtain ⟨g', h1, h2⟩ := ih (fun c' h => hn c' (by simp [h])) (fun c' h => hc c' (by simp [h]))
      ((m.bndOf 3 c 2).foldl (fun g f => pushAt g f (m.ctr c, c)) g)
    refine ⟨g', ?_, fun f => ?_⟩
    · rw [tetStep1, hc c (by simp)]; exact h1
    · rw [h2, pushAt_keys _ (hn c (by simp))]
      unfold Mesh.cellsAt
      rw [List.filter_cons]
      by_cases h : f ∈ m.bndOf 3 c 2
      · simp [h]
      · simp [h]

theorem tetStep1_thrown (cs : List Nat) (hc : ∀ c ∈ cs, m.tetCenter c ≠ .error .undefined) {c : Nat} (hm : c ∈ cs)
    (hf : m.tetCenter c = .error .thrown) (g : CircMap) : tetStep1 m cs g = .error .thrown := by
  induction cs generalizing g with
  | nil => simp at hm
  | cons c' cs ih =>
    rw [tetStep1]
    match hx : m.tetCenter c' with
    | .error .thrown => rfl
    | .error .undefined => exact absurd hx (hc c' (by simp))
    | .ok o =>
      have hm' : c ∈ cs := by
        rcases List.mem_cons.1 hm with rfl | h
        · rw [hf] at hx; simp at hx
        · exact h
      exact ih (fun c h => hc c (by simp [h])) hm' _

/-! ### Step two -/

/-- One or two cells. -/
def OneOrTwo (l : List Nat) : Prop := l.length = 1 ∨ l.length = 2

/-- The segments of a facet at one of its edges. -/
noncomputable def Mesh.segs (cs : List Nat) (f e : Nat) : List IfSeg :=
  match m.cellsAt cs f with
  | [c] => [((m.ctr c, m.triCenter f), c), ((m.midOf e, m.triCenter f), c)]
  | [c, c'] => [((m.ctr c, fun i => (m.ctr c i + m.ctr c' i) / 2), c), (((fun i => (m.ctr c i + m.ctr c' i) / 2), m.ctr c'), c')]
  | _ => []

variable {m}

theorem facetSegs_ok {cs : List Nat} {g : CircMap} (hg : ∀ f, g f = (m.cellsAt cs f).map fun c => (m.ctr c, c)) (f e : Nat) :
    (OneOrTwo (m.cellsAt cs f) → facetSegs m g f e = .ok (m.segs cs f e))
    ∧ (¬ OneOrTwo (m.cellsAt cs f) → facetSegs m g f e = .error .thrown) := by
  unfold facetSegs Mesh.segs OneOrTwo
  rw [hg]
  match m.cellsAt cs f with
  | [] => simp
  | [c] => simp
  | [c, c'] => simp
  | _ :: _ :: _ :: _ => simp

theorem segs_ne {cs : List Nat} {f : Nat} (h : OneOrTwo (m.cellsAt cs f)) (e : Nat) : m.segs cs f e ≠ [] := by
  unfold Mesh.segs
  unfold OneOrTwo at h
  match hc : m.cellsAt cs f with
  | [] => rw [hc] at h; simp at h
  | [c] => simp
  | [c, c'] => simp
  | _ :: _ :: _ :: _ => rw [hc] at h; simp at h

theorem tetStep2Edges_ok {cs : List Nat} {g : CircMap} (hg : ∀ f, g f = (m.cellsAt cs f).map fun c => (m.ctr c, c)) (f : Nat)
    (h1 : OneOrTwo (m.cellsAt cs f)) (es : List Nat) (hes : es.Nodup) (h : Nat → List IfSeg) :
    ∃ h', tetStep2Edges m g f es h = .ok h' ∧ ∀ e, h' e = h e ++ if e ∈ es then m.segs cs f e else [] := by
  induction es generalizing h with
  | nil => exact ⟨h, rfl, by simp⟩
  | cons e es ih =>
    obtain ⟨h', h2, h3⟩ := ih (List.nodup_cons.1 hes).2 ((m.segs cs f e).foldl (fun h x => pushAt h e x) h)
    refine ⟨h', ?_, fun e' => ?_⟩
    · rw [tetStep2Edges, (facetSegs_ok hg f e).1 h1]; exact h2
    · rw [h3, pushAt_fold]
      have he := (List.nodup_cons.1 hes).1
      by_cases h : e' = e
      · subst h; simp [he]
      · simp [h]

theorem tetStep2_ok {cs : List Nat} {g : CircMap} (hg : ∀ f, g f = (m.cellsAt cs f).map fun c => (m.ctr c, c)) (fs : List Nat)
    (hn : ∀ f ∈ fs, (m.bndOf 2 f 1).Nodup) (h1 : ∀ f ∈ fs, OneOrTwo (m.cellsAt cs f)) (h : Nat → List IfSeg) :
    ∃ h', tetStep2 m g fs h = .ok h'
      ∧ ∀ e, h' e = h e ++ fs.flatMap fun f => if e ∈ m.bndOf 2 f 1 then m.segs cs f e else [] := by
  induction fs generalizing h with
  | nil => exact ⟨h, rfl, by simp⟩
  | cons f fs ih =>
    obtain ⟨h2, k1, k2⟩ := tetStep2Edges_ok hg f (h1 f (by simp)) _ (hn f (by simp)) h
    obtain ⟨h3, k3, k4⟩ := ih (fun f' hf => hn f' (by simp [hf])) (fun f' hf => h1 f' (by simp [hf])) h2
    refine ⟨h3, ?_, fun e => ?_⟩
    · rw [tetStep2, k1]; exact k3
    · rw [k4, k2, List.flatMap_cons, List.append_assoc]

theorem tetStep2_thrown {cs : List Nat} {g : CircMap} (hg : ∀ f, g f = (m.cellsAt cs f).map fun c => (m.ctr c, c)) (fs : List Nat)
    (hn : ∀ f ∈ fs, (m.bndOf 2 f 1).Nodup) (hne : ∀ f ∈ fs, m.bndOf 2 f 1 ≠ []) {f : Nat} (hf : f ∈ fs)
    (h1 : ¬ OneOrTwo (m.cellsAt cs f)) (h : Nat → List IfSeg) : tetStep2 m g fs h = .error .thrown := by
  induction fs generalizing h with
  | nil => simp at hf
  | cons f' fs ih =>
    rw [tetStep2]
    by_cases h' : OneOrTwo (m.cellsAt cs f')
    · obtain ⟨h2, k1, k2⟩ := tetStep2Edges_ok hg f' h' _ (hn f' (by simp)) h
      rw [k1]
      refine ih (fun f' hf => hn f' (by simp [hf])) (fun f' hf => hne f' (by simp [hf])) ?_ h2
      rcases List.mem_cons.1 hf with rfl | h
      · exact absurd h' h1
      · exact h
    · match hb : m.bndOf 2 f' 1 with
      | [] => exact absurd hb (hne f' (by simp))
      | e :: es => rw [tetStep2Edges, (facetSegs_ok hg f' e).2 h']

/-! ### Step three -/

theorem tetStep3_ok {h : Nat → List IfSeg} (es : List Nat) (hne : ∀ e ∈ es, h e ≠ []) (v : VoroSt) :
    tetStep3 m h es v = .ok (es.foldl (fun v e => (voroTetEdge m e (h e)).foldl VoroSt.write v) v) := by
  induction es generalizing v with
  | nil => rfl
  | cons e es ih =>
    rw [tetStep3, if_neg (hne e (by simp)), ih fun e' he => hne e' (by simp [he])]
    rfl

theorem tetStep3_undefined {h : Nat → List IfSeg} (es : List Nat) {e : Nat} (he : e ∈ es) (h0 : h e = []) (v : VoroSt) :
    tetStep3 m h es v = .error .undefined := by
  induction es generalizing v with
  | nil => simp at he
  | cons e' es ih =>
    rw [tetStep3]
    split
    · rfl
    · next hx =>
      refine ih ?_ _
      rcases List.mem_cons.1 he with rfl | h
      · exact absurd h0 hx
      · exact h

/-! ### The statements of an edge -/

/-- The distance of the ends of an edge. -/
noncomputable def Mesh.lenOf (m : Mesh (Fin 3 → ℝ)) (e : Nat) : ℝ := |signedLine (m.at0 (m.ends e).1) (m.at0 (m.ends e).2)|

/-- Sum of the triangles over the segments. -/
noncomputable def segArea (l : List IfSeg) : ℝ := (l.map fun s => spannedTriangle3 s.1.1 s.1.2 (innerPoint l)).sum

/-- The updates of the contributions. -/
noncomputable def updWrites (m : Mesh (Fin 3 → ℝ)) (e : Nat) (used : List (ℝ × Nat)) : List VoroWrite :=
  used.flatMap fun u =>
    [.upd .area e u.2 u.1, .upd .ebox e u.2 (2 * (u.1 * m.lenOf e / 6)), .upd .vbox (m.ends e).1 u.2 (u.1 * m.lenOf e / 6),
      .upd .vbox (m.ends e).2 u.2 (u.1 * m.lenOf e / 6)]

/-- The updates of the contributions and the statements for the totals. -/
theorem voroTetEdge_split (m : Mesh (Fin 3 → ℝ)) (e : Nat) (l : List IfSeg) :
    ∃ used : List (ℝ × Nat), (used.map (·.1)).sum = segArea l ∧ (∀ u ∈ used, 0 < u.1) ∧
      voroTetEdge m e l = updWrites m e used
        ++ [.set .area e (segArea l), .set .ebox e (2 * (segArea l * m.lenOf e / 6)),
          .add .vbox (m.ends e).1 (segArea l * m.lenOf e / 6), .add .vbox (m.ends e).2 (segArea l * m.lenOf e / 6)] := by
  have hsum : ∀ l' : List IfSeg, ∀ p : Fin 3 → ℝ,
      ((l'.filter fun s => decide (0 < spannedTriangle3 s.1.1 s.1.2 p)).map fun s => spannedTriangle3 s.1.1 s.1.2 p).sum
        = (l'.map fun s => spannedTriangle3 s.1.1 s.1.2 p).sum := by
    intro l' p
    induction l' with
    | nil => rfl
    | cons s l' ih =>
      rw [List.filter_cons, List.map_cons, List.sum_cons]
      by_cases h : 0 < spannedTriangle3 s.1.1 s.1.2 p
      · simp [h, ih]
      · have h0 : spannedTriangle3 s.1.1 s.1.2 p = 0 := le_antisymm (not_lt.1 h) (by unfold spannedTriangle3; exact abs_nonneg _)
        simp [h0, ih]
  have hfold : ∀ (l' : List IfSeg) (f : IfSeg → ℝ) (x : ℝ), l'.foldl (fun acc s => acc + f s) x = x + (l'.map f).sum := by
    intro l' f
    induction l' with
    | nil => simp
    | cons s l' ih => intro x; rw [List.foldl_cons, ih, List.map_cons, List.sum_cons]; ring
  refine ⟨(l.filter fun s => decide (0 < spannedTriangle3 s.1.1 s.1.2 (innerPoint l))).map
    fun s => (spannedTriangle3 s.1.1 s.1.2 (innerPoint l), s.2), ?_, ?_, ?_⟩
  · rw [List.map_map]; exact hsum _ _
  · intro u hu
    obtain ⟨s, hs, rfl⟩ := List.mem_map.1 hu
    simpa using (List.mem_filter.1 hs).2
  · unfold voroTetEdge
    simp only [hfold, zero_add, hsum, updWrites, List.flatMap_map]
    rfl

/-- What an edge adds to the box of a vertex. -/
noncomputable def vertexAmt (m : Mesh (Fin 3 → ℝ)) (e : Nat) (x : ℝ) (s : Nat) : ℝ :=
  (if s = (m.ends e).1 then x * m.lenOf e / 6 else 0) + (if s = (m.ends e).2 then x * m.lenOf e / 6 else 0)

theorem voroTetEdge_effect (m : Mesh (Fin 3 → ℝ)) (e : Nat) (l : List IfSeg) (v : VoroSt) (s : Nat) :
    let r := (voroTetEdge m e l).foldl VoroSt.write v
    r.total .area s = (if s = e then segArea l else v.total .area s)
    ∧ r.total .ebox s = (if s = e then segArea l * m.lenOf e / 3 else v.total .ebox s)
    ∧ r.total .vbox s = v.total .vbox s + vertexAmt m e (segArea l) s
    ∧ partSum (r.parts .area s) = partSum (v.parts .area s) + (if s = e then segArea l else 0)
    ∧ partSum (r.parts .ebox s) = partSum (v.parts .ebox s) + (if s = e then segArea l * m.lenOf e / 3 else 0)
    ∧ partSum (r.parts .vbox s) = partSum (v.parts .vbox s) + vertexAmt m e (segArea l) s
    ∧ ∀ q, ((v.parts q s).map (·.1)).Nodup → ((r.parts q s).map (·.1)).Nodup := by
  obtain ⟨used, h1, _, h3⟩ := voroTetEdge_split m e l
  intro r
  simp only [r, h3]
  rw [List.foldl_append]
  have hp : ∀ w ∈ updWrites m e used, w.Plain := by
    intro w hw
    obtain ⟨u, _, hw⟩ := List.mem_flatMap.1 hw
    simp only [List.mem_cons, List.not_mem_nil, or_false] at hw
    rcases hw with rfl | rfl | rfl | rfl <;> trivial
  have key := fun q => writes_plain _ v hp q s
  have tot : ∀ q, ((updWrites m e used).map (VoroWrite.addAmt q s)).sum = 0 := by
    intro q
    rw [updWrites, sum_flatMap_map]
    simp [VoroWrite.addAmt]
  have lin : ∀ k : ℝ, (used.map fun u => u.1 * k).sum = segArea l * k := by
    intro k
    rw [← h1, ← List.sum_map_mul_right]
  have par : ∀ q, ((updWrites m e used).map (VoroWrite.partAmt q s)).sum = match q with
        | .area => if s = e then segArea l else 0
        | .ebox => if s = e then segArea l * m.lenOf e / 3 else 0
        | .vbox => vertexAmt m e (segArea l) s := by
    intro q
    rw [updWrites, sum_flatMap_map]
    have e1 : ∀ (c : Prop) [Decidable c] (k : ℝ), (used.map fun u => if c then u.1 * k else 0).sum = if c then segArea l * k else 0 := by
      intro c _ k
      split
      · exact lin k
      · simp
    cases q with
    | area =>
      have := e1 (s = e) 1
      simp only [mul_one] at this
      rw [← this]
      congr 1
      refine List.map_congr_left fun u _ => ?_
      simp [VoroWrite.partAmt]
    | ebox =>
      have := e1 (s = e) (m.lenOf e / 3)
      rw [mul_div_assoc, ← this]
      congr 1
      refine List.map_congr_left fun u _ => ?_
      simp [VoroWrite.partAmt]
      split
      · ring
      · rfl
    | vbox =>
      have t1 := e1 (s = (m.ends e).1) (m.lenOf e / 6)
      have t2 := e1 (s = (m.ends e).2) (m.lenOf e / 6)
      simp only [vertexAmt]
      rw [mul_div_assoc (segArea l) _ (6 : ℝ), ← t1, ← t2, ← List.sum_map_add]
      congr 1
      refine List.map_congr_left fun u _ => ?_
      simp [VoroWrite.partAmt, mul_div_assoc]
  generalize updWrites m e used = ws at *
  have k1 := key .area
  have k2 := key .ebox
  have k3 := key .vbox
  rw [tot, par, add_zero] at k1 k2 k3
  simp only [List.foldl_cons, List.foldl_nil, VoroSt.write, reduceCtorEq, false_and, if_false, true_and]
  refine ⟨?_, ?_, ?_, k1.2.1, k2.2.1, k3.2.1, fun q => (key q).2.2⟩
  · rw [k1.1]
  · rw [k2.1]
    split
    · ring
    · rfl
  · unfold vertexAmt
    by_cases ha : s = (m.ends e).1
    · rw [← ha]
      by_cases hb : s = (m.ends e).2
      · rw [← hb]; simp [k3.1]; ring
      · simp [hb, k3.1]
    · by_cases hb : s = (m.ends e).2
      · rw [← hb]; simp [ha, k3.1]
      · simp [ha, hb, k3.1]

/-- The state after the edges. -/
theorem tet_state (m : Mesh (Fin 3 → ℝ)) (h : Nat → List IfSeg) (v : VoroSt) (n s : Nat) :
    let r := (List.range n).foldl (fun v e => (voroTetEdge m e (h e)).foldl VoroSt.write v) v
    r.total .area s = (if s < n then segArea (h s) else v.total .area s)
    ∧ r.total .ebox s = (if s < n then segArea (h s) * m.lenOf s / 3 else v.total .ebox s)
    ∧ r.total .vbox s = v.total .vbox s + ∑ e ∈ Finset.range n, vertexAmt m e (segArea (h e)) s
    ∧ partSum (r.parts .area s) = partSum (v.parts .area s) + (if s < n then segArea (h s) else 0)
    ∧ partSum (r.parts .ebox s) = partSum (v.parts .ebox s) + (if s < n then segArea (h s) * m.lenOf s / 3 else 0)
    ∧ partSum (r.parts .vbox s) = partSum (v.parts .vbox s) + ∑ e ∈ Finset.range n, vertexAmt m e (segArea (h e)) s
    ∧ ∀ q, ((v.parts q s).map (·.1)).Nodup → ((r.parts q s).map (·.1)).Nodup := by
  induction n with
  | zero => intro r; simp [r]
  | succ n ih =>
    intro r
    simp only [r, List.range_succ, List.foldl_append, List.foldl_cons, List.foldl_nil]
    obtain ⟨i1, i2, i3, i4, i5, i6, i7⟩ := ih
    obtain ⟨j1, j2, j3, j4, j5, j6, j7⟩ := voroTetEdge_effect m n (h n)
      ((List.range n).foldl (fun v e => (voroTetEdge m e (h e)).foldl VoroSt.write v) v) s
    have lts : (s < n + 1) ↔ s = n ∨ s < n := by omega
    have spl : ∀ (x y : ℝ), (if s = n then x else if s < n then x else y) = if s < n + 1 then x else y := by
      intro x y
      simp only [lts]
      by_cases a : s = n
      · simp [a]
      · simp [a]
    have add0 : ∀ (x : ℝ), (if s < n then x else 0) + (if s = n then x else 0) = if s < n + 1 then x else 0 := by
      intro x
      simp only [lts]
      by_cases a : s = n
      · simp [a]
      · simp [a]
    refine ⟨?_, ?_, ?_, ?_, ?_, ?_, fun q hq => j7 q (i7 q hq)⟩
    · rw [j1, i1, ← spl]
      split
      · next hs => rw [hs]
      · rfl
    · rw [j2, i2, ← spl]
      split
      · next hs => rw [hs]
      · rfl
    · rw [j3, i3, Finset.sum_range_succ, add_assoc]
    · rw [j4, i4, ← add0, add_assoc]
      congr 2
      split
      · next hs => rw [hs]
      · rfl
    · rw [j5, i5, ← add0, add_assoc]
      congr 2
      split
      · next hs => rw [hs]
      · rfl
    · rw [j6, i6, Finset.sum_range_succ, add_assoc]

end Steps

end VG
