import Verif.Model.CopyElements
import Verif.Lemmas.Copy
import Verif.Lemmas.TetgenPoly
import Mathlib.Algebra.Order.Monoid.Defs
import Mathlib.Tactic.Set

/-!
Lemmas on `copy_elements`.
-/

namespace VG

variable {P K : Type} [LinearOrder K]

/-- A mesh built with generated vertex ids and elements with distinct vertices. -/
def BuiltGen (T : Topo) (m : Mesh P) : Prop :=
  ∃ ops : List (MOp P), (∀ op ∈ ops, op.Distinct ∧ op.Generated) ∧ Mesh.empty.run T ops = some m

theorem BuiltGen.built {T : Topo} {m : Mesh P} (h : BuiltGen T m) : Built T m := by
  obtain ⟨ops, h1, h2⟩ := h
  exact Built.of_generated (fun o ho => (h1 o ho).1) (fun o ho => (h1 o ho).2) h2

theorem BuiltGen.uniq {T : Topo} {m : Mesh P} (h : BuiltGen T m) : UniqueVids m := h.built.choose_spec.2.2

theorem BuiltGen.step {T : Topo} {m m' : Mesh P} (h : BuiltGen T m) {op : MOp P}
    (ho : op.Distinct ∧ op.Generated) (hs : m.step T op = some m') : BuiltGen T m' := by
  obtain ⟨ops, h1, h2⟩ := h
  refine ⟨ops ++ [op], fun o ho' => ?_, ?_⟩
  · rcases List.mem_append.1 ho' with h | h
    · exact h1 o h
    · simp only [List.mem_singleton] at h; subst h; exact ho
  · rw [run_append, h2]; simp [Mesh.run, hs]

/-- The image of a vertex under the map, if it has one. -/
def imgOf (src : Mesh P) (c : CopySt P) (v : Nat) : Option Nat :=
  (c.map.find? (fun e => e.1 == src.vid v)).map (·.2)

section
variable [Zero K]

/-- Where a point is put: for a positive tolerance at the first vertex closer than the tolerance, otherwise at
a vertex of its own. -/
def Placed (dist : P → P → K) (tol : K) (n0 : Nat) (m : Mesh P) (b : P) (i : Nat) : Prop :=
  (0 < tol → m.verts.findIdx? (fun v => decide (dist b v.pt < tol)) = some i) ∧
  (tol ≤ 0 → n0 ≤ i ∧ ∃ a, m.verts[i]? = some a ∧ a.pt = b)

theorem findIdx?_prefix {α : Type} {l l' : List α} (h : l <+: l') {p : α → Bool} {i : Nat}
    (hi : l.findIdx? p = some i) : l'.findIdx? p = some i := by
  obtain ⟨r, rfl⟩ := h
  rw [List.findIdx?_append, hi]; rfl

theorem Placed.mono {dist : P → P → K} {tol : K} {n0 : Nat} {m m' : Mesh P} {b : P} {i : Nat}
    (h : Placed dist tol n0 m b i) (hp : m.verts <+: m'.verts) : Placed dist tol n0 m' b i :=
  ⟨fun ht => findIdx?_prefix hp (h.1 ht),
    fun ht => ⟨(h.2 ht).1, (h.2 ht).2.choose, prefix_getElem? hp (h.2 ht).2.choose_spec.1,
      (h.2 ht).2.choose_spec.2⟩⟩

theorem Placed.lt {dist : P → P → K} {tol : K} {n0 : Nat} {m : Mesh P} {b : P} {i : Nat}
    (h : Placed dist tol n0 m b i) : i < m.verts.length := by
  rcases lt_or_ge 0 tol with ht | ht
  · exact (List.findIdx?_eq_some_iff_getElem.1 (h.1 ht)).1
  · exact (List.getElem?_eq_some_iff.1 (h.2 ht).2.choose_spec.1).1

/-- What `make_unique_vertex` does. -/
theorem makeUniqueVertex_placed (dist : P → P → K) (hself : ∀ p, dist p p = 0) (tol : K) (m : Mesh P) (p : P)
    {n0 : Nat} (hn : n0 ≤ m.verts.length) :
    Placed dist tol n0 (m.makeUniqueVertex dist p tol).1 p (m.makeUniqueVertex dist p tol).2 ∧
    (m.makeUniqueVertex dist p tol = (m.makeVertex none p, m.verts.length) ∨
      0 < tol ∧ (m.makeUniqueVertex dist p tol).1 = m ∧
        (m.makeUniqueVertex dist p tol).2 < m.verts.length) := by
  unfold Mesh.makeUniqueVertex
  rcases lt_or_ge 0 tol with ht | ht
  · rw [if_pos ht]
    cases hf : m.verts.findIdx? (fun v => decide (dist p v.pt < tol)) with
    | some s =>
      exact ⟨⟨fun _ => hf, fun h => absurd ht (not_lt.2 h)⟩,
        Or.inr ⟨ht, rfl, (List.findIdx?_eq_some_iff_getElem.1 hf).1⟩⟩
    | none =>
      refine ⟨⟨fun _ => ?_, fun h => absurd ht (not_lt.2 h)⟩, Or.inl rfl⟩
      simp only [Mesh.makeVertex]
      rw [List.findIdx?_append, hf]
      simp [List.findIdx?_cons, hself, ht]
  · rw [if_neg (not_lt.2 ht)]
    exact ⟨⟨fun h => absurd h (not_lt.2 ht), fun _ => ⟨hn, ⟨m.vgen, p⟩, by simp [Mesh.makeVertex], rfl⟩⟩,
      Or.inl rfl⟩

/-- State of the vertices while elements of `src` are copied into `dst0`; `used` are the vertices met. -/
structure GInv (T : Topo) (dist : P → P → K) (tol : K) (src dst0 : Mesh P) (used : List Nat) (c : CopySt P) :
    Prop where
  built : BuiltGen T c.dst
  pre : dst0.verts <+: c.dst.verts
  known : ∀ v b i, src.verts[v]? = some b → imgOf src c v = some i →
    v ∈ used ∧ Placed dist tol dst0.verts.length c.dst b.pt i
  inj : tol ≤ 0 → ∀ v w i, v < src.verts.length → w < src.verts.length → imgOf src c v = some i →
    imgOf src c w = some i → v = w
  new : ∀ i a, dst0.verts.length ≤ i → c.dst.verts[i]? = some a →
    ∃ v ∈ used, ∃ b, src.verts[v]? = some b ∧ imgOf src c v = some i ∧ a.pt = b.pt

theorem GInv.init {T : Topo} {dist : P → P → K} {tol : K} {src dst : Mesh P} (h : BuiltGen T dst) :
    GInv T dist tol src dst [] ⟨dst, []⟩ := by
  refine ⟨h, List.prefix_refl _, by simp [imgOf], by simp [imgOf], fun i a hi ha => ?_⟩
  have := (List.getElem?_eq_some_iff.1 ha).1
  simp only at this
  omega

/-- The map keeps what it has. -/
def MapGrows (src : Mesh P) (c c' : CopySt P) : Prop :=
  ∀ v i, imgOf src c v = some i → imgOf src c' v = some i

theorem glueVertex_spec {T : Topo} {dist : P → P → K} (hself : ∀ p, dist p p = 0) {tol : K} {src dst0 : Mesh P}
    (hu : UniqueVids src) {used : List Nat} {c : CopySt P} (h : GInv T dist tol src dst0 used c) {v : Nat}
    (hv : v < src.verts.length) :
    ∃ c' i, glueVertex dist tol src c v = some (c', i) ∧ GInv T dist tol src dst0 (used ++ [v]) c' ∧
      imgOf src c' v = some i ∧ MapGrows src c c' ∧ c'.dst.elems = c.dst.elems ∧
      c.dst.verts <+: c'.dst.verts := by
  have hb := List.getElem?_eq_getElem hv
  cases hf : c.map.find? (fun e => e.1 == src.vid v) with
  | some e =>
    refine ⟨c, e.2, by simp [glueVertex, hf], ⟨h.built, h.pre, ?_, h.inj, ?_⟩, by simp [imgOf, hf],
      fun _ _ h => h, rfl, List.prefix_refl _⟩
    · intro w b i hw hi
      have := h.known w b i hw hi
      exact ⟨List.mem_append_left _ this.1, this.2⟩
    · intro i a hi ha
      obtain ⟨w, hw, b, h1⟩ := h.new i a hi ha
      exact ⟨w, List.mem_append_left _ hw, b, h1⟩
  | none =>
    obtain ⟨b, hb'⟩ : ∃ b, src.verts[v]? = some b := ⟨_, hb⟩
    have hpt : src.ptOf v = some b.pt := by simp [Mesh.ptOf, hb']
    obtain ⟨hpl, hcase⟩ := makeUniqueVertex_placed dist hself tol c.dst b.pt h.pre.length_le
    set r := c.dst.makeUniqueVertex dist b.pt tol with hr
    have heq : ∀ w, imgOf src ⟨r.1, (src.vid v, r.2) :: c.map⟩ w =
        if src.vid v = src.vid w then some r.2 else imgOf src c w := by
      intro w
      unfold imgOf
      by_cases hvw : src.vid v = src.vid w
      · simp [hvw]
      · rw [if_neg hvw, List.find?_cons_of_neg (by simpa using hvw)]
    have hself' : imgOf src ⟨r.1, (src.vid v, r.2) :: c.map⟩ v = some r.2 := by rw [heq, if_pos rfl]
    have hnone : imgOf src c v = none := by simp [imgOf, hf]
    have hgrow : MapGrows src c ⟨r.1, (src.vid v, r.2) :: c.map⟩ := by
      intro w i hw
      rw [heq, if_neg]
      · exact hw
      · intro e
        have : imgOf src c w = imgOf src c v := by unfold imgOf; rw [e]
        rw [this, hnone] at hw
        cases hw
    have hpre : c.dst.verts <+: r.1.verts := by
      rcases hcase with hc | ⟨_, hc, _⟩
      · rw [hc]; exact ⟨_, rfl⟩
      · rw [hc]; exact List.prefix_refl _
    have hel : r.1.elems = c.dst.elems := by
      rcases hcase with hc | ⟨_, hc, _⟩
      · rw [hc]; rfl
      · rw [hc]
    have hcases : ∀ w i, w < src.verts.length → imgOf src ⟨r.1, (src.vid v, r.2) :: c.map⟩ w = some i →
        (w = v ∧ i = r.2) ∨ imgOf src c w = some i := by
      intro w i hw hi
      rw [heq] at hi
      by_cases e : src.vid v = src.vid w
      · rw [if_pos e] at hi
        exact Or.inl ⟨vid_inj hu hw hv e.symm, (Option.some.inj hi).symm⟩
      · rw [if_neg e] at hi
        exact Or.inr hi
    refine ⟨⟨r.1, (src.vid v, r.2) :: c.map⟩, r.2, by simp [glueVertex, hf, hpt, ← hr], ⟨?_, h.pre.trans hpre, ?_, ?_, ?_⟩,
      hself', hgrow, hel, hpre⟩
    · rcases hcase with hc | ⟨_, hc, _⟩
      · rw [hc]; exact h.built.step (op := .vertex none b.pt) ⟨trivial, rfl⟩ rfl
      · rw [hc]; exact h.built
    · intro w b' i hw hi
      rcases hcases w i (List.getElem?_eq_some_iff.1 hw).1 hi with ⟨rfl, rfl⟩ | hi
      · rw [hb'] at hw
        cases hw
        exact ⟨by simp, hpl⟩
      · have := h.known w b' i hw hi
        exact ⟨List.mem_append_left _ this.1, this.2.mono hpre⟩
    · intro ht w w' i hw hw' hi hi'
      have hrn : r.2 = c.dst.verts.length := by
        rcases hcase with hc | ⟨hc, _, _⟩
        · rw [hc]
        · exact absurd hc (not_lt.2 ht)
      have hold : ∀ x, x < src.verts.length → imgOf src c x = some r.2 → False := by
        intro x hx hxi
        have := (h.known x _ _ (List.getElem?_eq_getElem hx) hxi).2.lt
        omega
      rcases hcases w i hw hi with ⟨rfl, rfl⟩ | h1
      · rcases hcases w' _ hw' hi' with ⟨rfl, _⟩ | h2
        · rfl
        · exact (hold w' hw' h2).elim
      · rcases hcases w' i hw' hi' with ⟨rfl, rfl⟩ | h2
        · exact (hold w hw h1).elim
        · exact h.inj ht w w' i hw hw' h1 h2
    · intro i a hi ha
      rcases hcase with hc | ⟨_, hc, _⟩
      · rw [hc] at ha
        simp only [Mesh.makeVertex] at ha
        by_cases hlt : i < c.dst.verts.length
        · rw [List.getElem?_append_left hlt] at ha
          obtain ⟨w, hw, b', h1, h2, h3⟩ := h.new i a hi ha
          exact ⟨w, List.mem_append_left _ hw, b', h1, hgrow w i h2, h3⟩
        · rw [List.getElem?_append_right (by omega)] at ha
          obtain ⟨h1, h2⟩ := List.getElem?_eq_some_iff.1 ha
          simp only [List.length_singleton] at h1
          have : i = c.dst.verts.length := by omega
          subst this
          simp only [Nat.sub_self, List.getElem_cons_zero] at h2
          refine ⟨v, by simp, b, hb', ?_, by rw [← h2]⟩
          rw [hself', hc]
      · rw [hc] at ha
        obtain ⟨w, hw, b', h1, h2, h3⟩ := h.new i a hi ha
        exact ⟨w, List.mem_append_left _ hw, b', h1, hgrow w i h2, h3⟩

theorem glueVerts_spec {T : Topo} {dist : P → P → K} (hself : ∀ p, dist p p = 0) {tol : K} {src dst0 : Mesh P}
    (hu : UniqueVids src) : ∀ {vs : List Nat} {used : List Nat} {c : CopySt P},
    GInv T dist tol src dst0 used c → (∀ v ∈ vs, v < src.verts.length) →
    ∃ c' is, glueVerts dist tol src c vs = some (c', is) ∧ GInv T dist tol src dst0 (used ++ vs) c' ∧
      vs.map (imgOf src c') = is.map some ∧ MapGrows src c c' ∧ c'.dst.elems = c.dst.elems ∧
      c.dst.verts <+: c'.dst.verts
  | [], used, c, h, _ => ⟨c, [], rfl, by simpa using h, rfl, fun _ _ h => h, rfl, List.prefix_refl _⟩
  | v :: vs, used, c, h, hv => by
    obtain ⟨c1, i, e1, g1, k1, m1, l1, p1⟩ := glueVertex_spec hself hu h (hv v (by simp))
    obtain ⟨c2, is, e2, g2, k2, m2, l2, p2⟩ := glueVerts_spec hself hu (vs := vs) g1 (fun w hw => hv w (by simp [hw]))
    refine ⟨c2, i :: is, ?_, by simpa using g2, ?_, fun w j hw => m2 w j (m1 w j hw), l2.trans l1, p1.trans p2⟩
    · simp only [glueVerts, e1, Option.bind_some, e2, Option.map_some]
    · simp [k2, m2 v i k1]

/-- The map as a function. -/
def imgD (src : Mesh P) (c : CopySt P) (v : Nat) : Nat := (imgOf src c v).getD 0

theorem imgD_of {src : Mesh P} {c : CopySt P} {v i : Nat} (h : imgOf src c v = some i) : imgD src c v = i := by
  simp [imgD, h]

theorem map_imgD {src : Mesh P} {c : CopySt P} {vs is : List Nat} (h : vs.map (imgOf src c) = is.map some) :
    vs.map (imgD src c) = is := by
  have := congrArg (List.map (fun o : Option Nat => o.getD 0)) h
  show vs.map (fun v => (imgOf src c v).getD 0) = is
  simpa [Function.comp_def] using this

theorem imgOf_known {src : Mesh P} {c : CopySt P} {vs is : List Nat} (h : vs.map (imgOf src c) = is.map some)
    {v : Nat} (hv : v ∈ vs) : ∃ i, imgOf src c v = some i := by
  have : imgOf src c v ∈ vs.map (imgOf src c) := List.mem_map.2 ⟨v, hv, rfl⟩
  rw [h] at this
  obtain ⟨i, _, hi⟩ := List.mem_map.1 this
  exact ⟨i, hi.symm⟩

/-- State of the elements. -/
structure GElems (T : Topo) (d : Nat) (src dst0 : Mesh P) (done : List (List Nat)) (c : CopySt P) : Prop where
  img : ∀ vs ∈ done, ∀ v ∈ vs, ∃ i, imgOf src c v = some i
  pre : ∀ k, dst0.elems k <+: c.dst.elems k
  present : ∀ vs ∈ done, ∃ e ∈ c.dst.elems d, e.verts.Perm (vs.map (imgD src c))
  new : ∀ i e, (dst0.elems d).length ≤ i → (c.dst.elems d)[i]? = some e →
    ∃ vs ∈ done, e.verts = vs.map (imgD src c)
  higher : ∀ k, d < k → c.dst.elems k = dst0.elems k
  sub : ∀ k i e, (dst0.elems k).length ≤ i → (c.dst.elems k)[i]? = some e →
    ∃ vs ∈ done, e.verts ⊆ vs.map (imgD src c)
  cells : d = T.cellDim → (c.dst.elems d).map (·.verts) =
    (dst0.elems d).map (·.verts) ++ done.map (fun vs => vs.map (imgD src c))

theorem GElems.init {T : Topo} {d : Nat} {src dst : Mesh P} : GElems T d src dst [] ⟨dst, []⟩ := by
  refine ⟨by simp, fun _ => List.prefix_refl _, by simp, fun i e hi he => ?_, fun _ _ => rfl, fun k i e hi he => ?_,
    by simp⟩
  · have := (List.getElem?_eq_some_iff.1 he).1
    simp only at this
    omega
  · have := (List.getElem?_eq_some_iff.1 he).1
    simp only at this
    omega

/-- The vertices of each element stay apart. -/
def KeepsApart (dist : P → P → K) (tol : K) (src : Mesh P) (vs : List Nat) : Prop :=
  0 < tol → ∀ (m : Mesh P) v w b b' i n0, v ∈ vs → w ∈ vs → src.verts[v]? = some b → src.verts[w]? = some b' →
    Placed dist tol n0 m b.pt i → Placed dist tol n0 m b'.pt i → v = w

theorem glueElement_spec {T : Topo} (hT : T.WF) {d : Nat} (hd1 : 1 ≤ d) (hd : d ≤ T.cellDim) {dist : P → P → K}
    (hself : ∀ p, dist p p = 0) {tol : K} {src dst0 : Mesh P} (hu : UniqueVids src) {vs used : List Nat} {done}
    {c : CopySt P} (h : GInv T dist tol src dst0 used c) (he : GElems T d src dst0 done c)
    (hv : vs.Nodup ∧ T.Arity d vs.length ∧ ∀ v ∈ vs, v < src.verts.length)
    (ha : KeepsApart dist tol src vs) :
    ∃ c', glueElement T d dist tol src c vs = some c' ∧ GInv T dist tol src dst0 (used ++ vs) c' ∧
      GElems T d src dst0 (done ++ [vs]) c' ∧ MapGrows src c c' ∧ c.dst.verts <+: c'.dst.verts := by
  obtain ⟨c1, is, e1, g1, k1, m1, l1, p1⟩ := glueVerts_spec hself hu h hv.2.2
  have his : vs.map (imgD src c1) = is := map_imgD k1
  have hlen : is.length = vs.length := by rw [← his, List.length_map]
  have hpl : ∀ v ∈ vs, ∃ b, src.verts[v]? = some b ∧ imgOf src c1 v = some (imgD src c1 v) ∧
      Placed dist tol dst0.verts.length c1.dst b.pt (imgD src c1 v) := by
    intro v hv'
    obtain ⟨i, hi⟩ := imgOf_known k1 hv'
    have hb := List.getElem?_eq_getElem (hv.2.2 v hv')
    refine ⟨_, hb, by rw [imgD_of hi, hi], ?_⟩
    rw [imgD_of hi]
    exact (g1.known v _ i hb hi).2
  have hnd : is.Nodup := by
    rw [← his]
    refine (List.nodup_map_iff_inj_on hv.1).2 (fun a ha' b hb' hab => ?_)
    obtain ⟨x, hx, hix, hpx⟩ := hpl a ha'
    obtain ⟨y, hy, hiy, hpy⟩ := hpl b hb'
    rcases lt_or_ge 0 tol with ht | ht
    · rw [hab] at hpx
      exact ha ht c1.dst a b x y _ _ ha' hb' hx hy hpx hpy
    · rw [hab] at hix
      exact g1.inj ht a b _ (hv.2.2 a ha') (hv.2.2 b hb') hix hiy
  have hlt : ∀ i ∈ is, i < c1.dst.verts.length := by
    intro i hi
    rw [← his] at hi
    obtain ⟨v, hv', rfl⟩ := List.mem_map.1 hi
    exact (hpl v hv').choose_spec.2.2.lt
  have hstep : c1.dst.step T (.elem d is) = some (c1.dst.makeElem T d is).mesh := by
    simp only [Mesh.step]
    rw [if_pos ⟨hd1, hd, by rw [hlen]; exact hv.2.1, hlt⟩]
  have hs := makeElem_spec hT (g1.built.built.inv hT) g1.built.uniq hd1 ⟨hnd, by rw [hlen]; exact hv.2.1, hlt⟩
  have himg : ∀ v, imgD src c1 v = imgD src ⟨(c1.dst.makeElem T d is).mesh, c1.map⟩ v := fun _ => rfl
  have hdoneimg : ∀ ws ∈ done, ws.map (imgD src c) = ws.map (imgD src c1) := by
    intro ws hws
    refine List.map_congr_left (fun v hv' => ?_)
    obtain ⟨i, hi⟩ := he.img ws hws v hv'
    rw [imgD_of hi, imgD_of (m1 v i hi)]
  have hev : ∀ k, c.dst.elems k <+: (c1.dst.makeElem T d is).mesh.elems k := by
    intro k
    have := hs.ext.elems k
    rwa [l1] at this
  refine ⟨⟨(c1.dst.makeElem T d is).mesh, c1.map⟩, ?_, ?_, ?_, m1, ?_⟩
  · simp only [glueElement, e1, Option.bind_some, hstep, Option.map_some]
  · have hvs := hs.ext.verts
    refine ⟨g1.built.step (op := .elem d is) ⟨hnd, trivial⟩ hstep, ?_, ?_, g1.inj, ?_⟩
    · simp only [hvs]; exact g1.pre
    · intro v b i hvb hi
      have := g1.known v b i hvb hi
      exact ⟨this.1, this.2.mono (by rw [hvs]; exact List.prefix_refl _)⟩
    · intro i a hi hia
      simp only [hvs] at hia
      exact g1.new i a hi hia
  · constructor
    · intro ws hws v hv'
      rcases List.mem_append.1 hws with hws | hws
      · obtain ⟨i, hi⟩ := he.img ws hws v hv'
        exact ⟨i, m1 v i hi⟩
      · simp only [List.mem_singleton] at hws; subst hws
        exact imgOf_known k1 hv'
    · exact fun k => (he.pre k).trans (hev k)
    · intro ws hws
      rcases List.mem_append.1 hws with hws | hws
      · obtain ⟨e, he1, he2⟩ := he.present ws hws
        refine ⟨e, (hev d).subset he1, ?_⟩
        rw [hdoneimg ws hws] at he2
        exact he2
      · simp only [List.mem_singleton] at hws; subst hws
        obtain ⟨f, hf1, hf2, _⟩ := hs.found
        refine ⟨f, List.mem_of_getElem? hf1, ?_⟩
        show f.verts.Perm (ws.map (imgD src c1))
        rw [his]; exact hf2
    · intro i e hi hie
      have hold : ∀ i, (dst0.elems d).length ≤ i → (c.dst.elems d)[i]? = some e →
          ∃ ws ∈ done ++ [vs], e.verts = ws.map (imgD src c1) := by
        intro i hi hie
        obtain ⟨ws, hws, h2⟩ := he.new i e hi hie
        exact ⟨ws, List.mem_append_left _ hws, by rw [h2, hdoneimg ws hws]⟩
      rcases hs.same with hsame | ⟨_, f, hf, hsame⟩
      · simp only [hsame, l1] at hie
        exact hold i hi hie
      · simp only [hsame, l1] at hie
        by_cases hlt' : i < (c.dst.elems d).length
        · rw [List.getElem?_append_left hlt'] at hie
          exact hold i hi hie
        · rw [List.getElem?_append_right (by omega)] at hie
          have hm := List.mem_of_getElem? hie
          simp only [List.mem_singleton] at hm
          refine ⟨vs, by simp, ?_⟩
          show e.verts = vs.map (imgD src c1)
          rw [his, hm, hf]
    · intro k hk
      have := hs.higher k hk
      simp only [this, l1]
      exact he.higher k hk
    · intro k i e hi hie
      by_cases hlt' : i < (c.dst.elems k).length
      · have : (c.dst.elems k)[i]? = some e := by
          rw [List.getElem?_eq_getElem hlt']
          have := prefix_getElem? (hev k) (List.getElem?_eq_getElem hlt')
          rw [← this]; exact hie
        obtain ⟨ws, hws, h2⟩ := he.sub k i e hi this
        refine ⟨ws, List.mem_append_left _ hws, ?_⟩
        rw [hdoneimg ws hws] at h2
        exact h2
      · have := hs.sub k i e hie (by rw [l1]; omega)
        refine ⟨vs, by simp, ?_⟩
        show e.verts ⊆ vs.map (imgD src c1)
        rw [his]; exact this
    · intro hdc
      obtain ⟨_, e, hee, happ⟩ := hs.appended (hs.isnew.2 (Or.inl hdc))
      have hdm : done.map (fun ws => ws.map (imgD src c)) = done.map (fun ws => ws.map (imgD src c1)) :=
        List.map_congr_left hdoneimg
      simp only [happ, l1, List.map_append, he.cells hdc, hdm]
      simp only [List.map_cons, List.map_nil, hee, ← his, List.append_assoc]
      rfl
  · simp only [hs.ext.verts]
    exact p1

theorem glueElements_spec {T : Topo} (hT : T.WF) {d : Nat} (hd1 : 1 ≤ d) (hd : d ≤ T.cellDim) {dist : P → P → K}
    (hself : ∀ p, dist p p = 0) {tol : K} {src dst0 : Mesh P} (hu : UniqueVids src) :
    ∀ {L : List (List Nat)} {used : List Nat} {done} {c : CopySt P}, GInv T dist tol src dst0 used c →
    GElems T d src dst0 done c →
    (∀ vs ∈ L, (vs.Nodup ∧ T.Arity d vs.length ∧ ∀ v ∈ vs, v < src.verts.length) ∧ KeepsApart dist tol src vs) →
    ∃ c', glueElements T d dist tol src c L = some c' ∧ GInv T dist tol src dst0 (used ++ L.flatten) c' ∧
      GElems T d src dst0 (done ++ L) c' ∧ MapGrows src c c' ∧ c.dst.verts <+: c'.dst.verts
  | [], used, done, c, h, he, _ => ⟨c, rfl, by simpa using h, by simpa using he, fun _ _ h => h, List.prefix_refl _⟩
  | vs :: L, used, done, c, h, he, hL => by
    obtain ⟨c1, e1, g1, f1, m1, p1⟩ := glueElement_spec hT hd1 hd hself hu h he (hL vs (by simp)).1 (hL vs (by simp)).2
    obtain ⟨c2, e2, g2, f2, m2, p2⟩ := glueElements_spec hT hd1 hd hself hu (L := L) g1 f1
      (fun ws hws => hL ws (by simp [hws]))
    refine ⟨c2, ?_, by simpa using g2, by simpa using f2, fun v i hi => m2 v i (m1 v i hi), p1.trans p2⟩
    simp only [glueElements, e1, Option.bind_some, e2]


/-! Without the map -/

/-- The vertices of an element without the map of ids. -/
def plainVerts (dist : P → P → K) (tol : K) (src : Mesh P) : Mesh P → List Nat → Option (Mesh P × List Nat)
  | m, [] => some (m, [])
  | m, v :: vs =>
    (src.ptOf v).bind (fun p =>
      (plainVerts dist tol src (m.makeUniqueVertex dist p tol).1 vs).map (fun r =>
        (r.1, (m.makeUniqueVertex dist p tol).2 :: r.2)))

def plainElements (T : Topo) (d : Nat) (dist : P → P → K) (tol : K) (src : Mesh P) :
    Mesh P → List (List Nat) → Option (Mesh P)
  | m, [] => some m
  | m, vs :: rest =>
    (plainVerts dist tol src m vs).bind (fun q =>
      (q.1.step T (.elem d q.2)).bind (fun m' => plainElements T d dist tol src m' rest))

/-- What the map says is what a search would find. -/
def MapOk (dist : P → P → K) (tol : K) (src : Mesh P) (c : CopySt P) : Prop :=
  ∀ v b i, src.verts[v]? = some b → imgOf src c v = some i →
    c.dst.verts.findIdx? (fun a => decide (dist b.pt a.pt < tol)) = some i

theorem glueVertex_plain {dist : P → P → K} (hself : ∀ p, dist p p = 0) {tol : K} (ht : 0 < tol) {src : Mesh P}
    (hu : UniqueVids src) {c : CopySt P} (h : MapOk dist tol src c) {v : Nat} {p : P} (hp : src.ptOf v = some p) :
    ∃ c', glueVertex dist tol src c v = some (c', (c.dst.makeUniqueVertex dist p tol).2) ∧
      c'.dst = (c.dst.makeUniqueVertex dist p tol).1 ∧ MapOk dist tol src c' := by
  obtain ⟨b, hb, hbp⟩ : ∃ b, src.verts[v]? = some b ∧ b.pt = p := by
    unfold Mesh.ptOf at hp
    cases hb : src.verts[v]? with
    | none => rw [hb] at hp; cases hp
    | some b => rw [hb] at hp; exact ⟨b, rfl, by simpa using hp⟩
  subst hbp
  have hv := (List.getElem?_eq_some_iff.1 hb).1
  cases hf : c.map.find? (fun e => e.1 == src.vid v) with
  | some e =>
    have := h v b e.2 hb (by simp [imgOf, hf])
    refine ⟨c, ?_, ?_, h⟩
    · simp only [glueVertex, hf, Mesh.makeUniqueVertex, if_pos ht, this]
    · simp only [Mesh.makeUniqueVertex, if_pos ht, this]
  | none =>
    obtain ⟨hpl, hcase⟩ := makeUniqueVertex_placed dist hself tol c.dst b.pt (Nat.zero_le _)
    refine ⟨_, by simp only [glueVertex, hf, hp, Option.map_some]; rfl, rfl, ?_⟩
    intro w b' i hw hi
    have hw' := (List.getElem?_eq_some_iff.1 hw).1
    have hpre : c.dst.verts <+: (c.dst.makeUniqueVertex dist b.pt tol).1.verts := by
      rcases hcase with hc | ⟨_, hc, _⟩
      · rw [hc]; exact ⟨_, rfl⟩
      · rw [hc]; exact List.prefix_refl _
    by_cases e : src.vid v = src.vid w
    · have := vid_inj hu hv hw' e
      subst this
      rw [hb] at hw
      cases hw
      simp only [imgOf, List.find?_cons_of_pos, beq_self_eq_true, Option.map_some, Option.some.injEq] at hi
      subst hi
      exact hpl.1 ht
    · unfold imgOf at hi
      rw [List.find?_cons_of_neg (by simpa using e)] at hi
      exact findIdx?_prefix hpre (h w b' i hw hi)

theorem glueVerts_plain {dist : P → P → K} (hself : ∀ p, dist p p = 0) {tol : K} (ht : 0 < tol) {src : Mesh P}
    (hu : UniqueVids src) : ∀ {vs : List Nat} {c : CopySt P}, MapOk dist tol src c →
    (∀ v ∈ vs, v < src.verts.length) →
    ∃ q c', plainVerts dist tol src c.dst vs = some q ∧ glueVerts dist tol src c vs = some (c', q.2) ∧
      c'.dst = q.1 ∧ MapOk dist tol src c'
  | [], c, h, _ => ⟨(c.dst, []), c, rfl, rfl, rfl, h⟩
  | v :: vs, c, h, hv => by
    have hp : src.ptOf v = some (src.verts[v]'(hv v (by simp))).pt := by
      simp [Mesh.ptOf, List.getElem?_eq_getElem (hv v (by simp))]
    obtain ⟨c1, e1, d1, m1⟩ := glueVertex_plain hself ht hu h hp
    obtain ⟨q, c2, e2, e3, d2, m2⟩ := glueVerts_plain hself ht hu (vs := vs) m1 (fun w hw => hv w (by simp [hw]))
    rw [d1] at e2
    exact ⟨(q.1, (c.dst.makeUniqueVertex dist (src.verts[v]'(hv v (by simp))).pt tol).2 :: q.2), c2, by simp only [plainVerts, hp, Option.bind_some, e2, Option.map_some],
      by simp only [glueVerts, e1, Option.bind_some, e3, Option.map_some], d2, m2⟩

omit [Zero K] in
theorem MapOk.mono {dist : P → P → K} {tol : K} {src : Mesh P} {c : CopySt P} (h : MapOk dist tol src c)
    {m : Mesh P} (hp : c.dst.verts <+: m.verts) : MapOk dist tol src ⟨m, c.map⟩ :=
  fun v b i hv hi => findIdx?_prefix hp (h v b i hv hi)

theorem glueElements_plain {T : Topo} {d : Nat} {dist : P → P → K} (hself : ∀ p, dist p p = 0) {tol : K}
    (ht : 0 < tol) {src : Mesh P} (hu : UniqueVids src) : ∀ {L : List (List Nat)} {c : CopySt P},
    MapOk dist tol src c → (∀ vs ∈ L, ∀ v ∈ vs, v < src.verts.length) →
    (glueElements T d dist tol src c L).map (·.dst) = plainElements T d dist tol src c.dst L
  | [], c, _, _ => rfl
  | vs :: L, c, h, hv => by
    obtain ⟨q, c1, e1, e2, d1, m1⟩ := glueVerts_plain hself ht hu (vs := vs) h (hv vs (by simp))
    simp only [glueElements, glueElement, plainElements, e1, e2, Option.bind_some, d1]
    cases hs : q.1.step T (.elem d q.2) with
    | none => rfl
    | some m =>
      simp only [Option.map_some, Option.bind_some]
      rw [← d1] at hs
      exact glueElements_plain hself ht hu (L := L) (c := ⟨m, c1.map⟩) (m1.mono (step_verts hs))
        (fun ws hws => hv ws (by simp [hws]))

theorem plainElements_append {T : Topo} {d : Nat} {dist : P → P → K} {tol : K} {src : Mesh P} :
    ∀ (L L' : List (List Nat)) (m : Mesh P), plainElements T d dist tol src m (L ++ L') =
      (plainElements T d dist tol src m L).bind (fun m' => plainElements T d dist tol src m' L')
  | [], L', m => rfl
  | vs :: L, L', m => by
    simp only [List.cons_append, plainElements, Option.bind_assoc]
    congr 1
    funext q
    congr 1
    funext m'
    exact plainElements_append L L' m'

/-! Piecewise linear complexes -/

variable {C : Type}

/-- The image of a line under the map. -/
def limgOf (c : PlcCopy C) (e : Elem) : Option Nat := (c.lmap.find? (fun x => x.1 == e.id)).map (·.2)

structure PInv (dist : List C → List C → K) (tol : K) (src dst0 : Mesh (List C)) (vused lused : List Nat)
    (c : PlcCopy C) : Prop where
  vert : GInv (simplexTopo 2) dist tol src dst0 vused ⟨c.dst, c.vmap⟩
  pre : ∀ k, dst0.elems k <+: c.dst.elems k
  vfrom : ∀ v ∈ vused, ∃ l ∈ lused, ∃ e, (src.elems 1)[l]? = some e ∧ v ∈ e.verts
  line : ∀ l e i, (src.elems 1)[l]? = some e → limgOf c e = some i → l ∈ lused ∧
    (∀ v ∈ e.verts, ∃ j, imgOf src ⟨c.dst, c.vmap⟩ v = some j) ∧
    ∃ f, (c.dst.elems 1)[i]? = some f ∧ f.verts.Perm (e.verts.map (imgD src ⟨c.dst, c.vmap⟩))
  new : ∀ i f, (dst0.elems 1).length ≤ i → (c.dst.elems 1)[i]? = some f →
    ∃ l ∈ lused, ∃ e, (src.elems 1)[l]? = some e ∧ limgOf c e = some i

theorem PInv.init {dist : List C → List C → K} {tol : K} {src dst : Mesh (List C)}
    (h : BuiltGen (simplexTopo 2) dst) : PInv dist tol src dst [] [] ⟨dst, [], []⟩ := by
  refine ⟨GInv.init h, fun _ => List.prefix_refl _, by simp, by simp [limgOf], fun i f hi hf => ?_⟩
  have := (List.getElem?_eq_some_iff.1 hf).1
  simp only at this
  omega

theorem id_inj {src : Mesh (List C)} (hI : Inv (simplexTopo 2) src) {l l' : Nat} {e e' : Elem}
    (h : (src.elems 1)[l]? = some e) (h' : (src.elems 1)[l']? = some e') (hid : e.id = e'.id) : l = l' := by
  obtain ⟨h1, h2⟩ := List.getElem?_eq_some_iff.1 h
  obtain ⟨h3, h4⟩ := List.getElem?_eq_some_iff.1 h'
  refine (List.Nodup.getElem_inj_iff (hI.ids 1) (hi := by simpa using h1) (hj := by simpa using h3)).1 ?_
  simp [h2, h4, hid]

/-- Both maps only grow, and so does the mesh. -/
structure PGrows (src : Mesh (List C)) (c c' : PlcCopy C) : Prop where
  vert : MapGrows src ⟨c.dst, c.vmap⟩ ⟨c'.dst, c'.vmap⟩
  line : ∀ e i, limgOf c e = some i → limgOf c' e = some i
  verts : c.dst.verts <+: c'.dst.verts
  elems : ∀ k, c.dst.elems k <+: c'.dst.elems k

theorem PGrows.trans {src : Mesh (List C)} {a b c : PlcCopy C} (h : PGrows src a b) (h' : PGrows src b c) :
    PGrows src a c :=
  ⟨fun v i hi => h'.vert v i (h.vert v i hi), fun e i hi => h'.line e i (h.line e i hi),
    h.verts.trans h'.verts, fun k => (h.elems k).trans (h'.elems k)⟩

theorem plcLine_spec {dist : List C → List C → K} (hself : ∀ p, dist p p = 0) {tol : K} {src dst0 : Mesh (List C)}
    (hu : UniqueVids src) (hI : Inv (simplexTopo 2) src) {vused lused : List Nat} {c : PlcCopy C}
    (h : PInv dist tol src dst0 vused lused c) {l : Nat} {e : Elem} (hl : (src.elems 1)[l]? = some e)
    (ha : KeepsApart dist tol src e.verts) :
    ∃ c' vused' i, plcLine dist tol src c l = some (c', i) ∧ PInv dist tol src dst0 vused' (lused ++ [l]) c' ∧
      limgOf c' e = some i ∧ PGrows src c c' := by
  have hT : (simplexTopo 2).WF := simplexTopo_wf 2
  cases hf : c.lmap.find? (fun x => x.1 == e.id) with
  | some x =>
    refine ⟨c, vused, x.2, by simp [plcLine, hl, hf], ⟨h.vert, h.pre, ?_, ?_, ?_⟩, by simp [limgOf, hf],
      ⟨fun _ _ h => h, fun _ _ h => h, List.prefix_refl _, fun _ => List.prefix_refl _⟩⟩
    · intro v hv
      obtain ⟨l', hl', h1⟩ := h.vfrom v hv
      exact ⟨l', List.mem_append_left _ hl', h1⟩
    · intro l' e' i h1 h2
      obtain ⟨h3, h4⟩ := h.line l' e' i h1 h2
      exact ⟨List.mem_append_left _ h3, h4⟩
    · intro i f h1 h2
      obtain ⟨l', h3, h4⟩ := h.new i f h1 h2
      exact ⟨l', List.mem_append_left _ h3, h4⟩
  | none =>
    have hv := hI.verts 1 e (List.mem_of_getElem? hl)
    obtain ⟨c1, is, e1, g1, k1, m1, l1, p1⟩ := glueVerts_spec hself hu h.vert hv.2.2
    have his : e.verts.map (imgD src c1) = is := map_imgD k1
    have hlen : is.length = e.verts.length := by rw [← his, List.length_map]
    have hpl : ∀ v ∈ e.verts, ∃ b, src.verts[v]? = some b ∧ imgOf src c1 v = some (imgD src c1 v) ∧
        Placed dist tol dst0.verts.length c1.dst b.pt (imgD src c1 v) := by
      intro v hv'
      obtain ⟨i, hi⟩ := imgOf_known k1 hv'
      have hb := List.getElem?_eq_getElem (hv.2.2 v hv')
      refine ⟨_, hb, by rw [imgD_of hi, hi], ?_⟩
      rw [imgD_of hi]
      exact (g1.known v _ i hb hi).2
    have hnd : is.Nodup := by
      rw [← his]
      refine (List.nodup_map_iff_inj_on hv.1).2 (fun a ha' b hb' hab => ?_)
      obtain ⟨x, hx, hix, hpx⟩ := hpl a ha'
      obtain ⟨y, hy, hiy, hpy⟩ := hpl b hb'
      rcases lt_or_ge 0 tol with ht | ht
      · rw [hab] at hpx
        exact ha ht c1.dst a b x y _ _ ha' hb' hx hy hpx hpy
      · rw [hab] at hix
        exact g1.inj ht a b _ (hv.2.2 a ha') (hv.2.2 b hb') hix hiy
    have hlt : ∀ i ∈ is, i < c1.dst.verts.length := by
      intro i hi
      rw [← his] at hi
      obtain ⟨v, hv', rfl⟩ := List.mem_map.1 hi
      exact (hpl v hv').choose_spec.2.2.lt
    have harity : (simplexTopo 2).Arity 1 is.length := by rw [hlen]; exact hv.2.1
    have hstep : c1.dst.step (simplexTopo 2) (.elem 1 is) = some (c1.dst.makeElem (simplexTopo 2) 1 is).mesh := by
      simp only [Mesh.step]
      rw [if_pos ⟨le_refl _, by decide, harity, hlt⟩]
    have hs := makeElem_spec hT (g1.built.built.inv hT) g1.built.uniq (le_refl _) ⟨hnd, harity, hlt⟩
    set r := c1.dst.makeElem (simplexTopo 2) 1 is with hr
    have hlook : ∀ e', limgOf (⟨r.mesh, c1.map, (e.id, r.slot) :: c.lmap⟩ : PlcCopy C) e' =
        if e.id = e'.id then some r.slot else limgOf c e' := by
      intro e'
      unfold limgOf
      by_cases he : e.id = e'.id
      · simp [he]
      · rw [if_neg he, List.find?_cons_of_neg (by simpa using he)]
    have hev : ∀ k, c.dst.elems k <+: r.mesh.elems k := by
      intro k
      have := hs.ext.elems k
      rwa [l1] at this
    have hgrow : ∀ e' i, limgOf c e' = some i →
        limgOf (⟨r.mesh, c1.map, (e.id, r.slot) :: c.lmap⟩ : PlcCopy C) e' = some i := by
      intro e' i hi
      rw [hlook, if_neg]
      · exact hi
      · intro he
        unfold limgOf at hi
        rw [← he, hf] at hi
        cases hi
    have hpv : c1.dst.verts <+: r.mesh.verts := by rw [hs.ext.verts]; exact List.prefix_refl _
    refine ⟨⟨r.mesh, c1.map, (e.id, r.slot) :: c.lmap⟩, vused ++ e.verts, r.slot, ?_, ⟨?_, ?_, ?_, ?_, ?_⟩, ?_,
      ⟨m1, hgrow, p1.trans hpv, hev⟩⟩
    · simp only [plcLine, hl, hf, e1, Option.bind_some, hstep, Option.map_some, ← hr]
    · refine ⟨g1.built.step (op := .elem 1 is) ⟨hnd, trivial⟩ hstep, g1.pre.trans hpv, ?_, g1.inj, ?_⟩
      · intro v b i hvb hi
        have := g1.known v b i hvb hi
        exact ⟨this.1, this.2.mono hpv⟩
      · intro i a hi hia
        simp only [hs.ext.verts] at hia
        exact g1.new i a hi hia
    · exact fun k => (h.pre k).trans (hev k)
    · intro v hv'
      rcases List.mem_append.1 hv' with h' | h'
      · obtain ⟨l', hl', h1⟩ := h.vfrom v h'
        exact ⟨l', List.mem_append_left _ hl', h1⟩
      · exact ⟨l, by simp, e, hl, h'⟩
    · intro l' e' i h1 h2
      rw [hlook] at h2
      by_cases he : e.id = e'.id
      · rw [if_pos he] at h2
        have hll := id_inj hI hl h1 he
        subst hll
        rw [hl] at h1
        cases h1
        cases h2
        refine ⟨by simp, fun v hv' => imgOf_known k1 hv', ?_⟩
        obtain ⟨f, hf1, hf2, _⟩ := hs.found
        refine ⟨f, hf1, ?_⟩
        show f.verts.Perm (e.verts.map (imgD src c1))
        rw [his]; exact hf2
      · rw [if_neg he] at h2
        obtain ⟨h3, h4, f, h5, h6⟩ := h.line l' e' i h1 h2
        refine ⟨List.mem_append_left _ h3, fun v hv' => ?_, f, prefix_getElem? (hev 1) h5, ?_⟩
        · obtain ⟨j, hj⟩ := h4 v hv'
          exact ⟨j, m1 v j hj⟩
        · have : e'.verts.map (imgD src ⟨c.dst, c.vmap⟩) = e'.verts.map (imgD src c1) := by
            refine List.map_congr_left (fun v hv' => ?_)
            obtain ⟨j, hj⟩ := h4 v hv'
            rw [imgD_of hj, imgD_of (m1 v j hj)]
          rw [this] at h6
          exact h6
    · intro i f h1 h2
      have hold : (c.dst.elems 1)[i]? = some f → ∃ l' ∈ lused ++ [l], ∃ e', (src.elems 1)[l']? = some e' ∧
          limgOf (⟨r.mesh, c1.map, (e.id, r.slot) :: c.lmap⟩ : PlcCopy C) e' = some i := by
        intro h3
        obtain ⟨l', h4, e', h5, h6⟩ := h.new i f h1 h3
        exact ⟨l', List.mem_append_left _ h4, e', h5, hgrow e' i h6⟩
      rcases hs.same with hsame | ⟨hslot, x, _, hsame⟩
      · simp only [hsame, l1] at h2
        exact hold h2
      · simp only [hsame, l1] at h2
        by_cases hlt' : i < (c.dst.elems 1).length
        · rw [List.getElem?_append_left hlt'] at h2
          exact hold h2
        · have h3 := (List.getElem?_eq_some_iff.1 h2).1
          simp only [List.length_append, List.length_singleton] at h3
          rw [l1] at hslot
          refine ⟨l, by simp, e, hl, ?_⟩
          rw [hlook, if_pos rfl, hslot]
          have h4 : i = (c.dst.elems 1).length := by omega
          rw [h4]
    · rw [hlook, if_pos rfl]

/-- The line map as a function on handles. -/
def limgD (src : Mesh (List C)) (c : PlcCopy C) (l : Nat) : Nat :=
  (((src.elems 1)[l]?).bind (limgOf c)).getD 0

theorem limgD_of {src : Mesh (List C)} {c : PlcCopy C} {l i : Nat} {e : Elem} (hl : (src.elems 1)[l]? = some e)
    (h : limgOf c e = some i) : limgD src c l = i := by
  simp [limgD, hl, h]

theorem plcLines_spec {dist : List C → List C → K} (hself : ∀ p, dist p p = 0) {tol : K} {src dst0 : Mesh (List C)}
    (hu : UniqueVids src) (hI : Inv (simplexTopo 2) src) : ∀ {ls vused lused : List Nat} {c : PlcCopy C},
    PInv dist tol src dst0 vused lused c →
    (∀ l ∈ ls, ∃ e, (src.elems 1)[l]? = some e ∧ KeepsApart dist tol src e.verts) →
    ∃ c' vused' is, plcLines dist tol src c ls = some (c', is) ∧ PInv dist tol src dst0 vused' (lused ++ ls) c' ∧
      (∀ l ∈ ls, ∃ e i, (src.elems 1)[l]? = some e ∧ limgOf c' e = some i) ∧ is = ls.map (limgD src c') ∧
      PGrows src c c'
  | [], vused, lused, c, h, _ => ⟨c, vused, [], rfl, by simpa using h, by simp, rfl,
      ⟨fun _ _ h => h, fun _ _ h => h, List.prefix_refl _, fun _ => List.prefix_refl _⟩⟩
  | l :: ls, vused, lused, c, h, hl => by
    obtain ⟨e, he, hk⟩ := hl l (by simp)
    obtain ⟨c1, u1, i, e1, g1, k1, w1⟩ := plcLine_spec hself hu hI h he hk
    obtain ⟨c2, u2, is, e2, g2, k2, w2, p2⟩ := plcLines_spec hself hu hI (ls := ls) g1 (fun x hx => hl x (by simp [hx]))
    refine ⟨c2, u2, i :: is, ?_, by simpa using g2, ?_, ?_, w1.trans p2⟩
    · simp only [plcLines, e1, Option.bind_some, e2, Option.map_some]
    · intro x hx
      rcases List.mem_cons.1 hx with rfl | hx
      · exact ⟨e, i, he, p2.line e i k1⟩
      · exact k2 x hx
    · rw [List.map_cons, limgD_of he (p2.line e i k1), ← w2]

theorem makePlc_congr {m m' : Mesh (List C)} {ls : List Nat} (h : ∀ l ∈ ls, m.vertsOf 1 l = m'.vertsOf 1 l) :
    makePlc m ls [] [] = makePlc m' ls [] [] := by
  unfold makePlc
  have : (insUnique [] ls).flatMap (m.vertsOf 1) = (insUnique [] ls).flatMap (m'.vertsOf 1) := by
    refine List.flatMap_congr (fun l hl => h l ?_)
    simpa using (mem_insUnique ls [] l).1 hl
  rw [this]

theorem vertsOf_elem {m : Mesh P} {d l : Nat} {e : Elem} (h : (m.elems d)[l]? = some e) : m.vertsOf d l = e.verts := by
  unfold Mesh.vertsOf
  rw [List.getD_eq_getElem?_getD, List.getElem?_map, h]
  rfl

theorem plcAll_spec {dist : List C → List C → K} (hself : ∀ p, dist p p = 0) {tol : K} {src dst0 : Mesh (List C)}
    (hu : UniqueVids src) (hI : Inv (simplexTopo 2) src) : ∀ {ps : List (Plc C)} {vused lused : List Nat}
    {c : PlcCopy C}, PInv dist tol src dst0 vused lused c →
    (∀ p ∈ ps, ∀ l ∈ p.lines, ∃ e, (src.elems 1)[l]? = some e ∧ KeepsApart dist tol src e.verts) →
    ∃ c' vused' qs, plcAll dist tol src c ps = some (c', qs) ∧
      PInv dist tol src dst0 vused' (lused ++ ps.flatMap (·.lines)) c' ∧
      (∀ p ∈ ps, ∀ l ∈ p.lines, ∃ e i, (src.elems 1)[l]? = some e ∧ limgOf c' e = some i) ∧
      qs = ps.map (fun p => makePlc c'.dst (p.lines.map (limgD src c')) [] []) ∧ PGrows src c c'
  | [], vused, lused, c, h, _ => ⟨c, vused, [], rfl, by simpa using h, by simp, rfl,
      ⟨fun _ _ h => h, fun _ _ h => h, List.prefix_refl _, fun _ => List.prefix_refl _⟩⟩
  | p :: ps, vused, lused, c, h, hp => by
    obtain ⟨c1, u1, is, e1, g1, k1, i1, w1⟩ := plcLines_spec hself hu hI (ls := p.lines) h (hp p (by simp))
    obtain ⟨c2, u2, qs, e2, g2, k2, i2, w2⟩ := plcAll_spec hself hu hI (ps := ps) g1 (fun x hx => hp x (by simp [hx]))
    refine ⟨c2, u2, makePlc c1.dst is [] [] :: qs, ?_, by simpa using g2, ?_, ?_, w1.trans w2⟩
    · simp only [plcAll, e1, Option.bind_some, e2, Option.map_some]
    · intro x hx
      rcases List.mem_cons.1 hx with rfl | hx
      · intro l hl
        obtain ⟨e, i, h1, h2⟩ := k1 l hl
        exact ⟨e, i, h1, w2.line e i h2⟩
      · exact k2 x hx
    · rw [List.map_cons, ← i2]
      congr 1
      have hm : p.lines.map (limgD src c1) = p.lines.map (limgD src c2) := by
        refine List.map_congr_left (fun l hl => ?_)
        obtain ⟨e, i, h1, h2⟩ := k1 l hl
        rw [limgD_of h1 h2, limgD_of h1 (w2.line e i h2)]
      rw [i1, hm]
      refine makePlc_congr (fun l hl => ?_)
      rw [← hm] at hl
      obtain ⟨l', hl', rfl⟩ := List.mem_map.1 hl
      obtain ⟨e, i, h1, h2⟩ := k1 l' hl'
      obtain ⟨f, hf, _⟩ := (g1.line l' e i h1 h2).2.2
      rw [limgD_of h1 h2, vertsOf_elem hf, vertsOf_elem (prefix_getElem? (w2.elems 1) hf)]

end

end VG
