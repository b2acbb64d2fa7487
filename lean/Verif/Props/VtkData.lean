import Verif.Lemmas.VtkData

/-! Property C104: quantities registered at `vtk_writer` and found again at `vtk_reader`. -/

namespace VG

variable {C : Type}

/-- The quantity `q` is what was registered last on cells or vertices, for all segments (`none`) or for one, under this
name; scalar and vector quantities do not replace each other. -/
def LastReg (rs : List (VtkReg C)) (cells : Bool) (seg : Option Nat) (name : String) (q : Quantity C) : Prop :=
  ∃ pre post, rs = pre ++ ⟨cells, seg, name, q⟩ :: post ∧
    ∀ r ∈ post, ¬ (r.cells = cells ∧ r.seg = seg ∧ r.name = name ∧ r.q.comps = q.comps)

/-- The quantity segment `g` has under this name: the one registered for the segment, or else the one registered for all
segments. -/
def Chosen (rs : List (VtkReg C)) (cells : Bool) (g : Nat) (name : String) (q : Quantity C) : Prop :=
  LastReg rs cells (some g) name q ∨
  LastReg rs cells none name q ∧ ∀ q', q'.comps = q.comps → ¬ LastReg rs cells (some g) name q'

/-- Where the values of segment `g` are expected: at the accessor registered for all segments under the name; if there is
none, at the accessor registered for the segment; if there is none, at the field the reader offers for the segment. -/
def Goes (R : Option Nat → String → Bool) (g : Nat) (name : String) : Dest → Prop
  | .all n => n = name ∧ R none name = true
  | .segment h n => n = name ∧ h = g ∧ R none name = false ∧ R (some g) name = true
  | .own h n => n = name ∧ h = g ∧ R none name = false ∧ R (some g) name = false

/-- Every element of a segment has got the value of its segment, the values of segments with greater ids replacing
others; nothing else has changed.  `V` lists the elements that were written by their new handles, `In g v`: the element
`v` is in segment `g`, `Q g name f`: the quantity of segment `g`. -/
structure Delivered {α : Type} (V : List Nat) (In : Nat → Nat → Prop) (Q : Nat → String → (Nat → α) → Prop)
    (R : Option Nat → String → Bool) (old new : Dest → FieldOf α) : Prop where
  got : ∀ g name f d (i : Nat) v, V[i]? = some v → In g v → Q g name f → Goes R g name d →
    (∀ g' f', g < g' → In g' v → Q g' name f' → ¬ Goes R g' name d) → new d i = some (f v)
  kept : ∀ d (i : Nat), (∀ g name f v, V[i]? = some v → In g v → Q g name f → ¬ Goes R g name d) → new d i = old d i

/-- A vector with its numbers as they are read. -/
def txt3 (txt : C → C) (x : C × C × C) : C × C × C := (txt x.1, txt x.2.1, txt x.2.2)

/-- Scalar and vector quantities are delivered; `Q` are the quantities of the segments. -/
def AllDelivered (txt : C → C) (V : List Nat) (In : Nat → Nat → Prop) (Q : Nat → String → Quantity C → Prop)
    (R : Bool → Option Nat → String → Bool) (old new : Values C) : Prop :=
  Delivered V In (fun g name f => ∃ f', Q g name (.scalar f') ∧ f = fun v => txt (f' v)) (R false) old.scalars new.scalars ∧
  Delivered V In (fun g name f => ∃ f', Q g name (.vector f') ∧ f = fun v => txt3 txt (f' v)) (R true) old.vectors new.vectors

/-! ### Proofs -/

theorem LastReg.snoc {rs : List (VtkReg C)} {r : VtkReg C} {cells : Bool} {seg : Option Nat} {name : String} {q : Quantity C} :
    LastReg (rs ++ [r]) cells seg name q ↔ r = ⟨cells, seg, name, q⟩ ∨
      LastReg rs cells seg name q ∧ ¬ (r.cells = cells ∧ r.seg = seg ∧ r.name = name ∧ r.q.comps = q.comps) := by
  constructor
  · rintro ⟨pre, post, he, hp⟩
    rcases List.eq_nil_or_concat post with rfl | ⟨post', x, rfl⟩
    · rw [show pre ++ [(⟨cells, seg, name, q⟩ : VtkReg C)] = pre ++ [⟨cells, seg, name, q⟩] from rfl] at he
      exact Or.inl (by simpa using (List.append_inj' he rfl).2)
    · rw [List.concat_eq_append, ← List.cons_append, ← List.append_assoc] at he
      obtain ⟨h1, h2⟩ := List.append_inj' he rfl
      simp at h2
      subst h2
      exact Or.inr ⟨⟨pre, post', h1, fun y hy => hp y (by simp [hy])⟩, hp r (by simp)⟩
  · rintro (rfl | ⟨⟨pre, post, rfl, hp⟩, hr⟩)
    · exact ⟨rs, [], rfl, by simp⟩
    · refine ⟨pre, post ++ [r], by simp, fun x hx => ?_⟩
      rcases List.mem_append.1 hx with hx | hx
      · exact hp x hx
      · simp at hx; subst hx; exact hr

theorem adds_mem (rs : List (VtkReg C)) : ∀ (c : Bool) (g : Option Nat) (n : String),
    (∀ f, (n, f) ∈ (rs.foldl VtkWriter.add (.new : VtkWriter C)).scalars c g ↔ LastReg rs c g n (.scalar f)) ∧
    (∀ f, (n, f) ∈ (rs.foldl VtkWriter.add (.new : VtkWriter C)).vectors c g ↔ LastReg rs c g n (.vector f)) := by
  induction rs using List.reverseRecOn with
  | nil =>
    intro c g n
    constructor <;> intro f <;> simp [VtkWriter.new, LastReg]
  | append_singleton rs r ih =>
    intro c g n
    have hs := adds_sorted rs c g
    obtain ⟨cells, seg, name, q⟩ := r
    simp only [LastReg.snoc, List.foldl_append, List.foldl_cons, List.foldl_nil]
    generalize rs.foldl VtkWriter.add (.new : VtkWriter C) = w at ih hs ⊢
    cases q with
    | scalar q =>
      constructor
      · intro f
        rw [← (ih c g n).1 f]
        simp only [VtkWriter.add, VtkReg.mk.injEq, Quantity.scalar.injEq]
        split
        · rename_i h
          obtain ⟨rfl, rfl⟩ := h
          rw [(namePut_spec _ _ hs.1).2]
          simp only [Prod.mk.injEq, Quantity.comps, true_and, and_true]
          constructor
          · rintro (⟨rfl, rfl⟩ | ⟨h1, h2⟩)
            · exact Or.inl ⟨rfl, rfl⟩
            · exact Or.inr ⟨h1, fun e => h2 e.symm⟩
          · rintro (⟨rfl, rfl⟩ | ⟨h1, h2⟩)
            · exact Or.inl ⟨rfl, rfl⟩
            · exact Or.inr ⟨h1, fun e => h2 e.symm⟩
        · rename_i h
          constructor
          · exact fun hm => Or.inr ⟨hm, fun e => h ⟨e.1.symm, e.2.1.symm⟩⟩
          · rintro (⟨rfl, rfl, -, -⟩ | ⟨hm, -⟩)
            · exact absurd ⟨rfl, rfl⟩ h
            · exact hm
      · intro f
        rw [← (ih c g n).2 f]
        simp [VtkWriter.add, Quantity.comps]
    | vector q =>
      constructor
      · intro f
        rw [← (ih c g n).1 f]
        simp [VtkWriter.add, Quantity.comps]
      · intro f
        rw [← (ih c g n).2 f]
        simp only [VtkWriter.add, VtkReg.mk.injEq, Quantity.vector.injEq]
        split
        · rename_i h
          obtain ⟨rfl, rfl⟩ := h
          rw [(namePut_spec _ _ hs.2).2]
          simp only [Prod.mk.injEq, Quantity.comps, true_and, and_true]
          constructor
          · rintro (⟨rfl, rfl⟩ | ⟨h1, h2⟩)
            · exact Or.inl ⟨rfl, rfl⟩
            · exact Or.inr ⟨h1, fun e => h2 e.symm⟩
          · rintro (⟨rfl, rfl⟩ | ⟨h1, h2⟩)
            · exact Or.inl ⟨rfl, rfl⟩
            · exact Or.inr ⟨h1, fun e => h2 e.symm⟩
        · rename_i h
          constructor
          · exact fun hm => Or.inr ⟨hm, fun e => h ⟨e.1.symm, e.2.1.symm⟩⟩
          · rintro (⟨rfl, rfl, -, -⟩ | ⟨hm, -⟩)
            · exact absurd ⟨rfl, rfl⟩ h
            · exact hm

theorem scOf_append (txt : C → C) : ∀ (l l' : List (String × Quantity C)), scOf txt (l ++ l') = scOf txt l ++ scOf txt l'
  | [], _ => rfl
  | (n, .scalar f) :: l, l' => by simp [scOf, scOf_append txt l l']
  | (n, .vector f) :: l, l' => by simp [scOf, scOf_append txt l l']

theorem veOf_append (txt : C → C) : ∀ (l l' : List (String × Quantity C)), veOf txt (l ++ l') = veOf txt l ++ veOf txt l'
  | [], _ => rfl
  | (n, .scalar f) :: l, l' => by simp [veOf, veOf_append txt l l']
  | (n, .vector f) :: l, l' => by simp [veOf, veOf_append txt l l']

theorem scOf_scalar (txt : C → C) (l : List (String × (Nat → C))) :
    scOf txt (l.map fun x => (x.1, .scalar x.2)) = l.map fun x => (x.1, fun v => txt (x.2 v)) := by
  induction l with
  | nil => rfl
  | cons x l ih => rw [List.map_cons, List.map_cons, scOf, ih]

theorem scOf_vector (txt : C → C) (l : List (String × (Nat → C × C × C))) :
    scOf txt (l.map fun x => (x.1, .vector x.2)) = [] := by
  induction l with
  | nil => rfl
  | cons x l ih => rw [List.map_cons, scOf, ih]

theorem veOf_scalar (txt : C → C) (l : List (String × (Nat → C))) :
    veOf txt (l.map fun x => (x.1, .scalar x.2)) = [] := by
  induction l with
  | nil => rfl
  | cons x l ih => rw [List.map_cons, veOf, ih]

theorem veOf_vector (txt : C → C) (l : List (String × (Nat → C × C × C))) :
    veOf txt (l.map fun x => (x.1, .vector x.2)) = l.map fun x => (x.1, fun v => txt3 txt (x.2 v)) := by
  induction l with
  | nil => rfl
  | cons x l ih => rw [List.map_cons, List.map_cons, veOf, ih]; rfl

theorem goes_iff {R : Option Nat → String → Bool} {g : Nat} {name : String} {d : Dest} :
    Goes R g name d ↔ destOf R g name = d := by
  unfold destOf
  cases h1 : R none name <;> cases h2 : R (some g) name <;> cases d <;> simp [Goes, h1, h2] <;>
    constructor <;> intro h <;> simp_all

/-- From the files to the destinations. -/
theorem Delivered.intro {α : Type} {V gs : List Nat} (hs : gs.Pairwise (· < ·)) {U : Nat → List Nat}
    {l : Nat → List (String × (Nat → α))} {In : Nat → Nat → Prop} {Q : Nat → String → (Nat → α) → Prop}
    {R : Option Nat → String → Bool} {old new : Dest → FieldOf α}
    (ha : Applied V (filesE (fun g => listE R g (U g) (l g)) gs) old new)
    (hIn : ∀ g v, In g v ↔ g ∈ gs ∧ v ∈ U g)
    (hQ : ∀ g name f, Q g name f → LastIn (l g) name f)
    (hQ' : ∀ g, ∀ x ∈ l g, ∃ f, Q g x.1 f) : Delivered V In Q R old new := by
  constructor
  · intro g name f d i v hv hin hq hd hlast
    rw [goes_iff] at hd
    subst hd
    rw [hIn] at hin
    rw [(ha _ i).1 v hv, filesE_some hs hin.1 (listE_some hin.2 (hQ g name f hq))]
    · rfl
    · intro g' hg' hlt
      refine listE_none fun hvU x hx he => ?_
      obtain ⟨f', hf'⟩ := hQ' g' x hx
      have hn : x.1 = name := by
        have := congrArg Dest.name he
        rwa [destOf_name, destOf_name] at this
      rw [hn] at hf' he
      exact hlast g' f' hlt ((hIn _ _).2 ⟨hg', hvU⟩) hf' (goes_iff.2 he)
  · intro d i hno
    cases hv : V[i]? with
    | none => exact (ha d i).2 hv
    | some v =>
      rw [(ha d i).1 v hv, filesE_none]
      · rfl
      · intro g hg
        refine listE_none fun hvU x hx he => ?_
        obtain ⟨f, hf⟩ := hQ' g x hx
        exact hno g x.1 f v hv ((hIn _ _).2 ⟨hg, hvU⟩) hf (goes_iff.2 he)

/-- Two sorted lists of names one after the other. -/
theorem lastIn_append {α : Type} {l l' : List (String × α)} (h : l.Pairwise (fun x y => x.1 < y.1))
    (h' : l'.Pairwise (fun x y => x.1 < y.1)) {n : String} {q : α} :
    ((n, q) ∈ l' ∨ ((n, q) ∈ l ∧ ∀ x ∈ l', x.1 ≠ n)) → LastIn (l ++ l') n q := by
  have key : ∀ {l : List (String × α)}, l.Pairwise (fun x y => x.1 < y.1) → (n, q) ∈ l →
      ∃ pre post, l = pre ++ (n, q) :: post ∧ ∀ x ∈ post, x.1 ≠ n := by
    intro l hl hm
    obtain ⟨pre, post, rfl⟩ := List.append_of_mem hm
    refine ⟨pre, post, rfl, fun x hx he => ?_⟩
    have := (List.pairwise_cons.1 (List.pairwise_append.1 hl).2.1).1 x hx
    rw [he] at this
    exact absurd this (String.lt_irrefl n)
  rintro (hm | ⟨hm, hno⟩)
  · obtain ⟨pre, post, rfl, hp⟩ := key h' hm
    exact ⟨l ++ pre, post, by simp, hp⟩
  · obtain ⟨pre, post, rfl, hp⟩ := key h hm
    refine ⟨pre, post ++ l', by simp, fun x hx => ?_⟩
    rcases List.mem_append.1 hx with hx | hx
    · exact hp x hx
    · exact hno x hx

theorem pairwise_map_snd {α β : Type} (f : α → β) {l : List (String × α)} (h : l.Pairwise (fun x y => x.1 < y.1)) :
    (l.map fun x => (x.1, f x.2)).Pairwise (fun x y => x.1 < y.1) := by
  rw [List.pairwise_map]
  exact h

/-- What is written for a segment. -/
theorem forSegment_sc (txt : C → C) (w : VtkWriter C) (cells : Bool) (g : Nat) : scOf txt (w.forSegment cells g) =
    (w.scalars cells none).map (fun x => (x.1, fun v => txt (x.2 v))) ++
    (w.scalars cells (some g)).map (fun x => (x.1, fun v => txt (x.2 v))) := by
  simp only [VtkWriter.forSegment, VtkWriter.forAll, scOf_append, scOf_scalar, scOf_vector, List.append_nil]

theorem forSegment_ve (txt : C → C) (w : VtkWriter C) (cells : Bool) (g : Nat) : veOf txt (w.forSegment cells g) =
    (w.vectors cells none).map (fun x => (x.1, fun v => txt3 txt (x.2 v))) ++
    (w.vectors cells (some g)).map (fun x => (x.1, fun v => txt3 txt (x.2 v))) := by
  simp only [VtkWriter.forSegment, VtkWriter.forAll, veOf_append, veOf_scalar, veOf_vector, List.nil_append]

theorem forAll_sc (txt : C → C) (w : VtkWriter C) (cells : Bool) : scOf txt (w.forAll cells) =
    (w.scalars cells none).map (fun x => (x.1, fun v => txt (x.2 v))) := by
  simp only [VtkWriter.forAll, scOf_append, scOf_scalar, scOf_vector, List.append_nil]

theorem forAll_ve (txt : C → C) (w : VtkWriter C) (cells : Bool) : veOf txt (w.forAll cells) =
    (w.vectors cells none).map (fun x => (x.1, fun v => txt3 txt (x.2 v))) := by
  simp only [VtkWriter.forAll, veOf_append, veOf_scalar, veOf_vector, List.nil_append]

/-- The quantities of a segment, by name. -/
theorem chosen_lists (txt : C → C) (rs : List (VtkReg C)) (cells : Bool) (g : Nat) :
    ((∀ name f, (∃ f', Chosen rs cells g name (.scalar f') ∧ f = fun v => txt (f' v)) →
        LastIn (scOf txt ((rs.foldl VtkWriter.add .new).forSegment cells g)) name f) ∧
      ∀ x ∈ scOf txt ((rs.foldl VtkWriter.add .new).forSegment cells g), ∃ f f', Chosen rs cells g x.1 (.scalar f') ∧
        f = fun v => txt (f' v)) ∧
    (∀ name f, (∃ f', Chosen rs cells g name (.vector f') ∧ f = fun v => txt3 txt (f' v)) →
        LastIn (veOf txt ((rs.foldl VtkWriter.add .new).forSegment cells g)) name f) ∧
      ∀ x ∈ veOf txt ((rs.foldl VtkWriter.add .new).forSegment cells g), ∃ f f', Chosen rs cells g x.1 (.vector f') ∧
        f = fun v => txt3 txt (f' v) := by
  have hm := fun s n => adds_mem rs cells s n
  have hs := fun s => adds_sorted rs cells s
  rw [forSegment_sc, forSegment_ve]
  generalize rs.foldl VtkWriter.add (.new : VtkWriter C) = w at hm hs
  refine ⟨⟨?_, ?_⟩, ?_, ?_⟩
  · rintro name f ⟨f', hc, rfl⟩
    refine lastIn_append (pairwise_map_snd (fun (f : Nat → C) v => txt (f v)) (hs _).1)
      (pairwise_map_snd (fun (f : Nat → C) v => txt (f v)) (hs _).1) ?_
    rcases hc with hc | ⟨hc, hno⟩
    · exact Or.inl (List.mem_map.2 ⟨_, ((hm _ _).1 f').2 hc, rfl⟩)
    · refine Or.inr ⟨List.mem_map.2 ⟨_, ((hm _ _).1 f').2 hc, rfl⟩, fun x hx he => ?_⟩
      obtain ⟨⟨n, f0⟩, hx0, rfl⟩ := List.mem_map.1 hx
      simp only at he
      subst he
      exact hno (.scalar f0) rfl (((hm _ _).1 f0).1 hx0)
  · intro x hx
    by_cases hseg : ∃ f, LastReg rs cells (some g) x.1 (.scalar f)
    · obtain ⟨f, hf⟩ := hseg
      exact ⟨_, f, Or.inl hf, rfl⟩
    · rcases List.mem_append.1 hx with hx | hx
      · obtain ⟨⟨n, f0⟩, hx0, rfl⟩ := List.mem_map.1 hx
        refine ⟨_, f0, Or.inr ⟨((hm _ _).1 f0).1 hx0, fun q hq hr => ?_⟩, rfl⟩
        cases q with
        | scalar f => exact hseg ⟨f, hr⟩
        | vector f => simp [Quantity.comps] at hq
      · obtain ⟨⟨n, f0⟩, hx0, rfl⟩ := List.mem_map.1 hx
        exact absurd ⟨f0, ((hm _ _).1 f0).1 hx0⟩ hseg
  · rintro name f ⟨f', hc, rfl⟩
    refine lastIn_append (pairwise_map_snd (fun (f : Nat → C × C × C) v => txt3 txt (f v)) (hs _).2)
      (pairwise_map_snd (fun (f : Nat → C × C × C) v => txt3 txt (f v)) (hs _).2) ?_
    rcases hc with hc | ⟨hc, hno⟩
    · exact Or.inl (List.mem_map.2 ⟨_, ((hm _ _).2 f').2 hc, rfl⟩)
    · refine Or.inr ⟨List.mem_map.2 ⟨_, ((hm _ _).2 f').2 hc, rfl⟩, fun x hx he => ?_⟩
      obtain ⟨⟨n, f0⟩, hx0, rfl⟩ := List.mem_map.1 hx
      simp only at he
      subst he
      exact hno (.vector f0) rfl (((hm _ _).2 f0).1 hx0)
  · intro x hx
    by_cases hseg : ∃ f, LastReg rs cells (some g) x.1 (.vector f)
    · obtain ⟨f, hf⟩ := hseg
      exact ⟨_, f, Or.inl hf, rfl⟩
    · rcases List.mem_append.1 hx with hx | hx
      · obtain ⟨⟨n, f0⟩, hx0, rfl⟩ := List.mem_map.1 hx
        refine ⟨_, f0, Or.inr ⟨((hm _ _).2 f0).1 hx0, fun q hq hr => ?_⟩, rfl⟩
        cases q with
        | vector f => exact hseg ⟨f, hr⟩
        | scalar f => simp [Quantity.comps] at hq
      · obtain ⟨⟨n, f0⟩, hx0, rfl⟩ := List.mem_map.1 hx
        exact absurd ⟨f0, ((hm _ _).2 f0).1 hx0⟩ hseg

/-- The quantities registered for all segments, by name. -/
theorem forAll_lists (txt : C → C) (rs : List (VtkReg C)) (cells : Bool) :
    ((∀ name f, (∃ f', LastReg rs cells none name (.scalar f') ∧ f = fun v => txt (f' v)) →
        LastIn (scOf txt ((rs.foldl VtkWriter.add .new).forAll cells)) name f) ∧
      ∀ x ∈ scOf txt ((rs.foldl VtkWriter.add .new).forAll cells), ∃ f f', LastReg rs cells none x.1 (.scalar f') ∧
        f = fun v => txt (f' v)) ∧
    (∀ name f, (∃ f', LastReg rs cells none name (.vector f') ∧ f = fun v => txt3 txt (f' v)) →
        LastIn (veOf txt ((rs.foldl VtkWriter.add .new).forAll cells)) name f) ∧
      ∀ x ∈ veOf txt ((rs.foldl VtkWriter.add .new).forAll cells), ∃ f f', LastReg rs cells none x.1 (.vector f') ∧
        f = fun v => txt3 txt (f' v) := by
  have hm := fun s n => adds_mem rs cells s n
  have hs := fun s => adds_sorted rs cells s
  rw [forAll_sc, forAll_ve]
  generalize rs.foldl VtkWriter.add (.new : VtkWriter C) = w at hm hs
  refine ⟨⟨?_, ?_⟩, ?_, ?_⟩
  · rintro name f ⟨f', hc, rfl⟩
    have := lastIn_append (l' := []) (pairwise_map_snd (fun (f : Nat → C) v => txt (f v)) (hs none).1)
      List.Pairwise.nil (n := name) (q := fun v => txt (f' v))
      (Or.inr ⟨List.mem_map.2 ⟨_, ((hm _ _).1 f').2 hc, rfl⟩, by simp⟩)
    simpa using this
  · intro x hx
    obtain ⟨⟨n, f0⟩, hx0, rfl⟩ := List.mem_map.1 hx
    exact ⟨_, f0, ((hm _ _).1 f0).1 hx0, rfl⟩
  · rintro name f ⟨f', hc, rfl⟩
    have := lastIn_append (l' := []) (pairwise_map_snd (fun (f : Nat → C × C × C) v => txt3 txt (f v)) (hs none).2)
      List.Pairwise.nil (n := name) (q := fun v => txt3 txt (f' v))
      (Or.inr ⟨List.mem_map.2 ⟨_, ((hm _ _).2 f').2 hc, rfl⟩, by simp⟩)
    simpa using this
  · intro x hx
    obtain ⟨⟨n, f0⟩, hx0, rfl⟩ := List.mem_map.1 hx
    exact ⟨_, f0, ((hm _ _).2 f0).1 hx0, rfl⟩

theorem goes_segment {R : Option Nat → String → Bool} {g : Nat} {name : String}
    (h : ¬ Goes R g name (.segment g name)) : (destOf R g name).registered ≠ .segment := by
  intro he
  apply h
  rw [goes_iff]
  unfold destOf at he ⊢
  cases h1 : R none name <;> cases h2 : R (some g) name <;> simp_all [Dest.registered]

/-! ### C104 -/

/-- C104: quantities registered at the writer, written with at least two segments and read: every element of a segment
gets the value of the quantity the segment has under the name, at the place expected; nothing else is changed.  Missing
from the full statement: vector quantities for which the reader has an accessor registered for the segment only. -/
theorem C104_values_partial [DecidableEq C] {tag : VtkTag} {txt : C → C} (zero : C) {dim : Nat} {st : SegState (List C)}
    (h : SegReached tag.topo st) (hd : NoDuplicates tag.topo.cellDim txt dim st.mesh) (gs : List Nat) (hgs : 2 ≤ gs.length)
    (rs : List (VtkReg C)) :
    ∃ r V Cc, readVtk tag zero dim ((rs.foldl VtkWriter.add .new).call tag txt zero st gs).1 = some r ∧
      VtkSame tag.topo.cellDim txt st.mesh (fun g c => g ∈ gs ∧ c ∈ st.view g tag.topo.cellDim) V Cc r.st ∧
      (∀ R old, (∀ g ∈ gs, ∀ name f, Chosen rs false g name (.vector f) → ¬ Goes (R true) g name (.segment g name)) →
        ∃ new, r.vertexValues R old = some new ∧
          AllDelivered txt V (fun g v => g ∈ gs ∧ ∃ c e, c ∈ st.view g tag.topo.cellDim ∧
            (st.mesh.elems tag.topo.cellDim)[c]? = some e ∧ v ∈ e.verts) (Chosen rs false) R old new) ∧
      ∀ R old, (∀ g ∈ gs, ∀ name f, Chosen rs true g name (.vector f) → ¬ Goes (R true) g name (.segment g name)) →
        ∃ new, r.cellValues R old = some new ∧
          AllDelivered txt Cc (fun g c => g ∈ gs ∧ c ∈ st.view g tag.topo.cellDim) (Chosen rs true) R old new := by
  have hI := h.invOn tag.wf tag.wf.closedOn
  have hw := h.writable hd gs
  obtain ⟨r, V, Cc, parts', hp1, hp2, h1, h2, hV, hC, hf, hp, hc⟩ := vtk_read zero gs (fun g => st.view g tag.topo.cellDim)
    ((rs.foldl VtkWriter.add .new).forSegment false) ((rs.foldl VtkWriter.add .new).forSegment true) hw (fun g _ => hI.nodup g _)
  have hcl : ∀ g ∈ parts', ∀ c ∈ st.view g tag.topo.cellDim, ∃ g ∈ gs, c ∈ st.view g tag.topo.cellDim :=
    fun g hg c hc => ⟨g, (hp2 g).1 hg, hc⟩
  refine ⟨r, V, Cc, ?_, h2, ?_, ?_⟩
  · unfold VtkWriter.call writeVtk
    simp only [if_neg (show ¬ gs.length ≤ 1 by omega)]
    exact h1
  · intro R old hr
    obtain ⟨new, hn1, hn2, hn3⟩ := setupData_spec (txt := txt) h2.vertsOnce.1
      (fun g => fileVerts tag st.mesh (st.view g tag.topo.cellDim)) ((rs.foldl VtkWriter.add .new).forSegment false) R parts' old
      (fun g hg => (fileVerts_spec hw (hcl g hg)).1) (fun g hg v hv => by
        rw [hV, (joinAll_spec _ _).2.1]
        exact Or.inr ⟨_, List.mem_map.2 ⟨g, hg, rfl⟩, hv⟩)
      (fun g hg x hx => by
        obtain ⟨_, f, hf, -⟩ := (chosen_lists txt rs false g).2.2 x hx
        exact goes_segment (hr g ((hp2 g).1 hg) x.1 f hf))
    have hIn : ∀ g v, (g ∈ gs ∧ ∃ c e, c ∈ st.view g tag.topo.cellDim ∧ (st.mesh.elems tag.topo.cellDim)[c]? = some e ∧
        v ∈ e.verts) ↔ g ∈ parts' ∧ v ∈ fileVerts tag st.mesh (st.view g tag.topo.cellDim) := by
      intro g v
      rw [← hp2 g]
      refine and_congr_right fun hg => ?_
      rw [(fileVerts_spec hw (hcl g hg)).2.2]
      constructor
      · rintro ⟨c, e, hc, he, hv⟩
        exact ⟨c, hc, by rw [vertsOf_of he]; exact hv⟩
      · rintro ⟨c, hc, hv⟩
        obtain ⟨e, he1, he2, -⟩ := hw.elem (hcl g hg c hc)
        exact ⟨c, e, hc, he1, by rw [← he2]; exact hv⟩
    refine ⟨new, ?_, Delivered.intro hp1 hn2 hIn (fun g => (chosen_lists txt rs false g).1.1)
      (fun g => (chosen_lists txt rs false g).1.2), Delivered.intro hp1 hn3 hIn (fun g => (chosen_lists txt rs false g).2.1)
      (fun g => (chosen_lists txt rs false g).2.2)⟩
    unfold VtkResult.vertexValues
    rw [hf, hp, List.map_map]
    exact hn1
  · intro R old hr
    obtain ⟨new, hn1, hn2, hn3⟩ := setupData_spec (txt := txt) h2.cellsOnce.1
      (fun g => fileCells tag st.mesh (st.view g tag.topo.cellDim)) ((rs.foldl VtkWriter.add .new).forSegment true) R parts' old
      (fun g hg => (fileCells_spec hw (hcl g hg)).1) (fun g hg v hv => by
        rw [hC, (joinAll_spec _ _).2.1]
        exact Or.inr ⟨_, List.mem_map.2 ⟨g, hg, rfl⟩, hv⟩)
      (fun g hg x hx => by
        obtain ⟨_, f, hf, -⟩ := (chosen_lists txt rs true g).2.2 x hx
        exact goes_segment (hr g ((hp2 g).1 hg) x.1 f hf))
    have hIn : ∀ g c, (g ∈ gs ∧ c ∈ st.view g tag.topo.cellDim) ↔
        g ∈ parts' ∧ c ∈ fileCells tag st.mesh (st.view g tag.topo.cellDim) := by
      intro g c
      rw [← hp2 g]
      refine and_congr_right fun hg => ?_
      rw [(fileCells_spec hw (hcl g hg)).2.2]
    refine ⟨new, ?_, Delivered.intro hp1 hn2 hIn (fun g => (chosen_lists txt rs true g).1.1)
      (fun g => (chosen_lists txt rs true g).1.2), Delivered.intro hp1 hn3 hIn (fun g => (chosen_lists txt rs true g).2.1)
      (fun g => (chosen_lists txt rs true g).2.2)⟩
    unfold VtkResult.cellValues
    rw [hf, hc, List.map_map]
    exact hn1

/-- C104: with less than two segments the mesh is written as a whole, and read as segment 0: every element gets the value
of the quantity registered for all segments under the name.  Missing from the full statement: quantities registered for a
segment, and vector quantities for which the reader has an accessor registered for the segment only. -/
theorem C104_mesh_partial [DecidableEq C] {tag : VtkTag} {txt : C → C} (zero : C) {dim : Nat} {st : SegState (List C)}
    (h : SegReached tag.topo st) (hd : NoDuplicates tag.topo.cellDim txt dim st.mesh) (gs : List Nat) (hgs : gs.length ≤ 1)
    (rs : List (VtkReg C)) :
    ∃ r V Cc, readVtk tag zero dim ((rs.foldl VtkWriter.add .new).call tag txt zero st gs).1 = some r ∧
      VtkSame tag.topo.cellDim txt st.mesh (fun g c => g = 0 ∧ c < st.mesh.count tag.topo.cellDim) V Cc r.st ∧
      (∀ R old, (∀ name f, LastReg rs false none name (.vector f) → ¬ Goes (R true) 0 name (.segment 0 name)) →
        ∃ new, r.vertexValues R old = some new ∧
          AllDelivered txt V (fun g v => g = 0 ∧ ∃ (c : Nat) (e : Elem), (st.mesh.elems tag.topo.cellDim)[c]? = some e ∧ v ∈ e.verts)
            (fun _ => LastReg rs false none) R old new) ∧
      ∀ R old, (∀ name f, LastReg rs true none name (.vector f) → ¬ Goes (R true) 0 name (.segment 0 name)) →
        ∃ new, r.cellValues R old = some new ∧
          AllDelivered txt Cc (fun g c => g = 0 ∧ c < st.mesh.count tag.topo.cellDim) (fun _ => LastReg rs true none) R old new := by
  have hw := h.writableMesh hd
  obtain ⟨r, V, Cc, parts', hp1, hp2, h1, h2, hV, hC, hf, hp, hc⟩ := vtk_read zero [0]
    (fun _ => List.range (st.mesh.count tag.topo.cellDim)) (fun _ => (rs.foldl VtkWriter.add .new).forAll false)
    (fun _ => (rs.foldl VtkWriter.add .new).forAll true) hw (fun g _ => List.nodup_range)
  have hcl : ∀ c ∈ List.range (st.mesh.count tag.topo.cellDim),
      ∃ g ∈ [0], c ∈ (fun _ => List.range (st.mesh.count tag.topo.cellDim)) g := fun c hc => ⟨0, by simp, hc⟩
  have hp0 : ∀ g, g ∈ parts' ↔ g = 0 := fun g => by rw [hp2 g, List.mem_singleton]
  refine ⟨r, V, Cc, ?_, ?_, ?_, ?_⟩
  · unfold VtkWriter.call writeVtk
    simp only [if_pos hgs]
    exact h1
  · simp only [List.mem_singleton, List.mem_range] at h2
    exact h2
  · intro R old hr
    obtain ⟨new, hn1, hn2, hn3⟩ := setupData_spec (txt := txt) h2.vertsOnce.1
      (fun _ => fileVerts tag st.mesh (List.range (st.mesh.count tag.topo.cellDim)))
      (fun _ => (rs.foldl VtkWriter.add .new).forAll false) R parts' old
      (fun g hg => (fileVerts_spec hw hcl).1) (fun g hg v hv => by
        rw [hV, (joinAll_spec _ _).2.1]
        exact Or.inr ⟨_, List.mem_map.2 ⟨g, hg, rfl⟩, hv⟩)
      (fun g hg x hx => by
        obtain ⟨_, f, hf, -⟩ := (forAll_lists txt rs false).2.2 x hx
        have := hr x.1 f hf
        rw [(hp0 g).1 hg]
        exact goes_segment this)
    have hIn : ∀ g v, (g = 0 ∧ ∃ (c : Nat) (e : Elem), (st.mesh.elems tag.topo.cellDim)[c]? = some e ∧ v ∈ e.verts) ↔
        g ∈ parts' ∧ v ∈ fileVerts tag st.mesh (List.range (st.mesh.count tag.topo.cellDim)) := by
      intro g v
      rw [hp0 g, (fileVerts_spec hw hcl).2.2]
      refine and_congr_right fun hg => ?_
      constructor
      · rintro ⟨c, e, he, hv⟩
        refine ⟨c, ?_, by rw [vertsOf_of he]; exact hv⟩
        rw [List.mem_range]
        unfold Mesh.count
        rw [if_neg (by have := tag.cellDim_pos; omega)]
        exact (List.getElem?_eq_some_iff.1 he).1
      · rintro ⟨c, hc, hv⟩
        obtain ⟨e, he1, he2, -⟩ := hw.elem (hcl c hc)
        exact ⟨c, e, he1, by rw [← he2]; exact hv⟩
    refine ⟨new, ?_, Delivered.intro hp1 hn2 hIn (fun _ => (forAll_lists txt rs false).1.1)
      (fun _ => (forAll_lists txt rs false).1.2), Delivered.intro hp1 hn3 hIn (fun _ => (forAll_lists txt rs false).2.1)
      (fun _ => (forAll_lists txt rs false).2.2)⟩
    unfold VtkResult.vertexValues
    rw [hf, hp, List.map_map]
    exact hn1
  · intro R old hr
    obtain ⟨new, hn1, hn2, hn3⟩ := setupData_spec (txt := txt) h2.cellsOnce.1
      (fun _ => fileCells tag st.mesh (List.range (st.mesh.count tag.topo.cellDim)))
      (fun _ => (rs.foldl VtkWriter.add .new).forAll true) R parts' old
      (fun g hg => (fileCells_spec hw hcl).1) (fun g hg v hv => by
        rw [hC, (joinAll_spec _ _).2.1]
        exact Or.inr ⟨_, List.mem_map.2 ⟨g, hg, rfl⟩, hv⟩)
      (fun g hg x hx => by
        obtain ⟨_, f, hf, -⟩ := (forAll_lists txt rs true).2.2 x hx
        have := hr x.1 f hf
        rw [(hp0 g).1 hg]
        exact goes_segment this)
    have hIn : ∀ g c, (g = 0 ∧ c < st.mesh.count tag.topo.cellDim) ↔
        g ∈ parts' ∧ c ∈ fileCells tag st.mesh (List.range (st.mesh.count tag.topo.cellDim)) := by
      intro g c
      rw [hp0 g, (fileCells_spec hw hcl).2.2, List.mem_range]
    refine ⟨new, ?_, Delivered.intro hp1 hn2 hIn (fun _ => (forAll_lists txt rs true).1.1)
      (fun _ => (forAll_lists txt rs true).1.2), Delivered.intro hp1 hn3 hIn (fun _ => (forAll_lists txt rs true).2.1)
      (fun _ => (forAll_lists txt rs true).2.2)⟩
    unfold VtkResult.cellValues
    rw [hf, hc, List.map_map]
    exact hn1

theorem LastReg.unique {rs : List (VtkReg C)} {cells : Bool} {seg : Option Nat} {name : String} {q q' : Quantity C}
    (hc : q.comps = q'.comps) (h : LastReg rs cells seg name q) (h' : LastReg rs cells seg name q') : q = q' := by
  induction rs using List.reverseRecOn with
  | nil => obtain ⟨pre, post, he, -⟩ := h; simp at he
  | append_singleton rs r ih =>
    rw [LastReg.snoc] at h h'
    rcases h with rfl | ⟨h, hn⟩
    · rcases h' with h' | ⟨h', hn'⟩
      · simpa using h'
      · exact absurd ⟨rfl, rfl, rfl, hc⟩ hn'
    · rcases h' with rfl | ⟨h', hn'⟩
      · exact absurd ⟨rfl, rfl, rfl, hc.symm⟩ hn
      · exact ih h h'

theorem le_sum {l : List Nat} {x : Nat} (h : x ∈ l) : x ≤ l.sum := by
  induction l with
  | nil => simp at h
  | cons a l ih =>
    rw [List.sum_cons]
    rcases List.mem_cons.1 h with rfl | h
    · omega
    · have := ih h; omega

/-- If all segments have the same quantity under a name, the order of the segments does not matter. -/
theorem Delivered.same {α : Type} {V gs : List Nat} {In : Nat → Nat → Prop} {Q : Nat → String → (Nat → α) → Prop}
    {R : Option Nat → String → Bool} {old new : Dest → FieldOf α} (h : Delivered V In Q R old new)
    (hIn : ∀ g v, In g v → g ∈ gs) {name : String} {f : Nat → α} (hQ : ∀ g ∈ gs, ∀ f', Q g name f' ↔ f' = f)
    {i v : Nat} (hv : V[i]? = some v) : ∀ (k g : Nat) (d : Dest), gs.sum - g = k → In g v → Goes R g name d → new d i = some (f v) := by
  intro k
  induction k using Nat.strong_induction_on with
  | h k ih =>
    intro g d hk hin hd
    by_cases hlast : ∃ g' f', g < g' ∧ In g' v ∧ Q g' name f' ∧ Goes R g' name d
    · obtain ⟨g', f', h1, h2, -, h4⟩ := hlast
      have hle : g' ≤ gs.sum := le_sum (hIn g' v h2)
      exact ih (gs.sum - g') (by omega) g' d rfl h2 h4
    · refine h.got g name f d i v hv hin ((hQ g (hIn g v hin) f).2 rfl) hd fun g' f' h1 h2 h3 h4 => ?_
      exact hlast ⟨g', f', h1, h2, h3, h4⟩

/-- C104: a scalar quantity registered for all segments, and for none of them separately: all elements of all segments
have its values, wherever they are expected; likewise for vector quantities. -/
theorem C104_for_all {txt : C → C} {V gs : List Nat} {In : Nat → Nat → Prop} {cells : Bool} {rs : List (VtkReg C)}
    {R : Bool → Option Nat → String → Bool} {old new : Values C} (h : AllDelivered txt V In (Chosen rs cells) R old new)
    (hIn : ∀ g v, In g v → g ∈ gs) (name : String) :
    (∀ f, LastReg rs cells none name (.scalar f) → (∀ g ∈ gs, ∀ f', ¬ LastReg rs cells (some g) name (.scalar f')) →
      ∀ g (i : Nat) v d, V[i]? = some v → In g v → Goes (R false) g name d → new.scalars d i = some (txt (f v))) ∧
    (∀ f, LastReg rs cells none name (.vector f) → (∀ g ∈ gs, ∀ f', ¬ LastReg rs cells (some g) name (.vector f')) →
      ∀ g (i : Nat) v d, V[i]? = some v → In g v → Goes (R true) g name d → new.vectors d i = some (txt3 txt (f v))) := by
  constructor
  · intro f hf hno g i v d hv hin hd
    refine h.1.same hIn (f := fun v => txt (f v)) (fun g hg f' => ?_) hv _ g d rfl hin hd
    constructor
    · rintro ⟨f0, hc | ⟨hc, -⟩, rfl⟩
      · exact absurd hc (hno g hg f0)
      · have := LastReg.unique (q := .scalar f0) (q' := .scalar f) rfl hc hf
        rw [Quantity.scalar.injEq] at this
        rw [this]
    · rintro rfl
      refine ⟨f, Or.inr ⟨hf, fun q hq hr => ?_⟩, rfl⟩
      cases q with
      | scalar f' => exact hno g hg f' hr
      | vector f' => simp [Quantity.comps] at hq
  · intro f hf hno g i v d hv hin hd
    refine h.2.same hIn (f := fun v => txt3 txt (f v)) (fun g hg f' => ?_) hv _ g d rfl hin hd
    constructor
    · rintro ⟨f0, hc | ⟨hc, -⟩, rfl⟩
      · exact absurd hc (hno g hg f0)
      · have := LastReg.unique (q := .vector f0) (q' := .vector f) rfl hc hf
        rw [Quantity.vector.injEq] at this
        rw [this]
    · rintro rfl
      refine ⟨f, Or.inr ⟨hf, fun q hq hr => ?_⟩, rfl⟩
      cases q with
      | vector f' => exact hno g hg f' hr
      | scalar f' => simp [Quantity.comps] at hq

/-- C104: a quantity registered for a segment is found at the accessor registered for the segment, or at the field of the
segment, also if the name is used for all segments or for other segments. -/
theorem C104_for_segment {txt : C → C} {V : List Nat} {In : Nat → Nat → Prop} {cells : Bool} {rs : List (VtkReg C)}
    {R : Bool → Option Nat → String → Bool} {old new : Values C} (h : AllDelivered txt V In (Chosen rs cells) R old new)
    (g : Nat) (name : String) (d : Dest) (hd : d = .segment g name ∨ d = .own g name) :
    (∀ f, LastReg rs cells (some g) name (.scalar f) → Goes (R false) g name d →
      ∀ (i : Nat) v, V[i]? = some v → In g v → new.scalars d i = some (txt (f v))) ∧
    (∀ f, LastReg rs cells (some g) name (.vector f) → Goes (R true) g name d →
      ∀ (i : Nat) v, V[i]? = some v → In g v → new.vectors d i = some (txt3 txt (f v))) := by
  have hother : ∀ (S : Option Nat → String → Bool) g', g < g' → ¬ Goes S g' name d := by
    rintro S g' hlt hgo
    rcases hd with rfl | rfl <;> simp [Goes] at hgo <;> omega
  exact ⟨fun f hf hgo i v hv hin => h.1.got g name _ d i v hv hin ⟨f, Or.inl hf, rfl⟩ hgo
      (fun g' _ hlt _ _ => hother _ g' hlt),
    fun f hf hgo i v hv hin => h.2.got g name _ d i v hv hin ⟨f, Or.inl hf, rfl⟩ hgo
      (fun g' _ hlt _ _ => hother _ g' hlt)⟩

/-- C104: the quantities are written once; after writing the writer has none, and the next files have no data. -/
theorem C104_cleared {tag : VtkTag} (txt : C → C) (zero : C) (st st' : SegState (List C)) (gs gs' : List Nat) (w : VtkWriter C) :
    ∀ f ∈ ((w.call tag txt zero st gs).2.call tag txt zero st' gs').1, f.2.pointData = [] ∧ f.2.cellData = [] := by
  intro f hf
  unfold VtkWriter.call writeVtk at hf
  by_cases h1 : gs'.length ≤ 1
  · simp only [if_pos h1, List.mem_singleton] at hf
    subst hf
    exact ⟨rfl, rfl⟩
  · simp only [if_neg h1, List.mem_map] at hf
    obtain ⟨g, -, rfl⟩ := hf
    exact ⟨rfl, rfl⟩

/-- Quantities on the square: on vertices for all segments and for segment 4, on cells for segment 2, and one which is
replaced. -/
def vtkRegs : List (VtkReg Rat) :=
  [⟨false, none, "x", .scalar fun _ => 9⟩, ⟨false, none, "x", .scalar fun v => v⟩, ⟨false, some 4, "x", .scalar fun v => 10 + v⟩,
   ⟨true, some 2, "c", .vector fun c => (c, 5, 6)⟩]

example : LastReg vtkRegs false none "x" (.scalar fun v => v) ∧ LastReg vtkRegs false (some 4) "x" (.scalar fun v => 10 + v) := by
  refine ⟨⟨[⟨false, none, "x", .scalar fun _ => 9⟩], [⟨false, some 4, "x", .scalar fun v => 10 + v⟩,
    ⟨true, some 2, "c", .vector fun c => (c, 5, 6)⟩], rfl, by simp⟩, ⟨[⟨false, none, "x", .scalar fun _ => 9⟩,
    ⟨false, none, "x", .scalar fun v => v⟩], [⟨true, some 2, "c", .vector fun c => (c, 5, 6)⟩], rfl, by simp⟩⟩

example : ∃ r V Cc, readVtk .triangle 0 2 ((vtkRegs.foldl VtkWriter.add .new).call .triangle id 0 vtkSquareState [2, 4]).1 = some r ∧
    VtkSame 2 id vtkSquareState.mesh (fun g c => g ∈ [2, 4] ∧ c ∈ vtkSquareState.view g 2) V Cc r.st ∧
    ∃ new, r.vertexValues (fun _ _ _ => false) ⟨fun _ _ => none, fun _ _ => none⟩ = some new ∧
      ∀ (i : Nat) v, V[i]? = some v → (4 ∈ [2, 4] ∧ ∃ c e, c ∈ vtkSquareState.view 4 2 ∧
        (vtkSquareState.mesh.elems 2)[c]? = some e ∧ v ∈ e.verts) → new.scalars (.own 4 "x") i = some (10 + (v : Rat)) := by
  obtain ⟨r, V, Cc, h1, h2, h3, -⟩ := C104_values_partial (tag := .triangle) (txt := id) 0 vtkSquareState_reached
    vtkSquareState_noDuplicates [2, 4] (by simp) vtkRegs
  obtain ⟨new, h4, h5⟩ := h3 (fun _ _ _ => false) ⟨fun _ _ => none, fun _ _ => none⟩ (by simp [Goes])
  refine ⟨r, V, Cc, h1, h2, new, h4, fun i v hv hin => ?_⟩
  exact (C104_for_segment h5 4 "x" _ (Or.inr rfl)).1 _ ⟨[⟨false, none, "x", .scalar fun _ => 9⟩,
    ⟨false, none, "x", .scalar fun v => v⟩], [⟨true, some 2, "c", .vector fun c => (c, 5, 6)⟩], rfl, by simp⟩ (by simp [Goes])
    i v hv hin

example : ∃ r new new', readVtk .triangle 0 2 ((vtkRegs.foldl VtkWriter.add .new).call .triangle id 0 vtkSquareState [2, 4]).1 = some r ∧
    r.vertexValues (fun _ s _ => s == none) ⟨fun _ _ => none, fun _ _ => none⟩ = some new ∧
    r.cellValues (fun _ _ _ => false) ⟨fun _ _ => none, fun _ _ => none⟩ = some new' ∧
    (List.range 4).map (new.scalars (.all "x")) = [some 11, some 13, some 4, some 10] ∧
    (List.range 2).map (new'.vectors (.own 2 "c")) = [some (1, 5, 6), none] :=
  ⟨_, _, _, rfl, rfl, rfl, by decide +kernel, by decide +kernel⟩

example : ∃ r V Cc, readVtk .triangle 0 2 ((vtkRegs.foldl VtkWriter.add .new).call .triangle id 0 vtkSquareState [4]).1 = some r ∧
    VtkSame 2 id vtkSquareState.mesh (fun g c => g = 0 ∧ c < vtkSquareState.mesh.count 2) V Cc r.st := by
  obtain ⟨r, V, Cc, h1, h2, -⟩ := C104_mesh_partial (tag := .triangle) (txt := id) 0 vtkSquareState_reached
    vtkSquareState_noDuplicates [4] (by simp) vtkRegs
  exact ⟨r, V, Cc, h1, h2⟩

example : ∃ r new, readVtk .triangle 0 2 ((vtkRegs.foldl VtkWriter.add .new).call .triangle id 0 vtkSquareState [4]).1 = some r ∧
    r.vertexValues (fun _ _ _ => false) ⟨fun _ _ => none, fun _ _ => none⟩ = some new ∧
    (List.range 4).map (new.scalars (.own 0 "x")) = [some 1, some 0, some 3, some 4] :=
  ⟨_, _, rfl, rfl, by decide +kernel⟩

/-- C104, violated: with one segment a quantity registered for it is not written. -/
theorem C104_violated_one_segment :
    ∃ (rs : List (VtkReg Rat)) (q : Quantity Rat), LastReg rs true (some 4) "x" q ∧
      ((rs.foldl VtkWriter.add .new).call .triangle id 0 vtkSquareState [4]).1.map (fun f => f.2.cellData.map (·.name)) = [[]] :=
  ⟨[⟨true, some 4, "x", .scalar fun c => c⟩], _, ⟨[], [], rfl, by simp⟩, by decide +kernel⟩

/-- C104, violated: a name registered for all segments and for one of them: the file of the segment has two arrays with
the same name. -/
theorem C104_violated_twice :
    ∃ (rs : List (VtkReg Rat)), LastReg rs false none "x" (.scalar fun _ => 1) ∧ LastReg rs false (some 4) "x" (.scalar fun _ => 2) ∧
      ((rs.foldl VtkWriter.add .new).call .triangle id 0 vtkSquareState [2, 4]).1.map
        (fun f => (f.1, f.2.pointData.map fun a => (a.name, a.values))) =
        [(2, [("x", [1, 1, 1])]), (4, [("x", [1, 1, 1]), ("x", [2, 2, 2])])] :=
  ⟨[⟨false, none, "x", .scalar fun _ => 1⟩, ⟨false, some 4, "x", .scalar fun _ => 2⟩],
    ⟨[], _, rfl, by simp⟩, ⟨[_], [], rfl, by simp⟩, by decide +kernel⟩

/-- C104, violated: an accessor registered at the reader for a segment gets nothing if another one is registered for all
segments under the name. -/
theorem C104_violated_reader :
    ∃ (rs : List (VtkReg Rat)) (R : Bool → Option Nat → String → Bool) (r : VtkResult Rat) (new : Values Rat),
      LastReg rs true none "x" (.scalar fun c => c) ∧ R false (some 4) "x" = true ∧
      readVtk .triangle 0 2 ((rs.foldl VtkWriter.add .new).call .triangle id 0 vtkSquareState [2, 4]).1 = some r ∧
      1 ∈ r.st.view 4 2 ∧ r.cellValues R ⟨fun _ _ => none, fun _ _ => none⟩ = some new ∧ new.scalars (.segment 4 "x") 1 = none :=
  ⟨[⟨true, none, "x", .scalar fun c => c⟩], fun _ _ _ => true, _, _, ⟨[], [], rfl, by simp⟩, rfl, rfl, by decide +kernel, rfl,
    by decide +kernel⟩

end VG
