import Verif.Model.Queries
import Verif.Lemmas.Reach

/-!
The caches of a mesh are exact whenever their counter is the counter of the mesh.
-/

namespace VG

variable {P : Type}

/-! Counters -/

theorem genFaces_counter {ins : Nat → Mesh P → List Nat → InsRes P}
    (h : ∀ k m vs, m.counter < (ins k m vs).mesh.counter) (vs k) :
    ∀ idxs m, m.counter ≤ (genFaces ins vs k idxs m).1.counter
  | [], _ => le_refl _
  | ix :: rest, m => by
    have h1 := genFaces_counter h vs k rest (ins k m (pick vs ix)).mesh
    have h2 := h k m (pick vs ix)
    simp only [genFaces]; omega

theorem genLayers_counter {ins : Nat → Mesh P → List Nat → InsRes P}
    (h : ∀ k m vs, m.counter < (ins k m vs).mesh.counter) (vs) :
    ∀ ls m, m.counter ≤ (genLayers ins vs ls m).1.counter
  | [], _ => le_refl _
  | (k, idxs) :: rest, m => by
    have h1 := genLayers_counter h vs rest (genFaces ins vs k idxs m).1
    have h2 := genFaces_counter h vs k idxs m
    simp only [genLayers]; omega

theorem insertN_counter (T : Topo) : ∀ f d (m : Mesh P) vs,
    m.counter < (insertN T f d m vs).mesh.counter := by
  intro f
  induction f with
  | zero => intro d m vs; unfold insertN; split <;> simp [Mesh.touch, Mesh.push]
  | succ f ih =>
    intro d m vs; unfold insertN; split
    · simp [Mesh.touch]
    · have := genLayers_counter ih vs (T.layers d vs.length) m
      simp only [Mesh.push]; omega

theorem step_counter {T : Topo} {m m' : Mesh P} {op : MOp P} (h : m.step T op = some m') :
    m.counter < m'.counter := by
  cases op with
  | vertex id p => simp [Mesh.step] at h; subst h; simp [Mesh.makeVertex]
  | elem d vs =>
    simp only [Mesh.step] at h
    split at h
    · simp only [Option.some.injEq] at h
      subst h
      exact insertN_counter T d d m vs
    · cases h

/-! Ids and boundary handles -/

theorem eid_inj {T : Topo} {m : Mesh P} (hI : Inv T m) (hu : UniqueVids m) {k a b : Nat}
    (ha : a < m.count k) (hb : b < m.count k) (h : m.eid k a = m.eid k b) : a = b := by
  unfold Mesh.eid at h
  unfold Mesh.count at ha hb
  by_cases hk : k = 0
  · rw [if_pos hk] at *; rw [if_pos hk] at h; exact vid_inj hu ha hb h
  · rw [if_neg hk] at *
    rw [if_neg hk] at h
    rw [List.getD_eq_getElem _ _ (by simpa using ha), List.getD_eq_getElem _ _ (by simpa using hb)] at h
    simp only [List.getElem_map, Nat.cast_inj] at h
    refine (List.Nodup.getElem_inj_iff (hI.ids k) (hi := by simpa using ha) (hj := by simpa using hb)).1 ?_
    simpa using h

theorem bndSlots_valid {T : Topo} {m : Mesh P} (hI : Inv T m) {d k s : Nat} {e : Elem}
    (he : e ∈ m.elems d) (hs : s ∈ e.bndSlots k) : s < (m.elems k).length := by
  unfold Elem.bndSlots at hs
  split at hs
  · simp at hs
  · rename_i l hl
    obtain ⟨k', refs⟩ := l
    have h1 := List.mem_of_find?_eq_some hl
    have h2 := List.find?_some hl
    simp only [beq_iff_eq] at h2
    subst h2
    obtain ⟨q, hq⟩ := List.mem_iff_getElem?.1 h1
    obtain ⟨⟨k'', idxs⟩, _, hk', hf2⟩ := forall₂_getElem?' (hI.bnd d e he) hq
    simp only at hk'
    subst hk'
    obtain ⟨r, hr, rfl⟩ := List.mem_map.1 hs
    obtain ⟨t, ht⟩ := List.mem_iff_getElem?.1 hr
    obtain ⟨_, _, g, hg, _⟩ := forall₂_getElem?' hf2 ht
    exact (List.getElem?_eq_some_iff.1 hg).1

theorem bndSlots_nodup {T : Topo} (hT : T.WF) {m : Mesh P} (hI : Inv T m) {d k : Nat} {e : Elem}
    (he : e ∈ m.elems d) : (e.bndSlots k).Nodup := by
  unfold Elem.bndSlots
  split
  · simp
  · rename_i l hl
    obtain ⟨k', refs⟩ := l
    have h1 := List.mem_of_find?_eq_some hl
    obtain ⟨q, hq⟩ := List.mem_iff_getElem?.1 h1
    obtain ⟨⟨k'', idxs⟩, hlq, hk', hf2⟩ := forall₂_getElem?' (hI.bnd d e he) hq
    simp only at hk'
    subst hk'
    have hlm := List.mem_of_getElem? hlq
    show (refs.map (·.1)).Nodup
    rw [List.nodup_iff_pairwise_ne, List.pairwise_iff_getElem]
    intro i j hi hj hij heq
    simp only [List.length_map] at hi hj
    simp only [List.getElem_map] at heq
    obtain ⟨ix, hix, g, g1, g2, _⟩ := forall₂_getElem?' hf2 (List.getElem?_eq_getElem hi)
    obtain ⟨ix', hix', g', g1', g2', _⟩ := forall₂_getElem?' hf2 (List.getElem?_eq_getElem hj)
    simp only at g1 g1' g2 g2'
    rw [heq, g1'] at g1
    have : g' = g := Option.some.inj g1
    subst this
    have hpp := g2.symm.trans g2'
    have hev := hI.verts d e he
    have w1 := hT.idx d _ k'' idxs hev.2.1 hlm ix (List.mem_of_getElem? hix)
    have w2 := hT.idx d _ k'' idxs hev.2.1 hlm ix' (List.mem_of_getElem? hix')
    have hixp : ix.Perm ix' := by
      refine perm_of_map_perm (S := fun i => i < e.verts.length) ?_ ?_ ?_ hpp
      · intro a b ha hb' hab
        rw [List.getD_eq_getElem _ _ ha, List.getD_eq_getElem _ _ hb'] at hab
        exact (List.Nodup.getElem_inj_iff hev.1).1 hab
      · intro a ha; exact w1.2.2 a ha
      · intro a ha; exact w2.2.2 a ha
    have hdist := List.pairwise_iff_getElem.1 (hT.distinct d _ k'' idxs hev.2.1 hlm)
    obtain ⟨b1, rfl⟩ := List.getElem?_eq_some_iff.1 hix
    obtain ⟨b2, rfl⟩ := List.getElem?_eq_some_iff.1 hix'
    exact hdist i j b1 b2 hij hixp

theorem bndOf_valid {T : Topo} {m : Mesh P} (hI : Inv T m) {d t k s : Nat}
    (hs : s ∈ m.bndOf d t k) : s < m.count k := by
  unfold Mesh.bndOf at hs
  split at hs
  · simp at hs
  · rename_i e he
    have hem := List.mem_of_getElem? he
    unfold Mesh.count
    by_cases hk : k = 0
    · rw [if_pos hk] at *; exact (hI.verts d e hem).2.2 s hs
    · rw [if_neg hk] at *; exact bndSlots_valid hI hem hs

theorem bndOf_nodup {T : Topo} (hT : T.WF) {m : Mesh P} (hI : Inv T m) (d t k : Nat) :
    (m.bndOf d t k).Nodup := by
  unfold Mesh.bndOf
  split
  · simp
  · rename_i e he
    have hem := List.mem_of_getElem? he
    by_cases hk : k = 0
    · rw [if_pos hk]; exact (hI.verts d e hem).1
    · rw [if_neg hk]; exact bndSlots_nodup hT hI hem

/-! Coboundary -/

theorem cobInner (g : Nat → Int) (t : Nat) (x : Int) : ∀ (l : List Nat) (acc : Int → List Nat),
    (l.foldl (fun acc s => upd acc (g s) (acc (g s) ++ [t])) acc) x =
      acc x ++ List.replicate ((l.map g).count x) t
  | [], acc => by simp
  | s :: l, acc => by
    rw [List.foldl_cons, cobInner g t x l]
    simp only [List.map_cons, List.count_cons]
    by_cases h : x = g s
    · subst h
      simp only [upd, if_true, beq_self_eq_true, List.append_assoc]
      congr 1
    · have h' : (g s == x) = false := beq_false_of_ne (Ne.symm h)
      simp [upd, h, h']

theorem cobOuter (g : Nat → Int) (b : Nat → List Nat) (x : Int) : ∀ (ts : List Nat)
    (acc : Int → List Nat),
    (ts.foldl (fun acc t => (b t).foldl (fun acc s => upd acc (g s) (acc (g s) ++ [t])) acc) acc) x =
      acc x ++ ts.flatMap (fun t => List.replicate (((b t).map g).count x) t)
  | [], acc => by simp
  | t :: ts, acc => by
    rw [List.foldl_cons, cobOuter g b x ts, cobInner]
    simp

theorem count_map_inj {g : Nat → Int} {l : List Nat} {s : Nat}
    (h : ∀ a ∈ l, g a = g s → a = s) : (l.map g).count (g s) = l.count s := by
  induction l with
  | nil => rfl
  | cons a l ih =>
    simp only [List.map_cons, List.count_cons]
    rw [ih (fun b hb => h b (by simp [hb]))]
    congr 1
    by_cases ha : a = s
    · simp [ha]
    · have : g a ≠ g s := fun hh => ha (h a (by simp) hh)
      simp [ha, this]

/-- The coboundary of each element as it should be. -/
def CobFresh (m : Mesh P) (k d : Nat) (data : Int → List Nat) : Prop :=
  ∀ s < m.count k, data (m.eid k s) = (List.range (m.count d)).filter (fun t => s ∈ m.bndOf d t k)

theorem createCob_fresh {T : Topo} (hT : T.WF) {m : Mesh P} (hI : Inv T m) (hu : UniqueVids m)
    (k d : Nat) (old : Int → List Nat) : CobFresh m k d (createCob m k d old) := by
  intro s hs
  unfold createCob
  rw [cobOuter]
  have hmem : m.eid k s ∈ m.idsOf k := List.mem_map.2 ⟨s, by simpa using hs, rfl⟩
  rw [if_pos hmem, List.nil_append]
  have : ∀ ts : List Nat, ts.flatMap (fun t => List.replicate (((m.bndOf d t k).map (m.eid k)).count (m.eid k s)) t)
      = ts.filter (fun t => s ∈ m.bndOf d t k) := by
    intro ts
    induction ts with
    | nil => rfl
    | cons t ts ih =>
      rw [List.flatMap_cons, ih, List.filter_cons,
        count_map_inj (fun a ha h => eid_inj hI hu (bndOf_valid hI ha) hs h)]
      by_cases hm : s ∈ m.bndOf d t k
      · rw [List.count_eq_one_of_mem (bndOf_nodup hT hI d t k) hm]
        simp [hm]
      · rw [List.count_eq_zero_of_not_mem hm]
        simp [hm]
  exact this _

/-! Neighbors -/

theorem mem_nbPairs {l : List Nat} (a b : Nat) : (a, b) ∈ nbPairs l ↔
    ∃ j0 j1 : Nat, j0 < j1 ∧ l[j0]? = some a ∧ l[j1]? = some b := by
  simp only [nbPairs, List.mem_flatMap, List.mem_range, List.mem_map, Prod.mk.injEq]
  constructor
  · rintro ⟨j1, h1, j0, h0, rfl, rfl⟩
    refine ⟨j0, j1, h0, ?_, ?_⟩
    · rw [List.getD_eq_getElem _ _ (by omega), List.getElem?_eq_getElem]
    · rw [List.getD_eq_getElem _ _ (by omega), List.getElem?_eq_getElem]
  · rintro ⟨j0, j1, h, ha, hb⟩
    obtain ⟨h1, rfl⟩ := List.getElem?_eq_some_iff.1 ha
    obtain ⟨h2, rfl⟩ := List.getElem?_eq_some_iff.1 hb
    exact ⟨j1, h2, j0, h, List.getD_eq_getElem _ _ h1, List.getD_eq_getElem _ _ h2⟩

theorem nbPairs_both {l : List Nat} (hn : l.Nodup) (a b : Nat) :
    ((a, b) ∈ nbPairs l ∨ (b, a) ∈ nbPairs l) ↔ a ∈ l ∧ b ∈ l ∧ a ≠ b := by
  constructor
  · rintro (h | h)
    · obtain ⟨j0, j1, h, ha, hb⟩ := (mem_nbPairs a b).1 h
      refine ⟨List.mem_of_getElem? ha, List.mem_of_getElem? hb, ?_⟩
      rintro rfl
      obtain ⟨h1, h1'⟩ := List.getElem?_eq_some_iff.1 ha
      obtain ⟨h2, h2'⟩ := List.getElem?_eq_some_iff.1 hb
      have := (List.Nodup.getElem_inj_iff hn).1 (h1'.trans h2'.symm)
      omega
    · obtain ⟨j0, j1, h, ha, hb⟩ := (mem_nbPairs b a).1 h
      refine ⟨List.mem_of_getElem? hb, List.mem_of_getElem? ha, ?_⟩
      rintro rfl
      obtain ⟨h1, h1'⟩ := List.getElem?_eq_some_iff.1 ha
      obtain ⟨h2, h2'⟩ := List.getElem?_eq_some_iff.1 hb
      have := (List.Nodup.getElem_inj_iff hn).1 (h1'.trans h2'.symm)
      omega
  · rintro ⟨ha, hb, hne⟩
    obtain ⟨i, hi⟩ := List.mem_iff_getElem?.1 ha
    obtain ⟨j, hj⟩ := List.mem_iff_getElem?.1 hb
    rcases Nat.lt_trichotomy i j with h | h | h
    · exact Or.inl ((mem_nbPairs a b).2 ⟨i, j, h, hi, hj⟩)
    · subst h; rw [hi] at hj; exact absurd (Option.some.inj hj) hne
    · exact Or.inr ((mem_nbPairs b a).2 ⟨j, i, h, hj, hi⟩)

/-- Neighbor lists describe a relation on the elements `S`. -/
def NbRel (m : Mesh P) (d : Nat) (S : Nat → Prop) (acc : Int → List Nat) (R : Nat → Nat → Prop) : Prop :=
  ∀ a, S a → (acc (m.eid d a)).Nodup ∧ ∀ b, b ∈ acc (m.eid d a) ↔ R a b

theorem nbStep_rel {T : Topo} {m : Mesh P} (hI : Inv T m) (hu : UniqueVids m) {d : Nat}
    {S : Nat → Prop} (hS : ∀ a, S a → a < m.count d)
    {acc : Int → List Nat} {R : Nat → Nat → Prop} (hsym : ∀ a b, R a b → R b a)
    (hval : ∀ a b, R a b → S a ∧ S b) (h : NbRel m d S acc R) {a b : Nat}
    (ha : S a) (hb : S b) (hne : a ≠ b) :
    NbRel m d S (nbStep m d acc (a, b)) (fun x y => R x y ∨ (x = a ∧ y = b) ∨ (x = b ∧ y = a)) := by
  have hin : m.eid d b ∈ (acc (m.eid d a)).map (m.eid d) ↔ R a b := by
    rw [List.mem_map]
    constructor
    · rintro ⟨c, hc, hcb⟩
      have hRc := ((h a ha).2 c).1 hc
      have := eid_inj hI hu (hS _ (hval _ _ hRc).2) (hS _ hb) hcb
      subst this
      exact hRc
    · intro hR
      exact ⟨b, ((h a ha).2 b).2 hR, rfl⟩
  intro x hx
  unfold nbStep
  simp only
  by_cases hR : R a b
  · rw [if_pos (hin.2 hR)]
    refine ⟨(h x hx).1, fun y => ?_⟩
    rw [(h x hx).2 y]
    constructor
    · exact Or.inl
    · rintro (h1 | ⟨rfl, rfl⟩ | ⟨rfl, rfl⟩)
      · exact h1
      · exact hR
      · exact hsym _ _ hR
  · rw [if_neg (fun h => hR (hin.1 h))]
    have hRba : ¬ R b a := fun h => hR (hsym _ _ h)
    have hidne : m.eid d b ≠ m.eid d a := fun h => hne (eid_inj hI hu (hS _ ha) (hS _ hb) h.symm)
    by_cases hxa : x = a
    · subst hxa
      have e1 : m.eid d x ≠ m.eid d b := hidne.symm
      simp only [upd, if_neg e1, if_true]
      refine ⟨?_, fun y => ?_⟩
      · rw [List.nodup_append]
        refine ⟨(h x hx).1, by simp, ?_⟩
        intro y hy z hz
        simp only [List.mem_singleton] at hz
        subst hz
        rintro rfl
        exact hR (((h x hx).2 y).1 hy)
      · rw [List.mem_append, (h x hx).2 y, List.mem_singleton]
        constructor
        · rintro (h1 | rfl)
          · exact Or.inl h1
          · exact Or.inr (Or.inl ⟨trivial, rfl⟩)
        · rintro (h1 | ⟨_, rfl⟩ | ⟨h2, _⟩)
          · exact Or.inl h1
          · exact Or.inr rfl
          · exact absurd h2 hne
    · by_cases hxb : x = b
      · subst hxb
        simp only [upd, if_neg hidne, if_true]
        refine ⟨?_, fun y => ?_⟩
        · rw [List.nodup_append]
          refine ⟨(h x hx).1, by simp, ?_⟩
          intro y hy z hz
          simp only [List.mem_singleton] at hz
          subst hz
          rintro rfl
          exact hRba (((h x hx).2 y).1 hy)
        · rw [List.mem_append, (h x hx).2 y, List.mem_singleton]
          constructor
          · rintro (h1 | rfl)
            · exact Or.inl h1
            · exact Or.inr (Or.inr ⟨trivial, rfl⟩)
          · rintro (h1 | ⟨h2, _⟩ | ⟨_, rfl⟩)
            · exact Or.inl h1
            · exact absurd h2 hxa
            · exact Or.inr rfl
      · have e1 : m.eid d x ≠ m.eid d b := fun hh => hxb (eid_inj hI hu (hS _ hx) (hS _ hb) hh)
        have e2 : m.eid d x ≠ m.eid d a := fun hh => hxa (eid_inj hI hu (hS _ hx) (hS _ ha) hh)
        simp only [upd, if_neg e1, if_neg e2]
        refine ⟨(h x hx).1, fun y => ?_⟩
        rw [(h x hx).2 y]
        constructor
        · exact Or.inl
        · rintro (h1 | ⟨h2, _⟩ | ⟨h2, _⟩)
          · exact h1
          · exact absurd h2 hxa
          · exact absurd h2 hxb

theorem nbPairsFold_rel {T : Topo} {m : Mesh P} (hI : Inv T m) (hu : UniqueVids m) {d : Nat}
    {S : Nat → Prop} (hS : ∀ a, S a → a < m.count d) :
    ∀ (ps : List (Nat × Nat)) (acc : Int → List Nat) (R : Nat → Nat → Prop),
    (∀ a b, R a b → R b a) → (∀ a b, R a b → S a ∧ S b) → NbRel m d S acc R →
    (∀ a b, (a, b) ∈ ps → S a ∧ S b ∧ a ≠ b) →
    NbRel m d S (ps.foldl (nbStep m d) acc) (fun x y => R x y ∨ (x, y) ∈ ps ∨ (y, x) ∈ ps)
  | [], acc, R, _, _, h, _ => by simpa [NbRel] using h
  | (a, b) :: ps, acc, R, hs, hv, h, hp => by
    obtain ⟨ha, hb, hne⟩ := hp a b (by simp)
    have := nbPairsFold_rel hI hu hS ps _ _ ?_ ?_ (nbStep_rel hI hu hS hs hv h ha hb hne)
      (fun x y hxy => hp x y (by simp [hxy]))
    · rw [List.foldl_cons]
      intro x hx
      refine ⟨(this x hx).1, fun y => ?_⟩
      rw [(this x hx).2 y]
      simp only [List.mem_cons, Prod.mk.injEq]
      tauto
    · rintro x y (h1 | ⟨rfl, rfl⟩ | ⟨rfl, rfl⟩)
      · exact Or.inl (hs _ _ h1)
      · exact Or.inr (Or.inr ⟨rfl, rfl⟩)
      · exact Or.inr (Or.inl ⟨rfl, rfl⟩)
    · rintro x y (h1 | ⟨rfl, rfl⟩ | ⟨rfl, rfl⟩)
      · exact hv _ _ h1
      · exact ⟨ha, hb⟩
      · exact ⟨hb, ha⟩

/-- The neighbors of each element as they should be. -/
def NbFresh (m : Mesh P) (d c : Nat) (data : Int → List Nat) : Prop :=
  NbRel m d (· < m.count d) data (fun a b => a < m.count d ∧ b < m.count d ∧ a ≠ b ∧
    ∃ s, s ∈ m.bndOf d a c ∧ s ∈ m.bndOf d b c)

/-! Boundary flags -/

theorem toggleInner (g : Nat → Int) (x : Int) : ∀ (l : List Nat) (acc : Int → Bool),
    (l.foldl (fun acc s => upd acc (g s) (!acc (g s))) acc) x =
      Bool.xor (acc x) (decide ((l.map g).count x % 2 = 1))
  | [], acc => by simp
  | s :: l, acc => by
    rw [List.foldl_cons, toggleInner g x l]
    simp only [List.map_cons, List.count_cons]
    by_cases h : x = g s
    · subst h
      simp only [upd, if_true, beq_self_eq_true]
      rcases Nat.mod_two_eq_zero_or_one ((l.map g).count (g s)) with h0 | h0 <;>
        cases acc (g s) <;> simp [h0, Nat.add_mod]
    · have h' : (g s == x) = false := beq_false_of_ne (Ne.symm h)
      simp [upd, h, h']

theorem toggleOuter (g : Nat → Int) (b : Nat → List Nat) (x : Int) : ∀ (ts : List Nat)
    (acc : Int → Bool),
    (ts.foldl (fun acc t => (b t).foldl (fun acc s => upd acc (g s) (!acc (g s))) acc) acc) x =
      Bool.xor (acc x) (decide ((ts.map (fun t => ((b t).map g).count x)).sum % 2 = 1))
  | [], acc => by simp
  | t :: ts, acc => by
    rw [List.foldl_cons, toggleOuter g b x ts, toggleInner]
    simp only [List.map_cons, List.sum_cons]
    rcases Nat.mod_two_eq_zero_or_one (((b t).map g).count x) with h0 | h0 <;>
    rcases Nat.mod_two_eq_zero_or_one ((ts.map (fun t => ((b t).map g).count x)).sum) with h1 | h1 <;>
      cases acc x <;> simp [h0, h1, Nat.add_mod]

theorem setInner (g : Nat → Int) (x : Int) : ∀ (l : List Nat) (acc : Int → Bool),
    ((l.foldl (fun acc s => upd acc (g s) true) acc) x = true) ↔ (acc x = true ∨ x ∈ l.map g)
  | [], acc => by simp
  | s :: l, acc => by
    rw [List.foldl_cons, setInner g x l]
    simp only [List.map_cons, List.mem_cons]
    by_cases h : x = g s <;> simp [upd, h]

theorem setOuter (g : Nat → Int) (b : Nat → List Nat) (fl : Nat → Bool) (x : Int) :
    ∀ (ts : List Nat) (acc : Int → Bool),
    ((ts.foldl (fun acc t => if fl t then (b t).foldl (fun acc s => upd acc (g s) true) acc else acc) acc) x
      = true) ↔ (acc x = true ∨ ∃ t ∈ ts, fl t = true ∧ x ∈ (b t).map g)
  | [], acc => by simp
  | t :: ts, acc => by
    rw [List.foldl_cons, setOuter g b fl x ts]
    by_cases h : fl t = true
    · simp only [h, if_true, setInner, List.mem_cons]
      constructor
      · rintro ((h1 | h1) | ⟨u, hu, h2⟩)
        · exact Or.inl h1
        · exact Or.inr ⟨t, Or.inl rfl, h, h1⟩
        · exact Or.inr ⟨u, Or.inr hu, h2⟩
      · rintro (h1 | ⟨u, rfl | hu, h2⟩)
        · exact Or.inl (Or.inl h1)
        · exact Or.inl (Or.inr h2.2)
        · exact Or.inr ⟨u, hu, h2⟩
    · simp only [h, List.mem_cons]
      constructor
      · rintro (h1 | ⟨u, hu, h2⟩)
        · exact Or.inl h1
        · exact Or.inr ⟨u, Or.inr hu, h2⟩
      · rintro (h1 | ⟨u, rfl | hu, h2⟩)
        · exact Or.inl h1
        · exact absurd h2.1 h
        · exact Or.inr ⟨u, hu, h2⟩

/-- Number of cells which have the facet `s`. -/
def numCells (T : Topo) (m : Mesh P) (s : Nat) : Nat :=
  ((List.range (m.count T.cellDim)).filter (fun t => s ∈ m.bndOf T.cellDim t (T.cellDim - 1))).length

/-- Boundary flags as computed: odd number of cells for facets, on a facet with odd number of cells
for lower dimensions. -/
def BdFresh (T : Topo) (m : Mesh P) (k : Nat) (data : Int → Bool) : Prop :=
  ∀ s < m.count k, (data (m.eid k s) = true ↔
    if k = T.cellDim - 1 then numCells T m s % 2 = 1
    else ∃ f < m.count (T.cellDim - 1), numCells T m f % 2 = 1 ∧ s ∈ m.bndOf (T.cellDim - 1) f k)

theorem detectFacets_spec {T : Topo} (hT : T.WF) {m : Mesh P} (hI : Inv T m) (hu : UniqueVids m)
    (old : Int → Bool) {s : Nat} (hs : s < m.count (T.cellDim - 1)) :
    detectFacets T m old (m.eid (T.cellDim - 1) s) = true ↔ numCells T m s % 2 = 1 := by
  unfold detectFacets
  rw [toggleOuter]
  have hmem : m.eid (T.cellDim - 1) s ∈ m.idsOf (T.cellDim - 1) :=
    List.mem_map.2 ⟨s, by simpa using hs, rfl⟩
  rw [if_pos hmem]
  have : ∀ ts : List Nat, (ts.map (fun t => ((m.bndOf T.cellDim t (T.cellDim - 1)).map
        (m.eid (T.cellDim - 1))).count (m.eid (T.cellDim - 1) s))).sum =
      (ts.filter (fun t => s ∈ m.bndOf T.cellDim t (T.cellDim - 1))).length := by
    intro ts
    induction ts with
    | nil => rfl
    | cons t ts ih =>
      rw [List.map_cons, List.sum_cons, ih, List.filter_cons,
        count_map_inj (fun a ha h => eid_inj hI hu (bndOf_valid hI ha) hs h)]
      by_cases hm : s ∈ m.bndOf T.cellDim t (T.cellDim - 1)
      · rw [List.count_eq_one_of_mem (bndOf_nodup hT hI _ t _) hm]
        simp [hm, Nat.add_comm]
      · rw [List.count_eq_zero_of_not_mem hm]
        simp [hm]
  rw [this]
  simp [numCells]

theorem detectBoundary_fresh {T : Topo} (hT : T.WF) {st : MState P} (hI : Inv T st.mesh)
    (hu : UniqueVids st.mesh) {k : Nat} (hk : k ≤ T.cellDim - 1) :
    ((st.detectBoundary T).bd k).counter = st.mesh.counter ∧
    BdFresh T st.mesh k ((st.detectBoundary T).bd k).data := by
  unfold MState.detectBoundary
  simp only
  by_cases hkn : k = T.cellDim - 1
  · simp only [if_pos hkn]
    refine ⟨trivial, fun s hs => ?_⟩
    rw [if_pos hkn]
    subst hkn
    exact detectFacets_spec hT hI hu _ hs
  · have hlt : k < T.cellDim - 1 := by omega
    simp only [if_neg hkn, if_pos hlt]
    refine ⟨trivial, fun s hs => ?_⟩
    rw [if_neg hkn]
    unfold transferFlags
    rw [setOuter _ _ (fun t => detectFacets T st.mesh (st.bd (T.cellDim - 1)).data (st.mesh.eid (T.cellDim - 1) t))]
    have hmem : st.mesh.eid k s ∈ st.mesh.idsOf k := List.mem_map.2 ⟨s, by simpa using hs, rfl⟩
    rw [if_pos hmem]
    simp only [Bool.false_eq_true, false_or, List.mem_range]
    constructor
    · rintro ⟨f, hf, h1, h2⟩
      rw [detectFacets_spec hT hI hu _ hf] at h1
      obtain ⟨s', hs', he⟩ := List.mem_map.1 h2
      have := eid_inj hI hu (bndOf_valid hI hs') hs he
      subst this
      exact ⟨f, hf, h1, hs'⟩
    · rintro ⟨f, hf, h1, h2⟩
      exact ⟨f, hf, (detectFacets_spec hT hI hu _ hf).2 h1, List.mem_map.2 ⟨s, h2, rfl⟩⟩

/-! The invariant of caches -/

structure CacheInv (T : Topo) (st : MState P) : Prop where
  cobLe : ∀ k d, (st.cob k d).counter ≤ st.mesh.counter
  nbLe : ∀ d c, (st.nb d c).counter ≤ st.mesh.counter
  bdLe : ∀ k, (st.bd k).counter ≤ st.mesh.counter
  cob : ∀ k d, (st.cob k d).counter = st.mesh.counter → CobFresh st.mesh k d (st.cob k d).data
  nb : ∀ d c, (st.nb d c).counter = st.mesh.counter → NbFresh st.mesh d c (st.nb d c).data
  bd : ∀ k, k ≤ T.cellDim - 1 → (st.bd k).counter = st.mesh.counter →
    BdFresh T st.mesh k (st.bd k).data

theorem refreshCob_mesh (st : MState P) (k d : Nat) : (st.refreshCob k d).mesh = st.mesh := by
  unfold MState.refreshCob; split <;> rfl

theorem refreshCob_spec {T : Topo} (hT : T.WF) {st : MState P} (hI : Inv T st.mesh)
    (hu : UniqueVids st.mesh) (hc : CacheInv T st) (k d : Nat) :
    CacheInv T (st.refreshCob k d) ∧ CobFresh st.mesh k d ((st.refreshCob k d).cob k d).data := by
  unfold MState.refreshCob
  split
  · rename_i h
    refine ⟨⟨?_, hc.nbLe, hc.bdLe, ?_, hc.nb, hc.bd⟩, ?_⟩
    · intro k' d'
      simp only
      split
      · exact le_refl _
      · exact hc.cobLe k' d'
    · intro k' d'
      simp only
      split
      · rename_i h'
        obtain ⟨rfl, rfl⟩ := h'
        intro _
        exact createCob_fresh hT hI hu _ _ _
      · exact hc.cob k' d'
    · simp only [and_self, if_true]
      exact createCob_fresh hT hI hu _ _ _
  · rename_i h
    rw [ne_eq, not_not] at h
    exact ⟨hc, hc.cob k d h⟩

theorem createNb_spec {T : Topo} (hT : T.WF) {st : MState P} (hI : Inv T st.mesh)
    (hu : UniqueVids st.mesh) (hc : CacheInv T st) (d c : Nat) (old : Int → List Nat) :
    (createNb st d c old).1.mesh = st.mesh ∧ CacheInv T (createNb st d c old).1 ∧
    NbFresh st.mesh d c (createNb st d c old).2 := by
  unfold createNb
  simp only
  -- generalized over the connectors already visited
  have main : ∀ (ss : List Nat) (done : List Nat) (st' : MState P) (acc : Int → List Nat),
      st'.mesh = st.mesh → CacheInv T st' → (∀ s ∈ ss, s < st.mesh.count c) →
      NbRel st.mesh d (· < st.mesh.count d) acc (fun a b => a < st.mesh.count d ∧ b < st.mesh.count d ∧ a ≠ b ∧
        ∃ s ∈ done, s ∈ st.mesh.bndOf d a c ∧ s ∈ st.mesh.bndOf d b c) →
      let r := ss.foldl (fun acc s =>
        let q := acc.1.coboundary c d s
        (q.1, (nbPairs q.2).foldl (nbStep st.mesh d) acc.2)) (st', acc)
      r.1.mesh = st.mesh ∧ CacheInv T r.1 ∧
      NbRel st.mesh d (· < st.mesh.count d) r.2 (fun a b => a < st.mesh.count d ∧ b < st.mesh.count d ∧ a ≠ b ∧
        ∃ s ∈ done ++ ss, s ∈ st.mesh.bndOf d a c ∧ s ∈ st.mesh.bndOf d b c) := by
    intro ss
    induction ss with
    | nil =>
      intro done st' acc h1 h2 _ h3
      simpa using ⟨h1, h2, h3⟩
    | cons s ss ih =>
      intro done st' acc h1 h2 hval h3
      rw [List.foldl_cons]
      have hI' : Inv T st'.mesh := h1 ▸ hI
      have hu' : UniqueVids st'.mesh := h1 ▸ hu
      have href := refreshCob_spec hT hI' hu' h2 c d
      have hlist : (st'.coboundary c d s).2 =
          (List.range (st.mesh.count d)).filter (fun t => s ∈ st.mesh.bndOf d t c) := by
        unfold MState.coboundary
        simp only
        rw [refreshCob_mesh, href.2 s (by rw [h1]; exact hval s (by simp)), h1]
      have hnodup : ((List.range (st.mesh.count d)).filter (fun t => s ∈ st.mesh.bndOf d t c)).Nodup :=
        List.Nodup.filter _ List.nodup_range
      have := ih (done ++ [s]) (st'.coboundary c d s).1
        ((nbPairs (st'.coboundary c d s).2).foldl (nbStep st.mesh d) acc)
        (by unfold MState.coboundary; simp only; rw [refreshCob_mesh, h1])
        (by unfold MState.coboundary; exact href.1)
        (fun t ht => hval t (by simp [ht])) ?_
      · simpa [List.append_assoc] using this
      · rw [hlist]
        have hf := nbPairsFold_rel hI hu (fun _ h => h) (nbPairs ((List.range (st.mesh.count d)).filter
          (fun t => s ∈ st.mesh.bndOf d t c))) acc _ ?_ ?_ h3 ?_
        · intro x hx
          refine ⟨(hf x hx).1, fun y => ?_⟩
          rw [(hf x hx).2 y]
          beta_reduce
          rw [nbPairs_both hnodup x y]
          simp only [List.mem_filter, List.mem_range, decide_eq_true_eq, List.mem_append,
            List.mem_singleton]
          constructor
          · rintro (⟨h1, h2, h3, s', h4, h5⟩ | ⟨⟨h1, h2⟩, ⟨h3, h4⟩, h5⟩)
            · exact ⟨h1, h2, h3, s', Or.inl h4, h5⟩
            · exact ⟨h1, h3, h5, s, Or.inr rfl, h2, h4⟩
          · rintro ⟨h1, h2, h3, s', h4 | rfl, h5⟩
            · exact Or.inl ⟨h1, h2, h3, s', h4, h5⟩
            · exact Or.inr ⟨⟨h1, h5.1⟩, ⟨h2, h5.2⟩, h3⟩
        · rintro a b ⟨h1, h2, h3, s', h4, h5, h6⟩
          exact ⟨h2, h1, h3.symm, s', h4, h6, h5⟩
        · rintro a b ⟨h1, h2, _⟩; exact ⟨h1, h2⟩
        · intro a b hab
          obtain ⟨h4, h5, h6⟩ := (nbPairs_both hnodup a b).1 (Or.inl hab)
          simp only [List.mem_filter, List.mem_range] at h4 h5
          exact ⟨h4.1, h5.1, h6⟩
  have := main (List.range (st.mesh.count c)) [] st
    (fun x => if x ∈ st.mesh.idsOf d then [] else old x) rfl hc (fun s hs => by simpa using hs) ?_
  · obtain ⟨h1, h2, h3⟩ := this
    refine ⟨h1, h2, ?_⟩
    intro a ha
    refine ⟨(h3 a ha).1, fun b => ?_⟩
    rw [(h3 a ha).2 b]
    simp only [List.nil_append, List.mem_range]
    constructor
    · rintro ⟨h1, h2, h3, s, _, h5⟩; exact ⟨h1, h2, h3, s, h5⟩
    · rintro ⟨h1, h2, h3, s, h5⟩; exact ⟨h1, h2, h3, s, bndOf_valid hI h5.1, h5⟩
  · intro a ha
    have : st.mesh.eid d a ∈ st.mesh.idsOf d := List.mem_map.2 ⟨a, by simpa using ha, rfl⟩
    simp [this]

theorem createNb_nb (st : MState P) (d c : Nat) (old : Int → List Nat) :
    (createNb st d c old).1.nb = st.nb := by
  unfold createNb
  simp only
  generalize (fun x => if x ∈ st.mesh.idsOf d then ([] : List Nat) else old x) = acc
  generalize List.range (st.mesh.count c) = ss
  have : ∀ (ss : List Nat) (st' : MState P) (acc : Int → List Nat),
      (ss.foldl (fun acc s =>
        let q := acc.1.coboundary c d s
        (q.1, (nbPairs q.2).foldl (nbStep st.mesh d) acc.2)) (st', acc)).1.nb = st'.nb := by
    intro ss
    induction ss with
    | nil => intro st' acc; rfl
    | cons s ss ih =>
      intro st' acc
      rw [List.foldl_cons, ih]
      unfold MState.coboundary MState.refreshCob
      simp only
      split <;> rfl
  exact this ss st acc

theorem refreshNb_spec {T : Topo} (hT : T.WF) {st : MState P} (hI : Inv T st.mesh)
    (hu : UniqueVids st.mesh) (hc : CacheInv T st) (d c : Nat) :
    (st.refreshNb d c).mesh = st.mesh ∧ CacheInv T (st.refreshNb d c) ∧
    NbFresh st.mesh d c ((st.refreshNb d c).nb d c).data := by
  unfold MState.refreshNb
  split
  · obtain ⟨h1, h2, h3⟩ := createNb_spec hT hI hu hc d c (st.nb d c).data
    refine ⟨h1, ⟨h2.cobLe, ?_, h2.bdLe, h2.cob, ?_, h2.bd⟩, ?_⟩
    · intro d' c'
      simp only
      split
      · rw [h1]
      · exact h2.nbLe d' c'
    · intro d' c'
      simp only
      split
      · rename_i h'
        obtain ⟨rfl, rfl⟩ := h'
        intro _
        rw [h1]
        exact h3
      · exact h2.nb d' c'
    · simp only [and_self, if_true]
      exact h3
  · rename_i h
    rw [ne_eq, not_not] at h
    exact ⟨rfl, hc, hc.nb d c h⟩

theorem detectBoundary_inv {T : Topo} (hT : T.WF) {st : MState P} (hI : Inv T st.mesh)
    (hu : UniqueVids st.mesh) (hc : CacheInv T st) : CacheInv T (st.detectBoundary T) := by
  refine ⟨hc.cobLe, hc.nbLe, ?_, hc.cob, hc.nb, ?_⟩
  · intro k
    unfold MState.detectBoundary
    simp only
    split
    · exact le_refl _
    · split
      · exact le_refl _
      · exact hc.bdLe k
  · intro k hk _
    exact (detectBoundary_fresh hT hI hu hk).2

theorem isBoundary_spec {T : Topo} (hT : T.WF) {st : MState P} (hI : Inv T st.mesh)
    (hu : UniqueVids st.mesh) (hc : CacheInv T st) (k s : Nat) :
    (st.isBoundary T k s).1.mesh = st.mesh ∧ CacheInv T (st.isBoundary T k s).1 ∧
    (k ≤ T.cellDim - 1 → BdFresh T st.mesh k (((st.isBoundary T k s).1.bd k).data)) := by
  unfold MState.isBoundary
  simp only
  split
  · refine ⟨rfl, detectBoundary_inv hT hI hu hc, fun hk => (detectBoundary_fresh hT hI hu hk).2⟩
  · rename_i h
    rw [ne_eq, not_not] at h
    exact ⟨rfl, hc, fun hk => hc.bd k hk h⟩

theorem CacheInv.empty (T : Topo) : CacheInv T (MState.empty : MState P) := by
  have hcount : ∀ k, (Mesh.empty : Mesh P).count k = 0 := by
    intro k; unfold Mesh.count; split <;> rfl
  constructor
  · intro k d; exact le_refl _
  · intro k d; exact le_refl _
  · intro k; exact le_refl _
  · intro k d _ s hs
    have := hcount k
    simp only [MState.empty] at hs; omega
  · intro k d _ s hs
    have := hcount k
    simp only [MState.empty] at hs; omega
  · intro k _ _ s hs
    have := hcount k
    simp only [MState.empty] at hs; omega

theorem CacheInv.newMesh {T : Topo} {st : MState P} (hc : CacheInv T st) {m : Mesh P}
    (h : st.mesh.counter < m.counter) : CacheInv T { st with mesh := m } := by
  constructor
  · intro k d; have := hc.cobLe k d; simp only; omega
  · intro k d; have := hc.nbLe k d; simp only; omega
  · intro k; have := hc.bdLe k; simp only; omega
  · intro k d heq; have := hc.cobLe k d; simp only at heq; omega
  · intro k d heq; have := hc.nbLe k d; simp only at heq; omega
  · intro k _ heq; have := hc.bdLe k; simp only at heq; omega

/-- A state reached by creations and queries. -/
structure StateInv (T : Topo) (st : MState P) : Prop where
  inv : Inv T st.mesh
  dims : DimsOK T st.mesh
  cache : CacheInv T st

theorem qstep_mesh {T : Topo} {st st' : MState P} {op : QOp P} (h : st.step T op = some st') :
    st.mesh.verts <+: st'.mesh.verts := by
  cases op with
  | copy => simp only [MState.step, Option.some.injEq] at h; subst h; exact List.prefix_refl _
  | eraseCell t =>
    simp only [MState.step] at h
    obtain ⟨m, h1, rfl⟩ := Option.map_eq_some_iff.1 h
    rw [(eraseCell_some h1).2.1]
    exact List.prefix_refl _
  | mesh op =>
    simp only [MState.step] at h
    obtain ⟨m, h1, rfl⟩ := Option.map_eq_some_iff.1 h
    exact step_verts h1
  | coboundary k d s =>
    simp only [MState.step, Option.some.injEq] at h
    subst h
    unfold MState.coboundary
    simp only
    rw [refreshCob_mesh]
    exact List.prefix_refl _
  | neighbors d c t =>
    simp only [MState.step, Option.some.injEq] at h
    subst h
    have : ∀ (ss : List Nat) (st' : MState P) (acc : Int → List Nat),
      (ss.foldl (fun acc s =>
        let q := acc.1.coboundary c d s
        (q.1, (nbPairs q.2).foldl (nbStep st.mesh d) acc.2)) (st', acc)).1.mesh = st'.mesh := by
      intro ss
      induction ss with
      | nil => intro st' acc; rfl
      | cons s ss ih =>
        intro st' acc
        rw [List.foldl_cons, ih]
        unfold MState.coboundary
        simp only
        rw [refreshCob_mesh]
    unfold MState.neighbors MState.refreshNb
    simp only
    split
    · unfold createNb
      simp only
      rw [this]
      exact List.prefix_refl _
    · exact List.prefix_refl _
  | isBoundary k s =>
    simp only [MState.step, Option.some.injEq] at h
    subst h
    unfold MState.isBoundary
    simp only
    split <;> exact List.prefix_refl _

theorem qrun_verts {T : Topo} : ∀ {ops : List (QOp P)} {st st' : MState P}, st.run T ops = some st' →
    st.mesh.verts <+: st'.mesh.verts
  | [], st, st', h => by simp [MState.run] at h; subst h; exact List.prefix_refl _
  | op :: ops, st, st', h => by
    simp only [MState.run] at h
    obtain ⟨s1, h1, h2⟩ := Option.bind_eq_some_iff.1 h
    exact (qstep_mesh h1).trans (qrun_verts h2)

theorem qrun_inv {T : Topo} (hT : T.WF) : ∀ {ops : List (QOp P)} {st st' : MState P},
    StateInv T st → (∀ op ∈ QOp.meshOps ops, op.Distinct) → st.run T ops = some st' →
    UniqueVids st'.mesh → StateInv T st'
  | [], st, st', hI, _, h, _ => by simp [MState.run] at h; subst h; exact hI
  | op :: ops, st, st', hI, hd, h, hu => by
    simp only [MState.run] at h
    obtain ⟨s1, h1, h2⟩ := Option.bind_eq_some_iff.1 h
    have hu1 : UniqueVids s1.mesh := hu.of_prefix (qrun_verts h2)
    have hu0 : UniqueVids st.mesh := hu1.of_prefix (qstep_mesh h1)
    cases op with
    | copy =>
      refine qrun_inv hT ?_ (fun o ho => hd o (by simpa [QOp.meshOps] using ho)) h2 hu
      simp only [MState.step, Option.some.injEq] at h1
      subst h1
      exact ⟨⟨hI.inv.unique, hI.inv.verts, hI.inv.bnd, hI.inv.ids, hI.inv.next⟩,
        hI.dims, hI.cache.newMesh (by simp)⟩
    | eraseCell t =>
      refine qrun_inv hT ?_ (fun o ho => hd o (by simpa [QOp.meshOps] using ho)) h2 hu
      simp only [MState.step] at h1
      obtain ⟨m, h3, rfl⟩ := Option.map_eq_some_iff.1 h1
      exact ⟨eraseCell_inv hT h3 hI.dims hI.inv, eraseCell_dims h3 hI.dims,
        hI.cache.newMesh (by rw [(eraseCell_some h3).2.2.1]; exact Nat.lt_succ_self _)⟩
    | mesh op =>
      refine qrun_inv hT ?_ (fun o ho => hd o (by simp [QOp.meshOps, ho])) h2 hu
      simp only [MState.step] at h1
      obtain ⟨m, h3, rfl⟩ := Option.map_eq_some_iff.1 h1
      exact ⟨step_inv hT hI.inv hu0 (hd op (by simp [QOp.meshOps])) h3,
        step_dims hT hI.dims h3, hI.cache.newMesh (step_counter h3)⟩
    | coboundary k d s =>
      refine qrun_inv hT ?_ (fun o ho => hd o (by simpa [QOp.meshOps] using ho)) h2 hu
      simp only [MState.step, Option.some.injEq] at h1
      subst h1
      have := refreshCob_spec hT hI.inv hu0 hI.cache k d
      exact ⟨by unfold MState.coboundary; simp only; rw [refreshCob_mesh]; exact hI.inv,
        by unfold MState.coboundary; simp only; rw [refreshCob_mesh]; exact hI.dims, this.1⟩
    | neighbors d c t =>
      refine qrun_inv hT ?_ (fun o ho => hd o (by simpa [QOp.meshOps] using ho)) h2 hu
      simp only [MState.step, Option.some.injEq] at h1
      subst h1
      have := refreshNb_spec hT hI.inv hu0 hI.cache d c
      exact ⟨by unfold MState.neighbors; simp only; rw [this.1]; exact hI.inv,
        by unfold MState.neighbors; simp only; rw [this.1]; exact hI.dims, this.2.1⟩
    | isBoundary k s =>
      refine qrun_inv hT ?_ (fun o ho => hd o (by simpa [QOp.meshOps] using ho)) h2 hu
      simp only [MState.step, Option.some.injEq] at h1
      subst h1
      have := isBoundary_spec hT hI.inv hu0 hI.cache k s
      exact ⟨by rw [this.1]; exact hI.inv, by rw [this.1]; exact hI.dims, this.2.1⟩

/-- States reached from the empty mesh by any interleaving of creations (with distinct vertices per
element) and queries, in which vertex ids are unique. -/
def Reached (T : Topo) (st : MState P) : Prop :=
  ∃ ops : List (QOp P), (∀ op ∈ QOp.meshOps ops, op.Distinct) ∧ MState.empty.run T ops = some st ∧
    UniqueVids st.mesh

theorem Reached.inv {T : Topo} (hT : T.WF) {st : MState P} (h : Reached T st) : StateInv T st := by
  obtain ⟨ops, h1, h2, h3⟩ := h
  exact qrun_inv hT ⟨Inv.empty T, fun _ _ => rfl, CacheInv.empty T⟩ h1 h2 h3

end VG
