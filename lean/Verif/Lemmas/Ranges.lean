import Verif.Model.Ranges
import Verif.Lemmas.Segments
import Verif.Props.ElementKey
import Mathlib.Data.List.Perm.Basic

/-! Lemmas for ranges. -/

namespace VG

variable {P : Type}

theorem keyInsert_perm (key : Nat → List Int) (s : Nat) : ∀ l : List Nat, (keyInsert key s l).Perm (s :: l)
  | [] => List.Perm.refl _
  | t :: l => by
    unfold keyInsert
    split
    · exact List.Perm.refl _
    · exact ((keyInsert_perm key s l).cons t).trans (List.Perm.swap s t l)

theorem keyInsert_sublist (key : Nat → List Int) (s : Nat) : ∀ l : List Nat, l.Sublist (keyInsert key s l)
  | [] => List.nil_sublist _
  | t :: l => by
    unfold keyInsert
    split
    · exact List.sublist_cons_self _ _
    · exact (keyInsert_sublist key s l).cons_cons t

theorem keyInsert_sorted (key : Nat → List Int) (s : Nat) : ∀ l : List Nat,
    l.Pairwise (fun a b => keyLt (key a) (key b) = true) → (∀ t ∈ l, key t ≠ key s) →
    (keyInsert key s l).Pairwise (fun a b => keyLt (key a) (key b) = true)
  | [], _, _ => by simp [keyInsert]
  | t :: l, h, hn => by
    unfold keyInsert
    rw [List.pairwise_cons] at h
    split
    · rename_i hlt
      rw [List.pairwise_cons, List.pairwise_cons]
      refine ⟨?_, h⟩
      intro x hx
      rcases List.mem_cons.1 hx with rfl | hx
      · exact hlt
      · exact C03_keyLt_trans _ _ _ hlt (h.1 x hx)
    · rename_i hlt
      rw [List.pairwise_cons]
      refine ⟨?_, keyInsert_sorted key s l h.2 (fun x hx => hn x (List.mem_cons_of_mem _ hx))⟩
      intro x hx
      rcases List.mem_cons.1 ((keyInsert_perm key s l).mem_iff.1 hx) with rfl | hx
      · rcases C03_keyLt_total _ _ (hn t (by simp)) with h1 | h1
        · exact h1
        · exact absurd h1 hlt
      · exact h.1 x hx

theorem keyInsert_congr {key key' : Nat → List Int} {s : Nat} (hs : key s = key' s) : ∀ {l : List Nat},
    (∀ t ∈ l, key t = key' t) → keyInsert key s l = keyInsert key' s l
  | [], _ => rfl
  | t :: l, h => by
    unfold keyInsert
    rw [hs, h t (by simp), keyInsert_congr hs (fun x hx => h x (List.mem_cons_of_mem _ hx))]

/-- The nodes of a map after some insertions. -/
def keyFold (key : Nat → List Int) (n : Nat) : List Nat := (List.range n).foldl (fun l s => keyInsert key s l) []

theorem keyFold_succ (key : Nat → List Int) (n : Nat) : keyFold key (n + 1) = keyInsert key n (keyFold key n) := by
  unfold keyFold
  rw [List.range_succ, List.foldl_append]
  rfl

theorem keyFold_perm (key : Nat → List Int) : ∀ n, (keyFold key n).Perm (List.range n)
  | 0 => List.Perm.refl _
  | n + 1 => by
    rw [keyFold_succ, List.range_succ]
    exact (keyInsert_perm _ _ _).trans (((keyFold_perm key n).cons n).trans (List.perm_append_singleton _ _).symm)

theorem keyFold_congr {key key' : Nat → List Int} : ∀ {n : Nat}, (∀ s < n, key s = key' s) → keyFold key n = keyFold key' n
  | 0, _ => rfl
  | n + 1, h => by
    rw [keyFold_succ, keyFold_succ, ← keyFold_congr (n := n) (fun s hs => h s (by omega))]
    refine keyInsert_congr (h n (by omega)) (fun t ht => ?_)
    have := List.mem_range.1 ((keyFold_perm key n).mem_iff.1 ht)
    exact h t (by omega)

theorem keyFold_sublist (key : Nat → List Int) {n n' : Nat} (h : n ≤ n') : (keyFold key n).Sublist (keyFold key n') := by
  induction h with
  | refl => exact List.Sublist.refl _
  | step _ ih => rw [keyFold_succ]; exact ih.trans (keyInsert_sublist _ _ _)

theorem keyFold_sorted (key : Nat → List Int) : ∀ n, (∀ i < n, ∀ j < n, key i = key j → i = j) →
    (keyFold key n).Pairwise (fun a b => keyLt (key a) (key b) = true)
  | 0, _ => List.Pairwise.nil
  | n + 1, h => by
    rw [keyFold_succ]
    refine keyInsert_sorted _ _ _ (keyFold_sorted key n (fun i hi j hj => h i (by omega) j (by omega))) ?_
    intro t ht he
    have := List.mem_range.1 ((keyFold_perm key n).mem_iff.1 ht)
    have := h t (by omega) n (by omega) he
    omega

theorem viewLoop_eq (f : Nat → Bool) : ∀ (l acc : List Nat), viewLoop f l acc = acc ++ l.filter f
  | [], acc => by simp [viewLoop]
  | s :: l, acc => by
    unfold viewLoop
    rw [viewLoop_eq f l]
    cases hf : f s <;> simp [hf]

theorem range_key (T : Topo) (m : Mesh P) {d : Nat} (h0 : d ≠ 0) (hc : d ≠ T.cellDim) :
    m.range T d = keyFold (fun t => m.key (m.vertsOf d t)) (m.count d) := by
  unfold Mesh.range keyFold
  rw [if_neg (by simp [h0, hc])]

theorem run_grown {T : Topo} (hT : T.WF) : ∀ {ops : List (MOp P)} {m m' : Mesh P}, Inv T m →
    (∀ op ∈ ops, op.Distinct) → m.run T ops = some m' → UniqueVids m' → Grown m m'
  | [], m, m', _, _, h, _ => by
    simp [Mesh.run] at h
    subst h
    exact ⟨List.prefix_refl _, fun _ => List.prefix_refl _, List.prefix_refl _⟩
  | op :: ops, m, m', hI, hd, h, hu => by
    simp only [Mesh.run] at h
    obtain ⟨m1, h1, h2⟩ := Option.bind_eq_some_iff.1 h
    have hu1 : UniqueVids m1 := hu.of_prefix (run_verts h2)
    have hu0 := hu1.of_prefix (step_verts h1)
    have hd0 := hd op (by simp)
    have g1 := step_grown hT hI hu0 hd0 h1
    have g2 := run_grown hT (step_inv hT hI hu0 hd0 h1) (fun o ho => hd o (by simp [ho])) h2 hu
    exact ⟨g1.verts.trans g2.verts, fun d => (g1.elems d).trans (g2.elems d), g1.log.trans g2.log⟩

theorem Grown.vertsOf {m m' : Mesh P} (h : Grown m m') {d s : Nat} {e : Elem} (he : (m.elems d)[s]? = some e) :
    m'.vertsOf d s = e.verts ∧ m.vertsOf d s = e.verts := by
  have he' := prefix_getElem? (h.elems d) he
  unfold Mesh.vertsOf
  simp [List.getD_eq_getElem?_getD, he, he']

theorem Grown.key {m m' : Mesh P} (h : Grown m m') {vs : List Nat} (hv : ∀ v ∈ vs, v < m.verts.length) :
    m'.key vs = m.key vs := by
  unfold Mesh.key
  congr 1
  refine List.map_congr_left (fun v hx => ?_)
  have := h.eid (k := 0) (s := v) (by simpa [Mesh.count] using hv v hx)
  simpa [Mesh.eid] using this

theorem Grown.range {T : Topo} {m m' : Mesh P} (hI : Inv T m) (h : Grown m m') {d : Nat} (h0 : d ≠ 0)
    (hc : d ≠ T.cellDim) : (m.range T d).Sublist (m'.range T d) := by
  rw [range_key T m h0 hc, range_key T m' h0 hc]
  refine List.Sublist.trans ?_ (keyFold_sublist _ (h.count d))
  rw [keyFold_congr (key := fun t => m.key (m.vertsOf d t)) (key' := fun t => m'.key (m'.vertsOf d t))]
  intro s hs
  obtain ⟨e, he⟩ : ∃ e, (m.elems d)[s]? = some e := by
    refine ⟨_, List.getElem?_eq_getElem ?_⟩
    simpa [Mesh.count, h0] using hs
  obtain ⟨h1, h2⟩ := h.vertsOf he
  simp only [h1, h2]
  exact (h.key (hI.verts d e (List.mem_of_getElem? he)).2.2).symm

/-- Two sorted lists of ids: at the first place where they differ the first one is smaller. -/
def Precedes (a b : List Int) : Prop :=
  ∃ i x y, a.take i = b.take i ∧ a[i]? = some x ∧ b[i]? = some y ∧ x < y

theorem precedes_of_loop : ∀ (a b : List Int), keyLoopLt a b = true → Precedes a b
  | [], b, h => by simp [keyLoopLt] at h
  | a :: as, [], h => by simp [keyLoopLt] at h
  | a :: as, b :: bs, h => by
    unfold keyLoopLt at h
    split at h
    · cases h
    · split at h
      · rename_i h1
        exact ⟨0, a, b, rfl, rfl, rfl, h1⟩
      · obtain rfl : a = b := by omega
        obtain ⟨i, x, y, h1, h2, h3, h4⟩ := precedes_of_loop as bs h
        exact ⟨i + 1, x, y, by simp [h1], by simpa using h2, by simpa using h3, h4⟩

end VG
