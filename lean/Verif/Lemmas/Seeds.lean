import Verif.Model.Seeds
import Mathlib.Data.List.Basic
import Mathlib.Logic.Relation

/-!
The search of `extract_seed_points`.
-/

namespace VG

/-- No element of `u` has a neighbor outside `u`. -/
def ClosedUnder (nb : Nat → List Nat) (u : List Nat) : Prop := ∀ c ∈ u, ∀ n ∈ nb c, n ∈ u

theorem ClosedUnder.reach {nb : Nat → List Nat} {u : List Nat} (h : ClosedUnder nb u) {c d : Nat} (hc : c ∈ u)
    (hr : Relation.ReflTransGen (fun a b => b ∈ nb a) c d) : d ∈ u := by
  induction hr with
  | refl => exact hc
  | tail _ hbc ih => exact h _ ih _ hbc

/-- What a pass does: elements with the property `Q` are removed, where `Q` holds for everything removed
before and propagates to neighbors. -/
theorem markPass_spec (nb : Nat → List Nat) (Q : Nat → Prop) (U0 : List Nat)
    (hQ : ∀ c ∈ U0, ∀ n ∈ nb c, n ∈ U0 ∧ (Q n → Q c)) :
    ∀ (todo u : List Nat), todo ⊆ U0 → u ⊆ U0 → (∀ c ∈ U0, c ∉ u → Q c) →
    let r := markPass nb todo u
    r.1 ⊆ u ∧ (∀ c ∈ U0, c ∉ r.1 → Q c) ∧
    (r.2 = false → r.1 = u ∧ ∀ c ∈ todo, ∀ n ∈ nb c, n ∈ u) ∧
    (r.2 = true → (∀ c ∈ todo, c ∈ u) → todo.Nodup → r.1.length < u.length)
  | [], u, _, _, h => ⟨List.Subset.refl _, h, fun _ => ⟨rfl, by simp⟩, by simp [markPass]⟩
  | c :: todo, u, ht, hu, h => by
    have hcU : c ∈ U0 := ht (by simp)
    simp only [markPass]
    by_cases hc : (nb c).any (fun n => !(u.contains n)) = true
    · rw [if_pos hc]
      obtain ⟨n, hn, hnu⟩ := List.any_eq_true.1 hc
      have hnu' : n ∉ u := by simpa using hnu
      have hQc : Q c := (hQ c hcU n hn).2 (h n (hQ c hcU n hn).1 hnu')
      have hu' : u.filter (· ≠ c) ⊆ u := fun x hx => (List.mem_filter.1 hx).1
      obtain ⟨h1, h2, h3, h4⟩ := markPass_spec nb Q U0 hQ todo (u.filter (· ≠ c))
        (fun x hx => ht (by simp [hx])) (List.Subset.trans hu' hu) (fun d hd hdu => by
          by_cases hdc : d = c
          · subst hdc; exact hQc
          · refine h d hd (fun hd' => hdu ?_)
            rw [List.mem_filter]; exact ⟨hd', by simpa using hdc⟩)
      refine ⟨List.Subset.trans h1 hu', h2, by simp, fun _ hall hnd => ?_⟩
      have hlt : (u.filter (· ≠ c)).length < u.length :=
        List.length_filter_lt_length_iff_exists.2 ⟨c, hall c (by simp), by simp⟩
      refine lt_of_le_of_lt ?_ hlt
      cases hb : (markPass nb todo (u.filter (· ≠ c))).2 with
      | false => rw [(h3 hb).1]
      | true =>
        refine le_of_lt (h4 hb (fun x hx => ?_) (List.nodup_cons.1 hnd).2)
        rw [List.mem_filter]
        refine ⟨hall x (by simp [hx]), ?_⟩
        have : x ≠ c := by rintro rfl; exact (List.nodup_cons.1 hnd).1 hx
        simpa using this
    · rw [if_neg hc]
      obtain ⟨h1, h2, h3, h4⟩ := markPass_spec nb Q U0 hQ todo u (fun x hx => ht (by simp [hx])) hu h
      refine ⟨h1, h2, fun hb => ⟨(h3 hb).1, ?_⟩, fun hb hall hnd =>
        h4 hb (fun x hx => hall x (by simp [hx])) (List.nodup_cons.1 hnd).2⟩
      intro x hx n hn
      rcases List.mem_cons.1 hx with rfl | hx
      · by_contra hnu
        refine hc (List.any_eq_true.2 ⟨n, hn, by simpa using hnu⟩)
      · exact (h3 hb).2 x hx n hn

theorem markPass_nodup (nb : Nat → List Nat) : ∀ (todo u : List Nat), u.Nodup → (markPass nb todo u).1.Nodup
  | [], _, h => h
  | c :: todo, u, h => by
    simp only [markPass]
    split
    · exact markPass_nodup nb todo _ (h.filter _)
    · exact markPass_nodup nb todo u h

/-- Marking ends with a closed set; only elements with the property were removed. -/
theorem markLoop_spec (nb : Nat → List Nat) (Q : Nat → Prop) (U0 : List Nat)
    (hQ : ∀ c ∈ U0, ∀ n ∈ nb c, n ∈ U0 ∧ (Q n → Q c)) :
    ∀ (fuel : Nat) (u : List Nat), u.length < fuel → u.Nodup → u ⊆ U0 → (∀ c ∈ U0, c ∉ u → Q c) →
    let r := markLoop nb fuel u
    r ⊆ u ∧ r.Nodup ∧ (∀ c ∈ U0, c ∉ r → Q c) ∧ ClosedUnder nb r
  | 0, u, hf, _, _, _ => by omega
  | fuel + 1, u, hf, hnd, hu, h => by
    obtain ⟨h1, h2, h3, h4⟩ := markPass_spec nb Q U0 hQ u u hu hu h
    simp only [markLoop]
    by_cases hb : (markPass nb u u).2 = true
    · rw [if_pos hb]
      have hlt := h4 hb (fun c hc => hc) hnd
      obtain ⟨i1, i2, i3, i4⟩ := markLoop_spec nb Q U0 hQ fuel (markPass nb u u).1 (by omega)
        (markPass_nodup nb u u hnd) (List.Subset.trans h1 hu) h2
      exact ⟨List.Subset.trans i1 h1, i2, i3, i4⟩
    · rw [if_neg hb]
      rw [Bool.not_eq_true] at hb
      obtain ⟨h5, h6⟩ := h3 hb
      rw [h5]
      exact ⟨List.Subset.refl _, hnd, h, h6⟩

abbrev Conn (nb : Nat → List Nat) (a b : Nat) : Prop := Relation.ReflTransGen (fun a b => b ∈ nb a) a b

theorem Conn.symm' {nb : Nat → List Nat} {cells : List Nat} (hin : ∀ c ∈ cells, ∀ n ∈ nb c, n ∈ cells)
    (hsym : ∀ a ∈ cells, ∀ b ∈ nb a, a ∈ nb b) {a b : Nat} (ha : a ∈ cells) (h : Conn nb a b) : Conn nb b a := by
  have : b ∈ cells ∧ Conn nb b a := by
    induction h with
    | refl => exact ⟨ha, Relation.ReflTransGen.refl⟩
    | tail _ hbc ih =>
      exact ⟨hin _ ih.1 _ hbc, Relation.ReflTransGen.head (hsym _ ih.1 _ hbc) ih.2⟩
  exact this.2

theorem seedPass_spec {nb : Nat → List Nat} {cells : List Nat} (hin : ∀ c ∈ cells, ∀ n ∈ nb c, n ∈ cells)
    (hsym : ∀ a ∈ cells, ∀ b ∈ nb a, a ∈ nb b) :
    ∀ (cs u : List Nat), cs ⊆ cells → u ⊆ cells → u.Nodup → ClosedUnder nb u →
    let r := seedPass nb cs u
    r.1 ⊆ u ∧ r.1.Nodup ∧ ClosedUnder nb r.1 ∧ (∀ c ∈ cs, c ∉ r.1) ∧
    (∀ s ∈ r.2, s ∈ u ∧ s ∉ r.1) ∧ (∀ c ∈ u, c ∉ r.1 → ∃ s ∈ r.2, Conn nb s c) ∧
    r.2.Pairwise (fun a b => ¬ Conn nb a b)
  | [], u, _, _, hnd, hcl => ⟨List.Subset.refl _, hnd, hcl, by simp, by simp [seedPass],
      fun c hc hc' => absurd hc hc', by simp [seedPass]⟩
  | c :: cs, u, hcs, hu, hnd, hcl => by
    simp only [seedPass]
    by_cases hcu : u.contains c = true
    · rw [if_pos hcu]
      have hcu' : c ∈ u := by simpa using hcu
      have hc : c ∈ cells := hu hcu'
      obtain ⟨m1, m2, m3, m4⟩ := markLoop_spec nb (fun d => Conn nb c d) u
        (fun d hd n hn => ⟨hcl d hd n hn, fun hq =>
          hq.trans (Relation.ReflTransGen.single (hsym d (hu hd) n hn))⟩)
        (u.length + 1) (u.filter (· ≠ c)) (Nat.lt_succ_of_le (List.length_filter_le _ _)) (hnd.filter _)
        (fun x hx => (List.mem_filter.1 hx).1) (fun d hd hdn => by
          have : d = c := by
            by_contra hne
            exact hdn (List.mem_filter.2 ⟨hd, by simpa using hne⟩)
          subst this; exact Relation.ReflTransGen.refl)
      generalize markLoop nb (u.length + 1) (u.filter (· ≠ c)) = u' at m1 m2 m3 m4 ⊢
      have hu'u : u' ⊆ u := List.Subset.trans m1 (fun x hx => (List.mem_filter.1 hx).1)
      have hcu2 : c ∉ u' := by
        intro h
        have := (List.mem_filter.1 (m1 h)).2
        simp at this
      obtain ⟨i1, i2, i3, i4, i5, i6, i7⟩ := seedPass_spec hin hsym cs u' (fun x hx => hcs (by simp [hx]))
        (List.Subset.trans hu'u hu) m2 m4
      refine ⟨List.Subset.trans i1 hu'u, i2, i3, ?_, ?_, ?_, ?_⟩
      · intro d hd
        rcases List.mem_cons.1 hd with rfl | hd
        · exact fun h => hcu2 (i1 h)
        · exact i4 d hd
      · intro s hs
        rcases List.mem_cons.1 hs with rfl | hs
        · exact ⟨hcu', fun h => hcu2 (i1 h)⟩
        · exact ⟨hu'u (i5 s hs).1, (i5 s hs).2⟩
      · intro d hd hdr
        by_cases hdu : d ∈ u'
        · obtain ⟨s, hs, hsd⟩ := i6 d hdu hdr
          exact ⟨s, by simp [hs], hsd⟩
        · exact ⟨c, by simp, m3 d hd hdu⟩
      · rw [List.pairwise_cons]
        refine ⟨fun s hs hcon => ?_, i7⟩
        have hs' := (i5 s hs).1
        exact hcu2 (m4.reach hs' (Conn.symm' hin hsym hc hcon))
    · rw [if_neg hcu]
      have hcu' : c ∉ u := by simpa using hcu
      obtain ⟨i1, i2, i3, i4, i5, i6, i7⟩ := seedPass_spec hin hsym cs u (fun x hx => hcs (by simp [hx])) hu hnd hcl
      refine ⟨i1, i2, i3, ?_, i5, i6, i7⟩
      intro d hd
      rcases List.mem_cons.1 hd with rfl | hd
      · exact fun h => hcu' (i1 h)
      · exact i4 d hd

theorem seedCells_spec {nb : Nat → List Nat} {cells : List Nat} (hnd : cells.Nodup)
    (hin : ∀ c ∈ cells, ∀ n ∈ nb c, n ∈ cells) (hsym : ∀ a ∈ cells, ∀ b ∈ nb a, a ∈ nb b) :
    seedCells nb cells ⊆ cells ∧ (∀ c ∈ cells, ∃ s ∈ seedCells nb cells, Conn nb s c) ∧
    (seedCells nb cells).Pairwise (fun a b => ¬ Conn nb a b) := by
  obtain ⟨i1, i2, i3, i4, i5, i6, i7⟩ := seedPass_spec hin hsym cells cells (List.Subset.refl _) (List.Subset.refl _)
    hnd hin
  have hr : (seedPass nb cells cells).1 = [] := by
    refine List.eq_nil_iff_forall_not_mem.2 (fun c hc => i4 c (i1 hc) hc)
  have e : seedCells nb cells = (seedPass nb cells cells).2 := by
    unfold seedCells
    cases cells with
    | nil => rfl
    | cons a l =>
      simp only [List.length_cons, seedLoop]
      rw [hr]
      simp
  rw [e]
  refine ⟨fun s hs => (i5 s hs).1, fun c hc => i6 c hc (by rw [hr]; simp), i7⟩

end VG
