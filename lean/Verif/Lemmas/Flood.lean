import Verif.Model.Mphtxt
import Mathlib.Logic.Relation

/-!
The recursion of `mark_planar_neighbors` marks everything that can be reached.
-/

namespace VG

variable {nbs : Nat → Except Fail (List Nat)} {key : Nat → Int} {ok : Nat → Nat → Bool} {c : Int} {V : Nat → Prop} {N : Nat}

/-- One step: listed as a neighbor and passing the tests. -/
def Step (nbs : Nat → Except Fail (List Nat)) (ok : Nat → Nat → Bool) (t u : Nat) : Prop :=
  ∃ l, nbs t = .ok l ∧ u ∈ l ∧ ok t u = true

/-- Number of entries without an index. -/
def white (key : Nat → Int) (N : Nat) (mk : Int → Int) : Nat := (List.range N).countP (fun u => mk (key u) == -1)

theorem countP_lt_of {α : Type} {p q : α → Bool} : ∀ {l : List α}, (∀ x ∈ l, q x = true → p x = true) →
    (∃ x ∈ l, p x = true ∧ q x = false) → l.countP q < l.countP p
  | [], _, ⟨_, h, _⟩ => by simp at h
  | a :: l, hs, ⟨x, hx, hp, hq⟩ => by
    have hle : l.countP q ≤ l.countP p := List.countP_mono_left (fun y hy h => hs y (by simp [hy]) h)
    rw [List.countP_cons, List.countP_cons]
    rcases List.mem_cons.1 hx with rfl | hx
    · rw [hp, hq]; simp; omega
    · have := countP_lt_of (fun y hy => hs y (by simp [hy])) ⟨x, hx, hp, hq⟩
      have h1 := hs a (by simp)
      by_cases ha : q a = true
      · rw [ha, h1 ha]; omega
      · rw [if_neg ha]; omega

theorem white_mono {mk mk' : Int → Int} (h : ∀ x, mk x ≠ -1 → mk' x = mk x) : white key N mk' ≤ white key N mk := by
  refine List.countP_mono_left (fun u _ hu => ?_)
  by_contra hn
  simp only [beq_iff_eq] at hu hn
  rw [h _ hn] at hu
  exact hn hu

theorem white_upd {mk : Int → Int} {u : Nat} (hu : u < N) (hw : mk (key u) = -1) (hc : c ≠ -1) :
    white key N (upd mk (key u) c) < white key N mk := by
  refine countP_lt_of (fun x _ hx => ?_) ⟨u, List.mem_range.2 hu, by simp [hw], by simp [upd, hc]⟩
  simp only [beq_iff_eq, upd] at hx ⊢
  split at hx
  · exact absurd hx hc
  · exact hx

/-- Result of marking from the entries of `from`: entries with an index keep it, new ones have index `c`, are reached
from `t`, and everything one step from a new one has an index. -/
structure Marked (nbs : Nat → Except Fail (List Nat)) (key : Nat → Int) (ok : Nat → Nat → Bool) (c : Int) (V : Nat → Prop)
    (t : Nat) (mk mk' : Int → Int) : Prop where
  keep : ∀ x, mk x ≠ -1 → mk' x = mk x
  new : ∀ x, mk x = -1 → mk' x ≠ -1 → mk' x = c ∧ ∃ u, V u ∧ x = key u ∧ Relation.TransGen (Step nbs ok) t u
  closed : ∀ u, V u → mk (key u) = -1 → mk' (key u) ≠ -1 → ∀ w, Step nbs ok u w → mk' (key w) ≠ -1

theorem Marked.refl (t : Nat) (mk : Int → Int) : Marked nbs key ok c V t mk mk :=
  ⟨fun _ _ => rfl, fun _ h h' => absurd h h', fun _ _ h h' => absurd h h'⟩

theorem Marked.le {t : Nat} {mk mk' : Int → Int} (h : Marked nbs key ok c V t mk mk') {x : Int} (hx : mk x ≠ -1) : mk' x ≠ -1 := by
  rw [h.keep x hx]; exact hx

theorem Marked.trans {t : Nat} {mk mk1 mk2 : Int → Int} (h1 : Marked nbs key ok c V t mk mk1)
    (h2 : Marked nbs key ok c V t mk1 mk2) : Marked nbs key ok c V t mk mk2 := by
  refine ⟨fun x hx => ?_, fun x hx hx' => ?_, fun u hu hx hx' w hw => ?_⟩
  · rw [h2.keep x (h1.le hx), h1.keep x hx]
  · by_cases h : mk1 x = -1
    · exact h2.new x h hx'
    · have := h1.new x hx h
      rw [h2.keep x h]
      exact this
  · by_cases h : mk1 (key u) = -1
    · exact h2.closed u hu h hx' w hw
    · exact h2.le (h1.closed u hu hx h w hw)

/-- The recursion ends, and marks what can be reached. -/
theorem markFrom_spec (hc : c ≠ -1) (hkey : ∀ u w, V u → V w → key u = key w → u = w)
    (hlt : ∀ u, V u → u < N) (hnb : ∀ t, V t → ∃ l, nbs t = .ok l ∧ ∀ u ∈ l, V u) :
    ∀ (f : Nat) (mk : Int → Int) (t : Nat), V t → white key N mk < f →
      ∃ mk', markFrom nbs key ok c f mk t = .ok mk' ∧ Marked nbs key ok c V t mk mk' ∧
        ∀ w, Step nbs ok t w → mk' (key w) ≠ -1 := by
  intro f
  induction f with
  | zero => intro mk t _ h; exact absurd h (Nat.not_lt_zero _)
  | succ f ih =>
    intro mk t ht hw
    obtain ⟨l, hl, hlV⟩ := hnb t ht
    have key1 : ∀ (l' : List Nat) (mk1 : Int → Int), (∀ u ∈ l', u ∈ l) → white key N mk1 < f + 1 →
        ∃ mk', loopE (fun mk u => if mk (key u) ≠ -1 then .ok mk
            else if ok t u then markFrom nbs key ok c f (upd mk (key u) c) u else .ok mk) mk1 l' = .ok mk' ∧
          Marked nbs key ok c V t mk1 mk' ∧ ∀ u ∈ l', ok t u = true → mk' (key u) ≠ -1 := by
      intro l'
      induction l' with
      | nil => intro mk1 _ _; exact ⟨mk1, rfl, Marked.refl _ _, by simp⟩
      | cons u l' ih' =>
        intro mk1 hsub hw1
        have hsub' : ∀ w ∈ l', w ∈ l := fun w hw => hsub w (by simp [hw])
        rw [loopE]
        by_cases hm : mk1 (key u) ≠ -1
        · rw [if_pos hm]
          obtain ⟨mk', h1, h2, h3⟩ := ih' mk1 hsub' hw1
          refine ⟨mk', h1, h2, fun w hw hok => ?_⟩
          rcases List.mem_cons.1 hw with rfl | hw
          · exact h2.le hm
          · exact h3 w hw hok
        · rw [if_neg hm]
          rw [ne_eq, not_not] at hm
          by_cases hok : ok t u = true
          · rw [if_pos hok]
            have huV : V u := hlV u (hsub u (by simp))
            have hlt' := white_upd (key := key) (N := N) (hlt u huV) hm hc
            obtain ⟨mk2, h1, h2, h3⟩ := ih (upd mk1 (key u) c) u huV (by omega)
            rw [h1]
            have hstep : Step nbs ok t u := ⟨l, hl, hsub u (by simp), hok⟩
            have hu2 : mk2 (key u) = c := by
              have : upd mk1 (key u) c (key u) = c := by simp [upd]
              rw [h2.keep (key u) (by rw [this]; exact hc), this]
            have h4 : Marked nbs key ok c V t mk1 mk2 := by
              refine ⟨fun x hx => ?_, fun x hx hx' => ?_, fun v hv hx hx' w hw => ?_⟩
              · have hne : x ≠ key u := fun h => hx (h ▸ hm)
                have : upd mk1 (key u) c x = mk1 x := by simp [upd, hne]
                rw [h2.keep x (by rw [this]; exact hx), this]
              · by_cases he : x = key u
                · subst he
                  exact ⟨hu2, u, huV, rfl, Relation.TransGen.single hstep⟩
                · have : upd mk1 (key u) c x = -1 := by simp [upd, he, hx]
                  obtain ⟨h5, v, h6, h7, h8⟩ := h2.new x this hx'
                  exact ⟨h5, v, h6, h7, Relation.TransGen.head hstep h8⟩
              · by_cases he : v = u
                · subst he; exact h3 w hw
                · have hne : key v ≠ key u := fun h => he (hkey v u hv huV h)
                  refine h2.closed v hv ?_ hx' w hw
                  simp [upd, hne, hx]
            have hw2 : white key N mk2 < f + 1 := lt_of_le_of_lt (white_mono h4.keep) hw1
            obtain ⟨mk', h5, h6, h7⟩ := ih' mk2 hsub' hw2
            refine ⟨mk', h5, h4.trans h6, fun w hw hok' => ?_⟩
            rcases List.mem_cons.1 hw with rfl | hw
            · refine h6.le ?_
              rw [hu2]; exact hc
            · exact h7 w hw hok'
          · rw [if_neg hok]
            obtain ⟨mk', h1, h2, h3⟩ := ih' mk1 hsub' hw1
            refine ⟨mk', h1, h2, fun w hw hok' => ?_⟩
            rcases List.mem_cons.1 hw with rfl | hw
            · exact absurd hok' hok
            · exact h3 w hw hok'
    obtain ⟨mk', h1, h2, h3⟩ := key1 l mk (fun _ h => h) hw
    refine ⟨mk', ?_, h2, ?_⟩
    · rw [markFrom, hl]
      exact h1
    · rintro w ⟨l', hl', hw', hok⟩
      rw [hl] at hl'
      cases hl'
      exact h3 w hw' hok

end VG
