import Verif.Model.Field
import Mathlib.Tactic.ByContra
import Mathlib.Data.List.Induction

/-!
C31: fields and accessors return the last value written, else the default.

Specification: `lastSet ops i` is the value of the last assignment to the element with id `i` in a
history.  Histories with assignments through `f.at(e) = v`, which throw or assign depending on the
container, are left out.
-/

namespace VG

variable {V : Type}

/-- The value of the last assignment `f(e) = v` for the element with id `i`; the history is given
with the latest operation first. -/
def lastSet : List (FOp V) → Int → Option V
  | [], _ => none
  | .set j v :: ops, i => if j = i then some v else lastSet ops i
  | _ :: ops, i => lastSet ops i

/-- Operations which are not assignments through `at`. -/
def FOp.plain : FOp V → Bool
  | .setAt _ _ => false
  | _ => true

/-- Operations which only read through const access. -/
def FOp.constOrSet : FOp V → Bool
  | .setAt _ _ => false
  | .get _ => false
  | _ => true

/-- The element an operation refers to. -/
def FOp.id : FOp V → Int
  | .set i _ => i
  | .get i => i
  | .cget i => i
  | .find i => i
  | .at i => i
  | .setAt i _ => i

/-- Whether the entry of an id was ever brought into existence: by an assignment or by reading
through a non-const field, at the id itself or (dense containers) at a greater one. -/
def grown : List (FOp V) → Int → Prop
  | [], _ => False
  | .set j _ :: ops, i => i ≤ j ∨ grown ops i
  | .get j :: ops, i => i ≤ j ∨ grown ops i
  | _ :: ops, i => grown ops i

/-- Whether an id was read through a non-const map field. -/
def touched : List (FOp V) → Int → Prop
  | [], _ => False
  | .get j :: ops, i => j = i ∨ touched ops i
  | _ :: ops, i => touched ops i

/-! ### DenseField containers -/

theorem DenseField.grow_get (f : DenseField V) (n k : Nat) :
    (f.grow n).data[k]? = if k < f.data.length then f.data[k]? else if k < n then some f.zero else none := by
  unfold DenseField.grow
  by_cases h : k < f.data.length
  · rw [if_pos h, List.getElem?_append_left h]
  · rw [if_neg h, List.getElem?_append_right (by omega), List.getElem?_replicate]
    by_cases h2 : k < n
    · rw [if_pos h2, if_pos (by omega)]
    · rw [if_neg h2, if_neg (by omega)]

/-- What a dense container holds after a history (latest operation first): the last assigned value,
a default constructed value at positions only passed over, nothing beyond. -/
def DenseFieldIs (z : V) (ops : List (FOp V)) (f : DenseField V) : Prop :=
  f.zero = z ∧ ∀ i : Int, 0 ≤ i →
    ((lastSet ops i).isSome → f.data[i.toNat]? = lastSet ops i) ∧
    (lastSet ops i = none → grown ops i → f.data[i.toNat]? = some z) ∧
    (¬ grown ops i → f.data[i.toNat]? = none)

theorem grown_of_lastSet : ∀ {ops : List (FOp V)} {i : Int}, (lastSet ops i).isSome → grown ops i
  | [], _, h => by simp [lastSet] at h
  | .set j v :: ops, i, h => by
    simp only [lastSet] at h
    by_cases hj : j = i
    · exact Or.inl (by omega)
    · rw [if_neg hj] at h; exact Or.inr (grown_of_lastSet h)
  | .get j :: ops, i, h => Or.inr (grown_of_lastSet (ops := ops) (by simpa [lastSet] using h))
  | .cget j :: ops, i, h => grown_of_lastSet (ops := ops) (by simpa [lastSet] using h)
  | .find j :: ops, i, h => grown_of_lastSet (ops := ops) (by simpa [lastSet] using h)
  | .at j :: ops, i, h => grown_of_lastSet (ops := ops) (by simpa [lastSet] using h)
  | .setAt j v :: ops, i, h => grown_of_lastSet (ops := ops) (by simpa [lastSet] using h)

theorem DenseField.step_is {z : V} {ops : List (FOp V)} {f : DenseField V} (h : DenseFieldIs z ops f) {o : FOp V}
    (hp : o.plain = true) (hi : 0 ≤ o.id) : DenseFieldIs z (o :: ops) (f.step o).1 ∧ (f.step o).1.dflt = f.dflt := by
  have hlen : ∀ i : Int, 0 ≤ i → (grown ops i ↔ i < f.data.length) := by
    intro i hi
    obtain ⟨h1, h2, h3⟩ := h.2 i hi
    constructor
    · intro hg
      rw [← Int.toNat_of_nonneg hi]
      have hsome : f.data[i.toNat]?.isSome := by
        by_cases hs : (lastSet ops i).isSome
        · rw [h1 hs]; exact hs
        · rw [h2 (by simpa using hs) hg]; rfl
      obtain ⟨w, hw⟩ := Option.isSome_iff_exists.1 hsome
      have := (List.getElem?_eq_some_iff.1 hw).1
      omega
    · intro hl
      by_contra hn
      have := h3 hn
      rw [List.getElem?_eq_none_iff] at this
      omega
  -- the container after making room
  have hgrow : ∀ j : Int, 0 ≤ j → ∀ i : Int, 0 ≤ i → ∀ g : DenseField V,
      g = (if (f.data.length : Int) ≤ j then f.grow (j.toNat + 1) else f) →
      (i ≤ j → ¬ grown ops i → g.data[i.toNat]? = some z) ∧ (grown ops i → g.data[i.toNat]? = f.data[i.toNat]?) ∧
      (¬ i ≤ j → g.data[i.toNat]? = f.data[i.toNat]?) ∧ g.zero = z ∧ g.dflt = f.dflt := by
    intro j hj i hi g hg
    have hiff := hlen i hi
    by_cases hl : (f.data.length : Int) ≤ j
    · rw [if_pos hl] at hg
      subst hg
      rw [DenseField.grow_get]
      refine ⟨fun hij hn => ?_, fun hgr => ?_, fun hij => ?_, h.1, rfl⟩
      · rw [if_neg (by rw [hiff] at hn; omega), if_pos (by omega), h.1]
      · rw [if_pos (by rw [hiff] at hgr; omega)]
      · by_cases hk : i.toNat < f.data.length
        · rw [if_pos hk]
        · rw [if_neg hk, if_neg (by omega), List.getElem?_eq_none (by omega)]
    · rw [if_neg hl] at hg
      subst hg
      refine ⟨fun hij hn => ?_, fun _ => rfl, fun _ => rfl, h.1, rfl⟩
      exact absurd (hiff.2 (by omega)) hn
  cases o with
  | setAt j v => simp [FOp.plain] at hp
  | cget j =>
    have : ((f.step (.cget j)).1) = f := by
      unfold DenseField.step; dsimp only
      split
      · rfl
      · split
        · rfl
        · split <;> rfl
    rw [this]; exact ⟨⟨h.1, fun i hi => h.2 i hi⟩, rfl⟩
  | find j =>
    have : ((f.step (.find j)).1) = f := by
      unfold DenseField.step; dsimp only
      split
      · rfl
      · split <;> rfl
    rw [this]; exact ⟨⟨h.1, fun i hi => h.2 i hi⟩, rfl⟩
  | «at» j =>
    have : ((f.step (.at j)).1) = f := by
      unfold DenseField.step; dsimp only
      split
      · rfl
      · split <;> rfl
    rw [this]; exact ⟨⟨h.1, fun i hi => h.2 i hi⟩, rfl⟩
  | get j =>
    have hj : 0 ≤ j := hi
    have hst : (f.step (.get j)).1 = if (f.data.length : Int) ≤ j then f.grow (j.toNat + 1) else f := by
      unfold DenseField.step; dsimp only
      rw [if_neg (by omega)]
      split <;> rfl
    rw [hst]
    refine ⟨⟨(hgrow j hj j hj _ rfl).2.2.2.1, fun i hi => ?_⟩, (hgrow j hj j hj _ rfl).2.2.2.2⟩
    obtain ⟨g1, g2, g3, _⟩ := hgrow j hj i hi _ rfl
    obtain ⟨h1, h2, h3⟩ := h.2 i hi
    refine ⟨fun hs => ?_, fun hn hg => ?_, fun hn => ?_⟩
    · have hs' : (lastSet ops i).isSome := hs
      rw [g2 (grown_of_lastSet hs'), h1 hs']; rfl
    · by_cases hgr : grown ops i
      · rw [g2 hgr]; exact h2 hn hgr
      · exact g1 (hg.resolve_right hgr) hgr
    · have : ¬ i ≤ j ∧ ¬ grown ops i := not_or.1 hn
      rw [g3 this.1]; exact h3 this.2
  | set j v =>
    have hj : 0 ≤ j := hi
    have hst : (f.step (.set j v)).1 =
        { (if (f.data.length : Int) ≤ j then f.grow (j.toNat + 1) else f) with
          data := (if (f.data.length : Int) ≤ j then f.grow (j.toNat + 1) else f).data.set j.toNat v } := by
      unfold DenseField.step; dsimp only
      rw [if_neg (by omega)]
    rw [hst]
    refine ⟨⟨(hgrow j hj j hj _ rfl).2.2.2.1, fun i hi => ?_⟩, (hgrow j hj j hj _ rfl).2.2.2.2⟩
    obtain ⟨g1, g2, g3, _⟩ := hgrow j hj i hi _ rfl
    obtain ⟨h1, h2, h3⟩ := h.2 i hi
    by_cases hji : j = i
    · subst hji
      have hl : lastSet (.set j v :: ops) j = some v := by simp [lastSet]
      have hin : ∃ w, (if (f.data.length : Int) ≤ j then f.grow (j.toNat + 1) else f).data[j.toNat]? = some w := by
        by_cases hgr : grown ops j
        · rw [g2 hgr]
          have := (hlen j hj).1 hgr
          exact ⟨f.data[j.toNat]'(by omega), List.getElem?_eq_getElem (by omega)⟩
        · exact ⟨_, g1 (Int.le_refl _) hgr⟩
      obtain ⟨w, hw⟩ := hin
      have hlt := (List.getElem?_eq_some_iff.1 hw).1
      refine ⟨fun _ => ?_, fun hn => ?_, fun hn => ?_⟩
      · rw [hl]; simp only [List.getElem?_set, hlt, if_true]
      · rw [hl] at hn; cases hn
      · exact absurd (Or.inl (Int.le_refl _)) hn
    · have hl : lastSet (.set j v :: ops) i = lastSet ops i := by simp [lastSet, hji]
      have hset : ((if (f.data.length : Int) ≤ j then f.grow (j.toNat + 1) else f).data.set j.toNat v)[i.toNat]? =
          (if (f.data.length : Int) ≤ j then f.grow (j.toNat + 1) else f).data[i.toNat]? := by
        rw [List.getElem?_set_ne (by omega)]
      rw [hl]
      dsimp only
      rw [hset]
      refine ⟨fun hs => ?_, fun hn hg => ?_, fun hn => ?_⟩
      · rw [g2 (grown_of_lastSet hs), h1 hs]
      · by_cases hgr : grown ops i
        · rw [g2 hgr]; exact h2 hn hgr
        · exact g1 (hg.resolve_right hgr) hgr
      · have : ¬ i ≤ j ∧ ¬ grown ops i := not_or.1 hn
        rw [g3 this.1]; exact h3 this.2

theorem DenseField.run_is (z : V) (dflt : Option V) : ∀ (ops : List (FOp V)),
    (∀ o ∈ ops, o.plain = true ∧ 0 ≤ o.id) →
    DenseFieldIs z ops.reverse ((⟨[], z, dflt⟩ : DenseField V).run ops) ∧
    ((⟨[], z, dflt⟩ : DenseField V).run ops).dflt = dflt := by
  intro ops
  induction ops using List.reverseRecOn with
  | nil => intro _; exact ⟨⟨rfl, fun i _ => by simp [lastSet, grown, DenseField.run]⟩, rfl⟩
  | append_singleton ops o ih =>
    intro h
    have h1 := ih (fun o' ho' => h o' (by simp [ho']))
    have h2 := h o (by simp)
    have h3 := DenseField.step_is h1.1 h2.1 h2.2
    rw [List.reverse_append]
    simp only [DenseField.run, List.foldl_append, List.foldl_cons, List.foldl_nil] at h1 h3 ⊢
    exact ⟨h3.1, h3.2.trans h1.2⟩

/-- C31, what dense containers do.  After any history of assignments and reads (const and not) of
elements with non-negative ids, starting with an empty container, reading a const field at an
element gives the value last written for it; if nothing was written, it gives a default constructed
value when an element with an equal or greater id was accessed through the non-const field, and the
default of the field otherwise. -/
theorem C31_dense_exact (z : V) (dflt : V) (ops : List (FOp V)) (h : ∀ o ∈ ops, o.plain = true ∧ 0 ≤ o.id)
    (i : Int) (hi : 0 ≤ i) :
    (∀ v, lastSet ops.reverse i = some v → (((⟨[], z, some dflt⟩ : DenseField V).run ops).step (.cget i)).2 = .val v) ∧
    (lastSet ops.reverse i = none → grown ops.reverse i →
      (((⟨[], z, some dflt⟩ : DenseField V).run ops).step (.cget i)).2 = .val z) ∧
    (¬ grown ops.reverse i → (((⟨[], z, some dflt⟩ : DenseField V).run ops).step (.cget i)).2 = .val dflt) := by
  obtain ⟨⟨_, hr⟩, hd⟩ := DenseField.run_is z (some dflt) ops h
  obtain ⟨h1, h2, h3⟩ := hr i hi
  simp only [DenseField.step, if_neg (show ¬ i < 0 by omega)]
  refine ⟨fun v hv => ?_, fun hn hg => ?_, fun hn => ?_⟩
  · rw [h1 (by rw [hv]; rfl), hv]
  · rw [h2 hn hg]
  · rw [h3 hn, hd]

/-- C31 for dense fields.  Full statement: an element never written reads as the default.  False in
general (`C31_violated_dense`): proved when the default of the field is the value of a default
constructed entry (as for fields made without a default), for all histories of assignments and
reads. -/
theorem C31_dense_partial (z : V) (ops : List (FOp V)) (h : ∀ o ∈ ops, o.plain = true ∧ 0 ≤ o.id)
    (i : Int) (hi : 0 ≤ i) :
    (((⟨[], z, some z⟩ : DenseField V).run ops).step (.cget i)).2 = .val ((lastSet ops.reverse i).getD z) := by
  obtain ⟨h1, h2, h3⟩ := C31_dense_exact z z ops h i hi
  cases hl : lastSet ops.reverse i with
  | some v => exact h1 v hl
  | none =>
    by_cases hg : grown ops.reverse i
    · exact h2 hl hg
    · exact h3 hg

/-- C31 for dense accessors and fields with any default: an element which was written reads as the
value last written through every way of reading. -/
theorem C31_dense_written (z : V) (dflt : Option V) (ops : List (FOp V))
    (h : ∀ o ∈ ops, o.plain = true ∧ 0 ≤ o.id) {i : Int} (hi : 0 ≤ i) {v : V}
    (hv : lastSet ops.reverse i = some v) :
    (((⟨[], z, dflt⟩ : DenseField V).run ops).step (.cget i)).2 = .val v ∧
    (((⟨[], z, dflt⟩ : DenseField V).run ops).step (.get i)).2 = .val v ∧
    (((⟨[], z, dflt⟩ : DenseField V).run ops).step (.find i)).2 = .val v ∧
    (((⟨[], z, dflt⟩ : DenseField V).run ops).step (.at i)).2 = .val v := by
  obtain ⟨⟨_, hr⟩, _⟩ := DenseField.run_is z dflt ops h
  have h1 : ((⟨[], z, dflt⟩ : DenseField V).run ops).data[i.toNat]? = some v := by
    rw [(hr i hi).1 (by rw [hv]; rfl), hv]
  have hl := (List.getElem?_eq_some_iff.1 h1).1
  simp only [DenseField.step, if_neg (show ¬ i < 0 by omega), h1]
  refine ⟨trivial, ?_, trivial, trivial⟩
  rw [if_neg (by omega)]
  simp only [h1]

/-- C31 for dense accessors and fields: `find` gives the null pointer, `at` throws and an assignment through
`at` throws without changing anything, exactly for the elements whose entry was never brought into existence;
otherwise an assignment through `at` is read back and changes nothing else. -/
theorem C31_dense_missing (z : V) (dflt : Option V) (ops : List (FOp V))
    (h : ∀ o ∈ ops, o.plain = true ∧ 0 ≤ o.id) {i : Int} (hi : 0 ≤ i) (w : V) :
    (¬ grown ops.reverse i →
      (((⟨[], z, dflt⟩ : DenseField V).run ops).step (.find i)).2 = .null ∧
      (((⟨[], z, dflt⟩ : DenseField V).run ops).step (.at i)).2 = .throws ∧
      ((⟨[], z, dflt⟩ : DenseField V).run ops).step (.setAt i w) = ((⟨[], z, dflt⟩ : DenseField V).run ops, .throws)) ∧
    (grown ops.reverse i →
      (((⟨[], z, dflt⟩ : DenseField V).run ops).step (.find i)).2 = .val ((lastSet ops.reverse i).getD z) ∧
      (((⟨[], z, dflt⟩ : DenseField V).run ops).step (.at i)).2 = .val ((lastSet ops.reverse i).getD z) ∧
      (((⟨[], z, dflt⟩ : DenseField V).run ops).step (.setAt i w)).2 = .done ∧
      ∀ j : Int, 0 ≤ j →
        ((((⟨[], z, dflt⟩ : DenseField V).run ops).step (.setAt i w)).1.step (.find j)).2 =
          if j = i then .val w else (((⟨[], z, dflt⟩ : DenseField V).run ops).step (.find j)).2) := by
  obtain ⟨⟨_, hr⟩, _⟩ := DenseField.run_is z dflt ops h
  obtain ⟨h1, h2, h3⟩ := hr i hi
  constructor
  · intro hg
    have h4 := h3 hg
    have h5 := List.getElem?_eq_none_iff.1 h4
    simp only [DenseField.step, if_neg (show ¬ i < 0 by omega), h4]
    refine ⟨trivial, trivial, ?_⟩
    rw [if_pos (by omega)]
  · intro hg
    have h4 : ((⟨[], z, dflt⟩ : DenseField V).run ops).data[i.toNat]? = some ((lastSet ops.reverse i).getD z) := by
      cases hl : lastSet ops.reverse i with
      | some v => rw [h1 (by rw [hl]; rfl), hl]; rfl
      | none => rw [h2 hl hg]; rfl
    have h5 := (List.getElem?_eq_some_iff.1 h4).1
    simp only [DenseField.step, if_neg (show ¬ i < 0 by omega), h4,
      if_neg (show ¬ (((⟨[], z, dflt⟩ : DenseField V).run ops).data.length : Int) ≤ i by omega)]
    refine ⟨trivial, trivial, trivial, fun j hj => ?_⟩
    simp only [if_neg (show ¬ j < 0 by omega)]
    by_cases hij : j = i
    · subst hij
      rw [if_pos rfl, List.getElem?_set_self h5]
    · rw [if_neg hij, List.getElem?_set_ne (by omega)]
      cases ((⟨[], z, dflt⟩ : DenseField V).run ops).data[j.toNat]? <;> rfl

/-- C31: an assignment to one element of a dense container does not change what is read at another,
when the default of the field is the value of a default constructed entry. -/
theorem C31_dense_others_partial (z : V) (ops : List (FOp V)) (h : ∀ o ∈ ops, o.plain = true ∧ 0 ≤ o.id)
    {i j : Int} (hi : 0 ≤ i) (hj : 0 ≤ j) (hij : j ≠ i) (v : V) :
    (((⟨[], z, some z⟩ : DenseField V).run (ops ++ [.set j v])).step (.cget i)).2 =
      (((⟨[], z, some z⟩ : DenseField V).run ops).step (.cget i)).2 := by
  rw [C31_dense_partial z _ ?_ i hi, C31_dense_partial z ops h i hi]
  · simp [List.reverse_append, lastSet, hij]
  · intro o ho
    rcases List.mem_append.1 ho with ho | ho
    · exact h o ho
    · simp only [List.mem_singleton] at ho; subst ho; exact ⟨rfl, hj⟩

/-- C31 violated for dense fields with a default: after a value is written at id 2, the elements 0
and 1, never written, read as zero instead of the default 7, which they read as before. -/
theorem C31_violated_dense :
    (((⟨[], 0, some 7⟩ : DenseField Nat).run []).step (.cget 1)).2 = .val 7 ∧
    (((⟨[], 0, some 7⟩ : DenseField Nat).run [.set 2 5]).step (.cget 1)).2 = .val 0 ∧
    lastSet [FOp.set 2 5] 1 = none := by decide

/-- C31 violated by reading: reading a non-const field at an element which was never written gives
a default constructed value and not the default, and later const reads give it as well. -/
theorem C31_violated_by_reading :
    (((⟨[], 0, some 7⟩ : DenseField Nat).run []).step (.get 1)).2 = .val 0 ∧
    (((⟨[], 0, some 7⟩ : DenseField Nat).run [.get 1]).step (.cget 1)).2 = .val 0 ∧
    (((⟨[], 0, some 7⟩ : MapField Nat).run []).step (.get 1)).2 = .val 0 ∧
    (((⟨[], 0, some 7⟩ : MapField Nat).run []).step (.cget 1)).2 = .val 7 ∧
    (((⟨[], 0, some 7⟩ : MapField Nat).run [.get 1]).step (.cget 1)).2 = .val 0 := by decide

/-! ### Maps -/

theorem MapField.lookup_append (f : MapField V) (i : Int) (w : V) (j : Int) (hi : f.lookup i = none) :
    ({ f with data := f.data ++ [(i, w)] } : MapField V).lookup j = if j = i then some w else f.lookup j := by
  unfold MapField.lookup at hi ⊢
  rw [List.find?_append]
  by_cases h : j = i
  · subst h
    rw [if_pos rfl]
    have : f.data.find? (fun p => p.1 == j) = none := by simpa using hi
    rw [this]; simp
  · rw [if_neg h]
    have : (List.find? (fun p : Int × V => p.1 == j) [(i, w)]) = none := by
      simp [Ne.symm h]
    rw [this]; simp

theorem MapField.lookup_ensure (f : MapField V) (i j : Int) :
    (f.ensure i).lookup j = if j = i then some ((f.lookup i).getD f.zero) else f.lookup j := by
  unfold MapField.ensure
  by_cases h : (f.lookup i).isSome
  · rw [if_pos h]
    obtain ⟨w, hw⟩ := Option.isSome_iff_exists.1 h
    by_cases hj : j = i
    · subst hj; rw [if_pos rfl, hw]; rfl
    · rw [if_neg hj]
  · have hn : f.lookup i = none := by simpa using h
    rw [if_neg h, MapField.lookup_append f i f.zero j hn, hn]; rfl

theorem MapField.lookup_put (f : MapField V) (i j : Int) (v : V) (h : (f.lookup i).isSome) :
    (f.put i v).lookup j = if j = i then some v else f.lookup j := by
  unfold MapField.put MapField.lookup at *
  rw [List.find?_map]
  have hc : ((fun p : Int × V => p.1 == j) ∘ fun p => if p.1 = i then (i, v) else p) = fun p : Int × V => p.1 == j := by
    funext p
    by_cases hp : p.1 = i
    · simp [hp]
    · simp [hp]
  rw [hc]
  by_cases hj : j = i
  · subst hj
    rw [if_pos rfl]
    cases hf : f.data.find? (fun p => p.1 == j) with
    | none => rw [hf] at h; simp at h
    | some p =>
      have : p.1 = j := by simpa using List.find?_some hf
      simp [this]
  · rw [if_neg hj]
    cases hf : f.data.find? (fun p => p.1 == j) with
    | none => rfl
    | some p =>
      have : p.1 = j := by simpa using List.find?_some hf
      simp [this, hj]

/-- What a map holds after a history (latest operation first): the last assigned value, a default
constructed value for keys only read through a non-const field, nothing else. -/
def MapFieldIs (z : V) (ops : List (FOp V)) (f : MapField V) : Prop :=
  f.zero = z ∧ ∀ i : Int,
    ((lastSet ops i).isSome → f.lookup i = lastSet ops i) ∧
    (lastSet ops i = none → touched ops i → f.lookup i = some z) ∧
    (lastSet ops i = none → ¬ touched ops i → f.lookup i = none)

theorem MapField.ensure_zero (f : MapField V) (i : Int) : (f.ensure i).zero = f.zero ∧ (f.ensure i).dflt = f.dflt := by
  unfold MapField.ensure; split <;> exact ⟨rfl, rfl⟩

theorem MapField.step_is {z : V} {ops : List (FOp V)} {f : MapField V} (h : MapFieldIs z ops f) {o : FOp V}
    (hp : o.plain = true) : MapFieldIs z (o :: ops) (f.step o).1 ∧ (f.step o).1.dflt = f.dflt := by
  cases o with
  | setAt j v => simp [FOp.plain] at hp
  | cget j =>
    have : ((f.step (.cget j)).1) = f := by
      unfold MapField.step; dsimp only
      split
      · rfl
      · split <;> rfl
    rw [this]; exact ⟨⟨h.1, fun i => h.2 i⟩, rfl⟩
  | find j =>
    have : ((f.step (.find j)).1) = f := by
      unfold MapField.step; dsimp only
      split <;> rfl
    rw [this]; exact ⟨⟨h.1, fun i => h.2 i⟩, rfl⟩
  | «at» j =>
    have : ((f.step (.at j)).1) = f := by
      unfold MapField.step; dsimp only
      split <;> rfl
    rw [this]; exact ⟨⟨h.1, fun i => h.2 i⟩, rfl⟩
  | get j =>
    have hst : (f.step (.get j)).1 = f.ensure j := by
      unfold MapField.step; dsimp only
      split <;> rfl
    rw [hst]
    refine ⟨⟨(f.ensure_zero j).1.trans h.1, fun i => ?_⟩, (f.ensure_zero j).2⟩
    obtain ⟨h1, h2, h3⟩ := h.2 i
    rw [MapField.lookup_ensure]
    by_cases hij : i = j
    · subst hij
      rw [if_pos rfl, h.1]
      refine ⟨fun hs => ?_, fun hn _ => ?_, fun hn ht => absurd (Or.inl rfl) ht⟩
      · have hs' : (lastSet ops i).isSome := hs
        obtain ⟨w, hw⟩ := Option.isSome_iff_exists.1 hs'
        rw [h1 hs', hw]
        exact hw.symm
      · by_cases ht : touched ops i
        · rw [h2 hn ht]; rfl
        · rw [h3 hn ht]; rfl
    · rw [if_neg hij]
      refine ⟨h1, fun hn ht => h2 hn (ht.resolve_left (Ne.symm hij)), fun hn ht => h3 hn (fun h => ht (Or.inr h))⟩
  | set j v =>
    have hst : (f.step (.set j v)).1 = (f.ensure j).put j v := rfl
    rw [hst]
    refine ⟨⟨(f.ensure_zero j).1.trans h.1, fun i => ?_⟩, (f.ensure_zero j).2⟩
    obtain ⟨h1, h2, h3⟩ := h.2 i
    rw [MapField.lookup_put _ _ _ _ (by rw [MapField.lookup_ensure, if_pos rfl]; rfl)]
    by_cases hij : i = j
    · subst hij
      have hl : lastSet (.set i v :: ops) i = some v := by simp [lastSet]
      rw [if_pos rfl, hl]
      exact ⟨fun _ => rfl, fun hn => (by cases hn), fun hn => (by cases hn)⟩
    · have hl : lastSet (.set j v :: ops) i = lastSet ops i := by simp [lastSet, Ne.symm hij]
      rw [if_neg hij, hl, MapField.lookup_ensure, if_neg hij]
      exact ⟨h1, h2, h3⟩

theorem MapField.run_is (z : V) (dflt : Option V) : ∀ (ops : List (FOp V)), (∀ o ∈ ops, o.plain = true) →
    MapFieldIs z ops.reverse ((⟨[], z, dflt⟩ : MapField V).run ops) ∧
    ((⟨[], z, dflt⟩ : MapField V).run ops).dflt = dflt := by
  intro ops
  induction ops using List.reverseRecOn with
  | nil => intro _; exact ⟨⟨rfl, fun i => by simp [lastSet, touched, MapField.run, MapField.lookup]⟩, rfl⟩
  | append_singleton ops o ih =>
    intro h
    have h1 := ih (fun o' ho' => h o' (by simp [ho']))
    have h3 := MapField.step_is h1.1 (h o (by simp))
    rw [List.reverse_append]
    simp only [MapField.run, List.foldl_append, List.foldl_cons, List.foldl_nil] at h1 h3 ⊢
    exact ⟨h3.1, h3.2.trans h1.2⟩

theorem not_touched : ∀ {ops : List (FOp V)} (_ : ∀ o ∈ ops, o.constOrSet = true) (i : Int), ¬ touched ops i
  | [], _, _, h => h
  | .get j :: ops, h, _, _ => by simpa [FOp.constOrSet] using h (.get j) (by simp)
  | .set j v :: ops, h, i, ht => not_touched (ops := ops) (fun o ho => h o (by simp [ho])) i ht
  | .cget j :: ops, h, i, ht => not_touched (ops := ops) (fun o ho => h o (by simp [ho])) i ht
  | .find j :: ops, h, i, ht => not_touched (ops := ops) (fun o ho => h o (by simp [ho])) i ht
  | .at j :: ops, h, i, ht => not_touched (ops := ops) (fun o ho => h o (by simp [ho])) i ht
  | .setAt j v :: ops, h, i, ht => not_touched (ops := ops) (fun o ho => h o (by simp [ho])) i ht

/-- C31 for map fields with any default: after any history of assignments and const reads, an
element reads as the value last written for it and as the default if none was written; `find` gives
the null pointer and `at` throws exactly when none was written.  Missing: reads through a non-const
field, which insert entries (`C31_violated_by_reading`, `C31_mapped_reads_partial`). -/
theorem C31_mapped_partial (z dflt : V) (ops : List (FOp V)) (h : ∀ o ∈ ops, o.constOrSet = true) (i : Int) :
    (((⟨[], z, some dflt⟩ : MapField V).run ops).step (.cget i)).2 = .val ((lastSet ops.reverse i).getD dflt) ∧
    (((⟨[], z, some dflt⟩ : MapField V).run ops).step (.find i)).2 =
      (match lastSet ops.reverse i with | some v => .val v | none => .null) ∧
    (((⟨[], z, some dflt⟩ : MapField V).run ops).step (.at i)).2 =
      (match lastSet ops.reverse i with | some v => .val v | none => .throws) := by
  obtain ⟨⟨_, hr⟩, hd⟩ := MapField.run_is z (some dflt) ops (fun o ho => by
    have := h o ho
    cases o <;> simp_all [FOp.plain, FOp.constOrSet])
  obtain ⟨h1, _, h3⟩ := hr i
  have hnt : ¬ touched ops.reverse i := not_touched (fun o ho => h o (by simpa using ho)) i
  simp only [MapField.step, hd]
  cases hl : lastSet ops.reverse i with
  | none => rw [h3 hl hnt]; exact ⟨rfl, rfl, rfl⟩
  | some v => rw [h1 (by rw [hl]; rfl), hl]; exact ⟨rfl, rfl, rfl⟩

/-- C31 for map fields whose default is a default constructed value: after any history of
assignments and reads, const or not. -/
theorem C31_mapped_reads_partial (z : V) (ops : List (FOp V)) (h : ∀ o ∈ ops, o.plain = true) (i : Int) :
    (((⟨[], z, some z⟩ : MapField V).run ops).step (.cget i)).2 = .val ((lastSet ops.reverse i).getD z) := by
  obtain ⟨⟨_, hr⟩, hd⟩ := MapField.run_is z (some z) ops h
  obtain ⟨h1, h2, h3⟩ := hr i
  simp only [MapField.step, hd]
  cases hl : lastSet ops.reverse i with
  | some v => rw [h1 (by rw [hl]; rfl), hl]; rfl
  | none =>
    by_cases ht : touched ops.reverse i
    · rw [h2 hl ht]; rfl
    · rw [h3 hl ht]; rfl

/-- C31 for map accessors and fields: const reads do not change anything, and an assignment does
not change what is found at another element. -/
theorem C31_mapped_others (f : MapField V) {i j : Int} (hij : j ≠ i) (v : V) :
    (((f.step (.set j v)).1).step (.find i)).2 = (f.step (.find i)).2 ∧
    (((f.step (.set j v)).1).step (.at i)).2 = (f.step (.at i)).2 ∧
    (((f.step (.set j v)).1).step (.cget i)).2 = (f.step (.cget i)).2 := by
  have hl : ((f.step (.set j v)).1).lookup i = f.lookup i := by
    show ((f.ensure j).put j v).lookup i = _
    rw [MapField.lookup_put _ _ _ _ (by rw [MapField.lookup_ensure, if_pos rfl]; rfl), if_neg (Ne.symm hij),
      MapField.lookup_ensure, if_neg (Ne.symm hij)]
  have hd : ((f.step (.set j v)).1).dflt = f.dflt := by
    show (f.ensure j).dflt = _
    exact (f.ensure_zero j).2
  simp only [MapField.step] at hl hd ⊢
  rw [hl, hd]
  refine ⟨?_, ?_, ?_⟩
  · cases f.lookup i <;> rfl
  · cases f.lookup i <;> rfl
  · cases f.lookup i <;> cases f.dflt <;> rfl

/-- A history with writes to three elements, one of them twice, and reads in between. -/
def fieldOps : List (FOp Nat) := [.set 3 10, .cget 0, .set 1 20, .find 7, .set 3 30, .at 3]

example : (∀ o ∈ fieldOps, o.plain = true ∧ 0 ≤ o.id) ∧ (∀ o ∈ fieldOps, o.constOrSet = true) ∧
    lastSet fieldOps.reverse 3 = some 30 ∧
    (((⟨[], 0, some 0⟩ : DenseField Nat).run fieldOps).step (.cget 3)).2 = .val 30 ∧
    (((⟨[], 0, some 0⟩ : DenseField Nat).run fieldOps).step (.cget 2)).2 = .val 0 ∧
    (((⟨[], 0, some 9⟩ : MapField Nat).run fieldOps).step (.cget 2)).2 = .val 9 ∧
    (((⟨[], 0, none⟩ : MapField Nat).run fieldOps).step (.cget 2)).2 = .undef ∧
    (((⟨[], 0, some 9⟩ : MapField Nat).run fieldOps).step (.at 1)).2 = .val 20 := by decide

example : grown fieldOps.reverse 2 ∧ ¬ grown fieldOps.reverse 4 := by simp [fieldOps, grown]

end VG
