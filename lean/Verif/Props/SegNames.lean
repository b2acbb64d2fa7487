import Verif.Model.SegNames
import Mathlib.Data.List.Basic
import Mathlib.Data.List.Nodup
import Mathlib.Logic.Function.Basic
import Mathlib.Tactic.ByContra
import Mathlib.Data.Sum.Basic
import Mathlib.Order.Basic
import Mathlib.Data.Int.Order.Basic

/-!
C28 names and ids of segments, C29 clear.
-/

namespace VG

variable {N : Type} [DecidableEq N]

/-! ### Ids, for all histories -/

theorem getMakeId_ids (nm : Int → N) (r : Reg N) (id : Int) (h : (r.segs.map (·.1)).Nodup) :
    ((r.getMakeId nm id).1.segs.map (·.1)).Nodup := by
  unfold Reg.getMakeId
  split
  · exact h
  · rename_i hid
    simp only
    split <;> (rw [List.map_append, List.nodup_append]; refine ⟨h, by simp, ?_⟩; intro a ha b hb; simp at hb; subst hb; rintro rfl; exact hid ha)

theorem setName_ids (r : Reg N) (id : Int) (n : N) :
    (r.setName id n).1.segs.map (·.1) = r.segs.map (·.1) := by
  unfold Reg.setName
  split
  · rfl
  · split
    · rfl
    · simp only [List.map_map]
      refine List.map_congr_left (fun t _ => ?_)
      simp only [Function.comp]
      split
      · rename_i h; simp [h]
      · rfl

theorem step_ids (nm : Int → N) (r : Reg N) (op : ROp N) (h : (r.segs.map (·.1)).Nodup) :
    ((r.step nm op).1.segs.map (·.1)).Nodup := by
  cases op with
  | getId id => exact getMakeId_ids nm r id h
  | make => exact getMakeId_ids nm { r with highest := r.highest + 1 } _ h
  | setName id n => simp only [Reg.step]; rw [setName_ids]; exact h
  | getName n =>
    simp only [Reg.step, Reg.getMakeName]
    have h1 := getMakeId_ids nm { r with highest := r.highest + 1 } (r.highest + 1) h
    split
    · exact h
    · exact h
    · split
      · rename_i r1 id heq
        rw [setName_ids]
        have : r1 = (r.makeSegment nm).1 := by rw [heq]
        rw [this]; exact h1
      · rename_i r1 res _ heq
        have : r1 = (r.makeSegment nm).1 := by rw [heq]
        rw [this]; exact h1

/-- C28, ids: for every history, also one in which exceptions were caught, no two segments have the
same id. -/
theorem C28_ids_unique (nm : Int → N) (ops : List (ROp N)) :
    (((Reg.empty : Reg N).run nm ops).1.segs.map (·.1)).Nodup := by
  have : ∀ (ops : List (ROp N)) (r : Reg N), (r.segs.map (·.1)).Nodup →
      ((r.run nm ops).1.segs.map (·.1)).Nodup := by
    intro ops
    induction ops with
    | nil => exact fun r h => h
    | cons op ops ih => exact fun r h => ih _ (step_ids nm r op h)
  exact this ops _ (by simp [Reg.empty])

/-- C28, lookup by id: an existing id gives that segment and changes nothing. -/
theorem C28_lookup_by_id (nm : Int → N) (r : Reg N) {id : Int} {n : N} (h : (id, n) ∈ r.segs) :
    r.getMakeId nm id = (r, .ok id) := by
  unfold Reg.getMakeId
  rw [if_pos (List.mem_map.2 ⟨_, h, rfl⟩)]

/-! ### Names -/

/-- C28, violated: the name "0" cannot be used for the first segment. -/
theorem C28_violated_first_name (nm : Int → N) :
    ((Reg.empty : Reg N).getMakeName nm (nm 0)).2 = .throws := by
  simp [Reg.getMakeName, Reg.makeSegment, Reg.getMakeId, Reg.setName, Reg.empty]

/-- C28, violated: renaming the first segment to "1" makes the next `make_segment` throw, and the
exception leaves a second segment with that name behind. -/
theorem C28_violated_unique_names (nm : Int → N) (hnm : Function.Injective nm) :
    let q := (Reg.empty : Reg N).run nm [.make, .setName 0 (nm 1), .make]
    q.2 = [.ok 0, .ok 0, .throws] ∧ q.1.segs = [(0, nm 1), (1, nm 1)] := by
  have h : nm 1 ≠ nm 0 := fun h => by have := hnm h; omega
  simp [Reg.run, Reg.step, Reg.makeSegment, Reg.getMakeId, Reg.setName, Reg.empty, h]

/-- C28, violated: continuing that history, a renaming of the second segment removes the first from
the name map: it is still called "1" but the name gives a new segment. -/
theorem C28_violated_lookup (nm : Int → N) (hnm : Function.Injective nm) (x : N)
    (hx : ∀ i, x ≠ nm i) :
    let q := (Reg.empty : Reg N).run nm [.make, .setName 0 (nm 1), .make, .setName 1 x, .getName (nm 1)]
    q.2 = [.ok 0, .ok 0, .throws, .ok 1, .ok 2] ∧ (0, nm 1) ∈ q.1.segs ∧ (2, nm 1) ∈ q.1.segs := by
  have h : nm 1 ≠ nm 0 := fun h => by have := hnm h; omega
  have h2 : nm 2 ≠ nm 1 := fun h => by have := hnm h; omega
  have h3 : nm 1 ≠ nm 2 := fun h => by have := hnm h; omega
  have h4 : nm 2 ≠ nm 0 := fun h => by have := hnm h; omega
  simp [Reg.run, Reg.step, Reg.makeSegment, Reg.getMakeId, Reg.getMakeName, Reg.setName, Reg.empty, h,
    hx 1, hx 0, (hx 1).symm, (hx 2).symm, h2, h3, h4]

/-- The names given by the caller are not numbers. -/
def ROp.PlainName (nm : Int → N) : ROp N → Prop
  | .setName _ n => ∀ i, n ≠ nm i
  | .getName n => ∀ i, n ≠ nm i
  | _ => True

/-- The two maps agree with the list of segments. -/
structure RegInv (nm : Int → N) (r : Reg N) : Prop where
  ids : (r.segs.map (·.1)).Nodup
  fwd : ∀ id n, (id, n) ∈ r.segs → r.names n = some (some id)
  bwd : ∀ n p, r.names n = some p → ∃ id, p = some id ∧ (id, n) ∈ r.segs
  plain : ∀ id n, (id, n) ∈ r.segs → n = nm id ∨ ∀ i, n ≠ nm i
  high : ∀ id n, (id, n) ∈ r.segs → id ≤ r.highest

omit [DecidableEq N] in
theorem RegInv.empty (nm : Int → N) : RegInv nm (Reg.empty : Reg N) := by
  constructor <;> simp [Reg.empty]

theorem RegInv.getMakeId {nm : Int → N} (hnm : Function.Injective nm) {r : Reg N} (h : RegInv nm r)
    (id : Int) (top : Int) (htop : r.highest ≤ top) :
    RegInv nm (Reg.getMakeId nm { r with highest := top } id).1 ∧
    (Reg.getMakeId nm { r with highest := top } id).2 = .ok id ∧
    (∃ n, (id, n) ∈ (Reg.getMakeId nm { r with highest := top } id).1.segs) ∧
    (id ∉ r.segs.map (·.1) → ∀ n, (∀ i, n ≠ nm i) → r.names n = none →
      (Reg.getMakeId nm { r with highest := top } id).1.names n = none) := by
  unfold Reg.getMakeId
  simp only
  by_cases hid : id ∈ r.segs.map (·.1)
  · rw [if_pos hid]
    refine ⟨⟨h.ids, h.fwd, h.bwd, h.plain, fun a b hab => (h.high a b hab).trans htop⟩, rfl, ?_, fun hc => absurd hid hc⟩
    obtain ⟨⟨a, b⟩, h1, h2⟩ := List.mem_map.1 hid
    simp only at h2
    subst h2
    exact ⟨b, h1⟩
  · rw [if_neg hid]
    have hfree : r.names (nm id) = none := by
      by_contra hne
      obtain ⟨p, hp⟩ := Option.ne_none_iff_exists'.1 hne
      obtain ⟨id', _, hm⟩ := h.bwd _ _ hp
      rcases h.plain _ _ hm with he | he
      · have := hnm he
        subst this
        exact hid (List.mem_map.2 ⟨_, hm, rfl⟩)
      · exact he id rfl
    rw [hfree]
    simp only
    refine ⟨⟨?_, ?_, ?_, ?_, ?_⟩, trivial, ⟨nm id, by simp⟩, ?_⟩
    · simp only [List.map_append, List.map_cons, List.map_nil]
      rw [List.nodup_append]
      refine ⟨h.ids, by simp, ?_⟩
      intro a ha b hb
      simp at hb
      subst hb
      rintro rfl
      exact hid ha
    · intro a b hab
      simp only [List.mem_append, List.mem_singleton, Prod.mk.injEq] at hab
      rcases hab with hab | ⟨rfl, rfl⟩
      · have hne : b ≠ nm id := by
          rintro rfl
          have := h.fwd _ _ hab
          rw [hfree] at this
          cases this
        simp only [if_neg hne]
        exact h.fwd _ _ hab
      · simp
    · intro n p hp
      simp only at hp
      split at hp
      · rename_i hn
        simp only [Option.some.injEq] at hp
        exact ⟨id, hp.symm, by simp [hn]⟩
      · obtain ⟨a, h1, h2⟩ := h.bwd _ _ hp
        exact ⟨a, h1, by simp [h2]⟩
    · intro a b hab
      simp only [List.mem_append, List.mem_singleton, Prod.mk.injEq] at hab
      rcases hab with hab | ⟨rfl, rfl⟩
      · exact h.plain _ _ hab
      · exact Or.inl rfl
    · intro a b hab
      simp only [List.mem_append, List.mem_singleton, Prod.mk.injEq] at hab
      simp only
      rcases hab with hab | ⟨rfl, rfl⟩
      · have := h.high _ _ hab
        split <;> omega
      · split <;> omega
    · intro _ n hn hnone
      simp only [if_neg (hn id)]
      exact hnone

theorem RegInv.setName {nm : Int → N} {r : Reg N} (h : RegInv nm r) (id : Int) (n : N)
    (hn : ∀ i, n ≠ nm i) : RegInv nm (r.setName id n).1 ∧
    ((∃ n', (id, n') ∈ r.segs) → r.names n = none → (r.setName id n).2 = .ok id ∧
      (id, n) ∈ (r.setName id n).1.segs) := by
  unfold Reg.setName
  split
  · rename_i hf
    refine ⟨h, ?_⟩
    rintro ⟨n', hn'⟩
    have := List.find?_eq_none.1 hf _ hn'
    simp at this
  · rename_i s hs
    split
    · rename_i p hp
      refine ⟨h, fun _ hnone => ?_⟩
      rw [hp] at hnone; cases hnone
    · rename_i hfree
      have hsm := List.mem_of_find?_eq_some hs
      have hs1 := List.find?_some hs
      simp only [beq_iff_eq] at hs1
      obtain ⟨sid, sn⟩ := s
      simp only at hs1
      subst hs1
      have huniq : ∀ b, (sid, b) ∈ r.segs → b = sn := by
        intro b hb
        have := List.inj_on_of_nodup_map h.ids hb hsm rfl
        simpa using this
      have hmem : ∀ a b, (a, b) ∈ r.segs.map (fun t => if t.1 = sid then (sid, n) else t) ↔
          (a = sid ∧ b = n) ∨ (a ≠ sid ∧ (a, b) ∈ r.segs) := by
        intro a b
        rw [List.mem_map]
        constructor
        · rintro ⟨⟨a', b'⟩, h1, h2⟩
          simp only at h2
          split at h2
          · simp only [Prod.mk.injEq] at h2
            exact Or.inl ⟨h2.1.symm, h2.2.symm⟩
          · rename_i hne
            simp only [Prod.mk.injEq] at h2
            obtain ⟨rfl, rfl⟩ := h2
            exact Or.inr ⟨hne, h1⟩
        · rintro (⟨rfl, rfl⟩ | ⟨h1, h2⟩)
          · exact ⟨_, hsm, by simp⟩
          · exact ⟨_, h2, by simp [h1]⟩
      refine ⟨⟨?_, ?_, ?_, ?_, ?_⟩, fun _ _ => ⟨rfl, (hmem _ _).2 (Or.inl ⟨rfl, rfl⟩)⟩⟩
      · have e : (r.segs.map (fun t => if t.1 = sid then (sid, n) else t)).map (·.1) = r.segs.map (·.1) := by
          rw [List.map_map]
          refine List.map_congr_left (fun t _ => ?_)
          simp only [Function.comp]
          split
          · rename_i h; simp [h]
          · rfl
        simp only [e]; exact h.ids
      · intro a b hab
        rcases (hmem a b).1 hab with ⟨rfl, rfl⟩ | ⟨h1, h2⟩
        · simp
        · have hb := h.fwd _ _ h2
          have hbn : b ≠ n := by
            rintro rfl; rw [hfree] at hb; cases hb
          have hbs : b ≠ sn := by
            rintro rfl
            have := h.fwd _ _ hsm
            rw [hb] at this
            simp only [Option.some.injEq] at this
            exact h1 this
          simp only [if_neg hbn, if_neg hbs]
          exact hb
      · intro n' p hp
        simp only at hp
        split at hp
        · rename_i hnn
          simp only [Option.some.injEq] at hp
          exact ⟨sid, hp.symm, (hmem _ _).2 (Or.inl ⟨rfl, hnn⟩)⟩
        · split at hp
          · cases hp
          · rename_i hns
            obtain ⟨a, h1, h2⟩ := h.bwd _ _ hp
            refine ⟨a, h1, (hmem _ _).2 (Or.inr ⟨?_, h2⟩)⟩
            rintro rfl
            exact hns (huniq _ h2)
      · intro a b hab
        rcases (hmem a b).1 hab with ⟨rfl, rfl⟩ | ⟨h1, h2⟩
        · exact Or.inr hn
        · exact h.plain _ _ h2
      · intro a b hab
        rcases (hmem a b).1 hab with ⟨rfl, rfl⟩ | ⟨h1, h2⟩
        · exact h.high _ _ hsm
        · exact h.high _ _ h2

omit [DecidableEq N] in
theorem RegInv.fresh {nm : Int → N} {r : Reg N} (h : RegInv nm r) :
    r.highest + 1 ∉ r.segs.map (·.1) := by
  intro hm
  obtain ⟨⟨a, b⟩, h1, h2⟩ := List.mem_map.1 hm
  have := h.high _ _ h1
  simp only at h2
  omega

theorem RegInv.getMakeName {nm : Int → N} (hnm : Function.Injective nm) {r : Reg N} (h : RegInv nm r)
    (n : N) (hn : ∀ i, n ≠ nm i) : RegInv nm (r.getMakeName nm n).1 ∧
    ∃ id, (r.getMakeName nm n).2 = .ok id ∧ (id, n) ∈ (r.getMakeName nm n).1.segs := by
  unfold Reg.getMakeName
  split
  · rename_i id hid
    obtain ⟨a, h1, h2⟩ := h.bwd _ _ hid
    simp only [Option.some.injEq] at h1
    subst h1
    exact ⟨h, id, rfl, h2⟩
  · rename_i hd
    obtain ⟨a, h1, _⟩ := h.bwd _ _ hd
    cases h1
  · rename_i hfree
    obtain ⟨h1, h2, h3, h4⟩ := h.getMakeId hnm (r.highest + 1) (r.highest + 1) (by omega)
    have hm : r.makeSegment nm = (Reg.getMakeId nm { r with highest := r.highest + 1 } (r.highest + 1)) := rfl
    generalize Reg.getMakeId nm { r with highest := r.highest + 1 } (r.highest + 1) = q at h1 h2 h3 h4 hm
    obtain ⟨r1, res⟩ := q
    simp only at h2
    subst h2
    rw [hm]
    simp only
    obtain ⟨h5, h6⟩ := h1.setName (r.highest + 1) n hn
    exact ⟨h5, _, h6 h3 (h4 h.fresh n hn hfree)⟩

theorem RegInv.step {nm : Int → N} (hnm : Function.Injective nm) {r : Reg N} (h : RegInv nm r)
    (op : ROp N) (hop : op.PlainName nm) : RegInv nm (r.step nm op).1 := by
  cases op with
  | getId id => exact (h.getMakeId hnm id r.highest le_rfl).1
  | make => exact (h.getMakeId hnm (r.highest + 1) (r.highest + 1) (by omega)).1
  | setName id n => exact (h.setName id n hop).1
  | getName n => exact (h.getMakeName hnm n hop).1

theorem run_regInv {nm : Int → N} (hnm : Function.Injective nm) : ∀ (ops : List (ROp N)) (r : Reg N),
    RegInv nm r → (∀ op ∈ ops, op.PlainName nm) → RegInv nm (r.run nm ops).1
  | [], _, h, _ => h
  | op :: ops, r, h, hp => run_regInv hnm ops _ (h.step hnm op (hp op (by simp)))
      (fun o ho => hp o (by simp [ho]))

/-- C28, partial: as long as the caller does not use numbers as names, for every history and with
exceptions caught, names are unique, the name of each segment leads to it, a name leads to the segment
having it or to a new one which gets it, and ids never fail.  Missing: names which are numbers
(`C28_violated_*`). -/
theorem C28_names_partial (nm : Int → N) (hnm : Function.Injective nm) (ops : List (ROp N))
    (hp : ∀ op ∈ ops, op.PlainName nm) :
    let r := ((Reg.empty : Reg N).run nm ops).1
    (∀ i j n, (i, n) ∈ r.segs → (j, n) ∈ r.segs → i = j) ∧
    (∀ i n, (i, n) ∈ r.segs → r.getMakeName nm n = (r, .ok i)) ∧
    (∀ n, (∀ i, n ≠ nm i) → ∃ i, (r.getMakeName nm n).2 = .ok i ∧ (i, n) ∈ (r.getMakeName nm n).1.segs) ∧
    (∀ i, (r.getMakeId nm i).2 = .ok i) ∧
    (r.makeSegment nm).2 = .ok (r.highest + 1) ∧ r.highest + 1 ∉ r.segs.map (·.1) := by
  intro r
  have h : RegInv nm r := run_regInv hnm ops _ (RegInv.empty nm) hp
  refine ⟨?_, ?_, ?_, ?_, ?_, h.fresh⟩
  · intro i j n hi hj
    have := (h.fwd _ _ hi).symm.trans (h.fwd _ _ hj)
    simpa using this
  · intro i n hi
    unfold Reg.getMakeName
    rw [h.fwd _ _ hi]
  · intro n hn
    exact (h.getMakeName hnm n hn).2
  · intro i
    exact (h.getMakeId hnm i r.highest le_rfl).2.1
  · exact (h.getMakeId hnm (r.highest + 1) (r.highest + 1) (by omega)).2.1

/-- Names for examples: numbers and letters. -/
example : ∃ nm : Int → Sum Int Char, Function.Injective nm ∧
    ∀ op ∈ [ROp.make, ROp.setName 0 (Sum.inr 'a'), ROp.getName (Sum.inr 'b'), ROp.getId 7],
      ROp.PlainName nm op :=
  ⟨Sum.inl, Sum.inl_injective, by simp [ROp.PlainName]⟩

example : ((Reg.empty : Reg (Sum Int Char)).run Sum.inl
    [ROp.make, ROp.setName 0 (Sum.inr 'a'), ROp.getName (Sum.inr 'b'), ROp.getId 7]).1.segs =
    [(0, .inr 'a'), (1, .inr 'b'), (7, .inl 7)] := by decide

/-! ### C29 -/

/-- C29, violated: after `make_segment` and `clear` the next `make_segment` throws, on a new
segmentation it does not. -/
theorem C29_violated_make (nm : Int → N) :
    (((Reg.empty : Reg N).run nm [.make]).1.clear.makeSegment nm).2 = .throws ∧
    ((Reg.empty : Reg N).makeSegment nm).2 = .ok 0 := by
  simp [Reg.run, Reg.step, Reg.makeSegment, Reg.getMakeId, Reg.empty, Reg.clear]

/-- C29, violated: asking for a name used before `clear` dereferences a dangling pointer. -/
theorem C29_violated_name (nm : Int → N) (n : N) (r : Reg N) (h : r.names n ≠ none) :
    (r.clear.getMakeName nm n).2 = .undefined := by
  obtain ⟨p, hp⟩ := Option.ne_none_iff_exists'.1 h
  simp [Reg.clear, Reg.getMakeName, hp]

example (nm : Int → N) : ((Reg.empty : Reg N).run nm [.make]).1.names (nm 0) ≠ none := by
  simp [Reg.run, Reg.step, Reg.makeSegment, Reg.getMakeId, Reg.empty]

/-- The operation mentions no name of the set `D`. -/
def ROp.Avoids (D : N → Prop) : ROp N → Prop
  | .setName _ n => ¬ D n
  | .getName n => ¬ D n
  | _ => True

/-- Same segments and names outside `D`. -/
structure SameUpTo (D : N → Prop) (r r' : Reg N) : Prop where
  segs : r.segs = r'.segs
  highest : r.highest = r'.highest
  names : ∀ n, ¬ D n → r.names n = r'.names n
  own : ∀ id n, (id, n) ∈ r.segs → ¬ D n

theorem SameUpTo.getMakeId {nm : Int → N} {D : N → Prop} (hD : ∀ i, ¬ D (nm i)) {r r' : Reg N}
    (h : SameUpTo D r r') (id : Int) :
    (r.getMakeId nm id).2 = (r'.getMakeId nm id).2 ∧
    SameUpTo D (r.getMakeId nm id).1 (r'.getMakeId nm id).1 := by
  unfold Reg.getMakeId
  rw [h.segs, h.highest]
  split
  · exact ⟨rfl, h⟩
  · rw [h.names _ (hD id)]
    simp only
    have hown : ∀ a n, (a, n) ∈ r'.segs ++ [(id, nm id)] → ¬ D n := by
      intro a n hm
      simp only [List.mem_append, List.mem_singleton, Prod.mk.injEq] at hm
      rcases hm with hm | ⟨_, rfl⟩
      · exact h.own a n (h.segs ▸ hm)
      · exact hD id
    split
    · exact ⟨rfl, ⟨rfl, rfl, h.names, hown⟩⟩
    · refine ⟨rfl, ⟨rfl, rfl, ?_, hown⟩⟩
      intro n hn
      simp only
      rw [h.names n hn]

theorem SameUpTo.setName {D : N → Prop} {r r' : Reg N} (h : SameUpTo D r r') (id : Int) (n : N)
    (hn : ¬ D n) : (r.setName id n).2 = (r'.setName id n).2 ∧
    SameUpTo D (r.setName id n).1 (r'.setName id n).1 := by
  unfold Reg.setName
  rw [h.segs, h.names n hn]
  split
  · exact ⟨rfl, h⟩
  · split
    · exact ⟨rfl, h⟩
    · refine ⟨rfl, ⟨rfl, h.highest, ?_, ?_⟩⟩
      · intro n' hn'
        simp only
        rw [h.names n' hn']
      · intro a b hab
        simp only [List.mem_map] at hab
        obtain ⟨t, ht, he⟩ := hab
        split at he
        · simp only [Prod.mk.injEq] at he
          rw [← he.2]; exact hn
        · subst he
          exact h.own a b (h.segs ▸ ht)

theorem SameUpTo.step {nm : Int → N} {D : N → Prop} (hD : ∀ i, ¬ D (nm i)) {r r' : Reg N}
    (h : SameUpTo D r r') (op : ROp N) (hop : op.Avoids D) :
    (r.step nm op).2 = (r'.step nm op).2 ∧ SameUpTo D (r.step nm op).1 (r'.step nm op).1 := by
  have hmake : (r.makeSegment nm).2 = (r'.makeSegment nm).2 ∧
      SameUpTo D (r.makeSegment nm).1 (r'.makeSegment nm).1 := by
    unfold Reg.makeSegment
    rw [h.highest]
    exact SameUpTo.getMakeId (r := { r with highest := r'.highest + 1 })
      (r' := { r' with highest := r'.highest + 1 }) hD ⟨h.segs, rfl, h.names, h.own⟩ _
  cases op with
  | getId id => exact h.getMakeId hD id
  | make => exact hmake
  | setName id n => exact h.setName id n hop
  | getName n =>
    simp only [Reg.step, Reg.getMakeName]
    rw [h.names n hop]
    split
    · exact ⟨rfl, h⟩
    · exact ⟨rfl, h⟩
    · obtain ⟨h1, h2⟩ := hmake
      generalize r.makeSegment nm = p at h1 h2
      generalize r'.makeSegment nm = q at h1 h2
      obtain ⟨p1, p2⟩ := p
      obtain ⟨q1, q2⟩ := q
      simp only at h1 h2
      subst h1
      cases p2 with
      | ok id => exact h2.setName id n hop
      | throws => exact ⟨rfl, h2⟩
      | undefined => exact ⟨rfl, h2⟩

/-- C29, partial: if no name that is a number is registered at the time of `clear` and later calls
avoid the registered names, all later calls give the same results as on a new segmentation.
Missing: reuse of names and default names (`C29_violated_make`, `C29_violated_name`) and the element
set of the segmentation (`C29_violated_all_elements`). -/
theorem C29_clear_partial (nm : Int → N) (r : Reg N) (hD : ∀ i, r.names (nm i) = none)
    (ops : List (ROp N)) (hops : ∀ op ∈ ops, op.Avoids (fun n => r.names n ≠ none)) :
    (r.clear.run nm ops).2 = ((Reg.empty : Reg N).run nm ops).2 ∧
    (r.clear.run nm ops).1.segs = ((Reg.empty : Reg N).run nm ops).1.segs := by
  have key : ∀ (ops : List (ROp N)) (a b : Reg N), SameUpTo (fun n => r.names n ≠ none) a b →
      (∀ op ∈ ops, op.Avoids (fun n => r.names n ≠ none)) →
      (a.run nm ops).2 = (b.run nm ops).2 ∧ (a.run nm ops).1.segs = (b.run nm ops).1.segs := by
    intro ops
    induction ops with
    | nil => exact fun a b h _ => ⟨rfl, h.segs⟩
    | cons op ops ih =>
      intro a b h hop
      obtain ⟨h1, h2⟩ := h.step (nm := nm) (by intro i; simp [hD]) op (hop op (by simp))
      obtain ⟨h3, h4⟩ := ih _ _ h2 (fun o ho => hop o (by simp [ho]))
      exact ⟨by simp only [Reg.run]; rw [h1, h3], h4⟩
  refine key ops _ _ ⟨rfl, rfl, ?_, by simp [Reg.clear]⟩ hops
  intro n hn
  simp only [ne_eq, not_not] at hn
  simp [Reg.clear, Reg.empty, hn]

example : let r := ((Reg.empty : Reg (Sum Int Char)).run Sum.inl [.make, .setName 0 (.inr 'a')]).1
    r.names (.inr 'a') ≠ none ∧ ∀ i, r.names (.inl i) = none := by
  simp [Reg.run, Reg.step, Reg.makeSegment, Reg.getMakeId, Reg.setName, Reg.empty]

end VG
