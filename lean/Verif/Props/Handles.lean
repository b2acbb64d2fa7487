import Verif.Model.Handles
import Mathlib.Data.List.Nodup
import Mathlib.Data.List.Basic

/-!
C103: handles while elements are created.

Specification.  `KeepsHandles s k`: handles of kind `k` to elements in a container `s` are not invalidated when elements are put in.
-/

namespace VG

/-- Pointers stay valid except in vectors, iterators stay valid in lists, sets and maps, ids always. -/
def KeepsHandles (s : Store) (k : HandleKind) : Prop :=
  match k with
  | .pointer => s ≠ .vector
  | .iterator => s = .list ∨ s = .tree
  | .id => True

/-- The kind of a handle. -/
def CHandle.kind : CHandle → HandleKind
  | .ptr _ => .pointer
  | .iter _ _ => .iterator
  | .id _ => .id

/-- A container after any insertions. -/
def ContReached (s : Store) (grow : Nat → Nat) (c : Cont) : Prop := ∃ l, Cont.empty.inserts s grow l = c

/-! ### Lemmas -/

/-- What is always true of a container. -/
structure ContInv (c : Cont) : Prop where
  addrs : (c.slots.map CSlot.addr).Nodup
  fresh : ∀ x ∈ c.slots, 0 < x.addr ∧ x.addr < c.next
  pos : 0 < c.next

theorem mem_placeByKey {x y : CSlot} : ∀ {l : List CSlot}, y ∈ placeByKey x l ↔ y = x ∨ y ∈ l
  | [] => by simp [placeByKey]
  | z :: l => by
    unfold placeByKey
    split
    · simp
    · rw [List.mem_cons, mem_placeByKey, List.mem_cons]
      constructor
      · rintro (h | h | h)
        · exact Or.inr (Or.inl h)
        · exact Or.inl h
        · exact Or.inr (Or.inr h)
      · rintro (h | h | h)
        · exact Or.inr (Or.inl h)
        · exact Or.inl h
        · exact Or.inr (Or.inr h)

theorem placeByKey_perm (x : CSlot) : ∀ l : List CSlot, (placeByKey x l).Perm (x :: l)
  | [] => List.Perm.refl _
  | z :: l => by
    unfold placeByKey
    split
    · exact List.Perm.refl _
    · exact ((placeByKey_perm x l).cons z).trans (List.Perm.swap _ _ _)

theorem moveAll_spec (a : Nat) : ∀ l : List CSlot, (moveAll a l).map CSlot.addr = List.range' a l.length ∧
    (moveAll a l).map CSlot.num = l.map CSlot.num ∧ (moveAll a l).map CSlot.eid = l.map CSlot.eid
  | [] => ⟨rfl, rfl, rfl⟩
  | x :: l => by
    obtain ⟨h1, h2, h3⟩ := moveAll_spec (a + 1) l
    refine ⟨?_, ?_, ?_⟩
    · simp only [moveAll, List.map_cons, h1, List.length_cons, List.range'_succ]
    · simp only [moveAll, List.map_cons, h2]
    · simp only [moveAll, List.map_cons, h3]

theorem moveAll_ids (a : Nat) : ∀ l : List CSlot, (moveAll a l).map (fun x => (x.eid, x.num)) = l.map (fun x => (x.eid, x.num))
  | [] => rfl
  | x :: l => by simp only [moveAll, List.map_cons, moveAll_ids (a + 1) l]

theorem moveAll_length (a : Nat) (l : List CSlot) : (moveAll a l).length = l.length := by
  have := congrArg List.length (moveAll_spec a l).2.1
  simpa using this

theorem contInv_cons {c : Cont} (h : ContInv c) {l : List CSlot} {x : CSlot} (hx : x.addr = c.next) (hp : l.Perm (x :: c.slots))
    (e cap : Nat) : ContInv ⟨l, c.next + 1, e, cap⟩ := by
  refine ⟨?_, ?_, by show 0 < c.next + 1; omega⟩
  · refine (hp.map CSlot.addr).nodup_iff.2 ?_
    rw [List.map_cons, List.nodup_cons]
    refine ⟨fun hm => ?_, h.addrs⟩
    obtain ⟨y, hy, e⟩ := List.mem_map.1 hm
    have := (h.fresh y hy).2
    omega
  · intro y hy
    show 0 < y.addr ∧ y.addr < c.next + 1
    rcases List.mem_cons.1 (hp.mem_iff.1 hy) with rfl | hy
    · have := h.pos; omega
    · have := h.fresh y hy; omega

theorem insert_inv {c : Cont} (h : ContInv c) (s : Store) (k : HandleKind) (grow : Nat → Nat) (i : Int) (key : Nat) :
    ContInv (c.insert s k grow i key).1 := by
  unfold Cont.insert
  cases s with
  | vector =>
    dsimp only
    split
    · exact contInv_cons h rfl (List.perm_append_singleton _ _) _ _
    · refine ⟨?_, ?_, by show 0 < c.next + c.slots.length + 1; omega⟩
      · simp only [List.map_append, (moveAll_spec _ _).1, List.map_cons, List.map_nil]
        rw [List.nodup_append]
        refine ⟨List.nodup_range', by simp, fun a ha b hb e => ?_⟩
        rw [List.mem_range'_1] at ha
        simp only [List.mem_cons, List.not_mem_nil, or_false] at hb
        omega
      · intro x hx
        rcases List.mem_append.1 hx with hx | hx
        · have : x.addr ∈ List.range' c.next c.slots.length := by
            rw [← (moveAll_spec c.next c.slots).1]; exact List.mem_map.2 ⟨x, hx, rfl⟩
          rw [List.mem_range'_1] at this
          have := h.pos
          show 0 < x.addr ∧ x.addr < c.next + c.slots.length + 1
          omega
        · simp only [List.mem_cons, List.not_mem_nil, or_false] at hx
          subst hx
          have := h.pos
          show 0 < c.next + c.slots.length ∧ c.next + c.slots.length < c.next + c.slots.length + 1
          omega
  | deque => exact contInv_cons h rfl (List.perm_append_singleton _ _) _ _
  | list => exact contInv_cons h rfl (List.perm_append_singleton _ _) _ _
  | tree =>
    dsimp only
    split
    · exact h
    · exact contInv_cons h rfl (placeByKey_perm _ _) _ _

theorem inserts_inv {s : Store} {grow : Nat → Nat} : ∀ {l : List (Int × Nat)} {c : Cont}, ContInv c → ContInv (c.inserts s grow l)
  | [], _, h => h
  | (i, key) :: l, _, h => inserts_inv (l := l) (insert_inv h s .pointer grow i key)

theorem ContReached.inv {s : Store} {grow : Nat → Nat} {c : Cont} (h : ContReached s grow c) : ContInv c := by
  obtain ⟨l, rfl⟩ := h
  exact inserts_inv ⟨by simp [Cont.empty], by simp [Cont.empty], by decide⟩

theorem find_unique {β : Type} [DecidableEq β] (f : CSlot → β) : ∀ {l : List CSlot}, (l.map f).Nodup → ∀ {x : CSlot}, x ∈ l →
    l.find? (fun y => f y == f x) = some x
  | [], _, _, h => absurd h (by simp)
  | y :: l, hn, x, h => by
    rw [List.map_cons, List.nodup_cons] at hn
    by_cases e : f y = f x
    · rw [List.find?_cons_of_pos (by simp [e])]
      rcases List.mem_cons.1 h with rfl | h
      · rfl
      · exact absurd (List.mem_map.2 ⟨x, h, e.symm⟩) hn.1
    · rw [List.find?_cons_of_neg (by simp [e])]
      rcases List.mem_cons.1 h with rfl | h
      · exact absurd rfl e
      · exact find_unique f hn.2 h

/-- Insertion and what was there before, except in vectors. -/
theorem insert_mem {s : Store} (hs : s ≠ .vector) {k : HandleKind} {grow : Nat → Nat} {c : Cont} {i : Int} {key : Nat} {x : CSlot}
    (hx : x ∈ c.slots) : x ∈ (c.insert s k grow i key).1.slots := by
  unfold Cont.insert
  cases s with
  | vector => exact absurd rfl hs
  | deque => exact List.mem_append_left _ hx
  | list => exact List.mem_append_left _ hx
  | tree =>
    dsimp only
    split
    · exact hx
    · exact mem_placeByKey.2 (Or.inr hx)

theorem inserts_mem {s : Store} (hs : s ≠ .vector) {grow : Nat → Nat} {x : CSlot} : ∀ {l : List (Int × Nat)} {c : Cont},
    x ∈ c.slots → x ∈ (c.inserts s grow l).slots
  | [], _, h => h
  | _ :: l, _, h => inserts_mem hs (l := l) (insert_mem hs h)

/-- The element with an id is still there, in each container. -/
theorem insert_id {s : Store} {k : HandleKind} {grow : Nat → Nat} {c : Cont} {i : Int} {key : Nat} {x : CSlot}
    (hx : x ∈ c.slots) : ∃ y ∈ (c.insert s k grow i key).1.slots, y.eid = x.eid ∧ y.num = x.num := by
  by_cases hs : s = .vector
  · subst hs
    unfold Cont.insert
    dsimp only
    split
    · exact ⟨x, List.mem_append_left _ hx, rfl, rfl⟩
    · have : (x.eid, x.num) ∈ (moveAll c.next c.slots).map (fun x => (x.eid, x.num)) := by
        rw [moveAll_ids]; exact List.mem_map.2 ⟨x, hx, rfl⟩
      obtain ⟨y, hy, e⟩ := List.mem_map.1 this
      exact ⟨y, List.mem_append_left _ hy, (Prod.mk.inj e).1, (Prod.mk.inj e).2⟩
  · exact ⟨x, insert_mem hs hx, rfl, rfl⟩

theorem inserts_id {s : Store} {grow : Nat → Nat} : ∀ {l : List (Int × Nat)} {c : Cont} {x : CSlot},
    x ∈ c.slots → ∃ y ∈ (c.inserts s grow l).slots, y.eid = x.eid ∧ y.num = x.num
  | [], _, x, h => ⟨x, h, rfl, rfl⟩
  | _ :: l, _, _, h => by
    obtain ⟨y, hy, e1, e2⟩ := insert_id h
    obtain ⟨z, hz, e3, e4⟩ := inserts_id (l := l) hy
    exact ⟨z, hz, e3.trans e1, e4.trans e2⟩

theorem find_addr_kept {s : Store} (hs : s ≠ .vector) {grow : Nat → Nat} {c : Cont} (h : ContInv c) {l : List (Int × Nat)} {a n : Nat}
    (hd : (c.slots.find? (fun x => x.addr == a)).map CSlot.num = some n) :
    ((c.inserts s grow l).slots.find? (fun x => x.addr == a)).map CSlot.num = some n := by
  obtain ⟨x, h1, h2⟩ := Option.map_eq_some_iff.1 hd
  have hx := List.mem_of_find?_eq_some h1
  have ha : x.addr = a := by simpa using List.find?_some h1
  subst ha
  rw [find_unique CSlot.addr (inserts_inv (s := s) (grow := grow) h).addrs (inserts_mem hs hx)]
  exact congrArg some h2

/-! ### The theorems -/

/-- C103: in each of the cases of `KeepsHandles`, a handle that refers to an element refers to the same element after any further
insertions.  For ids, no two elements may have the same id in the end. -/
theorem C103_kept_partial {s : Store} {grow : Nat → Nat} {c : Cont} (hc : ContReached s grow c) {h : CHandle} (hk : KeepsHandles s h.kind) {n : Nat}
    (hd : c.deref s h = some n) (l : List (Int × Nat)) (hid : h.kind = .id → ((c.inserts s grow l).slots.map CSlot.eid).Nodup) :
    (c.inserts s grow l).deref s h = some n := by
  have hI := hc.inv
  cases h with
  | ptr a => exact find_addr_kept hk hI hd
  | iter e a =>
    cases a with
    | none => cases hd
    | some a =>
      rcases hk with rfl | rfl
      · exact find_addr_kept (by decide) hI hd
      · exact find_addr_kept (by decide) hI hd
  | id i =>
    obtain ⟨x, h1, h2⟩ := Option.map_eq_some_iff.1 hd
    have hx := List.mem_of_find?_eq_some h1
    have hi : x.eid = i := by simpa using List.find?_some h1
    subst hi
    obtain ⟨y, hy, e1, e2⟩ := inserts_id (s := s) (grow := grow) (l := l) hx
    show ((c.inserts s grow l).slots.find? (fun z => z.eid == x.eid)).map CSlot.num = some n
    rw [← e1, find_unique CSlot.eid (hid rfl) hy]
    exact congrArg some (e2.trans h2)

/-- In the other cases (pointers into vectors, iterators into vectors and deques) this is not so: a handle returned by an
insertion is undefined after two more. -/
theorem C103_violated {s : Store} {k : HandleKind} (hk : ¬ KeepsHandles s k) : ∃ (grow : Nat → Nat) (l : List (Int × Nat)),
    let q := Cont.empty.insert s k grow 0 0
    q.1.deref s q.2.1 = some 0 ∧ (q.1.inserts s grow l).deref s q.2.1 = none := by
  refine ⟨fun n => 2 * n, [(1, 1), (2, 2)], ?_⟩
  cases k with
  | pointer =>
    cases s with
    | vector => decide
    | deque => exact absurd (by simp [KeepsHandles]) hk
    | list => exact absurd (by simp [KeepsHandles]) hk
    | tree => exact absurd (by simp [KeepsHandles]) hk
  | iterator =>
    cases s with
    | vector => decide
    | deque => decide
    | list => exact absurd (by simp [KeepsHandles]) hk
    | tree => exact absurd (by simp [KeepsHandles]) hk
  | id => exact absurd trivial hk

/-- The handle that insertion returns refers to the new element, which has the id, or, in a set or map, to the element
with the same key that was there.  For ids, no two elements may have the same id. -/
theorem C103_inserted {s : Store} {grow : Nat → Nat} {c : Cont} (hc : ContReached s grow c) (k : HandleKind) (i : Int) (key : Nat)
    (hid : k = .id → ((c.insert s k grow i key).1.slots.map CSlot.eid).Nodup) :
    ∃ x ∈ (c.insert s k grow i key).1.slots, x.key = key ∧
      (c.insert s k grow i key).1.deref s (c.insert s k grow i key).2.1 = some x.num ∧
      ((c.insert s k grow i key).2.2 = true → x.num = c.slots.length ∧ x.eid = i ∧
        (c.insert s k grow i key).1.slots.length = c.slots.length + 1) ∧
      ((c.insert s k grow i key).2.2 = false → x ∈ c.slots ∧ (c.insert s k grow i key).1 = c) := by
  have key1 : ∀ {c' : Cont} {x : CSlot}, ContInv c' → x ∈ c'.slots → (k = .id → (c'.slots.map CSlot.eid).Nodup) →
      c'.deref s (c'.handleOf k x) = some x.num := by
    intro c' x h hx hn
    cases k with
    | pointer =>
      show (c'.slots.find? (fun y => y.addr == x.addr)).map CSlot.num = _
      rw [find_unique CSlot.addr h.addrs hx]; rfl
    | iterator =>
      simp only [Cont.handleOf, find_unique CSlot.addr h.addrs hx, Option.map_some, Cont.deref]
      rw [if_pos]
      cases s <;> simp [Cont.usable]
    | id =>
      show (c'.slots.find? (fun y => y.eid == x.eid)).map CSlot.num = _
      rw [find_unique CSlot.eid (hn rfl) hx]; rfl
  have hI' := insert_inv hc.inv s k grow i key
  unfold Cont.insert at hI' hid ⊢
  cases s with
  | vector =>
    dsimp only at hI' hid ⊢
    split
    · rename_i h1
      rw [if_pos h1] at hI' hid
      exact ⟨_, List.mem_append_right _ (List.mem_singleton.2 rfl), rfl, key1 hI' (List.mem_append_right _ (List.mem_singleton.2 rfl)) hid,
        fun _ => ⟨rfl, rfl, by simp⟩, fun h => by cases h⟩
    · rename_i h1
      rw [if_neg h1] at hI' hid
      exact ⟨_, List.mem_append_right _ (List.mem_singleton.2 rfl), rfl, key1 hI' (List.mem_append_right _ (List.mem_singleton.2 rfl)) hid,
        fun _ => ⟨rfl, rfl, by simp [moveAll_length]⟩, fun h => by cases h⟩
  | deque =>
    exact ⟨_, List.mem_append_right _ (List.mem_singleton.2 rfl), rfl, key1 hI' (List.mem_append_right _ (List.mem_singleton.2 rfl)) hid,
      fun _ => ⟨rfl, rfl, by simp⟩, fun h => by cases h⟩
  | list =>
    exact ⟨_, List.mem_append_right _ (List.mem_singleton.2 rfl), rfl, key1 hI' (List.mem_append_right _ (List.mem_singleton.2 rfl)) hid,
      fun _ => ⟨rfl, rfl, by simp⟩, fun h => by cases h⟩
  | tree =>
    dsimp only at hI' hid ⊢
    cases hf : c.slots.find? (fun y => y.key == key) with
    | some y =>
      rw [hf] at hI' hid
      have hy := List.mem_of_find?_eq_some hf
      exact ⟨y, hy, by simpa using List.find?_some hf, key1 hI' hy hid, fun h => (by cases h), fun _ => ⟨hy, rfl⟩⟩
    | none =>
      rw [hf] at hI' hid
      exact ⟨_, mem_placeByKey.2 (Or.inl rfl), rfl, key1 hI' (mem_placeByKey.2 (Or.inl rfl)) hid,
        fun _ => ⟨rfl, rfl, by simpa using (placeByKey_perm _ _).length_eq⟩, fun h => by cases h⟩

/-- A handle that refers to an element is not reported as invalid, unless the element has the id -1; the handle made by
`set_handle_invalid` is reported as invalid, and refers to nothing unless an element has that id. -/
theorem C103_invalid_partial {s : Store} {grow : Nat → Nat} {c : Cont} (hc : ContReached s grow c) :
    (∀ h n, c.deref s h = some n → (h.kind = .id → ∀ x ∈ c.slots, x.eid ≠ -1) → c.isInvalid h = false) ∧
    (∀ k, c.isInvalid (c.invalidHandle k) = true ∧
      ((k = .id → ∀ x ∈ c.slots, x.eid ≠ -1) → c.deref s (c.invalidHandle k) = none)) := by
  have hI := hc.inv
  refine ⟨fun h n hd hid => ?_, fun k => ?_⟩
  · cases h with
    | ptr a =>
      obtain ⟨x, h1, _⟩ := Option.map_eq_some_iff.1 hd
      have hx := hI.fresh x (List.mem_of_find?_eq_some h1)
      have ha : x.addr = a := by simpa using List.find?_some h1
      have : a ≠ 0 := by omega
      simp [Cont.isInvalid, Cont.invalidHandle, this]
    | iter e a =>
      cases a with
      | none => cases hd
      | some a => rfl
    | id i =>
      obtain ⟨x, h1, _⟩ := Option.map_eq_some_iff.1 hd
      have hx := hid rfl x (List.mem_of_find?_eq_some h1)
      have hi : x.eid = i := by simpa using List.find?_some h1
      rw [hi] at hx
      simp [Cont.isInvalid, Cont.invalidHandle, hx]
  · cases k with
    | pointer =>
      refine ⟨rfl, fun _ => ?_⟩
      show (c.slots.find? (fun x => x.addr == 0)).map CSlot.num = none
      rw [Option.map_eq_none_iff, List.find?_eq_none]
      intro x hx
      have := (hI.fresh x hx).1
      simp; omega
    | iterator => exact ⟨rfl, fun _ => rfl⟩
    | id =>
      refine ⟨rfl, fun hid => ?_⟩
      show (c.slots.find? (fun x => x.eid == -1)).map CSlot.num = none
      rw [Option.map_eq_none_iff, List.find?_eq_none]
      intro x hx
      simpa using hid rfl x hx

/-- An element with the id -1 (a vertex can be created with it) has a handle that is reported as invalid though it refers
to the element. -/
theorem C103_violated_invalid (s : Store) (grow : Nat → Nat) : ∃ c, ContReached s grow c ∧ ∃ h, c.deref s h = some 0 ∧ c.isInvalid h = true := by
  refine ⟨_, ⟨[(-1, 0)], rfl⟩, .id (-1), ?_, rfl⟩
  cases s <;> rfl

/-- With the default containers of the configurations, pointers and ids (the default is pointers) are of this sort for each type of
elements; iterators are not for vertices and cells, but would be if both were kept in lists. -/
theorem C103_configurations_partial (cell t : ElemTag) :
    KeepsHandles (storeOf .deque .deque (defaultContainer cell t)) .pointer ∧ KeepsHandles (storeOf .deque .deque (defaultContainer cell t)) .id ∧
    (KeepsHandles (storeOf .deque .deque (defaultContainer cell t)) .iterator ↔ t ≠ vertexTag ∧ t ≠ cell) ∧
    KeepsHandles (storeOf .list .list (defaultContainer cell t)) .iterator := by
  unfold defaultContainer
  by_cases h1 : t = vertexTag
  · simp [h1, storeOf, KeepsHandles]
  · by_cases h2 : t = cell
    · simp only [if_neg h1, if_pos h2]
      simp [storeOf, KeepsHandles, h2]
    · simp only [if_neg h1, if_neg h2]
      simp [storeOf, KeepsHandles, h1, h2]

/-- The hypotheses are met: pointers into a deque, and ids in a vector, which moves its elements. -/
example : ∃ c, ContReached .deque (fun n => 2 * n) c ∧ KeepsHandles .deque (CHandle.ptr 1).kind ∧ c.deref .deque (.ptr 1) = some 0 ∧ c.slots.length = 2 :=
  ⟨_, ⟨[(0, 0), (1, 1)], rfl⟩, by simp [KeepsHandles, CHandle.kind], rfl, rfl⟩

example : ∃ c, ContReached .vector (fun n => 2 * n) c ∧ KeepsHandles .vector (CHandle.id 7).kind ∧ c.deref .vector (.id 7) = some 0 ∧
    ((c.inserts .vector (fun n => 2 * n) [(8, 0), (9, 0)]).slots.map CSlot.eid).Nodup :=
  ⟨_, ⟨[(7, 0)], rfl⟩, trivial, rfl, by decide⟩

/-- Maps put new elements before others: the element put in first has the place 1 in the end, and its handles refer to it. -/
example : let q := Cont.empty.insert .tree .iterator (fun n => n) 0 5
    (q.1.inserts .tree (fun n => n) [(1, 3), (2, 5)]).slots.map CSlot.num = [1, 0] ∧
      (q.1.inserts .tree (fun n => n) [(1, 3), (2, 5)]).deref .tree q.2.1 = some 0 := by decide

end VG
