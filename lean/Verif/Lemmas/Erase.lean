import Verif.Model.Erase
import Verif.Lemmas.MeshCopy
import Verif.Lemmas.Segments
import Verif.Props.Queries

/-! Helper lemmas for the erasure of elements. -/

namespace VG

variable {P : Type}

/-- The element at address `a` has id `i`. -/
def EMesh.At (M : EMesh) (k a : Nat) (i : Int) : Prop := ∃ y ∈ M.nodes k, y.addr = a ∧ y.id = i

/-- Storage is sane: addresses and ids are distinct per dimension, references go to stored elements
of smaller dimension. -/
structure EWF (M : EMesh) : Prop where
  addrs : ∀ d, ((M.nodes d).map (·.addr)).Nodup
  ids : ∀ d, ((M.nodes d).map (·.id)).Nodup
  refs : ∀ d, ∀ x ∈ M.nodes d, ∀ k, ∀ a ∈ x.bnd k, k < d ∧ ∃ y ∈ M.nodes k, y.addr = a

/-- There is an element of dimension `d` with id `i`, whose boundary elements of dimension `k` are,
in order, those with the ids `c k`. -/
def EMesh.Content (M : EMesh) (d : Nat) (i : Int) (c : Nat → List Int) : Prop :=
  ∃ x ∈ M.nodes d, x.id = i ∧ ∀ k, List.Forall₂ (M.At k) (x.bnd k) (c k)

theorem nodup_map_inj {α β : Type} {f : α → β} {l : List α} (h : (l.map f).Nodup) {a b : α}
    (ha : a ∈ l) (hb : b ∈ l) (hf : f a = f b) : a = b := List.inj_on_of_nodup_map h ha hb hf

theorem EWF.addr_inj {M : EMesh} (h : EWF M) {d : Nat} {x y : ENode} (hx : x ∈ M.nodes d)
    (hy : y ∈ M.nodes d) (e : x.addr = y.addr) : x = y := nodup_map_inj (h.addrs d) hx hy e

theorem EWF.id_inj {M : EMesh} (h : EWF M) {d : Nat} {x y : ENode} (hx : x ∈ M.nodes d)
    (hy : y ∈ M.nodes d) (e : x.id = y.id) : x = y := nodup_map_inj (h.ids d) hx hy e

theorem lastByKey_mem : ∀ {l : List ENode} {b : ENode}, lastByKey l = some b → b ∈ l
  | [], _, h => by simp [lastByKey] at h
  | n :: l, b, h => by
    unfold lastByKey at h
    split at h
    · simp at h; simp [h]
    · rename_i c hc
      split at h
      · simp at h; subst h; simp [lastByKey_mem hc]
      · simp at h; simp [h]

theorem lastByKey_isSome : ∀ {l : List ENode}, l ≠ [] → ∃ b, lastByKey l = some b
  | [], h => absurd rfl h
  | n :: l, _ => by
    unfold lastByKey
    split
    · exact ⟨_, rfl⟩
    · split <;> exact ⟨_, rfl⟩

theorem backNode_mem {c d : Nat} {l : List ENode} {b : ENode} (h : backNode c d l = some b) : b ∈ l := by
  unfold backNode at h
  split at h
  · exact List.mem_of_getLast? h
  · exact lastByKey_mem h

theorem backNode_isSome (c d : Nat) {l : List ENode} (h : l ≠ []) : ∃ b, backNode c d l = some b := by
  unfold backNode
  split
  · exact ⟨_, List.getLast?_eq_some_getLast h⟩
  · exact lastByKey_isSome h

/-- What one erasure does to the storage: the element at address `n` of dimension `d` disappears, the
others of that dimension move according to `f`, and references of dimension `d` are renamed. -/
structure Moved (M M' : EMesh) (d n : Nat) (f : Nat → Nat) : Prop where
  old : ∀ x' ∈ M'.nodes d, ∃ x ∈ M.nodes d, x.addr ≠ n ∧ x'.addr = f x.addr ∧ x'.id = x.id ∧
    x'.bnd = x.bnd
  kept : ∀ x ∈ M.nodes d, x.addr ≠ n → ∃ x' ∈ M'.nodes d, x'.addr = f x.addr ∧ x'.id = x.id ∧
    x'.bnd = x.bnd
  inj : ∀ x ∈ M.nodes d, ∀ y ∈ M.nodes d, x.addr ≠ n → y.addr ≠ n → f x.addr = f y.addr → x = y
  nodup : ((M'.nodes d).map (·.addr)).Nodup
  other : ∀ k, k ≠ d → List.Forall₂ (fun (x x' : ENode) => x'.addr = x.addr ∧ x'.id = x.id ∧
    x'.key = x.key ∧
    ∀ j, x'.bnd j = if j = d then (x.bnd d).map f else x.bnd j) (M.nodes k) (M'.nodes k)

theorem forall₂_mem {α β : Type} {R : α → β → Prop} {l : List α} {l' : List β} (h : List.Forall₂ R l l')
    {a : α} (ha : a ∈ l) : ∃ b ∈ l', R a b := by
  induction h with
  | nil => simp at ha
  | cons h1 _ ih =>
    simp only [List.mem_cons] at ha
    rcases ha with rfl | ha
    · exact ⟨_, by simp, h1⟩
    · obtain ⟨b, hb, hr⟩ := ih ha; exact ⟨b, by simp [hb], hr⟩

theorem forall₂_mem' {α β : Type} {R : α → β → Prop} {l : List α} {l' : List β} (h : List.Forall₂ R l l')
    {b : β} (hb : b ∈ l') : ∃ a ∈ l, R a b := by
  induction h with
  | nil => simp at hb
  | cons h1 _ ih =>
    simp only [List.mem_cons] at hb
    rcases hb with rfl | hb
    · exact ⟨_, by simp, h1⟩
    · obtain ⟨a, ha, hr⟩ := ih hb; exact ⟨a, by simp [ha], hr⟩

theorem forall₂_map_eq {α β γ : Type} {R : α → β → Prop} {f : α → γ} {g : β → γ} {l : List α}
    {l' : List β} (h : List.Forall₂ R l l') (he : ∀ a b, R a b → g b = f a) : l'.map g = l.map f := by
  induction h with
  | nil => rfl
  | cons h1 _ ih => simp [he _ _ h1, ih]

theorem Moved.at_same {M M' : EMesh} {d n : Nat} {f : Nat → Nat} (h : Moved M M' d n f)
    {a : Nat} {y : ENode} (hy : y ∈ M.nodes d) (ha : y.addr = a) (han : a ≠ n) (i : Int) :
    M'.At d (f a) i ↔ M.At d a i := by
  subst ha
  constructor
  · rintro ⟨x', hx', h1, h2⟩
    obtain ⟨x, hx, h3, h4, h5, _⟩ := h.old x' hx'
    have := h.inj x hx y hy h3 han (by rw [← h4, h1])
    subst this
    exact ⟨x, hx, rfl, by rw [← h5, h2]⟩
  · rintro ⟨x, hx, h1, h2⟩
    obtain ⟨x', hx', h4, h5, _⟩ := h.kept x hx (h1 ▸ han)
    exact ⟨x', hx', by rw [h4, h1], by rw [h5, h2]⟩

theorem Moved.at_other {M M' : EMesh} {d n : Nat} {f : Nat → Nat} (h : Moved M M' d n f) {k : Nat}
    (hk : k ≠ d) (a : Nat) (i : Int) : M'.At k a i ↔ M.At k a i := by
  constructor
  · rintro ⟨x', hx', h1, h2⟩
    obtain ⟨x, hx, h3, h4, _⟩ := forall₂_mem' (h.other k hk) hx'
    exact ⟨x, hx, by rw [← h3, h1], by rw [← h4, h2]⟩
  · rintro ⟨x, hx, h1, h2⟩
    obtain ⟨x', hx', h3, h4, _⟩ := forall₂_mem (h.other k hk) hx
    exact ⟨x', hx', by rw [h3, h1], by rw [h4, h2]⟩

theorem forall₂_congr {α β : Type} {R S : α → β → Prop} {l : List α} {l' : List β}
    (h : ∀ a ∈ l, ∀ b, R a b ↔ S a b) : List.Forall₂ R l l' ↔ List.Forall₂ S l l' := by
  induction l generalizing l' with
  | nil => cases l' <;> simp
  | cons a l ih =>
    cases l' with
    | nil => simp
    | cons b l' =>
      rw [List.forall₂_cons, List.forall₂_cons, h a (by simp), ih (fun x hx => h x (by simp [hx]))]

/-- The boundary ids of an element are the same after renaming. -/
theorem Moved.bnd {M M' : EMesh} (hw : EWF M) {d n : Nat} {f : Nat → Nat} (h : Moved M M' d n f)
    (hno : ∀ k, ∀ x ∈ M.nodes k, n ∉ x.bnd d) {k : Nat} {x : ENode} (hx : x ∈ M.nodes k)
    {x' : ENode} (hb : ∀ j, x'.bnd j = if j = d then (x.bnd d).map f else x.bnd j) (j : Nat) (c : List Int) :
    List.Forall₂ (M'.At j) (x'.bnd j) c ↔ List.Forall₂ (M.At j) (x.bnd j) c := by
  rw [hb]
  by_cases hj : j = d
  · subst hj
    rw [if_pos rfl, List.forall₂_map_left_iff]
    refine forall₂_congr fun a ha i => ?_
    obtain ⟨_, y, hy, hya⟩ := hw.refs k x hx j a ha
    exact h.at_same hy hya (fun e => hno k x hx (e ▸ ha)) i
  · rw [if_neg hj]
    exact forall₂_congr fun a _ i => h.at_other hj a i

theorem Moved.content {M M' : EMesh} (hw : EWF M) {d n : Nat} {f : Nat → Nat} (h : Moved M M' d n f)
    (hno : ∀ k, ∀ x ∈ M.nodes k, n ∉ x.bnd d) {e : ENode} (he : e ∈ M.nodes d) (hen : e.addr = n)
    (d' : Nat) (i' : Int) (c : Nat → List Int) :
    M'.Content d' i' c ↔ M.Content d' i' c ∧ ¬ (d' = d ∧ i' = e.id) := by
  subst hen
  by_cases hd : d' = d
  · subst hd
    have hself : ∀ x ∈ M.nodes d', ∀ j, x.bnd j = if j = d' then (x.bnd d').map f else x.bnd j := by
      intro x hx j
      split
      · rename_i hj
        subst hj
        have : x.bnd j = [] := by
          cases hb : x.bnd j with
          | nil => rfl
          | cons a l => exact absurd (hw.refs j x hx j a (by simp [hb])).1 (lt_irrefl _)
        rw [this]; rfl
      · rfl
    constructor
    · rintro ⟨x', hx', h1, h2⟩
      obtain ⟨x, hx, h3, h4, h5, h6⟩ := h.old x' hx'
      refine ⟨⟨x, hx, by rw [← h5, h1], fun k => ?_⟩, ?_⟩
      · have := h2 k
        rw [h6] at this
        exact (h.bnd hw hno hx (hself x hx) k _).1 this
      · rintro ⟨_, rfl⟩
        exact h3 (congrArg _ (hw.id_inj hx he (by rw [← h5, h1])))
    · rintro ⟨⟨x, hx, h1, h2⟩, h3⟩
      have hne : x.addr ≠ e.addr := by
        intro hc
        have := hw.addr_inj hx he hc
        subst this
        exact h3 ⟨rfl, h1.symm⟩
      obtain ⟨x', hx', h4, h5, h6⟩ := h.kept x hx hne
      refine ⟨x', hx', by rw [h5, h1], fun k => ?_⟩
      rw [h6]
      exact (h.bnd hw hno hx (hself x hx) k _).2 (h2 k)
  · have : ¬ (d' = d ∧ i' = e.id) := fun h => hd h.1
    simp only [this, not_false_iff, and_true]
    constructor
    · rintro ⟨x', hx', h1, h2⟩
      obtain ⟨x, hx, h3, h4, _, h5⟩ := forall₂_mem' (h.other d' hd) hx'
      exact ⟨x, hx, by rw [← h4, h1], fun k => (h.bnd hw hno hx h5 k _).1 (h2 k)⟩
    · rintro ⟨x, hx, h1, h2⟩
      obtain ⟨x', hx', h3, h4, _, h5⟩ := forall₂_mem (h.other d' hd) hx
      exact ⟨x', hx', by rw [h4, h1], fun k => (h.bnd hw hno hx h5 k _).2 (h2 k)⟩

theorem Moved.wf {M M' : EMesh} (hw : EWF M) {d n : Nat} {f : Nat → Nat} (h : Moved M M' d n f)
    (hno : ∀ k, ∀ x ∈ M.nodes k, n ∉ x.bnd d) : EWF M' := by
  refine ⟨fun k => ?_, fun k => ?_, fun k x' hx' j a ha => ?_⟩
  · by_cases hk : k = d
    · subst hk; exact h.nodup
    · rw [forall₂_map_eq (h.other k hk) (f := (·.addr)) (fun a b hab => hab.1)]
      exact hw.addrs k
  · by_cases hk : k = d
    · subst hk
      refine (List.nodup_map_iff_inj_on h.nodup.of_map).2 fun x' hx' y' hy' he => ?_
      obtain ⟨x, hx, _, h4, h5, _⟩ := h.old x' hx'
      obtain ⟨y, hy, _, h7, h8, _⟩ := h.old y' hy'
      have : x = y := hw.id_inj hx hy (by rw [← h5, ← h8]; exact he)
      subst this
      exact nodup_map_inj h.nodup hx' hy' (by rw [h4, h7])
    · rw [forall₂_map_eq (h.other k hk) (f := (·.id)) (fun a b hab => hab.2.1)]
      exact hw.ids k
  · -- the reference came from a reference in `M`
    have hval : ∀ x ∈ M.nodes k, ∀ a ∈ x.bnd j, ∀ b, b = (if j = d then f a else a) →
        j < k ∧ ∃ y ∈ M'.nodes j, y.addr = b := by
      intro x hx a ha b hb
      obtain ⟨h1, y, hy, hya⟩ := hw.refs k x hx j a ha
      refine ⟨h1, ?_⟩
      by_cases hj : j = d
      · subst hj
        rw [if_pos rfl] at hb
        obtain ⟨y', hy', h4, _⟩ := h.kept y hy (fun e => hno k x hx (by rw [← e, hya]; exact ha))
        exact ⟨y', hy', by rw [h4, hya, hb]⟩
      · rw [if_neg hj] at hb
        obtain ⟨y', hy', h3, _⟩ := forall₂_mem (h.other j hj) hy
        exact ⟨y', hy', by rw [h3, hya, hb]⟩
    by_cases hk : k = d
    · subst hk
      obtain ⟨x, hx, _, _, _, h6⟩ := h.old x' hx'
      rw [h6] at ha
      refine hval x hx a ha a ?_
      have := (hw.refs k x hx j a ha).1
      rw [if_neg (by omega)]
    · obtain ⟨x, hx, _, _, _, h5⟩ := forall₂_mem' (h.other k hk) hx'
      rw [h5] at ha
      by_cases hj : j = d
      · subst hj
        rw [if_pos rfl] at ha
        obtain ⟨a0, ha0, rfl⟩ := List.mem_map.1 ha
        exact hval x hx a0 ha0 _ (by rw [if_pos rfl])
      · rw [if_neg hj] at ha
        exact hval x hx a ha a (by rw [if_neg hj])

theorem forall₂_refl {α : Type} {R : α → α → Prop} : ∀ {l : List α}, (∀ a ∈ l, R a a) → List.Forall₂ R l l
  | [], _ => .nil
  | a :: l, h => .cons (h a (by simp)) (forall₂_refl fun b hb => h b (by simp [hb]))

theorem forall₂_map_right' {α β : Type} {R : α → β → Prop} {f : α → β} : ∀ {l : List α},
    (∀ a ∈ l, R a (f a)) → List.Forall₂ R l (l.map f)
  | [], _ => .nil
  | a :: l, h => .cons (h a (by simp)) (forall₂_map_right' (fun b hb => h b (by simp [hb])))

/-- One erasure is a move. -/
theorem eraseId_moved {M : EMesh} (hw : EWF M) {cd d : Nat} {e : ENode} (he : e ∈ M.nodes d) :
    ∃ M' f, M.eraseId cd d e.id = some M' ∧ Moved M M' d e.addr f ∧
      (∀ k, k < d → M'.nodes k = M.nodes k) := by
  have hfind : (M.nodes d).find? (fun n => n.id == e.id) = some e := by
    cases hf : (M.nodes d).find? (fun n => n.id == e.id) with
    | none =>
      rw [List.find?_eq_none] at hf
      exact absurd (by simp) (hf e he)
    | some x =>
      have h1 := List.mem_of_find?_eq_some hf
      have h2 := List.find?_some hf
      rw [hw.id_inj h1 he (by simpa using h2)]
  obtain ⟨b, hb⟩ := backNode_isSome cd d (List.ne_nil_of_mem he)
  have hbm := backNode_mem hb
  have hnod := (hw.addrs d)
  unfold EMesh.eraseId
  rw [hfind, Option.bind_some, hb, Option.map_some]
  by_cases hab : e.addr = b.addr
  · rw [if_pos hab]
    refine ⟨_, id, rfl, ⟨?_, ?_, ?_, ?_, ?_⟩, ?_⟩
    · intro x hx
      simp only [if_true, List.mem_filter, bne_iff_ne] at hx
      exact ⟨x, hx.1, by rw [hab]; exact hx.2, rfl, rfl, rfl⟩
    · intro x hx hne
      exact ⟨x, by simp only [if_true, List.mem_filter, bne_iff_ne]; exact ⟨hx, by rw [← hab]; exact hne⟩, rfl, rfl, rfl⟩
    · intro x hx y hy _ _ hf
      exact hw.addr_inj hx hy hf
    · simp only [if_true]
      exact hnod.sublist ((List.filter_sublist).map _)
    · intro k hk
      simp only [if_neg hk]
      refine forall₂_refl fun x hx => ⟨rfl, rfl, rfl, fun j => ?_⟩
      simp only [List.map_id_fun, id_eq]
      split
      · rename_i h; subst h; rfl
      · rfl
    · intro k hk
      simp only [if_neg (Nat.ne_of_lt hk)]
  · rw [if_neg hab]
    refine ⟨_, fun a => if a = b.addr then e.addr else a, rfl, ⟨?_, ?_, ?_, ?_, ?_⟩, ?_⟩
    · intro x' hx'
      simp only [if_true, List.mem_filter, List.mem_map, bne_iff_ne] at hx'
      obtain ⟨⟨x, hx, rfl⟩, hne⟩ := hx'
      by_cases hxe : x.addr = e.addr
      · rw [if_pos hxe]
        exact ⟨b, hbm, fun h => hab h.symm, by simp [hxe], rfl, rfl⟩
      · rw [if_neg hxe] at hne ⊢
        exact ⟨x, hx, hxe, by rw [if_neg hne], rfl, rfl⟩
    · intro x hx hxe
      simp only [if_true, List.mem_filter, List.mem_map, bne_iff_ne]
      by_cases hxb : x.addr = b.addr
      · have := hw.addr_inj hx hbm hxb
        subst this
        refine ⟨{ e with id := x.id, bnd := x.bnd }, ⟨⟨e, he, by rw [if_pos rfl]⟩, fun h => hab h⟩, by simp, rfl, rfl⟩
      · exact ⟨x, ⟨⟨x, hx, by rw [if_neg hxe]⟩, hxb⟩, by rw [if_neg hxb], rfl, rfl⟩
    · intro x hx y hy hxe hye hf
      refine hw.addr_inj hx hy ?_
      by_cases h1 : x.addr = b.addr <;> by_cases h2 : y.addr = b.addr
      · rw [h1, h2]
      · rw [if_pos h1, if_neg h2] at hf; exact absurd hf.symm hye
      · rw [if_neg h1, if_pos h2] at hf; exact absurd hf hxe
      · rw [if_neg h1, if_neg h2] at hf; exact hf
    · simp only [if_true]
      have e1 : ((M.nodes d).map (fun x =>
          if x.addr = e.addr then { x with id := b.id, bnd := b.bnd } else x)).map (·.addr) =
          (M.nodes d).map (·.addr) := by
        rw [List.map_map]
        refine List.map_congr_left fun x _ => ?_
        simp only [Function.comp]
        split <;> rfl
      refine List.Nodup.sublist ((List.filter_sublist).map _) ?_
      rw [e1]; exact hnod
    · intro k hk
      simp only [if_neg hk]
      split
      · refine forall₂_map_right' fun x hx => ⟨rfl, rfl, rfl, fun j => rfl⟩
      · rename_i hlt
        refine forall₂_refl fun x hx => ⟨rfl, rfl, rfl, fun j => ?_⟩
        split
        · rename_i hj
          subst hj
          have : x.bnd j = [] := by
            cases hb : x.bnd j with
            | nil => rfl
            | cons a l => exact absurd (hw.refs k x hx j a (by simp [hb])).1 hlt
          rw [this]; rfl
        · rfl
    · intro k hk
      simp only [if_neg (Nat.ne_of_lt hk), if_neg (Nat.not_lt.2 (le_of_lt hk))]

theorem EWF.content {M : EMesh} (hw : EWF M) {d : Nat} {x : ENode} (hx : x ∈ M.nodes d) :
    ∃ c, M.Content d x.id c ∧ ∀ k, List.Forall₂ (M.At k) (x.bnd k) (c k) := by
  have : ∀ k, ∃ c, List.Forall₂ (M.At k) (x.bnd k) c := by
    intro k
    have hr : ∀ a ∈ x.bnd k, ∃ i, M.At k a i := by
      intro a ha
      obtain ⟨_, y, hy, h⟩ := hw.refs d x hx k a ha
      exact ⟨y.id, y, hy, h, rfl⟩
    generalize x.bnd k = l at hr
    induction l with
    | nil => exact ⟨[], .nil⟩
    | cons a l ih =>
      obtain ⟨i, hi⟩ := hr a (by simp)
      obtain ⟨c, hc⟩ := ih (fun b hb => hr b (by simp [hb]))
      exact ⟨i :: c, .cons hi hc⟩
  choose c hc using this
  exact ⟨c, ⟨x, hx, rfl, hc⟩, hc⟩

theorem EWF.content_unique {M : EMesh} (hw : EWF M) {d : Nat} {i : Int} {c c' : Nat → List Int}
    (h : M.Content d i c) (h' : M.Content d i c') : c = c' := by
  obtain ⟨x, hx, h1, h2⟩ := h
  obtain ⟨y, hy, h3, h4⟩ := h'
  have := hw.id_inj hx hy (by rw [h1, h3])
  subst this
  funext k
  have a := h2 k
  have b := h4 k
  revert a b
  generalize x.bnd k = l
  generalize c k = u
  generalize c' k = v
  intro a
  induction a generalizing v with
  | nil => intro b; cases b; rfl
  | cons hab _ ih =>
    intro b
    cases b with
    | cons hab' t' =>
      obtain ⟨y, hy, e1, e2⟩ := hab
      obtain ⟨z, hz, e3, e4⟩ := hab'
      have := hw.addr_inj hy hz (by rw [e1, e3])
      subst this
      rw [← e2, ← e4, ih _ t']

/-- A reference to an element, in terms of ids. -/
theorem EWF.mem_bnd_iff {M : EMesh} (hw : EWF M) {k : Nat} {x y : ENode} (hy : y ∈ M.nodes k)
    {c : Nat → List Int} (hc : ∀ k, List.Forall₂ (M.At k) (x.bnd k) (c k)) :
    y.addr ∈ x.bnd k ↔ y.id ∈ c k := by
  constructor
  · intro h
    obtain ⟨j, hj, z, hz, h1, h2⟩ := forall₂_mem (hc k) h
    have := hw.addr_inj hz hy h1
    subst this
    rwa [h2]
  · intro h
    obtain ⟨a, ha, z, hz, h1, h2⟩ := forall₂_mem' (hc k) h
    have := hw.id_inj hz hy h2
    subst this
    rwa [h1]

theorem eraseIds_spec {cd d : Nat} : ∀ {is : List Int} {M : EMesh}, EWF M → is.Nodup →
    (∀ i ∈ is, ∃ x ∈ M.nodes d, x.id = i) →
    (∀ k i c, M.Content k i c → ∀ j ∈ c d, j ∉ is) →
    ∃ M', M.eraseIds cd d is = some M' ∧ EWF M' ∧
      ∀ d' i' c, M'.Content d' i' c ↔ M.Content d' i' c ∧ ¬ (d' = d ∧ i' ∈ is)
  | [], M, hw, _, _, _ => ⟨M, rfl, hw, by simp⟩
  | i :: is, M, hw, hn, hp, hno => by
    obtain ⟨e, he, rfl⟩ := hp i (by simp)
    obtain ⟨M1, f, h1, h2, _⟩ := eraseId_moved (cd := cd) hw he
    have hno1 : ∀ k, ∀ x ∈ M.nodes k, e.addr ∉ x.bnd d := by
      intro k x hx hc
      obtain ⟨c, hc1, hc2⟩ := hw.content hx
      exact hno k x.id c hc1 e.id ((hw.mem_bnd_iff he hc2).1 hc) (by simp)
    have hcont := h2.content hw hno1 he rfl
    have hw1 := h2.wf hw hno1
    obtain ⟨M2, h3, h4, h5⟩ := eraseIds_spec (cd := cd) (d := d) (is := is) hw1 (List.nodup_cons.1 hn).2 (by
        intro j hj
        obtain ⟨y, hy, rfl⟩ := hp j (by simp [hj])
        obtain ⟨c, hc, _⟩ := hw.content hy
        have : M1.Content d y.id c := (hcont d y.id c).2 ⟨hc, fun h => by
          have h6 := h.2
          rw [h6] at hj
          exact (List.nodup_cons.1 hn).1 hj⟩
        obtain ⟨x, hx, h, _⟩ := this
        exact ⟨x, hx, h⟩)
      (fun k j c hc j' hj' hm => hno k j c ((hcont k j c).1 hc).1 j' hj' (by simp [hm]))
    refine ⟨M2, by simp only [EMesh.eraseIds, h1, Option.bind_some, h3], h4, fun d' i' c => ?_⟩
    rw [h5, hcont]
    simp only [List.mem_cons]
    tauto

theorem content_lt {M : EMesh} (hw : EWF M) {d k : Nat} {i j : Int} {c : Nat → List Int}
    (h : M.Content d i c) (hj : j ∈ c k) : k < d := by
  obtain ⟨x, hx, _, h2⟩ := h
  obtain ⟨a, ha, _⟩ := forall₂_mem' (h2 k) hj
  exact (hw.refs d x hx k a ha).1

theorem eraseLayers_spec {cd : Nat} {marked : Nat → List Int} (hn : ∀ k, (marked k).Nodup) :
    ∀ {D : Nat} {M : EMesh}, EWF M → (∀ k ≤ D, ∀ i ∈ marked k, ∃ x ∈ M.nodes k, x.id = i) →
    (∀ k i c, M.Content k i c → ∀ k' ≤ D, ∀ j ∈ c k', j ∈ marked k' → k ≤ D ∧ i ∈ marked k) →
    ∃ M', M.eraseLayers cd marked D = some M' ∧ EWF M' ∧
      ∀ d i c, M'.Content d i c ↔ M.Content d i c ∧ ¬ (d ≤ D ∧ i ∈ marked d)
  | 0, M, hw, hp, hup => by
    obtain ⟨M', h1, h2, h3⟩ := eraseIds_spec (cd := cd) (d := 0) hw (hn 0) (hp 0 (le_refl _))
      (fun k i c hc j hj hm => by
        have h4 := (hup k i c hc 0 (le_refl _) j hj hm).1
        have := content_lt hw hc hj
        omega)
    refine ⟨M', h1, h2, fun d i c => ?_⟩
    rw [h3]
    simp only [Nat.le_zero]
    constructor
    · rintro ⟨a, b⟩; exact ⟨a, fun ⟨h5, h6⟩ => b ⟨h5, by rw [h5] at h6; exact h6⟩⟩
    · rintro ⟨a, b⟩; exact ⟨a, fun ⟨h5, h6⟩ => b ⟨h5, by rw [h5]; exact h6⟩⟩
  | D + 1, M, hw, hp, hup => by
    obtain ⟨M1, h1, h2, h3⟩ := eraseIds_spec (cd := cd) (d := D + 1) hw (hn (D + 1)) (hp (D + 1) (le_refl _))
      (fun k i c hc j hj hm => by
        have h4 := (hup k i c hc (D + 1) (le_refl _) j hj hm).1
        have := content_lt hw hc hj
        omega)
    obtain ⟨M2, h4, h5, h6⟩ := eraseLayers_spec (cd := cd) hn (D := D) h2
      (by
        intro k hk i hi
        obtain ⟨y, hy, rfl⟩ := hp k (by omega) i hi
        obtain ⟨c, hc, _⟩ := hw.content hy
        obtain ⟨x, hx, h, _⟩ := (h3 k y.id c).2 ⟨hc, fun h => by omega⟩
        exact ⟨x, hx, h⟩)
      (by
        intro k i c hc k' hk' j hj hm
        obtain ⟨h7, h8⟩ := (h3 k i c).1 hc
        obtain ⟨h9, h10⟩ := hup k i c h7 k' (by omega) j hj hm
        refine ⟨?_, h10⟩
        by_contra hcon
        have : k = D + 1 := by omega
        subst this
        exact h8 ⟨rfl, h10⟩)
    refine ⟨M2, by simp only [EMesh.eraseLayers, h1, Option.bind_some, h4], h5, fun d i c => ?_⟩
    rw [h6, h3]
    constructor
    · rintro ⟨⟨a, b⟩, b'⟩
      refine ⟨a, fun ⟨h7, h8⟩ => ?_⟩
      by_cases hd : d = D + 1
      · subst hd; exact b ⟨rfl, h8⟩
      · exact b' ⟨by omega, h8⟩
    · rintro ⟨a, b⟩
      refine ⟨⟨a, fun ⟨h7, h8⟩ => b ⟨by omega, by rw [h7]; exact h8⟩⟩, fun ⟨h7, h8⟩ => b ⟨by omega, h8⟩⟩

/-! Marking -/

theorem mem_insFold : ∀ (l acc : List Int) (i : Int),
    i ∈ l.foldl (fun l i => if i ∈ l then l else l ++ [i]) acc ↔ i ∈ acc ∨ i ∈ l
  | [], acc, i => by simp
  | a :: l, acc, i => by
    rw [List.foldl_cons, mem_insFold l]
    split
    · rename_i h
      constructor
      · rintro (h1 | h1)
        · exact Or.inl h1
        · exact Or.inr (by simp [h1])
      · rintro (h1 | h1)
        · exact Or.inl h1
        · simp only [List.mem_cons] at h1
          rcases h1 with rfl | h1
          · exact Or.inl h
          · exact Or.inr h1
    · simp only [List.mem_append, List.mem_cons]
      tauto

theorem nodup_insFold : ∀ (l acc : List Int), acc.Nodup →
    (l.foldl (fun l i => if i ∈ l then l else l ++ [i]) acc).Nodup
  | [], _, h => h
  | a :: l, acc, h => by
    rw [List.foldl_cons]
    refine nodup_insFold l _ ?_
    split
    · exact h
    · rename_i h1
      rw [List.nodup_append]
      refine ⟨h, by simp, fun x hx y hy => ?_⟩
      simp only [List.mem_singleton] at hy
      subst hy
      exact fun he => h1 (he ▸ hx)

/-- Direct references in terms of ids. -/
def EMesh.Uses (M : EMesh) (p q : Nat × Int) : Prop := ∃ c, M.Content p.1 p.2 c ∧ q.2 ∈ c q.1

theorem mark_mem {M : EMesh} (hw : EWF M) {d : Nat} {e : ENode} (he : e ∈ M.nodes d)
    (marked : Nat → List Int) (k : Nat) (i : Int) :
    i ∈ M.mark d e marked k ↔ i ∈ marked k ∨ (k, i) = (d, e.id) ∨ M.Uses (k, i) (d, e.id) := by
  unfold EMesh.mark
  by_cases hk : k = d
  · subst hk
    rw [if_pos rfl]
    have hno : ¬ M.Uses (k, i) (k, e.id) := by
      rintro ⟨c, hc, hm⟩
      exact absurd (content_lt hw hc hm) (lt_irrefl _)
    split
    · rename_i h
      simp only [Prod.mk.injEq, true_and]
      constructor
      · exact Or.inl
      · rintro (h1 | rfl | h1)
        · exact h1
        · exact h
        · exact absurd h1 hno
    · simp only [List.mem_append, List.mem_singleton, Prod.mk.injEq, true_and]
      tauto
  · rw [if_neg hk, mem_insFold]
    have : ¬ (k, i) = (d, e.id) := by simp [hk]
    simp only [this, false_or]
    refine or_congr Iff.rfl ?_
    simp only [List.mem_map, List.mem_filter, decide_eq_true_eq]
    constructor
    · rintro ⟨x, ⟨hx, hm⟩, rfl⟩
      obtain ⟨c, hc, hc2⟩ := hw.content hx
      exact ⟨c, hc, (hw.mem_bnd_iff he hc2).1 hm⟩
    · rintro ⟨c, ⟨x, hx, h1, h2⟩, hm⟩
      exact ⟨x, ⟨hx, (hw.mem_bnd_iff he h2).2 hm⟩, h1⟩

theorem mark_nodup {M : EMesh} {d : Nat} {e : ENode} {marked : Nat → List Int}
    (hn : ∀ k, (marked k).Nodup) (k : Nat) : (M.mark d e marked k).Nodup := by
  unfold EMesh.mark
  split
  · split
    · exact hn d
    · rename_i h
      rw [List.nodup_append]
      refine ⟨hn d, by simp, fun x hx y hy => ?_⟩
      simp only [List.mem_singleton] at hy
      subst hy
      exact fun he => h (he ▸ hx)
  · exact nodup_insFold _ _ (hn k)

theorem markAll_spec {M : EMesh} (hw : EWF M) : ∀ {es : List (Nat × ENode)} {marked : Nat → List Int},
    (∀ e ∈ es, e.2 ∈ M.nodes e.1) → (∀ k, (marked k).Nodup) →
    (∀ k, (M.markAll es marked k).Nodup) ∧ ∀ k i, i ∈ M.markAll es marked k ↔
      i ∈ marked k ∨ ∃ e ∈ es, (k, i) = (e.1, e.2.id) ∨ M.Uses (k, i) (e.1, e.2.id)
  | [], marked, _, hn => ⟨hn, by simp [EMesh.markAll]⟩
  | e :: es, marked, he, hn => by
    obtain ⟨h1, h2⟩ := markAll_spec hw (es := es) (marked := M.mark e.1 e.2 marked)
      (fun x hx => he x (by simp [hx])) (mark_nodup hn)
    refine ⟨h1, fun k i => ?_⟩
    simp only [EMesh.markAll]
    rw [h2, mark_mem hw (he e (by simp))]
    simp only [List.mem_cons, exists_eq_or_imp, or_assoc]

/-- Invariant of the storage of a mesh of cell dimension `cd`. -/
structure EGood (cd : Nat) (M : EMesh) : Prop where
  wf : EWF M
  dims : ∀ d, cd < d → M.nodes d = []
  trans : ∀ p q r, M.Uses p q → M.Uses q r → M.Uses p r

theorem eraseElements_spec {cd : Nat} {M : EMesh} (h : EGood cd M) {es : List (Nat × ENode)}
    (he : ∀ e ∈ es, e.2 ∈ M.nodes e.1) :
    ∃ M', M.eraseElements cd (M.markAll es (fun _ => [])) = some M' ∧ EGood cd M' ∧
      ∀ d i c, M'.Content d i c ↔ M.Content d i c ∧
        ¬ ∃ e ∈ es, (d, i) = (e.1, e.2.id) ∨ M.Uses (d, i) (e.1, e.2.id) := by
  obtain ⟨hn, hm⟩ := markAll_spec h.wf he (marked := fun _ => []) (by simp)
  have hdim : ∀ d i c, M.Content d i c → d ≤ cd := by
    rintro d i c ⟨x, hx, _⟩
    by_contra hc
    rw [h.dims d (by omega)] at hx
    simp at hx
  obtain ⟨M', h1, h2, h3⟩ := eraseLayers_spec (cd := cd) hn (D := cd) h.wf
    (by
      intro k _ i hi
      rw [hm] at hi
      rcases hi with hi | ⟨e, hes, hi | ⟨c, ⟨x, hx, h1, _⟩, _⟩⟩
      · simp at hi
      · injection hi with ha hb
        subst ha hb
        exact ⟨e.2, he e hes, rfl⟩
      · exact ⟨x, hx, h1⟩)
    (by
      intro k i c hc k' _ j hj hjm
      refine ⟨hdim k i c hc, ?_⟩
      rw [hm] at hjm ⊢
      rcases hjm with hjm | ⟨e, hes, hjm⟩
      · simp at hjm
      · have hu : M.Uses (k, i) (k', j) := ⟨c, hc, hj⟩
        refine Or.inr ⟨e, hes, Or.inr ?_⟩
        rcases hjm with hjm | hjm
        · rw [← hjm]; exact hu
        · exact h.trans _ _ _ hu hjm)
  have hcont : ∀ d i c, M'.Content d i c ↔ M.Content d i c ∧
      ¬ ∃ e ∈ es, (d, i) = (e.1, e.2.id) ∨ M.Uses (d, i) (e.1, e.2.id) := by
    intro d i c
    rw [h3, hm]
    constructor
    · rintro ⟨a, b⟩
      exact ⟨a, fun hc => b ⟨hdim d i c a, Or.inr hc⟩⟩
    · rintro ⟨a, b⟩
      refine ⟨a, fun ⟨_, hc⟩ => ?_⟩
      rcases hc with hc | hc
      · simp at hc
      · exact b hc
  refine ⟨M', h1, ⟨h2, fun d hd => ?_, fun p q r hpq hqr => ?_⟩, hcont⟩
  · cases hd' : M'.nodes d with
    | nil => rfl
    | cons x l =>
      have hx : x ∈ M'.nodes d := by simp [hd']
      obtain ⟨c, hc, _⟩ := h2.content hx
      have := hdim d _ c ((hcont _ _ _).1 hc).1
      omega
  · obtain ⟨c, hc, hm1⟩ := hpq
    obtain ⟨c', hc', hm2⟩ := hqr
    have h4 := (hcont _ _ _).1 hc
    obtain ⟨c'', h5, h6⟩ := h.trans p q r ⟨c, h4.1, hm1⟩ ⟨c', ((hcont _ _ _).1 hc').1, hm2⟩
    have := h.wf.content_unique h4.1 h5
    subst this
    exact ⟨c, hc, h6⟩

end VG
