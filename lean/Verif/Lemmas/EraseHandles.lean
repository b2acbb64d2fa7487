import Verif.Lemmas.Erase
import Verif.Props.ElementKey

/-!
Storage cells left by erasures, used by C77.
-/

namespace VG

/-- Storage cells of a container: addresses and keys. -/
def EMesh.cells (M : EMesh) (d : Nat) : List (Nat × List Int) := (M.nodes d).map (fun n => (n.addr, n.key))

theorem lastByKey_max : ∀ {l : List ENode} {b : ENode}, lastByKey l = some b → ∀ x ∈ l, keyLt b.key x.key = false
  | [], _, h, _, _ => by simp [lastByKey] at h
  | n :: l, b, h, x, hx => by
    unfold lastByKey at h
    split at h
    · rename_i hn
      simp only [Option.some.injEq] at h
      subst h
      cases l with
      | nil =>
        simp only [List.mem_cons, List.not_mem_nil, or_false] at hx
        subst hx
        exact C03_keyLt_irrefl _
      | cons y l =>
        obtain ⟨b, hb⟩ := lastByKey_isSome (l := y :: l) (by simp)
        rw [hn] at hb
        cases hb
    · rename_i c hc
      have ih := lastByKey_max hc
      split at h
      · rename_i hlt
        simp only [Option.some.injEq] at h
        subst h
        rcases List.mem_cons.1 hx with rfl | hx
        · rw [Bool.eq_false_iff]
          intro h2
          have := C03_keyLt_trans _ _ _ hlt h2
          rw [C03_keyLt_irrefl] at this
          cases this
        · exact ih x hx
      · rename_i hge
        simp only [Option.some.injEq] at h
        subst h
        rcases List.mem_cons.1 hx with rfl | hx
        · exact C03_keyLt_irrefl _
        · rw [Bool.eq_false_iff]
          intro h2
          by_cases he : n.key = c.key
          · rw [he, ih x hx] at h2
            cases h2
          · rcases C03_keyLt_total _ _ he with h3 | h3
            · exact hge h3
            · have := C03_keyLt_trans _ _ _ h3 h2
              rw [ih x hx] at this
              cases this

/-- One erasure: the last storage cell goes, the others stay; a cell which stays keeps its element unless this is the
one erased. -/
theorem eraseId_cells {M : EMesh} (hw : EWF M) {cd d : Nat} {e : ENode} (he : e ∈ M.nodes d) {M' : EMesh}
    (h : M.eraseId cd d e.id = some M') :
    ∃ b, backNode cd d (M.nodes d) = some b ∧ M'.cells d = (M.cells d).filter (fun x => x.1 != b.addr) ∧
      (∀ a i, M.At d a i → i ≠ e.id → a ≠ b.addr → M'.At d a i) ∧
      ∀ k ≠ d, (M'.nodes k).map (fun n => (n.addr, n.key, n.id)) = (M.nodes k).map (fun n => (n.addr, n.key, n.id)) := by
  have hfind : (M.nodes d).find? (fun n => n.id == e.id) = some e := by
    cases hf : (M.nodes d).find? (fun n => n.id == e.id) with
    | none =>
      rw [List.find?_eq_none] at hf
      exact absurd (by simp) (hf e he)
    | some x =>
      have h1 := List.mem_of_find?_eq_some hf
      have h2 := List.find?_some hf
      rw [hw.id_inj h1 he (by simpa using h2)]
  obtain ⟨b, hb⟩ := backNode_isSome cd d (List.ne_nil_of_mem he)
  refine ⟨b, hb, ?_⟩
  unfold EMesh.eraseId at h
  rw [hfind, Option.bind_some, hb, Option.map_some] at h
  by_cases hab : e.addr = b.addr
  · rw [if_pos hab] at h
    simp only [Option.some.injEq] at h
    subst h
    refine ⟨?_, ?_, ?_⟩
    · unfold EMesh.cells
      simp only [if_true]
      rw [List.filter_map]
      rfl
    · rintro a i ⟨y, hy, rfl, rfl⟩ _ hne
      exact ⟨y, by simp only [if_true, List.mem_filter, bne_iff_ne]; exact ⟨hy, hne⟩, rfl, rfl⟩
    · intro k hk
      simp only [if_neg hk]
  · rw [if_neg hab] at h
    simp only [Option.some.injEq] at h
    subst h
    refine ⟨?_, ?_, ?_⟩
    · unfold EMesh.cells
      simp only [if_true]
      rw [List.filter_map, List.filter_map, List.map_map]
      have e1 : ((fun x : ENode => x.addr != b.addr) ∘ fun x =>
          if x.addr = e.addr then { x with id := b.id, bnd := b.bnd } else x) = fun x => x.addr != b.addr := by
        funext x
        simp only [Function.comp]
        split <;> rfl
      rw [e1]
      refine List.map_congr_left (fun x _ => ?_)
      simp only [Function.comp]
      split <;> rfl
    · rintro a i ⟨y, hy, rfl, rfl⟩ hne hb'
      have hye : y.addr ≠ e.addr := fun h => hne (by rw [hw.addr_inj hy he h])
      refine ⟨y, ?_, rfl, rfl⟩
      simp only [if_true, List.mem_filter, List.mem_map, bne_iff_ne]
      exact ⟨⟨y, hy, by rw [if_neg hye]⟩, hb'⟩
    · intro k hk
      simp only [if_neg hk]
      split
      · rw [List.map_map]
        rfl
      · rfl

/-- What `n` erasures leave of the storage cells of a container: of vertices and cells (`std::deque`) the last ones go,
of other elements (`std::map`) those with the greatest keys. -/
structure CellsLeft (cd d n : Nat) (l l' : List (Nat × List Int)) : Prop where
  sub : l'.Sublist l
  len : l'.length + n = l.length
  deque : d = 0 ∨ d = cd → l' = l.take l'.length
  map : ¬ (d = 0 ∨ d = cd) → ∀ x ∈ l', ∀ y ∈ l, y ∉ l' → keyLt y.2 x.2 = false

theorem CellsLeft.one {M : EMesh} (hw : EWF M) {cd d : Nat} {b : ENode} (hb : backNode cd d (M.nodes d) = some b) :
    CellsLeft cd d 1 (M.cells d) ((M.cells d).filter (fun x => x.1 != b.addr)) := by
  have hbm := backNode_mem hb
  have hnd : ((M.cells d).map (·.1)).Nodup := by
    have := hw.addrs d
    unfold EMesh.cells
    rwa [List.map_map]
  have hmem : (b.addr, b.key) ∈ M.cells d := List.mem_map.2 ⟨b, hbm, rfl⟩
  have hlast : d = 0 ∨ d = cd → (M.cells d).filter (fun x => x.1 != b.addr) = (M.cells d).dropLast := by
    intro hd
    unfold backNode at hb
    rw [if_pos hd] at hb
    have hsplit : M.nodes d = (M.nodes d).dropLast ++ [b] := by
      have hne := List.ne_nil_of_mem hbm
      rw [List.getLast?_eq_some_getLast hne, Option.some.injEq] at hb
      rw [← hb]
      exact (List.dropLast_append_getLast hne).symm
    have hc : M.cells d = ((M.nodes d).dropLast).map (fun n => (n.addr, n.key)) ++ [(b.addr, b.key)] := by
      unfold EMesh.cells
      conv_lhs => rw [hsplit]
      rw [List.map_append]
      rfl
    rw [hc] at hnd
    rw [hc, List.dropLast_concat, List.filter_append, List.filter_eq_self.2, List.filter_eq_nil_iff.2, List.append_nil]
    · simp
    · intro x hx
      rw [List.map_append, List.nodup_append] at hnd
      have := hnd.2.2 x.1 (List.mem_map_of_mem hx) b.addr (by simp)
      simpa using this
  refine ⟨List.filter_sublist, ?_, fun hd => ?_, fun hd x hx y hy hny => ?_⟩
  · have h1 : (M.cells d).filter (fun x => !(x.1 != b.addr)) = [(b.addr, b.key)] := by
      have hperm : ((M.cells d).filter (fun x => !(x.1 != b.addr))).Perm [(b.addr, b.key)] := by
        refine (List.perm_ext_iff_of_nodup ((List.Nodup.of_map _ hnd).filter _) (by simp)).2 (fun x => ?_)
        simp only [List.mem_filter, List.mem_singleton, Bool.not_eq_eq_eq_not, Bool.not_true, bne_eq_false_iff_eq]
        constructor
        · rintro ⟨h1, h2⟩
          exact List.inj_on_of_nodup_map hnd h1 hmem h2
        · rintro rfl
          exact ⟨hmem, rfl⟩
      exact List.perm_singleton.1 hperm
    have h2 := List.length_eq_length_filter_add (l := M.cells d) (fun x => x.1 != b.addr)
    rw [h1] at h2
    simp only [List.length_cons, List.length_nil] at h2
    omega
  · rw [hlast hd, List.length_dropLast, List.dropLast_eq_take]
  · have hya : y.1 = b.addr := by
      by_contra hne
      exact hny (List.mem_filter.2 ⟨hy, by simpa using hne⟩)
    have := List.inj_on_of_nodup_map hnd hy hmem hya
    rw [this]
    unfold backNode at hb
    rw [if_neg hd] at hb
    obtain ⟨n, hn, rfl⟩ := List.mem_map.1 (List.mem_of_mem_filter hx)
    exact lastByKey_max hb n hn

theorem CellsLeft.trans {cd d n n' : Nat} {l l' l'' : List (Nat × List Int)} (h : CellsLeft cd d n l l')
    (h' : CellsLeft cd d n' l' l'') : CellsLeft cd d (n + n') l l'' := by
  refine ⟨h'.sub.trans h.sub, by have := h.len; have := h'.len; omega, fun hd => ?_, fun hd x hx y hy hny => ?_⟩
  · have e1 := h.deque hd
    have e2 := h'.deque hd
    have := h'.len
    have e3 : l'' = (l.take l'.length).take l''.length := by rw [← e1]; exact e2
    rw [List.take_take, Nat.min_eq_left (by omega)] at e3
    exact e3
  · by_cases hy' : y ∈ l'
    · exact h'.map hd x hx y hy' hny
    · exact h.map hd x (h'.sub.subset hx) y hy hy'

theorem CellsLeft.none (cd d : Nat) (l : List (Nat × List Int)) : CellsLeft cd d 0 l l :=
  ⟨List.Sublist.refl _, rfl, fun _ => by rw [List.take_length], fun _ _ _ _ hy hny => absurd hy hny⟩

theorem at_cells {M : EMesh} {d a : Nat} (h : a ∈ (M.cells d).map (·.1)) : ∃ i, M.At d a i := by
  obtain ⟨x, hx, rfl⟩ := List.mem_map.1 h
  obtain ⟨n, hn, rfl⟩ := List.mem_map.1 hx
  exact ⟨n.id, n, hn, rfl, rfl⟩

theorem cells_of_at {M : EMesh} {d a : Nat} {i : Int} (h : M.At d a i) : a ∈ (M.cells d).map (·.1) := by
  obtain ⟨n, hn, rfl, rfl⟩ := h
  exact List.mem_map.2 ⟨_, List.mem_map.2 ⟨n, hn, rfl⟩, rfl⟩

theorem eraseIds_cells {cd d : Nat} : ∀ {is : List Int} {M M' : EMesh}, EWF M → is.Nodup →
    (∀ i ∈ is, ∃ x ∈ M.nodes d, x.id = i) →
    (∀ k i c, M.Content k i c → ∀ j ∈ c d, j ∉ is) → M.eraseIds cd d is = some M' →
    CellsLeft cd d is.length (M.cells d) (M'.cells d) ∧
      (∀ a i, M.At d a i → i ∉ is → a ∈ (M'.cells d).map (·.1) → M'.At d a i) ∧
      ∀ k ≠ d, (M'.nodes k).map (fun n => (n.addr, n.key, n.id)) = (M.nodes k).map (fun n => (n.addr, n.key, n.id))
  | [], M, M', _, _, _, _, h => by
    simp only [EMesh.eraseIds, Option.some.injEq] at h
    subst h
    exact ⟨CellsLeft.none .., fun _ _ h _ _ => h, fun _ _ => rfl⟩
  | i :: is, M, M', hw, hn, hp, hno, h => by
    obtain ⟨e, he, rfl⟩ := hp i (by simp)
    obtain ⟨M1, f, h1, h2, _⟩ := eraseId_moved (cd := cd) hw he
    have hno1 : ∀ k, ∀ x ∈ M.nodes k, e.addr ∉ x.bnd d := by
      intro k x hx hc
      obtain ⟨c, hc1, hc2⟩ := hw.content hx
      exact hno k x.id c hc1 e.id ((hw.mem_bnd_iff he hc2).1 hc) (by simp)
    have hcont := h2.content hw hno1 he rfl
    have hw1 := h2.wf hw hno1
    simp only [EMesh.eraseIds, h1, Option.bind_some] at h
    obtain ⟨b, hb, h3, h4, h5⟩ := eraseId_cells hw he h1
    obtain ⟨h6, h7, h8⟩ := eraseIds_cells (is := is) hw1 (List.nodup_cons.1 hn).2 (by
        intro j hj
        obtain ⟨y, hy, rfl⟩ := hp j (by simp [hj])
        obtain ⟨c, hc, _⟩ := hw.content hy
        have : M1.Content d y.id c := (hcont d y.id c).2 ⟨hc, fun h => by
          have h6 := h.2
          rw [h6] at hj
          exact (List.nodup_cons.1 hn).1 hj⟩
        obtain ⟨x, hx, h, _⟩ := this
        exact ⟨x, hx, h⟩)
      (fun k j c hc j' hj' hm => hno k j c ((hcont k j c).1 hc).1 j' hj' (by simp [hm])) h
    have hone := CellsLeft.one hw hb
    rw [← h3] at hone
    refine ⟨?_, fun a i ha hi hl => ?_, fun k hk => (h8 k hk).trans (h5 k hk)⟩
    · have := hone.trans h6
      rwa [Nat.add_comm] at this
    · simp only [List.mem_cons, not_or] at hi
      refine h7 a i (h4 a i ha hi.1 ?_) hi.2 hl
      rintro rfl
      have := (h6.sub.map (·.1)).subset hl
      rw [h3] at this
      obtain ⟨x, hx, hxa⟩ := List.mem_map.1 this
      have := (List.mem_filter.1 hx).2
      rw [hxa] at this
      simp at this

theorem triples_cells {M M' : EMesh} {k : Nat}
    (h : (M'.nodes k).map (fun n => (n.addr, n.key, n.id)) = (M.nodes k).map (fun n => (n.addr, n.key, n.id))) :
    M'.cells k = M.cells k ∧ ∀ a i, M'.At k a i ↔ M.At k a i := by
  constructor
  · have := congrArg (List.map (fun x : Nat × List Int × Int => (x.1, x.2.1))) h
    rw [List.map_map, List.map_map] at this
    exact this
  · have key : ∀ (N : EMesh) a i, N.At k a i ↔ ∃ b, (a, b, i) ∈ (N.nodes k).map (fun n => (n.addr, n.key, n.id)) := by
      intro N a i
      constructor
      · rintro ⟨n, hn, rfl, rfl⟩
        exact ⟨n.key, List.mem_map.2 ⟨n, hn, rfl⟩⟩
      · rintro ⟨b, hb⟩
        obtain ⟨n, hn, he⟩ := List.mem_map.1 hb
        simp only [Prod.mk.injEq] at he
        exact ⟨n, hn, he.1, he.2.2⟩
    intro a i
    rw [key, key, h]

theorem eraseLayers_cells {cd : Nat} {marked : Nat → List Int} (hn : ∀ k, (marked k).Nodup) :
    ∀ {D : Nat} {M M' : EMesh}, EWF M → (∀ k ≤ D, ∀ i ∈ marked k, ∃ x ∈ M.nodes k, x.id = i) →
    (∀ k i c, M.Content k i c → ∀ k' ≤ D, ∀ j ∈ c k', j ∈ marked k' → k ≤ D ∧ i ∈ marked k) →
    M.eraseLayers cd marked D = some M' →
    (∀ d ≤ D, CellsLeft cd d (marked d).length (M.cells d) (M'.cells d) ∧
      ∀ a i, M.At d a i → i ∉ marked d → a ∈ (M'.cells d).map (·.1) → M'.At d a i) ∧
    ∀ k > D, (M'.nodes k).map (fun n => (n.addr, n.key, n.id)) = (M.nodes k).map (fun n => (n.addr, n.key, n.id))
  | 0, M, M', hw, hp, hup, h => by
    obtain ⟨h1, h2, h3⟩ := eraseIds_cells (cd := cd) (d := 0) hw (hn 0) (hp 0 (le_refl _))
      (fun k i c hc j hj hm => by
        have h4 := (hup k i c hc 0 (le_refl _) j hj hm).1
        have := content_lt hw hc hj
        omega) h
    refine ⟨fun d hd => ?_, fun k hk => h3 k (by omega)⟩
    have : d = 0 := by omega
    subst this
    exact ⟨h1, h2⟩
  | D + 1, M, M', hw, hp, hup, h => by
    have hno : ∀ k i c, M.Content k i c → ∀ j ∈ c (D + 1), j ∉ marked (D + 1) := fun k i c hc j hj hm => by
      have h4 := (hup k i c hc (D + 1) (le_refl _) j hj hm).1
      have := content_lt hw hc hj
      omega
    obtain ⟨M1, h1, h2, h3⟩ := eraseIds_spec (cd := cd) (d := D + 1) hw (hn (D + 1)) (hp (D + 1) (le_refl _)) hno
    obtain ⟨h4, h5, h6⟩ := eraseIds_cells hw (hn (D + 1)) (hp (D + 1) (le_refl _)) hno h1
    simp only [EMesh.eraseLayers, h1, Option.bind_some] at h
    obtain ⟨h7, h8⟩ := eraseLayers_cells (cd := cd) hn (D := D) h2
      (by
        intro k hk i hi
        obtain ⟨y, hy, rfl⟩ := hp k (by omega) i hi
        obtain ⟨c, hc, _⟩ := hw.content hy
        obtain ⟨x, hx, h, _⟩ := (h3 k y.id c).2 ⟨hc, fun h => by omega⟩
        exact ⟨x, hx, h⟩)
      (by
        intro k i c hc k' hk' j hj hm
        obtain ⟨h7, h8⟩ := (h3 k i c).1 hc
        obtain ⟨h9, h10⟩ := hup k i c h7 k' (by omega) j hj hm
        refine ⟨?_, h10⟩
        by_contra hcon
        have : k = D + 1 := by omega
        subst this
        exact h8 ⟨rfl, h10⟩) h
    refine ⟨fun d hd => ?_, fun k hk => (h8 k (by omega)).trans (h6 k (by omega))⟩
    by_cases hdD : d = D + 1
    · subst hdD
      obtain ⟨h9, h10⟩ := triples_cells (h8 (D + 1) (by omega))
      rw [h9]
      exact ⟨h4, fun a i ha hi hl => (h10 a i).2 (h5 a i ha hi hl)⟩
    · obtain ⟨h9, h10⟩ := triples_cells (h6 d hdD)
      obtain ⟨h11, h12⟩ := h7 d (by omega)
      rw [h9] at h11
      exact ⟨h11, fun a i ha hi hl => h12 a i ((h10 a i).2 ha) hi hl⟩

end VG
