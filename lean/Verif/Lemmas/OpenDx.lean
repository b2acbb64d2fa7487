import Verif.Model.OpenDx
import Verif.Lemmas.Queries
import Mathlib.Data.String.Basic
import Mathlib.Tactic.Linarith

/-!
Lemmas about the writer for OpenDX files, used by C78, C79 and C80.
-/

namespace VG

variable {C : Type}

/-- Ids are positions. -/
def IdsArePositions {P : Type} (m : Mesh P) : Prop := ∀ v < m.verts.length, m.vid v = v

theorem write_fields {g : Nat} {w : DxWriter} {T : Topo} {m : Mesh (Fin g → C)} {F : DxFile C}
    (h : w.write T m = some F) :
    F.pointShape = g ∧ F.pointItems = m.verts.length ∧ F.points = m.verts.map (fun v => List.ofFn v.pt) ∧
    F.cellShape = g + 1 ∧ F.cellItems = (m.elems T.cellDim).length ∧
    F.cells = (m.elems T.cellDim).map (fun e => e.verts.map m.vid) ∧ F.elementType = dxType g := by
  unfold DxWriter.write at h
  obtain ⟨d, _, rfl⟩ := Option.map_eq_some_iff.1 h
  exact ⟨rfl, rfl, rfl, rfl, rfl, rfl, rfl⟩

theorem write_data {g : Nat} {w : DxWriter} {T : Topo} {m : Mesh (Fin g → C)} {F : DxFile C}
    (h : w.write T m = some F) :
    match w.onVertices, w.onCells with
    | (_, f) :: _, _ => ∃ l, dxValues m.verts.length f = some l ∧ F.data = some (true, m.verts.length, l)
    | [], (_, f) :: _ => ∃ l, dxValues (m.elems T.cellDim).length f = some l ∧
        F.data = some (false, (m.elems T.cellDim).length, l)
    | [], [] => F.data = none := by
  unfold DxWriter.write at h
  obtain ⟨d, hd, rfl⟩ := Option.map_eq_some_iff.1 h
  simp only
  split at hd
  · rename_i h1
    obtain ⟨l, hl, rfl⟩ := Option.map_eq_some_iff.1 hd
    simp only [h1]
    exact ⟨l, hl, rfl⟩
  · rename_i h1 h2
    obtain ⟨l, hl, rfl⟩ := Option.map_eq_some_iff.1 hd
    simp only [h1, h2]
    exact ⟨l, hl, rfl⟩
  · rename_i h1 h2
    simp only [Option.some.injEq] at hd
    simp only [h1, h2]
    exact hd.symm

theorem coboundary_mesh {P : Type} (st : MState P) (k d s : Nat) : (st.coboundary k d s).1.mesh = st.mesh := by
  unfold MState.coboundary
  simp only
  rw [refreshCob_mesh]

theorem neighbors_mesh {P : Type} (st : MState P) (d c t : Nat) : (st.neighbors d c t).1.mesh = st.mesh := by
  have : ∀ (ss : List Nat) (st' : MState P) (acc : Int → List Nat),
    (ss.foldl (fun acc s =>
      let q := acc.1.coboundary c d s
      (q.1, (nbPairs q.2).foldl (nbStep st.mesh d) acc.2)) (st', acc)).1.mesh = st'.mesh := by
    intro ss
    induction ss with
    | nil => intro st' acc; rfl
    | cons s ss ih =>
      intro st' acc
      rw [List.foldl_cons, ih]
      exact coboundary_mesh ..
  unfold MState.neighbors MState.refreshNb
  simp only
  split
  · unfold createNb
    simp only
    rw [this]
  · rfl

theorem isBoundary_mesh {P : Type} (T : Topo) (st : MState P) (k s : Nat) : (st.isBoundary T k s).1.mesh = st.mesh := by
  unfold MState.isBoundary
  simp only
  split <;> rfl

/-- Creations of vertices do not give an id. -/
def QOp.Generated {P : Type} : QOp P → Prop
  | .mesh (.vertex id _) => id = none
  | _ => True

theorem generated_run {P : Type} {T : Topo} : ∀ {ops : List (QOp P)} {st st' : MState P}, (∀ op ∈ ops, op.Generated) →
    st.run T ops = some st' → IdsArePositions st.mesh ∧ st.mesh.vgen = st.mesh.verts.length →
    IdsArePositions st'.mesh ∧ st'.mesh.vgen = st'.mesh.verts.length
  | [], st, st', _, h, hi => by
    simp only [MState.run, Option.some.injEq] at h
    subst h
    exact hi
  | op :: ops, st, st', hg, h, hi => by
    simp only [MState.run] at h
    obtain ⟨s1, h1, h2⟩ := Option.bind_eq_some_iff.1 h
    refine generated_run (fun o ho => hg o (List.mem_cons_of_mem _ ho)) h2 ?_
    have hop := hg op List.mem_cons_self
    have same : s1.mesh.verts = st.mesh.verts → s1.mesh.vgen = st.mesh.vgen →
        IdsArePositions s1.mesh ∧ s1.mesh.vgen = s1.mesh.verts.length := by
      intro ha hb
      unfold IdsArePositions Mesh.vid at hi ⊢
      rw [ha, hb]
      exact hi
    cases op with
    | copy =>
      simp only [MState.step, Option.some.injEq] at h1
      subst h1
      exact same rfl rfl
    | eraseCell t =>
      simp only [MState.step, Mesh.eraseCell] at h1
      split at h1
      · simp only [Option.map_some, Option.some.injEq] at h1
        subst h1
        exact same rfl rfl
      · cases h1
    | coboundary k d s =>
      simp only [MState.step, Option.some.injEq] at h1
      subst h1
      have := coboundary_mesh st k d s
      exact same (by rw [this]) (by rw [this])
    | neighbors d c t =>
      simp only [MState.step, Option.some.injEq] at h1
      subst h1
      have := neighbors_mesh st d c t
      exact same (by rw [this]) (by rw [this])
    | isBoundary k s =>
      simp only [MState.step, Option.some.injEq] at h1
      subst h1
      have := isBoundary_mesh T st k s
      exact same (by rw [this]) (by rw [this])
    | mesh op =>
      simp only [MState.step] at h1
      obtain ⟨m1, hm, rfl⟩ := Option.map_eq_some_iff.1 h1
      cases op with
      | elem d vs =>
        simp only [Mesh.step] at hm
        split at hm
        · simp only [Option.some.injEq] at hm
          subst hm
          obtain ⟨ha, hb⟩ := insertN_verts T d d st.mesh vs
          exact same ha hb
        · cases hm
      | vertex id p =>
        simp only [QOp.Generated] at hop
        subst hop
        simp only [Mesh.step, Option.some.injEq] at hm
        subst hm
        refine ⟨fun v hv => ?_, ?_⟩
        · simp only [Mesh.makeVertex, List.length_append, List.length_cons, List.length_nil] at hv
          simp only [Mesh.makeVertex, Mesh.vid, List.map_append, List.map_cons, List.map_nil, Option.getD_none]
          by_cases hlt : v < st.mesh.verts.length
          · have := hi.1 v hlt
            unfold Mesh.vid at this
            rw [List.getD_append _ _ _ _ (by simpa using hlt)]
            exact this
          · have : v = st.mesh.verts.length := by omega
            subst this
            rw [List.getD_append_right _ _ _ _ (by simp), hi.2]
            simp
        · simp only [Mesh.makeVertex, hi.2, List.length_append, List.length_cons, List.length_nil]
          push_cast
          rfl

theorem namePut_mem {V : Type} (k : String) (v : V) : ∀ (l : List (String × V)) (x : String × V), x ∈ namePut k v l →
    x = (k, v) ∨ x ∈ l
  | [], x, h => by simpa [namePut] using h
  | (a, w) :: l, x, h => by
    unfold namePut at h
    split at h
    · rcases List.mem_cons.1 h with h | h
      · exact Or.inl h
      · exact Or.inr (List.mem_cons_of_mem _ h)
    · split at h
      · rcases List.mem_cons.1 h with h | h
        · exact Or.inl h
        · exact Or.inr h
      · rcases List.mem_cons.1 h with h | h
        · exact Or.inr (by simp [h])
        · rcases namePut_mem k v l x h with h | h
          · exact Or.inl h
          · exact Or.inr (List.mem_cons_of_mem _ h)

theorem namePut_spec {V : Type} (k : String) (v : V) : ∀ {l : List (String × V)}, l.Pairwise (fun x y => x.1 < y.1) →
    (namePut k v l).Pairwise (fun x y => x.1 < y.1) ∧
    ∀ x, x ∈ namePut k v l ↔ x = (k, v) ∨ (x ∈ l ∧ x.1 ≠ k)
  | [], _ => by simp [namePut]
  | (a, w) :: l, h => by
    have hl := List.pairwise_cons.1 h
    unfold namePut
    split
    · rename_i he
      subst he
      refine ⟨List.pairwise_cons.2 ⟨fun y hy => hl.1 y hy, hl.2⟩, fun x => ?_⟩
      simp only [List.mem_cons]
      constructor
      · rintro (rfl | hx)
        · exact Or.inl rfl
        · exact Or.inr ⟨Or.inr hx, (hl.1 x hx).ne'⟩
      · rintro (rfl | ⟨rfl | hx, hne⟩)
        · exact Or.inl rfl
        · exact absurd rfl hne
        · exact Or.inr hx
    · rename_i hne
      split
      · rename_i hlt
        refine ⟨List.pairwise_cons.2 ⟨fun y hy => ?_, h⟩, fun x => ?_⟩
        · rcases List.mem_cons.1 hy with rfl | hy
          · exact hlt
          · exact lt_trans hlt (hl.1 y hy)
        · simp only [List.mem_cons]
          constructor
          · rintro (rfl | rfl | hx)
            · exact Or.inl rfl
            · exact Or.inr ⟨Or.inl rfl, fun h => hne h.symm⟩
            · exact Or.inr ⟨Or.inr hx, (lt_trans hlt (hl.1 x hx)).ne'⟩
          · rintro (rfl | ⟨rfl | hx, _⟩)
            · exact Or.inl rfl
            · exact Or.inr (Or.inl rfl)
            · exact Or.inr (Or.inr hx)
      · rename_i hge
        have hlt : a < k := lt_of_le_of_ne (not_lt.1 hge) (fun h => hne h.symm)
        obtain ⟨h1, h2⟩ := namePut_spec k v hl.2
        refine ⟨List.pairwise_cons.2 ⟨fun y hy => ?_, h1⟩, fun x => ?_⟩
        · rcases (h2 y).1 hy with rfl | ⟨hy, _⟩
          · exact hlt
          · exact hl.1 y hy
        · simp only [List.mem_cons, h2]
          constructor
          · rintro (rfl | rfl | ⟨hx, hn⟩)
            · exact Or.inr ⟨Or.inl rfl, hlt.ne⟩
            · exact Or.inl rfl
            · exact Or.inr ⟨Or.inr hx, hn⟩
          · rintro (rfl | ⟨rfl | hx, hn⟩)
            · exact Or.inr (Or.inl rfl)
            · exact Or.inl rfl
            · exact Or.inr (Or.inr ⟨hx, hn⟩)

theorem forall₂_left {A B : Type} {R : A → B → Prop} {l : List A} {r : List B} (h : List.Forall₂ R l r) {a : A}
    (ha : a ∈ l) : ∃ b ∈ r, R a b := by
  induction h with
  | nil => cases ha
  | cons h1 _ ih =>
    rcases List.mem_cons.1 ha with rfl | ha
    · exact ⟨_, List.mem_cons_self, h1⟩
    · obtain ⟨b, hb, hr⟩ := ih ha
      exact ⟨b, List.mem_cons_of_mem _ hb, hr⟩

theorem castLong_near {x : ℚ} {t : ℤ} (h : castLong x = some t) : |x - t| < 1 := by
  unfold castLong at h
  split at h
  · split at h
    · simp only [Option.some.injEq] at h
      subst h
      rw [abs_lt]
      have h1 := Int.floor_le x
      have h2 := Int.lt_floor_add_one x
      constructor <;> linarith
    · cases h
  · split at h
    · simp only [Option.some.injEq] at h
      subst h
      rw [abs_lt]
      have h1 := Int.le_ceil x
      have h2 := Int.ceil_lt_add_one x
      constructor <;> linarith
    · cases h

theorem mapM_some {A B : Type} {f : A → Option B} : ∀ {l : List A} {r : List B}, l.mapM f = some r →
    List.Forall₂ (fun a b => f a = some b) l r
  | [], r, h => by
    simp only [List.mapM_nil, Option.pure_def, Option.some.injEq] at h
    subst h
    exact .nil
  | a :: l, r, h => by
    simp only [List.mapM_cons, Option.pure_def, Option.bind_eq_bind, Option.bind_eq_some_iff, Option.some.injEq] at h
    obtain ⟨b, hb, r', hr, rfl⟩ := h
    exact .cons hb (mapM_some hr)

theorem dxFix_eq {v r : ℚ} (h : dxFix v = some r) : r = v + 1 / 100000 := by
  unfold dxFix at h
  obtain ⟨t, ht, rfl⟩ := Option.map_eq_some_iff.1 h
  rw [if_pos (castLong_near ht)]

end VG
