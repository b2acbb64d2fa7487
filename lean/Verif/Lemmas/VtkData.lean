import Verif.Model.VtkData
import Verif.Lemmas.OpenDx
import Verif.Props.Vtk

/-! Registered quantities of `vtk_writer` and `vtk_reader`. -/

namespace VG

variable {C : Type}

/-! ### The containers of the writer -/

/-- Registrations one after the other. -/
theorem adds_sorted (rs : List (VtkReg C)) : ∀ c g,
    ((rs.foldl VtkWriter.add (.new : VtkWriter C)).scalars c g).Pairwise (fun x y => x.1 < y.1) ∧
    ((rs.foldl VtkWriter.add (.new : VtkWriter C)).vectors c g).Pairwise (fun x y => x.1 < y.1) := by
  induction rs using List.reverseRecOn with
  | nil => intro c g; exact ⟨List.Pairwise.nil, List.Pairwise.nil⟩
  | append_singleton rs r ih =>
    intro c g
    rw [List.foldl_append]
    simp only [List.foldl_cons, List.foldl_nil]
    unfold VtkWriter.add
    split
    · refine ⟨?_, (ih c g).2⟩
      simp only
      split
      · exact (namePut_spec _ _ (ih c g).1).1
      · exact (ih c g).1
    · refine ⟨(ih c g).1, ?_⟩
      simp only
      split
      · exact (namePut_spec _ _ (ih c g).2).1
      · exact (ih c g).2

/-! ### Reading -/

/-- The destinations after the values of `E` were delivered; `V` lists the elements by handle. -/
def Applied {α : Type} (V : List Nat) (E : Dest → Nat → Option α) (s s' : Dest → FieldOf α) : Prop :=
  ∀ d (i : Nat), (∀ v, V[i]? = some v → s' d i = (E d v).or (s d i)) ∧ (V[i]? = none → s' d i = s d i)

theorem Applied.refl {α : Type} (V : List Nat) (s : Dest → FieldOf α) : Applied V (fun _ _ => none) s s :=
  fun _ _ => ⟨fun _ _ => rfl, fun _ => rfl⟩

theorem Applied.trans {α : Type} {V : List Nat} {E E' : Dest → Nat → Option α} {s s' s'' : Dest → FieldOf α}
    (h : Applied V E s s') (h' : Applied V E' s' s'') : Applied V (fun d v => (E' d v).or (E d v)) s s'' := by
  intro d i
  refine ⟨fun v hv => ?_, fun hv => ?_⟩
  · rw [(h' d i).1 v hv, (h d i).1 v hv, Option.or_assoc]
  · rw [(h' d i).2 hv, (h d i).2 hv]

/-- One array. -/
def oneE {α : Type} (d0 : Dest) (U : List Nat) (q : Nat → α) (d : Dest) (v : Nat) : Option α :=
  if d = d0 ∧ v ∈ U then some (q v) else none

theorem Applied.one {α : Type} {V U : List Nat} {q : Nat → α} {s : Dest → FieldOf α} {d0 : Dest} {new : FieldOf α}
    (h : GotValues V (· ∈ U) q (s d0) new) : Applied V (oneE d0 U q) s (putAt s d0 new) := by
  intro d i
  unfold putAt oneE
  by_cases hd : d = d0
  · subst hd
    refine ⟨fun v hv => ?_, fun hv => ?_⟩
    · rw [if_pos rfl]
      by_cases hU : v ∈ U
      · rw [if_pos ⟨rfl, hU⟩, h.1 i v hv hU]; rfl
      · rw [if_neg (by simp [hU]), h.2 i (fun w hw => by rw [hv] at hw; cases hw; exact hU)]; rfl
    · rw [if_pos rfl, h.2 i (fun w hw => by rw [hv] at hw; cases hw)]
  · refine ⟨fun v hv => ?_, fun hv => ?_⟩
    · rw [if_neg hd, if_neg (by simp [hd])]; rfl
    · rw [if_neg hd]

/-- The arrays of a file. -/
def listE {α : Type} (R : Option Nat → String → Bool) (g : Nat) (U : List Nat) : List (String × (Nat → α)) →
    Dest → Nat → Option α
  | [] => fun _ _ => none
  | x :: l => fun d v => (listE R g U l d v).or (oneE (destOf R g x.1) U x.2 d v)

theorem putScalars_spec {V U : List Nat} (hV : V.Nodup) (hU : U.Nodup) (hUV : ∀ v ∈ U, v ∈ V)
    (R : Option Nat → String → Bool) (g : Nat) : ∀ (l : List (String × (Nat → C))) (s : Dest → FieldOf C),
    ∃ s', putScalars R g (U.map fun v => V.idxOf v) (l.map fun x => (x.1, U.map x.2)) s = some s' ∧
      Applied V (listE R g U l) s s'
  | [], s => ⟨s, rfl, Applied.refl V s⟩
  | x :: l, s => by
    obtain ⟨new, h1, h2⟩ := C50_scalar_values (U.map fun v => V.idxOf v) (U.map x.2) (by simp) (s (destOf R g x.1))
    obtain ⟨s', h3, h4⟩ := putScalars_spec hV hU hUV R g l (putAt s (destOf R g x.1) new)
    refine ⟨s', ?_, (Applied.one (h2.gotValues hV hU hUV _)).trans h4⟩
    simp only [List.map_cons, putScalars, h1, Option.bind_some, h3]

theorem putVectors_spec {V U : List Nat} (hV : V.Nodup) (hU : U.Nodup) (hUV : ∀ v ∈ U, v ∈ V)
    (R : Option Nat → String → Bool) (g : Nat) : ∀ (l : List (String × (Nat → C × C × C))) (s : Dest → FieldOf (C × C × C)),
    (∀ x ∈ l, (destOf R g x.1).registered ≠ .segment) →
    ∃ s', putVectors R g (U.map fun v => V.idxOf v) (l.map fun x => (x.1, flatten3 (U.map x.2))) s = some s' ∧
      Applied V (listE R g U l) s s'
  | [], s, _ => ⟨s, rfl, Applied.refl V s⟩
  | x :: l, s, hr => by
    obtain ⟨new, h1, h2⟩ := C50_vector_values_partial (hr x (by simp)) (U.map fun v => V.idxOf v) (U.map x.2) (by simp)
      (s (destOf R g x.1))
    obtain ⟨s', h3, h4⟩ := putVectors_spec hV hU hUV R g l (putAt s (destOf R g x.1) new) (fun y hy => hr y (by simp [hy]))
    refine ⟨s', ?_, (Applied.one (h2.gotValues hV hU hUV _)).trans h4⟩
    simp only [List.map_cons, putVectors, h1, Option.bind_some, h3]

/-- The scalar quantities, as they are written. -/
def scOf (txt : C → C) : List (String × Quantity C) → List (String × (Nat → C))
  | [] => []
  | (n, .scalar f) :: l => (n, fun v => txt (f v)) :: scOf txt l
  | (_, .vector _) :: l => scOf txt l

/-- The vector quantities, as they are written. -/
def veOf (txt : C → C) : List (String × Quantity C) → List (String × (Nat → C × C × C))
  | [] => []
  | (n, .vector f) :: l => (n, fun v => (txt (f v).1, txt (f v).2.1, txt (f v).2.2)) :: veOf txt l
  | (_, .scalar _) :: l => veOf txt l

theorem readArrays_written (txt : C → C) (U : List Nat) : ∀ (k : Nat) (qs : List (String × Quantity C)),
    readArrays k (qs.map fun q => (⟨q.1, some q.2.comps, q.2.write txt U⟩ : DataArray C)) =
      .ok ((scOf txt qs).map (fun x => (x.1, U.map x.2)), (veOf txt qs).map (fun x => (x.1, flatten3 (U.map x.2))))
  | _, [] => rfl
  | k, (n, .scalar f) :: qs => by
    have h : readArrays k (((n, .scalar f) :: qs).map fun q => (⟨q.1, some q.2.comps, q.2.write txt U⟩ : DataArray C)) =
        (readArrays 1 (qs.map fun q => (⟨q.1, some q.2.comps, q.2.write txt U⟩ : DataArray C))).map
          fun r => ((n, U.map fun h => txt (f h)) :: r.1, r.2) := rfl
    rw [h, readArrays_written txt U 1 qs]
    rfl
  | k, (n, .vector f) :: qs => by
    have h : readArrays k (((n, .vector f) :: qs).map fun q => (⟨q.1, some q.2.comps, q.2.write txt U⟩ : DataArray C)) =
        (readArrays 3 (qs.map fun q => (⟨q.1, some q.2.comps, q.2.write txt U⟩ : DataArray C))).map
          fun r => (r.1, (n, U.flatMap fun h => [txt (f h).1, txt (f h).2.1, txt (f h).2.2]) :: r.2) := rfl
    rw [h, readArrays_written txt U 3 qs]
    simp [Except.map, scOf, veOf, flatten3, List.flatMap_map]

theorem putArrays_spec {txt : C → C} {V U : List Nat} (hV : V.Nodup) (hU : U.Nodup) (hUV : ∀ v ∈ U, v ∈ V)
    (R : Bool → Option Nat → String → Bool) (g : Nat) (qs : List (String × Quantity C)) (D : Values C)
    (hr : ∀ x ∈ veOf txt qs, (destOf (R true) g x.1).registered ≠ .segment) :
    ∃ D', putArrays R g (U.map fun v => V.idxOf v)
        (qs.map fun q => (⟨q.1, some q.2.comps, q.2.write txt U⟩ : DataArray C)) D = some D' ∧
      Applied V (listE (R false) g U (scOf txt qs)) D.scalars D'.scalars ∧
      Applied V (listE (R true) g U (veOf txt qs)) D.vectors D'.vectors := by
  obtain ⟨s, h1, h2⟩ := putScalars_spec hV hU hUV (R false) g (scOf txt qs) D.scalars
  obtain ⟨w, h3, h4⟩ := putVectors_spec hV hU hUV (R true) g (veOf txt qs) D.vectors hr
  refine ⟨⟨s, w⟩, ?_, h2, h4⟩
  unfold putArrays
  rw [readArrays_written]
  simp only [h1, h3, Option.bind_some, Option.map_some]

/-- The files. -/
def filesE {α : Type} (E : Nat → Dest → Nat → Option α) : List Nat → Dest → Nat → Option α
  | [] => fun _ _ => none
  | g :: l => fun d v => (filesE E l d v).or (E g d v)

theorem setupData_spec {txt : C → C} {V : List Nat} (hV : V.Nodup) (U : Nat → List Nat) (qs : Nat → List (String × Quantity C))
    (R : Bool → Option Nat → String → Bool) : ∀ (gs : List Nat) (D : Values C), (∀ g ∈ gs, (U g).Nodup) →
    (∀ g ∈ gs, ∀ v ∈ U g, v ∈ V) →
    (∀ g ∈ gs, ∀ x ∈ veOf txt (qs g), (destOf (R true) g x.1).registered ≠ .segment) →
    ∃ D', setupData R (gs.map fun g => (g, (qs g).map fun q => (⟨q.1, some q.2.comps, q.2.write txt (U g)⟩ : DataArray C)))
        (gs.map fun g => (U g).map fun v => V.idxOf v) D = some D' ∧
      Applied V (filesE (fun g => listE (R false) g (U g) (scOf txt (qs g))) gs) D.scalars D'.scalars ∧
      Applied V (filesE (fun g => listE (R true) g (U g) (veOf txt (qs g))) gs) D.vectors D'.vectors
  | [], D, _, _, _ => ⟨D, rfl, Applied.refl _ _, Applied.refl _ _⟩
  | g :: gs, D, h1, h2, h3 => by
    obtain ⟨D1, h4, h5, h6⟩ := putArrays_spec hV (h1 g (by simp)) (h2 g (by simp)) R g (qs g) D (h3 g (by simp))
    obtain ⟨D2, h7, h8, h9⟩ := setupData_spec hV U qs R gs D1 (fun x hx => h1 x (by simp [hx]))
      (fun x hx => h2 x (by simp [hx])) (fun x hx => h3 x (by simp [hx]))
    refine ⟨D2, ?_, h5.trans h8, h6.trans h9⟩
    simp only [List.map_cons, setupData, h4, Option.bind_some, h7]

/-! ### Which value is delivered -/

/-- The name of the quantity. -/
def Dest.name : Dest → String
  | .all n => n
  | .segment _ n => n
  | .own _ n => n

theorem destOf_name (R : Option Nat → String → Bool) (g : Nat) (n : String) : (destOf R g n).name = n := by
  unfold destOf
  split
  · rfl
  · split <;> rfl

theorem destOf_inj {R : Option Nat → String → Bool} {g : Nat} {n n' : String} (h : destOf R g n = destOf R g n') : n = n' := by
  rw [← destOf_name R g n, h, destOf_name]

/-- The last entry of a list with this name. -/
def LastIn {α : Type} (l : List (String × α)) (n : String) (q : α) : Prop :=
  ∃ pre post, l = pre ++ (n, q) :: post ∧ ∀ x ∈ post, x.1 ≠ n

theorem LastIn.unique {α : Type} {l : List (String × α)} {n : String} {q q' : α} (h : LastIn l n q) (h' : LastIn l n q') :
    q = q' := by
  induction l with
  | nil => obtain ⟨pre, post, he, -⟩ := h; simp at he
  | cons a l ih =>
    obtain ⟨pre, post, he, hp⟩ := h
    obtain ⟨pre', post', he', hp'⟩ := h'
    cases pre with
    | nil =>
      cases pre' with
      | nil => simp at he he'; rw [he.1] at he'; simpa using he'.1
      | cons b pre' =>
        simp at he he'
        exact absurd rfl (hp (n, q') (by rw [← he.2, he'.2]; simp))
    | cons b pre =>
      cases pre' with
      | nil =>
        simp at he he'
        exact absurd rfl (hp' (n, q) (by rw [← he'.2, he.2]; simp))
      | cons b' pre' =>
        simp at he he'
        exact ih ⟨pre, post, he.2, hp⟩ ⟨pre', post', he'.2, hp'⟩

theorem listE_none {α : Type} {R : Option Nat → String → Bool} {g : Nat} {U : List Nat} : ∀ {l : List (String × (Nat → α))}
    {d : Dest} {v : Nat}, (v ∈ U → ∀ x ∈ l, destOf R g x.1 ≠ d) → listE R g U l d v = none
  | [], _, _, _ => rfl
  | x :: l, d, v, h => by
    show (listE R g U l d v).or (oneE (destOf R g x.1) U x.2 d v) = none
    rw [listE_none (l := l) (fun hv y hy => h hv y (by simp [hy])), Option.none_or, oneE, if_neg]
    rintro ⟨h1, h2⟩
    exact h h2 x (by simp) h1.symm

theorem listE_some {α : Type} {R : Option Nat → String → Bool} {g : Nat} {U : List Nat} : ∀ {l : List (String × (Nat → α))}
    {n : String} {q : Nat → α} {v : Nat}, v ∈ U → LastIn l n q → listE R g U l (destOf R g n) v = some (q v)
  | [], _, _, _, _, ⟨pre, post, he, _⟩ => by simp at he
  | x :: l, n, q, v, hv, ⟨pre, post, he, hp⟩ => by
    cases pre with
    | nil =>
      simp at he
      obtain ⟨rfl, rfl⟩ := he
      show (listE R g U l (destOf R g n) v).or (oneE (destOf R g n) U q (destOf R g n) v) = some (q v)
      rw [listE_none (fun _ y hy he => hp y hy (destOf_inj he)), Option.none_or, oneE, if_pos ⟨rfl, hv⟩]
    | cons b pre =>
      simp at he
      show (listE R g U l (destOf R g n) v).or _ = some (q v)
      rw [listE_some hv ⟨pre, post, he.2, hp⟩]
      rfl

theorem filesE_none {α : Type} {E : Nat → Dest → Nat → Option α} {d : Dest} {v : Nat} : ∀ {gs : List Nat},
    (∀ g ∈ gs, E g d v = none) → filesE E gs d v = none
  | [], _ => rfl
  | g :: gs, h => by
    show (filesE E gs d v).or (E g d v) = none
    rw [filesE_none (fun x hx => h x (by simp [hx])), h g (by simp)]
    rfl

theorem filesE_some {α : Type} {E : Nat → Dest → Nat → Option α} {d : Dest} {v : Nat} : ∀ {gs : List Nat} {g : Nat} {x : α},
    gs.Pairwise (· < ·) → g ∈ gs → E g d v = some x → (∀ g' ∈ gs, g < g' → E g' d v = none) → filesE E gs d v = some x
  | [], _, _, _, h, _, _ => by simp at h
  | a :: gs, g, x, hs, hg, he, hn => by
    have hs' := List.pairwise_cons.1 hs
    show (filesE E gs d v).or (E a d v) = some x
    rcases List.mem_cons.1 hg with rfl | hg
    · rw [filesE_none (fun y hy => hn y (by simp [hy]) (hs'.1 y hy)), he]; rfl
    · rw [filesE_some hs'.2 hg he (fun y hy => hn y (by simp [hy]))]; rfl

end VG
