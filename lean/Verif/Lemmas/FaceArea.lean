import Verif.Props.RefineMesh
import Verif.Lemmas.RefineFit

/-!
The triangles of a refined face cover it.
-/

namespace VG

section
variable {K : Type} [Field K] [LinearOrder K] [IsStrictOrderedRing K]

/-- The point of a name. -/
def namePoint (p : Int → Nat → K) (s : Int × Int) : Nat → K := fun k => (p s.1 k + p s.2 k) / 2

/-- A measure of triangles which does not depend on their orientation. -/
def Unsigned (mu : (Nat → Nat → K) → K) : Prop := ∀ s M, mu (fun k l => s * M k l) = |s| * mu M

/-- The triangles of a face, with their measures. -/
def Covers (mark : Int → Int → Bool) (glen : Int → Int → K) (a b c : Int) : Prop :=
  ∃ L : List (List (Int × Int)), (∀ S, FaceTriangle mark glen a b c S ↔ ∃ l ∈ L, S = l.toFinset) ∧
    (L.map List.toFinset).Nodup ∧ (∀ l ∈ L, l.Nodup ∧ l.length = 3) ∧
    ∀ (p : Int → Nat → K) (mu : (Nat → Nat → K) → K), Unsigned mu →
      (L.map (fun l => triMeasure mu (l.map (namePoint p)))).sum = triMeasure mu [p a, p b, p c]

/-- The names on a face. -/
def faceName (x y z : Int) (i : Nat) : Int × Int :=
  [ptName x x, ptName y y, ptName z z, ptName x y, ptName x z, ptName y z].getD i (0, 0)

omit [Field K] [LinearOrder K] [IsStrictOrderedRing K] in
theorem faceName_eq (x y z : Int) : faceName x y z 0 = ptName x x ∧ faceName x y z 1 = ptName y y ∧ faceName x y z 2 = ptName z z ∧
    faceName x y z 3 = ptName x y ∧ faceName x y z 4 = ptName x z ∧ faceName x y z 5 = ptName y z := ⟨rfl, rfl, rfl, rfl, rfl, rfl⟩

omit [LinearOrder K] [IsStrictOrderedRing K] in
theorem faceName_inj {x y z : Int} (h1 : x ≠ y) (h2 : x ≠ z) (h3 : y ≠ z) : ∀ i < 6, ∀ j < 6, faceName x y z i = faceName x y z j → i = j := by
  intro i hi j hj
  interval_cases i <;> interval_cases j <;> simp [faceName, ptName_eq_iff] <;> omega

omit [Field K] [LinearOrder K] [IsStrictOrderedRing K] in
theorem names_nodup {x y z : Int} (h1 : x ≠ y) (h2 : x ≠ z) (h3 : y ≠ z) {L : List (List Nat)} (hL : L.Nodup) (hlt : ∀ l ∈ L, ∀ i ∈ l, i < 6)
    (hd : ∀ l ∈ L, ∀ l' ∈ L, (∀ i < 6, i ∈ l ↔ i ∈ l') → l = l') (hn : ∀ l ∈ L, l.Nodup ∧ l.length = 3) :
    ((L.map (List.map (faceName x y z))).map List.toFinset).Nodup ∧ ∀ l ∈ L.map (List.map (faceName x y z)), l.Nodup ∧ l.length = 3 := by
  have hi := faceName_inj h1 h2 h3
  constructor
  · rw [List.map_map]
    refine List.Nodup.map_on ?_ hL
    intro l hl l' hl' e
    refine hd l hl l' hl' fun i hi6 => ?_
    have key : ∀ l ∈ L, i ∈ l ↔ faceName x y z i ∈ (l.map (faceName x y z)).toFinset := by
      intro l hl
      rw [List.mem_toFinset, List.mem_map]
      constructor
      · intro h; exact ⟨i, h, rfl⟩
      · rintro ⟨j, hj, e⟩
        rw [← hi j (hlt l hl j hj) i hi6 e]; exact hj
    simp only [Function.comp] at e
    rw [key l hl, key l' hl', e]
  · intro l hl
    obtain ⟨l', hl', rfl⟩ := List.mem_map.1 hl
    refine ⟨List.Nodup.map_on (fun i hi' j hj' e => hi i (hlt l' hl' i hi') j (hlt l' hl' j hj') e) (hn l' hl').1, ?_⟩
    rw [List.length_map]; exact (hn l' hl').2

omit [LinearOrder K] [IsStrictOrderedRing K] in
theorem namePoint_pt (p : Int → Nat → K) (x y : Int) : namePoint p (ptName x y) = fun k => (p x k + p y k) / 2 := by
  unfold namePoint ptName
  rcases le_total x y with h | h
  · simp [h]
  · simp [h, add_comm]

omit [IsStrictOrderedRing K] in
theorem measure_scaled {mu : (Nat → Nat → K) → K} (hmu : Unsigned mu) {a b c a' b' c' : Nat → K} (s : K)
    (h : ∀ k l, area2 a b c k l = s * area2 a' b' c' k l) : triMeasure mu [a, b, c] = |s| * triMeasure mu [a', b', c'] := by
  unfold triMeasure
  show mu (area2 a b c) = |s| * mu (area2 a' b' c')
  rw [← hmu, show area2 a b c = fun k l => s * area2 a' b' c' k l from funext fun k => funext fun l => h k l]

theorem Covers.comm12 {mark : Int → Int → Bool} {glen : Int → Int → K} {a b c : Int} (h : Covers mark glen a b c) : Covers mark glen b a c := by
  obtain ⟨L, h1, h2, h3, h4⟩ := h
  refine ⟨L, fun S => FaceTriangle.comm12.trans (h1 S), h2, h3, fun p mu hmu => ?_⟩
  rw [h4 p mu hmu, measure_scaled hmu (a' := p b) (b' := p a) (c' := p c) (-1) (fun k l => by unfold area2; ring)]
  simp

theorem Covers.comm23 {mark : Int → Int → Bool} {glen : Int → Int → K} {a b c : Int} (h : Covers mark glen a b c) : Covers mark glen a c b := by
  obtain ⟨L, h1, h2, h3, h4⟩ := h
  refine ⟨L, fun S => FaceTriangle.comm23.trans (h1 S), h2, h3, fun p mu hmu => ?_⟩
  rw [h4 p mu hmu, measure_scaled hmu (a' := p a) (b' := p c) (c' := p b) (-1) (fun k l => by unfold area2; ring)]
  simp

variable {mark : Int → Int → Bool} {glen : Int → Int → K} {x y z : Int}

theorem covers0 (hs : ∀ x y, mark x y = mark y x) (n1 : x ≠ y) (n2 : x ≠ z) (n3 : y ≠ z) (h1 : mark x y = false) (h2 : mark x z = false)
    (h3 : mark y z = false) : Covers mark glen x y z := by
  obtain ⟨a1, a2⟩ := names_nodup n1 n2 n3 (L := [[0, 1, 2]]) (by decide) (by decide) (by decide) (by decide)
  refine ⟨_, fun S => ?_, a1, a2, fun p mu hmu => ?_⟩
  · have h1' := hs y x ▸ h1
    have h2' := hs z x ▸ h2
    have h3' := hs z y ▸ h3
    simp only [FaceTriangle, FaceTriangle1, h1, h2, h3, h1', h2', h3']
    simp [faceName_eq]
    have e1 : ({ptName x x, ptName z z, ptName y y} : Finset (Int × Int)) = {ptName x x, ptName y y, ptName z z} := by ext s; simp; tauto
    have e2 : ({ptName y y, ptName x x, ptName z z} : Finset (Int × Int)) = {ptName x x, ptName y y, ptName z z} := by ext s; simp; tauto
    have e3 : ({ptName y y, ptName z z, ptName x x} : Finset (Int × Int)) = {ptName x x, ptName y y, ptName z z} := by ext s; simp; tauto
    have e4 : ({ptName z z, ptName x x, ptName y y} : Finset (Int × Int)) = {ptName x x, ptName y y, ptName z z} := by ext s; simp; tauto
    have e5 : ({ptName z z, ptName y y, ptName x x} : Finset (Int × Int)) = {ptName x x, ptName y y, ptName z z} := by ext s; simp; tauto
    simp only [e1, e2, e3, e4, e5, or_self]
    exact id
  · simp only [List.map_cons, List.map_nil, faceName, List.getD_cons_zero, List.getD_cons_succ, List.sum_cons, List.sum_nil, namePoint_pt]
    rw [measure_scaled hmu (a' := p x) (b' := p y) (c' := p z) 1 (fun k l => by unfold area2; ring)]
    simp

theorem covers1 (hs : ∀ x y, mark x y = mark y x) (n1 : x ≠ y) (n2 : x ≠ z) (n3 : y ≠ z) (h1 : mark x y = true) (h2 : mark x z = false)
    (h3 : mark y z = false) : Covers mark glen x y z := by
  obtain ⟨a1, a2⟩ := names_nodup n1 n2 n3 (L := [[0, 3, 2], [1, 3, 2]]) (by decide) (by decide) (by decide) (by decide)
  refine ⟨_, fun S => ?_, a1, a2, fun p mu hmu => ?_⟩
  · have h1' := hs y x ▸ h1
    have h2' := hs z x ▸ h2
    have h3' := hs z y ▸ h3
    simp only [FaceTriangle, FaceTriangle1, h1, h2, h3, h1', h2', h3']
    simp [faceName_eq, ptName_comm y x]
  · simp only [List.map_cons, List.map_nil, faceName, List.getD_cons_zero, List.getD_cons_succ, List.sum_cons, List.sum_nil, namePoint_pt]
    rw [measure_scaled hmu (a' := p x) (b' := p y) (c' := p z) (1 / 2) (fun k l => by unfold area2; ring),
      measure_scaled hmu (a := fun k => (p y k + p y k) / 2) (a' := p x) (b' := p y) (c' := p z) (-(1 / 2)) (fun k l => by unfold area2; ring)]
    rw [abs_neg, abs_of_pos (by norm_num : (0 : K) < 1 / 2)]
    ring

theorem covers2 (hs : ∀ x y, mark x y = mark y x) (n1 : x ≠ y) (n2 : x ≠ z) (n3 : y ≠ z) (h1 : mark x y = true) (h2 : mark x z = true)
    (h3 : mark y z = false) (hl : LongerLine glen x y x z) (hl' : ¬ LongerLine glen x z x y) : Covers mark glen x y z := by
  obtain ⟨a1, a2⟩ := names_nodup n1 n2 n3 (L := [[0, 3, 4], [3, 1, 2], [3, 4, 2]]) (by decide) (by decide) (by decide) (by decide)
  refine ⟨_, fun S => ?_, a1, a2, fun p mu hmu => ?_⟩
  · have h1' := hs y x ▸ h1
    have h2' := hs z x ▸ h2
    have h3' := hs z y ▸ h3
    simp only [FaceTriangle, FaceTriangle1, h1, h2, h3, h1', h2', h3', hl, hl']
    simp [faceName_eq]
    have e1 : ({ptName x x, ptName x z, ptName x y} : Finset (Int × Int)) = {ptName x x, ptName x y, ptName x z} := by ext s; simp; tauto
    rw [e1]
    tauto
  · simp only [List.map_cons, List.map_nil, faceName, List.getD_cons_zero, List.getD_cons_succ, List.sum_cons, List.sum_nil, namePoint_pt]
    rw [measure_scaled hmu (a' := p x) (b' := p y) (c' := p z) (1 / 4) (fun k l => by unfold area2; ring),
      measure_scaled hmu (b := fun k => (p y k + p y k) / 2) (a' := p x) (b' := p y) (c' := p z) (1 / 2) (fun k l => by unfold area2; ring),
      measure_scaled hmu (b := fun k => (p x k + p z k) / 2) (a' := p x) (b' := p y) (c' := p z) (-(1 / 4)) (fun k l => by unfold area2; ring)]
    rw [abs_neg, abs_of_pos (by norm_num : (0 : K) < 1 / 2), abs_of_pos (by norm_num : (0 : K) < 1 / 4)]
    ring

theorem covers3 (hs : ∀ x y, mark x y = mark y x) (n1 : x ≠ y) (n2 : x ≠ z) (n3 : y ≠ z) (h1 : mark x y = true) (h2 : mark x z = true)
    (h3 : mark y z = true) : Covers mark glen x y z := by
  obtain ⟨a1, a2⟩ := names_nodup n1 n2 n3 (L := [[0, 3, 4], [1, 3, 5], [2, 4, 5], [3, 4, 5]]) (by decide) (by decide) (by decide) (by decide)
  refine ⟨_, fun S => ?_, a1, a2, fun p mu hmu => ?_⟩
  · have h1' := hs y x ▸ h1
    have h2' := hs z x ▸ h2
    have h3' := hs z y ▸ h3
    simp only [FaceTriangle, FaceTriangle1, h1, h2, h3, h1', h2', h3', ptName_comm y x, ptName_comm z x, ptName_comm z y]
    simp [faceName_eq]
    have e1 : ({ptName x x, ptName x z, ptName x y} : Finset (Int × Int)) = {ptName x x, ptName x y, ptName x z} := by ext s; simp; tauto
    have e2 : ({ptName y y, ptName y z, ptName x y} : Finset (Int × Int)) = {ptName y y, ptName x y, ptName y z} := by ext s; simp; tauto
    have e3 : ({ptName z z, ptName y z, ptName x z} : Finset (Int × Int)) = {ptName z z, ptName x z, ptName y z} := by ext s; simp; tauto
    have f1 : ({ptName x z, ptName x y, ptName y z} : Finset (Int × Int)) = {ptName x y, ptName x z, ptName y z} := by ext s; simp; tauto
    have f2 : ({ptName x y, ptName y z, ptName x z} : Finset (Int × Int)) = {ptName x y, ptName x z, ptName y z} := by ext s; simp; tauto
    have f3 : ({ptName y z, ptName x y, ptName x z} : Finset (Int × Int)) = {ptName x y, ptName x z, ptName y z} := by ext s; simp; tauto
    have f4 : ({ptName x z, ptName y z, ptName x y} : Finset (Int × Int)) = {ptName x y, ptName x z, ptName y z} := by ext s; simp; tauto
    have f5 : ({ptName y z, ptName x z, ptName x y} : Finset (Int × Int)) = {ptName x y, ptName x z, ptName y z} := by ext s; simp; tauto
    rw [e1, e2, e3, f1, f2, f3, f4, f5]
    tauto
  · simp only [List.map_cons, List.map_nil, faceName, List.getD_cons_zero, List.getD_cons_succ, List.sum_cons, List.sum_nil, namePoint_pt]
    rw [measure_scaled hmu (a := fun k => (p x k + p x k) / 2) (a' := p x) (b' := p y) (c' := p z) (1 / 4) (fun k l => by unfold area2; ring),
      measure_scaled hmu (a := fun k => (p y k + p y k) / 2) (a' := p x) (b' := p y) (c' := p z) (-(1 / 4)) (fun k l => by unfold area2; ring),
      measure_scaled hmu (a := fun k => (p z k + p z k) / 2) (a' := p x) (b' := p y) (c' := p z) (1 / 4) (fun k l => by unfold area2; ring),
      measure_scaled hmu (b := fun k => (p x k + p z k) / 2) (a' := p x) (b' := p y) (c' := p z) (-(1 / 4)) (fun k l => by unfold area2; ring)]
    rw [abs_neg, abs_of_pos (by norm_num : (0 : K) < 1 / 4)]
    ring

omit [Field K] [IsStrictOrderedRing K] in
theorem longer_total (hg : ∀ x y, glen x y = glen y x) (n3 : y ≠ z) :
    (LongerLine glen x y x z ∧ ¬ LongerLine glen x z x y) ∨ (LongerLine glen x z x y ∧ ¬ LongerLine glen x y x z) := by
  have := hg x y
  unfold LongerLine
  rcases lt_trichotomy (glen x y) (glen x z) with h | h | h
  · have h1 := not_lt_of_gt h
    have h2 := ne_of_lt h
    have h3 := ne_of_gt h
    simp only [h, h1, h2, h3, true_or, false_or, false_and, not_false_eq_true, not_true, and_false, and_true, or_true]
  · simp only [h, lt_irrefl, false_or, true_and]
    omega
  · have h1 := not_lt_of_gt h
    have h2 := ne_of_lt h
    have h3 := ne_of_gt h
    simp only [h, h1, h2, h3, false_and, not_false_eq_true, not_true, and_false, and_true, or_false]

theorem covers (hs : ∀ x y, mark x y = mark y x) (hg : ∀ x y, glen x y = glen y x) (n1 : x ≠ y) (n2 : x ≠ z) (n3 : y ≠ z) :
    Covers mark glen x y z := by
  have two : ∀ {x y z : Int}, x ≠ y → x ≠ z → y ≠ z → mark x y = true → mark x z = true → mark y z = false → Covers mark glen x y z := by
    intro x y z n1 n2 n3 h1 h2 h3
    rcases longer_total hg n3 with ⟨l1, l2⟩ | ⟨l1, l2⟩
    · exact covers2 hs n1 n2 n3 h1 h2 h3 l1 l2
    · exact (covers2 hs n2 n1 n3.symm h2 h1 (by rw [hs]; exact h3) l1 l2).comm23
  cases h1 : mark x y <;> cases h2 : mark x z <;> cases h3 : mark y z
  · exact covers0 hs n1 n2 n3 h1 h2 h3
  · exact (covers1 hs n3 n1.symm n2.symm h3 (by rw [hs]; exact h1) (by rw [hs]; exact h2)).comm23.comm12
  · exact (covers1 hs n2 n1 n3.symm h2 h1 (by rw [hs]; exact h3)).comm23
  · exact (two n2.symm n3.symm n1 (by rw [hs]; exact h2) (by rw [hs]; exact h3) h1).comm12.comm23
  · exact covers1 hs n1 n2 n3 h1 h2 h3
  · exact (two n1.symm n3 n2 (by rw [hs]; exact h1) h3 h2).comm12
  · exact two n1 n2 n3 h1 h2 h3
  · exact covers3 hs n1 n2 n3 h1 h2 h3

end

end VG
