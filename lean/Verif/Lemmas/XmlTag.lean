import Verif.Model.XmlTag
import Mathlib.Data.List.Basic

/-! How the loops of the XML parser run over plain pieces of text. -/

namespace VG

theorem xmlStart_spec (pre rest : List Char) (h : '<' ∉ pre) : xmlStart (pre ++ '<' :: rest) = some rest := by
  induction pre with
  | nil => simp [xmlStart]
  | cons x xs ih =>
    simp only [List.mem_cons, not_or] at h
    simp [xmlStart, ih h.2, Ne.symm h.1]

theorem xmlStart_none (l : List Char) (h : '<' ∉ l) : xmlStart l = none := by
  induction l with
  | nil => rfl
  | cons x xs ih =>
    simp only [List.mem_cons, not_or] at h
    simp [xmlStart, ih h.2, Ne.symm h.1]

theorem xmlName_spec (name : List Char) (hs : ' ' ∉ name) (hg : '>' ∉ name) (x : Char) (hx : x = ' ' ∨ x = '>')
    (rest : List Char) : ∀ (c : Char) (acc : List Char),
    xmlName c acc (name ++ x :: rest) = (acc ++ name.map lowerChar ++ [lowerChar x], x, rest, true) := by
  induction name with
  | nil =>
    intro c acc
    rcases hx with rfl | rfl <;> simp [xmlName]
  | cons y ys ih =>
    intro c acc
    simp only [List.mem_cons, not_or] at hs hg
    simp [xmlName, Ne.symm hs.1, Ne.symm hg.1, ih hs.2 hg.2]

theorem xmlAttrs_outside (l : List Char) (hq : '"' ∉ l) (hg : '>' ∉ l) (y : Char) (rest : List Char)
    (attrs : List (List Char × List Char)) : ∀ (c : Char) (token : List Char),
    xmlAttrs c token false attrs (l ++ y :: rest) =
      xmlAttrs c (token ++ (l.filter (fun x => x ≠ ' ')).map lowerChar) false attrs (y :: rest) := by
  induction l with
  | nil => intro c token; simp
  | cons x xs ih =>
    intro c token
    simp only [List.mem_cons, not_or] at hq hg
    have hx : (x == '"') = false := by simpa using Ne.symm hq.1
    by_cases hb : x = ' '
    · subst hb
      rw [List.cons_append, xmlAttrs]
      simp only [xmlStep, Bool.false_and, Bool.false_or]
      simp [ih hq.2 hg.2, xmlAttrs]
    · rw [List.cons_append, xmlAttrs]
      simp only [xmlStep, Bool.false_and, Bool.false_or, hx]
      simp [ih hq.2 hg.2, hb, Ne.symm hg.1, xmlAttrs]

theorem xmlAttrs_inside (l : List Char) (hq : '"' ∉ l) (hg : '>' ∉ l) (y : Char) (rest : List Char)
    (attrs : List (List Char × List Char)) : ∀ (c : Char) (token : List Char),
    xmlAttrs c token true attrs (l ++ y :: rest) = xmlAttrs c (token ++ l) true attrs (y :: rest) := by
  induction l with
  | nil => intro c token; simp
  | cons x xs ih =>
    intro c token
    simp only [List.mem_cons, not_or] at hq hg
    have hx : (x == '"') = false := by simpa using Ne.symm hq.1
    rw [List.cons_append, xmlAttrs]
    simp only [xmlStep, Bool.true_or, hx]
    simp [ih hq.2 hg.2, Ne.symm hg.1, xmlAttrs]

theorem xmlAttr_spec (n v : List Char) (hn : n ≠ []) (he : '=' ∉ n) (hv : v ≠ []) :
    xmlAttr (n ++ '=' :: '"' :: (v ++ ['"'])) = .ok (n, v) := by
  have hidx : (n ++ '=' :: '"' :: (v ++ ['"'])).idxOf '=' = n.length := by
    rw [List.idxOf_append_of_notMem he]; simp
  have hlen : 0 < n.length := List.length_pos_iff.2 hn
  have hvl : 0 < v.length := List.length_pos_iff.2 hv
  have hdrop : (n ++ '=' :: '"' :: (v ++ ['"'])).drop (n.length + 2) = v ++ ['"'] := by
    rw [List.drop_append]; simp
  unfold xmlAttr
  rw [if_pos (by simp)]
  simp only [hidx, hdrop]
  rw [if_neg (by omega), if_pos (by simp)]
  simp [hv]

theorem upper_cases {c : Char} (hc : 'A' ≤ c ∧ c ≤ 'Z') : ∃ i : Fin 26, c = Char.ofNat (65 + i.val) := by
  have h1 : 65 ≤ c.toNat := hc.1
  have h2 : c.toNat ≤ 90 := hc.2
  refine ⟨⟨c.toNat - 65, by omega⟩, ?_⟩
  have : 65 + (c.toNat - 65) = c.toNat := by omega
  simp [this]

theorem upper_facts : ∀ i : Fin 26, Char.ofNat ((Char.ofNat (65 + i.val)).toNat + 32) = (Char.ofNat (65 + i.val)).toLower ∧
    'a' ≤ (Char.ofNat (65 + i.val)).toLower ∧ (Char.ofNat (65 + i.val)).toLower ≤ 'z' := by decide +kernel

theorem lowerChar_eq (c : Char) : lowerChar c = c.toLower := by
  unfold lowerChar
  split
  · rename_i hc
    obtain ⟨i, rfl⟩ := upper_cases hc
    exact (upper_facts i).1
  · rename_i hc
    unfold Char.toLower
    split
    · rename_i h
      exact absurd h hc
    · rfl

theorem lowerChar_ne_of {c d : Char} (hd : ¬ ('a' ≤ d ∧ d ≤ 'z')) (h : c ≠ d) : lowerChar c ≠ d := by
  by_cases hc : 'A' ≤ c ∧ c ≤ 'Z'
  · obtain ⟨i, rfl⟩ := upper_cases hc
    rw [lowerChar_eq]
    intro he
    exact hd (he ▸ (upper_facts i).2)
  · unfold lowerChar
    rw [if_neg hc]
    exact h

end VG
