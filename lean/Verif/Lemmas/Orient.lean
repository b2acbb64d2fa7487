import Verif.Model.Mesh
import Mathlib.Data.List.Nodup
import Mathlib.Data.List.Perm.Basic

namespace VG

theorem orientLoop_length (vs : List Nat) : ∀ (rest : List Nat) (i : Nat) (perm : List Nat),
    (orientLoop vs i rest perm).length = perm.length
  | [], _, _ => rfl
  | v :: rest, i, perm => by
    simp only [orientLoop]
    split
    · rw [orientLoop_length vs rest]; simp
    · rw [orientLoop_length vs rest]

theorem findIdx?_nodup {vs : List Nat} (hnd : vs.Nodup) {j v : Nat} (hj : vs[j]? = some v) :
    vs.findIdx? (· == v) = some j := by
  rw [List.findIdx?_eq_some_iff_getElem]
  obtain ⟨hlt, rfl⟩ := List.getElem?_eq_some_iff.1 hj
  refine ⟨hlt, by simp, ?_⟩
  intro k hk
  simp only [beq_iff_eq]
  intro h
  exact absurd ((List.Nodup.getElem_inj_iff hnd).1 h) (by omega)

theorem orientLoop_not_mem {vs : List Nat} (hnd : vs.Nodup) {j v : Nat} (hj : vs[j]? = some v) :
    ∀ (rest : List Nat) (i : Nat) (perm : List Nat), v ∉ rest →
    (orientLoop vs i rest perm)[j]? = perm[j]?
  | [], _, _, _ => rfl
  | w :: rest, i, perm, h => by
    simp only [List.mem_cons, not_or] at h
    simp only [orientLoop]
    split
    · rename_i j' hj'
      rw [orientLoop_not_mem hnd hj rest _ _ h.2]
      rw [List.getElem?_set_ne]
      rintro rfl
      have := List.findIdx?_eq_some_iff_getElem.1 hj'
      obtain ⟨h1, h2, _⟩ := this
      have h3 : vs[j'] = v := by
        have := List.getElem?_eq_some_iff.1 hj; exact this.2
      simp [h3] at h2
      exact h.1 h2
    · exact orientLoop_not_mem hnd hj rest _ _ h.2

theorem orientLoop_mem {vs : List Nat} (hnd : vs.Nodup) {j v : Nat} (hj : vs[j]? = some v) :
    ∀ (rest : List Nat) (i : Nat) (perm : List Nat), rest.Nodup → perm.length = vs.length → v ∈ rest →
    ∃ q, rest[q]? = some v ∧ (orientLoop vs i rest perm)[j]? = some (i + q)
  | [], _, _, _, _, h => by simp at h
  | w :: rest, i, perm, hr, hl, h => by
    rw [List.nodup_cons] at hr
    by_cases hw : v = w
    · subst hw
      refine ⟨0, rfl, ?_⟩
      simp only [orientLoop]
      rw [findIdx?_nodup hnd hj]
      rw [orientLoop_not_mem hnd hj rest _ _ hr.1]
      have : j < perm.length := by
        rw [hl]; exact (List.getElem?_eq_some_iff.1 hj).1
      simp [this]
    · have hm : v ∈ rest := by simpa [hw] using h
      simp only [orientLoop]
      split
      · obtain ⟨q, h1, h2⟩ := orientLoop_mem hnd hj rest (i + 1) (perm.set _ i) hr.2 (by simpa using hl) hm
        exact ⟨q + 1, by simpa using h1, by rw [h2]; congr 1; omega⟩
      · obtain ⟨q, h1, h2⟩ := orientLoop_mem hnd hj rest (i + 1) perm hr.2 hl hm
        exact ⟨q + 1, by simpa using h1, by rw [h2]; congr 1; omega⟩

theorem orient_spec {stored vs : List Nat} (hp : stored.Perm vs) (hnd : vs.Nodup) :
    (orient stored vs).length = vs.length ∧
    ∀ (j v : Nat), vs[j]? = some v → ∃ p : Nat, (orient stored vs)[j]? = some p ∧ stored[p]? = some v := by
  refine ⟨by simp [orient, orientLoop_length], ?_⟩
  intro j v hj
  obtain ⟨q, h1, h2⟩ := orientLoop_mem hnd hj stored 0 (List.replicate vs.length 0)
    (hp.nodup_iff.2 hnd) (by simp) (hp.symm.subset (List.mem_of_getElem? hj))
  exact ⟨q, by simpa [orient] using h2, h1⟩

end VG
