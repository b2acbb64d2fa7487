import Verif.Model.Geometry

/-!
Gram-Schmidt orthogonalization.
-/

namespace VG

variable {K : Type} [Field K] [LinearOrder K] {d : Nat}

/-- `orthogonalize_vector`; no result when it divides by zero.  algorithm/geometry.hpp:250-257. -/
def orthoVector : List (Fin d → K) → (Fin d → K) → Option (Fin d → K)
  | [], vec => some vec
  | e :: es, vec =>
    if innerProd e e = 0 then none
    else orthoVector es (vec - (innerProd vec e / innerProd e e) • e)

/-- The loop of `orthogonalize`: `done` are the vectors before the position `n`, `todo` those from `n` up to the
current `end`, `dropped` those from `end` on; a vector with small norm is swapped with the last one of `todo`.
algorithm/geometry.hpp:271-294. -/
def orthoLoop (eps : K) (done todo dropped : List (Fin d → K)) : Option (List (Fin d → K) × Nat) :=
  match todo with
  | [] => some (done ++ dropped, done.length)
  | v :: rest =>
    match orthoVector done v with
    | none => none
    | some w =>
      if norm1 w < eps then
        if h : rest = [] then orthoLoop eps done [] (w :: dropped)
        else orthoLoop eps done (rest.getLast h :: rest.dropLast) (w :: dropped)
      else orthoLoop eps (done ++ [w]) rest dropped
termination_by todo.length
decreasing_by
  · simp
  · have := List.length_pos_iff.2 h
    simp; omega
  · simp

/-- `orthogonalize(start, end, nc)`: the vectors afterwards and the number returned; `eps` is the absolute tolerance
of the configuration.  algorithm/geometry.hpp:260-294. -/
def orthogonalize (eps : K) (vs : List (Fin d → K)) : Option (List (Fin d → K) × Nat) := orthoLoop eps [] vs []

end VG
