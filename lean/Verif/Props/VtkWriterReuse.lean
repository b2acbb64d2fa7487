import Verif.Model.VtkWriterReuse
import Verif.Props.VtkData

/-!
C111: one `vtk_writer` for several files.

Specification.  `sinceCall` are the quantities registered after the last call; a call is to write what a new writer writes for which just these
were registered (`VtkWriter.call`; C104 says what these files contain).
-/

namespace VG

variable {C : Type}

/-- The quantities registered after the last call, in order. -/
def sinceCall (steps : List (VtkStep C)) : List (VtkReg C) :=
  steps.foldl (fun rs s => match s with
    | .add r => rs ++ [r]
    | .call _ _ _ => []) []

/-- The call could open the file of the mesh, or there are segments with files of their own. -/
def VtkStep.Fine : VtkStep C → Prop
  | .add _ => True
  | .call _ gs opens => gs.length ≤ 1 → opens .mesh = true

theorem steps_sinceCall (tag : VtkTag) (txt : C → C) (zero : C) (steps : List (VtkStep C)) (h : ∀ s ∈ steps, s.Fine) :
    steps.foldl (VtkWriter.step tag txt zero) .new = (sinceCall steps).foldl VtkWriter.add .new := by
  induction steps using List.reverseRecOn with
  | nil => rfl
  | append_singleton steps s ih =>
    have ih := ih fun x hx => h x (by simp [hx])
    have hs := h s (by simp)
    unfold sinceCall at ih ⊢
    rw [List.foldl_append, List.foldl_append, List.foldl_cons, List.foldl_nil, List.foldl_cons, List.foldl_nil, ih]
    cases s with
    | add r =>
      simp only [VtkWriter.step, List.foldl_append, List.foldl_cons, List.foldl_nil]
    | call st gs opens =>
      simp only [VtkWriter.step, VtkWriter.tryCall, List.foldl_nil]
      split
      · rename_i hg
        rw [if_pos (hs hg)]
      · split <;> rfl

/-- C111: after any sequence of registrations and calls, with any meshes and segments, a call writes what a new writer writes with the
quantities registered since the last call, also after calls with segments that threw an exception.  Missing for the full property: calls for a
whole mesh whose file cannot be opened, see `C111_violated`. -/
theorem C111_sequence_partial (tag : VtkTag) (txt : C → C) (zero : C) (steps : List (VtkStep C)) (h : ∀ s ∈ steps, s.Fine)
    (st : SegState (List C)) (gs : List Nat) (opens : VtkTarget → Bool) (ho : ∀ t, opens t = true) :
    ((steps.foldl (VtkWriter.step tag txt zero) .new).tryCall tag txt zero st gs opens).1 =
      ⟨(((sinceCall steps).foldl VtkWriter.add .new).call tag txt zero st gs).1, false⟩ := by
  rw [steps_sinceCall tag txt zero steps h]
  generalize (sinceCall steps).foldl VtkWriter.add .new = w
  have htw : ∀ l : List (Nat × VtuFile C), l.takeWhile (fun f => opens (.segment f.1)) = l := by
    intro l
    induction l with
    | nil => rfl
    | cons f l ih => rw [List.takeWhile_cons, if_pos (ho _), ih]
  unfold VtkWriter.tryCall
  simp only [htw]
  rw [ho .mesh, ho .pvd]
  split
  · rfl
  · simp

/-- C111: an exception says that not all files were written, no exception that they were: what has been written is a part, from the
beginning, of the files of the call, and all of them exactly if there was no exception. -/
theorem C111_complete (tag : VtkTag) (txt : C → C) (zero : C) (w : VtkWriter C) (st : SegState (List C)) (gs : List Nat) (opens : VtkTarget → Bool) :
    (w.tryCall tag txt zero st gs opens).1.files <+: (w.call tag txt zero st gs).1 ∧
    ((w.tryCall tag txt zero st gs opens).1.threw = false ↔ (w.tryCall tag txt zero st gs opens).1.files = (w.call tag txt zero st gs).1) ∧
    ∀ f ∈ (w.tryCall tag txt zero st gs opens).1.files, opens (if gs.length ≤ 1 then .mesh else .segment f.1) = true := by
  have hlen : (w.call tag txt zero st gs).1 ≠ [] := by
    unfold VtkWriter.call
    split
    · rename_i hg
      simp [writeVtk, hg]
    · rename_i hg
      simp only [writeVtk, if_neg hg, ne_eq, List.map_eq_nil_iff]
      rintro rfl
      simp at hg
  unfold VtkWriter.tryCall
  by_cases hg : gs.length ≤ 1
  · simp only [if_pos hg]
    cases hm : opens .mesh with
    | true => simp
    | false =>
      simp only [Bool.false_eq_true, if_false]
      exact ⟨List.nil_prefix, by simp [Ne.symm hlen], by simp⟩
  · simp only [if_neg hg]
    cases hp : opens .pvd with
    | false =>
      simp only [Bool.false_eq_true, if_false]
      exact ⟨List.nil_prefix, by simp [Ne.symm hlen], by simp⟩
    | true =>
      simp only [if_true]
      refine ⟨List.takeWhile_prefix _, ?_, fun f hf => ?_⟩
      · rw [decide_eq_false_iff_not]
        exact ⟨fun h => (List.takeWhile_prefix _).eq_of_length_le (by omega), fun h => by rw [h]; omega⟩
      · exact (List.all_eq_true.1 List.all_takeWhile f hf :)

/-- C111, violated: when the file of a whole mesh cannot be opened, the quantities stay registered, and get into the next files, together with
those registered since. -/
theorem C111_violated (tag : VtkTag) (txt : C → C) (zero : C) (w : VtkWriter C) (st : SegState (List C)) (gs : List Nat) (hg : gs.length ≤ 1)
    (opens : VtkTarget → Bool) (hm : opens .mesh = false) : (w.tryCall tag txt zero st gs opens).2 = w := by
  simp [VtkWriter.tryCall, hg, hm]

/-- C111, violated, with a mesh of two triangles: `x` is registered, the call fails; the next call of the writer writes `x`, which was not
registered since.  With two segments it is not written. -/
theorem C111_violated_written : ∃ (steps steps' : List (VtkStep Rat)), sinceCall steps = [] ∧ sinceCall steps' = [] ∧
    ((steps.foldl (VtkWriter.step .triangle id 0) .new).tryCall .triangle id 0 vtkSquareState [4] (fun _ => true)).1.files.map
      (fun f => f.2.pointData.map (·.name)) = [["x"]] ∧
    ((steps'.foldl (VtkWriter.step .triangle id 0) .new).tryCall .triangle id 0 vtkSquareState [4] (fun _ => true)).1.files.map
      (fun f => f.2.pointData.map (·.name)) = [[]] :=
  ⟨[.add ⟨false, none, "x", .scalar fun v => v⟩, .call vtkSquareState [4] (fun _ => false)],
    [.add ⟨false, none, "x", .scalar fun v => v⟩, .call vtkSquareState [2, 4] (fun _ => false)], rfl, rfl, by decide +kernel, by decide +kernel⟩

/-- Steps with a failing call with segments, and a registration after it. -/
example : let steps : List (VtkStep Rat) := [.add ⟨false, none, "x", .scalar fun v => v⟩,
      .call vtkSquareState [2, 4] (fun t => t != .segment 4), .add ⟨true, none, "y", .scalar fun v => v⟩]
    (∀ s ∈ steps, s.Fine) ∧ (sinceCall steps).map (·.name) = ["y"] ∧
    ((steps.foldl (VtkWriter.step .triangle id 0) .new).tryCall .triangle id 0 vtkSquareState [2, 4] (fun _ => true)).1.files.map
      (fun f => (f.1, f.2.pointData.map (·.name), f.2.cellData.map (·.name))) = [(2, [], ["y"]), (4, [], ["y"])] :=
  ⟨by simp [VtkStep.Fine], rfl, by decide +kernel⟩

/-- The file of the second segment cannot be opened: the first one is written, and there is an exception. -/
example : (fun r : VtkWritten Rat => (r.files.map (·.1), r.threw)) (((.new : VtkWriter Rat).tryCall .triangle id 0 vtkSquareState [2, 4]
    (fun t => t != .segment 4)).1) = ([2], true) := by decide +kernel

end VG
