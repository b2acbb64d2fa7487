import Verif.Model.VtkReuse
import Verif.Props.VtkText

/-!
C110: one `vtk_reader` for several files.

Specification.  `readFiles` (C90, C92) is what a new reader reads.  A call is `Sound` if every file it opens can be read: the .pvd file if it is
there, and each file of a segment that is there.
-/

namespace VG

variable {C : Type}

/-- The names of the files of segments that a new reader opens. -/
def vtuNames (files : List Char → Option (List Char)) (name : List Char) : List (List Char) :=
  if extension name = "vtu".toList then [name]
  else if extension name = "pvd".toList then
    (((files name).bind readPvd).getD []).map fun p => name.take (pathLength name) ++ p.2
  else []

/-- Every file that is opened can be read. -/
structure SoundFiles (tag : VtkTag) (num : List Char → Option C) (zero : C) (files : List Char → Option (List Char)) (name : List Char) : Prop where
  pvd : extension name = "pvd".toList → ∀ input, files name = some input → readPvd input ≠ none
  vtu : ∀ q ∈ vtuNames files name, ∀ input, files q = some input → ∃ f, parseVtu tag num zero input = .ok f

theorem openAfter_sound {tag : VtkTag} {num : List Char → Option C} {zero : C} {files : List Char → Option (List Char)} :
    ∀ {ps : List (Int × List Char)}, (∀ p ∈ ps, ∀ input, files p.2 = some input → ∃ f, parseVtu tag num zero input = .ok f) →
      openAfter tag num zero files false ps = false
  | [], _ => rfl
  | p :: ps, h => by
    have ih := openAfter_sound (ps := ps) (fun q hq => h q (List.mem_cons_of_mem _ hq))
    unfold openAfter
    cases hp : files p.2 with
    | none => exact ih
    | some input =>
      obtain ⟨f, hf⟩ := h p (by simp) input hp
      simp only [hf]
      exact ih

theorem segments_new {tag : VtkTag} {num : List Char → Option C} {zero : C} {files : List Char → Option (List Char)} {o : VtkReader C}
    (ho : o.isOpen = false) (ps : List (Int × List Char)) :
    (o.preClear.segments tag num zero files ps).1 = readSegments tag num zero files false ps := by
  have h1 : o.preClear.isOpen = false := ho
  have h2 : o.preClear.contents = [] := rfl
  unfold VtkReader.segments
  rw [h1, h2]
  cases readSegments tag num zero files false ps <;> rfl

/-- C110: as long as its stream is closed, a reader reads what a new one reads, whatever it has read before and whichever fields are
registered. -/
theorem C110_closed_partial (tag : VtkTag) (num : List Char → Option C) (zero : C) (files : List Char → Option (List Char)) {o : VtkReader C}
    (ho : o.isOpen = false) (name : List Char) : (o.read tag num zero files name).1 = readFiles tag num zero files name := by
  unfold VtkReader.read readFiles
  split
  · exact segments_new ho _
  · split
    · rw [ho]
      simp only [Bool.false_eq_true, if_false]
      cases hf : files name with
      | none => rfl
      | some input =>
        simp only
        match hr : readPvd input with
        | none => rfl
        | some [] => rfl
        | some (q :: parts) => exact segments_new ho _
    · rfl

theorem segments_open {tag : VtkTag} {num : List Char → Option C} {zero : C} {files : List Char → Option (List Char)} (o : VtkReader C)
    (ps : List (Int × List Char)) : (o.segments tag num zero files ps).2.isOpen = openAfter tag num zero files o.isOpen ps := by
  unfold VtkReader.segments
  cases readSegments tag num zero files o.isOpen ps <;> rfl

theorem read_sound {tag : VtkTag} {num : List Char → Option C} {zero : C} {files : List Char → Option (List Char)} {name : List Char}
    (h : SoundFiles tag num zero files name) {o : VtkReader C} (ho : o.isOpen = false) : (o.read tag num zero files name).2.isOpen = false := by
  have h1 : o.preClear.isOpen = false := ho
  have hv := h.vtu
  have hp := h.pvd
  unfold vtuNames at hv
  unfold VtkReader.read
  split
  · rename_i he
    rw [if_pos he] at hv
    rw [segments_open, h1]
    refine openAfter_sound fun p hp input hi => ?_
    rw [List.mem_singleton] at hp
    subst hp
    exact hv name (by simp) input hi
  · rename_i he
    split
    · rename_i he'
      rw [if_neg he, if_pos he'] at hv
      rw [ho]
      simp only [Bool.false_eq_true, if_false]
      cases hf : files name with
      | none => exact h1
      | some input =>
        simp only
        rw [hf] at hv
        match hr : readPvd input with
        | none => exact absurd hr (hp he' input hf)
        | some [] => exact h1
        | some (q :: parts) =>
          rw [segments_open, h1]
          refine openAfter_sound fun p hp input' hi => ?_
          obtain ⟨p', hp', rfl⟩ := List.mem_map.1 hp
          refine hv _ ?_ input' hi
          simp only [Option.bind_some, hr, Option.getD_some]
          exact List.mem_map.2 ⟨p', hp', rfl⟩
    · exact h1

/-- C110: after any number of calls with files that can be read (or are not there), whether these calls threw exceptions or not, a reader
still reads what a new one reads.  Missing for the full property: calls with files that cannot be read, see `C110_violated`. -/
theorem C110_sequence_partial (tag : VtkTag) (num : List Char → Option C) (zero : C) :
    ∀ (calls : List ((List Char → Option (List Char)) × List Char)) {o : VtkReader C}, o.isOpen = false →
      (∀ c ∈ calls, SoundFiles tag num zero c.1 c.2) → ∀ (files : List Char → Option (List Char)) (name : List Char),
      ((o.afterAll tag num zero calls).read tag num zero files name).1 = readFiles tag num zero files name
  | [], _, ho, _, files, name => C110_closed_partial tag num zero files ho name
  | c :: cs, o, ho, hs, files, name =>
    C110_sequence_partial tag num zero cs (read_sound (hs c (by simp)) ho) (fun d hd => hs d (List.mem_cons_of_mem _ hd)) files name

/-- C110: a call that returns forgets the registered fields; one that throws keeps them. -/
theorem C110_registered (tag : VtkTag) (num : List Char → Option C) (zero : C) (files : List Char → Option (List Char)) (o : VtkReader C)
    (name : List Char) :
    (∀ L, (o.read tag num zero files name).1 = .ok L → (o.read tag num zero files name).2.registered = []) ∧
    ((o.read tag num zero files name).1 = .error .throws → (o.read tag num zero files name).2.registered = o.registered) := by
  have seg : ∀ ps, (∀ L, (o.preClear.segments tag num zero files ps).1 = .ok L → (o.preClear.segments tag num zero files ps).2.registered = []) ∧
      ((o.preClear.segments tag num zero files ps).1 = .error .throws → (o.preClear.segments tag num zero files ps).2.registered = o.registered) := by
    intro ps
    unfold VtkReader.segments
    cases readSegments tag num zero files o.preClear.isOpen ps with
    | error e => exact ⟨fun L h => by simp at h, fun _ => rfl⟩
    | ok L' => exact ⟨fun _ _ => rfl, fun h => by simp at h⟩
  unfold VtkReader.read
  split
  · exact seg _
  · split
    · split
      · exact ⟨fun L h => by simp at h, fun _ => rfl⟩
      · cases files name with
        | none => exact ⟨fun L h => by simp at h, fun _ => rfl⟩
        | some input =>
          simp only
          match readPvd input with
          | none => exact ⟨fun L h => by simp at h, fun _ => rfl⟩
          | some [] => exact ⟨fun L h => by simp at h, fun _ => rfl⟩
          | some (q :: parts) => exact seg _
    · exact ⟨fun L h => by simp at h, fun _ => rfl⟩

/-- What an object does whose stream is open: nothing is read from any .vtu file, without exception, and any .pvd file gives one. -/
theorem read_open {tag : VtkTag} {num : List Char → Option C} {zero : C} {files : List Char → Option (List Char)} {o : VtkReader C}
    (ho : o.isOpen = true) (name : List Char) :
    (extension name = "vtu".toList → (o.read tag num zero files name).1 = .ok []) ∧
    (extension name = "pvd".toList → (o.read tag num zero files name).1 = .error .throws) ∧
    (o.read tag num zero files name).2.isOpen = true := by
  have hne : ("vtu".toList : List Char) ≠ "pvd".toList := by decide
  have h1 : o.preClear.isOpen = true := ho
  have h2 : o.preClear.contents = [] := rfl
  refine ⟨fun h => ?_, fun h => ?_, ?_⟩
  · unfold VtkReader.read
    rw [if_pos h]
    unfold VtkReader.segments
    rw [h1, h2]
    rfl
  · unfold VtkReader.read
    rw [if_neg (by rw [h]; exact fun e => hne e.symm), if_pos h, if_pos ho]
  · unfold VtkReader.read
    split
    · rw [segments_open, h1]; rfl
    · split
      · exact h1
      · exact h1

/-- C110, violated: a .vtu or .pvd file that cannot be read (an exception of the parser), and the reader is of no use any more: however many calls come
between, nothing is read from any .vtu file, without exception, and for any .pvd file an exception says that it cannot be opened. -/
theorem C110_violated (tag : VtkTag) (num : List Char → Option C) (zero : C) {files : List Char → Option (List Char)} {bad input : List Char}
    (hf : files bad = some input)
    (hbad : (extension bad = "vtu".toList ∧ ∃ r, parseVtu tag num zero input = .error (.throws, r)) ∨ (extension bad = "pvd".toList ∧ readPvd input = none))
    (o : VtkReader C) (calls : List ((List Char → Option (List Char)) × List Char)) (files' : List Char → Option (List Char)) (name : List Char) :
    (extension name = "vtu".toList →
      (((o.read tag num zero files bad).2.afterAll tag num zero calls).read tag num zero files' name).1 = .ok []) ∧
    (extension name = "pvd".toList →
      (((o.read tag num zero files bad).2.afterAll tag num zero calls).read tag num zero files' name).1 = .error .throws) := by
  have hne : ("vtu".toList : List Char) ≠ "pvd".toList := by decide
  have h0 : (o.read tag num zero files bad).2.isOpen = true := by
    cases ho : o.isOpen with
    | true => exact (read_open ho bad).2.2
    | false =>
      have h1 : o.preClear.isOpen = false := ho
      unfold VtkReader.read
      rcases hbad with ⟨he, r, hr⟩ | ⟨he, hp⟩
      · rw [if_pos he, segments_open, h1]
        simp only [openAfter, hf, hr]
      · rw [if_neg (by rw [he]; exact fun e => hne e.symm), if_pos he, ho]
        simp only [Bool.false_eq_true, if_false, hf, hp]
  have hall : ∀ (calls : List ((List Char → Option (List Char)) × List Char)) (o : VtkReader C), o.isOpen = true →
      (o.afterAll tag num zero calls).isOpen = true := by
    intro calls
    induction calls with
    | nil => exact fun _ h => h
    | cons c cs ih => exact fun o h => ih _ (read_open h c.2).2.2
  exact ⟨(read_open (hall calls _ h0) name).1, (read_open (hall calls _ h0) name).2.1⟩

/-- A .vtu file without any tag, for instance an empty one, is such a file. -/
theorem C110_violated_no_tag (tag : VtkTag) (num : List Char → Option C) (zero : C) {input : List Char} (hno : '<' ∉ input) :
    ∃ r, parseVtu tag num zero input = .error (.throws, r) :=
  ⟨none, by simp only [parseVtu, readHead, nextTag, C51_no_tag input hno, bind, Except.bind]⟩

/-- An empty file, and then the files of a mesh with two segments: a new reader reads both segments, this one throws. -/
example : ((VtkReader.new.read .triangle intNum 0 (lookupFile (textFiles "out/a" "phi" [4, 2])) "out/a_main.pvd".toList).1.toOption.map List.length) = some 2 ∧
    ((VtkReader.new.afterAll .triangle intNum 0 [(fun _ => some [], "x.vtu".toList)]).read .triangle intNum 0
      (lookupFile (textFiles "out/a" "phi" [4, 2])) "out/a_main.pvd".toList).1.toOption.isNone = true ∧
    ((VtkReader.new.afterAll .triangle intNum 0 [(fun _ => some [], "x.vtu".toList)]).read .triangle intNum 0
      (lookupFile (textFiles "out/a" "phi" [4, 2])) "out/a_4.vtu".toList).1.toOption.map List.length = some 0 := by
  decide +kernel

/-- The two files of segments that were written can be read, so they are sound. -/
example : SoundFiles .triangle intNum (0 : Int) (lookupFile (textFiles "out/a" "phi" [4, 2])) "out/a_4.vtu".toList where
  pvd h := by revert h; decide
  vtu q hq input hi := by
    have hq : q = "out/a_4.vtu".toList := by
      have : vtuNames (lookupFile (textFiles "out/a" "phi" [4, 2])) "out/a_4.vtu".toList = ["out/a_4.vtu".toList] := by decide +kernel
      rw [this] at hq
      exact List.mem_singleton.1 hq
    subst hq
    have h : ((lookupFile (textFiles "out/a" "phi" [4, 2]) "out/a_4.vtu".toList).map
        (fun input => (parseVtu .triangle intNum (0 : Int) input).toOption.isSome)) = some true := by decide +kernel
    rw [hi] at h
    simp only [Option.map_some, Option.some.injEq] at h
    cases hp : parseVtu .triangle intNum (0 : Int) input with
    | error e => rw [hp] at h; simp [Except.toOption] at h
    | ok f => exact ⟨f, rfl⟩

end VG
