import Verif.Lemmas.VtkText
import Mathlib.Tactic.ByContra

/-! Reading back the text of a .vtu file. -/

namespace VG

variable {C : Type}

/-- Numbers are printed as one word without opening bracket, and `txt x` is read for `x`. -/
structure Prints (print : C → List Char) (num : List Char → Option C) (txt : C → C) : Prop where
  word : ∀ x, print x ≠ [] ∧ ∀ c ∈ print x, isBlank c = false ∧ c ≠ '<'
  read : ∀ x, num (print x) = some (txt x)

variable {print : C → List Char} {num : List Char → Option C} {txt : C → C}

theorem Prints.token (h : Prints print num txt) (x : C) : Token (print x) := ⟨(h.word x).1, fun c hc => ((h.word x).2 c hc).1⟩

theorem Prints.bracket (h : Prints print num txt) (x : C) : '<' ∉ print x := fun hc => ((h.word x).2 _ hc).2 rfl

/-! ### Points -/

/-- The coordinates with the blanks behind them. -/
def pointPairs (print : C → List Char) : List C → List (List Char × List Char)
  | [] => []
  | [x] => [(print x, "\n".toList)]
  | x :: y :: xs => (print x, " ".toList) :: pointPairs print (y :: xs)

theorem pointText_eq (print : C → List Char) : ∀ {p : List C}, p ≠ [] → pointText print p = spaced (pointPairs print p)
  | [], h => absurd rfl h
  | [x], _ => by simp [pointText, pointPairs, spaced]
  | x :: y :: xs, _ => by
    rw [pointText, pointPairs, spaced_cons, pointText_eq print (p := y :: xs) (by simp)]
    simp only [List.append_assoc]

theorem pointPairs_map (print : C → List Char) : ∀ p : List C, (pointPairs print p).map (·.1) = p.map print
  | [] => rfl
  | [x] => rfl
  | x :: y :: xs => by simp [pointPairs, pointPairs_map print (y :: xs)]

theorem blanks_space : Blanks " ".toList := by unfold Blanks; decide

theorem blanks_newline : Blanks "\n".toList := by unfold Blanks; decide

theorem pointPairs_mem (print : C → List Char) : ∀ {p : List C} {q : List Char × List Char}, q ∈ pointPairs print p →
    (∃ x, q.1 = print x) ∧ q.2 ≠ [] ∧ Blanks q.2
  | [], q, h => by simp [pointPairs] at h
  | [x], q, h => by
    simp only [pointPairs, List.mem_singleton] at h
    subst h
    exact ⟨⟨x, rfl⟩, by simp, blanks_newline⟩
  | x :: y :: xs, q, h => by
    rw [pointPairs, List.mem_cons] at h
    rcases h with rfl | h
    · exact ⟨⟨x, rfl⟩, by simp, blanks_space⟩
    · exact pointPairs_mem print h

theorem spaced_flatMap {α : Type} (g : α → List (List Char × List Char)) (l : List α) :
    spaced (l.flatMap g) = l.flatMap fun a => spaced (g a) := by
  induction l with
  | nil => rfl
  | cons a l ih => simp [spaced_append, ih]

theorem groups_flatten (k : Nat) : ∀ (L : List (List C)), (∀ p ∈ L, p.length = k) → groups k L.length L.flatten = L
  | [], _ => rfl
  | p :: L, h => by
    have hp := h p (by simp)
    rw [List.length_cons, List.flatten_cons, groups, ← hp, List.take_left', List.drop_left', hp,
      groups_flatten k L fun q hq => h q (by simp [hq])] <;> rfl

theorem readPointsTags_text (h : Prints print num txt) (zero : C) (f : VtuFile C) {ps : List (List C)}
    (hn : f.numPoints = ps.length) (h3 : ∀ p ∈ ps, p.length = 3) {lead : List Char} (hlead : Blanks lead)
    (post : List Char) :
    readPointsTags num zero f (lead ++ (pointsText print ps ++ post)) =
      .ok ({ f with points := ps.map (·.map txt) }, " \n".toList ++ post) := by
  have hne : ∀ p ∈ ps, p ≠ [] := fun p hp he => by have := h3 p hp; simp [he] at this
  have htext : ps.flatMap (pointText print) = spaced (ps.flatMap (pointPairs print)) := by
    rw [spaced_flatMap]
    exact List.flatMap_congr fun p hp => pointText_eq print (hne p hp)
  have hmap : (ps.flatMap (pointPairs print)).map (fun p => (num p.1).getD zero) = (ps.map (·.map txt)).flatten := by
    rw [List.map_flatMap, ← List.flatMap_def]
    refine List.flatMap_congr fun p _ => ?_
    have : (pointPairs print p).map (fun p => (num p.1).getD zero) =
        ((pointPairs print p).map (·.1)).map fun t => (num t).getD zero := by simp
    rw [this, pointPairs_map, List.map_map]
    exact List.map_congr_left fun x _ => by simp [h.read]
  have hlen : (ps.flatMap (pointPairs print)).length = f.numPoints * 3 := by
    have : (ps.flatMap (pointPairs print)).length = ((ps.map (·.map txt)).flatten).length := by rw [← hmap]; simp
    rw [this, hn, List.length_flatten, List.map_map]
    clear * - h3
    induction ps with
    | nil => rfl
    | cons p ps ih =>
      have hp := h3 p (by simp)
      simp only [List.map_cons, List.sum_cons, Function.comp_apply, List.length_map, List.length_cons]
      rw [ih fun q hq => h3 q (by simp [hq])]
      omega
  have hall : ∀ p ∈ ps.flatMap (pointPairs print),
      Token p.1 ∧ '<' ∉ p.1 ∧ p.2 ≠ [] ∧ Blanks p.2 ∧ num p.1 = some ((num p.1).getD zero) := by
    intro q hq
    obtain ⟨p, -, hq⟩ := List.mem_flatMap.1 hq
    obtain ⟨⟨x, hx⟩, h1, h2⟩ := pointPairs_mem print hq
    exact ⟨hx ▸ h.token x, hx ▸ h.bracket x, h1, h2, by rw [hx, h.read]; rfl⟩
  rw [pointsText_eq, htext]
  simp only [List.append_assoc]
  have hl : '<' ∉ lead ++ "   ".toList := by
    rw [List.mem_append]
    rintro (hc | hc)
    · exact hlead.no_bracket hc
    · revert hc; decide
  have e1 := fun post => expectTag_text (C := C) (some f) (tagOk_of (name := "Points") (attrs := []) (tail := "") (by decide))
    (low := "points") (by decide) hl post
  simp only [List.append_assoc] at e1
  have e2 := fun post => expectTag_text (C := C) (some f) (tagOk_of (name := "DataArray") (attrs := pointsAttrs) (tail := "")
    (by decide)) (low := "dataarray") (by decide) (pre := "\n    ".toList) (by decide) post
  have e3 : needAttr (C := C) (some f) (readAs "DataArray" pointsAttrs) "numberofcomponents" = .ok "3".toList :=
    needAttr_text (C := C) (some f) (name := "DataArray") [⟨0, "type", "Float32"⟩] [⟨0, "format", "ascii"⟩] 0
      "NumberOfComponents" "3" "numberofcomponents" (by decide) (by decide)
  have e4 : (atoi "3".toList).toNat = 3 := by decide
  generalize hpost : "\n    ".toList ++ (xmlText "/DataArray" [] "" ++ ("\n   ".toList ++
    (xmlText "/Points" [] "" ++ (" \n".toList ++ post)))) = post'
  obtain ⟨gap, hgap, e5⟩ := readNumbers_text num zero (fun t => (num t).getD zero) post' _ hall "\n".toList
    (by unfold Blanks; decide) zero
  rw [hlen, hmap] at e5
  have e6 : groups 3 f.numPoints (ps.map (·.map txt)).flatten = ps.map (·.map txt) := by
    have := groups_flatten 3 (ps.map (·.map txt)) (by simpa using h3)
    rwa [List.length_map, ← hn] at this
  have hg : '<' ∉ gap ++ "\n    ".toList := by
    rw [List.mem_append]
    rintro (hc | hc)
    · exact hgap.no_bracket hc
    · revert hc; decide
  have e7 := fun g post => expectTag_text (C := C) (some g) (tagOk_of (name := "/DataArray") (attrs := []) (tail := "")
    (by decide)) (low := "/dataarray") (by decide) hg post
  simp only [List.append_assoc] at e7
  have e8 := fun g post => expectTag_text (C := C) (some g) (tagOk_of (name := "/Points") (attrs := []) (tail := "")
    (by decide)) (low := "/points") (by decide) (pre := "\n   ".toList) (by decide) post
  simp only [readPointsTags, e1, e2, e3, e4, e5, e6, bind, Except.bind]
  rw [← hpost]
  simp only [e7, e8]
  rfl

/-! ### Data -/

/-- The array with the numbers as they are read. -/
def DataArray.mapValues (txt : C → C) (a : DataArray C) : DataArray C := { a with values := a.values.map txt }

/-- An array which can be read back: one or three components, a name which is not empty and without quote and closing
bracket. -/
structure DataArray.Readable (a : DataArray C) : Prop where
  comps : a.comps = some 1 ∨ a.comps = some 3
  name_ne : a.name ≠ ""
  name_chars : '"' ∉ a.name.toList ∧ '>' ∉ a.name.toList

theorem DataArray.Readable.tagOk {a : DataArray C} (h : a.Readable) : TagOk "DataArray" (dataAttrs a) "" := by
  refine ⟨by decide, ?_, by decide, by simp [dataAttrs]⟩
  intro b hb
  simp only [dataAttrs, List.mem_cons, List.not_mem_nil, or_false] at hb
  rcases hb with rfl | rfl | rfl | rfl
  · decide
  · have hname : (⟨0, "Name", ""⟩ : AttrText).Valid := by decide
    exact ⟨⟨hname.1, hname.2, h.name_chars.1⟩,
      fun he => h.name_ne (by rw [← String.ofList_toList (s := a.name), he]), h.name_chars.2⟩
  · exact natValue_ok 0 _ _ (by decide)
  · decide

theorem tokenClose : Token "</DataArray>".toList := by unfold Token; decide

theorem blanks_indent : Blanks "\n    ".toList := by unfold Blanks; decide

theorem lowerChar_bracket {c : Char} (h : lowerChar c = '<') : c = '<' := by
  by_contra hne
  exact lowerChar_ne_of (by decide) hne h

theorem closesData_print (h : Prints print num txt) (x : C) : closesData (print x) = false := by
  unfold closesData
  rw [beq_eq_false_iff_ne]
  intro he
  have hm : '<' ∈ (print x).map lowerChar := by rw [he]; decide
  obtain ⟨c, hc, hl⟩ := List.mem_map.1 hm
  exact h.bracket x (lowerChar_bracket hl ▸ hc)

theorem readDataArrays_text (h : Prints print num txt) (zero : C) (put : List (DataArray C) → VtuFile C) {close : String}
    (hclose : close = "/PointData" ∨ close = "/CellData") (post : List Char) :
    ∀ (as : List (DataArray C)), (∀ a ∈ as, a.Readable) → ∀ (fuel comps : Nat) (got : List (DataArray C))
    (lead : List Char), Blanks lead → as.length < fuel →
    readDataArrays num zero put fuel comps got (lead ++ (as.flatMap (arrayText print) ++ ("   ".toList ++
      (xmlText close [] "" ++ post)))) = .ok (got ++ as.map (·.mapValues txt), post)
  | [], _, fuel, comps, got, lead, hl, hf => by
    obtain ⟨fuel, rfl⟩ : ∃ k, fuel = k + 1 := ⟨fuel - 1, by simp at hf; omega⟩
    have hok : TagOk close [] "" := by
      rcases hclose with rfl | rfl <;> exact tagOk_of (by decide)
    have hn : ¬ (readAs close []).name = "dataarray".toList ∧ ((readAs close []).name = "/pointdata".toList ∨
        (readAs close []).name = "/celldata".toList) := by
      rcases hclose with rfl | rfl <;> decide
    have hl' : '<' ∉ lead ++ "   ".toList := by
      rw [List.mem_append]
      rintro (hc | hc)
      · exact hl.no_bracket hc
      · revert hc; decide
    have e1 := nextTag_text (some (put got)) hok hl' post
    simp only [List.append_assoc] at e1
    simp only [readDataArrays, List.flatMap_nil, List.nil_append, e1, bind, Except.bind, if_neg hn.1, if_pos hn.2,
      List.map_nil, List.append_nil]
    rfl
  | a :: as, ha, fuel, comps, got, lead, hl, hf => by
    obtain ⟨fuel, rfl⟩ : ∃ k, fuel = k + 1 := ⟨fuel - 1, by simp at hf; omega⟩
    have hra := ha a (by simp)
    have hl' : '<' ∉ lead ++ "    ".toList := by
      rw [List.mem_append]
      rintro (hc | hc)
      · exact hl.no_bracket hc
      · revert hc; decide
    have ih := fun comps => readDataArrays_text h zero put hclose post as (fun b hb => ha b (by simp [hb])) fuel comps
      (got ++ [a.mapValues txt]) "\n".toList blanks_newline (by simpa using hf)
    have e1 := fun post => nextTag_text (some (put got)) hra.tagOk hl' post
    simp only [List.append_assoc] at e1
    have hn : (readAs "DataArray" (dataAttrs a)).name = "dataarray".toList := by
      show "DataArray".toList.map Char.toLower = _
      decide
    have e2 : needAttr (some (put got)) (readAs "DataArray" (dataAttrs a)) "name" = .ok a.name.toList :=
      needAttr_text (C := C) (some (put got)) (name := "DataArray") [⟨0, "type", "Float32"⟩]
        [⟨0, "NumberOfComponents", String.ofList (natText (a.comps.getD 1))⟩, ⟨0, "format", "ascii"⟩] 0 "Name" a.name "name"
        (by decide) (by decide)
    have e3 := readAs_attr (name := "DataArray") (before := [⟨0, "type", "Float32"⟩, ⟨0, "Name", a.name⟩])
      (after := [⟨0, "format", "ascii"⟩]) (g := 0) (attr := "NumberOfComponents")
      (v := String.ofList (natText (a.comps.getD 1))) (low := "numberofcomponents") (by decide) (by simp)
    simp only [List.cons_append, List.nil_append] at e3
    obtain ⟨e3, e4⟩ := e3
    have hc : some (atoi (natText (a.comps.getD 1))).toNat = a.comps := by
      rw [atoi_natText, Int.toNat_natCast]
      rcases hra.comps with hc | hc <;> rw [hc] <;> rfl
    have hc' : a.comps.getD comps = 1 ∨ a.comps.getD comps = 3 := by
      rcases hra.comps with hc | hc <;> rw [hc] <;> simp
    generalize hP : as.flatMap (arrayText print) ++ ("   ".toList ++ (xmlText close [] "" ++ post)) = P at ih
    have hin : (a :: as).flatMap (arrayText print) ++ ("   ".toList ++ (xmlText close [] "" ++ post)) =
        "    ".toList ++ (xmlText "DataArray" (dataAttrs a) "" ++ ("\n".toList ++
          (spaced (a.values.map fun x => (print x, " ".toList)) ++ ("\n    ".toList ++ ("</DataArray>".toList ++
          ("\n".toList ++ P)))))) := by
      rw [List.flatMap_cons, arrayText_eq, ← hP]
      simp only [List.append_assoc]
    rw [hin]
    have hps : ∀ p ∈ a.values.map (fun x => (print x, " ".toList)),
        Token p.1 ∧ p.2 ≠ [] ∧ Blanks p.2 ∧ closesData p.1 = false := by
      intro p hp
      obtain ⟨x, -, rfl⟩ := List.mem_map.1 hp
      exact ⟨h.token x, by simp, blanks_space, closesData_print h x⟩
    have e5 := readTokens_text closesData tokenClose (by decide) (b := '\n') (by decide) P blanks_indent
      (a.values.map fun x => (print x, " ".toList)) hps "\n".toList blanks_newline
    have hnl : "\n".toList = ['\n'] := by decide
    have hnl' : "\n".toList ++ P = '\n' :: P := by rw [hnl]; rfl
    rw [← hnl'] at e5
    have hlen : (a.values.map fun x => (print x, " ".toList)).length <
        ("\n".toList ++ (spaced (a.values.map fun x => (print x, " ".toList)) ++ ("\n    ".toList ++
          ("</DataArray>".toList ++ ("\n".toList ++ P))))).length + 1 := by
      have := spaced_length (ps := a.values.map fun x => (print x, " ".toList)) fun p hp => (hps p hp).1
      simp only [List.length_append] at this ⊢
      omega
    have e5 := e5 _ hlen
    have hvals : ((a.values.map fun x => (print x, " ".toList)).map (·.1)).map (fun t => (num t).getD zero) =
        a.values.map txt := by
      rw [List.map_map, List.map_map]
      exact List.map_congr_left fun x _ => by simp [h.read]
    have harr : (⟨String.ofList a.name.toList, a.comps, a.values.map txt⟩ : DataArray C) = a.mapValues txt := by
      rw [String.ofList_toList]
      rfl
    have e3' : (readAs "DataArray" (dataAttrs a)).hasAttribute "numberofcomponents".toList = true := e3
    have e4' : (readAs "DataArray" (dataAttrs a)).getValue "numberofcomponents".toList = natText (a.comps.getD 1) := by
      rw [← String.toList_ofList (l := natText (a.comps.getD 1))]
      exact e4
    simp only [readDataArrays, e1, e2, e3', e4', e5, hc, bind, Except.bind, if_pos hn, if_true, if_pos hc', hvals, harr, ih]
    simp

/-- The beginning of a quantity section and its end. -/
theorem readData_text (h : Prints print num txt) (zero : C) (put : List (DataArray C) → VtuFile C) {tag next low : String}
    (htag : tag = "PointData" ∧ low = "pointdata" ∧ next = "Cells" ∨ tag = "CellData" ∧ low = "celldata" ∧ next = "/Piece")
    {as : List (DataArray C)} (ha : ∀ a ∈ as, a.Readable) {lead gap : List Char} (hlead : Blanks lead) (hgap : Blanks gap)
    (post : List Char) :
    readData num zero put low (lead ++ (dataText print tag as ++ (gap ++ (xmlText next [] "" ++ post)))) =
      .ok (as.map (·.mapValues txt), readAs next [], post) := by
  have hnext : TagOk next [] "" := by
    rcases htag with ⟨-, -, rfl⟩ | ⟨-, -, rfl⟩ <;> exact tagOk_of (by decide)
  by_cases hne : as = []
  · subst hne
    have hl' : '<' ∉ lead ++ gap := by
      rw [List.mem_append]
      rintro (hc | hc)
      · exact hlead.no_bracket hc
      · exact hgap.no_bracket hc
    have e1 := nextTag_text (some (put [])) hnext hl' post
    simp only [List.append_assoc] at e1
    have hn : ¬ (readAs next []).name = low.toList := by
      rcases htag with ⟨-, rfl, rfl⟩ | ⟨-, rfl, rfl⟩ <;> decide
    simp only [readData, dataText, if_true, List.nil_append, e1, bind, Except.bind, if_neg hn]
    rfl
  · have hgap' : '<' ∉ "\n".toList ++ gap := by
      rw [List.mem_append]
      rintro (hc | hc)
      · revert hc; decide
      · exact hgap.no_bracket hc
    have hl' : '<' ∉ lead ++ "   ".toList := by
      rw [List.mem_append]
      rintro (hc | hc)
      · exact hlead.no_bracket hc
      · revert hc; decide
    have key : ∀ (close : String), (close = "/PointData" ∨ close = "/CellData") → TagOk tag [] "" →
        (readAs tag []).name = low.toList →
        readData num zero put low (lead ++ ("   ".toList ++ (xmlText tag [] "" ++ ("\n".toList ++
          (as.flatMap (arrayText print) ++ ("   ".toList ++ (xmlText close [] "" ++ ("\n".toList ++
          (gap ++ (xmlText next [] "" ++ post)))))))))) = .ok (as.map (·.mapValues txt), readAs next [], post) := by
      intro close hclose htok hname
      have e1 := fun post => nextTag_text (some (put [])) htok hl' post
      simp only [List.append_assoc] at e1
      have e2 := fun post fuel hf => readDataArrays_text h zero put hclose post as ha fuel 1 [] "\n".toList blanks_newline hf
      have e3 := fun as => nextTag_text (some (put as)) hnext hgap' post
      simp only [List.append_assoc] at e3
      have hlen : as.length < ("\n".toList ++ (as.flatMap (arrayText print) ++ ("   ".toList ++ (xmlText close [] "" ++
          ("\n".toList ++ (gap ++ (xmlText next [] "" ++ post))))))).length + 1 := by
        have : as.length ≤ (as.flatMap (arrayText print)).length := by
          clear * -
          induction as with
          | nil => simp
          | cons a as ih =>
            have : 1 ≤ (arrayText print a).length := by
              rw [arrayText_eq, List.length_append]
              have : "    ".toList.length = 4 := by decide
              omega
            simp only [List.flatMap_cons, List.length_append, List.length_cons]
            omega
        simp only [List.length_append] at this ⊢
        omega
      simp only [readData, e1, bind, Except.bind, if_pos hname, e2 _ _ hlen, List.nil_append, e3]
      rfl
    rcases htag with ⟨rfl, rfl, rfl⟩ | ⟨rfl, rfl, rfl⟩
    · have := key "/PointData" (Or.inl rfl) (tagOk_of (by decide)) (by decide)
      rw [(dataText_eq print hne).1]
      simp only [List.append_assoc]
      exact this
    · have := key "/CellData" (Or.inr rfl) (tagOk_of (by decide)) (by decide)
      rw [(dataText_eq print hne).2]
      simp only [List.append_assoc]
      exact this

/-! ### Cells -/

theorem closesArray_natText (n : Nat) : closesArray (natText n) = false := by
  unfold closesArray
  rw [beq_eq_false_iff_ne]
  intro he
  have : '<' ∈ natText n := by rw [he]; decide
  exact natText_not (by decide) this

theorem natText_token (n : Nat) : Token (natText n) := ⟨natText_ne n, fun _ hc => natText_blank hc⟩

theorem readIndices_text (f : VtuFile C) {ps : List (List Char × List Char)} {ns : List Nat}
    (hp : ps.map (·.1) = ns.map natText) (hb : ∀ p ∈ ps, p.2 ≠ [] ∧ Blanks p.2) (post : List Char) :
    readIndices f ("\n".toList ++ (spaced ps ++ ("\n    ".toList ++ ("</DataArray>".toList ++ ("\n".toList ++ post))))) =
      .ok (ns, "\n".toList ++ post) := by
  have hall : ∀ p ∈ ps, Token p.1 ∧ p.2 ≠ [] ∧ Blanks p.2 ∧ closesArray p.1 = false := by
    intro p hpm
    have : p.1 ∈ ns.map natText := hp ▸ List.mem_map_of_mem hpm
    obtain ⟨n, -, hn⟩ := List.mem_map.1 this
    exact ⟨hn ▸ natText_token n, (hb p hpm).1, (hb p hpm).2, hn ▸ closesArray_natText n⟩
  have hnl : "\n".toList = ['\n'] := by decide
  have hnl' : "\n".toList ++ post = '\n' :: post := by rw [hnl]; rfl
  have e1 := fun fuel => readTokens_text closesArray tokenClose (by decide) (b := '\n') (by decide) post blanks_indent ps hall
    "\n".toList blanks_newline fuel
  rw [← hnl'] at e1
  have hlen : ps.length < ("\n".toList ++ (spaced ps ++ ("\n    ".toList ++ ("</DataArray>".toList ++
      ("\n".toList ++ post))))).length + 1 := by
    have := spaced_length (ps := ps) fun p hp => (hall p hp).1
    simp only [List.length_append] at this ⊢
    omega
  have hnum : (ns.map natText).all isNumber = true := by
    rw [List.all_eq_true]
    intro t ht
    obtain ⟨n, -, rfl⟩ := List.mem_map.1 ht
    exact isNumber_natText n
  have hval : (ns.map natText).map (fun t => (atoi t).toNat) = ns := by
    rw [List.map_map]
    conv_rhs => rw [← List.map_id ns]
    exact List.map_congr_left fun n _ => by simp [atoi_natText]
  simp only [readIndices, e1 _ hlen, hp, hnum, if_true, hval]

theorem cellAttr_tag {type name : String} (htype : type = "Int32" ∨ type = "UInt8")
    (hname : name = "connectivity" ∨ name = "offsets" ∨ name = "types") : TagOk "DataArray" (cellAttrs type name) "" := by
  rcases htype with rfl | rfl <;> rcases hname with rfl | rfl | rfl <;> exact tagOk_of (by decide)

/-- The first steps for an array of the cells. -/
theorem cellArray_head (f : VtuFile C) {type name : String} (htype : type = "Int32" ∨ type = "UInt8")
    (hname : name = "connectivity" ∨ name = "offsets" ∨ name = "types") (ps : List (List Char × List Char))
    {lead : List Char} (hl : Blanks lead) (post : List Char) :
    expectTag (some f) "dataarray" (lead ++ (cellArray type name ps ++ post)) = .ok (readAs "DataArray" (cellAttrs type name),
      "\n".toList ++ (spaced ps ++ ("\n    ".toList ++ ("</DataArray>".toList ++ ("\n".toList ++ post))))) ∧
    needAttr (some f) (readAs "DataArray" (cellAttrs type name)) "name" = .ok name.toList := by
  have hl' : '<' ∉ lead ++ "    ".toList := by
    rw [List.mem_append]
    rintro (hc | hc)
    · exact hl.no_bracket hc
    · revert hc; decide
  have e1 := expectTag_text (some f) (cellAttr_tag htype hname) (low := "dataarray") (by decide) hl'
    ("\n".toList ++ (spaced ps ++ ("\n    ".toList ++ ("</DataArray>".toList ++ ("\n".toList ++ post)))))
  constructor
  · rw [← e1]
    unfold cellArray
    simp only [List.append_assoc]
  · exact needAttr_text (C := C) (some f) (name := "DataArray") [⟨0, "type", type⟩] [⟨0, "format", "ascii"⟩] 0 "Name" name
      "name" (by decide) (by simp)

theorem connPairs_map (nv : Nat) : ∀ (i : Nat) (ns : List Nat), (connPairs nv i (ns.map fun (n : Nat) => (n : Int))).map (·.1) =
    ns.map natText
  | _, [] => rfl
  | i, n :: ns => by
    rw [List.map_cons, connPairs, List.map_cons, connPairs_map nv (i + 1) ns, List.map_cons]
    simp [intText_of_nonneg]

theorem connPairs_blanks (nv : Nat) : ∀ (i : Nat) (xs : List Int), ∀ p ∈ connPairs nv i xs, p.2 ≠ [] ∧ Blanks p.2
  | _, [], p, h => by simp [connPairs] at h
  | i, x :: xs, p, h => by
    rw [connPairs, List.mem_cons] at h
    rcases h with rfl | h
    · refine ⟨by simp, ?_⟩
      intro c hc
      rw [List.mem_append] at hc
      rcases hc with hc | hc
      · exact blanks_space c hc
      · split at hc
        · exact blanks_newline c hc
        · simp at hc
    · exact connPairs_blanks nv (i + 1) xs p h

theorem natPairs_map (ns : List Nat) : (ns.map fun n => (natText n, " ".toList)).map (·.1) = ns.map natText := by
  rw [List.map_map]
  rfl

theorem natPairs_blanks (ns : List Nat) : ∀ p ∈ ns.map (fun n => (natText n, " ".toList)), p.2 ≠ [] ∧ Blanks p.2 := by
  intro p hp
  obtain ⟨n, -, rfl⟩ := List.mem_map.1 hp
  exact ⟨by simp, blanks_space⟩

theorem readCellArray_conn (tag : VtkTag) (f : VtuFile C) (nv : Nat) (ns : List Nat) {lead : List Char} (hl : Blanks lead)
    (post : List Char) :
    readCellArray tag f (lead ++ (cellArray "Int32" "connectivity" (connPairs nv 0 (ns.map fun (n : Nat) => (n : Int))) ++
      post)) = .ok ({ f with conn := f.conn ++ ns.map fun (n : Nat) => (n : Int) }, "\n".toList ++ post) := by
  obtain ⟨e1, e2⟩ := cellArray_head f (type := "Int32") (name := "connectivity") (by simp) (by simp)
    (connPairs nv 0 (ns.map fun (n : Nat) => (n : Int))) hl post
  have e3 := readIndices_text f (connPairs_map nv 0 ns) (connPairs_blanks nv 0 _) post
  simp only [readCellArray, e1, e2, e3, bind, Except.bind, if_true]
  rfl

theorem readCellArray_offsets (tag : VtkTag) (f : VtuFile C) (ns : List Nat) {lead : List Char} (hl : Blanks lead)
    (post : List Char) :
    readCellArray tag f (lead ++ (cellArray "Int32" "offsets" (ns.map fun n => (natText n, " ".toList)) ++ post)) =
      .ok ({ f with offsets := f.offsets ++ ns }, "\n".toList ++ post) := by
  obtain ⟨e1, e2⟩ := cellArray_head f (type := "Int32") (name := "offsets") (by simp) (by simp)
    (ns.map fun n => (natText n, " ".toList)) hl post
  have e3 := readIndices_text f (natPairs_map ns) (natPairs_blanks ns) post
  have h1 : ¬ "offsets".toList = "connectivity".toList := by decide
  simp only [readCellArray, e1, e2, e3, bind, Except.bind, if_neg h1, if_true]
  rfl

theorem readCellArray_types (tag : VtkTag) (f : VtuFile C) {ns : List Nat} (hns : ∀ n ∈ ns, n = tag.type) {lead : List Char}
    (hl : Blanks lead) (post : List Char) :
    readCellArray tag f (lead ++ (cellArray "UInt8" "types" (ns.map fun n => (natText n, " ".toList)) ++ post)) =
      .ok ({ f with types := f.types ++ ns }, "\n".toList ++ post) := by
  obtain ⟨e1, e2⟩ := cellArray_head f (type := "UInt8") (name := "types") (by simp) (by simp)
    (ns.map fun n => (natText n, " ".toList)) hl post
  have e3 := readIndices_text f (natPairs_map ns) (natPairs_blanks ns) post
  have h1 : ¬ "types".toList = "connectivity".toList := by decide
  have h2 : ¬ "types".toList = "offsets".toList := by decide
  have h3 : ns.all (fun n => decide (n = tag.type)) = true := by
    rw [List.all_eq_true]
    exact fun n hn => decide_eq_true (hns n hn)
  simp only [readCellArray, e1, e2, e3, bind, Except.bind, if_neg h1, if_neg h2, if_true, h3]
  rfl

/-! ### The whole file -/

/-- The contents with the numbers as they are read. -/
def VtuFile.mapValues (txt : C → C) (f : VtuFile C) : VtuFile C :=
  { f with
    points := f.points.map (·.map txt)
    pointData := f.pointData.map (·.mapValues txt)
    cellData := f.cellData.map (·.mapValues txt) }

/-- What the contents have to satisfy for being read back: as many points as announced, with three coordinates, no
negative index, the type of the cells, and readable arrays. -/
structure VtuFile.Readable (tag : VtkTag) (f : VtuFile C) : Prop where
  count : f.numPoints = f.points.length
  three : ∀ p ∈ f.points, p.length = 3
  conn : ∀ x ∈ f.conn, 0 ≤ x
  types : ∀ n ∈ f.types, n = tag.type
  pointData : ∀ a ∈ f.pointData, a.Readable
  cellData : ∀ a ∈ f.cellData, a.Readable

theorem parseVtu_text (h : Prints print num txt) (zero : C) {tag : VtkTag} {f : VtuFile C} (hf : f.Readable tag) :
    parseVtu tag num zero (vtuText tag print f) = .ok (f.mapValues txt) := by
  obtain ⟨np, nc, ps, pd, conn, offsets, types, cd⟩ := f
  obtain ⟨hcount, hthree, hconn, htypes, hpd, hcd⟩ := hf
  simp only at hcount hthree hconn htypes hpd hcd
  obtain ⟨ns, rfl⟩ : ∃ ns : List Nat, conn = ns.map fun (n : Nat) => (n : Int) := by
    refine ⟨conn.map Int.toNat, ?_⟩
    rw [List.map_map]
    conv_lhs => rw [← List.map_id conn]
    exact List.map_congr_left fun x hx => by simp [Int.toNat_of_nonneg (hconn x hx)]
  have hsp : Blanks "   ".toList := by unfold Blanks; decide
  have hsp2 : Blanks "  ".toList := by unfold Blanks; decide
  have hsn : Blanks " \n".toList := by unfold Blanks; decide
  have hnlsp : '<' ∉ "\n".toList ++ "   ".toList := by decide
  have c1 := fun g : VtuFile C => fun post => expectTag_text (some g) (tagOk_of (name := "/Cells") (attrs := []) (tail := "")
    (by decide)) (low := "/cells") (by decide) hnlsp post
  simp only [List.append_assoc] at c1
  have c2 := fun g : VtuFile C => fun post => expectTag_text (some g) (tagOk_of (name := "/UnstructuredGrid") (attrs := [])
    (tail := "") (by decide)) (low := "/unstructuredgrid") (by decide) (pre := "\n ".toList) (by decide) post
  have c3 := fun g : VtuFile C => fun post => expectTag_text (some g) (tagOk_of (name := "/VTKFile") (attrs := [])
    (tail := "") (by decide)) (low := "/vtkfile") (by decide) (pre := "\n".toList) (by decide) post
  have hcells : (readAs "Cells" []).name = "cells".toList := by decide
  have hpiece : (readAs "/Piece" []).name = "/piece".toList := by decide
  have e4 : ∀ g : VtuFile C, g.conn = [] → g.offsets = [] → g.types = [] → g.cellData = [] →
      readCellsTags tag num zero g (readAs "Cells" []) (" \n".toList ++
      (cellArray "Int32" "connectivity" (connPairs (tag.topo.nv tag.topo.cellDim) 0 (ns.map fun (n : Nat) => (n : Int))) ++
      (cellArray "Int32" "offsets" (offsets.map fun x => (natText x, " ".toList)) ++
      (cellArray "UInt8" "types" (types.map fun x => (natText x, " ".toList)) ++
      ("   ".toList ++ (xmlText "/Cells" [] "" ++ ("\n".toList ++ (dataText print "CellData" cd ++ ("  ".toList ++
      (xmlText "/Piece" [] "" ++ ("\n ".toList ++ (xmlText "/UnstructuredGrid" [] "" ++ ("\n".toList ++
      (xmlText "/VTKFile" [] "" ++ "\n".toList)))))))))))))) =
      .ok { g with conn := ns.map fun (n : Nat) => (n : Int), offsets := offsets, types := types,
                   cellData := cd.map (·.mapValues txt) } := by
    intro g h1 h2 h3 _
    simp only [readCellsTags, if_pos hcells, readCellArray_conn tag _ _ _ hsn, readCellArray_offsets tag _ _ blanks_newline,
      readCellArray_types tag _ htypes blanks_newline, c1, c2, c3,
      readData_text h zero _ (tag := "CellData") (next := "/Piece") (low := "celldata") (Or.inr ⟨rfl, rfl, rfl⟩) hcd
        blanks_newline hsp2, if_pos hpiece, bind, Except.bind]
    rw [h1, h2, h3]
    rfl
  have htext : vtuText tag print ⟨np, nc, ps, pd, ns.map fun (n : Nat) => (n : Int), offsets, types, cd⟩ =
      vtuHeader ++ (pieceText np nc ++ (pointsText print ps ++ (dataText print "PointData" pd ++ ("   ".toList ++
      (xmlText "Cells" [] "" ++ (" \n".toList ++
      (cellArray "Int32" "connectivity" (connPairs (tag.topo.nv tag.topo.cellDim) 0 (ns.map fun (n : Nat) => (n : Int))) ++
      (cellArray "Int32" "offsets" (offsets.map fun x => (natText x, " ".toList)) ++
      (cellArray "UInt8" "types" (types.map fun x => (natText x, " ".toList)) ++
      ("   ".toList ++ (xmlText "/Cells" [] "" ++ ("\n".toList ++ (dataText print "CellData" cd ++ ("  ".toList ++
      (xmlText "/Piece" [] "" ++ ("\n ".toList ++ (xmlText "/UnstructuredGrid" [] "" ++ ("\n".toList ++
      (xmlText "/VTKFile" [] "" ++ "\n".toList))))))))))))))))))) := by
    unfold vtuText
    rw [cellsText_eq, vtuFooter_eq]
    simp only [List.append_assoc]
  rw [htext]
  simp only [parseVtu, readHead_text, bind, Except.bind, readPointsTags_text h zero ⟨np, nc, [], [], [], [], [], []⟩ hcount hthree blanks_newline,
    readData_text h zero _ (tag := "PointData") (next := "Cells") (low := "pointdata") (Or.inl ⟨rfl, rfl, rfl⟩) hpd
        hsn hsp]
  rw [e4 _ rfl rfl rfl rfl]
  rfl

end VG
