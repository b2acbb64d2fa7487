import Verif.Model.VtkText
import Verif.Props.XmlTag
import Mathlib.Data.List.TakeWhile

/-! Lemmas about the text of VTK files. -/

namespace VG

variable {C : Type}

/-! ### Numbers -/

theorem isBlank_of_isDigit {c : Char} (h : c.isDigit = true) : isBlank c = false := by
  simp only [Char.isDigit, Bool.and_eq_true, decide_eq_true_eq, ge_iff_le] at h
  obtain ⟨h1, h2⟩ := h
  rw [UInt32.le_iff_toNat_le] at h1 h2
  have hne : ∀ d : Char, d.val.toNat < 48 → (c == d) = false := by
    intro d hd
    rw [beq_eq_false_iff_ne]
    rintro rfl
    have h48 : '0'.val.toNat = 48 := by decide
    omega
  simp only [isBlank, Bool.or_eq_false_iff]
  refine ⟨⟨⟨⟨⟨hne _ ?_, hne _ ?_⟩, hne _ ?_⟩, hne _ ?_⟩, hne _ ?_⟩, hne _ ?_⟩ <;> decide

theorem natText_digit {n : Nat} {c : Char} (h : c ∈ natText n) : c.isDigit = true :=
  Nat.isDigit_of_mem_toDigits (by decide) (by decide) h

theorem natText_ne (n : Nat) : natText n ≠ [] := Nat.toDigits_ne_nil

theorem natText_blank {n : Nat} {c : Char} (h : c ∈ natText n) : isBlank c = false :=
  isBlank_of_isDigit (natText_digit h)

theorem natText_not {n : Nat} {c : Char} (h : c.isDigit = false) : c ∉ natText n := fun hc => by
  rw [natText_digit hc] at h
  exact absurd h (by decide)

theorem isNumber_natText (n : Nat) : isNumber (natText n) = true := by
  rw [isNumber, List.all_eq_true]
  exact fun c hc => natText_digit hc

theorem atoi_natText (n : Nat) : atoi (natText n) = n := by
  have htake : (natText n).takeWhile Char.isDigit = natText n :=
    List.takeWhile_eq_self_iff.2 fun c hc => natText_digit hc
  have hdrop : (natText n).dropWhile isBlank = natText n := by
    obtain ⟨x, xs, hx⟩ := List.exists_cons_of_ne_nil (natText_ne n)
    have hb : isBlank x = false := natText_blank (n := n) (by rw [hx]; simp)
    rw [hx, List.dropWhile_cons_of_neg (by simp [hb])]
  rw [atoi, hdrop]
  split
  · rename_i t ht
    exact absurd (show '-' ∈ natText n by rw [ht]; simp) (natText_not (by decide))
  · rename_i t ht
    exact absurd (show '+' ∈ natText n by rw [ht]; simp) (natText_not (by decide))
  · rw [htake]
    exact congrArg _ Nat.ofDigitChars_ten_toDigits

theorem intText_of_nonneg {x : Int} (h : 0 ≤ x) : intText x = natText x.toNat := by rw [intText, if_pos h]

/-! ### Tokens -/

/-- Blanks only. -/
def Blanks (l : List Char) : Prop := ∀ c ∈ l, isBlank c = true

/-- A token: not empty, without blanks. -/
def Token (l : List Char) : Prop := l ≠ [] ∧ ∀ c ∈ l, isBlank c = false

theorem Blanks.no_bracket {l : List Char} (h : Blanks l) : '<' ∉ l := fun hc => by
  have := h _ hc
  revert this
  decide

theorem dropWhile_blanks {l : List Char} (h : Blanks l) (r : List Char) :
    (l ++ r).dropWhile isBlank = r.dropWhile isBlank := by
  induction l with
  | nil => rfl
  | cons x xs ih =>
    rw [List.cons_append, List.dropWhile_cons_of_pos (h x (by simp))]
    exact ih fun c hc => h c (by simp [hc])

theorem Token.dropWhile {t : List Char} (h : Token t) (r : List Char) : (t ++ r).dropWhile isBlank = t ++ r := by
  obtain ⟨x, xs, rfl⟩ := List.exists_cons_of_ne_nil h.1
  rw [List.cons_append, List.dropWhile_cons_of_neg (by simp [h.2 x (by simp)])]

theorem takeWhile_stop {p : Char → Bool} {t : List Char} (h : ∀ c ∈ t, p c = true) {b : Char} (hb : p b = false)
    (r : List Char) : (t ++ b :: r).takeWhile p = t ∧ (t ++ b :: r).dropWhile p = b :: r := by
  induction t with
  | nil => simp [hb]
  | cons x xs ih =>
    have hx := h x (by simp)
    have := ih fun c hc => h c (by simp [hc])
    simp [hx, this]

/-- Tokens with the blanks behind them. -/
def spaced (ps : List (List Char × List Char)) : List Char := ps.flatMap fun p => p.1 ++ p.2

theorem spaced_cons (p : List Char × List Char) (ps : List (List Char × List Char)) :
    spaced (p :: ps) = p.1 ++ (p.2 ++ spaced ps) := by simp [spaced]

theorem spaced_append (ps qs : List (List Char × List Char)) : spaced (ps ++ qs) = spaced ps ++ spaced qs := by
  simp [spaced]

theorem spaced_length {ps : List (List Char × List Char)} (h : ∀ p ∈ ps, Token p.1) : ps.length ≤ (spaced ps).length := by
  induction ps with
  | nil => simp [spaced]
  | cons p ps ih =>
    have := ih fun q hq => h q (by simp [hq])
    have hp := List.length_pos_iff.2 (h p (by simp)).1
    rw [spaced_cons]
    simp only [List.length_cons, List.length_append]
    omega

theorem readTokens_text (stop : List Char → Bool) {last : List Char} (hlast : Token last) (hstop : stop last = true)
    {b : Char} (hb : isBlank b = true) (rest : List Char) {trail : List Char} (htrail : Blanks trail) :
    ∀ (ps : List (List Char × List Char)), (∀ p ∈ ps, Token p.1 ∧ p.2 ≠ [] ∧ Blanks p.2 ∧ stop p.1 = false) →
    ∀ (lead : List Char), Blanks lead → ∀ (fuel : Nat), ps.length < fuel →
    readTokens stop fuel (lead ++ (spaced ps ++ (trail ++ (last ++ b :: rest)))) = some (ps.map (·.1), b :: rest)
  | [], _, lead, hl, fuel, hf => by
    obtain ⟨fuel, rfl⟩ : ∃ k, fuel = k + 1 := ⟨fuel - 1, by simp at hf; omega⟩
    have hd := hlast.dropWhile (b :: rest)
    have ht := takeWhile_stop (p := fun c => !isBlank c) (t := last) (fun c hc => by simp [hlast.2 c hc]) (b := b)
      (by simp [hb]) rest
    have hne : last ++ b :: rest ≠ [] := by simp
    rw [readTokens, dropWhile_blanks hl]
    simp only [spaced, List.flatMap_nil, List.nil_append, dropWhile_blanks htrail, hd, ht.1, ht.2, hstop, if_true,
      if_neg hne, List.map_nil]
  | p :: ps, hp, lead, hl, fuel, hf => by
    obtain ⟨fuel, rfl⟩ : ∃ k, fuel = k + 1 := ⟨fuel - 1, by simp at hf; omega⟩
    obtain ⟨htok, hne2, hbl, hs⟩ := hp p (by simp)
    obtain ⟨c, cs, hc⟩ := List.exists_cons_of_ne_nil hne2
    have ih := readTokens_text stop hlast hstop hb rest htrail ps (fun q hq => hp q (by simp [hq])) p.2 hbl fuel
      (by simpa using hf)
    generalize trail ++ (last ++ b :: rest) = post at ih ⊢
    have hin : spaced (p :: ps) ++ post = p.1 ++ (p.2 ++ (spaced ps ++ post)) := by
      rw [spaced_cons]
      simp only [List.append_assoc]
    have ht := takeWhile_stop (p := fun c => !isBlank c) (t := p.1) (fun c hc => by simp [htok.2 c hc]) (b := c)
      (by simp [hbl c (by rw [hc]; simp)]) (cs ++ (spaced ps ++ post))
    rw [← List.cons_append, ← hc] at ht
    have hne : p.1 ++ (p.2 ++ (spaced ps ++ post)) ≠ [] := by simp [htok.1]
    rw [readTokens, dropWhile_blanks hl, hin, htok.dropWhile]
    simp only [ht.1, ht.2, hs, Bool.false_eq_true, if_false, if_neg hne, ih, Option.map_some, List.map_cons]

theorem readNumbers_text (num : List Char → Option C) (zero : C) (value : List Char → C) (post : List Char) :
    ∀ (ps : List (List Char × List Char)),
    (∀ p ∈ ps, Token p.1 ∧ '<' ∉ p.1 ∧ p.2 ≠ [] ∧ Blanks p.2 ∧ num p.1 = some (value p.1)) →
    ∀ (lead : List Char), Blanks lead → ∀ last : C,
    ∃ gap, Blanks gap ∧ readNumbers num zero ps.length last (lead ++ (spaced ps ++ post)) =
      (ps.map fun p => value p.1, some (gap ++ post))
  | [], _, lead, hl, last => ⟨lead, hl, by simp [readNumbers, spaced]⟩
  | p :: ps, hp, lead, hl, last => by
    obtain ⟨htok, hbr, hne2, hbl, hnum⟩ := hp p (by simp)
    obtain ⟨c, cs, hc⟩ := List.exists_cons_of_ne_nil hne2
    obtain ⟨gap, hgap, ih⟩ := readNumbers_text num zero value post ps (fun q hq => hp q (by simp [hq])) p.2 hbl
      (value p.1)
    have hin : spaced (p :: ps) ++ post = p.1 ++ (p.2 ++ (spaced ps ++ post)) := by
      rw [spaced_cons]
      simp only [List.append_assoc]
    have ht := takeWhile_stop (p := fun c => !isBlank c && c != '<') (t := p.1)
      (fun c hc => by
        have : c ≠ '<' := fun h => hbr (h ▸ hc)
        simp [htok.2 c hc, this]) (b := c)
      (by simp [hbl c (by rw [hc]; simp)]) (cs ++ (spaced ps ++ post))
    rw [← List.cons_append, ← hc] at ht
    have hne : p.1 ++ (p.2 ++ (spaced ps ++ post)) ≠ [] := by simp [htok.1]
    refine ⟨gap, hgap, ?_⟩
    rw [List.length_cons, readNumbers, dropWhile_blanks hl, hin, htok.dropWhile]
    simp only [ht.1, ht.2, if_neg hne, hnum, ih, List.map_cons]

/-! ### Tags -/

/-- What a tag has to satisfy for being read back. -/
structure TagOk (name : String) (attrs : List AttrText) (tail : String) : Prop where
  name_ok : ' ' ∉ name.toList ∧ '>' ∉ name.toList
  attrs_ok : ∀ a ∈ attrs, a.Valid ∧ a.value.toList ≠ [] ∧ '>' ∉ a.value.toList
  tail_ok : '"' ∉ tail.toList ∧ '>' ∉ tail.toList
  plain : attrs = [] → tail = ""

theorem TagOk.parse {name : String} {attrs : List AttrText} {tail : String} (h : TagOk name attrs tail) {pre : List Char}
    (hpre : '<' ∉ pre) (post : List Char) :
    ∃ r, xmlParse (pre ++ (xmlText name attrs tail ++ post)) = .ok r ∧ r.tag = readAs name attrs ∧ r.rest = post := by
  have : TagRead pre name attrs tail post := by
    by_cases hne : attrs = []
    · obtain rfl := h.plain hne
      subst hne
      exact C51_name pre hpre name h.name_ok.1 h.name_ok.2 post
    · exact C51_attributes_partial pre hpre name h.name_ok.1 h.name_ok.2 attrs hne (fun a ha => (h.attrs_ok a ha).1)
        (fun a ha => (h.attrs_ok a ha).2.1) (fun a ha => (h.attrs_ok a ha).2.2) tail h.tail_ok.1 h.tail_ok.2 post
  obtain ⟨r, hr, ht, hrest, -⟩ := this
  exact ⟨r, by rw [← List.append_assoc]; exact hr, ht, hrest⟩

theorem nextTag_text (soFar : Option (VtuFile C)) {name : String} {attrs : List AttrText} {tail : String}
    (h : TagOk name attrs tail) {pre : List Char} (hpre : '<' ∉ pre) (post : List Char) :
    nextTag soFar (pre ++ (xmlText name attrs tail ++ post)) = .ok (readAs name attrs, post) := by
  obtain ⟨r, hr, ht, hrest⟩ := h.parse hpre post
  simp only [nextTag, hr, ht, hrest]

theorem expectTag_text (soFar : Option (VtuFile C)) {name : String} {attrs : List AttrText} {tail : String}
    (h : TagOk name attrs tail) {low : String} (hlow : name.toList.map Char.toLower = low.toList) {pre : List Char}
    (hpre : '<' ∉ pre) (post : List Char) :
    expectTag soFar low (pre ++ (xmlText name attrs tail ++ post)) = .ok (readAs name attrs, post) := by
  obtain ⟨r, hr, ht, hrest⟩ := h.parse hpre post
  simp only [expectTag, hr, ht, hrest]
  rw [if_pos]
  exact hlow

instance (a : AttrText) : Decidable a.Valid :=
  decidable_of_iff (a.name.toList ≠ [] ∧ (∀ c ∈ a.name.toList, c ≠ ' ' ∧ c ≠ '=' ∧ c ≠ '"' ∧ c ≠ '>') ∧
    '"' ∉ a.value.toList) ⟨fun h => ⟨h.1, h.2.1, h.2.2⟩, fun h => ⟨h.1, h.2, h.3⟩⟩

/-- Tags without variable parts. -/
def tagOkB (name : String) (attrs : List AttrText) (tail : String) : Bool :=
  decide (' ' ∉ name.toList ∧ '>' ∉ name.toList) &&
  attrs.all (fun a => decide (a.Valid ∧ a.value.toList ≠ [] ∧ '>' ∉ a.value.toList)) &&
  decide ('"' ∉ tail.toList ∧ '>' ∉ tail.toList) && (!attrs.isEmpty || tail == "")

theorem tagOk_of {name : String} {attrs : List AttrText} {tail : String} (h : tagOkB name attrs tail = true) :
    TagOk name attrs tail := by
  simp only [tagOkB, Bool.and_eq_true, decide_eq_true_eq, List.all_eq_true, Bool.or_eq_true, Bool.not_eq_true',
    beq_iff_eq] at h
  exact ⟨h.1.1.1, h.1.1.2, h.1.2, fun he => h.2.resolve_left (by simp [he])⟩

/-! ### The pieces of the text as tags -/

theorem vtuHeader_eq : vtuHeader = xmlText "?xml" [⟨0, "version", "1.0"⟩] "?" ++ ("\n".toList ++
    (xmlText "VTKFile" [⟨0, "type", "UnstructuredGrid"⟩, ⟨0, "version", "0.1"⟩, ⟨0, "byte_order", "LittleEndian"⟩] "" ++
    ("\n ".toList ++ (xmlText "UnstructuredGrid" [] "" ++ "\n".toList)))) := by
  decide

theorem pieceText_eq (n m : Nat) : pieceText n m = "  ".toList ++
    (xmlText "Piece" [⟨0, "NumberOfPoints", String.ofList (natText n)⟩, ⟨0, "NumberOfCells", String.ofList (natText m)⟩] ""
      ++ "\n".toList) := by
  have h1 : "  <Piece NumberOfPoints=\"".toList = "  ".toList ++ '<' :: "Piece".toList ++ List.replicate (0 + 1) ' ' ++
    "NumberOfPoints".toList ++ ['=', '"'] := by decide
  have h2 : "\" NumberOfCells=\"".toList = ['"'] ++ List.replicate (0 + 1) ' ' ++ "NumberOfCells".toList ++ ['=', '"'] := by
    decide
  have h3 : "\">\n".toList = ['"'] ++ "".toList ++ ['>'] ++ "\n".toList := by decide
  unfold pieceText xmlText
  simp only [AttrText.text, h1, h2, h3, List.flatMap_cons, List.flatMap_nil, List.append_assoc, String.toList_ofList,
    List.cons_append, List.nil_append]

/-- The attributes of the array of the points. -/
def pointsAttrs : List AttrText := [⟨0, "type", "Float32"⟩, ⟨0, "NumberOfComponents", "3"⟩, ⟨0, "format", "ascii"⟩]

theorem pointsText_eq (print : C → List Char) (ps : List (List C)) : pointsText print ps = "   ".toList ++
    (xmlText "Points" [] "" ++ ("\n    ".toList ++ (xmlText "DataArray" pointsAttrs "" ++ ("\n".toList ++
    (ps.flatMap (pointText print) ++ ("\n    ".toList ++ (xmlText "/DataArray" [] "" ++ ("\n   ".toList ++
    (xmlText "/Points" [] "" ++ " \n".toList))))))))) := by
  have h1 : "   <Points>\n".toList = "   ".toList ++ (xmlText "Points" [] "" ++ "\n".toList) := by decide
  have h2 : "    <DataArray type=\"Float32\" NumberOfComponents=\"3\" format=\"ascii\">\n".toList =
    "    ".toList ++ (xmlText "DataArray" pointsAttrs "" ++ "\n".toList) := by decide
  have h3 : "    </DataArray>\n".toList = "    ".toList ++ (xmlText "/DataArray" [] "" ++ "\n".toList) := by decide
  have h4 : "   </Points> \n".toList = "   ".toList ++ (xmlText "/Points" [] "" ++ " \n".toList) := by decide
  have h5 : "\n    ".toList = "\n".toList ++ "    ".toList := by decide
  have h6 : "\n   ".toList = "\n".toList ++ "   ".toList := by decide
  unfold pointsText
  simp only [h1, h2, h3, h4, h5, h6, List.append_assoc]

/-- The attributes of the array of a quantity. -/
def dataAttrs (a : DataArray C) : List AttrText :=
  [⟨0, "type", "Float32"⟩, ⟨0, "Name", a.name⟩, ⟨0, "NumberOfComponents", String.ofList (natText (a.comps.getD 1))⟩,
    ⟨0, "format", "ascii"⟩]

theorem arrayText_eq (print : C → List Char) (a : DataArray C) : arrayText print a = "    ".toList ++
    (xmlText "DataArray" (dataAttrs a) "" ++ ("\n".toList ++ (spaced (a.values.map fun x => (print x, " ".toList)) ++
    ("\n    ".toList ++ ("</DataArray>".toList ++ "\n".toList))))) := by
  have h1 : "    <DataArray type=\"Float32\" Name=\"".toList = "    ".toList ++ '<' :: "DataArray".toList ++
    List.replicate (0 + 1) ' ' ++ "type".toList ++ ['=', '"'] ++ "Float32".toList ++ ['"'] ++ List.replicate (0 + 1) ' ' ++
    "Name".toList ++ ['=', '"'] := by decide
  have h2 : "\" NumberOfComponents=\"".toList = ['"'] ++ List.replicate (0 + 1) ' ' ++ "NumberOfComponents".toList ++
    ['=', '"'] := by decide
  have h3 : "\" format=\"ascii\">\n".toList = ['"'] ++ List.replicate (0 + 1) ' ' ++ "format".toList ++ ['=', '"'] ++
    "ascii".toList ++ ['"'] ++ "".toList ++ ['>'] ++ "\n".toList := by decide
  have h4 : "    </DataArray>\n".toList = "    ".toList ++ ("</DataArray>".toList ++ "\n".toList) := by decide
  have h5 : "\n    ".toList = "\n".toList ++ "    ".toList := by decide
  unfold arrayText xmlText dataAttrs spaced
  simp only [AttrText.text, h1, h2, h3, h4, h5, List.flatMap_cons, List.flatMap_nil, List.append_assoc, String.toList_ofList,
    List.cons_append, List.nil_append, List.flatMap_map]

theorem dataText_eq (print : C → List Char) {as : List (DataArray C)} (h : as ≠ []) :
    dataText print "PointData" as = "   ".toList ++ (xmlText "PointData" [] "" ++ ("\n".toList ++
      (as.flatMap (arrayText print) ++ ("   ".toList ++ (xmlText "/PointData" [] "" ++ "\n".toList))))) ∧
    dataText print "CellData" as = "   ".toList ++ (xmlText "CellData" [] "" ++ ("\n".toList ++
      (as.flatMap (arrayText print) ++ ("   ".toList ++ (xmlText "/CellData" [] "" ++ "\n".toList))))) := by
  have h1 : "   <".toList ++ "PointData".toList ++ ">\n".toList = "   ".toList ++ (xmlText "PointData" [] "" ++ "\n".toList) := by
    decide
  have h2 : "   </".toList ++ ("PointData".toList ++ ">\n".toList) =
    "   ".toList ++ (xmlText "/PointData" [] "" ++ "\n".toList) := by decide
  have h3 : "   <".toList ++ "CellData".toList ++ ">\n".toList = "   ".toList ++ (xmlText "CellData" [] "" ++ "\n".toList) := by
    decide
  have h4 : "   </".toList ++ ("CellData".toList ++ ">\n".toList) =
    "   ".toList ++ (xmlText "/CellData" [] "" ++ "\n".toList) := by decide
  unfold dataText
  rw [if_neg h, if_neg h, h1, h3]
  simp only [List.append_assoc]
  rw [h2, h4]
  exact ⟨rfl, rfl⟩

/-- The indices with the blanks behind them. -/
def connPairs (nv : Nat) : Nat → List Int → List (List Char × List Char)
  | _, [] => []
  | i, x :: xs => (intText x, " ".toList ++ if (i + 1) % nv = 0 then "\n".toList else []) :: connPairs nv (i + 1) xs

theorem connText_eq (nv : Nat) : ∀ (i : Nat) (xs : List Int), connText nv i xs = spaced (connPairs nv i xs)
  | _, [] => rfl
  | i, x :: xs => by
    rw [connText, connPairs, spaced_cons, connText_eq nv (i + 1) xs]
    simp only [List.append_assoc]

/-- The attributes of an array of the cells. -/
def cellAttrs (type name : String) : List AttrText := [⟨0, "type", type⟩, ⟨0, "Name", name⟩, ⟨0, "format", "ascii"⟩]

/-- An array of the cells. -/
def cellArray (type name : String) (ps : List (List Char × List Char)) : List Char :=
  "    ".toList ++ (xmlText "DataArray" (cellAttrs type name) "" ++ ("\n".toList ++ (spaced ps ++ ("\n    ".toList ++
    ("</DataArray>".toList ++ "\n".toList)))))

theorem cellsText_eq (nv : Nat) (conn : List Int) (offsets types : List Nat) : cellsText nv conn offsets types =
    "   ".toList ++ (xmlText "Cells" [] "" ++ (" \n".toList ++
    (cellArray "Int32" "connectivity" (connPairs nv 0 conn) ++
    (cellArray "Int32" "offsets" (offsets.map fun x => (natText x, " ".toList)) ++
    (cellArray "UInt8" "types" (types.map fun x => (natText x, " ".toList)) ++
    ("   ".toList ++ (xmlText "/Cells" [] "" ++ "\n".toList))))))) := by
  have h0 : "   <Cells> \n".toList = "   ".toList ++ (xmlText "Cells" [] "" ++ " \n".toList) := by decide
  have h1 : "    <DataArray type=\"Int32\" Name=\"connectivity\" format=\"ascii\">\n".toList =
    "    ".toList ++ (xmlText "DataArray" (cellAttrs "Int32" "connectivity") "" ++ "\n".toList) := by decide
  have h2 : "    <DataArray type=\"Int32\" Name=\"offsets\" format=\"ascii\">\n".toList =
    "    ".toList ++ (xmlText "DataArray" (cellAttrs "Int32" "offsets") "" ++ "\n".toList) := by decide
  have h3 : "    <DataArray type=\"UInt8\" Name=\"types\" format=\"ascii\">\n".toList =
    "    ".toList ++ (xmlText "DataArray" (cellAttrs "UInt8" "types") "" ++ "\n".toList) := by decide
  have h4 : "    </DataArray>\n".toList = "    ".toList ++ ("</DataArray>".toList ++ "\n".toList) := by decide
  have h5 : "\n    ".toList = "\n".toList ++ "    ".toList := by decide
  have h6 : "   </Cells>\n".toList = "   ".toList ++ (xmlText "/Cells" [] "" ++ "\n".toList) := by decide
  have h7 : ∀ l : List Nat, l.flatMap (fun x => natText x ++ " ".toList) =
      spaced (l.map fun x => (natText x, " ".toList)) := fun l => by simp only [spaced, List.flatMap_map]
  unfold cellsText cellArray
  rw [connText_eq]
  simp only [h0, h1, h2, h3, h4, h5, h6, h7, List.append_assoc]

theorem vtuFooter_eq : vtuFooter = "  ".toList ++ (xmlText "/Piece" [] "" ++ ("\n ".toList ++
    (xmlText "/UnstructuredGrid" [] "" ++ ("\n".toList ++ (xmlText "/VTKFile" [] "" ++ "\n".toList))))) := by
  decide

/-! ### Reading -/

theorem readAs_attr {name : String} {before after : List AttrText} {g : Nat} {attr v low : String}
    (hlow : attr.toList.map Char.toLower = low.toList)
    (hb : ∀ b ∈ before, b.name.toList.map Char.toLower ≠ low.toList) :
    (readAs name (before ++ ⟨g, attr, v⟩ :: after)).hasAttribute low.toList = true ∧
      (readAs name (before ++ ⟨g, attr, v⟩ :: after)).getValue low.toList = v.toList := by
  rw [← hlow] at hb ⊢
  have h := C51_queries name before after ⟨g, attr, v⟩ hb
  exact ⟨h.1, h.2.1⟩

theorem needAttr_text (soFar : Option (VtuFile C)) {name : String} (before after : List AttrText) (g : Nat)
    (attr v low : String) (hlow : attr.toList.map Char.toLower = low.toList)
    (hb : ∀ b ∈ before, b.name.toList.map Char.toLower ≠ low.toList) :
    needAttr soFar (readAs name (before ++ ⟨g, attr, v⟩ :: after)) low = .ok v.toList := by
  have h := readAs_attr (name := name) (after := after) (g := g) (v := v) hlow hb
  rw [needAttr, if_pos h.1, h.2]

theorem natValue_ok (g : Nat) (name : String) (n : Nat) (h : (⟨g, name, ""⟩ : AttrText).Valid) :
    (⟨g, name, String.ofList (natText n)⟩ : AttrText).Valid ∧
      (String.ofList (natText n)).toList ≠ [] ∧ '>' ∉ (String.ofList (natText n)).toList := by
  rw [String.toList_ofList]
  exact ⟨⟨h.1, h.2, by rw [String.toList_ofList]; exact natText_not (by decide)⟩, natText_ne n, natText_not (by decide)⟩

theorem readHead_text (n m : Nat) (post : List Char) :
    readHead (C := C) (vtuHeader ++ (pieceText n m ++ post)) =
      .ok (⟨n, m, [], [], [], [], [], []⟩, "\n".toList ++ post) := by
  have hpiece : TagOk "Piece" [⟨0, "NumberOfPoints", String.ofList (natText n)⟩,
      ⟨0, "NumberOfCells", String.ofList (natText m)⟩] "" := by
    refine ⟨by decide, ?_, by decide, by simp⟩
    intro a ha
    simp only [List.mem_cons, List.not_mem_nil, or_false] at ha
    rcases ha with rfl | rfl
    · exact natValue_ok 0 _ n (by decide)
    · exact natValue_ok 0 _ m (by decide)
  rw [vtuHeader_eq, pieceText_eq]
  simp only [List.append_assoc]
  have h1 := fun post => nextTag_text (C := C) none (tagOk_of (name := "?xml") (attrs := [⟨0, "version", "1.0"⟩])
    (tail := "?") (by decide)) (pre := []) (by simp) post
  simp only [List.nil_append] at h1
  have h2 := fun post => expectTag_text (C := C) none (tagOk_of (name := "VTKFile") (attrs := [⟨0, "type", "UnstructuredGrid"⟩,
    ⟨0, "version", "0.1"⟩, ⟨0, "byte_order", "LittleEndian"⟩]) (tail := "") (by decide)) (low := "vtkfile") (by decide)
    (pre := "\n".toList) (by decide) post
  have h3 := fun post => expectTag_text (C := C) none (tagOk_of (name := "UnstructuredGrid") (attrs := []) (tail := "")
    (by decide)) (low := "unstructuredgrid") (by decide) (pre := "\n ".toList) (by decide) post
  have h4 := fun post => expectTag_text (C := C) none hpiece (low := "piece") (by decide) (pre := "\n".toList ++ "  ".toList)
    (by decide) post
  have h5 := needAttr_text (C := C) none (name := "Piece") [] [⟨0, "NumberOfCells", String.ofList (natText m)⟩] 0
    "NumberOfPoints" (String.ofList (natText n)) "numberofpoints" (by decide) (by simp)
  have h6 := needAttr_text (C := C) none (name := "Piece") [⟨0, "NumberOfPoints", String.ofList (natText n)⟩] [] 0
    "NumberOfCells" (String.ofList (natText m)) "numberofcells" (by decide) (by simp)
  simp only [List.append_assoc] at h4
  simp only [List.nil_append, List.cons_append] at h5 h6
  have hn : (readAs "?xml" [⟨0, "version", "1.0"⟩]).name = "?xml".toList ∨
      (readAs "?xml" [⟨0, "version", "1.0"⟩]).name = "?xml?".toList := by decide
  simp only [readHead, h1, h2, h3, h4, h5, h6, bind, Except.bind, if_pos hn, String.toList_ofList, atoi_natText,
    Int.toNat_natCast]
  rfl

end VG
