import Verif.Lemmas.XmlTag

/-!
C51: the text of an XML tag is parsed into its name and its attributes.

The specification is the text itself: `xmlText` writes a tag with a name, attributes and what follows them before the
closing bracket.  The full claim is that every tag without quotes in its values is read back, whatever the values are.
-/

namespace VG

/-- An attribute as it appears in a file. -/
structure AttrText where
  /-- the number of additional blanks before it -/
  gap : Nat
  name : String
  value : String

/-- The text of an attribute. -/
def AttrText.text (a : AttrText) : List Char :=
  List.replicate (a.gap + 1) ' ' ++ a.name.toList ++ ['=', '"'] ++ a.value.toList ++ ['"']

/-- The text of a tag; `tail` is what stands between the last attribute and the closing bracket, e.g. a slash. -/
def xmlText (name : String) (attrs : List AttrText) (tail : String) : List Char :=
  '<' :: name.toList ++ attrs.flatMap AttrText.text ++ tail.toList ++ ['>']

/-- The attribute follows the rules for names of attributes, its value contains no quote. -/
structure AttrText.Valid (a : AttrText) : Prop where
  name_ne : a.name.toList ≠ []
  name_chars : ∀ c ∈ a.name.toList, c ≠ ' ' ∧ c ≠ '=' ∧ c ≠ '"' ∧ c ≠ '>'
  value_quote : '"' ∉ a.value.toList

/-- What a tag should be read as. -/
def readAs (name : String) (attrs : List AttrText) : XmlTag :=
  ⟨name.toList.map Char.toLower, attrs.map fun a => (a.name.toList.map Char.toLower, a.value.toList)⟩

/-- The full claim for one tag in a file: the tag is found, and read up to its closing bracket. -/
def TagRead (pre : List Char) (name : String) (attrs : List AttrText) (tail : String) (post : List Char) : Prop :=
  ∃ r, xmlParse (pre ++ xmlText name attrs tail ++ post) = .ok r ∧ r.tag = readAs name attrs ∧ r.rest = post ∧
    r.good = true

theorem lower_map (l : List Char) : l.map lowerChar = l.map Char.toLower :=
  List.map_congr_left fun c _ => lowerChar_eq c

/-- The loop over the attributes reads them one by one. -/
theorem xmlAttrs_text (attrs : List AttrText) (tail post : List Char)
    (hv : ∀ a ∈ attrs, a.Valid ∧ a.value.toList ≠ [] ∧ '>' ∉ a.value.toList) (ht : '"' ∉ tail ∧ '>' ∉ tail) :
    ∀ (c : Char) (found : List (List Char × List Char)),
    xmlAttrs c [] false found (attrs.flatMap AttrText.text ++ tail ++ '>' :: post) =
      .ok (found ++ (readAs "" attrs).attrs, post, true) := by
  induction attrs with
  | nil =>
    intro c found
    rw [List.flatMap_nil, List.nil_append, xmlAttrs_outside tail ht.1 ht.2, xmlAttrs]
    simp [xmlStep, readAs]
  | cons a as ih =>
    intro c found
    obtain ⟨⟨hn, hc, hq⟩, hne, hg⟩ := hv a (by simp)
    have hnq : '"' ∉ a.name.toList := fun h => (hc _ h).2.2.1 rfl
    have hng : '>' ∉ a.name.toList := fun h => (hc _ h).2.2.2 rfl
    have hns : ' ' ∉ a.name.toList := fun h => (hc _ h).1 rfl
    have hne' : '=' ∉ a.name.toList := fun h => (hc _ h).2.1 rfl
    have hsplit : (a :: as).flatMap AttrText.text ++ tail ++ '>' :: post =
        (List.replicate (a.gap + 1) ' ' ++ a.name.toList ++ ['=']) ++ '"' :: (a.value.toList ++ '"' ::
          (as.flatMap AttrText.text ++ tail ++ '>' :: post)) := by
      simp [AttrText.text]
    have hfilter : (List.replicate (a.gap + 1) ' ' ++ a.name.toList ++ ['=']).filter (fun x => x ≠ ' ') =
        a.name.toList ++ ['='] := by
      rw [List.filter_append, List.filter_append]
      have h1 : (List.replicate (a.gap + 1) ' ').filter (fun x => x ≠ ' ') = [] := by simp
      have h2 : a.name.toList.filter (fun x => x ≠ ' ') = a.name.toList :=
        List.filter_eq_self.2 fun x hx => by simpa using (hc x hx).1
      rw [h1, h2]
      simp
    have hlow : lowerChar '=' = '=' := by decide
    rw [hsplit, xmlAttrs_outside _ (by simp [hnq]) (by simp [hng]), hfilter, xmlAttrs]
    simp only [xmlStep, Bool.false_and, Bool.false_or, List.nil_append, List.map_append, List.map_cons, List.map_nil,
      hlow]
    simp only [beq_self_eq_true, if_true, Bool.false_eq_true, if_false, show ¬ ('"' : Char) = '>' by decide]
    rw [xmlAttrs_inside _ hq hg, xmlAttrs]
    simp only [xmlStep, Bool.true_and, Bool.true_or, beq_self_eq_true, if_true]
    have hattr := xmlAttr_spec (a.name.toList.map lowerChar) a.value.toList (by simpa using hn)
      (fun h => by
        obtain ⟨d, hd, he⟩ := List.mem_map.1 h
        exact lowerChar_ne_of (by decide) (hc d hd).2.1 he) hne
    have htok : a.name.toList.map lowerChar ++ ['='] ++ ['"'] ++ a.value.toList ++ ['"'] =
        a.name.toList.map lowerChar ++ '=' :: '"' :: (a.value.toList ++ ['"']) := by simp
    rw [htok, hattr]
    simp only [show ¬ ('"' : Char) = '>' by decide, if_false]
    rw [ih (fun b hb => hv b (by simp [hb]))]
    simp [readAs, lower_map]

/-- **C51** (tags without attributes): the name is read in lower case, the stream stands behind the tag. -/
theorem C51_name (pre : List Char) (hpre : '<' ∉ pre) (name : String) (hs : ' ' ∉ name.toList) (hg : '>' ∉ name.toList)
    (post : List Char) : TagRead pre name [] "" post := by
  refine ⟨⟨⟨name.toList.map lowerChar, []⟩, post, true, false⟩, ?_, by simp [readAs, lower_map], rfl, rfl⟩
  have : pre ++ xmlText name [] "" ++ post = pre ++ '<' :: (name.toList ++ '>' :: post) := by simp [xmlText]
  rw [this, xmlParse, xmlStart_spec _ _ hpre]
  simp only [xmlName_spec name.toList hs hg '>' (Or.inr rfl)]
  simp

example : TagRead "\n  ".toList "Points" [] "" "\n<DataArray type=\"Float32\">".toList :=
  C51_name _ (by decide) _ (by decide) (by decide) _

/-- **C51** (tags with attributes), partial: name and attributes are read when no value is empty and no value contains
the closing bracket.  The full claim drops these two conditions; `C51_violated_empty` and `C51_violated_bracket` show
that it fails without either. -/
theorem C51_attributes_partial (pre : List Char) (hpre : '<' ∉ pre) (name : String) (hs : ' ' ∉ name.toList)
    (hg : '>' ∉ name.toList) (attrs : List AttrText) (hne : attrs ≠ []) (hv : ∀ a ∈ attrs, a.Valid)
    (hempty : ∀ a ∈ attrs, a.value.toList ≠ []) (hbracket : ∀ a ∈ attrs, '>' ∉ a.value.toList) (tail : String)
    (htq : '"' ∉ tail.toList) (htg : '>' ∉ tail.toList) (post : List Char) : TagRead pre name attrs tail post := by
  obtain ⟨a, as, rfl⟩ := List.exists_cons_of_ne_nil hne
  have hloop := xmlAttrs_text (a :: as) tail.toList post (fun b hb => ⟨hv b hb, hempty b hb, hbracket b hb⟩) ⟨htq, htg⟩
  have hsplit : (a :: as).flatMap AttrText.text ++ tail.toList ++ '>' :: post = ' ' ::
      (List.replicate a.gap ' ' ++ a.name.toList ++ ['=', '"'] ++ a.value.toList ++ ['"'] ++ as.flatMap AttrText.text ++
        tail.toList ++ '>' :: post) := by
    simp [AttrText.text, List.replicate_succ]
  have hinput : pre ++ xmlText name (a :: as) tail ++ post = pre ++ '<' :: (name.toList ++
      ((a :: as).flatMap AttrText.text ++ tail.toList ++ '>' :: post)) := by simp [xmlText]
  refine ⟨⟨⟨name.toList.map lowerChar, (readAs "" (a :: as)).attrs⟩, post, true, true⟩, ?_,
    by simp [readAs, lower_map], rfl, rfl⟩
  rw [hinput, xmlParse, xmlStart_spec _ _ hpre]
  rw [hsplit] at hloop ⊢
  simp only [xmlName_spec name.toList hs hg ' ' (Or.inl rfl)]
  have hfirst := hloop ' ' []
  rw [xmlAttrs] at hfirst
  simp only [xmlStep, Bool.false_and, Bool.false_or, show (' ' == '"') = false by decide, Bool.false_eq_true, if_false,
    ne_eq, not_true_eq_false, show ¬ (' ' : Char) = '>' by decide, List.nil_append] at hfirst
  rw [hfirst]
  simp

/-- A tag of a file written by the writer of the library. -/
def dataArrayTag : List AttrText :=
  [⟨0, "type", "Float64"⟩, ⟨0, "Name", "my Data=x"⟩, ⟨2, "NumberOfComponents", "1"⟩, ⟨0, "format", "ascii"⟩]

example : TagRead "   ".toList "DataArray" dataArrayTag "/" "1 2 3".toList := by
  refine C51_attributes_partial _ (by decide) _ (by decide) (by decide) _ (by decide) ?_ ?_ ?_ _ (by decide) (by decide) _
  · intro a ha
    simp only [dataArrayTag, List.mem_cons, List.not_mem_nil, or_false] at ha
    rcases ha with rfl | rfl | rfl | rfl <;> exact ⟨by decide, by decide, by decide⟩
  · decide
  · decide

/-- **C51** fails for attributes with an empty value: the tag is rejected. -/
theorem C51_violated_empty : ∃ (name : String) (a : AttrText), a.Valid ∧ '>' ∉ a.value.toList ∧
    ¬ TagRead [] name [a] "" [] ∧ xmlParse (xmlText name [a] "") = .error .badFormat := by
  refine ⟨"DataArray", ⟨0, "Name", ""⟩, ⟨by decide, by decide, by decide⟩, by decide, ?_, by decide +kernel⟩
  rintro ⟨r, hr, -⟩
  have : xmlParse ([] ++ xmlText "DataArray" [⟨0, "Name", ""⟩] "" ++ []) = .error .badFormat := by decide +kernel
  rw [this] at hr
  simp at hr

/-- **C51** fails for values with a closing bracket: the attribute is lost and reading continues within the value. -/
theorem C51_violated_bracket : ∃ (name : String) (a : AttrText), a.Valid ∧ a.value.toList ≠ [] ∧
    ¬ TagRead [] name [a] "" [] ∧ ∃ r, xmlParse (xmlText name [a] "") = .ok r ∧ r.tag.attrs = [] ∧ r.rest ≠ [] := by
  refine ⟨"DataArray", ⟨0, "Name", "x>0"⟩, ⟨by decide, by decide, by decide⟩, by decide, ?_,
    ⟨⟨⟨"dataarray".toList, []⟩, "0\">".toList, true, true⟩, by decide +kernel, by decide, by decide⟩⟩
  rintro ⟨r, hr, -, hrest, -⟩
  have : xmlParse ([] ++ xmlText "DataArray" [⟨0, "Name", "x>0"⟩] "" ++ []) =
      .ok ⟨⟨"dataarray".toList, []⟩, "0\">".toList, true, true⟩ := by decide +kernel
  rw [this] at hr
  injection hr with hr
  rw [← hr] at hrest
  revert hrest
  decide

/-- **C51** (stream): reading a tag without attributes leaves the stream not skipping blanks, reading one with attributes
leaves it skipping them, so numbers after the former cannot be read with `>>`. -/
theorem C51_violated_skipws : ∃ r s, xmlParse "<Points> 1".toList = .ok r ∧ r.skipws = false ∧
    xmlParse "<Points a=\"b\"> 1".toList = .ok s ∧ s.skipws = true ∧ r.rest = s.rest :=
  ⟨⟨⟨"points".toList, []⟩, " 1".toList, true, false⟩,
    ⟨⟨"points".toList, [("a".toList, "b".toList)]⟩, " 1".toList, true, true⟩, by decide +kernel, rfl, by decide +kernel,
    rfl, rfl⟩

/-- **C51** (queries): `has_attribute` and `get_value` give the first attribute with the name; a name that is missing
has the empty value. -/
theorem C51_queries (name : String) (before after : List AttrText) (a : AttrText)
    (hb : ∀ b ∈ before, b.name.toList.map Char.toLower ≠ a.name.toList.map Char.toLower) :
    (readAs name (before ++ a :: after)).hasAttribute (a.name.toList.map Char.toLower) = true ∧
      (readAs name (before ++ a :: after)).getValue (a.name.toList.map Char.toLower) = a.value.toList ∧
      (readAs name before).hasAttribute (a.name.toList.map Char.toLower) = false ∧
      (readAs name before).getValue (a.name.toList.map Char.toLower) = [] := by
  have hnone : (readAs name before).attrs.find? (fun p => p.1 == a.name.toList.map Char.toLower) = none := by
    rw [List.find?_eq_none]
    intro p hp
    obtain ⟨b, hb', rfl⟩ := List.mem_map.1 hp
    simpa using hb b hb'
  refine ⟨?_, ?_, ?_, ?_⟩
  · simp [XmlTag.hasAttribute, readAs]
  · have : (readAs name (before ++ a :: after)).attrs = (readAs name before).attrs ++ (readAs name (a :: after)).attrs := by
      simp [readAs]
    unfold XmlTag.getValue
    rw [this, List.find?_append, hnone]
    simp [readAs]
  · unfold XmlTag.hasAttribute
    rw [List.any_eq_false]
    intro p hp
    exact List.find?_eq_none.1 hnone p hp
  · unfold XmlTag.getValue
    rw [hnone]

example : (readAs "DataArray" dataArrayTag).getValue "name".toList = "my Data=x".toList := by decide

/-- **C51** (no tag): a stream without an opening bracket makes `parse` throw. -/
theorem C51_no_tag (input : List Char) (h : '<' ∉ input) : xmlParse input = .error .length := by
  rw [xmlParse, xmlStart_none _ h]

theorem xmlStart_suffix : ∀ {l rest : List Char}, xmlStart l = some rest → ∃ p, l = p ++ '<' :: rest
  | [], _, h => by simp [xmlStart] at h
  | x :: xs, rest, h => by
    unfold xmlStart at h
    split at h
    · rename_i hx
      injection h with h
      exact ⟨[], by simp [hx, h]⟩
    · obtain ⟨p, hp⟩ := xmlStart_suffix h
      exact ⟨x :: p, by simp [hp]⟩

theorem xmlName_suffix : ∀ (l : List Char) (c : Char) (acc name : List Char) (d : Char) (rest : List Char) (good : Bool),
    xmlName c acc l = (name, d, rest, good) → ∃ p, l = p ++ rest ∧ (good = true → d = ' ' ∨ d = '>') ∧
      (good = true → p.getLast? = some d) ∧ (good = false → rest = [])
  | [], c, acc, name, d, rest, good, h => by
    simp only [xmlName, Prod.mk.injEq] at h
    obtain ⟨-, -, rfl, rfl⟩ := h
    exact ⟨[], rfl, by simp, by simp, by simp⟩
  | x :: xs, c, acc, name, d, rest, good, h => by
    unfold xmlName at h
    split at h
    · obtain ⟨p, hp, h1, h2, h3⟩ := xmlName_suffix xs _ _ _ _ _ _ h
      refine ⟨x :: p, by simp [hp], h1, fun hg => ?_, h3⟩
      rw [List.getLast?_cons, h2 hg]
      rfl
    · rename_i hx
      simp only [Prod.mk.injEq] at h
      obtain ⟨-, rfl, rfl, rfl⟩ := h
      refine ⟨[x], rfl, fun _ => ?_, by simp, by simp⟩
      by_cases h1 : x = ' '
      · exact Or.inl h1
      · exact Or.inr (by_contra fun h2 => hx ⟨h1, h2⟩)

theorem xmlAttrs_suffix : ∀ (l : List Char) (c : Char) (token : List Char) (inside : Bool)
    (found attrs : List (List Char × List Char)) (rest : List Char) (good : Bool),
    xmlAttrs c token inside found l = .ok (attrs, rest, good) → ∃ p, l = p ++ rest ∧
      (good = true → p.getLast? = some '>') ∧ (good = false → rest = [])
  | [], c, token, inside, found, attrs, rest, good, h => by
    unfold xmlAttrs at h
    split at h
    · simp at h
    · simp only [Except.ok.injEq, Prod.mk.injEq] at h
      obtain ⟨-, rfl, rfl⟩ := h
      exact ⟨[], rfl, by simp, by simp⟩
  | x :: xs, c, token, inside, found, attrs, rest, good, h => by
    unfold xmlAttrs at h
    split at h
    · simp at h
    · split at h
      · rename_i hx
        simp only [Except.ok.injEq, Prod.mk.injEq] at h
        obtain ⟨-, rfl, rfl⟩ := h
        exact ⟨[x], rfl, by simp [hx], by simp⟩
      · obtain ⟨p, hp, h1, h2⟩ := xmlAttrs_suffix xs _ _ _ _ _ _ _ h
        refine ⟨x :: p, by simp [hp], fun hg => ?_, h2⟩
        rw [List.getLast?_cons, h1 hg]
        rfl

/-- **C51** (any input): when `parse` returns, it has consumed a piece of the text from the beginning of the stream
which ends with a closing bracket, or the whole stream. -/
theorem C51_consumes (input : List Char) (r : XmlResult) (h : xmlParse input = .ok r) :
    ∃ p, input = p ++ r.rest ∧ '<' ∈ p ∧ (p.getLast? = some '>' ∨ r.rest = []) := by
  unfold xmlParse at h
  split at h
  · simp at h
  · rename_i rest hstart
    obtain ⟨p0, hp0⟩ := xmlStart_suffix hstart
    obtain ⟨name, c, rest', good, hname⟩ : ∃ name c rest' good, xmlName '<' [] rest = (name, c, rest', good) :=
      ⟨_, _, _, _, rfl⟩
    obtain ⟨p1, hp1, -, hlast, hbad⟩ := xmlName_suffix _ _ _ _ _ _ _ hname
    simp only [hname] at h
    split at h
    · rename_i hc
      injection h with h
      subst h
      refine ⟨p0 ++ '<' :: p1, by simp [hp0, hp1], by simp, ?_⟩
      cases good with
      | false => exact Or.inr (hbad rfl)
      | true =>
        left
        rw [List.getLast?_append, List.getLast?_cons, hlast rfl, hc]
        rfl
    · split at h
      · split at h
        · simp at h
        · rename_i attrs rest'' good' hattrs
          injection h with h
          subst h
          obtain ⟨p2, hp2, hl2, hb2⟩ := xmlAttrs_suffix _ _ _ _ _ _ _ _ hattrs
          refine ⟨p0 ++ '<' :: (p1 ++ p2), by simp [hp0, hp1, hp2], by simp, ?_⟩
          cases good' with
          | false => exact Or.inr (hb2 rfl)
          | true =>
            left
            have := hl2 rfl
            rw [List.getLast?_append, List.getLast?_cons, List.getLast?_append, this]
            rfl
      · rename_i hg
        injection h with h
        subst h
        exact ⟨p0 ++ '<' :: p1, by simp [hp0, hp1], by simp, Or.inr (hbad (by simpa using hg))⟩

example : ∃ r, xmlParse "<a b=\"c\"/> 7".toList = .ok r ∧ r.rest = " 7".toList :=
  ⟨⟨⟨"a".toList, [("b".toList, "c".toList)]⟩, " 7".toList, true, true⟩, by decide +kernel, rfl⟩

end VG
