/-!
`xml_tag` (io/xml_tag.hpp), the parser for tags of VTK files.

A stream is the list of the characters left to read and the flag `good()`; reading at the end clears the flag and leaves
the variable unchanged, as the standard library does.
-/

namespace VG

/-- `make_lower`.  io/xml_tag.hpp:239-245. -/
def lowerChar (c : Char) : Char := if 'A' ≤ c ∧ c ≤ 'Z' then Char.ofNat (c.toNat + 32) else c

/-- A parsed tag: `name_` and `attributes_`.  io/xml_tag.hpp:73, 247-248. -/
structure XmlTag where
  name : List Char
  attrs : List (List Char × List Char)
  deriving DecidableEq

/-- What `parse` throws.  io/xml_tag.hpp:138, 142, 151. -/
inductive XmlError where
  /-- `bad_file_format_exception` -/
  | badFormat
  /-- `std::length_error`, thrown by `resize` for an empty name -/
  | length
  deriving DecidableEq

/-- What `parse` leaves behind: the tag, the rest of the stream, `good()` and the flag `skipws` of the stream.
io/xml_tag.hpp:81-166. -/
structure XmlResult where
  tag : XmlTag
  rest : List Char
  good : Bool
  skipws : Bool
  deriving DecidableEq

/-- "go to start of tag": the rest of the stream after the first `<`, if there is one.  io/xml_tag.hpp:87-91. -/
def xmlStart : List Char → Option (List Char)
  | [] => none
  | x :: xs => if x = '<' then some xs else xmlStart xs

/-- "read tag name": the name with the terminating character, that character, the rest of the stream and `good()`; `c`
is the character read last.  io/xml_tag.hpp:93-98. -/
def xmlName (c : Char) (name : List Char) : List Char → List Char × Char × List Char × Bool
  | [] => (name ++ [lowerChar c], c, [], false)
  | x :: xs =>
    if x ≠ ' ' ∧ x ≠ '>' then xmlName x (name ++ [lowerChar x]) xs
    else (name ++ [lowerChar x], x, xs, true)

/-- The end of an attribute: the token is taken apart at the first `=` and the last `"`.
io/xml_tag.hpp:135-156. -/
def xmlAttr (token : List Char) : Except XmlError (List Char × List Char) :=
  if '=' ∈ token then
    let pos := token.idxOf '='
    if pos = 0 then .error .badFormat
    else
      let name := token.take pos
      let value := token.drop (pos + 2)
      -- `rfind`: the distance of the last quote from the end
      if '"' ∈ value then
        let pos := value.length - 1 - value.reverse.idxOf '"'
        if pos = 0 then .error .badFormat
        else .ok (name, value.take pos)
      else .error .badFormat
  else .error .badFormat

/-- The body of the loop over the attributes for the character `c`: the token, whether inside of a string, and the
attributes found.  io/xml_tag.hpp:116-162. -/
def xmlStep (c : Char) (token : List Char) (inside : Bool) (attrs : List (List Char × List Char)) :
    Except XmlError (List Char × Bool × List (List Char × List Char)) :=
  let endOfAttribute := inside && c == '"'
  let inside := inside || c == '"'
  let token := if inside then token ++ [c] else if c ≠ ' ' then token ++ [lowerChar c] else token
  if endOfAttribute then
    match xmlAttr token with
    | .error e => .error e
    | .ok a => .ok ([], false, attrs ++ [a])
  else .ok (token, inside, attrs)

/-- "get attributes": the attributes, the rest of the stream and `good()`; `c` is the character read last.
io/xml_tag.hpp:110-163. -/
def xmlAttrs (c : Char) (token : List Char) (inside : Bool) (attrs : List (List Char × List Char)) :
    List Char → Except XmlError (List (List Char × List Char) × List Char × Bool)
  | [] =>
    match xmlStep c token inside attrs with
    | .error e => .error e
    | .ok (_, _, attrs) => .ok (attrs, [], false)
  | x :: xs =>
    match xmlStep x token inside attrs with
    | .error e => .error e
    | .ok (token, inside, attrs) =>
      if x = '>' then .ok (attrs, xs, true) else xmlAttrs x token inside attrs xs

/-- `xml_tag::parse` for a stream with `good()`.  io/xml_tag.hpp:81-166. -/
def xmlParse (input : List Char) : Except XmlError XmlResult :=
  match xmlStart input with
  | none => .error .length
  | some rest =>
    let (name, c, rest, good) := xmlName '<' [] rest
    let name := name.dropLast
    if c = '>' then .ok ⟨⟨name, []⟩, rest, good, false⟩
    else if good then
      match xmlAttrs c [] false [] rest with
      | .error e => .error e
      | .ok (attrs, rest, good) => .ok ⟨⟨name, attrs⟩, rest, good, true⟩
    else .ok ⟨⟨name, []⟩, rest, good, true⟩

/-- `xml_tag::has_attribute`.  io/xml_tag.hpp:193-204. -/
def XmlTag.hasAttribute (t : XmlTag) (a : List Char) : Bool := t.attrs.any fun p => p.1 == a

/-- `xml_tag::get_value`.  io/xml_tag.hpp:218-229. -/
def XmlTag.getValue (t : XmlTag) (a : List Char) : List Char :=
  match t.attrs.find? fun p => p.1 == a with
  | some p => p.2
  | none => []

end VG
