import Mathlib.Data.List.Basic

/-!
Typelists and typemaps (meta/typelist.hpp, meta/typemap.hpp, config/config.hpp): the lists of element types and the maps
of configurations, on which the element types of a mesh, its containers and views are computed at compile time.

A type is an element of `α`; two types are the same type iff they are equal.  A typelist is a list.  A template without
a member `type`, or with a failed `STATIC_ASSERT`, is a compile error and modelled as `none`.
-/

namespace VG

variable {α β : Type} [DecidableEq α]

/-- `size`.  meta/typelist.hpp:87-100. -/
def tlSize : List α → Int
  | [] => 0
  | _ :: t => 1 + tlSize t

/-- `at`: the type at an index, `none` is the type `out_of_range`.  meta/typelist.hpp:103-120. -/
def tlAt : List α → Int → Option α
  | [], _ => none
  | h :: t, i => if i = 0 then some h else tlAt t (i - 1)

/-- `index_of`: -1 if the type is not in the list.  meta/typelist.hpp:124-146. -/
def tlIndexOf : List α → α → Int
  | [], _ => -1
  | h :: t, x => if h = x then 0 else if tlIndexOf t x = -1 then -1 else 1 + tlIndexOf t x

/-- `push_back` of a type other than `null_type`.  meta/typelist.hpp:150-169. -/
def tlPushBack : List α → α → List α
  | [], x => [x]
  | h :: t, x => h :: tlPushBack t x

/-- `push_back_list`.  meta/typelist.hpp:173-198. -/
def tlPushBackList : List α → List α → List α
  | [], l => l
  | h :: t, [] => h :: t
  | h :: t, x :: l => tlPushBackList (tlPushBack (h :: t) x) l
termination_by _ l => l.length

/-- `erase_at`.  meta/typelist.hpp:202-222. -/
def tlEraseAt : List α → Int → List α
  | [], _ => []
  | h :: t, i => if i = 0 then t else h :: tlEraseAt t (i - 1)

/-- `erase`.  meta/typelist.hpp:226-245. -/
def tlErase : List α → α → List α
  | [], _ => []
  | h :: t, x => if h = x then t else h :: tlErase t x

/-- `erase_all`.  meta/typelist.hpp:248-270. -/
def tlEraseAll : List α → α → List α
  | [], _ => []
  | h :: t, x => if h = x then tlEraseAll t x else h :: tlEraseAll t x

/-- `reverse`: the last type in front of the reversed rest.  meta/typelist.hpp:274-301.  The recursion is limited by
`n`, which is the size of the list. -/
def tlReverseN : Nat → List α → List (Option α)
  | 0, _ => []
  | _, [] => []
  | n + 1, h :: t =>
    tlAt (h :: t) (tlSize (h :: t) - 1) :: tlReverseN n (tlEraseAt (h :: t) (tlSize (h :: t) - 1))

/-- See `tlReverseN`.  meta/typelist.hpp:274-301. -/
def tlReverse (l : List α) : List (Option α) := tlReverseN l.length l

/-- `no_duplicates`.  meta/typelist.hpp:305-322. -/
def tlNoDuplicates : List α → List α
  | [] => []
  | h :: t => h :: tlErase (tlNoDuplicates t) h

/-- `replace_at`; for the index -1 there is no list left.  meta/typelist.hpp:325-356. -/
def tlReplaceAt : List α → Int → α → List α
  | [], _, _ => []
  | h :: t, i, x => if i = -1 then [] else if i = 0 then x :: t else h :: tlReplaceAt t (i - 1) x

/-- `replace`.  meta/typelist.hpp:358-377. -/
def tlReplace : List α → α → α → List α
  | [], _, _ => []
  | h :: t, x, y => if h = x then y :: t else h :: tlReplace t x y

/-- `replace_all`.  meta/typelist.hpp:380-399. -/
def tlReplaceAll : List α → α → α → List α
  | [], _, _ => []
  | h :: t, x, y => if h = x then y :: tlReplaceAll t x y else h :: tlReplaceAll t x y

/-- `intersection`.  meta/typelist.hpp:403-447. -/
def tlIntersection : List α → List α → List α
  | [], _ => []
  | _ :: _, [] => []
  | h :: t, x :: l =>
    if 0 ≤ tlIndexOf (x :: l) h then h :: tlIntersection t (tlEraseAt (x :: l) (tlIndexOf (x :: l) h))
    else tlIntersection t (x :: l)

/-! ### Typemaps: lists of pairs of key and value -/

/-- `index_of` of a key.  meta/typemap.hpp:46-60. -/
def tmIndexOf : List (α × β) → α → Int
  | [], _ => -1
  | p :: t, x => if p.1 = x then 0 else if tmIndexOf t x = -1 then -1 else 1 + tmIndexOf t x

/-- `find`; `none` is the type `not_found`.  meta/typemap.hpp:62-83. -/
def tmFind : List (α × β) → α → Option (α × β)
  | [], _ => none
  | p :: t, x => if p.1 = x then some p else tmFind t x

/-- `lookup`; `none` is the type `not_found`.  meta/typemap.hpp:30-41, 87-94. -/
def tmLookup (m : List (α × β)) (x : α) : Option β := (tmFind m x).map (·.2)

/-- `push_back` of a pair.  meta/typelist.hpp:150-169. -/
def tmPushBack : List (α × β) → α × β → List (α × β)
  | [], p => [p]
  | h :: t, p => h :: tmPushBack t p

/-- `replace_at` for pairs.  meta/typelist.hpp:325-356. -/
def tmReplaceAt : List (α × β) → Int → α × β → List (α × β)
  | [], _, _ => []
  | h :: t, i, p => if i = -1 then [] else if i = 0 then p :: t else h :: tmReplaceAt t (i - 1) p

/-- `erase_at` for pairs.  meta/typelist.hpp:202-222. -/
def tmEraseAt : List (α × β) → Int → List (α × β)
  | [], _ => []
  | h :: t, i => if i = 0 then t else h :: tmEraseAt t (i - 1)

/-- `insert` of a pair; a key which is present is a compile error.  meta/typemap.hpp:96-130. -/
def tmInsert : List (α × β) → α × β → Option (List (α × β))
  | [], p => some [p]
  | h :: t, p => if tmFind (h :: t) p.1 = none then some (tmPushBack (h :: t) p) else none

/-- `modify`; a key which is not present is a compile error.  meta/typemap.hpp:134-167. -/
def tmModify : List (α × β) → α × β → Option (List (α × β))
  | [], _ => none
  | h :: t, p =>
    if tmIndexOf (h :: t) p.1 ≠ -1 then some (tmReplaceAt (h :: t) (tmIndexOf (h :: t) p.1) p) else none

/-- `insert_or_modify`.  meta/typemap.hpp:170-200. -/
def tmInsertOrModify : List (α × β) → α × β → List (α × β)
  | [], p => [p]
  | h :: t, p =>
    if tmIndexOf (h :: t) p.1 = -1 then tmPushBack (h :: t) p
    else tmReplaceAt (h :: t) (tmIndexOf (h :: t) p.1) p

/-- `erase` of a key; a key which is not present is a compile error, except for the empty map.
meta/typemap.hpp:204-219, meta/typelist.hpp:229-233. -/
def tmErase : List (α × β) → α → Option (List (α × β))
  | [], _ => some []
  | h :: t, x => if tmIndexOf (h :: t) x ≠ -1 then some (tmEraseAt (h :: t) (tmIndexOf (h :: t) x)) else none

/-- What to do with a key which is in both maps: `merge_helper_error`, `merge_helper_ignore`, `merge_helper_overwrite`.
meta/typemap.hpp:222-249. -/
inductive MergeMode where
  | error
  | ignore
  | overwrite
deriving DecidableEq

/-- The pair which is inserted for a pair of the second map and what was found for its key in the first.
meta/typemap.hpp:222-249. -/
def mergeHelper : MergeMode → α × β → Option (α × β) → Option (α × β)
  | _, p, none => some p
  | .error, _, some _ => none
  | .ignore, _, some q => some q
  | .overwrite, p, some _ => some p

/-- `merge_impl`; `merge`, `merge_ignore`, `merge_overwrite` are its three modes.  meta/typemap.hpp:252-313. -/
def tmMerge (mode : MergeMode) : List (α × β) → List (α × β) → Option (List (α × β))
  | [], l => some l
  | h :: t, [] => some (h :: t)
  | h :: t, p :: l =>
    match mergeHelper mode p (tmFind (h :: t) p.1) with
    | none => none
    | some q => tmMerge mode (tmInsertOrModify (h :: t) q) l
termination_by _ l => l.length

/-- `consistency`: a key which occurs twice is a compile error.  meta/typemap.hpp:316-342. -/
def tmConsistency : List (α × β) → Option (List (α × β))
  | [] => some []
  | p :: t => if tmFind t p.1 = none then (tmConsistency t).map (p :: ·) else none

/-- `key_typelist`.  meta/typemap.hpp:346-359. -/
def tmKeys : List (α × β) → List α
  | [] => []
  | p :: t => p.1 :: tmKeys t

/-- `value_typelist`: the tail is the `key_typelist` of the tail.  meta/typemap.hpp:364-377. -/
def tmValues : List (α × α) → List α
  | [] => []
  | p :: t => p.2 :: tmKeys t

/-- A configuration: a typemap whose values are configurations, or another type.  Structs which wrap a typemap as their
member `type` are identified with it.  config/config.hpp:57-82. -/
inductive Cfg (α : Type) where
  | type (t : α)
  | map (m : List (α × Cfg α))

/-- `query`: the value is looked up for the first tag, and the next tag in that value; the default if a tag is not found
or if there are no tags.  A value which is no map, or the empty map (`null_type`), has no member `type`: a compile
error.  The limit of ten tags is left out.  config/config.hpp:73-133. -/
def cfgQuery (dflt : Cfg α) : Cfg α → List α → Option (Cfg α)
  | .type _, _ => none
  | .map [], _ => none
  | .map (_ :: _), [] => some dflt
  | .map (p :: m), [x] => some ((tmLookup (p :: m) x).getD dflt)
  | .map (p :: m), x :: y :: tags =>
    match tmLookup (p :: m) x with
    | none => some dflt
    | some c => cfgQuery dflt c (y :: tags)
termination_by _ tags => tags.length

end VG
