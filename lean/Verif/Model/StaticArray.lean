/-!
`viennagrid::static_array`, the array of fixed length below points, the vertex handles of elements and the vertices
handed to `make_element`.  storage/static_array.hpp:27-333.

An array of `n` entries of type `α` is a function `Fin n → α`; `n` is positive, since C++ has no arrays of length zero.
An iterator is the position it points to, from 0 to `n`, where `n` is the position behind the last entry.  Reading or
moving outside of the array, which C++ leaves undefined, gives `none`.  The operators of `const_iterator` have the same
text as those of `iterator`, storage/static_array.hpp:124-196; they are modelled once.
-/

namespace VG
namespace StaticArray

variable {α : Type}

/-- `operator*` of the iterators: the entry at the position.  storage/static_array.hpp:82. -/
def deref {n : Nat} (x : Fin n → α) (p : Nat) : Option α := if h : p < n then some (x ⟨p, h⟩) else none

/-- `operator+=(long)` and, with the same effect on a copy, `operator+(long)`.  storage/static_array.hpp:110,113.
`++` and `--` are the steps by one, storage/static_array.hpp:86-90. -/
def move (n p : Nat) (diff : Int) : Option Nat :=
  if 0 ≤ (p : Int) + diff ∧ (p : Int) + diff ≤ n then some ((p : Int) + diff).toNat else none

/-- `operator-=(long)` and `operator-(long)`.  storage/static_array.hpp:111,114. -/
def moveBack (n p : Nat) (diff : Int) : Option Nat :=
  if 0 ≤ (p : Int) - diff ∧ (p : Int) - diff ≤ n then some ((p : Int) - diff).toNat else none

/-- `operator++(int)`: a copy of the iterator is returned, then the iterator is moved (the pair of the returned
and of the moved iterator).  storage/static_array.hpp:87. -/
def postIncrement (n p : Nat) : Option (Nat × Nat) := (move n p 1).map fun q => (p, q)

/-- `operator--(int)`.  storage/static_array.hpp:90. -/
def postDecrement (n p : Nat) : Option (Nat × Nat) := (moveBack n p 1).map fun q => (p, q)

/-- `operator-` of two iterators: the difference of the pointers is converted to `difference_type`, which is
`std::size_t` (64 bits).  storage/static_array.hpp:57,93-94. -/
def difference (p q : Nat) : BitVec 64 := BitVec.ofInt 64 ((p : Int) - (q : Int))

/-- The conversion of a `std::size_t` to `long`, the argument of `operator+` (64 bits, two's complement).
storage/static_array.hpp:110-114. -/
def toLong (b : BitVec 64) : Int := b.toInt

/-- The entries seen by `for (it = from; it != end(); ++it) … *it …`: the loop of the algorithms of the standard
library which are used, with at most `fuel` rounds.  storage/static_array.hpp:199-205 for `begin` and `end`. -/
def walk {n : Nat} (x : Fin n → α) : Nat → Nat → Option (List α)
  | 0, _ => none
  | fuel + 1, p =>
    if p = n then some []
    else do
      let a ← deref x p
      let q ← move n p 1
      let rest ← walk x fuel q
      pure (a :: rest)

/-- The entries from `begin()` to `end()`.  storage/static_array.hpp:199-205. -/
def entries {n : Nat} (x : Fin n → α) : Option (List α) := walk x (n + 1) 0

/-- `for (it = rbegin(); it != rend(); ++it) … *it …`: a `std::reverse_iterator` at position `p` reads the entry before
its base and moves the base back.  storage/static_array.hpp:211-225. -/
def walkBack {n : Nat} (x : Fin n → α) : Nat → Nat → Option (List α)
  | 0, _ => none
  | fuel + 1, p =>
    if p = 0 then some []
    else do
      let q ← moveBack n p 1
      let a ← deref x q
      let rest ← walkBack x fuel q
      pure (a :: rest)

/-- The entries from `rbegin()` to `rend()`.  storage/static_array.hpp:211-225. -/
def entriesBack {n : Nat} (x : Fin n → α) : Option (List α) := walkBack x (n + 1) n

/-- `std::equal` from position `p` on: the loop stops at the first pair of entries which differ.
storage/static_array.hpp:305. -/
def equalFrom [DecidableEq α] {n : Nat} (x y : Fin n → α) (p : Nat) : Bool :=
  if h : p < n then
    if x ⟨p, h⟩ = y ⟨p, h⟩ then equalFrom x y (p + 1) else false
  else true
termination_by n - p

/-- `operator==`.  storage/static_array.hpp:304-306. -/
def equal [DecidableEq α] {n : Nat} (x y : Fin n → α) : Bool := equalFrom x y 0

/-- `std::lexicographical_compare` from position `p` on, for two arrays of the same length.
storage/static_array.hpp:309. -/
def lessFrom [LT α] [DecidableLT α] {n : Nat} (x y : Fin n → α) (p : Nat) : Bool :=
  if h : p < n then
    if x ⟨p, h⟩ < y ⟨p, h⟩ then true
    else if y ⟨p, h⟩ < x ⟨p, h⟩ then false
    else lessFrom x y (p + 1)
  else false
termination_by n - p

/-- `operator<`.  storage/static_array.hpp:308-310. -/
def less [LT α] [DecidableLT α] {n : Nat} (x y : Fin n → α) : Bool := lessFrom x y 0

/-- `operator!=`.  storage/static_array.hpp:312-314. -/
def unequal [DecidableEq α] {n : Nat} (x y : Fin n → α) : Bool := !equal x y

/-- `operator>`.  storage/static_array.hpp:316-318. -/
def greater [LT α] [DecidableLT α] {n : Nat} (x y : Fin n → α) : Bool := less y x

/-- `operator<=`.  storage/static_array.hpp:320-322. -/
def lessEq [LT α] [DecidableLT α] {n : Nat} (x y : Fin n → α) : Bool := !less y x

/-- `operator>=`.  storage/static_array.hpp:324-326. -/
def greaterEq [LT α] [DecidableLT α] {n : Nat} (x y : Fin n → α) : Bool := !less x y

/-- Assignment to one entry, `elements_[i] = a`.  storage/static_array.hpp:30,231. -/
def put {n : Nat} (x : Fin n → α) (i : Nat) (a : α) : Fin n → α := fun j => if j.val = i then a else x j

/-- `swap`: the entries are exchanged one after the other, from entry `i` on (`std::swap` of two entries).
storage/static_array.hpp:274-277. -/
def swapFrom {n : Nat} (x y : Fin n → α) (i : Nat) : (Fin n → α) × (Fin n → α) :=
  if h : i < n then swapFrom (put x i (y ⟨i, h⟩)) (put y i (x ⟨i, h⟩)) (i + 1) else (x, y)
termination_by n - i

/-- `swap`.  storage/static_array.hpp:274-277,330-333. -/
def swap {n : Nat} (x y : Fin n → α) : (Fin n → α) × (Fin n → α) := swapFrom x y 0

/-- `std::fill_n(begin(), k, value)`, from entry `i` on; writing behind the array is undefined.
storage/static_array.hpp:297. -/
def fillN {n : Nat} (x : Fin n → α) (i : Nat) (a : α) : Nat → Option (Fin n → α)
  | 0 => some x
  | k + 1 => if i < n then fillN (put x i a) (i + 1) a k else none

/-- `fill` and `assign`.  storage/static_array.hpp:294-298; `size()` is `n`, storage/static_array.hpp:266. -/
def fill {n : Nat} (x : Fin n → α) (a : α) : Option (Fin n → α) := fillN x 0 a n

/-- `std::copy(rhs.begin(), rhs.end(), begin())` from entry `i` on: the assignment with conversion `f` of the entries.
storage/static_array.hpp:289. -/
def copyFrom {β : Type} {n : Nat} (f : β → α) (x : Fin n → α) (rhs : Fin n → β) (i : Nat) : Fin n → α :=
  if h : i < n then copyFrom f (put x i (f (rhs ⟨i, h⟩))) rhs (i + 1) else x
termination_by n - i

/-- `operator=` from an array with entries of another type.  storage/static_array.hpp:287-291. -/
def assignFrom {β : Type} {n : Nat} (f : β → α) (x : Fin n → α) (rhs : Fin n → β) : Fin n → α := copyFrom f x rhs 0

/-- `operator[]` and `at`: an assertion stops the program for positions outside of the array (`none`).
storage/static_array.hpp:228-242. -/
def get {n : Nat} (x : Fin n → α) (i : Nat) : Option α := if h : i < n then some (x ⟨i, h⟩) else none

/-- `front`.  storage/static_array.hpp:245-253. -/
def front {n : Nat} (x : Fin n → α) : Option α := get x 0

/-- `back`.  storage/static_array.hpp:255-263. -/
def back {n : Nat} (x : Fin n → α) : Option α := get x (n - 1)

/-- The default constructor: every entry is `T()`.  storage/static_array.hpp:45-49. -/
def init (n : Nat) (a : α) : Fin n → α := fun _ => a

end StaticArray
end VG
