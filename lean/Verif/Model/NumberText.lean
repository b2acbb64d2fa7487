import Verif.Model.VtkText
import Mathlib.Data.Int.Log
import Mathlib.Data.Rat.Floor

/-!
What becomes of a number which is written to a file and read again: it is rounded to 15 decimal digits, the decimal number
to the next `double`.
-/

namespace VG

/-- The next whole number, the even one of two.  This is the rounding of `std::ostream` and of `strtod` of the standard
library, which io/helper.hpp:47-48 and io/vtk_reader.hpp:244 rely on. -/
def nearestInt (q : ℚ) : ℤ :=
  if q - ⌊q⌋ < 1 / 2 then ⌊q⌋ else if 1 / 2 < q - ⌊q⌋ then ⌊q⌋ + 1 else if ⌊q⌋ % 2 = 0 then ⌊q⌋ else ⌊q⌋ + 1

/-- The value of the last of `p` digits of `x` in the number system with base `b`.  io/helper.hpp:47-48. -/
def lastPlace (b p : Nat) (x : ℚ) : ℚ := (b : ℚ) ^ (Int.log b |x| + 1 - p)

/-- The number `x` with `p` digits.  With base 10 this is the number whose text is written after
`writer.precision(p)`; with base 2 and 53 digits the `double` which is read for the number `x`.  Simplified: no
overflow and no subnormal numbers.  io/helper.hpp:47-48, 65-66, 83-84, io/vtk_reader.hpp:244. -/
def roundTo (b p : Nat) (x : ℚ) : ℚ := nearestInt (x / lastPlace b p x) * lastPlace b p x

/-- The number whose text is written for `x`.  `digits10` of `double` is 15.  io/helper.hpp:47-48. -/
def written (x : ℚ) : ℚ := roundTo 10 15 x

/-- The `double` which is read for the number of a text.  io/vtk_reader.hpp:244. -/
def asDouble (x : ℚ) : ℚ := roundTo 2 53 x

/-- The `double` which is read after `x` was written.  io/helper.hpp:47-48, io/vtk_reader.hpp:244. -/
def saved (x : ℚ) : ℚ := asDouble (written x)

/-! ### The text -/

/-- The digits without the zeros at the end, which `operator<<` omits.  io/helper.hpp:47-48. -/
def stripZeros (ds : List Char) : List Char := (ds.reverse.dropWhile (· == '0')).reverse

/-- The digits after the point; no point without digits.  io/helper.hpp:47-48. -/
def afterPoint (ds : List Char) : List Char := if ds = [] then [] else '.' :: ds

/-- The exponent, with a sign and at least two digits.  io/helper.hpp:47-48. -/
def exponentText (e : ℤ) : List Char :=
  'e' :: (if e < 0 then '-' else '+') ::
    (if (natText e.natAbs).length < 2 then '0' :: natText e.natAbs else natText e.natAbs)

/-- The text of a number with the default format and precision `p`: at most `p` digits, with an exponent if it is less
than -4 or at least `p`.  Simplified: no negative zero, no infinity and no NaN.  io/helper.hpp:47-48, 65-66, 83-84. -/
def decimalText (p : Nat) (x : ℚ) : List Char :=
  let m := (nearestInt (x / lastPlace 10 p x)).natAbs
  let s := stripZeros (natText m)
  let e : ℤ := Int.log 10 |x| + 1 - p + (natText m).length - 1
  (if x < 0 then ['-'] else []) ++
    if m = 0 then ['0']
    else if e < -4 ∨ p ≤ e then s.take 1 ++ (afterPoint (s.drop 1) ++ exponentText e)
    else if e < 0 then '0' :: afterPoint (List.replicate (-e - 1).toNat '0' ++ s)
    else (s ++ List.replicate (e + 1 - s.length).toNat '0').take (e + 1).toNat ++ afterPoint (s.drop (e + 1).toNat)

/-- The text of a coordinate or value; `digits10` of `double` is 15.  The precision of the stream remains set when the
values are written after the points.  io/helper.hpp:47-48, 65-66, 83-84, io/vtk_writer.hpp:247, 420-432. -/
def coordText (x : ℚ) : List Char := decimalText 15 x

/-- The number with the digits `a` in front of the point and `b` behind, times a power of ten.
io/vtk_reader.hpp:244. -/
def decimalValue (a b : List Char) (e : ℤ) : ℚ := Nat.ofDigitChars 10 (a ++ b) 0 * (10 : ℚ) ^ (e - b.length)

/-- What follows the digits: nothing or an exponent.  Simplified: exponents have a sign, as in all written texts.
io/vtk_reader.hpp:244. -/
def readExponent (a b : List Char) : List Char → Option ℚ
  | [] => some (decimalValue a b 0)
  | 'e' :: '-' :: s => if s ≠ [] ∧ isNumber s then some (decimalValue a b (-(Nat.ofDigitChars 10 s 0 : ℤ))) else none
  | 'e' :: '+' :: s => if s ≠ [] ∧ isNumber s then some (decimalValue a b (Nat.ofDigitChars 10 s 0)) else none
  | _ => none

/-- The number of a text without sign.  io/vtk_reader.hpp:244. -/
def readUnsigned (t : List Char) : Option ℚ :=
  let a := t.takeWhile Char.isDigit
  let r := t.dropWhile Char.isDigit
  let b := if r.head? = some '.' then r.tail.takeWhile Char.isDigit else []
  let r := if r.head? = some '.' then r.tail.dropWhile Char.isDigit else r
  if a ++ b = [] then none else readExponent a b r

/-- `reader >> x`: the number of a text as `double`.  io/vtk_reader.hpp:244. -/
def readNumber : List Char → Option ℚ
  | '-' :: t => (readUnsigned t).map fun x => asDouble (-x)
  | t => (readUnsigned t).map asDouble

end VG
