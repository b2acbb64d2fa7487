import Mathlib.Analysis.SpecialFunctions.Complex.Arg
import Mathlib.Data.Fin.VecNotation

/-!
Polar, cylindrical and spherical coordinates (point.hpp).  Coordinates are real numbers (`double` in the code), so
round-off and signed zeros are not modelled.
-/

namespace VG

/-- `atan2(y, x)`; `atan2(0, 0)` is 0 as in the standard library.
Standard library; used in point.hpp:118, 134, 149. -/
noncomputable def atan2 (y x : ℝ) : ℝ := Complex.arg ⟨x, y⟩

/-- Conversion from Cartesian to polar coordinates.  point.hpp:108-121. -/
noncomputable def cartesianToPolar (p : Fin 2 → ℝ) : Fin 2 → ℝ := ![√(p 0 * p 0 + p 1 * p 1), atan2 (p 1) (p 0)]

/-- Conversion from Cartesian to spherical coordinates.  point.hpp:123-137. -/
noncomputable def cartesianToSpherical (p : Fin 3 → ℝ) : Fin 3 → ℝ :=
  let r := √(p 0 * p 0 + p 1 * p 1 + p 2 * p 2)
  ![r, if |r| > 0 then Real.arccos (p 2 / r) else 0, atan2 (p 1) (p 0)]

/-- Conversion from Cartesian to cylindrical coordinates.  point.hpp:139-153. -/
noncomputable def cartesianToCylindrical (p : Fin 3 → ℝ) : Fin 3 → ℝ :=
  ![√(p 0 * p 0 + p 1 * p 1), atan2 (p 1) (p 0), p 2]

/-- Conversion from polar to Cartesian coordinates.  point.hpp:179-192. -/
noncomputable def polarToCartesian (p : Fin 2 → ℝ) : Fin 2 → ℝ := ![p 0 * Real.cos (p 1), p 0 * Real.sin (p 1)]

/-- Conversion from spherical to Cartesian coordinates.  point.hpp:195-209. -/
noncomputable def sphericalToCartesian (p : Fin 3 → ℝ) : Fin 3 → ℝ :=
  ![p 0 * Real.sin (p 1) * Real.cos (p 2), p 0 * Real.sin (p 1) * Real.sin (p 2), p 0 * Real.cos (p 1)]

/-- Conversion from spherical to cylindrical coordinates.  point.hpp:211-225. -/
noncomputable def sphericalToCylindrical (p : Fin 3 → ℝ) : Fin 3 → ℝ :=
  ![p 0 * Real.sin (p 1), p 2, p 0 * Real.cos (p 1)]

/-- Conversion from cylindrical to Cartesian coordinates.  point.hpp:228-242. -/
noncomputable def cylindricalToCartesian (p : Fin 3 → ℝ) : Fin 3 → ℝ :=
  ![p 0 * Real.cos (p 1), p 0 * Real.sin (p 1), p 2]

/-- Conversion from cylindrical to spherical coordinates.  point.hpp:244-258. -/
noncomputable def cylindricalToSpherical (p : Fin 3 → ℝ) : Fin 3 → ℝ :=
  let r := √(p 0 * p 0 + p 2 * p 2)
  ![r, if |r| > 0 then Real.arccos (p 2 / r) else 0, p 1]

/-- A coordinate system other than the Cartesian: its conversions (the template parameter `CSystem` of `cs_base`) and
its `inplace_stretch`.  point.hpp:357-501. -/
structure CoordSystem (d : Nat) where
  /-- `coordinate_converter<.., CSystem, cartesian_cs<DIM> >` -/
  toCart : (Fin d → ℝ) → Fin d → ℝ
  /-- `coordinate_converter<.., cartesian_cs<DIM>, CSystem>` -/
  fromCart : (Fin d → ℝ) → Fin d → ℝ
  /-- `CSystem::inplace_stretch` -/
  stretch : (Fin d → ℝ) → ℝ → Fin d → ℝ

namespace CoordSystem
variable {d : Nat} (C : CoordSystem d)

/-- `cs_base::add` and `inplace_add`.  point.hpp:362-406. -/
def add (p q : Fin d → ℝ) : Fin d → ℝ := C.fromCart (C.toCart p + C.toCart q)

/-- `cs_base::subtract` and `inplace_subtract`.  point.hpp:408-449. -/
def sub (p q : Fin d → ℝ) : Fin d → ℝ := C.fromCart (C.toCart p - C.toCart q)

/-- Unary minus: the default constructed point has all coordinates 0.  point.hpp:594-598, 627-630. -/
def neg (p : Fin d → ℝ) : Fin d → ℝ := C.sub 0 p

/-- `operator*` and `operator*=`.  point.hpp:662-666, 676-680. -/
def mul (p : Fin d → ℝ) (f : ℝ) : Fin d → ℝ := C.stretch p f

/-- `operator/` and `operator/=`.  point.hpp:669-673, 683-687. -/
noncomputable def div (p : Fin d → ℝ) (f : ℝ) : Fin d → ℝ := C.stretch p (1.0 / f)

end CoordSystem

/-- `polar_cs`.  point.hpp:453-463. -/
noncomputable def polarCs : CoordSystem 2 where
  toCart := polarToCartesian
  fromCart := cartesianToPolar
  stretch p f := ![p 0 * f, p 1]

/-- `spherical_cs`.  point.hpp:466-476. -/
noncomputable def sphericalCs : CoordSystem 3 where
  toCart := sphericalToCartesian
  fromCart := cartesianToSpherical
  stretch p f := ![p 0 * f, p 1, p 2]

/-- `cylindrical_cs`.  point.hpp:479-501. -/
noncomputable def cylindricalCs : CoordSystem 3 where
  toCart := cylindricalToCartesian
  fromCart := cartesianToCylindrical
  stretch p f := cartesianToCylindrical (f • cylindricalToCartesian p)

end VG
