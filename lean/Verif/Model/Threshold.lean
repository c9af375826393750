import Verif.Model.Go
import Mathlib.Data.Int.Log
import Mathlib.Data.Rat.Floor

/-!
# conversion.GetThreshold

The Go expression `int(math.Ceil(float64(value)*2.0/3.0)) - 1` is modelled operation by operation with IEEE-754 binary64
rounding (round to nearest, ties to even, 53 bit significand). Not modelled: subnormals and overflow to infinity, which
cannot occur for the values considered (the operands are 0 or lie in [2/3, 2^64]).
-/
namespace Verif.Threshold
open Verif.Go

/-- Round a rational to the nearest integer, ties to even (IEEE-754 `roundTiesToEven` of a scaled significand). -/
def roundNE (x : ℚ) : ℤ :=
  let f := ⌊x⌋
  if x - f < 1 / 2 then f
  else if 1 / 2 < x - f then f + 1
  else if f % 2 = 0 then f else f + 1

/-- Unit in the last place of a binary64 number of the magnitude of `q > 0` (53 bit significand). -/
def ulp (q : ℚ) : ℚ := (2 : ℚ) ^ (Int.log 2 q - 52)

/-- Correctly rounded binary64 value of a non-negative rational. -/
def fl (q : ℚ) : ℚ := if q = 0 then 0 else (roundNE (q / ulp q) : ℚ) * ulp q

/-- conversion/conversion.go:179-185 `GetThreshold`:
`float64(value)` rounds, `* 2.0` rounds, `/ 3.0` rounds, `math.Ceil` is exact, `int(..)` of an integral float is exact. -/
def GetThreshold (value : ℤ) : Res ℤ :=
  if value < 0 then .err "negative input"
  else .ok (⌈fl (fl (fl (value : ℚ) * 2) / 3)⌉ - 1)

end Verif.Threshold
