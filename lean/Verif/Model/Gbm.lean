import Mathlib.Algebra.Order.Ring.Rat
import Verif.Model.Float

/-!
# Geometric Brownian motion: `generate_gbm_paths` and `GBMData`, `vectorbt/data/custom.py`

One path; the paths of several columns have the same text with a draw of their own each.  The factor of a step,
`exp((mu - sigma ** 2 / 2) * dt + sigma * sqrt(dt) * draw)`, is a parameter `growth dt draw`, and the draws are an argument.
-/

namespace Vbt

/-- The loop of `generate_gbm_paths`, data/custom.py:91-93, without the first row. -/
def gbmSteps (factor : ℚ → ℚ) (s : ℚ) : List ℚ → List ℚ
  | [] => []
  | z :: zs => s * factor z :: gbmSteps factor (s * factor z) zs

/-- `generate_gbm_paths`, data/custom.py:73-94, with as many steps as draws. -/
def gbmPaths (growth : ℚ → ℚ → ℚ) (s0 T : ℚ) (draws : List ℚ) : List ℚ :=
  s0 :: gbmSteps (growth (T / draws.length)) s0 draws

/-- `GBMData.generate_symbol`, data/custom.py:133-167: the first row is dropped and `T` defaults to the number of rows. -/
def gbmGenerate (growth : ℚ → ℚ → ℚ) (s0 : ℚ) (T : Option ℚ) (draws : List ℚ) : List ℚ :=
  (gbmPaths growth s0 (T.getD draws.length) draws).drop 1

/-- `GBMData.update_symbol`, data/custom.py:169-180, and `Data.update`: the last row and those after it are generated from the row
before the last (`iloc[-2]`), without the period `T` of the download, and replace the last row. -/
def gbmUpdate (growth : ℚ → ℚ → ℚ) (data draws : List ℚ) : Except Err (List ℚ) :=
  match data.dropLast.getLast? with
  | none => .error (.indexError "single positional indexer is out-of-bounds")
  | some s => .ok (data.dropLast ++ gbmGenerate growth s none draws)

end Vbt
