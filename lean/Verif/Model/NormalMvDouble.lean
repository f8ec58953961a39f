import Verif.Model.DoubleNormal

/-!
# `NormalDistribution<M>::getSample` in double arithmetic

`NMV` is `/repo/incremental_calibration/include/aslam/calibration/statistics/NormalDistributionMv.tpp`.  Simplification: roundings without
overflow and underflow (`fl53`).
-/

namespace Verif
namespace Dbl

/-- the loop of `getSample`, NMV 164-165: `m` standard normal samples (`sampleNormal` with its default arguments 0 and 1). -/
noncomputable def normalsD (logD sqrtD : ℚ → ℚ) (rand : ℕ → ℕ) : ℕ → ℕ → Res ℕ (List (Option ℚ))
  | 0, n => .ok [] n
  | m + 1, n => (normalD logD sqrtD rand 0 1 n).bind fun z n' => (normalsD logD sqrtD rand m n').bind fun zs n'' => .ok (z :: zs) n''

/-- a component of the vector returned by `getSample`, NMV 166: the product with a row of the triangular factor, whose terms the library adds
up in the order `add`, plus the mean. -/
def mvComponent (add : List ℚ → ℚ) (mean : ℚ) (row : ℕ → ℚ) (z : ℕ → ℚ) (i : ℕ) : ℚ :=
  fl53 (mean + add ((List.range (i + 1)).map fun j => fl53 (row j * z j)))

/-- `NormalDistribution<M>::getSample`, NMV 160-167, dimension `d`, `L` the factor `mTransformation.matrixL()`, `add i` the order in which the
library adds up row `i`.  Simplification: `none` for a vector computed from an infinity or NaN. -/
noncomputable def normalMvD (logD sqrtD : ℚ → ℚ) (rand : ℕ → ℕ) (add : ℕ → List ℚ → ℚ) (d : ℕ) (mean : ℕ → ℚ) (L : ℕ → ℕ → ℚ) (n : ℕ) :
    Res ℕ (Option (List ℚ)) :=
  (normalsD logD sqrtD rand d n).bind fun zs n' =>
    if zs.any (·.isNone) then .ok none n'
    else .ok (some ((List.range d).map fun i => mvComponent (add i) (mean i) (L i) (fun j => (zs.getD j none).getD 0) i)) n'

end Dbl
end Verif
