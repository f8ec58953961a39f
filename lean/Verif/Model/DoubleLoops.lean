import Verif.Model.Grid
import Verif.Model.Loop

/-!
# Code whose result depends on the rounding of double arithmetic

`fl` is the rounding after each operation; `fl53` is the one of IEEE 754 doubles (without overflow and underflow).
-/

namespace Verif
namespace Dbl

/-- `for (double t = t0; t < stop; t += dt) ...` with a body that does not change `t`: the time and the number of rounds.
`time_delay/src/simulation/simulationEngine.cpp` 46; `egomotion_sensors/src/simulation/simulationEngine.cpp` 61, 82, 106, 142;
`2dlrf/src/2dlrf/utils.cpp` 21 (all with an initial value of zero, of one step, or of a time stamp plus one step). -/
noncomputable def timeLoop (fl : ℚ → ℚ) (t0 dt stop : ℚ) : Res (ℚ × ℕ) Unit :=
  Loop.run (fun s : ℚ × ℕ => s.1 < stop) (fun s => .ok () (fl (s.1 + dt), s.2 + 1)) (t0, 0)

/-- `sampleUniform(minSupport, maxSupport)` for `T = double` as a function of `random()`, with every operation rounded,
`Randomizer.tpp` 85-95: `minSupport + random() / (double)RAND_MAX * (maxSupport - minSupport)`; the rounding trait of lines
222-226 is the identity for a floating point type. -/
def sampleUniform (fl : ℚ → ℚ) (r : Nat) (a b : ℚ) : Res Unit ℚ :=
  if a ≥ b then .throw .badArgument () else .ok (fl (a + fl (fl (r / 2147483647) * fl (b - a)))) ()

end Dbl
end Verif
