import Verif.Base
import Mathlib.Data.Real.Basic

/-!
# The particle record of src/athena.h
-/

namespace Athena.Part

/-- `GrainS`, src/athena.h:212-221: position, velocity, type (`property`), status (`pos`: 0 ghost, 1 in the
grid, from 10 on crossing a boundary), identifier and initial process.  `my_id` and `init_id` exist only in
MPI builds.  Coordinates are exact reals. -/
structure Grain where
  x : Fin 3 → ℝ
  v : Fin 3 → ℝ
  prop : ℤ
  pos : ℤ
  id : ℤ
  init : ℤ

end Athena.Part
