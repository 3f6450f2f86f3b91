import Verif.Bvals.Model

/-!
Specification of the ghost zones, independent of the loops in the model: which zones and faces there are, and
the image of each.
-/

namespace Athena.Bvals

/-- A field: a member of the zone structure, or an interface field. -/
inductive Fld where
  | cell (v : Var)
  | face (n : Fin 3)
  deriving DecidableEq

/-- The value of a field. -/
def Fld.val {V : Type} (g : Grid V) : Fld → Idx → V
  | .cell v => fun y => g.U y v
  | .face n => g.Bi n

/-- The field exists in the configuration. -/
def Fld.In (c : Cfg) : Fld → Prop
  | .cell v => v ∈ vars c
  | .face _ => c.mhd = true

/-- 1 for the faces normal to an extended direction `t`, of which there is one more than zones. -/
def extra (nx : Fin 3 → Nat) (f : Fld) (t : Fin 3) : Int := if f = .face t ∧ 1 < nx t then 1 else 0

/-- `y` is an active zone (or a face of an active zone). -/
def Active (c : Cfg) (nx : Fin 3 → Nat) (f : Fld) (y : Idx) : Prop :=
  ∀ t, lo c nx t ≤ y t ∧ y t ≤ hi c nx t + extra nx f t

/-- `y` is a zone of the array, active or ghost; or a face of the array other than the first. -/
def Stored (c : Cfg) (nx : Fin 3 → Nat) (f : Fld) (y : Idx) : Prop :=
  ∀ t, extra nx f t ≤ y t ∧ y t < size c nx t

/-- Image of the index `j` in one direction with active indices `lo … hi + b`, `n` zones. Mirror images
about the boundary, the last active index, or the index one period away. -/
def imgJ (kin kout : Kind) (lo hi b n j : Int) : Int :=
  if j < lo then
    match kin with
    | .reflect | .conduct => 2 * lo - (1 - b) - j
    | .outflow => lo
    | .periodic => j + n
    | .later => j
  else if j > hi + b then
    match kout with
    | .reflect | .conduct => 2 * hi + 1 + b - j
    | .outflow => hi
    | .periodic => j - n
    | .later => j
  else j

/-- The fields that change sign: at a reflecting boundary the normal momentum and the normal field; at a
conducting boundary the normal momentum and the transverse field. -/
def Odd (k : Kind) (t : Fin 3) (f : Fld) : Prop :=
  (k = .reflect ∧ (f = .cell (.M t) ∨ f = .cell (.Bc t) ∨ f = .face t)) ∨
  (k = .conduct ∧ (f = .cell (.M t) ∨ ∃ n, n ≠ t ∧ (f = .cell (.Bc n) ∨ f = .face n)))

/-- `y` lies beyond the boundary in direction `t` and `f` is odd there. -/
def Minus (c : Cfg) (kin kout : Fin 3 → Kind) (nx : Fin 3 → Nat) (f : Fld) (y : Idx) (t : Fin 3) : Prop :=
  (y t < lo c nx t ∧ Odd (kin t) t f) ∨ (y t > hi c nx t + extra nx f t ∧ Odd (kout t) t f)

/-- `y` lies on a reflecting boundary, to which the field `f` is normal. -/
def OnWall (c : Cfg) (kin kout : Fin 3 → Kind) (nx : Fin 3 → Nat) (f : Fld) (y : Idx) (t : Fin 3) : Prop :=
  f = .face t ∧ 1 < nx t ∧ ((kin t = .reflect ∧ y t = lo c nx t) ∨ (kout t = .reflect ∧ y t = hi c nx t + 1))

open Classical in
/-- What a zone or face holds after the boundary conditions: zero on a wall, otherwise the value at its
image with a change of sign for every direction in which the field is odd. -/
noncomputable def image {V : Type} [Neg V] [Zero V] (c : Cfg) (kin kout : Fin 3 → Kind) (g : Grid V) (f : Fld) (y : Idx) : V :=
  let s := fun t (v : V) => if Minus c kin kout g.nx f y t then -v else v
  if ∃ t, OnWall c kin kout g.nx f y t then 0
  else s 2 (s 1 (s 0 (f.val g (fun t => imgJ (kin t) (kout t) (lo c g.nx t) (hi c g.nx t) (extra g.nx f t) (g.nx t) (y t)))))

end Athena.Bvals
