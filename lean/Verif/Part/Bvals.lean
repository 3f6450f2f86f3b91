import Verif.Part.Sort
import Mathlib.Algebra.Group.Pi.Lemmas
import Mathlib.Algebra.Group.Pi.Basic
import Mathlib.Algebra.BigOperators.Pi
import Mathlib.Algebra.BigOperators.Group.Multiset.Basic
import Mathlib.Data.Multiset.Bind
import Mathlib.Data.Fintype.Pi
import Mathlib.Data.Fintype.Basic
import Mathlib.Data.Fin.Basic
import Mathlib.Algebra.Order.Floor.Ring
import Mathlib.Data.Rat.Floor
import Mathlib.Tactic.FinCases

/-!
# src/particles/bvals_particle.c: boundary conditions of particles on any decomposition; C84

The particle lists of all Grids of the (single) Domain.  Messages are delivered as the code matches them:
what a Grid appends is what its neighbour packed.  Not modelled: the shearing-box and FARGO parts, buffer
management, and the optional `shuffle` (a rearrangement, `shuffle_sorted`).  Coordinates are exact reals.
-/

namespace Athena.Part
noncomputable section

/-! ## Model -/

/-- Boundary flags: 1 and 5 are reflecting, 2 outflow, 4 periodic; bvals_particle.c:1084-1111. -/
inductive BC where
  | reflect
  | outflow
  | periodic
  deriving DecidableEq

/-- One direction of the Domain: number of Grids minus one, positions of the Grid boundaries
(`MinX[d]` of Grid `g` is `face g`, `MaxX[d]` is `face (g+1)`), whether `Nx[d] > 1`, zone width, `nghost`,
boundary conditions. -/
structure Dir where
  n : ℕ
  face : ℕ → ℝ
  act : Bool
  dx : ℝ
  ng : ℕ
  left : BC
  right : BC

abbrev Dom := Fin 3 → Dir
/-- Position of a Grid in the decomposition (`my_iproc`, `my_jproc`, `my_kproc`). -/
abbrev Rank (D : Dom) := ∀ d, Fin ((D d).n + 1)
/-- The particle lists of all Grids. -/
abbrev State (D : Dom) := Rank D → List Grain

def lower (D : Dom) (d : Fin 3) (r : Rank D) : ℝ := (D d).face (r d)
def upper (D : Dom) (d : Fin 3) (r : Rank D) : ℝ := (D d).face (r d + 1)
/-- `Lx1`, `Lx2`, `Lx3`, bvals_particle.c:1056-1067. -/
def Lx (D : Dom) (d : Fin 3) : ℝ := (D d).face ((D d).n + 1) - (D d).face 0

/-- `x1lpar`, `x2lpar`, `x3lpar`, init_particle.c:264-297: note the sign in the x3 direction. -/
def lpar (D : Dom) (d : Fin 3) (r : Rank D) : ℝ :=
  if (D d).left = .outflow ∧ r d = 0 then
    let m : ℝ := if (D d).act then 1 else 0
    if d = 2 then (D d).face 0 + ((D d).ng - 1) * m * (D d).dx
    else (D d).face 0 - ((D d).ng - 1) * m * (D d).dx
  else lower D d r

/-- `x1upar`, `x2upar`, `x3upar`, init_particle.c:269-307: the x3 direction uses the flag of x2. -/
def upar (D : Dom) (d : Fin 3) (r : Rank D) : ℝ :=
  let u := if (D d).right = .outflow ∧ r d = Fin.last (D d).n then
      let m : ℝ := if (D (if d = 2 then 1 else d)).act then 1 else 0
      upper D d r + ((D d).ng - 1) * m * (D d).dx
    else upper D d r
  if (D d).act then u else u + 1

/-- The particle lies outside the limits of its Grid (the test of bvals_particle.c:1395-1396 and
integrators_particle.c:661-662). -/
def Outside (D : Dom) (r : Rank D) (g : Grain) : Prop :=
  ∃ d, upar D d r ≤ g.x d ∨ g.x d < lpar D d r

open Classical in
/-- `JudgeCrossing` without FARGO, integrators_particle.c:657-664. -/
def judge (D : Dom) (r : Rank D) (g : Grain) : Grain :=
  if Outside D r g then { g with pos := 10 } else g

/-- An integer passed through the buffer of doubles: `(double)n + 0.01` converted back,
bvals_particle.c:2034-2038, 2103-2108. -/
def carry (n : ℤ) : ℤ :=
  let x : ℚ := (n : ℚ) + 1/100
  if 0 ≤ x then ⌊x⌋ else ⌈x⌉

/-- `packing_one_particle` followed by `unpack_particle`, bvals_particle.c:2019-2042, 2082-2113. -/
def packed (g : Grain) (pos : ℤ) : Grain :=
  { g with prop := carry g.prop, pos := carry pos, id := carry g.id, init := carry g.init }

/-- `nbc`, bvals_particle.c:1050-1054. -/
def nbc : ℝ := 0

/-- Label of particles packed at the inner boundary: 11, 12, 13. -/
def inLabel (d : Fin 3) : ℤ := 11 + d.val
/-- Label of particles packed at the outer boundary: 21, 22, 23. -/
def outLabel (d : Fin 3) : ℤ := 21 + d.val

/-- One turn of `packing_ix1_particle` (and x2, x3), bvals_particle.c:1749-1785, 1841-1875, 1931-1963. -/
def packIx1 (D : Dom) (d : Fin 3) (r : Rank D) (g : Grain) : Option Grain :=
  if g.x d < lower D d r + nbc * (D d).dx then
    if g.pos = 0 ∨ g.pos = 1 then
      if g.x d ≥ lower D d r then some (packed g 0) else none
    else if g.pos ≠ outLabel d then some (packed g (inLabel d)) else none
  else none

/-- One turn of `packing_ox1_particle` (and x2, x3), bvals_particle.c:1796-1830, 1886-1920, 1975-2006. -/
def packOx1 (D : Dom) (d : Fin 3) (r : Rank D) (g : Grain) : Option Grain :=
  if g.x d ≥ upper D d r - nbc * (D d).dx then
    if g.pos = 0 ∨ g.pos = 1 then
      if g.x d < upper D d r then some (packed g 0) else none
    else if g.pos ≠ inLabel d then some (packed g (outLabel d)) else none
  else none

/-- `shift_packed_particle` for a position, bvals_particle.c:2057-2070. -/
def shift (d : Fin 3) (s : ℝ) (g : Grain) : Grain := { g with x := Function.update g.x d (g.x d + s) }

/-- The reflection of `reflect_ix1_particle`, `reflect_ix2_particle`, `reflect_ix3_particle`,
bvals_particle.c:1424-1429, 1478-1483, 1532-1537: in x3 the factor 2 is missing. -/
def reflIx (D : Dom) (d : Fin 3) (r : Rank D) (g : Grain) : Grain :=
  { g with
    x := Function.update g.x d (if d = 2 then lower D d r - g.x d else 2 * lower D d r - g.x d)
    v := Function.update g.v d (-g.v d) }

/-- The reflection of `reflect_ox1_particle` (and x2, x3), bvals_particle.c:1451-1456, 1505-1510, 1560-1565. -/
def reflOx (D : Dom) (d : Fin 3) (r : Rank D) (g : Grain) : Grain :=
  { g with
    x := Function.update g.x d (2 * upper D d r - g.x d)
    v := Function.update g.v d (-g.v d) }

/-- What `(*apply_ix1)(pG)` appends, bvals_particle.c:1411-1738. -/
def applyIx (D : Dom) (d : Fin 3) (r : Rank D) (l : List Grain) : List Grain :=
  match (D d).left with
  | .reflect => (l.filterMap (packIx1 D d r)).map (reflIx D d r)
  | .outflow => []
  | .periodic => (l.filterMap (packOx1 D d r)).map (shift d (-Lx D d))

/-- What `(*apply_ox1)(pG)` appends. -/
def applyOx (D : Dom) (d : Fin 3) (r : Rank D) (l : List Grain) : List Grain :=
  match (D d).right with
  | .reflect => (l.filterMap (packOx1 D d r)).map (reflOx D d r)
  | .outflow => []
  | .periodic => (l.filterMap (packIx1 D d r)).map (shift d (Lx D d))

/-- `lx1_id < 0`: no Grid on the left; with periodic boundaries and several Grids the neighbours wrap around,
bvals_particle.c:1098-1103. -/
def noLeft (D : Dom) (d : Fin 3) (r : Rank D) : Prop :=
  r d = 0 ∧ ((D d).left ≠ .periodic ∨ (D d).n = 0)

/-- `rx1_id < 0`. -/
def noRight (D : Dom) (d : Fin 3) (r : Rank D) : Prop :=
  r d = Fin.last (D d).n ∧ ((D d).right ≠ .periodic ∨ (D d).n = 0)

instance (D : Dom) (d : Fin 3) (r : Rank D) : Decidable (noLeft D d r) := by unfold noLeft; infer_instance
instance (D : Dom) (d : Fin 3) (r : Rank D) : Decidable (noRight D d r) := by unfold noRight; infer_instance

def leftOf (D : Dom) (d : Fin 3) (r : Rank D) : Rank D := Function.update r d (r d - 1)
def rightOf (D : Dom) (d : Fin 3) (r : Rank D) : Rank D := Function.update r d (r d + 1)

/-- The message of Grid `r` to its right, packed from its list before anything was received:
bvals_particle.c:206-225 (last Grid of a periodic Domain: shifted), 321-334. -/
def sendR (D : Dom) (d : Fin 3) (S : State D) (r : Rank D) : List Grain :=
  let l := (S r).filterMap (packOx1 D d r)
  if r d = Fin.last (D d).n then l.map (shift d (-Lx D d)) else l

/-- The list from which Grid `r` packs its message to the left: what came from the left
(bvals_particle.c:253-258) or, at a physical boundary on the right, what `apply_ox1` appended (:396-400), has
been appended. -/
def beforeL (D : Dom) (d : Fin 3) (S : State D) (r : Rank D) : List Grain :=
  if noRight D d r then S r ++ applyOx D d r (S r) else S r ++ sendR D d S (leftOf D d r)

/-- The message of Grid `r` to its left, bvals_particle.c:264-283 (first Grid of a periodic Domain:
shifted), 399-414. -/
def sendL (D : Dom) (d : Fin 3) (S : State D) (r : Rank D) : List Grain :=
  let l := (beforeL D d S r).filterMap (packIx1 D d r)
  if r d = 0 then l.map (shift d (Lx D d)) else l

/-- Step 2 (3, 4) of `bvals_particle` on all Grids, bvals_particle.c:184-443 (x2: 445-671, x3: 674-902). -/
def pass (D : Dom) (d : Fin 3) (S : State D) : State D := fun r =>
  if (D d).act then
    if noLeft D d r then
      if noRight D d r then
        let l := S r ++ applyIx D d r (S r)
        l ++ applyOx D d r l
      else S r ++ applyIx D d r (S r) ++ sendL D d S (rightOf D d r)
    else if noRight D d r then S r ++ applyOx D d r (S r) ++ sendR D d S (leftOf D d r)
    else S r ++ sendR D d S (leftOf D d r) ++ sendL D d S (rightOf D d r)
  else S r

open Classical in
/-- One turn of `update_particle_status`, bvals_particle.c:1392-1402. -/
def status (D : Dom) (r : Rank D) (g : Grain) : Grain :=
  if g.pos ≥ 10 then (if Outside D r g then { g with pos := 0 } else { g with pos := 1 }) else g

/-- `bvals_particle` on all Grids, bvals_particle.c:158-913.  `Delete_Ghost` is given by its effect on the
contents of the list (`deleteGhost_exact`); it also changes the order. -/
def bvals (D : Dom) (S : State D) : State D := fun r =>
  ((pass D 2 (pass D 1 (pass D 0 S)) r).map (status D r)).filter (fun g => g.pos ≠ 0)

/-- One step of the main loop as far as particles are concerned: every particle is moved
(`Integrate_Particles`: position and velocity), judged and the boundary conditions are applied. -/
def step (D : Dom) (mv : Grain → Grain) (S : State D) : State D :=
  bvals D (fun r => (S r).map (fun g => judge D r (mv g)))

/-! ## Specification -/

/-- What the boundary conditions of the Domain do to a particle in direction `d`: a periodic Domain brings it
back by its length, a reflecting wall mirrors position and velocity, an outflow boundary removes it once it
is in the outermost layer of ghost zones. -/
def settle1 (D : Dom) (d : Fin 3) (g : Grain) : Option Grain :=
  let lo := (D d).face 0
  let hi := (D d).face ((D d).n + 1)
  if (D d).act then
    if g.x d < lo then
      match (D d).left with
      | .periodic => some { g with x := Function.update g.x d (g.x d + (hi - lo)) }
      | .reflect => some { g with x := Function.update g.x d (2 * lo - g.x d),
                                  v := Function.update g.v d (-g.v d) }
      | .outflow => if g.x d < lo - ((D d).ng - 1) * (D d).dx then none else some g
    else if hi ≤ g.x d then
      match (D d).right with
      | .periodic => some { g with x := Function.update g.x d (g.x d - (hi - lo)) }
      | .reflect => some { g with x := Function.update g.x d (2 * hi - g.x d),
                                  v := Function.update g.v d (-g.v d) }
      | .outflow => if hi + ((D d).ng - 1) * (D d).dx ≤ g.x d then none else some g
    else some g
  else some g

/-- All three directions; the particle counts as being in the grid. -/
def settle (D : Dom) (g : Grain) : Option Grain := do
  let g ← settle1 D 0 g
  let g ← settle1 D 1 g
  let g ← settle1 D 2 g
  return { g with pos := 1 }

/-- The particle belongs to Grid `r`: it lies between its boundaries; at outflow boundaries of the Domain also
in the ghost zones except the outermost layer; in directions with one zone up to a length of 1 beyond. -/
def Owns (D : Dom) (r : Rank D) (g : Grain) : Prop :=
  ∀ d, (let ext := if (D d).act then (((D d).ng : ℝ) - 1) * (D d).dx else 0
        (if (D d).left = .outflow ∧ r d = 0 then (D d).face 0 - ext else (D d).face (r d)) ≤ g.x d ∧
        g.x d < (if (D d).right = .outflow ∧ r d = Fin.last (D d).n then (D d).face (r d + 1) + ext
          else (D d).face (r d + 1)) + (if (D d).act then 0 else 1))

/-- A Domain as the code can have it: Grids of positive width in order, periodic on both sides or on
none, one Grid in directions with one zone, no x3 zones without x2 zones; and, because of the two errors
recorded in `lpar` and `reflIx`, no outflow at the inner x3 boundary and reflection there only at x3 = 0. -/
structure GoodDom (D : Dom) : Prop where
  mono : ∀ d g, g ≤ (D d).n → (D d).face g < (D d).face (g + 1)
  per : ∀ d, (D d).left = .periodic ↔ (D d).right = .periodic
  one : ∀ d, (D d).act = false → (D d).n = 0
  ext : ∀ d, 0 ≤ (((D d).ng : ℝ) - 1) * (D d).dx
  dim : (D 2).act = true → (D 1).act = true
  x3out : (D 2).act = true → (D 2).left ≠ .outflow
  x3refl : (D 2).act = true → (D 2).left = .reflect → (D 2).face 0 = 0

/-- The particle moved out of Grid `r` no further than into its neighbour, or than its own width beyond a
reflecting wall, and does not lie exactly on an outer reflecting wall. -/
def Reach1 (D : Dom) (d : Fin 3) (r : Rank D) (x : ℝ) : Prop :=
  if (D d).act then
    (x < (D d).face (r d) →
      if (D d).left ≠ .periodic ∧ r d = 0 then
        (D d).left = .reflect → 2 * (D d).face 0 - x < (D d).face 1
      else if r d = 0 then (D d).face (D d).n ≤ x + ((D d).face ((D d).n + 1) - (D d).face 0)
      else (D d).face (r d - 1) ≤ x) ∧
    ((D d).face (r d + 1) ≤ x →
      if (D d).right ≠ .periodic ∧ r d = Fin.last (D d).n then
        (D d).right = .reflect →
          (D d).face ((D d).n + 1) < x ∧ (D d).face (D d).n ≤ 2 * (D d).face ((D d).n + 1) - x
      else if r d = Fin.last (D d).n then x - ((D d).face ((D d).n + 1) - (D d).face 0) < (D d).face 1
      else x < (D d).face (r d + 2))
  else (D d).face 0 ≤ x ∧ x < (D d).face 1 + 1

/-- What `bvals_particle` expects of the particles it is given. -/
def Ready (D : Dom) (r : Rank D) (g : Grain) : Prop :=
  (∀ d, Reach1 D d r (g.x d)) ∧ (g.pos = 10 ∨ g.pos = 1 ∧ Owns D r g) ∧
    0 ≤ g.prop ∧ 0 ≤ g.id ∧ 0 ≤ g.init

/-! ## Carrying integers -/

theorem carry_nonneg {n : ℤ} (h : 0 ≤ n) : carry n = n := by
  have hq : (0:ℚ) ≤ (n:ℚ) := by exact_mod_cast h
  unfold carry
  simp only
  rw [if_pos (by linarith), Int.floor_eq_iff]
  constructor <;> linarith

/-- C84: identifiers below zero do not survive a crossing: -1 becomes 0. -/
theorem carry_negative_false : carry (-1) = 0 := by
  unfold carry
  simp only
  rw [if_neg (by norm_num), Int.ceil_eq_iff]
  norm_num

theorem packed_eq {g : Grain} {p : ℤ} (h1 : 0 ≤ g.prop) (h2 : 0 ≤ g.id) (h3 : 0 ≤ g.init) (hp : 0 ≤ p) :
    packed g p = { g with pos := p } := by
  unfold packed
  rw [carry_nonneg h1, carry_nonneg h2, carry_nonneg h3, carry_nonneg hp]

theorem packed_pos {g : Grain} {p : ℤ} (hp : 0 ≤ p) : (packed g p).pos = p := carry_nonneg hp

theorem inLabel_nonneg (d : Fin 3) : 0 ≤ inLabel d := by unfold inLabel; omega
theorem outLabel_nonneg (d : Fin 3) : 0 ≤ outLabel d := by unfold outLabel; omega

/-! ## From lists to multisets -/

/-- An optional particle as a multiset. -/
def om {α : Type} : Option α → Multiset α
  | none => 0
  | some a => {a}

theorem coe_filterMap {α β : Type} (f : α → Option β) (l : List α) :
    ((l.filterMap f : List β) : Multiset β) = (l : Multiset α).bind (fun a => om (f a)) := by
  induction l with
  | nil => rfl
  | cons a l ih =>
    rw [← Multiset.cons_coe, Multiset.cons_bind, ← ih, List.filterMap_cons]
    cases f a with
    | none => simp [om]
    | some b => simp [om]

theorem coe_filterMap_map {α β γ : Type} (f : α → Option β) (h : β → γ) (l : List α) :
    (((l.filterMap f).map h : List γ) : Multiset γ)
      = (l : Multiset α).bind (fun a => om ((f a).map h)) := by
  rw [← coe_filterMap]
  congr 1
  induction l with
  | nil => rfl
  | cons a l ih =>
    rw [List.filterMap_cons, List.filterMap_cons]
    cases f a with
    | none => simpa using ih
    | some b => simpa using ih

theorem packIx1_pos {D : Dom} {d : Fin 3} {r : Rank D} {g q : Grain} (h : packIx1 D d r g = some q) :
    q.pos = inLabel d := by
  unfold packIx1 at h
  split_ifs at h with h1 h2 h3 h4
  · exfalso; unfold nbc at h1; linarith
  · injection h with h; rw [← h]; exact packed_pos (inLabel_nonneg d)

theorem packOx1_pos {D : Dom} {d : Fin 3} {r : Rank D} {g q : Grain} (h : packOx1 D d r g = some q) :
    q.pos = outLabel d := by
  unfold packOx1 at h
  split_ifs at h with h1 h2 h3 h4
  · exfalso; unfold nbc at h1; linarith
  · injection h with h; rw [← h]; exact packed_pos (outLabel_nonneg d)

theorem packIx1_of_out {D : Dom} {d : Fin 3} {r : Rank D} {g : Grain} (h : g.pos = outLabel d) :
    packIx1 D d r g = none := by
  unfold packIx1
  have h1 : ¬ (g.pos = 0 ∨ g.pos = 1) := by rw [h]; unfold outLabel; omega
  rw [if_neg h1, if_neg (not_not.mpr h)]
  simp

theorem packOx1_of_in {D : Dom} {d : Fin 3} {r : Rank D} {g : Grain} (h : g.pos = inLabel d) :
    packOx1 D d r g = none := by
  unfold packOx1
  have h1 : ¬ (g.pos = 0 ∨ g.pos = 1) := by rw [h]; unfold inLabel; omega
  rw [if_neg h1, if_neg (not_not.mpr h)]
  simp

theorem filterMap_nil_of {α β : Type} (f : α → Option β) (l : List α) (h : ∀ a ∈ l, f a = none) :
    l.filterMap f = [] := by
  induction l with
  | nil => rfl
  | cons a l ih =>
    rw [List.filterMap_cons, h a (by simp)]
    exact ih fun b hb => h b (by simp [hb])

theorem sendR_pos {D : Dom} {d : Fin 3} {S : State D} {r : Rank D} {q : Grain} (h : q ∈ sendR D d S r) :
    q.pos = outLabel d := by
  unfold sendR at h
  simp only at h
  split_ifs at h
  · obtain ⟨p, hp, rfl⟩ := List.mem_map.mp h
    obtain ⟨g, -, hg⟩ := List.mem_filterMap.mp hp
    have := packOx1_pos hg
    exact this
  · obtain ⟨g, -, hg⟩ := List.mem_filterMap.mp h
    exact packOx1_pos hg

/-- Contributions in a direction with periodic boundaries and one Grid are the same whether made by
`apply_*` or by messages to itself. -/
theorem leftOf_self {D : Dom} {d : Fin 3} (hn : (D d).n = 0) (r : Rank D) : leftOf D d r = r := by
  unfold leftOf
  have : r d - 1 = r d := by
    have : ∀ a b : Fin ((D d).n + 1), a = b := by
      intro a b; apply Fin.ext; have := a.2; have := b.2; omega
    exact this _ _
  rw [this, Function.update_eq_self]

theorem rightOf_self {D : Dom} {d : Fin 3} (hn : (D d).n = 0) (r : Rank D) : rightOf D d r = r := by
  unfold rightOf
  have : r d + 1 = r d := by
    have : ∀ a b : Fin ((D d).n + 1), a = b := by
      intro a b; apply Fin.ext; have := a.2; have := b.2; omega
    exact this _ _
  rw [this, Function.update_eq_self]

/-- Physical boundary that is not periodic. -/
def wallL (D : Dom) (d : Fin 3) (r : Rank D) : Prop := (D d).left ≠ .periodic ∧ r d = 0
def wallR (D : Dom) (d : Fin 3) (r : Rank D) : Prop := (D d).right ≠ .periodic ∧ r d = Fin.last (D d).n

instance (D : Dom) (d : Fin 3) (r : Rank D) : Decidable (wallL D d r) := by unfold wallL; infer_instance
instance (D : Dom) (d : Fin 3) (r : Rank D) : Decidable (wallR D d r) := by unfold wallR; infer_instance

/-- Copy going to the Grid on the right. -/
def toR (D : Dom) (d : Fin 3) (r : Rank D) (g : Grain) : Multiset Grain :=
  om ((packOx1 D d r g).map (fun q => if r d = Fin.last (D d).n then shift d (-Lx D d) q else q))
/-- Copy going to the Grid on the left. -/
def toL (D : Dom) (d : Fin 3) (r : Rank D) (g : Grain) : Multiset Grain :=
  om ((packIx1 D d r g).map (fun q => if r d = 0 then shift d (Lx D d) q else q))
/-- Copy made at a wall on the left. -/
def atL (D : Dom) (d : Fin 3) (r : Rank D) (g : Grain) : Multiset Grain :=
  match (D d).left with
  | .reflect => om ((packIx1 D d r g).map (reflIx D d r))
  | _ => 0
/-- Copy made at a wall on the right. -/
def atR (D : Dom) (d : Fin 3) (r : Rank D) (g : Grain) : Multiset Grain :=
  match (D d).right with
  | .reflect => om ((packOx1 D d r g).map (reflOx D d r))
  | _ => 0

abbrev MState (D : Dom) := Rank D → Multiset Grain

/-- `pass` on multisets. -/
def passM (D : Dom) (d : Fin 3) (S : MState D) : MState D := fun r =>
  S r + (if wallL D d r then (S r).bind (atL D d r) else (S (leftOf D d r)).bind (toR D d (leftOf D d r)))
    + (if wallR D d r then (S r).bind (atR D d r) else (S (rightOf D d r)).bind (toL D d (rightOf D d r)))

theorem sendR_coe (D : Dom) (d : Fin 3) (S : State D) (r : Rank D) :
    (sendR D d S r : Multiset Grain) = (S r : Multiset Grain).bind (toR D d r) := by
  unfold sendR toR
  simp only
  split_ifs with h
  · rw [coe_filterMap_map]
  · rw [coe_filterMap]
    congr 1
    funext g
    congr 1
    cases packOx1 D d r g <;> rfl

theorem sendL_coe (D : Dom) (d : Fin 3) (S : State D) (r : Rank D)
    (hper : (D d).left = .periodic ↔ (D d).right = .periodic) (hL : ¬ (r d = 0 ∧ (D d).left ≠ .periodic))
    (hone : (D d).left = .periodic → (D d).n ≠ 0) :
    (sendL D d S r : Multiset Grain) = (S r : Multiset Grain).bind (toL D d r) := by
  have hb : (beforeL D d S r).filterMap (packIx1 D d r) = (S r).filterMap (packIx1 D d r) := by
    unfold beforeL
    split_ifs with h
    · rw [List.filterMap_append, filterMap_nil_of (packIx1 D d r) (applyOx D d r (S r)), List.append_nil]
      intro q hq
      unfold applyOx at hq
      cases hr : (D d).right with
      | reflect =>
        rw [hr] at hq
        obtain ⟨p, hp, rfl⟩ := List.mem_map.mp hq
        obtain ⟨g, -, hg⟩ := List.mem_filterMap.mp hp
        have := packOx1_pos hg
        exact packIx1_of_out (show (reflOx D d r p).pos = _ from this)
      | outflow => rw [hr] at hq; simp at hq
      | periodic =>
        exfalso
        rcases h.2 with h2 | h2
        · exact h2 hr
        · exact hone (hper.mpr hr) h2
    · rw [List.filterMap_append, filterMap_nil_of (packIx1 D d r) (sendR D d S (leftOf D d r)),
        List.append_nil]
      intro q hq
      exact packIx1_of_out (sendR_pos hq)
  unfold sendL toL
  simp only
  rw [hb]
  split_ifs with h
  · rw [coe_filterMap_map]
  · rw [coe_filterMap]
    congr 1
    funext g
    congr 1
    cases packIx1 D d r g <;> rfl

theorem applyIx_coe (D : Dom) (d : Fin 3) (r : Rank D) (l : List Grain) (h : (D d).left ≠ .periodic) :
    (applyIx D d r l : Multiset Grain) = (l : Multiset Grain).bind (atL D d r) := by
  unfold applyIx atL
  cases hk : (D d).left with
  | reflect => simp only; rw [coe_filterMap_map]
  | outflow => simp
  | periodic => exact absurd hk h

theorem applyOx_coe (D : Dom) (d : Fin 3) (r : Rank D) (l : List Grain) (h : (D d).right ≠ .periodic) :
    (applyOx D d r l : Multiset Grain) = (l : Multiset Grain).bind (atR D d r) := by
  unfold applyOx atR
  cases hk : (D d).right with
  | reflect => simp only; rw [coe_filterMap_map]
  | outflow => simp
  | periodic => exact absurd hk h

/-- Reflected copies at the left wall are not reflected again at the right wall. -/
theorem applyOx_append (D : Dom) (d : Fin 3) (r : Rank D) (l : List Grain)
    (hper : (D d).left = .periodic ↔ (D d).right = .periodic) (h : (D d).left ≠ .periodic) :
    applyOx D d r (l ++ applyIx D d r l) = applyOx D d r l := by
  unfold applyOx
  cases hk : (D d).right with
  | reflect =>
    simp only
    rw [List.filterMap_append, filterMap_nil_of (packOx1 D d r) (applyIx D d r l), List.append_nil]
    intro q hq
    unfold applyIx at hq
    cases hl : (D d).left with
    | reflect =>
      rw [hl] at hq
      obtain ⟨p, hp, rfl⟩ := List.mem_map.mp hq
      obtain ⟨g, -, hg⟩ := List.mem_filterMap.mp hp
      have := packIx1_pos hg
      exact packOx1_of_in (show (reflIx D d r p).pos = _ from this)
    | outflow => rw [hl] at hq; simp at hq
    | periodic => exact absurd hl h
  | outflow => rfl
  | periodic => exact absurd (hper.mpr hk) h

theorem toL_append_zero (D : Dom) (d : Fin 3) (r : Rank D) (l : List Grain) (S : State D) (r' : Rank D)
    (hr' : S r' = l) :
    (l ++ sendR D d S r').filterMap (packIx1 D d r) = l.filterMap (packIx1 D d r) := by
  rw [List.filterMap_append, filterMap_nil_of (packIx1 D d r) (sendR D d S r'), List.append_nil]
  intro q hq
  exact packIx1_of_out (sendR_pos hq)

theorem pass_coe (D : Dom) (hD : GoodDom D) (d : Fin 3) (ha : (D d).act = true) (S : State D) (r : Rank D) :
    (pass D d S r : Multiset Grain) = passM D d (fun r => (S r : Multiset Grain)) r := by
  have hper := hD.per d
  unfold pass passM
  rw [if_pos ha]
  by_cases hl : (D d).left = .periodic
  · have hrp := hper.mp hl
    have w1 : ¬ wallL D d r := fun h => h.1 hl
    have w2 : ¬ wallR D d r := fun h => h.1 hrp
    rw [if_neg w1, if_neg w2]
    by_cases hn : (D d).n = 0
    · have hz : ∀ a : Fin ((D d).n + 1), a = 0 := by
        intro a; apply Fin.ext; have := a.2; simp; omega
      have hlast : Fin.last (D d).n = 0 := hz _
      have n1 : noLeft D d r := ⟨hz _, Or.inr hn⟩
      have n2 : noRight D d r := ⟨by rw [hlast]; exact hz _, Or.inr hn⟩
      rw [if_pos n1, if_pos n2, leftOf_self hn, rightOf_self hn]
      simp only
      have e1 : applyIx D d r (S r) = sendR D d S r := by
        unfold applyIx sendR
        simp only [hl]
        rw [if_pos (by rw [hlast]; exact hz _)]
      have e2 : applyOx D d r (S r ++ applyIx D d r (S r))
          = ((S r).filterMap (packIx1 D d r)).map (shift d (Lx D d)) := by
        rw [e1]
        unfold applyOx
        simp only [hrp]
        rw [toL_append_zero D d r (S r) S r rfl]
      rw [e2, e1, ← Multiset.coe_add, ← Multiset.coe_add, sendR_coe, coe_filterMap_map]
      congr 1
      unfold toL
      simp only [hz, if_true]
    · have n1 : ¬ noLeft D d r := fun h => h.2.elim (fun h => h hl) hn
      have n2 : ¬ noRight D d r := fun h => h.2.elim (fun h => h hrp) hn
      rw [if_neg n1, if_neg n2, ← Multiset.coe_add, ← Multiset.coe_add, sendR_coe,
        sendL_coe D d S _ hper (fun h => h.2 hl) (fun _ => hn)]
  · have hrp : (D d).right ≠ .periodic := fun h => hl (hper.mpr h)
    have e1 : noLeft D d r ↔ wallL D d r := ⟨fun h => ⟨hl, h.1⟩, fun h => ⟨h.2, Or.inl hl⟩⟩
    have e2 : noRight D d r ↔ wallR D d r := ⟨fun h => ⟨hrp, h.1⟩, fun h => ⟨h.2, Or.inl hrp⟩⟩
    have hnz : wallR D d r ∨ ¬ (rightOf D d r d = 0 ∧ (D d).left ≠ .periodic) := by
      by_cases h : r d = Fin.last (D d).n
      · exact Or.inl ⟨hrp, h⟩
      · right
        rintro ⟨h0, -⟩
        unfold rightOf at h0
        rw [Function.update_self] at h0
        have := congrArg Fin.val h0
        rw [Fin.val_add_one, if_neg h] at this
        simp at this
    by_cases hwl : wallL D d r
    · rw [if_pos (e1.mpr hwl), if_pos hwl]
      by_cases hwr : wallR D d r
      · rw [if_pos (e2.mpr hwr), if_pos hwr]
        simp only
        rw [applyOx_append D d r _ hper hl, ← Multiset.coe_add, ← Multiset.coe_add, applyIx_coe D d r _ hl,
          applyOx_coe D d r _ hrp]
      · rw [if_neg (fun h => hwr (e2.mp h)), if_neg hwr, ← Multiset.coe_add, ← Multiset.coe_add,
          applyIx_coe D d r _ hl, sendL_coe D d S _ hper (hnz.resolve_left hwr) (fun h => absurd h hl)]
    · rw [if_neg (fun h => hwl (e1.mp h)), if_neg hwl]
      by_cases hwr : wallR D d r
      · rw [if_pos (e2.mpr hwr), if_pos hwr, ← Multiset.coe_add, ← Multiset.coe_add,
          applyOx_coe D d r _ hrp, sendR_coe]
        exact add_right_comm _ _ _
      · rw [if_neg (fun h => hwr (e2.mp h)), if_neg hwr, ← Multiset.coe_add, ← Multiset.coe_add,
          sendR_coe, sendL_coe D d S _ hper (hnz.resolve_left hwr) (fun h => absurd h hl)]

end
end Athena.Part
