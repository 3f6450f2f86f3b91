import Verif.Run.RestartFileLemmas

/-! Specification of C10 (src/restart.c): what a user expects of a restarted run. -/

namespace Athena.Run.Rst
open Athena.Par

variable {V : Type}

/-! ## Specification -/

/-- `[k][j][i]` is an active zone of the Grid. -/
def Active (g : Grid V) (x : Idx) : Prop :=
  (g.ks ≤ x.1 ∧ x.1 ≤ g.ke) ∧ (g.js ≤ x.2.1 ∧ x.2.1 ≤ g.je) ∧ g.is ≤ x.2.2 ∧ x.2.2 ≤ g.ie

/-- Last face in a direction with zones `s..e`: one more than the zones if there is more than one zone. -/
def lastFace (s e : Nat) : Nat := if e > s then e + 1 else e

/-- What a user expects of Grid `g'` after reading the file written for `g` into `g0`. -/
structure GridRestored (cfg : Cfg) (avg : V → V → V) (time dt : V) (g g0 g' : Grid V) : Prop where
  shape : SameShape g g'
  time : g'.time = time
  dt : g'.dt = dt
  hydro : ∀ x, Active g x → g'.U .d x = g.U .d x ∧ g'.U .M1 x = g.U .M1 x ∧ g'.U .M2 x = g.U .M2 x ∧
    g'.U .M3 x = g.U .M3 x
  energy : cfg.barotropic = false → ∀ x, Active g x → g'.U .E x = g.U .E x
  scalars : ∀ n < cfg.nscalars, ∀ x, Active g x → g'.U (.s n) x = g.U (.s n) x
  field1 : cfg.mhd = true → ∀ k j i, g.ks ≤ k → k ≤ g.ke → g.js ≤ j → j ≤ g.je → g.is ≤ i → i ≤ lastFace g.is g.ie →
    g'.B1i (k, j, i) = g.B1i (k, j, i)
  field2 : cfg.mhd = true → ∀ k j i, g.ks ≤ k → k ≤ g.ke → g.js ≤ j → j ≤ lastFace g.js g.je → g.is ≤ i → i ≤ g.ie →
    g'.B2i (k, j, i) = g.B2i (k, j, i)
  field3 : cfg.mhd = true → ∀ k j i, g.ks ≤ k → k ≤ lastFace g.ks g.ke → g.js ≤ j → j ≤ g.je → g.is ≤ i → i ≤ g.ie →
    g'.B3i (k, j, i) = g.B3i (k, j, i)
  centre1 : cfg.mhd = true → ∀ k j i, Active g (k, j, i) → g'.U .B1c (k, j, i) =
    if g.ie > g.is then avg (g'.B1i (k, j, i)) (g'.B1i (k, j, i+1)) else g'.B1i (k, j, i)
  centre2 : cfg.mhd = true → ∀ k j i, Active g (k, j, i) → g'.U .B2c (k, j, i) =
    if g.je > g.js then avg (g'.B2i (k, j, i)) (g'.B2i (k, j+1, i)) else g'.B2i (k, j, i)
  centre3 : cfg.mhd = true → ∀ k j i, Active g (k, j, i) → g'.U .B3c (k, j, i) =
    if g.ke > g.ks then avg (g'.B3i (k, j, i)) (g'.B3i (k+1, j, i)) else g'.B3i (k, j, i)
  ghosts : ∀ v x, ¬ Active g x → g'.U v x = g0.U v x
  /-- the particles with `pos == 1`, in their order -/
  particles : cfg.particles = true → g'.nparticle = (live g).length ∧ g'.nparticle ≤ g'.arrsize ∧
    ∀ i q, (live g)[i]? = some q →
      g'.part i = { q with init_id := if cfg.mpi then q.init_id else (g0.part i).init_id }
  noparticles : cfg.particles = false → g'.nparticle = g0.nparticle ∧ g'.part = g0.part

/-- The particle types after reading; `qs` are the particles of the Grid read last. -/
structure TypesRestored (cfg : Cfg) (T T0 T' : Types V) (qs : List (Part V)) : Prop where
  n : T'.n = T.n
  alloc : T'.alloc = T0.alloc
  alam : T'.alam = T.alam
  prop : ∀ i < T.n, (T'.prop i).rad = (T.prop i).rad ∧ (T'.prop i).rho = (T.prop i).rho ∧
    (T'.prop i).tstop0 = (T.prop i).tstop0 ∧ (T'.prop i).grrhoa = (T.prop i).grrhoa ∧
    (T'.prop i).integrator = (T.prop i).integrator ∧ (cfg.feedback = true → (T'.prop i).m = (T.prop i).m) ∧
    (T'.prop i).num = (qs.countP (fun q => decide (q.property = (i : Int))) : Nat)

/-- A Grid as `init_grid` makes it: the active zones, and one more in a direction with more than one
zone, are inside the arrays (src/init_grid.c:80-170: there are ghost zones). -/
structure GridOK (g : Grid V) : Prop where
  x1 : lastFace g.is g.ie < g.n1z
  x2 : lastFace g.js g.je < g.n2z
  x3 : lastFace g.ks g.ke < g.n3z
  np : g.nparticle ≤ g.arrsize

/-- The values to be written are values of their C types. -/
structure ValuesOK (cfg : Cfg) (p : Plat V) (M : Mesh V) : Prop where
  real : ∀ v, p.R.fits v
  nstep : p.I.fits M.nstep
  sts : cfg.sts = true → p.I.fits M.nSTS
  ntypes : cfg.particles = true → p.I.fits M.types.n
  integ : cfg.particles = true → ∀ i < M.types.n, p.S.fits (M.types.prop i).integrator
  npart : cfg.particles = true → ∀ g ∈ M.grids, p.L.fits (live g).length
  part : cfg.particles = true → ∀ g ∈ M.grids, ∀ q ∈ live g, p.I.fits q.property ∧ p.L.fits q.my_id ∧ p.I.fits q.init_id ∧
    0 ≤ q.property ∧ q.property < M.types.n
  types : cfg.particles = true → M.types.n ≤ M.types.alloc

/-- 256 KB hold at least one value of each type, and the values of one particle type. -/
structure BufOK (p : Plat V) : Prop where
  r : 5 * p.R.size ≤ p.bufBytes
  i : p.I.size ≤ p.bufBytes
  l : p.L.size ≤ p.bufBytes
  s : p.S.size ≤ p.bufBytes

/-- All Grids of the processor have more than one zone in the same directions. -/
def SameDims (gs : List (Grid V)) : Prop :=
  ∀ g ∈ gs, ∀ h ∈ gs, (g.ie > g.is ↔ h.ie > h.is) ∧ (g.je > g.js ↔ h.je > h.js) ∧ (g.ke > g.ks ↔ h.ke > h.ks)

/-- No line of the parameter part (as cut by `fgets`) starts with `<par_end>`. -/
def NoEnd (db : DB) : Prop :=
  ∀ l ∈ fgetsLines (MAXLEN - 1) [] (db.flatMap dumpBlock), ¬ "<par_end>".toList <+: l

end Athena.Run.Rst
