/-!
# Work arrays of the CTU integrators

src/integrators/integrate_1d_ctu.c, integrate_2d_ctu.c, integrate_3d_ctu.c: which configurations allocate the
arrays `dhalf` and `phalf` (density and pressure at the half step), and which use them.  An array that has not been
allocated is a NULL pointer.
-/

namespace Athena.Alloc

/-- The choices on which allocation and use depend: `#define`s, and function pointers set by the problem generator. -/
structure Conf where
  cylindrical : Bool
  mhd : Bool
  particles : Bool
  barotropic : Bool
  pot : Bool
  cool : Bool

/-- `configure` refuses particles in cylindrical coordinates; configure.ac:591-595. -/
def Conf.Valid (c : Conf) : Prop := ¬ (c.cylindrical ∧ c.particles)

/-- The two arrays. -/
inductive Work
  | dhalf | phalf
deriving DecidableEq

/-- What `integrate_init_1d` allocates; integrate_1d_ctu.c:680-688. -/
def alloc1 (c : Conf) : Work → Bool
  | .dhalf => if c.cylindrical then c.pot || c.cool else true
  | .phalf => c.cool

/-- What `integrate_init_2d` allocates; integrate_2d_ctu.c:2202-2213. -/
def alloc2 (c : Conf) (_ : Work) : Bool :=
  if c.cylindrical || c.mhd || c.particles then true else c.pot || c.cool

/-- What `integrate_init_3d` allocates; integrate_3d_ctu.c:3685-3697. -/
def alloc3 (c : Conf) (_ : Work) : Bool :=
  if c.cylindrical && !c.mhd && !c.particles then c.pot || c.cool else true

/-- Places of the code which read or write the arrays: step 8a, step 8b, the geometric source term, the static potential,
cooling. -/
inductive Place
  | step8a | step8b | geometry | potential | cooling

/-- Whether the place is reached in 1D; integrate_1d_ctu.c:324-326, 343-346, 421, 463, 519-521. -/
def reached1 (c : Conf) : Place → Bool
  | .step8a => c.particles || (c.pot || c.cool)
  | .step8b => c.particles || c.cool
  | .geometry => c.cylindrical
  | .potential => c.pot
  | .cooling => !c.barotropic && c.cool

/-- Whether the place is reached in 2D and 3D; integrate_2d_ctu.c:1200-1205, 1226-1231, 1494, 1737, 1864-1866;
integrate_3d_ctu.c:2245-2250, 2278-2282, 2738, 2963, 3165-3167. -/
def reached (c : Conf) : Place → Bool
  | .step8a => c.mhd || c.particles || (c.pot || c.cool)
  | .step8b => c.mhd || c.particles || c.cool
  | .geometry => c.cylindrical
  | .potential => c.pot
  | .cooling => !c.barotropic && c.cool

/-- Which array the place touches in 1D; integrate_1d_ctu.c:329, 378-396, 425-439, 475-477, 526: step 8b needs `dhalf` for the
pressure or the velocity of the gas at particles. -/
def touches1 (c : Conf) : Place → Work → Bool
  | .step8a, .dhalf => true
  | .step8b, .dhalf => !c.barotropic || c.particles
  | .step8b, .phalf => !c.barotropic
  | .geometry, .dhalf => true
  | .potential, .dhalf => true
  | .cooling, _ => true
  | _, _ => false

/-- Which array the place touches in 2D and 3D: step 8b also needs `dhalf` for the electric field; integrate_2d_ctu.c:1209, 1340-1366,
1505-1609, 1754-1768, 1871; integrate_3d_ctu.c:2258, 2403-2428, 2746-2834, 2980-2999, 3173. -/
def touches (c : Conf) : Place → Work → Bool
  | .step8a, .dhalf => true
  | .step8b, .dhalf => !c.barotropic || c.mhd || c.particles
  | .step8b, .phalf => !c.barotropic
  | .geometry, .dhalf => true
  | .potential, .dhalf => true
  | .cooling, _ => true
  | _, _ => false

/-- **Specification.** No step dereferences an array which has not been allocated. -/
def Safe (al : Work → Bool) (re : Place → Bool) (to : Place → Work → Bool) : Prop :=
  ∀ p w, re p = true → to p w = true → al w = true

/-- **C92 in 2D.** No choice of options makes the 2D integrator use an array it has not allocated. -/
theorem alloc2_safe (c : Conf) : Safe (alloc2 c) (reached c) (touches c) := by
  intro p w h1 h2
  obtain ⟨a, b, d, e, f, g⟩ := c
  cases p <;> cases w <;> cases a <;> cases b <;> cases d <;> cases e <;> cases f <;> cases g <;>
    first | rfl | (simp [reached] at h1; done) | (simp [touches] at h2; done)

/-- **C92 in 3D.** The 3D integrator is safe exactly unless coordinates are cylindrical and there is neither field nor
particles nor potential nor cooling. -/
theorem alloc3_safe_partial (c : Conf) :
    Safe (alloc3 c) (reached c) (touches c) ↔
      ¬ (c.cylindrical = true ∧ c.mhd = false ∧ c.particles = false ∧ c.pot = false ∧ c.cool = false) := by
  obtain ⟨a, b, d, e, f, g⟩ := c
  constructor
  · rintro h ⟨h1, h2, h3, h4, h5⟩
    simp only at h1 h2 h3 h4 h5
    subst h1 h2 h3 h4 h5
    have := h .geometry .dhalf rfl rfl
    simp [alloc3] at this
  · intro h p w h1 h2
    cases p <;> cases w <;> cases a <;> cases b <;> cases d <;> cases e <;> cases f <;> cases g <;>
      first | rfl | (simp [reached] at h1; done) | (simp [touches] at h2; done) | (simp at h; done)

/-- **C92 in 1D.** The 1D integrator is safe exactly unless coordinates are cylindrical without potential and cooling, or
there are particles in an adiabatic gas without cooling. -/
theorem alloc1_safe_partial (c : Conf) (hc : c.Valid) :
    Safe (alloc1 c) (reached1 c) (touches1 c) ↔
      ¬ (c.cylindrical = true ∧ c.pot = false ∧ c.cool = false) ∧ ¬ (c.particles = true ∧ c.barotropic = false ∧ c.cool = false) := by
  obtain ⟨a, b, d, e, f, g⟩ := c
  constructor
  · intro h
    constructor
    · rintro ⟨h1, h2, h3⟩
      simp only at h1 h2 h3
      subst h1 h2 h3
      have := h .geometry .dhalf rfl rfl
      simp [alloc1] at this
    · rintro ⟨h1, h2, h3⟩
      simp only at h1 h2 h3
      subst h1 h2 h3
      have := h .step8b .phalf rfl rfl
      simp [alloc1] at this
  · intro h p w h1 h2
    unfold Conf.Valid at hc
    cases p <;> cases w <;> cases a <;> cases b <;> cases d <;> cases e <;> cases f <;> cases g <;>
      first | rfl | (simp [reached1] at h1; done) | (simp [touches1] at h2; done) | (simp at h; done) | (simp at hc; done)

/-- Gas without field, in cylindrical coordinates, without potential. -/
def plainCyl : Conf := ⟨true, false, false, false, false, false⟩

/-- Particles in an adiabatic gas, Cartesian coordinates. -/
def dust : Conf := ⟨false, false, true, false, false, false⟩

/-- **C92 is false in 1D and 3D**: hydrodynamics in cylindrical coordinates without potential. -/
theorem alloc13_safe_false :
    plainCyl.Valid ∧ ¬ Safe (alloc3 plainCyl) (reached plainCyl) (touches plainCyl) ∧
      ¬ Safe (alloc1 plainCyl) (reached1 plainCyl) (touches1 plainCyl) := by
  refine ⟨by simp [Conf.Valid, plainCyl], fun h => ?_, fun h => ?_⟩
  · exact absurd (h .geometry .dhalf rfl rfl) (by decide)
  · exact absurd (h .geometry .dhalf rfl rfl) (by decide)

/-- **C92 is false in 1D** for particles in an adiabatic gas without cooling. -/
theorem alloc1_dust_false : dust.Valid ∧ ¬ Safe (alloc1 dust) (reached1 dust) (touches1 dust) := by
  refine ⟨by simp [Conf.Valid, dust], fun h => ?_⟩
  exact absurd (h .step8b .phalf rfl rfl) (by decide)

/-- The hypotheses can be met: a cylindrical run with a potential is safe in all dimensions. -/
example : let c : Conf := ⟨true, true, false, false, true, false⟩
    c.Valid ∧ Safe (alloc1 c) (reached1 c) (touches1 c) ∧ Safe (alloc2 c) (reached c) (touches c) ∧ Safe (alloc3 c) (reached c) (touches c) := by
  refine ⟨by simp [Conf.Valid], (alloc1_safe_partial _ (by simp [Conf.Valid])).2 (by simp), alloc2_safe _, (alloc3_safe_partial _).2 (by simp)⟩

end Athena.Alloc
