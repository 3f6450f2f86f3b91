import Verif.Integr.Flat1
import Verif.Integr.GenLat

/-!
# C68 for runs on periodic Domains
-/

namespace Athena.Gen
open Athena.Bvals hiding Rng
open Athena.Vl3
open Num

variable {ns : ℕ}

/-! ## Specification -/

/-- The field of the lower-dimensional run that corresponds to `f`: the interface field normal to the direction `t0`, which it does not
have, is the zone-centred one. -/
def lowFld (t0 : Fin 3) (f : Fld) : Fld := if f = .face t0 then .cell (.Bc t0) else f

/-- `D'` extends `D`, which has one zone in direction `t0`. -/
structure Extends (t0 : Fin 3) (D D' : Dom) : Prop where
  one : tot D t0 = 1
  same : ∀ t, t ≠ t0 → tot D' t = tot D t

/-- The contents of the Grids `s'` of `D'` do not depend on `t0` and are those of `s`, in the active zones and on their faces. -/
def SameFlow (ng ns : ℕ) (t0 : Fin 3) (D D' : Dom) (s s' : Coord → Grid ℝ) : Prop :=
  ∀ C C', D.Has C → D'.Has C' → ∀ f : Fld, f.In (cfg ng ns) → ∀ y y', Active (cfg ng ns) (D.gnx C) (lowFld t0 f) y →
    Active (cfg ng ns) (D'.gnx C') f y' → (∀ t, t ≠ t0 → gl D C y t = gl D' C' y' t) → f.val (s' C') y' = (lowFld t0 f).val (s C) y

/-- In every active zone of a two-dimensional Domain the divergence of the field is zero and the field at the zone centre is the average of the
fields on the faces. -/
def FieldOk (ng ns : ℕ) (D : Dom) (dx1 dx2 : ℝ) (s : Coord → Grid ℝ) : Prop :=
  ∀ C, D.Has C → ∀ y, Active (cfg ng ns) (D.gnx C) (.cell .d) y →
    ((s C).Bi 0 (next y 0) - (s C).Bi 0 y) / dx1 + ((s C).Bi 1 (next y 1) - (s C).Bi 1 y) / dx2 = 0 ∧
    (s C).U y (.Bc 0) = ((s C).Bi 0 y + (s C).Bi 0 (next y 0)) / 2 ∧ (s C).U y (.Bc 1) = ((s C).Bi 1 y + (s C).Bi 1 (next y 1)) / 2

/-- The densities of the active zones are not below `d`. -/
def Above (ng ns : ℕ) (D : Dom) (d : ℝ) (s : Coord → Grid ℝ) : Prop :=
  ∀ C, D.Has C → ∀ y, Active (cfg ng ns) (D.gnx C) (.cell .d) y → d ≤ (s C).U y .d

/-! ## The zones of a lattice and those of the Grids -/

/-- Position `x` of the lattice, brought into the Domain. -/
def canon (ng ns : ℕ) (D : Dom) (x : Idx) : Idx := fun t => lo (cfg ng ns) (tot D) t + (x t - lo (cfg ng ns) (tot D) t) % tot D t

theorem place {ng sz : ℕ} {D : Dom} (hok : DomOk (cfg ng ns) sz D) {A : Fin 3 → Bool} (hA : ∀ C, D.Has C → HasDim A (D.gnx C))
    (hne : ∃ C, D.Has C) (x : Idx) :
    ∃ C, D.Has C ∧ ∃ y : Idx, (∀ t, lo (cfg ng ns) (D.gnx C) t ≤ y t ∧ y t ≤ hi (cfg ng ns) (D.gnx C) t) ∧ gl D C y = canon ng ns D x := by
  obtain ⟨C0, hC0⟩ := hne
  have hA' := hasDim_tot hok hC0 (hA C0 hC0)
  have hpos : ∀ t, 0 < tot D t := by
    intro t
    rcases hA'.cases (cfg ng ns) t with ⟨_, _, _, _, e⟩ | ⟨_, _, _, _, e⟩ <;> omega
  let b : Fin 3 → ℤ := lo (cfg ng ns) (tot D)
  let r : Fin 3 → ℕ := fun t => ((x t - b t) % tot D t).toNat
  have hr : ∀ t, (r t : ℤ) = (x t - b t) % tot D t := fun t => Int.toNat_of_nonneg (Int.emod_nonneg _ (by have := hpos t; omega))
  have hr' : ∀ t, r t < disp D t (D.NG t) := fun t => by
    have : (x t - b t) % tot D t < tot D t := Int.emod_lt_of_pos _ (by have := hpos t; omega)
    have h2 := hr t
    show r t < tot D t
    omega
  choose l hl a ha e using fun t => piece D t (hr' t)
  have hlo : ∀ t, lo (cfg ng ns) (D.gnx l) t = b t := by
    intro t
    have := (gnx_tot hok hl t).1
    by_cases hh : 1 < D.gnx l t
    · simp only [b, lo, if_pos hh, if_pos (this.1 hh)]
    · simp only [b, lo]; rw [if_neg hh, if_neg (fun h' => hh (this.2 h'))]
  refine ⟨l, hl, fun t => b t + a t, fun t => ?_, ?_⟩
  · have h1 := hl_dim (hA l hl) (cfg ng ns) t
    have h2 := ha t
    have h3 : D.gnx l t = D.nx t (l t) := rfl
    rw [hlo] at h1 ⊢
    constructor
    · show b t ≤ b t + a t; omega
    · show b t + a t ≤ _; omega
  · funext t
    have h2 := hr t
    have h4 : (r t : ℤ) = disp D t (l t) + a t := by rw [e t]; push_cast; rfl
    show b t + a t + disp D t (l t) = b t + (x t - b t) % tot D t
    omega

/-- A periodic lattice is the same seen from `x` and from `canon x`. -/
theorem shift_canon {ng : ℕ} {D : Dom} {L : St ℝ ns} (hL : Periodic (tot D) L) (x : Idx) :
    L.shift (canon ng ns D x 2) (canon ng ns D x 1) (canon ng ns D x 0) = L.shift (x 2) (x 1) (x 0) := by
  have hm := hL (fun t => -((x t - lo (cfg ng ns) (tot D) t) / tot D t))
  have e : ∀ t, canon ng ns D x t = x t + -((x t - lo (cfg ng ns) (tot D) t) / tot D t) * tot D t := by
    intro t
    have h1 := Int.emod_add_mul_ediv (x t - lo (cfg ng ns) (tot D) t) (tot D t)
    unfold canon
    linarith
  rw [e 0, e 1, e 2]
  conv_rhs => rw [← hm]
  simp only [St.shift]
  congr 1 <;> funext k j i <;> congr 1 <;> ring

theorem val_canon {ng : ℕ} {D : Dom} {L : St ℝ ns} (hL : Periodic (tot D) L) (g : Grid ℝ) {f : Fld} (hf : f.In (cfg ng ns)) (x : Idx) :
    f.val (ofSt g L) (canon ng ns D x) = f.val (ofSt g L) x := by
  have h1 := val_shift g L hf (fun _ => 0) (canon ng ns D x)
  have h2 := val_shift g L hf (fun _ => 0) x
  rw [shift_canon hL] at h1
  simp only [zero_add] at h1 h2
  rw [← h1, h2]

/-- Lattices with the same values are the same. -/
theorem st_ext {ng : ℕ} (g : Grid ℝ) {L L' : St ℝ ns} (h : ∀ f : Fld, f.In (cfg ng ns) → ∀ x, f.val (ofSt g L) x = f.val (ofSt g L') x) : L = L' := by
  have m : ∀ v ∈ vars (cfg ng ns), ∀ k j i, (L.U k j i).get (g.U (mkIdx i j k) v) v = (L'.U k j i).get (g.U (mkIdx i j k) v) v :=
    fun v hv k j i => h (.cell v) hv (mkIdx i j k)
  have hB : ∀ (n : Fin 3) k j i, (if n = 0 then L.B1i else if n = 1 then L.B2i else L.B3i) k j i = (if n = 0 then L'.B1i else if n = 1 then L'.B2i else L'.B3i) k j i :=
    fun n k j i => h (.face n) rfl (mkIdx i j k)
  have hU : L.U = L'.U := by
    funext k j i
    have hM : ∀ n, (Var.M n) ∈ vars (cfg ng ns) := fun n => by rcases three n with rfl | rfl | rfl <;> simp [vars, cfg]
    have hb : ∀ n, (Var.Bc n) ∈ vars (cfg ng ns) := fun n => by rcases three n with rfl | rfl | rfl <;> simp [vars, cfg]
    have hs : ∀ n < ns, (Var.s n) ∈ vars (cfg ng ns) := fun n hn => by simp [vars, cfg]; exact hn
    ext1
    · exact m .d (by simp [vars, cfg]) k j i
    · exact m (.M 0) (hM 0) k j i
    · exact m (.M 1) (hM 1) k j i
    · exact m (.M 2) (hM 2) k j i
    · exact m .E (by simp [vars, cfg]) k j i
    · exact m (.Bc 0) (hb 0) k j i
    · exact m (.Bc 1) (hb 1) k j i
    · exact m (.Bc 2) (hb 2) k j i
    · funext n
      have := m (.s n) (hs n n.2) k j i
      simpa only [Cons.get, n.2, dif_pos] using this
  have h0 : L.B1i = L'.B1i := by funext k j i; exact hB 0 k j i
  have h1 : L.B2i = L'.B2i := by funext k j i; exact hB 1 k j i
  have h2 : L.B3i = L'.B3i := by funext k j i; exact hB 2 k j i
  cases L; cases L'
  simp only at hU h0 h1 h2
  rw [hU, h0, h1, h2]

/-- A lattice with period 1 in direction 2 does not depend on it. -/
theorem flat_k {N : Fin 3 → ℕ} {L : St ℝ ns} (hL : Periodic N L) (h1 : N 2 = 1) (k : ℤ) : plane L k = plane L 0 ∧ L.B3i k = L.B3i 0 := by
  have := hL (fun t => if t = 2 then k else 0)
  rw [h1] at this
  simp only [St.shift, reduceIte, show ((1 : Fin 3) = 2) = False by decide, show ((0 : Fin 3) = 2) = False by decide, zero_mul, add_zero,
    Nat.cast_one, mul_one] at this
  constructor
  · conv_rhs => rw [← this]
    simp only [plane, zero_add]
  · conv_rhs => rw [← this]
    simp only [zero_add]

theorem flat_j {N : Fin 3 → ℕ} {L : St ℝ ns} (hL : Periodic N L) (h1 : N 1 = 1) (k j i : ℤ) :
    L.U k j i = L.U k 0 i ∧ L.B1i k j i = L.B1i k 0 i ∧ L.B2i k j i = L.B2i k 0 i ∧ L.B3i k j i = L.B3i k 0 i := by
  have := hL (fun t => if t = 1 then j else 0)
  rw [h1] at this
  simp only [St.shift, reduceIte, show ((2 : Fin 3) = 1) = False by decide, show ((0 : Fin 3) = 1) = False by decide, zero_mul, add_zero,
    Nat.cast_one, mul_one] at this
  refine ⟨?_, ?_, ?_, ?_⟩ <;> (conv_rhs => rw [← this]) <;> simp only [zero_add]

/-- Reading a lattice at positions that differ in a direction it does not depend on. -/
theorem val_flat {ng : ℕ} {N : Fin 3 → ℕ} {L : St ℝ ns} (hL : Periodic N L) {t0 : Fin 3} (h1 : N t0 = 1) (g : Grid ℝ) {f : Fld}
    (hf : f.In (cfg ng ns)) {x x' : Idx} (h : ∀ t, t ≠ t0 → x t = x' t) : f.val (ofSt g L) x = f.val (ofSt g L) x' := by
  have hm := hL (fun t => if t = t0 then x t - x' t else 0)
  have e := val_shift g L hf x' (fun t => (if t = t0 then x t - x' t else 0) * N t)
  rw [hm] at e
  rw [e]
  congr 1
  funext t
  by_cases ht : t = t0
  · subst ht; rw [if_pos rfl, h1]; push_cast; ring
  · rw [if_neg ht, h t ht]; ring

theorem lowFld_in {ng : ℕ} {t0 : Fin 3} {f : Fld} (hf : f.In (cfg ng ns)) : (lowFld t0 f).In (cfg ng ns) := by
  unfold lowFld
  split_ifs
  · rcases three t0 with rfl | rfl | rfl <;> exact List.mem_of_elem_eq_true (by simp [vars, cfg])
  · exact hf

/-- The lattices of two runs that start alike. -/
theorem start_alike {ng sz sz' : ℕ} {t0 : Fin 3} {D D' : Dom} (hok : DomOk (cfg ng ns) sz D) (hok' : DomOk (cfg ng ns) sz' D') {A A' : Fin 3 → Bool}
    (hA : ∀ C, D.Has C → HasDim A (D.gnx C)) (hA' : ∀ C, D'.Has C → HasDim A' (D'.gnx C)) (hne : ∃ C, D.Has C) (hne' : ∃ C, D'.Has C)
    (hE : Extends t0 D D') {s s' : Coord → Grid ℝ} (h0 : SameFlow ng ns t0 D D' s s') {L L' : St ℝ ns} (hL : Periodic (tot D) L) (hL' : Periodic (tot D') L')
    (hv : ∀ C, D.Has C → ∀ f : Fld, f.In (cfg ng ns) → ∀ y, Stored (cfg ng ns) (D.gnx C) f y → ∀ g : Grid ℝ, f.val (s C) y = f.val (ofSt g L) (gl D C y))
    (hv' : ∀ C, D'.Has C → ∀ f : Fld, f.In (cfg ng ns) → ∀ y, Stored (cfg ng ns) (D'.gnx C) f y → ∀ g : Grid ℝ, f.val (s' C) y = f.val (ofSt g L') (gl D' C y))
    (hng : 1 ≤ ng) (g : Grid ℝ) (f : Fld) (hf : f.In (cfg ng ns)) (x : Idx) : f.val (ofSt g L') x = (lowFld t0 f).val (ofSt g L) x := by
  obtain ⟨C, hC, y, hy, e⟩ := place hok hA hne x
  obtain ⟨C', hC', y', hy', e'⟩ := place hok' hA' hne' x
  have act : ∀ {nx : Fin 3 → ℕ} {y : Idx} (f : Fld), (∀ t, lo (cfg ng ns) nx t ≤ y t ∧ y t ≤ hi (cfg ng ns) nx t) → Active (cfg ng ns) nx f y := by
    intro nx y f h t
    have : 0 ≤ extra nx f t := by unfold extra; split_ifs <;> omega
    have := h t
    omega
  have hlf := lowFld_in (t0 := t0) hf
  have key := h0 C C' hC hC' f hf y y' (act _ hy) (act _ hy') (fun t ht => by
    rw [e, e', canon, canon]
    simp only [lo, hE.same t ht])
  rw [hv' C' hC' f hf y' (Gen.active_stored (hA' C' hC') hng (act _ hy')) g, hv C hC _ hlf y (Gen.active_stored (hA C hC) hng (act _ hy)) g, e, e',
    val_canon hL' g hf, val_canon hL g hlf] at key
  exact key

/-- The conclusion from the lattices. -/
theorem alike_grids {ng : ℕ} {t0 : Fin 3} {D D' : Dom} (hE : Extends t0 D D') {s s' : Coord → Grid ℝ} {L L' : St ℝ ns}
    (hL : Periodic (tot D) L)
    (hv : ∀ C, D.Has C → ∀ f : Fld, f.In (cfg ng ns) → ∀ y, Stored (cfg ng ns) (D.gnx C) f y → ∀ g : Grid ℝ, f.val (s C) y = f.val (ofSt g L) (gl D C y))
    (hv' : ∀ C, D'.Has C → ∀ f : Fld, f.In (cfg ng ns) → ∀ y, Stored (cfg ng ns) (D'.gnx C) f y → ∀ g : Grid ℝ, f.val (s' C) y = f.val (ofSt g L') (gl D' C y))
    (h : ∀ g : Grid ℝ, ∀ f : Fld, f.In (cfg ng ns) → ∀ x, f.val (ofSt g L') x = (lowFld t0 f).val (ofSt g L) x)
    {C C' : Coord} (hC : D.Has C) (hC' : D'.Has C') {f : Fld} (hf : f.In (cfg ng ns)) {y y' : Idx}
    (hy : Stored (cfg ng ns) (D.gnx C) (lowFld t0 f) y) (hy' : Stored (cfg ng ns) (D'.gnx C') f y')
    (hyy : ∀ t, t ≠ t0 → gl D C y t = gl D' C' y' t) : f.val (s' C') y' = (lowFld t0 f).val (s C) y := by
  rw [hv' C' hC' f hf y' hy' (s C), hv C hC _ (lowFld_in hf) y hy (s C), h _ f hf]
  exact val_flat hL hE.one _ (lowFld_in hf) (fun t ht => (hyy t ht).symm)

/-- The lattice read through `lowFld`. -/
def St.low {R : Type} (t0 : Fin 3) (L : St R ns) : St R ns :=
  ⟨L.U, if t0 = 0 then fun k j i => (L.U k j i).B1c else L.B1i, if t0 = 1 then fun k j i => (L.U k j i).B2c else L.B2i,
    if t0 = 2 then fun k j i => (L.U k j i).B3c else L.B3i⟩

theorem val_low (g : Grid ℝ) (L : St ℝ ns) (t0 : Fin 3) (f : Fld) (x : Idx) :
    f.val (ofSt g (St.low t0 L)) x = (lowFld t0 f).val (ofSt g L) x := by
  cases f with
  | cell v =>
    have e : lowFld t0 (.cell v) = .cell v := by simp [lowFld]
    rw [e]; rfl
  | face n =>
    by_cases h : n = t0
    · subst h
      have e : lowFld n (.face n) = .cell (.Bc n) := by simp [lowFld]
      rw [e]
      rcases three n with rfl | rfl | rfl <;> rfl
    · have e : lowFld t0 (.face n) = .face n := by simp [lowFld, h]
      rw [e]
      rcases three n with rfl | rfl | rfl <;> rcases three t0 with rfl | rfl | rfl <;> first | exact absurd rfl h | rfl

/-- A run of one of the integrators on a periodic Domain, divided into Grids in any way: the Grids `s n` are those before cycle `n`. -/
def PerRun (M : Funs ℝ ns) (K : Kind) (w : Which) (q : ℕ → Step ℝ) (ng : ℕ) (D : Dom) (s : ℕ → Coord → Grid ℝ) : Prop :=
  ∃ (Ds : List Dom) (o : ℕ → Fin 3 → Coord → Bool) (J : ℕ → Coord → Works ℝ ns) (Gi : Grid ℝ),
    D ∈ Ds ∧ Regular (cfg ng ns) D ∧ (∃ C, D.Has C) ∧ (∀ C, D.Has C → HasDim (dims w) (D.gnx C)) ∧ AllPeriodic (dims w) D ∧
    IsRun (integ M K w) q ng (bufSize (cfg ng ns) Ds) D o J s ∧ Start (cfg ng ns) (bufSize (cfg ng ns) Ds) D Gi (s 0) ∧ Closed (cfg ng ns) Gi

/-- What `lattice_run` says of it. -/
structure Follows (M : Funs ℝ ns) (K : Kind) (w : Which) (q : ℕ → Step ℝ) (ng : ℕ) (D : Dom) (s : ℕ → Coord → Grid ℝ) (sz : ℕ)
    (L : ℕ → St ℝ ns) : Prop where
  ok : DomOk (cfg ng ns) sz D
  ne : ∃ C, D.Has C
  dim : ∀ C, D.Has C → HasDim (dims w) (D.gnx C)
  per : ∀ n, Periodic (tot D) (L n)
  step : ∀ n, L (n+1) = latt M K w (q n) (L n)
  val : ∀ n C, D.Has C → ∀ f : Fld, f.In (cfg ng ns) → ∀ y, Stored (cfg ng ns) (D.gnx C) f y → ∀ g : Grid ℝ,
    f.val (s n C) y = f.val (ofSt g (L n)) (gl D C y)

theorem PerRun.follows {M : Funs ℝ ns} (hM : M.Local) {K : Kind} {w : Which} {q : ℕ → Step ℝ} {ng : ℕ} (hng : 4 ≤ ng) {D : Dom}
    {s : ℕ → Coord → Grid ℝ} (h : PerRun M K w q ng D s) : ∃ sz L, Follows M K w q ng D s sz L := by
  obtain ⟨Ds, o, J, Gi, h1, h2, h3, h4, h5, h6, h7, h8⟩ := h
  obtain ⟨L, a, b, _, c, _⟩ := lattice_run (integ_lattice M hM K w) q hng Ds D h1 h2 h3 h4 h5 o J s h6 Gi h7 h8
  exact ⟨_, L, h2.ok h1, h3, h4, a, b, c⟩

/-- The contents of the Grids `s'` do not depend on `t0` and are those of `s`, ghost zones included. -/
def SameAll (ng ns : ℕ) (t0 : Fin 3) (D D' : Dom) (s s' : Coord → Grid ℝ) : Prop :=
  ∀ C C', D.Has C → D'.Has C' → ∀ f : Fld, f.In (cfg ng ns) → ∀ y y', Stored (cfg ng ns) (D.gnx C) (lowFld t0 f) y →
    Stored (cfg ng ns) (D'.gnx C') f y' → (∀ t, t ≠ t0 → gl D C y t = gl D' C' y' t) → f.val (s' C') y' = (lowFld t0 f).val (s C) y

/-- Two runs that start alike stay alike, if the lattices do. -/
theorem same_of_lattices {M : Funs ℝ ns} {K : Kind} {w w' : Which} {q q' : ℕ → Step ℝ} {ng : ℕ} (hng : 1 ≤ ng) {t0 : Fin 3} {D D' : Dom}
    (hE : Extends t0 D D') {s s' : ℕ → Coord → Grid ℝ} {sz sz' : ℕ} {L L' : ℕ → St ℝ ns} (h : Follows M K w q ng D s sz L)
    (h' : Follows M K w' q' ng D' s' sz' L') (h0 : SameFlow ng ns t0 D D' (s 0) (s' 0))
    (hs : L' 0 = St.low t0 (L 0) → ∀ n, L' n = St.low t0 (L n)) (n : ℕ) : SameAll ng ns t0 D D' (s n) (s' n) := by
  obtain ⟨C0, hC0⟩ := h.ne
  have e0 : L' 0 = St.low t0 (L 0) := st_ext (ng := ng) (s 0 C0) fun f hf x =>
    (start_alike h.ok h'.ok h.dim h'.dim h.ne h'.ne hE h0 (h.per 0) (h'.per 0) (h.val 0) (h'.val 0) hng _ f hf x).trans (val_low _ _ _ _ _).symm
  have e := hs e0 n
  intro C C' hC hC' f hf y y' hy hy' hyy
  exact alike_grids hE (h.per n) (h.val n) (h'.val n) (fun g f _ x => by rw [e]; exact val_low _ _ _ _ _) hC hC' hf hy hy' hyy

/-! ## Three and two dimensions -/

theorem low_ext {N : Fin 3 → ℕ} {L : St ℝ ns} (hL : Periodic N L) (h1 : N 2 = 1) : St.low 2 L = (plane L 0).ext := by
  have hU : ∀ k, L.U k = L.U 0 := fun k => congrArg Pl.U (flat_k hL h1 k).1
  have h2 : ∀ k, L.B1i k = L.B1i 0 := fun k => congrArg Pl.B1i (flat_k hL h1 k).1
  have h3 : ∀ k, L.B2i k = L.B2i 0 := fun k => congrArg Pl.B2i (flat_k hL h1 k).1
  simp only [St.low, Pl.ext, plane, St.mk.injEq, show ((2 : Fin 3) = 0) = False by decide, show ((2 : Fin 3) = 1) = False by decide, if_false, if_true]
  exact ⟨funext hU, funext h2, funext h3, by funext k; rw [hU]⟩

/-- The 2D integrators read and write planes. -/
theorem latt2_planes (M : Funs ℝ ns) (K : Kind) (q : Step ℝ) {L L' : St ℝ ns} (h : ∀ k, plane L k = plane L' k) :
    latt M K .d2 q L = latt M K .d2 q L' := by
  have hU : L.U = L'.U := by funext k; exact congrArg Pl.U (h k)
  have h1 : L.B1i = L'.B1i := by funext k; exact congrArg Pl.B1i (h k)
  have h2 : L.B2i = L'.B2i := by funext k; exact congrArg Pl.B2i (h k)
  cases K <;> simp only [latt, latV2, latC2, lat2, h, hU, h1, h2]

/-- A step of the 2D integrators keeps the divergence and averages the field. -/
theorem lat2_good (q : Step ℝ) (L : St ℝ ns) (F1 F2 : Arr (Cons1 ℝ ns)) (e : Arr ℝ) (k : ℤ)
    (h : ∀ j i, (L.B1i k j (i+1) - L.B1i k j i) / q.dx1 + (L.B2i k (j+1) i - L.B2i k j i) / q.dx2 = 0) (j i : ℤ) :
    ((lat2 q L F1 F2 e).B1i k j (i+1) - (lat2 q L F1 F2 e).B1i k j i) / q.dx1 +
      ((lat2 q L F1 F2 e).B2i k (j+1) i - (lat2 q L F1 F2 e).B2i k j i) / q.dx2 = 0 ∧
    ((lat2 q L F1 F2 e).U k j i).B1c = ((lat2 q L F1 F2 e).B1i k j i + (lat2 q L F1 F2 e).B1i k j (i+1)) / 2 ∧
    ((lat2 q L F1 F2 e).U k j i).B2c = ((lat2 q L F1 F2 e).B2i k j i + (lat2 q L F1 F2 e).B2i k (j+1) i) / 2 := by
  refine ⟨?_, ?_, ?_⟩
  · simp only [lat2, cB1, cB2]
    rw [← h j i]; ring
  · simp only [lat2, updB1, updB2, upd1, upd2, avg2, hlf]; ring
  · simp only [lat2, updB1, updB2, upd1, upd2, avg2, hlf]; ring

theorem latC2_good (M : Funs ℝ ns) (q : Step ℝ) (L : St ℝ ns) (k : ℤ)
    (h : ∀ j i, (L.B1i k j (i+1) - L.B1i k j i) / q.dx1 + (L.B2i k (j+1) i - L.B2i k j i) / q.dx2 = 0) (j i : ℤ) :
    ((latC2 M q L).B1i k j (i+1) - (latC2 M q L).B1i k j i) / q.dx1 + ((latC2 M q L).B2i k (j+1) i - (latC2 M q L).B2i k j i) / q.dx2 = 0 ∧
    ((latC2 M q L).U k j i).B1c = ((latC2 M q L).B1i k j i + (latC2 M q L).B1i k j (i+1)) / 2 ∧
    ((latC2 M q L).U k j i).B2c = ((latC2 M q L).B2i k j i + (latC2 M q L).B2i k (j+1) i) / 2 := lat2_good q L _ _ _ k h j i

/-- The values of a lattice around a zone are those of a Grid. -/
theorem near {ng sz : ℕ} {D : Dom} (hok : DomOk (cfg ng ns) sz D) {A : Fin 3 → Bool} (hA : ∀ C, D.Has C → HasDim A (D.gnx C))
    (hne : ∃ C, D.Has C) (hng : 1 ≤ ng) {s : Coord → Grid ℝ} {L : St ℝ ns} (hL : Periodic (tot D) L)
    (hv : ∀ C, D.Has C → ∀ f : Fld, f.In (cfg ng ns) → ∀ y, Stored (cfg ng ns) (D.gnx C) f y → ∀ g : Grid ℝ, f.val (s C) y = f.val (ofSt g L) (gl D C y))
    (x : Idx) : ∃ C, D.Has C ∧ ∃ y : Idx, Active (cfg ng ns) (D.gnx C) (.cell .d) y ∧
      (∀ f : Fld, f.In (cfg ng ns) → ∀ g : Grid ℝ, f.val (s C) y = f.val (ofSt g L) x) ∧
      ∀ t, A t = true → ∀ g : Grid ℝ, (s C).Bi t (next y t) = (ofSt g L).Bi t (next x t) := by
  obtain ⟨C, hC, y, hy, e⟩ := place hok hA hne x
  have act : ∀ f : Fld, Active (cfg ng ns) (D.gnx C) f y := by
    intro f t
    have : 0 ≤ extra (D.gnx C) f t := by unfold extra; split_ifs <;> omega
    have := hy t
    omega
  refine ⟨C, hC, y, act _, fun f hf g => ?_, fun t ht g => ?_⟩
  · rw [hv C hC f hf y (Gen.active_stored (hA C hC) hng (act f)) g, e, val_canon hL g hf]
  · have hx : extra (D.gnx C) (.face t) t = 1 := by simp [extra, ((hA C hC) t).1.2 ht]
    have ha : Active (cfg ng ns) (D.gnx C) (.face t) (next y t) := by
      intro u
      have h2 := act (.face t) u
      have h3 := hy u
      by_cases hu : u = t
      · subst hu; simp only [next, reduceIte]; omega
      · simp only [next, if_neg hu]; exact h2
    have h1 := hv C hC (.face t) rfl _ (Gen.active_stored (hA C hC) hng ha) g
    have h2 : gl D C (next y t) = fun u => canon ng ns D x u + (if u = t then 1 else 0) := by
      rw [← e]; funext u; simp only [gl, next]; split_ifs <;> ring
    have c1 := val_shift g L (f := .face t) (ng := ng) rfl (fun u => if u = t then 1 else 0) (canon ng ns D x)
    have c2 := val_shift g L (f := .face t) (ng := ng) rfl (fun u => if u = t then 1 else 0) x
    rw [shift_canon hL, c2] at c1
    have e1 : (fun u => (if u = t then (1 : ℤ) else 0) + canon ng ns D x u) = gl D C (next y t) := by
      rw [h2]; funext u; ring
    have e2 : (fun u => (if u = t then (1 : ℤ) else 0) + x u) = next x t := by
      funext u; simp only [next]; split_ifs <;> ring
    rw [e1, e2] at c1
    exact h1.trans c1.symm

theorem latt2_low {M : Funs ℝ ns} (K : Kind) (q : Step ℝ) {L : St ℝ ns} (h1 : ∀ k, plane L k = plane L 0) :
    latt M K .d2 q L = latt M K .d2 q (plane L 0).ext := latt2_planes M K q fun k => h1 k

/-- **C68.**  A 2D run and a 3D run with the same integrator, Riemann solver, reconstruction, zone sizes and time steps, on periodic
Domains divided into Grids in any way, that start from the same data (independent of x3) hold the same data before every cycle, ghost zones
included.  For the CTU integrator it is assumed that at the start the divergence of the field is zero and the zone-centred field is
the average of that on the faces, and that densities do not fall below `d_MIN`. -/
theorem run_2d_in_3d (M : Funs ℝ ns) (hL : M.Local) (hM : M.Plain) (K : Kind) (dt : ℕ → ℝ) (dx1 dx2 dx3 dx3' : ℝ) {ng : ℕ} (hng : 4 ≤ ng)
    {D D' : Dom} (hE : Extends 2 D D') {s s' : ℕ → Coord → Grid ℝ}
    (hs : PerRun M K .d2 (fun n => ⟨dt n, dx1, dx2, dx3⟩) ng D s) (hs' : PerRun M K .d3 (fun n => ⟨dt n, dx1, dx2, dx3'⟩) ng D' s')
    (h0 : SameFlow ng ns 2 D D' (s 0) (s' 0))
    (hC : K = .ctu → M.Exact ∧ FieldOk ng ns D dx1 dx2 (s 0) ∧ ∀ n, Above ng ns D M.dMin (s n)) (n : ℕ) :
    SameAll ng ns 2 D D' (s n) (s' n) := by
  obtain ⟨sz, L, h⟩ := hs.follows hL hng
  obtain ⟨sz', L', h'⟩ := hs'.follows hL hng
  refine same_of_lattices (by omega) hE h h' h0 (fun e0 => ?_) n
  have flat : ∀ n, St.low 2 (L n) = (plane (L n) 0).ext := fun n => low_ext (h.per n) hE.one
  have fk : ∀ n k, plane (L n) k = plane (L n) 0 := fun n k => (flat_k (h.per n) hE.one k).1
  have st : ∀ n, L (n+1) = latt M K .d2 ⟨dt n, dx1, dx2, dx3'⟩ (plane (L n) 0).ext := by
    intro n
    rw [h.step, latt2_low K _ (fk n)]
    cases K <;> rfl
  have st2 : ∀ n, L (n+1) = (plane (L (n+1)) 0).ext := by
    intro n
    rw [st n]
    cases K <;> rfl
  cases K with
  | vl =>
    intro n
    induction n with
    | zero => exact e0
    | succ n ih => rw [h'.step, ih, flat, flat, ← st2, st n]; exact latV3_flat hM _ _
  | ctu =>
    obtain ⟨hX, hF, hd⟩ := hC rfl
    have dens : ∀ n j i, M.dMin ≤ ((L n).U 0 j i).d := by
      intro n j i
      obtain ⟨C, hC, y, hy, hv, _⟩ := near h.ok h.dim h.ne (by omega) (h.per n) (h.val n) (mkIdx i j 0)
      have := hd n C hC y hy
      exact this.trans_eq (hv (.cell .d) (by simp [Fld.In, vars]) (s n C))
    have good : ∀ n, (plane (L n) 0).Good ⟨dt n, dx1, dx2, dx3'⟩ M.dMin := by
      intro n
      induction n with
      | zero =>
        have key : ∀ j i, (((L 0).B1i 0 j (i+1) - (L 0).B1i 0 j i) / dx1 + ((L 0).B2i 0 (j+1) i - (L 0).B2i 0 j i) / dx2 = 0) ∧
            (((L 0).U 0 j i).B1c = ((L 0).B1i 0 j i + (L 0).B1i 0 j (i+1)) / 2) ∧
            (((L 0).U 0 j i).B2c = ((L 0).B2i 0 j i + (L 0).B2i 0 (j+1) i) / 2) := by
          intro j i
          obtain ⟨C, hC, y, hy, hv, hb⟩ := near h.ok h.dim h.ne (by omega) (h.per 0) (h.val 0) (mkIdx i j 0)
          have q := hF C hC y hy
          rw [hb 0 rfl (s 0 C), hb 1 rfl (s 0 C)] at q
          have f0 := hv (.face 0) rfl (s 0 C)
          have f1 := hv (.face 1) rfl (s 0 C)
          have c0 := hv (.cell (.Bc 0)) (by simp [Fld.In, vars, cfg]) (s 0 C)
          have c1 := hv (.cell (.Bc 1)) (by simp [Fld.In, vars, cfg]) (s 0 C)
          simp only [Fld.val] at f0 f1 c0 c1
          rw [f0, f1, c0, c1] at q
          exact q
        exact ⟨fun j i => (key j i).1, fun j i => (key j i).2.1, fun j i => (key j i).2.2, dens 0⟩
      | succ n ih =>
        have key := latC2_good M ⟨dt n, dx1, dx2, dx3'⟩ (plane (L n) 0).ext 0 ih.div
        have e := st n
        exact ⟨fun j i => by rw [e]; exact (key j i).1, fun j i => by rw [e]; exact (key j i).2.1, fun j i => by rw [e]; exact (key j i).2.2,
          dens (n+1)⟩
    intro n
    induction n with
    | zero => exact e0
    | succ n ih => rw [h'.step, ih, flat, flat, ← st2, st n]; exact latC3_flat _ (good n) hM hX

/-! ## Two dimensions and one -/

/-- The longitudinal field of a 1D run. -/
def Along (ng ns : ℕ) (D : Dom) (b : ℝ) (s : Coord → Grid ℝ) : Prop :=
  ∀ C, D.Has C → ∀ y, Active (cfg ng ns) (D.gnx C) (.cell .d) y → (s C).Bi 0 y = b ∧ (s C).U y (.Bc 0) = b

/-- The conversion to primitive variables and back reproduces the active zones. -/
def RoundTrip (ng : ℕ) (M : Funs ℝ ns) (D : Dom) (s : Coord → Grid ℝ) : Prop :=
  ∀ C, D.Has C → ∀ y, Active (cfg ng ns) (D.gnx C) (.cell .d) y →
    let u := (s C).U y
    let v : Cons1 ℝ ns := ⟨u .d, u (.M 0), u (.M 1), u (.M 2), u .E, u (.Bc 1), u (.Bc 2), fun n => u (.s n)⟩
    M.p2c1 (M.c2p1 v (u (.Bc 0))) (u (.Bc 0)) = v

theorem latt1_rows (M : Funs ℝ ns) (K : Kind) (q : Step ℝ) {L L' : St ℝ ns} (hU : L.U = L'.U) (hB : L.B1i = L'.B1i) :
    latt M K .d1 q L = latt M K .d1 q L' := by
  have hW : lW M L = lW M L' := by funext k j i; simp only [lW, hU]
  cases K
  · have hF : lvFlux M L = lvFlux M L' := by funext k j i; simp only [lvFlux, hU, hB, hW]
    have hH : lvUhalf M q L = lvUhalf M q L' := by funext k j i; simp only [lvUhalf, hF, hU]
    have hF' : lvFlux' M q L = lvFlux' M q L' := by funext k j i; simp only [lvFlux', lvLR, hH, hB]
    simp only [latt, lat1, hU, hB, hF']
  · have hF : lcFlux M q L = lcFlux M q L' := by funext k j i; simp only [lcFlux, lcLR, hU, hB, hW]
    simp only [latt, lat1, hU, hB, hF]

/-- **C68.**  A 1D run and a 2D run with the same integrator, Riemann solver, reconstruction, zone size in x1 and time steps, on periodic
Domains divided into Grids in any way, that start from the same data (independent of x2, with the longitudinal field uniform) hold the same
data before every cycle, ghost zones included.  For the van Leer integrator it is assumed that the pressure floor of the conversion
does not act on the states of the 1D run; for the CTU integrator, that the conversions are exact and densities do not fall below `d_MIN`. -/
theorem run_1d_in_2d (M : Funs ℝ ns) (hL : M.Local) (hM : M.Plain) (K : Kind) (dt : ℕ → ℝ) (dx1 dx2 dx2' dx3 dx3' : ℝ) {ng : ℕ} (hng : 4 ≤ ng)
    {D D' : Dom} (hE : Extends 1 D D') {s s' : ℕ → Coord → Grid ℝ}
    (hs : PerRun M K .d1 (fun n => ⟨dt n, dx1, dx2, dx3⟩) ng D s) (hs' : PerRun M K .d2 (fun n => ⟨dt n, dx1, dx2', dx3'⟩) ng D' s')
    (h0 : SameFlow ng ns 1 D D' (s 0) (s' 0)) (b : ℝ) (hb : Along ng ns D b (s 0))
    (hV : K = .vl → ∀ n, RoundTrip ng M D (s n)) (hC : K = .ctu → M.Exact ∧ ∀ n, Above ng ns D M.dMin (s n)) (n : ℕ) :
    SameAll ng ns 1 D D' (s n) (s' n) := by
  obtain ⟨sz, L, h⟩ := hs.follows hL hng
  obtain ⟨sz', L', h'⟩ := hs'.follows hL hng
  refine same_of_lattices (by omega) hE h h' h0 (fun e0 => ?_) n
  have one2 : tot D 2 = 1 := by
    obtain ⟨C, hC⟩ := h.ne
    have := ((hasDim_tot h.ok hC (h.dim C hC)) 2).2 rfl
    exact this
  have fl : ∀ n k j i, (L n).U k j i = (L n).U 0 0 i ∧ (L n).B1i k j i = (L n).B1i 0 0 i := by
    intro n k j i
    have a := flat_j (h.per n) hE.one k j i
    have a' := flat_k (h.per n) one2 k
    have b1 : (L n).U k = (L n).U 0 := congrArg Pl.U a'.1
    have b2 : (L n).B1i k = (L n).B1i 0 := congrArg Pl.B1i a'.1
    exact ⟨a.1.trans (by rw [b1]), a.2.1.trans (by rw [b2])⟩
  have lng : ∀ n, (∀ k j i, (L n).B1i k j i = b) ∧ ∀ k j i, ((L n).U k j i).B1c = b := by
    intro n
    induction n with
    | zero =>
      have key : ∀ k j i, (L 0).B1i k j i = b ∧ ((L 0).U k j i).B1c = b := by
        intro k j i
        obtain ⟨C, hC, y, hy, hv, _⟩ := near h.ok h.dim h.ne (by omega) (h.per 0) (h.val 0) (mkIdx i j k)
        have q := hb C hC y hy
        exact ⟨(hv (.face 0) rfl (s 0 C)).symm.trans q.1, (hv (.cell (.Bc 0)) (by simp [Fld.In, vars, cfg]) (s 0 C)).symm.trans q.2⟩
      exact ⟨fun k j i => (key k j i).1, fun k j i => (key k j i).2⟩
    | succ n ih =>
      rw [h.step]
      cases K <;> exact ⟨fun k j i => ih.1 k j i, fun k j i => ih.2 k j i⟩
  let u : ℕ → ℤ → Cons ℝ ns := fun n i => (L n).U 0 0 i
  have hub : ∀ n i, (u n i).B1c = b := fun n i => (lng n).2 0 0 i
  have e1 : ∀ n, L (n+1) = latt M K .d1 ⟨dt n, dx1, dx2', dx3'⟩ (rowPl (u n) b).ext := by
    intro n
    rw [h.step]
    have q : latt M K .d1 ⟨dt n, dx1, dx2, dx3⟩ (L n) = latt M K .d1 ⟨dt n, dx1, dx2', dx3'⟩ (L n) := by cases K <;> rfl
    rw [show latt M K .d1 ((fun n => (⟨dt n, dx1, dx2, dx3⟩ : Step ℝ)) n) (L n) = _ from q]
    exact latt1_rows M K _ (by funext k j i; exact (fl n k j i).1) (by funext k j i; exact (lng n).1 k j i)
  have low1 : ∀ n, St.low 1 (L (n+1)) = L (n+1) := by
    intro n
    rw [e1 n]
    cases K <;> rfl
  have e2 : ∀ n, latt M K .d2 ⟨dt n, dx1, dx2', dx3'⟩ (St.low 1 (L n)) = L (n+1) := by
    intro n
    have q : latt M K .d2 ⟨dt n, dx1, dx2', dx3'⟩ (St.low 1 (L n)) = latt M K .d2 ⟨dt n, dx1, dx2', dx3'⟩ (rowPl (u n) b).ext := by
      refine latt2_planes M K _ fun k => ?_
      simp only [plane, St.low, Pl.ext, rowPl, Pl.mk.injEq, show ((1 : Fin 3) = 0) = False by decide, if_true, if_false]
      exact ⟨by funext j i; exact (fl n k j i).1, by funext j i; exact (lng n).1 k j i, by funext j i; rw [(fl n k j i).1]⟩
    rw [q, e1 n]
    cases K with
    | vl =>
      refine latV2_flat hM _ (hub n) (fun i => ?_)
      obtain ⟨C, hC, y, hy, hv, _⟩ := near h.ok h.dim h.ne (by omega) (h.per n) (h.val n) (mkIdx i 0 0)
      have r := hV rfl n C hC y hy
      have c : ∀ v ∈ vars (cfg ng ns), (s n C).U y v = (u n i).get ((s n C).U (mkIdx i 0 0) v) v := fun v hv' => hv (.cell v) hv' (s n C)
      have hM' : ∀ n, (Var.M n) ∈ vars (cfg ng ns) := fun n => by rcases three n with rfl | rfl | rfl <;> simp [vars, cfg]
      have hb' : ∀ n, (Var.Bc n) ∈ vars (cfg ng ns) := fun n => by rcases three n with rfl | rfl | rfl <;> simp [vars, cfg]
      have hs' : ∀ m : Fin ns, (s n C).U y (.s m) = (u n i).s m := fun m => by
        rw [c (.s m) (by simp [vars, cfg])]; simp only [Cons.get, m.2, dif_pos]
      have c0 := c .d (by simp [vars, cfg])
      have c1 := c .E (by simp [vars, cfg])
      have m0 := c (.M 0) (hM' 0)
      have m1 := c (.M 1) (hM' 1)
      have m2 := c (.M 2) (hM' 2)
      have b0 := c (.Bc 0) (hb' 0)
      have b1 := c (.Bc 1) (hb' 1)
      have b2 := c (.Bc 2) (hb' 2)
      simp only [c0, c1, m0, m1, m2, b0, b1, b2, hs'] at r
      exact r
    | ctu =>
      obtain ⟨hX, hd⟩ := hC rfl
      refine latC2_flat hM _ (hub n) hX (fun i => ?_)
      obtain ⟨C, hC, y, hy, hv, _⟩ := near h.ok h.dim h.ne (by omega) (h.per n) (h.val n) (mkIdx i 0 0)
      exact (hd n C hC y hy).trans_eq (hv (.cell .d) (by simp [Fld.In, vars]) (s n C))
  intro n
  induction n with
  | zero => exact e0
  | succ n ih => rw [h'.step, ih, low1 n]; exact e2 n

end Athena.Gen
