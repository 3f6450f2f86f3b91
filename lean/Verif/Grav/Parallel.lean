import Verif.Fft.Fft2dProps
import Verif.Grav.Poisson

/-!
# The potential on several processes: src/gravity/selfg_fft.c with the decomposed transforms of src/fftsrc

`selfg_fft_3d` and `selfg_fft_2d` without shearing box and star particles, as all the processes of a Domain run them together: each fills its own
array `work`, the transforms redistribute the data by messages (`Athena.Fft.fft3d`, `fft2d`), each process multiplies its own coefficients.
-/

namespace Athena.Grav
open Finset Athena.Fft

/-! ## Model -/

/-- The Grid of one process: its place in the Domain (`Disp`) and its size (`Nx`). -/
structure Loc where
  D1 : ℕ
  D2 : ℕ
  D3 : ℕ
  n1 : ℕ
  n2 : ℕ
  n3 : ℕ

/-- `F3DI`, fftsrc/prototypes.h:48. -/
def F3DI (i j k _nx1 nx2 nx3 : ℕ) : ℤ := k + nx3 * (j + nx2 * i)
/-- `F2DI`, fftsrc/prototypes.h:49. -/
def F2DI (i j _nx1 nx2 : ℕ) : ℤ := j + nx2 * i

/-- `work[a][0] = ...; work[a][1] = ...`: an element of `work` is two numbers. -/
def put (m : Mem ℝ) (a : ℤ) (z : ℂ) : Mem ℝ := Function.update (Function.update m (2 * a) z.re) (2 * a + 1) z.im
/-- `work[a]`. -/
def elt (m : Mem ℝ) (a : ℤ) : ℂ := ⟨m (2 * a), m (2 * a + 1)⟩

/-- The zones in the order of the loops of selfg_fft.c:414-416. -/
def zones3 (L : Loc) : List (ℕ × ℕ × ℕ) :=
  (List.range L.n3).flatMap fun k => (List.range L.n2).flatMap fun j => (List.range L.n1).map fun i => (i, j, k)
/-- The zones in the order of the loops of selfg_fft.c:160-161. -/
def zones2 (L : Loc) : List (ℕ × ℕ) := (List.range L.n2).flatMap fun j => (List.range L.n1).map fun i => (i, j)

/-- The loops that assign an element of `work` for every zone of the Grid, selfg_fft.c:414-425. -/
def fill3 (L : Loc) (m : Mem ℝ) (v : ℕ → ℕ → ℕ → ℂ) : Mem ℝ :=
  (zones3 L).foldl (fun m z => put m (F3DI z.1 z.2.1 z.2.2 L.n1 L.n2 L.n3) (v z.1 z.2.1 z.2.2)) m
/-- The loops of selfg_fft.c:160-170. -/
def fill2 (L : Loc) (m : Mem ℝ) (v : ℕ → ℕ → ℂ) : Mem ℝ :=
  (zones2 L).foldl (fun m z => put m (F2DI z.1 z.2 L.n1 L.n2) (v z.1 z.2)) m

/-- The arguments of `fft_3d_create_plan`, ath_fft.c:61-83, 131-134: x3 is the fast axis. -/
def setup3 (P N1 N2 N3 : ℕ) (L : ℕ → Loc) : Setup where
  P := P
  nfast := N3
  nmid := N2
  nslow := N1
  box p := ⟨(L p).D3, (L p).D3 + (L p).n3 - 1, (L p).D2, (L p).D2 + (L p).n2 - 1, (L p).D1, (L p).D1 + (L p).n1 - 1⟩

/-- The arguments of `fft_2d_create_plan`, ath_fft.c:224-237, 288-290: x2 is the fast axis. -/
def setup2 (P N1 N2 : ℕ) (L : ℕ → Loc) : Setup2 where
  P := P
  nfast := N2
  nslow := N1
  box p := ⟨(L p).D2, (L p).D2 + (L p).n2 - 1, (L p).D1, (L p).D1 + (L p).n1 - 1⟩

/-- `selfg_fft_3d` on all processes, selfg_fft.c:414-537.  `d p i j k` is the density of the zone `(i, j, k)` of the Grid of process `p`; `b` are
the arrays `work` and those inside the plan `fplan3d` before the call, `c` those inside `bplan3d`; `scr`, `ord` as for `fft3d`.  The `*=` of
453-517 read and write the element of their own zone only, so all are written back at once. -/
noncomputable def selfg3 (q : Par) (P N1 N2 N3 : ℕ) (L : ℕ → Loc) (scr scr' : ℕ → ℕ → Mem ℝ) (ord ord' : ℕ → ℕ → List ℕ)
    (d : ℕ → ℕ → ℕ → ℕ → ℝ) (b : ℕ → Bufs ℝ) (c : ℕ → Mem ℝ) : Option (ℕ → ℕ → ℕ → ℕ → ℝ) := do
  let s := setup3 P N1 N2 N3 L
  let b1 : ℕ → Bufs ℝ := fun p => ⟨fill3 (L p) (b p).user (fun i j k => ((d p i j k - q.rho0 : ℝ) : ℂ)), (b p).copy⟩
  let b2 ← fft3d (dft1 (-1)) s scr ord b1
  let b3 : ℕ → Bufs ℝ := fun p => ⟨fill3 (L p) (b2 p).user (gridCoef3 q N1 N2 N3 ⟨(L p).D1, (L p).D2, (L p).D3⟩
    (fun i j k => elt (b2 p).user (F3DI i j k (L p).n1 (L p).n2 (L p).n3))), c p⟩
  let b4 ← fft3d (dft1 1) s scr' ord' b3
  some fun p i j k => q.G4 * (elt (b4 p).user (F3DI i j k (L p).n1 (L p).n2 (L p).n3)).re / ((N3 * N2 * N1 : ℕ) : ℝ)

/-- `selfg_fft_2d` on all processes, selfg_fft.c:160-246. -/
noncomputable def selfg2 (q : Par) (P N1 N2 : ℕ) (L : ℕ → Loc) (scr scr' : ℕ → ℕ → Mem ℝ) (ord ord' : ℕ → ℕ → List ℕ)
    (d : ℕ → ℕ → ℕ → ℝ) (b : ℕ → Bufs ℝ) (c : ℕ → Mem ℝ) : Option (ℕ → ℕ → ℕ → ℝ) := do
  let s := setup2 P N1 N2 L
  let b1 : ℕ → Bufs ℝ := fun p => ⟨fill2 (L p) (b p).user (fun i j => ((q.G4 * (d p i j - q.rho0) : ℝ) : ℂ)), (b p).copy⟩
  let b2 ← fft2d (dft1 (-1)) s scr ord b1
  let b3 : ℕ → Bufs ℝ := fun p => ⟨fill2 (L p) (b2 p).user (gridCoef2 q N1 N2 ⟨(L p).D1, (L p).D2, (L p).D3⟩
    (fun i j => elt (b2 p).user (F2DI i j (L p).n1 (L p).n2))), c p⟩
  let b4 ← fft2d (dft1 1) s scr' ord' b3
  some fun p i j => (elt (b4 p).user (F2DI i j (L p).n1 (L p).n2)).re / ((N2 * N1 : ℕ) : ℝ)

/-! ## Specification -/

/-- The Grids lie in the Domain and together have all its zones. -/
structure Divided3 (P N1 N2 N3 : ℕ) (L : ℕ → Loc) : Prop where
  sub : ∀ p < P, (L p).D1 + (L p).n1 ≤ N1 ∧ (L p).D2 + (L p).n2 ≤ N2 ∧ (L p).D3 + (L p).n3 ≤ N3
  cov : ∀ a < N1, ∀ b < N2, ∀ c < N3, ∃ p < P, ((L p).D1 ≤ a ∧ a < (L p).D1 + (L p).n1) ∧ ((L p).D2 ≤ b ∧ b < (L p).D2 + (L p).n2)
    ∧ ((L p).D3 ≤ c ∧ c < (L p).D3 + (L p).n3)

structure Divided2 (P N1 N2 : ℕ) (L : ℕ → Loc) : Prop where
  sub : ∀ p < P, (L p).D1 + (L p).n1 ≤ N1 ∧ (L p).D2 + (L p).n2 ≤ N2
  cov : ∀ a < N1, ∀ b < N2, ∃ p < P, ((L p).D1 ≤ a ∧ a < (L p).D1 + (L p).n1) ∧ ((L p).D2 ≤ b ∧ b < (L p).D2 + (L p).n2)

/-- `ψ` is the potential of the density `ρ` in a periodic box of `N1 * N2 * N3` zones: it is periodic, its seven-point Laplacian is `4 π G` times the
density less its mean, and its own mean is zero. -/
structure IsPotential (q : Par) (N1 N2 N3 : ℕ) (ρ : ℕ → ℕ → ℕ → ℝ) (ψ : ℤ → ℤ → ℤ → ℝ) : Prop where
  per1 : ∀ i j k, ψ (i + N1) j k = ψ i j k
  per2 : ∀ i j k, ψ i (j + N2) k = ψ i j k
  per3 : ∀ i j k, ψ i j (k + N3) = ψ i j k
  poisson : ∀ i < N1, ∀ j < N2, ∀ k < N3,
    (ψ ((i : ℤ) - 1) j k - 2 * ψ i j k + ψ (i + 1) j k) / (q.dx1 * q.dx1) + (ψ i ((j : ℤ) - 1) k - 2 * ψ i j k + ψ i (j + 1) k) / (q.dx2 * q.dx2)
    + (ψ i j ((k : ℤ) - 1) - 2 * ψ i j k + ψ i j (k + 1)) / (q.dx3 * q.dx3)
    = q.G4 * (ρ i j k - (∑ i ∈ range N1, ∑ j ∈ range N2, ∑ k ∈ range N3, ρ i j k) / (N1 * N2 * N3))
  zero : ∑ i ∈ range N1, ∑ j ∈ range N2, ∑ k ∈ range N3, ψ i j k = 0

/-! ## Proofs -/

theorem elt_put_same (m : Mem ℝ) (a : ℤ) (z : ℂ) : elt (put m a z) a = z := by
  unfold elt put
  apply Complex.ext
  · simp only
    rw [Function.update_of_ne (by omega), Function.update_self]
  · simp only
    rw [Function.update_self]

theorem elt_put_ne (m : Mem ℝ) {a b : ℤ} (h : b ≠ a) (z : ℂ) : elt (put m a z) b = elt m b := by
  unfold elt put
  apply Complex.ext
  · simp only
    rw [Function.update_of_ne (by omega), Function.update_of_ne (by omega)]
  · simp only
    rw [Function.update_of_ne (by omega), Function.update_of_ne (by omega)]

theorem elt_fold_out {α : Type} (ad : α → ℤ) (v : α → ℂ) (l : List α) (m : Mem ℝ) {a : ℤ} (h : ∀ x ∈ l, ad x ≠ a) :
    elt (l.foldl (fun m z => put m (ad z) (v z)) m) a = elt m a := by
  induction l generalizing m with
  | nil => rfl
  | cons x l ih =>
    rw [List.foldl_cons, ih _ (fun y hy => h y (List.mem_cons_of_mem _ hy)), elt_put_ne]
    exact (h x (List.mem_cons_self ..)).symm

theorem elt_fold {α : Type} (ad : α → ℤ) (v : α → ℂ) (l : List α) (m : Mem ℝ) (h : ∀ x ∈ l, ∀ y ∈ l, ad x = ad y → x = y) {z : α} (hz : z ∈ l) :
    elt (l.foldl (fun m z => put m (ad z) (v z)) m) (ad z) = v z := by
  classical
  induction l generalizing m with
  | nil => simp at hz
  | cons x l ih =>
    rw [List.foldl_cons]
    by_cases hl : z ∈ l
    · exact ih _ (fun a ha b hb => h a (List.mem_cons_of_mem _ ha) b (List.mem_cons_of_mem _ hb)) hl
    · have hx : z = x := by
        rcases List.mem_cons.mp hz with h | h
        · exact h
        · exact absurd h hl
      subst hx
      rw [elt_fold_out, elt_put_same]
      intro y hy e
      have := h y (List.mem_cons_of_mem _ hy) z (List.mem_cons_self ..) e
      exact hl (this ▸ hy)

theorem mem_zones3 (L : Loc) (i j k : ℕ) : (i, j, k) ∈ zones3 L ↔ i < L.n1 ∧ j < L.n2 ∧ k < L.n3 := by
  unfold zones3
  simp only [List.mem_flatMap, List.mem_map, List.mem_range, Prod.mk.injEq]
  constructor
  · rintro ⟨c, hc, b, hb, a, ha, rfl, rfl, rfl⟩
    exact ⟨ha, hb, hc⟩
  · rintro ⟨a, b, c⟩
    exact ⟨k, c, j, b, i, a, rfl, rfl, rfl⟩

theorem mem_zones2 (L : Loc) (i j : ℕ) : (i, j) ∈ zones2 L ↔ i < L.n1 ∧ j < L.n2 := by
  unfold zones2
  simp only [List.mem_flatMap, List.mem_map, List.mem_range, Prod.mk.injEq]
  constructor
  · rintro ⟨b, hb, a, ha, rfl, rfl⟩
    exact ⟨ha, hb⟩
  · rintro ⟨a, b⟩
    exact ⟨j, b, i, a, rfl, rfl⟩

theorem F2DI_inj {i j i' j' n1 n2 : ℕ} (hj : j < n2) (hj' : j' < n2) (h : F2DI i j n1 n2 = F2DI i' j' n1 n2) : i = i' ∧ j = j' := by
  unfold F2DI at h
  have h' : j + n2 * i = j' + n2 * i' := by exact_mod_cast h
  have hm : j = j' := by
    have := congrArg (· % n2) h'
    simpa [Nat.add_mul_mod_self_left, Nat.mod_eq_of_lt hj, Nat.mod_eq_of_lt hj'] using this
  refine ⟨?_, hm⟩
  subst hm
  exact Nat.eq_of_mul_eq_mul_left (by omega) (by omega : n2 * i = n2 * i')

theorem F3DI_inj {i j k i' j' k' n1 n2 n3 : ℕ} (hj : j < n2) (hj' : j' < n2) (hk : k < n3) (hk' : k' < n3)
    (h : F3DI i j k n1 n2 n3 = F3DI i' j' k' n1 n2 n3) : i = i' ∧ j = j' ∧ k = k' := by
  have h2 : F2DI (j + n2 * i) k n2 n3 = F2DI (j' + n2 * i') k' n2 n3 := by
    unfold F3DI at h; unfold F2DI; push_cast; exact h
  obtain ⟨e, ek⟩ := F2DI_inj hk hk' h2
  obtain ⟨ei, ej⟩ := F2DI_inj (n1 := n1) hj hj' (by unfold F2DI; exact_mod_cast e)
  exact ⟨ei, ej, ek⟩

theorem elt_fill3 (L : Loc) (m : Mem ℝ) (v : ℕ → ℕ → ℕ → ℂ) {i j k : ℕ} (hi : i < L.n1) (hj : j < L.n2) (hk : k < L.n3) :
    elt (fill3 L m v) (F3DI i j k L.n1 L.n2 L.n3) = v i j k := by
  unfold fill3
  refine elt_fold (fun z : ℕ × ℕ × ℕ => F3DI z.1 z.2.1 z.2.2 L.n1 L.n2 L.n3) (fun z => v z.1 z.2.1 z.2.2) _ m ?_ ((mem_zones3 L i j k).mpr ⟨hi, hj, hk⟩)
  rintro ⟨a, b, c⟩ h ⟨a', b', c'⟩ h' e
  obtain ⟨-, hb, hc⟩ := (mem_zones3 L a b c).mp h
  obtain ⟨-, hb', hc'⟩ := (mem_zones3 L a' b' c').mp h'
  obtain ⟨rfl, rfl, rfl⟩ := F3DI_inj hb hb' hc hc' e
  rfl

theorem elt_fill2 (L : Loc) (m : Mem ℝ) (v : ℕ → ℕ → ℂ) {i j : ℕ} (hi : i < L.n1) (hj : j < L.n2) :
    elt (fill2 L m v) (F2DI i j L.n1 L.n2) = v i j := by
  unfold fill2
  refine elt_fold (fun z : ℕ × ℕ => F2DI z.1 z.2 L.n1 L.n2) (fun z => v z.1 z.2) _ m ?_ ((mem_zones2 L i j).mpr ⟨hi, hj⟩)
  rintro ⟨a, b⟩ h ⟨a', b'⟩ h' e
  obtain ⟨-, hb⟩ := (mem_zones2 L a b).mp h
  obtain ⟨-, hb'⟩ := (mem_zones2 L a' b').mp h'
  obtain ⟨rfl, rfl⟩ := F2DI_inj hb hb' e
  rfl

/-- A function on the zones of the Domain as the data set of the transforms (axes x3, x2, x1). -/
noncomputable def data3 (v : ℕ → ℕ → ℕ → ℂ) : ℤ → ℤ → ℤ → ℕ → ℝ :=
  fun k j i c => if c = 0 then (v i.toNat j.toNat k.toNat).re else (v i.toNat j.toNat k.toNat).im
noncomputable def data2 (v : ℕ → ℕ → ℂ) : ℤ → ℤ → ℕ → ℝ :=
  fun j i c => if c = 0 then (v i.toNat j.toNat).re else (v i.toNat j.toNat).im

theorem val_data3 (v : ℕ → ℕ → ℕ → ℂ) (i j k : ℕ) : val (data3 v) k j i = v i j k := by
  unfold Athena.Fft.val data3
  apply Complex.ext <;> simp

theorem val_data2 (v : ℕ → ℕ → ℂ) (i j : ℕ) : val2 (data2 v) j i = v i j := by
  unfold val2 data2
  apply Complex.ext <;> simp

theorem place_F3DI (P N1 N2 N3 : ℕ) (L : ℕ → Loc) (p i j k : ℕ) :
    place 0 ((setup3 P N1 N2 N3 L).box p) (((L p).D3 + k : ℕ) : ℤ) (((L p).D2 + j : ℕ) : ℤ) (((L p).D1 + i : ℕ) : ℤ)
      = F3DI i j k (L p).n1 (L p).n2 (L p).n3 := by
  unfold place F3DI setup3 Ext.jsize Ext.isize
  rw [if_pos rfl]
  push_cast
  ring

theorem place_F2DI (P N1 N2 : ℕ) (L : ℕ → Loc) (p i j : ℕ) :
    place2 0 ((setup2 P N1 N2 L).box p) (((L p).D2 + j : ℕ) : ℤ) (((L p).D1 + i : ℕ) : ℤ) = F2DI i j (L p).n1 (L p).n2 := by
  unfold place2 F2DI setup2 Ext2.isize
  rw [if_pos rfl]
  push_cast
  ring

variable {q : Par} {P N1 N2 N3 : ℕ} {L : ℕ → Loc}

theorem tiled3 (h : Divided3 P N1 N2 N3 L) : (setup3 P N1 N2 N3 L).Tiled := by
  constructor
  · intro p hp i j k hh
    have hs := h.sub p hp
    simp only [setup3, Ext.has] at hh
    simp only [Setup.all, setup3]
    omega
  · intro i j k hh
    simp only [Setup.all, setup3] at hh
    obtain ⟨p, hp, h1⟩ := h.cov k.toNat (by omega) j.toNat (by omega) i.toNat (by omega)
    refine ⟨p, hp, ?_⟩
    simp only [setup3, Ext.has]
    omega

theorem tiled2 (h : Divided2 P N1 N2 L) : (setup2 P N1 N2 L).Tiled := by
  constructor
  · intro p hp i j hh
    have hs := h.sub p hp
    simp only [setup2, Ext2.has] at hh
    simp only [Setup2.all, setup2]
    omega
  · intro i j hh
    simp only [Setup2.all, setup2] at hh
    obtain ⟨p, hp, h1⟩ := h.cov j.toNat (by omega) i.toNat (by omega)
    refine ⟨p, hp, ?_⟩
    simp only [setup2, Ext2.has]
    omega

/-- Filling the array of a process with the values of its zones gives it its part of the data set. -/
theorem holds3 (v : ℕ → ℕ → ℕ → ℂ) (p : ℕ) (m : Mem ℝ) (w : ℕ → ℕ → ℕ → ℂ)
    (h : ∀ i < (L p).n1, ∀ j < (L p).n2, ∀ k < (L p).n3, w i j k = v ((L p).D1 + i) ((L p).D2 + j) ((L p).D3 + k)) :
    Holds 2 0 ((setup3 P N1 N2 N3 L).box p) (data3 v) (fill3 (L p) m w) := by
  intro k j i hh c hc
  simp only [setup3, Ext.has] at hh
  obtain ⟨a, ha⟩ : ∃ a : ℕ, i = (((L p).D1 + a : ℕ) : ℤ) := ⟨(i - (L p).D1).toNat, by omega⟩
  obtain ⟨b, hb⟩ : ∃ b : ℕ, j = (((L p).D2 + b : ℕ) : ℤ) := ⟨(j - (L p).D2).toNat, by omega⟩
  obtain ⟨d, hd⟩ : ∃ d : ℕ, k = (((L p).D3 + d : ℕ) : ℤ) := ⟨(k - (L p).D3).toNat, by omega⟩
  have ha' : a < (L p).n1 := by omega
  have hb' : b < (L p).n2 := by omega
  have hd' : d < (L p).n3 := by omega
  subst ha hb hd
  rw [place_F3DI]
  have e := elt_fill3 (L p) m w ha' hb' hd'
  rw [h a ha' b hb' d hd'] at e
  unfold elt at e
  have e0 := congrArg Complex.re e
  have e1 := congrArg Complex.im e
  simp only at e0 e1
  have hc2 : c = 0 ∨ c = 1 := by omega
  unfold data3
  simp only [Int.toNat_natCast]
  rcases hc2 with rfl | rfl
  · rw [if_pos rfl, ← e0]; norm_num
  · rw [if_neg (by omega), ← e1]; norm_num

theorem holds2 (v : ℕ → ℕ → ℂ) (p : ℕ) (m : Mem ℝ) (w : ℕ → ℕ → ℂ)
    (h : ∀ i < (L p).n1, ∀ j < (L p).n2, w i j = v ((L p).D1 + i) ((L p).D2 + j)) :
    Holds2 2 0 ((setup2 P N1 N2 L).box p) (data2 v) (fill2 (L p) m w) := by
  intro j i hh c hc
  simp only [setup2, Ext2.has] at hh
  obtain ⟨a, ha⟩ : ∃ a : ℕ, i = (((L p).D1 + a : ℕ) : ℤ) := ⟨(i - (L p).D1).toNat, by omega⟩
  obtain ⟨b, hb⟩ : ∃ b : ℕ, j = (((L p).D2 + b : ℕ) : ℤ) := ⟨(j - (L p).D2).toNat, by omega⟩
  have ha' : a < (L p).n1 := by omega
  have hb' : b < (L p).n2 := by omega
  subst ha hb
  rw [place_F2DI]
  have e := elt_fill2 (L p) m w ha' hb'
  rw [h a ha' b hb'] at e
  unfold elt at e
  have e0 := congrArg Complex.re e
  have e1 := congrArg Complex.im e
  simp only at e0 e1
  have hc2 : c = 0 ∨ c = 1 := by omega
  unfold data2
  simp only [Int.toNat_natCast]
  rcases hc2 with rfl | rfl
  · rw [if_pos rfl, ← e0]; norm_num
  · rw [if_neg (by omega), ← e1]; norm_num

/-- The result of a transform, zone by zone. -/
theorem transform3 (sgn : ℝ) (hP : 0 < P) (h3 : 0 < N3) (hd : Divided3 P N1 N2 N3 L) (hc : (setup3 P N1 N2 N3 L).Counts)
    (scr : ℕ → ℕ → Mem ℝ) (ord : ℕ → ℕ → List ℕ) (ho : Arrive (setup3 P N1 N2 N3 L) ord) (v : ℕ → ℕ → ℕ → ℂ) (b : ℕ → Bufs ℝ)
    (hb : ∀ p < P, Holds 2 0 ((setup3 P N1 N2 N3 L).box p) (data3 v) (b p).user) :
    ∃ b', fft3d (dft1 sgn) (setup3 P N1 N2 N3 L) scr ord b = some b' ∧ ∀ p < P, ∀ i < (L p).n1, ∀ j < (L p).n2, ∀ k < (L p).n3,
      elt (b' p).user (F3DI i j k (L p).n1 (L p).n2 (L p).n3) = dft3 sgn N1 N2 N3 v ((L p).D1 + i) ((L p).D2 + j) ((L p).D3 + k) := by
  obtain ⟨b', e, h⟩ := ath_3d_fft_partial sgn (setup3 P N1 N2 N3 L) hP h3 (tiled3 hd) hc scr ord ho (data3 v) b hb
  refine ⟨b', e, fun p hp i hi j hj k hk => ?_⟩
  have := h p hp ((L p).D1 + i) ((L p).D2 + j) ((L p).D3 + k) (by simp only [setup3, Ext.has]; omega)
  rw [place_F3DI] at this
  unfold elt
  rw [this]
  have ev : (fun i j k : ℕ => val (data3 v) k j i) = v := by funext i j k; exact val_data3 v i j k
  show dft3 sgn N1 N2 N3 (fun i j k : ℕ => val (data3 v) k j i) _ _ _ = _
  rw [ev]

theorem transform2 (sgn : ℝ) (hP : 0 < P) (h2 : 0 < N2) (hd : Divided2 P N1 N2 L) (hc : (setup2 P N1 N2 L).Counts)
    (scr : ℕ → ℕ → Mem ℝ) (ord : ℕ → ℕ → List ℕ) (ho : Arrive2 (setup2 P N1 N2 L) ord) (v : ℕ → ℕ → ℂ) (b : ℕ → Bufs ℝ)
    (hb : ∀ p < P, Holds2 2 0 ((setup2 P N1 N2 L).box p) (data2 v) (b p).user) :
    ∃ b', fft2d (dft1 sgn) (setup2 P N1 N2 L) scr ord b = some b' ∧ ∀ p < P, ∀ i < (L p).n1, ∀ j < (L p).n2,
      elt (b' p).user (F2DI i j (L p).n1 (L p).n2) = dft2 sgn N1 N2 v ((L p).D1 + i) ((L p).D2 + j) := by
  obtain ⟨b', e, h⟩ := ath_2d_fft_partial sgn (setup2 P N1 N2 L) hP h2 (tiled2 hd) hc scr ord ho (data2 v) b hb
  refine ⟨b', e, fun p hp i hi j hj => ?_⟩
  have := h p hp ((L p).D1 + i) ((L p).D2 + j) (by simp only [setup2, Ext2.has]; omega)
  rw [place_F2DI] at this
  unfold elt
  rw [this]
  have ev : (fun i j : ℕ => val2 (data2 v) j i) = v := by funext i j; exact val_data2 v i j
  show dft2 sgn N1 N2 (fun i j : ℕ => val2 (data2 v) j i) _ _ = _
  rw [ev]

/-- All processes together compute what one process with the whole Domain computes. -/
theorem selfg3_one (hP : 0 < P) (h3 : 0 < N3) (hd : Divided3 P N1 N2 N3 L) (hc : (setup3 P N1 N2 N3 L).Counts) (scr scr' : ℕ → ℕ → Mem ℝ)
    (ord ord' : ℕ → ℕ → List ℕ) (ho : Arrive (setup3 P N1 N2 N3 L) ord) (ho' : Arrive (setup3 P N1 N2 N3 L) ord') (ρ : ℕ → ℕ → ℕ → ℝ) (b : ℕ → Bufs ℝ)
    (c : ℕ → Mem ℝ) :
    ∃ Φ, selfg3 q P N1 N2 N3 L scr scr' ord ord' (fun p i j k => ρ ((L p).D1 + i) ((L p).D2 + j) ((L p).D3 + k)) b c = some Φ
      ∧ ∀ p < P, ∀ i < (L p).n1, ∀ j < (L p).n2, ∀ k < (L p).n3,
        Φ p i j k = potential3 q N1 N2 N3 (fun _ _ _ => ⟨0, 0, 0⟩) ρ ((L p).D1 + i) ((L p).D2 + j) ((L p).D3 + k) := by
  set b1 : ℕ → Bufs ℝ := fun p => ⟨fill3 (L p) (b p).user (fun i j k => ((ρ ((L p).D1 + i) ((L p).D2 + j) ((L p).D3 + k) - q.rho0 : ℝ) : ℂ)),
    (b p).copy⟩ with hb1
  obtain ⟨b2, e2, h2⟩ := transform3 (-1) hP h3 hd hc scr ord ho (fun i j k => ((ρ i j k - q.rho0 : ℝ) : ℂ)) b1
    (fun p _ => holds3 _ p _ _ (fun i _ j _ k _ => rfl))
  set W := dft3 (-1) N1 N2 N3 (fun i j k => ((ρ i j k - q.rho0 : ℝ) : ℂ)) with hW
  set b3 : ℕ → Bufs ℝ := fun p => ⟨fill3 (L p) (b2 p).user (gridCoef3 q N1 N2 N3 ⟨(L p).D1, (L p).D2, (L p).D3⟩
    (fun i j k => elt (b2 p).user (F3DI i j k (L p).n1 (L p).n2 (L p).n3))), c p⟩ with hb3
  obtain ⟨b4, e4, h4⟩ := transform3 1 hP h3 hd hc scr' ord' ho' (domCoef3 q N1 N2 N3 (fun _ _ _ => ⟨0, 0, 0⟩) W) b3
    (fun p hp => holds3 _ p _ _ (fun i hi j hj k hk => by
      rw [gridCoef3_eq, domCoef3_eq q (by intro a b c; simp), h2 p hp i hi j hj k hk]
      simp only [Nat.add_comm]))
  refine ⟨fun p i j k => q.G4 * (elt (b4 p).user (F3DI i j k (L p).n1 (L p).n2 (L p).n3)).re / ((N3 * N2 * N1 : ℕ) : ℝ), ?_, ?_⟩
  · unfold selfg3
    dsimp only
    rw [← hb1, e2]
    dsimp only [Option.bind_eq_bind, Option.bind_some]
    rw [← hb3, e4]
    rfl
  · intro p hp i hi j hj k hk
    dsimp only
    rw [h4 p hp i hi j hj k hk]
    rfl

theorem selfg2_one (hP : 0 < P) (h2 : 0 < N2) (hd : Divided2 P N1 N2 L) (hc : (setup2 P N1 N2 L).Counts) (scr scr' : ℕ → ℕ → Mem ℝ)
    (ord ord' : ℕ → ℕ → List ℕ) (ho : Arrive2 (setup2 P N1 N2 L) ord) (ho' : Arrive2 (setup2 P N1 N2 L) ord') (ρ : ℕ → ℕ → ℝ) (b : ℕ → Bufs ℝ)
    (c : ℕ → Mem ℝ) :
    ∃ Φ, selfg2 q P N1 N2 L scr scr' ord ord' (fun p i j => ρ ((L p).D1 + i) ((L p).D2 + j)) b c = some Φ
      ∧ ∀ p < P, ∀ i < (L p).n1, ∀ j < (L p).n2,
        Φ p i j = potential2 q N1 N2 (fun _ _ => ⟨0, 0, 0⟩) ρ ((L p).D1 + i) ((L p).D2 + j) := by
  set b1 : ℕ → Bufs ℝ := fun p => ⟨fill2 (L p) (b p).user (fun i j => ((q.G4 * (ρ ((L p).D1 + i) ((L p).D2 + j) - q.rho0) : ℝ) : ℂ)),
    (b p).copy⟩ with hb1
  obtain ⟨b2, e2, h2'⟩ := transform2 (-1) hP h2 hd hc scr ord ho (fun i j => ((q.G4 * (ρ i j - q.rho0) : ℝ) : ℂ)) b1
    (fun p _ => holds2 _ p _ _ (fun i _ j _ => rfl))
  set W := dft2 (-1) N1 N2 (fun i j => ((q.G4 * (ρ i j - q.rho0) : ℝ) : ℂ)) with hW
  set b3 : ℕ → Bufs ℝ := fun p => ⟨fill2 (L p) (b2 p).user (gridCoef2 q N1 N2 ⟨(L p).D1, (L p).D2, (L p).D3⟩
    (fun i j => elt (b2 p).user (F2DI i j (L p).n1 (L p).n2))), c p⟩ with hb3
  obtain ⟨b4, e4, h4⟩ := transform2 1 hP h2 hd hc scr' ord' ho' (domCoef2 q N1 N2 (fun _ _ => ⟨0, 0, 0⟩) W) b3
    (fun p hp => holds2 _ p _ _ (fun i hi j hj => by
      rw [gridCoef2_eq, domCoef2_eq q (by intro a b; simp), h2' p hp i hi j hj]
      simp only [Nat.add_comm]))
  refine ⟨fun p i j => (elt (b4 p).user (F2DI i j (L p).n1 (L p).n2)).re / ((N2 * N1 : ℕ) : ℝ), ?_, ?_⟩
  · unfold selfg2
    dsimp only
    rw [← hb1, e2]
    dsimp only [Option.bind_eq_bind, Option.bind_some]
    rw [← hb3, e4]
    rfl
  · intro p hp i hi j hj
    dsimp only
    rw [h4 p hp i hi j hj]
    rfl

theorem Psi_is (hq : q.Ok) (h1 : 0 < N1) (h2 : 0 < N2) (h3 : 0 < N3) (ρ : ℕ → ℕ → ℕ → ℝ) : IsPotential q N1 N2 N3 ρ (Psi q N1 N2 N3 ρ) :=
  ⟨Psi_per1 q h1 ρ, Psi_per2 q h2 ρ, Psi_per3 q h3 ρ, fun _ hi _ hj _ hk => Psi_poisson hq h1 h2 h3 ρ hi hj hk, Psi_mean h1 h2 h3 ρ⟩

/-! ## Properties -/

/-- **The potential of the gas on any number of processes.**  For every division of a periodic Domain into Grids for which each process transforms
as many lines as it owns (`Counts`; see `counts_distinct`, `counts_pre`, `counts_even`, `counts_one`), every density, every order in which messages
arrive and whatever the arrays held before: all processes obtain their part of one and the same solution of Poisson's equation, which depends on
the density alone. -/
theorem selfg3_parallel_partial (hq : q.Ok) (h1 : 0 < N1) (h2 : 0 < N2) (h3 : 0 < N3) (ρ : ℕ → ℕ → ℕ → ℝ) :
    ∃ ψ, IsPotential q N1 N2 N3 ρ ψ ∧ ∀ (P : ℕ) (L : ℕ → Loc), 0 < P → Divided3 P N1 N2 N3 L → (setup3 P N1 N2 N3 L).Counts →
      ∀ scr scr' ord ord' b c, Arrive (setup3 P N1 N2 N3 L) ord → Arrive (setup3 P N1 N2 N3 L) ord' →
        ∃ Φ, selfg3 q P N1 N2 N3 L scr scr' ord ord' (fun p i j k => ρ ((L p).D1 + i) ((L p).D2 + j) ((L p).D3 + k)) b c = some Φ
          ∧ ∀ p < P, ∀ i < (L p).n1, ∀ j < (L p).n2, ∀ k < (L p).n3,
            Φ p i j k = ψ (((L p).D1 + i : ℕ) : ℤ) (((L p).D2 + j : ℕ) : ℤ) (((L p).D3 + k : ℕ) : ℤ) := by
  refine ⟨Psi q N1 N2 N3 ρ, Psi_is hq h1 h2 h3 ρ, fun P L hP hd hc scr scr' ord ord' b c ho ho' => ?_⟩
  obtain ⟨Φ, e, h⟩ := selfg3_one (q := q) hP h3 hd hc scr scr' ord ord' ho ho' ρ b c
  refine ⟨Φ, e, fun p hp i hi j hj k hk => ?_⟩
  rw [h p hp i hi j hj k hk, potential3_eq q (by intro a b c; simp)]

/-- **The same in two dimensions.** -/
theorem selfg2_parallel_partial (hq : q.Ok) (h1 : 0 < N1) (h2 : 0 < N2) (ρ : ℕ → ℕ → ℝ) :
    ∃ ψ, IsPotential q N1 N2 1 (fun i j _ => ρ i j) ψ ∧ ∀ (P : ℕ) (L : ℕ → Loc), 0 < P → Divided2 P N1 N2 L → (setup2 P N1 N2 L).Counts →
      ∀ scr scr' ord ord' b c, Arrive2 (setup2 P N1 N2 L) ord → Arrive2 (setup2 P N1 N2 L) ord' →
        ∃ Φ, selfg2 q P N1 N2 L scr scr' ord ord' (fun p i j => ρ ((L p).D1 + i) ((L p).D2 + j)) b c = some Φ
          ∧ ∀ p < P, ∀ i < (L p).n1, ∀ j < (L p).n2, Φ p i j = ψ (((L p).D1 + i : ℕ) : ℤ) (((L p).D2 + j : ℕ) : ℤ) 0 := by
  refine ⟨Psi q N1 N2 1 (fun i j _ => ρ i j), Psi_is hq h1 h2 one_pos _, fun P L hP hd hc scr scr' ord ord' b c ho ho' => ?_⟩
  obtain ⟨Φ, e, h⟩ := selfg2_one (q := q) hP h2 hd hc scr scr' ord ord' ho ho' ρ b c
  refine ⟨Φ, e, fun p hp i hi j hj => ?_⟩
  rw [h p hp i hi j hj, potential2_eq q (by intro a b; simp)]

/-- The hypotheses are met: `8 * 4 * 6` zones on two processes divided along x1, ... -/
example : ∃ L : ℕ → Loc, Divided3 2 8 4 6 L ∧ (setup3 2 8 4 6 L).Counts := by
  refine ⟨fun p => ⟨4 * p, 0, 0, 4, 4, 6⟩, ⟨?_, ?_⟩, counts_distinct _ (by decide) (by decide) (by decide) (by decide) (by decide)⟩
  · intro p hp; dsimp only; omega
  · intro a ha b hb c hc
    by_cases h : a < 4
    · exact ⟨0, by omega, by dsimp only; omega⟩
    · exact ⟨1, by omega, by dsimp only; omega⟩

/-- ... and `5 * 5` zones on two processes divided along x2 (divided along x1 the transform goes wrong, `fft2d_false`). -/
example : ∃ L : ℕ → Loc, Divided2 2 5 5 L ∧ (setup2 2 5 5 L).Counts := by
  refine ⟨fun p => if p = 0 then ⟨0, 0, 0, 5, 3, 1⟩ else ⟨0, 3, 0, 5, 2, 1⟩, ⟨?_, ?_⟩, counts2_pre _ (by decide) (by decide) ⟨0, by decide, by decide⟩⟩
  · intro p hp; split <;> simp
  · intro a ha b hb
    by_cases h : b < 3
    · exact ⟨0, by omega, by simp; omega⟩
    · exact ⟨1, by omega, by simp; omega⟩

end Athena.Grav
