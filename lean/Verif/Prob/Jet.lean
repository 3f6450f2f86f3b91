import Verif.Run.Setup
import Mathlib.Analysis.SpecialFunctions.Sqrt
import Mathlib.Tactic.FieldSimp
import Mathlib.Tactic.Ring

/-!
# The jet: the boundary condition of prob/jet.c

`jet_iib` fills the ghost zones to the left of the root Domain: with the state of the jet near the axis, with a mirror image of the zones inside elsewhere.
The state of the jet, its radius and its axis are static variables of the generator, set by `problem` and by `problem_read_restart` (`Athena.Setup.jet`).

Simplifications: no passive scalars; real numbers instead of floating-point numbers; the zones written by the loops are ghost zones and the zones read are not, so the loops are
given by what they leave in each zone.
-/

namespace Athena.Jet

open Athena.Setup

/-- `ConsS`, athena.h:39-66. -/
@[ext] structure Zone where
  d : ℝ
  M1 : ℝ
  M2 : ℝ
  M3 : ℝ
  E : ℝ
  B1c : ℝ
  B2c : ℝ
  B3c : ℝ

/-- The Grid: indices of the active zones, `nghost`, the edge and size of the zones in x2 and x3, and the arrays, by `k`, `j`, `i`. -/
structure Grid where
  is : ℤ
  js : ℤ
  je : ℤ
  ks : ℤ
  ke : ℤ
  ng : ℤ
  min2 : ℝ
  min3 : ℝ
  dx2 : ℝ
  dx3 : ℝ
  U : ℤ → ℤ → ℤ → Zone
  B1i : ℤ → ℤ → ℤ → ℝ
  B2i : ℤ → ℤ → ℤ → ℝ
  B3i : ℤ → ℤ → ℤ → ℝ

/-- `x2` and `x3` of `cc_pos`, cc_pos.c:39-40. -/
noncomputable def Grid.x2 (G : Grid) (j : ℤ) : ℝ := G.min2 + ((j - G.js : ℤ) + 1 / 2) * G.dx2
@[inherit_doc Grid.x2]
noncomputable def Grid.x3 (G : Grid) (k : ℤ) : ℝ := G.min3 + ((k - G.ks : ℤ) + 1 / 2) * G.dx3

/-- `Ujet`, with `Bxjet`, jet.c:75, 161: `Prim1D_to_Cons1D`, convert_var.c:432-462 (adiabatic).  Without MHD there is no field. -/
noncomputable def Ujet (gam1 : ℝ) (mhd : Bool) (v : String → ℝ) : Zone :=
  let b : String → ℝ := fun s => if mhd then v s else 0
  { d := v "Wjet.d"
    M1 := v "Wjet.d" * v "Wjet.Vx"
    M2 := v "Wjet.d" * v "Wjet.Vy"
    M3 := v "Wjet.d" * v "Wjet.Vz"
    E := v "Wjet.P" / gam1 + 1 / 2 * v "Wjet.d" * (v "Wjet.Vx" ^ 2 + v "Wjet.Vy" ^ 2 + v "Wjet.Vz" ^ 2)
      + 1 / 2 * (b "Bxjet" ^ 2 + b "Wjet.By" ^ 2 + b "Wjet.Bz" ^ 2)
    B1c := b "Bxjet"
    B2c := b "Wjet.By"
    B3c := b "Wjet.Bz" }

/-- The test of jet.c:207-209. -/
def inside (v : String → ℝ) (G : Grid) (j k : ℤ) : Prop :=
  Real.sqrt ((G.x2 j - v "x2_mid") ^ 2 + (G.x3 k - v "x3_mid") ^ 2) ≤ v "rjet"

open Classical in
/-- `jet_iib`, jet.c:198-242. -/
noncomputable def jetIib (gam1 : ℝ) (mhd : Bool) (v : String → ℝ) (G : Grid) : Grid :=
  let hit (k j m : ℤ) : Prop := G.ks ≤ k ∧ k ≤ G.ke ∧ G.js ≤ j ∧ j ≤ G.je ∧ G.is - G.ng ≤ m ∧ m ≤ G.is - 1
  let J := Ujet gam1 mhd v
  { G with
    U := fun k j m =>
      if hit k j m then
        if inside v G j k then (if mhd then J else { J with B1c := (G.U k j m).B1c, B2c := (G.U k j m).B2c, B3c := (G.U k j m).B3c })
        else
          let i := G.is - m
          let z := G.U k j (G.is + (i - 1))
          let z := { z with M1 := -z.M1 }
          if mhd then { z with B2c := -z.B2c, B3c := -z.B3c } else z
      else G.U k j m
    B1i := fun k j m => if mhd = true ∧ hit k j m then (if inside v G j k then J.B1c else G.B1i k j (G.is + (G.is - m))) else G.B1i k j m
    B2i := fun k j m => if mhd = true ∧ hit k j m then (if inside v G j k then J.B2c else -G.B2i k j (G.is + (G.is - m - 1))) else G.B2i k j m
    B3i := fun k j m => if mhd = true ∧ hit k j m then (if inside v G j k then J.B3c else -G.B3i k j (G.is + (G.is - m - 1))) else G.B3i k j m }

/-! ## Specification -/

/-- The centre of zone `n` (from 0), half way between its faces. -/
noncomputable def mid (min dx : ℝ) (n : ℤ) : ℝ := ((min + n * dx) + (min + (n + 1) * dx)) / 2

/-- The centre of the zones `(j, k)` is in the nozzle: within `rjet` of the axis of the root Domain. -/
def InNozzle (c : Conf) (G : Grid) (j k : ℤ) : Prop :=
  (mid G.min2 G.dx2 (j - G.js) - (c.rmin 1 + c.rmax 1) / 2) ^ 2 + (mid G.min3 G.dx3 (k - G.ks) - (c.rmin 2 + c.rmax 2) / 2) ^ 2 ≤ c.par "rjet" ^ 2

/-- A ghost zone at the left, `n` zones away from the boundary. -/
def Ghost (G : Grid) (k j n : ℤ) : Prop := G.ks ≤ k ∧ k ≤ G.ke ∧ G.js ≤ j ∧ j ≤ G.je ∧ 1 ≤ n ∧ n ≤ G.ng

/-- Density, velocity, pressure and field of a zone are those given for the jet in the input. -/
def IsJet (gam1 : ℝ) (c : Conf) (z : Zone) : Prop :=
  z.d = c.par "djet" ∧ z.M1 = z.d * c.par "vxjet" ∧ z.M2 = z.d * c.par "vyjet" ∧ z.M3 = z.d * c.par "vzjet" ∧
    z.B1c = c.par "bxjet" ∧ z.B2c = c.par "byjet" ∧ z.B3c = c.par "bzjet" ∧
    gam1 * (z.E - (z.M1 ^ 2 + z.M2 ^ 2 + z.M3 ^ 2) / (2 * z.d) - (z.B1c ^ 2 + z.B2c ^ 2 + z.B3c ^ 2) / 2) = c.par "pjet"

/-- `z` is the mirror image of `w`: the velocity across the mirror is reversed, and the field along it. -/
def IsMirror (z w : Zone) : Prop :=
  z.d = w.d ∧ z.M1 = -w.M1 ∧ z.M2 = w.M2 ∧ z.M3 = w.M3 ∧ z.E = w.E ∧ z.B1c = w.B1c ∧ z.B2c = -w.B2c ∧ z.B3c = -w.B3c

/-- The divergence of the field in a zone. -/
noncomputable def div (dx1 : ℝ) (G : Grid) (k j i : ℤ) : ℝ :=
  (G.B1i k j (i + 1) - G.B1i k j i) / dx1 + (G.B2i k (j + 1) i - G.B2i k j i) / G.dx2 + (G.B3i (k + 1) j i - G.B3i k j i) / G.dx3

/-! ## Lemmas -/

theorem new_vars (c : Conf) {ds : List Dom} (h : Mesh ds) : (newRun jet c ds).var = assign (fun _ => 0) (jet.prob.var c) := by
  rw [new_eq _ _ h.1]; rfl

theorem restarted_vars (c : Conf) (ds : List Dom) : (restarted jet c ds).var = assign (fun _ => 0) (jetVars c) := by
  rw [restarted_eq]; rfl

theorem new_val (c : Conf) (hm : c.mhd = true) {ds : List Dom} (h : Mesh ds) :
    let v := (newRun jet c ds).var
    v "Wjet.d" = c.par "djet" ∧ v "Wjet.P" = c.par "pjet" ∧ v "Wjet.Vx" = c.par "vxjet" ∧ v "Wjet.Vy" = c.par "vyjet" ∧ v "Wjet.Vz" = c.par "vzjet" ∧
      v "Bxjet" = c.par "bxjet" ∧ v "Wjet.By" = c.par "byjet" ∧ v "Wjet.Bz" = c.par "bzjet" ∧ v "rjet" = c.par "rjet" ∧
      v "x2_mid" = (c.rmin 1 + c.rmax 1) / 2 ∧ v "x3_mid" = (c.rmin 2 + c.rmax 2) / 2 := by
  intro v
  have e : v = assign (fun _ => 0) (jet.prob.var c) := new_vars c h
  rw [e]
  unfold jet jetVars
  dsimp only
  rw [hm]
  simp [assign, Function.update]
  constructor <;> ring

theorem x2_mid (G : Grid) (j : ℤ) : G.x2 j = mid G.min2 G.dx2 (j - G.js) := by unfold Grid.x2 mid; ring
theorem x3_mid (G : Grid) (k : ℤ) : G.x3 k = mid G.min3 G.dx3 (k - G.ks) := by unfold Grid.x3 mid; ring

theorem inside_iff (c : Conf) (hm : c.mhd = true) {ds : List Dom} (h : Mesh ds) (hr : 0 ≤ c.par "rjet") (G : Grid) (j k : ℤ) :
    inside (newRun jet c ds).var G j k ↔ InNozzle c G j k := by
  obtain ⟨_, _, _, _, _, _, _, _, e1, e2, e3⟩ := new_val c hm h
  unfold inside InNozzle
  rw [e1, e2, e3, Real.sqrt_le_iff, x2_mid, x3_mid]
  exact ⟨fun h => h.2, fun h => ⟨hr, h⟩⟩

theorem hit_of {G : Grid} {k j n : ℤ} (h : Ghost G k j n) :
    G.ks ≤ k ∧ k ≤ G.ke ∧ G.js ≤ j ∧ j ≤ G.je ∧ G.is - G.ng ≤ G.is - n ∧ G.is - n ≤ G.is - 1 := by
  obtain ⟨h1, h2, h3, h4, h5, h6⟩ := h
  exact ⟨h1, h2, h3, h4, by omega, by omega⟩

/-! ## Properties -/

/-- **C142.** Every ghost zone in the nozzle holds the jet of the input. -/
theorem nozzle_partial (gam1 : ℝ) (hg : gam1 ≠ 0) (c : Conf) (hm : c.mhd = true) {ds : List Dom} (h : Mesh ds) (hr : 0 ≤ c.par "rjet")
    (hd : c.par "djet" ≠ 0) (G : Grid) {k j n : ℤ} (hz : Ghost G k j n) (hn : InNozzle c G j k) :
    let G' := jetIib gam1 true (newRun jet c ds).var G
    IsJet gam1 c (G'.U k j (G.is - n)) ∧ G'.B1i k j (G.is - n) = c.par "bxjet" ∧ G'.B2i k j (G.is - n) = c.par "byjet" ∧
      G'.B3i k j (G.is - n) = c.par "bzjet" := by
  intro G'
  have hh := hit_of hz
  have hi := (inside_iff c hm h hr G j k).2 hn
  obtain ⟨e1, e2, e3, e4, e5, e6, e7, e8, -⟩ := new_val c hm h
  have eU : G'.U k j (G.is - n) = Ujet gam1 true (newRun jet c ds).var := by
    show (if _ then _ else _) = _
    rw [if_pos hh, if_pos hi, if_pos rfl]
  refine ⟨?_, ?_, ?_, ?_⟩
  · rw [eU]
    unfold IsJet Ujet
    dsimp only
    rw [if_pos rfl, if_pos rfl, if_pos rfl, e1, e2, e3, e4, e5, e6, e7, e8]
    refine ⟨rfl, rfl, rfl, rfl, rfl, rfl, rfl, ?_⟩
    field_simp
    ring
  · show (if _ then _ else _) = _
    rw [if_pos ⟨rfl, hh⟩, if_pos hi]; exact e6
  · show (if _ then _ else _) = _
    rw [if_pos ⟨rfl, hh⟩, if_pos hi]; exact e7
  · show (if _ then _ else _) = _
    rw [if_pos ⟨rfl, hh⟩, if_pos hi]; exact e8

/-- **C142.** Every other one is the mirror image of the zone as far inside; the fields of the faces are mirrored as well. -/
theorem wall_partial (gam1 : ℝ) (c : Conf) (hm : c.mhd = true) {ds : List Dom} (h : Mesh ds) (hr : 0 ≤ c.par "rjet") (G : Grid) {k j n : ℤ}
    (hz : Ghost G k j n) (hn : ¬InNozzle c G j k) :
    let G' := jetIib gam1 true (newRun jet c ds).var G
    IsMirror (G'.U k j (G.is - n)) (G.U k j (G.is + n - 1)) ∧ G'.B1i k j (G.is - n) = G.B1i k j (G.is + n) ∧
      G'.B2i k j (G.is - n) = -G.B2i k j (G.is + n - 1) ∧ G'.B3i k j (G.is - n) = -G.B3i k j (G.is + n - 1) := by
  intro G'
  have hh := hit_of hz
  have hi : ¬inside (newRun jet c ds).var G j k := fun hi => hn ((inside_iff c hm h hr G j k).1 hi)
  have e : G.is + (G.is - (G.is - n) - 1) = G.is + n - 1 := by ring
  have e' : G.is + (G.is - (G.is - n)) = G.is + n := by ring
  refine ⟨?_, ?_, ?_, ?_⟩
  · show IsMirror (if _ then _ else _) _
    rw [if_pos hh, if_neg hi, if_pos rfl, e]
    exact ⟨rfl, rfl, rfl, rfl, rfl, rfl, rfl, rfl⟩
  · show (if _ then _ else _) = _
    rw [if_pos ⟨rfl, hh⟩, if_neg hi, e']
  · show (if _ then _ else _) = _
    rw [if_pos ⟨rfl, hh⟩, if_neg hi, e]
  · show (if _ then _ else _) = _
    rw [if_pos ⟨rfl, hh⟩, if_neg hi, e]

/-- Nothing else is changed. -/
theorem rest_kept (gam1 : ℝ) (mhd : Bool) (v : String → ℝ) (G : Grid) {k j m : ℤ} (hz : ¬Ghost G k j (G.is - m)) :
    let G' := jetIib gam1 mhd v G
    G'.U k j m = G.U k j m ∧ G'.B1i k j m = G.B1i k j m ∧ G'.B2i k j m = G.B2i k j m ∧ G'.B3i k j m = G.B3i k j m := by
  intro G'
  have hh : ¬(G.ks ≤ k ∧ k ≤ G.ke ∧ G.js ≤ j ∧ j ≤ G.je ∧ G.is - G.ng ≤ m ∧ m ≤ G.is - 1) := by
    rintro ⟨h1, h2, h3, h4, h5, h6⟩
    exact hz ⟨h1, h2, h3, h4, by omega, by omega⟩
  refine ⟨if_neg hh, if_neg fun h => hh h.2, if_neg fun h => hh h.2, if_neg fun h => hh h.2⟩

/-- **C142.** Where a zone and the next ones above it are in the nozzle, or none is, no monopole is put into the ghost zones: the divergence there is zero,
or that of the mirror image (with the other sign). -/
theorem ghost_div_partial (gam1 dx1 : ℝ) (c : Conf) (hm : c.mhd = true) {ds : List Dom} (h : Mesh ds) (hr : 0 ≤ c.par "rjet") (G : Grid)
    {k j n : ℤ} (hz : Ghost G k j n) (hj : j < G.je) (hk : k < G.ke) :
    let G' := jetIib gam1 true (newRun jet c ds).var G
    (InNozzle c G j k ∧ InNozzle c G (j + 1) k ∧ InNozzle c G j (k + 1) ∧ 2 ≤ n → div dx1 G' k j (G.is - n) = 0) ∧
      (¬InNozzle c G j k ∧ ¬InNozzle c G (j + 1) k ∧ ¬InNozzle c G j (k + 1) → div dx1 G' k j (G.is - n) = -div dx1 G k j (G.is + n - 1)) := by
  intro G'
  obtain ⟨h1, h2, h3, h4, h5, h6⟩ := hz
  have hz : Ghost G k j n := ⟨h1, h2, h3, h4, h5, h6⟩
  have zj : Ghost G k (j + 1) n := ⟨h1, h2, by omega, by omega, h5, h6⟩
  have zk : Ghost G (k + 1) j n := ⟨by omega, by omega, h3, h4, h5, h6⟩
  have en : G.is - n + 1 = G.is - (n - 1) := by ring
  have d2 : G'.dx2 = G.dx2 := rfl
  have d3 : G'.dx3 = G.dx3 := rfl
  have en' : G.is + n - 1 + 1 = G.is + n := by ring
  refine ⟨?_, ?_⟩
  · rintro ⟨n1, n2, n3, hn⟩
    have val : ∀ k j n, Ghost G k j n → InNozzle c G j k →
        G'.B1i k j (G.is - n) = (Ujet gam1 true (newRun jet c ds).var).B1c ∧ G'.B2i k j (G.is - n) = (Ujet gam1 true (newRun jet c ds).var).B2c ∧
          G'.B3i k j (G.is - n) = (Ujet gam1 true (newRun jet c ds).var).B3c := by
      intro k j n hz hn
      have hh := hit_of hz
      have hi := (inside_iff c hm h hr G j k).2 hn
      refine ⟨?_, ?_, ?_⟩ <;>
      · show (if _ then _ else _) = _
        rw [if_pos ⟨rfl, hh⟩, if_pos hi]
    unfold div
    rw [en, (val k j n hz n1).1, (val k j (n - 1) ⟨h1, h2, h3, h4, by omega, by omega⟩ n1).1, (val k j n hz n1).2.1, (val k (j + 1) n zj n2).2.1,
      (val k j n hz n1).2.2, (val (k + 1) j n zk n3).2.2]
    simp
  · rintro ⟨n1, n2, n3⟩
    have w := wall_partial gam1 c hm h hr G hz n1
    have wj := wall_partial gam1 c hm h hr G zj n2
    have wk := wall_partial gam1 c hm h hr G zk n3
    have w1 : G'.B1i k j (G.is - n + 1) = G.B1i k j (G.is + n - 1) := by
      rcases eq_or_lt_of_le h5 with rfl | hlt
      · have := (rest_kept gam1 true (newRun jet c ds).var G (k := k) (j := j) (m := G.is) (by rintro ⟨_, _, _, _, h, _⟩; omega)).2.1
        rw [sub_add_cancel, add_sub_cancel_right]; exact this
      · have := (wall_partial gam1 c hm h hr G (k := k) (j := j) (n := n - 1) ⟨h1, h2, h3, h4, by omega, by omega⟩ n1).2.1
        rw [en, show G.is + n - 1 = G.is + (n - 1) by ring]; exact this
    unfold div
    rw [w1, w.2.1, w.2.2.1, wj.2.2.1, w.2.2.2, wk.2.2.2, en', d2, d3]
    ring

/-- **C142** fails on the last face: the field on the upper x2-face of the last ghost zone of a row belongs to no row and is never set, so it stays what it was
when the run began; the standard boundary functions set it. -/
theorem last_face_false (gam1 : ℝ) (v : String → ℝ) (G : Grid) (k m : ℤ) : (jetIib gam1 true v G).B2i k (G.je + 1) m = G.B2i k (G.je + 1) m :=
  (rest_kept gam1 true v G (by rintro ⟨_, _, _, h, _⟩; omega)).2.2.1

/-- … and after a restart: the nozzle is at `x2 = x3 = 0`.  If that is outside of the root Domain by `rjet` or more, there is no jet any more: every ghost zone is
a mirror image. -/
theorem restart_false (gam1 : ℝ) (c : Conf) (hm : c.mhd = true) {ds : List Dom} (G : Grid) {k j n : ℤ} (hz : Ghost G k j n)
    (ho : c.par "rjet" < mid G.min2 G.dx2 (j - G.js)) (hr : 0 ≤ c.par "rjet") :
    IsMirror ((jetIib gam1 true (restarted jet c ds).var G).U k j (G.is - n)) (G.U k j (G.is + n - 1)) := by
  have hh := hit_of hz
  have e1 : (restarted jet c ds).var "rjet" = c.par "rjet" := by
    rw [restarted_vars]; unfold jetVars; rw [hm]; simp [assign, Function.update]
  have e2 : (restarted jet c ds).var "x2_mid" = 0 := by rw [restarted_vars]; exact jet_mid c _ (by decide)
  have hi : ¬inside (restarted jet c ds).var G j k := by
    unfold inside
    rw [e1, e2, Real.sqrt_le_iff, not_and, not_le, sub_zero, x2_mid]
    intro _
    have := sq_nonneg (G.x3 k - (restarted jet c ds).var "x3_mid")
    nlinarith
  have e : G.is + (G.is - (G.is - n) - 1) = G.is + n - 1 := by ring
  show IsMirror (if _ then _ else _) _
  rw [if_pos hh, if_neg hi, if_pos rfl, e]
  exact ⟨rfl, rfl, rfl, rfl, rfl, rfl, rfl, rfl⟩

/-- For a root Domain with its axis at `x2 = x3 = 0` the boundary is the same after a restart. -/
theorem restart_partial (gam1 : ℝ) (c : Conf) {ds : List Dom} (h : Mesh ds) (h2 : c.rmax 1 + c.rmin 1 = 0) (h3 : c.rmax 2 + c.rmin 2 = 0)
    (mhd : Bool) (G : Grid) : jetIib gam1 mhd (restarted jet c ds).var G = jetIib gam1 mhd (newRun jet c ds).var G := by
  rw [funext (jet_restart_partial c h h2 h3).1.2.2.2.1]

/-! ## An example -/

/-- A Grid of 4×10×1 zones on the unit square. -/
noncomputable def G0 : Grid := ⟨4, 4, 13, 0, 0, 4, 0, 0, 1 / 10, 1, fun _ _ _ => ⟨1, 2, 3, 4, 50, 6, 7, 8⟩, fun _ _ _ => 6, fun _ _ _ => 7, fun _ _ _ => 8⟩
/-- The input: a jet of radius 1/8 with all numbers 1 otherwise, on the unit cube. -/
noncomputable def c1 : Conf := ⟨true, true, false, false, false, false, false, 0, fun s => if s = "rjet" then 1 / 8 else 1, fun _ => 0, fun _ => 1⟩

example : Mesh ds0 ∧ Ghost G0 0 8 1 ∧ InNozzle c1 G0 8 0 ∧ Ghost G0 0 5 1 ∧ ¬InNozzle c1 G0 5 0 ∧ 0 ≤ c1.par "rjet" ∧ c1.par "djet" ≠ 0 ∧ c1.mhd = true := by
  refine ⟨⟨by decide, by decide⟩, ?_, ?_, ?_, ?_, ?_, ?_, rfl⟩ <;> norm_num [Ghost, InNozzle, c1, G0, mid]
  rw [if_neg (by decide)]; norm_num
/-- The jet is there in the new run and gone after the restart. -/
example : Ghost G0 0 8 1 ∧ c1.par "rjet" < mid G0.min2 G0.dx2 (8 - G0.js) ∧ InNozzle c1 G0 8 0 := by
  refine ⟨?_, ?_, ?_⟩ <;> norm_num [Ghost, InNozzle, c1, G0, mid]

end Athena.Jet
