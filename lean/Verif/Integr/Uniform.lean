import Verif.Integr.All
import Verif.Integr.Sym

/-!
# C69: a uniform flow stays exactly uniform
-/

namespace Athena.Gen
open Athena.Bvals hiding Rng
open Athena.Vl3
open Num

variable {ns : ℕ}

/-! ## Specification -/

/-- Every active zone and face of the Grid holds the same values `c`. -/
def UniformA (ng ns : ℕ) (c : Fld → ℝ) (G : Grid ℝ) : Prop :=
  ∀ f : Fld, f.In (cfg ng ns) → ∀ y, Active (cfg ng ns) G.nx f y → f.val G y = c f

/-- The values agree with the boundary condition `k` in direction `t`: nothing moves through a wall, and no field pierces a reflecting wall or
lies along a conducting one (the change of sign that condition makes in the ghost zones). -/
def Fits (k : Bvals.Kind) (t : Fin 3) (c : Fld → ℝ) : Prop :=
  (k = .reflect → c (.cell (.M t)) = 0 ∧ c (.cell (.Bc t)) = 0 ∧ c (.face t) = 0) ∧
  (k = .conduct → c (.cell (.M t)) = 0 ∧ ∀ n, n ≠ t → c (.cell (.Bc n)) = 0 ∧ c (.face n) = 0)

/-! ## One step -/

/-- The lattice with the values `c`. -/
def constSt (ns : ℕ) (c : Fld → ℝ) : St ℝ ns :=
  ⟨fun _ _ _ => ⟨c (.cell .d), c (.cell (.M 0)), c (.cell (.M 1)), c (.cell (.M 2)), c (.cell .E), c (.cell (.Bc 0)), c (.cell (.Bc 1)),
    c (.cell (.Bc 2)), fun n => c (.cell (.s n))⟩, fun _ _ _ => c (.face 0), fun _ _ _ => c (.face 1), fun _ _ _ => c (.face 2)⟩

theorem const_val {ng : ℕ} (g : Grid ℝ) (c : Fld → ℝ) {f : Fld} (hf : f.In (cfg ng ns)) (y : Idx) : f.val (ofSt g (constSt ns c)) y = c f := by
  cases f with
  | cell v =>
    cases v with
    | s n =>
      have hn : n < ns := by simpa [Fld.In, vars, cfg] using hf
      simp only [Fld.val, ofSt, constSt, Cons.get, hn, dif_pos]
    | M n => rcases three n with rfl | rfl | rfl <;> rfl
    | Bc n => rcases three n with rfl | rfl | rfl <;> rfl
    | _ => rfl
  | face n => rcases three n with rfl | rfl | rfl <;> rfl

/-- A lattice that is the same seen from everywhere. -/
theorem const_of_shift {L : St ℝ ns} (h : ∀ a b d, L.shift a b d = L) (k j i : ℤ) :
    L.U k j i = L.U 0 0 0 ∧ L.B1i k j i = L.B1i 0 0 0 ∧ L.B2i k j i = L.B2i 0 0 0 ∧ L.B3i k j i = L.B3i 0 0 0 := by
  have e := h k j i
  refine ⟨?_, ?_, ?_, ?_⟩ <;> (conv_rhs => rw [← e]) <;> simp only [St.shift, zero_add]

theorem zsum_one (is js ks : ℤ) (F : Arr ℝ) : zsum 1 1 1 is js ks F = F ks js is := by
  simp [zsum]

/-- The integrators store in the field components what belongs together: without further zones in a direction the interface field is the
zone-centred one, otherwise the zone-centred one is the average (in 1D, the longitudinal field is not touched). -/
theorem latt_b2 (M : Funs ℝ ns) (K : Kind) (w : Which) (q : Step ℝ) (L : St ℝ ns) (k j i : ℤ) :
    (dims w 1 = false → (latt M K w q L).B2i k j i = ((latt M K w q L).U k j i).B2c) ∧
    (dims w 2 = false → (latt M K w q L).B3i k j i = ((latt M K w q L).U k j i).B3c) := by
  cases K <;> cases w <;> first | exact ⟨fun _ => rfl, fun _ => rfl⟩ | exact ⟨fun h => absurd h (by decide), fun _ => rfl⟩ | exact ⟨fun h => absurd h (by decide), fun h => absurd h (by decide)⟩

/-- A step that commutes with translations and conserves keeps a uniform state, if it keeps the zone-centred and interface fields of a
uniform state together. -/
theorem const_step {A : Fin 3 → Bool} {lat : St ℝ ns → St ℝ ns} (hs : ∀ L a b d, (lat L).shift a b d = lat (L.shift a b d)) (hk : Conserves A lat)
    (c : Fld → ℝ) (hc : ∀ t, c (.cell (.Bc t)) = c (.face t))
    (hB : ∀ L' : St ℝ ns, L' = lat (constSt ns c) → (∀ k j i, L'.U k j i = L'.U 0 0 0 ∧ L'.B1i k j i = L'.B1i 0 0 0 ∧ L'.B2i k j i = L'.B2i 0 0 0 ∧
      L'.B3i k j i = L'.B3i 0 0 0) → (L'.U 0 0 0).B1c = L'.B1i 0 0 0 ∧ (L'.U 0 0 0).B2c = L'.B2i 0 0 0 ∧ (L'.U 0 0 0).B3c = L'.B3i 0 0 0) :
    lat (constSt ns c) = constSt ns c := by
  have sh : ∀ a b d, (lat (constSt ns c)).shift a b d = lat (constSt ns c) := fun a b d => by rw [hs]; rfl
  have cs := const_of_shift sh
  obtain ⟨b1, b2, b3⟩ := hB _ rfl cs
  have kp : ∀ f, Kept A ns f → lval f (lat (constSt ns c)) 0 0 0 = lval f (constSt ns c) 0 0 0 := by
    intro f hf
    have := hk (fun _ => 1) (constSt ns c) (fun _ => rfl) (fun _ _ => rfl) f hf 0 0 0
    simpa only [zsum_one] using this
  have m0 : ((lat (constSt ns c)).U 0 0 0).M1 = _ := kp (.cell (.M 0)) trivial
  have m1 : ((lat (constSt ns c)).U 0 0 0).M2 = _ := kp (.cell (.M 1)) trivial
  have m2 : ((lat (constSt ns c)).U 0 0 0).M3 = _ := kp (.cell (.M 2)) trivial
  have f0 : (lat (constSt ns c)).B1i 0 0 0 = c (.face 0) := by
    rcases Bool.eq_false_or_eq_true (A 0) with h | h
    · exact kp (.face 0) h
    · rw [← b1, ← hc]; exact kp (.cell (.Bc 0)) h
  have f1 : (lat (constSt ns c)).B2i 0 0 0 = c (.face 1) := by
    rcases Bool.eq_false_or_eq_true (A 1) with h | h
    · exact kp (.face 1) h
    · rw [← b2, ← hc]; exact kp (.cell (.Bc 1)) h
  have f2 : (lat (constSt ns c)).B3i 0 0 0 = c (.face 2) := by
    rcases Bool.eq_false_or_eq_true (A 2) with h | h
    · exact kp (.face 2) h
    · rw [← b3, ← hc]; exact kp (.cell (.Bc 2)) h
  have hU : (lat (constSt ns c)).U 0 0 0 = (constSt ns c).U 0 0 0 := by
    ext1
    · exact kp (.cell .d) trivial
    · exact m0
    · exact m1
    · exact m2
    · exact kp (.cell .E) trivial
    · rw [b1, f0, ← hc]; rfl
    · rw [b2, f1, ← hc]; rfl
    · rw [b3, f2, ← hc]; rfl
    · funext n
      have := kp (.cell (.s n)) n.2
      simpa only [lval, Cons.get, n.2, dif_pos] using this
  generalize lat (constSt ns c) = L at *
  have e0 : L.U = (constSt ns c).U := by funext k j i; rw [(cs k j i).1, hU]; rfl
  have e1 : L.B1i = (constSt ns c).B1i := by funext k j i; rw [(cs k j i).2.1, f0]; rfl
  have e2 : L.B2i = (constSt ns c).B2i := by funext k j i; rw [(cs k j i).2.2.1, f1]; rfl
  have e3 : L.B3i = (constSt ns c).B3i := by funext k j i; rw [(cs k j i).2.2.2, f2]; rfl
  cases L
  simp only at e0 e1 e2 e3
  rw [e0, e1, e2, e3]

theorem half_same (a : ℝ) : (half : ℝ) * (a + a) = a := by show (1 / 2 : ℝ) * (a + a) = a; ring

/-- One step of an integrator leaves a uniform state as it is. -/
theorem latt_const (M : Funs ℝ ns) (hM : M.Local) (K : Kind) (w : Which) (q : Step ℝ) (c : Fld → ℝ) (hc : ∀ t, c (.cell (.Bc t)) = c (.face t)) :
    latt M K w q (constSt ns c) = constSt ns c := by
  refine const_step ((integ_lattice M hM K w).shift q) (latt_conserves M K w q) c hc fun L' e cs => ?_
  have bb := latt_b2 M K w q (constSt ns c) 0 0 0
  rw [← e] at bb
  have d2 : ∀ (F1 F2 : Arr (Cons1 ℝ ns)) (x : Arr ℝ), L' = lat2 q (constSt ns c) F1 F2 x → (L'.U 0 0 0).B1c = L'.B1i 0 0 0 ∧ (L'.U 0 0 0).B2c = L'.B2i 0 0 0 ∧
      (L'.U 0 0 0).B3c = L'.B3i 0 0 0 := by
    intro F1 F2 x h
    have a1 : (L'.U 0 0 0).B1c = half * (L'.B1i 0 0 0 + L'.B1i 0 0 (0+1)) := by rw [h]; rfl
    have a2 : (L'.U 0 0 0).B2c = half * (L'.B2i 0 0 0 + L'.B2i 0 (0+1) 0) := by rw [h]; rfl
    rw [(cs 0 0 (0+1)).2.1, half_same] at a1
    rw [(cs 0 (0+1) 0).2.2.1, half_same] at a2
    exact ⟨a1, a2, by rw [h]; rfl⟩
  have d3 : ∀ (F1 F2 F3 : Arr (Cons1 ℝ ns)) (x y z : Arr ℝ), L' = lat3 q (constSt ns c) F1 F2 F3 x y z → (L'.U 0 0 0).B1c = L'.B1i 0 0 0 ∧
      (L'.U 0 0 0).B2c = L'.B2i 0 0 0 ∧ (L'.U 0 0 0).B3c = L'.B3i 0 0 0 := by
    intro F1 F2 F3 x y z h
    have a1 : (L'.U 0 0 0).B1c = half * (L'.B1i 0 0 0 + L'.B1i 0 0 (0+1)) := by rw [h]; rfl
    have a2 : (L'.U 0 0 0).B2c = half * (L'.B2i 0 0 0 + L'.B2i 0 (0+1) 0) := by rw [h]; rfl
    have a3 : (L'.U 0 0 0).B3c = half * (L'.B3i 0 0 0 + L'.B3i (0+1) 0 0) := by rw [h]; rfl
    rw [(cs 0 0 (0+1)).2.1, half_same] at a1
    rw [(cs 0 (0+1) 0).2.2.1, half_same] at a2
    rw [(cs (0+1) 0 0).2.2.2, half_same] at a3
    exact ⟨a1, a2, a3⟩
  cases w
  · refine ⟨?_, (bb.1 rfl).symm, (bb.2 rfl).symm⟩
    have h1 : (L'.U 0 0 0).B1c = c (.cell (.Bc 0)) := by rw [e]; cases K <;> rfl
    have h2 : L'.B1i 0 0 0 = c (.face 0) := by rw [e]; cases K <;> rfl
    rw [h1, h2, hc]
  · cases K <;> exact d2 _ _ _ e
  · cases K <;> exact d3 _ _ _ _ _ _ e

/-! ## Runs -/

/-- The boundary conditions continue a uniform state. -/
theorem filled_const {ng : ℕ} {D : Dom} {c : Fld → ℝ} (hF : ∀ t, Fits (D.bcIn t) t c ∧ Fits (D.bcOut t) t c) {G H : Grid ℝ}
    (hdim : Dims (cfg ng ns) G.nx) (hin : ∀ t, D.bcIn t ≠ .later) (hout : ∀ t, D.bcOut t ≠ .later) (h : UniformA ng ns c G) (hH : Filled ng ns D G H) :
    H.nx = G.nx ∧ ∀ f : Fld, f.In (cfg ng ns) → ∀ y, Stored (cfg ng ns) H.nx f y → f.val H y = c f := by
  refine ⟨hH.1, fun f hf y hy => ?_⟩
  rw [hH.1] at hy
  rw [hH.2 f hf y hy]
  have odd : ∀ k t, Fits k t c → Bvals.Odd k t f → c f = 0 := by
    intro k t hk ho
    rcases ho with ⟨e, rfl | rfl | rfl⟩ | ⟨e, rfl | ⟨n, hn, rfl | rfl⟩⟩
    · exact (hk.1 e).1
    · exact (hk.1 e).2.1
    · exact (hk.1 e).2.2
    · exact (hk.2 e).1
    · exact ((hk.2 e).2 n hn).1
    · exact ((hk.2 e).2 n hn).2
  have min0 : ∀ t, Minus (cfg ng ns) D.bcIn D.bcOut G.nx f y t → c f = 0 := by
    rintro t (⟨_, h⟩ | ⟨_, h⟩)
    · exact odd _ t (hF t).1 h
    · exact odd _ t (hF t).2 h
  unfold image
  dsimp only
  rw [h f hf _ (image_active hdim hin hout f y hy)]
  by_cases hw : ∃ t, OnWall (cfg ng ns) D.bcIn D.bcOut G.nx f y t
  · rw [if_pos hw]
    obtain ⟨t, rfl, _, h⟩ := hw
    rcases h with ⟨e, _⟩ | ⟨e, _⟩
    · exact (((hF t).1.1 e).2.2).symm
    · exact (((hF t).2.1 e).2.2).symm
  · rw [if_neg hw]
    by_cases hm : ∃ t, Minus (cfg ng ns) D.bcIn D.bcOut G.nx f y t
    · obtain ⟨t, ht⟩ := hm
      rw [min0 t ht]
      split_ifs <;> simp
    · rw [if_neg (fun h => hm ⟨0, h⟩), if_neg (fun h => hm ⟨1, h⟩), if_neg (fun h => hm ⟨2, h⟩)]

/-- A run of any program whose steps keep uniform states. -/
theorem uniform_run {Q Wk : Type} {A : Fin 3 → Bool} {I : Integ Q ℝ Wk ns} {lat : Q → St ℝ ns → St ℝ ns} (hI : Lattice A I lat) (q : ℕ → Q)
    {c : Fld → ℝ} (hq : ∀ n, lat (q n) (constSt ns c) = constSt ns c) {ng : ℕ} (hng : 4 ≤ ng) (Ds : List Dom)
    (D : Dom) (hDs : D ∈ Ds) (hD : Regular (cfg ng ns) D) (hA : ∀ C, D.Has C → HasDim A (D.gnx C))
    (hF : ∀ t, Fits (D.bcIn t) t c ∧ Fits (D.bcOut t) t c)
    (o : ℕ → Fin 3 → Coord → Bool) (J : ℕ → Coord → Wk) (s : ℕ → Coord → Grid ℝ)
    (hs : IsRun I q ng (bufSize (cfg ng ns) Ds) D o J s) (Gi : Grid ℝ)
    (hst : Start (cfg ng ns) (bufSize (cfg ng ns) Ds) D Gi (s 0)) (h0 : UniformA ng ns c Gi) (n : ℕ) (C : Coord) (hC : D.Has C) (f : Fld)
    (hf : f.In (cfg ng ns)) (y : Idx) (hy : Stored (cfg ng ns) (D.gnx C) f y) : f.val (s n C) y = c f := by
  have hne : ∃ C, D.Has C := ⟨C, hC⟩
  have hok := hD.ok hDs
  obtain ⟨G, o0, o', J', e0, hG, hGn, _, hE⟩ := companion hI q hng Ds D hDs hD hne hA o J s hs Gi hst
  have hdim := dims_tot hok hC
  have hA' := hasDim_tot hok hC (hA C hC)
  have inv : ∀ n, ∀ f : Fld, f.In (cfg ng ns) → ∀ y, Stored (cfg ng ns) (tot D) f y → f.val (G n) y = c f := by
    intro n
    induction n with
    | zero =>
      have := (filled_const hF (by rw [hst.nx]; exact hdim) hD.kin hD.kout h0 (filled_of hDs hD hne hst.nx e0)).2
      rwa [hGn] at this
    | succ n ih =>
      have hn : (advance I (q n) ng (J' n) (G n)).nx = tot D := hGn n
      have ha : UniformA ng ns c (advance I (q n) ng (J' n) (G n)) := by
        intro f hf y hy
        rw [hn] at hy
        rw [hI.active (q n) ng (J' n) (G n) (constSt ns c) hng (by rw [hGn]; exact hA') (fun f hf y hy => by
          rw [hGn] at hy; rw [ih f hf y hy, const_val _ _ hf]) f hf y (by rw [hGn]; exact hy), hq, const_val _ _ hf]
      have := (filled_const hF (by rw [hn]; exact hdim) hD.kin hD.kout ha (filled_of hDs hD hne hn (hG n (fun _ => 0) (has_single D)))).2
      rwa [hGn] at this
  rw [hE n C hC f hf y hy]
  exact inv n f hf _ (stored_iff.1 (inR_gl hok hC (stored_iff.2 hy)))

/-- **C69.** A state that is the same in all active zones stays exactly as it is, in every zone and ghost zone of every Grid, after any number of
cycles: whichever of the integrators is used, with any Riemann solver, conversion and reconstruction, whatever the time steps,
and with any boundary conditions that the state agrees with. -/
theorem run_uniform (M : Funs ℝ ns) (hM : M.Local) (K : Kind) (Nx : Fin 3 → ℕ) (big : Bool) (w : Which)
    (hI : integrateInit K Nx big = .ok (some w)) (q : ℕ → Step ℝ) {ng : ℕ} (hng : 4 ≤ ng) (Ds : List Dom)
    (D : Dom) (hDs : D ∈ Ds) (hD : Regular (cfg ng ns) D) (hN : ∀ t, 1 < Nx t ↔ 1 < tot D t)
    (c : Fld → ℝ) (hc : ∀ t, c (.cell (.Bc t)) = c (.face t)) (hF : ∀ t, Fits (D.bcIn t) t c ∧ Fits (D.bcOut t) t c)
    (o : ℕ → Fin 3 → Coord → Bool) (J : ℕ → Coord → Works ℝ ns) (s : ℕ → Coord → Grid ℝ)
    (hs : IsRun (integ M K w) q ng (bufSize (cfg ng ns) Ds) D o J s) (Gi : Grid ℝ)
    (hst : Start (cfg ng ns) (bufSize (cfg ng ns) Ds) D Gi (s 0)) (h0 : UniformA ng ns c Gi) (n : ℕ) (C : Coord) (hC : D.Has C) (f : Fld)
    (hf : f.In (cfg ng ns)) (y : Idx) (hy : Stored (cfg ng ns) (D.gnx C) f y) : f.val (s n C) y = c f :=
  uniform_run (integ_lattice M hM K w) q (fun n => latt_const M hM K w (q n) c hc) hng Ds D hDs hD (init_hasDim hI hDs hD hN) hF o J s hs Gi hst h0
    n C hC f hf y hy

end Athena.Gen
