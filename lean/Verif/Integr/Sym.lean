import Verif.Integr.All

/-!
# Two runs that stay related

Let a relation between the contents of two undivided Domains be such that integration carries it from all zones to the active
zones, and the boundary conditions from the active zones to all zones.  Then two runs, each on its own
decomposition, stay related.
-/

namespace Athena.Gen
open Athena.Bvals hiding Rng
open Athena.Vl3

variable {Q R Wk Q' R' Wk' : Type} {ns ns' : ℕ}

/-- `H` is what the boundary conditions make of `G`. -/
def Filled {R : Type} [Neg R] [Zero R] (ng ns : ℕ) (D : Dom) (G H : Grid R) : Prop :=
  H.nx = G.nx ∧ ∀ f : Fld, f.In (cfg ng ns) → ∀ y, Stored (cfg ng ns) G.nx f y → f.val H y = image (cfg ng ns) D.bcIn D.bcOut G f y

theorem filled_of {R : Type} [NegZeroClass R] {ng : ℕ} {Ds : List Dom} {D : Dom} (hDs : D ∈ Ds) (hD : Regular (cfg ng ns) D)
    (hne : ∃ C, D.Has C) {o : Fin 3 → Coord → Bool} {G H : Grid R} (hG : G.nx = tot D)
    (h : bvals (cfg ng ns) 0 (single D) o (fun _ => G) (fun _ => 0) = .ok H) : Filled ng ns D G H := by
  obtain ⟨C0, hC0⟩ := hne
  have hdt := dims_tot (hD.ok hDs) hC0
  obtain ⟨G'', e3, e4, hI⟩ := ghost_images (cfg ng ns) D.bcIn D.bcOut G (by rw [hG]; exact hdt) hD.kin hD.kout 0 o
  have eD : oneGrid G.nx D.bcIn D.bcOut = single D := by rw [hG]; rfl
  rw [eD, h] at e3
  injection e3 with e3
  subst e3
  exact ⟨e4, hI⟩

/-- The runs of the undivided Domains that accompany two runs stay related. -/
theorem runs_related [NegZeroClass R] [NegZeroClass R'] {A A' : Fin 3 → Bool} {I : Integ Q R Wk ns} {I' : Integ Q' R' Wk' ns'}
    {lat : Q → St R ns → St R ns} {lat' : Q' → St R' ns' → St R' ns'}
    (hI : Lattice A I lat) (hI' : Lattice A' I' lat') (q : ℕ → Q) (q' : ℕ → Q') {ng : ℕ} (hng : 4 ≤ ng) (Ds Ds' : List Dom)
    (D D' : Dom) (hDs : D ∈ Ds) (hDs' : D' ∈ Ds') (hD : Regular (cfg ng ns) D) (hD' : Regular (cfg ng ns') D')
    (hne : ∃ C, D.Has C) (hne' : ∃ C, D'.Has C) (hA : ∀ C, D.Has C → HasDim A (D.gnx C)) (hA' : ∀ C, D'.Has C → HasDim A' (D'.gnx C))
    (RA RS : Grid R → Grid R' → Prop)
    (hb : ∀ G G' H H', G.nx = tot D → G'.nx = tot D' → RA G G' → Filled ng ns D G H → Filled ng ns' D' G' H' → RS H H')
    (hi : ∀ n J J' G G', G.nx = tot D → G'.nx = tot D' → RS G G' → RA (advance I (q n) ng J G) (advance I' (q' n) ng J' G'))
    (o o' : ℕ → Fin 3 → Coord → Bool) (J : ℕ → Coord → Wk) (J' : ℕ → Coord → Wk') (s : ℕ → Coord → Grid R) (s' : ℕ → Coord → Grid R')
    (hs : IsRun I q ng (bufSize (cfg ng ns) Ds) D o J s) (hs' : IsRun I' q' ng (bufSize (cfg ng ns') Ds') D' o' J' s')
    (Gi : Grid R) (Gi' : Grid R') (hst : Start (cfg ng ns) (bufSize (cfg ng ns) Ds) D Gi (s 0))
    (hst' : Start (cfg ng ns') (bufSize (cfg ng ns') Ds') D' Gi' (s' 0)) (h0 : RA Gi Gi') :
    ∃ (G : ℕ → Grid R) (G' : ℕ → Grid R'), (∀ n, (G n).nx = tot D ∧ (G' n).nx = tot D' ∧ RS (G n) (G' n)) ∧
      (∀ n C, D.Has C → ∀ f : Fld, f.In (cfg ng ns) → ∀ y, Stored (cfg ng ns) (D.gnx C) f y → f.val (s n C) y = f.val (G n) (gl D C y)) ∧
      (∀ n C, D'.Has C → ∀ f : Fld, f.In (cfg ng ns') → ∀ y, Stored (cfg ng ns') (D'.gnx C) f y →
        f.val (s' n C) y = f.val (G' n) (gl D' C y)) := by
  obtain ⟨G, oi, og, Jg, e0, hG, hGn, _, hE⟩ := companion hI q hng Ds D hDs hD hne hA o J s hs Gi hst
  obtain ⟨G', oi', og', Jg', e0', hG', hGn', _, hE'⟩ := companion hI' q' hng Ds' D' hDs' hD' hne' hA' o' J' s' hs' Gi' hst'
  refine ⟨G, G', fun n => ⟨hGn n, hGn' n, ?_⟩, hE, hE'⟩
  induction n with
  | zero => exact hb Gi Gi' (G 0) (G' 0) hst.1 hst'.1 h0 (filled_of hDs hD hne hst.1 e0) (filled_of hDs' hD' hne' hst'.1 e0')
  | succ n ih =>
    refine hb _ _ _ _ ?_ ?_ (hi n (Jg n) (Jg' n) (G n) (G' n) (hGn n) (hGn' n) ih)
      (filled_of hDs hD hne ?_ (hG n (fun _ => 0) (has_single D))) (filled_of hDs' hD' hne' ?_ (hG' n (fun _ => 0) (has_single D')))
    · exact hGn n
    · exact hGn' n
    · exact hGn n
    · exact hGn' n

/-- From every initial state of a Domain there is a run on its Grids. -/
theorem runs_exist {R : Type} [Neg R] [Zero R] {ng : ℕ} (I : Integ Q R Wk ns) (q : ℕ → Q) {Ds : List Dom} {D : Dom} (hDs : D ∈ Ds)
    (hD : Regular (cfg ng ns) D) (hne : ∃ C, D.Has C) (o : ℕ → Fin 3 → Coord → Bool) (J : ℕ → Coord → Wk) (Gi : Grid R) (hG : Gi.nx = tot D) :
    ∃ s, Start (cfg ng ns) (bufSize (cfg ng ns) Ds) D Gi (s 0) ∧ IsRun I q ng (bufSize (cfg ng ns) Ds) D o J s := by
  let si : Coord → Grid R := fun C => ⟨D.gnx C, fun y v => Gi.U (gl D C y) v, fun n y => Gi.Bi n (gl D C y)⟩
  have hact : ∀ C, D.Has C → ∀ f : Fld, f.In (cfg ng ns) → ∀ y, Active (cfg ng ns) (D.gnx C) f y →
      f.val (si C) y = f.val Gi (gl D C y) := fun C _ f _ y _ => by cases f <;> rfl
  obtain ⟨s0, G', e1, e2, e3⟩ := decomposed_eq_single (cfg ng ns) Ds D hDs hD hne
    (fun _ _ => false) (fun _ _ => false) si Gi (fun _ _ => rfl) hG hact
  have h0 : ∀ C, D.Has C → (s0 C).nx = D.gnx C := by
    intro C hC
    obtain ⟨σ, _, e3, hσ⟩ := bvals_all (hD.ok hDs) (fun _ _ => false) si (fun _ _ => rfl)
    have h := e1 C hC
    rw [e3 C hC] at h
    injection h with h
    rw [← h]
    exact (hσ 2 C hC).2.1
  obtain ⟨s, es, hr⟩ := run_exists I q hDs hD o J s0 h0
  refine ⟨s, ?_, hr⟩
  rw [es]
  exact ⟨hG, si, _, fun _ _ => rfl, hact, e1⟩

end Athena.Gen
