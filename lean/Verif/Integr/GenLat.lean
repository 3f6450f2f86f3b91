import Verif.Integr.GenCons

/-!
# A run on a periodic Domain is the evolution of a periodic lattice
-/

namespace Athena.Gen
open Athena.Bvals hiding Rng
open Athena.Vl3

variable {Q Wk : Type} {ns : ℕ}

/-- Sum over the active zones of all Grids of the Domain of a quantity `φ` computed from the fields of a zone (an interface field
is that of the left face). -/
def domSum (c : Cfg) (D : Dom) (s : Coord → Grid ℝ) (φ : (Fld → ℝ) → ℝ) : ℝ :=
  ∑ n ∈ Finset.range (D.NG 2), ∑ m ∈ Finset.range (D.NG 1), ∑ l ∈ Finset.range (D.NG 0),
    let g := s (fun t => if t = 0 then l else if t = 1 then m else n)
    ∑ d ∈ Finset.range (g.nx 2), ∑ b ∈ Finset.range (g.nx 1), ∑ a ∈ Finset.range (g.nx 0), φ (fun f => f.val g (zone c g.nx a b d))

/-- The sum over a Domain is the sum over a period of the lattice whose values the Grids hold. -/
theorem domSum_eq {A : Fin 3 → Bool} {ng : ℕ} (hng : 1 ≤ ng) {D : Dom} {sz : ℕ} (hok : DomOk (cfg ng ns) sz D)
    (hA : ∀ C, D.Has C → HasDim A (D.gnx C))
    {s : Coord → Grid ℝ} {L : St ℝ ns} (hs : ∀ C, D.Has C → (s C).nx = D.gnx C)
    (h : ∀ C, D.Has C → ∀ f : Fld, f.In (cfg ng ns) → ∀ y, Active (cfg ng ns) (D.gnx C) f y →
      ∀ g : Grid ℝ, f.val (s C) y = f.val (ofSt g L) (gl D C y)) {φ : (Fld → ℝ) → ℝ} {ψ : (Fld → ℝ) → ℝ}
    (hφ : ∀ v v', (∀ f : Fld, f.In (cfg ng ns) → v f = v' f) → φ v = ψ v') :
    domSum (cfg ng ns) D s φ = zsum (tot D 0) (tot D 1) (tot D 2) (lo (cfg ng ns) (tot D) 0) (lo (cfg ng ns) (tot D) 1)
      (lo (cfg ng ns) (tot D) 2) (fun k j i => ψ (fun f => lval f L k j i)) := by
  unfold domSum zsum
  rw [← sum_blocks D (fun z y x => ψ (fun f => lval f L (lo (cfg ng ns) (tot D) 2 + z) (lo (cfg ng ns) (tot D) 1 + y)
    (lo (cfg ng ns) (tot D) 0 + x)))]
  refine Finset.sum_congr rfl fun n hn => Finset.sum_congr rfl fun m hm => Finset.sum_congr rfl fun l hl => ?_
  have hC : D.Has (fun t => if t = 0 then l else if t = 1 then m else n) := by
    intro t
    rcases three t with rfl | rfl | rfl
    · exact Finset.mem_range.1 hl
    · exact Finset.mem_range.1 hm
    · exact Finset.mem_range.1 hn
  set C : Coord := fun t => if t = 0 then l else if t = 1 then m else n with hCd
  dsimp only
  rw [hs C hC]
  refine Finset.sum_congr rfl fun c hc => Finset.sum_congr rfl fun b hb => Finset.sum_congr rfl fun a ha => ?_
  have h1 : c < D.gnx C 2 := Finset.mem_range.1 hc
  have h2 : b < D.gnx C 1 := Finset.mem_range.1 hb
  have h3' : a < D.gnx C 0 := Finset.mem_range.1 ha
  refine hφ _ _ fun f hf => ?_
  refine (h C hC f hf _ (zone_active (hA C hC) (cfg ng ns) f h3' h2 h1) (s C)).trans ?_
  have e : gl D C (zone (cfg ng ns) (D.gnx C) a b c) =
      zone (cfg ng ns) (tot D) (disp D 0 l + a) (disp D 1 m + b) (disp D 2 n + c) := by
    unfold gl zone
    rw [mkIdx_add _ _ _ (fun t => (disp D t (C t) : ℤ))]
    have hlo : ∀ t, lo (cfg ng ns) (D.gnx C) t = lo (cfg ng ns) (tot D) t := by
      intro t
      have := (gnx_tot hok hC t).1
      by_cases hh : 1 < D.gnx C t
      · simp only [lo, if_pos hh, if_pos (this.1 hh)]
      · simp only [lo]; rw [if_neg hh, if_neg (fun h' => hh (this.2 h'))]
    rw [hlo 0, hlo 1, hlo 2]
    have c0 : C 0 = l := rfl
    have c1 : C 1 = m := rfl
    have c2 : C 2 = n := rfl
    rw [c0, c1, c2]
    push_cast
    congr 1 <;> ring
  rw [e]
  unfold zone
  push_cast
  cases f with
  | cell v =>
    cases v with
    | s n =>
      have hn : n < ns := by simpa [Fld.In, vars, cfg] using hf
      simp only [Fld.val, ofSt, lval, Cons.get, dif_pos hn]; rfl
    | _ => rfl
  | face n => rfl

/-- A run on a periodic Domain, divided into Grids in any way, follows the evolution of one periodic lattice: every zone and face of every
Grid, ghosts included, holds the value of the lattice, before every cycle; and every active one does after the
integrator's call and before the ghost zones are set. -/
theorem lattice_run {A : Fin 3 → Bool} {I : Integ Q ℝ Wk ns} {lat : Q → St ℝ ns → St ℝ ns} (hI : Lattice A I lat)
    (q : ℕ → Q) {ng : ℕ} (hng : 4 ≤ ng) (Ds : List Dom)
    (D : Dom) (hDs : D ∈ Ds) (hD : Regular (cfg ng ns) D) (hne : ∃ C, D.Has C) (hA : ∀ C, D.Has C → HasDim A (D.gnx C)) (hP : AllPeriodic A D)
    (o : ℕ → Fin 3 → Coord → Bool) (J : ℕ → Coord → Wk) (s : ℕ → Coord → Grid ℝ)
    (hs : IsRun I q ng (bufSize (cfg ng ns) Ds) D o J s) (Gi : Grid ℝ)
    (hst : Start (cfg ng ns) (bufSize (cfg ng ns) Ds) D Gi (s 0)) (hcl : Closed (cfg ng ns) Gi) :
    ∃ L : ℕ → St ℝ ns, (∀ n, Periodic (tot D) (L n)) ∧ (∀ n, L (n+1) = lat (q n) (L n)) ∧ (∀ n C, D.Has C → (s n C).nx = D.gnx C) ∧
      (∀ n C, D.Has C → ∀ f : Fld, f.In (cfg ng ns) → ∀ y, Stored (cfg ng ns) (D.gnx C) f y → ∀ g : Grid ℝ,
        f.val (s n C) y = f.val (ofSt g (L n)) (gl D C y)) ∧
      ∀ n C, D.Has C → AgreeG ng (s n C) ((L n).shift (disp D 2 (C 2)) (disp D 1 (C 1)) (disp D 0 (C 0))) := by
  have hok := hD.ok hDs
  have h1g : 1 ≤ ng := by omega
  obtain ⟨G, o0, o', J', e0, hG, hGn, hsn, hE⟩ := companion hI q hng Ds D hDs hD hne hA o J s hs Gi hst
  obtain ⟨C0, hC0⟩ := hne
  have hdim := dims_tot hok hC0
  have hA' := hasDim_tot hok hC0 (hA C0 hC0)
  have hin : ∀ t, D.bcIn t ≠ .later := hD.kin
  have hout : ∀ t, D.bcOut t ≠ .later := hD.kout
  have hb0 := bvals_lat (L := ext ns (cfg ng ns) Gi) hP hst.nx hdim hA' hin hout e0 (by rw [← hst.nx]; exact ext_periodic _ _)
    (fun f hf y hy => ext_active (by rw [hst.nx]; exact hA') hcl hf (by rw [hst.nx]; exact hy))
  let L : ℕ → St ℝ ns := fun n => Nat.rec (ext ns (cfg ng ns) Gi) (fun n L => lat (q n) L) n
  have inv : ∀ n, Periodic (tot D) (L n) ∧ AgreeG ng (G n) (L n) := by
    intro n
    induction n with
    | zero => exact ⟨by rw [← hst.nx]; exact ext_periodic _ _, hb0.2⟩
    | succ n ih =>
      obtain ⟨hL, hv'⟩ := ih
      have hL' : Periodic (tot D) (lat (q n) (L n)) := fun m => by rw [hI.shift, hL m]
      have hb := bvals_lat (g := advance I (q n) ng (J' n) (G n)) (g' := G (n+1)) (L := lat (q n) (L n)) (o := o' n) hP (hGn n) hdim hA' hin hout
        (hG n (fun _ => 0) (has_single D)) hL' (fun f hf y hy => by
          have := hI.active (q n) ng (J' n) (G n) (L n) hng (by rw [hGn]; exact hA') hv' f hf y (by rw [hGn]; exact hy)
          exact this.trans (ofSt_nx _ _ _ hf _))
      exact ⟨hL', hb.2⟩
  have val : ∀ n C, D.Has C → ∀ f : Fld, f.In (cfg ng ns) → ∀ y, Stored (cfg ng ns) (D.gnx C) f y → ∀ g : Grid ℝ,
        f.val (s n C) y = f.val (ofSt g (L n)) (gl D C y) := by
    intro n C hC f hf y hy g
    rw [hE n C hC f hf y hy]
    have : Stored (cfg ng ns) (G n).nx f (gl D C y) := by
      rw [hGn]; exact stored_iff.1 (inR_gl hok hC (stored_iff.2 hy))
    exact ((inv n).2 f hf _ this).trans (ofSt_nx _ _ _ hf _)
  refine ⟨L, fun n => (inv n).1, fun n => rfl, hsn, val, ?_⟩
  intro n C hC f hf y hy
  rw [hsn n C hC] at hy
  rw [val n C hC f hf y hy (s n C)]
  exact (val_shift (s n C) (L n) hf y (fun t => (disp D t (C t) : ℤ))).symm

/-- Every zone of the Domain belongs to a Grid. -/
theorem piece (D : Dom) (t : Fin 3) {n x : ℕ} (h : x < disp D t n) : ∃ l < n, ∃ a < D.nx t l, x = disp D t l + a := by
  induction n with
  | zero => exact absurd h (by simp [disp])
  | succ n ih =>
    by_cases hx : x < disp D t n
    · obtain ⟨l, hl, a, ha, e⟩ := ih hx
      exact ⟨l, by omega, a, ha, e⟩
    · simp only [disp] at h
      exact ⟨n, by omega, x - disp D t n, by omega, by omega⟩

/-- Every zone of a periodic lattice is the image of an active zone of a Grid. -/
theorem zone_of {ng sz : ℕ} {D : Dom} (hok : DomOk (cfg ng ns) sz D) {A : Fin 3 → Bool} (hA : ∀ C, D.Has C → HasDim A (D.gnx C))
    (hne : ∃ C, D.Has C) {L : St ℝ ns} (hL : Periodic (tot D) L) (k j i : ℤ) :
    ∃ C, D.Has C ∧ ∃ y : Idx, (∀ t, lo (cfg ng ns) (D.gnx C) t ≤ y t ∧ y t ≤ hi (cfg ng ns) (D.gnx C) t) ∧
      L.U k j i = (L.shift (disp D 2 (C 2)) (disp D 1 (C 1)) (disp D 0 (C 0))).U (y 2) (y 1) (y 0) := by
  obtain ⟨C0, hC0⟩ := hne
  have hA' := hasDim_tot hok hC0 (hA C0 hC0)
  have hpos : ∀ t, 0 < tot D t := by
    intro t
    rcases hA'.cases (cfg ng ns) t with ⟨_, _, _, _, e⟩ | ⟨_, _, _, _, e⟩ <;> omega
  let x : Idx := mkIdx i j k
  let b : Fin 3 → ℤ := lo (cfg ng ns) (tot D)
  let r : Fin 3 → ℕ := fun t => ((x t - b t) % tot D t).toNat
  have hr : ∀ t, (r t : ℤ) = (x t - b t) % tot D t := fun t => Int.toNat_of_nonneg (Int.emod_nonneg _ (by have := hpos t; omega))
  have hr' : ∀ t, r t < disp D t (D.NG t) := fun t => by
    have : (x t - b t) % tot D t < tot D t := Int.emod_lt_of_pos _ (by have := hpos t; omega)
    have h2 := hr t
    show r t < tot D t
    omega
  choose l hl a ha e using fun t => piece D t (hr' t)
  have hlo : ∀ t, lo (cfg ng ns) (D.gnx l) t = b t := by
    intro t
    have := (gnx_tot hok hl t).1
    by_cases hh : 1 < D.gnx l t
    · simp only [b, lo, if_pos hh, if_pos (this.1 hh)]
    · simp only [b, lo]; rw [if_neg hh, if_neg (fun h' => hh (this.2 h'))]
  refine ⟨l, hl, fun t => b t + a t, fun t => ?_, ?_⟩
  · have h1 := hl_dim (hA l hl) (cfg ng ns) t
    have h2 := ha t
    have h3 : D.gnx l t = D.nx t (l t) := rfl
    rw [hlo] at h1 ⊢
    constructor
    · show b t ≤ b t + a t; omega
    · show b t + a t ≤ _; omega
  · have hm := hL (fun t => -((x t - b t) / tot D t))
    have q : ∀ t, x t + -((x t - b t) / tot D t) * tot D t = b t + a t + disp D t (l t) := by
      intro t
      have h1 := Int.emod_add_mul_ediv (x t - b t) (tot D t)
      have h2 := hr t
      have h3 := e t
      have h4 : (r t : ℤ) = disp D t (l t) + a t := by rw [h3]; push_cast; rfl
      have h5 : -((x t - b t) / tot D t) * tot D t = -((tot D t : ℤ) * ((x t - b t) / tot D t)) := by ring
      rw [h5]
      omega
    have q0 := q 0; have q1 := q 1; have q2 := q 2
    have e0 : x 0 = i := rfl
    have e1 : x 1 = j := rfl
    have e2 : x 2 = k := rfl
    have : L.U k j i = (L.shift (-((x 2 - b 2) / tot D 2) * tot D 2) (-((x 1 - b 1) / tot D 1) * tot D 1) (-((x 0 - b 0) / tot D 0) * tot D 0)).U k j i := by
      rw [hm]
    rw [this]
    show L.U (k + _) (j + _) (i + _) = L.U (b 2 + a 2 + _) (b 1 + a 1 + _) (b 0 + a 0 + _)
    rw [← q0, ← q1, ← q2, e0, e1, e2]

end Athena.Gen
