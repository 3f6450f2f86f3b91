import Verif.Bvals.Props

/-!
# Ghost zones of the gravitational potential: src/gravity/bvals_grav.c

The exchange of `Phi` between the Grids of a Domain and its boundary functions, modelled as `bvals_mhd` is in `Bvals/Model.lean` (direction and
side are arguments).  Without shearing box and open boundaries.
-/

namespace Athena.Bvals
variable {V : Type}

/-! ## Model -/

/-- The zones packed or unpacked: the directions done before with their ghost zones, the ones to come without; bvals_grav.c:1281-1283 (pack_Phi_ix1),
1327-1329 (pack_Phi_ix2), 1379-1381 (pack_Phi_ix3), and the like. -/
def phiBox (c : Cfg) (nx : Fin 3 → Nat) (d : Fin 3) (p : Int × Int) : List Idx := box (setD (trU c nx d) d p)

/-- `pack_Phi_ix1` … `pack_Phi_ox3`, bvals_grav.c:1267-1421. -/
def packPhi (c : Cfg) (sd : Side) (d : Fin 3) (nx : Fin 3 → Nat) (P : Idx → V) : Res (List V) :=
  let l := phiBox c nx d (packR c sd (lo c nx d) (hi c nx d))
  if l.all (inB c nx) then .ok (l.map P) else .ub

/-- `unpack_Phi_ix1` … `unpack_Phi_ox3`, bvals_grav.c:1427-1573. -/
def unpackPhi (c : Cfg) (sd : Side) (d : Fin 3) (nx : Fin 3 → Nat) (P : Idx → V) (m : List V) : Res (Idx → V) := do
  let r ← readFace c nx (phiBox c nx d (unpR c sd (lo c nx d) (hi c nx d))) P m
  return r.1

/-- `cnt`, bvals_grav.c:115, 208, 319. -/
def cntPhi (c : Cfg) (nx : Fin 3 → Nat) (d : Fin 3) : Int :=
  let g : Int := c.ng
  if d = 0 then g * nx 1 * nx 2 else if d = 1 then (nx 0 + 2 * g) * g * nx 2 else (nx 0 + 2 * g) * (nx 1 + 2 * g) * g

/-- `size`: words allocated for a buffer, bvals_grav.c:725-773. -/
def bufPhi (c : Cfg) (Ds : List Dom) : Nat :=
  let x := fun d => Ds.foldl (fun a D => domCnt c D d a) 0
  let sz := if x 0 > x 1 then x 0 else x 1
  let sz := if x 2 > sz then x 2 else sz
  sz * c.ng

/-- `reflect_Phi_…`, `periodic_Phi_…`, `ProlongateLater`, bvals_grav.c:829-1110, 1254-1257; an outflow condition is refused by `bvals_grav_init`
(bvals_grav.c:462 and the like). -/
def bcPhi (c : Cfg) (k : Kind) (sd : Side) (d : Fin 3) (nx : Fin 3 → Nat) (P : Idx → V) : Res (Idx → V) :=
  if k = .later then .ok P
  else if k = .outflow then .fatal
  else copy c nx (setD (trU c nx d) d (1, c.ng)) (fun x => setD x d (dstI sd (lo c nx d) (hi c nx d) (x d)))
    (fun x => setD x d (srcI k sd (lo c nx d) (hi c nx d) (x d))) id P

/-- `pack_Phi_…` and `MPI_Isend(…,cnt,…)`. -/
def sendPhi (c : Cfg) (sz : Nat) (sd : Side) (d : Fin 3) (nx : Fin 3 → Nat) (P : Idx → V) : Res (List V) := do
  let p ← packPhi c sd d nx P
  if p.length ≤ sz ∧ cntPhi c nx d ≤ p.length then .ok (p.take (cntPhi c nx d).toNat) else .ub

/-- `MPI_Irecv(…,cnt,…)`, `MPI_Wait`, `unpack_Phi_…`. -/
def recvPhi (c : Cfg) (sz : Nat) (sd : Side) (d : Fin 3) (nx : Fin 3 → Nat) (m : List V) (P : Idx → V) : Res (Idx → V) :=
  if cntPhi c nx d > sz then .ub else if (m.length : Int) > cntPhi c nx d then .fatal else unpackPhi c sd d nx P m

/-- The message from the left neighbour: it only comes if that Grid takes `C` for its right neighbour. -/
def phiFromLeft (c : Cfg) (sz : Nat) (D : Dom) (d : Fin 3) (C l : Coord) (P : Idx → V) : Res (List V) :=
  if right D d l = some C ∧ D.gnx l d > 1 then sendPhi c sz .outer d (D.gnx l) P else .ub

def phiFromRight (c : Cfg) (sz : Nat) (D : Dom) (d : Fin 3) (C r : Coord) (P : Idx → V) : Res (List V) :=
  if left D d r = some C ∧ D.gnx r d > 1 then sendPhi c sz .inner d (D.gnx r) P else .ub

/-- One direction of `bvals_grav` on the Grid `C`, bvals_grav.c:111-200, 205-301, 316-405; the neighbours across periodic boundaries are set in
`bvals_grav_init` as in `bvals_mhd_init` (bvals_grav.c:465-471, 516-520, ...).  `ord`: which of two messages arrives first. -/
def stagePhi (c : Cfg) (sz : Nat) (D : Dom) (ord : Bool) (d : Fin 3) (st : Coord → Res (Idx → V)) (C : Coord) : Res (Idx → V) := do
  let P ← st C
  let nx := D.gnx C
  if nx d > 1 then
    match left D d C, right D d C with
    | some l, some r => do
      let mL ← phiFromLeft c sz D d C l (← st l)
      let mR ← phiFromRight c sz D d C r (← st r)
      if ord then recvPhi c sz .outer d nx mR (← recvPhi c sz .inner d nx mL P)
      else recvPhi c sz .inner d nx mL (← recvPhi c sz .outer d nx mR P)
    | none, some r => do
      let mR ← phiFromRight c sz D d C r (← st r)
      let P ← bcPhi c (D.bcIn d) .inner d nx P
      recvPhi c sz .outer d nx mR P
    | some l, none => do
      let mL ← phiFromLeft c sz D d C l (← st l)
      let P ← bcPhi c (D.bcOut d) .outer d nx P
      recvPhi c sz .inner d nx mL P
    | none, none => do
      let P ← bcPhi c (D.bcIn d) .inner d nx P
      bcPhi c (D.bcOut d) .outer d nx P
  else .ok P

/-- `bvals_grav` on all Grids of a Domain, bvals_grav.c:98-409. -/
def bvalsPhi (c : Cfg) (sz : Nat) (D : Dom) (ord : Fin 3 → Coord → Bool) (st : Coord → Idx → V) : Coord → Res (Idx → V) :=
  let st0 : Coord → Res (Idx → V) := fun C => .ok (st C)
  let st1 := fun C => stagePhi c sz D (ord 0 C) 0 st0 C
  let st2 := fun C => stagePhi c sz D (ord 1 C) 1 st1 C
  fun C => stagePhi c sz D (ord 2 C) 2 st2 C

/-! ## Specification -/

/-- A zone of the Grid with its ghost zones in the first `k` directions. -/
def PhiIn (c : Cfg) (nx : Fin 3 → Nat) (k : Nat) (y : Idx) : Prop :=
  ∀ t, if t.val < k then 0 ≤ y t ∧ y t < size c nx t else lo c nx t ≤ y t ∧ y t ≤ hi c nx t

/-- `ψ` repeats after the length of the Domain in every direction with more than one zone. -/
def PerDom (D : Dom) (ψ : Idx → V) : Prop := ∀ d, 1 < tot D d → ∀ y, ψ (setD y d (y d + tot D d)) = ψ y

/-! ## Proofs -/

theorem ite_left {p q : Prop} [Decidable p] [Decidable q] (e : p ↔ q) {a a' b : V} (h : p → a = a') : (if p then a else b) = if q then a' else b := by
  by_cases g : p
  · rw [if_pos g, if_pos (e.1 g), h g]
  · rw [if_neg g, if_neg (fun k => g (e.2 k))]

theorem phiIn_tr {c : Cfg} {nx : Fin 3 → Nat} (h : Dims c nx) {d : Fin 3} (hd : 1 < nx d) {y : Idx} (hy : PhiIn c nx (d.val + 1) y) :
    TrIn (trU c nx d) d y := by
  intro t ht
  have := hy t
  unfold trU
  by_cases e : t < d
  · rw [if_pos e]
    rw [if_pos (by have : t.val < d.val := e; omega)] at this
    have hn := h.nest t d e hd
    rw [size_pos hn] at this
    rw [lo_pos hn, hi_pos hn]
    dsimp only; omega
  · rw [if_neg e]
    rw [if_neg (by have h1 : ¬ t.val < d.val := e; have h2 : t.val ≠ d.val := fun h => ht (Fin.ext h); omega)] at this
    exact this

theorem phiIn_set {c : Cfg} {nx nx' : Fin 3 → Nat} {d : Fin 3} (hs : SameTr d nx nx') {y : Idx} (hy : PhiIn c nx (d.val + 1) y) {j : Int}
    (hj : lo c nx' d ≤ j ∧ j ≤ hi c nx' d) : PhiIn c nx' d.val (setD y d j) := by
  intro t
  by_cases e : t = d
  · subst e
    rw [if_neg (by omega), setD_self]
    exact hj
  · rw [setD_ne _ _ _ _ e]
    have := hy t
    have hx := hs t e
    have hv : t.val ≠ d.val := fun h => e (Fin.ext h)
    by_cases h : t.val < d.val
    · rw [if_pos h]
      rw [if_pos (by omega)] at this
      unfold size at this ⊢
      rw [hx] at this
      exact this
    · rw [if_neg h]
      rw [if_neg (by omega)] at this
      rw [← lo_congr hx, ← hi_congr hx]
      exact this

theorem packPhi_ok {c : Cfg} {nx : Fin 3 → Nat} (h : Dims c nx) {d : Fin 3} (hd : 1 < nx d) (sd : Side) (P : Idx → V) :
    packPhi c sd d nx P = .ok ((phiBox c nx d (packR c sd (lo c nx d) (hi c nx d))).map P) := by
  unfold packPhi
  dsimp only
  rw [if_pos]
  rw [List.all_eq_true]
  exact all_in (trU_in h hd) (packR_in h hd sd)

theorem length_phi {c : Cfg} {nx : Fin 3 → Nat} (h : Dims c nx) (d : Fin 3) (sd : Side) (P : Idx → V) :
    (((phiBox c nx d (packR c sd (lo c nx d) (hi c nx d))).map P).length : Int) = cntPhi c nx d := by
  rw [List.length_map]
  unfold phiBox
  rw [length_packU h d sd]
  unfold cntPhi
  have hd : d = 0 ∨ d = 1 ∨ d = 2 := by fin_cases d <;> decide
  rcases hd with rfl | rfl | rfl
  · simp only [Fin.isValue, Fin.reduceEq, reduceIte]; ring
  · simp only [Fin.isValue, Fin.reduceEq, reduceIte]; ring
  · simp only [Fin.isValue, Fin.reduceEq, reduceIte]; ring

theorem cntPhi_le_area {c : Cfg} {nx : Fin 3 → Nat} (h : Dims c nx) {d : Fin 3} (hd : 1 < nx d) : cntPhi c nx d ≤ (area c nx d * c.ng : Nat) := by
  have up : ∀ t, nx t ≤ if nx t > 1 then nx t + 1 else nx t := by intro t; split_ifs <;> omega
  have hd' : d = 0 ∨ d = 1 ∨ d = 2 := by fin_cases d <;> decide
  unfold cntPhi area
  rcases hd' with rfl | rfl | rfl
  · simp only [reduceIte]
    have := Nat.mul_le_mul (up 1) (up 2)
    have := Nat.mul_le_mul_right c.ng this
    calc ((c.ng : Int) * nx 1 * nx 2) = ((nx 1 * nx 2 * c.ng : Nat) : Int) := by push_cast; ring
      _ ≤ _ := by exact_mod_cast this
  · have n0 := h.nest 0 1 (by decide) hd
    simp only [Fin.isValue, Fin.reduceEq, reduceIte, if_pos n0]
    have := Nat.mul_le_mul_left (nx 0 + 2 * c.ng) (up 2)
    have := Nat.mul_le_mul_right c.ng this
    calc (((nx 0 : Int) + 2 * c.ng) * c.ng * nx 2) = (((nx 0 + 2 * c.ng) * nx 2 * c.ng : Nat) : Int) := by push_cast; ring
      _ ≤ _ := by exact_mod_cast this
  · have n0 := h.nest 0 2 (by decide) hd
    have n1 := h.nest 1 2 (by decide) hd
    simp only [Fin.isValue, Fin.reduceEq, reduceIte, if_pos n0, if_pos n1]
    push_cast
    exact le_refl _

/-- A message of `Phi` fits into the buffers. -/
theorem cntPhi_le_buf {c : Cfg} {D : Dom} {Ds : List Dom} {d : Fin 3} {C : Coord} (hD : D ∈ Ds) (h : D.Has C)
    (hdim : Dims c (D.gnx C)) (hd : 1 < D.gnx C d) (hN : 1 < D.NG d) : cntPhi c (D.gnx C) d ≤ bufPhi c Ds := by
  refine Int.le_trans (cntPhi_le_area hdim hd) ?_
  have ha := fun d' (hd : d = d') => area_le_fold (c := c) (d := d') Ds 0 hD h (hd ▸ hN)
  unfold bufPhi
  dsimp only
  refine Int.ofNat_le.2 (Nat.mul_le_mul_right _ ?_)
  have hd' : d = 0 ∨ d = 1 ∨ d = 2 := by fin_cases d <;> decide
  rcases hd' with rfl | rfl | rfl
  · have := ha 0 rfl; split_ifs <;> omega
  · have := ha 1 rfl; split_ifs <;> omega
  · have := ha 2 rfl; split_ifs <;> omega

theorem cntPhi_congr {c : Cfg} {nx nx' : Fin 3 → Nat} {d : Fin 3} (h : SameTr d nx nx') : cntPhi c nx d = cntPhi c nx' d := by
  unfold cntPhi
  have hd : d = 0 ∨ d = 1 ∨ d = 2 := by fin_cases d <;> decide
  rcases hd with rfl | rfl | rfl
  · simp only [reduceIte]; rw [h 1 (by decide), h 2 (by decide)]
  · simp only [Fin.isValue, Fin.reduceEq, reduceIte]; rw [h 0 (by decide), h 2 (by decide)]
  · simp only [Fin.isValue, Fin.reduceEq, reduceIte]; rw [h 0 (by decide), h 1 (by decide)]

theorem sendPhi_ok {c : Cfg} {nx : Fin 3 → Nat} (h : Dims c nx) {d : Fin 3} (hd : 1 < nx d) (sd : Side) (sz : Nat) (hs : cntPhi c nx d ≤ sz)
    (P : Idx → V) : sendPhi c sz sd d nx P = .ok ((phiBox c nx d (packR c sd (lo c nx d) (hi c nx d))).map P) := by
  have hl := length_phi h d sd P
  unfold sendPhi
  rw [packPhi_ok h hd sd P]
  dsimp only [Res.bind_ok, bind, Res.bind]
  rw [if_pos ⟨by omega, by omega⟩, ← hl]
  simp

/-- What one message does. -/
theorem recvPhi_ok {c : Cfg} {nx nx' : Fin 3 → Nat} (h : Dims c nx) (h' : Dims c nx') {d : Fin 3} (hd : 1 < nx d) (hs : SameTr d nx nx')
    (sd : Side) (sz : Nat) (hz : cntPhi c nx d ≤ sz) (P Q : Idx → V) :
    ∃ P', recvPhi c sz sd d nx ((phiBox c nx' d (packR c (opp sd) (lo c nx' d) (hi c nx' d))).map Q) P = .ok P' ∧
      ∀ y, TrIn (trU c nx d) d y → P' y =
        if 1 ≤ depth sd (lo c nx d) (hi c nx d) (y d) ∧ depth sd (lo c nx d) (hi c nx d) (y d) ≤ c.ng then
          Q (setD y d (y d + shift sd (lo c nx d) (hi c nx d) (lo c nx' d) (hi c nx' d))) else P y := by
  have hl := length_phi h' d (opp sd) Q
  rw [← cntPhi_congr hs] at hl
  have hu := unpR_shift c sd (lo c nx d) (hi c nx d) (lo c nx' d) (hi c nx' d)
  have hin := unpR_in h hd sd
  obtain ⟨P', e, hP⟩ := readFace_box c nx d (trU c nx d) (trU c nx' d) (trU_congr hs) (packR c (opp sd) (lo c nx' d) (hi c nx' d))
    (-shift sd (lo c nx d) (hi c nx d) (lo c nx' d) (hi c nx' d)) (trU_in h hd) (by rw [hu] at hin; exact hin) Q [] P
  rw [List.append_nil, ← hu] at e
  refine ⟨P', ?_, ?_⟩
  · unfold recvPhi
    rw [if_neg (by omega), if_neg (by omega)]
    unfold unpackPhi phiBox
    rw [e]
    rfl
  · intro y hy
    rw [hP y hy]
    have hdp := unpR_depth c sd (lo c nx d) (hi c nx d) (y d)
    rw [hu] at hdp
    dsimp only at hdp
    rw [sub_neg_eq_add]
    exact if_congr hdp rfl rfl

theorem bcPhi_ok {c : Cfg} {nx : Fin 3 → Nat} (h : Dims c nx) {d : Fin 3} (hd : 1 < nx d) (sd : Side) (P : Idx → V) :
    ∃ P', bcPhi c .periodic sd d nx P = .ok P' ∧
      ∀ y, TrIn (trU c nx d) d y → P' y =
        if 1 ≤ depth sd (lo c nx d) (hi c nx d) (y d) ∧ depth sd (lo c nx d) (hi c nx d) (y d) ≤ c.ng then
          P (setD y d (srcI .periodic sd (lo c nx d) (hi c nx d) (depth sd (lo c nx d) (hi c nx d) (y d)))) else P y := by
  obtain ⟨P', e, hP⟩ := copy_ghost h hd (k := .periodic) (by decide) sd (trU c nx d) (trU_in h hd) id P
  refine ⟨P', ?_, fun y hy => hP y hy⟩
  unfold bcPhi
  rw [if_neg (by decide), if_neg (by decide)]
  exact e

section
variable {c : Cfg} {sz₀ sz : Nat} {D : Dom} (hD : DomOk c sz₀ D) (hp : ∀ d, D.bcIn d = .periodic ∧ D.bcOut d = .periodic)
  (hb : ∀ C d, D.Has C → 1 < D.NG d → cntPhi c (D.gnx C) d ≤ sz) {ψ : Idx → V} (hψ : PerDom D ψ)
include hD hψ

/-- The zone of the left neighbour that is copied is the same zone of the Domain. -/
theorem gl_left {C l : Coord} {d : Fin 3} (hC : D.Has C) (e : left D d C = some l) (y : Idx) (j : Int) :
    ψ (gl D l (setD y d (j + D.gnx l d))) = ψ (gl D C (setD y d j)) := by
  obtain ⟨hN, hl, -, ht⟩ := left_spec hD hC e
  rw [gl_nbr D C l y d ht, gl_setD]
  unfold left at e
  by_cases h0 : C d > 0
  · rw [if_pos h0] at e
    injection e with e
    subst e
    congr 2
    have h1 : disp D d (C d) = disp D d (C d - 1) + D.nx d (C d - 1) := by
      conv_lhs => rw [show C d = C d - 1 + 1 by omega]
      rfl
    unfold Dom.gnx
    rw [setD_self, h1]
    push_cast
    ring
  · rw [if_neg h0] at e
    by_cases hq : D.bcIn d = .periodic ∧ D.NG d > 1
    · rw [if_pos hq] at e
      injection e with e
      subst e
      have hC0 : C d = 0 := by omega
      have h1 : tot D d = disp D d (D.NG d - 1) + D.nx d (D.NG d - 1) := by
        unfold tot
        conv_lhs => rw [show D.NG d = D.NG d - 1 + 1 by omega]
        rfl
      have h2 : 1 < tot D d := by
        have := hD.split d hq.2 (D.NG d - 1) (by omega)
        omega
      have := hψ d h2 (setD (gl D C y) d (j + disp D d (C d)))
      rw [← this, setD_setD, setD_self]
      congr 2
      unfold Dom.gnx
      rw [setD_self, setD_self, hC0, h1]
      have h3 : disp D d 0 = 0 := rfl
      rw [h3]
      push_cast
      ring
    · rw [if_neg hq] at e; cases e

theorem gl_right {C r : Coord} {d : Fin 3} (hC : D.Has C) (e : right D d C = some r) (y : Idx) (j : Int) :
    ψ (gl D r (setD y d (j - D.gnx C d))) = ψ (gl D C (setD y d j)) := by
  obtain ⟨hN, hr, he, ht⟩ := right_spec hD hC e
  have := gl_left hD hψ hr he (setD y d (j - D.gnx C d)) (j - D.gnx C d)
  rw [setD_setD, setD_setD, sub_add_cancel] at this
  exact this.symm

include hp hb

/-- One direction. -/
theorem stagePhi_ok (o : Bool) (d : Fin 3) (st : Coord → Res (Idx → V)) (s : Coord → Idx → V) (hst : ∀ C, D.Has C → st C = .ok (s C))
    (hs : ∀ C, D.Has C → ∀ y, PhiIn c (D.gnx C) d.val y → s C y = ψ (gl D C y)) {C : Coord} (hC : D.Has C) :
    ∃ P', stagePhi c sz D o d st C = .ok P' ∧ ∀ y, PhiIn c (D.gnx C) (d.val + 1) y → P' y = ψ (gl D C y) := by
  have hdim := hD.dims C hC
  unfold stagePhi
  rw [hst C hC]
  dsimp only [bind, Res.bind]
  by_cases hd : 1 < D.gnx C d
  · rw [if_pos hd]
    have hz := hdim.zones d
    -- the two sides together
    have fin : ∀ (sd : Side) (P1 P2 : Idx → V),
        (∀ y, PhiIn c (D.gnx C) (d.val + 1) y → P1 y =
          if 1 ≤ depth sd (lo c (D.gnx C) d) (hi c (D.gnx C) d) (y d) ∧ depth sd (lo c (D.gnx C) d) (hi c (D.gnx C) d) (y d) ≤ c.ng then ψ (gl D C y) else s C y) →
        (∀ y, PhiIn c (D.gnx C) (d.val + 1) y → P2 y =
          if 1 ≤ depth (opp sd) (lo c (D.gnx C) d) (hi c (D.gnx C) d) (y d) ∧ depth (opp sd) (lo c (D.gnx C) d) (hi c (D.gnx C) d) (y d) ≤ c.ng then ψ (gl D C y) else P1 y) →
        ∀ y, PhiIn c (D.gnx C) (d.val + 1) y → P2 y = ψ (gl D C y) := by
      intro sd P1 P2 h1 h2 y hy
      rw [h2 y hy]
      split_ifs with g1
      · rfl
      · rw [h1 y hy]
        split_ifs with g2
        · rfl
        · have hyd := hy d
          rw [if_pos (by omega), size_pos hd] at hyd
          rw [lo_pos hd, hi_pos hd] at g1 g2
          have := phiIn_set (c := c) (nx := D.gnx C) (nx' := D.gnx C) (d := d) (fun _ _ => rfl) hy (j := y d) (by
            rw [lo_pos hd, hi_pos hd]
            cases sd <;> simp only [depth, opp] at g1 g2 <;> omega)
          rw [setD_eta] at this
          exact hs C hC y this
    rcases hl : left D d C with _ | l
    · -- one Grid in this direction
      have hN : D.NG d = 1 := by
        have := hC d
        unfold left at hl
        by_cases h0 : C d > 0
        · rw [if_pos h0] at hl; cases hl
        · rw [if_neg h0] at hl
          by_cases hq : D.bcIn d = .periodic ∧ D.NG d > 1
          · rw [if_pos hq] at hl; cases hl
          · have : ¬ D.NG d > 1 := fun h => hq ⟨(hp d).1, h⟩
            omega
      have hC0 : C d = 0 := by have := hC d; omega
      have hr : right D d C = none := by
        unfold right
        rw [if_neg (by omega), if_neg (fun h => by have := h.2; omega)]
      rw [hr]
      dsimp only
      have ht : tot D d = D.gnx C d := by rw [tot_one hN]; unfold Dom.gnx; rw [hC0]
      have hper : ∀ y : Idx, ∀ j : Int, ψ (gl D C (setD y d (j + D.gnx C d))) = ψ (gl D C (setD y d j)) := by
        intro y j
        rw [gl_setD, gl_setD, ← ht]
        have := hψ d (by omega) (setD (gl D C y) d (j + disp D d (C d)))
        rw [setD_setD, setD_self] at this
        rw [← this]
        congr 2
        ring
      rw [(hp d).1, (hp d).2]
      obtain ⟨P1, e1, h1⟩ := bcPhi_ok hdim hd .inner (s C)
      obtain ⟨P2, e2, h2⟩ := bcPhi_ok hdim hd .outer P1
      rw [e1]
      dsimp only
      refine ⟨P2, e2, fin .inner P1 P2 ?_ ?_⟩
      · intro y hy
        rw [h1 y (phiIn_tr hdim hd hy)]
        refine ite_left Iff.rfl (fun g => ?_)
        · simp only [depth, srcI] at g ⊢
          rw [lo_pos hd, hi_pos hd] at *
          rw [show ((D.gnx C d : Int) + c.ng - 1 - (c.ng - y d - 1)) = y d + D.gnx C d by ring]
          rw [hs C hC _ (phiIn_set (fun _ _ => rfl) hy (by rw [lo_pos hd, hi_pos hd]; omega)), hper, setD_eta]
      · intro y hy
        rw [h2 y (phiIn_tr hdim hd hy)]
        refine ite_left Iff.rfl (fun g => ?_)
        · simp only [depth, srcI] at g ⊢
          rw [lo_pos hd, hi_pos hd] at *
          rw [show ((c.ng : Int) + (y d - (D.gnx C d + c.ng - 1) - 1)) = y d - D.gnx C d by ring]
          have hin := phiIn_set (c := c) (nx := D.gnx C) (nx' := D.gnx C) (d := d) (fun _ _ => rfl) hy (j := y d - D.gnx C d)
            (by rw [lo_pos hd, hi_pos hd]; omega)
          have hq : P1 (setD y d (y d - D.gnx C d)) = s C (setD y d (y d - D.gnx C d)) := by
            rw [h1 _ ((trIn_setD _).2 (phiIn_tr hdim hd hy)), if_neg]
            rw [setD_self]
            simp only [depth]
            omega
          rw [hq, hs C hC _ hin]
          have := hper y (y d - D.gnx C d)
          rw [sub_add_cancel, setD_eta] at this
          exact this.symm
    · obtain ⟨hN, hlH, hlr, hlt⟩ := left_spec hD hC hl
      rcases hr : right D d C with _ | r
      · exfalso
        unfold right at hr
        have := hC d
        by_cases h0 : C d + 1 < D.NG d
        · rw [if_pos h0] at hr; cases hr
        · rw [if_neg h0, if_pos ⟨(hp d).2, hN⟩] at hr; cases hr
      · obtain ⟨-, hrH, hrl, hrt⟩ := right_spec hD hC hr
        dsimp only
        rw [hst l hlH, hst r hrH]
        dsimp only
        have dl := hD.split d hN (l d) (hlH d)
        have dr := hD.split d hN (r d) (hrH d)
        have dl' : 1 < D.gnx l d := dl
        have dr' : 1 < D.gnx r d := dr
        have sl : SameTr d (D.gnx C) (D.gnx l) := by intro t ht; unfold Dom.gnx; rw [hlt t ht]
        have sr : SameTr d (D.gnx C) (D.gnx r) := by intro t ht; unfold Dom.gnx; rw [hrt t ht]
        have zl := (hD.dims l hlH).zones d
        have zr := (hD.dims r hrH).zones d
        unfold phiFromLeft phiFromRight
        rw [if_pos ⟨hlr, dl'⟩, if_pos ⟨hrl, dr'⟩, sendPhi_ok (hD.dims l hlH) dl' .outer sz (hb l d hlH hN), sendPhi_ok (hD.dims r hrH) dr' .inner sz (hb r d hrH hN)]
        dsimp only
        -- values
        have vl : ∀ y, PhiIn c (D.gnx C) (d.val + 1) y →
            (1 ≤ depth .inner (lo c (D.gnx C) d) (hi c (D.gnx C) d) (y d) ∧ depth .inner (lo c (D.gnx C) d) (hi c (D.gnx C) d) (y d) ≤ c.ng) →
            s l (setD y d (y d + shift .inner (lo c (D.gnx C) d) (hi c (D.gnx C) d) (lo c (D.gnx l) d) (hi c (D.gnx l) d))) = ψ (gl D C y) := by
          intro y hy g
          simp only [depth, shift] at g ⊢
          rw [lo_pos hd] at g ⊢
          rw [hi_pos dl', show (y d + ((D.gnx l d : Int) + c.ng - 1 + 1 - c.ng)) = y d + D.gnx l d by ring]
          rw [hs l hlH _ (phiIn_set sl hy (by rw [lo_pos dl', hi_pos dl']; omega)), gl_left hD hψ hC hl, setD_eta]
        have vr : ∀ y, PhiIn c (D.gnx C) (d.val + 1) y →
            (1 ≤ depth .outer (lo c (D.gnx C) d) (hi c (D.gnx C) d) (y d) ∧ depth .outer (lo c (D.gnx C) d) (hi c (D.gnx C) d) (y d) ≤ c.ng) →
            s r (setD y d (y d + shift .outer (lo c (D.gnx C) d) (hi c (D.gnx C) d) (lo c (D.gnx r) d) (hi c (D.gnx r) d))) = ψ (gl D C y) := by
          intro y hy g
          simp only [depth, shift] at g ⊢
          rw [hi_pos hd] at g ⊢
          rw [lo_pos dr', show (y d + ((c.ng : Int) - ((D.gnx C d : Int) + c.ng - 1) - 1)) = y d - D.gnx C d by ring]
          rw [hs r hrH _ (phiIn_set sr hy (by rw [lo_pos dr', hi_pos dr']; omega)), gl_right hD hψ hC hr, setD_eta]
        cases o
        · obtain ⟨P1, e1, h1⟩ := recvPhi_ok hdim (hD.dims r hrH) hd sr .outer sz (hb C d hC hN) (s C) (s r)
          obtain ⟨P2, e2, h2⟩ := recvPhi_ok hdim (hD.dims l hlH) hd sl .inner sz (hb C d hC hN) P1 (s l)
          simp only [opp] at e1 e2
          rw [if_neg (by decide), e1]
          dsimp only
          refine ⟨P2, e2, fin .outer P1 P2 ?_ ?_⟩
          · intro y hy
            rw [h1 y (phiIn_tr hdim hd hy)]
            exact ite_left Iff.rfl (fun g => vr y hy g)
          · intro y hy
            rw [h2 y (phiIn_tr hdim hd hy)]
            exact ite_left Iff.rfl (fun g => vl y hy g)
        · obtain ⟨P1, e1, h1⟩ := recvPhi_ok hdim (hD.dims l hlH) hd sl .inner sz (hb C d hC hN) (s C) (s l)
          obtain ⟨P2, e2, h2⟩ := recvPhi_ok hdim (hD.dims r hrH) hd sr .outer sz (hb C d hC hN) P1 (s r)
          simp only [opp] at e1 e2
          rw [if_pos rfl, e1]
          dsimp only
          refine ⟨P2, e2, fin .inner P1 P2 ?_ ?_⟩
          · intro y hy
            rw [h1 y (phiIn_tr hdim hd hy)]
            exact ite_left Iff.rfl (fun g => vl y hy g)
          · intro y hy
            rw [h2 y (phiIn_tr hdim hd hy)]
            exact ite_left Iff.rfl (fun g => vr y hy g)
  · rw [if_neg hd]
    refine ⟨s C, rfl, fun y hy => hs C hC y ?_⟩
    intro t
    have := hy t
    by_cases e : t = d
    · subst e
      rw [if_pos (by omega), size_one hd] at this
      rw [if_neg (by omega), lo_one hd, hi_one hd]
      omega
    · have hv : t.val ≠ d.val := fun h => e (Fin.ext h)
      by_cases h : t.val < d.val
      · rw [if_pos h]; rw [if_pos (by omega)] at this; exact this
      · rw [if_neg h]; rw [if_neg (by omega)] at this; exact this

end

/-- **Every ghost zone of the potential holds the potential of its periodic image**, on any number of Grids: if the zones of all Grids hold the values
of a function `ψ` that has the period of the Domain, then `bvals_grav` succeeds on every Grid - all messages fit, match and arrive - and afterwards all
zones of all Grids, ghost zones and corners included, hold `ψ`, in whatever order messages arrive. -/
theorem phi_ghosts (c : Cfg) (Ds : List Dom) (D : Dom) (hm : D ∈ Ds) (hD : Regular c D) (hp : ∀ d, D.bcIn d = .periodic ∧ D.bcOut d = .periodic)
    (o : Fin 3 → Coord → Bool) (ψ : Idx → V) (hψ : PerDom D ψ) (s : Coord → Idx → V)
    (hs : ∀ C, D.Has C → ∀ y, (∀ t, lo c (D.gnx C) t ≤ y t ∧ y t ≤ hi c (D.gnx C) t) → s C y = ψ (gl D C y)) :
    ∃ s' : Coord → Idx → V, ∀ C, D.Has C → bvalsPhi c (bufPhi c Ds) D o s C = .ok (s' C)
      ∧ ∀ y, (∀ t, 0 ≤ y t ∧ y t < size c (D.gnx C) t) → s' C y = ψ (gl D C y) := by
  classical
  have hOk := hD.ok hm
  have hb : ∀ C d, D.Has C → 1 < D.NG d → cntPhi c (D.gnx C) d ≤ bufPhi c Ds := fun C d hC hN =>
    cntPhi_le_buf hm hC (hD.dims C hC) (hD.split d hN _ (hC d)) hN
  have step := fun d st s' h1 h2 => fun C (hC : D.Has C) => stagePhi_ok hOk hp hb hψ (o d C) d st s' h1 h2 hC
  have ex : ∀ (d : Fin 3) (st : Coord → Res (Idx → V)) (s : Coord → Idx → V), (∀ C, D.Has C → st C = .ok (s C)) →
      (∀ C, D.Has C → ∀ y, PhiIn c (D.gnx C) d.val y → s C y = ψ (gl D C y)) →
      ∃ s' : Coord → Idx → V, (∀ C, D.Has C → stagePhi c (bufPhi c Ds) D (o d C) d st C = .ok (s' C)) ∧
        ∀ C, D.Has C → ∀ y, PhiIn c (D.gnx C) (d.val + 1) y → s' C y = ψ (gl D C y) := by
    intro d st s h1 h2
    have h := step d st s h1 h2
    refine ⟨fun C => if hC : D.Has C then (h C hC).choose else s C, fun C hC => ?_, fun C hC => ?_⟩
    · dsimp only; rw [dif_pos hC]; exact (h C hC).choose_spec.1
    · dsimp only; rw [dif_pos hC]; exact (h C hC).choose_spec.2
  obtain ⟨s1, e1, h1⟩ := ex 0 (fun C => .ok (s C)) s (fun _ _ => rfl) (fun C hC y hy => hs C hC y (fun t => by
    have := hy t
    rw [if_neg (by simp)] at this
    exact this))
  obtain ⟨s2, e2, h2⟩ := ex 1 (fun C => stagePhi c (bufPhi c Ds) D (o 0 C) 0 (fun C => .ok (s C)) C) s1 e1 h1
  obtain ⟨s3, e3, h3⟩ := ex 2 _ s2 e2 h2
  refine ⟨s3, fun C hC => ⟨e3 C hC, fun y hy => h3 C hC y (fun t => ?_)⟩⟩
  rw [if_pos (by have := t.isLt; show t.val < 3; exact this)]
  exact hy t

/-- Seven by four zones on two by two Grids, periodic on all sides. -/
def DPhi : Dom := { D0 with bcIn := fun _ => .periodic, bcOut := fun _ => .periodic }

theorem DPhi_regular : Regular c0 DPhi :=
  ⟨D0_regular.dims, D0_regular.split, fun _ => by simp [DPhi], fun _ => by simp [DPhi], fun _ _ => Iff.rfl⟩

/-- The hypotheses of `phi_ghosts` hold for this Domain and a potential that tells all its zones apart. -/
example : ∃ s' : Coord → Idx → Int, ∀ C, DPhi.Has C → bvalsPhi c0 (bufPhi c0 [DPhi]) DPhi (fun _ _ => false)
      (fun C y => gl DPhi C y 0 % 7 + 10 * (gl DPhi C y 1 % 4)) C = .ok (s' C)
      ∧ ∀ y, (∀ t, 0 ≤ y t ∧ y t < size c0 (DPhi.gnx C) t) → s' C y = gl DPhi C y 0 % 7 + 10 * (gl DPhi C y 1 % 4) := by
  refine phi_ghosts c0 [DPhi] DPhi (List.mem_singleton.2 rfl) DPhi_regular (fun _ => ⟨rfl, rfl⟩) _ (fun Y => Y 0 % 7 + 10 * (Y 1 % 4)) ?_ _
    (fun _ _ _ _ => rfl)
  intro d hd y
  have t0 : tot DPhi 0 = 7 := by decide
  have t1 : tot DPhi 1 = 4 := by decide
  have t2 : tot DPhi 2 = 1 := by decide
  have hd' : d = 0 ∨ d = 1 ∨ d = 2 := by fin_cases d <;> decide
  rcases hd' with rfl | rfl | rfl
  · dsimp only; rw [t0, setD_self, setD_ne _ _ _ _ (by decide)]; omega
  · dsimp only; rw [t1, setD_self, setD_ne _ _ _ _ (by decide)]; omega
  · omega

end Athena.Bvals
