import Verif.Smr.RDiv3
import Verif.Smr.RKeep

/-!
# Concrete overlaps that meet the assumptions of C27, C28, C29 and C63
-/

namespace Athena.Smr.REx

open Child (normal)

/-- The fluxes of one variable and the EMFs as stored by a Grid on the boundaries `st` of a box. -/
def flxOf (b : Box) (st : Fin 6 → Bool) (F : Fin 3 → Z3 → ℚ) (d : Fin 6) : Option (ℤ → ℤ → Var 1 → ℚ) :=
  if st d then some fun x y _ => F (normal d) (put (normal d) (x + (b.org (normal d)).1, y + (b.org (normal d)).2) (b.bnd d))
  else none

def emfOf (b : Box) (st : Fin 6 → Bool) (E : Fin 3 → Z3 → ℚ) (e : Fin 3) (d : Fin 6) : Option (ℤ → ℤ → ℚ) :=
  if st d && !decide (e = normal d) then
    some fun x y => E e (put (normal d) (x + (b.org (normal d)).1, y + (b.org (normal d)).2) (b.bnd d))
  else none

/-- A 3D child Grid of 4³ zones covering the zones 2,3 (in each direction) of a parent with zones 0..5. -/
def cb : Box := { ks := 0, ke := 3, js := 0, je := 3, is := 0, ie := 3 }
def pb : Box := { ks := 2, ke := 3, js := 2, je := 3, is := 2, ie := 3 }
def ab : Box := { ks := 0, ke := 5, js := 0, je := 5, is := 0, ie := 5 }

def vs1 : List (Var 1) := [.f 0, .b 0, .b 1, .b 2]

def st6 : Fin 6 → Bool := fun _ => true

def exC (U : Z3 × Var 1 → ℚ) (B : Fin 3 → Z3 → ℚ) (f g : Fin 3 → Z3 → ℚ) : Child ℚ 1 :=
  { nDim := 3, mhd := true, vs := vs1, box := cb, g := { U := U, B := B }, flx := flxOf cb st6 f,
    emf1 := emfOf cb st6 g 0, emf2 := emfOf cb st6 g 1, emf3 := emfOf cb st6 g 2 }

def exP (F E : Fin 3 → Z3 → ℚ) : Parent ℚ 1 :=
  { nDim := 3, mhd := true, vs := vs1, box := pb, ie := 5, je := 5, ke := 5, dt := 1/10, dx := fun _ => 1,
    flx := flxOf pb st6 F, emf1 := emfOf pb st6 E 0, emf2 := emfOf pb st6 E 1, emf3 := emfOf pb st6 E 2 }

variable (U : Z3 × Var 1 → ℚ) (B f g F E : Fin 3 → Z3 → ℚ)

theorem exMatch : Match (exC U B f g) (exP F E) where
  dim := rfl
  dim1 := by simp [exP]
  dim3 := by simp [exP]
  mhd := rfl
  vs := rfl
  nodup := by simp [exP, vs1]
  x1 := by simp [exP, exC, pb, cb]
  x2 := fun _ => by simp [exP, exC, pb, cb]
  x2' := fun h => by simp [exP] at h
  x3 := fun _ => by simp [exP, exC, pb, cb]
  x3' := fun h => by simp [exP] at h
  side := fun d => rfl
  sideDim := fun d _ => by simp [exP]

theorem exEMatch : EMatch (exC U B f g) (exP F E) where
  same := by
    intro e d
    rcases (by omega : e = 0 ∨ e = 1 ∨ e = 2) with rfl | rfl | rfl <;>
      simp [Child.emf, Parent.emf, exC, exP, emfOf] <;> split_ifs <;> rfl
  e2 := by intro d h _ _; simp [exP, emfOf, h, st6]
  e1 := by intro d h _ _; simp [exP, emfOf, h, st6]
  e2' := by intro d h _; simp [exP, emfOf, h, st6]
  x2 := by intro d _ _; simp [exP]
  x1 := by intro d _ _; simp [exP]
  x3 := by intro d _ _; simp [exP]

theorem exThick : Thick (exP F E) := Or.inr (Or.inr (by simp [exP, pb]))

theorem exExch : Exch (exC U B f g) (exP F E) := ⟨exMatch U B f g F E, fun _ => ⟨exEMatch U B f g F E, exThick F E⟩⟩

theorem exInside : Inside (exP F E) ab where
  some := ⟨(2, 2, 2), by rw [mem_zonesF]; simp [exP, exC, pb, cb, ab]⟩
  sub := by
    intro z hz
    rw [mem_zonesF] at hz ⊢
    simp [exP, pb, ab] at *; omega
  stored := by
    intro d _ _ x hx
    rw [mem_zonesF]
    rcases six d with rfl | rfl | rfl | rfl | rfl | rfl <;>
      simp [faceF, normal, exP, pb, ab, Parent.outside] at * <;> omega
  outer := by intro d _ h; simp [exP, flxOf, st6] at h
  inner := by
    have : ∀ d, pb.bnd d ≠ ab.bnd d := by decide
    exact fun d _ _ => this d

theorem exStep : Step (exC U B f g) (exP F E) ab E g where
  m := exMatch U B f g F E
  e := exEMatch U B f g F E
  thick := exThick F E
  mhd := rfl
  st := ⟨fun d h => by simp [exP, emfOf, flxOf, st6, h], fun d h => by simp [exP, emfOf, flxOf, st6, h],
    fun d h => by simp [exP, emfOf, flxOf, st6, h]⟩
  dim := by simp [exP]
  inside := exInside F E
  act := by simp [ab, exP]
  hE := by
    intro d e S hne hS x hx
    have : emfOf pb st6 E e d = some S := by
      rcases (by omega : e = 0 ∨ e = 1 ∨ e = 2) with rfl | rfl | rfl <;> exact hS
    simp [emfOf, st6, hne] at this
    subst this
    simp [exP]
  hg := by
    intro d e S hne hS x hx
    have : emfOf cb st6 g e d = some S := by
      rcases (by omega : e = 0 ∨ e = 1 ∨ e = 2) with rfl | rfl | rfl <;> exact hS
    simp [emfOf, st6, hne] at this
    subst this
    simp [exC]

/-- C27: every state of the two Grids. -/
example (s : PState ℚ 1) : ∃ s', After (exC U B f g) (exP F E) s s' ∧
    s'.U ((2, 3, 2), .f 0) = ((covered (exC U B f g) (exP F E) (2, 3, 2)).map fun y => U (y, .f 0)).sum / 2^3 := by
  obtain ⟨s', ha⟩ := restrict_succeeds_partial (exExch U B f g F E) s
  exact ⟨s', ha, restrict_average (exExch U B f g F E) ha (by simp [exP, vs1]) (by rw [mem_zonesF]; simp [exP, exC, pb, cb, ab])⟩

example : covered (exC U B f g) (exP F E) (2, 3, 2) =
    [(0, 2, 0), (0, 2, 1), (0, 3, 0), (0, 3, 1), (1, 2, 0), (1, 2, 1), (1, 3, 0), (1, 3, 1)] := by
  simp [covered, exP, exC, offs, pb, cb]

example {s s' : PState ℚ 1} (ha : After (exC U B f g) (exP F E) s s') :
    (∑ z ∈ zonesF pb, s'.U (z, .f 0)) * 1 = (∑ y ∈ zonesF cb, U (y, .f 0)) * (1 / 2^3) :=
  restrict_integral (exExch U B f g F E) ha (by simp [exP, vs1]) 1

example {s s' : PState ℚ 1} (ha : After (exC U B f g) (exP F E) s s') : s'.U ((0, 0, 0), .f 0) = s.U ((0, 0, 0), .f 0) := by
  refine restrict_elsewhere (exExch U B f g F E) ha (by simp [exP, vs1]) (by rw [mem_zonesF]; simp [exP, exC, pb, cb, ab]) ?_
  intro d _ x hx
  rcases six d with rfl | rfl | rfl | rfl | rfl | rfl <;>
    simp [faceF, normal, exP, pb, Parent.outside] at * <;> omega

/-- C29, C63: any fields before the step, any EMFs. -/
theorem exMoved (B0 b0 : Fin 3 → Z3 → ℚ) (s : PState ℚ 1) (hs : s.B = ct 3 (1/10) (fun _ => 1) E B0)
    (h0 : ∀ m z, B0 m z = avg (b0 m) (coveredB (exC U B f g) (exP F E) m z))
    (hB : B = ct 3 (1/10) (fun _ => 1/2) g b0) : Moved (exC U B f g) (exP F E) E g s B0 b0 where
  coarse := fun m z _ _ _ => by rw [hs]; rfl
  fine := fun m z _ _ _ y _ => by rw [show (exC U B f g).g.B = B from rfl, hB]; rfl
  before := fun m z _ _ _ => h0 m z

example (b0 : Fin 3 → Z3 → ℚ) : ∃ s s', ∃ B0 B : Fin 3 → Z3 → ℚ, Moved (exC U B f g) (exP F E) E g s B0 b0 ∧
    After (exC U B f g) (exP F E) s s' ∧
    divB 3 (fun _ => 1) s'.B (2, 2, 2) = avg (divB 3 (fun _ => 1/2) B) (covered (exC U B f g) (exP F E) (2, 2, 2)) ∧
    divB 3 (fun _ => 1) s'.B (2, 2, 1) = divB 3 (fun _ => 1) s.B (2, 2, 1) := by
  let B := ct 3 (1/10) (fun _ => 1/2) g b0
  let B0 : Fin 3 → Z3 → ℚ := fun m z => avg (b0 m) (coveredB (exC U B f g) (exP F E) m z)
  let s : PState ℚ 1 := { U := fun _ => 0, B := ct 3 (1/10) (fun _ => 1) E B0, e := fun _ _ => 0 }
  obtain ⟨s', ha⟩ := restrict_succeeds_partial (exExch U B f g F E) s
  have hm : Moved (exC U B f g) (exP F E) E g s B0 b0 := exMoved U B f g F E B0 b0 s rfl (fun _ _ => rfl) rfl
  refine ⟨s, s', B0, B, hm, ha, ?_, ?_⟩
  · exact covered_divergence_partial (exStep U B f g F E) (fun _ => by simp [exP]) ha hm (by rw [mem_zonesF]; simp [exP, exC, pb, cb, ab])
  · exact uncovered_divergence_partial (exStep U B f g F E) (fun _ => by simp [exP]) ha (by rw [mem_zonesF]; simp [exP, exC, pb, cb, ab])
      (by rw [mem_zonesF]; simp [exP, exC, pb, cb, ab])

/-- C28: a 2D hydrodynamic child at the left boundary of the parent (nothing is stored there). -/
def cb2 : Box := { ks := 0, ke := 0, js := 0, je := 3, is := 0, ie := 3 }
def pb2 : Box := { ks := 0, ke := 0, js := 2, je := 3, is := 0, ie := 1 }
def ab2 : Box := { ks := 0, ke := 0, js := 0, je := 5, is := 0, ie := 5 }
def st2 : Fin 6 → Bool := ![false, true, true, true, false, false]

def exC2 (U : Z3 × Var 1 → ℚ) (f : Fin 3 → Z3 → ℚ) : Child ℚ 1 :=
  { nDim := 2, mhd := false, vs := [.f 0], box := cb2, g := { U := U, B := fun _ _ => 0 }, flx := flxOf cb2 st2 f,
    emf1 := fun _ => none, emf2 := fun _ => none, emf3 := fun _ => none }

def exP2 (F : Fin 3 → Z3 → ℚ) : Parent ℚ 1 :=
  { nDim := 2, mhd := false, vs := [.f 0], box := pb2, ie := 5, je := 5, ke := 0, dt := 1/10, dx := fun _ => 1,
    flx := flxOf pb2 st2 F, emf1 := fun _ => none, emf2 := fun _ => none, emf3 := fun _ => none }

theorem exExch2 : Exch (exC2 U f) (exP2 F) where
  m :=
    { dim := rfl
      dim1 := by simp [exP2]
      dim3 := by simp [exP2]
      mhd := rfl
      vs := rfl
      nodup := by simp [exP2]
      x1 := by simp [exP2, exC2, pb2, cb2]
      x2 := fun _ => by simp [exP2, exC2, pb2, cb2]
      x2' := fun h => by simp [exP2] at h
      x3 := fun h => by simp [exP2] at h
      x3' := fun _ => by simp [exP2, exC2, pb2, cb2]
      side := fun d => by simp only [exC2, exP2, flxOf]; split_ifs <;> rfl
      sideDim := fun d h => by
        rcases six d with rfl | rfl | rfl | rfl | rfl | rfl <;> simp [exP2, flxOf, st2] at h ⊢ }
  mhd := fun h => by simp [exP2] at h

theorem exInside2 : Inside (exP2 F) ab2 where
  some := ⟨(0, 2, 0), by rw [mem_zonesF]; simp [exP2, pb2]⟩
  sub := by
    intro z hz
    rw [mem_zonesF] at hz ⊢
    simp [exP2, pb2, ab2] at *; omega
  stored := by
    intro d _ h x hx
    rw [mem_zonesF]
    obtain ⟨x1, x2⟩ := x
    rcases six d with rfl | rfl | rfl | rfl | rfl | rfl <;>
      simp [faceF, normal, exP2, pb2, ab2, Parent.outside, flxOf, st2] at h hx ⊢ <;> omega
  outer := by
    intro d _ h
    rcases six d with rfl | rfl | rfl | rfl | rfl | rfl <;>
      simp [exP2, pb2, ab2, flxOf, st2, Box.bnd, Box.lo, normal] at *
  inner := by
    intro d _ h
    rcases six d with rfl | rfl | rfl | rfl | rfl | rfl <;>
      simp [exP2, pb2, ab2, flxOf, st2, Box.bnd, Box.lo, Box.hi, normal] at *

theorem storedOf (b : Box) (st : Fin 6 → Bool) (F : Fin 3 → Z3 → ℚ) : Stored b (flxOf b st F) (0 : Fin 1) F := by
  intro d S hS x _
  unfold flxOf at hS
  split_ifs at hS
  simp at hS
  subst hS
  simp

/-- The step: any state before, any fluxes. -/
def stepOf (dx : ℚ) (F : Fin 3 → Z3 → ℚ) (U0 : Z3 → ℚ) (z : Z3) : ℚ :=
  U0 z - ∑ m : Fin 3, if m.val < 2 then 1/10 / dx * (F m (Parent.nextF m z) - F m z) else 0

example (U0 u0 : Z3 → ℚ) : ∃ s s', After (exC2 (fun y => stepOf (1/2) f u0 y.1) f) (exP2 F) s s' ∧
    ((∑ z ∈ zonesF ab2 \ zonesF pb2, s'.U (z, .f 0)) * 1 + (∑ y ∈ zonesF cb2, stepOf (1/2) f u0 y) * (1 / 2^2)) -
      ((∑ z ∈ zonesF ab2 \ zonesF pb2, U0 z) * 1 + (∑ y ∈ zonesF cb2, u0 y) * (1 / 2^2)) =
    -∑ m : Fin 3, if m.val < 2 then 1/10 * (1 / 1) *
      ((∑ x ∈ faceF ab2 m, outerFlux (exC2 (fun y => stepOf (1/2) f u0 y.1) f) (exP2 F) ab2 F f (upper m) x) -
        ∑ x ∈ faceF ab2 m, outerFlux (exC2 (fun y => stepOf (1/2) f u0 y.1) f) (exP2 F) ab2 F f (lower m) x) else 0 := by
  let s : PState ℚ 1 := { U := fun y => stepOf 1 F U0 y.1, B := fun _ _ => 0, e := fun _ _ => 0 }
  obtain ⟨s', ha⟩ := restrict_succeeds_partial (exExch2 (fun y => stepOf (1/2) f u0 y.1) f F) s
  exact ⟨s, s', ha, composite_conservative_partial (exExch2 (fun y => stepOf (1/2) f u0 y.1) f F) ha (n := 0) (by simp [exP2])
    (exInside2 F) F f (storedOf pb2 st2 F) (storedOf cb2 st2 f) U0 u0 (fun z _ => rfl) (fun z _ => rfl) 1⟩

/-! ## An overlap one coarse zone wide

The child sends the field on the two x1-faces of every row, the parent reads the words of these faces inside a loop
over the faces between the zones of the row, which is empty (src/smr.c:296-316): the words are not read, and the words
that follow are taken for something else. -/

def cb3 : Box := { ks := 0, ke := 0, js := 0, je := 3, is := 0, ie := 1 }
def pb3 : Box := { ks := 0, ke := 0, js := 2, je := 3, is := 2, ie := 2 }
def st3 : Fin 6 → Bool := fun d => d.val < 4

/-- A uniform field along x1, nothing else. -/
def exC3 : Child ℚ 1 :=
  { nDim := 2, mhd := true, vs := vs1, box := cb3, g := { U := fun _ => 0, B := fun m _ => if m = 0 then 1 else 0 },
    flx := flxOf cb3 st3 (fun _ _ => 0),
    emf1 := fun _ => none, emf2 := fun _ => none, emf3 := emfOf cb3 st3 (fun _ _ => 0) 2 }

def exP3 : Parent ℚ 1 :=
  { nDim := 2, mhd := true, vs := vs1, box := pb3, ie := 5, je := 5, ke := 0, dt := 1/10, dx := fun _ => 1,
    flx := flxOf pb3 st3 (fun _ _ => 0), emf1 := fun _ => none, emf2 := fun _ => none, emf3 := emfOf pb3 st3 (fun _ _ => 0) 2 }

def s3 : PState ℚ 1 := { U := fun _ => 0, B := fun m _ => if m = 0 then 1 else 0, e := fun _ _ => 0 }

theorem exMatch3 : Match exC3 exP3 where
  dim := rfl
  dim1 := by decide
  dim3 := by decide
  mhd := rfl
  vs := rfl
  nodup := by decide
  x1 := by decide
  x2 := by decide
  x2' := by decide
  x3 := by decide
  x3' := by decide
  side := by decide
  sideDim := by decide

theorem exEMatch3 : EMatch exC3 exP3 where
  same := by decide
  e2 := by decide
  e1 := by decide
  e2' := by decide
  x2 := by decide
  x1 := by decide
  x3 := by decide

/-- **C29 (negative).** Without the assumption on the width of the overlap the exchange goes wrong: both Grids hold
the same uniform field along x1 and no fluxes or EMFs; the x2-component on the face inside the region is 1 afterwards,
and words of the message are left over. -/
theorem thin_overlap_false : ∃ (c : Child ℚ 1) (p : Parent ℚ 1) (s : PState ℚ 1), Match c p ∧ EMatch c p ∧
    (0, 3, 2) ∈ faces p 1 ∧ skip p 1 (0, 3, 2) = false ∧ (∀ y, c.g.B 1 y = 0) ∧ (∀ y, s.B 1 y = 0) ∧
    ∃ w s' rest, c.send = some w ∧ p.unpack (s, w) = some (s', rest) ∧ rest ≠ [] ∧ s'.B 1 (0, 3, 2) = 1 := by
  refine ⟨exC3, exP3, s3, exMatch3, exEMatch3, by decide, by decide, fun _ => rfl, fun _ => rfl, ?_⟩
  have h1 : exC3.send.isSome = true := by decide +kernel
  obtain ⟨w, hw⟩ := Option.isSome_iff_exists.1 h1
  have h2 : (exC3.send.bind fun w => (exP3.unpack (s3, w)).map fun r => (decide (r.2 ≠ []) && decide (r.1.B 1 (0, 3, 2) = 1))) = some true := by
    decide +kernel
  rw [hw, Option.bind_some] at h2
  cases hu : exP3.unpack (s3, w) with
  | none => rw [hu] at h2; simp at h2
  | some r =>
    rw [hu] at h2
    simp at h2
    exact ⟨w, r.1, r.2, hw, hu, h2.1, h2.2⟩

/-- C27 holds also for this overlap. -/
example : ∃ w s' rest, exC3.send = some w ∧ exP3.unpack (s3, w) = some (s', rest) ∧ s'.U ((0, 3, 2), .f 0) =
    ((covered exC3 exP3 (0, 3, 2)).map fun y => exC3.g.U (y, .f 0)).sum / 2^2 := by
  obtain ⟨w, hw⟩ := Option.isSome_iff_exists.1 (show exC3.send.isSome = true by decide +kernel)
  have h2 : (exC3.send.bind fun w => exP3.unpack (s3, w)).isSome = true := by decide +kernel
  rw [hw, Option.bind_some] at h2
  obtain ⟨⟨s', rest⟩, hu⟩ := Option.isSome_iff_exists.1 h2
  exact ⟨w, s', rest, hw, hu, restrict_average_any exMatch3 (fun _ => exEMatch3) hw hu (by decide) (by rw [mem_zonesF]; decide)⟩

end Athena.Smr.REx
