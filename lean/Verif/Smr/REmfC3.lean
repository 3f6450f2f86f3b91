import Verif.Smr.REmfC2

/-!
# The EMF correction of `RestrictCorrect` on x3-boundaries, and on all of them
-/

namespace Athena.Smr

variable {R : Type*} [Field R] {nf : Nat}

section side3
variable (p : Parent R nf) (d : Fin 6)

/-- Index of the zones outside. -/
def kOut : ℤ := if d = 4 then p.box.ks - 1 else p.box.ke + 1
/-- Index of the faces on the boundary. -/
def kBnd : ℤ := if d = 4 then p.box.ks else p.box.ke + 1
/-- Is the last row of EMFs used? -/
def use1z : Bool := (p.emf1 3).isSome || p.box.je = p.je || p.box.ke < p.box.ks
/-- Is the last EMF of a row used? -/
def use2z : Bool := (p.emf2 1).isSome || p.box.ie = p.ie || p.box.ke < p.box.ks

/-- What the correction on an x3-boundary adds to the faces, if `δ1`, `δ2` are the differences of the EMFs on its
edges along x1 and x2: the faces outside that end at the boundary, the faces on the boundary, and (if the Grids
only touch) the faces beyond the boundary in its plane. -/
def D3 (δ1 δ2 : ℤ × ℤ → R) (n : Fin 3) (z : Z3) : R :=
  let b := p.box
  let x := z.2
  if n = 1 then
    (if (b.js ≤ z.2.1 ∧ z.2.1 ≤ b.je + 1) ∧ (b.is ≤ z.2.2 ∧ z.2.2 ≤ b.ie) ∧ z.1 = kOut p d ∧
        (z.2.1 ≤ b.je ∨ use1z p = true) then -p.q d * δ1 x else 0)
  else if n = 0 then
    (if (b.js ≤ z.2.1 ∧ z.2.1 ≤ b.je) ∧ (b.is ≤ z.2.2 ∧ z.2.2 ≤ b.ie + 1) ∧ z.1 = kOut p d ∧
        (z.2.2 ≤ b.ie ∨ use2z p = true) then p.q d * δ2 x else 0)
  else
    (if (b.js ≤ z.2.1 ∧ z.2.1 ≤ b.je) ∧ (b.is ≤ z.2.2 ∧ z.2.2 ≤ b.ie) ∧ z.1 = kBnd p d then
      p.dt / p.dx 0 * (δ2 (z.2.1, z.2.2 + 1) - δ2 x) - p.dt / p.dx 1 * (δ1 (z.2.1 + 1, z.2.2) - δ1 x) else 0) +
    (if b.ke < b.ks ∧ (b.js ≤ z.2.1 ∧ z.2.1 ≤ b.je) ∧ z.1 = kBnd p d then
      (if z.2.2 = b.is - 1 then p.dt / p.dx 0 * δ2 (z.2.1, b.is)
        else if z.2.2 = b.ie + 1 then -(p.dt / p.dx 0 * δ2 (z.2.1, b.ie + 1)) else 0) else 0) +
    (if b.ke < b.ks ∧ (b.is ≤ z.2.2 ∧ z.2.2 ≤ b.ie) ∧ z.1 = kBnd p d then
      (if z.2.1 = b.js - 1 then -(p.dt / p.dx 1 * δ1 (b.js, z.2.2))
        else if z.2.1 = b.je + 1 then p.dt / p.dx 1 * δ1 (b.je + 1, z.2.2) else 0) else 0)

theorem emfCorr3_eq (hj : p.box.js ≤ p.box.je + 1) (hi : p.box.is ≤ p.box.ie + 1) (E1 E2 G1 G2 : ℤ → ℤ → R)
    (h1 : p.emf1 d = some E1) (h2 : p.emf2 d = some E2) (s : PState R nf) (rest : List R) :
    ∃ s', p.emfCorr3 d (s, (rng p.box.js (p.box.je + 1) ×ˢ rng p.box.is p.box.ie).map (eW p 2 0 G1) ++
      (rng p.box.js p.box.je ×ˢ rng p.box.is (p.box.ie + 1)).map (eW p 2 1 G2) ++ rest) = some (s', rest) ∧
      (∀ z n, s'.U (z, .f n) = s.U (z, .f n)) ∧
      (∀ n z, s'.B n z = s.B n z + D3 p d (dE p 2 0 E1 G1) (dE p 2 1 E2 G2) n z) := by
  unfold Parent.emfCorr3
  rw [h1, h2]
  dsimp only
  have hi' : (if d = 4 then p.box.ks - 1 else p.box.ke + 1) = kOut p d := rfl
  have hb : (if d = 4 then p.box.ks else p.box.ke + 1) = kBnd p d := rfl
  have hu1 : ((p.emf1 3).isSome || decide (p.box.je = p.je) || decide (p.box.ke < p.box.ks)) = use1z p := rfl
  have hu2 : ((p.emf2 1).isSome || decide (p.box.ie = p.ie) || decide (p.box.ke < p.box.ks)) = use2z p := rfl
  simp only [hi', hb, hu1, hu2]
  generalize hδ1 : dE p 2 0 E1 G1 = δ1
  generalize hδ2 : dE p 2 1 E2 G2 = δ2
  have tb1 : (p.tb 2).1.1 = p.box.js := rfl
  have tb2 : (p.tb 2).2.1 = p.box.is := rfl
  have d1 : ∀ j i, E1 (j - p.box.js) (i - p.box.is) - eW p 2 0 G1 (j, i) = δ1 (j, i) := fun j i => by rw [← hδ1]; rfl
  have d2 : ∀ j i, E2 (j - p.box.js) (i - p.box.is) - eW p 2 1 G2 (j, i) = δ2 (j, i) := fun j i => by rw [← hδ2]; rfl
  have hn1 : (rng p.box.js (p.box.je + 1) ×ˢ rng p.box.is p.box.ie).Nodup := (nodup_rng _ _).product (nodup_rng _ _)
  have hn0 : (rng p.box.js p.box.je ×ˢ rng p.box.is p.box.ie).Nodup := (nodup_rng _ _).product (nodup_rng _ _)
  have hn2 : (rng p.box.js p.box.je ×ˢ rng p.box.is (p.box.ie + 1)).Nodup := (nodup_rng _ _).product (nodup_rng _ _)
  -- the EMFs along x1
  obtain ⟨s1, r1, u1, e1, e1', b1⟩ := pops_emfD (nf := nf) (rng p.box.js (p.box.je + 1) ×ˢ rng p.box.is p.box.ie) hn1 0
    (fun x => (x.1 - p.box.js, x.2 - p.box.is)) (fun x => (x.1 + p.box.js, x.2 + p.box.is)) (by intro x; simp)
    (fun x => E1 (x.1 - p.box.js) (x.2 - p.box.is)) (-p.q d) (fun x => decide (x.1 ≤ p.box.je) || use1z p) 1
    (fun x => (kOut p d, x.1, x.2)) (fun z => z.2) (fun x => rfl) (eW p 2 0 G1) s
    ((rng p.box.js p.box.je ×ˢ rng p.box.is (p.box.ie + 1)).map (eW p 2 1 G2) ++ rest)
    (D3 p d δ1 δ2 1)
    (by
      rintro ⟨j, i⟩ hx
      rw [List.mem_product, mem_rng, mem_rng] at hx
      simp only [D3, if_true, d1]
      simp [hx])
    (by
      rintro ⟨k, j, i⟩ hz
      simp only [D3, if_true]
      rw [if_neg]
      rintro ⟨a1, a2, a3, _⟩
      exact hz (j, i) (List.mem_product.2 ⟨mem_rng.2 a1, mem_rng.2 a2⟩) (by rw [← a3]))
  rw [← emf_planes (nf := nf) 0 1 p.box.js p.box.je p.box.is p.box.ie hj E1 (-p.q d) (use1z p)
    (fun j i => (kOut p d, j, i)), pops_append] at r1
  obtain ⟨s0, r0, r1⟩ := Option.bind_eq_some_iff.1 r1
  rw [List.append_assoc, seqs_cons _ _ _ _ r0, seqs_cons _ _ _ _ r1]
  clear r0 r1
  -- the EMFs along x2
  rw [emf_rows (nf := nf) 1 0 p.box.js p.box.je p.box.is p.box.ie hi E2 (p.q d) (use2z p) (fun j i => (kOut p d, j, i))]
  obtain ⟨s2, q2, u2, e2, e2', b2⟩ := pops_emfD (nf := nf) (rng p.box.js p.box.je ×ˢ rng p.box.is (p.box.ie + 1)) hn2 1
    (fun x => (x.1 - p.box.js, x.2 - p.box.is)) (fun x => (x.1 + p.box.js, x.2 + p.box.is)) (by intro x; simp)
    (fun x => E2 (x.1 - p.box.js) (x.2 - p.box.is)) (p.q d) (fun x => decide (x.2 ≤ p.box.ie) || use2z p) 0
    (fun x => (kOut p d, x.1, x.2)) (fun z => z.2) (fun x => rfl) (eW p 2 1 G2) s1 rest
    (D3 p d δ1 δ2 0)
    (by
      rintro ⟨j, i⟩ hx
      rw [List.mem_product, mem_rng, mem_rng] at hx
      simp only [D3, show (0 : Fin 3) ≠ 1 by decide, if_true, if_false, d2]
      simp [hx])
    (by
      rintro ⟨k, j, i⟩ hz
      simp only [D3, show (0 : Fin 3) ≠ 1 by decide, if_true, if_false]
      rw [if_neg]
      rintro ⟨a1, a2, a3, _⟩
      exact hz (j, i) (List.mem_product.2 ⟨mem_rng.2 a1, mem_rng.2 a2⟩) (by rw [← a3]))
  rw [seqs_cons _ _ _ _ q2]
  clear q2
  have he1 : ∀ j i, (p.box.js ≤ j ∧ j ≤ p.box.je + 1) → i ∈ rng p.box.is p.box.ie →
      E1 (j - p.box.js) (i - p.box.is) - s2.e 0 (j - p.box.js, i - p.box.is) = δ1 (j, i) := by
    intro j i hj hi
    rw [e2' 0 (by decide), e1 (j, i) (List.mem_product.2 ⟨mem_rng.2 hj, hi⟩), d1]
  have he2 : ∀ j i, j ∈ rng p.box.js p.box.je → (p.box.is ≤ i ∧ i ≤ p.box.ie + 1) →
      E2 (j - p.box.js) (i - p.box.is) - s2.e 1 (j - p.box.js, i - p.box.is) = δ2 (j, i) := by
    intro j i hj hi
    rw [e2 (j, i) (List.mem_product.2 ⟨hj, mem_rng.2 hi⟩), d2]
  -- the faces on the boundary
  obtain ⟨s3, q3, u3, e3, b3⟩ := each_addD (nf := nf) (rng p.box.js p.box.je ×ˢ rng p.box.is p.box.ie) hn0 2
    (fun x => (kBnd p d, x.1, x.2)) (fun z => z.2) (fun x => rfl)
    (fun x e => -(p.dt / p.dx 1) * (E1 (x.1 - p.box.js + 1) (x.2 - p.box.is) - e 0 (x.1 - p.box.js + 1, x.2 - p.box.is))
          - -(p.dt / p.dx 1) * (E1 (x.1 - p.box.js) (x.2 - p.box.is) - e 0 (x.1 - p.box.js, x.2 - p.box.is))
          - -(p.dt / p.dx 0) * (E2 (x.1 - p.box.js) (x.2 - p.box.is + 1) - e 1 (x.1 - p.box.js, x.2 - p.box.is + 1))
          + -(p.dt / p.dx 0) * (E2 (x.1 - p.box.js) (x.2 - p.box.is) - e 1 (x.1 - p.box.js, x.2 - p.box.is))) s2 rest
    (fun z => if (p.box.js ≤ z.2.1 ∧ z.2.1 ≤ p.box.je) ∧ (p.box.is ≤ z.2.2 ∧ z.2.2 ≤ p.box.ie) ∧ z.1 = kBnd p d then
      p.dt / p.dx 0 * (δ2 (z.2.1, z.2.2 + 1) - δ2 z.2) - p.dt / p.dx 1 * (δ1 (z.2.1 + 1, z.2.2) - δ1 z.2) else 0)
    (by
      rintro ⟨j, i⟩ hx
      rw [List.mem_product, mem_rng, mem_rng] at hx
      dsimp only at hx ⊢
      rw [if_pos ⟨hx.1, hx.2, rfl⟩, show j - p.box.js + 1 = (j + 1) - p.box.js by ring,
        show i - p.box.is + 1 = (i + 1) - p.box.is by ring,
        he1 (j+1) i (by omega) (mem_rng.2 hx.2), he1 j i (by omega) (mem_rng.2 hx.2),
        he2 j (i+1) (mem_rng.2 hx.1) (by omega), he2 j i (mem_rng.2 hx.1) (by omega)]
      ring)
    (by
      rintro ⟨k, j, i⟩ hz
      dsimp only
      rw [if_neg]
      rintro ⟨a1, a2, a3⟩
      exact hz (j, i) (List.mem_product.2 ⟨mem_rng.2 a1, mem_rng.2 a2⟩) (by rw [← a3]))
  rw [seqs_cons _ _ _ _ q3]
  clear q3
  -- the extra faces if the Grids only touch
  obtain ⟨s4, q4, u4, e4, b4⟩ := opt_piece (nf := nf) (c := p.box.ke < p.box.ks) (s := s3) (W := rest) (W' := rest)
    (f := seqs [
          Parent.each (rng p.box.js p.box.je) (fun j s =>
            Parent.addB 2 (kBnd p d, j, p.box.ie + 1)
              (-(p.dt / p.dx 0)*(E2 (j - p.box.js) (p.box.ie - p.box.is + 1) -
                (Parent.addB 2 (kBnd p d, j, p.box.is - 1) (-(-(p.dt / p.dx 0)*(E2 (j - p.box.js) 0 - s.e 1 (j - p.box.js, 0)))) s).e 1 (j - p.box.js, p.box.ie - p.box.is + 1)))
              (Parent.addB 2 (kBnd p d, j, p.box.is - 1) (-(-(p.dt / p.dx 0)*(E2 (j - p.box.js) 0 - s.e 1 (j - p.box.js, 0)))) s)),
          Parent.each (rng p.box.is p.box.ie) (fun i s =>
            Parent.addB 2 (kBnd p d, p.box.je + 1, i)
              (-(-(p.dt / p.dx 1)*(E1 (p.box.je - p.box.js + 1) (i - p.box.is) -
                (Parent.addB 2 (kBnd p d, p.box.js - 1, i) (-(p.dt / p.dx 1)*(E1 0 (i - p.box.is) - s.e 0 (0, i - p.box.is))) s).e 0 (p.box.je - p.box.js + 1, i - p.box.is))))
              (Parent.addB 2 (kBnd p d, p.box.js - 1, i) (-(p.dt / p.dx 1)*(E1 0 (i - p.box.is) - s.e 0 (0, i - p.box.is))) s))])
    (D := fun n z => if n = 2 then
      (if (p.box.js ≤ z.2.1 ∧ z.2.1 ≤ p.box.je) ∧ z.1 = kBnd p d then
        (if z.2.2 = p.box.is - 1 then p.dt / p.dx 0 * δ2 (z.2.1, p.box.is)
          else if z.2.2 = p.box.ie + 1 then -(p.dt / p.dx 0 * δ2 (z.2.1, p.box.ie + 1)) else 0) else 0) +
      (if (p.box.is ≤ z.2.2 ∧ z.2.2 ≤ p.box.ie) ∧ z.1 = kBnd p d then
        (if z.2.1 = p.box.js - 1 then -(p.dt / p.dx 1 * δ1 (p.box.js, z.2.2))
          else if z.2.1 = p.box.je + 1 then p.dt / p.dx 1 * δ1 (p.box.je + 1, z.2.2) else 0) else 0) else 0)
    (fun _ => by
      obtain ⟨s', q', u', e', b'⟩ := each_add2D (nf := nf) (rng p.box.js p.box.je) (nodup_rng _ _) 2
        (fun j => (kBnd p d, j, p.box.is - 1))
        (fun j => (kBnd p d, j, p.box.ie + 1)) (fun z => z.2.1) (fun x => rfl) (fun x => rfl)
        (fun x y => by simp; omega)
        (fun j e => -(-(p.dt / p.dx 0)*(E2 (j - p.box.js) 0 - e 1 (j - p.box.js, 0))))
        (fun j e => -(p.dt / p.dx 0)*(E2 (j - p.box.js) (p.box.ie - p.box.is + 1) - e 1 (j - p.box.js, p.box.ie - p.box.is + 1)))
        s3 rest
        (fun z => if (p.box.js ≤ z.2.1 ∧ z.2.1 ≤ p.box.je) ∧ z.1 = kBnd p d then
          (if z.2.2 = p.box.is - 1 then p.dt / p.dx 0 * δ2 (z.2.1, p.box.is)
            else if z.2.2 = p.box.ie + 1 then -(p.dt / p.dx 0 * δ2 (z.2.1, p.box.ie + 1)) else 0) else 0)
        (by
          intro j hj'
          have := he2 j p.box.is hj' (by omega)
          rw [sub_self] at this
          rw [e3, this]
          simp [mem_rng.1 hj'])
        (by
          intro j hj'
          have := he2 j (p.box.ie + 1) hj' (by omega)
          rw [e3, show p.box.ie - p.box.is + 1 = p.box.ie + 1 - p.box.is by ring, this]
          have : ¬ p.box.ie + 1 = p.box.is - 1 := by omega
          simp [mem_rng.1 hj', this])
        (by
          rintro ⟨k, j, i⟩ z1 z2
          dsimp only
          by_cases hc : (p.box.js ≤ j ∧ j ≤ p.box.je) ∧ k = kBnd p d
          · rw [if_pos hc, if_neg, if_neg]
            · rintro rfl; exact z2 j (mem_rng.2 hc.1) (by rw [← hc.2])
            · rintro rfl; exact z1 j (mem_rng.2 hc.1) (by rw [← hc.2])
          · rw [if_neg hc])
      rw [seqs_cons _ _ _ _ q']
      obtain ⟨t', r', v', f', c'⟩ := each_add2D (nf := nf) (rng p.box.is p.box.ie) (nodup_rng _ _) 2
        (fun i => (kBnd p d, p.box.js - 1, i))
        (fun i => (kBnd p d, p.box.je + 1, i)) (fun z => z.2.2) (fun x => rfl) (fun x => rfl)
        (fun x y => by simp; omega)
        (fun i e => -(p.dt / p.dx 1)*(E1 0 (i - p.box.is) - e 0 (0, i - p.box.is)))
        (fun i e => -(-(p.dt / p.dx 1)*(E1 (p.box.je - p.box.js + 1) (i - p.box.is) - e 0 (p.box.je - p.box.js + 1, i - p.box.is))))
        s' rest
        (fun z => if (p.box.is ≤ z.2.2 ∧ z.2.2 ≤ p.box.ie) ∧ z.1 = kBnd p d then
          (if z.2.1 = p.box.js - 1 then -(p.dt / p.dx 1 * δ1 (p.box.js, z.2.2))
            else if z.2.1 = p.box.je + 1 then p.dt / p.dx 1 * δ1 (p.box.je + 1, z.2.2) else 0) else 0)
        (by
          intro i hi'
          have := he1 p.box.js i (by omega) hi'
          rw [sub_self] at this
          rw [e', e3, this]
          simp [mem_rng.1 hi'])
        (by
          intro i hi'
          have := he1 (p.box.je + 1) i (by omega) hi'
          rw [e', e3, show p.box.je - p.box.js + 1 = p.box.je + 1 - p.box.js by ring, this]
          have : ¬ p.box.je + 1 = p.box.js - 1 := by omega
          simp [mem_rng.1 hi', this])
        (by
          rintro ⟨k, j, i⟩ z1 z2
          dsimp only
          by_cases hc : (p.box.is ≤ i ∧ i ≤ p.box.ie) ∧ k = kBnd p d
          · rw [if_pos hc, if_neg, if_neg]
            · rintro rfl; exact z2 i (mem_rng.2 hc.1) (by rw [← hc.2])
            · rintro rfl; exact z1 i (mem_rng.2 hc.1) (by rw [← hc.2])
          · rw [if_neg hc])
      rw [seqs_cons _ _ _ _ r']
      refine ⟨t', rfl, fun z n => by rw [v', u'], by rw [f', e'], fun n z => ?_⟩
      rw [c', b']
      by_cases hn : n = 2 <;> simp [hn, add_assoc])
    (fun _ => rfl)
  erw [seqs_cons _ _ _ _ q4]
  clear q4
  obtain ⟨s5, q5, b5, f5, u5⟩ := each_U (nf := nf) (rng p.box.js p.box.je ×ˢ rng (p.box.is - 1) (p.box.ie + 1))
    (fun x => Parent.centre 0 (kOut p d, x.1, x.2)) (fun x => centre_UOnly _ _) s4 rest
  rw [seqs_cons _ _ _ _ q5]
  obtain ⟨s6, q6, b6, f6, u6⟩ := each_U (nf := nf) (rng (p.box.js - 1) (p.box.je + 1) ×ˢ rng p.box.is p.box.ie)
    (fun x => Parent.centre 1 (kOut p d, x.1, x.2)) (fun x => centre_UOnly _ _) s5 rest
  rw [seqs_cons _ _ _ _ q6]
  obtain ⟨s7, q7, b7, f7, u7⟩ := each_U (nf := nf) (rng p.box.js p.box.je ×ˢ rng p.box.is p.box.ie)
    (fun x s => Parent.centre 2 (kBnd p d - 1, x.1, x.2) (Parent.centre 2 (kBnd p d, x.1, x.2) s))
    (fun x => UOnly.comp (centre_UOnly _ _) (centre_UOnly _ _)) s6 rest
  rw [seqs_cons _ _ _ _ q7]
  refine ⟨s7, rfl, fun z n => by rw [u7, u6, u5, u4, u3, u2, u1], fun n z => ?_⟩
  rw [b7, b6, b5, b4, b3, b2, b1]
  rcases (by omega : n = 0 ∨ n = 1 ∨ n = 2) with rfl | rfl | rfl
  · simp
  · simp
  · simp only [D3, show (2 : Fin 3) ≠ 1 by decide, show (2 : Fin 3) ≠ 0 by decide, if_true, if_false, add_zero, add_assoc]
    congr 2
    by_cases hdeg : p.box.ke < p.box.ks <;> simp [hdeg]

end side3

end Athena.Smr
