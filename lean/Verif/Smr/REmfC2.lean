import Verif.Smr.REmfC

/-!
# The EMF correction of `RestrictCorrect` on x2-boundaries
-/

namespace Athena.Smr

variable {R : Type*} [Field R] {nf : Nat}

section side2
variable (p : Parent R nf) (d : Fin 6)

/-- Index of the zones outside. -/
def jOut : ℤ := if d = 2 then p.box.js - 1 else p.box.je + 1
/-- Index of the faces on the boundary. -/
def jBnd : ℤ := if d = 2 then p.box.js else p.box.je + 1
/-- Is the last EMF of a row used? -/
def use3y : Bool := (p.emf3 1).isSome || p.box.ie = p.ie || p.box.je < p.box.js
/-- Is the last row of EMFs used? -/
def use1y : Bool := (p.emf1 5).isSome || p.box.ke = p.ke || p.box.je < p.box.js

/-- What the correction on an x2-boundary adds to the faces, if `δ3`, `δ1` are the differences of the EMFs on its
edges along x3 and x1: the faces outside that end at the boundary, the faces on the boundary, and (if the Grids
only touch) the faces beyond the boundary in its plane. -/
def D2 (δ3 δ1 : ℤ × ℤ → R) (n : Fin 3) (z : Z3) : R :=
  let b := p.box
  let x := (z.1, z.2.2)
  if n = 0 then
    (if (b.ks ≤ z.1 ∧ z.1 ≤ b.ke) ∧ (b.is ≤ z.2.2 ∧ z.2.2 ≤ b.ie + 1) ∧ z.2.1 = jOut p d ∧
        (z.2.2 ≤ b.ie ∨ use3y p = true) then -p.q d * δ3 x else 0)
  else if n = 2 then
    (if p.nDim = 3 ∧ (b.ks ≤ z.1 ∧ z.1 ≤ b.ke + 1) ∧ (b.is ≤ z.2.2 ∧ z.2.2 ≤ b.ie) ∧ z.2.1 = jOut p d ∧
        (z.1 ≤ b.ke ∨ use1y p = true) then p.q d * δ1 x else 0)
  else
    (if (b.ks ≤ z.1 ∧ z.1 ≤ b.ke) ∧ (b.is ≤ z.2.2 ∧ z.2.2 ≤ b.ie) ∧ z.2.1 = jBnd p d then
      -(p.dt / p.dx 0 * (δ3 (z.1, z.2.2 + 1) - δ3 x)) else 0) +
    (if p.nDim = 3 ∧ (b.ks ≤ z.1 ∧ z.1 ≤ b.ke) ∧ (b.is ≤ z.2.2 ∧ z.2.2 ≤ b.ie) ∧ z.2.1 = jBnd p d then
      p.dt / p.dx 2 * (δ1 (z.1 + 1, z.2.2) - δ1 x) else 0) +
    (if b.je < b.js ∧ (b.ks ≤ z.1 ∧ z.1 ≤ b.ke) ∧ z.2.1 = jBnd p d then
      (if z.2.2 = b.is - 1 then -(p.dt / p.dx 0 * δ3 (z.1, b.is))
        else if z.2.2 = b.ie + 1 then p.dt / p.dx 0 * δ3 (z.1, b.ie + 1) else 0) else 0) +
    (if p.nDim = 3 ∧ b.je < b.js ∧ (b.is ≤ z.2.2 ∧ z.2.2 ≤ b.ie) ∧ z.2.1 = jBnd p d then
      (if z.1 = b.ks - 1 then p.dt / p.dx 2 * δ1 (b.ks, z.2.2)
        else if z.1 = b.ke + 1 then -(p.dt / p.dx 2 * δ1 (b.ke + 1, z.2.2)) else 0) else 0)

theorem emfCorr2_eq (hj : p.box.is ≤ p.box.ie + 1) (hk : p.box.ks ≤ p.box.ke + 1) (E3 E1 G3 G1 : ℤ → ℤ → R)
    (h3 : p.emf3 d = some E3) (h2 : p.nDim = 3 → p.emf1 d = some E1) (s : PState R nf) (rest : List R) :
    ∃ s', p.emfCorr2 d (s, (rng p.box.ks p.box.ke ×ˢ rng p.box.is (p.box.ie + 1)).map (eW p 1 2 G3) ++
      (if p.nDim = 3 then (rng p.box.ks (p.box.ke + 1) ×ˢ rng p.box.is p.box.ie).map (eW p 1 0 G1) else []) ++ rest) =
        some (s', rest) ∧
      (∀ z n, s'.U (z, .f n) = s.U (z, .f n)) ∧
      (∀ n z, s'.B n z = s.B n z + D2 p d (dE p 1 2 E3 G3) (dE p 1 0 E1 G1) n z) := by
  unfold Parent.emfCorr2
  rw [h3]
  dsimp only
  have hi : (if d = 2 then p.box.js - 1 else p.box.je + 1) = jOut p d := rfl
  have hb : (if d = 2 then p.box.js else p.box.je + 1) = jBnd p d := rfl
  have hu3 : ((p.emf3 1).isSome || decide (p.box.ie = p.ie) || decide (p.box.je < p.box.js)) = use3y p := rfl
  have hu2 : ((p.emf1 5).isSome || decide (p.box.ke = p.ke) || decide (p.box.je < p.box.js)) = use1y p := rfl
  simp only [hi, hb, hu3, hu2]
  generalize hδ3 : dE p 1 2 E3 G3 = δ3
  generalize hδ1 : dE p 1 0 E1 G1 = δ1
  have tb1 : (p.tb 1).1.1 = p.box.ks := rfl
  have tb2 : (p.tb 1).2.1 = p.box.is := rfl
  have d3 : ∀ k j, E3 (k - p.box.ks) (j - p.box.is) - eW p 1 2 G3 (k, j) = δ3 (k, j) := fun k j => by rw [← hδ3]; rfl
  have d2 : ∀ k j, E1 (k - p.box.ks) (j - p.box.is) - eW p 1 0 G1 (k, j) = δ1 (k, j) := fun k j => by rw [← hδ1]; rfl
  have hn1 : (rng p.box.ks p.box.ke ×ˢ rng p.box.is (p.box.ie + 1)).Nodup := (nodup_rng _ _).product (nodup_rng _ _)
  have hn0 : (rng p.box.ks p.box.ke ×ˢ rng p.box.is p.box.ie).Nodup := (nodup_rng _ _).product (nodup_rng _ _)
  have hn2 : (rng p.box.ks (p.box.ke + 1) ×ˢ rng p.box.is p.box.ie).Nodup := (nodup_rng _ _).product (nodup_rng _ _)
  -- the EMFs along x3
  rw [emf_rows (nf := nf) 2 0 p.box.ks p.box.ke p.box.is p.box.ie hj E3 (-p.q d) (use3y p) (fun k j => (k, jOut p d, j))]
  obtain ⟨s1, q1, u1, e1, e1', b1⟩ := pops_emfD (nf := nf) (rng p.box.ks p.box.ke ×ˢ rng p.box.is (p.box.ie + 1)) hn1 2
    (fun x => (x.1 - p.box.ks, x.2 - p.box.is)) (fun x => (x.1 + p.box.ks, x.2 + p.box.is)) (by intro x; simp)
    (fun x => E3 (x.1 - p.box.ks) (x.2 - p.box.is)) (-p.q d) (fun x => decide (x.2 ≤ p.box.ie) || use3y p) 0
    (fun x => (x.1, jOut p d, x.2)) (fun z => (z.1, z.2.2)) (fun x => rfl) (eW p 1 2 G3) s
    ((if p.nDim = 3 then (rng p.box.ks (p.box.ke + 1) ×ˢ rng p.box.is p.box.ie).map (eW p 1 0 G1) else []) ++ rest)
    (D2 p d δ3 δ1 0)
    (by
      rintro ⟨k, j⟩ hx
      rw [List.mem_product, mem_rng, mem_rng] at hx
      simp only [D2, if_true, d3]
      simp [hx])
    (by
      rintro ⟨k, i, j⟩ hz
      simp only [D2, if_true]
      rw [if_neg]
      rintro ⟨a1, a2, a3, _⟩
      exact hz (k, j) (List.mem_product.2 ⟨mem_rng.2 a1, mem_rng.2 a2⟩) (by rw [← a3]))
  rw [List.append_assoc, seqs_cons _ _ _ _ q1]
  clear q1
  have he3 : ∀ k j, k ∈ rng p.box.ks p.box.ke → (p.box.is ≤ j ∧ j ≤ p.box.ie + 1) →
      E3 (k - p.box.ks) (j - p.box.is) - s1.e 2 (k - p.box.ks, j - p.box.is) = δ3 (k, j) := by
    intro k j hk hj
    rw [e1 (k, j) (List.mem_product.2 ⟨hk, mem_rng.2 hj⟩), d3]
  -- the faces on the boundary
  obtain ⟨s2, q2, u2, e2, b2⟩ := each_addD (nf := nf) (rng p.box.ks p.box.ke ×ˢ rng p.box.is p.box.ie) hn0 1
    (fun x => (x.1, jBnd p d, x.2)) (fun z => (z.1, z.2.2)) (fun x => rfl)
    (fun x e => -(p.dt / p.dx 0) * (E3 (x.1 - p.box.ks) (x.2 - p.box.is + 1) - e 2 (x.1 - p.box.ks, x.2 - p.box.is + 1))
          - -(p.dt / p.dx 0) * (E3 (x.1 - p.box.ks) (x.2 - p.box.is) - e 2 (x.1 - p.box.ks, x.2 - p.box.is))) s1
    ((if p.nDim = 3 then (rng p.box.ks (p.box.ke + 1) ×ˢ rng p.box.is p.box.ie).map (eW p 1 0 G1) else []) ++ rest)
    (fun z => if (p.box.ks ≤ z.1 ∧ z.1 ≤ p.box.ke) ∧ (p.box.is ≤ z.2.2 ∧ z.2.2 ≤ p.box.ie) ∧ z.2.1 = jBnd p d then
      -(p.dt / p.dx 0 * (δ3 (z.1, z.2.2 + 1) - δ3 (z.1, z.2.2))) else 0)
    (by
      rintro ⟨k, j⟩ hx
      rw [List.mem_product, mem_rng, mem_rng] at hx
      dsimp only at hx ⊢
      rw [if_pos ⟨hx.1, hx.2, rfl⟩, show j - p.box.is + 1 = (j + 1) - p.box.is by ring,
        he3 k (j+1) (mem_rng.2 hx.1) (by omega), he3 k j (mem_rng.2 hx.1) (by omega)]
      ring)
    (by
      rintro ⟨k, i, j⟩ hz
      dsimp only
      rw [if_neg]
      rintro ⟨a1, a2, a3⟩
      exact hz (k, j) (List.mem_product.2 ⟨mem_rng.2 a1, mem_rng.2 a2⟩) (by rw [← a3]))
  rw [seqs_cons _ _ _ _ q2]
  clear q2
  -- the extra faces if the Grids only touch
  obtain ⟨s3, q3, u3, e3, b3⟩ := opt_piece (nf := nf) (c := p.box.je < p.box.js) (s := s2)
    (D := fun n z => if n = 1 then (if (p.box.ks ≤ z.1 ∧ z.1 ≤ p.box.ke) ∧ z.2.1 = jBnd p d then
      (if z.2.2 = p.box.is - 1 then -(p.dt / p.dx 0 * δ3 (z.1, p.box.is))
        else if z.2.2 = p.box.ie + 1 then p.dt / p.dx 0 * δ3 (z.1, p.box.ie + 1) else 0) else 0) else 0)
    (fun _ => by
      obtain ⟨s', q', u', e', b'⟩ := each_add2D (nf := nf) (rng p.box.ks p.box.ke) (nodup_rng _ _) 1
        (fun k => (k, jBnd p d, p.box.is - 1))
        (fun k => (k, jBnd p d, p.box.ie + 1)) (fun z => z.1) (fun x => rfl) (fun x => rfl)
        (fun x y => by simp; omega)
        (fun k e => -(p.dt / p.dx 0) * (E3 (k - p.box.ks) 0 - e 2 (k - p.box.ks, 0)))
        (fun k e => -(-(p.dt / p.dx 0) * (E3 (k - p.box.ks) (p.box.ie - p.box.is + 1) - e 2 (k - p.box.ks, p.box.ie - p.box.is + 1))))
        s2 ((if p.nDim = 3 then (rng p.box.ks (p.box.ke + 1) ×ˢ rng p.box.is p.box.ie).map (eW p 1 0 G1) else []) ++ rest)
        (fun z => if (p.box.ks ≤ z.1 ∧ z.1 ≤ p.box.ke) ∧ z.2.1 = jBnd p d then
      (if z.2.2 = p.box.is - 1 then -(p.dt / p.dx 0 * δ3 (z.1, p.box.is))
        else if z.2.2 = p.box.ie + 1 then p.dt / p.dx 0 * δ3 (z.1, p.box.ie + 1) else 0) else 0)
        (by
          intro k hk'
          have := he3 k p.box.is hk' (by omega)
          rw [sub_self] at this
          rw [e2, this]
          simp [mem_rng.1 hk'])
        (by
          intro k hk'
          have := he3 k (p.box.ie + 1) hk' (by omega)
          rw [e2, show p.box.ie - p.box.is + 1 = p.box.ie + 1 - p.box.is by ring, this]
          have : ¬ p.box.ie + 1 = p.box.is - 1 := by omega
          simp [mem_rng.1 hk', this])
        (by
          rintro ⟨k, i, j⟩ z1 z2
          dsimp only
          by_cases hc : (p.box.ks ≤ k ∧ k ≤ p.box.ke) ∧ i = jBnd p d
          · rw [if_pos hc, if_neg, if_neg]
            · rintro rfl; exact z2 k (mem_rng.2 hc.1) (by rw [← hc.2])
            · rintro rfl; exact z1 k (mem_rng.2 hc.1) (by rw [← hc.2])
          · rw [if_neg hc])
      exact ⟨s', q', fun z n => by rw [u'], e', b'⟩)
    (fun _ => rfl)
  rw [seqs_cons _ _ _ _ q3]
  clear q3
  -- the EMFs along x1
  obtain ⟨s4, q4, u4, b4⟩ := opt_piece' (nf := nf) (c := p.nDim = 3)
    (f := match p.emf1 d with
        | none => fun _ => none
        | some e2 => seqs [
          pops ((rng p.box.ks p.box.ke ×ˢ rng p.box.is p.box.ie).map fun x =>
            Parent.emfPop 0 (x.1 - p.box.ks, x.2 - p.box.is) (e2 (x.1 - p.box.ks) (x.2 - p.box.is)) (p.q d) true
            2 (x.1, jOut p d, x.2)),
          pops ((rng p.box.is p.box.ie).map fun j =>
            Parent.emfPop 0 (p.box.ke - p.box.ks + 1, j - p.box.is) (e2 (p.box.ke - p.box.ks + 1) (j - p.box.is)) (p.q d)
              (use1y p) 2 (p.box.ke + 1, jOut p d, j)),
          Parent.each (rng p.box.ks p.box.ke ×ˢ rng p.box.is p.box.ie) (fun x s => Parent.addB 1 (x.1, jBnd p d, x.2)
            (-(-(p.dt / p.dx 2)*(e2 (x.1 - p.box.ks + 1) (x.2 - p.box.is) - s.e 0 (x.1 - p.box.ks + 1, x.2 - p.box.is))
              - -(p.dt / p.dx 2)*(e2 (x.1 - p.box.ks) (x.2 - p.box.is) - s.e 0 (x.1 - p.box.ks, x.2 - p.box.is)))) s),
          (if p.box.je < p.box.js then Parent.each (rng p.box.is p.box.ie) (fun j s =>
              Parent.addB 1 (p.box.ke + 1, jBnd p d, j)
                (-(p.dt / p.dx 2)*(e2 (p.box.ke - p.box.ks + 1) (j - p.box.is) -
                  (Parent.addB 1 (p.box.ks - 1, jBnd p d, j) (-(-(p.dt / p.dx 2)*(e2 0 (j - p.box.is) - s.e 0 (0, j - p.box.is)))) s).e 0
                    (p.box.ke - p.box.ks + 1, j - p.box.is)))
                (Parent.addB 1 (p.box.ks - 1, jBnd p d, j) (-(-(p.dt / p.dx 2)*(e2 0 (j - p.box.is) - s.e 0 (0, j - p.box.is)))) s))
            else fun s => some s),
          Parent.each (rng (p.box.ks - 1) (p.box.ke + 1) ×ˢ rng p.box.is p.box.ie)
            (fun x => Parent.centre 2 (x.1, jOut p d, x.2))]) (s := s3)
    (W := (if p.nDim = 3 then (rng p.box.ks (p.box.ke + 1) ×ˢ rng p.box.is p.box.ie).map (eW p 1 0 G1) else []) ++ rest)
    (W' := rest)
    (D := fun n z => if n = 2 then D2 p d δ3 δ1 2 z else if n = 1 then
        (if (p.box.ks ≤ z.1 ∧ z.1 ≤ p.box.ke) ∧ (p.box.is ≤ z.2.2 ∧ z.2.2 ≤ p.box.ie) ∧ z.2.1 = jBnd p d then
          p.dt / p.dx 2 * (δ1 (z.1 + 1, z.2.2) - δ1 (z.1, z.2.2)) else 0) +
        (if p.box.je < p.box.js ∧ (p.box.is ≤ z.2.2 ∧ z.2.2 ≤ p.box.ie) ∧ z.2.1 = jBnd p d then
          (if z.1 = p.box.ks - 1 then p.dt / p.dx 2 * δ1 (p.box.ks, z.2.2)
          else if z.1 = p.box.ke + 1 then -(p.dt / p.dx 2 * δ1 (p.box.ke + 1, z.2.2)) else 0) else 0) else 0)
    (fun hD => by
      rw [h2 hD, if_pos hD]
      dsimp only
      obtain ⟨t1, r1, v1, f1, f1', c1⟩ := pops_emfD (nf := nf) (rng p.box.ks (p.box.ke + 1) ×ˢ rng p.box.is p.box.ie) hn2 0
        (fun x => (x.1 - p.box.ks, x.2 - p.box.is)) (fun x => (x.1 + p.box.ks, x.2 + p.box.is)) (by intro x; simp)
        (fun x => E1 (x.1 - p.box.ks) (x.2 - p.box.is)) (p.q d) (fun x => decide (x.1 ≤ p.box.ke) || use1y p) 2
        (fun x => (x.1, jOut p d, x.2)) (fun z => (z.1, z.2.2)) (fun x => rfl) (eW p 1 0 G1) s3 rest
        (D2 p d δ3 δ1 2)
        (by
          rintro ⟨k, j⟩ hx
          rw [List.mem_product, mem_rng, mem_rng] at hx
          simp only [D2, show (2 : Fin 3) ≠ 0 by decide, if_true, if_false, d2]
          simp [hx, hD])
        (by
          rintro ⟨k, i, j⟩ hz
          simp only [D2, show (2 : Fin 3) ≠ 0 by decide, if_true, if_false]
          rw [if_neg]
          rintro ⟨_, a1, a2, a3, _⟩
          exact hz (k, j) (List.mem_product.2 ⟨mem_rng.2 a1, mem_rng.2 a2⟩) (by rw [← a3]))
      rw [← emf_planes (nf := nf) 0 2 p.box.ks p.box.ke p.box.is p.box.ie hk E1 (p.q d) (use1y p)
        (fun k j => (k, jOut p d, j)), pops_append] at r1
      obtain ⟨t0, r0, r1⟩ := Option.bind_eq_some_iff.1 r1
      rw [seqs_cons _ _ _ _ r0, seqs_cons _ _ _ _ r1]
      clear r0 r1
      have he2 : ∀ k j, (p.box.ks ≤ k ∧ k ≤ p.box.ke + 1) → j ∈ rng p.box.is p.box.ie →
          E1 (k - p.box.ks) (j - p.box.is) - t1.e 0 (k - p.box.ks, j - p.box.is) = δ1 (k, j) := by
        intro k j hk hj
        rw [f1 (k, j) (List.mem_product.2 ⟨mem_rng.2 hk, hj⟩), d2]
      obtain ⟨t2, r2, v2, f2, c2⟩ := each_addD (nf := nf) (rng p.box.ks p.box.ke ×ˢ rng p.box.is p.box.ie) hn0 1
        (fun x => (x.1, jBnd p d, x.2)) (fun z => (z.1, z.2.2)) (fun x => rfl)
        (fun x e => -(-(p.dt / p.dx 2)*(E1 (x.1 - p.box.ks + 1) (x.2 - p.box.is) - e 0 (x.1 - p.box.ks + 1, x.2 - p.box.is))
              - -(p.dt / p.dx 2)*(E1 (x.1 - p.box.ks) (x.2 - p.box.is) - e 0 (x.1 - p.box.ks, x.2 - p.box.is)))) t1 rest
        (fun z => if (p.box.ks ≤ z.1 ∧ z.1 ≤ p.box.ke) ∧ (p.box.is ≤ z.2.2 ∧ z.2.2 ≤ p.box.ie) ∧ z.2.1 = jBnd p d then
          p.dt / p.dx 2 * (δ1 (z.1 + 1, z.2.2) - δ1 (z.1, z.2.2)) else 0)
        (by
          rintro ⟨k, j⟩ hx
          rw [List.mem_product, mem_rng, mem_rng] at hx
          dsimp only at hx ⊢
          rw [if_pos ⟨hx.1, hx.2, rfl⟩, show k - p.box.ks + 1 = (k + 1) - p.box.ks by ring,
            he2 (k+1) j (by omega) (mem_rng.2 hx.2), he2 k j (by omega) (mem_rng.2 hx.2)]
          ring)
        (by
          rintro ⟨k, i, j⟩ hz
          dsimp only
          rw [if_neg]
          rintro ⟨a1, a2, a3⟩
          exact hz (k, j) (List.mem_product.2 ⟨mem_rng.2 a1, mem_rng.2 a2⟩) (by rw [← a3]))
      rw [seqs_cons _ _ _ _ r2]
      clear r2
      obtain ⟨t3, r3, v3, f3, c3⟩ := opt_piece (nf := nf) (c := p.box.je < p.box.js) (s := t2) (W := rest) (W' := rest)
        (D := fun n z => if n = 1 then (if (p.box.is ≤ z.2.2 ∧ z.2.2 ≤ p.box.ie) ∧ z.2.1 = jBnd p d then
          (if z.1 = p.box.ks - 1 then p.dt / p.dx 2 * δ1 (p.box.ks, z.2.2)
          else if z.1 = p.box.ke + 1 then -(p.dt / p.dx 2 * δ1 (p.box.ke + 1, z.2.2)) else 0) else 0) else 0)
        (fun _ => by
          obtain ⟨s', q', u', e', b'⟩ := each_add2D (nf := nf) (rng p.box.is p.box.ie) (nodup_rng _ _) 1
            (fun j => (p.box.ks - 1, jBnd p d, j))
            (fun j => (p.box.ke + 1, jBnd p d, j)) (fun z => z.2.2) (fun x => rfl) (fun x => rfl)
            (fun x y => by simp; omega)
            (fun j e => -(-(p.dt / p.dx 2)*(E1 0 (j - p.box.is) - e 0 (0, j - p.box.is))))
            (fun j e => -(p.dt / p.dx 2)*(E1 (p.box.ke - p.box.ks + 1) (j - p.box.is) - e 0 (p.box.ke - p.box.ks + 1, j - p.box.is)))
            t2 rest
            (fun z => if (p.box.is ≤ z.2.2 ∧ z.2.2 ≤ p.box.ie) ∧ z.2.1 = jBnd p d then
              (if z.1 = p.box.ks - 1 then p.dt / p.dx 2 * δ1 (p.box.ks, z.2.2)
              else if z.1 = p.box.ke + 1 then -(p.dt / p.dx 2 * δ1 (p.box.ke + 1, z.2.2)) else 0) else 0)
            (by
              intro j hj'
              have := he2 p.box.ks j (by omega) hj'
              rw [sub_self] at this
              rw [f2, this]
              simp [mem_rng.1 hj'])
            (by
              intro j hj'
              have := he2 (p.box.ke + 1) j (by omega) hj'
              rw [f2, show p.box.ke - p.box.ks + 1 = p.box.ke + 1 - p.box.ks by ring, this]
              have : ¬ p.box.ke + 1 = p.box.ks - 1 := by omega
              simp [mem_rng.1 hj', this])
            (by
              rintro ⟨k, i, j⟩ z1 z2
              dsimp only
              by_cases hc : (p.box.is ≤ j ∧ j ≤ p.box.ie) ∧ i = jBnd p d
              · rw [if_pos hc, if_neg, if_neg]
                · rintro rfl; exact z2 j (mem_rng.2 hc.1) (by rw [← hc.2])
                · rintro rfl; exact z1 j (mem_rng.2 hc.1) (by rw [← hc.2])
              · rw [if_neg hc])
          exact ⟨s', q', fun z n => by rw [u'], e', b'⟩)
        (fun _ => rfl)
      rw [seqs_cons _ _ _ _ r3]
      clear r3
      obtain ⟨t4, r4, b4, f4, v4⟩ := each_U (nf := nf) (rng (p.box.ks - 1) (p.box.ke + 1) ×ˢ rng p.box.is p.box.ie)
        (fun x => Parent.centre 2 (x.1, jOut p d, x.2)) (fun x => centre_UOnly _ _) t3 rest
      rw [seqs_cons _ _ _ _ r4]
      refine ⟨t4, rfl, fun z n => by rw [v4, v3, v2, v1], fun n z => ?_⟩
      rw [b4, c3, c2, c1]
      rcases (by omega : n = 0 ∨ n = 1 ∨ n = 2) with rfl | rfl | rfl
      · simp
      · simp only [show (1 : Fin 3) ≠ 2 by decide, if_true, if_false, add_zero, add_assoc]
        congr 2
        by_cases hdeg : p.box.je < p.box.js <;> simp [hdeg]
      · simp)
    (fun hD => by rw [if_neg hD]; rfl)
  erw [seqs_cons _ _ _ _ q4]
  clear q4
  obtain ⟨s5, q5, b5, f5, u5⟩ := each_U (nf := nf) (rng p.box.ks p.box.ke)
    (fun k s => (rng p.box.is p.box.ie).foldl (fun s i => Parent.centre 1 (k, jBnd p d - 1, i) (Parent.centre 1 (k, jBnd p d, i) s))
      ((rng (p.box.is - 1) (p.box.ie + 1)).foldl (fun s i => Parent.centre 0 (k, jOut p d, i) s) s))
    (fun k => UOnly.comp (UOnly.foldl _ (fun j => UOnly.comp (centre_UOnly _ _) (centre_UOnly _ _)))
      (UOnly.foldl _ (fun j => centre_UOnly _ _))) s4 rest
  rw [seqs_cons _ _ _ _ q5]
  refine ⟨s5, rfl, fun z n => by rw [u5, u4, u3, u2, u1], fun n z => ?_⟩
  rw [b5, b4, b3, b2, b1]
  rcases (by omega : n = 0 ∨ n = 1 ∨ n = 2) with rfl | rfl | rfl
  · simp
  · simp only [D2, show (1 : Fin 3) ≠ 2 by decide, show (1 : Fin 3) ≠ 0 by decide, if_true, if_false, add_zero, add_assoc]
    congr 2
    by_cases hdeg : p.box.je < p.box.js <;> by_cases hD : p.nDim = 3 <;> simp [hdeg, hD] <;> ring
  · by_cases hD : p.nDim = 3 <;> simp [hD, D2]

end side2

end Athena.Smr
