import Verif.Smr.ProlongFld

/-!
# The field in the ghost zones of a 1D child

`setFld` with `nDim == 1`: src/smr.c:1755-1760.
-/

namespace Athena.Smr
namespace Ovl

variable {R : Type} [Field R] [LinearOrder R] {ns : ℕ} {o : Ovl R}

/-- The state and the fields of a zone. -/
def all (B : PGrd R ns) (x : Z3) : ConsS R ns × R × R × R := (B.U x, B.B1 x, B.B2 x, B.B3 x)

theorem body_1d (hn : o.nDim = 1) (hm : o.cf.mhd = true) (bad : ConsS R ns → Bool) (G : Z3 → Cell R ns) (d : Fin 6) (B : PGrd R ns)
    (p : (ℤ × ℤ) × (ℤ × ℤ) × (ℤ × ℤ)) (x : Z3) (e : ConsS R ns)
    (hv : ∀ U, o.inBlock p.1.1 p.2.1.1 p.2.2.1 x → o.setCons bad G p U x = e) :
    all (o.body bad G d B p) x = if o.inBlock p.1.1 p.2.1.1 p.2.2.1 x then (e, e.b1, e.b2, e.b3) else all B x := by
  unfold body all
  rw [if_pos hm]
  unfold setFld
  rw [if_pos hn]
  dsimp only
  by_cases hb : o.inBlock p.1.1 p.2.1.1 p.2.2.1 x
  · simp only [if_pos hb, hv B.U hb]
  · have : o.setCons bad G p B.U x = B.U x := by unfold setCons; simp only [if_neg hb]
    simp only [if_neg hb, this]

theorem fold_1d (hn : o.nDim = 1) (hm : o.cf.mhd = true) (bad : ConsS R ns → Bool) (G : Z3 → Cell R ns) (d : Fin 6) (e : ConsS R ns) (x : Z3)
    (l : List ((ℤ × ℤ) × (ℤ × ℤ) × (ℤ × ℤ)))
    (hv : ∀ p ∈ l, ∀ U, o.inBlock p.1.1 p.2.1.1 p.2.2.1 x → o.setCons bad G p U x = e) (B : PGrd R ns) :
    all (l.foldl (o.body bad G d) B) x =
      if ∃ p ∈ l, o.inBlock p.1.1 p.2.1.1 p.2.2.1 x then (e, e.b1, e.b2, e.b3) else all B x := by
  induction l generalizing B with
  | nil => simp
  | cons p l ih =>
    rw [List.foldl_cons, ih (fun q hq => hv q (List.mem_cons_of_mem _ hq)), body_1d hn hm bad G d B p x e (hv p List.mem_cons_self)]
    by_cases hb : o.inBlock p.1.1 p.2.1.1 p.2.2.1 x
    · rw [if_pos hb, if_pos (⟨p, List.mem_cons_self, hb⟩ : ∃ p' ∈ p :: l, o.inBlock p'.1.1 p'.2.1.1 p'.2.2.1 x)]
      split_ifs <;> rfl
    · rw [if_neg hb]
      have e : (∃ p' ∈ p :: l, o.inBlock p'.1.1 p'.2.1.1 p'.2.2.1 x) ↔ ∃ p' ∈ l, o.inBlock p'.1.1 p'.2.1.1 p'.2.2.1 x := by
        simp [hb]
      simp only [e]

theorem recv_1d (h : o.Fits) (hn : o.nDim = 1) (hm : o.cf.mhd = true) (bad : ConsS R ns → Bool) (P : PGrd R ns) (x : Z3) (l : List (Fin 6))
    (hl : ∀ d ∈ l, d.val < 2 * o.nDim) (s : Rcv R ns) (hs : s.rest = l.flatMap (o.send1 P)) :
    all (l.foldl (o.recv1 bad) s).B x =
      if ∃ d ∈ l, o.near x ∧ o.beyond d x then
        (o.interp bad P x, (o.interp bad P x).b1, (o.interp bad P x).b2, (o.interp bad P x).b3) else all s.B x := by
  induction l generalizing s with
  | nil => simp
  | cons d l ih =>
    have hd := hl d List.mem_cons_self
    have hlen : (o.send1 P d).length = (loop (o.gz d)).length := by
      unfold send1; rw [List.length_map, loop_src h d hd, List.length_map]
    rw [List.flatMap_cons] at hs
    have ht : s.rest.take (loop (o.gz d)).length = o.send1 P d := by rw [hs]; exact List.take_left' hlen
    have hr : s.rest.drop (loop (o.gz d)).length = l.flatMap (o.send1 P) := by rw [hs]; exact List.drop_left' hlen
    rw [List.foldl_cons, ih (fun e he => hl e (List.mem_cons_of_mem _ he)) (o.recv1 bad s d) hr]
    have hB : all (o.recv1 bad s d).B x = if o.near x ∧ o.beyond d x then
        (o.interp bad P x, (o.interp bad P x).b1, (o.interp bad P x).b2, (o.interp bad P x).b3) else all s.B x := by
      unfold recv1
      dsimp only
      rw [ht, fold_1d hn hm bad _ d (o.interp bad P x) x (o.blocks d) (fun p hp U hb => value h d hd bad P _ x p hp U hb)]
      simp only [covered h d hd x]
    rw [hB]
    by_cases hb : o.near x ∧ o.beyond d x
    · rw [if_pos hb, if_pos (⟨d, List.mem_cons_self, hb⟩ : ∃ e ∈ d :: l, o.near x ∧ o.beyond e x)]
      split_ifs <;> rfl
    · rw [if_neg hb]
      have e : (∃ e ∈ d :: l, o.near x ∧ o.beyond e x) ↔ ∃ e ∈ l, o.near x ∧ o.beyond e x := by
        simp only [List.mem_cons, exists_eq_or_imp, hb, false_or]
      simp only [e]

/-- **C117 in 1D.**  A ghost zone beyond a boundary between levels of a 1D child holds, with MHD, the interpolation of the parent, the three
components of the cell-centred field included, and the face fields `B1i`, `B2i`, `B3i` of the zone hold the cell-centred ones; every other zone and
face holds what it held. -/
theorem prolongate_field_1d (h : o.Fits) (hn : o.nDim = 1) (hm : o.cf.mhd = true) (bad : ConsS R ns → Bool) (G : Fin 3 → Z3 → Cell R ns)
    (P C : PGrd R ns) (x : Z3) :
    let N := o.prolongate bad G P C
    (o.Ghost x → N.U x = o.interp bad P x ∧ N.B1 x = (N.U x).b1 ∧ N.B2 x = (N.U x).b2 ∧ N.B3 x = (N.U x).b3) ∧
    (¬ o.Ghost x → N.U x = C.U x ∧ N.B1 x = C.B1 x ∧ N.B2 x = C.B2 x ∧ N.B3 x = C.B3 x) := by
  intro N
  have e : (∃ d ∈ o.dims, o.near x ∧ o.beyond d x) ↔ o.Ghost x := by
    unfold Ghost
    constructor
    · rintro ⟨d, hd, h1, h2⟩; exact ⟨h1, d, ((mem_dims d).1 hd).1, ((mem_dims d).1 hd).2, h2⟩
    · rintro ⟨h1, d, hd, hf, h2⟩; exact ⟨d, (mem_dims d).2 ⟨hd, hf⟩, h1, h2⟩
  have key := recv_1d h hn hm bad P x o.dims (fun d hd => ((mem_dims d).1 hd).1) ⟨C, G, o.send P⟩ rfl
  simp only [e] at key
  have hN : all N x = (if o.Ghost x then (o.interp bad P x, (o.interp bad P x).b1, (o.interp bad P x).b2, (o.interp bad P x).b3) else all C x) := key
  unfold all at hN
  constructor
  · intro hg
    rw [if_pos hg] at hN
    simp only [Prod.mk.injEq] at hN
    obtain ⟨a, b, c, d⟩ := hN
    rw [a]
    exact ⟨rfl, b, c, d⟩
  · intro hg
    rw [if_neg hg] at hN
    simp only [Prod.mk.injEq] at hN
    exact hN

/-- A 1D child of two zones of the parent, with MHD and both boundaries between levels. -/
def wire : Ovl ℚ :=
  { ng := 4, nDim := 1, flx := fun _ => true, c := ⟨0, 0, 0, 0, 10, 11⟩, f := ⟨0, 0, 0, 0, 4, 7⟩, cf := { mhd := true, sr := false, firstOrder := false }, dx1 := 1, dx2 := 1, dx3 := 1 }

theorem wire_fits : wire.Fits :=
  ⟨Or.inl rfl, ⟨2, rfl⟩, by decide, by decide, by decide, by decide, by decide, by decide, by decide, by decide⟩

example : wire.nDim = 1 ∧ wire.cf.mhd = true ∧ wire.Ghost (0, 0, 3) ∧ wire.Ghost (0, 0, 8) ∧ ¬ wire.Ghost (0, 0, 4) :=
  ⟨rfl, rfl, by decide, by decide, by decide⟩

end Ovl
end Athena.Smr
