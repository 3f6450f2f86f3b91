import Verif.Run.RestartFileSpec

/-! Lemmas for C10: reading back one Grid, all Grids, the parameter part. -/

namespace Athena.Run.Rst
open Athena.Par

variable {V : Type}

/-! ## Lemmas for C10 -/

theorem lastFace_le (s e : Nat) : e ≤ lastFace s e := by unfold lastFace; split_ifs <;> omega

theorem GridOK.zones {g : Grid V} (h : GridOK g) : (zones g).all (inB g) = true := by
  rw [List.all_eq_true]
  intro x hx
  unfold Rst.zones at hx
  rw [mem_box] at hx
  have h1 := h.x1; have h2 := h.x2; have h3 := h.x3
  have l1 := lastFace_le g.is g.ie; have l2 := lastFace_le g.js g.je; have l3 := lastFace_le g.ks g.ke
  simp only [inB, Bool.and_eq_true, decide_eq_true_eq]; omega

/-- The counters fit the Grid. -/
structure ExtOK (e : Ext) (g : Grid V) : Prop where
  i : e.ib = if g.ie > g.is then 1 else 0
  j : e.jb = if g.je > g.js then 1 else 0
  k : e.kb = if g.ke > g.ks then 1 else 0

theorem GridOK.faces {g : Grid V} (h : GridOK g) {e : Ext} (he : ExtOK e g) :
    (faces1 g e).all (inB g) = true ∧ (faces2 g e).all (inB g) = true ∧ (faces3 g e).all (inB g) = true := by
  have h1 := h.x1; have h2 := h.x2; have h3 := h.x3
  have l1 := lastFace_le g.is g.ie; have l2 := lastFace_le g.js g.je; have l3 := lastFace_le g.ks g.ke
  have e1 : g.ie + e.ib = lastFace g.is g.ie := by rw [he.i]; unfold lastFace; split_ifs <;> omega
  have e2 : g.je + e.jb = lastFace g.js g.je := by rw [he.j]; unfold lastFace; split_ifs <;> omega
  have e3 : g.ke + e.kb = lastFace g.ks g.ke := by rw [he.k]; unfold lastFace; split_ifs <;> omega
  refine ⟨?_, ?_, ?_⟩ <;>
  · rw [List.all_eq_true]
    intro x hx
    simp only [faces1, faces2, faces3, mem_box] at hx
    simp only [inB, Bool.and_eq_true, decide_eq_true_eq]; omega

theorem BufOK.one {p : Plat V} (h : BufOK p) : p.R.size ≤ p.bufBytes := by have := h.r; omega

theorem typesText_ok (cfg : Cfg) (p : Plat V) (hR : ∀ v, p.R.fits v) (hb : BufOK p) (g cur : Grid V) (T T0 : Types V)
    (hg : g.nparticle ≤ g.arrsize) (hT : T.n ≤ T.alloc) (hT0 : T.n ≤ T0.alloc)
    (hL : p.L.fits (live g).length) (hI : p.I.fits T.n) (hS : ∀ i < T.n, p.S.fits (T.prop i).integrator) :
    ∃ t T', wTypes cfg p g T = .ok t ∧
      (∀ rest, rTypes cfg p T0 cur (t ++ rest) = .ok (T', withParts cur (live g).length (realloc cur.arrsize (live g).length) cur.part, rest)) ∧
      T'.n = T.n ∧ T'.alloc = T0.alloc ∧ T'.alam = T.alam ∧ ∀ i < T.n, (T'.prop i).rad = (T.prop i).rad ∧ (T'.prop i).rho = (T.prop i).rho ∧
        (T'.prop i).tstop0 = (T.prop i).tstop0 ∧ (T'.prop i).grrhoa = (T.prop i).grrhoa ∧
        (T'.prop i).integrator = (T.prop i).integrator ∧ (cfg.feedback = true → (T'.prop i).m = (T.prop i).m) := by
  have hd : HdrOK "PARTICLE LIST".toList := ⟨by decide, by decide, by decide⟩
  have hlen : ∀ t : PType V, (typeVals cfg t).length = nprop cfg := by
    intro t; unfold typeVals nprop; cases cfg.feedback <;> simp
  have hn : nprop cfg ≤ p.bufBytes / p.R.size := by
    rw [Nat.le_div_iff_mul_le p.R.pos]
    have h1 := hb.r
    have h2 : nprop cfg ≤ 5 := by unfold nprop; split_ifs <;> omega
    exact Nat.le_trans (Nat.mul_le_mul_right _ h2) h1
  have hw : wTypes cfg p g T = .ok (header "PARTICLE LIST".toList ++ p.L.enc (live g).length ++ p.I.enc T.n ++
      encAll p.R (((List.range T.n).map T.prop).map (typeVals cfg)).flatten ++ p.R.enc T.alam ++
      encAll p.S (((List.range T.n).map T.prop).map (·.integrator))) := by
    unfold wTypes
    rw [if_pos ⟨hg, hT⟩]
    dsimp only
    rw [bufWrite_ok _ _ hn _ (by intro q hq; rw [List.mem_map] at hq; obtain ⟨t, _, rfl⟩ := hq; rw [hlen]),
      wVals_ok p p.S hb.s]
    rfl
  refine ⟨_, { T0 with n := T.n, alam := T.alam, prop := fun i => if 0 ≤ i ∧ i < 0 + T.n then
      { (if 0 ≤ i ∧ i < 0 + T.n then
        { T0.prop i with m := if cfg.feedback then (T.prop i).m else (T0.prop i).m, rad := (T.prop i).rad, rho := (T.prop i).rho, tstop0 := (T.prop i).tstop0, grrhoa := (T.prop i).grrhoa } else T0.prop i) with integrator := (T.prop i).integrator }
      else (if 0 ≤ i ∧ i < 0 + T.n then
        { T0.prop i with m := if cfg.feedback then (T.prop i).m else (T0.prop i).m, rad := (T.prop i).rad, rho := (T.prop i).rho, tstop0 := (T.prop i).tstop0, grrhoa := (T.prop i).grrhoa } else T0.prop i) },
    hw, ?_, rfl, rfl, rfl, ?_⟩
  · intro rest
    unfold rTypes
    simp only [List.append_assoc]
    rw [rHdr_ok _ _ hd (by decide), Res.bind_ok, fread_enc _ _ hL, Res.bind_ok]
    dsimp only
    rw [fread_enc _ _ hI, Res.bind_ok]
    dsimp only
    rw [Int.toNat_natCast, if_pos hT0, List.range_eq_range', rTypeLoop_ok cfg p hR, Res.bind_ok]
    dsimp only
    rw [fread_enc _ _ (hR _), Res.bind_ok]
    dsimp only
    rw [rIntegLoop_ok p rest T.prop T.n 0 _ (fun i hi => hS i (by omega)), Res.bind_ok]
    rfl
  · intro i hi
    have : (0 ≤ i ∧ i < 0 + T.n) := by omega
    simp only [if_pos this]
    refine ⟨trivial, trivial, trivial, trivial, trivial, fun h => by rw [if_pos h]⟩

theorem live_pos {g : Grid V} {q : Part V} (h : q ∈ live g) : q.pos = 1 := by
  unfold live at h; rw [List.mem_filter] at h; simpa using h.2

theorem particles_ok (cfg : Cfg) (p : Plat V) (hR : ∀ v, p.R.fits v) (hb : BufOK p) (g cur : Grid V) (T T0 : Types V)
    (hg : g.nparticle ≤ g.arrsize) (hT : T.n ≤ T.alloc) (hT0 : T.n ≤ T0.alloc)
    (hL : p.L.fits (live g).length) (hI : p.I.fits T.n) (hS : ∀ i < T.n, p.S.fits (T.prop i).integrator)
    (hq : ∀ q ∈ live g, p.I.fits q.property ∧ p.L.fits q.my_id ∧ p.I.fits q.init_id ∧ 0 ≤ q.property ∧ q.property < T.n) :
    ∃ t T' cur', wParticles cfg p g T = .ok t ∧
      (∀ rest, rParticles cfg p T0 cur (t ++ rest) = .ok (T', cur', rest)) ∧
      TypesRestored cfg T T0 T' (live g) ∧
      cur' = { cur with nparticle := cur'.nparticle, arrsize := cur'.arrsize, part := cur'.part } ∧
      cur'.nparticle = (live g).length ∧ cur'.nparticle ≤ cur'.arrsize ∧
      ∀ i q, (live g)[i]? = some q →
        cur'.part i = { q with init_id := if cfg.mpi then q.init_id else (cur.part i).init_id } := by
  obtain ⟨t0, T', w0, r0, tn, ta, tl, tp⟩ := typesText_ok cfg p hR hb g cur T T0 hg hT hT0 hL hI hS
  have hra : (live g).length ≤ realloc cur.arrsize (live g).length := by unfold realloc; split_ifs <;> omega
  have hHR : ∀ (get : Part V → V), ∀ q ∈ live g, p.R.fits (get q) := fun get q _ => hR _
  obtain ⟨N, hN⟩ : ∃ N, N = realloc cur.arrsize (live g).length := ⟨_, rfl⟩
  rw [← hN] at hra r0
  obtain ⟨t1, c1, n1, w1, r1, f1, s1⟩ := rPart_ok p p.R hb.one g cur N cur.part "PARTICLE X1".toList 11
    (fun q v => { q with x1 := v }) (·.x1) ⟨by decide, by decide, by decide⟩ (by decide) (hHR _) hg hra
    cur.part (fun i _ => cur.part i) (by intro i; cases (live g)[i]? <;> rfl)
  obtain ⟨t2, c2, n2, w2, r2, f2, s2⟩ := rPart_ok p p.R hb.one g cur N c1 "PARTICLE X2".toList 11
    (fun q v => { q with x2 := v }) (·.x2) ⟨by decide, by decide, by decide⟩ (by decide) (hHR _) hg hra _ _ f1
  obtain ⟨t3, c3, n3, w3, r3, f3, s3⟩ := rPart_ok p p.R hb.one g cur N c2 "PARTICLE X3".toList 11
    (fun q v => { q with x3 := v }) (·.x3) ⟨by decide, by decide, by decide⟩ (by decide) (hHR _) hg hra _ _ f2
  obtain ⟨t4, c4, n4, w4, r4, f4, s4⟩ := rPart_ok p p.R hb.one g cur N c3 "PARTICLE V1".toList 11
    (fun q v => { q with v1 := v }) (·.v1) ⟨by decide, by decide, by decide⟩ (by decide) (hHR _) hg hra _ _ f3
  obtain ⟨t5, c5, n5, w5, r5, f5, s5⟩ := rPart_ok p p.R hb.one g cur N c4 "PARTICLE V2".toList 11
    (fun q v => { q with v2 := v }) (·.v2) ⟨by decide, by decide, by decide⟩ (by decide) (hHR _) hg hra _ _ f4
  obtain ⟨t6, c6, n6, w6, r6, f6, s6⟩ := rPart_ok p p.R hb.one g cur N c5 "PARTICLE V3".toList 11
    (fun q v => { q with v3 := v }) (·.v3) ⟨by decide, by decide, by decide⟩ (by decide) (hHR _) hg hra _ _ f5
  obtain ⟨t7, c7, n7, w7, r7, f7, s7⟩ := rPart_ok p p.I hb.i g cur N c6 "PARTICLE PROPERTY".toList 17
    (fun q v => { q with property := v, pos := 1 }) (·.property) ⟨by decide, by decide, by decide⟩ (by decide)
    (fun q h => (hq q h).1) hg hra _ _ f6
  obtain ⟨t8, c8, n8, w8, r8, f8, s8⟩ := rPart_ok p p.L hb.l g cur N c7 "PARTICLE MY_ID".toList 14
    (fun q v => { q with my_id := v }) (·.my_id) ⟨by decide, by decide, by decide⟩ (by decide)
    (fun q h => (hq q h).2.1) hg hra _ _ f7
  -- the optional section
  obtain ⟨t9, c9, w9, r9, f9⟩ : ∃ t9 c9,
      (bif cfg.mpi then wPart p g p.I "PARTICLE INIT_ID".toList (·.init_id) else .ok []) = .ok t9 ∧
      (∀ rest, (bif cfg.mpi then rPart p.I "PARTICLE INIT_ID".toList 16 (fun q v => { q with init_id := v })
          (withParts cur (live g).length N c8) (t9 ++ rest)
        else .ok (withParts cur (live g).length N c8, t9 ++ rest)) = .ok (withParts cur (live g).length N c9, rest)) ∧
      (∀ i, c9 i = ((live g)[i]?).elim (cur.part i)
        (fun q => { q with init_id := if cfg.mpi then q.init_id else (cur.part i).init_id })) := by
    cases hm : cfg.mpi with
    | false =>
      refine ⟨[], c8, rfl, fun rest => rfl, ?_⟩
      intro i
      rw [f8]
      cases hi : (live g)[i]? with
      | none => rfl
      | some q =>
        have := live_pos (List.mem_of_getElem? hi)
        simp only [Option.elim_some]
        ext <;> simp only [s8, s7, s6, s5, s4, s3, s2, s1, this] <;> rfl
    | true =>
      obtain ⟨t9, c9, n9, w9, r9, f9, s9⟩ := rPart_ok p p.I hb.i g cur N c8 "PARTICLE INIT_ID".toList 16
        (fun q v => { q with init_id := v }) (·.init_id) ⟨by decide, by decide, by decide⟩ (by decide)
        (fun q h => (hq q h).2.2.1) hg hra _ _ f8
      refine ⟨t9, c9, w9, fun rest => r9 rest, ?_⟩
      intro i
      rw [f9]
      cases hi : (live g)[i]? with
      | none => rfl
      | some q =>
        have := live_pos (List.mem_of_getElem? hi)
        simp only [Option.elim_some]
        ext <;> simp only [s9, s8, s7, s6, s5, s4, s3, s2, s1, this] <;> rfl
  have hprop : ((List.range (live g).length).map c9).map (·.property) = (live g).map (·.property) := by
    apply List.ext_getElem?
    intro i
    rw [List.getElem?_map, List.getElem?_map, List.getElem?_map]
    by_cases hi : i < (live g).length
    · rw [List.getElem?_range hi, List.getElem?_eq_getElem hi]
      simp only [Option.map_some]
      rw [f9, List.getElem?_eq_getElem hi]
      rfl
    · rw [List.getElem?_eq_none (by simpa using hi), List.getElem?_eq_none (by simpa using hi)]; rfl
  have hcnt : ∀ i : Nat, ((List.range (live g).length).map c9).countP (fun q => decide (q.property = (i : Int))) =
      (live g).countP (fun q => decide (q.property = (i : Int))) := by
    intro i
    have h1 := List.countP_map (p := fun z : Int => decide (z = (i : Int))) (f := fun q : Part V => q.property)
      (l := (List.range (live g).length).map c9)
    have h2 := List.countP_map (p := fun z : Int => decide (z = (i : Int))) (f := fun q : Part V => q.property) (l := live g)
    rw [hprop, h2] at h1
    exact h1.symm
  obtain ⟨pr, hcn, hpr⟩ : ∃ pr, countNum T'.n ((List.range (live g).length).map c9)
      (fun i => if i < T'.n then { T'.prop i with num := 0 } else T'.prop i) = .ok pr ∧ ∀ i, pr i =
      { (if i < T'.n then { T'.prop i with num := 0 } else T'.prop i) with
        num := (if i < T'.n then { T'.prop i with num := 0 } else T'.prop i).num +
          (((List.range (live g).length).map c9).countP (fun q => decide (q.property = (i : Int))) : Nat) } :=
    ⟨_, countNum_ok T'.n ((List.range (live g).length).map c9) _ (by
      intro q hqm
      have : q.property ∈ (live g).map (·.property) := by rw [← hprop]; exact List.mem_map_of_mem hqm
      obtain ⟨q', hq', e⟩ := List.mem_map.1 this
      rw [← e, tn]
      exact (hq q' hq').2.2.2), fun _ => rfl⟩
  refine ⟨t0 ++ (t1 ++ (t2 ++ (t3 ++ (t4 ++ (t5 ++ (t6 ++ (t7 ++ (t8 ++ t9)))))))), { T' with prop := pr },
    withParts cur (live g).length N c9, ?_, ?_, ?_, rfl, rfl, hra, ?_⟩
  · unfold wParticles
    rw [w0, w1, w2, w3, w4, w5, w6, w7, w8, w9]; rfl
  · intro rest
    unfold rParticles
    simp only [List.append_assoc]
    rw [r0, Res.bind_ok]; dsimp only
    rw [r1, Res.bind_ok]; dsimp only
    rw [r2, Res.bind_ok]; dsimp only
    rw [r3, Res.bind_ok]; dsimp only
    rw [r4, Res.bind_ok]; dsimp only
    rw [r5, Res.bind_ok]; dsimp only
    rw [r6, Res.bind_ok]; dsimp only
    rw [r7, Res.bind_ok]; dsimp only
    rw [r8, Res.bind_ok]; dsimp only
    rw [r9, Res.bind_ok]; dsimp only
    have h1 : (withParts cur (live g).length N c9).nparticle = (live g).length := rfl
    have h3 : (withParts cur (live g).length N c9).part = c9 := rfl
    rw [h1, h3, hcn, Res.bind_ok]
    rfl
  · refine ⟨tn, ta, tl, ?_⟩
    intro i hi
    obtain ⟨a1, a2, a3, a4, a5, a6⟩ := tp i hi
    rw [← tn] at hi
    simp only [hpr, if_pos hi]
    refine ⟨a1, a2, a3, a4, a5, a6, ?_⟩
    rw [hcnt]; omega
  · intro i q hi
    show c9 i = _
    rw [f9, hi]; rfl

theorem active_zones (g : Grid V) (x : Idx) : Active g x ↔ x ∈ zones g := by
  unfold Active zones; rw [mem_box]

theorem St.congr {g g0 : Grid V} {time dt : V} {done done' : Var → Prop} {W : Var → Idx → V} {cur : Grid V}
    (h : St g g0 time dt done W cur) (hd : ∀ v, done v ↔ done' v) : St g g0 time dt done' W cur := by
  have : done = done' := by funext v; exact propext (hd v)
  rw [← this]; exact h

/-- The value expected in every variable. -/
def want (p : Plat V) (e : Ext) (g : Grid V) : Var → Idx → V
  | .B1c, x => if e.ib = 1 then p.avg (g.B1i x) (g.B1i (x.1, x.2.1, x.2.2 + 1)) else g.B1i x
  | .B2c, x => if e.jb = 1 then p.avg (g.B2i x) (g.B2i (x.1, x.2.1 + 1, x.2.2)) else g.B2i x
  | .B3c, x => if e.kb = 1 then p.avg (g.B3i x) (g.B3i (x.1 + 1, x.2.1, x.2.2)) else g.B3i x
  | v, x => g.U v x

theorem grid_ok (cfg : Cfg) (p : Plat V) (hR : ∀ v, p.R.fits v) (hb : BufOK p)
    (hsc : ∀ n < cfg.nscalars, (scalarHdr n).length < 16) (g g0 : Grid V) (T T0 : Types V)
    (time dt : V) (e : Ext) (hg : GridOK g) (hs : SameShape g g0) (he : cfg.mhd = true → ExtOK (e.upd g) g)
    (hp : cfg.particles = true → T.n ≤ T.alloc ∧ T.n ≤ T0.alloc ∧ p.L.fits (live g).length ∧ p.I.fits T.n ∧
      (∀ i < T.n, p.S.fits (T.prop i).integrator) ∧
      ∀ q ∈ live g, p.I.fits q.property ∧ p.L.fits q.my_id ∧ p.I.fits q.init_id ∧ 0 ≤ q.property ∧ q.property < T.n) :
    ∃ t T' g', wGrid cfg p T e g = .ok t ∧ (∀ rest, rGrid cfg p time dt T0 e g0 (t ++ rest) = .ok (T', g', rest)) ∧
      GridRestored cfg p.avg time dt g g0 g' ∧ (cfg.particles = true → TypesRestored cfg T T0 T' (live g)) ∧
      (cfg.particles = false → T' = T0) := by
  obtain ⟨E, hE⟩ : ∃ E, E = e.upd g := ⟨_, rfl⟩
  have hz := hg.zones
  have h0 : St g g0 time dt (fun _ => False) (want p E g) { g0 with time := time, dt := dt } :=
    ⟨⟨hs.1, hs.2, hs.3, hs.4, hs.5, hs.6, hs.7, hs.8, hs.9⟩, rfl, rfl, fun _ _ h => h.elim, fun _ _ _ => rfl, rfl, rfl, rfl⟩
  obtain ⟨t1, c1, w1, r1, h1, a1, a2, a3⟩ := rVar_ok p hR hb.one g g0 time dt _ _ _ h0 .d (fun _ => rfl) "DENSITY".toList 7
    ⟨by decide, by decide, by decide⟩ (by decide) hz
  obtain ⟨t2, c2, w2, r2, h2, b1, b2, b3⟩ := rVar_ok p hR hb.one g g0 time dt _ _ _ h1 .M1 (fun _ => rfl) "1-MOMENTUM".toList 10
    ⟨by decide, by decide, by decide⟩ (by decide) hz
  obtain ⟨t3, c3, w3, r3, h3, d1, d2, d3⟩ := rVar_ok p hR hb.one g g0 time dt _ _ _ h2 .M2 (fun _ => rfl) "2-MOMENTUM".toList 10
    ⟨by decide, by decide, by decide⟩ (by decide) hz
  obtain ⟨t4, c4, w4, r4, h4, e1, e2, e3⟩ := rVar_ok p hR hb.one g g0 time dt _ _ _ h3 .M3 (fun _ => rfl) "3-MOMENTUM".toList 10
    ⟨by decide, by decide, by decide⟩ (by decide) hz
  obtain ⟨t5, c5, w5, r5, h5⟩ : ∃ t5 c5, (bif cfg.barotropic then .ok [] else wSec p g "ENERGY".toList (zones g) (g.U .E)) = .ok t5 ∧
      (∀ rest, (bif cfg.barotropic then .ok (c4, t5 ++ rest) else rVar p "ENERGY".toList 6 .E c4 (t5 ++ rest)) = .ok (c5, rest)) ∧
      St g g0 time dt (fun u => ((((False ∨ u = .d) ∨ u = .M1) ∨ u = .M2) ∨ u = .M3) ∨ (cfg.barotropic = false ∧ u = .E))
        (want p E g) c5 := by
    cases hbar : cfg.barotropic with
    | true =>
      exact ⟨[], c4, rfl, fun _ => rfl, h4.congr (fun v => by simp)⟩
    | false =>
      obtain ⟨t5, c5, w5, r5, h5, _, _, _⟩ := rVar_ok p hR hb.one g g0 time dt _ _ _ h4 .E (fun _ => rfl) "ENERGY".toList 6
        ⟨by decide, by decide, by decide⟩ (by decide) hz
      exact ⟨t5, c5, w5, r5, h5.congr (fun v => by simp)⟩
  obtain ⟨t6, c6, w6, r6, h6, f6⟩ : ∃ t6 c6, (bif cfg.mhd then wField p E g else .ok []) = .ok t6 ∧
      (∀ rest, (bif cfg.mhd then rField p E c5 (t6 ++ rest) else .ok (c5, t6 ++ rest)) = .ok (c6, rest)) ∧
      St g g0 time dt (fun u => (((((False ∨ u = .d) ∨ u = .M1) ∨ u = .M2) ∨ u = .M3) ∨ (cfg.barotropic = false ∧ u = .E)) ∨
        (cfg.mhd = true ∧ (u = .B1c ∨ u = .B2c ∨ u = .B3c))) (want p E g) c6 ∧
      (cfg.mhd = true → (∀ x ∈ faces1 g E, c6.B1i x = g.B1i x) ∧ (∀ x ∈ faces2 g E, c6.B2i x = g.B2i x) ∧
        (∀ x ∈ faces3 g E, c6.B3i x = g.B3i x)) := by
    cases hm : cfg.mhd with
    | false => exact ⟨[], c5, rfl, fun _ => rfl, h5.congr (fun v => by simp), fun h => by simp at h⟩
    | true =>
      have hEx := he hm
      rw [← hE] at hEx
      obtain ⟨q1, q2, q3⟩ := hg.faces hEx
      obtain ⟨t6, c6, w6, r6, h6, o1, o2, o3⟩ := field_ok p hR hb.one g g0 time dt _ _ c5 h5 E q1 q2 q3
        (fun _ => rfl) (fun _ => rfl) (fun _ => rfl)
      refine ⟨t6, c6, w6, r6, h6.congr (fun v => by simp [or_assoc]), fun _ => ⟨?_, ?_, ?_⟩⟩
      · intro x hx; rw [o1, overlay, if_pos hx]
      · intro x hx; rw [o2, overlay, if_pos hx]
      · intro x hx; rw [o3, overlay, if_pos hx]
  obtain ⟨t7, c7, w7, r7, h7, k1, k2, k3⟩ := scalars_ok p hR hb.one g g0 time dt _ hz (List.range cfg.nscalars) _ c6 h6
    (fun n hn => ⟨fun _ => rfl, hsc n (List.mem_range.1 hn)⟩)
  -- particles
  obtain ⟨t8, T', g', w8, r8, hT, hT0, hsame, hpart, hnop⟩ : ∃ t8 T' g',
      (bif cfg.particles then wParticles cfg p g T else .ok []) = .ok t8 ∧
      (∀ rest, (if cfg.particles then rParticles cfg p T0 c7 (t8 ++ rest) else pure (T0, c7, t8 ++ rest)) = .ok (T', g', rest)) ∧
      (cfg.particles = true → TypesRestored cfg T T0 T' (live g)) ∧ (cfg.particles = false → T' = T0) ∧
      g' = { c7 with nparticle := g'.nparticle, arrsize := g'.arrsize, part := g'.part } ∧
      (cfg.particles = true → g'.nparticle = (live g).length ∧ g'.nparticle ≤ g'.arrsize ∧
        ∀ i q, (live g)[i]? = some q →
          g'.part i = { q with init_id := if cfg.mpi then q.init_id else (g0.part i).init_id }) ∧
      (cfg.particles = false → g'.nparticle = g0.nparticle ∧ g'.part = g0.part) := by
    cases hpp : cfg.particles with
    | false => exact ⟨[], T0, c7, rfl, fun _ => rfl, fun h => by simp at h, fun _ => rfl, rfl, fun h => by simp at h,
        fun _ => ⟨h7.nparticle, h7.part⟩⟩
    | true =>
      obtain ⟨p1, p2, p3, p4, p5, p6⟩ := hp hpp
      obtain ⟨t8, T', g', w8, r8, hT, hsame, hn, ha, hpa⟩ := particles_ok cfg p hR hb g c7 T T0 hg.np p1 p2 p3 p4 p5 p6
      refine ⟨t8, T', g', w8, fun rest => r8 rest, fun _ => hT, fun h => by simp at h, hsame, fun _ => ⟨hn, ha, ?_⟩,
        fun h => by simp at h⟩
      intro i q hi
      rw [hpa i q hi, h7.part]
  refine ⟨t1 ++ (t2 ++ (t3 ++ (t4 ++ (t5 ++ (t6 ++ (t7 ++ t8)))))), T', g', ?_, ?_, ?_, hT, hT0⟩
  · unfold wGrid
    rw [← hE, w1, w2, w3, w4, w5, w6, w7, w8]; rfl
  · intro rest
    unfold rGrid
    have hu : e.upd { g0 with time := time, dt := dt } = E := by rw [hE]; exact h0.shape.upd e
    simp only [List.append_assoc]
    rw [r1, Res.bind_ok]; dsimp only
    rw [r2, Res.bind_ok]; dsimp only
    rw [r3, Res.bind_ok]; dsimp only
    rw [r4, Res.bind_ok]; dsimp only
    rw [r5, Res.bind_ok, hu]; dsimp only
    rw [r6, Res.bind_ok]; dsimp only
    rw [r7, Res.bind_ok]
    exact r8 rest
  · have hU : g'.U = c7.U := by rw [hsame]
    have hB1 : g'.B1i = c6.B1i := by rw [hsame]; exact k1
    have hB2 : g'.B2i = c6.B2i := by rw [hsame]; exact k2
    have hB3 : g'.B3i = c6.B3i := by rw [hsame]; exact k3
    have hsh : SameShape g g' := by
      rw [hsame]
      exact ⟨h7.shape.1, h7.shape.2, h7.shape.3, h7.shape.4, h7.shape.5, h7.shape.6, h7.shape.7, h7.shape.8, h7.shape.9⟩
    have hE1 : cfg.mhd = true → ExtOK E g := fun h => by rw [hE]; exact he h
    refine ⟨hsh, by rw [hsame]; exact h7.time, by rw [hsame]; exact h7.dt, ?_, ?_, ?_, ?_, ?_, ?_, ?_, ?_, ?_, ?_, hpart, hnop⟩
    · intro x hx
      rw [active_zones] at hx
      rw [hU]
      exact ⟨h7.val _ x (by simp) hx, h7.val _ x (by simp) hx, h7.val _ x (by simp) hx, h7.val _ x (by simp) hx⟩
    · intro hbar x hx
      rw [active_zones] at hx
      rw [hU]
      exact h7.val _ x (by simp [hbar]) hx
    · intro n hn x hx
      rw [active_zones] at hx
      rw [hU]
      exact h7.val _ x (by simp [hn]) hx
    · intro hm k j i q1 q2 q3 q4 q5 q6
      rw [hB1]
      refine (f6 hm).1 _ ?_
      have := (hE1 hm).i
      unfold faces1; rw [mem_box]
      refine ⟨⟨q1, q2⟩, ⟨q3, q4⟩, q5, ?_⟩
      rw [this]; unfold lastFace at q6
      dsimp only
      split_ifs at q6 ⊢ <;> omega
    · intro hm k j i q1 q2 q3 q4 q5 q6
      rw [hB2]
      refine (f6 hm).2.1 _ ?_
      have := (hE1 hm).j
      unfold faces2; rw [mem_box]
      refine ⟨⟨q1, q2⟩, ⟨q3, ?_⟩, q5, q6⟩
      rw [this]; unfold lastFace at q4
      dsimp only
      split_ifs at q4 ⊢ <;> omega
    · intro hm k j i q1 q2 q3 q4 q5 q6
      rw [hB3]
      refine (f6 hm).2.2 _ ?_
      have := (hE1 hm).k
      unfold faces3; rw [mem_box]
      refine ⟨⟨q1, ?_⟩, ⟨q3, q4⟩, q5, q6⟩
      rw [this]; unfold lastFace at q2
      dsimp only
      split_ifs at q2 ⊢ <;> omega
    · intro hm k j i hx
      rw [active_zones] at hx
      obtain ⟨n1, n2, n3, n4, n5, n6⟩ := zones_faces E hx
      rw [hU, hB1, h7.val _ _ (by simp [hm]) hx, (f6 hm).1 _ n1]
      have hi := (hE1 hm).i
      by_cases hc : g.ie > g.is
      · rw [if_pos hc] at hi ⊢
        rw [(f6 hm).1 _ (n4 hi)]
        show (if E.ib = 1 then _ else _) = _
        rw [if_pos hi]
      · rw [if_neg hc] at hi ⊢
        show (if E.ib = 1 then _ else _) = _
        rw [if_neg (by omega)]
    · intro hm k j i hx
      rw [active_zones] at hx
      obtain ⟨n1, n2, n3, n4, n5, n6⟩ := zones_faces E hx
      rw [hU, hB2, h7.val _ _ (by simp [hm]) hx, (f6 hm).2.1 _ n2]
      have hi := (hE1 hm).j
      by_cases hc : g.je > g.js
      · rw [if_pos hc] at hi ⊢
        rw [(f6 hm).2.1 _ (n5 hi)]
        show (if E.jb = 1 then _ else _) = _
        rw [if_pos hi]
      · rw [if_neg hc] at hi ⊢
        show (if E.jb = 1 then _ else _) = _
        rw [if_neg (by omega)]
    · intro hm k j i hx
      rw [active_zones] at hx
      obtain ⟨n1, n2, n3, n4, n5, n6⟩ := zones_faces E hx
      rw [hU, hB3, h7.val _ _ (by simp [hm]) hx, (f6 hm).2.2 _ n3]
      have hi := (hE1 hm).k
      by_cases hc : g.ke > g.ks
      · rw [if_pos hc] at hi ⊢
        rw [(f6 hm).2.2 _ (n6 hi)]
        show (if E.kb = 1 then _ else _) = _
        rw [if_pos hi]
      · rw [if_neg hc] at hi ⊢
        show (if E.kb = 1 then _ else _) = _
        rw [if_neg (by omega)]
    · intro v x hx
      rw [active_zones] at hx
      rw [hU]
      exact h7.old v x (fun h => hx h.2)

/-! ## All Grids -/

/-- The counters before the Grids `gs` are processed. -/
structure ExtInv (e : Ext) (gs : List (Grid V)) : Prop where
  i : e.ib = 0 ∨ (e.ib = 1 ∧ ∀ g ∈ gs, g.ie > g.is)
  j : e.jb = 0 ∨ (e.jb = 1 ∧ ∀ g ∈ gs, g.je > g.js)
  k : e.kb = 0 ∨ (e.kb = 1 ∧ ∀ g ∈ gs, g.ke > g.ks)

theorem extInv_step {e : Ext} {g : Grid V} {gs : List (Grid V)} (h : ExtInv e (g :: gs)) (hd : SameDims (g :: gs)) :
    ExtOK (e.upd g) g ∧ ExtInv (e.upd g) gs := by
  have key : ∀ (b : Nat) (P : Grid V → Prop) [DecidablePred P],
      (b = 0 ∨ (b = 1 ∧ ∀ q ∈ g :: gs, P q)) → (∀ q ∈ gs, P g ↔ P q) →
      ((if P g then 1 else b) = if P g then 1 else 0) ∧
      ((if P g then 1 else b) = 0 ∨ ((if P g then 1 else b) = 1 ∧ ∀ q ∈ gs, P q)) := by
    intro b P _ h1 h2
    by_cases hp : P g
    · simp only [if_pos hp]
      exact ⟨trivial, .inr ⟨trivial, fun q hq => (h2 q hq).1 hp⟩⟩
    · simp only [if_neg hp]
      rcases h1 with h1 | h1
      · exact ⟨h1, .inl h1⟩
      · exact absurd (h1.2 g (by simp)) hp
  have k1 := key e.ib (fun g => g.ie > g.is) h.i (fun q hq => (hd g (by simp) q (by simp [hq])).1)
  have k2 := key e.jb (fun g => g.je > g.js) h.j (fun q hq => (hd g (by simp) q (by simp [hq])).2.1)
  have k3 := key e.kb (fun g => g.ke > g.ks) h.k (fun q hq => (hd g (by simp) q (by simp [hq])).2.2)
  exact ⟨⟨k1.1, k2.1, k3.1⟩, ⟨k1.2, k2.2, k3.2⟩⟩

theorem grids_ok (cfg : Cfg) (p : Plat V) (hR : ∀ v, p.R.fits v) (hb : BufOK p)
    (hsc : ∀ n < cfg.nscalars, (scalarHdr n).length < 16) (T : Types V) (time dt : V) (gs : List (Grid V)) :
    ∀ (g0s : List (Grid V)) (T0 : Types V) (e : Ext), List.Forall₂ SameShape gs g0s → (∀ g ∈ gs, GridOK g) →
    (cfg.mhd = true → ExtInv e gs) → (cfg.mhd = true → SameDims gs) →
    (∀ g ∈ gs, cfg.particles = true → T.n ≤ T.alloc ∧ T.n ≤ T0.alloc ∧ p.L.fits (live g).length ∧ p.I.fits T.n ∧
      (∀ i < T.n, p.S.fits (T.prop i).integrator) ∧
      ∀ q ∈ live g, p.I.fits q.property ∧ p.L.fits q.my_id ∧ p.I.fits q.init_id ∧ 0 ≤ q.property ∧ q.property < T.n) →
    ∃ t T' gs', wGrids cfg p T e gs = .ok t ∧ (∀ rest, rGrids cfg p time dt T0 e g0s (t ++ rest) = .ok (T', gs', rest)) ∧
      gs'.length = gs.length ∧
      (∀ (n : Nat) (g g0 g' : Grid V), gs[n]? = some g → g0s[n]? = some g0 → gs'[n]? = some g' → GridRestored cfg p.avg time dt g g0 g') ∧
      (cfg.particles = true → ∀ g, gs.getLast? = some g → TypesRestored cfg T T0 T' (live g)) ∧
      (cfg.particles = false → T' = T0) := by
  induction gs with
  | nil =>
    intro g0s T0 e hf _ _ _ _
    cases hf
    exact ⟨[], T0, [], rfl, fun rest => by simp [rGrids], rfl, by simp, by simp, fun _ => rfl⟩
  | cons g gs ih =>
    intro g0s T0 e hf hok hinv hdim hpt
    cases hf with
    | cons hs hf =>
    rename_i g0 g0s
    have hstep : cfg.mhd = true → ExtOK (e.upd g) g ∧ ExtInv (e.upd g) gs := fun hm => extInv_step (hinv hm) (hdim hm)
    obtain ⟨t1, T1, g1, w1, r1, hr1, hT1, hn1⟩ := grid_ok cfg p hR hb hsc g g0 T T0 time dt e (hok g (by simp)) hs
      (fun hm => (hstep hm).1) (hpt g (by simp))
    have hal : cfg.particles = true → T1.alloc = T0.alloc := fun h => (hT1 h).alloc
    obtain ⟨t2, T2, gs2, w2, r2, hl2, hr2, hT2, hn2⟩ := ih g0s T1 (if cfg.mhd then e.upd g else e) hf
      (fun q hq => hok q (by simp [hq])) (fun hm => by rw [if_pos hm]; exact (hstep hm).2)
      (fun hm a ha b hb => hdim hm a (by simp [ha]) b (by simp [hb]))
      (fun q hq hp => by rw [hal hp]; exact hpt q (by simp [hq]) hp)
    refine ⟨t1 ++ t2, T2, g1 :: gs2, ?_, ?_, by simp [hl2], ?_, ?_, ?_⟩
    · simp only [wGrids]; rw [w1, w2]; rfl
    · intro rest
      simp only [rGrids]
      have hu : e.upd g0 = e.upd g := hs.upd e
      rw [List.append_assoc, r1, Res.bind_ok]; dsimp only
      rw [hu, r2, Res.bind_ok]; rfl
    · intro n a a0 a' h1 h2 h3
      cases n with
      | zero =>
        simp only [List.getElem?_cons_zero, Option.some.injEq] at h1 h2 h3
        subst h1 h2 h3; exact hr1
      | succ n =>
        simp only [List.getElem?_cons_succ] at h1 h2 h3
        exact hr2 n a a0 a' h1 h2 h3
    · intro hp q hq
      cases gs with
      | nil =>
        cases hf
        simp only [List.getLast?_singleton, Option.some.injEq] at hq
        subst hq
        have hT1' := hT1 hp
        have : T2 = T1 := by
          have := r2 []
          simp only [rGrids, Res.ok.injEq, Prod.mk.injEq] at this
          exact this.1.symm
        rw [this]; exact hT1'
      | cons g3 gs3 =>
        rw [List.getLast?_cons_cons] at hq
        have := hT2 hp q hq
        exact ⟨this.n, this.alloc.trans (hal hp), this.alam, this.prop⟩
    · intro hp
      rw [hn2 hp, hn1 hp]

/-! ## The parameter part -/

/-- Empty, or ends with a newline. -/
def EndsNL (t : Str) : Prop := ∀ a c, t = a ++ [c] → c = '\n'

theorem EndsNL.tail {c : Char} {s : Str} (h : EndsNL (c :: s)) : EndsNL s := by
  intro a d e; exact h (c :: a) d (by rw [e]; rfl)

theorem fgetsGo_append (rest : Str) (n : Nat) : ∀ t : Str, t ≠ [] → EndsNL t →
    fgetsGo n (t ++ rest) = ((fgetsGo n t).1, (fgetsGo n t).2 ++ rest) ∧ EndsNL (fgetsGo n t).2 := by
  induction n with
  | zero => intro t _ h; simpa [fgetsGo] using h
  | succ n ih =>
    intro t ht h
    cases t with
    | nil => exact absurd rfl ht
    | cons c s =>
      rw [List.cons_append]
      unfold fgetsGo
      by_cases hc : c = '\n'
      · rw [if_pos hc, if_pos hc]; exact ⟨rfl, h.tail⟩
      · rw [if_neg hc, if_neg hc]
        have hs : s ≠ [] := by
          rintro rfl
          exact hc (h [] c rfl)
        obtain ⟨e1, e2⟩ := ih s hs h.tail
        rw [e1]; exact ⟨rfl, e2⟩

theorem fgetsLines_fgetsGo (s : Str) : ∀ (k : Nat) (cur : Str), 0 < k → s ≠ [] →
    fgetsLines k cur s = (cur ++ (fgetsGo k s).1) :: fgetsLines (MAXLEN - 1) [] (fgetsGo k s).2 := by
  induction s with
  | nil => intro k cur _ h; exact absurd rfl h
  | cons c s ih =>
    intro k cur hk _
    obtain ⟨m, rfl⟩ : ∃ m, k = m + 1 := ⟨k - 1, by omega⟩
    simp only [fgetsLines, fgetsGo]
    by_cases hc : c = '\n'
    · rw [if_pos (.inl hc), if_pos hc, hc]
    · rw [if_neg hc]
      by_cases hm : m = 0
      · subst hm
        rw [if_pos (.inr (by omega))]
        simp [fgetsGo]
      · rw [if_neg (by rintro (h | h); exact hc h; omega)]
        by_cases hs : s = []
        · subst hs
          obtain ⟨j, rfl⟩ : ∃ j, m = j + 1 := ⟨m - 1, by omega⟩
          simp [fgetsLines, fgetsGo]
        · rw [show m + 1 - 1 = m by omega, ih m _ (by omega) hs]
          simp

theorem strncmp0_prefix (a b : Str) (n : Nat) (hb : NUL ∉ b) (hn : n = b.length) (h : strncmp0 a b n = true) : b <+: a := by
  unfold strncmp0 at h
  rw [decide_eq_true_eq, cstr_noNul b hb] at h
  have h1 : (b ++ [NUL]).take n = b := by rw [hn]; simp
  rw [h1] at h
  have h2 : b <+: cstr a 0 ++ [NUL] := by rw [← h]; exact List.take_prefix _ _
  have h3 : cstr a 0 <+: a := by
    unfold cstr; rw [List.drop_zero]; exact List.takeWhile_prefix _
  rw [List.prefix_concat_iff] at h2
  rcases h2 with h2 | h2
  · exact absurd (by rw [h2]; simp) hb
  · exact h2.trans h3

theorem skip_ok (rest : Str) (m : Nat) : ∀ (t line : Str), t.length ≤ m → EndsNL t →
    (∀ l ∈ fgetsLines (MAXLEN - 1) [] t, ¬ "<par_end>".toList <+: l) →
    skipPar line (t ++ ("<par_end>\n".toList ++ rest)) = .ok rest := by
  have hend : ∀ line, skipPar line ("<par_end>\n".toList ++ rest) = .ok rest := by
    intro line
    have h1 : "<par_end>\n".toList ++ rest = "<par_end>".toList ++ '\n' :: rest := by
      have : "<par_end>\n".toList = "<par_end>".toList ++ ['\n'] := by decide
      rw [this]; simp
    unfold skipPar
    rw [dif_neg (by rw [h1]; simp), h1, fgets_line _ _ _ (by decide) (by decide)]
    rw [if_pos (strncmp0_self _ _ _ (by decide) (by decide) (by decide))]
  induction m with
  | zero =>
    intro t line hl _ _
    have : t = [] := List.length_eq_zero_iff.1 (by omega)
    rw [this]; exact hend line
  | succ m ih =>
    intro t line hl he hno
    by_cases ht : t = []
    · rw [ht]; exact hend line
    · have hf := fgetsGo_append ("<par_end>\n".toList ++ rest) (MAXLEN - 1) t ht he
      have hne : t ++ ("<par_end>\n".toList ++ rest) ≠ [] := by
        intro e; exact ht (List.append_eq_nil_iff.1 e).1
      have hg : fgets line (t ++ ("<par_end>\n".toList ++ rest)) =
          ((fgetsGo (MAXLEN - 1) t).1, (fgetsGo (MAXLEN - 1) t).2 ++ ("<par_end>\n".toList ++ rest)) := by
        unfold fgets; rw [if_neg hne, hf.1]
      rw [fgetsLines_fgetsGo t _ _ (by decide) ht] at hno
      unfold skipPar
      rw [dif_neg hne, hg]
      have hc : ¬ strncmp0 (fgetsGo (MAXLEN - 1) t).1 "<par_end>".toList 9 = true := by
        intro h
        exact hno _ (List.mem_cons_self) (strncmp0_prefix _ _ _ (by decide) (by decide) h)
      rw [if_neg hc]
      refine ih _ _ ?_ hf.2 (fun l hl => hno l (by simp [hl]))
      have := fgets_lt [] t ht
      unfold fgets at this
      rw [if_neg ht] at this
      omega

theorem endsNL_append {a b : Str} (ha : EndsNL a) (hb : EndsNL b) : EndsNL (a ++ b) := by
  intro x c e
  rcases List.eq_nil_or_concat b with rfl | ⟨b', d, rfl⟩
  · rw [List.append_nil] at e; exact ha x c e
  · rw [List.concat_eq_append, ← List.append_assoc] at e
    have := List.append_inj_right' e rfl
    simp only [List.cons.injEq, and_true] at this
    rw [← this]
    exact hb b' d (by simp)

theorem endsNL_concat (a : Str) : EndsNL (a ++ ['\n']) := by
  intro x c e
  have := List.append_inj_right' e rfl
  simp only [List.cons.injEq, and_true] at this
  exact this.symm

theorem endsNL_dump (db : DB) : EndsNL (db.flatMap dumpBlock) := by
  induction db with
  | nil => intro a c e; exact absurd (congrArg List.length e) (by simp)
  | cons b db ih =>
    rw [List.flatMap_cons]
    refine endsNL_append ?_ ih
    unfold dumpBlock
    exact endsNL_concat _

end Athena.Run.Rst
