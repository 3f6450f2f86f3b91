import Verif.Run.RestartFileGrid

/-!
# Properties C10, C11 (src/restart.c): restart files
-/

namespace Athena.Run.Rst
open Athena.Par

variable {V : Type}

/-! ## C11 -/

/-- **C11**: the values leave the write buffer in order, whatever the capacity of the buffer and
however many values are added per turn, and the index never runs over the end (that would be `ub`). -/
theorem buffered_write {α : Type} (cap grp : Nat) (hc : grp ≤ cap) (gs : List (List α))
    (hg : ∀ g ∈ gs, g.length ≤ grp) : bufWrite cap grp gs = .ok gs.flatten := bufWrite_ok cap grp hc gs hg

/-- The sizes of the code: 256 KB, 8-byte `Real`s, one value per turn. -/
example (vs : List Nat) : bufWrite (262144 / 8) 1 (vs.map ([·])) = .ok (vs.map ([·])).flatten :=
  buffered_write _ _ (by decide) _ (by intro g hg; rw [List.mem_map] at hg; obtain ⟨v, _, rfl⟩ := hg; simp)

/-- A buffer of three values and turns of two. -/
example : bufWrite 3 2 [[1, 2], [3, 4], [5, 6]] = .ok [1, 2, 3, 4, 5, 6] := buffered_write _ _ (by decide) _ (by decide)

/-- The capacity is needed: with turns of five values and a buffer of four the index runs over. -/
example : bufWrite 4 5 [[1, 2, 3, 4, 5]] = .ub := by decide

/-! ## C10 -/

/-- **C10**: `restart_grids`, reading the file `dump_restart` wrote for mesh `M` into a mesh `M0` of
the same shape, restores cycle, time, time step, the super time stepping data, and every Grid
(`GridRestored`: hydrodynamic variables, scalars, interface fields, cell-centred fields, particles;
ghost zones untouched); it stops exactly at the user data.  The parameter part of the same file is read
back by `par_open` (C04, `dump_open_partial`).

Hypotheses: the Grids are as `init_grid` makes them, they have more than one zone in the same
directions, and no line of the parameter text starts with `<par_end>`. -/
theorem restart_roundtrip (cfg : Cfg) (p : Plat V) (fmtE : V → Str) (db : DB) (M M0 : Mesh V) (user : Str)
    (hv : ValuesOK cfg p M) (hb : BufOK p) (hsc : ∀ n < cfg.nscalars, (scalarHdr n).length < 16)
    (hg : ∀ g ∈ M.grids, GridOK g) (hd : cfg.mhd = true → SameDims M.grids)
    (hs : List.Forall₂ SameShape M.grids M0.grids)
    (ht : cfg.particles = true → M.types.n ≤ M0.types.alloc)
    (hdb : NoEnd (stamp fmtE M db)) :
    ∃ file M', dumpRestart cfg p fmtE db M user = .ok file ∧ restartGrids cfg p M0 file = .ok (M', user) ∧
      M'.nstep = M.nstep ∧ M'.time = M.time ∧ M'.dt = M.dt ∧
      (cfg.sts = true → M'.diffDt = M.diffDt ∧ M'.nSTS = M.nSTS ∧ M'.nuSTS = M.nuSTS) ∧
      M'.grids.length = M.grids.length ∧
      (∀ (n : Nat) (g g0 g' : Grid V), M.grids[n]? = some g → M0.grids[n]? = some g0 → M'.grids[n]? = some g' →
        GridRestored cfg p.avg M.time M.dt g g0 g') ∧
      (cfg.particles = true → ∀ g, M.grids.getLast? = some g → TypesRestored cfg M.types M0.types M'.types (live g)) := by
  have hR := hv.real
  obtain ⟨t, T', gs', w, r, hl, hr, hT, _⟩ := grids_ok cfg p hR hb hsc M.types M.time M.dt M.grids M0.grids M0.types ⟨0, 0, 0⟩
    hs hg (fun _ => ⟨.inl rfl, .inl rfl, .inl rfl⟩) hd
    (fun g hgm hp => ⟨hv.types hp, ht hp, hv.npart hp g hgm, hv.ntypes hp, hv.integ hp, hv.part hp g hgm⟩)
  have hw : dumpRestart cfg p fmtE db M user = .ok (parDump 2 (stamp fmtE M db) ++ ("N_STEP\n".toList ++
      (p.I.enc M.nstep ++ (header "TIME".toList ++
      (p.R.enc M.time ++ (header "TIME_STEP".toList ++ (p.R.enc M.dt ++
      ((if cfg.sts then p.R.enc M.diffDt ++ (p.I.enc M.nSTS ++ p.R.enc M.nuSTS) else []) ++
      (t ++ (header "USER_DATA".toList ++ user)))))))))) := by
    unfold dumpRestart
    rw [w, Res.bind_ok]
    rfl
  refine ⟨_, { nstep := M.nstep, time := M.time, dt := M.dt, diffDt := if cfg.sts then M.diffDt else M0.diffDt, nSTS := if cfg.sts then M.nSTS else M0.nSTS, nuSTS := if cfg.sts then M.nuSTS else M0.nuSTS, grids := gs', types := T' }, hw, ?_, rfl, rfl, rfl, ?_, hl, hr, hT⟩
  · unfold restartGrids
    have hp : parDump 2 (stamp fmtE M db) = (stamp fmtE M db).flatMap dumpBlock ++ "<par_end>\n".toList := by
      simp [parDump]
    have hN : ∀ X : Str, "N_STEP\n".toList ++ X = "N_STEP".toList ++ '\n' :: X := by
      intro X
      have : "N_STEP\n".toList = "N_STEP".toList ++ ['\n'] := by decide
      rw [this]; simp
    rw [hp, List.append_assoc, skip_ok _ _ _ _ (Nat.le_refl _) (endsNL_dump _) hdb, Res.bind_ok]
    dsimp only
    rw [hN, fgets_line _ _ _ (by decide) (by decide)]
    dsimp only
    rw [if_pos (strncmp0_self _ _ _ (by decide) (by decide) (by decide)), fread_enc _ _ hv.nstep, Res.bind_ok]
    dsimp only
    rw [rHdr_ok _ _ ⟨by decide, by decide, by decide⟩ (by decide), Res.bind_ok, fread_enc _ _ (hR _), Res.bind_ok]
    dsimp only
    rw [rHdr_ok _ _ ⟨by decide, by decide, by decide⟩ (by decide), Res.bind_ok, fread_enc _ _ (hR _), Res.bind_ok]
    dsimp only
    have hsts : ∀ Y : Str, (bif cfg.sts then rSts p ((if cfg.sts then p.R.enc M.diffDt ++ (p.I.enc M.nSTS ++ p.R.enc M.nuSTS) else []) ++ Y)
        else .ok ((M0.diffDt, M0.nSTS, M0.nuSTS), (if cfg.sts then p.R.enc M.diffDt ++ (p.I.enc M.nSTS ++ p.R.enc M.nuSTS) else []) ++ Y)) =
        .ok ((if cfg.sts then M.diffDt else M0.diffDt, if cfg.sts then M.nSTS else M0.nSTS,
          if cfg.sts then M.nuSTS else M0.nuSTS), Y) := by
      intro Y
      cases hst : cfg.sts with
      | false => rfl
      | true =>
        simp only [if_true, cond_true, rSts, List.append_assoc]
        rw [fread_enc _ _ (hR _), Res.bind_ok]; dsimp only
        rw [fread_enc _ _ (hv.sts hst), Res.bind_ok]; dsimp only
        rw [fread_enc _ _ (hR _), Res.bind_ok]; rfl
    rw [hsts, Res.bind_ok]
    dsimp only
    rw [r, Res.bind_ok]
    dsimp only
    rw [rHdr_ok _ _ ⟨by decide, by decide, by decide⟩ (by decide), Res.bind_ok]
    rfl
  · intro h
    exact ⟨if_pos h, if_pos h, if_pos h⟩

/-- Every clean database (C04) whose lines fit the line buffer and which has no block `par_end` meets the
hypothesis on the parameter part. -/
theorem noEnd_of_clean (db : DB) (h : Clean db) (hpe : ∀ b ∈ db, b.name ≠ "par_end".toList) (hfit : LinesFit db) :
    NoEnd db := by
  have hpars : ∀ (b : Block) (T : Str) (ps : List Par), (∀ p ∈ ps, CleanPar p) →
      (∀ p ∈ ps, (dumpPar b p).length ≤ MAXLEN - 1) → (∀ l ∈ fgetsLines (MAXLEN - 1) [] T, ¬ "<par_end>".toList <+: l) →
      ∀ l ∈ fgetsLines (MAXLEN - 1) [] (ps.flatMap (dumpPar b) ++ T), ¬ "<par_end>".toList <+: l := by
    intro b T ps
    induction ps with
    | nil => intro _ _ hT; simpa using hT
    | cons q ps ih =>
      intro hcl hfit hT l hl
      have hq := hcl q (by simp)
      obtain ⟨c, u, hcu, _, _, _, hn3⟩ := name_cons hq
      obtain ⟨w, hw, hwn⟩ : ∃ w, dumpPar b q = c :: w ++ ['\n'] ∧ '\n' ∉ c :: w := by
        have hrep : ∀ k, '\n' ∉ List.replicate k ' ' := by
          intro k hk; exact absurd (List.eq_of_mem_replicate hk) (by decide)
        have hname := hq.name_chars.2.2.1
        rw [hcu] at hname
        simp only [List.mem_cons, not_or] at hname
        cases hcm : q.comment with
        | none =>
          refine ⟨u ++ (List.replicate (b.maxName - q.name.length) ' ' ++ (" = ".toList ++ (q.value ++
            List.replicate (b.maxValue - q.value.length) ' '))), ?_, ?_⟩
          · unfold dumpPar padRight; rw [hcm]; conv_lhs => rw [hcu]
            simp [hcu]
          · simp only [List.mem_cons, List.mem_append, not_or]
            exact ⟨hname.1, hname.2, hrep _, by decide, hq.value_chars.2.1, hrep _⟩
        | some cm =>
          have := (hq.comment_ok cm hcm).2.2.1
          refine ⟨u ++ (List.replicate (b.maxName - q.name.length) ' ' ++ (" = ".toList ++ (q.value ++
            (List.replicate (b.maxValue - q.value.length) ' ' ++ (" # ".toList ++ cm))))), ?_, ?_⟩
          · unfold dumpPar padRight; rw [hcm]; conv_lhs => rw [hcu]
            simp [hcu]
          · simp only [List.mem_cons, List.mem_append, not_or]
            exact ⟨hname.1, hname.2, hrep _, by decide, hq.value_chars.2.1, hrep _, by decide, this⟩
      have hlen := hfit q (by simp)
      rw [hw] at hlen
      have e : (q :: ps).flatMap (dumpPar b) ++ T = (c :: w) ++ '\n' :: (ps.flatMap (dumpPar b) ++ T) := by
        rw [List.flatMap_cons, hw]; simp
      rw [e, fgetsLines_line _ _ _ _ hwn (by simp at hlen ⊢; omega)] at hl
      rcases List.mem_cons.1 hl with rfl | hl
      · intro hpre
        rw [List.nil_append] at hpre
        obtain ⟨v, hv⟩ := hpre
        have : "<par_end>".toList = '<' :: "par_end>".toList := by decide
        rw [this] at hv
        simp only [List.cons_append, List.cons.injEq] at hv
        exact hn3 hv.1.symm
      · exact ih (fun p hp => hcl p (by simp [hp])) (fun p hp => hfit p (by simp [hp])) hT l hl
  unfold NoEnd
  have hcl := h.blocks
  clear h
  induction db with
  | nil => simp [fgetsLines]
  | cons b db ih =>
    have hb := hcl b (by simp)
    have hbf := hfit b (by simp)
    have h1 : List.flatMap dumpBlock (b :: db) =
        ('<' :: b.name ++ ['>']) ++ '\n' :: (b.pars.flatMap (dumpPar b) ++ ([] ++ '\n' :: db.flatMap dumpBlock)) := by
      simp [dumpBlock]
    have hln : '\n' ∉ '<' :: b.name ++ ['>'] := by
      simp only [List.cons_append, List.mem_cons, List.mem_append, not_or]
      exact ⟨by decide, hb.name_chars.2.1, by decide, by simp⟩
    intro l hl
    rw [h1, fgetsLines_line _ _ _ _ hln (by have := hbf.1; simp; omega)] at hl
    rcases List.mem_cons.1 hl with rfl | hl
    · have := par_end_not_prefix b.name ['\n'] hb.name_chars.1 (hpe b (by simp))
      rw [Bool.eq_false_iff, ne_eq, List.isPrefixOf_iff_prefix] at this
      simpa using this
    · refine hpars b _ b.pars hb.pars hbf.2 ?_ l hl
      intro l hl
      rw [fgetsLines_line [] _ _ _ (by simp) (by decide)] at hl
      rcases List.mem_cons.1 hl with rfl | hl
      · decide
      · exact ih (fun q hq => hpe q (by simp [hq])) (fun q hq => hfit q (by simp [hq])) (fun q hq => hcl q (by simp [hq])) l hl

/-! ### Concrete cases -/

/-- One byte per value; any byte can be a value. -/
def byteCodec : Codec Char := ⟨1, fun c => [c], fun s => s.headD 'x', fun _ => True, by decide, fun _ => rfl, fun _ _ => rfl⟩

theorem charOfNat_toNat (n : Nat) (h : n < 1000) : (Char.ofNat n).toNat = n := by
  have hv : n.isValidChar := .inl (by omega)
  simp only [Char.ofNat, dif_pos hv]
  rfl

def smallInt : Codec Int := ⟨1, fun n => [Char.ofNat n.toNat], fun s => ((s.headD 'x').toNat : Int), fun n => 0 ≤ n ∧ n < 1000,
  by decide, fun _ => rfl, fun n h => by
    simp only [List.headD_cons]
    rw [charOfNat_toNat _ (by omega)]; omega⟩

def demoPlat : Plat Char := ⟨byteCodec, smallInt, smallInt, smallInt, fun a _ => a, 5⟩

def demoCfg : Cfg := ⟨true, false, true, 2, true, true, true⟩

/-- A Grid of 2x2x1 zones with one ghost zone; every value is a newline; two particles, one of them a ghost. -/
def demoGrid : Grid Char :=
  { is := 1, ie := 2, js := 1, je := 2, ks := 0, ke := 0, n1z := 4, n2z := 4, n3z := 1, time := 'a', dt := 'b',
    U := fun _ _ => '\n', B1i := fun _ => '<', B2i := fun _ => '\n', B3i := fun _ => 'c',
    nparticle := 2, arrsize := 2,
    part := fun i => ⟨'1', '2', '3', '4', '5', '6', 0, 7, 8, if i = 0 then 1 else 0⟩ }

/-- The same shape, before the restart. -/
def demoGrid0 : Grid Char := { demoGrid with U := fun _ _ => '0', B1i := fun _ => '0', B2i := fun _ => '0', B3i := fun _ => '0', nparticle := 0, part := fun _ => ⟨'0', '0', '0', '0', '0', '0', 0, 0, 0, 0⟩ }

def demoTypes : Types Char := ⟨1, 3, fun _ => ⟨'m', 'r', 'h', 't', 'g', 2, 1⟩, 'a'⟩

def demoMesh : Mesh Char := ⟨10, 't', 'd', 's', 3, 'n', [demoGrid, demoGrid], demoTypes⟩
def demoMesh0 : Mesh Char := ⟨0, '0', '0', '0', 0, '0', [demoGrid0, demoGrid0], demoTypes⟩

example : ∃ file M', dumpRestart demoCfg demoPlat (fun _ => ['0']) [] demoMesh "user".toList = .ok file ∧
    restartGrids demoCfg demoPlat demoMesh0 file = .ok (M', "user".toList) ∧
    M'.nstep = 10 ∧ (∀ g' ∈ M'.grids, g'.B1i (0, 1, 3) = '<' ∧ g'.U (.s 1) (0, 2, 2) = '\n') := by
  have hlive : ∀ g ∈ demoMesh.grids, ∀ q ∈ live g, q = ⟨'1', '2', '3', '4', '5', '6', 0, 7, 8, 1⟩ := by
    intro g hg q hq
    simp only [demoMesh, List.mem_cons, List.not_mem_nil, or_false, or_self] at hg
    subst hg
    have : live demoGrid = [⟨'1', '2', '3', '4', '5', '6', 0, 7, 8, 1⟩] := rfl
    rw [this] at hq; simpa using hq
  have hgm : ∀ g ∈ demoMesh.grids, g = demoGrid := by
    intro g hg; simpa [demoMesh] using hg
  obtain ⟨file, M', e1, e2, e3, _, _, _, e4, e5, _⟩ := restart_roundtrip demoCfg demoPlat (fun _ => ['0']) [] demoMesh demoMesh0 "user".toList
    ⟨fun _ => trivial, (by decide : (0 : Int) ≤ 10 ∧ (10 : Int) < 1000), fun _ => (by decide : (0 : Int) ≤ 3 ∧ (3 : Int) < 1000),
      fun _ => (by decide : (0 : Int) ≤ 1 ∧ (1 : Int) < 1000),
      fun _ i hi => (by decide : (0 : Int) ≤ 2 ∧ (2 : Int) < 1000),
      fun _ g hg => by rw [hgm g hg]; exact (by decide : (0 : Int) ≤ 1 ∧ (1 : Int) < 1000),
      fun _ g hg q hq => by rw [hlive g hg q hq]; exact ⟨(by decide : (0 : Int) ≤ 0 ∧ (0 : Int) < 1000), (by decide : (0 : Int) ≤ 7 ∧ (7 : Int) < 1000),
        (by decide : (0 : Int) ≤ 8 ∧ (8 : Int) < 1000), by decide, by decide⟩,
      fun _ => by decide⟩
    ⟨by decide, by decide, by decide, by decide⟩
    (by intro n hn
        have hn : n < 2 := hn
        have : n = 0 ∨ n = 1 := by omega
        rcases this with rfl | rfl <;> decide)
    (fun g hg => by rw [hgm g hg]; exact ⟨by decide, by decide, by decide, by decide⟩)
    (fun _ g hg h hh => by rw [hgm g hg, hgm h hh]; exact ⟨Iff.rfl, Iff.rfl, Iff.rfl⟩)
    (.cons ⟨rfl, rfl, rfl, rfl, rfl, rfl, rfl, rfl, rfl⟩ (.cons ⟨rfl, rfl, rfl, rfl, rfl, rfl, rfl, rfl, rfl⟩ .nil))
    (fun _ => by decide) (by unfold NoEnd; decide)
  refine ⟨file, M', e1, e2, e3, ?_⟩
  intro g' hg'
  obtain ⟨n, hn⟩ := List.mem_iff_getElem?.1 hg'
  have hlt : n < 2 := by
    have := (List.getElem?_eq_some_iff.1 hn).1
    rw [e4] at this; exact this
  have h1 : demoMesh.grids[n]? = some demoGrid := by
    have : n = 0 ∨ n = 1 := by omega
    rcases this with rfl | rfl <;> rfl
  have h2 : demoMesh0.grids[n]? = some demoGrid0 := by
    have : n = 0 ∨ n = 1 := by omega
    rcases this with rfl | rfl <;> rfl
  have hr := e5 n _ _ _ h1 h2 hn
  exact ⟨hr.field1 rfl 0 1 3 (by decide) (by decide) (by decide) (by decide) (by decide) (by decide),
    hr.scalars 1 (by decide) _ (by unfold Active; decide)⟩

/-- The condition on the parameters is needed: with a parameter block called `par_end` the reader takes the start
of that block for the end of the parameters and stops with "Expected N_STEP". -/
theorem restart_par_end_false : ∃ (db : DB) (M : Mesh Char) (file : Str),
    dumpRestart ⟨false, false, false, 0, false, false, false⟩ demoPlat (fun _ => ['0']) db M [] = .ok file ∧
    restartGrids ⟨false, false, false, 0, false, false, false⟩ demoPlat M file = .fatal := by
  refine ⟨[⟨"par_end".toList, [], 0, 0⟩], ⟨1, 't', 'd', 's', 3, 'n', [], demoTypes⟩, _, rfl, ?_⟩
  unfold restartGrids
  have h := skip_ok ("\n<time>\ntime  = 0 # Current Simulation Time\nnstep = 1 # Current Simulation Time Step\n\n<par_end>\nN_STEP\n".toList ++
    ([Char.ofNat 1] ++ ("\nTIME\nt\nTIME_STEP\nd\nUSER_DATA\n".toList))) 0 [] [] (by decide)
    (by intro a c e; exact absurd (congrArg List.length e) (by simp)) (by decide)
  have e : "<par_end>\n".toList ++ ("\n<time>\ntime  = 0 # Current Simulation Time\nnstep = 1 # Current Simulation Time Step\n\n<par_end>\nN_STEP\n".toList ++
    ([Char.ofNat 1] ++ ("\nTIME\nt\nTIME_STEP\nd\nUSER_DATA\n".toList))) =
    parDump 2 (stamp (fun _ => ['0']) (⟨1, 't', 'd', 's', 3, 'n', [], demoTypes⟩ : Mesh Char) [⟨"par_end".toList, [], 0, 0⟩]) ++
      ("N_STEP\n".toList ++ (demoPlat.I.enc 1 ++ (header "TIME".toList ++
    (demoPlat.R.enc 't' ++ (header "TIME_STEP".toList ++ (demoPlat.R.enc 'd' ++
    ([] ++
    ([] ++ (header "USER_DATA".toList ++ []))))))))) := by decide +kernel
  rw [List.nil_append, e] at h
  have h' : skipPar [] (parDump 2 (stamp (fun _ => ['0']) (⟨1, 't', 'd', 's', 3, 'n', [], demoTypes⟩ : Mesh Char) [⟨"par_end".toList, [], 0, 0⟩]) ++
      ("N_STEP\n".toList ++ (demoPlat.I.enc 1 ++ (header "TIME".toList ++
    (demoPlat.R.enc 't' ++ (header "TIME_STEP".toList ++ (demoPlat.R.enc 'd' ++
    ((if (false : Bool) then demoPlat.R.enc 's' ++ (demoPlat.I.enc 3 ++ demoPlat.R.enc 'n') else []) ++
    ([] ++ (header "USER_DATA".toList ++ [])))))))))) = _ := h
  dsimp only
  rw [h', Res.bind_ok]
  rfl

/-- The condition on the dimensions is needed: `ib` is not reset between Grids, so after a Grid with two
zones in x1 the face `i = ie+1` of a Grid with one zone is read outside the array. -/
theorem restart_dims_false : ∃ (M : Mesh Char), (∀ g ∈ M.grids, GridOK g) ∧
    dumpRestart ⟨false, false, true, 0, false, false, false⟩ demoPlat (fun _ => ['0']) [] M [] = .ub := by
  refine ⟨⟨1, 't', 'd', 's', 3, 'n', [{ demoGrid with js := 0, je := 0, n2z := 1 },
    { demoGrid with is := 0, ie := 0, js := 0, je := 0, n1z := 1, n2z := 1 }], demoTypes⟩, ?_, rfl⟩
  intro g hg
  simp only [List.mem_cons, List.not_mem_nil, or_false] at hg
  rcases hg with rfl | rfl <;> exact ⟨by decide, by decide, by decide, by decide⟩

end Athena.Run.Rst
