import Verif.Base
import Mathlib.Data.Real.Basic
import Mathlib.Logic.Function.Basic
import Mathlib.Tactic.Linarith
import Mathlib.Tactic.NormNum
import Mathlib.Tactic.Ring
import Mathlib.Tactic.SplitIfs

/-!
# What a problem generator sets up, and what is left of it after a restart

`main` calls `problem` for every Domain of a new run, and `restart_grids`, which calls `problem_read_restart` once, for a restarted one (main.c:361-378,
restart.c:469).  Boundary functions, potentials, physical constants and history columns are not in the restart file; the generator has to set them in both
functions.  Each generator is modelled by the list of what it sets, in the order of the code, with the conditions under which it does.

Simplifications: a numeric parameter is a function of its name (the defaults given in the two functions of a generator are the same); of the static
variables only those used after the set-up by a generator for which the property is proved are modelled (`Lx`, … of hgb.c are only used by the column
`<dBy>`, which a restarted run does not have; those of hb3.c and `x1_mid` of jet.c are not used); what is stored in the Grid is left out; a Domain is known by an index and by the sides at which it touches the boundary of the root
Domain.
-/

namespace Athena.Setup

/-- Compile options and input. -/
structure Conf where
  mhd : Bool
  adiabatic : Bool
  resist : Bool
  visc : Bool
  cond : Bool
  selfg : Bool
  /-- `Nx[2] > 1` -/
  three : Bool
  ipert : ℤ
  par : String → ℝ
  /-- `RootMinX`, `RootMaxX` -/
  rmin : Fin 3 → ℝ
  rmax : Fin 3 → ℝ

/-- The physical constants of globals.h:28-60. -/
inductive Num | fourPiG | meanRho | etaOhm | qHall | qAD | dInd | nuIso | nuAniso | kappaIso | kappaAniso | omega | qshear
  deriving DecidableEq

/-- The potentials. -/
inductive Pot | static | shearing
  deriving DecidableEq

/-- A boundary function. -/
inductive Fn | user (name : String) | reflect | outflow | periodic | conduct | later
  deriving DecidableEq

/-- A side: direction, and right or left. -/
abbrev Side := Fin 3 × Bool

/-- `left_x1`, … -/
abbrev left (d : Fin 3) : Side := (d, false)
/-- `right_x1`, … -/
abbrev right (d : Fin 3) : Side := (d, true)

/-- A Domain with a Grid on this process; `at s`: it touches the boundary of the root Domain (`Disp[d] == 0`, `MaxX[d] == RootMaxX[d]`). -/
structure Dom where
  id : ℕ
  «at» : Side → Bool

/-- What is set up. -/
structure State where
  num : Num → ℝ
  pot : Pot → Option String
  bc : ℕ → Side → Option Fn
  hist : List String
  /-- Static variables of the generator. -/
  var : String → ℝ

/-- Before: globals.h:25-60, main.c:363-366; no boundary function is set. -/
def State.init : State := ⟨fun k => match k with | .fourPiG => -1 | .meanRho => -1 | _ => 0, fun _ => none, fun _ _ => none, [],
  fun _ => 0⟩

/-- What one of the two functions of a generator sets: constants, potentials, boundary functions of a Domain, history columns, static
variables. -/
structure Part where
  num : Conf → List (Num × ℝ) := fun _ => []
  pot : Conf → List (Pot × String) := fun _ => []
  bc : Conf → Dom → List (Side × Fn) := fun _ _ => []
  hist : Conf → List String := fun _ => []
  var : Conf → List (String × ℝ) := fun _ => []

/-- A generator: `problem` and `problem_read_restart`. -/
structure Gen where
  prob : Part
  rest : Part := {}

variable {κ ν : Type} [DecidableEq κ]

/-- Assignments in order. -/
def assign (s : κ → ν) : List (κ × ν) → κ → ν
  | [] => s
  | (k, v) :: l => assign (Function.update s k v) l

/-- Constants, potentials and static variables. -/
def Part.globals (p : Part) (c : Conf) (st : State) : State :=
  { st with num := assign st.num (p.num c), pot := assign st.pot ((p.pot c).map fun x => (x.1, some x.2)), var := assign st.var (p.var c) }

/-- `bvals_mhd_fun` for one Domain, bvals_mhd.c:915-941. -/
def Part.sides (p : Part) (c : Conf) (st : State) (d : Dom) : State :=
  { st with bc := Function.update st.bc d.id (assign (st.bc d.id) ((p.bc c d).map fun x => (x.1, some x.2))) }

/-- main.c:371-377: `problem` for every Domain; history columns are enrolled on the first call (`frst`). -/
def newRun (g : Gen) (c : Conf) (ds : List Dom) : State :=
  (ds.foldl (fun (st, frst) d =>
    let st := g.prob.sides c (g.prob.globals c st) d
    (if frst then { st with hist := st.hist ++ g.prob.hist c } else st, false)) (State.init, true)).1

/-- restart.c:469: `problem_read_restart`, once, with a loop over the Domains. -/
def restarted (g : Gen) (c : Conf) (ds : List Dom) : State :=
  let st := g.rest.globals c State.init
  let st := { st with hist := st.hist ++ g.rest.hist c }
  ds.foldl (g.rest.sides c) st

/-- `bvals_mhd_init`, bvals_mhd.c:541-890, for one side of a Domain with more than one zone in this direction. -/
def boundary (st : State) (flag : ℤ) (d : Dom) (s : Side) : Res Fn :=
  match st.bc d.id s with
  | some f => .ok f
  | none =>
    if d.at s = false then .ok .later
    else if d.at (s.1, !s.2) = false ∧ flag = 4 then .fatal
    else if flag = 1 then .ok .reflect
    else if flag = 2 then .ok .outflow
    else if flag = 4 then .ok .periodic
    else if flag = 5 then .ok .conduct
    else .fatal

/-- The tests of `selfg_init`, gravity/selfg.c:539-542. -/
noncomputable def gravStart (st : State) : Res Unit :=
  if st.num .meanRho < 0 then .fatal else if st.num .fourPiG < 0 then .fatal else .ok ()

/-! ## The generators -/

/-- The constants of resistivity. -/
def ohm (c : Conf) (l : List (Num × ℝ)) : List (Num × ℝ) := if c.resist then l else []
/-- The constants of viscosity. -/
def nu (c : Conf) : List (Num × ℝ) := if c.visc then [(.nuIso, c.par "nu_iso"), (.nuAniso, c.par "nu_aniso")] else []

/-- The state in the jet, jet.c:60-71, 149-160; `Ujet` is computed from it. -/
def jetVars (c : Conf) : List (String × ℝ) :=
  [("Wjet.d", c.par "djet"), ("Wjet.P", c.par "pjet"), ("Wjet.Vx", c.par "vxjet"), ("Wjet.Vy", c.par "vyjet"), ("Wjet.Vz", c.par "vzjet")] ++
    (if c.mhd then [("Bxjet", c.par "bxjet"), ("Wjet.By", c.par "byjet"), ("Wjet.Bz", c.par "bzjet")] else []) ++ [("rjet", c.par "rjet")]

/-- jet.c:60-87, 124; :145-171. -/
noncomputable def jet : Gen where
  prob :=
    { bc := fun _ d => if d.at (left 0) then [(left 0, .user "jet_iib")] else []
      var := fun c => jetVars c ++ [("x2_mid", 1 / 2 * (c.rmax 1 + c.rmin 1)), ("x3_mid", 1 / 2 * (c.rmax 2 + c.rmin 2))] }
  rest :=
    { bc := fun _ d => if d.at (left 0) then [(left 0, .user "jet_iib")] else []
      var := jetVars }

/-- dmr.c:87-90; :109-112. -/
def dmr : Gen where
  prob := { bc := fun _ d => (if d.at (left 0) then [(left 0, .user "dmrbv_iib")] else []) ++
    (if d.at (left 1) then [(left 1, .user "dmrbv_ijb")] else []) ++ (if d.at (right 1) then [(right 1, .user "dmrbv_ojb")] else []) }

/-- noh.c:80-82; :102-105. -/
def noh : Gen where
  prob := { bc := fun c _ => [(right 0, .user "noh3d_oib"), (right 1, .user "noh3d_ojb")] ++
    if c.three then [(right 2, .user "noh3d_okb")] else [] }

/-- shk_cloud.c:222; :244-247. -/
def shkCloud : Gen where
  prob := { bc := fun _ d => if d.at (left 0) then [(left 0, .user "shk_cloud_iib")] else [] }

/-- shkset2d.c:350-353; :538-541. -/
def shkset2d : Gen where
  prob := { bc := fun _ _ => [(left 0, .user "shkset2d_iib"), (left 1, .user "shkset2d_ijb"), (right 0, .user "shkset2d_oib"),
    (right 1, .user "shkset2d_ojb")] }

/-- cylwind.c:136-138; :156-159 (likewise cylbphi.c, cylwindrot.c, cylwindrotb.c). -/
def cylwind : Gen where
  prob :=
    { pot := fun _ => [(.static, "grav_pot")]
      bc := fun _ _ => [(left 0, .user "do_nothing_bc"), (right 0, .user "do_nothing_bc")] }

/-- pgflow.c:191; :212-215. -/
def pgflow : Gen where
  prob := { pot := fun _ => [(.static, "grav_pot")] }

/-- rt.c:158-161, 268-272; :300-327. -/
def rt : Gen where
  prob :=
    { pot := fun c => if c.three then [(.static, "grav_pot3")] else [(.static, "grav_pot2")]
      bc := fun c d =>
        if c.three then (if d.at (left 2) then [(left 2, .user "reflect_ix3")] else []) ++ (if d.at (right 2) then [(right 2, .user "reflect_ox3")] else [])
        else (if d.at (left 1) then [(left 1, .user "reflect_ix2")] else []) ++ (if d.at (right 1) then [(right 1, .user "reflect_ox2")] else []) }
  rest :=
    { pot := fun c => if c.three then [(.static, "grav_pot3")] else [(.static, "grav_pot2")]
      bc := fun c _ =>
        if c.three then [(left 2, .user "reflect_ix3"), (right 2, .user "reflect_ox3")] else [(left 1, .user "reflect_ix2"), (right 1, .user "reflect_ox2")] }

/-- jeans.c:85-89; :200-203.  `four_pi_G` is an expression in the input. -/
def jeans : Gen where
  prob := { num := fun c => if c.selfg then [(.fourPiG, c.par "four_pi_G"), (.meanRho, c.par "d0")] else [] }

/-- linear_wave.c:503-518; :540-543. -/
def linearWave : Gen where
  prob :=
    { num := fun c => (if c.selfg then [(.fourPiG, c.par "four_pi_G"), (.meanRho, c.par "d0")] else []) ++
        ohm c [(.etaOhm, c.par "eta_O"), (.qAD, c.par "Q_AD"), (.dInd, c.par "d_ind")] ++ nu c }

/-- collapse3d.c:62-64; :236-239. -/
def collapse3d : Gen where
  prob := { num := fun c => if c.selfg then [(.fourPiG, c.par "four_pi_G")] else [] }

/-- blast.c:92-97; :118-121. -/
def blast : Gen where
  prob := { num := fun c => ohm c [(.etaOhm, 0), (.qAD, c.par "Q_AD"), (.qHall, 0), (.dInd, 0)] }

/-- field_loop.c:86-94; :343-346. -/
def fieldLoop : Gen where
  prob :=
    { num := fun c => ohm c [(.etaOhm, c.par "eta_O"), (.qHall, c.par "Q_H"), (.qAD, c.par "Q_AD")] ++
        if c.cond then [(.kappaIso, c.par "kappa_iso"), (.kappaAniso, c.par "kappa_aniso")] else [] }

/-- kh.c:176-192; :215-232. -/
def kh : Gen where
  prob :=
    { num := fun c => ohm c [(.etaOhm, c.par "eta_O"), (.qHall, c.par "Q_H"), (.qAD, c.par "Q_AD")] ++ nu c
      hist := fun c => if c.mhd then ["<Bx>", "<By>", "<Bz>"] else [] }
  rest := { num := fun c => ohm c [(.etaOhm, c.par "eta_O"), (.qHall, c.par "Q_H"), (.qAD, c.par "Q_AD")] ++ nu c }

/-- The constants of strat.c:356-365, hgb.c:510-519, hb3.c:280-289. -/
def disk (c : Conf) : List (Num × ℝ) :=
  ohm c [(.etaOhm, c.par "eta_O"), (.qHall, c.par "Q_H"), (.qAD, c.par "Q_A"), (.dInd, c.par "d_ind")] ++ nu c

/-- strat.c:381-391; :443-457. -/
def stratHist (c : Conf) : List String :=
  ["<rho Vx dVy>", "<rho dVy^2>"] ++ (if c.adiabatic then ["<E + rho Phi>"] else []) ++ if c.mhd then ["<Bx>", "<By>", "<Bz>", "<-Bx By>"] else []

/-- strat.c:115-116, 130-131, 356-391; :418-474 (`zbc_out` is 1, :80). -/
def strat : Gen where
  prob :=
    { num := fun c => [(.omega, c.par "omega"), (.qshear, c.par "qshear")] ++ disk c
      pot := fun _ => [(.static, "VertGrav"), (.shearing, "UnstratifiedDisk")]
      bc := fun _ _ => [(left 2, .user "strat_ix3"), (right 2, .user "strat_ox3")]
      hist := stratHist
      var := fun c => [("ztop", c.rmax 2), ("zbtm", c.rmin 2)] }
  rest :=
    { num := fun c => [(.omega, c.par "omega"), (.qshear, c.par "qshear")] ++ disk c
      pot := fun _ => [(.static, "VertGrav"), (.shearing, "UnstratifiedDisk")]
      bc := fun _ _ => [(left 2, .user "strat_ix3"), (right 2, .user "strat_ox3")]
      hist := stratHist
      var := fun c => [("ztop", c.rmax 2), ("zbtm", c.rmin 2)] }

/-- hgb.c:110-111, 488-519; :544-583. -/
def hgb : Gen where
  prob :=
    { num := fun c => [(.omega, c.par "Omega"), (.qshear, c.par "qshear")] ++ disk c
      pot := fun _ => [(.shearing, "UnstratifiedDisk")]
      hist := fun c => stratHist c ++ if c.mhd then (if c.ipert = 5 then ["<dEw2>"] else []) ++ (if c.ipert = 6 then ["<dBy>"] else []) else [] }
  rest :=
    { num := fun c => [(.omega, c.par "Omega"), (.qshear, c.par "qshear")] ++ disk c
      pot := fun _ => [(.shearing, "UnstratifiedDisk")]
      hist := stratHist }

/-- hb3.c:133-134, 280-306; :334-360. -/
def hb3 : Gen where
  prob :=
    { num := fun c => [(.omega, c.par "omega"), (.qshear, c.par "qshear")] ++ disk c
      pot := fun _ => [(.shearing, "UnstratifiedDisk")]
      hist := fun c => ["<0.5rho(Vx^2+4dVy^2)>", "<rho Vx dVy>", "<E + rho Phi>"] ++ if c.mhd then ["<Bx>", "<By>", "<Bz>", "<-Bx By>"] else [] }
  rest :=
    { num := fun c => [(.omega, c.par "omega"), (.qshear, c.par "qshear")] ++ disk c
      pot := fun _ => [(.shearing, "UnstratifiedDisk")] }

/-! ## Specification -/

/-- The Domains of a process. -/
def Mesh (ds : List Dom) : Prop := ds ≠ [] ∧ (ds.map Dom.id).Nodup

/-- The restarted run solves the same equations with the same boundary conditions as the run it continues. -/
def SamePhysics (g : Gen) (c : Conf) (ds : List Dom) : Prop :=
  (∀ k, (restarted g c ds).num k = (newRun g c ds).num k) ∧ (∀ k, (restarted g c ds).pot k = (newRun g c ds).pot k) ∧
    gravStart (restarted g c ds) = gravStart (newRun g c ds) ∧ (∀ v, (restarted g c ds).var v = (newRun g c ds).var v) ∧
    ∀ d ∈ ds, ∀ s flag, boundary (restarted g c ds) flag d s = boundary (newRun g c ds) flag d s

/-- And its history file has the same columns. -/
def SameHistory (g : Gen) (c : Conf) (ds : List Dom) : Prop := (restarted g c ds).hist = (newRun g c ds).hist

/-! ## Lemmas -/

theorem assign_append (s : κ → ν) (l m : List (κ × ν)) : assign s (l ++ m) = assign (assign s l) m := by
  induction l generalizing s with
  | nil => rfl
  | cons x l ih => exact ih _

/-- A value that is set does not depend on what was there. -/
theorem assign_indep (s t : κ → ν) (l : List (κ × ν)) (k : κ) : assign s l k = assign t l k ∨ (assign s l k = s k ∧ assign t l k = t k) := by
  induction l generalizing s t with
  | nil => exact .inr ⟨rfl, rfl⟩
  | cons x l ih =>
    rcases ih (Function.update s x.1 x.2) (Function.update t x.1 x.2) with h | ⟨h1, h2⟩
    · exact .inl h
    · by_cases e : k = x.1
      · subst e
        left
        show assign _ l _ = assign _ l _
        rw [h1, h2, Function.update_self, Function.update_self]
      · right
        show assign _ l _ = _ ∧ assign _ l _ = _
        rw [h1, h2, Function.update_of_ne e, Function.update_of_ne e]
        exact ⟨rfl, rfl⟩

theorem assign_twice (s : κ → ν) (l : List (κ × ν)) : assign (assign s l) l = assign s l := by
  funext k
  rcases assign_indep (assign s l) s l k with h | ⟨h, _⟩
  · exact h
  · exact h

/-- Boundary functions after a loop over Domains. -/
theorem sides_fold (f : ℕ → Side → Option Fn) (l : Dom → List (Side × Option Fn)) (ds : List Dom) (hn : (ds.map Dom.id).Nodup) :
    (∀ d ∈ ds, ds.foldl (fun b d => Function.update b d.id (assign (b d.id) (l d))) f d.id = assign (f d.id) (l d)) ∧
      ∀ n, (∀ d ∈ ds, d.id ≠ n) → ds.foldl (fun b d => Function.update b d.id (assign (b d.id) (l d))) f n = f n := by
  induction ds generalizing f with
  | nil => simp
  | cons e ds ih =>
    rw [List.map_cons, List.nodup_cons] at hn
    obtain ⟨h1, h2⟩ := ih (Function.update f e.id (assign (f e.id) (l e))) hn.2
    have ne : ∀ d ∈ ds, d.id ≠ e.id := fun d hd he => hn.1 (List.mem_map.2 ⟨d, hd, he⟩)
    refine ⟨fun d hd => ?_, fun n hnn => ?_⟩
    · rw [List.foldl_cons]
      rcases List.mem_cons.1 hd with rfl | hd
      · rw [h2 _ ne, Function.update_self]
      · rw [h1 d hd, Function.update_of_ne (ne d hd)]
    · rw [List.foldl_cons, h2 n fun d hd => hnn d (List.mem_cons_of_mem _ hd), Function.update_of_ne (hnn e List.mem_cons_self).symm]

/-- The boundary functions as lists of pointers. -/
def ptrs (p : Part) (c : Conf) (d : Dom) : List (Side × Option Fn) := (p.bc c d).map fun x => (x.1, some x.2)

theorem restarted_eq (g : Gen) (c : Conf) (ds : List Dom) : restarted g c ds =
    ⟨assign State.init.num (g.rest.num c), assign State.init.pot ((g.rest.pot c).map fun x => (x.1, some x.2)),
      ds.foldl (fun b d => Function.update b d.id (assign (b d.id) (ptrs g.rest c d))) State.init.bc, g.rest.hist c, assign State.init.var (g.rest.var c)⟩ := by
  unfold restarted
  dsimp only
  have : ∀ st : State, ds.foldl (g.rest.sides c) st =
      { st with bc := ds.foldl (fun b d => Function.update b d.id (assign (b d.id) (ptrs g.rest c d))) st.bc } := by
    induction ds with
    | nil => intro st; rfl
    | cons d ds ih => intro st; rw [List.foldl_cons, ih]; rfl
  rw [this]
  rfl

theorem new_eq (g : Gen) (c : Conf) {ds : List Dom} (h : ds ≠ []) : newRun g c ds =
    ⟨assign State.init.num (g.prob.num c), assign State.init.pot ((g.prob.pot c).map fun x => (x.1, some x.2)),
      ds.foldl (fun b d => Function.update b d.id (assign (b d.id) (ptrs g.prob c d))) State.init.bc, g.prob.hist c, assign State.init.var (g.prob.var c)⟩ := by
  unfold newRun
  have : ∀ (ds : List Dom) (b : ℕ → Side → Option Fn), ds.foldl (fun (st, frst) d =>
      let st := g.prob.sides c (g.prob.globals c st) d
      (if frst then { st with hist := st.hist ++ g.prob.hist c } else st, false))
        ((⟨assign State.init.num (g.prob.num c), assign State.init.pot ((g.prob.pot c).map fun x => (x.1, some x.2)), b, g.prob.hist c,
          assign State.init.var (g.prob.var c)⟩ : State), false)
      = (⟨assign State.init.num (g.prob.num c), assign State.init.pot ((g.prob.pot c).map fun x => (x.1, some x.2)),
          ds.foldl (fun b d => Function.update b d.id (assign (b d.id) (ptrs g.prob c d))) b, g.prob.hist c, assign State.init.var (g.prob.var c)⟩, false) := by
    intro ds
    induction ds with
    | nil => intro b; rfl
    | cons d ds ih =>
      intro b
      rw [List.foldl_cons, List.foldl_cons, ← ih]
      congr 1
      unfold Part.sides Part.globals
      dsimp only
      rw [assign_twice, assign_twice, assign_twice]
      rfl
  obtain ⟨d, l, rfl⟩ := List.exists_cons_of_ne_nil h
  rw [List.foldl_cons, List.foldl_cons]
  have := this l (Function.update State.init.bc d.id (assign (State.init.bc d.id) (ptrs g.prob c d)))
  exact congrArg Prod.fst this

theorem new_bc (g : Gen) (c : Conf) {ds : List Dom} (h : Mesh ds) {d : Dom} (hd : d ∈ ds) : (newRun g c ds).bc d.id = assign (fun _ => none) (ptrs g.prob c d) := by
  rw [new_eq g c h.1]; exact (sides_fold _ _ ds h.2).1 d hd

theorem restarted_bc (g : Gen) (c : Conf) {ds : List Dom} (h : Mesh ds) {d : Dom} (hd : d ∈ ds) :
    (restarted g c ds).bc d.id = assign (fun _ => none) (ptrs g.rest c d) := by
  rw [restarted_eq g c]; exact (sides_fold _ _ ds h.2).1 d hd

theorem assign_other (s : κ → ν) (l : List (κ × ν)) (k : κ) (h : ∀ x ∈ l, x.1 ≠ k) : assign s l k = s k := by
  induction l generalizing s with
  | nil => rfl
  | cons x l ih =>
    show assign _ l k = _
    rw [ih _ fun y hy => h y (List.mem_cons_of_mem _ hy), Function.update_of_ne (h x List.mem_cons_self).symm]

theorem jet_mid (c : Conf) (v : String) (hv : v ∉ ["Wjet.d", "Wjet.P", "Wjet.Vx", "Wjet.Vy", "Wjet.Vz", "Bxjet", "Wjet.By", "Wjet.Bz", "rjet"]) :
    assign State.init.var (jetVars c) v = 0 := by
  rw [assign_other]
  · rfl
  · intro x hx e
    apply hv
    subst e
    unfold jetVars at hx
    simp only [List.mem_append, List.mem_cons, List.not_mem_nil, or_false, List.mem_ite_nil_right] at hx
    rcases hx with ((rfl | rfl | rfl | rfl | rfl) | ⟨_, rfl | rfl | rfl⟩) | rfl <;> simp

/-! ## Properties -/

/-- **C141.** What has to be checked of a generator: the two functions leave the same constants, potentials and boundary functions of each Domain.  How many
Domains there are and in which order they are set up does not matter. -/
theorem same_physics (g : Gen) (c : Conf) {ds : List Dom} (h : Mesh ds) (hn : assign State.init.num (g.rest.num c) = assign State.init.num (g.prob.num c))
    (hp : g.rest.pot c = g.prob.pot c) (hv : assign State.init.var (g.rest.var c) = assign State.init.var (g.prob.var c))
    (hb : ∀ d ∈ ds, ∀ s, assign (fun _ => none) (ptrs g.rest c d) s = assign (fun _ => none) (ptrs g.prob c d) s) : SamePhysics g c ds := by
  have e1 : (restarted g c ds).num = (newRun g c ds).num := by rw [restarted_eq, new_eq g c h.1, hn]
  have e2 : (restarted g c ds).pot = (newRun g c ds).pot := by rw [restarted_eq, new_eq g c h.1, hp]
  refine ⟨fun k => by rw [e1], fun k => by rw [e2], ?_, fun v => by rw [restarted_eq, new_eq g c h.1]; exact congrFun hv v, fun d hd s flag => ?_⟩
  · unfold gravStart; rw [e1]
  · unfold boundary
    rw [restarted_bc g c h hd, new_bc g c h hd, hb d hd]

/-- `jet` keeps its set-up if the axis of the root Domain is at `x2 = x3 = 0`. -/
theorem jet_restart_partial (c : Conf) {ds : List Dom} (h : Mesh ds) (h2 : c.rmax 1 + c.rmin 1 = 0) (h3 : c.rmax 2 + c.rmin 2 = 0) :
    SamePhysics jet c ds ∧ SameHistory jet c ds := by
  refine ⟨same_physics _ _ h rfl rfl ?_ fun _ _ _ => rfl, by unfold SameHistory; rw [restarted_eq, new_eq _ _ h.1]; rfl⟩
  show assign _ (jetVars c) = assign _ (jetVars c ++ _)
  rw [assign_append, h2, h3, mul_zero]
  funext v
  by_cases e2 : v = "x2_mid"
  · subst e2
    rw [jet_mid c _ (by decide)]; simp [assign, Function.update]
  · by_cases e3 : v = "x3_mid"
    · subst e3
      rw [jet_mid c _ (by decide)]; simp [assign, Function.update]
    · refine (assign_other _ _ v ?_).symm
      simp only [List.mem_cons, List.not_mem_nil, or_false]
      rintro x (rfl | rfl)
      · exact Ne.symm e2
      · exact Ne.symm e3

/-- **C141** fails of `jet` otherwise: the restarted run has the axis of the jet at `x2 = x3 = 0`, wherever it was. -/
theorem jet_restart_false (c : Conf) {ds : List Dom} (h : Mesh ds) :
    (newRun jet c ds).var "x2_mid" = (c.rmax 1 + c.rmin 1) / 2 ∧ (newRun jet c ds).var "x3_mid" = (c.rmax 2 + c.rmin 2) / 2 ∧
      (restarted jet c ds).var "x2_mid" = 0 ∧ (restarted jet c ds).var "x3_mid" = 0 := by
  rw [restarted_eq, new_eq _ _ h.1]
  refine ⟨?_, ?_, ?_, ?_⟩
  · show assign _ (jetVars c ++ _) _ = _
    rw [assign_append]; simp [assign, Function.update]; ring
  · show assign _ (jetVars c ++ _) _ = _
    rw [assign_append]; simp [assign, Function.update]; ring
  · exact jet_mid c "x2_mid" (by decide)
  · exact jet_mid c "x3_mid" (by decide)

/-- **C141.** `strat` keeps its set-up. -/
theorem strat_restart (c : Conf) {ds : List Dom} (h : Mesh ds) : SamePhysics strat c ds ∧ SameHistory strat c ds :=
  ⟨same_physics _ _ h rfl rfl rfl fun _ _ _ => rfl, by unfold SameHistory; rw [restarted_eq, new_eq _ _ h.1]; rfl⟩

theorem hgb_restart_partial (c : Conf) {ds : List Dom} (h : Mesh ds) :
    SamePhysics hgb c ds ∧ (c.mhd = false ∨ c.ipert ≠ 5 ∧ c.ipert ≠ 6 → SameHistory hgb c ds) := by
  refine ⟨same_physics _ _ h rfl rfl rfl fun _ _ _ => rfl, fun hc => ?_⟩
  unfold SameHistory
  rw [restarted_eq, new_eq _ _ h.1]
  show stratHist c = stratHist c ++ _
  rcases hc with hc | ⟨h1, h2⟩
  · rw [hc]; simp
  · rw [if_neg h1, if_neg h2]; simp

theorem kh_restart_partial (c : Conf) {ds : List Dom} (h : Mesh ds) : SamePhysics kh c ds ∧ (c.mhd = false → SameHistory kh c ds) := by
  refine ⟨same_physics _ _ h rfl rfl rfl fun _ _ _ => rfl, fun hc => ?_⟩
  unfold SameHistory
  rw [restarted_eq, new_eq _ _ h.1]
  show [] = if c.mhd then _ else _
  rw [hc]; rfl

theorem hb3_restart_partial (c : Conf) {ds : List Dom} (h : Mesh ds) : SamePhysics hb3 c ds := same_physics _ _ h rfl rfl rfl fun _ _ _ => rfl

/-- `rt` keeps it where every Domain reaches from wall to wall. -/
theorem rt_restart_partial (c : Conf) {ds : List Dom} (h : Mesh ds)
    (hw : ∀ d ∈ ds, let a : Fin 3 := if c.three then 2 else 1; d.at (left a) = true ∧ d.at (right a) = true) : SamePhysics rt c ds ∧ SameHistory rt c ds := by
  refine ⟨same_physics _ _ h rfl rfl rfl fun d hd s => ?_, by unfold SameHistory; rw [restarted_eq, new_eq _ _ h.1]; rfl⟩
  obtain ⟨h1, h2⟩ := hw d hd
  unfold ptrs rt
  dsimp only
  rcases hc : c.three with _ | _
  · rw [hc, if_neg (by simp)] at h1 h2
    rw [h1, h2]; rfl
  · rw [hc, if_pos rfl] at h1 h2
    rw [h1, h2]; rfl

/-- **C141** fails of `rt` with refined Domains: inside the root Domain a new run takes the solution of the coarser level, a restarted one reflects. -/
theorem rt_restart_false (c : Conf) {ds : List Dom} (h : Mesh ds) {d : Dom} (hd : d ∈ ds) (a : Fin 3) (ha : a = if c.three then 2 else 1)
    (hi : d.at (left a) = false) (flag : ℤ) : boundary (newRun rt c ds) flag d (left a) = .ok .later ∧
      ∃ f, boundary (restarted rt c ds) flag d (left a) = .ok (.user f) := by
  unfold boundary
  rw [restarted_bc rt c h hd, new_bc rt c h hd]
  unfold ptrs rt
  dsimp only
  rcases hc : c.three with _ | _
  · rw [hc, if_neg (by simp)] at ha
    subst ha
    refine ⟨?_, "reflect_ix2", by simp [assign]⟩
    rw [if_neg (by simp), hi]
    cases d.at (right 1) <;> simp [assign]
  · rw [hc, if_pos rfl] at ha
    subst ha
    refine ⟨?_, "reflect_ix3", by simp [assign]⟩
    rw [if_pos rfl, hi]
    cases d.at (right 2) <;> simp [assign]

/-- A boundary function of the generator that `problem` enrolls and `problem_read_restart` does not is not used by the restarted run, whatever the flags in
the input. -/
theorem lost_boundary (g : Gen) (c : Conf) {ds : List Dom} (h : Mesh ds) {d : Dom} (hd : d ∈ ds) {s : Side} {f : String}
    (h1 : assign (fun _ => none) (ptrs g.prob c d) s = some (.user f)) (h2 : g.rest.bc c d = []) (flag : ℤ) :
    boundary (newRun g c ds) flag d s = .ok (.user f) ∧ boundary (restarted g c ds) flag d s ≠ .ok (.user f) := by
  unfold boundary
  rw [restarted_bc g c h hd, new_bc g c h hd, h1]
  refine ⟨rfl, ?_⟩
  unfold ptrs
  rw [h2]
  show (if d.at s = false then _ else _) ≠ _
  split_ifs <;> simp

/-- **C141** fails of these generators, for every input: the restarted run has other boundary conditions, or stops. -/
theorem dmr_restart_false (c : Conf) {ds : List Dom} (h : Mesh ds) {d : Dom} (hd : d ∈ ds) (hl : d.at (left 1) = true) (flag : ℤ) :
    boundary (newRun dmr c ds) flag d (left 1) = .ok (.user "dmrbv_ijb") ∧ boundary (restarted dmr c ds) flag d (left 1) ≠ .ok (.user "dmrbv_ijb") := by
  refine lost_boundary dmr c h hd ?_ rfl flag
  unfold ptrs dmr
  dsimp only
  rw [if_pos hl]
  cases d.at (left 0) <;> cases d.at (right 1) <;> simp [assign, Function.update]

theorem noh_restart_false (c : Conf) {ds : List Dom} (h : Mesh ds) {d : Dom} (hd : d ∈ ds) (flag : ℤ) :
    boundary (newRun noh c ds) flag d (right 0) = .ok (.user "noh3d_oib") ∧ boundary (restarted noh c ds) flag d (right 0) ≠ .ok (.user "noh3d_oib") := by
  refine lost_boundary noh c h hd ?_ rfl flag
  unfold ptrs noh
  dsimp only
  cases c.three <;> simp [assign, Function.update]

theorem shk_cloud_restart_false (c : Conf) {ds : List Dom} (h : Mesh ds) {d : Dom} (hd : d ∈ ds) (hl : d.at (left 0) = true) (flag : ℤ) :
    boundary (newRun shkCloud c ds) flag d (left 0) = .ok (.user "shk_cloud_iib") ∧
      boundary (restarted shkCloud c ds) flag d (left 0) ≠ .ok (.user "shk_cloud_iib") := by
  refine lost_boundary shkCloud c h hd ?_ rfl flag
  unfold ptrs shkCloud
  dsimp only
  rw [if_pos hl]
  simp [assign]

theorem shkset2d_restart_false (c : Conf) {ds : List Dom} (h : Mesh ds) {d : Dom} (hd : d ∈ ds) (flag : ℤ) :
    boundary (newRun shkset2d c ds) flag d (left 0) = .ok (.user "shkset2d_iib") ∧
      boundary (restarted shkset2d c ds) flag d (left 0) ≠ .ok (.user "shkset2d_iib") := by
  refine lost_boundary shkset2d c h hd ?_ rfl flag
  unfold ptrs shkset2d
  simp [assign, Function.update]

/-- … and the gravity of the central object is gone. -/
theorem cylwind_restart_false (c : Conf) {ds : List Dom} (h : Mesh ds) {d : Dom} (hd : d ∈ ds) (flag : ℤ) :
    boundary (newRun cylwind c ds) flag d (left 0) = .ok (.user "do_nothing_bc") ∧
      boundary (restarted cylwind c ds) flag d (left 0) ≠ .ok (.user "do_nothing_bc") ∧
      (newRun cylwind c ds).pot .static = some "grav_pot" ∧ (restarted cylwind c ds).pot .static = none := by
  have := lost_boundary cylwind c h hd (s := left 0) (f := "do_nothing_bc") (by unfold ptrs cylwind; simp [assign, Function.update]) rfl flag
  refine ⟨this.1, this.2, ?_, ?_⟩
  · rw [new_eq _ _ h.1]; simp [cylwind, assign]
  · rw [restarted_eq]; simp [cylwind, assign, State.init]

theorem pgflow_restart_false (c : Conf) {ds : List Dom} (h : Mesh ds) :
    (newRun pgflow c ds).pot .static = some "grav_pot" ∧ (restarted pgflow c ds).pot .static = none := by
  refine ⟨?_, ?_⟩
  · rw [new_eq _ _ h.1]; simp [pgflow, assign]
  · rw [restarted_eq]; simp [pgflow, assign, State.init]

/-- With self-gravity a restarted run stops. -/
theorem jeans_restart_false (c : Conf) {ds : List Dom} (h : Mesh ds) (hs : c.selfg = true) (hG : 0 ≤ c.par "four_pi_G") (hd : 0 ≤ c.par "d0") :
    gravStart (newRun jeans c ds) = .ok () ∧ gravStart (restarted jeans c ds) = .fatal := by
  refine ⟨?_, ?_⟩
  · rw [new_eq _ _ h.1]
    unfold gravStart
    simp [jeans, hs, assign, Function.update, not_lt.2 hG, not_lt.2 hd]
  · rw [restarted_eq]
    unfold gravStart
    simp [jeans, assign, State.init]

theorem linear_wave_restart_false (c : Conf) {ds : List Dom} (h : Mesh ds) (hs : c.selfg = true) (hG : 0 ≤ c.par "four_pi_G") (hd : 0 ≤ c.par "d0") :
    gravStart (newRun linearWave c ds) = .ok () ∧ gravStart (restarted linearWave c ds) = .fatal := by
  refine ⟨?_, ?_⟩
  · rw [new_eq _ _ h.1]
    unfold gravStart
    cases h1 : c.resist <;> cases h2 : c.visc <;>
      simp [linearWave, hs, assign, Function.update, ohm, nu, h1, h2, not_lt.2 hG, not_lt.2 hd]
  · rw [restarted_eq]
    unfold gravStart
    simp [linearWave, assign, State.init]

/-- A generator that leaves one of the two constants of gravity unset does not start with self-gravity, in a new run or after a restart. -/
theorem gravity_unset (g : Gen) (c : Conf) {ds : List Dom} (h : Mesh ds) (k : Num) (hk : k = .fourPiG ∨ k = .meanRho) :
    ((∀ x ∈ g.prob.num c, x.1 ≠ k) → gravStart (newRun g c ds) = .fatal) ∧ ((∀ x ∈ g.rest.num c, x.1 ≠ k) → gravStart (restarted g c ds) = .fatal) := by
  have key : ∀ (st : State), st.num k = -1 → gravStart st = .fatal := by
    intro st hst
    unfold gravStart
    rcases hk with rfl | rfl
    · split
      · rfl
      · rw [if_pos (by rw [hst]; norm_num)]
    · rw [if_pos (by rw [hst]; norm_num)]
  have hi : State.init.num k = -1 := by rcases hk with rfl | rfl <;> rfl
  refine ⟨fun hx => key _ ?_, fun hx => key _ ?_⟩
  · rw [new_eq _ _ h.1]
    exact (assign_other _ _ _ hx).trans hi
  · rw [restarted_eq]
    exact (assign_other _ _ _ hx).trans hi

/-- `collapse3d` does not set the mean density at all: with self-gravity every run stops. -/
theorem collapse3d_gravity_false (c : Conf) {ds : List Dom} (h : Mesh ds) : gravStart (newRun collapse3d c ds) = .fatal := by
  rw [new_eq _ _ h.1]
  unfold gravStart
  cases hs : c.selfg <;> simp [collapse3d, hs, assign, State.init, Function.update]

/-- The diffusion is gone. -/
theorem blast_restart_false (c : Conf) {ds : List Dom} (h : Mesh ds) (hr : c.resist = true) :
    (newRun blast c ds).num .qAD = c.par "Q_AD" ∧ (restarted blast c ds).num .qAD = 0 := by
  refine ⟨?_, ?_⟩
  · rw [new_eq _ _ h.1]; simp [blast, ohm, hr, assign, Function.update]
  · rw [restarted_eq]; simp [blast, assign, State.init]

theorem field_loop_restart_false (c : Conf) {ds : List Dom} (h : Mesh ds) (hr : c.resist = true) (hk : c.cond = true) :
    (newRun fieldLoop c ds).num .etaOhm = c.par "eta_O" ∧ (restarted fieldLoop c ds).num .etaOhm = 0 ∧
      (newRun fieldLoop c ds).num .kappaIso = c.par "kappa_iso" ∧ (restarted fieldLoop c ds).num .kappaIso = 0 := by
  refine ⟨?_, ?_, ?_, ?_⟩
  · rw [new_eq _ _ h.1]; simp [fieldLoop, ohm, hr, hk, assign, Function.update]
  · rw [restarted_eq]; simp [fieldLoop, assign, State.init]
  · rw [new_eq _ _ h.1]; simp [fieldLoop, ohm, hr, hk, assign, Function.update]
  · rw [restarted_eq]; simp [fieldLoop, assign, State.init]

/-- Columns of the history file are gone. -/
theorem history_restart_false (c : Conf) {ds : List Dom} (h : Mesh ds) :
    ¬SameHistory hb3 c ds ∧ (c.mhd = true → ¬SameHistory kh c ds) ∧ (c.mhd = true → c.ipert = 5 ∨ c.ipert = 6 → ¬SameHistory hgb c ds) := by
  unfold SameHistory
  rw [restarted_eq, restarted_eq, restarted_eq, new_eq _ _ h.1, new_eq _ _ h.1, new_eq _ _ h.1]
  refine ⟨by simp [hb3], fun hm => by simp [kh, hm], fun hm hi => ?_⟩
  rcases hi with hi | hi <;> simp [hgb, hm, hi]

/-! ## An example -/

/-- A root Domain and a refined one inside it. -/
def ds0 : List Dom := [⟨0, fun _ => true⟩, ⟨1, fun _ => false⟩]
/-- Options and input. -/
def c0 : Conf := ⟨true, true, true, false, true, true, false, 5, fun _ => 1, fun _ => 0, fun _ => 1⟩

example : Mesh ds0 := ⟨by decide, by decide⟩
example : ∃ d ∈ ds0, d.at (left 1) = true := ⟨⟨0, fun _ => true⟩, by simp [ds0], rfl⟩
example : ∃ d ∈ ds0, d.at (left (if c0.three then 2 else 1)) = false := ⟨⟨1, fun _ => false⟩, by simp [ds0], rfl⟩
example : c0.selfg = true ∧ 0 ≤ c0.par "four_pi_G" ∧ 0 ≤ c0.par "d0" ∧ c0.resist = true ∧ c0.cond = true ∧ c0.par "Q_AD" ≠ 0 ∧ c0.mhd = true ∧ c0.ipert = 5 := by
  unfold c0; norm_num
/-- The wall of `dmr` becomes an outflow boundary. -/
example : boundary (restarted dmr c0 ds0) 2 ⟨0, fun _ => true⟩ (left 1) = .ok .outflow := by
  unfold boundary
  rw [restarted_bc dmr c0 ⟨by decide, by decide⟩ (by simp [ds0])]
  rfl
example : SamePhysics rt c0 [⟨0, fun _ => true⟩] := (rt_restart_partial c0 ⟨by decide, by decide⟩ (by simp)).1

end Athena.Setup
