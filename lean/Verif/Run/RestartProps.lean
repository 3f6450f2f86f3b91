import Verif.Run.RestartLemmas
import Verif.Par.FileProps

/-!
# Property C09 (src/output.c): a restart continues the output schedule
-/

namespace Athena.Run
open Athena.Par

variable {R : Type} [Field R] [LinearOrder R]

/-- **C09.**  Start a run with any database (`init_output`), make any history of calls of `data_output`,
then a call that writes a restart file.  Whoever reads the parameters back from that file (any database
`dbr` that answers every `par_gets` as the one stored in the file) and calls `init_output` gets exactly
the outputs, numbers, intervals and scheduled times that the original run holds after that call — for
ordinary outputs and for the restart output — provided the text format of real numbers reproduces the
scheduled times. -/
theorem restart_schedule {F : DFmt R} {usr expr : Str → Bool} {t0 : R} {db0 db1 : DB} {s0 : Outs R}
    (hinit : initOutput F usr expr t0 db0 = .ok (db1, s0))
    {cs : List (R × Bool)} {db2 : DB} {s1 : Outs R} {es : List (List (Event R))}
    (hrun : runCalls F cs db1 s0 = .ok (db2, s1, es))
    {time : R} {flag : Bool} {db3 : DB} {s2 : Outs R} {ev : List (Event R)}
    (hcall : dataOutput F time flag db2 s1 = .ok (db3, s2, ev))
    {num : Int} {tm : R} {dbf : DB} (hw : Event.restart num tm dbf ∈ ev)
    (hF : ∀ o, (o ∈ s2.arr ∨ s2.rst = some o) → F.parse (F.fmt o.t) = o.t)
    {dbr : DB} (hread : ∀ b n, parGets dbr b n = parGets dbf b n) (t' : R) :
    initOutput F usr expr t' dbr = .ok (dbr, s2) := by
  -- the database in the file
  have hdbf : dbf = db3 := by
    obtain ⟨-, -, rs, he, h⟩ := dataOutput_ok hcall
    rw [he] at hw
    rcases List.mem_append.1 hw with hw | hw
    · rcases h with ⟨rfl, -⟩ | ⟨ro, -, -, rfl⟩
      · simp at hw
      · rw [List.mem_singleton] at hw; cases hw; rfl
    · obtain ⟨o, -, ho⟩ := List.mem_flatMap.1 hw
      rw [evOut_eq] at ho
      split_ifs at ho <;> simp at ho
  subst hdbf
  have hnums : rstNums ev ≠ [] := by
    intro e
    unfold rstNums at e
    rw [List.filterMap_eq_nil_iff] at e
    have := e _ hw
    simp at this
  -- values
  have hval : ∀ b n, val dbr b n = val dbf b n := by
    intro b n
    have := hread b n
    rw [parGets_val, parGets_val] at this
    cases h1 : val dbr b n <;> cases h2 : val dbf b n <;> rw [h1, h2] at this <;> simp at this <;> simp [this]
  have hlr : Later dbf dbr := ⟨fun b n _ _ => hval b n, fun b h => by rw [hval]; exact h,
    fun b h => by rw [hval]; exact h⟩
  have hl13 : Later db1 dbf := (runCalls_later cs hrun).trans (dataOutput_later hcall)
  have hl : Later db1 dbr := hl13.trans hlr
  -- the first init_output
  unfold initOutput at hinit ⊢
  obtain ⟨mx, dba, e1, a1, a2, a3, a4⟩ := getiDef_val db0 "job".toList "maxout".toList MAXOUT
  rw [e1] at hinit
  simp only [Res.bind_ok] at hinit
  have hmx1 : val db1 "job".toList "maxout".toList = val dba "job".toList "maxout".toList :=
    (initLoop_ok _ hinit).1 _ _ (fun j _ => job_ne_outBlock _)
  have hmxr : val dbr "job".toList "maxout".toList = val dba "job".toList "maxout".toList := by
    rw [hl.same _ _ (by decide) (by decide), hmx1]
  obtain ⟨mv, hmv⟩ := Option.isSome_iff_exists.1 a1
  obtain ⟨mx', dbb, e2, -, -, b3, -⟩ := getiDef_val dbr "job".toList "maxout".toList MAXOUT
  obtain ⟨rfl, rfl⟩ := b3 mv (by rw [hmxr, hmv])
  rw [e2]
  simp only [Res.bind_ok]
  have hmx : mx = atoi mv := a4 mv hmv
  rw [hmx] at hinit
  -- numbering of the outputs
  have hn0 : Nums (1 + (atoi mv).toNat) s0 :=
    (initLoop_ok _ hinit).2 (le_refl 1) ⟨by simp, by simp, by simp, by simp⟩
  have hr1 := runCalls_ok cs hrun
  have hn1 : Nums (1 + (atoi mv).toNat) s1 := nums_congr (foldOut cs) (fun o => (foldOut_n cs o).1) hr1.1 hr1.2 hn0
  have hr2 := dataOutput_ok hcall
  let φ : Out R → Out R := fun o => stepOut time flag (foldOut cs o)
  have hφ : ∀ o, (φ o).n = o.n ∧ (φ o).dt = o.dt := by
    intro o
    have := foldOut_n cs o
    simp only [φ]
    rw [stepOut_eq]
    exact this
  have hs2 : s2 = ⟨s0.arr.map φ, s0.rst.map φ⟩ := by
    have h1 : s2.arr = s0.arr.map φ := by rw [hr2.1, hr1.1, List.map_map]; rfl
    have h2 : s2.rst = s0.rst.map φ := by rw [hr2.2.1, hr1.2, Option.map_map]; rfl
    cases s2; simp only at h1 h2; rw [h1, h2]
  rw [hs2]
  refine initLoop_again φ hφ _ _ (le_refl 1) hinit hl ?_ rfl (fun _ => rfl)
  intro o ho j hj
  have hm1 : foldOut cs o ∈ s1.arr ∨ s1.rst = some (foldOut cs o) := by
    rcases ho with ho | ho
    · left; rw [hr1.1]; exact List.mem_map_of_mem ho
    · right; rw [hr1.2, ho]; rfl
  have hm2 : φ o ∈ s2.arr ∨ s2.rst = some (φ o) := by
    rw [hs2]
    rcases ho with ho | ho
    · left; exact List.mem_map_of_mem ho
    · right; simp only [ho]; rfl
  have hrec := dataOutput_records hcall _ hn1 hnums _ hm1
  rw [(foldOut_n cs o).1, hj, ← hval, ← hval] at hrec
  constructor
  · show F.parse _ = _
    rw [hrec.2]
    exact hF _ hm2
  · show atoi _ = _
    rw [hrec.1]
    exact atoi_fmtInt _

/-- The database read back from the restart file by `par_open` answers as the one written, whenever C04
applies. -/
theorem reads_of_contents {db db' : DB} (h : contents db' = contents db) (b n : Str) :
    parGets db' b n = parGets db b n := by
  have key : ∀ (db db' : DB), contents db' = contents db → lookup db' b n = lookup db b n := by
    intro db
    induction db with
    | nil =>
      intro db' h
      have : db' = [] := by simpa [contents] using h
      rw [this]
    | cons x l ih =>
      intro db' h
      cases db' with
      | nil => simp [contents] at h
      | cons y l' =>
        simp only [contents, List.map_cons, List.cons.injEq, Prod.mk.injEq] at h
        have := ih l' h.2
        unfold lookup findBlock at this ⊢
        simp only [List.find?_cons]
        rw [h.1.1]
        by_cases hx : x.name = b
        · simp [hx, findPar, h.1.2]
        · simp only [hx, decide_false]; exact this
  rw [parGets_eq, parGets_eq, key db db' h]

/-- **C09 through the file.**  The text part of the restart file (`par_dump(2,fp)`, followed by anything)
read by `par_open` gives the schedule back, when the database is one for which dump and re-read is proved
(C04). -/
theorem restart_schedule_file {F : DFmt R} {usr expr : Str → Bool} {t0 : R} {db0 db1 : DB} {s0 : Outs R}
    (hinit : initOutput F usr expr t0 db0 = .ok (db1, s0))
    {cs : List (R × Bool)} {db2 : DB} {s1 : Outs R} {es : List (List (Event R))}
    (hrun : runCalls F cs db1 s0 = .ok (db2, s1, es))
    {time : R} {flag : Bool} {db3 : DB} {s2 : Outs R} {ev : List (Event R)}
    (hcall : dataOutput F time flag db2 s1 = .ok (db3, s2, ev))
    {num : Int} {tm : R} {dbf : DB} (hw : Event.restart num tm dbf ∈ ev)
    (hF : ∀ o, (o ∈ s2.arr ∨ s2.rst = some o) → F.parse (F.fmt o.t) = o.t)
    (hclean : Clean dbf) (hpe : ∀ b ∈ dbf, b.name ≠ "par_end".toList) (hfit : LinesFit dbf)
    (data : Str) (t' : R) :
    ∃ dbr, parOpen (parDump 2 dbf ++ data) [] = .ok dbr ∧ initOutput F usr expr t' dbr = .ok (dbr, s2) := by
  obtain ⟨dbr, h1, h2⟩ := dump_open_partial dbf hclean hpe hfit data
  exact ⟨dbr, h1, restart_schedule hinit hrun hcall hw hF (reads_of_contents h2) t'⟩

/-- **Non-vacuity and C09's limits.**  A database with one ordinary output and a restart output. -/
def exDb : DB :=
  [⟨"output1".toList, [⟨"out_fmt".toList, "tab".toList, none⟩, ⟨"dt".toList, "5".toList, none⟩], 0, 0⟩,
   ⟨"output2".toList, [⟨"out_fmt".toList, "rst".toList, none⟩, ⟨"dt".toList, "10".toList, none⟩], 0, 0⟩]

/-- Whole numbers, for the example. -/
def intF : DFmt ℚ := ⟨fun q => fmtInt q.num, fun s => (atoi s : ℚ)⟩

def exCheck : Bool :=
  match initOutput intF (fun _ => false) (fun _ => false) 0 exDb with
  | .ok (db1, s0) =>
    match dataOutput intF 0 true db1 s0 with
    | .ok (_, s2, [.restart num _ dbf, .dump 1 0 _]) =>
      num = 0 && s2 = ⟨[⟨1, 5, 5, 1⟩], some ⟨2, 10, 10, 1⟩⟩ &&
      (match initOutput intF (fun _ => false) (fun _ => false) 3 dbf with
       | .ok (_, s) => s = s2
       | _ => false)
    | _ => false
  | _ => false

example : exCheck = true := by decide +kernel

end Athena.Run
