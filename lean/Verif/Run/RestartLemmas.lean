import Verif.Run.OutputProps

/-! Lemmas for C09: what `init_output` reads from the database. -/

namespace Athena.Run
open Athena.Par

variable {R : Type} [Field R] [LinearOrder R]

/-- The value stored for `(b, n)`. -/
def val (db : DB) (b n : Str) : Option Str := (lookup db b n).map (·.value)

theorem parGets_val (db : DB) (b n : Str) :
    parGets db b n = match val db b n with | some v => .ok v | none => .fatal := by
  rw [parGets_eq, val]; cases lookup db b n <;> rfl

theorem parExist_val (db : DB) (b n : Str) : parExist db b n = (val db b n).isSome := by
  rw [parExist_eq, val]; cases lookup db b n <;> rfl

theorem optPar_val (db : DB) (b n : Str) : optPar db b n = val db b n := by
  unfold optPar; rw [parGets_val]; cases val db b n <;> rfl

theorem val_sets (db : DB) (B N v : Str) (c : Option Str) (b n : Str) :
    val (parSets db B N v c) b n = if b = B ∧ n = N then some v else val db b n := by
  unfold val; rw [lookup_sets]; split_ifs <;> rfl

theorem outBlock_inj {a b : Int} (h : outBlock a = outBlock b) : a = b := by
  unfold outBlock at h
  have := List.append_cancel_left h
  rw [← atoi_fmtInt a, this, atoi_fmtInt]

theorem job_ne_outBlock (n : Int) : "job".toList ≠ outBlock n := by
  unfold outBlock
  intro h
  have := congrArg List.head? h
  simp at this

/-- What the database says about output block `k` besides its number and time: class and interval. -/
def shape (F : DFmt R) (usr expr : Str → Bool) (db : DB) (k : Nat) : Res (Option (Cls × R)) :=
  let b := outBlock k
  if val db b "out_fmt".toList = none ∧ val db b "name".toList = none then .ok none
  else
    match val db b sTime, val db b sNum, val db b "dt".toList, val db b "out".toList with
    | some _, some _, some d, some o =>
      match classify usr expr o (val db b "out_fmt".toList) (val db b "name".toList) with
      | .ok c => .ok (some (c, F.parse d))
      | .fatal => .fatal
      | .ub => .ub
    | _, _, _, _ => .fatal

/-- The effect of one block on the output list. -/
def app (e : Option (Cls × R)) (k : Nat) (t : R) (num : Int) (s : Outs R) : Outs R :=
  match e with
  | none => s
  | some (.skip, _) => s
  | some (.add, dt) => { s with arr := s.arr ++ [⟨k, t, dt, num⟩] }
  | some (.rst, dt) => { s with rst := some ⟨k, t, dt, num⟩ }

def tOf (F : DFmt R) (db : DB) (k : Nat) : R := F.parse ((val db (outBlock k) sTime).getD [])
def numOf (db : DB) (k : Nat) : Int := atoi ((val db (outBlock k) sNum).getD [])

theorem sNum_ne : sNum ≠ sTime := by decide
theorem ne_facts : "out_fmt".toList ≠ sNum ∧ "out_fmt".toList ≠ sTime ∧ "name".toList ≠ sNum ∧ "name".toList ≠ sTime ∧
   "dt".toList ≠ sNum ∧ "dt".toList ≠ sTime ∧ "out".toList ≠ sNum ∧ "out".toList ≠ sTime ∧
   "out".toList ≠ "out_fmt".toList ∧ "out".toList ≠ "name".toList ∧ "out".toList ≠ "dt".toList := by decide

/-- Reading with a default: the parameter exists afterwards, nothing else changes. -/
theorem getdDef_val (F : DFmt R) (db : DB) (B N : Str) (d : R) :
    ∃ t db', parGetdDef F db B N d = .ok (t, db') ∧ (val db' B N).isSome ∧
      (∀ b n, ¬ (b = B ∧ n = N) → val db' b n = val db b n) ∧
      (∀ v, val db B N = some v → db' = db ∧ t = F.parse v) := by
  unfold parGetdDef
  rw [parExist_val, parGets_val]
  cases h : val db B N with
  | none =>
    refine ⟨d, _, by simp; rfl, ?_, ?_, by simp⟩
    · simp [val_sets]
    · intro b n hbn; rw [val_sets, if_neg hbn]
  | some v => exact ⟨F.parse v, db, by simp, by simp [h], by simp, by simp⟩

theorem getiDef_val (db : DB) (B N : Str) (d : Int) :
    ∃ t db', parGetiDef db B N d = .ok (t, db') ∧ (val db' B N).isSome ∧
      (∀ b n, ¬ (b = B ∧ n = N) → val db' b n = val db b n) ∧
      (∀ v, val db B N = some v → db' = db ∧ t = atoi v) ∧
      (∀ v, val db' B N = some v → t = atoi v) := by
  unfold parGetiDef
  rw [parExist_val, parGets_val]
  cases h : val db B N with
  | none =>
    refine ⟨d, _, by simp; rfl, ?_, ?_, by simp, ?_⟩
    · simp [parSeti, val_sets]
    · intro b n hbn; rw [parSeti, val_sets, if_neg hbn]
    · intro v hv; simp only [parSeti, val_sets, true_and, if_true, Option.some.injEq] at hv
      rw [← hv, atoi_fmtInt]
  | some v => exact ⟨atoi v, db, by simp, by simp [h], by simp, by simp, by simp [h]⟩

theorem getsDef_val (db : DB) (B N d : Str) :
    ∃ t db', parGetsDef db B N d = .ok (t, db') ∧ val db' B N = some t ∧
      (∀ b n, ¬ (b = B ∧ n = N) → val db' b n = val db b n) ∧
      (∀ v, val db B N = some v → db' = db ∧ t = v) := by
  unfold parGetsDef
  rw [parExist_val, parGets_val]
  cases h : val db B N with
  | none =>
    refine ⟨d, _, by simp; rfl, ?_, ?_, by simp⟩
    · simp [val_sets]
    · intro b n hbn; rw [val_sets, if_neg hbn]
  | some v => exact ⟨v, db, by simp, by simp [h], by simp, by simp⟩

/-- `init_output` on one block. -/
theorem initBlock_ok {F : DFmt R} {usr expr : Str → Bool} {time : R} {k : Nat} {db db' : DB} {s s' : Outs R}
    (h : initBlock F usr expr time k (db, s) = .ok (db', s')) :
    (∃ e t num, shape F usr expr db' k = .ok e ∧ s' = app e k t num s) ∧
    (∀ b n, b ≠ outBlock k → val db' b n = val db b n) := by
  obtain ⟨n1, n2, n3, n4, n5, n6, n7, n8, n9, n10, n11⟩ := ne_facts
  unfold initBlock at h
  dsimp only at h
  rw [parExist_val, parExist_val] at h
  split_ifs at h with h0
  · simp only [Res.ok.injEq, Prod.mk.injEq] at h
    obtain ⟨rfl, rfl⟩ := h
    refine ⟨⟨none, 0, 0, ?_, rfl⟩, fun _ _ _ => rfl⟩
    unfold shape
    dsimp only
    rw [if_pos]
    simpa using h0
  · obtain ⟨t, db1, e1, a1, a2, -⟩ := getdDef_val F db (outBlock k) sTime time
    obtain ⟨num, db2, e2, b1, b2, -⟩ := getiDef_val db1 (outBlock k) sNum 0
    rw [e1] at h
    simp only [Res.bind_ok] at h
    rw [e2] at h
    simp only [Res.bind_ok, parGetd] at h
    rw [parGets_val] at h
    cases hd : val db2 (outBlock k) "dt".toList with
    | none => rw [hd] at h; simp at h
    | some d =>
      rw [hd] at h
      simp only [Res.bind_ok, Res.pure_eq_ok] at h
      obtain ⟨out, db3, e3, c1, c2, -⟩ := getsDef_val db2 (outBlock k) "out".toList "cons".toList
      rw [e3] at h
      simp only [Res.bind_ok, optPar_val] at h
      have d3 : val db3 (outBlock k) "dt".toList = some d := by rw [c2 _ _ (fun h => n11 h.2.symm), hd]
      have f3 : val db3 (outBlock k) "out_fmt".toList = val db (outBlock k) "out_fmt".toList := by
        rw [c2 _ _ (fun h => n9 h.2.symm), b2 _ _ (fun h => n1 h.2), a2 _ _ (fun h => n2 h.2)]
      have m3 : val db3 (outBlock k) "name".toList = val db (outBlock k) "name".toList := by
        rw [c2 _ _ (fun h => n10 h.2.symm), b2 _ _ (fun h => n3 h.2), a2 _ _ (fun h => n4 h.2)]
      have t3 : (val db3 (outBlock k) sTime).isSome := by
        rw [c2 _ _ (fun h => n8 h.2.symm), b2 _ _ (by simp [Ne.symm sNum_ne])]; exact a1
      have u3 : (val db3 (outBlock k) sNum).isSome := by
        rw [c2 _ _ (fun h => n7 h.2.symm)]; exact b1
      obtain ⟨tv, tv3⟩ := Option.isSome_iff_exists.1 t3
      obtain ⟨nv, nv3⟩ := Option.isSome_iff_exists.1 u3
      have hother : ∀ b n, b ≠ outBlock k → val db3 b n = val db b n := by
        intro b n hb
        rw [c2 _ _ (by simp [hb]), b2 _ _ (by simp [hb]), a2 _ _ (by simp [hb])]
      have hsh : ∀ c, classify usr expr out (val db3 (outBlock k) "out_fmt".toList)
          (val db3 (outBlock k) "name".toList) = .ok c → shape F usr expr db3 k = .ok (some (c, F.parse d)) := by
        intro c hc
        unfold shape
        dsimp only
        rw [if_neg, tv3, nv3, d3, c1]
        · dsimp only; rw [hc]
        · rw [f3, m3]; simpa using h0
      cases hc : classify usr expr out (val db3 (outBlock k) "out_fmt".toList)
          (val db3 (outBlock k) "name".toList) with
      | fatal => rw [hc] at h; simp at h
      | ub => rw [hc] at h; simp at h
      | ok c =>
        rw [hc] at h
        simp only [Res.bind_ok] at h
        cases c <;> simp only [Res.ok.injEq, Prod.mk.injEq] at h <;> obtain ⟨rfl, rfl⟩ := h
        · exact ⟨⟨_, t, num, hsh _ hc, rfl⟩, hother⟩
        · exact ⟨⟨_, t, num, hsh _ hc, rfl⟩, hother⟩
        · exact ⟨⟨_, t, num, hsh _ hc, rfl⟩, hother⟩

/-- A block that is completely registered is read without changing the database. -/
theorem initBlock_of_shape {F : DFmt R} {usr expr : Str → Bool} {time : R} {k : Nat} {db : DB} {s : Outs R}
    {e : Option (Cls × R)} (h : shape F usr expr db k = .ok e) :
    initBlock F usr expr time k (db, s) = .ok (db, app e k (tOf F db k) (numOf db k) s) := by
  unfold shape at h
  dsimp only at h
  unfold initBlock
  dsimp only
  rw [parExist_val, parExist_val]
  split_ifs at h with h0
  · simp only [Res.ok.injEq] at h
    subst h
    rw [if_pos (by simpa using h0)]
    rfl
  · rw [if_neg (by simpa using h0)]
    cases h1 : val db (outBlock k) sTime with
    | none => rw [h1] at h; simp at h
    | some tv =>
    cases h2 : val db (outBlock k) sNum with
    | none => rw [h1, h2] at h; simp at h
    | some nv =>
    cases h3 : val db (outBlock k) "dt".toList with
    | none => rw [h1, h2, h3] at h; simp at h
    | some dv =>
    cases h4 : val db (outBlock k) "out".toList with
    | none => rw [h1, h2, h3, h4] at h; simp at h
    | some ov =>
    rw [h1, h2, h3, h4] at h
    dsimp only at h
    obtain ⟨t, db1, e1, -, -, a1⟩ := getdDef_val F db (outBlock k) sTime time
    obtain ⟨rfl, rfl⟩ := a1 _ h1
    obtain ⟨num, db2, e2, -, -, a2, -⟩ := getiDef_val db1 (outBlock k) sNum 0
    obtain ⟨rfl, rfl⟩ := a2 _ h2
    obtain ⟨out, db3, e3, -, -, a3⟩ := getsDef_val db2 (outBlock k) "out".toList "cons".toList
    obtain ⟨rfl, rfl⟩ := a3 _ h4
    rw [e1]
    simp only [Res.bind_ok]
    rw [e2]
    simp only [Res.bind_ok, parGetd]
    rw [parGets_val, h3]
    simp only [Res.bind_ok, Res.pure_eq_ok]
    rw [e3]
    simp only [Res.bind_ok, optPar_val]
    have ht : tOf F db3 k = F.parse tv := by simp [tOf, h1]
    have hm : numOf db3 k = atoi nv := by simp [numOf, h2]
    rw [ht, hm]
    cases hc : classify usr expr out (val db3 (outBlock k) "out_fmt".toList)
          (val db3 (outBlock k) "name".toList) with
    | fatal => rw [hc] at h; simp at h
    | ub => rw [hc] at h; simp at h
    | ok c =>
      rw [hc] at h
      dsimp only at h
      simp only [Res.ok.injEq] at h
      subst h
      cases c <;> rfl

theorem shape_congr {F : DFmt R} {usr expr : Str → Bool} {k : Nat} {db db' : DB}
    (h : ∀ n, val db' (outBlock k) n = val db (outBlock k) n) :
    shape F usr expr db' k = shape F usr expr db k := by
  unfold shape; simp only [h]

/-- The database after something that only changes output numbers and times. -/
structure Later (db db' : DB) : Prop where
  same : ∀ b n, n ≠ sNum → n ≠ sTime → val db' b n = val db b n
  num : ∀ b, (val db b sNum).isSome → (val db' b sNum).isSome
  time : ∀ b, (val db b sTime).isSome → (val db' b sTime).isSome

theorem Later.refl (db : DB) : Later db db := ⟨fun _ _ _ _ => rfl, fun _ h => h, fun _ h => h⟩

theorem Later.trans {a b c : DB} (h : Later a b) (h' : Later b c) : Later a c :=
  ⟨fun x n h1 h2 => by rw [h'.same x n h1 h2, h.same x n h1 h2], fun x e => h'.num x (h.num x e),
    fun x e => h'.time x (h.time x e)⟩

theorem Later.sets (db : DB) (B N v : Str) (c : Option Str) (hN : N = sNum ∨ N = sTime) :
    Later db (parSets db B N v c) := by
  refine ⟨?_, ?_, ?_⟩
  · intro b n h1 h2
    rw [val_sets, if_neg]
    rintro ⟨-, rfl⟩
    rcases hN with rfl | rfl
    · exact h1 rfl
    · exact h2 rfl
  · intro b h; rw [val_sets]; split_ifs <;> simp [h]
  · intro b h; rw [val_sets]; split_ifs <;> simp [h]

theorem Later.record (F : DFmt R) (db : DB) (of : Out R × Bool) : Later db (record F db of) := by
  unfold Run.record
  split_ifs with h
  · exact Later.trans (Later.sets _ _ _ _ _ (Or.inl rfl)) (Later.sets _ _ _ _ _ (Or.inr rfl))
  · exact Later.trans (Later.sets _ _ _ _ _ (Or.inl rfl)) (Later.sets _ _ _ _ _ (Or.inr rfl))
  · exact Later.refl _

theorem Later.foldl_record (F : DFmt R) (l : List (Out R × Bool)) : ∀ db, Later db (l.foldl (Run.record F) db) := by
  induction l with
  | nil => intro db; exact Later.refl _
  | cons x l ih => intro db; exact (Later.record F db x).trans (ih _)

theorem Later.shape {F : DFmt R} {usr expr : Str → Bool} {k : Nat} {db db' : DB} {e : Option (Cls × R)}
    (h : Later db db') (hs : shape F usr expr db k = .ok e) : Run.shape F usr expr db' k = .ok e := by
  obtain ⟨n1, n2, n3, n4, n5, n6, n7, n8, n9, n10, n11⟩ := ne_facts
  unfold Run.shape at hs ⊢
  dsimp only at hs ⊢
  rw [h.same _ _ n1 n2, h.same _ _ n3 n4, h.same _ _ n5 n6, h.same _ _ n7 n8]
  split_ifs at hs ⊢ with h0
  · exact hs
  · cases h1 : val db (outBlock k) sTime with
    | none => rw [h1] at hs; simp at hs
    | some tv =>
    cases h2 : val db (outBlock k) sNum with
    | none => rw [h1, h2] at hs; simp at hs
    | some nv =>
    obtain ⟨a, ha⟩ := Option.isSome_iff_exists.1 (h.time (outBlock k) (by rw [h1]; rfl))
    obtain ⟨b, hb⟩ := Option.isSome_iff_exists.1 (h.num (outBlock k) (by rw [h2]; rfl))
    rw [ha, hb]
    rw [h1, h2] at hs
    cases h3 : val db (outBlock k) "dt".toList with
    | none => rw [h3] at hs; simp at hs
    | some dv =>
    cases h4 : val db (outBlock k) "out".toList with
    | none => rw [h3, h4] at hs; simp at hs
    | some ov =>
    rw [h3, h4] at hs
    exact hs

theorem dataOutput_later {F : DFmt R} {time : R} {flag : Bool} {db db' : DB} {s s' : Outs R}
    {es : List (Event R)} (h : dataOutput F time flag db s = .ok (db', s', es)) : Later db db' := by
  unfold dataOutput at h
  dsimp only at h
  split_ifs at h with hu
  simp only [Res.ok.injEq, Prod.mk.injEq] at h
  obtain ⟨h1, -, -⟩ := h
  cases hr : s.rst with
  | none => simp only [hr] at h1; rw [← h1]; exact Later.refl _
  | some ro =>
    simp only [hr] at h1
    split_ifs at h1
    · rw [← h1]
      exact (Later.foldl_record F _ db).trans ((Later.sets _ _ _ _ _ (Or.inl rfl)).trans
        (Later.sets _ _ _ _ _ (Or.inr rfl)))
    · rw [← h1]; exact Later.refl _

theorem runCalls_later {F : DFmt R} (cs : List (R × Bool)) : ∀ {db db' : DB} {s s' : Outs R}
    {es : List (List (Event R))}, runCalls F cs db s = .ok (db', s', es) → Later db db' := by
  induction cs with
  | nil =>
    intro db db' s s' es h
    simp only [runCalls, Res.ok.injEq, Prod.mk.injEq] at h
    obtain ⟨rfl, -, -⟩ := h
    exact Later.refl _
  | cons c cs ih =>
    intro db db' s s' es h
    simp only [runCalls] at h
    cases h1 : dataOutput F c.1 c.2 db s with
    | fatal => rw [h1] at h; simp at h
    | ub => rw [h1] at h; simp at h
    | ok r =>
      obtain ⟨db1, s1, e1⟩ := r
      rw [h1] at h
      simp only [Res.bind_ok] at h
      cases h2 : runCalls F cs db1 s1 with
      | fatal => rw [h2] at h; simp at h
      | ub => rw [h2] at h; simp at h
      | ok r =>
        obtain ⟨db2, s2, e2⟩ := r
        rw [h2] at h
        simp only [Res.bind_ok, Res.pure_eq_ok, Res.ok.injEq, Prod.mk.injEq] at h
        obtain ⟨rfl, rfl, rfl⟩ := h
        exact (dataOutput_later h1).trans (ih h2)

/-! ### The loop -/

/-- The outputs found so far have block numbers between 1 and `k-1`, each once. -/
structure Nums (k : Nat) (s : Outs R) : Prop where
  nodup : (s.arr.map (·.n)).Nodup
  range : ∀ o ∈ s.arr, 1 ≤ o.n ∧ o.n < k
  rrange : ∀ o, s.rst = some o → 1 ≤ o.n ∧ o.n < k
  disj : ∀ o, s.rst = some o → o.n ∉ s.arr.map (·.n)

theorem nums_app {k : Nat} {s : Outs R} (h : Nums k s) (hk : 1 ≤ k) (e : Option (Cls × R)) (t : R) (num : Int) :
    Nums (k+1) (app e k t num s) := by
  have hw : Nums (k+1) s := ⟨h.nodup, fun o ho => by have := h.range o ho; push_cast; omega,
    fun o ho => by have := h.rrange o ho; push_cast; omega, h.disj⟩
  have hkn : (k : Int) ∉ s.arr.map (·.n) := by
    intro hm
    obtain ⟨o, ho, e⟩ := List.mem_map.1 hm
    have := h.range o ho
    omega
  match e with
  | none => exact hw
  | some (.skip, _) => exact hw
  | some (.add, dt) =>
    refine ⟨?_, ?_, hw.rrange, ?_⟩
    · simp only [app, List.map_append, List.map_cons, List.map_nil]
      exact nodup_snoc h.nodup hkn
    · intro o ho
      rcases List.mem_append.1 ho with ho | ho
      · exact hw.range o ho
      · rw [List.mem_singleton] at ho; subst ho; push_cast; omega
    · intro o ho
      have hr : s.rst = some o := ho
      simp only [app, List.map_append, List.map_cons, List.map_nil, List.mem_append, List.mem_singleton, not_or]
      refine ⟨h.disj o hr, ?_⟩
      have := h.rrange o hr
      omega
  | some (.rst, dt) =>
    refine ⟨hw.nodup, hw.range, ?_, ?_⟩
    · intro o ho
      simp only [app, Option.some.injEq] at ho
      subst ho; push_cast; omega
    · intro o ho
      simp only [app, Option.some.injEq] at ho
      subst ho; exact hkn

theorem initLoop_ok {F : DFmt R} {usr expr : Str → Bool} {time : R} (m : Nat) : ∀ {k : Nat} {db db' : DB}
    {s s' : Outs R}, initLoop F usr expr time m k (db, s) = .ok (db', s') →
    (∀ b n, (∀ j : Nat, k ≤ j → b ≠ outBlock j) → val db' b n = val db b n) ∧
    (1 ≤ k → Nums k s → Nums (k+m) s') := by
  induction m with
  | zero =>
    intro k db db' s s' h
    simp only [initLoop, Res.ok.injEq, Prod.mk.injEq] at h
    obtain ⟨rfl, rfl⟩ := h
    exact ⟨fun _ _ _ => rfl, fun _ h => h⟩
  | succ m ih =>
    intro k db db' s s' h
    simp only [initLoop] at h
    cases h1 : initBlock F usr expr time k (db, s) with
    | fatal => rw [h1] at h; simp at h
    | ub => rw [h1] at h; simp at h
    | ok r =>
      obtain ⟨db1, s1⟩ := r
      rw [h1] at h
      simp only [Res.bind_ok] at h
      obtain ⟨⟨e, t, num, -, hs⟩, ho⟩ := initBlock_ok h1
      obtain ⟨a1, a2⟩ := ih h
      constructor
      · intro b n hb
        rw [a1 b n (fun j hj => hb j (by omega)), ho b n (hb k (le_refl k))]
      · intro hk hn
        have := a2 (by omega) (by rw [hs]; exact nums_app hn hk e t num)
        rw [show k + (m+1) = k+1+m by omega]
        exact this

/-- `φ`: what has become of an output since. -/
theorem initLoop_again {F : DFmt R} {usr expr : Str → Bool} {time time' : R} (φ : Out R → Out R)
    (hφ : ∀ o, (φ o).n = o.n ∧ (φ o).dt = o.dt) (db3 : DB) (m : Nat) : ∀ {k : Nat} {db db1 : DB}
    {s s0 sa : Outs R}, 1 ≤ k → initLoop F usr expr time m k (db, s) = .ok (db1, s0) → Later db1 db3 →
    (∀ o, (o ∈ s0.arr ∨ s0.rst = some o) → ∀ j : Nat, o.n = j →
      tOf F db3 j = (φ o).t ∧ numOf db3 j = (φ o).num) →
    sa.arr = s.arr.map φ → (s0.rst = s.rst → sa.rst = s.rst.map φ) →
    initLoop F usr expr time' m k (db3, sa) = .ok (db3, ⟨s0.arr.map φ, s0.rst.map φ⟩) := by
  induction m with
  | zero =>
    intro k db db1 s s0 sa hk h hl hrec ha hr
    simp only [initLoop, Res.ok.injEq, Prod.mk.injEq] at h
    obtain ⟨rfl, rfl⟩ := h
    simp only [initLoop]
    rw [← ha, ← hr rfl]
  | succ m ih =>
    intro k db db1 s s0 sa hk h hl hrec ha hr
    simp only [initLoop] at h ⊢
    cases h1 : initBlock F usr expr time k (db, s) with
    | fatal => rw [h1] at h; simp at h
    | ub => rw [h1] at h; simp at h
    | ok r =>
      obtain ⟨dbx, s1⟩ := r
      rw [h1] at h
      simp only [Res.bind_ok] at h
      obtain ⟨⟨e, t, num, hsh, hs⟩, ho⟩ := initBlock_ok h1
      have hl1 := (initLoop_ok m h).1
      have hsh1 : shape F usr expr db1 k = .ok e := by
        rw [← hsh]
        apply shape_congr
        intro n
        apply hl1
        intro j hj e
        have := outBlock_inj e
        omega
      have hsh3 := hl.shape hsh1
      rw [initBlock_of_shape hsh3]
      simp only [Res.bind_ok]
      -- members of s1.arr stay
      have keep : ∀ (m : Nat) {k : Nat} {db db' : DB} {s s' : Outs R},
          initLoop F usr expr time m k (db, s) = .ok (db', s') → ∀ o ∈ s.arr, o ∈ s'.arr := by
        intro m
        induction m with
        | zero =>
          intro k db db' s s' h o ho
          simp only [initLoop, Res.ok.injEq, Prod.mk.injEq] at h
          obtain ⟨-, rfl⟩ := h; exact ho
        | succ m ihm =>
          intro k db db' s s' h o ho
          simp only [initLoop] at h
          cases h1 : initBlock F usr expr time k (db, s) with
          | fatal => rw [h1] at h; simp at h
          | ub => rw [h1] at h; simp at h
          | ok r =>
            obtain ⟨dby, sy⟩ := r
            rw [h1] at h
            simp only [Res.bind_ok] at h
            obtain ⟨⟨e, t, num, -, hs⟩, -⟩ := initBlock_ok h1
            refine ihm h o ?_
            rw [hs]
            match e with
            | none => exact ho
            | some (.skip, _) => exact ho
            | some (.add, _) => exact List.mem_append_left _ ho
            | some (.rst, _) => exact ho
      refine ih (by omega) h hl hrec ?_ ?_
      · rw [hs]
        match e, hs with
        | none, _ => exact ha
        | some (.skip, _), _ => exact ha
        | some (.rst, _), _ => exact ha
        | some (.add, dt), hs =>
          have hmem : (⟨k, t, dt, num⟩ : Out R) ∈ s0.arr := by
            apply keep m h
            rw [hs]; simp [app]
          obtain ⟨h1, h2⟩ := hrec _ (Or.inl hmem) k rfl
          simp only [app, List.map_append, List.map_cons, List.map_nil, ha, h1, h2]
          have := hφ ⟨k, t, dt, num⟩
          congr 2
          generalize φ ⟨k, t, dt, num⟩ = q at *
          cases q
          simp only at this
          rw [this.1, this.2]
      · rw [hs]
        match e, hs with
        | none, hs => exact hr
        | some (.skip, _), hs => exact hr
        | some (.add, _), hs => exact hr
        | some (.rst, dt), hs =>
          intro hfin
          simp only [app] at hfin ⊢
          obtain ⟨h1, h2⟩ := hrec _ (Or.inr hfin) k rfl
          rw [h1, h2, Option.map_some]
          have := hφ ⟨k, t, dt, num⟩
          generalize φ ⟨k, t, dt, num⟩ = q at *
          cases q
          simp only at this
          rw [this.1, this.2]

/-! ### What `data_output` records -/

theorem record_val_other (F : DFmt R) (l : List (Out R × Bool)) (b n : Str) : ∀ db,
    (∀ x ∈ l, outBlock x.1.n ≠ b) → val (l.foldl (record F) db) b n = val db b n := by
  induction l with
  | nil => intro db _; rfl
  | cons x l ih =>
    intro db h
    rw [List.foldl_cons, ih _ (fun y hy => h y (by simp [hy]))]
    have hx := h x (by simp)
    unfold record
    split_ifs with h1 h2
    · rw [val_sets, if_neg (by rintro ⟨rfl, -⟩; exact hx rfl), parSeti, val_sets,
        if_neg (by rintro ⟨rfl, -⟩; exact hx rfl)]
    · rw [val_sets, if_neg (by rintro ⟨rfl, -⟩; exact hx rfl), parSeti, val_sets,
        if_neg (by rintro ⟨rfl, -⟩; exact hx rfl)]
    · rfl

theorem record_val (F : DFmt R) (l : List (Out R × Bool)) : ∀ db, (l.map (·.1.n)).Nodup → ∀ x ∈ l, 0 < x.1.n →
    val (l.foldl (record F) db) (outBlock x.1.n) sNum = some (fmtInt (if x.2 then x.1.num + 1 else x.1.num)) ∧
    val (l.foldl (record F) db) (outBlock x.1.n) sTime = some (F.fmt x.1.t) := by
  induction l with
  | nil => intro db _ x hx; simp at hx
  | cons y l ih =>
    intro db hn x hx hpos
    rw [List.map_cons, List.nodup_cons] at hn
    rw [List.foldl_cons]
    rcases List.mem_cons.1 hx with rfl | hx
    · have hoth : ∀ z ∈ l, outBlock z.1.n ≠ outBlock x.1.n := by
        intro z hz e
        apply hn.1
        rw [← outBlock_inj e]
        exact List.mem_map_of_mem (f := fun z : Out R × Bool => z.1.n) hz
      rw [record_val_other F l _ _ _ hoth, record_val_other F l _ _ _ hoth]
      unfold record
      rw [if_pos hpos]
      dsimp only
      constructor
      · rw [val_sets, if_neg (by simp [sNum_ne])]
        split_ifs with h2
        · rw [parSeti, val_sets, if_pos ⟨rfl, rfl⟩]
        · rw [parSeti, val_sets, if_pos ⟨rfl, rfl⟩]
      · rw [val_sets, if_pos ⟨rfl, rfl⟩]
    · exact ih _ hn.2 x hx hpos

/-- After a call that wrote a restart file, the database holds the number and time that each output has
after the call. -/
theorem dataOutput_records {F : DFmt R} {time : R} {flag : Bool} {db db' : DB} {s s' : Outs R}
    {es : List (Event R)} (h : dataOutput F time flag db s = .ok (db', s', es)) (k : Nat) (hn : Nums k s)
    (hw : rstNums es ≠ []) :
    ∀ o, (o ∈ s.arr ∨ s.rst = some o) →
      val db' (outBlock o.n) sNum = some (fmtInt (stepOut time flag o).num) ∧
      val db' (outBlock o.n) sTime = some (F.fmt (stepOut time flag o).t) := by
  have hcall := dump_call h hn.nodup
  have hok := dataOutput_ok h
  unfold dataOutput at h
  dsimp only at h
  split_ifs at h with hu
  simp only [Res.ok.injEq, Prod.mk.injEq] at h
  obtain ⟨h1, h2, h3⟩ := h
  cases hr : s.rst with
  | none =>
    exfalso
    apply hw
    obtain ⟨-, -, rs, rfl, h⟩ := hok
    rcases h with ⟨rfl, -⟩ | ⟨ro, e, -⟩
    · rw [List.nil_append]
      unfold rstNums
      rw [List.filterMap_eq_nil_iff]
      intro e he
      obtain ⟨o, -, ho⟩ := List.mem_flatMap.1 he
      rw [evOut_eq] at ho
      split_ifs at ho
      · rw [List.mem_singleton] at ho; subst ho; rfl
      · simp at ho
    · rw [hr] at e; simp at e
  | some ro =>
    have hro := (hcall.2 ro hr).1
    have hcond : flag = true ∨ ro.t ≤ time := by
      by_contra hc
      rw [if_neg hc] at hro
      exact hw hro
    have hc2 : (check time flag ro).2 = true := by
      unfold check
      rcases hcond with rfl | hc
      · split_ifs <;> rfl
      · have : time ≥ ro.t := hc
        rw [if_pos this]
    have hcn : (check time flag ro).1.n = ro.n := by unfold check; split_ifs <;> rfl
    simp only [hr, hc2, if_true] at h1
    rw [← h1]
    have hcheck : ∀ o : Out R, (stepOut time flag o).t = (check time flag o).1.t ∧
        (stepOut time flag o).num = (if (check time flag o).2 then (check time flag o).1.num + 1
          else (check time flag o).1.num) ∧ (check time flag o).1.n = o.n := by
      intro o
      unfold stepOut write check
      split_ifs <;> simp
    intro o ho
    rcases ho with ho | ho
    · have hne : outBlock o.n ≠ outBlock ro.n := by
        intro e
        apply hn.disj ro hr
        rw [← outBlock_inj e]
        exact List.mem_map_of_mem ho
      rw [hcn, val_sets, if_neg (by simp [hne]), val_sets, if_neg (by simp [hne]), parSeti, val_sets,
        if_neg (by simp [hne]), val_sets, if_neg (by simp [hne])]
      obtain ⟨c1, c2, c3⟩ := hcheck o
      have hnd : ((s.arr.map (check time flag)).map (·.1.n)).Nodup := by
        have : (s.arr.map (check time flag)).map (·.1.n) = s.arr.map (·.n) := by
          rw [List.map_map]
          apply List.map_congr_left
          intro o _
          exact (hcheck o).2.2
        rw [this]; exact hn.nodup
      have := record_val F (s.arr.map (check time flag)) db hnd (check time flag o) (List.mem_map_of_mem ho)
        (by rw [c3]; have := hn.range o ho; omega)
      rw [c3] at this
      rw [this.1, this.2, c1, c2]
      exact ⟨rfl, rfl⟩
    · cases ho
      obtain ⟨c1, c2, c3⟩ := hcheck ro
      rw [hcn]
      constructor
      · rw [val_sets, if_neg (by simp [sNum_ne]), parSeti, val_sets, if_pos ⟨rfl, rfl⟩, c2, hc2, if_pos rfl]
      · rw [val_sets, if_pos ⟨rfl, rfl⟩, c1]

theorem nums_congr {k : Nat} {s s' : Outs R} (φ : Out R → Out R) (hφ : ∀ o, (φ o).n = o.n)
    (h1 : s'.arr = s.arr.map φ) (h2 : s'.rst = s.rst.map φ) (h : Nums k s) : Nums k s' := by
  have e : s'.arr.map (·.n) = s.arr.map (·.n) := by rw [h1, List.map_map]; simp [Function.comp_def, hφ]
  refine ⟨by rw [e]; exact h.nodup, ?_, ?_, ?_⟩
  · intro o ho
    rw [h1] at ho
    obtain ⟨x, hx, rfl⟩ := List.mem_map.1 ho
    rw [hφ]; exact h.range x hx
  · intro o ho
    rw [h2] at ho
    obtain ⟨x, hx, rfl⟩ := Option.map_eq_some_iff.1 ho
    rw [hφ]; exact h.rrange x hx
  · intro o ho
    rw [h2] at ho
    obtain ⟨x, hx, rfl⟩ := Option.map_eq_some_iff.1 ho
    rw [hφ, e]; exact h.disj x hx

end Athena.Run
