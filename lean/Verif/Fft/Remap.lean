import Verif.Fft.Pack
import Mathlib.Data.List.Nodup
import Mathlib.Data.List.Induction

/-!
# The redistribution is correct

For every number of processes, every set of boxes, every storage order, every number of values per element, every order in which the
messages arrive and whatever the memory contained before: each process ends with exactly its part of the data set (`remap_correct`); each
receive is matched by one message of its length (`messages_match`); the places of `scratch` do not overlap (`recvs_apart`) and nothing outside
the box's own part of the output array is written.
-/

namespace Athena.Fft
variable {D : Type _}

/-! ## The loop over the processes -/

theorem ring_val {P me i : ℕ} (hm : me < P) (hi : i < P) : (me + 1 + i) % P = if me + 1 + i < P then me + 1 + i else me + 1 + i - P := by
  split
  · exact Nat.mod_eq_of_lt ‹_›
  · rw [Nat.mod_eq_sub_mod (by omega), Nat.mod_eq_of_lt (by omega)]

/-- The processes other than `me`, in the order of the loops. -/
def ringInit (P me : ℕ) : List ℕ := (List.range (P - 1)).map fun i => (me + 1 + i) % P

theorem ring_eq {P me : ℕ} (hm : me < P) : ring P me = ringInit P me ++ [me] := by
  obtain ⟨n, rfl⟩ : ∃ n, P = n + 1 := ⟨P - 1, by omega⟩
  unfold ring ringInit
  rw [List.range_succ, List.map_append]
  congr 1
  simp only [List.map_cons, List.map_nil]
  rw [ring_val hm (by omega)]
  congr 1
  split <;> omega

theorem mem_ringInit {P me p : ℕ} (hm : me < P) : p ∈ ringInit P me ↔ p < P ∧ p ≠ me := by
  unfold ringInit
  simp only [List.mem_map, List.mem_range]
  constructor
  · rintro ⟨i, hi, rfl⟩
    rw [ring_val hm (by omega)]
    split <;> omega
  · rintro ⟨hp, hne⟩
    rcases lt_or_gt_of_ne hne with h | h
    · refine ⟨p + P - me - 1, by omega, ?_⟩
      rw [ring_val hm (by omega)]
      split <;> omega
    · refine ⟨p - me - 1, by omega, ?_⟩
      rw [ring_val hm (by omega)]
      split <;> omega

theorem nodup_ringInit {P me : ℕ} (hm : me < P) : (ringInit P me).Nodup := by
  unfold ringInit
  apply List.Nodup.map_on _ List.nodup_range
  intro i hi j hj h
  rw [List.mem_range] at hi hj
  rw [ring_val hm (by omega), ring_val hm (by omega)] at h
  split at h <;> split at h <;> omega

theorem others_eq {α : Type _} (proc : α → ℕ) (me : ℕ) (l1 l2 : List α) (h1 : ∀ x ∈ l1, proc x ≠ me) (h2 : l2 = [] ∨ ∃ y, l2 = [y] ∧ proc y = me) :
    others proc me (l1 ++ l2) = l1 := by
  unfold others
  rcases h2 with rfl | ⟨y, rfl, hy⟩
  · rw [List.append_nil]
    rcases hl : l1.getLast? with _ | x
    · rfl
    · simp only
      rw [if_neg (h1 x (List.mem_of_getLast? hl))]
  · simp [hy]

/-! ## Sends -/

/-- The entry for `p`, if there is an overlap. -/
def sendOpt (nq : ℕ) (ins outs : ℕ → Ext) (me p : ℕ) : Option SendRec := (collide (ins me) (outs p)).map (send1 nq (ins me) p)

theorem sends_eq (nq : ℕ) {P me : ℕ} (hm : me < P) (ins outs : ℕ → Ext) :
    sends nq P ins outs me = (ringInit P me).filterMap (sendOpt nq ins outs me) ++ (sendOpt nq ins outs me me).toList := by
  unfold sends
  rw [ring_eq hm, List.filterMap_append]
  congr 1

theorem sendOpt_proc {nq : ℕ} {ins outs : ℕ → Ext} {me p : ℕ} {s : SendRec} (h : sendOpt nq ins outs me p = some s) : s.proc = p := by
  unfold sendOpt at h
  rcases hc : collide (ins me) (outs p) with _ | o
  · simp [hc] at h
  · simp only [hc, Option.map_some, Option.some.injEq] at h
    rw [← h]; rfl

theorem others_sends (nq : ℕ) {P me : ℕ} (hm : me < P) (ins outs : ℕ → Ext) :
    others SendRec.proc me (sends nq P ins outs me) = (ringInit P me).filterMap (sendOpt nq ins outs me) := by
  rw [sends_eq nq hm]
  apply others_eq
  · intro x hx
    obtain ⟨p, hp, hs⟩ := List.mem_filterMap.mp hx
    rw [sendOpt_proc hs]
    exact ((mem_ringInit hm).mp hp).2
  · rcases h : sendOpt nq ins outs me me with _ | s
    · left; rfl
    · right; exact ⟨s, rfl, sendOpt_proc h⟩

theorem filter_one (nq : ℕ) (ins outs : ℕ → Ext) (q me : ℕ) (l : List ℕ) (hn : l.Nodup) :
    (l.filterMap (sendOpt nq ins outs q)).filter (fun s => s.proc = me) = if me ∈ l then (sendOpt nq ins outs q me).toList else [] := by
  induction l with
  | nil => simp
  | cons p l ih =>
    have hnl := ih (List.nodup_cons.mp hn).2
    have hpl := (List.nodup_cons.mp hn).1
    by_cases hpm : p = me
    · subst hpm
      rw [if_neg hpl] at hnl
      rw [if_pos (List.mem_cons_self ..)]
      rcases h : sendOpt nq ins outs q p with _ | s
      · rw [List.filterMap_cons_none h, hnl]; rfl
      · rw [List.filterMap_cons_some h, List.filter_cons_of_pos (by simpa using sendOpt_proc h), hnl]; rfl
    · have e : (if me ∈ p :: l then (sendOpt nq ins outs q me).toList else []) = if me ∈ l then (sendOpt nq ins outs q me).toList else [] := by
        by_cases hl : me ∈ l
        · rw [if_pos hl, if_pos (List.mem_cons_of_mem _ hl)]
        · rw [if_neg hl, if_neg (by rw [List.mem_cons]; rintro (h | h); exacts [hpm h.symm, hl h])]
      rw [e, ← hnl]
      rcases h : sendOpt nq ins outs q p with _ | s
      · rw [List.filterMap_cons_none h]
      · rw [List.filterMap_cons_some h, List.filter_cons_of_neg (by simpa [sendOpt_proc h] using hpm)]

theorem messages_eq (nq : ℕ) {P q me : ℕ} (hq : q < P) (hm : me < P) (hne : q ≠ me) (ins outs : ℕ → Ext) (data : ℕ → Mem D) :
    messages nq P ins outs data q me = ((sendOpt nq ins outs q me).toList).map fun s => pack (data q) s.off s.pk := by
  unfold messages
  rw [others_sends nq hq, filter_one nq ins outs q me _ (nodup_ringInit hq), if_pos ((mem_ringInit hq).mpr ⟨hm, fun h => hne h.symm⟩)]

/-! ## Receives -/

theorem recvGo_append (nq perm : ℕ) (e : Ext) (ins : ℕ → Ext) (ib : ℤ) (l : List ℕ) (p : ℕ) :
    ∃ ib', recvGo nq perm e ins ib (l ++ [p]) = recvGo nq perm e ins ib l ++ recvGo nq perm e ins ib' [p] := by
  induction l generalizing ib with
  | nil => exact ⟨ib, rfl⟩
  | cons a l ih =>
    rcases h : collide e (ins a) with _ | o
    · obtain ⟨ib', h'⟩ := ih ib
      refine ⟨ib', ?_⟩
      simp only [List.cons_append, recvGo, h]
      exact h'
    · obtain ⟨ib', h'⟩ := ih (ib + (recv1 nq perm e ib a o).size)
      refine ⟨ib', ?_⟩
      simp only [List.cons_append, recvGo, h]
      rw [h']; rfl

theorem recvGo_mem {nq perm : ℕ} {e : Ext} {ins : ℕ → Ext} {ib : ℤ} {l : List ℕ} {r : RecvRec} (h : r ∈ recvGo nq perm e ins ib l) :
    r.proc ∈ l ∧ ∃ o, collide e (ins r.proc) = some o ∧ r = recv1 nq perm e r.bufloc r.proc o := by
  induction l generalizing ib with
  | nil => simp [recvGo] at h
  | cons a l ih =>
    rcases hc : collide e (ins a) with _ | o
    · simp only [recvGo, hc] at h
      obtain ⟨h1, h2⟩ := ih h
      exact ⟨List.mem_cons_of_mem _ h1, h2⟩
    · simp only [recvGo, hc, List.mem_cons] at h
      rcases h with rfl | h
      · exact ⟨List.mem_cons_self .., o, hc, rfl⟩
      · obtain ⟨h1, h2⟩ := ih h
        exact ⟨List.mem_cons_of_mem _ h1, h2⟩

theorem recvGo_has {nq perm : ℕ} {e : Ext} {ins : ℕ → Ext} (ib : ℤ) {l : List ℕ} {p : ℕ} {o : Ext} (hp : p ∈ l) (h : collide e (ins p) = some o) :
    ∃ r ∈ recvGo nq perm e ins ib l, r.proc = p := by
  induction l generalizing ib with
  | nil => simp at hp
  | cons a l ih =>
    rcases List.mem_cons.mp hp with rfl | hp
    · exact ⟨recv1 nq perm e ib p o, by simp [recvGo, h], rfl⟩
    · rcases hc : collide e (ins a) with _ | o'
      · obtain ⟨r, hr, e⟩ := ih ib hp
        exact ⟨r, by simp only [recvGo, hc]; exact hr, e⟩
      · obtain ⟨r, hr, e⟩ := ih (ib + (recv1 nq perm e ib a o').size) hp
        exact ⟨r, by simp only [recvGo, hc]; exact List.mem_cons_of_mem _ hr, e⟩

theorem size_nonneg {nq perm : ℕ} {e e' : Ext} {ib : ℤ} {p : ℕ} {o : Ext} (h : collide e e' = some o) : 0 ≤ (recv1 nq perm e ib p o).size := by
  obtain ⟨-, hi, hj, hk⟩ := collide_some h
  unfold recv1 Ext.isize Ext.jsize Ext.ksize
  simp only
  have h1 : (0 : ℤ) ≤ o.ihi - o.ilo + 1 := by omega
  have h2 : (0 : ℤ) ≤ o.jhi - o.jlo + 1 := by omega
  have h3 : (0 : ℤ) ≤ o.khi - o.klo + 1 := by omega
  positivity

/-- The places given out are one after the other. -/
theorem recvGo_apart (nq perm : ℕ) (e : Ext) (ins : ℕ → Ext) (ib : ℤ) (l : List ℕ) :
    (recvGo nq perm e ins ib l).Pairwise (fun r r' => r.bufloc + r.size ≤ r'.bufloc) ∧ ∀ r ∈ recvGo nq perm e ins ib l, ib ≤ r.bufloc := by
  induction l generalizing ib with
  | nil => simp [recvGo]
  | cons a l ih =>
    rcases hc : collide e (ins a) with _ | o
    · simp only [recvGo, hc]; exact ih ib
    · simp only [recvGo, hc]
      obtain ⟨h1, h2⟩ := ih (ib + (recv1 nq perm e ib a o).size)
      have hs := size_nonneg (nq := nq) (perm := perm) (ib := ib) (p := a) hc
      refine ⟨List.pairwise_cons.mpr ⟨fun r hr => h2 r hr, h1⟩, fun r hr => ?_⟩
      rcases List.mem_cons.mp hr with rfl | hr
      · exact le_refl _
      · exact le_trans (by omega) (h2 r hr)

/-- The receives from other processes, and the entry for the process itself. -/
theorem recvs_split (nq perm : ℕ) {P me : ℕ} (hm : me < P) (ins outs : ℕ → Ext) :
    ∃ ib', recvs nq perm P ins outs me
      = others RecvRec.proc me (recvs nq perm P ins outs me) ++ recvGo nq perm (outs me) ins ib' [me]
      ∧ others RecvRec.proc me (recvs nq perm P ins outs me) = recvGo nq perm (outs me) ins 0 (ringInit P me) := by
  obtain ⟨ib', h⟩ := recvGo_append nq perm (outs me) ins 0 (ringInit P me) me
  have e : recvs nq perm P ins outs me = recvGo nq perm (outs me) ins 0 (ringInit P me) ++ recvGo nq perm (outs me) ins ib' [me] := by
    unfold recvs; rw [ring_eq hm, h]
  have h2 : others RecvRec.proc me (recvs nq perm P ins outs me) = recvGo nq perm (outs me) ins 0 (ringInit P me) := by
    rw [e]
    apply others_eq
    · intro x hx
      exact ((mem_ringInit hm).mp (recvGo_mem hx).1).2
    · rcases hc : collide (outs me) (ins me) with _ | o
      · left; simp [recvGo, hc]
      · right; exact ⟨recv1 nq perm (outs me) ib' me o, by simp [recvGo, hc], rfl⟩
  exact ⟨ib', by rw [h2]; exact e, h2⟩

theorem recvs_apart (nq perm P : ℕ) (ins outs : ℕ → Ext) (me : ℕ) :
    (recvs nq perm P ins outs me).Pairwise (fun r r' => r.bufloc + r.size ≤ r'.bufloc) ∧ ∀ r ∈ recvs nq perm P ins outs me, 0 ≤ r.bufloc :=
  recvGo_apart nq perm (outs me) ins 0 (ring P me)

/-! ## The sizes of an overlap -/

theorem sizes {a b o : Ext} (h : collide a b = some o) :
    ∃ ni nj nk : ℕ, o.isize = ni ∧ o.jsize = nj ∧ o.ksize = nk ∧ 0 < ni ∧ 0 < nj ∧ 0 < nk := by
  obtain ⟨-, hi, hj, hk⟩ := collide_some h
  refine ⟨o.isize.toNat, o.jsize.toNat, o.ksize.toNat, ?_, ?_, ?_, ?_, ?_, ?_⟩ <;> simp only [Ext.isize, Ext.jsize, Ext.ksize] <;> omega

/-- Each receive of a process from another is met by exactly one message, of the length it expects; and to a process that expects none,
none is sent. -/
theorem messages_match (nq perm : ℕ) {P q me : ℕ} (hq : q < P) (hm : me < P) (hne : q ≠ me) (ins outs : ℕ → Ext) (data : ℕ → Mem D) :
    (∀ r ∈ recvs nq perm P ins outs me, r.proc = q → ∃ b : List D, messages nq P ins outs data q me = [b] ∧ (b.length : ℤ) = r.size)
    ∧ ((∀ r ∈ recvs nq perm P ins outs me, r.proc ≠ q) → messages nq P ins outs data q me = []) := by
  rw [messages_eq nq hq hm hne]
  constructor
  · intro r hr hrq
    obtain ⟨-, o, ho, hre⟩ := recvGo_mem hr
    rw [hrq] at ho hre
    obtain ⟨ni, nj, nk, hi, hj, hk, -⟩ := sizes ho
    rw [collide_comm] at ho
    refine ⟨pack (data q) (send1 nq (ins q) me o).off (send1 nq (ins q) me o).pk, by simp [sendOpt, ho], ?_⟩
    rw [send_pack nq (ins q) me o ni nj nk hi hj hk, List.length_map, length_cells, hre]
    simp only [recv1, hi, hj, hk]
    push_cast; ring
  · intro h
    rcases hc : collide (ins q) (outs me) with _ | o
    · simp [sendOpt, hc]
    · exfalso
      rw [collide_comm] at hc
      obtain ⟨r, hr, e⟩ := recvGo_has (nq := nq) (perm := perm) 0 (l := ring P me) (p := q) (by
        rw [ring_eq hm]; exact List.mem_append_left _ ((mem_ringInit hm).mpr ⟨hq, hne⟩)) hc
      exact h r hr e

/-! ## The scratch space -/

theorem foldl_store_out (msg : RecvRec → List D) (l : List RecvRec) (s : Mem D) (a : ℤ) (h : ∀ r ∈ l, a < r.bufloc ∨ r.bufloc + (msg r).length ≤ a) :
    l.foldl (fun s r => store s r.bufloc (msg r)) s a = s a := by
  induction l generalizing s with
  | nil => rfl
  | cons r l ih =>
    rw [List.foldl_cons, ih _ (fun r hr => h r (List.mem_cons_of_mem _ hr)), store_out _ _ _ _ (h r (List.mem_cons_self ..))]

theorem foldl_store_in (msg : RecvRec → List D) (l : List RecvRec) (s : Mem D) (hp : l.Pairwise (fun r r' => r.bufloc + r.size ≤ r'.bufloc))
    (hl : ∀ r ∈ l, ((msg r).length : ℤ) = r.size) (r : RecvRec) (hr : r ∈ l) (n : ℕ) (hn : n < (msg r).length) :
    l.foldl (fun s r => store s r.bufloc (msg r)) s (r.bufloc + n) = (msg r)[n] := by
  induction l generalizing s with
  | nil => simp at hr
  | cons a l ih =>
    obtain ⟨hp1, hp2⟩ := List.pairwise_cons.mp hp
    rw [List.foldl_cons]
    rcases List.mem_cons.mp hr with rfl | hr
    · rw [foldl_store_out, store_in _ _ _ _ hn]
      intro r' hr'
      left
      have := hp1 r' hr'
      have := hl r (List.mem_cons_self ..)
      omega
    · exact ih _ hp2 (fun r hr => hl r (List.mem_cons_of_mem _ hr)) hr

/-- At the place of the receive `r` there are the numbers of the overlap, in the order of the loops. -/
def Filled (nq perm : ℕ) (ins outs : ℕ → Ext) (data : ℕ → Mem D) (me : ℕ) (scr : Mem D) (r : RecvRec) : Prop :=
  ∃ (o : Ext) (ni nj nk : ℕ), collide (outs me) (ins r.proc) = some o ∧ r = recv1 nq perm (outs me) r.bufloc r.proc o ∧ o.isize = ni ∧ o.jsize = nj
    ∧ o.ksize = nk ∧ ∀ n (h : n < (cells ni nj nk nq).length), scr (r.bufloc + n)
      = data r.proc (nq * place 0 (ins r.proc) (o.ilo + (cells ni nj nk nq)[n].2.2.1) (o.jlo + (cells ni nj nk nq)[n].2.1)
          (o.klo + (cells ni nj nk nq)[n].1) + (cells ni nj nk nq)[n].2.2.2)

/-- What one unpacking does to the output array. -/
theorem step_out {nq perm : ℕ} {ins outs : ℕ → Ext} {data : ℕ → Mem D} {me : ℕ} {scr : Mem D} {r : RecvRec}
    (hf : Filled nq perm ins outs data me scr r) (d : Mem D) :
    (∀ i j k c, (outs me).has i j k → c < nq →
      let x := nq * place perm (outs me) i j k + (c : ℤ)
      let d' := unpack scr r.bufloc d r.off (unpackAddr perm nq r.pk)
      ((ins r.proc).has i j k → d' x = data r.proc (nq * place 0 (ins r.proc) i j k + c)) ∧ (¬ (ins r.proc).has i j k → d' x = d x))
    ∧ ∀ x : ℤ, x < 0 ∨ nq * ((outs me).isize * (outs me).jsize * (outs me).ksize) ≤ x →
        unpack scr r.bufloc d r.off (unpackAddr perm nq r.pk) x = d x := by
  obtain ⟨o, ni, nj, nk, hc, hr, hi, hj, hk, hs⟩ := hf
  obtain ⟨hhas, -⟩ := collide_some hc
  have hoff : ∀ t, r.off + toAddr perm nq (outs me) t = nq * place perm (outs me) (o.ilo + t.2.2.1) (o.jlo + t.2.1) (o.klo + t.1) + t.2.2.2 := by
    intro t; rw [hr]; exact recv_place ..
  have hadr : unpackAddr perm nq r.pk = (cells ni nj nk nq).map (toAddr perm nq (outs me)) := by
    rw [hr]; exact recv_addr _ _ _ _ _ _ _ _ _ hi hj hk
  have hin : ∀ t ∈ cells ni nj nk nq, o.has (o.ilo + t.2.2.1) (o.jlo + t.2.1) (o.klo + t.1) ∧ t.2.2.2 < nq := by
    rintro ⟨s, m, f, c⟩ ht
    obtain ⟨h1, h2, h3, h4⟩ := mem_cells.mp ht
    unfold Ext.isize at hi; unfold Ext.jsize at hj; unfold Ext.ksize at hk
    refine ⟨⟨⟨?_, ?_⟩, ⟨?_, ?_⟩, ⟨?_, ?_⟩⟩, h4⟩ <;> simp only <;> omega
  rw [hadr]
  constructor
  · intro i j k c hout hcq x d'
    have key := unpack_at scr r.bufloc d r.off ((cells ni nj nk nq).map (toAddr perm nq (outs me))) x
      (data r.proc (nq * place 0 (ins r.proc) i j k + c)) 0 (by
      intro n h hx
      rw [List.length_map] at h
      rw [List.getElem_map, hoff] at hx
      have ht := List.getElem_mem h
      obtain ⟨ho, hcn⟩ := hin _ ht
      obtain ⟨e1, e2, e3, e4⟩ := place_inj perm nq (outs me) ((hhas _ _ _).mp ho).1 hout hcn hcq hx
      rw [Nat.zero_add, hs n h, e1, e2, e3, e4])
    constructor
    · intro hq
      apply key.1
      obtain ⟨⟨a1, a2⟩, ⟨a3, a4⟩, ⟨a5, a6⟩⟩ := (hhas i j k).mpr ⟨hout, hq⟩
      have ei : (o.ilo + ((i - o.ilo).toNat : ℤ)) = i := by omega
      have ej : (o.jlo + ((j - o.jlo).toNat : ℤ)) = j := by omega
      have ek : (o.klo + ((k - o.klo).toNat : ℤ)) = k := by omega
      refine ⟨_, List.mem_map.mpr ⟨((k - o.klo).toNat, (j - o.jlo).toNat, (i - o.ilo).toNat, c), mem_cells.mpr ?_, rfl⟩, ?_⟩
      · unfold Ext.isize at hi; unfold Ext.jsize at hj; unfold Ext.ksize at hk
        refine ⟨?_, ?_, ?_, hcq⟩ <;> omega
      · rw [hoff]; simp only [ei, ej, ek, x]
    · intro hq
      apply key.2
      intro a ha hx
      obtain ⟨t, ht, rfl⟩ := List.mem_map.mp ha
      rw [hoff] at hx
      obtain ⟨ho, hcn⟩ := hin t ht
      obtain ⟨e1, e2, e3, e4⟩ := place_inj perm nq (outs me) ((hhas _ _ _).mp ho).1 hout hcn hcq hx
      rw [e1, e2, e3] at ho
      exact hq ((hhas _ _ _).mp ho).2
  · intro x hx
    by_cases hex : ∃ a ∈ (cells ni nj nk nq).map (toAddr perm nq (outs me)), r.off + a = x
    · exfalso
      obtain ⟨a, ha, hax⟩ := hex
      obtain ⟨t, ht, rfl⟩ := List.mem_map.mp ha
      rw [hoff] at hax
      obtain ⟨ho, hcn⟩ := hin t ht
      obtain ⟨b1, b2⟩ := place_bound perm (outs me) ((hhas _ _ _).mp ho).1
      have := digit_bound (n := (nq : ℤ)) (b := (t.2.2.2 : ℤ)) b1 b2 (by omega) (by exact_mod_cast hcn)
      rcases hx with h | h
      · linarith [this.1, mul_comm (nq : ℤ) (place perm (outs me) (o.ilo + t.2.2.1) (o.jlo + t.2.1) (o.klo + t.1))]
      · linarith [this.2, mul_comm (nq : ℤ) (place perm (outs me) (o.ilo + t.2.2.1) (o.jlo + t.2.1) (o.klo + t.1)),
          mul_comm (nq : ℤ) ((outs me).isize * (outs me).jsize * (outs me).ksize)]
    · push Not at hex
      refine (unpack_at scr r.bufloc d r.off _ x (d x) 0 ?_).2 hex
      intro n h hx
      exact absurd hx (hex _ (List.getElem_mem h))

/-- A sequence of unpackings. -/
theorem steps_out {nq perm P : ℕ} {ins outs : ℕ → Ext} {data : ℕ → Mem D} {me : ℕ} {scr : Mem D} {A : ℤ → ℤ → ℤ → ℕ → D}
    (hin : ∀ q < P, Holds nq 0 (ins q) A (data q)) (l : List RecvRec)
    (hf : ∀ r ∈ l, r.proc < P ∧ Filled nq perm ins outs data me scr r) (d : Mem D) :
    let d' := l.foldl (fun d r => unpack scr r.bufloc d r.off (unpackAddr perm nq r.pk)) d
    (∀ i j k c, (outs me).has i j k → c < nq → ((∃ r ∈ l, (ins r.proc).has i j k) ∨ d (nq * place perm (outs me) i j k + c) = A i j k c) →
      d' (nq * place perm (outs me) i j k + c) = A i j k c)
    ∧ ∀ x : ℤ, x < 0 ∨ nq * ((outs me).isize * (outs me).jsize * (outs me).ksize) ≤ x → d' x = d x := by
  induction l generalizing d with
  | nil =>
    refine ⟨fun i j k c _ _ h => ?_, fun _ _ => rfl⟩
    rcases h with ⟨r, hr, -⟩ | h
    · simp at hr
    · exact h
  | cons r l ih =>
    intro d'
    obtain ⟨hrP, hrF⟩ := hf r (List.mem_cons_self ..)
    obtain ⟨s1, s2⟩ := step_out hrF d
    obtain ⟨h1, h2⟩ := ih (fun r hr => hf r (List.mem_cons_of_mem _ hr)) (unpack scr r.bufloc d r.off (unpackAddr perm nq r.pk))
    constructor
    · intro i j k c hout hc h
      apply h1 i j k c hout hc
      obtain ⟨t1, t2⟩ := s1 i j k c hout hc
      by_cases hq : (ins r.proc).has i j k
      · right
        rw [t1 hq]
        exact hin r.proc hrP i j k hq c hc
      · rcases h with ⟨r', hr', hh⟩ | h
        · rcases List.mem_cons.mp hr' with rfl | hr'
          · exact absurd hh hq
          · left; exact ⟨r', hr', hh⟩
        · right; rw [t2 hq]; exact h
    · intro x hx
      have := h2 x hx
      rw [s2 x hx] at this
      exact this

/-- The buffer the entry `r` of process `me` is filled with. -/
def msgOf (nq P : ℕ) (ins outs : ℕ → Ext) (data : ℕ → Mem D) (me : ℕ) (r : RecvRec) : List D :=
  if r.proc = me then
    (match sendOpt nq ins outs me me with
      | some s => pack (data me) s.off s.pk
      | none => [])
  else (messages nq P ins outs data r.proc me).headD []

theorem msgOf_eq (nq perm : ℕ) {P me : ℕ} (hm : me < P) (ins outs : ℕ → Ext) (data : ℕ → Mem D) {r : RecvRec} (hr : r ∈ recvs nq perm P ins outs me) :
    r.proc < P ∧ ∃ o ni nj nk, collide (outs me) (ins r.proc) = some o ∧ r = recv1 nq perm (outs me) r.bufloc r.proc o ∧ o.isize = (ni : ℕ)
      ∧ o.jsize = (nj : ℕ) ∧ o.ksize = (nk : ℕ) ∧ msgOf nq P ins outs data me r = (cells ni nj nk nq).map fun t =>
        data r.proc (nq * place 0 (ins r.proc) (o.ilo + t.2.2.1) (o.jlo + t.2.1) (o.klo + t.1) + t.2.2.2) := by
  obtain ⟨hp, o, ho, hre⟩ := recvGo_mem hr
  rw [ring_eq hm] at hp
  obtain ⟨ni, nj, nk, hi, hj, hk, -⟩ := sizes ho
  have hP : r.proc < P := by
    rcases List.mem_append.mp hp with h | h
    · exact ((mem_ringInit hm).mp h).1
    · rw [List.mem_singleton.mp h]; exact hm
  refine ⟨hP, o, ni, nj, nk, ho, hre, hi, hj, hk, ?_⟩
  have ho' := ho
  rw [collide_comm] at ho'
  unfold msgOf
  split
  · rename_i h
    rw [h] at ho' ⊢
    simp only [sendOpt, ho', Option.map_some]
    exact send_pack nq (ins me) me o ni nj nk hi hj hk _
  · rename_i h
    rw [messages_eq nq hP hm h]
    simp only [sendOpt, ho', Option.map_some, Option.toList_some, List.map_cons, List.map_nil, List.headD_cons]
    exact send_pack nq (ins r.proc) me o ni nj nk hi hj hk _

theorem filled_all (nq perm : ℕ) {P me : ℕ} (hm : me < P) (ins outs : ℕ → Ext) (data : ℕ → Mem D) (s : Mem D) {r : RecvRec}
    (hr : r ∈ recvs nq perm P ins outs me) :
    Filled nq perm ins outs data me ((recvs nq perm P ins outs me).foldl (fun s r => store s r.bufloc (msgOf nq P ins outs data me r)) s) r := by
  obtain ⟨hP, o, ni, nj, nk, ho, hre, hi, hj, hk, hmsg⟩ := msgOf_eq nq perm hm ins outs data hr
  refine ⟨o, ni, nj, nk, ho, hre, hi, hj, hk, fun n h => ?_⟩
  rw [foldl_store_in (msgOf nq P ins outs data me) _ s (recvs_apart nq perm P ins outs me).1 _ r hr n (by rw [hmsg, List.length_map]; exact h)]
  · simp only [hmsg, List.getElem_map]
  · intro r' hr'
    obtain ⟨-, o', ni', nj', nk', -, hre', hi', hj', hk', hmsg'⟩ := msgOf_eq nq perm hm ins outs data hr'
    rw [hmsg', List.length_map, length_cells, hre']
    simp only [recv1, hi', hj', hk']
    push_cast; ring

/-- **The redistribution.**  `P` processes hold a data set `A` in the boxes `ins`, and every element of the box `outs me` is in one of them.
After `remap_3d` process `me` holds its part of `A` in the box `outs me` in storage order `perm`, in whatever order the messages arrive and
whatever `out` and `scratch` contained; nothing outside the part of `out` that belongs to the box is changed. -/
theorem remap_correct (nq perm : ℕ) {P me : ℕ} (hm : me < P) (ins outs : ℕ → Ext) (A : ℤ → ℤ → ℤ → ℕ → D) (data : ℕ → Mem D) (out scratch : Mem D)
    (order : List ℕ) (hin : ∀ q < P, Holds nq 0 (ins q) A (data q))
    (hcov : ∀ i j k, (outs me).has i j k → ∃ q < P, (ins q).has i j k)
    (hord : order.Perm (List.range (others RecvRec.proc me (recvs nq perm P ins outs me)).length)) :
    ∃ m, remap nq perm P ins outs data out scratch order me = some m ∧ Holds nq perm (outs me) A m
      ∧ ∀ x : ℤ, x < 0 ∨ nq * ((outs me).isize * (outs me).jsize * (outs me).ksize) ≤ x → m x = out x := by
  obtain ⟨ib', hsplit, hinit⟩ := recvs_split nq perm hm ins outs
  set rs := recvs nq perm P ins outs me with hrs
  set rl := others RecvRec.proc me rs with hrl
  set scrF := rs.foldl (fun s r => store s r.bufloc (msgOf nq P ins outs data me r)) scratch with hscrF
  have hfill : ∀ r ∈ rs, r.proc < P ∧ Filled nq perm ins outs data me scrF r := fun r hr =>
    ⟨(msgOf_eq nq perm hm ins outs data hr).1, filled_all nq perm hm ins outs data scratch hr⟩
  have hrlne : ∀ r ∈ rl, r.proc ≠ me := by
    intro r hr
    rw [hinit] at hr
    exact ((mem_ringInit hm).mp (recvGo_mem hr).1).2
  have hrec : received nq perm P ins outs data scratch me = rl.foldl (fun s r => store s r.bufloc (msgOf nq P ins outs data me r)) scratch := by
    unfold received
    rw [← hrs, ← hrl]
    apply List.foldl_ext
    intro s r hr
    simp only [msgOf, if_neg (hrlne r hr)]
  have hperm : (order.filterMap fun i => rl[i]?).Perm rl := by
    have h1 : (order.filterMap fun i => rl[i]?).Perm ((List.range rl.length).filterMap fun i => rl[i]?) := hord.filterMap _
    have h2 : ((List.range rl.length).filterMap fun i => rl[i]?) = rl := by
      clear hord hrec hrlne hfill hsplit hinit
      generalize rl = l
      induction l using List.reverseRecOn with
      | nil => rfl
      | append_singleton l a ih =>
        rw [List.length_append, List.length_singleton, List.range_succ, List.filterMap_append]
        have : ((List.range l.length).filterMap fun i => (l ++ [a])[i]?) = (List.range l.length).filterMap fun i => l[i]? := by
          apply List.filterMap_congr
          intro i hi
          rw [List.mem_range] at hi
          rw [List.getElem?_append_left hi]
        rw [this, ih]
        simp
    rw [h2] at h1; exact h1
  have hcovr : ∀ i j k, (outs me).has i j k → ∃ r ∈ rs, (ins r.proc).has i j k := by
    intro i j k h
    obtain ⟨q, hq, hh⟩ := hcov i j k h
    obtain ⟨o, ho⟩ := collide_of h hh
    obtain ⟨r, hr, e⟩ := recvGo_has (nq := nq) (perm := perm) 0 (l := ring P me) (p := q) (by
      rw [ring_eq hm]
      by_cases hqm : q = me
      · subst hqm; exact List.mem_append_right _ (by simp)
      · exact List.mem_append_left _ ((mem_ringInit hm).mpr ⟨hq, hqm⟩)) ho
    exact ⟨r, hr, by rw [e]; exact hh⟩
  rcases hc : collide (outs me) (ins me) with _ | o
  · have hself : recvGo nq perm (outs me) ins ib' [me] = [] := by simp [recvGo, hc]
    rw [hself, List.append_nil] at hsplit
    have hscr : received nq perm P ins outs data scratch me = scrF := by rw [hrec, hscrF, hsplit]
    refine ⟨_, by simp only [remap]; rw [← hrs, ← hrl, if_pos (by rw [← hsplit]), hscr]; rfl, ?_⟩
    obtain ⟨k1, k2⟩ := steps_out (A := A) hin (order.filterMap fun i => rl[i]?) (fun r hr => hfill r (by
      rw [hsplit]; exact hperm.mem_iff.mp hr)) out
    refine ⟨fun i j k h c hcq => k1 i j k c h hcq (Or.inl ?_), k2⟩
    obtain ⟨r, hr, hh⟩ := hcovr i j k h
    exact ⟨r, hperm.mem_iff.mpr (by rw [← hsplit]; exact hr), hh⟩
  · have hself : recvGo nq perm (outs me) ins ib' [me] = [recv1 nq perm (outs me) ib' me o] := by simp [recvGo, hc]
    rw [hself] at hsplit
    set rm := recv1 nq perm (outs me) ib' me o with hrm
    have hlen : ¬ rs.length = rl.length := by rw [hsplit]; simp
    have hc' : collide (ins me) (outs me) = some o := by rw [collide_comm]; exact hc
    have hss : (sends nq P ins outs me)[(others SendRec.proc me (sends nq P ins outs me)).length]? = some (send1 nq (ins me) me o) := by
      rw [others_sends nq hm, sends_eq nq hm]
      simp [sendOpt, hc']
    have hrr : rs[rl.length]? = some rm := by rw [hsplit]; simp
    have hscr : store (received nq perm P ins outs data scratch me) rm.bufloc (pack (data me) (send1 nq (ins me) me o).off (send1 nq (ins me) me o).pk)
        = scrF := by
      rw [hrec, hscrF, hsplit, List.foldl_append]
      simp only [List.foldl_cons, List.foldl_nil]
      congr 1
      simp [msgOf, hrm, recv1, sendOpt, hc']
    refine ⟨_, by simp only [remap]; rw [← hrs, ← hrl, if_neg hlen, hss, hrr]; simp only [hscr]; rfl, ?_⟩
    have hmem : ∀ r, r ∈ rm :: (order.filterMap fun i => rl[i]?) ↔ r ∈ rs := by
      intro r
      rw [hsplit, List.mem_cons, hperm.mem_iff, List.mem_append, List.mem_singleton]
      tauto
    obtain ⟨k1, k2⟩ := steps_out (A := A) hin (rm :: (order.filterMap fun i => rl[i]?)) (fun r hr => hfill r ((hmem r).mp hr)) out
    refine ⟨fun i j k h c hcq => k1 i j k c h hcq (Or.inl ?_), k2⟩
    obtain ⟨r, hr, hh⟩ := hcovr i j k h
    exact ⟨r, (hmem r).mpr hr, hh⟩

end Athena.Fft
