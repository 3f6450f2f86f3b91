import Verif.Run.RestartFile
import Verif.Par.FileProps
import Verif.Par.DbLemmas

/-! Lemmas for C10, C11 (src/restart.c). -/

namespace Athena.Run.Rst
open Athena.Par

variable {V : Type}

/-! ## The write buffer -/

theorem pushAll_ok {α : Type} (cap : Nat) (vs : List α) : ∀ st : List α × List α, st.1.length + vs.length ≤ cap →
    pushAll cap vs st = .ok (st.1 ++ vs, st.2) := by
  induction vs with
  | nil => intro st _; simp [pushAll]
  | cons v vs ih =>
    intro st h
    simp only [List.length_cons] at h
    simp only [pushAll, push]
    rw [if_pos (by omega), Res.bind_ok, ih _ (by simp; omega)]
    simp

theorem bufLoop_ok {α : Type} (cap grp : Nat) (hc : grp ≤ cap) (gs : List (List α)) :
    ∀ st : List α × List α, (∀ g ∈ gs, g.length ≤ grp) → st.1.length + grp ≤ cap →
    ∃ st', bufLoop cap grp gs st = .ok st' ∧ st'.2 ++ st'.1 = st.2 ++ st.1 ++ gs.flatten := by
  induction gs with
  | nil => intro st _ _; exact ⟨st, rfl, by simp⟩
  | cons g gs ih =>
    intro st hg h
    have hgl := hg g (by simp)
    simp only [bufLoop]
    rw [pushAll_ok cap g st (by omega), Res.bind_ok]
    dsimp only
    by_cases hf : (st.1 ++ g).length + grp > cap
    · rw [if_pos hf]
      obtain ⟨st', e1, e2⟩ := ih ([], st.2 ++ (st.1 ++ g)) (fun q hq => hg q (by simp [hq])) (by simpa using hc)
      exact ⟨st', e1, by rw [e2]; simp⟩
    · rw [if_neg hf]
      obtain ⟨st', e1, e2⟩ := ih (st.1 ++ g, st.2) (fun q hq => hg q (by simp [hq])) (by simpa using hf)
      exact ⟨st', e1, by rw [e2]; simp⟩

theorem bufWrite_ok {α : Type} (cap grp : Nat) (hc : grp ≤ cap) (gs : List (List α))
    (hg : ∀ g ∈ gs, g.length ≤ grp) : bufWrite cap grp gs = .ok gs.flatten := by
  obtain ⟨st, e1, e2⟩ := bufLoop_ok cap grp hc gs ([], []) hg (by simpa using hc)
  unfold bufWrite
  rw [e1, Res.bind_ok]
  simp only [List.append_nil, List.nil_append] at e2
  by_cases h : st.1.length > 0
  · rw [if_pos h, e2]; rfl
  · rw [if_neg h]
    have : st.1 = [] := by cases hs : st.1 with
      | nil => rfl
      | cons => simp [hs] at h
    rw [this, List.append_nil] at e2
    rw [e2]; rfl

theorem wVals_ok {α : Type} (p : Plat V) (c : Codec α) (h : c.size ≤ p.bufBytes) (vs : List α) :
    wVals p c vs = .ok (encAll c vs) := by
  unfold wVals
  rw [bufWrite_ok _ 1 (Nat.div_pos h c.pos) _ (by intro g hg; rw [List.mem_map] at hg; obtain ⟨v, _, rfl⟩ := hg; simp)]
  have : ∀ l : List α, (l.map ([·])).flatten = l := by
    intro l; induction l with
    | nil => rfl
    | cons a l ih => simp only [List.map_cons, List.flatten_cons, ih, List.singleton_append]
  simp [this]

/-! ## Reading what was written -/

theorem fread_enc {α : Type} (c : Codec α) (a : α) (h : c.fits a) (rest : Str) :
    fread c (c.enc a ++ rest) = .ok (a, rest) := by
  unfold fread
  have hl := c.len a
  rw [if_neg (by simp [hl])]
  rw [List.take_left' hl, List.drop_left' hl, c.rt a h]

theorem fgetsGo_line (l rest : Str) : ∀ n, '\n' ∉ l → l.length < n → fgetsGo n (l ++ '\n' :: rest) = (l ++ ['\n'], rest) := by
  induction l with
  | nil =>
    intro n _ h
    obtain ⟨m, rfl⟩ : ∃ m, n = m + 1 := ⟨n-1, by simp at h; omega⟩
    simp [fgetsGo]
  | cons c l ih =>
    intro n hl h
    obtain ⟨m, rfl⟩ : ∃ m, n = m + 1 := ⟨n-1, by simp at h; omega⟩
    simp only [List.mem_cons, not_or, List.length_cons] at hl h
    rw [List.cons_append]
    unfold fgetsGo
    rw [if_neg (fun e => hl.1 e.symm), ih m hl.2 (by omega)]
    simp

theorem fgets_line (line l rest : Str) (hl : '\n' ∉ l) (h : l.length < MAXLEN - 1) :
    fgets line (l ++ '\n' :: rest) = (l ++ ['\n'], rest) := by
  unfold fgets
  rw [if_neg (by simp), fgetsGo_line l rest _ hl h]

theorem cstr_noNul (l : Str) (h : NUL ∉ l) : cstr l 0 = l := by
  unfold cstr
  rw [List.drop_zero]
  induction l with
  | nil => rfl
  | cons c l ih =>
    simp only [List.mem_cons, not_or] at h
    rw [List.takeWhile_cons_of_pos (by simpa using fun e => h.1 e.symm), ih h.2]

theorem strncmp0_self (l t : Str) (n : Nat) (hl : NUL ∉ l) (ht : NUL ∉ t) (h : n ≤ l.length) :
    strncmp0 (l ++ t) l n = true := by
  unfold strncmp0
  rw [cstr_noNul l hl, cstr_noNul (l ++ t) (by simp [hl, ht])]
  rw [decide_eq_true_eq, List.append_assoc, List.take_append_of_le_length h, List.take_append_of_le_length h]

/-- A header that can be written and recognised. -/
structure HdrOK (h : Str) : Prop where
  nl : '\n' ∉ h
  nul : NUL ∉ h
  len : h.length < MAXLEN - 1

theorem rHdr_ok (h : Str) (n : Nat) (hh : HdrOK h) (hn : n ≤ h.length) (rest : Str) :
    rHdr h n (header h ++ rest) = .ok rest := by
  unfold rHdr
  have e1 : fgets [] (header h ++ rest) = (['\n'], h ++ '\n' :: rest) := by
    have := fgets_line [] [] (h ++ '\n' :: rest) (by simp) (by decide)
    simpa [header] using this
  simp only [e1]
  rw [fgets_line _ h rest hh.nl hh.len]
  dsimp only
  rw [strncmp0_self h ['\n'] n hh.nul (by decide) hn, if_pos rfl]

/-- `a` on the listed indices, `a0` elsewhere. -/
def overlay (idx : List Idx) (a a0 : Idx → V) : Idx → V := fun x => if x ∈ idx then a x else a0 x

theorem rLoop_ok (p : Plat V) (hR : ∀ v, p.R.fits v) (a : Idx → V) (rest : Str) (idx : List Idx) :
    ∀ a0, rLoop p idx a0 (encAll p.R (idx.map a) ++ rest) = .ok (overlay idx a a0, rest) := by
  induction idx with
  | nil => intro a0; simp [rLoop, encAll]; funext x; simp [overlay]
  | cons x xs ih =>
    intro a0
    have e : encAll p.R ((x :: xs).map a) ++ rest = p.R.enc (a x) ++ (encAll p.R (xs.map a) ++ rest) := by
      simp [encAll]
    rw [e]
    simp only [rLoop]
    rw [fread_enc _ _ (hR _), Res.bind_ok]
    dsimp only
    rw [ih]
    congr 2
    funext y
    unfold overlay
    by_cases hy : y ∈ xs
    · rw [if_pos hy, if_pos (by simp [hy])]
    · rw [if_neg hy]
      by_cases hx : y = x
      · subst hx; rw [if_pos (by simp)]; simp
      · rw [if_neg (by simp [hx, hy]), Function.update_of_ne hx]

/-! ## Index ranges -/

theorem mem_loop (a b x : Nat) : x ∈ loop a b ↔ a ≤ x ∧ x ≤ b := by
  unfold loop; rw [List.mem_range'_1]; omega

theorem mem_box (ks ke js je is ie : Nat) (x : Idx) : x ∈ box ks ke js je is ie ↔
    (ks ≤ x.1 ∧ x.1 ≤ ke) ∧ (js ≤ x.2.1 ∧ x.2.1 ≤ je) ∧ is ≤ x.2.2 ∧ x.2.2 ≤ ie := by
  obtain ⟨k, j, i⟩ := x
  unfold box
  simp only [List.mem_flatMap, List.mem_map, mem_loop, Prod.mk.injEq]
  constructor
  · rintro ⟨k', hk, j', hj, i', hi, rfl, rfl, rfl⟩; exact ⟨hk, hj, hi⟩
  · rintro ⟨hk, hj, hi⟩; exact ⟨k, hk, j, hj, i, hi, rfl, rfl, rfl⟩

/-- Two Grids of the same shape. -/
structure SameShape (g g' : Grid V) : Prop where
  is : g'.is = g.is
  ie : g'.ie = g.ie
  js : g'.js = g.js
  je : g'.je = g.je
  ks : g'.ks = g.ks
  ke : g'.ke = g.ke
  n1z : g'.n1z = g.n1z
  n2z : g'.n2z = g.n2z
  n3z : g'.n3z = g.n3z

theorem SameShape.inB {g g' : Grid V} (h : SameShape g g') : Rst.inB g' = Rst.inB g := by
  funext x; unfold Rst.inB; rw [h.n1z, h.n2z, h.n3z]

theorem SameShape.zones {g g' : Grid V} (h : SameShape g g') : Rst.zones g' = Rst.zones g := by
  unfold Rst.zones; rw [h.is, h.ie, h.js, h.je, h.ks, h.ke]

theorem SameShape.faces1 {g g' : Grid V} (h : SameShape g g') (e : Ext) : Rst.faces1 g' e = Rst.faces1 g e := by
  unfold Rst.faces1; rw [h.is, h.ie, h.js, h.je, h.ks, h.ke]
theorem SameShape.faces2 {g g' : Grid V} (h : SameShape g g') (e : Ext) : Rst.faces2 g' e = Rst.faces2 g e := by
  unfold Rst.faces2; rw [h.is, h.ie, h.js, h.je, h.ks, h.ke]
theorem SameShape.faces3 {g g' : Grid V} (h : SameShape g g') (e : Ext) : Rst.faces3 g' e = Rst.faces3 g e := by
  unfold Rst.faces3; rw [h.is, h.ie, h.js, h.je, h.ks, h.ke]
theorem SameShape.upd {g g' : Grid V} (h : SameShape g g') (e : Ext) : e.upd g' = e.upd g := by
  unfold Ext.upd; rw [h.is, h.ie, h.js, h.je, h.ks, h.ke]

/-- The section written: it is the header and the values, if all accesses are inside the array. -/
theorem wSec_ok (p : Plat V) (hb : p.R.size ≤ p.bufBytes) (g : Grid V) (h : Str) (idx : List Idx) (a : Idx → V)
    (hin : idx.all (inB g) = true) : wSec p g h idx a = .ok (header h ++ encAll p.R (idx.map a)) := by
  unfold wSec
  rw [if_pos hin, wVals_ok p p.R hb]; rfl

theorem rSec_ok (p : Plat V) (hR : ∀ v, p.R.fits v) (g cur : Grid V) (hs : SameShape g cur) (h : Str) (n : Nat)
    (hh : HdrOK h) (hn : n ≤ h.length) (idx : List Idx) (a a0 : Idx → V) (hin : idx.all (inB g) = true) (rest : Str) :
    rSec p cur h n idx a0 (header h ++ encAll p.R (idx.map a) ++ rest) = .ok (overlay idx a a0, rest) := by
  unfold rSec
  rw [List.append_assoc, rHdr_ok h n hh hn, Res.bind_ok, hs.inB, if_pos hin, rLoop_ok p hR]

/-! ## One Grid -/

/-- `cur` while the file is being read into `g0`: the variables in `done` have their values `W`, the
rest is as in `g0`. -/
structure St (g g0 : Grid V) (time dt : V) (done : Var → Prop) (W : Var → Idx → V) (cur : Grid V) : Prop where
  shape : SameShape g cur
  time : cur.time = time
  dt : cur.dt = dt
  val : ∀ v x, done v → x ∈ zones g → cur.U v x = W v x
  old : ∀ v x, ¬ (done v ∧ x ∈ zones g) → cur.U v x = g0.U v x
  nparticle : cur.nparticle = g0.nparticle
  arrsize : cur.arrsize = g0.arrsize
  part : cur.part = g0.part

theorem rVar_ok (p : Plat V) (hR : ∀ v, p.R.fits v) (hb : p.R.size ≤ p.bufBytes) (g g0 : Grid V) (time dt : V)
    (done : Var → Prop) (W : Var → Idx → V) (cur : Grid V) (h : St g g0 time dt done W cur) (v : Var)
    (hv : ∀ x, W v x = g.U v x) (hdr : Str) (n : Nat) (hh : HdrOK hdr) (hn : n ≤ hdr.length)
    (hin : (zones g).all (inB g) = true) :
    ∃ t cur', wSec p g hdr (zones g) (g.U v) = .ok t ∧ (∀ rest, rVar p hdr n v cur (t ++ rest) = .ok (cur', rest)) ∧
      St g g0 time dt (fun u => done u ∨ u = v) W cur' ∧ cur'.B1i = cur.B1i ∧ cur'.B2i = cur.B2i ∧
      cur'.B3i = cur.B3i := by
  refine ⟨_, { cur with U := Function.update cur.U v (overlay (zones g) (g.U v) (cur.U v)) },
    wSec_ok p hb g _ _ _ hin, ?_, ?_, rfl, rfl, rfl⟩
  · intro rest
    unfold rVar
    rw [h.shape.zones, rSec_ok p hR g cur h.shape hdr n hh hn _ _ _ hin]
    rfl
  · refine ⟨⟨h.shape.1, h.shape.2, h.shape.3, h.shape.4, h.shape.5, h.shape.6, h.shape.7, h.shape.8, h.shape.9⟩,
      h.time, h.dt, ?_, ?_, h.nparticle, h.arrsize, h.part⟩
    · intro u x hu hx
      dsimp only
      by_cases huv : u = v
      · subst huv
        rw [Function.update_self, overlay, if_pos hx, hv]
      · rw [Function.update_of_ne huv]
        exact h.val u x (hu.resolve_right huv) hx
    · intro u x hu
      dsimp only
      by_cases huv : u = v
      · subst huv
        rw [Function.update_self, overlay, if_neg (fun hx => hu ⟨.inr rfl, hx⟩)]
        by_cases hd : done u ∧ x ∈ zones g
        · exact absurd ⟨.inl hd.1, hd.2⟩ hu
        · exact h.old u x hd
      · rw [Function.update_of_ne huv]
        exact h.old u x (fun hd => hu ⟨.inl hd.1, hd.2⟩)

theorem fmtInt_chars (n : Nat) (c : Char) (hc : c ∈ fmtInt n) : c.isDigit = true := by
  have : fmtInt (n : Int) = (toString n).toList := by
    unfold fmtInt; simp
  rw [this] at hc
  exact Nat.isDigit_of_mem_toDigits (b := 10) (n := n) (by decide) (by decide) (by simpa [toString] using hc)

theorem scalarHdr_ok (n : Nat) (h : (scalarHdr n).length < 16) : HdrOK (scalarHdr n) := by
  refine ⟨?_, ?_, Nat.lt_trans h (by decide)⟩
  · unfold scalarHdr
    rw [List.mem_append, not_or]
    exact ⟨by decide, fun hc => absurd (fmtInt_chars n _ hc) (by decide)⟩
  · unfold scalarHdr
    rw [List.mem_append, not_or]
    exact ⟨by decide, fun hc => absurd (fmtInt_chars n _ hc) (by decide)⟩

theorem fmtInt_ne_nil (n : Nat) : 1 ≤ (fmtInt n).length := by
  have : fmtInt (n : Int) = (toString n).toList := by unfold fmtInt; simp
  rw [this]
  have := @Nat.length_toDigits_pos 10 n
  simp only [toString, Nat.repr, String.toList_ofList]
  exact this

theorem scalars_ok (p : Plat V) (hR : ∀ v, p.R.fits v) (hb : p.R.size ≤ p.bufBytes) (g g0 : Grid V) (time dt : V)
    (W : Var → Idx → V) (hin : (zones g).all (inB g) = true) (ns : List Nat) :
    ∀ (done : Var → Prop) (cur : Grid V), St g g0 time dt done W cur →
    (∀ n ∈ ns, (∀ x, W (.s n) x = g.U (.s n) x) ∧ (scalarHdr n).length < 16) →
    ∃ t cur', wScalars p g ns = .ok t ∧ (∀ rest, rScalars p ns cur (t ++ rest) = .ok (cur', rest)) ∧
      St g g0 time dt (fun u => done u ∨ ∃ n ∈ ns, u = .s n) W cur' ∧ cur'.B1i = cur.B1i ∧ cur'.B2i = cur.B2i ∧
      cur'.B3i = cur.B3i := by
  induction ns with
  | nil =>
    intro done cur h _
    refine ⟨[], cur, rfl, by simp [rScalars], ?_, rfl, rfl, rfl⟩
    have : (fun u => done u ∨ ∃ n ∈ ([] : List Nat), u = .s n) = done := by funext u; simp
    rw [this]; exact h
  | cons n ns ih =>
    intro done cur h hns
    obtain ⟨hW, hlen⟩ := hns n (by simp)
    have hn8 : 8 ≤ (scalarHdr n).length := by
      have := fmtInt_ne_nil n
      unfold scalarHdr; rw [List.length_append]
      have : ("SCALAR ".toList).length = 7 := by decide
      omega
    obtain ⟨t1, cur1, w1, r1, h1, b1, b2, b3⟩ := rVar_ok p hR hb g g0 time dt done W cur h (.s n) hW (scalarHdr n) 8
      (scalarHdr_ok n hlen) hn8 hin
    obtain ⟨t, cur', e1, e2, e3, c1, c2, c3⟩ := ih (fun u => done u ∨ u = .s n) cur1 h1 (fun q hq => hns q (by simp [hq]))
    refine ⟨t1 ++ t, cur', ?_, ?_, ?_, c1.trans b1, c2.trans b2, c3.trans b3⟩
    · simp only [wScalars]
      rw [w1, e1]; rfl
    · intro rest
      simp only [rScalars]
      rw [if_pos hlen, List.append_assoc, r1, Res.bind_ok]
      exact e2 rest
    · have : (fun u => (done u ∨ u = Var.s n) ∨ ∃ m ∈ ns, u = .s m) =
          (fun u => done u ∨ ∃ m ∈ n :: ns, u = .s m) := by
        funext u; simp [or_assoc]
      rw [← this]; exact e3

/-! ## Magnetic field -/

theorem zones_faces {g : Grid V} (e : Ext) {x : Idx} (hx : x ∈ zones g) :
    x ∈ faces1 g e ∧ x ∈ faces2 g e ∧ x ∈ faces3 g e ∧
    (e.ib = 1 → (x.1, x.2.1, x.2.2 + 1) ∈ faces1 g e) ∧
    (e.jb = 1 → (x.1, x.2.1 + 1, x.2.2) ∈ faces2 g e) ∧
    (e.kb = 1 → (x.1 + 1, x.2.1, x.2.2) ∈ faces3 g e) := by
  unfold zones at hx
  rw [mem_box] at hx
  refine ⟨?_, ?_, ?_, fun h => ?_, fun h => ?_, fun h => ?_⟩ <;>
    simp only [faces1, faces2, faces3, mem_box] <;> omega

theorem setZones_st {g g0 : Grid V} {time dt : V} {done : Var → Prop} {W : Var → Idx → V} {cur : Grid V}
    (h : St g g0 time dt done W cur) (v : Var) (fn : Idx → V) (hf : ∀ x ∈ zones g, fn x = W v x) :
    St g g0 time dt (fun u => done u ∨ u = v) W (setZones cur v fn) := by
  unfold setZones
  refine ⟨⟨h.shape.1, h.shape.2, h.shape.3, h.shape.4, h.shape.5, h.shape.6, h.shape.7, h.shape.8, h.shape.9⟩,
      h.time, h.dt, ?_, ?_, h.nparticle, h.arrsize, h.part⟩
  · intro u x hu hx
    dsimp only
    by_cases huv : u = v
    · subst huv
      rw [Function.update_self, h.shape.zones, if_pos hx, hf x hx]
    · rw [Function.update_of_ne huv]
      exact h.val u x (hu.resolve_right huv) hx
  · intro u x hu
    dsimp only
    by_cases huv : u = v
    · subst huv
      rw [Function.update_self, h.shape.zones, if_neg (fun hx => hu ⟨.inr rfl, hx⟩)]
      exact h.old u x (fun hd => hu ⟨.inl hd.1, hd.2⟩)
    · rw [Function.update_of_ne huv]
      exact h.old u x (fun hd => hu ⟨.inl hd.1, hd.2⟩)

theorem field_ok (p : Plat V) (hR : ∀ v, p.R.fits v) (hb : p.R.size ≤ p.bufBytes) (g g0 : Grid V) (time dt : V)
    (done : Var → Prop) (W : Var → Idx → V) (cur : Grid V) (h : St g g0 time dt done W cur) (e : Ext)
    (h1 : (faces1 g e).all (inB g) = true) (h2 : (faces2 g e).all (inB g) = true) (h3 : (faces3 g e).all (inB g) = true)
    (hW1 : ∀ x, W .B1c x = if e.ib = 1 then p.avg (g.B1i x) (g.B1i (x.1, x.2.1, x.2.2 + 1)) else g.B1i x)
    (hW2 : ∀ x, W .B2c x = if e.jb = 1 then p.avg (g.B2i x) (g.B2i (x.1, x.2.1 + 1, x.2.2)) else g.B2i x)
    (hW3 : ∀ x, W .B3c x = if e.kb = 1 then p.avg (g.B3i x) (g.B3i (x.1 + 1, x.2.1, x.2.2)) else g.B3i x) :
    ∃ t cur', wField p e g = .ok t ∧ (∀ rest, rField p e cur (t ++ rest) = .ok (cur', rest)) ∧
      St g g0 time dt (fun u => ((done u ∨ u = .B1c) ∨ u = .B2c) ∨ u = .B3c) W cur' ∧
      cur'.B1i = overlay (faces1 g e) g.B1i cur.B1i ∧ cur'.B2i = overlay (faces2 g e) g.B2i cur.B2i ∧
      cur'.B3i = overlay (faces3 g e) g.B3i cur.B3i := by
  have hd1 : HdrOK "1-FIELD".toList := ⟨by decide, by decide, by decide⟩
  have hd2 : HdrOK "2-FIELD".toList := ⟨by decide, by decide, by decide⟩
  have hd3 : HdrOK "3-FIELD".toList := ⟨by decide, by decide, by decide⟩
  refine ⟨(header "1-FIELD".toList ++ encAll p.R ((faces1 g e).map g.B1i)) ++
      ((header "2-FIELD".toList ++ encAll p.R ((faces2 g e).map g.B2i)) ++
       (header "3-FIELD".toList ++ encAll p.R ((faces3 g e).map g.B3i))),
    centre p e (Grid.mk cur.is cur.ie cur.js cur.je cur.ks cur.ke cur.n1z cur.n2z cur.n3z cur.time cur.dt cur.U
      (overlay (faces1 g e) g.B1i cur.B1i) (overlay (faces2 g e) g.B2i cur.B2i) (overlay (faces3 g e) g.B3i cur.B3i)
      cur.nparticle cur.arrsize cur.part), ?_, ?_, ?_, rfl, rfl, rfl⟩
  · unfold wField
    rw [wSec_ok p hb g _ _ _ h1, wSec_ok p hb g _ _ _ h2, wSec_ok p hb g _ _ _ h3]; rfl
  · intro rest
    unfold rField
    rw [h.shape.faces1, h.shape.faces2, h.shape.faces3, List.append_assoc,
      rSec_ok p hR g cur h.shape _ 7 hd1 (by decide) _ _ _ h1, Res.bind_ok]
    dsimp only
    rw [List.append_assoc, rSec_ok p hR g cur h.shape _ 7 hd2 (by decide) _ _ _ h2, Res.bind_ok]
    dsimp only
    rw [rSec_ok p hR g cur h.shape _ 7 hd3 (by decide) _ _ _ h3, Res.bind_ok]
    rfl
  · unfold centre
    dsimp only
    have h0 : St g g0 time dt done W (Grid.mk cur.is cur.ie cur.js cur.je cur.ks cur.ke cur.n1z cur.n2z cur.n3z
        cur.time cur.dt cur.U (overlay (faces1 g e) g.B1i cur.B1i) (overlay (faces2 g e) g.B2i cur.B2i)
        (overlay (faces3 g e) g.B3i cur.B3i) cur.nparticle cur.arrsize cur.part) :=
      ⟨⟨h.shape.1, h.shape.2, h.shape.3, h.shape.4, h.shape.5, h.shape.6, h.shape.7, h.shape.8, h.shape.9⟩,
        h.time, h.dt, h.val, h.old, h.nparticle, h.arrsize, h.part⟩
    refine setZones_st (setZones_st (setZones_st h0 _ _ ?_) _ _ ?_) _ _ ?_
    · intro x hx
      obtain ⟨f1, f2, f3, n1, n2, n3⟩ := zones_faces e hx
      rw [hW1]
      dsimp only [overlay, setZones]
      rw [if_pos f1]
      by_cases hi : e.ib = 1
      · rw [if_pos hi, if_pos hi, if_pos (n1 hi)]
      · rw [if_neg hi, if_neg hi]
    · intro x hx
      obtain ⟨f1, f2, f3, n1, n2, n3⟩ := zones_faces e hx
      rw [hW2]
      dsimp only [overlay, setZones]
      rw [if_pos f2]
      by_cases hi : e.jb = 1
      · rw [if_pos hi, if_pos hi, if_pos (n2 hi)]
      · rw [if_neg hi, if_neg hi]
    · intro x hx
      obtain ⟨f1, f2, f3, n1, n2, n3⟩ := zones_faces e hx
      rw [hW3]
      dsimp only [overlay, setZones]
      rw [if_pos f3]
      by_cases hi : e.kb = 1
      · rw [if_pos hi, if_pos hi, if_pos (n3 hi)]
      · rw [if_neg hi, if_neg hi]

/-! ## Particles -/

theorem rPartLoop_ok {α : Type} (c : Codec α) (set : Part V → α → Part V) (get : Part V → α) (rest : Str)
    (ls : List (Part V)) : ∀ (s : Nat) (a0 : Nat → Part V), (∀ q ∈ ls, c.fits (get q)) →
    rPartLoop c set (List.range' s ls.length) a0 (encAll c (ls.map get) ++ rest) =
      .ok (fun i => if i < s then a0 i else (ls[i-s]?).elim (a0 i) (fun q => set (a0 i) (get q)), rest) := by
  induction ls with
  | nil => intro s a0 _; simp [rPartLoop, encAll]
  | cons q ls ih =>
    intro s a0 hf
    have e : encAll c ((q :: ls).map get) ++ rest = c.enc (get q) ++ (encAll c (ls.map get) ++ rest) := by
      simp [encAll]
    rw [e, List.length_cons, List.range'_succ]
    simp only [rPartLoop]
    rw [fread_enc _ _ (hf q (by simp)), Res.bind_ok]
    dsimp only
    rw [ih (s+1) _ (fun r hr => hf r (by simp [hr]))]
    congr 2
    funext i
    by_cases h1 : i < s
    · rw [if_pos h1, if_pos (by omega), Function.update_of_ne (by omega)]
    · rw [if_neg h1]
      by_cases h2 : i = s
      · subst h2
        rw [if_pos (by omega), Function.update_self]; simp
      · rw [if_neg (by omega), Function.update_of_ne h2]
        obtain ⟨m, hm⟩ : ∃ m, i - s = m + 1 := ⟨i - s - 1, by omega⟩
        rw [hm, show i - (s+1) = m by omega, List.getElem?_cons_succ]

/-- `g` with new particle data. -/
def withParts (g : Grid V) (n arr : Nat) (a : Nat → Part V) : Grid V :=
  { g with nparticle := n, arrsize := arr, part := a }

theorem withParts_part (g : Grid V) (n arr : Nat) (a b : Nat → Part V) :
    { withParts g n arr a with part := b } = withParts g n arr b := rfl

/-- Reading one member of all particles; `fn i q` is the particle `i` made so far from the written particle `q`. -/
theorem rPart_ok {α : Type} (p : Plat V) (c : Codec α) (hb : c.size ≤ p.bufBytes) (g g1 : Grid V) (arr : Nat)
    (a : Nat → Part V) (hdr : Str) (n : Nat)
    (set : Part V → α → Part V) (get : Part V → α) (hh : HdrOK hdr) (hn : n ≤ hdr.length)
    (hf : ∀ q ∈ live g, c.fits (get q)) (hg : g.nparticle ≤ g.arrsize) (ha : (live g).length ≤ arr)
    (a0 : Nat → Part V) (fn : Nat → Part V → Part V) (hcur : ∀ i, a i = ((live g)[i]?).elim (a0 i) (fn i)) :
    ∃ (t : Str) (a' : Nat → Part V) (fn' : Nat → Part V → Part V), wPart p g c hdr get = .ok t ∧
      (∀ rest, rPart c hdr n set (withParts g1 (live g).length arr a) (t ++ rest) =
        .ok (withParts g1 (live g).length arr a', rest)) ∧
      (∀ i, a' i = ((live g)[i]?).elim (a0 i) (fn' i)) ∧ (∀ i q, fn' i q = set (fn i q) (get q)) := by
  refine ⟨header hdr ++ encAll c ((live g).map get),
    fun i => ((live g)[i]?).elim (a i) (fun q => set (a i) (get q)), fun i q => set (fn i q) (get q), ?_, ?_, ?_, fun _ _ => rfl⟩
  · unfold wPart; rw [if_pos hg, wVals_ok p c hb]; rfl
  · intro rest
    unfold rPart
    have h1 : (withParts g1 (live g).length arr a).nparticle = (live g).length := rfl
    have h2 : (withParts g1 (live g).length arr a).arrsize = arr := rfl
    have h3 : (withParts g1 (live g).length arr a).part = a := rfl
    rw [List.append_assoc, rHdr_ok hdr n hh hn, Res.bind_ok, h1, h2, h3, if_pos ha, List.range_eq_range',
      rPartLoop_ok c set get rest (live g) 0 _ hf, Res.bind_ok]
    simp only [Nat.not_lt_zero, if_false, Nat.sub_zero, withParts_part]
    rfl
  · intro i
    dsimp only
    rw [hcur]
    cases (live g)[i]? <;> rfl

theorem rTypeLoop_ok (cfg : Cfg) (p : Plat V) (hR : ∀ v, p.R.fits v) (rest : Str) (a : Nat → PType V) (n : Nat) :
    ∀ (s : Nat) (a0 : Nat → PType V),
    rTypeLoop cfg p (List.range' s n) a0
      (encAll p.R (((List.range' s n).map a).map (typeVals cfg)).flatten ++ rest) =
      .ok (fun i => if s ≤ i ∧ i < s + n then
        { a0 i with m := if cfg.feedback then (a i).m else (a0 i).m, rad := (a i).rad, rho := (a i).rho, tstop0 := (a i).tstop0, grrhoa := (a i).grrhoa } else a0 i,
        rest) := by
  induction n with
  | zero =>
    intro s a0
    simp only [List.range'_zero, List.map_nil, List.flatten_nil, encAll, rTypeLoop, List.flatMap_nil, List.nil_append, Res.ok.injEq,
      Prod.mk.injEq, and_true]
    funext i
    rw [if_neg (by omega)]
  | succ n ih =>
    intro s a0
    rw [List.range'_succ]
    obtain ⟨X, hX⟩ : ∃ X, X = encAll p.R (((List.range' (s+1) n).map a).map (typeVals cfg)).flatten ++ rest := ⟨_, rfl⟩
    have e : encAll p.R (((s :: List.range' (s+1) n).map a).map (typeVals cfg)).flatten ++ rest =
        encAll p.R (typeVals cfg (a s)) ++ X := by
      rw [hX]; simp [encAll]
    have e2 : encAll p.R (typeVals cfg (a s)) ++ X = (if cfg.feedback then p.R.enc (a s).m else []) ++
        (p.R.enc (a s).rad ++ (p.R.enc (a s).rho ++ (p.R.enc (a s).tstop0 ++ (p.R.enc (a s).grrhoa ++ X)))) := by
      unfold typeVals; cases cfg.feedback <;> simp [encAll]
    rw [e, e2]
    simp only [rTypeLoop]
    have hm : ∀ Y : Str, (bif cfg.feedback then fread p.R ((if cfg.feedback = true then p.R.enc (a s).m else []) ++ Y)
          else .ok ((a0 s).m, (if cfg.feedback = true then p.R.enc (a s).m else []) ++ Y)) =
        .ok (if cfg.feedback then (a s).m else (a0 s).m, Y) := by
      intro Y
      cases cfg.feedback
      · simp
      · simp only [if_true, cond_true]; rw [fread_enc _ _ (hR _)]
    rw [hm, Res.bind_ok]
    dsimp only
    rw [fread_enc _ _ (hR _), Res.bind_ok]; dsimp only
    rw [fread_enc _ _ (hR _), Res.bind_ok]; dsimp only
    rw [fread_enc _ _ (hR _), Res.bind_ok]; dsimp only
    rw [fread_enc _ _ (hR _), Res.bind_ok]; dsimp only
    rw [hX, ih]
    congr 2
    funext i
    by_cases h2 : i = s
    · subst h2
      rw [if_neg (show ¬ (i + 1 ≤ i ∧ i < i + 1 + n) by omega), Function.update_self,
        if_pos (show i ≤ i ∧ i < i + (n + 1) by omega)]
    · rw [Function.update_of_ne h2]
      by_cases h3 : s ≤ i ∧ i < s + (n+1)
      · rw [if_pos h3, if_pos (by omega)]
      · rw [if_neg h3, if_neg (by omega)]

theorem rIntegLoop_ok (p : Plat V) (rest : Str) (a : Nat → PType V) (n : Nat) :
    ∀ (s : Nat) (a0 : Nat → PType V), (∀ i, i < s + n → p.S.fits (a i).integrator) →
    rIntegLoop p (List.range' s n) a0 (encAll p.S (((List.range' s n).map a).map (·.integrator)) ++ rest) =
      .ok (fun i => if s ≤ i ∧ i < s + n then { a0 i with integrator := (a i).integrator } else a0 i, rest) := by
  induction n with
  | zero =>
    intro s a0 _
    simp only [List.range'_zero, List.map_nil, encAll, rIntegLoop, List.flatMap_nil, List.nil_append, Res.ok.injEq,
      Prod.mk.injEq, and_true]
    funext i
    rw [if_neg (by omega)]
  | succ n ih =>
    intro s a0 hf
    rw [List.range'_succ]
    have e : encAll p.S (((s :: List.range' (s+1) n).map a).map (·.integrator)) ++ rest =
        p.S.enc (a s).integrator ++ (encAll p.S (((List.range' (s+1) n).map a).map (·.integrator)) ++ rest) := by
      simp [encAll]
    rw [e]
    simp only [rIntegLoop]
    rw [fread_enc _ _ (hf s (by omega)), Res.bind_ok]
    dsimp only
    rw [ih (s+1) _ (fun i hi => hf i (by omega))]
    congr 2
    funext i
    by_cases h2 : i = s
    · subst h2
      rw [if_neg (show ¬ (i + 1 ≤ i ∧ i < i + 1 + n) by omega), Function.update_self,
        if_pos (show i ≤ i ∧ i < i + (n + 1) by omega)]
    · rw [Function.update_of_ne h2]
      by_cases h3 : s ≤ i ∧ i < s + (n+1)
      · rw [if_pos h3, if_pos (by omega)]
      · rw [if_neg h3, if_neg (by omega)]

theorem countNum_ok (n : Nat) (qs : List (Part V)) : ∀ a : Nat → PType V,
    (∀ q ∈ qs, 0 ≤ q.property ∧ q.property < n) →
    countNum n qs a = .ok (fun i => { a i with num := (a i).num + (qs.countP (fun q => decide (q.property = (i : Int))) : Nat) }) := by
  induction qs with
  | nil => intro a _; simp [countNum]
  | cons q qs ih =>
    intro a h
    have hq := h q (by simp)
    simp only [countNum]
    rw [if_pos hq, ih _ (fun r hr => h r (by simp [hr]))]
    congr 1
    funext i
    by_cases hi : i = q.property.toNat
    · have : q.property = (i : Int) := by omega
      rw [← hi, Function.update_self, List.countP_cons_of_pos (by simpa using this)]
      dsimp only
      congr 1
      push_cast; omega
    · have : ¬ q.property = (i : Int) := by omega
      rw [Function.update_of_ne hi, List.countP_cons_of_neg (by simpa using this)]

end Athena.Run.Rst
