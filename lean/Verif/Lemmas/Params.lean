import Verif.Spec.Params
/-
Lemmas for C11.
-/
namespace Verif.Params
open Verif.Params.Spec

variable {K : Type}

theorem read_subview (h : Heap K) (v : View) (a b : Nat) (hab : a ≤ b) (hb : b ≤ v.len) :
    read h (subview v a b) = ((read h v).drop a).take (b - a) := by
  unfold read subview
  simp only
  rw [Nat.min_eq_left hb, Nat.min_eq_left (Nat.le_trans hab hb)]
  rw [List.drop_take, List.drop_drop, List.take_take]
  congr 1
  omega

theorem handOut_read (h : Heap K) (v : View) (ds : List Nat) (idx : Nat) (hs : idx + ds.sum ≤ v.len) :
    (handOut v idx ds).map (read h) = pieces ds ((read h v).drop idx) := by
  induction ds generalizing idx with
  | nil => rfl
  | cons d ds ih =>
    rw [List.sum_cons] at hs
    simp only [handOut, List.map_cons, pieces]
    rw [read_subview h v idx (idx + d) (by omega) (by omega), ih (idx + d) (by omega), List.drop_drop]
    congr 2
    omega

theorem handOut_len (v : View) (ds : List Nat) (idx : Nat) (hs : idx + ds.sum ≤ v.len) :
    (handOut v idx ds).map (·.len) = ds := by
  induction ds generalizing idx with
  | nil => rfl
  | cons d ds ih =>
    rw [List.sum_cons] at hs
    simp only [handOut, List.map_cons, subview]
    rw [ih (idx + d) (by omega)]
    congr 1
    omega

theorem handOut_get (v : View) (ds : List Nat) (idx i : Nat) (hs : idx + ds.sum ≤ v.len) :
    (handOut v idx ds)[i]? = ds[i]?.map (fun d => ⟨v.addr, v.off + (idx + start ds i), d⟩) := by
  induction ds generalizing idx i with
  | nil => rfl
  | cons d ds ih =>
    rw [List.sum_cons] at hs
    cases i with
    | zero =>
      simp only [handOut, List.getElem?_cons_zero, Option.map_some, subview, start, List.take_zero, List.sum_nil]
      congr 2 <;> omega
    | succ i =>
      simp only [handOut, List.getElem?_cons_succ]
      rw [ih (idx + d) i (by omega)]
      have : start (d :: ds) (i + 1) = d + start ds i := by simp [start]
      rw [this]
      congr 1
      funext x
      congr 2
      omega

theorem pieces_flatten (ds : List Nat) (v : List K) (h : v.length = ds.sum) : (pieces ds v).flatten = v := by
  induction ds generalizing v with
  | nil => rw [List.length_eq_zero_iff.1 h]; rfl
  | cons d ds ih =>
    rw [List.sum_cons] at h
    simp only [pieces, List.flatten_cons]
    rw [ih (v.drop d) (by simp [h])]
    exact List.take_append_drop d v

/-- A view that is a whole array. -/
def Whole (h : Heap K) (v : View) (n : Nat) : Prop :=
  v.addr < h.length ∧ v.off = 0 ∧ v.len = n ∧ (h.getD v.addr []).length = n

theorem Whole.read {h : Heap K} {v : View} {n : Nat} (w : Whole h v n) : read h v = h.getD v.addr [] := by
  obtain ⟨_, h2, h3, h4⟩ := w
  unfold Params.read
  rw [h2, h3, List.drop_zero, List.take_of_length_le (by omega)]

theorem getD_append_left (h : Heap K) (d : List K) (a : Nat) (ha : a < h.length) : (h ++ [d]).getD a [] = h.getD a [] := by
  simp [List.getD_eq_getElem?_getD, List.getElem?_append_left ha]

theorem getD_append_new (h : Heap K) (d : List K) : (h ++ [d]).getD h.length [] = d := by
  simp [List.getD_eq_getElem?_getD]

theorem Whole.append {h : Heap K} {v : View} {n : Nat} (w : Whole h v n) (d : List K) :
    Whole (h ++ [d]) v n ∧ Params.read (h ++ [d]) v = Params.read h v := by
  obtain ⟨h1, h2, h3, h4⟩ := w
  have hw : Whole (h ++ [d]) v n := ⟨by simp; omega, h2, h3, by rw [getD_append_left _ _ _ h1]; exact h4⟩
  refine ⟨hw, ?_⟩
  unfold Params.read
  rw [getD_append_left _ _ _ h1]

theorem Whole.new (h : Heap K) (d : List K) : Whole (h ++ [d]) ⟨h.length, 0, d.length⟩ d.length ∧
    Params.read (h ++ [d]) ⟨h.length, 0, d.length⟩ = d := by
  have hw : Whole (h ++ [d]) ⟨h.length, 0, d.length⟩ d.length := ⟨by simp, rfl, rfl, by simp [getD_append_new]⟩
  exact ⟨hw, by rw [hw.read]; exact getD_append_new h d⟩

theorem getD_set_self (h : Heap K) (a : Nat) (x : List K) (ha : a < h.length) : (h.set a x).getD a [] = x := by
  simp [List.getD_eq_getElem?_getD, ha]

theorem getD_set_ne (h : Heap K) (a b : Nat) (x : List K) (hab : a ≠ b) : (h.set a x).getD b [] = h.getD b [] := by
  simp [List.getD_eq_getElem?_getD, List.getElem?_set_ne hab]

theorem Whole.set_self {h : Heap K} {v : View} {n : Nat} (w : Whole h v n) (x : List K) (hx : x.length = n) :
    Whole (h.set v.addr x) v n ∧ Params.read (h.set v.addr x) v = x := by
  obtain ⟨h1, h2, h3, h4⟩ := w
  have hw : Whole (h.set v.addr x) v n := ⟨by simpa using h1, h2, h3, by rw [getD_set_self _ _ _ h1]; exact hx⟩
  exact ⟨hw, by rw [hw.read]; exact getD_set_self _ _ _ h1⟩

theorem Whole.set_ne {h : Heap K} {v : View} {n : Nat} (w : Whole h v n) (a : Nat) (x : List K) (ha : a ≠ v.addr) :
    Whole (h.set a x) v n ∧ Params.read (h.set a x) v = Params.read h v := by
  obtain ⟨h1, h2, h3, h4⟩ := w
  have hw : Whole (h.set a x) v n := ⟨by simpa using h1, h2, h3, by rw [getD_set_ne _ _ _ _ ha]; exact h4⟩
  refine ⟨hw, ?_⟩
  unfold Params.read
  rw [getD_set_ne _ _ _ _ ha]

/-- The simulation relation between the storage and the flat vectors. -/
structure Sim (dims : List Nat) (s : PS K) (a : Abs K) : Prop where
  wP : Whole s.heap s.netP dims.sum
  wD : Whole s.heap s.netD dims.sum
  wU : Whole s.heap s.user a.userLen
  sepPD : s.netP.addr ≠ s.netD.addr
  sepUD : s.user.addr ≠ s.netD.addr
  uP : if a.shared = true then s.user = s.netP else s.user.addr ≠ s.netP.addr
  cP : s.compP = handOut s.netP 0 dims
  cD : s.compD = handOut s.netD 0 dims
  ds : s.dims = dims
  vec : read s.heap s.netP = a.vec
  dvec : read s.heap s.netD = a.dvec

theorem Sim.shows {dims : List Nat} {s : PS K} {a : Abs K} (h : Sim dims s a) : Shows s dims a.vec a.dvec where
  net := h.vec
  comps := by
    rw [h.cP, handOut_read _ _ _ _ (by rw [h.wP.2.2.1]; omega), h.vec]; rfl
  netD := h.dvec
  compsD := by
    rw [h.cD, handOut_read _ _ _ _ (by rw [h.wD.2.2.1]; omega), h.dvec]; rfl

/-- writing into the parameter array -/
theorem Sim.writeP {dims : List Nat} {s : PS K} {a : Abs K} (h : Sim dims s a) (j : Nat) (x : K) :
    Sim dims { s with heap := s.heap.set s.netP.addr ((s.heap.getD s.netP.addr []).set j x) } { a with vec := a.vec.set j x } := by
  have hv : s.heap.getD s.netP.addr [] = a.vec := by rw [← h.wP.read, h.vec]
  obtain ⟨w1, r1⟩ := h.wP.set_self ((s.heap.getD s.netP.addr []).set j x) (by rw [List.length_set]; exact h.wP.2.2.2)
  obtain ⟨w2, r2⟩ := h.wD.set_ne s.netP.addr ((s.heap.getD s.netP.addr []).set j x) h.sepPD
  refine ⟨w1, w2, ?_, h.sepPD, h.sepUD, h.uP, h.cP, h.cD, h.ds, by rw [← hv]; exact r1, by rw [← h.dvec]; exact r2⟩
  have hu := h.uP
  by_cases hs : a.shared = true
  · rw [if_pos hs] at hu
    have := h.wU
    simp only [hu] at this ⊢
    exact (this.set_self _ (by rw [List.length_set]; exact this.2.2.2)).1
  · rw [if_neg hs] at hu
    exact (h.wU.set_ne _ _ (Ne.symm hu)).1

theorem Sim.writeD {dims : List Nat} {s : PS K} {a : Abs K} (h : Sim dims s a) (new : List K) (hn : new.length = dims.sum) :
    Sim dims { s with heap := s.heap.set s.netD.addr new } { a with dvec := new } := by
  obtain ⟨w1, r1⟩ := h.wD.set_self new hn
  obtain ⟨w2, r2⟩ := h.wP.set_ne s.netD.addr new (Ne.symm h.sepPD)
  obtain ⟨w3, -⟩ := h.wU.set_ne s.netD.addr new (Ne.symm h.sepUD)
  exact ⟨w2, w1, w3, h.sepPD, h.sepUD, h.uP, h.cP, h.cD, h.ds, by rw [← h.vec]; exact r2, r1⟩

theorem Sim.setParams {dims : List Nat} {s : PS K} {a : Abs K} (h : Sim dims s a) (p : List K) (hp : p.length = dims.sum) :
    Sim dims (setParams s p) { a with vec := p, userLen := p.length, shared := true } := by
  obtain ⟨w1, r1⟩ := Whole.new s.heap p
  obtain ⟨w2, r2⟩ := h.wD.append p
  have hl := handOut_len ⟨s.heap.length, 0, p.length⟩ dims 0 (by simp [hp])
  have hne : s.heap.length ≠ s.netD.addr := by have := h.wD.1; omega
  refine ⟨?_, w2, w1, hne, hne, ?_, ?_, h.cD, ?_, r1, by rw [← h.dvec]; exact r2⟩
  · simp only [Params.setParams, alloc]; rw [← hp]; exact w1
  · simp [Params.setParams, alloc]
  · simp only [Params.setParams, alloc]; rw [h.ds]
  · simp only [Params.setParams, alloc]; rw [h.ds]; exact hl

theorem Sim.sort {dims : List Nat} {s : PS K} {a : Abs K} (h : Sim dims s a) :
    Sim dims (sortModules s) { a with shared := false } := by
  have hsh := h.shows
  have hvl : a.vec.length = dims.sum := by rw [← h.vec, h.wP.read]; exact h.wP.2.2.2
  have hdl : a.dvec.length = dims.sum := by rw [← h.dvec, h.wD.read]; exact h.wD.2.2.2
  have ep : (s.compP.map (read s.heap)).flatten = a.vec := by rw [hsh.comps]; exact pieces_flatten dims a.vec hvl
  have ed : (s.compD.map (read s.heap)).flatten = a.dvec := by rw [hsh.compsD]; exact pieces_flatten dims a.dvec hdl
  have hl := handOut_len ⟨s.heap.length, 0, a.vec.length⟩ dims 0 (by simp [hvl])
  obtain ⟨w1, r1⟩ := Whole.new s.heap a.vec
  obtain ⟨w1', r1'⟩ := w1.append a.dvec
  obtain ⟨w2, r2⟩ := Whole.new (s.heap ++ [a.vec]) a.dvec
  obtain ⟨u1, -⟩ := h.wU.append a.vec
  obtain ⟨u2, -⟩ := u1.append a.dvec
  have hu := h.wU.1
  have hs : sortModules s = { s with
      heap := s.heap ++ [a.vec] ++ [a.dvec], netP := ⟨s.heap.length, 0, a.vec.length⟩,
      netD := ⟨(s.heap ++ [a.vec]).length, 0, a.dvec.length⟩,
      compP := handOut ⟨s.heap.length, 0, a.vec.length⟩ 0 dims,
      compD := handOut ⟨(s.heap ++ [a.vec]).length, 0, a.dvec.length⟩ 0 dims, dims := dims } := by
    simp only [sortModules, alloc, ep, ed, h.ds, hl]
  rw [hs]
  refine ⟨?_, ?_, u2, ?_, ?_, ?_, rfl, rfl, rfl, ?_, r2⟩
  · rw [← hvl]; exact w1'
  · rw [← hdl]; exact w2
  · simp
  · simp; omega
  · simp; omega
  · exact r1'.trans r1

theorem sim_step [Zero K] {dims : List Nat} {s : PS K} {a : Abs K} (h : Sim dims s a) (o : Op K) (hf : Fits dims o) :
    (step s o = none ∧ astep dims a o = none) ∨
    (∃ s' a', step s o = some s' ∧ astep dims a o = some a' ∧ Sim dims s' a') := by
  have hvl : a.vec.length = dims.sum := by rw [← h.vec, h.wP.read]; exact h.wP.2.2.2
  cases o with
  | setParams p => exact Or.inr ⟨_, _, rfl, rfl, h.setParams p hf⟩
  | writeNet k x =>
    by_cases hk : k < dims.sum
    · right
      refine ⟨_, _, ?_, ?_, h.writeP k x⟩
      · simp only [step, write, h.wP.2.2.1, hk, if_true, Option.map_some, h.wP.2.1, Nat.zero_add]
      · simp [astep, hk]
    · left
      simp [step, write, h.wP.2.2.1, astep, hk]
  | writeComp i k x =>
    have hg := handOut_get s.netP dims 0 i (by rw [h.wP.2.2.1]; omega)
    rw [← h.cP] at hg
    cases hi : dims[i]? with
    | none => left; simp [step, hg, hi, astep]
    | some d =>
      rw [hi] at hg
      simp only [Option.map_some] at hg
      by_cases hk : k < d
      · right
        refine ⟨_, _, ?_, ?_, h.writeP (start dims i + k) x⟩
        · simp only [step, hg, write, hk, if_true, Option.map_some, h.wP.2.1, Nat.zero_add]
        · simp [astep, hi, hk]
      · left; simp [step, hg, write, hk, astep, hi]
  | writeUser k x =>
    by_cases hk : k < a.userLen
    · right
      by_cases hs : a.shared = true
      · have hu := h.uP
        rw [if_pos hs] at hu
        refine ⟨_, _, ?_, ?_, h.writeP k x⟩
        · have hlen : s.netP.len = a.userLen := by rw [← hu]; exact h.wU.2.2.1
          simp only [step, write, hu, hlen, hk, if_true, Option.map_some, h.wP.2.1, Nat.zero_add]
        · simp [astep, hk, hs]
      · have hu := h.uP
        rw [if_neg hs] at hu
        refine ⟨{ s with heap := s.heap.set s.user.addr ((s.heap.getD s.user.addr []).set k x) }, a, ?_, ?_, ?_⟩
        · simp only [step, write, h.wU.2.2.1, hk, if_true, Option.map_some, h.wU.2.1, Nat.zero_add]
        · simp [astep, hk, hs]
        · obtain ⟨w1, r1⟩ := h.wP.set_ne s.user.addr ((s.heap.getD s.user.addr []).set k x) hu
          obtain ⟨w2, r2⟩ := h.wD.set_ne s.user.addr ((s.heap.getD s.user.addr []).set k x) h.sepUD
          exact ⟨w1, w2, (h.wU.set_self _ (by rw [List.length_set]; exact h.wU.2.2.2)).1, h.sepPD, h.sepUD, h.uP, h.cP, h.cD, h.ds,
            by rw [← h.vec]; exact r1, by rw [← h.dvec]; exact r2⟩
    · left; simp [step, write, h.wU.2.2.1, hk, astep]
  | writeDeriv i k x =>
    have hg := handOut_get s.netD dims 0 i (by rw [h.wD.2.2.1]; omega)
    rw [← h.cD] at hg
    cases hi : dims[i]? with
    | none => left; simp [step, hg, hi, astep]
    | some d =>
      rw [hi] at hg
      simp only [Option.map_some] at hg
      have hv : s.heap.getD s.netD.addr [] = a.dvec := by rw [← h.wD.read, h.dvec]
      by_cases hk : k < d
      · right
        refine ⟨_, _, ?_, ?_, h.writeD (a.dvec.set (start dims i + k) x) ?_⟩
        · simp only [step, hg, write, hk, if_true, Option.map_some, h.wD.2.1, Nat.zero_add, hv]
        · simp [astep, hi, hk]
        · rw [List.length_set, ← hv]; exact h.wD.2.2.2
      · left; simp [step, hg, write, hk, astep, hi]
  | resetDerivs =>
    right
    have hv : s.heap.getD s.netD.addr [] = a.dvec := by rw [← h.wD.read, h.dvec]
    have hdl : a.dvec.length = dims.sum := by rw [← hv]; exact h.wD.2.2.2
    refine ⟨_, _, rfl, rfl, ?_⟩
    have := h.writeD (a.dvec.map (fun _ => 0)) (by simp [hdl])
    have he : resetDerivs s = { s with heap := s.heap.set s.netD.addr (a.dvec.map (fun _ => 0)) } := by
      simp only [resetDerivs, hv, h.wD.2.1, h.wD.2.2.1, List.take_zero, List.drop_zero, List.nil_append, Nat.zero_add]
      rw [List.take_of_length_le (by omega), List.drop_eq_nil_of_le (by omega), List.append_nil]
    rw [he]; exact this
  | sort => exact Or.inr ⟨_, _, rfl, rfl, h.sort⟩

theorem sim_run [Zero K] {dims : List Nat} (ops : List (Op K)) (hf : ∀ o ∈ ops, Fits dims o) {s : PS K} {a : Abs K} (h : Sim dims s a) :
    (runs step s ops = none ∧ runs (astep dims) a ops = none) ∨
    (∃ s' a', runs step s ops = some s' ∧ runs (astep dims) a ops = some a' ∧ Sim dims s' a') := by
  induction ops generalizing s a with
  | nil => exact Or.inr ⟨s, a, rfl, rfl, h⟩
  | cons o os ih =>
    rcases sim_step h o (hf o (by simp)) with ⟨h1, h2⟩ | ⟨s', a', h1, h2, h3⟩
    · left; simp [runs, h1, h2]
    · simp only [runs, h1, h2]
      exact ih (fun x hx => hf x (by simp [hx])) h3

/-- `sortModules` on containers that hold arbitrary arrays establishes the simulation. -/
theorem sort_sim (s : PS K) (hP : (s.compP.map (read s.heap)).map List.length = s.dims)
    (hD : (s.compD.map (read s.heap)).map List.length = s.dims)
    (hU : ∃ n, Whole s.heap s.user n) :
    Sim s.dims (sortModules s) ⟨(s.compP.map (read s.heap)).flatten, (s.compD.map (read s.heap)).flatten, s.user.len, false⟩ := by
  obtain ⟨n, hU⟩ := hU
  have hn : s.user.len = n := hU.2.2.1
  have hpl : (s.compP.map (read s.heap)).flatten.length = s.dims.sum := by rw [List.length_flatten, hP]
  have hdl : (s.compD.map (read s.heap)).flatten.length = s.dims.sum := by rw [List.length_flatten, hD]
  generalize hp : (s.compP.map (read s.heap)).flatten = pv at *
  generalize hd : (s.compD.map (read s.heap)).flatten = dv at *
  have hl := handOut_len ⟨s.heap.length, 0, pv.length⟩ s.dims 0 (by simp [hpl])
  obtain ⟨w1, r1⟩ := Whole.new s.heap pv
  obtain ⟨w1', r1'⟩ := w1.append dv
  obtain ⟨w2, r2⟩ := Whole.new (s.heap ++ [pv]) dv
  obtain ⟨u1, -⟩ := hU.append pv
  obtain ⟨u2, -⟩ := u1.append dv
  have hu := hU.1
  have hs : sortModules s = { s with
      heap := s.heap ++ [pv] ++ [dv], netP := ⟨s.heap.length, 0, pv.length⟩,
      netD := ⟨(s.heap ++ [pv]).length, 0, dv.length⟩,
      compP := handOut ⟨s.heap.length, 0, pv.length⟩ 0 s.dims,
      compD := handOut ⟨(s.heap ++ [pv]).length, 0, dv.length⟩ 0 s.dims } := by
    simp only [sortModules, alloc, hp, hd, hl]
  rw [hs]
  refine ⟨?_, ?_, ?_, ?_, ?_, ?_, rfl, rfl, rfl, ?_, r2⟩
  · rw [← hpl]; exact w1'
  · rw [← hdl]; exact w2
  · rw [hn]; exact u2
  · simp
  · simp; omega
  · simp; omega
  · exact r1'.trans r1

end Verif.Params

namespace Verif.Params
open Verif.Params.Spec

variable {K : Type}

/-- No view of `s` looks into the arrays `lo ≤ addr < hi`. -/
def Avoids (lo hi : Nat) (s : PS K) : Prop :=
  hi ≤ s.heap.length ∧
  ∀ v, v = s.netP ∨ v = s.netD ∨ v = s.user ∨ v ∈ s.compP ∨ v ∈ s.compD → ¬ (lo ≤ v.addr ∧ v.addr < hi)

/-- The arrays `lo ≤ addr < hi` are the same in two heaps. -/
def SameOn (lo hi : Nat) (h h' : Heap K) : Prop := ∀ a, lo ≤ a → a < hi → h.getD a [] = h'.getD a []

theorem handOut_addr (v : View) (ds : List Nat) (idx : Nat) : ∀ w ∈ handOut v idx ds, w.addr = v.addr := by
  induction ds generalizing idx with
  | nil => intro w hw; cases hw
  | cons d ds ih =>
    intro w hw
    rcases List.mem_cons.1 hw with rfl | hw
    · rfl
    · exact ih _ w hw

theorem sameOn_append (lo hi : Nat) (h : Heap K) (d : List K) (hh : hi ≤ h.length) : SameOn lo hi h (h ++ [d]) := by
  intro a _ ha
  exact (getD_append_left h d a (by omega)).symm

theorem sameOn_trans {lo hi : Nat} {h1 h2 h3 : Heap K} (a : SameOn lo hi h1 h2) (b : SameOn lo hi h2 h3) : SameOn lo hi h1 h3 :=
  fun x h1 h2 => (a x h1 h2).trans (b x h1 h2)

theorem write_same {lo hi : Nat} {h h' : Heap K} {v : View} {k : Nat} {x : K} (hw : write h v k x = some h')
    (hv : ¬ (lo ≤ v.addr ∧ v.addr < hi)) : SameOn lo hi h h' ∧ h'.length = h.length := by
  unfold write at hw
  split at hw
  · cases hw
    refine ⟨fun a h1 h2 => (getD_set_ne _ _ _ _ ?_).symm, by simp⟩
    intro he; subst he; exact hv ⟨h1, h2⟩
  · cases hw

theorem step_avoids [Zero K] {lo hi : Nat} {s s' : PS K} (h : Avoids lo hi s) (o : Op K) (hs : step s o = some s') :
    Avoids lo hi s' ∧ SameOn lo hi s.heap s'.heap := by
  obtain ⟨h1, h2⟩ := h
  have keep : ∀ (hp : Heap K) (v : View) (k : Nat) (x : K), write s.heap v k x = some hp →
      (v = s.netP ∨ v = s.netD ∨ v = s.user ∨ v ∈ s.compP ∨ v ∈ s.compD) →
      Avoids lo hi { s with heap := hp } ∧ SameOn lo hi s.heap hp := by
    intro hp v k x hw hv
    obtain ⟨a, b⟩ := write_same hw (h2 v hv)
    exact ⟨⟨by rw [b]; exact h1, h2⟩, a⟩
  cases o with
  | setParams p =>
    cases hs
    refine ⟨⟨?_, ?_⟩, sameOn_append _ _ _ _ h1⟩
    · simp [setParams, alloc]; omega
    · intro v hv
      simp only [setParams, alloc] at hv
      rcases hv with rfl | rfl | rfl | hv | hv
      · simp only; omega
      · exact h2 _ (by simp)
      · simp only; omega
      · rw [handOut_addr _ _ _ _ hv]; simp only; omega
      · exact h2 _ (by simp [hv])
  | writeNet k x =>
    simp only [step, Option.map_eq_some_iff] at hs
    obtain ⟨hp, hw, rfl⟩ := hs
    exact keep hp _ k x hw (by simp)
  | writeComp i k x =>
    simp only [step] at hs
    cases hg : s.compP[i]? with
    | none => rw [hg] at hs; cases hs
    | some v =>
      rw [hg] at hs
      simp only [Option.map_eq_some_iff] at hs
      obtain ⟨hp, hw, rfl⟩ := hs
      exact keep hp _ k x hw (by simp [List.mem_of_getElem? hg])
  | writeUser k x =>
    simp only [step, Option.map_eq_some_iff] at hs
    obtain ⟨hp, hw, rfl⟩ := hs
    exact keep hp _ k x hw (by simp)
  | writeDeriv i k x =>
    simp only [step] at hs
    cases hg : s.compD[i]? with
    | none => rw [hg] at hs; cases hs
    | some v =>
      rw [hg] at hs
      simp only [Option.map_eq_some_iff] at hs
      obtain ⟨hp, hw, rfl⟩ := hs
      exact keep hp _ k x hw (by simp [List.mem_of_getElem? hg])
  | resetDerivs =>
    cases hs
    refine ⟨⟨by simpa [resetDerivs] using h1, h2⟩, fun a ha hb => ?_⟩
    refine (getD_set_ne _ _ _ _ ?_).symm
    intro he; subst he; exact h2 s.netD (by simp) ⟨ha, hb⟩
  | sort =>
    cases hs
    refine ⟨⟨?_, ?_⟩, ?_⟩
    · simp [sortModules, alloc]; omega
    · intro v hv
      simp only [sortModules, alloc] at hv
      rcases hv with rfl | rfl | rfl | hv | hv
      · simp only; omega
      · simp only [List.length_append]; omega
      · exact h2 _ (by simp)
      · rw [handOut_addr _ _ _ _ hv]; simp only; omega
      · rw [handOut_addr _ _ _ _ hv]; simp only [List.length_append]; omega
    · exact sameOn_trans (sameOn_append _ _ _ _ h1) (sameOn_append _ _ _ _ (by simp; omega))

theorem runs_avoids [Zero K] {lo hi : Nat} (ops : List (Op K)) {s s' : PS K} (h : Avoids lo hi s) (hs : runs step s ops = some s') :
    Avoids lo hi s' ∧ SameOn lo hi s.heap s'.heap := by
  induction ops generalizing s with
  | nil => cases hs; exact ⟨h, fun _ _ _ => rfl⟩
  | cons o os ih =>
    simp only [runs] at hs
    cases h1 : step s o with
    | none => rw [h1] at hs; cases hs
    | some s1 =>
      rw [h1] at hs
      obtain ⟨a, b⟩ := step_avoids h o h1
      obtain ⟨c, d⟩ := ih a hs
      exact ⟨c, sameOn_trans b d⟩

/-- `h'` extends `h` by new arrays. -/
def Extends (h h' : Heap K) : Prop := ∃ t, h' = h ++ t

theorem Extends.read {h h' : Heap K} (e : Extends h h') (v : View) (hv : v.addr < h.length) : Params.read h' v = Params.read h v := by
  obtain ⟨t, rfl⟩ := e
  unfold Params.read
  rw [List.getD_eq_getElem?_getD, List.getElem?_append_left hv, ← List.getD_eq_getElem?_getD]

theorem Extends.length {h h' : Heap K} (e : Extends h h') : h.length ≤ h'.length := by
  obtain ⟨t, rfl⟩ := e; simp

theorem Extends.trans {h1 h2 h3 : Heap K} (a : Extends h1 h2) (b : Extends h2 h3) : Extends h1 h3 := by
  obtain ⟨s, rfl⟩ := a; obtain ⟨t, rfl⟩ := b; exact ⟨s ++ t, by simp⟩

theorem deepcopyViews_spec (h : Heap K) (vs : List View) (hv : ∀ v ∈ vs, v.addr < h.length) :
    Extends h (deepcopyViews h vs).1 ∧
    (deepcopyViews h vs).2.map (read (deepcopyViews h vs).1) = vs.map (read h) ∧
    ∀ w ∈ (deepcopyViews h vs).2, h.length ≤ w.addr ∧ w.addr < (deepcopyViews h vs).1.length := by
  induction vs generalizing h with
  | nil => exact ⟨⟨[], by simp [deepcopyViews]⟩, rfl, by simp [deepcopyViews]⟩
  | cons v vs ih =>
    have e1 : Extends h (h ++ [read h v]) := ⟨[read h v], rfl⟩
    have hv' : ∀ w ∈ vs, w.addr < (h ++ [read h v]).length := by
      intro w hw; have := hv w (by simp [hw]); simp; omega
    obtain ⟨a, b, c⟩ := ih (h ++ [read h v]) hv'
    simp only [deepcopyViews, alloc]
    refine ⟨e1.trans a, ?_, ?_⟩
    · rw [List.map_cons, List.map_cons, b]
      congr 1
      · rw [a.read _ (by simp)]
        exact (Whole.new h (read h v)).2
      · exact List.map_congr_left fun w hw => e1.read w (hv w (by simp [hw]))
    · intro w hw
      rcases List.mem_cons.1 hw with rfl | hw
      · have := a.length; simp only [List.length_append, List.length_singleton] at this ⊢; omega
      · have := c w hw; simp only [List.length_append, List.length_singleton] at this; omega

/-- Every view of `s` looks at an existing array. -/
def InHeap (s : PS K) : Prop :=
  ∀ v, v = s.netP ∨ v = s.netD ∨ v = s.user ∨ v ∈ s.compP ∨ v ∈ s.compD → v.addr < s.heap.length

theorem Sim.inHeap {dims : List Nat} {s : PS K} {a : Abs K} (h : Sim dims s a) : InHeap s := by
  intro v hv
  rcases hv with rfl | rfl | rfl | hv | hv
  · exact h.wP.1
  · exact h.wD.1
  · exact h.wU.1
  · rw [h.cP] at hv; rw [handOut_addr _ _ _ _ hv]; exact h.wP.1
  · rw [h.cD] at hv; rw [handOut_addr _ _ _ _ hv]; exact h.wD.1

theorem copy_spec {dims : List Nat} {s : PS K} {a : Abs K} (h : Sim dims s a) :
    Shows (copy s) dims a.vec a.dvec ∧ Extends s.heap (copy s).heap ∧
    (copy s).netP.addr < (copy s).heap.length ∧ (copy s).compP = handOut (copy s).netP 0 dims ∧ (copy s).dims = dims ∧
    ∀ v, v = (copy s).netP ∨ v = (copy s).netD ∨ v = (copy s).user ∨ v ∈ (copy s).compP ∨ v ∈ (copy s).compD →
      s.heap.length ≤ v.addr ∧ v.addr < (copy s).heap.length := by
  have hin := h.inHeap
  let h1 := s.heap ++ [read s.heap s.netP]
  let h2 := h1 ++ [read h1 s.netD]
  have e1 : Extends s.heap h1 := ⟨_, rfl⟩
  have e2 : Extends h1 h2 := ⟨_, rfl⟩
  have e02 := e1.trans e2
  obtain ⟨e3, m3, b3⟩ := deepcopyViews_spec h2 s.compP (fun v hv => Nat.lt_of_lt_of_le (hin v (by simp [hv])) e02.length)
  have e03 := e02.trans e3
  obtain ⟨e4, m4, b4⟩ := deepcopyViews_spec (deepcopyViews h2 s.compP).1 s.compD
    (fun v hv => Nat.lt_of_lt_of_le (hin v (by simp [hv])) e03.length)
  have e04 := e03.trans e4
  generalize hh4 : (deepcopyViews (deepcopyViews h2 s.compP).1 s.compD) = r4 at *
  have hvec : read r4.1 s.netP = a.vec := by rw [e04.read _ h.wP.1, h.vec]
  have hvl : a.vec.length = dims.sum := by rw [← h.vec, h.wP.read]; exact h.wP.2.2.2
  have hl := handOut_len ⟨r4.1.length, 0, a.vec.length⟩ dims 0 (by simp [hvl])
  have hc : copy s = {
      heap := r4.1 ++ [a.vec], netP := ⟨r4.1.length, 0, a.vec.length⟩,
      netD := ⟨h1.length, 0, (read h1 s.netD).length⟩, compP := handOut ⟨r4.1.length, 0, a.vec.length⟩ 0 dims,
      compD := r4.2, dims := dims, user := ⟨r4.1.length, 0, a.vec.length⟩ } := by
    simp only [copy, alloc, setParams]
    simp only [h1, h2] at hh4
    rw [hh4, hvec, h.ds, hl]
  have e5 : Extends r4.1 (r4.1 ++ [a.vec]) := ⟨_, rfl⟩
  obtain ⟨w1, r1⟩ := Whole.new r4.1 a.vec
  have l02 := e02.length
  have l01 := e1.length
  have l3 := e3.length
  have l4 := e4.length
  have hh1 : h1.length = s.heap.length + 1 := by simp [h1]
  have hh2 : h2.length = s.heap.length + 2 := by simp [h2, h1]
  have rd : read h2 ⟨h1.length, 0, (read h1 s.netD).length⟩ = a.dvec := by
    rw [(Whole.new h1 (read h1 s.netD)).2, e1.read _ h.wD.1, h.dvec]
  rw [hc]
  refine ⟨⟨r1, ?_, ?_, ?_⟩, e04.trans e5, by simp, rfl, rfl, ?_⟩
  · simp only
    rw [handOut_read _ _ _ _ (by simp [hvl]), r1]; rfl
  · simp only
    rw [e5.read _ (by simp only; omega), e4.read _ (by simp only; omega), e3.read _ (by simp only; omega), rd]
  · simp only
    have : r4.2.map (read (r4.1 ++ [a.vec])) = r4.2.map (read r4.1) :=
      List.map_congr_left fun w hw => e5.read w (b4 w hw).2
    rw [this, m4, ← h.shows.compsD]
    exact List.map_congr_left fun w hw => e03.read w (hin w (by simp [hw]))
  · intro v hv
    simp only at hv ⊢
    rw [List.length_append, List.length_singleton]
    rcases hv with rfl | rfl | rfl | hv | hv
    · simp only; omega
    · simp only; omega
    · simp only; omega
    · rw [handOut_addr _ _ _ _ hv]; simp only; omega
    · have := b4 v hv; omega

theorem shows_of_same {dims : List Nat} {s : PS K} {vec dvec : List K} {h' : Heap K} (hs : Shows s dims vec dvec) {lo hi : Nat}
    (hv : ∀ v, v = s.netP ∨ v = s.netD ∨ v = s.user ∨ v ∈ s.compP ∨ v ∈ s.compD → lo ≤ v.addr ∧ v.addr < hi)
    (he : SameOn lo hi s.heap h') : Shows { s with heap := h' } dims vec dvec := by
  have rd : ∀ v, (lo ≤ v.addr ∧ v.addr < hi) → read h' v = read s.heap v := by
    intro v hv; unfold read; rw [he _ hv.1 hv.2]
  refine ⟨?_, ?_, ?_, ?_⟩
  · simp only; rw [rd _ (hv _ (by simp))]; exact hs.net
  · rw [← hs.comps]; exact List.map_congr_left fun w hw => rd w (hv w (Or.inr (Or.inr (Or.inr (Or.inl hw)))))
  · simp only; rw [rd _ (hv _ (by simp))]; exact hs.netD
  · rw [← hs.compsD]; exact List.map_congr_left fun w hw => rd w (hv w (Or.inr (Or.inr (Or.inr (Or.inr hw)))))

end Verif.Params
