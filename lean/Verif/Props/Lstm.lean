import Verif.Lemmas.Lstm
import Verif.Lemmas.Layers
import Mathlib.Algebra.Order.Ring.Int
import Mathlib.Tactic.NormNum
/-
C76: the LSTM layer computes the usual recurrence, and its backward pass through time computes the gradient.
-/
namespace Verif.Lstm
open Verif.Net Verif.Lstm.Spec Finset

/-- `HasDerivAt` for the transfer functions at all points which the cell visits in `n` steps. -/
structure Spec.Smooth (T : Trans ℝ) (c : Cell ℝ) (n : Nat) : Prop where
  i : ∀ t < n, HasDerivAt T.f (T.fprime (c.i t + c.wi * before T c t)) (c.i t + c.wi * before T c t)
  f : ∀ t < n, HasDerivAt T.f (T.fprime (c.f t + c.wf * before T c t)) (c.f t + c.wf * before T c t)
  o : ∀ t < n, HasDerivAt T.f (T.fprime (c.o t + c.wo * before T c (t + 1))) (c.o t + c.wo * before T c (t + 1))
  g : ∀ t < n, HasDerivAt T.g (T.gprime (c.c t)) (c.c t)
  h : ∀ t < n, HasDerivAt T.h (T.hprime (before T c (t + 1))) (before T c (t + 1))

/-- The velocity of the state before step `t` when weights and inputs have the velocities `c'`. -/
noncomputable def vel (T : Trans ℝ) (c c' : Cell ℝ) : Nat → ℝ
  | 0 => 0
  | t + 1 =>
    T.fprime (c.i t + c.wi * before T c t) * (c'.i t + (c'.wi * before T c t + c.wi * vel T c c' t)) * T.g (c.c t) +
      T.f (c.i t + c.wi * before T c t) * (T.gprime (c.c t) * c'.c t) +
      (T.fprime (c.f t + c.wf * before T c t) * (c'.f t + (c'.wf * before T c t + c.wf * vel T c c' t)) * before T c t +
      T.f (c.f t + c.wf * before T c t) * vel T c c' t)

/-- The velocity of the output of step `t`. -/
noncomputable def outVel (T : Trans ℝ) (c c' : Cell ℝ) (t : Nat) : ℝ :=
  T.fprime (c.o t + c.wo * before T c (t + 1)) * (c'.o t + (c'.wo * before T c (t + 1) + c.wo * vel T c c' (t + 1))) * T.h (before T c (t + 1)) +
    T.f (c.o t + c.wo * before T c (t + 1)) * (T.hprime (before T c (t + 1)) * vel T c c' (t + 1))

/-- A motion of a cell with velocity `c'` at `t0`. -/
structure Moves (cc : ℝ → Cell ℝ) (t0 : ℝ) (c' : Cell ℝ) : Prop where
  wi : HasDerivAt (fun τ => (cc τ).wi) c'.wi t0
  wf : HasDerivAt (fun τ => (cc τ).wf) c'.wf t0
  wo : HasDerivAt (fun τ => (cc τ).wo) c'.wo t0
  i : ∀ t, HasDerivAt (fun τ => (cc τ).i t) (c'.i t) t0
  f : ∀ t, HasDerivAt (fun τ => (cc τ).f t) (c'.f t) t0
  c : ∀ t, HasDerivAt (fun τ => (cc τ).c t) (c'.c t) t0
  o : ∀ t, HasDerivAt (fun τ => (cc τ).o t) (c'.o t) t0

theorem before_vel (T : Trans ℝ) (cc : ℝ → Cell ℝ) (t0 : ℝ) (c' : Cell ℝ) (hm : Moves cc t0 c') (n : Nat) (hs : Smooth T (cc t0) n) :
    ∀ t ≤ n, HasDerivAt (fun τ => before T (cc τ) t) (vel T (cc t0) c' t) t0
  | 0, _ => by simpa [before, vel] using hasDerivAt_const t0 (0 : ℝ)
  | t + 1, ht => by
    have ih := before_vel T cc t0 c' hm n hs t (by omega)
    have hi := HasDerivAt.comp t0 (h₂ := T.f) (h := fun τ => (cc τ).i t + (cc τ).wi * before T (cc τ) t) (hs.i t ht) ((hm.i t).add (hm.wi.mul ih))
    have hf := HasDerivAt.comp t0 (h₂ := T.f) (h := fun τ => (cc τ).f t + (cc τ).wf * before T (cc τ) t) (hs.f t ht) ((hm.f t).add (hm.wf.mul ih))
    have hg := HasDerivAt.comp t0 (h₂ := T.g) (h := fun τ => (cc τ).c t) (hs.g t ht) (hm.c t)
    have := (hi.mul hg).add (hf.mul ih)
    simp only [before, vel]
    exact this

theorem output_vel (T : Trans ℝ) (cc : ℝ → Cell ℝ) (t0 : ℝ) (c' : Cell ℝ) (hm : Moves cc t0 c') (n : Nat) (hs : Smooth T (cc t0) n)
    (t : Nat) (ht : t < n) : HasDerivAt (fun τ => output T (cc τ) t) (outVel T (cc t0) c' t) t0 := by
  have ih := before_vel T cc t0 c' hm n hs (t + 1) ht
  have ho := HasDerivAt.comp t0 (h₂ := T.f) (h := fun τ => (cc τ).o t + (cc τ).wo * before T (cc τ) (t + 1)) (hs.o t ht) ((hm.o t).add (hm.wo.mul ih))
  have hh := HasDerivAt.comp t0 (h₂ := T.h) (h := fun τ => before T (cc τ) (t + 1)) (hs.h t ht) ih
  simp only [output, outVel]
  exact ho.mul hh

/-- The backward pass of one cell is the transposed derivative of its forward pass. -/
theorem cell_adjoint (T : Trans ℝ) (c c' : Cell ℝ) (e : Nat → ℝ) (n : Nat) :
    ∑ t ∈ range n, e t * outVel T c c' t =
      ∑ t ∈ range n, ((errs T c e n t).ie * c'.i t + (errs T c e n t).fe * c'.f t +
          T.f (c.i t + c.wi * before T c t) * T.gprime (c.c t) * (errs T c e n t).se * c'.c t + (errs T c e n t).oe * c'.o t) +
        ((∑ t ∈ range n, (errs T c e n t).ie * before T c t) * c'.wi + (∑ t ∈ range n, (errs T c e n t).fe * before T c t) * c'.wf +
          (∑ t ∈ range n, (errs T c e n t).oe * before T c (t + 1)) * c'.wo) := by
  have loc : ∀ t, t < n → e t * outVel T c c' t + carry T c e n t * vel T c c' (t + 1) =
      ((errs T c e n t).ie * c'.i t + (errs T c e n t).fe * c'.f t +
          T.f (c.i t + c.wi * before T c t) * T.gprime (c.c t) * (errs T c e n t).se * c'.c t + (errs T c e n t).oe * c'.o t) +
        ((errs T c e n t).ie * before T c t * c'.wi + (errs T c e n t).fe * before T c t * c'.wf +
          (errs T c e n t).oe * before T c (t + 1) * c'.wo) + carryOf T c t (errs T c e n t) * vel T c c' t := by
    intro t ht
    rw [errs, if_pos ht]
    generalize carry T c e n t = k
    simp only [errsAt, carryOf, outVel, vel]
    generalize vel T c c' t = v
    generalize before T c (t + 1) = b1
    ring
  have tel : ∀ m ≤ n, ∑ t ∈ range m, e t * outVel T c c' t + (if m = 0 then 0 else carry T c e n (m - 1) * vel T c c' m) =
      ∑ t ∈ range m, ((errs T c e n t).ie * c'.i t + (errs T c e n t).fe * c'.f t +
          T.f (c.i t + c.wi * before T c t) * T.gprime (c.c t) * (errs T c e n t).se * c'.c t + (errs T c e n t).oe * c'.o t) +
        ((∑ t ∈ range m, (errs T c e n t).ie * before T c t) * c'.wi + (∑ t ∈ range m, (errs T c e n t).fe * before T c t) * c'.wf +
          (∑ t ∈ range m, (errs T c e n t).oe * before T c (t + 1)) * c'.wo) := by
    intro m hm
    induction m with
    | zero => simp
    | succ m ih =>
      have ih := ih (by omega)
      have l := loc m (by omega)
      have hc : (if m = 0 then 0 else carry T c e n (m - 1) * vel T c c' m) = carryOf T c m (errs T c e n m) * vel T c c' m := by
        split_ifs with h0
        · subst h0; simp [vel]
        · rw [carry_eq, Nat.sub_add_cancel (by omega)]
      rw [hc] at ih
      simp only [sum_range_succ, Nat.add_sub_cancel, if_neg (Nat.succ_ne_zero m)]
      linear_combination ih + l
  have := tel n (le_refl _)
  rw [← this]
  split_ifs with h0
  · simp
  · rw [carry_last T c e n (n - 1) (by omega)]; simp

/-- A sum over `m` blocks of `dim` numbers. -/
theorem sum_blocks (dim m : Nat) (f : Nat → ℝ) : ∑ i ∈ range (m * dim), f i = ∑ b ∈ range m, ∑ j ∈ range dim, f (b * dim + j) := by
  induction m with
  | zero => simp
  | succ m ih => rw [Nat.succ_mul, sum_range_add, sum_range_succ, ih]

end Verif.Lstm

namespace Verif.Props
open Verif.Net Verif.Lstm Verif.Lstm.Spec Finset

/-- **C76**, forward pass. In a recurrent network, after `reset`, an LSTM layer of `dim` cells never raises, and the output of cell `j` at
step `t` is that of the cell recurrence on its four input sequences: for every sequence, with or without peepholes, for any transfer
functions and whatever was computed before the reset. -/
theorem C76_forward {K : Type} [CommRing K] (T : Trans K) (peepholes : Bool) (dim : Nat) (w : Vec K) (s : LState K) (hs : 0 < s.rows) (xs : List (Vec K)) :
    ∃ s1 ys, forwardAll T peepholes dim w (reset s) xs = some (s1, ys) ∧ ys.length = xs.length ∧
      ∀ t < xs.length, ∀ j < dim, ys.getD t (fun _ => 0) j = output T (cellOf peepholes dim w (fun t => xs.getD t fun _ => 0) j) t := by
  have hx : xs = (List.range' 0 xs.length).map (fun t => xs.getD t fun _ => 0) := by
    refine List.ext_getElem (by simp) fun i h1 h2 => ?_
    simp [List.getD_eq_getElem?_getD, List.getElem?_eq_getElem h1]
  obtain ⟨s1, ys, h1, -, h3, h4⟩ := FInv.run xs.length 0 (FInv.init T peepholes dim w (fun t => xs.getD t fun _ => 0) s hs)
  rw [← hx] at h1
  exact ⟨s1, ys, h1, h3, fun t ht j _ => by have := h4 t ht j; rwa [Nat.zero_add] at this⟩

/-- **C76**, backward pass through time. After `reset`, running the layer forward on a sequence and then backward on output errors, last
step first, never raises. For every differentiable motion of the peephole weights and of all inputs, the sum over time and cells of the
products of errors and outputs moves with velocity Σ_t ⟨returned input error t, velocity of input t⟩ + ⟨increment of the derivatives,
velocity of the peephole weights⟩: the returned errors and the accumulated derivatives are the partial derivatives. Without peepholes
nothing is added to the derivatives. -/
theorem C76_gradient (T : Trans ℝ) (peepholes : Bool) (dim : Nat) (w : Vec ℝ) (s : LState ℝ) (hs : 0 < s.rows) (xs es : List (Vec ℝ))
    (hl : es.length = xs.length) :
    ∃ s1 ys s2 gs, forwardAll T peepholes dim w (reset s) xs = some (s1, ys) ∧ backwardAll T peepholes dim w s1 es.reverse = some (s2, gs) ∧
      (peepholes = false → s2.derivs = s.derivs) ∧
      ((∀ j < dim, Smooth T (cellOf peepholes dim w (fun t => xs.getD t fun _ => 0) j) xs.length) →
       ∀ (wc : ℝ → Vec ℝ) (xc : ℝ → Nat → Vec ℝ) (t0 : ℝ) (w' : Vec ℝ) (x' : Nat → Vec ℝ), wc t0 = w → xc t0 = (fun t => xs.getD t fun _ => 0) →
        (∀ k, HasDerivAt (fun τ => wc τ k) (w' k) t0) → (∀ t i, HasDerivAt (fun τ => xc τ t i) (x' t i) t0) →
        HasDerivAt (fun τ => ∑ t ∈ range xs.length, ∑ j ∈ range dim, es.getD t (fun _ => 0) j * output T (cellOf peepholes dim (wc τ) (xc τ) j) t)
          (∑ t ∈ range xs.length, ∑ i ∈ range (4 * dim), gs.reverse.getD t (fun _ => 0) i * x' t i +
            ∑ k ∈ range (3 * dim), (s2.derivs k - s.derivs k) * w' k) t0) := by
  set x : Nat → Vec ℝ := fun t => xs.getD t fun _ => 0 with hxdef
  set e : Nat → Vec ℝ := fun t => es.getD t fun _ => 0 with hedef
  have hx : xs = (List.range' 0 xs.length).map x := by
    refine List.ext_getElem (by simp) fun i h1 h2 => ?_
    simp [hxdef, List.getD_eq_getElem?_getD, List.getElem?_eq_getElem h1]
  have he : es.reverse = (List.range xs.length).reverse.map e := by
    rw [← hl, List.map_reverse]
    refine congrArg List.reverse (List.ext_getElem (by simp) fun i h1 h2 => ?_)
    simp [hedef, List.getD_eq_getElem?_getD, List.getElem?_eq_getElem h1]
  obtain ⟨s1, ys, h1, h2, -, -⟩ := FInv.run xs.length 0 (FInv.init T peepholes dim w x s hs)
  rw [← hx] at h1
  rw [Nat.zero_add] at h2
  obtain ⟨s2, b1, hd⟩ : ∃ s2, backwardAll T peepholes dim w s1 ((List.range xs.length).reverse.map e) =
      some (s2, (List.range xs.length).reverse.map (inerr T peepholes dim w x e xs.length)) ∧
      s2.derivs = fun i => s.derivs i + ∑ t ∈ range xs.length, dpar T peepholes dim w x e xs.length t i := by
    by_cases hn : xs.length = 0
    · exact ⟨s1, by simp [hn, backwardAll], by simp [hn, h2.derivs]⟩
    · obtain ⟨s2, b1, b2⟩ := BInv.run xs.length (h2.toB hn e)
      exact ⟨s2, b1, by rw [b2.derivs, Nat.Ico_zero_eq_range]⟩
  rw [← he] at b1
  refine ⟨s1, ys, s2, _, h1, b1, ?_, ?_⟩
  · intro hp; rw [hd, hp]; simp [dpar]
  intro hsm wc xc t0 w' x' hw hxc hw' hx'
  have hmov : ∀ j, Moves (fun τ => cellOf peepholes dim (wc τ) (xc τ) j) t0 (cellOf peepholes dim w' x' j) := by
    intro j
    refine ⟨?_, ?_, ?_, fun t => hx' t _, fun t => hx' t _, fun t => hx' t _, fun t => hx' t _⟩
    · cases peepholes
      · simpa [cellOf] using hasDerivAt_const t0 (0 : ℝ)
      · simpa [cellOf] using hw' j
    · cases peepholes
      · simpa [cellOf] using hasDerivAt_const t0 (0 : ℝ)
      · simpa [cellOf] using hw' (dim + j)
    · cases peepholes
      · simpa [cellOf] using hasDerivAt_const t0 (0 : ℝ)
      · simpa [cellOf] using hw' (2 * dim + j)
  have key : HasDerivAt (fun τ => ∑ t ∈ range xs.length, ∑ j ∈ range dim, e t j * output T (cellOf peepholes dim (wc τ) (xc τ) j) t)
      (∑ t ∈ range xs.length, ∑ j ∈ range dim, e t j * outVel T (cellOf peepholes dim w x j) (cellOf peepholes dim w' x' j) t) t0 := by
    refine HasDerivAt.fun_sum fun t ht => HasDerivAt.fun_sum fun j hj => HasDerivAt.const_mul _ ?_
    have := output_vel T (fun τ => cellOf peepholes dim (wc τ) (xc τ) j) t0 _ (hmov j) xs.length (by rw [hw, hxc]; exact hsm j (mem_range.1 hj)) t (mem_range.1 ht)
    rw [hw, hxc] at this
    exact this
  convert key using 1
  rw [sum_comm (s := range xs.length) (t := range dim) (f := fun t j => e t j * outVel T (cellOf peepholes dim w x j) (cellOf peepholes dim w' x' j) t)]
  rw [sum_congr rfl fun j _ => cell_adjoint T (cellOf peepholes dim w x j) (cellOf peepholes dim w' x' j) (fun t => e t j) xs.length]
  rw [sum_add_distrib]
  congr 1
  · refine Eq.trans (sum_congr rfl fun t ht => ?_) sum_comm
    have hg : ((List.range xs.length).reverse.map (inerr T peepholes dim w x e xs.length)).reverse.getD t (fun _ => 0) =
        inerr T peepholes dim w x e xs.length t := by
      rw [← List.map_reverse, List.reverse_reverse]
      simp [List.getD_eq_getElem?_getD, List.getElem?_range, mem_range.1 ht]
    rw [hg, sum_blocks]
    simp only [sum_range_succ, sum_range_zero, zero_add, ← sum_add_distrib]
    refine sum_congr rfl fun j hj => ?_
    have hj := mem_range.1 hj
    have i0 : inerr T peepholes dim w x e xs.length t (0 * dim + j) = (errs T (cellOf peepholes dim w x j) (fun t => e t j) xs.length t).ie := by
      simp [inerr, hj]
    have i1 : inerr T peepholes dim w x e xs.length t (1 * dim + j) = (errs T (cellOf peepholes dim w x j) (fun t => e t j) xs.length t).fe := by
      simp only [inerr]
      rw [if_neg (by omega), if_pos (by omega), show 1 * dim + j - dim = j by omega]
    have i2 : inerr T peepholes dim w x e xs.length t (2 * dim + j) = T.f ((cellOf peepholes dim w x j).i t +
        (cellOf peepholes dim w x j).wi * before T (cellOf peepholes dim w x j) t) * T.gprime (x t (2 * dim + j)) *
        (errs T (cellOf peepholes dim w x j) (fun t => e t j) xs.length t).se := by
      simp only [inerr]
      rw [if_neg (by omega), if_neg (by omega), if_pos (by omega), show 2 * dim + j - 2 * dim = j by omega]
    have i3 : inerr T peepholes dim w x e xs.length t (3 * dim + j) = (errs T (cellOf peepholes dim w x j) (fun t => e t j) xs.length t).oe := by
      simp only [inerr]
      rw [if_neg (by omega), if_neg (by omega), if_neg (by omega), show 3 * dim + j - 3 * dim = j by omega]
    rw [i0, i1, i2, i3]
    simp [cellOf]
  · rw [hd]
    simp only [add_sub_cancel_left]
    rw [sum_blocks]
    simp only [sum_range_succ, sum_range_zero, zero_add, ← sum_add_distrib]
    refine sum_congr rfl fun j hj => ?_
    have hj := mem_range.1 hj
    cases peepholes
    · simp [dpar, cellOf]
    · have p0 : ∀ t, dpar T true dim w x e xs.length t (0 * dim + j) = (errs T (cellOf true dim w x j) (fun t => e t j) xs.length t).ie *
          before T (cellOf true dim w x j) t := by
        intro t
        simp only [dpar, if_true]
        rw [if_neg (by omega), if_neg (by omega), show 0 * dim + j = j by omega]
      have p1 : ∀ t, dpar T true dim w x e xs.length t (1 * dim + j) = (errs T (cellOf true dim w x j) (fun t => e t j) xs.length t).fe *
          before T (cellOf true dim w x j) t := by
        intro t
        simp only [dpar, if_true]
        rw [if_neg (by omega), if_pos (by omega), show 1 * dim + j - dim = j by omega]
      have p2 : ∀ t, dpar T true dim w x e xs.length t (2 * dim + j) = (errs T (cellOf true dim w x j) (fun t => e t j) xs.length t).oe *
          before T (cellOf true dim w x j) (t + 1) := by
        intro t
        simp only [dpar, if_true]
        rw [if_pos (by omega), show 2 * dim + j - 2 * dim = j by omega]
      simp only [p0, p1, p2]
      simp [cellOf]

/-- The transfer functions of the library, lstm.py:27-32. -/
noncomputable def lstmLibrary : Trans ℝ := ⟨sigmoid, sigmoidPrime, Real.tanh, tanhPrime, Real.tanh, tanhPrime⟩

/-- **C76**, the transfer functions of the library meet the smoothness condition of `C76_gradient` as long as no gate's input reaches
the clipping bound 500. Missing: beyond the bound the derivative used is not that of the clipped function
(`C14_negation_sigmoid_clipped`). -/
theorem C76_library_partial (c : Cell ℝ) (n : Nat)
    (hc : ∀ t < n, |c.i t + c.wi * before lstmLibrary c t| < 500 ∧ |c.f t + c.wf * before lstmLibrary c t| < 500 ∧
      |c.o t + c.wo * before lstmLibrary c (t + 1)| < 500) : Smooth lstmLibrary c n := by
  have ht : ∀ v, HasDerivAt Real.tanh (tanhPrime v) v := fun v => by
    have := hasDerivAt_tanh v
    rwa [pow_two] at this
  exact ⟨fun t h => hasDerivAt_sigmoid (hc t h).1, fun t h => hasDerivAt_sigmoid (hc t h).2.1, fun t h => hasDerivAt_sigmoid (hc t h).2.2,
    fun t _ => ht _, fun t _ => ht _⟩

/-- The hypotheses are met: two cells with peepholes, two steps of inputs 0 from a new layer. -/
example : (0 < (fresh : LState ℝ).rows) ∧ ([fun _ => 1, fun _ => 2] : List (Vec ℝ)).length = ([fun _ => 0, fun _ => 0] : List (Vec ℝ)).length ∧
    ∀ j < 2, Smooth lstmLibrary (cellOf true 2 (fun _ => 0) (fun t => ([fun _ => 0, fun _ => 0] : List (Vec ℝ)).getD t fun _ => 0) j) 2 := by
  refine ⟨by simp [fresh], rfl, fun j hj => C76_library_partial _ _ fun t ht => ?_⟩
  interval_cases t <;> simp [cellOf]

/-- **C76 violated outside of recurrent networks**: a new LSTM layer by itself, or in a feed-forward network, has buffers of one row. It can
be activated, but `backActivate` always raises an IndexError because it reads the row after the last one (`_isLastTimestep` compares the
offset with a `maxoffset` that is already one larger). -/
theorem C76_negation_single {K : Type} [CommRing K] (T : Trans K) (peepholes : Bool) (dim : Nat) (w x e : Vec K) :
    ∃ s y, Verif.Lstm.forward T peepholes dim w (fresh : LState K) x = some (s, y) ∧ Verif.Lstm.backward T peepholes dim w s e = none := by
  refine ⟨_, _, rfl, ?_⟩
  simp [Verif.Lstm.backward, fresh]

/-- The input error of a one-step sequence after a two-step sequence has been run forward and backward, with or without `reset` in
between: a layer of one cell, linear transfer functions, all inputs and errors 1. -/
def staleRun (doReset : Bool) : Option (List Int) := do
  let T : Trans Int := ⟨id, fun _ => 1, id, fun _ => 1, id, fun _ => 1⟩
  let (s, _) ← forwardAll T false 1 (fun _ => 0) fresh [fun _ => 1, fun _ => 1]
  let (s, _) ← backwardAll T false 1 (fun _ => 0) s [fun _ => 1, fun _ => 1]
  let s := if doReset then reset s else s
  let (s, _) ← forwardAll T false 1 (fun _ => 0) s [fun _ => 1]
  let (_, gs) ← backwardAll T false 1 (fun _ => 0) s [fun _ => 1]
  pure (gs.map fun g => g 2)

/-- **C76 needs the reset**: after a sequence has been run forward and completely backward the offset is back at 0, but a shorter second
sequence then reads the first one's errors beyond its own end and gets a different input error than after a reset. -/
theorem C76_negation_stale : staleRun false = some [2] ∧ staleRun true = some [1] := by decide +kernel

end Verif.Props
