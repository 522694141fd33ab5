import Verif.Model.MdLstm
import Verif.Spec.MdLstm
import Verif.Spec.Lstm
import Verif.Spec.Gradient
import Verif.Lemmas.Layers
import Verif.Props.Lstm
import Verif.Props.Mesh
import Verif.Lemmas.Convolution
/-
C112 Multi-dimensional LSTM layers.
-/
namespace Verif.MdLstm
open Verif.Net Verif.Net.Spec Finset
open Verif.Lstm (Trans)
open Verif.MdLstm.Spec

/-- the forward pass, cell by cell -/
theorem forward_row {K : Type} [CommRing K] (T : Trans K) (peepholes : Bool) (size D : Nat) (w x : Vec K) (j : Nat) (hj : j < size) :
    let r := (forward T peepholes size D w x).1
    let c := cellOf peepholes size D w x j
    r.ingatex j = c.inx D ∧ r.ingate j = T.f (c.inx D) ∧ (∀ d, r.forgetgatex (d * size + j) = c.forgetx d) ∧ (∀ d, r.forgetgate (d * size + j) = T.f (c.forgetx d)) ∧
      r.state j = c.state T D ∧ r.outgatex j = c.outx T D ∧ r.outgate j = T.f (c.outx T D) := by
  have e0 : ∀ d, size * d + j = d * size + j := fun d => by ring
  have e1 : ∀ d, size + (d * size + j) = (1 + d) * size + j := fun d => by ring
  have e2 : size * (1 + D) + j = (1 + D) * size + j := by ring
  have e3 : size * (2 + D) + j = (2 + D) * size + j := by ring
  have e4 : ∀ d, size * (3 + D) + (d * size + j) = (3 + D + d) * size + j := fun d => by ring
  cases peepholes <;>
  simp only [forward, cellOf, Cell.inx, Cell.forgetx, Cell.state, Cell.outx, if_true, e0, e1, e2, e3, e4, Bool.false_eq_true, if_false, zero_mul, add_zero, Finset.sum_const_zero,
    implies_true, and_self]

theorem forward_out {K : Type} [CommRing K] (T : Trans K) (peepholes : Bool) (size D : Nat) (w x : Vec K) (j : Nat) (hj : j < size) :
    (forward T peepholes size D w x).2 j = (cellOf peepholes size D w x j).output T D ∧
      (forward T peepholes size D w x).2 (size + j) = (cellOf peepholes size D w x j).state T D := by
  obtain ⟨-, -, -, -, h5, -, h7⟩ := forward_row T peepholes size D w x j hj
  constructor
  · have : (forward T peepholes size D w x).2 j = if j < size then (forward T peepholes size D w x).1.outgate j * T.h ((forward T peepholes size D w x).1.state j)
        else (forward T peepholes size D w x).1.state (j - size) := rfl
    rw [this, if_pos hj, h5, h7]
    rfl
  · have : (forward T peepholes size D w x).2 (size + j) = if size + j < size then (forward T peepholes size D w x).1.outgate (size + j) * T.h ((forward T peepholes size D w x).1.state (size + j))
        else (forward T peepholes size D w x).1.state (size + j - size) := rfl
    rw [this, if_neg (by omega), Nat.add_sub_cancel_left, h5]

/-- the errors of a cell with errors `e1` of its output and `e2` of its state -/
def Cell.outErr (T : Trans ℝ) (D : Nat) (c : Cell ℝ) (e1 : ℝ) : ℝ := T.fprime (c.outx T D) * e1 * T.h (c.state T D)
def Cell.stateErr (T : Trans ℝ) (D : Nat) (c : Cell ℝ) (e1 e2 : ℝ) : ℝ :=
  e1 * T.f (c.outx T D) * T.hprime (c.state T D) + e2 + Cell.outErr T D c e1 * c.wo
def Cell.inErr (T : Trans ℝ) (D : Nat) (c : Cell ℝ) (e1 e2 : ℝ) : ℝ := T.fprime (c.inx D) * Cell.stateErr T D c e1 e2 * T.g c.c
def Cell.forgetErr (T : Trans ℝ) (D : Nat) (c : Cell ℝ) (e1 e2 : ℝ) (d : Nat) : ℝ := T.fprime (c.forgetx d) * Cell.stateErr T D c e1 e2 * c.s d
def Cell.cellErr (T : Trans ℝ) (D : Nat) (c : Cell ℝ) (e1 e2 : ℝ) : ℝ := T.f (c.inx D) * T.gprime c.c * Cell.stateErr T D c e1 e2

/-- where the transfer functions have the given derivatives -/
structure Smooth (T : Trans ℝ) (D : Nat) (c : Cell ℝ) : Prop where
  ingate : HasDerivAt T.f (T.fprime (c.inx D)) (c.inx D)
  forget : ∀ d < D, HasDerivAt T.f (T.fprime (c.forgetx d)) (c.forgetx d)
  outgate : HasDerivAt T.f (T.fprime (c.outx T D)) (c.outx T D)
  cell : HasDerivAt T.g (T.gprime c.c) c.c
  squash : HasDerivAt T.h (T.hprime (c.state T D)) (c.state T D)

theorem cell_deriv (T : Trans ℝ) (D : Nat) (cc : ℝ → Cell ℝ) (v : Cell ℝ) (t0 : ℝ) (hs : Smooth T D (cc t0))
    (hi : HasDerivAt (fun t => (cc t).i) v.i t0) (hf : ∀ d, HasDerivAt (fun t => (cc t).f d) (v.f d) t0) (hc : HasDerivAt (fun t => (cc t).c) v.c t0)
    (ho : HasDerivAt (fun t => (cc t).o) v.o t0) (hst : ∀ d, HasDerivAt (fun t => (cc t).s d) (v.s d) t0)
    (hwi : HasDerivAt (fun t => (cc t).wi) v.wi t0) (hwf : ∀ d, HasDerivAt (fun t => (cc t).wf d) (v.wf d) t0) (hwo : HasDerivAt (fun t => (cc t).wo) v.wo t0) (e1 e2 : ℝ) :
    HasDerivAt (fun t => e1 * (cc t).output T D + e2 * (cc t).state T D)
      (Cell.inErr T D (cc t0) e1 e2 * v.i + Cell.cellErr T D (cc t0) e1 e2 * v.c + Cell.outErr T D (cc t0) e1 * v.o +
        (∑ d ∈ range D, Cell.forgetErr T D (cc t0) e1 e2 d * v.f d) +
        (∑ d ∈ range D, (Cell.stateErr T D (cc t0) e1 e2 * T.f ((cc t0).forgetx d) + Cell.inErr T D (cc t0) e1 e2 * (cc t0).wi +
          Cell.forgetErr T D (cc t0) e1 e2 d * (cc t0).wf d) * v.s d) +
        ((∑ d ∈ range D, Cell.inErr T D (cc t0) e1 e2 * (cc t0).s d) * v.wi + (∑ d ∈ range D, Cell.forgetErr T D (cc t0) e1 e2 d * (cc t0).s d * v.wf d) +
          Cell.outErr T D (cc t0) e1 * (cc t0).state T D * v.wo)) t0 := by
  have hA : HasDerivAt (fun t => (cc t).inx D) (v.i + ∑ d ∈ range D, (v.wi * (cc t0).s d + (cc t0).wi * v.s d)) t0 :=
    hi.add (HasDerivAt.fun_sum fun d _ => hwi.mul (hst d))
  have hB : ∀ d, HasDerivAt (fun t => (cc t).forgetx d) (v.f d + (v.wf d * (cc t0).s d + (cc t0).wf d * v.s d)) t0 := fun d => (hf d).add ((hwf d).mul (hst d))
  have hfA := hs.ingate.comp t0 hA
  have hg := hs.cell.comp t0 hc
  have hS : HasDerivAt (fun t => (cc t).state T D) ((T.fprime ((cc t0).inx D) * (v.i + ∑ d ∈ range D, (v.wi * (cc t0).s d + (cc t0).wi * v.s d)) * T.g (cc t0).c +
      T.f ((cc t0).inx D) * (T.gprime (cc t0).c * v.c)) + ∑ d ∈ range D, (T.fprime ((cc t0).forgetx d) * (v.f d + (v.wf d * (cc t0).s d + (cc t0).wf d * v.s d)) * (cc t0).s d +
      T.f ((cc t0).forgetx d) * v.s d)) t0 :=
    (hfA.mul hg).add (HasDerivAt.fun_sum fun d hd => ((hs.forget d (Finset.mem_range.1 hd)).comp t0 (hB d)).mul (hst d))
  set S' := ((T.fprime ((cc t0).inx D) * (v.i + ∑ d ∈ range D, (v.wi * (cc t0).s d + (cc t0).wi * v.s d)) * T.g (cc t0).c +
      T.f ((cc t0).inx D) * (T.gprime (cc t0).c * v.c)) + ∑ d ∈ range D, (T.fprime ((cc t0).forgetx d) * (v.f d + (v.wf d * (cc t0).s d + (cc t0).wf d * v.s d)) * (cc t0).s d +
      T.f ((cc t0).forgetx d) * v.s d)) with hS'
  have hO : HasDerivAt (fun t => (cc t).outx T D) (v.o + (v.wo * (cc t0).state T D + (cc t0).wo * S')) t0 := ho.add (hwo.mul hS)
  have hfO := hs.outgate.comp t0 hO
  have hh := hs.squash.comp t0 hS
  have hout : HasDerivAt (fun t => (cc t).output T D) (T.fprime ((cc t0).outx T D) * (v.o + (v.wo * (cc t0).state T D + (cc t0).wo * S')) * T.h ((cc t0).state T D) +
      T.f ((cc t0).outx T D) * (T.hprime ((cc t0).state T D) * S')) t0 := hfO.mul hh
  refine ((hout.const_mul e1).add (hS.const_mul e2)).congr_deriv ?_
  have k1 : e1 * (T.fprime ((cc t0).outx T D) * (v.o + (v.wo * (cc t0).state T D + (cc t0).wo * S')) * T.h ((cc t0).state T D) +
      T.f ((cc t0).outx T D) * (T.hprime ((cc t0).state T D) * S')) + e2 * S' =
      Cell.outErr T D (cc t0) e1 * v.o + Cell.outErr T D (cc t0) e1 * (cc t0).state T D * v.wo + Cell.stateErr T D (cc t0) e1 e2 * S' := by
    unfold Cell.stateErr Cell.outErr
    ring
  rw [k1]
  have k2 : Cell.stateErr T D (cc t0) e1 e2 * S' = Cell.inErr T D (cc t0) e1 e2 * v.i + Cell.cellErr T D (cc t0) e1 e2 * v.c +
      (∑ d ∈ range D, Cell.forgetErr T D (cc t0) e1 e2 d * v.f d) +
        (∑ d ∈ range D, (Cell.stateErr T D (cc t0) e1 e2 * T.f ((cc t0).forgetx d) + Cell.inErr T D (cc t0) e1 e2 * (cc t0).wi +
          Cell.forgetErr T D (cc t0) e1 e2 d * (cc t0).wf d) * v.s d) +
        ((∑ d ∈ range D, Cell.inErr T D (cc t0) e1 e2 * (cc t0).s d) * v.wi + ∑ d ∈ range D, Cell.forgetErr T D (cc t0) e1 e2 d * (cc t0).s d * v.wf d) := by
    rw [hS', Finset.sum_mul]
    have q1 : Cell.stateErr T D (cc t0) e1 e2 * (T.fprime ((cc t0).inx D) * (v.i + ∑ d ∈ range D, (v.wi * (cc t0).s d + (cc t0).wi * v.s d)) * T.g (cc t0).c +
      T.f ((cc t0).inx D) * (T.gprime (cc t0).c * v.c) + ∑ d ∈ range D, (T.fprime ((cc t0).forgetx d) * (v.f d + (v.wf d * (cc t0).s d + (cc t0).wf d * v.s d)) * (cc t0).s d +
      T.f ((cc t0).forgetx d) * v.s d)) = Cell.inErr T D (cc t0) e1 e2 * v.i + Cell.cellErr T D (cc t0) e1 e2 * v.c +
      (∑ d ∈ range D, Cell.inErr T D (cc t0) e1 e2 * (v.wi * (cc t0).s d + (cc t0).wi * v.s d)) +
      ∑ d ∈ range D, Cell.stateErr T D (cc t0) e1 e2 * (T.fprime ((cc t0).forgetx d) * (v.f d + (v.wf d * (cc t0).s d + (cc t0).wf d * v.s d)) * (cc t0).s d +
      T.f ((cc t0).forgetx d) * v.s d) := by
      rw [← Finset.mul_sum, ← Finset.mul_sum]
      unfold Cell.inErr Cell.cellErr
      ring
    rw [q1]
    have q2 : ∀ (a b c d e : ℝ) (F G H I L M : Nat → ℝ), (∀ d, F d + G d = H d + I d + L d + M d) →
        a + b + (∑ d ∈ range D, F d) + ∑ d ∈ range D, G d = a + b + (∑ d ∈ range D, H d) + (∑ d ∈ range D, I d) + ((∑ d ∈ range D, L d) + ∑ d ∈ range D, M d) := by
      intro a b c d e F G H I L M h
      rw [add_assoc, ← Finset.sum_add_distrib, Finset.sum_congr rfl fun d _ => h d, Finset.sum_add_distrib, Finset.sum_add_distrib, Finset.sum_add_distrib]
      ring
    refine q2 _ _ 0 0 0 _ _ _ _ _ _ fun d => ?_
    unfold Cell.forgetErr
    ring
  rw [k2]
  ring

theorem sum_in (D : Nat) (G : Nat → ℝ) :
    ∑ b ∈ range (3 + 2 * D), G b = G 0 + (∑ d ∈ range D, G (1 + d)) + G (1 + D) + G (2 + D) + ∑ d ∈ range D, G (3 + D + d) := by
  have e : 3 + 2 * D = (1 + D + 1 + 1) + D := by ring
  have e2 : 3 + D = 1 + D + 1 + 1 := by ring
  have e3 : 2 + D = 1 + D + 1 := by ring
  rw [e, e2, e3, Finset.sum_range_add, Finset.sum_range_succ, Finset.sum_range_succ, Finset.sum_range_add, Finset.sum_range_one]

theorem sum_par (D : Nat) (G : Nat → ℝ) : ∑ b ∈ range (2 + D), G b = G 0 + (∑ d ∈ range D, G (1 + d)) + G (1 + D) := by
  have e : 2 + D = 1 + D + 1 := by ring
  rw [e, Finset.sum_range_succ, Finset.sum_range_add, Finset.sum_range_one]

section back
variable (T : Trans ℝ) (peepholes : Bool) (size D : Nat) (w x e : Vec ℝ) (j : Nat)

/-- the errors, cell by cell -/
theorem backward_errors (hj : j < size) :
    let b := (backward T peepholes size D w (forward T peepholes size D w x).1 e x).1
    let c := cellOf peepholes size D w x j
    b j = Cell.inErr T D c (e j) (e (size + j)) ∧ (∀ d < D, b ((1 + d) * size + j) = Cell.forgetErr T D c (e j) (e (size + j)) d) ∧
      b ((1 + D) * size + j) = Cell.cellErr T D c (e j) (e (size + j)) ∧ b ((2 + D) * size + j) = Cell.outErr T D c (e j) ∧
      ∀ d < D, b ((3 + D + d) * size + j) = Cell.stateErr T D c (e j) (e (size + j)) * T.f (c.forgetx d) + Cell.inErr T D c (e j) (e (size + j)) * c.wi +
        Cell.forgetErr T D c (e j) (e (size + j)) d * c.wf d := by
  intro b c
  obtain ⟨h1, h2, h3, h4, h5, h6, h7⟩ := forward_row T peepholes size D w x j hj
  have l1 : ∀ d, (1 + d) * size + j = size + (d * size + j) := fun d => by ring
  have hm : ∀ d, (d * size + j) % size = j := fun d => by rw [Nat.add_comm, Nat.add_mul_mod_self_right, Nat.mod_eq_of_lt hj]
  have hle : ∀ d < D, d * size + size ≤ D * size := fun d hd => by
    have := Nat.mul_le_mul_right size (show d + 1 ≤ D from hd)
    rwa [Nat.add_mul, Nat.one_mul] at this
  have x1 : size * (1 + D) = size + D * size := by ring
  have x2 : size * (2 + D) = 2 * size + D * size := by ring
  have x3 : size * (3 + D) = 3 * size + D * size := by ring
  have y0 : ∀ d, (1 + d) * size + j = size + d * size + j := fun d => by ring
  have y2 : (2 + D) * size + j = 2 * size + D * size + j := by ring
  have y3 : ∀ d, (3 + D + d) * size + j = 3 * size + D * size + d * size + j := fun d => by ring
  have z1 : c.c = x (size + D * size + j) := by show x _ = _; rw [y0]
  have z2 : ∀ d, c.s d = x (3 * size + D * size + (d * size + j)) := fun d => by show x _ = _; rw [y3]; congr 1; omega
  have hg : ∀ i, b i = if i < size then _ else if i < size * (1 + D) then _ else if i < size * (2 + D) then _ else if i < size * (3 + D) then _ else _ := fun i => rfl
  have se : ∀ k, k = j → (if peepholes then fun j => e j * (forward T peepholes size D w x).1.outgate j * T.hprime ((forward T peepholes size D w x).1.state j) + e (size + j) +
      T.fprime ((forward T peepholes size D w x).1.outgatex j) * e j * T.h ((forward T peepholes size D w x).1.state j) * w (size * (1 + D) + j)
      else fun j => e j * (forward T peepholes size D w x).1.outgate j * T.hprime ((forward T peepholes size D w x).1.state j) + e (size + j) : Vec ℝ) k =
      Cell.stateErr T D c (e j) (e (size + j)) := by
    rintro k rfl
    cases peepholes
    · simp only [Bool.false_eq_true, if_false, h5, h7]
      unfold Cell.stateErr
      have : c.wo = 0 := rfl
      rw [this, mul_zero, add_zero]
    · simp only [if_true, h5, h6, h7, Nat.mul_comm size (1 + D)]
      rfl
  have oe : T.fprime ((forward T peepholes size D w x).1.outgatex j) * e j * T.h ((forward T peepholes size D w x).1.state j) = Cell.outErr T D c (e j) := by
    rw [h5, h6]; rfl
  have ie : ∀ k, k = j → T.fprime ((forward T peepholes size D w x).1.ingatex k) * (if peepholes then fun j => e j * (forward T peepholes size D w x).1.outgate j * T.hprime ((forward T peepholes size D w x).1.state j) + e (size + j) +
      T.fprime ((forward T peepholes size D w x).1.outgatex j) * e j * T.h ((forward T peepholes size D w x).1.state j) * w (size * (1 + D) + j)
      else fun j => e j * (forward T peepholes size D w x).1.outgate j * T.hprime ((forward T peepholes size D w x).1.state j) + e (size + j) : Vec ℝ) k * T.g (x (size * (1 + D) + k)) =
      Cell.inErr T D c (e j) (e (size + j)) := by
    rintro k rfl
    rw [se _ rfl, h1, x1, ← z1]; rfl
  have fe : ∀ d, T.fprime ((forward T peepholes size D w x).1.forgetgatex (d * size + j)) * (if peepholes then fun j => e j * (forward T peepholes size D w x).1.outgate j * T.hprime ((forward T peepholes size D w x).1.state j) + e (size + j) +
      T.fprime ((forward T peepholes size D w x).1.outgatex j) * e j * T.h ((forward T peepholes size D w x).1.state j) * w (size * (1 + D) + j)
      else fun j => e j * (forward T peepholes size D w x).1.outgate j * T.hprime ((forward T peepholes size D w x).1.state j) + e (size + j) : Vec ℝ) ((d * size + j) % size) *
      x (size * (3 + D) + (d * size + j)) = Cell.forgetErr T D c (e j) (e (size + j)) d := by
    intro d
    rw [se _ (hm d), h3, x3, ← z2]; rfl
  refine ⟨?_, ?_, ?_, ?_, ?_⟩
  · rw [hg, if_pos hj]
    exact ie j rfl
  · intro d hd
    have := hle d hd
    rw [hg, if_neg (by rw [y0]; omega), if_pos (by rw [y0, x1]; omega), l1, Nat.add_sub_cancel_left]
    exact fe d
  · rw [hg, if_neg (by rw [y0]; omega), if_neg (by rw [y0, x1]; omega), if_pos (by rw [y0, x2]; omega),
      show (1 + D) * size + j - size * (1 + D) = j by rw [x1, y0]; omega]
    show (forward T peepholes size D w x).1.ingate j * T.gprime (x (size * (1 + D) + j)) * _ = _
    rw [x1, ← z1, h2]
    refine (congrArg _ ?_ : _ = T.f (c.inx D) * T.gprime c.c * Cell.stateErr T D c (e j) (e (size + j)))
    rw [← x1]
    exact se j rfl
  · rw [hg, if_neg (by rw [y2]; omega), if_neg (by rw [y2, x1]; omega), if_neg (by rw [y2, x2]; omega), if_pos (by rw [y2, x3]; omega),
      show (2 + D) * size + j - size * (2 + D) = j by rw [x2, y2]; omega]
    exact oe
  · intro d hd
    have := hle d hd
    rw [hg, if_neg (by rw [y3]; omega), if_neg (by rw [y3, x1]; omega), if_neg (by rw [y3, x2]; omega), if_neg (by rw [y3, x3]; omega),
      show (3 + D + d) * size + j - size * (3 + D) = d * size + j by rw [x3, y3]; omega]
    have := fe d
    have h8 := ie ((d * size + j) % size) (hm d)
    have h9 := se _ (hm d)
    have h10 := h4 d
    have e8 : size + (d * size + j) = (1 + d) * size + j := (l1 d).symm
    cases peepholes
    · have k1 : c.wi = 0 := rfl
      have k2 : c.wf d = 0 := rfl
      rw [k1, k2, mul_zero, mul_zero, add_zero, add_zero, ← h9, ← h10]
      rfl
    · have k1 : c.wi = w ((d * size + j) % size) := by rw [hm d]; rfl
      have k2 : c.wf d = w (size + (d * size + j)) := by rw [e8]; rfl
      rw [k1, k2, ← this, ← h8, ← h9, ← h10]
      rfl

theorem backward_derivs (hj : j < size) :
    let b := (backward T true size D w (forward T true size D w x).1 e x).2
    let c := cellOf true size D w x j
    b j = ∑ d ∈ range D, Cell.inErr T D c (e j) (e (size + j)) * c.s d ∧
      (∀ d < D, b ((1 + d) * size + j) = Cell.forgetErr T D c (e j) (e (size + j)) d * c.s d) ∧
      b ((1 + D) * size + j) = Cell.outErr T D c (e j) * c.state T D := by
  intro b c
  obtain ⟨h1, h2, h3, h4, h5, h6, h7⟩ := forward_row T true size D w x j hj
  obtain ⟨g1, g2, g3, g4, g5⟩ := backward_errors T true size D w x e j hj
  have l1 : ∀ d, (1 + d) * size + j = size + (d * size + j) := fun d => by ring
  have hle : ∀ d < D, d * size + size ≤ D * size := fun d hd => by
    have := Nat.mul_le_mul_right size (show d + 1 ≤ D from hd)
    rwa [Nat.add_mul, Nat.one_mul] at this
  have x1 : size * (1 + D) = size + D * size := by ring
  have x2 : size * (2 + D) = 2 * size + D * size := by ring
  have x3 : size * (3 + D) = 3 * size + D * size := by ring
  have y0 : ∀ d, (1 + d) * size + j = size + d * size + j := fun d => by ring
  have y2 : (2 + D) * size + j = 2 * size + D * size + j := by ring
  have z2 : ∀ d, c.s d = x (size * (3 + D) + (d * size + j)) := fun d => by show x _ = _; congr 1; ring
  have ha : ∀ i, (backward T true size D w (forward T true size D w x).1 e x).1 i =
      if i < size then _ else if i < size * (1 + D) then _ else if i < size * (2 + D) then _ else if i < size * (3 + D) then _ else _ := fun i => rfl
  have hb : ∀ i, b i = if i < size then _ else if i < size * (1 + D) then _ else _ := fun i => rfl
  refine ⟨?_, ?_, ?_⟩
  · rw [ha, if_pos hj] at g1
    rw [hb, if_pos hj]
    refine Finset.sum_congr rfl fun d _ => ?_
    rw [z2, ← g1, Nat.mul_comm d]
  · intro d hd
    have hd' := hle d hd
    have g2 := g2 d hd
    rw [ha, if_neg (by rw [y0]; omega), if_pos (by rw [y0, x1]; omega), l1, Nat.add_sub_cancel_left] at g2
    rw [hb, if_neg (by rw [y0]; omega), if_pos (by rw [y0, x1]; omega), l1, Nat.add_sub_cancel_left, z2, ← g2]
  · rw [ha, if_neg (by rw [y2]; omega), if_neg (by rw [y2, x1]; omega), if_neg (by rw [y2, x2]; omega), if_pos (by rw [y2, x3]; omega),
      show (2 + D) * size + j - size * (2 + D) = j by rw [x2, y2]; omega] at g4
    rw [hb, if_neg (by rw [y0]; omega), if_neg (by rw [y0, x1]; omega), show (1 + D) * size + j - size * (1 + D) = j by rw [x1, y0]; omega, ← g4, ← h5]

end back

end Verif.MdLstm

namespace Verif.Props
open Verif.Net Verif.Net.Spec Verif.MdLstm Finset
open Verif.Lstm (Trans)
open Verif.MdLstm.Spec

/-- **C112, forward pass.** The first `size` outputs of a multi-dimensional LSTM layer are the outputs of its cells, and the others are their states, for any number of cells and
dimensions, any transfer functions, with and without peepholes. -/
theorem C112_forward {K P : Type} [CommRing K] (pc : P) (T : Trans K) (peepholes : Bool) (size D : Nat) (w x buf : Vec K) (j : Nat) (hj : j < size) :
    let M := mdlstmLayer pc T peepholes size D
    M.indim = (3 + 2 * D) * size ∧ M.outdim = 2 * size ∧ M.fwd w x buf j = (cellOf peepholes size D w x j).output T D ∧
      M.fwd w x buf (size + j) = (cellOf peepholes size D w x j).state T D := by
  obtain ⟨h1, h2⟩ := forward_out T peepholes size D w x j hj
  exact ⟨rfl, Nat.mul_comm _ _, h1, h2⟩

/-- **C112, backward pass.** The backward pass of the layer is the transposed derivative of its forward pass, with respect to all inputs (also the states of the predecessors) and to the
peephole weights, whatever errors of the outputs and of the states are passed back: the layer meets the hypothesis of the theorem on gradients of networks. It is assumed that the transfer functions have
the given derivatives where they are used. -/
theorem C112_backward {P : Type} (pc : P) (T : Trans ℝ) (peepholes : Bool) (size D : Nat) (w x : Vec ℝ) (hs : ∀ j < size, Smooth T D (cellOf peepholes size D w x j)) :
    ModDiff (mdlstmLayer pc T peepholes size D) (paramdim peepholes size D) w x := by
  intro pcv xcv t0 p' x' hp hx hpd hxd e
  subst hp hx
  have hout : (fun t => ∑ j ∈ range (mdlstmLayer pc T peepholes size D).outdim, e j * (mdlstmLayer pc T peepholes size D).fwd (pcv t) (xcv t) (fun _ => 0) j) =
      fun t => ∑ j ∈ range size, (e j * (cellOf peepholes size D (pcv t) (xcv t) j).output T D + e (size + j) * (cellOf peepholes size D (pcv t) (xcv t) j).state T D) := by
    funext t
    show ∑ j ∈ range (size * 2), e j * (forward T peepholes size D (pcv t) (xcv t)).2 j = _
    rw [Nat.mul_two, Finset.sum_range_add, ← Finset.sum_add_distrib]
    refine Finset.sum_congr rfl fun j hj => ?_
    obtain ⟨h1, h2⟩ := forward_out T peepholes size D (pcv t) (xcv t) j (Finset.mem_range.1 hj)
    rw [h1, h2]
  rw [hout]
  let V : Nat → Cell ℝ := cellOf peepholes size D p' x'
  have hcell := fun j (hj : j ∈ range size) => cell_deriv T D (fun t => cellOf peepholes size D (pcv t) (xcv t) j) (V j) t0 (hs j (Finset.mem_range.1 hj))
    (hxd _) (fun d => hxd _) (hxd _) (hxd _) (fun d => hxd _)
    (by cases peepholes
        · exact hasDerivAt_const t0 0
        · exact hpd _)
    (fun d => by
        cases peepholes
        · exact hasDerivAt_const t0 0
        · exact hpd _)
    (by cases peepholes
        · exact hasDerivAt_const t0 0
        · exact hpd _) (e j) (e (size + j))
  refine (HasDerivAt.fun_sum hcell).congr_deriv ?_
  have hin : ∑ i ∈ range (mdlstmLayer pc T peepholes size D).indim, (backward T peepholes size D (pcv t0) (forward T peepholes size D (pcv t0) (xcv t0)).1 e (xcv t0)).1 i * x' i =
      ∑ j ∈ range size, ∑ b ∈ range (3 + 2 * D), (backward T peepholes size D (pcv t0) (forward T peepholes size D (pcv t0) (xcv t0)).1 e (xcv t0)).1 (b * size + j) * x' (b * size + j) := by
    rw [Finset.sum_comm]
    exact Lstm.sum_blocks _ _ _
  have hpar : ∑ k ∈ range (paramdim peepholes size D), (backward T peepholes size D (pcv t0) (forward T peepholes size D (pcv t0) (xcv t0)).1 e (xcv t0)).2 k * p' k =
      ∑ j ∈ range size, ((∑ d ∈ range D, Cell.inErr T D (cellOf peepholes size D (pcv t0) (xcv t0) j) (e j) (e (size + j)) * (cellOf peepholes size D (pcv t0) (xcv t0) j).s d) * (V j).wi +
        (∑ d ∈ range D, Cell.forgetErr T D (cellOf peepholes size D (pcv t0) (xcv t0) j) (e j) (e (size + j)) d * (cellOf peepholes size D (pcv t0) (xcv t0) j).s d * (V j).wf d) +
          Cell.outErr T D (cellOf peepholes size D (pcv t0) (xcv t0) j) (e j) * (cellOf peepholes size D (pcv t0) (xcv t0) j).state T D * (V j).wo) := by
    cases peepholes
    · have z : ∀ j d, (V j).wi = 0 ∧ (V j).wf d = 0 ∧ (V j).wo = 0 := fun j d => ⟨rfl, rfl, rfl⟩
      rw [Finset.sum_eq_zero (s := range size)]
      · rfl
      · intro j _
        rw [(z j 0).1, (z j 0).2.2, mul_zero, mul_zero, zero_add, add_zero]
        exact Finset.sum_eq_zero fun d _ => by rw [(z j d).2.1, mul_zero]
    · have e0 : paramdim true size D = (2 + D) * size := Nat.mul_comm _ _
      rw [e0, Lstm.sum_blocks, Finset.sum_comm]
      refine Finset.sum_congr rfl fun j hj => ?_
      obtain ⟨h1, h2, h3⟩ := backward_derivs T size D (pcv t0) (xcv t0) e j (Finset.mem_range.1 hj)
      have s1 : ∑ d ∈ range D, (backward T true size D (pcv t0) (forward T true size D (pcv t0) (xcv t0)).1 e (xcv t0)).2 ((1 + d) * size + j) * p' ((1 + d) * size + j) =
          ∑ d ∈ range D, Cell.forgetErr T D (cellOf true size D (pcv t0) (xcv t0) j) (e j) (e (size + j)) d * (cellOf true size D (pcv t0) (xcv t0) j).s d * (V j).wf d :=
        Finset.sum_congr rfl fun d hd => by rw [h2 d (Finset.mem_range.1 hd)]; rfl
      rw [sum_par, s1, Nat.zero_mul, Nat.zero_add, h1, h3]
      rfl
  show _ = (∑ i ∈ range (mdlstmLayer pc T peepholes size D).indim, (backward T peepholes size D (pcv t0) (forward T peepholes size D (pcv t0) (xcv t0)).1 e (xcv t0)).1 i * x' i) +
    ∑ k ∈ range (paramdim peepholes size D), (backward T peepholes size D (pcv t0) (forward T peepholes size D (pcv t0) (xcv t0)).1 e (xcv t0)).2 k * p' k
  rw [hin, hpar, ← Finset.sum_add_distrib]
  refine Finset.sum_congr rfl fun j hj => ?_
  obtain ⟨g1, g2, g3, g4, g5⟩ := backward_errors T peepholes size D (pcv t0) (xcv t0) e j (Finset.mem_range.1 hj)
  have s1 : ∑ d ∈ range D, (backward T peepholes size D (pcv t0) (forward T peepholes size D (pcv t0) (xcv t0)).1 e (xcv t0)).1 ((1 + d) * size + j) * x' ((1 + d) * size + j) =
      ∑ d ∈ range D, Cell.forgetErr T D (cellOf peepholes size D (pcv t0) (xcv t0) j) (e j) (e (size + j)) d * x' ((1 + d) * size + j) :=
    Finset.sum_congr rfl fun d hd => by rw [g2 d (Finset.mem_range.1 hd)]
  have s2 : ∑ d ∈ range D, (backward T peepholes size D (pcv t0) (forward T peepholes size D (pcv t0) (xcv t0)).1 e (xcv t0)).1 ((3 + D + d) * size + j) * x' ((3 + D + d) * size + j) =
      ∑ d ∈ range D, (Cell.stateErr T D (cellOf peepholes size D (pcv t0) (xcv t0) j) (e j) (e (size + j)) * T.f ((cellOf peepholes size D (pcv t0) (xcv t0) j).forgetx d) +
        Cell.inErr T D (cellOf peepholes size D (pcv t0) (xcv t0) j) (e j) (e (size + j)) * (cellOf peepholes size D (pcv t0) (xcv t0) j).wi +
        Cell.forgetErr T D (cellOf peepholes size D (pcv t0) (xcv t0) j) (e j) (e (size + j)) d * (cellOf peepholes size D (pcv t0) (xcv t0) j).wf d) * x' ((3 + D + d) * size + j) :=
    Finset.sum_congr rfl fun d hd => by rw [g5 d (Finset.mem_range.1 hd)]
  rw [sum_in, s1, s2, Nat.zero_mul, Nat.zero_add, g1, g3, g4]
  have v1 : (V j).i = x' j := rfl
  have v2 : ∀ d, (V j).f d = x' ((1 + d) * size + j) := fun _ => rfl
  have v3 : (V j).c = x' ((1 + D) * size + j) := rfl
  have v4 : (V j).o = x' ((2 + D) * size + j) := rfl
  have v5 : ∀ d, (V j).s d = x' ((3 + D + d) * size + j) := fun _ => rfl
  simp only [v1, v2, v3, v4, v5]
  ring

/-- **C112, the transfer functions of the library** meet this hypothesis as long as no gate's input reaches the clipping bound 500. Missing: beyond the bound the derivative used is not that of the clipped function
(`C14_negation_sigmoid_clipped`). -/
theorem C112_library_partial (D : Nat) (c : Cell ℝ) (h1 : |c.inx D| < 500) (h2 : ∀ d < D, |c.forgetx d| < 500) (h3 : |c.outx lstmLibrary D| < 500) : Smooth lstmLibrary D c := by
  have ht : ∀ v, HasDerivAt Real.tanh (tanhPrime v) v := fun v => by
    have := hasDerivAt_tanh v
    rwa [pow_two] at this
  exact ⟨hasDerivAt_sigmoid h1, fun d hd => hasDerivAt_sigmoid (h2 d hd), hasDerivAt_sigmoid h3, ht _, ht _⟩

/-- Two cells with two dimensions and peepholes, inputs 0. -/
example : ∀ j < 2, Smooth lstmLibrary 2 (cellOf true 2 2 (fun _ => 0) (fun _ => 0) j) := fun j _ =>
  C112_library_partial _ _ (by simp [cellOf, Cell.inx]) (fun d _ => by simp [cellOf, Cell.forgetx]) (by simp [cellOf, Cell.outx])

/-- the outputs of a one-dimensional layer that is fed with its own states, with states 0 before the first step -/
def unrolled {K : Type} [CommRing K] (T : Trans K) (peepholes : Bool) (size : Nat) (w : Vec K) (x : Nat → Vec K) : Nat → Vec K
  | 0 => (forward T peepholes size 1 w fun i => if i < 4 * size then x 0 i else 0).2
  | t + 1 => (forward T peepholes size 1 w fun i => if i < 4 * size then x (t + 1) i else unrolled T peepholes size w x t (size + (i - 4 * size))).2

/-- **C112, one dimension.** A layer with one dimension whose states are passed to its copy at the next step is an LSTM layer: it has the outputs of the LSTM recurrence, on the same inputs
and with the same weights. -/
theorem C112_lstm {K : Type} [CommRing K] (T : Trans K) (peepholes : Bool) (size : Nat) (w : Vec K) (x : Nat → Vec K) (t j : Nat) (hj : j < size) :
    unrolled T peepholes size w x t j = Lstm.Spec.output T (Lstm.Spec.cellOf peepholes size w x j) t ∧
      unrolled T peepholes size w x t (size + j) = Lstm.Spec.before T (Lstm.Spec.cellOf peepholes size w x j) (t + 1) := by
  have key : ∀ t (s : K), (∀ y : Vec K, (∀ i < 4 * size, y i = x t i) → y (4 * size + j) = s → s = Lstm.Spec.before T (Lstm.Spec.cellOf peepholes size w x j) t →
      (forward T peepholes size 1 w y).2 j = Lstm.Spec.output T (Lstm.Spec.cellOf peepholes size w x j) t ∧
      (forward T peepholes size 1 w y).2 (size + j) = Lstm.Spec.before T (Lstm.Spec.cellOf peepholes size w x j) (t + 1)) := by
    intro t s y hy hys hs
    obtain ⟨h1, h2⟩ := forward_out T peepholes size 1 w y j hj
    have c1 : (cellOf peepholes size 1 w y j).i = (Lstm.Spec.cellOf peepholes size w x j).i t := hy j (by omega)
    have c2 : (cellOf peepholes size 1 w y j).f 0 = (Lstm.Spec.cellOf peepholes size w x j).f t := by
      show y ((1 + 0) * size + j) = x t (size + j)
      rw [← hy _ (by omega)]; congr 1; ring
    have c3 : (cellOf peepholes size 1 w y j).c = (Lstm.Spec.cellOf peepholes size w x j).c t := by
      show y ((1 + 1) * size + j) = x t (2 * size + j)
      rw [← hy _ (by omega)]
    have c4 : (cellOf peepholes size 1 w y j).o = (Lstm.Spec.cellOf peepholes size w x j).o t := by
      show y ((2 + 1) * size + j) = x t (3 * size + j)
      rw [← hy _ (by omega)]
    have c5 : (cellOf peepholes size 1 w y j).s 0 = Lstm.Spec.before T (Lstm.Spec.cellOf peepholes size w x j) t := by
      rw [← hs, ← hys]
      rfl
    have c6 : (cellOf peepholes size 1 w y j).wf 0 = (Lstm.Spec.cellOf peepholes size w x j).wf := by
      show (if peepholes then w ((1 + 0) * size + j) else 0) = if peepholes then w (size + j) else 0
      rw [show (1 + 0) * size + j = size + j by ring]
    have st : (cellOf peepholes size 1 w y j).state T 1 = Lstm.Spec.before T (Lstm.Spec.cellOf peepholes size w x j) (t + 1) := by
      unfold Cell.state Cell.inx Cell.forgetx
      rw [Finset.sum_range_one, Finset.sum_range_one, c1, c2, c3, c5, c6]
      rfl
    refine ⟨?_, h2.trans st⟩
    rw [h1]
    unfold Cell.output Cell.outx
    rw [st, c4]
    rfl
  induction t with
  | zero =>
    exact key 0 0 _ (fun i hi => if_pos hi) (if_neg (by omega)) rfl
  | succ t ih =>
    refine key (t + 1) _ _ (fun i hi => if_pos hi) rfl ?_
    rw [if_neg (by omega), Nat.add_sub_cancel_left]
    exact ih.2

/-- **C112, slices.** For a layer with at least one cell, `meatSlice` gives the inputs of gates and cells and the outputs of the cells, and `stateSlice` the states of the predecessors and of the cells: together these are all inputs and outputs, and
none belongs to both. -/
theorem C112_slices {V : Type} (v : V) (size D : Nat) (hs : 0 < size) :
    meatSlice v size D = .ok { base := v, isSlice := true, inOff := 0, outOff := 0, indim := ((3 + D) * size : Nat), outdim := size } ∧
      stateSlice v size D = .ok { base := v, isSlice := true, inOff := ((3 + D) * size : Nat), outOff := size, indim := (D * size : Nat), outdim := size } := by
  have e1 : (3 + 2 * D) * size = 3 * size + D * size + D * size := by ring
  have e2 : size * (3 + D) = 3 * size + D * size := by ring
  have e3 : (3 + D) * size = 3 * size + D * size := by ring
  constructor
  · unfold meatSlice
    rw [C107_slice, if_pos]
    · rw [e2, e3]; simp
    · simp only [Option.getD_some]; rw [e1, e2]; clear e1 e2 e3; generalize D * size = m; omega
  · unfold stateSlice
    rw [C107_slice, if_pos]
    · rw [e1, e2, e3]
      have a1 : (((3 * size + D * size + D * size : Nat) : Int) - ((3 * size + D * size : Nat) : Int)) = ((D * size : Nat) : Int) := by omega
      have a2 : (((size * 2 : Nat) : Int) - (size : Int)) = (size : Int) := by omega
      simp only [Option.getD_none, a1, a2]
    · simp only [Option.getD_none]; rw [e1, e2]; clear e1 e2 e3; generalize D * size = m; omega

end Verif.Props
