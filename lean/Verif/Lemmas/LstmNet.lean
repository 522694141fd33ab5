import Verif.Spec.LstmNet
import Verif.Lemmas.Trainer
import Verif.Props.Lstm
/-
Lemmas for C174 (networks with LSTM layers). An LSTM layer is seen as an ordinary module with `dim` more inputs (the state before the step) and `dim` more outputs (the state
after it), and an identity connection that carries the state from one step to the next. The network extended in this way is an ordinary recurrent network; the model of
the code simulates it.
-/
namespace Verif.LstmNet
open Verif.Net Verif.Net.Spec Verif.LstmNet.Spec Finset

variable {V P : Type}

section cell
variable (k : Kind ℝ) (p x : Vec ℝ) (j : Nat)

noncomputable def wi : ℝ := if k.peepholes then p j else 0
noncomputable def wf : ℝ := if k.peepholes then p (k.dim + j) else 0
noncomputable def wo : ℝ := if k.peepholes then p (2 * k.dim + j) else 0
/-- the state before the step -/
def pre : ℝ := x (4 * k.dim + j)
noncomputable def gi : ℝ := x j + wi k p j * pre k x j
noncomputable def gf : ℝ := x (k.dim + j) + wf k p j * pre k x j
noncomputable def st : ℝ := k.T.f (gi k p x j) * k.T.g (x (2 * k.dim + j)) + k.T.f (gf k p x j) * pre k x j
noncomputable def go : ℝ := x (3 * k.dim + j) + wo k p j * st k p x j
noncomputable def out : ℝ := k.T.f (go k p x j) * k.T.h (st k p x j)

variable (e : Vec ℝ)
noncomputable def oge : ℝ := k.T.fprime (go k p x j) * e j * k.T.h (st k p x j)
noncomputable def se : ℝ := e j * k.T.f (go k p x j) * k.T.hprime (st k p x j) + e (k.dim + j) + oge k p x j e * wo k p j
noncomputable def ce : ℝ := k.T.f (gi k p x j) * k.T.gprime (x (2 * k.dim + j)) * se k p x j e
noncomputable def fge : ℝ := k.T.fprime (gf k p x j) * se k p x j e * pre k x j
noncomputable def ige : ℝ := k.T.fprime (gi k p x j) * se k p x j e * k.T.g (x (2 * k.dim + j))
/-- the error of the state before the step -/
noncomputable def pe : ℝ := se k p x j e * k.T.f (gf k p x j) + ige k p x j e * wi k p j + fge k p x j e * wf k p j
end cell

/-- An LSTM layer as an ordinary module. -/
noncomputable def extMod (k : Kind ℝ) (pc : P) : Mod P ℝ where
  indim := 5 * k.dim
  outdim := 2 * k.dim
  pc := pc
  fwd := fun p x _ i => if i < k.dim then out k p x i else st k p x (i - k.dim)
  bwdErr := fun p e _ _ x i => if i < k.dim then ige k p x i e else if i < 2 * k.dim then fge k p x (i - k.dim) e
    else if i < 3 * k.dim then ce k p x (i - 2 * k.dim) e else if i < 4 * k.dim then oge k p x (i - 3 * k.dim) e else pe k p x (i - 4 * k.dim) e
  bwdPar := fun p e _ x i => if k.peepholes then
      (if i < k.dim then ige k p x i e * pre k x i else if i < 2 * k.dim then fge k p x (i - k.dim) e * pre k x (i - k.dim)
        else oge k p x (i - 2 * k.dim) e * st k p x (i - 2 * k.dim))
    else 0

/-- The transfer functions have the derivatives they claim to have, at all points the layer visits for input `x`. -/
structure CellSmooth (k : Kind ℝ) (p x : Vec ℝ) : Prop where
  i : ∀ j < k.dim, HasDerivAt k.T.f (k.T.fprime (gi k p x j)) (gi k p x j)
  f : ∀ j < k.dim, HasDerivAt k.T.f (k.T.fprime (gf k p x j)) (gf k p x j)
  o : ∀ j < k.dim, HasDerivAt k.T.f (k.T.fprime (go k p x j)) (go k p x j)
  g : ∀ j < k.dim, HasDerivAt k.T.g (k.T.gprime (x (2 * k.dim + j))) (x (2 * k.dim + j))
  h : ∀ j < k.dim, HasDerivAt k.T.h (k.T.hprime (st k p x j)) (st k p x j)

theorem cell_deriv (k : Kind ℝ) (pcv xcv : ℝ → Vec ℝ) (t0 : ℝ) (p' x' : Vec ℝ) (hs : CellSmooth k (pcv t0) (xcv t0))
    (hp : ∀ i, HasDerivAt (fun t => pcv t i) (p' i) t0) (hx : ∀ i, HasDerivAt (fun t => xcv t i) (x' i) t0) (e : Vec ℝ) (j : Nat) (hj : j < k.dim) :
    HasDerivAt (fun t => e j * out k (pcv t) (xcv t) j + e (k.dim + j) * st k (pcv t) (xcv t) j)
      (ige k (pcv t0) (xcv t0) j e * x' j + fge k (pcv t0) (xcv t0) j e * x' (k.dim + j) + ce k (pcv t0) (xcv t0) j e * x' (2 * k.dim + j) +
        oge k (pcv t0) (xcv t0) j e * x' (3 * k.dim + j) + pe k (pcv t0) (xcv t0) j e * x' (4 * k.dim + j) +
        if k.peepholes then ige k (pcv t0) (xcv t0) j e * pre k (xcv t0) j * p' j +
          fge k (pcv t0) (xcv t0) j e * pre k (xcv t0) j * p' (k.dim + j) + oge k (pcv t0) (xcv t0) j e * st k (pcv t0) (xcv t0) j * p' (2 * k.dim + j) else 0) t0 := by
  have hwi : HasDerivAt (fun t => wi k (pcv t) j) (if k.peepholes then p' j else 0) t0 := by
    unfold wi; split
    · exact hp _
    · exact hasDerivAt_const _ _
  have hwf : HasDerivAt (fun t => wf k (pcv t) j) (if k.peepholes then p' (k.dim + j) else 0) t0 := by
    unfold wf; split
    · exact hp _
    · exact hasDerivAt_const _ _
  have hwo : HasDerivAt (fun t => wo k (pcv t) j) (if k.peepholes then p' (2 * k.dim + j) else 0) t0 := by
    unfold wo; split
    · exact hp _
    · exact hasDerivAt_const _ _
  have hpre : HasDerivAt (fun t => pre k (xcv t) j) (x' (4 * k.dim + j)) t0 := hx _
  have hgi := (hx j).add (hwi.mul hpre)
  have hgf := (hx (k.dim + j)).add (hwf.mul hpre)
  have hi := HasDerivAt.comp t0 (h₂ := k.T.f) (h := fun t => gi k (pcv t) (xcv t) j) (hs.i j hj) hgi
  have hf := HasDerivAt.comp t0 (h₂ := k.T.f) (h := fun t => gf k (pcv t) (xcv t) j) (hs.f j hj) hgf
  have hg := HasDerivAt.comp t0 (h₂ := k.T.g) (h := fun t => xcv t (2 * k.dim + j)) (hs.g j hj) (hx _)
  have hst := (hi.mul hg).add (hf.mul hpre)
  have hgo := (hx (3 * k.dim + j)).add (hwo.mul hst)
  have ho := HasDerivAt.comp t0 (h₂ := k.T.f) (h := fun t => go k (pcv t) (xcv t) j) (hs.o j hj) hgo
  have hh := HasDerivAt.comp t0 (h₂ := k.T.h) (h := fun t => st k (pcv t) (xcv t) j) (hs.h j hj) hst
  have hout := ho.mul hh
  refine ((hout.const_mul (e j)).add (hst.const_mul (e (k.dim + j)))).congr_deriv ?_
  simp only [Function.comp]
  have e1 : st k (pcv t0) (xcv t0) j = k.T.f (gi k (pcv t0) (xcv t0) j) * k.T.g (xcv t0 (2 * k.dim + j)) + k.T.f (gf k (pcv t0) (xcv t0) j) * pre k (xcv t0) j := rfl
  simp only [Pi.mul_apply, Pi.add_apply, Function.comp]
  rw [← e1]
  unfold pe ige fge ce se oge
  unfold wi wf wo
  split <;> ring

theorem extMod_diff (k : Kind ℝ) (pc : P) (p x : Vec ℝ) (hs : CellSmooth k p x) : ModDiff (extMod k pc) (if k.peepholes then 3 * k.dim else 0) p x := by
  intro pcv xcv t0 p' x' hp0 hx0 hp hx e
  subst hp0 hx0
  have h1 : ∀ t, ∑ j ∈ range (extMod k pc).outdim, e j * (extMod k pc).fwd (pcv t) (xcv t) (fun _ => 0) j =
      ∑ j ∈ range k.dim, (e j * out k (pcv t) (xcv t) j + e (k.dim + j) * st k (pcv t) (xcv t) j) := by
    intro t
    simp only [extMod]
    rw [Lstm.sum_blocks]
    simp only [sum_range_succ, sum_range_zero, zero_add, ← sum_add_distrib]
    apply sum_congr rfl
    intro j hj
    rw [mem_range] at hj
    simp only [Nat.zero_mul, Nat.zero_add, Nat.one_mul]
    rw [if_pos hj, if_neg (by omega), show k.dim + j - k.dim = j by omega]
  have h2 := HasDerivAt.fun_sum (u := range k.dim) (fun j hj => cell_deriv k pcv xcv t0 p' x' hs hp hx e j (mem_range.1 hj))
  have h3 : (fun t => ∑ j ∈ range (extMod k pc).outdim, e j * (extMod k pc).fwd (pcv t) (xcv t) (fun _ => 0) j) =
      fun t => ∑ j ∈ range k.dim, (e j * out k (pcv t) (xcv t) j + e (k.dim + j) * st k (pcv t) (xcv t) j) := funext h1
  rw [h3]
  refine h2.congr_deriv ?_
  rw [sum_add_distrib]
  congr 1
  · simp only [extMod]
    rw [Lstm.sum_blocks]
    simp only [sum_range_succ, sum_range_zero, zero_add, ← sum_add_distrib]
    apply sum_congr rfl
    intro j hj
    rw [mem_range] at hj
    simp only [Nat.zero_mul, Nat.zero_add, Nat.one_mul]
    rw [if_pos hj, if_neg (by omega), if_pos (by omega), if_neg (by omega), if_neg (by omega), if_pos (by omega), if_neg (by omega), if_neg (by omega),
      if_neg (by omega), if_pos (by omega), if_neg (by omega), if_neg (by omega), if_neg (by omega), if_neg (by omega),
      show k.dim + j - k.dim = j by omega, show 2 * k.dim + j - 2 * k.dim = j by omega, show 3 * k.dim + j - 3 * k.dim = j by omega,
      show 4 * k.dim + j - 4 * k.dim = j by omega]
  · simp only [extMod]
    by_cases hk : k.peepholes
    · simp only [hk, if_true]
      rw [Lstm.sum_blocks]
      simp only [sum_range_succ, sum_range_zero, zero_add, ← sum_add_distrib]
      apply sum_congr rfl
      intro j hj
      rw [mem_range] at hj
      simp only [Nat.zero_mul, Nat.zero_add, Nat.one_mul]
      rw [if_pos hj, if_neg (by omega), if_pos (by omega), if_neg (by omega), if_neg (by omega),
        show k.dim + j - k.dim = j by omega, show 2 * k.dim + j - 2 * k.dim = j by omega]
    · simp [hk]

end Verif.LstmNet
