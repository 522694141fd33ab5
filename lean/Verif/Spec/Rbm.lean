import Verif.Model.Rbm
/-
Specification of restricted Boltzmann machines and of contrastive divergence.

`W i j` is the weight between visible unit `i` and hidden unit `j`, `b` are the biases of hidden, `c` those of visible units.
-/
namespace Verif.Rbm.Spec
open Verif.Net
open Finset (range)

structure Weights where
  W : Nat → Nat → ℝ
  b : Nat → ℝ
  c : Nat → ℝ

/-- `π i j` is the pair of units whose weight is used from visible unit `i` to hidden unit `j`. In a restricted Boltzmann machine this is `(i, j)`. -/
abbrev Wiring := Nat → Nat → Nat × Nat
def proper : Wiring := fun i j => (i, j)

/-- the probabilities of hidden units for given visible units, and of visible units for given hidden units: with the proper wiring both with the same weights -/
noncomputable def Weights.up (π : Wiring) (nv : Nat) (m : Weights) (v : Nat → ℝ) (j : Nat) : ℝ := sigmoid ((∑ i ∈ range nv, m.W (π i j).1 (π i j).2 * v i) + m.b j)
noncomputable def Weights.down (nh : Nat) (m : Weights) (h : Nat → ℝ) (i : Nat) : ℝ := sigmoid ((∑ j ∈ range nh, m.W i j * h j) + m.c i)

/-- contrastive divergence for one row: correlations with the data minus correlations with the reconstruction from sampled hidden units -/
noncomputable def divergence (π : Wiring) (nv nh : Nat) (m : Weights) (sample : (Nat → ℝ) → Nat → ℝ) (v : Nat → ℝ) : Weights :=
  let h := m.up π nv v
  let v' := m.down nh (sample h)
  let h' := m.up π nv v'
  { W := fun i j => v i * h j - v' i * h' j, b := fun j => h j - h' j, c := fun i => v i - v' i }

/-- the mean over a batch; `n` is the number of the row -/
noncomputable def meanDivergence (π : Wiring) (nv nh : Nat) (m : Weights) (sample : Nat → (Nat → ℝ) → Nat → ℝ) (rows : List (Nat → ℝ)) : Weights :=
  let d := fun n => divergence π nv nh m (sample n) (rows.getD n fun _ => 0)
  { W := fun i j => (∑ n ∈ range rows.length, (d n).W i j) / rows.length
    b := fun j => (∑ n ∈ range rows.length, (d n).b j) / rows.length
    c := fun i => (∑ n ∈ range rows.length, (d n).c i) / rows.length }

/-- rates for weights, hidden and visible biases, and weight decay -/
structure Rates where
  w : ℝ
  hb : ℝ
  vb : ℝ
  decay : ℝ

/-- `m`, `u` after `t` steps of gradient ascent with momentum `mom t` on the batch, from `m0`: first the new velocity `u`, then the weights -/
noncomputable def ascent (π : Wiring) (nv nh : Nat) (ρ : Rates) (mom : Nat → ℝ) (sample : Nat → Nat → (Nat → ℝ) → Nat → ℝ) (rows : List (Nat → ℝ)) (m0 : Weights) : Nat → Weights × Weights
  | 0 => (m0, ⟨fun _ _ => 0, fun _ => 0, fun _ => 0⟩)
  | t + 1 =>
    let m := (ascent π nv nh ρ mom sample rows m0 t).1
    let u := (ascent π nv nh ρ mom sample rows m0 t).2
    let d := meanDivergence π nv nh m (sample t) rows
    let u' : Weights := { W := fun i j => mom t * u.W i j + ρ.w * (d.W i j - ρ.decay * m.W i j), b := fun j => mom t * u.b j + ρ.hb * d.b j, c := fun i => mom t * u.c i + ρ.vb * d.c i }
    ({ W := fun i j => m.W i j + u'.W i j, b := fun j => m.b j + u'.b j, c := fun i => m.c i + u'.c i }, u')

/-- the weights after training on several batches: contrastive divergence with wiring `π` on each in turn, where momentum starts anew; `n` is the number of the batch -/
noncomputable def trained (π : Wiring) (nv nh : Nat) (cfg : Cfg) (S : Nat → Nat → Nat → (Nat → ℝ) → Nat → ℝ) : Nat → List (List ((Nat → ℝ))) → Weights → Weights
  | _, [], m => m
  | n, rows :: batches, m => trained π nv nh cfg S (n + 1) batches
    (ascent π nv nh ⟨cfg.rWeights, cfg.rHidBias, cfg.rVisBias, cfg.weightCost⟩ (fun t => if t < cfg.mmSwitchIter then cfg.iniMm else cfg.finMm) (S n) rows m cfg.maxIter).1

/-! ### the weights in the parameters of machines -/

/-- the weight from input `i` to output `j` -/
def weight (r : Machine) (i j : Nat) : ℝ := r.params (j * r.visibleDim + i)

/-- the wiring of the machines, where the weights are trained in an array with a row for each visible unit -/
def wiring (nv nh : Nat) : Wiring := fun i j => ((j * nv + i) / nh, (j * nv + i) % nh)

/-- the state of the trainer, read as weights: the array has a row for each visible unit -/
def weightsOf (nh : Nat) (params b c : Nat → ℝ) : Weights := { W := fun i j => params (i * nh + j), b := b, c := c }

/-- the sampler looks at nothing but the `nh` hidden units -/
def Local (nh : Nat) (S : (Nat → ℝ) → (Nat → ℝ)) : Prop := ∀ p q : (Nat → ℝ), (∀ j < nh, p j = q j) → ∀ j < nh, S p j = S q j

end Verif.Rbm.Spec
