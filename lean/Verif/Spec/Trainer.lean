import Verif.Model.Trainer
import Verif.Spec.Recurrent
/-
Specification of training: the weighted squared error of a function on sequences, gradients, and what a trainer may rely on in a module.
-/
namespace Verif.Train.Spec
open Verif.Net (Vec RNet RState)
open Verif.Train
open Finset

section
variable {S K : Type} [Field K] {n : Nat}

def blank : Sample K := ⟨fun _ => 0, fun _ => 0, none⟩

/-- the importance of output `j` of a sample, one if the dataset has none -/
def weight (x : Sample K) (j : Nat) : K := match x.importance with
  | some imp => imp j
  | none => 1

/-- half the weighted squared error of the outputs `ys` for a sequence -/
def seqError (outdim : Nat) (seq : List (Sample K)) (ys : List (Vec K)) : K :=
  ∑ t ∈ range seq.length, 1 / 2 * ∑ j ∈ range outdim, weight (seq.getD t blank) j * ((seq.getD t blank).target j - ys.getD t (fun _ => 0) j) ^ 2

/-- the total weight of a sequence -/
def seqWeight (outdim : Nat) (seq : List (Sample K)) : K := ∑ t ∈ range seq.length, ∑ j ∈ range outdim, weight (seq.getD t blank) j

/-- the weighted errors of the outputs -/
def signals (seq : List (Sample K)) (ys : List (Vec K)) : List (Vec K) :=
  (List.range seq.length).map fun t j => ((seq.getD t blank).target j - ys.getD t (fun _ => 0) j) * weight (seq.getD t blank) j

def inputs (seq : List (Sample K)) : List (Vec K) := seq.map Sample.input

/-- What a trainer relies on. `F θ xs` are the outputs for the inputs `xs` with parameters `θ`; `G θ xs es g`: `g` is what
back-propagating the errors `es` after `xs` may add to the derivatives. `Fwd θ xs d t s`: `t` of the inputs have been processed since `reset()`;
`Back θ xs es d t s`: the errors of all but the first `t` steps have been sent back. `d` are the derivatives before. -/
structure Lawful (M : Learner S K n) (F : (Fin n → K) → List (Vec K) → List (Vec K))
    (G : (Fin n → K) → List (Vec K) → List (Vec K) → (Fin n → K) → Prop) where
  ok : S → Prop
  Fwd : (Fin n → K) → List (Vec K) → (Fin n → K) → Nat → S → Prop
  Back : (Fin n → K) → List (Vec K) → List (Vec K) → (Fin n → K) → Nat → S → Prop
  set : ∀ s w, ok s → ok (M.setParams s w) ∧ M.params (M.setParams s w) = w ∧ M.derivs (M.setParams s w) = M.derivs s
  clear : ∀ s, ok s → ok (M.resetDerivatives s) ∧ M.params (M.resetDerivatives s) = M.params s ∧ M.derivs (M.resetDerivatives s) = fun _ => 0
  start : ∀ s xs, ok s → Fwd (M.params s) xs (M.derivs s) 0 (M.reset s)
  advance : ∀ θ xs d t s, Fwd θ xs d t s → t < xs.length → ∃ s', M.activate s (xs.getD t fun _ => 0) = some s' ∧ Fwd θ xs d (t + 1) s'
  fwdOut : ∀ θ xs d t s, Fwd θ xs d t s → t ≤ xs.length → ∀ u < t, M.output s u = (F θ xs).getD u fun _ => 0
  fwdEnd : ∀ θ xs d s, Fwd θ xs d xs.length s → ok s ∧ M.params s = θ ∧ M.derivs s = d
  turn : ∀ θ xs es d s, es.length = xs.length → Fwd θ xs d xs.length s → Back θ xs es d xs.length s
  retreat : ∀ θ xs es d t s, t < xs.length → Back θ xs es d (t + 1) s → ∃ s', M.backActivate s (es.getD t fun _ => 0) = some s' ∧ Back θ xs es d t s'
  backOut : ∀ θ xs es d t s, Back θ xs es d t s → ∀ u < xs.length, M.output s u = (F θ xs).getD u fun _ => 0
  backEnd : ∀ θ xs es d s, Back θ xs es d 0 s → ok s ∧ M.params s = θ ∧ ∃ g, (∀ i, M.derivs s i = d i + g i) ∧ G θ xs es g

/-- one step of gradient descent with momentum and a learning rate that decays -/
def Step (c : Options K) (g : Fin n → K) (d d' : Descent.Momentum K n) : Prop :=
  (∀ i, d'.momentumvector i = c.descent.momentum * d.momentumvector i + d.alpha * g i) ∧
  (∀ i, d'.values i = d.values i + d'.momentumvector i) ∧ d'.alpha = d.alpha * c.descent.alphadecay

/-- Descent sequence by sequence: each step uses a gradient taken at the parameters then in force, minus the decay of the weights. `E θ seq` is the error of a
sequence, `Gr θ seq g` says that `g` is its descent direction; `e` is the sum of the errors, each at the parameters then in force. -/
inductive Online (E : (Fin n → K) → List (Sample K) → K) (Gr : (Fin n → K) → List (Sample K) → (Fin n → K) → Prop) (c : Options K) :
    List (List (Sample K)) → Descent.Momentum K n → Descent.Momentum K n → K → Prop
  | nil (d) : Online E Gr c [] d d 0
  | cons (seq rest) (d d1 d2 : Descent.Momentum K n) (g : Fin n → K) (e : K) (hg : Gr d.values seq g)
      (hd : Step c (fun i => g i - c.weightdecay * d.values i) d d1) (h : Online E Gr c rest d1 d2 e) :
      Online E Gr c (seq :: rest) d d2 (E d.values seq + e)

end

/-- `g` is the gradient of `E` at `w`, in the sense of the chain rule: along every differentiable motion through `w`, `E` changes with velocity `⟨g, velocity⟩`. -/
def IsGrad {n : Nat} (E : (Fin n → ℝ) → ℝ) (w g : Fin n → ℝ) : Prop :=
  ∀ (γ : ℝ → Fin n → ℝ) (t0 : ℝ) (γ' : Fin n → ℝ), γ t0 = w → (∀ i, HasDerivAt (fun τ => γ τ i) (γ' i) t0) →
    HasDerivAt (fun τ => E (γ τ)) (∑ i, g i * γ' i) t0

section
variable {V P : Type} [DecidableEq V] [DecidableEq P] {n : Nat}
open Verif.Net Verif.Net.Spec

/-- the outputs of a recurrent network (unique by C16) -/
noncomputable def outputsOf (N : RNet V P ℝ) (θ : P → Vec ℝ) (xs : List (Vec ℝ)) : List (Vec ℝ) := by
  classical exact if h : ∃ ys, IsOutputs N θ xs ys then h.choose else []

/-- every layer and connection has an exact backward pass at the values that occur for the inputs `xs` -/
def Smooth (N : RNet V P ℝ) (pd : P → Nat) (θ : P → Vec ℝ) (xs : List (Vec ℝ)) : Prop :=
  ∀ inb outb, Solves (nodesT N xs.length) (modT N) (connsT N xs.length) θ (extT N xs) inb outb →
    (∀ t < xs.length, ∀ m ∈ N.sorted, ModDiff (N.mod m) (pd (N.mod m).pc) (θ (N.mod m).pc) (inb (m, t))) ∧
    (∀ t < xs.length, ∀ m ∈ N.sorted, ∀ c ∈ N.conns m, ConnDiff c (pd c.pc) (θ c.pc) (sl (outb (m, t)) c.inFrom c.inTo)) ∧
    (∀ t < xs.length, ∀ a ∈ N.recs, ConnDiff a.2 (pd a.2.pc) (θ a.2.pc) (sl (outb (a.1, t)) a.2.inFrom a.2.inTo))

/-- The flat vector holds every parameter of the containers `Ps` once (C11). -/
structure GoodLayout (L : Layout P n) (Ps : Finset P) (pd : P → Nat) : Prop where
  place : ∀ i, (L.place i).1 ∈ Ps ∧ (L.place i).2 < pd (L.place i).1 ∧ L.index (L.place i).1 (L.place i).2 = some i
  index : ∀ p ∈ Ps, ∀ k < pd p, ∃ i, L.index p k = some i ∧ L.place i = (p, k)

/-- the error of a network with flat parameters `w` on a sequence -/
noncomputable def netError (N : RNet V P ℝ) (L : Layout P n) (w : Fin n → ℝ) (seq : List (Sample ℝ)) : ℝ :=
  seqError (outdim N.toNet) seq (outputsOf N (L.decode w) (inputs seq))

/-- `g` is the direction of steepest descent of the error of a sequence, wherever the network is differentiable -/
def Descends (N : RNet V P ℝ) (L : Layout P n) (pd : P → Nat) (w : Fin n → ℝ) (seq : List (Sample ℝ)) (g : Fin n → ℝ) : Prop :=
  Smooth N pd (L.decode w) (inputs seq) → IsGrad (fun w => netError N L w seq) w (fun i => - g i)

end
end Verif.Train.Spec
