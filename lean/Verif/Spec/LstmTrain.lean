import Verif.Spec.LstmNet
import Verif.Spec.Trainer
import Verif.Props.Lstm
/-
Specification of training for recurrent networks with LSTM layers (compare `Verif.Spec.Trainer`).
-/
namespace Verif.LstmNet.Spec
open Verif.Net Verif.Net.Spec Verif.LstmNet Verif.Train Verif.Train.Spec

variable {V P : Type} [DecidableEq V] [DecidableEq P] {n : Nat}

/-- the outputs of a network with LSTM layers (unique by `C174_activation`) -/
noncomputable def loutputsOf (N : LNet V P ℝ) (θ : P → Vec ℝ) (xs : List (Vec ℝ)) : List (Vec ℝ) := by
  classical exact if h : ∃ ys, IsLOutputs N θ xs ys then h.choose else []

/-- Every layer and connection has an exact backward pass at the values that occur for the inputs `xs`; for the LSTM layers this means that their transfer functions have
the derivatives they claim to have at the values that occur in the cells. -/
def LSmooth (N : LNet V P ℝ) (pd : P → Nat) (θ : P → Vec ℝ) (xs : List (Vec ℝ)) : Prop :=
  ∀ inb outb, LSolves N θ xs inb outb →
    (∀ t < xs.length, ∀ m ∈ N.sorted, N.kind m = none → ModDiff (N.mod m) (pd (N.mod m).pc) (θ (N.mod m).pc) (inb (m, t))) ∧
    (∀ m ∈ N.sorted, ∀ k, N.kind m = some k → ∀ j < k.dim,
      Lstm.Spec.Smooth k.T (Lstm.Spec.cellOf k.peepholes k.dim (θ (N.mod m).pc) (fun u => inb (m, u)) j) xs.length) ∧
    (∀ t < xs.length, ∀ m ∈ N.sorted, ∀ c ∈ N.conns m, ConnDiff c (pd c.pc) (θ c.pc) (sl (outb (m, t)) c.inFrom c.inTo)) ∧
    (∀ t < xs.length, ∀ a ∈ N.recs, ConnDiff a.2 (pd a.2.pc) (θ a.2.pc) (sl (outb (a.1, t)) a.2.inFrom a.2.inTo))

/-- A network with LSTM layers whose parameters are laid out in a flat vector; an LSTM layer has three parameters per cell, or none (lstm.py:41-46). -/
structure LTrainable (N : LNet V P ℝ) (L : Layout P n) (Ps : Finset P) (pd : P → Nat) : Prop where
  wf : LWF N
  layout : GoodLayout L Ps pd
  modParams : ∀ m ∈ N.sorted, (N.mod m).pc ∈ Ps
  cellParams : ∀ m ∈ N.sorted, ∀ k, N.kind m = some k → pd (N.mod m).pc = if k.peepholes then 3 * k.dim else 0
  connParams : ∀ m ∈ N.sorted, ∀ c ∈ N.conns m, c.pc ∈ Ps
  recParams : ∀ a ∈ N.recs, a.2.pc ∈ Ps
  zeroBack : ∀ a ∈ N.recs, ∀ p x, a.2.bwdErr p (fun _ => 0) x = (fun _ => 0) ∧ a.2.bwdPar p (fun _ => 0) x = fun _ => 0

/-- the error of a network with flat parameters `w` on a sequence -/
noncomputable def lnetError (N : LNet V P ℝ) (L : Layout P n) (w : Fin n → ℝ) (seq : List (Sample ℝ)) : ℝ :=
  seqError (outdim N.toNet) seq (loutputsOf N (L.decode w) (inputs seq))

/-- `g` is the direction of steepest descent of the error of a sequence, wherever the network is differentiable -/
def LDescends (N : LNet V P ℝ) (L : Layout P n) (pd : P → Nat) (w : Fin n → ℝ) (seq : List (Sample ℝ)) (g : Fin n → ℝ) : Prop :=
  LSmooth N pd (L.decode w) (inputs seq) → IsGrad (fun w => lnetError N L w seq) w (fun i => - g i)

end Verif.LstmNet.Spec
