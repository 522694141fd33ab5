import Verif.Spec.Network
import Mathlib.Analysis.Calculus.Deriv.Basic
import Mathlib.Analysis.Real.Sqrt
/-
Specification of back-propagation. Derivatives are Mathlib's `HasDerivAt`.

That a module (or a connection) implements the right backward pass is stated along differentiable curves: if
parameters and inputs move along curves with velocities `p'` and `x'`, the product of a given output error `e`
with the output moves with the velocity  ⟨bwdErr e, x'⟩ + ⟨bwdPar e, p'⟩. (With the curve that moves only one
coordinate this says that `bwdErr e` and `bwdPar e` are the partial derivatives of ⟨e, output⟩.)
-/
namespace Verif.Net.Spec
open Verif.Net Finset

variable {V P : Type}

/-- The backward pass of module `M` (with `pd` parameters) is the transposed derivative of its forward pass at
parameters `p` and input `x`. -/
def ModDiff (M : Mod P ℝ) (pd : Nat) (p x : Vec ℝ) : Prop :=
  ∀ (pcv xcv : ℝ → Vec ℝ) (t0 : ℝ) (p' x' : Vec ℝ), pcv t0 = p → xcv t0 = x →
    (∀ k, HasDerivAt (fun t => pcv t k) (p' k) t0) → (∀ i, HasDerivAt (fun t => xcv t i) (x' i) t0) →
    ∀ e : Vec ℝ, HasDerivAt (fun t => ∑ j ∈ range M.outdim, e j * M.fwd (pcv t) (xcv t) (fun _ => 0) j)
      (∑ i ∈ range M.indim, M.bwdErr p e (fun _ => 0) (tr M.outdim (M.fwd p x (fun _ => 0))) x i * x' i +
        ∑ k ∈ range pd, M.bwdPar p e (tr M.outdim (M.fwd p x (fun _ => 0))) x k * p' k) t0

/-- The same for a connection at parameters `p` and input slice `x`. -/
def ConnDiff (c : Conn V P ℝ) (pd : Nat) (p x : Vec ℝ) : Prop :=
  ∀ (pcv xcv : ℝ → Vec ℝ) (t0 : ℝ) (p' x' : Vec ℝ), pcv t0 = p → xcv t0 = x →
    (∀ k, HasDerivAt (fun t => pcv t k) (p' k) t0) → (∀ i, HasDerivAt (fun t => xcv t i) (x' i) t0) →
    ∀ e : Vec ℝ, HasDerivAt (fun t => ∑ j ∈ range (c.outTo - c.outFrom), e j * c.fwd (pcv t) (xcv t) j)
      (∑ i ∈ range (c.inTo - c.inFrom), c.bwdErr p e x i * x' i + ∑ k ∈ range pd, c.bwdPar p e x k * p' k) t0

/-- total number of inputs / outputs, network.py:240-249 -/
def indim (N : Net V P ℝ) : Nat := (N.inmods.map (fun m => (N.mod m).indim)).sum
def outdim (N : Net V P ℝ) : Nat := (N.outmods.map (fun m => (N.mod m).outdim)).sum

/-- `θ` with entry `k` of container `p` replaced by `s` -/
def setParam [DecidableEq P] (θ : P → Vec ℝ) (p : P) (k : Nat) (s : ℝ) : P → Vec ℝ := fun q j => if q = p ∧ j = k then s else θ q j

/-- `x` with entry `i` replaced by `s` -/
def setEntry (x : Vec ℝ) (i : Nat) (s : ℝ) : Vec ℝ := fun j => if j = i then s else x j

section
variable {K : Type} [DecidableEq V] [DecidableEq P] [AddCommMonoid K]

/-- What connection `c` sends back to coordinate `j` of the output error of the module it leaves. -/
def backSignal (θ : P → Vec K) (err outRow : Vec K) (c : Conn V P K) : Vec K :=
  fun j => if c.inFrom ≤ j ∧ j < c.inTo then
    c.bwdErr (θ c.pc) (sl err c.outFrom c.outTo) (sl outRow c.inFrom c.inTo) (j - c.inFrom) else 0

/-- What node `n` and the connections leaving it add to the derivatives of container `p`. -/
def gradAt (mod : V → Mod P K) (conns : V → List (Conn V P K)) (θ : P → Vec K) (inb outb ine oute : V → Vec K)
    (n : V) (p : P) (k : Nat) : K :=
  ((conns n).map (fun c => if c.pc = p then
      c.bwdPar (θ c.pc) (sl (ine c.outmod) c.outFrom c.outTo) (sl (outb n) c.inFrom c.inTo) k else 0)).sum +
    (if (mod n).pc = p then (mod n).bwdPar (θ (mod n).pc) (oute n) (outb n) (inb n) k else 0)

/-- The equations of the backward pass for output errors `e`. -/
structure BackSolves (nodes : List V) (mod : V → Mod P K) (conns : V → List (Conn V P K)) (θ : P → Vec K)
    (e inb outb ine oute : V → Vec K) (grad : P → Vec K) : Prop where
  outErr : ∀ n ∈ nodes, ∀ j, oute n j = e n j + ((conns n).map (fun c => backSignal θ (ine c.outmod) (outb n) c j)).sum
  inErr : ∀ n ∈ nodes, ine n = tr (mod n).indim
    ((mod n).bwdErr (θ (mod n).pc) (oute n) (fun _ => 0) (outb n) (inb n))
  params : ∀ p k, grad p k = (nodes.map (fun n => gradAt mod conns θ inb outb ine oute n p k)).sum

end
end Verif.Net.Spec
