import Verif.Model.Network
import Mathlib.Algebra.BigOperators.Ring.Finset
import Mathlib.Data.Real.Basic
/-
Model of the connections in pybrain/structure/connections over the reals. `a..b` is the slice of the source, `c..d`
the slice of the target. A SharedFullConnection (shared.py:68-75) is a FullConnection whose container `pc` is its
MotherConnection.
-/
namespace Verif.Net
open Finset

section
variable {V P : Type} (outmod : V) (pc : P) (a b c d : Nat)

/-- identity.py:6-21 -/
def identityConnection : Conn V P ℝ where
  outmod := outmod
  inFrom := a
  inTo := b
  outFrom := c
  outTo := d
  pc := pc
  fwd := fun _ inbuf => inbuf
  bwdErr := fun _ outerr _ => outerr
  bwdPar := fun _ _ _ _ => 0

/-- full.py:9-30; `reshape(params, (outdim, indim))[j, i] = params[j * indim + i]` and
`outer(inbuf, outerr).T.flatten()[j * indim + i] = inbuf[i] * outerr[j]`. -/
def fullConnection : Conn V P ℝ where
  outmod := outmod
  inFrom := a
  inTo := b
  outFrom := c
  outTo := d
  pc := pc
  fwd := fun p inbuf j => ∑ i ∈ range (b - a), p (j * (b - a) + i) * inbuf i
  bwdErr := fun p outerr _ i => ∑ j ∈ range (d - c), p (j * (b - a) + i) * outerr j
  bwdPar := fun _ outerr inbuf k => inbuf (k % (b - a)) * outerr (k / (b - a))

/-- fullnotself.py:7-31 (`eye[j, i]` is 1 on the diagonal) -/
def fullNotSelfConnection : Conn V P ℝ where
  outmod := outmod
  inFrom := a
  inTo := b
  outFrom := c
  outTo := d
  pc := pc
  fwd := fun p inbuf j => ∑ i ∈ range (b - a), p (j * (b - a) + i) * (1 - if j = i then 1 else 0) * inbuf i
  bwdErr := fun p outerr _ i => ∑ j ∈ range (d - c), p (j * (b - a) + i) * (1 - if j = i then 1 else 0) * outerr j
  bwdPar := fun _ outerr inbuf k => inbuf (k % (b - a)) * outerr (k / (b - a))

/-- linear.py:8-27: no derivatives are accumulated. -/
def linearConnection : Conn V P ℝ where
  outmod := outmod
  inFrom := a
  inTo := b
  outFrom := c
  outTo := d
  pc := pc
  fwd := fun p inbuf j => inbuf j * p j
  bwdErr := fun p outerr _ i => outerr i * p i
  bwdPar := fun _ _ _ _ => 0

/-- `permute(arr, permutation)` of utilities.py:496-503 for an indexable `arr` -/
def permute {α : Type} (arr : Nat → α) (permutation : Nat → Nat) : Nat → α := fun i => arr (permutation i)

/-- permutation.py:13-43: rows of `blocksize` entries are permuted; `invpermutation` is `permute(range(n), permutation)`
(line 29). -/
def permutationConnection (permutation : Nat → Nat) (blocksize : Nat) : Conn V P ℝ where
  outmod := outmod
  inFrom := a
  inTo := b
  outFrom := c
  outTo := d
  pc := pc
  fwd := fun _ inbuf j =>
    permute (fun r : Nat => fun q : Nat => inbuf (r * blocksize + q)) permutation (j / blocksize) (j % blocksize)
  bwdErr := fun _ outerr _ i =>
    permute (fun r : Nat => fun q : Nat => outerr (r * blocksize + q)) (permute (fun r => r) permutation) (i / blocksize) (i % blocksize)
  bwdPar := fun _ _ _ _ => 0

end
end Verif.Net
