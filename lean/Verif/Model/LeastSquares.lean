import Verif.Model.PolicyIteration
import Verif.Spec.Pinv
/-!
Model of rl/learners/modelbased/leastsquares.py.

There are `n` states, `k` actions and `d` features. In this module the feature map has one row per feature and one column per state (the text at the top of
the file says the opposite, but all functions use it this way). The replicated features of LSTD_Qvalues are indexed by pairs of an action and a feature.
`lstsq` is an argument, of which the theorems assume that it returns a least-squares solution; `random.sample` is represented by its result.
-/

namespace Verif.LSTD
open Matrix Verif.Policy

variable {n k d : Nat}

/-- the variant of `trueFeatureStats` with large matrices, leastsquares.py:44-51; the arrays of three dimensions are functions of three indices -/
noncomputable def statsRep (T : Mat n n) (R : Vec n) (fMap : Mat d n) (gamma : ℝ) : Mat d d × Vec d :=
  let tmp1 : Fin n → Fin d → Fin n → ℝ := fun _ f s => fMap f s
  let tmp2 : Fin n → Fin d → Fin n → ℝ := fun s f c => tmp1 c f s
  let tmp3 : Fin n → Fin d → Fin n → ℝ := fun i f c => tmp2 i f c - gamma * tmp1 i f c
  let tmp4 : Fin d → Fin n → Fin n → ℝ := fun f i c => T i c * tmp1 c f i
  (fun g f => ∑ i, ∑ c, tmp3 i f c * tmp4 g i c, R ᵥ* (fMap * T)ᵀ)

/-- one pass of the variant with a loop, leastsquares.py:54-57 -/
noncomputable def loopStep (T : Mat n n) (R : Vec n) (fMap : Mat d n) (gamma : ℝ) (acc : Mat d d × Vec d) (sto : Fin n) : Mat d d × Vec d :=
  let tmp : Mat d n := fun f i => fMap f i - gamma * fMap f sto
  let tmp2 : Mat d n := fun f i => fMap f i * T i sto
  (acc.1 + tmp2 * tmpᵀ, fun f => acc.2 f + R sto * ∑ i, fMap f i * T i sto)

/-- the variant with a loop over the states `ss`, leastsquares.py:52-57 -/
noncomputable def statsLoop (T : Mat n n) (R : Vec n) (fMap : Mat d n) (gamma : ℝ) (ss : List (Fin n)) : Mat d d × Vec d :=
  ss.foldl (loopStep T R fMap gamma) (0, 0)

/-- `trueFeatureStats`, leastsquares.py:26-58: `sample` is the random sample drawn when `stateProp < 1`, `small` is the test of line 40 -/
noncomputable def trueFeatureStats (T : Mat n n) (R : Vec n) (fMap : Mat d n) (gamma : ℝ) (sample : Option (List (Fin n))) (small : Bool) : Mat d d × Vec d :=
  match sample with
  | some ss => statsLoop T R fMap gamma ss
  | none => if small then statsRep T R fMap gamma else statsLoop T R fMap gamma (List.finRange n)

/-- `LSTD_values`, leastsquares.py:61-65 -/
noncomputable def values (lstsq : Mat d d → Vec d → Vec d) (T : Mat n n) (R : Vec n) (fMap : Mat d n) (gamma : ℝ) (sample : Option (List (Fin n))) (small : Bool) : Vec n :=
  let stats := trueFeatureStats T R fMap gamma sample small
  lstsq stats.1 stats.2 ᵥ* fMap

/-- pairs of an action and a feature -/
abbrev AF (k d : Nat) := Fin k × Fin d

/-- a column of `fMapRep`, leastsquares.py:76-78 -/
def fMapRep (fMap : Mat d n) (s : Fin n) (a : Fin k) : AF k d → ℝ := fun p => if p.1 = a then fMap p.2 s else 0

/-- `fto`, leastsquares.py:84-86 -/
noncomputable def fto (fMap : Mat d n) (policy : Mat n k) (sto : Fin n) : AF k d → ℝ :=
  (List.finRange k).foldl (fun acc a => fun p => acc p + fMapRep fMap sto a p * policy sto a) (fun _ => 0)

/-- the loops of `LSTD_Qvalues`, leastsquares.py:80-92 -/
noncomputable def qStats (Ts : Fin k → Mat n n) (policy : Mat n k) (R : Vec n) (fMap : Mat d n) (gamma : ℝ) : Matrix (AF k d) (AF k d) ℝ × (AF k d → ℝ) :=
  (List.finRange n).foldl (fun acc sto =>
    (List.finRange n).foldl (fun acc sfrom =>
      (List.finRange k).foldl (fun acc a =>
        let ffrom := fMapRep fMap sfrom a
        let prob := Ts a sfrom sto
        (acc.1 + prob • vecMulVec ffrom (fun p => ffrom p - gamma * fto fMap policy sto p), fun p => acc.2 p + ffrom p * R sto * prob)) acc) acc) (0, 0)

/-- `LSTD_Qvalues`, leastsquares.py:68-98 -/
noncomputable def qValues (lstsq : Matrix (AF k d) (AF k d) ℝ → (AF k d → ℝ) → (AF k d → ℝ)) (Ts : Fin k → Mat n n) (policy : Mat n k) (R : Vec n) (fMap : Mat d n)
    (gamma : ℝ) : Mat n k :=
  let stats := qStats Ts policy R fMap gamma
  let w := lstsq stats.1 stats.2
  fun s a => ∑ f, w (a, f) * fMap f s

open Classical in
/-- the loop of `LSPI_policy`, leastsquares.py:110-117 -/
noncomputable def lspiLoop (Ts : Fin k → Mat n n) (qs : Mat n k → Mat n k) : Nat → Mat n k → Mat n k × Mat n n
  | 0, policy => (policy, collapsed Ts policy)
  | maxIters + 1, policy =>
    let newpolicy := greedyQPolicy (qs policy)
    if (∑ s, ∑ a, |newpolicy s a - policy s a|) < 1 / 1000 then (policy, collapsed Ts policy)
    else lspiLoop Ts qs maxIters newpolicy

/-- `LSPI_policy`, leastsquares.py:101-117 -/
noncomputable def lspiPolicy (lstsq : Matrix (AF k d) (AF k d) ℝ → (AF k d → ℝ) → (AF k d → ℝ)) (fMap : Mat d n) (Ts : Fin k → Mat n n) (R : Vec n) (gamma : ℝ)
    (init : Option (Mat n k)) (maxIters : Nat) : Mat n k × Mat n n :=
  lspiLoop Ts (fun policy => qValues lstsq Ts policy R fMap gamma) maxIters (init.getD (randomPolicy Ts).1)

/-- `LSTD_PI_policy`, leastsquares.py:120-127 -/
noncomputable def lstdPiPolicy (lstsq : Mat d d → Vec d → Vec d) (fMap : Mat d n) (Ts : Fin k → Mat n n) (R : Vec n) (gamma : ℝ) (small : Bool)
    (init : Option (Mat n k)) (maxIters : Nat) : Mat n k × Mat n n :=
  policyIteration Ts R gamma (fun T => values lstsq T R fMap gamma none small) init maxIters

end Verif.LSTD
