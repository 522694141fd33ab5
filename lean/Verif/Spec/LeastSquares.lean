import Verif.Model.LeastSquares
import Verif.Spec.PolicyIteration
/-
Least squares, feature maps and Bellman equations.
-/
namespace Verif.LSTD
open Matrix Verif.Policy Verif.Policy.Spec

variable {n k d : Nat}

/-- `solve` returns a vector for which the sum of the squared residuals is least -/
def LeastSquares {m : Type} [Fintype m] (solve : Matrix m m ℝ → (m → ℝ) → (m → ℝ)) : Prop :=
  ∀ A b x, Verif.Pinv.residual A b (solve A b) ≤ Verif.Pinv.residual A b x

/-- every function of the states is a combination of the features -/
def Spans (fMap : Mat d n) : Prop := ∀ V : Vec n, ∃ w : Vec d, ∀ s, V s = ∑ f, w f * fMap f s

/-- the error of `V` in the Bellman equation of the dynamics `T` -/
def bellmanError (T : Mat n n) (R : Vec n) (gamma : ℝ) (V : Vec n) (s : Fin n) : ℝ := ∑ s', T s s' * (R s' + gamma * V s') - V s

/-- the error of `Q` in the Bellman equation of a policy -/
def bellmanQError (Ts : Fin k → Mat n n) (policy : Mat n k) (R : Vec n) (gamma : ℝ) (Q : Mat n k) (s : Fin n) (a : Fin k) : ℝ :=
  ∑ s', Ts a s s' * (R s' + gamma * ∑ a', policy s' a' * Q s' a') - Q s a

/-- the statistics of all transitions from the states `from'`, weighted with their probabilities -/
def spec (T : Mat n n) (R : Vec n) (fMap : Mat d n) (gamma : ℝ) (P : Fin n → Fin n → Prop) [∀ s s', Decidable (P s s')] : Mat d d × Vec d :=
  (fun g f => ∑ s, ∑ s', if P s s' then T s s' * (fMap g s * (fMap f s - gamma * fMap f s')) else 0,
   fun g => ∑ s, ∑ s', if P s s' then T s s' * (fMap g s * R s') else 0)

end Verif.LSTD
