import Verif.Model.Task
/-
Episodes of a task under a module, and discounted sums of rewards.
-/
namespace Verif.Task.Spec
open Verif.Task

variable {σ A O μ K : Type} [Field K]

/-- the rewards seen after each of a list of actions -/
def rewards (t : EpTask σ A O K) : σ → List A → List K
  | _, [] => []
  | e, a :: as => t.reward (t.act e a) :: rewards t (t.act e a) as

/-- `γ^j r₀ + γ^(j+1) r₁ + ...` -/
def discounted (gamma : K) : Nat → List K → K
  | _, [] => 0
  | j, r :: rs => gamma ^ j * r + discounted gamma (j + 1) rs

/-- `Plays n e m as e' m'`: from the environment `e` (where `n` actions have been done) and the module state `m`, the module chooses the actions
`as` from its observations, leading to `e'` and `m'` -/
inductive Plays (t : EpTask σ A O K) (x : Controller μ A O) : σ → μ → List A → σ → μ → Prop
  | done (e : σ) (m : μ) : Plays t x e m [] e m
  | step (e : σ) (m : μ) (as : List A) (e' : σ) (m' : μ) :
      Plays t x (t.act e (x.activate m (t.obs e)).1) (x.activate m (t.obs e)).2 as e' m' → Plays t x e m ((x.activate m (t.obs e)).1 :: as) e' m'

/-- the accumulated reward the task reports for the rewards `rs`: discounted by the number of actions done so far, or plain without a discount -/
def total [DecidableEq K] (gamma : K) (rs : List K) : K := if gamma = 0 then rs.sum else discounted gamma 1 rs

/-- the task's attributes after the actions `as` since a reset to `e` -/
def after [DecidableEq K] (t : EpTask σ A O K) (e : σ) (as : List A) : EpState σ K :=
  { env := as.foldl t.act e, cumreward := total t.discount (rewards t e as), samples := as.length }

/-- `as` are the actions of one full episode from the reset environment `e`: the module plays them, and the task is finished after them but not earlier -/
def Episode [DecidableEq K] (t : EpTask σ A O K) (x : Controller μ A O) (e : σ) (m : μ) (as : List A) (m' : μ) : Prop :=
  Plays t x e m as (as.foldl t.act e) m' ∧ t.finished (after t e as) = true ∧ ∀ k < as.length, t.finished (after t e (as.take k)) = false

/-- successive episodes, each from a reset environment and a reset module; with the rewards of each -/
inductive Episodes [DecidableEq K] (t : EpTask σ A O K) (x : Controller μ A O) : σ → μ → List (List K) → Prop
  | nil (e : σ) (m : μ) : Episodes t x e m []
  | cons (e : σ) (m : μ) (as : List A) (m' : μ) (rest : List (List K)) : Episode t x (t.envReset e) (x.reset m) as m' →
      Episodes t x (as.foldl t.act (t.envReset e)) m' rest → Episodes t x e m (rewards t (t.envReset e) as :: rest)

end Verif.Task.Spec
