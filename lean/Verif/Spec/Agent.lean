import Verif.Model.Agent
import Verif.Spec.Sequential
/-
The protocol of a logging agent, and runs of a task under an agent.
-/
namespace Verif.Agent.Spec
open Verif.DataSet (Err)
open Verif.Agent
open Verif.Sequential.Spec (Seqs)

/-- where the agent is in its cycle -/
inductive Phase (K : Type) where
  | idle
  | observed (o : List K)
  | acted (o a : List K)

/-- one record -/
structure Rec (K : Type) where
  obs : List K
  action : List K
  reward : K

/-- a record as stored: one row per field -/
def Rec.sample {K : Type} (x : Rec K) : List (List K) := [x.obs, x.action, [x.reward]]

/-- The protocol: an observation (re)starts a cycle; an action is given only for an observation not acted on yet; a reward is accepted only for an action not
rewarded yet, and completes the record. -/
def step {K : Type} (log : Bool) (s : Phase K × Seqs K) : Call K → (Phase K × Seqs K) × Option Err
  | .observe o => ((.observed o, s.2), none)
  | .act a =>
    match s.1 with
    | .observed o => ((.acted o a, s.2), none)
    | _ => (s, some .assertion)
  | .reward r =>
    match s.1 with
    | .acted o a => ((.idle, if log then Sequential.Spec.addLast s.2 (Rec.sample ⟨o, a, r⟩) else s.2), none)
    | _ => (s, some .assertion)
  | .newEpisode => if log then ((s.1, (Sequential.Spec.step s.2 .newSequence).1), (Sequential.Spec.step s.2 .newSequence).2) else (s, none)
  | .reset => ((.idle, [[]]), none)

def run {K : Type} (log : Bool) (s : Phase K × Seqs K) : List (Call K) → Phase K × Seqs K
  | [] => s
  | c :: cs => run log (step log s c).1 cs

/-- observations and actions have the agent's dimensions -/
def okCall {K : Type} (indim outdim : Nat) : Call K → Prop
  | .observe o => o.length = indim
  | .act a => a.length = outdim
  | _ => True

/-- the calls of one cycle -/
def cycle {K : Type} (x : Rec K) : List (Call K) := [.observe x.obs, .act x.action, .reward x.reward]

/-- the calls of one episode -/
def episodeCalls {K : Type} (xs : List (Rec K)) : List (Call K) := .newEpisode :: xs.flatMap cycle

/-! ### runs -/

variable {τ μ K : Type}

/-- one interaction between task and agent: observe, choose, act, be rewarded -/
def interact (t : RTask τ K) (p : Policy μ K) (s : τ) (m : μ) : Rec K × τ × μ :=
  let o := t.getObservation s
  let a := p.choose m o.1
  let r := t.getReward (t.performAction o.2 a.1)
  (⟨o.1, a.1, r.1⟩, r.2, a.2)

/-- `n` interactions -/
def interactions (t : RTask τ K) (p : Policy μ K) : Nat → τ → μ → List (Rec K) × τ × μ
  | 0, s, m => ([], s, m)
  | n + 1, s, m =>
    let x := interact t p s m
    let y := interactions t p n x.2.1 x.2.2
    (x.1 :: y.1, y.2)

/-- interactions until the task is finished -/
inductive UntilFinished (t : RTask τ K) (p : Policy μ K) : τ → μ → List (Rec K) → τ → μ → Prop
  | done (s : τ) (m : μ) : t.isFinished s = true → UntilFinished t p s m [] s m
  | more (s : τ) (m : μ) (xs : List (Rec K)) (s' : τ) (m' : μ) : t.isFinished s = false →
      UntilFinished t p (interact t p s m).2.1 (interact t p s m).2.2 xs s' m' → UntilFinished t p s m ((interact t p s m).1 :: xs) s' m'

/-- successive episodes, each from a reset task and with the agent's policy told that a new episode starts -/
inductive Episodes (t : RTask τ K) (p : Policy μ K) : τ → μ → List (List (Rec K)) → τ → μ → Prop
  | nil (s : τ) (m : μ) : Episodes t p s m [] s m
  | cons (s : τ) (m : μ) (xs : List (Rec K)) (s' : τ) (m' : μ) (rest : List (List (Rec K))) (s'' : τ) (m'' : μ) :
      UntilFinished t p (t.reset s) (p.newEpisode m) xs s' m' → Episodes t p s' m' rest s'' m'' → Episodes t p s m (xs :: rest) s'' m''

end Verif.Agent.Spec
