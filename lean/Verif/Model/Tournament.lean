import Verif.Model.DataSet
import Mathlib.Analysis.SpecialFunctions.Pow.Real
/-
Model of pybrain/rl/experiments/tournament.py (Tournament) and of the parts of twoplayergame.py it uses.

Agents are compared by identity: a type with decidable equality. What an agent answers to getAction, and what the game does with it, is
arbitrary. The dictionary `results` is a function giving `none` for missing keys.
-/
namespace Verif.Tournament
open Verif.DataSet (Err)

/-- what `getWinner` returns after a game: the starting colour, the other colour, or 'draw' -/
inductive Winner
  | starter
  | other
  | draw
deriving DecidableEq, Repr

/-! ### One game -/

/-- a TwoPlayerGame seen by the tournament: twoplayergame.py:22-50 -/
structure Env (S M : Type) where
  init : S
  winner : S → Option Winner
  isLegal : S → M → Bool
  perform : S → M → S

/-- how a game ends: normally, with `Exception('No legal move produced!')`, or not within the given number of moves -/
inductive Played (S M : Type)
  | over (moves : List (Nat × M)) (final : S)
  | noLegalMove
  | unfinished

/-- tournament.py:51-60: `answers n` is what the `n`-th call of getAction in this game returns, `tries` how often another one is asked for -/
def legalAction {M : Type} (legal : M → Bool) (answers : Nat → M) (n : Nat) : Nat → Option (M × Nat)
  | 0 => if legal (answers n) then some (answers n, n + 1) else none
  | tries + 1 => if legal (answers n) then some (answers n, n + 1) else legalAction legal answers (n + 1) tries

/-- the loop tournament.py:47-62 with the moves performed so far -/
def gameLoop {S M : Type} (env : Env S M) (forced : Bool) (answers : Nat → M) : Nat → Nat → Nat → List (Nat × M) → S → Played S M
  | 0, _, _, _, _ => .unfinished
  | fuel + 1, i, n, moves, s =>
    match env.winner s with
    | some _ => .over moves s
    | none =>
      match (if forced then legalAction (env.isLegal s) answers n 50 else some (answers n, n + 1)) with
      | none => .noLegalMove
      | some (act, n') => gameLoop env forced answers fuel ((i + 1) % 2) n' (moves ++ [(i, act)]) (env.perform s act)

/-- `_oneGame` up to the end of the game, tournament.py:38-62 -/
def playGame {S M : Type} (env : Env S M) (forced : Bool) (answers : Nat → M) (fuel : Nat) : Played S M :=
  gameLoop env forced answers fuel 0 0 [] env.init

/-! ### The tournament -/

structure Tournament (A : Type) where
  agents : List A
  results : A × A → Option (List A)
  rounds : Nat
  numGames : Nat

variable {A : Type} [DecidableEq A]

/-- `__init__` and `reset`, tournament.py:14-27 -/
def newTournament (agents : List A) : Tournament A := { agents := agents, results := fun _ => none, rounds := 0, numGames := 0 }

/-- `_produceAllPairs`, tournament.py:29-36 -/
def allPairs (agents : List A) : List (A × A) :=
  agents.flatMap (fun a => (agents.filter (fun b => a ≠ b)).map (fun b => (a, b)))

/-- `_oneGame` once the game is over, tournament.py:40 and 64-71; `w` is the result of `getWinner` -/
def record (t : Tournament A) (p : A × A) (w : Winner) : Tournament A :=
  let winner := if w = .starter then p.1 else p.2
  { t with
    numGames := t.numGames + 1
    results := fun q => if q = p then some ((t.results p).getD [] ++ [winner]) else t.results q }

/-- one round of `organize`, tournament.py:77-78: `outcome n` is the result of the `n`-th game -/
def playPairs (outcome : Nat → Winner) : List (A × A) → Tournament A → Tournament A
  | [], t => t
  | p :: ps, t => playPairs outcome ps (record t p (outcome t.numGames))

/-- `organize`, tournament.py:73-79 -/
def organize (outcome : Nat → Winner) : Nat → Tournament A → Tournament A
  | 0, t => t
  | n + 1, t => organize outcome n (playPairs outcome (allPairs t.agents) { t with rounds := t.rounds + 1 })

/-! ### Elo -/

/-- tournament.py:95-101. The entries of `results` are agents, so the case of a draw (line 100) never applies. -/
noncomputable def score (a1 : A) (outcomes : List A) : ℝ :=
  outcomes.foldl (fun s r => if r = a1 then s + 1 else s) 0

/-- tournament.py:103 -/
noncomputable def expected (games : Nat) (own opponent : ℝ) : ℝ := games / (1 + (10 : ℝ) ^ ((opponent - own) / 400))

/-- one pass of the inner loop, tournament.py:94-106 -/
noncomputable def eloPair (t : Tournament A) (k : ℝ) (elos : A → ℝ) (a1 a2 : A) : Except Err (A → ℝ) :=
  match t.results (a1, a2), t.results (a2, a1) with
  | some r1, some r2 =>
    let outcomes := r1 ++ r2
    let delta := k * (score a1 outcomes - expected outcomes.length (elos a1) (elos a2))
    let e1 := fun a => if a = a1 then elos a1 + delta else elos a
    .ok (fun a => if a = a2 then e1 a2 - delta else e1 a)
  | _, _ => .error .keyError

/-- the inner loop, tournament.py:93 -/
noncomputable def eloRow (t : Tournament A) (k : ℝ) (a1 : A) : List A → (A → ℝ) → Except Err (A → ℝ)
  | [], elos => .ok elos
  | a2 :: as, elos => match eloPair t k elos a1 a2 with
    | .error e => .error e
    | .ok elos' => eloRow t k a1 as elos'

/-- the outer loop, tournament.py:92 (its last agent has no opponents left) -/
noncomputable def eloAll (t : Tournament A) (k : ℝ) : List A → (A → ℝ) → Except Err (A → ℝ)
  | [], elos => .ok elos
  | a1 :: as, elos => match eloRow t k a1 as elos with
    | .error e => .error e
    | .ok elos' => eloAll t k as elos'

/-- `eloScore`, tournament.py:81-109: `elo a` is the attribute `a.elo`, if present -/
noncomputable def eloScore (t : Tournament A) (elo : A → Option ℝ) (startingscore k : ℝ) : Except Err (A → ℝ) :=
  eloAll t k t.agents (fun a => (elo a).getD startingscore)

end Verif.Tournament
