import Verif.Model.GameTask
import Verif.Spec.CaptureGame
/-
What a game between two players and its value are, independent of the tasks.
-/
namespace Verif.GameTask.Spec
open Verif.GameTask
open Verif.Capture (Color)
open Verif.Gomoku (Result)

/-- `Course env player c s n t`: beginning with colour `c` in `s`, the players move in turns as long as the game is undecided; after
`n` moves the position is `t` -/
inductive Course {σ M : Type} (env : Env σ M) (player : Color → σ → M) : Color → σ → Nat → σ → Prop
  | here (c : Color) (s : σ) : Course env player c s 0 s
  | move {c : Color} {s s' t : σ} {n : Nat} (h : env.winner s = none) (hp : env.perform s c (player c s) = .ok s')
      (ht : Course env player c.opp s' n t) : Course env player c s (n + 1) t

/-- a complete game: black begins on the initial, undecided board, and `t` is decided -/
def Game {σ M : Type} (env : Env σ M) (player : Color → σ → M) (n : Nat) (t : σ) : Prop :=
  ∃ s, env.reset = .ok s ∧ env.winner s = none ∧ Course env player .black s n t ∧ (env.winner t).isSome

/-- the two players: `mine` plays colour `c`, `other` the other colour -/
def seats {σ M : Type} (c : Color) (mine other : σ → M) : Color → σ → M := fun d => if d = c then mine else other

/-- the value of a decided game for the player of colour `c`: nothing for a draw, otherwise the winner's reward less a share growing
with the number of moves, with a minus for the loser -/
def value {K : Type} [Field K] (cfg : Cfg K) (c : Color) (moves : Nat) : Result → K
  | .draw => 0
  | .won d =>
    let v := cfg.winnerReward - cfg.numMovesCoeff * ((moves : K) - cfg.minmoves) / (cfg.maxmoves - cfg.minmoves)
    if d = c then v else -v

/-- the colour of a player who changes colours after every game if `alternate`, in game number `k` -/
def turn (alternate : Bool) (c : Color) (k : Nat) : Color := if alternate && k % 2 == 1 then c.opp else c

end Verif.GameTask.Spec
