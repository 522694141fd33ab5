import Verif.Model.Relative
import Verif.Spec.GameTask
import Mathlib.Algebra.BigOperators.Group.Finset.Basic
import Mathlib.Algebra.BigOperators.Intervals
/-
The schedule of games of RelativeCaptureTask and the value of a game, told without its loop.
-/
namespace Verif.Relative.Spec
open Verif.Relative
open Verif.Capture (Color)
open Verif.GameTask (captureEnv)
open Verif.GameTask.Spec

/-- `q` is the image of `p` under one of the eight symmetries of the board -/
def Similar (s : Nat) (p q : Nat × Nat) : Prop :=
  ((q.1 = p.1 ∨ q.1 + p.1 + 1 = s) ∧ (q.2 = p.2 ∨ q.2 + p.2 + 1 = s)) ∨ ((q.1 = p.2 ∨ q.1 + p.2 + 1 = s) ∧ (q.2 = p.1 ∨ q.2 + p.1 + 1 = s))

/-- not on the border -/
def Inner (s : Nat) (p : Nat × Nat) : Prop := (1 ≤ p.1 ∧ p.1 + 2 ≤ s) ∧ (1 ≤ p.2 ∧ p.2 + 2 ≤ s)

/-- a complete game of `n` moves, black beginning; if a first stone is given, black begins with it -/
def Played (size : Nat) (player : Color → Capture.Game → Capture.Move) (preset : Option (Nat × Nat)) (n : Nat) (t : Capture.Game) : Prop :=
  t.winner.isSome ∧ t.movesDone = n ∧
  match preset with
  | none => Course (captureEnv size) player .black (Capture.newGame size true) n t
  | some pos => ∃ s m, (captureEnv size).perform (Capture.newGame size true) .black (.at pos) = .ok s ∧
      Course (captureEnv size) player .white s m t ∧ n = m + 1

variable {K : Type} [Field K] [LinearOrder K]

/-- the value for black of a game of `n` moves won by `w` -/
def value (coeff : K) (size : Nat) (w : Color) (n : Nat) : K :=
  if w = .black then 1 - coeff * ((n : K) - 3) / ((size : K) * size - 3) else -(1 - coeff * ((n : K) - 3) / ((size : K) * size - 3))

/-- the temperature after `k` increases by the given factor; it stays as it is for players that cannot be adjusted -/
def temperature (factor : K) (cfg : Cfg K) (kind : Kind) (k : Nat) : K :=
  if kind = .fixed then cfg.minTemperature
  else if cfg.minTemperature = 0 then (if k = 0 then 0 else 1 / 50 * factor ^ (k - 1)) else cfg.minTemperature * factor ^ k

/-- the noise of a player at temperature `t` -/
def conversion (kind : Kind) (t : K) : K := if kind = .adjustable then t / (t + 1) else t

/-- the players' noise after `k` increases, `noise` being the one they start with: that of the last temperature not above the maximum -/
def noiseAt (factor : K) (cfg : Cfg K) (kind : Kind) (noise : K) : Nat → K
  | 0 => noise
  | k + 1 =>
    if kind ≠ .fixed ∧ temperature factor cfg kind (k + 1) ≤ cfg.maxTemperature then conversion kind (temperature factor cfg kind (k + 1))
    else noiseAt factor cfg kind noise k

/-- networks get new players, others keep their noise -/
def initial (cfg : Cfg K) (kind : Kind) (noise : K) : K := if kind = .networks then cfg.minTemperature else noise

/-- the options are sensible: temperatures are not negative, and the first increase of the temperature of players that cannot be adjusted
does not exceed the maximum -/
def Sensible (factor : K) (cfg : Cfg K) (kind : Kind) : Prop :=
  0 ≤ cfg.minTemperature ∧ (kind = .fixed → (if cfg.minTemperature = 0 then 1 / 50 else cfg.minTemperature * factor) ≤ cfg.maxTemperature)

/-- with cycles of `free` games from the empty board and the games from the given first stones: the first stone in turn `i` -/
def first (positions : List (Nat × Nat)) (free : Nat) (i : Nat) : Option (Nat × Nat) :=
  if i % (free + positions.length) < free then none else positions[i % (free + positions.length) - free]?

/-- how much turn `i` counts: in the first cycle the equal games from the empty board are played once and counted `free` times -/
def times (positions : List (Nat × Nat)) (free : Nat) (i : Nat) : Nat :=
  if i < free then (if i = 0 then free else 0) else 1

/-- Go-Moku: the value for black of a game of `n` moves with the given result; as intended, a draw is worth nothing -/
def gomokuValue (coeff : K) (size : Nat) (n : Nat) : Gomoku.Result → K
  | .draw => 0
  | .won w => if w = .black then 1 - coeff * ((n : K) - 9) / ((size : K) * size - 9) else -(1 - coeff * ((n : K) - 9) / ((size : K) * size - 9))

end Verif.Relative.Spec
