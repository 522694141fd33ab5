import Verif.Model.Handicap
import Mathlib.Algebra.BigOperators.Group.List.Basic
/-
The handicap procedure told by the list of the games played so far. A game is (handicap, won by the player, number of moves).
-/
namespace Verif.Handicap.Spec
open Verif.Handicap

abbrev Games := List (Int × Bool × Nat)

/-- the games with handicap `h` -/
def on (hist : Games) (h : Int) : Games := hist.filter (fun g => g.1 = h)

/-- the number of games with handicap `h` -/
def played (hist : Games) (h : Int) : Nat := (on hist h).length

/-- ... of those won -/
def wins (hist : Games) (h : Int) : Nat := ((on hist h).filter (fun g => g.2.1)).length

/-- the moves of those won -/
def winMoves (hist : Games) (h : Int) : Nat := (((on hist h).filter (fun g => g.2.1)).map (fun g => g.2.2)).sum

/-- the moves of those lost -/
def lossMoves (hist : Games) (h : Int) : Nat := (((on hist h).filter (fun g => !g.2.1)).map (fun g => g.2.2)).sum

/-- the balance of the games with handicap `h`: from -1 (all lost) to 1 (all won), with a bonus for won and a malus for lost games -/
def balance (K : Type) [Field K] (hist : Games) (h : Int) : K :=
  if played hist h = 0 then 0
  else 2 * (wins hist h : K) / played hist h - 1
    + (if winMoves hist h = 0 then 0 else 1 / (10 * (played hist h : K) * winMoves hist h))
    - (if lossMoves hist h = 0 then 0 else 1 / ((played hist h : K) * lossMoves hist h))

section
variable (K : Type) [Field K] [LinearOrder K] (cfg : Cfg) (hist : Games)

/-- good enough at handicap `h` for a higher one -/
def Up (h : Int) : Prop := cfg.minEvals ≤ played hist h ∧ 3 / 5 < balance K hist h

/-- too bad at handicap `h` -/
def Down (h : Int) : Prop := cfg.minEvals ≤ played hist h ∧ balance K hist h < -(3 / 5)

/-- `h` is the highest handicap played -/
def Highest (h : Int) : Prop := (∃ g ∈ hist, g.1 = h) ∧ ∀ g ∈ hist, g.1 ≤ h

/-- too good for one handicap and too bad for the next, the highest one played, after enough games -/
def Between (h : Int) : Prop :=
  0 < h ∧ 2 * cfg.minEvals ≤ played hist h ∧ 2 * cfg.minEvals ≤ played hist (h - 1) ∧ Up K cfg hist (h - 1) ∧ Down K cfg hist h

/-- nothing more to find out at handicap `c` -/
def Settled (c : Int) : Prop :=
  (∃ h, Highest hist h ∧ Between K cfg hist h) ∨
  (2 * cfg.minEvals ≤ played hist c ∧
    ((¬ Up K cfg hist c ∧ ¬ Down K cfg hist c) ∨ (Up K cfg hist c ∧ cfg.maxHandicaps ≤ c) ∨ (Down K cfg hist c ∧ c = 0)))

open Classical in
/-- the next handicap -/
noncomputable def next (c : Int) : Int :=
  if Up K cfg hist c ∧ c < cfg.maxHandicaps then c + 1 else if Down K cfg hist c ∧ 1 < c then c - 1 else c

end

/-- `Run … hist c`: the games played so far are `hist`, the handicap of the next one is `c` -/
inductive Run (K : Type) [Field K] [LinearOrder K] (cfg : Cfg) (outcome : Nat → Int → Bool × Nat) : Games → Int → Prop
  | start : Run K cfg outcome [] 0
  | play {hist : Games} {c : Int} (h : Run K cfg outcome hist c) (hs : ¬ Settled K cfg hist c) (hm : hist.length < cfg.maxGames) :
      Run K cfg outcome (hist ++ [(c, outcome hist.length c)])
        (next K cfg (hist ++ [(c, outcome hist.length c)]) c)

end Verif.Handicap.Spec
