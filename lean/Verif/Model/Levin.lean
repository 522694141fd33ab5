import Mathlib.Data.List.Basic
/-
Model of `LevinSeach` (pybrain/rl/learners/meta/levinsearch.py).

The ordered enumeration is a list of programs with their complexities (of an infinite enumeration only a part at the beginning is ever read).  A program run on the input gives a value of which only matters
whether the stopping criterion holds for it, or does not terminate (`none`).
-/
namespace Verif.Levin

variable {P : Type}

/-- the end of a search -/
inductive Outcome (P : Type) where
  /-- the programs that were executed, in order; the last one is the solution -/
  | found (executed : List P)
  | keyError
  /-- a program does not terminate -/
  | hangs
  /-- the bound on the number of phases of the model is reached -/
  | unfinished
deriving DecidableEq, Repr

/-- `timeBoundExecution`, levinsearch.py:4-7: the program as it is -/
def timeBoundExecution (run : P → Option Bool) (_maxtime : Nat) : P → Option Bool := run

/-- the generation of programs in a phase, levinsearch.py:32-42, from `c <= maxLevin` on: what is read and what is left -/
def generate (m : Nat) : List (Nat × P) → List (Nat × P) × List (Nat × P)
  | [] => ([], [])
  | x :: xs => if x.1 ≤ m then ((x :: (generate m xs).1), (generate m xs).2) else ([x], xs)

/-- the inner loop of the execution, levinsearch.py:47-51: the programs executed, and whether the last one was a solution -/
def tryAll (run : P → Option Bool) (t : Nat) : List P → Option (List P × Bool)
  | [] => some ([], false)
  | p :: ps =>
    match timeBoundExecution run t p with
    | none => none
    | some true => some ([p], true)
    | some false => (tryAll run t ps).map fun r => (p :: r.1, r.2)

/-- the outer loop of the execution, levinsearch.py:46, over the complexities in a list; `all` is the content of the dictionary -/
def execute (run : P → Option Bool) (m : Nat) (all : List (Nat × P)) : List Nat → Outcome P ⊕ List P
  | [] => .inr []
  | c :: cs =>
    match (all.filter fun x => x.1 == c).map Prod.snd with
    | [] => .inl .keyError
    | ps =>
      match tryAll run (2 ^ (m - c) / m) ps with
      | none => .inl .hangs
      | some (e, true) => .inl (.found e)
      | some (e, false) =>
        match execute run m all cs with
        | .inl (.found e') => .inl (.found (e ++ e'))
        | .inl o => .inl o
        | .inr e' => .inr (e ++ e')

/-- the phases, levinsearch.py:28-53, with a bound on their number -/
def phases (run : P → Option Bool) : Nat → Nat → List (Nat × P) → List (Nat × P) → List P → Outcome P
  | 0, _, _, _, _ => .unfinished
  | fuel + 1, m, all, rest, done =>
    let g := generate m rest
    match execute run m (all ++ g.1) (List.range m) with
    | .inl (.found e) => .found (done ++ e)
    | .inl o => o
    | .inr e => phases run fuel (m + 1) (all ++ g.1) g.2 (done ++ e)

/-- `run`, levinsearch.py:18-53 -/
def search (run : P → Option Bool) (enumeration : List (Nat × P)) (fuel : Nat) : Outcome P := phases run fuel 1 [] enumeration []

end Verif.Levin
