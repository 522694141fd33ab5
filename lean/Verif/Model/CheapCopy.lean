/-
Model of pybrain/structure/evolvables/cheaplycopiable.py (CheaplyCopiable).

A module has parameters of type `P` and everything else it remembers (buffers, offset, derivatives) in a state of type `S`. `run` is `forward`, `activate`, `backward` or `backActivate`
(the input says which one), `obs` is what the properties `derivs`, `outputbuffer` and `inputerror` show. The copies made from one module (and from its copies) are numbered.
-/
namespace Verif.CheapCopy

/-- the module that is wrapped -/
structure Mod (P S I O : Type) where
  run : P → S → I → S × O
  rst : S → S
  obs : S → O

/-- what can be done with the copies -/
inductive Op (P I : Type) where
  | run (i : Nat) (x : I)
  /-- `mutate` and `randomize`, with the new parameters -/
  | change (i : Nat) (p : P)
  | copy (i : Nat)
  | reset (i : Nat)
  | read (i : Nat)
  | getBase (i : Nat)

variable {P S I O : Type}

/-- the stored module, which all copies share, and the parameters of the copies -/
structure World (P S : Type) where
  params : P
  state : S
  copies : List P

/-- `CheaplyCopiable(module)`, cheaplycopiable.py:10-16 -/
def new (p : P) (s : S) : World P S := { params := p, state := s, copies := [p] }

/-- one operation, cheaplycopiable.py:18-78; `none` is returned for an operation without a result, or on a copy that does not exist -/
def step (m : Mod P S I O) (w : World P S) : Op P I → World P S × Option O
  | .run i x =>
    match w.copies[i]? with
    | none => (w, none)
    | some p => ({ w with params := p, state := (m.run p w.state x).1 }, some (m.run p w.state x).2)
  | .change i p =>
    if i < w.copies.length then ({ w with params := p, copies := w.copies.set i p }, none) else (w, none)
  | .copy i =>
    match w.copies[i]? with
    | none => (w, none)
    | some p => ({ w with params := p, copies := w.copies ++ [p] }, none)
  | .reset i => if i < w.copies.length then ({ w with state := m.rst w.state }, none) else (w, none)
  | .read i => if i < w.copies.length then (w, some (m.obs w.state)) else (w, none)
  | .getBase i =>
    match w.copies[i]? with
    | none => (w, none)
    | some p => ({ w with params := p }, none)

/-- a sequence of operations and their results -/
def steps (m : Mod P S I O) : World P S → List (Op P I) → List (Option O)
  | _, [] => []
  | w, o :: os => (step m w o).2 :: steps m (step m w o).1 os

end Verif.CheapCopy
