import Verif.Model.CheapCopy
import Mathlib.Logic.Basic
import Mathlib.Data.List.Basic
import Mathlib.Order.Basic
/-
C131: cheap copies of modules.
-/
namespace Verif.CheapCopy

variable {P S I O : Type}

/-! ### specification: independent modules -/

/-- each copy has its own parameters and its own state -/
def specStep (m : Mod P S I O) (w : List (P × S)) : Op P I → List (P × S) × Option O
  | .run i x =>
    match w[i]? with
    | none => (w, none)
    | some (p, s) => (w.set i (p, (m.run p s x).1), some (m.run p s x).2)
  | .change i p =>
    match w[i]? with
    | none => (w, none)
    | some (_, s) => (w.set i (p, s), none)
  | .copy i =>
    match w[i]? with
    | none => (w, none)
    | some c => (w ++ [c], none)
  | .reset i =>
    match w[i]? with
    | none => (w, none)
    | some (p, s) => (w.set i (p, m.rst s), none)
  | .read i => (w, w[i]?.map fun c => m.obs c.2)
  | .getBase _ => (w, none)

/-- the results for independent modules -/
def specSteps (m : Mod P S I O) : List (P × S) → List (Op P I) → List (Option O)
  | _, [] => []
  | w, o :: os => (specStep m w o).2 :: specSteps m (specStep m w o).1 os

/-- the output does not depend on anything but the parameters and the input -/
def Stateless (m : Mod P S I O) : Prop := ∀ p s s' x, (m.run p s x).2 = (m.run p s' x).2

/-- nothing is read from the buffers -/
def NoRead : Op P I → Prop
  | .read _ => False
  | _ => True

/-- running (with an input) or reading -/
def act (i : Nat) : Option I → Op P I
  | some x => .run i x
  | none => .read i

/-- an episode of one copy: it is reset, then run for some inputs and read -/
def episode (i : Nat) (acts : List (Option I)) : List (Op P I) := .reset i :: acts.map (act i)

theorem map_set_fst (w : List (P × S)) (i : Nat) (c : P × S) : (w.set i c).map Prod.fst = (w.map Prod.fst).set i c.1 := by
  rw [List.map_set]

theorem set_same (l : List P) (i : Nat) (p : P) (h : l[i]? = some p) : l.set i p = l := by
  refine List.ext_getElem? fun j => ?_
  rw [List.getElem?_set]
  split_ifs with h1 h2
  · rw [← h1, h]
  · subst h1; rw [List.getElem?_eq_none (by omega)]
  · rfl

end Verif.CheapCopy

namespace Verif.Props
open Verif.CheapCopy

variable {P S I O : Type}

/-- **C131, modules without memory.** Whatever is done with the copies in whatever order (running, mutating, randomizing, copying, resetting, taking the base), every output is that of independent
modules, if the module's outputs depend on its parameters and input only. -/
theorem C131_stateless (m : Mod P S I O) (hm : Stateless m) (p : P) (s : S) (ops : List (Op P I)) (hr : ∀ o ∈ ops, NoRead o) :
    steps m (new p s) ops = specSteps m [(p, s)] ops := by
  have key : ∀ (ops : List (Op P I)) (w : World P S) (v : List (P × S)), (∀ o ∈ ops, NoRead o) → w.copies = v.map Prod.fst → steps m w ops = specSteps m v ops := by
    intro ops
    induction ops with
    | nil => intros; rfl
    | cons o os ih =>
      intro w v hr hw
      have hr' : ∀ o ∈ os, NoRead o := fun o ho => hr o (List.mem_cons_of_mem _ ho)
      have hget : ∀ i, w.copies[i]? = v[i]?.map Prod.fst := fun i => by rw [hw, List.getElem?_map]
      suffices h : (step m w o).2 = (specStep m v o).2 ∧ (step m w o).1.copies = (specStep m v o).1.map Prod.fst by
        rw [steps, specSteps, h.1, ih _ _ hr' h.2]
      cases o with
      | run i x =>
        simp only [step, specStep]
        cases hv : v[i]? with
        | none => simp [hget, hv, hw]
        | some c =>
          obtain ⟨p, t⟩ := c
          have h1 : w.copies[i]? = some p := by simp [hget, hv]
          simp only [h1, map_set_fst]
          exact ⟨by rw [hm p w.state t x], by rw [set_same _ _ _ (by rw [List.getElem?_map, hv]; rfl), hw]⟩
      | change i p =>
        simp only [step, specStep]
        have hl : w.copies.length = v.length := by rw [hw, List.length_map]
        cases hv : v[i]? with
        | none =>
          have : ¬ i < w.copies.length := by rw [hl]; exact Nat.not_lt.2 (List.getElem?_eq_none_iff.1 hv)
          rw [if_neg this]; exact ⟨rfl, hw⟩
        | some c =>
          have : i < w.copies.length := by rw [hl]; exact (List.getElem?_eq_some_iff.1 hv).1
          rw [if_pos this]; exact ⟨rfl, by rw [map_set_fst, ← hw]⟩
      | copy i =>
        simp only [step, specStep]
        cases hv : v[i]? with
        | none => simp [hv, hw]
        | some c => simp [hv, hw]
      | reset i =>
        simp only [step, specStep]
        have hl : w.copies.length = v.length := by rw [hw, List.length_map]
        cases hv : v[i]? with
        | none =>
          have : ¬ i < w.copies.length := by rw [hl]; exact Nat.not_lt.2 (List.getElem?_eq_none_iff.1 hv)
          rw [if_neg this]; exact ⟨rfl, hw⟩
        | some c =>
          have : i < w.copies.length := by rw [hl]; exact (List.getElem?_eq_some_iff.1 hv).1
          rw [if_pos this]
          refine ⟨rfl, ?_⟩
          rw [map_set_fst, set_same _ _ _ (by rw [List.getElem?_map, hv]; rfl), hw]
      | read i => exact absurd (hr _ List.mem_cons_self) (by simp [NoRead])
      | getBase i =>
        simp only [step, specStep]
        cases hv : w.copies[i]? <;> simp [hw]
  exact key ops _ _ hr rfl

/-- **C131, episodes.** If resetting always leads to the same state, and the copies are used one after the other, each from a reset on, the results (also those read from the buffers) are those of independent
modules, whatever the module remembers between. -/
theorem C131_episodes (m : Mod P S I O) (s0 : S) (hreset : ∀ s, m.rst s = s0) (p : P) (s : S) (plan : List (Nat × List (Option I))) :
    steps m (new p s) (plan.flatMap fun e => episode e.1 e.2) = specSteps m [(p, s)] (plan.flatMap fun e => episode e.1 e.2) := by
  -- within an episode the shared state is that of the copy in use
  have run : ∀ (i : Nat) (acts : List (Option I)) (rest : List (Op P I)) (w : World P S) (v : List (P × S)), w.copies = v.map Prod.fst →
      (∀ c, v[i]? = some c → c.2 = w.state) →
      (∀ (w' : World P S) (v' : List (P × S)), w'.copies = v'.map Prod.fst → steps m w' rest = specSteps m v' rest) →
      steps m w ((acts.map (act i)) ++ rest) = specSteps m v ((acts.map (act i)) ++ rest) := by
    intro i acts
    induction acts with
    | nil => intro rest w v hw _ h; exact h w v hw
    | cons a acts ih =>
      intro rest w v hw hs h
      have hget : w.copies[i]? = v[i]?.map Prod.fst := by rw [hw, List.getElem?_map]
      have hl : w.copies.length = v.length := by rw [hw, List.length_map]
      cases a with
      | none =>
        simp only [List.map_cons, List.cons_append, steps, specSteps, act]
        have e : step m w (.read i : Op P I) = (w, v[i]?.map fun c => m.obs c.2) := by
          simp only [step]
          cases hv : v[i]? with
          | none =>
            have : ¬ i < w.copies.length := by rw [hl]; exact Nat.not_lt.2 (List.getElem?_eq_none_iff.1 hv)
            simp [this]
          | some c =>
            have : i < w.copies.length := by rw [hl]; exact (List.getElem?_eq_some_iff.1 hv).1
            simp [this, hs c hv]
        rw [e]
        have := ih rest w v hw hs h
        rw [show (specStep m v (.read i : Op P I)) = (v, v[i]?.map fun c => m.obs c.2) from rfl, this]
      | some x =>
        simp only [List.map_cons, List.cons_append, steps, specSteps, act]
        cases hv : v[i]? with
        | none =>
          have e1 : step m w (.run i x) = (w, none) := by simp [step, hget, hv]
          have e2 : specStep m v (.run i x) = (v, none) := by simp [specStep, hv]
          rw [e1, e2, ih rest w v hw hs h]
        | some c =>
          obtain ⟨q, t⟩ := c
          have ht : t = w.state := hs _ hv
          have e1 : step m w (.run i x) = ({ w with params := q, state := (m.run q w.state x).1 }, some (m.run q w.state x).2) := by simp [step, hget, hv]
          have e2 : specStep m v (.run i x) = (v.set i (q, (m.run q t x).1), some (m.run q t x).2) := by simp [specStep, hv]
          rw [e1, e2, ht]
          have hlt : i < v.length := (List.getElem?_eq_some_iff.1 hv).1
          rw [ih rest { w with params := q, state := (m.run q w.state x).1 } (v.set i (q, (m.run q w.state x).1)) ?_ ?_ h]
          · rw [map_set_fst, set_same _ _ _ (by rw [List.getElem?_map, hv]; rfl)]; exact hw
          · intro c hc
            rw [List.getElem?_set_self hlt] at hc
            obtain rfl := Option.some.inj hc
            rfl
  have key : ∀ (plan : List (Nat × List (Option I))) (w : World P S) (v : List (P × S)), w.copies = v.map Prod.fst →
      steps m w (plan.flatMap fun e => episode e.1 e.2) = specSteps m v (plan.flatMap fun e => episode e.1 e.2) := by
    intro plan
    induction plan with
    | nil => intros; rfl
    | cons e plan ih =>
      obtain ⟨i, acts⟩ := e
      intro w v hw
      rw [List.flatMap_cons]
      generalize hrest : (plan.flatMap fun e => episode e.1 e.2) = rest at ih ⊢
      simp only [episode, List.cons_append, steps, specSteps]
      have hl : w.copies.length = v.length := by rw [hw, List.length_map]
      cases hv : v[i]? with
      | none =>
        have hlt : ¬ i < w.copies.length := by rw [hl]; exact Nat.not_lt.2 (List.getElem?_eq_none_iff.1 hv)
        have e1 : step m w (.reset i : Op P I) = (w, none) := by simp [step, hlt]
        have e2 : specStep m v (.reset i : Op P I) = (v, none) := by simp [specStep, hv]
        rw [e1, e2, run i acts _ w v hw (by rw [hv]; simp) (fun w' v' h => ih w' v' h)]
      | some c =>
        obtain ⟨q, t⟩ := c
        have hlt : i < w.copies.length := by rw [hl]; exact (List.getElem?_eq_some_iff.1 hv).1
        have hlt' : i < v.length := hl ▸ hlt
        have e1 : step m w (.reset i : Op P I) = ({ w with state := s0 }, none) := by simp [step, hlt, hreset]
        have e2 : specStep m v (.reset i : Op P I) = (v.set i (q, s0), none) := by simp [specStep, hv, hreset]
        rw [e1, e2, run i acts _ { w with state := s0 } (v.set i (q, s0)) ?_ ?_ (fun w' v' h => ih w' v' h)]
        · rw [map_set_fst, set_same _ _ _ (by rw [List.getElem?_map, hv]; rfl)]; exact hw
        · intro c hc
          rw [List.getElem?_set_self hlt'] at hc
          obtain rfl := Option.some.inj hc
          rfl
  exact key plan _ _ rfl

/-- a recurrent module: the output is the parameter times the input plus what it remembers, and it remembers the output; `obs` shows what it remembers -/
def echo : Mod Int Int Int Int where
  run := fun p s x => (p * x + s, p * x + s)
  rst := fun _ => 0
  obs := fun s => s

/-- **C131 violated: recurrent modules.** Copies share one history: if two copies are run in turn, the second one is influenced by the inputs of the first one. -/
theorem C131_negation_history : ∃ ops : List (Op Int Int), (∀ o ∈ ops, NoRead o) ∧ steps echo (new 1 0) ops ≠ specSteps echo [(1, 0)] ops :=
  ⟨[.copy 0, .run 0 5, .run 1 2], by simp [NoRead], by decide⟩

/-- a module whose state accumulates derivatives (as `backActivate` does) and does not influence its outputs -/
def gradient : Mod Int Int Int Int where
  run := fun p s x => (s + x, p * x)
  rst := fun s => s
  obs := fun s => s

/-- **C131 violated: derivatives.** Also for modules without memory, the derivatives are shared: those read from a copy include what was computed with another one. -/
theorem C131_negation_derivs : Stateless gradient ∧ steps gradient (new 1 0) [.copy 0, .run 0 5, .run 1 2, .read 0] ≠
    specSteps gradient [(1, 0)] [.copy 0, .run 0 5, .run 1 2, .read 0] :=
  ⟨fun _ _ _ _ => rfl, by decide⟩

example : steps echo (new 2 7) (([(0, [some 3, none]), (0, [some 1])] : List (Nat × List (Option Int))).flatMap fun e => episode e.1 e.2) =
    [none, some 6, some 6, none, some 2] := by decide

end Verif.Props
