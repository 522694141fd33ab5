import Verif.Model.Assembly
import Mathlib.Data.List.Induction
/-
C186: putting agents, learners, modules and explorers together.
-/
namespace Verif.Assembly

/-- the module assigned last -/
def lastModule (ops : List VOp) : Option Nat := (ops.filterMap fun | .module m => some m | .explorer _ => none).getLast?

/-- the explorer assigned last, number 0 if none was -/
def lastExplorer (ops : List VOp) : Option Nat := ((ops.filterMap fun | .module _ => none | .explorer e => some e).getLast?).getD (some 0)

/-- the modules a learner has had are not empty -/
def Full (d : Dims) (ops : List VOp) : Prop := ∀ m, VOp.module m ∈ ops → d m ≠ some 0

/-- calls that neither assign a module nor an explorer -/
def Quiet : POp → Prop
  | .attach _ _ | .module _ | .explorer _ => False
  | _ => True

theorem quiet_run (d : Dims) (l : Pg) (ops : List POp) (h : ∀ o ∈ ops, Quiet o) :
    (ops.foldl (Pg.step d) l).module = l.module ∧ (ops.foldl (Pg.step d) l).explorer = l.explorer ∧ (ops.foldl (Pg.step d) l).network = l.network := by
  induction ops generalizing l with
  | nil => exact ⟨rfl, rfl, rfl⟩
  | cons o ops ih =>
    obtain ⟨h1, h2, h3⟩ := ih (l.step d o) fun o' ho' => h o' (by simp [ho'])
    have ho := h o (by simp)
    rw [List.foldl_cons, h1, h2, h3]
    cases o <;> first | exact ⟨rfl, rfl, rfl⟩ | exact ho.elim

/-- an interaction that is logged counts, a reset starts anew -/
def count (n : Nat) : POp → Nat
  | .interact _ true => n + 1
  | .reset _ => 0
  | _ => n

/-- samples since the last reset -/
def sinceReset (ops : List POp) : Nat := ops.foldl count 0

/-- the calls of a usual experiment: what is logged is also explored, and resets concern both -/
def Usual : POp → Prop
  | .interact learning logging => learning = logging
  | .reset learning => learning = true
  | _ => False

end Verif.Assembly

namespace Verif.Props
open Verif.Assembly

/-- C186, value-based learners: after any sequence of assignments of modules (also by making agents) and explorers, in any order, to a new learner, the learner has the module and the explorer assigned last, and this explorer knows this module. -/
theorem C186_value (d : Dims) (ops : List VOp) (h : Full d ops) :
    let l := ops.foldl (Value.step d) Value.init
    l.module = lastModule ops ∧ l.explorer = lastExplorer ops ∧ ∀ m e, l.module = some m → l.explorer = some e → l.known e = some m := by
  intro l
  suffices hm : l.module = lastModule ops ∧ l.explorer = lastExplorer ops ∧ (∀ m, l.module = some m → d m ≠ some 0) ∧ ∀ m e, l.module = some m → l.explorer = some e → l.known e = some m from ⟨hm.1, hm.2.1, hm.2.2.2⟩
  induction ops using List.reverseRecOn with
  | nil => exact ⟨rfl, rfl, fun m hm => absurd hm (by simp [l, Value.init]), fun m e hm => absurd hm (by simp [l, Value.init])⟩
  | append_singleton ops o ih =>
    obtain ⟨h1, h2, h3, h4⟩ := ih fun m hm => h m (by simp [hm])
    have el : l = (ops.foldl (Value.step d) Value.init).step d o := by simp [l]
    generalize ops.foldl (Value.step d) Value.init = k at h1 h2 h3 h4 el
    rw [el]
    cases o with
    | module m =>
      have hd := h m (by simp)
      refine ⟨?_, ?_, ?_, ?_⟩
      · rw [Value.step, Value.setModule]
        split <;> simp [lastModule]
      · have : lastExplorer (ops ++ [.module m]) = lastExplorer ops := by simp [lastExplorer]
        rw [this, ← h2, Value.step, Value.setModule]
        split <;> rename_i hk <;> simp [hk]
      · intro m' hm'
        have : m' = m := by
          rw [Value.step, Value.setModule] at hm'
          split at hm' <;> simpa using hm'.symm
        exact this ▸ hd
      · intro m' e hm' he
        rw [Value.step, Value.setModule] at hm' he ⊢
        cases hk : k.explorer with
        | none => simp [hk] at he
        | some e' =>
          simp only [hk] at hm' he ⊢
          simp only [Option.some.injEq] at hm' he
          subst hm'
          simp [tell, he]
    | explorer e =>
      have hmod : (k.step d (.explorer e)).module = k.module := by
        rw [Value.step, Value.setExplorer]
        split
        · rename_i hk; simp [hk]
        · rename_i m hk
          split
          · cases e <;> simp [hk]
          · simp [hk]
      have hexp : (k.step d (.explorer e)).explorer = e := by
        rw [Value.step, Value.setExplorer]
        split
        · rfl
        · split
          · cases e <;> rfl
          · rfl
      refine ⟨?_, ?_, ?_, ?_⟩
      · rw [hmod, h1]; simp [lastModule]
      · rw [hexp]; simp [lastExplorer]
      · rw [hmod]; exact h3
      · intro m e' hm he
        rw [hmod] at hm
        rw [hexp] at he
        subst he
        have ht : truth d m = true := by simpa [truth] using h3 m hm
        rw [Value.step, Value.setExplorer, hm]
        simp [ht, tell]

/-- The hypotheses are met: an explorer before and after the module. -/
example : ([VOp.explorer (some 4), .module 7, .explorer (some 5)].foldl (Value.step fun _ => some 3) Value.init).known 5 = some 7 := by decide

/-- **C186 fails for taking an explorer away**: learners may be without explorer, but assigning `None` to one with a module raises AttributeError; nevertheless the explorer is gone. -/
theorem C186_negation_none (d : Dims) (l : Value) (m : Nat) (hm : l.module = some m) (hd : d m ≠ some 0) :
    (l.setExplorer d none).2 = some .attribute ∧ (l.setExplorer d none).1.explorer = none := by
  have ht : truth d m = true := by simpa [truth] using hd
  rw [Value.setExplorer, hm]
  simp [ht]

/-- **C186 fails for modules without parameters**: an explorer assigned after such a module is not told about it. -/
theorem C186_negation_empty (d : Dims) (l : Value) (m e : Nat) (hm : l.module = some m) (hd : d m = some 0) (hk : l.known e = none) :
    (l.setExplorer d (some e)).2 = none ∧ (l.setExplorer d (some e)).1.explorer = some e ∧ (l.setExplorer d (some e)).1.known e = none := by
  have ht : truth d m = false := by simp [truth, hd]
  rw [Value.setExplorer, hm]
  simp [ht, hk]

/-- C186, policy gradients: after any sequence of calls the combined network consists of the learner's module and its explorer, and there is one as soon as a module was assigned. -/
theorem C186_tied (d : Dims) (ops : List POp) :
    let l := ops.foldl (Pg.step d) Pg.init
    (l.network = none ↔ l.module = none) ∧ ∀ m, l.module = some m → ∃ e, l.explorer = some e ∧ l.network = some (m, e) := by
  intro l
  induction ops using List.reverseRecOn with
  | nil => exact ⟨⟨fun _ => rfl, fun _ => rfl⟩, fun m hm => nomatch hm⟩
  | append_singleton ops o ih =>
    have el : l = (ops.foldl (Pg.step d) Pg.init).step d o := by simp [l]
    generalize ops.foldl (Pg.step d) Pg.init = k at ih el
    rw [el]
    cases o with
    | attach m h => simp [Pg.step, Pg.setModule]
    | module m => simp [Pg.step, Pg.setModule]
    | explorer e =>
      rw [Pg.step, Pg.setExplorer]
      cases hk : k.module with
      | none => simpa [hk] using ih
      | some m =>
        by_cases ht : truth d m = true
        · simp [ht, hk]
        · simpa [ht, hk] using ih
    | interact a b => exact ih
    | reset a => exact ih
    | learnOn ds => exact ih

/-- An explorer assigned to a learner with a module that has parameters stays in use, whatever happens, until another module or explorer is assigned. -/
theorem C186_explorer_partial (d : Dims) (before after : List POp) (m e : Nat) (hm : (before.foldl (Pg.step d) Pg.init).module = some m) (hd : d m ≠ some 0) (h : ∀ o ∈ after, Quiet o) :
    let l := (before ++ .explorer e :: after).foldl (Pg.step d) Pg.init
    l.explorer = some (.user e) ∧ l.network = some (m, .user e) := by
  have ht : truth d m = true := by simpa [truth] using hd
  intro l
  have el : l = after.foldl (Pg.step d) ((before.foldl (Pg.step d) Pg.init).step d (.explorer e)) := by simp [l]
  obtain ⟨-, h2, h3⟩ := quiet_run d ((before.foldl (Pg.step d) Pg.init).step d (.explorer e)) after h
  rw [el, h2, h3, Pg.step, Pg.setExplorer, hm]
  simp [ht]

/-- **C186 fails for explorers assigned before the agent is made**, which is what the documentation asks for: without a module the assignment raises an AssertionError, and with one the explorer is replaced by a default one as soon as the learner is given to
an agent, even with the same module. -/
theorem C186_negation_before (d : Dims) (l : Pg) (m h e : Nat) :
    (Pg.init.setExplorer d e).2 = some .assertion ∧ ((l.step d (.explorer e)).step d (.attach m h)).explorer ≠ some (.user e) ∧ ∃ k, ((l.step d (.explorer e)).step d (.attach m h)).network = some (m, .default k) :=
  ⟨rfl, by simp [Pg.step, Pg.setModule], _, rfl⟩

/-- **C186 fails for modules without parameters**: no explorer can be assigned (AssertionError), although the explorer has parameters that could be learned. -/
theorem C186_negation_paramless (d : Dims) (l : Pg) (m e : Nat) (hm : l.module = some m) (hd : d m = some 0) : l.setExplorer d e = (l, some .assertion) := by
  have ht : truth d m = false := by simp [truth, hd]
  rw [Pg.setExplorer, hm]
  simp [ht]

/-- As long as agent and learner are used as in the experiments, there is one log-likelihood for each sample of the history, namely as many as interactions since the last reset. -/
theorem C186_sync_partial (d : Dims) (l : Pg) (m h : Nat) (ops : List POp) (hu : ∀ o ∈ ops, Usual o) :
    let l' := ops.foldl (Pg.step d) (l.step d (.attach m h))
    l'.loglh = sinceReset ops ∧ l'.samples = sinceReset ops ∧ l'.dataset = some h ∧ l'.module = some m := by
  intro l'
  induction ops using List.reverseRecOn with
  | nil => exact ⟨rfl, rfl, rfl, rfl⟩
  | append_singleton ops o ih =>
    obtain ⟨h1, h2, h3, h4⟩ := ih fun o' ho' => hu o' (by simp [ho'])
    have ho := hu o (by simp)
    have el : l' = (ops.foldl (Pg.step d) (l.step d (.attach m h))).step d o := by simp [l']
    generalize ops.foldl (Pg.step d) (l.step d (.attach m h)) = k at h1 h2 h3 h4 el
    have hs : sinceReset (ops ++ [o]) = count (sinceReset ops) o := by simp [sinceReset]
    rw [el, hs]
    cases o with
    | interact a b =>
      simp only [Usual] at ho
      subst ho
      cases a <;> simp [Pg.step, count, h1, h2, h3, h4]
    | reset a =>
      simp only [Usual] at ho
      subst ho
      simp [Pg.step, count, h3, h4]
    | attach m h => exact absurd ho (by simp [Usual])
    | module m => exact absurd ho (by simp [Usual])
    | explorer e => exact absurd ho (by simp [Usual])
    | learnOn ds => exact absurd ho (by simp [Usual])

/-- The hypotheses are met: five interactions with a reset after the third. -/
example : sinceReset [.interact true true, .interact true true, .interact true true, .reset true, .interact true true, .interact true true] = 2 := by decide

/-- **C186 fails for changes during learning**: if an explorer or a module is assigned, the log-likelihoods of all samples are forgotten, and the samples are not; samples logged while learning is off have no log-likelihoods at all. -/
theorem C186_negation_sync (d : Dims) (l : Pg) (m e : Nat) (hm : l.module = some m) (hd : d m ≠ some 0) :
    ((l.step d (.explorer e)).loglh = 0 ∧ (l.step d (.explorer e)).samples = l.samples) ∧
    ((l.step d (.module m)).loglh = 0 ∧ (l.step d (.module m)).samples = l.samples) ∧
    (l.step d (.interact false true)).loglh = l.loglh ∧ (l.step d (.interact false true)).samples = l.samples + 1 := by
  have ht : truth d m = true := by simpa [truth] using hd
  refine ⟨?_, ⟨rfl, rfl⟩, rfl, rfl⟩
  rw [Pg.step, Pg.setExplorer, hm]
  simp [ht]

/-- **C186 fails after learning from another data set**: whatever the agent experiences after `learnOnDataset(ds)`, its learner keeps learning from `ds`, also after resets, until another agent is made with it. -/
theorem C186_negation_dataset (d : Dims) (l : Pg) (ds : Nat) (ops : List POp) (h : ∀ o ∈ ops, (∀ m k, o ≠ .attach m k) ∧ ∀ k, o ≠ .learnOn k) :
    (ops.foldl (Pg.step d) (l.step d (.learnOn ds))).dataset = some ds := by
  induction ops using List.reverseRecOn with
  | nil => rfl
  | append_singleton ops o ih =>
    have hi := ih fun o' ho' => h o' (by simp [ho'])
    obtain ⟨ho1, ho2⟩ := h o (by simp)
    rw [List.foldl_append, List.foldl_cons, List.foldl_nil]
    cases o with
    | attach m k => exact absurd rfl (ho1 m k)
    | learnOn k => exact absurd rfl (ho2 k)
    | module m => exact hi
    | interact a b => exact hi
    | reset a => exact hi
    | explorer e =>
      rw [Pg.step, Pg.setExplorer]
      split
      · exact hi
      · split
        · exact hi
        · exact hi

end Verif.Props
