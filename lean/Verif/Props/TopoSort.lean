import Verif.Lemmas.TopoSort
/-
Property theorem C10 (pybrain/structure/networks/network.py, _topologicalSort).
-/
namespace Verif.Props
open Verif.Topo Verif.Topo.Spec

variable {V : Type} [DecidableEq V]

/-- **C10.** For every collection of modules, every multigraph of connections between them and every
naming: if the graph is acyclic the sort succeeds with a list of all modules, each exactly once, in which
every connection goes forward; if the graph has a cycle (self loops included) the loop error is raised.
No other outcome is possible. -/
theorem C10_topological_sort (modules : List V) (edges : List (V × V)) (name : V → String)
    (h : ∀ e ∈ edges, e.1 ∈ modules ∧ e.2 ∈ modules) :
    (Acyclic edges → ∃ l, topologicalSort modules edges name = .ok l ∧ IsTopoOrder modules edges l) ∧
    (¬ Acyclic edges → topologicalSort modules edges name = .error .loop) := by
  obtain ⟨g, hg, hinv⟩ := init_linv modules edges name h
  have hs := sortLoop_spec modules edges g.keys.length g _ [] (Nat.le_refl _) hinv
  unfold topologicalSort
  rw [hg]
  rcases hs with ⟨l, h1, h2⟩ | ⟨h1, A, hA, hc⟩
  · exact ⟨fun _ => ⟨l, h1, h2⟩, fun hn => absurd (acyclic_of_topo h2) hn⟩
  · exact ⟨fun hac => absurd hac (not_acyclic_of_closed A hA hc), fun _ => h1⟩

/-- **C10, soundness alone.** Whatever the input, a list that is returned is a topological order. -/
theorem C10_result_is_order (modules : List V) (edges : List (V × V)) (name : V → String) (l : List V)
    (h : topologicalSort modules edges name = .ok l) : IsTopoOrder modules edges l ∧ Acyclic edges := by
  by_cases he : ∀ e ∈ edges, e.1 ∈ modules ∧ e.2 ∈ modules
  · obtain ⟨h1, h2⟩ := C10_topological_sort modules edges name he
    by_cases hac : Acyclic edges
    · obtain ⟨l', hl', ho⟩ := h1 hac
      rw [hl'] at h
      cases h
      exact ⟨ho, hac⟩
    · rw [h2 hac] at h; cases h
  · exfalso
    have hfold := dedupFold modules ([] : List V) (by simp)
    unfold topologicalSort at h
    rw [addEdges_err edges (initGraph modules) (by
      by_contra hcon
      apply he
      intro e hem
      constructor
      · by_contra h1
        exact hcon ⟨e, hem, Or.inl (fun hk => h1 (by simpa using (hfold.2 e.1).1 hk))⟩
      · by_contra h1
        exact hcon ⟨e, hem, Or.inr (fun hk => h1 (by simpa using (hfold.2 e.2).1 hk))⟩)] at h
    cases h

/-- **C10, dangling connections.** A connection to or from a module that was never added makes
`sortModules` fail with KeyError. -/
theorem C10_dangling (modules : List V) (edges : List (V × V)) (name : V → String)
    (h : ∃ e ∈ edges, e.1 ∉ modules ∨ e.2 ∉ modules) : topologicalSort modules edges name = .error .keyError := by
  have hfold := dedupFold modules ([] : List V) (by simp)
  have hmem : ∀ v, v ∈ (initGraph modules).keys ↔ v ∈ modules := fun v => by simpa [initGraph] using hfold.2 v
  unfold topologicalSort
  rw [addEdges_err edges (initGraph modules) (by simpa only [hmem] using h)]

/-- a diamond with a parallel connection -/
example : topologicalSort [3, 1, 2, 0] [(0, 1), (0, 2), (1, 3), (2, 3), (0, 1)] (fun n : Nat => toString n) = .ok [0, 2, 1, 3] := by
  decide +kernel

example : (∀ e ∈ [((0 : Nat), 1), (0, 2), (1, 3), (2, 3), (0, 1)], e.1 ∈ [3, 1, 2, 0] ∧ e.2 ∈ [3, 1, 2, 0]) := by decide

example : Acyclic [((0 : Nat), 1), (0, 2), (1, 3), (2, 3), (0, 1)] := by
  have h : ∀ a b, (a, b) ∈ [((0 : Nat), 1), (0, 2), (1, 3), (2, 3), (0, 1)] → a < b := by
    intro a b; simp only [List.mem_cons, Prod.mk.injEq, List.not_mem_nil, or_false]; omega
  intro v hv
  have : ∀ a b, Relation.TransGen (fun a b => (a, b) ∈ [((0 : Nat), 1), (0, 2), (1, 3), (2, 3), (0, 1)]) a b → a < b := by
    intro a b hab
    induction hab with
    | single h' => exact h _ _ h'
    | tail _ h' ih => exact Nat.lt_trans ih (h _ _ h')
  exact Nat.lt_irrefl _ (this v v hv)

/-- a self loop -/
example : topologicalSort [0, 1] [(0, 1), (1, 1)] (fun n : Nat => toString n) = .error .loop := by decide +kernel

end Verif.Props
