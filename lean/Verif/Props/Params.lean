import Verif.Lemmas.Params
/-
C11: the flat parameter vector is a faithful view of the components.
C57: copying a network.
-/
namespace Verif.Props
open Verif.Params Verif.Params.Spec

variable {K : Type}

/-- **C11.** Take a network whose containers hold parameter and derivative arrays of their declared sizes (anywhere in
memory, possibly shared), sort it, and let the program do anything afterwards: set the parameter vector, write single entries
through the network, through a component, or through the array it passed in, let components write their derivatives, reset
the derivatives, re-sort. If the run does not raise, the network's two vectors are what the flat specification says and each
component's arrays are the consecutive pieces of them; and the run raises exactly when the specification does. -/
theorem C11_faithful_view [Zero K] (s0 : PS K)
    (hP : (s0.compP.map (read s0.heap)).map List.length = s0.dims)
    (hD : (s0.compD.map (read s0.heap)).map List.length = s0.dims)
    (hU : s0.user.addr < s0.heap.length ∧ s0.user.off = 0 ∧ s0.user.len = (s0.heap.getD s0.user.addr []).length)
    (ops : List (Op K)) (hf : ∀ o ∈ ops, Fits s0.dims o) :
    let a0 : Abs K := ⟨(s0.compP.map (read s0.heap)).flatten, (s0.compD.map (read s0.heap)).flatten, s0.user.len, false⟩
    Shows (sortModules s0) s0.dims a0.vec a0.dvec ∧
    match runs step (sortModules s0) ops with
    | none => runs (astep s0.dims) a0 ops = none
    | some s => ∃ a, runs (astep s0.dims) a0 ops = some a ∧ Shows s s0.dims a.vec a.dvec := by
  intro a0
  have hs := sort_sim s0 hP hD ⟨s0.user.len, hU.1, hU.2.1, rfl, hU.2.2.symm⟩
  refine ⟨hs.shows, ?_⟩
  rcases sim_run ops hf hs with ⟨h1, h2⟩ | ⟨s', a', h1, h2, h3⟩
  · rw [h1]; exact h2
  · rw [h1]; exact ⟨a', h2, h3.shows⟩

/-- **C11**, the round trip: whatever happened before, after `net._setParameters(p)` the network shows `p`, the components
show the consecutive pieces of `p`, and these cover `p` without overlap. -/
theorem C11_round_trip [Zero K] (s0 : PS K)
    (hP : (s0.compP.map (read s0.heap)).map List.length = s0.dims)
    (hD : (s0.compD.map (read s0.heap)).map List.length = s0.dims)
    (hU : s0.user.addr < s0.heap.length ∧ s0.user.off = 0 ∧ s0.user.len = (s0.heap.getD s0.user.addr []).length)
    (ops : List (Op K)) (hf : ∀ o ∈ ops, Fits s0.dims o) (p : List K) (hp : p.length = s0.dims.sum) (s : PS K)
    (hr : runs step (sortModules s0) ops = some s) :
    read (setParams s p).heap (setParams s p).netP = p ∧
    (setParams s p).compP.map (read (setParams s p).heap) = pieces s0.dims p ∧
    ((setParams s p).compP.map (read (setParams s p).heap)).flatten = p := by
  have hs := sort_sim s0 hP hD ⟨s0.user.len, hU.1, hU.2.1, rfl, hU.2.2.symm⟩
  rcases sim_run ops hf hs with ⟨h1, -⟩ | ⟨s', a', h1, -, h3⟩
  · rw [hr] at h1; cases h1
  · rw [hr] at h1; cases h1
    have h4 := (h3.setParams p hp).shows
    refine ⟨h4.net, h4.comps, ?_⟩
    rw [h4.comps]; exact pieces_flatten _ _ hp

/-- three containers with 2, 1 and 3 parameters in arrays of their own -/
def paramsEx : PS Int :=
  { heap := [[1, 2], [3], [4, 5, 6], [0, 0], [0], [0, 0, 0], []]
    netP := ⟨6, 0, 0⟩, netD := ⟨6, 0, 0⟩
    compP := [⟨0, 0, 2⟩, ⟨1, 0, 1⟩, ⟨2, 0, 3⟩], compD := [⟨3, 0, 2⟩, ⟨4, 0, 1⟩, ⟨5, 0, 3⟩]
    dims := [2, 1, 3], user := ⟨6, 0, 0⟩ }

/-- The hypotheses of C11 are met, and a run with every operation succeeds. -/
example : (paramsEx.compP.map (read paramsEx.heap)).map List.length = paramsEx.dims ∧
    (paramsEx.compD.map (read paramsEx.heap)).map List.length = paramsEx.dims ∧
    (paramsEx.user.addr < paramsEx.heap.length ∧ paramsEx.user.off = 0 ∧
      paramsEx.user.len = (paramsEx.heap.getD paramsEx.user.addr []).length) ∧
    ((runs step (sortModules paramsEx)
      [.setParams [10, 20, 30, 40, 50, 60], .writeComp 1 0 7, .writeUser 5 8, .writeDeriv 2 1 9, .sort, .writeUser 0 5]).map
      fun s => (read s.heap s.netP, s.compP.map (read s.heap), read s.heap s.netD)) =
      some ([10, 20, 7, 40, 50, 8], [[10, 20], [7], [40, 50, 8]], [0, 0, 0, 0, 9, 0]) := by decide

/-- **C57**, the part that holds: the copy of any network with a history shows the same vectors and the same pieces. No later
operation on the original changes anything the copy shows, and no later operation on the copy changes anything the original
shows. (The two networks live in one heap; `{ c with heap := s'.heap }` is the copy seen after the original moved on.)
What is missing is that the copy's derivatives stay attached to its components: `C57_negation_derivatives`. -/
theorem C57_copy_independent_partial [Zero K] (s0 : PS K)
    (hP : (s0.compP.map (read s0.heap)).map List.length = s0.dims)
    (hD : (s0.compD.map (read s0.heap)).map List.length = s0.dims)
    (hU : s0.user.addr < s0.heap.length ∧ s0.user.off = 0 ∧ s0.user.len = (s0.heap.getD s0.user.addr []).length)
    (ops : List (Op K)) (hf : ∀ o ∈ ops, Fits s0.dims o) (s : PS K) (hr : runs step (sortModules s0) ops = some s) :
    ∃ vec dvec, Shows s s0.dims vec dvec ∧ Shows (copy s) s0.dims vec dvec ∧
      (∀ (later : List (Op K)) (s' : PS K), runs step { s with heap := (copy s).heap } later = some s' →
        Shows { copy s with heap := s'.heap } s0.dims vec dvec) ∧
      (∀ (later : List (Op K)) (c' : PS K), runs step (copy s) later = some c' →
        Shows { s with heap := c'.heap } s0.dims vec dvec) := by
  have hs := sort_sim s0 hP hD ⟨s0.user.len, hU.1, hU.2.1, rfl, hU.2.2.symm⟩
  rcases sim_run ops hf hs with ⟨h1, -⟩ | ⟨s', a', h1, -, h3⟩
  · rw [hr] at h1; cases h1
  · rw [hr] at h1; cases h1
    obtain ⟨c1, c2, -, -, -, c6⟩ := copy_spec h3
    have hlen := c2.length
    refine ⟨a'.vec, a'.dvec, h3.shows, c1, ?_, ?_⟩
    · intro later s' hl
      have hav : Avoids s.heap.length (copy s).heap.length { s with heap := (copy s).heap } :=
        ⟨Nat.le_refl _, fun v hv => by have := h3.inHeap v hv; omega⟩
      exact shows_of_same c1 c6 (runs_avoids later hav hl).2
    · intro later c' hl
      have hav : Avoids 0 s.heap.length (copy s) :=
        ⟨hlen, fun v hv => by have := c6 v hv; omega⟩
      refine shows_of_same h3.shows (lo := 0) (hi := s.heap.length) (fun v hv => ⟨Nat.zero_le _, h3.inHeap v hv⟩) ?_
      refine sameOn_trans (h2 := (copy s).heap) ?_ (runs_avoids later hav hl).2
      intro a _ ha
      obtain ⟨t, ht⟩ := c2
      rw [ht]
      simp [List.getD_eq_getElem?_getD, List.getElem?_append_left ha]

/-- **C57** is false for derivatives: in a copy, what a component's backward pass writes into its derivatives does not
show in the network's derivative vector, which is what the trainers read. (In the original it does.) -/
theorem C57_negation_derivatives :
    ((step (copy (sortModules paramsEx)) (.writeDeriv 1 0 5)).map fun s => (read s.heap s.netD, s.compD.map (read s.heap)))
      = some ([0, 0, 0, 0, 0, 0], [[0, 0], [5], [0, 0, 0]]) ∧
    ((step (sortModules paramsEx) (.writeDeriv 1 0 5)).map fun s => (read s.heap s.netD, s.compD.map (read s.heap)))
      = some ([0, 0, 5, 0, 0, 0], [[0, 0], [5], [0, 0, 0]]) := by decide

/-- The hypotheses of C57 are met by a run that changes something after the copy. -/
example : ((runs step { sortModules paramsEx with heap := (copy (sortModules paramsEx)).heap } [.writeComp 0 1 9]).map
    fun s => (read s.heap s.netP, read s.heap (copy (sortModules paramsEx)).netP)) =
    some ([1, 9, 3, 4, 5, 6], [1, 2, 3, 4, 5, 6]) := by decide

end Verif.Props
