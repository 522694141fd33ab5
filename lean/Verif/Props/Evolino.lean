import Verif.Lemmas.Evolino
import Mathlib.Order.Nat
import Mathlib.Algebra.Order.Ring.Nat
/-
C47: populations keep individuals and fitness consistent, and remove exactly the worst.
C70: selection and reproduction of the Evolino sub-populations.
C71: assembly and evaluation of the Evolino population.
-/
namespace Verif.Props

open Verif.Evolino Verif.Evolino.Spec
open Verif.DataSet (Err)
open Verif.Py (dget)

section
variable {α F : Type} [DecidableEq α] [LinearOrder F] [OrderBot F]

/-- C47: after any history in which fitness is only assigned to present individuals, the set of
individuals and the keys of the fitness table are the same, without repetitions. -/
theorem C47_consistent (ops : List (Op α F)) (h : Proper (empty : Pop α F) ops) :
    Consistent (run (empty : Pop α F) ops) :=
  run_consistent ops _ ⟨List.nodup_nil, List.nodup_nil, by simp [empty]⟩ h

/-- C47: `removeWorstIndividuals(n)` with `n ≥ 1` succeeds and leaves the `max(N - n, 0)` fittest
individuals with their fitness. -/
theorem C47_remove_worst_partial (p : Pop α F) (h : Consistent p) (n : Nat) (hn : 1 ≤ n) :
    ∃ q, removeWorst p n = .ok q ∧ Consistent q ∧ Fittest (size p - n) p q := by
  obtain ⟨q, h1, h2, h3⟩ := removeList_fittest p h ((sortedList p).length - n)
  refine ⟨q, ?_, h2, ?_⟩
  · rw [removeWorst, worst_eq p n hn]; exact h1
  · rw [sortedList_length p h, Nat.min_eq_left (Nat.sub_le _ _)] at h3; exact h3

/-- C47: `removeWorstIndividuals(0)` removes everybody. -/
theorem C47_negation_zero (p : Pop α F) (h : Consistent p) :
    ∃ q, removeWorst p 0 = .ok q ∧ size q = 0 := by
  obtain ⟨q, h1, h2, h3⟩ := removeList_fittest p h 0
  refine ⟨q, ?_, ?_⟩
  · rw [removeWorst, worst_zero]; simpa using h1
  · have := h3.2.1; rw [Nat.zero_min] at this; exact this

/-- C47: the sorted list is a rearrangement of the population by decreasing fitness, and
`getBestIndividualsSorted(n)` is its beginning. -/
theorem C47_sorted (p : Pop α F) (h : Consistent p) (n : Nat) :
    (sortedList p).Perm p.individuals ∧
    (sortedList p).Pairwise (fun a b => ∀ fa fb : F, dget p.fitness a = some fa → dget p.fitness b = some fb → fb ≤ fa) ∧
    best p n = (sortedList p).take n := by
  refine ⟨(sortedList_perm p).trans (consistent_perm p h).symm, ?_, rfl⟩
  refine (sortedList_sorted p).imp ?_
  intro a b hab fa fb ha hb
  rwa [fitOf_eq p a fa ha, fitOf_eq p b fb hb] at hab

/-- C47: removing an individual that is not there raises `KeyError`. -/
theorem C47_remove_absent (p : Pop α F) (h : Consistent p) (a : α) (ha : a ∉ p.individuals) : remove p a = .error .keyError := by
  unfold remove
  rw [if_neg]
  rw [dget_isSome, ← h.2.2 a]
  exact ha

end

/-- C47: assigning a fitness to an absent individual makes table and set disagree: the sorted list then
contains somebody who is not in the population. -/
theorem C47_negation_absent_fitness :
    ¬ Consistent (run (empty : Pop Nat Nat) [.add 1, .setFitness 2 7]) ∧
    sortedList (run (empty : Pop Nat Nat) [.add 1, .setFitness 2 7]) = [2, 1] ∧
    (run (empty : Pop Nat Nat) [.add 1, .setFitness 2 7]).individuals = [1] := by
  refine ⟨?_, by decide +kernel, by decide +kernel⟩
  intro h
  have := (h.2.2 2).2 (by decide +kernel)
  revert this
  decide +kernel

namespace Evolino

/-- four individuals with fitness 3, 9, 1, 4 -/
def fourPop : Pop Nat Nat := run empty [.add 10, .add 11, .add 12, .add 13, .setFitness 10 3, .setFitness 11 9, .setFitness 12 1, .setFitness 13 4]

theorem fourPop_proper : Proper (empty : Pop Nat Nat) [.add 10, .add 11, .add 12, .add 13, .setFitness 10 3, .setFitness 11 9, .setFitness 12 1, .setFitness 13 4] := by
  simp [Proper, step, Evolino.add, empty, setFitness]

theorem fourPop_consistent : Consistent fourPop := C47_consistent _ fourPop_proper

end Evolino

example : (removeWorst Evolino.fourPop 2).toOption.map (fun q => (q.individuals, q.fitness)) = some ([11, 13], [(11, 9), (13, 4)]) := by
  decide +kernel
example : ∃ q, removeWorst Evolino.fourPop 2 = .ok q ∧ Consistent q ∧ Fittest 2 Evolino.fourPop q :=
  C47_remove_worst_partial _ Evolino.fourPop_consistent 2 (by decide)
example : ∃ q, removeWorst Evolino.fourPop 0 = .ok q ∧ size q = 0 := C47_negation_zero _ Evolino.fourPop_consistent

/-! ### C70 -/

section
variable {F G : Type} [LinearOrder F] [OrderBot F]

/-- C70: selection with `nParents = k` smaller than the population keeps the `k` fittest; the default
keeps a quarter. -/
theorem C70_selection_partial {α : Type} [DecidableEq α] (p : Pop α F) (h : Consistent p) :
    (∀ k : Nat, k < size p → ∃ q, subSelection (some (k : Int)) p = .ok q ∧ Consistent q ∧ Fittest k p q) ∧
    (0 < size p → ∃ q, subSelection none p = .ok q ∧ Consistent q ∧ Fittest (size p / 4) p q) ∧
    (∀ k : Int, k < 0 ∨ (size p : Int) < k → subSelection (some k) p = .error .assertion) := by
  refine ⟨?_, ?_, ?_⟩
  · intro k hk
    obtain ⟨q, h1, h2, h3⟩ := C47_remove_worst_partial p h (size p - k) (by omega)
    refine ⟨q, ?_, h2, ?_⟩
    · unfold subSelection
      simp only [Int.toNat_natCast]
      rw [if_neg (by omega), if_neg (by omega)]; exact h1
    · rwa [show size p - (size p - k) = k by omega] at h3
  · intro hpos
    obtain ⟨q, h1, h2, h3⟩ := C47_remove_worst_partial p h (size p - size p / 4) (by omega)
    refine ⟨q, ?_, h2, ?_⟩
    · unfold subSelection
      simp only [Int.toNat_natCast]
      rw [if_neg (by omega), if_neg (by omega)]; exact h1
    · rwa [show size p - (size p - size p / 4) = size p / 4 by omega] at h3
  · intro k hk
    unfold subSelection
    dsimp only
    by_cases h0 : k < 0
    · rw [if_pos h0]
    · rw [if_neg h0, if_pos (by omega)]

/-- C70: asking selection to keep everybody removes everybody. -/
theorem C70_negation_keep_all {α : Type} [DecidableEq α] (p : Pop α F) (h : Consistent p) :
    ∃ q, subSelection (some (size p : Int)) p = .ok q ∧ size q = 0 := by
  obtain ⟨q, h1, h2⟩ := C47_negation_zero p h
  refine ⟨q, ?_, h2⟩
  unfold subSelection
  dsimp only
  rw [if_neg (by omega), if_neg (by omega), Int.toNat_natCast, Nat.sub_self]
  exact h1

/-- C70: reproduction from a non-empty population (whose identities are older than the supply of new
ones) terminates with a full, consistent population.  Everybody stays, with fitness and genome; the `j`-th
newcomer has no fitness yet and carries the mutated genome of parent number `j mod #parents`, where the
parents are the fittest individuals in decreasing order. -/
theorem C70_reproduction (maxN fuel : Nat) (mutate : Nat → G → G) (w : World F G) (h : Consistent w.pop) (hold : ∀ i ∈ w.pop.individuals, i < w.next)
    (hpos : 0 < size w.pop) (hle : size w.pop ≤ maxN) (hfuel : maxN - size w.pop < fuel) :
    ∃ w', subReproduction maxN mutate fuel w = some (.ok w') ∧ Consistent w'.pop ∧ size w'.pop = maxN ∧
      (∀ i ∈ w.pop.individuals, i ∈ w'.pop.individuals ∧ dget w'.pop.fitness i = dget w.pop.fitness i ∧ w'.genome i = w.genome i) ∧
      (∀ i ∈ w'.pop.individuals, i ∈ w.pop.individuals ∨ ∃ j < maxN - size w.pop, i = w.next + j) ∧
      (∀ j < maxN - size w.pop, ∃ parent, (best w.pop (maxN - size w.pop))[j % min (maxN - size w.pop) (size w.pop)]? = some parent ∧
        w.next + j ∈ w'.pop.individuals ∧ dget w'.pop.fitness (w.next + j) = some ⊥ ∧ w'.genome (w.next + j) = mutate j (w.genome parent)) ∧
      (∀ i ∈ w'.pop.individuals, i < w'.next) := by
  have hlen : (best w.pop (maxN - size w.pop)).length = min (maxN - size w.pop) (size w.pop) := by
    rw [best, List.length_take, sortedList_length _ h]
  have hloop : cloneLoop (maxN - size w.pop) (best w.pop (maxN - size w.pop)) fuel w.next [] =
      some (w.next + (maxN - size w.pop), kids (best w.pop (maxN - size w.pop)) w.next (maxN - size w.pop)) := by
    by_cases hb : best w.pop (maxN - size w.pop) = []
    · have hz : maxN - size w.pop = 0 := by
        rw [hb] at hlen; simp at hlen; omega
      rw [hb, hz]
      cases fuel with
      | zero => omega
      | succ fuel => simp [cloneLoop, kids]
    · have := cloneLoop_kids (maxN - size w.pop) _ hb w.next fuel 0 (Nat.zero_le _) (Or.inl (Nat.zero_mod _)) (by omega)
      simpa [kids] using this
  have hnew : ∀ a ∈ (kids (best w.pop (maxN - size w.pop)) w.next (maxN - size w.pop)).map Prod.fst, w.next ≤ a := by
    rw [kids_fst]; intro a ha
    rw [List.mem_map] at ha
    obtain ⟨j, _, rfl⟩ := ha
    omega
  have hnd : ((kids (best w.pop (maxN - size w.pop)) w.next (maxN - size w.pop)).map Prod.fst).Nodup := by
    rw [kids_fst]
    exact List.Nodup.map (fun a b hab => by simpa using hab) List.nodup_range
  obtain ⟨a1, a2⟩ := addAll_fresh _ w.pop hnd (fun a ha hm => absurd (hold a hm) (by have := hnew a ha; omega))
    (fun a ha hm => absurd (hold a ((h.2.2 a).2 hm)) (by have := hnew a ha; omega))
  have hsize : size (addAll w.pop ((kids (best w.pop (maxN - size w.pop)) w.next (maxN - size w.pop)).map Prod.fst)) = maxN := by
    rw [size, a1, List.length_append, kids_fst, List.length_map, List.length_range]
    unfold size at hle ⊢
    omega
  refine ⟨_, by unfold subReproduction; dsimp only; rw [if_pos hle, hloop]; dsimp only; rw [if_pos hsize], ?_⟩
  refine ⟨addAll_consistent _ _ h, hsize, ?_, ?_, ?_, ?_⟩
  · intro i hi
    have hlt := hold i hi
    refine ⟨?_, ?_, ?_⟩
    · dsimp only; rw [a1]; exact List.mem_append_left _ hi
    · dsimp only
      rw [a2, if_neg]
      intro hm
      have := hnew i hm
      omega
    · dsimp only
      rw [kids_find_none _ _ _ _ hlt]
  · intro i hi
    dsimp only at hi
    rw [a1, List.mem_append, kids_fst, List.mem_map] at hi
    rcases hi with hi | ⟨j, hj, rfl⟩
    · exact Or.inl hi
    · exact Or.inr ⟨j, List.mem_range.1 hj, rfl⟩
  · intro j hj
    have hmod : j % min (maxN - size w.pop) (size w.pop) < (best w.pop (maxN - size w.pop)).length := by
      rw [hlen]; exact Nat.mod_lt _ (by omega)
    have hmem : w.next + j ∈ (kids (best w.pop (maxN - size w.pop)) w.next (maxN - size w.pop)).map Prod.fst := by
      rw [kids_fst, List.mem_map]; exact ⟨j, List.mem_range.2 hj, rfl⟩
    refine ⟨_, List.getElem?_eq_getElem hmod, ?_, ?_, ?_⟩
    · dsimp only; rw [a1]; exact List.mem_append_right _ hmem
    · dsimp only; rw [a2, if_pos hmem]
    · dsimp only
      rw [kids_find _ _ _ _ hj]
      dsimp only
      rw [hlen, List.getElem?_eq_getElem hmod]
      simp
  · intro i hi
    dsimp only at hi ⊢
    rw [a1, List.mem_append, kids_fst, List.mem_map] at hi
    rcases hi with hi | ⟨j, hj, rfl⟩
    · have := hold i hi; omega
    · have := List.mem_range.1 hj; omega

/-- C70: with no survivor, reproduction never ends, whatever the fuel. -/
theorem C70_negation_diverges (maxN : Nat) (hN : 0 < maxN) (mutate : Nat → G → G) (w : World F G) (h : Consistent w.pop) (h0 : size w.pop = 0) :
    ∀ fuel, subReproduction maxN mutate fuel w = none := by
  intro fuel
  have hb : best w.pop maxN = [] := by
    have := sortedList_length w.pop h
    rw [h0, List.length_eq_zero_iff] at this
    rw [best, this, List.take_nil]
  unfold subReproduction
  dsimp only
  rw [h0, if_pos (Nat.zero_le _), Nat.sub_zero, hb, cloneLoop_none maxN hN]

/-- C70: hence one generation with the default selection never ends when the sub-populations have
fewer than four members. -/
theorem C70_negation_small (maxN : Nat) (mutate : Nat → G → G) (w : World F G) (h : Consistent w.pop) (hs : size w.pop = maxN) (h1 : 0 < maxN) (h4 : maxN < 4) :
    ∃ q, subSelection none w.pop = .ok q ∧ ∀ fuel, subReproduction maxN mutate fuel { w with pop := q } = none := by
  obtain ⟨q, g1, g2, g3⟩ := (C70_selection_partial w.pop h).2.1 (by omega)
  refine ⟨q, g1, C70_negation_diverges maxN h1 mutate _ g2 ?_⟩
  have := g3.2.1
  show q.individuals.length = 0
  omega

/-- C70: one generation (selection, then reproduction) with at least four members restores the size,
keeps the best quarter and terminates. -/
theorem C70_generation (maxN fuel : Nat) (mutate : Nat → G → G) (w : World F G) (h : Consistent w.pop) (hold : ∀ i ∈ w.pop.individuals, i < w.next)
    (hs : size w.pop = maxN) (h4 : 4 ≤ maxN) (hfuel : maxN < fuel) :
    ∃ q w', subSelection none w.pop = .ok q ∧ Fittest (maxN / 4) w.pop q ∧
      subReproduction maxN mutate fuel { w with pop := q } = some (.ok w') ∧ Consistent w'.pop ∧ size w'.pop = maxN ∧
      (∀ i ∈ q.individuals, i ∈ w'.pop.individuals ∧ dget w'.pop.fitness i = dget w.pop.fitness i ∧ w'.genome i = w.genome i) ∧
      (∀ i ∈ w'.pop.individuals, i < w'.next) := by
  obtain ⟨q, g1, g2, g3⟩ := (C70_selection_partial w.pop h).2.1 (by omega)
  have hq : size q = maxN / 4 := by rw [size, g3.2.1, hs]
  obtain ⟨w', k1, k2, k3, k4, _, _, k7⟩ := C70_reproduction maxN fuel mutate { w with pop := q } g2
    (fun i hi => hold i (g3.1.subset hi)) (by show 0 < size q; omega) (by show size q ≤ maxN; omega) (by show maxN - size q < fuel; omega)
  refine ⟨q, w', g1, by rw [← hs]; exact g3, k1, k2, k3, ?_, k7⟩
  intro i hi
  obtain ⟨m1, m2, m3⟩ := k4 i hi
  exact ⟨m1, m2.trans (g3.2.2.1 i hi), m3⟩

/-- C70: burst mutation of a sub-population with at least two members keeps one fittest individual and
refills the population with mutations of it. -/
theorem C70_burst (maxN fuel : Nat) (mutate : Nat → G → G) (w : World F G) (h : Consistent w.pop) (hold : ∀ i ∈ w.pop.individuals, i < w.next)
    (h2 : 2 ≤ size w.pop) (hle : size w.pop ≤ maxN) (hfuel : maxN < fuel) :
    ∃ b w', burst maxN mutate fuel w = some (.ok w') ∧ Consistent w'.pop ∧ size w'.pop = maxN ∧
      b ∈ w.pop.individuals ∧ b ∈ w'.pop.individuals ∧ w'.genome b = w.genome b ∧
      (∀ i ∈ w.pop.individuals, ∀ fb fi : F, dget w.pop.fitness b = some fb → dget w.pop.fitness i = some fi → fi ≤ fb) ∧
      (∀ i ∈ w'.pop.individuals, i = b ∨ ∃ j, w'.genome i = mutate j (w.genome b)) := by
  obtain ⟨q, g1, g2, g3⟩ := C47_remove_worst_partial w.pop h (size w.pop - 1) (by omega)
  rw [show size w.pop - (size w.pop - 1) = 1 by omega] at g3
  obtain ⟨b, hb⟩ := List.length_eq_one_iff.1 g3.2.1
  have hq : size q = 1 := g3.2.1
  obtain ⟨w', k1, k2, k3, k4, k5, k6, _⟩ := C70_reproduction maxN fuel mutate { w with pop := q } g2
    (fun i hi => hold i (g3.1.subset hi)) (by show 0 < size q; omega) (by show size q ≤ maxN; omega) (by show maxN - size q < fuel; omega)
  have hbq : b ∈ q.individuals := by rw [hb]; simp
  refine ⟨b, w', ?_, k2, k3, g3.1.subset hbq, (k4 b hbq).1, (k4 b hbq).2.2, ?_, ?_⟩
  · unfold burst; rw [g1]; exact k1
  · intro i hi fb fi hfb hfi
    by_cases hib : i ∈ q.individuals
    · rw [hb, List.mem_singleton] at hib
      subst hib
      rw [hfb] at hfi; cases hfi; exact le_refl _
    · exact g3.2.2.2 b hbq i hi hib fb fi hfb hfi
  · intro i hi
    rcases k5 i hi with hi | ⟨j, hj, rfl⟩
    · left
      have : i ∈ q.individuals := hi
      rw [hb, List.mem_singleton] at this
      exact this
    · right
      obtain ⟨parent, m1, _, _, m4⟩ := k6 j hj
      refine ⟨j, ?_⟩
      rw [m4]
      have hp : parent ∈ q.individuals := by
        have := List.mem_of_getElem? m1
        have := List.take_subset _ _ this
        exact (g2.2.2 parent).2 ((sortedList_perm q).mem_iff.1 this)
      rw [hb, List.mem_singleton] at hp
      rw [hp]

end

/-- a world with the population above -/
def Evolino.fourWorld : World Nat Int := { pop := Evolino.fourPop, genome := fun i => (i : Int) * 100, next := 14 }

example : (∀ i ∈ Evolino.fourWorld.pop.individuals, i < Evolino.fourWorld.next) ∧ size Evolino.fourWorld.pop = 4 := by decide +kernel
example : ((subReproduction 7 (fun j (g : Int) => g + j) 10 { Evolino.fourWorld with pop := (removeWorst Evolino.fourPop 2).toOption.getD empty }).bind
    (fun r => r.toOption.map (fun w => (w.pop.individuals, w.pop.individuals.map w.genome, w.next)))) =
    some ([11, 13, 14, 15, 16, 17, 18], [1100, 1300, 1100, 1301, 1102, 1303, 1104], 19) := by decide +kernel
example : ((burst 4 (fun j (g : Int) => g + j) 10 Evolino.fourWorld).bind (fun r => r.toOption.map (fun w => (w.pop.individuals, w.pop.individuals.map w.genome)))) =
    some ([11, 14, 15, 16], [1100, 1100, 1101, 1102]) := by decide +kernel

/-! ### C71 -/

section
variable {α F : Type} [DecidableEq α] [LinearOrder F] [OrderBot F]

/-- C71: whatever the random choices, assembling `c` combinations from sub-populations of equal size
`n` gives `c * n` individuals with one component from each sub-population, and each member of each
sub-population is used exactly `c` times. -/
theorem C71_assembly (pick : Nat → Nat → Nat) (n c : Nat) (subs : List (List α)) (hne : subs ≠ []) (h : ∀ l ∈ subs, l.length = n) :
    ∃ cs, getIndividuals pick subs c 0 = .ok cs ∧ cs.length = c * n ∧ (∀ x ∈ cs, x.length = subs.length) ∧
      ∀ (i : Nat) (l : List α), subs[i]? = some l → ∀ a, (column i cs).count a = c * l.count a := by
  obtain ⟨cs, h1, h2, h3, h4⟩ := getIndividuals_ok pick n subs hne h c 0
  refine ⟨cs, h1, h2, h3, ?_⟩
  intro i l hl a
  rw [(h4 i l hl).count_eq]
  clear h1 h2 h3 h4
  induction c with
  | zero => simp
  | succ c ih => rw [List.replicate_succ, List.flatten_cons, List.count_append, ih]; ring_nf

/-- C71: after an evaluation each sub-individual's fitness is the best fitness reached by an individual
that contains it (and `-Infinity` if none does). -/
theorem C71_fitness (ps : List (Pop α F)) (hc : ∀ p ∈ ps, Consistent p) (evaluated : List (List α × F))
    (hlen : ∀ e ∈ evaluated, e.1.length = ps.length)
    (hmem : ∀ e ∈ evaluated, ∀ (i : Nat) (p : Pop α F) (a : α), ps[i]? = some p → e.1[i]? = some a → a ∈ p.individuals) :
    ∃ qs, evaluate ps evaluated = .ok qs ∧ qs.length = ps.length ∧
      ∀ (i : Nat) (p : Pop α F), ps[i]? = some p → ∃ q, qs[i]? = some q ∧ q.individuals = p.individuals ∧
        ∀ a ∈ p.individuals, ∃ f : F, dget q.fitness a = some f ∧
          (∀ e ∈ evaluated, e.1[i]? = some a → e.2 ≤ f) ∧
          (f = ⊥ ∨ ∃ e ∈ evaluated, e.1[i]? = some a ∧ e.2 = f) := by
  have hclear : ∀ (p : Pop α F), Consistent p → ∀ a ∈ p.individuals, dget (clearFitness p).fitness a = some ⊥ := by
    intro p hp a ha
    have hs := (dget_isSome p.fitness a).2 ((hp.2.2 a).1 ha)
    simp only [clearFitness]
    have := Py.dget_map p.fitness (fun _ _ => (⊥ : F)) a
    rw [this]
    cases hd : dget p.fitness a with
    | none => rw [hd] at hs; cases hs
    | some x => rfl
  have hget : ∀ (i : Nat) (p' : Pop α F), (ps.map clearFitness)[i]? = some p' → ∃ p, ps[i]? = some p ∧ p' = clearFitness p := by
    intro i p' hp'
    rw [List.getElem?_map] at hp'
    cases hp : ps[i]? with
    | none => rw [hp] at hp'; cases hp'
    | some p => rw [hp] at hp'; cases hp'; exact ⟨p, rfl, rfl⟩
  obtain ⟨qs, h1, h2, h3⟩ := evaluateLoop_ok evaluated (ps.map clearFitness)
    (fun e he => by rw [List.length_map, hlen e he])
    (by
      intro e he i p' a hp' ha
      obtain ⟨p, hp, rfl⟩ := hget i p' hp'
      rw [hclear p (hc p (List.mem_of_getElem? hp)) a (hmem e he i p a hp ha)]; rfl)
  refine ⟨qs, h1, by rw [h2, List.length_map], ?_⟩
  intro i p hp
  obtain ⟨q, k1, k2, k3⟩ := h3 i (clearFitness p) (by rw [List.getElem?_map, hp]; rfl)
  refine ⟨q, k1, k2, ?_⟩
  intro a ha
  obtain ⟨r1, r2, r3⟩ := reached_spec i a evaluated (⊥ : F)
  exact ⟨reached i a evaluated ⊥, by rw [k3, hclear p (hc p (List.mem_of_getElem? hp)) a ha]; rfl, r2, r3⟩

/-- C71: the network is left with the genome of an individual of largest fitness, and `max_fitness` is
that fitness, as soon as one fitness is above `-Infinity`. -/
theorem C71_best (evaluated : List (List α × F)) (h : ∃ e ∈ evaluated, ⊥ < e.2) :
    ∃ c f, bestOf evaluated (none, ⊥) = (some c, f) ∧ (c, f) ∈ evaluated ∧ ∀ e ∈ evaluated, e.2 ≤ f := by
  obtain ⟨h1, h2, h3⟩ := bestOf_spec evaluated (none, (⊥ : F))
  obtain ⟨e, he, hlt⟩ := h
  rcases h3 with h3 | ⟨c, h4, h5⟩
  · exfalso
    have := h2 e he
    rw [h3] at this
    exact absurd hlt (not_lt.2 this)
  · exact ⟨c, (bestOf evaluated (none, ⊥)).2, by rw [← h4], h5, h2⟩

end

/-- C71: with sub-populations of different sizes the assembly fails with `ValueError` as soon as a
later one is smaller than the first. -/
theorem C71_negation_sizes : getIndividuals (fun _ _ => 0) [[1, 2], [3]] 1 0 = .error .valueError := by decide +kernel

example : (getIndividuals (fun t _ => t) [[1, 2, 3], [4, 5, 6]] 2 0).toOption = some [[1, 5], [2, 6], [3, 4], [1, 5], [2, 6], [3, 4]] := by decide +kernel
example : ∀ l ∈ [[1, 2, 3], [4, 5, 6]], l.length = 3 := by decide
example : ((evaluate [run empty [.add 1, .add 2], run empty [.add 3, .add 4]] [([1, 3], 5), ([2, 4], 8), ([1, 4], 6)]).toOption.map
    (fun qs => qs.map Pop.fitness)) = some [[((1 : Nat), (6 : Nat)), (2, 8)], [(3, 5), (4, 8)]] := by decide +kernel

end Verif.Props
