import Verif.Model.ES
import Mathlib.Data.List.Flatten
import Mathlib.Algebra.Order.Ring.Int
import Mathlib.Tactic.Linarith
/-
C80: evolution strategies: sizes, order, heredity, elitism, hall of fame, number of evaluations.
-/
namespace Verif.ES
open Verif.DataSet (Err)

variable {X K : Type} [LinearOrder K]

theorem replaceFrom_spec (f : Nat → X → K) (mutate : Nat → X → X) : ∀ (k a : Nat) (s : State X K), a + k ≤ s.population.length →
    (replaceFrom f mutate a k s).hallOfFame = s.hallOfFame ∧ (replaceFrom f mutate a k s).numEvaluations = s.numEvaluations + k ∧
    (replaceFrom f mutate a k s).population.length = s.population.length ∧
    ∀ i, (replaceFrom f mutate a k s).population[i]? = if a ≤ i ∧ i < a + k then
      s.population[i]?.map (fun p => (f (s.numEvaluations + (i - a)) (mutate i p.2), mutate i p.2)) else s.population[i]?
  | 0, a, s, _ => by
    refine ⟨rfl, rfl, rfl, fun i => ?_⟩
    rw [if_neg (by omega)]; rfl
  | k + 1, a, s, h => by
    have ha : a < s.population.length := by omega
    rw [replaceFrom, List.getElem?_eq_getElem ha]
    dsimp only
    obtain ⟨h1, h2, h3, h4⟩ := replaceFrom_spec f mutate k (a + 1) { s with
      population := s.population.set a (f s.numEvaluations (mutate a s.population[a].2), mutate a s.population[a].2)
      numEvaluations := s.numEvaluations + 1 } (by simp; omega)
    refine ⟨h1, by rw [h2]; dsimp only; omega, by rw [h3]; simp, fun i => ?_⟩
    rw [h4 i]
    dsimp only
    by_cases hi : i = a
    · subst hi
      rw [if_neg (by omega), if_pos (by omega), List.getElem?_set_self ha, List.getElem?_eq_getElem ha]
      simp
    · rw [List.getElem?_set_ne (by omega)]
      by_cases hi2 : a + 1 ≤ i ∧ i < a + 1 + k
      · rw [if_pos hi2, if_pos (by omega), show s.numEvaluations + 1 + (i - (a + 1)) = s.numEvaluations + (i - a) by omega]
      · rw [if_neg hi2, if_neg (by omega)]

theorem reevaluate_spec (f : Nat → X → K) : ∀ (k a : Nat) (s : State X K), a + k ≤ s.population.length →
    (reevaluate f a k s).hallOfFame = s.hallOfFame ∧ (reevaluate f a k s).numEvaluations = s.numEvaluations + k ∧
    (reevaluate f a k s).population.map Prod.snd = s.population.map Prod.snd
  | 0, a, s, _ => ⟨rfl, rfl, rfl⟩
  | k + 1, a, s, h => by
    have ha : a < s.population.length := by omega
    rw [reevaluate, List.getElem?_eq_getElem ha]
    dsimp only
    obtain ⟨h1, h2, h3⟩ := reevaluate_spec f k (a + 1) { s with
      population := s.population.set a (f s.numEvaluations s.population[a].2, s.population[a].2), numEvaluations := s.numEvaluations + 1 } (by simp; omega)
    refine ⟨h1, by rw [h2]; dsimp only; omega, ?_⟩
    rw [h3]
    refine List.ext_getElem (by simp) fun i h1 h2 => ?_
    simp only [List.getElem_map, List.getElem_set]
    split_ifs with hi
    · subst hi; rfl
    · rfl

/-- Sorted by decreasing fitness. -/
def Best (pop : List (K × X)) : Prop := pop.Pairwise (fun a b => b.1 ≤ a.1)

theorem sort_spec (c : Config) (shuffle : List (K × X) → List (K × X)) (hs : ∀ l, (shuffle l).Perm l) (b : Bool) (s : State X K)
    (hne : s.population ≠ []) : ∃ s', sortPopulation c shuffle b s = .ok s' ∧ s'.population.Perm s.population ∧ Best s'.population ∧
      s'.numEvaluations = s.numEvaluations ∧
      s'.hallOfFame = s.hallOfFame ++ if c.storeHallOfFame && !b then (s'.population.head?.map Prod.snd).toList else [] := by
  have hperm : ((shuffle s.population).insertionSort (fun a b => b.1 ≤ a.1)).Perm s.population := (List.perm_insertionSort _ _).trans (hs _)
  have hsort : Best ((shuffle s.population).insertionSort (fun a b => b.1 ≤ a.1)) := by
    have : Std.Total (fun a b : K × X => b.1 ≤ a.1) := ⟨fun a b => le_total b.1 a.1⟩
    have : IsTrans (K × X) (fun a b => b.1 ≤ a.1) := ⟨fun a b c h1 h2 => le_trans h2 h1⟩
    exact List.pairwise_insertionSort _ _
  unfold sortPopulation
  dsimp only
  by_cases hc : (c.storeHallOfFame && !b) = true
  · rw [if_pos hc]
    cases hp : (shuffle s.population).insertionSort (fun a b => b.1 ≤ a.1) with
    | nil => rw [hp] at hperm; exact absurd hperm.symm.eq_nil hne
    | cons p ps =>
      rw [hp] at hperm hsort
      exact ⟨_, rfl, hperm, hsort, rfl, by simp [hc]⟩
  · rw [if_neg hc]
    exact ⟨_, rfl, hperm, hsort, rfl, by simp [hc]⟩

theorem flatten_replicate_get (l : List α) (q i : Nat) (h : l ≠ []) (hi : i < q * l.length) :
    (List.replicate q l).flatten[i]? = l[i % l.length]? := by
  induction q generalizing i with
  | zero => omega
  | succ q ih =>
    rw [List.replicate_succ, List.flatten_cons]
    have hl : 0 < l.length := List.length_pos_iff.2 h
    by_cases hlt : i < l.length
    · rw [List.getElem?_append_left hlt, Nat.mod_eq_of_lt hlt]
    · rw [List.getElem?_append_right (by omega), ih (i - l.length) (by rw [Nat.succ_mul] at hi; omega)]
      rw [← Nat.mod_eq_sub_mod (by omega)]

/-- The offspring of one generation: mutant `i` descends from parent `i % mu`; the evaluations are numbered from `n` on. -/
def offspring (c : Config) (f : Nat → X → K) (mutate : Nat → X → X) (parents : List (K × X)) (n : Nat) : List (K × X) :=
  (List.range c.lambada).filterMap fun i =>
    (parents[i % c.mu]?).map fun p => let x := mutate ((if c.elitism then c.mu else 0) + i) p.2; (f (n + i) x, x)

/-- What `_learnStep` does, when it is a valid configuration and integers are divided as integers. -/
theorem learnStep_spec (c : Config) (f : Nat → X → K) (mutate : Nat → X → X) (shuffle1 shuffle2 : List (K × X) → List (K × X))
    (hs1 : ∀ l, (shuffle1 l).Perm l) (hs2 : ∀ l, (shuffle2 l).Perm l) (s : State X K)
    (hmu : 0 < c.mu) (hdvd : c.lambada % c.mu = 0) (hla : 0 < c.lambada) (hd : c.trueDivision = false) (hlen : s.population.length = popsize c) :
    ∃ parents s', learnStep c f mutate shuffle1 shuffle2 s = .ok s' ∧ parents.length = c.mu ∧
      (c.evaluatorIsNoisy = false → parents = s.population.take c.mu) ∧
      s'.population.Perm ((if c.elitism then parents else []) ++ offspring c f mutate parents (s.numEvaluations + if c.evaluatorIsNoisy then c.mu else 0)) ∧
      s'.population.length = popsize c ∧ Best s'.population ∧
      s'.numEvaluations = s.numEvaluations + (if c.evaluatorIsNoisy then c.mu else 0) + c.lambada ∧
      s'.hallOfFame = s.hallOfFame ++ (if c.storeHallOfFame then (s'.population.head?.map Prod.snd).toList else []) := by
  have hmule : c.mu ≤ popsize c := by
    unfold popsize
    split_ifs
    · omega
    · exact Nat.le_of_dvd hla (Nat.dvd_of_mod_eq_zero hdvd)
  -- the state after the re-evaluation
  obtain ⟨s1, e1, l1, n1, hh1, hno⟩ : ∃ s1, (if c.evaluatorIsNoisy then sortPopulation c shuffle1 true (reevaluate f 0 c.mu s) else .ok s) = Except.ok s1 ∧
      s1.population.length = popsize c ∧ s1.numEvaluations = s.numEvaluations + (if c.evaluatorIsNoisy then c.mu else 0) ∧
      s1.hallOfFame = s.hallOfFame ∧ (c.evaluatorIsNoisy = false → s1 = s) := by
    cases hn : c.evaluatorIsNoisy with
    | false => exact ⟨s, by simp, hlen, by simp, rfl, fun _ => rfl⟩
    | true =>
      obtain ⟨r1, r2, r3⟩ := reevaluate_spec f c.mu 0 s (by omega)
      have hl : (reevaluate f 0 c.mu s).population.length = popsize c := by
        have := congrArg List.length r3
        simp only [List.length_map] at this
        omega
      obtain ⟨s1, a1, a2, a3, a4, a5⟩ := sort_spec c shuffle1 hs1 true (reevaluate f 0 c.mu s) (by
        intro h; rw [h] at hl; simp at hl; omega)
      refine ⟨s1, by simpa using a1, by rw [a2.length_eq, hl], by rw [a4, r2]; simp, ?_, by simp⟩
      rw [a5, r1]; simp
  have hpar : (s1.population.take c.mu).length = c.mu := by rw [List.length_take]; omega
  have hparne : s1.population.take c.mu ≠ [] := by intro h; rw [h] at hpar; simp at hpar; omega
  have hq : popsize c / c.mu * c.mu = popsize c := by
    apply Nat.div_mul_cancel
    unfold popsize
    split_ifs
    · exact Nat.dvd_add (Nat.dvd_refl _) (Nat.dvd_of_mod_eq_zero hdvd)
    · exact Nat.dvd_of_mod_eq_zero hdvd
  set s2 : State X K := { s1 with population := (List.replicate (popsize c / c.mu) (s1.population.take c.mu)).flatten } with hs2d
  have l2 : s2.population.length = popsize c := by
    simp only [hs2d, List.length_flatten, List.map_replicate, List.sum_replicate_nat, hpar, hq]
  have g2 : ∀ i < popsize c, s2.population[i]? = (s1.population.take c.mu)[i % c.mu]? := by
    intro i hi
    have := flatten_replicate_get (s1.population.take c.mu) (popsize c / c.mu) i hparne (by rw [hpar, hq]; exact hi)
    rwa [hpar] at this
  -- the state after the mutations
  set a := if c.elitism then c.mu else 0 with ha
  have hal : a + c.lambada = popsize c := by rw [ha]; unfold popsize; split_ifs <;> omega
  obtain ⟨m1, m2, m3, m4⟩ := replaceFrom_spec f mutate c.lambada a s2 (by omega)
  have hs3 : (if c.elitism then replaceFrom f mutate c.mu (popsize c - c.mu) s2 else replaceFrom f mutate 0 (popsize c) s2) =
      replaceFrom f mutate a c.lambada s2 := by
    rw [ha]; unfold popsize
    split_ifs
    · rw [Nat.add_sub_cancel_left]
    · rfl
  have hpop : (replaceFrom f mutate a c.lambada s2).population = (if c.elitism then s1.population.take c.mu else []) ++
      offspring c f mutate (s1.population.take c.mu) (s.numEvaluations + if c.evaluatorIsNoisy then c.mu else 0) := by
    have hoff : offspring c f mutate (s1.population.take c.mu) (s.numEvaluations + if c.evaluatorIsNoisy then c.mu else 0) =
        (List.range c.lambada).map fun i =>
          let p := (s1.population.take c.mu)[i % c.mu]'(by rw [hpar]; exact Nat.mod_lt _ hmu)
          (f (s2.numEvaluations + i) (mutate (a + i) p.2), mutate (a + i) p.2) := by
      unfold offspring
      rw [← List.filterMap_eq_map]
      refine List.filterMap_congr fun i _ => ?_
      rw [List.getElem?_eq_getElem (by rw [hpar]; exact Nat.mod_lt _ hmu)]
      simp only [Option.map_some, Function.comp, ← n1]
      rfl
    have hlena : (if c.elitism then s1.population.take c.mu else []).length = a := by rw [ha]; split_ifs <;> simp_all
    refine List.ext_getElem? fun i => ?_
    rw [m4 i]
    by_cases hi : i < popsize c
    · by_cases hia : a ≤ i
      · rw [if_pos (by omega), List.getElem?_append_right (by omega), hlena, hoff, List.getElem?_map, List.getElem?_range (by omega), g2 i hi]
        have hmod : i % c.mu = (i - a) % c.mu := by
          rw [ha]; split_ifs with he
          · rw [ha, if_pos he] at hia
            exact Nat.mod_eq_sub_mod hia
          · simp
        rw [List.getElem?_eq_getElem (by rw [hpar]; exact Nat.mod_lt _ hmu)]
        simp only [Option.map_some, Option.some.injEq, Nat.add_sub_cancel' hia, hmod]
      · rw [if_neg (by omega), List.getElem?_append_left (by omega), g2 i hi]
        have he : c.elitism = true := by
          rw [ha] at hia; by_contra hc; simp [hc] at hia
        rw [if_pos he]
        rw [ha, if_pos he] at hia
        rw [Nat.mod_eq_of_lt (by omega)]
    · rw [if_neg (by omega), List.getElem?_eq_none (by omega), List.getElem?_eq_none]
      rw [List.length_append, hlena, hoff, List.length_map, List.length_range]
      omega
  have hne : (replaceFrom f mutate a c.lambada s2).population ≠ [] := by
    intro h; rw [h] at m3; simp at m3; omega
  obtain ⟨s', b1, b2, b3, b4, b5⟩ := sort_spec c shuffle2 hs2 false _ hne
  refine ⟨s1.population.take c.mu, s', ?_, hpar, fun h => by rw [hno h], by rw [← hpop]; exact b2, by rw [b2.length_eq, m3, l2], b3, ?_, ?_⟩
  · unfold learnStep
    dsimp only
    rw [e1]
    simp only [bind, Except.bind]
    rw [hd]
    simp only [Bool.false_eq_true, if_false]
    rw [← hs2d, hs3]
    exact b1
  · rw [b4, m2]; simp only [hs2d]; rw [n1]
  · rw [b5, m1]; simp only [hs2d]; rw [hh1]; simp

end Verif.ES

namespace Verif.Props
open Verif.ES
open Verif.DataSet (Err)

variable {X K : Type} [LinearOrder K]

/-- A valid configuration: `mu` and `lambda` positive, `lambda` a multiple of `mu`; integer division. -/
structure ValidES (c : Config) : Prop where
  mu : 0 < c.mu
  la : 0 < c.lambada
  dvd : c.lambada % c.mu = 0
  div : c.trueDivision = false

/-- **C80**, start: the first population has the initial individual and mutants of it, `popsize` in total, best first, every fitness is the
one measured. -/
theorem C80_init (c : Config) (hc : ValidES c) (f : Nat → X → K) (mutate : Nat → X → X) (shuffle : List (K × X) → List (K × X)) (hs : ∀ l, (shuffle l).Perm l) (x0 : X) :
    ∃ s, Verif.ES.init c f mutate shuffle x0 = .ok s ∧ s.population.length = popsize c ∧ s.population.Pairwise (fun a b => b.1 ≤ a.1) ∧ s.numEvaluations = popsize c ∧
      s.population.Perm ((f 0 x0, x0) :: (List.range (popsize c - 1)).map fun i => (f (i + 1) (mutate (i + 1) x0), mutate (i + 1) x0)) := by
  have hmu := hc.mu
  have hla := hc.la
  have hpos : 0 < popsize c := by unfold popsize; split_ifs <;> omega
  unfold Verif.ES.init
  rw [if_neg (by omega), if_neg (by simp [hc.dvd])]
  dsimp only
  obtain ⟨m1, m2, m3, m4⟩ := replaceFrom_spec f mutate (popsize c - 1) 1 { population := List.replicate (popsize c) (f 0 x0, x0), hallOfFame := [], numEvaluations := 1 } (by simp; omega)
  dsimp only at m1 m2 m3 m4
  rw [List.length_replicate] at m3
  obtain ⟨s', b1, b2, b3, b4, b5⟩ := sort_spec c shuffle hs false _ (by intro h; rw [h] at m3; simp at m3; omega)
  refine ⟨s', b1, by rw [b2.length_eq, m3], b3, by rw [b4, m2]; omega, ?_⟩
  refine b2.trans (List.Perm.of_eq ?_)
  refine List.ext_getElem? fun i => ?_
  rw [m4 i]
  cases i with
  | zero => simp [List.getElem?_replicate, hpos]
  | succ i =>
    rw [List.getElem?_cons_succ, List.getElem?_map]
    by_cases hi : i + 1 < popsize c
    · rw [if_pos (by omega), List.getElem?_replicate, if_pos hi, List.getElem?_range (by omega)]
      simp [Nat.add_comm]
    · rw [if_neg (by omega), List.getElem?_replicate, if_neg hi, List.getElem?_eq_none (by simp; omega)]
      rfl

/-- **C80**, one generation: the population is again `popsize` individuals, best first. It consists of `lambda` mutants, `lambda / mu` of each
of the `mu` best (mutant `i` descends from number `i % mu`), with their measured fitnesses; with elitism the `mu` best themselves
stay as well, unchanged. Without noise, `lambda` evaluations are done. The new best goes to the hall of fame. -/
theorem C80_generation (c : Config) (hc : ValidES c) (hn : c.evaluatorIsNoisy = false) (f : Nat → X → K) (mutate : Nat → X → X) (shuffle1 shuffle2 : List (K × X) → List (K × X))
    (hs1 : ∀ l, (shuffle1 l).Perm l) (hs2 : ∀ l, (shuffle2 l).Perm l) (s : State X K) (hlen : s.population.length = popsize c) :
    ∃ s', learnStep c f mutate shuffle1 shuffle2 s = .ok s' ∧ s'.population.length = popsize c ∧ s'.population.Pairwise (fun a b => b.1 ≤ a.1) ∧
      s'.population.Perm ((if c.elitism then s.population.take c.mu else []) ++ offspring c f mutate (s.population.take c.mu) s.numEvaluations) ∧
      s'.numEvaluations = s.numEvaluations + batchSize c ∧
      (c.storeHallOfFame = true → ∃ p, s'.population.head? = some p ∧ s'.hallOfFame = s.hallOfFame ++ [p.2]) := by
  obtain ⟨parents, s', h1, h2, h3, h4, h5, h6, h7, h8⟩ := learnStep_spec c f mutate shuffle1 shuffle2 hs1 hs2 s hc.mu hc.dvd hc.la hc.div hlen
  rw [hn] at h4 h7
  rw [h3 hn] at h4
  refine ⟨s', h1, h5, h6, by simpa using h4, by rw [h7]; simp [batchSize, hn], fun hst => ?_⟩
  have hpos : s'.population ≠ [] := by
    intro h; rw [h] at h5; simp [popsize] at h5
    have := hc.la; split_ifs at h5 <;> omega
  obtain ⟨p, ps, hp⟩ := List.exists_cons_of_ne_nil hpos
  exact ⟨p, by rw [hp]; rfl, by rw [h8, hp, hst]; simp⟩

/-- **C80**, elitism: with a deterministic evaluator the best fitness never decreases. -/
theorem C80_elitism (c : Config) (hc : ValidES c) (hn : c.evaluatorIsNoisy = false) (he : c.elitism = true) (f : Nat → X → K) (mutate : Nat → X → X)
    (shuffle1 shuffle2 : List (K × X) → List (K × X)) (hs1 : ∀ l, (shuffle1 l).Perm l) (hs2 : ∀ l, (shuffle2 l).Perm l) (s s' : State X K)
    (hlen : s.population.length = popsize c) (hbest : s.population.Pairwise (fun a b => b.1 ≤ a.1))
    (hstep : learnStep c f mutate shuffle1 shuffle2 s = .ok s') :
    ∃ b ∈ s'.population, s'.population.head? = some b ∧ ∀ p ∈ s.population, p.1 ≤ b.1 := by
  obtain ⟨s'', h1, h2, h3, h4, -, -⟩ := C80_generation c hc hn f mutate shuffle1 shuffle2 hs1 hs2 s hlen
  rw [hstep] at h1
  have := Except.ok.inj h1
  subst this
  have hmu := hc.mu
  have hne : s.population ≠ [] := by intro h; rw [h] at hlen; simp [popsize, he] at hlen; omega
  obtain ⟨q, qs, hq⟩ := List.exists_cons_of_ne_nil hne
  have hqm : q ∈ s'.population := by
    rw [h4.mem_iff, if_pos he, hq]
    refine List.mem_append_left _ ?_
    obtain ⟨m, hm⟩ : ∃ m, c.mu = m + 1 := ⟨c.mu - 1, by omega⟩
    rw [hm]; simp
  obtain ⟨b, bs, hb⟩ := List.exists_cons_of_ne_nil (List.ne_nil_of_mem hqm)
  refine ⟨b, by rw [hb]; simp, by rw [hb]; rfl, fun p hp => ?_⟩
  have h5 : p.1 ≤ q.1 := by
    rw [hq] at hp hbest
    rcases List.mem_cons.1 hp with h | h
    · rw [h]
    · exact (List.pairwise_cons.1 hbest).1 p h
  refine h5.trans ?_
  rw [hb] at hqm h3
  rcases List.mem_cons.1 hqm with h | h
  · rw [h]
  · exact (List.pairwise_cons.1 h3).1 q h

/-- **C80**, noise: with `evaluatorIsNoisy` the `mu` best are evaluated anew in every generation, which is counted. -/
theorem C80_noisy (c : Config) (hc : ValidES c) (hn : c.evaluatorIsNoisy = true) (f : Nat → X → K) (mutate : Nat → X → X) (shuffle1 shuffle2 : List (K × X) → List (K × X))
    (hs1 : ∀ l, (shuffle1 l).Perm l) (hs2 : ∀ l, (shuffle2 l).Perm l) (s : State X K) (hlen : s.population.length = popsize c) :
    ∃ s', learnStep c f mutate shuffle1 shuffle2 s = .ok s' ∧ s'.population.length = popsize c ∧ s'.population.Pairwise (fun a b => b.1 ≤ a.1) ∧
      s'.numEvaluations = s.numEvaluations + c.mu + c.lambada := by
  obtain ⟨parents, s', h1, h2, h3, h4, h5, h6, h7, h8⟩ := learnStep_spec c f mutate shuffle1 shuffle2 hs1 hs2 s hc.mu hc.dvd hc.la hc.div hlen
  exact ⟨s', h1, h5, h6, by rw [h7]; simp [hn]⟩

/-- **C80 violated, budget**: a noisy strategy without elitism does `mu` evaluations more per generation than the `batchSize` by which the
optimizer decides whether the evaluation budget allows another step. -/
theorem C80_negation_budget (c : Config) (hc : ValidES c) (hn : c.evaluatorIsNoisy = true) (he : c.elitism = false) (f : Nat → X → K) (mutate : Nat → X → X)
    (shuffle1 shuffle2 : List (K × X) → List (K × X)) (hs1 : ∀ l, (shuffle1 l).Perm l) (hs2 : ∀ l, (shuffle2 l).Perm l) (s : State X K)
    (hlen : s.population.length = popsize c) :
    ∃ s', learnStep c f mutate shuffle1 shuffle2 s = .ok s' ∧ s.numEvaluations + batchSize c < s'.numEvaluations := by
  obtain ⟨s', h1, -, -, h4⟩ := C80_noisy c hc hn f mutate shuffle1 shuffle2 hs1 hs2 s hlen
  refine ⟨s', h1, ?_⟩
  have := hc.mu
  rw [h4]; simp [batchSize, hn, popsize, he]; omega

/-- **C80 violated in Python 3**: `self._popsize/self.mu` is a float, and multiplying a list by it raises a TypeError in every learning step. -/
theorem C80_negation_division (c : Config) (hd : c.trueDivision = true) (hn : c.evaluatorIsNoisy = false) (f : Nat → X → K) (mutate : Nat → X → X)
    (shuffle1 shuffle2 : List (K × X) → List (K × X)) (s : State X K) : learnStep c f mutate shuffle1 shuffle2 s = .error .typeError := by
  simp [learnStep, hn, hd, bind, Except.bind]

/-- The hypotheses are met: (2+4) on integers, started from 7. -/
example : ValidES ⟨2, 4, false, true, true, false⟩ ∧
    ∃ s, Verif.ES.init ⟨2, 4, false, true, true, false⟩ (fun _ x => -(x : Int) * x) (fun i x => x - (i : Int)) id (7 : Int) = .ok s ∧ s.population.length = 6 := by
  refine ⟨⟨by decide, by decide, by decide, rfl⟩, ?_⟩
  obtain ⟨s, h1, h2, -⟩ := C80_init ⟨2, 4, false, true, true, false⟩ ⟨by decide, by decide, by decide, rfl⟩ (fun _ x => -(x : Int) * x) (fun i x => x - (i : Int)) id (fun l => .refl l) (7 : Int)
  exact ⟨s, h1, h2⟩

end Verif.Props
