import Verif.Lemmas.CoevolutionMany
/-
Property theorems C176 (co-evolution of two populations, competitivecoevolution.py) and C177 (of many populations, multipopulationcoevolution.py).
-/
namespace Verif.Coevolution
set_option linter.unusedSectionVars false
variable {K : Type} [Field K] [LinearOrder K] {n : Nat}
open Spec

/-- the objects made of the seeds -/
theorem seeds_ids (seeds : List (Fin n → K)) :
    (seeds.mapIdx (fun i v => ({ id := i, params := v, parent := none } : Ind K n))).map Ind.id = List.range seeds.length ∧
    (seeds.mapIdx (fun i v => ({ id := i, params := v, parent := none } : Ind K n))).map Ind.params = seeds := by
  constructor
  · apply List.ext_getElem?
    intro i
    simp only [List.getElem?_map, List.getElem?_mapIdx]
    by_cases hi : i < seeds.length
    · rw [List.getElem?_eq_getElem hi, List.getElem?_range hi]; rfl
    · rw [List.getElem?_eq_none (by omega), List.getElem?_eq_none (by rw [List.length_range]; omega)]; rfl
  · apply List.ext_getElem?
    intro i
    simp only [List.getElem?_map, List.getElem?_mapIdx]
    cases seeds[i]? <;> rfl

theorem consistent_start (c : Settings K) (pop par : List (Ind K n)) (next : Nat) (h1 : pop.length = c.populationSize) (h2 : par.length = c.populationSize)
    (h3 : ((pop ++ par).map Ind.id).Nodup) (h4 : ∀ p ∈ pop ++ par, p.id < next) :
    RivalsConsistent c { s := { pop := pop, hallOfFame := [], hallOfFitnesses := [], generation := 0, book := Book.empty, next := next }, parasites := par, old := [] } [] :=
  ⟨h1, h2, h3, h4, by simp, by simp, rfl, rfl, rfl, ⟨rfl, fun _ _ => rfl, fun _ => rfl⟩, fun _ _ => rfl⟩

/-- two seed lists are extended to two populations -/
theorem extend_two (o : Oracle K n) (c : Settings K) (s1 s2 : List (Ind K n)) (h1 : s1 ≠ []) (h2 : s2 ≠ []) (l1 : s1.length ≤ c.populationSize) (l2 : s2.length ≤ c.populationSize)
    (hnd : ((s1 ++ s2).map Ind.id).Nodup) (next : Nat) (hlt : ∀ p ∈ s1 ++ s2, p.id < next) :
    ∃ c1 c2 next' next'', extend o c s1 c.populationSize next = .ok (s1 ++ c1, next') ∧ extend o c s2 c.populationSize next' = .ok (s2 ++ c2, next'') ∧
      (s1 ++ c1).length = c.populationSize ∧ (s2 ++ c2).length = c.populationSize ∧ (((s1 ++ c1) ++ (s2 ++ c2)).map Ind.id).Nodup ∧
      ∀ p ∈ (s1 ++ c1) ++ (s2 ++ c2), p.id < next'' := by
  rw [List.map_append, List.nodup_append] at hnd
  obtain ⟨d1, d2, d3⟩ := hnd
  obtain ⟨c1, e1, f1, _⟩ := extend_ok o c s1 h1 c.populationSize next
  obtain ⟨n1, n2, n3, n4⟩ := nodup_extend s1 c1 next _ d1 (fun p hp => hlt p (List.mem_append_left _ hp)) f1
  obtain ⟨c2, e2, f2, _⟩ := extend_ok o c s2 h2 c.populationSize (next + (c.populationSize - s1.length))
  obtain ⟨m1, m2, m3, m4⟩ := nodup_extend s2 c2 _ _ d2 (fun p hp => by have := hlt p (List.mem_append_right _ hp); omega) f2
  refine ⟨c1, c2, _, _, e1, e2, by rw [List.length_append, n4]; omega, by rw [List.length_append, m4]; omega, ?_, ?_⟩
  · rw [List.map_append, List.nodup_append]
    refine ⟨n1, m1, ?_⟩
    intro x hx y hy he
    obtain ⟨p, hp, rfl⟩ := List.mem_map.1 hx
    obtain ⟨q, hq, rfl⟩ := List.mem_map.1 hy
    have hp2 := n2 p hp
    rcases List.mem_append.1 hq with hq | hq
    · have hq2 := hlt q (List.mem_append_right _ hq)
      rcases List.mem_append.1 hp with hp | hp
      · exact d3 _ (List.mem_map_of_mem hp) _ (List.mem_map_of_mem hq) he
      · have := n3 p hp; omega
    · have := m3 q hq; omega
  · intro p hp
    rcases List.mem_append.1 hp with hp | hp
    · have := n2 p hp; omega
    · exact m2 p hp

end Verif.Coevolution

namespace Verif.Props
open Verif.Coevolution Verif.Coevolution.Spec
open Verif.DataSet (Err)
set_option linter.unusedSectionVars false
variable {K : Type} [Field K] [LinearOrder K] [IsStrictOrderedRing K] {n : Nat}

/-! ### C176 -/

/-- **C176, start.** With at least two seeds the first half of them goes into the population and the rest into the population of parasites; a single seed goes into the first and a
randomized copy of it into the second. Both populations are filled up to their size with distinct objects. Without seeds the constructor raises `IndexError`. -/
theorem C176_start (o : Oracle K n) (c : Settings K) (randomize : (Fin n → K) → Fin n → K) (seeds : List (Fin n → K)) (hpos : 1 ≤ c.populationSize)
    (hle : seeds.length ≤ 2 * c.populationSize) :
    (2 ≤ seeds.length → ∃ r, rivalsStart o c randomize seeds = .ok r ∧ RivalsConsistent c r [] ∧ (r.s.pop.take (seeds.length / 2)).map Ind.params = seeds.take (seeds.length / 2) ∧
      (r.parasites.take (seeds.length - seeds.length / 2)).map Ind.params = seeds.drop (seeds.length / 2)) ∧
    (∀ v, seeds = [v] → ∃ r, rivalsStart o c randomize seeds = .ok r ∧ RivalsConsistent c r [] ∧ (r.s.pop.take 1).map Ind.params = [v] ∧
      (r.parasites.take 1).map Ind.params = [randomize v]) ∧
    (seeds = [] → rivalsStart o c randomize seeds = .error .indexError) := by
  obtain ⟨hid, hpar⟩ := seeds_ids seeds
  refine ⟨fun h2 => ?_, ?_, ?_⟩
  · set l0 := seeds.mapIdx (fun i v => ({ id := i, params := v, parent := none } : Ind K n)) with hl0
    have hlen : l0.length = seeds.length := by simp [hl0]
    have hnd : ((l0.take (l0.length / 2) ++ l0.drop (l0.length / 2)).map Ind.id).Nodup := by rw [List.take_append_drop, hid]; exact List.nodup_range
    obtain ⟨c1, c2, next', next'', e1, e2, e3, e4, e5, e6⟩ := extend_two o c (l0.take (l0.length / 2)) (l0.drop (l0.length / 2))
      (by intro h0; have := congrArg List.length h0; rw [List.length_take, List.length_nil] at this; omega)
      (by intro h0; have := congrArg List.length h0; rw [List.length_drop, List.length_nil] at this; omega)
      (by rw [List.length_take]; omega) (by rw [List.length_drop]; omega) hnd l0.length (by
        intro p hp
        rw [List.take_append_drop] at hp
        have : p.id ∈ l0.map Ind.id := List.mem_map_of_mem hp
        rw [hid, List.mem_range] at this
        omega)
    refine ⟨_, ?_, consistent_start c _ _ next'' e3 e4 e5 e6, ?_, ?_⟩
    · unfold rivalsStart
      simp only [← hl0]
      rw [if_pos (by omega)]
      simp only [bind, Except.bind, e1, e2, pure, Except.pure]
    · dsimp only
      have : seeds.length / 2 = (l0.take (l0.length / 2)).length := by rw [List.length_take]; omega
      rw [this, List.take_left, List.map_take, hpar, ← this, hlen]
    · dsimp only
      have : seeds.length - seeds.length / 2 = (l0.drop (l0.length / 2)).length := by rw [List.length_drop]; omega
      rw [this, List.take_left, List.map_drop, hpar, hlen]
  · rintro v rfl
    obtain ⟨c1, c2, next', next'', e1, e2, e3, e4, e5, e6⟩ := extend_two o c [({ id := 0, params := v, parent := none } : Ind K n)] [{ id := 1, params := randomize v, parent := none }]
      (by simp) (by simp) (by simpa using hpos) (by simpa using hpos) (by simp) 2 (by simp)
    refine ⟨_, ?_, consistent_start c _ _ next'' e3 e4 e5 e6, by simp, by simp⟩
    unfold rivalsStart
    simp only [List.mapIdx_cons, List.mapIdx_nil, List.length_singleton, gt_iff_lt, lt_self_iff_false, if_false, List.getElem?_cons_zero, bind, Except.bind, e1, e2, pure, Except.pure]
  · rintro rfl
    rfl

/-- **C176, generations.** With two populations in a consistent state a generation raises nothing (in particular its assertion never fails). Every member of the population plays in both
orders against distinct parasites, as many as asked for, and against members of the hall of fame, and nobody else plays; no more games are played than announced. The best member by
shared fitness enters the hall of fame. Then the populations change their roles: the parasites become the population, unchanged, and the offspring of the population become the
parasites. -/
theorem C176_generation (o : Oracle K n) (ho : Fair o) (c : Settings K) (hc : Sensible c) (shared : Bool)
    (shuffle : Nat → List (Nat × K × Nat) → List (Nat × K × Nat)) (hsh : ∀ t l, (shuffle t l).Perm l) (hts : shared = true → c.tournamentSize ≤ c.populationSize)
    (r : Rivals K n) (games : List (Nat × Nat × K)) (h : RivalsConsistent c r games) :
    ∃ r' new best opponents, rivalsGeneration o c shared shuffle r = .ok r' ∧ RivalsConsistent c r' (games ++ new) ∧ new.length ≤ stepsPerGeneration c ∧
      r'.s.generation = r.s.generation + 1 ∧ r'.s.pop = r.parasites ∧
      selectAndReproduce o c (r.s.generation + 1) r.s.pop (r.s.pop.map (rivalFitness (games ++ new) c r)) r.s.next = .ok (r'.parasites, r'.s.next) ∧
      r'.s.hallOfFame = r.s.hallOfFame ++ [best] ∧ best ∈ r.s.pop ∧
      (∀ p ∈ r.s.pop, rivalFitness (games ++ new) c r p ≤ rivalFitness (games ++ new) c r best) ∧
      (∃ fs, Top (r.s.pop.map (rivalFitness (games ++ new) c r)) fs c.numSelected ∧ r'.s.hallOfFitnesses = r.s.hallOfFitnesses ++ [fs]) ∧
      (∀ x ∈ opponents, x ∈ r.parasites.map Ind.id) ∧ opponents.Nodup ∧
      Met new (r.s.pop.map Ind.id) opponents (min (c.tournamentSize - min (r.s.generation + 1) c.hofTournament) c.populationSize) ∧
      (0 < min (r.s.generation + 1) c.hofTournament → Met new (r.s.pop.map Ind.id) (r.s.hallOfFame.map Ind.id) (min (r.s.generation + 1) c.hofTournament)) ∧
      (∀ g ∈ new, (g.1 ∈ r.s.pop.map Ind.id ∧ g.2.1 ∈ (r.parasites ++ r.s.hallOfFame).map Ind.id) ∨
        (g.2.1 ∈ r.s.pop.map Ind.id ∧ g.1 ∈ (r.parasites ++ r.s.hallOfFame).map Ind.id)) ∧
      r'.old = r.old ++ [r.s.pop.map Ind.id] ∧
      (¬ (shared = true ∧ 2 < r.s.generation + 1) → opponents = r.parasites.map Ind.id) ∧
      (shared = true → 2 < r.s.generation + 1 → ∃ before, r'.old[r.s.generation + 1 - 2]? = some before ∧ Greedy games (r.parasites.map Ind.id) before opponents) := by
  obtain ⟨r', new, best, e, st⟩ := rivalsGeneration_ok o ho c hc shared shuffle hsh hts r games h
  obtain ⟨opps, a1, a2, a3, a4, a5⟩ := st.evaluated.opponents
  refine ⟨r', new, best, opps, e, st.consistent, ?_, st.generation, st.hosts, st.offspring, st.hof, st.mem, st.best, st.fits, a1, a2, a3, st.evaluated.famous, st.evaluated.members,
    st.old, a4, fun h1 h2 => ?_⟩
  · have := st.evaluated.budget
    rwa [h.size] at this
  · rw [st.old]; exact a5 h1 h2

/-- **C176, learning.** Learning ends when generations are limited, or when evaluations are limited and each generation needs some. It raises nothing, keeps the state consistent
and exceeds none of the limits. -/
theorem C176_learn (o : Oracle K n) (ho : Fair o) (c : Settings K) (hc : Sensible c) (shared : Bool)
    (shuffle : Nat → List (Nat × K × Nat) → List (Nat × K × Nat)) (hsh : ∀ t l, (shuffle t l).Perm l) (hts : shared = true → c.tournamentSize ≤ c.populationSize) (limit : Option Nat)
    (r : Rivals K n) (games : List (Nat × Nat × K)) (h : RivalsConsistent c r games) (fuel : Nat)
    (hfuel : (∃ m, c.maxGenerations = some m ∧ m ≤ r.s.generation + fuel) ∨
      (c.hofTournament < c.tournamentSize ∧ ∃ m, (limit = some m ∨ c.maxEvaluations = some m) ∧ m ≤ games.length + fuel)) :
    ∃ r' new, rivalsLearn o c shared shuffle limit fuel r = some (.ok r') ∧ RivalsConsistent c r' (games ++ new) ∧ stops c limit r'.s = true ∧
      (∀ m, (limit = some m ∨ c.maxEvaluations = some m) → games.length ≤ m → games.length + new.length ≤ m) ∧
      (∀ m, c.maxGenerations = some m → r.s.generation ≤ m → r'.s.generation ≤ m) := by
  obtain ⟨res, hres⟩ := rivalsLearn_ends o ho c hc shared shuffle hsh hts limit fuel r games h hfuel
  obtain ⟨r', new, rfl, h1, h2, _, h4, h5⟩ := rivalsLearn_spec o ho c hc shared shuffle hsh hts limit fuel r games h res hres
  exact ⟨r', new, hres, h1, h2, h4, h5⟩

/-- **C176, failure: shared sampling.** Opponents are sampled among the parasites by whom they beat. Without elitism all parasites are new: they have played no game at all, beat nobody,
and any selection of the right size is as good as any other. -/
theorem C176_negation_sampling (o : Oracle K n) (ho : Fair o) (c : Settings K) (hc : Sensible c) (he : c.elitism = false) (shared : Bool)
    (shuffle : Nat → List (Nat × K × Nat) → List (Nat × K × Nat)) (hsh : ∀ t l, (shuffle t l).Perm l) (hts : shared = true → c.tournamentSize ≤ c.populationSize)
    (r : Rivals K n) (games : List (Nat × Nat × K)) (h : RivalsConsistent c r games) :
    ∃ r' new, rivalsGeneration o c shared shuffle r = .ok r' ∧ RivalsConsistent c r' (games ++ new) ∧
      ∀ p ∈ r'.parasites, (∀ g ∈ games ++ new, g.1 ≠ p.id ∧ g.2.1 ≠ p.id) ∧ (∀ q, beats r'.s.book p.id q = .ok 0) ∧ globalScore r'.s.book p.id = .ok 0 := by
  obtain ⟨r', new, best, e, st⟩ := rivalsGeneration_ok o ho c hc shared shuffle hsh hts r games h
  refine ⟨r', new, e, st.consistent, fun p hp => ?_⟩
  have hge := st.allNew he p hp
  have hno : ∀ g ∈ games ++ new, g.1 ≠ p.id ∧ g.2.1 ≠ p.id := by
    intro g hg
    have hlt1 : ∀ x ∈ r.s.pop.map Ind.id, x < r.s.next := by
      intro x hx
      obtain ⟨y, hy, rfl⟩ := List.mem_map.1 hx
      exact h.fresh y (List.mem_append_left _ hy)
    have hlt2 : ∀ x ∈ (r.parasites ++ r.s.hallOfFame).map Ind.id, x < r.s.next := by
      intro x hx
      obtain ⟨y, hy, rfl⟩ := List.mem_map.1 hx
      rcases List.mem_append.1 hy with hy | hy
      · exact h.fresh y (List.mem_append_right _ hy)
      · exact h.famous y hy
    rcases List.mem_append.1 hg with hg | hg
    · have := h.played g hg; omega
    · rcases st.evaluated.members g hg with ⟨x, y⟩ | ⟨x, y⟩
      · have := hlt1 _ x; have := hlt2 _ y; omega
      · have := hlt1 _ x; have := hlt2 _ y; omega
  have hb : ∀ q, between (games ++ new) p.id q = [] ∧ between (games ++ new) q p.id = [] := by
    intro q
    constructor <;>
    · unfold between
      rw [List.map_eq_nil_iff, List.filter_eq_nil_iff]
      intro g hg
      have := hno g hg
      simp only [decide_eq_true_eq]
      omega
  refine ⟨hno, fun q => ?_, ?_⟩
  · rw [beats_eq _ _ st.consistent.reflects st.consistent.paired]
    unfold average
    rw [(hb q).1, (hb q).2]
    simp
  · unfold globalScore
    rw [st.consistent.reflects.opponents, if_pos]
    rw [List.map_eq_nil_iff, List.filter_eq_nil_iff]
    intro g hg
    have := hno g hg
    simp only [decide_eq_true_eq]
    omega

/-- **C176, failure: absolute evaluation.** An absolute evaluator, which the base class mixes into the fitness, has no effect at all when there are two populations. -/
theorem C176_negation_absolute (o : Oracle K n) (c : Settings K) (shared : Bool) (shuffle : Nat → List (Nat × K × Nat) → List (Nat × K × Nat)) (r : Rivals K n)
    (w : K) (f : Ind K n → K) :
    rivalsGeneration { o with absEval := some (w, f) } c shared shuffle r = rivalsGeneration { o with absEval := none } c shared shuffle r := rfl

/-! ### C177 -/

/-- **C177, start.** Population i contains the seeds i, i + k, i + 2k, … of k populations; each population is filled up to its size, and all objects are distinct. -/
theorem C177_start (o : Oracle K n) (c : Settings K) (k : Nat) (hk : 0 < k) (randomize : Nat → (Fin n → K) → Fin n → K) (seeds : List (Fin n → K)) (h0 : seeds ≠ [])
    (hpos : 1 ≤ c.populationSize) (hle : seeds.length ≤ k * c.populationSize) :
    ∃ m, manyStart o c k randomize seeds = .ok (m, max k seeds.length) ∧ ManyConsistent c k m [] ∧
      ∀ j v, seeds[j]? = some v → ∃ p ∈ m.pops (j % k), p.params = v ∧ p.id = j := by
  obtain ⟨hid, hpar⟩ := seeds_ids seeds
  set l0 := seeds.mapIdx (fun i v => ({ id := i, params := v, parent := none } : Ind K n)) with hl0
  have hlen : l0.length = seeds.length := by simp [hl0]
  obtain ⟨more, a1, a2, a3, _⟩ := addSeeds_ok o.pick randomize (k - l0.length) l0 (by intro he; rw [he] at hlen; exact h0 (List.length_eq_zero_iff.1 hlen.symm)) (by rw [hid, hlen])
  obtain ⟨s, hs⟩ : ∃ s, s = l0 ++ more := ⟨_, rfl⟩
  rw [← hs] at a1 a3
  have hsl : s.length = max k seeds.length := by rw [hs, List.length_append, a2, hlen]; omega
  have hslt : ∀ p ∈ s, p.id < s.length := by
    intro p hp
    have : p.id ∈ s.map Ind.id := List.mem_map_of_mem hp
    rw [a3, List.mem_range] at this
    exact this
  have hget : ∀ (j : Nat) (p : Ind K n), s[j]? = some p → p.id = j := by
    intro j p hj
    have : (s.map Ind.id)[j]? = some p.id := by rw [List.getElem?_map, hj]; rfl
    rw [a3] at this
    have hj' : j < s.length := by
      by_contra hge
      rw [List.getElem?_eq_none (by omega)] at hj
      simp at hj
    rw [List.getElem?_range hj'] at this
    simpa using this.symm
  have hkp : k ≤ k * c.populationSize := Nat.le_mul_of_pos_right k hpos
  obtain ⟨ch, next', b1, b2, b3, b4, b5⟩ := buildPops_ok o c k s (by rw [a3]; exact List.nodup_range) (fun i hi => every_length k i _ hi s (by rw [hsl]; omega))
    (fun i hi h => by
      have hi' : i < s.length := by omega
      have : s[i] ∈ every k i s := by rw [mem_every]; exact ⟨i, by rw [List.getElem?_eq_getElem hi'], le_rfl, by simp⟩
      rw [h] at this
      simp at this) (List.range k) s.length List.nodup_range (fun i hi => List.mem_range.1 hi) hslt
  have hpops : ∀ i < k, ((List.range k).map (fun i => every k i s ++ ch i)).getD i [] = every k i s ++ ch i := by
    intro i hi
    rw [List.getD_eq_getElem?_getD, List.getElem?_map, List.getElem?_range hi]; rfl
  obtain ⟨ps, hps⟩ : ∃ ps, ps = (List.range k).map (fun i => every k i s ++ ch i) := ⟨_, rfl⟩
  rw [← hps] at b1 hpops
  have hhead : ∃ tl, ps = (every k 0 s ++ ch 0) :: tl := by
    obtain ⟨k', rfl⟩ : ∃ k', k = k' + 1 := ⟨k - 1, by omega⟩
    rw [hps, List.range_succ_eq_map, List.map_cons]
    exact ⟨_, rfl⟩
  obtain ⟨tl, htl⟩ := hhead
  refine ⟨{ s := { pop := every k 0 s ++ ch 0, hallOfFame := [], hallOfFitnesses := [], generation := 0, book := Book.empty, next := next' }, pops := fun i => ps.getD i [], main := 0 }, ?_, ?_, ?_⟩
  · unfold manyStart
    simp only [← hl0, bind, Except.bind, a1, b1, htl, pure, Except.pure]
    rw [hsl]
  · refine ⟨hk, by simp, (hpops 0 hk).symm, fun i hi => ?_, fun i hi => ?_, ?_, ?_, by simp, rfl, rfl, ⟨rfl, fun _ _ => rfl, fun _ => rfl⟩, fun _ _ => rfl⟩
    · dsimp only; rw [hpops i hi]; exact (b4 i (List.mem_range.2 hi)).1
    · dsimp only; rw [hpops i hi]; exact (b4 i (List.mem_range.2 hi)).2
    · intro i hi j hj hij p hp q hq he
      dsimp only at hp hq
      rw [hpops i hi] at hp
      rw [hpops j hj] at hq
      have key : ∀ i < k, ∀ x ∈ every k i s, x.id % k = i ∧ x.id < s.length := by
        intro i hi x hx
        refine ⟨?_, hslt x ((every_sublist k i s).subset hx)⟩
        obtain ⟨t, t1, t2⟩ := (mem_every k i s x).1 hx
        rw [hget t x t1]
        exact (every_index k i t hi).1 t2
      rcases List.mem_append.1 hp with hp | hp <;> rcases List.mem_append.1 hq with hq | hq
      · have h1 := (key i hi p hp).1
        have h2 := (key j hj q hq).1
        rw [he] at h1
        exact hij (h1.symm.trans h2)
      · have := (key i hi p hp).2; have := (b3 j (List.mem_range.2 hj) q hq).1; omega
      · have := (key j hj q hq).2; have := (b3 i (List.mem_range.2 hi) p hp).1; omega
      · exact b5 i (List.mem_range.2 hi) j (List.mem_range.2 hj) hij p hp q hq he
    · intro i hi p hp
      dsimp only at hp ⊢
      rw [hpops i hi] at hp
      rcases List.mem_append.1 hp with hp | hp
      · have := hslt p ((every_sublist k i s).subset hp); omega
      · exact (b3 i (List.mem_range.2 hi) p hp).2
  · intro j v hj
    have hmod := Nat.mod_lt j hk
    dsimp only
    rw [hpops _ hmod]
    have hjl : j < seeds.length := by
      by_contra hge
      rw [List.getElem?_eq_none (by omega)] at hj
      simp at hj
    have hsj : s[j]? = some { id := j, params := v, parent := none } := by
      rw [hs, List.getElem?_append_left (by omega), hl0, List.getElem?_mapIdx, hj]; rfl
    refine ⟨_, List.mem_append_left _ ((mem_every k (j % k) s _).2 ⟨j, hsj, (every_index k (j % k) j hmod).2 rfl⟩), rfl, rfl⟩

/-- **C177, generations.** With k populations in a consistent state a generation raises nothing. Only the main population evolves, all others stay as they are; its members play in both
orders against distinct players of the first half of each other population, as many as asked for. Their fitness is the sum of their average scores over all players of all other
populations, mixed with the absolute evaluation. The best member enters the hall of fame. The populations take turns. -/
theorem C177_generation (o : Oracle K n) (ho : Fair o) (c : Settings K) (hc : Sensible c) (k : Nat) (m : Many K n) (games : List (Nat × Nat × K)) (h : ManyConsistent c k m games) :
    ∃ m' new best, manyGeneration o c k m = .ok m' ∧ ManyConsistent c k m' (games ++ new) ∧
      m'.s.generation = m.s.generation + 1 ∧ m'.main = (m.s.generation + 1) % k ∧ (∀ i, i ≠ m.main → m'.pops i = m.pops i) ∧
      selectAndReproduce o c (m.s.generation + 1) (m.pops m.main)
        ((m.pops m.main).map (fitnessOf o (games ++ new) ((otherNumbers k m.main).flatMap (fun i => (m.pops i).map Ind.id)) [])) m.s.next = .ok (m'.pops m.main, m'.s.next) ∧
      m'.s.hallOfFame = m.s.hallOfFame ++ [best] ∧ best ∈ m.pops m.main ∧
      (∀ p ∈ m.pops m.main, fitnessOf o (games ++ new) ((otherNumbers k m.main).flatMap (fun i => (m.pops i).map Ind.id)) [] p ≤
        fitnessOf o (games ++ new) ((otherNumbers k m.main).flatMap (fun i => (m.pops i).map Ind.id)) [] best) ∧
      (∃ fs, Top ((m.pops m.main).map (fitnessOf o (games ++ new) ((otherNumbers k m.main).flatMap (fun i => (m.pops i).map Ind.id)) [])) fs c.numSelected ∧
        m'.s.hallOfFitnesses = m.s.hallOfFitnesses ++ [fs]) ∧
      (∀ i < k, i ≠ m.main → Met new ((m.pops m.main).map Ind.id) (((m.pops i).take (max 1 (c.populationSize / 2))).map Ind.id) c.tournamentSize) ∧
      (∀ g ∈ new, ∃ i < k, i ≠ m.main ∧ ∃ p ∈ m.pops m.main, ∃ q ∈ m.pops i, (g.1 = p.id ∧ g.2.1 = q.id) ∨ (g.1 = q.id ∧ g.2.1 = p.id)) ∧
      new.length = (k - 1) * (2 * (c.populationSize * min c.tournamentSize (max 1 (c.populationSize / 2)))) := by
  obtain ⟨m', new, best, e, st⟩ := manyGeneration_ok o ho c hc k m games h
  exact ⟨m', new, best, e, st.consistent, st.generation, by rw [st.consistent.main, st.generation], st.kept, st.offspring, st.hof, st.mem, st.best, st.fits, st.met, st.members, st.number⟩

/-- **C177, learning.** With a limit on generations learning ends after exactly the generations left, without raising anything. -/
theorem C177_learn (o : Oracle K n) (ho : Fair o) (c : Settings K) (hc : Sensible c) (k : Nat) (hme : c.maxEvaluations = none) (g : Nat) (hg : c.maxGenerations = some g) :
    ∀ (fuel : Nat) (m : Many K n) (games : List (Nat × Nat × K)), ManyConsistent c k m games → m.s.generation ≤ g → g ≤ m.s.generation + fuel →
    ∃ m' new, manyLearn o c k none fuel m = some (.ok m') ∧ ManyConsistent c k m' (games ++ new) ∧ m'.s.generation = g := by
  intro fuel
  induction fuel with
  | zero =>
    intro m games h h1 h2
    refine ⟨m, [], ?_, by simpa using h, by omega⟩
    unfold manyLearn
    rw [if_pos]
    unfold stops
    rw [hg]
    simp only [Bool.or_eq_true, decide_eq_true_eq]
    exact Or.inr (by omega)
  | succ fuel ih =>
    intro m games h h1 h2
    unfold manyLearn
    by_cases hst : stops c none m.s = true
    · rw [if_pos hst]
      refine ⟨m, [], rfl, by simpa using h, ?_⟩
      unfold stops at hst
      rw [hg, hme] at hst
      simp at hst
      omega
    · rw [if_neg hst]
      obtain ⟨m1, new1, best, e, st⟩ := manyGeneration_ok o ho c hc k m games h
      rw [e]
      simp only
      have hlt : m.s.generation < g := by
        unfold stops at hst
        rw [hg, hme] at hst
        simpa using hst
      obtain ⟨m', new2, b1, b2, b3⟩ := ih m1 _ st.consistent (by rw [st.generation]; omega) (by rw [st.generation]; omega)
      exact ⟨m', new1 ++ new2, b1, by rwa [← List.append_assoc], b3⟩

/-- **C177, failure: the budget.** With k ≥ 3 populations and tournaments no larger than half a population, a generation plays k - 1 times as many games as announced. A learner that
has been allowed exactly the announced number of games makes a generation and overruns its budget (k - 1)-fold. -/
theorem C177_negation_budget (o : Oracle K n) (ho : Fair o) (c : Settings K) (hc : Sensible c) (k : Nat) (hk : 3 ≤ k) (ht : 1 ≤ c.tournamentSize)
    (hh : c.tournamentSize ≤ c.populationSize / 2) (hg : c.maxGenerations = none) (m : Many K n) (h : ManyConsistent c k m []) (hme : c.maxEvaluations = some (stepsPerGeneration c)) :
    ∃ m', manyLearn o c k none 1 m = some (.ok m') ∧ m'.s.book.steps = (k - 1) * stepsPerGeneration c ∧ stepsPerGeneration c < m'.s.book.steps := by
  obtain ⟨m', new, best, e, st⟩ := manyGeneration_ok o ho c hc k m [] h
  have hsteps : m'.s.book.steps = (k - 1) * stepsPerGeneration c := by
    rw [st.consistent.reflects.steps, List.nil_append, st.number, Nat.min_eq_left (by omega)]
    unfold stepsPerGeneration
    ring
  have hpos : 0 < stepsPerGeneration c := by
    unfold stepsPerGeneration
    have := hc.some_selected
    have := hc.not_more
    exact Nat.mul_pos (Nat.mul_pos (by omega) (by omega)) (by omega)
  have h2 : 2 * stepsPerGeneration c ≤ (k - 1) * stepsPerGeneration c := Nat.mul_le_mul_right _ (by omega)
  have h0 : m.s.book.steps = 0 := h.reflects.steps
  have s1 : ¬ stops c none m.s = true := by
    unfold stops
    rw [hme, hg, h0]
    simp
  have s2 : stops c none m'.s = true := by
    unfold stops
    rw [hme, hg, hsteps]
    simp
    omega
  refine ⟨m', ?_, hsteps, by omega⟩
  unfold manyLearn
  rw [if_neg s1, e]
  simp only
  unfold manyLearn
  rw [if_pos s2]

/-- **C177, failure: the best part.** The part of each other population that is played against is meant to be the best of it. Without elitism a population consists of new objects after
its turn, none of which has ever played: its first half is no better than its second. -/
theorem C177_negation_best (o : Oracle K n) (ho : Fair o) (c : Settings K) (hc : Sensible c) (he : c.elitism = false) (k : Nat) (m : Many K n) (games : List (Nat × Nat × K))
    (h : ManyConsistent c k m games) :
    ∃ m' new, manyGeneration o c k m = .ok m' ∧ ManyConsistent c k m' (games ++ new) ∧ ∀ p ∈ m'.pops m.main, ∀ g ∈ games ++ new, g.1 ≠ p.id ∧ g.2.1 ≠ p.id := by
  obtain ⟨m', new, best, e, st⟩ := manyGeneration_ok o ho c hc k m games h
  have hm : m.main < k := by rw [h.main]; exact Nat.mod_lt _ h.some
  refine ⟨m', new, e, st.consistent, fun p hp g hg => ?_⟩
  have hge := st.allNew he p hp
  rcases List.mem_append.1 hg with hg | hg
  · have := h.played g hg; omega
  · obtain ⟨i, hi, _, x, hx, y, hy, hcase⟩ := st.members g hg
    have h1 := h.fresh _ hm x hx
    have h2 := h.fresh i hi y hy
    omega

/-- **C177, failure: the caller's seeds.** With fewer seeds than populations the constructor appends the missing ones to the list that the caller passed. -/
theorem C177_negation_seeds (o : Oracle K n) (c : Settings K) (k : Nat) (randomize : Nat → (Fin n → K) → Fin n → K) (seeds : List (Fin n → K)) (h0 : seeds ≠ [])
    (hpos : 1 ≤ c.populationSize) (hlt : seeds.length < k) :
    ∃ m, manyStart o c k randomize seeds = .ok (m, k) ∧ seeds.length < k := by
  have hkp : k ≤ k * c.populationSize := Nat.le_mul_of_pos_right k hpos
  obtain ⟨m, h1, _⟩ := C177_start o c k (by omega) randomize seeds h0 hpos (by omega)
  exact ⟨m, by rwa [Nat.max_eq_left hlt.le] at h1, hlt⟩

/-! ### the hypotheses can be met -/

def popsSettings : Settings Rat := { populationSize := 4, numSelected := 2, elitism := false, parentChildAverage := 1, tournamentSize := 2, hofTournament := 1, maxGenerations := some 3, maxEvaluations := none }

def popsOracle : Oracle Rat 1 :=
  { eval := fun _ p q => if p < q then 1 else -1, sample := fun _ l k => l.take k, pick := fun t => t, mutate := fun t v i => v i + t, shuffle := fun _ l => l, absEval := none }

/-- settings, random functions and two populations made from three seeds that meet the hypotheses of the theorems of C176 -/
example : Sensible popsSettings ∧ Fair popsOracle ∧ ∃ r, rivalsStart popsOracle popsSettings (fun v i => v i + 1) [fun _ => 1, fun _ => 2, fun _ => 3] = .ok r ∧ RivalsConsistent popsSettings r [] := by
  refine ⟨⟨by decide, by decide, by decide⟩, ⟨fun t l k _ => ⟨l, .refl l, rfl⟩, fun t l => .refl l⟩, ?_⟩
  obtain ⟨r, h1, h2, _⟩ := (C176_start popsOracle popsSettings (fun v i => v i + 1) [fun _ => 1, fun _ => 2, fun _ => 3] (by decide) (by decide)).1 (by decide)
  exact ⟨r, h1, h2⟩

/-- three populations made from two seeds that meet the hypotheses of the theorems of C177 -/
example : ∃ m, manyStart popsOracle popsSettings 3 (fun t v i => v i + t) [fun _ => 1, fun _ => 2] = .ok (m, 3) ∧ ManyConsistent popsSettings 3 m [] := by
  obtain ⟨m, h1, h2, _⟩ := C177_start popsOracle popsSettings 3 (by decide) (fun t v i => v i + t) [fun _ => 1, fun _ => 2] (by simp) (by decide) (by decide)
  exact ⟨m, h1, h2⟩

end Verif.Props
