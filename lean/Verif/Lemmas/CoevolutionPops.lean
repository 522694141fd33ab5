import Verif.Spec.CoevolutionPops
/-
Lemmas for C176 and C177.
-/
namespace Verif.Coevolution
open Verif.DataSet (Err)
set_option linter.unusedSectionVars false
variable {K : Type} [Field K] [LinearOrder K] {n : Nat}
open Spec

/-- members of the new population that are not new were members before; without elitism all are new -/
theorem reproduce_ids (o : Oracle K n) (ho : Fair o) [IsStrictOrderedRing K] (c : Settings K) (hc : Sensible c) (t : Nat) (pop : List (Ind K n)) (fits : List K)
    (hl : fits.length = pop.length) (hsize : pop.length = c.populationSize) (hids : (pop.map Ind.id).Nodup) (next : Nat) (hfresh : ∀ p ∈ pop, p.id < next)
    (newpop : List (Ind K n)) (next' : Nat) (hr : selectAndReproduce o c t pop fits next = .ok (newpop, next')) :
    (∀ p ∈ newpop, p.id < next → p ∈ pop) ∧ (c.elitism = false → ∀ p ∈ newpop, next ≤ p.id) := by
  obtain ⟨s1, s2, s3, s4⟩ := select_mem o ho c hc t pop fits hl hsize hids
  have hslt : ∀ p ∈ select o c t pop fits, p.id < next := fun p hp => hfresh p (s3 p hp)
  unfold selectAndReproduce at hr
  by_cases he : c.elitism = true
  · obtain ⟨l, e1, e2, _⟩ := extend_ok o c (select o c t pop fits) s2 c.populationSize next
    obtain ⟨n1, n2, n3, n4⟩ := nodup_extend _ _ _ _ s4 hslt e2
    simp only [he, if_true, e1, bind, Except.bind] at hr
    refine ⟨fun p hp hlt => ?_, fun h => by simp [he] at h⟩
    have key : ∀ q ∈ select o c t pop fits ++ l, q.id < next → q ∈ pop := by
      intro q hq hq'
      rcases List.mem_append.1 hq with hq | hq
      · exact s3 q hq
      · have := n3 q hq; omega
    by_cases hpc : c.parentChildAverage < 1
    · rw [if_pos hpc] at hr
      simp only [pure, Except.pure, Except.ok.injEq, Prod.mk.injEq] at hr
      rw [← hr.1] at hp
      obtain ⟨_, a2⟩ := average_ids c.parentChildAverage (select o c t pop fits ++ l) (next + (c.populationSize - (select o c t pop fits).length))
      obtain ⟨_, a4⟩ := a2 n2
      exact key p ((a4 n1).2 p hp (by omega)) hlt
    · rw [if_neg hpc] at hr
      simp only [pure, Except.pure, Except.ok.injEq, Prod.mk.injEq] at hr
      rw [← hr.1] at hp
      exact key p hp hlt
  · obtain ⟨l, e1, e2, _⟩ := extend_ok o c (select o c t pop fits) s2 (c.populationSize + c.numSelected) next
    obtain ⟨n1, n2, n3, n4⟩ := nodup_extend _ _ _ _ s4 hslt e2
    simp only [he, e1, bind, Except.bind] at hr
    have hdrop : (select o c t pop fits ++ l).drop c.numSelected = l := by
      rw [← s1]; exact List.drop_left
    rw [hdrop] at hr
    have hnew : newpop = l := by
      by_cases hpc : c.parentChildAverage < 1
      · rw [if_pos hpc] at hr
        simp only [pure, Except.pure] at hr
        simp at hr
        exact hr.1.symm
      · rw [if_neg hpc] at hr
        simp only [pure, Except.pure] at hr
        simp at hr
        exact hr.1.symm
    rw [hnew]
    exact ⟨fun p hp hlt => by have := n3 p hp; omega, fun _ => n3⟩

theorem top_take [IsStrictOrderedRing K] (fits : List K) (k : Nat) : Top fits (((fits.insertionSort (· ≤ ·)).reverse).take k) k := by
  refine ⟨((fits.insertionSort (· ≤ ·)).reverse).drop k, ?_, ?_, ?_, ?_⟩
  · rw [List.take_append_drop]
    exact (List.reverse_perm _).trans (List.perm_insertionSort _ _)
  · rw [List.length_take, List.length_reverse, List.length_insertionSort]
  · have h : ((fits.insertionSort (· ≤ ·)).reverse).Pairwise (fun x y => y ≤ x) := by
      rw [List.pairwise_reverse]; exact List.pairwise_insertionSort _ _
    exact h.sublist (List.take_sublist _ _)
  · have h : ((fits.insertionSort (· ≤ ·)).reverse).Pairwise (fun x y => y ≤ x) := by
      rw [List.pairwise_reverse]; exact List.pairwise_insertionSort _ _
    rw [← List.take_append_drop k ((fits.insertionSort (· ≤ ·)).reverse), List.pairwise_append] at h
    exact h.2.2

theorem oneGeneration_eq (o : Oracle K n) (c : Settings K) (s : State K n) : oneGeneration o c s = (do
    let (fits, book) ← evaluatePopulation o c { s with generation := s.generation + 1 }
    finish o c { s with generation := s.generation + 1 } fits book) := rfl

structure Finished (o : Oracle K n) (c : Settings K) (s : State K n) (F : Ind K n → K) (book : Book Nat K) (s' : State K n) (best : Ind K n) : Prop where
  book : s'.book = book
  generation : s'.generation = s.generation
  hof : s'.hallOfFame = s.hallOfFame ++ [best]
  fits : ∃ fs, Top (s.pop.map F) fs c.numSelected ∧ s'.hallOfFitnesses = s.hallOfFitnesses ++ [fs]
  mem : best ∈ s.pop
  best : ∀ p ∈ s.pop, F p ≤ F best
  offspring : selectAndReproduce o c s.generation s.pop (s.pop.map F) s.next = .ok (s'.pop, s'.next)
  size : s'.pop.length = c.populationSize
  ids : (s'.pop.map Ind.id).Nodup
  fresh : ∀ p ∈ s'.pop, p.id < s'.next
  next : s.next ≤ s'.next
  kept : ∀ p ∈ s'.pop, p.id < s.next → p ∈ s.pop
  allNew : c.elitism = false → ∀ p ∈ s'.pop, s.next ≤ p.id

theorem finish_ok (o : Oracle K n) (ho : Fair o) [IsStrictOrderedRing K] (c : Settings K) (hc : Sensible c) (s : State K n) (F : Ind K n → K) (book : Book Nat K)
    (hsize : s.pop.length = c.populationSize) (hids : (s.pop.map Ind.id).Nodup) (hfresh : ∀ p ∈ s.pop, p.id < s.next) :
    ∃ s' best, finish o c s (s.pop.map F) book = .ok s' ∧ Finished o c s F book s' best := by
  have hne : s.pop ≠ [] := by
    intro he; rw [he] at hsize; have := hc.some_selected; have := hc.not_more; simp at hsize; omega
  have hz : (s.pop.map F).zip s.pop = s.pop.map (fun p => (F p, p)) := by
    have : ∀ l : List (Ind K n), (l.map F).zip l = l.map (fun p => (F p, p)) := by
      intro l; induction l with
      | nil => rfl
      | cons a l ih => simp [ih]
    exact this _
  obtain ⟨x, hx⟩ := Verif.Py.firstMax_isSome (fun x : K × Ind K n => x.1) ((s.pop.map F).zip s.pop) (by rw [hz]; simpa using hne)
  obtain ⟨hx1, hx2⟩ := Verif.Py.firstMax_spec _ _ _ hx
  obtain ⟨newpop, next', q1, q2, q3, q4, q5⟩ := reproduce_ok o ho c hc s.generation s.pop (s.pop.map F) (by simp) hsize hids s.next hfresh
  obtain ⟨i1, i2⟩ := reproduce_ids o ho c hc s.generation s.pop (s.pop.map F) (by simp) hsize hids s.next hfresh newpop next' q1
  rw [hz] at hx1 hx2
  obtain ⟨best, hb, rfl⟩ := List.mem_map.1 hx1
  refine ⟨{ pop := newpop, hallOfFame := s.hallOfFame ++ [best], hallOfFitnesses := s.hallOfFitnesses ++ [(((s.pop.map F).insertionSort (· ≤ ·)).reverse).take c.numSelected],
            generation := s.generation, book := book, next := next' }, best, ?_, ?_⟩
  · unfold finish
    simp only [hx, q1, bind, Except.bind, pure, Except.pure]
  · exact ⟨rfl, rfl, rfl, ⟨_, top_take _ _, rfl⟩, hb, fun p hp' => hx2 (F p, p) (List.mem_map_of_mem hp'), q1, q2, q3, q4, q5, i1, i2⟩

/-! ### tournaments -/

theorem rounds_mem (pop2 : List Nat) (size : Option Nat) (pop1 : List Nat) (opps : List (List Nat)) (h : List.Forall₂ (Chosen pop2 size) pop1 opps) :
    (∀ x ∈ (List.zipWith rounds pop1 opps).flatten, (x.1 ∈ pop1 ∧ x.2 ∈ pop2) ∨ (x.2 ∈ pop1 ∧ x.1 ∈ pop2)) ∧
    (∀ p ∈ pop1, ∃ os, Chosen pop2 size p os ∧ ∀ q ∈ os, (p, q) ∈ (List.zipWith rounds pop1 opps).flatten ∧ (q, p) ∈ (List.zipWith rounds pop1 opps).flatten) := by
  induction h with
  | nil => simp
  | @cons a os l1 l2 h _ ih =>
    rw [List.zipWith_cons_cons, List.flatten_cons]
    refine ⟨fun x hx => ?_, fun p hp => ?_⟩
    · rcases List.mem_append.1 hx with hx | hx
      · unfold rounds at hx
        rw [List.mem_flatMap] at hx
        obtain ⟨q, hq, hx⟩ := hx
        have := h.members q hq
        simp only [List.mem_cons, List.not_mem_nil, or_false] at hx
        rcases hx with rfl | rfl
        · exact Or.inl ⟨by simp, this.1⟩
        · exact Or.inr ⟨by simp, this.1⟩
      · rcases ih.1 x hx with ⟨h1, h2⟩ | ⟨h1, h2⟩
        · exact Or.inl ⟨List.mem_cons_of_mem _ h1, h2⟩
        · exact Or.inr ⟨List.mem_cons_of_mem _ h1, h2⟩
    · rcases List.mem_cons.1 hp with rfl | hp
      · refine ⟨os, h, fun q hq => ?_⟩
        have : (p, q) ∈ rounds p os ∧ (q, p) ∈ rounds p os := by
          unfold rounds
          rw [List.mem_flatMap, List.mem_flatMap]
          exact ⟨⟨q, hq, by simp⟩, ⟨q, hq, by simp⟩⟩
        exact ⟨List.mem_append_left _ this.1, List.mem_append_left _ this.2⟩
      · obtain ⟨os', h1, h2⟩ := ih.2 p hp
        exact ⟨os', h1, fun q hq => ⟨List.mem_append_right _ (h2 q hq).1, List.mem_append_right _ (h2 q hq).2⟩⟩

theorem rounds_count (pop2 : List Nat) (k : Nat) (pop1 : List Nat) (opps : List (List Nat)) (h : List.Forall₂ (Chosen pop2 (some k)) pop1 opps)
    (hd : ∀ p ∈ pop1, p ∉ pop2) : ((List.zipWith rounds pop1 opps).flatten).length = 2 * (pop1.length * min k pop2.length) := by
  induction h with
  | nil => simp
  | @cons a os l1 l2 h _ ih =>
    rw [List.zipWith_cons_cons, List.flatten_cons, List.length_append, rounds_length, List.length_cons, Nat.add_mul, ih (fun p hp => hd p (by simp [hp]))]
    have hn := h.number
    simp only at hn
    have : List.filter (fun q => decide (q ≠ a)) pop2 = pop2 := by
      rw [List.filter_eq_self]
      intro q hq
      simp only [ne_eq, decide_not, Bool.not_eq_eq_eq_not, Bool.not_true, decide_eq_false_iff_not]
      rintro rfl
      exact hd q (by simp) hq
    rw [hn, this]
    omega

theorem tournament_full (eval : Nat → Nat → Nat → K) (sample : Nat → List Nat → Nat → List Nat) (hs : GoodSample sample) (pop1 pop2 : List Nat) (k : Nat)
    (b : Book Nat K) (games : List (Nat × Nat × K)) (h : Reflects b games) (hp : Paired games) :
    ∃ new, Reflects (doTournament eval sample b pop1 pop2 (some k)) (games ++ new) ∧ Paired (games ++ new) ∧ new.length ≤ 2 * (pop1.length * k) ∧
      ((∀ p ∈ pop1, p ∉ pop2) → new.length = 2 * (pop1.length * min k pop2.length)) ∧
      (∀ g ∈ new, (g.1 ∈ pop1 ∧ g.2.1 ∈ pop2) ∨ (g.2.1 ∈ pop1 ∧ g.1 ∈ pop2)) ∧ Met new pop1 pop2 k := by
  obtain ⟨opps, new, h1, h2, _, h4, h5⟩ := Verif.Props.C162_tournament eval sample hs pop1 pop2 (some k) b games h hp
  have hlen : new.length = ((List.zipWith rounds pop1 opps).flatten).length := by rw [← h2, List.length_map]
  obtain ⟨m1, m2⟩ := rounds_mem pop2 (some k) pop1 opps h1
  rw [← h2] at m1 m2
  refine ⟨new, h4, h5, ?_, fun hd => ?_, fun g hg => ?_, fun p hp' => ?_⟩
  · rw [hlen]; exact tournament_steps pop2 k pop1 opps h1
  · rw [hlen]; exact rounds_count pop2 k pop1 opps h1 hd
  · exact m1 (g.1, g.2.1) (List.mem_map_of_mem (f := fun g : Nat × Nat × K => (g.1, g.2.1)) hg)
  · obtain ⟨os, c1, c2⟩ := m2 p hp'
    refine ⟨os, c1, fun q hq => ?_⟩
    obtain ⟨a1, a2⟩ := c2 q hq
    obtain ⟨g1, b1, b2⟩ := List.mem_map.1 a1
    obtain ⟨g2, b3, b4⟩ := List.mem_map.1 a2
    obtain ⟨x1, x2, x3⟩ := g1
    obtain ⟨y1, y2, y3⟩ := g2
    simp only [Prod.mk.injEq] at b2 b4
    obtain ⟨rfl, rfl⟩ := b2
    obtain ⟨rfl, rfl⟩ := b4
    exact ⟨⟨_, b1⟩, ⟨_, b3⟩⟩

theorem met_mono (new new' : List (Nat × Nat × K)) (pop1 pop2 : List Nat) (k : Nat) (h : Met new pop1 pop2 k) (hs : ∀ g ∈ new, g ∈ new') : Met new' pop1 pop2 k := by
  intro p hp
  obtain ⟨os, h1, h2⟩ := h p hp
  refine ⟨os, h1, fun q hq => ?_⟩
  obtain ⟨⟨v, hv⟩, ⟨w, hw⟩⟩ := h2 q hq
  exact ⟨⟨v, hs _ hv⟩, ⟨w, hs _ hw⟩⟩

/-! ### fitness sharing -/

theorem sharedFitness_eq (games : List (Nat × Nat × K)) (hosts parasites : List Nat) (h : Nat) :
    sharedFitness (average games) hosts parasites h = share games hosts parasites h := by
  unfold sharedFitness share
  simp only
  have hlen : parasites.length = (parasites.filter (fun p => decide (average games h p = 0))).length + (parasites.filter (fun p => decide (average games h p ≠ 0))).length := by
    have := List.length_eq_length_filter_add (l := parasites) (fun p => decide (average games h p = 0))
    rw [this]
    first | rfl | (congr 2; exact List.filter_congr (fun p _ => by simp))
  by_cases hu : parasites.length > (parasites.filter (fun p => decide (average games h p = 0))).length
  · rw [if_pos hu]
    congr 2
    omega
  · rw [if_neg hu]
    have h0 : (parasites.filter (fun p => decide (average games h p ≠ 0))).length = 0 := by omega
    have h1 : parasites.filter (fun p => decide (0 < average games h p)) = [] := by
      rw [List.filter_eq_nil_iff]
      intro p hp
      rw [List.length_eq_zero_iff, List.filter_eq_nil_iff] at h0
      have := h0 p hp
      simp only [ne_eq, decide_not, Bool.not_eq_eq_eq_not, Bool.not_true, decide_eq_false_iff_not, not_not] at this
      simp [this]
    rw [h1, h0]
    simp

theorem sharedFitnesses_eq (b : Book Nat K) (games : List (Nat × Nat × K)) (h : Reflects b games) (hp : Paired games) (hosts parasites : List Nat) :
    sharedFitnesses b hosts parasites = .ok (hosts.map (sharedFit games hosts parasites)) := by
  unfold sharedFitnesses
  by_cases h0 : parasites = []
  · subst h0
    simp only [List.length_nil, if_true]
    congr 1
  · have hl : ¬ parasites.length = 0 := by simpa using h0
    rw [if_neg hl]
    rw [co_mapM_ok _ (fun p => hosts.map (fun h => average games h p)) parasites (fun p _ => co_mapM_ok _ (fun h => average games h p) hosts (fun x _ => beats_eq b games h hp x p))]
    have hbt : (fun x p => ((beats b x p).toOption.getD 0 : K)) = average games := by
      funext x p
      rw [beats_eq b games h hp x p]; rfl
    have hbt' : ∀ x p, ((beats b x p).toOption.getD 0 : K) = average games x p := fun x p => congrFun (congrFun hbt x) p
    simp only [hbt', bind, Except.bind]
    apply co_mapM_ok
    intro x hx
    have hno : ¬ parasites.any (fun p => decide (0 < average games x p ∧ beatsum (average games) hosts p = 0)) = true := by
      rw [List.any_eq_true]
      rintro ⟨p, _, hp2⟩
      simp only [decide_eq_true_eq] at hp2
      obtain ⟨a, hb⟩ := hp2
      unfold beatsum at hb
      rw [List.length_eq_zero_iff, List.filter_eq_nil_iff] at hb
      exact hb x hx (by simpa using a)
    rw [if_neg hno, globalScore_eq b games h hp x]
    simp only [pure, Except.pure, sharedFitness_eq]
    unfold sharedFit overall
    rw [if_neg h0]

/-! ### two populations -/

theorem rivalOpponents_ok (shared : Bool) (shuffle : Nat → List (Nat × K × Nat) → List (Nat × K × Nat)) (hsh : ∀ t l, (shuffle t l).Perm l)
    (r : Rivals K n) (games : List (Nat × Nat × K)) (hrefl : Reflects r.s.book games) (hpair : Paired games)
    (hnd : (r.parasites.map Ind.id).Nodup) (hold : r.old.length = r.s.generation) (k : Nat) (hk : shared = true → k ≤ r.parasites.length) :
    ∃ l, rivalOpponents shared shuffle r k = .ok l ∧ (∀ x ∈ l, x ∈ r.parasites.map Ind.id) ∧ l.Nodup ∧ min k l.length = min k r.parasites.length ∧
      (¬ (shared = true ∧ 2 < r.s.generation) → l = r.parasites.map Ind.id) ∧
      (shared = true → 2 < r.s.generation → ∃ before, r.old[r.s.generation - 2]? = some before ∧ Greedy games (r.parasites.map Ind.id) before l) := by
  unfold rivalOpponents
  by_cases hc : shared = true ∧ r.s.generation > 2
  · rw [if_pos hc]
    obtain ⟨hs, hg⟩ := hc
    have hlt : r.old.length - 2 < r.old.length := by omega
    rw [List.getElem?_eq_getElem hlt]
    obtain ⟨l, e1, e2, e3, e4, e5⟩ := sharedSampling_spec shuffle hsh r.s.book games hrefl hpair k (r.parasites.map Ind.id) r.old[r.old.length - 2] hnd (by rw [List.length_map]; exact hk hs)
    refine ⟨l, e1, e4, e3, ?_, fun h => absurd ⟨hs, hg⟩ h, fun _ _ => ⟨r.old[r.old.length - 2], ?_, e5⟩⟩
    · rw [e2, Nat.min_self, Nat.min_eq_left (hk hs)]
    · rw [← hold, List.getElem?_eq_getElem hlt]
  · rw [if_neg hc]
    exact ⟨_, rfl, fun _ h => h, hnd, by rw [List.length_map], fun _ => rfl, fun h1 h2 => absurd ⟨h1, h2⟩ hc⟩

/-- what the evaluation does -/
structure Evaluated (c : Settings K) (shared : Bool) (r : Rivals K n) (games new : List (Nat × Nat × K)) : Prop where
  budget : new.length ≤ r.s.pop.length * c.tournamentSize * 2
  members : ∀ g ∈ new, (g.1 ∈ r.s.pop.map Ind.id ∧ g.2.1 ∈ (r.parasites ++ r.s.hallOfFame).map Ind.id) ∨
    (g.2.1 ∈ r.s.pop.map Ind.id ∧ g.1 ∈ (r.parasites ++ r.s.hallOfFame).map Ind.id)
  opponents : ∃ opponents : List Nat, (∀ x ∈ opponents, x ∈ r.parasites.map Ind.id) ∧ opponents.Nodup ∧
    Met new (r.s.pop.map Ind.id) opponents (min (c.tournamentSize - min (r.s.generation + 1) c.hofTournament) c.populationSize) ∧
    (¬ (shared = true ∧ 2 < r.s.generation + 1) → opponents = r.parasites.map Ind.id) ∧
    (shared = true → 2 < r.s.generation + 1 → ∃ before, (r.old ++ [r.s.pop.map Ind.id])[r.s.generation + 1 - 2]? = some before ∧ Greedy games (r.parasites.map Ind.id) before opponents)
  famous : 0 < min (r.s.generation + 1) c.hofTournament → Met new (r.s.pop.map Ind.id) (r.s.hallOfFame.map Ind.id) (min (r.s.generation + 1) c.hofTournament)
  some : c.hofTournament < c.tournamentSize → 1 ≤ r.s.pop.length → 1 ≤ r.parasites.length → 2 ≤ new.length

theorem rivalsEvaluate_ok (o : Oracle K n) (ho : Fair o) (c : Settings K) (hc : Sensible c) (shared : Bool)
    (shuffle : Nat → List (Nat × K × Nat) → List (Nat × K × Nat)) (hsh : ∀ t l, (shuffle t l).Perm l) (hts : shared = true → c.tournamentSize ≤ c.populationSize)
    (r : Rivals K n) (games : List (Nat × Nat × K)) (h : RivalsConsistent c r games) :
    ∃ b new, rivalsEvaluate o c shared shuffle { r with s := { r.s with generation := r.s.generation + 1 }, old := r.old ++ [r.s.pop.map Ind.id] } =
        .ok (r.s.pop.map (rivalFitness (games ++ new) c r), b) ∧
      Reflects b (games ++ new) ∧ Paired (games ++ new) ∧ Evaluated c shared r games new := by
  have hids := h.ids
  rw [List.map_append, List.nodup_append] at hids
  obtain ⟨hn1, hn2, hn3⟩ := hids
  have hmin : min (r.s.generation + 1) c.hofTournament ≤ c.hofTournament := Nat.min_le_right _ _
  have hhof := hc.hof
  obtain ⟨l, l1, l2, l3, l4, l5, l6⟩ := rivalOpponents_ok shared shuffle hsh
    { r with s := { r.s with generation := r.s.generation + 1 }, old := r.old ++ [r.s.pop.map Ind.id] } games h.reflects h.paired hn2 (by simp [h.old])
    (c.tournamentSize - min (r.s.generation + 1) c.hofTournament) (fun hs => by have := hts hs; have := h.parasites; simp only; omega)
  dsimp only at l1 l2 l3 l4 l5 l6
  rw [h.parasites] at l4
  unfold rivalsEvaluate
  dsimp only
  rw [l1]
  simp only [bind, Except.bind]
  have hk : (if l.length < c.tournamentSize - min (r.s.generation + 1) c.hofTournament then l.length else c.tournamentSize - min (r.s.generation + 1) c.hofTournament) =
      min (c.tournamentSize - min (r.s.generation + 1) c.hofTournament) c.populationSize := by
    rw [← l4]; split <;> omega
  rw [hk]
  obtain ⟨new1, r1, p1, b1, n1, m1, t1⟩ := tournament_full o.eval o.sample ho.sample (r.s.pop.map Ind.id) l
    (min (c.tournamentSize - min (r.s.generation + 1) c.hofTournament) c.populationSize) r.s.book games h.reflects h.paired
  have hdisj : ∀ p ∈ r.s.pop.map Ind.id, p ∉ l := fun p hp hl => hn3 p hp p (l2 p hl) rfl
  have hn := n1 hdisj
  rw [List.length_map] at b1 hn
  have hmono : r.s.pop.length * min (c.tournamentSize - min (r.s.generation + 1) c.hofTournament) c.populationSize ≤
      r.s.pop.length * (c.tournamentSize - min (r.s.generation + 1) c.hofTournament) := Nat.mul_le_mul_left _ (Nat.min_le_left _ _)
  have hsplit : r.s.pop.length * (c.tournamentSize - min (r.s.generation + 1) c.hofTournament) + r.s.pop.length * min (r.s.generation + 1) c.hofTournament =
      r.s.pop.length * c.tournamentSize := by
    rw [← Nat.mul_add]; congr 1; omega
  have hge : c.hofTournament < c.tournamentSize → 1 ≤ r.s.pop.length → 1 ≤ r.parasites.length → 2 ≤ new1.length := by
    intro a1 a2 a3
    rw [hn]
    have hl : 1 ≤ min (min (c.tournamentSize - min (r.s.generation + 1) c.hofTournament) c.populationSize) l.length := by
      have := h.parasites
      have := l4
      omega
    have := Nat.mul_le_mul a2 hl
    omega
  have hmem1 : ∀ g ∈ new1, (g.1 ∈ r.s.pop.map Ind.id ∧ g.2.1 ∈ (r.parasites ++ r.s.hallOfFame).map Ind.id) ∨
      (g.2.1 ∈ r.s.pop.map Ind.id ∧ g.1 ∈ (r.parasites ++ r.s.hallOfFame).map Ind.id) := by
    intro g hg
    rw [List.map_append]
    rcases m1 g hg with ⟨x, y⟩ | ⟨x, y⟩
    · exact Or.inl ⟨x, List.mem_append_left _ (l2 _ y)⟩
    · exact Or.inr ⟨x, List.mem_append_left _ (l2 _ y)⟩
  by_cases h0 : min (r.s.generation + 1) c.hofTournament > 0
  · rw [if_pos h0]
    obtain ⟨new2, r2, p2, b2, _, m2, t2⟩ := tournament_full o.eval o.sample ho.sample (r.s.pop.map Ind.id) (r.s.hallOfFame.map Ind.id) (min (r.s.generation + 1) c.hofTournament) _ _ r1 p1
    rw [List.append_assoc] at r2 p2
    rw [List.length_map] at b2
    refine ⟨_, new1 ++ new2, ?_, r2, p2, ?_, ?_, ⟨l, l2, l3, ?_, l5, l6⟩, ?_, ?_⟩
    · rw [sharedFitnesses_eq _ _ r2 p2]
      simp only
      rw [if_pos h0, sharedFitnesses_eq _ _ r2 p2]
      simp only [pure, Except.pure]
      congr 2
      apply List.ext_getElem?
      intro i
      simp only [List.getElem?_map, List.zip_eq_zipWith, List.getElem?_zipWith]
      cases hi : r.s.pop[i]? with
      | none => simp
      | some p =>
        simp only [Option.map_some, Option.some.injEq]
        unfold rivalFitness
        rw [if_pos h0]
    · rw [List.length_append]; omega
    · intro g hg
      rcases List.mem_append.1 hg with hg | hg
      · exact hmem1 g hg
      · rw [List.map_append]
        rcases m2 g hg with ⟨x, y⟩ | ⟨x, y⟩
        · exact Or.inl ⟨x, List.mem_append_right _ y⟩
        · exact Or.inr ⟨x, List.mem_append_right _ y⟩
    · exact met_mono _ _ _ _ _ t1 (fun g hg => List.mem_append_left _ hg)
    · intro _
      exact met_mono _ _ _ _ _ t2 (fun g hg => List.mem_append_right _ hg)
    · intro a1 a2 a3; have := hge a1 a2 a3; rw [List.length_append]; omega
  · rw [if_neg h0]
    refine ⟨_, new1, ?_, r1, p1, ?_, hmem1, ⟨l, l2, l3, t1, l5, l6⟩, fun h => absurd h h0, hge⟩
    · rw [sharedFitnesses_eq _ _ r1 p1]
      simp only
      rw [if_neg h0]
      simp only [pure, Except.pure]
      congr 2
      rw [List.map_map]
      apply List.map_congr_left
      intro p _
      unfold rivalFitness
      rw [if_neg h0]
      rfl
    · omega

/-- what a generation does -/
structure RivalsStep (o : Oracle K n) (c : Settings K) (shared : Bool) (r : Rivals K n) (games new : List (Nat × Nat × K)) (best : Ind K n) (r' : Rivals K n) : Prop where
  consistent : RivalsConsistent c r' (games ++ new)
  evaluated : Evaluated c shared r games new
  generation : r'.s.generation = r.s.generation + 1
  hosts : r'.s.pop = r.parasites
  old : r'.old = r.old ++ [r.s.pop.map Ind.id]
  hof : r'.s.hallOfFame = r.s.hallOfFame ++ [best]
  fits : ∃ fs, Top (r.s.pop.map (rivalFitness (games ++ new) c r)) fs c.numSelected ∧ r'.s.hallOfFitnesses = r.s.hallOfFitnesses ++ [fs]
  mem : best ∈ r.s.pop
  best : ∀ p ∈ r.s.pop, rivalFitness (games ++ new) c r p ≤ rivalFitness (games ++ new) c r best
  offspring : selectAndReproduce o c (r.s.generation + 1) r.s.pop (r.s.pop.map (rivalFitness (games ++ new) c r)) r.s.next = .ok (r'.parasites, r'.s.next)
  next : r.s.next ≤ r'.s.next
  allNew : c.elitism = false → ∀ p ∈ r'.parasites, r.s.next ≤ p.id

theorem rivalsGeneration_ok (o : Oracle K n) (ho : Fair o) [IsStrictOrderedRing K] (c : Settings K) (hc : Sensible c) (shared : Bool)
    (shuffle : Nat → List (Nat × K × Nat) → List (Nat × K × Nat)) (hsh : ∀ t l, (shuffle t l).Perm l) (hts : shared = true → c.tournamentSize ≤ c.populationSize)
    (r : Rivals K n) (games : List (Nat × Nat × K)) (h : RivalsConsistent c r games) :
    ∃ r' new best, rivalsGeneration o c shared shuffle r = .ok r' ∧ RivalsStep o c shared r games new best r' := by
  obtain ⟨b, new, e1, e2, e3, e4⟩ := rivalsEvaluate_ok o ho c hc shared shuffle hsh hts r games h
  have hids := h.ids
  rw [List.map_append, List.nodup_append] at hids
  obtain ⟨hn1, hn2, hn3⟩ := hids
  obtain ⟨s', best, f1, f2⟩ := finish_ok o ho c hc { r.s with generation := r.s.generation + 1 } (rivalFitness (games ++ new) c r) b h.size hn1
    (fun p hp => h.fresh p (List.mem_append_left _ hp))
  have hnext := f2.next
  dsimp only at f1 hnext
  refine ⟨{ s := { s' with pop := r.parasites }, parasites := s'.pop, old := r.old ++ [r.s.pop.map Ind.id] }, new, best, ?_, ?_⟩
  · unfold rivalsGeneration
    dsimp only
    rw [e1]
    simp only [bind, Except.bind, f1, pure, Except.pure]
  · have hof := f2.hof
    obtain ⟨fs, g1, g2⟩ := f2.fits
    refine ⟨⟨h.parasites, f2.size, ?_, ?_, ?_, ?_, ?_, ?_, ?_, by rw [← f2.book] at e2; exact e2, e3⟩, e4, f2.generation, rfl, rfl, hof, ⟨fs, g1, g2⟩, f2.mem, f2.best, f2.offspring, hnext, f2.allNew⟩
    · rw [List.map_append, List.nodup_append]
      refine ⟨hn2, f2.ids, ?_⟩
      intro x hx y hy he
      obtain ⟨p, hp, rfl⟩ := List.mem_map.1 hx
      obtain ⟨q, hq, rfl⟩ := List.mem_map.1 hy
      have hlt := h.fresh p (List.mem_append_right _ hp)
      have hq' := f2.kept q hq (by dsimp only; omega)
      exact hn3 q.id (List.mem_map_of_mem hq') p.id (List.mem_map_of_mem hp) he.symm
    · intro p hp
      rcases List.mem_append.1 hp with hp | hp
      · exact lt_of_lt_of_le (h.fresh p (List.mem_append_right _ hp)) hnext
      · exact f2.fresh p hp
    · intro p hp
      rw [show (({ s' with pop := r.parasites } : State K n)).hallOfFame = s'.hallOfFame from rfl, hof] at hp
      rcases List.mem_append.1 hp with hp | hp
      · exact lt_of_lt_of_le (h.famous p hp) hnext
      · rw [List.mem_singleton.1 hp]
        exact lt_of_lt_of_le (h.fresh best (List.mem_append_left _ f2.mem)) hnext
    · intro g hg
      have hlt1 : ∀ x ∈ r.s.pop.map Ind.id, x < s'.next := by
        intro x hx
        obtain ⟨p, hp, rfl⟩ := List.mem_map.1 hx
        exact lt_of_lt_of_le (h.fresh p (List.mem_append_left _ hp)) hnext
      have hlt2 : ∀ x ∈ (r.parasites ++ r.s.hallOfFame).map Ind.id, x < s'.next := by
        intro x hx
        obtain ⟨p, hp, rfl⟩ := List.mem_map.1 hx
        rcases List.mem_append.1 hp with hp | hp
        · exact lt_of_lt_of_le (h.fresh p (List.mem_append_right _ hp)) hnext
        · exact lt_of_lt_of_le (h.famous p hp) hnext
      rcases List.mem_append.1 hg with hg | hg
      · have := h.played g hg
        exact ⟨lt_of_lt_of_le this.1 hnext, lt_of_lt_of_le this.2 hnext⟩
      · rcases e4.members g hg with ⟨x, y⟩ | ⟨x, y⟩
        · exact ⟨hlt1 _ x, hlt2 _ y⟩
        · exact ⟨hlt2 _ y, hlt1 _ x⟩
    · show s'.hallOfFame.length = s'.generation
      rw [hof, f2.generation, List.length_append, h.hof]; rfl
    · show s'.hallOfFitnesses.length = s'.generation
      rw [g2, f2.generation, List.length_append, h.fits]; rfl
    · show (r.old ++ [r.s.pop.map Ind.id]).length = s'.generation
      rw [f2.generation, List.length_append, h.old]; rfl

theorem rivalsLearn_spec (o : Oracle K n) (ho : Fair o) [IsStrictOrderedRing K] (c : Settings K) (hc : Sensible c) (shared : Bool)
    (shuffle : Nat → List (Nat × K × Nat) → List (Nat × K × Nat)) (hsh : ∀ t l, (shuffle t l).Perm l) (hts : shared = true → c.tournamentSize ≤ c.populationSize) (limit : Option Nat) :
    ∀ (fuel : Nat) (s : Rivals K n) (games : List (Nat × Nat × K)), RivalsConsistent c s games →
    ∀ r, rivalsLearn o c shared shuffle limit fuel s = some r → ∃ s' new, r = .ok s' ∧ RivalsConsistent c s' (games ++ new) ∧ stops c limit s'.s = true ∧ s.s.generation ≤ s'.s.generation ∧
      (∀ m, (limit = some m ∨ c.maxEvaluations = some m) → games.length ≤ m → games.length + new.length ≤ m) ∧
      (∀ m, c.maxGenerations = some m → s.s.generation ≤ m → s'.s.generation ≤ m) := by
  intro fuel
  induction fuel with
  | zero =>
    intro s games h r hr
    unfold rivalsLearn at hr
    by_cases hst : stops c limit s.s = true
    · rw [if_pos hst] at hr
      exact ⟨s, [], by simpa using hr.symm, by simpa using h, hst, le_rfl, fun m _ h => by simpa using h, fun m _ h => h⟩
    · rw [if_neg hst] at hr; simp at hr
  | succ fuel ih =>
    intro s games h r hr
    unfold rivalsLearn at hr
    by_cases hst : stops c limit s.s = true
    · rw [if_pos hst] at hr
      exact ⟨s, [], by simpa using hr.symm, by simpa using h, hst, le_rfl, fun m _ h => by simpa using h, fun m _ h => h⟩
    · rw [if_neg hst] at hr
      obtain ⟨s1, new1, best, e1, st⟩ := rivalsGeneration_ok o ho c hc shared shuffle hsh hts s games h
      have g1 := st.generation
      have l1 := st.evaluated.budget
      rw [h.size] at l1
      rw [e1] at hr
      simp only at hr
      obtain ⟨s', new2, hr', c2, st2, gen2, lim2, max2⟩ := ih s1 _ st.consistent r hr
      refine ⟨s', new1 ++ new2, hr', by rwa [← List.append_assoc], st2, by omega, ?_, ?_⟩
      · intro m hm _
        have hsteps := h.reflects.steps
        have hle : games.length + new1.length ≤ m := by
          rw [Bool.not_eq_true] at hst
          unfold stops at hst
          simp only [Bool.or_eq_false_iff] at hst
          obtain ⟨⟨ha, hb⟩, _⟩ := hst
          have l1' : new1.length ≤ stepsPerGeneration c := l1
          rcases hm with hm | hm
          · rw [hm] at ha; simp only [decide_eq_false_iff_not] at ha; omega
          · rw [hm] at hb; simp only [decide_eq_false_iff_not] at hb; omega
        have := lim2 m hm (by rw [List.length_append]; exact hle)
        rw [List.length_append] at this ⊢
        omega
      · intro m hm hle
        apply max2 m hm
        rw [Bool.not_eq_true] at hst
        unfold stops at hst
        simp only [Bool.or_eq_false_iff] at hst
        obtain ⟨_, hc'⟩ := hst
        rw [hm] at hc'
        simp only [decide_eq_false_iff_not] at hc'
        omega

theorem rivalsLearn_ends (o : Oracle K n) (ho : Fair o) [IsStrictOrderedRing K] (c : Settings K) (hc : Sensible c) (shared : Bool)
    (shuffle : Nat → List (Nat × K × Nat) → List (Nat × K × Nat)) (hsh : ∀ t l, (shuffle t l).Perm l) (hts : shared = true → c.tournamentSize ≤ c.populationSize) (limit : Option Nat) :
    ∀ (fuel : Nat) (s : Rivals K n) (games : List (Nat × Nat × K)), RivalsConsistent c s games →
    ((∃ m, c.maxGenerations = some m ∧ m ≤ s.s.generation + fuel) ∨
     (c.hofTournament < c.tournamentSize ∧ ∃ m, (limit = some m ∨ c.maxEvaluations = some m) ∧ m ≤ games.length + fuel)) →
    ∃ r, rivalsLearn o c shared shuffle limit fuel s = some r := by
  have h1 := hc.some_selected
  have h2 := hc.not_more
  intro fuel
  induction fuel with
  | zero =>
    intro s games h hcase
    refine ⟨.ok s, ?_⟩
    unfold rivalsLearn
    rw [if_pos]
    unfold stops
    simp only [Bool.or_eq_true]
    have hsteps := h.reflects.steps
    rcases hcase with ⟨m, hm, hle⟩ | ⟨h3, m, hm, hle⟩
    · right; rw [hm]; simpa using hle
    · left
      have hpos : 0 < stepsPerGeneration c := by
        unfold stepsPerGeneration
        exact Nat.mul_pos (Nat.mul_pos (by omega) (by omega)) (by omega)
      rcases hm with hm | hm
      · left; rw [hm]; simp only [decide_eq_true_eq]; omega
      · right; rw [hm]; simp only [decide_eq_true_eq]; omega
  | succ fuel ih =>
    intro s games h hcase
    unfold rivalsLearn
    by_cases hst : stops c limit s.s = true
    · rw [if_pos hst]; exact ⟨_, rfl⟩
    · rw [if_neg hst]
      obtain ⟨s1, new1, best, e1, st⟩ := rivalsGeneration_ok o ho c hc shared shuffle hsh hts s games h
      have g1 := st.generation
      rw [e1]
      simp only
      apply ih s1 _ st.consistent
      rcases hcase with ⟨m, hm, hle⟩ | ⟨h3, m, hm, hle⟩
      · exact Or.inl ⟨m, hm, by omega⟩
      · refine Or.inr ⟨h3, m, hm, ?_⟩
        have := st.evaluated.some h3 (by rw [h.size]; omega) (by rw [h.parasites]; omega)
        rw [List.length_append]; omega

end Verif.Coevolution
