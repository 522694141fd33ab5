import Verif.Props.Coevolution
/-
Property theorems C163 (fitness sharing and shared sampling in co-evolution, coevolution.py:203-236 and competitivecoevolution.py:31-64).
-/
namespace Verif.Coevolution
open Verif.DataSet (Err)
set_option linter.unusedSectionVars false

namespace Spec
variable {α K : Type} [DecidableEq α] [Field K] [LinearOrder K]

/-- the players of a list that `p` beats on average -/
def victims (games : List (α × α × K)) (p : α) (l : List α) : List α := l.filter (fun q => decide (0 < average games p q))

/-- a greedy cover: every chosen player beats at least as many of the players not beaten so far as any other remaining candidate -/
inductive Greedy (games : List (α × α × K)) : List α → List α → List α → Prop
  | nil (cand rel : List α) : Greedy games cand rel []
  | cons (cand rel rest : List α) (best : α) (hm : best ∈ cand)
      (hbest : ∀ q ∈ cand, (victims games q rel).length ≤ (victims games best rel).length)
      (hrest : Greedy games (cand.erase best) (rel.filter (fun q => decide (q ∉ victims games best rel))) rest) : Greedy games cand rel (best :: rest)

/-- all scores of a player, and of the players against it -/
def scoresOf (games : List (α × α × K)) (p : α) : List K := (games.filter (fun g => decide (g.1 = p))).map (fun g => g.2.2)
def scoresAgainst (games : List (α × α × K)) (p : α) : List K := (games.filter (fun g => decide (g.2.1 = p))).map (fun g => g.2.2)

end Spec

variable {α K : Type} [DecidableEq α] [Field K] [LinearOrder K]
open Spec

theorem beatenBy_eq (b : Book α K) (games : List (α × α × K)) (h : Reflects b games) (hp : Paired games) (p : α) (l : List α) :
    beatenBy b p l = .ok (victims games p l) := by
  unfold beatenBy
  rw [co_mapM_ok _ (fun opp => (opp, average games p opp)) l (fun q _ => by rw [beats_eq b games h hp p q]; rfl)]
  show Except.ok _ = _
  congr 1
  unfold victims
  induction l with
  | nil => rfl
  | cons a l ih =>
    rw [List.map_cons, List.filter_cons, List.filter_cons]
    by_cases h0 : 0 < average games p a
    · simp only [h0, decide_true, if_true, List.map_cons, ih]
    · simp only [h0, decide_false, Bool.false_eq_true, if_false, ih]

/-- the opponents of a player, in order -/
theorem opponents_between (games : List (α × α × K)) (p q : α) (h : q ∈ (games.filter (fun g => decide (g.1 = p))).map (fun g => g.2.1)) : between games p q ≠ [] := by
  obtain ⟨g, hg, rfl⟩ := List.mem_map.1 h
  rw [List.mem_filter] at hg
  have hg2 : g.1 = p := by simpa using hg.2
  unfold between
  intro he
  rw [List.map_eq_nil_iff, List.filter_eq_nil_iff] at he
  exact he g hg.1 (by simp [hg2])

theorem globalAdd_eq (b : Book α K) (games : List (α × α × K)) (h : Reflects b games) (hp : Paired games) (p q : α) (hq : between games p q ≠ []) (acc : K × Nat) :
    globalAdd b p acc q = .ok (acc.1 + (between games p q).sum - (between games q p).sum, acc.2 + (between games p q).length + (between games q p).length) := by
  have hq' : between games q p ≠ [] := by
    intro h0
    have := hp p q
    rw [h0] at this
    exact hq (List.length_eq_zero_iff.1 this)
  unfold globalAdd
  rw [h.results p q, if_neg hq, h.results q p, if_neg hq']

theorem globalFold_eq (b : Book α K) (games : List (α × α × K)) (h : Reflects b games) (hp : Paired games) (p : α) : ∀ (l : List α), (∀ q ∈ l, between games p q ≠ []) →
    ∀ acc : K × Nat, l.foldlM (globalAdd b p) acc = .ok (acc.1 + (l.map (fun q => (between games p q).sum - (between games q p).sum)).sum,
      acc.2 + (l.map (fun q => (between games p q).length + (between games q p).length)).sum) := by
  intro l
  induction l with
  | nil => intro _ acc; simp [pure, Except.pure]
  | cons a l ih =>
    intro hl acc
    rw [List.foldlM_cons, globalAdd_eq b games h hp p a (hl a (by simp))]
    simp only [bind, Except.bind]
    rw [ih (fun q hq => hl q (by simp [hq]))]
    simp only [List.map_cons, List.sum_cons]
    congr 2
    · ring
    · omega

theorem globalScore_ok (b : Book α K) (games : List (α × α × K)) (h : Reflects b games) (hp : Paired games) (p : α) : ∃ v, globalScore b p = .ok v := by
  unfold globalScore
  rw [h.opponents p]
  split
  · exact ⟨_, rfl⟩
  · rename_i opps heq
    split at heq
    · simp at heq
    · simp only [Option.some.injEq] at heq
      subst heq
      rw [globalFold_eq b games h hp p _ (fun q hq => opponents_between games p q hq)]
      exact ⟨_, rfl⟩

theorem globalScore_eq (b : Book α K) (games : List (α × α × K)) (h : Reflects b games) (hp : Paired games) (p : α) :
    globalScore b p = .ok ((((games.filter (fun g => decide (g.1 = p))).map (fun g => g.2.1)).map (fun q => (between games p q).sum - (between games q p).sum)).sum /
      (((((games.filter (fun g => decide (g.1 = p))).map (fun g => g.2.1)).map (fun q => (between games p q).length + (between games q p).length)).sum : Nat) + 1 / 100)) := by
  unfold globalScore
  rw [h.opponents p]
  by_cases he : (games.filter (fun g => decide (g.1 = p))).map (fun g => g.2.1) = []
  · rw [if_pos he, he]; simp
  · rw [if_neg he]
    simp only
    rw [globalFold_eq b games h hp p _ (fun q hq => opponents_between games p q hq)]
    simp only [bind, Except.bind, pure, Except.pure, zero_add]

theorem partition_sum {γ M : Type} [AddCommMonoid M] (L : List α) (hL : L.Nodup) (key : γ → α) (f : γ → M) : ∀ G : List γ, (∀ g ∈ G, key g ∈ L) →
    (L.map (fun q => ((G.filter (fun g => decide (key g = q))).map f).sum)).sum = (G.map f).sum := by
  intro G
  induction G with
  | nil => intro _; simp
  | cons g G ih =>
    intro hG
    have h1 := ih (fun g' hg' => hG g' (by simp [hg']))
    have hk := hG g (by simp)
    have e : ∀ q ∈ L, (((g :: G).filter (fun g => decide (key g = q))).map f).sum = (if key g = q then f g else 0) + ((G.filter (fun g => decide (key g = q))).map f).sum := by
      intro q _
      rw [List.filter_cons]
      by_cases h : key g = q
      · rw [if_pos (by simpa using h), if_pos h, List.map_cons, List.sum_cons]
      · rw [if_neg (by simpa using h), if_neg h, zero_add]
    rw [List.map_congr_left e, List.sum_map_add, h1, List.map_cons, List.sum_cons]
    congr 1
    clear e h1 ih hG
    induction L with
    | nil => simp at hk
    | cons a L ihL =>
      rw [List.nodup_cons] at hL
      rw [List.map_cons, List.sum_cons]
      by_cases h : key g = a
      · rw [if_pos h]
        have : ∀ q ∈ L, (if key g = q then f g else 0) = 0 := by
          intro q hq
          rw [if_neg]
          rintro rfl
          exact hL.1 (h ▸ hq)
        rw [List.map_congr_left this]
        simp
      · rw [if_neg h, zero_add]
        exact ihL hL.2 (by rcases List.mem_cons.1 hk with h' | h'; exact absurd h' h; exact h')

theorem sharedSampling_spec (shuffle : Nat → List (Nat × K × α) → List (Nat × K × α)) (hsh : ∀ t l, (shuffle t l).Perm l)
    (b : Book α K) (games : List (α × α × K)) (h : Reflects b games) (hp : Paired games) :
    ∀ (k : Nat) (cand rel : List α), cand.Nodup → k ≤ cand.length →
    ∃ l, sharedSampling shuffle b k cand rel = .ok l ∧ l.length = k ∧ l.Nodup ∧ (∀ x ∈ l, x ∈ cand) ∧ Greedy games cand rel l := by
  classical
  choose g hg using globalScore_ok b games h hp
  intro k
  induction k with
  | zero => intro cand rel _ _; exact ⟨[], rfl, rfl, List.nodup_nil, by simp, .nil _ _⟩
  | succ k ih =>
    intro cand rel hnd hk
    have hbl : cand.mapM (fun p => do
        let l ← beatenBy b p rel
        let g ← globalScore b p
        pure (l.length, g, p)) = (.ok (cand.map (fun p => ((victims games p rel).length, g p, p))) : Except Err _) := by
      apply co_mapM_ok
      intro p _
      rw [beatenBy_eq b games h hp, hg]
      rfl
    let r : Nat × K × α → Nat × K × α → Prop := fun x y => x.1 < y.1 ∨ (x.1 = y.1 ∧ x.2.1 ≤ y.2.1)
    haveI : Std.Total r := ⟨fun x y => by
      show (_ ∨ _) ∨ (_ ∨ _)
      rcases Nat.lt_trichotomy x.1 y.1 with h | h | h
      · exact Or.inl (Or.inl h)
      · rcases le_total x.2.1 y.2.1 with h' | h'
        · exact Or.inl (Or.inr ⟨h, h'⟩)
        · exact Or.inr (Or.inr ⟨h.symm, h'⟩)
      · exact Or.inr (Or.inl h)⟩
    haveI : IsTrans _ r := ⟨fun x y z h1 h2 => by
      rcases h1 with h1 | h1 <;> rcases h2 with h2 | h2
      · exact Or.inl (by omega)
      · exact Or.inl (by omega)
      · exact Or.inl (by omega)
      · exact Or.inr ⟨by omega, le_trans h1.2 h2.2⟩⟩
    set bl := cand.map (fun p => ((victims games p rel).length, g p, p)) with hbldef
    have hs : ((shuffle k bl).insertionSort r).Pairwise r := List.pairwise_insertionSort r _
    have hperm : ((shuffle k bl).insertionSort r).Perm bl := (List.perm_insertionSort r _).trans (hsh _ _)
    have hne : (shuffle k bl).insertionSort r ≠ [] := by
      intro he
      have := hperm.length_eq
      rw [he, hbldef, List.length_map] at this
      simp at this
      omega
    obtain ⟨init, last, hlast⟩ : ∃ init last, (shuffle k bl).insertionSort r = init ++ [last] :=
      ⟨_, _, (List.dropLast_append_getLast hne).symm⟩
    have hmem : last ∈ bl := hperm.mem_iff.1 (by rw [hlast]; simp)
    obtain ⟨best, hbest, rfl⟩ := List.mem_map.1 hmem
    have hmax : ∀ q ∈ cand, (victims games q rel).length ≤ (victims games best rel).length := by
      intro q hq
      have hqm : ((victims games q rel).length, g q, q) ∈ (shuffle k bl).insertionSort r := hperm.mem_iff.2 (List.mem_map_of_mem hq)
      rw [hlast] at hqm hs
      rcases List.mem_append.1 hqm with hqm | hqm
      · have := (List.pairwise_append.1 hs).2.2 _ hqm _ (List.mem_singleton_self _)
        rcases this with h | h
        · exact Nat.le_of_lt h
        · exact Nat.le_of_eq h.1
      · simp only [List.mem_singleton, Prod.mk.injEq] at hqm
        exact Nat.le_of_eq hqm.1
    obtain ⟨rest, e1, e2, e3, e4, e5⟩ := ih (cand.erase best) (rel.filter (fun q => decide (q ∉ victims games best rel))) (hnd.erase _)
      (by rw [List.length_erase_of_mem hbest]; omega)
    refine ⟨best :: rest, ?_, by simp [e2], ?_, ?_, .cons _ _ _ _ hbest hmax e5⟩
    · rw [sharedSampling, hbl]
      simp only [bind, Except.bind]
      have hgl : ((shuffle k bl).insertionSort (fun x y => x.1 < y.1 ∨ (x.1 = y.1 ∧ x.2.1 ≤ y.2.1))).getLast? = some ((victims games best rel).length, g best, best) := by
        show ((shuffle k bl).insertionSort r).getLast? = _
        rw [hlast, List.getLast?_append]; rfl
      rw [hgl]
      simp only [beatenBy_eq b games h hp, e1]
      rfl
    · rw [List.nodup_cons]
      refine ⟨fun hb => ?_, e3⟩
      have := e4 best hb
      exact (List.Nodup.not_mem_erase hnd) this
    · intro x hx
      rcases List.mem_cons.1 hx with rfl | hx
      · exact hbest
      · exact List.mem_of_mem_erase (e4 x hx)

theorem sum_indicator (hosts : List α) (P : α → Bool) (v : K) : (hosts.map (fun h => if P h then v else 0)).sum = ((hosts.filter P).length : K) * v := by
  induction hosts with
  | nil => simp
  | cons a l ih =>
    rw [List.map_cons, List.sum_cons, ih, List.filter_cons]
    by_cases h : P a = true
    · rw [if_pos h, if_pos h, List.length_cons]; push_cast; ring
    · rw [if_neg h, if_neg h, zero_add]

theorem sum_filter (l : List α) (P : α → Bool) (f : α → K) : ((l.filter P).map f).sum = (l.map (fun p => if P p then f p else 0)).sum := by
  induction l with
  | nil => rfl
  | cons a l ih =>
    rw [List.map_cons, List.sum_cons, List.filter_cons, ← ih]
    by_cases h : P a = true
    · rw [if_pos h, if_pos h, List.map_cons, List.sum_cons]
    · rw [if_neg h, if_neg h, zero_add]

theorem sum_swap (l1 l2 : List α) (f : α → α → K) : (l1.map (fun a => (l2.map (f a)).sum)).sum = (l2.map (fun b => (l1.map (fun a => f a b)).sum)).sum := by
  induction l1 with
  | nil => simp
  | cons a l ih =>
    simp only [List.map_cons, List.sum_cons, ih]
    rw [← List.sum_map_add]

end Verif.Coevolution

namespace Verif.Props
open Verif.Coevolution Verif.Coevolution.Spec
open Verif.DataSet (Err)

section C163
variable {α K : Type} [DecidableEq α] [Field K] [LinearOrder K]

/-- **C163, shared sampling.** As long as there are enough candidates, the sample has the requested size, consists of distinct candidates, and is a greedy cover: each
player is chosen because no remaining candidate beats more of the opponents that the players chosen before do not beat. -/
theorem C163_sampling (shuffle : Nat → List (Nat × K × α) → List (Nat × K × α)) (hsh : ∀ t l, (shuffle t l).Perm l)
    (b : Book α K) (games : List (α × α × K)) (h : Reflects b games) (hp : Paired games) (k : Nat) (cand rel : List α) (hnd : cand.Nodup) (hk : k ≤ cand.length) :
    ∃ l, sharedSampling shuffle b k cand rel = .ok l ∧ l.length = k ∧ l.Nodup ∧ (∀ x ∈ l, x ∈ cand) ∧ Greedy games cand rel l :=
  sharedSampling_spec shuffle hsh b games h hp k cand rel hnd hk

/-- **C163, failure: the sample ignores the results.** `Coevolution` samples relative to the population that is about to be evaluated. Its members are new (without
elitism) and have not met, so that nobody beats anybody: any list of distinct candidates of the requested size is then as good a sample as any other. -/
theorem C163_negation_sampling (b : Book α K) (games : List (α × α × K)) (h : Reflects b games) (hp : Paired games) (pop : List α)
    (hnew : ∀ g ∈ games, ¬ (g.1 ∈ pop ∧ g.2.1 ∈ pop)) :
    (∀ p ∈ pop, ∀ q ∈ pop, beats b p q = .ok 0) ∧ ∀ l : List α, l.Nodup → (∀ x ∈ l, x ∈ pop) → Greedy games pop pop l := by
  have hb : ∀ p ∈ pop, ∀ q ∈ pop, between games p q = [] := by
    intro p hp' q hq
    unfold between
    rw [List.map_eq_nil_iff, List.filter_eq_nil_iff]
    intro g hg hh
    simp only [decide_eq_true_eq] at hh
    exact hnew g hg ⟨hh.1 ▸ hp', hh.2 ▸ hq⟩
  have ha : ∀ p ∈ pop, ∀ q ∈ pop, average games p q = 0 := by
    intro p hp' q hq
    unfold average
    rw [hb p hp' q hq, hb q hq p hp']; simp
  refine ⟨fun p hp' q hq => by rw [beats_eq b games h hp, ha p hp' q hq], ?_⟩
  have key : ∀ (l cand rel : List α), l.Nodup → (∀ x ∈ l, x ∈ cand) → (∀ x ∈ cand, x ∈ pop) → (∀ x ∈ rel, x ∈ pop) → Greedy games cand rel l := by
    intro l
    induction l with
    | nil => intro cand rel _ _ _ _; exact .nil _ _
    | cons a l ih =>
      intro cand rel hl hc hcp hrp
      rw [List.nodup_cons] at hl
      have hv : ∀ q ∈ cand, victims games q rel = [] := by
        intro q hq
        unfold victims
        rw [List.filter_eq_nil_iff]
        intro x hx
        simp [ha q (hcp q hq) x (hrp x hx)]
      refine .cons _ _ _ _ (hc a (by simp)) (fun q hq => by rw [hv q hq]; simp) (ih _ _ hl.2 ?_ ?_ ?_)
      · intro x hx
        rw [List.mem_erase_of_ne (by rintro rfl; exact hl.1 hx)]
        exact hc x (by simp [hx])
      · intro x hx; exact hcp x (List.mem_of_mem_erase hx)
      · intro x hx; exact hrp x (List.mem_of_mem_filter hx)
  intro l hl hm
  exact key l pop pop hl hm (fun _ h => h) (fun _ h => h)

/-- **C163, failure: too few candidates.** Asking for more players than there are raises an IndexError. -/
theorem C163_negation_too_few (shuffle : Nat → List (Nat × K × α) → List (Nat × K × α)) (hsh : ∀ t l, (shuffle t l).Perm l)
    (b : Book α K) (games : List (α × α × K)) (h : Reflects b games) (hp : Paired games) : ∀ (k : Nat) (cand rel : List α), cand.length < k →
    sharedSampling shuffle b k cand rel = .error .indexError := by
  classical
  choose g hg using globalScore_ok b games h hp
  intro k
  induction k with
  | zero => intro cand rel h; omega
  | succ k ih =>
    intro cand rel hk
    have hbl : cand.mapM (fun p => do
        let l ← beatenBy b p rel
        let g ← globalScore b p
        pure (l.length, g, p)) = (.ok (cand.map (fun p => ((victims games p rel).length, g p, p))) : Except Err _) := by
      apply co_mapM_ok
      intro p _
      rw [beatenBy_eq b games h hp, hg]
      rfl
    rw [sharedSampling, hbl]
    simp only [bind, Except.bind]
    split
    · rfl
    · rename_i n' g' best hl
      simp only [beatenBy_eq b games h hp]
      have hm : (n', g', best) ∈ cand.map (fun p => ((victims games p rel).length, g p, p)) :=
        (hsh _ _).mem_iff.1 ((List.perm_insertionSort _ _).mem_iff.1 (List.mem_of_getLast? hl))
      obtain ⟨p, hp', he⟩ := List.mem_map.1 hm
      simp only [Prod.mk.injEq] at he
      rw [he.2.2] at hp'
      rw [ih (cand.erase best) _ (by rw [List.length_erase_of_mem hp']; have := List.length_pos_of_mem hp'; omega)]

/-- **C163, fitness sharing.** When every host has met every parasite without a draw, the fitnesses of all hosts (without the bonus for breaking ties) add up to the
proportion of the parasites that are beaten by some host: every beaten parasite is worth the same, shared equally among the hosts that beat it. -/
theorem C163_sharing [IsStrictOrderedRing K] (bt : α → α → K) (hosts parasites : List α) (hp : parasites ≠ []) (hd : ∀ h ∈ hosts, ∀ p ∈ parasites, bt h p ≠ 0) :
    (hosts.map (sharedFitness bt hosts parasites)).sum =
      ((parasites.filter (fun p => hosts.any (fun h => decide (0 < bt h p)))).length : K) / (parasites.length : K) := by
  have e : ∀ h ∈ hosts, sharedFitness bt hosts parasites h =
      (parasites.map (fun p => if decide (0 < bt h p) then 1 / (beatsum bt hosts p : K) else 0)).sum / (parasites.length : K) := by
    intro h hh
    unfold sharedFitness
    have hz : parasites.filter (fun p => decide (bt h p = 0)) = [] := by
      rw [List.filter_eq_nil_iff]
      intro p hp'
      simpa using hd h hh p hp'
    simp only [hz, List.length_nil, Nat.sub_zero]
    rw [if_pos (List.length_pos_iff.2 hp), sum_filter]
  rw [List.map_congr_left e]
  have hdiv : ∀ (l : List α) (f : α → K) (c : K), (l.map (fun a => f a / c)).sum = (l.map f).sum / c := by
    intro l f c
    induction l with
    | nil => simp
    | cons a l ih => simp only [List.map_cons, List.sum_cons, ih, add_div]
  rw [hdiv, sum_swap]
  congr 1
  have hone : ∀ p ∈ parasites, (hosts.map (fun h => if decide (0 < bt h p) then 1 / (beatsum bt hosts p : K) else 0)).sum =
      if hosts.any (fun h => decide (0 < bt h p)) then 1 else 0 := by
    intro p _
    rw [sum_indicator hosts (fun h => decide (0 < bt h p))]
    unfold beatsum
    by_cases ha : hosts.any (fun h => decide (0 < bt h p)) = true
    · rw [if_pos ha]
      obtain ⟨h, hh, hb⟩ := List.any_eq_true.1 ha
      have : 0 < (hosts.filter (fun h => decide (0 < bt h p))).length := List.length_pos_of_mem (List.mem_filter.2 ⟨hh, hb⟩)
      have hne : ((hosts.filter (fun h => decide (0 < bt h p))).length : K) ≠ 0 := by exact_mod_cast (by omega)
      field_simp
    · rw [if_neg ha]
      have : hosts.filter (fun h => decide (0 < bt h p)) = [] := by
        rw [List.filter_eq_nil_iff]
        intro h hh hb
        exact ha (List.any_eq_true.2 ⟨h, hh, hb⟩)
      rw [this]; simp
  rw [List.map_congr_left hone]
  have := sum_indicator (K := K) parasites (fun p => hosts.any (fun h => decide (0 < bt h p))) 1
  rw [mul_one] at this
  exact this

/-- **C163, failure: draws do not count.** Parasites with which a host has drawn are treated as not played: adding them changes nothing, so that a host that beats one of
a hundred parasites and draws with the others is as fit as one that only had to play that one. -/
theorem C163_negation_draws (bt : α → α → K) (hosts parasites draws : List α) (h : α) (hd : ∀ p ∈ draws, bt h p = 0) :
    sharedFitness bt hosts (parasites ++ draws) h = sharedFitness bt hosts parasites h := by
  have h1 : draws.filter (fun p => decide (0 < bt h p)) = [] := by
    rw [List.filter_eq_nil_iff]
    intro p hp; simp [hd p hp]
  have h2 : draws.filter (fun p => decide (bt h p = 0)) = draws := by
    rw [List.filter_eq_self]
    intro p hp; simp [hd p hp]
  unfold sharedFitness
  simp only [List.filter_append, h1, h2, List.append_nil, List.length_append]
  have e : parasites.length + draws.length - ((parasites.filter (fun p => decide (bt h p = 0))).length + draws.length) =
      parasites.length - (parasites.filter (fun p => decide (bt h p = 0))).length := by omega
  rw [e]
  by_cases hc : parasites.length > (parasites.filter (fun p => decide (bt h p = 0))).length
  · rw [if_pos hc, if_pos (by omega)]
  · rw [if_neg hc, if_neg (by omega)]

/-- **C163, global score.** For a player that has started against every opponent only once, the global score is its total score minus the total score of the others against
it, divided by the number of its games (plus 0.01). It is 0 for a player that has not played. -/
theorem C163_global (b : Book α K) (games : List (α × α × K)) (h : Reflects b games) (hp : Paired games) (p : α)
    (hnd : ((games.filter (fun g => decide (g.1 = p))).map (fun g => g.2.1)).Nodup) :
    globalScore b p = .ok (((scoresOf games p).sum - (scoresAgainst games p).sum) / (((scoresOf games p).length + (scoresAgainst games p).length : Nat) + 1 / 100)) := by
  rw [globalScore_eq b games h hp p]
  have hmem : ∀ g ∈ games, g.2.1 = p → g.1 ∈ (games.filter (fun g => decide (g.1 = p))).map (fun g => g.2.1) := by
    intro g hg he
    have h1 : between games g.1 p ≠ [] := by
      intro h0
      unfold between at h0
      rw [List.map_eq_nil_iff, List.filter_eq_nil_iff] at h0
      exact h0 g hg (by simp [he])
    have h2 : between games p g.1 ≠ [] := by
      intro h0
      have := hp p g.1
      rw [h0] at this
      exact h1 (List.length_eq_zero_iff.1 this.symm)
    unfold between at h2
    rw [ne_eq, List.map_eq_nil_iff, List.filter_eq_nil_iff] at h2
    push Not at h2
    obtain ⟨g', hg', hh⟩ := h2
    simp only [decide_eq_true_eq] at hh
    exact List.mem_map.2 ⟨g', List.mem_filter.2 ⟨hg', by simp [hh.1]⟩, hh.2⟩
  have b1 : ∀ q, between games p q = ((games.filter (fun g => decide (g.1 = p))).filter (fun g => decide (g.2.1 = q))).map (fun g => g.2.2) := by
    intro q; unfold between; rw [List.filter_filter]; congr 2; funext g; simp [Bool.and_comm]
  have b2 : ∀ q, between games q p = ((games.filter (fun g => decide (g.2.1 = p))).filter (fun g => decide (g.1 = q))).map (fun g => g.2.2) := by
    intro q; unfold between; rw [List.filter_filter]; congr 2; funext g; simp
  have m1 : ∀ g ∈ games.filter (fun g => decide (g.1 = p)), g.2.1 ∈ (games.filter (fun g => decide (g.1 = p))).map (fun g => g.2.1) :=
    fun g hg => List.mem_map_of_mem (f := fun g : α × α × K => g.2.1) hg
  have m2 : ∀ g ∈ games.filter (fun g => decide (g.2.1 = p)), g.1 ∈ (games.filter (fun g => decide (g.1 = p))).map (fun g => g.2.1) := by
    intro g hg
    rw [List.mem_filter] at hg
    exact hmem g hg.1 (by simpa using hg.2)
  generalize (games.filter (fun g => decide (g.1 = p))).map (fun g => g.2.1) = L at hnd m1 m2
  have s1 := partition_sum L hnd (fun g : α × α × K => g.2.1) (fun g => g.2.2) _ m1
  have s2 := partition_sum L hnd (fun g : α × α × K => g.1) (fun g => g.2.2) _ m2
  have l1 := partition_sum L hnd (fun g : α × α × K => g.2.1) (fun _ => (1 : Nat)) _ m1
  have l2 := partition_sum L hnd (fun g : α × α × K => g.1) (fun _ => (1 : Nat)) _ m2
  have e1 : (L.map (fun q => (between games p q).sum - (between games q p).sum)).sum = (scoresOf games p).sum - (scoresAgainst games p).sum := by
    have hsub : ∀ f g : α → K, (L.map (fun q => f q - g q)).sum = (L.map f).sum - (L.map g).sum := by
      intro f g
      clear hnd m1 m2 s1 s2 l1 l2
      induction L with
      | nil => simp
      | cons a L ih => simp only [List.map_cons, List.sum_cons, ih]; ring
    rw [hsub]
    simp only [b1, b2]
    rw [s1, s2]; rfl
  have e2 : (L.map (fun q => (between games p q).length + (between games q p).length)).sum = (scoresOf games p).length + (scoresAgainst games p).length := by
    rw [List.sum_map_add]
    simp only [b1, b2, List.length_map]
    have len : ∀ G : List (α × α × K), (G.map (fun _ => (1 : Nat))).sum = G.length := by
      intro G
      induction G with
      | nil => rfl
      | cons a G ih => rw [List.map_cons, List.sum_cons, ih, List.length_cons]; omega
    simp only [len] at l1 l2
    rw [l1, l2]
    simp [scoresOf, scoresAgainst]
  rw [e1, e2]

end C163

/-- the games of the example: 0 beats 1 in two rounds and loses to 2 in one round -/
def c163Book : Book Nat ℚ :=
  let eval : Nat → Nat → Nat → ℚ := fun _ p q => if (p = 0 ∧ q = 1) ∨ (p = 2 ∧ q = 0) then 1 else -1
  playAll eval Book.empty 0 [1, 1, 2]

/-- **C163, failure: the global score is not an average.** A player that has met an opponent in two rounds is credited with these games twice over: with four games (two of
them as second player) won against one and two games lost against another opponent the average score is 2/6, but the global score is 6/10.01. -/
theorem C163_negation_global : (globalScore c163Book 0).toOption = some (600 / 1001) ∧ c163Book.steps = 6 := by
  constructor
  · have : (globalScore c163Book 0) = .ok (6 / ((10 : ℚ) + 1 / 100)) := by
      simp [globalScore, c163Book, playAll, relEval, Book.empty, globalAdd, bind, Except.bind, pure, Except.pure]
      norm_num
    rw [this]
    simp only [Except.toOption, Option.some.injEq]
    norm_num
  · rfl

end Verif.Props
