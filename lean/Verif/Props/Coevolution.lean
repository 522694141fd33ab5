import Verif.Model.Coevolution
import Mathlib.Tactic.Linarith
import Mathlib.Tactic.Ring
import Mathlib.Tactic.FieldSimp
import Mathlib.Tactic.NormNum
import Mathlib.Data.List.Forall2
import Mathlib.Algebra.Order.Ring.Rat
import Mathlib.Algebra.Field.Rat
import Mathlib.Algebra.BigOperators.Ring.List
/-
Property theorems C162 (co-evolution, pybrain/optimization/populationbased/coevolution).
-/
namespace Verif.Coevolution
open Verif.DataSet (Err)

/-! ### Specification -/
namespace Spec
variable {α K : Type} [DecidableEq α] [Field K] [LinearOrder K]

/-- the scores of the games that `p` started against `q`, in a list of games (first player, second player, score of the first) -/
def between (games : List (α × α × K)) (p q : α) : List K := (games.filter (fun g => decide (g.1 = p ∧ g.2.1 = q))).map (fun g => g.2.2)

/-- the tables are exactly the summary of a list of games -/
structure Reflects (b : Book α K) (games : List (α × α × K)) : Prop where
  steps : b.steps = games.length
  results : ∀ p q, b.results p q = if between games p q = [] then none else
    some { won := (between games p q).countP (fun v => decide (0 < v)), games := (between games p q).length,
           score := (between games p q).sum, scores := between games p q }
  opponents : ∀ p, b.opponents p = if (games.filter (fun g => decide (g.1 = p))).map (fun g => g.2.1) = [] then none else
    some ((games.filter (fun g => decide (g.1 = p))).map (fun g => g.2.1))

/-- every pair has played as often in one order as in the other -/
def Paired (games : List (α × α × K)) : Prop := ∀ p q, (between games p q).length = (between games q p).length

/-- what `random.sample` guarantees -/
def GoodSample (sample : Nat → List α → Nat → List α) : Prop :=
  ∀ t l k, k ≤ l.length → ∃ l' : List α, l'.Perm l ∧ sample t l k = l'.take k

/-- the opponents chosen for one player of a tournament: as many as asked for (or all there are), from the given list, never itself -/
structure Chosen (pop2 : List α) (size : Option Nat) (p : α) (opps : List α) : Prop where
  number : opps.length = match size with
    | none => (pop2.filter (fun q => decide (q ≠ p))).length
    | some k => min k (pop2.filter (fun q => decide (q ≠ p))).length
  members : ∀ q ∈ opps, q ∈ pop2 ∧ q ≠ p
  distinct : pop2.Nodup → opps.Nodup

/-- the order of the games of one player: each opponent is met twice, once in each order -/
def rounds (p : α) (opps : List α) : List (α × α) := opps.flatMap (fun q => [(p, q), (q, p)])

/-- the average score of `p` against `q`, over the games in both orders (0 if there were none) -/
def average (games : List (α × α × K)) (p q : α) : K :=
  ((between games p q).sum - (between games q p).sum) / (((between games p q).length + (between games q p).length : Nat) : K)

end Spec

section Book
set_option linter.unusedSectionVars false
variable {α K : Type} [DecidableEq α] [Field K] [LinearOrder K]
open Spec

theorem between_append (g1 g2 : List (α × α × K)) (p q : α) : between (g1 ++ g2) p q = between g1 p q ++ between g2 p q := by
  simp [between]

theorem between_single (x y : α) (v : K) (p q : α) : between [(x, y, v)] p q = if p = x ∧ q = y then [v] else [] := by
  unfold between
  by_cases h : x = p ∧ y = q
  · rw [if_pos ⟨h.1.symm, h.2.symm⟩, List.filter_cons, if_pos (by simpa using h)]; rfl
  · rw [if_neg (fun h' => h ⟨h'.1.symm, h'.2.symm⟩), List.filter_cons, if_neg (by simpa using h)]; rfl

theorem reflects_relEval (eval : Nat → α → α → K) (b : Book α K) (games : List (α × α × K)) (h : Reflects b games) (p q : α) :
    Reflects (relEval eval b p q) (games ++ [(p, q, eval games.length p q)]) := by
  refine ⟨by simp [relEval, h.steps], fun x y => ?_, fun x => ?_⟩
  · rw [between_append, between_single]
    simp only [relEval]
    by_cases hxy : x = p ∧ y = q
    · obtain ⟨rfl, rfl⟩ := hxy
      have ht : x = x ∧ y = y := ⟨rfl, rfl⟩
      have hne : between games x y ++ [eval games.length x y] ≠ [] := by simp
      rw [if_pos ht, if_pos ht, if_neg hne, h.results]
      congr 1
      by_cases he : between games x y = []
      · rw [if_pos he, he, h.steps]
        by_cases hr : 0 < eval games.length x y
        · simp [hr]
        · simp [hr]
      · rw [if_neg he, h.steps]
        by_cases hr : 0 < eval games.length x y
        · simp [hr]
        · simp [hr]
    · rw [if_neg hxy, if_neg hxy, List.append_nil, h.results]
  · rw [List.filter_append, List.map_append]
    simp only [relEval]
    by_cases hx : x = p
    · subst hx
      have e : List.filter (fun g : α × α × K => decide (g.1 = x)) [(x, q, eval games.length x q)] = [(x, q, eval games.length x q)] := by simp
      rw [if_pos rfl, h.opponents, e]
      generalize (List.filter (fun g : α × α × K => decide (g.1 = x)) games).map (fun g => g.2.1) = l
      have hne : l ++ List.map (fun g : α × α × K => g.2.1) [(x, q, eval games.length x q)] ≠ [] := by simp
      rw [if_neg hne]
      by_cases hl : l = []
      · rw [if_pos hl, hl]; rfl
      · rw [if_neg hl]; rfl
    · have e : List.filter (fun g : α × α × K => decide (g.1 = x)) [(p, q, eval games.length p q)] = [] := by simp [Ne.symm hx]
      rw [if_neg hx, h.opponents, e, List.map_nil, List.append_nil]

theorem between_two (games : List (α × α × K)) (x y : α) (v w : K) (p q : α) :
    (between ((games ++ [(x, y, v)]) ++ [(y, x, w)]) p q).length =
      (between games p q).length + (if p = x ∧ q = y then 1 else 0) + (if p = y ∧ q = x then 1 else 0) := by
  rw [between_append, between_append, between_single, between_single]
  split_ifs <;> simp

/-- playing one opponent keeps the games paired -/
theorem paired_two (games : List (α × α × K)) (h : Paired games) (x y : α) (v w : K) :
    Paired ((games ++ [(x, y, v)]) ++ [(y, x, w)]) := by
  intro p q
  rw [between_two, between_two, h p q]
  have c1 : (p = x ∧ q = y) ↔ (q = y ∧ p = x) := And.comm
  have c2 : (p = y ∧ q = x) ↔ (q = x ∧ p = y) := And.comm
  simp only [c1, c2]
  omega

/-- the games that are played: the pairs in their order, each scored by the evaluator -/
def scored (eval : Nat → α → α → K) : Nat → List (α × α) → List (α × α × K)
  | _, [] => []
  | t, (p, q) :: l => (p, q, eval t p q) :: scored eval (t + 1) l

theorem scored_append (eval : Nat → α → α → K) : ∀ (l1 l2 : List (α × α)) (t : Nat), scored eval t (l1 ++ l2) = scored eval t l1 ++ scored eval (t + l1.length) l2 := by
  intro l1
  induction l1 with
  | nil => intro l2 t; simp [scored]
  | cons a l1 ih =>
    intro l2 t
    obtain ⟨p, q⟩ := a
    simp only [List.cons_append, scored, List.length_cons]
    rw [ih]
    congr 3
    omega

theorem scored_length (eval : Nat → α → α → K) : ∀ (l : List (α × α)) (t : Nat), (scored eval t l).length = l.length := by
  intro l
  induction l with
  | nil => intro t; rfl
  | cons a l ih => intro t; obtain ⟨p, q⟩ := a; simp [scored, ih]

theorem reflects_playAll (eval : Nat → α → α → K) (p : α) : ∀ (opps : List α) (b : Book α K) (games : List (α × α × K)), Reflects b games → Paired games →
    Reflects (playAll eval b p opps) (games ++ scored eval games.length (rounds p opps)) ∧ Paired (games ++ scored eval games.length (rounds p opps)) := by
  intro opps
  induction opps with
  | nil => intro b games h hp; simpa [playAll, rounds, scored] using ⟨h, hp⟩
  | cons q opps ih =>
    intro b games h hp
    have h1 := reflects_relEval eval _ _ (reflects_relEval eval b games h p q) q p
    have h2 := paired_two games hp p q (eval games.length p q) (eval (games.length + 1) q p)
    have e : (games ++ [(p, q, eval games.length p q)]).length = games.length + 1 := by simp
    rw [e] at h1
    obtain ⟨k1, k2⟩ := ih _ _ h1 h2
    have e2 : games ++ [(p, q, eval games.length p q)] ++ [(q, p, eval (games.length + 1) q p)] ++
        scored eval (games ++ [(p, q, eval games.length p q)] ++ [(q, p, eval (games.length + 1) q p)]).length (rounds p opps) =
        games ++ scored eval games.length (rounds p (q :: opps)) := by
      simp [rounds, scored, Nat.add_assoc]
    rw [e2] at k1 k2
    exact ⟨k1, k2⟩

theorem chosen_opponentsOf (sample : Nat → List α → Nat → List α) (hs : GoodSample sample) (b : Book α K) (p : α) (pop2 : List α) (size : Option Nat) :
    Chosen pop2 size p (opponentsOf sample b p pop2 size) := by
  have hall : ∀ size', size' = none → Chosen pop2 size' p (pop2.filter (fun q => decide (q ≠ p))) := by
    rintro _ rfl
    exact ⟨rfl, fun q hq => by simpa using hq, fun h => h.filter _⟩
  unfold opponentsOf
  cases size with
  | none => exact hall none rfl
  | some k =>
    simp only
    split
    · rename_i hlt
      obtain ⟨l', hp, he⟩ := hs b.steps _ k hlt.le
      rw [he]
      refine ⟨?_, fun q hq => ?_, fun h => ?_⟩
      · rw [List.length_take, hp.length_eq]
      · have := hp.mem_iff.1 (List.mem_of_mem_take hq)
        simpa using this
      · exact (hp.nodup_iff.2 (h.filter _)).sublist (List.take_sublist _ _)
    · rename_i hge
      obtain ⟨_, h2, h3⟩ := hall none rfl
      exact ⟨by simp only; rw [Nat.min_eq_right (by omega)], h2, h3⟩

theorem reflects_tournament (eval : Nat → α → α → K) (sample : Nat → List α → Nat → List α) (hs : GoodSample sample) (pop2 : List α) (size : Option Nat) :
    ∀ (pop1 : List α) (b : Book α K) (games : List (α × α × K)), Reflects b games → Paired games →
    ∃ opps : List (List α), List.Forall₂ (Chosen pop2 size) pop1 opps ∧
      Reflects (doTournament eval sample b pop1 pop2 size) (games ++ scored eval games.length ((List.zipWith rounds pop1 opps).flatten)) ∧
      Paired (games ++ scored eval games.length ((List.zipWith rounds pop1 opps).flatten)) := by
  intro pop1
  induction pop1 with
  | nil => intro b games h hp; exact ⟨[], .nil, by simpa [doTournament, scored] using h, by simpa [scored] using hp⟩
  | cons p pop1 ih =>
    intro b games h hp
    obtain ⟨h1, h2⟩ := reflects_playAll eval p (opponentsOf sample b p pop2 size) b games h hp
    obtain ⟨opps, k1, k2, k3⟩ := ih _ _ h1 h2
    refine ⟨opponentsOf sample b p pop2 size :: opps, .cons (chosen_opponentsOf sample hs b p pop2 size) k1, ?_⟩
    have e : games ++ scored eval games.length (rounds p (opponentsOf sample b p pop2 size)) ++
        scored eval (games ++ scored eval games.length (rounds p (opponentsOf sample b p pop2 size))).length (List.zipWith rounds pop1 opps).flatten =
        games ++ scored eval games.length (List.zipWith rounds (p :: pop1) (opponentsOf sample b p pop2 size :: opps)).flatten := by
      rw [List.zipWith_cons_cons, List.flatten_cons, scored_append, List.length_append, scored_length, List.append_assoc]
    rw [e] at k2 k3
    exact ⟨k2, k3⟩

theorem beats_eq (b : Book α K) (games : List (α × α × K)) (h : Reflects b games) (hp : Paired games) (p q : α) :
    beats b p q = .ok (average games p q) := by
  have hl := hp p q
  unfold beats average
  rw [h.results p q]
  by_cases he : between games p q = []
  · have he' : between games q p = [] := by
      rw [he] at hl; exact List.length_eq_zero_iff.1 hl.symm
    rw [if_pos he, he, he']; simp
  · have he' : between games q p ≠ [] := by
      intro h0; rw [h0] at hl; exact he (List.length_eq_zero_iff.1 hl)
    rw [if_neg he, h.results q p, if_neg he']

theorem average_anti (games : List (α × α × K)) (p q : α) : average games q p = - average games p q := by
  unfold average
  rw [← neg_div, neg_sub, Nat.add_comm]

theorem rounds_length (p : α) (opps : List α) : (rounds p opps).length = 2 * opps.length := by
  unfold rounds
  induction opps with
  | nil => rfl
  | cons a l ih => simp only [List.flatMap_cons, List.length_append, ih, List.length_cons, List.length_nil]; omega

/-- a tournament with at most `k` opponents each takes at most two games per player and opponent -/
theorem tournament_steps (pop2 : List α) (k : Nat) : ∀ (pop1 : List α) (opps : List (List α)), List.Forall₂ (Chosen pop2 (some k)) pop1 opps →
    ((List.zipWith rounds pop1 opps).flatten).length ≤ 2 * (pop1.length * k) := by
  intro pop1 opps h
  induction h with
  | nil => simp
  | cons h _ ih =>
    rw [List.zipWith_cons_cons, List.flatten_cons, List.length_append, rounds_length, List.length_cons, Nat.add_mul]
    have := h.number
    simp only at this
    rw [this]
    have := Nat.min_le_left k (pop2.filter (fun q => decide (q ≠ ‹α›))).length
    omega

end Book

/-! ### Generations -/
namespace Spec
variable {K : Type} [Field K] [LinearOrder K] {n : Nat}

/-- the fitness of a player: its average scores against the population and the hall of fame, mixed with the absolute evaluation if there is one -/
def fitnessOf (o : Oracle K n) (games : List (Nat × Nat × K)) (opps hof : List Nat) (p : Ind K n) : K :=
  match o.absEval with
  | none => (opps.map (average games p.id)).sum + (hof.map (average games p.id)).sum
  | some (w, f) => (1 - w) * ((opps.map (average games p.id)).sum + (hof.map (average games p.id)).sum) + w * f p

/-- the sizes make sense -/
structure Sensible (c : Settings K) : Prop where
  some_selected : 1 ≤ c.numSelected
  not_more : c.numSelected ≤ c.populationSize
  hof : c.hofTournament ≤ c.tournamentSize

/-- what the random functions guarantee -/
structure Fair (o : Oracle K n) : Prop where
  sample : GoodSample o.sample
  shuffle : ∀ t l, (o.shuffle t l).Perm l

/-- what holds between generations; `games` are all games played so far -/
structure Consistent (c : Settings K) (s : State K n) (games : List (Nat × Nat × K)) : Prop where
  size : s.pop.length = c.populationSize
  ids : (s.pop.map Ind.id).Nodup
  fresh : ∀ p ∈ s.pop, p.id < s.next
  hof : s.hallOfFame.length = s.generation
  fits : s.hallOfFitnesses.length = s.generation
  reflects : Reflects s.book games
  paired : Paired games

/-- the list of hall-of-fame opponents of a generation -/
def hofOpponents (c : Settings K) (s : State K n) : List Nat :=
  if 0 < min (s.generation + 1) c.hofTournament then (s.hallOfFame.map Ind.id).dedup else []

end Spec

section Generations
set_option linter.unusedSectionVars false
variable {K : Type} [Field K] [LinearOrder K] {n : Nat}
open Spec

theorem co_mapM_ok {α β : Type} (f : α → Except Err β) (g : α → β) : ∀ l : List α, (∀ a ∈ l, f a = .ok (g a)) → l.mapM f = .ok (l.map g) := by
  intro l
  induction l with
  | nil => intro _; rfl
  | cons a l ih =>
    intro h
    rw [List.mapM_cons, h a (by simp), ih (fun b hb => h b (by simp [hb]))]
    rfl

theorem child_ok (o : Oracle K n) (c : Settings K) (seeds : List (Ind K n)) (h : seeds ≠ []) (next : Nat) :
    ∃ x, child o c seeds next = .ok x ∧ x.id = next ∧
      ∃ y ∈ seeds, x.params = o.mutate next y.params ∧ x.parent = if c.parentChildAverage < 1 then some y.params else y.parent := by
  have hlen : 0 < seeds.length := List.length_pos_iff.2 h
  have hlt := Nat.mod_lt (o.pick next) hlen
  unfold child
  rw [List.getElem?_eq_getElem hlt]
  exact ⟨_, rfl, rfl, _, List.getElem_mem hlt, rfl, rfl⟩

/-- `_extendPopulation` keeps the seeds and appends numbered children of them -/
theorem extend_ok (o : Oracle K n) (c : Settings K) (seeds : List (Ind K n)) (h : seeds ≠ []) (size next : Nat) :
    ∃ l : List (Ind K n), extend o c seeds size next = .ok (seeds ++ l, next + (size - seeds.length)) ∧
      l.map Ind.id = (List.range (size - seeds.length)).map (fun i => next + i) ∧
      ∀ x ∈ l, ∃ y ∈ seeds, x.params = o.mutate x.id y.params ∧ x.parent = if c.parentChildAverage < 1 then some y.params else y.parent := by
  classical
  choose g h1 h2 h3 using child_ok o c seeds h
  refine ⟨(List.range (size - seeds.length)).map (fun i => g (next + i)), ?_, ?_, ?_⟩
  · unfold extend
    rw [co_mapM_ok _ (fun i => g (next + i)) _ (fun i _ => h1 _)]
    rfl
  · rw [List.map_map]
    exact List.map_congr_left (fun i _ => h2 _)
  · intro x hx
    obtain ⟨i, _, rfl⟩ := List.mem_map.1 hx
    have := h3 (next + i)
    rwa [h2]

theorem average_ids (pca : K) : ∀ (l : List (Ind K n)) (next : Nat), (averageWithParents pca next l).length = l.length ∧
    ((∀ p ∈ l, p.id < next) → (∀ p ∈ averageWithParents pca next l, p.id < next + l.length) ∧
      ((l.map Ind.id).Nodup → ((averageWithParents pca next l).map Ind.id).Nodup ∧ ∀ p ∈ averageWithParents pca next l, p.id < next → p ∈ l)) := by
  intro l
  induction l with
  | nil => intro next; simp [averageWithParents]
  | cons a l ih =>
    intro next
    obtain ⟨h1, h2⟩ := ih (next + 1)
    refine ⟨by simp [averageWithParents, h1], fun hlt => ?_⟩
    obtain ⟨h3, h4⟩ := h2 (fun p hp => Nat.lt_succ_of_lt (hlt p (by simp [hp])))
    have ha := hlt a (by simp)
    unfold averageWithParents
    refine ⟨?_, fun hnd => ?_⟩
    · intro p hp
      rcases List.mem_cons.1 hp with rfl | hp
      · split
        · simp; omega
        · simp
      · have := h3 p hp; simp only [List.length_cons]; omega
    · rw [List.map_cons, List.nodup_cons] at hnd
      obtain ⟨h5, h6⟩ := h4 hnd.2
      have key : ∀ p ∈ averageWithParents pca (next + 1) l, p.id < next + 1 → p.id ≠ a.id ∧ p.id ≠ next := by
        intro p hp hlt'
        have hm := h6 p hp hlt'
        refine ⟨fun he => hnd.1 (he ▸ List.mem_map_of_mem hm), fun he => ?_⟩
        have := hlt p (by simp [hm]); omega
      refine ⟨?_, ?_⟩
      · rw [List.map_cons, List.nodup_cons]
        refine ⟨fun hmem => ?_, h5⟩
        obtain ⟨p, hp, he⟩ := List.mem_map.1 hmem
        cases hpar : a.parent with
        | none => rw [hpar] at he; simp only at he; exact (key p hp (by omega)).1 he
        | some q => rw [hpar] at he; simp only at he; exact (key p hp (by omega)).2 he
      · intro p hp hlt'
        rcases List.mem_cons.1 hp with rfl | hp
        · cases hpar : a.parent with
          | none => simp
          | some q => rw [hpar] at hlt'; simp at hlt'
        · exact List.mem_cons_of_mem _ (h6 p hp (by omega))

theorem average_spec (pca : K) (t : Nat) : ∀ (l : List (Ind K n)) (next : Nat), t ≤ next → List.Forall₂ (fun p x => (p.parent = none → x = p) ∧
    ∀ q, p.parent = some q → t ≤ x.id ∧ ∀ i, x.params i = p.params i * pca + q i * (1 - pca)) l (averageWithParents pca next l) := by
  intro l
  induction l with
  | nil => intro _ _; exact .nil
  | cons a l ih =>
    intro next ht
    unfold averageWithParents
    refine .cons ⟨fun h => by rw [h], fun q h => ?_⟩ (ih (next + 1) (by omega))
    rw [h]
    exact ⟨ht, fun i => rfl⟩

/-- the selected players: a part of the population, none of whose members is worse than one of the others -/
theorem select_spec (o : Oracle K n) (ho : Fair o) [IsStrictOrderedRing K] (c : Settings K) (t : Nat) (pop : List (Ind K n)) (fits : List K) :
    ∃ chosen rest : List (K × Ind K n), (chosen ++ rest).Perm (fits.zip pop) ∧ chosen.length = min c.numSelected (fits.zip pop).length ∧
      (∀ x ∈ chosen, ∀ y ∈ rest, y.1 ≤ x.1) ∧ select o c t pop fits = chosen.map Prod.snd := by
  have htot : ∀ x y : K × Ind K n, - x.1 ≤ - y.1 ∨ - y.1 ≤ - x.1 := fun x y => le_total _ _
  let r : K × Ind K n → K × Ind K n → Prop := fun x y => - x.1 ≤ - y.1
  haveI : Std.Total r := ⟨htot⟩
  haveI : IsTrans _ r := ⟨fun x y z h1 h2 => le_trans h1 h2⟩
  have hs : ((o.shuffle t (fits.zip pop)).insertionSort r).Pairwise r := List.pairwise_insertionSort r _
  have hp : ((o.shuffle t (fits.zip pop)).insertionSort r).Perm (fits.zip pop) := (List.perm_insertionSort r _).trans (ho.shuffle _ _)
  refine ⟨((o.shuffle t (fits.zip pop)).insertionSort r).take c.numSelected, ((o.shuffle t (fits.zip pop)).insertionSort r).drop c.numSelected, ?_, ?_, ?_, rfl⟩
  · rw [List.take_append_drop]; exact hp
  · rw [List.length_take, hp.length_eq]
  · intro x hx y hy
    rw [← List.take_append_drop c.numSelected ((o.shuffle t (fits.zip pop)).insertionSort r), List.pairwise_append] at hs
    have := hs.2.2 x hx y hy
    exact neg_le_neg_iff.1 this

theorem select_mem (o : Oracle K n) (ho : Fair o) [IsStrictOrderedRing K] (c : Settings K) (hc : Sensible c) (t : Nat) (pop : List (Ind K n)) (fits : List K)
    (hl : fits.length = pop.length) (hsize : pop.length = c.populationSize) (hids : (pop.map Ind.id).Nodup) :
    (select o c t pop fits).length = c.numSelected ∧ select o c t pop fits ≠ [] ∧ (∀ p ∈ select o c t pop fits, p ∈ pop) ∧
      ((select o c t pop fits).map Ind.id).Nodup := by
  obtain ⟨chosen, rest, h1, h2, _, h4⟩ := select_spec o ho c t pop fits
  have hz : (fits.zip pop).map Prod.snd = pop := by rw [List.map_snd_zip (by omega)]
  have hlen : (fits.zip pop).length = pop.length := by rw [List.length_zip]; omega
  have e1 : (select o c t pop fits).length = c.numSelected := by
    rw [h4, List.length_map, h2, hlen, hsize]; exact Nat.min_eq_left hc.not_more
  have hp : (chosen.map Prod.snd ++ rest.map Prod.snd).Perm pop := by
    have := h1.map Prod.snd
    rwa [List.map_append, hz] at this
  refine ⟨e1, fun he => ?_, fun p hp' => ?_, ?_⟩
  · rw [he] at e1; have := hc.some_selected; simp at e1; omega
  · rw [h4] at hp'
    exact hp.mem_iff.1 (List.mem_append_left _ hp')
  · rw [h4]
    have := (hp.map Ind.id).nodup_iff.2 hids
    rw [List.map_append] at this
    exact this.of_append_left

theorem nodup_extend (seeds l : List (Ind K n)) (next k : Nat) (hs : (seeds.map Ind.id).Nodup) (hlt : ∀ p ∈ seeds, p.id < next)
    (hl : l.map Ind.id = (List.range k).map (fun i => next + i)) :
    ((seeds ++ l).map Ind.id).Nodup ∧ (∀ p ∈ seeds ++ l, p.id < next + k) ∧ (∀ p ∈ l, next ≤ p.id) ∧ l.length = k := by
  have hle : ∀ p ∈ l, next ≤ p.id ∧ p.id < next + k := by
    intro p hp
    have : p.id ∈ l.map Ind.id := List.mem_map_of_mem hp
    rw [hl] at this
    obtain ⟨i, hi, he⟩ := List.mem_map.1 this
    have := List.mem_range.1 hi
    omega
  refine ⟨?_, ?_, fun p hp => (hle p hp).1, ?_⟩
  · rw [List.map_append, List.nodup_append]
    refine ⟨hs, ?_, ?_⟩
    · rw [hl]
      exact (List.nodup_map_iff (fun a b h => by omega)).2 List.nodup_range
    · intro a ha b hb he
      obtain ⟨p, hp, rfl⟩ := List.mem_map.1 ha
      obtain ⟨q, hq, rfl⟩ := List.mem_map.1 hb
      have := hlt p hp
      have := (hle q hq).1
      omega
  · intro p hp
    rcases List.mem_append.1 hp with hp | hp
    · have := hlt p hp; omega
    · exact (hle p hp).2
  · have := congrArg List.length hl
    simpa using this

/-- reproduction never fails and gives a population of the right size -/
theorem reproduce_ok (o : Oracle K n) (ho : Fair o) [IsStrictOrderedRing K] (c : Settings K) (hc : Sensible c) (t : Nat) (pop : List (Ind K n)) (fits : List K)
    (hl : fits.length = pop.length) (hsize : pop.length = c.populationSize) (hids : (pop.map Ind.id).Nodup) (next : Nat) (hfresh : ∀ p ∈ pop, p.id < next) :
    ∃ newpop next', selectAndReproduce o c t pop fits next = .ok (newpop, next') ∧ newpop.length = c.populationSize ∧ (newpop.map Ind.id).Nodup ∧
      (∀ p ∈ newpop, p.id < next') ∧ next ≤ next' := by
  obtain ⟨s1, s2, s3, s4⟩ := select_mem o ho c hc t pop fits hl hsize hids
  have hslt : ∀ p ∈ select o c t pop fits, p.id < next := fun p hp => hfresh p (s3 p hp)
  have hns := hc.not_more
  unfold selectAndReproduce
  by_cases he : c.elitism = true
  · obtain ⟨l, e1, e2, _⟩ := extend_ok o c (select o c t pop fits) s2 c.populationSize next
    obtain ⟨n1, n2, _, n4⟩ := nodup_extend _ _ _ _ s4 hslt e2
    simp only [he, if_true, e1, bind, Except.bind]
    have hlen : (select o c t pop fits ++ l).length = c.populationSize := by rw [List.length_append, s1, n4, s1]; omega
    by_cases hp : c.parentChildAverage < 1
    · rw [if_pos hp]
      obtain ⟨a1, a2⟩ := average_ids c.parentChildAverage (select o c t pop fits ++ l) (next + (c.populationSize - (select o c t pop fits).length))
      obtain ⟨a3, a4⟩ := a2 n2
      refine ⟨_, _, rfl, by rw [a1, hlen], (a4 n1).1, a3, by omega⟩
    · rw [if_neg hp]
      exact ⟨_, _, rfl, hlen, n1, n2, by omega⟩
  · obtain ⟨l, e1, e2, _⟩ := extend_ok o c (select o c t pop fits) s2 (c.populationSize + c.numSelected) next
    obtain ⟨n1, n2, _, n4⟩ := nodup_extend _ _ _ _ s4 hslt e2
    simp only [he, e1, bind, Except.bind]
    have hdrop : (select o c t pop fits ++ l).drop c.numSelected = l := by
      rw [← s1]; exact List.drop_left
    rw [hdrop]
    have hlen : l.length = c.populationSize := by rw [n4, s1]; omega
    rw [List.map_append, List.nodup_append] at n1
    by_cases hp : c.parentChildAverage < 1
    · rw [if_pos hp]
      refine ⟨_, _, rfl, hlen, n1.2.1, fun p hp' => ?_, by omega⟩
      have := n2 p (List.mem_append_right _ hp')
      omega
    · rw [if_neg hp]
      exact ⟨_, _, rfl, hlen, n1.2.1, fun p hp' => n2 p (List.mem_append_right _ hp'), by omega⟩

theorem sumBeats_eq (b : Book Nat K) (games : List (Nat × Nat × K)) (h : Reflects b games) (hp : Paired games) (p : Nat) (opps : List Nat) :
    sumBeats b p opps = .ok (opps.map (average games p)).sum := by
  unfold sumBeats
  rw [co_mapM_ok _ (average games p) _ (fun q _ => beats_eq b games h hp p q)]
  rfl

theorem fitness_eq (o : Oracle K n) (b : Book Nat K) (games : List (Nat × Nat × K)) (h : Reflects b games) (hp : Paired games) (opps hof : List Nat) (p : Ind K n) :
    fitness o b opps hof p = .ok (fitnessOf o games opps hof p) := by
  unfold fitness fitnessOf
  rw [sumBeats_eq b games h hp, sumBeats_eq b games h hp]
  cases o.absEval <;> rfl

theorem tournament_bound (eval : Nat → Nat → Nat → K) (sample : Nat → List Nat → Nat → List Nat) (hs : GoodSample sample) (pop1 pop2 : List Nat) (k : Nat)
    (b : Book Nat K) (games : List (Nat × Nat × K)) (h : Reflects b games) (hp : Paired games) :
    ∃ new, Reflects (doTournament eval sample b pop1 pop2 (some k)) (games ++ new) ∧ Paired (games ++ new) ∧ new.length ≤ 2 * (pop1.length * k) ∧
      (pop1.Nodup → pop1 = pop2 → 2 ≤ pop1.length → 1 ≤ k → 2 ≤ new.length) := by
  obtain ⟨opps, h1, h2, h3⟩ := reflects_tournament eval sample hs pop2 (some k) pop1 b games h hp
  refine ⟨_, h2, h3, ?_, ?_⟩
  · rw [scored_length]; exact tournament_steps pop2 k pop1 opps h1
  · rintro hnd rfl h2' hk
    rw [scored_length]
    cases h1 with
    | nil => simp at h2'
    | @cons p os l1 l2 hc hrest =>
      rw [List.zipWith_cons_cons, List.flatten_cons, List.length_append, rounds_length]
      have hnum := hc.number
      simp only at hnum
      rw [List.nodup_cons] at hnd
      have : List.filter (fun q => decide (q ≠ p)) (p :: l1) = l1 := by
        rw [List.filter_cons, if_neg (by simp), List.filter_eq_self]
        intro q hq
        simp only [ne_eq, decide_not, Bool.not_eq_eq_eq_not, Bool.not_true, decide_eq_false_iff_not]
        rintro rfl
        exact hnd.1 hq
      rw [this] at hnum
      rw [List.length_cons] at h2'
      omega

/-- the evaluation of a population never fails -/
theorem evaluate_ok (o : Oracle K n) (ho : Fair o) (c : Settings K) (hc : Sensible c) (s : State K n) (games : List (Nat × Nat × K))
    (h : Reflects s.book games) (hp : Paired games) :
    ∃ b new, evaluatePopulation o c { s with generation := s.generation + 1 } =
        .ok (s.pop.map (fitnessOf o (games ++ new) (s.pop.map Ind.id) (hofOpponents c s)), b) ∧
      Reflects b (games ++ new) ∧ Paired (games ++ new) ∧ new.length ≤ s.pop.length * c.tournamentSize * 2 ∧
      ((s.pop.map Ind.id).Nodup → 2 ≤ s.pop.length → c.hofTournament < c.tournamentSize → 2 ≤ new.length) := by
  unfold evaluatePopulation hofOpponents
  simp only
  have hmin : min (s.generation + 1) c.hofTournament ≤ c.hofTournament := Nat.min_le_right _ _
  generalize min (s.generation + 1) c.hofTournament = hs at hmin
  have hhof := hc.hof
  set k := if (s.pop.map Ind.id).length < c.tournamentSize - hs then (s.pop.map Ind.id).length else c.tournamentSize - hs with hk
  have hk1 : k ≤ c.tournamentSize - hs := by rw [hk]; split <;> omega
  obtain ⟨new1, r1, p1, l1, m1⟩ := tournament_bound o.eval o.sample ho.sample (s.pop.map Ind.id) (s.pop.map Ind.id) k s.book games h hp
  rw [List.length_map] at l1 m1
  have hmono : s.pop.length * k ≤ s.pop.length * (c.tournamentSize - hs) := Nat.mul_le_mul_left _ hk1
  have hsplit : s.pop.length * (c.tournamentSize - hs) + s.pop.length * hs = s.pop.length * c.tournamentSize := by
    rw [← Nat.mul_add]; congr 1; omega
  have hge : (s.pop.map Ind.id).Nodup → 2 ≤ s.pop.length → c.hofTournament < c.tournamentSize → 2 ≤ new1.length := by
    intro hn h2 h3
    apply m1 hn rfl h2
    rw [hk, List.length_map]; split <;> omega
  by_cases h0 : hs > 0
  · rw [if_pos h0, if_pos h0]
    obtain ⟨new2, r2, p2, l2, _⟩ := tournament_bound o.eval o.sample ho.sample (s.pop.map Ind.id) ((s.hallOfFame.map Ind.id).dedup) hs _ _ r1 p1
    rw [List.append_assoc] at r2 p2
    rw [List.length_map] at l2
    refine ⟨_, new1 ++ new2, ?_, r2, p2, ?_, ?_⟩
    · rw [co_mapM_ok _ _ _ (fun p _ => fitness_eq o _ _ r2 p2 _ _ p)]; rfl
    · rw [List.length_append]; omega
    · intro a1 a2 a3; have := hge a1 a2 a3; rw [List.length_append]; omega
  · rw [if_neg h0, if_neg h0]
    refine ⟨_, new1, ?_, r1, p1, ?_, hge⟩
    · rw [co_mapM_ok _ _ _ (fun p _ => fitness_eq o _ _ r1 p1 _ _ p)]; rfl
    · omega

/-- what one generation does -/
theorem generation_ok (o : Oracle K n) (ho : Fair o) [IsStrictOrderedRing K] (c : Settings K) (hc : Sensible c) (s : State K n) (games : List (Nat × Nat × K))
    (h : Consistent c s games) :
    ∃ s' new best, oneGeneration o c s = .ok s' ∧ Consistent c s' (games ++ new) ∧ new.length ≤ stepsPerGeneration c ∧
      s'.generation = s.generation + 1 ∧ s'.hallOfFame = s.hallOfFame ++ [best] ∧ best ∈ s.pop ∧
      (∀ p ∈ s.pop, fitnessOf o (games ++ new) (s.pop.map Ind.id) (hofOpponents c s) p ≤ fitnessOf o (games ++ new) (s.pop.map Ind.id) (hofOpponents c s) best) ∧
      (2 ≤ c.populationSize → c.hofTournament < c.tournamentSize → 2 ≤ new.length) ∧
      selectAndReproduce o c (s.generation + 1) s.pop (s.pop.map (fitnessOf o (games ++ new) (s.pop.map Ind.id) (hofOpponents c s))) s.next = .ok (s'.pop, s'.next) := by
  obtain ⟨b, new, e1, r1, p1, l1, g1⟩ := evaluate_ok o ho c hc s games h.reflects h.paired
  have hsize := h.size
  have hne : s.pop ≠ [] := by
    intro he; rw [he] at hsize; have := hc.some_selected; have := hc.not_more; simp at hsize; omega
  set F := fitnessOf o (games ++ new) (s.pop.map Ind.id) (hofOpponents c s) with hF
  have hz : (s.pop.map F).zip s.pop = s.pop.map (fun p => (F p, p)) := by
    have : ∀ l : List (Ind K n), (l.map F).zip l = l.map (fun p => (F p, p)) := by
      intro l; induction l with
      | nil => rfl
      | cons a l ih => simp [ih]
    exact this _
  obtain ⟨x, hx⟩ := Verif.Py.firstMax_isSome (fun x : K × Ind K n => x.1) ((s.pop.map F).zip s.pop) (by rw [hz]; simpa using hne)
  obtain ⟨hx1, hx2⟩ := Verif.Py.firstMax_spec _ _ _ hx
  obtain ⟨newpop, next', q1, q2, q3, q4, q5⟩ := reproduce_ok o ho c hc (s.generation + 1) s.pop (s.pop.map F) (by simp) h.size h.ids s.next h.fresh
  rw [hz] at hx1 hx2
  obtain ⟨best, hb, rfl⟩ := List.mem_map.1 hx1
  refine ⟨{ pop := newpop, hallOfFame := s.hallOfFame ++ [best], hallOfFitnesses := s.hallOfFitnesses ++ [(((s.pop.map F).insertionSort (· ≤ ·)).reverse).take c.numSelected],
            generation := s.generation + 1, book := b, next := next' }, new, best, ?_, ⟨q2, q3, q4, by simp [h.hof], by simp [h.fits], r1, p1⟩, ?_, rfl, rfl, hb, ?_, ?_, ?_⟩
  · unfold oneGeneration
    simp only [e1, hx, q1, bind, Except.bind, pure, Except.pure]
  · rw [stepsPerGeneration, ← hsize]; exact l1
  · intro p hp'
    exact hx2 (F p, p) (List.mem_map_of_mem hp')
  · intro h2 h3
    exact g1 h.ids (by omega) h3
  · exact q1

/-- what `learn` does -/
theorem learnLoop_spec (o : Oracle K n) (ho : Fair o) [IsStrictOrderedRing K] (c : Settings K) (hc : Sensible c) (limit : Option Nat) :
    ∀ (fuel : Nat) (s : State K n) (games : List (Nat × Nat × K)), Consistent c s games →
    ∀ r, learnLoop o c limit fuel s = some r → ∃ s' new, r = .ok s' ∧ Consistent c s' (games ++ new) ∧ stops c limit s' = true ∧ s.generation ≤ s'.generation ∧
      (∀ m, (limit = some m ∨ c.maxEvaluations = some m) → games.length ≤ m → games.length + new.length ≤ m) ∧
      (∀ m, c.maxGenerations = some m → s.generation ≤ m → s'.generation ≤ m) := by
  intro fuel
  induction fuel with
  | zero =>
    intro s games h r hr
    unfold learnLoop at hr
    by_cases hst : stops c limit s = true
    · rw [if_pos hst] at hr
      exact ⟨s, [], by simpa using hr.symm, by simpa using h, hst, le_rfl, fun m _ h => by simpa using h, fun m _ h => h⟩
    · rw [if_neg hst] at hr; simp at hr
  | succ fuel ih =>
    intro s games h r hr
    unfold learnLoop at hr
    by_cases hst : stops c limit s = true
    · rw [if_pos hst] at hr
      exact ⟨s, [], by simpa using hr.symm, by simpa using h, hst, le_rfl, fun m _ h => by simpa using h, fun m _ h => h⟩
    · rw [if_neg hst] at hr
      obtain ⟨s1, new1, best, e1, c1, l1, g1, _⟩ := generation_ok o ho c hc s games h
      rw [e1] at hr
      simp only at hr
      obtain ⟨s', new2, hr', c2, st2, gen2, lim2, max2⟩ := ih s1 _ c1 r hr
      refine ⟨s', new1 ++ new2, hr', by rwa [← List.append_assoc], st2, by omega, ?_, ?_⟩
      · intro m hm _
        have hsteps := h.reflects.steps
        have hle : games.length + new1.length ≤ m := by
          rw [Bool.not_eq_true] at hst
          unfold stops at hst
          simp only [Bool.or_eq_false_iff] at hst
          obtain ⟨⟨ha, hb⟩, _⟩ := hst
          rcases hm with hm | hm
          · rw [hm] at ha; simp only [decide_eq_false_iff_not] at ha; omega
          · rw [hm] at hb; simp only [decide_eq_false_iff_not] at hb; omega
        have := lim2 m hm (by rw [List.length_append]; exact hle)
        rw [List.length_append] at this ⊢
        omega
      · intro m hm hle
        apply max2 m hm
        rw [Bool.not_eq_true] at hst
        unfold stops at hst
        simp only [Bool.or_eq_false_iff] at hst
        obtain ⟨_, hc'⟩ := hst
        rw [hm] at hc'
        simp only [decide_eq_false_iff_not] at hc'
        omega

/-- the loop ends when the number of generations is limited, and also when evaluations are limited and every generation needs some -/
theorem learnLoop_ends (o : Oracle K n) (ho : Fair o) [IsStrictOrderedRing K] (c : Settings K) (hc : Sensible c) (limit : Option Nat) :
    ∀ (fuel : Nat) (s : State K n) (games : List (Nat × Nat × K)), Consistent c s games →
    ((∃ m, c.maxGenerations = some m ∧ m ≤ s.generation + fuel) ∨
     (2 ≤ c.populationSize ∧ c.hofTournament < c.tournamentSize ∧ ∃ m, (limit = some m ∨ c.maxEvaluations = some m) ∧ m ≤ games.length + fuel)) →
    ∃ r, learnLoop o c limit fuel s = some r := by
  intro fuel
  induction fuel with
  | zero =>
    intro s games h hcase
    refine ⟨.ok s, ?_⟩
    unfold learnLoop
    rw [if_pos]
    unfold stops
    simp only [Bool.or_eq_true]
    have hsteps := h.reflects.steps
    rcases hcase with ⟨m, hm, hle⟩ | ⟨h2, h3, m, hm, hle⟩
    · right; rw [hm]; simpa using hle
    · left
      have hpos : 0 < stepsPerGeneration c := by
        unfold stepsPerGeneration
        exact Nat.mul_pos (Nat.mul_pos (by omega) (by omega)) (by omega)
      rcases hm with hm | hm
      · left; rw [hm]; simp only [decide_eq_true_eq]; omega
      · right; rw [hm]; simp only [decide_eq_true_eq]; omega
  | succ fuel ih =>
    intro s games h hcase
    unfold learnLoop
    by_cases hst : stops c limit s = true
    · rw [if_pos hst]; exact ⟨_, rfl⟩
    · rw [if_neg hst]
      obtain ⟨s1, new1, best, e1, c1, _, g1, _, _, _, two, _⟩ := generation_ok o ho c hc s games h
      rw [e1]
      simp only
      apply ih s1 _ c1
      rcases hcase with ⟨m, hm, hle⟩ | ⟨h2, h3, m, hm, hle⟩
      · exact Or.inl ⟨m, hm, by omega⟩
      · refine Or.inr ⟨h2, h3, m, hm, ?_⟩
        have := two h2 h3
        rw [List.length_append]; omega

end Generations

end Verif.Coevolution

namespace Verif.Props
open Verif.Coevolution Verif.Coevolution.Spec
open Verif.DataSet (Err)

section C162Book
variable {α K : Type} [DecidableEq α] [Field K] [LinearOrder K]

/-- **C162, bookkeeping.** If the tables describe exactly the games played so far, then after one more evaluation they describe exactly those games and the new
one: games won, games played, the sum and the list of the scores of every ordered pair, and everyone's opponents in order. -/
theorem C162_book (eval : Nat → α → α → K) (b : Book α K) (games : List (α × α × K)) (h : Reflects b games) (p q : α) :
    Reflects (relEval eval b p q) (games ++ [(p, q, eval games.length p q)]) := reflects_relEval eval b games h p q

/-- **C162, tournaments.** In a tournament every player of the first list meets as many players of the second list as asked for (or all there are), never itself
and, if the list has no repetitions, no one twice. Against each of them it plays exactly one game in each order. Nothing else is played, and the tables describe
exactly these games after the earlier ones. -/
theorem C162_tournament (eval : Nat → α → α → K) (sample : Nat → List α → Nat → List α) (hs : GoodSample sample) (pop1 pop2 : List α) (size : Option Nat)
    (b : Book α K) (games : List (α × α × K)) (h : Reflects b games) (hp : Paired games) :
    ∃ (opps : List (List α)) (new : List (α × α × K)), List.Forall₂ (Chosen pop2 size) pop1 opps ∧
      new.map (fun g => (g.1, g.2.1)) = (List.zipWith rounds pop1 opps).flatten ∧
      (∀ i p q v, new[i]? = some (p, q, v) → v = eval (games.length + i) p q) ∧
      Reflects (doTournament eval sample b pop1 pop2 size) (games ++ new) ∧ Paired (games ++ new) := by
  obtain ⟨opps, h1, h2, h3⟩ := reflects_tournament eval sample hs pop2 size pop1 b games h hp
  refine ⟨opps, _, h1, ?_, ?_, h2, h3⟩
  · generalize (List.zipWith rounds pop1 opps).flatten = l
    generalize games.length = t
    induction l generalizing t with
    | nil => rfl
    | cons a l ih => obtain ⟨p, q⟩ := a; simp [scored, ih]
  · generalize (List.zipWith rounds pop1 opps).flatten = l
    generalize games.length = t
    induction l generalizing t with
    | nil => intro i p q v h; simp [scored] at h
    | cons a l ih =>
      obtain ⟨x, y⟩ := a
      intro i p q v h
      cases i with
      | zero => simp only [scored, List.getElem?_cons_zero, Option.some.injEq, Prod.mk.injEq] at h; rw [← h.1, ← h.2.1, ← h.2.2]; rfl
      | succ i =>
        simp only [scored, List.getElem?_cons_succ] at h
        rw [ih (t + 1) i p q v h]
        congr 1
        omega

/-- **C162, comparison.** When games have been played in pairs, comparing two players never fails. It gives the average score of the first over all games between the two,
0 if they never met, and comparing them the other way round gives the opposite. -/
theorem C162_beats (b : Book α K) (games : List (α × α × K)) (h : Reflects b games) (hp : Paired games) (p q : α) :
    beats b p q = .ok (average games p q) ∧ beats b q p = .ok (- average games p q) := by
  refine ⟨beats_eq b games h hp p q, ?_⟩
  rw [← average_anti]
  exact beats_eq b games h hp q p

/-- the empty tables describe no games -/
example : Reflects (Book.empty : Book α K) [] ∧ Paired ([] : List (α × α × K)) := ⟨⟨rfl, fun _ _ => rfl, fun _ => rfl⟩, fun _ _ => rfl⟩

end C162Book

section C162Generations
variable {K : Type} [Field K] [LinearOrder K] [IsStrictOrderedRing K] {n : Nat}

/-- **C162, generations.** With at least one and at most `populationSize` selected players, a generation never fails. The population keeps its size, its members are
distinct objects, and the tables still describe exactly the games played. The new member of the hall of fame is a member of the population none of which has a higher
fitness (the sum of the average scores against the population and, if used, the hall of fame, mixed with the absolute evaluation). No more games are played than
announced. -/
theorem C162_generation (o : Oracle K n) (ho : Fair o) (c : Settings K) (hc : Sensible c) (s : State K n) (games : List (Nat × Nat × K)) (h : Consistent c s games) :
    ∃ s' new best, oneGeneration o c s = .ok s' ∧ Consistent c s' (games ++ new) ∧ new.length ≤ stepsPerGeneration c ∧
      s'.generation = s.generation + 1 ∧ s'.hallOfFame = s.hallOfFame ++ [best] ∧ best ∈ s.pop ∧
      (∀ p ∈ s.pop, fitnessOf o (games ++ new) (s.pop.map Ind.id) (hofOpponents c s) p ≤ fitnessOf o (games ++ new) (s.pop.map Ind.id) (hofOpponents c s) best) ∧
      selectAndReproduce o c (s.generation + 1) s.pop (s.pop.map (fitnessOf o (games ++ new) (s.pop.map Ind.id) (hofOpponents c s))) s.next = .ok (s'.pop, s'.next) := by
  obtain ⟨s', new, best, h1, h2, h3, h4, h5, h6, h7, _, h9⟩ := generation_ok o ho c hc s games h
  exact ⟨s', new, best, h1, h2, h3, h4, h5, h6, h7, h9⟩

/-- **C162, selection and reproduction.** The selected players are the best of the population, and each of the others is no better than any of them. Without elitism
the new population consists of mutated copies of selected players only; with elitism and without averaging, of the selected players followed by mutated copies. With
elitism and averaging, each of these players that has a parent is replaced by a new one between the player and its parent, in the given proportion. -/
theorem C162_reproduction (o : Oracle K n) (ho : Fair o) (c : Settings K) (hc : Sensible c) (t : Nat) (pop : List (Ind K n)) (fits : List K)
    (hl : fits.length = pop.length) (hsize : pop.length = c.populationSize) (hids : (pop.map Ind.id).Nodup) (next : Nat) :
    ∃ chosen rest : List (K × Ind K n), (chosen ++ rest).Perm (fits.zip pop) ∧ chosen.length = c.numSelected ∧ (∀ x ∈ chosen, ∀ y ∈ rest, y.1 ≤ x.1) ∧
      (c.elitism = false → ∃ newpop next', selectAndReproduce o c t pop fits next = .ok (newpop, next') ∧ newpop.length = c.populationSize ∧
        ∀ x ∈ newpop, next ≤ x.id ∧ ∃ y ∈ chosen.map Prod.snd, x.params = o.mutate x.id y.params) ∧
      (c.elitism = true → ¬ c.parentChildAverage < 1 → ∃ children next', selectAndReproduce o c t pop fits next = .ok (chosen.map Prod.snd ++ children, next') ∧
        c.numSelected + children.length = c.populationSize ∧
        ∀ x ∈ children, next ≤ x.id ∧ ∃ y ∈ chosen.map Prod.snd, x.params = o.mutate x.id y.params) ∧
      (c.elitism = true → c.parentChildAverage < 1 → ∃ children newpop next', selectAndReproduce o c t pop fits next = .ok (newpop, next') ∧
        c.numSelected + children.length = c.populationSize ∧
        (∀ x ∈ children, next ≤ x.id ∧ ∃ y ∈ chosen.map Prod.snd, x.params = o.mutate x.id y.params ∧ x.parent = some y.params) ∧
        List.Forall₂ (fun p x => (p.parent = none → x = p) ∧ ∀ q, p.parent = some q → next ≤ x.id ∧
          ∀ i, x.params i = p.params i * c.parentChildAverage + q i * (1 - c.parentChildAverage)) (chosen.map Prod.snd ++ children) newpop) := by
  obtain ⟨chosen, rest, h1, h2, h3, h4⟩ := select_spec o ho c t pop fits
  obtain ⟨s1, s2, s3, s4⟩ := select_mem o ho c hc t pop fits hl hsize hids
  have hns := hc.not_more
  refine ⟨chosen, rest, h1, by rw [← s1, h4, List.length_map], h3, fun he => ?_, fun he hp => ?_, fun he hp => ?_⟩
  · obtain ⟨l, e1, e2, e3⟩ := extend_ok o c (select o c t pop fits) s2 (c.populationSize + c.numSelected) next
    have hll : l.length = c.populationSize := by
      have := congrArg List.length e2
      rw [List.length_map, List.length_map, List.length_range, s1] at this; omega
    have hid : ∀ x ∈ l, next ≤ x.id := by
      intro x hx
      have : x.id ∈ l.map Ind.id := List.mem_map_of_mem hx
      rw [e2] at this
      obtain ⟨i, _, he⟩ := List.mem_map.1 this
      omega
    have hdrop : (select o c t pop fits ++ l).drop c.numSelected = l := by rw [← s1]; exact List.drop_left
    unfold selectAndReproduce
    simp only [he, e1, bind, Except.bind, hdrop]
    have hall : ∀ x ∈ l, next ≤ x.id ∧ ∃ y ∈ chosen.map Prod.snd, x.params = o.mutate x.id y.params := by
      intro x hx
      obtain ⟨y, hy, hxy, _⟩ := e3 x hx
      exact ⟨hid x hx, y, by rwa [← h4], hxy⟩
    by_cases hp : c.parentChildAverage < 1
    · rw [if_pos hp]; exact ⟨l, _, rfl, hll, hall⟩
    · rw [if_neg hp]; exact ⟨l, _, rfl, hll, hall⟩
  · obtain ⟨l, e1, e2, e3⟩ := extend_ok o c (select o c t pop fits) s2 c.populationSize next
    have hll : c.numSelected + l.length = c.populationSize := by
      have := congrArg List.length e2
      rw [List.length_map, List.length_map, List.length_range, s1] at this; omega
    have hid : ∀ x ∈ l, next ≤ x.id := by
      intro x hx
      have : x.id ∈ l.map Ind.id := List.mem_map_of_mem hx
      rw [e2] at this
      obtain ⟨i, _, he⟩ := List.mem_map.1 this
      omega
    unfold selectAndReproduce
    simp only [he, if_true, e1, bind, Except.bind, if_neg hp]
    refine ⟨l, _, by rw [h4]; rfl, hll, fun x hx => ?_⟩
    obtain ⟨y, hy, hxy, _⟩ := e3 x hx
    exact ⟨hid x hx, y, by rwa [← h4], hxy⟩
  · obtain ⟨l, e1, e2, e3⟩ := extend_ok o c (select o c t pop fits) s2 c.populationSize next
    have hll : c.numSelected + l.length = c.populationSize := by
      have := congrArg List.length e2
      rw [List.length_map, List.length_map, List.length_range, s1] at this; omega
    have hid : ∀ x ∈ l, next ≤ x.id := by
      intro x hx
      have : x.id ∈ l.map Ind.id := List.mem_map_of_mem hx
      rw [e2] at this
      obtain ⟨i, _, he⟩ := List.mem_map.1 this
      omega
    unfold selectAndReproduce
    simp only [he, if_true, e1, bind, Except.bind, if_pos hp]
    refine ⟨l, _, _, rfl, hll, fun x hx => ?_, ?_⟩
    · obtain ⟨y, hy, hxy, hpar⟩ := e3 x hx
      rw [if_pos hp] at hpar
      exact ⟨hid x hx, y, by rwa [← h4], hxy, hpar⟩
    · rw [← h4]
      exact average_spec _ next _ _ (by omega)

/-- **C162, learning.** When `learn` ends, it has returned the best player of the last generation, and none of the given limits (evaluations in this call, evaluations
in total, generations) has been exceeded; it has not failed unless there never was a generation. -/
theorem C162_learn (o : Oracle K n) (ho : Fair o) (c : Settings K) (hc : Sensible c) (maxSteps : Option Nat) (fuel : Nat) (s : State K n)
    (games : List (Nat × Nat × K)) (h : Consistent c s games) (r) (hr : learn o c maxSteps fuel s = some r) :
    ∃ s' new, Consistent c s' (games ++ new) ∧
      (0 < s'.generation → ∃ best, r = .ok (s', best) ∧ s'.hallOfFame.getLast? = some best) ∧
      (s'.generation = 0 → r = .error .indexError) ∧
      (∀ m, maxSteps = some m → new.length ≤ m) ∧
      (∀ m, c.maxEvaluations = some m → games.length ≤ m → games.length + new.length ≤ m) ∧
      (∀ m, c.maxGenerations = some m → s.generation ≤ m → s'.generation ≤ m) := by
  unfold learn at hr
  rw [Option.map_eq_some_iff] at hr
  obtain ⟨r0, hr0, hr1⟩ := hr
  obtain ⟨s', new, rfl, h1, _, _, h4, h5⟩ := learnLoop_spec o ho c hc _ fuel s games h r0 hr0
  dsimp only at hr1
  refine ⟨s', new, h1, ?_, ?_, ?_, fun m hm => h4 m (Or.inr hm), h5⟩
  · intro hpos
    have hne : s'.hallOfFame ≠ [] := by
      intro he; have := h1.hof; rw [he] at this; simp at this; omega
    refine ⟨s'.hallOfFame.getLast hne, ?_, List.getLast?_eq_some_getLast hne⟩
    rw [← hr1, List.getLast?_eq_some_getLast hne]
  · intro h0
    have : s'.hallOfFame = [] := by have := h1.hof; rw [h0] at this; exact List.length_eq_zero_iff.1 this
    rw [← hr1, this]; rfl
  · rintro m rfl
    have := h4 (m + s.book.steps) (Or.inl rfl) (by rw [h.reflects.steps]; omega)
    rw [h.reflects.steps] at this
    omega

/-- **C162, termination.** `learn` ends if the number of generations is limited, and also if evaluations are limited, provided that there are at least two players and
not all games are played against the hall of fame. -/
theorem C162_terminates (o : Oracle K n) (ho : Fair o) (c : Settings K) (hc : Sensible c) (maxSteps : Option Nat) (s : State K n)
    (games : List (Nat × Nat × K)) (h : Consistent c s games)
    (hl : (∃ m, c.maxGenerations = some m) ∨ (2 ≤ c.populationSize ∧ c.hofTournament < c.tournamentSize ∧ ((∃ m, maxSteps = some m) ∨ ∃ m, c.maxEvaluations = some m))) :
    ∃ fuel r, learn o c maxSteps fuel s = some r := by
  have hex : ∃ fuel r, learnLoop o c (maxSteps.map (· + s.book.steps)) fuel s = some r := by
    rcases hl with ⟨m, hm⟩ | ⟨h2, h3, ⟨m, rfl⟩ | ⟨m, hm⟩⟩
    · exact ⟨m, learnLoop_ends o ho c hc _ m s games h (Or.inl ⟨m, hm, by omega⟩)⟩
    · exact ⟨m + s.book.steps, learnLoop_ends o ho c hc _ _ s games h (Or.inr ⟨h2, h3, m + s.book.steps, Or.inl rfl, by omega⟩)⟩
    · exact ⟨m, learnLoop_ends o ho c hc _ _ s games h (Or.inr ⟨h2, h3, m, Or.inr hm, by omega⟩)⟩
  obtain ⟨fuel, r, hr⟩ := hex
  exact ⟨fuel, _, by unfold learn; rw [hr]; rfl⟩

/-- **C162, start.** Starting from at least one and at most `populationSize` players gives such a state, in which nothing has been played; the given players come first. -/
theorem C162_start (o : Oracle K n) (c : Settings K) (seeds : List (Fin n → K)) (h0 : seeds ≠ []) (hle : seeds.length ≤ c.populationSize) :
    ∃ s, start o c seeds = .ok s ∧ Consistent c s [] ∧ (s.pop.take seeds.length).map Ind.params = seeds := by
  set l0 := seeds.mapIdx (fun i v => ({ id := i, params := v, parent := none } : Ind K n)) with hl0
  have hlen : l0.length = seeds.length := by simp [hl0]
  have hids : l0.map Ind.id = List.range seeds.length := by
    apply List.ext_getElem?
    intro i
    simp only [hl0, List.getElem?_map, List.getElem?_mapIdx]
    by_cases hi : i < seeds.length
    · rw [List.getElem?_eq_getElem hi, List.getElem?_range hi]; rfl
    · rw [List.getElem?_eq_none (by omega), List.getElem?_eq_none (by rw [List.length_range]; omega)]; rfl
  have hpar : l0.map Ind.params = seeds := by
    apply List.ext_getElem?
    intro i
    simp only [hl0, List.getElem?_map, List.getElem?_mapIdx]
    cases seeds[i]? <;> rfl
  have hne : l0 ≠ [] := by intro he; rw [he] at hlen; exact h0 (List.length_eq_zero_iff.1 (by simpa using hlen.symm))
  obtain ⟨l, e1, e2, _⟩ := extend_ok o c l0 hne c.populationSize l0.length
  obtain ⟨n1, n2, _, n4⟩ := nodup_extend l0 l l0.length _ (by rw [hids]; exact List.nodup_range) (by
    intro p hp
    have : p.id ∈ l0.map Ind.id := List.mem_map_of_mem hp
    rw [hids, List.mem_range] at this
    omega) e2
  refine ⟨_, by unfold start; simp only [← hl0, e1, bind, Except.bind]; rfl, ⟨?_, n1, n2, rfl, rfl, ⟨rfl, fun _ _ => rfl, fun _ => rfl⟩, fun _ _ => rfl⟩, ?_⟩
  · simp only [List.length_append, n4, hlen]; omega
  · simp only
    rw [← hlen, List.take_left, hpar]

/-- **C162, failure: averaging without elitism.** Without elitism the proportion of the parents has no effect at all on the players that are produced: any two proportions
below one give the same new population. -/
theorem C162_negation_average (o : Oracle K n) (c : Settings K) (he : c.elitism = false) (w1 w2 : K) (h1 : w1 < 1) (h2 : w2 < 1) (t : Nat)
    (pop : List (Ind K n)) (fits : List K) (next : Nat) :
    selectAndReproduce o { c with parentChildAverage := w1 } t pop fits next = selectAndReproduce o { c with parentChildAverage := w2 } t pop fits next := by
  have hch : ∀ seeds nx, child o { c with parentChildAverage := w1 } seeds nx = child o { c with parentChildAverage := w2 } seeds nx := by
    intro seeds nx
    unfold child
    simp only [h1, h2, if_true]
  have hex : ∀ seeds size nx, extend o { c with parentChildAverage := w1 } seeds size nx = extend o { c with parentChildAverage := w2 } seeds size nx := by
    intro seeds size nx
    unfold extend
    simp only [hch]
  have hsel : select o { c with parentChildAverage := w1 } t pop fits = select o { c with parentChildAverage := w2 } t pop fits := rfl
  unfold selectAndReproduce
  rw [hsel]
  simp only [hex]
  rw [if_neg (by simp [he]), if_neg (by simp [he])]
  simp only [h1, h2, if_true]

/-- **C162, failure: averaging with elitism.** With elitism and averaging, a selected player that has a parent does not survive: every member of the new population with
a parent is a new object, moved towards its parent again. -/
theorem C162_negation_elitism (o : Oracle K n) (ho : Fair o) (c : Settings K) (hc : Sensible c) (he : c.elitism = true) (hw : c.parentChildAverage < 1) (t : Nat)
    (pop : List (Ind K n)) (fits : List K) (hl : fits.length = pop.length) (hsize : pop.length = c.populationSize) (hids : (pop.map Ind.id).Nodup)
    (next : Nat) (newpop : List (Ind K n)) (next' : Nat) (h : selectAndReproduce o c t pop fits next = .ok (newpop, next')) :
    ∀ x ∈ newpop, x.parent ≠ none → next ≤ x.id := by
  obtain ⟨s1, s2, s3, s4⟩ := select_mem o ho c hc t pop fits hl hsize hids
  obtain ⟨l, e1, e2, e3⟩ := extend_ok o c (select o c t pop fits) s2 c.populationSize next
  unfold selectAndReproduce at h
  simp only [he, if_true, e1, bind, Except.bind, if_pos hw, pure, Except.pure, Except.ok.injEq, Prod.mk.injEq] at h
  rw [← h.1]
  have key : ∀ (l : List (Ind K n)) (nx : Nat), next ≤ nx → ∀ x ∈ averageWithParents c.parentChildAverage nx l, x.parent ≠ none → next ≤ x.id := by
    intro l
    induction l with
    | nil => intro nx _ x hx; simp [averageWithParents] at hx
    | cons a l ih =>
      intro nx hnx x hx hpx
      unfold averageWithParents at hx
      rcases List.mem_cons.1 hx with rfl | hx
      · cases hpar : a.parent with
        | none => rw [hpar] at hpx; simp [hpar] at hpx
        | some q => simpa using hnx
      · exact ih (nx + 1) (by omega) x hx hpx
  exact key _ _ (by omega)

/-- **C162, failure: no generation.** When the budget does not suffice for one generation, `learn` raises an IndexError instead of returning a player. -/
theorem C162_negation_empty (o : Oracle K n) (c : Settings K) (m : Nat) (s : State K n) (hs : s.hallOfFame = []) (hm : m < stepsPerGeneration c) (fuel : Nat) :
    learn o c (some m) fuel s = some (.error .indexError) := by
  have : stops c (some (m + s.book.steps)) s = true := by
    unfold stops
    simp only [Bool.or_eq_true, decide_eq_true_eq]
    left; left; omega
  have hloop : learnLoop o c (some (m + s.book.steps)) fuel s = some (.ok s) := by
    unfold learnLoop; rw [if_pos this]
  unfold learn
  simp only [Option.map_some, hloop, hs]
  rfl

/-- **C162, failure: a single player.** A population of one player (without hall of fame) never plays a game, so that a limit on the evaluations that allows the first
generation never ends the search. -/
theorem C162_negation_single (o : Oracle K n) (ho : Fair o) (c : Settings K) (hc : Sensible c) (h1 : c.populationSize = 1) (hh : c.hofTournament = 0)
    (hg : c.maxGenerations = none) (m : Nat) (hm : c.maxEvaluations = some m) (hle : stepsPerGeneration c ≤ m) :
    ∀ (fuel : Nat) (s : State K n), Consistent c s [] → learn o c none fuel s = none := by
  have key : ∀ (fuel : Nat) (s : State K n), Consistent c s [] → learnLoop o c none fuel s = none := by
    intro fuel
    induction fuel with
    | zero =>
      intro s h
      have hst : stops c none s = false := by
        unfold stops
        rw [hm, hg]
        have := h.reflects.steps
        simp only [List.length_nil] at this
        simp only [Bool.false_or, Bool.or_false, decide_eq_false_iff_not]
        omega
      unfold learnLoop
      rw [hst]; rfl
    | succ fuel ih =>
      intro s h
      have hst : stops c none s = false := by
        unfold stops
        rw [hm, hg]
        have := h.reflects.steps
        simp only [List.length_nil] at this
        simp only [Bool.false_or, Bool.or_false, decide_eq_false_iff_not]
        omega
      obtain ⟨s', new, best, e1, c1, l1, _⟩ := generation_ok o ho c hc s [] h
      have hsz := h.size
      rw [h1, List.length_eq_one_iff] at hsz
      obtain ⟨p, hp⟩ := hsz
      have hnew : (s'.book).steps = 0 := by
        unfold oneGeneration evaluatePopulation at e1
        simp only [hp, hh, Nat.min_zero, gt_iff_lt, lt_self_iff_false, if_false, List.map_cons, List.map_nil] at e1
        have hdo : ∀ k, doTournament o.eval o.sample s.book [p.id] [p.id] (some k) = s.book := by
          intro k
          unfold doTournament opponentsOf
          simp [playAll]
        simp only [hdo] at e1
        simp only [bind, Except.bind, pure, Except.pure] at e1
        split at e1
        · simp at e1
        · rename_i v hv
          split at hv
          · simp at hv
          · simp only [Except.ok.injEq] at hv
            subst hv
            simp only at e1
            split at e1
            · simp at e1
            · split at e1
              · simp at e1
              · simp only [Except.ok.injEq] at e1
                rw [← e1]
                simpa using h.reflects.steps
      have : new = [] := by
        have := c1.reflects.steps
        rw [hnew, List.nil_append] at this
        exact List.length_eq_zero_iff.1 this.symm
      subst this
      unfold learnLoop
      rw [hst, e1]
      exact ih s' c1
  intro fuel s h
  unfold learn
  simp only [Option.map_none, key fuel s h]

/-- a fair oracle and sensible settings -/
example : Fair ({ eval := fun _ _ _ => 1, sample := fun _ l k => l.take k, pick := id, mutate := fun _ v => v, shuffle := fun _ l => l, absEval := none } : Oracle ℚ 1) ∧
    Sensible ({ populationSize := 4, numSelected := 2, elitism := false, parentChildAverage := 1, tournamentSize := 4, hofTournament := 1, maxGenerations := some 3, maxEvaluations := none } : Settings ℚ) :=
  ⟨⟨fun _ l k _ => ⟨l, List.Perm.refl _, rfl⟩, fun _ _ => List.Perm.refl _⟩, ⟨by decide, by decide, by decide⟩⟩

end C162Generations

end Verif.Props
