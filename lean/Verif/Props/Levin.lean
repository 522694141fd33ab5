import Verif.Model.Levin
import Mathlib.Tactic.Linarith
import Mathlib.Order.Basic
import Mathlib.Data.List.Sort
/-
C151: universal search.
-/
namespace Verif.Levin

variable {P : Type}

namespace Spec

/-- the programs of complexity less than `m`, in the order of the enumeration -/
def below (enumeration : List (Nat × P)) (m : Nat) : List P := (enumeration.filter fun x => decide (x.1 < m)).map Prod.snd

/-- by increasing complexity -/
def Ordered (enumeration : List (Nat × P)) : Prop := enumeration.Pairwise fun x y => x.1 ≤ y.1

/-- what is executed if no solution is found in the first `k` phases: in every phase all programs of less complexity than its number -/
def failed (enumeration : List (Nat × P)) (k : Nat) : List P := (List.range k).flatMap fun i => below enumeration (i + 1)

end Spec

open Spec

theorem generate_append (m : Nat) : ∀ l : List (Nat × P), (generate m l).1 ++ (generate m l).2 = l
  | [] => rfl
  | x :: xs => by
    unfold generate
    split_ifs
    · rw [List.cons_append, generate_append m xs]
    · rfl

theorem generate_rest (m : Nat) : ∀ l : List (Nat × P), Ordered l → ∀ x ∈ (generate m l).2, m < x.1
  | [], _ => by simp [generate]
  | y :: ys, h => by
    unfold generate
    rw [Ordered, List.pairwise_cons] at h
    split_ifs with h1
    · exact generate_rest m ys h.2
    · intro x hx
      have := h.1 x hx
      omega

/-- programs of a complexity are all read before they are needed -/
theorem filter_all (all rest : List (Nat × P)) (c : Nat) (h : ∀ x ∈ rest, c < x.1) : (all.filter fun x => x.1 == c) = (all ++ rest).filter fun x => x.1 == c := by
  rw [List.filter_append]
  have : (rest.filter fun x => x.1 == c) = [] := by
    rw [List.filter_eq_nil_iff]
    intro x hx
    have := h x hx
    simp
    omega
  rw [this, List.append_nil]

theorem below_succ : ∀ (l : List (Nat × P)) (_ : Ordered l) (m : Nat), below l (m + 1) = below l m ++ (l.filter fun x => x.1 == m).map Prod.snd
  | [], _, m => rfl
  | x :: xs, h, m => by
    rw [Ordered, List.pairwise_cons] at h
    have ih := below_succ xs h.2 m
    unfold below at *
    by_cases h1 : x.1 < m
    · have h2 : x.1 < m + 1 := by omega
      have h3 : (x.1 == m) = false := by simp; omega
      simp only [List.filter_cons, h1, h2, h3, decide_true, if_true, Bool.false_eq_true, if_false, List.map_cons, List.cons_append, ih]
    · have e : (xs.filter fun y => decide (y.1 < m)) = [] := by
        rw [List.filter_eq_nil_iff]
        intro y hy
        have := h.1 y hy
        simp
        omega
      rw [e] at ih
      by_cases h2 : x.1 = m
      · have h3 : x.1 < m + 1 := by omega
        have h4 : (x.1 == m) = true := by simp [h2]
        simp only [List.filter_cons, h1, h3, h4, decide_true, decide_false, if_true, Bool.false_eq_true, if_false, List.map_cons, e, List.map_nil, List.nil_append]
        rw [ih]
        simp
      · have h3 : ¬x.1 < m + 1 := by omega
        have h4 : (x.1 == m) = false := by simp [h2]
        simp only [List.filter_cons, h1, h3, h4, decide_false, Bool.false_eq_true, if_false, e, List.map_nil, List.nil_append]
        rw [ih]
        simp

theorem below_eq (l : List (Nat × P)) (h : Ordered l) : ∀ m, below l m = (List.range m).flatMap fun c => (l.filter fun x => x.1 == c).map Prod.snd
  | 0 => by simp [below]
  | m + 1 => by rw [below_succ l h, below_eq l h m, List.range_succ, List.flatMap_append]; simp

theorem tryAll_false (run : P → Option Bool) (t : Nat) : ∀ ps : List P, (∀ p ∈ ps, run p = some false) → tryAll run t ps = some (ps, false)
  | [], _ => rfl
  | p :: ps, h => by
    rw [tryAll]
    simp only [timeBoundExecution, h p (by simp)]
    rw [tryAll_false run t ps fun q hq => h q (List.mem_cons_of_mem _ hq)]
    rfl

theorem tryAll_true (run : P → Option Bool) (t : Nat) : ∀ (pre : List P) (p : P) (post : List P), (∀ q ∈ pre, run q = some false) → run p = some true → tryAll run t (pre ++ p :: post) = some (pre ++ [p], true)
  | [], p, post, _, h => by
    rw [List.nil_append, tryAll]
    simp only [timeBoundExecution, h, List.nil_append]
  | q :: pre, p, post, hq, h => by
    rw [List.cons_append, tryAll]
    simp only [timeBoundExecution, hq q (by simp)]
    rw [tryAll_true run t pre p post (fun r hr => hq r (List.mem_cons_of_mem _ hr)) h]
    rfl

/-- the programs of a complexity -/
def level (l : List (Nat × P)) (c : Nat) : List P := (l.filter fun x => x.1 == c).map Prod.snd

theorem level_ne_nil (l : List (Nat × P)) (c : Nat) (h : ∃ x ∈ l, x.1 = c) : level l c ≠ [] := by
  obtain ⟨x, hx, hc⟩ := h
  unfold level
  intro h0
  have := List.map_eq_nil_iff.1 h0
  rw [List.filter_eq_nil_iff] at this
  exact this x hx (by simp [hc])

theorem execute_cons (run : P → Option Bool) (m : Nat) (all : List (Nat × P)) (c : Nat) (cs : List Nat) (h : level all c ≠ []) :
    execute run m all (c :: cs) = match tryAll run (2 ^ (m - c) / m) (level all c) with
      | none => .inl .hangs
      | some (e, true) => .inl (.found e)
      | some (e, false) =>
        match execute run m all cs with
        | .inl (.found e') => .inl (.found (e ++ e'))
        | .inl o => .inl o
        | .inr e' => .inr (e ++ e') := by
  rw [execute]
  unfold level at *
  split
  · rename_i h0; exact absurd h0 h
  · rfl

/-- a part of the phase without solutions -/
theorem execute_skip (run : P → Option Bool) (m : Nat) (all : List (Nat × P)) (cs' : List Nat) : ∀ cs : List Nat, (∀ c ∈ cs, level all c ≠ [] ∧ ∀ p ∈ level all c, run p = some false) →
    execute run m all (cs ++ cs') = match execute run m all cs' with
      | .inl (.found e') => .inl (.found (cs.flatMap (level all) ++ e'))
      | .inl o => .inl o
      | .inr e' => .inr (cs.flatMap (level all) ++ e')
  | [], _ => by
    simp only [List.nil_append, List.flatMap_nil]
    cases execute run m all cs' with
    | inl o => cases o <;> rfl
    | inr e => rfl
  | c :: cs, h => by
    obtain ⟨h1, h2⟩ := h c (by simp)
    rw [List.cons_append, execute_cons run m all c _ h1, tryAll_false run _ _ h2, execute_skip run m all cs' cs fun d hd => h d (List.mem_cons_of_mem _ hd)]
    simp only
    cases execute run m all cs' with
    | inl o => cases o <;> simp
    | inr e => simp

theorem level_below (l : List (Nat × P)) (h : Ordered l) (m : Nat) : (List.range m).flatMap (level l) = below l m := (below_eq l h m).symm

theorem execute_congr (run : P → Option Bool) (m : Nat) (all all' : List (Nat × P)) : ∀ cs : List Nat, (∀ c ∈ cs, (all.filter fun x => x.1 == c) = all'.filter fun x => x.1 == c) → execute run m all cs = execute run m all' cs
  | [], _ => rfl
  | c :: cs, h => by rw [execute, execute, h c (by simp), execute_congr run m all all' cs fun d hd => h d (List.mem_cons_of_mem _ hd)]

/-- a phase -/
theorem phase_step (run : P → Option Bool) (en : List (Nat × P)) (ho : Ordered en) (fuel m : Nat) (all rest : List (Nat × P)) (done : List P) (h : all ++ rest = en) :
    ∃ all' rest', all' ++ rest' = en ∧ phases run (fuel + 1) m all rest done = match execute run m en (List.range m) with
      | .inl (.found e) => .found (done ++ e)
      | .inl o => o
      | .inr e => phases run fuel (m + 1) all' rest' (done ++ e) := by
  have hg := generate_append m rest
  have hr : Ordered rest := by
    rw [← h] at ho
    exact (List.pairwise_append.1 ho).2.1
  have e1 : (all ++ (generate m rest).1) ++ (generate m rest).2 = en := by rw [List.append_assoc, hg, h]
  refine ⟨all ++ (generate m rest).1, (generate m rest).2, e1, ?_⟩
  rw [phases]
  rw [execute_congr run m (all ++ (generate m rest).1) en (List.range m)]
  · rfl
  · intro c hc
    rw [← e1]
    exact filter_all _ _ c fun x hx => by
      have := generate_rest m rest hr x hx
      have := List.mem_range.1 hc
      omega

/-- the first phases without a solution -/
theorem phases_failed (run : P → Option Bool) (en : List (Nat × P)) (ho : Ordered en) : ∀ (k fuel m : Nat) (all rest : List (Nat × P)) (done : List P), all ++ rest = en →
    (∀ c < m + k - 1, level en c ≠ [] ∧ ∀ p ∈ level en c, run p = some false) → 0 < m →
    ∃ all' rest', all' ++ rest' = en ∧ phases run (fuel + k) m all rest done = phases run fuel (m + k) all' rest' (done ++ (List.range k).flatMap fun i => below en (m + i))
  | 0, fuel, m, all, rest, done, h, _, _ => ⟨all, rest, h, by simp⟩
  | k + 1, fuel, m, all, rest, done, h, hc, hm => by
    obtain ⟨all1, rest1, h1, e1⟩ := phase_step run en ho (fuel + k) m all rest done h
    have e2 : execute run m en (List.range m) = .inr (below en m) := by
      have := execute_skip run m en [] (List.range m) fun c hc' => hc c (by have := List.mem_range.1 hc'; omega)
      rw [List.append_nil] at this
      rw [this, level_below en ho]
      simp [execute]
    obtain ⟨all2, rest2, h2, e3⟩ := phases_failed run en ho k fuel (m + 1) all1 rest1 (done ++ below en m) h1 (fun c hc' => hc c (by omega)) (by omega)
    refine ⟨all2, rest2, h2, ?_⟩
    rw [show fuel + (k + 1) = fuel + k + 1 by omega, e1, e2]
    simp only
    rw [e3, show m + 1 + k = m + (k + 1) by omega, List.range_succ_eq_map, List.flatMap_cons, List.append_assoc]
    congr 2
    rw [List.flatMap_map]
    congr 2
    funext i
    rw [Nat.succ_eq_add_one, show m + 1 + i = m + (i + 1) by omega]

end Verif.Levin

namespace Verif.Props
open Verif.Levin Verif.Levin.Spec

variable {P : Type}

/-- **C151, the search finds a solution.** Let the programs be enumerated by increasing complexity, and let `p` be the first one that solves the problem, of complexity `c`. If all programs before it terminate, and if there are programs of
every complexity up to `c`, then the search ends with `p` in phase `c + 1`; before, it has executed all programs of complexity less than `m` in every phase `m ≤ c`, and the programs before `p` in the last one. -/
theorem C151_found_partial (run : P → Option Bool) (before after : List (Nat × P)) (c : Nat) (p : P) (ho : Ordered (before ++ (c, p) :: after)) (hp : run p = some true) (hb : ∀ x ∈ before, run x.2 = some false)
    (hall : ∀ k < c, ∃ x ∈ before, x.1 = k) (fuel : Nat) (hf : c < fuel) :
    search run (before ++ (c, p) :: after) fuel = .found (failed (before ++ (c, p) :: after) c ++ before.map Prod.snd ++ [p]) := by
  obtain ⟨f', rfl⟩ := Nat.exists_eq_add_of_lt hf
  have hle : ∀ x ∈ before, x.1 ≤ c := fun x hx => (List.pairwise_append.1 ho).2.2 x hx (c, p) (by simp)
  have hge : ∀ x ∈ after, c ≤ x.1 := fun x hx => (List.pairwise_cons.1 (List.pairwise_append.1 ho).2.1).1 x hx
  have hlev : ∀ k < c, level (before ++ (c, p) :: after) k = level before k := by
    intro k hk
    unfold level
    rw [List.filter_append]
    have : ((c, p) :: after).filter (fun x => x.1 == k) = [] := by
      rw [List.filter_eq_nil_iff]
      intro x hx
      rcases List.mem_cons.1 hx with rfl | hx
      · simp; omega
      · have := hge x hx
        simp; omega
    rw [this, List.append_nil]
  have hlow : ∀ k < c, level (before ++ (c, p) :: after) k ≠ [] ∧ ∀ q ∈ level (before ++ (c, p) :: after) k, run q = some false := by
    intro k hk
    rw [hlev k hk]
    refine ⟨level_ne_nil before k (hall k hk), fun q hq => ?_⟩
    unfold level at hq
    obtain ⟨x, hx, rfl⟩ := List.mem_map.1 hq
    exact hb x (List.mem_of_mem_filter hx)
  obtain ⟨all, rest, h1, e1⟩ := phases_failed run (before ++ (c, p) :: after) ho c (f' + 1) 1 [] (before ++ (c, p) :: after) [] rfl (fun k hk => hlow k (by omega)) (by omega)
  unfold search
  rw [show c + f' + 1 = f' + 1 + c by omega, e1]
  obtain ⟨all2, rest2, h2, e2⟩ := phase_step run _ ho f' (1 + c) all rest ([] ++ (List.range c).flatMap fun i => below (before ++ (c, p) :: after) (1 + i)) h1
  rw [e2]
  have hlc : level (before ++ (c, p) :: after) c = level before c ++ p :: level after c := by
    unfold level
    rw [List.filter_append, List.map_append, List.filter_cons]
    simp
  have e3 : execute run (1 + c) (before ++ (c, p) :: after) (List.range (1 + c)) = .inl (.found (before.map Prod.snd ++ [p])) := by
    rw [show 1 + c = c + 1 by omega, List.range_succ, execute_skip run _ _ [c] (List.range c) fun k hk => hlow k (List.mem_range.1 hk)]
    rw [execute_cons run _ _ c [] (by rw [hlc]; simp), hlc, tryAll_true run _ (level before c) p _ (fun q hq => ?_) hp]
    · simp only
      congr 2
      rw [← List.append_assoc]
      congr 1
      have hob : Ordered before := (List.pairwise_append.1 ho).1
      have : (List.range c).flatMap (level (before ++ (c, p) :: after)) = (List.range c).flatMap (level before) := by
        rw [List.flatMap_def, List.flatMap_def]
        congr 1
        exact List.map_congr_left fun k hk => hlev k (List.mem_range.1 hk)
      rw [this, level_below before hob]
      have : below before c ++ level before c = below before (c + 1) := (below_succ before hob c).symm
      rw [this]
      unfold below
      rw [List.filter_eq_self.2 fun x hx => by have := hle x hx; simp; omega]
    · unfold level at hq
      obtain ⟨x, hx, rfl⟩ := List.mem_map.1 hq
      exact hb x (List.mem_of_mem_filter hx)
  rw [e3]
  simp only
  unfold failed
  rw [List.nil_append, List.append_assoc]
  congr 2
  rw [List.flatMap_def, List.flatMap_def]
  congr 2
  funext i
  rw [Nat.add_comm]

/-- **C151 violated: gaps in the complexities.** If there are no programs of complexity `k`, and those of smaller complexity terminate without solving the problem, the search fails with a KeyError, whatever the more complex
programs are. With `k = 0`: enumerations in which programs have complexity 1 or more; and every finite enumeration without a solution. -/
theorem C151_negation_gap (run : P → Option Bool) (en : List (Nat × P)) (ho : Ordered en) (k : Nat) (hk : ∀ x ∈ en, x.1 ≠ k) (hall : ∀ j < k, ∃ x ∈ en, x.1 = j) (hb : ∀ x ∈ en, x.1 < k → run x.2 = some false)
    (fuel : Nat) (hf : k < fuel) : search run en fuel = .keyError := by
  obtain ⟨f', rfl⟩ := Nat.exists_eq_add_of_lt hf
  have hlow : ∀ j < k, level en j ≠ [] ∧ ∀ q ∈ level en j, run q = some false := by
    intro j hj
    refine ⟨level_ne_nil en j (hall j hj), fun q hq => ?_⟩
    unfold level at hq
    obtain ⟨x, hx, rfl⟩ := List.mem_map.1 hq
    have := List.mem_filter.1 hx
    exact hb x this.1 (by have := this.2; simp at this; omega)
  obtain ⟨all, rest, h1, e1⟩ := phases_failed run en ho k (f' + 1) 1 [] en [] rfl (fun j hj => hlow j (by omega)) (by omega)
  unfold search
  rw [show k + f' + 1 = f' + 1 + k by omega, e1]
  obtain ⟨all2, rest2, h2, e2⟩ := phase_step run _ ho f' (1 + k) all rest ([] ++ (List.range k).flatMap fun i => below en (1 + i)) h1
  rw [e2, show 1 + k = k + 1 by omega, List.range_succ, execute_skip run _ _ [k] (List.range k) fun j hj => hlow j (List.mem_range.1 hj)]
  have : (en.filter fun x => x.1 == k) = [] := by
    rw [List.filter_eq_nil_iff]
    intro x hx
    simpa using hk x hx
  simp [execute, this]

/-- **C151 violated: the time limit.** Programs are executed without one: if the first program does not terminate, neither does the search, whatever the others are. -/
theorem C151_negation_time (run : P → Option Bool) (p : P) (rest : List (Nat × P)) (hp : run p = none) (fuel : Nat) : search run ((0, p) :: rest) (fuel + 1) = .hangs := by
  unfold search
  rw [phases]
  simp [generate, execute, tryAll, timeBoundExecution, hp]

/-- The hypotheses are met: the fourth program solves the problem. -/
example : search (fun n : Nat => some (n == 13)) [(0, 10), (1, 11), (1, 12), (2, 13), (5, 14)] 7 = .found [10, 10, 11, 12, 10, 11, 12, 13] := by decide

/-- A search that fails although the program of complexity 2 solves the problem. -/
example : search (fun n : Nat => some (n == 13)) [(0, 10), (2, 13)] 7 = .keyError := by decide

end Verif.Props
