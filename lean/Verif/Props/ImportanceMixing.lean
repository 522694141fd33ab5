import Verif.Model.ImportanceMixing
import Verif.Spec.ImportanceMixing
import Mathlib.MeasureTheory.Measure.Lebesgue.Basic
import Mathlib.Tactic.Linarith
import Mathlib.Tactic.Ring
import Mathlib.Tactic.FieldSimp
/-!
C87: importance mixing (pybrain/auxiliary/importancemixing.py).
-/

namespace Verif.Mixing

variable {X : Type}

theorem reuseLoop_spec (fr : ℝ) (old new : X → ℝ) (r : Nat → ℝ) (batch : Nat) : ∀ (xs : List X) (i : Nat) (res : List Nat),
    ∃ l, reuseLoop fr (fun x => .ok (old x)) (fun x => .ok (new x)) r batch xs i res = .ok (res ++ l) ∧
      l <+: Passing fr old new r xs i ∧
      (l ≠ Passing fr old new r xs i → (batch : ℝ) - (res ++ l).length ≤ max 1 (batch * fr))
  | [], i, res => ⟨[], by simp [reuseLoop], by simp [Passing], fun h => absurd (by simp [Passing]) h⟩
  | x :: xs, i, res => by
    by_cases ht : r i < (1 - fr) * new x / old x
    · by_cases he : (batch : ℝ) - (res ++ [i]).length ≤ max 1 (batch * fr)
      · refine ⟨[i], ?_, ?_, fun _ => he⟩
        · simp only [reuseLoop, reuseTest, enough, ht, decide_true, if_true, he]
        · rw [Passing, if_pos ht]
          exact ⟨_, rfl⟩
      · obtain ⟨l, h1, h2, h3⟩ := reuseLoop_spec fr old new r batch xs (i + 1) (res ++ [i])
        refine ⟨i :: l, ?_, ?_, ?_⟩
        · simp only [reuseLoop, reuseTest, enough, ht, decide_true, if_true, he, decide_false]
          simpa using h1
        · rw [Passing, if_pos ht]
          exact List.cons_prefix_cons.2 ⟨rfl, h2⟩
        · rw [Passing, if_pos ht]
          intro hne
          have := h3 (fun e => hne (by rw [e]))
          simpa using this
    · by_cases he : (batch : ℝ) - res.length ≤ max 1 (batch * fr)
      · refine ⟨[], ?_, by simp, fun _ => by simpa using he⟩
        simp [reuseLoop, reuseTest, enough, ht, he]
      · obtain ⟨l, h1, h2, h3⟩ := reuseLoop_spec fr old new r batch xs (i + 1) res
        refine ⟨l, ?_, ?_, ?_⟩
        · simp only [reuseLoop, reuseTest, enough, ht, decide_false, Bool.false_eq_true, if_false, he]
          exact h1
        · rw [Passing, if_neg ht]; exact h2
        · rw [Passing, if_neg ht]; exact h3

/-- How many points are kept: never all but the forced part, if there is more than one point to go. -/
theorem reuseLoop_count (fr : ℝ) (hfr : fr < 1) (old new : X → ℝ) (r : Nat → ℝ) (batch : Nat) : ∀ (xs : List X) (i : Nat) (res l : List Nat),
    reuseLoop fr (fun x => .ok (old x)) (fun x => .ok (new x)) r batch xs i res = .ok l →
    max 1 (batch * fr) - 1 < (batch : ℝ) - res.length - 1 → max 1 (batch * fr) - 1 < (batch : ℝ) - l.length
  | [], i, res, l, h, hr => by
    simp only [reuseLoop, Except.ok.injEq] at h
    subst h
    linarith
  | x :: xs, i, res, l, h, hr => by
    simp only [reuseLoop] at h
    set res' := if reuseTest fr (new x) (old x) (r i) = true then res ++ [i] else res with hres
    have hlen : (res'.length : ℝ) ≤ res.length + 1 := by
      rw [hres]; split <;> simp
    by_cases he : enough fr batch res'.length = true
    · rw [if_pos he, Except.ok.injEq] at h
      subst h
      linarith
    · rw [if_neg he] at h
      refine reuseLoop_count fr hfr old new r batch xs (i + 1) res' l h ?_
      simp only [enough, decide_eq_true_eq, not_le] at he
      linarith

theorem fillLoop_spec (fr : ℝ) (old new : X → ℝ) : ∀ (ds : List (ℝ × X)) (missing : Nat) (res l : List X),
    fillLoop fr (fun x => .ok (old x)) (fun x => .ok (new x)) ds missing res = .ok l ↔
      missing ≤ (Accepted fr old new ds).length ∧ l = res ++ (Accepted fr old new ds).take missing
  | ds, 0, res, l => by
    cases ds <;> simp [fillLoop, eq_comm]
  | [], missing + 1, res, l => by simp [fillLoop, Accepted]
  | (r, x) :: ds, missing + 1, res, l => by
    by_cases h1 : r < fr
    · have h : r < max fr (1 - old x / new x) := lt_max_of_lt_left h1
      simp only [fillLoop, h1, if_true, fillLoop_spec fr old new ds, Accepted, List.filter_cons, h, decide_true]
      simp
    · by_cases h2 : r < 1 - old x / new x
      · have h : r < max fr (1 - old x / new x) := lt_max_of_lt_right h2
        simp only [fillLoop, h1, if_false, h2, if_true, fillLoop_spec fr old new ds, Accepted, List.filter_cons, h, decide_true]
        simp
      · have h : ¬ r < max fr (1 - old x / new x) := not_lt.2 (max_le (not_lt.1 h1) (not_lt.1 h2))
        simp only [fillLoop, h1, if_false, h2, fillLoop_spec fr old new ds, Accepted, List.filter_cons, h, decide_false]
        simp

theorem passing_bounds (fr : ℝ) (old new : X → ℝ) (r : Nat → ℝ) : ∀ (xs : List X) (i : Nat),
    (∀ j ∈ Passing fr old new r xs i, i ≤ j ∧ j < i + xs.length) ∧ (Passing fr old new r xs i).Pairwise (· < ·)
  | [], i => by simp [Passing]
  | x :: xs, i => by
    obtain ⟨h1, h2⟩ := passing_bounds fr old new r xs (i + 1)
    rw [Passing]
    split
    · refine ⟨fun j hj => ?_, ?_⟩
      · rcases List.mem_cons.1 hj with rfl | hj
        · simp
        · have := h1 j hj
          simp only [List.length_cons]; omega
      · rw [List.pairwise_cons]
        exact ⟨fun j hj => by have := h1 j hj; omega, h2⟩
    · exact ⟨fun j hj => by have := h1 j hj; simp only [List.length_cons]; omega, h2⟩

theorem passing_length (fr : ℝ) (old new : X → ℝ) (r : Nat → ℝ) : ∀ (xs : List X) (i : Nat),
    (Passing fr old new r xs i).length ≤ xs.length
  | [], i => by simp [Passing]
  | x :: xs, i => by
    have := passing_length fr old new r xs (i + 1)
    rw [Passing]
    split <;> simp <;> omega

end Verif.Mixing

namespace Verif.Props
open Verif.Mixing MeasureTheory

variable {X : Type}

/-- **C87, the result.** The reused positions are, in order, those whose draw passes the test, up to the point where only the forced number of
new points is left; the new points are the first accepted draws, exactly as many as are missing; together they are as many as the old points.
The function ends as soon as enough draws are accepted. -/
theorem C87_result (pts : List X) (old new : X → ℝ) (fr : ℝ) (r : Nat → ℝ) (draws : List (ℝ × X)) :
    ∃ reused, reused <+: Passing fr old new r pts 0 ∧
      (reused ≠ Passing fr old new r pts 0 → (pts.length : ℝ) - reused.length ≤ max 1 (pts.length * fr)) ∧
      (∀ j ∈ reused, j < pts.length) ∧ reused.Pairwise (· < ·) ∧
      (pts.length - reused.length ≤ (Accepted fr old new draws).length →
        importanceMixing pts (fun x => .ok (old x)) (fun x => .ok (new x)) fr r draws =
          .ok (reused, (Accepted fr old new draws).take (pts.length - reused.length)) ∧
        reused.length + ((Accepted fr old new draws).take (pts.length - reused.length)).length = pts.length) ∧
      ((Accepted fr old new draws).length < pts.length - reused.length →
        importanceMixing pts (fun x => .ok (old x)) (fun x => .ok (new x)) fr r draws = .error .starved) := by
  obtain ⟨l, h1, h2, h3⟩ := reuseLoop_spec fr old new r pts.length pts 0 []
  obtain ⟨hb, hp⟩ := passing_bounds fr old new r pts 0
  have hlen : l.length ≤ pts.length := le_trans h2.length_le (passing_length fr old new r pts 0)
  rw [List.nil_append] at h1
  refine ⟨l, h2, by simpa using h3, fun j hj => ?_, hp.sublist h2.sublist, fun hacc => ⟨?_, ?_⟩, fun hacc => ?_⟩
  · have := (hb j (h2.subset hj)).2
    omega
  · rw [importanceMixing, h1]
    simp only [(fillLoop_spec fr old new draws (pts.length - l.length) [] _).2 ⟨hacc, rfl⟩, List.nil_append]
  · rw [List.length_take]; omega
  · rw [importanceMixing, h1]
    simp only
    cases hf : fillLoop fr (fun x => Except.ok (old x)) (fun x => Except.ok (new x)) draws (pts.length - l.length) [] with
    | ok v =>
      have := ((fillLoop_spec fr old new draws _ [] v).1 hf).1
      omega
    | error e =>
      have key : ∀ (ds : List (ℝ × X)) (m : Nat) (res : List X) (e : Fail),
          fillLoop fr (fun x => Except.ok (old x)) (fun x => Except.ok (new x)) ds m res = .error e → e = .starved := by
        intro ds
        induction ds with
        | nil =>
          intro m res e h
          cases m <;> simp [fillLoop] at h
          exact h.symm
        | cons d ds ih =>
          intro m res e h
          cases m with
          | zero => simp [fillLoop] at h
          | succ m =>
            simp only [fillLoop] at h
            split at h
            · exact ih _ _ _ h
            · split at h
              · exact ih _ _ _ h
              · exact ih _ _ _ h
      rw [key _ _ _ _ hf]

/-- **C87, forced refreshment (partial).** With at least two old points there is always at least one new point, and more than
`batch * forcedRefresh - 1` of them. (Missing: a single old point, see `C87_negation_single`.) -/
theorem C87_refresh_partial (pts : List X) (h2 : 2 ≤ pts.length) (old new : X → ℝ) (fr : ℝ) (hfr : fr < 1) (r : Nat → ℝ) (draws : List (ℝ × X))
    (reused : List Nat) (fresh : List X)
    (h : importanceMixing pts (fun x => .ok (old x)) (fun x => .ok (new x)) fr r draws = .ok (reused, fresh)) :
    1 ≤ fresh.length ∧ (pts.length : ℝ) * fr - 1 < fresh.length := by
  obtain ⟨l, h1, h2', h3⟩ := reuseLoop_spec fr old new r pts.length pts 0 []
  rw [List.nil_append] at h1
  have hl2 : (2 : ℝ) ≤ pts.length := by exact_mod_cast h2
  have hcount := reuseLoop_count fr hfr old new r pts.length pts 0 [] l h1 (by
    have : max 1 ((pts.length : ℝ) * fr) < pts.length := max_lt (by linarith) (by nlinarith)
    simp only [List.length_nil, Nat.cast_zero]
    linarith)
  rw [importanceMixing, h1] at h
  simp only at h
  split at h
  · exact absurd h (by simp)
  · next v hv =>
    simp only [Except.ok.injEq, Prod.mk.injEq] at h
    obtain ⟨rfl, rfl⟩ := h
    obtain ⟨hm, rfl⟩ := (fillLoop_spec fr old new draws _ [] _).1 hv
    have hlen : l.length ≤ pts.length := le_trans h2'.length_le (passing_length fr old new r pts 0)
    have hl : ([] ++ (Accepted fr old new draws).take (pts.length - l.length)).length = pts.length - l.length := by
      rw [List.nil_append, List.length_take]; omega
    rw [hl]
    have hc : ((pts.length - l.length : Nat) : ℝ) = (pts.length : ℝ) - l.length := by rw [Nat.cast_sub hlen]
    rw [hc]
    have m1 := le_max_left 1 ((pts.length : ℝ) * fr)
    have m2 := le_max_right 1 ((pts.length : ℝ) * fr)
    refine ⟨?_, by linarith⟩
    have : (l.length : ℝ) < pts.length := by linarith
    have : l.length < pts.length := by exact_mod_cast this
    omega

/-- **C87, the mixture has the new distribution.** At every point the old density times the probability that an old point there is reused, plus
the new density times the probability that a new point there is accepted, is the new density. -/
theorem C87_density (x : X) (fr o n : ℝ) (h0 : 0 ≤ fr) (h1 : fr ≤ 1) (ho : 0 < o) (hn : 0 < n) :
    o * (volume {r : ℝ | 0 ≤ r ∧ r < 1 ∧ reuseTest fr n o r = true}).toReal +
      n * (volume {r : ℝ | 0 ≤ r ∧ r < 1 ∧ fillLoop fr (fun _ => .ok o) (fun _ => .ok n) [(r, x)] 1 [] = .ok [x]}).toReal = n := by
  have e1 : {r : ℝ | 0 ≤ r ∧ r < 1 ∧ reuseTest fr n o r = true} = Set.Ico 0 (min 1 ((1 - fr) * n / o)) := by
    ext r
    simp [reuseTest, Set.mem_Ico]
  have e2 : {r : ℝ | 0 ≤ r ∧ r < 1 ∧ fillLoop fr (fun _ => .ok o) (fun _ => .ok n) [(r, x)] 1 [] = .ok [x]} = Set.Ico 0 (max fr (1 - o / n)) := by
    ext r
    have hon : 0 < o / n := div_pos ho hn
    simp only [fillLoop, Set.mem_setOf_eq, Set.mem_Ico, lt_max_iff]
    constructor
    · rintro ⟨a, b, c⟩
      refine ⟨a, ?_⟩
      split at c
      · next h => exact Or.inl h
      · split at c
        · next h => exact Or.inr h
        · exact absurd c (by simp)
    · rintro ⟨a, b⟩
      refine ⟨a, ?_, ?_⟩
      · rcases b with b | b <;> linarith
      · split
        · rfl
        · next h => rw [if_pos (b.resolve_left h)]; rfl
  have hfrn : 0 ≤ (1 - fr) * n / o := div_nonneg (mul_nonneg (by linarith) hn.le) ho.le
  rw [e1, e2, Real.volume_Ico, Real.volume_Ico, ENNReal.toReal_ofReal (by simpa using hfrn),
    ENNReal.toReal_ofReal (by simpa using Or.inl h0), sub_zero, sub_zero]
  rcases le_total 1 ((1 - fr) * n / o) with h | h
  · have h' : o ≤ (1 - fr) * n := by rwa [le_div_iff₀ ho, one_mul] at h
    have : fr ≤ 1 - o / n := by
      rw [le_sub_comm, div_le_iff₀ hn]; exact h'
    rw [min_eq_left h, max_eq_right this]
    field_simp
    ring
  · have h' : (1 - fr) * n ≤ o := by rwa [div_le_iff₀ ho, one_mul] at h
    have : 1 - o / n ≤ fr := by
      rw [sub_le_comm, le_div_iff₀ hn]; exact h'
    rw [min_eq_right h, max_eq_left this]
    field_simp
    ring

/-- **C87, one old point: violated.** "Never use only old samples" (importancemixing.py:19): with a single old point that passes the test, the
function returns that point alone and no new one, whatever the forced refresh rate below 1. -/
theorem C87_negation_single (x : X) (fr : ℝ) (r : Nat → ℝ) (hr : r 0 < 1 - fr) (draws : List (ℝ × X)) :
    importanceMixing [x] (fun _ => .ok 1) (fun _ => .ok 1) fr r draws = .ok ([0], []) := by
  have : reuseLoop fr (fun _ : X => Except.ok (1 : ℝ)) (fun _ => .ok 1) r 1 [x] 0 [] = .ok [0] := by
    simp [reuseLoop, reuseTest, enough, hr]
  rw [importanceMixing]
  simp only [List.length_singleton, this]
  cases draws <;> simp [fillLoop]

/-- The hypotheses are met: three points of density 1 before and 2 afterwards, refreshed by at least a tenth. -/
example : importanceMixing [10, 20, 30] (fun _ : Nat => .ok 1) (fun _ => .ok 2) (1 / 10) (fun i => if i = 1 then 9 / 10 else 1 / 2)
    [(1 / 4, 40), (3 / 4, 50)] = .ok ([0, 1], [40]) := by
  have e : reuseLoop (1 / 10) (fun _ : Nat => Except.ok (1 : ℝ)) (fun _ => .ok 2) (fun i => if i = 1 then 9 / 10 else 1 / 2) 3 [10, 20, 30] 0 [] =
      .ok [0, 1] := by
    norm_num [reuseLoop, reuseTest, enough]
  rw [importanceMixing]
  simp only [List.length_cons, List.length_nil, e]
  norm_num [fillLoop]

end Verif.Props
