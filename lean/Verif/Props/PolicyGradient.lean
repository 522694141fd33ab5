import Verif.Spec.PolicyGradient
import Verif.Props.Draw
import Verif.Props.Functions
import Mathlib.Analysis.Calculus.Deriv.Add
import Mathlib.Analysis.Calculus.Deriv.Mul
import Mathlib.Tactic.FieldSimp
import Mathlib.Tactic.Linarith
/-
Property theorems C84 (policy gradients: policygradient.py, reinforce.py, enac.py).
-/
namespace Verif.PolicyGrad
open Verif.PolicyGrad.Spec Verif.Descent Verif.Pinv Verif.Net

variable {n k : Nat} {Obs : Type}

/-! ### Sequences -/

/-- the index of the first row of every sequence -/
def starts {α : Type} (E : List (List α)) : List Nat := (List.range E.length).map fun i => ((E.take i).map List.length).sum

theorem drop_flatten {α : Type} : ∀ (E : List (List α)) (i : Nat), E.flatten.drop ((E.take i).map List.length).sum = (E.drop i).flatten
  | [], i => by simp
  | e :: E, 0 => by simp
  | e :: E, i + 1 => by
    simp only [List.take_succ_cons, List.map_cons, List.sum_cons, List.flatten_cons, List.drop_succ_cons]
    rw [← List.drop_drop, List.drop_left', drop_flatten E i]
    rfl

theorem starts_getD {α : Type} (E : List (List α)) (i : Nat) (hi : i < E.length) : (starts E).getD i 0 = ((E.take i).map List.length).sum := by
  simp [starts, hi]

theorem sequences_starts {α : Type} (E : List (List α)) : sequences (starts E) E.flatten = E := by
  have hl : (starts E).length = E.length := by simp [starts]
  unfold sequences
  rw [hl]
  apply List.ext_getElem
  · simp
  · intro i h1 h2
    simp only [List.getElem_map, List.getElem_range]
    rw [starts_getD E i h2, drop_flatten]
    have hd : E.drop i = E[i] :: E.drop (i + 1) := (List.drop_eq_getElem_cons h2)
    split
    · rename_i hlast
      rw [hd, List.drop_eq_nil_of_le (by omega)]
      simp
    · rename_i hlast
      have hs : ((E.take (i + 1)).map List.length).sum = ((E.take i).map List.length).sum + E[i].length := by
        rw [List.take_succ_eq_append_getElem h2]
        simp only [List.map_append, List.sum_append, List.map_cons, List.map_nil, List.sum_cons, List.sum_nil, Nat.add_zero]
      rw [starts_getD E (i + 1) (by omega), hs, Nat.add_sub_cancel_left, hd, List.flatten_cons, List.take_left' rfl]

theorem sequences_map {α β : Type} (g : α → β) (seqidx : List Nat) (rows : List α) :
    sequences seqidx (rows.map g) = (sequences seqidx rows).map (List.map g) := by
  unfold sequences
  rw [List.map_map]
  apply List.map_congr_left
  intro i _
  simp only [Function.comp]
  split <;> simp

/-! ### The state holds the episodes -/

/-- The dataset and the log-likelihoods are the episodes `E`. -/
structure Holds (s : State n k) (E : List (List (Step (n + k)))) : Prop where
  ne : E ≠ []
  rewards : s.rewards = E.flatten.map Prod.fst
  loglh : s.loglh = E.flatten.map Prod.snd
  seqidx : s.seqidx = starts E
  /-- only the last episode can be empty -/
  full : ∀ e ∈ E.dropLast, e ≠ []

theorem starts_addStep {N : Nat} (E : List (List (Step N))) (hE : E ≠ []) (x : Step N) : starts (addStep E x) = starts E := by
  obtain ⟨F, e, rfl⟩ : ∃ F e, E = F ++ [e] := ⟨E.dropLast, E.getLast hE, (List.dropLast_append_getLast hE).symm⟩
  unfold addStep starts
  simp only [List.dropLast_concat, List.length_append, List.length_singleton]
  apply List.map_congr_left
  intro i hi
  have : i ≤ F.length := by simpa [Nat.lt_succ_iff] using hi
  rw [List.take_append_of_le_length this, List.take_append_of_le_length this]

theorem flatten_addStep {N : Nat} (E : List (List (Step N))) (hE : E ≠ []) (x : Step N) : (addStep E x).flatten = E.flatten ++ [x] := by
  obtain ⟨F, e, rfl⟩ : ∃ F e, E = F ++ [e] := ⟨E.dropLast, E.getLast hE, (List.dropLast_append_getLast hE).symm⟩
  simp [addStep]

theorem starts_snoc {α : Type} (E : List (List α)) (e : List α) : starts (E ++ [e]) = starts E ++ [E.flatten.length] := by
  unfold starts
  rw [List.length_append, List.length_singleton, List.range_succ, List.map_append]
  congr 1
  · apply List.map_congr_left
    intro i hi
    rw [List.take_append_of_le_length (by simpa using (List.mem_range.1 hi).le)]
  · simp [List.length_flatten]

theorem holds_init (theta : Fin n → ℝ) (sigma : Fin k → ℝ) (alpha : ℝ) : Holds (State.init theta sigma alpha) [[]] := by
  refine ⟨by simp, by simp [State.init], by simp [State.init], by simp [State.init, starts], by simp⟩

theorem holds_interact {s : State n k} {E : List (List (Step (n + k)))} (h : Holds s E) (P : Policy Obs n k) (obs : Obs) (xi : Fin k → ℝ) (r : ℝ) :
    Holds (interact P s obs xi r).1 (addStep E (r, (interact P s obs xi r).1.derivs)) := by
  refine ⟨by simp [addStep], ?_, ?_, ?_, ?_⟩
  · rw [flatten_addStep E h.ne]; simp [interact, h.rewards]
  · rw [flatten_addStep E h.ne]; simp [interact, h.loglh]
  · rw [starts_addStep E h.ne]; exact h.seqidx
  · simpa [addStep] using h.full

theorem holds_newEpisode {s : State n k} {E : List (List (Step (n + k)))} (h : Holds s E) :
    Holds (tryNewEpisode s) (openEpisode E) := by
  have hlen : s.rewards.length = E.flatten.length := by rw [h.rewards, List.length_map]
  obtain ⟨F, e, rfl⟩ : ∃ F e, E = F ++ [e] := ⟨E.dropLast, E.getLast h.ne, (List.dropLast_append_getLast h.ne).symm⟩
  have hfull : ∀ x ∈ F, x ≠ [] := by simpa using h.full
  unfold tryNewEpisode newEpisode openEpisode
  simp only [List.getLastD_concat]
  by_cases he : e = []
  · rw [if_pos he]
    subst he
    by_cases h0 : s.rewards.length = 0
    · rw [if_neg (by simpa using h0)]; exact h
    · rw [if_pos (by simpa using h0), if_pos]
      · exact h
      · rw [h.seqidx, starts_snoc, hlen]; simp
  · rw [if_neg he]
    have hne : s.rewards.length ≠ 0 := by
      rw [hlen]; simp [he]
    rw [if_pos hne, if_neg]
    · refine ⟨by simp, ?_, ?_, ?_, ?_⟩
      · simpa using h.rewards
      · simpa using h.loglh
      · show s.seqidx ++ [s.rewards.length] = _
        rw [h.seqidx, hlen, ← starts_snoc]
      · intro x hx
        rw [List.dropLast_concat] at hx
        rcases List.mem_append.1 hx with hx | hx
        · exact hfull x hx
        · simp at hx; rw [hx]; exact he
    · rw [h.seqidx, starts_snoc, hlen]
      simp [he]

/-! ### Histories of calls -/

section
variable (P : Policy Obs n (k + 1)) (c : Settings ℝ) (gradient : List Nat → List ℝ → List (Fin (n + (k + 1)) → ℝ) → Fin (n + (k + 1)) → ℝ)

/-- The episodes (since the last reset) after a history of calls: each interaction adds its reward and the row that was stored. -/
noncomputable def episodes : List (Event Obs (k + 1)) → State n (k + 1) → List (List (Step (n + (k + 1)))) → List (List (Step (n + (k + 1))))
  | [], _, E => E
  | .interact obs xi r :: es, s, E => episodes es (interact P s obs xi r).1 (addStep E (r, (interact P s obs xi r).1.derivs))
  | .newEpisode :: es, s, E => episodes es (tryNewEpisode s) (openEpisode E)
  | .reset :: es, s, _ => episodes es (reset s) [[]]
  | .learn :: es, s, E => episodes es (learn c gradient s) E

theorem holds_run : ∀ (es : List (Event Obs (k + 1))) (s : State n (k + 1)) (E : List (List (Step (n + (k + 1))))), Holds s E →
    Holds (run P c gradient es s) (episodes P c gradient es s E)
  | [], _, _, h => h
  | .interact obs xi r :: es, s, E, h => holds_run es _ _ (holds_interact h P obs xi r)
  | .newEpisode :: es, s, E, h => holds_run es _ _ (holds_newEpisode h)
  | .reset :: es, s, E, h => holds_run es _ _ ⟨by simp, by simp [reset], by simp [reset], by simp [reset, starts], by simp⟩
  | .learn :: es, s, E, h => holds_run es _ _ ⟨h.ne, h.rewards, h.loglh, h.seqidx, h.full⟩

/-- What the backward passes of the interactions add to the derivatives, in order. -/
noncomputable def scores : List (Event Obs (k + 1)) → State n (k + 1) → List (Fin (n + (k + 1)) → ℝ)
  | [], _ => []
  | .interact obs xi r :: es, s => backward P s.theta s.sigma obs (interact P s obs xi r).2 :: scores es (interact P s obs xi r).1
  | .newEpisode :: es, s => scores es (tryNewEpisode s)
  | .reset :: es, s => scores es (reset s)
  | .learn :: es, s => scores es (learn c gradient s)

/-- The stored rows are the last ones of the partial sums of all scores, after `pre` earlier ones. -/
structure Sums (s : State n (k + 1)) (pre : List (Fin (n + (k + 1)) → ℝ)) : Prop where
  derivs : s.derivs = sumRows pre
  short : s.loglh.length ≤ pre.length
  rows : ∀ (i : Nat) (hi : i < s.loglh.length), s.loglh[i] = sumRows (pre.take (pre.length - s.loglh.length + i + 1))

theorem sumRows_snoc {N : Nat} (l : List (Fin N → ℝ)) (x : Fin N → ℝ) : sumRows (l ++ [x]) = fun j => sumRows l j + x j := by
  funext j; simp [sumRows]

theorem sums_run : ∀ (es : List (Event Obs (k + 1))) (s : State n (k + 1)) (pre : List (Fin (n + (k + 1)) → ℝ)), Sums s pre →
    Sums (run P c gradient es s) (pre ++ scores P c gradient es s)
  | [], s, pre, h => by simpa [run, scores] using h
  | .interact obs xi r :: es, s, pre, h => by
    have h1 := sums_run es (interact P s obs xi r).1 (pre ++ [backward P s.theta s.sigma obs (interact P s obs xi r).2]) ?_
    · simpa [run, scores] using h1
    · have hd : (interact P s obs xi r).1.derivs = sumRows (pre ++ [backward P s.theta s.sigma obs (interact P s obs xi r).2]) := by
        rw [sumRows_snoc, ← h.derivs]; rfl
      have hrow : (interact P s obs xi r).1.loglh = s.loglh ++ [(interact P s obs xi r).1.derivs] := rfl
      refine ⟨hd, by rw [hrow]; simpa using h.short, ?_⟩
      have hs := h.short
      intro i hi
      simp only [hrow, List.length_append, List.length_singleton] at hi ⊢
      by_cases hlt : i < s.loglh.length
      · rw [List.getElem_append_left hlt, h.rows i hlt]
        congr 1
        rw [show pre.length + 1 - (s.loglh.length + 1) + i + 1 = pre.length - s.loglh.length + i + 1 by omega,
          List.take_append_of_le_length (by omega)]
      · have : i = s.loglh.length := by omega
        subst this
        rw [List.getElem_concat_length rfl, hd, List.take_of_length_le (by simp; omega)]
  | .newEpisode :: es, s, pre, h => by
    apply sums_run es _ pre
    unfold tryNewEpisode newEpisode
    split
    · rename_i s' he
      split at he
      · split at he
        · simp at he
        · cases he; exact ⟨h.derivs, h.short, h.rows⟩
      · cases he; exact h
    · exact h
  | .reset :: es, s, pre, h => sums_run es (reset s) pre ⟨h.derivs, by simp [reset], by simp [reset]⟩
  | .learn :: es, s, pre, h => sums_run es _ pre ⟨h.derivs, h.short, h.rows⟩

/-- The descender's values are the parameters. -/
def Synced (s : State n (k + 1)) : Prop :=
  (∀ i, s.theta i = s.gd.values (Fin.castAdd _ i)) ∧ (∀ i, s.sigma i = s.gd.values (Fin.natAdd _ i))

theorem synced_run : ∀ (es : List (Event Obs (k + 1))) (s : State n (k + 1)), Synced s → Synced (run P c gradient es s)
  | [], _, h => h
  | .interact obs xi r :: es, s, h => synced_run es _ h
  | .newEpisode :: es, s, h => by
    apply synced_run es
    unfold tryNewEpisode newEpisode
    split
    · rename_i s' he
      split at he
      · split at he
        · simp at he
        · cases he; exact h
      · cases he; exact h
    · exact h
  | .reset :: es, s, h => synced_run es (reset s) h
  | .learn :: es, s, _ => synced_run es _ ⟨fun _ => rfl, fun _ => rfl⟩

end

/-! ### The REINFORCE estimate -/

theorem reinforceComponent_eq (pairs : List (ℝ × ℝ)) :
    reinforceComponent (pairs.map Prod.fst) (pairs.map Prod.snd) = -estimate (baseline pairs) pairs := by
  unfold reinforceComponent estimate baseline mean
  have e : ∀ (g : ℝ → ℝ → ℝ), List.zipWith g (pairs.map Prod.fst) (pairs.map Prod.snd) = pairs.map fun p => g p.1 p.2 := by
    intro g
    rw [List.zipWith_map, List.zipWith_self]
  simp only [e, List.map_map, List.length_map]
  have hb : ((pairs.map fun p => p.1 ^ 2 * p.2).sum / (pairs.length : ℝ)) / (((pairs.map ((fun l => l ^ 2) ∘ Prod.fst)).sum) / (pairs.length : ℝ)) =
      (pairs.map fun p => p.1 ^ 2 * p.2).sum / (pairs.map fun p => p.1 ^ 2).sum := by
    cases pairs with
    | nil => simp
    | cons p ps =>
      have : (((p :: ps).length : ℝ)) ≠ 0 := by simp; positivity
      rw [div_div_div_cancel_right₀ this]
      rfl
  rw [hb]

theorem sum_map_mul_sub (pairs : List (ℝ × ℝ)) (b : ℝ) (g : ℝ × ℝ → ℝ) :
    (pairs.map fun p => g p * (p.2 - b)).sum = (pairs.map fun p => g p * p.2).sum - b * (pairs.map g).sum := by
  induction pairs with
  | nil => simp
  | cons p ps ih => simp only [List.map_cons, List.sum_cons, ih]; ring

theorem sum_sq_pos {pairs : List (ℝ × ℝ)} (h : ∃ p ∈ pairs, p.1 ≠ 0) : 0 < (pairs.map fun p => p.1 ^ 2).sum := by
  induction pairs with
  | nil => simp at h
  | cons p ps ih =>
    have h0 : 0 ≤ (ps.map fun p => p.1 ^ 2).sum := List.sum_nonneg (by intro x hx; simp at hx; obtain ⟨a, b, -, rfl⟩ := hx; positivity)
    simp only [List.map_cons, List.sum_cons]
    obtain ⟨q, hq, hne⟩ := h
    rcases List.mem_cons.1 hq with rfl | hq
    · have : 0 < q.1 ^ 2 := by positivity
      linarith
    · have := ih ⟨q, hq, hne⟩
      have : 0 ≤ p.1 ^ 2 := sq_nonneg _
      linarith

theorem mulVec_enacMatrix {N : Nat} (loglhs : List (Fin N → ℝ)) (x : Fin (N + 1) → ℝ) (i : Fin loglhs.length) :
    (enacMatrix loglhs).mulVec x i = ∑ j : Fin N, x j.castSucc * loglhs[i] j + x (Fin.last N) := by
  simp only [enacMatrix, Matrix.mulVec, dotProduct, Matrix.of_apply]
  rw [Fin.sum_univ_castSucc]
  simp only [Fin.snoc_castSucc, Fin.snoc_last, one_mul]
  congr 1
  exact Finset.sum_congr rfl fun j _ => mul_comm _ _

theorem largest_le {N : Nat} (g : Fin (N + 1) → ℝ) (j : Fin (N + 1)) : g j ≤ largest g := Finset.le_sup' g (Finset.mem_univ j)

theorem smooth_single {P : Policy Obs n k} (hP : Smooth P) (theta : Fin n → ℝ) (obs : Obs) (i : Fin k) (j : Fin n) :
    HasDerivAt (fun t => P.out (Function.update theta j t) obs i) (P.back theta obs (Pi.single i 1) j) (theta j) := by
  have h := hP theta obs (Pi.single i 1) j
  have e : (fun t => ∑ l, (Pi.single i 1 : Fin k → ℝ) l * P.out (Function.update theta j t) obs l) = fun t => P.out (Function.update theta j t) obs i := by
    funext t
    rw [Finset.sum_eq_single i]
    · simp
    · intro l _ hl; simp [hl]
    · intro h; exact absurd (Finset.mem_univ i) h
  rw [e] at h
  exact h

theorem smooth_sum {P : Policy Obs n k} (hP : Smooth P) (theta : Fin n → ℝ) (obs : Obs) (err : Fin k → ℝ) (j : Fin n) :
    P.back theta obs err j = ∑ i, err i * P.back theta obs (Pi.single i 1) j := by
  have h1 := hP theta obs err j
  have h2 : HasDerivAt (fun t => ∑ i, err i * P.out (Function.update theta j t) obs i) (∑ i, err i * P.back theta obs (Pi.single i 1) j) (theta j) :=
    HasDerivAt.fun_sum fun i _ => (smooth_single hP theta obs i j).const_mul (err i)
  exact h1.unique h2

end Verif.PolicyGrad

namespace Verif.Props
open Verif.PolicyGrad Verif.PolicyGrad.Spec Verif.Descent Verif.Pinv Verif.Net

variable {n k : Nat} {Obs : Type}

/-- **C84**: what one backward pass contributes is the derivative of the logarithm of the likelihood of the executed action, the term of each
action coordinate multiplied by its variance: with respect to every parameter of the module, and of the explorer. -/
theorem C84_score (P : Policy Obs n k) (hP : Smooth P) (theta : Fin n → ℝ) (sigma : Fin k → ℝ) (obs : Obs) (a : Fin k → ℝ) :
    (∀ j : Fin n, HasDerivAt (fun t => ∑ i, expln (sigma i) ^ 2 * logNormal (P.out (Function.update theta j t) obs i) (expln (sigma i)) (a i))
      (backward P theta sigma obs a (Fin.castAdd k j)) (theta j)) ∧
    (∀ j : Fin k, HasDerivAt (fun t => ∑ i, logNormal (P.out theta obs i) (expln (Function.update sigma j t i)) (a i))
      (backward P theta sigma obs a (Fin.natAdd n j) / expln (sigma j) ^ 2) (sigma j)) := by
  constructor
  · intro j
    have hb : backward P theta sigma obs a (Fin.castAdd k j) = ∑ i, (a i - P.out theta obs i) * P.back theta obs (Pi.single i 1) j := by
      unfold backward
      rw [Fin.append_left, smooth_sum hP]
      rfl
    rw [hb]
    apply HasDerivAt.fun_sum
    intro i _
    have h1 := smooth_single hP theta obs i j
    have h2 := (C78_normal (sigma i) (P.out theta obs i) (a i)).2
    have hu : P.out (Function.update theta j (theta j)) obs i = P.out theta obs i := by rw [Function.update_eq_self]
    rw [← hu] at h2
    have h3 := (h2.comp (theta j) h1).const_mul (expln (sigma i) ^ 2)
    have hp := (C55_positive (sigma i)).1
    refine HasDerivAt.congr_deriv h3 ?_
    rw [hu]
    simp only [Draw.normalBackward]
    field_simp
  · intro j
    have hb : backward P theta sigma obs a (Fin.natAdd n j) = (Draw.normalBackward (sigma j) (P.out theta obs j) (a j)).1 := by
      unfold backward
      rw [Fin.append_right]
    rw [hb]
    have h1 := (C78_normal (sigma j) (P.out theta obs j) (a j)).1
    have hsum : ∀ i : Fin k, HasDerivAt (fun t => logNormal (P.out theta obs i) (expln (Function.update sigma j t i)) (a i))
        (if i = j then (Draw.normalBackward (sigma j) (P.out theta obs j) (a j)).1 / expln (sigma j) ^ 2 else 0) (sigma j) := by
      intro i
      by_cases hij : i = j
      · subst hij
        simp only [Function.update_self, if_true]
        exact h1
      · simp only [Function.update_of_ne hij, if_neg hij]
        exact hasDerivAt_const _ _
    have := HasDerivAt.fun_sum (u := Finset.univ) fun i _ => hsum i
    refine this.congr_deriv ?_
    simp

/-- **C84**: over any history of calls, the agent's dataset and the log-likelihoods hold the same steps in the same order and in the same
episodes: one reward and one row per interaction since the last reset, and the episodes are those marked by `newEpisode`. -/
theorem C84_lockstep (P : Policy Obs n (k + 1)) (c : Settings ℝ) (gradient : List Nat → List ℝ → List (Fin (n + (k + 1)) → ℝ) → Fin (n + (k + 1)) → ℝ)
    (es : List (Event Obs (k + 1))) (theta : Fin n → ℝ) (sigma : Fin (k + 1) → ℝ) (alpha : ℝ) :
    let s := run P c gradient es (State.init theta sigma alpha)
    let E := episodes P c gradient es (State.init theta sigma alpha) [[]]
    sequences s.seqidx s.rewards = E.map (List.map Prod.fst) ∧ sequences s.seqidx s.loglh = E.map (List.map Prod.snd) ∧
    s.rewards.length = s.loglh.length ∧ (∀ e ∈ E.dropLast, e ≠ []) ∧ E ≠ [] := by
  intro s E
  have h := holds_run P c gradient es _ _ (holds_init theta sigma alpha)
  have h1 : s.rewards = E.flatten.map Prod.fst := h.rewards
  have h2 : s.loglh = E.flatten.map Prod.snd := h.loglh
  have h3 : s.seqidx = starts E := h.seqidx
  refine ⟨?_, ?_, by rw [h1, h2, List.length_map, List.length_map], h.full, h.ne⟩
  · rw [h1, h3, sequences_map, sequences_starts]
  · rw [h2, h3, sequences_map, sequences_starts]

/-- **C84**, partial: the stored rows are partial sums: the row of an interaction is the sum of the scores (`C84_score`) of this and of *all*
earlier interactions of the learner's life, also those of earlier episodes and before the last reset. -/
theorem C84_rows_partial (P : Policy Obs n (k + 1)) (c : Settings ℝ) (gradient : List Nat → List ℝ → List (Fin (n + (k + 1)) → ℝ) → Fin (n + (k + 1)) → ℝ)
    (es : List (Event Obs (k + 1))) (theta : Fin n → ℝ) (sigma : Fin (k + 1) → ℝ) (alpha : ℝ) :
    let s := run P c gradient es (State.init theta sigma alpha)
    let S := scores P c gradient es (State.init theta sigma alpha)
    s.loglh.length ≤ S.length ∧
    ∀ (i : Nat) (hi : i < s.loglh.length), s.loglh[i] = sumRows (S.take (S.length - s.loglh.length + i + 1)) := by
  intro s S
  have h := sums_run P c gradient es (State.init theta sigma alpha) [] ⟨by funext j; simp [State.init, sumRows], by simp [State.init], by simp [State.init]⟩
  rw [List.nil_append] at h
  exact ⟨h.short, h.rows⟩

/-- **C84 violated**: a stored row is not the score of its action. Whenever the derivatives are not all 0 before an interaction, the row differs
from the interaction's own score; they are set to 0 only when the network is built. -/
theorem C84_negation_rows (P : Policy Obs n (k + 1)) (s : State n (k + 1)) (obs : Obs) (xi : Fin (k + 1) → ℝ) (r : ℝ) (h : s.derivs ≠ 0) :
    (interact P s obs xi r).1.loglh.getLast? ≠ some (backward P s.theta s.sigma obs (interact P s obs xi r).2) ∧
    (reset s).derivs ≠ 0 := by
  refine ⟨fun he => h ?_, h⟩
  unfold interact at he
  dsimp only at he
  rw [List.getLast?_concat, Option.some.injEq] at he
  funext j
  have := congrFun he j
  simpa using this

/-- **C84**: after any history of calls, learning moves all parameters, the policy's and the explorer's: without momentum, by the learning rate
times the gradient, which is scaled down if its largest component is above 1000. -/
theorem C84_learn (P : Policy Obs n (k + 1)) (c : Settings ℝ) (hmom : c.momentum = 0)
    (gradient : List Nat → List ℝ → List (Fin (n + (k + 1)) → ℝ) → Fin (n + (k + 1)) → ℝ)
    (es : List (Event Obs (k + 1))) (theta : Fin n → ℝ) (sigma : Fin (k + 1) → ℝ) (alpha : ℝ) :
    let s := run P c gradient es (State.init theta sigma alpha)
    let g := gradient s.seqidx s.rewards s.loglh
    let s' := learn c gradient s
    let step : Fin (n + (k + 1)) → ℝ := if largest (N := n + k) g > 1000 then fun j => g j / largest (N := n + k) g * 1000 else g
    (∀ i, s'.theta i = s.theta i + s.gd.alpha * step (Fin.castAdd _ i)) ∧ (∀ i, s'.sigma i = s.sigma i + s.gd.alpha * step (Fin.natAdd _ i)) := by
  intro s g s' step
  obtain ⟨h1, h2⟩ := synced_run P c gradient es (State.init theta sigma alpha)
    ⟨fun i => by simp [State.init, Momentum.init], fun i => by simp [State.init, Momentum.init]⟩
  constructor
  · intro i
    rw [show s.theta i = s.gd.values (Fin.castAdd _ i) from h1 i]
    simp only [s', learn, Momentum.call, hmom, mul_zero, zero_add, step, g, rescale]
    rfl
  · intro i
    rw [show s.sigma i = s.gd.values (Fin.natAdd _ i) from h2 i]
    simp only [s', learn, Momentum.call, hmom, mul_zero, zero_add, step, g, rescale]
    rfl

/-- **C84**, REINFORCE: with complete episodes, each component of the returned vector is the *negative* of the baseline-corrected estimate: the
mean over the episodes of the summed log-likelihood derivative times the episode's return minus the baseline. -/
theorem C84_reinforce {N : Nat} (E : List (List (Step N))) (seqidx : List Nat) (rewards : List ℝ) (loglh : List (Fin N → ℝ))
    (h1 : sequences seqidx rewards = E.map (List.map Prod.fst)) (h2 : sequences seqidx loglh = E.map (List.map Prod.snd)) (j : Fin N) :
    reinforce seqidx rewards loglh j = -estimate (baseline (E.map (pair j))) (E.map (pair j)) := by
  unfold reinforce
  rw [h1, h2, ← reinforceComponent_eq]
  simp only [List.map_map]
  congr 1
  apply List.map_congr_left
  intro e _
  simp [pair, sumRows, Function.comp_def]

/-- **C84**: the baseline is optimal: no other number gives a smaller sum of squares of the terms of the estimate. -/
theorem C84_baseline (pairs : List (ℝ × ℝ)) (h : ∃ p ∈ pairs, p.1 ≠ 0) (b : ℝ) :
    (pairs.map fun p => (p.1 * (p.2 - baseline pairs)) ^ 2).sum ≤ (pairs.map fun p => (p.1 * (p.2 - b)) ^ 2).sum := by
  have hpos := sum_sq_pos h
  have hexp : ∀ c : ℝ, (pairs.map fun p => (p.1 * (p.2 - c)) ^ 2).sum =
      (pairs.map fun p => p.1 ^ 2 * p.2 ^ 2).sum - 2 * c * (pairs.map fun p => p.1 ^ 2 * p.2).sum + c ^ 2 * (pairs.map fun p => p.1 ^ 2).sum := by
    intro c
    clear hpos h
    induction pairs with
    | nil => simp
    | cons p ps ih => simp only [List.map_cons, List.sum_cons, ih]; ring
  rw [hexp, hexp]
  unfold baseline
  set A := (pairs.map fun p => p.1 ^ 2).sum
  set B := (pairs.map fun p => p.1 ^ 2 * p.2).sum
  have : (b * A - B) ^ 2 / A ≥ 0 := by positivity
  have e : -(2 * (B / A) * B) + (B / A) ^ 2 * A = - (B ^ 2 / A) := by field_simp; ring
  have e2 : (b * A - B) ^ 2 / A = b ^ 2 * A - 2 * b * B + B ^ 2 / A := by field_simp; ring
  linarith

/-- **C84**: adding the same number to the returns of all episodes does not change the estimate. -/
theorem C84_shift (pairs : List (ℝ × ℝ)) (h : ∃ p ∈ pairs, p.1 ≠ 0) (c : ℝ) :
    let shifted := pairs.map fun p => (p.1, p.2 + c)
    estimate (baseline shifted) shifted = estimate (baseline pairs) pairs := by
  intro shifted
  have hpos := sum_sq_pos h
  have hb : baseline shifted = baseline pairs + c := by
    unfold baseline
    simp only [shifted, List.map_map, Function.comp_def]
    rw [div_add' _ _ _ hpos.ne']
    congr 1
    clear hpos h shifted
    induction pairs with
    | nil => simp
    | cons p ps ih => simp only [List.map_cons, List.sum_cons, ih]; ring
  rw [hb]
  unfold estimate
  simp only [shifted, List.map_map, Function.comp_def, List.length_map, add_sub_add_right_eq_sub]

/-- **C84 violated by REINFORCE**: `learn` moves the parameters against the estimate of the gradient of the reward. For every history with complete
episodes, as long as the vector is not rescaled, the change of the parameters is minus the learning rate times the estimate, so that it
points downhill. -/
theorem C84_negation_direction (c : Settings ℝ) (hc : c.momentum = 0) (s : State n (k + 1)) (ha : 0 < s.gd.alpha)
    (E : List (List (Step (n + (k + 1))))) (h1 : sequences s.seqidx s.rewards = E.map (List.map Prod.fst))
    (h2 : sequences s.seqidx s.loglh = E.map (List.map Prod.snd)) (hlarge : largest (N := n + k) (reinforce s.seqidx s.rewards s.loglh) ≤ 1000)
    (hne : ∃ j, estimate (baseline (E.map (pair j))) (E.map (pair j)) ≠ 0) :
    let est := fun j => estimate (baseline (E.map (pair j))) (E.map (pair j))
    (∀ j, (learn c reinforce s).gd.values j - s.gd.values j = -(s.gd.alpha * est j)) ∧
    ∑ j, est j * ((learn c reinforce s).gd.values j - s.gd.values j) < 0 := by
  intro est
  have hmove : ∀ j, (learn c reinforce s).gd.values j - s.gd.values j = -(s.gd.alpha * est j) := by
    intro j
    unfold learn rescale
    dsimp only
    rw [if_neg (not_lt.2 hlarge)]
    simp only [Momentum.call, hc, mul_zero, zero_add, add_sub_cancel_left]
    rw [C84_reinforce E s.seqidx s.rewards s.loglh h1 h2 j]
    ring
  refine ⟨hmove, ?_⟩
  simp only [hmove]
  have : ∑ j, est j * -(s.gd.alpha * est j) = -(s.gd.alpha * ∑ j, est j ^ 2) := by
    rw [Finset.mul_sum, ← Finset.sum_neg_distrib]
    exact Finset.sum_congr rfl fun j _ => by ring
  rw [this]
  obtain ⟨j, hj⟩ := hne
  have h0 : 0 < est j ^ 2 := by have : est j ≠ 0 := hj; positivity
  have : 0 < ∑ j, est j ^ 2 := lt_of_lt_of_le h0 (Finset.single_le_sum (f := fun j => est j ^ 2) (fun j _ => sq_nonneg _) (Finset.mem_univ j))
  have := mul_pos ha this
  linarith

/-- **C84**, ENAC: when the return of every episode is a linear function of its summed log-likelihood derivatives plus a constant, and the episodes
determine such a function, the linear coefficients are returned, whatever the constant. -/
theorem C84_enac {N : Nat} (pinv : ∀ {m : Nat}, Matrix (Fin m) (Fin (N + 1)) ℝ → Matrix (Fin (N + 1)) (Fin m) ℝ)
    (E : List (List (Step N))) (seqidx : List Nat) (rewards : List ℝ) (loglh : List (Fin N → ℝ))
    (h1 : sequences seqidx rewards = E.map (List.map Prod.fst)) (h2 : sequences seqidx loglh = E.map (List.map Prod.snd))
    (hp : ∀ L, L = (sequences seqidx loglh).map sumRows → IsPinv (enacMatrix L) (pinv (enacMatrix L)) ∧ FullRank (enacMatrix L))
    (g : Fin N → ℝ) (b : ℝ) (hlin : ∀ e ∈ E, (e.map Prod.fst).sum = ∑ j, g j * (pair j e).1 + b) : enac pinv seqidx rewards loglh = g := by
  obtain ⟨hp1, hp2⟩ := hp _ rfl
  unfold enac
  dsimp only
  set L := (sequences seqidx loglh).map sumRows with hL
  have hlen : L.length = E.length := by rw [hL, h2]; simp
  have hvec : (fun i : Fin L.length => ((sequences seqidx rewards).map List.sum).getD i 0) = (enacMatrix L).mulVec (Fin.snoc (α := fun _ => ℝ) g b) := by
    funext i
    rw [mulVec_enacMatrix]
    have hi : (i : Nat) < E.length := hlen ▸ i.2
    have e1 : ((sequences seqidx rewards).map List.sum).getD i 0 = (E[(i : Nat)].map Prod.fst).sum := by
      rw [h1]; simp [hi]
    rw [e1, hlin _ (List.getElem_mem hi)]
    simp only [Fin.snoc_castSucc, Fin.snoc_last]
    congr 1
    apply Finset.sum_congr rfl
    intro j _
    congr 1
    have : L[i] = sumRows (E[(i : Nat)].map Prod.snd) := by
      simp only [hL, h2, Fin.getElem_fin, List.getElem_map]
    rw [this]
    simp [pair, sumRows, Function.comp_def]
  rw [hvec, exact_solution hp1 hp2]
  funext j
  simp

/-- **C84**, ENAC in general: the returned vector, together with some constant, fits the returns as a linear function of the log-likelihood
derivatives with the least sum of squares. -/
theorem C84_enac_least_squares {N : Nat} (pinv : ∀ {m : Nat}, Matrix (Fin m) (Fin (N + 1)) ℝ → Matrix (Fin (N + 1)) (Fin m) ℝ)
    (E : List (List (Step N))) (seqidx : List Nat) (rewards : List ℝ) (loglh : List (Fin N → ℝ))
    (h1 : sequences seqidx rewards = E.map (List.map Prod.fst)) (h2 : sequences seqidx loglh = E.map (List.map Prod.snd))
    (hp : ∀ L, L = (sequences seqidx loglh).map sumRows → IsPinv (enacMatrix L) (pinv (enacMatrix L))) :
    ∃ b : ℝ, ∀ (g' : Fin N → ℝ) (b' : ℝ),
      ∑ i : Fin E.length, (∑ j, enac pinv seqidx rewards loglh j * (pair j E[i]).1 + b - (E[i].map Prod.fst).sum) ^ 2 ≤
      ∑ i : Fin E.length, (∑ j, g' j * (pair j E[i]).1 + b' - (E[i].map Prod.fst).sum) ^ 2 := by
  have hp1 := hp _ rfl
  have hE : (sequences seqidx loglh).map sumRows = E.map fun e => sumRows (e.map Prod.snd) := by rw [h2]; simp [Function.comp_def]
  have hR : (sequences seqidx rewards).map List.sum = E.map fun e => (e.map Prod.fst).sum := by rw [h1]; simp [Function.comp_def]
  unfold enac
  dsimp only
  rw [hE] at hp1 ⊢
  rw [hR]
  set L := E.map fun e => sumRows (e.map Prod.snd) with hL
  set beta := (pinv (enacMatrix L)).mulVec fun i => (E.map fun e => (e.map Prod.fst).sum).getD i 0 with hbeta
  refine ⟨beta (Fin.last N), fun g' b' => ?_⟩
  have h := least_squares hp1 (fun i => (E.map fun e => (e.map Prod.fst).sum).getD i 0) (Fin.snoc (α := fun _ => ℝ) g' b')
  have hlen : L.length = E.length := by simp [hL]
  have key : ∀ x : Fin (N + 1) → ℝ, Pinv.residual (enacMatrix L) (fun i => (E.map fun e => (e.map Prod.fst).sum).getD i 0) x =
      ∑ i : Fin E.length, (∑ j : Fin N, x j.castSucc * (pair j E[i]).1 + x (Fin.last N) - (E[i].map Prod.fst).sum) ^ 2 := by
    intro x
    unfold Pinv.residual
    apply Fintype.sum_equiv (finCongr hlen)
    intro i
    rw [mulVec_enacMatrix]
    have hi : (i : Nat) < E.length := hlen ▸ i.2
    have e1 : (E.map fun e => (e.map Prod.fst).sum).getD i 0 = (E[(i : Nat)].map Prod.fst).sum := by simp [hi]
    have e2 : L[i] = sumRows (E[(i : Nat)].map Prod.snd) := by simp only [hL, Fin.getElem_fin, List.getElem_map]
    dsimp only
    rw [e1, e2]
    simp [pair, sumRows, Function.comp_def]
  rw [key, key, ← hbeta] at h
  simpa only [Fin.snoc_castSucc, Fin.snoc_last] using h

/-- **C84**: the vector passed on by `learn` is a positive multiple of the subclass's gradient, the gradient itself when no component is above
1000, and no component of it is above 1000. -/
theorem C84_rescale {N : Nat} (g : Fin (N + 1) → ℝ) :
    (∃ c : ℝ, 0 < c ∧ rescale g = fun j => c * g j) ∧ (largest g ≤ 1000 → rescale g = g) ∧ ∀ j, rescale g j ≤ 1000 := by
  unfold rescale
  by_cases h : largest g > 1000
  · rw [if_pos h]
    refine ⟨⟨1000 / largest g, by apply div_pos <;> linarith, ?_⟩, fun h' => absurd h (not_lt.2 h'), fun j => ?_⟩
    · funext j; ring
    · have : g j / largest g ≤ 1 := (div_le_one (by linarith)).2 (largest_le g j)
      linarith
  · rw [if_neg h]
    exact ⟨⟨1, one_pos, by simp⟩, fun _ => rfl, fun j => (largest_le g j).trans (not_lt.1 h)⟩

/-- **C84 violated for large negative components**: the guard against "too large values" looks at the largest component only, not at absolute
values: for every bound there is a gradient that is passed on unchanged although all of its components exceed the bound in size. -/
theorem C84_negation_rescale {N : Nat} (B : ℝ) : ∃ g : Fin (N + 1) → ℝ, rescale g = g ∧ ∀ j, |g j| > B := by
  refine ⟨fun _ => -(|B| + 1), ?_, fun j => ?_⟩
  · unfold rescale
    rw [if_neg]
    rw [not_lt]
    unfold largest
    apply Finset.sup'_le
    intro j _
    have := abs_nonneg B
    linarith
  · rw [abs_neg, abs_of_pos (by have := abs_nonneg B; linarith)]
    have := le_abs_self B
    linarith

/-! ### The hypotheses are met -/

/-- a module with one parameter whose output is the parameter times the observation -/
def examplePolicy : Policy ℝ 1 1 := { out := fun theta obs _ => theta 0 * obs, back := fun _ obs err _ => obs * err 0 }

theorem examplePolicy_smooth : Smooth examplePolicy := by
  intro theta obs err j
  have hj : j = 0 := Subsingleton.elim _ _
  subst hj
  simp only [examplePolicy, Finset.univ_unique, Fin.default_eq_zero, Finset.sum_singleton, Function.update_self]
  have := ((hasDerivAt_id (theta 0)).mul_const obs).const_mul (err 0)
  refine HasDerivAt.congr_deriv (f := fun t => err 0 * (t * obs)) this ?_
  ring

-- two episodes of one step: after the first interaction the derivatives are not 0, so that the second row is not the score of the second action
example : ∃ s : State 1 1, s = run (k := 0) examplePolicy ⟨1, 0, 5, 1, 1, 2, 1⟩ reinforce [.newEpisode, .interact 1 (fun _ => 2) 1, .newEpisode]
      (State.init (fun _ => 0) (fun _ => 0) 1) ∧ s.derivs ≠ 0 ∧ sequences s.seqidx s.rewards = [[1], []] := by
  refine ⟨_, rfl, fun h => ?_, ?_⟩
  · have := congrFun h 0
    simp [run, tryNewEpisode, newEpisode, State.init, interact, backward, perturb, examplePolicy, Draw.normalBackward, expln] at this
    have h0 : (0 : Fin (1 + 1)) = Fin.castAdd 1 (0 : Fin 1) := rfl
    rw [h0, Fin.append_left] at this
    norm_num at this
  · simp [run, tryNewEpisode, newEpisode, State.init, interact, sequences, List.range_succ]

-- the action above the mean was rewarded, the one below was not: the estimate is positive
example : estimate (baseline [(1, 1), (-1, 0)]) [(1, 1), (-1, 0)] = 1 / 2 := by norm_num [estimate, baseline]
example : ∃ p ∈ [((1 : ℝ), (1 : ℝ)), (-1, 0)], p.1 ≠ 0 := ⟨(1, 1), by simp, by simp⟩

end Verif.Props
