import Verif.Spec.NFQ
import Mathlib.Tactic.Ring
import Mathlib.Tactic.Linarith
import Mathlib.Tactic.FieldSimp
import Mathlib.Algebra.Order.Field.Rat
/-
C96: neuro-fitted Q-learning.
-/
namespace Verif.NFQ

variable {K : Type} [Field K] [LinearOrder K]

omit [LinearOrder K] in
theorem oneToN_eq (a n : Nat) (h : a < n) : oneToN (K := K) a n = some (unit n a) := by
  unfold oneToN
  rw [if_pos h]
  congr 1
  apply List.ext_getElem
  · simp [unit]
  · intro i h1 h2
    simp only [List.length_set, List.length_replicate] at h1
    rw [List.getElem_set]
    simp only [unit, List.getElem_map, List.getElem_range, List.getElem_replicate]
    by_cases h3 : a = i
    · simp [h3]
    · rw [if_neg h3, if_neg (Ne.symm h3)]

omit [LinearOrder K] in
theorem getValue_eq (m : Net K) (s : List K) (a : Nat) (h : a < m.numActions) : m.getValue s a = some (Q m s a) := by
  unfold Net.getValue Q
  rw [oneToN_eq a _ h]; rfl

omit [LinearOrder K] in
theorem getActionValues_eq (m : Net K) (s : List K) : m.getActionValues s = (List.range m.numActions).map (Q m s) := by
  unfold Net.getActionValues
  rw [← List.filterMap_eq_map]
  apply List.filterMap_congr
  intro a ha
  exact getValue_eq m s a (List.mem_range.1 ha)

theorem best_max (m : Net K) (s : List K) (h : 0 < m.numActions) : ∃ v, (m.getActionValues s).max? = some v ∧ IsBest m s v := by
  rw [getActionValues_eq]
  have hne : (List.range m.numActions).map (Q m s) ≠ [] := by
    intro h'
    have := congrArg List.length h'
    simp at this; omega
  obtain ⟨v, hv⟩ : ∃ v, ((List.range m.numActions).map (Q m s)).max? = some v := Option.isSome_iff_exists.1 (by
    cases h' : ((List.range m.numActions).map (Q m s)).max? with
    | none => exact absurd (List.max?_eq_none_iff.1 h') hne
    | some v => rfl)
  refine ⟨v, hv, ?_⟩
  have h1 := List.max?_eq_some_iff.1 hv
  obtain ⟨h2, h3⟩ := h1
  refine ⟨?_, fun a ha => h3 _ (List.mem_map.2 ⟨a, List.mem_range.2 ha, rfl⟩)⟩
  obtain ⟨a, ha, e⟩ := List.mem_map.1 h2
  exact ⟨a, List.mem_range.1 ha, e⟩

theorem isBest_unique {m : Net K} {s : List K} {v w : K} (hv : IsBest m s v) (hw : IsBest m s w) : v = w := by
  obtain ⟨⟨a, ha, ea⟩, h1⟩ := hv
  obtain ⟨⟨b, hb, eb⟩, h2⟩ := hw
  exact le_antisymm (ea ▸ h2 a ha) (eb ▸ h1 b hb)

/-- the sample for a transition -/
theorem target_eq (gamma : K) (m : Net K) (x : Exp K) (s : List K) (ha : x.action < m.numActions) :
    ∃ v, IsBest m s v ∧ target gamma m x s = some (x.state ++ unit m.numActions x.action,
      Q m x.state x.action + (1 / 2) * (x.reward + gamma * v - Q m x.state x.action)) := by
  obtain ⟨v, h1, h2⟩ := best_max m s (by omega)
  exact ⟨v, h2, by unfold target; rw [getValue_eq m _ _ ha, oneToN_eq _ _ ha, h1]⟩

theorem convertSeq_some (gamma : K) (m : Net K) (xs : List (Exp K)) (last : Exp K) (acc : List (List K × K))
    (ha : ∀ x ∈ last :: xs, x.action < m.numActions) :
    ∃ ps, convertSeq gamma m (some last) xs acc = some (acc ++ ps) ∧ List.Forall₂ (fun t p => target gamma m t.1 t.2 = some p) (steps (last :: xs)) ps := by
  induction xs generalizing last acc with
  | nil => exact ⟨[], by simp [convertSeq], by simp [steps]⟩
  | cons y ys ih =>
    obtain ⟨v, _, h⟩ := target_eq gamma m last y.state (ha last (by simp))
    obtain ⟨ps, h1, h2⟩ := ih y (acc ++ [(last.state ++ unit m.numActions last.action,
      Q m last.state last.action + (1 / 2) * (last.reward + gamma * v - Q m last.state last.action))]) (fun x hx => ha x (by simp at hx ⊢; tauto))
    refine ⟨_ :: ps, ?_, List.Forall₂.cons h h2⟩
    rw [convertSeq, h]
    dsimp only
    rw [h1]
    simp

theorem convert_some (gamma : K) (m : Net K) (seqs : List (List (Exp K))) (acc : List (List K × K)) (ha : ∀ seq ∈ seqs, ∀ x ∈ seq, x.action < m.numActions) :
    ∃ ps, convert gamma m seqs acc = some (acc ++ ps) ∧ List.Forall₂ (fun t p => target gamma m t.1 t.2 = some p) (seqs.flatMap steps) ps := by
  induction seqs generalizing acc with
  | nil => exact ⟨[], by simp [convert], by simp⟩
  | cons seq seqs ih =>
    have h1 : ∃ ps, convertSeq gamma m none seq acc = some (acc ++ ps) ∧ List.Forall₂ (fun t p => target gamma m t.1 t.2 = some p) (steps seq) ps := by
      cases seq with
      | nil => exact ⟨[], by simp [convertSeq], by simp [steps]⟩
      | cons x xs => exact convertSeq_some gamma m xs x acc (ha _ (by simp))
    obtain ⟨ps, h2, h3⟩ := h1
    obtain ⟨qs, h4, h5⟩ := ih (acc ++ ps) (fun s hs => ha s (by simp [hs]))
    refine ⟨ps ++ qs, ?_, ?_⟩
    · rw [convert, h2]
      dsimp only
      rw [h4, List.append_assoc]
    · rw [List.flatMap_cons]
      exact List.rel_append h3 h5

theorem argmax_spec (xs : List K) (h : xs ≠ []) : ∃ i, argmax xs = some i ∧ i < xs.length ∧ (∀ j, j < xs.length → xs.getD j 0 ≤ xs.getD i 0) ∧
    ∀ j, j < i → xs.getD j 0 < xs.getD i 0 := by
  induction xs with
  | nil => exact absurd rfl h
  | cons x xs ih =>
    by_cases hx : xs = []
    · subst hx
      refine ⟨0, rfl, by simp, fun j hj => ?_, fun j hj => by omega⟩
      simp at hj; subst hj; exact le_rfl
    · obtain ⟨i, h1, h2, h3, h4⟩ := ih hx
      by_cases hle : xs.getD i 0 ≤ x
      · refine ⟨0, by simp only [argmax, h1]; rw [if_pos hle], by simp, fun j hj => ?_, fun j hj => by omega⟩
        cases j with
        | zero => exact le_rfl
        | succ j => simp at hj ⊢; exact (by simpa using (h3 j hj).trans hle)
      · refine ⟨i + 1, by simp only [argmax, h1]; rw [if_neg hle], by simp; omega, fun j hj => ?_, fun j hj => ?_⟩
        · cases j with
          | zero => simpa using (not_le.1 hle).le
          | succ j => simp at hj; simpa using h3 j hj
        · cases j with
          | zero => simpa using not_le.1 hle
          | succ j => simpa using h4 j (by omega)

end Verif.NFQ

namespace Verif.Props
open Verif.NFQ

variable {K : Type} [Field K] [LinearOrder K]

/-- `learn` trains the network with one sample for every transition of every sequence, in order: the input is the state and the action as unit vector, the
target half way from the present value to the reward plus the discounted value of the best action in the next state. -/
theorem C96_samples (gamma : K) (m : Net K) (seqs : List (List (Exp K))) (ha : ∀ seq ∈ seqs, ∀ x ∈ seq, x.action < m.numActions) :
    ∃ ps, convert gamma m seqs [] = some ps ∧ List.Forall₂ (fun t p => p.1 = t.1.state ++ unit m.numActions t.1.action ∧
      ∃ v, IsBest m t.2 v ∧ p.2 = Q m t.1.state t.1.action + (1 / 2) * (t.1.reward + gamma * v - Q m t.1.state t.1.action)) (seqs.flatMap steps) ps := by
  obtain ⟨ps, h1, h2⟩ := NFQ.convert_some gamma m seqs [] ha
  refine ⟨ps, by simpa using h1, ?_⟩
  have hact : ∀ t ∈ seqs.flatMap steps, t.1.action < m.numActions := by
    intro t ht
    obtain ⟨seq, hseq, ht⟩ := List.mem_flatMap.1 ht
    have key : ∀ (xs : List (Exp K)) t, t ∈ steps xs → t.1 ∈ xs := by
      intro xs
      induction xs with
      | nil => intro t ht; simp [steps] at ht
      | cons x xs ih =>
        intro t ht
        cases xs with
        | nil => simp [steps] at ht
        | cons y ys =>
          rcases List.mem_cons.1 ht with rfl | ht
          · simp
          · exact List.mem_cons_of_mem _ (ih t ht)
    exact ha seq hseq _ (key seq t ht)
  clear h1
  generalize seqs.flatMap steps = ts at h2 hact
  revert hact
  induction h2 with
  | nil => intro _; exact List.Forall₂.nil
  | cons h hs ih =>
    intro hact
    refine List.Forall₂.cons ?_ (ih fun t ht => hact t (List.mem_cons_of_mem _ ht))
    rename_i t p _ _
    obtain ⟨v, h3, h4⟩ := NFQ.target_eq gamma m t.1 t.2 (hact t (by simp))
    rw [h4] at h
    cases h
    exact ⟨rfl, v, h3, rfl⟩

/-- The network is left alone by training exactly when it satisfies the Bellman optimality equation on the transition: then, and only then, is the target the
present value. -/
theorem C96_fixpoint [IsStrictOrderedRing K] (gamma : K) (m : Net K) (x : Exp K) (s : List K) (ha : x.action < m.numActions) (v : K) (hv : IsBest m s v) :
    (target gamma m x s).map Prod.snd = some (Q m x.state x.action) ↔ Q m x.state x.action = x.reward + gamma * v := by
  obtain ⟨w, h1, h2⟩ := NFQ.target_eq gamma m x s ha
  rw [NFQ.isBest_unique h1 hv] at h2
  rw [h2]
  simp only [Option.map_some, Option.some.injEq]
  constructor <;> intro h <;> linarith

/-- Targets are bounded by what the rewards allow: if all values and rewards are such, the targets are. -/
theorem C96_bounded [IsStrictOrderedRing K] {gamma r : K} (h0 : 0 ≤ gamma) (h1 : gamma < 1) (m : Net K) (hQ : ∀ s a, a < m.numActions → |Q m s a| ≤ r / (1 - gamma)) (x : Exp K)
    (hr : |x.reward| ≤ r) (s : List K) (ha : x.action < m.numActions) (p : List K × K) (hp : target gamma m x s = some p) : |p.2| ≤ r / (1 - gamma) := by
  obtain ⟨v, ⟨⟨a, ha', hv⟩, _⟩, h2⟩ := NFQ.target_eq gamma m x s ha
  rw [h2] at hp
  cases hp
  have hb := hQ x.state x.action ha
  have hv' := hQ s a ha'
  rw [hv] at hv'
  rw [abs_le] at *
  have hpos : 0 < 1 - gamma := by linarith
  have e : r + gamma * (r / (1 - gamma)) = r / (1 - gamma) := by field_simp; ring
  have h3 := mul_le_mul_of_nonneg_left hv'.1 h0
  have h4 := mul_le_mul_of_nonneg_left hv'.2 h0
  dsimp only
  constructor
  · linarith [hb.1, hr.1]
  · linarith [hb.2, hr.2]

omit [LinearOrder K] in
/-- Different pairs of a state and an action are different inputs of the network. -/
theorem C96_inputs (n : Nat) (s s' : List K) (hs : s.length = s'.length) (a a' : Nat) (ha : a < n)
    (h : s ++ unit n a = s' ++ unit n a') : s = s' ∧ a = a' := by
  obtain ⟨h1, h2⟩ := List.append_inj h hs
  refine ⟨h1, ?_⟩
  have h3 := congrArg (fun l => l[a]?) h2
  simp only [unit, List.getElem?_map, List.getElem?_range ha, Option.map_some, Option.some.injEq, if_true] at h3
  by_contra hne
  rw [if_neg hne] at h3
  exact one_ne_zero h3

/-- The action of the module is the first of the best ones. -/
theorem C96_action (m : Net K) (h : 0 < m.numActions) (s : List K) : ∃ a, m.getMaxAction s = some a ∧ a < m.numActions ∧
    (∀ b, b < m.numActions → Q m s b ≤ Q m s a) ∧ ∀ b, b < a → Q m s b < Q m s a := by
  have hne : m.getActionValues s ≠ [] := by
    rw [NFQ.getActionValues_eq]
    intro h'
    have := congrArg List.length h'
    simp at this; omega
  obtain ⟨a, h1, h2, h3, h4⟩ := NFQ.argmax_spec _ hne
  have hlen : (m.getActionValues s).length = m.numActions := by rw [NFQ.getActionValues_eq]; simp
  have hget : ∀ b, b < m.numActions → (m.getActionValues s).getD b 0 = Q m s b := by
    intro b hb
    rw [NFQ.getActionValues_eq]
    simp [List.getD_eq_getElem?_getD, List.getElem?_range hb]
  rw [hlen] at h2 h3
  refine ⟨a, h1, h2, fun b hb => ?_, fun b hb => ?_⟩
  · have := h3 b hb
    rwa [hget b hb, hget a h2] at this
  · have := h4 b hb
    rwa [hget b (by omega), hget a h2] at this

/-- Discrepancy: the last experience of each sequence is dropped, so that the rewards at the end of the episodes never reach the learner. Where only the goal
is rewarded, nothing is learned. -/
theorem C96_negation_last (gamma : K) (m : Net K) (xs : List (Exp K)) (s : List K) (a a' : Nat) (r r' : K) :
    convert gamma m [xs ++ [⟨s, a, r⟩]] [] = convert gamma m [xs ++ [⟨s, a', r'⟩]] [] := by
  have key : ∀ (xs : List (Exp K)) (last : Option (Exp K)) (acc : List (List K × K)),
      convertSeq gamma m last (xs ++ [⟨s, a, r⟩]) acc = convertSeq gamma m last (xs ++ [⟨s, a', r'⟩]) acc := by
    intro xs
    induction xs with
    | nil => intro last acc; cases last <;> rfl
    | cons x xs ih =>
      intro last acc
      cases last with
      | none => exact ih _ _
      | some l =>
        simp only [List.cons_append, convertSeq]
        split
        · rfl
        · exact ih _ _
  simp only [convert, key]

/-- two actions, the network adds its inputs up with weights; the hypotheses are met -/
example : ∀ seq ∈ [[(⟨[1], 0, 0⟩ : Exp ℚ), ⟨[2], 1, 5⟩]], ∀ x ∈ seq, x.action < (⟨fun l => l.sum, 2⟩ : Net ℚ).numActions := by decide

end Verif.Props
