import Verif.Model.Kohonen
import Mathlib.Algebra.Order.BigOperators.Ring.Finset
import Mathlib.Algebra.Order.BigOperators.Group.Finset
import Mathlib.Algebra.Order.Field.Rat
import Mathlib.Data.Rat.Floor
import Mathlib.Tactic.Linarith
import Mathlib.Tactic.FieldSimp
import Mathlib.Tactic.Positivity
/-
C128: self-organising maps.
-/
namespace Verif.Kohonen
open Finset

variable {K : Type} [Field K] [LinearOrder K] [IsStrictOrderedRing K] [FloorRing K] {N d : ℕ}

/-- The place of an element in a list -/
def place {α : Type} [DecidableEq α] (l : List α) (a : α) : ℕ := l.idxOf a

theorem place_inj {α : Type} [DecidableEq α] (l : List α) (a b : α) (ha : a ∈ l) (h : place l a = place l b) : a = b := (List.idxOf_inj ha).1 h

theorem mem_positions (p : Fin N × Fin N) : p ∈ positions N := by
  simp only [positions, List.mem_flatMap, List.mem_map]
  exact ⟨p.1, List.mem_finRange _, p.2, List.mem_finRange _, rfl⟩

theorem forward_winner (m : Som K N d) (x : Fin d → K) : (m.forward x).1.winner ∈ List.argmin (errorAt m.neurons x) (positions N) := by
  have hne : positions N ≠ [] := List.ne_nil_of_mem (mem_positions m.winner)
  unfold Som.forward
  cases h : List.argmin (errorAt m.neurons x) (positions N) with
  | none => exact absurd (List.argmin_eq_none.1 h) hne
  | some w => simp

theorem winner_le (m : Som K N d) (x : Fin d → K) (p : Fin N × Fin N) :
    errorAt m.neurons x (m.forward x).1.winner ≤ errorAt m.neurons x p :=
  List.le_of_mem_argmin (mem_positions p) (forward_winner m x)

theorem tempm_range (w : Fin N × Fin N) (i j : Fin N) : (0 : K) ≤ tempm w i j ∧ (tempm w i j : K) ≤ 1 ∧ ((tempm w i j : K) = 1 ↔ (i, j) = w) := by
  have hN : (0 : K) < N := by
    have : 0 < N := lt_of_le_of_lt (Nat.zero_le _) i.isLt
    exact_mod_cast this
  have h1 := abs_nonneg (((i : ℕ) : K) - ((w.1 : ℕ) : K))
  have h2 := abs_nonneg (((j : ℕ) : K) - ((w.2 : ℕ) : K))
  have h3 : 0 ≤ (|((i : ℕ) : K) - ((w.1 : ℕ) : K)| + |((j : ℕ) : K) - ((w.2 : ℕ) : K)|) / (N : K) := by positivity
  refine ⟨le_max_left _ _, max_le zero_le_one (by linarith), ?_⟩
  unfold tempm
  constructor
  · intro h
    have h4 : (|((i : ℕ) : K) - ((w.1 : ℕ) : K)| + |((j : ℕ) : K) - ((w.2 : ℕ) : K)|) / (N : K) = 0 := by
      rcases max_choice (0 : K) (1 - (|((i : ℕ) : K) - ((w.1 : ℕ) : K)| + |((j : ℕ) : K) - ((w.2 : ℕ) : K)|) / (N : K)) with hc | hc
      · rw [hc] at h; exact absurd h zero_ne_one
      · rw [hc] at h; linarith
    rw [div_eq_zero_iff] at h4
    have h5 := h4.resolve_right hN.ne'
    have h6 : |((i : ℕ) : K) - ((w.1 : ℕ) : K)| = 0 := by linarith
    have h7 : |((j : ℕ) : K) - ((w.2 : ℕ) : K)| = 0 := by linarith
    rw [abs_eq_zero, sub_eq_zero] at h6 h7
    have h8 : i = w.1 := Fin.ext (by exact_mod_cast h6)
    have h9 : j = w.2 := Fin.ext (by exact_mod_cast h7)
    rw [h8, h9]
  · rintro rfl
    simp

/-- How strongly a neuron is moved -/
def strength (m : Som K N d) (w : Fin N × Fin N) (p : Fin N × Fin N) : K :=
  if inSlice w.1 ⌊m.neighbours⌋ p.1 && inSlice w.2 ⌊m.neighbours⌋ p.2 then tempm w p.1 p.2 else 0

theorem train_neuron (m : Som K N d) (x : Fin d → K) (p : Fin N × Fin N) (k : Fin d) :
    (m.train x).neurons p.1 p.2 k = m.neurons p.1 p.2 k + m.learningrate * strength m (m.forward x).1.winner p * (x k - m.neurons p.1 p.2 k) := by
  unfold Som.train Som.backward strength
  show (if inSlice (m.forward x).1.winner.1 ⌊m.neighbours⌋ p.1 && inSlice (m.forward x).1.winner.2 ⌊m.neighbours⌋ p.2 then
    m.neurons p.1 p.2 k - m.learningrate * (m.neurons p.1 p.2 k - x k) * tempm (m.forward x).1.winner p.1 p.2 else m.neurons p.1 p.2 k) = _
  split_ifs <;> ring

theorem strength_range (m : Som K N d) (w p : Fin N × Fin N) : 0 ≤ strength m w p ∧ strength m w p ≤ 1 ∧
    (strength m w p = 1 → p = w) ∧ (0 ≤ m.neighbours → strength m w w = 1) := by
  obtain ⟨h1, h2, h3⟩ := tempm_range (K := K) w p.1 p.2
  refine ⟨?_, ?_, ?_, ?_⟩
  · unfold strength; split_ifs
    · exact h1
    · exact le_refl _
  · unfold strength; split_ifs
    · exact h2
    · exact zero_le_one
  · unfold strength; split_ifs
    · intro h; exact h3.1 h
    · intro h; exact absurd h zero_ne_one
  · intro hn
    have hf : 0 ≤ ⌊m.neighbours⌋ := Int.floor_nonneg.2 hn
    have hin : ∀ q : Fin N, inSlice q ⌊m.neighbours⌋ q = true := by
      intro q
      unfold inSlice
      have := q.isLt
      simp only [decide_eq_true_eq]
      constructor
      · exact max_le (by omega) (by omega)
      · exact lt_min (by omega) (by omega)
    unfold strength
    rw [hin, hin, Bool.and_self, if_pos rfl]
    exact ((tempm_range (K := K) w w.1 w.2).2.2).2 rfl

theorem train_error (m : Som K N d) (x : Fin d → K) (p : Fin N × Fin N) :
    errorAt (m.train x).neurons x p = (1 - m.learningrate * strength m (m.forward x).1.winner p) ^ 2 * errorAt m.neurons x p := by
  unfold errorAt
  rw [mul_sum]
  refine sum_congr rfl fun k _ => ?_
  rw [train_neuron]; ring

theorem train_fields (m : Som K N d) (x : Fin d → K) : (m.train x).learningrate = m.learningrate ∧
    (m.train x).neighbours = m.neighbours * m.neighbourdecay ∧ (m.train x).neighbourdecay = m.neighbourdecay ∧
    (m.train x).winner = (m.forward x).1.winner := ⟨rfl, rfl, rfl, rfl⟩

end Verif.Kohonen

namespace Verif.Props
open Verif.Kohonen Finset

variable {K : Type} [Field K] [LinearOrder K] [IsStrictOrderedRing K] [FloorRing K] {N d : ℕ}

/-- **C128, the winner.** Activating the map gives the coordinates of a neuron that is closest to the input, of several such the first one. -/
theorem C128_winner (m : Som K N d) (hf : m.outputFullMap = false) (x : Fin d → K) : ∃ w, (m.forward x).2 = some w ∧
    (∀ p, errorAt m.neurons x w ≤ errorAt m.neurons x p) ∧
    ∀ p, errorAt m.neurons x p = errorAt m.neurons x w → place (positions N) w ≤ place (positions N) p := by
  refine ⟨(m.forward x).1.winner, ?_, winner_le m x, fun p hp => ?_⟩
  · simp [Som.forward, hf]
  · exact List.index_of_argmin (forward_winner m x) (mem_positions p) hp.le

/-- **C128, training** with an input moves every neuron towards it, by the learning rate times a strength between 0 and 1 that is 1 only for the winner
(and is so unless the neighbourhood is negative), and 0 for neurons farther than the neighbourhood in one direction. No neuron gets farther from the
input. -/
theorem C128_train (m : Som K N d) (h0 : 0 ≤ m.learningrate) (h1 : m.learningrate ≤ 1) (x : Fin d → K) :
    ∃ s : Fin N × Fin N → K, (∀ p, 0 ≤ s p ∧ s p ≤ 1 ∧ (s p = 1 → p = (m.train x).winner)) ∧ (0 ≤ m.neighbours → s (m.train x).winner = 1) ∧
      (∀ p, (⌊m.neighbours⌋ < |((p.1 : ℕ) : ℤ) - (((m.train x).winner.1 : ℕ) : ℤ)| ∨ ⌊m.neighbours⌋ < |((p.2 : ℕ) : ℤ) - (((m.train x).winner.2 : ℕ) : ℤ)|) →
        s p = 0) ∧
      (∀ p k, (m.train x).neurons p.1 p.2 k = m.neurons p.1 p.2 k + m.learningrate * s p * (x k - m.neurons p.1 p.2 k)) ∧
      ∀ p, errorAt (m.train x).neurons x p ≤ errorAt m.neurons x p := by
  have hs := fun p => strength_range m (m.forward x).1.winner p
  refine ⟨strength m (m.forward x).1.winner, fun p => ⟨(hs p).1, (hs p).2.1, (hs p).2.2.1⟩, fun hn => (hs (m.forward x).1.winner).2.2.2 hn,
    fun p hp => ?_, train_neuron m x, fun p => ?_⟩
  · have hout : ∀ (w q : Fin N), ⌊m.neighbours⌋ < |((q : ℕ) : ℤ) - ((w : ℕ) : ℤ)| → inSlice w ⌊m.neighbours⌋ q = false := by
      intro w q h
      unfold inSlice
      rw [decide_eq_false_iff_not]
      rintro ⟨h2, h3⟩
      have h4 := (max_le_iff.1 h2).2
      have h5 := (lt_min_iff.1 h3).1
      rw [lt_abs] at h
      omega
    have hp' : ⌊m.neighbours⌋ < |((p.1 : ℕ) : ℤ) - (((m.forward x).1.winner.1 : ℕ) : ℤ)| ∨ ⌊m.neighbours⌋ < |((p.2 : ℕ) : ℤ) - (((m.forward x).1.winner.2 : ℕ) : ℤ)| := hp
    unfold strength
    rcases hp' with h | h
    · rw [hout _ _ h]; simp
    · rw [hout _ _ h]; simp
  · rw [train_error]
    have h2 := mul_le_one₀ h1 (hs p).1 (hs p).2.1
    have h3 := mul_nonneg h0 (hs p).1
    have h4 : 0 ≤ errorAt m.neurons x p := sum_nonneg fun k _ => sq_nonneg _
    have h5 : (1 - m.learningrate * strength m (m.forward x).1.winner p) ^ 2 ≤ 1 := pow_le_one₀ (by linarith) (by linarith)
    exact mul_le_of_le_one_left h4 h5

/-- **C128, neurons stay in range.** If all inputs and the initial neurons lie between two bounds, so do the neurons after any training; the
neighbourhood shrinks geometrically. -/
theorem C128_range (lo hi : K) (xs : List (Fin d → K)) (m : Som K N d) (h0 : 0 ≤ m.learningrate) (h1 : m.learningrate ≤ 1)
    (hm : ∀ i j k, lo ≤ m.neurons i j k ∧ m.neurons i j k ≤ hi) (hx : ∀ x ∈ xs, ∀ k, lo ≤ x k ∧ x k ≤ hi) :
    (∀ i j k, lo ≤ (xs.foldl Som.train m).neurons i j k ∧ (xs.foldl Som.train m).neurons i j k ≤ hi) ∧
    (xs.foldl Som.train m).neighbours = m.neighbours * m.neighbourdecay ^ xs.length := by
  induction xs generalizing m with
  | nil => exact ⟨hm, by simp⟩
  | cons x xs ih =>
    rw [List.foldl_cons]
    have hstep : ∀ i j k, lo ≤ (m.train x).neurons i j k ∧ (m.train x).neurons i j k ≤ hi := by
      intro i j k
      have hk := hx x List.mem_cons_self k
      have hmk := hm i j k
      have hs := strength_range m (m.forward x).1.winner (i, j)
      have e := train_neuron m x (i, j) k
      simp only at e
      have h2 := mul_le_one₀ h1 hs.1 hs.2.1
      have h3 := mul_nonneg h0 hs.1
      rw [e]
      generalize m.learningrate * strength m (m.forward x).1.winner (i, j) = a at *
      have e2 : m.neurons i j k + a * (x k - m.neurons i j k) = (1 - a) * m.neurons i j k + a * x k := by ring
      rw [e2]
      have h4 : 0 ≤ 1 - a := by linarith
      constructor
      · nlinarith [mul_le_mul_of_nonneg_left hmk.1 h4, mul_le_mul_of_nonneg_left hk.1 h3]
      · nlinarith [mul_le_mul_of_nonneg_left hmk.2 h4, mul_le_mul_of_nonneg_left hk.2 h3]
    obtain ⟨ih1, ih2⟩ := ih (m.train x) h0 h1 hstep (fun y hy => hx y (List.mem_cons_of_mem _ hy))
    refine ⟨ih1, ?_⟩
    rw [ih2, List.length_cons, pow_succ]
    show m.neighbours * m.neighbourdecay * m.neighbourdecay ^ xs.length = _
    ring

/-- **C128, one input.** Training again and again with the same input keeps the winner, whose squared error gets smaller by the factor
`(1 - learningrate) ^ 2` each time. -/
theorem C128_repeat (x : Fin d → K) (t : ℕ) (m : Som K N d) (h0 : 0 ≤ m.learningrate) (h1 : m.learningrate ≤ 1) (hn : 0 ≤ m.neighbours)
    (hd : 0 ≤ m.neighbourdecay) :
    ((Som.train · x)^[t] m).forward x |>.1.winner = (m.forward x).1.winner ∧
    errorAt ((Som.train · x)^[t] m).neurons x (m.forward x).1.winner = ((1 - m.learningrate) ^ 2) ^ t * errorAt m.neurons x (m.forward x).1.winner := by
  induction t generalizing m with
  | zero => exact ⟨rfl, by simp⟩
  | succ t ih =>
    rw [Function.iterate_succ_apply]
    obtain ⟨ih1, ih2⟩ := ih (m.train x) h0 h1 (mul_nonneg hn hd) hd
    have hw : ((m.train x).forward x).1.winner = (m.forward x).1.winner := by
      set w := (m.forward x).1.winner with hwdef
      have hmem := forward_winner (m.train x) x
      set w' := ((m.train x).forward x).1.winner
      have hle : ∀ p, (1 - m.learningrate) ^ 2 ≤ (1 - m.learningrate * strength m w p) ^ 2 := by
        intro p
        have hs := strength_range m w p
        have h2 : m.learningrate * strength m w p ≤ m.learningrate := mul_le_of_le_one_right h0 hs.2.1
        exact pow_le_pow_left₀ (by linarith) (by linarith) 2
      have hew : errorAt (m.train x).neurons x w = (1 - m.learningrate) ^ 2 * errorAt m.neurons x w := by
        rw [train_error, ← hwdef, (strength_range m w w).2.2.2 hn, mul_one]
      have hpos : ∀ p, 0 ≤ errorAt m.neurons x p := fun p => sum_nonneg fun k _ => sq_nonneg _
      have hmin : ∀ p, errorAt (m.train x).neurons x w ≤ errorAt (m.train x).neurons x p := by
        intro p
        rw [hew, train_error m x p, ← hwdef]
        exact mul_le_mul (hle p) (winner_le m x p) (hpos w) (sq_nonneg _)
      -- the new winner has the same error, hence it is not later than the old one
      have hle1 : place (positions N) w' ≤ place (positions N) w := List.index_of_argmin hmem (mem_positions w) (hmin w')
      have heq : errorAt (m.train x).neurons x w' = errorAt (m.train x).neurons x w := le_antisymm (List.le_of_mem_argmin (mem_positions w) hmem) (hmin w')
      by_contra hne
      have hs := strength_range m w w'
      have hs1 : strength m w w' < 1 := lt_of_le_of_ne hs.2.1 fun h => hne (hs.2.2.1 h)
      -- the old error of the new winner is also the smallest one
      have hold : errorAt m.neurons x w' ≤ errorAt m.neurons x w := by
        rw [hew, train_error m x w', ← hwdef] at heq
        by_contra hlt
        push Not at hlt
        rcases eq_or_lt_of_le h0 with hz | hz
        · rw [← hz] at heq; simp at heq; linarith
        · have h3 : m.learningrate * strength m w w' < m.learningrate := by nlinarith
          have h4 : (1 - m.learningrate) ^ 2 < (1 - m.learningrate * strength m w w') ^ 2 := pow_lt_pow_left₀ (by linarith) (by linarith) two_ne_zero
          nlinarith [hpos w, hpos w', sq_nonneg (1 - m.learningrate)]
      have hle2 : place (positions N) w ≤ place (positions N) w' := List.index_of_argmin (forward_winner m x) (mem_positions w') hold
      exact hne (place_inj _ _ _ (mem_positions w') (le_antisymm hle1 hle2))
    rw [hw] at ih1 ih2
    refine ⟨ih1, ?_⟩
    rw [ih2, train_error, (strength_range m (m.forward x).1.winner (m.forward x).1.winner).2.2.2 hn, mul_one, pow_succ _ t]
    show ((1 - m.learningrate) ^ 2) ^ t * _ = _
    ring

omit [IsStrictOrderedRing K] [FloorRing K] in
/-- **C128 violated: the full map.** With `outputFullMap` the module never writes anything to its output buffer: the output is zero for every input. -/
theorem C128_negation_full (m : Som K N d) (hf : m.outputFullMap = true) (x : Fin d → K) : (m.forward x).2 = none := by
  simp [Som.forward, hf]

/-- A map with two by two neurons -/
def exampleSom : Som ℚ 2 1 :=
  { neurons := fun i j _ => (i : ℕ) / 2 + (j : ℕ) / 4, difference := fun _ _ _ => 0, winner := (0, 0), neighbours := 2, learningrate := 1 / 2,
    neighbourdecay := 9 / 10, outputFullMap := false }

example : (exampleSom.forward fun _ => 3 / 5).2 = some (1, 0) ∧ (exampleSom.train fun _ => 1).neurons 0 1 0 = 7 / 16 := by decide +kernel

end Verif.Props
