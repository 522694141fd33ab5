import Verif.Model.Landscape
import Mathlib.Data.List.Induction
import Mathlib.Data.List.GetD
import Mathlib.Algebra.Order.Ring.Rat
import Mathlib.Tactic.Linarith
import Mathlib.Tactic.LinearCombination
import Mathlib.Tactic.FieldSimp
import Mathlib.Tactic.Ring
import Mathlib.Tactic.NormNum
/-
C192: the values shown in plots of coevolution, of fitness landscapes and of classifiers.
-/
namespace Verif.Landscape
open Verif.DataSet (Err)

section ciao
variable {I J K : Type} [Field K] [LinearOrder K]

omit [LinearOrder K] in
/-- what a step of the inner loop writes -/
theorem ciaoStep_apply (ev : Sum I J → Sum I J → K) (sym : Bool) (g1 g2 : Nat) (x : I) (y : J) (m : Nat → Nat → K) (a b : Nat) :
    ciaoStep ev sym g1 x m (y, g2) a b = if (a = g1 ∧ b = g2) ∨ (a = g2 ∧ b = g1) then
      (if sym then ev (.inl x) (.inr y) else if g1 = g2 then ev (.inl x) (.inr y) + ev (.inr y) (.inl x) else if a = g1 then ev (.inl x) (.inr y) else ev (.inr y) (.inl x)) else m a b := by
  unfold ciaoStep set2
  cases sym with
  | true =>
    simp only [if_true, and_self]
    by_cases h1 : a = g2 ∧ b = g1
    · rw [if_pos h1, if_pos (Or.inr h1)]
    · rw [if_neg h1]
      by_cases h2 : a = g1 ∧ b = g2
      · rw [if_pos h2, if_pos (Or.inl h2)]
      · rw [if_neg h2, if_neg (by tauto)]
  | false =>
    simp only [Bool.false_eq_true, if_false]
    by_cases h : g1 = g2
    · subst h
      simp only [if_true, and_self, or_self]
      by_cases h2 : a = g1 ∧ b = g1
      · rw [if_pos h2, if_pos h2]
      · rw [if_neg h2, if_neg h2, if_neg h2]
    · rw [if_neg h, if_neg h]
      by_cases h1 : a = g2 ∧ b = g1
      · simp only [if_pos h1, if_pos (Or.inr h1 : (a = g1 ∧ b = g2) ∨ (a = g2 ∧ b = g1))]
        rw [if_neg (fun e => h (e.symm.trans h1.1))]
      · simp only [if_neg h1]
        by_cases h2 : a = g1 ∧ b = g2
        · rw [if_pos h2, if_pos (Or.inl h2), if_pos h2.1]
        · rw [if_neg h2, if_neg (by tauto)]

omit [LinearOrder K] in
theorem inner_spec (ev : Sum I J → Sum I J → K) (sym : Bool) (g1 : Nat) (x : I) (V : Nat → Nat → K) (l : List J) (hlen : l.length ≤ g1 + 1)
    (hV : ∀ g2 y, l[g2]? = some y → ∀ m a b, ciaoStep ev sym g1 x m (y, g2) a b = if (a = g1 ∧ b = g2) ∨ (a = g2 ∧ b = g1) then V a b else m a b) (m : Nat → Nat → K) (a b : Nat) :
    l.zipIdx.foldl (ciaoStep ev sym g1 x) m a b = if max a b = g1 ∧ min a b < l.length then V a b else m a b := by
  induction l using List.reverseRecOn generalizing a b with
  | nil => simp
  | append_singleton l y ih =>
    rw [List.zipIdx_append, List.foldl_append]
    simp only [List.zipIdx_singleton, zero_add, List.foldl_cons, List.foldl_nil]
    have hl : l.length ≤ g1 := by simpa using hlen
    rw [hV l.length y (by simp)]
    have ih' := ih (by omega) (fun g2 y' h => hV g2 y' (by rw [List.getElem?_append_left (by rw [List.getElem?_eq_some_iff] at h; exact h.1)]; exact h)) a b
    rw [ih']
    by_cases h : (a = g1 ∧ b = l.length) ∨ (a = l.length ∧ b = g1)
    · rw [if_pos h, if_pos (by rw [List.length_append, List.length_singleton]; omega)]
    · rw [if_neg h]
      by_cases h2 : max a b = g1 ∧ min a b < l.length
      · rw [if_pos h2, if_pos (by rw [List.length_append, List.length_singleton]; omega)]
      · rw [if_neg h2, if_neg (by rw [List.length_append, List.length_singleton]; omega)]

omit [LinearOrder K] in
theorem outer_spec (ev : Sum I J → Sum I J → K) (sym : Bool) (V : Nat → Nat → K) (hof2 : List J) (hof1 : List I) (hlen : hof1.length ≤ hof2.length)
    (hV : ∀ g1 g2 x y, g2 ≤ g1 → hof1[g1]? = some x → hof2[g2]? = some y → ∀ m a b, ciaoStep ev sym g1 x m (y, g2) a b = if (a = g1 ∧ b = g2) ∨ (a = g2 ∧ b = g1) then V a b else m a b) (a b : Nat) :
    hof1.zipIdx.foldl (fun m q => (hof2.take (q.2 + 1)).zipIdx.foldl (ciaoStep ev sym q.2 q.1) m) (fun _ _ => 0) a b = if max a b < hof1.length then V a b else 0 := by
  induction hof1 using List.reverseRecOn generalizing a b with
  | nil => simp
  | append_singleton l x ih =>
    have hl : l.length + 1 ≤ hof2.length := by simpa using hlen
    rw [List.zipIdx_append, List.foldl_append]
    simp only [List.zipIdx_singleton, zero_add, List.foldl_cons, List.foldl_nil]
    rw [inner_spec ev sym l.length x V _ (by rw [List.length_take]; omega)]
    · rw [ih (by omega) (fun g1 g2 x' y' h0 h h' => hV g1 g2 x' y' h0 (by rw [List.getElem?_append_left (by rw [List.getElem?_eq_some_iff] at h; exact h.1)]; exact h) h')]
      rw [List.length_take, List.length_append, List.length_singleton]
      by_cases h : max a b < l.length
      · rw [if_neg (by omega), if_pos h, if_pos (by omega)]
      · by_cases h2 : max a b = l.length
        · rw [if_pos (by omega), if_pos (by omega)]
        · rw [if_neg (by omega), if_neg (by omega), if_neg (by omega)]
    · intro g2 y h
      have h1 := List.getElem?_eq_some_iff.1 h
      obtain ⟨h2, h3⟩ := h1
      rw [List.length_take] at h2
      refine hV l.length g2 x y (by omega) (by simp) ?_
      rw [← h, List.getElem?_take_of_lt (by omega)]

theorem foldl_min_spec : ∀ (l : List K) (x : K), (l.foldl min x = x ∨ l.foldl min x ∈ l) ∧ l.foldl min x ≤ x ∧ ∀ y ∈ l, l.foldl min x ≤ y
  | [], x => by simp
  | z :: l, x => by
    obtain ⟨h1, h2, h3⟩ := foldl_min_spec l (min x z)
    rw [List.foldl_cons]
    refine ⟨?_, le_trans h2 (min_le_left _ _), ?_⟩
    · rcases h1 with h | h
      · rcases min_choice x z with e | e
        · left; rw [h, e]
        · right; rw [h, e]; simp
      · right; simp [h]
    · intro y hy
      rcases List.mem_cons.1 hy with e | e
      · rw [e]; exact le_trans h2 (min_le_right _ _)
      · exact h3 y e

theorem foldl_max_spec : ∀ (l : List K) (x : K), (l.foldl max x = x ∨ l.foldl max x ∈ l) ∧ x ≤ l.foldl max x ∧ ∀ y ∈ l, y ≤ l.foldl max x
  | [], x => by simp
  | z :: l, x => by
    obtain ⟨h1, h2, h3⟩ := foldl_max_spec l (max x z)
    rw [List.foldl_cons]
    refine ⟨?_, le_trans (le_max_left _ _) h2, ?_⟩
    · rcases h1 with h | h
      · rcases max_choice x z with e | e
        · left; rw [h, e]
        · right; rw [h, e]; simp
      · right; simp [h]
    · intro y hy
      rcases List.mem_cons.1 hy with e | e
      · rw [e]; exact le_trans (le_max_right _ _) h2
      · exact h3 y e

theorem amin_spec (l : List K) (x : K) (h : amin l = .ok x) : x ∈ l ∧ ∀ y ∈ l, x ≤ y := by
  cases l with
  | nil => cases h
  | cons z l =>
    have e : l.foldl min z = x := Except.ok.inj h
    obtain ⟨h1, h2, h3⟩ := foldl_min_spec l z
    rw [e] at h1 h2 h3
    refine ⟨?_, ?_⟩
    · rcases h1 with h | h <;> simp [h]
    · intro y hy
      rcases List.mem_cons.1 hy with e | e
      · rw [e]; exact h2
      · exact h3 y e

theorem amax_spec (l : List K) (x : K) (h : amax l = .ok x) : x ∈ l ∧ ∀ y ∈ l, y ≤ x := by
  cases l with
  | nil => cases h
  | cons z l =>
    have e : l.foldl max z = x := Except.ok.inj h
    obtain ⟨h1, h2, h3⟩ := foldl_max_spec l z
    rw [e] at h1 h2 h3
    refine ⟨?_, ?_⟩
    · rcases h1 with h | h <;> simp [h]
    · intro y hy
      rcases List.mem_cons.1 hy with e | e
      · rw [e]; exact h2
      · exact h3 y e

theorem amin_ok (l : List K) (h : l ≠ []) : ∃ x, amin l = .ok x := by
  cases l with
  | nil => exact absurd rfl h
  | cons z l => exact ⟨_, rfl⟩

theorem amax_ok (l : List K) (h : l ≠ []) : ∃ x, amax l = .ok x := by
  cases l with
  | nil => exact absurd rfl h
  | cons z l => exact ⟨_, rfl⟩

omit [Field K] [LinearOrder K] in
theorem mem_elements (n : Nat) (m : Nat → Nat → K) (x : K) : x ∈ elements n m ↔ ∃ i < n, ∃ j < n, m i j = x := by
  unfold elements
  simp [List.mem_flatMap]

omit [Field K] [LinearOrder K] in
theorem elements_ne (n : Nat) (h : 0 < n) (m : Nat → Nat → K) : elements n m ≠ [] := by
  intro e
  have := (mem_elements n m (m 0 0)).2 ⟨0, h, 0, h, rfl⟩
  rw [e] at this
  exact absurd this (by simp)

end ciao

section plotter
variable {K : Type} [Field K] [LinearOrder K]

omit [Field K] [LinearOrder K] in
theorem column_spec (f : K → K → K) (i : Nat) (x : K) (ys : List K) (m : Nat → Nat → K) (a b : Nat) :
    ys.zipIdx.foldl (fun m r => set2 m r.2 i (f x r.1)) m a b = match ys[a]? with
      | some y => if b = i then f x y else m a b
      | none => m a b := by
  induction ys using List.reverseRecOn generalizing a b with
  | nil => simp
  | append_singleton l y ih =>
    rw [List.zipIdx_append, List.foldl_append]
    simp only [List.zipIdx_singleton, zero_add, List.foldl_cons, List.foldl_nil]
    unfold set2
    by_cases h : a = l.length ∧ b = i
    · rw [if_pos h, h.1, h.2]; simp
    · rw [if_neg h]
      have := ih a b
      unfold set2 at this
      rw [this]
      by_cases ha : a < l.length
      · rw [List.getElem?_append_left ha]
      · rw [List.getElem?_eq_none (by omega)]
        by_cases ha' : a = l.length
        · subst ha'
          have : b ≠ i := fun e => h ⟨rfl, e⟩
          simp [this]
        · rw [List.getElem?_eq_none (by simp; omega)]

omit [LinearOrder K] in
theorem valMap_spec (f : K → K → K) (xs ys : List K) (i j : Nat) (x y : K) (hx : xs[i]? = some x) (hy : ys[j]? = some y) : valMap f xs ys j i = f x y := by
  unfold valMap
  induction xs using List.reverseRecOn generalizing x with
  | nil => simp at hx
  | append_singleton l z ih =>
    rw [List.zipIdx_append, List.foldl_append]
    simp only [List.zipIdx_singleton, zero_add, List.foldl_cons, List.foldl_nil]
    rw [column_spec, hy]
    simp only
    by_cases h : i = l.length
    · subst h
      rw [if_pos rfl]
      have : z = x := by simpa using hx
      rw [this]
    · rw [if_neg h]
      have hi : i < l.length := by
        have := (List.getElem?_eq_some_iff.1 hx).1
        simp at this
        omega
      exact ih x (by rwa [List.getElem?_append_left hi] at hx)

variable [IsStrictOrderedRing K]

omit [LinearOrder K] [IsStrictOrderedRing K] in
theorem linspace_getElem? (a b : K) (n i : Nat) (h : i < n) : (linspace a b n)[i]? = some (a + (i : K) * ((b - a) / ((n : K) - 1))) := by
  unfold linspace
  simp [List.getElem?_map, List.getElem?_range h]

theorem linspace_bounds (a b : K) (n : Nat) (hn : 2 ≤ n) (hab : a ≤ b) : (∀ x ∈ linspace a b n, a ≤ x ∧ x ≤ b) ∧ a ∈ linspace a b n ∧ b ∈ linspace a b n := by
  have hn1 : (0 : K) < (n : K) - 1 := by
    have : (2 : K) ≤ (n : K) := by exact_mod_cast hn
    linarith
  have hd : 0 ≤ (b - a) / ((n : K) - 1) := div_nonneg (sub_nonneg.2 hab) hn1.le
  have hend : ((n : K) - 1) * ((b - a) / ((n : K) - 1)) = b - a := mul_div_cancel₀ _ hn1.ne'
  refine ⟨?_, ?_, ?_⟩
  · intro x hx
    unfold linspace at hx
    obtain ⟨i, hi, e⟩ := List.mem_map.1 hx
    have hi' : (i : K) ≤ (n : K) - 1 := by
      have : i + 1 ≤ n := List.mem_range.1 hi
      have : ((i + 1 : Nat) : K) ≤ (n : K) := by exact_mod_cast this
      push_cast at this
      linarith
    rw [← e]
    constructor
    · have := mul_nonneg (Nat.cast_nonneg (α := K) i) hd
      linarith
    · have := mul_le_mul_of_nonneg_right hi' hd
      linarith
  · exact List.mem_of_getElem? (i := 0) (by rw [linspace_getElem? a b n 0 (by omega)]; simp)
  · refine List.mem_of_getElem? (i := n - 1) ?_
    rw [linspace_getElem? a b n (n - 1) (by omega), Nat.cast_sub (by omega), Nat.cast_one, hend]
    congr 1
    ring

theorem linspace_amin (a b : K) (n : Nat) (hn : 2 ≤ n) (hab : a ≤ b) : amin (linspace a b n) = .ok a ∧ amax (linspace a b n) = .ok b := by
  obtain ⟨h1, h2, h3⟩ := linspace_bounds a b n hn hab
  have hne : linspace a b n ≠ [] := List.ne_nil_of_mem h2
  obtain ⟨x, hx⟩ := amin_ok _ hne
  obtain ⟨y, hy⟩ := amax_ok _ hne
  obtain ⟨x1, x2⟩ := amin_spec _ _ hx
  obtain ⟨y1, y2⟩ := amax_spec _ _ hy
  rw [hx, hy, le_antisymm (x2 a h2) (h1 x x1).1, le_antisymm (h1 y y1).2 (y2 b h3)]
  exact ⟨rfl, rfl⟩

/-- the state of a plotter with the ranges `[a, b]` and `[c, d]` -/
def Grid (f : K → K → K) (n : Nat) (a b c d : K) (p : Plotter K) : Prop := p = ⟨f, n, linspace a b n, linspace c d n, valMap f (linspace a b n) (linspace c d n)⟩

theorem add_spec (f : K → K → K) (n : Nat) (hn : 2 ≤ n) (a b c d : K) (hab : a ≤ b) (hcd : c ≤ d) (p : Plotter K) (hp : Grid f n a b c d p) (pts : List (K × K)) (hne : pts ≠ []) :
    ∃ x0 x1 y0 y1, amin (pts.map Prod.fst) = .ok x0 ∧ amax (pts.map Prod.fst) = .ok x1 ∧ amin (pts.map Prod.snd) = .ok y0 ∧ amax (pts.map Prod.snd) = .ok y1 ∧
      ∃ q, p.add pts true = .ok q ∧ Grid f n (min (x0 * (11 / 10)) a) (max (x1 * (11 / 10)) b) (min (y0 * (11 / 10)) c) (max (y1 * (11 / 10)) d) q := by
  obtain ⟨x0, h0⟩ := amin_ok (pts.map Prod.fst) (by simpa using hne)
  obtain ⟨x1, h1⟩ := amax_ok (pts.map Prod.fst) (by simpa using hne)
  obtain ⟨y0, h2⟩ := amin_ok (pts.map Prod.snd) (by simpa using hne)
  obtain ⟨y1, h3⟩ := amax_ok (pts.map Prod.snd) (by simpa using hne)
  obtain ⟨e1, e2⟩ := linspace_amin a b n hn hab
  obtain ⟨e3, e4⟩ := linspace_amin c d n hn hcd
  refine ⟨x0, x1, y0, y1, h0, h1, h2, h3, _, ?_, rfl⟩
  unfold Plotter.add Plotter.rescale
  rw [if_pos rfl, h0, h1, h2, h3, hp]
  simp only [e1, e2, e3, e4]
  rfl

/-- the ranges after the calls -/
theorem run_spec (f : K → K → K) (n : Nat) (hn : 2 ≤ n) : ∀ (calls : List (List (K × K) × Bool)) (a b c d : K) (p q : Plotter K), a ≤ b → c ≤ d → Grid f n a b c d p → p.run calls = .ok q →
    ∃ a' b' c' d', a' ≤ a ∧ b ≤ b' ∧ c' ≤ c ∧ d ≤ d' ∧ Grid f n a' b' c' d' q ∧
      (a ≤ 0 → 0 ≤ b → ∀ l ∈ calls, l.2 = true → ∀ pt ∈ l.1, a' ≤ pt.1 ∧ pt.1 ≤ b') ∧ (c ≤ 0 → 0 ≤ d → ∀ l ∈ calls, l.2 = true → ∀ pt ∈ l.1, c' ≤ pt.2 ∧ pt.2 ≤ d')
  | [], a, b, c, d, p, q, _, _, hp, hr => by
    have : p = q := Except.ok.inj hr
    subst this
    exact ⟨a, b, c, d, le_rfl, le_rfl, le_rfl, le_rfl, hp, by simp, by simp⟩
  | l :: ls, a, b, c, d, p, q, hab, hcd, hp, hr => by
    unfold Plotter.run at hr
    obtain ⟨pts, res⟩ := l
    cases res with
    | false =>
      have e : p.add pts false = .ok p := rfl
      simp only [e] at hr
      obtain ⟨a', b', c', d', h1, h2, h3, h4, h5, h6, h7⟩ := run_spec f n hn ls a b c d p q hab hcd hp hr
      refine ⟨a', b', c', d', h1, h2, h3, h4, h5, fun u v l hl hl' => ?_, fun u v l hl hl' => ?_⟩
      · rcases List.mem_cons.1 hl with e | e
        · rw [e] at hl'; exact absurd hl' (by simp)
        · exact h6 u v l e hl'
      · rcases List.mem_cons.1 hl with e | e
        · rw [e] at hl'; exact absurd hl' (by simp)
        · exact h7 u v l e hl'
    | true =>
      by_cases hne : pts = []
      · subst hne
        have e : p.add [] true = .error .valueError := rfl
        simp only [e] at hr
        cases hr
      · obtain ⟨x0, x1, y0, y1, g0, g1, g2, g3, p', e, hp'⟩ := add_spec f n hn a b c d hab hcd p hp pts hne
        simp only [e] at hr
        obtain ⟨a', b', c', d', h1, h2, h3, h4, h5, h6, h7⟩ := run_spec f n hn ls _ _ _ _ p' q (le_trans (min_le_right _ _) (le_trans hab (le_max_right _ _)))
          (le_trans (min_le_right _ _) (le_trans hcd (le_max_right _ _))) hp' hr
        refine ⟨a', b', c', d', le_trans h1 (min_le_right _ _), le_trans (le_max_right _ _) h2, le_trans h3 (min_le_right _ _), le_trans (le_max_right _ _) h4, h5, ?_, ?_⟩
        · intro u v l hl hl' pt hpt
          rcases List.mem_cons.1 hl with e | e
          · subst e
            have k0 := (amin_spec _ _ g0).2 pt.1 (List.mem_map.2 ⟨pt, hpt, rfl⟩)
            have k1 := (amax_spec _ _ g1).2 pt.1 (List.mem_map.2 ⟨pt, hpt, rfl⟩)
            constructor
            · refine le_trans h1 ?_
              rcases le_total x0 0 with hx | hx
              · exact le_trans (min_le_left _ _) (by linarith)
              · exact le_trans (min_le_right _ _) (by linarith)
            · refine le_trans ?_ h2
              rcases le_total x1 0 with hx | hx
              · exact le_trans (by linarith) (le_max_right _ _)
              · exact le_trans (by linarith) (le_max_left _ _)
          · exact h6 (le_trans (min_le_right _ _) u) (le_trans v (le_max_right _ _)) l e hl' pt hpt
        · intro u v l hl hl' pt hpt
          rcases List.mem_cons.1 hl with e | e
          · subst e
            have k0 := (amin_spec _ _ g2).2 pt.2 (List.mem_map.2 ⟨pt, hpt, rfl⟩)
            have k1 := (amax_spec _ _ g3).2 pt.2 (List.mem_map.2 ⟨pt, hpt, rfl⟩)
            constructor
            · refine le_trans h3 ?_
              rcases le_total y0 0 with hx | hx
              · exact le_trans (min_le_left _ _) (by linarith)
              · exact le_trans (min_le_right _ _) (by linarith)
            · refine le_trans ?_ h4
              rcases le_total y1 0 with hx | hx
              · exact le_trans (by linarith) (le_max_right _ _)
              · exact le_trans (by linarith) (le_max_left _ _)
          · exact h7 (le_trans (min_le_right _ _) u) (le_trans v (le_max_right _ _)) l e hl' pt hpt

end plotter

section punchcard
variable {S X K : Type} [Field K] [LinearOrder K]

omit [Field K] in
theorem firstMax_first {A : Type} (f : A → K) : ∀ (l : List A) (b : A), Py.firstMax f l = some b → ∃ l1 l2, l = l1 ++ b :: l2 ∧ ∀ x ∈ l1, f x < f b
  | [], b, h => by simp [Py.firstMax] at h
  | a :: l, b, h => by
    simp only [Py.firstMax] at h
    cases hm : Py.firstMax f l with
    | none =>
      rw [hm] at h
      have : a = b := Option.some.inj h
      subst this
      exact ⟨[], l, rfl, by simp⟩
    | some c =>
      rw [hm] at h
      simp only at h
      split at h
      · rename_i hlt
        have : c = b := Option.some.inj h
        subst this
        obtain ⟨l1, l2, e, h1⟩ := firstMax_first f l c hm
        refine ⟨a :: l1, l2, by rw [e]; rfl, fun x hx => ?_⟩
        rcases List.mem_cons.1 hx with e | e
        · rw [e]; exact hlt
        · exact h1 x e
      · have : a = b := Option.some.inj h
        subst this
        exact ⟨[], l, rfl, by simp⟩

/-- `argmax` is the first position of the largest number -/
theorem argmax_spec (l : List K) (i : Nat) : argmax l = .ok i ↔ i < l.length ∧ (∀ j < l.length, l.getD j 0 ≤ l.getD i 0) ∧ ∀ j < i, l.getD j 0 < l.getD i 0 := by
  have fwd : ∀ i, argmax l = .ok i → i < l.length ∧ (∀ j < l.length, l.getD j 0 ≤ l.getD i 0) ∧ ∀ j < i, l.getD j 0 < l.getD i 0 := by
    intro i h
    unfold argmax at h
    cases hf : Py.firstMax (fun i => l.getD i 0) (List.range l.length) with
    | none => rw [hf] at h; cases h
    | some k =>
      rw [hf] at h
      have : k = i := Except.ok.inj h
      subst this
      obtain ⟨h1, h2⟩ := Py.firstMax_spec _ _ _ hf
      obtain ⟨l1, l2, e, h3⟩ := firstMax_first _ _ _ hf
      refine ⟨List.mem_range.1 h1, fun j hj => h2 j (List.mem_range.2 hj), fun j hj => h3 j ?_⟩
      have hlen : l1.length < l.length := by
        have := congrArg List.length e
        simp at this
        omega
      have hk : l1.length = k := by
        have e1 : (List.range l.length)[l1.length]? = some k := by rw [e]; simp
        rw [List.getElem?_range hlen] at e1
        exact Option.some.inj e1
      have e2 : (List.range l.length)[j]? = some j := List.getElem?_range (by omega)
      rw [e, List.getElem?_append_left (by omega)] at e2
      exact List.mem_of_getElem? e2
  refine ⟨fwd i, fun ⟨h1, h2, h3⟩ => ?_⟩
  cases hf : argmax l with
  | error e =>
    exfalso
    unfold argmax at hf
    obtain ⟨b, hb⟩ := Py.firstMax_isSome (fun i => l.getD i 0) (List.range l.length) (by intro e; have := congrArg List.length e; simp at this; rw [this] at h1; simp at h1)
    rw [hb] at hf
    cases hf
  | ok k =>
    obtain ⟨k1, k2, k3⟩ := fwd k hf
    rcases Nat.lt_trichotomy i k with h | h | h
    · exact absurd (k3 i h) (not_lt.2 (h2 k k1))
    · rw [h]
    · exact absurd (h3 k h) (not_lt.2 (k2 i h1))

end punchcard
end Verif.Landscape

namespace Verif.Spec
open Verif.Landscape

/-- the outputs of a module for a sequence of inputs, one after the other -/
def outputs {S X K : Type} (m : Mod S X K) : S → List X → List (List K)
  | _, [] => []
  | s, x :: xs => (m.activate s x).2 :: outputs m (m.activate s x).1 xs

/-- the point `p` is on the ellipse of the matrix `e`: `e⁻¹ p` has the product 1 with `p` -/
def OnEllipse {K : Type} [Field K] (e : M2 K) (p : K × K) : Prop :=
  ∃ v : K × K, e.a * v.1 + e.b * v.2 = p.1 ∧ e.c * v.1 + e.d * v.2 = p.2 ∧ v.1 * p.1 + v.2 * p.2 = 1

/-- `l` is the target for class `k` in 1-of-k representation with `n` classes -/
def OneHot {K : Type} [Field K] (n k : Nat) (l : List K) : Prop := l.length = n ∧ k < n ∧ ∀ i < n, l.getD i 0 = if i = k then 1 else 0

/-- `i` is the first position of the largest number of `l` -/
def FirstLargest {K : Type} [Field K] [LinearOrder K] (l : List K) (i : Nat) : Prop := i < l.length ∧ (∀ j < l.length, l.getD j 0 ≤ l.getD i 0) ∧ ∀ j < i, l.getD j 0 < l.getD i 0

end Verif.Spec

namespace Verif.Landscape
open Verif.DataSet (Err)
section punchcard
variable {S X K : Type} [Field K] [LinearOrder K]

omit [LinearOrder K] in
theorem sumOutputs_spec (m : Mod S X K) : ∀ (xs : List X) (s : S) (acc : List K), acc.length = m.outdim → (∀ o ∈ Spec.outputs m s xs, o.length = m.outdim) →
    (sumOutputs m s xs acc).2.length = m.outdim ∧ ∀ j < m.outdim, (sumOutputs m s xs acc).2.getD j 0 = acc.getD j 0 + ((Spec.outputs m s xs).map fun o => o.getD j 0).sum
  | [], s, acc, h, _ => by
    refine ⟨h, fun j _ => ?_⟩
    simp [sumOutputs, Spec.outputs]
  | x :: xs, s, acc, h, ho => by
    have hx : (m.activate s x).2.length = m.outdim := ho _ (by simp [Spec.outputs])
    obtain ⟨h1, h2⟩ := sumOutputs_spec m xs (m.activate s x).1 (List.zipWith (· + ·) acc (m.activate s x).2) (by simp [h, hx]) (fun o h' => ho o (by simp [Spec.outputs, h']))
    refine ⟨h1, fun j hj => ?_⟩
    have := h2 j hj
    unfold sumOutputs Spec.outputs
    rw [this, List.map_cons, List.sum_cons, List.getD_eq_getElem _ _ (by simp [h, hx, hj]), List.getElem_zipWith, List.getD_eq_getElem _ _ (by rw [h]; exact hj), List.getD_eq_getElem _ _ (by rw [hx]; exact hj)]
    ring

variable [IsStrictOrderedRing K]

/-- the expected class of targets in 1-of-k representation -/
theorem argmax_oneHot (n k : Nat) (t : List K) (ts : List (List K)) (ht : Spec.OneHot n k t) (hts : ∀ t' ∈ ts, ∀ x ∈ t', x ≤ 1) : argmax (t :: ts).flatten = .ok k := by
  obtain ⟨h1, h2, h3⟩ := ht
  rw [List.flatten_cons, argmax_spec]
  have hget : ∀ i < n, (t ++ ts.flatten).getD i 0 = if i = k then 1 else 0 := fun i hi => by rw [List.getD_append _ _ _ _ (by omega), h3 i hi]
  have hle : ∀ x ∈ t ++ ts.flatten, x ≤ 1 := by
    intro x hx
    rcases List.mem_append.1 hx with h | h
    · obtain ⟨i, hi, e⟩ := List.getElem_of_mem h
      have := h3 i (by omega)
      rw [List.getD_eq_getElem _ _ hi, e] at this
      rw [this]
      split
      · exact le_rfl
      · exact zero_le_one
    · obtain ⟨t', h', hx'⟩ := List.mem_flatten.1 h
      exact hts t' h' x hx'
  refine ⟨by rw [List.length_append]; omega, fun j hj => ?_, fun j hj => ?_⟩
  · rw [hget k h2, if_pos rfl, List.getD_eq_getElem _ _ hj]
    exact hle _ (List.getElem_mem hj)
  · rw [hget k h2, if_pos rfl, hget j (by omega), if_neg (by omega)]
    exact zero_lt_one

end punchcard
end Verif.Landscape

namespace Verif.Landscape
open Verif.DataSet (Err)
section ellipse
variable {K : Type} [Field K]

/-- the points lie on the ellipse of `d s u` -/
theorem covEllipse_on (root : K → K) (circle : Nat → Nat → K × K) (u : M2 K) (s center : K × K) (segments : Nat) (hseg : 0 < segments)
    (hcirc : ∀ i n, (circle i n).1 ^ 2 + (circle i n).2 ^ 2 = 1) (hs1 : root s.1 ^ 2 = s.1) (hs2 : root s.2 ^ 2 = s.2) (hp1 : s.1 ≠ 0) (hp2 : s.2 ≠ 0)
    (ho1 : u.a ^ 2 + u.b ^ 2 = 1) (ho2 : u.c ^ 2 + u.d ^ 2 = 1) (ho3 : u.a * u.c + u.b * u.d = 0) :
    ∃ pts, covEllipse root circle u s ⟨u.a, u.c, u.b, u.d⟩ center segments = .ok pts ∧ pts.length = segments + 1 ∧
      ∀ p ∈ pts, Spec.OnEllipse ⟨s.1 * u.a ^ 2 + s.2 * u.c ^ 2, s.1 * u.a * u.b + s.2 * u.c * u.d, s.1 * u.a * u.b + s.2 * u.c * u.d, s.1 * u.b ^ 2 + s.2 * u.d ^ 2⟩ (p.1 - center.1, p.2 - center.2) := by
  refine ⟨_, by unfold covEllipse; rw [if_neg (by omega)], by simp, ?_⟩
  intro p hp
  obtain ⟨i, hi, e⟩ := List.mem_map.1 hp
  have hc := hcirc i segments
  generalize circle i segments = w at hc e
  obtain ⟨w1, w2⟩ := w
  rw [← e]
  simp only [M2.mul] at hc ⊢
  generalize hr1 : root s.1 = r1 at *
  generalize hr2 : root s.2 = r2 at *
  have r1' : r1 ≠ 0 := by intro h; apply hp1; rw [← hs1, h]; simp
  have r2' : r2 ≠ 0 := by intro h; apply hp2; rw [← hs2, h]; simp
  have hdet : (u.a * u.d - u.b * u.c) ^ 2 = 1 := by linear_combination (u.c ^ 2 + u.d ^ 2) * ho1 + ho2 - (u.a * u.c + u.b * u.d) * ho3
  have hc' : u.c = -(u.a * u.d - u.b * u.c) * u.b := by linear_combination -u.c * ho1 + u.a * ho3
  have hd' : u.d = (u.a * u.d - u.b * u.c) * u.a := by linear_combination -u.d * ho1 + u.b * ho3
  generalize u.a * u.d - u.b * u.c = D at hdet hc' hd'
  have k1 : u.a ^ 2 + u.c ^ 2 = 1 := by rw [hc']; linear_combination ho1 + u.b ^ 2 * hdet
  have k2 : u.b ^ 2 + u.d ^ 2 = 1 := by rw [hd']; linear_combination ho1 + u.a ^ 2 * hdet
  have k3 : u.a * u.b + u.c * u.d = 0 := by rw [hc', hd']; linear_combination -u.a * u.b * hdet
  obtain ⟨t1, ht1⟩ : ∃ t1, u.a * w1 + u.b * w2 = r1 * t1 := ⟨(u.a * w1 + u.b * w2) / r1, by field_simp⟩
  obtain ⟨t2, ht2⟩ : ∃ t2, u.c * w1 + u.d * w2 = r2 * t2 := ⟨(u.c * w1 + u.d * w2) / r2, by field_simp⟩
  refine ⟨(u.a * t1 + u.c * t2, u.b * t1 + u.d * t2), ?_, ?_, ?_⟩
  · simp only
    linear_combination s.1 * u.a * t1 * ho1 + s.1 * u.a * t2 * ho3 + s.2 * u.c * t1 * ho3 + s.2 * u.c * t2 * ho2 - u.a * r1 * ht1 - u.c * r2 * ht2 - u.a * t1 * hs1 - u.c * t2 * hs2
  · simp only
    linear_combination s.1 * u.b * t1 * ho1 + s.1 * u.b * t2 * ho3 + s.2 * u.d * t1 * ho3 + s.2 * u.d * t2 * ho2 - u.b * r1 * ht1 - u.d * r2 * ht2 - u.b * t1 * hs1 - u.d * t2 * hs2
  · have hp : (u.a * t1 + u.c * t2) * (u.a * r1 * (r1 * t1) + u.c * r2 * (r2 * t2)) + (u.b * t1 + u.d * t2) * (u.b * r1 * (r1 * t1) + u.d * r2 * (r2 * t2)) = (r1 * t1) ^ 2 + (r2 * t2) ^ 2 := by
      linear_combination r1 ^ 2 * t1 ^ 2 * ho1 + r2 ^ 2 * t2 ^ 2 * ho2 + (r1 ^ 2 * t1 * t2 + r2 ^ 2 * t1 * t2) * ho3
    rw [← ht1, ← ht2] at hp
    have hq : (u.a * w1 + u.b * w2) ^ 2 + (u.c * w1 + u.d * w2) ^ 2 = 1 := by linear_combination w1 ^ 2 * k1 + w2 ^ 2 * k2 + 2 * w1 * w2 * k3 + hc
    simp only
    linear_combination hp + hq

end ellipse
end Verif.Landscape

namespace Verif.Props
open Verif.Landscape
open Verif.DataSet (Err)

section ciao
variable {I J K : Type} [Field K] [LinearOrder K]

/-- **C192, coevolution, symmetric.** The matrix has, for each generation of the first population and each earlier or the same one of the second, the evaluation of their best individuals, in both places. -/
theorem C192_ciao (ev : Sum I J → Sum I J → K) (hof1 : List I) (hof2 : List J) (hlen : hof1.length = hof2.length) :
    ∃ M, generateData ev hof1 hof2 true = .ok M ∧ ∀ i j x y, hof1[i]? = some x → hof2[j]? = some y → j ≤ i → M i j = ev (.inl x) (.inr y) ∧ M j i = ev (.inl x) (.inr y) := by
  refine ⟨_, by unfold generateData; rw [if_neg (by simp [hlen])], ?_⟩
  intro i j x y hx hy hji
  classical
  let V : Nat → Nat → K := fun a b => match hof1[max a b]?, hof2[min a b]? with
    | some x, some y => ev (.inl x) (.inr y)
    | _, _ => 0
  have h := outer_spec ev true V hof2 hof1 hlen.le (by
    intro g1 g2 x y h h1 h2 m a b
    rw [ciaoStep_apply]
    by_cases hc : (a = g1 ∧ b = g2) ∨ (a = g2 ∧ b = g1)
    · rw [if_pos hc, if_pos hc, if_pos rfl]
      have e1 : max a b = g1 := by omega
      have e2 : min a b = g2 := by omega
      simp only [V, e1, e2, h1, h2]
    · rw [if_neg hc, if_neg hc])
  have hi : i < hof1.length := (List.getElem?_eq_some_iff.1 hx).1
  constructor
  · rw [h i j, if_pos (by omega)]
    simp only [V, Nat.max_eq_left hji, Nat.min_eq_right hji, hx, hy]
  · rw [h j i, if_pos (by omega)]
    simp only [V, Nat.max_eq_right hji, Nat.min_eq_left hji, hx, hy]

/-- **C192, coevolution, not symmetric.** Below the diagonal are the evaluations of individuals of the first population against earlier ones of the second, above it those of the *same pairs* in opposite order. The diagonal has the sums of
both. -/
theorem C192_ciao_roles (ev : Sum I J → Sum I J → K) (hof1 : List I) (hof2 : List J) (hlen : hof1.length = hof2.length) :
    ∃ M, generateData ev hof1 hof2 false = .ok M ∧ ∀ i j x y, hof1[i]? = some x → hof2[j]? = some y →
      (j < i → M i j = ev (.inl x) (.inr y) ∧ M j i = ev (.inr y) (.inl x)) ∧ (j = i → M i i = ev (.inl x) (.inr y) + ev (.inr y) (.inl x)) := by
  refine ⟨_, by unfold generateData; rw [if_neg (by simp [hlen])], ?_⟩
  intro i j x y hx hy
  let V : Nat → Nat → K := fun a b => match hof1[max a b]?, hof2[min a b]? with
    | some x, some y => if a = b then ev (.inl x) (.inr y) + ev (.inr y) (.inl x) else if b < a then ev (.inl x) (.inr y) else ev (.inr y) (.inl x)
    | _, _ => 0
  have h := outer_spec ev false V hof2 hof1 hlen.le (by
    intro g1 g2 x y h h1 h2 m a b
    rw [ciaoStep_apply]
    by_cases hc : (a = g1 ∧ b = g2) ∨ (a = g2 ∧ b = g1)
    · rw [if_pos hc, if_pos hc, if_neg (by simp)]
      have e1 : max a b = g1 := by omega
      have e2 : min a b = g2 := by omega
      simp only [V, e1, e2, h1, h2]
      by_cases e : g1 = g2
      · rw [if_pos e, if_pos (by omega)]
      · rw [if_neg e, if_neg (show ¬ a = b by omega)]
        by_cases e' : a = g1
        · rw [if_pos e', if_pos (show b < a by omega)]
        · rw [if_neg e', if_neg (show ¬ b < a by omega)]
    · rw [if_neg hc, if_neg hc])
  have hi : i < hof1.length := (List.getElem?_eq_some_iff.1 hx).1
  refine ⟨fun hji => ⟨?_, ?_⟩, fun hji => ?_⟩
  · rw [h i j, if_pos (by omega)]
    simp only [V, Nat.max_eq_left hji.le, Nat.min_eq_right hji.le, hx, hy]
    rw [if_neg (by omega), if_pos hji]
  · rw [h j i, if_pos (by omega)]
    simp only [V, Nat.max_eq_right hji.le, Nat.min_eq_left hji.le, hx, hy]
    rw [if_neg (by omega), if_neg (by omega)]
  · subst hji
    rw [h j j, if_pos (by omega)]
    simp only [V, Nat.max_self, Nat.min_self, hx, hy, if_true]

/-- an evaluator for examples -/
def ciaoEval : Sum ℚ ℚ → Sum ℚ ℚ → ℚ
  | .inl x, .inr y => x - y
  | .inr x, .inl y => x * y
  | _, _ => 0

example : ((generateData ciaoEval [1, 4, 9] [2, 3, 5] true).toOption.map fun M => elements 3 M) = some [-1, 2, 7, 2, 1, 6, 7, 6, 4] := by decide +kernel
example : ((generateData ciaoEval [1, 4, 9] [2, 3, 5] false).toOption.map fun M => elements 3 M) = some [1, 8, 18, 2, 13, 27, 7, 6, 49] := by decide +kernel

/-- **C192, all pairs.** If exchanging the generations of two individuals does not change the evaluation, the matrix has in each row and column the evaluation of these generations. -/
theorem C192_ciao_partial (ev : Sum I J → Sum I J → K) (hof1 : List I) (hof2 : List J) (hlen : hof1.length = hof2.length)
    (hs : ∀ (i j : Nat) x y x' y', hof1[i]? = some x → hof2[j]? = some y → hof1[j]? = some x' → hof2[i]? = some y' → ev (.inl x) (.inr y) = ev (.inl x') (.inr y')) :
    ∃ M, generateData ev hof1 hof2 true = .ok M ∧ ∀ i j x y, hof1[i]? = some x → hof2[j]? = some y → M i j = ev (.inl x) (.inr y) := by
  obtain ⟨M, h1, h2⟩ := C192_ciao ev hof1 hof2 hlen
  refine ⟨M, h1, fun i j x y hx hy => ?_⟩
  rcases Nat.le_total j i with h | h
  · exact (h2 i j x y hx hy h).1
  · have hi : i < hof2.length := by rw [← hlen]; exact (List.getElem?_eq_some_iff.1 hx).1
    have hj : j < hof1.length := by rw [hlen]; exact (List.getElem?_eq_some_iff.1 hy).1
    have e1 : hof1[j]? = some hof1[j] := List.getElem?_eq_getElem hj
    have e2 : hof2[i]? = some hof2[i] := List.getElem?_eq_getElem hi
    rw [(h2 j i _ _ e1 e2 h).2, hs i j x y _ _ hx hy e1 e2]

example : ∃ M, generateData (fun a b => match a, b with
    | .inl x, .inr y => x * y
    | _, _ => (0 : ℚ)) [1, 2, 4] [1, 2, 4] true = .ok M ∧ M 0 2 = 4 := by
  obtain ⟨M, h, h'⟩ := C192_ciao_partial (fun (a b : Sum ℚ ℚ) => match a, b with
    | .inl x, .inr y => x * y
    | _, _ => (0 : ℚ)) [1, 2, 4] [1, 2, 4] rfl (by
      intro i j x y x' y' h1 h2 h3 h4
      have e1 : x = y' := Option.some.inj (h1.symm.trans h4)
      have e2 : y = x' := Option.some.inj (h2.symm.trans h3)
      simp only [e1, e2]
      ring)
  exact ⟨M, h, by rw [h' 0 2 1 4 rfl rfl]; norm_num⟩

/-- **C192 fails for coevolution in general:** individuals of the first population are never evaluated against *later* ones of the second. The plots, symmetric or not, are the same for all evaluators that agree on the other pairs. -/
theorem C192_negation_ciao (ev ev' : Sum I J → Sum I J → K) (hof1 : List I) (hof2 : List J) (sym : Bool)
    (h : ∀ (i j : Nat) x y, hof1[i]? = some x → hof2[j]? = some y → j ≤ i → ev (.inl x) (.inr y) = ev' (.inl x) (.inr y) ∧ ev (.inr y) (.inl x) = ev' (.inr y) (.inl x)) :
    generateData ev hof1 hof2 sym = generateData ev' hof1 hof2 sym := by
  unfold generateData
  split
  · rfl
  · rename_i hlen
    congr 1
    funext a b
    let V : Nat → Nat → K := fun a b => match hof1[max a b]?, hof2[min a b]? with
      | some x, some y => if sym then ev (.inl x) (.inr y) else if a = b then ev (.inl x) (.inr y) + ev (.inr y) (.inl x) else if b < a then ev (.inl x) (.inr y) else ev (.inr y) (.inl x)
      | _, _ => 0
    have key : ∀ e : Sum I J → Sum I J → K, (∀ (i j : Nat) x y, hof1[i]? = some x → hof2[j]? = some y → j ≤ i → e (.inl x) (.inr y) = ev (.inl x) (.inr y) ∧ e (.inr y) (.inl x) = ev (.inr y) (.inl x)) →
        hof1.zipIdx.foldl (fun m q => (hof2.take (q.2 + 1)).zipIdx.foldl (ciaoStep e sym q.2 q.1) m) (fun _ _ => 0) a b = if max a b < hof1.length then V a b else 0 := by
      intro e he
      refine outer_spec e sym V hof2 hof1 (by omega) ?_ a b
      intro g1 g2 x y h h1 h2 m a b
      obtain ⟨k1, k2⟩ := he g1 g2 x y h1 h2 h
      rw [ciaoStep_apply, k1, k2]
      by_cases hc : (a = g1 ∧ b = g2) ∨ (a = g2 ∧ b = g1)
      · rw [if_pos hc, if_pos hc]
        have e1 : max a b = g1 := by omega
        have e2 : min a b = g2 := by omega
        simp only [V, e1, e2, h1, h2]
        cases sym with
        | true => rfl
        | false =>
          simp only [Bool.false_eq_true, if_false]
          by_cases e : g1 = g2
          · rw [if_pos e, if_pos (by omega)]
          · rw [if_neg e, if_neg (show ¬ a = b by omega)]
            by_cases e' : a = g1
            · rw [if_pos e', if_pos (show b < a by omega)]
            · rw [if_neg e', if_neg (show ¬ b < a by omega)]
      · rw [if_neg hc, if_neg hc]
    rw [key ev (fun _ _ _ _ _ _ _ => ⟨rfl, rfl⟩), key ev' (fun i j x y hx hy hji => ⟨(h i j x y hx hy hji).1.symm, (h i j x y hx hy hji).2.symm⟩)]

variable [IsStrictOrderedRing K]

/-- **C192, colours of coevolution.** The values drawn are the evaluations brought to the interval from 0 to 1, where the *largest* evaluation is drawn as 0 and the smallest one as 1. -/
theorem C192_colors (n : Nat) (hn : 0 < n) (m : Nat → Nat → K) (hne : ∃ i < n, ∃ j < n, m i j ≠ m 0 0) :
    ∃ r lo hi, relData n m = .ok (some r) ∧ lo < hi ∧ (∃ i < n, ∃ j < n, m i j = lo) ∧ (∃ i < n, ∃ j < n, m i j = hi) ∧
      (∀ i < n, ∀ j < n, lo ≤ m i j ∧ m i j ≤ hi) ∧ (∀ i j, r i j = (hi - m i j) / (hi - lo)) ∧ ∀ i < n, ∀ j < n, 0 ≤ r i j ∧ r i j ≤ 1 := by
  obtain ⟨lo, hlo⟩ := amin_ok _ (elements_ne n hn m)
  obtain ⟨hi, hhi⟩ := amax_ok _ (elements_ne n hn m)
  obtain ⟨l1, l2⟩ := amin_spec _ _ hlo
  obtain ⟨u1, u2⟩ := amax_spec _ _ hhi
  have hb : ∀ i < n, ∀ j < n, lo ≤ m i j ∧ m i j ≤ hi := fun i h1 j h2 =>
    ⟨l2 _ ((mem_elements n m _).2 ⟨i, h1, j, h2, rfl⟩), u2 _ ((mem_elements n m _).2 ⟨i, h1, j, h2, rfl⟩)⟩
  have hlt : lo < hi := by
    obtain ⟨i, h1, j, h2, h3⟩ := hne
    rcases lt_or_gt_of_ne h3 with h | h
    · exact lt_of_le_of_lt (hb i h1 j h2).1 (lt_of_lt_of_le h (hb 0 hn 0 hn).2)
    · exact lt_of_le_of_lt (hb 0 hn 0 hn).1 (lt_of_lt_of_le h (hb i h1 j h2).2)
  have hneg : 1 / (lo - hi) < 0 := one_div_neg.2 (sub_neg.2 hlt)
  have hd : lo - hi ≠ 0 := (sub_neg.2 hlt).ne
  obtain ⟨lo1, hlo1⟩ := amin_ok _ (elements_ne n hn fun i j => m i j * (1 / (lo - hi)))
  obtain ⟨w1, w2⟩ := amin_spec _ _ hlo1
  have e1 : lo1 = hi * (1 / (lo - hi)) := by
    apply le_antisymm
    · obtain ⟨i, h1, j, h2, h3⟩ := (mem_elements n m hi).1 u1
      exact w2 _ ((mem_elements n _ _).2 ⟨i, h1, j, h2, by rw [h3]⟩)
    · obtain ⟨i, h1, j, h2, h3⟩ := (mem_elements n _ lo1).1 w1
      rw [← h3]
      exact mul_le_mul_of_nonpos_right (hb i h1 j h2).2 hneg.le
  have hr : ∀ i j, m i j * (1 / (lo - hi)) - lo1 = (hi - m i j) / (hi - lo) := by
    intro i j
    rw [e1]
    have : hi - lo ≠ 0 := (sub_pos.2 hlt).ne'
    field_simp
    ring
  have hp : 0 < hi - lo := sub_pos.2 hlt
  refine ⟨fun i j => m i j * (1 / (lo - hi)) - lo1, lo, hi, ?_, hlt, (mem_elements n m _).1 l1, (mem_elements n m _).1 u1, hb, hr, ?_⟩
  · unfold relData
    simp only [hlo, hhi, bind, Except.bind, if_neg hd, hlo1, pure, Except.pure]
  · intro i h1 j h2
    show 0 ≤ m i j * (1 / (lo - hi)) - lo1 ∧ m i j * (1 / (lo - hi)) - lo1 ≤ 1
    rw [hr]
    obtain ⟨b1, b2⟩ := hb i h1 j h2
    exact ⟨div_nonneg (sub_nonneg.2 b2) hp.le, (div_le_one hp).2 (by linarith)⟩

example : ((relData 2 fun i j => ((i : ℚ) - 2 * j)).toOption.map fun r => r.map fun r => elements 2 r) = some (some [1 / 3, 1, 0, 2 / 3]) := by decide +kernel

/-- **C192 fails for equal evaluations:** if all are the same, for instance with a single generation, no numbers are drawn (division by zero). -/
theorem C192_negation_colors (n : Nat) (hn : 0 < n) (m : Nat → Nat → K) (h : ∀ i < n, ∀ j < n, m i j = m 0 0) : relData n m = .ok none := by
  obtain ⟨lo, hlo⟩ := amin_ok _ (elements_ne n hn m)
  obtain ⟨hi, hhi⟩ := amax_ok _ (elements_ne n hn m)
  obtain ⟨i, h1, j, h2, h3⟩ := (mem_elements n m lo).1 (amin_spec _ _ hlo).1
  obtain ⟨i', h1', j', h2', h3'⟩ := (mem_elements n m hi).1 (amax_spec _ _ hhi).1
  have e : lo - hi = 0 := by rw [← h3, ← h3', h i h1 j h2, h i' h1' j' h2', sub_self]
  unfold relData
  simp only [hlo, hhi, bind, Except.bind, if_pos e, pure, Except.pure]

end ciao

section ellipse
variable {K : Type} [Field K]

/-- **C192, ellipses.** If the matrix `u` of the singular value decomposition is symmetric, the points drawn are on the ellipse of the covariance matrix. -/
theorem C192_ellipse_partial (root : K → K) (circle : Nat → Nat → K × K) (u : M2 K) (s center : K × K) (segments : Nat) (hseg : 0 < segments)
    (hcirc : ∀ i n, (circle i n).1 ^ 2 + (circle i n).2 ^ 2 = 1) (hs1 : root s.1 ^ 2 = s.1) (hs2 : root s.2 ^ 2 = s.2) (hp1 : s.1 ≠ 0) (hp2 : s.2 ≠ 0)
    (ho1 : u.a ^ 2 + u.b ^ 2 = 1) (ho2 : u.c ^ 2 + u.d ^ 2 = 1) (ho3 : u.a * u.c + u.b * u.d = 0) (d emat : M2 K) (hd : d = ⟨u.a, u.c, u.b, u.d⟩)
    (he : emat = u.mul ((⟨s.1, 0, 0, s.2⟩ : M2 K).mul d)) (hsym : u.b = u.c) :
    ∃ pts, covEllipse root circle u s d center segments = .ok pts ∧ pts.length = segments + 1 ∧ ∀ p ∈ pts, Spec.OnEllipse emat (p.1 - center.1, p.2 - center.2) := by
  obtain ⟨pts, h1, h2, h3⟩ := covEllipse_on root circle u s center segments hseg hcirc hs1 hs2 hp1 hp2 ho1 ho2 ho3
  subst hd
  refine ⟨pts, h1, h2, fun p hp => ?_⟩
  have := h3 p hp
  rw [he]
  convert this using 2 <;> simp only [M2.mul, hsym] <;> ring

/-- **C192 fails for ellipses in general:** if `u` is a rotation, the points are on the *mirrored* ellipse, with the opposite correlation. For the covariance matrix with the entries 52/25, 36/25, 36/25, 73/25, the first point drawn is not on its
ellipse. -/
theorem C192_negation_ellipse : (∀ (root : K → K) (circle : Nat → Nat → K × K) (c t : K) (s center : K × K) (segments : Nat), 0 < segments → (∀ i n, (circle i n).1 ^ 2 + (circle i n).2 ^ 2 = 1) →
      root s.1 ^ 2 = s.1 → root s.2 ^ 2 = s.2 → s.1 ≠ 0 → s.2 ≠ 0 → c ^ 2 + t ^ 2 = 1 → ∀ emat : M2 K, emat = (⟨c, -t, t, c⟩ : M2 K).mul ((⟨s.1, 0, 0, s.2⟩ : M2 K).mul ⟨c, t, -t, c⟩) →
      ∃ pts, covEllipse root circle ⟨c, -t, t, c⟩ s ⟨c, t, -t, c⟩ center segments = .ok pts ∧ ∀ p ∈ pts, Spec.OnEllipse ⟨emat.a, -emat.b, -emat.c, emat.d⟩ (p.1 - center.1, p.2 - center.2)) ∧
    ∃ pts p, covEllipse (fun x : ℚ => if x = 4 then 2 else x) (fun _ _ => (1, 0)) ⟨3 / 5, -4 / 5, 4 / 5, 3 / 5⟩ (4, 1) ⟨3 / 5, 4 / 5, -4 / 5, 3 / 5⟩ (0, 0) 50 = .ok (p :: pts) ∧
      ¬ Spec.OnEllipse ((⟨3 / 5, -4 / 5, 4 / 5, 3 / 5⟩ : M2 ℚ).mul ((⟨4, 0, 0, 1⟩ : M2 ℚ).mul ⟨3 / 5, 4 / 5, -4 / 5, 3 / 5⟩)) p := by
  constructor
  · intro root circle c t s center segments hseg hcirc hs1 hs2 hp1 hp2 hct emat he
    obtain ⟨pts, h1, -, h3⟩ := covEllipse_on root circle ⟨c, -t, t, c⟩ s center segments hseg hcirc hs1 hs2 hp1 hp2 (by linear_combination hct) (by linear_combination hct) (by ring)
    refine ⟨pts, h1, fun p hp => ?_⟩
    have := h3 p hp
    rw [he]
    convert this using 2 <;> simp only [M2.mul] <;> ring
  · unfold covEllipse
    rw [if_neg (by omega)]
    refine ⟨_, _, rfl, ?_⟩
    rintro ⟨v, h1, h2, h3⟩
    simp only [M2.mul] at h1 h2 h3
    norm_num at h1 h2 h3
    have e1 : v.1 = 0 := by linarith
    have e2 : v.2 = 0 := by linarith
    rw [e1, e2] at h3
    norm_num at h3

/-- **C192, ellipses are closed.** The last point drawn is the first one, if the circle is closed. -/
theorem C192_closed (root : K → K) (circle : Nat → Nat → K × K) (u d : M2 K) (s center : K × K) (segments : Nat) (hc : circle segments segments = circle 0 segments) (pts : List (K × K))
    (h : covEllipse root circle u s d center segments = .ok pts) : pts.length = segments + 1 ∧ pts.head? = pts.getLast? := by
  unfold covEllipse at h
  split at h
  · cases h
  · have := Except.ok.inj h
    rw [← this]
    refine ⟨by simp, ?_⟩
    rw [List.head?_map, List.getLast?_map, List.head?_range, List.getLast?_range]
    simp [hc]

end ellipse

section plotter
variable {K : Type} [Field K] [LinearOrder K] [IsStrictOrderedRing K]

/-- **C192, landscapes.** After any sequence of calls that add samples and ellipses the plotter has a grid of evenly spaced points that contains the ranges given at first, and the values of the function at all of its points: the value in row `j` and column `i`
is that at the `i`-th x and the `j`-th y. -/
theorem C192_landscape (f : K → K → K) (xmin xmax ymin ymax : K) (n : Nat) (hn : 2 ≤ n) (hx : xmin ≤ xmax) (hy : ymin ≤ ymax) (calls : List (List (K × K) × Bool)) (q : Plotter K)
    (h : (Plotter.new f xmin xmax ymin ymax n).run calls = .ok q) :
    ∃ a b c d, a ≤ xmin ∧ xmax ≤ b ∧ c ≤ ymin ∧ ymax ≤ d ∧ q.xs.length = n ∧ q.ys.length = n ∧
      (∀ i < n, q.xs.getD i 0 = a + (i : K) * (b - a) / ((n : K) - 1) ∧ q.ys.getD i 0 = c + (i : K) * (d - c) / ((n : K) - 1)) ∧
      ∀ i < n, ∀ j < n, q.zs j i = f (q.xs.getD i 0) (q.ys.getD j 0) := by
  obtain ⟨a, b, c, d, h1, h2, h3, h4, h5, -, -⟩ := run_spec f n hn calls xmin xmax ymin ymax _ q hx hy rfl h
  have ex : ∀ (a b : K) (i : Nat), i < n → (linspace a b n)[i]? = some ((linspace a b n).getD i 0) := by
    intro a b i hi
    rw [List.getD_eq_getElem?_getD, linspace_getElem? a b n i hi]; rfl
  have eg : ∀ (a b : K) (i : Nat), i < n → (linspace a b n).getD i 0 = a + (i : K) * (b - a) / ((n : K) - 1) := by
    intro a b i hi
    rw [List.getD_eq_getElem?_getD, linspace_getElem? a b n i hi, Option.getD_some, mul_div_assoc]
  refine ⟨a, b, c, d, h1, h2, h3, h4, ?_, ?_, ?_, ?_⟩
  · rw [h5]; simp [linspace]
  · rw [h5]; simp [linspace]
  · intro i hi
    rw [h5]
    exact ⟨eg a b i hi, eg c d i hi⟩
  · intro i hi j hj
    rw [h5]
    exact valMap_spec f _ _ i j _ _ (ex a b i hi) (ex c d j hj)

/-- **C192, accepted calls.** Calls fail only if ranges are to be adjusted to an empty list of samples. -/
theorem C192_accepted (f : K → K → K) (xmin xmax ymin ymax : K) (n : Nat) (hn : 2 ≤ n) (hx : xmin ≤ xmax) (hy : ymin ≤ ymax) (calls : List (List (K × K) × Bool)) :
    (∃ q, (Plotter.new f xmin xmax ymin ymax n).run calls = .ok q) ↔ ∀ l ∈ calls, l.2 = true → l.1 ≠ [] := by
  have key : ∀ (calls : List (List (K × K) × Bool)) (a b c d : K) (p : Plotter K), a ≤ b → c ≤ d → Grid f n a b c d p → ((∃ q, p.run calls = .ok q) ↔ ∀ l ∈ calls, l.2 = true → l.1 ≠ []) := by
    intro calls
    induction calls with
    | nil => intro a b c d p _ _ _; simp [Plotter.run]
    | cons l ls ih =>
      intro a b c d p hab hcd hp
      obtain ⟨pts, res⟩ := l
      unfold Plotter.run
      cases res with
      | false =>
        have e : p.add pts false = .ok p := rfl
        simp only [e]
        rw [ih a b c d p hab hcd hp]
        simp
      | true =>
        by_cases hne : pts = []
        · subst hne
          have e : p.add [] true = .error .valueError := rfl
          simp only [e]
          simp
        · obtain ⟨x0, x1, y0, y1, -, -, -, -, p', e, hp'⟩ := add_spec f n hn a b c d hab hcd p hp pts hne
          simp only [e]
          rw [ih _ _ _ _ p' (le_trans (min_le_right _ _) (le_trans hab (le_max_right _ _))) (le_trans (min_le_right _ _) (le_trans hcd (le_max_right _ _))) hp']
          simp [hne]
  exact key calls xmin xmax ymin ymax _ hx hy rfl

/-- **C192, samples are inside.** If the ranges given at first contain 0 (as the default does), all samples and points of ellipses for which ranges were adjusted are inside of the grid, whatever is added later. -/
theorem C192_samples_partial (f : K → K → K) (xmin xmax ymin ymax : K) (n : Nat) (hn : 2 ≤ n) (hx0 : xmin ≤ 0) (hx1 : 0 ≤ xmax) (hy0 : ymin ≤ 0) (hy1 : 0 ≤ ymax) (calls : List (List (K × K) × Bool)) (q : Plotter K)
    (h : (Plotter.new f xmin xmax ymin ymax n).run calls = .ok q) :
    ∀ l ∈ calls, l.2 = true → ∀ pt ∈ l.1, (∃ x ∈ q.xs, ∃ x' ∈ q.xs, x ≤ pt.1 ∧ pt.1 ≤ x') ∧ ∃ y ∈ q.ys, ∃ y' ∈ q.ys, y ≤ pt.2 ∧ pt.2 ≤ y' := by
  have hx := le_trans hx0 hx1
  have hy := le_trans hy0 hy1
  obtain ⟨a, b, c, d, h1, h2, h3, h4, h5, h6, h7⟩ := run_spec f n hn calls xmin xmax ymin ymax _ q hx hy rfl h
  intro l hl hl' pt hpt
  obtain ⟨-, g1, g2⟩ := linspace_bounds a b n hn (le_trans h1 (le_trans hx h2))
  obtain ⟨-, g3, g4⟩ := linspace_bounds c d n hn (le_trans h3 (le_trans hy h4))
  obtain ⟨k1, k2⟩ := h6 hx0 hx1 l hl hl' pt hpt
  obtain ⟨k3, k4⟩ := h7 hy0 hy1 l hl hl' pt hpt
  rw [h5]
  exact ⟨⟨a, g1, b, g2, k1, k2⟩, ⟨c, g3, d, g4, k3, k4⟩⟩

/-- **C192 fails for samples in general:** the smallest x is multiplied by 1.1, which moves it *inwards* if it is positive. In a plot of the range from 10 to 20, a sample at 5 extends the grid to 11/2 only, and is outside. -/
theorem C192_negation_samples : ((Plotter.new (fun x y : ℚ => x + y) 10 20 10 20 3).run [([(5, 15)], true)]).toOption.map (fun q => (q.xs, q.ys)) = some ([11 / 2, 51 / 4, 20], [10, 15, 20]) := by decide +kernel

example : ((Plotter.new (fun x y : ℚ => x - y) (-1) 1 (-1) 1 3).run [([(5, 1 / 2), (-3, 0)], true), ([(100, 100)], false), ([(0, 10)], true)]).toOption.map (fun q => (q.xs, q.ys, (List.range 3).map (q.zs 0))) =
    some ([-33 / 10, 11 / 10, 11 / 2], [-1, 5, 11], [-23 / 10, 21 / 10, 13 / 2]) := by decide +kernel

end plotter

section punchcard
variable {S X K : Type} [Field K] [LinearOrder K] [IsStrictOrderedRing K]

/-- **C192, punch cards.** For sequences with targets in 1-of-k representation, in the plot of a module that forgets by `reset()`, the classes expected are those of the sequences, the sizes of dots are the averages of the outputs for the
inputs of the sequence alone, the classes estimated are the first with the largest average, and the title has the percentage of sequences where both agree. -/
theorem C192_punchcard (m : Mod S X K) (s0 : S) (hreset : ∀ s, m.reset s = s0) (hdim : 0 < m.outdim) (hout : ∀ xs, ∀ o ∈ Spec.outputs m s0 xs, o.length = m.outdim) (s : S) (nClasses : Nat)
    (seqs : List (List X × List (List K))) (cls : List Nat) (hne : seqs ≠ []) (hcls : List.Forall₂ (fun q k => q.2 ≠ [] ∧ ∀ t ∈ q.2, Spec.OneHot nClasses k t) seqs cls) :
    ∃ card pct, punchcard m s seqs = .ok (card, pct) ∧ card.expected = cls ∧
      List.Forall₂ (fun q conf => conf.length = m.outdim ∧ ∀ j < m.outdim, conf.getD j 0 = ((Spec.outputs m s0 q.1).map fun o => o.getD j 0).sum / (q.1.length : K)) seqs card.confidence ∧
      List.Forall₂ Spec.FirstLargest card.confidence card.actual ∧
      pct = 100 * (((card.actual.zip cls).filter fun p => p.1 = p.2).length : ℚ) / (seqs.length : ℚ) := by
  have key : ∀ (seqs : List (List X × List (List K))) (cls : List Nat) (s : S) (c : Card K), List.Forall₂ (fun q k => q.2 ≠ [] ∧ ∀ t ∈ q.2, Spec.OneHot nClasses k t) seqs cls →
      ∃ (as : List Nat) (confs : List (List K)), cardLoop m s seqs c = .ok ⟨c.actual ++ as, c.expected ++ cls, c.confidence ++ confs, c.correct + ((as.zip cls).filter fun p => p.1 = p.2).length⟩ ∧
      List.Forall₂ (fun q conf => conf.length = m.outdim ∧ ∀ j < m.outdim, conf.getD j 0 = ((Spec.outputs m s0 q.1).map fun o => o.getD j 0).sum / (q.1.length : K)) seqs confs ∧ List.Forall₂ Spec.FirstLargest confs as := by
    intro seqs
    induction seqs with
    | nil =>
      intro cls s c hc
      cases hc
      exact ⟨[], [], by simp [cardLoop], .nil, .nil⟩
    | cons q qs ih =>
      intro cls s c hc
      cases hc with
      | @cons _ k _ ks hq hqs =>
        obtain ⟨g1, g2⟩ := sumOutputs_spec m q.1 (m.reset s) (List.replicate m.outdim 0) (by simp) (by rw [hreset]; exact hout q.1)
        rw [hreset] at g1 g2
        have hmlen : (outputMean m s q.1).2.length = m.outdim := by
          unfold outputMean
          rw [hreset]
          simp [g1]
        have hmean : ∀ j < m.outdim, (outputMean m s q.1).2.getD j 0 = ((Spec.outputs m s0 q.1).map fun o => o.getD j 0).sum / (q.1.length : K) := by
          intro j hj
          have := g2 j hj
          rw [List.getD_eq_getElem _ _ (by rw [hmlen]; exact hj)]
          unfold outputMean
          simp only [hreset, List.getElem_map]
          rw [List.getD_eq_getElem _ _ (by rw [g1]; exact hj)] at this
          rw [this, List.getD_eq_getElem _ _ (by simpa using hj)]
          simp
        obtain ⟨a, ha⟩ : ∃ a, argmax (outputMean m s q.1).2 = .ok a := by
          unfold argmax
          obtain ⟨b, hb⟩ := Py.firstMax_isSome (fun i => (outputMean m s q.1).2.getD i 0) (List.range (outputMean m s q.1).2.length) (by
            intro e; have := congrArg List.length e; rw [hmlen] at this; simp at this; omega)
          rw [hb]
          exact ⟨b, rfl⟩
        have hexp : argmax q.2.flatten = .ok k := by
          obtain ⟨h1, h2⟩ := hq
          cases hq2 : q.2 with
          | nil => exact absurd hq2 h1
          | cons t ts =>
            rw [hq2] at h2
            refine argmax_oneHot nClasses k t ts (h2 t (by simp)) ?_
            intro t' ht' x hx
            obtain ⟨l1, l2, l3⟩ := h2 t' (by simp [ht'])
            obtain ⟨i, hi, e⟩ := List.getElem_of_mem hx
            have := l3 i (by omega)
            rw [List.getD_eq_getElem _ _ hi, e] at this
            rw [this]
            split
            · exact le_rfl
            · exact zero_le_one
        obtain ⟨as, confs, i1, i2, i3⟩ := ih ks (outputMean m s q.1).1 ⟨c.actual ++ [a], c.expected ++ [k], c.confidence ++ [(outputMean m s q.1).2], if a = k then c.correct + 1 else c.correct⟩ hqs
        refine ⟨a :: as, (outputMean m s q.1).2 :: confs, ?_, .cons ⟨hmlen, hmean⟩ i2, .cons ((argmax_spec _ _).1 ha) i3⟩
        unfold cardLoop
        simp only [ha, hexp]
        rw [i1]
        simp only [List.append_assoc, List.cons_append, List.nil_append, List.zip_cons_cons, List.filter_cons]
        by_cases h : a = k
        · simp [h]; omega
        · simp [h]
  obtain ⟨as, confs, h1, h2, h3⟩ := key seqs cls s ⟨[], [], [], 0⟩ hcls
  refine ⟨⟨as, cls, confs, ((as.zip cls).filter fun p => p.1 = p.2).length⟩, _, ?_, rfl, h2, h3, rfl⟩
  unfold punchcard
  rw [h1]
  simp only [List.nil_append, zero_add]
  rw [if_neg (by simpa using hne)]
  push_cast
  rw [mul_comm]

/-- a module for examples: it adds up the inputs, and has two outputs -/
def cardModule : Mod ℚ ℚ ℚ := ⟨fun _ => 0, fun s x => (s + x, [s + x, 2]), 2⟩

example : (punchcard cardModule 7 [([1, 2], [[0, 1], [0, 1]]), ([5], [[1, 0]]), ([1], [[1, 0]])]).toOption.map (fun r => (r.1.actual, r.1.expected, r.1.confidence, r.2)) =
    some ([0, 0, 1], [1, 0, 0], [[2, 2], [5, 2], [1, 2]], 100 / 3) := by decide +kernel

example : (∀ s, cardModule.reset s = 0) ∧ (∀ xs, ∀ o ∈ Spec.outputs cardModule 0 xs, o.length = cardModule.outdim) := by
  refine ⟨fun _ => rfl, ?_⟩
  have : ∀ (xs : List ℚ) (s : ℚ), ∀ o ∈ Spec.outputs cardModule s xs, o.length = cardModule.outdim := by
    intro xs
    induction xs with
    | nil => intro s o h; simp [Spec.outputs] at h
    | cons x xs ih =>
      intro s o h
      unfold Spec.outputs at h
      rcases List.mem_cons.1 h with e | e
      · rw [e]; rfl
      · exact ih _ o e
  exact fun xs => this xs 0

/-- **C192 fails for punch cards of class numbers:** with targets that are the numbers of classes, as `ClassificationDataSet` has them at first, the expected class is 0 for all sequences of a constant class. -/
theorem C192_negation_card (k : K) (n : Nat) : argmax (List.replicate (n + 1) [k]).flatten = .ok 0 := by
  rw [argmax_spec]
  have hg : ∀ j < n + 1, (List.replicate (n + 1) [k]).flatten.getD j 0 = k := by
    intro j hj
    have : (List.replicate (n + 1) [k]).flatten = List.replicate (n + 1) k := by simp
    rw [this, List.getD_eq_getElem _ _ (by simpa using hj)]
    simp
  refine ⟨by simp, fun j hj => ?_, fun j hj => absurd hj (by omega)⟩
  rw [hg 0 (by omega), hg j (by simpa using hj)]

/-- **C192 fails for punch cards of empty data sets:** they raise a ZeroDivisionError. -/
theorem C192_negation_empty (m : Mod S X K) (s : S) : punchcard m s [] = .error .zeroDivision := rfl

end punchcard
end Verif.Props
