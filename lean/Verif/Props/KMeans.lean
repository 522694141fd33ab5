import Verif.Spec.KMeans
/-!
C91: the seeds for k-means.
-/

namespace Verif.KMeans
open Verif.NES

variable {n d : Nat}

theorem sqDist_nonneg (x y : Vec d) : 0 ≤ sqDist x y := Finset.sum_nonneg fun _ _ => sq_nonneg _

theorem sqDist_eq_zero (x y : Vec d) : sqDist x y = 0 ↔ x = y := by
  rw [sqDist, Finset.sum_eq_zero_iff_of_nonneg fun _ _ => sq_nonneg _]
  constructor
  · intro h
    funext a
    have := h a (Finset.mem_univ a)
    exact sub_eq_zero.1 (pow_eq_zero_iff (two_ne_zero)|>.1 this)
  · rintro rfl
    simp

theorem nearest_append (x : Vec d) (cs : List (Vec d)) (c : Vec d) (h : cs ≠ []) : nearest x (cs ++ [c]) = min (nearest x cs) (sqDist x c) := by
  induction cs with
  | nil => exact absurd rfl h
  | cons a cs ih =>
    cases cs with
    | nil => simp [nearest]
    | cons b cs =>
      have e1 : nearest x (a :: b :: cs ++ [c]) = min (sqDist x a) (nearest x (b :: cs ++ [c])) := rfl
      have e2 : nearest x (a :: b :: cs) = min (sqDist x a) (nearest x (b :: cs)) := rfl
      rw [e1, e2, ih (by simp), min_assoc]

theorem nearest_le (x : Vec d) (cs : List (Vec d)) (c : Vec d) (h : c ∈ cs) : nearest x cs ≤ sqDist x c := by
  induction cs with
  | nil => exact absurd h (by simp)
  | cons a cs ih =>
    cases cs with
    | nil => simp at h; subst h; simp [nearest]
    | cons b cs =>
      have e2 : nearest x (a :: b :: cs) = min (sqDist x a) (nearest x (b :: cs)) := rfl
      rw [e2]
      rcases List.mem_cons.1 h with rfl | h
      · exact min_le_left _ _
      · exact (min_le_right _ _).trans (ih h)

theorem nearest_mem (x : Vec d) (cs : List (Vec d)) (h : cs ≠ []) : ∃ c ∈ cs, nearest x cs = sqDist x c := by
  induction cs with
  | nil => exact absurd rfl h
  | cons a cs ih =>
    cases cs with
    | nil => exact ⟨a, by simp, rfl⟩
    | cons b cs =>
      have e2 : nearest x (a :: b :: cs) = min (sqDist x a) (nearest x (b :: cs)) := rfl
      rw [e2]
      rcases min_choice (sqDist x a) (nearest x (b :: cs)) with h | h
      · exact ⟨a, by simp, h⟩
      · obtain ⟨c, hc, hc'⟩ := ih (by simp)
        exact ⟨c, by simp [List.mem_cons.1 hc], h.trans hc'⟩

theorem dSum_eq (X : Fin n → Vec d) (cs : List (Vec d)) (h : cs ≠ []) (i : Fin n) : dSum X (fun j => nearest (X j) cs) i = cost X (cs ++ [X i]) := by
  rw [dSum, cost]
  exact Finset.sum_congr rfl fun j _ => (nearest_append _ cs _ h).symm

theorem nearest_nonneg (x : Vec d) (cs : List (Vec d)) : 0 ≤ nearest x cs := by
  by_cases h : cs = []
  · subst h; simp [nearest]
  · obtain ⟨c, _, hc⟩ := nearest_mem x cs h
    rw [hc]; exact sqDist_nonneg _ _

theorem dSum_nonneg (X : Fin n → Vec d) (D : Fin n → ℝ) (hD : ∀ j, 0 ≤ D j) (i : Fin n) : 0 ≤ dSum X D i :=
  Finset.sum_nonneg fun j _ => le_min (hD j) (sqDist_nonneg _ _)

/-- the index found is the first of the best ones -/
def IsFirstMin (f : Fin n → ℝ) (l : List (Fin n)) (i : Fin n) : Prop := i ∈ l ∧ (∀ j ∈ l, f i ≤ f j) ∧ ∀ j ∈ l, j < i → f i < f j

theorem bestLoop_spec (X : Fin n → Vec d) (D : Fin n → ℝ) (hD : ∀ j, 0 ≤ D j) (l p : List (Fin n)) (i : Fin n) (hs : (p ++ l).Pairwise (· < ·))
    (h : IsFirstMin (dSum X D) p i) : ∃ i', bestLoop X D l (dSum X D i, some i) = (dSum X D i', some i') ∧ IsFirstMin (dSum X D) (p ++ l) i' := by
  induction l generalizing p i with
  | nil => exact ⟨i, rfl, by simpa using h⟩
  | cons a l ih =>
    have hs' : ((p ++ [a]) ++ l).Pairwise (· < ·) := by simpa using hs
    have hpa : ∀ x ∈ p, x < a := fun x hx => (List.pairwise_append.1 hs).2.2 x hx a (by simp)
    rw [bestLoop]
    dsimp only
    by_cases hc : dSum X D i < 0 ∨ dSum X D a < dSum X D i
    · rw [if_pos hc]
      have hlt : dSum X D a < dSum X D i := hc.resolve_left (not_lt.2 (dSum_nonneg X D hD i))
      have := ih (p ++ [a]) a hs' ⟨by simp, fun j hj => ?_, fun j hj hja => ?_⟩
      · simpa using this
      · rcases List.mem_append.1 hj with hj | hj
        · exact hlt.le.trans (h.2.1 j hj)
        · simp at hj; rw [hj]
      · rcases List.mem_append.1 hj with hj | hj
        · exact hlt.trans_le (h.2.1 j hj)
        · simp at hj; rw [hj] at hja; exact absurd hja (lt_irrefl _)
    · rw [if_neg hc]
      have hge : dSum X D i ≤ dSum X D a := not_lt.1 fun hh => hc (Or.inr hh)
      have := ih (p ++ [a]) i hs' ⟨by simp [h.1], fun j hj => ?_, fun j hj hji => ?_⟩
      · simpa using this
      · rcases List.mem_append.1 hj with hj | hj
        · exact h.2.1 j hj
        · simp at hj; rw [hj]; exact hge
      · rcases List.mem_append.1 hj with hj | hj
        · exact h.2.2 j hj hji
        · simp at hj
          rw [hj] at hji
          exact absurd (hpa i h.1) (not_lt.2 hji.le)

theorem best_spec (X : Fin (n + 1) → Vec d) (D : Fin (n + 1) → ℝ) (hD : ∀ j, 0 ≤ D j) :
    ∃ i, (bestLoop X D (List.finRange (n + 1)) (-1, none)).2.getD (Fin.last n) = i ∧ (∀ j, dSum X D i ≤ dSum X D j) ∧
      ∀ j < i, dSum X D i < dSum X D j := by
  have hs : (List.finRange (n + 1)).Pairwise (· < ·) := List.pairwise_lt_finRange _
  have hm : ∀ j : Fin (n + 1), j ∈ List.finRange (n + 1) := List.mem_finRange
  cases hl : List.finRange (n + 1) with
  | nil => rw [hl] at hm; exact absurd (hm 0) (by simp)
  | cons a l =>
    rw [hl] at hs hm
    obtain ⟨i, h1, h2⟩ := bestLoop_spec X D hD l [a] a hs ⟨by simp, by simp, by simp⟩
    refine ⟨i, ?_, fun j => h2.2.1 j (hm j), fun j hj => h2.2.2 j (hm j) hj⟩
    rw [bestLoop]
    dsimp only
    rw [if_pos (Or.inl (by norm_num)), h1]
    rfl

/-- every seed after `cs` is the first of the best choices given the seeds before it -/
theorem seedLoop_spec (X : Fin (n + 1) → Vec d) (rounds : Nat) (cs : List (Vec d)) (hcs : cs ≠ []) :
    ∃ new, seedLoop X rounds (fun i => nearest (X i) cs) cs = cs ++ new ∧ new.length = rounds ∧
      ∀ m < rounds, ∃ i, new[m]? = some (X i) ∧ (∀ j, cost X (cs ++ new.take m ++ [X i]) ≤ cost X (cs ++ new.take m ++ [X j])) ∧
        ∀ j < i, cost X (cs ++ new.take m ++ [X i]) < cost X (cs ++ new.take m ++ [X j]) := by
  induction rounds generalizing cs with
  | zero => exact ⟨[], by simp [seedLoop], rfl, fun m hm => absurd hm (by omega)⟩
  | succ r ih =>
    obtain ⟨i, h1, h2, h3⟩ := best_spec X (fun j => nearest (X j) cs) fun j => nearest_nonneg _ _
    obtain ⟨new, h4, h5, h6⟩ := ih (cs ++ [X i]) (by simp)
    have e : (fun j => min (nearest (X j) cs) (sqDist (X j) (X i))) = fun j => nearest (X j) (cs ++ [X i]) := by
      funext j; rw [nearest_append _ _ _ hcs]
    refine ⟨X i :: new, ?_, by simp [h5], fun m hm => ?_⟩
    · rw [seedLoop]
      rw [h1, e, h4]
      simp
    · cases m with
      | zero =>
        refine ⟨i, rfl, ?_, ?_⟩
        · simpa [dSum_eq X cs hcs] using h2
        · simpa [dSum_eq X cs hcs] using h3
      | succ m =>
        obtain ⟨i', h7, h8, h9⟩ := h6 m (by omega)
        exact ⟨i', by simpa using h7, by simpa using h8, by simpa using h9⟩

theorem cost_mem (X : Fin n → Vec d) (cs : List (Vec d)) (h : cs ≠ []) (c : Vec d) (hc : c ∈ cs) : cost X (cs ++ [c]) = cost X cs := by
  rw [cost, cost]
  refine Finset.sum_congr rfl fun j _ => ?_
  rw [nearest_append _ _ _ h, min_eq_left (nearest_le _ _ _ hc)]

theorem cost_lt (X : Fin n → Vec d) (cs : List (Vec d)) (h : cs ≠ []) (i : Fin n) (hi : X i ∉ cs) : cost X (cs ++ [X i]) < cost X cs := by
  rw [cost, cost]
  refine Finset.sum_lt_sum (fun j _ => ?_) ⟨i, Finset.mem_univ i, ?_⟩
  · rw [nearest_append _ _ _ h]; exact min_le_left _ _
  · rw [nearest_append _ _ _ h, (sqDist_eq_zero (X i) (X i)).2 rfl]
    refine (min_le_right _ _).trans_lt ?_
    obtain ⟨c, hc, hc'⟩ := nearest_mem (X i) cs h
    rw [hc']
    refine lt_of_le_of_ne (sqDist_nonneg _ _) fun h0 => ?_
    rw [(sqDist_eq_zero _ _).1 h0.symm] at hi
    exact hi hc

end Verif.KMeans

namespace Verif.Props
open Verif.NES Verif.KMeans

variable {n d : Nat}

/-- C91. `kinit(X, k)` with `k ≥ 1` returns `k` points of the data, the first of them the randomly drawn one. Each further seed is, among all
points of the data, the first one that makes the cost (the sum of the squared distances to the nearest seeds) as small as possible. -/
theorem C91_seeds (X : Fin (n + 1) → Vec d) (k : Nat) (hk : 1 ≤ k) (first : Fin (n + 1)) :
    (kinit X k first).length = k ∧ (kinit X k first)[0]? = some (X first) ∧
    ∀ m, 1 ≤ m → m < k → ∃ i, (kinit X k first)[m]? = some (X i) ∧
      (∀ j, cost X ((kinit X k first).take m ++ [X i]) ≤ cost X ((kinit X k first).take m ++ [X j])) ∧
      ∀ j < i, cost X ((kinit X k first).take m ++ [X i]) < cost X ((kinit X k first).take m ++ [X j]) := by
  obtain ⟨new, h1, h2, h3⟩ := seedLoop_spec X (k - 1) [X first] (by simp)
  have e : kinit X k first = X first :: new := by
    rw [kinit]
    exact h1
  rw [e]
  refine ⟨by simp [h2]; omega, rfl, fun m hm1 hm2 => ?_⟩
  obtain ⟨m, rfl⟩ : ∃ m', m = m' + 1 := ⟨m - 1, by omega⟩
  obtain ⟨i, h4, h5, h6⟩ := h3 m (by omega)
  exact ⟨i, by simpa using h4, by simpa using h5, by simpa using h6⟩

/-- C91. If the data contain at least `k` different points, the seeds are all different. -/
theorem C91_distinct (X : Fin (n + 1) → Vec d) (k : Nat) (first : Fin (n + 1)) (S : Finset (Vec d)) (hS : ∀ c ∈ S, ∃ i, X i = c) (hk : k ≤ S.card) :
    (kinit X k first).Nodup := by
  classical
  rcases Nat.eq_zero_or_pos k with rfl | hk1
  · simp [kinit, seedLoop]
  obtain ⟨h1, h2, h3⟩ := C91_seeds X k hk1 first
  have key : ∀ m, 1 ≤ m → m ≤ k → ((kinit X k first).take m).Nodup := by
    intro m hm1
    induction m, hm1 using Nat.le_induction with
    | base =>
      intro _
      rw [List.take_one]
      cases (kinit X k first).head? <;> simp
    | succ m hm ih =>
      intro hmk
      have hnd := ih (by omega)
      obtain ⟨i, h4, h5, -⟩ := h3 m hm (by omega)
      rw [List.take_add_one, h4]
      simp only [Option.toList_some]
      rw [List.nodup_append]
      refine ⟨hnd, by simp, fun a ha b hb => ?_⟩
      simp at hb
      subst hb
      rintro rfl
      have hne : (kinit X k first).take m ≠ [] := List.ne_nil_of_mem ha
      -- a point that is not a seed yet
      have : ∃ c ∈ S, c ∉ (kinit X k first).take m := by
        by_contra hcon
        push Not at hcon
        have hsub : S ⊆ ((kinit X k first).take m).toFinset := fun c hc => List.mem_toFinset.2 (hcon c hc)
        have := Finset.card_le_card hsub
        have h6 := List.toFinset_card_le ((kinit X k first).take m)
        rw [List.length_take] at h6
        omega
      obtain ⟨c, hc, hc'⟩ := this
      obtain ⟨j, rfl⟩ := hS c hc
      have h7 := cost_lt X _ hne j hc'
      have h8 := h5 j
      rw [cost_mem X _ hne _ ha] at h8
      linarith
  have := key k hk1 le_rfl
  rwa [List.take_of_length_le h1.le] at this

/-- C91 fails for `k = 0`: one seed is returned. -/
theorem C91_negation_zero (X : Fin (n + 1) → Vec d) (first : Fin (n + 1)) : kinit X 0 first = [X first] := rfl

/-- The hypotheses are met: three different points on a line. -/
example (first : Fin 3) : (kinit (fun (i : Fin 3) (_ : Fin 1) => (i : ℝ)) 3 first).Nodup := by
  classical
  refine C91_distinct _ 3 first (Finset.univ.image fun (i : Fin 3) (_ : Fin 1) => (i : ℝ)) (fun c hc => ?_) ?_
  · obtain ⟨i, -, hi⟩ := Finset.mem_image.1 hc
    exact ⟨i, hi⟩
  · rw [Finset.card_image_of_injective _ fun a b h => ?_]
    · simp
    · have := congrFun h 0
      exact Fin.ext (by exact_mod_cast this)

end Verif.Props
