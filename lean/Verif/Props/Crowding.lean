import Verif.Lemmas.Crowding
import Mathlib.Algebra.Order.Ring.Rat
import Mathlib.Algebra.Field.Rat
/-
Property theorems C62 (crowding distance, pybrain/tools/nondominated.py:8-25).
-/
namespace Verif.Props
open Verif.NonDom

variable {α K : Type} [DecidableEq α] [Field K] [LinearOrder K] [IsStrictOrderedRing K]

/-- **C62.** Whenever the crowding distance of distinct individuals is computed without an error: in every objective some
individual with the smallest and some individual with the largest value has a distance of at least `big` (1e100); all
distances are non-negative; and an individual below `big` has at most the number of objectives. So, as long as there are
fewer than 1e100 objectives, these extreme individuals come before all others when sorting by distance. -/
theorem C62_extremes (big : K) (hb : 0 ≤ big) (nObj : Nat) (fit : α → Nat → K) (individuals : List α) (hnd : individuals.Nodup)
    (d : α → K) (h : crowdingDistance big nObj fit individuals = some d) :
    (∀ i, i < nObj → (∃ a ∈ individuals, (∀ b ∈ individuals, fit a i ≤ fit b i) ∧ big ≤ d a) ∧
      (∃ a ∈ individuals, (∀ b ∈ individuals, fit b i ≤ fit a i) ∧ big ≤ d a)) ∧
    ∀ x, 0 ≤ d x ∧ (big ≤ d x ∨ d x ≤ nObj) := by
  rw [crowdingDistance, Option.map_eq_some_iff] at h
  obtain ⟨⟨l', d'⟩, h1, h2⟩ := h
  simp only at h2
  subst h2
  obtain ⟨k1, _, k3⟩ := crowdLoop_spec big hb fit (List.range nObj) individuals (fun _ => 0) 0 hnd (fun x => ⟨le_rfl, Or.inr le_rfl⟩) l' d' h1
  exact ⟨fun i hi => k3 i (List.mem_range.2 hi), fun x => by simpa using k1 x⟩

/-- Middle individuals of a single objective get the normalised distance between their two neighbours. -/
theorem C62_inner (big : K) (fit : α → Nat → K) (pre : List α) (a x b : α) (post : List α)
    (hnd : (pre ++ a :: x :: b :: post).Nodup)
    (hs : (pre ++ a :: x :: b :: post).Pairwise (fun u v => fit u 0 ≤ fit v 0)) (d : α → K) (lo hi : α)
    (hlo : (pre ++ a :: x :: b :: post).head? = some lo) (hhi : (pre ++ a :: x :: b :: post).getLast? = some hi)
    (h : crowdingDistance big 1 fit (pre ++ a :: x :: b :: post) = some d) :
    d x = (fit b 0 - fit a 0) / (fit hi 0 - fit lo 0) := by
  set l := pre ++ a :: x :: b :: post with hl
  rw [crowdingDistance, Option.map_eq_some_iff] at h
  obtain ⟨⟨l', d'⟩, h1, h2⟩ := h
  simp only at h2
  subst h2
  simp only [show List.range 1 = [0] from rfl, crowdLoop] at h1
  have hsort : l.mergeSort (fun u v => decide (fit u 0 ≤ fit v 0)) = l :=
    List.mergeSort_of_pairwise (hs.imp (fun {u v} h => by simpa using h))
  have ha : l[pre.length]? = some a := by simp [hl]
  have hx : l[pre.length + 1]? = some x := by
    rw [hl, List.getElem?_append_right (by omega)]; simp
  have hbb : l[pre.length + 2]? = some b := by
    rw [hl, List.getElem?_append_right (by omega)]; simp
  have hinj : ∀ (p q : Nat) (u : α), l[p]? = some u → l[q]? = some u → p = q := by
    intro p q u h1 h2
    obtain ⟨hp1, _⟩ := List.getElem?_eq_some_iff.1 h1
    exact (List.getElem?_inj hp1 hnd).1 (h1.trans h2.symm)
  unfold crowdObj at h1
  rw [hsort] at h1
  simp only [hlo, hhi] at h1
  split at h1
  · simp at h1
  · rename_i l1 d1 heq
    split at heq
    · simp at heq
    · simp only [Option.some.injEq, Prod.mk.injEq] at heq h1
      obtain ⟨_, hd1⟩ := heq
      obtain ⟨_, hdd⟩ := h1
      subst hdd
      have hfold := fold_upd (fun t : α × α × α => (fit t.1 0 - fit t.2.2 0) / (fit lo 0 - fit hi 0)) _
          (updAt (updAt (fun _ => 0) lo big) hi big) (tripled_mid_nodup l hnd) x
      simp only [hd1] at hfold
      have hlo0 : l[0]? = some lo := by rw [← List.head?_eq_getElem?]; exact hlo
      have hhi0 : l[l.length - 1]? = some hi := by rw [← List.getLast?_eq_getElem?]; exact hhi
      have hxlo : x ≠ lo := fun he => by
        have := hinj _ _ _ hx (he ▸ hlo0); omega
      have hxhi : x ≠ hi := fun he => by
        have := hinj _ _ _ hx (he ▸ hhi0)
        have := (List.getElem?_eq_some_iff.1 hbb).1
        omega
      have hbase : updAt (updAt (fun _ => (0 : K)) lo big) hi big x = 0 := by
        rw [updAt, if_neg hxhi, updAt, if_neg hxlo]
      rw [hbase] at hfold
      rcases hfold with ⟨hno, _⟩ | ⟨t, ht, he, hr⟩
      · exfalso
        apply hno
        rw [List.mem_map]
        refine ⟨(a, x, b), ?_, rfl⟩
        rw [List.mem_iff_getElem?]
        refine ⟨pre.length, ?_⟩
        rw [List.getElem?_zip_eq_some]
        refine ⟨ha, ?_⟩
        rw [List.getElem?_zip_eq_some]
        have hlen := (List.getElem?_eq_some_iff.1 hbb).1
        refine ⟨?_, ?_⟩
        · rw [List.dropLast_eq_take, List.getElem?_take, if_pos (by rw [List.length_drop]; omega), List.getElem?_drop, Nat.add_comm]
          exact hx
        · rw [List.getElem?_drop, Nat.add_comm]; exact hbb
      · obtain ⟨j, hj0, hj1, hj2⟩ := tripled_at l t ht
        rw [he] at hj1
        have := hinj _ _ _ hj1 hx
        have hj : j = pre.length := by omega
        subst hj
        rw [ha] at hj0; rw [hbb] at hj2
        rw [hr, ← Option.some.inj hj0, ← Option.some.inj hj2, zero_add, ← neg_sub (fit b 0), ← neg_sub (fit hi 0), neg_div_neg_eq]

/-- **C62, inner individuals, any number of objectives.** When no two individuals agree in an objective and `x` is extreme in
none, its crowding distance is the sum over the objectives of the distance between the individuals directly above and directly
below it, divided by the range of the objective. In particular it does not depend on the order of the individuals. -/
theorem C62_inner_all (big : K) (nObj : Nat) (fit : α → Nat → K) (individuals : List α) (hnd : individuals.Nodup)
    (hfi : ∀ i < nObj, ∀ a ∈ individuals, ∀ b ∈ individuals, fit a i = fit b i → a = b)
    (x : α) (hx : x ∈ individuals) (lo hi below above : Nat → α)
    (hN : ∀ i < nObj, Neighbours fit individuals i x (lo i) (hi i) (below i) (above i))
    (d : α → K) (h : crowdingDistance big nObj fit individuals = some d) :
    d x = ((List.range nObj).map (fun i => (fit (above i) i - fit (below i) i) / (fit (hi i) i - fit (lo i) i))).sum := by
  rw [crowdingDistance, Option.map_eq_some_iff] at h
  obtain ⟨⟨l', d'⟩, h1, h2⟩ := h
  simp only at h2
  subst h2
  have := crowdLoop_inner big fit x lo hi below above (List.range nObj) individuals (fun _ => 0) hnd hx
    (fun i hi => hfi i (List.mem_range.1 hi)) (fun i hi => hN i (List.mem_range.1 hi)) l' d' h1
  rw [this, zero_add]

/-- Three individuals with two objectives meet the hypotheses. -/
example : ∀ i < 2, Neighbours (fun (x : Nat) (i : Nat) => if i = 0 then (x : Rat) else -(x : Rat)) [4, 0, 1] i 1
    (if i = 0 then 0 else 4) (if i = 0 then 4 else 0) (if i = 0 then 0 else 4) (if i = 0 then 4 else 0) := by
  intro i hi
  have : i = 0 ∨ i = 1 := by omega
  rcases this with rfl | rfl <;> constructor <;> simp <;> norm_num

/-- **C62, failure.** When all individuals agree in an objective and there are at least three of them, the computation divides
by zero. -/
theorem C62_negation_constant (big c : K) (nObj : Nat) (hn : 0 < nObj) (fit : α → Nat → K) (individuals : List α)
    (hc : ∀ x ∈ individuals, fit x 0 = c) (h3 : 3 ≤ individuals.length) :
    crowdingDistance big nObj fit individuals = none := by
  obtain ⟨m, rfl⟩ : ∃ m, nObj = m + 1 := ⟨nObj - 1, by omega⟩
  rw [crowdingDistance, List.range_succ_eq_map, crowdLoop]
  have : crowdObj big fit 0 individuals (fun _ => 0) = none := by
    unfold crowdObj
    have hp := List.mergeSort_perm individuals (fun a b => decide (fit a 0 ≤ fit b 0))
    generalize individuals.mergeSort (fun a b => decide (fit a 0 ≤ fit b 0)) = ind at hp
    simp only
    split
    · rename_i first last hf hl
      rw [if_pos]
      have h1 := hc first (hp.mem_iff.1 (List.mem_of_head? hf))
      have h2 := hc last (hp.mem_iff.1 (List.mem_of_getLast? hl))
      refine ⟨by rw [h1, h2, sub_self], fun he => ?_⟩
      have := congrArg List.length he
      rw [List.length_zip, List.length_zip, List.length_dropLast, List.length_drop, List.length_drop, hp.length_eq] at this
      simp at this
      omega
    · rfl
  rw [this]; rfl

example : crowdingDistance (10 ^ 100 : Rat) 1 (fun (x : Nat) _ => (x : Rat)) [(0 : Nat), 1, 4] = some (fun x : Nat => if x = 1 then 1 else if x = 4 then 10 ^ 100 else if x = 0 then 10 ^ 100 else 0) := by
  have hs : [(0 : Nat), 1, 4].mergeSort (fun a b => decide ((a : Rat) ≤ (b : Rat))) = [0, 1, 4] :=
    List.mergeSort_of_pairwise (by simp)
  simp only [crowdingDistance, show List.range 1 = [0] from rfl, crowdLoop, crowdObj, hs]
  simp
  funext x
  simp only [updAt]
  split
  · norm_num
  · rfl

end Verif.Props
