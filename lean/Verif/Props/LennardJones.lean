import Verif.Model.MultiBench
import Verif.Spec.MultiBench
import Mathlib.LinearAlgebra.FiniteDimensional.Defs
import Mathlib.LinearAlgebra.Dimension.Constructions
import Mathlib.Analysis.InnerProductSpace.PiL2
import Mathlib.Analysis.SpecialFunctions.Pow.Real
import Mathlib.Tactic.Linarith
import Mathlib.Tactic.NormNum
import Mathlib.Tactic.FinCases
/-
C124: energy of atom clusters.
-/
namespace Verif.MultiBench
open Verif.MultiBench.Spec Finset

/-- The coordinates of atoms, as the function gets them -/
def coordsOf {N : ℕ} (atoms : Fin N → Place) : Fin N → Fin 3 → ℝ := fun i k => atoms i k

theorem distances_eq {N : ℕ} (atoms : Fin N → Place) (i j : Fin N) :
    distances (coordsOf atoms) i j = if i = j then 1 else dist (atoms i) (atoms j) := by
  unfold distances
  by_cases h : i = j
  · subst h; simp
  · rw [if_neg h, if_neg h, add_zero, EuclideanSpace.dist_eq]
    congr 1
    refine Finset.sum_congr rfl fun k _ => ?_
    rw [Real.dist_eq, sq_abs]
    show (atoms j k - atoms i k) ^ 2 = (atoms i k - atoms j k) ^ 2
    ring

/-- A symmetric function that is zero on the diagonal: twice the sum over pairs -/
theorem sum_symm {N : ℕ} (g : Fin N → Fin N → ℝ) (hs : ∀ i j, g i j = g j i) (hd : ∀ i, g i i = 0) :
    ∑ i, ∑ j, g i j = 2 * ∑ i, ∑ j, if i < j then g i j else 0 := by
  have h1 : ∑ i, ∑ j, g i j = ∑ i, ∑ j, ((if i < j then g i j else 0) + (if j < i then g i j else 0)) := by
    refine sum_congr rfl fun i _ => sum_congr rfl fun j _ => ?_
    rcases lt_trichotomy i j with h | h | h
    · simp [h, h.not_gt]
    · subst h; simp [hd]
    · simp [h, h.not_gt]
  have h2 : ∑ i, ∑ j, (if j < i then g i j else 0) = ∑ i, ∑ j, (if i < j then g i j else 0) := by
    rw [sum_comm]
    refine sum_congr rfl fun i _ => sum_congr rfl fun j _ => ?_
    rw [hs]
  simp only [sum_add_distrib] at h1
  rw [h1, h2]; ring

/-- The number of pairs -/
theorem sum_pairs (N : ℕ) : (∑ i : Fin N, ∑ j : Fin N, if i < j then (1 : ℝ) else 0) = N * (N - 1) / 2 := by
  have h := sum_symm (N := N) (fun i j => if i = j then 0 else 1) (fun i j => by simp [eq_comm]) (fun i => by simp)
  have h1 : ∑ i : Fin N, ∑ j : Fin N, (if i = j then (0 : ℝ) else 1) = N * (N - 1) := by
    have : ∀ i : Fin N, ∑ j : Fin N, (if i = j then (0 : ℝ) else 1) = N - 1 := by
      intro i
      have : ∀ j : Fin N, (if i = j then (0 : ℝ) else 1) = 1 - if i = j then 1 else 0 := fun j => by split <;> simp
      simp [this]
    rw [sum_congr rfl fun i _ => this i]
    simp; ring
  have h2 : (∑ i : Fin N, ∑ j : Fin N, if i < j then (if i = j then (0 : ℝ) else 1) else 0) = ∑ i : Fin N, ∑ j : Fin N, if i < j then (1 : ℝ) else 0 := by
    refine sum_congr rfl fun i _ => sum_congr rfl fun j _ => ?_
    by_cases h : i < j
    · simp [h, h.ne]
    · simp [h]
  rw [h1, h2] at h
  linarith

theorem potential_bound (r : ℝ) : -1 ≤ potential r := by
  unfold potential
  have : (r ^ 12)⁻¹ = ((r ^ 6)⁻¹) ^ 2 := by rw [← inv_pow, ← inv_pow]; ring
  rw [this]
  nlinarith [sq_nonneg (2 * (r ^ 6)⁻¹ - 1)]

theorem potential_eq (r : ℝ) : potential r = -1 ↔ r ^ 6 = 2 := by
  unfold potential
  have : (r ^ 12)⁻¹ = ((r ^ 6)⁻¹) ^ 2 := by rw [← inv_pow, ← inv_pow]; ring
  rw [this]
  constructor
  · intro h
    have h2 : (2 * (r ^ 6)⁻¹ - 1) ^ 2 = 0 := by nlinarith
    have h3 : (r ^ 6)⁻¹ = 1 / 2 := by nlinarith [pow_eq_zero_iff (two_ne_zero) |>.1 h2]
    have := congrArg (·⁻¹) h3
    simpa using this
  · intro h
    rw [h]; norm_num

/-- Points with equal distances: at most four in space -/
theorem equidistant_le {N : ℕ} (atoms : Fin N → Place) (d : ℝ) (hd : 0 < d) (h : ∀ i j, i ≠ j → dist (atoms i) (atoms j) = d) : N ≤ 4 := by
  by_contra hN
  push Not at hN
  obtain ⟨M, rfl⟩ : ∃ M, N = M + 1 := ⟨N - 1, by omega⟩
  let v : Fin M → Place := fun i => atoms i.succ - atoms 0
  have hn : ∀ i, ‖v i‖ = d := fun i => by rw [← dist_eq_norm]; exact h _ _ (Fin.succ_ne_zero i)
  have hv : ∀ i j, inner ℝ (v i) (v j) = d ^ 2 / 2 * (1 + if i = j then 1 else 0) := by
    intro i j
    by_cases hij : i = j
    · subst hij
      rw [real_inner_self_eq_norm_sq, hn]; simp; ring
    · rw [if_neg hij]
      have h1 : ‖v i - v j‖ = d := by
        have : v i - v j = atoms i.succ - atoms j.succ := by simp [v]
        rw [this, ← dist_eq_norm]
        exact h _ _ (fun e => hij (Fin.succ_injective _ e))
      have h2 := norm_sub_sq_real (v i) (v j)
      rw [h1, hn, hn] at h2
      linarith
  have hli : LinearIndependent ℝ v := by
    rw [Fintype.linearIndependent_iff]
    intro c hc
    have h1 : ∀ j, c j + ∑ i, c i = 0 := by
      intro j
      have h2 : inner ℝ (∑ i, c i • v i) (v j) = 0 := by rw [hc]; exact inner_zero_left _
      rw [sum_inner] at h2
      have h3 : ∀ i, inner ℝ (c i • v i) (v j) = d ^ 2 / 2 * (c i + if i = j then c i else 0) := by
        intro i
        rw [real_inner_smul_left, hv]
        by_cases hij : i = j <;> simp [hij] <;> ring
      rw [Finset.sum_congr rfl fun i _ => h3 i, ← mul_sum, sum_add_distrib] at h2
      simp only [sum_ite_eq', mem_univ, if_true] at h2
      have : d ^ 2 / 2 ≠ 0 := by positivity
      have := (mul_eq_zero.1 h2).resolve_left this
      linarith
    have h4 : ∑ i, c i = 0 := by
      have h5 : ∑ j : Fin M, (c j + ∑ i, c i) = 0 := Finset.sum_eq_zero fun j _ => h1 j
      rw [sum_add_distrib, sum_const, card_univ, Fintype.card_fin, nsmul_eq_mul] at h5
      have h6 : (1 + (M : ℝ)) * ∑ i, c i = 0 := by linarith
      exact (mul_eq_zero.1 h6).resolve_left (by positivity)
    intro i
    have := h1 i
    rw [h4] at this
    linarith
  have := hli.fintype_card_le_finrank
  simp at this
  omega

end Verif.MultiBench

namespace Verif.Props
open Verif.MultiBench Verif.MultiBench.Spec Finset

/-- **C124, energy.** The function is the sum of the Lennard-Jones potential over all pairs of atoms, each pair once. -/
theorem C124_energy {N : ℕ} (atoms : Fin N → Place) : lennardJones (coordsOf atoms) = energy atoms := by
  have e : ∀ i j, (distances (coordsOf atoms) i j) ^ (-12 : ℤ) - (distances (coordsOf atoms) i j) ^ (-6 : ℤ) =
      if i = j then 0 else potential (dist (atoms i) (atoms j)) / 4 := by
    intro i j
    rw [distances_eq]
    by_cases h : i = j
    · simp [h]
    · simp only [h, if_false, potential]
      rw [zpow_neg, zpow_neg]
      norm_cast
      ring
  unfold lennardJones energy
  have e2 : ∀ i, ∑ j, ((distances (coordsOf atoms) i j) ^ (-12 : ℤ) - (distances (coordsOf atoms) i j) ^ (-6 : ℤ)) =
      ∑ j, if i = j then 0 else potential (dist (atoms i) (atoms j)) / 4 := fun i => sum_congr rfl fun j _ => e i j
  rw [sum_congr rfl fun i _ => e2 i,
    sum_symm (fun i j => if i = j then 0 else potential (dist (atoms i) (atoms j)) / 4) (fun i j => by simp [eq_comm, dist_comm]) (fun i => by simp),
    ← mul_assoc, mul_sum]
  refine sum_congr rfl fun i _ => ?_
  rw [mul_sum]
  refine sum_congr rfl fun j _ => ?_
  by_cases h : i < j
  · simp only [h, if_true, h.ne, if_false]; ring
  · simp [h]

/-- **C124, symmetry.** Moving, rotating or reflecting the cluster, and renumbering the atoms, does not change the value. -/
theorem C124_symmetry {N : ℕ} (atoms : Fin N → Place) (T : Place → Place) (hT : Isometry T) (σ : Equiv.Perm (Fin N)) :
    lennardJones (coordsOf fun i => T (atoms (σ i))) = lennardJones (coordsOf atoms) := by
  unfold lennardJones
  simp only [distances_eq, hT.dist_eq]
  congr 1
  rw [← Equiv.sum_comp σ (fun i => ∑ j, ((if i = j then 1 else dist (atoms i) (atoms j)) ^ (-12 : ℤ) - (if i = j then 1 else dist (atoms i) (atoms j)) ^ (-6 : ℤ)))]
  refine sum_congr rfl fun i _ => ?_
  rw [← Equiv.sum_comp σ (fun j => ((if σ i = j then 1 else dist (atoms (σ i)) (atoms j)) ^ (-12 : ℤ) - (if σ i = j then 1 else dist (atoms (σ i)) (atoms j)) ^ (-6 : ℤ)))]
  refine sum_congr rfl fun j _ => ?_
  simp [σ.injective.eq_iff]

example : Isometry fun x : Place => x + WithLp.toLp 2 ![1, 2, 3] := isometry_add_right _

/-- **C124, lower bound.** The value is at least minus the number of pairs, with equality exactly if every two atoms have the best distance. -/
theorem C124_bound {N : ℕ} (atoms : Fin N → Place) : -((N : ℝ) * (N - 1) / 2) ≤ lennardJones (coordsOf atoms) ∧
    (lennardJones (coordsOf atoms) = -((N : ℝ) * (N - 1) / 2) ↔ ∀ i j, i ≠ j → dist (atoms i) (atoms j) = 2 ^ (1 / 6 : ℝ)) := by
  rw [C124_energy, ← sum_pairs]
  have hd : energy atoms - -(∑ i : Fin N, ∑ j : Fin N, if i < j then (1 : ℝ) else 0) =
      ∑ i, ∑ j, if i < j then potential (dist (atoms i) (atoms j)) + 1 else 0 := by
    unfold energy
    rw [sub_neg_eq_add, ← sum_add_distrib]
    refine sum_congr rfl fun i _ => ?_
    rw [← sum_add_distrib]
    refine sum_congr rfl fun j _ => ?_
    split <;> simp
  have hnn : ∀ i j : Fin N, 0 ≤ if i < j then potential (dist (atoms i) (atoms j)) + 1 else 0 := by
    intro i j
    split
    · linarith [potential_bound (dist (atoms i) (atoms j))]
    · exact le_refl _
  have hsix : ∀ r : ℝ, 0 ≤ r → (r ^ 6 = 2 ↔ r = 2 ^ (1 / 6 : ℝ)) := by
    intro r hr
    have h2 : ((2 : ℝ) ^ (1 / 6 : ℝ)) ^ 6 = 2 := by
      rw [← Real.rpow_natCast, ← Real.rpow_mul (by norm_num)]; norm_num
    constructor
    · intro h
      exact (pow_left_inj₀ hr (by positivity) (by norm_num)).1 (h.trans h2.symm)
    · rintro rfl; exact h2
  constructor
  · have : 0 ≤ energy atoms - -(∑ i : Fin N, ∑ j : Fin N, if i < j then (1 : ℝ) else 0) := by
      rw [hd]; exact sum_nonneg fun i _ => sum_nonneg fun j _ => hnn i j
    linarith
  · rw [← sub_eq_zero, hd, sum_eq_zero_iff_of_nonneg fun i _ => sum_nonneg fun j _ => hnn i j]
    constructor
    · intro h i j hij
      have key : ∀ i j : Fin N, i < j → dist (atoms i) (atoms j) = 2 ^ (1 / 6 : ℝ) := by
        intro i j hlt
        have h1 := (sum_eq_zero_iff_of_nonneg fun j _ => hnn i j).1 (h i (mem_univ i)) j (mem_univ j)
        rw [if_pos hlt] at h1
        exact (hsix _ dist_nonneg).1 ((potential_eq _).1 (by linarith))
      rcases lt_or_gt_of_ne hij with h1 | h1
      · exact key i j h1
      · rw [dist_comm]; exact key j i h1
    · intro h i _
      refine sum_eq_zero fun j _ => ?_
      split
      · rename_i hlt
        rw [(potential_eq _).2 ((hsix _ dist_nonneg).2 (h i j hlt.ne))]; ring
      · rfl

/-- **C124, five or more atoms.** The bound is not reached: in space at most four points have equal distances. -/
theorem C124_strict {N : ℕ} (hN : 5 ≤ N) (atoms : Fin N → Place) : -((N : ℝ) * (N - 1) / 2) < lennardJones (coordsOf atoms) := by
  have h := C124_bound atoms
  refine lt_of_le_of_ne h.1 fun he => ?_
  have := equidistant_le atoms _ (by positivity) (h.2.1 he.symm)
  omega

/-- A regular tetrahedron -/
noncomputable def tetrahedron (s : ℝ) (i : Fin 4) : Place := WithLp.toLp 2 (![![s, s, s], ![s, -s, -s], ![-s, s, -s], ![-s, -s, s]] i)

/-- **C124, best known values.** For up to four atoms the value of the table is the exact minimum: it is reached, and no configuration has a
smaller value. -/
theorem C124_table (N : ℕ) (hN : N ≤ 4) : ∃ v, bestKnown[N]? = some v ∧
    (∀ atoms : Fin N → Place, (v : ℝ) / 1000000 ≤ lennardJones (coordsOf atoms)) ∧
    ∃ atoms : Fin N → Place, lennardJones (coordsOf atoms) = (v : ℝ) / 1000000 := by
  have hv : bestKnown[N]? = some (-(500000 * (N : ℤ) * (N - 1))) := by
    have : ∀ N : Fin 5, bestKnown[N.val]? = some (-(500000 * (N.val : ℤ) * (N.val - 1))) := by decide +kernel
    exact this ⟨N, by omega⟩
  refine ⟨_, hv, fun atoms => ?_, fun i => tetrahedron (2 ^ (1 / 6 : ℝ) / (2 * √2)) (Fin.castLE hN i), ?_⟩
  · have := (C124_bound atoms).1
    push_cast
    linarith
  · rw [(C124_bound _).2.2]
    · push_cast; ring
    · intro i j hij
      have hne : Fin.castLE hN i ≠ Fin.castLE hN j := fun h => hij (Fin.castLE_injective hN h)
      generalize Fin.castLE hN i = a at *
      generalize Fin.castLE hN j = b at *
      set d : ℝ := 2 ^ (1 / 6 : ℝ) with hd
      have hd0 : 0 < d := by positivity
      have h8 : 8 * (d / (2 * √2)) ^ 2 = d ^ 2 := by
        rw [div_pow, mul_pow, Real.sq_sqrt (by norm_num)]; ring
      have key : ∀ a b : Fin 4, a ≠ b → dist (tetrahedron (d / (2 * √2)) a) (tetrahedron (d / (2 * √2)) b) ^ 2 = 8 * (d / (2 * √2)) ^ 2 := by
        intro a b hab
        rw [EuclideanSpace.dist_eq, Real.sq_sqrt (by positivity), Fin.sum_univ_three]
        simp only [Real.dist_eq, sq_abs]
        generalize d / (2 * √2) = s
        fin_cases a <;> fin_cases b <;> first | exact absurd rfl hab | (simp [tetrahedron]; ring)
      have := key a b hne
      rw [h8] at this
      exact (pow_left_inj₀ dist_nonneg hd0.le two_ne_zero).1 this

/-- The energy from squared distances -/
theorem lennardJones_squares {N : ℕ} (coords : Fin N → Fin 3 → ℝ) (q : Fin N → Fin N → ℝ) (hq : ∀ i j, ∑ k, (coords j k - coords i k) ^ 2 = q i j) :
    lennardJones coords = 2 * ∑ i, ∑ j, if i = j then 0 else 1 / q i j ^ 6 - 1 / q i j ^ 3 := by
  unfold lennardJones
  congr 1
  refine Finset.sum_congr rfl fun i _ => Finset.sum_congr rfl fun j _ => ?_
  unfold distances
  rw [hq]
  have h0 : 0 ≤ q i j := by rw [← hq]; positivity
  split_ifs with h
  · subst h
    have : q i i = 0 := by rw [← hq]; simp
    simp [this]
  · rw [add_zero]
    have e : ∀ m : ℕ, √(q i j) ^ (-(2 * m : ℕ) : ℤ) = 1 / q i j ^ m := by
      intro m
      rw [zpow_neg, zpow_natCast, pow_mul, Real.sq_sqrt h0, one_div]
    exact congrArg₂ (· - ·) (e 6) (e 3)

/-- Three atoms in a plane and one on each side -/
noncomputable def bipyramid (i : Fin 5) : Fin 3 → ℝ :=
  ![![0.649, 0, 0], ![-0.3245, 0.3245 * √3, 0], ![-0.3245, -0.3245 * √3, 0], ![0, 0, 0.9129], ![0, 0, -0.9129]] i

/-- A regular octahedron -/
noncomputable def octahedron (i : Fin 6) : Fin 3 → ℝ :=
  ![![0.7902, 0, 0], ![-0.7902, 0, 0], ![0, 0.7902, 0], ![0, -0.7902, 0], ![0, 0, 0.7902], ![0, 0, -0.7902]] i

/-- **C124, best known values for five and six atoms.** They are reached: there are configurations (a bipyramid and an octahedron) with these values, up to 0.000002. -/
theorem C124_table_five_six :
    (∃ v : ℤ, bestKnown[5]? = some v ∧ ∃ atoms : Fin 5 → Place, |lennardJones (coordsOf atoms) - (v : ℝ) / 1000000| ≤ 0.000002) ∧
    (∃ v : ℤ, bestKnown[6]? = some v ∧ ∃ atoms : Fin 6 → Place, |lennardJones (coordsOf atoms) - (v : ℝ) / 1000000| ≤ 0.000002) := by
  have h3 : √(3 : ℝ) ^ 2 = 3 := Real.sq_sqrt (by norm_num)
  constructor
  · refine ⟨-9103852, by decide +kernel, fun i => WithLp.toLp 2 (bipyramid i), ?_⟩
    have := lennardJones_squares bipyramid
      (fun i j => (![![0, 1.263603, 1.263603, 1.25458741, 1.25458741], ![1.263603, 0, 1.263603, 1.25458741, 1.25458741], ![1.263603, 1.263603, 0, 1.25458741, 1.25458741],
        ![1.25458741, 1.25458741, 1.25458741, 0, 3.33354564], ![1.25458741, 1.25458741, 1.25458741, 3.33354564, 0]] : Matrix (Fin 5) (Fin 5) ℝ) i j) ?_
    · show |lennardJones bipyramid - _| ≤ _
      rw [this, abs_le]
      simp [Fin.sum_univ_five]
      norm_num
    · intro i j
      rw [Fin.sum_univ_three]
      fin_cases i <;> fin_cases j <;> simp [bipyramid] <;> ring_nf <;> (try rw [h3]) <;> norm_num
  · refine ⟨-12712062, by decide +kernel, fun i => WithLp.toLp 2 (octahedron i), ?_⟩
    have := lennardJones_squares octahedron
      (fun i j => (![![0, 2.49766416, 1.24883208, 1.24883208, 1.24883208, 1.24883208], ![2.49766416, 0, 1.24883208, 1.24883208, 1.24883208, 1.24883208],
        ![1.24883208, 1.24883208, 0, 2.49766416, 1.24883208, 1.24883208], ![1.24883208, 1.24883208, 2.49766416, 0, 1.24883208, 1.24883208],
        ![1.24883208, 1.24883208, 1.24883208, 1.24883208, 0, 2.49766416], ![1.24883208, 1.24883208, 1.24883208, 1.24883208, 2.49766416, 0]] : Matrix (Fin 6) (Fin 6) ℝ) i j) ?_
    · show |lennardJones octahedron - _| ≤ _
      rw [this, abs_le]
      simp [Fin.sum_univ_six]
      norm_num
    · intro i j
      rw [Fin.sum_univ_three]
      fin_cases i <;> fin_cases j <;> simp [octahedron] <;> norm_num

/-- **C124, the table.** It decreases strictly from one atom on, and every value respects the bound by the number of pairs. -/
theorem C124_table_monotone (N : ℕ) (v w : ℤ) (hv : bestKnown[N]? = some v) :
    (bestKnown[N + 1]? = some w → 1 ≤ N → w < v) ∧ -(500000 * (N : ℤ) * (N - 1)) ≤ v := by
  have hlt : N < 111 := by
    have := (List.getElem?_eq_some_iff.1 hv).1
    have hl : bestKnown.length = 111 := by decide +kernel
    omega
  have key : ∀ N : Fin 111, (1 ≤ N.val → N.val < 110 → bestKnown[N.val + 1]?.getD 0 < bestKnown[N.val]?.getD 0) ∧
      -(500000 * (N.val : ℤ) * (N.val - 1)) ≤ bestKnown[N.val]?.getD 0 := by decide +kernel
  have h := key ⟨N, hlt⟩
  simp only [hv, Option.getD_some] at h
  refine ⟨fun hw h1 => ?_, h.2⟩
  have hlt' : N < 110 := by
    have := (List.getElem?_eq_some_iff.1 hw).1
    have hl : bestKnown.length = 111 := by decide +kernel
    omega
  have := h.1 h1 hlt'
  rwa [hw, Option.getD_some] at this

/-- **C124 violated: more than 110 atoms.** The desired value, which optimizers read to decide when to stop, does not exist: the table has no entry
(`KeyError`). -/
theorem C124_negation_large (N : ℕ) : desiredValue N = none ↔ 110 < N := by
  have hl : bestKnown.length = 111 := by decide +kernel
  simp [desiredValue, hl]; omega

example : desiredValue 2 = some (-999990) ∧ desiredValue 38 ≠ none := by decide +kernel

end Verif.Props
