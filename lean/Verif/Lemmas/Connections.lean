import Verif.Lemmas.Layers
/-
Lemmas: adjoints of the connections; the softmax layer.
-/
namespace Verif.Net
open Verif.Net.Spec Finset

variable {V P : Type}

theorem conn_diff (c : Conn V P ℝ) (pd : Nat) (p x : Vec ℝ) (dF : Vec ℝ → Vec ℝ → Vec ℝ)
    (hF : ∀ (pcv xcv : ℝ → Vec ℝ) (t0 : ℝ) (p' x' : Vec ℝ), pcv t0 = p → xcv t0 = x →
      (∀ k, HasDerivAt (fun t => pcv t k) (p' k) t0) → (∀ i, HasDerivAt (fun t => xcv t i) (x' i) t0) →
      ∀ j, j < c.outTo - c.outFrom → HasDerivAt (fun t => c.fwd (pcv t) (xcv t) j) (dF p' x' j) t0)
    (hadj : ∀ e p' x' : Vec ℝ, ∑ j ∈ range (c.outTo - c.outFrom), e j * dF p' x' j =
      ∑ i ∈ range (c.inTo - c.inFrom), c.bwdErr p e x i * x' i + ∑ k ∈ range pd, c.bwdPar p e x k * p' k) :
    ConnDiff c pd p x := by
  intro pcv xcv t0 p' x' hp hx hp' hx' e
  rw [← hadj]
  exact hasDerivAt_rangeSum _ (fun j t => e j * c.fwd (pcv t) (xcv t) j) _ t0
    (fun j hj => (hF pcv xcv t0 p' x' hp hx hp' hx' j hj).const_mul _)

theorem sum_range_mul (m n : Nat) (f : Nat → ℝ) :
    ∑ k ∈ range (m * n), f k = ∑ j ∈ range m, ∑ i ∈ range n, f (j * n + i) := by
  induction m with
  | zero => simp
  | succ m ih => rw [Nat.succ_mul, sum_range_add, ih, sum_range_succ]

theorem mul_add_mod_lt {j n i : Nat} (hi : i < n) : (j * n + i) % n = i := by
  rw [Nat.mul_comm, Nat.mul_add_mod]; exact Nat.mod_eq_of_lt hi

theorem mul_add_div_lt {j n i : Nat} (hi : i < n) : (j * n + i) / n = j := by
  rw [Nat.mul_comm, Nat.mul_add_div (by omega), Nat.div_eq_of_lt hi]; rfl

theorem identityConnection_diff (outmod : V) (pc : P) (a b c d pd : Nat) (h : b - a = d - c) (p x : Vec ℝ) :
    ConnDiff (identityConnection outmod pc a b c d) pd p x := by
  refine conn_diff _ pd p x (fun _ x' => x') ?_ ?_
  · intro _ _ _ _ x' _ _ _ hx' j _; exact hx' j
  · intro e p' x'
    simp only [identityConnection, zero_mul, sum_const_zero, add_zero, h]

theorem fullConnection_diff (outmod : V) (pc : P) (a b c d : Nat) (p x : Vec ℝ) :
    ConnDiff (fullConnection outmod pc a b c d) ((d - c) * (b - a)) p x := by
  refine conn_diff _ _ p x (fun p' x' j => ∑ i ∈ range (b - a), (p' (j * (b - a) + i) * x i + p (j * (b - a) + i) * x' i)) ?_ ?_
  · intro pcv xcv t0 p' x' hp hx hp' hx' j _
    simp only [fullConnection]
    rw [← hp, ← hx]
    exact hasDerivAt_rangeSum _ (fun i t => pcv t (j * (b - a) + i) * xcv t i) _ t0 (fun i _ => (hp' _).mul (hx' i))
  · intro e p' x'
    simp only [fullConnection]
    rw [sum_range_mul]
    have h1 : ∑ i ∈ range (b - a), (∑ j ∈ range (d - c), p (j * (b - a) + i) * e j) * x' i =
        ∑ j ∈ range (d - c), ∑ i ∈ range (b - a), p (j * (b - a) + i) * e j * x' i := by
      rw [sum_comm]
      exact sum_congr rfl (fun i _ => sum_mul _ _ _)
    rw [h1, ← sum_add_distrib]
    apply sum_congr rfl
    intro j _
    rw [mul_sum, ← sum_add_distrib]
    apply sum_congr rfl
    intro i hi
    rw [mul_add_mod_lt (mem_range.1 hi), mul_add_div_lt (mem_range.1 hi)]
    ring

/-- the derivative that FullNotSelfConnection should accumulate -/
def maskedDeriv (n : Nat) (outerr inbuf : Vec ℝ) : Vec ℝ :=
  fun k => if k / n = k % n then 0 else inbuf (k % n) * outerr (k / n)

theorem fullNotSelf_diff (outmod : V) (pc : P) (a b c d : Nat) (p x : Vec ℝ) :
    ConnDiff { fullNotSelfConnection outmod pc a b c d with bwdPar := fun _ e y => maskedDeriv (b - a) e y }
      ((d - c) * (b - a)) p x := by
  refine conn_diff _ _ p x (fun p' x' j => ∑ i ∈ range (b - a),
    ((p' (j * (b - a) + i) * (1 - if j = i then 1 else 0)) * x i + (p (j * (b - a) + i) * (1 - if j = i then 1 else 0)) * x' i)) ?_ ?_
  · intro pcv xcv t0 p' x' hp hx hp' hx' j _
    simp only [fullNotSelfConnection]
    rw [← hp, ← hx]
    exact hasDerivAt_rangeSum _ (fun i t => pcv t (j * (b - a) + i) * (1 - if j = i then 1 else 0) * xcv t i) _ t0
      (fun i _ => ((hp' _).mul_const _).mul (hx' i))
  · intro e p' x'
    simp only [fullNotSelfConnection]
    rw [sum_range_mul]
    have h1 : ∑ i ∈ range (b - a), (∑ j ∈ range (d - c), p (j * (b - a) + i) * (1 - if j = i then 1 else 0) * e j) * x' i =
        ∑ j ∈ range (d - c), ∑ i ∈ range (b - a), p (j * (b - a) + i) * (1 - if j = i then 1 else 0) * e j * x' i := by
      rw [sum_comm]
      exact sum_congr rfl (fun i _ => sum_mul _ _ _)
    rw [h1, ← sum_add_distrib]
    apply sum_congr rfl
    intro j _
    rw [mul_sum, ← sum_add_distrib]
    apply sum_congr rfl
    intro i hi
    rw [maskedDeriv, mul_add_mod_lt (mem_range.1 hi), mul_add_div_lt (mem_range.1 hi)]
    split <;> ring

theorem linearConnection_diff (outmod : V) (pc : P) (a b c d : Nat) (h : b - a = d - c) (p x : Vec ℝ) :
    ConnDiff { linearConnection outmod pc a b c d with bwdPar := fun _ e y => fun k => e k * y k } (b - a) p x := by
  refine conn_diff _ _ p x (fun p' x' j => x' j * p j + x j * p' j) ?_ ?_
  · intro pcv xcv t0 p' x' hp hx hp' hx' j _
    simp only [linearConnection]
    rw [← hp, ← hx]
    exact (hx' j).mul (hp' j)
  · intro e p' x'
    simp only [linearConnection, ← h]
    rw [← sum_add_distrib]
    apply sum_congr rfl
    intro j _
    ring

/-- straight lines are differentiable -/
theorem line_deriv (p p' : Vec ℝ) (k : Nat) : HasDerivAt (fun t : ℝ => p k + t * p' k) (p' k) 0 := by
  have := ((hasDerivAt_id' (0 : ℝ)).mul_const (p' k)).const_add (p k)
  simpa using this

/-- What `ConnDiff` says along straight lines, given the derivatives of the coordinates. -/
theorem connDiff_line {c : Conn V P ℝ} {pd : Nat} {p x : Vec ℝ} (h : ConnDiff c pd p x) (p' x' dF e : Vec ℝ)
    (hF : ∀ j, j < c.outTo - c.outFrom →
      HasDerivAt (fun t : ℝ => c.fwd (fun k => p k + t * p' k) (fun i => x i + t * x' i) j) (dF j) 0) :
    ∑ j ∈ range (c.outTo - c.outFrom), e j * dF j =
      ∑ i ∈ range (c.inTo - c.inFrom), c.bwdErr p e x i * x' i + ∑ k ∈ range pd, c.bwdPar p e x k * p' k := by
  have h1 := h (fun t k => p k + t * p' k) (fun t i => x i + t * x' i) 0 p' x' (by funext k; simp) (by funext k; simp)
    (line_deriv p p') (line_deriv x x') e
  have h2 := hasDerivAt_rangeSum (c.outTo - c.outFrom)
    (fun j (t : ℝ) => e j * c.fwd (fun k => p k + t * p' k) (fun i => x i + t * x' i) j) (fun j => e j * dF j) 0
    (fun j hj => (hF j hj).const_mul _)
  exact h2.unique h1

theorem modDiff_line {M : Mod P ℝ} {pd : Nat} {p x : Vec ℝ} (h : ModDiff M pd p x) (x' dF e : Vec ℝ)
    (hF : ∀ j, j < M.outdim → HasDerivAt (fun t : ℝ => M.fwd p (fun i => x i + t * x' i) (fun _ => 0) j) (dF j) 0) :
    ∑ j ∈ range M.outdim, e j * dF j =
      ∑ i ∈ range M.indim, M.bwdErr p e (fun _ => 0) (tr M.outdim (M.fwd p x (fun _ => 0))) x i * x' i := by
  have h1 := h (fun _ => p) (fun t i => x i + t * x' i) 0 (fun _ => 0) x' rfl (by funext k; simp)
    (fun k => hasDerivAt_const _ _) (line_deriv x x') e
  have h2 := hasDerivAt_rangeSum M.outdim
    (fun j (t : ℝ) => e j * M.fwd p (fun i => x i + t * x' i) (fun _ => 0) j) (fun j => e j * dF j) 0
    (fun j hj => (hF j hj).const_mul _)
  simpa using h2.unique h1

/-- The adjoint identity for PermutationConnection, exactly when the permutation is an involution. -/
theorem permutationConnection_iff (outmod : V) (pc : P) (a b c d pd m bs : Nat) (π : Nat → Nat)
    (h1 : b - a = m * bs) (h2 : d - c = m * bs) (hbs : 0 < bs) (hπ : ∀ r < m, π r < m) (p x : Vec ℝ) :
    ConnDiff (permutationConnection outmod pc a b c d π bs) pd p x ↔ ∀ r < m, π (π r) = r := by
  have hlhs : ∀ e x' : Vec ℝ, ∑ j ∈ range (m * bs), e j * x' (π (j / bs) * bs + j % bs) =
      ∑ r ∈ range m, ∑ q ∈ range bs, e (r * bs + q) * x' (π r * bs + q) := by
    intro e x'
    rw [sum_range_mul]
    apply sum_congr rfl; intro r _
    apply sum_congr rfl; intro q hq
    rw [mul_add_mod_lt (mem_range.1 hq), mul_add_div_lt (mem_range.1 hq)]
  have hrhs : ∀ e x' : Vec ℝ, ∑ i ∈ range (m * bs), e (π (i / bs) * bs + i % bs) * x' i =
      ∑ r ∈ range m, ∑ q ∈ range bs, e (π r * bs + q) * x' (r * bs + q) := by
    intro e x'
    rw [sum_range_mul]
    apply sum_congr rfl; intro r _
    apply sum_congr rfl; intro q hq
    rw [mul_add_mod_lt (mem_range.1 hq), mul_add_div_lt (mem_range.1 hq)]
  constructor
  · intro h r0 hr0
    have key := connDiff_line h (fun _ => 0) (fun i => if i = π r0 * bs then 1 else 0)
      (fun j => if π (j / bs) * bs + j % bs = π r0 * bs then 1 else 0) (fun j => if j = r0 * bs then 1 else 0) (by
        intro j _
        simp only [permutationConnection, permute]
        have := line_deriv x (fun i => if i = π r0 * bs then 1 else 0) (π (j / bs) * bs + j % bs)
        simpa using this)
    simp only [permutationConnection, permute, h1, h2, zero_mul, sum_const_zero, add_zero] at key
    have e1 := hlhs (fun j => if j = r0 * bs then 1 else 0) (fun i => if i = π r0 * bs then 1 else 0)
    have e2 := hrhs (fun j => if j = r0 * bs then 1 else 0) (fun i => if i = π r0 * bs then 1 else 0)
    have blk : ∀ r r' q, q < bs → (r * bs + q = r' * bs ↔ r = r' ∧ q = 0) := by
      intro r r' q hq
      constructor
      · intro h
        have := congrArg (· / bs) h
        simp only [mul_add_div_lt hq] at this
        rw [Nat.mul_div_cancel _ hbs] at this
        subst this
        exact ⟨rfl, by omega⟩
      · rintro ⟨rfl, rfl⟩; rfl
    have l1 : ∑ j ∈ range (m * bs), (if j = r0 * bs then (1 : ℝ) else 0) * (if π (j / bs) * bs + j % bs = π r0 * bs then 1 else 0) = 1 := by
      rw [sum_eq_single (r0 * bs)]
      · rw [Nat.mul_div_cancel _ hbs, Nat.mul_mod_left]; simp
      · intro j _ hj; simp [hj]
      · intro hn
        exact absurd (mem_range.2 ((Nat.mul_lt_mul_right hbs).2 hr0)) hn
    rw [l1] at key
    rw [e2] at key
    by_contra hne
    have z : ∑ r ∈ range m, ∑ q ∈ range bs, (if π r * bs + q = r0 * bs then (1 : ℝ) else 0) * (if r * bs + q = π r0 * bs then 1 else 0) = 0 := by
      apply sum_eq_zero; intro r _
      apply sum_eq_zero; intro q hq
      have hq' := mem_range.1 hq
      by_cases c1 : π r * bs + q = r0 * bs
      · by_cases c2 : r * bs + q = π r0 * bs
        · exfalso
          have d1 := (blk _ _ _ hq').1 c1
          have d2 := (blk _ _ _ hq').1 c2
          rw [d2.1] at d1
          exact hne d1.1
        · simp [c2]
      · simp [c1]
    rw [z] at key
    exact one_ne_zero key
  · intro hinv
    refine conn_diff _ pd p x (fun _ x' j => x' (π (j / bs) * bs + j % bs)) ?_ ?_
    · intro pcv xcv t0 p' x' _ _ _ hx' j _
      exact hx' _
    · intro e p' x'
      simp only [permutationConnection, permute, h1, h2, zero_mul, sum_const_zero, add_zero]
      rw [hlhs, hrhs]
      refine sum_nbij' π π ?_ ?_ ?_ ?_ ?_
      · intro r hr; exact mem_range.2 (hπ r (mem_range.1 hr))
      · intro r hr; exact mem_range.2 (hπ r (mem_range.1 hr))
      · intro r hr; exact hinv r (mem_range.1 hr)
      · intro r hr; exact hinv r (mem_range.1 hr)
      · intro r hr
        rw [hinv r (mem_range.1 hr)]

/-! ### softmax -/

theorem softmax_sum (n : Nat) (hn : 0 < n) (x : Vec ℝ) :
    ∑ j ∈ range n, safeExp (x j) / ∑ k ∈ range n, safeExp (x k) = 1 := by
  rw [← sum_div]
  apply div_self
  exact (sum_pos (fun k _ => safeExp_pos _) ⟨0, mem_range.2 hn⟩).ne'

theorem softmax_not_diff (pc : P) (n pd : Nat) (hn : 0 < n) (p x : Vec ℝ) : ¬ ModDiff (softmaxLayer pc n) pd p x := by
  intro h
  have h1 := h (fun _ => p) (fun t i => x i + t * (if i = 0 then 1 else 0)) 0 (fun _ => 0) (fun i => if i = 0 then 1 else 0)
    rfl (by funext k; simp) (fun k => hasDerivAt_const _ _) (line_deriv x _) (fun _ => 1)
  have h2 : (fun t : ℝ => ∑ j ∈ range (softmaxLayer pc n).outdim, (1 : ℝ) *
      (softmaxLayer pc n).fwd p (fun i => x i + t * (if i = 0 then 1 else 0)) (fun _ => 0) j) = fun _ => 1 := by
    funext t
    simp only [softmaxLayer, one_mul]
    exact softmax_sum n hn _
  rw [h2] at h1
  have h3 := (hasDerivAt_const (0 : ℝ) (1 : ℝ)).unique h1
  simp only [softmaxLayer, one_mul, zero_mul, mul_zero, sum_const_zero, add_zero] at h3
  rw [sum_eq_single 0] at h3
  · simp at h3
  · intro b _ hb; simp [hb]
  · intro h0; exact absurd (mem_range.2 hn) h0

/-- The derivative of the cross entropy of a softmax output. -/
theorem softmax_xent (pc : P) (n : Nat) (p x tgt : Vec ℝ) (hx5 : ∀ i < n, |x i| < 500)
    (ht : ∑ j ∈ range n, tgt j = 1) (xcv : ℝ → Vec ℝ) (t0 : ℝ) (x' : Vec ℝ) (hx : xcv t0 = x)
    (hx' : ∀ i, HasDerivAt (fun t => xcv t i) (x' i) t0) :
    HasDerivAt (fun t => -∑ j ∈ range n, tgt j * Real.log ((softmaxLayer pc n).fwd p (xcv t) (fun _ => 0) j))
      (∑ i ∈ range n, ((softmaxLayer pc n).fwd p x (fun _ => 0) i - tgt i) * x' i) t0 := by
  have hn : 0 < n := by
    rcases Nat.eq_zero_or_pos n with h | h
    · subst h; simp at ht
    · exact h
  have hS : ∀ y : Vec ℝ, 0 < ∑ k ∈ range n, safeExp (y k) :=
    fun y => sum_pos (fun k _ => safeExp_pos _) ⟨0, mem_range.2 hn⟩
  have hexp : ∀ j, j < n → HasDerivAt (fun t => safeExp (xcv t j)) (safeExp (x j) * x' j) t0 := by
    intro j hj
    have hs := hasDerivAt_safeExp (hx5 j hj)
    rw [← hx] at hs
    have := HasDerivAt.comp t0 (h₂ := safeExp) (h := fun t => xcv t j) hs (hx' j)
    rwa [hx] at this
  have hsum := hasDerivAt_rangeSum n (fun j t => safeExp (xcv t j)) (fun j => safeExp (x j) * x' j) t0 hexp
  have hlog : ∀ j, j < n → HasDerivAt (fun t => Real.log ((softmaxLayer pc n).fwd p (xcv t) (fun _ => 0) j))
      (x' j - (∑ i ∈ range n, safeExp (x i) * x' i) / ∑ k ∈ range n, safeExp (x k)) t0 := by
    intro j hj
    have h1 := (hexp j hj).log (safeExp_pos _).ne'
    have h2 := hsum.log (hS _).ne'
    have h3 := h1.sub h2
    have heq : (fun t => Real.log ((softmaxLayer pc n).fwd p (xcv t) (fun _ => 0) j)) =
        fun t => Real.log (safeExp (xcv t j)) - Real.log (∑ k ∈ range n, safeExp (xcv t k)) := by
      funext t
      simp only [softmaxLayer]
      exact Real.log_div (safeExp_pos _).ne' (hS _).ne'
    rw [heq]
    refine HasDerivAt.congr_deriv h3 ?_
    rw [hx]
    have := (safeExp_pos (x j)).ne'
    field_simp
  have hfin := (hasDerivAt_rangeSum n (fun j t => tgt j * Real.log ((softmaxLayer pc n).fwd p (xcv t) (fun _ => 0) j)) _ t0
    (fun j hj => (hlog j hj).const_mul (tgt j))).neg
  refine HasDerivAt.congr_deriv hfin ?_
  simp only [softmaxLayer, mul_sub, sub_mul, sum_sub_distrib]
  rw [← sum_mul, ht, one_mul, sum_div]
  have : ∀ i ∈ range n, safeExp (x i) * x' i / ∑ k ∈ range n, safeExp (x k) =
      safeExp (x i) / (∑ k ∈ range n, safeExp (x k)) * x' i := fun i _ => by ring
  rw [sum_congr rfl this]
  ring

end Verif.Net
