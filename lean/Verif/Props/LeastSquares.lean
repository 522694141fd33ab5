import Verif.Spec.LeastSquares
import Verif.Props.PolicyIteration
/-
C95: least-squares value estimation with a model.
-/
namespace Verif.LSTD
open Matrix Verif.Policy Verif.Policy.Spec

variable {n k d : Nat}

theorem solves {m : Type} [Fintype m] {solve : Matrix m m ℝ → (m → ℝ) → (m → ℝ)} (h : LeastSquares solve) (A : Matrix m m ℝ) (b x : m → ℝ)
    (hx : A *ᵥ x = b) : A *ᵥ (solve A b) = b := by
  have h1 := h A b x
  have h2 : Verif.Pinv.residual A b x = 0 := by
    unfold Verif.Pinv.residual
    rw [hx]; simp
  rw [h2] at h1
  have h3 : ∑ i, ((A *ᵥ solve A b) i - b i) ^ 2 = 0 := le_antisymm h1 (Finset.sum_nonneg fun i _ => sq_nonneg _)
  have h4 := (Finset.sum_eq_zero_iff_of_nonneg (fun i _ => sq_nonneg _)).1 h3
  funext i
  have := h4 i (Finset.mem_univ i)
  have := pow_eq_zero_iff (two_ne_zero) |>.1 this
  linarith

theorem statsLoop_eq (T : Mat n n) (R : Vec n) (fMap : Mat d n) (gamma : ℝ) (ss : List (Fin n)) :
    statsLoop T R fMap gamma ss =
      (fun g f => (ss.map fun sto => ∑ i, T i sto * (fMap g i * (fMap f i - gamma * fMap f sto))).sum,
       fun g => (ss.map fun sto => ∑ i, T i sto * (fMap g i * R sto)).sum) := by
  have key : ∀ (ss : List (Fin n)) (acc : Mat d d × Vec d), ss.foldl (loopStep T R fMap gamma) acc =
      (fun g f => acc.1 g f + (ss.map fun sto => ∑ i, T i sto * (fMap g i * (fMap f i - gamma * fMap f sto))).sum,
       fun g => acc.2 g + (ss.map fun sto => ∑ i, T i sto * (fMap g i * R sto)).sum) := by
    intro ss
    induction ss with
    | nil => intro acc; simp only [List.foldl_nil, List.map_nil, List.sum_nil, add_zero]; rfl
    | cons s ss ih =>
      intro acc
      rw [List.foldl_cons, ih]
      refine Prod.ext ?_ ?_
      · funext g f
        simp only [loopStep, List.map_cons, List.sum_cons, Matrix.add_apply, Matrix.mul_apply, Matrix.transpose_apply, add_assoc]
        congr 2
        refine (Matrix.mul_apply).trans ?_
        refine Finset.sum_congr rfl fun i _ => ?_
        show fMap g i * T i s * (fMap f i - gamma * fMap f s) = _
        ring
      · funext g
        simp only [loopStep, List.map_cons, List.sum_cons, add_assoc]
        congr 2
        rw [Finset.mul_sum]
        exact Finset.sum_congr rfl fun i _ => by ring
  have := key ss (0, 0)
  unfold statsLoop
  rw [this]
  refine Prod.ext ?_ ?_
  · funext g f; exact zero_add _
  · funext g; exact zero_add _

theorem sum_finRange (f : Fin n → ℝ) : ((List.finRange n).map f).sum = ∑ i, f i := by
  rw [← List.ofFn_eq_map, List.sum_ofFn]

theorem stats_spec (T : Mat n n) (R : Vec n) (fMap : Mat d n) (gamma : ℝ) (small : Bool) :
    trueFeatureStats T R fMap gamma none small = spec T R fMap gamma (fun _ _ => True) := by
  have h1 : statsLoop T R fMap gamma (List.finRange n) = spec T R fMap gamma (fun _ _ => True) := by
    rw [statsLoop_eq]
    refine Prod.ext ?_ ?_
    · funext g f
      simp only [spec, sum_finRange, if_true]
      rw [Finset.sum_comm]
    · funext g
      simp only [spec, sum_finRange, if_true]
      rw [Finset.sum_comm]
  unfold trueFeatureStats
  cases small
  · exact h1
  · refine Prod.ext ?_ ?_
    · funext g f
      simp only [statsRep, spec, if_true]
      exact Finset.sum_congr rfl fun i _ => Finset.sum_congr rfl fun c _ => by ring
    · funext g
      simp only [statsRep, spec, if_true, Matrix.vecMul, dotProduct, Matrix.transpose_apply, Matrix.mul_apply, Finset.mul_sum]
      rw [Finset.sum_comm]
      exact Finset.sum_congr rfl fun i _ => Finset.sum_congr rfl fun c _ => by ring

/-- the equation solved, in terms of the Bellman error -/
theorem spec_mulVec (T : Mat n n) (hT : Stochastic T) (R : Vec n) (fMap : Mat d n) (gamma : ℝ) (w : Vec d) (g : Fin d) :
    ((spec T R fMap gamma (fun _ _ => True)).2 - (spec T R fMap gamma (fun _ _ => True)).1 *ᵥ w) g =
      ∑ s, fMap g s * bellmanError T R gamma (w ᵥ* fMap) s := by
  have h1 : ((spec T R fMap gamma (fun _ _ => True)).1 *ᵥ w) g = ∑ s, ∑ s', T s s' * (fMap g s * ((w ᵥ* fMap) s - gamma * (w ᵥ* fMap) s')) := by
    simp only [spec, if_true, Matrix.mulVec, dotProduct, Matrix.vecMul, Finset.sum_mul]
    rw [Finset.sum_comm]
    refine Finset.sum_congr rfl fun s _ => ?_
    rw [Finset.sum_comm]
    refine Finset.sum_congr rfl fun s' _ => ?_
    rw [Finset.mul_sum, ← Finset.sum_sub_distrib, Finset.mul_sum, Finset.mul_sum]
    exact Finset.sum_congr rfl fun f _ => by ring
  rw [Pi.sub_apply, h1]
  simp only [spec, if_true]
  rw [← Finset.sum_sub_distrib]
  refine Finset.sum_congr rfl fun s _ => ?_
  unfold bellmanError
  have h2 : (w ᵥ* fMap) s = ∑ s', T s s' * (w ᵥ* fMap) s := by rw [← Finset.sum_mul, hT.2 s, one_mul]
  conv_rhs => rw [h2]
  rw [← Finset.sum_sub_distrib, ← Finset.sum_sub_distrib, Finset.mul_sum]
  exact Finset.sum_congr rfl fun s' _ => by ring

/-- features that span are able to tell functions apart -/
theorem spans_separates {fMap : Mat d n} (h : Spans fMap) (x : Vec n) (hx : ∀ g, ∑ s, fMap g s * x s = 0) (s : Fin n) : x s = 0 := by
  obtain ⟨w, hw⟩ := h x
  have h1 : ∑ s, x s * x s = 0 := by
    calc ∑ s, x s * x s = ∑ s, ∑ f, w f * (fMap f s * x s) := Finset.sum_congr rfl fun s _ => by
          conv_lhs => rw [hw s]
          rw [Finset.sum_mul]
          exact Finset.sum_congr rfl fun f _ => by rw [hw s]; ring
      _ = ∑ f, w f * ∑ s, fMap f s * x s := by
          rw [Finset.sum_comm]
          exact Finset.sum_congr rfl fun f _ => by rw [Finset.mul_sum]
      _ = 0 := by simp [hx]
  have := (Finset.sum_eq_zero_iff_of_nonneg (fun i _ => mul_self_nonneg (x i))).1 h1 s (Finset.mem_univ s)
  exact mul_self_eq_zero.1 this

theorem isValue_iff (T : Mat n n) (R : Vec n) (gamma : ℝ) (V : Vec n) : IsValue T R gamma V ↔ ∀ s, bellmanError T R gamma V s = 0 := by
  unfold IsValue bellmanError
  exact forall_congr' fun s => ⟨fun h => by linarith, fun h => by linarith⟩

theorem values_exact {lstsq : Mat d d → Vec d → Vec d} (hl : LeastSquares lstsq) (T : Mat n n) (hT : Stochastic T) (R : Vec n) (fMap : Mat d n) (gamma : ℝ)
    (h0 : 0 ≤ gamma) (h1 : gamma < 1) (hs : Spans fMap) (small : Bool) : IsValue T R gamma (values lstsq T R fMap gamma none small) := by
  obtain ⟨V, hV⟩ := Verif.Policy.value_exists T hT R gamma h0 h1
  obtain ⟨w, hw⟩ := hs V
  have hw' : w ᵥ* fMap = V := by funext s; rw [hw s]; rfl
  have hsol : (spec T R fMap gamma (fun _ _ => True)).1 *ᵥ w = (spec T R fMap gamma (fun _ _ => True)).2 := by
    funext g
    have := spec_mulVec T hT R fMap gamma w g
    rw [hw'] at this
    simp only [(isValue_iff T R gamma V).1 hV, mul_zero, Finset.sum_const_zero, Pi.sub_apply] at this
    linarith
  rw [isValue_iff]
  apply spans_separates hs
  intro g
  unfold values
  rw [stats_spec]
  rw [← spec_mulVec T hT, solves hl _ _ w hsol, sub_self]
  rfl

/-! ### Action values -/

theorem fto_eq (fMap : Mat d n) (policy : Mat n k) (sto : Fin n) (p : AF k d) : fto fMap policy sto p = policy sto p.1 * fMap p.2 sto := by
  have key : ∀ (l : List (Fin k)) (acc : AF k d → ℝ), (l.foldl (fun acc a => fun p => acc p + fMapRep fMap sto a p * policy sto a) acc) p =
      acc p + (l.map fun a => fMapRep fMap sto a p * policy sto a).sum := by
    intro l
    induction l with
    | nil => intro acc; simp
    | cons a l ih => intro acc; rw [List.foldl_cons, ih, List.map_cons, List.sum_cons]; ring
  unfold fto
  rw [key, sum_finRange (fun a => fMapRep fMap sto a p * policy sto a), zero_add, Finset.sum_eq_single p.1]
  · simp [fMapRep, mul_comm]
  · intro b _ hb; simp [fMapRep, Ne.symm hb]
  · simp

theorem foldl_pair {ι A B : Type} [AddCommMonoid A] (l : List ι) (f : ι → A) (g : ι → B → ℝ) (acc : A × (B → ℝ)) :
    l.foldl (fun (acc : A × (B → ℝ)) x => (acc.1 + f x, fun p => acc.2 p + g x p)) acc = (acc.1 + (l.map f).sum, fun p => acc.2 p + (l.map fun x => g x p).sum) := by
  induction l generalizing acc with
  | nil => simp
  | cons x l ih => rw [List.foldl_cons, ih]; simp [add_assoc]

theorem qStats_eq (Ts : Fin k → Mat n n) (policy : Mat n k) (R : Vec n) (fMap : Mat d n) (gamma : ℝ) :
    qStats Ts policy R fMap gamma =
      (∑ s', ∑ s, ∑ a, Ts a s s' • vecMulVec (fMapRep fMap s a) (fun p => fMapRep fMap s a p - gamma * fto fMap policy s' p),
       fun p => ∑ s', ∑ s, ∑ a, fMapRep fMap s a p * R s' * Ts a s s') := by
  have sm : ∀ {A : Type} [AddCommMonoid A] {q : Nat} (f : Fin q → A), ((List.finRange q).map f).sum = ∑ i, f i := by
    intro A _ q f; rw [← List.ofFn_eq_map, List.sum_ofFn]
  unfold qStats
  simp only [foldl_pair, sm]
  simp

theorem dot_fMapRep (fMap : Mat d n) (s : Fin n) (a : Fin k) (w : AF k d → ℝ) : fMapRep fMap s a ⬝ᵥ w = ∑ f, w (a, f) * fMap f s := by
  simp only [dotProduct, fMapRep, Fintype.sum_prod_type]
  rw [Finset.sum_eq_single a]
  · exact Finset.sum_congr rfl fun i _ => by simp [mul_comm]
  · intro b _ hb; simp [hb]
  · simp

theorem dot_fto (fMap : Mat d n) (policy : Mat n k) (s : Fin n) (w : AF k d → ℝ) :
    fto fMap policy s ⬝ᵥ w = ∑ a, policy s a * ∑ f, w (a, f) * fMap f s := by
  simp only [dotProduct, fto_eq, Fintype.sum_prod_type, Finset.mul_sum]
  exact Finset.sum_congr rfl fun a _ => Finset.sum_congr rfl fun f _ => by ring

theorem qStats_mulVec (Ts : Fin k → Mat n n) (hT : ∀ a, Stochastic (Ts a)) (policy : Mat n k) (R : Vec n) (fMap : Mat d n) (gamma : ℝ) (w : AF k d → ℝ) (b : Fin k) (g : Fin d) :
    ((qStats Ts policy R fMap gamma).2 - (qStats Ts policy R fMap gamma).1 *ᵥ w) (b, g) =
      ∑ s, fMap g s * bellmanQError Ts policy R gamma (fun s a => ∑ f, w (a, f) * fMap f s) s b := by
  set Q : Mat n k := fun s a => ∑ f, w (a, f) * fMap f s with hQ
  rw [qStats_eq, Pi.sub_apply]
  simp only [Matrix.sum_mulVec, Finset.sum_apply]
  have h1 : ∀ s' s a, ((Ts a s s' • vecMulVec (fMapRep fMap s a) (fun p => fMapRep fMap s a p - gamma * fto fMap policy s' p)) *ᵥ w) (b, g) =
      Ts a s s' * (fMapRep fMap s a (b, g) * (Q s a - gamma * ∑ a', policy s' a' * Q s' a')) := by
    intro s' s a
    have e : (fun p => fMapRep fMap s a p - gamma * fto fMap policy s' p) = fMapRep fMap s a - gamma • fto fMap policy s' := rfl
    rw [e, Matrix.smul_mulVec, vecMulVec_mulVec, sub_dotProduct, smul_dotProduct, dot_fMapRep, dot_fto]
    simp [hQ]
  simp only [h1]
  rw [← Finset.sum_sub_distrib]
  have h2 : ∀ s', (∑ s, ∑ a, fMapRep fMap s a (b, g) * R s' * Ts a s s') -
      (∑ s, ∑ a, Ts a s s' * (fMapRep fMap s a (b, g) * (Q s a - gamma * ∑ a', policy s' a' * Q s' a'))) =
      ∑ s, Ts b s s' * (fMap g s * (R s' + gamma * (∑ a', policy s' a' * Q s' a') - Q s b)) := by
    intro s'
    rw [← Finset.sum_sub_distrib]
    refine Finset.sum_congr rfl fun s _ => ?_
    rw [← Finset.sum_sub_distrib, Finset.sum_eq_single b]
    · simp only [fMapRep, if_true]; ring
    · intro a _ ha; simp [fMapRep, Ne.symm ha]
    · simp
  simp only [h2]
  rw [Finset.sum_comm]
  refine Finset.sum_congr rfl fun s _ => ?_
  unfold bellmanQError
  have h3 : Q s b = ∑ s', Ts b s s' * Q s b := by rw [← Finset.sum_mul, (hT b).2 s, one_mul]
  conv_rhs => rw [h3]
  rw [← Finset.sum_sub_distrib, Finset.mul_sum]
  exact Finset.sum_congr rfl fun s' _ => by ring

theorem qError_action {Ts : Fin k → Mat n n} {policy : Mat n k} {R : Vec n} {gamma : ℝ} {V : Vec n} (hV : IsValue (Dynamics Ts policy) R gamma V) (s : Fin n) (a : Fin k) :
    bellmanQError Ts policy R gamma (actionValue Ts R gamma V) s a = 0 := by
  have hc : collapsed Ts policy = Dynamics Ts policy := by funext s s'; exact collapsed_eq Ts policy s s'
  have h : ∀ s', ∑ a', policy s' a' * actionValue Ts R gamma V s' a' = V s' := by
    intro s'
    rw [hV s', ← dynamics_value, hc]
  unfold bellmanQError
  simp only [h]
  exact sub_self _

theorem qValues_exact {lstsq : Matrix (AF k d) (AF k d) ℝ → (AF k d → ℝ) → (AF k d → ℝ)} (hl : LeastSquares lstsq) (Ts : Fin k → Mat n n) (hT : ∀ a, Stochastic (Ts a))
    (policy : Mat n k) (hp : Stochastic policy) (R : Vec n) (fMap : Mat d n) (gamma : ℝ) (h0 : 0 ≤ gamma) (h1 : gamma < 1) (hs : Spans fMap) (V : Vec n)
    (hV : IsValue (Dynamics Ts policy) R gamma V) : qValues lstsq Ts policy R fMap gamma = actionValue Ts R gamma V := by
  have hc : collapsed Ts policy = Dynamics Ts policy := by funext s s'; exact collapsed_eq Ts policy s s'
  choose w hw using fun a => hs fun s => actionValue Ts R gamma V s a
  have hQ : (fun s a => ∑ f, (fun p : AF k d => w p.1 p.2) (a, f) * fMap f s : Mat n k) = actionValue Ts R gamma V := by
    funext s a; exact (hw a s).symm
  have hsol : (qStats Ts policy R fMap gamma).1 *ᵥ (fun p : AF k d => w p.1 p.2) = (qStats Ts policy R fMap gamma).2 := by
    funext ⟨b, g⟩
    have := qStats_mulVec Ts hT policy R fMap gamma (fun p : AF k d => w p.1 p.2) b g
    rw [hQ] at this
    simp only [qError_action hV, mul_zero, Finset.sum_const_zero, Pi.sub_apply] at this
    linarith
  have hsol' := solves hl _ _ _ hsol
  have herr : ∀ b s, bellmanQError Ts policy R gamma (qValues lstsq Ts policy R fMap gamma) s b = 0 := by
    intro b
    apply spans_separates hs
    intro g
    have := qStats_mulVec Ts hT policy R fMap gamma (lstsq (qStats Ts policy R fMap gamma).1 (qStats Ts policy R fMap gamma).2) b g
    rw [hsol', sub_self] at this
    exact this.symm
  have hval : IsValue (Dynamics Ts policy) R gamma (fun s => ∑ a, policy s a * qValues lstsq Ts policy R fMap gamma s a) := by
    intro s
    rw [← hc, dynamics_value]
    refine Finset.sum_congr rfl fun a _ => ?_
    have := herr a s
    unfold bellmanQError at this
    unfold actionValue
    congr 1
    linarith
  have hVe : (fun s => ∑ a, policy s a * qValues lstsq Ts policy R fMap gamma s a) = V :=
    value_unique _ (hc ▸ collapsed_stochastic Ts policy hT hp) R gamma h0 h1 _ _ hval hV
  funext s a
  have := herr a s
  unfold bellmanQError at this
  have h2 : ∀ s', ∑ a', policy s' a' * qValues lstsq Ts policy R fMap gamma s' a' = V s' := fun s' => congrFun hVe s'
  simp only [h2] at this
  unfold actionValue
  linarith

end Verif.LSTD

namespace Verif.Props
open Matrix Verif.Policy Verif.Policy.Spec Verif.LSTD

variable {n k d : Nat}

/-- The two variants of trueFeatureStats, with large matrices and with a loop, give the same: the sum over all transitions, weighted with their probability. -/
theorem C95_statistics (T : Mat n n) (R : Vec n) (fMap : Mat d n) (gamma : ℝ) :
    statsRep T R fMap gamma = spec T R fMap gamma (fun _ _ => True) ∧ statsLoop T R fMap gamma (List.finRange n) = spec T R fMap gamma (fun _ _ => True) :=
  ⟨LSTD.stats_spec T R fMap gamma true, LSTD.stats_spec T R fMap gamma false⟩

/-- Discrepancy: `stateProp` is documented to restrict the states in which transitions start, but it restricts those in which they end. Here the only
transition of state 0 leads to state 1; sampling state 0 should see it, but nothing is seen. -/
theorem C95_negation_stateProp : let T : Mat 2 2 := fun _ s' => if s' = 1 then 1 else 0
    let R : Vec 2 := fun s => if s = 1 then 1 else 0
    let fMap : Mat 2 2 := fun f s => if f = s then 1 else 0
    (trueFeatureStats T R fMap 0 (some [0]) true).2 0 = 0 ∧ (spec T R fMap 0 (fun s _ => s ∈ [0])).2 0 = 1 ∧
      ∀ ss : List (Fin 2), ss.Nodup → trueFeatureStats T R fMap 0 (some ss) true = spec T R fMap 0 (fun _ s' => s' ∈ ss) := by
  intro T R fMap
  refine ⟨?_, ?_, fun ss hss => ?_⟩
  · simp only [trueFeatureStats, LSTD.statsLoop_eq]
    simp [T, R]
  · simp [spec, T, R, fMap, Fin.sum_univ_two]
  · simp only [trueFeatureStats, LSTD.statsLoop_eq, spec]
    have key : ∀ f : Fin 2 → ℝ, (ss.map f).sum = ∑ s', if s' ∈ ss then f s' else 0 := by
      intro f
      rw [← Finset.sum_filter, ← List.sum_toFinset f hss]
      congr 1
      ext x; simp
    refine Prod.ext ?_ ?_
    · funext g f
      simp only [key]
      rw [Finset.sum_comm]
      refine Finset.sum_congr rfl fun s _ => ?_
      by_cases h : s ∈ ss <;> simp [h]
    · funext g
      simp only [key]
      rw [Finset.sum_comm]
      refine Finset.sum_congr rfl fun s _ => ?_
      by_cases h : s ∈ ss <;> simp [h]

/-- The values of LSTD_values are a combination of the features whose Bellman error is orthogonal to every feature, whenever there is such a combination. -/
theorem C95_projected {lstsq : Mat d d → Vec d → Vec d} (hl : LeastSquares lstsq) (T : Mat n n) (hT : Stochastic T) (R : Vec n) (fMap : Mat d n) (gamma : ℝ)
    (small : Bool) (w : Vec d) (hw : ∀ g, ∑ s, fMap g s * bellmanError T R gamma (fun s => ∑ f, w f * fMap f s) s = 0) :
    (∃ w' : Vec d, values lstsq T R fMap gamma none small = fun s => ∑ f, w' f * fMap f s) ∧
    ∀ g, ∑ s, fMap g s * bellmanError T R gamma (values lstsq T R fMap gamma none small) s = 0 := by
  refine ⟨⟨_, rfl⟩, fun g => ?_⟩
  have hsol : (spec T R fMap gamma (fun _ _ => True)).1 *ᵥ w = (spec T R fMap gamma (fun _ _ => True)).2 := by
    funext g
    have h1 := LSTD.spec_mulVec T hT R fMap gamma w g
    have h2 := hw g
    have h3 : w ᵥ* fMap = fun s => ∑ f, w f * fMap f s := rfl
    rw [h3, h2, Pi.sub_apply] at h1
    linarith
  unfold values
  rw [LSTD.stats_spec]
  rw [← LSTD.spec_mulVec T hT, LSTD.solves hl _ _ w hsol, sub_self]
  rfl

/-- When the features can express every function of the states (for example one feature per state), LSTD_values returns the value function, and LSTD_Qvalues the
exact value of every action under the policy. -/
theorem C95_exact {lstsq : Mat d d → Vec d → Vec d} (hl : LeastSquares lstsq) {lstsqQ : Matrix (AF k d) (AF k d) ℝ → (AF k d → ℝ) → (AF k d → ℝ)}
    (hlQ : LeastSquares lstsqQ) (Ts : Fin k → Mat n n) (hT : ∀ a, Stochastic (Ts a)) (policy : Mat n k) (hp : Stochastic policy) (R : Vec n) (fMap : Mat d n)
    (gamma : ℝ) (h0 : 0 ≤ gamma) (h1 : gamma < 1) (hs : Spans fMap) (small : Bool) :
    IsValue (Dynamics Ts policy) R gamma (values lstsq (Dynamics Ts policy) R fMap gamma none small) ∧
    qValues lstsqQ Ts policy R fMap gamma = actionValue Ts R gamma (values lstsq (Dynamics Ts policy) R fMap gamma none small) := by
  have hc : collapsed Ts policy = Dynamics Ts policy := by funext s s'; exact collapsed_eq Ts policy s s'
  have hV := LSTD.values_exact hl (Dynamics Ts policy) (hc ▸ collapsed_stochastic Ts policy hT hp) R fMap gamma h0 h1 hs small
  exact ⟨hV, LSTD.qValues_exact hlQ Ts hT policy hp R fMap gamma h0 h1 hs _ hV⟩

/-- With such features LSPI_policy goes through the same policies as LSTD_PI_policy, and returns the dynamics of the policy it returns. -/
theorem C95_lspi (hk : 0 < k) {lstsq : Mat d d → Vec d → Vec d} (hl : LeastSquares lstsq) {lstsqQ : Matrix (AF k d) (AF k d) ℝ → (AF k d → ℝ) → (AF k d → ℝ)}
    (hlQ : LeastSquares lstsqQ) (Ts : Fin k → Mat n n) (hT : ∀ a, Stochastic (Ts a)) (R : Vec n) (fMap : Mat d n)
    (gamma : ℝ) (h0 : 0 ≤ gamma) (h1 : gamma < 1) (hs : Spans fMap) (small : Bool) (init : Option (Mat n k)) (hinit : ∀ p, init = some p → Stochastic p)
    (maxIters : Nat) :
    (lspiPolicy lstsqQ fMap Ts R gamma init maxIters).1 = (lstdPiPolicy lstsq fMap Ts R gamma small init maxIters).1 ∧
    (lspiPolicy lstsqQ fMap Ts R gamma init maxIters).2 = Dynamics Ts (lspiPolicy lstsqQ fMap Ts R gamma init maxIters).1 := by
  have hc : ∀ p : Mat n k, collapsed Ts p = Dynamics Ts p := by intro p; funext s s'; exact collapsed_eq Ts p s s'
  have key : ∀ (m : Nat) (p : Mat n k), Stochastic p →
      (lspiLoop Ts (fun policy => qValues lstsqQ Ts policy R fMap gamma) m p).1 =
        (piLoop Ts R gamma (fun T => values lstsq T R fMap gamma none small) m p (Dynamics Ts p)).1 ∧
      (lspiLoop Ts (fun policy => qValues lstsqQ Ts policy R fMap gamma) m p).2 =
        Dynamics Ts (lspiLoop Ts (fun policy => qValues lstsqQ Ts policy R fMap gamma) m p).1 := by
    intro m
    induction m with
    | zero => intro p _; exact ⟨rfl, hc p⟩
    | succ m ih =>
      intro p hp
      have hq := (C95_exact hl hlQ Ts hT p hp R fMap gamma h0 h1 hs small).2
      have hg : greedyQPolicy (qValues lstsqQ Ts p R fMap gamma) = (greedyPolicy Ts R gamma (values lstsq (Dynamics Ts p) R fMap gamma none small)).1 := by
        unfold greedyPolicy
        dsimp only
        congr 1
        rw [hq]
        funext s a
        exact (lookahead_eq Ts R gamma _ s a).symm
      simp only [lspiLoop, piLoop, hg]
      split
      · exact ⟨rfl, hc p⟩
      · have hst := greedyQ_stochastic hk (qValues lstsqQ Ts p R fMap gamma)
        rw [hg] at hst
        have := ih _ hst
        rw [← hc (greedyPolicy Ts R gamma (values lstsq (Dynamics Ts p) R fMap gamma none small)).1] at this
        exact this
  have hst : Stochastic (init.getD (randomPolicy Ts).1) := by
    cases init with
    | none => exact (C41_random hk Ts).1
    | some p => exact hinit p rfl
  have h2 := key maxIters _ hst
  refine ⟨?_, h2.2⟩
  unfold lspiPolicy lstdPiPolicy
  rw [h2.1]
  cases init with
  | none => simp only [policyIteration, (C41_random hk Ts).2.2, Option.getD_none]
  | some p => simp only [policyIteration, hc, Option.getD_some]

/-- and when a further iteration would change nothing, no policy is worth more than the one returned, except for `max|R| / (1000 (1 - γ)²)`. -/
theorem C95_optimal (hk : 0 < k) {lstsqQ : Matrix (AF k d) (AF k d) ℝ → (AF k d → ℝ) → (AF k d → ℝ)} {lstsq : Mat d d → Vec d → Vec d} (hl : LeastSquares lstsq)
    (hlQ : LeastSquares lstsqQ) (Ts : Fin k → Mat n n) (hT : ∀ a, Stochastic (Ts a)) (R : Vec n) (fMap : Mat d n)
    (gamma : ℝ) (h0 : 0 ≤ gamma) (h1 : gamma < 1) (hs : Spans fMap) (init : Option (Mat n k)) (hinit : ∀ p, init = some p → Stochastic p)
    (maxIters : Nat) (hstop : (lspiPolicy lstsqQ fMap Ts R gamma init (maxIters + 1)).1 = (lspiPolicy lstsqQ fMap Ts R gamma init maxIters).1)
    (M : ℝ) (hM : ∀ s, |R s| ≤ M) (V : Vec n) (hV : IsValue (lspiPolicy lstsqQ fMap Ts R gamma init maxIters).2 R gamma V)
    (policy' : Mat n k) (hp' : Stochastic policy') (V' : Vec n) (hV' : IsValue (Dynamics Ts policy') R gamma V') (s : Fin n) :
    V' s ≤ V s + 1 / 1000 * (M / (1 - gamma)) / (1 - gamma) := by
  have e1 := C95_lspi hk hl hlQ Ts hT R fMap gamma h0 h1 hs true init hinit maxIters
  have e2 := C95_lspi hk hl hlQ Ts hT R fMap gamma h0 h1 hs true init hinit (maxIters + 1)
  rw [e1.1, e2.1] at hstop
  rw [e1.2, e1.1] at hV
  exact (C41_iteration hk Ts R gamma hT h0 h1 _ (fun T hT' => LSTD.values_exact hl T hT' R fMap gamma h0 h1 hs true) init hinit maxIters).2.2.2 hstop M hM V hV
    policy' hp' V' hV' s

/-- one feature per state expresses every function -/
example : Spans (fun f s => if f = s then 1 else 0 : Mat n n) := fun V => ⟨V, fun s => by simp⟩

/-- there are least-squares solvers: the pseudo-inverse gives one -/
example (pinv : Mat d d → Mat d d) (h : ∀ A, Verif.Pinv.IsPinv A (pinv A)) : LeastSquares fun A b => pinv A *ᵥ b :=
  fun A b x => Verif.Pinv.least_squares (h A) b x

end Verif.Props
