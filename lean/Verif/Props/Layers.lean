import Verif.Lemmas.Connections
import Verif.Props.Network
/-
Property theorems C14, C15 (pybrain/structure/modules, pybrain/structure/connections, pybrain/tools/functions.py), and
C13 for networks built from these layers and connections.

`ModDiff M pd p x`: the backward implementation of `M` is the exact vector-Jacobian product of its forward
implementation at parameters `p` and input `x` (Verif.Spec.Gradient).
-/
namespace Verif.Props
open Verif.Net Verif.Net.Spec Finset

variable {V P : Type}

/-! ### C14: layers -/

/-- **C14.** LinearLayer, at every input. -/
theorem C14_linear (pc : P) (n pd : Nat) (p x : Vec ℝ) : ModDiff (linearLayer pc n) pd p x := linearLayer_diff pc n pd p x

/-- **C14.** TanhLayer, at every input. -/
theorem C14_tanh (pc : P) (n pd : Nat) (p x : Vec ℝ) : ModDiff (tanhLayer pc n) pd p x := tanhLayer_diff pc n pd p x

/-- **C14.** SoftSignLayer, at every input (including 0). -/
theorem C14_softsign (pc : P) (n pd : Nat) (p x : Vec ℝ) : ModDiff (softSignLayer pc n) pd p x := softSignLayer_diff pc n pd p x

/-- **C14.** ReluLayer, away from the kink. -/
theorem C14_relu (pc : P) (n pd : Nat) (p x : Vec ℝ) (hx : ∀ i < n, x i ≠ 0) : ModDiff (reluLayer pc n) pd p x :=
  reluLayer_diff pc n pd p x hx

/-- **C14.** MultiplicationLayer, at every input. -/
theorem C14_multiplication (pc : P) (n pd : Nat) (p x : Vec ℝ) : ModDiff (multiplicationLayer pc n) pd p x :=
  multiplicationLayer_diff pc n pd p x

/-- **C14.** BiasUnit. -/
theorem C14_bias (pc : P) (pd : Nat) (p x : Vec ℝ) : ModDiff (biasUnit pc) pd p x := biasUnit_diff pc pd p x

/-- **C14 (part).** SigmoidLayer, where the clipping of `safeExp` is not active. -/
theorem C14_sigmoid_partial (pc : P) (n pd : Nat) (p x : Vec ℝ) (hx : ∀ i < n, |x i| < 500) :
    ModDiff (sigmoidLayer pc n) pd p x := sigmoidLayer_diff pc n pd p x hx

/-- **C14 (part).** GateLayer, where the clipping is not active for the gate inputs. -/
theorem C14_gate_partial (pc : P) (n pd : Nat) (p x : Vec ℝ) (hx : ∀ i < n, |x i| < 500) :
    ModDiff (gateLayer pc n) pd p x := gateLayer_diff pc n pd p x hx

/-- **C14 (part).** DoubleGateLayer, likewise. -/
theorem C14_doublegate_partial (pc : P) (n pd : Nat) (p x : Vec ℝ) (hx : ∀ i < n, |x i| < 500) :
    ModDiff (doubleGateLayer pc n) pd p x := doubleGateLayer_diff pc n pd p x hx

/-- **C14 (part).** SwitchLayer, likewise. -/
theorem C14_switch_partial (pc : P) (n pd : Nat) (p x : Vec ℝ) (hx : ∀ i < n, |x i| < 500) :
    ModDiff (switchLayer pc n) pd p x := switchLayer_diff pc n pd p x hx

/-- **C14 fails for SigmoidLayer in the clipped region**: beyond 500 the forward pass is constant while the backward
pass still reports a non-zero slope (in exact arithmetic). -/
theorem C14_negation_sigmoid_clipped (pc : P) (pd : Nat) (p : Vec ℝ) :
    ¬ ModDiff (sigmoidLayer pc 1) pd p (fun _ => 501) := by
  intro h
  have hconst : ∀ y : ℝ, 500 < y → sigmoid y = 1 / (1 + Real.exp (-500)) := by
    intro y hy
    unfold sigmoid safeExp
    rw [min_eq_right (by linarith), max_eq_left (by linarith)]
  have key := modDiff_line h (fun _ => 1) (fun _ => 0) (fun _ => 1) (by
    intro j _
    simp only [sigmoidLayer]
    have hev : (fun t : ℝ => sigmoid (501 + t * 1)) =ᶠ[nhds 0] fun _ => 1 / (1 + Real.exp (-500)) := by
      filter_upwards [lt_mem_nhds (show (-1 : ℝ) < 0 by norm_num)] with t ht
      exact hconst _ (by linarith)
    exact (hasDerivAt_const _ _).congr_of_eventuallyEq hev)
  simp only [sigmoidLayer, sum_range_one, tr, Nat.lt_one_iff, if_true] at key
  rw [hconst 501 (by norm_num)] at key
  have hpos := Real.exp_pos (-500)
  have : (1 : ℝ) / (1 + Real.exp (-500)) * (1 - 1 / (1 + Real.exp (-500))) * 1 * 1 ≠ 0 := by
    have h1 : (1 : ℝ) + Real.exp (-500) ≠ 0 := by positivity
    field_simp
    simp [h1]
  apply this
  rw [← key]; ring

/-- **C14 fails for SoftmaxLayer** at every input: its backward pass hands the error through unchanged, which is never
the transposed derivative of its forward pass. -/
theorem C14_negation_softmax (pc : P) (n pd : Nat) (hn : 0 < n) (p x : Vec ℝ) : ¬ ModDiff (softmaxLayer pc n) pd p x :=
  softmax_not_diff pc n pd hn p x

/-- **C14 (part), SoftmaxLayer.** With the error `target - output` and targets that sum to one, the unchanged error is
exactly minus the gradient of the cross entropy `-∑ target * log output` (where the clipping is not active). -/
theorem C14_softmax_partial (pc : P) (n : Nat) (p x tgt : Vec ℝ) (hx5 : ∀ i < n, |x i| < 500)
    (ht : ∑ j ∈ range n, tgt j = 1) (xcv : ℝ → Vec ℝ) (t0 : ℝ) (x' : Vec ℝ) (hx : xcv t0 = x)
    (hx' : ∀ i, HasDerivAt (fun t => xcv t i) (x' i) t0) :
    HasDerivAt (fun t => ∑ j ∈ range n, tgt j * Real.log ((softmaxLayer pc n).fwd p (xcv t) (fun _ => 0) j))
      (∑ i ∈ range n, (softmaxLayer pc n).bwdErr p
        (fun j => tgt j - (softmaxLayer pc n).fwd p x (fun _ => 0) j) (fun _ => 0)
        ((softmaxLayer pc n).fwd p x (fun _ => 0)) x i * x' i) t0 := by
  have h := (softmax_xent pc n p x tgt hx5 ht xcv t0 x' hx hx').neg
  have h2 : HasDerivAt (fun t => ∑ j ∈ range n, tgt j * Real.log ((softmaxLayer pc n).fwd p (xcv t) (fun _ => 0) j))
      (-∑ i ∈ range n, ((softmaxLayer pc n).fwd p x (fun _ => 0) i - tgt i) * x' i) t0 := by
    refine h.congr_of_eventuallyEq (Filter.Eventually.of_forall ?_)
    intro t; simp
  refine h2.congr_deriv ?_
  rw [← sum_neg_distrib]
  apply sum_congr rfl
  intro i _
  simp only [softmaxLayer]
  ring

/-! ### C15: connections -/

/-- **C15.** IdentityConnection. -/
theorem C15_identity (outmod : V) (pc : P) (a b c d pd : Nat) (h : b - a = d - c) (p x : Vec ℝ) :
    ConnDiff (identityConnection outmod pc a b c d) pd p x := identityConnection_diff outmod pc a b c d pd h p x

/-- **C15.** FullConnection (and SharedFullConnection): error and parameter derivatives, all slices, all weights. -/
theorem C15_full (outmod : V) (pc : P) (a b c d : Nat) (p x : Vec ℝ) :
    ConnDiff (fullConnection outmod pc a b c d) ((d - c) * (b - a)) p x := fullConnection_diff outmod pc a b c d p x

/-- **C15 (part).** LinearConnection passes back the right error: it would be exact if it accumulated
`outerr * inbuf`; it accumulates nothing. -/
theorem C15_linear_partial (outmod : V) (pc : P) (a b c d : Nat) (h : b - a = d - c) (p x : Vec ℝ) :
    ConnDiff { linearConnection outmod pc a b c d with bwdPar := fun _ e y => fun k => e k * y k } (b - a) p x :=
  linearConnection_diff outmod pc a b c d h p x

/-- **C15 fails for LinearConnection's parameters**, at every input with a non-zero entry. -/
theorem C15_negation_linear (outmod : V) (pc : P) (n : Nat) (p x : Vec ℝ) (i : Nat) (hi : i < n) (hx : x i ≠ 0) :
    ¬ ConnDiff (linearConnection outmod pc 0 n 0 n) n p x := by
  intro h
  have key := connDiff_line h (fun k => if k = i then 1 else 0) (fun _ => 0) (fun j => if j = i then x i else 0)
    (fun j => if j = i then 1 else 0) (by
      intro j _
      simp only [linearConnection]
      have h1 := (line_deriv p (fun k => if k = i then 1 else 0) j).const_mul (x j)
      refine (h1.congr_deriv ?_).congr_of_eventuallyEq (Filter.Eventually.of_forall ?_)
      · by_cases hj : j = i
        · simp [hj]
        · simp [hj]
      · intro t; simp)
  simp only [linearConnection, Nat.sub_zero, mul_zero, zero_mul, sum_const_zero, add_zero] at key
  rw [sum_unit n i hi (fun j => if j = i then x i else 0)] at key
  simp only [if_true] at key
  exact hx key

/-- **C15 (part).** FullNotSelfConnection passes back the right error and accumulates the right derivative for every
weight off the diagonal: it is exact with the derivatives on the diagonal masked out. -/
theorem C15_fullnotself_partial (outmod : V) (pc : P) (a b c d : Nat) (p x : Vec ℝ) :
    ConnDiff { fullNotSelfConnection outmod pc a b c d with bwdPar := fun _ e y => maskedDeriv (b - a) e y }
      ((d - c) * (b - a)) p x ∧
    (∀ (q e y : Vec ℝ) (k : Nat), k / (b - a) ≠ k % (b - a) →
      (fullNotSelfConnection outmod pc a b c d).bwdPar q e y k = maskedDeriv (b - a) e y k) :=
  ⟨fullNotSelf_diff outmod pc a b c d p x, fun q e y k hk => by simp [fullNotSelfConnection, maskedDeriv, hk]⟩

/-- **C15 fails for FullNotSelfConnection's diagonal weights**: they have no effect on the output but receive a
derivative. -/
theorem C15_negation_fullnotself (outmod : V) (pc : P) (n : Nat) (p x : Vec ℝ) (i : Nat) (hi : i < n) (hx : x i ≠ 0) :
    ¬ ConnDiff (fullNotSelfConnection outmod pc 0 n 0 n) (n * n) p x := by
  intro h
  have hm := fullNotSelf_diff outmod pc 0 n 0 n p x
  -- compare the two along the motion of the i-th diagonal weight
  have h1 := h (fun t k => p k + t * (if k = i * n + i then 1 else 0)) (fun _ => x) 0 (fun k => if k = i * n + i then 1 else 0) (fun _ => 0)
    (by funext k; simp) rfl (line_deriv p _) (fun _ => hasDerivAt_const _ _) (fun j => if j = i then 1 else 0)
  have h2 := hm (fun t k => p k + t * (if k = i * n + i then 1 else 0)) (fun _ => x) 0 (fun k => if k = i * n + i then 1 else 0) (fun _ => 0)
    (by funext k; simp) rfl (line_deriv p _) (fun _ => hasDerivAt_const _ _) (fun j => if j = i then 1 else 0)
  have h3 := h1.unique h2
  simp only [fullNotSelfConnection, Nat.sub_zero, mul_zero, sum_const_zero, zero_add] at h3
  have hk : i * n + i < n * n := by nlinarith
  have e1 : ∑ k ∈ range (n * n), x (k % n) * (if k / n = i then (1 : ℝ) else 0) * (if k = i * n + i then 1 else 0) = x i := by
    rw [sum_eq_single (i * n + i)]
    · rw [mul_add_mod_lt hi, mul_add_div_lt hi]; simp
    · intro k _ hne; simp [hne]
    · intro hn; exact absurd (mem_range.2 hk) hn
  have e2 : ∑ k ∈ range (n * n), maskedDeriv n (fun j => if j = i then (1 : ℝ) else 0) x k * (if k = i * n + i then 1 else 0) = 0 := by
    apply sum_eq_zero
    intro k _
    by_cases hk' : k = i * n + i
    · subst hk'
      rw [maskedDeriv, mul_add_mod_lt hi, mul_add_div_lt hi]; simp
    · simp [hk']
  rw [e1, e2] at h3
  exact hx h3

/-- **C15, PermutationConnection.** For every permutation `π` of `m` blocks of any positive size: the backward pass is
the adjoint of the forward pass if and only if `π` is its own inverse. -/
theorem C15_permutation (outmod : V) (pc : P) (a b c d pd m bs : Nat) (π : Nat → Nat)
    (h1 : b - a = m * bs) (h2 : d - c = m * bs) (hbs : 0 < bs) (hπ : ∀ r < m, π r < m) (p x : Vec ℝ) :
    ConnDiff (permutationConnection outmod pc a b c d π bs) pd p x ↔ ∀ r < m, π (π r) = r :=
  permutationConnection_iff outmod pc a b c d pd m bs π h1 h2 hbs hπ p x

/-- **C15 fails for PermutationConnection** with the cyclic shift of three elements. -/
theorem C15_negation_permutation (outmod : V) (pc : P) (pd : Nat) (p x : Vec ℝ) :
    ¬ ConnDiff (permutationConnection outmod pc 0 3 0 3 (fun r => (r + 1) % 3) 1) pd p x := by
  rw [C15_permutation outmod pc 0 3 0 3 pd 3 1 _ rfl rfl (by omega) (by intro r _; exact Nat.mod_lt _ (by omega))]
  intro h
  have := h 0 (by omega)
  simp at this

/-! ### C13 for networks of library components -/

/-- A library layer and an input at which its backward pass is exact. -/
inductive GoodMod : Mod P ℝ → Vec ℝ → Prop
  | linear (pc : P) (n : Nat) (x : Vec ℝ) : GoodMod (linearLayer pc n) x
  | tanh (pc : P) (n : Nat) (x : Vec ℝ) : GoodMod (tanhLayer pc n) x
  | softsign (pc : P) (n : Nat) (x : Vec ℝ) : GoodMod (softSignLayer pc n) x
  | mult (pc : P) (n : Nat) (x : Vec ℝ) : GoodMod (multiplicationLayer pc n) x
  | bias (pc : P) (x : Vec ℝ) : GoodMod (biasUnit pc) x
  | relu (pc : P) (n : Nat) (x : Vec ℝ) (h : ∀ i < n, x i ≠ 0) : GoodMod (reluLayer pc n) x
  | sigmoid (pc : P) (n : Nat) (x : Vec ℝ) (h : ∀ i < n, |x i| < 500) : GoodMod (sigmoidLayer pc n) x
  | gate (pc : P) (n : Nat) (x : Vec ℝ) (h : ∀ i < n, |x i| < 500) : GoodMod (gateLayer pc n) x
  | doublegate (pc : P) (n : Nat) (x : Vec ℝ) (h : ∀ i < n, |x i| < 500) : GoodMod (doubleGateLayer pc n) x
  | switch (pc : P) (n : Nat) (x : Vec ℝ) (h : ∀ i < n, |x i| < 500) : GoodMod (switchLayer pc n) x

/-- A library connection with an exact backward pass, and the number of its parameters. -/
inductive GoodConn (pd : P → Nat) : Conn V P ℝ → Prop
  | identity (outmod : V) (pc : P) (a b c d : Nat) (h : b - a = d - c) : GoodConn pd (identityConnection outmod pc a b c d)
  | full (outmod : V) (pc : P) (a b c d : Nat) (h : pd pc = (d - c) * (b - a)) : GoodConn pd (fullConnection outmod pc a b c d)

theorem GoodMod.diff {M : Mod P ℝ} {x : Vec ℝ} (h : GoodMod M x) (pd : Nat) (p : Vec ℝ) : ModDiff M pd p x := by
  cases h with
  | linear pc n => exact C14_linear pc n pd p x
  | tanh pc n => exact C14_tanh pc n pd p x
  | softsign pc n => exact C14_softsign pc n pd p x
  | mult pc n => exact C14_multiplication pc n pd p x
  | bias pc => exact C14_bias pc pd p x
  | relu pc n _ h => exact C14_relu pc n pd p x h
  | sigmoid pc n _ h => exact C14_sigmoid_partial pc n pd p x h
  | gate pc n _ h => exact C14_gate_partial pc n pd p x h
  | doublegate pc n _ h => exact C14_doublegate_partial pc n pd p x h
  | switch pc n _ h => exact C14_switch_partial pc n pd p x h

theorem GoodConn.diff {pd : P → Nat} {c : Conn V P ℝ} (h : GoodConn pd c) (p x : Vec ℝ) : ConnDiff c (pd c.pc) p x := by
  cases h with
  | identity o pc a b c d h => exact C15_identity o pc a b c d _ h p x
  | full o pc a b c d h =>
    have := C15_full o pc a b c d p x
    rw [← h] at this
    exact this

/-- **C13 for library networks.** Any well-formed network of linear, tanh, softsign, multiplication, bias, relu,
sigmoid and gate layers joined by identity and full (also shared) connections: `backActivate` after `activate` gives
the exact partial derivatives, provided no relu input is 0 and no sigmoid input is clipped. -/
theorem C13_library_networks [DecidableEq V] [DecidableEq P] (N : Net V P ℝ) (hN : WF N) (Ps : Finset P) (pd : P → Nat)
    (hPm : ∀ n ∈ N.sorted, (N.mod n).pc ∈ Ps) (hPc : ∀ n ∈ N.sorted, ∀ c ∈ N.conns n, c.pc ∈ Ps ∧ GoodConn pd c)
    (θ : P → Vec ℝ) (b : Bufs V P ℝ) (x e : Vec ℝ)
    (hM : ∀ n ∈ N.sorted, GoodMod (N.mod n) ((activate N θ b x).1.inb n)) :
    (∀ p ∈ Ps, ∀ k < pd p,
      HasDerivAt (fun s => ∑ j ∈ range (outdim N), e j * (activate N (setParam θ p k s) b x).2 j)
        ((backActivate N θ (activate N θ b x).1 e).1.derivs p k - b.derivs p k) (θ p k)) ∧
    (∀ i < indim N,
      HasDerivAt (fun s => ∑ j ∈ range (outdim N), e j * (activate N θ b (setEntry x i s)).2 j)
        ((backActivate N θ (activate N θ b x).1 e).2 i) (x i)) :=
  C13_partial_derivatives N hN Ps pd hPm (fun n hn c hc => (hPc n hn c hc).1) θ b x e
    (fun n hn => (hM n hn).diff _ _) (fun n hn c hc => (hPc n hn c hc).2.diff _ _)

/-! ### a concrete network: two inputs and a bias into three tanh units into one linear output -/

noncomputable def exampleNet : Net Nat Nat ℝ where
  mod := fun v => match v with
    | 0 => linearLayer 0 2
    | 1 => biasUnit 0
    | 2 => tanhLayer 0 3
    | _ => linearLayer 0 1
  sorted := [0, 1, 2, 3]
  inmods := [0]
  outmods := [3]
  conns := fun v => match v with
    | 0 => [fullConnection 2 1 0 2 0 3]
    | 1 => [fullConnection 2 2 0 1 0 3]
    | 2 => [fullConnection 3 3 0 3 0 1]
    | _ => []

theorem exampleNet_wf : WF exampleNet where
  nodup := by simp [exampleNet]
  insNodup := by simp [exampleNet]
  outsNodup := by simp [exampleNet]
  ins := by simp [exampleNet]
  outs := by simp [exampleNet]
  order := by
    simp only [exampleNet, List.forall_mem_cons]
    refine ⟨⟨⟨[], [1], [3], rfl⟩, by simp⟩, ⟨⟨[0], [], [3], rfl⟩, by simp⟩, ⟨⟨[0, 1], [], [], rfl⟩, by simp⟩, by simp, by simp⟩
  inSlice := by simp [exampleNet, fullConnection, linearLayer, biasUnit, tanhLayer]
  outSlice := by simp [exampleNet, fullConnection, linearLayer, tanhLayer]

/-- the hypotheses of C12 and C13 hold for it, for every parameter vector, input, error and history -/
example (θ : Nat → Vec ℝ) (b : Bufs Nat Nat ℝ) (x e : Vec ℝ) (i : Nat) (hi : i < indim exampleNet) :
    HasDerivAt (fun s => ∑ j ∈ range (outdim exampleNet), e j * (activate exampleNet θ b (setEntry x i s)).2 j)
        ((backActivate exampleNet θ (activate exampleNet θ b x).1 e).2 i) (x i) := by
  refine (C13_library_networks exampleNet exampleNet_wf {0, 1, 2, 3} (fun p => if p = 1 then 6 else if p = 2 then 3 else if p = 3 then 3 else 0)
    ?_ ?_ θ b x e ?_).2 i hi
  · simp [exampleNet, linearLayer, biasUnit, tanhLayer]
  · simp only [exampleNet, List.forall_mem_cons]
    refine ⟨⟨⟨by simp [fullConnection], GoodConn.full _ _ _ _ _ _ (by simp)⟩, by simp⟩,
      ⟨⟨by simp [fullConnection], GoodConn.full _ _ _ _ _ _ (by simp)⟩, by simp⟩,
      ⟨⟨by simp [fullConnection], GoodConn.full _ _ _ _ _ _ (by simp)⟩, by simp⟩, by simp, by simp⟩
  · intro n hn
    simp only [exampleNet, List.mem_cons, List.not_mem_nil, or_false] at hn
    rcases hn with rfl | rfl | rfl | rfl
    · exact GoodMod.linear ..
    · exact GoodMod.bias ..
    · exact GoodMod.tanh ..
    · exact GoodMod.linear ..

example : indim exampleNet = 2 ∧ outdim exampleNet = 1 := by simp [indim, outdim, exampleNet, linearLayer]

/-- an involution and a non-involution of three blocks -/
example : (∀ r < 3, (fun r => 2 - r) ((fun r => 2 - r) r) = r) ∧ ¬ (∀ r < 3, (fun r => (r + 1) % 3) ((fun r => (r + 1) % 3) r) = r) := by
  decide

end Verif.Props
