import Verif.Lemmas.Gradient
import Verif.Lemmas.TopoSort
/-
Property theorems C12, C13 (pybrain/structure/networks/feedforward.py, modules/module.py,
connections/connection.py).
-/
namespace Verif.Props
open Verif.Net Verif.Net.Spec Finset

section C12
variable {V P K : Type} [DecidableEq V] [DecidableEq P] [AddCommMonoid K]

/-- **C12.** For every well-formed network (any graph, any module and connection functions, any parameters), any
earlier history (arbitrary buffer contents `b`) and any input: `activate` returns the one and only vector that the
defining equations of the graph determine. -/
theorem C12_activate (N : Net V P K) (hN : WF N) (θ : P → Vec K) (b : Bufs V P K) (x y : Vec K) :
    IsOutput N θ x y ↔ y = (activate N θ b x).2 := by
  obtain ⟨h1, -⟩ := activate_solves N hN θ b x
  constructor
  · rintro ⟨inb, outb, hs, rfl⟩
    rw [activate_out]
    apply concat_congr
    intro m hm
    exact (solves_unique N.sorted N.mod N.conns θ _ hN.nodup hN.order hs h1.solves m (hN.outs m hm)).2
  · rintro rfl
    exact ⟨_, _, h1.solves, activate_out N θ b x⟩

/-- **C12, history.** The result does not depend on what was activated, or left in any buffer, before. -/
theorem C12_history (N : Net V P K) (hN : WF N) (θ : P → Vec K) (b b' : Bufs V P K) (x : Vec K) :
    (activate N θ b x).2 = (activate N θ b' x).2 :=
  (C12_activate N hN θ b' x _).1 ((C12_activate N hN θ b x _).2 rfl)

/-- **C12, order.** The result does not depend on which topological order of the modules was chosen, nor on the
order in which the connections leaving a module are stored. -/
theorem C12_order (N N' : Net V P K) (hN : WF N) (hN' : WF N') (hmod : N'.mod = N.mod)
    (hconns : ∀ m, (N'.conns m).Perm (N.conns m)) (hin : N'.inmods = N.inmods) (hout : N'.outmods = N.outmods)
    (hperm : N'.sorted.Perm N.sorted) (θ : P → Vec K) (b b' : Bufs V P K) (x : Vec K) :
    (activate N' θ b' x).2 = (activate N θ b x).2 := by
  apply (C12_activate N hN θ b x _).1
  obtain ⟨inb, outb, hs, hy⟩ := (C12_activate N' hN' θ b' x _).2 rfl
  refine ⟨inb, outb, ⟨?_, ?_⟩, ?_⟩
  · intro n hn j
    have h1 := hs.inputs n (hperm.mem_iff.2 hn) j
    rw [hmod, hin] at h1
    rw [h1]
    congr 1
    have hp : (arcs N'.sorted N'.conns).Perm (arcs N.sorted N.conns) := by
      unfold arcs
      refine (hperm.flatMap_right _).trans (List.Perm.flatMap_left _ ?_)
      intro m _
      exact (hconns m).map _
    exact (hp.map _).sum_eq
  · intro n hn
    have h1 := hs.outputs n (hperm.mem_iff.2 hn)
    rw [hmod] at h1
    exact h1
  · rw [hy, hmod, hout]

end C12

section C13
variable {V P : Type} [DecidableEq V] [DecidableEq P]

/-- **C13.** For every well-formed network whose modules and connections have exact backward passes at the point in
question (C14, C15), every history, parameters, input and output error: after `activate(x)` and `backActivate(e)`,
along every differentiable motion of parameters and input the product ⟨e, output⟩ moves with velocity
⟨returned input error, x'⟩ + ⟨increment of the derivatives, θ'⟩. `Ps` is any finite set of containers that includes
those used and `pd` gives their sizes. -/
theorem C13_backprop_is_gradient (N : Net V P ℝ) (hN : WF N) (Ps : Finset P) (pd : P → Nat)
    (hPm : ∀ n ∈ N.sorted, (N.mod n).pc ∈ Ps) (hPc : ∀ n ∈ N.sorted, ∀ c ∈ N.conns n, c.pc ∈ Ps)
    (θ : P → Vec ℝ) (b : Bufs V P ℝ) (x e : Vec ℝ)
    (hM : ∀ n ∈ N.sorted, ModDiff (N.mod n) (pd (N.mod n).pc) (θ (N.mod n).pc) ((activate N θ b x).1.inb n))
    (hC : ∀ n ∈ N.sorted, ∀ c ∈ N.conns n,
      ConnDiff c (pd c.pc) (θ c.pc) (sl ((activate N θ b x).1.outb n) c.inFrom c.inTo))
    (θc : ℝ → P → Vec ℝ) (xc : ℝ → Vec ℝ) (t0 : ℝ) (θ' : P → Vec ℝ) (x' : Vec ℝ) (hθ0 : θc t0 = θ) (hx0 : xc t0 = x)
    (hθ : ∀ p k, HasDerivAt (fun t => θc t p k) (θ' p k) t0) (hx : ∀ i, HasDerivAt (fun t => xc t i) (x' i) t0) :
    HasDerivAt (fun t => ∑ j ∈ range (outdim N), e j * (activate N (θc t) b (xc t)).2 j)
      (∑ i ∈ range (indim N), (backActivate N θ (activate N θ b x).1 e).2 i * x' i +
        ∑ p ∈ Ps, ∑ k ∈ range (pd p),
          ((backActivate N θ (activate N θ b x).1 e).1.derivs p k - b.derivs p k) * θ' p k) t0 := by
  subst hθ0 hx0
  obtain ⟨-, hi0, ho0, hd0⟩ := activate_solves N hN (θc t0) b (xc t0)
  have hB := backActivate_solves N hN (θc t0) (activate N (θc t0) b (xc t0)).1 e hi0 ho0
  have hBS : BackSolves N.sorted N.mod N.conns (θc t0) (share (fun m => (N.mod m).outdim) N.outmods e)
      (activate N (θc t0) b (xc t0)).1.inb (activate N (θc t0) b (xc t0)).1.outb
      (backActivate N (θc t0) (activate N (θc t0) b (xc t0)).1 e).1.ine
      (backActivate N (θc t0) (activate N (θc t0) b (xc t0)).1 e).1.oute
      (fun p k => (backActivate N (θc t0) (activate N (θc t0) b (xc t0)).1 e).1.derivs p k - b.derivs p k) := by
    refine ⟨hB.oute, hB.ine, ?_⟩
    intro p k
    have := hB.derivs p k
    rw [hd0] at this
    rw [this]; ring
  have hG := grad_of_solves hN.nodup hN.order hN.inSlice hN.outSlice Ps pd hPm hPc θc θ' t0 hθ
    (fun t => share (fun m => (N.mod m).indim) N.inmods (xc t)) (share (fun m => (N.mod m).indim) N.inmods x')
    (share_deriv _ _ _ _ _ hx)
    (fun t => (activate N (θc t) b (xc t)).1.inb) (fun t => (activate N (θc t) b (xc t)).1.outb)
    (fun t => (activate_solves N hN (θc t) b (xc t)).1.solves) hM hC _ _ _ _ hBS
  have e1 : ∀ t, ∑ j ∈ range (outdim N), e j * (activate N (θc t) b (xc t)).2 j =
      (N.sorted.map (fun n => ip (N.mod n).outdim (share (fun m => (N.mod m).outdim) N.outmods e n)
        ((activate N (θc t) b (xc t)).1.outb n))).sum := by
    intro t
    rw [activate_out]
    unfold outdim
    rw [ip_concat _ _ hN.outsNodup]
    rw [sum_sub_nodes N.sorted N.outmods hN.nodup hN.outsNodup hN.outs]
    intro n _ hn
    rw [share_notMem _ _ _ _ hn]
    simp [ip]
  have e2 : ∑ i ∈ range (indim N), (backActivate N (θc t0) (activate N (θc t0) b (xc t0)).1 e).2 i * x' i =
      (N.sorted.map (fun n => ip (N.mod n).indim ((backActivate N (θc t0) (activate N (θc t0) b (xc t0)).1 e).1.ine n)
        (share (fun m => (N.mod m).indim) N.inmods x' n))).sum := by
    rw [backActivate_out]
    unfold indim
    rw [← sum_congr rfl (fun i _ => mul_comm (x' i) _)]
    rw [ip_concat _ _ hN.insNodup]
    rw [sum_sub_nodes N.sorted N.inmods hN.nodup hN.insNodup hN.ins]
    · congr 1
      apply List.map_congr_left
      intro m _
      exact sum_congr rfl (fun i _ => mul_comm _ _)
    · intro n _ hn
      rw [share_notMem _ _ _ _ hn]
      simp [ip]
  simp only [e1, e2]
  exact hG

/-- **C13, partial derivatives.** The entry of `derivs` for parameter `k` of container `p` grows by the partial
derivative of ⟨e, output⟩ with respect to that parameter, and entry `i` of the returned input error is the partial
derivative with respect to input `i`. -/
theorem C13_partial_derivatives (N : Net V P ℝ) (hN : WF N) (Ps : Finset P) (pd : P → Nat)
    (hPm : ∀ n ∈ N.sorted, (N.mod n).pc ∈ Ps) (hPc : ∀ n ∈ N.sorted, ∀ c ∈ N.conns n, c.pc ∈ Ps)
    (θ : P → Vec ℝ) (b : Bufs V P ℝ) (x e : Vec ℝ)
    (hM : ∀ n ∈ N.sorted, ModDiff (N.mod n) (pd (N.mod n).pc) (θ (N.mod n).pc) ((activate N θ b x).1.inb n))
    (hC : ∀ n ∈ N.sorted, ∀ c ∈ N.conns n,
      ConnDiff c (pd c.pc) (θ c.pc) (sl ((activate N θ b x).1.outb n) c.inFrom c.inTo)) :
    (∀ p ∈ Ps, ∀ k < pd p,
      HasDerivAt (fun s => ∑ j ∈ range (outdim N), e j * (activate N (setParam θ p k s) b x).2 j)
        ((backActivate N θ (activate N θ b x).1 e).1.derivs p k - b.derivs p k) (θ p k)) ∧
    (∀ i < indim N,
      HasDerivAt (fun s => ∑ j ∈ range (outdim N), e j * (activate N θ b (setEntry x i s)).2 j)
        ((backActivate N θ (activate N θ b x).1 e).2 i) (x i)) := by
  constructor
  · intro p hp k hk
    have h := C13_backprop_is_gradient N hN Ps pd hPm hPc θ b x e hM hC (fun s => setParam θ p k s) (fun _ => x) (θ p k)
      (fun q j => if q = p ∧ j = k then 1 else 0) (fun _ => 0)
      (by
        funext q j
        simp only [setParam]
        by_cases hq : q = p ∧ j = k
        · rw [if_pos hq, hq.1, hq.2]
        · rw [if_neg hq]) rfl
      (by
        intro q j
        simp only [setParam]
        by_cases hq : q = p ∧ j = k
        · simpa only [hq, and_self, if_true] using hasDerivAt_id' (θ p k)
        · simp only [hq, if_false]; exact hasDerivAt_const _ _)
      (fun _ => hasDerivAt_const _ _)
    refine h.congr_deriv ?_
    simp only [mul_zero, sum_const_zero, zero_add]
    rw [sum_eq_single p]
    · rw [sum_eq_single k]
      · simp
      · intro j _ hj; simp [hj]
      · intro hn; exact absurd (mem_range.2 hk) hn
    · intro q _ hq
      apply sum_eq_zero
      intro j _; simp [hq]
    · intro hn; exact absurd hp hn
  · intro i hi
    have h := C13_backprop_is_gradient N hN Ps pd hPm hPc θ b x e hM hC (fun _ => θ) (fun s => setEntry x i s) (x i)
      (fun _ _ => 0) (fun j => if j = i then 1 else 0) rfl
      (by funext j; simp only [setEntry]; split <;> simp_all)
      (fun _ _ => hasDerivAt_const _ _)
      (by
        intro j
        simp only [setEntry]
        by_cases hj : j = i
        · simpa only [hj, if_true] using hasDerivAt_id' (x i)
        · simp only [hj, if_false]; exact hasDerivAt_const _ _)
    refine h.congr_deriv ?_
    simp only [mul_zero, sum_const_zero, add_zero]
    rw [sum_eq_single i]
    · simp
    · intro j _ hj; simp [hj]
    · intro hn; exact absurd (mem_range.2 hi) hn

end C13
end Verif.Props
