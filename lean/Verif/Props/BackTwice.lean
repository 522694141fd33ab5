import Verif.Model.Layers
import Verif.Model.Connections
import Verif.Lemmas.Gradient
import Verif.Spec.Gradient
/-
Property theorem C56: repeated back-propagation after one activation.
-/
namespace Verif.Props
open Verif.Net Verif.Net.Spec

/-- Three linear layers of one unit in a row, joined by identity connections. -/
def chainNet : Net Nat Unit ℝ where
  mod := fun _ => linearLayer () 1
  sorted := [0, 1, 2]
  inmods := [0]
  outmods := [2]
  conns := fun v => if v = 0 then [identityConnection 1 () 0 1 0 1] else if v = 1 then [identityConnection 2 () 0 1 0 1] else []

/-- **C56** is false: after one `activate`, the first `backActivate(1)` returns the input error 1, which is the derivative of the
(identity) network, and the second returns 3, because the output errors of inner modules accumulate. -/
theorem C56_negation (b : Bufs Nat Unit ℝ) (x : Vec ℝ) :
    let b0 := (activate chainNet (fun _ _ => 0) b x).1
    let r1 := backActivate chainNet (fun _ _ => 0) b0 (fun _ => 1)
    let r2 := backActivate chainNet (fun _ _ => 0) r1.1 (fun _ => 1)
    r1.2 0 = 1 ∧ r2.2 0 = 3 := by
  constructor
  · simp [chainNet, activate, backActivate, sweepBackward, sweepForward, loadErr, loadIn, readErr, modBackward, connBackward, modForward,
      connForward, linearLayer, identityConnection, upd, addAt, sl, tr, resetBufs]
  · simp [chainNet, activate, backActivate, sweepBackward, sweepForward, loadErr, loadIn, readErr, modBackward, connBackward, modForward,
      connForward, linearLayer, identityConnection, upd, addAt, sl, tr, resetBufs]
    norm_num

section
variable {V P K : Type} [DecidableEq V] [DecidableEq P] [AddCommGroup K]

/-- **C56**, the part that holds: with a new `activate` before each, `backActivate` returns the same input error and adds the same
amount to the derivatives every time, whatever happened in between. -/
theorem C56_with_activate_partial (N : Net V P K) (hN : WF N) (θ : P → Vec K) (b b' : Bufs V P K) (x e : Vec K) :
    (backActivate N θ (activate N θ b x).1 e).2 = (backActivate N θ (activate N θ b' x).1 e).2 ∧
    ∀ p k, (backActivate N θ (activate N θ b x).1 e).1.derivs p k - b.derivs p k =
      (backActivate N θ (activate N θ b' x).1 e).1.derivs p k - b'.derivs p k := by
  have hb : ∀ c : Bufs V P K, (activate N θ c x).1 = { (activate N θ b x).1 with derivs := c.derivs } := by
    intro c
    obtain ⟨-, -, -, hd⟩ := activate_solves N hN θ c x
    have e1 : resetBufs c = { resetBufs b with derivs := c.derivs } := rfl
    have load : ∀ (ms : List V) (i : Nat) (d : Bufs V P K) (g : P → Vec K),
        loadIn N x i ms { d with derivs := g } = { loadIn N x i ms d with derivs := g } := by
      intro ms
      induction ms with
      | nil => intros; rfl
      | cons m ms ih => intro i d g; simp only [loadIn]; rw [← ih]
    have conn : ∀ (cs : List (Conn V P K)) (m : V) (d : Bufs V P K) (g : P → Vec K),
        cs.foldl (connForward θ m) { d with derivs := g } = { cs.foldl (connForward θ m) d with derivs := g } := by
      intro cs m
      induction cs with
      | nil => intros; rfl
      | cons c cs ih => intro d g; simp only [List.foldl_cons]; rw [← ih]; rfl
    have sweep : ∀ (ms : List V) (d : Bufs V P K) (g : P → Vec K),
        sweepForward N θ { d with derivs := g } ms = { sweepForward N θ d ms with derivs := g } := by
      intro ms
      induction ms with
      | nil => intros; rfl
      | cons m ms ih =>
        intro d g
        simp only [sweepForward, List.foldl_cons]
        have : modForward N θ { d with derivs := g } m = { modForward N θ d m with derivs := g } := rfl
        rw [this, conn]
        exact ih _ g
    simp only [activate]
    rw [e1, load, sweep]
  have shift : ∀ (d : Bufs V P K) (g : P → Vec K), ∀ c1 c2 : Bufs V P K,
      (c1.inb = c2.inb ∧ c1.outb = c2.outb ∧ c1.ine = c2.ine ∧ c1.oute = c2.oute ∧ ∀ p k, c1.derivs p k - d.derivs p k = c2.derivs p k - g p k) →
      ∀ (r1 r2 : Bufs V P K), r1 = sweepBackward N θ c1 N.sorted → r2 = sweepBackward N θ c2 N.sorted →
      r1.ine = r2.ine ∧ ∀ p k, r1.derivs p k - d.derivs p k = r2.derivs p k - g p k := by
    intro d g
    let R : Bufs V P K → Bufs V P K → Prop := fun c1 c2 =>
      c1.inb = c2.inb ∧ c1.outb = c2.outb ∧ c1.ine = c2.ine ∧ c1.oute = c2.oute ∧ ∀ p k, c1.derivs p k - d.derivs p k = c2.derivs p k - g p k
    have rconn : ∀ (m : V) (c : Conn V P K) (c1 c2 : Bufs V P K), R c1 c2 → R (connBackward θ m c1 c) (connBackward θ m c2 c) := by
      rintro m c c1 c2 ⟨h1, h2, h3, h4, h5⟩
      refine ⟨h1, h2, h3, by simp only [connBackward, h2, h3, h4], ?_⟩
      intro p k
      simp only [connBackward, h2, h3]
      by_cases hp : p = c.pc
      · subst hp
        simp only [upd_same]
        have := h5 c.pc k
        rw [add_sub_right_comm, this, ← add_sub_right_comm]
      · simp only [upd_ne _ _ hp]; exact h5 p k
    have rmod : ∀ (m : V) (c1 c2 : Bufs V P K), R c1 c2 → R (modBackward N θ c1 m) (modBackward N θ c2 m) := by
      rintro m c1 c2 ⟨h1, h2, h3, h4, h5⟩
      refine ⟨h1, h2, by simp only [modBackward, h1, h2, h3, h4], h4, ?_⟩
      intro p k
      simp only [modBackward, h1, h2, h4]
      by_cases hp : p = (N.mod m).pc
      · subst hp
        simp only [upd_same]
        have := h5 (N.mod m).pc k
        rw [add_sub_right_comm, this, ← add_sub_right_comm]
      · simp only [upd_ne _ _ hp]; exact h5 p k
    have rconns : ∀ (cs : List (Conn V P K)) (m : V) (c1 c2 : Bufs V P K), R c1 c2 →
        R (cs.foldl (connBackward θ m) c1) (cs.foldl (connBackward θ m) c2) := by
      intro cs m
      induction cs with
      | nil => intro c1 c2 h; exact h
      | cons c cs ih => intro c1 c2 h; exact ih _ _ (rconn m c c1 c2 h)
    have rsweep : ∀ (ms : List V) (c1 c2 : Bufs V P K), R c1 c2 →
        R (ms.foldl (fun b m => modBackward N θ ((N.conns m).foldl (connBackward θ m) b) m) c1)
          (ms.foldl (fun b m => modBackward N θ ((N.conns m).foldl (connBackward θ m) b) m) c2) := by
      intro ms
      induction ms with
      | nil => intro c1 c2 h; exact h
      | cons m ms ih => intro c1 c2 h; exact ih _ _ (rmod m _ _ (rconns _ m _ _ h))
    intro c1 c2 h r1 r2 e1 e2
    subst e1 e2
    obtain ⟨-, -, h3, -, h5⟩ := rsweep N.sorted.reverse c1 c2 h
    exact ⟨h3, h5⟩
  have hload : ∀ (ms : List V) (i : Nat) (c1 c2 : Bufs V P K), c1.inb = c2.inb → c1.outb = c2.outb → c1.ine = c2.ine → c1.oute = c2.oute →
      (loadErr N e i ms c1).inb = (loadErr N e i ms c2).inb ∧ (loadErr N e i ms c1).outb = (loadErr N e i ms c2).outb ∧
      (loadErr N e i ms c1).ine = (loadErr N e i ms c2).ine ∧ (loadErr N e i ms c1).oute = (loadErr N e i ms c2).oute ∧
      (loadErr N e i ms c1).derivs = c1.derivs := by
    intro ms
    induction ms with
    | nil => intro i c1 c2 h1 h2 h3 h4; exact ⟨h1, h2, h3, h4, rfl⟩
    | cons m ms ih =>
      intro i c1 c2 h1 h2 h3 h4
      simp only [loadErr]
      exact ih _ _ _ h1 h2 h3 (by simp only [h4])
  have hd1 := (activate_solves N hN θ b x).2.2.2
  have hd2 := (activate_solves N hN θ b' x).2.2.2
  have hb' := hb b'
  obtain ⟨l1, l2, l3, l4, l5⟩ := hload N.outmods 0 (activate N θ b x).1 (activate N θ b' x).1 (by rw [hb']) (by rw [hb']) (by rw [hb']) (by rw [hb'])
  obtain ⟨-, -, -, -, l6⟩ := hload N.outmods 0 (activate N θ b' x).1 (activate N θ b x).1 (by rw [hb']) (by rw [hb']) (by rw [hb']) (by rw [hb'])
  obtain ⟨q1, q2⟩ := shift b b'.derivs _ _ ⟨l1, l2, l3, l4, fun p k => by rw [l5, l6, hd1, hd2]; simp⟩ _ _ rfl rfl
  refine ⟨?_, q2⟩
  simp only [backActivate]
  rw [q1]

end

example : WF chainNet where
  nodup := by simp [chainNet]
  insNodup := by simp [chainNet]
  outsNodup := by simp [chainNet]
  ins := by simp [chainNet]
  outs := by simp [chainNet]
  order := by
    simp only [chainNet, List.forall_mem_cons]
    refine ⟨?_, ?_, ?_, by simp⟩
    · simp only [if_true, List.mem_singleton, forall_eq, identityConnection]; exact ⟨[], [], [2], rfl⟩
    · simp [identityConnection]; exact ⟨[0], [], [], rfl⟩
    · simp
  inSlice := by simp [chainNet, identityConnection, linearLayer]
  outSlice := by simp [chainNet, identityConnection, linearLayer]

end Verif.Props
