import Verif.Lemmas.BpttCore
import Verif.Props.Layers
/-
Property theorems C16, C58, C59 (pybrain/structure/networks/recurrent.py).
-/
namespace Verif.Props
open Verif.Net Verif.Net.Spec

section
variable {V P K : Type} [DecidableEq V] [DecidableEq P] [AddCommMonoid K]

/-- The specification determines the outputs. -/
theorem isOutputs_unique (N : RNet V P K) (hN : RWF N) (θ : P → Vec K) (xs ys ys' : List (Vec K))
    (h : IsOutputs N θ xs ys) (h' : IsOutputs N θ xs ys') : ys = ys' := by
  obtain ⟨i, o, hs, rfl⟩ := h
  obtain ⟨i', o', hs', rfl⟩ := h'
  apply List.map_congr_left
  intro t ht
  apply concat_congr
  intro m hm
  exact (solves_unique _ _ _ _ _ (nodesT_nodup N hN.base.nodup _) (nodesT_order N hN _) hs hs' (m, t)
    (mem_nodesT.2 ⟨hN.base.outs m hm, List.mem_range.1 ht⟩)).2

/-- **C16.** For every well-formed recurrent network, whatever happened before (`s` is any state with buffers of equal,
positive length), every input sequence `xs` and every schedule of additional buffer enlargements (`gxs` lists the inputs, each with
the number of extra `_growBuffers()` calls made before it): after `reset()`, activating on the sequence raises nothing and returns
the one and only outputs of the unrolled graph. -/
theorem C16_recurrent_activation (N : RNet V P K) (hN : RWF N) (θ : P → Vec K) (s : RState V P K) (hs : Shape s)
    (gxs : List (Nat × Vec K)) (ys : List (Vec K)) :
    IsOutputs N θ (gxs.map Prod.snd) ys ↔ ∃ s', ractivateAll N false θ (rreset s) gxs = some (s', ys) := by
  obtain ⟨s', ys', h1, h2, -, h4⟩ := ractivateAll_inv hN.base gxs (rreset_inv N θ (gxs.map Prod.snd) s hs) (by simp) (Nat.zero_le _)
  have hO : IsOutputs N θ (gxs.map Prod.snd) ys' := by
    refine ⟨_, _, rows_solve N hN θ (gxs.map Prod.snd) (fun u => s'.inb.getD u zrow) (fun u => s'.outb.getD u zrow) s.derivs h2.rows, ?_⟩
    rw [h4, Nat.sub_zero, ← List.range_eq_range']
  constructor
  · intro h
    rw [isOutputs_unique N hN θ _ ys ys' h hO]
    exact ⟨s', h1⟩
  · rintro ⟨s'', h⟩
    rw [h1] at h
    simp only [Option.some.injEq, Prod.mk.injEq] at h
    rw [← h.2]; exact hO

/-- **C16, buffers.** Enlarging the buffers at any moments never changes an output, and neither does the length the buffers had
before `reset()`. -/
theorem C16_growth (N : RNet V P K) (hN : RWF N) (θ : P → Vec K) (s s2 : RState V P K) (hs : Shape s) (hs2 : Shape s2)
    (gxs gxs2 : List (Nat × Vec K)) (hx : gxs.map Prod.snd = gxs2.map Prod.snd) :
    (ractivateAll N false θ (rreset s) gxs).map Prod.snd = (ractivateAll N false θ (rreset s2) gxs2).map Prod.snd := by
  obtain ⟨s', ys, h1, -, -, -⟩ := ractivateAll_inv hN.base gxs (rreset_inv N θ (gxs.map Prod.snd) s hs) (by simp) (Nat.zero_le _)
  obtain ⟨s2', ys2, h2, -, -, -⟩ := ractivateAll_inv hN.base gxs2 (rreset_inv N θ (gxs2.map Prod.snd) s2 hs2) (by simp) (Nat.zero_le _)
  have a := (C16_recurrent_activation N hN θ s hs gxs ys).2 ⟨_, h1⟩
  have b := (C16_recurrent_activation N hN θ s2 hs2 gxs2 ys2).2 ⟨_, h2⟩
  rw [hx] at a
  rw [h1, h2, Option.map_some, Option.map_some, isOutputs_unique N hN θ _ _ _ a b]

/-- **C58.** A forgetful network gives, after `reset()`, the same outputs as one that keeps its history, provided its recurrent
connections carry nothing when nothing was output; and however long the sequence, its buffers never have more rows than
before or two, whichever is more. -/
theorem C58_forget (N : RNet V P K) (hN : RWF N) (hz : ∀ a ∈ N.recs, ∀ p, a.2.fwd p (fun _ => 0) = fun _ => 0)
    (θ : P → Vec K) (s : RState V P K) (hs : Shape s) (xs : List (Vec K)) :
    ∃ s' ys, ractivateAll N true θ (rreset s) (xs.map fun x => (0, x)) = some (s', ys) ∧ IsOutputs N θ xs ys ∧
      s'.inb.length ≤ max s.inb.length 2 := by
  obtain ⟨s', ys, O, h1, h2, -, h4⟩ := gactivateAll_inv hN.base hz xs (greset_inv N θ xs s hs) (by simp) (Nat.zero_le _)
  obtain ⟨I, hI⟩ := h2.rows
  refine ⟨s', ys, h1, ⟨_, _, rows_solve N hN θ xs I O _ hI, ?_⟩, ?_⟩
  · rw [h4, Nat.sub_zero, ← List.range_eq_range']
  · rw [h2.len]; split <;> omega

end

section
variable {V P : Type} [DecidableEq V] [DecidableEq P]
open Finset

/-- **C59.** Back-propagation through time. For every well-formed recurrent network whose modules and connections have exact
backward passes at the values that occur, and whose recurrent connections send nothing back for zero error: after `reset()`, activating
on the inputs `xs`, and calling `backActivate` with errors for the last, last but one, ... first time step, neither run raises, and along
every differentiable motion of the parameters and of all inputs the sum over time of ⟨errors, outputs⟩ moves with velocity
Σ_t ⟨returned input error t, velocity of input t⟩ + ⟨increment of the derivatives, velocity of the parameters⟩.
(The returned errors `gs` come in the order of the calls, last time step first.) -/
theorem C59_bptt (N : RNet V P ℝ) (hN : RWF N) (Ps : Finset P) (pd : P → Nat)
    (hPm : ∀ n ∈ N.sorted, (N.mod n).pc ∈ Ps) (hPc : ∀ n ∈ N.sorted, ∀ c ∈ N.conns n, c.pc ∈ Ps) (hPr : ∀ a ∈ N.recs, a.2.pc ∈ Ps)
    (hz : ∀ a ∈ N.recs, ∀ p x, a.2.bwdErr p (fun _ => 0) x = (fun _ => 0) ∧ a.2.bwdPar p (fun _ => 0) x = fun _ => 0)
    (θ : P → Vec ℝ) (s : RState V P ℝ) (hs : Shape s) (xs es : List (Vec ℝ)) (hl : es.length = xs.length) :
    ∃ s1 ys s2 gs, ractivateAll N false θ (rreset s) (xs.map fun x => (0, x)) = some (s1, ys) ∧
      rbackAll N θ s1 es.reverse = some (s2, gs) ∧
      ((∀ t < xs.length, ∀ n ∈ N.sorted, ModDiff (N.mod n) (pd (N.mod n).pc) (θ (N.mod n).pc) (s1.inb.getD t zrow n)) →
       (∀ t < xs.length, ∀ n ∈ N.sorted, ∀ c ∈ N.conns n, ConnDiff c (pd c.pc) (θ c.pc) (sl (s1.outb.getD t zrow n) c.inFrom c.inTo)) →
       (∀ t < xs.length, ∀ a ∈ N.recs, ConnDiff a.2 (pd a.2.pc) (θ a.2.pc) (sl (s1.outb.getD t zrow a.1) a.2.inFrom a.2.inTo)) →
       ∀ (θc : ℝ → P → Vec ℝ) (xc : ℝ → Nat → Vec ℝ) (t0 : ℝ) (θ' : P → Vec ℝ) (x' : Nat → Vec ℝ) (Y : ℝ → List (Vec ℝ)),
        θc t0 = θ → (∀ t < xs.length, xc t0 t = xs.getD t fun _ => 0) →
        (∀ p k, HasDerivAt (fun τ => θc τ p k) (θ' p k) t0) → (∀ t i, HasDerivAt (fun τ => xc τ t i) (x' t i) t0) →
        (∀ τ, IsOutputs N (θc τ) ((List.range xs.length).map (xc τ)) (Y τ)) →
        HasDerivAt (fun τ => ∑ t ∈ range xs.length, ∑ j ∈ range (outdim N.toNet), es.getD t (fun _ => 0) j * (Y τ).getD t (fun _ => 0) j)
          (∑ t ∈ range xs.length, ∑ i ∈ range (indim N.toNet), gs.reverse.getD t (fun _ => 0) i * x' t i +
            ∑ p ∈ Ps, ∑ k ∈ range (pd p), (s2.derivs p k - s.derivs p k) * θ' p k) t0) := by
  obtain ⟨s1, ys, h1, h2, -, -⟩ := ractivateAll_inv hN.base (xs.map fun x => (0, x)) (rreset_inv N θ xs s hs) (by simp [Function.comp_def]) (Nat.zero_le _)
  have hb0 := h2.back hl
  obtain ⟨s2, gs, b1, b2, -, b4⟩ := rbackAll_inv hN.base es.length (Nat.le_refl _) hb0
  rw [List.take_length] at b1
  refine ⟨s1, ys, s2, gs, h1, b1, ?_⟩
  intro hM hC hR θc xc t0 θ' x' Y hθ0 hx0 hθ hx hY
  rw [hl] at b2 b4
  have := bptt_core N hN Ps pd hPm hPc hPr hz θ xs es (fun u => s1.inb.getD u zrow) (fun u => s1.outb.getD u zrow) s.derivs s2 h2.rows b2 hM hC hR
    θc xc t0 θ' x' Y hθ0 hx0 hθ hx hY
  refine this.congr_deriv ?_
  congr 1
  apply sum_congr rfl
  intro t ht
  rw [mem_range] at ht
  have hgt : gs.reverse.getD t (fun _ => 0) = concat (fun m => (N.mod m).indim) N.inmods (s2.ine.getD t zrow) := by
    rw [b4]
    simp only [List.getD_eq_getElem?_getD, List.getElem?_map, List.getElem?_range ht, Option.map_some, Option.getD_some]
  rw [hgt]

/-- **C59 for library networks.** Any well-formed recurrent network of linear, tanh, softsign, multiplication, bias, relu, sigmoid and
gate layers joined by identity and full (also shared) connections, recurrent or not. -/
theorem C59_library_networks (N : RNet V P ℝ) (hN : RWF N) (Ps : Finset P) (pd : P → Nat)
    (hPm : ∀ n ∈ N.sorted, (N.mod n).pc ∈ Ps) (hPc : ∀ n ∈ N.sorted, ∀ c ∈ N.conns n, c.pc ∈ Ps ∧ GoodConn pd c)
    (hPr : ∀ a ∈ N.recs, a.2.pc ∈ Ps ∧ GoodConn pd a.2)
    (θ : P → Vec ℝ) (s : RState V P ℝ) (hs : Shape s) (xs es : List (Vec ℝ)) (hl : es.length = xs.length) :
    ∃ s1 ys s2 gs, ractivateAll N false θ (rreset s) (xs.map fun x => (0, x)) = some (s1, ys) ∧
      rbackAll N θ s1 es.reverse = some (s2, gs) ∧
      ((∀ t < xs.length, ∀ n ∈ N.sorted, GoodMod (N.mod n) (s1.inb.getD t zrow n)) →
       ∀ (θc : ℝ → P → Vec ℝ) (xc : ℝ → Nat → Vec ℝ) (t0 : ℝ) (θ' : P → Vec ℝ) (x' : Nat → Vec ℝ) (Y : ℝ → List (Vec ℝ)),
        θc t0 = θ → (∀ t < xs.length, xc t0 t = xs.getD t fun _ => 0) →
        (∀ p k, HasDerivAt (fun τ => θc τ p k) (θ' p k) t0) → (∀ t i, HasDerivAt (fun τ => xc τ t i) (x' t i) t0) →
        (∀ τ, IsOutputs N (θc τ) ((List.range xs.length).map (xc τ)) (Y τ)) →
        HasDerivAt (fun τ => ∑ t ∈ range xs.length, ∑ j ∈ range (outdim N.toNet), es.getD t (fun _ => 0) j * (Y τ).getD t (fun _ => 0) j)
          (∑ t ∈ range xs.length, ∑ i ∈ range (indim N.toNet), gs.reverse.getD t (fun _ => 0) i * x' t i +
            ∑ p ∈ Ps, ∑ k ∈ range (pd p), (s2.derivs p k - s.derivs p k) * θ' p k) t0) := by
  have hzero : ∀ c : Conn V P ℝ, GoodConn pd c → ∀ p x, c.bwdErr p (fun _ => 0) x = (fun _ => 0) ∧ c.bwdPar p (fun _ => 0) x = fun _ => 0 := by
    intro c hc p x
    cases hc with
    | identity => constructor <;> (funext i; simp [identityConnection])
    | full => constructor <;> (funext i; simp [fullConnection])
  obtain ⟨s1, ys, s2, gs, h1, h2, h3⟩ := C59_bptt N hN Ps pd hPm (fun n hn c hc => (hPc n hn c hc).1) (fun a ha => (hPr a ha).1)
    (fun a ha => hzero a.2 (hPr a ha).2) θ s hs xs es hl
  refine ⟨s1, ys, s2, gs, h1, h2, fun hM => ?_⟩
  exact h3 (fun t ht n hn => (hM t ht n hn).diff _ _) (fun t _ n hn c hc => (hPc n hn c hc).2.diff _ _)
    (fun t _ a ha => (hPr a ha).2.diff _ _)

/-- The example network with a full recurrent connection from the tanh layer to itself. -/
noncomputable def exampleRNet : RNet Nat Nat ℝ := { exampleNet with recs := [(2, fullConnection 2 4 0 3 0 3)] }

/-- It meets the hypotheses of C16, C58 and C59; the buffers of a new network have one row. -/
example : RWF exampleRNet ∧ (∀ a ∈ exampleRNet.recs, ∀ p, a.2.fwd p (fun _ => 0) = fun _ => 0) ∧
    (∀ a ∈ exampleRNet.recs, GoodConn (fun p => if p = 4 then 9 else 0) a.2) ∧
    Shape (⟨[zrow], [zrow], [zrow], [zrow], fun _ _ => 0, 0, 0⟩ : RState Nat Nat ℝ) := by
  refine ⟨⟨exampleNet_wf, ?_, ?_, ?_⟩, ?_, ?_, by simp [Shape]⟩
  · simp [exampleRNet, exampleNet, fullConnection]
  · simp [exampleRNet, exampleNet, fullConnection, tanhLayer]
  · simp [exampleRNet, exampleNet, fullConnection, tanhLayer]
  · intro a ha p
    simp only [exampleRNet, List.mem_singleton] at ha
    subst ha
    funext i; simp [fullConnection]
  · intro a ha
    simp only [exampleRNet, List.mem_singleton] at ha
    subst ha
    exact GoodConn.full _ _ _ _ _ _ (by simp)

end
end Verif.Props
