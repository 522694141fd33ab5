import Verif.Lemmas.Bptt
/-
The derivative computed by back-propagation through time (C59), stated for any buffers that satisfy the equations of both runs.
-/
namespace Verif.Net
open Verif.Net.Spec
open Finset

variable {V P : Type} [DecidableEq V] [DecidableEq P]

theorem bptt_core (N : RNet V P ℝ) (hN : RWF N) (Ps : Finset P) (pd : P → Nat)
    (hPm : ∀ n ∈ N.sorted, (N.mod n).pc ∈ Ps) (hPc : ∀ n ∈ N.sorted, ∀ c ∈ N.conns n, c.pc ∈ Ps) (hPr : ∀ a ∈ N.recs, a.2.pc ∈ Ps)
    (hz : ∀ a ∈ N.recs, ∀ p x, a.2.bwdErr p (fun _ => 0) x = (fun _ => 0) ∧ a.2.bwdPar p (fun _ => 0) x = fun _ => 0)
    (θ : P → Vec ℝ) (xs es : List (Vec ℝ)) (I O : Nat → V → Vec ℝ) (d0 : P → Vec ℝ) (s2 : RState V P ℝ)
    (hrows : ∀ u < xs.length, FInv N.toNet θ (extStep N θ (xs.getD u fun _ => 0) u (O (u - 1))) N.sorted ⟨I u, O u, zrow, zrow, d0⟩)
    (b2 : BRInv N θ es I O d0 xs.length 0 s2)
    (hM : ∀ t < xs.length, ∀ n ∈ N.sorted, ModDiff (N.mod n) (pd (N.mod n).pc) (θ (N.mod n).pc) (I t n))
    (hC : ∀ t < xs.length, ∀ n ∈ N.sorted, ∀ c ∈ N.conns n, ConnDiff c (pd c.pc) (θ c.pc) (sl (O t n) c.inFrom c.inTo))
    (hR : ∀ t < xs.length, ∀ a ∈ N.recs, ConnDiff a.2 (pd a.2.pc) (θ a.2.pc) (sl (O t a.1) a.2.inFrom a.2.inTo))
    (θc : ℝ → P → Vec ℝ) (xc : ℝ → Nat → Vec ℝ) (t0 : ℝ) (θ' : P → Vec ℝ) (x' : Nat → Vec ℝ) (Y : ℝ → List (Vec ℝ))
    (hθ0 : θc t0 = θ) (hx0 : ∀ t < xs.length, xc t0 t = xs.getD t fun _ => 0)
    (hθ : ∀ p k, HasDerivAt (fun τ => θc τ p k) (θ' p k) t0) (hx : ∀ t i, HasDerivAt (fun τ => xc τ t i) (x' t i) t0)
    (hY : ∀ τ, IsOutputs N (θc τ) ((List.range xs.length).map (xc τ)) (Y τ)) :
    HasDerivAt (fun τ => ∑ t ∈ range xs.length, ∑ j ∈ range (outdim N.toNet), es.getD t (fun _ => 0) j * (Y τ).getD t (fun _ => 0) j)
      (∑ t ∈ range xs.length, ∑ i ∈ range (indim N.toNet), concat (fun m => (N.mod m).indim) N.inmods (s2.ine.getD t zrow) i * x' t i +
        ∑ p ∈ Ps, ∑ k ∈ range (pd p), (s2.derivs p k - d0 p k) * θ' p k) t0 := by
  subst hθ0
  have hnd := nodesT_nodup N hN.base.nodup xs.length
  have hord := nodesT_order N hN xs.length
  have hmemr : ∀ n c, c ∈ recsOf N n → (n, c) ∈ N.recs := by
    intro n c hc
    obtain ⟨⟨m, c'⟩, hr, rfl⟩ := List.mem_map.1 hc
    rw [List.mem_filter] at hr
    have hm : m = n := by simpa using hr.2
    subst hm; exact hr.1
  -- a property of all connections of the unrolled graph
  have hall : ∀ (Q : V × Nat → Conn (V × Nat) P ℝ → Prop),
      (∀ n t, n ∈ N.sorted → t < xs.length → ∀ c ∈ N.conns n, Q (n, t) (lift t c)) →
      (∀ n t, n ∈ N.sorted → t < xs.length → ∀ c, (n, c) ∈ N.recs → Q (n, t) (lift (t + 1) c)) →
      ∀ m ∈ nodesT N xs.length, ∀ c ∈ connsT N xs.length m, Q m c := by
    rintro Q q1 q2 ⟨n, t⟩ hm c hc
    obtain ⟨m1, m2⟩ := mem_nodesT.1 hm
    rw [connsT, List.mem_append] at hc
    rcases hc with hc | hc
    · obtain ⟨c', hc', rfl⟩ := List.mem_map.1 hc
      exact q1 n t m1 m2 c' hc'
    · split at hc
      · obtain ⟨c', hc', rfl⟩ := List.mem_map.1 hc
        exact q2 n t m1 m2 c' (hmemr n c' hc')
      · cases hc
  -- solutions along the curve
  choose ic oc hsol hYe using hY
  have hlenx : ∀ τ, ((List.range xs.length).map (xc τ)).length = xs.length := by intro τ; simp
  have hsol' : ∀ τ, Solves (nodesT N xs.length) (modT N) (connsT N xs.length) (θc τ) (extT N ((List.range xs.length).map (xc τ))) (ic τ) (oc τ) := by
    intro τ; have := hsol τ; rw [hlenx τ] at this; exact this
  -- at t0 they are the rows of the run
  have hrun := rows_solve N hN (θc t0) xs I O d0 hrows
  have hext0 : ∀ n ∈ nodesT N xs.length, extT N ((List.range xs.length).map (xc t0)) n = extT N xs n := by
    intro n hn
    obtain ⟨-, m2⟩ := mem_nodesT.1 hn
    unfold extT
    congr 1
    rw [← hx0 n.2 m2]
    simp [List.getD_eq_getElem?_getD, m2]
  have hsol0 : Solves (nodesT N xs.length) (modT N) (connsT N xs.length) (θc t0) (extT N xs) (ic t0) (oc t0) := by
    refine ⟨fun n hn j => ?_, (hsol' t0).outputs⟩
    rw [(hsol' t0).inputs n hn j, hext0 n hn]
  have heq := solves_unique _ _ _ _ _ hnd hord hsol0 hrun
  -- the external input as a differentiable curve
  have hextd : ∀ (n : V × Nat) (j : Nat), HasDerivAt (fun τ => share (fun m => (N.mod m).indim) N.inmods (xc τ n.2) n.1 j)
      (share (fun m => (N.mod m).indim) N.inmods (x' n.2) n.1 j) t0 := by
    intro n j
    exact share_deriv (fun m => (N.mod m).indim) N.inmods (fun τ => xc τ n.2) (x' n.2) t0 (hx n.2) n.1 j
  have hsol2 : ∀ τ, Solves (nodesT N xs.length) (modT N) (connsT N xs.length) (θc τ)
      (fun n => share (fun m => (N.mod m).indim) N.inmods (xc τ n.2) n.1) (ic τ) (oc τ) := by
    intro τ
    refine ⟨fun n hn j => ?_, (hsol' τ).outputs⟩
    rw [(hsol' τ).inputs n hn j]
    congr 1
    obtain ⟨-, m2⟩ := mem_nodesT.1 hn
    simp only [extT]
    congr 1
    simp [List.getD_eq_getElem?_getD, m2]
  have hBS := b2.solves hN hz (fun p k => s2.derivs p k - d0 p k) (by
    intro p k
    rw [b2.derivs p k, Nat.sub_zero]; ring)
  have hBS' : BackSolves (nodesT N xs.length) (modT N) (connsT N xs.length) (θc t0)
      (fun n => share (fun m => (N.mod m).outdim) N.outmods (es.getD n.2 fun _ => 0) n.1) (ic t0) (oc t0)
      (fun n => s2.ine.getD n.2 zrow n.1) (fun n => s2.oute.getD n.2 zrow n.1) (fun p k => s2.derivs p k - d0 p k) := by
    obtain ⟨c1, c2, c3⟩ := hBS
    refine ⟨?_, ?_, ?_⟩
    · intro n hn j
      rw [(heq n hn).2]; exact c1 n hn j
    · intro n hn
      rw [(heq n hn).1, (heq n hn).2]; exact c2 n hn
    · intro p k
      rw [c3 p k]
      congr 1
      apply List.map_congr_left
      intro n hn
      simp only [gradAt]
      rw [(heq n hn).1, (heq n hn).2]
  have hG := grad_of_solves (mod := modT N) (conns := connsT N xs.length) hnd hord
    (hall (fun n c => c.inFrom ≤ c.inTo ∧ c.inTo ≤ (modT N n).outdim) (fun n t hn _ c hc => hN.base.inSlice n hn c hc)
      (fun n t _ _ c hc => hN.inSlice _ hc))
    (hall (fun n c => c.outFrom ≤ c.outTo ∧ c.outTo ≤ (modT N c.outmod).indim) (fun n t hn _ c hc => hN.base.outSlice n hn c hc)
      (fun n t _ _ c hc => hN.outSlice _ hc))
    Ps pd (fun n hn => hPm n.1 (mem_nodesT.1 hn).1)
    (hall (fun n c => c.pc ∈ Ps) (fun n t hn _ c hc => hPc n hn c hc) (fun n t _ _ c hc => hPr _ hc))
    θc θ' t0 hθ _ _ hextd ic oc hsol2
    (by
      intro n hn
      obtain ⟨m1, m2⟩ := mem_nodesT.1 hn
      rw [(heq n hn).1]
      exact hM n.2 m2 n.1 m1)
    (by
      have key := hall (fun n c => ConnDiff c (pd c.pc) (θc t0 c.pc) (sl (O n.2 n.1) c.inFrom c.inTo))
        (fun n t hn ht c hc => hC t ht n hn c hc) (fun n t hn ht c hc => hR t ht _ hc)
      intro n hn c hc
      rw [(heq n hn).2]
      exact key n hn c hc)
    _ _ _ _ hBS'
  have nodes_sum : ∀ f : V → Nat → ℝ, ((nodesT N xs.length).map (fun n => f n.1 n.2)).sum =
      ∑ t ∈ range xs.length, (N.sorted.map (fun n => f n t)).sum := by
    intro f
    unfold nodesT
    rw [sum_flatMap_map, sum_range_list]
    simp [List.map_map, Function.comp_def]
  have e1 : ∀ τ, ∑ t ∈ range xs.length, ∑ j ∈ range (outdim N.toNet), es.getD t (fun _ => 0) j * (Y τ).getD t (fun _ => 0) j =
      ((nodesT N xs.length).map (fun n => ip (modT N n).outdim (share (fun m => (N.mod m).outdim) N.outmods (es.getD n.2 fun _ => 0) n.1) (oc τ n))).sum := by
    intro τ
    refine Eq.trans ?_ (nodes_sum (fun n t => ip (N.mod n).outdim (share (fun m => (N.mod m).outdim) N.outmods (es.getD t fun _ => 0) n) (oc τ (n, t)))).symm
    apply sum_congr rfl
    intro t ht
    rw [mem_range] at ht
    have hYt : (Y τ).getD t (fun _ => 0) = concat (fun m => (N.mod m).outdim) N.outmods fun m => oc τ (m, t) := by
      rw [hYe τ, hlenx]
      simp [List.getD_eq_getElem?_getD, ht]
    rw [hYt]
    unfold outdim
    rw [ip_concat _ _ hN.base.outsNodup]
    rw [sum_sub_nodes N.sorted N.outmods hN.base.nodup hN.base.outsNodup hN.base.outs]
    intro n _ hn
    rw [share_notMem _ _ _ _ hn]
    simp [ip]
  have e2 : ∑ t ∈ range xs.length, ∑ i ∈ range (indim N.toNet), concat (fun m => (N.mod m).indim) N.inmods (s2.ine.getD t zrow) i * x' t i =
      ((nodesT N xs.length).map (fun n => ip (modT N n).indim (s2.ine.getD n.2 zrow n.1)
        (share (fun m => (N.mod m).indim) N.inmods (x' n.2) n.1))).sum := by
    refine Eq.trans ?_ (nodes_sum (fun n t => ip (N.mod n).indim (s2.ine.getD t zrow n) (share (fun m => (N.mod m).indim) N.inmods (x' t) n))).symm
    apply sum_congr rfl
    intro t ht
    rw [mem_range] at ht
    unfold indim
    rw [← sum_congr rfl (fun i _ => mul_comm (x' t i) _)]
    rw [ip_concat _ _ hN.base.insNodup]
    rw [sum_sub_nodes N.sorted N.inmods hN.base.nodup hN.base.insNodup hN.base.ins]
    · congr 1
      apply List.map_congr_left
      intro m _
      exact sum_congr rfl (fun i _ => mul_comm _ _)
    · intro n _ hn
      rw [share_notMem _ _ _ _ hn]
      simp [ip]
  simp only [e1, e2]
  exact hG

end Verif.Net
