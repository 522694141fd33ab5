import Verif.Lemmas.LstmNetStep
/-
Lemmas for C174: the specification of a network with LSTM layers and the one of its extension agree.
-/
namespace Verif.LstmNet
open Verif.Net Verif.Net.Spec Verif.LstmNet.Spec Verif.Topo.Spec Finset

variable {V P : Type} [DecidableEq V] [DecidableEq P]

theorem ext_rwf {N : LNet V P ℝ} (hN : LWF N) : RWF (ext N) := by
  have ho : ∀ m, (N.mod m).outdim ≤ ((ext N).mod m).outdim := by
    intro m
    cases hk : N.kind m with
    | none => rw [ext_mod_none N m hk]
    | some k => rw [ext_mod_some N m k hk, hN.outdim m k hk]; simp only [extMod]; omega
  have hi : ∀ m, (N.mod m).indim ≤ ((ext N).mod m).indim := by
    intro m
    cases hk : N.kind m with
    | none => rw [ext_mod_none N m hk]
    | some k => rw [ext_mod_some N m k hk, hN.indim m k hk]; simp only [extMod]; omega
  have hb := hN.base.base
  refine ⟨⟨hb.nodup, hb.insNodup, hb.outsNodup, hb.ins, hb.outs, hb.order, fun m hm c hc => ?_, fun m hm c hc => ?_⟩, ?_, ?_, ?_⟩
  · obtain ⟨h1, h2⟩ := hb.inSlice m hm c hc; exact ⟨h1, h2.trans (ho m)⟩
  · obtain ⟨h1, h2⟩ := hb.outSlice m hm c hc; exact ⟨h1, h2.trans (hi _)⟩
  all_goals
    intro a ha
    have ha : a ∈ N.recs ++ stateRecs N := ha
    rw [List.mem_append] at ha
  · rcases ha with ha | ha
    · exact hN.base.ends a ha
    · obtain ⟨k, h1, h2, h3⟩ := stateRecs_mem ha
      exact ⟨h1, by rw [stateRecs_out ha]; exact h1⟩
  · rcases ha with ha | ha
    · obtain ⟨h1, h2⟩ := hN.base.inSlice a ha; exact ⟨h1, h2.trans (ho _)⟩
    · obtain ⟨k, h1, h2, h3⟩ := stateRecs_mem ha
      rw [ext_mod_some N _ k h2, h3]
      simp only [stateConn, identityConnection, extMod]
      omega
  · rcases ha with ha | ha
    · obtain ⟨h1, h2⟩ := hN.base.outSlice a ha; exact ⟨h1, h2.trans (hi _)⟩
    · obtain ⟨k, h1, h2, h3⟩ := stateRecs_mem ha
      rw [stateRecs_out ha, ext_mod_some N _ k h2, h3]
      simp only [stateConn, identityConnection, extMod]
      omega

theorem signal_rel {N : LNet V P ℝ} (hN : LWF N) (θ : P → Vec ℝ) {m : V} {c : Conn V P ℝ} (hc : c.inTo ≤ (N.mod m).outdim) {x' x : Vec ℝ} (h : OutR N m x' x) (j : Nat) :
    signal θ x' c j = signal θ x c j := by
  simp only [signal]
  rw [h.sl hN hc]

theorem arcs_mem {α : Type} [DecidableEq α] {nodes : List α} {conns : α → List (Conn α P ℝ)} {a : α × Conn α P ℝ} (h : a ∈ arcs nodes conns) : a.1 ∈ nodes ∧ a.2 ∈ conns a.1 := by
  unfold arcs at h
  rw [List.mem_flatMap] at h
  obtain ⟨m, hm, h⟩ := h
  obtain ⟨c, hc, rfl⟩ := List.mem_map.1 h
  exact ⟨hm, hc⟩

/-- what arrives in the extended network: what arrives in the network, and the state -/
theorem ext_arcs {N : LNet V P ℝ} (hN : LWF N) (θ : P → Vec ℝ) (T t : Nat) (ht : t < T) (v : V) (hv : v ∈ N.sorted) (j : Nat) (O' O : Nat → V → Vec ℝ)
    (hO : ∀ u m, OutR N m (O' u m) (O u m)) :
    ((arcs (nodesT (ext N) T) (connsT (ext N) T)).map (fun a => if a.2.outmod = (v, t) then signal θ (O' a.1.2 a.1.1) a.2 j else 0)).sum =
    ((arcs (nodesT N.toRNet T) (connsT N.toRNet T)).map (fun a => if a.2.outmod = (v, t) then signal θ (O a.1.2 a.1.1) a.2 j else 0)).sum +
    match N.kind v with
    | none => 0
    | some k => if 0 < t ∧ 4 * k.dim ≤ j ∧ j < 5 * k.dim then O' (t - 1) v (k.dim + (j - 4 * k.dim)) else 0 := by
  have hE := ext_rwf hN
  rw [arcsT_sum (ext N) hE.base.nodup (fun a ha => (hE.ends a ha).1) θ T t ht v j O',
    arcsT_sum N.toRNet hN.base.base.nodup (fun a ha => (hN.base.ends a ha).1) θ T t ht v j O]
  have e1 : ((arcs (ext N).sorted (ext N).conns).map (fun a => if a.2.outmod = v then signal θ (O' t a.1) a.2 j else 0)) =
      (arcs N.sorted N.conns).map (fun a => if a.2.outmod = v then signal θ (O t a.1) a.2 j else 0) := by
    show ((arcs N.sorted N.conns).map (fun a => if a.2.outmod = v then signal θ (O' t a.1) a.2 j else 0)) = _
    apply List.map_congr_left
    intro a ha
    obtain ⟨h1, h2⟩ := arcs_mem ha
    rw [signal_rel hN θ (hN.base.base.inSlice a.1 h1 a.2 h2).2 (hO t a.1)]
  rw [e1]
  have e2 : recIn (ext N) θ (O' (t - 1)) v j = recIn N.toRNet θ (O (t - 1)) v j + match N.kind v with
      | none => 0
      | some k => if 4 * k.dim ≤ j ∧ j < 5 * k.dim then O' (t - 1) v (k.dim + (j - 4 * k.dim)) else 0 := by
    unfold recIn
    rw [show (ext N).recs = N.recs ++ stateRecs N from rfl, List.map_append, List.sum_append]
    congr 1
    · congr 1
      apply List.map_congr_left
      intro a ha
      rw [signal_rel hN θ (hN.base.inSlice a ha).2 (hO (t - 1) a.1)]
    · have : ((stateRecs N).map fun a => if a.2.outmod = v then signal θ (O' (t - 1) a.1) a.2 j else 0) =
          (stateRecs N).map fun a => if a.1 = v then signal θ (O' (t - 1) a.1) a.2 j else 0 := by
        apply List.map_congr_left
        intro a ha
        rw [stateRecs_out ha]
      rw [this, stateRecs_sum N hN.base.base.nodup v hv]
      cases hk : N.kind v with
      | none => rfl
      | some k =>
        dsimp only
        rw [signal_stateConn]
        split
        · simp only [sl]
          rw [if_pos (by omega)]
        · rfl
  rw [e2]
  cases hk : N.kind v with
  | none =>
    dsimp only
    split <;> ring
  | some k =>
    dsimp only
    by_cases h0 : 0 < t
    · simp only [h0, if_true, true_and]; ring
    · simp only [h0, if_false, false_and]; ring

/-- nothing arrives beyond the inputs of an LSTM layer -/
theorem arcs_beyond {N : LNet V P ℝ} (hN : LWF N) (θ : P → Vec ℝ) (T t : Nat) (ht : t < T) (v : V) (k : Kind ℝ) (hk : N.kind v = some k) (j : Nat) (hj : 4 * k.dim ≤ j)
    (O : Nat → V → Vec ℝ) :
    ((arcs (nodesT N.toRNet T) (connsT N.toRNet T)).map (fun a => if a.2.outmod = (v, t) then signal θ (O a.1.2 a.1.1) a.2 j else 0)).sum = 0 := by
  rw [arcsT_sum N.toRNet hN.base.base.nodup (fun a ha => (hN.base.ends a ha).1) θ T t ht v j O]
  have key : ∀ (x : Vec ℝ) (c : Conn V P ℝ), c.outTo ≤ (N.mod c.outmod).indim → (if c.outmod = v then signal θ x c j else 0) = 0 := by
    intro x c hc
    split
    · next h =>
      rw [h, hN.indim v k hk] at hc
      simp only [signal]
      rw [if_neg (by omega)]
    · rfl
  have h1 : recIn N.toRNet θ (O (t - 1)) v j = 0 := by
    apply sum_zero_list
    intro a ha
    exact key _ _ (hN.base.outSlice a ha).2
  rw [h1, ite_self, zero_add]
  apply sum_zero_list
  intro a ha
  obtain ⟨h1, h2⟩ := arcs_mem ha
  exact key _ _ (hN.base.base.outSlice a.1 h1 a.2 h2).2

theorem share_congr (d d' : V → Nat) (ms : List V) (h : ∀ m ∈ ms, d m = d' m) (x : Vec ℝ) (n : V) : share d ms x n = share d' ms x n := by
  induction ms generalizing x with
  | nil => rfl
  | cons m ms ih =>
    simp only [share]
    rw [h m (by simp), ih fun m hm => h m (by simp [hm])]

theorem in_plain {N : LNet V P ℝ} (hN : LWF N) {m : V} (hm : m ∈ N.inmods) : N.kind m = none := by
  cases hk : N.kind m with
  | none => rfl
  | some k => exact absurd hm (hN.notIn m k hk)

theorem out_plain {N : LNet V P ℝ} (hN : LWF N) {m : V} (hm : m ∈ N.outmods) : N.kind m = none := by
  cases hk : N.kind m with
  | none => rfl
  | some k => exact absurd hm (hN.notOut m k hk)

theorem ext_extT {N : LNet V P ℝ} (hN : LWF N) (xs : List (Vec ℝ)) : extT (ext N) xs = extT N.toRNet xs := by
  funext n
  exact share_congr _ _ _ (fun m hm => by rw [ext_mod_none N m (in_plain hN hm)]) _ _

theorem extT_zero {N : LNet V P ℝ} (hN : LWF N) (xs : List (Vec ℝ)) (v : V) (t : Nat) (k : Kind ℝ) (hk : N.kind v = some k) (j : Nat) : extT N.toRNet xs (v, t) j = 0 := by
  unfold extT
  rw [share_notMem _ _ _ _ (hN.notIn v k hk)]

/-- one step of a cell -/
theorem cell_step (k : Kind ℝ) (w x' : Vec ℝ) (x : Nat → Vec ℝ) (t j : Nat) (hj : j < k.dim) (hx : ∀ i < 4 * k.dim, x' i = x t i)
    (hp : pre k x' j = Lstm.Spec.before k.T (Lstm.Spec.cellOf k.peepholes k.dim w x j) t) :
    st k w x' j = Lstm.Spec.before k.T (Lstm.Spec.cellOf k.peepholes k.dim w x j) (t + 1) ∧
    out k w x' j = Lstm.Spec.output k.T (Lstm.Spec.cellOf k.peepholes k.dim w x j) t := by
  have h1 : st k w x' j = Lstm.Spec.before k.T (Lstm.Spec.cellOf k.peepholes k.dim w x j) (t + 1) := by
    unfold st gi gf
    rw [hp, hx j (by omega), hx (k.dim + j) (by omega), hx (2 * k.dim + j) (by omega)]
    rfl
  refine ⟨h1, ?_⟩
  unfold out go
  rw [h1, hx (3 * k.dim + j) (by omega)]
  rfl

theorem isLOutputs_of_ext {N : LNet V P ℝ} (hN : LWF N) (θ : P → Vec ℝ) (xs : List (Vec ℝ)) (inb' outb' : V × Nat → Vec ℝ)
    (h : Solves (nodesT (ext N) xs.length) (modT (ext N)) (connsT (ext N) xs.length) θ (extT (ext N) xs) inb' outb') :
    ∃ inb outb, LSolves N θ xs inb outb ∧ (∀ v t, t < xs.length → v ∈ N.sorted → N.kind v = none → inb (v, t) = inb' (v, t) ∧ outb (v, t) = outb' (v, t)) ∧
      (∀ v t, t < xs.length → v ∈ N.sorted → OutR N v (outb' (v, t)) (outb (v, t))) ∧
      ∀ v t, t < xs.length → v ∈ N.sorted → ∀ k, N.kind v = some k → (∀ i < 4 * k.dim, inb' (v, t) i = inb (v, t) i) ∧
        ∀ j < k.dim, pre k (inb' (v, t)) j = Lstm.Spec.before k.T (Lstm.Spec.cellOf k.peepholes k.dim (θ (N.mod v).pc) (fun u => inb (v, u)) j) t := by
  obtain ⟨hin, hout⟩ := h
  rw [ext_extT hN] at hin
  let inb : V × Nat → Vec ℝ := fun n => match N.kind n.1 with
    | none => inb' n
    | some k => tr (4 * k.dim) (inb' n)
  let outb : V × Nat → Vec ℝ := fun n => match N.kind n.1 with
    | none => outb' n
    | some k => tr k.dim (outb' n)
  have hinN : ∀ v t, N.kind v = none → inb (v, t) = inb' (v, t) := by intro v t hk; simp only [inb, hk]
  have hinS : ∀ v t k, N.kind v = some k → inb (v, t) = tr (4 * k.dim) (inb' (v, t)) := by intro v t k hk; simp only [inb, hk]
  have houtN : ∀ v t, N.kind v = none → outb (v, t) = outb' (v, t) := by intro v t hk; simp only [outb, hk]
  have houtS : ∀ v t k, N.kind v = some k → outb (v, t) = tr k.dim (outb' (v, t)) := by intro v t k hk; simp only [outb, hk]
  have hrel : ∀ u m, OutR N m (outb' (m, u)) (outb (m, u)) := by
    intro u m
    unfold OutR
    cases hk : N.kind m with
    | none => exact (houtN m u hk).symm
    | some k =>
      dsimp only
      intro j hj
      rw [houtS m u k hk]
      simp [tr, hj]
  have hsum := fun t ht v hv j => ext_arcs hN θ xs.length t ht v hv j (fun u m => outb' (m, u)) (fun u m => outb (m, u)) hrel
  have hcell : ∀ v k, N.kind v = some k → v ∈ N.sorted → ∀ j < k.dim, ∀ t < xs.length,
      pre k (inb' (v, t)) j = Lstm.Spec.before k.T (Lstm.Spec.cellOf k.peepholes k.dim (θ (N.mod v).pc) (fun u => inb (v, u)) j) t := by
    intro v k hk hv j hj t
    have hx : ∀ t, ∀ i < 4 * k.dim, inb' (v, t) i = (fun u => inb (v, u)) t i := by
      intro t i hi
      dsimp only
      rw [hinS v t k hk]
      simp [tr, hi]
    induction t with
    | zero =>
      intro ht
      unfold pre
      rw [hin (v, 0) (mem_nodesT.2 ⟨hv, ht⟩), hsum 0 ht v hv, extT_zero hN xs v 0 k hk, arcs_beyond hN θ xs.length 0 ht v k hk (4 * k.dim + j) (by omega) (fun u m => outb (m, u)), hk]
      simp [Lstm.Spec.before]
    | succ t ih =>
      intro ht
      have ih := ih (by omega)
      unfold pre
      rw [hin (v, t + 1) (mem_nodesT.2 ⟨hv, ht⟩), hsum (t + 1) ht v hv, extT_zero hN xs v (t + 1) k hk, arcs_beyond hN θ xs.length (t + 1) ht v k hk (4 * k.dim + j) (by omega) (fun u m => outb (m, u)), hk]
      dsimp only
      rw [if_pos (by omega), zero_add, zero_add, Nat.add_sub_cancel, Nat.add_sub_cancel_left, hout (v, t) (mem_nodesT.2 ⟨hv, show t < xs.length by omega⟩)]
      rw [show modT (ext N) (v, t) = extMod k (N.mod v).pc from ext_mod_some N v k hk, ext_out_st k _ _ _ _ hj]
      exact (cell_step k _ _ _ t j hj (hx t) ih).1
  refine ⟨inb, outb, ⟨?_, ?_, ?_⟩, fun v t _ _ hk => ⟨hinN v t hk, houtN v t hk⟩, fun v t _ _ => hrel t v, ?_⟩
  · rintro ⟨v, t⟩ hn j
    obtain ⟨hv, ht⟩ := mem_nodesT.1 hn
    cases hk : N.kind v with
    | none =>
      rw [hinN v t hk, hin (v, t) hn, hsum t ht v hv, hk]
      simp only [add_zero]
    | some k =>
      rw [hinS v t k hk]
      simp only [tr]
      by_cases hj : j < 4 * k.dim
      · rw [if_pos hj, hin (v, t) hn, hsum t ht v hv, hk]
        dsimp only
        rw [if_neg (by omega), add_zero]
      · rw [if_neg hj, extT_zero hN xs v t k hk, arcs_beyond hN θ xs.length t ht v k hk j (by omega) (fun u m => outb (m, u)), add_zero]
  · rintro ⟨v, t⟩ hn hk
    dsimp only at hk
    rw [houtN v t hk, hinN v t hk, hout (v, t) hn]
    rw [show modT (ext N) (v, t) = N.mod v from ext_mod_none N v hk]
  · rintro ⟨v, t⟩ hn k hk
    obtain ⟨hv, ht⟩ := mem_nodesT.1 hn
    dsimp only at hk hv ht ⊢
    rw [houtS v t k hk]
    funext j
    simp only [tr]
    split
    · next hj =>
      rw [hout (v, t) hn, show modT (ext N) (v, t) = extMod k (N.mod v).pc from ext_mod_some N v k hk]
      have := ext_out_lt k (N.mod v).pc (θ (N.mod v).pc) (inb' (v, t)) (fun _ => 0) hj
      refine this.trans ?_
      exact (cell_step k _ _ _ t j hj (fun i hi => by rw [hinS v t k hk]; simp [tr, hi]) (hcell v k hk hv j hj t ht)).2
    · rfl
  · intro v t ht hv k hk
    exact ⟨fun i hi => by rw [hinS v t k hk]; simp [tr, hi], fun j hj => hcell v k hk hv j hj t ht⟩

theorem ext_of_isLOutputs {N : LNet V P ℝ} (hN : LWF N) (θ : P → Vec ℝ) (xs : List (Vec ℝ)) (inb outb : V × Nat → Vec ℝ)
    (h : LSolves N θ xs inb outb) :
    ∃ inb' outb', Solves (nodesT (ext N) xs.length) (modT (ext N)) (connsT (ext N) xs.length) θ (extT (ext N) xs) inb' outb' ∧
      ∀ v t, N.kind v = none → outb' (v, t) = outb (v, t) := by
  obtain ⟨hin, hpl, hce⟩ := h
  let B : V × Nat → Kind ℝ → Nat → Nat → ℝ := fun n k j t => Lstm.Spec.before k.T (Lstm.Spec.cellOf k.peepholes k.dim (θ (N.mod n.1).pc) (fun u => inb (n.1, u)) j) t
  let inb' : V × Nat → Vec ℝ := fun n => match N.kind n.1 with
    | none => inb n
    | some k => fun i => if i < 4 * k.dim then inb n i else if i < 5 * k.dim then B n k (i - 4 * k.dim) n.2 else 0
  let outb' : V × Nat → Vec ℝ := fun n => match N.kind n.1 with
    | none => outb n
    | some k => fun i => if i < k.dim then outb n i else if i < 2 * k.dim then B n k (i - k.dim) (n.2 + 1) else 0
  have hinN : ∀ v t, N.kind v = none → inb' (v, t) = inb (v, t) := by intro v t hk; simp only [inb', hk]
  have hinS : ∀ v t k, N.kind v = some k → inb' (v, t) = fun i => if i < 4 * k.dim then inb (v, t) i else if i < 5 * k.dim then B (v, t) k (i - 4 * k.dim) t else 0 := by
    intro v t k hk; simp only [inb', hk]
  have houtN : ∀ v t, N.kind v = none → outb' (v, t) = outb (v, t) := by intro v t hk; simp only [outb', hk]
  have houtS : ∀ v t k, N.kind v = some k → outb' (v, t) = fun i => if i < k.dim then outb (v, t) i else if i < 2 * k.dim then B (v, t) k (i - k.dim) (t + 1) else 0 := by
    intro v t k hk; simp only [outb', hk]
  have hrel : ∀ u m, OutR N m (outb' (m, u)) (outb (m, u)) := by
    intro u m
    unfold OutR
    cases hk : N.kind m with
    | none => exact houtN m u hk
    | some k =>
      dsimp only
      intro j hj
      rw [houtS m u k hk]
      simp [hj]
  have hsum := fun t ht v hv j => ext_arcs hN θ xs.length t ht v hv j (fun u m => outb' (m, u)) (fun u m => outb (m, u)) hrel
  refine ⟨inb', outb', ⟨?_, ?_⟩, houtN⟩
  · rintro ⟨v, t⟩ hn j
    obtain ⟨hv, ht⟩ := mem_nodesT.1 hn
    have hv : v ∈ N.sorted := hv
    have ht : t < xs.length := ht
    rw [ext_extT hN]
    refine Eq.trans ?_ (congrArg (fun z => extT N.toRNet xs (v, t) j + z) (hsum t ht v hv j).symm)
    rw [← add_assoc, ← hin (v, t) (mem_nodesT.2 ⟨hv, ht⟩) j]
    cases hk : N.kind v with
    | none =>
      rw [hinN v t hk]; simp
    | some k =>
      rw [hinS v t k hk]
      dsimp only
      by_cases hj : j < 4 * k.dim
      · rw [if_pos hj, if_neg (by omega), add_zero]
      · have hz : inb (v, t) j = 0 := by
          rw [hin (v, t) (mem_nodesT.2 ⟨hv, ht⟩) j, extT_zero hN xs v t k hk, zero_add]
          exact arcs_beyond hN θ xs.length t ht v k hk j (by omega) (fun u m => outb (m, u))
        rw [if_neg hj, hz, zero_add]
        by_cases hj5 : j < 5 * k.dim
        · rw [if_pos hj5]
          by_cases h0 : 0 < t
          · rw [if_pos ⟨h0, by omega, hj5⟩, houtS v (t - 1) k hk]
            dsimp only
            rw [if_neg (by omega), if_pos (by omega), Nat.add_sub_cancel_left, show t - 1 + 1 = t by omega]
          · rw [if_neg (by omega), show t = 0 by omega]
            rfl
        · rw [if_neg hj5, if_neg (by omega)]
  · rintro ⟨v, t⟩ hn
    obtain ⟨hv, ht⟩ := mem_nodesT.1 hn
    have hn' : (v, t) ∈ nodesT N.toRNet xs.length := hn
    have hv : v ∈ N.sorted := hv
    have ht : t < xs.length := ht
    cases hk : N.kind v with
    | none =>
      rw [houtN v t hk, hinN v t hk, show modT (ext N) (v, t) = N.mod v from ext_mod_none N v hk]
      exact hpl (v, t) hn' hk
    | some k =>
      have hcs : ∀ j < k.dim, _ := fun j hj => cell_step k (θ (N.mod v).pc) (inb' (v, t)) (fun u => inb (v, u)) t j hj (fun i hi => by rw [hinS v t k hk]; simp [hi]) (by
        unfold pre
        rw [hinS v t k hk]
        dsimp only
        rw [if_neg (by omega), if_pos (by omega), Nat.add_sub_cancel_left])
      rw [show modT (ext N) (v, t) = extMod k (N.mod v).pc from ext_mod_some N v k hk]
      funext i
      rw [houtS v t k hk]
      dsimp only
      by_cases h1 : i < k.dim
      · rw [if_pos h1]
        refine Eq.trans ?_ (ext_out_lt k (N.mod v).pc _ _ _ h1).symm
        rw [hce (v, t) hn' k hk]
        simp only [tr, h1, if_true]
        exact (hcs i h1).2.symm
      · rw [if_neg h1]
        by_cases h2 : i < 2 * k.dim
        · rw [if_pos h2]
          obtain ⟨j, rfl⟩ : ∃ j, i = k.dim + j := ⟨i - k.dim, by omega⟩
          refine Eq.trans ?_ (ext_out_st k (N.mod v).pc _ _ _ (show j < k.dim by omega)).symm
          rw [Nat.add_sub_cancel_left]
          exact (hcs j (by omega)).1.symm
        · rw [if_neg h2]
          unfold tr
          rw [if_neg (show ¬ i < (extMod k (N.mod v).pc).outdim from h2)]

theorem ext_concat {N : LNet V P ℝ} (hN : LWF N) (rows' rows : V → Vec ℝ) (h : ∀ m ∈ N.outmods, rows' m = rows m) :
    concat (fun m => ((ext N).mod m).outdim) (ext N).outmods rows' = concat (fun m => (N.mod m).outdim) N.outmods rows := by
  show concat (fun m => ((ext N).mod m).outdim) N.outmods rows' = _
  have key : ∀ ms : List V, (∀ m ∈ ms, m ∈ N.outmods) → concat (fun m => ((ext N).mod m).outdim) ms rows' = concat (fun m => (N.mod m).outdim) ms rows := by
    intro ms
    induction ms with
    | nil => intro _; rfl
    | cons m ms ih =>
      intro hm
      have h1 := hm m (by simp)
      simp only [concat]
      rw [h m h1, ext_mod_none N m (out_plain hN h1), ih fun m hx => hm m (by simp [hx])]
  exact key _ fun _ hm => hm

theorem isLOutputs_iff {N : LNet V P ℝ} (hN : LWF N) (θ : P → Vec ℝ) (xs ys : List (Vec ℝ)) : IsLOutputs N θ xs ys ↔ IsOutputs (ext N) θ xs ys := by
  constructor
  · rintro ⟨inb, outb, hs, rfl⟩
    obtain ⟨inb', outb', h1, h2⟩ := ext_of_isLOutputs hN θ xs inb outb hs
    refine ⟨inb', outb', h1, ?_⟩
    apply List.map_congr_left
    intro t _
    exact (ext_concat hN _ _ fun m hm => h2 m t (out_plain hN hm)).symm
  · rintro ⟨inb', outb', hs, rfl⟩
    obtain ⟨inb, outb, h1, h2, -⟩ := isLOutputs_of_ext hN θ xs inb' outb' hs
    refine ⟨inb, outb, h1, ?_⟩
    apply List.map_congr_left
    intro t ht
    exact ext_concat hN _ _ fun m hm => (h2 m t (List.mem_range.1 ht) (hN.base.base.outs m hm) (out_plain hN hm)).2.symm

end Verif.LstmNet
