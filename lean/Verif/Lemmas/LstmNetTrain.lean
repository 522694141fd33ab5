import Verif.Lemmas.LstmNetSpec
import Verif.Spec.LstmTrain
import Verif.Props.Layers
import Verif.Props.Trainer
/-
Lemmas for C174: training networks with LSTM layers.
-/
namespace Verif.LstmNet
open Verif.Net Verif.Net.Spec Verif.LstmNet.Spec Verif.Topo.Spec Verif.Train Verif.Train.Spec Finset

variable {V P : Type} [DecidableEq V] [DecidableEq P] {n : Nat}

theorem ext_sum {N : LNet V P ℝ} (ms : List V) (f' f : V → Nat) (h : ∀ m ∈ ms, f' m = f m) : (ms.map f').sum = (ms.map f).sum := by
  rw [List.map_congr_left h]

theorem ext_outdim {N : LNet V P ℝ} (hN : LWF N) : outdim (ext N).toNet = outdim N.toNet := by
  unfold outdim
  exact congrArg List.sum (List.map_congr_left fun m hm => by rw [show (ext N).mod m = N.mod m from ext_mod_none N m (out_plain hN hm)])

theorem ext_indim {N : LNet V P ℝ} (hN : LWF N) : indim (ext N).toNet = indim N.toNet := by
  unfold indim
  exact congrArg List.sum (List.map_congr_left fun m hm => by rw [show (ext N).mod m = N.mod m from ext_mod_none N m (in_plain hN hm)])

theorem loutputsOf_eq {N : LNet V P ℝ} (hN : LWF N) (θ : P → Vec ℝ) (xs : List (Vec ℝ)) : loutputsOf N θ xs = outputsOf (ext N) θ xs := by
  have h1 := outputsOf_spec (ext N) (ext_rwf hN) θ xs
  have h : ∃ ys, IsLOutputs N θ xs ys := ⟨_, (isLOutputs_iff hN θ xs _).2 h1⟩
  unfold loutputsOf
  rw [dif_pos h]
  exact (outputsOf_eq (ext N) (ext_rwf hN) θ xs _ ((isLOutputs_iff hN θ xs _).1 h.choose_spec)).symm

theorem ext_pc (N : LNet V P ℝ) (m : V) : ((ext N).mod m).pc = (N.mod m).pc := by
  cases hk : N.kind m with
  | none => rw [ext_mod_none N m hk]
  | some k => rw [ext_mod_some N m k hk]; rfl

theorem ext_trainable {N : LNet V P ℝ} {L : Layout P n} {Ps : Finset P} {pd : P → Nat} (h : LTrainable N L Ps pd) : Trainable (ext N) L Ps pd := by
  refine ⟨ext_rwf h.wf, h.layout, fun m hm => by rw [ext_pc]; exact h.modParams m hm, h.connParams, ?_, ?_⟩
  all_goals
    intro a ha
    have ha : a ∈ N.recs ++ stateRecs N := ha
    rw [List.mem_append] at ha
  · rcases ha with ha | ha
    · exact h.recParams a ha
    · obtain ⟨k, h1, h2, h3⟩ := stateRecs_mem ha
      rw [h3]
      exact h.modParams a.1 h1
  · rcases ha with ha | ha
    · exact h.zeroBack a ha
    · obtain ⟨k, h1, h2, h3⟩ := stateRecs_mem ha
      rw [h3]
      intro p x
      constructor <;> (funext i; simp [stateConn, identityConnection])

theorem ext_smooth {N : LNet V P ℝ} (hN : LWF N) {pd : P → Nat} (hpd : ∀ v ∈ N.sorted, ∀ k, N.kind v = some k → pd (N.mod v).pc = if k.peepholes then 3 * k.dim else 0)
    {θ : P → Vec ℝ} {xs : List (Vec ℝ)} (h : LSmooth N pd θ xs) : Smooth (ext N) pd θ xs := by
  intro inb' outb' hs
  obtain ⟨inb, outb, h1, h2, h3, h4⟩ := isLOutputs_of_ext hN θ xs inb' outb' hs
  obtain ⟨s1, s2, s3, s4⟩ := h inb outb h1
  refine ⟨?_, ?_, ?_⟩
  · intro t ht m hm
    have hm : m ∈ N.sorted := hm
    cases hk : N.kind m with
    | none =>
      rw [ext_mod_none N m hk, ← (h2 m t ht hm hk).1]
      exact s1 t ht m hm hk
    | some k =>
      rw [ext_mod_some N m k hk]
      have e := extMod_diff k (N.mod m).pc (θ (N.mod m).pc) (inb' (m, t))
      have hp : pd (extMod k (N.mod m).pc).pc = if k.peepholes then 3 * k.dim else 0 := hpd m hm k hk
      rw [hp]
      refine e ?_
      obtain ⟨hx, hp⟩ := h4 m t ht hm k hk
      have hc := fun j hj => cell_step k (θ (N.mod m).pc) (inb' (m, t)) (fun u => inb (m, u)) t j hj hx (hp j hj)
      have hgi : ∀ j < k.dim, gi k (θ (N.mod m).pc) (inb' (m, t)) j = (Lstm.Spec.cellOf k.peepholes k.dim (θ (N.mod m).pc) (fun u => inb (m, u)) j).i t +
          (Lstm.Spec.cellOf k.peepholes k.dim (θ (N.mod m).pc) (fun u => inb (m, u)) j).wi *
            Lstm.Spec.before k.T (Lstm.Spec.cellOf k.peepholes k.dim (θ (N.mod m).pc) (fun u => inb (m, u)) j) t := by
        intro j hj
        unfold gi
        rw [hp j hj, hx j (by omega)]; rfl
      have hgf : ∀ j < k.dim, gf k (θ (N.mod m).pc) (inb' (m, t)) j = (Lstm.Spec.cellOf k.peepholes k.dim (θ (N.mod m).pc) (fun u => inb (m, u)) j).f t +
          (Lstm.Spec.cellOf k.peepholes k.dim (θ (N.mod m).pc) (fun u => inb (m, u)) j).wf *
            Lstm.Spec.before k.T (Lstm.Spec.cellOf k.peepholes k.dim (θ (N.mod m).pc) (fun u => inb (m, u)) j) t := by
        intro j hj
        unfold gf
        rw [hp j hj, hx (k.dim + j) (by omega)]; rfl
      have hgo : ∀ j < k.dim, go k (θ (N.mod m).pc) (inb' (m, t)) j = (Lstm.Spec.cellOf k.peepholes k.dim (θ (N.mod m).pc) (fun u => inb (m, u)) j).o t +
          (Lstm.Spec.cellOf k.peepholes k.dim (θ (N.mod m).pc) (fun u => inb (m, u)) j).wo *
            Lstm.Spec.before k.T (Lstm.Spec.cellOf k.peepholes k.dim (θ (N.mod m).pc) (fun u => inb (m, u)) j) (t + 1) := by
        intro j hj
        unfold go
        rw [(hc j hj).1, hx (3 * k.dim + j) (by omega)]; rfl
      refine ⟨?_, ?_, ?_, ?_, ?_⟩ <;> intro j hj <;> have hS := s2 m hm k hk j hj
      · rw [hgi j hj]; exact hS.i t ht
      · rw [hgf j hj]; exact hS.f t ht
      · rw [hgo j hj]; exact hS.o t ht
      · rw [hx (2 * k.dim + j) (by omega)]; exact hS.g t ht
      · rw [(hc j hj).1]; exact hS.h t ht
  · intro t ht m hm c hc
    rw [(h3 m t ht hm).sl hN (hN.base.base.inSlice m hm c hc).2]
    exact s3 t ht m hm c hc
  · intro t ht a ha
    have ha : a ∈ N.recs ++ stateRecs N := ha
    rw [List.mem_append] at ha
    rcases ha with ha | ha
    · rw [(h3 a.1 t ht (hN.base.ends a ha).1).sl hN (hN.base.inSlice a ha).2]
      exact s4 t ht a ha
    · obtain ⟨k, h1, h2, h3⟩ := stateRecs_mem ha
      rw [h3]
      exact (Verif.Props.GoodConn.identity a.1 (N.mod a.1).pc k.dim (2 * k.dim) (4 * k.dim) (5 * k.dim) (by omega) : Verif.Props.GoodConn pd _).diff _ _

theorem lreset_rel {N : LNet V P ℝ} (pd : P → Nat) (θ : P → Vec ℝ) {s : LNState V P ℝ} (hs : LShape N s) : FRel N pd θ 0 (rreset s.r) (lreset s) := by
  obtain ⟨⟨s1, s2, s3, s4⟩, hr⟩ := hs
  refine ⟨⟨?_, ?_, ?_, ?_⟩, rfl, rfl, rfl, ?_, ?_, fun _ _ _ _ => Nat.zero_le _, ?_, ?_⟩
  · simpa [lreset, rreset] using s1
  · simpa [lreset, rreset] using s2
  · simpa [lreset, rreset] using s3
  · simpa [lreset, rreset] using s4
  · intro u
    exact ⟨fun v => inR_refl _ _ _, fun v => outR_refl _ _ _, fun v => inR_refl _ _ _, fun v => outR_refl _ _ _, fun _ _ _ => rfl⟩
  · intro v hv k hk
    have := hr v hv k hk
    simpa [lreset, rreset, Lstm.reset] using this
  · intro v hv k hk u hu; omega
  · intro v hv k hk u
    exact ⟨rfl, rfl, rfl⟩

theorem lactivateAll_sim {N : LNet V P ℝ} (hN : LWF N) {pd : P → Nat} {θ : P → Vec ℝ} {xs : List (Vec ℝ)} {d0 : P → Vec ℝ} (ys : List (Vec ℝ))
    {t : Nat} {s' : RState V P ℝ} {s : LNState V P ℝ} (hI : RInv (ext N) θ xs d0 t s') (h : FRel N pd θ t s' s) (hx : ys = xs.drop t) (ht : t ≤ xs.length)
    {s1' : RState V P ℝ} {os : List (Vec ℝ)} (ha : ractivateAll (ext N) false θ s' (ys.map fun x => (0, x)) = some (s1', os)) :
    ∃ s1, lactivateAll N θ s ys = some (s1, os) ∧ FRel N pd θ xs.length s1' s1 := by
  induction ys generalizing t s' s os with
  | nil =>
    have hlen : xs.length ≤ t := by
      have := congrArg List.length hx
      simp at this; omega
    have : t = xs.length := by omega
    subst this
    simp only [List.map_nil, ractivateAll, Option.some.injEq, Prod.mk.injEq] at ha
    obtain ⟨rfl, rfl⟩ := ha
    exact ⟨s, rfl, h⟩
  | cons x ys ih =>
    have hlt : t < xs.length := by
      have := congrArg List.length hx
      simp at this; omega
    rw [List.drop_eq_getElem_cons hlt, List.cons.injEq] at hx
    obtain ⟨s2', y, a1, a2, -, -⟩ := ractivate_inv (ext_rwf hN).base hI x (by simp [List.getD_eq_getElem?_getD, hlt]; exact hx.1.symm)
    simp only [List.map_cons, ractivateAll, Function.iterate_zero, id, a1] at ha
    obtain ⟨s2, b1, b2⟩ := sim_forward hN hI h x a1
    cases hr : ractivateAll (ext N) false θ s2' (ys.map fun x => (0, x)) with
    | none => rw [hr] at ha; cases ha
    | some r =>
      obtain ⟨s3', os'⟩ := r
      rw [hr] at ha
      simp only [Option.some.injEq, Prod.mk.injEq] at ha
      obtain ⟨rfl, rfl⟩ := ha
      obtain ⟨s3, c1, c2⟩ := ih a2 b2 hx.2 (by omega) hr
      refine ⟨s3, ?_, c2⟩
      simp only [lactivateAll, b1, c1]

theorem lbackAll_sim {N : LNet V P ℝ} (hN : LWF N) {pd : P → Nat} (hpd : ∀ v ∈ N.sorted, ∀ k, N.kind v = some k → pd (N.mod v).pc = if k.peepholes then 3 * k.dim else 0)
    {θ : P → Vec ℝ} {es : List (Vec ℝ)} {I O : Nat → V → Vec ℝ} {d0 : P → Vec ℝ} (t : Nat) (ht : t ≤ es.length) {s' : RState V P ℝ} {s : LNState V P ℝ}
    (hI : BRInv (ext N) θ es I O d0 es.length t s') (h : BRel N pd θ es.length t s' s) {s1' : RState V P ℝ} {gs : List (Vec ℝ)}
    (ha : rbackAll (ext N) θ s' (es.take t).reverse = some (s1', gs)) :
    ∃ s1, lbackAll N θ s (es.take t).reverse = some (s1, gs) ∧ BRel N pd θ es.length 0 s1' s1 := by
  induction t generalizing s' s gs with
  | zero =>
    simp only [List.take_zero, List.reverse_nil, rbackAll, Option.some.injEq, Prod.mk.injEq] at ha
    obtain ⟨rfl, rfl⟩ := ha
    exact ⟨s, rfl, h⟩
  | succ t ih =>
    have hlt : t < es.length := by omega
    obtain ⟨s2', g, a1, a2, -, -⟩ := rbackActivate_inv (ext_rwf hN).base hI hlt es[t] (by simp [List.getD_eq_getElem?_getD, hlt])
    obtain ⟨s2, b1, b2⟩ := sim_backward hN hpd hI hlt h es[t] a1
    rw [List.take_succ_eq_append_getElem hlt, List.reverse_append] at ha ⊢
    simp only [List.reverse_singleton, List.singleton_append, rbackAll, a1] at ha
    cases hr : rbackAll (ext N) θ s2' (es.take t).reverse with
    | none => rw [hr] at ha; cases ha
    | some r =>
      obtain ⟨s3', gs'⟩ := r
      rw [hr] at ha
      simp only [Option.some.injEq, Prod.mk.injEq] at ha
      obtain ⟨rfl, rfl⟩ := ha
      obtain ⟨s3, c1, c2⟩ := ih (by omega) a2 b2 hr
      refine ⟨s3, ?_, c2⟩
      simp only [List.reverse_singleton, List.singleton_append, lbackAll, b1, c1]

/-- A network with LSTM layers behaves like its extension. -/
noncomputable def lnetLawful {N : LNet V P ℝ} {L : Layout P n} {Ps : Finset P} {pd : P → Nat} (h : LTrainable N L Ps pd) :
    Lawful (lnetLearner N L) (fun w xs => outputsOf (ext N) (L.decode w) xs) (BackGrad (ext N) L pd) where
  ok s := LShape N s.2
  Fwd w xs d t s := s.1 = w ∧ ∃ s', (rnetLawful (ext_trainable h)).Fwd w xs d t (w, s') ∧ FRel N pd (L.decode w) t s' s.2
  Back w xs es d t s := s.1 = w ∧ ∃ s', (rnetLawful (ext_trainable h)).Back w xs es d t (w, s') ∧ BRel N pd (L.decode w) xs.length t s' s.2
  set s w hs := ⟨hs, rfl, rfl⟩
  clear s hs := ⟨hs, rfl, rfl⟩
  start s xs hs := ⟨rfl, rreset s.2.r, (rnetLawful (ext_trainable h)).start (s.1, s.2.r) xs hs.1, lreset_rel pd _ hs⟩
  advance := by
    rintro w xs d t s ⟨rfl, s', ⟨-, d0, hd, hR⟩, hF⟩ ht
    obtain ⟨s1', y, h1, h2, -, -⟩ := ractivate_inv (ext_rwf h.wf).base hR _ rfl
    obtain ⟨s1, g1, g2⟩ := sim_forward h.wf hR hF _ h1
    refine ⟨(s.1, s1), ?_, rfl, s1', ⟨rfl, d0, hd, h2⟩, g2⟩
    exact congrArg (Option.map fun r : LNState V P ℝ × Vec ℝ => (s.1, r.1)) g1
  fwdOut := by
    rintro w xs d t s ⟨rfl, s', hR, hF⟩ ht u hu
    rw [← (rnetLawful (ext_trainable h)).fwdOut _ _ _ _ _ hR ht u hu]
    exact (readOut_rel h.wf _ _ (hF.row u).outb N.outmods (fun _ hm => hm) 0 _).symm
  fwdEnd := by
    rintro w xs d s ⟨rfl, s', hR, hF⟩
    obtain ⟨-, -, h3⟩ := (rnetLawful (ext_trainable h)).fwdEnd _ _ _ _ hR
    refine ⟨⟨hF.shape, hF.rows⟩, rfl, ?_⟩
    rw [← h3]
    funext i
    exact ((hF.row 0).derivs _ _ (h.layout.place i).2.1).symm
  turn := by
    rintro w xs es d s hl ⟨rfl, s', hR, hF⟩
    refine ⟨rfl, s', (rnetLawful (ext_trainable h)).turn _ _ es _ _ hl hR, hF.back ?_⟩
    obtain ⟨-, d0, hd, hR⟩ := hR
    exact fun u => (hR.errs u).1
  retreat := by
    rintro w xs es d t s ht ⟨rfl, s', ⟨-, d0, I, O, hd, hl, hrows, hB⟩, hF⟩
    obtain ⟨s1', g, h1, h2, -, -⟩ := rbackActivate_inv (ext_rwf h.wf).base hB ht _ rfl
    obtain ⟨s1, g1, g2⟩ := sim_backward h.wf h.cellParams hB ht hF _ h1
    refine ⟨(s.1, s1), ?_, rfl, s1', ⟨rfl, d0, I, O, hd, hl, hrows, h2⟩, g2⟩
    exact congrArg (Option.map fun r : LNState V P ℝ × Vec ℝ => (s.1, r.1)) g1
  backOut := by
    rintro w xs es d t s ⟨rfl, s', hB, hF⟩ u hu
    rw [← (rnetLawful (ext_trainable h)).backOut _ _ _ _ _ _ hB u hu]
    exact (readOut_rel h.wf _ _ (hF.row u).outb N.outmods (fun _ hm => hm) 0 _).symm
  backEnd := by
    rintro w xs es d s ⟨rfl, s', hB, hF⟩
    obtain ⟨-, -, g, h3, h4⟩ := (rnetLawful (ext_trainable h)).backEnd _ _ _ _ _ hB
    refine ⟨⟨hF.shape, hF.rows⟩, rfl, g, ?_, h4⟩
    intro i
    rw [← h3 i]
    exact ((hF.row 0).derivs _ _ (h.layout.place i).2.1).symm

theorem lnetError_eq {N : LNet V P ℝ} (hN : LWF N) (L : Layout P n) : lnetError N L = netError (ext N) L := by
  funext w seq
  unfold lnetError netError
  rw [loutputsOf_eq hN, ext_outdim hN]

theorem ldescends_of {N : LNet V P ℝ} {L : Layout P n} {Ps : Finset P} {pd : P → Nat} (h : LTrainable N L Ps pd) {w : Fin n → ℝ} {seq : List (Sample ℝ)} {g : Fin n → ℝ}
    (hg : Descends (ext N) L pd w seq g) : LDescends N L pd w seq g := by
  intro hS
  have := hg (ext_smooth h.wf h.cellParams hS)
  rw [lnetError_eq h.wf]
  exact this

end Verif.LstmNet
