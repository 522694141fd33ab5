import Verif.Lemmas.LstmNetRun
/-
Lemmas for C174: one activation and one back-activation.
-/
namespace Verif.LstmNet
open Verif.Net Verif.Net.Spec Verif.LstmNet.Spec Verif.Topo.Spec Finset

variable {V P : Type} [DecidableEq V] [DecidableEq P]

theorem rec_fits {N : LNet V P ℝ} (hN : LWF N) {a : V × Conn V P ℝ} (ha : a ∈ N.recs) : Fits N a.1 a.2 := ⟨(hN.base.inSlice a ha).2, (hN.base.outSlice a ha).2⟩

/-- The buffers `s` of a network that has consumed `t` inputs, and the buffers `s'` of its extension. -/
structure FRel (N : LNet V P ℝ) (pd : P → Nat) (θ : P → Vec ℝ) (t : Nat) (s' : RState V P ℝ) (s : LNState V P ℝ) : Prop where
  shape : Shape s.r
  len : s.r.inb.length = s'.inb.length
  off : s.r.offset = s'.offset
  maxo : s.r.maxoffset = s'.maxoffset
  row : ∀ u, RowR N pd (rowAt s' u) (rowAt s.r u)
  rows : ∀ v ∈ N.sorted, ∀ k, N.kind v = some k → (s.mem v).rows = s.r.inb.length
  mo : ∀ v ∈ N.sorted, ∀ k, N.kind v = some k → t ≤ (s.mem v).maxoffset
  mem : ∀ v ∈ N.sorted, ∀ k, N.kind v = some k → ∀ u < t, MemRow k (θ (N.mod v).pc) (s'.inb.getD u zrow v) (s.mem v) u
  err : ∀ v ∈ N.sorted, ∀ k, N.kind v = some k → ∀ u, (s.mem v).forgetgateError u = (fun _ => 0) ∧ (s.mem v).stateError u = (fun _ => 0) ∧
    (s.mem v).ingateError u = fun _ => 0

theorem MemRow.grow {k : Kind ℝ} {w x : Vec ℝ} {l : Lstm.LState ℝ} {u : Nat} (h : MemRow k w x l u) (hu : u < l.rows) : MemRow k w x (Lstm.grow l) u := by
  obtain ⟨h1, h2, h3, h4, h5, h6, h7, h8, h9⟩ := h
  refine ⟨?_, ?_, ?_, ?_, ?_, ?_, ?_, ?_, ?_⟩
  · intro j hj
    rw [h1 j hj]
    simp only [Lstm.grow]
    rw [if_pos (show u - 1 < l.rows by omega)]
  all_goals
    simp only [Lstm.grow]
    rw [if_pos hu]
    assumption

theorem rowAt_grow (s : RState V P ℝ) (u : Nat) : rowAt (Net.grow s) u = rowAt s u := by
  simp only [rowAt, Net.grow, getD_append_zrow]

theorem grow_len (s : RState V P ℝ) : (Net.grow s).inb.length = 2 * s.inb.length := by simp [Net.grow]; omega

theorem shape_grow {s : RState V P ℝ} (h : Shape s) : Shape (Net.grow s) := by
  obtain ⟨s1, s2, s3, s4⟩ := h
  refine ⟨?_, ?_, ?_, ?_⟩ <;> simp [Net.grow] <;> omega

theorem FRel.grow {N : LNet V P ℝ} {pd : P → Nat} {θ : P → Vec ℝ} {t : Nat} {s' : RState V P ℝ} {s : LNState V P ℝ} (h : FRel N pd θ t s' s)
    (ht : t ≤ s.r.inb.length) : FRel N pd θ t (Net.grow s') (lgrow s) := by
  refine ⟨shape_grow h.shape, ?_, h.off, h.maxo, ?_, ?_, h.mo, ?_, ?_⟩
  · simp only [lgrow]; rw [grow_len, grow_len, h.len]
  · intro u
    simp only [lgrow]
    rw [rowAt_grow, rowAt_grow]
    exact h.row u
  · intro v hv k hk
    simp only [lgrow]
    rw [grow_len, ← h.rows v hv k hk]
    rfl
  · intro v hv k hk u hu
    have e : (Net.grow s').inb.getD u zrow = s'.inb.getD u zrow := by simp only [Net.grow, getD_append_zrow]
    rw [e]
    exact (h.mem v hv k hk u hu).grow (by rw [h.rows v hv k hk]; omega)
  · intro v hv k hk u
    obtain ⟨e1, e2, e3⟩ := h.err v hv k hk u
    simp only [lgrow, Lstm.grow, e1, e2, e3, ite_self, and_self]

theorem shape_put {s : RState V P ℝ} (h : Shape s) (o a m : Nat) (b : Bufs V P ℝ) : Shape { putRow s o b with offset := a, maxoffset := m } := by
  obtain ⟨s1, s2, s3, s4⟩ := h
  exact ⟨by simpa [putRow] using s1, by simpa [putRow] using s2, by simpa [putRow] using s3, by simpa [putRow] using s4⟩

theorem rowAt_put {s : RState V P ℝ} (h : Shape s) {o : Nat} (ho : o < s.inb.length) (a m : Nat) (b : Bufs V P ℝ) (u : Nat) :
    rowAt { putRow s o b with offset := a, maxoffset := m } u = if u = o then b else { rowAt s u with derivs := b.derivs } := by
  obtain ⟨s1, s2, s3, s4⟩ := h
  simp only [rowAt, putRow]
  rw [getD_set_zrow _ _ _ _ ho, getD_set_zrow _ _ _ _ (by omega), getD_set_zrow _ _ _ _ (by omega), getD_set_zrow _ _ _ _ (by omega)]
  by_cases hu : u = o
  · simp [hu]
  · simp [hu]

/-- a row after another one has been written -/
theorem RowR.put {N : LNet V P ℝ} {pd : P → Nat} {s' s : RState V P ℝ} (hs' : Shape s') (hs : Shape s) (hl : s.inb.length = s'.inb.length)
    (h : ∀ u, RowR N pd (rowAt s' u) (rowAt s u)) {o : Nat} (ho : o < s.inb.length) {b' b : Bufs V P ℝ} (hb : RowR N pd b' b) (a' m' a m : Nat) (u : Nat) :
    RowR N pd (rowAt { putRow s' o b' with offset := a', maxoffset := m' } u) (rowAt { putRow s o b with offset := a, maxoffset := m } u) := by
  rw [rowAt_put hs' (by omega), rowAt_put hs ho]
  split
  · exact hb
  · exact ⟨(h u).inb, (h u).outb, (h u).ine, (h u).oute, hb.derivs⟩

theorem sim_forward {N : LNet V P ℝ} (hN : LWF N) {pd : P → Nat} {θ : P → Vec ℝ} {xs : List (Vec ℝ)} {d0 : P → Vec ℝ} {t : Nat} {s' : RState V P ℝ}
    {s : LNState V P ℝ} (hI : RInv (ext N) θ xs d0 t s') (h : FRel N pd θ t s' s) (x : Vec ℝ) {s1' : RState V P ℝ} {y : Vec ℝ}
    (ha : ractivate (ext N) false θ s' x = some (s1', y)) : ∃ s1, lactivate N θ s x = some (s1, y) ∧ FRel N pd θ (t + 1) s1' s1 := by
  have hlen := h.len
  have hoff := h.off
  have hoff' := hI.off
  have hroom := hI.room
  obtain ⟨s2', s2, hs2', hs2, hI2, h2, hroom2⟩ : ∃ s2' s2, s2' = (if s'.offset + 1 < s'.inb.length then s' else Net.grow s') ∧
      s2 = (if s.r.offset + 1 < s.r.inb.length then s else lgrow s) ∧ RInv (ext N) θ xs d0 t s2' ∧ FRel N pd θ t s2' s2 ∧ t + 1 < s2'.inb.length := by
    refine ⟨_, _, rfl, rfl, ?_, ?_, ?_⟩
    · split
      · exact hI
      · exact hI.grow
    · rw [hlen, hoff]
      split
      · exact h
      · exact h.grow (by omega)
    · split
      · omega
      · rw [grow_len]; omega
  have ho2' : s2'.offset = t := hI2.off
  have ho2 : s2.r.offset = t := h2.off.trans ho2'
  have hlen2 := h2.len
  unfold ractivate at ha
  rw [if_pos (by omega), ← hs2'] at ha
  simp only [Bool.false_eq_true, if_false, ho2', Option.some.injEq, Prod.mk.injEq] at ha
  obtain ⟨rfl, rfl⟩ := ha
  obtain ⟨hfi, hfo⟩ := hI2.fresh t (Nat.le_refl t)
  -- the external input
  have R0 := loadIn_rel hN x N.inmods (fun _ hm => hm) 0 (h2.row t)
  obtain ⟨l1, l2, l3, l4, l5⟩ := loadIn_spec (ext N).toNet x N.inmods 0 (rowAt s2' t) hN.base.base.insNodup
  have hz : ∀ v k, N.kind v = some k → (loadIn (ext N).toNet x 0 N.inmods (rowAt s2' t)).inb v = fun _ => 0 := by
    intro v k hk
    rw [l1]
    simp only [if_neg (hN.notIn v k hk), rowAt, hfi]
    rfl
  obtain ⟨b1', b1, hb1', hb1, R1, hpre⟩ : ∃ b1' b1,
      b1' = (if 0 < t then (ext N).recs.foldl (recForward θ (s2'.outb.getD (t - 1) zrow)) (loadIn (ext N).toNet x 0 N.inmods (rowAt s2' t))
        else loadIn (ext N).toNet x 0 N.inmods (rowAt s2' t)) ∧
      b1 = (if 0 < t then N.recs.foldl (recForward θ (s2.r.outb.getD (t - 1) zrow)) (loadIn N.toNet x 0 N.inmods (rowAt s2.r t))
        else loadIn N.toNet x 0 N.inmods (rowAt s2.r t)) ∧ RowR N pd b1' b1 ∧
      ∀ v ∈ N.sorted, ∀ k, N.kind v = some k → ∀ j < k.dim, pre k (b1'.inb v) j = if 0 < t then (s2.mem v).state (t - 1) j else 0 := by
    refine ⟨_, _, rfl, rfl, ?_⟩
    by_cases ht : 0 < t
    · simp only [if_pos ht]
      have R2 := recsForward_rel hN θ (s2'.outb.getD (t - 1) zrow) (s2.r.outb.getD (t - 1) zrow) (h2.row (t - 1)).outb N.recs R0 (fun a ha => rec_fits hN ha)
      have e : (ext N).recs = N.recs ++ stateRecs N := rfl
      rw [e, List.foldl_append]
      obtain ⟨r1, -⟩ := recs_forward θ (s2'.outb.getD (t - 1) zrow) N.recs (loadIn (ext N).toNet x 0 N.inmods (rowAt s2' t))
      generalize N.recs.foldl (recForward θ (s2'.outb.getD (t - 1) zrow)) (loadIn (ext N).toNet x 0 N.inmods (rowAt s2' t)) = c' at R2 r1 ⊢
      generalize N.recs.foldl (recForward θ (s2.r.outb.getD (t - 1) zrow)) (loadIn N.toNet x 0 N.inmods (rowAt s2.r t)) = c at R2 ⊢
      obtain ⟨q1, q2, q3, q4, q5, q6, q7⟩ := stateRecs_forward N hN.base.base.nodup θ (s2'.outb.getD (t - 1) zrow) c'
      refine ⟨⟨?_, by rw [q4]; exact R2.outb, by rw [q5]; exact R2.ine, by rw [q6]; exact R2.oute, by rw [q7]; exact R2.derivs⟩, ?_⟩
      · intro v
        refine inR_of (R2.inb v) (fun hk hc => by rw [q1 v hk]; exact hc) ?_
        intro k hk j hj hc
        rw [q2 v k hk j hj]; exact hc
      · intro v hv k hk j hj
        unfold pre
        rw [q3 v k hk hv j hj, r1, hz v k hk, sum_zero_list, zero_add, zero_add]
        · have := (hI2.rows (t - 1) (by omega)).done v hv
          dsimp only at this
          rw [this, show (ext N).mod v = extMod k (N.mod v).pc from ext_mod_some N v k hk, ext_out_st k _ _ _ _ hj]
          exact ((h2.mem v hv k hk (t - 1) (by omega)).state j hj).symm
        · intro a ha
          split
          · next hav =>
            have := (rec_fits hN ha).2
            rw [hav, hN.indim v k hk] at this
            simp only [signal]
            rw [if_neg (by omega)]
          · rfl
    · simp only [if_neg ht]
      refine ⟨R0, ?_⟩
      intro v hv k hk j hj
      unfold pre
      rw [hz v k hk]
  obtain ⟨s3, e3, R3, M3⟩ := lsweepForward_rel hN θ t s2.mem (fun v hv k hk => by rw [h2.rows v hv k hk]; omega) N.sorted [] rfl b1' ⟨b1, s2.mem⟩ R1 hpre
    (by simp) (fun _ _ => rfl)
  have estep : stepRow (ext N) θ x t (s2'.outb.getD (t - 1) zrow) (rowAt s2' t) = sweepForward (ext N).toNet θ b1' N.sorted := by
    rw [hb1']; rfl
  rw [estep]
  refine ⟨⟨{ putRow s2.r t s3.b with offset := t + 1, maxoffset := max (t + 1) (putRow s2.r t s3.b).maxoffset }, s3.mem⟩, ?_, ?_⟩
  · unfold lactivate
    rw [if_pos (by omega), ← hs2]
    simp only [ho2, ← hb1, e3]
    congr 2
    refine (readOut_rel hN _ _ ?_ N.outmods (fun _ hm => hm) 0 _).symm
    have := (RowR.put hI2.shape h2.shape h2.len h2.row (show t < s2.r.inb.length by omega) R3 0 0 0 0 t).outb
    exact this
  · refine ⟨shape_put h2.shape _ _ _ _, ?_, rfl, ?_, ?_, ?_, ?_, ?_, ?_⟩
    · simpa [putRow] using h2.len
    · simp only [putRow]; rw [h2.maxo]
    · exact RowR.put hI2.shape h2.shape h2.len h2.row (by omega) R3 _ _ _ _
    · intro v hv k hk
      dsimp only
      rw [(M3 v hv k hk).2.1.rows, h2.rows v hv k hk]
      simp [putRow]
    · intro v hv k hk; exact (M3 v hv k hk).2.2
    · intro v hv k hk u hu
      have e : ({ putRow s2' t (sweepForward (ext N).toNet θ b1' N.sorted) with
          offset := t + 1, maxoffset := max (t + 1) (putRow s2' t (sweepForward (ext N).toNet θ b1' N.sorted)).maxoffset } : RState V P ℝ).inb.getD u zrow =
          if u = t then (sweepForward (ext N).toNet θ b1' N.sorted).inb else s2'.inb.getD u zrow := by
        simp only [putRow]
        rw [getD_set_zrow _ _ _ _ (by omega)]
      rw [e]
      by_cases hut : u = t
      · subst hut; rw [if_pos rfl]; exact (M3 v hv k hk).1
      · rw [if_neg hut]
        exact (h2.mem v hv k hk u (by omega)).keep (M3 v hv k hk).2.1 (by omega)
    · intro v hv k hk u
      have K := (M3 v hv k hk).2.1
      dsimp only
      rw [K.forgetgateError, K.stateError, K.ingateError]
      exact h2.err v hv k hk u

/-- The same on the way back: `T` inputs have been consumed, the errors of the steps `t..T-1` propagated. -/
structure BRel (N : LNet V P ℝ) (pd : P → Nat) (θ : P → Vec ℝ) (T t : Nat) (s' : RState V P ℝ) (s : LNState V P ℝ) : Prop where
  shape : Shape s.r
  len : s.r.inb.length = s'.inb.length
  off : s.r.offset = s'.offset
  maxo : s.r.maxoffset = s'.maxoffset
  row : ∀ u, RowR N pd (rowAt s' u) (rowAt s.r u)
  rows : ∀ v ∈ N.sorted, ∀ k, N.kind v = some k → (s.mem v).rows = s.r.inb.length
  mo : ∀ v ∈ N.sorted, ∀ k, N.kind v = some k → T ≤ (s.mem v).maxoffset
  mem : ∀ v ∈ N.sorted, ∀ k, N.kind v = some k → ∀ u < T, MemRow k (θ (N.mod v).pc) (s'.inb.getD u zrow v) (s.mem v) u
  fe : ∀ v ∈ N.sorted, ∀ k, N.kind v = some k → ∀ u < t, (s.mem v).forgetgateError u = fun _ => 0
  next : ∀ v ∈ N.sorted, ∀ k, N.kind v = some k → ∀ u, t ≤ u → u ≤ T → ∀ j < k.dim, s'.ine.getD u zrow v (4 * k.dim + j) = nextErr k (θ (N.mod v).pc) (s.mem v) u j

theorem FRel.back {N : LNet V P ℝ} {pd : P → Nat} {θ : P → Vec ℝ} {t : Nat} {s' : RState V P ℝ} {s : LNState V P ℝ} (h : FRel N pd θ t s' s)
    (hz : ∀ u, s'.ine.getD u zrow = zrow) : BRel N pd θ t t s' s := by
  refine ⟨h.shape, h.len, h.off, h.maxo, h.row, h.rows, h.mo, h.mem, fun v hv k hk u _ => (h.err v hv k hk u).1, ?_⟩
  intro v hv k hk u _ _ j _
  obtain ⟨e1, e2, e3⟩ := h.err v hv k hk u
  rw [hz]
  simp [nextErr, e1, e2, e3, zrow]

theorem sim_backward {N : LNet V P ℝ} (hN : LWF N) {pd : P → Nat} (hpd : ∀ v ∈ N.sorted, ∀ k, N.kind v = some k → pd (N.mod v).pc = if k.peepholes then 3 * k.dim else 0)
    {θ : P → Vec ℝ} {es : List (Vec ℝ)} {I O : Nat → V → Vec ℝ} {d0 : P → Vec ℝ} {T t : Nat} {s' : RState V P ℝ}
    {s : LNState V P ℝ} (hI : BRInv (ext N) θ es I O d0 T (t + 1) s') (htT : t < T) (h : BRel N pd θ T (t + 1) s' s) (x : Vec ℝ) {s1' : RState V P ℝ} {y : Vec ℝ}
    (ha : rbackActivate (ext N) θ s' x = some (s1', y)) : ∃ s1, lbackActivate N θ s x = some (s1, y) ∧ BRel N pd θ T t s1' s1 := by
  have hlen := h.len
  have hoff := h.off
  have hoff' := hI.off
  have hroom := hI.room
  have hmax' := hI.maxoff
  have hmax := h.maxo
  have hlast : (t == s'.maxoffset) = false := by rw [beq_eq_false_iff_ne]; omega
  have hlast2 : (t == s.r.maxoffset) = false := by rw [beq_eq_false_iff_ne]; omega
  have hoff2 : s.r.offset = t + 1 := by omega
  unfold rbackActivate at ha
  rw [if_pos ⟨by omega, by omega⟩] at ha
  simp only [hoff', Nat.add_sub_cancel, hlast, Option.some.injEq, Prod.mk.injEq] at ha
  obtain ⟨rfl, rfl⟩ := ha
  obtain ⟨hfi, hfo⟩ := hI.todo t (by omega)
  have R0 := loadErr_rel hN x N.outmods (fun _ hm => hm) 0 (h.row t)
  obtain ⟨l1, l2, l3, l4, l5⟩ := loadErr_spec (ext N).toNet x N.outmods 0 (rowAt s' t) hN.base.base.outsNodup
  have hz : ∀ v k, N.kind v = some k → (loadErr (ext N).toNet x 0 N.outmods (rowAt s' t)).oute v = fun _ => 0 := by
    intro v k hk
    rw [l1]
    simp only [if_neg (hN.notOut v k hk), rowAt, hfo]
    rfl
  obtain ⟨b1', b1, hb1', hb1, R1, hnext, hinb⟩ : ∃ b1' b1,
      b1' = (ext N).recs.foldl (recBackward θ (s'.ine.getD (t + 1) zrow)) (loadErr (ext N).toNet x 0 N.outmods (rowAt s' t)) ∧
      b1 = N.recs.foldl (recBackward θ (s.r.ine.getD (t + 1) zrow)) (loadErr N.toNet x 0 N.outmods (rowAt s.r t)) ∧ RowR N pd b1' b1 ∧
      (∀ v ∈ N.sorted, ∀ k, N.kind v = some k → ∀ j < k.dim, b1'.oute v (k.dim + j) = nextErr k (θ (N.mod v).pc) (s.mem v) (t + 1) j) ∧
      b1'.inb = s'.inb.getD t zrow := by
    refine ⟨_, _, rfl, rfl, ?_⟩
    have R2 := recsBackward_rel hN θ (s'.ine.getD (t + 1) zrow) (s.r.ine.getD (t + 1) zrow) (h.row (t + 1)).ine N.recs R0 (fun a ha => rec_fits hN ha)
    have e : (ext N).recs = N.recs ++ stateRecs N := rfl
    rw [e, List.foldl_append]
    obtain ⟨r1, r2, r3, r4, r5⟩ := recs_backward θ (s'.ine.getD (t + 1) zrow) N.recs (loadErr (ext N).toNet x 0 N.outmods (rowAt s' t))
    generalize N.recs.foldl (recBackward θ (s'.ine.getD (t + 1) zrow)) (loadErr (ext N).toNet x 0 N.outmods (rowAt s' t)) = c' at R2 r1 r2 r3 r4 ⊢
    generalize N.recs.foldl (recBackward θ (s.r.ine.getD (t + 1) zrow)) (loadErr N.toNet x 0 N.outmods (rowAt s.r t)) = c at R2 ⊢
    obtain ⟨q1, q2, q3, q4, q5, q6, q7⟩ := stateRecs_backward N hN.base.base.nodup θ (s'.ine.getD (t + 1) zrow) c'
    refine ⟨⟨by rw [q6]; exact R2.inb, by rw [q4]; exact R2.outb, by rw [q5]; exact R2.ine, ?_, by rw [q7]; exact R2.derivs⟩, ?_, ?_⟩
    · intro v
      refine outR_of (R2.oute v) (fun hk hc => by rw [q1 v hk]; exact hc) ?_
      intro k hk j hj hc
      rw [q2 v k hk j hj]; exact hc
    · intro v hv k hk j hj
      rw [q3 v k hk hv j hj, r1, hz v k hk, sum_zero_list, zero_add, zero_add]
      · exact h.next v hv k hk (t + 1) (Nat.le_refl _) (by omega) j hj
      · intro a ha
        split
        · next hav =>
          have := (rec_fits hN ha).1
          rw [hav, hN.outdim v k hk] at this
          simp only [backSignal]
          rw [if_neg (by omega)]
        · rfl
    · rw [q6, r4, l4]; rfl
  obtain ⟨s3, e3, R3, M3⟩ := lsweepBackward_rel hN hpd θ t s.mem (fun v hv k hk => by
      have h1 := h.rows v hv k hk
      have h2 := h.mo v hv k hk
      refine ⟨by omega, by omega, fun j _ => ?_⟩
      rw [h.fe v hv k hk t (by omega)]) N.sorted.reverse (fun v hv => by simpa using hv) (List.nodup_reverse.2 hN.base.base.nodup) b1' ⟨b1, s.mem⟩ R1
    (fun v hv k hk => by rw [hinb]; exact h.mem v hv k hk t htT) (fun v hv => hnext v (by simpa using hv))
    (fun v hv hn => absurd (by simpa using hv) hn) (fun _ _ => rfl)
  have estep : backRow (ext N) θ x false (s'.ine.getD (t + 1) zrow) (rowAt s' t) =
      N.sorted.reverse.foldl (fun b m => modBackward (ext N).toNet θ ((N.conns m).foldl (connBackward θ m) b) m) b1' := by
    rw [hb1']; rfl
  rw [estep]
  have einb : (N.sorted.reverse.foldl (fun b m => modBackward (ext N).toNet θ ((N.conns m).foldl (connBackward θ m) b) m) b1').inb = b1'.inb := by
    have key : ∀ l : List V, ∀ b : Bufs V P ℝ, (l.foldl (fun b m => modBackward (ext N).toNet θ ((N.conns m).foldl (connBackward θ m) b) m) b).inb = b.inb := by
      intro l
      induction l with
      | nil => intro b; rfl
      | cons m l ih =>
        intro b
        rw [List.foldl_cons, ih]
        have key2 : ∀ cs : List (Conn V P ℝ), ∀ b : Bufs V P ℝ, (cs.foldl (connBackward θ m) b).inb = b.inb := by
          intro cs
          induction cs with
          | nil => intro b; rfl
          | cons c cs ih => intro b; rw [List.foldl_cons, ih]; rfl
        exact key2 _ b
    exact key _ _
  generalize N.sorted.reverse.foldl (fun b m => modBackward (ext N).toNet θ ((N.conns m).foldl (connBackward θ m) b) m) b1' = b2' at R3 M3 einb ⊢
  refine ⟨⟨{ putRow s.r t s3.b with offset := t }, s3.mem⟩, ?_, ?_⟩
  · unfold lbackActivate
    rw [if_pos ⟨by omega, by omega⟩]
    simp only [hoff2, Nat.add_sub_cancel, hlast2, Bool.false_eq_true, if_false, ← hb1, e3]
    congr 2
    refine (readErr_rel hN _ _ ?_ N.inmods (fun _ hm => hm) 0 _).symm
    have := (RowR.put hI.shape h.shape h.len h.row (show t < s.r.inb.length by omega) R3 0 0 0 0 t).ine
    exact this
  · have eine : ∀ u, ({ putRow s' t b2' with offset := t } : RState V P ℝ).ine.getD u zrow = if u = t then b2'.ine else s'.ine.getD u zrow := by
      intro u
      simp only [putRow]
      obtain ⟨-, -, z3, -⟩ := hI.shape
      rw [getD_set_zrow _ _ _ _ (by omega)]
    have einb2 : ∀ u, ({ putRow s' t b2' with offset := t } : RState V P ℝ).inb.getD u zrow = s'.inb.getD u zrow := by
      intro u
      simp only [putRow]
      rw [getD_set_zrow _ _ _ _ (by omega), einb, hinb]
      split
      · next hu => rw [hu]
      · rfl
    refine ⟨shape_put h.shape _ _ _ _, ?_, rfl, ?_, ?_, ?_, ?_, ?_, ?_, ?_⟩
    · simpa [putRow] using h.len
    · exact h.maxo
    · exact RowR.put hI.shape h.shape h.len h.row (by omega) R3 _ _ _ _
    · intro v hv k hk
      dsimp only
      rw [(M3 v hv k hk).2.rows, h.rows v hv k hk]
      simp [putRow]
    · intro v hv k hk
      dsimp only
      rw [(M3 v hv k hk).2.maxoffset]
      exact h.mo v hv k hk
    · intro v hv k hk u hu
      rw [einb2]
      exact (M3 v hv k hk).2.mem _ _ (h.mem v hv k hk u hu)
    · intro v hv k hk u hu
      dsimp only
      rw [(M3 v hv k hk).2.fe u (by omega)]
      exact h.fe v hv k hk u (by omega)
    · intro v hv k hk u hu huT j hj
      rw [eine]
      by_cases hut : u = t
      · subst hut
        rw [if_pos rfl]
        exact (M3 v hv k hk).1 j hj
      · rw [if_neg hut]
        dsimp only
        rw [(M3 v hv k hk).2.next u hut]
        exact h.next v hv k hk u (by omega) huT j hj

end Verif.LstmNet
