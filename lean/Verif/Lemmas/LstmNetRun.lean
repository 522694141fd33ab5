import Verif.Lemmas.LstmNetRow
/-
Lemmas for C174: the sweeps and whole activations.
-/
namespace Verif.LstmNet
open Verif.Net Verif.Net.Spec Verif.LstmNet.Spec Verif.Topo.Spec Finset

variable {V P : Type} [DecidableEq V] [DecidableEq P]

theorem MemRow.congr {k : Kind ℝ} {w x x2 : Vec ℝ} {l : Lstm.LState ℝ} {u : Nat} (h : MemRow k w x l u) (hx : x = x2) : MemRow k w x2 l u := hx ▸ h

theorem lwf_fits {N : LNet V P ℝ} (hN : LWF N) {m : V} (hm : m ∈ N.sorted) {c : Conn V P ℝ} (hc : c ∈ N.conns m) : Fits N m c :=
  ⟨(hN.base.base.inSlice m hm c hc).2, (hN.base.base.outSlice m hm c hc).2⟩

theorem ext_out_lt (k : Kind ℝ) (pc : P) (w x y : Vec ℝ) {j : Nat} (hj : j < k.dim) : tr (extMod k pc).outdim ((extMod k pc).fwd w x y) j = out k w x j := by
  unfold tr
  rw [if_pos (show j < (extMod k pc).outdim by simp only [extMod]; omega)]
  simp only [extMod]
  rw [if_pos hj]

theorem ext_out_st (k : Kind ℝ) (pc : P) (w x y : Vec ℝ) {j : Nat} (hj : j < k.dim) : tr (extMod k pc).outdim ((extMod k pc).fwd w x y) (k.dim + j) = st k w x j := by
  unfold tr
  rw [if_pos (show k.dim + j < (extMod k pc).outdim by simp only [extMod]; omega)]
  simp only [extMod]
  rw [if_neg (by omega), show k.dim + j - k.dim = j by omega]

theorem ext_err_pe (k : Kind ℝ) (pc : P) (w e a b x : Vec ℝ) {j : Nat} (hj : j < k.dim) : tr (extMod k pc).indim ((extMod k pc).bwdErr w e a b x) (4 * k.dim + j) = pe k w x j e := by
  unfold tr
  rw [if_pos (show 4 * k.dim + j < (extMod k pc).indim by simp only [extMod]; omega)]
  simp only [extMod]
  rw [if_neg (by omega), if_neg (by omega), if_neg (by omega), if_neg (by omega), show 4 * k.dim + j - 4 * k.dim = j by omega]

/-- a connection that fits leaves the state inputs alone -/
theorem conns_state {N : LNet V P ℝ} (hN : LWF N) (θ : P → Vec ℝ) (m : V) (cs : List (Conn V P ℝ)) (hc : ∀ c ∈ cs, Fits N m c) (b : Bufs V P ℝ) (v : V) (k : Kind ℝ)
    (hk : N.kind v = some k) (j : Nat) (hj : 4 * k.dim ≤ j) : (cs.foldl (connForward θ m) b).inb v j = b.inb v j := by
  rw [(conns_forward θ m cs b).1, sum_zero_list, add_zero]
  intro c hcc
  split
  · next h =>
    have := (hc c hcc).2
    rw [h, hN.indim v k hk] at this
    simp only [signal]
    rw [if_neg (by omega)]
  · rfl

theorem conns_other (θ : P → Vec ℝ) (m : V) (cs : List (Conn V P ℝ)) (b : Bufs V P ℝ) (v : V) (h : ∀ c ∈ cs, c.outmod ≠ v) :
    (cs.foldl (connForward θ m) b).inb v = b.inb v := by
  funext j
  rw [(conns_forward θ m cs b).1, sum_zero_list, add_zero]
  intro c hcc
  rw [if_neg (h c hcc)]

theorem lsweepForward_rel {N : LNet V P ℝ} (hN : LWF N) {pd : P → Nat} (θ : P → Vec ℝ) (o : Nat) (mem0 : V → Lstm.LState ℝ)
    (hrows : ∀ v ∈ N.sorted, ∀ k, N.kind v = some k → o < (mem0 v).rows)
    (suf pr : List V) (hl : N.sorted = pr ++ suf) (b' : Bufs V P ℝ) (s : LRow V P ℝ)
    (hR : RowR N pd b' s.b)
    (hpre : ∀ v ∈ N.sorted, ∀ k, N.kind v = some k → ∀ j < k.dim, pre k (b'.inb v) j = if 0 < o then (mem0 v).state (o - 1) j else 0)
    (hdone : ∀ v ∈ pr, ∀ k, N.kind v = some k → MemRow k (θ (N.mod v).pc) (b'.inb v) (s.mem v) o ∧ Keep o (s.mem v) (mem0 v) ∧ o + 1 ≤ (s.mem v).maxoffset)
    (htodo : ∀ v ∈ suf, s.mem v = mem0 v) :
    ∃ s1, lsweepForward N θ o suf s = some s1 ∧ RowR N pd (sweepForward (ext N).toNet θ b' suf) s1.b ∧
      ∀ v ∈ N.sorted, ∀ k, N.kind v = some k → MemRow k (θ (N.mod v).pc) ((sweepForward (ext N).toNet θ b' suf).inb v) (s1.mem v) o ∧ Keep o (s1.mem v) (mem0 v) ∧
        o + 1 ≤ (s1.mem v).maxoffset := by
  have hnd := hN.base.base.nodup
  induction suf generalizing pr b' s with
  | nil =>
    refine ⟨s, rfl, hR, ?_⟩
    intro v hv
    rw [hl, List.append_nil] at hv
    exact hdone v hv
  | cons m suf ih =>
    have hm : m ∈ N.sorted := by rw [hl]; simp
    have hfit : ∀ c ∈ N.conns m, Fits N m c := fun c hc => lwf_fits hN hm hc
    have hord : ∀ c ∈ N.conns m, c.outmod ∈ suf := fun c hc => before_split hnd hl (hN.base.base.order m hm c hc)
    have hpm : m ∉ pr ∧ m ∉ suf ∧ ∀ v ∈ pr, v ∉ suf := by
      rw [hl, List.nodup_append] at hnd
      obtain ⟨h1, h2, h3⟩ := hnd
      rw [List.nodup_cons] at h2
      exact ⟨fun h => h3 m h m (by simp) rfl, h2.1, fun v hv hs => h3 v hv v (by simp [hs]) rfl⟩
    -- the module itself
    obtain ⟨s2, e2, hR2, hmem2, hother2⟩ : ∃ s2, lmodForward N θ o s m = some s2 ∧ RowR N pd (modForward (ext N).toNet θ b' m) s2.b ∧
        (∀ k, N.kind m = some k → MemRow k (θ (N.mod m).pc) (b'.inb m) (s2.mem m) o ∧ Keep o (s2.mem m) (mem0 m) ∧ o + 1 ≤ (s2.mem m).maxoffset) ∧
        ∀ v ≠ m, s2.mem v = s.mem v := by
      unfold lmodForward
      cases hk : N.kind m with
      | none =>
        refine ⟨_, rfl, ⟨hR.inb, ?_, hR.ine, hR.oute, hR.derivs⟩, ?_, fun v _ => rfl⟩
        · simp only [modForward]
          rw [show (ext N).mod m = N.mod m from ext_mod_none N m hk, (hR.inb m).none hk, (hR.outb m).none hk]
          exact upd_rel hR.outb _ (outR_refl _ _ _)
        · intro k h; cases h
      | some k =>
        obtain ⟨l1, y, f1, f2, f3, f4, f5⟩ := lstm_forward k (θ (N.mod m).pc) (s.b.inb m) (b'.inb m) { s.mem m with offset := o } o rfl
          (by rw [htodo m (by simp)]; exact hrows m hm k hk) ((hR.inb m).some hk) (by
            intro j hj
            rw [hpre m hm k hk j hj, htodo m (by simp)])
        dsimp only
        rw [f1]
        refine ⟨_, rfl, ⟨hR.inb, ?_, hR.ine, hR.oute, hR.derivs⟩, ?_, ?_⟩
        · simp only [modForward]
          rw [show (ext N).mod m = extMod k (N.mod m).pc from ext_mod_some N m k hk]
          refine upd_rel hR.outb _ ?_
          refine outR_of (hR.outb m) (fun h => by rw [hk] at h; cases h) ?_
          intro k' hk' j hj _
          rw [hk] at hk'; cases hk'
          rw [hN.outdim m k hk]
          rw [ext_out_lt k _ _ _ _ hj]
          simp only [tr]
          rw [if_pos hj, f2 j hj]
          rfl
        · intro k' hk'
          cases hk'
          simp only [upd, if_true]
          refine ⟨f3, ?_, f5⟩
          rw [← htodo m (by simp)]
          exact ⟨f4.1, f4.2, f4.3, f4.4, f4.5, f4.6, f4.7, f4.8, f4.9, f4.10, f4.11, f4.12, f4.13⟩
        · intro v hv
          simp [upd, hv]
    have hinb : (modForward (ext N).toNet θ b' m).inb = b'.inb := rfl
    have hR3 := connsForward_rel hN θ m (N.conns m) hR2 hfit
    obtain ⟨s1, g1, g2, g3⟩ := ih (pr ++ [m]) (by rw [hl]; simp) ((N.conns m).foldl (connForward θ m) (modForward (ext N).toNet θ b' m))
      ⟨(N.conns m).foldl (connForward θ m) s2.b, s2.mem⟩ hR3 (by
        intro v hv k hk j hj
        rw [← hpre v hv k hk j hj]
        unfold pre
        rw [conns_state hN θ m _ hfit _ v k hk _ (by omega), hinb]) (by
        intro v hv k hk
        rw [List.mem_append, List.mem_singleton] at hv
        have hne : ∀ c ∈ N.conns m, c.outmod ≠ v := by
          intro c hc h
          have := hord c hc
          rw [h] at this
          rcases hv with hv | rfl
          · exact hpm.2.2 v hv this
          · exact hpm.2.1 this
        rw [conns_other θ m _ _ v hne, hinb]
        rcases hv with hv | rfl
        · dsimp only
          rw [hother2 v (by rintro rfl; exact hpm.1 hv)]
          exact hdone v hv k hk
        · exact hmem2 k hk) (by
        intro v hv
        dsimp only
        rw [hother2 v (by rintro rfl; exact hpm.2.1 hv)]
        exact htodo v (by simp [hv]))
    refine ⟨s1, ?_, g2, g3⟩
    simp only [lsweepForward, e2]
    exact g1

/-- a connection that fits leaves the errors of the states alone -/
theorem connsB_state {N : LNet V P ℝ} (hN : LWF N) (θ : P → Vec ℝ) (m : V) (cs : List (Conn V P ℝ)) (hc : ∀ c ∈ cs, Fits N m c) (b : Bufs V P ℝ) :
    (∀ v k, N.kind v = some k → ∀ j, k.dim ≤ j → (cs.foldl (connBackward θ m) b).oute v j = b.oute v j) ∧
    (cs.foldl (connBackward θ m) b).ine = b.ine ∧ (cs.foldl (connBackward θ m) b).inb = b.inb ∧ (cs.foldl (connBackward θ m) b).outb = b.outb := by
  induction cs generalizing b with
  | nil => exact ⟨fun _ _ _ _ _ => rfl, rfl, rfl, rfl⟩
  | cons c cs ih =>
    obtain ⟨h1, h2, h3, h4⟩ := ih (fun d hd => hc d (by simp [hd])) (connBackward θ m b c)
    refine ⟨?_, h2, h3, h4⟩
    intro v k hk j hj
    rw [List.foldl_cons, h1 v k hk j hj]
    simp only [connBackward, upd]
    split
    · next h =>
      subst h
      have := (hc c (by simp)).1
      rw [hN.outdim v k hk] at this
      unfold addAt
      rw [if_neg (by omega)]
    · rfl

theorem lsweepBackward_rel {N : LNet V P ℝ} (hN : LWF N) {pd : P → Nat} (hpd : ∀ v ∈ N.sorted, ∀ k, N.kind v = some k → pd (N.mod v).pc = if k.peepholes then 3 * k.dim else 0)
    (θ : P → Vec ℝ) (o : Nat) (mem0 : V → Lstm.LState ℝ)
    (hrows : ∀ v ∈ N.sorted, ∀ k, N.kind v = some k → o + 1 < (mem0 v).rows ∧ (mem0 v).maxoffset ≠ o ∧ ∀ j < k.dim, (mem0 v).forgetgateError o j = 0)
    (suf : List V) (hs : ∀ v ∈ suf, v ∈ N.sorted) (hnd : suf.Nodup) (b' : Bufs V P ℝ) (s : LRow V P ℝ)
    (hR : RowR N pd b' s.b)
    (hmem : ∀ v ∈ N.sorted, ∀ k, N.kind v = some k → MemRow k (θ (N.mod v).pc) (b'.inb v) (mem0 v) o)
    (hnext : ∀ v ∈ suf, ∀ k, N.kind v = some k → ∀ j < k.dim, b'.oute v (k.dim + j) = nextErr k (θ (N.mod v).pc) (mem0 v) (o + 1) j)
    (hdone : ∀ v ∈ N.sorted, v ∉ suf → ∀ k, N.kind v = some k → (∀ j < k.dim, b'.ine v (4 * k.dim + j) = nextErr k (θ (N.mod v).pc) (s.mem v) o j) ∧
      KeepB k (θ (N.mod v).pc) o (s.mem v) (mem0 v))
    (htodo : ∀ v ∈ suf, s.mem v = mem0 v) :
    ∃ s1, lsweepBackward N θ o suf s = some s1 ∧ RowR N pd (suf.foldl (fun b m => modBackward (ext N).toNet θ ((N.conns m).foldl (connBackward θ m) b) m) b') s1.b ∧
      ∀ v ∈ N.sorted, ∀ k, N.kind v = some k → (∀ j < k.dim, (suf.foldl (fun b m => modBackward (ext N).toNet θ ((N.conns m).foldl (connBackward θ m) b) m) b').ine v (4 * k.dim + j) =
        nextErr k (θ (N.mod v).pc) (s1.mem v) o j) ∧ KeepB k (θ (N.mod v).pc) o (s1.mem v) (mem0 v) := by
  induction suf generalizing b' s with
  | nil => exact ⟨s, rfl, hR, fun v hv k hk => hdone v hv (by simp) k hk⟩
  | cons m suf ih =>
    rw [List.nodup_cons] at hnd
    have hm : m ∈ N.sorted := hs m (by simp)
    have hfit : ∀ c ∈ N.conns m, Fits N m c := fun c hc => lwf_fits hN hm hc
    have hR1 := connsBackward_rel hN θ m (N.conns m) hR hfit
    obtain ⟨c1, c2, c3, c4⟩ := connsB_state hN θ m (N.conns m) hfit b'
    rw [List.foldl_cons]
    generalize hb1 : (N.conns m).foldl (connBackward θ m) b' = b1' at hR1 c1 c2 c3 c4
    generalize hb : (N.conns m).foldl (connBackward θ m) s.b = b1 at hR1
    obtain ⟨s2, e2, hR2, hmem2, hother2, hoe, hib, hie⟩ : ∃ s2, lmodBackward N θ o ⟨b1, s.mem⟩ m = some s2 ∧ RowR N pd (modBackward (ext N).toNet θ b1' m) s2.b ∧
        (∀ k, N.kind m = some k → (∀ j < k.dim, (modBackward (ext N).toNet θ b1' m).ine m (4 * k.dim + j) = nextErr k (θ (N.mod m).pc) (s2.mem m) o j) ∧
          KeepB k (θ (N.mod m).pc) o (s2.mem m) (mem0 m)) ∧
        (∀ v ≠ m, s2.mem v = s.mem v) ∧ (modBackward (ext N).toNet θ b1' m).oute = b1'.oute ∧ (modBackward (ext N).toNet θ b1' m).inb = b1'.inb ∧
        ∀ v ≠ m, (modBackward (ext N).toNet θ b1' m).ine v = b1'.ine v := by
      unfold lmodBackward
      cases hk : N.kind m with
      | none =>
        refine ⟨_, rfl, ?_, ?_, fun v _ => rfl, rfl, rfl, ?_⟩
        · simp only [modBackward]
          rw [show (ext N).mod m = N.mod m from ext_mod_none N m hk, (hR1.inb m).none hk, (hR1.outb m).none hk, (hR1.ine m).none hk, (hR1.oute m).none hk]
          refine ⟨hR1.inb, hR1.outb, upd_rel hR1.ine _ (inR_refl _ _ _), hR1.oute, ?_⟩
          intro p i hi
          simp only [upd]
          split
          · subst p; dsimp only; rw [hR1.derivs _ i hi]
          · exact hR1.derivs p i hi
        · intro k h; cases h
        · intro v hv
          simp [modBackward, upd, hv]
      | some k =>
        obtain ⟨q1, q2, q3⟩ := hrows m hm k hk
        have hmm : s.mem m = mem0 m := htodo m (by simp)
        obtain ⟨m1, m2, m3, m4, m5, m6, m7, m8, m9⟩ := hmem m hm k hk
        obtain ⟨l1, g, f1, f2, f3, f4, f5, f6⟩ := lstm_backward k (θ (N.mod m).pc) (b'.inb m) (b1.oute m) (b1'.oute m)
          { s.mem m with offset := o, derivs := b1.derivs (N.mod m).pc } o rfl
          (by rw [hmm]; exact q1) (by rw [hmm]; exact q2)
          (by rw [hmm]; exact ⟨m1, m2, m3, m4, m5, m6, m7, m8, m9⟩)
          ((hR1.oute m).some hk) (by
            intro j hj
            rw [c1 m k hk _ (by omega), hnext m (by simp) k hk j hj, hmm]
            rfl) (by rw [hmm]; exact q3) (N.mod m).pc
        dsimp only
        rw [f1]
        refine ⟨_, rfl, ?_, ?_, ?_, rfl, rfl, ?_⟩
        · simp only [modBackward]
          rw [show (ext N).mod m = extMod k (N.mod m).pc from ext_mod_some N m k hk, c3]
          refine ⟨?_, hR1.outb, ?_, hR1.oute, ?_⟩
          · rw [← c3]; exact hR1.inb
          · refine upd_rel hR1.ine _ ?_
            refine inR_of (hR1.ine m) (fun h => by rw [hk] at h; cases h) ?_
            intro k' hk' j hj _
            rw [hk] at hk'; cases hk'
            rw [hN.indim m k hk]
            simp only [tr]
            rw [if_pos hj, f2 j hj, if_pos (show j < (extMod k (N.mod m).pc).indim by simp only [extMod]; omega)]
            rfl
          · intro p i hi
            simp only [upd]
            by_cases hp : p = (N.mod m).pc
            · subst hp
              rw [hpd m hm k hk] at hi
              rw [if_pos (show (N.mod m).pc = (extMod k (N.mod m).pc).pc from rfl), if_pos rfl, f4 i hi]
              dsimp only
              rw [← hR1.derivs _ i (by rw [hpd m hm k hk]; exact hi)]
              rfl
            · rw [if_neg (show ¬ p = (extMod k (N.mod m).pc).pc from hp), if_neg hp]
              exact hR1.derivs p i hi
        · intro k' hk'
          cases hk'
          simp only [upd, if_true, modBackward]
          constructor
          · intro j hj
            rw [f3 j hj, show (ext N).mod m = extMod k (N.mod m).pc from ext_mod_some N m k hk, c3]
            rw [ext_err_pe k _ _ _ _ _ _ hj]
            rfl
          · rw [← hmm]
            exact ⟨f6.1, f6.2, fun x u h => f6.3 x u ⟨h.1, h.2, h.3, h.4, h.5, h.6, h.7, h.8, h.9⟩, f6.4, f6.5⟩
        · intro v hv
          simp [upd, hv]
        · intro v hv
          simp [modBackward, upd, hv]
    obtain ⟨s1, g1, g2, g3⟩ := ih (fun v hv => hs v (by simp [hv])) hnd.2 (modBackward (ext N).toNet θ b1' m) s2 hR2 (by
        intro v hv k hk
        rw [hib, c3]
        exact hmem v hv k hk) (by
        intro v hv k hk j hj
        rw [hoe, c1 v k hk _ (by omega)]
        exact hnext v (by simp [hv]) k hk j hj) (by
        intro v hv hvs k hk
        by_cases hvm : v = m
        · subst hvm
          exact hmem2 k hk
        · rw [hie v hvm, c2, hother2 v hvm]
          exact hdone v hv (by simp [hvm, hvs]) k hk) (by
        intro v hv
        rw [hother2 v (by rintro rfl; exact hnd.1 hv)]
        exact htodo v (by simp [hv]))
    refine ⟨s1, ?_, g2, g3⟩
    simp only [lsweepBackward, hb, e2]
    exact g1

end Verif.LstmNet
