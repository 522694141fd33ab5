import Verif.Lemmas.Recurrent
/-
Lemmas for C58 (forgetful networks) and C59 (back-propagation through time).
-/
namespace Verif.Net
open Verif.Net.Spec Verif.Topo.Spec

variable {V P K : Type} [DecidableEq V] [DecidableEq P] [AddCommMonoid K]

set_option linter.unusedSectionVars false

/-! ### Forgetful networks -/

/-- Recurrent connections that carry nothing when nothing was output. -/
def ZeroFwd (N : RNet V P K) : Prop := ∀ a ∈ N.recs, ∀ p, a.2.fwd p (fun _ => 0) = fun _ => 0

theorem recIn_zero (N : RNet V P K) (hz : ZeroFwd N) (θ : P → Vec K) (n : V) (j : Nat) : recIn N θ zrow n j = 0 := by
  unfold recIn
  apply sum_zero_list
  intro a ha
  split
  · unfold signal
    have : sl (zrow (K := K) a.1) a.2.inFrom a.2.inTo = fun _ => 0 := by funext i; simp [sl, zrow]
    rw [this, hz a ha]
    split <;> rfl
  · rfl

/-- A forgetful run that has consumed `t` inputs: the last outputs are in row 0, everything later is zero. -/
structure GInv (N : RNet V P K) (θ : P → Vec K) (xs : List (Vec K)) (t L : Nat) (O : Nat → V → Vec K) (s : RState V P K) : Prop where
  shape : Shape s
  off : s.offset = 0
  len : s.inb.length = L
  rows : ∃ I : Nat → V → Vec K, ∀ u < t, FInv N.toNet θ (extStep N θ (xs.getD u fun _ => 0) u (O (u - 1))) N.sorted ⟨I u, O u, zrow, zrow, s.derivs⟩
  last : s.outb.getD 0 zrow = if t = 0 then zrow else O (t - 1)
  fresh : ∀ u, 1 ≤ u → s.inb.getD u zrow = zrow ∧ s.outb.getD u zrow = zrow

theorem getD_shift (l : List (V → Vec K)) (u : Nat) : (l.drop 1 ++ [zrow]).getD u zrow = l.getD (u + 1) zrow := by
  have := getD_append_zrow (l.drop 1) 1 u
  simp only [List.replicate_one] at this
  rw [this]
  simp only [List.getD_eq_getElem?_getD, List.getElem?_drop]
  rw [Nat.add_comm]

theorem gactivate_inv {N : RNet V P K} (hN : WF N.toNet) (hz : ZeroFwd N) {θ : P → Vec K} {xs : List (Vec K)} {t L : Nat} {s : RState V P K}
    {O : Nat → V → Vec K} (h : GInv N θ xs t L O s) (x : Vec K) (hx : xs.getD t (fun _ => 0) = x) :
    ∃ s' y, ractivate N true θ s x = some (s', y) ∧ GInv N θ xs (t + 1) (max L 2) (fun u => if u = t then s'.outb.getD 0 zrow else O u) s' ∧
      y = concat (fun m => (N.mod m).outdim) N.outmods (s'.outb.getD 0 zrow) := by
  obtain ⟨⟨g1, g2, g3, g4⟩, hoff, hlen, ⟨I, hrows⟩, hlast, hfresh⟩ := h
  obtain ⟨s1, hs1, hl1, ho1, hsh, hd1, hi, ho⟩ : ∃ s1, s1 = (if s.offset + 1 < s.inb.length then s else Net.grow s) ∧
      s1.inb.length = max L 2 ∧ s1.offset = 0 ∧ Shape s1 ∧ s1.derivs = s.derivs ∧ (∀ u, s1.inb.getD u zrow = s.inb.getD u zrow) ∧
      (∀ u, s1.outb.getD u zrow = s.outb.getD u zrow) := by
    refine ⟨_, rfl, ?_, ?_, ?_, ?_, ?_, ?_⟩
    · split
      · omega
      · simp [Net.grow]; omega
    · split
      · exact hoff
      · exact hoff
    · split
      · exact ⟨g1, g2, g3, g4⟩
      · refine ⟨?_, ?_, ?_, ?_⟩ <;> simp [Net.grow] <;> omega
    · split <;> rfl
    · intro u
      split
      · rfl
      · simp only [Net.grow, getD_append_zrow]
    · intro u
      split
      · rfl
      · exact grow_outb s u
  obtain ⟨f1, f2, f3, f4⟩ := stepRow_inv N hN θ x 1 (s1.outb.getD 0 zrow) (rowAt s1 1)
    ((hi 1).trans (hfresh 1 (Nat.le_refl 1)).1) ((ho 1).trans (hfresh 1 (Nat.le_refl 1)).2)
  generalize hb : stepRow N θ x 1 (s1.outb.getD 0 zrow) (rowAt s1 1) = b at f1 f2 f3 f4
  obtain ⟨q1, q2, q3, q4⟩ := hsh
  have h1 : (shift1 (putRow s1 1 b)).outb.getD 0 zrow = b.outb := by
    simp only [shift1, putRow]
    rw [getD_shift, getD_set_zrow _ _ _ _ (by omega), if_pos rfl]
  have hact : ractivate N true θ s x = some ({ shift1 (putRow s1 1 b) with maxoffset := max (shift1 (putRow s1 1 b)).offset (shift1 (putRow s1 1 b)).maxoffset },
      readOut N.toNet ((shift1 (putRow s1 1 b)).outb.getD 0 zrow) 0 N.outmods (fun _ => 0)) := by
    unfold ractivate
    rw [if_pos (by rw [hoff]; exact g1), ← hs1]
    simp only [if_true, ho1, Nat.zero_add, Nat.sub_self, hb]
  have hsd : (shift1 (putRow s1 1 b)).derivs = s.derivs := f4.trans hd1
  refine ⟨_, _, hact, ⟨⟨?_, ?_, ?_, ?_⟩, ho1, ?_, ⟨fun u => if u = t then b.inb else I u, ?_⟩, ?_, ?_⟩, ?_⟩
  · simp [shift1, putRow]
  · simp [shift1, putRow]; omega
  · simp [shift1, putRow]; omega
  · simp [shift1, putRow]; omega
  · simp [shift1, putRow]; omega
  · intro u hu
    simp only [h1]
    by_cases hut : u = t
    · subst hut
      simp only [if_true]
      rw [hx]
      have e : extStep N θ x u (if u - 1 = u then b.outb else O (u - 1)) = extStep N θ x 1 (s1.outb.getD 0 zrow) := by
        funext n j
        simp only [extStep, Nat.zero_lt_one, if_true]
        congr 1
        rw [ho 0, hlast]
        by_cases hu0 : u = 0
        · subst hu0
          simp only [Nat.lt_irrefl, if_false, if_true]
          rw [recIn_zero N hz]
        · rw [if_pos (by omega), if_neg (by omega), if_neg hu0]
      rw [e]
      exact f1.rest rfl rfl
    · rw [if_neg hut, if_neg (by omega), if_neg hut]
      exact (hrows u (by omega)).rest rfl rfl
  · simp
  · intro u hu
    simp only [shift1, putRow]
    rw [getD_shift, getD_shift, getD_set_zrow _ _ _ _ (by omega), getD_set_zrow _ _ _ _ (by omega), if_neg (by omega), if_neg (by omega), hi, ho]
    exact hfresh (u + 1) (by omega)
  · rw [readOut_spec _ _ _ _ _ (fun _ _ => rfl)]
    funext j
    simp

theorem GInv.congr {N : RNet V P K} {θ : P → Vec K} {xs : List (Vec K)} {t L : Nat} {O O' : Nat → V → Vec K} {s : RState V P K}
    (h : GInv N θ xs t L O s) (he : ∀ u < t, O u = O' u) : GInv N θ xs t L O' s := by
  obtain ⟨h1, h2, h3, ⟨I, h4⟩, h5, h6⟩ := h
  refine ⟨h1, h2, h3, ⟨I, ?_⟩, ?_, h6⟩
  · intro u hu
    have := h4 u hu
    rw [← he u hu]
    by_cases hu0 : u = 0
    · subst hu0
      have e : ∀ x p q, extStep N θ x 0 p = extStep N θ x 0 q := by intro x p q; funext n j; simp [extStep]
      rw [e _ _ (O (0 - 1))]; exact this
    · rw [← he (u - 1) (by omega)]; exact this
  · rw [h5]
    split
    · rfl
    · exact he _ (by omega)

theorem gactivateAll_inv {N : RNet V P K} (hN : WF N.toNet) (hz : ZeroFwd N) {θ : P → Vec K} {xs : List (Vec K)} (gxs : List (Vec K))
    {t L : Nat} {s : RState V P K} {O : Nat → V → Vec K} (h : GInv N θ xs t L O s) (hx : gxs = xs.drop t) (ht : t ≤ xs.length) :
    ∃ s' ys O', ractivateAll N true θ s (gxs.map fun x => (0, x)) = some (s', ys) ∧ GInv N θ xs xs.length (if gxs = [] then L else max L 2) O' s' ∧
      (∀ u < t, O' u = O u) ∧
      ys = (List.range' t (xs.length - t)).map fun u => concat (fun m => (N.mod m).outdim) N.outmods (O' u) := by
  induction gxs generalizing t s L O with
  | nil =>
    have hlen : xs.length ≤ t := by
      have := congrArg List.length hx
      simp at this; omega
    have : t = xs.length := by omega
    subst this
    exact ⟨s, [], O, rfl, h, fun _ _ => rfl, by simp⟩
  | cons x gxs ih =>
    have hlt : t < xs.length := by
      have := congrArg List.length hx
      simp at this; omega
    rw [List.drop_eq_getElem_cons hlt, List.cons.injEq] at hx
    obtain ⟨s1, y, a1, a2, a3⟩ := gactivate_inv hN hz h x (by simp [List.getD_eq_getElem?_getD, hlt]; exact hx.1.symm)
    obtain ⟨s2, ys, O', b1, b2, b3, b4⟩ := ih a2 hx.2 (by omega)
    refine ⟨s2, y :: ys, O', ?_, ?_, ?_, ?_⟩
    · simp only [List.map_cons, ractivateAll, Function.iterate_zero, id_eq, a1, b1]
    · have : (if gxs = [] then max L 2 else max (max L 2) 2) = (if x :: gxs = [] then L else max L 2) := by
        simp only [reduceCtorEq, if_false]
        split <;> omega
      rw [this] at b2; exact b2
    · intro u hu
      rw [b3 u (by omega), if_neg (by omega)]
    · rw [show xs.length - t = (xs.length - (t + 1)) + 1 by omega, List.range'_succ, List.map_cons, ← b4, a3, b3 t (by omega), if_pos rfl]

theorem greset_inv (N : RNet V P K) (θ : P → Vec K) (xs : List (Vec K)) (s : RState V P K) (h : Shape s) :
    GInv N θ xs 0 s.inb.length (fun _ => zrow) (rreset s) := by
  obtain ⟨s1, s2, s3, s4⟩ := h
  refine ⟨⟨?_, ?_, ?_, ?_⟩, rfl, ?_, ⟨fun _ => zrow, ?_⟩, ?_, ?_⟩
  · simpa [rreset] using s1
  · simpa [rreset] using s2
  · simpa [rreset] using s3
  · simpa [rreset] using s4
  · simp [rreset]
  · intro u hu; omega
  · simp only [rreset, getD_map_zrow, if_true]
  · intro u _; simp only [rreset, getD_map_zrow, and_self]

/-! ### Back-propagation through time -/

/-- Connections that send nothing back when there is no error. -/
def ZeroBack (c : Conn V P K) : Prop := ∀ p x, c.bwdErr p (fun _ => 0) x = (fun _ => 0) ∧ c.bwdPar p (fun _ => 0) x = fun _ => 0

/-- what the recurrent connections send back to `n`, given the next row of input errors -/
def recBack (N : RNet V P K) (θ : P → Vec K) (next out : V → Vec K) (n : V) (j : Nat) : K :=
  (N.recs.map (fun a => if a.1 = n then backSignal θ (next a.2.outmod) (out a.1) a.2 j else 0)).sum

def recGrad (N : RNet V P K) (θ : P → Vec K) (next out : V → Vec K) (p : P) (k : Nat) : K :=
  (N.recs.map (fun a => if a.2.pc = p then
    a.2.bwdPar (θ a.2.pc) (sl (next a.2.outmod) a.2.outFrom a.2.outTo) (sl (out a.1) a.2.inFrom a.2.inTo) k else 0)).sum

theorem recs_backward (θ : P → Vec K) (next : V → Vec K) (rs : List (V × Conn V P K)) (b : Bufs V P K) :
    let r := rs.foldl (recBackward θ next) b
    (∀ n j, r.oute n j = b.oute n j + (rs.map (fun a => if a.1 = n then backSignal θ (next a.2.outmod) (b.outb a.1) a.2 j else 0)).sum) ∧
    r.outb = b.outb ∧ r.ine = b.ine ∧ r.inb = b.inb ∧
    (∀ p k, r.derivs p k = b.derivs p k + (rs.map (fun a => if a.2.pc = p then
      a.2.bwdPar (θ a.2.pc) (sl (next a.2.outmod) a.2.outFrom a.2.outTo) (sl (b.outb a.1) a.2.inFrom a.2.inTo) k else 0)).sum) := by
  induction rs generalizing b with
  | nil => simp
  | cons c cs ih =>
    obtain ⟨h1, h2, h3, h4, h5⟩ := ih (recBackward θ next b c)
    simp only [List.foldl_cons]
    refine ⟨?_, h2, h3, h4, ?_⟩
    · intro n j
      rw [h1, List.map_cons, List.sum_cons, ← add_assoc]
      congr 1
      simp only [recBackward]
      rw [addAt_backSignal]
      by_cases hn : c.1 = n
      · subst hn; simp
      · simp [hn, upd_ne _ _ (Ne.symm hn)]
    · intro p k
      rw [h5, List.map_cons, List.sum_cons, ← add_assoc]
      congr 1
      simp only [recBackward]
      by_cases hp : c.2.pc = p
      · subst hp; simp
      · simp [hp, upd_ne _ _ (Ne.symm hp)]

theorem backRow_inv (N : RNet V P K) (hN : WF N.toNet) (θ : P → Vec K) (e : Vec K) (next : V → Vec K) (b : Bufs V P K)
    (hi : b.ine = zrow) (ho : b.oute = zrow) :
    BInv N.toNet θ (fun n j => share (fun m => (N.mod m).outdim) N.outmods e n j + recBack N θ next b.outb n j) b.inb b.outb
      (fun p k => b.derivs p k + recGrad N θ next b.outb p k) N.sorted (backRow N θ e false next b) := by
  obtain ⟨h1, h2, h3, h4, h5⟩ := loadErr_spec N.toNet e N.outmods 0 b hN.outsNodup
  obtain ⟨r1, r2, r3, r4, r5⟩ := recs_backward θ next N.recs (loadErr N.toNet e 0 N.outmods b)
  have hinit : BInv N.toNet θ (fun n j => share (fun m => (N.mod m).outdim) N.outmods e n j + recBack N θ next b.outb n j) b.inb b.outb
      (fun p k => b.derivs p k + recGrad N θ next b.outb p k) []
      (N.recs.foldl (recBackward θ next) (loadErr N.toNet e 0 N.outmods b)) := by
    refine ⟨by rw [r4, h4], by rw [r2, h2], by simp, ?_, by simp, ?_, ?_⟩
    · intro n _
      funext j
      rw [r1, h1, h2]
      congr 1
      by_cases hn : n ∈ N.outmods
      · simp [hn]
      · simp only [hn, if_false]
        rw [share_notMem _ _ _ _ hn, ho]; rfl
    · intro n _; rw [r3, h3, hi]; rfl
    · intro p k
      rw [r5, h5, h2]
      simp [recGrad]
  have := sweepBackward_inv N.toNet θ _ _ _ _ hN.nodup hN.order N.sorted.reverse [] (by simp) _ hinit
  rw [List.reverse_reverse] at this
  unfold backRow
  simpa using this

/-- The invariant of the backward run when time steps `t .. T-1` have been processed. -/
structure BRInv (N : RNet V P K) (θ : P → Vec K) (es : List (Vec K)) (I O : Nat → V → Vec K) (d0 : P → Vec K) (T t : Nat) (s : RState V P K) : Prop where
  shape : Shape s
  off : s.offset = t
  room : T < s.inb.length
  maxoff : T ≤ s.maxoffset
  inb : ∀ u, s.inb.getD u zrow = I u
  outb : ∀ u, s.outb.getD u zrow = O u
  oute : ∀ u, t ≤ u → u < T → ∀ n ∈ N.sorted, ∀ j, s.oute.getD u zrow n j =
    share (fun m => (N.mod m).outdim) N.outmods (es.getD u fun _ => 0) n j + recBack N θ (s.ine.getD (u + 1) zrow) (O u) n j +
      ((N.conns n).map (fun c => backSignal θ (s.ine.getD u zrow c.outmod) (O u n) c j)).sum
  ine : ∀ u, t ≤ u → u < T → ∀ n ∈ N.sorted, s.ine.getD u zrow n = tr (N.mod n).indim
    ((N.mod n).bwdErr (θ (N.mod n).pc) (s.oute.getD u zrow n) (fun _ => 0) (O u n) (I u n))
  todo : ∀ u, u < t → s.ine.getD u zrow = zrow ∧ s.oute.getD u zrow = zrow
  top : s.ine.getD T zrow = zrow
  derivs : ∀ p k, s.derivs p k = d0 p k + ((List.range' t (T - t)).map (fun u => recGrad N θ (s.ine.getD (u + 1) zrow) (O u) p k +
    (N.sorted.map (fun n => gradAt N.mod N.conns θ (I u) (O u) (s.ine.getD u zrow) (s.oute.getD u zrow) n p k)).sum)).sum

theorem rbackActivate_inv {N : RNet V P K} (hN : WF N.toNet) {θ : P → Vec K} {es : List (Vec K)} {I O : Nat → V → Vec K} {d0 : P → Vec K} {T t : Nat}
    {s : RState V P K} (h : BRInv N θ es I O d0 T (t + 1) s) (htT : t < T) (e : Vec K) (he : es.getD t (fun _ => 0) = e) :
    ∃ s' g, rbackActivate N θ s e = some (s', g) ∧ BRInv N θ es I O d0 T t s' ∧
      (∀ u, t < u → s'.ine.getD u zrow = s.ine.getD u zrow) ∧
      g = concat (fun m => (N.mod m).indim) N.inmods (s'.ine.getD t zrow) := by
  obtain ⟨⟨q1, q2, q3, q4⟩, hoff, hroom, hmax, hinb, houtb, hoe, hie, htodo, htop, hder⟩ := h
  have hb := backRow_inv N hN θ e (s.ine.getD (t + 1) zrow) (rowAt s t) (htodo t (by omega)).1 (htodo t (by omega)).2
  generalize hr : backRow N θ e false (s.ine.getD (t + 1) zrow) (rowAt s t) = b at hb
  have e1 : (rowAt s t).inb = I t := hinb t
  have e2 : (rowAt s t).outb = O t := houtb t
  rw [e1, e2] at hb
  obtain ⟨b1, b2, b3, -, b5, -, b7⟩ := hb
  have hlast : (t == s.maxoffset) = false := by
    rw [beq_eq_false_iff_ne]; omega
  have hact : rbackActivate N θ s e = some ({ putRow s t b with offset := t },
      readErr N.toNet ((putRow s t b).ine.getD t zrow) 0 N.inmods (fun _ => 0)) := by
    unfold rbackActivate
    rw [if_pos ⟨by omega, by omega⟩]
    simp only [hoff, Nat.add_sub_cancel, hlast, hr]
  have gine : ∀ u, (putRow s t b).ine.getD u zrow = if u = t then b.ine else s.ine.getD u zrow := by
    intro u; simp only [putRow]; rw [getD_set_zrow _ _ _ _ (by omega)]
  have goute : ∀ u, (putRow s t b).oute.getD u zrow = if u = t then b.oute else s.oute.getD u zrow := by
    intro u; simp only [putRow]; rw [getD_set_zrow _ _ _ _ (by omega)]
  refine ⟨_, _, hact, ⟨⟨?_, ?_, ?_, ?_⟩, rfl, ?_, hmax, ?_, ?_, ?_, ?_, ?_, ?_, ?_⟩, ?_, ?_⟩
  · simpa [putRow] using q1
  · simpa [putRow] using q2
  · simpa [putRow] using q3
  · simpa [putRow] using q4
  · simpa [putRow] using hroom
  · intro u
    simp only [putRow]
    rw [getD_set_zrow _ _ _ _ (by omega), b1]
    split
    · rename_i hu; rw [hu]
    · exact hinb u
  · intro u
    simp only [putRow]
    rw [getD_set_zrow _ _ _ _ (by omega), b2]
    split
    · rename_i hu; rw [hu]
    · exact houtb u
  · intro u h1 h2 n hn j
    simp only [gine, goute]
    by_cases hut : u = t
    · subst hut
      rw [if_pos rfl, if_neg (by omega), if_pos rfl, he]
      exact b3 n hn j
    · rw [if_neg hut, if_neg (by omega), if_neg hut]
      exact hoe u (by omega) h2 n hn j
  · intro u h1 h2 n hn
    simp only [gine, goute]
    by_cases hut : u = t
    · subst hut
      rw [if_pos rfl, if_pos rfl]
      exact b5 n hn
    · rw [if_neg hut, if_neg hut]
      exact hie u (by omega) h2 n hn
  · intro u hu
    simp only [gine, goute]
    rw [if_neg (by omega), if_neg (by omega)]
    exact htodo u (by omega)
  · simp only [gine]
    rw [if_neg (by omega)]
    exact htop
  · intro p k
    have hd : (putRow s t b).derivs p k = b.derivs p k := rfl
    simp only [gine, goute]
    rw [hd, b7]
    have e3 : (rowAt s t).derivs p k = s.derivs p k := rfl
    rw [e3, hder, show T - t = (T - (t + 1)) + 1 by omega, List.range'_succ, List.map_cons, List.sum_cons]
    simp only [if_true]
    rw [if_neg (show ¬ (t + 1 = t) by omega)]
    have e4 : (List.range' (t + 1) (T - (t + 1))).map (fun u => recGrad N θ (if u + 1 = t then b.ine else s.ine.getD (u + 1) zrow) (O u) p k +
        (N.sorted.map (fun n => gradAt N.mod N.conns θ (I u) (O u) (if u = t then b.ine else s.ine.getD u zrow) (if u = t then b.oute else s.oute.getD u zrow) n p k)).sum) =
        (List.range' (t + 1) (T - (t + 1))).map (fun u => recGrad N θ (s.ine.getD (u + 1) zrow) (O u) p k +
        (N.sorted.map (fun n => gradAt N.mod N.conns θ (I u) (O u) (s.ine.getD u zrow) (s.oute.getD u zrow) n p k)).sum) := by
      apply List.map_congr_left
      intro u hu
      rw [List.mem_range'_1] at hu
      rw [if_neg (by omega), if_neg (by omega), if_neg (by omega)]
    rw [e4]
    abel
  · intro u hu
    simp only [gine]
    rw [if_neg (by omega)]
  · rw [readErr_spec _ _ _ _ _ (fun _ _ => rfl)]
    funext j
    simp

theorem rbackAll_inv {N : RNet V P K} (hN : WF N.toNet) {θ : P → Vec K} {es : List (Vec K)} {I O : Nat → V → Vec K} {d0 : P → Vec K}
    (t : Nat) (ht : t ≤ es.length) {s : RState V P K} (h : BRInv N θ es I O d0 es.length t s) :
    ∃ s' gs, rbackAll N θ s (es.take t).reverse = some (s', gs) ∧ BRInv N θ es I O d0 es.length 0 s' ∧
      (∀ u, t ≤ u → s'.ine.getD u zrow = s.ine.getD u zrow) ∧
      gs.reverse = (List.range t).map fun u => concat (fun m => (N.mod m).indim) N.inmods (s'.ine.getD u zrow) := by
  induction t generalizing s with
  | zero => exact ⟨s, [], rfl, h, fun _ _ => rfl, rfl⟩
  | succ t ih =>
    have hlt : t < es.length := by omega
    obtain ⟨s1, g, a1, a2, a3, a4⟩ := rbackActivate_inv hN h hlt es[t] (by simp [List.getD_eq_getElem?_getD, hlt])
    obtain ⟨s2, gs, b1, b2, b3, b4⟩ := ih (by omega) a2
    refine ⟨s2, g :: gs, ?_, b2, ?_, ?_⟩
    · rw [List.take_succ_eq_append_getElem hlt, List.reverse_append]
      simp only [List.reverse_singleton, List.singleton_append, rbackAll, a1, b1]
    · intro u hu
      rw [b3 u (by omega), a3 u (by omega)]
    · rw [List.reverse_cons, b4, List.range_succ, List.map_append, List.map_singleton, a4, b3 t (Nat.le_refl t)]

theorem RInv.back {N : RNet V P K} {θ : P → Vec K} {xs es : List (Vec K)} {d0 : P → Vec K} {s : RState V P K}
    (h : RInv N θ xs d0 xs.length s) (hl : es.length = xs.length) :
    BRInv N θ es (fun u => s.inb.getD u zrow) (fun u => s.outb.getD u zrow) d0 es.length es.length s := by
  rw [hl]
  refine ⟨h.shape, h.off, h.room, h.maxoff, fun _ => rfl, fun _ => rfl, ?_, ?_, fun u _ => h.errs u, (h.errs _).1, ?_⟩
  · intro u h1 h2; omega
  · intro u h1 h2; omega
  · intro p k; simp [h.derivs]

theorem backSignal_zero (θ : P → Vec K) (row : Vec K) (c : Conn V P K) (hz : ZeroBack c) (j : Nat) :
    backSignal θ (fun _ => 0) row c j = 0 := by
  unfold backSignal
  have : sl (fun _ => (0 : K)) c.outFrom c.outTo = fun _ => 0 := by funext i; simp [sl]
  rw [this, (hz _ _).1]
  split <;> rfl

/-- The backward run solves the backward equations of the unrolled graph. -/
theorem BRInv.solves {N : RNet V P K} (hN : RWF N) (hz : ∀ a ∈ N.recs, ZeroBack a.2) {θ : P → Vec K} {es : List (Vec K)} {I O : Nat → V → Vec K}
    {d0 : P → Vec K} {T : Nat} {s : RState V P K} (h : BRInv N θ es I O d0 T 0 s) (grad : P → Vec K)
    (hg : ∀ p k, grad p k = ((List.range' 0 T).map (fun u => recGrad N θ (s.ine.getD (u + 1) zrow) (O u) p k +
    (N.sorted.map (fun n => gradAt N.mod N.conns θ (I u) (O u) (s.ine.getD u zrow) (s.oute.getD u zrow) n p k)).sum)).sum) :
    BackSolves (nodesT N T) (modT N) (connsT N T) θ (fun n => share (fun m => (N.mod m).outdim) N.outmods (es.getD n.2 fun _ => 0) n.1)
      (fun n => I n.2 n.1) (fun n => O n.2 n.1) (fun n => s.ine.getD n.2 zrow n.1) (fun n => s.oute.getD n.2 zrow n.1) grad := by
  have hrecs : ∀ t, t < T → ∀ n, ∀ f : Conn V P K → K, (∀ c, (n, c) ∈ N.recs → t + 1 = T → f c = 0) →
      ((if t + 1 < T then (recsOf N n).map (lift (t + 1)) else []).map (fun c => f
        { outmod := c.outmod.1, inFrom := c.inFrom, inTo := c.inTo, outFrom := c.outFrom, outTo := c.outTo, pc := c.pc,
          fwd := c.fwd, bwdErr := c.bwdErr, bwdPar := c.bwdPar })).sum = ((recsOf N n).map f).sum := by
    intro t ht n f hf
    split
    · rw [List.map_map]; rfl
    · rw [sum_zero_list (recsOf N n)]
      · rfl
      · intro c hc
        obtain ⟨⟨m, c'⟩, hr, rfl⟩ := List.mem_map.1 hc
        rw [List.mem_filter] at hr
        have hm : m = n := by simpa using hr.2
        subst hm
        exact hf c' hr.1 (by omega)
  refine ⟨?_, ?_, ?_⟩
  · rintro ⟨n, t⟩ hn j
    obtain ⟨h1, h2⟩ := mem_nodesT.1 hn
    simp only at h1 h2 ⊢
    rw [h.oute t (Nat.zero_le _) h2 n h1 j, connsT, List.map_append, List.sum_append, add_assoc]
    congr 1
    rw [add_comm]
    congr 1
    · rw [List.map_map]; rfl
    · have e1 : recBack N θ (s.ine.getD (t + 1) zrow) (O t) n j =
          ((recsOf N n).map fun c => backSignal θ (s.ine.getD (t + 1) zrow c.outmod) (O t n) c j).sum := by
        unfold recBack recsOf
        generalize N.recs = rs
        induction rs with
        | nil => rfl
        | cons a rs ih =>
          rw [List.map_cons, List.sum_cons, ih]
          by_cases ha : a.1 = n
          · simp [ha]
          · simp [ha]
      rw [e1, ← hrecs t h2 n (fun c => backSignal θ (s.ine.getD (t + 1) zrow c.outmod) (O t n) c j)]
      · congr 1
        apply List.map_congr_left
        intro c hc
        split at hc
        · obtain ⟨c', -, rfl⟩ := List.mem_map.1 hc
          rfl
        · cases hc
      · intro c hc hT
        rw [hT, h.top]
        exact backSignal_zero θ _ c (hz _ hc) j
  · rintro ⟨n, t⟩ hn
    obtain ⟨h1, h2⟩ := mem_nodesT.1 hn
    exact h.ine t (Nat.zero_le _) h2 n h1
  · intro p k
    rw [hg]
    unfold nodesT
    rw [sum_flatMap_map, List.range_eq_range']
    congr 1
    apply List.map_congr_left
    intro t ht
    rw [List.mem_range'_1] at ht
    have h2 : t < T := by omega
    rw [List.map_map]
    have e1 : recGrad N θ (s.ine.getD (t + 1) zrow) (O t) p k = (N.sorted.map fun n => ((recsOf N n).map fun c => if c.pc = p then
        c.bwdPar (θ c.pc) (sl (s.ine.getD (t + 1) zrow c.outmod) c.outFrom c.outTo) (sl (O t n) c.inFrom c.inTo) k else 0).sum).sum :=
      (sum_recsOf N.recs N.sorted hN.base.nodup (fun a ha => (hN.ends a ha).1)
        (fun n c => if c.pc = p then
        c.bwdPar (θ c.pc) (sl (s.ine.getD (t + 1) zrow c.outmod) c.outFrom c.outTo) (sl (O t n) c.inFrom c.inTo) k else 0)).symm
    rw [e1, ← sum_add_list]
    congr 1
    apply List.map_congr_left
    intro n hn
    simp only [Function.comp_apply, gradAt, modT]
    rw [← add_assoc]
    congr 1
    rw [connsT, List.map_append, List.sum_append, add_comm]
    congr 1
    · rw [List.map_map]; rfl
    · simp only
      rw [← hrecs t h2 n (fun c => if c.pc = p then
        c.bwdPar (θ c.pc) (sl (s.ine.getD (t + 1) zrow c.outmod) c.outFrom c.outTo) (sl (O t n) c.inFrom c.inTo) k else 0)]
      · congr 1
        apply List.map_congr_left
        intro c hc
        split at hc
        · obtain ⟨c', -, rfl⟩ := List.mem_map.1 hc
          rfl
        · cases hc
      · intro c hc hT
        split
        · rw [hT, h.top]
          have : sl (zrow (K := K) c.outmod) c.outFrom c.outTo = fun _ => 0 := by funext i; simp [sl, zrow]
          rw [this, ((hz _ hc) _ _).2]
        · rfl

end Verif.Net
