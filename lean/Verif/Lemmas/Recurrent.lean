import Verif.Spec.Recurrent
import Verif.Lemmas.Gradient
/-
Lemmas for C16, C58, C59.
-/
namespace Verif.Net
open Verif.Net.Spec Verif.Topo.Spec

variable {V P K : Type} [DecidableEq V] [DecidableEq P] [AddCommMonoid K]

set_option linter.unusedSectionVars false

/-- what the recurrent connections bring to coordinate `j` of `n`, from the outputs `prev` -/
def recIn (N : RNet V P K) (θ : P → Vec K) (prev : V → Vec K) (n : V) (j : Nat) : K :=
  (N.recs.map (fun a => if a.2.outmod = n then signal θ (prev a.1) a.2 j else 0)).sum

theorem recs_forward (θ : P → Vec K) (prev : V → Vec K) (rs : List (V × Conn V P K)) (b : Bufs V P K) :
    let r := rs.foldl (recForward θ prev) b
    (∀ n j, r.inb n j = b.inb n j + (rs.map (fun a => if a.2.outmod = n then signal θ (prev a.1) a.2 j else 0)).sum) ∧
    r.outb = b.outb ∧ r.ine = b.ine ∧ r.oute = b.oute ∧ r.derivs = b.derivs := by
  induction rs generalizing b with
  | nil => simp
  | cons c cs ih =>
    obtain ⟨h1, h2, h3, h4, h5⟩ := ih (recForward θ prev b c)
    simp only [List.foldl_cons]
    refine ⟨?_, h2, h3, h4, h5⟩
    intro n j
    rw [h1, List.map_cons, List.sum_cons, ← add_assoc]
    congr 1
    simp only [recForward]
    rw [addAt_signal]
    by_cases hn : c.2.outmod = n
    · subst hn; simp
    · simp [hn, upd_ne _ _ (Ne.symm hn)]

/-- external input of time step `o`: the share of `x` and the recurrent contributions -/
def extStep (N : RNet V P K) (θ : P → Vec K) (x : Vec K) (o : Nat) (prev : V → Vec K) : V → Vec K := fun n j =>
  share (fun m => (N.mod m).indim) N.inmods x n j + if 0 < o then recIn N θ prev n j else 0

theorem stepRow_inv (N : RNet V P K) (hN : WF N.toNet) (θ : P → Vec K) (x : Vec K) (o : Nat) (prev : V → Vec K) (b : Bufs V P K)
    (hi : b.inb = zrow) (ho : b.outb = zrow) :
    FInv N.toNet θ (extStep N θ x o prev) N.sorted (stepRow N θ x o prev b) ∧
    (stepRow N θ x o prev b).ine = b.ine ∧ (stepRow N θ x o prev b).oute = b.oute ∧ (stepRow N θ x o prev b).derivs = b.derivs := by
  obtain ⟨h1, h2, h3, h4, h5⟩ := loadIn_spec N.toNet x N.inmods 0 b hN.insNodup
  have hb0 : ∀ n j, (loadIn N.toNet x 0 N.inmods b).inb n j = share (fun m => (N.mod m).indim) N.inmods x n j := by
    intro n j
    rw [h1]
    by_cases hn : n ∈ N.inmods
    · simp [hn]
    · simp only [hn, if_false]
      rw [share_notMem _ _ _ _ hn, hi]; rfl
  obtain ⟨r1, r2, r3, r4, r5⟩ := recs_forward θ prev N.recs (loadIn N.toNet x 0 N.inmods b)
  have hstart : FInv N.toNet θ (extStep N θ x o prev) []
      (if 0 < o then N.recs.foldl (recForward θ prev) (loadIn N.toNet x 0 N.inmods b) else loadIn N.toNet x 0 N.inmods b) := by
    refine ⟨?_, by simp, ?_⟩
    · intro n j
      simp only [arcs, List.flatMap_nil, List.map_nil, List.sum_nil, add_zero, extStep]
      split
      · rw [r1, hb0]; rfl
      · rw [hb0, add_zero]
    · intro n _
      split
      · rw [r2, h2, ho]; rfl
      · rw [h2, ho]; rfl
  obtain ⟨f1, f2, f3, f4⟩ := sweepForward_inv N.toNet θ _ hN.nodup hN.order N.sorted [] (by simp) _ hstart
  refine ⟨f1, ?_, ?_, ?_⟩
  · refine f2.trans ?_
    split
    · rw [r3, h3]
    · exact h3
  · refine f3.trans ?_
    split
    · rw [r4, h4]
    · exact h4
  · refine f4.trans ?_
    split
    · rw [r5, h5]
    · exact h5

theorem getD_append_zrow (l : List (V → Vec K)) (k u : Nat) : (l ++ List.replicate k zrow).getD u zrow = l.getD u zrow := by
  simp only [List.getD_eq_getElem?_getD]
  by_cases hu : u < l.length
  · rw [List.getElem?_append_left hu]
  · rw [List.getElem?_append_right (by omega), List.getElem?_eq_none (l := l) (by omega)]
    rw [List.getElem?_replicate]
    split <;> rfl

theorem getD_set_zrow (l : List (V → Vec K)) (o u : Nat) (r : V → Vec K) (ho : o < l.length) :
    (l.set o r).getD u zrow = if u = o then r else l.getD u zrow := by
  simp only [List.getD_eq_getElem?_getD, List.getElem?_set]
  by_cases h : o = u
  · subst h; simp [ho]
  · simp [h, Ne.symm h]

theorem getD_map_zrow (l : List (V → Vec K)) (u : Nat) : (l.map fun _ => (zrow : V → Vec K)).getD u zrow = zrow := by
  simp only [List.getD_eq_getElem?_getD, List.getElem?_map]
  cases l[u]? <;> rfl

/-- The invariant of a run that has consumed `t` inputs. -/
structure RInv (N : RNet V P K) (θ : P → Vec K) (xs : List (Vec K)) (d0 : P → Vec K) (t : Nat) (s : RState V P K) : Prop where
  shape : Shape s
  off : s.offset = t
  room : t < s.inb.length
  maxoff : t ≤ s.maxoffset
  rows : ∀ u < t, FInv N.toNet θ (extStep N θ (xs.getD u fun _ => 0) u (s.outb.getD (u - 1) zrow)) N.sorted
    ⟨s.inb.getD u zrow, s.outb.getD u zrow, zrow, zrow, d0⟩
  fresh : ∀ u, t ≤ u → s.inb.getD u zrow = zrow ∧ s.outb.getD u zrow = zrow
  errs : ∀ u, s.ine.getD u zrow = zrow ∧ s.oute.getD u zrow = zrow
  derivs : s.derivs = d0

theorem RInv.grow {N : RNet V P K} {θ : P → Vec K} {xs : List (Vec K)} {d0 : P → Vec K} {t : Nat} {s : RState V P K}
    (h : RInv N θ xs d0 t s) : RInv N θ xs d0 t (Net.grow s) := by
  obtain ⟨⟨s1, s2, s3, s4⟩, h2, h3, h9, h4, h5, h6, h7⟩ := h
  refine ⟨⟨?_, ?_, ?_, ?_⟩, h2, ?_, h9, ?_, ?_, ?_, h7⟩
  · simp [Net.grow]; omega
  · simp [Net.grow]; omega
  · simp [Net.grow]; omega
  · simp [Net.grow]; omega
  · simp [Net.grow]; omega
  · intro u hu
    simp only [Net.grow, getD_append_zrow]
    exact h4 u hu
  · intro u hu
    simp only [Net.grow, getD_append_zrow]
    exact h5 u hu
  · intro u
    simp only [Net.grow, getD_append_zrow]
    exact h6 u

theorem RInv.growN {N : RNet V P K} {θ : P → Vec K} {xs : List (Vec K)} {d0 : P → Vec K} {t : Nat} {s : RState V P K}
    (h : RInv N θ xs d0 t s) (g : Nat) : RInv N θ xs d0 t (Net.grow^[g] s) := by
  induction g with
  | zero => exact h
  | succ g ih => rw [Function.iterate_succ_apply']; exact ih.grow

theorem grow_outb (s : RState V P K) (u : Nat) : (Net.grow s).outb.getD u zrow = s.outb.getD u zrow := by
  simp only [Net.grow, getD_append_zrow]

theorem growN_outb (s : RState V P K) (u g : Nat) : (Net.grow^[g] s).outb.getD u zrow = s.outb.getD u zrow := by
  induction g with
  | zero => rfl
  | succ g ih => rw [Function.iterate_succ_apply', grow_outb, ih]

theorem FInv.rest {N : Net V P K} {θ : P → Vec K} {ext : V → Vec K} {pre : List V} {b b' : Bufs V P K} (h : FInv N θ ext pre b)
    (h1 : b'.inb = b.inb) (h2 : b'.outb = b.outb) : FInv N θ ext pre b' := by
  obtain ⟨a, c, d⟩ := h
  refine ⟨?_, ?_, ?_⟩
  · rw [h1, h2]; exact a
  · rw [h1, h2]; exact c
  · rw [h2]; exact d

/-- One activation of a network that keeps its history. -/
theorem ractivate_inv {N : RNet V P K} (hN : WF N.toNet) {θ : P → Vec K} {xs : List (Vec K)} {d0 : P → Vec K} {t : Nat} {s : RState V P K}
    (h : RInv N θ xs d0 t s) (x : Vec K) (hx : xs.getD t (fun _ => 0) = x) :
    ∃ s' y, ractivate N false θ s x = some (s', y) ∧ RInv N θ xs d0 (t + 1) s' ∧
      (∀ u < t, s'.outb.getD u zrow = s.outb.getD u zrow) ∧
      y = concat (fun m => (N.mod m).outdim) N.outmods (s'.outb.getD t zrow) := by
  -- the state after growing
  obtain ⟨s1, hs1, h1, hroom, hsame⟩ : ∃ s1, s1 = (if s.offset + 1 < s.inb.length then s else Net.grow s) ∧ RInv N θ xs d0 t s1 ∧
      t + 1 < s1.inb.length ∧ ∀ u, s1.outb.getD u zrow = s.outb.getD u zrow := by
    refine ⟨_, rfl, ?_, ?_, ?_⟩
    · split
      · exact h
      · exact h.grow
    · have := h.off; have := h.room
      split
      · omega
      · simp [Net.grow]; omega
    · intro u
      split
      · rfl
      · exact grow_outb s u
  obtain ⟨⟨sh1, sh2, sh3, sh4⟩, ho, hr, hm, hrows, hfresh, herrs, hd⟩ := h1
  obtain ⟨f1, f2, f3, f4⟩ := stepRow_inv N hN θ x t (s1.outb.getD (t - 1) zrow) (rowAt s1 t) (hfresh t (Nat.le_refl t)).1
    (hfresh t (Nat.le_refl t)).2
  generalize hb : stepRow N θ x t (s1.outb.getD (t - 1) zrow) (rowAt s1 t) = b at f1 f2 f3 f4
  have hact : ractivate N false θ s x = some ({ putRow s1 t b with offset := t + 1, maxoffset := max (t + 1) (putRow s1 t b).maxoffset },
      readOut N.toNet ((putRow s1 t b).outb.getD t zrow) 0 N.outmods (fun _ => 0)) := by
    unfold ractivate
    rw [if_pos (by rw [h.off]; exact h.room), ← hs1]
    simp only [Bool.false_eq_true, if_false, ho, hb]
  refine ⟨_, _, hact, ⟨⟨?_, ?_, ?_, ?_⟩, rfl, ?_, ?_, ?_, ?_, ?_, ?_⟩, ?_, ?_⟩
  · simpa [putRow] using sh1
  · simpa [putRow] using sh2
  · simpa [putRow] using sh3
  · simpa [putRow] using sh4
  · simpa [putRow] using hroom
  · simp
  · intro u hu
    simp only [putRow]
    rw [getD_set_zrow _ _ _ _ hr, getD_set_zrow _ _ _ _ (by omega), getD_set_zrow _ _ _ _ (by omega)]
    by_cases hut : u = t
    · subst hut
      rw [if_pos rfl, if_pos rfl, hx]
      by_cases hu0 : u = 0
      · subst hu0
        have e : ∀ p q, extStep N θ x 0 p = extStep N θ x 0 q := by intro p q; funext n j; simp [extStep]
        rw [e _ (s1.outb.getD (0 - 1) zrow)]
        exact f1.rest rfl rfl
      · rw [if_neg (by omega)]
        exact f1.rest rfl rfl
    · rw [if_neg hut, if_neg hut, if_neg (by omega)]
      exact hrows u (by omega)
  · intro u hu
    simp only [putRow]
    rw [getD_set_zrow _ _ _ _ hr, getD_set_zrow _ _ _ _ (by omega), if_neg (by omega), if_neg (by omega)]
    exact hfresh u (by omega)
  · intro u
    simp only [putRow]
    rw [getD_set_zrow _ _ _ _ (by omega), getD_set_zrow _ _ _ _ (by omega), f2, f3]
    split
    · rename_i hu; subst hu; exact herrs u
    · exact herrs u
  · exact f4.trans hd
  · intro u hu
    simp only [putRow]
    rw [getD_set_zrow _ _ _ _ (by omega), if_neg (by omega), hsame]
  · rw [readOut_spec _ _ _ _ _ (fun _ _ => rfl)]
    funext j
    simp

theorem ractivateAll_inv {N : RNet V P K} (hN : WF N.toNet) {θ : P → Vec K} {xs : List (Vec K)} {d0 : P → Vec K} (gxs : List (Nat × Vec K))
    {t : Nat} {s : RState V P K} (h : RInv N θ xs d0 t s) (hx : gxs.map Prod.snd = xs.drop t) (ht : t ≤ xs.length) :
    ∃ s' ys, ractivateAll N false θ s gxs = some (s', ys) ∧ RInv N θ xs d0 xs.length s' ∧
      (∀ u < t, s'.outb.getD u zrow = s.outb.getD u zrow) ∧
      ys = (List.range' t (xs.length - t)).map fun u => concat (fun m => (N.mod m).outdim) N.outmods (s'.outb.getD u zrow) := by
  induction gxs generalizing t s with
  | nil =>
    have hlen : xs.length ≤ t := by
      have := congrArg List.length hx
      simp at this; omega
    have : t = xs.length := by omega
    subst this
    exact ⟨s, [], rfl, h, fun _ _ => rfl, by simp⟩
  | cons gx gxs ih =>
    obtain ⟨g, x⟩ := gx
    have hlt : t < xs.length := by
      have := congrArg List.length hx
      simp at this; omega
    rw [List.map_cons, List.drop_eq_getElem_cons hlt, List.cons.injEq] at hx
    obtain ⟨s1, y, a1, a2, a3, a4⟩ := ractivate_inv hN (h.growN g) x (by simp [List.getD_eq_getElem?_getD, hlt]; exact hx.1.symm)
    obtain ⟨s2, ys, b1, b2, b3, b4⟩ := ih a2 hx.2 (by omega)
    refine ⟨s2, y :: ys, ?_, b2, ?_, ?_⟩
    · simp only [ractivateAll, a1, b1]
    · intro u hu
      rw [b3 u (by omega), a3 u hu, growN_outb]
    · rw [show xs.length - t = (xs.length - (t + 1)) + 1 by omega, List.range'_succ, List.map_cons, ← b4, a4, b3 t (by omega)]

theorem rreset_inv (N : RNet V P K) (θ : P → Vec K) (xs : List (Vec K)) (s : RState V P K) (h : Shape s) :
    RInv N θ xs s.derivs 0 (rreset s) := by
  obtain ⟨s1, s2, s3, s4⟩ := h
  refine ⟨⟨?_, ?_, ?_, ?_⟩, rfl, ?_, Nat.zero_le _, ?_, ?_, ?_, rfl⟩
  · simpa [rreset] using s1
  · simpa [rreset] using s2
  · simpa [rreset] using s3
  · simpa [rreset] using s4
  · simpa [rreset] using s1
  · intro u hu; omega
  · intro u _; simp only [rreset, getD_map_zrow, and_self]
  · intro u; simp only [rreset, getD_map_zrow, and_self]

/-! ### The unrolled graph -/

theorem sum_flatMap_map {α β : Type} (l : List α) (f : α → List β) (g : β → K) :
    ((l.flatMap f).map g).sum = (l.map fun a => ((f a).map g).sum).sum := by
  induction l with
  | nil => rfl
  | cons a l ih => simp [ih]

theorem sum_range_list (T : Nat) (f : Nat → K) : ((List.range T).map f).sum = ∑ u ∈ Finset.range T, f u := by
  induction T with
  | zero => rfl
  | succ T ih => simp [List.range_succ, Finset.sum_range_succ, ih]

theorem sum_add_list {α : Type} (l : List α) (f g : α → K) : (l.map fun a => f a + g a).sum = (l.map f).sum + (l.map g).sum := by
  induction l with
  | nil => simp
  | cons a l ih => simp only [List.map_cons, List.sum_cons, ih]; abel

theorem sum_zero_list {α : Type} (l : List α) (f : α → K) (h : ∀ a ∈ l, f a = 0) : (l.map f).sum = 0 := by
  induction l with
  | nil => rfl
  | cons a l ih => simp [h a (by simp), ih fun b hb => h b (by simp [hb])]

theorem sum_ite_list (l : List V) (hnd : l.Nodup) (v : V) (hv : v ∈ l) (f : V → K) :
    (l.map fun m => if v = m then f m else 0).sum = f v := by
  induction l with
  | nil => cases hv
  | cons a l ih =>
    rw [List.nodup_cons] at hnd
    by_cases h : v = a
    · subst h
      rw [List.map_cons, List.sum_cons, if_pos rfl, sum_zero_list, add_zero]
      intro b hb
      rw [if_neg]
      rintro rfl; exact hnd.1 hb
    · rw [List.map_cons, List.sum_cons, if_neg h, zero_add]
      exact ih hnd.2 (by simpa [h] using hv)

theorem sum_recsOf (rs : List (V × Conn V P K)) (nodes : List V) (hnd : nodes.Nodup) (h : ∀ a ∈ rs, a.1 ∈ nodes) (g : V → Conn V P K → K) :
    (nodes.map fun m => (((rs.filter fun a => a.1 = m).map Prod.snd).map (g m)).sum).sum = (rs.map fun a => g a.1 a.2).sum := by
  induction rs with
  | nil => simp
  | cons a rs ih =>
    rw [List.map_cons, List.sum_cons, ← ih (fun b hb => h b (by simp [hb]))]
    rw [← sum_ite_list nodes hnd a.1 (h a (by simp)) (fun m => g m a.2), ← sum_add_list]
    congr 1
    apply List.map_congr_left
    intro m _
    by_cases hm : a.1 = m
    · simp [hm]
    · simp [hm]

theorem mem_nodesT {N : RNet V P K} {T : Nat} {n : V × Nat} : n ∈ nodesT N T ↔ n.1 ∈ N.sorted ∧ n.2 < T := by
  rcases n with ⟨n, t⟩
  simp only [nodesT, List.mem_flatMap, List.mem_range, List.mem_map, Prod.mk.injEq]
  constructor
  · rintro ⟨u, hu, m, hm, rfl, rfl⟩; exact ⟨hm, hu⟩
  · rintro ⟨hm, hu⟩; exact ⟨t, hu, n, hm, rfl, rfl⟩

theorem lift_signal (θ : P → Vec K) (row : Vec K) (t : Nat) (c : Conn V P K) : signal θ row (lift t c) = signal θ row c := rfl

/-- The sum over all arcs of the unrolled graph that arrive at `(n, t)`. -/
theorem arcsT_sum (N : RNet V P K) (hnd : N.sorted.Nodup) (hrec : ∀ a ∈ N.recs, a.1 ∈ N.sorted) (θ : P → Vec K) (T t : Nat) (ht : t < T)
    (n : V) (j : Nat) (O : Nat → V → Vec K) :
    ((arcs (nodesT N T) (connsT N T)).map (fun a => if a.2.outmod = (n, t) then signal θ (O a.1.2 a.1.1) a.2 j else 0)).sum =
    (if 0 < t then recIn N θ (O (t - 1)) n j else 0) +
    ((arcs N.sorted N.conns).map (fun a => if a.2.outmod = n then signal θ (O t a.1) a.2 j else 0)).sum := by
  have e1 : ((arcs (nodesT N T) (connsT N T)).map (fun a => if a.2.outmod = (n, t) then signal θ (O a.1.2 a.1.1) a.2 j else 0)).sum =
      ((List.range T).map fun u => (if u = t then
          ((arcs N.sorted N.conns).map (fun a => if a.2.outmod = n then signal θ (O t a.1) a.2 j else 0)).sum else 0) +
        (if u + 1 = t then recIn N θ (O u) n j else 0)).sum := by
    unfold arcs nodesT
    rw [sum_flatMap_map, sum_flatMap_map]
    congr 1
    apply List.map_congr_left
    intro u hu
    rw [List.mem_range] at hu
    rw [List.map_map]
    have e2 : ∀ m ∈ N.sorted, ((fun a : V × Nat => (((connsT N T a).map fun c => (a, c)).map
        (fun a => if a.2.outmod = (n, t) then signal θ (O a.1.2 a.1.1) a.2 j else 0)).sum) ∘ fun n => (n, u)) m =
        ((N.conns m).map fun c => if u = t then (if c.outmod = n then signal θ (O t m) c j else 0) else 0).sum +
        ((recsOf N m).map fun c => if u + 1 = t then (if c.outmod = n then signal θ (O u m) c j else 0) else 0).sum := by
      intro m _
      simp only [Function.comp_apply, connsT, List.map_append, List.sum_append, List.map_map]
      congr 1
      · congr 1
        apply List.map_congr_left
        intro c _
        simp only [Function.comp_apply, lift_signal]
        simp only [lift, Prod.mk.injEq]
        by_cases hut : u = t
        · subst hut; simp
        · simp [hut]
      · by_cases hut : u + 1 = t
        · subst hut
          rw [if_pos ht, List.map_map]
          congr 1
          apply List.map_congr_left
          intro c _
          simp only [Function.comp_apply, lift_signal]
          simp [lift]
        · rw [sum_zero_list (recsOf N m)]
          · split
            · rw [List.map_map]
              apply sum_zero_list
              intro c _
              simp [lift, hut]
            · simp
          · intro c _; simp [hut]
    rw [List.map_congr_left e2, sum_add_list]
    congr 1
    · by_cases hut : u = t
      · simp only [hut, if_true]
        rw [sum_flatMap_map]
        congr 1
        apply List.map_congr_left
        intro m _
        rw [List.map_map]; rfl
      · simp only [hut, if_false]
        apply sum_zero_list
        intro m _
        exact sum_zero_list _ _ fun _ _ => rfl
    · by_cases hut : u + 1 = t
      · simp only [hut, if_true]
        exact sum_recsOf N.recs N.sorted hnd hrec (fun m c => if c.outmod = n then signal θ (O u m) c j else 0)
      · simp only [hut, if_false]
        apply sum_zero_list
        intro m _
        exact sum_zero_list _ _ fun _ _ => rfl
  rw [e1, sum_add_list, add_comm]
  congr 1
  · rw [sum_range_list]
    by_cases h0 : 0 < t
    · rw [if_pos h0, Finset.sum_eq_single (t - 1)]
      · rw [if_pos (by omega)]
      · intro u _ hu; rw [if_neg (by omega)]
      · intro hn; exact absurd (Finset.mem_range.2 (by omega)) hn
    · rw [if_neg h0]
      apply Finset.sum_eq_zero
      intro u _; rw [if_neg (by omega)]
  · rw [sum_range_list, Finset.sum_ite_eq' , if_pos (Finset.mem_range.2 ht)]

/-- Rows that satisfy the equations of every time step solve the unrolled graph. -/
theorem rows_solve (N : RNet V P K) (hN : RWF N) (θ : P → Vec K) (xs : List (Vec K)) (I O : Nat → V → Vec K) (d0 : P → Vec K)
    (h : ∀ u < xs.length, FInv N.toNet θ (extStep N θ (xs.getD u fun _ => 0) u (O (u - 1))) N.sorted ⟨I u, O u, zrow, zrow, d0⟩) :
    Solves (nodesT N xs.length) (modT N) (connsT N xs.length) θ (extT N xs) (fun n => I n.2 n.1) (fun n => O n.2 n.1) := by
  constructor
  · rintro ⟨n, t⟩ hn j
    obtain ⟨h1, h2⟩ := mem_nodesT.1 hn
    have := (h t h2).inb n j
    simp only at this
    rw [arcsT_sum N hN.base.nodup (fun a ha => (hN.ends a ha).1) θ xs.length t h2 n j O, ← add_assoc]
    exact this
  · rintro ⟨n, t⟩ hn
    obtain ⟨h1, h2⟩ := mem_nodesT.1 hn
    exact (h t h2).done n h1

theorem nodesT_nodup (N : RNet V P K) (hnd : N.sorted.Nodup) (T : Nat) : (nodesT N T).Nodup := by
  unfold nodesT
  rw [List.nodup_flatMap]
  constructor
  · intro t _
    exact hnd.map (fun a b h => by simpa using congrArg Prod.fst h)
  · apply List.Nodup.pairwise_of_forall_ne List.nodup_range
    intro a _ b _ hab
    simp only [Function.onFun, List.Disjoint]
    intro x hx hy
    obtain ⟨m, -, rfl⟩ := List.mem_map.1 hx
    obtain ⟨m', -, h⟩ := List.mem_map.1 hy
    exact hab (by simpa using (congrArg Prod.snd h).symm)

theorem before_map {α β : Type} [DecidableEq α] [DecidableEq β] (f : α → β) {l : List α} {a b : α} (h : Before l a b) : Before (l.map f) (f a) (f b) := by
  obtain ⟨x, y, z, rfl⟩ := h
  exact ⟨x.map f, y.map f, z.map f, by simp⟩

theorem before_flatMap {α β : Type} [DecidableEq β] (l : List α) (f : α → List β) (a : α) (ha : a ∈ l) {x y : β} (h : Before (f a) x y) :
    Before (l.flatMap f) x y := by
  obtain ⟨l1, l2, rfl⟩ := List.append_of_mem ha
  obtain ⟨p, q, r, hp⟩ := h
  exact ⟨l1.flatMap f ++ p, q, r ++ l2.flatMap f, by simp [hp]⟩

theorem nodesT_order (N : RNet V P K) (hN : RWF N) (T : Nat) :
    ∀ n ∈ nodesT N T, ∀ c ∈ connsT N T n, Before (nodesT N T) n c.outmod := by
  rintro ⟨n, t⟩ hn c hc
  obtain ⟨h1, h2⟩ := mem_nodesT.1 hn
  simp only at h1 h2
  rw [connsT, List.mem_append] at hc
  rcases hc with hc | hc
  · obtain ⟨c', hc', rfl⟩ := List.mem_map.1 hc
    exact before_flatMap _ _ t (List.mem_range.2 h2) (before_map (fun n => (n, t)) (hN.base.order n h1 c' hc'))
  · simp only at hc
    split at hc
    · rename_i hT
      obtain ⟨c', hc', rfl⟩ := List.mem_map.1 hc
      obtain ⟨⟨m, c''⟩, hr, rfl⟩ := List.mem_map.1 hc'
      rw [List.mem_filter] at hr
      obtain ⟨hr, hm⟩ := hr
      have hm : m = n := by simpa using hm
      subst hm
      obtain ⟨-, he⟩ := hN.ends _ hr
      -- split the time axis at t, t+1
      obtain ⟨p1, p2, hp⟩ := List.append_of_mem h1
      obtain ⟨q1, q2, hq⟩ := List.append_of_mem he
      have hsplit : List.range T = List.range t ++ t :: (t + 1) :: (List.range' (t + 2) (T - (t + 2))) := by
        obtain ⟨k, rfl⟩ : ∃ k, T = t + (k + 1 + 1) := ⟨T - (t + 2), by omega⟩
        rw [List.range_eq_range', List.range_eq_range', ← List.range'_append_1,
          Nat.zero_add, List.range'_succ, List.range'_succ, show t + (k + 1 + 1) - (t + 2) = k by omega]
      refine ⟨(List.range t).flatMap (fun t => N.sorted.map fun n => (n, t)) ++ p1.map (fun n => (n, t)),
        p2.map (fun n => (n, t)) ++ q1.map (fun n => (n, t + 1)),
        q2.map (fun n => (n, t + 1)) ++ (List.range' (t + 2) (T - (t + 2))).flatMap (fun t => N.sorted.map fun n => (n, t)), ?_⟩
      unfold nodesT
      rw [hsplit, List.flatMap_append, List.flatMap_cons, List.flatMap_cons]
      conv_lhs => rw [show N.sorted.map (fun n => (n, t)) = p1.map (fun n => (n, t)) ++ (m, t) :: p2.map (fun n => (n, t)) by rw [hp]; simp]
      conv_lhs => rw [show N.sorted.map (fun n => (n, t + 1)) = q1.map (fun n => (n, t + 1)) ++ (c''.outmod, t + 1) :: q2.map (fun n => (n, t + 1)) by rw [hq]; simp]
      simp [lift]
    · cases hc

end Verif.Net
