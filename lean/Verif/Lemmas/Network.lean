import Verif.Spec.Network
/-
Lemmas: the forward sweep solves the defining equations, and the solution is unique.
-/
set_option linter.unusedSectionVars false
namespace Verif.Net
open Verif.Net.Spec Verif.Topo.Spec

variable {V P K : Type} [DecidableEq V] [DecidableEq P] [AddCommMonoid K]

@[simp] theorem upd_same {α : Type} (f : V → α) (k : V) (a : α) : upd f k a k = a := by simp [upd]
theorem upd_ne {α : Type} (f : V → α) {k v : V} (a : α) (h : v ≠ k) : upd f k a v = f v := by simp [upd, h]

theorem loadIn_spec (N : Net V P K) (x : Vec K) (ms : List V) (index : Nat) (b : Bufs V P K) (hnd : ms.Nodup) :
    (loadIn N x index ms b).inb = (fun n => if n ∈ ms then share (fun m => (N.mod m).indim) ms (fun i => x (index + i)) n else b.inb n) ∧
    (loadIn N x index ms b).outb = b.outb ∧ (loadIn N x index ms b).ine = b.ine ∧
    (loadIn N x index ms b).oute = b.oute ∧ (loadIn N x index ms b).derivs = b.derivs := by
  induction ms generalizing index b with
  | nil => simp [loadIn]
  | cons m ms ih =>
    obtain ⟨h1, h2, h3, h4, h5⟩ := ih (index + (N.mod m).indim)
      { b with inb := upd b.inb m (sl x index (index + (N.mod m).indim)) } (List.nodup_cons.1 hnd).2
    simp only [loadIn]
    refine ⟨?_, h2, h3, h4, h5⟩
    rw [h1]
    funext n
    have hm := (List.nodup_cons.1 hnd).1
    by_cases hn : n = m
    · subst hn
      simp only [hm, if_false, upd_same, List.mem_cons, true_or, if_true, share]
      funext i
      simp [sl, tr]
    · simp only [List.mem_cons, hn, false_or, share, if_false, upd_ne _ _ hn, Nat.add_assoc]

/-- adding the signal -/
theorem addAt_signal (θ : P → Vec K) (row src : Vec K) (c : Conn V P K) :
    addAt row c.outFrom c.outTo (c.fwd (θ c.pc) (sl src c.inFrom c.inTo)) = fun j => row j + signal θ src c j := by
  funext j
  unfold addAt signal
  split <;> simp

theorem conns_forward (θ : P → Vec K) (m : V) (cs : List (Conn V P K)) (b : Bufs V P K) :
    let r := cs.foldl (connForward θ m) b
    (∀ n j, r.inb n j = b.inb n j + (cs.map (fun c => if c.outmod = n then signal θ (b.outb m) c j else 0)).sum) ∧
    r.outb = b.outb ∧ r.ine = b.ine ∧ r.oute = b.oute ∧ r.derivs = b.derivs := by
  induction cs generalizing b with
  | nil => simp
  | cons c cs ih =>
    obtain ⟨h1, h2, h3, h4, h5⟩ := ih (connForward θ m b c)
    simp only [List.foldl_cons]
    refine ⟨?_, h2.trans rfl, h3.trans rfl, h4.trans rfl, h5.trans rfl⟩
    intro n j
    rw [h1 n j]
    simp only [List.map_cons, List.sum_cons]
    rw [← add_assoc]
    congr 1
    simp only [connForward]
    rw [addAt_signal]
    by_cases hn : c.outmod = n
    · subst hn; simp
    · simp [hn, upd_ne _ _ (Ne.symm hn)]

theorem arcs_append (a b : List V) (conns : V → List (Conn V P K)) :
    arcs (a ++ b) conns = arcs a conns ++ arcs b conns := by simp [arcs]

theorem mem_arcs {nodes : List V} {conns : V → List (Conn V P K)} {a : V × Conn V P K} :
    a ∈ arcs nodes conns ↔ a.1 ∈ nodes ∧ a.2 ∈ conns a.1 := by
  rcases a with ⟨m, c⟩
  simp only [arcs, List.mem_flatMap, List.mem_map, Prod.mk.injEq]
  constructor
  · rintro ⟨m', hm, c', hc, rfl, rfl⟩; exact ⟨hm, hc⟩
  · rintro ⟨hm, hc⟩; exact ⟨m, hm, c, hc, rfl, rfl⟩

/-- The invariant of the forward sweep when the modules `pre` have been processed. -/
structure FInv (N : Net V P K) (θ : P → Vec K) (ext : V → Vec K) (pre : List V) (b : Bufs V P K) : Prop where
  inb : ∀ n j, b.inb n j = ext n j +
    ((arcs pre N.conns).map (fun a => if a.2.outmod = n then signal θ (b.outb a.1) a.2 j else 0)).sum
  done : ∀ n ∈ pre, b.outb n = tr (N.mod n).outdim ((N.mod n).fwd (θ (N.mod n).pc) (b.inb n) (fun _ => 0))
  todo : ∀ n, n ∉ pre → b.outb n = fun _ => 0

theorem before_split {l pre suf : List V} {a b : V} (hnd : l.Nodup) (hl : l = pre ++ a :: suf)
    (h : Before l a b) : b ∈ suf := by
  obtain ⟨l1, l2, l3, h⟩ := h
  subst hl
  have h' : pre ++ a :: suf = l1 ++ a :: (l2 ++ b :: l3) := by simpa using h
  have hpre : pre = l1 ∧ suf = l2 ++ b :: l3 := by
    clear h
    induction pre generalizing l1 with
    | nil =>
      cases l1 with
      | nil => simpa using h'
      | cons y ys =>
        exfalso
        simp only [List.nil_append, List.cons_append, List.cons.injEq] at h'
        rw [List.nil_append, List.nodup_cons] at hnd
        exact hnd.1 (h'.2 ▸ by simp)
    | cons y ys ih =>
      cases l1 with
      | nil =>
        exfalso
        simp only [List.nil_append, List.cons_append, List.cons.injEq] at h'
        rw [List.cons_append, List.nodup_cons] at hnd
        exact hnd.1 (h'.1 ▸ by simp)
      | cons z zs =>
        simp only [List.cons_append, List.cons.injEq] at h'
        have := ih zs (List.nodup_cons.1 hnd).2 h'.2
        exact ⟨by rw [h'.1, this.1], this.2⟩
  rw [hpre.2]; simp

theorem sweepForward_inv (N : Net V P K) (θ : P → Vec K) (ext : V → Vec K)
    (hnd : N.sorted.Nodup) (hord : ∀ m ∈ N.sorted, ∀ c ∈ N.conns m, Before N.sorted m c.outmod)
    (suf pre : List V) (hl : N.sorted = pre ++ suf) (b : Bufs V P K) (hb : FInv N θ ext pre b) :
    FInv N θ ext N.sorted (sweepForward N θ b suf) ∧ (sweepForward N θ b suf).ine = b.ine ∧
      (sweepForward N θ b suf).oute = b.oute ∧ (sweepForward N θ b suf).derivs = b.derivs := by
  induction suf generalizing pre b with
  | nil =>
    have : pre = N.sorted := by simpa using hl.symm
    subst this
    exact ⟨hb, rfl, rfl, rfl⟩
  | cons m suf ih =>
    have hmpre : m ∉ pre := by
      intro hm
      rw [hl] at hnd
      exact (List.nodup_append.1 hnd).2.2 m hm m (by simp) rfl
    have hout : ∀ c ∈ N.conns m, c.outmod ∈ suf := fun c hc =>
      before_split hnd hl (hord m (by rw [hl]; simp) c hc)
    have hsufpre : ∀ n ∈ suf, n ∉ pre ∧ n ≠ m := by
      intro n hn
      rw [hl] at hnd
      refine ⟨fun h => (List.nodup_append.1 hnd).2.2 n h n (by simp [hn]) rfl, ?_⟩
      rintro rfl
      exact (List.nodup_cons.1 (List.nodup_append.1 hnd).2.1).1 hn
    obtain ⟨c1, c2, c3, c4, c5⟩ := conns_forward θ m (N.conns m) (modForward N θ b m)
    have hstep : sweepForward N θ b (m :: suf) =
        sweepForward N θ ((N.conns m).foldl (connForward θ m) (modForward N θ b m)) suf := rfl
    rw [hstep]
    have hob : ((N.conns m).foldl (connForward θ m) (modForward N θ b m)).outb =
        upd b.outb m (tr (N.mod m).outdim ((N.mod m).fwd (θ (N.mod m).pc) (b.inb m) (fun _ => 0))) := by
      rw [c2]; simp only [modForward]; rw [hb.todo m hmpre]
    have hkeep : ∀ n, n ∉ suf → ((N.conns m).foldl (connForward θ m) (modForward N θ b m)).inb n = b.inb n := by
      intro n hn
      funext j
      rw [c1 n j]
      rw [List.sum_eq_zero]
      · simp [modForward]
      · intro y hy
        obtain ⟨c, hc, rfl⟩ := List.mem_map.1 hy
        rw [if_neg]
        rintro rfl
        exact hn (hout c hc)
    have hms : m ∉ suf := fun h => (hsufpre m h).2 rfl
    have hinv : FInv N θ ext (pre ++ [m]) ((N.conns m).foldl (connForward θ m) (modForward N θ b m)) := by
      refine ⟨?_, ?_, ?_⟩
      · intro n j
        rw [c1 n j, arcs_append, List.map_append, List.sum_append]
        have e1 : (modForward N θ b m).inb n j = b.inb n j := rfl
        rw [e1, hb.inb n j, add_assoc]
        congr 2
        · congr 1
          apply List.map_congr_left
          intro a ha
          have : a.1 ≠ m := fun h => hmpre (h ▸ (mem_arcs.1 ha).1)
          rw [hob, upd_ne _ _ this]
        · simp only [arcs, List.flatMap_cons, List.flatMap_nil, List.append_nil, List.map_map]
          congr 1
          apply List.map_congr_left
          intro c _
          simp only [Function.comp]
          rw [c2]
      · intro n hn
        rw [hob]
        rcases List.mem_append.1 hn with h | h
        · have hne : n ≠ m := fun h' => hmpre (h' ▸ h)
          rw [upd_ne _ _ hne, hb.done n h, hkeep n (fun hs => (hsufpre n hs).1 h)]
        · have : n = m := by simpa using h
          subst this
          rw [upd_same, hkeep n hms]
      · intro n hn
        rw [hob]
        have hne : n ≠ m := fun h => hn (by simp [h])
        rw [upd_ne _ _ hne]
        exact hb.todo n (fun h => hn (by simp [h]))
    obtain ⟨r1, r2, r3, r4⟩ := ih (pre ++ [m]) (by rw [hl]; simp) _ hinv
    exact ⟨r1, r2.trans c3, r3.trans c4, r4.trans c5⟩

/-- **The forward sweep solves the equations.** -/
theorem activate_solves (N : Net V P K) (hN : WF N) (θ : P → Vec K) (b : Bufs V P K) (x : Vec K) :
    let r := (activate N θ b x).1
    FInv N θ (share (fun m => (N.mod m).indim) N.inmods x) N.sorted r ∧
    (r.ine = fun _ _ => 0) ∧ (r.oute = fun _ _ => 0) ∧ r.derivs = b.derivs := by
  obtain ⟨h1, h2, h3, h4, h5⟩ := loadIn_spec N x N.inmods 0 (resetBufs b) hN.insNodup
  have hshare : ∀ (ms : List V) (z : Vec K) n, n ∉ ms → share (fun m => (N.mod m).indim) ms z n = fun _ => 0 := by
    intro ms
    induction ms with
    | nil => intros; rfl
    | cons m ms ih =>
      intro z n hn
      rw [List.mem_cons, not_or] at hn
      simp only [share, hn.1, if_false]
      exact ih _ n hn.2
  have hinit : FInv N θ (share (fun m => (N.mod m).indim) N.inmods x) [] (loadIn N x 0 N.inmods (resetBufs b)) := by
    refine ⟨?_, by simp, ?_⟩
    · intro n j
      rw [h1]
      simp only [arcs, List.flatMap_nil, List.map_nil, List.sum_nil, add_zero, Nat.zero_add]
      by_cases hn : n ∈ N.inmods
      · simp [hn]
      · simp [hn, hshare _ _ _ hn, resetBufs]
    · intro n _
      rw [h2]; rfl
  obtain ⟨r1, r2, r3, r4⟩ := sweepForward_inv N θ _ hN.nodup hN.order N.sorted [] rfl _ hinit
  exact ⟨r1, r2.trans h3, r3.trans h4, r4.trans h5⟩

theorem FInv.solves {N : Net V P K} {θ : P → Vec K} {ext : V → Vec K} {b : Bufs V P K}
    (h : FInv N θ ext N.sorted b) : Solves N.sorted N.mod N.conns θ ext b.inb b.outb :=
  ⟨fun n _ j => h.inb n j, h.done⟩

/-- **Uniqueness** for any list of nodes in topological order. -/
theorem solves_unique (nodes : List V) (mod : V → Mod P K) (conns : V → List (Conn V P K)) (θ : P → Vec K)
    (ext : V → Vec K) (hnd : nodes.Nodup) (hord : ∀ m ∈ nodes, ∀ c ∈ conns m, Before nodes m c.outmod)
    {i1 o1 i2 o2 : V → Vec K} (h1 : Solves nodes mod conns θ ext i1 o1) (h2 : Solves nodes mod conns θ ext i2 o2) :
    ∀ n ∈ nodes, i1 n = i2 n ∧ o1 n = o2 n := by
  have key : ∀ suf pre, nodes = pre ++ suf → (∀ n ∈ pre, i1 n = i2 n ∧ o1 n = o2 n) →
      ∀ n ∈ nodes, i1 n = i2 n ∧ o1 n = o2 n := by
    intro suf
    induction suf with
    | nil => intro pre hl h n hn; exact h n (by simpa [hl] using hn)
    | cons m suf ih =>
      intro pre hl h
      apply ih (pre ++ [m]) (by simp [hl])
      intro n hn
      rcases List.mem_append.1 hn with hn | hn
      · exact h n hn
      · have : n = m := by simpa using hn
        subst this
        have hmem : n ∈ nodes := by rw [hl]; simp
        have hin : i1 n = i2 n := by
          funext j
          rw [h1.inputs n hmem j, h2.inputs n hmem j]
          congr 2
          apply List.map_congr_left
          intro a ha
          by_cases hout : a.2.outmod = n
          · rw [if_pos hout, if_pos hout]
            obtain ⟨ha1, ha2⟩ := mem_arcs.1 ha
            have hbef := hord a.1 ha1 a.2 ha2
            rw [hout] at hbef
            have : a.1 ∈ pre := by
              obtain ⟨l1, l2, l3, hb⟩ := hbef
              have hnp : n ∉ pre := by
                intro hm; rw [hl] at hnd
                exact (List.nodup_append.1 hnd).2.2 n hm n (by simp) rfl
              have := hl.symm.trans hb
              rcases List.append_eq_append_iff.1 this with ⟨w, hw1, hw2⟩ | ⟨w, hw1, hw2⟩
              · cases w with
                | nil =>
                  simp only [List.append_nil] at hw1
                  rw [← hw1]; simp
                | cons y ys =>
                  simp only [List.cons_append, List.cons.injEq] at hw2
                  -- then `n` occurs in l1 ++ a :: l2 and again afterwards
                  exfalso
                  rw [hb, hw1] at hnd
                  obtain ⟨rfl, -⟩ := hw2
                  exact (List.nodup_append.1 hnd).2.2 n (by simp) n (by simp) rfl
              · rw [hw1]; simp
            rw [(h _ this).2]
          · rw [if_neg hout, if_neg hout]
        exact ⟨hin, by rw [h1.outputs n hmem, h2.outputs n hmem, hin]⟩
  exact key nodes [] rfl (by simp)

theorem readOut_spec (N : Net V P K) (rows : V → Vec K) (ms : List V) (index : Nat) (out : Vec K)
    (hz : ∀ j, index ≤ j → out j = 0) :
    readOut N rows index ms out = fun j => if j < index then out j else concat (fun m => (N.mod m).outdim) ms rows (j - index) := by
  induction ms generalizing index out with
  | nil =>
    funext j
    simp only [readOut, concat]
    split
    · rfl
    · exact hz j (by omega)
  | cons m ms ih =>
    simp only [readOut]
    rw [ih]
    · funext j
      simp only [concat]
      by_cases h1 : j < index
      · have : ¬ (index ≤ j) := by omega
        simp only [h1, if_true, this, false_and, if_false]
        rw [if_pos (by omega)]
      · by_cases h2 : j < index + (N.mod m).outdim
        · rw [if_pos h2, if_pos ⟨by omega, h2⟩, if_neg h1, if_pos (by omega)]
        · rw [if_neg h2, if_neg h1, if_neg (by omega)]
          congr 1; omega
    · intro j hj
      rw [if_neg (by omega)]
      exact hz j (by omega)

theorem readErr_spec (N : Net V P K) (rows : V → Vec K) (ms : List V) (index : Nat) (out : Vec K)
    (hz : ∀ j, index ≤ j → out j = 0) :
    readErr N rows index ms out = fun j => if j < index then out j else concat (fun m => (N.mod m).indim) ms rows (j - index) := by
  induction ms generalizing index out with
  | nil =>
    funext j
    simp only [readErr, concat]
    split
    · rfl
    · exact hz j (by omega)
  | cons m ms ih =>
    simp only [readErr]
    rw [ih]
    · funext j
      simp only [concat]
      by_cases h1 : j < index
      · have : ¬ (index ≤ j) := by omega
        simp only [h1, if_true, this, false_and, if_false]
        rw [if_pos (by omega)]
      · by_cases h2 : j < index + (N.mod m).indim
        · rw [if_pos h2, if_pos ⟨by omega, h2⟩, if_neg h1, if_pos (by omega)]
        · rw [if_neg h2, if_neg h1, if_neg (by omega)]
          congr 1; omega
    · intro j hj
      rw [if_neg (by omega)]
      exact hz j (by omega)

theorem concat_congr (d : V → Nat) (ms : List V) (r1 r2 : V → Vec K) (h : ∀ m ∈ ms, r1 m = r2 m) :
    concat d ms r1 = concat d ms r2 := by
  induction ms with
  | nil => rfl
  | cons m ms ih =>
    simp only [concat]
    rw [h m (by simp), ih (fun n hn => h n (by simp [hn]))]

theorem activate_out (N : Net V P K) (θ : P → Vec K) (b : Bufs V P K) (x : Vec K) :
    (activate N θ b x).2 = concat (fun m => (N.mod m).outdim) N.outmods (activate N θ b x).1.outb := by
  simp only [activate]
  rw [readOut_spec _ _ _ _ _ (fun _ _ => rfl)]
  funext j
  simp

end Verif.Net
