import Verif.Spec.Gradient
import Verif.Lemmas.Network
import Mathlib.Analysis.Calculus.Deriv.Add
import Mathlib.Analysis.Calculus.Deriv.Mul
import Mathlib.Tactic.Ring
import Mathlib.Tactic.Linarith
/-
Lemmas: any solution of the backward equations is the gradient (no order of evaluation involved), and the
reverse sweep solves the backward equations.
-/
set_option linter.unusedSectionVars false
namespace Verif.Net
open Verif.Net.Spec Verif.Topo.Spec Finset

variable {V P : Type} [DecidableEq V] [DecidableEq P]

theorem hasDerivAt_listSum {ι : Type} (l : List ι) (f : ι → ℝ → ℝ) (f' : ι → ℝ) (t0 : ℝ)
    (h : ∀ i ∈ l, HasDerivAt (f i) (f' i) t0) :
    HasDerivAt (fun t => (l.map (fun i => f i t)).sum) ((l.map f').sum) t0 := by
  induction l with
  | nil => simpa using hasDerivAt_const t0 (0 : ℝ)
  | cons i l ih =>
    simp only [List.map_cons, List.sum_cons]
    exact (h i (by simp)).add (ih (fun j hj => h j (by simp [hj])))

theorem hasDerivAt_rangeSum (n : Nat) (f : Nat → ℝ → ℝ) (f' : Nat → ℝ) (t0 : ℝ)
    (h : ∀ i, i < n → HasDerivAt (f i) (f' i) t0) :
    HasDerivAt (fun t => ∑ i ∈ range n, f i t) (∑ i ∈ range n, f' i) t0 := by
  induction n with
  | zero => simpa using hasDerivAt_const t0 (0 : ℝ)
  | succ n ih =>
    simp only [sum_range_succ]
    exact (ih (fun i hi => h i (by omega))).add (h n (by omega))

theorem sum_unit (n j : Nat) (hj : j < n) (g : Nat → ℝ) :
    ∑ i ∈ range n, (if i = j then (1 : ℝ) else 0) * g i = g j := by
  rw [sum_eq_single j]
  · simp
  · intro b _ hb; simp [hb]
  · intro h; exact absurd (mem_range.2 hj) h

/-- a slice of a longer sum -/
theorem sum_slice (n a b : Nat) (hab : a ≤ b) (hbn : b ≤ n) (f g : Nat → ℝ) :
    ∑ j ∈ range n, f j * (if a ≤ j ∧ j < b then g (j - a) else 0) =
      ∑ j ∈ range (b - a), sl f a b j * g j := by
  obtain ⟨d, rfl⟩ := Nat.exists_eq_add_of_le hab
  obtain ⟨r, rfl⟩ := Nat.exists_eq_add_of_le hbn
  rw [sum_range_add, sum_range_add]
  have h1 : ∑ x ∈ range a, f x * (if a ≤ x ∧ x < a + d then g (x - a) else 0) = 0 := by
    apply sum_eq_zero
    intro x hx
    have := mem_range.1 hx
    rw [if_neg (by omega)]; ring
  have h2 : ∑ x ∈ range r, f (a + d + x) * (if a ≤ a + d + x ∧ a + d + x < a + d then g (a + d + x - a) else 0) = 0 := by
    apply sum_eq_zero
    intro x _
    rw [if_neg (by omega)]; ring
  rw [h1, h2, zero_add, add_zero]
  have hd : a + d - a = d := by omega
  rw [hd]
  apply sum_congr rfl
  intro x hx
  have := mem_range.1 hx
  rw [if_pos (by omega)]
  simp only [sl, hd, this, if_true]
  congr 2
  omega

theorem sum_slice' (n a b : Nat) (hab : a ≤ b) (hbn : b ≤ n) (f g : Nat → ℝ) :
    ∑ j ∈ range n, (if a ≤ j ∧ j < b then g (j - a) else 0) * f j =
      ∑ j ∈ range (b - a), g j * sl f a b j := by
  rw [← sum_congr rfl (fun j _ => mul_comm (f j) _), sum_slice n a b hab hbn]
  exact sum_congr rfl (fun j _ => mul_comm _ _)

section grad
variable {nodes : List V} {mod : V → Mod P ℝ} {conns : V → List (Conn V P ℝ)}

/-- Differentiability of the signal of one connection, with its derivative against a weight. -/
theorem signal_deriv {c : Conn V P ℝ} {pd : Nat} {θ : ℝ → P → Vec ℝ} {θ' : P → Vec ℝ} {t0 : ℝ}
    {row : ℝ → Vec ℝ} {row' : Vec ℝ} (hc : ConnDiff c pd (θ t0 c.pc) (sl (row t0) c.inFrom c.inTo))
    (hθ : ∀ p k, HasDerivAt (fun t => θ t p k) (θ' p k) t0)
    (hrow : ∀ i, HasDerivAt (fun t => row t i) (row' i) t0) {dout din : Nat}
    (hs1 : c.outFrom ≤ c.outTo ∧ c.outTo ≤ din) (hs2 : c.inFrom ≤ c.inTo ∧ c.inTo ≤ dout) (w : Vec ℝ) :
    HasDerivAt (fun t => ∑ j ∈ range din, w j * signal (θ t) (row t) c j)
      (∑ i ∈ range dout, backSignal (θ t0) w (row t0) c i * row' i +
        ∑ k ∈ range pd, c.bwdPar (θ t0 c.pc) (sl w c.outFrom c.outTo) (sl (row t0) c.inFrom c.inTo) k * θ' c.pc k) t0 := by
  have h := hc (fun t => θ t c.pc) (fun t => sl (row t) c.inFrom c.inTo) t0 (θ' c.pc) (sl row' c.inFrom c.inTo) rfl rfl
    (fun k => hθ c.pc k) (by
      intro i
      unfold sl
      by_cases hi : i < c.inTo - c.inFrom
      · simpa only [hi, if_true] using hrow _
      · simpa only [hi, if_false] using hasDerivAt_const t0 (0 : ℝ)) (sl w c.outFrom c.outTo)
  have e1 : ∀ t, ∑ j ∈ range din, w j * signal (θ t) (row t) c j =
      ∑ j ∈ range (c.outTo - c.outFrom), sl w c.outFrom c.outTo j * c.fwd (θ t c.pc) (sl (row t) c.inFrom c.inTo) j :=
    fun t => by
      unfold signal
      exact sum_slice din c.outFrom c.outTo hs1.1 hs1.2 w _
  have e2 : ∑ i ∈ range dout, backSignal (θ t0) w (row t0) c i * row' i =
      ∑ i ∈ range (c.inTo - c.inFrom), c.bwdErr (θ t0 c.pc) (sl w c.outFrom c.outTo) (sl (row t0) c.inFrom c.inTo) i *
        sl row' c.inFrom c.inTo i := by
    unfold backSignal
    exact sum_slice' dout c.inFrom c.inTo hs2.1 hs2.2 row' _
  simp only [e1, e2]
  exact h

theorem sum_list_swap {ι : Type} (l : List ι) (n : Nat) (f : ι → Nat → ℝ) :
    ∑ j ∈ range n, (l.map (fun a => f a j)).sum = (l.map (fun a => ∑ j ∈ range n, f a j)).sum := by
  induction l with
  | nil => simp
  | cons a l ih => simp only [List.map_cons, List.sum_cons, sum_add_distrib, ih]

theorem list_mul_sum {ι : Type} (l : List ι) (x : ℝ) (f : ι → ℝ) :
    x * (l.map f).sum = (l.map (fun a => x * f a)).sum := by
  induction l with
  | nil => simp
  | cons a l ih => simp only [List.map_cons, List.sum_cons, mul_add, ih]

theorem list_sum_mul {ι : Type} (l : List ι) (x : ℝ) (f : ι → ℝ) :
    (l.map f).sum * x = (l.map (fun a => f a * x)).sum := by
  induction l with
  | nil => simp
  | cons a l ih => simp only [List.map_cons, List.sum_cons, add_mul, ih]

theorem list_sum_add {ι : Type} (l : List ι) (f g : ι → ℝ) :
    (l.map (fun a => f a + g a)).sum = (l.map f).sum + (l.map g).sum := by
  induction l with
  | nil => simp
  | cons a l ih => simp only [List.map_cons, List.sum_cons, ih]; ring

theorem list_sum_comm {ι κ : Type} (l : List ι) (m : List κ) (f : ι → κ → ℝ) :
    (l.map (fun a => (m.map (fun b => f a b)).sum)).sum = (m.map (fun b => (l.map (fun a => f a b)).sum)).sum := by
  induction l with
  | nil => simp
  | cons a l ih => simp only [List.map_cons, List.sum_cons, ih, list_sum_add]

theorem list_sum_ite_mem (l : List V) (hnd : l.Nodup) (v : V) (hv : v ∈ l) (f : V → ℝ) :
    (l.map (fun n => if v = n then f n else 0)).sum = f v := by
  induction l with
  | nil => simp at hv
  | cons a l ih =>
    rw [List.nodup_cons] at hnd
    simp only [List.map_cons, List.sum_cons]
    by_cases h : v = a
    · subst h
      rw [if_pos rfl, List.sum_eq_zero, add_zero]
      intro y hy
      obtain ⟨n, hn, rfl⟩ := List.mem_map.1 hy
      rw [if_neg]
      rintro rfl
      exact hnd.1 hn
    · rw [if_neg h, zero_add, ih hnd.2 (by simpa [h] using hv)]

theorem arcs_sum (nodes : List V) (f : V × Conn V P ℝ → ℝ) :
    ((arcs nodes conns).map f).sum = (nodes.map (fun n => ((conns n).map (fun c => f (n, c))).sum)).sum := by
  induction nodes with
  | nil => simp [arcs]
  | cons n nodes ih =>
    have : arcs (n :: nodes) conns = (conns n).map (fun c => (n, c)) ++ arcs nodes conns := by simp [arcs]
    rw [this, List.map_append, List.sum_append, List.map_cons, List.sum_cons, ih, List.map_map]
    rfl

/-- inner product of two rows -/
abbrev ip (n : Nat) (a b : Vec ℝ) : ℝ := ∑ j ∈ range n, a j * b j

/-- A sum over containers of an `if`. -/
theorem cont_sum (Ps : Finset P) (pd : P → Nat) (q : P) (hq : q ∈ Ps) (g : Vec ℝ) (θ' : P → Vec ℝ) :
    ∑ p ∈ Ps, ∑ k ∈ range (pd p), (if q = p then g k else 0) * θ' p k = ∑ k ∈ range (pd q), g k * θ' q k := by
  rw [sum_eq_single q]
  · simp
  · intro b _ hb
    apply sum_eq_zero
    intro k _
    rw [if_neg (Ne.symm hb)]; ring
  · intro h; exact absurd hq h

/-- **The duality.** Purely from the tangent equations and the backward equations. -/
theorem duality (hnd : nodes.Nodup) (hmem : ∀ m ∈ nodes, ∀ c ∈ conns m, c.outmod ∈ nodes)
    (θ : P → Vec ℝ) (θ' : P → Vec ℝ) (e inb outb ine oute : V → Vec ℝ) (grad : P → Vec ℝ)
    (hb : BackSolves nodes mod conns θ e inb outb ine oute grad)
    (Ps : Finset P) (pd : P → Nat) (hPm : ∀ n ∈ nodes, (mod n).pc ∈ Ps)
    (hPc : ∀ n ∈ nodes, ∀ c ∈ conns n, c.pc ∈ Ps)
    (ext' in' out' : V → Vec ℝ) (s' : V × Conn V P ℝ → Vec ℝ)
    (tin : ∀ n ∈ nodes, ∀ j, in' n j = ext' n j + ((arcs nodes conns).map (fun a => if a.2.outmod = n then s' a j else 0)).sum)
    (tout : ∀ n ∈ nodes, ip (mod n).outdim (oute n) (out' n) = ip (mod n).indim (ine n) (in' n) +
      ∑ k ∈ range (pd (mod n).pc), (mod n).bwdPar (θ (mod n).pc) (oute n) (outb n) (inb n) k * θ' (mod n).pc k)
    (tsig : ∀ n ∈ nodes, ∀ c ∈ conns n, ip (mod c.outmod).indim (ine c.outmod) (s' (n, c)) =
      ip (mod n).outdim (backSignal θ (ine c.outmod) (outb n) c) (out' n) +
      ∑ k ∈ range (pd c.pc), c.bwdPar (θ c.pc) (sl (ine c.outmod) c.outFrom c.outTo) (sl (outb n) c.inFrom c.inTo) k * θ' c.pc k) :
    (nodes.map (fun n => ip (mod n).outdim (e n) (out' n))).sum =
      (nodes.map (fun n => ip (mod n).indim (ine n) (ext' n))).sum +
        ∑ p ∈ Ps, ∑ k ∈ range (pd p), grad p k * θ' p k := by
  -- abbreviations: B n c = ⟨backSignal, out' n⟩, H n c = ⟨bwdPar c, θ'⟩, G n = ⟨bwdPar n, θ'⟩
  let B : V → Conn V P ℝ → ℝ := fun n c => ip (mod n).outdim (backSignal θ (ine c.outmod) (outb n) c) (out' n)
  let H : V → Conn V P ℝ → ℝ := fun n c => ∑ k ∈ range (pd c.pc),
    c.bwdPar (θ c.pc) (sl (ine c.outmod) c.outFrom c.outTo) (sl (outb n) c.inFrom c.inTo) k * θ' c.pc k
  let G : V → ℝ := fun n => ∑ k ∈ range (pd (mod n).pc),
    (mod n).bwdPar (θ (mod n).pc) (oute n) (outb n) (inb n) k * θ' (mod n).pc k
  have e1 : ∀ n ∈ nodes, ip (mod n).outdim (oute n) (out' n) =
      ip (mod n).outdim (e n) (out' n) + ((conns n).map (B n)).sum := by
    intro n hn
    simp only [ip, B]
    rw [← sum_list_swap, ← sum_add_distrib]
    apply sum_congr rfl
    intro j _
    rw [hb.outErr n hn j, add_mul, list_sum_mul]
  have e2 : ∀ n ∈ nodes, ip (mod n).indim (ine n) (in' n) = ip (mod n).indim (ine n) (ext' n) +
      ((arcs nodes conns).map (fun a => if a.2.outmod = n then ip (mod n).indim (ine n) (s' a) else 0)).sum := by
    intro n hn
    have : ∀ a : V × Conn V P ℝ, (if a.2.outmod = n then ip (mod n).indim (ine n) (s' a) else 0) =
        ∑ j ∈ range (mod n).indim, ine n j * (if a.2.outmod = n then s' a j else 0) := by
      intro a
      split
      · rfl
      · simp
    simp only [this]
    rw [← sum_list_swap]
    simp only [ip]
    rw [← sum_add_distrib]
    apply sum_congr rfl
    intro j _
    rw [tin n hn j, mul_add, list_mul_sum]
  -- sum over the nodes of the incoming signals = sum over all arcs
  have e3 : (nodes.map (fun n => ((arcs nodes conns).map
      (fun a => if a.2.outmod = n then ip (mod n).indim (ine n) (s' a) else 0)).sum)).sum =
      (nodes.map (fun n => ((conns n).map (fun c => B n c + H n c)).sum)).sum := by
    rw [list_sum_comm, arcs_sum]
    congr 1
    apply List.map_congr_left
    intro n hn
    congr 1
    apply List.map_congr_left
    intro c hc
    rw [list_sum_ite_mem nodes hnd c.outmod (hmem n hn c hc) (fun v => ip (mod v).indim (ine v) (s' (n, c)))]
    exact tsig n hn c hc
  -- the gradient
  have e4 : ∑ p ∈ Ps, ∑ k ∈ range (pd p), grad p k * θ' p k =
      (nodes.map (fun n => ((conns n).map (H n)).sum + G n)).sum := by
    have g1 : ∀ p ∈ Ps, ∑ k ∈ range (pd p), grad p k * θ' p k = (nodes.map (fun n =>
        ∑ k ∈ range (pd p), gradAt mod conns θ inb outb ine oute n p k * θ' p k)).sum := by
      intro p _
      rw [← sum_list_swap]
      apply sum_congr rfl
      intro k _
      rw [hb.params p k, list_sum_mul]
    rw [sum_congr rfl g1]
    have swap : ∀ (l : List V) (f : P → V → ℝ), ∑ p ∈ Ps, (l.map (fun n => f p n)).sum = (l.map (fun n => ∑ p ∈ Ps, f p n)).sum := by
      intro l f
      induction l with
      | nil => simp
      | cons a l ih => simp only [List.map_cons, List.sum_cons, sum_add_distrib, ih]
    have swapc : ∀ (l : List (Conn V P ℝ)) (f : P → Conn V P ℝ → ℝ),
        ∑ p ∈ Ps, (l.map (fun n => f p n)).sum = (l.map (fun n => ∑ p ∈ Ps, f p n)).sum := by
      intro l f
      induction l with
      | nil => simp
      | cons a l ih => simp only [List.map_cons, List.sum_cons, sum_add_distrib, ih]
    rw [swap]
    congr 1
    apply List.map_congr_left
    intro n hn
    simp only [gradAt, add_mul, sum_add_distrib]
    congr 1
    · simp only [list_sum_mul]
      simp only [sum_list_swap]
      rw [swapc]
      congr 1
      apply List.map_congr_left
      intro c hc
      exact cont_sum Ps pd c.pc (hPc n hn c hc) _ θ'
    · exact cont_sum Ps pd (mod n).pc (hPm n hn) _ θ'
  -- put together
  have t1 : (nodes.map (fun n => ip (mod n).outdim (oute n) (out' n))).sum =
      (nodes.map (fun n => ip (mod n).outdim (e n) (out' n))).sum + (nodes.map (fun n => ((conns n).map (B n)).sum)).sum := by
    rw [← list_sum_add]
    congr 1
    exact List.map_congr_left e1
  have t2 : (nodes.map (fun n => ip (mod n).outdim (oute n) (out' n))).sum =
      (nodes.map (fun n => ip (mod n).indim (ine n) (ext' n))).sum +
      (nodes.map (fun n => ((conns n).map (fun c => B n c + H n c)).sum)).sum + (nodes.map G).sum := by
    rw [← e3, ← list_sum_add, ← list_sum_add]
    congr 1
    apply List.map_congr_left
    intro n hn
    rw [tout n hn, e2 n hn]
  have t3 : (nodes.map (fun n => ((conns n).map (fun c => B n c + H n c)).sum)).sum =
      (nodes.map (fun n => ((conns n).map (B n)).sum)).sum + (nodes.map (fun n => ((conns n).map (H n)).sum)).sum := by
    rw [← list_sum_add]
    simp only [list_sum_add]
  have t4 : (nodes.map (fun n => ((conns n).map (H n)).sum + G n)).sum =
      (nodes.map (fun n => ((conns n).map (H n)).sum)).sum + (nodes.map G).sum := list_sum_add _ _ _
  rw [e4, t4]
  linarith [t1, t2, t3]

/-- **Any solution of the backward equations is the gradient.** -/
theorem grad_of_solves (hnd : nodes.Nodup) (hord : ∀ m ∈ nodes, ∀ c ∈ conns m, Before nodes m c.outmod)
    (hin : ∀ m ∈ nodes, ∀ c ∈ conns m, c.inFrom ≤ c.inTo ∧ c.inTo ≤ (mod m).outdim)
    (hout : ∀ m ∈ nodes, ∀ c ∈ conns m, c.outFrom ≤ c.outTo ∧ c.outTo ≤ (mod c.outmod).indim)
    (Ps : Finset P) (pd : P → Nat) (hPm : ∀ n ∈ nodes, (mod n).pc ∈ Ps) (hPc : ∀ n ∈ nodes, ∀ c ∈ conns n, c.pc ∈ Ps)
    (θ : ℝ → P → Vec ℝ) (θ' : P → Vec ℝ) (t0 : ℝ) (hθ : ∀ p k, HasDerivAt (fun t => θ t p k) (θ' p k) t0)
    (ext : ℝ → V → Vec ℝ) (ext' : V → Vec ℝ) (hext : ∀ n j, HasDerivAt (fun t => ext t n j) (ext' n j) t0)
    (i o : ℝ → V → Vec ℝ) (hs : ∀ t, Solves nodes mod conns (θ t) (ext t) (i t) (o t))
    (hM : ∀ n ∈ nodes, ModDiff (mod n) (pd (mod n).pc) (θ t0 (mod n).pc) (i t0 n))
    (hC : ∀ n ∈ nodes, ∀ c ∈ conns n, ConnDiff c (pd c.pc) (θ t0 c.pc) (sl (o t0 n) c.inFrom c.inTo))
    (e ine oute : V → Vec ℝ) (grad : P → Vec ℝ)
    (hb : BackSolves nodes mod conns (θ t0) e (i t0) (o t0) ine oute grad) :
    HasDerivAt (fun t => (nodes.map (fun n => ip (mod n).outdim (e n) (o t n))).sum)
      ((nodes.map (fun n => ip (mod n).indim (ine n) (ext' n))).sum + ∑ p ∈ Ps, ∑ k ∈ range (pd p), grad p k * θ' p k) t0 := by
  -- differentiability of all buffers
  have hdiff : ∀ n ∈ nodes, (∀ j, DifferentiableAt ℝ (fun t => i t n j) t0) ∧ (∀ j, DifferentiableAt ℝ (fun t => o t n j) t0) := by
    have key : ∀ suf pre, nodes = pre ++ suf →
        (∀ n ∈ pre, (∀ j, DifferentiableAt ℝ (fun t => i t n j) t0) ∧ (∀ j, DifferentiableAt ℝ (fun t => o t n j) t0)) →
        ∀ n ∈ nodes, (∀ j, DifferentiableAt ℝ (fun t => i t n j) t0) ∧ (∀ j, DifferentiableAt ℝ (fun t => o t n j) t0) := by
      intro suf
      induction suf with
      | nil => intro pre hl h n hn; exact h n (by simpa [hl] using hn)
      | cons m suf ih =>
        intro pre hl h
        apply ih (pre ++ [m]) (by simp [hl])
        intro n hn
        rcases List.mem_append.1 hn with hn | hn
        · exact h n hn
        · have : n = m := by simpa using hn
          subst this
          have hmemn : n ∈ nodes := by rw [hl]; simp
          have di : ∀ j, DifferentiableAt ℝ (fun t => i t n j) t0 := by
            intro j
            have : (fun t => i t n j) = fun t => ext t n j +
                ((arcs nodes conns).map (fun a => if a.2.outmod = n then signal (θ t) (o t a.1) a.2 j else 0)).sum := by
              funext t; exact (hs t).inputs n hmemn j
            rw [this]
            refine DifferentiableAt.add (hext n j).differentiableAt ?_
            have := hasDerivAt_listSum (arcs nodes conns)
              (fun a t => if a.2.outmod = n then signal (θ t) (o t a.1) a.2 j else 0)
              (fun a => deriv (fun t => if a.2.outmod = n then signal (θ t) (o t a.1) a.2 j else 0) t0) t0 (by
                intro a ha
                apply DifferentiableAt.hasDerivAt
                by_cases ho : a.2.outmod = n
                · simp only [ho, if_true]
                  obtain ⟨ha1, ha2⟩ := mem_arcs.1 ha
                  have hpre : a.1 ∈ pre := by
                    by_contra hcon
                    have hbef := hord a.1 ha1 a.2 ha2
                    rw [ho] at hbef
                    have ha1' := ha1
                    rw [hl, List.mem_append] at ha1'
                    rcases ha1' with h1 | h1
                    · exact hcon h1
                    · obtain ⟨s1, s2, hsp⟩ := List.append_of_mem h1
                      have hsplit : nodes = (pre ++ s1) ++ a.1 :: s2 := by rw [hl, hsp]; simp
                      have hins2 := before_split hnd hsplit hbef
                      -- n is the head of the suffix, and in s2
                      rw [hsplit] at hnd
                      have hnd' := (List.nodup_append.1 hnd)
                      cases s1 with
                      | nil =>
                        simp only [List.nil_append, List.cons.injEq] at hsp
                        have h2 := (List.nodup_cons.1 hnd'.2.1).1
                        rw [← hsp.1] at h2
                        exact h2 hins2
                      | cons y ys =>
                        simp only [List.cons_append, List.cons.injEq] at hsp
                        exact hnd'.2.2 n (by rw [hsp.1]; simp) n (by simp [hins2]) rfl
                  by_cases hj : a.2.outFrom ≤ j ∧ j < a.2.outTo
                  · have hrow : ∀ k, HasDerivAt (fun t => o t a.1 k) (deriv (fun t => o t a.1 k) t0) t0 :=
                      fun k => ((h a.1 hpre).2 k).hasDerivAt
                    have hjn : j < (mod a.2.outmod).indim := by have := (hout a.1 ha1 a.2 ha2).2; omega
                    have := signal_deriv (hC a.1 ha1 a.2 ha2) hθ hrow (hout a.1 ha1 a.2 ha2)
                      (hin a.1 ha1 a.2 ha2) (fun x => if x = j then 1 else 0)
                    have hd := this.differentiableAt
                    have heq : (fun t => ∑ x ∈ range (mod a.2.outmod).indim, (if x = j then (1 : ℝ) else 0) * signal (θ t) (o t a.1) a.2 x) =
                        fun t => signal (θ t) (o t a.1) a.2 j := by
                      funext t; exact sum_unit _ j hjn _
                    rw [heq] at hd
                    exact hd
                  · have : (fun t => signal (θ t) (o t a.1) a.2 j) = fun _ => 0 := by
                      funext t; simp [signal, hj]
                    rw [this]; exact differentiableAt_const _
                · simp only [ho, if_false]; exact differentiableAt_const _)
            exact this.differentiableAt
          refine ⟨di, ?_⟩
          intro j
          have : (fun t => o t n j) = fun t => tr (mod n).outdim ((mod n).fwd (θ t (mod n).pc) (i t n) (fun _ => 0)) j := by
            funext t; rw [(hs t).outputs n hmemn]
          rw [this]
          unfold tr
          by_cases hj : j < (mod n).outdim
          · simp only [hj, if_true]
            have := hM n hmemn (fun t => θ t (mod n).pc) (fun t => i t n) t0 (θ' (mod n).pc)
              (fun k => deriv (fun t => i t n k) t0) rfl rfl (fun k => hθ _ k) (fun k => (di k).hasDerivAt)
              (fun x => if x = j then 1 else 0)
            have hd := this.differentiableAt
            have heq : (fun t => ∑ x ∈ range (mod n).outdim, (if x = j then (1 : ℝ) else 0) *
                (mod n).fwd (θ t (mod n).pc) (i t n) (fun _ => 0) x) =
                fun t => (mod n).fwd (θ t (mod n).pc) (i t n) (fun _ => 0) j := by
              funext t; exact sum_unit _ j hj _
            rw [heq] at hd
            exact hd
          · simp only [hj, if_false]; exact differentiableAt_const _
    exact key nodes [] rfl (by simp)
  -- the tangents
  let in' : V → Vec ℝ := fun n j => deriv (fun t => i t n j) t0
  let out' : V → Vec ℝ := fun n j => deriv (fun t => o t n j) t0
  let s' : V × Conn V P ℝ → Vec ℝ := fun a j => deriv (fun t => signal (θ t) (o t a.1) a.2 j) t0
  have hdi : ∀ n ∈ nodes, ∀ j, HasDerivAt (fun t => i t n j) (in' n j) t0 := fun n hn j => ((hdiff n hn).1 j).hasDerivAt
  have hdo : ∀ n ∈ nodes, ∀ j, HasDerivAt (fun t => o t n j) (out' n j) t0 := fun n hn j => ((hdiff n hn).2 j).hasDerivAt
  have hds : ∀ a ∈ arcs nodes conns, ∀ j, HasDerivAt (fun t => signal (θ t) (o t a.1) a.2 j) (s' a j) t0 := by
    intro a ha j
    apply DifferentiableAt.hasDerivAt
    obtain ⟨ha1, ha2⟩ := mem_arcs.1 ha
    by_cases hj : a.2.outFrom ≤ j ∧ j < a.2.outTo
    · have hjn : j < (mod a.2.outmod).indim := by have := (hout a.1 ha1 a.2 ha2).2; omega
      have := signal_deriv (hC a.1 ha1 a.2 ha2) hθ (hdo a.1 ha1) (hout a.1 ha1 a.2 ha2)
        (hin a.1 ha1 a.2 ha2) (fun x => if x = j then 1 else 0)
      have hd := this.differentiableAt
      have heq : (fun t => ∑ x ∈ range (mod a.2.outmod).indim, (if x = j then (1 : ℝ) else 0) * signal (θ t) (o t a.1) a.2 x) =
          fun t => signal (θ t) (o t a.1) a.2 j := by
        funext t; exact sum_unit _ j hjn _
      rw [heq] at hd
      exact hd
    · have : (fun t => signal (θ t) (o t a.1) a.2 j) = fun _ => 0 := by
        funext t; simp [signal, hj]
      rw [this]; exact differentiableAt_const _
  have hmem : ∀ m ∈ nodes, ∀ c ∈ conns m, c.outmod ∈ nodes := by
    intro m hm c hc
    obtain ⟨l1, l2, l3, h⟩ := hord m hm c hc
    rw [h]; simp
  have tin : ∀ n ∈ nodes, ∀ j, in' n j = ext' n j +
      ((arcs nodes conns).map (fun a => if a.2.outmod = n then s' a j else 0)).sum := by
    intro n hn j
    have h1 : HasDerivAt (fun t => i t n j) (ext' n j +
        ((arcs nodes conns).map (fun a => if a.2.outmod = n then s' a j else 0)).sum) t0 := by
      have : (fun t => i t n j) = fun t => ext t n j +
          ((arcs nodes conns).map (fun a => if a.2.outmod = n then signal (θ t) (o t a.1) a.2 j else 0)).sum := by
        funext t; exact (hs t).inputs n hn j
      rw [this]
      refine (hext n j).add (hasDerivAt_listSum _ (fun (a : V × Conn V P ℝ) t => if a.2.outmod = n then signal (θ t) (o t a.1) a.2 j else 0) _ t0 ?_)
      intro a ha
      by_cases ho : a.2.outmod = n
      · simp only [ho, if_true]; exact hds a ha j
      · simp only [ho, if_false]; exact hasDerivAt_const _ _
    exact (hdi n hn j).unique h1
  have tout : ∀ n ∈ nodes, ip (mod n).outdim (oute n) (out' n) = ip (mod n).indim (ine n) (in' n) +
      ∑ k ∈ range (pd (mod n).pc), (mod n).bwdPar (θ t0 (mod n).pc) (oute n) (o t0 n) (i t0 n) k * θ' (mod n).pc k := by
    intro n hn
    have h1 := hM n hn (fun t => θ t (mod n).pc) (fun t => i t n) t0 (θ' (mod n).pc) (in' n) rfl rfl
      (fun k => hθ _ k) (hdi n hn) (oute n)
    have h2 : HasDerivAt (fun t => ∑ j ∈ range (mod n).outdim, oute n j * o t n j) (∑ j ∈ range (mod n).outdim, oute n j * out' n j) t0 :=
      hasDerivAt_rangeSum _ (fun j t => oute n j * o t n j) _ t0 (fun j _ => (hdo n hn j).const_mul _)
    have heq : (fun t => ∑ j ∈ range (mod n).outdim, oute n j * o t n j) = fun t => ∑ j ∈ range (mod n).outdim,
        oute n j * (mod n).fwd (θ t (mod n).pc) (i t n) (fun _ => 0) j := by
      funext t
      apply sum_congr rfl
      intro j hj
      rw [(hs t).outputs n hn]
      simp [tr, mem_range.1 hj]
    rw [heq] at h2
    have h3 := h2.unique h1
    simp only [ip]
    rw [h3]
    have ho : o t0 n = tr (mod n).outdim ((mod n).fwd (θ t0 (mod n).pc) (i t0 n) (fun _ => 0)) := (hs t0).outputs n hn
    rw [← ho]
    congr 1
    apply sum_congr rfl
    intro j hj
    rw [hb.inErr n hn]
    simp [tr, mem_range.1 hj]
  have tsig : ∀ n ∈ nodes, ∀ c ∈ conns n, ip (mod c.outmod).indim (ine c.outmod) (s' (n, c)) =
      ip (mod n).outdim (backSignal (θ t0) (ine c.outmod) (o t0 n) c) (out' n) +
      ∑ k ∈ range (pd c.pc), c.bwdPar (θ t0 c.pc) (sl (ine c.outmod) c.outFrom c.outTo) (sl (o t0 n) c.inFrom c.inTo) k * θ' c.pc k := by
    intro n hn c hc
    have h1 := signal_deriv (hC n hn c hc) hθ (hdo n hn) (hout n hn c hc) (hin n hn c hc) (ine c.outmod)
    have h2 : HasDerivAt (fun t => ∑ j ∈ range (mod c.outmod).indim, ine c.outmod j * signal (θ t) (o t n) c j)
        (∑ j ∈ range (mod c.outmod).indim, ine c.outmod j * s' (n, c) j) t0 :=
      hasDerivAt_rangeSum _ (fun j t => ine c.outmod j * signal (θ t) (o t n) c j) _ t0
        (fun j _ => (hds (n, c) (mem_arcs.2 ⟨hn, hc⟩) j).const_mul _)
    exact h2.unique h1
  have hD := duality hnd hmem (θ t0) θ' e (i t0) (o t0) ine oute grad hb Ps pd hPm hPc ext' in' out' s' tin tout tsig
  rw [← hD]
  exact hasDerivAt_listSum nodes (fun n t => ip (mod n).outdim (e n) (o t n)) _ t0 (fun n hn =>
    hasDerivAt_rangeSum _ (fun j t => e n j * o t n j) _ t0 (fun j _ => (hdo n hn j).const_mul _))

end grad

section back
variable {K : Type} [AddCommMonoid K]

theorem addAt_backSignal (θ : P → Vec K) (row err src : Vec K) (c : Conn V P K) :
    addAt row c.inFrom c.inTo (c.bwdErr (θ c.pc) (sl err c.outFrom c.outTo) (sl src c.inFrom c.inTo)) =
      fun j => row j + backSignal θ err src c j := by
  funext j
  unfold addAt backSignal
  split <;> simp

theorem conns_backward (θ : P → Vec K) (m : V) (cs : List (Conn V P K)) (b : Bufs V P K) :
    let r := cs.foldl (connBackward θ m) b
    (∀ n, n ≠ m → r.oute n = b.oute n) ∧
    (∀ j, r.oute m j = b.oute m j + (cs.map (fun c => backSignal θ (b.ine c.outmod) (b.outb m) c j)).sum) ∧
    (∀ p k, r.derivs p k = b.derivs p k + (cs.map (fun c => if c.pc = p then
      c.bwdPar (θ c.pc) (sl (b.ine c.outmod) c.outFrom c.outTo) (sl (b.outb m) c.inFrom c.inTo) k else 0)).sum) ∧
    r.inb = b.inb ∧ r.outb = b.outb ∧ r.ine = b.ine := by
  induction cs generalizing b with
  | nil => simp
  | cons c cs ih =>
    obtain ⟨h1, h2, h3, h4, h5, h6⟩ := ih (connBackward θ m b c)
    simp only [List.foldl_cons]
    refine ⟨?_, ?_, ?_, h4.trans rfl, h5.trans rfl, h6.trans rfl⟩
    · intro n hn
      rw [h1 n hn]
      simp only [connBackward, upd_ne _ _ hn]
    · intro j
      rw [h2 j]
      simp only [List.map_cons, List.sum_cons]
      rw [← add_assoc]
      congr 1
      simp only [connBackward, upd_same]
      rw [addAt_backSignal]
    · intro p k
      rw [h3 p k]
      simp only [List.map_cons, List.sum_cons]
      rw [← add_assoc]
      congr 1
      simp only [connBackward]
      by_cases hp : c.pc = p
      · subst hp; simp
      · simp [hp, upd_ne _ _ (Ne.symm hp)]

/-- The invariant of the reverse sweep when the modules `suf` have been processed. -/
structure BInv (N : Net V P K) (θ : P → Vec K) (e inb outb : V → Vec K) (d0 : P → Vec K) (suf : List V)
    (b : Bufs V P K) : Prop where
  hinb : b.inb = inb
  houtb : b.outb = outb
  oute : ∀ n ∈ suf, ∀ j, b.oute n j = e n j + ((N.conns n).map (fun c => backSignal θ (b.ine c.outmod) (outb n) c j)).sum
  outeTodo : ∀ n, n ∉ suf → b.oute n = e n
  ine : ∀ n ∈ suf, b.ine n = tr (N.mod n).indim
    ((N.mod n).bwdErr (θ (N.mod n).pc) (b.oute n) (fun _ => 0) (outb n) (inb n))
  ineTodo : ∀ n, n ∉ suf → b.ine n = fun _ => 0
  derivs : ∀ p k, b.derivs p k = d0 p k + (suf.map (fun n => gradAt N.mod N.conns θ inb outb b.ine b.oute n p k)).sum

theorem sweepBackward_inv (N : Net V P K) (θ : P → Vec K) (e inb outb : V → Vec K) (d0 : P → Vec K)
    (hnd : N.sorted.Nodup) (hord : ∀ m ∈ N.sorted, ∀ c ∈ N.conns m, Before N.sorted m c.outmod)
    (rpre : List V) (suf : List V) (hl : N.sorted = rpre.reverse ++ suf) (b : Bufs V P K)
    (hb : BInv N θ e inb outb d0 suf b) :
    BInv N θ e inb outb d0 N.sorted (sweepBackward N θ b rpre.reverse) := by
  induction rpre generalizing suf b with
  | nil =>
    have : suf = N.sorted := by simpa using hl.symm
    subst this
    simpa [sweepBackward] using hb
  | cons m rpre ih =>
    have hl' : N.sorted = rpre.reverse ++ m :: suf := by rw [hl]; simp
    have hmsuf : m ∉ suf := by
      intro h
      rw [hl'] at hnd
      exact (List.nodup_cons.1 (List.nodup_append.1 hnd).2.1).1 h
    have hout : ∀ c ∈ N.conns m, c.outmod ∈ suf := fun c hc =>
      before_split hnd hl' (hord m (by rw [hl']; simp) c hc)
    have houtsuf : ∀ n ∈ suf, ∀ c ∈ N.conns n, c.outmod ≠ m := by
      intro n hn c hc h
      obtain ⟨s1, s2, hs⟩ := List.append_of_mem hn
      have hsp : N.sorted = (rpre.reverse ++ m :: s1) ++ n :: s2 := by rw [hl', hs]; simp
      have := before_split hnd hsp (hord n (by rw [hsp]; simp) c hc)
      rw [h] at this
      exact hmsuf (by rw [hs]; simp [this])
    obtain ⟨c1, c2, c3, c4, c5, c6⟩ := conns_backward θ m (N.conns m) b
    have hstep : sweepBackward N θ b (m :: rpre).reverse =
        sweepBackward N θ (modBackward N θ ((N.conns m).foldl (connBackward θ m) b) m) rpre.reverse := by
      simp [sweepBackward]
    rw [hstep]
    apply ih (m :: suf) hl'
    generalize hr : (N.conns m).foldl (connBackward θ m) b = r at c1 c2 c3 c4 c5 c6 ⊢
    have hoe : ∀ n, n ≠ m → (modBackward N θ r m).oute n = b.oute n := fun n hn => c1 n hn
    have hie : ∀ n, n ≠ m → (modBackward N θ r m).ine n = b.ine n := by
      intro n hn
      simp only [modBackward, upd_ne _ _ hn, c6]
    have hoem : ∀ j, (modBackward N θ r m).oute m j = e m j +
        ((N.conns m).map (fun c => backSignal θ (b.ine c.outmod) (outb m) c j)).sum := by
      intro j
      show r.oute m j = _
      rw [c2 j, hb.outeTodo m hmsuf, hb.houtb]
    have hiem : (modBackward N θ r m).ine m = tr (N.mod m).indim
        ((N.mod m).bwdErr (θ (N.mod m).pc) (r.oute m) (fun _ => 0) (outb m) (inb m)) := by
      simp only [modBackward, upd_same]
      rw [c6, hb.ineTodo m hmsuf, c5, c4, hb.houtb, hb.hinb]
    have hieout : ∀ n ∈ m :: suf, ∀ c ∈ N.conns n, (modBackward N θ r m).ine c.outmod = b.ine c.outmod := by
      intro n hn c hc
      apply hie
      rcases List.mem_cons.1 hn with rfl | hn
      · intro h; exact hmsuf (h ▸ hout c hc)
      · exact houtsuf n hn c hc
    refine ⟨c4.trans hb.hinb, c5.trans hb.houtb, ?_, ?_, ?_, ?_, ?_⟩
    · intro n hn j
      have hcs : (N.conns n).map (fun c => backSignal θ ((modBackward N θ r m).ine c.outmod) (outb n) c j) =
          (N.conns n).map (fun c => backSignal θ (b.ine c.outmod) (outb n) c j) :=
        List.map_congr_left (fun c hc => by rw [hieout n hn c hc])
      rw [hcs]
      rcases List.mem_cons.1 hn with rfl | hn'
      · exact hoem j
      · rw [hoe n (fun h => hmsuf (h ▸ hn')), hb.oute n hn' j]
    · intro n hn
      rw [List.mem_cons, not_or] at hn
      rw [hoe n hn.1, hb.outeTodo n hn.2]
    · intro n hn
      rcases List.mem_cons.1 hn with rfl | hn'
      · exact hiem
      · have hne : n ≠ m := fun h => hmsuf (h ▸ hn')
        rw [hie n hne, hoe n hne, hb.ine n hn']
    · intro n hn
      rw [List.mem_cons, not_or] at hn
      rw [hie n hn.1, hb.ineTodo n hn.2]
    · intro p k
      have hsufg : suf.map (fun n => gradAt N.mod N.conns θ inb outb (modBackward N θ r m).ine (modBackward N θ r m).oute n p k) =
          suf.map (fun n => gradAt N.mod N.conns θ inb outb b.ine b.oute n p k) := by
        apply List.map_congr_left
        intro n hn
        have hne : n ≠ m := fun h => hmsuf (h ▸ hn)
        unfold gradAt
        rw [hoe n hne]
        congr 2
        apply List.map_congr_left
        intro c hc
        rw [hieout n (by simp [hn]) c hc]
      rw [List.map_cons, List.sum_cons, hsufg]
      have hd : (modBackward N θ r m).derivs p k = r.derivs p k +
          (if (N.mod m).pc = p then (N.mod m).bwdPar (θ (N.mod m).pc) (r.oute m) (outb m) (inb m) k else 0) := by
        simp only [modBackward]
        rw [c5, c4, hb.houtb, hb.hinb]
        by_cases hp : (N.mod m).pc = p
        · subst hp; simp
        · simp [hp, upd_ne _ _ (Ne.symm hp)]
      rw [hd, c3 p k, hb.derivs p k]
      have hg : gradAt N.mod N.conns θ inb outb (modBackward N θ r m).ine (modBackward N θ r m).oute m p k =
          ((N.conns m).map (fun c => if c.pc = p then
            c.bwdPar (θ c.pc) (sl (b.ine c.outmod) c.outFrom c.outTo) (sl (b.outb m) c.inFrom c.inTo) k else 0)).sum +
          (if (N.mod m).pc = p then (N.mod m).bwdPar (θ (N.mod m).pc) (r.oute m) (outb m) (inb m) k else 0) := by
        unfold gradAt
        rw [hb.houtb]
        congr 2
        apply List.map_congr_left
        intro c hc
        rw [hieout m (by simp) c hc]
      rw [hg]
      abel

theorem loadErr_spec (N : Net V P K) (x : Vec K) (ms : List V) (index : Nat) (b : Bufs V P K) (hnd : ms.Nodup) :
    (loadErr N x index ms b).oute = (fun n => if n ∈ ms then share (fun m => (N.mod m).outdim) ms (fun i => x (index + i)) n else b.oute n) ∧
    (loadErr N x index ms b).outb = b.outb ∧ (loadErr N x index ms b).ine = b.ine ∧
    (loadErr N x index ms b).inb = b.inb ∧ (loadErr N x index ms b).derivs = b.derivs := by
  induction ms generalizing index b with
  | nil => simp [loadErr]
  | cons m ms ih =>
    obtain ⟨h1, h2, h3, h4, h5⟩ := ih (index + (N.mod m).outdim)
      { b with oute := upd b.oute m (sl x index (index + (N.mod m).outdim)) } (List.nodup_cons.1 hnd).2
    simp only [loadErr]
    refine ⟨?_, h2, h3, h4, h5⟩
    rw [h1]
    funext n
    have hm := (List.nodup_cons.1 hnd).1
    by_cases hn : n = m
    · subst hn
      simp only [hm, if_false, upd_same, List.mem_cons, true_or, if_true, share]
      funext i
      simp [sl, tr]
    · simp only [List.mem_cons, hn, false_or, share, if_false, upd_ne _ _ hn, Nat.add_assoc]

theorem share_notMem (d : V → Nat) (ms : List V) (z : Vec K) (n : V) (hn : n ∉ ms) : share d ms z n = fun _ => 0 := by
  induction ms generalizing z with
  | nil => rfl
  | cons m ms ih =>
    rw [List.mem_cons, not_or] at hn
    simp only [share, hn.1, if_false]
    exact ih _ hn.2

/-- **The reverse sweep solves the backward equations.** -/
theorem backActivate_solves (N : Net V P K) (hN : WF N) (θ : P → Vec K) (b : Bufs V P K) (e : Vec K)
    (hi : b.ine = fun _ _ => 0) (ho : b.oute = fun _ _ => 0) :
    let r := (backActivate N θ b e).1
    BInv N θ (share (fun m => (N.mod m).outdim) N.outmods e) b.inb b.outb b.derivs N.sorted r := by
  obtain ⟨h1, h2, h3, h4, h5⟩ := loadErr_spec N e N.outmods 0 b hN.outsNodup
  have hinit : BInv N θ (share (fun m => (N.mod m).outdim) N.outmods e) b.inb b.outb b.derivs []
      (loadErr N e 0 N.outmods b) := by
    refine ⟨h4, h2, by simp, ?_, by simp, ?_, ?_⟩
    · intro n _
      rw [h1]
      by_cases hn : n ∈ N.outmods
      · simp [hn]
      · simp only [hn, if_false]
        rw [share_notMem _ _ _ _ hn, ho]
    · intro n _; rw [h3, hi]
    · intro p k; simp [h5]
  have := sweepBackward_inv N θ _ _ _ _ hN.nodup hN.order N.sorted.reverse [] (by simp) _ hinit
  rw [List.reverse_reverse] at this
  exact this

theorem backActivate_out (N : Net V P K) (θ : P → Vec K) (b : Bufs V P K) (e : Vec K) :
    (backActivate N θ b e).2 = concat (fun m => (N.mod m).indim) N.inmods (backActivate N θ b e).1.ine := by
  simp only [backActivate]
  rw [readErr_spec _ _ _ _ _ (fun _ _ => rfl)]
  funext j
  simp

end back

/-- pairing a long vector with a concatenation = pairing the shares with the rows -/
theorem ip_concat (d : V → Nat) (ms : List V) (hnd : ms.Nodup) (e : Vec ℝ) (rows : V → Vec ℝ) :
    ∑ j ∈ range ((ms.map d).sum), e j * concat d ms rows j = (ms.map (fun m => ip (d m) (share d ms e m) (rows m))).sum := by
  induction ms generalizing e with
  | nil => simp
  | cons m ms ih =>
    rw [List.nodup_cons] at hnd
    simp only [List.map_cons, List.sum_cons]
    rw [sum_range_add]
    congr 1
    · simp only [ip, concat, share, if_true]
      apply sum_congr rfl
      intro j hj
      simp [tr, mem_range.1 hj]
    · have hc : ∀ j, concat d (m :: ms) rows (d m + j) = concat d ms rows j := by
        intro j
        simp only [concat]
        rw [if_neg (by omega)]
        congr 1; omega
      simp only [hc]
      rw [ih hnd.2 (fun i => e (d m + i))]
      congr 1
      apply List.map_congr_left
      intro n hn
      have hne : n ≠ m := fun h => hnd.1 (h ▸ hn)
      simp only [share, hne, if_false]

/-- a sum over a sublist of nodes outside which the summand vanishes -/
theorem sum_sub_nodes (nodes ms : List V) (hn : nodes.Nodup) (hm : ms.Nodup) (hsub : ∀ m ∈ ms, m ∈ nodes) (f : V → ℝ)
    (hz : ∀ n ∈ nodes, n ∉ ms → f n = 0) : (nodes.map f).sum = (ms.map f).sum := by
  rw [← List.sum_toFinset f hn, ← List.sum_toFinset f hm]
  symm
  apply Finset.sum_subset
  · intro x hx
    exact List.mem_toFinset.2 (hsub x (List.mem_toFinset.1 hx))
  · intro x hx hx'
    exact hz x (List.mem_toFinset.1 hx) (fun h => hx' (List.mem_toFinset.2 h))

theorem share_deriv (d : V → Nat) (ms : List V) (x : ℝ → Vec ℝ) (x' : Vec ℝ) (t0 : ℝ)
    (h : ∀ i, HasDerivAt (fun t => x t i) (x' i) t0) (n : V) (j : Nat) :
    HasDerivAt (fun t => share d ms (x t) n j) (share d ms x' n j) t0 := by
  induction ms generalizing x x' with
  | nil => exact hasDerivAt_const _ _
  | cons m ms ih =>
    simp only [share]
    by_cases hn : n = m
    · simp only [hn, if_true, tr]
      by_cases hj : j < d m
      · simpa only [hj, if_true] using h j
      · simpa only [hj, if_false] using hasDerivAt_const t0 (0 : ℝ)
    · simp only [hn, if_false]
      exact ih (fun t i => x t (d m + i)) (fun i => x' (d m + i)) (fun i => h _)

end Verif.Net
