import Verif.Model.Codes
import Mathlib.Data.Fintype.EquivFin
import Mathlib.Tactic.Ring
import Mathlib.Algebra.BigOperators.Group.List.Basic
/-
Property theorems C17 (Gray code) and C60 (other codes), pybrain/utilities.py.
-/
namespace Verif.Props
open Verif.Codes

theorem int2gray_testBit (n k : Nat) : (int2gray n).testBit k = (n.testBit k ^^ n.testBit (k + 1)) := by
  unfold int2gray
  rw [Nat.testBit_xor, Nat.testBit_shiftRight, Nat.add_comm 1 k]

theorem bit_toNat (n k : Nat) : (n >>> k) % 2 = (n.testBit k).toNat := by
  rw [Nat.testBit_eq_decide_div_mod_eq, Nat.shiftRight_eq_div_pow]
  rcases Nat.mod_two_eq_zero_or_one (n / 2 ^ k) with h | h <;> simp [h]

theorem xor_toNat (a b : Bool) : a.toNat ^^^ b.toNat = (a ^^ b).toNat := by cases a <;> cases b <;> rfl

theorem gray_loop (n size : Nat) (hn : n < 2 ^ size) :
    ∀ j, j < size →
      ((List.range' j (size - j)).reverse.foldl (grayStep (int2gray n) size) (0, 0))
        = ((n.testBit j).toNat, (n / 2 ^ j) * 2 ^ j) := by
  intro j hj
  obtain ⟨d, hd⟩ : ∃ d, size = j + (d + 1) := ⟨size - j - 1, by omega⟩
  have hsz : ∀ i, size ≤ i → n.testBit i = false := fun i hi =>
    Nat.testBit_lt_two_pow (lt_of_lt_of_le hn (Nat.pow_le_pow_right (by norm_num) hi))
  have hdiv : n / 2 ^ size = 0 := Nat.div_eq_of_lt hn
  have hrec : ∀ i, n / 2 ^ i * 2 ^ i = (n / 2 ^ (i + 1)) * 2 ^ (i + 1) + (n.testBit i).toNat * 2 ^ i := by
    intro i
    rw [← bit_toNat, Nat.shiftRight_eq_div_pow, pow_succ, ← Nat.div_div_eq_div_mul]
    have := Nat.div_add_mod (n / 2 ^ i) 2
    calc n / 2 ^ i * 2 ^ i = (2 * (n / 2 ^ i / 2) + n / 2 ^ i % 2) * 2 ^ i := by rw [this]
      _ = _ := by ring
  clear hj
  induction d generalizing j with
  | zero =>
    have hsj : size - j = 1 := by omega
    rw [hsj]
    have hb := hsz (j + 1) (by omega)
    have hd1 : n / 2 ^ (j + 1) = 0 := by rw [← hd]; exact hdiv
    simp only [List.range'_one, List.reverse_cons, List.reverse_nil, List.nil_append, List.foldl_cons, List.foldl_nil, grayStep]
    rw [if_pos (by omega), bit_toNat, int2gray_testBit, hb, hrec j, hd1]
    simp
  | succ d ih =>
    have hsj : size - j = (size - (j + 1)) + 1 := by omega
    rw [hsj, List.range'_succ, List.reverse_cons, List.foldl_append, ih (j + 1) (by omega)]
    simp only [List.foldl_cons, List.foldl_nil, grayStep]
    rw [if_neg (by omega), bit_toNat, xor_toNat, int2gray_testBit, hrec j]
    cases n.testBit j <;> cases n.testBit (j + 1) <;> simp

/-- **C17, decoding.** `gray2int(int2gray(n), size) = n` for every `n` that fits into `size` bits. -/
theorem C17_decode (n size : Nat) (h : n < 2 ^ size) : gray2int (int2gray n) size = n := by
  unfold gray2int
  cases size with
  | zero => simp at h; simp [h]
  | succ s =>
    rw [List.range_eq_range']
    have := gray_loop n (s + 1) h 0 (by omega)
    rw [Nat.sub_zero] at this
    rw [this]; simp

theorem int2gray_lt (n size : Nat) (h : n < 2 ^ size) : int2gray n < 2 ^ size := by
  unfold int2gray
  apply Nat.xor_lt_two_pow h
  rw [Nat.shiftRight_eq_div_pow]
  exact lt_of_le_of_lt (Nat.div_le_self _ _) h

/-- **C17, encoding.** `int2gray(gray2int(g, size)) = g` for every `g` that fits into `size` bits, so the two functions
are inverse bijections of `0..2^size-1`. -/
theorem C17_encode (g size : Nat) (h : g < 2 ^ size) :
    int2gray (gray2int g size) = g ∧ gray2int g size < 2 ^ size := by
  let f : Fin (2 ^ size) → Fin (2 ^ size) := fun n => ⟨int2gray n, int2gray_lt n size n.2⟩
  have hf : Function.Injective f := by
    intro a b hab
    have : int2gray a = int2gray b := congrArg Fin.val hab
    apply Fin.ext
    rw [← C17_decode a size a.2, ← C17_decode b size b.2, this]
  obtain ⟨n, hn⟩ := Finite.surjective_of_injective hf ⟨g, h⟩
  have hn' : int2gray n = g := congrArg Fin.val hn
  rw [← hn', C17_decode n size n.2]
  exact ⟨rfl, n.2⟩

theorem xor_succ (n : Nat) : ∃ t, ∀ k, (n ^^^ (n + 1)).testBit k = decide (k ≤ t) := by
  induction n using Nat.strongRecOn with
  | _ n ih =>
    rcases Nat.even_or_odd' n with ⟨m, hm | hm⟩
    · refine ⟨0, fun k => ?_⟩
      cases k with
      | zero => simp [hm, Nat.testBit_xor, Nat.testBit_zero]
      | succ k =>
        rw [Nat.testBit_xor, Nat.testBit_succ, Nat.testBit_succ]
        rw [show n / 2 = m by omega, show (n + 1) / 2 = m by omega]
        simp
    · obtain ⟨t, ht⟩ := ih m (by omega)
      refine ⟨t + 1, fun k => ?_⟩
      cases k with
      | zero =>
        rw [Nat.testBit_xor, Nat.testBit_zero, Nat.testBit_zero, hm]
        simp; omega
      | succ k =>
        rw [Nat.testBit_xor, Nat.testBit_succ, Nat.testBit_succ]
        rw [show n / 2 = m by omega, show (n + 1) / 2 = m + 1 by omega, ← Nat.testBit_xor, ht k]
        simp

/-- **C17, Gray property.** The codes of `n` and `n + 1` differ in exactly one bit. -/
theorem C17_one_bit (n : Nat) : ∃! k, (int2gray n).testBit k ≠ (int2gray (n + 1)).testBit k := by
  obtain ⟨t, ht⟩ := xor_succ n
  have key : ∀ k, ((int2gray n).testBit k ≠ (int2gray (n + 1)).testBit k) ↔ k = t := by
    intro k
    have h1 := ht k
    have h2 := ht (k + 1)
    rw [Nat.testBit_xor] at h1 h2
    rw [int2gray_testBit, int2gray_testBit]
    generalize n.testBit k = a at *
    generalize n.testBit (k + 1) = b at *
    generalize (n + 1).testBit k = c at *
    generalize (n + 1).testBit (k + 1) = d at *
    rcases Nat.lt_trichotomy k t with h | h | h
    · have e1 : decide (k ≤ t) = true := by simp; omega
      have e2 : decide (k + 1 ≤ t) = true := by simp; omega
      rw [e1] at h1; rw [e2] at h2
      have : k ≠ t := by omega
      revert h1 h2; cases a <;> cases b <;> cases c <;> cases d <;> simp [this]
    · have e1 : decide (k ≤ t) = true := by simp; omega
      have e2 : decide (k + 1 ≤ t) = false := by simp; omega
      rw [e1] at h1; rw [e2] at h2
      revert h1 h2; cases a <;> cases b <;> cases c <;> cases d <;> simp [h]
    · have e1 : decide (k ≤ t) = false := by simp; omega
      have e2 : decide (k + 1 ≤ t) = false := by simp; omega
      rw [e1] at h1; rw [e2] at h2
      have : k ≠ t := by omega
      revert h1 h2; cases a <;> cases b <;> cases c <;> cases d <;> simp [this]
  exact ⟨t, (key t).2 rfl, fun k hk => (key k).1 hk⟩

example : int2gray 6 = 5 ∧ gray2int 5 3 = 6 ∧ (6 : Nat) < 2 ^ 3 := by decide

/-! ### C60  Binary and one-of-n codes -/

/-- The number written by a string of binary digits. -/
def binValue (s : List Char) : Nat := s.foldl (fun acc c => 2 * acc + (if c = '1' then 1 else 0)) 0

/-- **C60, binary strings.** `asBinary(n)` consists of the digits 0 and 1, is the binary notation of `n`, and has no leading
zero unless `n = 0` (when it is `"0"`). -/
theorem C60_asBinary (n : Nat) :
    binValue (asBinary n) = n ∧ (∀ c ∈ asBinary n, c = '0' ∨ c = '1') ∧ (0 < n → (asBinary n).head? = some '1') ∧
      (n = 0 → asBinary n = ['0']) := by
  induction n using Nat.strongRecOn with
  | _ n ih =>
    unfold asBinary
    by_cases h1 : n > 1
    · have hs : n >>> 1 = n / 2 := by rw [Nat.shiftRight_eq_div_pow]
      obtain ⟨i1, i2, i3, _⟩ := ih (n >>> 1) (by rw [hs]; omega)
      have i3 := i3 (by rw [hs]; omega)
      rw [if_pos h1]
      by_cases h2 : n % 2 = 1
      · rw [if_pos h2]
        refine ⟨?_, ?_, ?_, ?_⟩
        · unfold binValue at i1 ⊢
          rw [List.foldl_append, i1, List.foldl_cons, List.foldl_nil, hs]
          split <;> simp_all <;> omega
        · intro c hc
          rcases List.mem_append.1 hc with hc | hc
          · exact i2 c hc
          · simp at hc; exact Or.inr hc
        · intro _; rw [List.head?_append, i3]; rfl
        · omega
      · rw [if_neg h2]
        refine ⟨?_, ?_, ?_, ?_⟩
        · unfold binValue at i1 ⊢
          rw [List.foldl_append, i1, List.foldl_cons, List.foldl_nil, hs]
          split <;> simp_all <;> omega
        · intro c hc
          rcases List.mem_append.1 hc with hc | hc
          · exact i2 c hc
          · simp at hc; exact Or.inl hc
        · intro _; rw [List.head?_append, i3]; rfl
        · omega
    · rw [if_neg h1]
      have : n = 0 ∨ n = 1 := by omega
      rcases this with rfl | rfl <;> decide

/-- **C60, one-of-n.** `n_to_one(one_to_n(v, n)) = v` for every `v < n`; the code has `n` entries, all zero but the one at
`v`. -/
theorem C60_one_to_n (v n : Nat) (h : v < n) :
    ∃ a, one_to_n v n = some a ∧ a.length = n ∧ (∀ i, i < n → a[i]? = some (if i = v then 1 else 0)) ∧ n_to_one a = some v := by
  have hget : ∀ i, i < n → ((List.replicate n (0 : Rat)).set v 1)[i]? = some (if i = v then 1 else 0) := by
    intro i hi
    rw [List.getElem?_set]
    by_cases h2 : v = i
    · subst h2; simp [hi]
    · have h3 : ¬ i = v := fun h => h2 h.symm
      simp [h2, hi, h3]
  refine ⟨(List.replicate n 0).set v 1, by simp [one_to_n, h], by simp, hget, ?_⟩
  unfold n_to_one
  rw [List.findIdx?_eq_some_iff_getElem]
  refine ⟨by simpa using h, by simp, ?_⟩
  intro j hj
  have := hget j (by omega)
  rw [List.getElem?_eq_some_iff] at this
  obtain ⟨_, h4⟩ := this
  rw [h4]
  simp [Nat.ne_of_lt hj]

example : one_to_n 2 4 = some [0, 0, 1, 0] ∧ n_to_one [0, 0, 1, 0] = some 2 := by decide +kernel

/-- The number written by a vector of bits, most significant first. -/
def bitValue (l : List Nat) : Nat := l.foldl (fun acc b => 2 * acc + (if b = 0 then 0 else 1)) 0

theorem foldl_base (B : Nat) : ∀ (l : List Nat) (a : Nat),
    l.foldl (fun acc v => B * acc + v) a = a * B ^ l.length + (l.reverse.zipIdx.map (fun (v : Nat × Nat) => v.1 * B ^ v.2)).sum := by
  intro l
  induction l with
  | nil => intro a; simp
  | cons x xs ih =>
    intro a
    rw [List.foldl_cons, ih, List.reverse_cons, List.zipIdx_append]
    simp [pow_succ]
    ring

theorem bitValue_from (l : List Nat) (a : Nat) :
    l.foldl (fun acc b => 2 * acc + (if b = 0 then 0 else 1)) a = a * 2 ^ l.length + bitValue l := by
  induction l generalizing a with
  | nil => simp [bitValue]
  | cons x xs ih =>
    unfold bitValue
    rw [List.foldl_cons, List.foldl_cons, ih, ih (2 * 0 + _), List.length_cons, pow_succ]
    ring

theorem packByte_eq (l : List Nat) (h : l.length ≤ 8) : packByte l = bitValue l * 2 ^ (8 - l.length) := by
  rcases l with _ | ⟨a, _ | ⟨b, _ | ⟨c, _ | ⟨d, _ | ⟨e, _ | ⟨f, _ | ⟨g, _ | ⟨i, _ | ⟨j, l⟩⟩⟩⟩⟩⟩⟩⟩⟩
  all_goals first
    | (simp only [List.length_cons] at h; omega)
    | (simp [packByte, bitValue, List.range_succ] <;> ring)

/-- How many zeros `packbits` appends to `n` bits. -/
def padding (n : Nat) : Nat := (8 - n % 8) % 8

theorem packbits_value : ∀ (n : Nat) (l : List Nat) (a : Nat), l.length ≤ n →
    (packbits n l).foldl (fun acc v => 256 * acc + v) a = (a * 2 ^ l.length + bitValue l) * 2 ^ padding l.length := by
  intro n
  induction n with
  | zero =>
    intro l a h
    have : l = [] := by simpa using h
    subst this
    simp [packbits, bitValue, padding]
  | succ n ih =>
    intro l a h
    cases l with
    | nil => simp [packbits, bitValue, padding]
    | cons x xs =>
      rw [show packbits (n + 1) (x :: xs) = packByte ((x :: xs).take 8) :: packbits n ((x :: xs).drop 8) from rfl]
      generalize hl : x :: xs = l at *
      have hpos : 0 < l.length := by rw [← hl]; simp
      rw [List.foldl_cons, ih _ _ (by simp; omega), packByte_eq _ (by simp)]
      by_cases h8 : 8 ≤ l.length
      · have hp : padding (l.drop 8).length = padding l.length := by
          unfold padding; rw [List.length_drop]; omega
        rw [hp]
        congr 1
        have ht : (l.take 8).length = 8 := by simp; omega
        rw [ht]
        have hsplit : bitValue l = bitValue (l.take 8) * 2 ^ (l.drop 8).length + bitValue (l.drop 8) := by
          conv_lhs => rw [← List.take_append_drop 8 l]
          unfold bitValue
          rw [List.foldl_append, bitValue_from]; rfl
        rw [hsplit]
        have hl2 : 2 ^ l.length = 256 * 2 ^ (l.drop 8).length := by
          rw [List.length_drop, show (256 : Nat) = 2 ^ 8 by norm_num, ← pow_add]; congr 1; omega
        rw [hl2]; simp; ring
      · have ht : l.take 8 = l := List.take_of_length_le (by omega)
        have hd : l.drop 8 = [] := List.drop_of_length_le (by omega)
        rw [ht, hd]
        have hp : padding l.length = 8 - l.length := by unfold padding; omega
        have hb0 : bitValue ([] : List Nat) = 0 := rfl
        rw [hp, hb0]
        have h256 : (256 : Nat) = 2 ^ l.length * 2 ^ (8 - l.length) := by
          rw [← pow_add, show l.length + (8 - l.length) = 8 by omega]; norm_num
        simp only [List.length_nil, pow_zero, mul_one, add_zero]
        have hp0 : padding 0 = 0 := rfl
        rw [hp0, pow_zero, mul_one]
        conv_lhs => rw [h256]
        ring

theorem binArr2int_eq (arr : List Nat) : binArr2int arr = bitValue arr * 2 ^ padding arr.length := by
  have h1 := packbits_value arr.length arr 0 (Nat.le_refl _)
  rw [foldl_base] at h1
  unfold binArr2int
  simpa using h1

/-- **C60, bit vectors (partial).** `binArr2int` gives the number written by the bits when their count is a multiple of 8;
two vectors of 0/1 of the same length with the same number are equal. Missing: other lengths. -/
theorem C60_binArr2int_partial (arr : List Nat) (h : arr.length % 8 = 0) : binArr2int arr = bitValue arr := by
  rw [binArr2int_eq]
  have : padding arr.length = 0 := by unfold padding; omega
  rw [this]; simp

theorem bitValue_inj : ∀ (n : Nat) (a b : List Nat), a.length = n → b.length = n → (∀ x ∈ a, x ≤ 1) → (∀ x ∈ b, x ≤ 1) →
    bitValue a = bitValue b → a = b := by
  have hlt : ∀ l : List Nat, bitValue l < 2 ^ l.length := by
    intro l
    induction l with
    | nil => simp [bitValue]
    | cons x xs ih =>
      have : bitValue (x :: xs) = (2 * 0 + if x = 0 then 0 else 1) * 2 ^ xs.length + bitValue xs := by
        unfold bitValue; rw [List.foldl_cons, bitValue_from]; rfl
      rw [this, List.length_cons, pow_succ]
      split <;> omega
  intro n
  induction n with
  | zero => intro a b ha hb _ _ _; simp_all
  | succ n ih =>
    intro a b ha hb h1 h2 he
    cases a with
    | nil => simp at ha
    | cons x xs =>
      cases b with
      | nil => simp at hb
      | cons y ys =>
        have e : ∀ (x : Nat) (xs : List Nat), bitValue (x :: xs) = (if x = 0 then 0 else 1) * 2 ^ xs.length + bitValue xs := by
          intro x xs; unfold bitValue; rw [List.foldl_cons, bitValue_from]; simp [bitValue]
        rw [e, e] at he
        have lx := hlt xs
        have ly := hlt ys
        simp only [List.length_cons, Nat.add_right_cancel_iff] at ha hb
        rw [ha] at lx he; rw [hb] at ly he
        have hx : x ≤ 1 := h1 x (by simp)
        have hy : y ≤ 1 := h2 y (by simp)
        have hxy : x = y ∧ bitValue xs = bitValue ys := by
          have c1 : x = 0 ∨ x = 1 := by omega
          have c2 : y = 0 ∨ y = 1 := by omega
          rcases c1 with rfl | rfl <;> rcases c2 with rfl | rfl <;> simp at he ⊢ <;> omega
        rw [hxy.1, ih xs ys ha hb (fun z hz => h1 z (by simp [hz])) (fun z hz => h2 z (by simp [hz])) hxy.2]

/-- **C60, bit vectors are told apart.** Bit vectors of the same length with equal `binArr2int` are equal, whatever the
length. -/
theorem C60_binArr2int_injective (a b : List Nat) (h : a.length = b.length) (ha : ∀ x ∈ a, x ≤ 1) (hb : ∀ x ∈ b, x ≤ 1)
    (he : binArr2int a = binArr2int b) : a = b := by
  rw [binArr2int_eq, binArr2int_eq, h] at he
  exact bitValue_inj b.length a b h rfl ha hb (Nat.eq_of_mul_eq_mul_right (Nat.pow_pos (by norm_num)) he)

/-- **C60, negation.** For other lengths the number is not the one written by the bits: the single bit 1 gives 128. -/
theorem C60_negation_binArr2int : binArr2int [1] = 128 ∧ bitValue [1] = 1 := by decide

example : binArr2int [0, 0, 0, 0, 0, 1, 0, 1] = 5 := by decide

end Verif.Props
