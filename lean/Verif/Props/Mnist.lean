import Verif.Spec.Mnist
import Mathlib.Tactic.IntervalCases
import Mathlib.Tactic.Linarith
/-
Property theorems C175 (pybrain/tools/datasets/mnist.py).
-/
namespace Verif.Mnist
open Verif.Mnist.Spec

theorem beInt_be32 (n : Nat) (h : n < 2147483648) :
    beInt (Fin.ofNat 256 (n / 16777216)) (Fin.ofNat 256 (n / 65536)) (Fin.ofNat 256 (n / 256)) (Fin.ofNat 256 n) = n := by
  unfold beInt
  simp only [Fin.ofNat]
  have : ((n / 16777216 % 256 * 256 + n / 65536 % 256) * 256 + n / 256 % 256) * 256 + n % 256 = n := by omega
  have h2 : (((((n / 16777216 % 256 : Nat) : Int) * 256 + ((n / 65536 % 256 : Nat) : Int)) * 256 + ((n / 256 % 256 : Nat) : Int)) * 256 + ((n % 256 : Nat) : Int)) = (n : Int) := by
    omega
  rw [h2, if_pos (by omega)]

theorem labelLoop_all (ls rest : List Byte) : labelLoop ls.length (ls ++ rest) = (ls, none) := by
  induction ls with
  | nil => cases rest <;> rfl
  | cons l ls ih => simp only [List.length_cons, List.cons_append, labelLoop, ih]

theorem imageLoop_step (size : Nat) (n : Nat) (i rest : List Byte) (h : i.length = size) :
    imageLoop size (n + 1) (i ++ rest) = (i :: (imageLoop size n rest).1, (imageLoop size n rest).2) := by
  have h0 : ¬ ((size : Int) < 0) := by omega
  have ht : ((size : Int)).toNat = size := by omega
  simp only [imageLoop, if_neg h0, ht]
  rw [if_pos (by simp [h]), show (i ++ rest).take size = i from by rw [← h]; simp, show (i ++ rest).drop size = rest from by rw [← h]; simp]

theorem imageLoop_all (size : Nat) (imgs : List (List Byte)) (rest : List Byte) (h : ∀ i ∈ imgs, i.length = size) :
    imageLoop size imgs.length (imgs.flatten ++ rest) = (imgs, none) := by
  induction imgs with
  | nil => rfl
  | cons i imgs ih =>
    rw [List.flatten_cons, List.append_assoc, List.length_cons, imageLoop_step size _ i _ (h i (by simp)), ih (fun j hj => h j (by simp [hj]))]

theorem images_header (rows cols len : Nat) (rest : List Byte) (h1 : rows < 2147483648) (h2 : cols < 2147483648) (h3 : len < 2147483648) :
    images (be32 2051 ++ (be32 len ++ (be32 rows ++ (be32 cols ++ rest)))) = imageLoop ((rows * cols : Nat) : Int) len rest := by
  simp only [be32, List.cons_append, List.nil_append, images]
  rw [beInt_be32 2051 (by decide), beInt_be32 len h3, beInt_be32 rows h1, beInt_be32 cols h2, if_pos (Or.inr (by norm_num))]
  rw [Int.toNat_natCast]
  try push_cast
  try rfl

theorem labels_header (len : Nat) (rest : List Byte) (h : len < 2147483648) :
    labels .bytes (be32 2049 ++ (be32 len ++ rest)) = labelLoop len rest := by
  simp only [be32, List.cons_append, List.nil_append, labels]
  rw [beInt_be32 2049 (by decide), beInt_be32 len h, if_pos (Or.inl (by norm_num))]
  rw [Int.toNat_natCast]

theorem flatten_length (imgs : List (List Byte)) (n : Nat) (h : ∀ i ∈ imgs, i.length = n) : imgs.flatten.length = imgs.length * n := by
  induction imgs with
  | nil => simp
  | cons i imgs ih => rw [List.flatten_cons, List.length_append, h i (by simp), ih (fun j hj => h j (by simp [hj])), List.length_cons, Nat.add_mul]; omega

theorem flagged_ok (d : Nat) (h : d < 10) : flagged d 10 = .ok (oneHot d) := by
  interval_cases d <;> rfl

theorem imageLoop_cut (size : Nat) (hs : 0 < size) (imgs : List (List Byte)) (h : ∀ i ∈ imgs, i.length = size) (k : Nat) (hk : k < imgs.length * size) :
    imageLoop size imgs.length (imgs.flatten.take k) = (imgs.take (k / size), some .struct) := by
  induction imgs generalizing k with
  | nil => simp at hk
  | cons i imgs ih =>
    have hi := h i (by simp)
    rw [List.flatten_cons, List.length_cons]
    by_cases hlt : k < size
    · rw [Nat.div_eq_of_lt hlt, List.take_zero, List.take_append_of_le_length (by omega)]
      have h0 : ¬ ((size : Int) < 0) := by omega
      have ht : ((size : Int)).toNat = size := by omega
      simp only [imageLoop, if_neg h0, ht]
      rw [if_neg (by simp [hi]; omega)]
    · have : (i ++ imgs.flatten).take k = i ++ imgs.flatten.take (k - size) := by
        rw [List.take_append, List.take_of_length_le (by omega), hi]
      rw [this, imageLoop_step size _ i _ hi, ih (fun j hj => h j (by simp [hj])) (k - size) (by rw [List.length_cons, Nat.add_mul] at hk; omega)]
      have h2 : k / size = (k - size) / size + 1 := by
        rw [Nat.div_eq_sub_div hs (by omega)]
      rw [h2, List.take_succ_cons]

theorem load_all (imgs : List (List Byte)) (ls : List Byte) (acc : List (List Nat × List Nat)) (h : ∀ i ∈ imgs, i.length = 784) (hl : ∀ l ∈ ls, l.1 < 10) :
    load imgs none ls none acc = .ok (acc ++ samples imgs ls) := by
  induction imgs generalizing ls acc with
  | nil => cases ls <;> simp [load, samples]
  | cons i imgs ih =>
    cases ls with
    | nil => simp [load, samples]
    | cons l ls =>
      simp only [load, flagged_ok l.1 (hl l (by simp))]
      have hb : Verif.DataSet.broadcast 784 (i.map fun b => b.1) = some (i.map fun b => b.1) := by
        unfold Verif.DataSet.broadcast
        rw [if_pos (by simpa using h i (by simp))]
      rw [hb]
      simp only
      rw [ih ls _ (fun j hj => h j (by simp [hj])) (fun j hj => hl j (by simp [hj]))]
      simp [samples]

theorem loadSet_eq {m : Open} {f g : List Byte} {imgs : List (List Byte)} {ei el : Option MErr} {ls : List Byte} (h1 : images f = (imgs, ei)) (h2 : labels m g = (ls, el)) :
    loadSet m f g = load imgs ei ls el [] := by
  unfold loadSet
  rw [h1, h2]

theorem load_fail (i : List Byte) (imgs : List (List Byte)) (ei : Option MErr) (e : MErr) (acc : List (List Nat × List Nat)) : load (i :: imgs) ei [] (some e) acc = .error e := by
  simp only [load]

theorem make_ok {m : Open} {f1 f2 f3 f4 : List Byte} {a b : List (List Nat × List Nat)} (h1 : loadSet m f3 f4 = .ok b) (h2 : loadSet m f1 f2 = .ok a) :
    makeMnistDataSets m f1 f2 f3 f4 = .ok (a, b) := by
  unfold makeMnistDataSets
  rw [h1, h2]

theorem make_fail {m : Open} {f1 f2 f3 f4 : List Byte} {e : MErr} (h1 : loadSet m f3 f4 = .error e) : makeMnistDataSets m f1 f2 f3 f4 = .error e := by
  unfold makeMnistDataSets
  rw [h1]

theorem labelLoop_cut (n : Nat) (ls : List Byte) (h : ls.length < n) : labelLoop n ls = (ls, some .struct) := by
  induction ls generalizing n with
  | nil =>
    obtain ⟨m, rfl⟩ : ∃ m, n = m + 1 := ⟨n - 1, by simp at h; omega⟩
    rfl
  | cons l ls ih =>
    obtain ⟨m, rfl⟩ : ∃ m, n = m + 1 := ⟨n - 1, by simp at h; omega⟩
    simp only [labelLoop, ih m (by simpa using h)]

/-- the sets are built until a file ends early, which is reported -/
theorem load_cut (imgs : List (List Byte)) (ls : List Byte) (ei el : Option MErr) (acc : List (List Nat × List Nat)) (h : ∀ i ∈ imgs, i.length = 784) (hl : ∀ l ∈ ls, l.1 < 10)
    (he : (imgs.length ≤ ls.length ∧ ei = some .struct) ∨ (ls.length < imgs.length ∧ el = some .struct)) : load imgs ei ls el acc = .error .struct := by
  induction imgs generalizing ls acc with
  | nil =>
    rcases he with ⟨-, rfl⟩ | ⟨h1, -⟩
    · simp [load]
    · simp at h1
  | cons i imgs ih =>
    cases ls with
    | nil =>
      rcases he with ⟨h1, -⟩ | ⟨-, rfl⟩
      · simp at h1
      · simp [load]
    | cons l ls =>
      have hb : Verif.DataSet.broadcast 784 (i.map fun b => b.1) = some (i.map fun b => b.1) := by
        unfold Verif.DataSet.broadcast
        rw [if_pos (by simpa using h i (by simp))]
      simp only [load, flagged_ok l.1 (hl l (by simp)), hb]
      exact ih ls _ (fun j hj => h j (by simp [hj])) (fun j hj => hl j (by simp [hj])) (by simpa using he)

theorem load_label (imgs : List (List Byte)) (ls : List Byte) (ei el : Option MErr) (acc : List (List Nat × List Nat)) (h : ∀ i ∈ imgs, i.length = 784)
    (k : Nat) (hk : k < imgs.length) (l : Byte) (hl : ls[k]? = some l) (h10 : 10 ≤ l.1) : load imgs ei ls el acc = .error .index := by
  induction imgs generalizing ls acc k with
  | nil => simp at hk
  | cons i imgs ih =>
    cases ls with
    | nil => simp at hl
    | cons l' ls =>
      have hb : Verif.DataSet.broadcast 784 (i.map fun b => b.1) = some (i.map fun b => b.1) := by
        unfold Verif.DataSet.broadcast
        rw [if_pos (by simpa using h i (by simp))]
      by_cases h' : l'.1 < 10
      · simp only [load, flagged_ok l'.1 h', hb]
        cases k with
        | zero => simp at hl; subst hl; omega
        | succ k => exact ih ls _ (fun j hj => h j (by simp [hj])) k (by simpa using hk) (by simpa using hl)
      · simp only [load, flagged, if_neg h']

end Verif.Mnist

namespace Verif.Props
open Verif.Mnist Verif.Mnist.Spec

/-- **C175, images.** From a file written in the format of the database, with any number of images of any one size, `images()` yields exactly the images, whatever follows them
in the file, and raises nothing. -/
theorem C175_images (rows cols : Nat) (imgs : List (List Byte)) (h : GoodImages rows cols imgs) (rest : List Byte) :
    images (imageFile rows cols imgs ++ rest) = (imgs, none) := by
  unfold imageFile
  simp only [List.append_assoc]
  rw [images_header rows cols _ _ h.rows h.cols h.number]
  exact imageLoop_all _ imgs rest h.size

/-- **C175, labels.** Where files are opened as bytes, `labels()` yields exactly the labels of a file written in the format. -/
theorem C175_labels (ls : List Byte) (h : ls.length < 2147483648) (rest : List Byte) : labels .bytes (labelFile ls ++ rest) = (ls, none) := by
  unfold labelFile
  simp only [List.append_assoc]
  rw [labels_header _ _ h]
  exact labelLoop_all ls rest

/-- **C175, datasets.** Four files of the format with images of 28 by 28 pixels and labels below ten: where files are opened as bytes, `makeMnistDataSets()` returns the training
set and then the test set; each holds its images in order, each with the vector that has its single one at the label. -/
theorem C175_datasets (tr te : List (List Byte)) (trl tel : List Byte) (h1 : GoodImages 28 28 tr) (h2 : GoodImages 28 28 te)
    (h3 : trl.length = tr.length) (h4 : tel.length = te.length) (h5 : ∀ l ∈ trl, l.1 < 10) (h6 : ∀ l ∈ tel, l.1 < 10) :
    makeMnistDataSets .bytes (imageFile 28 28 tr) (labelFile trl) (imageFile 28 28 te) (labelFile tel) = .ok (samples tr trl, samples te tel) ∧
      (samples tr trl).length = tr.length ∧ (samples te tel).length = te.length := by
  have e : ∀ (imgs : List (List Byte)) (ls : List Byte), GoodImages 28 28 imgs → ls.length = imgs.length → (∀ l ∈ ls, l.1 < 10) →
      loadSet .bytes (imageFile 28 28 imgs) (labelFile ls) = .ok (samples imgs ls) := by
    intro imgs ls g1 g2 g3
    have a := C175_images 28 28 imgs g1 []
    have b := C175_labels ls (by rw [g2]; exact g1.number) []
    rw [List.append_nil] at a b
    rw [loadSet_eq a b]
    have := load_all imgs ls [] (fun i hi => (g1.size i hi).trans (by norm_num)) g3
    simpa using this
  refine ⟨?_, by simp [samples, h3], by simp [samples, h4]⟩
  exact make_ok (e te tel h2 h4 h6) (e tr trl h1 h3 h5)

/-- the vector of a digit has ten entries, a one at the digit and zeros elsewhere -/
theorem C175_one_hot (d : Nat) : (oneHot d).length = 10 ∧ ∀ i < 10, (oneHot d).getD i 7 = if i = d then 1 else 0 := by
  refine ⟨by simp [oneHot], fun i hi => ?_⟩
  simp [oneHot, List.getD_eq_getElem?_getD, hi]

/-- **C175, cut files.** Of a file that was cut off anywhere, `images()` yields the images that are complete and then raises; it never yields a wrong image. -/
theorem C175_cut (rows cols : Nat) (imgs : List (List Byte)) (h : GoodImages rows cols imgs) (hs : 0 < rows * cols) (k : Nat) (hk : k < (imageFile rows cols imgs).length) :
    images ((imageFile rows cols imgs).take k) = (imgs.take ((k - 16) / (rows * cols)), some .struct) := by
  have hlen := flatten_length imgs _ h.size
  by_cases h16 : k < 16
  · have h0 : (k - 16) / (rows * cols) = 0 := by rw [Nat.sub_eq_zero_of_le (by omega)]; simp
    rw [h0, List.take_zero]
    simp only [imageFile, be32, List.cons_append, List.nil_append]
    interval_cases k <;> rfl
  · obtain ⟨m, rfl⟩ : ∃ m, k = m + 16 := ⟨k - 16, by omega⟩
    have ht : (imageFile rows cols imgs).take (m + 16) = be32 2051 ++ (be32 imgs.length ++ (be32 rows ++ (be32 cols ++ imgs.flatten.take m))) := by
      simp [imageFile, be32]
    rw [ht, images_header rows cols _ _ h.rows h.cols h.number, Nat.add_sub_cancel]
    refine imageLoop_cut _ hs imgs h.size m ?_
    have : (imageFile rows cols imgs).length = 16 + imgs.flatten.length := by
      simp only [imageFile, be32, List.length_append, List.length_cons, List.length_nil]; omega
    omega

/-- **C175, cut files of labels.** Of a file of labels that was cut off anywhere, `labels()` yields the labels that are there and then raises. -/
theorem C175_cut_labels (ls : List Byte) (h : ls.length < 2147483648) (k : Nat) (hk : k < (labelFile ls).length) :
    labels .bytes ((labelFile ls).take k) = (ls.take (k - 8), some .struct) := by
  by_cases h8 : k < 8
  · rw [Nat.sub_eq_zero_of_le (by omega), List.take_zero]
    simp only [labelFile, be32, List.cons_append, List.nil_append]
    interval_cases k <;> rfl
  · obtain ⟨m, rfl⟩ : ∃ m, k = m + 8 := ⟨k - 8, by omega⟩
    have ht : (labelFile ls).take (m + 8) = be32 2049 ++ (be32 ls.length ++ ls.take m) := by simp [labelFile, be32]
    have hl : (labelFile ls).length = 8 + ls.length := by
      simp only [labelFile, be32, List.length_append, List.length_cons, List.length_nil]; omega
    rw [ht, labels_header _ _ h, Nat.add_sub_cancel]
    exact labelLoop_cut _ _ (by rw [List.length_take]; omega)

/-- **C175, incomplete sets.** If the file of images or that of labels was cut off, anywhere, and there should be at least one image, no data set is returned: the exception reaches the caller. -/
theorem C175_cut_sets (imgs : List (List Byte)) (ls : List Byte) (h : GoodImages 28 28 imgs) (hne : imgs ≠ []) (hl : ls.length = imgs.length)
    (h10 : ∀ l ∈ ls, l.1 < 10) (k : Nat) :
    (k < (imageFile 28 28 imgs).length → loadSet .bytes ((imageFile 28 28 imgs).take k) (labelFile ls) = .error .struct) ∧
      (k < (labelFile ls).length → loadSet .bytes (imageFile 28 28 imgs) ((labelFile ls).take k) = .error .struct) := by
  have hn : ls.length < 2147483648 := hl ▸ h.number
  refine ⟨fun hk => ?_, fun hk => ?_⟩
  · have b := C175_labels ls hn []
    rw [List.append_nil] at b
    rw [loadSet_eq (C175_cut 28 28 imgs h (by norm_num) k hk) b]
    exact load_cut _ _ _ _ _ (fun i hi => (h.size i (List.mem_of_mem_take hi)).trans (by norm_num)) h10 (.inl ⟨by rw [List.length_take]; omega, rfl⟩)
  · have a := C175_images 28 28 imgs h []
    rw [List.append_nil] at a
    rw [loadSet_eq a (C175_cut_labels ls hn k hk)]
    have h3 : (labelFile ls).length = 8 + ls.length := by
      simp only [labelFile, be32, List.length_append, List.length_cons, List.length_nil]; omega
    have h4 : imgs.length ≠ 0 := fun e => hne (List.length_eq_zero_iff.1 e)
    exact load_cut _ _ _ _ _ (fun i hi => (h.size i hi).trans (by norm_num)) (fun l hl' => h10 l (List.mem_of_mem_take hl')) (.inr ⟨by rw [List.length_take]; omega, rfl⟩)

/-- **C175, other files.** A file whose first number is neither of the two magic numbers is refused by both readers before anything is yielded. -/
theorem C175_foreign (magic : Nat) (hm : magic < 2147483648) (h1 : magic ≠ 2049) (h2 : magic ≠ 2051) (rest : List Byte) :
    (4 ≤ rest.length → labels .bytes (be32 magic ++ rest) = ([], some .assertion)) ∧ (12 ≤ rest.length → images (be32 magic ++ rest) = ([], some .assertion)) := by
  have e : ¬ (((magic : Nat) : Int) = 2049 ∨ ((magic : Nat) : Int) = 2051) := by omega
  refine ⟨fun h => ?_, fun h => ?_⟩
  · match rest, h with
    | a :: b :: c :: d :: r, _ =>
      simp only [be32, List.cons_append, List.nil_append, labels]
      rw [beInt_be32 magic hm, if_neg e]
  · match rest, h with
    | a :: b :: c :: d :: a' :: b' :: c' :: d' :: a2 :: b2 :: c2 :: d2 :: r, _ =>
      simp only [be32, List.cons_append, List.nil_append, images]
      rw [beInt_be32 magic hm, if_neg e]

/-- **C175, labels that are no digits.** If the label of some image is ten or more, IndexError is raised and no set is returned. -/
theorem C175_digits (imgs : List (List Byte)) (ls : List Byte) (h : GoodImages 28 28 imgs) (hl : ls.length < 2147483648) (k : Nat) (hk : k < imgs.length)
    (l : Byte) (h1 : ls[k]? = some l) (h10 : 10 ≤ l.1) : loadSet .bytes (imageFile 28 28 imgs) (labelFile ls) = .error .index := by
  have a := C175_images 28 28 imgs h []
  have b := C175_labels ls hl []
  rw [List.append_nil] at a b
  rw [loadSet_eq a b]
  exact load_label _ _ _ _ _ (fun i hi => (h.size i hi).trans (by norm_num)) k hk l h1 h10

/-- **C175, negative sizes.** If the header announces a negative size and pixels follow, nothing is yielded and an exception is raised. -/
theorem C175_negative (a b c d e f g h : Byte) (n : Nat) (hn : n < 2147483648) (h0 : 0 < n) (hs : beInt a b c d * beInt e f g h < 0) (p : Byte) (rest : List Byte) :
    images (be32 2051 ++ (be32 n ++ (a :: b :: c :: d :: e :: f :: g :: h :: p :: rest))) = ([], some .struct) := by
  obtain ⟨m, rfl⟩ : ∃ m, n = m + 1 := ⟨n - 1, by omega⟩
  simp only [be32, List.cons_append, List.nil_append, images]
  rw [beInt_be32 2051 (by decide), beInt_be32 _ hn, if_pos (Or.inr (by norm_num)), Int.toNat_natCast]
  simp only [imageLoop, if_pos hs]
  rw [if_neg]
  rw [Int.toNat_of_nonpos (le_of_lt hs)]
  simp

/-- **C175 fails in Python 3**: the file of labels is opened as text, so that for every file `labels()` yields nothing and raises, and `makeMnistDataSets()` raises whenever the file of the
test images holds a single image. -/
theorem C175_negation_text (decodes : Bool) (trainImages trainLabels testLabels : List Byte) (rows cols : Nat) (i : List Byte) (imgs : List (List Byte))
    (h : GoodImages rows cols (i :: imgs)) :
    (labels (.text decodes) testLabels).1 = [] ∧ (labels (.text decodes) testLabels).2 ≠ none ∧
      ∃ e, makeMnistDataSets (.text decodes) trainImages trainLabels (imageFile rows cols (i :: imgs)) testLabels = .error e := by
  have a := C175_images rows cols (i :: imgs) h []
  rw [List.append_nil] at a
  refine ⟨by cases decodes <;> rfl, by cases decodes <;> simp [labels], ?_⟩
  obtain ⟨e, he⟩ : ∃ e, labels (.text decodes) testLabels = ([], some e) := by cases decodes <;> exact ⟨_, rfl⟩
  exact ⟨e, make_fail ((loadSet_eq a he).trans (load_fail _ _ _ _ _))⟩

/-- **C175 fails for files given in place of each other**: the magic number of either kind of file is accepted for both kinds. A file of images read as a file of labels yields
the bytes of its header and first pixels as labels. -/
theorem C175_negation_magic (rows cols : Nat) (imgs : List (List Byte)) (h : GoodImages rows cols imgs) (hs : 0 < rows * cols) :
    ∃ ls, labels .bytes (imageFile rows cols imgs) = (ls, none) ∧ ls.length = imgs.length := by
  have key : ∀ (n : Nat) (l : List Byte), n ≤ l.length → ∃ ls, labelLoop n l = (ls, none) ∧ ls.length = n := by
    intro n
    induction n with
    | zero => intro l _; exact ⟨[], by cases l <;> rfl, rfl⟩
    | succ n ih =>
      intro l hl
      cases l with
      | nil => simp at hl
      | cons b bs =>
        obtain ⟨ls, h1, h2⟩ := ih bs (by simpa using hl)
        exact ⟨b :: ls, by simp only [labelLoop, h1], by simp [h2]⟩
  have hlen := flatten_length imgs _ h.size
  obtain ⟨ls, h1, h2⟩ := key imgs.length (be32 rows ++ (be32 cols ++ imgs.flatten)) (by
    rw [List.length_append, List.length_append, hlen]
    have : imgs.length ≤ imgs.length * (rows * cols) := Nat.le_mul_of_pos_right _ hs
    omega)
  refine ⟨ls, ?_, h2⟩
  rw [← h1]
  simp only [imageFile, be32, List.cons_append, List.nil_append, labels]
  rw [beInt_be32 2051 (by decide), beInt_be32 _ h.number, if_pos (Or.inr (by norm_num))]
  rw [Int.toNat_natCast]
  try push_cast
  try rfl

/-- **C175 fails for files of different lengths**: surplus images, or labels, are dropped without an exception. -/
theorem C175_negation_surplus (imgs : List (List Byte)) (ls : List Byte) (h : GoodImages 28 28 imgs) (hl : ls.length < 2147483648) (h10 : ∀ l ∈ ls, l.1 < 10) :
    ∃ set, loadSet .bytes (imageFile 28 28 imgs) (labelFile ls) = .ok set ∧ set.length = min imgs.length ls.length := by
  have a := C175_images 28 28 imgs h []
  have b := C175_labels ls hl []
  rw [List.append_nil] at a b
  refine ⟨samples imgs ls, ?_, by simp [samples]⟩
  rw [loadSet_eq a b]
  have := load_all imgs ls [] (fun i hi => (h.size i hi).trans (by norm_num)) h10
  simpa using this

/-- The hypotheses are met: two images of 28 by 28 pixels, and of 1 by 2. -/
example : GoodImages 28 28 [List.replicate (28 * 28) 3, List.replicate (28 * 28) 255] ∧ GoodImages 1 2 [[1, 2], [3, 4]] ∧ ∀ l ∈ ([7, 0] : List Byte), l.1 < 10 := by
  refine ⟨⟨?_, by norm_num [List.length_cons, -List.length_replicate], by norm_num, by norm_num⟩, ⟨by simp, by norm_num, by norm_num, by norm_num⟩, fun l hl => by simp at hl; rcases hl with rfl | rfl <;> decide⟩
  intro i hi
  rw [List.mem_cons, List.mem_singleton] at hi
  rcases hi with rfl | rfl
  · exact List.length_replicate
  · exact List.length_replicate

end Verif.Props
