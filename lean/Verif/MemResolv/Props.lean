import Verif.MemResolv.Spec
import Mathlib.Tactic.Ring
import Mathlib.Data.List.Basic

/-!
# C46: copying a set of chunks of memory relocates the pointers between them
-/

namespace Verif.MemResolv

/-! ## Words and bytes -/

theorem bytesOf_length (n w : Nat) : (bytesOf n w).length = n := by
  induction n generalizing w with
  | zero => rfl
  | succ n ih => simp [bytesOf, ih]

theorem wordOf_bytesOf (n w : Nat) : wordOf (bytesOf n w) = w % 256 ^ n := by
  induction n generalizing w with
  | zero => simp [bytesOf, wordOf, Nat.mod_one]
  | succ n ih =>
    simp only [bytesOf, wordOf, ih, BitVec.toNat_ofNat]
    rw [Nat.pow_succ' (m := 256), Nat.mod_mul (a := 256)]

theorem readMem_length (mem : Nat → Byte) (p n : Nat) : (readMem mem p n).length = n := by simp [readMem]

theorem slice_readMem (mem : Nat → Byte) (p n o m : Nat) (h : o + m ≤ n) :
    slice (readMem mem p n) o m = readMem mem (p + o) m := by
  apply List.ext_getElem
  · simp [slice, readMem]; omega
  · intro i h1 h2
    simp [slice, readMem, Nat.add_assoc]

theorem adjustWords_length (off : Int) (offs : List (Nat × Int)) (n : Nat) (l : List Byte) (h : l.length = 8 * n) :
    (adjustWords off offs n l).length = l.length := by
  induction n generalizing l with
  | zero => rfl
  | succ n ih =>
    simp only [adjustWords, List.length_append, bytesOf_length]
    rw [ih _ (by simp; omega)]
    simp; omega

theorem adjustWord_lt (off : Int) (offs : List (Nat × Int)) (v : Nat) (h : v < 2 ^ 64) :
    adjustWord off offs v < 2 ^ 64 := by
  unfold adjustWord
  split
  · have h1 := Int.emod_nonneg ((v : Int) + (correctionForHoles v offs + off)) (b := 2 ^ 64) (by decide)
    have h2 := Int.emod_lt_of_pos ((v : Int) + (correctionForHoles v offs + off)) (b := 2 ^ 64) (by decide)
    omega
  · exact h

theorem wordOf_lt (l : List Byte) : wordOf l < 256 ^ l.length := by
  induction l with
  | nil => simp [wordOf]
  | cons b l ih =>
    have := b.isLt
    simp only [wordOf, List.length_cons, Nat.pow_succ]
    omega

theorem adjustWords_word (off : Int) (offs : List (Nat × Int)) (n : Nat) (l : List Byte) (w : Nat)
    (h : l.length = 8 * n) (hw : w < n) :
    wordOf (slice (adjustWords off offs n l) (8 * w) 8) = adjustWord off offs (wordOf (slice l (8 * w) 8)) := by
  induction n generalizing l w with
  | zero => omega
  | succ n ih =>
    have hb : (bytesOf 8 (adjustWord off offs (wordOf (l.take 8)))).length = 8 := bytesOf_length _ _
    cases w with
    | zero =>
      simp only [adjustWords, slice, Nat.mul_zero, List.drop_zero]
      rw [List.take_left' hb, wordOf_bytesOf]
      apply Nat.mod_eq_of_lt
      have := adjustWord_lt off offs (wordOf (l.take 8)) (by
        have := wordOf_lt (l.take 8)
        rw [List.length_take, Nat.min_eq_left (by omega)] at this
        exact this)
      exact this
    | succ w =>
      have := ih (l.drop 8) w (by simp; omega) (by omega)
      simp only [slice] at this
      simp only [adjustWords, slice]
      rw [List.drop_append, List.drop_eq_nil_of_le (by omega), List.nil_append, hb,
        show 8 * (w + 1) - 8 = 8 * w by omega, this, List.drop_drop, show 8 + 8 * w = 8 * (w + 1) by omega]

/-! ## Sizes -/

/-- Size in the image of the hole between two chunks. -/
def hole (a b : Chunk) : Nat := (b.ptr - (a.ptr + a.length)) % 8

/-- Place of chunk `i` of `p :: rest`. -/
def off (p : Chunk) : List Chunk → Nat → Nat
  | _, 0 => 0
  | [], _ + 1 => 0
  | c :: r, i + 1 => p.length + hole p c + off c r i

/-- Size of the image. -/
def sizeOf' (p : Chunk) : List Chunk → Nat
  | [] => p.length
  | c :: r => p.length + hole p c + sizeOf' c r

/-- Table of the holes. -/
def holesOf (p : Chunk) : List Chunk → List (Nat × Int)
  | [] => []
  | c :: r => (c.ptr, (hole p c : Int) - (c.ptr - (p.ptr + p.length) : Nat)) :: holesOf c r

theorem sizes_loop (p : Chunk) (rest : List Chunk) (h : Ordered (p :: rest)) (t m : Nat) (o : List (Nat × Int)) :
    ∃ m', m ≤ m' ∧ (∀ i a b, (p :: rest)[i]? = some a → (p :: rest)[i + 1]? = some b → hole a b ≤ m') ∧
      ∃ e, rest.foldlM sizesStep (⟨t, m, o⟩, p.ptr + p.length) =
        .ok (⟨t + (sizeOf' p rest - p.length), m', o ++ holesOf p rest⟩, e) := by
  induction rest generalizing p t m o with
  | nil => exact ⟨m, le_refl _, by simp, _, by simp [sizeOf', holesOf]; rfl⟩
  | cons c r ih =>
    have hc : p.ptr + p.length ≤ c.ptr := (List.isChain_cons_cons.1 h).1
    obtain ⟨m', hm, hh, e, he⟩ := ih c (List.isChain_cons_cons.1 h).2 (t + c.length + hole p c)
      (if hole p c > m then hole p c else m)
      (o ++ [(c.ptr, (hole p c : Int) - (c.ptr - (p.ptr + p.length) : Nat))])
    refine ⟨m', by split at hm <;> omega, ?_, e, ?_⟩
    · intro i a b ha hb
      cases i with
      | zero =>
        simp only [List.getElem?_cons_zero, Option.some.injEq, Nat.zero_add, List.getElem?_cons_succ] at ha hb
        subst ha hb
        split at hm <;> omega
      | succ i => exact hh i a b (by simpa using ha) (by simpa using hb)
    · rw [List.foldlM_cons]
      have : sizesStep (⟨t, m, o⟩, p.ptr + p.length) c = .ok (⟨t + c.length + hole p c,
          if hole p c > m then hole p c else m,
          o ++ [(c.ptr, (hole p c : Int) - (c.ptr - (p.ptr + p.length) : Nat))]⟩, c.ptr + c.length) := by
        unfold sizesStep
        simp only
        rw [if_neg (by omega)]
        rfl
      rw [this]
      show List.foldlM sizesStep _ r = _
      rw [he]
      have h1 : c.length ≤ sizeOf' c r := by cases r <;> simp [sizeOf']; omega
      simp only [holesOf, List.append_assoc, List.singleton_append, sizeOf']
      congr 3
      omega

theorem findSizes_ok (p : Chunk) (rest : List Chunk) (h : Ordered (p :: rest)) :
    ∃ m, (∀ i a b, (p :: rest)[i]? = some a → (p :: rest)[i + 1]? = some b → hole a b ≤ m) ∧
      findSizes (p :: rest) = .ok ⟨sizeOf' p rest, m, holesOf p rest⟩ := by
  obtain ⟨m, _, hh, e, he⟩ := sizes_loop p rest h p.length 1 []
  refine ⟨m, hh, ?_⟩
  have h1 : p.length ≤ sizeOf' p rest := by cases rest <;> simp [sizeOf']; omega
  simp only [findSizes, he, bind, Except.bind, pure, Except.pure, List.nil_append]
  rw [show p.length + (sizeOf' p rest - p.length) = sizeOf' p rest by omega]

theorem sizes_refuse (p : Chunk) (rest : List Chunk) (h : ¬Ordered (p :: rest)) (s : Sizes) :
    rest.foldlM sizesStep (s, p.ptr + p.length) = throwOut := by
  induction rest generalizing p s with
  | nil => exact absurd (List.isChain_singleton _) h
  | cons c r ih =>
    rw [List.foldlM_cons]
    by_cases hc : c.ptr < p.ptr + p.length
    · have : sizesStep (s, p.ptr + p.length) c = throwOut := by simp [sizesStep, hc]
      rw [this]; rfl
    · have hr : ¬Ordered (c :: r) := fun hr => h (List.isChain_cons_cons.2 ⟨by omega, hr⟩)
      simp only [sizesStep, hc, if_false]
      exact ih c hr _

/-! ## Relocation -/

theorem ptr_mono (p : Chunk) (rest : List Chunk) (h : Ordered (p :: rest)) (j : Nat) (c : Chunk)
    (hc : (p :: rest)[j]? = some c) : p.ptr ≤ c.ptr := by
  induction rest generalizing p j with
  | nil =>
    cases j with
    | zero => simp at hc; rw [hc]
    | succ j => simp at hc
  | cons d r ih =>
    cases j with
    | zero => simp at hc; rw [hc]
    | succ j =>
      have h1 := (List.isChain_cons_cons.1 h)
      have := ih d h1.2 j (by simpa using hc)
      have := h1.1
      omega

theorem correction (p : Chunk) (rest : List Chunk) (h : Ordered (p :: rest)) (j : Nat) (c : Chunk) (k : Nat)
    (hc : (p :: rest)[j]? = some c) (hk : k ≤ c.length) :
    ((c.ptr + k : Nat) : Int) - p.ptr + correctionForHoles (c.ptr + k) (holesOf p rest) = off p rest j + k := by
  induction rest generalizing p j c k with
  | nil =>
    cases j with
    | zero => simp at hc; subst hc; simp [holesOf, correctionForHoles, off]
    | succ j => simp at hc
  | cons d r ih =>
    have h1 := List.isChain_cons_cons.1 h
    have hd := h1.1
    simp only [holesOf, correctionForHoles]
    cases j with
    | zero =>
      simp at hc; subst hc
      by_cases hlt : p.ptr + k < d.ptr
      · rw [if_pos hlt]; simp [off]
      · have e : d.ptr = p.ptr + p.length := by omega
        have e2 : k = p.length := by omega
        rw [if_neg hlt]
        have := ih d h1.2 0 d 0 (by simp) (by omega)
        simp only [Nat.add_zero, off] at this
        have hh : hole p d = 0 := by unfold hole; rw [e]; simp
        rw [hh]
        rw [show p.ptr + k = d.ptr by omega]
        simp only [off]
        omega
    | succ j =>
      have hc' : (d :: r)[j]? = some c := by simpa using hc
      have hm := ptr_mono d r h1.2 j c hc'
      rw [if_neg (by omega)]
      have := ih d h1.2 j c k hc' hk
      simp only [off]
      push_cast at this ⊢
      omega

theorem off_le (p : Chunk) (rest : List Chunk) (j : Nat) (c : Chunk) (hc : (p :: rest)[j]? = some c) :
    off p rest j + c.length ≤ sizeOf' p rest := by
  induction rest generalizing p j with
  | nil =>
    cases j with
    | zero => simp at hc; subst hc; simp [off, sizeOf']
    | succ j => simp at hc
  | cons d r ih =>
    cases j with
    | zero => simp at hc; subst hc; simp only [off, sizeOf']; omega
    | succ j =>
      have := ih d j (by simpa using hc)
      simp only [off, sizeOf']; omega

theorem adjust_spec (p : Chunk) (rest : List Chunk) (h : Ordered (p :: rest)) (hs : Sound (p :: rest)) (newStart : Nat)
    (hn : newStart + sizeOf' p rest < 2 ^ 64) (v : Nat) :
    Relocated (p :: rest) (off p rest) newStart v
      (adjustWord ((newStart : Int) - p.ptr) (holesOf p rest) v) := by
  refine ⟨fun h0 => by simp [adjustWord, h0], ?_⟩
  intro j c k hc hk hv
  have h0 : v ≠ 0 := by
    have := (hs c (List.mem_of_getElem? hc)).2.1
    omega
  have h1 := correction p rest h j c k hc hk
  have h2 := off_le p rest j c hc
  rw [hv] at h0 ⊢
  simp only [adjustWord, h0, ne_eq, not_false_eq_true, if_true]
  rw [show ((c.ptr + k : Nat) : Int) + (correctionForHoles (c.ptr + k) (holesOf p rest) + ((newStart : Int) - p.ptr)) =
    ((newStart + off p rest j + k : Nat) : Int) by push_cast at h1 ⊢; omega]
  rw [Int.emod_eq_of_lt (by omega) (by
    have : newStart + off p rest j + k < 2 ^ 64 := by omega
    exact_mod_cast this)]
  rfl

/-! ## The image -/

/-- What is copied of a chunk. -/
def cdata (mem : Nat → Byte) (offset : Int) (offs : List (Nat × Int)) (c : Chunk) : List Byte :=
  if c.kind = .heapPtr then adjustWords offset offs (c.length / 8) (readMem mem c.ptr c.length)
  else readMem mem c.ptr c.length

theorem copyData_ok (mem : Nat → Byte) (offset : Int) (offs : List (Nat × Int)) (c : Chunk) (h0 : 0 < c.length)
    (h8 : c.kind = .heapPtr → 8 ∣ c.length) :
    copyData mem offset offs c = .ok (cdata mem offset offs c) := by
  unfold copyData cdata
  by_cases hk : c.kind = .heapPtr
  · have := h8 hk
    simp only [hk, if_true, adjustPointer, readMem_length]
    rw [if_neg (by omega)]
  · simp [hk]

theorem cdata_length (mem : Nat → Byte) (offset : Int) (offs : List (Nat × Int)) (c : Chunk)
    (h8 : c.kind = .heapPtr → 8 ∣ c.length) : (cdata mem offset offs c).length = c.length := by
  unfold cdata
  split
  · rename_i hk
    have := h8 hk
    rw [adjustWords_length _ _ _ _ (by rw [readMem_length]; omega), readMem_length]
  · exact readMem_length _ _ _

/-- The image after the copy of `p`. -/
def tailImg (mem : Nat → Byte) (offset : Int) (offs : List (Nat × Int)) (fill : Byte) (p : Chunk) :
    List Chunk → List Byte
  | [] => []
  | c :: r => List.replicate (hole p c) fill ++ (cdata mem offset offs c ++ tailImg mem offset offs fill c r)

theorem sizeOf'_ge (p : Chunk) (r : List Chunk) : p.length ≤ sizeOf' p r := by cases r <;> simp [sizeOf']; omega

theorem copy_loop (mem : Nat → Byte) (z : Zeroes) (offset : Int) (offs : List (Nat × Int)) (p : Chunk)
    (rest : List Chunk) (h : Ordered (p :: rest)) (hs : Sound (p :: rest))
    (hz : ∀ i a b, (p :: rest)[i]? = some a → (p :: rest)[i + 1]? = some b → hole a b < z.len)
    (img : List Byte) (total : Nat) (ht : img.length + (sizeOf' p rest - p.length) = total) :
    ∃ e, rest.foldlM (copyStep mem z total offset offs) (img, p.ptr + p.length) =
      .ok (img ++ tailImg mem offset offs z.value p rest, e) := by
  induction rest generalizing p img with
  | nil => exact ⟨_, by simp [tailImg]; rfl⟩
  | cons c r ih =>
    have h1 := List.isChain_cons_cons.1 h
    have hc := h1.1
    have hcs := hs c (by simp)
    have hg := sizeOf'_ge c r
    simp only [sizeOf'] at ht
    have hhole := hz 0 p c (by simp) (by simp)
    obtain ⟨e, he⟩ := ih c h1.2 (fun d hd => hs d (List.mem_cons_of_mem _ hd))
      (fun i a b ha hb => hz (i + 1) a b (by simpa using ha) (by simpa using hb))
      (img ++ List.replicate (hole p c) z.value ++ cdata mem offset offs c)
      (by simp [cdata_length _ _ _ _ hcs.2.2]; omega)
    refine ⟨e, ?_⟩
    rw [List.foldlM_cons]
    have hstep : copyStep mem z total offset offs (img, p.ptr + p.length) c =
        .ok (img ++ List.replicate (hole p c) z.value ++ cdata mem offset offs c, c.ptr + c.length) := by
      unfold copyStep
      simp only
      rw [if_neg (by omega), if_neg (by omega), if_neg (by unfold hole at hhole; omega),
        copyData_ok _ _ _ _ hcs.1 hcs.2.2]
      simp only [write, List.length_replicate]
      rw [show (c.ptr - (p.ptr + p.length)) % 8 = hole p c from rfl, if_neg (by omega)]
      simp only [bind, Except.bind, List.length_append, List.length_replicate, cdata_length _ _ _ _ hcs.2.2]
      rw [if_neg (by omega)]
      rfl
    rw [hstep]
    show List.foldlM _ _ r = _
    rw [he]
    simp [tailImg]

theorem tailImg_length (mem : Nat → Byte) (offset : Int) (offs : List (Nat × Int)) (fill : Byte) (p : Chunk)
    (rest : List Chunk) (hs : Sound (p :: rest)) :
    p.length + (tailImg mem offset offs fill p rest).length = sizeOf' p rest := by
  induction rest generalizing p with
  | nil => simp [tailImg, sizeOf']
  | cons c r ih =>
    have := ih c (fun d hd => hs d (List.mem_cons_of_mem _ hd))
    simp [tailImg, sizeOf', cdata_length _ _ _ _ (hs c (by simp)).2.2]
    omega

/-- The whole image. -/
def image (mem : Nat → Byte) (newStart : Int) (offs : List (Nat × Int)) (fill : Byte) (p : Chunk)
    (rest : List Chunk) : List Byte := cdata mem newStart offs p ++ tailImg mem newStart offs fill p rest

theorem slice_append_right (a b : List Byte) (n o m : Nat) (h : a.length = n) :
    slice (a ++ b) (n + o) m = slice b o m := by
  subst h
  simp [slice]

theorem slice_append_left (a b : List Byte) (o m : Nat) (h : o + m ≤ a.length) :
    slice (a ++ b) o m = slice a o m := by
  simp only [slice]
  rw [List.drop_append_of_le_length (by omega), List.take_append_of_le_length (by simp; omega)]

theorem image_slice (mem : Nat → Byte) (offset : Int) (offs : List (Nat × Int)) (fill : Byte) (p : Chunk)
    (rest : List Chunk) (hs : Sound (p :: rest)) (i : Nat) (c : Chunk) (hc : (p :: rest)[i]? = some c) (o m : Nat)
    (hm : o + m ≤ c.length) :
    slice (image mem offset offs fill p rest) (off p rest i + o) m = slice (cdata mem offset offs c) o m := by
  induction rest generalizing p i with
  | nil =>
    cases i with
    | zero => simp at hc; subst hc; simp [image, tailImg, off]
    | succ i => simp at hc
  | cons d r ih =>
    have hp := cdata_length mem offset offs p (hs p (by simp)).2.2
    cases i with
    | zero =>
      simp at hc; subst hc
      rw [off, Nat.zero_add, image, slice_append_left _ _ _ _ (by omega)]
    | succ i =>
      have := ih d (fun e he => hs e (List.mem_cons_of_mem _ he)) i (by simpa using hc)
      rw [← this, image, tailImg, ← List.append_assoc, off, show p.length + hole p d + off d r i + o =
        (p.length + hole p d) + (off d r i + o) by omega, slice_append_right _ _ _ _ _ (by simp [hp])]
      rfl

theorem off_layout (p : Chunk) (rest : List Chunk) : Layout (p :: rest) (off p rest) := by
  refine ⟨by cases rest <;> rfl, ?_⟩
  intro i a b ha hb
  induction rest generalizing p i with
  | nil => simp at hb
  | cons d r ih =>
    cases i with
    | zero =>
      simp at ha hb; subst ha hb
      simp [off, hole]
    | succ i =>
      have := ih d i (by simpa using ha) (by simpa using hb)
      rw [off, this, off]; omega

theorem image_hole (mem : Nat → Byte) (offset : Int) (offs : List (Nat × Int)) (fill : Byte) (p : Chunk)
    (rest : List Chunk) (hs : Sound (p :: rest)) (i : Nat) (a b : Chunk) (k : Nat) (ha : (p :: rest)[i]? = some a)
    (hb : (p :: rest)[i + 1]? = some b) (h1 : off p rest i + a.length ≤ k) (h2 : k < off p rest (i + 1)) :
    (image mem offset offs fill p rest)[k]? = some fill := by
  induction rest generalizing p i k with
  | nil => simp at hb
  | cons d r ih =>
    have hp := cdata_length mem offset offs p (hs p (by simp)).2.2
    cases i with
    | zero =>
      simp at ha hb; subst ha hb
      simp only [off, Nat.zero_add, Nat.add_zero] at h1 h2
      rw [image, tailImg, List.getElem?_append_right (by omega), List.getElem?_append_left (by simp; omega),
        List.getElem?_replicate, if_pos (by omega)]
    | succ i =>
      simp only [off] at h1 h2
      have := ih d (fun e he => hs e (List.mem_cons_of_mem _ he)) i (k - (p.length + hole p d)) (by simpa using ha)
        (by simpa using hb) (by omega) (by cases r <;> simp only [off] at h2 ⊢ <;> omega)
      rw [image, tailImg, ← List.append_assoc, List.getElem?_append_right (by simp; omega)]
      rw [show k - (cdata mem offset offs p ++ List.replicate (hole p d) fill).length = k - (p.length + hole p d) by
        simp [hp]]
      exact this

theorem off_last (p : Chunk) (rest : List Chunk) (c : Chunk) (hc : (p :: rest).getLast? = some c) :
    sizeOf' p rest = off p rest rest.length + c.length := by
  induction rest generalizing p with
  | nil => simp at hc; subst hc; simp [off, sizeOf']
  | cons d r ih =>
    have := ih d (by rw [List.getLast?_cons_cons] at hc; exact hc)
    simp only [sizeOf', List.length_cons, off, this]; omega

theorem image_isImage (mem : Nat → Byte) (p : Chunk) (rest : List Chunk) (h : Ordered (p :: rest))
    (hs : Sound (p :: rest)) (newStart : Nat) (hn : newStart + sizeOf' p rest < 2 ^ 64) (fill : Byte) :
    IsImage mem (p :: rest) newStart fill (off p rest)
      (image mem ((newStart : Int) - p.ptr) (holesOf p rest) fill p rest) where
  layout := off_layout p rest
  size := by
    intro c hc
    have h1 := off_last p rest c hc
    have h2 := tailImg_length mem ((newStart : Int) - p.ptr) (holesOf p rest) fill p rest hs
    simp only [image, List.length_append, cdata_length _ _ _ _ (hs p (by simp)).2.2, List.length_cons,
      Nat.add_sub_cancel]
    omega
  bytes := by
    intro i c hc hk
    have h1 := image_slice mem ((newStart : Int) - p.ptr) (holesOf p rest) fill p rest hs i c hc 0 c.length (by omega)
    rw [Nat.add_zero] at h1
    rw [h1]
    simp only [cdata, hk, if_false]
    rw [slice_readMem _ _ _ _ _ (by omega), Nat.add_zero]
  words := by
    intro i c w hc hk hw
    have h1 := image_slice mem ((newStart : Int) - p.ptr) (holesOf p rest) fill p rest hs i c hc (8 * w) 8 (by omega)
    have h8 := (hs c (List.mem_of_getElem? hc)).2.2 hk
    rw [h1]
    simp only [cdata, hk, if_true]
    rw [adjustWords_word _ _ _ _ _ (by rw [readMem_length]; omega) (by omega), slice_readMem _ _ _ _ _ (by omega)]
    exact adjust_spec p rest h hs newStart hn _
  holes := image_hole mem _ _ fill p rest hs

theorem dup_eq (mem : Nat → Byte) (z : Zeroes) (newStart : Nat) (p : Chunk) (rest : List Chunk)
    (h : Ordered (p :: rest)) (hs : Sound (p :: rest)) :
    ∃ fill, dup mem z newStart (p :: rest) =
      .ok (image mem ((newStart : Int) - p.ptr) (holesOf p rest) fill p rest) := by
  obtain ⟨m, hm, hf⟩ := findSizes_ok p rest h
  have hp := hs p (by simp)
  refine ⟨(updateZeroes z (m + 1) 0x80#8).value, ?_⟩
  have hlen : (updateZeroes z (m + 1) 0x80#8).len = m + 1 := by
    unfold updateZeroes; split <;> simp_all
  have hg := sizeOf'_ge p rest
  obtain ⟨e, he⟩ := copy_loop mem (updateZeroes z (m + 1) 0x80#8) ((newStart : Int) - p.ptr) (holesOf p rest) p rest h
    hs (fun i a b ha hb => by rw [hlen]; exact Nat.lt_succ_of_le (hm i a b ha hb))
    (cdata mem ((newStart : Int) - p.ptr) (holesOf p rest) p) (sizeOf' p rest)
    (by rw [cdata_length _ _ _ _ hp.2.2]; omega)
  have ht := tailImg_length mem ((newStart : Int) - p.ptr) (holesOf p rest) (updateZeroes z (m + 1) 0x80#8).value p rest
    hs
  simp only [dup, hf, bind, Except.bind, deepCopy, copyData_ok _ _ _ _ hp.1 hp.2.2, write, List.length_nil,
    Nat.zero_add, cdata_length _ _ _ _ hp.2.2]
  rw [if_neg (by omega)]
  simp only [List.nil_append, he]
  rw [if_neg (by simp [cdata_length _ _ _ _ hp.2.2]; omega)]
  rfl

/-! ## Properties -/

/-- C46.  If the chunks were registered in the order of their addresses without overlap, `dup` succeeds, and the new
buffer is an image of the chunks: every chunk is there once, at a place of its own, and every pointer into a chunk
(or just past its end) now points to the same byte of the copy. -/
theorem dup_spec (mem : Nat → Byte) (z : Zeroes) (newStart : Nat) (cs : List Chunk) (h : Ordered cs) (hs : Sound cs)
    (hn : ∀ img, dup mem z newStart cs = .ok img → newStart + img.length < 2 ^ 64) :
    ∃ img fill dst, dup mem z newStart cs = .ok img ∧ IsImage mem cs newStart fill dst img := by
  cases cs with
  | nil =>
    refine ⟨[], 0, fun _ => 0, rfl, ⟨rfl, by simp⟩, by simp, by simp, by simp, by simp⟩
  | cons p rest =>
    obtain ⟨fill, hd⟩ := dup_eq mem z newStart p rest h hs
    refine ⟨_, fill, off p rest, hd, image_isImage mem p rest h hs newStart ?_ fill⟩
    have h1 := hn _ hd
    have h2 := tailImg_length mem ((newStart : Int) - p.ptr) (holesOf p rest) fill p rest hs
    simp only [image, List.length_append, cdata_length _ _ _ _ (hs p (by simp)).2.2] at h1
    omega

/-- The copies do not overlap, and alignment modulo 8 is kept. -/
theorem layout_facts (cs : List Chunk) (h : Ordered cs) (dst : Nat → Nat) (hl : Layout cs dst) :
    (∀ i j a b, i < j → cs[i]? = some a → cs[j]? = some b → dst i + a.length ≤ dst j) ∧
    (∀ i a b, cs[0]? = some a → cs[i]? = some b → (a.ptr + dst i) % 8 = b.ptr % 8) := by
  constructor
  · intro i j a b hij ha hb
    induction j generalizing b with
    | zero => omega
    | succ j ih =>
      have hj : j < cs.length := by
        have := (List.getElem?_eq_some_iff.1 hb).1
        omega
      have hc : cs[j]? = some cs[j] := List.getElem?_eq_getElem hj
      have h1 := hl.2 j _ b hc hb
      rcases Nat.lt_or_eq_of_le (Nat.le_of_lt_succ hij) with h2 | h2
      · have := ih _ h2 hc
        omega
      · subst h2
        rw [hc] at ha
        cases ha
        omega
  · intro i a b ha hb
    induction i generalizing b with
    | zero =>
      rw [ha] at hb; cases hb
      rw [hl.1, Nat.add_zero]
    | succ i ih =>
      obtain ⟨hi1, hi2⟩ := List.getElem?_eq_some_iff.1 hb
      have hc : cs[i]? = some cs[i] := List.getElem?_eq_getElem (by omega)
      have h1 := hl.2 i _ b hc hb
      have h2 := ih _ hc
      have h3 : cs[i].ptr + cs[i].length ≤ b.ptr := by
        have := List.isChain_iff_getElem.1 h i hi1
        rw [hi2] at this
        exact this
      omega

/-- Chunks registered out of order, or overlapping, are refused. -/
theorem dup_refuses (mem : Nat → Byte) (z : Zeroes) (newStart : Nat) (cs : List Chunk) (h : ¬Ordered cs) :
    dup mem z newStart cs = throwOut := by
  cases cs with
  | nil => exact absurd List.isChain_nil h
  | cons p rest =>
    simp only [dup, findSizes, sizes_refuse p rest h, bind, Except.bind, throwOut]

/-- Registering a chunk again changes nothing, and a list of registered chunks has no duplicates. -/
theorem push_twice (v : List Chunk) (k : Kind) (n p : Nat) :
    push (push v k n p) k n p = push v k n p ∧ (v.Nodup → (push v k n p).Nodup) := by
  constructor
  · have : (⟨k, n % 2 ^ 32, p⟩ : Chunk) ∈ push v k n p := by
      unfold push; simp only; split <;> simp_all
    exact if_pos this
  · intro hv
    unfold push
    simp only
    split
    · exact hv
    · rename_i hm
      exact List.nodup_append.2 ⟨hv, by simp, by simp; intro a ha e; exact hm (e ▸ ha)⟩

theorem save_loop (mem : Nat → Byte) (z : Zeroes) (offs : List (Nat × Int)) (p : Chunk)
    (rest : List Chunk) (hs : Sound (p :: rest))
    (hz : ∀ i a b, (p :: rest)[i]? = some a → (p :: rest)[i + 1]? = some b → hole a b < z.len) (img : List Byte) :
    ∃ e, rest.foldlM (saveStep mem z offs) (img, some (p.ptr + p.length)) =
      .ok (img ++ tailImg mem 0 offs z.value p rest, e) := by
  induction rest generalizing p img with
  | nil => exact ⟨_, by simp [tailImg]; rfl⟩
  | cons c r ih =>
    have hcs := hs c (by simp)
    have hhole := hz 0 p c (by simp) (by simp)
    obtain ⟨e, he⟩ := ih c (fun d hd => hs d (List.mem_cons_of_mem _ hd))
      (fun i a b ha hb => hz (i + 1) a b (by simpa using ha) (by simpa using hb))
      (img ++ List.replicate (hole p c) z.value ++ cdata mem 0 offs c)
    refine ⟨e, ?_⟩
    rw [List.foldlM_cons]
    have hstep : saveStep mem z offs (img, some (p.ptr + p.length)) c =
        .ok (img ++ List.replicate (hole p c) z.value ++ cdata mem 0 offs c, some (c.ptr + c.length)) := by
      unfold saveStep
      simp only
      rw [if_neg (by unfold hole at hhole; omega), copyData_ok _ _ _ _ hcs.1 hcs.2.2]
      rfl
    rw [hstep]
    show List.foldlM _ _ r = _
    rw [he]
    simp [tailImg]

/-- What is saved to a file and loaded again is an image to be used at the address of the first chunk of the process
that saved it. -/
theorem save_spec_partial (mem : Nat → Byte) (z : Zeroes) (p : Chunk) (rest : List Chunk) (h : Ordered (p :: rest))
    (hs : Sound (p :: rest)) (hn : ∀ img, saveLoad mem z (p :: rest) = .ok img → p.ptr + img.length < 2 ^ 64) :
    ∃ img fill dst, saveLoad mem z (p :: rest) = .ok img ∧ IsImage mem (p :: rest) p.ptr fill dst img := by
  obtain ⟨m, hm, hf⟩ := findSizes_ok p rest h
  have hp := hs p (by simp)
  have hlen : (updateZeroes z (m + 1) 0x80#8).len = m + 1 := by
    unfold updateZeroes; split <;> simp_all
  obtain ⟨e, he⟩ := save_loop mem (updateZeroes z (m + 1) 0x80#8) (holesOf p rest) p rest
    hs (fun i a b ha hb => by rw [hlen]; exact Nat.lt_succ_of_le (hm i a b ha hb))
    (cdata mem 0 (holesOf p rest) p)
  have hd : saveLoad mem z (p :: rest) =
      .ok (image mem ((p.ptr : Int) - p.ptr) (holesOf p rest) (updateZeroes z (m + 1) 0x80#8).value p rest) := by
    simp only [saveLoad, hf, bind, Except.bind]
    rw [List.foldlM_cons]
    have : saveStep mem (updateZeroes z (m + 1) 0x80#8) (holesOf p rest) ([], none) p =
        .ok (cdata mem 0 (holesOf p rest) p, some (p.ptr + p.length)) := by
      unfold saveStep
      simp only
      rw [copyData_ok _ _ _ _ hp.1 hp.2.2]
      rfl
    simp only [this, bind, Except.bind, he]
    rw [Int.sub_self]
    rfl
  refine ⟨_, _, off p rest, hd, image_isImage mem p rest h hs p.ptr ?_ _⟩
  have h1 := hn _ hd
  have h2 := tailImg_length mem ((p.ptr : Int) - p.ptr) (holesOf p rest) (updateZeroes z (m + 1) 0x80#8).value p rest
    hs
  simp only [image, List.length_append, cdata_length _ _ _ _ (hs p (by simp)).2.2] at h1
  omega

/-! ## A concrete case -/

/-- A pointer at 4096 to byte 2 of a string of three bytes at 4115. -/
def mem1 : Nat → Byte := fun a => if a = 4096 then 0x15 else if a = 4097 then 0x10 else if a = 4115 then 7 else
  if a = 4116 then 8 else if a = 4117 then 9 else 0

/-- A word holding a pointer and, after a hole of 11 bytes, three bytes of data. -/
def chunks1 : List Chunk := [⟨.heapPtr, 8, 4096⟩, ⟨.data, 3, 4115⟩]

example : Ordered chunks1 ∧ Sound chunks1 := by
  refine ⟨by simp [Ordered, chunks1], ?_⟩
  intro c hc
  simp [chunks1] at hc
  rcases hc with rfl | rfl <;> decide

/-- The pointer becomes 8192 + 11 + 2 = 0x200d. -/
example : dup mem1 ⟨0, 0⟩ 8192 chunks1 =
    .ok [0x0d, 0x20, 0, 0, 0, 0, 0, 0, 0x80, 0x80, 0x80, 7, 8, 9] := by decide +kernel

example : ¬Ordered chunks1.reverse ∧ dup mem1 ⟨0, 0⟩ 8192 chunks1.reverse = throwOut := by
  refine ⟨by simp [Ordered, chunks1], by decide +kernel⟩

/-- An image read from a file is not relocated to the buffer it is in: its pointers are those of the process
that saved it. -/
theorem load_stale_fails :
    ∃ img, saveLoad mem1 ⟨0, 0⟩ chunks1 = .ok img ∧
      ∀ newStart dst, newStart ≠ 4096 → ¬IsImage mem1 chunks1 newStart 0x80 dst img := by
  refine ⟨[0x0d, 0x10, 0, 0, 0, 0, 0, 0, 0x80, 0x80, 0x80, 7, 8, 9], by decide +kernel, ?_⟩
  intro newStart dst hne h
  have h0 := h.layout.1
  have h1 : dst 1 = dst 0 + 8 + (4115 - (4096 + 8)) % 8 := h.layout.2 0 ⟨.heapPtr, 8, 4096⟩ ⟨.data, 3, 4115⟩ rfl rfl
  have hw := (h.words 0 ⟨.heapPtr, 8, 4096⟩ 0 rfl rfl (by decide)).2 1 ⟨.data, 3, 4115⟩ 2 rfl (by decide)
    (by decide +kernel)
  rw [h0, h1, h0] at hw
  have e : wordOf (slice [0x0d, 0x10, 0, 0, 0, 0, 0, 0, 0x80, 0x80, 0x80, 7, 8, 9] (0 + 8 * 0) 8) = 4109 := by
    decide +kernel
  rw [e] at hw
  omega

/-- A length of 2^32 bytes or more is registered modulo 2^32. -/
theorem push_truncates_fails : push [] .data (2 ^ 32 + 8) 4096 = [⟨.data, 8, 4096⟩] := by decide

/-- A last chunk of no bytes that touches the one before makes `dup` throw. -/
theorem empty_last_refused_fails :
    Ordered [⟨.data, 3, 4115⟩, ⟨.data, 0, 4118⟩] ∧
      dup mem1 ⟨0, 0⟩ 8192 [⟨.data, 3, 4115⟩, ⟨.data, 0, 4118⟩] = throwOut :=
  ⟨by simp [Ordered], by decide +kernel⟩

end Verif.MemResolv
