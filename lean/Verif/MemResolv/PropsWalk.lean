import Verif.MemResolv.ModelWalk
import Verif.MemResolv.Props

/-!
# Registering the chunks of objects
-/

namespace Verif.MemResolv

theorem fillMem_zero (mem : Nat → Byte) (p : Nat) (v : Byte) : fillMem mem p 0 v = mem := by
  funext a
  unfold fillMem
  rw [if_neg (by omega)]

/-- **C109** Something that is not a class, in a place of `x` bytes, is registered as one chunk of `x` bytes, and only the bytes of
the place after it change: they become the filling byte, which is zero if the filling was not of that length before. -/
theorem pod_spec (n : Nat) (s : Wk) (c x : Nat) (hx : n ≤ x) :
    ∃ s' fill, walk (.pod n) s c x = .ok (s', x) ∧ s'.chunks = push s.chunks .data x c ∧
      (∀ a, s'.mem a = if c + n ≤ a ∧ a < c + x then fill else s.mem a) ∧ (s.z.len ≠ x - n + 1 → fill = 0) := by
  refine ⟨_, (updateZeroes s.z (x - n + 1) 0).value, by rw [walk, walkPod, if_neg (by omega)], rfl, ?_, ?_⟩
  · intro a
    show fillMem s.mem (c + n) (x - n) _ a = _
    unfold fillMem
    have : c + n + (x - n) = c + x := by omega
    rw [this]
  · intro h
    unfold updateZeroes
    rw [if_neg h]

/-- If the filling has that length already its bytes are written, whatever they are: after `dup` they are 128. -/
theorem pod_filling_fails : ∃ s' , walk (.pod 4) ⟨fun _ => 1, ⟨5, 0x80⟩, []⟩ 4096 8 = .ok (s', 8) ∧ s'.mem 4100 = 0x80 :=
  ⟨_, rfl, by decide⟩

/-- A vector of things that are not classes at address `v`: `n` of them, of `k` bytes, at `b`. -/
structure VecAt (mem : Nat → Byte) (v b k n : Nat) : Prop where
  first : wordAt mem v = b
  last : wordAt mem (v + 8) = b + k * n

/-- What is registered for a vector of things that are not classes. -/
theorem walk_vec (s : Wk) (v b k n x : Nat) (h : VecAt s.mem v b k n) (hk : 0 < k) (hn : 0 < n) :
    walk (.vec (.pod k)) s v x = .ok (⟨s.mem, s.z, push (push s.chunks .heapPtr 24 v) .data (k * n) b⟩, 24) := by
  have hd : vecCount s.mem v (Ty.pod k).size = n := by
    unfold vecCount
    rw [h.first, h.last, Nat.add_sub_cancel_left]
    exact Nat.mul_div_cancel_left n hk
  have hne : ¬ k * n = 0 := by
    have := Nat.mul_pos hk hn
    omega
  rw [walk, if_neg (by simp [Ty.isClass]), hd, h.first, walkData, Ty.size, if_neg hne]
  rfl

theorem walk_vec_empty (s : Wk) (v b k x : Nat) (h : VecAt s.mem v b k 0) :
    walk (.vec (.pod k)) s v x = .ok (⟨s.mem, s.z, push s.chunks .heapPtr 24 v⟩, 24) := by
  have hd : vecCount s.mem v (Ty.pod k).size = 0 := by
    unfold vecCount
    rw [h.first, h.last]
    simp
  rw [walk, if_neg (by simp [Ty.isClass]), hd, walkData, Nat.mul_zero, if_pos rfl]
  rfl

/-- **C109** A vector of things that are not classes, whose data is at a higher address than the vector itself, can be copied: the
new buffer begins with a vector that has a copy of the data, inside the buffer; its capacity is its size if that is so for the
old one. -/
theorem vector_copy (s : Wk) (v b k n : Nat) (h : VecAt s.mem v b k n) (hk : 0 < k) (hn : 0 < n) (hv : 0 < v) (hb : v + 24 ≤ b)
    (hlen : k * n < 2 ^ 32) (hs : s.chunks = []) (newStart : Nat) (hnew : newStart + 31 + k * n < 2 ^ 64) :
    ∃ s' img d, walk (.vec (.pod k)) s v 0 = .ok (s', 24) ∧ dup s'.mem s'.z newStart s'.chunks = .ok img ∧
      wordOf (slice img 0 8) = newStart + d ∧ wordOf (slice img 8 8) = newStart + d + k * n ∧
      (wordAt s.mem (v + 16) = b + k * n → wordOf (slice img 16 8) = newStart + d + k * n) ∧
      24 ≤ d ∧ img.length = d + k * n ∧ slice img d (k * n) = readMem s.mem b (k * n) := by
  have hpos := Nat.mul_pos hk hn
  have hch : push (push [] .heapPtr 24 v) .data (k * n) b = [⟨.heapPtr, 24, v⟩, ⟨.data, k * n, b⟩] := by
    simp [push]
    omega
  have hord : Ordered [⟨.heapPtr, 24, v⟩, ⟨.data, k * n, b⟩] := by simpa [Ordered] using hb
  have hsound : Sound [⟨.heapPtr, 24, v⟩, ⟨.data, k * n, b⟩] := by
    intro c hc
    simp at hc
    rcases hc with rfl | rfl
    · exact ⟨by show 0 < 24; decide, hv, fun _ => ⟨3, rfl⟩⟩
    · exact ⟨hpos, by show 0 < b; omega, by simp⟩
  have hhole : hole ⟨.heapPtr, 24, v⟩ ⟨.data, k * n, b⟩ < 8 := Nat.mod_lt _ (by decide)
  obtain ⟨img, fill, dst, hd, him⟩ := dup_spec s.mem s.z newStart _ hord hsound (by
    intro img himg
    obtain ⟨f, hf⟩ := dup_eq s.mem s.z newStart _ _ hord hsound
    rw [hf] at himg
    cases himg
    have ht := tailImg_length s.mem ((newStart : Int) - v) (holesOf ⟨.heapPtr, 24, v⟩ [⟨.data, k * n, b⟩]) f _ _ hsound
    simp only [image, List.length_append, cdata_length _ _ _ _ (hsound ⟨.heapPtr, 24, v⟩ (by simp)).2.2]
    simp only [sizeOf'] at ht
    omega)
  have hd0 := him.layout.1
  have hd1 := him.layout.2 0 _ _ rfl rfl
  have w0 := (him.words 0 _ 0 rfl rfl (by show 8 * 0 + 8 ≤ 24; decide)).2 1 _ 0 rfl (Nat.zero_le _) h.first
  have w1 := (him.words 0 _ 1 rfl rfl (by show 8 * 1 + 8 ≤ 24; decide)).2 1 _ (k * n) rfl (Nat.le_refl _) h.last
  have w2 := (him.words 0 _ 2 rfl rfl (by show 8 * 2 + 8 ≤ 24; decide)).2 1 _ (k * n) rfl (Nat.le_refl _)
  simp only [hd0] at w0 w1 w2 hd1
  refine ⟨_, img, dst 1, by rw [walk_vec s v b k n 0 h hk hn], by rw [hs, hch]; exact hd, w0, w1, fun h2 => w2 h2, ?_, ?_, ?_⟩
  · rw [hd1]; omega
  · exact him.size _ rfl
  · exact him.bytes 1 _ rfl (by simp)

/-- A vector whose data is at a lower address, for example a local variable of a function, cannot be copied. -/
theorem local_fails (s : Wk) (v b k n : Nat) (h : VecAt s.mem v b k n) (hk : 0 < k) (hn : 0 < n) (hb : b < v + 24)
    (hs : s.chunks = []) (newStart : Nat) :
    ∃ s', walk (.vec (.pod k)) s v 0 = .ok (s', 24) ∧ dup s'.mem s'.z newStart s'.chunks = throwOut := by
  refine ⟨_, walk_vec s v b k n 0 h hk hn, dup_refuses _ _ _ _ ?_⟩
  rw [hs]
  simp [push, Ordered]
  omega

theorem push_prefix (cs : List Chunk) (k : Kind) (n p : Nat) : cs <+: push cs k n p := by
  unfold push
  simp only []
  split
  · exact List.prefix_refl _
  · exact List.prefix_append _ _

/-- Registering a vector of things that are not classes keeps what was registered. -/
theorem walk_vec_keeps (s : Wk) (v k x : Nat) : ∃ s', walk (.vec (.pod k)) s v x = .ok (s', 24) ∧ s'.mem = s.mem ∧
    push s.chunks .heapPtr 24 v <+: s'.chunks := by
  rw [walk, if_neg (by simp [Ty.isClass]), walkData]
  split
  · exact ⟨_, rfl, rfl, List.prefix_refl _⟩
  · exact ⟨_, rfl, rfl, push_prefix _ _ _ _⟩

theorem elems_keep (k n : Nat) (p : Nat) (s : Wk) :
    ∃ s', walkElems (fun s p => walk (.vec (.pod k)) s p 24) 24 n p s = .ok s' ∧ s.chunks <+: s'.chunks := by
  induction n generalizing p s with
  | zero => exact ⟨s, rfl, List.prefix_refl _⟩
  | succ n ih =>
    obtain ⟨s1, h1, _, h2⟩ := walk_vec_keeps s p k 24
    obtain ⟨s2, h3, h4⟩ := ih (p + 24) s1
    refine ⟨s2, ?_, ((push_prefix _ _ _ _).trans h2).trans h4⟩
    rw [walkElems, h1]
    exact h3

/-- A vector of at least two vectors, the first of which is not empty, can never be copied, wherever they are: the data of the
first one is registered before the second one. -/
theorem nested_fails (s : Wk) (v b n b0 k m : Nat) (h : VecAt s.mem v b 24 n) (hn : 2 ≤ n) (hin : VecAt s.mem b b0 k m)
    (hk : 0 < k) (hm : 0 < m) (hlen : k * m < 2 ^ 32) (hvb : v ≠ b) (hvb' : v ≠ b + 24) (hs : s.chunks = []) (newStart : Nat) :
    ∃ s', walk (.vec (.vec (.pod k))) s v 0 = .ok (s', 24) ∧ dup s'.mem s'.z newStart s'.chunks = throwOut := by
  have hpos := Nat.mul_pos hk hm
  obtain ⟨n', rfl⟩ : ∃ n', n = n' + 2 := ⟨n - 2, by omega⟩
  have hd : vecCount s.mem v (Ty.vec (.pod k)).size = n' + 2 := by
    unfold vecCount
    rw [h.first, h.last, Nat.add_sub_cancel_left]
    exact Nat.mul_div_cancel_left _ (by decide)
  have hw1 := walk_vec ⟨s.mem, s.z, push s.chunks .heapPtr 24 v⟩ b b0 k m 24 hin hk hm
  obtain ⟨s2, h2, _, h3⟩ := walk_vec_keeps ⟨s.mem, s.z, push (push (push s.chunks .heapPtr 24 v) .heapPtr 24 b) .data (k * m) b0⟩
    (b + 24) k 24
  obtain ⟨s3, h4, h5⟩ := elems_keep k n' (b + 24 + 24) s2
  refine ⟨s3, ?_, dup_refuses _ _ _ _ ?_⟩
  · rw [walk, if_pos (by simp [Ty.isClass]), hd, h.first]
    show (do
      let s2 ← walkElems (fun s p => walk (.vec (.pod k)) s p 24) 24 (n' + 2) b ⟨s.mem, s.z, push s.chunks .heapPtr 24 v⟩
      return (s2, 24)) = _
    rw [walkElems, hw1]
    simp only [bind, Except.bind]
    rw [walkElems, h2]
    simp only [bind, Except.bind]
    rw [h4]
    rfl
  · intro ho
    have hp := h3.trans h5
    have e : push (push (push (push s.chunks .heapPtr 24 v) .heapPtr 24 b) .data (k * m) b0) .heapPtr 24 (b + 24) =
        [⟨.heapPtr, 24, v⟩, ⟨.heapPtr, 24, b⟩, ⟨.data, k * m, b0⟩, ⟨.heapPtr, 24, b + 24⟩] := by
      rw [hs]
      simp [push, hvb.symm, hvb'.symm]
      omega
    rw [e] at hp
    obtain ⟨r, hr⟩ := hp
    unfold Ordered at ho
    rw [← hr] at ho
    simp only [List.cons_append, List.nil_append, List.isChain_cons_cons] at ho
    have h1 := ho.2.1
    have h2 := ho.2.2.1
    omega

/-- **C109** A pair of things that are not classes, whose second member is at byte 8, is registered as two chunks, one for each. -/
theorem pair_spec (s : Wk) (a b size c : Nat) : ∃ s', walk (.pair (.pod a) (.pod b) size) s c size = .ok (s', a + b) ∧
    s'.mem = s.mem ∧ s'.chunks = push (push s.chunks .data a c) .data b (c + 8) := by
  obtain ⟨s1, f1, h1, h2, h3, _⟩ := pod_spec a s c a (Nat.le_refl _)
  obtain ⟨s2, f2, h4, h5, h6, _⟩ := pod_spec b s1 (c + 8) b (Nat.le_refl _)
  refine ⟨s2, ?_, ?_, by rw [h5, h2]⟩
  · rw [walk, Ty.size, h1]
    simp only [bind, Except.bind]
    rw [Ty.size, h4]
    simp only [walkTail, Nat.lt_irrefl, if_false, if_true]
  · funext o
    rw [h6, if_neg (by omega), h3, if_neg (by omega)]

/-- A pair of two members of 4 bytes: the second one is not registered, and the 4 bytes after the pair are. -/
theorem pair_fails (s : Wk) (c : Nat) (hs : s.chunks = []) : ∃ s', walk (.pair (.pod 4) (.pod 4) 8) s c 8 = .ok (s', 8) ∧
    (∀ d ∈ s'.chunks, ∀ o, d.ptr ≤ o → o < d.ptr + d.length → ¬ (c + 4 ≤ o ∧ o < c + 8)) ∧
    ∃ d ∈ s'.chunks, d.ptr = c + 8 := by
  obtain ⟨s', h1, _, h3⟩ := pair_spec s 4 4 8 c
  refine ⟨s', h1, ?_, ?_⟩
  · rw [h3, hs]
    intro d hd o h1 h2
    simp [push] at hd
    rcases hd with rfl | rfl <;> simp at h1 h2 <;> omega
  · exact ⟨⟨.data, 4, c + 8⟩, by rw [h3, hs]; simp [push], rfl⟩

/-- **C109** Complex numbers and maps are refused, and so is a vector of them, unless it is empty. -/
theorem complex_refused (s : Wk) (v b k n c x : Nat) (h : VecAt s.mem v b k n) (hk : 0 < k) :
    walk (.complex k) s c x = throwOut ∧ walk .map s c x = throwOut ∧
      (0 < n → walk (.vec (.complex k)) s v x = throwOut) ∧
      (n = 0 → ∃ s', walk (.vec (.complex k)) s v x = .ok (s', 24)) := by
  have hd : vecCount s.mem v (Ty.complex k).size = n := by
    unfold vecCount
    rw [h.first, h.last, Nat.add_sub_cancel_left]
    exact Nat.mul_div_cancel_left n hk
  refine ⟨by rw [walk], by rw [walk], ?_, ?_⟩
  · intro hn
    obtain ⟨n', rfl⟩ : ∃ n', n = n' + 1 := ⟨n - 1, by omega⟩
    rw [walk, if_pos (by simp [Ty.isClass]), hd, walkElems, walk]
    rfl
  · rintro rfl
    rw [walk, if_pos (by simp [Ty.isClass]), hd, walkElems]
    exact ⟨_, rfl⟩

/-- **C109** What is registered for an array of things that are not classes is one chunk with all of them. -/
theorem array_spec (s : Wk) (k size p : Nat) :
    resolve (.pod k) s size p = .ok (⟨s.mem, s.z, push s.chunks .data (k * size) p⟩, k * size) := rfl

theorem array_steps (k : Nat) (p : Nat) (l : List Nat) (s : Wk) (t : Nat) :
    ∃ s', l.foldlM (fun (r : Wk × Nat) i => do
        let q ← walk (.vec (.pod k)) r.1 (p + i * 24) 24
        return (q.1, r.2 + q.2)) (s, t) = .ok (s', t + 24 * l.length) ∧ s'.mem = s.mem ∧ s.chunks <+: s'.chunks := by
  induction l generalizing s t with
  | nil => exact ⟨s, rfl, rfl, List.prefix_refl _⟩
  | cons i l ih =>
    obtain ⟨s1, h1, hm, h2⟩ := walk_vec_keeps s (p + i * 24) k 24
    obtain ⟨s2, h3, hm2, h4⟩ := ih s1 (t + 24)
    refine ⟨s2, ?_, hm2.trans hm, ((push_prefix _ _ _ _).trans h2).trans h4⟩
    rw [List.foldlM_cons, h1]
    simp only [bind, Except.bind, pure, Except.pure]
    have e : t + 24 * (i :: l).length = t + 24 + 24 * l.length := by
      rw [List.length_cons]
      omega
    rw [e]
    exact h3

/-- **C109** Registering an array of vectors returns the bytes of the array, changes no byte and keeps what was registered. -/
theorem array_vectors (s : Wk) (k size p : Nat) :
    ∃ s', resolve (.vec (.pod k)) s size p = .ok (s', 24 * size) ∧ s'.mem = s.mem ∧ s.chunks <+: s'.chunks := by
  obtain ⟨s', h, h1, h2⟩ := array_steps k p (List.range size) s 0
  refine ⟨s', ?_, h1, h2⟩
  rw [List.length_range, Nat.zero_add] at h
  rw [resolve, if_pos (by rfl)]
  exact h

/-- **C109** Registering a vector of pointers returns the bytes of the vector and of its pointers. -/
theorem pointers_total (s : Wk) (v b n : Nat) (h : VecAt s.mem v b 8 n) : (walkPtrs s v).2 = 24 + 8 * n := by
  have hcount : vecCount s.mem v 8 = n := by
    unfold vecCount
    rw [h.first, h.last, Nat.add_sub_cancel_left]
    exact Nat.mul_div_cancel_left n (by decide)
  unfold walkPtrs
  rw [hcount]

/-- **C109** A vector of pointers with what they point to, registered after it and at higher addresses, is copied: the pointers in
the copy of the vector point to the same bytes of the copy of what they pointed to. -/
theorem pointers_copy (s : Wk) (v b n q l : Nat) (h : VecAt s.mem v b 8 n) (hn : 0 < n) (hv : 0 < v) (hb : v + 24 ≤ b)
    (hq : b + 8 * n ≤ q) (hl : 0 < l) (hlen : 8 * n < 2 ^ 32) (hlen' : l < 2 ^ 32) (hs : s.chunks = []) (newStart : Nat)
    (hnew : newStart + 38 + 8 * n + l < 2 ^ 64) :
    ∃ img d d', dup s.mem s.z newStart ((walkPtrs s v).1.push .data l q).chunks = .ok img ∧
      wordOf (slice img 0 8) = newStart + d ∧ wordOf (slice img 8 8) = newStart + d + 8 * n ∧
      slice img d' l = readMem s.mem q l ∧
      ∀ i o, i < n → o ≤ l → wordAt s.mem (b + 8 * i) = q + o → wordOf (slice img (d + 8 * i) 8) = newStart + d' + o := by
  have hcount : vecCount s.mem v 8 = n := by
    unfold vecCount
    rw [h.first, h.last, Nat.add_sub_cancel_left]
    exact Nat.mul_div_cancel_left n (by decide)
  have hvb : v ≠ b := by omega
  have hch : ((walkPtrs s v).1.push .data l q).chunks = [⟨.heapPtr, 24, v⟩, ⟨.heapPtr, 8 * n, b⟩, ⟨.data, l, q⟩] := by
    unfold walkPtrs walkData
    rw [hcount, if_neg (by omega), h.first]
    simp only [Wk.push, hs]
    simp [push, hvb.symm]
    omega
  have hord : Ordered [⟨.heapPtr, 24, v⟩, ⟨.heapPtr, 8 * n, b⟩, ⟨.data, l, q⟩] := by simpa [Ordered] using ⟨hb, hq⟩
  have hsound : Sound [⟨.heapPtr, 24, v⟩, ⟨.heapPtr, 8 * n, b⟩, ⟨.data, l, q⟩] := by
    intro c hc
    simp at hc
    rcases hc with rfl | rfl | rfl
    · exact ⟨by show 0 < 24; decide, hv, fun _ => ⟨3, rfl⟩⟩
    · exact ⟨by show 0 < 8 * n; omega, by show 0 < b; omega, fun _ => ⟨n, rfl⟩⟩
    · exact ⟨hl, by show 0 < q; omega, by simp⟩
  have hhole : hole ⟨.heapPtr, 24, v⟩ ⟨.heapPtr, 8 * n, b⟩ < 8 := Nat.mod_lt _ (by decide)
  have hhole' : hole ⟨.heapPtr, 8 * n, b⟩ ⟨.data, l, q⟩ < 8 := Nat.mod_lt _ (by decide)
  obtain ⟨img, fill, dst, hd, him⟩ := dup_spec s.mem s.z newStart _ hord hsound (by
    intro img himg
    obtain ⟨f, hf⟩ := dup_eq s.mem s.z newStart _ _ hord hsound
    rw [hf] at himg
    cases himg
    have ht := tailImg_length s.mem ((newStart : Int) - v)
      (holesOf ⟨.heapPtr, 24, v⟩ [⟨.heapPtr, 8 * n, b⟩, ⟨.data, l, q⟩]) f _ _ hsound
    simp only [image, List.length_append, cdata_length _ _ _ _ (hsound ⟨.heapPtr, 24, v⟩ (by simp)).2.2]
    simp only [sizeOf'] at ht
    omega)
  have hd0 := him.layout.1
  have w0 := (him.words 0 _ 0 rfl rfl (by show 8 * 0 + 8 ≤ 24; decide)).2 1 _ 0 rfl (Nat.zero_le _) h.first
  have w1 := (him.words 0 _ 1 rfl rfl (by show 8 * 1 + 8 ≤ 24; decide)).2 1 _ (8 * n) rfl (Nat.le_refl _) h.last
  simp only [hd0] at w0 w1
  refine ⟨img, dst 1, dst 2, by rw [hch]; exact hd, w0, w1, him.bytes 2 _ rfl (by simp), ?_⟩
  intro i o hi ho hw
  exact (him.words 1 _ i rfl rfl (by show 8 * i + 8 ≤ 8 * n; omega)).2 2 _ o rfl ho hw

/-! ## A concrete case -/

/-- A vector at 4096 with two elements of two bytes at 4128. -/
def memV : Nat → Byte := fun a =>
  if a = 4096 then 0x20 else if a = 4097 then 0x10 else if a = 4104 then 0x24 else if a = 4105 then 0x10 else
  if a = 4112 then 0x24 else if a = 4113 then 0x10 else if 4128 ≤ a ∧ a < 4132 then 7 else 0

example : VecAt memV 4096 4128 2 2 := ⟨by decide +kernel, by decide +kernel⟩

example : ∃ s' img d, walk (.vec (.pod 2)) ⟨memV, ⟨0, 0⟩, []⟩ 4096 0 = .ok (s', 24) ∧ dup s'.mem s'.z 8192 s'.chunks = .ok img ∧
      wordOf (slice img 0 8) = 8192 + d ∧ wordOf (slice img 8 8) = 8192 + d + 2 * 2 ∧
      (wordAt memV (4096 + 16) = 4128 + 2 * 2 → wordOf (slice img 16 8) = 8192 + d + 2 * 2) ∧
      24 ≤ d ∧ img.length = d + 2 * 2 ∧ slice img d (2 * 2) = readMem memV 4128 (2 * 2) :=
  vector_copy ⟨memV, ⟨0, 0⟩, []⟩ 4096 4128 2 2 ⟨by decide +kernel, by decide +kernel⟩ (by decide) (by decide) (by decide) (by decide)
    (by decide) rfl 8192 (by decide)

/-- The same bytes as a vector at 4128 of which the data is lower: a vector at 4096 + 56. -/
example : ∃ s', walk (.vec (.pod 2)) ⟨fun a => memV (a - 56), ⟨0, 0⟩, []⟩ 4152 0 = .ok (s', 24) ∧
    dup s'.mem s'.z 8192 s'.chunks = throwOut :=
  local_fails ⟨fun a => memV (a - 56), ⟨0, 0⟩, []⟩ 4152 4128 2 2 ⟨by decide +kernel, by decide +kernel⟩ (by decide) (by decide) (by decide)
    rfl 8192

/-- A vector at 4096 of two vectors at 4128, the first of which has one byte at 5000. -/
def memN : Nat → Byte := fun a =>
  if a = 4096 then 0x20 else if a = 4097 then 0x10 else if a = 4104 then 0x50 else if a = 4105 then 0x10 else
  if a = 4128 then 0x88 else if a = 4129 then 0x13 else if a = 4136 then 0x89 else if a = 4137 then 0x13 else 0

example : ∃ s', walk (.vec (.vec (.pod 1))) ⟨memN, ⟨0, 0⟩, []⟩ 4096 0 = .ok (s', 24) ∧ dup s'.mem s'.z 8192 s'.chunks = throwOut :=
  nested_fails ⟨memN, ⟨0, 0⟩, []⟩ 4096 4128 2 5000 1 1 ⟨by decide +kernel, by decide +kernel⟩ (by decide) ⟨by decide +kernel, by decide +kernel⟩
    (by decide) (by decide) (by decide) (by decide) (by decide) rfl 8192

/-- A vector at 4096 of one pointer at 4128 to the second of three bytes at 4160. -/
def memP : Nat → Byte := fun a =>
  if a = 4096 then 0x20 else if a = 4097 then 0x10 else if a = 4104 then 0x28 else if a = 4105 then 0x10 else
  if a = 4128 then 0x41 else if a = 4129 then 0x10 else if 4160 ≤ a ∧ a < 4163 then 7 else 0

example : ∃ img d d', dup memP ⟨0, 0⟩ 8192 ((walkPtrs ⟨memP, ⟨0, 0⟩, []⟩ 4096).1.push .data 3 4160).chunks = .ok img ∧
      wordOf (slice img 0 8) = 8192 + d ∧ wordOf (slice img 8 8) = 8192 + d + 8 * 1 ∧
      slice img d' 3 = readMem memP 4160 3 ∧
      ∀ i o, i < 1 → o ≤ 3 → wordAt memP (4128 + 8 * i) = 4160 + o → wordOf (slice img (d + 8 * i) 8) = 8192 + d' + o :=
  pointers_copy ⟨memP, ⟨0, 0⟩, []⟩ 4096 4128 1 4160 3 ⟨by decide +kernel, by decide +kernel⟩ (by decide) (by decide) (by decide)
    (by decide) (by decide) (by decide) (by decide) rfl 8192 (by decide)

end Verif.MemResolv
