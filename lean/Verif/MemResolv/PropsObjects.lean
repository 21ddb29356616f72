import Verif.MemResolv.ModelObjects
import Verif.MemResolv.PropsWalk

/-!
# Copies of matrices, meshes and strings
-/

namespace Verif.MemResolv

theorem walk_pod (n : Nat) (s : Wk) (c : Nat) : ∃ z, walk (.pod n) s c n = .ok (⟨s.mem, z, push s.chunks .data n c⟩, n) := by
  refine ⟨updateZeroes s.z (n - n + 1) 0, ?_⟩
  rw [walk, walkPod, if_neg (by omega)]
  simp only [Nat.sub_self, fillMem_zero]
  rfl

theorem dense_chunks (s : Wk) (c b k n : Nat) (h : VecAt s.mem (c + 16) b k n) (hk : 0 < k) (hn : 0 < n) :
    ∃ z, walkDense (.pod k) s c =
      .ok (⟨s.mem, z, push (push (push (push s.chunks .data 8 c) .data 8 (c + 8)) .heapPtr 24 (c + 16)) .data (k * n) b⟩, 40) := by
  obtain ⟨z1, h1⟩ := walk_pod 8 s c
  obtain ⟨z2, h2⟩ := walk_pod 8 ⟨s.mem, z1, push s.chunks .data 8 c⟩ (c + 8)
  refine ⟨z2, ?_⟩
  rw [walkDense, h1]
  simp only [bind, Except.bind]
  rw [h2]
  simp only
  rw [walk_vec ⟨s.mem, z2, push (push s.chunks .data 8 c) .data 8 (c + 8)⟩ (c + 16) b k n _ h hk hn]
  rfl

theorem dense_chunks_empty (s : Wk) (c b k : Nat) (h : VecAt s.mem (c + 16) b k 0) :
    ∃ z, walkDense (.pod k) s c =
      .ok (⟨s.mem, z, push (push (push s.chunks .data 8 c) .data 8 (c + 8)) .heapPtr 24 (c + 16)⟩, 40) := by
  obtain ⟨z1, h1⟩ := walk_pod 8 s c
  obtain ⟨z2, h2⟩ := walk_pod 8 ⟨s.mem, z1, push s.chunks .data 8 c⟩ (c + 8)
  refine ⟨z2, ?_⟩
  rw [walkDense, h1]
  simp only [bind, Except.bind]
  rw [h2]
  simp only
  rw [walk_vec_empty ⟨s.mem, z2, push (push s.chunks .data 8 c) .data 8 (c + 8)⟩ (c + 16) b k _ h]
  rfl

/-- **C125** A matrix of numbers, whose elements are at a higher address than the matrix itself, can be copied: the new buffer begins
with a matrix with the same numbers of rows and of columns, and with a copy of the elements, inside the buffer. -/
theorem dense_copy (s : Wk) (c b k n : Nat) (h : VecAt s.mem (c + 16) b k n) (hk : 0 < k) (hn : 0 < n) (hc : 0 < c)
    (hb : c + 40 ≤ b) (hlen : k * n < 2 ^ 32) (hs : s.chunks = []) (newStart : Nat) (hnew : newStart + 47 + k * n < 2 ^ 64) :
    ∃ s' img d, walkDense (.pod k) s c = .ok (s', 40) ∧ s'.mem = s.mem ∧ dup s'.mem s'.z newStart s'.chunks = .ok img ∧
      wordOf (slice img 0 8) = wordAt s.mem c ∧ wordOf (slice img 8 8) = wordAt s.mem (c + 8) ∧
      wordOf (slice img 16 8) = newStart + d ∧ wordOf (slice img 24 8) = newStart + d + k * n ∧
      40 ≤ d ∧ img.length = d + k * n ∧ slice img d (k * n) = readMem s.mem b (k * n) := by
  have hpos := Nat.mul_pos hk hn
  obtain ⟨z, hw⟩ := dense_chunks s c b k n h hk hn
  have hch : push (push (push (push s.chunks .data 8 c) .data 8 (c + 8)) .heapPtr 24 (c + 16)) .data (k * n) b =
      [⟨.data, 8, c⟩, ⟨.data, 8, c + 8⟩, ⟨.heapPtr, 24, c + 16⟩, ⟨.data, k * n, b⟩] := by
    rw [hs]
    have e : k * n % 4294967296 = k * n := by omega
    have h1 : b ≠ c := by omega
    have h2 : b ≠ c + 8 := by omega
    simp [push, e, h1, h2]
  rw [hch] at hw
  have hord : Ordered [⟨.data, 8, c⟩, ⟨.data, 8, c + 8⟩, ⟨.heapPtr, 24, c + 16⟩, ⟨.data, k * n, b⟩] := by
    simp [Ordered]
    omega
  have hsound : Sound [⟨.data, 8, c⟩, ⟨.data, 8, c + 8⟩, ⟨.heapPtr, 24, c + 16⟩, ⟨.data, k * n, b⟩] := by
    intro x hx
    simp at hx
    rcases hx with rfl | rfl | rfl | rfl
    · exact ⟨by show 0 < 8; decide, hc, by simp⟩
    · exact ⟨by show 0 < 8; decide, by show 0 < c + 8; omega, by simp⟩
    · exact ⟨by show 0 < 24; decide, by show 0 < c + 16; omega, fun _ => ⟨3, rfl⟩⟩
    · exact ⟨hpos, by show 0 < b; omega, by simp⟩
  obtain ⟨img, fill, dst, hd, him⟩ := dup_spec s.mem z newStart _ hord hsound (by
    intro img himg
    obtain ⟨f, hf⟩ := dup_eq s.mem z newStart _ _ hord hsound
    rw [hf] at himg
    cases himg
    have ht := tailImg_length s.mem ((newStart : Int) - c)
      (holesOf ⟨.data, 8, c⟩ [⟨.data, 8, c + 8⟩, ⟨.heapPtr, 24, c + 16⟩, ⟨.data, k * n, b⟩]) f _ _ hsound
    simp only [image, List.length_append, cdata_length _ _ _ _ (hsound ⟨.data, 8, c⟩ (by simp)).2.2]
    simp only [sizeOf'] at ht
    have e1 : hole ⟨.data, 8, c⟩ ⟨.data, 8, c + 8⟩ = 0 := by simp [hole]
    have e2 : hole ⟨.data, 8, c + 8⟩ ⟨.heapPtr, 24, c + 16⟩ = 0 := by simp [hole]
    have e3 : hole ⟨.heapPtr, 24, c + 16⟩ ⟨.data, k * n, b⟩ < 8 := Nat.mod_lt _ (by decide)
    omega)
  have hd0 := him.layout.1
  have hd1 := him.layout.2 0 _ _ rfl rfl
  have hd2 := him.layout.2 1 _ _ rfl rfl
  have hd3 := him.layout.2 2 _ _ rfl rfl
  dsimp only at hd1 hd2 hd3
  have e1 : dst 1 = 8 := by rw [hd1, hd0]; omega
  have e2 : dst 2 = 16 := by rw [hd2, e1]; omega
  have b0 := him.bytes 0 _ rfl (by simp)
  have b1 := him.bytes 1 _ rfl (by simp)
  have b3 := him.bytes 3 _ rfl (by simp)
  have w0 := (him.words 2 _ 0 rfl rfl (by show 8 * 0 + 8 ≤ 24; decide)).2 3 _ 0 rfl (Nat.zero_le _) h.first
  have w1 := (him.words 2 _ 1 rfl rfl (by show 8 * 1 + 8 ≤ 24; decide)).2 3 _ (k * n) rfl (Nat.le_refl _) h.last
  rw [hd0] at b0
  rw [e1] at b1
  rw [e2] at w0 w1
  exact ⟨_, img, dst 3, hw, rfl, hd, congrArg wordOf b0, congrArg wordOf b1, w0, w1, by rw [hd3, e2]; omega, him.size _ rfl, b3⟩

/-- **C125** A matrix without elements is copied as well. -/
theorem dense_copy_empty (s : Wk) (c k : Nat) (h : VecAt s.mem (c + 16) 0 k 0) (hc : 0 < c)
    (hs : s.chunks = []) (newStart : Nat) (hnew : newStart + 40 < 2 ^ 64) :
    ∃ s' img, walkDense (.pod k) s c = .ok (s', 40) ∧ s'.mem = s.mem ∧ dup s'.mem s'.z newStart s'.chunks = .ok img ∧
      wordOf (slice img 0 8) = wordAt s.mem c ∧ wordOf (slice img 8 8) = wordAt s.mem (c + 8) ∧
      wordOf (slice img 16 8) = 0 ∧ wordOf (slice img 24 8) = 0 ∧ img.length = 40 := by
  obtain ⟨z, hw⟩ := dense_chunks_empty s c 0 k h
  have hch : push (push (push s.chunks .data 8 c) .data 8 (c + 8)) .heapPtr 24 (c + 16) =
      [⟨.data, 8, c⟩, ⟨.data, 8, c + 8⟩, ⟨.heapPtr, 24, c + 16⟩] := by
    rw [hs]
    simp [push]
  rw [hch] at hw
  have hord : Ordered [⟨.data, 8, c⟩, ⟨.data, 8, c + 8⟩, ⟨.heapPtr, 24, c + 16⟩] := by
    simp [Ordered]
  have hsound : Sound [⟨.data, 8, c⟩, ⟨.data, 8, c + 8⟩, ⟨.heapPtr, 24, c + 16⟩] := by
    intro x hx
    simp at hx
    rcases hx with rfl | rfl | rfl
    · exact ⟨by show 0 < 8; decide, hc, by simp⟩
    · exact ⟨by show 0 < 8; decide, by show 0 < c + 8; omega, by simp⟩
    · exact ⟨by show 0 < 24; decide, by show 0 < c + 16; omega, fun _ => ⟨3, rfl⟩⟩
  obtain ⟨img, fill, dst, hd, him⟩ := dup_spec s.mem z newStart _ hord hsound (by
    intro img himg
    obtain ⟨f, hf⟩ := dup_eq s.mem z newStart _ _ hord hsound
    rw [hf] at himg
    cases himg
    have ht := tailImg_length s.mem ((newStart : Int) - c)
      (holesOf ⟨.data, 8, c⟩ [⟨.data, 8, c + 8⟩, ⟨.heapPtr, 24, c + 16⟩]) f _ _ hsound
    simp only [image, List.length_append, cdata_length _ _ _ _ (hsound ⟨.data, 8, c⟩ (by simp)).2.2]
    simp only [sizeOf'] at ht
    have e1 : hole ⟨.data, 8, c⟩ ⟨.data, 8, c + 8⟩ = 0 := by simp [hole]
    have e2 : hole ⟨.data, 8, c + 8⟩ ⟨.heapPtr, 24, c + 16⟩ = 0 := by simp [hole]
    omega)
  have hd0 := him.layout.1
  have hd1 := him.layout.2 0 _ _ rfl rfl
  have hd2 := him.layout.2 1 _ _ rfl rfl
  dsimp only at hd1 hd2
  have e1 : dst 1 = 8 := by rw [hd1, hd0]; omega
  have e2 : dst 2 = 16 := by rw [hd2, e1]; omega
  have b0 := him.bytes 0 _ rfl (by simp)
  have b1 := him.bytes 1 _ rfl (by simp)
  have w0 := (him.words 2 _ 0 rfl rfl (by show 8 * 0 + 8 ≤ 24; decide)).1 h.first
  have w1 := (him.words 2 _ 1 rfl rfl (by show 8 * 1 + 8 ≤ 24; decide)).1 (h.last.trans (by simp))
  have hsz := him.size _ rfl
  rw [hd0] at b0
  rw [e1] at b1
  rw [e2] at w0 w1
  refine ⟨_, img, hw, rfl, hd, congrArg wordOf b0, congrArg wordOf b1, w0, w1, ?_⟩
  rw [hsz]
  show dst 2 + 24 = 40
  rw [e2]

/-- **C125** A matrix of complex numbers that is not empty is refused. -/
theorem dense_complex (s : Wk) (c b k n : Nat) (h : VecAt s.mem (c + 16) b k n) (hk : 0 < k) (hn : 0 < n) :
    walkDense (.complex k) s c = throwOut := by
  obtain ⟨z1, h1⟩ := walk_pod 8 s c
  obtain ⟨z2, h2⟩ := walk_pod 8 ⟨s.mem, z1, push s.chunks .data 8 c⟩ (c + 8)
  rw [walkDense, h1]
  simp only [bind, Except.bind]
  rw [h2]
  simp only
  rw [(complex_refused ⟨s.mem, z2, push (push s.chunks .data 8 c) .data 8 (c + 8)⟩ (c + 16) b k n 0 (40 - (8 + 8)) h hk).2.2.1 hn]
  rfl

/-- A sparse matrix that has rows, or whose numbers of rows and columns were ever set, can never be copied, wherever it is: the
beginnings of its rows are registered before the rest of the matrix. -/
theorem crs_fails (s : Wk) (c b k n : Nat) (h : VecAt s.mem c b 4 n) (hn : 0 < n) (hlen : 4 * n < 2 ^ 32) (hs : s.chunks = [])
    (newStart : Nat) :
    ∃ s', walkCrs (.pod k) s c = .ok (s', 88) ∧ dup s'.mem s'.z newStart s'.chunks = throwOut := by
  have w1 := walk_vec s c b 4 n 24 h (by decide) hn
  obtain ⟨s2, w2, m2, p2⟩ := walk_vec_keeps ⟨s.mem, s.z, push (push s.chunks .heapPtr 24 c) .data (4 * n) b⟩ (c + 24) 4 24
  obtain ⟨s3, w3, m3, p3⟩ := walk_vec_keeps s2 (c + 48) k 24
  obtain ⟨z4, w4⟩ := walk_pod 8 s3 (c + 72)
  obtain ⟨z5, w5⟩ := walk_pod 8 ⟨s3.mem, z4, push s3.chunks .data 8 (c + 72)⟩ (c + 80)
  refine ⟨⟨s3.mem, z5, push (push s3.chunks .data 8 (c + 72)) .data 8 (c + 80)⟩, ?_, dup_refuses _ _ _ _ ?_⟩
  · rw [walkCrs, w1]
    simp only [bind, Except.bind]
    rw [w2]
    simp only
    rw [w3]
    simp only
    rw [w4]
    simp only
    rw [w5]
    rfl
  · intro ho
    have e : push (push (push s.chunks .heapPtr 24 c) .data (4 * n) b) .heapPtr 24 (c + 24) =
        [⟨.heapPtr, 24, c⟩, ⟨.data, 4 * n, b⟩, ⟨.heapPtr, 24, c + 24⟩] := by
      rw [hs]
      have e : 4 * n % 4294967296 = 4 * n := by omega
      simp [push, e]
    have hp := ((p2.trans ((push_prefix _ _ _ _).trans p3)).trans (push_prefix _ .data 8 (c + 72))).trans
      (push_prefix _ .data 8 (c + 80))
    simp only at hp
    rw [e] at hp
    obtain ⟨r, hr⟩ := hp
    unfold Ordered at ho
    rw [← hr] at ho
    simp only [List.cons_append, List.nil_append, List.isChain_cons_cons] at ho
    have h1 := ho.1
    have h2 := ho.2.1
    omega

/-- **C125** A mesh, in a place of 24 bytes, is registered as three chunks, and only the bytes between its members change. -/
theorem mesh_spec (s : Wk) (c : Nat) : ∃ s', walkMesh s c 24 = .ok (s', 24) ∧
    s'.chunks = push (push (push s.chunks .data 8 c) .data 8 (c + 8)) .data 8 (c + 16) ∧
    ∀ a, ¬(c + 9 ≤ a ∧ a < c + 16) → s'.mem a = s.mem a := by
  obtain ⟨z1, h1⟩ := walk_pod 8 s c
  obtain ⟨s2, f, h2, h3, h4, _⟩ := pod_spec 1 ⟨s.mem, z1, push s.chunks .data 8 c⟩ (c + 8) 8 (by decide)
  obtain ⟨z3, h5⟩ := walk_pod 8 s2 (c + 16)
  refine ⟨⟨s2.mem, z3, push s2.chunks .data 8 (c + 16)⟩, ?_, ?_, ?_⟩
  · rw [walkMesh, h1]
    simp only [bind, Except.bind]
    rw [h2]
    simp only
    rw [if_neg (by decide), h5]
    rfl
  · rw [h3]
  · intro a ha
    show s2.mem a = _
    rw [h4, if_neg (by omega)]

/-- A mesh registered without saying how many bytes it has: the assertion fails. -/
theorem mesh_default_fails (s : Wk) (c : Nat) : walkMesh s c 0 = ubOut := by
  obtain ⟨z1, h1⟩ := walk_pod 8 s c
  obtain ⟨s2, f, h2, h3, h4, _⟩ := pod_spec 1 ⟨s.mem, z1, push s.chunks .data 8 c⟩ (c + 8) 8 (by decide)
  rw [walkMesh, h1]
  simp only [bind, Except.bind]
  rw [h2]
  rfl

/-- A string of at most 15 characters, which are then in the string itself, can never be copied. -/
theorem short_string_fails (s : Wk) (c : Nat) (h : wordAt s.mem c = c + 16) (hs : s.chunks = []) (newStart : Nat) :
    ∃ s', walkString s c 32 = .ok (s', 32) ∧ dup s'.mem s'.z newStart s'.chunks = throwOut := by
  have hw : wordAt (s.push .heapPtr 32 c).mem c = c + 16 := h
  have key : ∀ l : List Chunk, push (push s.chunks .heapPtr 32 c) .data 12 (c + 16 - 12) <+: l → ¬ Ordered l := by
    intro l hl ho
    have e : push (push s.chunks .heapPtr 32 c) .data 12 (c + 16 - 12) = [⟨.heapPtr, 32, c⟩, ⟨.data, 12, c + 4⟩] := by
      rw [hs]
      simp [push]
    rw [e] at hl
    obtain ⟨r, hr⟩ := hl
    unfold Ordered at ho
    rw [← hr] at ho
    simp only [List.cons_append, List.nil_append, List.isChain_cons_cons] at ho
    have := ho.1
    omega
  rw [walkString, if_neg (by decide)]
  simp only [hw]
  rw [if_neg (by omega)]
  split
  · exact ⟨_, rfl, dup_refuses _ _ _ _ (key _ (List.prefix_refl _))⟩
  · exact ⟨_, rfl, dup_refuses _ _ _ _ (key _ (push_prefix _ _ _ _))⟩

theorem wordAt_congr (m m' : Nat → Byte) (p : Nat) (h : ∀ i < 8, m (p + i) = m' (p + i)) : wordAt m p = wordAt m' p := by
  unfold wordAt
  refine congrArg wordOf ?_
  unfold readMem
  exact List.map_congr_left fun i hi => h i (List.mem_range.1 hi)

theorem string_chunks (c b len : Nat) (hb : c + 44 ≤ b) (hlen' : len < 2 ^ 32) :
    push (push (push [] .heapPtr 32 c) .data 12 (b - 12)) .data len b =
      [⟨.heapPtr, 32, c⟩, ⟨.data, 12, b - 12⟩, ⟨.data, len, b⟩] := by
  have e : len % 4294967296 = len := Nat.mod_eq_of_lt hlen'
  have e2 : b ≠ b - 12 := by omega
  simp [push, e, e2]

/-- A longer string is copied, but its copy has another number of characters unless it is put in the same place: the number is changed
as if it were a pointer.  And the four bytes before the characters of the string, which do not belong to it, are overwritten. -/
theorem long_string_fails (s : Wk) (c b len : Nat) (h1 : wordAt s.mem c = b) (h2 : wordAt s.mem (c + 8) = len) (hb : c + 44 ≤ b)
    (hlen : 0 < len) (hlen' : len < 2 ^ 32) (hc : len < c) (hs : s.chunks = []) (hz : s.z.len ≠ 5) (newStart : Nat)
    (hnew : c ≤ newStart) (hnew' : newStart + 64 + len < 2 ^ 64) :
    ∃ s' img, walkString s c 32 = .ok (s', 32) ∧ dup s'.mem s'.z newStart s'.chunks = .ok img ∧
      wordOf (slice img 8 8) = len + (newStart - c) ∧ (∀ a, s'.mem a = if b - 4 ≤ a ∧ a < b then 0 else s.mem a) := by
  have hw : wordAt (s.push .heapPtr 32 c).mem c = b := h1
  have hmem : ∀ a, fillMem (s.push .heapPtr 32 c).mem (b - 4) 4 (updateZeroes (s.push .heapPtr 32 c).z 5 0).value a =
      if b - 4 ≤ a ∧ a < b then 0 else s.mem a := by
    intro a
    have e : (updateZeroes (s.push .heapPtr 32 c).z 5 0).value = 0 := by
      unfold updateZeroes
      rw [if_neg (by exact hz)]
    have e' : b - 4 + 4 = b := by omega
    rw [fillMem, e, e']
    rfl
  generalize hm : fillMem (s.push .heapPtr 32 c).mem (b - 4) 4 (updateZeroes (s.push .heapPtr 32 c).z 5 0).value = mem' at hmem
  have hw2 : wordAt mem' (c + 8) = len := by
    refine (wordAt_congr mem' s.mem (c + 8) fun i hi => ?_).trans h2
    rw [hmem, if_neg (by omega)]
  have hch : push (push (push s.chunks .heapPtr 32 c) .data 12 (b - 12)) .data len b =
      [⟨.heapPtr, 32, c⟩, ⟨.data, 12, b - 12⟩, ⟨.data, len, b⟩] := by
    rw [hs]
    exact string_chunks c b len hb hlen'
  have hord : Ordered [⟨.heapPtr, 32, c⟩, ⟨.data, 12, b - 12⟩, ⟨.data, len, b⟩] := by
    simp [Ordered]
    omega
  have hsound : Sound [⟨.heapPtr, 32, c⟩, ⟨.data, 12, b - 12⟩, ⟨.data, len, b⟩] := by
    intro x hx
    simp at hx
    rcases hx with rfl | rfl | rfl
    · exact ⟨by show 0 < 32; decide, by show 0 < c; omega, fun _ => ⟨4, rfl⟩⟩
    · exact ⟨by show 0 < 12; decide, by show 0 < b - 12; omega, by simp⟩
    · exact ⟨hlen, by show 0 < b; omega, by simp⟩
  obtain ⟨f, hf⟩ := dup_eq mem' (updateZeroes (s.push .heapPtr 32 c).z 5 0) newStart _ _ hord hsound
  refine ⟨⟨mem', updateZeroes (s.push .heapPtr 32 c).z 5 0, _⟩, _, ?_, hf, ?_, hmem⟩
  · rw [walkString, if_neg (by decide)]
    simp only [hw]
    rw [if_neg (by omega), hm]
    have e : wordAt (Wk.push ⟨mem', updateZeroes (s.push .heapPtr 32 c).z 5 0, (s.push .heapPtr 32 c).chunks⟩ .data 12
      (b - 12)).mem (c + 8) = len := hw2
    rw [e, if_neg (by omega), ← hch]
    rfl
  · have hsl := image_slice mem' ((newStart : Int) - c) (holesOf ⟨.heapPtr, 32, c⟩ [⟨.data, 12, b - 12⟩, ⟨.data, len, b⟩]) f _ _ hsound
      0 _ rfl 8 8 (by show 8 + 8 ≤ 32; decide)
    simp only [off, Nat.zero_add] at hsl
    rw [hsl]
    simp only [cdata, if_true]
    have ha := adjustWords_word ((newStart : Int) - c) (holesOf ⟨.heapPtr, 32, c⟩ [⟨.data, 12, b - 12⟩, ⟨.data, len, b⟩]) 4
      (readMem mem' c 32) 1 (by rw [readMem_length]) (by decide)
    refine ha.trans ?_
    rw [slice_readMem _ _ _ _ _ (by decide)]
    have e : wordOf (readMem mem' (c + 8 * 1) 8) = len := hw2
    rw [e, adjustWord, if_pos (by omega)]
    have e2 : correctionForHoles len (holesOf ⟨.heapPtr, 32, c⟩ [⟨.data, 12, b - 12⟩, ⟨.data, len, b⟩]) = 0 := by
      rw [holesOf, correctionForHoles, if_pos (by show len < b - 12; omega)]
    rw [e2, Int.zero_add, Int.emod_eq_of_lt (by omega) (by omega)]
    omega

/-! ## Concrete cases -/

/-- A matrix at 4096 with 2 rows and 1 column, whose two elements of one byte are at 4144. -/
def memD : Nat → Byte := fun a =>
  if a = 4096 then 2 else if a = 4104 then 1 else if a = 4112 then 0x30 else if a = 4113 then 0x10 else
  if a = 4120 then 0x32 else if a = 4121 then 0x10 else if a = 4144 then 7 else if a = 4145 then 9 else 0

example : ∃ s' img d, walkDense (.pod 1) ⟨memD, ⟨0, 0⟩, []⟩ 4096 = .ok (s', 40) ∧ s'.mem = memD ∧
      dup s'.mem s'.z 8192 s'.chunks = .ok img ∧
      wordOf (slice img 0 8) = wordAt memD 4096 ∧ wordOf (slice img 8 8) = wordAt memD (4096 + 8) ∧
      wordOf (slice img 16 8) = 8192 + d ∧ wordOf (slice img 24 8) = 8192 + d + 1 * 2 ∧
      40 ≤ d ∧ img.length = d + 1 * 2 ∧ slice img d (1 * 2) = readMem memD 4144 (1 * 2) :=
  dense_copy ⟨memD, ⟨0, 0⟩, []⟩ 4096 4144 1 2 ⟨by decide +kernel, by decide +kernel⟩ (by decide) (by decide) (by decide) (by decide)
    (by decide) rfl 8192 (by decide)

example : wordAt memD 4096 = 2 := by decide +kernel

example : walkDense (.complex 1) ⟨memD, ⟨0, 0⟩, []⟩ 4096 = throwOut :=
  dense_complex ⟨memD, ⟨0, 0⟩, []⟩ 4096 4144 1 2 ⟨by decide +kernel, by decide +kernel⟩ (by decide) (by decide)

example : ∃ s' img, walkDense (.pod 8) ⟨fun _ => 0, ⟨0, 0⟩, []⟩ 4096 = .ok (s', 40) ∧ s'.mem = (fun _ => 0) ∧
      dup s'.mem s'.z 8192 s'.chunks = .ok img ∧
      wordOf (slice img 0 8) = wordAt (fun _ => 0) 4096 ∧ wordOf (slice img 8 8) = wordAt (fun _ => 0) (4096 + 8) ∧
      wordOf (slice img 16 8) = 0 ∧ wordOf (slice img 24 8) = 0 ∧ img.length = 40 :=
  dense_copy_empty ⟨fun _ => 0, ⟨0, 0⟩, []⟩ 4096 8 ⟨by decide +kernel, by decide +kernel⟩ (by decide) rfl 8192 (by decide)

/-- A sparse matrix at 4096 with one row that begins at 0, kept at 5000. -/
def memC : Nat → Byte := fun a =>
  if a = 4096 then 0x88 else if a = 4097 then 0x13 else if a = 4104 then 0x90 else if a = 4105 then 0x13 else 0

example : ∃ s', walkCrs (.pod 8) ⟨memC, ⟨0, 0⟩, []⟩ 4096 = .ok (s', 88) ∧ dup s'.mem s'.z 8192 s'.chunks = throwOut :=
  crs_fails ⟨memC, ⟨0, 0⟩, []⟩ 4096 5000 8 2 ⟨by decide +kernel, by decide +kernel⟩ (by decide) (by decide) rfl 8192

/-- A string at 4096 with 20 characters at 5000. -/
def memS : Nat → Byte := fun a =>
  if a = 4096 then 0x88 else if a = 4097 then 0x13 else if a = 4104 then 20 else if 5000 ≤ a ∧ a < 5020 then 65 else 1

example : ∃ s' img, walkString ⟨fun a => if 4098 ≤ a ∧ a < 4104 ∨ 4105 ≤ a ∧ a < 4112 then 0 else memS a, ⟨0, 0⟩, []⟩ 4096 32 = .ok (s', 32) ∧
    dup s'.mem s'.z 8192 s'.chunks = .ok img ∧ wordOf (slice img 8 8) = 20 + (8192 - 4096) ∧
    (∀ a, s'.mem a = if 5000 - 4 ≤ a ∧ a < 5000 then 0 else
      if 4098 ≤ a ∧ a < 4104 ∨ 4105 ≤ a ∧ a < 4112 then 0 else memS a) :=
  long_string_fails ⟨_, ⟨0, 0⟩, []⟩ 4096 5000 20 (by decide +kernel) (by decide +kernel) (by decide) (by decide) (by decide) (by decide)
    rfl (by decide) 8192 (by decide) (by decide)

example : wordAt (fun a => if a = 4096 then 0x10 else if a = 4097 then 0x10 else 0) 4096 = 4096 + 16 := by decide +kernel

end Verif.MemResolv
