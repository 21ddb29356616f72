import Verif.MemResolv.ModelFile
import Verif.MemResolv.Props

/-!
# Snapshots of memory in files
-/

namespace Verif.MemResolv

theorem read_exact (bytes rest old : List Byte) (h : old.length = bytes.length) :
    Rd.read ⟨bytes ++ rest, true⟩ old = (⟨rest, true⟩, bytes) := by
  unfold Rd.read
  simp [h]

theorem word_exact (w v : Nat) (hw : w < 2 ^ 64) (rest : List Byte) :
    Rd.word ⟨bytesOf 8 w ++ rest, true⟩ v = (⟨rest, true⟩, w) := by
  unfold Rd.word
  rw [read_exact _ _ _ (by rw [bytesOf_length, bytesOf_length])]
  simp only []
  rw [wordOf_bytesOf, Nat.mod_eq_of_lt (by omega)]

/-- The chunk as it is in the file. -/
def moved (offs : List (Nat × Int)) (c : Chunk) : Chunk := ⟨c.kind, c.length, adjustWord 0 offs c.ptr⟩

theorem kindOf_code (k : Kind) : kindOf k.code = k := by cases k <;> rfl

theorem code_lt (k : Kind) : k.code < 3 := by cases k <;> decide

theorem chunk_exact (offs : List (Nat × Int)) (c : Chunk) (hl : c.length < 2 ^ 32) (hp : c.ptr < 2 ^ 64) (rest : List Byte) :
    loadChunk ⟨chunkBytes offs c ++ rest, true⟩ = (⟨rest, true⟩, moved offs c) := by
  have hk := code_lt c.kind
  unfold loadChunk
  rw [read_exact _ _ _ (by simp [chunkBytes, bytesOf_length])]
  simp only []
  have e1 : (chunkBytes offs c).take 4 = bytesOf 4 c.kind.code := by
    unfold chunkBytes
    rw [List.append_assoc, List.take_left' (bytesOf_length _ _)]
  have e2 : ((chunkBytes offs c).drop 4).take 4 = bytesOf 4 c.length := by
    unfold chunkBytes
    rw [List.append_assoc, List.drop_left' (bytesOf_length _ _), List.take_left' (bytesOf_length _ _)]
  have e3 : ((chunkBytes offs c).drop 8).take 8 = bytesOf 8 (adjustWord 0 offs c.ptr) := by
    unfold chunkBytes
    rw [List.drop_left' (by simp [bytesOf_length])]
    exact List.take_of_length_le (by rw [bytesOf_length])
  rw [e1, e2, e3, wordOf_bytesOf, wordOf_bytesOf, wordOf_bytesOf, Nat.mod_eq_of_lt (by omega : c.kind.code < 256 ^ 4),
    Nat.mod_eq_of_lt (by omega : c.length < 256 ^ 4), kindOf_code]
  have := adjustWord_lt 0 offs c.ptr hp
  rw [Nat.mod_eq_of_lt (by omega)]
  rfl

theorem chunks_exact (offs : List (Nat × Int)) (cs : List Chunk) (h : ∀ c ∈ cs, c.length < 2 ^ 32 ∧ c.ptr < 2 ^ 64)
    (rest : List Byte) :
    loadChunks cs.length ⟨cs.flatMap (chunkBytes offs) ++ rest, true⟩ = (⟨rest, true⟩, cs.map (moved offs)) := by
  induction cs with
  | nil => rfl
  | cons c cs ih =>
    have hc := h c List.mem_cons_self
    simp only [List.length_cons, loadChunks, List.flatMap_cons, List.append_assoc, chunk_exact offs c hc.1 hc.2,
      ih (fun d hd => h d (List.mem_cons_of_mem _ hd)), List.map_cons]

theorem stringEqual_refl (a : List Byte) : stringEqual a a = true := by
  induction a with
  | nil => rfl
  | cons x a ih =>
    unfold stringEqual
    simp [ih]

theorem padLabel_length (l : List Byte) (h : l.length ≤ 128) : (padLabel l).length = 128 := by
  unfold padLabel
  split
  · simp; omega
  · omega

theorem padLabel_long (l : List Byte) (h : 128 < l.length) : (padLabel l).length ≠ 128 := by
  unfold padLabel
  rw [if_neg (by omega)]
  omega

/-- What is in a file before the first word after the label. -/
def header (label : List Byte) : List Byte := bytesOf 8 128 ++ bytesOf 8 128 ++ padLabel label

theorem load_header (junk : Nat → Byte) (label label' rest : List Byte) (h : label.length ≤ 128) :
    MR.load junk (some (header label ++ rest)) label' =
      if label'.length ≤ 128 ∧ stringEqual (padLabel label) (padLabel label') then .ok (loadRest junk ⟨rest, true⟩) else throwOut := by
  unfold MR.load header
  simp only [List.append_assoc]
  rw [word_exact 128 0 (by decide)]
  simp only []
  rw [word_exact 128 128 (by decide)]
  simp only []
  rw [if_neg (by simp), read_exact _ _ _ (by rw [padLabel_length _ h]; simp)]
  simp only []
  by_cases hl : label'.length ≤ 128
  · rw [if_neg (by rw [padLabel_length _ hl]; simp)]
    by_cases hs : stringEqual (padLabel label) (padLabel label') = true
    · rw [if_pos hs, if_pos ⟨hl, hs⟩]
    · rw [if_neg hs, if_neg (by rintro ⟨_, h⟩; exact hs h)]
  · rw [if_pos (padLabel_long _ (by omega)), if_neg (by rintro ⟨h, _⟩; exact hl h)]

/-- What `save` writes. -/
theorem save_eq (mem : Nat → Byte) (m : MR) (label : List Byte) (p : Chunk) (rest : List Chunk) (hv : m.vmptr = p :: rest)
    (hg : m.garbage ≠ []) (hl : label.length ≤ 128) (h : Ordered m.vmptr) (hs : Sound m.vmptr) :
    ∃ fill, MR.save mem m label = .ok (header label ++ (bytesOf 8 (adjustWord 0 (holesOf p rest) p.ptr) ++ (bytesOf 8 m.refText ++
      (bytesOf 8 m.into ++ (bytesOf 8 (rest.length + 1) ++ ((p :: rest).flatMap (chunkBytes (holesOf p rest)) ++
        (bytesOf 8 (sizeOf' p rest) ++ image mem ((p.ptr : Int) - p.ptr) (holesOf p rest) fill p rest))))))) := by
  rw [hv] at h hs
  obtain ⟨mx, hm, hf⟩ := findSizes_ok p rest h
  have hp := hs p (by simp)
  have hlen : (updateZeroes m.z (mx + 1) 0x80#8).len = mx + 1 := by
    unfold updateZeroes; split <;> simp_all
  obtain ⟨e, he⟩ := save_loop mem (updateZeroes m.z (mx + 1) 0x80#8) (holesOf p rest) p rest
    hs (fun i a b ha hb => by rw [hlen]; exact Nat.lt_succ_of_le (hm i a b ha hb))
    (cdata mem 0 (holesOf p rest) p)
  refine ⟨(updateZeroes m.z (mx + 1) 0x80#8).value, ?_⟩
  have h1 : saveStep mem (updateZeroes m.z (mx + 1) 0x80#8) (holesOf p rest) ([], none) p =
      .ok (cdata mem 0 (holesOf p rest) p, some (p.ptr + p.length)) := by
    unfold saveStep
    simp only
    rw [copyData_ok _ _ _ _ hp.1 hp.2.2]
    rfl
  unfold MR.save
  rw [if_neg hg, if_neg (by rw [padLabel_length _ hl]; simp), hv, hf]
  simp only [bind, Except.bind]
  rw [List.foldlM_cons, h1]
  simp only [bind, Except.bind, he, pure, Except.pure]
  rw [Int.sub_self]
  simp [header, image, saveChunkInfo]

/-- **C108** A snapshot that is saved under a label of at most 128 bytes, and loaded under the same label, has the registered
chunks and their bytes: the buffer is an image of the chunks, for the address of the first of them, and the address of each
chunk is its place in that image; the other two numbers of the snapshot are as they were. -/
theorem snapshot_spec (mem junk : Nat → Byte) (m : MR) (label : List Byte) (p : Chunk) (hp : m.vmptr.head? = some p)
    (hg : m.garbage ≠ []) (hl : label.length ≤ 128) (h : Ordered m.vmptr) (hs : Sound m.vmptr)
    (hlen : ∀ c ∈ m.vmptr, c.length < 2 ^ 32 ∧ c.ptr < 2 ^ 64) (hcount : m.vmptr.length < 2 ^ 64)
    (hend : ∀ c, m.vmptr.getLast? = some c → c.ptr + c.length < 2 ^ 64) (hi : m.into < 2 ^ 64) (ht : m.refText < 2 ^ 64) :
    ∃ (file img : List Byte) (fill : Byte) (dst : Nat → Nat) (r : MR), MR.save mem m label = .ok file ∧ MR.load junk (some file) label = .ok r ∧
      r.garbage = [img] ∧ r.into = m.into ∧ r.refText = m.refText ∧ IsImage mem m.vmptr p.ptr fill dst img ∧
      r.vmptr.length = m.vmptr.length ∧
      ∀ i c, m.vmptr[i]? = some c → r.vmptr[i]? = some (Chunk.mk c.kind c.length (p.ptr + dst i)) := by
  obtain ⟨q, rest, hv⟩ : ∃ q rest, m.vmptr = q :: rest := by
    cases hm : m.vmptr with
    | nil => rw [hm] at hp; simp at hp
    | cons q rest => exact ⟨q, rest, rfl⟩
  have hpq : q = p := by rw [hv] at hp; simpa using hp
  subst hpq
  obtain ⟨fill, hsave⟩ := save_eq mem m label q rest hv hg hl h hs
  rw [hv] at h hs hlen hcount hend
  -- the image is not larger than what it is an image of
  have hsize : q.ptr + sizeOf' q rest < 2 ^ 64 := by
    clear hsave hv hp hs hlen hcount
    induction rest generalizing q with
    | nil => simpa [sizeOf'] using hend q rfl
    | cons c r ih =>
      have h1 := (List.isChain_cons_cons.1 h).1
      have := ih c (fun d hd => hend d (by rw [List.getLast?_cons_cons]; exact hd)) (List.isChain_cons_cons.1 h).2
      have h2 : hole q c ≤ c.ptr - (q.ptr + q.length) := Nat.mod_le _ _
      simp only [sizeOf']
      omega
  have himg := image_isImage mem q rest h hs q.ptr hsize fill
  have hadj := adjust_spec q rest h hs q.ptr hsize
  rw [Int.sub_self] at hadj
  have hqp := (hlen q List.mem_cons_self).2
  have hload := load_header junk label label (bytesOf 8 (adjustWord 0 (holesOf q rest) q.ptr) ++ (bytesOf 8 m.refText ++
      (bytesOf 8 m.into ++ (bytesOf 8 (rest.length + 1) ++ ((q :: rest).flatMap (chunkBytes (holesOf q rest)) ++
        (bytesOf 8 (sizeOf' q rest) ++ image mem ((q.ptr : Int) - q.ptr) (holesOf q rest) fill q rest)))))) hl
  rw [if_pos ⟨hl, stringEqual_refl _⟩] at hload
  have hil : (image mem ((q.ptr : Int) - q.ptr) (holesOf q rest) fill q rest).length = sizeOf' q rest := by
    have := tailImg_length mem ((q.ptr : Int) - q.ptr) (holesOf q rest) fill q rest hs
    rw [image, List.length_append, cdata_length _ _ _ _ (hs q (by simp)).2.2, this]
  have hrest : loadRest junk ⟨bytesOf 8 (adjustWord 0 (holesOf q rest) q.ptr) ++ (bytesOf 8 m.refText ++
      (bytesOf 8 m.into ++ (bytesOf 8 (rest.length + 1) ++ ((q :: rest).flatMap (chunkBytes (holesOf q rest)) ++
        (bytesOf 8 (sizeOf' q rest) ++ image mem ((q.ptr : Int) - q.ptr) (holesOf q rest) fill q rest))))), true⟩ =
      ⟨(q :: rest).map (moved (holesOf q rest)), m.into, m.refText, ⟨0, 0⟩,
        [image mem ((q.ptr : Int) - q.ptr) (holesOf q rest) fill q rest]⟩ := by
    unfold loadRest
    simp only [word_exact _ 0 (adjustWord_lt 0 (holesOf q rest) q.ptr hqp), word_exact _ 0 ht, word_exact _ 0 hi]
    rw [word_exact (rest.length + 1) 0 (by simpa using hcount)]
    simp only []
    rw [show rest.length + 1 = (q :: rest).length from rfl, chunks_exact _ _ hlen]
    simp only []
    rw [word_exact _ 0 (by omega : sizeOf' q rest < 2 ^ 64)]
    simp only []
    have := read_exact (image mem ((q.ptr : Int) - q.ptr) (holesOf q rest) fill q rest) []
      ((List.range (sizeOf' q rest)).map junk) (by rw [hil]; simp)
    rw [List.append_nil] at this
    rw [this]
  rw [hrest] at hload
  refine ⟨_, _, fill, off q rest, _, hsave, hload, rfl, rfl, rfl, by rw [hv]; exact himg, by rw [hv]; simp, ?_⟩
  intro i c hc
  rw [hv] at hc
  simp only [List.getElem?_map, hc, Option.map_some, moved]
  have := (hadj c.ptr).2 i c 0 hc (Nat.zero_le _) rfl
  rw [this]
  rfl

/-- Labels are equal up to their first zero byte. -/
theorem stringEqual_pad (a b : List Byte) (ha : 0 ∉ a) (hb : 0 ∉ b) (n : Nat) (hla : a.length ≤ n) (hlb : b.length ≤ n) :
    stringEqual (a ++ List.replicate (n - a.length) 0) (b ++ List.replicate (n - b.length) 0) = true ↔ a = b := by
  constructor
  · intro h
    induction a generalizing b n with
    | nil =>
      cases b with
      | nil => rfl
      | cons y b =>
        exfalso
        have hy : y ≠ 0 := fun e => hb (by simp [e])
        have hn : n - ([] : List Byte).length = (n - 1) + 1 := by simp at hlb ⊢; omega
        rw [hn, List.replicate_succ, List.nil_append, List.cons_append, stringEqual] at h
        rw [if_neg (by simp at hlb ⊢; omega), if_neg (by rintro ⟨_, e⟩; exact hy e), if_pos (fun e => hy e.symm)] at h
        exact absurd h (by decide)
    | cons x a ih =>
      have hx : x ≠ 0 := fun e => ha (by simp [e])
      cases b with
      | nil =>
        exfalso
        have hn : n - ([] : List Byte).length = (n - 1) + 1 := by simp at hla ⊢; omega
        rw [hn, List.replicate_succ, List.nil_append, List.cons_append, stringEqual] at h
        rw [if_neg (by simp at hla ⊢; omega), if_neg (by rintro ⟨e, _⟩; exact hx e), if_pos hx] at h
        exact absurd h (by decide)
      | cons y b =>
        simp only [List.cons_append, List.length_cons] at h hla hlb
        rw [stringEqual, if_neg (by simp; omega), if_neg (by rintro ⟨e, _⟩; exact hx e)] at h
        by_cases hxy : x = y
        · rw [if_neg (by simp [hxy])] at h
          rw [hxy, ih b (fun e => ha (List.mem_cons_of_mem _ e)) (fun e => hb (List.mem_cons_of_mem _ e)) (n - 1)
            (by omega) (by omega) (by
              rw [show n - 1 - a.length = n - (a.length + 1) by omega, show n - 1 - b.length = n - (b.length + 1) by omega]
              exact h)]
        · rw [if_pos hxy] at h
          exact absurd h (by decide)
  · rintro rfl
    exact stringEqual_refl _

theorem padLabel_eq (l : List Byte) (h : l.length ≤ 128) : padLabel l = l ++ List.replicate (128 - l.length) 0 := by
  unfold padLabel
  split
  · rfl
  · rw [show 128 - l.length = 0 by omega]; simp

/-- **C108** A snapshot can only be loaded under the label it was saved with: for labels without zero bytes, loading with another
label throws, whatever is after the label. -/
theorem label_spec (junk : Nat → Byte) (label label' rest : List Byte) (hl : label.length ≤ 128) (h0 : 0 ∉ label)
    (h0' : 0 ∉ label') : (∃ r, MR.load junk (some (header label ++ rest)) label' = .ok r) ↔ label' = label := by
  rw [load_header junk label label' rest hl]
  constructor
  · rintro ⟨r, h⟩
    by_cases hc : label'.length ≤ 128 ∧ stringEqual (padLabel label) (padLabel label') = true
    · rw [padLabel_eq _ hl, padLabel_eq _ hc.1] at hc
      exact ((stringEqual_pad label label' h0 h0' 128 hl hc.1).1 hc.2).symm
    · rw [if_neg hc] at h
      simp [throwOut] at h
  · rintro rfl
    exact ⟨_, if_pos ⟨hl, stringEqual_refl _⟩⟩

/-- **C108** Every file that `save` writes begins with its label. -/
theorem save_header (mem : Nat → Byte) (m : MR) (label file : List Byte) (h : MR.save mem m label = .ok file) :
    ∃ rest, file = header label ++ rest := by
  unfold MR.save at h
  by_cases hg : m.garbage = []
  · rw [if_pos hg] at h; simp [ubOut] at h
  rw [if_neg hg] at h
  by_cases hl : (padLabel label).length ≠ 128
  · rw [if_pos hl] at h; simp [throwOut] at h
  rw [if_neg hl] at h
  rcases hf : findSizes m.vmptr with e | s
  · rw [hf] at h; simp [bind, Except.bind] at h
  rw [hf] at h
  simp only [bind, Except.bind] at h
  rcases hv : m.vmptr with _ | ⟨p, rest⟩
  · rw [hv] at h; simp [ubOut] at h
  rw [hv] at h
  simp only [] at h
  split at h
  · simp at h
  · simp only [pure, Except.pure, Except.ok.injEq] at h
    rw [← h]
    exact ⟨_, by simp only [header, List.append_assoc]; rfl⟩

/-- **C108** Labels of more than 128 bytes are refused, by `save` and by the constructor; and so is a file that cannot be opened. -/
theorem long_label (mem junk : Nat → Byte) (m : MR) (label : List Byte) (h : 128 < label.length) (hg : m.garbage ≠ [])
    (file : Option (List Byte)) :
    MR.save mem m label = throwOut ∧ MR.load junk file label = throwOut ∧
      ∀ l, MR.load junk none l = throwOut := by
  have := padLabel_long label h
  refine ⟨?_, ?_, fun _ => rfl⟩
  · unfold MR.save
    rw [if_neg hg, if_pos this]
  · cases file with
    | none => rfl
    | some f =>
      unfold MR.load
      simp only [if_pos this, ite_self]

/-- Nothing after the label is checked: a file that has any bytes at all after its label, or none, is loaded. -/
theorem unchecked_fails (junk : Nat → Byte) (label rest : List Byte) (h : label.length ≤ 128) :
    ∃ r, MR.load junk (some (header label ++ rest)) label = .ok r :=
  ⟨_, (load_header junk label label rest h).trans (if_pos ⟨h, stringEqual_refl _⟩)⟩

/-- Saving before anything was copied is undefined. -/
theorem save_first_fails (mem : Nat → Byte) (m : MR) (label : List Byte) (h : m.garbage = []) : MR.save mem m label = ubOut := by
  unfold MR.save
  rw [if_pos h]

/-! ## A concrete case -/

/-- The chunks of the example of `dup`, after `dup`. -/
def mr1 : MR := ⟨chunks1, 0, 0, ⟨0, 0⟩, [[1]]⟩

example : ∃ (file img : List Byte) (fill : Byte) (dst : Nat → Nat) (r : MR), MR.save mem1 mr1 [65, 66] = .ok file ∧ MR.load (fun _ => 0) (some file) [65, 66] = .ok r ∧
      r.garbage = [img] ∧ r.into = mr1.into ∧ r.refText = mr1.refText ∧ IsImage mem1 mr1.vmptr 4096 fill dst img ∧
      r.vmptr.length = mr1.vmptr.length ∧
      ∀ i c, mr1.vmptr[i]? = some c → r.vmptr[i]? = some (Chunk.mk c.kind c.length (4096 + dst i)) := by
  refine snapshot_spec mem1 (fun _ => 0) mr1 [65, 66] ⟨.heapPtr, 8, 4096⟩ rfl (by simp [mr1]) (by simp) ?_ ?_ ?_ (by simp [mr1, chunks1])
    ?_ (by decide) (by decide)
  · simp [Ordered, mr1, chunks1]
  · intro c hc
    simp [mr1, chunks1] at hc
    rcases hc with rfl | rfl <;> decide
  · intro c hc
    simp [mr1, chunks1] at hc
    rcases hc with rfl | rfl <;> decide
  · intro c hc
    simp [mr1, chunks1] at hc
    subst hc
    decide

/-- The chunk after the hole of 11 bytes is 3 bytes after the first one in the snapshot. -/
example : ((MR.save mem1 mr1 [65, 66]).bind fun f => (MR.load (fun _ => 0) (some f) [65, 66]).map (·.vmptr)) =
    .ok [⟨.heapPtr, 8, 4096⟩, ⟨.data, 3, 4107⟩] := by decide +kernel

/-- A snapshot without its last two bytes is loaded, with what was in memory. -/
theorem truncated_fails : ((MR.save mem1 mr1 [65, 66]).bind fun f =>
    (MR.load (fun k => BitVec.ofNat 8 (100 + k)) (some (f.take (f.length - 2))) [65, 66]).map (·.garbage)) =
      .ok [[0x0d, 0x10, 0, 0, 0, 0, 0, 0, 0x80, 0x80, 0x80, 7, 112, 113]] := by decide +kernel

example : ∃ r, MR.load (fun _ => 0) (some (header [65] ++ [1, 2, 3])) [65] = .ok r :=
  (label_spec (fun _ => 0) [65] [65] [1, 2, 3] (by simp) (by decide) (by decide)).2 rfl

example : ¬ ∃ r, MR.load (fun _ => 0) (some (header [65] ++ [1, 2, 3])) [65, 66] = .ok r :=
  fun h => absurd ((label_spec (fun _ => 0) [65] [65, 66] [1, 2, 3] (by simp) (by decide) (by decide)).1 h) (by decide)

example : MR.save mem1 mr1 (List.replicate 129 65) = throwOut :=
  (long_label mem1 (fun _ => 0) mr1 (List.replicate 129 65) (by simp) (by simp [mr1]) none).1

example : MR.save mem1 { mr1 with garbage := [] } [65] = ubOut := save_first_fails _ _ _ rfl

end Verif.MemResolv
