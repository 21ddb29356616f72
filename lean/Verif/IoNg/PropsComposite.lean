import Verif.IoNg.PropsStore
import Verif.StrUtil.Props
import Mathlib.Tactic.Set

/-!
# C51, C54: vectors of vectors, pairs and stacks
-/

namespace Verif.IoNg

open Verif.Str Verif.StrUtil

variable {α : Type} [DecidableEq α]

/-! ## Places -/

/-- The suffix of the letters. -/
def cor : Str := "ComplexOrReal".toList

theorem text_concat (n : Name) (w : Str) (h : n ≠ []) : Name.text (n ++ [w]) = n.text ++ '/' :: w := by
  induction n with
  | nil => exact absurd rfl h
  | cons v n ih =>
    by_cases hn : n = []
    · subst hn; rfl
    · rw [List.cons_append, text_cons v _ (by simp), text_cons v n hn, ih hn]
      simp

theorem foot_self (n : Name) : Foot n ("Def".toList :: n) := .inl (List.prefix_refl _)
theorem foot_mark (n : Name) : Foot n ("Def".toList :: mark n) := .inr rfl

/-- The places of an entry are below the vector. -/
theorem foot_below (n : Name) (w : Str) (q : Path) (h : Foot (n ++ [w]) q) :
    ("Def".toList :: n) <+: q ∧ q ≠ "Def".toList :: n := by
  have key : ∀ v, ("Def".toList :: (n ++ [v])) <+: q → ("Def".toList :: n) <+: q ∧ q ≠ "Def".toList :: n := by
    intro v hv
    refine ⟨?_, ?_⟩
    · refine List.IsPrefix.trans ?_ hv
      rw [← List.cons_append]
      exact List.prefix_append _ _
    · rintro rfl
      have := hv.length_le
      simp at this
  rcases h with h | h
  · exact key w h
  · rw [mark_concat] at h
    exact key _ (by rw [h])

/-- Entries with different names have no places in common. -/
theorem foot_disjoint (n : Name) (a b : Str) (ha : ¬ cor <:+ a) (hb : ¬ cor <:+ b) (hab : a ≠ b) (q : Path)
    (h1 : Foot (n ++ [a]) q) (h2 : Foot (n ++ [b]) q) : False := by
  have eqpre : ∀ x y : Str, ("Def".toList :: (n ++ [x])) <+: q → ("Def".toList :: (n ++ [y])) <+: q → x = y := by
    intro x y hx hy
    have := (List.prefix_of_prefix_length_le hx hy (by simp)).eq_of_length (by simp)
    simpa using this
  unfold Foot at h1 h2
  rw [mark_concat] at h1 h2
  have p1 : ∃ x, ("Def".toList :: (n ++ [x])) <+: q ∧ (x = a ∨ x = a ++ cor) := by
    rcases h1 with h1 | h1
    · exact ⟨a, h1, .inl rfl⟩
    · exact ⟨a ++ cor, by rw [h1]; exact List.prefix_refl _, .inr rfl⟩
  have p2 : ∃ x, ("Def".toList :: (n ++ [x])) <+: q ∧ (x = b ∨ x = b ++ cor) := by
    rcases h2 with h2 | h2
    · exact ⟨b, h2, .inl rfl⟩
    · exact ⟨b ++ cor, by rw [h2]; exact List.prefix_refl _, .inr rfl⟩
  obtain ⟨x, hx, hx'⟩ := p1
  obtain ⟨y, hy, hy'⟩ := p2
  have hxy := eqpre x y hx hy
  subst hxy
  rcases hx' with rfl | rfl
  · rcases hy' with rfl | h
    · exact hab rfl
    · exact ha (h ▸ List.suffix_append _ _)
  · rcases hy' with h | h
    · exact hb (h ▸ List.suffix_append _ _)
    · exact hab (List.append_cancel_right h)

theorem digits_part (i : Nat) : IsPart (digits i) := by
  refine ⟨by have := Nat.toDigits_ne_nil (b := 10) (n := i); simpa [digits] using this, ?_⟩
  intro h
  have := isDigit_toDigits i '/' h
  revert this; decide

theorem digits_cor (i : Nat) : ¬ cor <:+ digits i := by
  intro h
  have : 'C' ∈ digits i := h.subset (by decide)
  have := isDigit_toDigits i 'C' this
  revert this; decide

theorem digits_size (i : Nat) : digits i ≠ "Size".toList := by
  intro h
  have : 'S' ∈ digits i := by rw [h]; decide
  have := isDigit_toDigits i 'S' this
  revert this; decide

theorem digits_inj (i j : Nat) (h : digits i = digits j) : i = j := by
  have := congrArg (fun l => Nat.ofDigitChars 10 l 0) h
  simpa [digits, Nat.ofDigitChars_toDigits] using this

theorem size_cor : ¬ cor <:+ "Size".toList := by decide

theorem size_part : IsPart "Size".toList := ⟨by decide, by decide⟩

theorem parts_concat {n : Name} (h : ∀ w ∈ n, IsPart w) {v : Str} (hv : IsPart v) : ∀ w ∈ n ++ [v], IsPart w := by
  intro w hw
  rcases List.mem_append.1 hw with hw | hw
  · exact h w hw
  · rw [List.mem_singleton.1 hw]; exact hv

theorem dropLast_concat' (n : Name) (w : Str) : ("Def".toList :: (n ++ [w])).dropLast = "Def".toList :: n := by
  rw [cons_dropLast _ _ (by simp)]; simp

/-! ## Single values -/

/-- Values of one data set. -/
def leafCodec [Zero α] (k : LeafKind) : Codec α (Leaf α) := ⟨fun f name v => v.write f name .no, fun h f name => Leaf.read h f name k⟩

theorem read_congr [Zero α] (h : H5 α) (f g : File α) (n : Name) (h0 : n ≠ []) (hn : ∀ w ∈ n, IsPart w)
    (hd : f ("Def".toList :: n) = g ("Def".toList :: n))
    (hm : f ("Def".toList :: mark n) = g ("Def".toList :: mark n)) (k : LeafKind) :
    Leaf.read h f n.text k = Leaf.read h g n.text k := by
  have hp := path_inDef n h0 hn
  have hpm : h5path (inDef (marker n.text)) = "Def".toList :: mark n := by
    rw [marker_text n h0]
    exact path_inDef _ (mark_ne_nil n h0) (mark_parts n hn)
  have e1 : f.openDataSet (inDef n.text) = g.openDataSet (inDef n.text) := by
    rw [openDataSet_eq f _ _ hp, openDataSet_eq g _ _ hp, hd]
  have e2 : f.openDataSet (inDef (marker n.text)) = g.openDataSet (inDef (marker n.text)) := by
    rw [openDataSet_eq f _ _ hpm, openDataSet_eq g _ _ hpm, hm]
  cases k <;> simp only [Leaf.read, readScalar, readString, readBool, readVector, readComplex, readBools, readInternal,
    onDisk, e1, e2]

/-- **C51** Numbers, strings, vectors of numbers and of `bool`s. -/
theorem leaf_lawful [Zero α] (k : LeafKind) : (leafCodec k : Codec α (Leaf α)).Lawful (fun v => v.Ok ∧ v.kind = k) := by
  refine ⟨?_, ?_⟩
  · rintro f n v h0 hn ⟨hok, hk⟩ hpar hfree
    have hp := path_inDef n h0 hn
    have hpm : h5path (inDef (marker n.text)) = "Def".toList :: mark n := by
      rw [marker_text n h0]
      exact path_inDef _ (mark_ne_nil n h0) (mark_parts n hn)
    have hmark : ("Def".toList :: mark n).dropLast = ("Def".toList :: n).dropLast := by
      rw [cons_dropLast _ _ (mark_ne_nil n h0), cons_dropLast _ _ h0, mark_dropLast]
    have hmn : "Def".toList :: n ≠ "Def".toList :: mark n := by
      simp only [ne_eq, List.cons.injEq, true_and]
      rcases List.eq_nil_or_concat n with rfl | ⟨m, w, rfl⟩
      · exact absurd rfl h0
      · rw [List.concat_eq_append, mark_concat]
        simp
    have hW : writeLetter f n.text v.kind = f.set ("Def".toList :: mark n) (letterNode v.kind) := by
      unfold writeLetter letterNode
      cases v.kind.letter with
      | none =>
        show f = f.set ("Def".toList :: mark n) none
        funext q
        by_cases hq : q = "Def".toList :: mark n
        · subst hq; rw [set_same, hfree _ (foot_mark n)]
        · rw [set_other _ _ _ _ hq]
      | some c =>
        simp only [writeComplexOrReal, writeScalar, put, internalWrite_eq _ _ _ _ hpm (by simp), hmark, hpar,
          hfree _ (foot_mark n), and_self, if_true, Option.map_some]
    have h1p : (f.set ("Def".toList :: mark n) (letterNode v.kind)) ("Def".toList :: n) = none := by
      rw [set_other _ _ _ _ hmn, hfree _ (foot_self n)]
    have h1par : (f.set ("Def".toList :: mark n) (letterNode v.kind)) ("Def".toList :: n).dropLast = some .group := by
      rw [set_other _ _ _ _ (by rw [← hmark]; exact dropLast_ne _ (by simp)), hpar]
    have hput : put (writeLetter f n.text v.kind) .no (inDef n.text) v.data =
        (f.set ("Def".toList :: mark n) (letterNode v.kind)).set ("Def".toList :: n) (some (.data v.data)) := by
      rw [hW, put_eq _ _ _ _ _ hp (by simp) (by rw [h1p]; simp) (by rw [h1p]; simp), if_pos ⟨h1par, .inr h1p⟩]
    refine ⟨_, leaf_write f _ v .no hok (fun _ => rfl) (by simp), ?_, ?_⟩
    · intro q hq
      rw [hput, set_other _ _ _ _ (by rintro rfl; exact hq (foot_self n)),
        set_other _ _ _ _ (by rintro rfl; exact hq (foot_mark n))]
    · intro h
      rw [hput]
      subst hk
      exact leaf_read h _ n h0 hn v hok (set_same _ _ _) (by rw [set_other _ _ _ _ hmn.symm, set_same])
  · intro h f g n h0 hn hq
    exact read_congr h f g n h0 hn (hq _ (foot_self n)) (hq _ (foot_mark n)) k

/-! ## Entries -/

theorem createGroup_ok (f : File α) (n : Name) (h0 : n ≠ []) (hn : ∀ w ∈ n, IsPart w)
    (hpar : f ("Def".toList :: n).dropLast = some .group) (hfree : f ("Def".toList :: n) = none) :
    createGroup f n.text = .ok (f.set ("Def".toList :: n) (some .group)) := by
  unfold createGroup File.createGroup
  simp only [path_inDef n h0 hn]
  exact if_pos ⟨by simp, hfree, hpar⟩

theorem scalar_write (f : File α) (n : Name) (w : Str) (h0 : n ≠ []) (hn : ∀ w ∈ n, IsPart w) (hw : IsPart w) (ty : Ty)
    (x : Num α) (m : Mode) (hpar : f ("Def".toList :: n) = some .group)
    (hg : f ("Def".toList :: (n ++ [w])) ≠ some .group) (hm : m = .allow ∨ f ("Def".toList :: (n ++ [w])) = none) :
    writeScalar f (n.text ++ '/' :: w) ty x m = f.set ("Def".toList :: (n ++ [w])) (some (.data ⟨ty, [x]⟩)) := by
  unfold writeScalar
  rw [← text_concat n w h0, put_eq f m _ _ _ (path_inDef _ (by simp) (parts_concat hn hw)) (by simp) hg
    (by intro _; rw [dropLast_concat']; exact hpar), dropLast_concat', if_pos ⟨hpar, hm⟩]

theorem scalar_read (h : H5 α) (f : File α) (n : Name) (w : Str) (h0 : n ≠ []) (hn : ∀ w ∈ n, IsPart w) (hw : IsPart w)
    (s ty : Ty) (x old : Num α) (hx : x.Fits ty) (hf : f ("Def".toList :: (n ++ [w])) = some (.data ⟨s, [x]⟩)) :
    readScalar h f (n.text ++ '/' :: w) ty old = .ok x := by
  unfold readScalar
  rw [← text_concat n w h0, openDataSet_eq f _ _ (path_inDef _ (by simp) (parts_concat hn hw)), hf]
  simp only [bind, Except.bind, pure, Except.pure, h.cvt_fits _ _ _ hx]

theorem entries_ok {T : Type} (c : Codec α T) (ok : T → Prop) (hc : c.Lawful ok) (n : Name) (h0 : n ≠ [])
    (hn : ∀ w ∈ n, IsPart w) (xs : List T) (hok : ∀ x ∈ xs, ok x) (i : Nat) (f : File α)
    (hpar : f ("Def".toList :: n) = some .group)
    (hfree : ∀ j, i ≤ j → j < i + xs.length → ∀ q, Foot (n ++ [digits j]) q → f q = none) :
    ∃ f', writeEntries c n.text i xs f = .ok f' ∧
      (∀ q, (∀ j, i ≤ j → j < i + xs.length → ¬ Foot (n ++ [digits j]) q) → f' q = f q) ∧
      ∀ h (k : Nat) (x : T), xs[k]? = some x → c.read h f' (n.text ++ '/' :: digits (i + k)) = .ok x := by
  induction xs generalizing i f with
  | nil => exact ⟨f, rfl, fun _ _ => rfl, fun h k x hx => by simp at hx⟩
  | cons x xs ih =>
    have hpj : ∀ j, ∀ w ∈ n ++ [digits j], IsPart w := fun j => parts_concat hn (digits_part j)
    obtain ⟨f1, h1, h2, h3⟩ := hc.writes f (n ++ [digits i]) x (by simp) (hpj i) (hok x (by simp))
      (by rw [dropLast_concat']; exact hpar) (hfree i (le_refl _) (by simp))
    rw [text_concat n _ h0] at h1
    obtain ⟨f2, h4, h5, h6⟩ := ih (fun y hy => hok y (by simp [hy])) (i + 1) f1
      (by
        rw [h2 _ (fun hq => (foot_below n _ _ hq).2 rfl)]; exact hpar)
      (by
        intro j hj1 hj2 q hq
        rw [h2 q (fun hq' => foot_disjoint n _ _ (digits_cor _) (digits_cor _)
          (fun e => by have := digits_inj _ _ e; omega) q hq' hq)]
        exact hfree j (by omega) (by simp; omega) q hq)
    refine ⟨f2, ?_, ?_, ?_⟩
    · simp only [writeEntries, h1, bind, Except.bind]
      exact h4
    · intro q hq
      rw [h5 q (fun j hj1 hj2 => hq j (by omega) (by simp; omega)), h2 q (hq i (le_refl _) (by simp))]
    · intro h k y hy
      cases k with
      | zero =>
        cases hy
        rw [Nat.add_zero]
        have := hc.local_ h f2 f1 (n ++ [digits i]) (by simp) (hpj i) (by
          intro q hq
          apply h5 q
          intro j hj1 hj2 hq'
          exact foot_disjoint n _ _ (digits_cor _) (digits_cor _) (fun e => by have := digits_inj _ _ e; omega) q hq hq')
        rw [h3 h, text_concat n _ h0] at this
        exact this
      | succ k =>
        have := h6 h k y hy
        rw [show i + (k + 1) = i + 1 + k by omega]
        exact this

/-- A group with its size and its entries. -/
theorem list_written {T : Type} (c : Codec α T) (ok : T → Prop) (hc : c.Lawful ok) (f : File α) (n : Name) (xs : List T)
    (h0 : n ≠ []) (hn : ∀ w ∈ n, IsPart w) (hok : ∀ x ∈ xs, ok x) (hlen : xs.length < 2 ^ 64)
    (hpar : f ("Def".toList :: n).dropLast = some .group) (hfree : ∀ q, Foot n q → f q = none) :
    ∃ f1 f', createGroup f n.text = .ok f1 ∧
      writeEntries c n.text 0 xs (writeScalar f1 (n.text ++ "/Size".toList) .size (.int xs.length) .no) = .ok f' ∧
      (∀ q, ¬ Foot n q → f' q = f q) ∧ (∀ h, readSize h f' n.text = .ok xs.length) ∧
      ∀ h (k : Nat) (x : T), xs[k]? = some x → c.read h f' (n.text ++ '/' :: digits k) = .ok x := by
  refine ⟨f.set ("Def".toList :: n) (some .group), ?_⟩
  have hbelow : ∀ w q, Foot (n ++ [w]) q → Foot n q := fun w q hq => .inl (foot_below n w q hq).1
  have hsz : "Def".toList :: (n ++ ["Size".toList]) ≠ "Def".toList :: n := (foot_below n _ _ (foot_self _)).2
  set f1 := f.set ("Def".toList :: n) (some .group) with hf1
  have hw : writeScalar f1 (n.text ++ "/Size".toList) .size (.int xs.length) .no =
      f1.set ("Def".toList :: (n ++ ["Size".toList])) (some (.data ⟨.size, [.int xs.length]⟩)) := by
    have h1 : f1 ("Def".toList :: (n ++ ["Size".toList])) = none := by
      rw [hf1, set_other _ _ _ _ hsz]
      exact hfree _ (hbelow _ _ (foot_self _))
    exact scalar_write f1 n "Size".toList h0 hn size_part _ _ _ (set_same _ _ _) (by rw [h1]; simp) (.inr h1)
  set f2 := f1.set ("Def".toList :: (n ++ ["Size".toList])) (some (.data ⟨.size, [.int xs.length]⟩)) with hf2
  obtain ⟨f', h1, h2, h3⟩ := entries_ok c ok hc n h0 hn xs hok 0 f2
    (by rw [hf2, set_other _ _ _ _ hsz.symm, hf1, set_same])
    (by
      intro j _ _ q hq
      rw [hf2, set_other _ _ _ _ (by
        rintro rfl
        exact foot_disjoint n _ _ (digits_cor j) size_cor (digits_size j) _ hq (foot_self _)), hf1,
        set_other _ _ _ _ (foot_below n _ q hq).2]
      exact hfree q (hbelow _ q hq))
  refine ⟨f', createGroup_ok f n h0 hn hpar (hfree _ (foot_self n)), ?_, ?_, ?_, ?_⟩
  · rw [hw]; exact h1
  · intro q hq
    rw [h2 q (fun j _ _ hq' => hq (hbelow _ q hq')), hf2,
      set_other _ _ _ _ (by rintro rfl; exact hq (hbelow _ _ (foot_self _))), hf1,
      set_other _ _ _ _ (by rintro rfl; exact hq (foot_self n))]
  · intro h
    have hs : f' ("Def".toList :: (n ++ ["Size".toList])) = some (.data ⟨.size, [.int xs.length]⟩) := by
      rw [h2 _ (fun j _ _ hq => foot_disjoint n _ _ (digits_cor j) size_cor (digits_size j) _ hq (foot_self _)), hf2,
        set_same]
    unfold readSize
    rw [show n.text ++ "/Size".toList = n.text ++ '/' :: "Size".toList from rfl,
      scalar_read h f' n _ h0 hn size_part .size .size (.int xs.length) _ (by
        simp only [Num.Fits]; exact ⟨by omega, by exact_mod_cast hlen⟩) hs]
    rfl
  · intro h k x hx
    have := h3 h k x hx
    rwa [Nat.zero_add] at this

theorem mapM_range {T : Type} (g : Nat → Out T) (xs : List T) (h : ∀ (k : Nat) (x : T), xs[k]? = some x → g k = .ok x) :
    (List.range xs.length).mapM g = .ok xs := by
  induction xs using List.reverseRecOn with
  | nil => rfl
  | append_singleton xs x ih =>
    rw [List.length_append, List.length_singleton, List.range_succ, List.mapM_append, ih]
    · have := h xs.length x (by simp)
      simp [this, bind, Except.bind, pure, Except.pure]
    · intro k y hy
      apply h k y
      rw [List.getElem?_append_left (List.getElem?_eq_some_iff.1 hy).1]
      exact hy

/-- Vectors of vectors, pairs or objects. -/
def listCodec {T : Type} (c : Codec α T) : Codec α (List T) := ⟨writeList c, readList c⟩

theorem size_congr (h : H5 α) (f g : File α) (n : Name) (h0 : n ≠ []) (hn : ∀ w ∈ n, IsPart w)
    (hq : ∀ q, Foot n q → f q = g q) : readSize h f n.text = readSize h g n.text := by
  unfold readSize readScalar
  have hp := path_inDef (n ++ ["Size".toList]) (by simp) (parts_concat hn size_part)
  rw [text_concat n _ h0] at hp
  change h5path (inDef (n.text ++ "/Size".toList)) = _ at hp
  have : f.openDataSet (inDef (n.text ++ "/Size".toList)) = g.openDataSet (inDef (n.text ++ "/Size".toList)) := by
    rw [openDataSet_eq f _ _ hp, openDataSet_eq g _ _ hp, hq _ (.inl (foot_below n _ _ (foot_self _)).1)]
  rw [this]

/-- **C51** A vector of things that are kept is kept (fewer than `2^64`). -/
theorem list_lawful {T : Type} (c : Codec α T) (ok : T → Prop) (hc : c.Lawful ok) :
    (listCodec c).Lawful (fun xs => (∀ x ∈ xs, ok x) ∧ xs.length < 2 ^ 64) := by
  refine ⟨?_, ?_⟩
  · rintro f n xs h0 hn ⟨hok, hlen⟩ hpar hfree
    obtain ⟨f1, f', h1, h2, h3, h4, h5⟩ := list_written c ok hc f n xs h0 hn hok hlen hpar hfree
    refine ⟨f', ?_, h3, ?_⟩
    · simp only [listCodec, writeList, h1, bind, Except.bind]
      exact h2
    · intro h
      simp only [listCodec, readList, h4 h, bind, Except.bind]
      exact mapM_range _ xs (h5 h)
  · intro h f g n h0 hn hq
    simp only [listCodec, readList, size_congr h f g n h0 hn hq]
    congr 1
    funext k
    congr 1
    funext i
    have := hc.local_ h f g (n ++ [digits i]) (by simp) (parts_concat hn (digits_part i))
      (fun q hq' => hq q (.inl (foot_below n _ q hq').1))
    rwa [text_concat n _ h0] at this

/-- Pairs. -/
def pairCodec {S T : Type} (c : Codec α S) (d : Codec α T) : Codec α (S × T) := ⟨writePair c d, readPair c d⟩

/-- **C51** A pair of things that are kept is kept. -/
theorem pair_lawful {S T : Type} (c : Codec α S) (d : Codec α T) (okc : S → Prop) (okd : T → Prop) (hc : c.Lawful okc)
    (hd : d.Lawful okd) : (pairCodec c d).Lawful (fun x => okc x.1 ∧ okd x.2) := by
  have z : "0".toList = digits 0 := by decide
  have o : "1".toList = digits 1 := by decide
  have p0 : IsPart "0".toList := z ▸ digits_part 0
  have p1 : IsPart "1".toList := o ▸ digits_part 1
  have hdis : ∀ n q, Foot (n ++ ["0".toList]) q → Foot (n ++ ["1".toList]) q → False := fun n q =>
    foot_disjoint n _ _ (z ▸ digits_cor 0) (o ▸ digits_cor 1) (by decide) q
  refine ⟨?_, ?_⟩
  · rintro f n x h0 hn ⟨hx1, hx2⟩ hpar hfree
    have hbelow : ∀ w q, Foot (n ++ [w]) q → Foot n q := fun w q hq => .inl (foot_below n w q hq).1
    obtain ⟨f1, h1, h2, h3⟩ := hc.writes (f.set ("Def".toList :: n) (some .group)) (n ++ ["0".toList]) x.1 (by simp)
      (parts_concat hn p0) hx1 (by rw [dropLast_concat', set_same])
      (fun q hq => by rw [set_other _ _ _ _ (foot_below n _ q hq).2]; exact hfree q (hbelow _ q hq))
    obtain ⟨f2, h4, h5, h6⟩ := hd.writes f1 (n ++ ["1".toList]) x.2 (by simp)
      (parts_concat hn p1) hx2 (by
        rw [dropLast_concat', h2 _ (fun hq => (foot_below n _ _ hq).2 rfl), set_same])
      (fun q hq => by
        rw [h2 q (fun hq' => hdis n q hq' hq), set_other _ _ _ _ (foot_below n _ q hq).2]; exact hfree q (hbelow _ q hq))
    rw [text_concat n _ h0] at h1 h4
    refine ⟨f2, ?_, ?_, ?_⟩
    · simp only [pairCodec, writePair, createGroup_ok f n h0 hn hpar (hfree _ (foot_self n)), bind, Except.bind]
      rw [show n.text ++ "/0".toList = n.text ++ '/' :: "0".toList from rfl, h1]
      exact h4
    · intro q hq
      rw [h5 q (fun hq' => hq (hbelow _ q hq')), h2 q (fun hq' => hq (hbelow _ q hq')),
        set_other _ _ _ _ (by rintro rfl; exact hq (foot_self n))]
    · intro h
      have g1 := hc.local_ h f2 f1 (n ++ ["0".toList]) (by simp) (parts_concat hn p0)
        (fun q hq => h5 q (fun hq' => hdis n q hq hq'))
      have g2 := h6 h
      rw [h3 h, text_concat n _ h0] at g1
      rw [text_concat n _ h0] at g2
      simp only [pairCodec, readPair]
      rw [show n.text ++ "/0".toList = n.text ++ '/' :: "0".toList from rfl, g1,
        show n.text ++ "/1".toList = n.text ++ '/' :: "1".toList from rfl, g2]
      rfl
  · intro h f g n h0 hn hq
    have e : ∀ w q, Foot (n ++ [w]) q → f q = g q := fun w q hq' => hq q (.inl (foot_below n _ q hq').1)
    have g1 := hc.local_ h f g (n ++ ["0".toList]) (by simp) (parts_concat hn p0) (e _)
    have g2 := hd.local_ h f g (n ++ ["1".toList]) (by simp) (parts_concat hn p1) (e _)
    rw [text_concat n _ h0] at g1 g2
    simp only [pairCodec, readPair]
    rw [show n.text ++ "/0".toList = n.text ++ '/' :: "0".toList from rfl, g1,
      show n.text ++ "/1".toList = n.text ++ '/' :: "1".toList from rfl, g2]

/-! ## Other names -/

theorem feet_disjoint (n m : Name) (hn : Good n) (hm : Good m) (h1 : ¬ n <+: m) (h2 : ¬ m <+: n) (q : Path)
    (hq : Foot n q) (hq' : Foot m q) : False := by
  have key : ∀ n m : Name, Good n → Good m → ¬ n <+: m → n <+: mark m → False := by
    intro n m hn hm h1 h
    rcases List.eq_nil_or_concat m with rfl | ⟨k, w, rfl⟩
    · exact hm.1 rfl
    · rw [List.concat_eq_append] at h1
      rw [List.concat_eq_append, mark_concat] at h
      rcases List.prefix_concat_iff.1 h with h | h
      · exact (hn.2 (w ++ "ComplexOrReal".toList) (by rw [h]; simp)).2.2 (List.suffix_append _ _)
      · exact h1 (h.trans (List.prefix_append _ _))
  rcases hq with hq | rfl
  · rcases hq' with hq' | rfl
    · rcases List.prefix_or_prefix_of_prefix hq hq' with h | h
      · exact h1 (List.cons_prefix_cons.1 h).2
      · exact h2 (List.cons_prefix_cons.1 h).2
    · exact key n m hn hm h1 (List.cons_prefix_cons.1 hq).2
  · rcases hq' with hq' | hq'
    · exact key m n hm hn h2 (List.cons_prefix_cons.1 hq').2
    · rw [List.cons.injEq] at hq'
      have := mark_inj n m hn.1 hm.1 hq'.2
      exact h1 (this ▸ List.prefix_refl _)

/-- **C51** Writing a value of any type under a new name gives it back, and does not change what is read under any other
name (that is not a part of the first one). -/
theorem written_and_others {S T : Type} (c : Codec α S) (d : Codec α T) (okc : S → Prop) (okd : T → Prop)
    (hc : c.Lawful okc) (hd : d.Lawful okd) (f : File α) (n m : Name) (hn : Good n) (hm : Good m) (h1 : ¬ n <+: m)
    (h2 : ¬ m <+: n) (x : S) (hx : okc x) (hpar : f ("Def".toList :: n).dropLast = some .group)
    (hfree : ∀ q, Foot n q → f q = none) :
    ∃ f', c.write f n.text x = .ok f' ∧ (∀ h, c.read h f' n.text = .ok x) ∧
      ∀ h, d.read h f' m.text = d.read h f m.text := by
  obtain ⟨f', h3, h4, h5⟩ := hc.writes f n x hn.1 hn.parts hx hpar hfree
  refine ⟨f', h3, h5, ?_⟩
  intro h
  apply hd.local_ h f' f m hm.1 hm.parts
  intro q hq
  exact h4 q (fun hq' => feet_disjoint n m hn hm h1 h2 q hq' hq)

/-! ## Stacks -/

theorem stackLoop_eq {T : Type} (c : Codec α T) (name : Str) (i : Nat) (xs : List T) (f : File α) :
    writeStackLoop c name i xs f = (writeEntries c name i xs f).map fun f => (f, []) := by
  induction xs generalizing i f with
  | nil => rfl
  | cons x xs ih =>
    simp only [writeStackLoop, writeEntries]
    cases c.write f (name ++ '/' :: digits i) x with
    | error e => rfl
    | ok f => exact ih (i + 1) f

theorem readStackLoop_ok {T : Type} (c : Codec α T) (h : H5 α) (f : File α) (name : Str) (xs st : List T) (n : Nat)
    (hn : n ≤ xs.length)
    (hr : ∀ (k : Nat) (x : T), xs[k]? = some x → c.read h f (name ++ '/' :: digits k) = .ok x) :
    readStackLoop c h f name n st = .ok (xs.take n ++ st) := by
  induction n generalizing st with
  | zero => rfl
  | succ n ih =>
    have hx : xs[n]? = some (xs[n]'(by omega)) := List.getElem?_eq_getElem (by omega)
    simp only [readStackLoop, hr n _ hx, bind, Except.bind]
    rw [ih (xs[n]'(by omega) :: st) (by omega), List.take_succ_eq_append_getElem (by omega),
      List.append_assoc]
    rfl

/-- **C54** A stack that is written and read back is the same stack, top and all, put on top of the one it is read to;
the stack written is empty afterwards. -/
theorem stack_roundtrip {T : Type} (c : Codec α T) (ok : T → Prop) (hc : c.Lawful ok) (f : File α) (n : Name)
    (st old : List T) (h0 : n ≠ []) (hn : ∀ w ∈ n, IsPart w) (hok : ∀ x ∈ st, ok x) (hlen : st.length < 2 ^ 64)
    (hpar : f ("Def".toList :: n).dropLast = some .group) (hfree : ∀ q, Foot n q → f q = none) :
    ∃ f', writeStack c f n.text st = .ok (f', []) ∧ (∀ q, ¬ Foot n q → f' q = f q) ∧
      ∀ h, readStack c h f' n.text old = .ok (st ++ old) := by
  obtain ⟨f1, f', h1, h2, h3, h4, h5⟩ := list_written c ok hc f n st h0 hn hok hlen hpar hfree
  refine ⟨f', ?_, h3, ?_⟩
  · simp only [writeStack, h1, bind, Except.bind, stackLoop_eq]
    rw [h2]; rfl
  · intro h
    simp only [readStack, h4 h, bind, Except.bind]
    rw [readStackLoop_ok c h f' _ st old st.length (le_refl _) (h5 h), List.take_length]

/-- **C54** The text of a stack, followed by anything, is read back as the same stack. -/
theorem stack_text_roundtrip (st old rest : List Int) : stackRead (stackText st ++ rest) old = some (st ++ old, rest) := by
  unfold stackRead stackText readWords
  simp only [List.cons_append, List.length_append, Int.toNat_natCast]
  rw [if_neg (by omega)]
  simp only [bind, Option.bind_some, List.take_left', List.drop_left', pure]
  congr 2
  induction st generalizing old with
  | nil => rfl
  | cons x st ih => simp [List.foldl_append, ih]

/-! ## Entries one at a time -/

/-- `writeVectorEntry` for all values, in order. -/
def writeAll (name : Str) (ty : Ty) : Nat → List (Num α) → File α → Out (File α)
  | _, [], f => .ok f
  | i, x :: xs, f => do
    let f ← writeVectorEntry f name ty x i
    writeAll name ty (i + 1) xs f

/-- The group holds the entries written so far. -/
structure HasEntries (f : File α) (n : Name) (ty : Ty) (xs : List (Num α)) : Prop where
  group : f ("Def".toList :: n) = some .group
  size : f ("Def".toList :: (n ++ ["Size".toList])) = some (.data ⟨.size, [.int xs.length]⟩)
  entry : ∀ (i : Nat) (x : Num α), xs[i]? = some x → f ("Def".toList :: (n ++ [digits i])) = some (.data ⟨ty, [x]⟩)
  free : ∀ i, xs.length ≤ i → f ("Def".toList :: (n ++ [digits i])) = none

theorem entry_ne (n : Name) (a b : Str) (h : a ≠ b) : "Def".toList :: (n ++ [a]) ≠ "Def".toList :: (n ++ [b]) := by
  simpa using h

theorem next_entry (f : File α) (n : Name) (h0 : n ≠ []) (hn : ∀ w ∈ n, IsPart w) (ty : Ty) (xs : List (Num α))
    (x : Num α) (hx : xs ≠ []) (h : HasEntries f n ty xs) :
    ∃ f', writeVectorEntry f n.text ty x xs.length = .ok f' ∧ HasEntries f' n ty (xs ++ [x]) := by
  have hl : xs.length ≠ 0 := by simpa using hx
  have hfree := h.free xs.length (le_refl _)
  have hne : ∀ w, "Def".toList :: n ≠ "Def".toList :: (n ++ [w]) := fun w => (foot_below n _ _ (foot_self _)).2.symm
  have hsd : ∀ i, "Def".toList :: (n ++ ["Size".toList]) ≠ "Def".toList :: (n ++ [digits i]) :=
    fun i => entry_ne n _ _ (digits_size i).symm
  refine ⟨(f.set ("Def".toList :: (n ++ [digits xs.length])) (some (.data ⟨ty, [x]⟩))).set
    ("Def".toList :: (n ++ ["Size".toList])) (some (.data ⟨.size, [.int ((xs.length : Int) + 1)]⟩)), ?_, ?_⟩
  · unfold writeVectorEntry
    rw [if_neg hl]
    simp only [bind, Except.bind, pure, Except.pure, if_neg hl]
    rw [scalar_write f n (digits xs.length) h0 hn (digits_part _) ty x .no h.group (by rw [hfree]; simp) (.inr hfree),
      show n.text ++ "/Size".toList = n.text ++ '/' :: "Size".toList from rfl,
      scalar_write _ n "Size".toList h0 hn size_part .size _ .allow (by
        rw [set_other _ _ _ _ (hne _)]; exact h.group) (by
        rw [set_other _ _ _ _ (hsd _), h.size]; simp) (.inl rfl)]
  · refine ⟨?_, ?_, ?_, ?_⟩
    · rw [set_other _ _ _ _ (hne _), set_other _ _ _ _ (hne _)]; exact h.group
    · rw [set_same]; simp
    · intro i y hy
      rw [set_other _ _ _ _ (hsd i).symm]
      by_cases hi : i = xs.length
      · subst hi
        simp at hy
        subst hy
        exact set_same _ _ _
      · have hi' : i < xs.length := by
          have := (List.getElem?_eq_some_iff.1 hy).1
          simp at this; omega
        rw [set_other _ _ _ _ (entry_ne n _ _ (fun e => hi (digits_inj _ _ e)))]
        rw [List.getElem?_append_left hi'] at hy
        exact h.entry i y hy
    · intro i hi
      simp at hi
      rw [set_other _ _ _ _ (hsd i).symm, set_other _ _ _ _ (entry_ne n _ _ (fun e => by
        have := digits_inj _ _ e; omega))]
      exact h.free i (by omega)

theorem first_entry (f : File α) (n : Name) (h0 : n ≠ []) (hn : ∀ w ∈ n, IsPart w) (ty : Ty) (x : Num α)
    (hpar : f ("Def".toList :: n).dropLast = some .group) (hfree : ∀ q, Foot n q → f q = none) :
    ∃ f', writeVectorEntry f n.text ty x 0 = .ok f' ∧ HasEntries f' n ty [x] := by
  have hne : ∀ w, "Def".toList :: n ≠ "Def".toList :: (n ++ [w]) := fun w => (foot_below n _ _ (foot_self _)).2.symm
  have hsd : ∀ i, "Def".toList :: (n ++ ["Size".toList]) ≠ "Def".toList :: (n ++ [digits i]) :=
    fun i => entry_ne n _ _ (digits_size i).symm
  have hno : ∀ w, f ("Def".toList :: (n ++ [w])) = none := fun w =>
    hfree _ (.inl (foot_below n _ _ (foot_self _)).1)
  have e1 : ∀ w, (f.set ("Def".toList :: n) (some .group)) ("Def".toList :: (n ++ [w])) = none := fun w => by
    rw [set_other _ _ _ _ (hne w).symm, hno]
  refine ⟨((f.set ("Def".toList :: n) (some .group)).set ("Def".toList :: (n ++ [digits 0]))
    (some (.data ⟨ty, [x]⟩))).set ("Def".toList :: (n ++ ["Size".toList]))
    (some (.data ⟨.size, [.int (((0 : Nat) : Int) + 1)]⟩)), ?_, ?_⟩
  · unfold writeVectorEntry
    rw [if_pos rfl, createGroup_ok f n h0 hn hpar (hfree _ (foot_self n))]
    simp only [bind, Except.bind, pure, Except.pure, if_true]
    rw [scalar_write _ n (digits 0) h0 hn (digits_part _) ty x .no (set_same _ _ _) (by rw [e1]; simp) (.inr (e1 _)),
      show n.text ++ "/Size".toList = n.text ++ '/' :: "Size".toList from rfl,
      scalar_write _ n "Size".toList h0 hn size_part .size _ .no (by
        rw [set_other _ _ _ _ (hne _), set_same]) (by
        rw [set_other _ _ _ _ (hsd _), e1]; simp) (.inr (by rw [set_other _ _ _ _ (hsd _), e1]))]
  · refine ⟨?_, ?_, ?_, ?_⟩
    · rw [set_other _ _ _ _ (hne _), set_other _ _ _ _ (hne _), set_same]
    · rw [set_same]; simp
    · intro i y hy
      have hi : i = 0 := by
        have := (List.getElem?_eq_some_iff.1 hy).1
        simp at this; omega
      subst hi
      cases hy
      rw [set_other _ _ _ _ (hsd 0).symm, set_same]
    · intro i hi
      simp at hi
      rw [set_other _ _ _ _ (hsd i).symm, set_other _ _ _ _ (entry_ne n _ _ (fun e => by
        have := digits_inj _ _ e; omega)), e1]

theorem writeAll_ok (n : Name) (h0 : n ≠ []) (hn : ∀ w ∈ n, IsPart w) (ty : Ty) (xs ys : List (Num α)) (hx : xs ≠ [])
    (f : File α) (h : HasEntries f n ty xs) :
    ∃ f', writeAll n.text ty xs.length ys f = .ok f' ∧ HasEntries f' n ty (xs ++ ys) := by
  induction ys generalizing xs f with
  | nil => exact ⟨f, rfl, by simpa using h⟩
  | cons y ys ih =>
    obtain ⟨f1, h1, h2⟩ := next_entry f n h0 hn ty xs y hx h
    obtain ⟨f2, h3, h4⟩ := ih (xs ++ [y]) (by simp) f1 h2
    refine ⟨f2, ?_, by simpa using h4⟩
    simp only [writeAll, h1, bind, Except.bind]
    simpa using h3

/-- **C51** Entries written one at a time: the last one is read by `readLastVectorEntry`, and all of them are read as
the entries of a vector. -/
theorem entries_roundtrip (h : H5 α) (f : File α) (n : Name) (h0 : n ≠ []) (hn : ∀ w ∈ n, IsPart w) (ty : Ty)
    (xs : List (Num α)) (old : Num α) (hx : xs ≠ []) (hfit : ∀ x ∈ xs, x.Fits ty) (hlen : xs.length < 2 ^ 31)
    (hpar : f ("Def".toList :: n).dropLast = some .group) (hfree : ∀ q, Foot n q → f q = none) :
    ∃ f', writeAll n.text ty 0 xs f = .ok f' ∧ readLastVectorEntry h f' n.text ty old = .ok (xs.getLast hx) ∧
      readSize h f' n.text = .ok xs.length ∧
      ∀ (i : Nat) (x : Num α), xs[i]? = some x → readScalar h f' (n.text ++ '/' :: digits i) ty old = .ok x := by
  obtain ⟨f', h1, h2⟩ : ∃ f', writeAll n.text ty 0 xs f = .ok f' ∧ HasEntries f' n ty xs := by
    cases xs with
    | nil => exact absurd rfl hx
    | cons x xs =>
      obtain ⟨f1, h1, h2⟩ := first_entry f n h0 hn ty x hpar hfree
      obtain ⟨f2, h3, h4⟩ := writeAll_ok n h0 hn ty [x] xs (by simp) f1 h2
      refine ⟨f2, ?_, h4⟩
      simp only [writeAll, h1, bind, Except.bind]
      exact h3
  have hread : ∀ (i : Nat) (x : Num α), xs[i]? = some x → readScalar h f' (n.text ++ '/' :: digits i) ty old = .ok x := by
    intro i x hi
    exact scalar_read h f' n _ h0 hn (digits_part i) ty ty x old (hfit x (List.mem_of_getElem? hi)) (h2.entry i x hi)
  have hpos : 0 < xs.length := List.length_pos_iff.2 hx
  refine ⟨f', h1, ?_, ?_, hread⟩
  · unfold readLastVectorEntry
    rw [show n.text ++ "/Size".toList = n.text ++ '/' :: "Size".toList from rfl,
      scalar_read h f' n _ h0 hn size_part .size .int (.int xs.length) _ (by
        simp only [Num.Fits]; omega) h2.size]
    simp only [bind, Except.bind]
    rw [if_neg (by omega), Int.toNat_natCast]
    apply hread
    rw [List.getLast_eq_getElem, List.getElem?_eq_getElem]
  · unfold readSize
    rw [show n.text ++ "/Size".toList = n.text ++ '/' :: "Size".toList from rfl,
      scalar_read h f' n _ h0 hn size_part .size .size (.int xs.length) _ (by
        simp only [Num.Fits]; omega) h2.size]
    rfl

/-! ## Examples -/

/-- Vectors of pairs of an integer and a vector of reals. -/
example : (listCodec (pairCodec (leafCodec (.scalar .int)) (leafCodec (.vec .real))) : Codec Int _).Lawful
    (fun xs => (∀ x ∈ xs, (x.1.Ok ∧ x.1.kind = .scalar .int) ∧ (x.2.Ok ∧ x.2.kind = .vec .real)) ∧ xs.length < 2 ^ 64) :=
  list_lawful _ _ (pair_lawful _ _ _ _ (leaf_lawful _) (leaf_lawful _))

/-- A new file satisfies the hypotheses under any name of one part. -/
example (w : Str) : ∃ f : File Int, openTrunc = .ok f ∧ f ("Def".toList :: [w]).dropLast = some .group ∧
    ∀ q, Foot [w] q → f q = none := by
  refine ⟨File.empty.set ["Def".toList] (some .group), ?_, by simp [File.set], ?_⟩
  · have hp : h5path (inDef []) = ["Def".toList] := by decide
    simp only [openTrunc, createGroup, File.createGroup, hp]
    rw [if_pos ⟨by simp, by simp [File.empty], by simp [File.empty]⟩]
  intro q hq
  have hq' := foot_below [] w q hq
  have : q ≠ [] := by rintro rfl; simpa using hq'.1
  rw [set_other _ _ _ _ hq'.2]
  simp [File.empty, this]

example : (do
    let f ← (openTrunc : Out (File Int))
    let r ← writeStack (leafCodec (.scalar .int)) f "s".toList [.scalar .int (.int 3), .scalar .int (.int 2), .scalar .int (.int 1)]
    readStack (leafCodec (.scalar .int)) h5id r.1 "s".toList []) =
    .ok [Leaf.scalar .int (.int 3), .scalar .int (.int 2), .scalar .int (.int 1)] := by decide +kernel

example : (do
    let f ← (openTrunc : Out (File Int))
    let f ← writeAll "v".toList .int 0 [.int 5, .int 6, .int 7] f
    readLastVectorEntry h5id f "v".toList .int (.int 0)) = .ok (.int 7) := by decide +kernel

/-- A vector of vectors of which one is empty cannot be read back. -/
theorem empty_inner_fails : (do
    let f ← (openTrunc : Out (File Int))
    let f ← writeList (leafCodec (.vec .int)) f "v".toList [.vec .int [.int 5], .vec .int []]
    readList (leafCodec (.vec .int)) h5id f "v".toList) = throwOut := by decide +kernel

end Verif.IoNg
