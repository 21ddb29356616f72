import Verif.IoSimple.ModelCf
import Verif.IoSimple.Props

/-!
# Continued fractions in text files (C107)
-/

namespace Verif.IoSimple

open Verif.StrUtil

/-! ## Reading at a place -/

/-- A text of white space. -/
def Blank (ws : Str) : Prop := ∀ c ∈ ws, isWs c = true

/-- A word. -/
def IsWord (w : Str) : Prop := w ≠ [] ∧ ∀ c ∈ w, isWs c = false

/-- A text that is empty or ends with white space. -/
def Term (t : Str) : Prop := t = [] ∨ ∃ c, t.getLast? = some c ∧ isWs c = true

theorem readWord_at {ws w : Str} {c : Char} (hws : Blank ws) (hw : IsWord w) (hc : isWs c = true) (r temp : Str) :
    readWord ⟨ws ++ (w ++ c :: r), false, false⟩ temp = (⟨c :: r, false, false⟩, w) := by
  unfold readWord
  rw [if_pos (by rfl)]
  simp only
  rw [dropWhile_ws ws _ hws]
  obtain ⟨t1, t2⟩ := takeWhile_stop (p := fun c => !isWs c) w c r (by
    intro y hy
    simp [hw.2 y hy]) (by simp [hc])
  rcases hl : w with _ | ⟨l0, ls⟩
  · exact absurd hl hw.1
  · have hl0 : isWs l0 = false := hw.2 l0 (by rw [hl]; exact List.mem_cons_self)
    rw [hl] at t1 t2
    rw [List.cons_append] at t1 t2 ⊢
    rw [List.dropWhile_cons, if_neg (by simp [hl0])]
    simp only [t1, t2]
    rfl

/-- What is at the beginning of a text that is empty or ends with white space. -/
theorem term_cases {t : Str} (ht : Term t) :
    Blank t ∨ ∃ ws w c t', t = ws ++ (w ++ c :: t') ∧ Blank ws ∧ IsWord w ∧ isWs c = true ∧ Term (c :: t') := by
  have e0 : t = t.takeWhile isWs ++ t.dropWhile isWs := (List.takeWhile_append_dropWhile).symm
  have hp : Blank (t.takeWhile isWs) := by
    intro y hy
    exact (List.all_takeWhile (p := isWs) (l := t) |> List.all_eq_true.mp) y hy
  rcases hd : t.dropWhile isWs with _ | ⟨d, t'⟩
  · left
    rw [hd, List.append_nil] at e0
    rw [e0]; exact hp
  · have hd' : isWs d = false := by
      have := List.head?_dropWhile_not isWs t
      rw [hd] at this
      simpa using this
    have e : d :: t' = (d :: t').takeWhile (fun c => !isWs c) ++ (d :: t').dropWhile fun c => !isWs c :=
      (List.takeWhile_append_dropWhile).symm
    have hwne : (d :: t').takeWhile (fun c => !isWs c) ≠ [] := by simp [List.takeWhile_cons, hd']
    have hwn : ∀ x ∈ (d :: t').takeWhile (fun c => !isWs c), isWs x = false := by
      intro y hy
      simpa using (List.all_takeWhile (p := fun c => !isWs c) (l := d :: t') |> List.all_eq_true.mp) y hy
    rw [hd] at e0
    generalize (d :: t').takeWhile (fun c => !isWs c) = w at *
    generalize t.takeWhile isWs = pre at *
    rcases hr2 : (d :: t').dropWhile (fun c => !isWs c) with _ | ⟨f, r⟩
    · exfalso
      rw [hr2, List.append_nil] at e
      rcases ht with ht | ⟨c, hc1, hc2⟩
      · rw [ht] at e0
        simp at e0
      · rw [e0, e, List.getLast?_append_of_ne_nil _ hwne] at hc1
        have := hwn c (List.mem_of_getLast? hc1)
        rw [hc2] at this
        simp at this
    · right
      have hf : isWs f = true := by
        have := List.head?_dropWhile_not (fun c => !isWs c) (d :: t')
        rw [hr2] at this
        simpa using this
      rw [hr2] at e
      have et : t = pre ++ (w ++ f :: r) := by rw [e0, e]
      refine ⟨pre, w, f, r, et, hp, ⟨hwne, hwn⟩, hf, .inr ?_⟩
      rcases ht with ht | ⟨c, hc1, hc2⟩
      · rw [ht] at et; simp at et
      · refine ⟨c, ?_, hc2⟩
        rw [et, ← List.append_assoc, List.getLast?_append_of_ne_nil _ (by simp)] at hc1
        exact hc1

theorem cwords_blank {t : Str} (h : Blank t) : cwords t = [] := by
  have := cwords_wss t [] h
  rw [List.append_nil] at this
  rw [this, cwords_nil]

/-- The loop of `readline` finds the value number `k` from a place on. -/
theorem rl_find {X : Type} (parse : Str → X → X) (label text : Str) (v : X) (hv : ∀ x, parse text x = v)
    (hw : IsWord (label ++ text)) (rest : Str) (k : Nat) : ∀ (fuel : Nat) (t temp : Str) (x : X) (once : Bool) (counter : Nat),
    Term t → (t ++ ((label ++ text) ++ '\n' :: rest)).length < fuel → k = counter + (hits label (cwords t)).length →
    rlLoop parse label k fuel ⟨t ++ ((label ++ text) ++ '\n' :: rest), false, false⟩ temp x once counter =
      some (⟨'\n' :: rest, false, false⟩, v, true, true, k) := by
  intro fuel
  induction fuel with
  | zero => intro t temp x once counter _ h; omega
  | succ fuel ih =>
    intro t temp x once counter ht hf hk
    rw [rlLoop, if_neg (by simp)]
    rcases term_cases ht with hb | ⟨ws, w, c, t', rfl, hws, hw', hc, ht'⟩
    · rw [readWord_at hb hw rfl]
      rw [cwords_blank hb] at hk
      simp only [Bool.false_eq_true, if_false, List.take_left, if_true, List.drop_left]
      have : k = counter := by simpa [hits] using hk
      rw [if_pos ⟨by omega, by omega⟩, hv, this]
    · have e : ws ++ (w ++ c :: t') ++ ((label ++ text) ++ '\n' :: rest) =
          ws ++ (w ++ c :: (t' ++ ((label ++ text) ++ '\n' :: rest))) := by simp
      have hcw : cwords (ws ++ (w ++ c :: t')) = w :: cwords (c :: t') := by
        rw [cwords_wss ws _ hws, cwords_token w c t' hw'.1 hw'.2 hc]
      rw [hcw] at hk
      rw [e, readWord_at hws hw' hc]
      simp only [Bool.false_eq_true, if_false]
      have hlen : (c :: (t' ++ ((label ++ text) ++ '\n' :: rest))).length < fuel := by
        have h0 : 0 < w.length := List.length_pos_of_ne_nil hw'.1
        rw [e] at hf
        simp only [List.length_append, List.length_cons] at hf ⊢
        omega
      by_cases hp : label <+: w
      · rw [if_pos ((take_prefix label w).2 hp)]
        rw [hits_cons_pos hp, List.length_cons] at hk
        rw [if_neg (by omega)]
        exact ih (c :: t') w _ true (counter + 1) ht' hlen (by omega)
      · rw [if_neg (fun h => hp ((take_prefix label w).1 h))]
        rw [hits_cons_neg hp] at hk
        exact ih (c :: t') w _ once counter ht' hlen hk

theorem readline_find {X : Type} (parse : Str → X → X) (label text : Str) (v : X) (hv : ∀ x, parse text x = v)
    (hw : IsWord (label ++ text)) (file rest t : Str) (ht : Term t) (x : X) :
    readline parse file ⟨t ++ ((label ++ text) ++ '\n' :: rest), false, false⟩ x label (hits label (cwords t)).length =
      .ok (⟨'\n' :: rest, false, false⟩, v, (hits label (cwords t)).length) := by
  have e := rl_find parse label text v hv hw rest (hits label (cwords t)).length
    ((t ++ ((label ++ text) ++ '\n' :: rest)).length + 1) t [] x false 0 ht (Nat.lt_succ_self _) (by omega)
  unfold readline readlineOnce
  simp only [Stream.good, Bool.not_false, Bool.and_self, Bool.not_true, Bool.false_eq_true, if_false, e, bind, Except.bind,
    Bool.or_self, Bool.false_and]
  rw [if_neg (by omega)]
  rfl

theorem readline_here {X : Type} (parse : Str → X → X) (label text : Str) (v : X) (hv : ∀ x, parse text x = v)
    (hw : IsWord (label ++ text)) (file rest ws : Str) (hb : Blank ws) (x : X) :
    readline parse file ⟨ws ++ ((label ++ text) ++ '\n' :: rest), false, false⟩ x label 0 =
      .ok (⟨'\n' :: rest, false, false⟩, v, 0) := by
  have ht : Term ws := by
    rcases List.eq_nil_or_concat ws with rfl | ⟨l, c, rfl⟩
    · left; rfl
    · right
      exact ⟨c, by simp, hb c (by simp)⟩
  have := readline_find parse label text v hv hw file rest ws ht x
  rw [cwords_blank hb] at this
  exact this

theorem readVector_here {α : Type} {pr : α → Str} {rd : Stream → Stream × α} (hr : Reads pr rd) (label : Str)
    (hw : IsWord label) (xs : List α) (hlen : xs.length ≤ 2147483647) (file rest ws : Str) (hb : Blank ws) :
    readVector rd file ⟨ws ++ (label ++ '\n' :: (vectorText pr xs ++ '\n' :: rest)), false, false⟩ [] label 0 =
      .ok (⟨'\n' :: '\n' :: rest, false, false⟩, xs) := by
  have hadv : advance file ⟨ws ++ (label ++ '\n' :: (vectorText pr xs ++ '\n' :: rest)), false, false⟩ label 0 =
      .ok (⟨'\n' :: (vectorText pr xs ++ '\n' :: rest), false, false⟩, label, 0) := by
    unfold advance advanceTo
    rw [if_neg (by omega)]
    simp only []
    generalize hT : vectorText pr xs ++ '\n' :: rest = T
    rw [advLoop, if_neg (by simp), readWord_at hb hw rfl]
    simp [Stream.good]
  unfold readVector
  rw [hadv]
  simp only [bind, Except.bind]
  have e1 : '\n' :: (vectorText pr xs ++ '\n' :: rest) =
      ['\n'] ++ Nat.toDigits 10 xs.length ++ '\n' :: ((xs.flatMap fun x => pr x ++ ['\n']) ++ '\n' :: rest) := by
    simp [vectorText]
  rw [e1, readInt_digits xs.length hlen ['\n'] '\n' _ (by intro y hy; simp at hy; subst hy; rfl) rfl]
  simp only []
  cases xs with
  | nil => simp [pure, Except.pure]
  | cons x xs =>
    rw [if_neg (by simp; omega), if_neg (by simp; omega)]
    obtain ⟨c, _, r, h1, h2⟩ := readElems_written hr (x :: xs) ('\n' :: rest)
    rw [List.cons_append] at h1
    rw [Int.toNat_natCast, h1]
    obtain ⟨rfl, rfl⟩ := List.cons.inj h2
    rfl

/-! ## Fractions -/

variable {α W : Type}

/-- Numbers that are written as words that do not begin with `#`, and are read back. -/
structure Fmt.Lawful (f : Fmt α) : Prop where
  word : ∀ a, IsWord (f.text a)
  hash : ∀ a, (f.text a).head? ≠ some '#'
  reads : Reads f.text f.rd
  parses : ∀ a x, f.parse (f.text a) x = a

/-- A fraction as the constructors and `set` leave it: unless the weight is zero, the eigenvalues and intensities are those of
the matrix; and sizes and sign are in the range of `int`. -/
structure Cf.Ok (zero : W) (diag : List α → List α → List α × List α) (c : Cf α W) : Prop where
  diag : c.weight ≠ zero → (c.eigs, c.intensity) = diag c.a c.b
  la : c.a.length ≤ 2147483647
  lb : c.b.length ≤ 2147483647
  le : c.eigs.length ≤ 2147483647
  li : c.intensity.length ≤ 2147483647
  sign : -2147483648 ≤ c.isign ∧ c.isign ≤ 2147483647

/-- The text of a fraction, and what is after it. -/
def cfText (f : Fmt α) (g : Fmt W) (c : Cf α W) (rest : Str) : Str :=
  "#Avector".toList ++ '\n' :: (vectorText f.text c.a ++ '\n' ::
  ("#Bvector".toList ++ '\n' :: (vectorText f.text c.b ++ '\n' ::
  (("#FreqEnum=".toList ++ freqName c.matsubara) ++ '\n' :: (' ' :: '\n' ::
  (("#CFWeight=".toList ++ g.text c.weight) ++ '\n' ::
  (("#CFEnergy=".toList ++ f.text c.eg) ++ '\n' ::
  (("#CFIsign=".toList ++ decimal c.isign) ++ '\n' ::
  ("#CFEigs".toList ++ '\n' :: (vectorText f.text c.eigs ++ '\n' ::
  ("#CFIntensities".toList ++ '\n' :: (vectorText f.text c.intensity ++ '\n' :: rest))))))))))))

theorem scalarLabel : "#CFWeight=".toList = "#CFWeight".toList ++ ['='] ∧ "#CFEnergy=".toList = "#CFEnergy".toList ++ ['='] ∧
    "#CFIsign=".toList = "#CFIsign".toList ++ ['='] := by decide

theorem cf_write (f : Fmt α) (g : Fmt W) (c : Cf α W) (file : Str) :
    Cf.write f g 0 file c = .ok (file ++ cfText f g c []) := by
  unfold Cf.write writeAb writeOther writeScalar cfText
  rw [scalarLabel.1, scalarLabel.2.1, scalarLabel.2.2]
  generalize "#Avector".toList = l1
  generalize "#Bvector".toList = l2
  generalize "#FreqEnum=".toList = l3
  generalize "#CFWeight".toList = l4
  generalize "#CFEnergy".toList = l5
  generalize "#CFIsign".toList = l6
  generalize "#CFEigs".toList = l7
  generalize "#CFIntensities".toList = l8
  have e : " ".toList = [' '] := rfl
  simp [bind, Except.bind, e]

theorem cfText_append (f : Fmt α) (g : Fmt W) (c : Cf α W) (r s : Str) :
    cfText f g c (r ++ s) = cfText f g c r ++ s := by
  unfold cfText
  simp only [List.append_assoc, List.cons_append]

theorem decimal_word (i : Int) : IsWord (decimal i) := by
  unfold decimal IsWord
  split
  · refine ⟨by simp, fun c hc => ?_⟩
    rcases List.mem_cons.1 hc with rfl | hc
    · rfl
    · exact digit_ws (isDigit_toDigits _ c hc)
  · refine ⟨fun h => ?_, fun c hc => digit_ws (isDigit_toDigits _ c hc)⟩
    have : 0 < (Nat.toDigits 10 i.natAbs).length := Nat.length_toDigits_pos
    rw [h] at this
    simp at this

theorem parseInt_decimal (i : Int) (h : -2147483648 ≤ i ∧ i ≤ 2147483647) (x : Int) : parseInt (decimal i) x = i := by
  have hall : ∀ n, (Nat.toDigits 10 n).takeWhile Str.isDigit = Nat.toDigits 10 n ∧
      (Nat.toDigits 10 n).dropWhile Str.isDigit = [] := by
    intro n
    have h1 := List.takeWhile_append_of_pos (l₂ := []) (isDigit_toDigits n)
    have h2 := List.dropWhile_append_of_pos (l₂ := []) (isDigit_toDigits n)
    simp only [List.append_nil, List.takeWhile_nil, List.dropWhile_nil] at h1 h2
    exact ⟨h1, h2⟩
  have hne : ∀ n, Nat.toDigits 10 n ≠ [] := by
    intro n h
    have : 0 < (Nat.toDigits 10 n).length := Nat.length_toDigits_pos
    rw [h] at this
    simp at this
  unfold parseInt readInt decimal Stream.ofText
  rw [if_pos (by rfl)]
  by_cases hn : i < 0
  · rw [if_pos hn]
    simp only []
    rw [List.dropWhile_cons, if_neg (by decide)]
    simp only [true_or, if_true, (hall _).1, (hall _).2, if_neg (hne _), ofDigitChars_toDigits, beq_self_eq_true]
    rw [if_neg (by omega), if_neg (by omega)]
    simp only [Option.getD_some]
    omega
  · rw [if_neg hn]
    rcases hd : Nat.toDigits 10 i.natAbs with _ | ⟨d, ds⟩
    · exact absurd hd (hne _)
    · have hdd : Str.isDigit d = true := isDigit_toDigits i.natAbs d (by rw [hd]; exact List.mem_cons_self)
      have hds : d ≠ '-' ∧ d ≠ '+' := by
        constructor <;> (rintro rfl; revert hdd; decide)
      simp only []
      rw [List.dropWhile_cons, if_neg (by simp [digit_ws hdd])]
      simp only [hds.1, hds.2, or_self, if_false]
      rw [← hd]
      simp only [(hall _).1, (hall _).2, if_neg (hne _), ofDigitChars_toDigits]
      rw [show (d == '-') = false by simp [hds.1]]
      simp only [Bool.false_eq_true, if_false]
      rw [if_neg (by omega), if_neg (by omega)]
      simp only [Option.getD_some]
      omega

theorem parseStr_word (w : Str) (hw : IsWord w) (x : Str) : parseStr w x = w := by
  have h1 := List.takeWhile_append_of_pos (p := fun c => !isWs c) (l₂ := []) (l₁ := w) (by intro c hc; simp [hw.2 c hc])
  simp only [List.append_nil, List.takeWhile_nil] at h1
  unfold parseStr readWord Stream.ofText
  rw [if_pos (by rfl)]
  rcases hl : w with _ | ⟨l0, ls⟩
  · exact absurd hl hw.1
  · have hl0 : isWs l0 = false := hw.2 l0 (by rw [hl]; exact List.mem_cons_self)
    simp only []
    rw [List.dropWhile_cons, if_neg (by simp [hl0])]
    simp only []
    rw [← hl, h1]

theorem freqName_word (m : Bool) : IsWord (freqName m) := by
  cases m <;> exact ⟨by decide, by decide⟩

theorem isWord_append {u v : Str} (hu : ∀ c ∈ u, isWs c = false) (hv : IsWord v) : IsWord (u ++ v) :=
  ⟨by simp [hv.1], fun c hc => (List.mem_append.1 hc).elim (hu c) (hv.2 c)⟩

theorem cf_read [DecidableEq W] {f : Fmt α} {g : Fmt W} (hf : f.Lawful) (hg : g.Lawful) (zeroA : α) (zero : W)
    (diag : List α → List α → List α × List α) (c : Cf α W) (hc : c.Ok zero diag) (file ws rest : Str) (hb : Blank ws) :
    Cf.read f g zeroA zero diag file ⟨ws ++ cfText f g c rest, false, false⟩ =
      .ok (⟨'\n' :: '\n' :: rest, false, false⟩, c) := by
  have b1 : Blank ['\n'] := by intro c h; simp at h; subst h; rfl
  have b2 : Blank ['\n', '\n'] := by intro c h; simp at h; subst h; rfl
  have b3 : Blank ['\n', ' ', '\n'] := by intro c h; simp at h; rcases h with rfl | rfl | rfl <;> rfl
  unfold Cf.read readAb readFreq cfText
  rw [readVector_here hf.reads _ ⟨by decide, by decide⟩ c.a hc.la file _ ws hb]
  simp only [bind, Except.bind]
  rw [show ∀ T : Str, '\n' :: '\n' :: T = ['\n', '\n'] ++ T from fun _ => rfl]
  rw [readVector_here hf.reads _ ⟨by decide, by decide⟩ c.b hc.lb file _ _ b2]
  simp only [pure, Except.pure]
  rw [show ∀ T : Str, '\n' :: '\n' :: T = ['\n', '\n'] ++ T from fun _ => rfl]
  rw [readline_here parseStr _ _ (freqName c.matsubara) (parseStr_word _ (freqName_word _))
    (isWord_append (by decide) (freqName_word _)) file _ _ b2]
  simp only []
  rw [show ∀ T : Str, '\n' :: ' ' :: '\n' :: T = ['\n', ' ', '\n'] ++ T from fun _ => rfl]
  rw [readline_here g.parse _ _ c.weight (hg.parses _) (isWord_append (by decide) (hg.word _)) file _ _ b3]
  simp only []
  rw [show ∀ T : Str, '\n' :: T = ['\n'] ++ T from fun _ => rfl]
  rw [readline_here f.parse _ _ c.eg (hf.parses _) (isWord_append (by decide) (hf.word _)) file _ _ b1]
  simp only []
  rw [show ∀ T : Str, '\n' :: T = ['\n'] ++ T from fun _ => rfl]
  rw [readline_here parseInt _ _ c.isign (parseInt_decimal _ hc.sign) (isWord_append (by decide) (decimal_word _)) file _ _ b1]
  simp only []
  rw [show ∀ T : Str, '\n' :: T = ['\n'] ++ T from fun _ => rfl]
  rw [readVector_here hf.reads _ ⟨by decide, by decide⟩ c.eigs hc.le file _ _ b1]
  simp only []
  rw [show ∀ T : Str, '\n' :: '\n' :: T = ['\n', '\n'] ++ T from fun _ => rfl]
  rw [readVector_here hf.reads _ ⟨by decide, by decide⟩ c.intensity hc.li file _ _ b2]
  simp only []
  have hm : decide (freqName c.matsubara = "Matsubara".toList) = c.matsubara := by
    cases c.matsubara <;> decide
  rw [hm]
  have hd : Cf.diagonalize zero diag ⟨c.a, c.b, c.matsubara, c.weight, c.eg, c.isign, c.eigs, c.intensity⟩ = c := by
    unfold Cf.diagonalize
    by_cases h : c.weight = zero
    · rw [if_pos h]
    · rw [if_neg h]
      have := hc.diag h
      simp only []
      rw [← this]
  rw [hd]

/-! ## Collections -/

/-- The text of fractions one after the other, and what is after it. -/
def manyText (f : Fmt α) (g : Fmt W) : List (Cf α W) → Str → Str
  | [], rest => rest
  | c :: cs, rest => cfText f g c (manyText f g cs rest)

/-- The text of a collection, and what is after it. -/
def collText (f : Fmt α) (g : Fmt W) (cs : List (Cf α W)) (rest : Str) : Str :=
  (collLabel ++ ['='] ++ Nat.toDigits 10 cs.length) ++ '\n' :: manyText f g cs rest

theorem manyText_append (f : Fmt α) (g : Fmt W) (cs : List (Cf α W)) (r s : Str) :
    manyText f g cs (r ++ s) = manyText f g cs r ++ s := by
  induction cs with
  | nil => rfl
  | cons c cs ih => rw [manyText, manyText, ih, cfText_append]

theorem many_write (f : Fmt α) (g : Fmt W) (cs : List (Cf α W)) (file : Str) :
    cs.foldlM (fun file c => Cf.write f g 0 file c) file = .ok (file ++ manyText f g cs []) := by
  induction cs generalizing file with
  | nil => simp [manyText, pure, Except.pure]
  | cons c cs ih =>
    rw [List.foldlM_cons, cf_write]
    simp only [bind, Except.bind]
    rw [ih, manyText, List.append_assoc]
    have := cfText_append f g c [] (manyText f g cs [])
    rw [List.nil_append] at this
    rw [this]

theorem coll_write (f : Fmt α) (g : Fmt W) (cs : List (Cf α W)) (file : Str) :
    writeColl f g 0 file cs = .ok (file ++ collText f g cs []) := by
  unfold writeColl writeScalar collText
  simp only [if_true, bind, Except.bind]
  rw [many_write]
  simp

theorem collText_append (f : Fmt α) (g : Fmt W) (cs : List (Cf α W)) (r s : Str) :
    collText f g cs (r ++ s) = collText f g cs r ++ s := by
  unfold collText
  rw [manyText_append]
  simp

theorem many_read [DecidableEq W] {f : Fmt α} {g : Fmt W} (hf : f.Lawful) (hg : g.Lawful) (zeroA : α) (zero : W)
    (diag : List α → List α → List α × List α) (file : Str) (cs : List (Cf α W)) (hc : ∀ c ∈ cs, c.Ok zero diag)
    (ws rest : Str) (hb : Blank ws) :
    ∃ ws', Blank ws' ∧ readMany f g zeroA zero diag file cs.length ⟨ws ++ manyText f g cs rest, false, false⟩ =
      .ok (⟨ws' ++ rest, false, false⟩, cs) := by
  induction cs generalizing ws with
  | nil => exact ⟨ws, hb, rfl⟩
  | cons c cs ih =>
    obtain ⟨ws', h1, h2⟩ := ih (fun c h => hc c (List.mem_cons_of_mem _ h)) ['\n', '\n'] (by
      intro c h; simp at h; subst h; rfl)
    refine ⟨ws', h1, ?_⟩
    rw [List.length_cons, readMany, manyText, cf_read hf hg zeroA zero diag c (hc c List.mem_cons_self) file ws _ hb]
    simp only [bind, Except.bind]
    rw [show '\n' :: '\n' :: manyText f g cs rest = ['\n', '\n'] ++ manyText f g cs rest from rfl, h2]
    rfl

/-! ### Words of the text that are not the label of a collection -/

/-- A text of complete words none of which begins with `s`. -/
def NoHit (s t : Str) : Prop := Term t ∧ hits s (cwords t) = []

theorem Term.append {t u : Str} (ht : Term t) (hu : Term u) : Term (t ++ u) := by
  rcases hu with rfl | ⟨c, h1, h2⟩
  · rwa [List.append_nil]
  · refine .inr ⟨c, ?_, h2⟩
    rw [List.getLast?_append_of_ne_nil _ (by rintro rfl; simp at h1), h1]

theorem hits_append (s : Str) (u v : List Str) : hits s (u ++ v) = hits s u ++ hits s v := List.filter_append ..

theorem NoHit.append {s t u : Str} (ht : NoHit s t) (hu : NoHit s u) : NoHit s (t ++ u) :=
  ⟨ht.1.append hu.1, by rw [cwords_append _ _ ht.1, hits_append, ht.2, hu.2]; rfl⟩

theorem noHit_word {s w : Str} (hw : IsWord w) (h : ¬ s <+: w) : NoHit s (w ++ ['\n']) := by
  refine ⟨.inr ⟨'\n', by simp, rfl⟩, ?_⟩
  rw [cwords_token w '\n' [] hw.1 hw.2 rfl, hits_cons_neg h]
  rw [cwords_ws _ _ rfl, cwords_nil]
  rfl

theorem noHit_blank {s t : Str} (h : Blank t) : NoHit s t := by
  refine ⟨?_, by rw [cwords_blank h]; rfl⟩
  rcases List.eq_nil_or_concat t with rfl | ⟨l, c, rfl⟩
  · left; rfl
  · exact .inr ⟨c, by simp, h c (by simp)⟩

theorem noHit_of_head {s w : Str} {c : Char} (hs : s.head? = some c) (h : w.head? ≠ some c) : ¬ s <+: w := by
  rintro ⟨r, rfl⟩
  cases s with
  | nil => simp at hs
  | cons d s => simp at hs; subst hs; simp at h

theorem noHit_flat {s : Str} {xs : List α} {pr : α → Str} (hw : ∀ a, IsWord (pr a)) (h : ∀ a, ¬ s <+: pr a) :
    NoHit s (xs.flatMap fun x => pr x ++ ['\n']) := by
  induction xs with
  | nil => exact noHit_blank (by intro c h; simp at h)
  | cons x xs ih =>
    rw [List.flatMap_cons]
    exact (noHit_word (hw x) (h x)).append ih

theorem digits_word (n : Nat) : IsWord (Nat.toDigits 10 n) := by
  refine ⟨fun h => ?_, fun c hc => digit_ws (isDigit_toDigits _ c hc)⟩
  have : 0 < (Nat.toDigits 10 n).length := Nat.length_toDigits_pos
  rw [h] at this
  simp at this

theorem noHit_digits {s : Str} (hs : s.head? = some '#') (n : Nat) : ¬ s <+: Nat.toDigits 10 n := by
  refine noHit_of_head hs fun h => ?_
  have := isDigit_toDigits n '#' (List.mem_of_head? h)
  revert this
  decide

theorem noHit_vector {s : Str} (hs : s.head? = some '#') {f : Fmt α} (hf : f.Lawful) (xs : List α) :
    NoHit s (vectorText f.text xs) := by
  have := (noHit_word (digits_word xs.length) (noHit_digits hs xs.length)).append
    (noHit_flat (s := s) (xs := xs) hf.word fun a => noHit_of_head hs (hf.hash a))
  simpa [vectorText] using this

theorem noHit_label {s l t : Str} (hl : l.length ≤ s.length) (h : ¬ l <+: s) : ¬ s <+: l ++ t := by
  intro hp
  exact h (List.prefix_of_prefix_length_le (List.prefix_append l t) hp hl)

theorem noHit_cf {f : Fmt α} {g : Fmt W} (hf : f.Lawful) (hg : g.Lawful) (c : Cf α W) :
    NoHit (collLabel ++ ['=']) (cfText f g c []) := by
  have hs : (collLabel ++ ['=']).head? = some '#' := by decide
  have nl : NoHit (collLabel ++ ['=']) ['\n'] := noHit_blank (by intro c h; simp at h; subst h; rfl)
  have nb : NoHit (collLabel ++ ['=']) [' ', '\n'] := noHit_blank (by intro c h; simp at h; rcases h with rfl | rfl <;> rfl)
  have lab : ∀ l : Str, IsWord l → ¬ (collLabel ++ ['=']) <+: l → NoHit (collLabel ++ ['=']) (l ++ ['\n']) :=
    fun l h1 h2 => noHit_word h1 h2
  have h1 := lab "#Avector".toList ⟨by decide, by decide⟩ (by decide)
  have h2 := lab "#Bvector".toList ⟨by decide, by decide⟩ (by decide)
  have h3 := lab ("#FreqEnum=".toList ++ freqName c.matsubara) (isWord_append (by decide) (freqName_word _))
    (noHit_label (by decide) (by decide))
  have h4 := lab ("#CFWeight=".toList ++ g.text c.weight) (isWord_append (by decide) (hg.word _))
    (noHit_label (by decide) (by decide))
  have h5 := lab ("#CFEnergy=".toList ++ f.text c.eg) (isWord_append (by decide) (hf.word _))
    (noHit_label (by decide) (by decide))
  have h6 := lab ("#CFIsign=".toList ++ decimal c.isign) (isWord_append (by decide) (decimal_word _))
    (noHit_label (by decide) (by decide))
  have h7 := lab "#CFEigs".toList ⟨by decide, by decide⟩ (by decide)
  have h8 := lab "#CFIntensities".toList ⟨by decide, by decide⟩ (by decide)
  have v := fun xs => (noHit_vector hs hf xs).append nl
  have key := h1.append <| (v c.a).append <| h2.append <| (v c.b).append <| h3.append <| nb.append <| h4.append <| h5.append <|
    h6.append <| h7.append <| (v c.eigs).append <| h8.append (v c.intensity)
  have e : cfText f g c [] = _ := rfl
  unfold cfText at e ⊢
  generalize "#Avector".toList = l1 at *
  generalize "#Bvector".toList = l2 at *
  generalize "#FreqEnum=".toList = l3 at *
  generalize "#CFWeight=".toList = l4 at *
  generalize "#CFEnergy=".toList = l5 at *
  generalize "#CFIsign=".toList = l6 at *
  generalize "#CFEigs".toList = l7 at *
  generalize "#CFIntensities".toList = l8 at *
  simpa only [List.append_assoc, List.cons_append, List.nil_append] using key

theorem noHit_many {f : Fmt α} {g : Fmt W} (hf : f.Lawful) (hg : g.Lawful) (cs : List (Cf α W)) :
    NoHit (collLabel ++ ['=']) (manyText f g cs []) := by
  induction cs with
  | nil => exact noHit_blank (by intro c h; simp [manyText] at h)
  | cons c cs ih =>
    rw [manyText]
    have := cfText_append f g c [] (manyText f g cs [])
    rw [List.nil_append] at this
    rw [this]
    exact (noHit_cf hf hg c).append ih

/-- The text of collections one after the other. -/
def collsText (f : Fmt α) (g : Fmt W) (colls : List (List (Cf α W))) : Str := colls.flatMap fun cs => collText f g cs []

theorem colls_write (f : Fmt α) (g : Fmt W) (colls : List (List (Cf α W))) (file : Str) :
    colls.foldlM (fun file cs => writeColl f g 0 file cs) file = .ok (file ++ collsText f g colls) := by
  induction colls generalizing file with
  | nil => simp [collsText, pure, Except.pure]
  | cons cs colls ih =>
    rw [List.foldlM_cons, coll_write]
    simp only [bind, Except.bind]
    rw [ih, List.append_assoc]
    rfl

theorem hits_colls {f : Fmt α} {g : Fmt W} (hf : f.Lawful) (hg : g.Lawful) (colls : List (List (Cf α W))) :
    Term (collsText f g colls) ∧ (hits (collLabel ++ ['=']) (cwords (collsText f g colls))).length = colls.length := by
  induction colls with
  | nil => exact ⟨.inl rfl, by simp [collsText, cwords_nil, hits]⟩
  | cons cs colls ih =>
    have hw : IsWord (collLabel ++ ['='] ++ Nat.toDigits 10 cs.length) := isWord_append (by decide) (digits_word _)
    have hm := noHit_many hf hg cs
    have ht : Term (collText f g cs []) := by
      unfold collText
      rcases hm.1 with h | ⟨c, h1, h2⟩
      · rw [h]; exact .inr ⟨'\n', by rw [List.getLast?_append_of_ne_nil _ (by simp)]; rfl, rfl⟩
      · refine .inr ⟨c, ?_, h2⟩
        have hne : manyText f g cs [] ≠ [] := by intro e; rw [e] at h1; simp at h1
        rw [List.getLast?_append_of_ne_nil _ (by simp), List.getLast?_cons, h1]
        rfl
    have e : collsText f g (cs :: colls) = collText f g cs [] ++ collsText f g colls := by simp [collsText]
    rw [e]
    refine ⟨ht.append ih.1, ?_⟩
    rw [cwords_append _ _ ht, hits_append, List.length_append, ih.2]
    have : cwords (collText f g cs []) =
        (collLabel ++ ['='] ++ Nat.toDigits 10 cs.length) :: cwords (manyText f g cs []) := by
      unfold collText
      rw [cwords_token _ '\n' _ hw.1 hw.2 rfl, cwords_ws _ _ rfl]
    rw [this, hits_cons_pos (List.prefix_append _ _), hm.2]
    simp
    omega

/-- **C107** Collections of continued fractions written one after the other to a file are read back: collection number `k` by
its number, as it was. -/
theorem collection_roundtrip [DecidableEq W] {f : Fmt α} {g : Fmt W} (hf : f.Lawful) (hg : g.Lawful) (zeroA : α) (zero : W)
    (diag : List α → List α → List α × List α) (colls : List (List (Cf α W)))
    (hok : ∀ cs ∈ colls, ∀ c ∈ cs, c.Ok zero diag) (k : Nat) (cs : List (Cf α W)) (hk : colls[k]? = some cs)
    (hne : cs ≠ []) (hlen : cs.length ≤ 2147483647) :
    ∃ file st, colls.foldlM (fun file cs => writeColl f g 0 file cs) [] = .ok file ∧
      readColl f g zeroA zero diag file (.ofText file) k = .ok (st, cs, (cs.getLast hne).matsubara) := by
  obtain ⟨hk1, hk2⟩ := List.getElem?_eq_some_iff.1 hk
  have hsplit : colls = colls.take k ++ cs :: colls.drop (k + 1) := by
    rw [← hk2, List.getElem_cons_drop, List.take_append_drop]
  have hw : IsWord (collLabel ++ ['='] ++ Nat.toDigits 10 cs.length) := isWord_append (by decide) (digits_word _)
  obtain ⟨t1, t2⟩ := hits_colls hf hg (colls.take k)
  have hk' : (colls.take k).length = k := by rw [List.length_take]; omega
  rw [hk'] at t2
  have etext : collsText f g colls = collsText f g (colls.take k) ++ ((collLabel ++ ['='] ++ Nat.toDigits 10 cs.length) ++
      '\n' :: manyText f g cs (collsText f g (colls.drop (k + 1)))) := by
    conv_lhs => rw [hsplit]
    unfold collsText
    rw [List.flatMap_append, List.flatMap_cons]
    have := collText_append f g cs [] (collsText f g (colls.drop (k + 1)))
    rw [List.nil_append] at this
    unfold collsText at this
    rw [← this]
    rfl
  obtain ⟨ws', hb, hr⟩ := many_read hf hg zeroA zero diag (collsText f g colls) cs
    (fun c hc => hok cs (List.mem_of_getElem? hk) c hc) ['\n'] (collsText f g (colls.drop (k + 1)))
    (by intro c h; simp at h; subst h; rfl)
  refine ⟨collsText f g colls, ⟨ws' ++ collsText f g (colls.drop (k + 1)), false, false⟩, by simpa using colls_write f g colls [], ?_⟩
  have hparse : ∀ x, parseInt (Nat.toDigits 10 cs.length) x = (cs.length : Int) := by
    intro x
    have := parseInt_decimal (cs.length : Int) (by omega) x
    unfold decimal at this
    rw [if_neg (by omega)] at this
    simpa using this
  have hrl := readline_find parseInt (collLabel ++ ['=']) (Nat.toDigits 10 cs.length) (cs.length : Int) hparse hw
    (collsText f g colls) (manyText f g cs (collsText f g (colls.drop (k + 1)))) (collsText f g (colls.take k)) t1 0
  rw [t2, ← etext] at hrl
  unfold readColl Stream.ofText
  rw [hrl]
  simp only [bind, Except.bind]
  have hpos : 0 < cs.length := List.length_pos_of_ne_nil hne
  rw [if_neg (by omega), Int.toNat_natCast]
  rw [show ∀ T : Str, '\n' :: T = ['\n'] ++ T from fun _ => rfl, hr]
  simp only [List.getLast?_eq_getLast_of_ne_nil hne]
  rfl

/-- **C107** A continued fraction written to a file is read back as it was: the coefficients, the kind of frequencies, the weight,
the energy, the sign, the eigenvalues and the intensities. -/
theorem fraction_roundtrip [DecidableEq W] {f : Fmt α} {g : Fmt W} (hf : f.Lawful) (hg : g.Lawful) (zeroA : α) (zero : W)
    (diag : List α → List α → List α × List α) (c : Cf α W) (hc : c.Ok zero diag) :
    ∃ file st, Cf.write f g 0 [] c = .ok file ∧ Cf.read f g zeroA zero diag file (.ofText file) = .ok (st, c) :=
  ⟨cfText f g c [], _, by rw [cf_write]; rfl, cf_read hf hg zeroA zero diag c hc _ [] [] (by intro c h; simp at h)⟩

/-- An empty collection is written, but cannot be read. -/
theorem empty_collection_fails [DecidableEq W] (f : Fmt α) (g : Fmt W) (zeroA : α) (zero : W)
    (diag : List α → List α → List α × List α) :
    ∃ file, writeColl f g 0 [] [] = .ok file ∧ readColl f g zeroA zero diag file (.ofText file) 0 = throwOut := by
  refine ⟨_, by rw [coll_write], ?_⟩
  have h : ∀ s : Str, s = collText f g [] [] → readColl f g zeroA zero diag s (.ofText s) 0 = throwOut := by
    intro s hs
    have e : collText f g [] [] = "#CONTINUEDFRACTIONCOLLECTION=0\n".toList := by
      show (collLabel ++ ['='] ++ Nat.toDigits 10 0) ++ ['\n'] = _
      decide
    rw [hs, e]
    have hr : (readline parseInt "#CONTINUEDFRACTIONCOLLECTION=0\n".toList (.ofText "#CONTINUEDFRACTIONCOLLECTION=0\n".toList) 0
        (collLabel ++ ['=']) 0).map (fun r => r.2.1) = .ok 0 := by decide +kernel
    unfold readColl
    generalize readline parseInt "#CONTINUEDFRACTIONCOLLECTION=0\n".toList (.ofText "#CONTINUEDFRACTIONCOLLECTION=0\n".toList) 0
        (collLabel ++ ['=']) 0 = r at hr
    rcases r with _ | ⟨st, n, k⟩
    · simp [Except.map] at hr
    · simp only [Except.map, Except.ok.injEq] at hr
      subst hr
      rfl
  exact h _ rfl

/-- Writing a fraction when this process is not the first one of many uses a stream that does not exist. -/
theorem fraction_rank_fails (f : Fmt α) (g : Fmt W) (rank : Nat) (hr : rank ≠ 0) (file : Str) (c : Cf α W) :
    Cf.write f g rank file c = ubOut := by
  unfold Cf.write writeAb writeOther writeScalar
  simp [hr, bind, Except.bind, ubOut]

/-! ## A kind of numbers that is read back, and cases -/

/-- Numbers up to 2147483647, written in decimal. -/
def smallFmt : Fmt Small where
  text n := Nat.toDigits 10 n.1
  rd st :=
    let r := readInt st
    (r.1, ⟨min (r.2.getD 0).toNat 2147483647, Nat.min_le_right _ _⟩)
  parse t x := ⟨min (parseInt t x.1).toNat 2147483647, Nat.min_le_right _ _⟩

/-- The hypotheses on numbers are met. -/
theorem smallFmt_lawful : smallFmt.Lawful where
  word a := digits_word a.1
  hash a := by
    intro h
    have := isDigit_toDigits a.1 '#' (List.mem_of_head? h)
    revert this
    decide
  reads := reads_nat
  parses a x := by
    have h := a.2
    have := parseInt_decimal (a.1 : Int) (by omega) x.1
    unfold decimal at this
    rw [if_neg (by omega), Int.natAbs_natCast] at this
    apply Subtype.ext
    show min (parseInt (Nat.toDigits 10 a.1) x.1).toNat 2147483647 = a.1
    rw [this]
    omega

/-- A number of the example. -/
def sm (n : Nat) : Small := ⟨min n 2147483647, Nat.min_le_right _ _⟩

/-- The example's eigenvalues and intensities. -/
def exDiag (a b : List Small) : List Small × List Small := (a.reverse, b.reverse)

/-- Two fractions. -/
def exCf1 : Cf Small Small := ⟨[sm 3, sm 4], [sm 1, sm 2], true, sm 5, sm 6, -1, [sm 4, sm 3], [sm 2, sm 1]⟩
def exCf2 : Cf Small Small := ⟨[sm 7], [sm 8], false, sm 9, sm 10, 1, [sm 7], [sm 8]⟩

theorem exCf1_ok : exCf1.Ok (sm 0) exDiag := ⟨fun _ => rfl, by decide, by decide, by decide, by decide, by decide⟩
theorem exCf2_ok : exCf2.Ok (sm 0) exDiag := ⟨fun _ => rfl, by decide, by decide, by decide, by decide, by decide⟩

example : ∃ file st, Cf.write smallFmt smallFmt 0 [] exCf1 = .ok file ∧
    Cf.read smallFmt smallFmt (sm 0) (sm 0) exDiag file (.ofText file) = .ok (st, exCf1) :=
  fraction_roundtrip smallFmt_lawful smallFmt_lawful _ _ _ _ exCf1_ok

example : ∃ file st, [[exCf1], [exCf2, exCf1, exCf2]].foldlM (fun file cs => writeColl smallFmt smallFmt 0 file cs) [] = .ok file ∧
    readColl smallFmt smallFmt (sm 0) (sm 0) exDiag file (.ofText file) 1 = .ok (st, [exCf2, exCf1, exCf2], false) :=
  collection_roundtrip smallFmt_lawful smallFmt_lawful _ _ _ _ (by
    intro cs hcs c hc
    simp at hcs
    rcases hcs with rfl | rfl
    · simp at hc; subst hc; exact exCf1_ok
    · simp at hc
      rcases hc with rfl | rfl | rfl
      · exact exCf2_ok
      · exact exCf1_ok
      · exact exCf2_ok) 1 _ rfl (by simp) (by simp)

example : Cf.write smallFmt smallFmt 1 [] exCf1 = ubOut := fraction_rank_fails _ _ _ (by decide) _ _

/-- The text of a fraction of a file without the kind of frequencies. -/
def oldText (f : Fmt α) (g : Fmt W) (c : Cf α W) : Str :=
  "#Avector".toList ++ '\n' :: (vectorText f.text c.a ++ '\n' ::
  ("#Bvector".toList ++ '\n' :: (vectorText f.text c.b ++ '\n' ::
  (("#CFWeight=".toList ++ g.text c.weight) ++ '\n' ::
  (("#CFEnergy=".toList ++ f.text c.eg) ++ '\n' ::
  (("#CFIsign=".toList ++ decimal c.isign) ++ '\n' ::
  ("#CFEigs".toList ++ '\n' :: (vectorText f.text c.eigs ++ '\n' ::
  ("#CFIntensities".toList ++ '\n' :: (vectorText f.text c.intensity ++ ['\n']))))))))))

/-- In a file that does not have the kind of frequencies, which the constructor allows for, the second fraction has the weight,
the energy and the sign of the first one: looking for the kind of frequencies goes back to the beginning of the file. -/
theorem old_format_fails :
    let file := oldText smallFmt smallFmt exCf1 ++ oldText smallFmt smallFmt exCf2
    (readMany smallFmt smallFmt (sm 0) (sm 0) exDiag file 2 (.ofText file)).map (·.2) =
      .ok [{ exCf1 with matsubara := false }, { exCf2 with weight := exCf1.weight, eg := exCf1.eg, isign := exCf1.isign }] := by
  decide +kernel

end Verif.IoSimple
