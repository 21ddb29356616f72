import Verif.Whole.ModelReal
import Verif.Whole.SpecReal
import Verif.Whole.PropsInput
import Verif.TextIo.PropsMat

/-!
# Whole program: src/Ainur/testReal.cpp
-/

namespace Verif.Whole.Real

open Verif.StrUtil Verif.Whole.Input

/-- The contents of the files, one after the other, are the text of a file in the Ainur format with these statements, whose values use no
macros and no functions. -/
structure FilesOk (disk : Str → Option Str) (args : List Str) (l : List (Ainur.Stmt × Str)) (tail : Str) : Prop where
  texts : ∃ ts : List Str, args.map disk = ts.map some ∧ ts.flatten = Ainur.fileText l tail
  some_ : l ≠ []
  layout : ∀ e ∈ l, Ainur.Layout e.1 e.2 ∧ e.1.Clear
  gap : Ainur.Gap tail
  allowed : ∀ c ∈ Ainur.fileText l tail, Ainur.Allowed c
  plain : ∀ e ∈ l, e.1.op.Plain ∧ e.1.op.NoMacro

theorem readFiles_ok (disk : Str → Option Str) (args ts : List Str) (h : args.map disk = ts.map some) : readFiles disk args = .ok ts.flatten := by
  induction args generalizing ts with
  | nil =>
    cases ts with
    | nil => rfl
    | cons t ts => cases h
  | cons a as ih =>
    cases ts with
    | nil => cases h
    | cons t ts =>
      simp only [List.map_cons, List.cons.injEq] at h
      simp [readFiles, h.1, ih ts h.2, bind, Except.bind, pure, Except.pure]

theorem args_ne {disk : Str → Option Str} {args : List Str} {l : List (Ainur.Stmt × Str)} {tail : Str} (h : FilesOk disk args l tail) :
    args ≠ [] := by
  rintro rfl
  obtain ⟨ts, h1, h2⟩ := h.texts
  cases ts with
  | cons t ts => cases h1
  | nil =>
    obtain ⟨e, l', rfl⟩ := List.exists_cons_of_ne_nil h.some_
    simp [Ainur.fileText] at h2

theorem plain_read {h : List Ainur.Op} {k : Str} (hp : ∀ o ∈ h, o.Plain) : ∀ o ∈ .read k :: h, o.Plain := by
  intro o ho
  rcases List.mem_cons.1 ho with rfl | ho
  · trivial
  · exact hp o ho

theorem convertInt_ok (fs : Ainur.Files) (funs : List Str) (n : Int) (h1 : -2147483648 ≤ n) (h2 : n ≤ 2147483647) :
    convertInt fs funs (decimal n) = .ok n := by
  unfold convertInt
  rw [Ainur.valueFromFunction_plain fs funs _ (decimal_plain n).1]
  simp only [bind, Except.bind]
  rw [atoi_decimal n h1 h2]
  rfl

theorem vectorText_ok (fs : Ainur.Files) (funs : List Str) {t : Str} {v : List ℚ} (h : VectorText t v) :
    Ainur.convertVector realElem fs funs t [] = .ok v ∧ ¬ Ainur.NoValue t := by
  cases h with
  | entries rest ns h0 hn ht => exact ⟨convertVector_numerals fs funs t rest ns h0 hn ht, vector_has ht⟩
  | times rest n k hn h1 h2 ht =>
    exact ⟨Ainur.ellipsis_times_spec realElem fs funs t rest n.text [] n.value k h1 h2 (numeral_cell hn).1 ht (Cmplx.atof_spec n hn),
      vector_has ht⟩

theorem mapM_ok {α β : Type} (f : α → Out β) (g : α → β) (l : List α) (h : ∀ a ∈ l, f a = .ok (g a)) : l.mapM f = .ok (l.map g) := by
  induction l with
  | nil => rfl
  | cons a l ih =>
    rw [List.mapM_cons, h a (by simp), ih (fun b hb => h b (by simp [hb]))]
    rfl

theorem matrixText_ok (fs : Ainur.Files) (funs : List Str) {t : Str} {r c : Nat} {A : Fin r → Fin c → Cmplx.Numeral} (h : MatrixText t A) :
    Ainur.convertMatrix realElem fs funs t [] = .ok (List.ofFn fun i => List.ofFn fun j => (A i j).value) ∧ ¬ Ainur.NoValue t := by
  obtain ⟨hr, hc, hn, rest, ht⟩ := h
  have h0 : ∀ ws ∈ List.ofFn fun i => List.ofFn fun j => (A i j).text, ws.length = c ∧ ∀ w ∈ ws, Ainur.IsCell w := by
    intro ws hws
    obtain ⟨i, rfl⟩ := (List.mem_ofFn' _ _).1 hws
    refine ⟨by simp, ?_⟩
    intro w hw
    obtain ⟨j, rfl⟩ := (List.mem_ofFn' _ _).1 hw
    exact (numeral_cell (hn i j)).1
  constructor
  · rw [Ainur.matrix_spec realElem fs funs t rest _ [] c hc (by
      intro e
      have := congrArg List.length e
      simp at this
      omega) h0 ht]
    have e1 : (List.ofFn fun i => List.ofFn fun j => (A i j).text) = (List.finRange r).map fun i => (List.finRange c).map fun j => (A i j).text := by
      simp [List.ofFn_eq_map]
    have e2 : (List.ofFn fun i => List.ofFn fun j => (A i j).value) =
        (List.finRange r).map fun i => (List.finRange c).map fun j => (A i j).value := by
      simp [List.ofFn_eq_map]
    rw [e1, e2, List.mapM_map]
    refine mapM_ok _ _ _ ?_
    intro i _
    simp only [Function.comp]
    rw [List.mapM_map]
    refine mapM_ok _ _ _ ?_
    intro j _
    simp only [Function.comp]
    rw [Ainur.entry_plain realElem fs funs _ (numeral_cell (hn i j)).2.1]
    exact Cmplx.atof_spec _ (hn i j)
  · rintro (rfl | rfl)
    · cases ht
    · simp [Ainur.squeeze, Ainur.white, Ainur.matrixText] at ht

theorem cols_get {α : Type} (f : Nat → Nat → α) (r : Nat) : ∀ (c i j : Nat), i < r → j < c →
    ((List.range c).flatMap fun j => (List.range r).map fun i => f i j)[i + j * r]? = some (f i j) := by
  intro c
  induction c with
  | zero => intro i j _ h; omega
  | succ c ih =>
    intro i j hi hj
    have hlen : ((List.range c).flatMap fun j => (List.range r).map fun i => f i j).length = c * r := by
      simp [List.length_flatMap, List.map_const']
    rw [List.range_succ, List.flatMap_append]
    by_cases h : j < c
    · rw [List.getElem?_append_left (by
        rw [hlen]
        have : (j + 1) * r ≤ c * r := Nat.mul_le_mul_right r h
        rw [Nat.add_mul] at this
        omega)]
      exact ih i j hi h
    · obtain rfl : j = c := by omega
      rw [List.getElem?_append_right (by rw [hlen]; omega), hlen]
      simp [hi]

theorem matOf_represents {r c : Nat} (hr : 0 < r) (A : Fin r → Fin c → ℚ) :
    Dense.Represents (matOf (List.ofFn fun i => List.ofFn fun j => A i j)) r c (Matrix.of A) := by
  have hcol : ((List.ofFn fun i => List.ofFn fun j => A i j).head?.map List.length).getD 0 = c := by
    obtain ⟨r, rfl⟩ : ∃ k, r = k + 1 := ⟨r - 1, by omega⟩
    simp [List.ofFn_succ]
  let f : Nat → Nat → ℚ := fun i j => ((List.ofFn fun i => List.ofFn fun j => A i j).getD i []).getD j 0
  have hdata : (matOf (List.ofFn fun i => List.ofFn fun j => A i j)).data =
      (List.range c).flatMap fun j => (List.range r).map fun i => f i j := by
    unfold matOf
    simp only [hcol]
    congr 1
    funext j
    apply List.ext_getElem
    · simp
    · intro i h1 h2
      simp only [List.length_map, List.length_ofFn] at h1
      simp [f, h1]
  have hn : (matOf (List.ofFn fun i => List.ofFn fun j => A i j)).nrow = r := by simp [matOf]
  have hc : (matOf (List.ofFn fun i => List.ofFn fun j => A i j)).ncol = c := hcol
  refine ⟨hn, hc, ?_, ?_⟩
  · rw [hdata]
    simp [List.length_flatMap, List.map_const', Nat.mul_comm]
  · intro i j
    unfold Dense.Mat.get
    rw [hn, hc, if_pos ⟨i.2, j.2⟩, hdata, cols_get f r c i j i.2 j.2]
    simp [f]

theorem matrixLines_eq (pr : ℚ → Str) {r c : Nat} (A : Fin r → Fin c → ℚ) : TextIo.matLines pr (Matrix.of A) = matrixLines pr A := by
  unfold TextIo.matLines matrixLines
  simp [List.ofFn_eq_map, List.flatMap_def]

/-- What the program does with a file that says these things. -/
theorem open_real (fs : Ainur.Files) (pr : ℚ → Str) {disk : Str → Option Str} {args : List Str} {l : List (Ainur.Stmt × Str)} {tail : Str}
    (h : FilesOk disk args l tail) (hd : ∀ a ∈ Ainur.answers [] (Ainur.fileOps l), a = .done) :
    ∃ s, Ainur.After (Ainur.fileOps l).reverse s ∧ (∀ o ∈ (Ainur.fileOps l).reverse, o.Plain) ∧ main fs pr disk args = body fs pr s := by
  obtain ⟨ts, h1, h2⟩ := h.texts
  obtain ⟨s, ho, ha, hp⟩ := (Ainur.file_after fs l tail h.some_ h.layout h.gap h.allowed h.plain).1 hd
  refine ⟨s, ha, hp, ?_⟩
  unfold main
  rw [if_neg (args_ne h), readFiles_ok disk args ts h1]
  simp only [h2, ho]

/-- The number was read. -/
theorem body_sites (fs : Ainur.Files) (pr : ℚ → Str) {h : List Ainur.Op} {s : Ainur.State} (ha : Ainur.After h s) (hp : ∀ o ∈ h, o.Plain)
    {n : Int} (h1 : -2147483648 ≤ n) (h2 : n ≤ 2147483647) (hn : Ainur.valueOf h "TotalNumberOfSites".toList = some (decimal n)) :
    ∃ s', Ainur.After (.read "TotalNumberOfSites".toList :: h) s' ∧
      body fs pr s = readModel fs pr s' (sitesLine (Ainur.toSize n)) := by
  obtain ⟨s', ha', hr⟩ := readAs_value (convertInt fs) fs ha hp hn (decimal_plain n).2
  refine ⟨s', ha', ?_⟩
  unfold body
  rw [hr, convertInt_ok fs s.funs n h1 h2]
  rfl

/-- The text was read. -/
theorem model_read (fs : Ainur.Files) (pr : ℚ → Str) {h : List Ainur.Op} {s : Ainur.State} (ha : Ainur.After h s) (hp : ∀ o ∈ h, o.Plain)
    {m : Str} (hm : Ainur.valueOf h "Model".toList = some m) (h0 : ¬ Ainur.NoValue m) (before : Str) :
    ∃ s', Ainur.After (.read "Model".toList :: h) s' ∧
      readModel fs pr s before = readVector fs pr s' (before ++ Ainur.strip m ++ ['\n']) := by
  obtain ⟨s', ha', hr⟩ := readAs_value (Ainur.convertString fs) fs ha hp hm h0
  refine ⟨s', ha', ?_⟩
  unfold readModel
  rw [hr, Ainur.convertString_plain fs s.funs m (Ainur.valueOf_plain hp hm)]
  rfl

/-- The vector was read. -/
theorem vector_read (fs : Ainur.Files) (pr : ℚ → Str) {h : List Ainur.Op} {s : Ainur.State} (ha : Ainur.After h s) (hp : ∀ o ∈ h, o.Plain)
    {t : Str} {v : List ℚ} (hv : Ainur.valueOf h "myv2".toList = some t) (ht : VectorText t v) (before : Str) :
    ∃ s', Ainur.After (.read "myv2".toList :: h) s' ∧
      readVector fs pr s before = readMatrix fs pr s' (before ++ vectorLines pr v) := by
  obtain ⟨s', ha', hr⟩ := readAs_value (fun funs t => Ainur.convertVector realElem fs funs t []) fs ha hp hv (vectorText_ok fs [] ht).2
  refine ⟨s', ha', ?_⟩
  unfold readVector
  rw [hr, (vectorText_ok fs s.funs ht).1]
  simp [Except.map, vectorLines, IoSimple.vectorText]

/-- The matrix was read. -/
theorem matrix_read (fs : Ainur.Files) (pr : ℚ → Str) {h : List Ainur.Op} {s : Ainur.State} (ha : Ainur.After h s) (hp : ∀ o ∈ h, o.Plain)
    {t : Str} {r c : Nat} {A : Fin r → Fin c → Cmplx.Numeral} (hv : Ainur.valueOf h "mymatrix".toList = some t) (ht : MatrixText t A)
    (before : Str) :
    readMatrix fs pr s before = ⟨before ++ matrixLines pr (fun i j => (A i j).value), .code 0⟩ := by
  obtain ⟨s', _, hr⟩ := readAs_value (fun funs t => Ainur.convertMatrix realElem fs funs t []) fs ha hp hv (matrixText_ok fs [] ht).2
  unfold readMatrix
  rw [hr, (matrixText_ok fs s.funs ht).1]
  simp only [Except.map]
  rw [TextIo.matText_spec pr (matOf_represents ht.1 fun i j => (A i j).value), matrixLines_eq]

/-- **C152** The files are read as one file.  If it gives a number that is not negative, a text, a vector and a matrix, the program prints
them, as they were given last, and ends well. -/
theorem real_prints (fs : Ainur.Files) (pr : ℚ → Str) {disk : Str → Option Str} {args : List Str} {l : List (Ainur.Stmt × Str)} {tail : Str}
    (h : FilesOk disk args l tail) (hd : ∀ a ∈ Ainur.answers [] (Ainur.fileOps l), a = .done)
    (n : Nat) (h2 : n ≤ 2147483647) (hn : Ainur.valueOf (Ainur.fileOps l).reverse "TotalNumberOfSites".toList = some (Nat.toDigits 10 n))
    (m : Str) (hm : Ainur.valueOf (Ainur.fileOps l).reverse "Model".toList = some m) (h0 : ¬ Ainur.NoValue m)
    (v : List ℚ) (hv : ∃ t, Ainur.valueOf (Ainur.fileOps l).reverse "myv2".toList = some t ∧ VectorText t v)
    {r c : Nat} (A : Fin r → Fin c → Cmplx.Numeral)
    (hA : ∃ t, Ainur.valueOf (Ainur.fileOps l).reverse "mymatrix".toList = some t ∧ MatrixText t A) :
    main fs pr disk args = ⟨sitesLine n ++ Ainur.strip m ++ ['\n'] ++ vectorLines pr v ++ matrixLines pr (fun i j => (A i j).value),
      .code 0⟩ := by
  obtain ⟨s, ha, hp, e⟩ := open_real fs pr h hd
  obtain ⟨t, hv, ht⟩ := hv
  obtain ⟨u, hA, hu⟩ := hA
  have hn' : Ainur.valueOf (Ainur.fileOps l).reverse "TotalNumberOfSites".toList = some (decimal (n : Int)) := by
    rw [hn]
    simp [decimal]
  obtain ⟨s1, ha1, e1⟩ := body_sites fs pr ha hp (by omega) (by omega) hn'
  obtain ⟨s2, ha2, e2⟩ := model_read fs pr ha1 (plain_read hp) (m := m) hm h0 (sitesLine (Ainur.toSize n))
  obtain ⟨s3, ha3, e3⟩ := vector_read fs pr ha2 (plain_read (plain_read hp)) (t := t) hv ht
    (sitesLine (Ainur.toSize n) ++ Ainur.strip m ++ ['\n'])
  rw [e, e1, e2, e3, matrix_read fs pr ha3 (plain_read (plain_read (plain_read hp))) (t := u) hA hu,
    show Ainur.toSize (n : Int) = n by unfold Ainur.toSize; omega]

/-- **C152** A number below zero is taken as a very large one. -/
theorem real_negative_fails (fs : Ainur.Files) (pr : ℚ → Str) {disk : Str → Option Str} {args : List Str} {l : List (Ainur.Stmt × Str)}
    {tail : Str} (h : FilesOk disk args l tail) (hd : ∀ a ∈ Ainur.answers [] (Ainur.fileOps l), a = .done)
    (k : Nat) (h1 : 0 < k) (h2 : k ≤ 2147483648)
    (hn : Ainur.valueOf (Ainur.fileOps l).reverse "TotalNumberOfSites".toList = some ('-' :: Nat.toDigits 10 k)) :
    ∃ more, (main fs pr disk args).printed = sitesLine (2 ^ 64 - k) ++ more := by
  obtain ⟨s, ha, hp, e⟩ := open_real fs pr h hd
  have hn' : Ainur.valueOf (Ainur.fileOps l).reverse "TotalNumberOfSites".toList = some (decimal (-(k : Int))) := by
    rw [hn]
    unfold decimal
    rw [if_pos (by omega)]
    simp
  obtain ⟨s1, ha1, e1⟩ := body_sites fs pr ha hp (by omega) (by omega) hn'
  rw [e, e1, show Ainur.toSize (-(k : Int)) = 2 ^ 64 - k by unfold Ainur.toSize; omega]
  have hM : ∀ s b, ∃ more, (readMatrix fs pr s b).printed = b ++ more := by
    intro s b
    unfold readMatrix
    split
    · exact ⟨[], by simp⟩
    · split
      · exact ⟨[], by simp⟩
      · exact ⟨_, rfl⟩
  have hV : ∀ s b, ∃ more, (readVector fs pr s b).printed = b ++ more := by
    intro s b
    unfold readVector
    split
    · exact ⟨[], by simp⟩
    · rename_i v s' _
      obtain ⟨more, hm⟩ := hM s' (b ++ IoSimple.vectorText pr v)
      exact ⟨_, by rw [hm, List.append_assoc]⟩
  unfold readModel
  split
  · exact ⟨[], by simp⟩
  · rename_i m s' _
    obtain ⟨more, hm⟩ := hV s' (sitesLine (2 ^ 64 - k) ++ m ++ ['\n'])
    exact ⟨_, by rw [hm, List.append_assoc, List.append_assoc]⟩

/-- **C152** Files that are refused as one: nothing is printed and the program dies with an exception. -/
theorem real_refused (fs : Ainur.Files) (pr : ℚ → Str) {disk : Str → Option Str} {args : List Str} {l : List (Ainur.Stmt × Str)} {tail : Str}
    (h : FilesOk disk args l tail) (hd : ∃ a ∈ Ainur.answers [] (Ainur.fileOps l), a ≠ .done) :
    main fs pr disk args = ⟨[], .uncaught⟩ := by
  obtain ⟨ts, h1, h2⟩ := h.texts
  unfold main
  rw [if_neg (args_ne h), readFiles_ok disk args ts h1]
  simp only [h2, (Ainur.file_after fs l tail h.some_ h.layout h.gap h.allowed h.plain).2 hd]
  rfl

/-- **C152** A value that is not given: what was read before it is printed, nothing after it, and the program dies with an exception. -/
theorem real_missing (fs : Ainur.Files) (pr : ℚ → Str) {disk : Str → Option Str} {args : List Str} {l : List (Ainur.Stmt × Str)} {tail : Str}
    (h : FilesOk disk args l tail) (hd : ∀ a ∈ Ainur.answers [] (Ainur.fileOps l), a = .done) :
    ((∀ x, Ainur.valueOf (Ainur.fileOps l).reverse "TotalNumberOfSites".toList = some x → Ainur.NoValue x) →
      main fs pr disk args = ⟨[], .uncaught⟩) ∧
    ∀ n : Nat, n ≤ 2147483647 → Ainur.valueOf (Ainur.fileOps l).reverse "TotalNumberOfSites".toList = some (Nat.toDigits 10 n) →
      ((∀ x, Ainur.valueOf (Ainur.fileOps l).reverse "Model".toList = some x → Ainur.NoValue x) →
        main fs pr disk args = ⟨sitesLine n, .uncaught⟩) ∧
      ∀ m, Ainur.valueOf (Ainur.fileOps l).reverse "Model".toList = some m → ¬ Ainur.NoValue m →
        ((∀ x, Ainur.valueOf (Ainur.fileOps l).reverse "myv2".toList = some x → Ainur.NoValue x) →
          main fs pr disk args = ⟨sitesLine n ++ Ainur.strip m ++ ['\n'], .uncaught⟩) ∧
        ∀ t v, Ainur.valueOf (Ainur.fileOps l).reverse "myv2".toList = some t → VectorText t v →
          (∀ x, Ainur.valueOf (Ainur.fileOps l).reverse "mymatrix".toList = some x → Ainur.NoValue x) →
            main fs pr disk args = ⟨sitesLine n ++ Ainur.strip m ++ ['\n'] ++ vectorLines pr v, .uncaught⟩ := by
  obtain ⟨s, ha, hp, e⟩ := open_real fs pr h hd
  refine ⟨?_, ?_⟩
  · intro hx
    rw [e]
    unfold body
    rw [readAs_none _ ha hx]
    rfl
  intro n h2 hn
  have hn' : Ainur.valueOf (Ainur.fileOps l).reverse "TotalNumberOfSites".toList = some (decimal (n : Int)) := by
    rw [hn]
    simp [decimal]
  obtain ⟨s1, ha1, e1⟩ := body_sites fs pr ha hp (by omega) (by omega) hn'
  rw [show Ainur.toSize (n : Int) = n by unfold Ainur.toSize; omega] at e1
  refine ⟨?_, ?_⟩
  · intro hx
    rw [e, e1]
    unfold readModel
    rw [readAs_none _ ha1 hx]
    rfl
  intro m hm h0
  obtain ⟨s2, ha2, e2⟩ := model_read fs pr ha1 (plain_read hp) (m := m) hm h0 (sitesLine n)
  refine ⟨?_, ?_⟩
  · intro hx
    rw [e, e1, e2]
    unfold readVector
    rw [readAs_none _ ha2 hx]
    rfl
  intro t v hv ht hx
  obtain ⟨s3, ha3, e3⟩ := vector_read fs pr ha2 (plain_read (plain_read hp)) (t := t) hv ht (sitesLine n ++ Ainur.strip m ++ ['\n'])
  rw [e, e1, e2, e3]
  unfold readMatrix
  rw [readAs_none _ ha3 hx]
  rfl

/-- **C152** A file that cannot be opened: nothing is printed and the program dies with an exception, whatever the other files are.
Without files the program says nothing and returns 1. -/
theorem real_noFile (fs : Ainur.Files) (pr : ℚ → Str) (disk : Str → Option Str) :
    main fs pr disk [] = ⟨[], .code 1⟩ ∧
    ∀ args, (∃ a ∈ args, disk a = none) → main fs pr disk args = ⟨[], .uncaught⟩ := by
  refine ⟨rfl, ?_⟩
  rintro args ⟨a, ha, hn⟩
  have hr : ∀ as : List Str, a ∈ as → readFiles disk as = throwOut := by
    intro as
    induction as with
    | nil => simp
    | cons b as ih =>
      intro hm
      unfold readFiles
      cases hb : disk b with
      | none => rfl
      | some s =>
        rcases List.mem_cons.1 hm with rfl | hm
        · rw [hn] at hb; cases hb
        · simp only [ih hm]; rfl
  unfold main
  rw [if_neg (by rintro rfl; cases ha), hr args ha]
  rfl

/-! ## The file src/Ainur/input1.ain -/

/-- The first part of the file. -/
def part1 : Str := "##Ainur1.0\nint TotalNumberOfSites=16;\n\nvector myv=[0.5 i 0.0, 0.0 i 0.3];\nvector myv2;\nmyv2=[4.2,...x10];\n\nstring Mo".toList

/-- The second part. -/
def part2 : Str := "del=\"HubbardOneBand\";\nModel=\"2\";\n\nmatrix mymatrix=[\n[5, 4, 6],\n[7, 8, 9]];\n".toList

/-- A disk with the two parts. -/
def sampleDisk : Str → Option Str := fun n => if n = ['a'] then some part1 else if n = ['b'] then some part2 else none

/-- The statements. -/
def sampleStmts : List (Ainur.Stmt × Str) :=
  [(.define "int".toList "TotalNumberOfSites".toList "16".toList, "##Ainur1.0\nint TotalNumberOfSites=16".toList),
   (.define "vector".toList "myv".toList "[0.5 i 0.0, 0.0 i 0.3]".toList, "\n\nvector myv=[0.5 i 0.0, 0.0 i 0.3]".toList),
   (.declare "vector".toList "myv2".toList, "\nvector myv2".toList),
   (.assign "myv2".toList "[4.2,...x10]".toList, "\nmyv2=[4.2,...x10]".toList),
   (.define "string".toList "Model".toList "\"HubbardOneBand\"".toList, "\n\nstring Model=\"HubbardOneBand\"".toList),
   (.assign "Model".toList "\"2\"".toList, "\nModel=\"2\"".toList),
   (.define "matrix".toList "mymatrix".toList "[\n[5, 4, 6],\n[7, 8, 9]]".toList, "\n\nmatrix mymatrix=[\n[5, 4, 6],\n[7, 8, 9]]".toList)]

theorem name_myv2 : Ainur.IsName "myv2".toList :=
  ⟨[], "myv".toList, ['2'], rfl, by simp, by decide, Ainur.letters_dec _ (by decide), fun c hc =>
    (Ainur.nameChar_iff c).1 (List.all_eq_true.1 (show "2".toList.all Ainur.nameChar = true by decide) c hc)⟩

theorem gap_nl2 : Ainur.Gap ['\n', '\n'] := .space _ _ (by decide) gap_nl

theorem sampleFiles_ok : FilesOk sampleDisk [['a'], ['b']] sampleStmts ['\n'] where
  texts := ⟨[part1, part2], by decide +kernel, by decide +kernel⟩
  some_ := by simp [sampleStmts]
  layout := by
    intro e he
    simp only [sampleStmts, List.mem_cons, List.not_mem_nil, or_false] at he
    rcases he with rfl | rfl | rfl | rfl | rfl | rfl | rfl
    · exact ⟨.define "##Ainur1.0\n".toList "int".toList [' '] "TotalNumberOfSites".toList [] [] "16".toList
        (.comment "#Ainur1.0".toList '\n' [] (by unfold Ainur.IsEol; decide) (.inr rfl) .nil)
        (type_letters _ (by decide) (by decide)) Ainur.gap_blank (name_letters _ (by decide) (by decide)) (.inl (by simp)) .nil .nil
        ⟨by decide, by decide⟩, by intro c hc; cases hc; decide⟩
    · exact ⟨.define ['\n', '\n'] "vector".toList [' '] "myv".toList [] [] "[0.5 i 0.0, 0.0 i 0.3]".toList gap_nl2
        (type_letters _ (by decide) (by decide)) Ainur.gap_blank (name_letters _ (by decide) (by decide)) (.inl (by simp)) .nil .nil
        ⟨by decide, by decide⟩, by intro c hc; cases hc; decide⟩
    · exact ⟨.declare ['\n'] "vector".toList [' '] "myv2".toList [] gap_nl
        (type_letters _ (by decide) (by decide)) Ainur.gap_blank name_myv2 (.inl (by simp)) .nil, trivial⟩
    · exact ⟨.assign ['\n'] "myv2".toList [] [] "[4.2,...x10]".toList gap_nl name_myv2 .nil .nil ⟨by decide, by decide⟩,
        not_splits (by decide), by intro c hc; cases hc; decide⟩
    · exact ⟨.define ['\n', '\n'] "string".toList [' '] "Model".toList [] [] "\"HubbardOneBand\"".toList gap_nl2
        (type_letters _ (by decide) (by decide)) Ainur.gap_blank (name_letters _ (by decide) (by decide)) (.inl (by simp)) .nil .nil
        ⟨by decide, by decide⟩, by intro c hc; cases hc; decide⟩
    · exact ⟨.assign ['\n'] "Model".toList [] [] "\"2\"".toList gap_nl (name_letters _ (by decide) (by decide)) .nil .nil
        ⟨by decide, by decide⟩, not_splits (by decide), by intro c hc; cases hc; decide⟩
    · exact ⟨.define ['\n', '\n'] "matrix".toList [' '] "mymatrix".toList [] [] "[\n[5, 4, 6],\n[7, 8, 9]]".toList gap_nl2
        (type_letters _ (by decide) (by decide)) Ainur.gap_blank (name_letters _ (by decide) (by decide)) (.inl (by simp)) .nil .nil
        ⟨by decide, by decide⟩, by intro c hc; cases hc; decide⟩
  gap := gap_nl
  allowed := by
    have : ∀ c ∈ Ainur.fileText sampleStmts ['\n'], c ∈ [' ', '\t', '\n', '\r'] ∨ (33 ≤ c.toNat ∧ c.toNat ≤ 126 ∧ c ≠ '`') := by decide +kernel
    intro c hc
    rcases this c hc with h | h
    · simp only [List.mem_cons, List.not_mem_nil, or_false] at h
      rcases h with h | h | h | h
      · exact .inl h
      · exact .inr (.inl h)
      · exact .inr (.inr (.inl h))
      · exact .inr (.inr (.inr (.inl h)))
    · exact .inr (.inr (.inr (.inr h)))
  plain := by
    intro e he
    simp only [sampleStmts, List.mem_cons, List.not_mem_nil, or_false] at he
    rcases he with rfl | rfl | rfl | rfl | rfl | rfl | rfl <;> exact ⟨by simp [Ainur.Stmt.op, Ainur.Op.Plain], by simp only [Ainur.Stmt.op]; decide⟩

/-- A one digit number. -/
def digit (c : Char) : Cmplx.Numeral := ⟨.none, [c], none, none⟩

/-- The matrix of the file. -/
def sampleMatrix : Fin 2 → Fin 3 → Cmplx.Numeral := ![![digit '5', digit '4', digit '6'], ![digit '7', digit '8', digit '9']]

/-- The number `4.2`. -/
def fourTwo : Cmplx.Numeral := ⟨.none, ['4'], some ['2'], none⟩

theorem fourTwo_ok : fourTwo.Ok := by
  refine ⟨by unfold DigitsOf fourTwo; decide, ?_, by simp [fourTwo], by simp [fourTwo]⟩
  intro d hd
  cases hd
  unfold DigitsOf
  decide

theorem sampleMatrix_text : MatrixText "[\n[5, 4, 6],\n[7, 8, 9]]".toList sampleMatrix := by
  refine ⟨by decide, by decide, ?_, [], by decide +kernel⟩
  intro i j
  have : ∀ c ∈ ['0', '1', '2', '3', '4', '5', '6', '7', '8', '9'], (digit c).Ok := by
    intro c hc
    refine ⟨?_, by simp [digit], by simp [digit], by simp [digit]⟩
    intro d hd
    rw [List.mem_singleton.1 hd]
    exact hc
  fin_cases i <;> fin_cases j <;> exact this _ (by decide)

/-- The hypotheses of `real_prints` are met by the two files. -/
example (pr : ℚ → Str) : main noFiles pr sampleDisk [['a'], ['b']] =
    ⟨sitesLine 16 ++ "2".toList ++ ['\n'] ++ vectorLines pr (List.replicate 10 fourTwo.value) ++
      matrixLines pr (fun i j => (sampleMatrix i j).value), .code 0⟩ :=
  real_prints noFiles pr sampleFiles_ok (by decide +kernel) 16 (by decide) (by decide +kernel) "\"2\"".toList (by decide +kernel)
    (by unfold Ainur.NoValue; decide) _ ⟨_, by decide +kernel, .times "[4.2,...x10]".toList [] fourTwo 10 fourTwo_ok (by decide) (by decide)
      (by decide +kernel)⟩ sampleMatrix ⟨_, by decide +kernel, sampleMatrix_text⟩

/-- A file with one statement. -/
theorem oneFile_ok (t v : Str) (ht : t = "int TotalNumberOfSites=".toList ++ v) (hv : Ainur.IsValue v) (hb : Ainur.Begins v)
    (ha : ∀ c ∈ v, Ainur.Allowed c) (hp : v.head? ≠ some '(') (hm : (Ainur.Op.declare "int".toList "TotalNumberOfSites".toList v).NoMacro) :
    FilesOk (fun _ => some (t ++ [';'])) [['a']] [(.define "int".toList "TotalNumberOfSites".toList v, t)] [] where
  texts := ⟨[t ++ [';']], rfl, by simp [Ainur.fileText]⟩
  some_ := by simp
  layout := by
    intro e he
    rw [List.mem_singleton.1 he, ht]
    exact ⟨.define [] "int".toList [' '] "TotalNumberOfSites".toList [] [] v .nil
        (type_letters _ (by decide) (by decide)) Ainur.gap_blank (name_letters _ (by decide) (by decide)) (.inl (by simp)) .nil .nil
        hv, hb⟩
  gap := .nil
  allowed := by
    intro c hc
    simp only [Ainur.fileText, ht, List.flatMap_cons, List.flatMap_nil, List.append_nil, List.mem_append] at hc
    rcases hc with (hc | hc) | hc
    · have : ∀ c ∈ "int TotalNumberOfSites=".toList, c = ' ' ∨ (33 ≤ c.toNat ∧ c.toNat ≤ 126 ∧ c ≠ '`') := by decide
      rcases this c hc with h | h
      · exact .inl h
      · exact .inr (.inr (.inr (.inr h)))
    · exact ha c hc
    · rw [List.mem_singleton.1 hc]
      exact .inr (.inr (.inr (.inr (by decide))))
  plain := by
    intro e he
    rw [List.mem_singleton.1 he]
    exact ⟨hp, hm⟩

theorem digits_allowed {v : Str} (h : ∀ c ∈ v, 33 ≤ c.toNat ∧ c.toNat ≤ 126 ∧ c ≠ '`') : ∀ c ∈ v, Ainur.Allowed c :=
  fun c hc => .inr (.inr (.inr (.inr (h c hc))))

/-- The hypotheses of `real_negative_fails` are met by a file that gives `-1`. -/
example (pr : ℚ → Str) : ∃ more, (main noFiles pr (fun _ => some "int TotalNumberOfSites=-1;".toList) [['a']]).printed =
    sitesLine 18446744073709551615 ++ more :=
  real_negative_fails noFiles pr (oneFile_ok "int TotalNumberOfSites=-1".toList "-1".toList (by decide) ⟨by decide, by decide⟩
    (by intro c hc; cases hc; decide) (digits_allowed (by decide)) (by decide) (by simp only [Ainur.Op.NoMacro]; decide))
    (by decide +kernel) 1 (by decide) (by decide) (by decide +kernel)

/-- Those of the second part of `real_missing` by a file that gives `16`. -/
example (pr : ℚ → Str) : main noFiles pr (fun _ => some "int TotalNumberOfSites=16;".toList) [['a']] = ⟨sitesLine 16, .uncaught⟩ :=
  ((real_missing noFiles pr (oneFile_ok "int TotalNumberOfSites=16".toList "16".toList (by decide) ⟨by decide, by decide⟩
    (by intro c hc; cases hc; decide) (digits_allowed (by decide)) (by decide) (by simp only [Ainur.Op.NoMacro]; decide))
    (by decide +kernel)).2 16 (by decide) (by decide +kernel)).1 (by
      have : Ainur.valueOf (Ainur.fileOps [(.define "int".toList "TotalNumberOfSites".toList "16".toList,
        "int TotalNumberOfSites=16".toList)]).reverse "Model".toList = none := by decide +kernel
      rw [this]
      intro x hx
      cases hx)

/-- Those of `real_refused` by two declarations of one name. -/
example : ∃ a ∈ Ainur.answers [] (Ainur.fileOps (sampleStmts ++ sampleStmts)), a ≠ .done := ⟨.refused, by decide +kernel, by simp⟩

/-- Those of `real_noFile`, by a second file that is not there. -/
example (pr : ℚ → Str) : main noFiles pr sampleDisk [['a'], ['c']] = ⟨[], .uncaught⟩ :=
  (real_noFile noFiles pr sampleDisk).2 _ ⟨['c'], by decide, by decide⟩

end Verif.Whole.Real
