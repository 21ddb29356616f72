import Verif.Whole.ModelGemm
import Verif.Whole.PropsRange
import Verif.GemmR.Props
import Mathlib.Logic.Equiv.Fin.Basic
import Mathlib.Algebra.BigOperators.Fin

/-!
# C138: the program examples/testGemmR.cpp under all schedules
-/

namespace Verif.Whole.Gemm

open Verif.GemmR Verif.Concurrency Verif.Whole.Range

variable {𝕜 : Type} [RCLike 𝕜]

/-! ## What should be printed -/

/-- Division, rounded up. -/
def ceilDiv (a b : Nat) : Nat := (a + b - 1) / b

/-- `1`, `1 + nb`, `1 + 2 nb`, … up to `max`. -/
def sizes (max nb : Nat) : List Nat := (List.range ((max - 1) / nb + 1)).map fun q => 1 + q * nb

/-- All products. -/
def allCases (nb : Nat) : List Case :=
  (sizes 302 nb).flatMap fun k => (sizes 300 nb).flatMap fun n => (sizes 301 nb).flatMap fun m =>
    ['N', 'T', 'C'].flatMap fun b => ['N', 'T', 'C'].map fun a => ⟨k, n, m, b, a⟩

/-- The matrix a letter makes of the entries `X`. -/
def opOf (c : Char) (X : Nat → Nat → 𝕜) {r s : Nat} : Matrix (Fin r) (Fin s) 𝕜 :=
  if c = 'N' then Matrix.of fun i j => X i j
  else if c = 'T' then Matrix.of fun i j => X j i
  else Matrix.of fun i j => star (X j i)

/-- The entries of the first matrix. -/
noncomputable def entryA (val : ℝ → ℝ → 𝕜) (i j : Nat) : 𝕜 := val (-((i : ℝ) + j + 1)) ((j : ℝ) - i + 1)

/-- The entries of the second matrix, of `r` rows and `s` columns. -/
noncomputable def entryB (val : ℝ → ℝ → 𝕜) (r s i j : Nat) : 𝕜 :=
  val (((i : ℝ) + j + 1) / ((r : ℝ) * s)) (-((j : ℝ) - i + 1) / ((r : ℝ) * s))

/-- The entries of the matrix the product is added to, of `r` rows and `s` columns. -/
noncomputable def entryC (val : ℝ → ℝ → 𝕜) (r s i j : Nat) : 𝕜 :=
  val (((i : ℝ) + j) / ((r : ℝ) + s)) ((i : ℝ) * j / ((r : ℝ) * s))

/-- The product. -/
noncomputable def product (val : ℝ → ℝ → 𝕜) (c : Case) : Matrix (Fin c.m) (Fin c.n) 𝕜 :=
  val (11 / 10) (21 / 10) • ((opOf c.transA (entryA val) : Matrix (Fin c.m) (Fin c.k) 𝕜) *
      (opOf c.transB (if c.transB = 'N' then entryB val c.k c.n else entryB val c.n c.k) : Matrix (Fin c.k) (Fin c.n) 𝕜)) +
    val (31 / 10) (41 / 10) • Matrix.of fun (i : Fin c.m) (j : Fin c.n) => entryC val c.m c.n i j

/-- The lines of a product: no error is found. -/
noncomputable def linesOf (val : ℝ → ℝ → 𝕜) (fd : ℝ → List Char) (nb : Nat) (c : Case) : List Char :=
  (if c.m ≤ nb ∧ c.n ≤ nb then [] else
    " GEMMR: ".toList ++ " m ".toList ++ digits c.m ++ " n ".toList ++ digits c.n ++ " k ".toList ++ digits c.k ++ " nb ".toList ++
    digits nb ++ " nb_i ".toList ++ digits (ceilDiv c.m (ceilDiv c.m nb)) ++ " nb_j ".toList ++ digits (ceilDiv c.n (ceilDiv c.n nb)) ++
    " nblocks_i ".toList ++ digits (ceilDiv c.m nb) ++ " nblocks_j ".toList ++ digits (ceilDiv c.n nb) ++ "\n".toList) ++
  (" transA ".toList ++ [c.transA] ++ " transB ".toList ++ [c.transB] ++ " m ".toList ++ digits c.m ++ " n ".toList ++ digits c.n ++
    " k ".toList ++ digits c.k ++ " max_err ".toList ++ fd 0 ++ " c_norm ".toList ++ fd (∑ i, ∑ j, ‖product val c i j‖) ++ "\n".toList)

/-- What the program prints. -/
noncomputable def expected (fd : ℝ → List Char) (debug : Bool) (nb : Nat) : List Char :=
  (if debug then (allCases nb).flatMap (linesOf (fun x _ => (x : ℝ)) fd nb) ++
    (allCases nb).flatMap (linesOf (fun x y => (⟨x, y⟩ : ℂ)) fd nb) else []) ++ "ALL PASSED \n".toList

/-! ## The loops -/

theorem upTo_spec (max nb : Nat) (hnb : 0 < nb) (ho : max + nb < 2 ^ 31) : ∀ (fuel i : Nat), max + 2 ≤ fuel + i → 0 < fuel →
    upTo max nb fuel i = some (.ok ((List.range (if i ≤ max then (max - i) / nb + 1 else 0)).map fun q => i + q * nb)) := by
  intro fuel
  induction fuel with
  | zero => intro i _ h; omega
  | succ fuel ih =>
    intro i hf _
    unfold upTo
    by_cases hi : i ≤ max
    · rw [if_pos hi, if_pos (by omega), ih (i + nb) (by omega) (by omega), if_pos hi]
      simp only [Option.map_some, Except.map]
      refine congrArg (fun x => some (Except.ok x)) ?_
      rw [List.range_succ_eq_map, List.map_cons, List.map_map]
      have : (if i + nb ≤ max then (max - (i + nb)) / nb + 1 else 0) = (max - i) / nb := by
        split
        · rename_i h
          have e : max - i = max - (i + nb) + nb := by omega
          rw [e, Nat.add_div_right _ hnb]
        · rename_i h
          rw [Nat.div_eq_of_lt (by omega)]
      rw [this]
      refine congr (congrArg _ (by omega)) ?_
      refine List.map_congr_left fun q _ => ?_
      simp only [Function.comp_def, Nat.succ_eq_add_one]
      ring
    · rw [if_neg hi, if_neg hi]
      rfl

theorem upTo_sizes (max nb fuel : Nat) (hm : 0 < max) (hm2 : max ≤ 302) (hnb : 0 < nb) (ho : nb ≤ 2147483646) (hf : max + 1 ≤ fuel) :
    upTo max nb fuel 1 = some (.ok (sizes max nb)) := by
  by_cases h : nb ≤ 302
  · rw [upTo_spec max nb hnb (by omega) fuel 1 (by omega) (by omega), if_pos (by omega)]
    rfl
  · obtain ⟨f, rfl⟩ : ∃ f, fuel = f + 2 := ⟨fuel - 2, by omega⟩
    rw [upTo, if_pos (by omega), if_pos (by omega), upTo, if_neg (by omega)]
    unfold sizes
    rw [Nat.div_eq_of_lt (by omega)]
    simp [Except.map]

theorem mem_sizes {max nb x : Nat} (hm : 0 < max) (h : x ∈ sizes max nb) : 1 ≤ x ∧ x ≤ max := by
  unfold sizes at h
  obtain ⟨q, hq, rfl⟩ := List.mem_map.1 h
  have h1 := List.mem_range.1 hq
  have h2 : q * nb ≤ max - 1 := (Nat.mul_le_mul_right nb (by omega)).trans (Nat.div_mul_le_self _ _)
  omega

theorem cases_spec (fuel nb : Nat) (hnb : 0 < nb) (ho : nb ≤ 2147483646) (hf : 303 ≤ fuel) :
    cases fuel nb = some (.ok (allCases nb)) := by
  unfold cases
  rw [upTo_sizes 302 nb fuel (by omega) (by omega) hnb ho (by omega), upTo_sizes 300 nb fuel (by omega) (by omega) hnb ho (by omega),
    upTo_sizes 301 nb fuel (by omega) (by omega) hnb ho (by omega)]
  rfl

/-- A product of the program. -/
structure Ok (c : Case) : Prop where
  k : 1 ≤ c.k ∧ c.k ≤ 302
  n : 1 ≤ c.n ∧ c.n ≤ 300
  m : 1 ≤ c.m ∧ c.m ≤ 301
  b : c.transB ∈ ['N', 'T', 'C']
  a : c.transA ∈ ['N', 'T', 'C']

theorem allCases_ok (nb : Nat) (c : Case) (h : c ∈ allCases nb) : Ok c := by
  unfold allCases at h
  simp only [List.mem_flatMap, List.mem_map] at h
  obtain ⟨k, hk, n, hn, m, hm, b, hb, a, ha, rfl⟩ := h
  exact ⟨mem_sizes (by omega) hk, mem_sizes (by omega) hn, mem_sizes (by omega) hm, hb, ha⟩

/-! ## One product -/

theorem fill_get (r s : Nat) (f : Nat → Nat → 𝕜) {i j : Nat} (hi : i < r) (hj : j < s) : (fill r s f)[i + j * r]? = some (f i j) := by
  have hlt : i + j * r < r * s := by
    calc i + j * r < r + j * r := by omega
      _ = (j + 1) * r := by ring
      _ ≤ s * r := Nat.mul_le_mul_right _ hj
      _ = r * s := Nat.mul_comm _ _
  unfold fill
  rw [List.getElem?_map, List.getElem?_range hlt]
  simp only [Option.map_some]
  rw [Nat.add_mul_mod_self_right, Nat.mod_eq_of_lt hi, Nat.add_mul_div_right _ _ (by omega), Nat.div_eq_of_lt hi, Nat.zero_add]

theorem fill_length (r s : Nat) (f : Nat → Nat → 𝕜) : (fill r s f).length = r * s := by simp [fill]

/-- The form of a letter. -/
def formOf (c : Char) : Form := if c = 'N' then .plain else if c = 'T' then .trans else .conj

theorem holds_fill (c : Char) (hc : c ∈ ['N', 'T', 'C']) (r s : Nat) (X : Nat → Nat → 𝕜) :
    Holds (formOf c) (fill (if noTrans c then r else s) (if noTrans c then s else r) X) (if noTrans c then r else s)
      (opOf c X : Matrix (Fin r) (Fin s) 𝕜) := by
  simp only [List.mem_cons, List.not_mem_nil, or_false] at hc
  rcases hc with rfl | rfl | rfl
  · intro i j
    exact fill_get r s X i.2 j.2
  · intro i j
    exact fill_get s r X j.2 i.2
  · intro i j
    exact ⟨_, fill_get s r X j.2 i.2, rfl⟩

theorem valid_args (val : ℝ → ℝ → 𝕜) (c : Case) (h : Ok c) : Valid (argsOf val c) (formOf c.transA) (formOf c.transB) := by
  obtain ⟨⟨k1, k2⟩, ⟨n1, n2⟩, ⟨m1, m2⟩, hb, ha⟩ := h
  obtain ⟨k, n, m, b, a⟩ := c
  simp only at k1 k2 n1 n2 m1 m2 hb ha
  have p1 : m * m ≤ 301 * 301 := Nat.mul_le_mul m2 m2
  have p2 : m * k ≤ 301 * 302 := Nat.mul_le_mul m2 k2
  have p3 : n * k ≤ 300 * 302 := Nat.mul_le_mul n2 k2
  have p4 : n * n ≤ 300 * 300 := Nat.mul_le_mul n2 n2
  have p5 : n * m ≤ 300 * 301 := Nat.mul_le_mul n2 m2
  simp only [List.mem_cons, List.not_mem_nil, or_false] at ha hb
  rcases ha with rfl | rfl | rfl <;> rcases hb with rfl | rfl | rfl <;>
    refine ⟨⟨by simp [argsOf, formOf, Form.letters], by simp [argsOf, formOf, Form.letters], ⟨m1, n1⟩, ?_, ?_, ?_⟩, ?_⟩ <;>
    simp only [argsOf, formOf, noTrans, isTrans, isConj] <;> simp <;> omega

/-- A list that holds a matrix and nothing else. -/
theorem list_eq {m n : Nat} (hm : 0 < m) (l l' : List 𝕜) (h : l.length = m * n) (h' : l'.length = m * n) (X : Matrix (Fin m) (Fin n) 𝕜)
    (hx : Holds .plain l m X) (hx' : Holds .plain l' m X) : l = l' := by
  refine List.ext_getElem? fun p => ?_
  by_cases hp : p < m * n
  · have h1 : p % m < m := Nat.mod_lt _ hm
    have h2 : p / m < n := Nat.div_lt_of_lt_mul hp
    have e : p % m + p / m * m = p := by rw [Nat.mul_comm]; exact Nat.mod_add_div p m
    have a1 := hx ⟨p % m, h1⟩ ⟨p / m, h2⟩
    have a2 := hx' ⟨p % m, h1⟩ ⟨p / m, h2⟩
    simp only [e] at a1 a2
    rw [a1, a2]
  · rw [List.getElem?_eq_none (by omega), List.getElem?_eq_none (by omega)]

theorem cNorm_sum {m n : Nat} (l : List 𝕜) (h : l.length = m * n) (X : Matrix (Fin m) (Fin n) 𝕜) (hx : Holds .plain l m X) :
    cNorm l = ∑ i, ∑ j, ‖X i j‖ := by
  have e1 : ∀ (l : List 𝕜) (s : ℝ), l.foldl (fun s x => s + ‖x‖) s = s + (l.map fun x => ‖x‖).sum := by
    intro l
    induction l with
    | nil => intro s; simp
    | cons x l ih => intro s; rw [List.foldl_cons, ih, List.map_cons, List.sum_cons, add_assoc]
  unfold cNorm
  rw [e1, zero_add, ← Fin.sum_univ_fun_getElem, Finset.sum_comm, ← Fintype.sum_prod_type' (f := fun j i => ‖X i j‖)]
  have hl : n * m = l.length := by rw [h, Nat.mul_comm]
  refine (Equiv.sum_comp (finProdFinEquiv.trans (finCongr hl)) _).symm.trans ?_
  refine Finset.sum_congr rfl ?_
  rintro ⟨j, i⟩ _
  have := hx i j
  obtain ⟨hlt, he⟩ := List.getElem?_eq_some_iff.1 this
  have hv : ((finProdFinEquiv.trans (finCongr hl)) (j, i)).val = i.val + j.val * m := by
    simp [finProdFinEquiv, Nat.mul_comm]
  simp only [← he]
  congr 1
  simp only [hv]

theorem maxErr_self (l : List 𝕜) : maxErr l l = 0 := by
  unfold maxErr
  have : ∀ (l : List 𝕜), (l.zip l).foldl (fun e x => max e ‖x.1 - x.2‖) 0 = (0 : ℝ) := by
    intro l
    induction l with
    | nil => rfl
    | cons x l ih => simpa using ih
  exact this l

theorem trial_spec (val : ℝ → ℝ → 𝕜) (nb threads : Nat) (c : Case) (h : Ok c) (ht : threads ≠ 0 ∨ isSmall nb c.m c.n = true)
    (r : Out (ℝ × ℝ)) : Trial val nb threads c r ↔ r = .ok (0, ∑ i, ∑ j, ‖product val c i j‖) := by
  have hv := valid_args val c h
  have hA : Holds (formOf c.transA) (argsOf val c).A (argsOf val c).ldA (opOf c.transA (aVal val) : Matrix (Fin c.m) (Fin c.k) 𝕜) :=
    holds_fill c.transA h.a c.m c.k (aVal val)
  have hB : Holds (formOf c.transB) (argsOf val c).B (argsOf val c).ldB
      (opOf c.transB (if c.transB = 'N' then bVal val c.k c.n else bVal val c.n c.k) : Matrix (Fin c.k) (Fin c.n) 𝕜) := by
    have hX : (if c.transB = 'N' then bVal val c.k c.n else bVal val c.n c.k) =
        bVal val (if noTrans c.transB then c.k else c.n) (if noTrans c.transB then c.n else c.k) := by
      have := h.b
      simp only [List.mem_cons, List.not_mem_nil, or_false] at this
      rcases this with e | e | e <;> rw [e] <;> rfl
    rw [hX]
    exact holds_fill c.transB h.b c.k c.n _
  have hC : Holds .plain (fill c.m c.n (cVal val c)) (argsOf val c).ldC (Matrix.of fun (i : Fin c.m) (j : Fin c.n) => cVal val c i j) := by
    intro i j
    exact fill_get c.m c.n (cVal val c) i.2 j.2
  have hspec : ∀ nb (r : Out (List 𝕜)), GemmR.Run (argsOf val c) nb (fill c.m c.n (cVal val c)) r →
      ∃ C', r = .ok C' ∧ C'.length = c.m * c.n ∧ Holds .plain C' c.m (product val c) := by
    intro nb r hr
    obtain ⟨C', e1, e2, e3, _⟩ := gemm_spec (argsOf val c) _ _ hv _ _ hA hB _ _ hC nb r hr
    exact ⟨C', e1, e2.trans (fill_length _ _ _), e3⟩
  have hg : ∃ C, gemm (argsOf val c) (fill c.m c.n (cVal val c)) = .ok C ∧ C.length = c.m * c.n ∧ Holds .plain C c.m (product val c) := by
    unfold gemm
    cases hb : blasSteps (argsOf val c) (argsOf val c).m (argsOf val c).n 0 0 0 with
    | ok l =>
      obtain ⟨C, e1, e2⟩ := hspec 0 _ (.small l rfl hb)
      exact ⟨C, e1, e2⟩
    | error e =>
      obtain ⟨C, e1, _⟩ := hspec 0 _ (.smallBad e rfl hb)
      cases e1
  obtain ⟨C, g1, g2, g3⟩ := hg
  have hdone : ∀ r', GemmR.Run (argsOf val c) nb (fill c.m c.n (cVal val c)) r' →
      (do
        let C' ← r'
        let C ← gemm (argsOf val c) (fill c.m c.n (cVal val c))
        return (maxErr C C', cNorm C)) = (.ok (0, ∑ i, ∑ j, ‖product val c i j‖) : Out (ℝ × ℝ)) := by
    intro r' hr'
    obtain ⟨C', e1, e2, e3⟩ := hspec nb r' hr'
    have hCC : C = C' := list_eq h.m.1 C C' g2 e2 _ g3 e3
    rw [e1, g1]
    show Except.ok (maxErr C C', cNorm C) = _
    rw [← hCC, maxErr_self, cNorm_sum C g2 _ g3]
  constructor
  · intro hr
    cases hr with
    | done r' _ hr' => exact hdone r' hr'
    | noThreads h0 h1 =>
      rcases ht with ht | ht
      · exact absurd h0 ht
      · rw [ht] at h1; cases h1
  · rintro rfl
    obtain ⟨r', hr'⟩ := run_exists (argsOf val c) nb (fill c.m c.n (cVal val c))
    rw [← hdone r' hr']
    exact .done r' ht hr'

theorem blockSize_ceil (m k : Nat) (hk : 0 < k) : blockSize m k = .ok (ceilDiv m k) := by
  unfold blockSize ceilDiv
  rw [if_neg (by omega)]
  refine congrArg Except.ok ?_
  have hd := Nat.div_add_mod m k
  have hlt := Nat.mod_lt m hk
  split
  · rename_i h
    have : m + k - 1 = (k - 1) + k * (m / k) := by omega
    rw [this, Nat.add_mul_div_left _ _ hk, Nat.div_eq_of_lt (show k - 1 < k by omega)]
    omega
  · rename_i h
    have : m + k - 1 = (m % k - 1) + k * (m / k + 1) := by rw [Nat.mul_add]; omega
    rw [this, Nat.add_mul_div_left _ _ hk, Nat.div_eq_of_lt (show m % k - 1 < k by omega)]
    omega

theorem report_ok (val : ℝ → ℝ → 𝕜) (fd : ℝ → List Char) (debug : Bool) (nb : Nat) (hnb : 0 < nb) (c : Case) (h : Ok c) :
    report fd debug nb c (0, ∑ i, ∑ j, ‖product val c i j‖) = .ok (0, if debug then linesOf val fd nb c else []) := by
  have hpos : (0 : ℝ) < 1 / 10000000 := by norm_num
  have hn : ∀ x, nblocks nb x = ceilDiv x nb := by
    intro x
    unfold nblocks ceilDiv
    congr 1
    omega
  have hc : ∀ x, 0 < x → 0 < ceilDiv x nb := fun x hx => Nat.div_pos (by omega) hnb
  unfold report
  simp only [hpos, decide_true, Bool.not_true, Bool.false_or]
  cases debug with
  | false => rfl
  | true =>
    by_cases hs : c.m ≤ nb ∧ c.n ≤ nb
    · have : isSmall nb c.m c.n = true := by unfold isSmall; rw [if_neg (by omega)]; simpa using hs
      simp only [this, linesOf, if_pos hs]
      rfl
    · have : isSmall nb c.m c.n = false := by unfold isSmall; rw [if_neg (by omega)]; simpa using hs
      simp only [this, linesOf, if_neg hs]
      unfold tileText
      simp only [hn, blockSize_ceil c.m _ (hc _ h.m.1), blockSize_ceil c.n _ (hc _ h.n.1)]
      rfl

theorem tests_spec (val : ℝ → ℝ → 𝕜) (fd : ℝ → List Char) (debug : Bool) (nb threads : Nat) (hnb : 0 < nb) : ∀ (l : List Case),
    (∀ c ∈ l, Ok c) → (∀ c ∈ l, threads ≠ 0 ∨ isSmall nb c.m c.n = true) → ∀ r,
    Tests val fd debug nb threads l r ↔ r = .ok (0, if debug then l.flatMap (linesOf val fd nb) else []) := by
  intro l
  induction l with
  | nil =>
    intro _ _ r
    have : (if debug = true then ([] : List Case).flatMap (linesOf val fd nb) else []) = [] := by cases debug <;> rfl
    rw [this]
    constructor
    · intro h; cases h; rfl
    · rintro rfl; exact .nil
  | cons c l ih =>
    intro hok hth r
    have ih := ih (fun d hd => hok d (List.mem_cons_of_mem _ hd)) (fun d hd => hth d (List.mem_cons_of_mem _ hd))
    have ht := trial_spec val nb threads c (hok c List.mem_cons_self) (hth c List.mem_cons_self)
    have hr := report_ok val fd debug nb hnb c (hok c List.mem_cons_self)
    have e : (do
        let x ← (.ok (0, ∑ i, ∑ j, ‖product val c i j‖) : Out (ℝ × ℝ))
        let y ← report fd debug nb c x
        let z ← (.ok (0, if debug then l.flatMap (linesOf val fd nb) else []) : Out (Nat × List Char))
        return (y.1 + z.1, y.2 ++ z.2)) =
        (.ok (0, if debug then (c :: l).flatMap (linesOf val fd nb) else []) : Out (Nat × List Char)) := by
      simp only [bind, Except.bind, hr]
      cases debug <;> rfl
    constructor
    · intro h
      cases h with
      | cons _ _ r1 r2 h1 h2 =>
        rw [(ht r1).1 h1, (ih r2).1 h2]
        exact e
    · rintro rfl
      rw [← e]
      exact .cons c l _ _ ((ht _).2 rfl) ((ih _).2 rfl)

theorem main_spec (fd : ℝ → List Char) (debug : Bool) (nb threads : Nat) (hnb : 0 < nb)
    (hth : ∀ c ∈ allCases nb, threads ≠ 0 ∨ isSmall nb c.m c.n = true) (r : Out (List Char)) :
    Main fd debug nb threads (allCases nb) r ↔ r = .ok (expected fd debug nb) := by
  have h1 := tests_spec (fun x _ => (x : ℝ)) fd debug nb threads hnb (allCases nb) (fun c => allCases_ok nb c) hth
  have h2 := tests_spec (fun x y => (⟨x, y⟩ : ℂ)) fd debug nb threads hnb (allCases nb) (fun c => allCases_ok nb c) hth
  have e : expected fd debug nb = (if debug then (allCases nb).flatMap (linesOf (fun x _ => (x : ℝ)) fd nb) else []) ++
      (if debug then (allCases nb).flatMap (linesOf (fun x y => (⟨x, y⟩ : ℂ)) fd nb) else []) ++ "ALL PASSED ".toList ++ "\n".toList := by
    unfold expected
    cases debug
    · rfl
    · simp only [if_true, List.append_assoc]
      rfl
  rw [e]
  constructor
  · intro h
    cases h with
    | passed t t' a b =>
      have a := (h1 _).1 a
      have b := (h2 _).1 b
      simp only [Except.ok.injEq, Prod.mk.injEq, true_and] at a b
      rw [a, b]
    | failed n t t' a b =>
      have b := (h2 _).1 b
      simp at b
    | failedReal n t a =>
      have a := (h1 _).1 a
      simp at a
    | badReal e a =>
      have a := (h1 _).1 a
      cases a
    | bad t e a b =>
      have b := (h2 _).1 b
      cases b
  · rintro rfl
    exact .passed _ _ ((h1 _).2 rfl) ((h2 _).2 rfl)

/-! ## The program -/

theorem construct_ok (b : Build) (t : Nat) (hb : b.usePthreads = true ∨ t = 1) : ∃ conf, construct b t = .ok conf ∧ conf.npthreads = t := by
  unfold construct
  rcases hb with hb | hb
  · rw [if_pos hb]; exact ⟨_, rfl, rfl⟩
  · by_cases hp : b.usePthreads = true
    · rw [if_pos hp]; exact ⟨_, rfl, rfl⟩
    · rw [if_neg hp, if_neg (by simp [hb])]; exact ⟨_, rfl, rfl⟩

theorem ends_main (fd : ℝ → List Char) (b : Build) (args : List (List Char)) (t nb : Nat) (d : Bool) (hs : settings args = .ok (t, nb, d))
    (hb : b.usePthreads = true ∨ t = 1) (fuel : Nat) (hnb : 0 < nb) (ho : nb ≤ 2147483646) (hf : 303 ≤ fuel) (r : Out (List Char)) :
    Ends fd b args fuel r ↔ Main fd d nb t (allCases nb) r := by
  obtain ⟨conf, hc, hcn⟩ := construct_ok b t hb
  have hcs := cases_spec fuel nb hnb ho hf
  constructor
  · intro h
    cases h with
    | refused e h => rw [hs] at h; cases h
    | concurrency t' nb' d' e h h' => rw [hs] at h; cases h; rw [hc] at h'; cases h'
    | overflow t' nb' d' conf' e h h' h'' => rw [hs] at h; cases h; rw [hcs] at h''; cases h''
    | main t' nb' d' conf' l r h h' h'' h3 =>
      rw [hs] at h; cases h
      rw [hc] at h'; cases h'
      rw [hcs] at h''; cases h''
      rw [hcn] at h3
      exact h3
  · intro h
    exact .main t nb d conf (allCases nb) r hs hc hcs (by rw [hcn]; exact h)

/-- **C138** For any number of threads and any positive block size, with or without the pthreads library, and however the threads are
scheduled, the program ends, all products agree, and this is what it prints. -/
theorem gemm_passes (fd : ℝ → List Char) (b : Build) (args : List (List Char)) (t nb : Nat) (d : Bool)
    (hs : settings args = .ok (t, nb, d)) (hb : b.usePthreads = true ∨ t = 1) (ht : 0 < t ∨ 301 ≤ nb) (hnb : 0 < nb) (ho : nb ≤ 2147483646)
    (fuel : Nat) (hf : 303 ≤ fuel) (r : Out (List Char)) : Ends fd b args fuel r ↔ r = .ok (expected fd d nb) := by
  rw [ends_main fd b args t nb d hs hb fuel hnb ho hf r]
  refine main_spec fd d nb t hnb (fun c hc => ?_) r
  rcases ht with ht | ht
  · exact Or.inl (by omega)
  · right
    have := allCases_ok nb c hc
    unfold isSmall
    rw [if_neg (by omega)]
    have h1 := this.m.2
    have h2 := this.n.2
    simp only [decide_eq_true_eq]
    omega

/-- **C138, violated part** A block size of zero: the program never ends. -/
theorem gemm_zero_fails (fd : ℝ → List Char) (b : Build) (args : List (List Char)) (t : Nat) (d : Bool)
    (hs : settings args = .ok (t, 0, d)) (hb : b.usePthreads = true ∨ t = 1) (fuel : Nat) (r : Out (List Char)) :
    ¬ Ends fd b args fuel r := by
  obtain ⟨conf, hc, _⟩ := construct_ok b t hb
  have hu : ∀ fuel, upTo 302 0 fuel 1 = none := by
    intro fuel
    induction fuel with
    | zero => rfl
    | succ fuel ih =>
      rw [upTo, if_pos (by omega), if_pos (by omega)]
      simp only [Nat.add_zero, ih]
      rfl
  have hcs : cases fuel 0 = none := by
    unfold cases
    rw [hu]
    rfl
  intro h
  cases h with
  | refused e h => rw [hs] at h; cases h
  | concurrency t' nb' d' e h h' => rw [hs] at h; cases h; rw [hc] at h'; cases h'
  | overflow t' nb' d' conf' e h h' h'' => rw [hs] at h; cases h; rw [hcs] at h''; cases h''
  | main t' nb' d' conf' l r h h' h'' h3 => rw [hs] at h; cases h; rw [hcs] at h''; cases h''

/-- **C138, violated part** A block size that is the largest `int`: the variables of the loops overflow. -/
theorem gemm_overflow_fails (fd : ℝ → List Char) (b : Build) (args : List (List Char)) (t : Nat) (d : Bool)
    (hs : settings args = .ok (t, 2147483647, d)) (hb : b.usePthreads = true ∨ t = 1) (fuel : Nat) (hf : 0 < fuel) (r : Out (List Char)) :
    Ends fd b args fuel r ↔ r = ubOut := by
  obtain ⟨conf, hc, _⟩ := construct_ok b t hb
  obtain ⟨f, rfl⟩ : ∃ f, fuel = f + 1 := ⟨fuel - 1, by omega⟩
  have hu : ∀ m, 0 < m → upTo m 2147483647 (f + 1) 1 = some ubOut := by
    intro m hm
    rw [upTo, if_pos (by omega), if_neg (by omega)]
  have hcs : cases (f + 1) 2147483647 = some ubOut := by
    unfold cases
    rw [hu _ (by omega), hu _ (by omega), hu _ (by omega)]
    rfl
  constructor
  · intro h
    cases h with
    | refused e h => rw [hs] at h; cases h
    | concurrency t' nb' d' e h h' => rw [hs] at h; cases h; rw [hc] at h'; cases h'
    | overflow t' nb' d' conf' e h h' h'' => rw [hs] at h; cases h; rw [hcs] at h''; cases h''; rfl
    | main t' nb' d' conf' l r h h' h'' h3 => rw [hs] at h; cases h; rw [hcs] at h''; cases h''
  · rintro rfl
    exact .overflow t _ d conf .ub hs hc hcs

theorem tests_stuck (val : ℝ → ℝ → 𝕜) (fd : ℝ → List Char) (debug : Bool) (nb : Nat) (hnb : 0 < nb) : ∀ (l : List Case),
    (∀ c ∈ l, Ok c) → (∃ c ∈ l, isSmall nb c.m c.n = false) → ∀ r, Tests val fd debug nb 0 l r ↔ r = ubOut := by
  intro l
  induction l with
  | nil => rintro _ ⟨c, hc, _⟩; cases hc
  | cons c l ih =>
    intro hok hex r
    have hokl := fun d hd => hok d (List.mem_cons_of_mem _ hd)
    have hc := hok c List.mem_cons_self
    cases hs : isSmall nb c.m c.n with
    | false =>
      have ht : ∀ r, Trial val nb 0 c r ↔ r = ubOut := by
        intro r
        constructor
        · intro h
          cases h with
          | done r' h' _ => rw [hs] at h'; simp at h'
          | noThreads _ _ => rfl
        · rintro rfl
          exact .noThreads rfl hs
      have hx : ∀ l : List Case, (∀ c ∈ l, Ok c) → ∃ r, Tests val fd debug nb 0 l r := by
        intro l
        induction l with
        | nil => intro _; exact ⟨_, .nil⟩
        | cons c l ih =>
          intro h
          obtain ⟨r, hr⟩ := ih fun d hd => h d (List.mem_cons_of_mem _ hd)
          cases hs : isSmall nb c.m c.n with
          | false => exact ⟨_, .cons c l _ r (.noThreads rfl hs) hr⟩
          | true => exact ⟨_, .cons c l _ r ((trial_spec val nb 0 c (h c List.mem_cons_self) (Or.inr hs) _).2 rfl) hr⟩
      constructor
      · intro h
        cases h with
        | cons _ _ r1 r2 h1 h2 => rw [(ht r1).1 h1]; rfl
      · rintro rfl
        obtain ⟨r', hr'⟩ := hx l hokl
        exact .cons c l ubOut r' ((ht _).2 rfl) hr'
    | true =>
      have hex' : ∃ c ∈ l, isSmall nb c.m c.n = false := by
        obtain ⟨d, hd, hd'⟩ := hex
        rcases List.mem_cons.1 hd with rfl | hd
        · rw [hs] at hd'; cases hd'
        · exact ⟨d, hd, hd'⟩
      have ih := ih hokl hex'
      have ht := trial_spec val nb 0 c hc (Or.inr hs)
      have hr := report_ok val fd debug nb hnb c hc
      have e : (do
          let x ← (.ok (0, ∑ i, ∑ j, ‖product val c i j‖) : Out (ℝ × ℝ))
          let y ← report fd debug nb c x
          let z ← (ubOut : Out (Nat × List Char))
          return (y.1 + z.1, y.2 ++ z.2)) = (ubOut : Out (Nat × List Char)) := by
        simp only [bind, Except.bind, hr]
        rfl
      constructor
      · intro h
        cases h with
        | cons _ _ r1 r2 h1 h2 =>
          rw [(ht r1).1 h1, (ih r2).1 h2]
          exact e
      · rintro rfl
        refine Eq.mp (congrArg _ e) (Tests.cons c l _ _ ((ht _).2 rfl) ((ih _).2 rfl))

/-- **C138, violated part** With no threads and a block size below 301, a loop over tiles divides by zero. -/
theorem gemm_noThreads_fails (fd : ℝ → List Char) (b : Build) (args : List (List Char)) (nb : Nat) (d : Bool)
    (hs : settings args = .ok (0, nb, d)) (hb : b.usePthreads = true) (hnb : 0 < nb) (hlt : nb < 301)
    (fuel : Nat) (hf : 303 ≤ fuel) (r : Out (List Char)) : Ends fd b args fuel r ↔ r = ubOut := by
  rw [ends_main fd b args 0 nb d hs (Or.inl hb) fuel hnb (by omega) hf r]
  have hex : ∃ c ∈ allCases nb, isSmall nb c.m c.n = false := by
    refine ⟨⟨1, 1, 1 + nb, 'N', 'N'⟩, ?_, ?_⟩
    · unfold allCases
      have h0 : ∀ max, 1 ∈ sizes max nb := fun max => List.mem_map.2 ⟨0, by simp, by omega⟩
      refine List.mem_flatMap.2 ⟨1, h0 _, List.mem_flatMap.2 ⟨1, h0 _, List.mem_flatMap.2 ⟨1 + nb, ?_, ?_⟩⟩⟩
      · refine List.mem_map.2 ⟨1, List.mem_range.2 ?_, by omega⟩
        have : 0 < (301 - 1) / nb := Nat.div_pos (by omega) hnb
        omega
      · exact List.mem_flatMap.2 ⟨'N', by simp, List.mem_map.2 ⟨'N', by simp, rfl⟩⟩
    · unfold isSmall
      rw [if_neg (by omega)]
      simp
  have h1 := tests_stuck (fun x _ => (x : ℝ)) fd d nb hnb (allCases nb) (fun c => allCases_ok nb c) hex
  constructor
  · intro h
    cases h with
    | passed t t' a b => have a := (h1 _).1 a; cases a
    | failed n t t' a b => have a := (h1 _).1 a; cases a
    | failedReal n t a => have a := (h1 _).1 a; cases a
    | badReal e a => exact (congrArg (fun x : Out (Nat × List Char) => x.map Prod.snd) ((h1 _).1 a))
    | bad t e a b => have a := (h1 _).1 a; cases a
  · rintro rfl
    exact .badReal .ub ((h1 _).2 rfl)

/-- **C138** The arguments: a number of threads, a block size (99 if not given), and a positive number to see every product. -/
theorem gemm_settings (t nb : Nat) (ht : t ≤ 2147483647) (hnb : nb ≤ 2147483647) (more : List (List Char)) (h : more.length ≠ 1) :
    settings [] = throwOut ∧ settings [Nat.toDigits 10 t] = .ok (t, 99, false) ∧
      settings (Nat.toDigits 10 t :: Nat.toDigits 10 nb :: more) = .ok (t, nb, false) ∧
      ∀ d ≤ 2147483647, settings [Nat.toDigits 10 t, Nat.toDigits 10 nb, Nat.toDigits 10 d] = .ok (t, nb, decide (0 < d)) := by
  have h1 := number_digits t ht
  have h2 := number_digits nb hnb
  refine ⟨rfl, ?_, ?_, fun d hd => ?_⟩
  · simp only [settings, h1]
    rfl
  · match more, h with
    | [], _ => simp only [settings, h1, h2]; rfl
    | _ :: _ :: _, _ => simp only [settings, h1, h2]; rfl
  · have h3 : flag (Nat.toDigits 10 d) = .ok (decide (0 < d)) := by
      unfold flag Host.atoi
      rw [Host.leading_nat, if_pos (by omega)]
      simp
    simp only [settings, h1, h2, h3]
    rfl

/-- **C138, violated part** A number the machine cannot hold, in any of the three places, is undefined behaviour and not an error. -/
theorem gemm_settings_fails (t nb d : Nat) (h : 2147483647 < t ∨ 2147483647 < nb ∨ 2147483647 < d) :
    settings [Nat.toDigits 10 t, Nat.toDigits 10 nb, Nat.toDigits 10 d] = ubOut := by
  have hbig : ∀ x : Nat, 2147483647 < x → Host.atoi (Nat.toDigits 10 x) = none := by
    intro x hx
    unfold Host.atoi
    rw [Host.leading_nat, if_neg (by omega)]
  have hnum : ∀ x : Nat, 2147483647 < x → number (Nat.toDigits 10 x) = ubOut := by
    intro x hx
    unfold number
    rw [hbig x hx]
  by_cases h1 : 2147483647 < t
  · simp only [settings, hnum t h1]
    rfl
  · have e1 := number_digits t (by omega)
    by_cases h2 : 2147483647 < nb
    · simp only [settings, e1, hnum nb h2]
      rfl
    · have e2 := number_digits nb (by omega)
      have e3 : flag (Nat.toDigits 10 d) = ubOut := by
        unfold flag
        rw [hbig d (by omega)]
      simp only [settings, e1, e2, e3]
      rfl

/-- The hypotheses are met. -/
example : settings [Nat.toDigits 10 4, Nat.toDigits 10 99, Nat.toDigits 10 3000000000] = ubOut := gemm_settings_fails 4 99 3000000000 (by omega)

/-- The hypotheses are met: four threads and blocks of 99. -/
example (fd : ℝ → List Char) (r : Out (List Char)) :
    Ends fd ⟨true, false⟩ ["4".toList] 1000 r ↔ r = .ok "ALL PASSED \n".toList :=
  gemm_passes fd ⟨true, false⟩ _ 4 99 false (gemm_settings 4 0 (by omega) (by omega) [] (by simp)).2.1 (Or.inl rfl) (Or.inl (by omega))
    (by omega) (by omega) 1000 (by omega) r

end Verif.Whole.Gemm
